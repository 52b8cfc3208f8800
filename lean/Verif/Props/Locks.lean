import Verif.Model.Locks
/-!
# Locks (C44)
-/
namespace Asyncz
namespace Locks

/-! ## Locks between threads -/

/-- thread `t` is inside a section that has the lock -/
def Has (s : St) (t : Nat) : Prop := true ∈ s.inside t

structure Inv (k : Kind) (s : St) : Prop where
  owner : ∀ t, Has s t → s.owner = some t
  count : ∀ t, s.owner = some t → (s.inside t).count true ≤ s.count
  pos : ∀ t, s.owner = some t → 1 ≤ s.count
  zero : s.owner = none → s.count = 0
  one : k = .lock → s.count ≤ 1

theorem mem_push {f : Nat → List Bool} {t u : Nat} {b : Bool} :
    true ∈ push f t b u ↔ (u = t ∧ b = true) ∨ true ∈ f u := by
  unfold push; split <;> simp_all [eq_comm]

theorem mem_pop {f : Nat → List Bool} {t u : Nat} (h : true ∈ pop f t u) : true ∈ f u := by
  unfold pop at h; split at h
  · exact List.mem_of_mem_tail h
  · exact h

theorem count_pop (f : Nat → List Bool) (t u : Nat) : (pop f t u).count true ≤ (f u).count true := by
  unfold pop; split
  · exact (List.tail_sublist _).count_le _
  · exact Nat.le_refl _

theorem inv_step {k : Kind} {a : Act} {s s' : St} (hi : Inv k s) (h : Step k a s s') : Inv k s' := by
  cases h with
  | enter h =>
    rename_i t
    have hown : s.owner = none ∨ (k = .rlock ∧ s.owner = some t) := by
      unfold free at h
      cases k <;> simp at h
      · exact .inl h
      · rcases h with h | h
        · exact .inl h
        · exact .inr ⟨rfl, h⟩
    refine ⟨?_, ?_, ?_, ?_, ?_⟩
    · intro u hu
      rcases mem_push.1 hu with ⟨rfl, _⟩ | hu
      · rfl
      · have := hi.owner u hu
        rcases hown with ho | ⟨_, ho⟩
        · rw [ho] at this; cases this
        · rw [ho] at this; exact this
    · intro u hu
      simp only [Option.some.injEq] at hu
      subst hu
      simp only [push, if_true, List.count_cons_self]
      rcases hown with ho | ⟨_, ho⟩
      · have : (s.inside t).count true = 0 := by
          rw [List.count_eq_zero]
          intro hm
          have := hi.owner t hm
          rw [ho] at this; cases this
        omega
      · have := hi.count t ho; omega
    · intro u _; exact Nat.le_add_left 1 _
    · intro hh; cases hh
    · rintro rfl
      rcases hown with ho | ⟨hk, _⟩
      · show s.count + 1 ≤ 1
        rw [hi.zero ho]; exact Nat.le_refl _
      · cases hk
  | refused h =>
    rename_i t
    refine ⟨fun u hu => ?_, fun u hu => ?_, hi.pos, hi.zero, hi.one⟩
    · rcases mem_push.1 hu with ⟨_, hb⟩ | hu
      · cases hb
      · exact hi.owner u hu
    · have := hi.count u hu
      show (push s.inside t false u).count true ≤ s.count
      unfold push; split
      · simpa using this
      · exact this
  | leaveFalse h =>
    exact ⟨fun u hu => hi.owner u (mem_pop hu), fun u hu => Nat.le_trans (count_pop _ _ _) (hi.count u hu), hi.pos, hi.zero, hi.one⟩
  | leaveRaised h =>
    exact ⟨fun u hu => hi.owner u (mem_pop hu), fun u hu => Nat.le_trans (count_pop _ _ _) (hi.count u hu), hi.pos, hi.zero, hi.one⟩
  | leaveTrue h =>
    rename_i t l
    have ho := hi.owner t (by unfold Has; rw [h]; simp)
    have hc := hi.count t ho
    have hp := hi.pos t ho
    have hct : (pop s.inside t t).count true + 1 = (s.inside t).count true := by
      simp only [pop, if_true, h, List.tail_cons, List.count_cons_self]
    refine ⟨?_, ?_, ?_, ?_, ?_⟩
    · intro u hu
      have hu' : true ∈ s.inside u := mem_pop hu
      have hut := hi.owner u hu'
      have : u = t := by rw [ho] at hut; exact (Option.some.inj hut).symm
      subst this
      have : 0 < (pop s.inside u u).count true := List.count_pos_iff.2 hu
      simp only [release]
      rw [if_neg (by omega), ho]
    · intro u hu
      simp only [release] at hu ⊢
      split at hu
      · cases hu
      · have : u = t := by rw [ho] at hu; exact (Option.some.inj hu).symm
        subst this
        omega
    · intro u hu
      simp only [release] at hu ⊢
      split at hu
      · cases hu
      · omega
    · intro hn
      simp only [release] at hn ⊢
      split at hn
      · omega
      · rw [ho] at hn; cases hn
    · intro hk
      have := hi.one hk
      simp only [release]; omega

theorem inv_init (k : Kind) : Inv k .init :=
  ⟨fun t ht => (by simp [Has, St.init] at ht), fun t h => (by cases h), fun t h => (by cases h), fun _ => rfl, fun _ => Nat.zero_le _⟩

theorem Reach.inv {k : Kind} {P : Act → Prop} {s : St} (h : Reach k P .init s) : Inv k s := by
  induction h with
  | init => exact inv_init k
  | step _ _ h ih => exact inv_step ih h

/-- **C44** (threads, exclusion): whatever is done, also if bodies raise, at most one thread is inside sections that
have the lock, and with the plain lock it is inside only one. -/
theorem C44_threads_exclusive (k : Kind) (P : Act → Prop) (s : St) (hs : Reach k P .init s) :
    (∀ t u, true ∈ s.inside t → true ∈ s.inside u → t = u) ∧
    (k = .lock → ∀ t, (s.inside t).count true ≤ 1) := by
  have hi := hs.inv
  refine ⟨fun t u ht hu => ?_, fun hk t => ?_⟩
  · have h1 := hi.owner t ht
    have h2 := hi.owner u hu
    rw [h1] at h2; exact Option.some.inj h2
  · by_cases h : true ∈ s.inside t
    · exact Nat.le_trans (hi.count t (hi.owner t h)) (hi.one hk)
    · rw [List.count_eq_zero.2 h]; exact Nat.zero_le _

/-- no body raises -/
def Quiet : Act → Prop
  | .leave _ raised => raised = false
  | _ => True

structure Exact (s : St) : Prop where
  count : ∀ t, s.owner = some t → (s.inside t).count true = s.count
  owner : ∀ t, s.owner = some t → Has s t

theorem exact_step {k : Kind} {a : Act} {s s' : St} (ha : Quiet a) (hi : Inv k s) (hx : Exact s) (h : Step k a s s') :
    Exact s' := by
  cases h with
  | enter h =>
    rename_i t
    refine ⟨fun u hu => ?_, fun u hu => ?_⟩
    · simp only [Option.some.injEq] at hu
      subst hu
      simp only [push, if_true, List.count_cons_self]
      cases ho : s.owner with
      | none =>
        have : (s.inside t).count true = 0 := by
          rw [List.count_eq_zero]
          intro hm
          have := hi.owner t hm
          rw [ho] at this; cases this
        rw [this, hi.zero ho]
      | some v =>
        have : v = t := by
          unfold free at h
          cases k <;> simp [ho] at h
          exact h
        subst this
        rw [hx.count v ho]
    · simp only [Option.some.injEq] at hu
      subst hu
      exact mem_push.2 (.inl ⟨rfl, rfl⟩)
  | refused h =>
    rename_i t
    refine ⟨fun u hu => ?_, fun u hu => mem_push.2 (.inr (hx.owner u hu))⟩
    have := hx.count u hu
    show (push s.inside t false u).count true = s.count
    unfold push; split
    · simpa using this
    · exact this
  | leaveFalse h =>
    rename_i t _ l
    have hpop : ∀ u, (pop s.inside t u).count true = (s.inside u).count true := by
      intro u; unfold pop; split
      · rename_i e; subst e; rw [h]; simp
      · rfl
    refine ⟨fun u hu => by rw [← hx.count u hu]; exact hpop u, fun u hu => ?_⟩
    have := List.count_pos_iff.2 (hx.owner u hu)
    rw [← hpop u] at this
    exact List.count_pos_iff.1 this
  | leaveRaised h => cases ha
  | leaveTrue h =>
    rename_i t l
    have ho := hi.owner t (by unfold Has; rw [h]; simp)
    have hc := hx.count t ho
    have hct : (pop s.inside t t).count true + 1 = (s.inside t).count true := by
      simp only [pop, if_true, h, List.tail_cons, List.count_cons_self]
    refine ⟨fun u hu => ?_, fun u hu => ?_⟩
    · simp only [release] at hu ⊢
      split at hu
      · cases hu
      · have : u = t := by rw [ho] at hu; exact (Option.some.inj hu).symm
        subst this; omega
    · simp only [release] at hu
      split at hu
      · cases hu
      · have : u = t := by rw [ho] at hu; exact (Option.some.inj hu).symm
        subst this
        exact List.count_pos_iff.1 (by show 0 < (pop s.inside u u).count true; omega)

/-- **C44** (threads, release), if no body raises: the lock is free whenever no thread is inside, so every attempt
to take it then succeeds; an attempt is refused only while some thread is inside.  Missing: bodies that raise. -/
theorem C44_threads_released_partial (k : Kind) (s : St) (hs : Reach k Quiet .init s) (t : Nat) :
    (free k s t = false → ∃ u, true ∈ s.inside u) ∧ ((∀ u, true ∉ s.inside u) → ∃ s', Step k (.enter t) s s') := by
  have hx : Exact s := by
    have : ∀ s, Reach k Quiet .init s → Exact s := by
      intro s h
      induction h with
      | init => exact ⟨fun t h => (by cases h), fun t h => (by cases h)⟩
      | step hs ha h ih => exact exact_step ha hs.inv ih h
    exact this s hs
  have key : free k s t = false → ∃ u, true ∈ s.inside u := by
    intro h
    cases ho : s.owner with
    | none => unfold free at h; cases k <;> simp [ho] at h
    | some u => exact ⟨u, hx.owner u ho⟩
  refine ⟨key, fun h => ?_⟩
  cases hf : free k s t with
  | true => exact ⟨_, .enter hf⟩
  | false =>
    obtain ⟨u, hu⟩ := key hf
    exact absurd hu (h u)

/-- a state in which nobody is inside and the lock is taken -/
def Stuck (s : St) (t : Nat) : Prop := s.owner = some t ∧ ∀ u, true ∉ s.inside u

/-- What is missing in `C44_threads_released_partial`: after one body raised, the lock stays taken for ever.  With the
plain lock no attempt succeeds any more; with the reentrant one only attempts of the same thread do. -/
theorem C44_threads_raise_witness :
    (∃ s, Reach .lock (fun _ => True) .init s ∧ Stuck s 1 ∧
      ∀ s', Reach .lock (fun _ => True) s s' → ∀ t s'', ¬ Step .lock (.enter t) s' s'') ∧
    (∃ s, Reach .rlock (fun _ => True) .init s ∧ Stuck s 1 ∧
      ∀ s', Reach .rlock (fun _ => True) s s' → ∀ t s'', Step .rlock (.enter t) s' s'' → t = 1) := by
  have mk : ∀ k, ∃ s, Reach k (fun _ => True) .init s ∧ Stuck s 1 ∧ s.count = 1 := by
    intro k
    refine ⟨_, .step (.step .init trivial (.enter (t := 1) (by cases k <;> rfl))) trivial
      (.leaveRaised (t := 1) (l := []) rfl), ⟨rfl, fun u => ?_⟩, rfl⟩
    intro hm
    have := mem_push.1 (mem_pop hm)
    rcases this with ⟨rfl, _⟩ | h
    · have hm' : true ∈ ([] : List Bool) := hm
      cases hm'
    · cases h
  constructor
  · obtain ⟨s, hs, hst, _⟩ := mk .lock
    refine ⟨s, hs, hst, ?_⟩
    have inv : ∀ s', Reach .lock (fun _ => True) s s' → Stuck s' 1 := by
      intro s' h
      induction h with
      | init => exact hst
      | step _ _ h ih =>
        cases h with
        | enter h => unfold free at h; rw [ih.1] at h; cases h
        | refused h =>
          refine ⟨ih.1, fun u hu => ?_⟩
          rcases mem_push.1 hu with ⟨_, hb⟩ | hu
          · cases hb
          · exact ih.2 u hu
        | leaveFalse h => exact ⟨ih.1, fun u hu => ih.2 u (mem_pop hu)⟩
        | leaveTrue h => exact absurd (by rw [h]; simp) (ih.2 _)
        | leaveRaised h => exact absurd (by rw [h]; simp) (ih.2 _)
    intro s' hs' t s'' h
    cases h with
    | enter h => unfold free at h; rw [(inv s' hs').1] at h; cases h
  · obtain ⟨s, hs, hst, hc⟩ := mk .rlock
    refine ⟨s, hs, hst, ?_⟩
    have inv : ∀ s', Reach .rlock (fun _ => True) s s' → s'.owner = some 1 ∧
        (s'.inside 1).count true < s'.count ∧ ∀ u, u ≠ 1 → true ∉ s'.inside u := by
      intro s' h
      induction h with
      | init =>
        refine ⟨hst.1, ?_, fun u _ => hst.2 u⟩
        rw [List.count_eq_zero.2 (hst.2 1), hc]; exact Nat.one_pos
      | @step s1 _ _ _ _ h ih =>
        obtain ⟨i1, i2, i3⟩ := ih
        cases h with
        | enter h =>
          rename_i t
          have ht : t = 1 := by unfold free at h; rw [i1] at h; simp at h; exact h.symm
          subst ht
          refine ⟨rfl, ?_, fun u hu hm => ?_⟩
          · show (push s1.inside 1 true 1).count true < s1.count + 1
            simp only [push, if_true, List.count_cons_self]; omega
          · rcases mem_push.1 hm with ⟨e, _⟩ | hm
            · exact hu e
            · exact i3 u hu hm
        | refused h =>
          rename_i t
          refine ⟨i1, ?_, fun u hu hm => ?_⟩
          · show (push s1.inside t false 1).count true < s1.count
            unfold push; split
            · simpa using i2
            · exact i2
          · rcases mem_push.1 hm with ⟨_, e⟩ | hm
            · cases e
            · exact i3 u hu hm
        | leaveFalse h =>
          exact ⟨i1, Nat.lt_of_le_of_lt (count_pop _ _ _) i2, fun u hu hm => i3 u hu (mem_pop hm)⟩
        | leaveRaised h =>
          exact ⟨i1, Nat.lt_of_le_of_lt (count_pop _ _ _) i2, fun u hu hm => i3 u hu (mem_pop hm)⟩
        | leaveTrue h =>
          rename_i t l
          have ht : t = 1 := by
            by_cases ht : t = 1
            · exact ht
            · exact absurd (by rw [h]; simp) (i3 t ht)
          subst ht
          have hct : (pop s1.inside 1 1).count true + 1 = (s1.inside 1).count true := by
            simp only [pop, if_true, h, List.tail_cons, List.count_cons_self]
          refine ⟨?_, ?_, fun u hu hm => i3 u hu (mem_pop hm)⟩
          · simp only [release]; rw [if_neg (by omega)]; exact i1
          · show (pop s1.inside 1 1).count true < s1.count - 1
            omega
    intro s' hs' t s'' h
    cases h with
    | enter h =>
      have := (inv s' hs').1
      unfold free at h
      rw [this] at h; simp at h; exact h.symm

/-- nested sections of one thread under a reentrant lock while another thread is refused -/
example : ∃ s, Reach .rlock Quiet .init s ∧ s.inside 1 = [true, true] ∧ s.inside 2 = [false] := by
  refine ⟨_, .step (a := .refused 2) (.step (a := .enter 1) (.step (a := .enter 1) .init trivial (.enter rfl)) trivial
    (.enter rfl)) trivial (.refused rfl), rfl, rfl⟩

/-! ## File locks between processes -/
namespace File

/-- the sections that have the lock -/
def inside (s : St) : List Fd := s.fds.filter fun f => decide (f.phase = .holding)

structure Inv (s : St) : Prop where
  ids : (s.fds.map (·.id)).Nodup
  fresh : ∀ f ∈ s.fds, f.id < s.nextFd
  table : ∀ i g, s.locks i = some g ↔ ∃ f ∈ s.fds, f.id = g ∧ f.inode = i ∧ f.phase = .holding

theorem eq_of_id {l : List Fd} (h : (l.map (·.id)).Nodup) {f g : Fd} (hf : f ∈ l) (hg : g ∈ l) (he : f.id = g.id) : f = g := by
  induction l with
  | nil => cases hf
  | cons x l ih =>
    simp only [List.map_cons, List.nodup_cons] at h
    rcases List.mem_cons.1 hf with e1 | h1 <;> rcases List.mem_cons.1 hg with e2 | h2
    · rw [e1, e2]
    · exact absurd (List.mem_map.2 ⟨g, h2, by rw [← e1]; exact he.symm⟩) h.1
    · exact absurd (List.mem_map.2 ⟨f, h1, by rw [← e2]; exact he⟩) h.1
    · exact ih h.2 h1 h2

theorem ids_update {pre post : List Fd} {f f' : Fd} (h : f'.id = f.id) :
    (pre ++ f' :: post).map (·.id) = (pre ++ f :: post).map (·.id) := by simp [h]

theorem mem_other {pre post : List Fd} {f x : Fd} : x ∈ pre ++ f :: post ↔ x = f ∨ x ∈ pre ++ post := by
  simp only [List.mem_append, List.mem_cons]
  constructor
  · rintro (h | h | h)
    · exact .inr (.inl h)
    · exact .inl h
    · exact .inr (.inr h)
  · rintro (h | h | h)
    · exact .inr (.inl h)
    · exact .inl h
    · exact .inr (.inr h)

theorem ne_of_other {pre post : List Fd} {f x : Fd} (h : ((pre ++ f :: post).map (·.id)).Nodup) (hx : x ∈ pre ++ post) :
    x.id ≠ f.id := by
  simp only [List.map_append, List.map_cons, List.nodup_append, List.nodup_cons] at h
  obtain ⟨_, ⟨h2, _⟩, h3⟩ := h
  rcases List.mem_append.1 hx with hx | hx
  · exact h3 x.id (List.mem_map.2 ⟨x, hx, rfl⟩) f.id (by simp)
  · intro e; exact h2 (List.mem_map.2 ⟨x, hx, e⟩)

theorem inv_open {s : St} (hi : Inv s) (p i : Nat) (q : Option Nat) (n : Nat) :
    Inv ⟨q, n, s.nextFd + 1, s.fds ++ [⟨s.nextFd, p, i, .opened⟩], s.locks⟩ := by
  refine ⟨?_, ?_, ?_⟩
  · simp only [List.map_append, List.map_cons, List.map_nil, List.nodup_append]
    refine ⟨hi.ids, by simp, ?_⟩
    intro a ha b hb
    simp only [List.mem_singleton] at hb
    obtain ⟨f, hf, rfl⟩ := List.mem_map.1 ha
    have := hi.fresh f hf
    omega
  · intro f hf
    rcases List.mem_append.1 hf with hf | hf
    · exact Nat.lt_succ_of_lt (hi.fresh f hf)
    · rw [List.mem_singleton] at hf; subst hf; exact Nat.lt_succ_self _
  · intro j g
    show s.locks j = some g ↔ _
    rw [hi.table]
    constructor
    · rintro ⟨f, hf, h⟩; exact ⟨f, List.mem_append_left _ hf, h⟩
    · rintro ⟨f, hf, h⟩
      rcases List.mem_append.1 hf with hf | hf
      · exact ⟨f, hf, h⟩
      · rw [List.mem_singleton] at hf; subst hf; cases h.2.2

theorem inv_step {a : Act} {s s' : St} (hi : Inv s) (h : Step a s s') : Inv s' := by
  cases h with
  | openNew h => exact inv_open hi _ _ _ _
  | openOld h => exact inv_open hi _ _ _ _
  | shutdown => exact ⟨hi.ids, hi.fresh, hi.table⟩
  | lock hf hp h =>
    rename_i pre post f
    have hids := hi.ids
    rw [hf] at hids
    refine ⟨?_, ?_, ?_⟩
    · have := ids_update (pre := pre) (post := post) (f := f) (f' := { f with phase := .holding }) rfl
      exact this ▸ hids
    · intro g hg
      rcases mem_other.1 hg with rfl | hg
      · exact hi.fresh f (by rw [hf]; simp)
      · exact hi.fresh g (by rw [hf]; exact mem_other.2 (.inr hg))
    · intro j g
      simp only [setLock]
      split
      · rename_i e; subst e
        constructor
        · intro e
          simp only [Option.some.injEq] at e
          exact ⟨_, mem_other.2 (.inl rfl), e, rfl, rfl⟩
        · rintro ⟨x, hx, h1, h2, h3⟩
          rcases mem_other.1 hx with rfl | hx
          · rw [← h1]
          · exfalso
            have := (hi.table f.inode x.id).2 ⟨x, by rw [hf]; exact mem_other.2 (.inr hx), rfl, h2, h3⟩
            rw [h] at this; cases this
      · rename_i e
        rw [hi.table]
        constructor
        · rintro ⟨x, hx, h1, h2, h3⟩
          rw [hf] at hx
          rcases mem_other.1 hx with rfl | hx
          · exact absurd h2.symm e
          · exact ⟨x, mem_other.2 (.inr hx), h1, h2, h3⟩
        · rintro ⟨x, hx, h1, h2, h3⟩
          rcases mem_other.1 hx with rfl | hx
          · exact absurd h2.symm e
          · exact ⟨x, by rw [hf]; exact mem_other.2 (.inr hx), h1, h2, h3⟩
  | refuse hf hp h =>
    rename_i pre post f g0
    have hids := hi.ids
    rw [hf] at hids
    refine ⟨?_, ?_, ?_⟩
    · have := ids_update (pre := pre) (post := post) (f := f) (f' := { f with phase := .refused }) rfl
      exact this ▸ hids
    · intro g hg
      rcases mem_other.1 hg with rfl | hg
      · exact hi.fresh f (by rw [hf]; simp)
      · exact hi.fresh g (by rw [hf]; exact mem_other.2 (.inr hg))
    · intro j g
      show s.locks j = some g ↔ _
      rw [hi.table]
      constructor
      · rintro ⟨x, hx, h1, h2, h3⟩
        rw [hf] at hx
        rcases mem_other.1 hx with rfl | hx
        · rw [hp] at h3; cases h3
        · exact ⟨x, mem_other.2 (.inr hx), h1, h2, h3⟩
      · rintro ⟨x, hx, h1, h2, h3⟩
        rcases mem_other.1 hx with rfl | hx
        · cases h3
        · exact ⟨x, by rw [hf]; exact mem_other.2 (.inr hx), h1, h2, h3⟩
  | leaveLocked hf hp =>
    rename_i pre post f raised
    have hids := hi.ids
    rw [hf] at hids
    refine ⟨?_, ?_, ?_⟩
    · refine List.Nodup.sublist ?_ hids
      exact ((List.sublist_cons_self f post).append_left pre).map _
    · intro g hg
      exact hi.fresh g (by rw [hf]; exact mem_other.2 (.inr hg))
    · intro j g
      simp only [setLock]
      split
      · rename_i e; subst e
        constructor
        · intro e; cases e
        · rintro ⟨x, hx, h1, h2, h3⟩
          exfalso
          have hx' := (hi.table f.inode x.id).2 ⟨x, by rw [hf]; exact mem_other.2 (.inr hx), rfl, h2, h3⟩
          have hf' := (hi.table f.inode f.id).2 ⟨f, by rw [hf]; simp, rfl, rfl, hp⟩
          rw [hx'] at hf'
          exact ne_of_other hids hx (Option.some.inj hf')
      · rename_i e
        rw [hi.table]
        constructor
        · rintro ⟨x, hx, h1, h2, h3⟩
          rw [hf] at hx
          rcases mem_other.1 hx with rfl | hx
          · exact absurd h2.symm e
          · exact ⟨x, hx, h1, h2, h3⟩
        · rintro ⟨x, hx, h1, h2, h3⟩
          exact ⟨x, by rw [hf]; exact mem_other.2 (.inr hx), h1, h2, h3⟩
  | leaveRefused hf hp =>
    rename_i pre post f raised
    have hids := hi.ids
    rw [hf] at hids
    refine ⟨?_, ?_, ?_⟩
    · refine List.Nodup.sublist ?_ hids
      exact ((List.sublist_cons_self f post).append_left pre).map _
    · intro g hg
      exact hi.fresh g (by rw [hf]; exact mem_other.2 (.inr hg))
    · intro j g
      show s.locks j = some g ↔ _
      rw [hi.table]
      constructor
      · rintro ⟨x, hx, h1, h2, h3⟩
        rw [hf] at hx
        rcases mem_other.1 hx with rfl | hx
        · rw [hp] at h3; cases h3
        · exact ⟨x, hx, h1, h2, h3⟩
      · rintro ⟨x, hx, h1, h2, h3⟩
        exact ⟨x, by rw [hf]; exact mem_other.2 (.inr hx), h1, h2, h3⟩
  | crash =>
    rename_i p
    refine ⟨?_, ?_, ?_⟩
    · exact List.Nodup.sublist (List.filter_sublist.map _) hi.ids
    · intro f hf; exact hi.fresh f (List.mem_filter.1 hf).1
    · intro i g
      show (s.locks i).filter _ = some g ↔ _
      constructor
      · intro h
        rw [Option.filter_eq_some_iff] at h
        obtain ⟨h1, h2⟩ := h
        obtain ⟨f, hf, h3, h4, h5⟩ := (hi.table i g).1 h1
        obtain ⟨x, hx, hxe⟩ := List.any_eq_true.1 h2
        have hxe : x.id = g := by simpa using hxe
        have : x = f := eq_of_id hi.ids (List.mem_filter.1 hx).1 hf (by rw [hxe, h3])
        subst this
        exact ⟨x, hx, h3, h4, h5⟩
      · rintro ⟨f, hf, h3, h4, h5⟩
        rw [Option.filter_eq_some_iff]
        exact ⟨(hi.table i g).2 ⟨f, (List.mem_filter.1 hf).1, h3, h4, h5⟩, List.any_eq_true.2 ⟨f, hf, by simp [h3]⟩⟩

theorem Reach.inv {P : Act → Prop} {s : St} (h : Reach P s) : Inv s := by
  induction h with
  | init => exact ⟨by simp [St.init], by simp [St.init], by simp [St.init]⟩
  | step _ _ h ih => exact inv_step ih h

/-- nobody shuts the lock down -/
def Kept : Act → Prop
  | .shutdown => False
  | _ => True

theorem same_inode {s : St} (h : Reach Kept s) : ∀ f ∈ s.fds, s.path = some f.inode := by
  induction h with
  | init => simp [St.init]
  | step hs ha h ih =>
    cases h with
    | openNew h =>
      intro f hf
      rcases List.mem_append.1 hf with hf | hf
      · have := ih f hf; rw [h] at this; cases this
      · rw [List.mem_singleton] at hf; subst hf; rfl
    | openOld h =>
      intro f hf
      rcases List.mem_append.1 hf with hf | hf
      · exact ih f hf
      · rw [List.mem_singleton] at hf; subst hf; exact h
    | lock hf hp h =>
      rename_i f
      intro g hg
      rcases mem_other.1 hg with rfl | hg
      · exact ih f (by rw [hf]; exact mem_other.2 (.inl rfl))
      · exact ih g (by rw [hf]; exact mem_other.2 (.inr hg))
    | refuse hf hp h =>
      rename_i f _
      intro g hg
      rcases mem_other.1 hg with rfl | hg
      · exact ih f (by rw [hf]; exact mem_other.2 (.inl rfl))
      · exact ih g (by rw [hf]; exact mem_other.2 (.inr hg))
    | leaveLocked hf hp => intro g hg; exact ih g (by rw [hf]; exact mem_other.2 (.inr hg))
    | leaveRefused hf hp => intro g hg; exact ih g (by rw [hf]; exact mem_other.2 (.inr hg))
    | crash => intro g hg; exact ih g (List.mem_filter.1 hg).1
    | shutdown => exact ha.elim

/-- **C44** (processes, exclusion): whatever the processes do, also if bodies raise, processes die or the lock is shut
down, at most one section has the lock of one file; and if no scheduler shuts the lock down, at most one section has
the lock of that name.  Missing: exclusion across a shutdown. -/
theorem C44_files_exclusive_partial :
    (∀ P s, Reach P s → ∀ f ∈ inside s, ∀ g ∈ inside s, f.inode = g.inode → f = g) ∧
    (∀ s, Reach Kept s → ∀ f ∈ inside s, ∀ g ∈ inside s, f = g) := by
  have h1 : ∀ P s, Reach P s → ∀ f ∈ inside s, ∀ g ∈ inside s, f.inode = g.inode → f = g := by
    intro P s hs f hf g hg he
    have hi := hs.inv
    obtain ⟨hf1, hf2⟩ := List.mem_filter.1 hf
    obtain ⟨hg1, hg2⟩ := List.mem_filter.1 hg
    have a := (hi.table f.inode f.id).2 ⟨f, hf1, rfl, rfl, by simpa using hf2⟩
    have b := (hi.table f.inode g.id).2 ⟨g, hg1, rfl, he.symm, by simpa using hg2⟩
    rw [a] at b
    exact eq_of_id hi.ids hf1 hg1 (Option.some.inj b)
  refine ⟨h1, fun s hs f hf g hg => h1 _ s hs f hf g hg ?_⟩
  have a := same_inode hs f (List.mem_filter.1 hf).1
  have b := same_inode hs g (List.mem_filter.1 hg).1
  rw [a] at b; exact Option.some.inj b

/-- **C44** (processes, release): an attempt is refused only while another section of some living process has the
lock of the same file; so after a section is left, in any way, or its process died, the next attempt succeeds. -/
theorem C44_files_released (P : Act → Prop) (s : St) (hs : Reach P s) (f : Fd) (hf : f ∈ s.fds) (hp : f.phase = .opened) :
    ((∀ g ∈ inside s, g.inode ≠ f.inode) →
      ∃ s', Step (.lock f.id) s s' ∧ { f with phase := .holding } ∈ s'.fds) ∧
    ∀ s', Step (.lock f.id) s s' → { f with phase := .refused } ∈ s'.fds → ∃ g ∈ inside s, g.inode = f.inode := by
  have hi := hs.inv
  have key : ∀ g, s.locks f.inode = some g → ∃ g ∈ inside s, g.inode = f.inode := by
    intro g hg
    obtain ⟨x, hx, _, h2, h3⟩ := (hi.table _ g).1 hg
    exact ⟨x, List.mem_filter.2 ⟨hx, by simp [h3]⟩, h2⟩
  constructor
  · intro h
    obtain ⟨pre, post, hsplit⟩ := List.append_of_mem hf
    cases hl : s.locks f.inode with
    | none => exact ⟨_, .lock hsplit hp hl, by simp⟩
    | some g =>
      obtain ⟨x, hx, he⟩ := key g hl
      exact absurd he (h x hx)
  · intro s' h hm
    generalize ha : Act.lock f.id = a at h
    cases h with
    | openNew | openOld | leaveLocked | leaveRefused | crash | shutdown => cases ha
    | refuse hfs hp' hl =>
      rename_i pre post f' g
      injection ha with ha
      have : f = f' := eq_of_id hi.ids hf (by rw [hfs]; simp) ha
      subst this
      exact key g hl
    | lock hfs hp' hl =>
      rename_i pre post f'
      injection ha with ha
      have : f = f' := eq_of_id hi.ids hf (by rw [hfs]; simp) ha
      subst this
      exfalso
      have hids := hi.ids
      rw [hfs] at hids
      rcases mem_other.1 hm with h | h
      · injection h with _ _ _ h; cases h
      · exact ne_of_other hids h rfl

/-- two sections of different processes over one name, in both of which `locked` is true -/
theorem C44_shutdown_witness : ∃ s f g, Reach (fun _ => True) s ∧ f ∈ inside s ∧ g ∈ inside s ∧ f.proc ≠ g.proc := by
  refine ⟨_, ⟨0, 1, 0, .holding⟩, ⟨1, 2, 1, .holding⟩,
    .step (.step (.step (.step (.step .init trivial (.openNew (p := 1) rfl)) trivial
      (.lock (pre := []) (post := []) (f := ⟨0, 1, 0, .opened⟩) rfl rfl rfl)) trivial .shutdown) trivial
      (.openNew (p := 2) rfl)) trivial
      (.lock (pre := [⟨0, 1, 0, .holding⟩]) (post := []) (f := ⟨1, 2, 1, .opened⟩) rfl rfl rfl), ?_, ?_, by decide⟩
  · decide
  · decide

/-- a refused process, then one that gets the lock after a crash of its holder -/
example : ∃ s, Reach Kept s ∧ inside s = [⟨2, 3, 0, .holding⟩] ∧ s.fds = [⟨1, 2, 0, .refused⟩, ⟨2, 3, 0, .holding⟩] := by
  have s1 := Reach.step (P := Kept) (a := .open 1) .init trivial (.openNew (p := 1) rfl)
  have s2 := Reach.step (a := .lock 0) s1 trivial (.lock (pre := []) (post := []) (f := ⟨0, 1, 0, .opened⟩) rfl rfl rfl)
  have s3 := Reach.step (a := .open 2) s2 trivial (.openOld (i := 0) rfl)
  have s4 := Reach.step (a := .lock 1) s3 trivial
    (.refuse (pre := [⟨0, 1, 0, .holding⟩]) (post := []) (f := ⟨1, 2, 0, .opened⟩) (g := 0) rfl rfl rfl)
  have s5 := Reach.step (a := .crash 1) s4 trivial .crash
  have s6 := Reach.step (a := .open 3) s5 trivial (.openOld (i := 0) rfl)
  have s7 := Reach.step (a := .lock 2) s6 trivial
    (.lock (pre := [⟨1, 2, 0, .refused⟩]) (post := []) (f := ⟨2, 3, 0, .opened⟩) rfl rfl rfl)
  exact ⟨_, s7, rfl, rfl⟩

end File
end Locks
end Asyncz
