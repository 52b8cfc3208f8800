import Verif.Props.SchedWake
/-!
# Tasks added before the start (C34)
-/
namespace Asyncz
namespace Sched
variable {σ τ φ : Type} {O : StoreOps σ (Body τ φ)}

/-! ## Specification -/

/-- a task that waits for the scheduler to start: the task, whether it may replace another one, and whether it is to be
scheduled (false: it was added with `next_run_time=None`, that is paused) -/
abbrev Waiting (τ φ : Type) := T τ φ × Bool × Bool

/-- two waiting tasks that cannot both be stored -/
def SameName (p q : Waiting τ φ) : Prop := p.1.body.store = q.1.body.store ∧ p.1.id = q.1.id

instance (p q : Waiting τ φ) : Decidable (SameName p q) := by unfold SameName; exact inferInstance

/-- with several processes (`lock_path`) nothing runs before the startup delay has passed -/
def NotBefore (c : Cfg τ) (e : Env τ) (n r : Int) : Prop :=
  (c.lockPath = false ∧ r = n) ∨ (c.lockPath = true ∧ r = max (e.now + c.startupDelay) n)

/-- the first run time of a waiting task: the one given, or else the trigger's first one, or none if it was added
paused -/
inductive FirstRun (c : Cfg τ) (e : Env τ) (q : Waiting τ φ) : Option Int → Prop
  | given {n r : Int} (h : q.1.nrt = some n) (hr : NotBefore c e n r) : FirstRun c e q (some r)
  | paused (h : q.1.nrt = none) (hs : q.2.2 = false) : FirstRun c e q none
  | first {n r : Int} (h : q.1.nrt = none) (hs : q.2.2 = true) (ht : e.next 2 q.1.body.trigger none e.now = .ok (some n))
      (hr : NotBefore c e n r) : FirstRun c e q (some r)
  | never (h : q.1.nrt = none) (hs : q.2.2 = true) (ht : e.next 2 q.1.body.trigger none e.now = .ok none) :
      FirstRun c e q none

theorem firstRun_iff {c : Cfg τ} {e : Env τ} {q : Waiting τ φ} {n : Option Int} :
    firstTime e q.1 q.2.2 (if c.lockPath then some (e.now + c.startupDelay) else none) = .ok n ↔ FirstRun c e q n := by
  obtain ⟨t, rep, st⟩ := q
  constructor
  · intro h
    simp only [firstTime] at h
    cases hn : t.nrt with
    | none =>
      rw [hn] at h
      cases st with
      | false => cases h; exact .paused hn rfl
      | true =>
        simp only [] at h
        split at h
        · cases h
        · cases h; exact .never hn rfl (by assumption)
        · rename_i m hm
          cases h
          refine .first hn rfl hm ?_
          cases hl : c.lockPath <;> simp [NotBefore, hl]
    | some m =>
      rw [hn] at h
      cases h
      refine .given hn ?_
      cases hl : c.lockPath <;> simp [NotBefore, hl]
  · intro h
    cases h with
    | given h hr =>
      simp only at h
      simp only [firstTime, h]
      rcases hr with ⟨hl, rfl⟩ | ⟨hl, rfl⟩ <;> simp [hl]
    | paused h hs =>
      simp only at h hs; subst hs
      simp [firstTime, h]
    | first h hs ht hr =>
      simp only at h hs ht; subst hs
      simp only [firstTime, h, ht]
      rcases hr with ⟨hl, rfl⟩ | ⟨hl, rfl⟩ <;> simp [hl]
    | never h hs ht =>
      simp only at h hs ht; subst hs
      simp [firstTime, h, ht]

/-! ## The loop over the waiting tasks -/

/-- what `real_add_task` makes of a waiting task -/
def stored (t : T τ φ) (n : Option Int) : T τ φ := { t with nrt := n, body := { t.body with pending := false } }

theorem addPending_spec (L : LawfulStore O) (e : Env τ) (minD : Option Int) (ps : List (Waiting τ φ))
    {s s' : State σ τ φ} (hw : WF L s) (h : addPending O e minD ps s = (s', .ok ())) :
    (∀ a j, (∀ q ∈ ps, ¬ (q.1.body.store = a ∧ q.1.id = j)) → entry O s' a j = entry O s a j) ∧
    (∀ pre q post, ps = pre ++ q :: post → (∀ p ∈ post, SameName p q → p.2.1 = false) →
      (q.2.1 = true ∨ (entry O s q.1.body.store q.1.id = none ∧ ∀ p ∈ pre, ¬ SameName p q)) →
      ∃ n, firstTime e q.1 q.2.2 minD = .ok n ∧ entry O s' q.1.body.store q.1.id = some (stored q.1 n)) ∧
    (∀ a j, (entry O s a j).isSome → (entry O s' a j).isSome) ∧
    (∀ q ∈ ps, (entry O s' q.1.body.store q.1.id).isSome) ∧
    (∀ a j, (entry O s a j).isSome → (∀ q ∈ ps, q.1.body.store = a → q.1.id = j → q.2.1 = false) →
      entry O s' a j = entry O s a j) := by
  induction ps generalizing s with
  | nil =>
    simp only [addPending, Prod.mk.injEq, and_true] at h
    subst h
    exact ⟨fun _ _ _ => rfl, fun pre q post hp => by simp at hp, fun _ _ hq => hq, fun q hq => (List.not_mem_nil hq).elim, fun _ _ _ _ => rfl⟩
  | cons p ps ih =>
    obtain ⟨t, rep, st⟩ := p
    have hw1 := wf_realAddTask hw e t rep st minD
    -- after the first task
    have key : ∃ s1, addPending O e minD ps s1 = (s', .ok ()) ∧ WF L s1 ∧
        (∀ a j, ¬ (t.body.store = a ∧ t.id = j) → entry O s1 a j = entry O s a j) ∧
        ((rep = false ∧ (entry O s t.body.store t.id).isSome ∧ entry O s1 t.body.store t.id = entry O s t.body.store t.id) ∨
         ((entry O s t.body.store t.id = none ∨ rep = true) ∧ ∃ n, firstTime e t st minD = .ok n ∧
            entry O s1 t.body.store t.id = some (stored t n))) := by
      simp only [addPending] at h
      rcases realAddTask_spec L hw e t rep st minD with ⟨h1, h2⟩ | ⟨n, h1, h2, h3, h4, h5, h6, h7, h8, h9, h10⟩
      · cases hr : realAddTask O e t rep st minD s with
        | mk s1 r =>
          rw [hr] at h h1 h2 hw1
          simp only at h1 h2 hw1
          subst h1
          rcases h2 with ⟨x, h2, rfl⟩ | ⟨h2, rfl⟩ | ⟨h2, h3, rfl⟩
          · simp at h
          · simp at h
          · exact ⟨s1, h, hw, fun _ _ _ => rfl, .inl ⟨h2, h3, rfl⟩⟩
      · cases hr : realAddTask O e t rep st minD s with
        | mk s1 r =>
          rw [hr] at h h4 h10 hw1
          simp only at h4 h10 hw1
          subst h4
          refine ⟨s1, h, hw1, fun a j hn => ?_, .inr ⟨h3, n, h1, ?_⟩⟩
          · rw [h10, put, if_neg]; rintro ⟨rfl, rfl⟩; exact hn ⟨rfl, rfl⟩
          · rw [h10, put, if_pos ⟨rfl, rfl⟩]; rfl
    obtain ⟨s1, k1, k2, k3, k4⟩ := key
    obtain ⟨i1, i2, i3, i4, i5⟩ := ih k2 k1
    have hsome1 : (entry O s1 t.body.store t.id).isSome := by
      rcases k4 with ⟨_, h2, h3⟩ | ⟨_, n, _, h3⟩ <;> rw [h3]
      · exact h2
      · rfl
    have hmono : ∀ a j, (entry O s a j).isSome → (entry O s1 a j).isSome := by
      intro a j ha
      by_cases hn : t.body.store = a ∧ t.id = j
      · obtain ⟨rfl, rfl⟩ := hn; exact hsome1
      · rw [k3 a j hn]; exact ha
    refine ⟨fun a j hn => ?_, fun pre q post hp hpost hq => ?_, fun a j ha => i3 a j (hmono a j ha), fun q hq => ?_,
      fun a j ha hrep => ?_⟩
    · rw [i1 a j (fun q hq => hn q (List.mem_cons_of_mem _ hq)), k3 a j (hn _ (List.mem_cons_self ..))]
    · cases pre with
      | nil =>
        simp only [List.nil_append, List.cons.injEq] at hp
        obtain ⟨rfl, rfl⟩ := hp
        simp only [List.not_mem_nil, false_implies, implies_true, and_true] at hq
        rcases k4 with ⟨h1, h2, h3⟩ | ⟨_, n, h1, h2⟩
        · rcases hq with hq | hq
          · rw [h1] at hq; cases hq
          · rw [hq] at h2; cases h2
        · refine ⟨n, h1, ?_⟩
          rw [i5 _ _ hsome1 (fun p hp h1 h2 => hpost p hp ⟨h1, h2⟩), h2]
      | cons p pre =>
        simp only [List.cons_append, List.cons.injEq] at hp
        obtain ⟨rfl, rfl⟩ := hp
        refine i2 pre q post rfl hpost ?_
        rcases hq with hq | ⟨hq, hpre⟩
        · exact .inl hq
        · refine .inr ⟨?_, fun p hp => hpre p (List.mem_cons_of_mem _ hp)⟩
          rw [k3 _ _ (fun hc => hpre _ (List.mem_cons_self ..) hc), hq]
    · rcases List.mem_cons.1 hq with rfl | hq
      · exact i3 _ _ hsome1
      · exact i4 q hq
    · rw [i5 a j (hmono a j ha) (fun q hq => hrep q (List.mem_cons_of_mem _ hq))]
      by_cases hn : t.body.store = a ∧ t.id = j
      · obtain ⟨rfl, rfl⟩ := hn
        have hr0 : rep = false := hrep _ (List.mem_cons_self ..) rfl rfl
        rcases k4 with ⟨_, _, h3⟩ | ⟨h1, _⟩
        · exact h3
        · rcases h1 with h1 | h1
          · rw [h1] at ha; cases ha
          · rw [hr0] at h1; cases h1
      · exact k3 a j hn

theorem entry_withDefaults (L : LawfulStore O) (c : Cfg τ) {s : State σ τ φ} (hw : WF L s) (a j : String) :
    entry O (withDefaults O c s) a j = entry O s a j := by
  have hs : (withDefaults O c s).stores = (if s.stores.contains "default" then s.stores else s.stores.set "default" O.init) := by
    simp only [withDefaults, addStore_stores, stores_addExecutor]; rfl
  rw [entry_look, hs, entry_look]
  split
  · rfl
  · rename_i hc
    rw [look_set L L.init_inv, L.init_map]
    split
    · rename_i ha; subst ha
      simp only [look]
      cases hg : s.stores.get? "default" with
      | none => rfl
      | some st => simp [Dict.contains, hg] at hc
    · rfl

/-- **C34** (partial): let `start` return true.  Then no task waits any more; stored tasks that no waiting task names
are as before; every waiting task's name is stored.  A waiting task is in its store, with its first run time, if no
later one of the same name replaces it and it may replace others or is the first of its name; a task stored before
that no waiting one may replace is as before.  Partial: a waiting task whose name is taken is dropped silently
(`C34_conflict_witness`), and one that was paused while it waited is scheduled (`C36_pending_witness`). -/
theorem C34_start_partial (L : LawfulStore O) (c : Cfg τ) (e : Env τ) (paused : Bool) (s s' : State σ τ φ)
    (hs : Reachable L c s) (h : start O c e paused s = (s', .ok true)) :
    s'.pending = [] ∧
    (∀ a j, (∀ q ∈ s.pending, ¬ (q.1.body.store = a ∧ q.1.id = j)) → entry O s' a j = entry O s a j) ∧
    (∀ q ∈ s.pending, (entry O s' q.1.body.store q.1.id).isSome) ∧
    (∀ a j, (entry O s a j).isSome → (∀ q ∈ s.pending, q.1.body.store = a → q.1.id = j → q.2.1 = false) →
      entry O s' a j = entry O s a j) ∧
    ∀ pre q post, s.pending = pre ++ q :: post → (∀ p ∈ post, SameName p q → p.2.1 = false) →
      (q.2.1 = true ∨ (entry O s q.1.body.store q.1.id = none ∧ ∀ p ∈ pre, ¬ SameName p q)) →
      ∃ n, FirstRun c e q n ∧ entry O s' q.1.body.store q.1.id =
        some { q.1 with nrt := n, body := { q.1.body with pending := false } } := by
  have hw := hs.wf
  obtain ⟨_, h2⟩ := start_ok h
  rcases h2 with ⟨_, _, h2⟩ | ⟨_, _, _, _, hp, _, s2, h3, h4, _⟩
  · cases h2
  · have hw1 : WF L (withDefaults O c { s with refs := s.refs + 1 }) 
      :=
      wf_withDefaults (s := { s with refs := s.refs + 1 }) (hw.congr rfl) c
    have hd : ∀ a j, entry O (withDefaults O c { s with refs := s.refs + 1 }) a j = entry O s a j :=
      fun a j => entry_withDefaults L c (s := { s with refs := s.refs + 1 }) (hw.congr rfl) a j
    obtain ⟨k1, k2, k3, k4, k5⟩ := addPending_spec L e _ s.pending hw1 h3
    have hen : ∀ a j, entry O s' a j = entry O s2 a j := fun a j => by rw [entry_look, entry_look, h4]
    simp only [hen]
    simp only [hd] at k1 k2 k3 k5
    refine ⟨hp, k1, k4, k5, fun pre q post hq h1 h2 => ?_⟩
    obtain ⟨n, h5, h6⟩ := k2 pre q post hq h1 h2
    exact ⟨n, firstRun_iff.1 h5, h6⟩

/-- calls of `add_task`: the task, the `next_run_time` argument and `replace_existing` -/
abbrev Adds (τ φ : Type) := List (T τ φ × Option (Option Int) × Bool)

/-- the calls, one after the other -/
def addAll (O : StoreOps σ (Body τ φ)) (e : Env τ) : Adds τ φ → State σ τ φ → State σ τ φ
  | [], s => s
  | (t, nrt, rep) :: l, s => addAll O e l (addTask O e t nrt rep s).1

/-- the waiting task a call of `add_task` leads to -/
def asWaiting (p : T τ φ × Option (Option Int) × Bool) : Waiting τ φ :=
  ({ p.1 with nrt := p.2.1.getD p.1.nrt }, p.2.2, decide (p.2.1 ≠ some none))

theorem addAll_stopped (e : Env τ) (l : Adds τ φ) {s : State σ τ φ} (hm : s.mode = .stopped) :
    addAll O e l s = { s with pending := s.pending ++ l.map asWaiting } := by
  induction l generalizing s with
  | nil => simp [addAll]
  | cons p l ih =>
    obtain ⟨t, nrt, rep⟩ := p
    simp only [addAll, addTask, if_pos hm]
    rw [ih (by exact hm)]
    simp [asWaiting]

/-- **C34**: any number of tasks with different ids are added to a scheduler that is stopped, and then `start`
returns true: each of them is in its store with its first run time, nothing waits any more, and the tasks that were
stored before are as they were.  (The names are all that `C34_start_partial` leaves open.) -/
theorem C34_distinct (L : LawfulStore O) (c : Cfg τ) (e e' : Env τ) (paused : Bool) (s s' : State σ τ φ)
    (hs : Reachable L c s) (hm : s.mode = .stopped) (hp : s.pending = []) (l : Adds τ φ)
    (hl : l.Pairwise fun p q => ¬ (p.1.body.store = q.1.body.store ∧ p.1.id = q.1.id))
    (hn : ∀ p ∈ l, entry O s p.1.body.store p.1.id = none)
    (h : start O c e paused (addAll O e' l s) = (s', .ok true)) :
    s'.pending = [] ∧
    (∀ p ∈ l, ∃ n, FirstRun c e (asWaiting p) n ∧ entry O s' p.1.body.store p.1.id =
        some { p.1 with nrt := n, body := { p.1.body with pending := false } }) ∧
    ∀ a j t, entry O s a j = some t → entry O s' a j = some t := by
  have hs1 : ∀ {l : Adds τ φ} {s : State σ τ φ}, Reachable L c s → Reachable L c (addAll O e' l s) := by
    intro l
    induction l with
    | nil => exact fun h => h
    | cons p l ih =>
      obtain ⟨t, nrt, rep⟩ := p
      intro s h
      exact ih (.call (k := .addTask t nrt rep) (e := e') (fuel := 0) h trivial rfl)
  have hq := hs1 (l := l) hs
  have hst : ∀ a j, entry O (addAll O e' l s) a j = entry O s a j := fun a j => by rw [addAll_stopped e' l hm]; rfl
  have hpe : (addAll O e' l s).pending = l.map asWaiting := by rw [addAll_stopped e' l hm]; simp [hp]
  obtain ⟨k1, k2, k3, _, k5⟩ := C34_start_partial L c e paused _ s' hq h
  rw [hpe] at k2 k3 k5
  simp only [hst] at k2 k5
  refine ⟨k1, fun p hpl => ?_, fun a j t ht => ?_⟩
  · obtain ⟨pre, post, rfl⟩ := List.append_of_mem hpl
    obtain ⟨n, h1, h2⟩ := k5 (pre.map asWaiting) (asWaiting p) (post.map asWaiting) (by simp)
      (by
        intro q hqm hsame
        obtain ⟨q, hqm', rfl⟩ := List.mem_map.1 hqm
        rw [List.pairwise_append] at hl
        have := (List.pairwise_cons.1 hl.2.1).1 q hqm'
        exact absurd ⟨hsame.1.symm, hsame.2.symm⟩ this)
      (.inr ⟨hn p hpl, by
        intro q hqm hsame
        obtain ⟨q, hqm', rfl⟩ := List.mem_map.1 hqm
        rw [List.pairwise_append] at hl
        exact hl.2.2 q hqm' p (List.mem_cons_self ..) hsame⟩)
    exact ⟨n, h1, h2⟩
  · rw [k2 a j, ht]
    intro q hqm hsame
    obtain ⟨q, hqm', rfl⟩ := List.mem_map.1 hqm
    have := hn q hqm'
    change (q.1.body.store = a ∧ q.1.id = j) at hsame
    rw [hsame.1, hsame.2, ht] at this
    cases this

/-! ### Examples -/

/-- three tasks, one with a given time, one paused, one in another store -/
def exAdds : Adds Int Unit :=
  [(⟨"a", none, exBody 3 "default" "default" false 1⟩, none, false),
   (⟨"b", none, exBody 3 "default" "default" false 1⟩, some (some 50), false),
   (⟨"a", none, exBody 4 "default" "s1" false 1⟩, some none, false)]

/-- a scheduler with an extra store -/
def exTwo : State MS Int Unit := (addStore Memory.init "s1" State.init).1

theorem exTwo_reachable : Reachable Memory.lawful exCfg exTwo :=
  .call (k := .addStore Memory.init "s1") (e := exEnvAt 7) (fuel := 0) .init Memory.lawful.init_inv rfl

set_option synthInstance.maxSize 2048 in
example : (start Memory.ops exCfg (exEnvAt 7) false (addAll Memory.ops (exEnvAt 7) exAdds exTwo)).2 = .ok true ∧
    exSees (start Memory.ops exCfg (exEnvAt 7) false (addAll Memory.ops (exEnvAt 7) exAdds exTwo)).1
      [("default", "a"), ("default", "b"), ("s1", "a")] = ([some (some 7), some (some 50), some none], []) := by
  decide +kernel

example : exTwo.mode = .stopped ∧ exTwo.pending = [] ∧
    exAdds.Pairwise (fun p q => ¬ (p.1.body.store = q.1.body.store ∧ p.1.id = q.1.id)) ∧
    ∀ p ∈ exAdds, entry Memory.ops exTwo p.1.body.store p.1.id = none := by
  refine ⟨rfl, rfl, ?_, ?_⟩
  · decide +kernel
  · decide +kernel

set_option synthInstance.maxSize 2048 in
/-- **C34, counterexample**: a waiting task whose id is taken is lost at the start, and nobody is told: `start`
returns true, though `add_task` on a started scheduler raises `ConflictIdError`. -/
theorem C34_conflict_witness :
    let l : Adds Int Unit := [(⟨"a", none, exBody 3 "default" "default" false 1⟩, some (some 10), false),
      (⟨"a", none, exBody 4 "default" "default" false 1⟩, some (some 20), false)]
    (start Memory.ops exCfg (exEnvAt 7) false (addAll Memory.ops (exEnvAt 7) l State.init)).2 = .ok true ∧
    exSees (start Memory.ops exCfg (exEnvAt 7) false (addAll Memory.ops (exEnvAt 7) l State.init)).1
      [("default", "a")] = ([some (some 10)], []) ∧
    (addTask Memory.ops (exEnvAt 7) ⟨"a", none, exBody 4 "default" "default" false 1⟩ (some (some 20)) false
      (start Memory.ops exCfg (exEnvAt 7) false (addAll Memory.ops (exEnvAt 7) (l.take 1) State.init)).1).2 =
      .error (.conflict "a") := by
  decide +kernel

end Sched
end Asyncz
