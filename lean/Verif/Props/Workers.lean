import Verif.Model.Workers
import Verif.Props.Locks
/-!
# Several workers over one store (C59)
-/
namespace Asyncz
namespace Workers

variable {ι : Type}

/-- The run times of a due task start at its next run time and increase, and the next run time is later than the last
of them (C12, C18, C24). -/
structure Advancing (E : Env ι) : Prop where
  first : ∀ id n now l, n ≤ now → E.runs id n now l → ∀ t ∈ l, n ≤ t
  increasing : ∀ id n now l, n ≤ now → E.runs id n now l → l.Pairwise (· < ·)
  next : ∀ id last now m, E.next id last now (some m) → last < m

/-- No worker is shut down meanwhile, none dies or raises between handing a task to its executor and writing the task
back, no API call sets a next run time that is not later than the run times already handed over, and no hand-over of a
task comes between reading and writing back by an API call that leaves its next run time alone. -/
def Careful : Act → Prop
  | .shutdown => False
  | .leave _ _ mid => mid = false
  | .crash _ mid => mid = false
  | .keep _ fresh => fresh = true
  | .at _ late => late = true
  | .add late => late = true
  | _ => True

open Locks.File (Fd)

structure Inv (s : St ι) : Prop where
  reach : Locks.File.Reach Locks.File.Kept s.fs
  holder : ∀ i, s.pass i ≠ .idle → ∃ f ∈ s.fs.fds, f.id = i ∧ f.phase = .holding
  run : ∀ i now l, s.pass i = .running now l → (l.map (·.1)).Nodup ∧ ∀ id n, (id, n) ∈ l → Late s.log id n ∧ n ≤ now
  sub : ∀ i now id last l, s.pass i = .submitted now id last l →
    (l.map (·.1)).Nodup ∧ id ∉ l.map (·.1) ∧ (∀ id n, (id, n) ∈ l → Late s.log id n ∧ n ≤ now) ∧
    ∀ t, (id, t) ∈ s.log → t ≤ last
  log : ∀ id n, s.store id = some (some n) → (∀ i now last l, s.pass i ≠ .submitted now id last l) → Late s.log id n
  calls : ∀ k c r, s.calls k = some c → c.fresh = true → c.read = some r → Late s.log c.id r
  order : s.log.Pairwise fun a b => a.1 = b.1 → a.2 < b.2

theorem Inv.unique {s : St ι} (h : Inv s) {i j : Nat} (hi : s.pass i ≠ .idle) (hj : s.pass j ≠ .idle) : i = j := by
  obtain ⟨f, hf, rfl, hp⟩ := h.holder i hi
  obtain ⟨g, hg, rfl, hq⟩ := h.holder j hj
  have := Locks.File.C44_files_exclusive_partial.2 s.fs h.reach f (List.mem_filter.2 ⟨hf, by simp [hp]⟩) g
    (List.mem_filter.2 ⟨hg, by simp [hq]⟩)
  rw [this]

theorem keep_step {a : Locks.File.Act} {s s' : Locks.File.St} (h : Locks.File.Step a s s') {f : Fd} (hf : f ∈ s.fds)
    (hp : f.phase = .holding) : (∃ r, a = .leave f.id r) ∨ a = .crash f.proc ∨ f ∈ s'.fds := by
  cases h with
  | openNew h => exact .inr (.inr (List.mem_append_left _ hf))
  | openOld h => exact .inr (.inr (List.mem_append_left _ hf))
  | shutdown => exact .inr (.inr hf)
  | lock hfs hq h =>
    rw [hfs] at hf
    rcases Locks.File.mem_other.1 hf with rfl | hf
    · rw [hp] at hq; cases hq
    · exact .inr (.inr (Locks.File.mem_other.2 (.inr hf)))
  | refuse hfs hq h =>
    rw [hfs] at hf
    rcases Locks.File.mem_other.1 hf with rfl | hf
    · rw [hp] at hq; cases hq
    · exact .inr (.inr (Locks.File.mem_other.2 (.inr hf)))
  | leaveLocked hfs hq =>
    rw [hfs] at hf
    rcases Locks.File.mem_other.1 hf with rfl | hf
    · exact .inl ⟨_, rfl⟩
    · exact .inr (.inr hf)
  | leaveRefused hfs hq =>
    rw [hfs] at hf
    rcases Locks.File.mem_other.1 hf with rfl | hf
    · exact .inl ⟨_, rfl⟩
    · exact .inr (.inr hf)
  | crash =>
    rename_i p
    by_cases h : f.proc = p
    · exact .inr (.inl (by rw [h]))
    · exact .inr (.inr (List.mem_filter.2 ⟨hf, by simp [h]⟩))

theorem setPass_self (f : Nat → Pass ι) (i : Nat) (x : Pass ι) : setPass f i x i = x := by simp [setPass]
theorem setPass_ne (f : Nat → Pass ι) {i j : Nat} (x : Pass ι) (h : j ≠ i) : setPass f i x j = f j := by simp [setPass, h]

/-- all other sections are idle -/
theorem Inv.others {s : St ι} (h : Inv s) {i j : Nat} (hi : s.pass i ≠ .idle) (hj : j ≠ i) : s.pass j = .idle := by
  cases hp : s.pass j with
  | idle => rfl
  | _ => exact absurd (h.unique (i := j) (j := i) (by rw [hp]; simp) hi) hj

/-- idle passes can be dropped -/
theorem Inv.drop {s : St ι} (h : Inv s) {fs' : Locks.File.St} (hr : Locks.File.Reach Locks.File.Kept fs')
    {p' : Nat → Pass ι} (hp : ∀ i, p' i = s.pass i ∨ (p' i = .idle ∧ (s.pass i).mid s.store = false))
    (hh : ∀ i, p' i ≠ .idle → ∃ f ∈ fs'.fds, f.id = i ∧ f.phase = .holding) : Inv { s with fs := fs', pass := p' } := by
  have back : ∀ i x, p' i = x → x ≠ .idle → s.pass i = x := by
    intro i x hx hne
    rcases hp i with e | ⟨e, _⟩
    · rw [← e]; exact hx
    · rw [hx] at e; exact absurd e hne
  refine ⟨hr, hh, fun i now l e => h.run i now l (back i _ e (by simp)),
    fun i now id last l e => h.sub i now id last l (back i _ e (by simp)), ?_, h.calls, h.order⟩
  intro id n hn hno
  refine h.log id n hn ?_
  intro i now last l e
  rcases hp i with e' | ⟨_, e'⟩
  · exact hno i now last l (by rw [← e]; exact e')
  · have hn : s.store id = some (some n) := hn
    rw [e] at e'; simp [Pass.mid, hn] at e'

/-- the store may change where the new value is later than what was handed over -/
theorem Inv.put {s : St ι} [DecidableEq ι] (h : Inv s) {id : ι} {v : Option (Option Int)} (hv : ∀ n, v = some (some n) → Late s.log id n)
    {calls : Nat → Option (Call ι)}
    (hc : ∀ k c r, calls k = some c → c.fresh = true → c.read = some r → Late s.log c.id r) :
    Inv { s with store := setStore s.store id v, calls := calls } := by
  refine ⟨h.reach, h.holder, h.run, h.sub, ?_, hc, h.order⟩
  intro id' n hn hno
  simp only [setStore] at hn
  split at hn
  · rename_i e; subst e; exact hv n hn
  · exact h.log id' n hn hno

theorem setCall_some {f : Nat → Option (Call ι)} {k j : Nat} {x : Option (Call ι)} {c : Call ι} (h : setCall f k x j = some c) :
    x = some c ∨ f j = some c := by
  unfold setCall at h
  split at h
  · exact .inl h
  · exact .inr h

theorem late_append {log : List (ι × Int)} {id id' : ι} {rs : List Int} {n : Int} (h : Late log id' n) (hne : id' ≠ id) :
    Late (log ++ rs.map fun t => (id, t)) id' n := by
  intro t ht
  rcases List.mem_append.1 ht with ht | ht
  · exact h t ht
  · obtain ⟨t', _, e⟩ := List.mem_map.1 ht
    cases e; exact absurd rfl hne

theorem inv_step [DecidableEq ι] {E : Env ι} (hE : Advancing E) {a : Act} {s s' : St ι} (hi : Inv s) (ha : Careful a) (h : Step E a s s') :
    Inv s' := by
  cases h with
  | «open» h =>
    refine hi.drop (.step (a := (.open _)) hi.reach trivial h) (fun _ => .inl rfl) (fun i hne => ?_)
    obtain ⟨f, hf, h1, h2⟩ := hi.holder i hne
    rcases keep_step h hf h2 with ⟨r, e⟩ | e | e
    · cases e
    · cases e
    · exact ⟨f, e, h1, h2⟩
  | lock h =>
    refine hi.drop (.step (a := (.lock _)) hi.reach trivial h) (fun _ => .inl rfl) (fun i hne => ?_)
    obtain ⟨f, hf, h1, h2⟩ := hi.holder i hne
    rcases keep_step h hf h2 with ⟨r, e⟩ | e | e
    · cases e
    · cases e
    · exact ⟨f, e, h1, h2⟩
  | shutdown h => exact ha.elim
  | leave h hr hm =>
    rename_i i raised mid fs'
    rw [← hm] at ha
    refine hi.drop (.step (a := (.leave _ _)) hi.reach trivial h) (fun j => ?_) (fun j hne => ?_)
    · by_cases e : j = i
      · subst e; exact .inr ⟨setPass_self _ _ _, ha⟩
      · exact .inl (setPass_ne _ _ e)
    · have hji : j ≠ i := by rintro rfl; exact hne (setPass_self _ _ _)
      rw [setPass_ne _ _ hji] at hne
      obtain ⟨f, hf, h1, h2⟩ := hi.holder j hne
      rcases keep_step h hf h2 with ⟨r, e⟩ | e | e
      · injection e with e; exact absurd (h1.symm.trans e.symm) hji
      · cases e
      · exact ⟨f, e, h1, h2⟩
  | crash h hm =>
    rename_i p mid fs'
    have ha : mid = false := ha
    subst ha
    have ha : ((s.fs.fds.filter fun f => f.proc == p).any fun f => (s.pass f.id).mid s.store) = false := hm
    refine hi.drop (.step (a := (.crash _)) hi.reach trivial h) (fun j => ?_) (fun j hne => ?_)
    · by_cases e : (s.fs.fds.filter fun f => f.proc == p).any (fun f => f.id == j) = true
      · right
        refine ⟨by simp only [e, if_true], ?_⟩
        obtain ⟨f, hf, hfj⟩ := List.any_eq_true.1 e
        have := (List.any_eq_false.1 ha) f hf
        have hfj : f.id = j := by simpa using hfj
        rw [hfj] at this
        simpa using this
      · left; simp only [e, Bool.false_eq_true, if_false]
    · by_cases e : (s.fs.fds.filter fun f => f.proc == p).any (fun f => f.id == j) = true
      · simp only [e, if_true] at hne; exact absurd rfl hne
      · simp only [e, Bool.false_eq_true, if_false] at hne
        obtain ⟨f, hf, h1, h2⟩ := hi.holder j hne
        rcases keep_step h hf h2 with ⟨r, e'⟩ | e' | e'
        · cases e'
        · injection e' with e'
          exfalso; apply e
          exact List.any_eq_true.2 ⟨f, List.mem_filter.2 ⟨hf, by simp [e']⟩, by simp [h1]⟩
        · exact ⟨f, e', h1, h2⟩
  | begin hf hp hid hl =>
    rename_i f now l
    have hall : ∀ j, s.pass j = .idle := by
      intro j
      cases hj : s.pass j with
      | idle => rfl
      | _ =>
        exfalso
        obtain ⟨g, hg, rfl, hq⟩ := hi.holder j (by rw [hj]; simp)
        have := Locks.File.C44_files_exclusive_partial.2 s.fs hi.reach f (List.mem_filter.2 ⟨hf, by simp [hp]⟩) g
          (List.mem_filter.2 ⟨hg, by simp [hq]⟩)
        rw [this] at hid; rw [hid] at hj; cases hj
    refine ⟨hi.reach, ?_, ?_, ?_, ?_, hi.calls, hi.order⟩
    · intro j hj
      by_cases e : j = f.id
      · exact ⟨f, hf, e.symm, hp⟩
      · simp only [setPass_ne _ _ e] at hj; exact absurd (hall j) hj
    · intro j now' l' hj
      by_cases e : j = f.id
      · subst e
        simp only [setPass_self] at hj
        cases hj
        refine ⟨hl.1, fun id n hm => ?_⟩
        obtain ⟨h1, h2⟩ := (hl.2 id n).1 hm
        exact ⟨hi.log id n h1 (fun i now last l => by rw [hall i]; simp), h2⟩
      · simp only [setPass_ne _ _ e, hall j] at hj; cases hj
    · intro j now' id last l' hj
      by_cases e : j = f.id
      · subst e; simp only [setPass_self] at hj; cases hj
      · simp only [setPass_ne _ _ e, hall j] at hj; cases hj
    · intro id n hn _
      exact hi.log id n hn (fun i now last l => by rw [hall i]; simp)
  | submit h hr =>
    rename_i i now n last id l r
    have hne : s.pass i ≠ .idle := by rw [h]; simp
    obtain ⟨hnd, hst⟩ := hi.run i now _ h
    simp only [List.map_cons, List.nodup_cons] at hnd
    obtain ⟨hlt, hnow⟩ := hst id n (by simp)
    have hge := hE.first id n now _ hnow hr
    have hinc := hE.increasing id n now _ hnow hr
    have hle : ∀ t ∈ r ++ [last], t ≤ last := by
      intro t ht
      rcases List.mem_append.1 ht with ht | ht
      · exact Int.le_of_lt ((List.pairwise_append.1 hinc).2.2 t ht last (by simp))
      · rw [List.mem_singleton] at ht; rw [ht]; exact Int.le_refl _
    have hlast : n ≤ last := hge last (by simp)
    refine ⟨hi.reach, ?_, ?_, ?_, ?_, ?_, ?_⟩
    · intro j hj
      by_cases e : j = i
      · subst e; exact hi.holder j hne
      · simp only [setPass_ne _ _ e] at hj; exact hi.holder j hj
    · intro j now' l' hj
      by_cases e : j = i
      · subst e; simp only [setPass_self] at hj; cases hj
      · simp only [setPass_ne _ _ e, hi.others hne e] at hj; cases hj
    · intro j now' id' last' l' hj
      by_cases e : j = i
      · subst e
        simp only [setPass_self] at hj
        cases hj
        refine ⟨hnd.2, hnd.1, fun id'' n'' hm => ?_, ?_⟩
        · obtain ⟨h1, h2⟩ := hst id'' n'' (List.mem_cons_of_mem _ hm)
          refine ⟨late_append h1 ?_, h2⟩
          rintro rfl
          exact hnd.1 (List.mem_map.2 ⟨_, hm, rfl⟩)
        · intro t ht
          rcases List.mem_append.1 ht with ht | ht
          · have := hlt t ht; omega
          · obtain ⟨t', ht', e'⟩ := List.mem_map.1 ht
            cases e'; exact hle t ht'
      · simp only [setPass_ne _ _ e, hi.others hne e] at hj; cases hj
    · intro id' n' hn' hno
      have hid : id' ≠ id := by
        rintro rfl
        exact hno i now last l (setPass_self _ _ _)
      refine late_append (hi.log id' n' hn' ?_) hid
      intro j now' last' l' hj
      have : j = i := hi.unique (by rw [hj]; simp) hne
      subst this
      rw [h] at hj; cases hj
    · intro k c x hc hf hx
      simp only [stale] at hc
      obtain ⟨c', hc', e⟩ := Option.map_eq_some_iff.1 hc
      by_cases hid : c'.id = id
      · rw [if_pos hid] at e
        rw [← e] at hf
        cases hf
      · rw [if_neg hid] at e
        subst e
        exact late_append (hi.calls k c' x hc' hf hx) hid
    · refine List.pairwise_append.2 ⟨hi.order, ?_, ?_⟩
      · rw [List.pairwise_map]
        exact List.Pairwise.imp (S := fun a b => (id, a).1 = (id, b).1 → (id, a).2 < (id, b).2) (fun h _ => h) hinc
      · intro x hx y hy e
        obtain ⟨t', ht', rfl⟩ := List.mem_map.1 hy
        obtain ⟨xi, xt⟩ := x
        have e : xi = id := e
        subst e
        have h1 := hlt xt hx
        have h2 := hge t' ht'
        show xt < t'
        omega
  | refuse h hr =>
    rename_i i now n last id l r
    have hne : s.pass i ≠ .idle := by rw [h]; simp
    obtain ⟨hnd, hst⟩ := hi.run i now _ h
    simp only [List.map_cons, List.nodup_cons] at hnd
    obtain ⟨hlt, hnow⟩ := hst id n (by simp)
    have hnone : ∀ id' j now' last' l', s.pass j ≠ .submitted now' id' last' l' := by
      intro id' j now' last' l' hj
      have : j = i := hi.unique (by rw [hj]; simp) hne
      subst this
      rw [h] at hj; cases hj
    have hlast : n ≤ last := hE.first id n now _ hnow hr last (by simp)
    refine ⟨hi.reach, ?_, ?_, ?_, ?_, hi.calls, hi.order⟩
    · intro j hj
      by_cases e : j = i
      · subst e; exact hi.holder j hne
      · simp only [setPass_ne _ _ e] at hj; exact hi.holder j hj
    · intro j now' l' hj
      by_cases e : j = i
      · subst e; simp only [setPass_self] at hj; cases hj
      · simp only [setPass_ne _ _ e, hi.others hne e] at hj; cases hj
    · intro j now' id' last' l' hj
      by_cases e : j = i
      · subst e
        simp only [setPass_self] at hj
        cases hj
        refine ⟨hnd.2, hnd.1, fun id'' n'' hm => hst id'' n'' (List.mem_cons_of_mem _ hm), ?_⟩
        intro t ht
        have := hlt t ht
        omega
      · simp only [setPass_ne _ _ e, hi.others hne e] at hj; cases hj
    · intro id' n' hn' hno
      exact hi.log id' n' hn' (hnone id')
  | drop h hx =>
    rename_i i now n id l
    have hne : s.pass i ≠ .idle := by rw [h]; simp
    obtain ⟨hnd, hst⟩ := hi.run i now _ h
    simp only [List.map_cons, List.nodup_cons] at hnd
    refine ⟨hi.reach, ?_, ?_, ?_, ?_, hi.calls, hi.order⟩
    · intro j hj
      by_cases e : j = i
      · subst e; exact hi.holder j hne
      · simp only [setPass_ne _ _ e] at hj; exact hi.holder j hj
    · intro j now' l' hj
      by_cases e : j = i
      · subst e
        simp only [setPass_self] at hj
        cases hj
        exact ⟨hnd.2, fun id' n' hm => hst id' n' (List.mem_cons_of_mem _ hm)⟩
      · simp only [setPass_ne _ _ e, hi.others hne e] at hj; cases hj
    · intro j now' id' last' l' hj
      by_cases e : j = i
      · subst e; simp only [setPass_self] at hj; cases hj
      · simp only [setPass_ne _ _ e, hi.others hne e] at hj; cases hj
    · intro id' n' hn' _
      simp only [setStore] at hn'
      split at hn'
      · cases hn'
      · refine hi.log id' n' hn' ?_
        intro j now' last' l' hj
        have : j = i := hi.unique (by rw [hj]; simp) hne
        subst this
        rw [h] at hj
        cases hj
  | write h hx hm =>
    rename_i i now last id l m
    have hne : s.pass i ≠ .idle := by rw [h]; simp
    obtain ⟨hnd, hnot, hst, hle⟩ := hi.sub i now id last l h
    refine ⟨hi.reach, ?_, ?_, ?_, ?_, hi.calls, hi.order⟩
    · intro j hj
      by_cases e : j = i
      · subst e; exact hi.holder j hne
      · simp only [setPass_ne _ _ e] at hj; exact hi.holder j hj
    · intro j now' l' hj
      by_cases e : j = i
      · subst e
        simp only [setPass_self] at hj
        cases hj
        exact ⟨hnd, hst⟩
      · simp only [setPass_ne _ _ e, hi.others hne e] at hj; cases hj
    · intro j now' id' last' l' hj
      by_cases e : j = i
      · subst e; simp only [setPass_self] at hj; cases hj
      · simp only [setPass_ne _ _ e, hi.others hne e] at hj; cases hj
    · intro id' n' hn' _
      simp only [setStore] at hn'
      split at hn'
      · rename_i e
        subst e
        obtain ⟨m', e1, e2⟩ := Option.map_eq_some_iff.1 hn'
        cases e2
        rw [e1] at hm
        have h2 := hE.next id' last now n' hm
        intro t ht
        have h1 := hle t ht
        omega
      · rename_i e
        refine hi.log id' n' hn' ?_
        intro j now' last' l' hj
        have : j = i := hi.unique (by rw [hj]; simp) hne
        subst this
        rw [h] at hj
        injection hj with _ e' _ _
        exact e e'.symm
  | read h hb =>
    rename_i k id r b
    refine ⟨hi.reach, hi.holder, hi.run, hi.sub, hi.log, ?_, hi.order⟩
    intro j c x hc hf hx
    rcases setCall_some hc with e | e
    · injection e with e
      subst e
      have hx : r = some x := hx
      have hf : b = true := hf
      rw [hx] at h
      refine hi.log id x h ?_
      intro i now last l hp
      have := hb.1 hf i
      rw [hp] at this
      simp [Pass.midOf] at this
    · exact hi.calls j c x e hf hx
  | keep h hx =>
    rename_i k c
    refine hi.put (fun n hn => ?_) (fun j c' x hc hf hx => ?_)
    · injection hn with hn
      exact hi.calls k c n h ha hn
    · rcases setCall_some hc with e | e
      · cases e
      · exact hi.calls j c' x e hf hx
  | pause h hx =>
    refine hi.put (fun n hn => (by cases hn)) (fun j c' x hc hf hx => ?_)
    rcases setCall_some hc with e | e
    · cases e
    · exact hi.calls j c' x e hf hx
  | «at» h hx hl =>
    refine hi.put (fun n hn => ?_) (fun j c' x hc hf hx => ?_)
    · injection hn with hn
      injection hn with hn
      rw [← hn]
      exact hl.1 ha
    · rcases setCall_some hc with e | e
      · cases e
      · exact hi.calls j c' x e hf hx
  | delete => exact hi.put (fun n hn => (by cases hn)) hi.calls
  | add hl =>
    refine hi.put (fun n hn => ?_) hi.calls
    injection hn with hn
    exact hl.1 ha n hn

/-- **C59**: however the passes of several workers over a shared store and their API calls interleave, every task's
run times are handed to executors in increasing order by all workers together, so each at most once, provided that no
worker shuts the lock down meanwhile, none dies or raises between handing a task over and writing it back, no API call
sets a time that is not later than those handed over, and none writes back a next run time that was read before a
hand-over.  Missing: those events. -/
theorem C59_once_partial [DecidableEq ι] (E : Env ι) (hE : Advancing E) (store : ι → Option (Option Int)) (s : St ι)
    (hs : Reach E Careful (.start store) s) :
    s.log.Nodup ∧ ∀ id, ((s.log.filter fun x => decide (x.1 = id)).map (·.2)).Pairwise (· < ·) := by
  have hi : Inv s := by
    induction hs with
    | init =>
      refine ⟨.init, fun i h => absurd rfl h, fun i now l h => (by cases h), fun i now id last l h => (by cases h),
        fun id n _ _ t h => (by cases h), fun k c r h => (by cases h), List.Pairwise.nil⟩
    | step _ ha h ih => exact inv_step hE ih ha h
  refine ⟨hi.order.imp ?_, fun id => ?_⟩
  · rintro a b hab rfl
    exact Int.lt_irrefl _ (hab rfl)
  · rw [List.pairwise_map]
    refine List.Pairwise.imp_of_mem ?_ (hi.order.filter _)
    intro a b ha hb hab
    have h1 : a.1 = id := by simpa using (List.mem_filter.1 ha).2
    have h2 : b.1 = id := by simpa using (List.mem_filter.1 hb).2
    exact hab (h1.trans h2.symm)

/-! ## Concrete cases -/

/-- one task that runs every 10, without coalescing -/
def exEnv : Env Unit where
  runs := fun _ n now l => l = (List.range ((now - n) / 10 + 1).toNat).map fun k : Nat => n + 10 * (k : Int)
  next := fun _ last _ m => m = some (last + 10)

theorem exEnv_advancing : Advancing exEnv := by
  refine ⟨?_, ?_, ?_⟩
  · intro _ n now l _ hl t ht
    have hl : l = _ := hl
    subst hl
    obtain ⟨k, _, rfl⟩ := List.mem_map.1 ht
    omega
  · intro _ n now l _ hl
    have hl : l = _ := hl
    subst hl
    rw [List.pairwise_map]
    refine List.pairwise_lt_range.imp ?_
    intro a b h; omega
  · intro _ last _ m h
    have h : some m = some (last + 10) := h
    injection h with h
    omega

theorem exDue {store : Unit → Option (Option Int)} {now n : Int} (hs : store () = some (some n)) (h : n ≤ now) :
    IsDue store now [((), n)] := by
  refine ⟨by simp, fun id m => ?_⟩
  simp only [hs, List.mem_singleton, Prod.mk.injEq, true_and, Option.some.injEq]
  constructor
  · rintro rfl; exact ⟨rfl, h⟩
  · rintro ⟨rfl, _⟩; rfl

section
open Locks.File (Fd)

def fd (i p n : Nat) (ph : Locks.File.Phase) : Fd := ⟨i, p, n, ph⟩

/-- the store with the one task -/
def exStore (n : Int) : Unit → Option (Option Int) := fun _ => some (some n)

/-- two passes of different workers, with an update, a pause and a reschedule by further workers in between -/
example : ∃ s, Reach exEnv Careful (.start (exStore 5)) s ∧ s.log = [((), 5), ((), 15), ((), 27)] := by
  have s0 := Reach.step (E := exEnv) (P := Careful) (s0 := .start (exStore 5)) (a := .read 7) .init trivial
    (.read (id := ()) (r := some 5) (b := true) rfl ⟨fun _ _ => rfl, fun _ => rfl⟩)
  have s1 := Reach.step (a := .open 1) s0 trivial (.open (.openNew (p := 1) rfl))
  have s2 := Reach.step (a := .lock 0) s1 trivial (.lock (.lock (pre := []) (post := []) (f := fd 0 1 0 .opened) rfl rfl rfl))
  have s2' := Reach.step (a := .keep 7 true) s2 rfl (.keep (k := 7) (c := ⟨(), some 5, true⟩) rfl (by decide))
  have s3 := Reach.step (a := .begin 0) s2' trivial (.begin (f := fd 0 1 0 .holding) (now := 17) (l := [((), 5)])
    (List.mem_singleton.2 rfl) rfl rfl (exDue rfl (by decide)))
  have s4 := Reach.step (a := .submit 0) s3 trivial (.submit (r := [5]) (last := 15) rfl rfl)
  have s5 := Reach.step (a := .write 0) s4 trivial (.write (m := some 25) rfl (by decide) rfl)
  have s6 := Reach.step (a := .leave 0 false false) s5 rfl (.leave (.leaveLocked (pre := []) (post := []) (f := fd 0 1 0 .holding) rfl rfl)
    (fun _ => .inr ⟨17, rfl⟩) rfl)
  have r1 := Reach.step (a := .read 7) s6 trivial
    (.read (id := ()) (r := some 25) (b := true) rfl ⟨fun _ i => match i with | 0 => rfl | _ + 1 => rfl, fun _ => rfl⟩)
  have r2 := Reach.step (a := .pause 7) r1 trivial (.pause (c := ⟨(), some 25, true⟩) rfl (by decide))
  have r3 := Reach.step (a := .read 7) r2 trivial
    (.read (id := ()) (r := none) (b := true) rfl ⟨fun _ i => match i with | 0 => rfl | _ + 1 => rfl, fun _ => rfl⟩)
  have r4 := Reach.step (a := .at 7 true) r3 rfl (.at (c := ⟨(), none, true⟩) (m := 27) rfl (by decide)
    ⟨fun _ t ht => (by
      rcases List.mem_cons.1 ht with e | ht
      · cases e; decide
      · rcases List.mem_cons.1 ht with e | ht
        · cases e; decide
        · cases ht), fun _ => rfl⟩)
  have s7 := Reach.step (a := .open 2) r4 trivial (.open (.openOld (p := 2) (i := 0) rfl))
  have s8 := Reach.step (a := .lock 1) s7 trivial (.lock (.lock (pre := []) (post := []) (f := fd 1 2 0 .opened) rfl rfl rfl))
  have s9 := Reach.step (a := .begin 1) s8 trivial (.begin (f := fd 1 2 0 .holding) (now := 30) (l := [((), 27)])
    (List.mem_singleton.2 rfl) rfl rfl (exDue rfl (by decide)))
  have s10 := Reach.step (a := .submit 1) s9 trivial (.submit (r := []) (last := 27) rfl rfl)
  exact ⟨_, s10, by decide⟩

/-- What is missing in `C59_once_partial`, first: if a third worker shuts its store down while a pass is going on, the
lock file is removed, another pass can start, and both hand over the same run time. -/
theorem C59_shutdown_witness : ∃ s, Reach exEnv (fun a => match a with
      | .open _ | .lock _ | .begin _ | .submit _ | .shutdown => True
      | _ => False)
    (.start (exStore 5)) s ∧ s.log = [((), 5), ((), 5)] := by
  have s1 := Reach.step (E := exEnv) (P := fun a => match a with
      | .open _ | .lock _ | .begin _ | .submit _ | .shutdown => True
      | _ => False)
    (s0 := .start (exStore 5)) (a := .open 1) .init trivial
    (.open (.openNew (p := 1) rfl))
  have s2 := Reach.step (a := .lock 0) s1 trivial (.lock (.lock (pre := []) (post := []) (f := fd 0 1 0 .opened) rfl rfl rfl))
  have s3 := Reach.step (a := .begin 0) s2 trivial (.begin (f := fd 0 1 0 .holding) (now := 7) (l := [((), 5)])
    (List.mem_singleton.2 rfl) rfl rfl (exDue rfl (by decide)))
  have s4 := Reach.step (a := .shutdown) s3 trivial (.shutdown .shutdown)
  have s5 := Reach.step (a := .open 2) s4 trivial (.open (.openNew (p := 2) rfl))
  have s6 := Reach.step (a := .lock 1) s5 trivial
    (.lock (.lock (pre := [fd 0 1 0 .holding]) (post := []) (f := fd 1 2 1 .opened) rfl rfl rfl))
  have s7 := Reach.step (a := .begin 1) s6 trivial (.begin (f := fd 1 2 1 .holding) (now := 8) (l := [((), 5)])
    (by decide) rfl rfl (exDue rfl (by decide)))
  have s8 := Reach.step (a := .submit 0) s7 trivial (.submit (r := []) (last := 5) rfl rfl)
  have s9 := Reach.step (a := .submit 1) s8 trivial (.submit (r := []) (last := 5) rfl rfl)
  exact ⟨_, s9, by decide⟩

/-- Second: a worker that dies (or raises) between handing over and writing back makes the next pass hand over the
same run time again. -/
theorem C59_crash_witness : ∃ s, Reach exEnv (fun a => match a with
      | .open _ | .lock _ | .begin _ | .submit _ | .crash .. => True
      | _ => False)
    (.start (exStore 5)) s ∧ s.log = [((), 5), ((), 5)] := by
  have s1 := Reach.step (E := exEnv) (P := fun a => match a with
      | .open _ | .lock _ | .begin _ | .submit _ | .crash .. => True
      | _ => False)
    (s0 := .start (exStore 5)) (a := .open 1) .init trivial
    (.open (.openNew (p := 1) rfl))
  have s2 := Reach.step (a := .lock 0) s1 trivial (.lock (.lock (pre := []) (post := []) (f := fd 0 1 0 .opened) rfl rfl rfl))
  have s3 := Reach.step (a := .begin 0) s2 trivial (.begin (f := fd 0 1 0 .holding) (now := 7) (l := [((), 5)])
    (List.mem_singleton.2 rfl) rfl rfl (exDue rfl (by decide)))
  have s4 := Reach.step (a := .submit 0) s3 trivial (.submit (r := []) (last := 5) rfl rfl)
  have s5 := Reach.step (a := .crash 1 true) s4 trivial (.crash .crash rfl)
  have s6 := Reach.step (a := .open 2) s5 trivial (.open (.openOld (p := 2) (i := 0) rfl))
  have s7 := Reach.step (a := .lock 1) s6 trivial
    (.lock (.lock (pre := []) (post := []) (f := fd 1 2 0 .opened) rfl rfl rfl))
  have s8 := Reach.step (a := .begin 1) s7 trivial (.begin (f := fd 1 2 0 .holding) (now := 8) (l := [((), 5)])
    (List.mem_singleton.2 rfl) rfl rfl (exDue rfl (by decide)))
  have s9 := Reach.step (a := .submit 1) s8 trivial (.submit (r := []) (last := 5) rfl rfl)
  exact ⟨_, s9, by decide⟩

/-- Third: `update_task` of any attribute by a worker that read the task before a pass and writes it after the pass
brings the old next run time back, and the next pass hands over the same run time again.  All passes are complete and no
worker dies. -/
theorem C59_stale_update_witness : ∃ s, Reach exEnv (fun a => match a with
      | .shutdown | .crash .. | .leave _ true _ | .leave _ _ true | .pause _ | .at .. | .add _ | .delete => False
      | _ => True)
    (.start (exStore 5)) s ∧ s.log = [((), 5), ((), 5)] := by
  have s0 := Reach.step (E := exEnv) (P := fun a => match a with
      | .shutdown | .crash .. | .leave _ true _ | .leave _ _ true | .pause _ | .at .. | .add _ | .delete => False
      | _ => True)
    (s0 := .start (exStore 5)) (a := .read 7) .init trivial
    (.read (id := ()) (r := some 5) (b := true) rfl ⟨fun _ _ => rfl, fun _ => rfl⟩)
  have s1 := Reach.step (a := .open 1) s0 trivial (.open (.openNew (p := 1) rfl))
  have s2 := Reach.step (a := .lock 0) s1 trivial (.lock (.lock (pre := []) (post := []) (f := fd 0 1 0 .opened) rfl rfl rfl))
  have s3 := Reach.step (a := .begin 0) s2 trivial (.begin (f := fd 0 1 0 .holding) (now := 7) (l := [((), 5)])
    (List.mem_singleton.2 rfl) rfl rfl (exDue rfl (by decide)))
  have s4 := Reach.step (a := .submit 0) s3 trivial (.submit (r := []) (last := 5) rfl rfl)
  have s5 := Reach.step (a := .write 0) s4 trivial (.write (m := some 15) rfl (by decide) rfl)
  have s6 := Reach.step (a := .leave 0 false false) s5 trivial (.leave (.leaveLocked (pre := []) (post := []) (f := fd 0 1 0 .holding) rfl rfl)
    (fun _ => .inr ⟨7, rfl⟩) rfl)
  have r1 := Reach.step (a := .keep 7 false) s6 trivial (.keep (k := 7) (c := ⟨(), some 5, false⟩) rfl (by decide))
  have s7 := Reach.step (a := .open 2) r1 trivial (.open (.openOld (p := 2) (i := 0) rfl))
  have s8 := Reach.step (a := .lock 1) s7 trivial (.lock (.lock (pre := []) (post := []) (f := fd 1 2 0 .opened) rfl rfl rfl))
  have s9 := Reach.step (a := .begin 1) s8 trivial (.begin (f := fd 1 2 0 .holding) (now := 8) (l := [((), 5)])
    (List.mem_singleton.2 rfl) rfl rfl (exDue rfl (by decide)))
  have s10 := Reach.step (a := .submit 1) s9 trivial (.submit (r := []) (last := 5) rfl rfl)
  exact ⟨_, s10, by decide⟩

/-- only complete passes -/
def PassOnly : Act → Prop
  | .open _ | .lock _ | .begin _ | .submit _ | .write _ | .leave _ false false => True
  | _ => False

/-- A pause made through another worker can be undone by a pass that is under way: the task is paused in the store,
nobody resumes it, and yet later passes run it. -/
theorem C59_lost_pause_witness : ∃ s1 s2, Reach exEnv Careful (.start (exStore 5)) s1 ∧ s1.store () = some none ∧
    Reach exEnv PassOnly s1 s2 ∧ s1.log = [((), 5)] ∧ s2.log = [((), 5), ((), 15)] := by
  have s1 := Reach.step (E := exEnv) (P := Careful) (s0 := .start (exStore 5)) (a := .open 1) .init trivial
    (.open (.openNew (p := 1) rfl))
  have s2 := Reach.step (a := .lock 0) s1 trivial (.lock (.lock (pre := []) (post := []) (f := fd 0 1 0 .opened) rfl rfl rfl))
  have s3 := Reach.step (a := .begin 0) s2 trivial (.begin (f := fd 0 1 0 .holding) (now := 7) (l := [((), 5)])
    (List.mem_singleton.2 rfl) rfl rfl (exDue rfl (by decide)))
  have s4 := Reach.step (a := .submit 0) s3 trivial (.submit (r := []) (last := 5) rfl rfl)
  have r1 := Reach.step (a := .read 7) s4 trivial
    (.read (id := ()) (r := some 5) (b := false) rfl ⟨fun h => (by cases h), fun h => absurd (h 0) (by decide)⟩)
  have r2 := Reach.step (a := .pause 7) r1 trivial (.pause (c := ⟨(), some 5, false⟩) rfl (by decide))
  have again : ∀ {s}, Reach exEnv Careful (.start (exStore 5)) s → Reach exEnv PassOnly s s := fun _ => .init
  have t0 := again r2
  have t1 := Reach.step (a := .write 0) t0 trivial (.write (m := some 15) rfl (by decide) rfl)
  have t2 := Reach.step (a := .leave 0 false false) t1 trivial (.leave (.leaveLocked (pre := []) (post := []) (f := fd 0 1 0 .holding) rfl rfl)
    (fun _ => .inr ⟨7, rfl⟩) rfl)
  have t3 := Reach.step (a := .open 2) t2 trivial (.open (.openOld (p := 2) (i := 0) rfl))
  have t4 := Reach.step (a := .lock 1) t3 trivial (.lock (.lock (pre := []) (post := []) (f := fd 1 2 0 .opened) rfl rfl rfl))
  have t5 := Reach.step (a := .begin 1) t4 trivial (.begin (f := fd 1 2 0 .holding) (now := 16) (l := [((), 15)])
    (List.mem_singleton.2 rfl) rfl rfl (exDue rfl (by decide)))
  have t6 := Reach.step (a := .submit 1) t5 trivial (.submit (r := []) (last := 15) rfl rfl)
  exact ⟨_, _, r2, rfl, t6, by decide, by decide⟩

end

end Workers
end Asyncz
