import Verif.Model.Deadlock
/-!
# C81, C82: calls of a scheduler from several threads do not deadlock
-/
namespace Asyncz
namespace Deadlock

/-! ## Specification -/

/-- Thread `t` cannot go on before `u` does something: it wants a lock that `u` has (a lock that is not reentrant may be its
own), or it waits for the end of `u`. -/
def WaitsFor (s : St) (t u : Nat) : Prop :=
  (∃ l acts, s.rem t = .acq l :: acts ∧ l ∈ s.held u ∧ (u ≠ t ∨ l.reentrant = false)) ∨
  (∃ acts, s.rem t = .join u :: acts ∧ s.rem u ≠ [])

/-- A deadlock: some threads that wait for each other, for ever. -/
def Deadlocked (s : St) : Prop := ∃ D : Nat → Prop, (∃ t, D t) ∧ ∀ t, D t → ∃ u, D u ∧ WaitsFor s t u

/-- The threads have made none of the calls of their programs yet; what they will do is a possible behaviour of these calls. -/
structure Begins (F : List Nat) (env : Callout → List Act → Prop) (prog : Nat → List Api) (s : St) : Prop where
  rem : ∀ t, ∃ b, Tr env (program F (prog t)) (s.rem t) b
  held : ∀ t, s.held t = []

/-- Code of the user that does not call the scheduler. -/
def Quiet (_ : Callout) (t : List Act) : Prop := t = []

/-! ## The order of the locks -/

/-- the order: `executor_lock`, `store_lock`, waiting for workers (3), the locks of executors, the others -/
def rank : Lock → Nat
  | .execs => 1
  | .store => 2
  | .exec _ => 4
  | _ => 5

theorem rank_le (l : Lock) : rank l ≤ 5 := by cases l <;> simp [rank]

/-- A thread with the locks `H` that keeps to the order and gives every lock back; it takes only locks above `lim`, and waits
only for threads of `W`. -/
def Ordered (W : Nat → Prop) (lim : Nat) : List Lock → List Act → Prop
  | H, [] => H = []
  | H, .acq l :: t => (l.reentrant = true ∧ l ∈ H ∨ ∀ h ∈ H, rank h < rank l) ∧ lim < rank l ∧ Ordered W lim (l :: H) t
  | H, .rel l :: t => ∃ H', H = l :: H' ∧ Ordered W lim H' t
  | H, .join w :: t => (∀ h ∈ H, rank h < 3) ∧ W w ∧ lim = 0 ∧ Ordered W lim H t

/-- all threads keep to the order, no lock has two owners -/
structure Good (W : Nat → Prop) (lim : Nat → Nat) (s : St) : Prop where
  ordered : ∀ t, Ordered W (lim t) (s.held t) (s.rem t)
  mutex : ∀ t u l, l ∈ s.held t → l ∈ s.held u → t = u

theorem Good.step {W : Nat → Prop} {lim : Nat → Nat} {s s' : St} (hg : Good W lim s) (h : Step s s') : Good W lim s' := by
  cases h with
  | @acq t l acts h hf =>
    have ho := hg.ordered t
    rw [h] at ho
    refine ⟨fun u => ?_, fun u v l' hu hv => ?_⟩
    · by_cases e : u = t
      · subst e; simp only [St.set, if_pos]; exact ho.2.2
      · simp only [St.set, if_neg e]; exact hg.ordered u
    · simp only [St.set] at hu hv
      split at hu
      · rename_i e
        split at hv
        · rename_i e'; rw [e, e']
        · rename_i e'
          rcases List.mem_cons.mp hu with rfl | hu
          · exact absurd hv (hf.1 v e')
          · rw [e]; exact hg.mutex t v l' hu hv
      · rename_i e
        split at hv
        · rename_i e'
          rcases List.mem_cons.mp hv with rfl | hv
          · exact absurd hu (hf.1 u e)
          · rw [e']; exact hg.mutex u t l' hu hv
        · exact hg.mutex u v l' hu hv
  | @rel t l acts h =>
    have ho := hg.ordered t
    rw [h] at ho
    obtain ⟨H', e', ho⟩ := ho
    have hsub : ∀ x, x ∈ (s.held t).erase l → x ∈ s.held t := fun x hx => List.mem_of_mem_erase hx
    refine ⟨fun u => ?_, fun u v l' hu hv => ?_⟩
    · by_cases e : u = t
      · subst e
        simp only [St.set, if_pos]
        rw [e', List.erase_cons_head]
        exact ho
      · simp only [St.set, if_neg e]; exact hg.ordered u
    · simp only [St.set] at hu hv
      apply hg.mutex u v l'
      · split at hu
        · rename_i e; rw [e]; exact hsub _ hu
        · exact hu
      · split at hv
        · rename_i e; rw [e]; exact hsub _ hv
        · exact hv
  | @join t w acts h hw =>
    have ho := hg.ordered t
    rw [h] at ho
    refine ⟨fun u => ?_, fun u v l' hu hv => ?_⟩
    · by_cases e : u = t
      · subst e; simp only [St.set, if_pos]; exact ho.2.2.2
      · simp only [St.set, if_neg e]; exact hg.ordered u
    · simp only [St.set] at hu hv
      apply hg.mutex u v l'
      · split at hu
        · rename_i e; rw [e]; exact hu
        · exact hu
      · split at hv
        · rename_i e; rw [e]; exact hv
        · exact hv

theorem Good.reach {W : Nat → Prop} {lim : Nat → Nat} {s0 s : St} (hg : Good W lim s0) (h : Reach s0 s) : Good W lim s := by
  induction h with
  | init => exact hg
  | step _ h ih => exact ih.step h

/-- at which place of the order the thread waits -/
def level (s : St) (t : Nat) : Nat :=
  match s.rem t with
  | .acq l :: _ => rank l
  | .join _ :: _ => 3
  | _ => 0

theorem level_le (s : St) (t : Nat) : level s t ≤ 5 := by
  unfold level
  split
  · exact rank_le _
  · omega
  · omega

/-- who is waited for and waits in turn, waits higher up -/
theorem level_lt {W : Nat → Prop} {lim : Nat → Nat} (hW : ∀ w, W w → lim w ≥ 3) {s : St} (hg : Good W lim s) {t u v : Nat}
    (h1 : WaitsFor s t u) (h2 : WaitsFor s u v) : level s t < level s u := by
  have hu := hg.ordered u
  rcases h1 with ⟨l, acts, e, hl, hne⟩ | ⟨acts, e, hne⟩
  · have et : level s t = rank l := by simp only [level, e]
    rw [et]
    rcases h2 with ⟨l', acts', e', hl', hne'⟩ | ⟨acts', e', hne'⟩
    · have eu : level s u = rank l' := by simp only [level, e']
      rw [e'] at hu
      rw [eu]
      rcases hu.1 with ⟨hr, hin⟩ | hlt
      · have := hg.mutex u v l' hin hl'
        subst this
        rcases hne' with h | h
        · exact absurd rfl h
        · rw [hr] at h; cases h
      · exact hlt l hl
    · have eu : level s u = 3 := by simp only [level, e']
      rw [e'] at hu
      rw [eu]
      exact hu.1 l hl
  · have et : level s t = 3 := by simp only [level, e]
    have ht := hg.ordered t
    rw [e] at ht
    have hlim := hW u ht.2.1
    rw [et]
    rcases h2 with ⟨l', acts', e', hl', hne'⟩ | ⟨acts', e', hne'⟩
    · have eu : level s u = rank l' := by simp only [level, e']
      rw [e'] at hu
      rw [eu]
      have := hu.2.1
      omega
    · rw [e'] at hu
      have := hu.2.2.1
      omega

theorem no_deadlock {W : Nat → Prop} {lim : Nat → Nat} (hW : ∀ w, W w → lim w ≥ 3) {s : St} (hg : Good W lim s) : ¬ Deadlocked s := by
  rintro ⟨D, ⟨t, ht⟩, hD⟩
  have key : ∀ n, ∀ t, D t → 5 - level s t = n → False := by
    intro n
    induction n using Nat.strongRecOn with
    | ind n ih =>
      intro t ht hn
      obtain ⟨u, hu, h1⟩ := hD t ht
      obtain ⟨v, hv, h2⟩ := hD u hu
      have := level_lt hW hg h1 h2
      have := level_le s u
      exact ih (5 - level s u) (by omega) u hu rfl
  exact key _ t ht rfl

/-- somebody can go on, unless all have ended -/
theorem progress {W : Nat → Prop} {lim : Nat → Nat} (hW : ∀ w, W w → lim w ≥ 3) {s : St} (hg : Good W lim s) {t : Nat} (ht : s.rem t ≠ []) :
    ∃ s', Step s s' := by
  apply Classical.byContradiction
  intro hno
  apply no_deadlock hW hg
  refine ⟨fun t => s.rem t ≠ [], ⟨t, ht⟩, ?_⟩
  intro t ht
  have ended : ∀ u l, l ∈ s.held u → s.rem u ≠ [] := by
    intro u l hl h0
    have := hg.ordered u
    rw [h0] at this
    rw [show s.held u = [] from this] at hl
    cases hl
  cases hr : s.rem t with
  | nil => exact absurd hr ht
  | cons a acts =>
    cases a with
    | acq l =>
      by_cases hf : s.free t l
      · exact absurd ⟨_, Step.acq hr hf⟩ hno
      · simp only [St.free, Classical.not_and_iff_not_or_not] at hf
        rcases hf with hf | hf
        · simp only [Classical.not_forall] at hf
          obtain ⟨u, hne, hl⟩ := hf
          have hl := Classical.not_not.mp hl
          exact ⟨u, ended u l hl, Or.inl ⟨l, acts, hr, hl, Or.inl hne⟩⟩
        · rw [not_or] at hf
          have hl := Classical.not_not.mp hf.2
          exact ⟨t, ht, Or.inl ⟨l, acts, hr, hl, Or.inr (by simpa using hf.1)⟩⟩
    | rel l => exact absurd ⟨_, Step.rel hr⟩ hno
    | join w =>
      by_cases hw : s.rem w = []
      · exact absurd ⟨_, Step.join hr hw⟩ hno
      · exact ⟨w, hw, Or.inr ⟨acts, hr, hw⟩⟩

/-! ## The methods keep to the order -/

/-- what `c` does keeps to the order, if the locks `H` are there already, and gives back what it takes -/
def Ok (W : Nat → Prop) (lim : Nat) (env : Callout → List Act → Prop) (H : List Lock) (c : Code) : Prop :=
  ∀ t b, Tr env c t b → ∀ rest, Ordered W lim H rest → Ordered W lim H (t ++ rest)

/-- the same for the code of the user -/
def EnvOk (W : Nat → Prop) (lim : Nat) (env : Callout → List Act → Prop) (H : List Lock) : Prop :=
  ∀ k t, env k t → ∀ rest, Ordered W lim H rest → Ordered W lim H (t ++ rest)

section rules
variable {W : Nat → Prop} {lim : Nat} {env : Callout → List Act → Prop} {H : List Lock}

theorem Ok.skip : Ok W lim env H .skip := by
  intro t b h rest hr
  cases h <;> exact hr

theorem Ok.lock {l : Lock} {c : Code} (hp : l.reentrant = true ∧ l ∈ H ∨ ∀ h ∈ H, rank h < rank l) (hl : lim < rank l)
    (hc : Ok W lim env (l :: H) c) : Ok W lim env H (.lock l c) := by
  intro t b h rest hr
  cases h with
  | raise => exact hr
  | @lock _ _ t _ h =>
    rw [List.cons_append, List.append_assoc]
    exact ⟨hp, hl, hc t b h _ ⟨H, rfl, hr⟩⟩

theorem Ok.seq {a c : Code} (ha : Ok W lim env H a) (hc : Ok W lim env H c) : Ok W lim env H (.seq a c) := by
  intro t b h rest hr
  cases h with
  | raise => exact hr
  | seqRaise h => exact ha _ _ h _ hr
  | seq h h' => rw [List.append_assoc]; exact ha _ _ h _ (hc _ _ h' _ hr)

theorem Ok.alt {a c : Code} (ha : Ok W lim env H a) (hc : Ok W lim env H c) : Ok W lim env H (.alt a c) := by
  intro t b h rest hr
  cases h with
  | raise => exact hr
  | altL h => exact ha _ _ h _ hr
  | altR h => exact hc _ _ h _ hr

theorem Ok.star {c : Code} (hc : Ok W lim env H c) : Ok W lim env H (.star c) := by
  intro t b h
  suffices key : ∀ d, Tr env d t b → d = .star c → ∀ rest, Ordered W lim H rest → Ordered W lim H (t ++ rest) from key _ h rfl
  clear h
  intro d h
  induction h with
  | raise => intro _ rest hr; exact hr
  | starNil => intro _ rest hr; exact hr
  | starRaise h => intro e rest hr; cases e; exact hc _ _ h _ hr
  | starCons h h' _ ih => intro e rest hr; cases e; rw [List.append_assoc]; exact hc _ _ h _ (ih rfl _ hr)
  | skip => intro e; cases e
  | lock => intro e; cases e
  | seqRaise => intro e; cases e
  | seq => intro e; cases e
  | altL => intro e; cases e
  | altR => intro e; cases e
  | callout => intro e; cases e
  | join => intro e; cases e
  | guard => intro e; cases e

theorem Ok.callout {k : Callout} (he : EnvOk W lim env H) : Ok W lim env H (.callout k) := by
  intro t b h rest hr
  cases h with
  | raise => exact hr
  | callout _ h => exact he k _ h _ hr

theorem Ok.guard {c : Code} (hc : Ok W lim env H c) : Ok W lim env H (.guard c) := by
  intro t b h rest hr
  cases h with
  | raise => exact hr
  | guard h => exact hc _ _ h _ hr

theorem Ok.join {w : Nat} (hH : ∀ h ∈ H, rank h < 3) (hw : W w) (hl : lim = 0) : Ok W lim env H (.join w) := by
  intro t b h rest hr
  cases h with
  | raise => exact hr
  | join => exact ⟨hH, hw, hl, hr⟩

theorem Ok.joins {ws : List Nat} (hH : ∀ h ∈ H, rank h < 3) (hw : ∀ w ∈ ws, W w) (hl : lim = 0 ∨ ws = []) :
    Ok W lim env H (Deadlock.joins ws) := by
  induction ws with
  | nil => exact Ok.skip
  | cons w ws ih =>
    have h0 : lim = 0 := by rcases hl with h | h; exact h; cases h
    exact Ok.seq (Ok.join hH (hw w (by simp)) h0) (ih (fun x hx => hw x (by simp [hx])) (Or.inl h0))

theorem Ok.choose {α : Type} {f : α → Code} {xs : List α} (h : ∀ x ∈ xs, Ok W lim env H (f x)) :
    Ok W lim env H (xs.foldr (fun x c => .alt (f x) c) .skip) := by
  induction xs with
  | nil => exact Ok.skip
  | cons x xs ih => exact Ok.alt (h x (by simp)) (ih (fun y hy => h y (by simp [hy])))

/-- the locks taken last of all -/
theorem Ok.leaf {l : Lock} (hl : rank l = 5) (hlim : lim < 5) (hH : ∀ h ∈ H, rank h < 5) : Ok W lim env H (.lock l .skip) :=
  Ok.lock (Or.inr (by rw [hl]; exact hH)) (by rw [hl]; exact hlim) Ok.skip

theorem Ok.storeOp {F : List Nat} (hlim : lim < 5) (hH : ∀ h ∈ H, rank h < 5) : Ok W lim env H (Deadlock.storeOp F) :=
  Ok.star (Ok.choose fun _ _ => Ok.leaf rfl hlim hH)

theorem Ok.dispatch (hlim : lim < 5) (hH : ∀ h ∈ H, rank h < 5) (he : EnvOk W lim env H) : Ok W lim env H Deadlock.dispatch :=
  Ok.seq (Ok.leaf rfl hlim hH) (Ok.star (Ok.guard (Ok.callout he)))

/-- the completion callback, called while no lock is held, or only the lock of this executor and lower ones -/
theorem Ok.callback {a : Nat} (hlim : lim < 4) (hp : .exec a ∈ H ∨ ∀ h ∈ H, rank h < 4) (hH : ∀ h ∈ H, rank h < 5) (he : EnvOk W lim env H) :
    Ok W lim env H (success a) ∧ Ok W lim env H (failure a) := by
  have hl : Ok W lim env H (.lock (.exec a) .skip) :=
    Ok.lock (by rcases hp with h | h; exact Or.inl ⟨rfl, h⟩; exact Or.inr h) hlim Ok.skip
  exact ⟨Ok.seq hl (Ok.star (Ok.dispatch (by omega) hH he)), hl⟩

end rules

/-- at most `executor_lock` and `store_lock` -/
def Low (H : List Lock) : Prop := ∀ h ∈ H, h = .execs ∨ h = .store

theorem Low.nil : Low [] := fun _ h => by cases h
theorem Low.store {H : List Lock} (h : Low H) : Low (.store :: H) := fun x hx => by
  rcases List.mem_cons.mp hx with rfl | hx
  · exact Or.inr rfl
  · exact h x hx
theorem Low.lt {H : List Lock} (h : Low H) {n : Nat} (hn : 2 < n) : ∀ x ∈ H, rank x < n := fun x hx => by
  rcases h x hx with rfl | rfl
  · simp only [rank]; omega
  · simp only [rank]; omega
theorem Low.permits {H : List Lock} (h : Low H) : Lock.reentrant .store = true ∧ Lock.store ∈ H ∨ ∀ x ∈ H, rank x < rank .store := by
  by_cases hs : Lock.store ∈ H
  · exact Or.inl ⟨rfl, hs⟩
  · refine Or.inr fun x hx => ?_
    rcases h x hx with rfl | rfl
    · decide
    · exact absurd hx hs

section calls
variable {W : Nat → Prop} {env : Callout → List Act → Prop} {C : List Lock → Prop}
variable (hE : ∀ H, C H → EnvOk W 0 env H) (hC : ∀ H, Low H → C H) {F : List Nat}
include hE hC

theorem ok_dispatch {H : List Lock} (hH : Low H) : Ok W 0 env H dispatch := Ok.dispatch (by omega) (hH.lt (by omega)) (hE H (hC H hH))

omit hE hC in
theorem ok_storeOp {H : List Lock} (hH : Low H) : Ok W 0 env H (storeOp F) := Ok.storeOp (by omega) (hH.lt (by omega))

omit hE hC in
theorem ok_getTask {H : List Lock} (hH : Low H) : Ok W 0 env H (getTask F) :=
  Ok.lock hH.permits (by decide) (ok_storeOp hH.store)

theorem ok_update {H : List Lock} (hH : Low H) : Ok W 0 env H (updateTask F) :=
  Ok.seq (ok_getTask hH) (ok_dispatch hE hC hH)

theorem ok_realAdd {H : List Lock} (hH : Low H) : Ok W 0 env H (realAdd F) := Ok.seq (ok_storeOp hH) (ok_dispatch hE hC hH)

theorem ok_addTask {H : List Lock} (hH : Low H) : Ok W 0 env H (addTask F) :=
  Ok.lock hH.permits (by decide) (Ok.alt Ok.skip (ok_realAdd hE hC hH.store))

theorem ok_resume {H : List Lock} (hH : Low H) : Ok W 0 env H (resumeTask F) :=
  Ok.lock hH.permits (by decide) (Ok.seq (ok_storeOp hH.store) (Ok.alt (ok_update hE hC hH.store) (ok_update hE hC hH.store)))

theorem ok_send {H : List Lock} (hH : Low H) (a : Nat) (m : Mode) (hm : m = .deferred ∨ ∀ H, C H) : Ok W 0 env H (sendTask a m) := by
  refine Ok.lock (Or.inr (hH.lt (show 2 < 4 by omega))) (show 0 < 4 by omega) ?_
  rcases hm with rfl | hm
  · exact Ok.skip
  · have hk := Ok.callback (W := W) (lim := 0) (env := env) (H := .exec a :: H) (a := a) (by omega) (Or.inl (by simp))
      (fun h hh => by
        rcases List.mem_cons.mp hh with rfl | hh
        · show 4 < 5; omega
        · exact hH.lt (by omega) h hh) (hE _ (hm _))
    have hf : Ok W 0 env (.exec a :: H) (.callout .function) := Ok.callout (hE _ (hm _))
    cases m with
    | deferred => exact Ok.skip
    | done => exact Ok.alt hk.1 hk.2
    | debug => exact Ok.alt (Ok.seq hf hk.1) (Ok.seq (Ok.guard hf) hk.2)

theorem ok_run {H : List Lock} (hH : Low H) (a : Nat) (m : Mode) (hm : m = .deferred ∨ ∀ H, C H) : Ok W 0 env H (runTask F a m) :=
  Ok.seq (ok_storeOp hH) (Ok.seq (Ok.guard (ok_send hE hC hH a m hm)) (Ok.seq (Ok.alt Ok.skip (ok_dispatch hE hC hH))
    (Ok.alt Ok.skip (Ok.alt (ok_update hE hC hH) (ok_getTask hH)))))

theorem ok_pass {H : List Lock} (hH : Low H) (xs : List (Nat × Mode)) (hm : ∀ x ∈ xs, x.2 = .deferred ∨ ∀ H, C H) :
    Ok W 0 env H (pass F xs) := by
  refine Ok.seq (Ok.alt Ok.skip (Ok.lock hH.permits (by decide) (Ok.star (Ok.seq (ok_storeOp hH.store)
    (Ok.seq (Ok.star (Ok.choose fun x hx => ?_)) (ok_storeOp hH.store)))))) (Ok.star (ok_dispatch hE hC hH))
  exact Ok.alt (ok_update hE hC hH.store) (Ok.seq (Ok.guard (ok_send hE hC hH.store x.1 x.2 (hm x hx)))
    (Ok.alt Ok.skip (Ok.alt (ok_storeOp hH.store) (ok_update hE hC hH.store))))

theorem ok_start : Ok W 0 env [] (start F) := by
  have h1 : Low [Lock.execs] := fun x hx => by rw [List.mem_singleton.mp hx]; exact Or.inl rfl
  have h2 : Low [Lock.store] := Low.nil.store
  refine Ok.seq (Ok.leaf rfl (by omega) (Low.nil.lt (by omega))) (Ok.alt Ok.skip (Ok.seq ?_ (Ok.seq ?_ (ok_dispatch hE hC Low.nil))))
  · refine Ok.lock (Or.inr (by intro _ h; cases h)) (by decide) (Ok.alt Ok.skip (Ok.seq ?_ (ok_dispatch hE hC h1)))
    exact Ok.lock (Or.inl ⟨rfl, by simp⟩) (by decide) Ok.skip
  · exact Ok.lock Low.nil.permits (by decide) (Ok.seq (Ok.alt Ok.skip (ok_update hE hC h2))
      (Ok.seq (ok_storeOp h2) (Ok.star (Ok.guard (ok_realAdd hE hC h2)))))

theorem ok_shutdown {ws : List Nat} (hw : ∀ w ∈ ws, W w) : Ok W 0 env [] (shutdown F ws) := by
  have h2 : Low [Lock.store, Lock.execs] := Low.store (fun x hx => by rw [List.mem_singleton.mp hx]; exact Or.inl rfl)
  refine Ok.seq (Ok.leaf rfl (by omega) (Low.nil.lt (by omega))) (Ok.alt Ok.skip (Ok.seq ?_ (ok_dispatch hE hC Low.nil)))
  refine Ok.lock (Or.inr (by intro _ h; cases h)) (by decide) (Ok.lock (Or.inr ?_) (by decide) ?_)
  · intro x hx; rw [List.mem_singleton.mp hx]; decide
  · exact Ok.seq (Ok.joins (h2.lt (by omega)) hw (Or.inl rfl)) (Ok.seq (ok_storeOp h2)
      (Ok.seq (Ok.star (Ok.seq (ok_storeOp h2) (Ok.guard (Ok.callout (hE _ (hC _ h2)))))) (ok_storeOp h2)))

/-- calls that a listener may make: all but those that need `executor_lock` -/
def Light : Api → Prop
  | .start | .shutdown _ | .addExecutor | .removeExecutor _ | .schedulerInfo => False
  | .callback _ => False
  | _ => True

/-- every executor of the call behaves so -/
def ModesOf (P : Mode → Prop) : Api → Prop
  | .runTask _ m => P m
  | .pass xs => ∀ x ∈ xs, P x.2
  | _ => True

/-- the workers that the call waits for -/
def waited : Api → List Nat
  | .shutdown ws => ws
  | .removeExecutor ws => ws
  | _ => []

theorem ok_light {H : List Lock} (hH : Low H) (a : Api) (ha : Light a) (hm : ModesOf (fun m => m = .deferred ∨ ∀ H, C H) a) :
    Ok W 0 env H (a.code F) := by
  cases a with
  | start => exact ha.elim
  | shutdown ws => exact ha.elim
  | pauseOrResume => exact Ok.alt Ok.skip (ok_dispatch hE hC hH)
  | addExecutor => exact ha.elim
  | removeExecutor ws => exact ha.elim
  | addStore => exact ok_update hE hC hH
  | removeStore => exact Ok.seq (Ok.lock hH.permits (by decide) Ok.skip) (Ok.seq (ok_storeOp hH) (ok_dispatch hE hC hH))
  | listen => exact Ok.leaf rfl (by omega) (hH.lt (by omega))
  | addTask => exact ok_addTask hE hC hH
  | updateTask => exact ok_update hE hC hH
  | resumeTask => exact ok_resume hE hC hH
  | deleteTask => exact ok_update hE hC hH
  | removeAll => exact ok_update hE hC hH
  | getTask => exact ok_getTask hH
  | schedulerInfo => exact ha.elim
  | runTask x m => exact ok_run hE hC hH x m hm
  | pass xs => exact ok_pass hE hC hH xs hm
  | callback x => exact ha.elim

theorem ok_call (a : Api) (hw : ∀ w ∈ waited a, W w) (hm : ModesOf (fun m => m = .deferred ∨ ∀ H, C H) a) :
    Ok W 0 env [] (a.code F) := by
  have hex : Ok W 0 env [] (.lock .execs .skip) := Ok.lock (Or.inr (by intro _ h; cases h)) (by decide) Ok.skip
  cases a with
  | start => exact ok_start hE hC
  | shutdown ws => exact ok_shutdown hE hC hw
  | addExecutor => exact Ok.seq hex (ok_dispatch hE hC Low.nil)
  | removeExecutor ws => exact Ok.seq hex (Ok.seq (Ok.joins (Low.nil.lt (by omega)) hw (Or.inl rfl)) (ok_dispatch hE hC Low.nil))
  | schedulerInfo => exact Ok.seq (ok_getTask Low.nil) (Ok.seq hex (Ok.lock Low.nil.permits (by decide) Ok.skip))
  | callback x =>
    have := Ok.callback (W := W) (lim := 0) (env := env) (H := []) (a := x) (by omega) (Or.inr (by intro _ h; cases h))
      (by intro _ h; cases h) (hE [] (hC [] Low.nil))
    exact Ok.alt this.1 this.2
  | pauseOrResume => exact ok_light hE hC Low.nil .pauseOrResume trivial hm
  | addStore => exact ok_light hE hC Low.nil .addStore trivial hm
  | removeStore => exact ok_light hE hC Low.nil .removeStore trivial hm
  | listen => exact ok_light hE hC Low.nil .listen trivial hm
  | addTask => exact ok_light hE hC Low.nil .addTask trivial hm
  | updateTask => exact ok_light hE hC Low.nil .updateTask trivial hm
  | resumeTask => exact ok_light hE hC Low.nil .resumeTask trivial hm
  | deleteTask => exact ok_light hE hC Low.nil .deleteTask trivial hm
  | removeAll => exact ok_light hE hC Low.nil .removeAll trivial hm
  | getTask => exact ok_light hE hC Low.nil .getTask trivial hm
  | runTask x m => exact ok_light hE hC Low.nil (.runTask x m) trivial hm
  | pass xs => exact ok_light hE hC Low.nil (.pass xs) trivial hm

end calls

theorem Ok.program {W : Nat → Prop} {lim : Nat} {env : Callout → List Act → Prop} {H : List Lock} {F : List Nat} {calls : List Api}
    (h : ∀ a ∈ calls, Ok W lim env H (a.code F)) : Ok W lim env H (Deadlock.program F calls) := by
  induction calls with
  | nil => exact Ok.skip
  | cons a calls ih => exact Ok.seq (Ok.guard (h a (by simp))) (ih fun x hx => h x (by simp [hx]))

theorem Begins.good {F : List Nat} {env : Callout → List Act → Prop} {prog : Nat → List Api} {s : St} (hb : Begins F env prog s)
    {W : Nat → Prop} {lim : Nat → Nat} (h : ∀ t, Ok W (lim t) env [] (program F (prog t))) : Good W lim s := by
  constructor
  · intro t
    obtain ⟨b, hb'⟩ := hb.rem t
    have := h t _ b hb' [] rfl
    rw [List.append_nil] at this
    rw [hb.held t]
    exact this
  · intro t u l hl
    rw [hb.held t] at hl
    cases hl

/-! ## C81 -/

/-- `w` is waited for by some call of the program -/
def Waited (prog : Nat → List Api) (w : Nat) : Prop := ∃ t, ∃ a ∈ prog t, w ∈ waited a

/-- The threads that a call waits for are workers of pools whose functions do not call the scheduler: all they do with it is
to report their runs. -/
def WorkersReport (prog : Nat → List Api) : Prop := ∀ w, Waited prog w → ∀ a ∈ prog w, ∃ x, a = .callback x

theorem quiet_ok (W : Nat → Prop) (lim : Nat) (H : List Lock) : EnvOk W lim Quiet H := by
  intro k t h rest hr
  rw [show t = [] from h]
  exact hr

theorem quiet_good {F : List Nat} {prog : Nat → List Api} {s0 : St} (hb : Begins F Quiet prog s0) (hw : WorkersReport prog) :
    ∃ lim : Nat → Nat, (∀ w, Waited prog w → lim w ≥ 3) ∧ Good (Waited prog) lim s0 := by
  classical
  refine ⟨fun t => if Waited prog t then 3 else 0, fun w h => by simp only [if_pos h]; omega, hb.good fun t => ?_⟩
  by_cases ht : Waited prog t
  · simp only [if_pos ht]
    refine Ok.program fun a ha => ?_
    obtain ⟨x, rfl⟩ := hw t ht a ha
    have := Ok.callback (W := Waited prog) (lim := 3) (env := Quiet) (H := []) (a := x) (by omega) (Or.inr (by intro _ h; cases h))
      (by intro _ h; cases h) (quiet_ok _ _ _)
    exact Ok.alt this.1 this.2
  · simp only [if_neg ht]
    refine Ok.program fun a ha => ?_
    refine ok_call (C := fun _ => True) (fun H _ => quiet_ok _ _ _) (fun _ _ => trivial) a (fun w hw => ⟨t, a, ha, hw⟩) ?_
    cases a <;> first | trivial | exact Or.inr fun _ => trivial | exact fun _ _ => Or.inr fun _ => trivial

/-- **C81.** Any number of threads, each with any list of calls, executors of any kind, any files of file stores, calls that
return and calls that raise: if the code of the user does not call the scheduler itself, no execution reaches a deadlock. -/
theorem C81_no_deadlock {F : List Nat} {prog : Nat → List Api} {s0 s : St} (hb : Begins F Quiet prog s0) (hw : WorkersReport prog)
    (hr : Reach s0 s) : ¬ Deadlocked s := by
  obtain ⟨lim, h1, h2⟩ := quiet_good hb hw
  exact no_deadlock h1 (h2.reach hr)

/-- As long as some call has not ended, some thread can go on; every lock that is held belongs to such a thread. -/
theorem C81_progress {F : List Nat} {prog : Nat → List Api} {s0 s : St} (hb : Begins F Quiet prog s0) (hw : WorkersReport prog)
    (hr : Reach s0 s) : ((∃ t, s.rem t ≠ []) → ∃ s', Step s s') ∧ ∀ t, s.rem t = [] → s.held t = [] := by
  obtain ⟨lim, h1, h2⟩ := quiet_good hb hw
  have hg := h2.reach hr
  refine ⟨fun ⟨t, ht⟩ => progress h1 hg ht, fun t ht => ?_⟩
  have := hg.ordered t
  rw [ht] at this
  exact this

/-- a program that the theorem is about: two threads that use the scheduler, and a worker that one of them waits for -/
example : WorkersReport (fun t => if t = 0 then [.start, .addTask, .shutdown [2]] else if t = 1 then [.pass [(0, .debug)], .runTask 1 .done]
    else if t = 2 then [.callback 0, .callback 0] else []) := by
  rintro w ⟨t, a, ha, hw⟩
  simp only at ha
  have : w = 2 := by
    by_cases h0 : t = 0
    · rw [if_pos h0] at ha
      simp at ha
      rcases ha with rfl | rfl | rfl <;> simp [waited] at hw
      exact hw
    · rw [if_neg h0] at ha
      by_cases h1 : t = 1
      · rw [if_pos h1] at ha
        simp at ha
        rcases ha with rfl | rfl <;> simp [waited] at hw
      · rw [if_neg h1] at ha
        by_cases h2 : t = 2
        · rw [if_pos h2] at ha
          simp at ha
          subst ha
          simp [waited] at hw
        · rw [if_neg h2] at ha
          cases ha
  subst this
  intro a ha
  simp at ha
  exact ⟨0, ha⟩

/-! ## C82: code of the user that calls the scheduler -/

/-- Code of the user that calls the scheduler, whereby such code is called again, to the depth `n`: any calls that do not need
the set of executors, with executors that run functions elsewhere. -/
def Nest (F : List Nat) : Nat → Callout → List Act → Prop
  | 0, _, t => t = []
  | n + 1, _, t => ∃ calls b, (∀ a ∈ calls, Light a ∧ ModesOf (· = .deferred) a) ∧ Tr (Nest F n) (program F calls) t b

theorem deferred_modes {P : Mode → Prop} (hP : P .deferred) {a : Api} (h : ModesOf (· = .deferred) a) : ModesOf P a := by
  cases a <;> first | trivial | skip
  · simp only [ModesOf] at h ⊢; rw [h]; exact hP
  · simp only [ModesOf] at h ⊢; intro x hx; rw [h x hx]; exact hP

theorem nest_ok (W : Nat → Prop) (F : List Nat) (n : Nat) : ∀ H, Low H → EnvOk W 0 (Nest F n) H := by
  induction n with
  | zero =>
    intro H _ k t h rest hr
    rw [show t = [] from h]
    exact hr
  | succ n ih =>
    intro H hH k t h rest hr
    obtain ⟨calls, b, hc, h⟩ := h
    exact Ok.program (fun a ha => ok_light (C := Low) ih (fun _ h => h) hH a (hc a ha).1
      (deferred_modes (Or.inl rfl) (hc a ha).2)) t b h rest hr

/-- **C82.** Listeners and functions with the shutdown trigger may call the scheduler, to any depth, if no call waits for
workers, executors run functions and report them elsewhere, and those callbacks do not need the set of executors.
Missing: what these three conditions exclude; the witnesses below show that each is needed. -/
theorem C82_reentrant_partial {F : List Nat} {n : Nat} {prog : Nat → List Api} {s0 s : St} (hb : Begins F (Nest F n) prog s0)
    (hp : ∀ t, ∀ a ∈ prog t, waited a = [] ∧ ModesOf (· = .deferred) a) (hr : Reach s0 s) :
    ¬ Deadlocked s ∧ ((∃ t, s.rem t ≠ []) → ∃ s', Step s s') ∧ ∀ t, s.rem t = [] → s.held t = [] := by
  have h0 : Good (fun _ => False) (fun _ => 0) s0 := by
    refine hb.good fun t => Ok.program fun a ha => ?_
    refine ok_call (C := Low) (nest_ok _ F n) (fun _ h => h) a ?_ (deferred_modes (Or.inl rfl) (hp t a ha).2)
    rw [(hp t a ha).1]
    intro w hw
    cases hw
  have hg := h0.reach hr
  have hW : ∀ w, (fun _ : Nat => False) w → (fun _ : Nat => 0) w ≥ 3 := fun _ h => h.elim
  refine ⟨no_deadlock hW hg, fun ⟨t, ht⟩ => progress hW hg ht, fun t ht => ?_⟩
  have := hg.ordered t
  rw [ht] at this
  exact this

/-! ## Witnesses -/

/-- two threads -/
def two (r0 r1 : List Act) (h0 h1 : List Lock) : St :=
  ⟨fun t => if t = 0 then r0 else if t = 1 then r1 else [], fun t => if t = 0 then h0 else if t = 1 then h1 else []⟩

theorem two_set0 {r0 r1 r : List Act} {h0 h1 h : List Lock} : (two r0 r1 h0 h1).set 0 r h = two r r1 h h1 := by
  simp only [two, St.set, St.mk.injEq]
  constructor <;> (funext u; by_cases e : u = 0 <;> simp [e])

theorem two_set1 {r0 r1 r : List Act} {h0 h1 h : List Lock} : (two r0 r1 h0 h1).set 1 r h = two r0 r h0 h := by
  simp only [two, St.set, St.mk.injEq]
  constructor <;> (funext u; by_cases e : u = 0 <;> by_cases e' : u = 1 <;> simp [e, e'])
  all_goals (subst e'; omega)

theorem acq0 {s : St} {l : Lock} {r0 r1 : List Act} {h0 h1 : List Lock} (hf : l ∉ h1) (hr : l.reentrant = true ∨ l ∉ h0)
    (h : Reach s (two (.acq l :: r0) r1 h0 h1)) : Reach s (two r0 r1 (l :: h0) h1) := by
  have := Reach.step h (Step.acq (t := 0) (l := l) (acts := r0) rfl ⟨fun u hu => ?_, hr⟩)
  · rw [two_set0] at this; exact this
  · simp only [two, if_neg hu]
    split
    · exact hf
    · intro h; cases h

theorem acq1 {s : St} {l : Lock} {r0 r1 : List Act} {h0 h1 : List Lock} (hf : l ∉ h0) (hr : l.reentrant = true ∨ l ∉ h1)
    (h : Reach s (two r0 (.acq l :: r1) h0 h1)) : Reach s (two r0 r1 h0 (l :: h1)) := by
  have := Reach.step h (Step.acq (t := 1) (l := l) (acts := r1) rfl ⟨fun u hu => ?_, hr⟩)
  · rw [two_set1] at this; exact this
  · simp only [two, if_neg hu]
    split
    · exact hf
    · intro h; cases h

theorem rel0 {s : St} {l : Lock} {r0 r1 : List Act} {h0 h1 : List Lock} (h : Reach s (two (.rel l :: r0) r1 (l :: h0) h1)) :
    Reach s (two r0 r1 h0 h1) := by
  have := Reach.step h (Step.rel (t := 0) (l := l) (acts := r0) rfl)
  rw [two_set0, show (two (.rel l :: r0) r1 (l :: h0) h1).held 0 = l :: h0 from rfl, List.erase_cons_head] at this
  exact this

theorem rel1 {s : St} {l : Lock} {r0 r1 : List Act} {h0 h1 : List Lock} (h : Reach s (two r0 (.rel l :: r1) h0 (l :: h1))) :
    Reach s (two r0 r1 h0 h1) := by
  have := Reach.step h (Step.rel (t := 1) (l := l) (acts := r1) rfl)
  rw [two_set1, show (two r0 (.rel l :: r1) h0 (l :: h1)).held 1 = l :: h1 from rfl, List.erase_cons_head] at this
  exact this

/-- the programs of two threads -/
def both (p q : List Api) : Nat → List Api := fun t => if t = 0 then p else if t = 1 then q else []

theorem begins_two {F : List Nat} {env : Callout → List Act → Prop} {p q : List Api} {r0 r1 : List Act} {b0 b1 : Bool}
    (h0 : Tr env (program F p) r0 b0) (h1 : Tr env (program F q) r1 b1) : Begins F env (both p q) (two r0 r1 [] []) := by
  constructor
  · intro t
    by_cases e : t = 0
    · exact ⟨b0, by simpa [two, both, e] using h0⟩
    · by_cases e' : t = 1
      · exact ⟨b1, by simpa [two, both, e'] using h1⟩
      · exact ⟨true, by simp only [two, both, if_neg e, if_neg e']; exact Tr.skip⟩
  · intro t
    simp only [two]
    split <;> (try split) <;> rfl

theorem deadlocked_two {s : St} (h0 : WaitsFor s 0 1) (h1 : WaitsFor s 1 0) : Deadlocked s := by
  refine ⟨fun t => t = 0 ∨ t = 1, ⟨0, Or.inl rfl⟩, ?_⟩
  rintro t (rfl | rfl)
  · exact ⟨1, Or.inr rfl, h0⟩
  · exact ⟨0, Or.inl rfl, h1⟩

section traces
variable {env : Callout → List Act → Prop}

theorem tr_one {F : List Nat} {a : Api} {t : List Act} {b : Bool} (h : Tr env (a.code F) t b) : Tr env (program F [a]) t true := by
  have := Tr.seq (Tr.guard h) (Tr.skip (env := env))
  rw [List.append_nil] at this
  exact this

theorem tr_storeOp : Tr env (storeOp []) [] true := Tr.starNil

theorem tr_getTask : Tr env (getTask []) [.acq .store, .rel .store] true := Tr.lock tr_storeOp

/-- a listener is called -/
theorem tr_dispatch {t : List Act} (h : env .listener t) : Tr env dispatch ([.acq .listeners, .rel .listeners] ++ t) true := by
  have := Tr.seq (Tr.lock (l := .listeners) (Tr.skip (env := env))) (Tr.starCons (Tr.guard (Tr.callout true h)) Tr.starNil)
  rw [List.append_nil] at this
  exact this

theorem tr_success {a : Nat} {t : List Act} (h : env .listener t) :
    Tr env (success a) ([.acq (.exec a), .rel (.exec a), .acq .listeners, .rel .listeners] ++ t) true := by
  have := Tr.seq (Tr.lock (l := .exec a) (Tr.skip (env := env))) (Tr.starCons (tr_dispatch h) Tr.starNil)
  rw [List.append_nil] at this
  exact this

/-- a pass that submits one task -/
theorem pass_trace : Tr env (program [] [.pass [(0, .deferred)]]) [.acq .store, .acq (.exec 0), .rel (.exec 0), .rel .store] true := by
  refine tr_one (b := true) (F := []) (a := .pass [(0, .deferred)]) ?_
  have h1 : Tr env (passTask [] (0, .deferred)) [.acq (.exec 0), .rel (.exec 0)] true :=
    Tr.altR (Tr.seq (t := [.acq (.exec 0), .rel (.exec 0)]) (t' := []) (Tr.guard (Tr.lock Tr.skip)) (Tr.altL Tr.skip))
  have h2 : Tr env (.seq (storeOp []) (.seq (.star ([((0, .deferred) : Nat × Mode)].foldr (fun x c => .alt (passTask [] x) c) .skip)) (storeOp [])))
      [.acq (.exec 0), .rel (.exec 0)] true :=
    Tr.seq (t := []) tr_storeOp (Tr.seq (t := [.acq (.exec 0), .rel (.exec 0)]) (t' := [])
      (Tr.starCons (t := [.acq (.exec 0), .rel (.exec 0)]) (t' := []) (Tr.altL h1) Tr.starNil) tr_storeOp)
  exact Tr.seq (t := [.acq .store, .acq (.exec 0), .rel (.exec 0), .rel .store]) (t' := [])
    (Tr.altR (Tr.lock (Tr.starCons (t := [.acq (.exec 0), .rel (.exec 0)]) (t' := []) h2 Tr.starNil))) Tr.starNil

end traces

example : Begins [] Quiet (both [.pass [(0, .deferred)]] [.callback 0])
    (two [.acq .store, .acq (.exec 0), .rel (.exec 0), .rel .store] [.acq (.exec 0), .rel (.exec 0), .acq .listeners, .rel .listeners] [] []) :=
  begins_two pass_trace (tr_one (b := true) (F := []) (a := .callback 0) (Tr.altL (tr_success (t := []) rfl)))

/-- a callback that calls `get_task`, or does nothing -/
theorem nest_getTask (k : Callout) : Nest [] 1 k [.acq .store, .rel .store] :=
  ⟨[.getTask], true, fun a ha => by rw [List.mem_singleton.mp ha]; exact ⟨trivial, trivial⟩, tr_one (F := []) (a := .getTask) tr_getTask⟩

/-- `shutdown(wait=True)` waits for a worker whose listener (or function) calls `get_task`. -/
theorem C82_shutdown_witness : ∃ s0 s, Begins [] (Nest [] 1) (both [.shutdown [1]] [.callback 0]) s0 ∧ Reach s0 s ∧ Deadlocked s := by
  have h0 : Tr (Nest [] 1) (program [] [.shutdown [1]])
      [.acq .ref, .rel .ref, .acq .execs, .acq .store, .join 1, .rel .store, .rel .execs, .acq .listeners, .rel .listeners] true := by
    refine tr_one (b := true) (F := []) (a := .shutdown [1]) ?_
    have hj : Tr (Nest [] 1) (.seq (joins [1]) (.seq (storeOp []) (.seq (.star (.seq (storeOp []) (.guard (.callout .shutdownFn)))) (storeOp []))))
        [.join 1] true :=
      Tr.seq (t := [.join 1]) (t' := []) (Tr.seq (t := [.join 1]) (t' := []) Tr.join Tr.skip)
        (Tr.seq (t := []) (t' := []) tr_storeOp (Tr.seq (t := []) (t' := []) Tr.starNil tr_storeOp))
    have hd : Tr (Nest [] 1) dispatch [.acq .listeners, .rel .listeners] true :=
      Tr.seq (t := [.acq .listeners, .rel .listeners]) (t' := []) (Tr.lock Tr.skip) Tr.starNil
    exact Tr.seq (t := [.acq .ref, .rel .ref]) (Tr.lock Tr.skip) (Tr.altR
      (Tr.seq (t := [.acq .execs, .acq .store, .join 1, .rel .store, .rel .execs]) (Tr.lock (Tr.lock hj)) hd))
  have h1 : Tr (Nest [] 1) (program [] [.callback 0])
      [.acq (.exec 0), .rel (.exec 0), .acq .listeners, .rel .listeners, .acq .store, .rel .store] true :=
    tr_one (b := true) (F := []) (a := .callback 0) (Tr.altL (tr_success (nest_getTask _)))
  refine ⟨_, two [.join 1, .rel .store, .rel .execs, .acq .listeners, .rel .listeners] [.acq .store, .rel .store] [.store, .execs] [], begins_two h0 h1, ?_, deadlocked_two ?_ ?_⟩
  · refine rel1 (l := .listeners) (acq1 (by decide) (by decide) (rel1 (l := .exec 0) (acq1 (by decide) (by decide) ?_)))
    refine acq0 (by decide) (by decide) (acq0 (by decide) (by decide) (rel0 (l := .ref) (acq0 (by decide) (by decide) Reach.init)))
  · exact Or.inr ⟨_, rfl, by decide⟩
  · exact Or.inl ⟨.store, _, rfl, by decide, Or.inl (by decide)⟩

/-- A future that is already done when its callback is attached: `run_task` calls a listener that calls `get_task` while it
holds the lock of the executor, and a pass of the scheduler, which holds `store_lock`, submits to the same executor. -/
theorem C82_done_witness : ∃ s0 s, Begins [] (Nest [] 1) (both [.runTask 0 .done] [.pass [(0, .deferred)]]) s0 ∧ Reach s0 s ∧ Deadlocked s := by
  have h0 : Tr (Nest [] 1) (program [] [.runTask 0 .done])
      [.acq (.exec 0), .acq (.exec 0), .rel (.exec 0), .acq .listeners, .rel .listeners, .acq .store, .rel .store, .rel (.exec 0)] true := by
    refine tr_one (b := true) (F := []) (a := .runTask 0 .done) ?_
    exact Tr.seq (t := []) tr_storeOp (Tr.seq (t' := []) (t := [.acq (.exec 0), .acq (.exec 0), .rel (.exec 0), .acq .listeners, .rel .listeners,
      .acq .store, .rel .store, .rel (.exec 0)]) (Tr.guard (Tr.lock (Tr.altL (tr_success (nest_getTask _)))))
      (Tr.seq (t := []) (t' := []) (Tr.altL Tr.skip) (Tr.altL Tr.skip)))
  have h1 := pass_trace (env := Nest [] 1)
  refine ⟨_, two [.acq .store, .rel .store, .rel (.exec 0)] [.acq (.exec 0), .rel (.exec 0), .rel .store] [.exec 0] [.store], begins_two h0 h1, ?_, deadlocked_two ?_ ?_⟩
  · refine acq1 (by decide) (by decide) (rel0 (l := .listeners) (acq0 (by decide) (by decide) (rel0 (l := .exec 0) ?_)))
    exact acq0 (by decide) (by decide) (acq0 (by decide) (by decide) Reach.init)
  · exact Or.inl ⟨.store, _, rfl, by decide, Or.inl (by decide)⟩
  · exact Or.inl ⟨.exec 0, _, rfl, by decide, Or.inl (by decide)⟩

/-- A `DebugExecutor`: the function that `run_task` runs calls `get_task`, while a pass submits to the same executor. -/
theorem C82_debug_witness : ∃ s0 s, Begins [] (Nest [] 1) (both [.runTask 0 .debug] [.pass [(0, .deferred)]]) s0 ∧ Reach s0 s ∧ Deadlocked s := by
  have h0 : Tr (Nest [] 1) (program [] [.runTask 0 .debug])
      [.acq (.exec 0), .acq .store, .rel .store, .acq (.exec 0), .rel (.exec 0), .rel (.exec 0)] true := by
    refine tr_one (b := true) (F := []) (a := .runTask 0 .debug) ?_
    exact Tr.seq (t := []) tr_storeOp (Tr.seq (t' := []) (t := [.acq (.exec 0), .acq .store, .rel .store, .acq (.exec 0), .rel (.exec 0), .rel (.exec 0)])
      (Tr.guard (Tr.lock (Tr.altL (Tr.seq (Tr.callout true (nest_getTask _)) (Tr.seq (t := [.acq (.exec 0), .rel (.exec 0)]) (t' := []) (Tr.lock Tr.skip) Tr.starNil)))))
      (Tr.seq (t := []) (t' := []) (Tr.altL Tr.skip) (Tr.altL Tr.skip)))
  have h1 := pass_trace (env := Nest [] 1)
  refine ⟨_, two [.acq .store, .rel .store, .acq (.exec 0), .rel (.exec 0), .rel (.exec 0)] [.acq (.exec 0), .rel (.exec 0), .rel .store] [.exec 0] [.store], begins_two h0 h1, ?_, deadlocked_two ?_ ?_⟩
  · exact acq1 (by decide) (by decide) (acq0 (by decide) (by decide) Reach.init)
  · exact Or.inl ⟨.store, _, rfl, by decide, Or.inl (by decide)⟩
  · exact Or.inl ⟨.exec 0, _, rfl, by decide, Or.inl (by decide)⟩

/-- A listener that needs the set of executors: the listener of `add_task`, which is called under `store_lock`, asks for
`get_scheduler_info`, while the scheduler is shut down without waiting. -/
theorem C82_executors_witness :
    ∃ s0 s, Begins [] (fun _ t => ∃ b, Tr Quiet (program [] [.schedulerInfo]) t b) (both [.addTask] [.shutdown []]) s0 ∧ Reach s0 s ∧ Deadlocked s := by
  have hq : Tr Quiet (program [] [.schedulerInfo]) [.acq .store, .rel .store, .acq .execs, .rel .execs, .acq .store, .rel .store] true :=
    tr_one (b := true) (F := []) (a := .schedulerInfo) (Tr.seq (t := [.acq .store, .rel .store]) tr_getTask
      (Tr.seq (t := [.acq .execs, .rel .execs]) (Tr.lock Tr.skip) (Tr.lock Tr.skip)))
  have h0 : Tr (fun _ t => ∃ b, Tr Quiet (program [] [.schedulerInfo]) t b) (program [] [.addTask])
      [.acq .store, .acq .listeners, .rel .listeners, .acq .store, .rel .store, .acq .execs, .rel .execs, .acq .store, .rel .store, .rel .store] true := by
    refine tr_one (b := true) (F := []) (a := .addTask) ?_
    exact Tr.lock (Tr.altR (Tr.seq (t := []) tr_storeOp (tr_dispatch (env := fun _ t => ∃ b, Tr Quiet (program [] [.schedulerInfo]) t b) ⟨true, hq⟩)))
  have h1 : Tr (fun _ t => ∃ b, Tr Quiet (program [] [.schedulerInfo]) t b) (program [] [.shutdown []])
      [.acq .ref, .rel .ref, .acq .execs, .acq .store, .rel .store, .rel .execs, .acq .listeners, .rel .listeners] true := by
    refine tr_one (b := true) (F := []) (a := .shutdown []) ?_
    exact Tr.seq (t := [.acq .ref, .rel .ref]) (Tr.lock Tr.skip) (Tr.altR
      (Tr.seq (t := [.acq .execs, .acq .store, .rel .store, .rel .execs]) (Tr.lock (Tr.lock (t := [])
        (Tr.seq (t := []) (t' := []) Tr.skip (Tr.seq (t := []) (t' := []) tr_storeOp (Tr.seq (t := []) (t' := []) Tr.starNil tr_storeOp)))))
        (Tr.seq (t := [.acq .listeners, .rel .listeners]) (t' := []) (Tr.lock Tr.skip) Tr.starNil)))
  refine ⟨_, two [.acq .execs, .rel .execs, .acq .store, .rel .store, .rel .store] [.acq .store, .rel .store, .rel .execs, .acq .listeners, .rel .listeners]
      [.store] [.execs], begins_two h0 h1, ?_, deadlocked_two ?_ ?_⟩
  · refine acq1 (by decide) (by decide) (rel1 (l := .ref) (acq1 (by decide) (by decide) ?_))
    refine rel0 (l := .store) (acq0 (by decide) (by decide) (rel0 (l := .listeners) (acq0 (by decide) (by decide) ?_)))
    exact acq0 (by decide) (by decide) Reach.init
  · exact Or.inl ⟨.execs, _, rfl, by decide, Or.inl (by decide)⟩
  · exact Or.inl ⟨.store, _, rfl, by decide, Or.inl (by decide)⟩

end Deadlock
end Asyncz
