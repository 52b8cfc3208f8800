import Verif.Model.Loops
/-!
# C76, C77: event loops of the schedulers, and shutdown coroutines
-/
namespace Asyncz
namespace Loops

/-! ## C76 -/

/-- no start of the history fails -/
def NoFail (ops : List Op) : Prop := ∀ cur, Op.start cur true ∉ ops

/-- holds in every history -/
structure Own (s : St) : Prop where
  live : s.live = s.thread.toList
  thread : ∀ n, s.thread = some n → s.eventLoop = some (.own n)
  loop : ∀ n, s.eventLoop = some (.own n) → s.thread = some n

/-- holds in every history without failed starts -/
structure Clean (s : St) : Prop where
  running : s.running = true → s.eventLoop ≠ none
  stopped : s.running = false → s.refs ≤ 0 ∧ s.thread = none

theorem spawn_own {s : St} (h : Own s) (he : s.eventLoop = none) : Own s.spawn := by
  have ht : s.thread = none := by
    cases e : s.thread with
    | none => rfl
    | some n => rw [h.thread n e] at he; cases he
  constructor
  · simp [St.spawn, h.live, ht]
  · intro n hn; simp [St.spawn] at hn ⊢; exact hn
  · intro n hn; simp [St.spawn] at hn ⊢; exact hn

theorem baseStart_fields (s : St) (f : Bool) : (baseStart s f).1.live = s.live ∧ (baseStart s f).1.thread = s.thread ∧
    (baseStart s f).1.eventLoop = s.eventLoop := by
  unfold baseStart; simp only
  split
  · exact ⟨rfl, rfl, rfl⟩
  · split
    · exact ⟨rfl, rfl, rfl⟩
    · split <;> exact ⟨rfl, rfl, rfl⟩

theorem own_of_fields {s s' : St} (h : Own s) (h' : s'.live = s.live ∧ s'.thread = s.thread ∧ s'.eventLoop = s.eventLoop) :
    Own s' := by
  obtain ⟨h1, h2, h3⟩ := h'
  exact ⟨by rw [h1, h2, h.live], by rw [h2, h3]; exact h.thread, by rw [h2, h3]; exact h.loop⟩

/-- the loop chosen by `start` -/
def chosen (isolated : Bool) (s : St) (cur : Option Nat) : St :=
  match s.eventLoop with
  | some _ => s
  | none => match cur with
    | some n => if isolated then s.spawn else { s with eventLoop := some (.app n) }
    | none => s.spawn

theorem start_eq (isolated : Bool) (s : St) (cur : Option Nat) (f : Bool) :
    start isolated s cur f = baseStart (chosen isolated s cur) f := rfl

theorem chosen_own (isolated : Bool) {s : St} (h : Own s) (cur : Option Nat) :
    Own (chosen isolated s cur) ∧ (chosen isolated s cur).eventLoop ≠ none ∧ (chosen isolated s cur).refs = s.refs ∧
    (chosen isolated s cur).running = s.running := by
  unfold chosen
  cases e : s.eventLoop with
  | some l => exact ⟨h, by simp [e], rfl, rfl⟩
  | none =>
    have app : ∀ n, Own { s with eventLoop := some (.app n) } := by
      intro n
      have ht : s.thread = none := by
        cases e' : s.thread with
        | none => rfl
        | some n => rw [h.thread n e'] at e; cases e
      exact ⟨h.live, by simp [ht], by simp⟩
    cases cur with
    | none => exact ⟨spawn_own h e, by simp [St.spawn], rfl, rfl⟩
    | some n =>
      simp only
      split
      · exact ⟨spawn_own h e, by simp [St.spawn], rfl, rfl⟩
      · exact ⟨app n, by simp, rfl, rfl⟩

theorem baseShutdown_fields (s : St) : (baseShutdown s).1.live = s.live ∧ (baseShutdown s).1.thread = s.thread ∧
    (baseShutdown s).1.eventLoop = s.eventLoop := by
  unfold baseShutdown; simp only
  split
  · exact ⟨rfl, rfl, rfl⟩
  · split <;> exact ⟨rfl, rfl, rfl⟩

theorem stopLoop_own {s : St} (h : Own s) : Own s.stopLoop ∧ s.stopLoop.live = [] ∧ s.stopLoop.thread = none ∧
    s.stopLoop.running = s.running ∧ s.stopLoop.refs = s.refs := by
  unfold St.stopLoop
  cases e : s.thread with
  | none => exact ⟨h, by rw [h.live, e]; rfl, e, rfl, rfl⟩
  | some n =>
    have hl : s.live.filter (fun m => decide (s.eventLoop ≠ some (.own m))) = [] := by
      rw [h.live, h.thread n e, e]; simp
    exact ⟨⟨by simpa using hl, by simp, by simp⟩, hl, rfl, rfl, rfl⟩

theorem body_own {s : St} (h : Own s) : Own (body s) := by
  have hf := own_of_fields h (baseShutdown_fields s)
  unfold body
  split
  · rename_i s' e; rw [e] at hf; exact (stopLoop_own hf).1
  · rename_i s' o _ e; rw [e] at hf; exact hf

theorem own_step (isolated : Bool) {s : St} (h : Own s) (op : Op) : Own (step isolated s op) := by
  cases op with
  | start cur f =>
    simp only [step, start_eq]
    exact own_of_fields (chosen_own isolated h cur).1 (baseStart_fields _ f)
  | shutdown =>
    simp only [step, shutdown]
    split
    · exact h
    · exact own_of_fields h ⟨rfl, rfl, rfl⟩
  | turn l =>
    simp only [step]
    split
    · exact body_own (own_of_fields h ⟨rfl, rfl, rfl⟩)
    · exact h

theorem body_clean {s : St} (h : Own s) (hc : Clean s) : Clean (body s) := by
  unfold body baseShutdown
  simp only
  by_cases h1 : s.refs - 1 > 0
  · simp only [h1, if_true]
    refine ⟨hc.running, ?_⟩
    intro hr
    have := (hc.stopped hr).1
    omega
  · simp only [h1, if_false]
    cases hr : s.running with
    | false =>
      simp only [if_true]
      refine ⟨fun h => (by cases h), fun _ => ⟨(by simp only; omega), (hc.stopped hr).2⟩⟩
    | true =>
      simp only [Bool.true_eq_false, if_false]
      have hs : Own { s with refs := s.refs - 1, running := false } := own_of_fields h ⟨rfl, rfl, rfl⟩
      obtain ⟨_, _, h4, h5, h6⟩ := stopLoop_own hs
      refine ⟨fun hh => (by rw [h5] at hh; cases hh), fun _ => ⟨(by rw [h6]; simp only; omega), h4⟩⟩

theorem clean_start (isolated : Bool) {s : St} (h : Own s) (hc : Clean s) (cur : Option Nat) :
    Clean (start isolated s cur false).1 := by
  obtain ⟨ho, hne, hrefs, hrun⟩ := chosen_own isolated h cur
  rw [start_eq]
  unfold baseStart
  simp only [hrefs, hrun]
  cases hr : s.running with
  | false =>
    have := (hc.stopped hr).1
    rw [if_neg (by omega)]
    simp only [Bool.false_eq_true, if_false]
    exact ⟨fun _ => hne, fun hh => by cases hh⟩
  | true =>
    by_cases h1 : s.refs + 1 > 1
    · rw [if_pos h1]
      exact ⟨fun _ => hne, fun hh => by simp [hrun, hr] at hh⟩
    · rw [if_neg h1]
      simp only [if_true]
      exact ⟨fun _ => hne, fun hh => by simp [hrun, hr] at hh⟩

theorem clean_step (isolated : Bool) {s : St} (h : Own s) (hc : Clean s) (op : Op) (hn : ∀ cur, op ≠ .start cur true) :
    Clean (step isolated s op) := by
  cases op with
  | start cur f =>
    cases f with
    | true => exact absurd rfl (hn cur)
    | false => exact clean_start isolated h hc cur
  | shutdown =>
    simp only [step, shutdown]
    split
    · exact hc
    · exact ⟨hc.running, hc.stopped⟩
  | turn l =>
    simp only [step]
    split
    · exact body_clean (own_of_fields h ⟨rfl, rfl, rfl⟩) ⟨hc.running, hc.stopped⟩
    · exact hc

theorem own_init : Own init := ⟨rfl, (by intro n h; cases h), (by intro n h; cases h)⟩
theorem clean_init : Clean init := ⟨(by intro h; cases h), fun _ => ⟨by decide, rfl⟩⟩

theorem run_inv (isolated : Bool) (ops : List Op) (s : St) (h : Own s) : Own (ops.foldl (step isolated) s) ∧
    (Clean s → NoFail ops → Clean (ops.foldl (step isolated) s)) := by
  induction ops generalizing s with
  | nil => exact ⟨h, fun hc _ => hc⟩
  | cons op ops ih =>
    obtain ⟨h1, h2⟩ := ih (step isolated s op) (own_step isolated h op)
    refine ⟨h1, fun hc hn => h2 (clean_step isolated h hc op ?_) ?_⟩
    · rintro cur rfl; exact hn cur (by simp)
    · intro cur hm; exact hn cur (by simp [hm])

/-- **C76.** In every history of an AsyncIOScheduler (starts that fail included, posted shutdowns run at any later time):
at most one thread with a loop of the scheduler exists, and its loop is the one in use. -/
theorem C76_one_loop (isolated : Bool) (ops : List Op) :
    (run isolated ops).live.length ≤ 1 ∧ ∀ n ∈ (run isolated ops).live, (run isolated ops).eventLoop = some (.own n) := by
  have h := (run_inv isolated ops init own_init).1
  show (List.foldl (step isolated) init ops).live.length ≤ 1 ∧ _
  refine ⟨?_, ?_⟩
  · rw [h.live]; cases (List.foldl (step isolated) init ops).thread <;> simp
  · intro n hn
    have hn : n ∈ (List.foldl (step isolated) init ops).live := hn
    rw [h.live] at hn
    cases e : (List.foldl (step isolated) init ops).thread with
    | none => rw [e] at hn; cases hn
    | some m => rw [e] at hn; simp at hn; subst hn; exact h.thread _ e

/-- Whenever the scheduler is stopped, no thread of its own is left.  Missing: after a start that failed. -/
theorem C76_stopped_partial (isolated : Bool) (ops : List Op) (hn : NoFail ops) (hs : (run isolated ops).running = false) :
    (run isolated ops).live = [] := by
  have h := run_inv isolated ops init own_init
  show (List.foldl (step isolated) init ops).live = []
  rw [h.1.live, ((h.2 clean_init hn).stopped hs).2]
  rfl

/-- While it is running it has a loop to run in. -/
theorem C76_running (isolated : Bool) (ops : List Op) (hn : NoFail ops) (hs : (run isolated ops).running = true) :
    (run isolated ops).eventLoop ≠ none :=
  ((run_inv isolated ops init own_init).2 clean_init hn).running hs

/-- A scheduler that is started in the application's only loop uses that loop and never has a thread. -/
theorem C76_app_loop (ops : List Op) (n : Nat) (h : ∀ cur f, Op.start cur f ∈ ops → cur = some n) :
    (run false ops).live = [] ∧ ((run false ops).eventLoop = none ∨ (run false ops).eventLoop = some (.app n)) := by
  suffices H : ∀ (ops : List Op) (s : St), (∀ cur f, Op.start cur f ∈ ops → cur = some n) →
      s.live = [] ∧ s.thread = none ∧ (s.eventLoop = none ∨ s.eventLoop = some (.app n)) →
      (ops.foldl (step false) s).live = [] ∧ (ops.foldl (step false) s).thread = none ∧
      ((ops.foldl (step false) s).eventLoop = none ∨ (ops.foldl (step false) s).eventLoop = some (.app n)) by
    have := H ops init h ⟨rfl, rfl, Or.inl rfl⟩
    exact ⟨this.1, this.2.2⟩
  intro ops
  induction ops with
  | nil => intro s _ hs; exact hs
  | cons op ops ih =>
    intro s ho hs
    refine ih _ (fun cur f hm => ho cur f (by simp [hm])) ?_
    obtain ⟨h1, h2, h3⟩ := hs
    cases op with
    | start cur f =>
      have := ho cur f (by simp)
      subst this
      simp only [step, start_eq]
      obtain ⟨e1, e2, e3⟩ := baseStart_fields (chosen false s (some n)) f
      rw [e1, e2, e3]
      unfold chosen
      cases e : s.eventLoop with
      | some l => simp only; rw [e] at h3; exact ⟨h1, h2, by rw [e]; exact h3⟩
      | none => simp only [Bool.false_eq_true, if_false]; exact ⟨h1, h2, by simp⟩
    | shutdown =>
      simp only [step, shutdown]
      split <;> exact ⟨h1, h2, h3⟩
    | turn l =>
      simp only [step]
      split
      · unfold body
        obtain ⟨e1, e2, e3⟩ := baseShutdown_fields { s with posted := s.posted.erase l }
        split
        · rename_i s' e
          rw [e] at e1 e2 e3
          simp only at e1 e2 e3
          unfold St.stopLoop
          rw [e2, h2]
          simp only
          exact ⟨by rw [e1, h1], by rw [e2, h2], by rw [e3]; exact h3⟩
        · rename_i s' o _ e
          rw [e] at e1 e2 e3
          simp only at e1 e2 e3
          exact ⟨by rw [e1, h1], by rw [e2, h2], by rw [e3]; exact h3⟩
      · exact ⟨h1, h2, h3⟩

-- non-trivial histories: nested starts, two loops in succession
example : NoFail [.start none false, .start none false, .shutdown, .shutdown, .turn (.own 0), .turn (.own 0), .start none false] := by
  intro cur h; simp at h
example : (run true [.start none false, .start none false, .shutdown, .shutdown, .turn (.own 0)]).live = [0] := by decide
example : (run true [.start none false, .start none false, .shutdown, .shutdown, .turn (.own 0), .turn (.own 0)]).live = [] ∧
    (run true [.start none false, .start none false, .shutdown, .shutdown, .turn (.own 0), .turn (.own 0)]).running = false ∧
    (run true [.start none false, .start none false, .shutdown, .shutdown, .turn (.own 0), .turn (.own 0), .start none false]).live = [1] := by
  decide

/-- After a failed start the thread is left running, and shutdown does not stop it. -/
theorem C76_failed_start_witness : ∃ ops, (run true ops).running = false ∧ (run true ops).posted = [] ∧
    Op.shutdown ∈ ops ∧ (run true ops).live ≠ [] :=
  ⟨[.start none true, .shutdown, .turn (.own 0)], by decide⟩

/-- Started again in another loop of the application, the scheduler goes on using the loop of its first start. -/
theorem C76_stale_loop_witness : ∃ ops, NoFail ops ∧ ops.getLast? = some (.start (some 2) false) ∧
    (run false ops).running = true ∧ (run false ops).eventLoop = some (.app 1) :=
  ⟨[.start (some 1) false, .shutdown, .turn (.app 1), .start (some 2) false], (by intro cur h; simp at h), rfl, by decide, by decide⟩

/-! ### NativeAsyncIOScheduler -/

/-- every start succeeds and is made on a stopped scheduler -/
def Flat (isolated : Bool) (ops : List NOp) : Prop :=
  ∀ p cur f q, ops = p ++ NOp.start cur f :: q → f = false ∧ (nrun isolated p).running = false

theorem nrun_append (isolated : Bool) (p : List NOp) (op : NOp) : nrun isolated (p ++ [op]) = nstep isolated (nrun isolated p) op := by
  simp [nrun]

/-- no loop unless it is running -/
structure NInv (s : St) : Prop where
  live : s.live = s.thread.toList
  thread : ∀ n, s.thread = some n → s.eventLoop = some (.own n)
  stopped : s.running = false → s.refs ≤ 0 ∧ s.thread = none

theorem nbody_inv {s : St} (h : NInv s) : NInv (body s) := by
  unfold body baseShutdown
  simp only
  by_cases h1 : s.refs - 1 > 0
  · simp only [h1, if_true]
    refine ⟨h.live, h.thread, ?_⟩
    intro hr
    have := (h.stopped hr).1
    omega
  · simp only [h1, if_false]
    cases hr : s.running with
    | false =>
      simp only [if_true]
      exact ⟨h.live, h.thread, fun _ => ⟨by simp only; omega, (h.stopped hr).2⟩⟩
    | true =>
      simp only [Bool.true_eq_false, if_false]
      unfold St.stopLoop
      cases e : s.thread with
      | none =>
        simp only [e]
        exact ⟨by simp [h.live, e], by simp [e], fun _ => ⟨by simp only; omega, by simp [e]⟩⟩
      | some n =>
        simp only [e]
        refine ⟨?_, by simp, fun _ => ⟨by simp only; omega, rfl⟩⟩
        simp only [h.live, e, h.thread n e]
        simp

/-- A NativeAsyncIOScheduler whose starts are not nested and do not fail has at most one thread, and none when it is
stopped; without an isolated loop it never has one.  Missing: nested starts. -/
theorem C76_native_partial (isolated : Bool) (ops : List NOp) (hf : Flat isolated ops) :
    (nrun isolated ops).live.length ≤ 1 ∧ ((nrun isolated ops).running = false → (nrun isolated ops).live = []) := by
  suffices H : ∀ l : List NOp, Flat isolated l.reverse → NInv (nrun isolated l.reverse) by
    have h := H ops.reverse (by rw [List.reverse_reverse]; exact hf)
    rw [List.reverse_reverse] at h
    rw [h.live]
    refine ⟨by cases (nrun isolated ops).thread <;> simp, fun hr => ?_⟩
    rw [(h.stopped hr).2]; rfl
  intro l
  induction l with
  | nil => intro _; exact ⟨rfl, (by intro n h; cases h), fun _ => ⟨Int.le_refl 0, rfl⟩⟩
  | cons op l ih =>
    intro hf
    rw [List.reverse_cons] at hf ⊢
    have ih := ih (fun p cur f q e => hf p cur f (q ++ [op]) (by rw [e]; simp))
    rw [nrun_append]
    cases op with
    | shutdown => exact nbody_inv ih
    | start cur f =>
      obtain ⟨rfl, hr⟩ := hf l.reverse cur f [] rfl
      obtain ⟨hrefs, ht⟩ := ih.stopped hr
      simp only [nstep, nativeStart]
      generalize nrun isolated l.reverse = s at *
      have hsp : ∀ s' : St, s'.refs = s.refs → s'.running = false → s'.live = s'.thread.toList →
          (∀ n, s'.thread = some n → s'.eventLoop = some (.own n)) → NInv (baseStart s' false).1 := by
        intro s' e1 e2 e3 e4
        unfold baseStart
        simp only [e1, e2]
        rw [if_neg (by omega)]
        simp only [Bool.false_eq_true, if_false]
        exact ⟨e3, e4, fun h => by cases h⟩
      split
      · exact hsp _ rfl hr (by simp [St.spawn, ih.live, ht]) (by intro n hn; simp [St.spawn] at hn ⊢; exact hn)
      · exact hsp _ rfl hr ih.live (by intro n hn; simp [ht] at hn)

/-- Without an isolated loop a NativeAsyncIOScheduler never has a thread, whatever is called. -/
theorem C76_native_app (ops : List NOp) : (nrun false ops).live = [] := by
  suffices H : ∀ (ops : List NOp) (s : St), s.live = [] → (ops.foldl (nstep false) s).live = [] from H ops init rfl
  intro ops
  induction ops with
  | nil => intro s h; exact h
  | cons op ops ih =>
    intro s h
    refine ih _ ?_
    cases op with
    | start cur f =>
      simp only [nstep, nativeStart, Bool.false_eq_true, if_false]
      rw [(baseStart_fields _ f).1]; exact h
    | shutdown =>
      simp only [nstep, body]
      have e := (baseShutdown_fields s).1
      split
      · rename_i s' e'
        rw [e'] at e
        unfold St.stopLoop
        have e0 : s'.live = [] := by rw [← h, ← e]
        split
        · exact e0
        · simp [e0]
      · rename_i s' o _ e'
        rw [e'] at e
        rw [e, h]

example : Flat true [.start 1 false, .shutdown, .start 1 false, .shutdown] := by
  intro p cur f q e
  match p, e with
  | [], e => simp at e; exact ⟨e.1.2, rfl⟩
  | [_], e => simp at e
  | [_, _], e => simp at e; exact ⟨e.2.2.1.2, by rw [← e.1, ← e.2.1]; rfl⟩
  | [_, _, _], e => simp at e
  | _ :: _ :: _ :: _ :: p, e => simp at e

/-- A nested start of an isolated NativeAsyncIOScheduler makes a second thread; after the last shutdown the first one is
still there. -/
theorem C76_native_nested_witness : ∃ ops : List NOp, (nrun true ops).running = false ∧ (nrun true ops).refs = 0 ∧
    (nrun true ops).live ≠ [] :=
  ⟨[.start 1 false, .start 1 false, .shutdown, .shutdown], by decide⟩

/-- `NativeAsyncIOScheduler.shutdown` stops its isolated loop from outside: once the loop waits for work, it never ends, so
the `join` never returns; not even another shutdown helps. -/
theorem C76_native_join_witness (evs : List SEv) (h : SEv.post ∉ evs) :
    (SEv.go :: evs).foldl sleepStep (.awake 0 false) ≠ .ended ∧
    (SEv.go :: .go :: evs).foldl sleepStep (.awake 1 false) ≠ .ended := by
  have key : ∀ (evs : List SEv), SEv.post ∉ evs → ∀ b, evs.foldl sleepStep (.asleep b) ≠ .ended := by
    intro evs
    induction evs with
    | nil => intro _ b hb; cases hb
    | cons e evs ih =>
      intro hn b
      have hn' : SEv.post ∉ evs := fun hm => hn (by simp [hm])
      cases e with
      | go => exact ih hn' b
      | stop => exact ih hn' true
      | post => exact absurd (by simp) hn
  exact ⟨key evs h false, key evs h false⟩

/-- A loop that is told to stop and posted anything, in this order, ends with its next turn. -/
theorem C76_stop_then_post (s : Sleep) (h : s ≠ .ended) : [SEv.stop, .post, .go].foldl sleepStep s = .ended := by
  cases s with
  | ended => exact absurd rfl h
  | awake n b => cases n <;> cases b <;> rfl
  | asleep b => rfl

example : SEv.post ∉ [SEv.stop, .go, .go, .stop, .go] := by decide

/-! ## C77 -/

/-- callbacks that have nothing to do with the scheduler -/
def Calm (l : List Cb) : Prop := ∀ c ∈ l, c = .busy ∨ c = .idle

theorem turn_append (a b : List Cb) : turn (a ++ b) =
    ((turn a).1 ++ (turn b).1, (turn a).2.1 || (turn b).2.1, (turn a).2.2 ++ (turn b).2.2) := by
  induction a with
  | nil => simp [turn]
  | cons c a ih => simp only [List.cons_append, turn, ih, List.append_assoc, Bool.or_assoc]

theorem turn_calm {l : List Cb} (h : Calm l) : Calm (turn l).1 ∧ (turn l).2.1 = false ∧ (turn l).2.2 = [] := by
  induction l with
  | nil => exact ⟨fun _ h => by simp [turn] at h, rfl, rfl⟩
  | cons c l ih =>
    obtain ⟨h1, h2, h3⟩ := ih (fun c hc => h c (by simp [hc]))
    rcases h c (by simp) with rfl | rfl
    · refine ⟨?_, by simp [turn, effect, h2], by simp [turn, effect, h3]⟩
      intro c hc
      simp [turn, effect] at hc
      rcases hc with rfl | hc
      · exact Or.inl rfl
      · exact h1 c hc
    · exact ⟨by simpa [turn, effect] using h1, by simp [turn, effect, h2], by simp [turn, effect, h3]⟩

theorem turn_steps (coros : List (Nat × Nat)) : turn (coros.map fun p => Cb.step p.1 p.2) =
    ((coros.filter fun p => decide (p.2 ≠ 0)).map fun p => .step p.1 (p.2 - 1), false,
      (coros.filter fun p => decide (p.2 = 0)).map Prod.fst) := by
  induction coros with
  | nil => rfl
  | cons p coros ih =>
    obtain ⟨i, n⟩ := p
    simp only [List.map_cons, turn, ih]
    cases n with
    | zero => simp [effect]
    | succ n => simp [effect]

/-- **C77**, isolated loop: exactly the coroutines that never suspend are run to their end; the others are abandoned at
their first suspension, whatever else the loop has to do. -/
theorem C77_own_loop (coros : List (Nat × Nat)) (pre post : List Cb) (hpre : Calm pre) (hpost : Calm post) (d : List Nat) :
    OwnLoop (pre ++ .shutdown coros true :: post) d ↔ d = (coros.filter fun p => decide (p.2 = 0)).map Prod.fst := by
  obtain ⟨a1, a2, a3⟩ := turn_calm hpre
  obtain ⟨b1, b2, b3⟩ := turn_calm hpost
  have e1 : turn (pre ++ .shutdown coros true :: post) =
      ((turn pre).1 ++ ((if coros.isEmpty then [] else [.gather coros]) ++ (turn post).1), true, []) := by
    rw [turn_append]
    simp only [turn, effect, a2, a3, b3, Bool.false_or, Bool.true_or, List.append_nil, List.nil_append]
  have stops : ∀ {r r' : List Cb} {d : List Nat}, (turn r).2.1 = true → (Forever r r' d ↔ r' = (turn r).1 ∧ d = (turn r).2.2) := by
    intro r r' d h
    constructor
    · intro hf
      cases hf with
      | stop _ => exact ⟨rfl, rfl⟩
      | again h' _ => rw [h] at h'; cases h'
    · rintro ⟨rfl, rfl⟩; exact .stop h
  have goes : ∀ {r r' : List Cb} {d : List Nat}, (turn r).2.1 = false → (turn r).2.2 = [] → (Forever r r' d ↔ Forever (turn r).1 r' d) := by
    intro r r' d h h0
    constructor
    · intro hf
      cases hf with
      | stop h' => rw [h] at h'; cases h'
      | again _ n => rw [h0]; exact n
    · intro hf
      have := Forever.again h hf
      rw [h0] at this; exact this
  obtain ⟨c1, c2, c3⟩ := turn_calm a1
  obtain ⟨f1, f2, f3⟩ := turn_calm b1
  obtain ⟨_, g2, g3⟩ := turn_calm c1
  obtain ⟨_, k2, k3⟩ := turn_calm f1
  have eg : turn (if coros.isEmpty then [] else [Cb.gather coros]) = (coros.map fun p => Cb.step p.1 p.2, false, []) := by
    cases coros with
    | nil => rfl
    | cons p l => simp [turn, effect]
  have e2 : turn (((turn pre).1 ++ ((if coros.isEmpty then [] else [.gather coros]) ++ (turn post).1)) ++ [.agens]) =
      ((turn (turn pre).1).1 ++ ((coros.map fun p => Cb.step p.1 p.2) ++ (turn (turn post).1).1) ++ [.finish], false, []) := by
    simp only [turn_append, eg, c2, c3, f2, f3]
    simp [turn, effect]
  have e3 : (turn ((turn (turn pre).1).1 ++ ((coros.map fun p => Cb.step p.1 p.2) ++ (turn (turn post).1).1) ++ [.finish])).2 =
      (true, (coros.filter fun p => decide (p.2 = 0)).map Prod.fst) := by
    simp only [turn_append, turn_steps, g2, g3, k2, k3]
    simp [turn, effect]
  constructor
  · intro h
    cases h with
    | mk h₁ h₂ =>
      rw [stops (by rw [e1])] at h₁
      obtain ⟨rfl, rfl⟩ := h₁
      rw [e1] at h₂ ⊢
      simp only at h₂ ⊢
      rw [goes (by rw [e2]) (by rw [e2]), e2] at h₂
      rw [stops (by simp only; rw [e3])] at h₂
      rw [h₂.2]
      simp only
      rw [e3]
      rfl
  · rintro rfl
    have h₁ := Forever.stop (r := pre ++ .shutdown coros true :: post) (by rw [e1])
    rw [e1] at h₁
    have h₂ := Forever.stop (r := (turn (turn pre).1).1 ++ ((coros.map fun p => Cb.step p.1 p.2) ++ (turn (turn post).1).1) ++ [.finish]) (by rw [e3])
    rw [e3] at h₂
    have h₃ : Forever (turn (((turn pre).1 ++ ((if coros.isEmpty then [] else [.gather coros]) ++ (turn post).1)) ++ [.agens])).1
        (turn ((turn (turn pre).1).1 ++ ((coros.map fun p => Cb.step p.1 p.2) ++ (turn (turn post).1).1) ++ [.finish])).1
        ((coros.filter fun p => decide (p.2 = 0)).map Prod.fst) := by
      rw [e2]; exact h₂
    exact OwnLoop.mk h₁ ((goes (by rw [e2]) (by rw [e2])).2 h₃)

/-- a queue of steps of coroutines and of callbacks that have nothing to do with the scheduler -/
def Steps (l : List Cb) : Prop := ∀ c ∈ l, c = .busy ∨ c = .idle ∨ ∃ i n, c = .step i n

/-- this is a step of coroutine `i` that ends within `m` turns -/
def endsBy (i m : Nat) : Cb → Bool
  | .step j n => decide (j = i ∧ n < m)
  | _ => false

theorem turn_endsBy {l : List Cb} (h : Steps l) (i m : Nat) : Steps (turn l).1 ∧
    (turn l).2.2.count i + (turn l).1.countP (endsBy i m) = l.countP (endsBy i (m + 1)) := by
  induction l with
  | nil => exact ⟨fun _ h => (by simp [turn] at h), rfl⟩
  | cons c l ih =>
    obtain ⟨h1, h2⟩ := ih (fun c hc => h c (by simp [hc]))
    rcases h c (by simp) with rfl | rfl | ⟨j, n, rfl⟩
    · refine ⟨?_, ?_⟩
      · intro c hc
        simp [turn, effect] at hc
        rcases hc with rfl | hc
        · exact Or.inl rfl
        · exact h1 c hc
      · simp [turn, effect, endsBy, h2]
    · refine ⟨?_, ?_⟩
      · simpa [turn, effect] using h1
      · simp [turn, effect, endsBy, h2]
    · cases n with
      | zero =>
        refine ⟨by simpa [turn, effect] using h1, ?_⟩
        simp only [turn, effect, List.nil_append, List.count_append, List.countP_cons, endsBy, List.count_singleton]
        by_cases hj : j = i
        · simp [hj]; rw [← h2]; exact by ac_rfl
        · simp [hj]; omega
      | succ n =>
        refine ⟨?_, ?_⟩
        · intro c hc
          simp [turn, effect] at hc
          rcases hc with rfl | hc
          · exact Or.inr (Or.inr ⟨_, _, rfl⟩)
          · exact h1 c hc
        · simp only [turn, effect, List.nil_append, List.cons_append, List.countP_cons, endsBy]
          by_cases hj : j = i
          · by_cases hn : n < m
            · simp [hj, hn]; rw [← h2]; exact by ac_rfl
            · simp [hj, hn]; omega
          · simp [hj]; omega

theorem turns_count {l : List Cb} (h : Steps l) (i m : Nat) : (turns m l).count i = l.countP (endsBy i m) := by
  induction m generalizing l with
  | zero =>
    have : l.countP (endsBy i 0) = 0 := by
      rw [List.countP_eq_zero]
      intro c _
      cases c <;> simp [endsBy]
    simp [turns, this]
  | succ m ih =>
    obtain ⟨h1, h2⟩ := turn_endsBy h i m
    rw [turns, List.count_append, ih h1, h2]

theorem calm_endsBy {l : List Cb} (h : Calm l) (i m : Nat) : l.countP (endsBy i m) = 0 := by
  rw [List.countP_eq_zero]
  intro c hc
  rcases h c hc with rfl | rfl <;> simp [endsBy]

/-- **C77**, loop of the application: each shutdown coroutine ends as often as it is registered, in the turn after as many
suspensions as it makes (two turns after the shutdown at the earliest), and never again, whatever else the loop has to do. -/
theorem C77_app_loop (coros : List (Nat × Nat)) (pre post : List Cb) (hpre : Calm pre) (hpost : Calm post) (i m : Nat) :
    (turns m (pre ++ .shutdown coros false :: post)).count i = coros.countP fun p => decide (p.1 = i ∧ p.2 + 3 ≤ m) := by
  obtain ⟨a1, a2, a3⟩ := turn_calm hpre
  obtain ⟨b1, b2, b3⟩ := turn_calm hpost
  obtain ⟨c1, c2, c3⟩ := turn_calm a1
  obtain ⟨f1, f2, f3⟩ := turn_calm b1
  have eg : turn (if coros.isEmpty then [] else [Cb.gather coros]) = (coros.map fun p => Cb.step p.1 p.2, false, []) := by
    cases coros with
    | nil => rfl
    | cons p l => simp [turn, effect]
  have e1 : turn (pre ++ .shutdown coros false :: post) =
      ((turn pre).1 ++ ((if coros.isEmpty then [] else [.gather coros]) ++ (turn post).1), false, []) := by
    rw [turn_append]
    simp only [turn, effect, a2, a3, b2, b3, Bool.false_or, List.append_nil, List.nil_append]
  have e2 : turn ((turn pre).1 ++ ((if coros.isEmpty then [] else [.gather coros]) ++ (turn post).1)) =
      ((turn (turn pre).1).1 ++ ((coros.map fun p => Cb.step p.1 p.2) ++ (turn (turn post).1).1), false, []) := by
    simp only [turn_append, eg, c2, c3, f2, f3]
    simp
  have none : ∀ m, m ≤ 2 → 0 = coros.countP fun p => decide (p.1 = i ∧ p.2 + 3 ≤ m) := by
    intro m hm
    symm
    rw [List.countP_eq_zero]
    intro p _
    simp only [decide_eq_true_eq]
    omega
  match m with
  | 0 => simp only [turns, List.count_nil]; exact none 0 (by omega)
  | 1 => simp only [turns, e1, List.append_nil, List.count_nil]; exact none 1 (by omega)
  | m + 2 =>
    have st : Steps ((turn (turn pre).1).1 ++ ((coros.map fun p => Cb.step p.1 p.2) ++ (turn (turn post).1).1)) := by
      intro c hc
      simp only [List.mem_append, List.mem_map] at hc
      rcases hc with hc | ⟨p, _, rfl⟩ | hc
      · rcases c1 c hc with h | h
        · exact Or.inl h
        · exact Or.inr (Or.inl h)
      · exact Or.inr (Or.inr ⟨_, _, rfl⟩)
      · rcases f1 c hc with h | h
        · exact Or.inl h
        · exact Or.inr (Or.inl h)
    simp only [turns, e1, e2, List.nil_append]
    rw [turns_count st, List.countP_append, List.countP_append, calm_endsBy c1, calm_endsBy f1, List.countP_map]
    simp only [Nat.zero_add, Nat.add_zero]
    apply List.countP_congr
    intro p _
    simp only [Function.comp, endsBy, decide_eq_true_eq]
    omega

/-- So a coroutine with finitely many suspensions is always run to its end if the application keeps its loop running
long enough. -/
theorem C77_app_loop_ends (coros : List (Nat × Nat)) (pre post : List Cb) (hpre : Calm pre) (hpost : Calm post) (i n : Nat)
    (h : (i, n) ∈ coros) : i ∈ turns (n + 3) (pre ++ .shutdown coros false :: post) := by
  rw [← List.count_pos_iff, C77_app_loop coros pre post hpre hpost, List.countP_pos_iff]
  exact ⟨(i, n), h, by simp⟩

/-- A shutdown coroutine that awaits anything is abandoned in an isolated loop. -/
theorem C77_cut_witness : ∃ coros : List (Nat × Nat), (7, 1) ∈ coros ∧
    (∀ d, OwnLoop ([.busy] ++ .shutdown coros true :: []) d → 7 ∉ d) ∧
    7 ∈ turns 4 ([.busy] ++ .shutdown coros false :: []) := by
  refine ⟨[(3, 0), (7, 1)], by decide, ?_, by decide⟩
  intro d h
  rw [C77_own_loop _ _ _ (by intro c hc; simp at hc; exact Or.inl hc) (by intro c hc; cases hc)] at h
  subst h
  decide

-- the hypotheses are met by a loop with other work, and the isolated loop does end
example : Calm [.busy, .idle] := by intro c hc; simp at hc; exact hc
example : OwnLoop ([.busy, .idle] ++ .shutdown [(3, 0), (7, 1), (4, 0)] true :: [.idle]) [3, 4] :=
  (C77_own_loop _ _ _ (by intro c hc; simp at hc; exact hc) (by intro c hc; simp at hc; exact Or.inr hc) _).2 (by decide)

end Loops
end Asyncz
