import Verif.Props.SchedRun
/-!
# Starting, stopping and waking up (C30, C33, C34, C40)
-/
namespace Asyncz
namespace Sched
variable {σ τ φ : Type} {O : StoreOps σ (Body τ φ)}

/-! ## C30: nested start and shutdown -/

/-- not `start` or `shutdown` -/
def Call.Inner : Call σ τ φ → Prop
  | .start _ | .shutdown => False
  | _ => True

/-- Histories in which every `shutdown` matches a `start`; the number is the depth of nesting.  No `start`
raises. -/
inductive Nested (L : LawfulStore O) (c : Cfg τ) : Nat → State σ τ φ → Prop
  | init : Nested L c 0 State.init
  | begin {d : Nat} {s s' : State σ τ φ} {e : Env τ} {p b : Bool} (hn : Nested L c d s)
      (h : start O c e p s = (s', .ok b)) : Nested L c (d + 1) s'
  | stop {d : Nat} {s s' : State σ τ φ} {r : Except Err Bool} (hn : Nested L c (d + 1) s)
      (h : shutdown O c s = (s', r)) : Nested L c d s'
  | other {d : Nat} {s s' : State σ τ φ} {e : Env τ} {fuel : Nat} {k : Call σ τ φ} (hn : Nested L c d s)
      (hk : k.Inner) (hok : k.Ok L) (h : exec O c e fuel k s = some s') : Nested L c d s'

theorem inner_keeps {c : Cfg τ} {e : Env τ} {fuel : Nat} {k : Call σ τ φ} {s s' : State σ τ φ} (hk : k.Inner)
    (h : exec O c e fuel k s = some s') : s'.refs = s.refs ∧ (s'.mode = .stopped ↔ s.mode = .stopped) := by
  by_cases hp : k.Plain
  · have := kept_exec hp h
    rw [this.refs, this.mode]; exact ⟨rfl, Iff.rfl⟩
  · cases k with
    | start p => cases hk
    | shutdown => cases hk
    | pause =>
      simp only [exec, Option.some.injEq] at h; subst h
      cases hm : s.mode <;> simp [pause, hm, State.emit]
    | resume =>
      simp only [exec, Option.some.injEq] at h; subst h
      cases hm : s.mode <;> simp [resume, hm, State.emit, State.wake]
    | addExecutor x b =>
      simp only [exec, Option.some.injEq] at h; subst h
      simp only [addExecutor]; split <;> exact ⟨rfl, Iff.rfl⟩
    | removeExecutor b =>
      simp only [exec, Option.some.injEq] at h; subst h
      simp only [removeExecutor]; split <;> exact ⟨rfl, Iff.rfl⟩
    | addStore st b =>
      simp only [exec, Option.some.injEq] at h; subst h
      simp only [addStore]; split
      · exact ⟨rfl, Iff.rfl⟩
      · simp only [State.wakeIfRunning]; split <;> exact ⟨rfl, Iff.rfl⟩
    | removeStore b =>
      simp only [exec, Option.some.injEq] at h; subst h
      simp only [removeStore]; split <;> exact ⟨rfl, Iff.rfl⟩
    | _ => exact absurd trivial hp

theorem start_ok {c : Cfg τ} {e : Env τ} {p b : Bool} {s s' : State σ τ φ} (h : start O c e p s = (s', .ok b)) :
    s'.refs = s.refs + 1 ∧
    ((0 < s.refs ∧ s' = { s with refs := s.refs + 1 } ∧ b = false) ∨
     (s.refs ≤ 0 ∧ s.mode = .stopped ∧ b = true ∧ s'.mode = (if p then .paused else .running) ∧ s'.pending = [] ∧
       (p = false → s'.woken = true) ∧
       ∃ s2, addPending O e (if c.lockPath then some (e.now + c.startupDelay) else none) s.pending
          (withDefaults O c { s with refs := s.refs + 1 }) = (s2, .ok ()) ∧ s'.stores = s2.stores ∧
          s'.executors = s2.executors ∧ s'.log = s2.log ++ [.schedulerStart])) := by
  simp only [start] at h
  split at h
  · simp only [Prod.mk.injEq, Except.ok.injEq] at h
    obtain ⟨rfl, rfl⟩ := h
    exact ⟨rfl, .inl ⟨by omega, rfl, rfl⟩⟩
  · split at h
    · simp at h
    · rename_i h1 h2
      simp only [ne_eq, Decidable.not_not] at h2
      have hk := kept_addPending (O := O) e (if c.lockPath then some (e.now + c.startupDelay) else none) s.pending
        (withDefaults O c { s with refs := s.refs + 1 })
      split at h
      · simp at h
      · rename_i s2 _ hd
        rw [hd] at hk
        simp only [Prod.mk.injEq, Except.ok.injEq] at h
        obtain ⟨rfl, rfl⟩ := h
        have hr : (withDefaults O c { s with refs := s.refs + 1 }).refs = s.refs + 1 := by
          simp only [withDefaults, addStore, addExecutor]
          split <;> split <;> simp [State.wakeIfRunning, State.setStore, State.emit, State.wake, h2]
        have hr2 : s2.refs = s.refs + 1 := by rw [hk.refs, hr]
        refine ⟨?_, .inr ⟨by omega, h2, rfl, ?_, ?_, ?_, s2, hd, ?_, ?_, ?_⟩⟩
        · cases p <;> simp [State.emit, State.wake, hr2]
        · cases p <;> simp [State.emit, State.wake]
        · cases p <;> simp [State.emit, State.wake]
        · cases p <;> simp [State.emit, State.wake]
        · cases p <;> simp [State.emit, State.wake]
        · cases p <;> simp [State.emit, State.wake]
        · cases p <;> simp [State.emit, State.wake]

theorem Nested.depth {L : LawfulStore O} {c : Cfg τ} {d : Nat} {s : State σ τ φ} (h : Nested L c d s) :
    s.refs = d ∧ (s.mode = .stopped ↔ d = 0) ∧ Reachable L c s := by
  induction h with
  | init => exact ⟨rfl, by simp [State.init], .init⟩
  | begin hn h ih =>
    rename_i d s s' e p b
    obtain ⟨i1, i2, i3⟩ := ih
    obtain ⟨h1, h2⟩ := start_ok h
    have hr : Reachable L c s' := .call (k := .start p) (e := e) (fuel := 0) i3 trivial (by simp [exec, h])
    refine ⟨by rw [h1, i1]; push_cast; rfl, ?_, hr⟩
    rcases h2 with ⟨h2, rfl, _⟩ | ⟨h2, h3, _, h4, _⟩
    · simp only [i2]
      omega
    · rw [h4]
      cases p <;> simp
  | stop hn h ih =>
    rename_i d s s' r
    obtain ⟨i1, i2, i3⟩ := ih
    have hr : Reachable L c s' := .call (k := .shutdown) (e := ⟨0, fun _ _ _ _ => .ok none, fun _ => true, true,
      fun _ => true, fun _ _ => true⟩) (fuel := 0) i3 trivial (by simp [exec, h])
    simp only [shutdown] at h
    have hm : s.mode ≠ .stopped := fun hc => absurd (i2.1 hc) (by omega)
    split at h
    · cases h
      refine ⟨by simp only [i1]; push_cast; omega, ?_, hr⟩
      simp only [i2]; omega
    · cases h
      refine ⟨by simp only [i1]; push_cast; omega, ?_, hr⟩
      simp only [true_iff]; omega
  | other hn hk hok h ih =>
    obtain ⟨i1, i2, i3⟩ := ih
    have := inner_keeps hk h
    exact ⟨by rw [this.1, i1], by rw [this.2, i2], .call i3 hok h⟩

/-- **C30** (partial): in every history in which `start` does not raise and every `shutdown` matches a `start`,
with any other calls in between: the scheduler is stopped exactly at depth 0; the outermost `start` starts it (or
raises) and returns true, an inner one returns false and changes nothing but the count; the outermost
`shutdown` stops it and returns true, an inner one returns false and changes nothing but the count; a `shutdown`
at depth 0 raises `SchedulerNotRunningError`.  Partial: that unmatched `shutdown` spoils later calls
(`C30_unmatched_witness`), as does a `start` that raises (`C30_failed_start_witness`). -/
theorem C30_nested_partial (L : LawfulStore O) (c : Cfg τ) (d : Nat) (s : State σ τ φ) (h : Nested L c d s) :
    (s.mode = .stopped ↔ d = 0) ∧
    (d = 0 → ∀ e p s' r, start O c e p s = (s', r) →
      (r = .ok true ∧ s'.mode = if p then .paused else .running) ∨ (∃ x, r = .error x)) ∧
    (0 < d → ∀ e p, start O c e p s = ({ s with refs := s.refs + 1 }, .ok false)) ∧
    (d = 0 → shutdown O c s = ({ s with refs := s.refs - 1 }, .error .notRunning)) ∧
    (d = 1 → ∃ s', shutdown O c s = (s', .ok true) ∧ s'.mode = .stopped ∧ s'.timer = none) ∧
    (1 < d → shutdown O c s = ({ s with refs := s.refs - 1 }, .ok false)) := by
  obtain ⟨h1, h2, h3⟩ := h.depth
  refine ⟨h2, fun hd e p s' r hs => ?_, fun hd e p => ?_, fun hd => ?_, fun hd => ?_, fun hd => ?_⟩
  · cases r with
    | error x => exact .inr ⟨x, rfl⟩
    | ok b =>
      obtain ⟨_, q | q⟩ := start_ok hs
      · omega
      · exact .inl ⟨by rw [q.2.2.1], q.2.2.2.1⟩
  · simp only [start]
    rw [if_pos (by omega)]
  · simp only [shutdown]
    rw [if_neg (by omega), if_pos (h2.2 hd)]
  · have hm : s.mode ≠ .stopped := fun hc => absurd (h2.1 hc) (by omega)
    simp only [shutdown]
    rw [if_neg (by omega), if_neg hm]
    exact ⟨_, rfl, rfl, rfl⟩
  · simp only [shutdown]
    rw [if_pos (by omega)]

/-- the results of a sequence of calls to `start` (`some paused`) and `shutdown` (`none`), with the mode and the
count after each -/
def exLife (s : State MS Int Unit) : List (Option Bool) → List (Option Bool × Mode × Int)
  | [] => []
  | some p :: l => let r := start Memory.ops exCfg (exEnvAt 7) p s
    (r.2.toOption, r.1.mode, r.1.refs) :: exLife r.1 l
  | none :: l => let r := shutdown Memory.ops exCfg s
    (r.2.toOption, r.1.mode, r.1.refs) :: exLife r.1 l

set_option synthInstance.maxSize 2048 in
example : exLife State.init [some false, some true, none, none] =
    [(some true, .running, 1), (some false, .running, 2), (some false, .running, 1), (some true, .stopped, 0)] := by
  decide +kernel

example : ∃ s : State MS Int Unit, Nested Memory.lawful exCfg 2 s := by
  have h : ∃ s s' : State MS Int Unit, start Memory.ops exCfg (exEnvAt 7) false State.init = (s, .ok true) ∧
      start Memory.ops exCfg (exEnvAt 7) true s = (s', .ok false) := ⟨_, _, rfl, rfl⟩
  obtain ⟨s, s', h1, h2⟩ := h
  exact ⟨s', .begin (.begin .init h1) h2⟩

set_option synthInstance.maxSize 2048 in
/-- **C30, counterexample**: after one `shutdown` too many the count is −1, so that after the next `start` an
inner `start` raises `AssertionError`, and one `shutdown` for two calls of `start` stops the scheduler. -/
theorem C30_unmatched_witness :
    exLife State.init [none, some false, some false, none] =
      [(none, .stopped, -1), (some true, .running, 0), (none, .running, 1), (some true, .stopped, 0)] := by
  decide +kernel

set_option synthInstance.maxSize 2048 in
/-- **C30, counterexample**: a `start` that raises (here: a pending task of an unknown store) has counted, so that
the next `start` returns false and starts nothing, though the scheduler is stopped. -/
theorem C30_failed_start_witness :
    exLife ({ (State.init : State MS Int Unit) with pending := [(⟨"a", some 1, exBody 1 "default" "nowhere" false 1⟩, false, true)] } : State MS Int Unit)
      [some false, some false] = [(none, .stopped, 1), (some false, .stopped, 2)] := by
  decide +kernel

/-! ### `AsyncIOScheduler` -/

/-- `AsyncIOScheduler.shutdown` (asyncio.py:60-74) only queues the shutdown in the event loop and returns
`ref_counter > 1`; the number counts the queued ones. -/
def asyncShutdown (s : State σ τ φ × Nat) : (State σ τ φ × Nat) × Bool := ((s.1, s.2 + 1), decide (s.1.refs > 1))

/-- The event loop runs a queued `_shutdown` (asyncio.py:60-69); an exception goes to the loop's handler. -/
def asyncRun (O : StoreOps σ (Body τ φ)) (c : Cfg τ) (s : State σ τ φ × Nat) : State σ τ φ × Nat :=
  match s.2 with
  | 0 => s
  | n + 1 => ((shutdown O c s.1).1, n)

/-- Histories of an `AsyncIOScheduler`: the depth counts the calls, whether or not the loop has got round to the
shutdowns. -/
inductive AsyncNested (L : LawfulStore O) (c : Cfg τ) : Nat → State σ τ φ × Nat → Prop
  | init : AsyncNested L c 0 (State.init, 0)
  | begin {d : Nat} {s s' : State σ τ φ} {q : Nat} {e : Env τ} {p b : Bool} (hn : AsyncNested L c d (s, q))
      (h : start O c e p s = (s', .ok b)) : AsyncNested L c (d + 1) (s', q)
  | stop {d : Nat} {s : State σ τ φ × Nat} (hn : AsyncNested L c (d + 1) s) :
      AsyncNested L c d (asyncShutdown s).1
  | loop {d : Nat} {s : State σ τ φ × Nat} (hn : AsyncNested L c d s) : AsyncNested L c d (asyncRun O c s)
  | other {d : Nat} {s s' : State σ τ φ} {q : Nat} {e : Env τ} {fuel : Nat} {k : Call σ τ φ}
      (hn : AsyncNested L c d (s, q)) (hk : k.Inner) (hok : k.Ok L) (h : exec O c e fuel k s = some s') :
      AsyncNested L c d (s', q)

/-- **C30** (`AsyncIOScheduler`): however late the event loop gets round to the shutdowns, once it has, the scheduler
is stopped exactly if every `start` is matched; and it is never stopped too early. -/
theorem C30_async_nested_partial (L : LawfulStore O) (c : Cfg τ) (d : Nat) (s : State σ τ φ) (q : Nat)
    (h : AsyncNested L c d (s, q)) :
    s.refs = d + q ∧ (s.mode = .stopped ↔ d + q = 0) ∧ (q = 0 → (s.mode = .stopped ↔ d = 0)) ∧
    (0 < d → s.mode ≠ .stopped) := by
  suffices hm : s.refs = d + q ∧ (s.mode = .stopped ↔ d + q = 0) by
    refine ⟨hm.1, hm.2, fun hq => by rw [hm.2]; omega, fun hd hc => ?_⟩
    have := hm.2.1 hc; omega
  generalize hp : (s, q) = sp at h
  induction h generalizing s q with
  | init => cases hp; exact ⟨rfl, by simp [State.init]⟩
  | begin hn h ih =>
    rename_i d s0 s' q' e p b
    cases hp
    obtain ⟨i1, i2⟩ := ih s0 q' rfl
    obtain ⟨h1, h2⟩ := start_ok h
    refine ⟨by rw [h1, i1]; push_cast; omega, ?_⟩
    rcases h2 with ⟨h2, rfl, _⟩ | ⟨h2, h3, _, h4, _⟩
    · simp only [i2]; omega
    · rw [h4]; cases p <;> simp <;> omega
  | stop hn ih =>
    rename_i d s0
    obtain ⟨s1, q1⟩ := s0
    simp only [asyncShutdown, Prod.mk.injEq] at hp
    obtain ⟨rfl, rfl⟩ := hp
    obtain ⟨i1, i2⟩ := ih s q1 rfl
    exact ⟨by rw [i1]; push_cast; omega, by rw [i2]; omega⟩
  | loop hn ih =>
    rename_i d s0
    obtain ⟨s1, q1⟩ := s0
    obtain ⟨i1, i2⟩ := ih s1 q1 rfl
    cases q1 with
    | zero => simp only [asyncRun, Prod.mk.injEq] at hp; obtain ⟨rfl, rfl⟩ := hp; exact ⟨i1, i2⟩
    | succ n =>
      simp only [asyncRun, Prod.mk.injEq] at hp
      obtain ⟨rfl, rfl⟩ := hp
      have hm : s1.mode ≠ .stopped := fun hc => absurd (i2.1 hc) (by omega)
      simp only [shutdown]
      split
      · exact ⟨by simp only [i1]; push_cast; omega, by simp only [i2]; omega⟩
      · exact ⟨by simp only [i1]; push_cast; omega, by simp only [true_iff]; omega⟩
  | other hn hk hok h ih =>
    rename_i d s0 s' q' e fuel k
    cases hp
    obtain ⟨i1, i2⟩ := ih s0 q' rfl
    have := inner_keeps hk h
    exact ⟨by rw [this.1, i1], by rw [this.2, i2]⟩

/-- **C30, counterexample**: `AsyncIOScheduler.shutdown` returns the opposite of what is documented
(schedulers/types.py:68-69: "True when scheduler is terminated"): at depth 1 false, though this call stops the
scheduler, at greater depths true, though it stops nothing. -/
theorem C30_async_return_witness (L : LawfulStore O) (c : Cfg τ) (d : Nat) (s : State σ τ φ)
    (h : AsyncNested L c (d + 1) (s, 0)) :
    (asyncShutdown (s, 0)).2 = decide ((asyncRun O c (asyncShutdown (s, 0)).1).1.mode ≠ .stopped) ∧
    ∃ b, (shutdown O c s).2 = .ok b ∧ (asyncShutdown (s, 0)).2 = !b := by
  obtain ⟨h1, h2, _⟩ := C30_async_nested_partial L c (d + 1) s 0 h
  have hm : s.mode ≠ .stopped := fun hc => absurd (h2.1 hc) (by omega)
  simp only [asyncShutdown, asyncRun, shutdown]
  by_cases hd : d = 0
  · have hr : ¬ s.refs > 1 := by omega
    rw [if_neg (by omega), if_neg hm]
    exact ⟨by simp [hr, if_neg hm], true, rfl, by simp [hr]⟩
  · have hr : s.refs > 1 := by omega
    rw [if_pos (by omega)]
    exact ⟨by simp [hr, hm], false, rfl, by simp [hr]⟩

end Sched
end Asyncz
