/-!
# Specification of the life of the schedulers `asyncz start` runs (C106)
-/
namespace Asyncz
namespace CliLife

/-- What can be seen of a run of `asyncz start`: scheduler `n` (the `n`-th one made) is running, the hooks are called,
scheduler `n` is stopped, a stopped scheduler is asked to stop, the coroutine functions registered as shutdown tasks of
scheduler `n` are run. -/
inductive Ev where
  | started (n : Nat)
  | onStart
  | onStop
  | stopped (n : Nat)
  | notRunning (n : Nat)
  | shutdownTasks (n : Nat)
  deriving DecidableEq, Repr

namespace Spec

/-- Scheduler `n` is running after the events `tr`. -/
def Alive (tr : List Ev) (n : Nat) : Prop := .started n ∈ tr ∧ .stopped n ∉ tr

/-- No two schedulers run at the same time. -/
def OneAtATime (tr : List Ev) : Prop :=
  ∀ pre, pre <+: tr → ∀ m n, Alive pre m → Alive pre n → m = n

/-- A scheduler is started at most once and stopped at most once, only after it was started, and only after the stop hook
was called for it. -/
def Orderly (tr : List Ev) : Prop :=
  (∀ n, tr.count (.started n) ≤ 1 ∧ tr.count (.stopped n) ≤ 1) ∧
  ∀ pre n, pre ++ [.stopped n] <+: tr → ∃ a b, pre = a ++ .started n :: b ∧ .onStop ∈ b

/-- Every scheduler that was started was stopped once. -/
def AllStopped (tr : List Ev) : Prop := ∀ n, .started n ∈ tr → tr.count (.stopped n) = 1

end Spec
end CliLife
end Asyncz
