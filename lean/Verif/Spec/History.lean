import Verif.Spec.Dash
/-!
# Specification of the run history (C49)

A run is a key (task, store, run time).  The history is the list of the runs reported so far, oldest
first, at most `m` of them; a report about a run that is not listed adds it at the end and drops the
oldest; a report about a listed run updates that run only.
-/
namespace Asyncz
namespace Hist
namespace Spec

/-- status of a run -/
inductive Status where
  | running | succeeded | failed | missed | maxInstances
  deriving DecidableEq, Repr

/-- the word for it, on the pages and in their URLs -/
def word : Status → List Char
  | .running => "running".toList
  | .succeeded => "succeeded".toList
  | .failed => "failed".toList
  | .missed => "missed".toList
  | .maxInstances => "max_instances".toList

/-- a run that is over -/
def Terminal (s : Status) : Prop := s ≠ .running

instance : DecidablePred Terminal := fun s => by unfold Terminal; infer_instance

/-- what is reported about a run -/
inductive Report where
  /-- it was handed to an executor -/
  | submitted
  /-- it was skipped because the task already had its maximum of running instances -/
  | skipped
  /-- it ended that way -/
  | finished (s : Status)
  deriving DecidableEq, Repr

/-- what the history says about a run -/
structure Run (κ : Type) where
  key : κ
  status : Status
  started : Option Int
  ended : Option Int
  deriving DecidableEq, Repr

/-- A report about a listed run, received at `now`: the end of a run always counts; a submission
never changes the status of a run that is over; the first start and, for a skipped run, the first
end are kept. -/
def Run.report {κ : Type} (r : Run κ) (now : Int) : Report → Run κ
  | .submitted =>
    { r with status := if Terminal r.status then r.status else .running
             started := some (r.started.getD (r.ended.getD now)) }
  | .skipped =>
    { r with status := if Terminal r.status then r.status else .maxInstances
             started := some (r.started.getD (r.ended.getD now))
             ended := some (r.ended.getD now) }
  | .finished s => { r with status := s, started := some (r.started.getD now), ended := some now }

/-- one report -/
def receive {κ : Type} [DecidableEq κ] (m : Nat) (l : List (Run κ)) (x : κ × Int × Report) :
    List (Run κ) :=
  if x.1 ∈ l.map Run.key then l.map fun r => if r.key = x.1 then r.report x.2.1 x.2.2 else r
  else Dash.Spec.newest m (l ++ [Run.report ⟨x.1, .running, none, none⟩ x.2.1 x.2.2])

/-- the history after those reports -/
def history {κ : Type} [DecidableEq κ] (m : Nat) (xs : List (κ × Int × Report)) : List (Run κ) :=
  xs.foldl (receive m) []

/-- `s` is `t` as shown in a list: `t` itself up to 500 characters, else its beginning followed by `...`, 500 characters in
all. -/
def ShownAs (t s : List Char) : Prop :=
  (t.length ≤ 500 ∧ s = t) ∨ (500 < t.length ∧ s.length = 500 ∧ ∃ p, p <+: t ∧ s = p ++ ['.', '.', '.'])

end Spec
end Hist
end Asyncz
