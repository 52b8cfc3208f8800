import Verif.Model.Scheduler
import Verif.Model.Listing
/-!
# Model of the timeline (/repo/asyncz/contrib/dashboard/controllers/timeline.py:36-75,
/repo/asyncz/cli/commands/timeline.py:34-75)

The page and the command do the same with the scheduler; `generated_at`, the name of the timezone and the formatting of
times are left out.  `snap` is `Task.snapshot`; a task of a scheduler always has an id (C38), so the `continue` for
an absent one is kept for snapshots only.
-/
namespace Asyncz
namespace Timeline
open Sched
variable {σ τ φ ρ : Type}

/-- a row: the snapshot of the task and a run time.  (controllers/timeline.py:53-68, cli/commands/timeline.py:57-62) -/
structure Row (ρ : Type) where
  info : Listing.Info ρ
  time : Int

/-- what the page and the command are given (controllers/timeline.py:73-81, cli/commands/timeline.py:67-77) -/
structure View (ρ : Type) where
  rows : List (Row ρ)
  total : Nat
  tasks : Nat
  exhausted : Nat

/-- the arguments of `get_task_infos(sort_by="next_run_time")` (controllers/timeline.py:38, cli/commands/timeline.py:41) -/
def query : Listing.Query where
  state := .absent
  executor := none
  trigger := none
  q := none
  sortBy := "next_run_time"
  descending := false

/-- the loop (controllers/timeline.py:42-68, cli/commands/timeline.py:45-62): the rows and the number of exhausted
tasks; an exception of a trigger leaves the loop.  The store of the task is not passed to `preview_task_runs`. -/
def gather (O : StoreOps σ (Body τ φ)) (e : Env τ) (s : State σ τ φ) (perTask : Int) :
    List (Listing.Info ρ) → Except Err (List (Row ρ) × Nat)
  | [] => .ok ([], 0)
  | i :: rest =>
    match i.id with
    | none => gather O e s perTask rest
    | some id =>
      match preview O e s (String.ofList id) none perTask with
      | .error x => .error x
      | .ok none => gather O e s perTask rest
      | .ok (some (times, done)) =>
        match gather O e s perTask rest with
        | .error x => .error x
        | .ok (rows, n) => .ok (times.map (Row.mk i) ++ rows, if done then n + 1 else n)

/-- `build_timeline_context` and `_timeline_payload` (controllers/timeline.py:36-81, cli/commands/timeline.py:34-77) -/
def timeline (O : StoreOps σ (Body τ φ)) (e : Env τ) (S : Listing.Str) (snap : T τ φ → Listing.Info ρ) (perTask : Int)
    (limit : Nat) (s : State σ τ φ) : Except Err (View ρ) :=
  match Listing.getTaskInfos S query ((getTasks O s none).map snap) with
  | none => .error .badCount
  | some infos =>
    match gather O e s perTask infos with
    | .error x => .error x
    | .ok (rows, n) =>
      .ok ⟨(sortBy (fun a b => decide (a.time ≤ b.time)) rows).take limit, rows.length, infos.length, n⟩

end Timeline
end Asyncz
