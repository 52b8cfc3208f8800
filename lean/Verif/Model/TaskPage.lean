import Verif.Model.Scheduler
import Verif.Model.History
import Verif.Model.Dashboard
/-!
# Model of the page of one task (/repo/asyncz/contrib/dashboard/controllers/tasks.py:331-390)

Nobody else calls the scheduler while the page is built.
-/
namespace Asyncz
namespace Sched
variable {σ τ φ : Type}

/-- What the page shows.  (contrib/dashboard/controllers/tasks.py:362-378) -/
structure TaskPage (τ φ : Type) where
  task : T τ φ
  store : Option String
  preview : Option (List Int × Bool)
  runs : List Hist.Rec
  logs : List Dash.LogEntry

/-- `TaskDetailController.get`: 404 and nothing; or 200 and the page; `none`: it raises, when the arguments of the task
cannot be written as JSON (`jsonable`, the two calls of `_json_text`).
(contrib/dashboard/controllers/tasks.py:41-42,331-390) -/
def taskPage (O : StoreOps σ (Body τ φ)) (S : Dash.Str) (e : Env τ) (jsonable : T τ φ → Bool) (now : Int) (h : Hist.State)
    (buf : List Dash.LogEntry) (s : State σ τ φ) (id : String) : Option (Nat × Option (TaskPage τ φ)) :=
  match lookupTask O s id none with
  | none => some (404, none)
  | some (t, alias) =>
    let pv := match preview O e s id none 5 with
      | .ok (some p) => some p
      | .ok none => none
      | .error _ => none
    let runs := Hist.query S now h ⟨some id.toList, none, none, none, 6⟩
    let logs := Dash.logQuery S buf ⟨some id.toList, none, none, none, none, none, 6⟩
    if jsonable t then some (200, some ⟨t, alias, pv, runs, logs⟩) else none

end Sched
end Asyncz
