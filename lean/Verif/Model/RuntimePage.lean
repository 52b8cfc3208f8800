import Verif.Model.SchedInfo
import Verif.Model.History
/-!
# Model of the overview, runtime and instances pages of the dashboard
(/repo/asyncz/contrib/dashboard/controllers/{home,runtime,instances}.py)

The scheduler is not called by anybody else while a page is built: the pages call `get_scheduler_info`,
`get_task_infos` and the dictionaries one after the other.
-/
namespace Asyncz
namespace Sched
variable {σ τ φ ρ : Type}

/-- `value or "default"`.  (contrib/dashboard/controllers/runtime.py:49-50) -/
def orDefault (a : String) : String := if a = "" then "default" else a

/-- `_component_rows`: alias and task count; `counts` are the keys counted by the `Counter`.
(contrib/dashboard/controllers/runtime.py:16-33) -/
def componentRows (aliases : List String) (counts : List String) : List (String × Nat) :=
  (sortBy (fun a b => decide (a ≤ b)) aliases).map fun a => (a, counts.count a)

/-- What the runtime page shows: the counts of `get_scheduler_info`, and the rows of the stores and executors.
(contrib/dashboard/controllers/runtime.py:52-76) -/
structure RuntimePage where
  info : Info
  stores : List (String × Nat)
  executors : List (String × Nat)
  deriving DecidableEq, Repr

/-- `build_runtime_context` (contrib/dashboard/controllers/runtime.py:45-76, `_snapshot_mapping` 36-42); the order of
`get_task_infos()` does not matter to the counts. -/
def runtimePage (O : StoreOps σ (Body τ φ)) (now : Int) (x : Timed σ τ φ) : RuntimePage :=
  let ts := getTasks O x.s none
  { info := infoAt O now x
    stores := componentRows x.s.stores.keys (ts.map fun t => orDefault t.body.store)
    executors := componentRows x.s.executors.keys (ts.map fun t => orDefault t.body.executor) }

/-- `build_instances_context`: the rows, and the counts at the top (contrib/dashboard/controllers/instances.py:23-55;
schedulers/base.py:1134-1175). -/
def instancesPage (O : StoreOps σ (Body τ φ)) (now : Int) (x : Timed σ τ φ) : List (Info × Bool × Bool) × Nat × Nat × Nat :=
  let i := infoAt O now x
  let rows := [(i, activeStale i)]
  (rows, rows.length, (rows.filter fun r => r.2.1).length, (rows.filter fun r => r.2.2).length)

/-- `DashboardController.get`: the first ten tasks, each with the last run that `latest_for_task` finds, and the six latest
runs (contrib/dashboard/controllers/home.py:28-36, history.py:87-89). -/
def homePage (S : Dash.Str) (now : Int) (h : Hist.State) (infos : List (Listing.Info ρ)) :
    List (Listing.Info ρ × Option Hist.Rec) × List Hist.Rec :=
  ((infos.take 10).map fun i => (i, (Hist.query S now h ⟨i.id, none, none, none, 1⟩).head?),
   Hist.query S now h ⟨none, none, none, none, 6⟩)

end Sched
end Asyncz
