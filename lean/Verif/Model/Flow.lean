import Verif.Model.Scheduler
import Verif.Model.Executor
import Verif.Model.History
/-!
# From the scheduler through an executor to the run history

Puts three models together: what a scheduler does (`Sched.Obs`, /repo/asyncz/schedulers/base.py:1560-1700), what an executor makes of a
list of run times (`Exec.runTask`, /repo/asyncz/executors/base.py:98-220), and what the dashboard's listener records of the events
(`Hist`, /repo/asyncz/contrib/dashboard/history.py:156-262, 345-356).  An executor may end the runs it has got in any order and at any
moment, also before the scheduler has dispatched the event of the submission (it does so at the end of the pass,
schedulers/base.py:1680-1681; `DebugExecutor` runs the function inside `send_task`, executors/debug.py:16-29).  Listeners are called one at
a time here; what happens when two threads call the history at once is in C49 (`status_race_witness`).
-/
namespace Asyncz
namespace Flow
open Listing (Text)

/-- what a function returns, as the history shows it: the `repr` of the value, absent for `None`
(/repo/asyncz/contrib/dashboard/history.py:228-230) -/
abbrev Ret := Option Text

/-- what a function raises, as the history shows it: type, `str`, `repr` and traceback
(/repo/asyncz/contrib/dashboard/history.py:231-234) -/
structure Raised where
  exc : Text × Text × Text
  tb : Text

/-- what surrounds a call of the history: what the scheduler says of the task, the identities and the clock
(/repo/asyncz/contrib/dashboard/history.py:163-177, 216-224) -/
structure Ctx where
  mt : Hist.Meta
  identity : Option Text
  schedIdentity : Option Text
  now : Int

/-- A run that an executor has got: the store and id of the task and the run times (/repo/asyncz/executors/base.py:54-69). -/
structure Got where
  store : String
  id : String
  times : List Int
  deriving DecidableEq

/-- A run that has ended: what was got and what `run_task` met (/repo/asyncz/executors/base.py:98-158). -/
structure Ended where
  got : Got
  w : Nat → Exec.Reading Ret Raised

/-- The runs in progress, those that have ended, and the calls made on the history (/repo/asyncz/executors/base.py:54-95,
/repo/asyncz/contrib/dashboard/history.py:345-356). -/
structure Sys where
  running : List Got
  ended : List Ended
  ops : List Hist.Op

/-- nothing has happened (/repo/asyncz/contrib/dashboard/history.py:70-76) -/
def init : Sys := ⟨[], [], []⟩

/-- What can happen: the scheduler does something that can be observed, or the `k`-th of the runs in progress ends
(/repo/asyncz/executors/base.py:71-95). -/
inductive Item where
  | obs (o : Sched.Obs) (x : Ctx)
  | ends (k : Nat) (w : Nat → Exec.Reading Ret Raised) (x : Nat → Ctx)

/-- `record_submission` for an event of the scheduler (/repo/asyncz/schedulers/base.py:1607-1640, 813-842;
/repo/asyncz/contrib/dashboard/history.py:156-166, 345-350) -/
def submission (skipped : Bool) (i a : String) (times : List Int) (coalesced : Nat) (manual : Bool) (x : Ctx) : Hist.Op :=
  .submission {
    skipped := skipped, task := i.toList, store := some a.toList, times := times.map fun t => (.aware t, x.mt),
    source := some (if manual then "manual".toList else "scheduled".toList), coalesced := coalesced,
    identity := x.identity, schedIdentity := x.schedIdentity, now := x.now }

/-- `record_execution` for an event of `run_task` (/repo/asyncz/executors/base.py:118-157;
/repo/asyncz/contrib/dashboard/history.py:209-235, 351-356); `a` is `task.store_alias` -/
def execution (i a : String) (x : Ctx) (e : Exec.Event Ret Raised) : Hist.Op :=
  .execution (match e with
    | .missed t => ⟨.missed, i.toList, some a.toList, .aware t, none, none, none, x.mt, x.identity, x.schedIdentity, x.now⟩
    | .executed t v => ⟨.executed, i.toList, some a.toList, .aware t, v, none, none, x.mt, x.identity, x.schedIdentity, x.now⟩
    | .error t r => ⟨.error, i.toList, some a.toList, .aware t, none, some r.exc, some r.tb, x.mt, x.identity, x.schedIdentity, x.now⟩)

/-- The events dispatched one after the other (/repo/asyncz/executors/base.py:81-82). -/
def executions (i a : String) (x : Nat → Ctx) (es : List (Exec.Event Ret Raised)) : List Hist.Op :=
  es.zipIdx.map fun p => execution i a (x p.2) p.1

/-- One thing happens.  `alias a i` is the `store_alias` of the task `i` of store `a`, which the executors put into their events
(/repo/asyncz/executors/pool.py:41, /repo/asyncz/executors/asyncio.py:51-56, /repo/asyncz/executors/debug.py:24;
/repo/asyncz/executors/base.py:54-95). -/
def step (alias : String → String → String) (s : Sys) : Item → Sys
  | .obs (.send _ i a ts) _ => { s with running := s.running ++ [⟨a, i, ts⟩] }
  | .obs (.taskSubmitted i a ts n manual) x => { s with ops := s.ops ++ [submission false i a ts n manual x] }
  | .obs (.taskMaxInstances i a ts n manual) x => { s with ops := s.ops ++ [submission true i a ts n manual x] }
  | .obs _ _ => s
  | .ends k w x =>
    match s.running[k]? with
    | none => s
    | some g =>
      { running := s.running.eraseIdx k, ended := s.ended ++ [⟨g, w⟩],
        ops := s.ops ++ executions g.id (alias g.store g.id) x (Exec.dispatched (Exec.runTask w g.times).2) }

/-- a sequence of them (/repo/asyncz/executors/base.py:54-95) -/
def run (alias : String → String → String) (l : List Item) : Sys := l.foldl (step alias) init

end Flow
end Asyncz
