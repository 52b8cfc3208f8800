import Verif.Model.Scheduler
/-!
# A process that dies during a processing pass (/repo/asyncz/schedulers/base.py:1560-1699)

What the pass has done up to the moment at which the process is killed.  The stores are those of databases: what was written stays,
and each write is made as a whole or not at all (for the file store see `Model/FileRace.lean`).
-/
namespace Asyncz
namespace Sched
variable {σ τ φ : Type}

/-- Where in a pass the process dies (base.py:1588-1640, 1669-1673): `stores` stores are done, `tasks` due tasks of the next one are
done, and, with `handed`, the following task has been given to its executor (1603-1629) but its new run time is not stored yet
(1631-1640).  Simplification: dying between the removal of a task and the dispatch of TASK_REMOVED, which no store shows, is not
distinguished from dying after it. -/
structure Point where
  stores : Nat
  tasks : Nat
  handed : Bool
  deriving DecidableEq, Repr

/-- The first half of what is done with a due task (base.py:1589-1629): it is given to its executor.  A task without executor is
left as it is: for it, dying here means dying before its removal.  `none`: `get_run_times` does not end, or raises. -/
def handOver (e : Env τ) (fuel : Nat) (alias : String) (t : T τ φ) (s : State σ τ φ) : Option (State σ τ φ) :=
  match s.executors.get? t.body.executor with
  | none => some s
  | some _ =>
    match runTimes e t.body.trigger fuel t.nrt with
    | none => none
    | some (.error _) => none
    | some (.ok all) =>
      let c := coalesce t.body.coalesce all
      match c.1.getLast? with
      | none => some s
      | some _ => some (sendTask e t.body.executor alias t c.1 s).1

/-- `_process_tasks_of_store` up to the point (base.py:1560-1646); `none`: it raises before. -/
def crashStore (O : StoreOps σ (Body τ φ)) (e : Env τ) (fuel : Nat) (tasks : Nat) (handed : Bool) (alias : String)
    (s : State σ τ φ) : Option (State σ τ φ) :=
  match s.stores.get? alias with
  | none => some s
  | some st =>
    if e.storeLock alias && e.dueOk alias then
      match processDue O e fuel alias ((O.due st e.now).take tasks) s with
      | some (s', .ok _) =>
        if handed then match (O.due st e.now)[tasks]? with
          | none => some s'
          | some t => handOver e fuel alias t s'
        else some s'
      | _ => none
    else some s

/-- `process_tasks` up to the point (base.py:1648-1673); `none`: it raises before.  The events of the submissions are dispatched
at the end of the pass (1681-1682), so there are none. -/
def crashPass (O : StoreOps σ (Body τ φ)) (c : Cfg τ) (e : Env τ) (fuel : Nat) (p : Point) (s : State σ τ φ) :
    Option (State σ τ φ) :=
  if s.mode = .paused then some s
  else if e.procLock then
    match processStores O c e fuel (s.stores.keys.take p.stores) none s with
    | some (s', .ok _) => match s.stores.keys[p.stores]? with
      | none => some s'
      | some alias => crashStore O e fuel p.tasks p.handed alias s'
    | _ => none
  else some s

/-- The scheduler object of a new process on the same stores (base.py:94-124, 415-448), with the executors and the tasks that its
program gives it before `start`; what was running died with the old process.  (The log is the observer's, it goes on.) -/
def newProcess (executors : Dict String Nat) (pending : List (T τ φ × Bool × Bool)) (s : State σ τ φ) : State σ τ φ :=
  { (State.init : State σ τ φ) with executors := executors, stores := s.stores, pending := pending, log := s.log }

end Sched
end Asyncz
