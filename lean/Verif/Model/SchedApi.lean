import Verif.Model.Scheduler
/-!
# All calls of a scheduler as one transition function
-/
namespace Asyncz
namespace Sched
variable {σ τ φ : Type}

/-- One thing that can happen to a scheduler: a call of its public methods, its timer, the queued wake-up or
the end of a run.  `update` carries what `Task.update_task` makes of the given changes.
(schedulers/base.py:133-1235, schedulers/asyncio.py) -/
inductive Call (σ τ φ : Type) where
  | addTask (t : T τ φ) (nrt : Option (Option Int)) (replace : Bool)
  | start (paused : Bool)
  | shutdown
  | pause
  | resume
  | update (id : String) (store : Option String) (f : T τ φ → Option (T τ φ))
  | pauseTask (id : String) (store : Option String)
  | rescheduleTask (id : String) (store : Option String) (g : τ)
  | resumeTask (id : String) (store : Option String)
  | runTask (id : String) (store : Option String) (force removeFinished : Bool)
  | deleteTask (id : String) (store : Option String)
  | removeAllTasks (store : Option String)
  | addExecutor (x : Nat) (alias : String)
  | removeExecutor (alias : String)
  | addStore (st : σ) (alias : String)
  | removeStore (alias : String)
  | tick
  | timerFires
  | finishRun (id : String)

/-- The state after a call, whether it raises or not; `none`: it has not ended after `fuel` rounds of
`get_run_times`.  The methods are those of Model/Scheduler.lean (base.py:192-1234, asyncio.py:80-97). -/
def exec (O : StoreOps σ (Body τ φ)) (c : Cfg τ) (e : Env τ) (fuel : Nat) :
    Call σ τ φ → State σ τ φ → Option (State σ τ φ)
  | .addTask t nrt replace, s => some (addTask O e t nrt replace s).1
  | .start paused, s => some (start O c e paused s).1
  | .shutdown, s => some (shutdown O c s).1
  | .pause, s => some (pause s).1
  | .resume, s => some (resume s).1
  | .update id store f, s => some (updateTask O id store f s).1
  | .pauseTask id store, s => some (pauseTask O id store s).1
  | .rescheduleTask id store g, s => some (rescheduleTask O e id store g s).1
  | .resumeTask id store, s => some (resumeTask O e id store s).1
  | .runTask id store force rf, s => (runTask O e fuel id store force rf s).map (·.1)
  | .deleteTask id store, s => some (deleteTask O id store s).1
  | .removeAllTasks store, s => some (removeAllTasks O store s)
  | .addExecutor x alias, s => some (addExecutor x alias s).1
  | .removeExecutor alias, s => some (removeExecutor alias s).1
  | .addStore st alias, s => some (addStore st alias s).1
  | .removeStore alias, s => some (removeStore alias s).1
  | .tick, s => (tick O c e fuel s).map (·.1)
  | .timerFires, s => some (timerFires s)
  | .finishRun id, s => some (finishRun id s)

/-- Only stores in a reachable state are added, and `Task.update_task` does not change the id (it rejects
`id`: tasks/base.py:88-94). -/
def Call.Ok {O : StoreOps σ (Body τ φ)} (L : LawfulStore O) : Call σ τ φ → Prop
  | .update _ _ f => ∀ t t', f t = some t' → t'.id = t.id
  | .addStore st _ => L.Inv st
  | _ => True

/-- The states of a scheduler that any history of calls can lead to.  (schedulers/base.py:133-1235) -/
inductive Reachable {O : StoreOps σ (Body τ φ)} (L : LawfulStore O) (c : Cfg τ) : State σ τ φ → Prop
  | init : Reachable L c State.init
  | call {s s' : State σ τ φ} {e : Env τ} {fuel : Nat} {k : Call σ τ φ} (hs : Reachable L c s) (hk : k.Ok L)
      (h : exec O c e fuel k s = some s') : Reachable L c s'

end Sched
end Asyncz
