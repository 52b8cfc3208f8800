import Verif.Model.SchedApi
/-!
# One-shot commands (/repo/asyncz/cli/commands)

`list`, `inspect`, `preview`, `timeline`, `status`, `instances`, `doctor`, `pause`, `resume`, `remove`, `run`, `add` and
`update`, without `--bootstrap`: each makes a scheduler of its own for the given stores, starts it, calls it once, shuts
it down and ends.
-/
namespace Asyncz
namespace CliRun
open Sched
variable {σ τ φ : Type}

/-- What a command asks of its scheduler; `read` stands for all the commands that only look
(/repo/asyncz/cli/commands/list.py:92-105, inspect.py:75-107, preview.py:76-95, timeline.py:40-75, status.py:71-94,
instances.py:72-90, doctor.py:88-98,140-158, and `update --dry-run`, update.py:145-180).
`update` carries what `Task.update_task` makes of the changes. -/
inductive Request (τ φ : Type) where
  | read
  | pause (id : String)
  | resume (id : String)
  | remove (id : String)
  | run (id : String)
  | add (t : T τ φ)
  | update (id : String) (f : T τ φ → Option (T τ φ))

/-- Whether the command shuts its scheduler down also if the call raises: `try`/`finally` in
/repo/asyncz/cli/commands/{list,inspect,preview,timeline,status,instances,doctor,update}.py, none in
{pause,resume,remove,run,add}.py. -/
def Request.guarded : Request τ φ → Bool
  | .read | .update .. => true
  | _ => false

/-- Did the call return?  An exception of the call leaves `main` (/repo/asyncz/cli/commands/pause.py:58). -/
def returned {α : Type} : Except Err α → Bool
  | .ok _ => true
  | .error _ => false

/-- The call itself, and whether it returns (/repo/asyncz/cli/commands/pause.py:58, resume.py:57, remove.py:58-61, run.py:57,
add.py:94-105, update.py:146-184).  `none`: `get_run_times` has not ended. -/
def ask (O : StoreOps σ (Body τ φ)) (e : Env τ) (fuel : Nat) : Request τ φ → State σ τ φ → Option (State σ τ φ × Bool)
  | .read, s => some (s, true)
  | .pause id, s => let r := pauseTask O id none s; some (r.1, returned r.2)
  | .resume id, s => let r := resumeTask O e id none s; some (r.1, returned r.2)
  | .remove id, s => match lookupTask O s id none with
    | none => some (s, false)
    | some (_, alias) => let r := deleteTask O id alias s; some (r.1, returned r.2)
  | .run id, s => (runTask O e fuel id none true true s).map fun r => (r.1, returned r.2)
  | .add t, s => let r := addTask O e t none false s; some (r.1, returned r.2)
  | .update id f, s => let r := updateTask O id none f s; some (r.1, returned r.2)

/-- `AsyncIOScheduler(stores=...)`: the stores are added one after the other
(/repo/asyncz/cli/commands/pause.py:50-54, schedulers/base.py:1308-1330). -/
def temporary (d : Dict String σ) : State σ τ φ := d.foldl (fun s p => (addStore p.2 p.1 s).1) State.init

/-- The queued wake-ups; an exception in a callback is logged by the event loop and does not stop it
(/repo/asyncz/schedulers/asyncio.py:93-97). -/
def wakeUps (O : StoreOps σ (Body τ φ)) (c : Cfg τ) (fuel : Nat) : List (Env τ) → State σ τ φ → Option (State σ τ φ)
  | [], s => some s
  | e :: es, s => match tick O c e fuel s with
    | none => none
    | some (s', _) => wakeUps O c fuel es s'

/-- A command: `loop.run_until_complete(main())` (/repo/asyncz/cli/commands/pause.py:38-66).  `main` never suspends,
since `start`, the call and `shutdown` are no coroutines.  So everything that it queues in the loop
(schedulers/utils.py:6-17) runs after it, in this order: the wake-up of `start`, that of the call if it makes one, and
`_shutdown`; then the loop ends.  `passes` are the queued wake-ups.
Simplification: the output is not modelled. -/
def command (O : StoreOps σ (Body τ φ)) (c : Cfg τ) (atStart atCall : Env τ) (fuel : Nat) (passes : List (Env τ))
    (k : Request τ φ) (d : Dict String σ) : Option (State σ τ φ × Bool) :=
  match start O c atStart false (temporary d) with
  | (s, .error _) => some (s, false)
  | (s1, .ok _) => match ask O atCall fuel k s1 with
    | none => none
    | some (s2, ok) => match wakeUps O c fuel passes s2 with
      | none => none
      | some s3 => if ok || k.guarded then some ((shutdown O c s3).1, ok) else some (s3, ok)

end CliRun
end Asyncz
