import Verif.Spec.CliLife
/-!
# `asyncz start`: hooks, reloads and the end (/repo/asyncz/cli/commands/start.py:68-165)

The coroutine `run_forever` as a state machine; each step asks the world how it went.  The event loop holds what was posted
to it (`call_soon_threadsafe`) and runs it when the coroutine is suspended.
-/
namespace Asyncz
namespace CliLife

/-- The options that matter here (cli/commands/start.py:28-59).  `native`: the scheduler of `--bootstrap` is a
`NativeAsyncIOScheduler`, whose `shutdown` is a coroutine; otherwise it is an `AsyncIOScheduler`.  Simplifications: both hooks
are given, and the bootstrap's scheduler is a new one each time. -/
structure Opts where
  watch : Bool
  standalone : Bool
  bootstrap : Bool
  native : Bool
  deriving DecidableEq, Repr

/-- What is posted to the event loop: the body of `AsyncIOScheduler._shutdown` (schedulers/asyncio.py:58-73,
schedulers/utils.py:14-16), and the coroutine shutdown tasks (schedulers/base.py:260-262). -/
inductive Item where
  | stop (n : Nat)
  | tasks (n : Nat)
  deriving DecidableEq, Repr

/-- Where the coroutine is (cli/commands/start.py:70-163); `again`: `boot_once` was called by the loop. -/
inductive PC where
  | load (again : Bool)
  | start (again : Bool)
  | startHook (again : Bool)
  | quickStop
  | quickShut
  | poll
  | reStop
  | reShut
  | reload
  | sleep
  | lastStop
  | lastShut
  | ended
  | killed
  deriving DecidableEq, Repr

/-- How a step goes (cli/commands/start.py:70-163): it is done after the loop turned `turns` times meanwhile; `changed` says no
(`no`); it raises an exception; `KeyboardInterrupt` is raised in the coroutine; `KeyboardInterrupt` is raised in the event loop,
outside the coroutine, while this one is suspended. -/
inductive Ans where
  | ok (turns : Nat)
  | no
  | fail (turns : Nat)
  | intr (turns : Nat)
  | kill (turns : Nat)
  deriving DecidableEq, Repr

/-- how often the loop turned (asyncio's loop; cli/commands/start.py:165) -/
def Ans.turns : Ans → Nat
  | .ok k => k
  | .no => 0
  | .fail k => k
  | .intr k => k
  | .kill k => k

/-- The state (cli/commands/start.py:112-165): the variable `scheduler` (`cur`), the scheduler `boot_once` makes (`new`), how many
were made, those running, what is posted, the events, whether an exception is on its way. -/
structure St where
  pc : PC
  cur : Nat
  new : Nat
  made : Nat
  running : List Nat
  posted : List Item
  trace : List Ev
  failed : Bool
  deriving DecidableEq, Repr

/-- the beginning (cli/commands/start.py:112-116) -/
def init : St := ⟨.load false, 0, 0, 0, [], [], [], false⟩

/-- an event (cli/commands/start.py:70-163) -/
def St.emit (s : St) (e : Ev) : St := { s with trace := s.trace ++ [e] }

/-- `BaseScheduler.shutdown` of a scheduler started once (schedulers/base.py:264-301): a stopped one raises
`SchedulerNotRunningError`. -/
def St.stop (s : St) (n : Nat) : St :=
  if n ∈ s.running then { s with running := s.running.filter (· ≠ n), trace := s.trace ++ [Ev.stopped n] }
  else s.emit (.notRunning n)

/-- A posted call is run (schedulers/asyncio.py:58-67, schedulers/base.py:260-262): stopping posts the shutdown coroutines if
the scheduler was running. -/
def St.runItem (s : St) : Item → St
  | .stop n => let s' := s.stop n
      if n ∈ s.running then { s' with posted := s'.posted ++ [.tasks n] } else s'
  | .tasks n => s.emit (.shutdownTasks n)

/-- One turn of the event loop (asyncio's `_run_once`; cli/commands/start.py:165): what is ready is run; what it posts waits for
the next turn. -/
def St.turn (s : St) : St := s.posted.foldl St.runItem { s with posted := [] }

/-- some turns (asyncio's loop; cli/commands/start.py:165) -/
def St.turns : Nat → St → St
  | 0, s => s
  | k + 1, s => St.turns k s.turn

/-- `run_until_complete` ends (cli/commands/start.py:165): what was posted before is still run, in one turn. -/
def St.finish (s : St) (failed : Bool) : St := { s.turn with pc := .ended, failed := failed }

/-- `scheduler.shutdown(wait=True)` (cli/commands/start.py:126,143,163): posted, or, in a `NativeAsyncIOScheduler`, done, with
the shutdown coroutines, which are awaited (schedulers/asyncio.py:69-73, 128-146). -/
def St.shut (o : Opts) (s : St) : St :=
  if o.native then
    if s.cur ∈ s.running then (s.stop s.cur).emit (.shutdownTasks s.cur)
    else { s.stop s.cur with failed := true }
  else { s with posted := s.posted ++ [.stop s.cur] }

/-- An exception or `KeyboardInterrupt` in `boot_once` (cli/commands/start.py:116, 153-160): the first boot is outside the `try`. -/
def St.abort (s : St) (again : Bool) : Ans → St
  | .fail _ => if again then { s with pc := .lastStop, failed := true } else s.finish true
  | _ => if again then { s with pc := .lastStop } else { s with pc := .killed }

/-- `boot_once` returns (cli/commands/start.py:107-108, 116-124, 150-153) -/
def St.booted (o : Opts) (s : St) (again : Bool) : St :=
  let s := { s with cur := s.new }
  if again then { s with pc := .sleep }
  else if !o.watch && !o.standalone then { s with pc := .quickStop } else { s with pc := .poll }

/-- One step of the coroutine (cli/commands/start.py:70-163). -/
def step (o : Opts) (s : St) (a : Ans) : St :=
  match s.pc with
  | .load again =>
    -- the scheduler is made and the jobs are loaded (start.py:75-101)
    let s := { s with new := s.made, made := s.made + 1 }
    match a with
    | .ok _ | .no => { s with pc := .start again }
    | _ => s.abort again a
  | .start again =>
    -- start.py:80-84, 103-105; only the start of a NativeAsyncIOScheduler suspends
    let s := if o.native then s.turns a.turns else s
    match a with
    | .ok _ | .no =>
      let s := { s with running := s.running ++ [s.new], trace := s.trace ++ [Ev.started s.new] }
      if o.bootstrap then s.booted o again else { s with pc := .startHook again }
    | _ => s.abort again a
  | .startHook again =>
    -- start.py:106
    let s := (s.emit .onStart).turns a.turns
    match a with
    | .ok _ | .no => s.booted o again
    | .kill _ => { s with pc := .killed }
    | _ => s.abort again a
  | .quickStop =>
    -- start.py:123-124
    let s := (s.emit .onStop).turns a.turns
    match a with
    | .ok _ | .no => { s with pc := .quickShut }
    | .fail _ => s.finish true
    | _ => { s with pc := .killed }
  | .quickShut => let s := s.shut o; s.finish s.failed
  | .poll =>
    -- start.py:134
    match a with
    | .ok _ => if o.watch then { s with pc := .reStop } else { s with pc := .sleep }
    | .no => { s with pc := .sleep }
    | .fail _ => { s with pc := .lastStop, failed := true }
    | _ => { s with pc := .lastStop }
  | .reStop =>
    -- start.py:138
    let s := (s.emit .onStop).turns a.turns
    match a with
    | .ok _ | .no => { s with pc := .reShut }
    | .fail _ => { s with pc := .lastStop, failed := true }
    | .kill _ => { s with pc := .killed }
    | .intr _ => { s with pc := .lastStop }
  | .reShut => { s.shut o with pc := .reload }
  | .reload =>
    -- start.py:142-145
    match a with
    | .ok _ | .no => { s with pc := .load true }
    | .fail _ => { s with pc := .lastStop, failed := true }
    | _ => { s with pc := .lastStop }
  | .sleep =>
    -- start.py:151
    let s := s.turns (a.turns + 1)
    match a with
    | .ok _ | .no => { s with pc := .poll }
    | .fail _ => { s with pc := .lastStop, failed := true }
    | .kill _ => { s with pc := .killed }
    | .intr _ => { s with pc := .lastStop }
  | .lastStop =>
    -- start.py:162
    let s := (s.emit .onStop).turns a.turns
    match a with
    | .ok _ | .no => { s with pc := .lastShut }
    | .fail _ => s.finish true
    | _ => { s with pc := .killed }
  | .lastShut => let s := s.shut o; s.finish s.failed
  | .ended | .killed => s

/-- a run, or its beginning (cli/commands/start.py:165) -/
def run (o : Opts) (as : List Ans) : St := as.foldl (step o) init

end CliLife
end Asyncz
