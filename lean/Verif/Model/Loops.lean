/-!
# Model of the event loops of the asyncio schedulers (/repo/asyncz/schedulers/asyncio.py, schedulers/utils.py)

Only what concerns the loops, their threads and the reference count is modelled; the rest of `start` and `shutdown`
is in Model/Scheduler.lean.
-/
namespace Asyncz
namespace Loops

/-- An event loop: made by the scheduler, in a thread of its own, or of the application
(schedulers/asyncio.py:34-56). -/
inductive Loop where
  | own (n : Nat)
  | app (n : Nat)
  deriving DecidableEq, Repr

/-- The state (schedulers/asyncio.py:30-32, schedulers/base.py:113-122): `refs` is `ref_counter`, `running` is
`state != STATE_STOPPED`, `thread` is the loop of `event_loop_thread`, `live` are the own loops whose thread has not
been told to stop, `next` numbers the own loops, `posted` are the `_shutdown` calls waiting in a loop (`run_in_event_loop`,
schedulers/utils.py:6-17). -/
structure St where
  refs : Int
  running : Bool
  eventLoop : Option Loop
  thread : Option Nat
  live : List Nat
  next : Nat
  posted : List Loop
  deriving DecidableEq, Repr

/-- a new scheduler (schedulers/asyncio.py:30-32, 76-79; no `event_loop` configured) -/
def init : St := ⟨0, false, none, none, [], 0, []⟩

/-- a new loop in a new thread (schedulers/asyncio.py:34-42, 51-55) -/
def St.spawn (s : St) : St :=
  { s with eventLoop := some (.own s.next), thread := some s.next, live := s.next :: s.live, next := s.next + 1 }

/-- `BaseScheduler.start` (schedulers/base.py:192-238) as far as it concerns this model.  `fails`: an executor, a store
or the wake-up raises.  The second component: it raised. -/
def baseStart (s : St) (fails : Bool) : St × Bool :=
  let s := { s with refs := s.refs + 1 }
  if s.refs > 1 then (s, false)
  else if s.running then (s, true)
  else if fails then (s, true)
  else ({ s with running := true }, false)

/-- `BaseScheduler.shutdown` (schedulers/base.py:264-301): `some true`: it was stopped, `some false`: others still use it,
`none`: `SchedulerNotRunningError` -/
def baseShutdown (s : St) : St × Option Bool :=
  let s := { s with refs := s.refs - 1 }
  if s.refs > 0 then (s, some false)
  else if s.running = false then (s, none)
  else ({ s with running := false }, some true)

/-- stopping the own loop after the scheduler was stopped (schedulers/asyncio.py:62-67, 138-142); `event_loop.stop()` is
called on `event_loop`, not on the loop of the thread -/
def St.stopLoop (s : St) : St :=
  match s.thread with
  | none => s
  | some _ => { s with
      live := s.live.filter fun n => decide (s.eventLoop ≠ some (.own n))
      eventLoop := none
      thread := none }

/-! ## AsyncIOScheduler -/

/-- `AsyncIOScheduler.start` (schedulers/asyncio.py:44-56); `cur` is the running loop of the calling thread -/
def start (isolated : Bool) (s : St) (cur : Option Nat) (fails : Bool) : St × Bool :=
  let s := match s.eventLoop with
    | some _ => s
    | none => match cur with
      | some n => if isolated then s.spawn else { s with eventLoop := some (.app n) }
      | none => s.spawn
  baseStart s fails

/-- `AsyncIOScheduler.shutdown` (schedulers/asyncio.py:69-73) as seen by the caller: `_shutdown` is posted to the loop;
without loop an `AttributeError` -/
def shutdown (s : St) : St × Bool :=
  match s.eventLoop with
  | none => (s, true)
  | some l => ({ s with posted := s.posted ++ [l] }, false)

/-- the posted body of `_shutdown` (schedulers/asyncio.py:58-67) -/
def body (s : St) : St :=
  match baseShutdown s with
  | (s, some true) => s.stopLoop
  | (s, _) => s

/-- What happens to an AsyncIOScheduler (schedulers/asyncio.py:44-73). -/
inductive Op where
  | start (cur : Option Nat) (fails : Bool)
  | shutdown
  /-- some loop runs a `_shutdown` posted to it -/
  | turn (l : Loop)
  deriving DecidableEq, Repr

/-- one step; a `turn` of a loop without posted call is nothing (schedulers/asyncio.py:44-73) -/
def step (isolated : Bool) (s : St) : Op → St
  | .start cur fails => (start isolated s cur fails).1
  | .shutdown => (shutdown s).1
  | .turn l => if l ∈ s.posted then body { s with posted := s.posted.erase l } else s

/-- a history (schedulers/asyncio.py:44-73) -/
def run (isolated : Bool) (ops : List Op) : St := ops.foldl (step isolated) init

/-! ## NativeAsyncIOScheduler -/

/-- `NativeAsyncIOScheduler.start` (schedulers/asyncio.py:111-120); it is a coroutine, so there is a running loop -/
def nativeStart (isolated : Bool) (s : St) (cur : Nat) (fails : Bool) : St × Bool :=
  let s := if isolated then s.spawn else { s with eventLoop := some (.app cur) }
  baseStart s fails

/-- What happens to a NativeAsyncIOScheduler (schedulers/asyncio.py:111-144). -/
inductive NOp where
  | start (cur : Nat) (fails : Bool)
  | shutdown
  deriving DecidableEq, Repr

/-- one step; `shutdown` is as in `body`, but not posted (schedulers/asyncio.py:128-144) -/
def nstep (isolated : Bool) (s : St) : NOp → St
  | .start cur fails => (nativeStart isolated s cur fails).1
  | .shutdown => body s

/-- a history (schedulers/asyncio.py:111-144) -/
def nrun (isolated : Bool) (ops : List NOp) : St := ops.foldl (nstep isolated) init

/-! ## Shutdown coroutines -/

/-- A callback in the ready queue of a loop.  A coroutine is known by a number and by how often it suspends itself
until it ends (each time it is continued one turn later, as with `await asyncio.sleep(0)`; waiting longer only delays it).
`busy`: any callback that has nothing to do with the scheduler and asks to be called again.
(schedulers/asyncio.py:34-42, 58-67, schedulers/base.py:258-262) -/
inductive Cb where
  /-- the posted `_shutdown` of a scheduler with these coroutines as shutdown tasks; `stops`: it stops the loop -/
  | shutdown (coros : List (Nat × Nat)) (stops : Bool)
  /-- `asyncio.gather`, posted by `handle_shutdown_coros` -/
  | gather (coros : List (Nat × Nat))
  /-- a step of the coroutine -/
  | step (i n : Nat)
  | busy
  | idle
  /-- the step of `shutdown_asyncgens()`, run by `run_until_complete` -/
  | agens
  /-- the callback that stops `run_until_complete` -/
  | finish
  deriving DecidableEq, Repr

/-- What a callback posts, whether it stops the loop, and the coroutines that end in it
(schedulers/asyncio.py:34-42, 58-67, schedulers/base.py:240-262; asyncio/base_events.py: `stop`, `run_until_complete`). -/
def effect : Cb → List Cb × Bool × List Nat
  | .shutdown coros stops => (if coros.isEmpty then [] else [.gather coros], stops, [])
  | .gather coros => (coros.map fun p => .step p.1 p.2, false, [])
  | .step i 0 => ([], false, [i])
  | .step i (n + 1) => ([.step i n], false, [])
  | .busy => ([.busy], false, [])
  | .idle => ([], false, [])
  | .agens => ([.finish], false, [])
  | .finish => ([], true, [])

/-- One turn of a loop: the callbacks that are ready are called; what they post is for the next turn
(asyncio/base_events.py: `_run_once`; schedulers/asyncio.py:38-39). -/
def turn : List Cb → List Cb × Bool × List Nat
  | [] => ([], false, [])
  | c :: l =>
    let (p, s, d) := effect c
    let (p', s', d') := turn l
    (p ++ p', s || s', d ++ d')

/-- `run_forever` from one ready queue until the loop is stopped: the ready queue and the coroutines that have ended
(schedulers/asyncio.py:38-39) -/
inductive Forever : List Cb → List Cb → List Nat → Prop where
  | stop {r} (h : (turn r).2.1 = true) : Forever r (turn r).1 (turn r).2.2
  | again {r r' d} (h : (turn r).2.1 = false) (next : Forever (turn r).1 r' d) : Forever r r' ((turn r).2.2 ++ d)

/-- `_init_new_loop` from some moment on: `run_forever`, `run_until_complete(shutdown_asyncgens())`, `close`; the coroutines
that end (schedulers/asyncio.py:34-42) -/
inductive OwnLoop : List Cb → List Nat → Prop where
  | mk {r r₁ r₂ d₁ d₂} (h₁ : Forever r r₁ d₁) (h₂ : Forever (r₁ ++ [.agens]) r₂ d₂) : OwnLoop r (d₁ ++ d₂)

/-- A loop of the application: `n` turns, the coroutines that end in them (schedulers/base.py:258-262; the application
keeps the loop running). -/
def turns : Nat → List Cb → List Nat
  | 0, _ => []
  | n + 1, r => (turn r).2.2 ++ turns n (turn r).1

/-! ## Stopping a loop from another thread -/

/-- A loop without timers as another thread sees it (schedulers/asyncio.py:34-42; asyncio/base_events.py: `_run_once`,
`stop`, `call_soon_threadsafe`). -/
inductive Sleep where
  /-- at work, with this many callbacks ready; `stopping`: it ends after this turn -/
  | awake (ready : Nat) (stopping : Bool)
  /-- waiting in `select()` -/
  | asleep (stopping : Bool)
  | ended
  deriving DecidableEq, Repr

/-- What happens to it (schedulers/asyncio.py:34-42, 138-142, schedulers/utils.py:6-17). -/
inductive SEv where
  /-- the loop's own thread makes a turn (none of the callbacks asks to be called again) -/
  | go
  /-- `call_soon_threadsafe` of some callback -/
  | post
  /-- `stop()` from another thread: only the flag is set -/
  | stop
  deriving DecidableEq, Repr

/-- one event (schedulers/asyncio.py:34-42; `_run_once` waits without limit if nothing is ready and the flag is not set) -/
def sleepStep : Sleep → SEv → Sleep
  | .ended, _ => .ended
  | .awake _ true, .go => .ended
  | .awake 0 false, .go => .asleep false
  | .awake (_ + 1) false, .go => .awake 0 false
  | .awake n b, .post => .awake (n + 1) b
  | .awake n _, .stop => .awake n true
  | .asleep b, .go => .asleep b
  | .asleep b, .post => .awake 1 b
  | .asleep _, .stop => .asleep true

end Loops
end Asyncz
