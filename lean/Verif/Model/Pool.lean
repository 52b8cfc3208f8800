/-!
# Model of the runs inside an executor (/repo/asyncz/executors/asyncio.py, pool.py, process_pool.py)

What happens to a run between `do_send_task` and its completion callback, and what `start` and `shutdown` of the executor
do to it.  Counting instances is in Model/Executor.lean, the outcome of the function in `Exec.runTask`.
-/
namespace Asyncz
namespace Pool

/-- The two ways of executing: the tasks of an event loop and its default thread pool, or a `concurrent.futures` pool
(executors/asyncio.py:11-61, executors/pool.py:15-55). -/
inductive Kind where
  | loop
  | pool
  deriving DecidableEq, Repr

/-- The settings of an executor (executors/pool.py:17-18, 57-70): `workers` is the size of the pool; `named`: the pool has an
attribute `max_workers`, which the pools of the standard library do not have. -/
structure Cfg where
  kind : Kind
  workers : Nat
  cancelFutures : Bool
  overwriteWait : Option Bool
  named : Bool
  deriving DecidableEq, Repr

/-- State of a `concurrent.futures` pool (library; executors/pool.py:38-47, 51-55). -/
inductive Cond where
  | ready
  | shut
  | broken
  deriving DecidableEq, Repr

/-- `queued`: submitted and not begun, oldest first; `running`: begun and not ended; `done`: the completion callback has
reported them, as success or as error; `cancelled`: their futures have been cancelled; `began`: the runs in the order in which
their functions were entered; `next` numbers the runs; `waiting`: a `shutdown` waits for the runs to end
(executors/asyncio.py:24-61, executors/pool.py:25-55). -/
structure St where
  cond : Cond
  queued : List Nat
  running : List Nat
  done : List Nat
  cancelled : List Nat
  began : List Nat
  next : Nat
  waiting : Bool
  deriving DecidableEq, Repr

/-- a new executor (executors/pool.py:57-70, executors/asyncio.py:24-27) -/
def init : St := ⟨.ready, [], [], [], [], [], 0, false⟩

/-- What happens to an executor. (executors/asyncio.py:24-61, executors/pool.py:25-55) -/
inductive Op where
  /-- `executor.start`, by the start of the scheduler -/
  | start
  /-- `do_send_task` -/
  | submit
  /-- a worker takes the oldest queued run -/
  | begin
  /-- a run ends, by whatever outcome, and its callback is called -/
  | finish (i : Nat)
  /-- `executor.shutdown(wait)` is called -/
  | shutdown (wait : Bool)
  /-- a waiting `shutdown` returns -/
  | returns
  /-- a worker process dies -/
  | die
  deriving DecidableEq, Repr

/-- What an operation raises (executors/pool.py:38-47): the pool is shut down (`RuntimeError`, not caught), or broken and
has no attribute `max_workers`. -/
inductive Err where
  | runtimeError
  | attributeError
  deriving DecidableEq, Repr

/-- `do_send_task` (executors/pool.py:25-49, executors/asyncio.py:34-61).  Submitting to a pool that is shut down raises
`RuntimeError`; to a broken one `BrokenProcessPool`, whereupon a new pool is made of the same size. -/
def submit (c : Cfg) (s : St) : St × Option Err :=
  let add (s : St) : St := { s with queued := s.queued ++ [s.next], next := s.next + 1 }
  match c.kind, s.cond with
  | .loop, _ => (add s, none)
  | .pool, .ready => (add s, none)
  | .pool, .shut => (s, some .runtimeError)
  | .pool, .broken => if c.named then (add { s with cond := .ready }, none) else (s, some .attributeError)

/-- `executor.shutdown(wait)` (executors/pool.py:51-55, executors/asyncio.py:28-33).  A pool cancels what is queued if it is
configured so, and may wait; the loop's futures that are not done are cancelled, whatever `wait` is. -/
def shutdown (c : Cfg) (s : St) (wait : Bool) : St :=
  match c.kind with
  | .loop => { s with queued := [], running := [], cancelled := s.cancelled ++ s.queued ++ s.running }
  | .pool =>
    let s := { s with cond := if s.cond = .broken then .broken else .shut, waiting := s.waiting || c.overwriteWait.getD wait }
    if c.cancelFutures then { s with queued := [], cancelled := s.cancelled ++ s.queued } else s

/-- One operation; one that is not possible changes nothing (executors/asyncio.py:24-61, executors/pool.py:25-55).  `start`
does nothing to a pool (executors/base.py:31-44); the set of futures of an `AsyncIOExecutor` is empty when it is started.
A worker takes a run only if it is free; the loop begins its coroutines whatever is running.  When a process dies, the
futures of all runs get an exception, so their callbacks report them. -/
def step (c : Cfg) (s : St) : Op → St × Option Err
  | .start => (s, none)
  | .submit => submit c s
  | .begin =>
    match s.queued with
    | [] => (s, none)
    | i :: q =>
      if c.kind = .pool ∧ s.running.length ≥ c.workers then (s, none)
      else ({ s with queued := q, running := s.running ++ [i], began := s.began ++ [i] }, none)
  | .finish i =>
    if i ∈ s.running then ({ s with running := s.running.erase i, done := s.done ++ [i] }, none) else (s, none)
  | .shutdown wait => (shutdown c s wait, none)
  | .returns =>
    if s.waiting = true ∧ s.queued = [] ∧ s.running = [] then ({ s with waiting := false }, none) else (s, none)
  | .die =>
    if c.kind = .pool then
      ({ s with cond := .broken, queued := [], running := [], done := s.done ++ s.queued ++ s.running }, none)
    else (s, none)

/-- a history (executors/asyncio.py:24-61, executors/pool.py:25-55) -/
def run (c : Cfg) (ops : List Op) : St := ops.foldl (fun s op => (step c s op).1) init

end Pool
end Asyncz
