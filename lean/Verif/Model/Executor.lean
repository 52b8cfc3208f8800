import Verif.Model.Scheduler
/-!
# Model of the executors (/repo/asyncz/executors)

Two parts: `run_task`, which executes a task for a list of run times, and the bookkeeping of running
instances (`send_task`, `run_task_success`, `run_task_error`) as an interleaving of the reads and writes
that several threads make in the one dictionary `scheduler.instances`, each executor having its own
reentrant lock.
-/
namespace Asyncz
namespace Exec

/-! ## `run_task` -/

/-- What a call of the task's function does: it returns, raises an `Exception`, or raises a
`BaseException` that is not an `Exception` (`SystemExit`, `KeyboardInterrupt`, `CancelledError`).
(executors/base.py:130-157, 191-216) -/
inductive Outcome (ρ ε : Type) where
  | returns (r : ρ)
  | raises (e : ε)
  | escapes

/-- The events of `run_task` (executors/base.py:118-127, 137-146, 150-158). -/
inductive Event (ρ ε : Type) where
  | missed (runTime : Int)
  | executed (runTime : Int) (value : ρ)
  | error (runTime : Int) (e : ε)
  deriving DecidableEq

/-- What `run_task` meets while it handles one run time: the task's `mistrigger_grace_time` (microseconds;
read again for every run time), the clock, and what the function does if it is called.  (executors/base.py:112-131) -/
structure Reading (ρ ε : Type) where
  grace : Option Int
  now : Int
  outcome : Outcome ρ ε

/-- `difference > grace_time` (executors/base.py:113-117) -/
def late (grace : Option Int) (now runTime : Int) : Bool :=
  match grace with
  | none => false
  | some g => decide (now - runTime > g)

/-- The loop of `run_task` and `run_coroutine_task` (executors/base.py:110-158, 172-220), from the `i`-th
run time on.  The result: the run times the function was called for, and the list of events, or `none` if
the function let a `BaseException` escape. -/
def runLoop {ρ ε : Type} (w : Nat → Reading ρ ε) : Nat → List Int → List Int × Option (List (Event ρ ε))
  | _, [] => ([], some [])
  | i, t :: ts =>
    if late (w i).grace (w i).now t then
      let r := runLoop w (i + 1) ts
      (r.1, r.2.map (.missed t :: ·))
    else match (w i).outcome with
      | .returns v =>
        let r := runLoop w (i + 1) ts
        (t :: r.1, r.2.map (.executed t v :: ·))
      | .raises x =>
        let r := runLoop w (i + 1) ts
        (t :: r.1, r.2.map (.error t x :: ·))
      | .escapes => ([t], none)

/-- `run_task(task, store_alias, run_times, logger)` (executors/base.py:98-158) -/
def runTask {ρ ε : Type} (w : Nat → Reading ρ ε) (times : List Int) : List Int × Option (List (Event ρ ε)) :=
  runLoop w 0 times

/-- The events dispatched after the run: those of `run_task_success` (executors/base.py:81-82); none in
`run_task_error` (84-95). -/
def dispatched {ρ ε : Type} : Option (List (Event ρ ε)) → List (Event ρ ε)
  | some l => l
  | none => []

/-! ## Counting running instances -/

/-- Where a call of `send_task` (executors/base.py:54-69) or of `run_task_success`/`run_task_error`
(71-95) stands. -/
inductive Op where
  /-- waiting for the lock of the executor (line 64) -/
  | sendWait (max : Int)
  /-- holds the lock; `self.instances[task.id] >= task.max_instances` is next (line 65) -/
  | sendCheck (max : Int)
  /-- `do_send_task` is next (line 68) -/
  | sendDo (max : Int)
  /-- the run is submitted, `do_send_task` has not returned -/
  | sendSent
  /-- `self.instances[task.id] += 1` is next: read ... (line 69) -/
  | sendRead
  /-- ... and write -/
  | sendWrite (n : Int)
  /-- waiting for the lock (lines 76, 88) -/
  | finWait
  /-- `self.instances[task_id] -= 1` is next: read ... (lines 77, 89) -/
  | finRead
  /-- ... and write -/
  | finWrite (n : Int)
  /-- `self.instances[task_id] == 0` is next (lines 78, 90) -/
  | finCheck
  /-- `del self.instances[task_id]` is next (lines 79, 91) -/
  | finDel
  /-- leaves the `with` block next -/
  | done
  deriving DecidableEq, Repr

/-- A call in progress: executor, task id, position.  (executors/base.py:54-96) -/
structure Frame where
  ex : Nat
  id : String
  op : Op
  deriving DecidableEq, Repr

/-- Does the call hold the lock of its executor?.  (executors/base.py:64,76,88) -/
def Op.holds : Op → Bool
  | .sendWait _ => false
  | .finWait => false
  | _ => true

/-- All threads, each with the calls in progress in it, innermost first; the table `scheduler.instances`;
`live`: the runs submitted and not ended, with the executor they run in; `lost`: ended runs whose
completion callback failed before it counted down.  (executors/base.py:27-29, 54-96) -/
structure Sys where
  table : Dict String Int
  threads : List (List Frame)
  live : List (Nat × String)
  lost : List String
  deriving DecidableEq

/-- `instances` is a `defaultdict(int)` (schedulers/base.py:119). -/
def count (T : Dict String Int) (id : String) : Int := (T.get? id).getD 0

/-- One read or write by a call that holds its lock.  Reading a missing key of a `defaultdict` stores 0.
(executors/base.py:64-69,76-79,88-91) -/
inductive Move (id : String) : Op → Dict String Int → Op → Dict String Int → Prop
  | checkFail {T m} (h : count T id ≥ m) : Move id (.sendCheck m) T .done (T.set id (count T id))
  | checkOk {T m} (h : count T id < m) : Move id (.sendCheck m) T (.sendDo m) (T.set id (count T id))
  | sendFails {T m} : Move id (.sendDo m) T .done T
  | sentReturns {T} : Move id .sendSent T .sendRead T
  | sendRead {T} : Move id .sendRead T (.sendWrite (count T id)) (T.set id (count T id))
  | sendWrite {T n} : Move id (.sendWrite n) T .done (T.set id (n + 1))
  | finRead {T} : Move id .finRead T (.finWrite (count T id)) (T.set id (count T id))
  | finWrite {T n} : Move id (.finWrite n) T .finCheck (T.set id (n - 1))
  | finZero {T} (h : count T id = 0) : Move id .finCheck T .finDel (T.set id (count T id))
  | finNonzero {T} (h : count T id ≠ 0) : Move id .finCheck T .done (T.set id (count T id))
  | finDel {T} : Move id .finDel T .done (T.erase id)

/-- The first position inside the `with` block.  (executors/base.py:64,76,88) -/
inductive Enter : Op → Op → Prop
  | send {m} : Enter (.sendWait m) (.sendCheck m)
  | fin : Enter .finWait .finRead

/-- thread `j` holds the lock of executor `ex`.  (executors/base.py:41,64) -/
def holdsLock (s : Sys) (j ex : Nat) : Prop :=
  ∃ st, s.threads[j]? = some st ∧ ∃ f ∈ st, f.ex = ex ∧ f.op.holds = true

/-- One step of any thread.  `ok ex id max`: such a submission is made by the program.  `nests ex`: while
`do_send_task` of executor `ex` is in progress, the same thread can call `send_task` again.  That is so for
`DebugExecutor` (debug.py:16-29), where the task's function runs inside `do_send_task`, and for the pool
executors (pool.py:25-49) if a listener submits tasks, because `add_done_callback` calls the callback at once
if the future is already done.  It is never so for `AsyncIOExecutor` (asyncio.py:34-61), whose callbacks are
called by the event loop. -/
inductive Step (ok : Nat → String → Int → Prop) (nests : Nat → Prop) : Sys → Sys → Prop
  /-- somebody calls `send_task` -/
  | spawn {s ex id m} (h : ok ex id m) :
      Step ok nests s { s with threads := s.threads ++ [[⟨ex, id, .sendWait m⟩]] }
  /-- `send_task` is called while `do_send_task` is in progress -/
  | nest {s i f rest ex id m} (h : ok ex id m) (hi : s.threads[i]? = some (f :: rest)) (hf : f.op = .sendSent)
      (hn : nests f.ex) :
      Step ok nests s { s with threads := s.threads.set i (⟨ex, id, .sendWait m⟩ :: f :: rest) }
  /-- the lock is acquired: nobody else holds it (it is reentrant) -/
  | acquire {s i f rest op'} (hi : s.threads[i]? = some (f :: rest)) (h : Enter f.op op')
      (hl : ∀ j, j ≠ i → ¬ holdsLock s j f.ex) :
      Step ok nests s { s with threads := s.threads.set i ({ f with op := op' } :: rest) }
  /-- a read or write -/
  | move {s i f rest op' T'} (hi : s.threads[i]? = some (f :: rest)) (h : Move f.id f.op s.table op' T') :
      Step ok nests s { s with table := T', threads := s.threads.set i ({ f with op := op' } :: rest) }
  /-- `do_send_task` submits the run -/
  | submit {s i f rest m} (hi : s.threads[i]? = some (f :: rest)) (h : f.op = .sendDo m) :
      Step ok nests s { s with threads := s.threads.set i ({ f with op := .sendSent } :: rest),
                               live := (f.ex, f.id) :: s.live }
  /-- the function, run inside `do_send_task`, lets a `BaseException` escape (debug.py:25-29) -/
  | abort {s i f rest} (hi : s.threads[i]? = some (f :: rest)) (h : f.op = .sendSent) (hn : nests f.ex)
      (hl : (f.ex, f.id) ∈ s.live) :
      Step ok nests s { s with threads := s.threads.set i ({ f with op := .done } :: rest),
                               live := s.live.erase (f.ex, f.id) }
  /-- the `with` block is left -/
  | release {s i f rest} (hi : s.threads[i]? = some (f :: rest)) (h : f.op = .done) :
      Step ok nests s { s with threads := s.threads.set i rest }
  /-- a run ends and its callback is called by some other thread -/
  | ends {s ex id} (hl : (ex, id) ∈ s.live) :
      Step ok nests s { s with threads := s.threads ++ [[⟨ex, id, .finWait⟩]], live := s.live.erase (ex, id) }
  /-- a run ends and its callback is called inside `do_send_task` (debug.py:25-29; a future that is done
  before `add_done_callback` is called) -/
  | endsInline {s i f rest} (hi : s.threads[i]? = some (f :: rest)) (h : f.op = .sendSent)
      (hl : (f.ex, f.id) ∈ s.live) :
      Step ok nests s { s with threads := s.threads.set i (⟨f.ex, f.id, .finWait⟩ :: f :: rest),
                               live := s.live.erase (f.ex, f.id) }
  /-- a run is cancelled in a pool: the callback raises in `fn.exception()` (pool.py:29-34) -/
  | cancelled {s ex id} (hl : (ex, id) ∈ s.live) :
      Step ok nests s { s with live := s.live.erase (ex, id), lost := id :: s.lost }

/-- schedulers/base.py:119: nothing is running -/
def Sys.init : Sys := ⟨[], [], [], []⟩

/-- what any interleaving can lead to.  (executors/base.py:54-96) -/
inductive Reach (ok : Nat → String → Int → Prop) (nests : Nat → Prop) : Sys → Prop
  | init : Reach ok nests Sys.init
  | step {s s'} (h : Reach ok nests s) (hs : Step ok nests s s') : Reach ok nests s'

end Exec
end Asyncz
