/-!
# Model of the locks taken by the calls of a scheduler (/repo/asyncz/schedulers/base.py, executors/base.py, stores/file.py)

Each method is modelled by the structure of its `with` statements, of the places where it calls code of the user and of the
places where it waits for other threads.  Data are abstracted: a branch may be taken either way, a loop may have any number of
rounds, and any statement may raise.  Locks that are only tried (`protected(blocking=False)`, base.py:1667, 1568) never make a
thread wait, so only the branch that depends on them is modelled.  Locks of the logging module, of queues and of databases are
not modelled, nor the thread of an isolated event loop, which is awaited while no lock is held (schedulers/asyncio.py:45-69,
112-137).  Triggers, plugin constructors and encoders do not call the scheduler.
-/
namespace Asyncz
namespace Deadlock

/-- `ref_lock` (base.py:122), `executor_lock` (base.py:107), `store_lock` (base.py:110), the lock of an executor
(executors/base.py:42), `listeners_lock` (base.py:112), and the lock on a file of a `FileStore` (stores/file.py:78, 107, 142, 155;
shared locks are taken to be exclusive). -/
inductive Lock where
  | ref
  | execs
  | store
  | exec (a : Nat)
  | listeners
  | file (n : Nat)
  deriving DecidableEq, Repr

/-- `threading.RLock` (base.py:1548-1552); `ref_lock` is a plain `Lock`, and locks of files are bound to open files. -/
def Lock.reentrant : Lock → Bool
  | .ref => false
  | .file _ => false
  | _ => true

/-- Code of the user that the scheduler calls: event listeners (base.py:1407-1412), the function of a task where a
`DebugExecutor` runs it (executors/debug.py:22-29), functions with the shutdown trigger (base.py:237-246). -/
inductive Callout where
  | listener
  | function
  | shutdownFn
  deriving DecidableEq, Repr

/-- What a thread does that concerns other threads: `join w` waits for the end of thread `w`
(`pool.shutdown(wait=True)`, executors/pool.py:51-55). -/
inductive Act where
  | acq (l : Lock)
  | rel (l : Lock)
  | join (w : Nat)
  deriving DecidableEq, Repr

/-- The structure of a method (schedulers/base.py, executors/base.py). -/
inductive Code where
  | skip
  | lock (l : Lock) (c : Code)
  | seq (a b : Code)
  | alt (a b : Code)
  | star (c : Code)
  | callout (k : Callout)
  | join (w : Nat)
  | guard (c : Code)
  deriving DecidableEq, Repr

/-- `Tr env c t b`: a run of `c` does `t`; it ends normally (`b`) or by an exception.  `with` releases in both cases.
`guard` is a `try` that catches.  `env` says what the code of the user may do.
(library: the Python statements of schedulers/base.py) -/
inductive Tr (env : Callout → List Act → Prop) : Code → List Act → Bool → Prop
  | raise (c : Code) : Tr env c [] false
  | skip : Tr env .skip [] true
  | lock {l : Lock} {c : Code} {t : List Act} {b : Bool} (h : Tr env c t b) : Tr env (.lock l c) (.acq l :: (t ++ [.rel l])) b
  | seqRaise {a b : Code} {t : List Act} (h : Tr env a t false) : Tr env (.seq a b) t false
  | seq {a b : Code} {t t' : List Act} {r : Bool} (h : Tr env a t true) (h' : Tr env b t' r) : Tr env (.seq a b) (t ++ t') r
  | altL {a b : Code} {t : List Act} {r : Bool} (h : Tr env a t r) : Tr env (.alt a b) t r
  | altR {a b : Code} {t : List Act} {r : Bool} (h : Tr env b t r) : Tr env (.alt a b) t r
  | starNil {c : Code} : Tr env (.star c) [] true
  | starRaise {c : Code} {t : List Act} (h : Tr env c t false) : Tr env (.star c) t false
  | starCons {c : Code} {t t' : List Act} {r : Bool} (h : Tr env c t true) (h' : Tr env (.star c) t' r) :
      Tr env (.star c) (t ++ t') r
  | callout {k : Callout} {t : List Act} (b : Bool) (h : env k t) : Tr env (.callout k) t b
  | join {w : Nat} : Tr env (.join w) [.join w] true
  | guard {c : Code} {t : List Act} {b : Bool} (h : Tr env c t b) : Tr env (.guard c) t true

/-! ## The methods -/

/-- How an executor may behave in `do_send_task`: the run and its callback happen elsewhere; or the future is already done
when the callback is attached, so that the callback is called at once, in the same thread (executors/pool.py:38-49); or the
function is run at once (executors/debug.py:16-29). -/
inductive Mode where
  | deferred
  | done
  | debug
  deriving DecidableEq, Repr

/-- `inc_refcount`, `decr_refcount` (base.py:176-190) -/
def refcount : Code := .lock .ref .skip

/-- `dispatch_event` (base.py:1394-1412) -/
def dispatch : Code := .seq (.lock .listeners .skip) (.star (.guard (.callout .listener)))

/-- A call of a store: a `FileStore` may lock each of its files in turn, one at a time, others have no locks that wait
(stores/file.py:74-179). -/
def storeOp (files : List Nat) : Code := .star (files.foldr (fun n c => .alt (.lock (.file n) .skip) c) .skip)

/-- `run_task_success` (executors/base.py:71-83) -/
def success (a : Nat) : Code := .seq (.lock (.exec a) .skip) (.star dispatch)

/-- `run_task_error` (executors/base.py:85-97) -/
def failure (a : Nat) : Code := .lock (.exec a) .skip

/-- `do_send_task` (executors/pool.py:25-49, executors/asyncio.py:34-61, executors/debug.py:16-29) -/
def doSend (a : Nat) : Mode → Code
  | .deferred => .skip
  | .done => .alt (success a) (failure a)
  | .debug => .alt (.seq (.callout .function) (success a)) (.seq (.guard (.callout .function)) (failure a))

/-- `send_task` (executors/base.py:53-69) -/
def sendTask (a : Nat) (m : Mode) : Code := .lock (.exec a) (doSend a m)

/-- `update_task`, and with it `reschedule_task` and `pause_task` (base.py:645-723) -/
def updateTask (F : List Nat) : Code := .seq (.lock .store (storeOp F)) dispatch

/-- `delete_task` (base.py:1173-1215) -/
def deleteTask (F : List Nat) : Code := .seq (.lock .store (storeOp F)) dispatch

/-- `real_add_task` (base.py:1426-1480) -/
def realAdd (F : List Nat) : Code := .seq (storeOp F) dispatch

/-- `add_task` (base.py:589-605) -/
def addTask (F : List Nat) : Code := .lock .store (.alt .skip (realAdd F))

/-- `resume_task` (base.py:722-745) -/
def resumeTask (F : List Nat) : Code := .lock .store (.seq (storeOp F) (.alt (updateTask F) (deleteTask F)))

/-- `run_task` (base.py:747-863) -/
def runTask (F : List Nat) (a : Nat) (m : Mode) : Code :=
  .seq (storeOp F) (.seq (.guard (sendTask a m)) (.seq (.alt .skip dispatch) (.alt .skip (.alt (deleteTask F) (.lock .store (storeOp F))))))

/-- `get_task`, `get_tasks`, `get_task_info`, `get_task_infos`, `preview_task_runs` (base.py:872-1093) -/
def getTask (F : List Nat) : Code := .lock .store (storeOp F)

/-- `get_scheduler_info`, `get_scheduler_instance_infos` (base.py:1086-1171) -/
def schedulerInfo (F : List Nat) : Code := .seq (getTask F) (.seq (.lock .execs .skip) (.lock .store .skip))

/-- `remove_all_tasks` (base.py:1217-1234) -/
def removeAll (F : List Nat) : Code := .seq (.lock .store (storeOp F)) dispatch

/-- `add_executor` (base.py:376-401) -/
def addExecutor : Code := .seq (.lock .execs .skip) dispatch

/-- waiting for the workers of pools, one after the other (executors/pool.py:51-55) -/
def joins (ws : List Nat) : Code := ws.foldr (fun w c => .seq (.join w) c) .skip

/-- `remove_executor` (base.py:403-414); `ws`: the workers waited for -/
def removeExecutor (ws : List Nat) : Code := .seq (.lock .execs .skip) (.seq (joins ws) dispatch)

/-- `add_store` (base.py:416-448) -/
def addStore (F : List Nat) : Code := .seq (.lock .store (storeOp F)) dispatch

/-- `remove_store` (base.py:450-461) -/
def removeStore (F : List Nat) : Code := .seq (.lock .store .skip) (.seq (storeOp F) dispatch)

/-- `add_listener`, `remove_listener` (base.py:463-489) -/
def listen : Code := .lock .listeners .skip

/-- `pause`, `resume` (base.py:307-328) -/
def pauseOrResume : Code := .alt .skip dispatch

/-- `start` (base.py:192-234) -/
def start (F : List Nat) : Code :=
  .seq refcount (.alt .skip
    (.seq (.lock .execs (.alt .skip addExecutor))
      (.seq (.lock .store (.seq (.alt .skip (addStore F)) (.seq (storeOp F) (.star (.guard (realAdd F)))))) dispatch)))

/-- `shutdown` (base.py:263-305); `ws`: the workers `executor.shutdown(wait)` waits for, none if `wait` is false -/
def shutdown (F ws : List Nat) : Code :=
  .seq refcount (.alt .skip
    (.seq (.lock .execs (.lock .store
      (.seq (joins ws) (.seq (storeOp F) (.seq (.star (.seq (storeOp F) (.guard (.callout .shutdownFn)))) (storeOp F))))))
      dispatch))

/-- one due task in `_process_tasks_of_store` (base.py:1587-1642), for an executor and its mode -/
def passTask (F : List Nat) (x : Nat × Mode) : Code :=
  .alt (deleteTask F) (.seq (.guard (sendTask x.1 x.2)) (.alt .skip (.alt (storeOp F) (deleteTask F))))

/-- `process_tasks` (base.py:1560-1700) with these executors -/
def pass (F : List Nat) (xs : List (Nat × Mode)) : Code :=
  .seq (.alt .skip (.lock .store (.star (.seq (storeOp F) (.seq (.star (xs.foldr (fun x c => .alt (passTask F x) c) .skip)) (storeOp F))))))
    (.star dispatch)

/-- The calls of a program (schedulers/base.py; executors/base.py:71-97 for `callback`, which the worker of a pool, or the event
loop, executes when a run has ended). -/
inductive Api where
  | start
  | shutdown (ws : List Nat)
  | pauseOrResume
  | addExecutor
  | removeExecutor (ws : List Nat)
  | addStore
  | removeStore
  | listen
  | addTask
  | updateTask
  | resumeTask
  | deleteTask
  | removeAll
  | getTask
  | schedulerInfo
  | runTask (a : Nat) (m : Mode)
  | pass (xs : List (Nat × Mode))
  | callback (a : Nat)
  deriving DecidableEq, Repr

/-- see `Api` (schedulers/base.py, executors/base.py:71-97) -/
def Api.code (F : List Nat) : Api → Code
  | .start => Deadlock.start F
  | .shutdown ws => Deadlock.shutdown F ws
  | .pauseOrResume => Deadlock.pauseOrResume
  | .addExecutor => Deadlock.addExecutor
  | .removeExecutor ws => Deadlock.removeExecutor ws
  | .addStore => Deadlock.addStore F
  | .removeStore => Deadlock.removeStore F
  | .listen => Deadlock.listen
  | .addTask => Deadlock.addTask F
  | .updateTask => Deadlock.updateTask F
  | .resumeTask => Deadlock.resumeTask F
  | .deleteTask => Deadlock.deleteTask F
  | .removeAll => Deadlock.removeAll F
  | .getTask => Deadlock.getTask F
  | .schedulerInfo => Deadlock.schedulerInfo F
  | .runTask a m => Deadlock.runTask F a m
  | .pass xs => Deadlock.pass F xs
  | .callback a => .alt (success a) (failure a)

/-- A thread makes calls one after the other, whether they raise or not (library). (schedulers/base.py) -/
def program (F : List Nat) (calls : List Api) : Code := calls.foldr (fun a c => .seq (.guard (a.code F)) c) .skip

/-! ## Threads -/

/-- What each thread still does, and the locks it has, the latest first (library `threading`; base.py:1548-1552). -/
structure St where
  rem : Nat → List Act
  held : Nat → List Lock

/-- Thread `t` may take the lock (library `threading`, `flock`; base.py:1548-1552, stores/file.py:78). -/
def St.free (s : St) (t : Nat) (l : Lock) : Prop := (∀ u, u ≠ t → l ∉ s.held u) ∧ (l.reentrant = true ∨ l ∉ s.held t)

/-- thread `t` goes on with `acts`, with the locks `held` (library) (base.py:1548-1552) -/
def St.set (s : St) (t : Nat) (acts : List Act) (held : List Lock) : St :=
  ⟨fun u => if u = t then acts else s.rem u, fun u => if u = t then held else s.held u⟩

/-- One step of one thread (library `threading`; base.py:1548-1552, executors/pool.py:51-55). -/
inductive Step : St → St → Prop
  | acq {s : St} {t : Nat} {l : Lock} {acts : List Act} (h : s.rem t = .acq l :: acts) (hf : s.free t l) :
      Step s (s.set t acts (l :: s.held t))
  | rel {s : St} {t : Nat} {l : Lock} {acts : List Act} (h : s.rem t = .rel l :: acts) :
      Step s (s.set t acts ((s.held t).erase l))
  | join {s : St} {t w : Nat} {acts : List Act} (h : s.rem t = .join w :: acts) (hw : s.rem w = []) :
      Step s (s.set t acts (s.held t))

/-- The threads run in any order (library). (schedulers/base.py) -/
inductive Reach (s0 : St) : St → Prop
  | init : Reach s0 s0
  | step {s s' : St} (hs : Reach s0 s) (h : Step s s') : Reach s0 s'

end Deadlock
end Asyncz
