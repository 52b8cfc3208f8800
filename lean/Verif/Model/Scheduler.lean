import Verif.Model.Dict
import Verif.Model.Trigger
import Verif.Spec.StoreIface
/-!
# Model of the scheduler (/repo/asyncz/schedulers/base.py, schedulers/asyncio.py)

Times are instants in microseconds.  A trigger is an opaque value of type `τ`; what
`get_next_trigger_time` returns is given by the environment of each call, so that theorems hold for
every trigger, including triggers that draw random jitter (two calls may then differ).  Stores are
any implementation of `StoreOps`.  API calls are atomic: the code holds `store_lock` (a reentrant
lock) around them; what happens inside executors is in `Model/Executor.lean`.
-/
namespace Asyncz
namespace Sched

/-- `SchedulerState` (/repo/asyncz/enums.py) -/
inductive Mode where
  | stopped | paused | running
  deriving DecidableEq, Repr

/-- Everything of a task but its id and next run time (tasks/base.py:32-62, tasks/types.py:29-44).
`call` stands for name, function and arguments. -/
structure Body (τ φ : Type) where
  trigger : τ
  executor : String
  store : String
  coalesce : Bool
  maxInst : Int
  grace : Option Int
  pending : Bool
  call : φ
  deriving DecidableEq

/-- A task with everything that the scheduler uses (tasks/types.py:22-44). -/
abbrev T (τ φ : Type) := Task (Body τ φ)

/-- The exceptions that API calls raise.  (exceptions.py:25-107) -/
inductive Err where
  | notRunning                  -- SchedulerNotRunningError
  | assertion                   -- AssertionError
  | keyError (alias : String)   -- KeyError of lookup_store / lookup_executor
  | lookup (id : String)        -- TaskLookupError
  | conflict (id : String)      -- ConflictIdError
  | maxInstances (id : String)  -- MaximumInstancesError
  | aliasInUse (alias : String) -- ValueError of add_executor / add_store
  | invalid                     -- Task.update_task rejects the changes
  | badCount                    -- ValueError of preview_task_runs
  | sendFailed                  -- the executor's own exception
  | trigger (e : Exc)           -- exception of get_next_trigger_time
  deriving DecidableEq, Repr

/-- What can be observed from outside: dispatched events (events/constants.py), runs handed to an
executor, and shutdown tasks being run. -/
inductive Obs where
  | schedulerStart | schedulerShutdown | schedulerPaused | schedulerResumed
  | executorAdded (alias : String) | executorRemoved (alias : String)
  | storeAdded (alias : String) | storeRemoved (alias : String)
  | allTasksRemoved (store : Option String)
  | taskAdded (id store : String) | taskRemoved (id store : String)
  | taskModified (id : String) (store : Option String)
  | taskSubmitted (id store : String) (times : List Int) (coalesced : Nat) (manual : Bool)
  | taskMaxInstances (id store : String) (times : List Int) (coalesced : Nat) (manual : Bool)
  | send (executor id store : String) (times : List Int)
  | shutdownRun (id store : String)
  deriving DecidableEq, Repr

/-- The parts of the scheduler's configuration that matter here (base.py:1244-1256); durations in
microseconds. -/
structure Cfg (τ : Type) where
  lockPath : Bool
  retryInterval : Int
  startupDelay : Int
  timeoutMax : Int
  /-- `trigger.alias == "shutdown"` (base.py:288) -/
  isShutdown : τ → Bool
  /-- the executor `create_default_executor()` makes -/
  defaultExecutor : Nat

/-- What one API call meets: the clock (`datetime.now`, taken as constant during the call), the
answers of the triggers, of the locks, the stores' backends and the executors.
`next site trigger previous now`: `site` tells apart calls in different places of the code, so that
random triggers may answer differently: 0 in `get_run_times`, 1 when a task is rescheduled after a
submission, 2 elsewhere.  (schedulers/base.py:1597-1633) -/
structure Env (τ : Type) where
  now : Int
  next : Nat → τ → Option Int → Int → Except Exc (Option Int)
  /-- `store.lock.protected(blocking=False)` succeeds -/
  storeLock : String → Bool
  /-- `store_processing_lock.protected(blocking=False)` succeeds -/
  procLock : Bool
  /-- `store.get_due_tasks` does not raise -/
  dueOk : String → Bool
  /-- `do_send_task` of executor `alias` accepts task `id` -/
  sendOk : String → String → Bool

/-- The scheduler object (base.py:94-124) with its AsyncIO timer (asyncio.py:27-29): `timer` is the
instant of the pending `call_later`, `woken` says that a `call_soon_threadsafe(wakeup)` is queued.
`log` is the history of observations (ghost state). -/
structure State (σ τ φ : Type) where
  mode : Mode
  refs : Int
  executors : Dict String Nat
  stores : Dict String σ
  pending : List (T τ φ × Bool × Bool)
  instances : Dict String Int
  timer : Option Int
  woken : Bool
  log : List Obs

variable {σ τ φ : Type}

/-- base.py:94-124: a new scheduler -/
def State.init : State σ τ φ := ⟨.stopped, 0, [], [], [], [], none, false, []⟩

/-- `self.dispatch_event` or a call of an executor, noted (schedulers/base.py:1394-1412). -/
def State.emit (s : State σ τ φ) (o : Obs) : State σ τ φ := { s with log := s.log ++ [o] }

/-- `wakeup()` as seen by the caller (asyncio.py:93-97 with schedulers/utils.py:6-17): the body is
queued in the event loop. -/
def State.wake (s : State σ τ φ) : State σ τ φ := { s with woken := true }

/-- `if self.state == STATE_RUNNING: self.wakeup()`.  (schedulers/base.py:686-687,1482-1483) -/
def State.wakeIfRunning (s : State σ τ φ) : State σ τ φ := if s.mode = .running then s.wake else s

/-- The store behind an alias after a call of it (schedulers/base.py:1358-1369). -/
def State.setStore (s : State σ τ φ) (alias : String) (st : σ) : State σ τ φ :=
  { s with stores := s.stores.set alias st }

/-! ## Due run times -/

/-- The loop of `Task.get_run_times` (tasks/base.py:64-74), at most `fuel` rounds; `none`: not ended
yet. -/
def runTimes (e : Env τ) (g : τ) : Nat → Option Int → Option (Except Exc (List Int))
  | _, none => some (.ok [])
  | 0, some _ => none
  | fuel + 1, some r =>
    if r ≤ e.now then
      match e.next 0 g (some r) e.now with
      | .error x => some (.error x)
      | .ok n => match runTimes e g fuel n with
        | none => none
        | some (.error x) => some (.error x)
        | some (.ok l) => some (.ok (r :: l))
    else some (.ok [])

/-- `_coalesce_run_times` (base.py:865-870) -/
def coalesce (b : Bool) (l : List Int) : List Int × Nat :=
  if !l.isEmpty && b then (l.getLast?.toList, l.length - 1) else (l, 0)

/-! ## Executors as the scheduler sees them -/

/-- What `executor.send_task` does (executors/base.py:54-69). -/
inductive Send where
  | ok | max | failed
  deriving DecidableEq

/-- `BaseExecutor.send_task` (executors/base.py:54-69).  `instances` is a `defaultdict`: reading a
missing key stores 0. -/
def sendTask (e : Env τ) (executor store : String) (t : T τ φ) (times : List Int)
    (s : State σ τ φ) : State σ τ φ × Send :=
  let n := (s.instances.get? t.id).getD 0
  let s1 := { s with instances := s.instances.set t.id n }
  if n ≥ t.body.maxInst then (s1, .max)
  else if e.sendOk executor t.id then
    ({ s1 with instances := s1.instances.set t.id (n + 1),
               log := s1.log ++ [.send executor t.id store times] }, .ok)
  else (s1, .failed)

/-- `run_task_success` / `run_task_error` (executors/base.py:71-95), without the events. -/
def finishRun (id : String) (s : State σ τ φ) : State σ τ φ :=
  let n := (s.instances.get? id).getD 0 - 1
  { s with instances := if n = 0 then s.instances.erase id else s.instances.set id n }

/-! ## Looking up and removing tasks -/

/-- The loop over the stores in `lookup_task` (base.py:1386-1390). -/
def findInStores (O : StoreOps σ (Body τ φ)) (id : String) (store : Option String) :
    Dict String σ → Option (T τ φ × String)
  | [] => none
  | (a, st) :: rest =>
    if store = none ∨ store = some a then
      match O.lookup st id with
      | some t => some (t, a)
      | none => findInStores O id store rest
    else findInStores O id store rest

/-- The pending tasks that a lookup by id and store alias accepts (base.py:1382-1384, 1194-1195). -/
def pendingMatch (id : String) (store : Option String) (p : T τ φ × Bool × Bool) : Bool :=
  p.1.id == id && (store == none || store == some p.1.body.store)

/-- `lookup_task` (base.py:1371-1392); the second component is `None` for a pending task. -/
def lookupTask (O : StoreOps σ (Body τ φ)) (s : State σ τ φ) (id : String) (store : Option String) :
    Option (T τ φ × Option String) :=
  if s.mode = .stopped then
    (s.pending.find? (pendingMatch id store)).map fun p => (p.1, none)
  else (findInStores O id store s.stores).map fun p => (p.1, some p.2)

/-- The loop of `delete_task` over the stores (base.py:1199-1206): the new stores and the alias of
the store it was deleted from. -/
def deleteInStores (O : StoreOps σ (Body τ φ)) (id : String) (store : Option String) :
    Dict String σ → Dict String σ × Option String
  | [] => ([], none)
  | (a, st) :: rest =>
    if store = none ∨ store = some a then
      match O.step st (.delete id) with
      | (st', .ok) => ((a, st') :: rest, some a)
      | (st', _) => let r := deleteInStores O id store rest; ((a, st') :: r.1, r.2)
    else let r := deleteInStores O id store rest; ((a, st) :: r.1, r.2)

/-- `delete_task` (base.py:1175-1214) for a non-empty id. -/
def deleteTask (O : StoreOps σ (Body τ φ)) (id : String) (store : Option String) (s : State σ τ φ) :
    State σ τ φ × Except Err Unit :=
  if s.mode = .stopped then
    match s.pending.find? (pendingMatch id store) with
    | none => (s, .error (.lookup id))
    | some p =>
      (({ s with pending := s.pending.eraseP (pendingMatch id store) } : State σ τ φ).emit
        (.taskRemoved id p.1.body.store), .ok ())
  else
    let r := deleteInStores O id store s.stores
    match r.2 with
    | none => ({ s with stores := r.1 }, .error (.lookup id))
    | some a => (({ s with stores := r.1 } : State σ τ φ).emit (.taskRemoved id a), .ok ())

/-! ## One processing pass -/

/-- Storing the next run time or removing the task (base.py:1631-1640). -/
def reschedule (O : StoreOps σ (Body τ φ)) (e : Env τ) (alias : String) (t : T τ φ) (last : Int)
    (s : State σ τ φ) : State σ τ φ × Except Err Unit :=
  match e.next 1 t.body.trigger (some last) e.now with
  | .error x => (s, .error (.trigger x))
  | .ok (some n) =>
    match s.stores.get? alias with
    | none => (s, .error (.keyError alias))
    | some st => match O.step st (.update { t with nrt := some n }) with
      | (st', .ok) => (s.setStore alias st', .ok ())
      | (st', _) => (s.setStore alias st', .error (.lookup t.id))
  | .ok none => deleteTask O t.id (some alias) s

/-- The event of one submission (base.py:1603-1629): nothing if the executor itself failed. -/
def sendEvents (t : T τ φ) (alias : String) (times : List Int) (n : Nat) : Send → List Obs
  | .ok => [.taskSubmitted t.id alias times n false]
  | .max => [.taskMaxInstances t.id alias times n false]
  | .failed => []

/-- The body of the loop over the due tasks (base.py:1587-1640).  The result carries the events that
are dispatched after the pass; `none`: `get_run_times` has not ended. -/
def processTask (O : StoreOps σ (Body τ φ)) (e : Env τ) (fuel : Nat) (alias : String) (t : T τ φ)
    (s : State σ τ φ) : Option (State σ τ φ × Except Err (List Obs)) :=
  match s.executors.get? t.body.executor with
  | none => match deleteTask O t.id (some alias) s with
    | (s', .ok _) => some (s', .ok [])
    | (s', .error x) => some (s', .error x)
  | some _ =>
    match runTimes e t.body.trigger fuel t.nrt with
    | none => none
    | some (.error x) => some (s, .error (.trigger x))
    | some (.ok all) =>
      let c := coalesce t.body.coalesce all
      match c.1.getLast? with
      | none => some (s, .ok [])
      | some last =>
        let r := sendTask e t.body.executor alias t c.1 s
        match reschedule O e alias t last r.1 with
        | (s', .ok _) => some (s', .ok (sendEvents t alias c.1 c.2 r.2))
        | (s', .error x) => some (s', .error x)

/-- The loop over the due tasks of one store.  (schedulers/base.py:1588-1641) -/
def processDue (O : StoreOps σ (Body τ φ)) (e : Env τ) (fuel : Nat) (alias : String) :
    List (T τ φ) → State σ τ φ → Option (State σ τ φ × Except Err (List Obs))
  | [], s => some (s, .ok [])
  | t :: ts, s => match processTask O e fuel alias t s with
    | none => none
    | some (s', .error x) => some (s', .error x)
    | some (s', .ok evs) => match processDue O e fuel alias ts s' with
      | none => none
      | some (s'', .error x) => some (s'', .error x)
      | some (s'', .ok evs') => some (s'', .ok (evs ++ evs'))

/-- `if not w or w > r: w = r` (base.py:1571-1573) and its twin for the store's own time
(base.py:1642-1645): the earlier of the two. -/
def earlier : Option Int → Int → Option Int
  | none, r => some r
  | some w, r => if w > r then some r else some w

/-- `if store_next_run_time and (...)` (base.py:1642-1645) -/
def earlierOpt (w : Option Int) : Option Int → Option Int
  | none => w
  | some r => earlier w r

/-- `_process_tasks_of_store` (base.py:1560-1646): new state, buffered events, next wake-up time. -/
def processStore (O : StoreOps σ (Body τ φ)) (c : Cfg τ) (e : Env τ) (fuel : Nat) (alias : String)
    (wake : Option Int) (s : State σ τ φ) :
    Option (State σ τ φ × Except Err (List Obs × Option Int)) :=
  match s.stores.get? alias with
  | none => some (s, .ok ([], wake))
  | some st =>
    if e.storeLock alias && e.dueOk alias then
      match processDue O e fuel alias (O.due st e.now) s with
      | none => none
      | some (s', .error x) => some (s', .error x)
      | some (s', .ok evs) =>
        some (s', .ok (evs, match s'.stores.get? alias with
          | none => wake
          | some st' => earlierOpt wake (O.nextRun st')))
    else some (s, .ok ([], earlier wake (e.now + c.retryInterval)))

/-- The loop over the stores (base.py:1669-1673). -/
def processStores (O : StoreOps σ (Body τ φ)) (c : Cfg τ) (e : Env τ) (fuel : Nat) :
    List String → Option Int → State σ τ φ →
    Option (State σ τ φ × Except Err (List Obs × Option Int))
  | [], wake, s => some (s, .ok ([], wake))
  | a :: as, wake, s => match processStore O c e fuel a wake s with
    | none => none
    | some (s', .error x) => some (s', .error x)
    | some (s', .ok r) => match processStores O c e fuel as r.2 s' with
      | none => none
      | some (s'', .error x) => some (s'', .error x)
      | some (s'', .ok r') => some (s'', .ok (r.1 ++ r'.1, r'.2))

/-- The end of `process_tasks` (base.py:1684-1699): how long to wait. -/
def waitTime (c : Cfg τ) (e : Env τ) (m : Mode) : Option Int → Option Int
  | none => if m = .paused then none else if c.lockPath then some c.retryInterval else none
  | some w => if m = .paused then none else some (min (max (w - e.now) 0) c.timeoutMax)

/-- `process_tasks` (base.py:1648-1699). -/
def processTasks (O : StoreOps σ (Body τ φ)) (c : Cfg τ) (e : Env τ) (fuel : Nat)
    (s : State σ τ φ) : Option (State σ τ φ × Except Err (Option Int)) :=
  if s.mode = .paused then some (s, .ok none)
  else if e.procLock then
    match processStores O c e fuel s.stores.keys none s with
    | none => none
    | some (s', .error x) => some (s', .error x)
    | some (s', .ok r) =>
      some ({ s' with log := s'.log ++ r.1 }, .ok (waitTime c e s'.mode r.2))
  else some (s, .ok (waitTime c e s.mode (earlier none (e.now + c.retryInterval))))

/-- The queued body of `wakeup` (asyncio.py:93-97): the timer is stopped before the pass and started
after it; if the pass raises, it stays stopped. -/
def tick (O : StoreOps σ (Body τ φ)) (c : Cfg τ) (e : Env τ) (fuel : Nat) (s : State σ τ φ) :
    Option (State σ τ φ × Except Err Unit) :=
  match processTasks O c e fuel { s with woken := false, timer := none } with
  | none => none
  | some (s', .error x) => some (s', .error x)
  | some (s', .ok w) => some ({ s' with timer := w.map (e.now + ·) }, .ok ())

/-- The `call_later` timer expires and calls `wakeup` (asyncio.py:80-83). -/
def timerFires (s : State σ τ φ) : State σ τ φ := { s with timer := none, woken := true }

/-! ## Adding tasks, starting and stopping -/

/-- The `next_run_time` a task gets when it is added (base.py:1447-1458). -/
def firstTime (e : Env τ) (t : T τ φ) (start : Bool) (minD : Option Int) :
    Except Exc (Option Int) :=
  match t.nrt, start with
  | none, true => match e.next 2 t.body.trigger none e.now with
    | .error x => .error x
    | .ok none => .ok none
    | .ok (some n) => .ok (some (match minD with | none => n | some m => max m n))
  | none, false => .ok none
  | some n, _ => .ok (some (match minD with | none => n | some m => max m n))

/-- The end of `real_add_task` (base.py:1473-1483). -/
def added (t : T τ φ) (start : Bool) (s : State σ τ φ) : State σ τ φ :=
  let s1 := s.emit (.taskAdded t.id t.body.store)
  if start then s1.wakeIfRunning else s1

/-- `real_add_task` (base.py:1426-1483). -/
def realAddTask (O : StoreOps σ (Body τ φ)) (e : Env τ) (t : T τ φ) (replace start : Bool)
    (minD : Option Int) (s : State σ τ φ) : State σ τ φ × Except Err Unit :=
  match firstTime e t start minD with
  | .error x => (s, .error (.trigger x))
  | .ok nrt =>
    let t' : T τ φ := { t with nrt := nrt, body := { t.body with pending := false } }
    match s.stores.get? t.body.store with
    | none => (s, .error (.keyError t.body.store))
    | some st => match O.step st (.add t') with
      | (st', .ok) => (added t' start (s.setStore t.body.store st'), .ok ())
      | (_, _) =>
        if replace then
          match O.step st (.update t') with
          | (st', .ok) => (added t' start (s.setStore t.body.store st'), .ok ())
          | (st', _) => (s.setStore t.body.store st', .ok ())
        else (s, .error (.conflict t.id))

/-- `add_task` (base.py:546-604) with a task object that is complete and valid; `nrt` is the
`next_run_time` argument (`none` = undefined, `some none` = `None`). -/
def addTask (O : StoreOps σ (Body τ φ)) (e : Env τ) (t : T τ φ) (nrt : Option (Option Int))
    (replace : Bool) (s : State σ τ φ) : State σ τ φ × Except Err Unit :=
  let t := { t with nrt := nrt.getD t.nrt }
  let start := decide (nrt ≠ some none)
  if s.mode = .stopped then
    ({ s with pending := s.pending ++ [(t, replace, start)] }, .ok ())
  else realAddTask O e t replace start none s

/-- The loop over the pending tasks in `start` (base.py:222-224): conflicts are ignored, other
exceptions propagate. -/
def addPending (O : StoreOps σ (Body τ φ)) (e : Env τ) (minD : Option Int) :
    List (T τ φ × Bool × Bool) → State σ τ φ → State σ τ φ × Except Err Unit
  | [], s => (s, .ok ())
  | (t, replace, start) :: ps, s =>
    match realAddTask O e t replace start minD s with
    | (s', .ok _) => addPending O e minD ps s'
    | (s', .error (.conflict _)) => addPending O e minD ps s'
    | (s', .error x) => (s', .error x)

/-- `add_executor` (base.py:376-400) with an executor instance. -/
def addExecutor (x : Nat) (alias : String) (s : State σ τ φ) : State σ τ φ × Except Err Unit :=
  if s.executors.contains alias then (s, .error (.aliasInUse alias))
  else (({ s with executors := s.executors.set alias x } : State σ τ φ).emit (.executorAdded alias), .ok ())

/-- `remove_executor` (base.py:402-413) -/
def removeExecutor (alias : String) (s : State σ τ φ) : State σ τ φ × Except Err Unit :=
  match s.executors.get? alias with
  | none => (s, .error (.keyError alias))
  | some _ => (({ s with executors := s.executors.erase alias } : State σ τ φ).emit (.executorRemoved alias), .ok ())

/-- `add_store` (base.py:415-448) with a store instance. -/
def addStore (st : σ) (alias : String) (s : State σ τ φ) : State σ τ φ × Except Err Unit :=
  if s.stores.contains alias then (s, .error (.aliasInUse alias))
  else (((s.setStore alias st).emit (.storeAdded alias)).wakeIfRunning, .ok ())

/-- `remove_store` (base.py:450-461) -/
def removeStore (alias : String) (s : State σ τ φ) : State σ τ φ × Except Err Unit :=
  match s.stores.get? alias with
  | none => (s, .error (.keyError alias))
  | some _ => (({ s with stores := s.stores.erase alias } : State σ τ φ).emit (.storeRemoved alias), .ok ())

/-- `start` creates the default executor and store if they are missing (base.py:206-208, 217-218). -/
def withDefaults (O : StoreOps σ (Body τ φ)) (c : Cfg τ) (s : State σ τ φ) : State σ τ φ :=
  let s1 := (addExecutor c.defaultExecutor "default" s).1
  (addStore O.init "default" s1).1

/-- `start` (base.py:192-236) with `inc_refcount` (176-182).
Simplification: if a pending task cannot be added, the changes to the pending task objects made so
far are dropped. -/
def start (O : StoreOps σ (Body τ φ)) (c : Cfg τ) (e : Env τ) (paused : Bool) (s : State σ τ φ) :
    State σ τ φ × Except Err Bool :=
  let s1 := { s with refs := s.refs + 1 }
  if s1.refs > 1 then (s1, .ok false)
  else if s1.mode ≠ .stopped then (s1, .error .assertion)
  else
    let minD := if c.lockPath then some (e.now + c.startupDelay) else none
    match addPending O e minD s.pending (withDefaults O c s1) with
    | (s2, .error x) => (s2, .error x)
    | (s2, .ok _) =>
      let s3 := ({ s2 with pending := [], mode := if paused then .paused else .running } : State σ τ φ).emit
        .schedulerStart
      (if paused then s3 else s3.wake, .ok true)

/-- The tasks of one store in `shutdown` (base.py:285-293).
Simplification: coroutine functions are run after the loop in the code; here all runs are logged in
store order. -/
def shutdownTasks (O : StoreOps σ (Body τ φ)) (c : Cfg τ) (alias : String) :
    List (T τ φ) → σ → σ × List Obs
  | [], st => (st, [])
  | t :: ts, st =>
    if c.isShutdown t.body.trigger then
      let r := shutdownTasks O c alias ts (O.step st (.delete t.id)).1
      (r.1, .shutdownRun t.id alias :: r.2)
    else shutdownTasks O c alias ts st

/-- The loops over the stores in `shutdown` (base.py:284-297): run and delete shutdown tasks, then
close the stores. -/
def shutdownStores (O : StoreOps σ (Body τ φ)) (c : Cfg τ) : Dict String σ → Dict String σ × List Obs
  | [] => ([], [])
  | (a, st) :: rest =>
    let r := shutdownTasks O c a (O.all st) st
    let q := shutdownStores O c rest
    ((a, O.close r.1) :: q.1, r.2 ++ q.2)

/-- `shutdown` (base.py:264-301) with `decr_refcount` (184-190) and `stop_timer` (asyncio.py:57-65). -/
def shutdown (O : StoreOps σ (Body τ φ)) (c : Cfg τ) (s : State σ τ φ) : State σ τ φ × Except Err Bool :=
  let s1 := { s with refs := s.refs - 1 }
  if s1.refs > 0 then (s1, .ok false)
  else if s1.mode = .stopped then (s1, .error .notRunning)
  else
    let r := shutdownStores O c s1.stores
    ({ s1 with mode := .stopped, stores := r.1, timer := none,
               log := s1.log ++ r.2 ++ [.schedulerShutdown] }, .ok true)

/-- `pause` (base.py:303-315) -/
def pause (s : State σ τ φ) : State σ τ φ × Except Err Unit :=
  match s.mode with
  | .stopped => (s, .error .notRunning)
  | .running => (({ s with mode := .paused } : State σ τ φ).emit .schedulerPaused, .ok ())
  | .paused => (s, .ok ())

/-- `resume` (base.py:317-327) -/
def resume (s : State σ τ φ) : State σ τ φ × Except Err Unit :=
  match s.mode with
  | .stopped => (s, .error .notRunning)
  | .paused => ((({ s with mode := .running } : State σ τ φ).emit .schedulerResumed).wake, .ok ())
  | .running => (s, .ok ())

/-! ## Changing tasks -/

/-- replace the first pending task that matches.  (schedulers/base.py:677-682) -/
def setPending (id : String) (store : Option String) (t : T τ φ) :
    List (T τ φ × Bool × Bool) → List (T τ φ × Bool × Bool)
  | [] => []
  | p :: ps => if pendingMatch id store p then (t, p.2) :: ps else p :: setPending id store t ps

/-- `update_task` (base.py:647-688) with an id; `f` is what `Task.update_task` does with the given
changes (`none` = it raises). -/
def updateTask (O : StoreOps σ (Body τ φ)) (id : String) (store : Option String)
    (f : T τ φ → Option (T τ φ)) (s : State σ τ φ) : State σ τ φ × Except Err (T τ φ) :=
  match lookupTask O s id store with
  | none => (s, .error (.lookup id))
  | some (t, loc) => match f t with
    | none => (s, .error .invalid)
    | some t' => match loc with
      | none => ((({ s with pending := setPending id store t' s.pending } : State σ τ φ).emit
          (.taskModified id none)).wakeIfRunning, .ok t')
      | some a => match s.stores.get? a with
        | none => (s, .error (.keyError a))
        | some st => match O.step st (.update t') with
          | (st', .ok) => (((s.setStore a st').emit (.taskModified id (some a))).wakeIfRunning, .ok t')
          | (st', _) => (s.setStore a st', .error (.lookup id))

/-- `pause_task` (base.py:712-720) -/
def pauseTask (O : StoreOps σ (Body τ φ)) (id : String) (store : Option String) (s : State σ τ φ) :
    State σ τ φ × Except Err (T τ φ) :=
  updateTask O id store (fun t => some { t with nrt := none }) s

/-- `reschedule_task` (base.py:690-710) with a trigger instance -/
def rescheduleTask (O : StoreOps σ (Body τ φ)) (e : Env τ) (id : String) (store : Option String)
    (g : τ) (s : State σ τ φ) : State σ τ φ × Except Err (T τ φ) :=
  match e.next 2 g none e.now with
  | .error x => (s, .error (.trigger x))
  | .ok n => updateTask O id store
      (fun t => some { t with nrt := n, body := { t.body with trigger := g } }) s

/-- `resume_task` (base.py:722-744) -/
def resumeTask (O : StoreOps σ (Body τ φ)) (e : Env τ) (id : String) (store : Option String)
    (s : State σ τ φ) : State σ τ φ × Except Err (Option (T τ φ)) :=
  match lookupTask O s id store with
  | none => (s, .error (.lookup id))
  | some (t, loc) => match e.next 2 t.body.trigger none e.now with
    | .error x => (s, .error (.trigger x))
    | .ok (some n) => match updateTask O id loc (fun t => some { t with nrt := some n }) s with
      | (s', .ok t') => (s', .ok (some t'))
      | (s', .error x) => (s', .error x)
    | .ok none => match deleteTask O t.id loc s with
      | (s', .ok _) => (s', .ok none)
      | (s', .error x) => (s', .error x)

/-- The next run time after a manual run (base.py:840-849): strictly in the future. -/
def manualNext (now : Int) : Option Int → Option Int
  | none => none
  | some n => if n ≤ now then some (now + 1000) else some n

/-- The end of `run_task` (base.py:840-861): store the next run time or remove the task. -/
def afterManualRun (O : StoreOps σ (Body τ φ)) (e : Env τ) (t : T τ φ) (alias : String) (last : Int)
    (removeFinished : Bool) (s : State σ τ φ) : State σ τ φ × Except Err (Option (T τ φ)) :=
  match e.next 1 t.body.trigger (some last) e.now with
  | .error x => (s, .error (.trigger x))
  | .ok n =>
    let n := manualNext e.now n
    if n = none ∧ removeFinished then
      match deleteTask O t.id (some alias) s with
      | (s', .ok _) => (s', .ok none)
      | (s', .error x) => (s', .error x)
    else
      let t' := { t with nrt := n }
      match s.stores.get? alias with
      | none => (s, .error (.keyError alias))
      | some st => match O.step st (.update t') with
        | (st', .ok) => (s.setStore alias st', .ok (some t'))
        | (st', _) => (s.setStore alias st', .error (.lookup t.id))

/-- `run_task` once the task is found and its due run times are computed (base.py:795-863). -/
def runFound (O : StoreOps σ (Body τ φ)) (e : Env τ) (t : T τ φ) (alias : String) (all : List Int)
    (force removeFinished : Bool) (s : State σ τ φ) : State σ τ φ × Except Err (Option (T τ φ)) :=
  if all = [] ∧ force = false then (s, .ok (some t))
  else
    let c := if all = [] then ([e.now], 0) else coalesce t.body.coalesce all
    match s.executors.get? t.body.executor with
    | none => (s, .error (.keyError t.body.executor))
    | some _ =>
      match sendTask e t.body.executor alias t c.1 s with
      | (s', .max) => (s'.emit (.taskMaxInstances t.id alias c.1 c.2 true), .error (.maxInstances t.id))
      | (s', .failed) => (s', .error .sendFailed)
      | (s', .ok) =>
        afterManualRun O e t alias (c.1.getLastD e.now) removeFinished
          (s'.emit (.taskSubmitted t.id alias c.1 c.2 true))

/-- `run_task` (base.py:746-863); `none`: `get_run_times` has not ended.
Simplification: the whole call is one step.  In the code it does not hold `store_lock`, so that a pass in
another thread may come between `get_run_times` and the submission: see `C39_race_witness`. -/
def runTask (O : StoreOps σ (Body τ φ)) (e : Env τ) (fuel : Nat) (id : String) (store : Option String)
    (force removeFinished : Bool) (s : State σ τ φ) :
    Option (State σ τ φ × Except Err (Option (T τ φ))) :=
  if s.mode = .stopped then some (s, .error .notRunning)
  else match findInStores O id store s.stores with
  | none => some (s, .error (.lookup id))
  | some (t, alias) =>
    match runTimes e t.body.trigger fuel t.nrt with
    | none => none
    | some (.error x) => some (s, .error (.trigger x))
    | some (.ok all) => some (runFound O e t alias all force removeFinished s)

/-! ## Reading -/

/-- `get_tasks` (base.py:872-896) -/
def getTasks (O : StoreOps σ (Body τ φ)) (s : State σ τ φ) (store : Option String) : List (T τ φ) :=
  if s.mode = .stopped then
    (s.pending.map (·.1)).filter fun t => store == none || store == some t.body.store
  else s.stores.flatMap fun p => if store = none ∨ store = some p.1 then O.all p.2 else []

/-- The loop of `preview_task_runs` (base.py:1067-1074). -/
def previewLoop (e : Env τ) (g : τ) : Nat → Option Int → Except Exc (List Int × Bool)
  | _, none => .ok ([], true)
  | 0, some _ => .ok ([], false)
  | n + 1, some r => match e.next 2 g (some r) r with
    | .error x => .error x
    | .ok nx => match previewLoop e g n nx with
      | .error x => .error x
      | .ok (l, b) => .ok (r :: l, b)

/-- Where a preview begins (base.py:1062-1064). -/
def firstPreview (e : Env τ) (t : T τ φ) : Except Exc (Option Int) :=
  match t.nrt with
  | some n => .ok (some n)
  | none => e.next 2 t.body.trigger none e.now

/-- `preview_task_runs` (base.py:1027-1083): the run times and the `exhausted` flag; `none` if there
is no such task. -/
def preview (O : StoreOps σ (Body τ φ)) (e : Env τ) (s : State σ τ φ) (id : String)
    (store : Option String) (count : Int) : Except Err (Option (List Int × Bool)) :=
  if 1 ≤ count ∧ count ≤ 50 then
    match lookupTask O s id store with
    | none => .ok none
    | some (t, _) =>
      match firstPreview e t with
      | .error x => .error (.trigger x)
      | .ok first => match previewLoop e t.body.trigger count.toNat first with
        | .error x => .error (.trigger x)
        | .ok r => .ok (some r)
  else .error .badCount

/-- `remove_all_tasks` (base.py:1216-1234) -/
def removeAllTasks (O : StoreOps σ (Body τ φ)) (store : Option String) (s : State σ τ φ) : State σ τ φ :=
  let s1 := if s.mode = .stopped then
      { s with pending := match store with
          | none => []
          | some a => if a = "" then [] else s.pending.filter fun p => p.1.body.store != a }
    else { s with stores := s.stores.map fun p =>
        if store = none ∨ store = some p.1 then (p.1, (O.step p.2 .clear).1) else p }
  s1.emit (.allTasksRemoved store)

end Sched
end Asyncz
