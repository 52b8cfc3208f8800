import Verif.Model.Dict
import Verif.Model.Listeners
import Verif.Model.Dashboard

/-!
# Model of how the dashboard subscribes to schedulers (/repo/asyncz/contrib/dashboard/events.py, history.py, application.py)

Schedulers are Python objects: they have an address (`id(scheduler)`) that may be given to another object after they have
been destroyed, and they are destroyed when nothing refers to them any more.
-/
namespace Asyncz
namespace Install
open Listen
open Listing (Text orEmpty)

/-- The two listeners of the dashboard: `install_scheduler_event_listener` (events.py:181-198) and
`install_run_history_listener` (history.py:331-360). -/
inductive Which where
  | events
  | runs
  deriving DecidableEq, Repr

/-- The classes of events (events/base.py:7-68). -/
inductive Cls where
  | plain
  | task
  | submission
  | execution
  deriving DecidableEq, Repr

/-- A storage: one passed by the user, or the default one made by `get_scheduler_event_storage()` and
`get_run_history_storage()` (events.py:166-178, history.py:317-328). -/
inductive Stor where
  | given (n : Nat)
  | default
  deriving DecidableEq, Repr

/-- `mask=ALL_EVENTS` (events.py:196) and `RUN_EVENT_MASK` (history.py:23, 358). -/
def Which.mask : Which → Nat
  | .events => allEvents
  | .runs => maskOf [.taskSubmitted, .taskMaxInstances, .taskExecuted, .taskError, .taskMissed]

/-- A callback: the user's, or a closure made by an installation, which refers to a storage and to the scheduler; `serial`
is the identity of the closure (events.py:193-194, history.py:345-356). -/
inductive Cb where
  | user (n : Nat)
  | dash (w : Which) (serial : Nat) (sched : Nat) (storage : Stor)
  deriving DecidableEq, Repr

/-- A scheduler; `held`: a user, a thread or an event loop refers to it (schedulers/base.py:100-113). -/
structure Obj where
  addr : Nat
  identity : String
  held : Bool
  listeners : Ls Cb
  deriving DecidableEq, Repr

/-- A call of `append` of an event storage, or of `record_submission` or `record_execution` of a run history
(events.py:105-109, history.py:156-207, 209-262). -/
structure Rec (π : Type) where
  which : Which
  storage : Stor
  sched : Nat
  event : Event (Cls × π)
  deriving DecidableEq, Repr

/-- `objs`: the schedulers that exist, by the number of their creation; `tables`: `_installed_listeners`
of events.py:167 and of history.py:318; `storages`: `_storage` of events.py:166 and of history.py:317. -/
structure W (π : Type) where
  objs : Nat → Option Obj
  next : Nat
  serial : Nat
  tables : Which → Dict Nat (Nat × Cb)
  storages : Which → Option Stor
  recs : List (Rec π)

/-- before any scheduler is made (events.py:166-167, history.py:317-318) -/
def init {π : Type} : W π := ⟨fun _ => none, 0, 0, fun _ => [], fun _ => none, []⟩

variable {π : Type}

/-- Some existing scheduler has this address. (library; `id(scheduler)` at events.py:187) -/
def W.taken (w : W π) (addr : Nat) : Bool :=
  (List.range w.next).any fun i => (w.objs i).any fun o => o.addr = addr

/-- the greatest address of an existing scheduler among the first `n` (library; `id(scheduler)` at events.py:187) -/
def W.top (w : W π) : Nat → Nat
  | 0 => 0
  | n + 1 => max (w.top n) (match w.objs n with | some o => o.addr | none => 0)

/-- The address a new scheduler gets: any free one; `addr` if that is free. (library; `id(scheduler)` at events.py:187) -/
def W.alloc (w : W π) (addr : Nat) : Nat := if w.taken addr then w.top w.next + 1 else addr

/-- The closures in `_installed_listeners` refer to the scheduler (events.py:193-197, history.py:345-359); the weak
reference beside them does not. -/
def W.referenced (w : W π) (i : Nat) : Bool :=
  [Which.events, Which.runs].any fun k => (w.tables k).any fun e =>
    match e.2.2 with
    | .dash _ _ s _ => s = i
    | .user _ => false

/-- `get_scheduler_event_storage(storage)` and `get_run_history_storage(storage)` (events.py:170-178, history.py:321-328). -/
def getStorage (cur : Option Stor) (arg : Option Stor) : Stor :=
  match arg with
  | some s => s
  | none => match cur with
    | some s => s
    | none => .default

/-- `installed[0]() is scheduler`: the weak reference yields the scheduler if that still exists (events.py:189, history.py:341). -/
def W.deref (w : W π) (i : Nat) : Option Nat := if (w.objs i).isSome then some i else none

/-- Assignment to one cell. (library) (events.py:197) -/
def upd {α β : Type} [DecidableEq α] (f : α → β) (a : α) (b : β) : α → β := fun x => if x = a then b else f x

/-- `install_scheduler_event_listener` (events.py:181-198) and `install_run_history_listener` (history.py:331-360) of the
existing scheduler `i`, which is `o`. -/
def install (w : W π) (k : Which) (i : Nat) (o : Obj) (arg : Option Stor) : W π :=
  let st := getStorage (w.storages k) arg
  let ls := match (w.tables k).get? o.addr with
    | some (ref, cb) => if w.deref ref = some i then (remove o.listeners cb).1 else o.listeners
    | none => o.listeners
  let cb := Cb.dash k w.serial i st
  { w with
    storages := upd w.storages k (some st)
    objs := upd w.objs i (some { o with listeners := add ls cb k.mask })
    tables := upd w.tables k ((w.tables k).set o.addr (i, cb))
    serial := w.serial + 1 }

/-- The body of the listener: the event listener records every event (events.py:193-194), the run history those whose class
and code fit (history.py:345-356). -/
def records (k : Which) (e : Event (Cls × π)) : Bool :=
  match k with
  | .events => true
  | .runs =>
    if e.payload.1 = .submission ∧ (e.kind = .taskSubmitted ∨ e.kind = .taskMaxInstances) then true
    else if e.payload.1 = .execution ∧ (e.kind = .taskExecuted ∨ e.kind = .taskError ∨ e.kind = .taskMissed) then true
    else false

/-- What a call of a callback records (events.py:193-194, history.py:345-356). -/
def recOf (c : Cb × Event (Cls × π)) : Option (Rec π) :=
  match c.1 with
  | .dash k _ s st => if records k c.2 then some ⟨k, st, s, c.2⟩ else none
  | .user _ => none

/-- Callbacks that do not change the registrations; `dispatch_event` with others is C35 (schedulers/base.py:1394-1412). -/
def passive : Behaviour Cb (Cls × π) := ⟨fun _ _ ls => ls, fun _ _ _ => false⟩

/-- What happens (events.py:166-198, history.py:317-360, schedulers/base.py:463-489, 1394-1412). -/
inductive Op (π : Type) where
  /-- a scheduler is made, at the address `addr` if that is free, else at another -/
  | create (addr : Nat) (identity : String)
  /-- the last user, thread or loop that refers to a scheduler forgets it -/
  | drop (i : Nat)
  /-- the garbage collector looks at a scheduler -/
  | collect (i : Nat)
  | install (k : Which) (i : Nat) (arg : Option Stor)
  | listen (i : Nat) (n : Nat) (mask : Nat)
  | unlisten (i : Nat) (n : Nat)
  | emit (i : Nat) (e : Event (Cls × π))

/-- the scheduler, if it is held by someone, who can call it (schedulers/base.py:100-113) -/
def W.user (w : W π) (i : Nat) : Option Obj :=
  match w.objs i with
  | some o => if o.held then some o else none
  | none => none

/-- One step (events.py:166-198, history.py:317-360, schedulers/base.py:463-489, 1394-1412). -/
def step (w : W π) : Op π → W π
  | .create addr identity =>
    { w with objs := upd w.objs w.next (some ⟨w.alloc addr, identity, true, []⟩), next := w.next + 1 }
  | .drop i => match w.user i with
    | some o => { w with objs := upd w.objs i (some { o with held := false }) }
    | none => w
  | .collect i => match w.objs i with
    | some o => if o.held || w.referenced i then w else { w with objs := upd w.objs i none }
    | none => w
  | .install k i arg => match w.user i with
    | some o => install w k i o arg
    | none => w
  | .listen i n mask => match w.user i with
    | some o => { w with objs := upd w.objs i (some { o with listeners := add o.listeners (.user n) mask }) }
    | none => w
  | .unlisten i n => match w.user i with
    | some o => { w with objs := upd w.objs i (some { o with listeners := (remove o.listeners (.user n)).1 }) }
    | none => w
  | .emit i e => match w.user i with
    | some o => { w with recs := w.recs ++ (dispatch passive o.identity e o.listeners).1.filterMap recOf }
    | none => w

/-- A history (events.py:166-198, history.py:317-360). -/
def run (ops : List (Op π)) : W π := ops.foldl step init

/-- `create_dashboard_app(scheduler, run_history_storage=...)` as far as listeners are concerned: the history listener with the
given storage and the event listener with the one in use (application.py:61-67). -/
def createApp (i : Nat) (runStorage : Option Stor) : List (Op π) :=
  [.install .runs i runStorage, .install .events i none]

/-- The storage the history pages and the event page of every dashboard read: `get_run_history_storage()`
(controllers/history.py:39, 82, home.py:31, _helpers.py:366) and `get_scheduler_event_storage()` (controllers/events.py:34). -/
def W.pageStorage (w : W π) (k : Which) : Stor := getStorage (w.storages k) none

/-! ## Event records -/
open Dash

/-- `EVENT_NAMES` (events.py:39-57) -/
def eventName : Kind → Text
  | .schedulerStarted => "scheduler.started".toList
  | .schedulerShutdown => "scheduler.shutdown".toList
  | .schedulerPaused => "scheduler.paused".toList
  | .schedulerResumed => "scheduler.resumed".toList
  | .executorAdded => "executor.added".toList
  | .executorRemoved => "executor.removed".toList
  | .storeAdded => "store.added".toList
  | .storeRemoved => "store.removed".toList
  | .allTasksRemoved => "task.all_removed".toList
  | .taskAdded => "task.added".toList
  | .taskRemoved => "task.removed".toList
  | .taskModified => "task.modified".toList
  | .taskExecuted => "task.executed".toList
  | .taskError => "task.error".toList
  | .taskMissed => "task.missed".toList
  | .taskSubmitted => "task.submitted".toList
  | .taskMaxInstances => "task.max_instances".toList

/-- `name.startswith(prefix)` (events.py:238-240) -/
def startsWith (pre : Text) (t : Text) : Bool := pre.isPrefixOf t

/-- `_event_category` (events.py:235-242) -/
def category (isTask : Bool) (name : Text) : Text :=
  if isTask then "task".toList
  else if startsWith "executor.".toList name then "executor".toList
  else if startsWith "store.".toList name then "store".toList
  else "scheduler".toList

/-- A value of which a text can be made: `repr` (or `str`) gives a text or raises (events.py:314-323). -/
structure Val where
  text : Option Text
  typeName : Text
  deriving DecidableEq, Repr

/-- `_safe_repr` and `_safe_str` with their default limit of 500; `none` is Python's `None` (events.py:314-335). -/
def safeText (v : Option Val) : Option Text :=
  match v with
  | none => none
  | some v =>
    let rendered := match v.text with
      | some t => t
      | none => '<' :: v.typeName ++ ['>']
    if rendered.length > 500 then some (rendered.take 497 ++ "...".toList) else some rendered

/-- An exception: its class and its `str` (events.py:338-344). -/
structure ExcV where
  module : Text
  qualname : Text
  val : Val
  deriving DecidableEq, Repr

/-- `_exception_type` (events.py:338-344) -/
def excType (e : Option ExcV) : Option Text :=
  match e with
  | none => none
  | some e => if e.module = "builtins".toList then some e.qualname else some (e.module ++ '.' :: e.qualname)

/-- An event with the data of its class (events/base.py:7-68); times as the texts `_datetime_text` makes of them
(events.py:306-311). -/
inductive Body where
  | plain
  | task (taskId : Text) (store : Option Text) (identity : Option Text)
  | submission (taskId : Text) (store : Option Text) (identity : Option Text) (times : List Text) (source : Option Text)
      (coalesced : Nat)
  | execution (taskId : Text) (store : Option Text) (identity : Option Text) (time : Option Text) (value : Option Val)
      (exc : Option ExcV)
  deriving DecidableEq, Repr

/-- see `Body` (events/base.py:7-22) -/
structure Ev where
  kind : Kind
  alias : Option Text
  body : Body
  deriving DecidableEq, Repr

/-- `isinstance(event, TaskEvent)` (events/base.py:25-36) -/
def Body.isTask : Body → Bool
  | .plain => false
  | _ => true

/-- `event.task_id` (events.py:205) -/
def Body.taskId : Body → Option Text
  | .plain => none
  | .task t _ _ => some t
  | .submission t _ _ _ _ _ => some t
  | .execution t _ _ _ _ _ => some t

/-- `event.store` (events.py:206) -/
def Body.store : Body → Option Text
  | .plain => none
  | .task _ s _ => s
  | .submission _ s _ _ _ _ => s
  | .execution _ s _ _ _ _ => s

/-- `event.scheduler_identity` (events.py:207-211) -/
def Body.identity : Body → Option Text
  | .plain => none
  | .task _ _ i => i
  | .submission _ _ i _ _ _ => i
  | .execution _ _ i _ _ _ => i

/-- `_event_details` (events.py:245-262) -/
inductive Details where
  | empty
  | submission (source : Text) (count : Nat) (coalesced : Nat) (times : List Text)
  | execution (time : Option Text) (value : Option Text) (excType : Option Text) (excMessage : Option Text)
  deriving DecidableEq, Repr

/-- `_event_details` (events.py:245-262) -/
def details : Body → Details
  | .submission _ _ _ times source coalesced =>
    .submission (if truthy source then orEmpty source else "unknown".toList) times.length coalesced times
  | .execution _ _ _ time value exc =>
    .execution time (safeText value) (excType exc) (safeText (exc.map ExcV.val))
  | _ => .empty

/-- `SchedulerEventRecord` with its details (events.py:69-80) -/
structure FullRec where
  eventId : Text
  code : Nat
  name : Text
  category : Text
  observedAt : Int
  alias : Option Text
  taskId : Option Text
  store : Option Text
  identity : Option Text
  details : Details
  deriving DecidableEq, Repr

/-- `_event_record`; `ident` stands for `_scheduler_identity(scheduler)` (events.py:296-303), `hash` for `_event_id`
(events.py:265-284) (events.py:201-232). -/
def eventRecord (hash : Int → Nat → Option Text → Option Text → Option Text → Details → Text) (now : Int) (ident : Option Text)
    (e : Ev) : FullRec :=
  let name := eventName e.kind
  { eventId := hash now e.kind.code e.body.taskId e.alias e.body.store (details e.body)
    code := e.kind.code
    name := name
    category := category e.body.isTask name
    observedAt := now
    alias := e.alias
    taskId := if e.body.isTask then e.body.taskId else none
    store := if e.body.isTask then e.body.store else none
    identity := if e.body.isTask then e.body.identity else ident
    details := details e.body }

end Install
end Asyncz
