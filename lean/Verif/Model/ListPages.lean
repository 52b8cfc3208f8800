import Verif.Model.Dashboard
import Verif.Model.History
import Verif.Model.Logs
import Verif.Model.Install
/-!
# Model of the list pages of the dashboard: events, audit trail, run history, logs

`contrib/dashboard/controllers/{events,audit,history,logs}.py`: from the parameters of the URL to the rows.
The text methods and `int()` are parameters (Unicode tables).
-/
namespace Asyncz
namespace ListPages
open Listing (Text orEmpty)
open Dash

/-- The text methods of Python that the pages use.
(Library; used at /repo/asyncz/contrib/dashboard/controllers/events.py:17-31) -/
structure Ops extends Dash.Str where
  /-- `int(text)`; `none`: `ValueError` -/
  int : Text → Option Int

/-- The parameters of the request: `request.query_params.get(key)`.
(/repo/asyncz/contrib/dashboard/controllers/events.py:15) -/
abbrev Params := String → Option Text

/-- `a or b` for texts.  (/repo/asyncz/contrib/dashboard/controllers/events.py:17-21) -/
def orText (a b : Text) : Text := if a = [] then b else a

/-- `value or None` for a text.  (/repo/asyncz/contrib/dashboard/controllers/events.py:36-39) -/
def orNone (a : Text) : Option Text := if a = [] then none else some a

/-- `(params.get(key) or "").strip()`.
(/repo/asyncz/contrib/dashboard/controllers/events.py:17-20, audit.py:17-19, history.py:23-26, logs.py:55-58) -/
def field (O : Ops) (p : Params) (key : String) : Text := O.strip (orText ((p key).getD []) [])

/-- `(params.get("limit") or "200").strip() or "200"`.
(/repo/asyncz/contrib/dashboard/controllers/events.py:21, audit.py:20, history.py:27, logs.py:59) -/
def limitField (O : Ops) (p : Params) : Text :=
  orText (O.strip (orText ((p "limit").getD []) "200".toList)) "200".toList

/-- `_limit`.
(/repo/asyncz/contrib/dashboard/controllers/events.py:25-29, audit.py:24-28, history.py:31-35, logs.py:63-67) -/
def limit (O : Ops) (v : Text) : Int :=
  match O.int v with
  | none => 200
  | some n => max 1 (min n 1000)

/-! ## Events -/

/-- `_event_filters`.  (/repo/asyncz/contrib/dashboard/controllers/events.py:14-22) -/
structure EventFilters where
  category : Text
  name : Text
  taskId : Text
  q : Text
  limit : Text
  deriving DecidableEq, Repr

/-- `_event_filters`.  (/repo/asyncz/contrib/dashboard/controllers/events.py:14-22) -/
def eventFilters (O : Ops) (p : Params) : EventFilters :=
  { category := O.lower (field O p "category")
    name := O.lower (field O p "name")
    taskId := field O p "task_id"
    q := field O p "q"
    limit := limitField O p }

/-- `TERMINAL_EVENT_CODES`: executed, error, missed, max instances, scheduler shutdown.
(/repo/asyncz/contrib/dashboard/events.py:60-66; the numbers: /repo/asyncz/events/constants.py) -/
def terminalCode (c : Nat) : Bool :=
  c == Listen.Kind.taskExecuted.code || c == Listen.Kind.taskError.code || c == Listen.Kind.taskMissed.code ||
  c == Listen.Kind.taskMaxInstances.code || c == Listen.Kind.schedulerShutdown.code

/-- `MemorySchedulerEventStorage.summary`: total, scheduler, task, terminal.
(/repo/asyncz/contrib/dashboard/events.py:155-163) -/
def eventSummary (buf : List EventRec) : Nat × Nat × Nat × Nat :=
  (buf.length, (buf.filter fun r => r.category == "scheduler".toList).length,
   (buf.filter fun r => r.category == "task".toList).length, (buf.filter fun r => terminalCode r.code).length)

/-- What the events page shows, without the choices of its two drop-down lists.
(/repo/asyncz/contrib/dashboard/controllers/events.py:42-46) -/
structure EventsContext where
  filters : EventFilters
  rows : List EventRec
  summary : Nat × Nat × Nat × Nat

/-- `build_events_context`.  (/repo/asyncz/contrib/dashboard/controllers/events.py:32-48) -/
def eventsContext (O : Ops) (buf : List EventRec) (p : Params) : EventsContext :=
  let f := eventFilters O p
  { filters := f
    rows := eventQuery O.toStr buf ⟨orNone f.category, orNone f.name, orNone f.taskId, orNone f.q, limit O f.limit⟩
    summary := eventSummary buf }

/-- the categories offered for filtering.  (/repo/asyncz/contrib/dashboard/controllers/events.py:47) -/
def categories : List Text := ["scheduler".toList, "store".toList, "executor".toList, "task".toList]

/-- the event names offered for filtering, without the sorting.
(/repo/asyncz/contrib/dashboard/controllers/events.py:46, /repo/asyncz/contrib/dashboard/events.py:39-57) -/
def eventNames : List Text :=
  [Listen.Kind.schedulerStarted, .schedulerShutdown, .schedulerPaused, .schedulerResumed, .executorAdded, .executorRemoved,
    .storeAdded, .storeRemoved, .allTasksRemoved, .taskAdded, .taskRemoved, .taskModified, .taskExecuted, .taskError,
    .taskMissed, .taskSubmitted, .taskMaxInstances].map Install.eventName

/-! ## Audit trail -/

/-- `_audit_filters`.  (/repo/asyncz/contrib/dashboard/controllers/audit.py:14-21) -/
structure AuditFilters where
  action : Text
  status : Text
  q : Text
  limit : Text
  deriving DecidableEq, Repr

/-- `_audit_filters`.  (/repo/asyncz/contrib/dashboard/controllers/audit.py:14-21) -/
def auditFilters (O : Ops) (p : Params) : AuditFilters :=
  { action := O.lower (field O p "action")
    status := O.lower (field O p "status")
    q := field O p "q"
    limit := limitField O p }

/-- `MemoryAuditTrailStorage.summary`: total, succeeded, failed, warning.
(/repo/asyncz/contrib/dashboard/audit.py:116-124) -/
def auditSummary (s : Audit) : Nat × Nat × Nat × Nat :=
  let records := s.records.values
  (records.length, (records.filter fun r => r.status == "succeeded".toList).length,
   (records.filter fun r => r.status == "failed".toList).length,
   (records.filter fun r => r.status == "warning".toList).length)

/-- What the audit page shows.  (/repo/asyncz/contrib/dashboard/controllers/audit.py:40-44) -/
structure AuditContext where
  filters : AuditFilters
  rows : List AuditRec
  summary : Nat × Nat × Nat × Nat

/-- `build_audit_context`; `none`: it raises.  (/repo/asyncz/contrib/dashboard/controllers/audit.py:31-44) -/
def auditContext (O : Ops) (s : Audit) (p : Params) : Option AuditContext :=
  let f := auditFilters O p
  (auditQuery O.toStr s ⟨orNone f.action, orNone f.status, orNone f.q, limit O f.limit⟩).map fun rows =>
    { filters := f, rows, summary := auditSummary s }

/-- `record_audit_event` with the id and the time drawn, as `_audit_task_action` calls it: the defaults are the target type
`task` and the actor `dashboard`.  (/repo/asyncz/contrib/dashboard/audit.py:146-164, controllers/tasks.py:202-216) -/
def auditTaskAction (id : Text) (now : Int) (action : Text) (task : Option Text) (status : Text) (message : Option Text) :
    AuditRec :=
  { eventId := id, action := "task.".toList ++ action, status, targetType := "task".toList, targetId := task, message
    actor := "dashboard".toList, createdAt := now }

/-! ## Run history -/

/-- `_history_filters`.  (/repo/asyncz/contrib/dashboard/controllers/history.py:20-28) -/
structure HistoryFilters where
  taskId : Text
  status : Text
  source : Text
  q : Text
  limit : Text
  deriving DecidableEq, Repr

/-- `_history_filters`.  (/repo/asyncz/contrib/dashboard/controllers/history.py:20-28) -/
def historyFilters (O : Ops) (p : Params) : HistoryFilters :=
  { taskId := field O p "task_id"
    status := O.lower (field O p "status")
    source := O.lower (field O p "source")
    q := field O p "q"
    limit := limitField O p }

/-- What the history page and its table show.  (/repo/asyncz/contrib/dashboard/controllers/history.py:48-52) -/
structure HistoryContext where
  filters : HistoryFilters
  rows : List Hist.Rec
  summary : Nat × Nat × Nat × Nat × Nat × Nat

/-- `build_history_context`.  (/repo/asyncz/contrib/dashboard/controllers/history.py:38-52) -/
def historyContext (O : Ops) (now : Int) (s : Hist.State) (p : Params) : HistoryContext :=
  let f := historyFilters O p
  { filters := f
    rows := Hist.query O.toStr now s ⟨orNone f.taskId, orNone f.status, orNone f.source, orNone f.q, limit O f.limit⟩
    summary := Hist.summary s }

/-- What `logs_for_run` reads of a record.  (/repo/asyncz/contrib/dashboard/history.py:26-47,363-389) -/
def runOf (r : Hist.Rec) : Logs.Run :=
  { runId := r.runId, taskId := r.task, submittedAt := r.submittedAt, finishedAt := r.finishedAt, createdAt := r.createdAt
    updatedAt := r.updatedAt }

/-- `HistoryDetailController.get`: status code, record and log rows.
(/repo/asyncz/contrib/dashboard/controllers/history.py:79-103) -/
def historyDetail (O : Ops) (now : Int) (s : Hist.State) (buf : List LogEntry) (runId : Text) :
    Nat × Option Hist.Rec × List LogEntry :=
  match Hist.get s runId with
  | none => (404, none, [])
  | some r => (200, some r, Logs.logsForRun O.toStr buf now (runOf r) 200)

/-! ## Logs -/

/-- `_log_filters`.  (/repo/asyncz/contrib/dashboard/controllers/logs.py:52-60) -/
structure LogFilters where
  taskId : Text
  runId : Text
  level : Text
  q : Text
  limit : Text
  deriving DecidableEq, Repr

/-- `_log_filters`.  (/repo/asyncz/contrib/dashboard/controllers/logs.py:52-60) -/
def logFilters (O : Ops) (p : Params) : LogFilters :=
  { taskId := field O p "task_id"
    runId := field O p "run_id"
    level := O.upper (field O p "level")
    q := field O p "q"
    limit := limitField O p }

/-- What the log page and its table show.  (/repo/asyncz/contrib/dashboard/controllers/logs.py:82) -/
structure LogContext where
  filters : LogFilters
  rows : List LogEntry

/-- `build_log_context`.  (/repo/asyncz/contrib/dashboard/controllers/logs.py:70-82) -/
def logContext (O : Ops) (buf : List LogEntry) (p : Params) : LogContext :=
  let f := logFilters O p
  { filters := f
    rows := logQuery O.toStr buf
      ⟨orNone f.taskId, orNone f.runId, orNone f.level, orNone f.q, none, none, limit O f.limit⟩ }

end ListPages
end Asyncz
