import Verif.Model.Dashboard
import Verif.Spec.History
/-!
# Model of the dashboard's run history (/repo/asyncz/contrib/dashboard/history.py)

Instants are `Int` (microseconds), texts `List Char`.  `now` (`_utc_now()`), the scheduler's answers
(`_task_metadata`, `_scheduler_identity`) and the rendered return value and exception are inputs of
each event.  The functions `iso` (`datetime.isoformat` of a UTC datetime) and `rid` (`_run_id`) are
parameters; `runIdOf` below is the code's `_run_id` for a given hash function.
-/
namespace Asyncz
namespace Hist
open Listing (Text isIn orEmpty)
open Dash (truthy scan joinSpace Str)
open Spec (Status)

/-- `TERMINAL_STATUSES`.  (/repo/asyncz/contrib/dashboard/history.py:22) -/
def isTerminal : Status → Bool
  | .succeeded => true
  | .failed => true
  | .missed => true
  | .maxInstances => true
  | .running => false

/-- A run time as an event carries it: `None`, a naive datetime (its fields read as UTC), an aware
datetime (its instant), or something else, as its `str`.
(/repo/asyncz/contrib/dashboard/history.py:408-415) -/
inductive RawTime where
  | none
  | naive (asUtc : Int)
  | aware (instant : Int)
  | other (text : Text)
  deriving DecidableEq, Repr

/-- A normalised run time: `None`, a UTC datetime, or a text.
(/repo/asyncz/contrib/dashboard/history.py:408-415) -/
inductive NTime where
  | none
  | utc (instant : Int)
  | text (text : Text)
  deriving DecidableEq, Repr

/-- `_normalize_run_time`.  (/repo/asyncz/contrib/dashboard/history.py:408-415) -/
def normalize : RawTime → NTime
  | .none => .none
  | .naive t => .utc t
  | .aware t => .utc t
  | .other s => .text s

/-- The tuple `(task_id, store, run_time)`.  (/repo/asyncz/contrib/dashboard/history.py:418-427) -/
abbrev Key := Text × Option Text × Text

/-- `_run_key`.  (/repo/asyncz/contrib/dashboard/history.py:418-427) -/
def runKey (iso : Int → Text) (task : Text) (store : Option Text) : NTime → Key
  | .utc t => (task, store, iso t)
  | .text s => (task, store, s)
  | .none => (task, store, [])

/-- `"|".join(part or "" for part in key)`.
(/repo/asyncz/contrib/dashboard/history.py:431) -/
def rawId (k : Key) : Text := k.1 ++ '|' :: (orEmpty k.2.1 ++ '|' :: k.2.2)

/-- `_run_id`, with the (truncated SHA-256) hash given.
(/repo/asyncz/contrib/dashboard/history.py:430-432) -/
def runIdOf (hash : Text → Text) (k : Key) : Text := hash (rawId k)

/-- `_task_metadata`: the fields that are present (`{}`: all absent).
(/repo/asyncz/contrib/dashboard/history.py:435-455) -/
structure Meta where
  taskName : Option Text
  callable : Option Text
  executor : Option Text
  deriving DecidableEq, Repr

/-- `RunRecord`.  (/repo/asyncz/contrib/dashboard/history.py:26-47) -/
structure Rec where
  runId : Text
  task : Text
  store : Option Text
  time : NTime
  taskName : Option Text
  callable : Option Text
  executor : Option Text
  identity : Option Text
  coalesced : Int
  source : Text
  status : Status
  submittedAt : Option Int
  finishedAt : Option Int
  ret : Option Text
  excType : Option Text
  excMsg : Option Text
  exc : Option Text
  tb : Option Text
  createdAt : Option Int
  updatedAt : Option Int
  deriving DecidableEq, Repr

/-- `_records`, `_order`, `_key_index`.  (/repo/asyncz/contrib/dashboard/history.py:70-75) -/
structure State where
  records : Dict Text Rec
  order : List Text
  keyIndex : Dict Key Text
  deriving DecidableEq, Repr

/-- `MemoryRunHistoryStorage()` and the effect of `clear`.
(/repo/asyncz/contrib/dashboard/history.py:70-81) -/
def State.empty : State := ⟨[], [], []⟩

/-- `get`.  (/repo/asyncz/contrib/dashboard/history.py:83-85) -/
def get (s : State) (runId : Text) : Option Rec := s.records.get? runId

/-- The `while` loop of `_trim` (`maxlen` is a natural number; a negative one makes `popleft` raise).
(/repo/asyncz/contrib/dashboard/history.py:306-314) -/
def trim (iso : Int → Text) (m : Nat) (records : Dict Text Rec) (keyIndex : Dict Key Text) :
    List Text → State
  | [] => ⟨records, [], keyIndex⟩
  | r :: order =>
    if (r :: order).length > m then
      match records.get? r with
      | some old =>
        trim iso m (records.erase r) (keyIndex.erase (runKey iso old.task old.store old.time)) order
      | none => trim iso m (records.erase r) keyIndex order
    else ⟨records, r :: order, keyIndex⟩

/-- `x or y` for optional texts.  (/repo/asyncz/contrib/dashboard/history.py:277) -/
def orText (x y : Option Text) : Option Text := if truthy x then x else y

/-- `if value and not getattr(record, field): setattr(record, field, value)`.
(/repo/asyncz/contrib/dashboard/history.py:299-303) -/
def fill (old new : Option Text) : Option Text := if truthy new && !truthy old then new else old

/-- `_upsert`: the new state and the record it returns; `none` is the `KeyError` of line 298.
(/repo/asyncz/contrib/dashboard/history.py:264-304) -/
def upsert (rid : Key → Text) (iso : Int → Text) (m : Nat) (s : State) (task : Text)
    (store : Option Text) (time : RawTime) (mt : Meta) (identity : Option Text) (now : Int) :
    Option (State × Rec) :=
  let nt := normalize time
  let key := runKey iso task store nt
  match s.keyIndex.get? key with
  | none =>
    let r := rid key
    let record : Rec :=
      { runId := r, task := task, store := store, time := nt, taskName := mt.taskName,
        callable := mt.callable, executor := mt.executor, identity := identity, coalesced := 0,
        source := "unknown".toList, status := .running, submittedAt := none, finishedAt := none,
        ret := none, excType := none, excMsg := none, exc := none, tb := none,
        createdAt := some now, updatedAt := some now }
    some (trim iso m (s.records.set r record) (s.keyIndex.set key r) (s.order ++ [r]), record)
  | some r =>
    match s.records.get? r with
    | none => none
    | some record =>
      let record := { record with
        taskName := fill record.taskName mt.taskName
        callable := fill record.callable mt.callable
        executor := fill record.executor mt.executor
        identity := fill record.identity identity }
      some ({ s with records := s.records.set r record }, record)

/-- The assignments to the returned record: they are seen through the dictionary unless the record
has been trimmed away.  (/repo/asyncz/contrib/dashboard/history.py:178-188,225-235) -/
def put (s : State) (record : Rec) : State :=
  if s.records.contains record.runId then { s with records := s.records.set record.runId record }
  else s

/-- A line written by `_append_run_log` (level, run, status).
(/repo/asyncz/contrib/dashboard/history.py:191-205,237-260,499-525) -/
structure Line where
  level : Text
  runId : Text
  task : Text
  status : Status
  deriving DecidableEq, Repr

/-- A `TaskSubmissionEvent` and its surroundings: `skipped` iff the code is `TASK_MAX_INSTANCES`;
each run time with what the scheduler says about the task when it is handled; `schedIdentity` is
`_scheduler_identity(scheduler)`.  (/repo/asyncz/contrib/dashboard/history.py:156-166) -/
structure Submission where
  skipped : Bool
  task : Text
  store : Option Text
  times : List (RawTime × Meta)
  source : Option Text
  coalesced : Int
  identity : Option Text
  schedIdentity : Option Text
  now : Int
  deriving DecidableEq, Repr

/-- The codes an execution event may have in the listener: `TASK_EXECUTED`, `TASK_ERROR`,
`TASK_MISSED`.  (/repo/asyncz/contrib/dashboard/history.py:351-355) -/
inductive Code where
  | executed | error | missed
  deriving DecidableEq, Repr

/-- `_status_from_execution_code`.  (/repo/asyncz/contrib/dashboard/history.py:396-401) -/
def statusOf : Code → Status
  | .executed => .succeeded
  | .missed => .missed
  | .error => .failed

/-- A `TaskExecutionEvent` and its surroundings; `ret` and `exc` are the `repr` of the return value
and the type name, `str` and `repr` of the exception.
(/repo/asyncz/contrib/dashboard/history.py:209-235) -/
structure Execution where
  code : Code
  task : Text
  store : Option Text
  time : RawTime
  ret : Option Text
  exc : Option (Text × Text × Text)
  tb : Option Text
  mt : Meta
  identity : Option Text
  schedIdentity : Option Text
  now : Int
  deriving DecidableEq, Repr

/-- `_safe_repr` / `_safe_str` with the default limit, on the rendered text.
(/repo/asyncz/contrib/dashboard/history.py:468-487) -/
def clip (t : Text) : Text := if t.length > 500 then t.take 497 ++ "...".toList else t

/-- One turn of the loop of `record_submission`.
(/repo/asyncz/contrib/dashboard/history.py:168-205) -/
def submitOne (rid : Key → Text) (iso : Int → Text) (m : Nat) (e : Submission)
    (acc : State × List Line) (x : RawTime × Meta) : Option (State × List Line) :=
  let source := if truthy e.source then orEmpty e.source else "scheduled".toList
  let status : Status := if e.skipped then .maxInstances else .running
  match upsert rid iso m acc.1 e.task e.store x.1 x.2 (orText e.identity e.schedIdentity) e.now with
  | none => none
  | some (s, record) =>
    let wasTerminal := isTerminal record.status
    let record := { record with
      source := source
      coalesced := max record.coalesced e.coalesced
      submittedAt := some (record.submittedAt.getD (record.finishedAt.getD e.now)) }
    let record := if isTerminal record.status then record else { record with status := status }
    let record := if status = .maxInstances then
        { record with finishedAt := some (record.finishedAt.getD e.now) } else record
    let record := { record with updatedAt := some e.now }
    let lines :=
      if status = .maxInstances then [⟨"WARNING".toList, record.runId, record.task, record.status⟩]
      else if !wasTerminal then [⟨"INFO".toList, record.runId, record.task, record.status⟩]
      else []
    some (put s record, acc.2 ++ lines)

/-- `record_submission`.  (/repo/asyncz/contrib/dashboard/history.py:156-207) -/
def recordSubmission (rid : Key → Text) (iso : Int → Text) (m : Nat) (s : State) (e : Submission) :
    Option (State × List Line) :=
  e.times.foldlM (submitOne rid iso m e) (s, [])

/-- `record_execution`.  (/repo/asyncz/contrib/dashboard/history.py:209-262) -/
def recordExecution (rid : Key → Text) (iso : Int → Text) (m : Nat) (s : State) (e : Execution) :
    Option (State × List Line) :=
  match upsert rid iso m s e.task e.store e.time e.mt (orText e.identity e.schedIdentity) e.now with
  | none => none
  | some (s, record) =>
    let record := { record with
      finishedAt := some e.now
      submittedAt := some (record.submittedAt.getD e.now)
      status := statusOf e.code
      ret := e.ret.map clip
      excType := e.exc.map (·.1)
      excMsg := e.exc.map fun x => clip x.2.1
      exc := e.exc.map fun x => clip x.2.2
      tb := e.tb
      updatedAt := some e.now }
    let level := match record.status with
      | .succeeded => "INFO".toList
      | .missed => "WARNING".toList
      | _ => "ERROR".toList
    some (put s record, [⟨level, record.runId, record.task, record.status⟩])

/-- The listener and the `clear` method.  (/repo/asyncz/contrib/dashboard/history.py:77-81,345-356) -/
inductive Op where
  | submission (e : Submission)
  | execution (e : Execution)
  | clear
  deriving DecidableEq, Repr

/-- One call.  (/repo/asyncz/contrib/dashboard/history.py:77-81,345-356) -/
def step (rid : Key → Text) (iso : Int → Text) (m : Nat) (s : State) : Op → Option (State × List Line)
  | .submission e => recordSubmission rid iso m s e
  | .execution e => recordExecution rid iso m s e
  | .clear => some (State.empty, [])

/-- A sequence of calls, one after the other, on a new storage; `none` if one raised.
(/repo/asyncz/contrib/dashboard/history.py:69-81,345-356) -/
def runAll (rid : Key → Text) (iso : Int → Text) (m : Nat) (ops : List Op) : Option State :=
  ops.foldlM (fun s o => (step rid iso m s o).map (·.1)) State.empty

/-! ## Queries -/

/-- The arguments of `query`.  (/repo/asyncz/contrib/dashboard/history.py:91-99) -/
structure Query where
  taskId : Option Text
  status : Option Text
  source : Option Text
  q : Option Text
  limit : Int

/-- The text of a status.  (/repo/asyncz/contrib/dashboard/history.py:22,38) -/
def statusText : Status → Text
  | .running => "running".toList
  | .succeeded => "succeeded".toList
  | .failed => "failed".toList
  | .missed => "missed".toList
  | .maxInstances => "max_instances".toList

/-- `sort_key`; the last alternative, the time of the call, is never used on a stored record.
(/repo/asyncz/contrib/dashboard/history.py:106-113) -/
def sortKey (now : Int) (r : Rec) : Int :=
  r.finishedAt.getD (r.submittedAt.getD (r.updatedAt.getD (r.createdAt.getD now)))

/-- The `continue` tests of the loop.  (/repo/asyncz/contrib/dashboard/history.py:100-102,117-138) -/
def keep (S : Str) (a : Query) (r : Rec) : Bool :=
  let needle := S.lower (S.strip (orEmpty a.q))
  let status := S.lower (S.strip (orEmpty a.status))
  let source := S.lower (S.strip (orEmpty a.source))
  !(truthy a.taskId && some r.task ≠ a.taskId) &&
  !(status ≠ [] && statusText r.status ≠ status) &&
  !(source ≠ [] && r.source ≠ source) &&
  !(needle ≠ [] && !isIn needle (S.lower (joinSpace
      [some r.task, r.taskName, r.callable, r.identity,
        (if r.coalesced ≠ 0 then some "coalesced".toList else some []), some (statusText r.status),
        some r.source, some r.runId])))

/-- `query`.  (/repo/asyncz/contrib/dashboard/history.py:91-142) -/
def query (S : Str) (now : Int) (s : State) (a : Query) : List Rec :=
  scan a.limit (keep S a) []
    (sortBy (fun x y => decide (sortKey now y ≤ sortKey now x)) s.records.values)

/-- `latest_for_task`.  (/repo/asyncz/contrib/dashboard/history.py:87-89) -/
def latestForTask (S : Str) (now : Int) (s : State) (task : Text) : Option Rec :=
  (query S now s ⟨some task, none, none, none, 1⟩).head?

/-- `summary`: total, running, succeeded, failed, missed, max_instances.
(/repo/asyncz/contrib/dashboard/history.py:144-154) -/
def summary (s : State) : Nat × Nat × Nat × Nat × Nat × Nat :=
  let n := fun st : Status => (s.records.values.filter fun r => decide (r.status = st)).length
  (s.records.values.length, n .running, n .succeeded, n .failed, n .missed, n .maxInstances)

/-- `duration_ms`: `int(delta.total_seconds() * 1000)` for a difference in microseconds; exact here,
where the code multiplies floating point numbers.  (/repo/asyncz/contrib/dashboard/history.py:61-66) -/
def durationMs (r : Rec) : Option Int :=
  match r.submittedAt, r.finishedAt with
  | some a, some b => some (max ((b - a).tdiv 1000) 0)
  | _, _ => none

/-! ## Two handlers at once

The lock covers `_upsert` only; the assignments to the record are made outside it.  The submission of a run
to a thread pool and its end are reported from different threads. -/

/-- The assignments of one handler to the status of one record, in program order: test-and-branch
(line 184), write of the new status (185), write of the final status (227).
(/repo/asyncz/contrib/dashboard/history.py:184-185,227) -/
inductive Micro where
  /-- `if record.status not in TERMINAL_STATUSES` -/
  | test
  /-- `record.status = status`, if the test succeeded -/
  | write (s : Status)
  /-- `record.status = _status_from_execution_code(event.code)` -/
  | finish (s : Status)
  deriving DecidableEq, Repr

/-- One step on the status of the record and the outcome of the test.
(/repo/asyncz/contrib/dashboard/history.py:184-185,227) -/
def Micro.exec : Micro → Status × Bool → Status × Bool
  | .test, (st, _) => (st, !isTerminal st)
  | .write s, (st, ok) => (if ok then s else st, ok)
  | .finish s, (_, ok) => (s, ok)

/-- The steps of a submission handler.  (/repo/asyncz/contrib/dashboard/history.py:184-185) -/
def submitSteps (skipped : Bool) : List Micro :=
  [.test, .write (if skipped then .maxInstances else .running)]

/-- The steps of an execution handler.  (/repo/asyncz/contrib/dashboard/history.py:227) -/
def executeSteps (c : Code) : List Micro := [.finish (statusOf c)]

/-- `l` is an interleaving of `a` and `b`.  (/repo/asyncz/contrib/dashboard/history.py:177-188,225-235) -/
inductive Merge {α : Type} : List α → List α → List α → Prop where
  | nil : Merge [] [] []
  | left {a b l : List α} (x : α) : Merge a b l → Merge (x :: a) b (x :: l)
  | right {a b l : List α} (x : α) : Merge a b l → Merge a (x :: b) (x :: l)

end Hist
end Asyncz
