import Verif.Model.Dashboard
/-!
# Model of task logging (/repo/asyncz/contrib/dashboard/logs/handler.py) and of the logs of a run
(/repo/asyncz/contrib/dashboard/history.py:363-389)
-/
namespace Asyncz
namespace Logs
open Listing (Text)
open Dash

/-- A value in the `extra` dictionary of a log call: `None`, or an object with its truth value and its `str`
(contrib/dashboard/logs/handler.py:17-34). -/
inductive V where
  | none
  | obj (truthy : Bool) (text : Text)
  deriving DecidableEq, Repr

/-- truth value (contrib/dashboard/logs/handler.py:22) -/
def V.isTrue : V → Bool
  | .none => false
  | .obj b _ => b

/-- `str(value)` (contrib/dashboard/logs/handler.py:23, logs/storage.py:199) -/
def V.text : V → Text
  | .none => "None".toList
  | .obj _ t => t

/-- `_TASK_ID_KEYS` (contrib/dashboard/logs/handler.py:11) -/
def taskIdKeys : List Text := ["task_id".toList, "job_id".toList, "asyncz_task_id".toList]

/-- A log record as the handler sees it: the attributes that come from `extra`, and the standard ones that are read;
`message`: `none` if `getMessage()` raises (contrib/dashboard/logs/handler.py:57-74). -/
structure Record where
  created : Int
  levelno : Nat
  level : Text
  name : Text
  message : Option Text
  attrs : Dict Text V

/-- the loop of `_extract_task_id` (contrib/dashboard/logs/handler.py:17-24); `getattr` and `__dict__` agree -/
def extractTaskId (attrs : Dict Text V) : List Text → Option Text
  | [] => none
  | k :: ks =>
    let v := (attrs.get? k).getD .none
    if v.isTrue then some v.text else extractTaskId attrs ks

/-- `_extract_extra` (contrib/dashboard/logs/handler.py:27-33); the standard attributes are not among `attrs` -/
def extractExtra (attrs : Dict Text V) : Dict Text V := attrs.filter fun p => !(p.1.head? = some '_')

/-- what the query reads of `extra` (contrib/dashboard/logs/handler.py:33, logs/storage.py:199): nothing if it is empty,
otherwise `str(extra.get("run_id"))` -/
def runIdOf (extra : Dict Text V) : Option Text :=
  if extra = [] then none else some ((extra.get? "run_id".toList).getD .none).text

/-- `TaskLogHandler.emit` (contrib/dashboard/logs/handler.py:57-74) on a `MemoryLogStorage`; an exception is suppressed -/
def emit (m : Nat) (buf : List LogEntry) (r : Record) : List LogEntry :=
  match r.message with
  | none => buf
  | some msg =>
    match coerceEntry r.created (.dict (.aware r.created) (some r.level) (some msg) (some r.name)
        (extractTaskId r.attrs taskIdKeys) (runIdOf (extractExtra r.attrs))) with
    | some e => logAppend m buf e
    | none => buf

/-! ## Loggers of tasks -/

/-- The argument `extra` of a log call: left out, `None`, or a dictionary object
(contrib/dashboard/logs/handler.py:86-103). -/
inductive Extra where
  | absent
  | isNone
  | dict (ref : Nat)
  deriving DecidableEq, Repr

/-- `d.setdefault(k, v)` (contrib/dashboard/logs/handler.py:102) -/
def setDefault (d : Dict Text V) (k : Text) (v : V) : Dict Text V :=
  match d.get? k with
  | some _ => d
  | none => d.set k v

/-- `TaskLoggerAdapter.process` (contrib/dashboard/logs/handler.py:86-103) of the logger of task `tid`; `heap` holds the
dictionaries of the program.  The attributes of the record and the heap; `none`: `None.setdefault` raises. -/
def process (tid : Text) (heap : Nat → Dict Text V) : Extra → Option (Dict Text V × (Nat → Dict Text V))
  | .absent => some (setDefault [] "task_id".toList (.obj (!tid.isEmpty) tid), heap)
  | .isNone => none
  | .dict r =>
    let d := setDefault (heap r) "task_id".toList (.obj (!tid.isEmpty) tid)
    some (d, fun r' => if r' = r then d else heap r')

/-- A history of log calls, each with the task whose logger is used: the attributes of the records, in order; `none` for a
call that raises (contrib/dashboard/logs/handler.py:86-122). -/
def logAll (heap : Nat → Dict Text V) : List (Text × Extra) → List (Option (Dict Text V))
  | [] => []
  | (tid, x) :: l =>
    match process tid heap x with
    | some (d, heap') => some d :: logAll heap' l
    | none => none :: logAll heap l

/-! ## Installing the handler -/

/-- The level of the logger "asyncz" (0: not set), the level of the root logger, and the handler installed: its level and
its storage (contrib/dashboard/logs/handler.py:125-155). -/
structure Setup where
  level : Nat
  root : Nat
  handler : Option (Nat × Nat)
  deriving DecidableEq, Repr

/-- `install_task_log_handler(storage, level)` (contrib/dashboard/logs/handler.py:129-155) -/
def install (s : Setup) (storage level : Nat) : Setup :=
  match s.handler with
  | some _ => { s with handler := some (level, storage) }
  | none => { s with level := min (if s.level = 0 then level else s.level) level, handler := some (level, storage) }

/-- Where a record of that level goes that is logged below "asyncz" (loggers there have no level of their own): the level of
the logger, or of the root logger if it is not set, and then the level of the handler
(contrib/dashboard/logs/handler.py:129-155; library `logging`). -/
def captured (s : Setup) (levelno : Nat) : Option Nat :=
  match s.handler with
  | none => none
  | some (h, storage) =>
    if levelno ≥ (if s.level = 0 then s.root else s.level) ∧ levelno ≥ h then some storage else none

/-! ## The logs of a run -/

/-- What `logs_for_run` reads of a run record (contrib/dashboard/history.py:26-47). -/
structure Run where
  runId : Text
  taskId : Text
  submittedAt : Option Int
  finishedAt : Option Int
  createdAt : Option Int
  updatedAt : Option Int

/-- the key by which entries count as the same (contrib/dashboard/history.py:382) -/
def keyOf (e : LogEntry) : Int × Text × Text × Text := (e.ts, e.level, e.logger, e.message)

/-- the loop that merges the two answers (contrib/dashboard/history.py:379-388) -/
def merge (limit : Int) (seen : List (Int × Text × Text × Text)) (out : List LogEntry) : List LogEntry → List LogEntry
  | [] => out
  | e :: l =>
    if keyOf e ∈ seen then merge limit seen out l
    else if ((out ++ [e]).length : Int) ≥ limit then out ++ [e]
    else merge limit (keyOf e :: seen) (out ++ [e]) l

/-- `a or b or c` for optional datetimes (contrib/dashboard/history.py:373-374) -/
def orElse3 (a b c : Option Int) : Option Int :=
  match a, b with
  | some x, _ => some x
  | none, some y => some y
  | none, none => c

/-- `logs_for_run` (contrib/dashboard/history.py:363-389) on a `MemoryLogStorage`; five seconds are 5 000 000 microseconds -/
def logsForRun (S : Str) (buf : List LogEntry) (now : Int) (r : Run) (limit : Int) : List LogEntry :=
  let direct := logQuery S buf ⟨none, some r.runId, none, none, none, none, limit⟩
  if (direct.length : Int) ≥ limit then direct.take limit.toNat
  else match orElse3 r.submittedAt r.finishedAt r.createdAt with
    | none => direct
    | some start =>
      let stop := (orElse3 r.finishedAt r.updatedAt (some now)).getD now
      let correlated := logQuery S buf ⟨some r.taskId, none, none, none, some (start - 5000000), some (stop + 5000000), limit⟩
      merge limit [] [] (direct ++ correlated)

end Logs
end Asyncz
