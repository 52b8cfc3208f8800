import Verif.Model.Listing
/-!
# Model of the remote control of a scheduler (/repo/asyncz/contrib/dashboard/remote.py)

The worker's scheduler is any object with the methods the control application calls.  A request is the text that
urllib sends (method, target, JSON body, token); the ASGI server's unquoting, the router's matching of path
segments and the library's parsing of the query string are modelled, the text form of JSON is not: bodies
are JSON values.
-/
namespace Asyncz
namespace Remote
open Listing (SState)

/-! ## Values -/

/-- A `datetime`: its instant (microseconds) and UTC offset.  (remote.py:218-219) -/
structure When where
  inst : Int
  offset : Int
  deriving DecidableEq, Repr

/-- JSON values as `json.loads` gives them; a `float` is known by a number.  (remote.py:205-224) -/
inductive Json where
  | null
  | bool (b : Bool)
  | int (n : Int)
  | float (x : Int)
  | str (s : String)
  | arr (xs : List Json)
  | obj (kv : List (String × Json))

/-- Python values given to the client or kept by tasks: `None`, booleans, numbers, strings, datetimes, enum members
(their value), objects with `model_dump` (what it returns; `none`: it raises), tuples, lists, dicts (with keys
already turned into strings) and other objects.  (remote.py:205-224) -/
inductive Val where
  | none
  | bool (b : Bool)
  | int (n : Int)
  | float (x : Int)
  | str (s : String)
  | datetime (w : When)
  | enum (value : String)
  | model (dump : Option Json)
  | tuple (xs : List Val)
  | list (xs : List Val)
  | dict (kv : List (String × Val))
  | object (n : Nat)

mutual
/-- `_dump_json` followed by `json.dumps` (remote.py:205-224, 616, JSONResponse), and equally pydantic's
`model_dump(mode="json")` of a value: `none` = it raises `TypeError`/`PydanticSerializationError`; `iso` is the text
given to a datetime. -/
def dumpJson (iso : When → String) : Val → Option Json
  | .none => some .null
  | .bool b => some (.bool b)
  | .int n => some (.int n)
  | .float x => some (.float x)
  | .str s => some (.str s)
  | .datetime w => some (.str (iso w))
  | .enum v => some (.str v)
  | .model d => d
  | .tuple xs => (dumpList iso xs).map .arr
  | .list xs => (dumpList iso xs).map .arr
  | .dict kv => (dumpItems iso kv).map .obj
  | .object _ => none

/-- the list comprehension.  (remote.py:220-221) -/
def dumpList (iso : When → String) : List Val → Option (List Json)
  | [] => some []
  | v :: l => match dumpJson iso v, dumpList iso l with
    | some j, some js => some (j :: js)
    | _, _ => none

/-- the dict comprehension.  (remote.py:222-223) -/
def dumpItems (iso : When → String) : List (String × Val) → Option (List (String × Json))
  | [] => some []
  | (k, v) :: l => match dumpJson iso v, dumpItems iso l with
    | some j, some js => some ((k, j) :: js)
    | _, _ => none
end

mutual
/-- a JSON value as the Python value `json.loads` makes of it.  (remote.py:289-297, 621) -/
def Json.py : Json → Val
  | .null => .none
  | .bool b => .bool b
  | .int n => .int n
  | .float x => .float x
  | .str s => .str s
  | .arr xs => .list (pyList xs)
  | .obj kv => .dict (pyItems kv)

/-- the items of a list.  (remote.py:289-297) -/
def pyList : List Json → List Val
  | [] => []
  | j :: l => j.py :: pyList l

/-- the items of a dict.  (remote.py:289-297) -/
def pyItems : List (String × Json) → List (String × Val)
  | [] => []
  | (k, j) :: l => (k, j.py) :: pyItems l
end

/-- `body.get(key)` (remote.py:426-448). -/
def field (key : String) (kv : List (String × Json)) : Option Json := (kv.find? fun p => p.1 == key).map (·.2)

/-- What crosses the boundary through libraries: texts of datetimes (`isoformat`, pydantic) and their parsing by
pydantic, and pickles of triggers in base64.  (remote.py:218-219, 227-247, 686) -/
structure Codec (γ : Type) where
  iso : When → String
  pyd : When → String
  parse : String → Option When
  pickle : γ → String
  unpickle : String → Option γ

/-! ## Snapshots -/

/-- `float | int` (tasks/inspection.py:43). -/
inductive Num where
  | int (n : Int)
  | float (x : Int)
  deriving DecidableEq, Repr

/-- `TaskInfo` (tasks/inspection.py:30-49). -/
structure Info where
  id : Option String
  name : Option String
  callableName : Option String
  callableRef : Option String
  triggerAlias : Option String
  triggerName : Option String
  triggerDesc : Option String
  executor : Option String
  storeAlias : Option String
  state : SState
  nextRun : Option When
  coalesce : Bool
  maxInst : Int
  grace : Option Num
  pending : Bool
  paused : Bool
  submitted : Bool
  args : List Val
  kwargs : List (String × Val)

/-- `TaskRunPreview` (tasks/inspection.py:52-67). -/
structure Preview where
  task : Info
  timezone : String
  generatedAt : When
  requested : Int
  runTimes : List When
  exhausted : Bool

/-- `str | None` as JSON.  (remote.py:214-215) -/
def strJson : Option String → Json
  | some s => .str s
  | none => .null

/-- `float | int | None` as JSON.  (remote.py:214-215) -/
def numJson : Option Num → Json
  | some (.int n) => .int n
  | some (.float x) => .float x
  | none => .null

/-- `TaskScheduleState` as JSON.  (remote.py:214-215, enums.py:15-35) -/
def stateJson : SState → Json
  | .pending => .str "pending"
  | .paused => .str "paused"
  | .scheduled => .str "scheduled"

variable {γ : Type}

/-- `datetime | None` as JSON.  (remote.py:214-215) -/
def whenJson (C : Codec γ) : Option When → Json
  | some w => .str (C.pyd w)
  | none => .null

/-- `task_info.model_dump(mode="json")` (remote.py:214-215); `none`: an argument of the task is not
serialisable and it raises. -/
def infoJson (C : Codec γ) (i : Info) : Option Json :=
  match dumpList C.pyd i.args, dumpItems C.pyd i.kwargs with
  | some args, some kwargs => some (.obj [
      ("id", strJson i.id), ("name", strJson i.name), ("callable_name", strJson i.callableName),
      ("callable_reference", strJson i.callableRef), ("trigger_alias", strJson i.triggerAlias),
      ("trigger_name", strJson i.triggerName), ("trigger_description", strJson i.triggerDesc),
      ("executor", strJson i.executor), ("store_alias", strJson i.storeAlias), ("schedule_state", stateJson i.state),
      ("next_run_time", whenJson C i.nextRun), ("coalesce", .bool i.coalesce), ("max_instances", .int i.maxInst),
      ("mistrigger_grace_time", numJson i.grace), ("pending", .bool i.pending), ("paused", .bool i.paused),
      ("submitted", .bool i.submitted), ("args", .arr args), ("kwargs", .obj kwargs)])
  | _, _ => none

/-- the dumps of a list of snapshots.  (remote.py:220-221) -/
def infosJson (C : Codec γ) : List Info → Option (List Json)
  | [] => some []
  | i :: l => match infoJson C i, infosJson C l with
    | some j, some js => some (j :: js)
    | _, _ => none

/-- `preview.model_dump(mode="json")` (remote.py:214-215). -/
def previewJson (C : Codec γ) (p : Preview) : Option Json :=
  (infoJson C p.task).map fun t => .obj [
    ("task", t), ("timezone", .str p.timezone), ("generated_at", .str (C.pyd p.generatedAt)),
    ("requested_count", .int p.requested), ("run_times", .arr (p.runTimes.map fun w => .str (C.pyd w))),
    ("exhausted", .bool p.exhausted)]

/-! Reading them back: `model_validate` on the values that the dumps produce; coercions of other values are not
modelled (a value of another type is refused). -/

/-- a field of type `str | None`.  (remote.py:686, 741) -/
def asStr : Option Json → Option (Option String)
  | some (.str s) => some (some s)
  | some .null => some none
  | _ => none

/-- a field of type `bool`.  (remote.py:686, 741) -/
def asBool : Option Json → Option Bool
  | some (.bool b) => some b
  | _ => none

/-- a field of type `int`.  (remote.py:686, 741) -/
def asInt : Option Json → Option Int
  | some (.int n) => some n
  | _ => none

/-- a field of type `float | int | None`.  (remote.py:686, 741) -/
def asNum : Option Json → Option (Option Num)
  | some (.int n) => some (some (.int n))
  | some (.float x) => some (some (.float x))
  | some .null => some none
  | _ => none

/-- a field of type `TaskScheduleState`.  (remote.py:686, 741) -/
def asState : Option Json → Option SState
  | some (.str s) =>
    if s = "pending" then some .pending else if s = "paused" then some .paused
    else if s = "scheduled" then some .scheduled else none
  | _ => none

/-- a field of type `datetime`.  (remote.py:686, 741) -/
def asWhen (C : Codec γ) : Option Json → Option When
  | some (.str s) => C.parse s
  | _ => none

/-- a field of type `datetime | None`.  (remote.py:686, 741) -/
def asWhenOpt (C : Codec γ) : Option Json → Option (Option When)
  | some .null => some none
  | some (.str s) => (C.parse s).map some
  | _ => none

/-- a field of type `tuple[datetime, ...]`.  (remote.py:812) -/
def asWhens (C : Codec γ) : List Json → Option (List When)
  | [] => some []
  | j :: l => match asWhen C (some j), asWhens C l with
    | some w, some ws => some (w :: ws)
    | _, _ => none

/-- `TaskInfo.model_validate(data)` (remote.py:686). -/
def infoOf (C : Codec γ) : Json → Option Info
  | .obj kv => do
    let id ← asStr (field "id" kv)
    let name ← asStr (field "name" kv)
    let callableName ← asStr (field "callable_name" kv)
    let callableRef ← asStr (field "callable_reference" kv)
    let triggerAlias ← asStr (field "trigger_alias" kv)
    let triggerName ← asStr (field "trigger_name" kv)
    let triggerDesc ← asStr (field "trigger_description" kv)
    let executor ← asStr (field "executor" kv)
    let storeAlias ← asStr (field "store_alias" kv)
    let state ← asState (field "schedule_state" kv)
    let nextRun ← asWhenOpt C (field "next_run_time" kv)
    let coalesce ← asBool (field "coalesce" kv)
    let maxInst ← asInt (field "max_instances" kv)
    let grace ← asNum (field "mistrigger_grace_time" kv)
    let pending ← asBool (field "pending" kv)
    let paused ← asBool (field "paused" kv)
    let submitted ← asBool (field "submitted" kv)
    match field "args" kv, field "kwargs" kv with
    | some (.arr args), some (.obj kwargs) => some {
        id, name, callableName, callableRef, triggerAlias, triggerName, triggerDesc, executor, storeAlias, state,
        nextRun, coalesce, maxInst, grace, pending, paused, submitted, args := pyList args,
        kwargs := pyItems kwargs }
    | _, _ => none
  | _ => none

/-- `[TaskInfo.model_validate(item) for item in data]` (remote.py:741). -/
def infosOf (C : Codec γ) : List Json → Option (List Info)
  | [] => some []
  | j :: l => match infoOf C j, infosOf C l with
    | some i, some is => some (i :: is)
    | _, _ => none

/-- `TaskRunPreview.model_validate(data)` (remote.py:812). -/
def previewOf (C : Codec γ) : Json → Option Preview
  | .obj kv => do
    let task ← (field "task" kv).bind (infoOf C)
    let timezone ← (asStr (field "timezone" kv)).join
    let generatedAt ← asWhen C (field "generated_at" kv)
    let requested ← asInt (field "requested_count" kv)
    let exhausted ← asBool (field "exhausted" kv)
    match field "run_times" kv with
    | some (.arr l) => (asWhens C l).map fun ws =>
        { task, timezone, generatedAt, requested, runTimes := ws, exhausted }
    | _ => none
  | _ => none

/-! ## The scheduler of the worker -/

/-- What a call raises: the exceptions the client translates, any other (class name and `str(exc)`), and what only the
client raises: `RemoteSchedulerError`, `json.JSONDecodeError` for an answer that is not JSON (or a
`ValidationError` for one that is not a snapshot), `TypeError` for a payload that is not JSON.
(remote.py:45-52, 261-278, 660-674) -/
inductive Exc where
  | lookup (id : Option String)
  | notRunning
  | maxInst (id : String) (total : Int)
  | value (msg : String)
  | other (cls msg : String)
  | remote (msg : String)
  | badReply
  | unsendable
  deriving DecidableEq, Repr

/-- `exc.__class__.__name__` (remote.py:270). -/
def Exc.cls : Exc → String
  | .lookup _ => "TaskLookupError"
  | .notRunning => "SchedulerNotRunningError"
  | .maxInst _ _ => "MaximumInstancesError"
  | .value _ => "ValueError"
  | .other cls _ => cls
  | .remote _ => "RemoteSchedulerError"
  | .badReply => "JSONDecodeError"
  | .unsendable => "TypeError"

/-- `str(exc)` (remote.py:271, exceptions.py:57-118); the messages of the last two are not modelled. -/
def Exc.msg : Exc → String
  | .lookup id => "No task with the id " ++ id.getD "None" ++ " has been found."
  | .notRunning => "Scheduler is not running"
  | .maxInst id total =>
    "The task by the id of " ++ id ++ " reached its maximum number of instances " ++ toString total ++ "."
  | .value msg => msg
  | .other _ msg => msg
  | .remote msg => msg
  | .badReply => "Expecting value"
  | .unsendable => "not JSON serializable"

/-- The keyword arguments of `get_task_infos`; a `TaskScheduleState` member is given by its value.
(remote.py:709-719) -/
structure Filter where
  store : Option String
  state : Option String
  executor : Option String
  trigger : Option String
  q : Option String
  sortBy : String
  desc : Bool
  deriving DecidableEq

/-- The `trigger` argument of `add_task`: a name or `None`, or a trigger object.  (remote.py:817, 849-853) -/
inductive TrigArg (γ : Type) where
  | name (n : Option String)
  | object (g : γ)

/-- The arguments of `add_task` (remote.py:814-831); for the last group the outer `none` is `undefined`.  Absent `args`
and `kwargs` are empty (schedulers/base.py:607-608); `None` and `undefined` for `store` and `executor` mean the
same (base.py:616-617). -/
structure Add (γ : Type) where
  fn : String
  trigger : TrigArg γ
  args : List Val
  kwargs : List (String × Val)
  trigArgs : List (String × Val)
  replace : Bool
  id : Option String
  name : Option String
  store : Option String
  executor : Option String
  grace : Option Val
  coalesce : Option Val
  maxInst : Option Val
  nextRun : Option Val

/-- The result of a call: a value or an exception, and the state of the scheduler afterwards.
(schedulers/base.py:491-1234) -/
abbrev Result (σ α : Type) := Except Exc α × σ

/-- The methods of the worker's scheduler that the control application calls; tasks that are returned are given by
their `snapshot()`; `SchedulerInfo` and `SchedulerInstanceInfo` by their JSON.
(remote.py:327-516, schedulers/base.py:491-1234) -/
structure Api (σ γ : Type) where
  info : σ → Result σ Json
  instances : σ → Result σ (List Json)
  infos : Filter → σ → Result σ (List Info)
  detail : String → Option String → σ → Result σ (Option Info)
  preview : String → Option String → Int → Option When → σ → Result σ (Option Preview)
  add : Add γ → σ → Result σ Info
  update : String → Option String → List (String × Val) → σ → Result σ Info
  run : String → Option String → Bool → Bool → σ → Result σ (Option Info)
  pause : String → Option String → σ → Result σ Info
  resume : String → Option String → σ → Result σ (Option Info)
  remove : String → Option String → σ → Result σ Unit

/-! ## Texts on the wire -/

/-- `_ALWAYS_SAFE`: letters, digits and `_.-~`.  (urllib.parse, used in remote.py:753, 615) -/
def safeByte (b : UInt8) : Bool :=
  (65 ≤ b && b ≤ 90) || (97 ≤ b && b ≤ 122) || (48 ≤ b && b ≤ 57) || b == 95 || b == 46 || b == 45 || b == 126

/-- an upper-case hexadecimal digit.  (urllib.parse, used in remote.py:753) -/
def hexChar (n : Nat) : Char := if n < 10 then Char.ofNat (48 + n) else Char.ofNat (55 + n)

/-- the value of a hexadecimal digit.  (urllib.parse, used by the server, /repo/asyncz/contrib/dashboard/remote.py:361, 518-539) -/
def hexVal (c : Char) : Option Nat :=
  let n := c.toNat
  if 48 ≤ n && n ≤ 57 then some (n - 48)
  else if 65 ≤ n && n ≤ 70 then some (n - 55)
  else if 97 ≤ n && n ≤ 102 then some (n - 87)
  else none

/-- one byte quoted; `plus`: a space becomes `+` (`quote_plus`).  (urllib.parse, used in remote.py:753, 615) -/
def quoteByte (plus : Bool) (b : UInt8) : List Char :=
  if safeByte b then [Char.ofNat b.toNat]
  else if plus && b == 32 then ['+']
  else ['%', hexChar (b.toNat / 16), hexChar (b.toNat % 16)]

/-- `urllib.parse.quote(s, safe="")` (remote.py:753), and `quote_plus(s)` of `urlencode` (remote.py:615). -/
def quote (plus : Bool) (s : String) : List Char :=
  (s.toList.flatMap String.utf8EncodeChar).flatMap (quoteByte plus)

/-- `unquote_to_bytes` on ASCII text, `+` read as a space if `plus`.  (urllib.parse, used by the server, /repo/asyncz/contrib/dashboard/remote.py:361, 518-539) -/
def unquoteBytes (plus : Bool) : List Char → List UInt8
  | [] => []
  | '%' :: a :: b :: l => match hexVal a, hexVal b with
    | some x, some y => UInt8.ofNat (x * 16 + y) :: unquoteBytes plus l
    | _, _ => 37 :: unquoteBytes plus (a :: b :: l)
  | c :: l => (if plus && c == '+' then 32 else UInt8.ofNat c.toNat) :: unquoteBytes plus l

/-- `unquote`; `none`: the bytes are not UTF-8 (the replacement characters of the library are not modelled).
(urllib.parse, used by the server, /repo/asyncz/contrib/dashboard/remote.py:361, 518-539) -/
def unquote (plus : Bool) (l : List Char) : Option String :=
  (ByteArray.mk (unquoteBytes plus l).toArray).utf8Decode?.map fun cs => String.ofList cs.toList

/-- `str.split(sep)` for one character.  (router and query parsing, remote.py:361, 518-539) -/
def split (sep : Char) : List Char → List (List Char)
  | [] => [[]]
  | c :: l =>
    if c = sep then [] :: split sep l
    else match split sep l with
      | [] => [[c]]
      | x :: xs => (c :: x) :: xs

/-- `urllib.parse.urlencode(query)` (remote.py:615). -/
def urlencode : List (String × String) → List Char
  | [] => []
  | [(k, v)] => quote true k ++ '=' :: quote true v
  | (k, v) :: l => quote true k ++ '=' :: quote true v ++ '&' :: urlencode l

/-- one `name=value` of a query string.  (the library's `parse_qsl`, remote.py:361) -/
def parsePair (p : List Char) : Option (String × String) :=
  match unquote true (p.takeWhile (· ≠ '=')), unquote true ((p.dropWhile (· ≠ '=')).drop 1) with
  | some k, some v => some (k, v)
  | _, _ => none

/-- `parse_qsl(query, keep_blank_values=True)` (request.query_params, remote.py:361). -/
def parseQuery (q : List Char) : List (String × String) :=
  ((split '&' q).filter (· ≠ [])).filterMap parsePair

/-- `params.get(key)` (remote.py:362-371). -/
def param (key : String) (q : List (String × String)) : Option String := (q.find? fun p => p.1 == key).map (·.2)

/-- `params.get(key) or None` (remote.py:366-370). -/
def paramOrNone (key : String) (q : List (String × String)) : Option String :=
  match param key q with
  | some s => if s = "" then none else some s
  | none => none

/-! ## The control application -/

/-- A request as it arrives: method, target (path and query, quoted), JSON body if any and the token header.
(remote.py:597-626) -/
structure Req where
  method : String
  target : List Char
  body : Option Json
  token : Option String

/-- A response: JSON with a status, or a status with a body that is not JSON (the router's 404 and 405, and the
server's 500 after an uncaught exception).  (remote.py:250-278) -/
inductive Reply where
  | json (status : Nat) (body : Json)
  | text (status : Nat)

/-- `_success(data)` (remote.py:250-258) for data whose dump is given; `none`: the dump raises. -/
def success (data : Json) : Reply := .json 200 (.obj [("data", data)])

/-- the payload of an error answer (remote.py:269-277) -/
def errorEntries (e : Exc) (taskId : Option String) : List (String × Json) :=
  [("error", .str e.cls), ("message", .str e.msg)] ++
    match e with
    | .maxInst id total => [("task_id", .str id), ("max_instances", .int total)]
    | _ => match taskId with
      | some id => [("task_id", .str id)]
      | none => []

/-- `_error(exc, status_code=…, task_id=…)` (remote.py:261-278). -/
def errorReply (e : Exc) (status : Nat) (taskId : Option String) : Reply := .json status (.obj (errorEntries e taskId))

/-- `TypeError`/`PydanticSerializationError` of a dump (remote.py:258). -/
def dumpFailed : Exc := .other "PydanticSerializationError" "Unable to serialize"

/-- the status of an exception caught by `task_action` (remote.py:508-515) -/
def actionStatus : Exc → Nat
  | .lookup _ => 404
  | .notRunning => 409
  | .maxInst _ _ => 409
  | _ => 400

/-- the status of an exception caught by `update_task` (remote.py:471-474) -/
def updateStatus : Exc → Nat
  | .lookup _ => 404
  | _ => 400

variable {σ : Type}

/-- `info` (remote.py:327-337).  An exception is not caught here. -/
def hInfo (A : Api σ γ) (s : σ) : Reply × σ :=
  match A.info s with
  | (.ok j, s') => (success j, s')
  | (.error _, s') => (.text 500, s')

/-- `instances` (remote.py:339-349) -/
def hInstances (A : Api σ γ) (s : σ) : Reply × σ :=
  match A.instances s with
  | (.ok l, s') => (success (.arr l), s')
  | (.error _, s') => (.text 500, s')

/-- `str(params.get("descending", "")).lower() in {"1", "true", "yes"}` (remote.py:362) on ASCII text. -/
def isTrue (v : Option String) : Bool :=
  ["1".toList, "true".toList, "yes".toList].contains ((v.getD "").toList.map Char.toLower)

/-- `tasks` (remote.py:351-376); the dump is inside the `try`. -/
def hTasks (C : Codec γ) (A : Api σ γ) (q : List (String × String)) (s : σ) : Reply × σ :=
  match A.infos ⟨paramOrNone "store" q, paramOrNone "schedule_state" q, paramOrNone "executor" q,
      paramOrNone "trigger" q, paramOrNone "q" q, (paramOrNone "sort_by" q).getD "next_run_time",
      isTrue (param "descending" q)⟩ s with
  | (.ok l, s') => match infosJson C l with
    | some js => (success (.arr js), s')
    | none => (errorReply dumpFailed 400 none, s')
  | (.error e, s') => (errorReply e 400 none, s')

/-- `task_detail` (remote.py:378-392); exceptions of the call and of the dump are not caught. -/
def hDetail (C : Codec γ) (A : Api σ γ) (id : String) (q : List (String × String)) (s : σ) : Reply × σ :=
  match A.detail id (paramOrNone "store" q) s with
  | (.ok none, s') => (errorReply (.lookup (some id)) 404 (some id), s')
  | (.ok (some i), s') => match infoJson C i with
    | some j => (success j, s')
    | none => (.text 500, s')
  | (.error _, s') => (.text 500, s')

/-- `preview` (remote.py:394-413); `now` is not read.  A count that is no number is an uncaught `ValueError`. -/
def hPreview (C : Codec γ) (A : Api σ γ) (id : String) (q : List (String × String)) (s : σ) : Reply × σ :=
  match (paramOrNone "count" q).elim (some 5) String.toInt? with
  | none => (.text 500, s)
  | some count => match A.preview id (paramOrNone "store" q) count none s with
    | (.ok none, s') => (errorReply (.lookup (some id)) 404 (some id), s')
    | (.ok (some p), s') => match previewJson C p with
      | some j => (success j, s')
      | none => (.text 500, s')
    | (.error _, s') => (.text 500, s')

/-- `_json_body` (remote.py:281-297): the object sent, `{}` for no body; `none`: it is not an object and `ValueError`
is raised (outside the handlers' `try`). -/
def jsonBody : Option Json → Option (List (String × Json))
  | none => some []
  | some .null => some []
  | some (.obj kv) => some kv
  | some _ => none

/-- `dict(body.get(key) or {})` (remote.py:427, 469); `none`: a value that is no mapping, `dict()` raises -/
def dictField (key : String) (kv : List (String × Json)) : Option (List (String × Val)) :=
  match field key kv with
  | none => some []
  | some .null => some []
  | some (.obj d) => some (pyItems d)
  | some _ => none

/-- a body entry that is a string; other values are not modelled (absent).  (remote.py:432-448) -/
def strField (key : String) (kv : List (String × Json)) : Option String :=
  match field key kv with
  | some (.str s) => some s
  | _ => none

/-- `list` entries of the body.  (remote.py:432-448) -/
def listField (key : String) (kv : List (String × Json)) : List Val :=
  match field key kv with
  | some (.arr l) => pyList l
  | _ => []

/-- `bool(body.get(key, default))` for boolean entries.  (remote.py:496-497) -/
def boolField (key : String) (default : Bool) (kv : List (String × Json)) : Bool :=
  match field key kv with
  | some (.bool b) => b
  | _ => default

/-- the trigger of an `add_task` request (remote.py:428-431); `none`: unpickling raises -/
def triggerField (C : Codec γ) (kv : List (String × Json)) : Option (TrigArg γ) :=
  match strField "trigger_pickle" kv with
  | some p => if p = "" then some (.name (strField "trigger" kv)) else (C.unpickle p).map .object
  | none => some (.name (strField "trigger" kv))

/-- `add_task` (remote.py:415-453). -/
def hAdd (C : Codec γ) (A : Api σ γ) (body : Option Json) (s : σ) : Reply × σ :=
  match jsonBody body with
  | none => (.text 500, s)
  | some kv => match dictField "trigger_args" kv, triggerField C kv with
    | some trigArgs, some trigger =>
      match A.add {
          fn := (strField "fn" kv).getD "", trigger, trigArgs,
          args := listField "args" kv, kwargs := (dictField "kwargs" kv).getD [],
          replace := boolField "replace_existing" false kv,
          id := strField "id" kv, name := strField "name" kv, store := strField "store" kv,
          executor := strField "executor" kv,
          grace := (field "mistrigger_grace_time" kv).map Json.py, coalesce := (field "coalesce" kv).map Json.py,
          maxInst := (field "max_instances" kv).map Json.py, nextRun := (field "next_run_time" kv).map Json.py } s with
      | (.error e, s') => (errorReply e 400 none, s')
      | (.ok i, s') => match infoJson C i with
        | some j => (success j, s')
        | none => (.text 500, s')
    | _, _ => (.text 500, s)

/-- `update_task` (remote.py:455-475). -/
def hUpdate (C : Codec γ) (A : Api σ γ) (id : String) (body : Option Json) (s : σ) : Reply × σ :=
  match jsonBody body with
  | none => (.text 500, s)
  | some kv => match dictField "updates" kv with
    | none => (errorReply (.value "dictionary update sequence") 400 (some id), s)
    | some updates => match A.update id (strField "store" kv) updates s with
      | (.error e, s') => (errorReply e (updateStatus e) (some id), s')
      | (.ok i, s') => match infoJson C i with
        | some j => (success j, s')
        | none => (.text 500, s')

/-- the answer with a snapshot inside the `try` of `task_action` (remote.py:499, 501, 504) -/
def snapshotReply (C : Codec γ) (id : String) : Option Info → Reply
  | none => success .null
  | some i => match infoJson C i with
    | some j => success j
    | none => errorReply dumpFailed 400 (some id)

/-- `task_action` (remote.py:477-516). -/
def hAction (C : Codec γ) (A : Api σ γ) (id action : String) (body : Option Json) (s : σ) : Reply × σ :=
  match jsonBody body with
  | none => (.text 500, s)
  | some kv =>
    let store := strField "store" kv
    if action = "run" then
      match A.run id store (boolField "force" true kv) (boolField "remove_finished" true kv) s with
      | (.ok o, s') => (snapshotReply C id o, s')
      | (.error e, s') => (errorReply e (actionStatus e) (some id), s')
    else if action = "pause" then
      match A.pause id store s with
      | (.ok i, s') => (snapshotReply C id (some i), s')
      | (.error e, s') => (errorReply e (actionStatus e) (some id), s')
    else if action = "resume" then
      match A.resume id store s with
      | (.ok o, s') => (snapshotReply C id o, s')
      | (.error e, s') => (errorReply e (actionStatus e) (some id), s')
    else if action = "remove" then
      match A.remove id store s with
      | (.ok _, s') => (success .null, s')
      | (.error e, s') => (errorReply e (actionStatus e) (some id), s')
    else (errorReply (.value ("Unsupported task action: " ++ action)) 404 none, s)

/-- A handler with the path parameters the router gives it.  (remote.py:518-539) -/
inductive Endpoint where
  | info | instances | tasks | addTask
  | detail (id : String)
  | update (id : String)
  | preview (id : String)
  | action (id action : String)
  deriving DecidableEq, Repr

/-- A segment of a path template; `{x:str}` takes one non-empty segment.  (remote.py:518-539) -/
inductive Seg where
  | lit (s : String)
  | param
  deriving DecidableEq

/-- the parameters of a template in a path, segment by segment.  (the router, remote.py:518-539) -/
def matchSegs : List Seg → List (List Char) → Option (List String)
  | [], [] => some []
  | .lit t :: ts, p :: ps => if p = t.toList then matchSegs ts ps else none
  | .param :: ts, p :: ps => if p = [] then none else (matchSegs ts ps).map (String.ofList p :: ·)
  | _, _ => none

/-- The route table (remote.py:518-539): template, method, handler. -/
def routes : List (List Seg × String × (List String → Option Endpoint)) := [
  ([.lit "info"], "GET", fun _ => some .info),
  ([.lit "instances"], "GET", fun _ => some .instances),
  ([.lit "tasks"], "GET", fun _ => some .tasks),
  ([.lit "tasks"], "POST", fun _ => some .addTask),
  ([.lit "tasks", .param], "GET", fun | [id] => some (.detail id) | _ => none),
  ([.lit "tasks", .param], "PATCH", fun | [id] => some (.update id) | _ => none),
  ([.lit "tasks", .param, .lit "preview"], "GET", fun | [id] => some (.preview id) | _ => none),
  ([.lit "tasks", .param, .param], "POST", fun | [id, a] => some (.action id a) | _ => none)]

/-- What the router does with a path: the first route whose template and method match, 405 if only templates match,
else 404 (its redirect for a trailing slash is not modelled).  (the library, remote.py:518-539) -/
def dispatch (method : String) (segs : List (List Char)) : Nat ⊕ Endpoint :=
  match routes.findSome? fun r => if r.2.1 = method then (matchSegs r.1 segs).bind r.2.2 else none with
  | some e => .inr e
  | none => if routes.any fun r => (matchSegs r.1 segs).isSome then .inl 405 else .inl 404

/-- the segments of a decoded path: what follows the leading slash, split.  (the router, remote.py:518-539) -/
def segments (path : List Char) : List (List Char) :=
  match path with
  | '/' :: p => split '/' p
  | p => split '/' p

/-- `_require_token` (remote.py:300-315): `true` if the request may proceed. -/
def tokenOk (token given : Option String) : Bool :=
  match token with
  | none => true
  | some t => given == some t

/-- the 401 answer (remote.py:313-315) -/
def unauthorized : Reply :=
  .json 401 (.obj [("error", .str "Unauthorized"), ("message", .str "Invalid remote token.")])

/-- The handler of an endpoint, after the token check.  (remote.py:327-516) -/
def handle (C : Codec γ) (A : Api σ γ) (query : List (String × String)) (body : Option Json) (e : Endpoint) (s : σ) :
    Reply × σ :=
  match e with
  | .info => hInfo A s
  | .instances => hInstances A s
  | .tasks => hTasks C A query s
  | .addTask => hAdd C A body s
  | .detail id => hDetail C A id query s
  | .update id => hUpdate C A id body s
  | .preview id => hPreview C A id query s
  | .action id a => hAction C A id a body s

/-- The control application (remote.py:318-539): server, router, token and handler. -/
def serve (C : Codec γ) (A : Api σ γ) (token : Option String) (r : Req) (s : σ) : Reply × σ :=
  let query := parseQuery ((r.target.dropWhile (· ≠ '?')).drop 1)
  match unquote false (r.target.takeWhile (· ≠ '?')) with
  | none => (.text 404, s)
  | some path => match dispatch r.method (segments path.toList) with
    | .inl status => (.text status, s)
    | .inr e => if tokenOk token r.token = false then (unauthorized, s) else handle C A query r.body e s

/-! ## The client -/

/-- A call of the client's methods (remote.py:688-964). -/
inductive Op (γ : Type) where
  | info
  | instances
  | infos (f : Filter)
  | detail (id : String) (store : Option String)
  | preview (id : String) (store : Option String) (count : Int) (now : Option When)
  | add (a : Add γ)
  | update (id : String) (store : Option String) (updates : List (String × Val))
  | run (id : String) (store : Option String) (force removeFinished : Bool)
  | pause (id : String) (store : Option String)
  | resume (id : String) (store : Option String)
  | remove (id : String) (store : Option String)

/-- What a call returns.  Task proxies are given by the snapshot they hold.  (remote.py:688-964) -/
inductive Ret where
  | info (j : Json)
  | instances (l : List Json)
  | infos (l : List Info)
  | task (o : Option Info)
  | preview (o : Option Preview)
  | done

/-- the entries of a query that are neither `None` nor empty.  (remote.py:727-740) -/
def given (k : String) (v : Option String) : List (String × String) :=
  match v with
  | some s => if s = "" then [] else [(k, s)]
  | none => []

/-- the target of a request: path and query.  (remote.py:613-615) -/
def target (path : List Char) (query : List (String × String)) : List Char :=
  if query = [] then path else path ++ '?' :: urlencode query

/-- `f"/tasks/{quote(task_id, safe='')}" + rest` (remote.py:753). -/
def taskPath (id : String) (rest : String) : List Char :=
  "/tasks/".toList ++ quote false id ++ rest.toList

/-- `{"store": store, …}` (remote.py:886, 911, 928). -/
def storeJson (store : Option String) : String × Json := ("store", strJson store)

/-- an optional entry of the payload: `undefined` and `None` are left out; the inner `none`: not serialisable.
(remote.py:854-866) -/
def optEntry (C : Codec γ) (k : String) : Option Val → Option (List (String × Json))
  | none => some []
  | some .none => some []
  | some v => (dumpJson C.iso v).map fun j => [(k, j)]

/-- an optional string entry of the payload.  (remote.py:854-866) -/
def optStr (k : String) : Option String → List (String × Json)
  | none => []
  | some s => [(k, .str s)]

/-- the trigger entries of the payload (remote.py:849-853): the arguments are left out for trigger objects -/
def triggerEntries (C : Codec γ) (trigArgs : List (String × Val)) : TrigArg γ → Option (List (String × Json))
  | .name n => (dumpItems C.iso trigArgs).map fun d => [("trigger", strJson n), ("trigger_args", .obj d)]
  | .object g => some [("trigger_pickle", .str (C.pickle g))]

/-- the payload of `add_task` (remote.py:843-866); `none`: `json.dumps` raises `TypeError` -/
def addPayload (C : Codec γ) (a : Add γ) : Option Json := do
  let args ← dumpList C.iso a.args
  let kwargs ← dumpItems C.iso a.kwargs
  let trig ← triggerEntries C a.trigArgs a.trigger
  let grace ← optEntry C "mistrigger_grace_time" a.grace
  let coalesce ← optEntry C "coalesce" a.coalesce
  let maxInst ← optEntry C "max_instances" a.maxInst
  let nextRun ← optEntry C "next_run_time" a.nextRun
  some (.obj ([("fn", .str a.fn), ("args", .arr args), ("kwargs", .obj kwargs), ("replace_existing", .bool a.replace)] ++
    trig ++ optStr "id" a.id ++ optStr "name" a.name ++ grace ++ coalesce ++ maxInst ++ nextRun ++
    optStr "store" a.store ++ optStr "executor" a.executor))

/-- The request of each method; `none`: the payload cannot be sent.  (remote.py:688-964) -/
def request (C : Codec γ) (token : Option String) : Op γ → Option Req
  | .info => some ⟨"GET", "/info".toList, none, token⟩
  | .instances => some ⟨"GET", "/instances".toList, none, token⟩
  | .infos f => some ⟨"GET", target "/tasks".toList
      (given "store" f.store ++ given "schedule_state" f.state ++ given "executor" f.executor ++
       given "trigger" f.trigger ++ given "q" f.q ++ given "sort_by" (some f.sortBy) ++
       given "descending" (some (if f.desc then "true" else "false"))), none, token⟩
  | .detail id store => some ⟨"GET", target (taskPath id "") (given "store" store), none, token⟩
  | .preview id store count now => some ⟨"GET", target (taskPath id "/preview")
      (("count", count.repr) :: given "store" store ++
       match now with | some w => [("now", C.iso w)] | none => []), none, token⟩
  | .add a => (addPayload C a).map fun j => ⟨"POST", "/tasks".toList, some j, token⟩
  | .update id store updates => (dumpItems C.iso updates).map fun d =>
      ⟨"PATCH", taskPath id "", some (.obj [storeJson store, ("updates", .obj d)]), token⟩
  | .run id store force rf => some ⟨"POST", taskPath id "/run",
      some (.obj [storeJson store, ("force", .bool force), ("remove_finished", .bool rf)]), token⟩
  | .pause id store => some ⟨"POST", taskPath id "/pause", some (.obj [storeJson store]), token⟩
  | .resume id store => some ⟨"POST", taskPath id "/resume", some (.obj [storeJson store]), token⟩
  | .remove id store => some ⟨"POST", taskPath id "/remove", some (.obj [storeJson store]), token⟩

/-- `str(response.get("message") or error or …)` (remote.py:661). -/
def messageOf (kv : List (String × Json)) : String :=
  match strField "message" kv with
  | some m => if m ≠ "" then m else match strField "error" kv with
    | some e => if e ≠ "" then e else "Remote scheduler error."
    | none => "Remote scheduler error."
  | none => match strField "error" kv with
    | some e => if e ≠ "" then e else "Remote scheduler error."
    | none => "Remote scheduler error."

/-- `_raise_remote_error` (remote.py:652-674). -/
def remoteError (kv : List (String × Json)) : Exc :=
  match strField "error" kv with
  | some e =>
    if e = "TaskLookupError" then .lookup (strField "task_id" kv)
    else if e = "SchedulerNotRunningError" then .notRunning
    else if e = "MaximumInstancesError" then
      .maxInst (match strField "task_id" kv with
        | some id => if id = "" then "unknown" else id
        | none => "unknown") ((asInt (field "max_instances" kv)).getD 0)
    else if e = "ValueError" then .value (messageOf kv)
    else .remote (messageOf kv)
  | none => .remote (messageOf kv)

/-- `_request` after the answer (remote.py:648-650): the `data` field or an exception. -/
def received : Reply → Except Exc Json
  | .json status (.obj kv) =>
    if status < 400 then .ok ((field "data" kv).getD .null) else .error (remoteError kv)
  | .json _ _ => .error .badReply
  | .text _ => .error .badReply

/-- `_task_from_data` and the conversions of each method (remote.py:676-686, 696, 707, 741, 758, 812, 867-870, 888-889,
902-903, 919-921, 939-940, 964). -/
def decode (C : Codec γ) : Op γ → Except Exc Json → Except Exc Ret
  | .info, .ok j => .ok (.info j)
  | .instances, .ok (.arr l) => .ok (.instances l)
  | .infos _, .ok (.arr l) => match infosOf C l with
    | some is => .ok (.infos is)
    | none => .error .badReply
  | .detail _ _, .error (.lookup _) => .ok (.task none)
  | .detail _ _, .ok j => match infoOf C j with
    | some i => .ok (.task (some i))
    | none => .error .badReply
  | .preview _ _ _ _, .error (.lookup _) => .ok (.preview none)
  | .preview _ _ _ _, .ok j => match previewOf C j with
    | some p => .ok (.preview (some p))
    | none => .error .badReply
  | .run _ _ _ _, .ok .null => .ok (.task none)
  | .resume _ _, .ok .null => .ok (.task none)
  | .remove _ _, .ok _ => .ok .done
  | .add _, .ok j | .update _ _ _, .ok j | .run _ _ _ _, .ok j | .pause _ _, .ok j | .resume _ _, .ok j =>
    match infoOf C j with
    | some i => .ok (.task (some i))
    | none => .error .badReply
  | .instances, .ok _ | .infos _, .ok _ => .error .badReply
  | _, .error e => .error e

/-- A method of the client: send the request, let the worker answer, translate the answer.  The transport does not
fail (a failure is a `RemoteSchedulerError`, remote.py:625-626).  (remote.py:628-964) -/
def remote (C : Codec γ) (A : Api σ γ) (workerToken clientToken : Option String) (op : Op γ) (s : σ) :
    Except Exc Ret × σ :=
  match request C clientToken op with
  | none => (.error .unsendable, s)
  | some r =>
    let (reply, s') := serve C A workerToken r s
    (decode C op (received reply), s')

/-! ## Task proxies -/

/-- The attributes of a `RemoteTask` (remote.py:64-88) that can be changed, and its snapshot.  `trigger`, `fn` and the
flags are those of the snapshot. -/
structure Proxy where
  snap : Info
  name : Option String
  fnRef : Option String
  args : List Val
  kwargs : List (String × Val)
  coalesce : Bool
  maxInst : Int
  grace : Option Num
  executor : Option String
  storeAlias : Option String

/-- `RemoteTask.__init__` (remote.py:64-88). -/
def Proxy.make (i : Info) : Proxy :=
  ⟨i, i.name, i.callableRef, i.args, i.kwargs, i.coalesce, i.maxInst, i.grace, i.executor, i.storeAlias⟩

/-- `RemoteTask.snapshot` (remote.py:171-192). -/
def Proxy.snapshot (p : Proxy) : Info :=
  { p.snap with
    name := p.name, callableRef := p.fnRef, executor := p.executor, storeAlias := p.storeAlias, args := p.args,
    kwargs := p.kwargs, coalesce := p.coalesce, maxInst := p.maxInst, grace := p.grace }

/-- `RemoteTask.model_copy` (remote.py:101-110). -/
def Proxy.copy (p : Proxy) : Proxy := .make p.snapshot

/-- `bool(value)` (remote.py:149); objects are truthy -/
def Val.truthy : Val → Bool
  | .none => false
  | .bool b => b
  | .int n => n != 0
  | .float x => x != 0
  | .str s => s != ""
  | .tuple xs | .list xs => !xs.isEmpty
  | .dict kv => !kv.isEmpty
  | _ => true

/-- What `RemoteTask.update_task` raises (remote.py:121-167). -/
inductive PErr where
  | valueError | typeError | attributeError
  /-- from `obj_to_ref` -/
  | refError
  deriving DecidableEq, Repr

/-- `if key in updates: value = updates.pop(key); …`: the remaining updates and the value.  (remote.py:121-162) -/
def pop (key : String) (u : List (String × Val)) : Option Val × List (String × Val) :=
  ((u.find? fun p => p.1 == key).map (·.2), u.filter fun p => p.1 != key)

/-- one stage of `RemoteTask.update_task`: `conv` checks the value and stores it.  (remote.py:121-162) -/
def stage (key : String) (conv : Val → Proxy → Except PErr Proxy) (x : Proxy × List (String × Val)) :
    Except (PErr × Proxy) (Proxy × List (String × Val)) :=
  match pop key x.2 with
  | (none, u) => .ok (x.1, u)
  | (some v, u) => match conv v x.1 with
    | .ok p => .ok (p, u)
    | .error e => .error (e, x.1)

/-- the name (remote.py:123-128) -/
def setName : Val → Proxy → Except PErr Proxy
  | .none, p => .ok p
  | .str s, p => if s = "" then .error .typeError else .ok { p with name := some s }
  | _, _ => .error .typeError

/-- the callable (remote.py:129-133); `ref` is `obj_to_ref` -/
def setFn (ref : Val → Option String) : Val → Proxy → Except PErr Proxy
  | .str s, p => .ok { p with fnRef := some s }
  | v, p => match ref v with
    | some r => .ok { p with fnRef := some r }
    | none => .error .refError

/-- the positional arguments (remote.py:134-138) -/
def setArgs : Val → Proxy → Except PErr Proxy
  | .list xs, p => .ok { p with args := xs }
  | .tuple xs, p => .ok { p with args := xs }
  | _, _ => .error .typeError

/-- the keyword arguments (remote.py:139-143) -/
def setKwargs : Val → Proxy → Except PErr Proxy
  | .dict kv, p => .ok { p with kwargs := kv }
  | _, _ => .error .typeError

/-- the executor (remote.py:144-148) -/
def setExecutor : Val → Proxy → Except PErr Proxy
  | .str s, p => .ok { p with executor := some s }
  | _, _ => .error .typeError

/-- `coalesce` (remote.py:149-150) -/
def setCoalesce (v : Val) (p : Proxy) : Except PErr Proxy := .ok { p with coalesce := v.truthy }

/-- `max_instances` (remote.py:151-155); `True` is an integer -/
def setMax : Val → Proxy → Except PErr Proxy
  | .int n, p => if n ≤ 0 then .error .typeError else .ok { p with maxInst := n }
  | .bool b, p => if b then .ok { p with maxInst := 1 } else .error .typeError
  | _, _ => .error .typeError

/-- the grace time (remote.py:156-164) -/
def setGrace : Val → Proxy → Except PErr Proxy
  | .none, p => .ok { p with grace := none }
  | .int n, p => if n ≤ 0 then .error .typeError else .ok { p with grace := some (.int n) }
  | .float x, p => if x ≤ 0 then .error .typeError else .ok { p with grace := some (.float x) }
  | .bool b, p => if b then .ok { p with grace := some (.int 1) } else .error .typeError
  | _, _ => .error .typeError

/-- `RemoteTask.update_task` (remote.py:112-169): the proxy afterwards (stages before the one that raises have been
applied) and the exception. -/
def Proxy.update (ref : Val → Option String) (p : Proxy) (updates : List (String × Val)) : Proxy × Option PErr :=
  if updates.any fun x => x.1 == "id" then (p, some .valueError)
  else
    let r := do
      let x ← stage "name" setName (p, updates)
      let x ← stage "fn" (setFn ref) x
      let x ← stage "args" setArgs x
      let x ← stage "kwargs" setKwargs x
      let x ← stage "executor" setExecutor x
      let x ← stage "coalesce" setCoalesce x
      let x ← stage "max_instances" setMax x
      stage "mistrigger_grace_time" setGrace x
    match r with
    | .error (e, p') => (p', some e)
    | .ok (p', rest) => if rest.isEmpty then (p', none) else (p', some .attributeError)

end Remote
end Asyncz
