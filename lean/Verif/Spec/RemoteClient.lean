import Verif.Model.RemoteClient
/-!
# What a remote call may end with

For whatever comes back, and for nothing coming back.
-/
namespace Asyncz
namespace RemoteClient
open Remote

/-- Values that say nothing. -/
inductive Blank : Json → Prop
  | null : Blank .null
  | false : Blank (.bool false)
  | zero : Blank (.int 0)
  | zeroFloat : Blank (.float 0)
  | empty : Blank (.str "")
  | noItems : Blank (.arr [])
  | noEntries : Blank (.obj [])

/-- The entry is missing or says nothing. -/
def Unsaid (k : String) (kv : List (String × Json)) : Prop := ∀ j, field k kv = some j → Blank j

/-- The text of an error: its message, else the name of the error, else a text that says it is unknown. -/
inductive Explains (P : Py) (kv : List (String × Json)) : String → Prop
  | message {j : Json} (h : field "message" kv = some j) (hb : ¬ Blank j) : Explains P kv (P.text j)
  | error {j : Json} (hm : Unsaid "message" kv) (h : field "error" kv = some j) (hb : ¬ Blank j) : Explains P kv (P.text j)
  | unknown (hm : Unsaid "message" kv) (h : Unsaid "error" kv) : Explains P kv "Remote scheduler error."

/-- The error of an answer has this name. -/
def Called (kv : List (String × Json)) (name : String) : Prop := field "error" kv = some (.str name)

/-- The task an error is about. -/
inductive About (P : Py) (kv : List (String × Json)) : String → Prop
  | task {j : Json} (h : field "task_id" kv = some j) (hb : ¬ Blank j) : About P kv (P.text j)
  | unknown (h : Unsaid "task_id" kv) : About P kv "unknown"

/-- A number, or nothing. -/
inductive Counts (P : Py) (kv : List (String × Json)) : Int → Prop
  | int {n : Int} (h : field "max_instances" kv = some (.int n)) : Counts P kv n
  | float {x : Int} (h : field "max_instances" kv = some (.float x)) (hx : x ≠ 0) : Counts P kv (P.trunc x)
  | true (h : field "max_instances" kv = some (.bool true)) : Counts P kv 1
  | digits {t : String} {n : Int} (h : field "max_instances" kv = some (.str t)) (ht : t ≠ "") (hp : P.parse t = some n) :
      Counts P kv n
  | unsaid (h : Unsaid "max_instances" kv) : Counts P kv 0

/-- The exception an error answer stands for. -/
inductive Means (P : Py) (kv : List (String × Json)) : Fail → Prop
  | lookup (h : Called kv "TaskLookupError") {id : Json} (hid : field "task_id" kv = some id) : Means P kv (.lookup id)
  | lookupUnsaid (h : Called kv "TaskLookupError") (hid : field "task_id" kv = none) : Means P kv (.lookup .null)
  | notRunning (h : Called kv "SchedulerNotRunningError") : Means P kv .notRunning
  | maxInst (h : Called kv "MaximumInstancesError") {id : String} {n : Int} (hid : About P kv id) (hn : Counts P kv n) :
      Means P kv (.maxInst id n)
  | value (h : Called kv "ValueError") {m : String} (hm : Explains P kv m) : Means P kv (.value m)
  | remote (h : ∀ n ∈ ["TaskLookupError", "SchedulerNotRunningError", "MaximumInstancesError", "ValueError"], ¬ Called kv n)
      {m : String} (hm : Explains P kv m) : Means P kv (.remote m)

/-- The exceptions a caller is told to expect. -/
def Documented : Fail → Prop
  | .other _ => False
  | _ => True

/-- An answer in the form of the control application: nothing, or a JSON object, whose count of instances, if it is about
them, is a number. -/
def Sound (P : Py) : Body → Prop
  | .empty => True
  | .notJson => False
  | .json (.obj kv) => Called kv "MaximumInstancesError" → ∃ n, Counts P kv n
  | .json _ => False

/-- A time, or none. -/
inductive Dated {γ : Type} (C : Codec γ) : Json → Option When → Prop
  | null : Dated C .null none
  | text {t : String} {w : When} (h : C.parse t = some w) : Dated C (.str t) (some w)

/-- The snapshot is what the fields of the data say, all of them. -/
structure Reads {γ : Type} (C : Codec γ) (kv : List (String × Json)) (i : Info) : Prop where
  id : field "id" kv = some (strJson i.id)
  name : field "name" kv = some (strJson i.name)
  callableName : field "callable_name" kv = some (strJson i.callableName)
  callableRef : field "callable_reference" kv = some (strJson i.callableRef)
  triggerAlias : field "trigger_alias" kv = some (strJson i.triggerAlias)
  triggerName : field "trigger_name" kv = some (strJson i.triggerName)
  triggerDesc : field "trigger_description" kv = some (strJson i.triggerDesc)
  executor : field "executor" kv = some (strJson i.executor)
  storeAlias : field "store_alias" kv = some (strJson i.storeAlias)
  state : field "schedule_state" kv = some (stateJson i.state)
  nextRun : ∃ j, field "next_run_time" kv = some j ∧ Dated C j i.nextRun
  coalesce : field "coalesce" kv = some (.bool i.coalesce)
  maxInst : field "max_instances" kv = some (.int i.maxInst)
  grace : field "mistrigger_grace_time" kv = some (numJson i.grace)
  pending : field "pending" kv = some (.bool i.pending)
  paused : field "paused" kv = some (.bool i.paused)
  submitted : field "submitted" kv = some (.bool i.submitted)
  args : ∃ l, field "args" kv = some (.arr l) ∧ i.args = pyList l
  kwargs : ∃ d, field "kwargs" kv = some (.obj d) ∧ i.kwargs = pyItems d

/-- The data is this snapshot. -/
def Pictures {γ : Type} (C : Codec γ) (j : Json) (i : Info) : Prop := ∃ kv, j = .obj kv ∧ Reads C kv i

/-- The client's exception for an exception of `Model/Remote.lean`. -/
def Fits : Exc → Fail → Prop
  | .lookup (some i), f => f = .lookup (.str i)
  | .lookup none, f => f = .lookup .null
  | .notRunning, f => f = .notRunning
  | .maxInst i n, f => f = .maxInst i n
  | .value m, f => f = .value m
  | .remote m, f => f = .remote m
  | .badReply, f => f = .other "JSONDecodeError"
  | .unsendable, f => f = .other "TypeError"
  | .other _ _, _ => False

/-- The same outcome. -/
inductive Agree : Except Exc Json → Except Fail Json → Prop
  | ok (j : Json) : Agree (.ok j) (.ok j)
  | error {e : Exc} {f : Fail} (h : Fits e f) : Agree (.error e) (.error f)

end RemoteClient
end Asyncz
