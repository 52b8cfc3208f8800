import Verif.Model.Pages
import Verif.Model.Cli
/-!
# Model of the task editing form (/repo/asyncz/contrib/dashboard/controllers/tasks.py:34-198, 455-594)

The task is the attribute map of `Model/TaskObj.lean`.  Argument objects are known by identity up to `==`.
-/
namespace Asyncz
namespace Edit
open TaskObj Pages

/-- The submitted form: the values of `form.get(key)`.  (controllers/tasks.py:88-101, 523) -/
structure Form where
  name : Option String
  callable : Option String
  args : Option String
  kwargs : Option String
  executor : Option String
  coalesce : Option String
  maxInstances : Option String
  grace : Option String
  clearGrace : Bool
  intent : Option String

/-- What the code asks Python's libraries: `json.loads` and `float`.  (controllers/tasks.py:114-143)
Simplification: floats that are not finite multiples of a millionth are left out. -/
structure Lib where
  /-- `json.loads(text)`, if it is a list -/
  list : String → Option (List Nat)
  /-- `json.loads(text)`, if it is an object -/
  object : String → Option (List (String × Nat))
  /-- `float(text)` in millionths -/
  float : String → Option Int

/-- `_string_form_value(form, key).strip()` (controllers/tasks.py:34-38, 90-98) -/
def text (S : Str) (v : Option String) : String := S.strip (v.getD "")

/-- `_parse_bool` (controllers/tasks.py:104-110); `none`: `ValueError` -/
def parseBool (S : Str) (v : String) : Option Bool :=
  let n := S.lower (S.strip v)
  if n ∈ ["1", "true", "yes", "on"] then some true
  else if n ∈ ["0", "false", "no", "off"] then some false
  else none

/-- `_parse_json_list` (controllers/tasks.py:113-117) -/
def parseList (L : Lib) (v : String) : Option Val := (L.list (orText v "[]")).map .seq

/-- `_parse_json_object` (controllers/tasks.py:120-124) -/
def parseObject (L : Lib) (v : String) : Option Val := (L.object (orText v "{}")).map .map

/-- `_parse_positive_int` (controllers/tasks.py:127-131) -/
def parsePositive (S : Str) (v : String) : Option Val :=
  (S.int v).bind fun n => if n ≤ 0 then none else some (.int n)

/-- `_parse_mistrigger_grace_time` (controllers/tasks.py:134-140) -/
def parseGrace (L : Lib) (v : String) : Option Val :=
  if v = "" then some .none
  else (L.float v).bind fun m =>
    if m ≤ 0 then none else if m % 1000000 = 0 then some (.int (m / 1000000)) else some (.float m)

/-- `try: updates[key] = parse(...) except ...: errors.append(...)` (controllers/tasks.py:165-191) -/
def attempt (key : String) (v : Option Val) (r : Dict String Val × List String) : Dict String Val × List String :=
  match v with
  | some v => (r.1.set key v, r.2)
  | none => (r.1, r.2 ++ [key])

/-- the name (controllers/tasks.py:148-152) -/
def nameStage (S : Str) (f : Form) (t : Attrs) (r : Dict String Val × List String) : Dict String Val × List String :=
  let name := S.strip (text S f.name)
  if name ≠ "" then (r.1.set "name" (.str name), r.2)
  else if (t .name).truthy && f.name.isSome then (r.1, r.2 ++ ["name"])
  else r

/-- the function (controllers/tasks.py:154-158): the parameter `fn` of `update_task`, and the errors -/
def fnStage (S : Str) (f : Form) (t : Attrs) : Val × List String :=
  let path := S.strip (text S f.callable)
  if path ≠ "" then (.str path, [])
  else if (t .fnRef).truthy then (.none, ["callable"])
  else (.none, [])

/-- the executor (controllers/tasks.py:160-164) -/
def executorStage (S : Str) (f : Form) (r : Dict String Val × List String) : Dict String Val × List String :=
  let e := S.strip (text S f.executor)
  if e ≠ "" then (r.1.set "executor" (.str e), r.2) else (r.1, r.2 ++ ["executor"])

/-- the grace time (controllers/tasks.py:186-192) -/
def graceOf (S : Str) (L : Lib) (f : Form) : Option Val :=
  if f.clearGrace then some .none else parseGrace L (text S f.grace)

/-- `_parse_task_edit_updates` (controllers/tasks.py:143-196): `fn`, the other updates, and the fields with errors. -/
def parseEdit (S : Str) (L : Lib) (f : Form) (t : Attrs) : Val × Dict String Val × List String :=
  let fn := fnStage S f t
  let r := nameStage S f t ([], [])
  let r := executorStage S f (r.1, r.2 ++ fn.2)
  let r := attempt "args" (parseList L (text S f.args)) r
  let r := attempt "kwargs" (parseObject L (text S f.kwargs)) r
  let r := attempt "coalesce" ((parseBool S (S.lower (text S f.coalesce))).map .bool) r
  let r := attempt "max_instances" (parsePositive S (text S f.maxInstances)) r
  let r := attempt "mistrigger_grace_time" (graceOf S L f) r
  (fn.1, r)

/-- What the page shows in the end, with its HTTP status.  (controllers/tasks.py:511-594) -/
inductive End where
  | notFound
  | invalid (fields : List String)
  /-- `update_task` on the copy raised -/
  | rejected (e : PyErr)
  | preview (diff : List (String × Val × Val))
  | applied (diff : List (String × Val × Val))
  /-- `scheduler.update_task` raised after the copy was accepted -/
  | raised (e : PyErr)
  deriving DecidableEq, Repr

/-- `TaskEditController.post` (controllers/tasks.py:511-594): the task in its store afterwards, the statuses of the new
audit entries, and the page.  `task` is what `lookup_task` finds.  `scheduler.update_task` is `task.update_task` on the
stored task (schedulers/base.py:647-689). -/
def post (S : Str) (L : Lib) (py : Py) (sched : Val) (f : Form) (task : Option Attrs) : Option Attrs × List String × End :=
  match task with
  | none => (none, ["failed"], .notFound)
  | some t =>
    let intent := S.lower (S.strip (f.intent.getD "preview"))
    let (fn, updates, errors) := parseEdit S L f t
    if errors ≠ [] then (some t, ["failed"], .invalid errors)
    else match update py t fn sched updates with
      | (_, some e) => (some t, ["failed"], .rejected e)
      | (t', none) =>
        let d := Cli.diff t t'
        if intent ≠ "apply" ∨ d = [] then (some t, [], .preview d)
        else match update py t fn sched updates with
          | (t'', none) => (some t'', ["succeeded"], .applied d)
          | (t'', some e) => (some t'', [], .raised e)

/-- The texts that the libraries write: `json.dumps(value, indent=2, sort_keys=True)`, `str(number)`.
(controllers/tasks.py:41-42, 81-84) -/
structure Show where
  list : List Nat → String
  object : List (String × Nat) → String
  int : Int → String
  float : Int → String

/-- `str(v)` of the values met here.  (controllers/tasks.py:81-84) -/
def Show.num (W : Show) : Val → String
  | .int n => W.int n
  | .float m => W.float m
  | _ => ""

/-- a text attribute, or the default (controllers/tasks.py:75-79) -/
def textOr (v : Val) (default : String) : String :=
  match v with
  | .str s => orText s default
  | _ => default

/-- The form as the page shows it for a task and the browser sends it back, with an intent.
(controllers/tasks.py:73-87; templates/tasks/edit.html; an unticked box is not sent) -/
def formOf (W : Show) (t : Attrs) (intent : String) : Form where
  name := some (textOr (t .name) "")
  callable := some (textOr (t .fnRef) "")
  args := some (match t .args with | .seq xs => W.list xs | _ => "")
  kwargs := some (match t .kwargs with | .map kv => W.object kv | _ => "")
  executor := some (textOr (t .executor) "default")
  coalesce := some (if (t .coalesce).truthy then "true" else "false")
  maxInstances := some (W.num (t .maxInst))
  grace := some (W.num (t .grace))
  clearGrace := decide (t .grace = .none)
  intent := some intent

end Edit
end Asyncz
