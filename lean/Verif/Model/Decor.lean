import Verif.Model.TaskObj
/-!
# Model of adding callables and of decorator mode
(/repo/asyncz/schedulers/base.py:491-652, /repo/asyncz/tasks/base.py:52-63, 267-293)
-/
namespace Asyncz
namespace Decor

open TaskObj

/-- What adding a task raises (schedulers/base.py:557-592, tasks/base.py:52-63, 286-292).
`assertion`: an `assert` of add_task; `attribute`: `object.__setattr__` on an object without attributes. -/
inductive Fail where
  | py (e : PyErr)
  | assertion
  | attribute
  deriving DecidableEq, Repr

/-- The keyword argument by which an attribute is given to `Task` (tasks/types.py:14-44). -/
def keyOf : Attr → String
  | .id => "id" | .name => "name" | .fn => "fn" | .fnRef => "fn_reference" | .args => "args" | .kwargs => "kwargs"
  | .grace => "mistrigger_grace_time" | .coalesce => "coalesce" | .storeAlias => "store_alias"
  | .maxInst => "max_instances" | .trigger => "trigger" | .executor => "executor" | .nrt => "next_run_time"
  | .scheduler => "scheduler"

/-- The class defaults of a task (tasks/types.py:14-44, tasks/base.py:48-50). -/
def classDefault : Attr → Val
  | .grace => .int 1 | .coalesce => .bool true | .maxInst => .int 1 | .args => .seq [] | .kwargs => .map []
  | _ => .none

/-- `super().__init__(id=id, **kwargs)` (tasks/base.py:62): pydantic sets the given attributes, the others get
the class defaults.  That the values have the declared types is not checked here: `update_task`, which follows,
refuses wrong ones, except for `coalesce`, where it accepts everything and pydantic does not. -/
def initial (id sched : Val) (kw : Dict String Val) : Attrs := fun a =>
  match a with
  | .id => id
  | .scheduler => sched
  | a => (kw.get? (keyOf a)).getD (classDefault a)

/-- `Task(fn, id=id, scheduler=sched, **kw)` (tasks/base.py:52-63); `uuid` is what `uuid4().hex` returns. -/
def construct (py : Py) (uuid : String) (fn id sched : Val) (kw : Dict String Val) : Except Fail Attrs :=
  let id := if id = .none ∧ fn ≠ .none then .str uuid else id
  match update py (initial id sched kw) fn sched kw with
  | (t, none) => .ok t
  | (_, some e) => .error (.py e)

/-- What is handed to the pending list or to `real_add_task` (schedulers/base.py:584-602). -/
structure Entry where
  task : Attrs
  replace : Bool
  start : Bool

/-- executor and store default to "default" (schedulers/base.py:587-590) -/
def withDefaults (t : Attrs) : Attrs :=
  let t := if t .executor = .none then t.set .executor (.str "default") else t
  if t .storeAlias = .none then t.set .storeAlias (.str "default") else t

/-- the updates made of `next_run_time` alone (schedulers/base.py:561-585) -/
def nrtUpdate : Option Val → Dict String Val
  | some v => [("next_run_time", v)]
  | none => []

/-- `add_task` with a task object (schedulers/base.py:557-603), called without other options than
`next_run_time` (`none`: `undefined`) and `replace_existing`.  The task has not been submitted before. -/
def submit (py : Py) (self : Val) (t : Attrs) (nrt : Option Val) (replace : Bool) : Except Fail Entry :=
  match update py t .none self (nrtUpdate nrt) with
  | (_, some e) => .error (.py e)
  | (t, none) =>
    let t := withDefaults t
    if t .trigger = .none then .error .assertion
    else if t .id = .none then .error .assertion
    else .ok ⟨t, replace, decide (nrt ≠ some .none)⟩

/-- The arguments of `add_task` other than the callable and the id; `none`: `undefined`, and for executor and
store also `None`.  The trigger has been created already (schedulers/base.py:491-508). -/
structure Args where
  trigger : Nat
  allowMistrigger : Bool
  args : Option (List Nat)
  kwargs : Option (List (String × Nat))
  name : Val
  grace : Option Val
  coalesce : Option Val
  maxInst : Option Val
  nrt : Option Val
  executor : Option Val
  store : Option Val

/-- the filter of `undefined` values for one key (schedulers/base.py:619) -/
def setOpt (d : Dict String Val) (key : String) : Option Val → Dict String Val
  | none => d
  | some v => d.set key v

/-- `task_kwargs.setdefault(key, value)` (schedulers/base.py:620-638) -/
def setDefault (d : Dict String Val) (p : String × Val) : Dict String Val :=
  match d.get? p.1 with
  | some _ => d
  | none => d.set p.1 p.2

/-- `task_kwargs` without fn, id and scheduler (schedulers/base.py:604-638); `defaults` is the dump of the task
defaults -/
def taskKwargs (a : Args) (defaults : Dict String Val) : Dict String Val :=
  let kw : Dict String Val := Dict.set (Dict.set (Dict.set (Dict.set [] "trigger" (.trigger a.trigger))
    "args" (.seq (a.args.getD []))) "kwargs" (.map (a.kwargs.getD []))) "name" a.name
  let kw := setOpt kw "mistrigger_grace_time" a.grace
  let kw := setOpt kw "coalesce" a.coalesce
  let kw := setOpt kw "max_instances" a.maxInst
  let kw := setOpt kw "next_run_time" a.nrt
  let kw := setOpt kw "executor" a.executor
  let kw := setOpt kw "store_alias" a.store
  let kw := if a.allowMistrigger then setDefault kw ("mistrigger_grace_time", .none) else kw
  defaults.foldl setDefault kw

/-- `add_task(fn, trigger, ..., id=id, replace_existing=replace)` with a callable (schedulers/base.py:604-645) -/
def addCallable (py : Py) (uuid : String) (self fn id : Val) (a : Args) (defaults : Dict String Val)
    (replace : Bool) : Except Fail Entry :=
  match construct py uuid fn id self (taskKwargs a defaults) with
  | .error e => .error e
  | .ok t => submit py self t a.nrt replace

/-- `add_task(None, trigger, ..., id=id)`: the template (schedulers/base.py:604-646) -/
def template (py : Py) (uuid : String) (self id : Val) (a : Args) (defaults : Dict String Val) : Except Fail Attrs :=
  construct py uuid .none id self (taskKwargs a defaults)

/-- the keyword arguments made of the attributes of the template (tasks/base.py:268-277), without fn, id and
scheduler -/
def callKwargs (t : Attrs) : Dict String Val :=
  let d : Dict String Val := Dict.set (Dict.set (Dict.set (Dict.set (Dict.set (Dict.set (Dict.set (Dict.set [] "name" (t .name))
    "next_run_time" (t .nrt)) "args" (t .args)) "kwargs" (t .kwargs)) "trigger" (t .trigger))
    "mistrigger_grace_time" (t .grace)) "coalesce" (t .coalesce)) "max_instances" (t .maxInst)
  let d := if t .storeAlias = .none then d else d.set "store_alias" (t .storeAlias)
  if t .executor = .none then d else d.set "executor" (t .executor)

/-- `asyncz_tasks` of the callables (tasks/base.py:290-292) -/
abbrev Marks := Nat → List Attrs

/-- The outcome of `template(fn)`: what the scheduler got, the marks of the callables, and the exception raised
after that, if any; without exception `fn` is returned (tasks/base.py:267-293). -/
structure Called where
  entry : Entry
  marks : Marks
  err : Option Fail

/-- `Task.__call__` with the callable `c` (tasks/base.py:267-293).  `settable c`: attributes can be set on `c` by
`object.__setattr__`, as on functions, or it has `asyncz_tasks` already.  The test `scheduler is not None` always
holds here: without scheduler the construction has failed. -/
def call (py : Py) (settable : Nat → Bool) (uuid : String) (t : Attrs) (c : Nat) (marks : Marks) : Except Fail Called :=
  let replace := (t .id).truthy
  let id := if replace then t .id else .str uuid
  match construct py uuid (.callable c) id (t .scheduler) (callKwargs t) with
  | .error e => .error e
  | .ok task =>
    match submit py (t .scheduler) task none replace with
    | .error e => .error e
    | .ok entry =>
      if replace then .ok ⟨entry, marks, none⟩
      else if settable c then .ok ⟨entry, fun d => if d = c then marks c ++ [entry.task] else marks d, none⟩
      else .ok ⟨entry, marks, some .attribute⟩

end Decor
end Asyncz
