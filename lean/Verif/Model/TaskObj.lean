import Verif.Model.Dict
/-!
# Model of task objects (/repo/asyncz/tasks/base.py, tasks/types.py)
-/
namespace Asyncz
namespace TaskObj

/-- The Python values that reach `update_task`.  Objects (callables, triggers, schedulers, argument
objects) are known by identity; a `float` is given in millionths; a `datetime` by its instant.
(tasks/base.py:76-197) -/
inductive Val where
  | none
  | bool (b : Bool)
  | int (n : Int)
  | float (millionths : Int)
  | str (s : String)
  | seq (xs : List Nat)
  | map (kv : List (String × Nat))
  | callable (c : Nat)
  | trigger (g : Nat)
  | scheduler (k : Nat)
  | datetime (u : Int)
  | other (k : Nat)
  deriving DecidableEq, Repr

/-- `bool(v)`.  (tasks/base.py:76-197) -/
def Val.truthy : Val → Bool
  | .none => false
  | .bool b => b
  | .int n => n != 0
  | .float n => n != 0
  | .str s => s != ""
  | .seq xs => !xs.isEmpty
  | .map kv => !kv.isEmpty
  | _ => true

/-- The modifiable attributes of a `Task` (tasks/types.py:29-41, tasks/base.py:48-50); `id` is never
modified. -/
inductive Attr where
  | id | name | fn | fnRef | args | kwargs | grace | coalesce | storeAlias | maxInst | trigger | executor
  | nrt | scheduler
  deriving DecidableEq, Repr

/-- the attributes of a task object.  (tasks/types.py:22-44) -/
abbrev Attrs := Attr → Val

/-- `setattr` (tasks/base.py:196-197). -/
def Attrs.set (t : Attrs) (a : Attr) (v : Val) : Attrs := fun b => if b = a then v else t b

/-- What `update_task` raises (tasks/base.py:88-197). -/
inductive PyErr where
  | typeError | valueError | attributeError
  /-- raised by `ref_to_obj` -/
  | lookupError
  deriving DecidableEq, Repr

/-- What the code asks the interpreter: resolving references, naming callables, checking arguments
(utils.py:234-336, 338-422) and `to_datetime` (utils.py:114-171). -/
structure Py where
  /-- `ref_to_obj`; `none`: it raises -/
  resolve : String → Option Nat
  /-- `obj_to_ref`; `none`: `ValueError` -/
  ref : Nat → Option String
  /-- `get_callable_name`; `none`: `TypeError` -/
  name : Nat → Option String
  /-- `check_callable_args` does not raise `ValueError` -/
  argsOk : Nat → Val → Val → Bool
  /-- `to_datetime(value, scheduler.timezone, "next_run_time")` -/
  toDatetime : Val → Except PyErr Val

/-- the local variables `approved` and `updates`.  (tasks/base.py:82-94) -/
structure Loc where
  approved : Dict Attr Val
  updates : Dict String Val

/-- `if key in updates: value = updates.pop(key); <check>; approved[key] = value`.  (tasks/base.py:98-189) -/
def take (key : String) (a : Attr) (conv : Val → Except PyErr Val) (l : Loc) : Except PyErr Loc :=
  match l.updates.get? key with
  | none => .ok l
  | some v => match conv v with
    | .error e => .error e
    | .ok w => .ok ⟨l.approved.set a w, l.updates.erase key⟩

/-- tasks/base.py:87-92 -/
def schedulerStage (t : Attrs) (sched : Val) (l : Loc) : Except PyErr Loc :=
  if sched = .none then .ok l
  else if t .scheduler ≠ .none ∧ t .scheduler ≠ sched then .error .valueError
  else .ok { l with approved := l.approved.set .scheduler sched }

/-- tasks/base.py:94-95 -/
def idStage (l : Loc) : Except PyErr Loc :=
  if l.updates.contains "id" then .error .valueError else .ok l

/-- the function and its reference (tasks/base.py:98-114): `fn` given or the task's own -/
def resolveFn (py : Py) (t : Attrs) (fn : Val) : Except PyErr (Val × Val) :=
  match (if fn.truthy then fn else t .fn) with
  | .none => .ok (.none, .none)
  | .str s => match py.resolve s with
    | none => .error .lookupError
    | some c => .ok (.callable c, .str s)
  | .callable c => .ok (.callable c, match py.ref c with | some r => .str r | none => .none)
  | _ => .error .typeError

/-- `isinstance(args, str) or not isinstance(args, Iterable)` fails (tasks/base.py:119) -/
def isArgs : Val → Bool
  | .seq _ => true
  | .map _ => true
  | _ => false

/-- `isinstance(kwargs, str) or not isinstance(kwargs, Mapping)` fails (tasks/base.py:121) -/
def isKwargs : Val → Bool
  | .map _ => true
  | _ => false

/-- the name is filled in if the task has none and none is given (tasks/base.py:116-117) -/
def defaultName (py : Py) (t : Attrs) (fn : Val) (l : Loc) : Except PyErr Loc :=
  match fn with
  | .callable c =>
    if !(t .name).truthy ∧ (l.updates.get? "name").getD .none = .none then
      match py.name c with
      | none => .error .typeError
      | some n => .ok { l with updates := l.updates.set "name" (.str n) }
    else .ok l
  | _ => .ok l

/-- `if fn is not None: check_callable_args(fn, args, kwargs)` (tasks/base.py:124-125) -/
def callOk (py : Py) : Val → Val → Val → Bool
  | .callable c, args, kwargs => py.argsOk c args kwargs
  | _, _, _ => true

/-- tasks/base.py:97-130 -/
def fnStage (py : Py) (t : Attrs) (fn : Val) (l : Loc) : Except PyErr Loc :=
  if fn.truthy ∨ l.updates.contains "args" ∨ l.updates.contains "kwargs" then
    let args := (l.updates.get? "args").getD (t .args)
    let kwargs := (l.updates.get? "kwargs").getD (t .kwargs)
    let l := { l with updates := (l.updates.erase "args").erase "kwargs" }
    match resolveFn py t fn with
    | .error e => .error e
    | .ok (f, r) => match defaultName py t f l with
      | .error e => .error e
      | .ok l =>
        if isArgs args = false then .error .typeError
        else if isKwargs kwargs = false then .error .typeError
        else if callOk py f args kwargs = false then .error .valueError
        else .ok { l with approved := (((l.approved.set .fn f).set .fnRef r).set .args args).set .kwargs kwargs }
  else .ok l

/-- tasks/base.py:132-139 -/
def nameStage (l : Loc) : Except PyErr Loc :=
  match (l.updates.get? "name").getD .none with
  | .none => .ok { l with updates := l.updates.erase "name" }
  | .str s => if s = "" then .error .typeError
    else .ok ⟨l.approved.set .name (.str s), l.updates.erase "name"⟩
  | _ => .error .typeError

/-- tasks/base.py:141-150 -/
def convGrace : Val → Except PyErr Val
  | .none => .ok .none
  | .bool b => if b then .ok (.bool b) else .error .typeError
  | .int n => if n ≤ 0 then .error .typeError else .ok (.int n)
  | .float n => if n ≤ 0 then .error .typeError else .ok (.float n)
  | _ => .error .typeError

/-- tasks/base.py:152-154 -/
def convCoalesce (v : Val) : Except PyErr Val := .ok (.bool v.truthy)

/-- tasks/base.py:156-160, 178-182 -/
def convStr : Val → Except PyErr Val
  | .str s => .ok (.str s)
  | _ => .error .typeError

/-- tasks/base.py:162-166; `bool` is a subclass of `int` -/
def convMax : Val → Except PyErr Val
  | .bool b => if b then .ok (.bool b) else .error .typeError
  | .int n => if n ≤ 0 then .error .typeError else .ok (.int n)
  | _ => .error .typeError

/-- tasks/base.py:168-176 -/
def convTrigger : Val → Except PyErr Val
  | .trigger g => .ok (.trigger g)
  | _ => .error .typeError

/-- tasks/base.py:184-192; `sched` is the scheduler given or the task's own -/
def convNrt (py : Py) (sched : Val) (v : Val) : Except PyErr Val :=
  match sched with
  | .scheduler _ => py.toDatetime v
  | _ => .error .typeError

/-- tasks/base.py:194-197 -/
def leftover (l : Loc) : Except PyErr Loc :=
  if l.updates.isEmpty then .ok l else .error .attributeError

/-- The whole validation (tasks/base.py:86-197).  `updates` never contains `fn` or `scheduler`, which are
parameters of their own. -/
def validate (py : Py) (t : Attrs) (fn sched : Val) (updates : Dict String Val) : Except PyErr Loc := do
  let l ← schedulerStage t sched ⟨[], updates⟩
  let l ← idStage l
  let l ← fnStage py t fn l
  let l ← nameStage l
  let l ← take "mistrigger_grace_time" .grace convGrace l
  let l ← take "coalesce" .coalesce convCoalesce l
  let l ← take "store_alias" .storeAlias convStr l
  let l ← take "max_instances" .maxInst convMax l
  let l ← take "trigger" .trigger convTrigger l
  let l ← take "executor" .executor convStr l
  let l ← take "next_run_time" .nrt (convNrt py (if sched = .none then t .scheduler else sched)) l
  leftover l

/-- `for key, value in approved.items(): setattr(self, key, value)` (tasks/base.py:199-200) -/
def assign (t : Attrs) : Dict Attr Val → Attrs
  | [] => t
  | (a, v) :: rest => assign (t.set a v) rest

/-- `Task.update_task` (tasks/base.py:76-200): the task afterwards, and the exception if one is raised. -/
def update (py : Py) (t : Attrs) (fn sched : Val) (updates : Dict String Val) : Attrs × Option PyErr :=
  match validate py t fn sched updates with
  | .error e => (t, some e)
  | .ok l => (assign t l.approved, none)

/-! ## Serialisation -/

/-- A callable: a plain function or class (or anything that is not a bound method), or a method bound to
an object or a class.  (/repo/asyncz/utils.py:254-308) -/
inductive Fn where
  | plain (f : Nat)
  | bound (self f : Nat)
  | boundToClass (cls f : Nat)
  deriving DecidableEq, Repr

/-- The attributes of a task that `__getstate__` looks at (tasks/base.py:216-251).  `grace` in millionths
of a second. -/
structure Full where
  id : String
  name : Option String
  fn : Fn
  fnRef : Option String
  args : List Nat
  kwargs : List (String × Nat)
  trigger : Nat
  executor : Option String
  coalesce : Bool
  maxInst : Int
  grace : Option Int
  nrt : Option Int
  pending : Bool
  submitted : Bool
  deriving DecidableEq, Repr

/-- `TaskState` (datastructures.py:63-78); `grace` is an `int` number of seconds -/
structure Saved where
  id : String
  name : Option String
  fnRef : String
  args : List Nat
  kwargs : List (String × Nat)
  trigger : Nat
  executor : Option String
  coalesce : Bool
  maxInst : Int
  grace : Option Int
  nrt : Option Int
  deriving DecidableEq, Repr

/-- `mistrigger_grace_time: Optional[int]` (datastructures.py:73): a float with a fraction is a
`ValidationError`, other floats become integers.  Outer `none`: it raises. -/
def saveGrace : Option Int → Option (Option Int)
  | none => some none
  | some g => if g % 1000000 = 0 then some (some (g / 1000000)) else none

/-- the `args` that are saved (tasks/base.py:224-232); `ref` is `obj_to_ref` -/
def saveArgs (ref : Fn → Option String) (t : Full) (r : String) : List Nat :=
  match t.fn with
  | .bound self _ => if ref t.fn = some r then self :: t.args else t.args
  | _ => t.args

/-- `Task.__getstate__` (tasks/base.py:216-251); `none`: it raises -/
def save (ref : Fn → Option String) (t : Full) : Option Saved :=
  match t.fnRef with
  | none => none
  | some r =>
    if r = "" then none
    else match saveGrace t.grace with
      | none => none
      | some g => some {
          id := t.id, name := t.name, fnRef := r, args := saveArgs ref t r, kwargs := t.kwargs,
          trigger := t.trigger, executor := t.executor, coalesce := t.coalesce, maxInst := t.maxInst, grace := g,
          nrt := t.nrt }

/-- `Task.__setstate__` (tasks/base.py:202-214); `resolve` is `ref_to_obj` (`none`: it raises) -/
def restore (resolve : String → Option Fn) (s : Saved) : Option Full :=
  match resolve s.fnRef with
  | none => none
  | some f => some {
      id := s.id, name := s.name, fn := f, fnRef := some s.fnRef, args := s.args, kwargs := s.kwargs,
      trigger := s.trigger, executor := s.executor, coalesce := s.coalesce, maxInst := s.maxInst,
      grace := s.grace.map (· * 1000000), nrt := s.nrt, pending := false, submitted := true }

/-- What running the task calls: a function, positional and keyword arguments.  (executors/base.py:131) -/
def Full.call (t : Full) : Nat × List Nat × List (String × Nat) :=
  match t.fn with
  | .plain f => (f, t.args, t.kwargs)
  | .bound self f => (f, self :: t.args, t.kwargs)
  | .boundToClass cls f => (f, cls :: t.args, t.kwargs)

/-- `schedule_state` (tasks/types.py:46-63) -/
inductive ScheduleState where
  | pending | paused | scheduled
  deriving DecidableEq, Repr

/-- `schedule_state` (tasks/types.py:47-64). -/
def Full.scheduleState (t : Full) : ScheduleState :=
  if t.pending then .pending else if t.nrt = none then .paused else .scheduled

end TaskObj
end Asyncz
