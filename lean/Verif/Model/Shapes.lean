import Verif.Model.Dict
import Verif.Model.Sort
/-!
# Model of the shape registry and of the task-state envelope

/repo/asyncz/shapes/registry.py, shapes/base.py, shapes/builtins.py (as far as `load` of a task state and `dump`
are concerned), stores/base.py:42-81,124-175, stores/persistence.py.
-/
namespace Asyncz
namespace Shapes

/-- A class derived from `Shape` (shapes/base.py:100-110): its `name` attribute, which need not be the name it is
registered under, and what `load(TaskState, payload)` of its instances does with a payload (`none` = it raises).
Classes with the same attributes are identified. -/
structure Cls (π : Type) where
  attr : String
  load : π → Option π

/-- An instance of a `Shape` class; `serial` is its object identity.  (shapes/registry.py:66) -/
structure Inst (π : Type) where
  cls : Cls π
  serial : Nat

/-- A Python object passed where a name is expected.  (shapes/registry.py:31) -/
inductive NameArg where
  | str (s : String)
  | other

/-- A Python object passed where a shape is expected.  (shapes/registry.py:22, 79) -/
inductive Arg (π : Type) where
  | none
  | str (s : String)
  | cls (c : Cls π)
  | inst (i : Inst π)
  | other

/-- The exceptions of shapes/errors.py raised by the registry. -/
inductive Err where
  | registration
  | notFound
  | shape
  deriving DecidableEq

/-- The registry (shapes/registry.py:19) and the number of objects created so far. -/
structure Reg (π : Type) where
  classes : Dict String (Cls π)
  created : Nat

variable {π : Type}

/-- What a call of the registry returns.  (shapes/registry.py:22-105) -/
inductive Ret (π : Type) where
  | cls (c : Cls π)
  | unit
  | inst (i : Inst π)
  | names (l : List String)
  | raised (e : Err)

/-- `ShapeRegistry.register` (shapes/registry.py:22-38) -/
def register (r : Reg π) (name : NameArg) (shape : Arg π) (replace : Bool) : Reg π × Ret π :=
  match name with
  | .other => (r, .raised .registration)
  | .str n =>
    if n = "" then (r, .raised .registration)
    else match shape with
      | .cls c =>
        if r.classes.contains n && !replace then (r, .raised .registration)
        else ({ r with classes := r.classes.set n c }, .cls c)
      | _ => (r, .raised .registration)

/-- `ShapeRegistry.unregister` (shapes/registry.py:40-53) -/
def unregister (r : Reg π) (n : String) : Reg π × Ret π :=
  match r.classes.get? n with
  | some _ => ({ r with classes := r.classes.erase n }, .unit)
  | none => (r, .raised .notFound)

/-- `cls()`: a new instance.  (shapes/registry.py:66, 97) -/
def instantiate (r : Reg π) (c : Cls π) : Reg π × Ret π :=
  ({ r with created := r.created + 1 }, .inst ⟨c, r.created⟩)

/-- `ShapeRegistry.get` (shapes/registry.py:55-66) -/
def get (r : Reg π) (n : String) : Reg π × Ret π :=
  match r.classes.get? n with
  | some c => instantiate r c
  | none => (r, .raised .notFound)

/-- `ShapeRegistry.available` (shapes/registry.py:68-77); `sorted` of strings compares code points. -/
def available (r : Reg π) : List String := sortBy (fun a b => decide (a ≤ b)) r.classes.keys

/-- `ShapeRegistry.resolve` (shapes/registry.py:79-101) -/
def resolve (r : Reg π) (a : Arg π) : Reg π × Ret π :=
  match a with
  | .none => get r "pydantic"
  | .inst i => (r, .inst i)
  | .str s => get r s
  | .cls c => instantiate r c
  | .other => (r, .raised .shape)

/-- A call of the registry; `register_shape(name, replace=…)(shape)` is `register` (shapes/registry.py:117-138) -/
inductive Call (π : Type) where
  | register (name : NameArg) (shape : Arg π) (replace : Bool)
  | unregister (name : String)
  | get (name : String)
  | available
  | resolve (a : Arg π)

/-- one call.  (shapes/registry.py:22-101) -/
def step (r : Reg π) : Call π → Reg π × Ret π
  | .register n s rep => register r n s rep
  | .unregister n => unregister r n
  | .get n => get r n
  | .available => (r, .names (available r))
  | .resolve a => resolve r a

/-- a sequence of calls with their results.  (shapes/registry.py:22-101) -/
def run (r : Reg π) : List (Call π) → Reg π × List (Call π × Ret π)
  | [] => (r, [])
  | c :: cs =>
    let x := step r c
    let rest := run x.1 cs
    (rest.1, (c, x.2) :: rest.2)

/-- The empty registry at class creation (shapes/registry.py:19). -/
def empty : Reg π := ⟨[], 0⟩

/-- The registrations at import (shapes/__init__.py:25-29), given the built-in classes. -/
def imports (builtin : List (Cls π)) : List (Call π) :=
  builtin.map fun c => .register (.str c.attr) (.cls c) true

/-! ## Task states in envelopes -/

/-- What `pickle.loads` of a stored record gives (stores/base.py:148-157): a `TaskState` written by an old version,
an envelope (stores/persistence.py:10-23), or anything else. -/
inductive Record (π : Type) where
  | legacy (state : π)
  | envelope (entity : String) (version : Int) (shape : Arg π) (payload : π)
  | other

/-- `BaseStore.serialize_task_state` (stores/base.py:121-138) on the state of a task. -/
def serialize (shape : Inst π) (state : π) : Record π :=
  .envelope "task_state" 1 (.str shape.cls.attr) state

/-- `BaseStore.deserialize_task_state` (stores/base.py:140-175); `none` = it raises.  `isState` is
`isinstance(·, TaskState)`. -/
def deserialize (isState : π → Bool) (r : Reg π) : Record π → Option π
  | .legacy s => some s
  | .other => none
  | .envelope entity version shape payload =>
    if entity ≠ "task_state" then none
    else if version ≠ 1 then none
    else match (resolve r shape).2 with
      | .inst i => match i.cls.load payload with
        | some s => if isState s then some s else none
        | none => none
      | _ => none

/-- `BaseStore.start`, the shape of a store (stores/base.py:76-81): the scheduler's if it resolves, else the default. -/
def storeShape (r : Reg π) (sched : Arg π) : Reg π × Ret π :=
  match resolve r sched with
  | (r', .inst i) => (r', .inst i)
  | (r', _) => resolve r' .none

/-- `Shape.load` of the base class and of `PydanticShape`, `DataclassShape`, `AnyShape`, for `TaskState`
(shapes/base.py:131-151,179-193, shapes/builtins.py:57-66,150-160,372-381): an instance is returned as it is; a
mapping may be constructed. -/
def baseLoad (isState : π → Bool) (construct : π → Option π) (p : π) : Option π :=
  if isState p then some p else construct p

/-- `AttrsShape`/`MsgspecShape` (shapes/builtins.py:250-268,331-350): raise unless the library is installed;
`TaskState` is neither an attrs class nor a Struct, so the base class decides. -/
def optionalLoad (installed : Bool) (isState : π → Bool) (construct : π → Option π) (p : π) : Option π :=
  if installed then baseLoad isState construct p else none

/-- The five built-in classes.  (shapes/__init__.py:25-29) -/
def builtin (isState : π → Bool) (construct : String → π → Option π) (attrs msgspec : Bool) : List (Cls π) :=
  [⟨"pydantic", baseLoad isState (construct "pydantic")⟩,
   ⟨"msgspec", optionalLoad msgspec isState (construct "msgspec")⟩,
   ⟨"attrs", optionalLoad attrs isState (construct "attrs")⟩,
   ⟨"dataclass", baseLoad isState (construct "dataclass")⟩,
   ⟨"any", baseLoad isState (construct "any")⟩]

/-! ## Plain dumps -/

/-- Python values as `dump_plain` sees them: objects with a `model_dump` method (with what it returns for either
value of `exclude_none`), dataclass and attrs instances (their fields), mappings, tuples, lists, other
sequences, `None`, and everything else.  (shapes/base.py:59-97) -/
inductive Value where
  | none
  | atom (n : Nat)
  | model (keep drop : Value)
  | record (fields : List (String × Value))
  | map (items : List (String × Value))
  | tuple (items : List Value)
  | list (items : List Value)
  | seq (items : List Value)

/-- `value is None` (shapes/base.py:66).  -/
def Value.isNone : Value → Bool
  | .none => true
  | _ => false

/-- the condition of the comprehensions: `not exclude_none or item is not None`.  (shapes/base.py:66, 78, 85) -/
def kept (ex : Bool) (v : Value) : Bool := !ex || !v.isNone

mutual
/-- `dump_plain` (shapes/base.py:50-97).  Keys are strings here. -/
def dump (ex : Bool) : Value → Value
  | .model keep drop => if ex then drop else keep
  | .record fs => .map (dumpItems ex fs)
  | .map is => .map (dumpItems ex is)
  | .tuple is => .tuple (dumpList ex is)
  | .list is => .list (dumpList ex is)
  | .seq is => .list (dumpList ex is)
  | .none => .none
  | .atom n => .atom n

/-- the dict comprehensions of `dump_plain`.  (shapes/base.py:63-67, 75-79, 82-86) -/
def dumpItems (ex : Bool) : List (String × Value) → List (String × Value)
  | [] => []
  | (k, v) :: l => if kept ex v then (k, dump ex v) :: dumpItems ex l else dumpItems ex l

/-- the list comprehensions of `dump_plain`.  (shapes/base.py:88-95) -/
def dumpList (ex : Bool) : List Value → List Value
  | [] => []
  | v :: l => dump ex v :: dumpList ex l
end

end Shapes
end Asyncz
