import Verif.Model.Dict
/-!
# Model of scheduler configuration (/repo/asyncz/schedulers/base.py:133-174, 1244-1331, 605-640)

Keys are lists of characters.  Values are opaque (`leaf`) or dictionaries (`map`).
-/
namespace Asyncz
namespace Config

/-- Keys of configurations (schedulers/base.py:155-174). -/
abbrev Text := List Char

/-- A configuration value.  (schedulers/base.py:155-174) -/
inductive Val (ν : Type) where
  | leaf (v : ν)
  | map (d : List (Text × Val ν))

/-- A configuration dictionary (schedulers/base.py:155-174). -/
abbrev Cfg (ν : Type) := Dict Text (Val ν)

variable {ν : Type}

/-- `key.split(".")`.  (schedulers/base.py:165) -/
def splitDot : Text → List Text
  | [] => [[]]
  | c :: t =>
    if c = '.' then [] :: splitDot t
    else match splitDot t with
      | [] => [[c]]
      | p :: ps => (c :: p) :: ps

/-- The assignment of one key (base.py:163-170): the first component is looked up or created at each
level; `none`: a value on the way is not a mapping (`AttributeError` or `TypeError`).  The empty path
does not occur.  A mapping given by the user is extended in place; here the extension is a new value. -/
def put : List Text → Val ν → Cfg ν → Option (Cfg ν)
  | [], _, _ => none
  | [k], v, d => some (d.set k v)
  | k :: p, v, d =>
    match d.get? k with
    | none => (put p v []).map fun d' => d.set k (.map d')
    | some (.map d') => (put p v d').map fun d'' => d.set k (.map d'')
    | some (.leaf _) => none

/-- the loop over the keys (base.py:162-170) -/
def putAll : List (Text × Val ν) → Cfg ν → Option (Cfg ν)
  | [], d => some d
  | (k, v) :: l, d => (put (splitDot k) v d).bind (putAll l)

/-- the comprehension that picks the prefixed keys (base.py:154-160) -/
def strip (pre : Text) (g : Cfg ν) : Cfg ν :=
  g.filterMap fun p => if pre.isPrefixOf p.1 then some (p.1.drop pre.length, p.2) else none

/-- `config.update(options)` (base.py:172) -/
def update (c : Cfg ν) (options : Cfg ν) : Cfg ν := options.foldl (fun c p => c.set p.1 p.2) c

/-- What `setup` raises (schedulers/base.py:150-174). -/
inductive Err where
  | alreadyRunning
  | notMapping
  deriving DecidableEq, Repr

/-- `setup` (base.py:133-174) up to the call of `_setup`, which gets the result.  An absent or empty
prefix keeps all keys. -/
def setup (stopped : Bool) (g : Option (Cfg ν)) (pre : Option Text) (options : Cfg ν) : Except Err (Cfg ν) :=
  if stopped then
    let g := g.getD []
    let g := match pre with
      | none => g
      | some pre => if pre = [] then g else strip pre g
    match putAll g [] with
    | none => .error .notMapping
    | some c => .ok (update c options)
  else .error .alreadyRunning

/-! ## Executors and stores -/

/-- how an executor or store is obtained.  (schedulers/base.py:1286-1331) -/
inductive Made (ν : Type) where
  | given (v : ν)
  | plugin (name : Val ν) (args : Cfg ν)
  | class (ref : Val ν) (args : Cfg ν)

/-- What `_setup` raises for an entry (schedulers/base.py:1286-1331). -/
inductive EntryErr where
  | valueError
  | typeError
  | creation
  deriving DecidableEq, Repr

/-- the Python operations on opaque values that are used.  (schedulers/base.py:1286-1331) -/
structure Py (ν κ : Type) where
  /-- `isinstance(value, ExecutorType)` or `StoreType` -/
  isInstance : ν → Bool
  /-- `bool(value)` of a value that is not a mapping -/
  truthy : ν → Bool
  /-- `create_plugin_instance`, `maybe_ref(...)(**value)` or the instance itself; `none`: it raises -/
  create : Made ν → Option κ

variable {κ : Type}

/-- Truth value of an optional configuration value (schedulers/base.py:1286-1331). -/
def truthy (py : Py ν κ) : Option (Val ν) → Bool
  | none => false
  | some (.leaf v) => py.truthy v
  | some (.map d) => !d.isEmpty

/-- one entry of `executors` or `stores` (base.py:1286-1306, 1311-1331) -/
def made (py : Py ν κ) : Val ν → Except EntryErr (Made ν)
  | .leaf v => if py.isInstance v then .ok (.given v) else .error .typeError
  | .map d =>
    let cls := Dict.get? d "class".toList
    let d := Dict.erase d "class".toList
    let plugin := Dict.get? d "type".toList
    let d := Dict.erase d "type".toList
    if truthy py plugin then .ok (.plugin (plugin.getD (.map [])) d)
    else if truthy py cls then .ok (.class (cls.getD (.map [])) d)
    else .error .valueError

/-- One entry of `executors` or `stores` (schedulers/base.py:1286-1331). -/
def entry (py : Py ν κ) (v : Val ν) : Except EntryErr κ :=
  match made py v with
  | .error e => .error e
  | .ok m => match py.create m with
    | none => .error .creation
    | some x => .ok x

/-- `add_executor`/`add_store` (base.py:372-401, 416-440) with an instance, on a stopped scheduler -/
def add (alias : Text) (x : κ) (reg : Dict Text κ) : Except EntryErr (Dict Text κ) :=
  if reg.contains alias then .error .valueError else .ok (reg.set alias x)

/-- the loop over the entries (base.py:1285-1306, 1310-1331): the registry, and the error that ended it -/
def entries (py : Py ν κ) : List (Text × Val ν) → Dict Text κ → Dict Text κ × Option EntryErr
  | [], reg => (reg, none)
  | (a, v) :: l, reg =>
    match entry py v with
    | .error e => (reg, some e)
    | .ok x => match add a x reg with
      | .error e => (reg, some e)
      | .ok reg => entries py l reg

/-- `self.executors.clear()` and the loop.  (schedulers/base.py:1286-1331) -/
def configure (py : Py ν κ) (conf : Cfg ν) : Dict Text κ × Option EntryErr := entries py conf []

/-! ## Task defaults -/

/-- Values of task options: Python's `None`, or a value.  (schedulers/base.py:606-638) -/
abbrev OptVal (ν : Type) := Option ν

/-- `TaskDefaultStruct` (schedulers/datastructures.py:26-72); the conversions of `__init__` are applied before -/
structure Defaults (ν : Type) where
  grace : OptVal ν
  coalesce : ν
  maxInstances : ν

/-- `model_dump(exclude_none=True)` (schedulers/datastructures.py:57-72) -/
def Defaults.dump (d : Defaults ν) : Dict String (OptVal ν) :=
  [("mistrigger_grace_time", d.grace), ("coalesce", some d.coalesce), ("max_instances", some d.maxInstances)].filter
    fun p => p.2.isSome

/-- `task_kwargs.setdefault(key, value)`.  (schedulers/base.py:606-638) -/
def setDefault (kw : Dict String (OptVal ν)) (key : String) (v : OptVal ν) : Dict String (OptVal ν) :=
  if kw.contains key then kw else kw.set key v

/-- `add_task` with a callable (base.py:606-638): the keyword arguments given to `Task`; `given` are those that
are not `undefined` -/
def taskKwargs (given : Dict String (OptVal ν)) (allowMistrigger : Bool) (d : Defaults ν) : Dict String (OptVal ν) :=
  let kw := if allowMistrigger then setDefault given "mistrigger_grace_time" none else given
  d.dump.foldl (fun kw p => setDefault kw p.1 p.2) kw

/-- The value of an option of the new task: the keyword argument, or the default of the class `TaskDefaultsType`
(tasks/types.py:14-19). -/
def option (classDefault : String → OptVal ν) (kw : Dict String (OptVal ν)) (key : String) : OptVal ν :=
  (kw.get? key).getD (classDefault key)

end Config
end Asyncz
