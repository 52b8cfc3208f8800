import Verif.Model.Dict
/-!
# Model of the plugin registry (/repo/asyncz/schedulers/base.py:1486-1546, 372-402, 416-447, schedulers/defaults.py)

Aliases and module paths are lists of characters.  Python objects are opaque.
-/
namespace Asyncz
namespace Plugins

/-- Aliases and module paths (schedulers/defaults.py:1-28). -/
abbrev Text := List Char

/-- The three kinds of plugins (schedulers/base.py:1506-1510). -/
inductive Kind where
  | trigger | store | executor
  deriving DecidableEq, Repr

/-- What a creation raises.  `raised`: an exception of the imported module or of the constructor
(schedulers/base.py:1490-1527, 383-398). -/
inductive Err (ε : Type) where
  | importError
  | lookupError
  | typeError
  | valueError
  | raised (e : ε)
  deriving DecidableEq, Repr

/-- The Python side: what the import system, `getattr`, `issubclass` and the constructors do.
`attr m n` is `getattr(import_module(m), n)`; `importError` stands for `ModuleNotFoundError` and for the
`AttributeError` that is turned into an `ImportError` (schedulers/base.py:1490-1500).  `isKind` is false both
for a class of another kind and for an object that is no class, where `issubclass` raises `TypeError`
itself (1520-1523).  `call` is the constructor (1527).  Importing a module is taken to be repeatable:
its outcome does not depend on earlier imports. -/
structure Py (ω β ι ε : Type) where
  attr : Text → Text → Except (Err ε) ω
  isKind : ω → Kind → Bool
  call : ω → Dict Text β → Except ε ι

variable {ω β ι ε : Type}

/-- `s.rsplit(":", 1)` unpacked into two names: `none` if there is no colon (`ValueError`)
(schedulers/base.py:1490-1493). -/
def rsplit : Text → Option (Text × Text)
  | [] => none
  | c :: t =>
    match rsplit t with
    | some (a, b) => some (c :: a, b)
    | none => if c = ':' then some ([], t) else none

/-- `resolve_load_plugin` (schedulers/base.py:1485-1500). -/
def load (py : Py ω β ι ε) (target : Text) : Except (Err ε) ω :=
  match rsplit target with
  | none => .error .importError
  | some (m, n) => py.attr m n

/-- The registries of a scheduler (schedulers/base.py:100-105): the targets of the aliases and the classes
that have been loaded. -/
structure Reg (ω : Type) where
  aliases : Kind → Dict Text Text
  classes : Kind → Dict Text ω

/-- assignment to one of the class registries (schedulers/base.py:1517) -/
def Reg.cache (r : Reg ω) (k : Kind) (a : Text) (c : ω) : Reg ω :=
  { r with classes := fun k' => if k' = k then (r.classes k).set a c else r.classes k' }

/-- assignment to one of the alias registries, by which users add plugins
(schedulers/base.py:100-104: `scheduler.trigger_plugins[alias] = target`) -/
def Reg.point (r : Reg ω) (k : Kind) (a : Text) (t : Text) : Reg ω :=
  { r with aliases := fun k' => if k' = k then (r.aliases k).set a t else r.aliases k' }

/-- the call of the constructor (schedulers/base.py:1527) -/
def make (py : Py ω β ι ε) (c : ω) (args : Dict Text β) : Except (Err ε) ι :=
  match py.call c args with
  | .ok x => .ok x
  | .error e => .error (.raised e)

/-- `create_plugin_instance` (schedulers/base.py:1502-1527).  The class is stored in the registry before
it is checked. -/
def create (py : Py ω β ι ε) (r : Reg ω) (k : Kind) (a : Text) (args : Dict Text β) :
    Reg ω × Except (Err ε) ι :=
  match (r.classes k).get? a with
  | some c => (r, make py c args)
  | none =>
    match (r.aliases k).get? a with
    | none => (r, .error .lookupError)
    | some t =>
      match load py t with
      | .error e => (r, .error e)
      | .ok c =>
        if py.isKind c k then (r.cache k a c, make py c args)
        else (r.cache k a c, .error .typeError)

/-- The `trigger` argument of add_task and reschedule_task (schedulers/base.py:1529-1542). -/
inductive TriggerArg (ι : Type) where
  | instance (x : ι)
  | none
  | alias (a : Text)
  | other

/-- `trigger_args.setdefault("timezone", self.timezone)` (schedulers/base.py:1544) -/
def withZone (tz : β) (args : Dict Text β) : Dict Text β :=
  match args.get? "timezone".toList with
  | some _ => args
  | none => args.set "timezone".toList tz

/-- `create_trigger` (schedulers/base.py:1529-1546) -/
def createTrigger (py : Py ω β ι ε) (tz : β) (r : Reg ω) (t : TriggerArg ι) (args : Dict Text β) :
    Reg ω × Except (Err ε) ι :=
  match t with
  | .instance x => (r, .ok x)
  | .none => create py r .trigger "date".toList (withZone tz args)
  | .alias a => create py r .trigger a (withZone tz args)
  | .other => (r, .error .typeError)

/-- The first argument of add_executor and add_store (schedulers/base.py:372-402, 416-441). -/
inductive PartArg (ι : Type) where
  | instance (x : ι)
  | alias (a : Text)
  | other

/-- `add_executor` (k = executor, schedulers/base.py:372-402) and `add_store` (k = store, 416-447) up to
starting the new part: the table of parts, the plugin registries and the result. -/
def addPart (py : Py ω β ι ε) (k : Kind) (r : Reg ω) (parts : Dict Text ι) (x : PartArg ι) (alias : Text)
    (args : Dict Text β) : Reg ω × Dict Text ι × Except (Err ε) Unit :=
  match parts.get? alias with
  | some _ => (r, parts, .error .valueError)
  | none =>
    match x with
    | .instance x => (r, parts.set alias x, .ok ())
    | .alias a =>
      match create py r k a args with
      | (r', .ok x) => (r', parts.set alias x, .ok ())
      | (r', .error e) => (r', parts, .error e)
    | .other => (r, parts, .error .typeError)

/-- What happens to the registries of a scheduler: a creation (directly or through add_task,
reschedule_task, add_executor, add_store, setup) or a new target of an alias
(schedulers/base.py:100-105, 1502-1546). -/
inductive Op (β : Type) where
  | create (k : Kind) (a : Text) (args : Dict Text β)
  | point (k : Kind) (a : Text) (t : Text)

/-- one operation (schedulers/base.py:1502-1527) -/
def step (py : Py ω β ι ε) (r : Reg ω) : Op β → Reg ω
  | .create k a args => (create py r k a args).1
  | .point k a t => r.point k a t

/-- a history (schedulers/base.py:1502-1527) -/
def run (py : Py ω β ι ε) (r : Reg ω) (l : List (Op β)) : Reg ω := l.foldl (step py) r

/-- The built-in aliases (schedulers/defaults.py:1-27). -/
def defaults : Kind → Dict Text Text
  | .trigger => [
      ("date".toList, "asyncz.triggers.date:DateTrigger".toList),
      ("interval".toList, "asyncz.triggers.interval:IntervalTrigger".toList),
      ("cron".toList, "asyncz.triggers.cron.trigger:CronTrigger".toList),
      ("and".toList, "asyncz.triggers.combination:AndTrigger".toList),
      ("or".toList, "asyncz.triggers.combination:OrTrigger".toList),
      ("shutdown".toList, "asyncz.triggers.shutdown:ShutdownTrigger".toList)]
  | .executor => [
      ("debug".toList, "asyncz.executors.debug:DebugExecutor".toList),
      ("pool".toList, "asyncz.executors.pool:ThreadPoolExecutor".toList),
      ("threadpool".toList, "asyncz.executors.pool:ThreadPoolExecutor".toList),
      ("processpool".toList, "asyncz.executors.process_pool:ProcessPoolExecutor".toList),
      ("asyncio".toList, "asyncz.executors.asyncio:AsyncIOExecutor".toList)]
  | .store => [
      ("memory".toList, "asyncz.stores.memory:MemoryStore".toList),
      ("file".toList, "asyncz.stores.file:FileStore".toList),
      ("mongo".toList, "asyncz.stores.mongo:MongoDBStore".toList),
      ("mongodb".toList, "asyncz.stores.mongo:MongoDBStore".toList),
      ("redis".toList, "asyncz.stores.redis:RedisStore".toList),
      ("sqlalchemy".toList, "asyncz.stores.sqlalchemy:SQLAlchemyStore".toList)]

/-- A class of a module: its kind and its `alias` attribute (triggers/date.py:9-18). -/
structure Class where
  module : Text
  name : Text
  kind : Kind
  alias : Option Text
  deriving DecidableEq

/-- The plugin classes of the package, by the module that defines them (triggers/date.py:9, 18, triggers/interval.py:10, 26,
triggers/cron/trigger.py:24, 56, triggers/combination.py:7, 17, 39, 49, triggers/shutdown.py:7-8, executors/debug.py:10,
executors/pool.py:57, executors/process_pool.py:52, executors/asyncio.py:11, stores/memory.py:12, stores/file.py:22,
stores/mongo.py:23, stores/redis.py:22, stores/sqlalchemy.py:23). -/
def classes : List Class := [
  ⟨"asyncz.triggers.date".toList, "DateTrigger".toList, .trigger, some "date".toList⟩,
  ⟨"asyncz.triggers.interval".toList, "IntervalTrigger".toList, .trigger, some "interval".toList⟩,
  ⟨"asyncz.triggers.cron.trigger".toList, "CronTrigger".toList, .trigger, some "cron".toList⟩,
  ⟨"asyncz.triggers.combination".toList, "AndTrigger".toList, .trigger, some "and".toList⟩,
  ⟨"asyncz.triggers.combination".toList, "OrTrigger".toList, .trigger, some "or".toList⟩,
  ⟨"asyncz.triggers.shutdown".toList, "ShutdownTrigger".toList, .trigger, some "shutdown".toList⟩,
  ⟨"asyncz.executors.debug".toList, "DebugExecutor".toList, .executor, none⟩,
  ⟨"asyncz.executors.pool".toList, "ThreadPoolExecutor".toList, .executor, none⟩,
  ⟨"asyncz.executors.process_pool".toList, "ProcessPoolExecutor".toList, .executor, none⟩,
  ⟨"asyncz.executors.asyncio".toList, "AsyncIOExecutor".toList, .executor, none⟩,
  ⟨"asyncz.stores.memory".toList, "MemoryStore".toList, .store, none⟩,
  ⟨"asyncz.stores.file".toList, "FileStore".toList, .store, none⟩,
  ⟨"asyncz.stores.mongo".toList, "MongoDBStore".toList, .store, none⟩,
  ⟨"asyncz.stores.redis".toList, "RedisStore".toList, .store, none⟩,
  ⟨"asyncz.stores.sqlalchemy".toList, "SQLAlchemyStore".toList, .store, none⟩]

/-- the registries of a new scheduler (schedulers/base.py:100-105) -/
def fresh : Reg ω := ⟨defaults, fun _ => []⟩

end Plugins
end Asyncz
