import Verif.Model.DateString
import Verif.Model.TaskObj
import Verif.Spec.Cli
/-!
# The command line (/repo/asyncz/cli)

`str.strip` and `str.lower` are parameters.  Simplification: the limits of `int()` on the number of digits and of
`float` and `timedelta` on magnitude are not modelled.
-/
namespace Asyncz
namespace Cli
open Spec

/-- The string methods the code uses (Library; used at /repo/asyncz/cli/_parsers.py:29-31, cli/utils.py:103,118). -/
structure Str where
  strip : Text → Text
  lower : Text → Text

/-- `s.partition(c)`: `none` as second component if `c` does not occur.
(Library; used at /repo/asyncz/cli/utils.py:95,102,141; `split("=", 1)` at cli/_parsers.py:28) -/
def partition (c : Char) : Text → Text × Option Text
  | [] => ([], none)
  | d :: s => if d = c then ([], some s) else ((d :: (partition c s).1), (partition c s).2)

/-- What a store option yields: the plugin with its settings. (/repo/asyncz/cli/_parsers.py:40-45) -/
inductive StoreCfg where
  | memory
  | sqlalchemy (database : Text)
  deriving DecidableEq, Repr

/-- The name of the plugin (/repo/asyncz/cli/_parsers.py:40-45). -/
def StoreCfg.plugin : StoreCfg → Text
  | .memory => "memory".toList
  | .sqlalchemy _ => "sqlalchemy".toList

/-- `_STORE_ALIASES.get(kind, kind)` (/repo/asyncz/cli/_parsers.py:5-11,35) -/
def pluginOf (kind : Text) : Text :=
  if kind = "durable".toList ∨ kind = "sql".toList ∨ kind = "sqlite".toList ∨ kind = "sqlalchemy".toList then
    "sqlalchemy".toList
  else kind

/-- `parse_store_option` (/repo/asyncz/cli/_parsers.py:14-50): the store and the alias hint; `none` is
`click.BadParameter`. -/
def parseStoreOption (S : Str) (spec : Text) : Option (StoreCfg × Option Text) :=
  if spec = [] then some (.memory, none)
  else
    let r := match partition '=' spec with
      | (k, some v) => (S.lower (S.strip k), some (S.strip v), true)
      | (_, none) => (S.lower (S.strip spec), none, false)
    let kind := r.1
    let value := r.2.1
    let hint := if r.2.2 then some kind else none
    if pluginOf kind = "sqlalchemy".toList then
      match value with
      | none => none
      | some [] => none
      | some v => some (.sqlalchemy v, hint)
    else if pluginOf kind = "memory".toList then some (.memory, hint)
    else none

/-- `alias_hint or ("default" if i == 0 else plugin)` (/repo/asyncz/cli/utils.py:246) -/
def storeAlias (first : Bool) (hint : Option Text) (c : StoreCfg) : Text :=
  match hint with
  | some (a :: h) => a :: h
  | _ => if first then "default".toList else c.plugin

/-- the loop of `build_stores_map` (/repo/asyncz/cli/utils.py:224-248) -/
def storesLoop (S : Str) : Bool → List Text → Dict Text StoreCfg → Option (Dict Text StoreCfg)
  | _, [], d => some d
  | first, spec :: specs, d =>
    match parseStoreOption S spec with
    | none => none
    | some (c, hint) => storesLoop S false specs (d.set (storeAlias first hint c) c)

/-- `build_stores_map` (/repo/asyncz/cli/utils.py:203-250) -/
def buildStoresMap (S : Str) (specs : List Text) : Option (Dict Text StoreCfg) :=
  if specs = [] then some [("default".toList, .memory)] else storesLoop S true specs []

/-- The executor classes (/repo/asyncz/cli/utils.py:187-196). -/
inductive ExecutorClass where
  | asyncio | thread | process | debug
  deriving DecidableEq, Repr

/-- The class of a type name (/repo/asyncz/cli/utils.py:187-198). -/
def executorClass (t : Text) : Option ExecutorClass :=
  if t = "asyncio".toList then some .asyncio
  else if t = "thread".toList ∨ t = "threads".toList ∨ t = "pool".toList then some .thread
  else if t = "process".toList ∨ t = "proc".toList ∨ t = "processpool".toList then some .process
  else if t = "debug".toList then some .debug
  else none

/-- `parse_executor` (/repo/asyncz/cli/utils.py:77-118): alias, type and number of workers; `none` is
`ValueError`. `int` is Python's `int()`. -/
def parseExecutor (S : Str) (int : Text → Option Int) (spec : Text) : Option (Text × Text × Option Int) :=
  match partition '=' spec with
  | (_, none) => none
  | (alias, some right) =>
    let p := partition ':' right
    let workers := p.2.getD []
    if workers = [] then some (S.strip alias, S.lower (S.strip p.1), none)
    else
      match int workers with
      | none => none
      | some n => some (S.strip alias, S.lower (S.strip p.1), some n)

/-- `build_executors_map` (/repo/asyncz/cli/utils.py:165-200) -/
def executorsLoop (S : Str) (int : Text → Option Int) :
    List Text → Dict Text (ExecutorClass × Option Int) → Option (Dict Text (ExecutorClass × Option Int))
  | [], d => some d
  | spec :: specs, d =>
    match parseExecutor S int spec with
    | none => none
    | some (alias, t, w) =>
      match executorClass t with
      | none => none
      | some c => executorsLoop S int specs (d.set alias (c, w))

/-- `build_executors_map` (/repo/asyncz/cli/utils.py:165-200) -/
def buildExecutorsMap (S : Str) (int : Text → Option Int) (specs : List Text) :=
  executorsLoop S int specs []

/-- How `parse_interval` ends (/repo/asyncz/cli/types.py:11-44). -/
inductive Interval where
  | seconds (n : Nat)
  | valueError
  | keyError
  deriving DecidableEq, Repr

/-- `([smh])` ignoring case: also `ſ` (U+017F), a case variant of `s` (Library `re`; used at
/repo/asyncz/cli/types.py:32). -/
def isUnit (c : Char) : Bool := c ∈ ['s', 'S', 'ſ', 'm', 'M', 'h', 'H']

/-- `mult[unit]`, with `unit` in lower case (/repo/asyncz/cli/types.py:38-44); `ſ` is no key. -/
def mult (c : Char) : Option Nat :=
  if c = 's' ∨ c = 'S' then some 1
  else if c = 'm' ∨ c = 'M' then some 60
  else if c = 'h' ∨ c = 'H' then some 3600
  else none

/-- the whole pattern `(\d+)\s*([smh])` matches: the digits and the unit
(Library `re`; used at /repo/asyncz/cli/types.py:32).  Digits, blanks and units exclude each other, so that
nothing is left to backtracking. -/
def intervalMatch (D : DateString.Spec.Digits) (blank : Char → Bool) (s : Text) : Option (Text × Char) :=
  let ds := s.takeWhile fun c => (D c).isSome
  let rest := s.dropWhile fun c => (D c).isSome
  if ds = [] then none
  else
    match rest.dropWhile blank with
    | [u] => if isUnit u then some (ds, u) else none
    | _ => none

/-- `parse_interval` (/repo/asyncz/cli/types.py:11-44) -/
def parseInterval (D : DateString.Spec.Digits) (S : Str) (blank : Char → Bool) (text : Text) : Interval :=
  match intervalMatch D blank (S.strip text) with
  | none => .valueError
  | some (ds, u) =>
    match mult u with
    | none => .keyError
    | some k => .seconds (DateString.int D ds * k)

/-- What `parse_trigger` builds (/repo/asyncz/cli/types.py:64-78), with the arguments it hands on. -/
inductive TriggerOf where
  | cron (expr : Text)
  | interval (text : Text)
  | date (at_ : Text)
  deriving DecidableEq, Repr

/-- `bool(x)` of an optional string (/repo/asyncz/cli/types.py:64). -/
def given (x : Option Text) : Bool := match x with | some (_ :: _) => true | _ => false

/-- `parse_trigger` (/repo/asyncz/cli/types.py:46-78); `none` is `ValueError`. -/
def parseTrigger (cron interval at_ : Option Text) : Option TriggerOf :=
  if (given cron).toNat + (given interval).toNat + (given at_).toNat ≠ 1 then none
  else if given cron then cron.map .cron
  else if given interval then interval.map .interval
  else at_.map .date

/-! ## `asyncz update` -/
open TaskObj

/-- The options of `asyncz update` (/repo/asyncz/cli/commands/update.py:45-74).  `args` and `kwargs` have been
through `json.loads`; `coalesce` through `_parse_coalesce`; the grace time in millionths. -/
structure UpdateOpts where
  name : Option String
  callable : Option String
  args : Option Val
  kwargs : Option Val
  executor : Option String
  coalesce : Option Bool
  maxInstances : Option Int
  grace : Option Int
  clearGrace : Bool
  yes : Bool
  dryRun : Bool

/-- `if value is not None: updates[key] = value` (/repo/asyncz/cli/commands/update.py:92-114) -/
def addOpt (key : String) (v : Option Val) (d : Dict String Val) : Dict String Val :=
  match v with
  | none => d
  | some v => d.set key v

/-- the grace time to set, if any (/repo/asyncz/cli/commands/update.py:111-114) -/
def graceOpt (o : UpdateOpts) : Option Val :=
  if o.clearGrace then some .none else o.grace.map .float

/-- `updates` without `fn`, which is a parameter of `update_task` (/repo/asyncz/cli/commands/update.py:87-114) -/
def updatesOf (o : UpdateOpts) : Dict String Val :=
  addOpt "mistrigger_grace_time" (graceOpt o)
  (addOpt "max_instances" (o.maxInstances.map .int)
  (addOpt "coalesce" (o.coalesce.map .bool)
  (addOpt "executor" (o.executor.map .str)
  (addOpt "kwargs" o.kwargs
  (addOpt "args" o.args
  (addOpt "name" (o.name.map .str) []))))))

/-- `fn` (/repo/asyncz/cli/commands/update.py:94-95, tasks/base.py:79) -/
def fnOf (o : UpdateOpts) : Val := match o.callable with | some s => .str s | none => .none

/-- the fields of `_task_update_snapshot` (/repo/asyncz/cli/commands/update.py:27-37) -/
def snapshotFields : List (String × Attr) :=
  [("name", .name), ("executor", .executor), ("callable_reference", .fnRef), ("args", .args),
   ("kwargs", .kwargs), ("coalesce", .coalesce), ("max_instances", .maxInst), ("mistrigger_grace_time", .grace)]

/-- `_build_diff` of two snapshots (/repo/asyncz/cli/commands/update.py:40-45): the field, the value before and the
value after. -/
def diff (before after : Attrs) : List (String × Val × Val) :=
  (snapshotFields.filter fun f => before f.2 ≠ after f.2).map fun f => (f.1, before f.2, after f.2)

/-- How the command ends (/repo/asyncz/cli/commands/update.py:76-198). -/
inductive UpdateEnd where
  /-- `BadParameter` for `args` or `kwargs`, `ClickException` for no updates -/
  | badOptions
  | raised (e : PyErr)
  | noChange
  | dryRun (diff : List (String × Val × Val))
  /-- `click.confirm(abort=True)` answered with no -/
  | aborted
  | applied (diff : List (String × Val × Val))
  deriving DecidableEq, Repr

/-- `args must be a JSON array`, `kwargs must be a JSON object` (/repo/asyncz/cli/commands/update.py:96-105) -/
def badJson (o : UpdateOpts) : Bool :=
  (o.args.any fun v => match v with | .seq _ => false | _ => true) ||
    (o.kwargs.any fun v => match v with | .map _ => false | _ => true)

/-- `main` (/repo/asyncz/cli/commands/update.py:85-196) for a task that exists: the task in its store afterwards
and how the command ends.  `confirm` is the answer to the question, `sched` the scheduler. -/
def updateCmd (py : Py) (sched : Val) (o : UpdateOpts) (confirm : Bool) (t : Attrs) : Attrs × UpdateEnd :=
  if badJson o then (t, .badOptions)
  else if updatesOf o = [] ∧ o.callable = none then (t, .badOptions)
  else
    match update py t (fnOf o) sched (updatesOf o) with
    | (_, some e) => (t, .raised e)
    | (t', none) =>
      let d := diff t t'
      if d = [] then (t, .noChange)
      else if o.dryRun then (t, .dryRun d)
      else if !o.yes && !confirm then (t, .aborted)
      else ((update py t (fnOf o) sched (updatesOf o)).1, .applied d)

end Cli
end Asyncz
