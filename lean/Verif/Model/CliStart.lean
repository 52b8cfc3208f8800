import Verif.Model.TaskObj
/-!
# `asyncz start`: loading jobs, watching files, loading a bootstrap scheduler
(/repo/asyncz/cli/loader.py, cli/utils.py, cli/bootstrap_loader.py, cli/commands/start.py)
-/
namespace Asyncz
namespace CliStart
open TaskObj

/-! ## Loading jobs -/

/-- An entry of the jobs file or registry (cli/loader.py:23-31, 57-63); `valid`: its trigger options are accepted
(`parse_trigger`, or `item["trigger"]` is there); `func`: absent if there is no such key. -/
structure Entry where
  func : Option Val
  name : Val
  valid : Bool
  deriving DecidableEq, Repr

/-- `Task(func=…, name=…)` (cli/loader.py:25,59; tasks/base.py:52-62): `func` is no parameter of the constructor, so it is among
`kwargs`, which are passed to `update_task`.  `base` are the attributes pydantic gave the new object. -/
def construct (py : Py) (base : Attrs) (func name : Val) : Attrs × Option PyErr :=
  update py base .none .none [("func", func), ("name", name)]

/-- Why loading jobs fails (cli/loader.py:23-31, 57-63) -/
inductive LoadErr where
  | badTrigger
  | noFunc
  | task (e : PyErr)
  | add (e : PyErr)
  deriving DecidableEq, Repr

/-- The loop over the entries (cli/loader.py:23-33, 56-65): the scheduler afterwards, and the number of jobs added or the
exception.  `add` is `scheduler.add_task`. -/
def loadJobs {S : Type} (py : Py) (base : Attrs) (add : S → Attrs → Entry → S × Option PyErr) :
    List Entry → Nat → S → S × Except LoadErr Nat
  | [], n, s => (s, .ok n)
  | j :: js, n, s =>
    if j.valid = false then (s, .error .badTrigger)
    else match j.func with
      | none => (s, .error .noFunc)
      | some f => match construct py base f j.name with
        | (_, some e) => (s, .error (.task e))
        | (t, none) => match add s t j with
          | (s', some e) => (s', .error (.add e))
          | (s', none) => loadJobs py base add js (n + 1) s'

/-! ## Watching files -/

/-- `WatchTarget`: a path and the modification time seen last (cli/utils.py:246-253) -/
structure Target where
  path : String
  mtime : Int
  deriving DecidableEq, Repr

/-- the modification times of the files that exist (cli/utils.py:273,283,307) -/
abbrev Files := String → Option Int

/-- `collect_watch_targets` for the given paths: those that exist (cli/utils.py:256-289).  Simplification: the module's
path is given by the import system. -/
def collect (fs : Files) (paths : List String) : List Target :=
  paths.filterMap fun p => (fs p).map fun m => ⟨p, m⟩

/-- One target of `changed` (cli/utils.py:306-312). -/
def check (fs : Files) (t : Target) : Bool × Target :=
  match fs t.path with
  | some m => if m ≠ t.mtime then (true, { t with mtime := m }) else (false, t)
  | none => (true, t)

/-- `changed` (cli/utils.py:291-314) -/
def changed (fs : Files) (ts : List Target) : Bool × List Target :=
  (ts.any fun t => (check fs t).1, ts.map fun t => (check fs t).2)

/-- What `start --watch` sees at its polls (cli/commands/start.py:134-152): one answer for each state of the file system. -/
def polls : List Files → List Target → List Bool
  | [], _ => []
  | fs :: rest, ts => let r := changed fs ts; r.1 :: polls rest r.2

/-! ## The bootstrap scheduler -/

/-- What the interpreter answers about the objects involved (cli/bootstrap_loader.py:11-39, 66-101).  `call` and
`getScheduler` may give something else each time: they take the number of calls so far.  `none`: an exception. -/
structure World (α : Type) where
  /-- `getattr(import_module(mod), attr)` -/
  find : String → String → Option α
  isClass : α → Bool
  callable : α → Bool
  /-- it has a callable attribute `get_scheduler` -/
  offers : α → Bool
  call : α → Nat → Option α
  getScheduler : α → Nat → Option α
  isScheduler : α → Bool

/-- `path.split(":", 1)` (cli/bootstrap_loader.py:28-33); `none`: there is no colon. -/
def splitPath (path : String) : Option (String × String) :=
  match path.toList.dropWhile (· ≠ ':') with
  | [] => none
  | _ :: a => some (String.ofList (path.toList.takeWhile (· ≠ ':')), String.ofList a)

/-- the cache and the number of calls made so far (cli/bootstrap_loader.py:8) -/
structure Boot (α : Type) where
  cache : Dict String α
  calls : Nat

variable {α : Type}

/-- `assert_scheduler` and storing in the cache (cli/bootstrap_loader.py:73-75,104-116) -/
def accept (w : World α) (path : String) (r : Option α) (b : Boot α) : Boot α × Option α :=
  match r with
  | none => (b, none)
  | some s => if w.isScheduler s then ({ b with cache := b.cache.set path s }, some s) else (b, none)

/-- patterns 2 and 3 (cli/bootstrap_loader.py:78-96) -/
def loadObject (w : World α) (path : String) (obj : α) (b : Boot α) : Boot α × Option α :=
  if w.offers obj then accept w path (w.getScheduler obj b.calls) { b with calls := b.calls + 1 }
  else if w.callable obj then accept w path (w.call obj b.calls) { b with calls := b.calls + 1 }
  else (b, none)

/-- `load_bootstrap_scheduler` (cli/bootstrap_loader.py:42-101); `none`: it raises. -/
def load (w : World α) (path : String) (b : Boot α) : Boot α × Option α :=
  match b.cache.get? path with
  | some s => (b, some s)
  | none => match splitPath path with
    | none => (b, none)
    | some (m, a) => match w.find m a with
      | none => (b, none)
      | some obj =>
        if w.isClass obj then
          match w.call obj b.calls with
          | none => ({ b with calls := b.calls + 1 }, none)
          | some inst =>
            if w.offers inst then accept w path (w.getScheduler inst (b.calls + 1)) { b with calls := b.calls + 2 }
            else loadObject w path obj { b with calls := b.calls + 1 }
        else loadObject w path obj b

/-- `clear_bootstrap_cache` (cli/bootstrap_loader.py:119-130) -/
def clear (b : Boot α) : Boot α := { b with cache := [] }

end CliStart
end Asyncz
