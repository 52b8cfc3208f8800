/-!
# Specification of a task store

A task store is a finite map from task ids to tasks.  Nothing in this file refers to how any of
the stores is implemented.
-/
namespace Asyncz

/-- What a store can see of a task: its id, its next run time (microseconds since the epoch,
`none` = paused) and everything else (`body`).
Models the attributes used by the stores in /repo/asyncz/tasks/types.py:66-120. -/
structure Task (β : Type) where
  id : String
  nrt : Option Int
  body : β
  deriving DecidableEq, Repr

/-- The outcome of a mutating store call: normal return, or the exception raised
(/repo/asyncz/exceptions.py `ConflictIdError`, `TaskLookupError`). -/
inductive Res where
  | ok
  | conflict (id : String)
  | notFound (id : String)
  deriving DecidableEq, Repr

/-- The mutating calls of the store API (/repo/asyncz/stores/types.py:15-105). -/
inductive StoreOp (β : Type) where
  | add (t : Task β)
  | update (t : Task β)
  | delete (id : String)
  | clear

/-- The abstract store: which task, if any, is stored under each id. -/
abbrev AMap (β : Type) := String → Option (Task β)

namespace AMap
variable {β : Type}
def empty : AMap β := fun _ => none
def set (m : AMap β) (t : Task β) : AMap β := fun i => if i = t.id then some t else m i
def erase (m : AMap β) (id : String) : AMap β := fun i => if i = id then none else m i
end AMap

/-- What each call does to the map and what it returns. `upsert` says whether `update_task` on an
unknown id inserts it (`MemoryStore` inserts, the persistent stores raise `TaskLookupError`). -/
def specStep {β : Type} (upsert : Bool) (m : AMap β) : StoreOp β → AMap β × Res
  | .add t => match m t.id with
    | some _ => (m, .conflict t.id)
    | none => (m.set t, .ok)
  | .update t => match m t.id with
    | some _ => (m.set t, .ok)
    | none => if upsert then (m.set t, .ok) else (m, .notFound t.id)
  | .delete id => match m id with
    | some _ => (m.erase id, .ok)
    | none => (m, .notFound id)
  | .clear => (AMap.empty, .ok)

/-- A whole history of calls on the abstract map: final map and all results. -/
def specRun {β : Type} (upsert : Bool) (m : AMap β) : List (StoreOp β) → AMap β × List Res
  | [] => (m, [])
  | op :: ops =>
    let r := specStep upsert m op
    let rest := specRun upsert r.1 ops
    (rest.1, r.2 :: rest.2)

/-- `a` runs no later than `b` (paused = never). -/
def RunsNoLater (a b : Option Int) : Prop :=
  match a, b with
  | some x, some y => x ≤ y
  | _, none => True
  | none, some _ => False

/-- `a` comes strictly before `b` in the listing order: earlier run time first, ties by id,
paused tasks last. -/
def Before {β : Type} (a b : Task β) : Prop :=
  match a.nrt, b.nrt with
  | some x, some y => x < y ∨ (x = y ∧ a.id < b.id)
  | some _, none => True
  | none, some _ => False
  | none, none => a.id < b.id

/-- The task is due at `now`. -/
def Due {β : Type} (now : Int) (t : Task β) : Prop := ∃ r, t.nrt = some r ∧ r ≤ now

/-- `l` lists exactly the tasks of `m` satisfying `p`, each once. -/
def Lists {β : Type} (m : AMap β) (p : Task β → Prop) (l : List (Task β)) : Prop :=
  l.Nodup ∧ ∀ t, t ∈ l ↔ m t.id = some t ∧ p t

/-- `r` is the earliest next run time of the tasks in `m` (`none` iff every task is paused). -/
def IsEarliest {β : Type} (m : AMap β) (r : Option Int) : Prop :=
  match r with
  | none => ∀ i t, m i = some t → t.nrt = none
  | some x => (∃ i t, m i = some t ∧ t.nrt = some x) ∧
      ∀ i t y, m i = some t → t.nrt = some y → x ≤ y

end Asyncz
