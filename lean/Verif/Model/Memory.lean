import Verif.Model.Dict
import Verif.Spec.Store
/-!
# Model of `MemoryStore` (/repo/asyncz/stores/memory.py)
-/
namespace Asyncz
namespace Memory
variable {β : Type}

/-- One stored pair `(task, timestamp)` (memory.py:19-20).  `ts` is the timestamp recorded when the
task was last stored; `task` is the live object, whose `next_run_time` may have been changed since.
Simplification: the float timestamp is the integer number of microseconds. -/
structure Entry (β : Type) where
  task : Task β
  ts : Option Int

/-- The attributes of a `MemoryStore` (memory.py:17-20). -/
structure Store (β : Type) where
  tasks : List (Entry β)
  index : Dict String (Entry β)

/-- memory.py:17-20 -/
def init : Store β := ⟨[], []⟩

/-- `a < b` where `None` counts as `float("inf")` (memory.py:113,117). -/
def tsLT : Option Int → Option Int → Bool
  | some x, some y => x < y
  | some _, none => true
  | none, _ => false

/-- The loop of `get_task_index` (memory.py:114-129).  `tasks[mid]` always exists when
`high ≤ len(tasks)`; the `none` branch is unreachable (proved in `Lemmas/Memory.lean`). -/
def searchLoop (tasks : List (Entry β)) (ts : Option Int) (id : String) (low high : Nat) : Nat :=
  if _h : low < high then
    let mid := (low + high) / 2
    match tasks[mid]? with
    | none => low
    | some e =>
      if tsLT ts e.ts then searchLoop tasks ts id low mid
      else if tsLT e.ts ts then searchLoop tasks ts id (mid + 1) high
      else if id < e.task.id then searchLoop tasks ts id low mid
      else if e.task.id < id then searchLoop tasks ts id (mid + 1) high
      else mid
  else low
termination_by high - low
decreasing_by all_goals omega

/-- `MemoryStore.get_task_index` (memory.py:107-129) -/
def getTaskIndex (s : Store β) (ts : Option Int) (id : String) : Nat :=
  searchLoop s.tasks ts id 0 s.tasks.length

/-- `MemoryStore.lookup_task` (memory.py:22-23) -/
def lookupTask (s : Store β) (id : String) : Option (Task β) :=
  (s.index.get? id).map Entry.task

/-- `MemoryStore.get_due_tasks` (memory.py:36-45): iterate, stop at the first pair that is paused
or later than `now`. -/
def getDueTasks (s : Store β) (now : Int) : List (Task β) := go s.tasks
where
  go : List (Entry β) → List (Task β)
    | [] => []
    | e :: es => match e.ts with
      | none => []
      | some t => if t > now then [] else e.task :: go es

/-- `MemoryStore.get_next_run_time` (memory.py:47-48): the live `next_run_time` of the first task. -/
def getNextRunTime (s : Store β) : Option Int :=
  match s.tasks with
  | [] => none
  | e :: _ => e.task.nrt

/-- `MemoryStore.get_all_tasks` (memory.py:50-51) -/
def getAllTasks (s : Store β) : List (Task β) := s.tasks.map Entry.task

/-- `MemoryStore.add_task` (memory.py:53-62).  The decorator-mode assertion (`task.id is None`) is
not modelled: ids are strings. -/
def addTask (s : Store β) (t : Task β) : Store β × Res :=
  match s.index.get? t.id with
  | some _ => (s, .conflict t.id)
  | none =>
    let i := getTaskIndex s t.nrt t.id
    let e : Entry β := ⟨t, t.nrt⟩
    (⟨s.tasks.insertIdx i e, s.index.set t.id e⟩, .ok)

/-- `MemoryStore.update_task` (memory.py:64-88) -/
def updateTask (s : Store β) (t : Task β) : Store β × Res :=
  let e : Entry β := ⟨t, t.nrt⟩
  match s.index.get? t.id with
  | none =>
    let i := getTaskIndex s t.nrt t.id
    (⟨s.tasks.insertIdx i e, s.index.set t.id e⟩, .ok)
  | some old =>
    let oldIndex := getTaskIndex s old.ts old.task.id
    let tasks :=
      if old.ts = t.nrt then s.tasks.set oldIndex e
      else
        let tasks' := s.tasks.eraseIdx oldIndex
        tasks'.insertIdx (searchLoop tasks' t.nrt t.id 0 tasks'.length) e
    (⟨tasks, s.index.set t.id e⟩, .ok)

/-- `MemoryStore.delete_task` (memory.py:90-97) -/
def deleteTask (s : Store β) (id : String) : Store β × Res :=
  match s.index.get? id with
  | none => (s, .notFound id)
  | some e =>
    let i := getTaskIndex s e.ts id
    (⟨s.tasks.eraseIdx i, s.index.erase id⟩, .ok)

/-- `MemoryStore.remove_all_tasks` (memory.py:99-101); `shutdown` (103-105) does the same. -/
def removeAllTasks (_ : Store β) : Store β × Res := (init, .ok)

/-- One mutating API call.  (stores/memory.py:53-101) -/
def step (s : Store β) : StoreOp β → Store β × Res
  | .add t => addTask s t
  | .update t => updateTask s t
  | .delete id => deleteTask s id
  | .clear => removeAllTasks s

/-- A history of API calls.  (stores/memory.py:53-101) -/
def run (s : Store β) : List (StoreOp β) → Store β × List Res
  | [] => (s, [])
  | op :: ops =>
    let r := step s op
    let rest := run r.1 ops
    (rest.1, r.2 :: rest.2)

/-- The caller changes a stored task object in place without telling the store: the pair in the
list and the pair in the index hold the same object (memory.py:61-62), so both see the change; the
recorded timestamps do not move.  (tasks/base.py:64-197 mutate `next_run_time` this way.) -/
def touch (s : Store β) (id : String) (nrt : Option Int) (body : β) : Store β :=
  let f := fun (e : Entry β) => if e.task.id = id then { e with task := ⟨id, nrt, body⟩ } else e
  ⟨s.tasks.map f, s.index.map fun p => (p.1, f p.2)⟩

end Memory
end Asyncz
