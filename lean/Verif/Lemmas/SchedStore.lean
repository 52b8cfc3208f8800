import Verif.Spec.StoreIface
import Verif.Props.Memory
/-!
# `MemoryStore` is a lawful store

The scheduler changes task objects in place before it calls `store.update_task(task)`; with
`MemoryStore` the stored object is the same one.  `update_after_touch` shows that this makes no
difference to the result of `update_task`, which is why the scheduler model only has the latter.
-/
namespace Asyncz
namespace Memory
variable {β : Type}

/-- The methods of `MemoryStore` (memory.py:17-129). -/
def ops : StoreOps (Store β) β where
  init := init
  lookup := lookupTask
  due := getDueTasks
  nextRun := getNextRunTime
  all := getAllTasks
  step := step
  close := fun s => (removeAllTasks s).1

theorem run_append (s : Store β) (l : List (StoreOp β)) (op : StoreOp β) :
    (run s (l ++ [op])).1 = (step (run s l).1 op).1 := by
  induction l generalizing s with
  | nil => rfl
  | cons o l ih => simp only [List.cons_append, run]; exact ih _

theorem map_after (l : List (StoreOp β)) : toMap (after l) = mapAfter l := by
  have h := run_spec (inv_init (β := β)) l
  exact congrArg Prod.fst h

/-- `MemoryStore` behaves like a map, in every state that calls can reach. -/
def lawful : LawfulStore (ops (β := β)) where
  Inv := fun s => ∃ l, s = after l
  toMap := toMap
  upsert := fun _ => true
  init_inv := ⟨[], rfl⟩
  init_map := rfl
  key := by
    rintro s i t ⟨l, rfl⟩ h
    have hi : Inv (after l) := run_inv inv_init l
    simp only [toMap, lookupTask] at h
    obtain ⟨e, he, rfl⟩ := Option.map_eq_some_iff.1 h
    exact ((hi.agree _ _).1 he).2
  lookup := fun _ _ => rfl
  due := by rintro s ⟨l, rfl⟩ now; rw [map_after]; exact (C02_memory_due l now).1
  nextRun := by rintro s ⟨l, rfl⟩; rw [map_after]; exact C03_memory_next_run_time l
  all := by rintro s ⟨l, rfl⟩; rw [map_after]; exact (C01_memory_is_a_map l).2.2
  close_inv := by rintro s ⟨l, rfl⟩; exact ⟨l ++ [StoreOp.clear], (run_append init l StoreOp.clear).symm⟩
  step_inv := by rintro s ⟨l, rfl⟩ op; exact ⟨l ++ [op], (run_append _ _ _).symm⟩
  step_map := by
    rintro s ⟨l, rfl⟩ op
    exact toMap_step _ (run_inv inv_init l) op

theorem touch_other (s : Store β) (id : String) (nrt : Option Int) (body : β) (h : Inv s) {i : String}
    (hi : i ≠ id) : toMap (touch s id nrt body) i = toMap s i := by
  simp only [toMap, lookupTask, touch]
  have hget : ∀ (d : Dict String (Entry β)) (f : Entry β → Entry β) i,
      Dict.get? (d.map fun p => (p.1, f p.2)) i = (Dict.get? d i).map f := by
    intro d f i
    induction d with
    | nil => simp [Dict.get?]
    | cons a d ih => simp only [List.map_cons, Dict.get?]; split <;> simp_all
  rw [hget s.index (fun e => if e.task.id = id then { e with task := ⟨id, nrt, body⟩ } else e) i]
  cases he : s.index.get? i with
  | none => rfl
  | some e =>
    have hid := ((h.agree _ _).1 he).2
    simp [hid, hi]

/-- Changing the stored object in place before `update_task(task)` leaves the same tasks in the store
as `update_task(task)` alone. -/
theorem update_after_touch {s : Store β} (h : Inv s) (t : Task β) :
    toMap (updateTask (touch s t.id t.nrt t.body) t).1 = toMap (updateTask s t).1 := by
  have h1 := toMap_step _ (inv_touch h t.id t.nrt t.body) (.update t)
  have h2 := toMap_step _ h (.update t)
  simp only [step, specStep] at h1 h2
  have e1 : toMap (updateTask (touch s t.id t.nrt t.body) t).1 = (toMap (touch s t.id t.nrt t.body)).set t := by
    cases hx : toMap (touch s t.id t.nrt t.body) t.id <;> rw [hx] at h1 <;> exact congrArg Prod.fst h1
  have e2 : toMap (updateTask s t).1 = (toMap s).set t := by
    cases hx : toMap s t.id <;> rw [hx] at h2 <;> exact congrArg Prod.fst h2
  rw [e1, e2]
  funext i
  simp only [AMap.set]
  split
  · rfl
  · rename_i hne; exact touch_other s _ _ _ h hne

end Memory
end Asyncz
