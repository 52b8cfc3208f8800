import Verif.Lemmas.Memory
/-!
# Properties of `MemoryStore` (C01, C02, C03, C04)

The histories are arbitrary finite lists of store calls on a fresh store; the abstract map reached
by the same calls is `(specRun true AMap.empty ops).1` (`Spec/Store.lean`).
-/
namespace Asyncz
namespace Memory
variable {β : Type}

/-- The store after a history of calls on a fresh `MemoryStore`. -/
def after (ops : List (StoreOp β)) : Store β := (run init ops).1

/-- The abstract map after the same history (`update_task` inserts unknown ids). -/
def mapAfter (ops : List (StoreOp β)) : AMap β := (specRun true AMap.empty ops).1

private theorem map_eq (ops : List (StoreOp β)) : toMap (after ops) = mapAfter ops := by
  have h := run_spec (inv_init (β := β)) ops
  exact congrArg Prod.fst h

/-- **C01**: every history returns what the abstract map returns, every lookup sees the map, and
`get_all_tasks` lists each stored task exactly once. -/
theorem C01_memory_is_a_map (ops : List (StoreOp β)) :
    (run init ops).2 = (specRun true AMap.empty ops).2 ∧
    (∀ id, lookupTask (after ops) id = mapAfter ops id) ∧
    Lists (mapAfter ops) (fun _ => True) (getAllTasks (after ops)) := by
  have h := run_spec (inv_init (β := β)) ops
  have hi : Inv (after ops) := run_inv inv_init ops
  refine ⟨congrArg Prod.snd h, fun id => congrFun (map_eq ops) id, tasks_nodup hi, ?_⟩
  intro t
  rw [← map_eq]
  simpa [getAllTasks] using mem_tasks_iff hi t

/-- **C01** (ids): no two listed tasks share an id. -/
theorem C01_memory_ids_unique (ops : List (StoreOp β)) :
    ((getAllTasks (after ops)).map Task.id).Nodup := by
  have hi : Inv (after ops) := run_inv inv_init ops
  simpa [getAllTasks, List.map_map, Function.comp_def] using hi.ids

/-- **C02**: `get_due_tasks(now)` lists exactly the stored tasks with a run time `≤ now`, in the
order of their run times, ties by id. -/
theorem C02_memory_due (ops : List (StoreOp β)) (now : Int) :
    Lists (mapAfter ops) (Due now) (getDueTasks (after ops) now) ∧
    (getDueTasks (after ops) now).Pairwise Before := by
  have hi : Inv (after ops) := run_inv inv_init ops
  have hc : Committed (after ops) := run_committed inv_init (by simp [Committed, init]) ops
  have hgo : getDueTasks (after ops) now = _ := due_go (after ops).tasks now hi.sorted
  have hsub : (getDueTasks (after ops) now).Sublist ((after ops).tasks.map Entry.task) := by
    rw [hgo]; exact List.filter_sublist.map _
  refine ⟨⟨(tasks_nodup hi).sublist hsub, ?_⟩, (tasks_before hi hc).sublist hsub⟩
  intro t
  rw [← map_eq, ← mem_tasks_iff hi t, hgo]
  simp only [List.mem_map, List.mem_filter, Due]
  constructor
  · rintro ⟨e, ⟨he, hd⟩, rfl⟩
    refine ⟨⟨e, he, rfl⟩, ?_⟩
    rw [hc e he] at hd
    cases hn : e.task.nrt <;> simp_all
  · rintro ⟨⟨e, he, rfl⟩, r, hr, hle⟩
    refine ⟨e, ⟨he, ?_⟩, rfl⟩
    rw [hc e he, hr]; simpa using hle

/-- **C03**: `get_next_run_time` is the earliest run time of the stored tasks. -/
theorem C03_memory_next_run_time (ops : List (StoreOp β)) :
    IsEarliest (mapAfter ops) (getNextRunTime (after ops)) := by
  have hi : Inv (after ops) := run_inv inv_init ops
  have hc : Committed (after ops) := run_committed inv_init (by simp [Committed, init]) ops
  have hb := tasks_before hi hc
  have hmem : ∀ i t, mapAfter ops i = some t → t ∈ (after ops).tasks.map Entry.task ∧ t.id = i := by
    intro i t ht
    rw [← map_eq] at ht
    simp only [toMap, lookupTask] at ht
    obtain ⟨e, he, rfl⟩ := Option.map_eq_some_iff.1 ht
    obtain ⟨h1, h2⟩ := (hi.agree _ _).1 he
    exact ⟨List.mem_map.2 ⟨e, h1, rfl⟩, h2⟩
  unfold getNextRunTime
  cases hl : (after ops).tasks with
  | nil =>
    intro i t ht
    have := (hmem i t ht).1
    rw [hl] at this; simp at this
  | cons e es =>
    rw [hl] at hb
    simp only [List.map_cons, List.pairwise_cons] at hb
    have hall : ∀ i t, mapAfter ops i = some t → t = e.task ∨ Before e.task t := by
      intro i t ht
      have := (hmem i t ht).1
      rw [hl] at this
      simp only [List.map_cons, List.mem_cons] at this
      rcases this with h | h
      · exact .inl h
      · exact .inr (hb.1 t h)
    show IsEarliest (mapAfter ops) e.task.nrt
    cases hn : e.task.nrt with
    | none =>
      intro i t ht
      rcases hall i t ht with rfl | h
      · exact hn
      · unfold Before at h; rw [hn] at h
        cases htn : t.nrt <;> simp_all
    | some x =>
      refine ⟨⟨e.task.id, e.task, ?_, hn⟩, ?_⟩
      · rw [← map_eq, ← mem_tasks_iff hi, hl]; simp
      · intro i t y ht hy
        rcases hall i t ht with rfl | h
        · simp_all
        · unfold Before at h; rw [hn, hy] at h
          simp only at h; omega

/-- **C03** (listing): `get_all_tasks` is ordered by run time, ties by id, paused tasks last. -/
theorem C03_memory_listing_order (ops : List (StoreOp β)) :
    (getAllTasks (after ops)).Pairwise Before :=
  tasks_before (run_inv inv_init ops) (run_committed inv_init (by simp [Committed, init]) ops)

/-- **C04** (memory store): when each call fails, and that a failing call leaves the store exactly
as it was. -/
theorem C04_memory_errors (ops : List (StoreOp β)) :
    (∀ t, (addTask (after ops) t).2 = .conflict t.id ↔ mapAfter ops t.id ≠ none) ∧
    (∀ t, (addTask (after ops) t).2 = .ok ↔ mapAfter ops t.id = none) ∧
    (∀ t, (updateTask (after ops) t).2 = .ok) ∧
    (∀ id, (deleteTask (after ops) id).2 = .notFound id ↔ mapAfter ops id = none) ∧
    (∀ id, (deleteTask (after ops) id).2 = .ok ↔ mapAfter ops id ≠ none) ∧
    (∀ op, (step (after ops) op).2 ≠ .ok → (step (after ops) op).1 = after ops) := by
  have hm : ∀ i, mapAfter ops i = ((after ops).index.get? i).map Entry.task := by
    intro i; rw [← map_eq]; rfl
  refine ⟨?_, ?_, ?_, ?_, ?_, ?_⟩
  · intro t; rw [hm]; unfold addTask; cases (after ops).index.get? t.id <;> simp
  · intro t; rw [hm]; unfold addTask; cases (after ops).index.get? t.id <;> simp
  · intro t; unfold updateTask; cases (after ops).index.get? t.id <;> simp
  · intro i; rw [hm]; unfold deleteTask; cases (after ops).index.get? i <;> simp
  · intro i; rw [hm]; unfold deleteTask; cases (after ops).index.get? i <;> simp
  · intro op
    cases op with
    | add t => simp only [step, addTask]; cases (after ops).index.get? t.id <;> simp
    | update t => simp only [step, updateTask]; cases (after ops).index.get? t.id <;> simp
    | delete i => simp only [step, deleteTask]; cases (after ops).index.get? i <;> simp
    | clear => simp [step, removeAllTasks]

/-! ## Robustness: the caller mutates stored task objects in place

`Task.update_task` and the scheduler assign to `task.next_run_time` on the very object the store
holds before calling `store.update_task`.  These theorems say what the store guarantees in between:
nothing is corrupted, and "due" is judged by the run time recorded at the last store call. -/

/-- A store call, or an in-place change of a stored task. -/
inductive MOp (β : Type) where
  | call (op : StoreOp β)
  | touch (id : String) (nrt : Option Int) (body : β)

/-- run a mixed history -/
def runM (s : Store β) : List (MOp β) → Store β
  | [] => s
  | .call op :: ops => runM (step s op).1 ops
  | .touch i n b :: ops => runM (touch s i n b) ops

/-- The live task and the run time recorded when it was last stored. -/
def recorded (s : Store β) (id : String) : Option (Task β × Option Int) :=
  (s.index.get? id).map fun e => (e.task, e.ts)

theorem runM_inv {s : Store β} (h : Inv s) (ops : List (MOp β)) : Inv (runM s ops) := by
  induction ops generalizing s with
  | nil => exact h
  | cons op ops ih => cases op with
    | call op => exact ih (inv_step h op)
    | touch i n b => exact ih (inv_touch h i n b)

/-- **C01** under in-place mutation: listing and lookup still agree and ids stay unique. -/
theorem C01_memory_live_mutation (ops : List (MOp β)) (t : Task β) :
    ((getAllTasks (runM init ops)).map Task.id).Nodup ∧
    (t ∈ getAllTasks (runM init ops) ↔ lookupTask (runM init ops) t.id = some t) := by
  have hi : Inv (runM (init : Store β) ops) := runM_inv inv_init ops
  refine ⟨?_, mem_tasks_iff hi t⟩
  simpa [getAllTasks, List.map_map, Function.comp_def] using hi.ids

/-- **C02** under in-place mutation: the due tasks are exactly those whose *recorded* run time is
`≤ now`. -/
theorem C02_memory_due_live_mutation (ops : List (MOp β)) (now : Int) (t : Task β) :
    t ∈ getDueTasks (runM init ops) now ↔
      ∃ r, recorded (runM init ops) t.id = some (t, some r) ∧ r ≤ now := by
  have hi : Inv (runM (init : Store β) ops) := runM_inv inv_init ops
  have hgo : getDueTasks (runM init ops) now = _ := due_go (runM init ops).tasks now hi.sorted
  rw [hgo]
  simp only [List.mem_map, List.mem_filter, recorded, Option.map_eq_some_iff]
  constructor
  · rintro ⟨e, ⟨he, hd⟩, rfl⟩
    cases hts : e.ts with
    | none => simp [hts] at hd
    | some r => exact ⟨r, ⟨e, (hi.agree _ _).2 ⟨he, rfl⟩, by rw [hts]⟩, by simpa [hts] using hd⟩
  · rintro ⟨r, ⟨e, he, hp⟩, hr⟩
    simp only [Prod.mk.injEq] at hp
    obtain ⟨rfl, hts⟩ := hp
    exact ⟨e, ⟨((hi.agree _ _).1 he).1, by rw [hts]; simpa using hr⟩, rfl⟩

/-! ## Non-vacuity: a concrete history with a tie, a re-timing, a paused task and a deletion. -/

/-- a sample history used to show the theorems talk about non-trivial stores -/
def sampleOps : List (StoreOp Nat) :=
  [.add ⟨"b", some 20, 0⟩, .add ⟨"a", some 20, 1⟩, .add ⟨"p", none, 2⟩, .add ⟨"c", some 5, 3⟩,
   .add ⟨"a", some 1, 9⟩, .update ⟨"c", some 30, 4⟩, .update ⟨"z", some 7, 5⟩, .delete "q",
   .delete "z"]

example : (run init sampleOps).2 =
    [.ok, .ok, .ok, .ok, .conflict "a", .ok, .ok, .notFound "q", .ok] := by decide +kernel

example : (getAllTasks (after sampleOps)).map Task.id = ["a", "b", "c", "p"] ∧
    (getDueTasks (after sampleOps) 20).map Task.id = ["a", "b"] ∧
    getNextRunTime (after sampleOps) = some 20 := by decide +kernel

end Memory
end Asyncz
