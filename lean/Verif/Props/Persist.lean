import Verif.Lemmas.Persist
import Verif.Model.Crypto
/-!
# Properties of the persistent stores (C04, C05, C06, C07, C08, C09, C10)

`(specRun false AMap.empty ops).1` is the abstract map after the calls `ops`; here `update_task` of
an unknown id raises.
-/
namespace Asyncz
namespace Persist
variable {β : Type}

/-- the abstract map after a history -/
def mapAfter (ops : List (StoreOp β)) : AMap β := (specRun false AMap.empty ops).1

/-! ## Sample codec, used for the non-vacuity examples and the counterexamples -/

/-- the tasks the sample codec can serialise -/
def sampleTasks : List (Task Nat) :=
  [⟨"a", some 20, 0⟩, ⟨"b", some 10, 1⟩, ⟨"p", none, 2⟩, ⟨"a", some 5, 3⟩, ⟨"old", some (-7), 4⟩]

/-- encodes the i-th sample task as the single byte i+1 -/
def sampleEnc (t : Task Nat) : Option Bytes :=
  if t ∈ sampleTasks then some [UInt8.ofNat (sampleTasks.idxOf t + 1)] else none

def sampleDec : Bytes → Option (Task Nat)
  | [n] => if n = 0 then none else sampleTasks[n.toNat - 1]?
  | _ => none

def sampleCodec : Codec Nat where
  enc := sampleEnc
  dec := sampleDec
  dec_enc := by
    intro t b h
    unfold sampleEnc at h
    split at h
    · rename_i hm
      cases h
      simp only [sampleTasks, List.mem_cons, List.not_mem_nil, or_false] at hm
      rcases hm with rfl | rfl | rfl | rfl | rfl <;> decide
    · cases h
  dec_prefix := by
    intro t b n h hn
    unfold sampleEnc at h
    split at h
    · cases h
      have : n = 0 := by simpa using hn
      subst this; rfl
    · cases h

/-- a sample history -/
def sampleOps : List (StoreOp Nat) :=
  [.add ⟨"a", some 20, 0⟩, .add ⟨"p", none, 2⟩, .add ⟨"b", some 10, 1⟩, .update ⟨"a", some 5, 3⟩,
   .delete "zz", .update ⟨"old", some (-7), 4⟩]

/-! ## FileStore -/
namespace File

/-- every call of the history is crash-free on accepted ids and serialisable tasks -/
def AllOk (c : Codec β) (ops : List (StoreOp β)) : Prop := ∀ op ∈ ops, OpOk c op

private theorem run_ok {c : Codec β} {suffix : String} {d : Dir} (h : Inv c suffix d)
    (ops : List (StoreOp β)) (ho : AllOk c ops) :
    Inv c suffix (run c suffix d ops).1 ∧
    toMap c suffix (run c suffix d ops).1 = (specRun false (toMap c suffix d) ops).1 ∧
    (run c suffix d ops).2 = (specRun false (toMap c suffix d) ops).2.map Out.res := by
  induction ops generalizing d with
  | nil => exact ⟨h, rfl, rfl⟩
  | cons op ops ih =>
    have ho1 := ho op (by simp)
    have hs := toMap_step h op ho1
    obtain ⟨h1, h2, h3⟩ := ih (inv_step h op ho1) (fun o hm => ho o (by simp [hm]))
    simp only [run, specRun]
    refine ⟨h1, ?_, ?_⟩
    · rw [h2, hs.1]
    · rw [h3, hs.1, hs.2]; rfl

private theorem toMap_nil (c : Codec β) (suffix : String) :
    toMap c suffix [] = AMap.empty := by
  funext i; simp [toMap, Dict.get?, AMap.empty]

/-- **C05**: on a fresh directory, every history of calls with accepted ids and serialisable tasks
returns what the abstract map returns, and afterwards lookups, listing, due tasks and the next run
time are those of the map; a lookup leaves the directory unchanged. -/
theorem C05_file_refines_map (c : Codec β) (suffix : String) (ops : List (StoreOp β))
    (ho : AllOk c ops) (now : Int) :
    (run c suffix [] ops).2 = (specRun false AMap.empty ops).2.map Out.res ∧
    (∀ id, checkTaskId id = true →
      lookupTask c suffix (run c suffix [] ops).1 id =
        ((run c suffix [] ops).1, some (mapAfter ops id))) ∧
    Lists (mapAfter ops) (fun _ => True) (getAllTasks c suffix (run c suffix [] ops).1) ∧
    SortedByTime (getAllTasks c suffix (run c suffix [] ops).1) ∧
    Lists (mapAfter ops) (Due now) (getDueTasks c suffix (run c suffix [] ops).1 now) ∧
    SortedByTime (getDueTasks c suffix (run c suffix [] ops).1 now) ∧
    IsEarliest (mapAfter ops) (getNextRunTime c suffix (run c suffix [] ops).1) := by
  obtain ⟨hi, hm, hr⟩ := run_ok (inv_nil c suffix) ops ho
  rw [toMap_nil] at hm hr
  have hm' : toMap c suffix (run c suffix [] ops).1 = mapAfter ops := hm
  have hl := all_lists hi
  have hs : SortedByTime (getAllTasks c suffix (run c suffix [] ops).1) := sorted_sortBy _
  refine ⟨hr, ?_, ?_, hs, ?_, ?_, ?_⟩
  · intro id hc
    rw [← hm']
    unfold lookupTask toMap
    simp only [hc, if_true]
    cases hg : (run c suffix [] ops).1.get? (fileName suffix id) with
    | none => simp
    | some b =>
      obtain ⟨t, ht, _⟩ := hi.get_dec hg
      simp [ht]
  · rw [← hm']; exact hl
  · rw [← hm']
    refine (Lists.filter hl _).congr ?_
    intro t
    unfold Due
    cases hn : t.nrt <;> simp
  · exact List.Pairwise.filter _ hs
  · rw [← hm']
    unfold getNextRunTime
    rw [nextLoop_head _ hs]
    exact earliest_head (toMap_id hi) hl hs

example : AllOk sampleCodec sampleOps ∧
    (getAllTasks sampleCodec ".task" (run sampleCodec ".task" [] sampleOps).1).map Task.id
      = ["a", "b", "p"] ∧
    getNextRunTime sampleCodec ".task" (run sampleCodec ".task" [] sampleOps).1 = some 5 := by
  refine ⟨?_, by decide +kernel, by decide +kernel⟩
  intro op hop
  simp only [sampleOps, List.mem_cons, List.not_mem_nil, or_false] at hop
  rcases hop with rfl | rfl | rfl | rfl | rfl | rfl <;>
    simp only [OpOk] <;> decide +kernel

/-- **C04** (file store): exactly when each call on an accepted id fails, in any directory, and a
call that raises a store error leaves the directory exactly as it was. -/
theorem C04_file_errors (c : Codec β) (suffix : String) (ops : List (StoreOp β))
    (ho : AllOk c ops) :
    let d := (run c suffix [] ops).1
    (∀ t, checkTaskId t.id = true → ((addTask c suffix d t).2 = .res (.conflict t.id) ↔
        mapAfter ops t.id ≠ none)) ∧
    (∀ t, checkTaskId t.id = true → ((updateTask c suffix d t).2 = .res (.notFound t.id) ↔
        mapAfter ops t.id = none)) ∧
    (∀ id, checkTaskId id = true → ((deleteTask suffix d id).2 = .res (.notFound id) ↔
        mapAfter ops id = none)) ∧
    (∀ op r, (step c suffix d op).2 = .res r → r ≠ .ok → (step c suffix d op).1 = d) ∧
    (∀ op, (step c suffix d op).2 = .badId → (step c suffix d op).1 = d) := by
  intro d
  obtain ⟨hi, hm, hr⟩ := run_ok (inv_nil c suffix) ops ho
  rw [toMap_nil] at hm
  have hm' : toMap c suffix d = mapAfter ops := hm
  have hn : ∀ id, checkTaskId id = true →
      (mapAfter ops id = none ↔ d.get? (fileName suffix id) = none) := by
    intro id hc; rw [← hm']; exact toMap_none_iff hi hc
  refine ⟨?_, ?_, ?_, ?_, ?_⟩
  · intro t hc
    rw [Ne, hn _ hc]
    simp only [addTask, hc, if_true]
    cases d.get? (fileName suffix t.id) <;> cases c.enc t <;> simp
  · intro t hc
    rw [hn _ hc]
    simp only [updateTask, hc, if_true]
    cases d.get? (fileName suffix t.id) <;> cases c.enc t <;> simp
  · intro i hc
    rw [hn _ hc]
    simp only [deleteTask, hc, if_true]
    cases d.get? (fileName suffix i) <;> simp
  · intro op r
    cases op with
    | add t =>
      simp only [step, addTask]
      cases checkTaskId t.id <;> cases d.get? (fileName suffix t.id) <;> cases c.enc t <;>
        simp <;> intro h <;> subst h <;> simp
    | update t =>
      simp only [step, updateTask]
      cases checkTaskId t.id <;> cases d.get? (fileName suffix t.id) <;> cases c.enc t <;>
        simp <;> intro h <;> subst h <;> simp
    | delete i =>
      simp only [step, deleteTask]
      cases checkTaskId i <;> cases d.get? (fileName suffix i) <;>
        simp <;> intro h <;> subst h <;> simp
    | clear => simp only [step, removeAllTasks]; intro h; cases h; simp
  · intro op
    cases op with
    | add t =>
      simp only [step, addTask]
      cases checkTaskId t.id <;> cases d.get? (fileName suffix t.id) <;> cases c.enc t <;> simp
    | update t =>
      simp only [step, updateTask]
      cases checkTaskId t.id <;> cases d.get? (fileName suffix t.id) <;> cases c.enc t <;> simp
    | delete i =>
      simp only [step, deleteTask]
      cases checkTaskId i <;> cases d.get? (fileName suffix i) <;> simp
    | clear => simp [step, removeAllTasks]

/-! ### C06: crash points

The full property ("after an interruption a lookup gives the old or the new task, and a failed add
leaves the id free") is **false** of the code; the witnesses are below. What does hold is that an
interrupted call never yields a third task, never disturbs other ids, and is healed by a lookup. -/

/-- what a lookup returns -/
def seen (c : Codec β) (suffix : String) (d : Dir) (id : String) : Option (Task β) :=
  ((lookupTask c suffix d id).2).bind fun x => x

private theorem seen_set_other (c : Codec β) (suffix : String) (d : Dir) (id i : String) (b : Bytes)
    (hne : i ≠ id) : seen c suffix (d.set (fileName suffix id) b) i = seen c suffix d i := by
  have : fileName suffix i ≠ fileName suffix id := fun e => hne (fileName_inj e)
  unfold seen lookupTask
  rw [Dict.get?_set, if_neg this]
  cases checkTaskId i
  · rfl
  · simp only [if_true]
    cases d.get? (fileName suffix i) with
    | none => rfl
    | some b => simp only; cases c.dec b <;> rfl

private theorem seen_set_same (c : Codec β) (suffix : String) (d : Dir) (id : String) (b : Bytes)
    (hc : checkTaskId id = true) :
    seen c suffix (d.set (fileName suffix id) b) id = c.dec b := by
  unfold seen lookupTask
  simp only [hc, if_true, Dict.get?_set]
  cases c.dec b <;> rfl

private theorem dec_take (c : Codec β) (t : Task β) (b : Bytes) (n : Nat) (he : c.enc t = some b) :
    c.dec (b.take n) = some t ∨ c.dec (b.take n) = none := by
  by_cases hn : n < b.length
  · exact .inr (c.dec_prefix t b n he hn)
  · left
    rw [List.take_of_length_le (by omega)]
    exact c.dec_enc t b he

/-- **C06 (partial)**: whatever the interruption point of an update, a later lookup of the task
returns the old task, the new task, or nothing (never anything else), and all other ids are
unaffected.  Missing: "nothing" must not happen (see `C06_update_can_lose_task`). -/
theorem C06_file_update_crash_partial (c : Codec β) (suffix : String) (d d' : Dir) (t : Task β)
    (h : UpdateCrash c suffix d t d') (hempty : c.dec [] = none) :
    (seen c suffix d' t.id = seen c suffix d t.id ∨ seen c suffix d' t.id = some t ∨
      seen c suffix d' t.id = none) ∧
    ∀ i, i ≠ t.id → seen c suffix d' i = seen c suffix d i := by
  cases h with
  | before => exact ⟨.inl rfl, fun _ _ => rfl⟩
  | truncated old hc h' =>
    exact ⟨.inr (.inr (by rw [seen_set_same _ _ _ _ _ hc, hempty])),
      fun i hi => seen_set_other _ _ _ _ _ _ hi⟩
  | written old b n hc h' he =>
    refine ⟨?_, fun i hi => seen_set_other _ _ _ _ _ _ hi⟩
    rw [seen_set_same _ _ _ _ _ hc]
    rcases dec_take c t b n he with h | h
    · exact .inr (.inl h)
    · exact .inr (.inr h)

/-- **C06 (partial)**: an interrupted add is either not visible or complete, other ids are
unaffected, and if it is not visible then after the lookup the id is free again.  Missing: the id
should be free even without that lookup (see `C06_failed_add_blocks_id`). -/
theorem C06_file_add_crash_partial (c : Codec β) (suffix : String) (d d' : Dir) (t : Task β)
    (h : AddCrash c suffix d t d') (hfresh : d.get? (fileName suffix t.id) = none)
    (hc : checkTaskId t.id = true) (hwf : d.WF) (hempty : c.dec [] = none) :
    (seen c suffix d' t.id = none ∨ seen c suffix d' t.id = some t) ∧
    (∀ i, i ≠ t.id → seen c suffix d' i = seen c suffix d i) ∧
    (seen c suffix d' t.id = none →
      ∀ u, u.id = t.id → (addTask c suffix (lookupTask c suffix d' t.id).1 u).2 ≠
        .res (.conflict u.id)) := by
  have hfree : ∀ e : Dir, e.WF → seen c suffix e t.id = none →
      (lookupTask c suffix e t.id).1.get? (fileName suffix t.id) = none := by
    intro e hw hs
    unfold seen lookupTask at hs
    unfold lookupTask
    simp only [hc, if_true] at hs ⊢
    cases hg : e.get? (fileName suffix t.id) with
    | none => simpa [hg] using hg
    | some b =>
      simp only [hg] at hs
      cases hd : c.dec b with
      | none => simp [hd, Dict.get?_erase hw]
      | some x => simp [hd] at hs
  have hfin : ∀ e : Dir, e.WF → seen c suffix e t.id = none → ∀ u : Task β, u.id = t.id →
      (addTask c suffix (lookupTask c suffix e t.id).1 u).2 ≠ .res (.conflict u.id) := by
    intro e hw hs u hu
    have := hfree e hw hs
    unfold addTask
    rw [hu, this]
    simp only [hc, if_true]
    cases c.enc u <;> simp
  cases h with
  | before =>
    refine ⟨.inl ?_, fun _ _ => rfl, fun hs => hfin d hwf hs⟩
    unfold seen lookupTask; simp [hc, hfresh]
  | created _ h' =>
    have hs : seen c suffix (d.set (fileName suffix t.id) []) t.id = none := by
      rw [seen_set_same _ _ _ _ _ hc, hempty]
    exact ⟨.inl hs, fun i hi => seen_set_other _ _ _ _ _ _ hi, fun hs => hfin _ (hwf.set _ _) hs⟩
  | written b n _ h' he =>
    refine ⟨?_, fun i hi => seen_set_other _ _ _ _ _ _ hi, fun hs => hfin _ (hwf.set _ _) hs⟩
    rw [seen_set_same _ _ _ _ _ hc]
    rcases dec_take c t b n he with h | h
    · exact .inr h
    · exact .inl h

/-- Counterexample to C06: the process dies between truncating and writing; the stored task, which
was readable before, is gone. -/
theorem C06_update_can_lose_task :
    ∃ (d d' : Dir) (t : Task Nat), UpdateCrash sampleCodec ".task" d t d' ∧
      seen sampleCodec ".task" d t.id = some ⟨"a", some 20, 0⟩ ∧ seen sampleCodec ".task" d' t.id = none := by
  refine ⟨[("a.task", [1])], _, ⟨"a", some 5, 3⟩, .truncated [1] (by decide +kernel) (by decide +kernel),
    by decide +kernel, by decide +kernel⟩

/-- Counterexample to C06: an add that fails while serialising leaves a file behind, so a later add
of a good task under the same id is refused although no such task is stored. -/
theorem C06_failed_add_blocks_id :
    let bad : Task Nat := ⟨"a", some 99, 99⟩
    let good : Task Nat := ⟨"a", some 20, 0⟩
    (addTask sampleCodec ".task" [] bad).2 = .encodeError ∧
    seen sampleCodec ".task" (addTask sampleCodec ".task" [] bad).1 "a" = none ∧
    (addTask sampleCodec ".task" (addTask sampleCodec ".task" [] bad).1 good).2 =
      .res (.conflict "a") := by
  decide +kernel

/-- Counterexample to C06: an update that fails while serialising (no crash) destroys the stored
task. -/
theorem C06_failed_update_loses_task :
    let d : Dir := [("a.task", [1])]
    let bad : Task Nat := ⟨"a", some 99, 99⟩
    seen sampleCodec ".task" d "a" = some ⟨"a", some 20, 0⟩ ∧
    (updateTask sampleCodec ".task" d bad).2 = .encodeError ∧
    seen sampleCodec ".task" (updateTask sampleCodec ".task" d bad).1 "a" = none := by
  decide +kernel

/-! ### C09: path confinement -/

/-- A file name that a POSIX or Windows path join cannot take out of the directory: a single path
component, no drive prefix, no NUL, not `.` or `..`. -/
def Confined (name : String) : Prop :=
  (∀ ch ∈ name.toList, ch ≠ '/' ∧ ch ≠ '\\' ∧ ch ≠ ':' ∧ ch ≠ '\x00') ∧
  name ≠ "." ∧ name ≠ ".."

/-- an id that mentions a separator, a drive colon, NUL or begins with a dot -/
def Suspicious (id : String) : Prop :=
  (∃ ch ∈ id.toList, ch = '/' ∨ ch = '\\' ∨ ch = ':' ∨ ch = '\x00') ∨ id.toList.head? = some '.'

/-- **C09**: ids are accepted exactly when they are not suspicious. -/
theorem C09_check_task_id_exact (id : String) : checkTaskId id = true ↔ ¬ Suspicious id := by
  unfold checkTaskId Suspicious forbidden
  rw [Bool.and_eq_true, Bool.not_eq_true', List.all_eq_true, not_or]
  have hdot : (id.toList.head? == some '.') = false ↔ ¬ id.toList.head? = some '.' := by
    simp
  rw [hdot]
  constructor
  · rintro ⟨h1, h2⟩
    refine ⟨?_, h1⟩
    rintro ⟨ch, hm, hch⟩
    have := h2 ch hm
    rcases hch with rfl | rfl | rfl | rfl <;> simp at this
  · rintro ⟨h1, h2⟩
    refine ⟨h2, ?_⟩
    intro ch hm
    have : ¬ (ch = '/' ∨ ch = '\\' ∨ ch = ':' ∨ ch = '\x00') := fun h => h1 ⟨ch, hm, h⟩
    simp only [not_or] at this
    simp [this]

/-- **C09**: with a suffix that is itself harmless and not a bare `.`/`..`, every accepted id names a
file directly inside the directory. -/
theorem C09_confined (suffix id : String) (hs : Confined suffix) (hid : checkTaskId id = true) :
    Confined (fileName suffix id) := by
  rw [C09_check_task_id_exact] at hid
  unfold Suspicious at hid
  rw [not_or] at hid
  obtain ⟨h1, h2⟩ := hid
  unfold fileName
  refine ⟨?_, ?_, ?_⟩
  · intro ch hm
    rw [String.toList_append, List.mem_append] at hm
    rcases hm with hm | hm
    · have : ¬ (ch = '/' ∨ ch = '\\' ∨ ch = ':' ∨ ch = '\x00') := fun h => h1 ⟨ch, hm, h⟩
      simp only [not_or] at this
      exact this
    · exact hs.1 ch hm
  · intro e
    have e' := congrArg String.toList e
    rw [String.toList_append] at e'
    cases hl : id.toList with
    | nil =>
      rw [hl, List.nil_append] at e'
      exact hs.2.1 (String.ext e')
    | cons a l =>
      rw [hl] at e' h2
      have : ".".toList = ['.'] := by decide
      rw [this] at e'
      simp at e'
      exact h2 (by simp [e'.1])
  · intro e
    have e' := congrArg String.toList e
    rw [String.toList_append] at e'
    cases hl : id.toList with
    | nil =>
      rw [hl, List.nil_append] at e'
      exact hs.2.2 (String.ext e')
    | cons a l =>
      rw [hl] at e' h2
      have : "..".toList = ['.', '.'] := by decide
      rw [this] at e'
      simp at e'
      exact h2 (by simp [e'.1])

/-- **C09**: different ids never share a file. -/
theorem C09_injective (suffix a b : String) (h : fileName suffix a = fileName suffix b) : a = b :=
  fileName_inj h

/-- **C09**: a call with a rejected id touches no file. -/
theorem C09_rejected_touches_nothing (c : Codec β) (suffix : String) (d : Dir) (t : Task β)
    (h : Suspicious t.id) :
    lookupTask c suffix d t.id = (d, none) ∧ addTask c suffix d t = (d, .badId) ∧
    updateTask c suffix d t = (d, .badId) ∧ deleteTask suffix d t.id = (d, .badId) := by
  have : checkTaskId t.id = false := by
    cases hc : checkTaskId t.id with
    | false => rfl
    | true => exact absurd h ((C09_check_task_id_exact _).1 hc)
  simp [lookupTask, addTask, updateTask, deleteTask, this]

example : checkTaskId "job-1" = true ∧ checkTaskId "../etc/passwd" = false ∧
    checkTaskId "a/b" = false ∧ checkTaskId ".x" = false ∧ checkTaskId "c:x" = false := by
  decide +kernel
example : Confined ".task" := by
  refine ⟨?_, by decide, by decide⟩
  decide +kernel

end File

/-! ## RedisStore -/
namespace Redis

def AllOk (c : Codec β) (ops : List (StoreOp β)) : Prop := ∀ op ∈ ops, OpOk c op

theorem run_ok {c : Codec β} {db : DB} (h : Inv c db) (ops : List (StoreOp β)) (ho : AllOk c ops) :
    Inv c (run c db ops).1 ∧
    toMap c (run c db ops).1 = (specRun false (toMap c db) ops).1 ∧
    (run c db ops).2 = (specRun false (toMap c db) ops).2.map Out.res := by
  induction ops generalizing db with
  | nil => exact ⟨h, rfl, rfl⟩
  | cons op ops ih =>
    obtain ⟨h0, hs1, hs2⟩ := step_ok h op (ho op (by simp))
    obtain ⟨h1, h2, h3⟩ := ih h0 (fun o hm => ho o (by simp [hm]))
    simp only [run, specRun]
    refine ⟨h1, ?_, ?_⟩
    · rw [h2, hs1]
    · rw [h3, hs1, hs2]; rfl

private theorem toMap_init (c : Codec β) : toMap c init = AMap.empty := by
  funext i; simp [toMap, lookupTask, init, Dict.get?, AMap.empty]

/-- **C07**: results, lookups, listing and next run time of `RedisStore` are those of the abstract
map, for every history of calls with serialisable tasks. -/
theorem C07_redis_refines_map (c : Codec β) (ops : List (StoreOp β)) (ho : AllOk c ops) :
    (run c init ops).2 = (specRun false AMap.empty ops).2.map Out.res ∧
    (∀ id, lookupTask c (run c init ops).1 id = mapAfter ops id) ∧
    Lists (mapAfter ops) (fun _ => True) (getAllTasks c (run c init ops).1) ∧
    SortedByTime (getAllTasks c (run c init ops).1) ∧
    IsEarliest (mapAfter ops) (getNextRunTime (run c init ops).1) := by
  obtain ⟨hi, hm, hr⟩ := run_ok (inv_init c) ops ho
  rw [toMap_init] at hm hr
  have hm' : toMap c (run c init ops).1 = mapAfter ops := hm
  refine ⟨hr, fun id => congrFun hm' id, ?_, sorted_sortBy _, ?_⟩
  · rw [← hm']; exact all_lists hi
  · rw [← hm']; exact next_earliest hi

/-- **C07 (partial)**: `get_due_tasks(now)` lists, ordered by (run time, id), exactly the tasks with
`0 ≤ run time ≤ now`.  Missing: tasks with a run time before the epoch are due too, but are never
returned (see `C07_pre_epoch_never_due`). -/
theorem C07_redis_due_partial (c : Codec β) (ops : List (StoreOp β)) (ho : AllOk c ops) (now : Int) :
    Lists (mapAfter ops) (fun t => ∃ r, t.nrt = some r ∧ 0 ≤ r ∧ r ≤ now)
      (getDueTasks c (run c init ops).1 now) ∧
    (getDueTasks c (run c init ops).1 now).Pairwise Before := by
  obtain ⟨hi, hm, hr⟩ := run_ok (inv_init c) ops ho
  rw [toMap_init] at hm
  have hm' : toMap c (run c init ops).1 = mapAfter ops := hm
  rw [← hm']; exact due_lists hi now

/-- Counterexample to the full C07: a task whose run time is before 1970 is reported as the next run
time but is never due, whatever `now` (so the scheduler would spin on it). -/
theorem C07_pre_epoch_never_due :
    let db := (run sampleCodec init [.add ⟨"old", some (-7), 4⟩]).1
    getNextRunTime db = some (-7) ∧
    lookupTask sampleCodec db "old" = some ⟨"old", some (-7), 4⟩ ∧
    ∀ now, getDueTasks sampleCodec db now = [] := by
  have hok : AllOk sampleCodec [StoreOp.add (⟨"old", some (-7), 4⟩ : Task Nat)] := by
    intro op hop
    simp only [List.mem_cons, List.not_mem_nil, or_false] at hop
    subst hop; simp only [OpOk]; decide +kernel
  refine ⟨by decide +kernel, by decide +kernel, fun now => ?_⟩
  have h := (C07_redis_due_partial sampleCodec _ hok now).1
  rw [List.eq_nil_iff_forall_not_mem]
  intro t ht
  obtain ⟨hm, r, hr, h0, _⟩ := (h.2 t).1 ht
  by_cases hi : t.id = "old"
  · have : mapAfter [StoreOp.add (⟨"old", some (-7), 4⟩ : Task Nat)] "old" = some ⟨"old", some (-7), 4⟩ := by
      decide +kernel
    rw [hi, this] at hm
    cases hm
    simp at hr; omega
  · simp [mapAfter, specRun, specStep, AMap.empty, AMap.set, hi] at hm

example : AllOk sampleCodec sampleOps ∧
    (getDueTasks sampleCodec (run sampleCodec init sampleOps).1 10).map Task.id = ["a", "b"] := by
  refine ⟨?_, by decide +kernel⟩
  intro op hop
  simp only [sampleOps, List.mem_cons, List.not_mem_nil, or_false] at hop
  rcases hop with rfl | rfl | rfl | rfl | rfl | rfl <;> simp only [OpOk] <;> decide +kernel

/-- **C04** (Redis store): a call that raises leaves both keys exactly as they were, and
Conflict/Lookup errors are raised exactly when the id is/ is not stored. -/
theorem C04_redis_errors (c : Codec β) (ops : List (StoreOp β)) (ho : AllOk c ops) :
    let db := (run c init ops).1
    (∀ t, (addTask c db t).2 = .res (.conflict t.id) ↔ mapAfter ops t.id ≠ none) ∧
    (∀ t, (updateTask c db t).2 = .res (.notFound t.id) ↔ mapAfter ops t.id = none) ∧
    (∀ id, (deleteTask db id).2 = .res (.notFound id) ↔ mapAfter ops id = none) ∧
    (∀ op, (step c db op).2 ≠ .res .ok → (step c db op).1 = db) := by
  intro db
  obtain ⟨hi, hm, _⟩ := run_ok (inv_init c) ops ho
  rw [toMap_init] at hm
  have hm' : toMap c db = mapAfter ops := hm
  have hn : ∀ i, mapAfter ops i = none ↔ db.hash.get? i = none := by
    intro i; rw [← hm']; exact hi.none_iff i
  refine ⟨?_, ?_, ?_, ?_⟩
  · intro t; rw [Ne, hn]; unfold addTask
    cases db.hash.get? t.id <;> cases c.enc t <;> simp
  · intro t; rw [hn]; unfold updateTask
    cases db.hash.get? t.id <;> cases c.enc t <;> simp
  · intro i; rw [hn]; unfold deleteTask
    cases db.hash.get? i <;> simp
  · intro op
    cases op with
    | add t => simp only [step, addTask]; cases db.hash.get? t.id <;> cases c.enc t <;> simp
    | update t => simp only [step, updateTask]; cases db.hash.get? t.id <;> cases c.enc t <;> simp
    | delete i => simp only [step, deleteTask]; cases db.hash.get? i <;> simp
    | clear => simp [step, removeAllTasks]

end Redis

/-! ## SQLAlchemyStore and MongoDBStore -/
namespace Rows

theorem run_ok {c : Codec β} {q : Int → Int} {tb : Table} (h : Inv c q tb) (ops : List (StoreOp β))
    (ho : Redis.AllOk c ops) :
    Inv c q (run c q tb ops).1 ∧
    toMap c (run c q tb ops).1 = (specRun false (toMap c tb) ops).1 ∧
    (run c q tb ops).2 = (specRun false (toMap c tb) ops).2.map Out.res := by
  induction ops generalizing tb with
  | nil => exact ⟨h, rfl, rfl⟩
  | cons op ops ih =>
    obtain ⟨h0, hs1, hs2⟩ := step_ok h op (ho op (by simp))
    obtain ⟨h1, h2, h3⟩ := ih h0 (fun o hm => ho o (by simp [hm]))
    simp only [run, specRun]
    refine ⟨h1, ?_, ?_⟩
    · rw [h2, hs1]
    · rw [h3, hs1, hs2]; rfl

private theorem toMap_nil (c : Codec β) : toMap c [] = AMap.empty := by
  funext i; simp [toMap, lookupTask, Dict.get?, AMap.empty]

/-- **C08** (SQL store, exact run-time column): every history answers as the abstract map. -/
theorem C08_sql_refines_map (c : Codec β) (ops : List (StoreOp β)) (ho : Redis.AllOk c ops)
    (now : Int) :
    (run c id [] ops).2 = (specRun false AMap.empty ops).2.map Out.res ∧
    (∀ i, lookupTask c (run c id [] ops).1 i = mapAfter ops i) ∧
    Lists (mapAfter ops) (fun _ => True) (sqlAll c (run c id [] ops).1) ∧
    SortedByTime (sqlAll c (run c id [] ops).1) ∧
    Lists (mapAfter ops) (Due now) (sqlDue c (run c id [] ops).1 now) ∧
    SortedByTime (sqlDue c (run c id [] ops).1 now) ∧
    IsEarliest (mapAfter ops) (nextRunTime (run c id [] ops).1) := by
  obtain ⟨hi, hm, hr⟩ := run_ok (inv_nil c id) ops ho
  rw [toMap_nil] at hm hr
  have hm' : toMap c (run c id [] ops).1 = mapAfter ops := hm
  refine ⟨hr, fun id => congrFun hm' id, ?_, ?_, ?_, ?_, ?_⟩
  · rw [← hm']
    exact (rebuild_lists hi).perm (rebuild_perm c (sortBy_perm _ _))
  · apply rebuild_pairwise (R := RunsNoLater) _ (nl_sorted _)
    intro p hp; exact hi.exact p ((sortBy_perm _ _).mem_iff.1 hp)
  · rw [← hm']
    refine Lists.perm ?_ (rebuild_perm c (sortBy_perm _ _))
    rw [rebuild_due hi now]
    refine (Lists.filter (rebuild_lists hi) _).congr ?_
    intro t; unfold Due; cases hn : t.nrt <;> simp
  · apply rebuild_pairwise (R := RunsNoLater) _ (nl_sorted _)
    intro p hp
    exact hi.exact p (List.mem_filter.1 ((sortBy_perm _ _).mem_iff.1 hp)).1
  · rw [← hm']; exact next_earliest hi

/-- **C08** (MongoDB store): every history answers as the abstract map; `fix_paused_tasks` puts the
paused tasks last. -/
theorem C08_mongo_refines_map (c : Codec β) (ops : List (StoreOp β)) (ho : Redis.AllOk c ops)
    (now : Int) :
    (run c id [] ops).2 = (specRun false AMap.empty ops).2.map Out.res ∧
    (∀ i, lookupTask c (run c id [] ops).1 i = mapAfter ops i) ∧
    Lists (mapAfter ops) (fun _ => True) (mongoAll c (run c id [] ops).1) ∧
    SortedByTime (mongoAll c (run c id [] ops).1) ∧
    Lists (mapAfter ops) (Due now) (mongoDue c (run c id [] ops).1 now) ∧
    SortedByTime (mongoDue c (run c id [] ops).1 now) ∧
    IsEarliest (mapAfter ops) (nextRunTime (run c id [] ops).1) := by
  obtain ⟨hi, hm, hr⟩ := run_ok (inv_nil c id) ops ho
  rw [toMap_nil] at hm hr
  have hm' : toMap c (run c id [] ops).1 = mapAfter ops := hm
  have hnf : ∀ l : Table, (∀ p ∈ l, ∀ t, c.dec p.2.2 = some t → p.2.1 = t.nrt) →
      (rebuild c (sortBy (fun a b => leNullsFirst a.2.1 b.2.1) l)).Pairwise
        fun a b => NoLaterNF a.nrt b.nrt := by
    intro l hl
    apply rebuild_pairwise (R := NoLaterNF) _ (nf_sorted _)
    intro p hp; exact hl p ((sortBy_perm _ _).mem_iff.1 hp)
  have hdue : Lists (mapAfter ops) (Due now) (mongoDue c (run c id [] ops).1 now) := by
    rw [← hm']
    refine Lists.perm ?_ (rebuild_perm c (sortBy_perm _ _))
    rw [rebuild_due hi now]
    refine (Lists.filter (rebuild_lists hi) _).congr ?_
    intro t; unfold Due; cases hn : t.nrt <;> simp
  refine ⟨hr, fun id => congrFun hm' id, ?_, fixPaused_sorted (hnf _ hi.exact), hdue, ?_, ?_⟩
  · rw [← hm']
    refine Lists.perm ?_ (fixPaused_perm _)
    exact (rebuild_lists hi).perm (rebuild_perm c (sortBy_perm _ _))
  · refine (hnf _ (fun p hp => hi.exact p (List.mem_filter.1 hp).1)).imp_of_mem ?_
    intro a b ha hb hab
    obtain ⟨_, ra, hra, _⟩ := (hdue.2 a).1 ha
    obtain ⟨_, rb, hrb, _⟩ := (hdue.2 b).1 hb
    rw [hra, hrb] at hab ⊢
    exact hab
  · rw [← hm']; exact next_earliest hi

/-- **C08 (partial)**: with a column that rounds (a server-side BIGINT, sqlalchemy.py:55) lookups and
results are still those of the map, and the due tasks are those whose *rounded* run time is
`≤ now`.  Missing: exactness of "due" (see `C08_rounding_counterexample`). -/
theorem C08_sql_rounded_due_partial (c : Codec β) (q : Int → Int) (ops : List (StoreOp β))
    (ho : Redis.AllOk c ops) (now : Int) :
    (run c q [] ops).2 = (specRun false AMap.empty ops).2.map Out.res ∧
    (∀ i, lookupTask c (run c q [] ops).1 i = mapAfter ops i) ∧
    Lists (mapAfter ops) (fun t => ∃ r, t.nrt = some r ∧ q r ≤ now)
      (sqlDue c (run c q [] ops).1 now) := by
  obtain ⟨hi, hm, hr⟩ := run_ok (inv_nil c q) ops ho
  rw [toMap_nil] at hm hr
  have hm' : toMap c (run c q [] ops).1 = mapAfter ops := hm
  refine ⟨hr, fun id => congrFun hm' id, ?_⟩
  rw [← hm']
  refine Lists.perm ?_ (rebuild_perm c (sortBy_perm _ _))
  rw [rebuild_due hi now]
  refine (Lists.filter (rebuild_lists hi) _).congr ?_
  intro t; cases hn : t.nrt <;> simp

/-- Counterexample for a column that rounds to multiples of 8 (units are irrelevant): the task at 5
is stored as 8 and is not returned at time 6 although it is due. -/
theorem C08_rounding_counterexample :
    let q : Int → Int := fun x => (x + 4) / 8 * 8
    let tb := (run sampleCodec q [] [.add ⟨"a", some 5, 3⟩]).1
    lookupTask sampleCodec tb "a" = some ⟨"a", some 5, 3⟩ ∧ sqlDue sampleCodec tb 6 = [] := by
  decide +kernel

/-- **C04** (SQL and MongoDB stores): errors exactly when the id is/is not stored; an error leaves
the table as it was. -/
theorem C04_rows_errors (c : Codec β) (q : Int → Int) (ops : List (StoreOp β))
    (ho : Redis.AllOk c ops) :
    let tb := (run c q [] ops).1
    (∀ t, (c.enc t).isSome → ((addTask c q tb t).2 = .res (.conflict t.id) ↔ mapAfter ops t.id ≠ none)) ∧
    (∀ t, (c.enc t).isSome → ((updateTask c q tb t).2 = .res (.notFound t.id) ↔ mapAfter ops t.id = none)) ∧
    (∀ id, (deleteTask tb id).2 = .res (.notFound id) ↔ mapAfter ops id = none) ∧
    (∀ op, (step c q tb op).2 ≠ .res .ok → (step c q tb op).1 = tb) := by
  intro tb
  obtain ⟨hi, hm, _⟩ := run_ok (inv_nil c q) ops ho
  rw [toMap_nil] at hm
  have hm' : toMap c tb = mapAfter ops := hm
  have hn : ∀ i, mapAfter ops i = none ↔ tb.get? i = none := by
    intro i; rw [← hm']; exact hi.none_iff i
  refine ⟨?_, ?_, ?_, ?_⟩
  · intro t he; rw [Ne, hn]; unfold addTask
    cases tb.get? t.id <;> cases hc : c.enc t <;> simp_all
  · intro t he; rw [hn]; unfold updateTask
    cases tb.get? t.id <;> cases hc : c.enc t <;> simp_all
  · intro i; rw [hn]; unfold deleteTask
    cases tb.get? i <;> simp
  · intro op
    cases op with
    | add t => simp only [step, addTask]; cases tb.get? t.id <;> cases c.enc t <;> simp
    | update t => simp only [step, updateTask]; cases tb.get? t.id <;> cases c.enc t <;> simp
    | delete i => simp only [step, deleteTask]; cases tb.get? i <;> simp
    | clear => simp [step, removeAllTasks]

example : Redis.AllOk sampleCodec sampleOps ∧
    (mongoAll sampleCodec (run sampleCodec id [] sampleOps).1).map Task.id = ["a", "b", "p"] ∧
    (sqlDue sampleCodec (run sampleCodec id [] sampleOps).1 7).map Task.id = ["a"] := by
  refine ⟨?_, by decide +kernel, by decide +kernel⟩
  intro op hop
  simp only [sampleOps, List.mem_cons, List.not_mem_nil, or_false] at hop
  rcases hop with rfl | rfl | rfl | rfl | rfl | rfl <;> simp only [Redis.OpOk] <;> decide +kernel

end Rows
end Persist

/-! ## C10: encryption -/
namespace Crypto
open Persist (Bytes)

/-- **C10**: what is written under a key (or in the clear) is what is read back under the same
setting, for every 13-byte nonce. -/
theorem C10_roundtrip (A : AEAD) (key : Option A.Key) (nonce inp : Bytes)
    (hn : nonce.length = 13) :
    conditionalDecrypt A key (conditionalEncrypt A key nonce inp) = some inp := by
  cases key with
  | none => rfl
  | some k =>
    unfold conditionalDecrypt conditionalEncrypt
    simp only
    rw [List.take_append_of_le_length (by omega), List.take_of_length_le (by omega),
      List.drop_append_of_le_length (by omega), List.drop_of_length_le (by omega), List.nil_append]
    exact A.dec_enc k nonce inp

/-- **C10**: a payload written under another key is rejected. -/
theorem C10_foreign_key (A : AEAD) (k k' : A.Key) (nonce inp : Bytes) (hk : k ≠ k')
    (hn : nonce.length = 13) :
    conditionalDecrypt A (some k') (conditionalEncrypt A (some k) nonce inp) = none := by
  unfold conditionalDecrypt conditionalEncrypt
  simp only
  rw [List.take_append_of_le_length (by omega), List.take_of_length_le (by omega),
    List.drop_append_of_le_length (by omega), List.drop_of_length_le (by omega), List.nil_append]
  exact A.foreign k k' nonce inp hk

/-- **C10**: without a key the payload is stored unchanged. -/
theorem C10_clear (A : AEAD) (nonce inp : Bytes) :
    conditionalEncrypt A none nonce inp = inp := rfl

/-- A toy cipher meeting the assumptions: the ciphertext carries key and nonce. -/
def toyAEAD : AEAD where
  Key := UInt8
  enc k _ m := k :: m
  dec k _ ct := match ct with
    | k' :: m => if k' = k then some m else none
    | [] => none
  dec_enc := by intro k n m; simp
  foreign := by intro k k' n m h; simp [h]

example : conditionalDecrypt toyAEAD (some (7 : UInt8))
    (conditionalEncrypt toyAEAD (some (7 : UInt8)) (List.replicate 13 1) [9, 9]) = some [9, 9] :=
  C10_roundtrip _ _ _ _ rfl

end Crypto
end Asyncz
