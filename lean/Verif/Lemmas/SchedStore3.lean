import Verif.Lemmas.SchedStore2
/-!
# File and Redis stores below a scheduler

`FileStore` raises for ids it does not accept, and `RedisStore` never finds times before 1970 due; so they are lawful
stores only as far as such ids and times are not used.  `File.anyOps` and `Redis.anyOps` are what the two do without these
two exceptions: they are lawful (`File.anyLawful`, `Redis.anyLawful`), and they are exactly the models of the code
(`File.realOps`, `Redis.realOps`) as long as only accepted ids and no times before 1970 are used
(Props/BuiltinStores.lean).
-/
namespace Asyncz
namespace Persist
variable {β : Type}

namespace File

/-- a call made with the model of the code; the error for an id that is not accepted (file.py:51-58) and for a task that cannot
be serialised have no counterpart in `Res` and are left out below by hypotheses -/
def outRes : Out → Res
  | .res r => r
  | _ => .ok

/-- `FileStore` (file.py:22-175); `cleanup` is `cleanup_directory` (file.py:69-72) -/
def realOps (c : Codec β) (suffix : String) (cleanup : Bool) : StoreOps Dir β where
  init := []
  lookup := fun d id => (lookupTask c suffix d id).2.getD none
  due := getDueTasks c suffix
  nextRun := getNextRunTime c suffix
  all := getAllTasks c suffix
  step := fun d op => ((step c suffix d op).1, outRes (step c suffix d op).2)
  close := fun d => if cleanup then [] else d

/-- the calls without the check of the id -/
def anyStep (c : Codec β) (suffix : String) (d : Dir) : StoreOp β → Dir × Res
  | .add t => match d.get? (fileName suffix t.id) with
    | some _ => (d, .conflict t.id)
    | none => match c.enc t with
      | some b => (d.set (fileName suffix t.id) b, .ok)
      | none => (d.set (fileName suffix t.id) [], .ok)
  | .update t => match d.get? (fileName suffix t.id) with
    | none => (d, .notFound t.id)
    | some _ => match c.enc t with
      | some b => (d.set (fileName suffix t.id) b, .ok)
      | none => (d.set (fileName suffix t.id) [], .ok)
  | .delete id => match d.get? (fileName suffix id) with
    | none => (d, .notFound id)
    | some _ => (d.erase (fileName suffix id), .ok)
  | .clear => (d.filter fun p => !hasSuffix suffix p.1, .ok)

/-- a file store that accepts every id -/
def anyOps (c : Codec β) (suffix : String) (cleanup : Bool) : StoreOps Dir β where
  init := []
  lookup := fun d id => (d.get? (fileName suffix id)).bind c.dec
  due := getDueTasks c suffix
  nextRun := getNextRunTime c suffix
  all := getAllTasks c suffix
  step := anyStep c suffix
  close := fun d => if cleanup then [] else d

/-- every file was written by this store -/
structure AnyInv (c : Codec β) (suffix : String) (d : Dir) : Prop where
  wf : d.WF
  files : ∀ n b, d.get? n = some b → ∃ t, c.enc t = some b ∧ n = fileName suffix t.id

def anyMap (c : Codec β) (suffix : String) (d : Dir) : AMap β := fun id => (d.get? (fileName suffix id)).bind c.dec

theorem anyInv_nil (c : Codec β) (suffix : String) : AnyInv c suffix [] := ⟨Dict.WF.nil, by simp [Dict.get?]⟩

theorem AnyInv.get_dec {c : Codec β} {suffix : String} {d : Dir} (h : AnyInv c suffix d) {id : String} {b : Bytes}
    (hg : d.get? (fileName suffix id) = some b) : ∃ t, c.dec b = some t ∧ t.id = id ∧ c.enc t = some b := by
  obtain ⟨t, he, hn⟩ := h.files _ _ hg
  exact ⟨t, c.dec_enc t b he, (fileName_inj hn).symm, he⟩

theorem AnyInv.set {c : Codec β} {suffix : String} {d : Dir} (h : AnyInv c suffix d) {t : Task β} {b : Bytes}
    (he : c.enc t = some b) : AnyInv c suffix (d.set (fileName suffix t.id) b) := by
  refine ⟨h.wf.set _ _, ?_⟩
  intro n b' hg
  rw [Dict.get?_set] at hg
  split at hg
  · rename_i hn; cases hg; exact ⟨t, he, hn⟩
  · exact h.files n b' hg

theorem AnyInv.clear {c : Codec β} {suffix : String} {d : Dir} (h : AnyInv c suffix d) :
    (d.filter fun p => !hasSuffix suffix p.1) = [] := by
  rw [List.filter_eq_nil_iff]
  rintro ⟨n, b⟩ hp
  obtain ⟨t, _, hn⟩ := h.files n b (Dict.get?_of_mem h.wf hp)
  simp [hn, hasSuffix_fileName]

theorem AnyInv.none_iff {c : Codec β} {suffix : String} {d : Dir} (h : AnyInv c suffix d) {id : String} :
    anyMap c suffix d id = none ↔ d.get? (fileName suffix id) = none := by
  unfold anyMap
  cases hg : d.get? (fileName suffix id) with
  | none => simp
  | some b =>
    obtain ⟨t, ht, _⟩ := h.get_dec hg
    simp [ht]

theorem anyMap_set {c : Codec β} {suffix : String} {d : Dir} {t : Task β} {b : Bytes} (he : c.enc t = some b) :
    anyMap c suffix (d.set (fileName suffix t.id) b) = (anyMap c suffix d).set t := by
  funext i
  unfold anyMap AMap.set
  by_cases hi : i = t.id
  · subst hi; simp [Dict.get?_set, c.dec_enc t b he]
  · have : fileName suffix i ≠ fileName suffix t.id := fun e => hi (fileName_inj e)
    simp [hi, Dict.get?_set, this]

theorem anyMap_erase {c : Codec β} {suffix : String} {d : Dir} (hw : d.WF) (id : String) :
    anyMap c suffix (d.erase (fileName suffix id)) = (anyMap c suffix d).erase id := by
  funext i
  unfold anyMap AMap.erase
  by_cases hi : i = id
  · subst hi; simp [Dict.get?_erase hw]
  · have : fileName suffix i ≠ fileName suffix id := fun e => hi (fileName_inj e)
    simp [hi, Dict.get?_erase hw, this]

theorem any_step {c : Codec β} {suffix : String} (hc : ∀ t, (c.enc t).isSome) {d : Dir} (h : AnyInv c suffix d)
    (op : StoreOp β) : AnyInv c suffix (anyStep c suffix d op).1 ∧
      (anyMap c suffix (anyStep c suffix d op).1, (anyStep c suffix d op).2) = specStep false (anyMap c suffix d) op := by
  cases op with
  | add t =>
    obtain ⟨b, hb⟩ := Option.isSome_iff_exists.1 (hc t)
    have hn := h.none_iff (id := t.id)
    simp only [anyStep, hb, specStep]
    cases hg : d.get? (fileName suffix t.id) with
    | none => rw [hn.2 hg]; exact ⟨h.set hb, by simp only [anyMap_set hb]⟩
    | some b' =>
      cases hm : anyMap c suffix d t.id with
      | none => rw [hn.1 hm] at hg; cases hg
      | some u => exact ⟨h, rfl⟩
  | update t =>
    obtain ⟨b, hb⟩ := Option.isSome_iff_exists.1 (hc t)
    have hn := h.none_iff (id := t.id)
    simp only [anyStep, hb, specStep]
    cases hg : d.get? (fileName suffix t.id) with
    | none => rw [hn.2 hg]; exact ⟨h, rfl⟩
    | some b' =>
      cases hm : anyMap c suffix d t.id with
      | none => rw [hn.1 hm] at hg; cases hg
      | some u => exact ⟨h.set hb, by simp only [anyMap_set hb]⟩
  | delete id =>
    have hn := h.none_iff (id := id)
    simp only [anyStep, specStep]
    cases hg : d.get? (fileName suffix id) with
    | none => rw [hn.2 hg]; exact ⟨h, rfl⟩
    | some b' =>
      cases hm : anyMap c suffix d id with
      | none => rw [hn.1 hm] at hg; cases hg
      | some u =>
        refine ⟨⟨h.wf.erase _, ?_⟩, by simp only [anyMap_erase h.wf]⟩
        intro n b'' hg'
        rw [Dict.get?_erase h.wf] at hg'
        split at hg'
        · cases hg'
        · exact h.files n b'' hg'
  | clear =>
    simp only [anyStep, h.clear, specStep]
    refine ⟨anyInv_nil c suffix, ?_⟩
    have : anyMap c suffix [] = AMap.empty := by funext i; simp [anyMap, Dict.get?, AMap.empty]
    rw [this]

theorem anyMap_id {c : Codec β} {suffix : String} {d : Dir} (h : AnyInv c suffix d) (i : String) (t : Task β)
    (hm : anyMap c suffix d i = some t) : t.id = i := by
  obtain ⟨b, hg, hd⟩ := Option.bind_eq_some_iff.1 hm
  obtain ⟨u, hu, hi, _⟩ := h.get_dec hg
  rw [hd] at hu; cases hu; exact hi

theorem any_all {c : Codec β} {suffix : String} {d : Dir} (h : AnyInv c suffix d) :
    Lists (anyMap c suffix d) (fun _ => True) (getAllTasks c suffix d) := by
  unfold getAllTasks
  refine Lists.perm ?_ (sortBy_perm _ _)
  have hfm : (d.filterMap fun p => if hasSuffix suffix p.1 then c.dec p.2 else none) =
      d.filterMap fun p => c.dec p.2 := by
    have : ∀ l : Dir, (∀ p ∈ l, hasSuffix suffix p.1 = true) →
        (l.filterMap fun p => if hasSuffix suffix p.1 then c.dec p.2 else none) = l.filterMap fun p => c.dec p.2 := by
      intro l hl
      induction l with
      | nil => rfl
      | cons a l ih =>
        have ha := hl a (by simp)
        simp only [List.filterMap_cons, ha, if_true, ih (fun p hp => hl p (by simp [hp]))]
    apply this
    rintro ⟨n, b⟩ hp
    obtain ⟨t, _, hn⟩ := h.files n b (Dict.get?_of_mem h.wf hp)
    simp [hn, hasSuffix_fileName]
  rw [hfm]
  apply lists_of_dict d h.wf (fileName suffix) c.dec
  · intro i t
    constructor
    · intro hm
      have hid := anyMap_id h i t hm
      obtain ⟨b, hg, hd⟩ := Option.bind_eq_some_iff.1 hm
      exact ⟨b, hg, hd, hid⟩
    · rintro ⟨b, hg, hd, hi⟩
      unfold anyMap
      rw [hg]; exact hd
  · intro k v t hg hd
    obtain ⟨u, he, hn⟩ := h.files _ _ hg
    rw [c.dec_enc u v he] at hd; cases hd
    exact hn.symm

/-- a file store that accepts every id is lawful, if every task can be serialised -/
def anyLawful (c : Codec β) (suffix : String) (cleanup : Bool) (hc : ∀ t, (c.enc t).isSome) :
    LawfulStore (anyOps c suffix cleanup) where
  Inv := AnyInv c suffix
  toMap := anyMap c suffix
  upsert := fun _ => false
  init_inv := anyInv_nil c suffix
  init_map := by funext i; simp [anyOps, anyMap, Dict.get?, AMap.empty]
  key := fun h hm => anyMap_id h _ _ hm
  lookup := fun _ _ => rfl
  due := fun h now => by
    refine (Lists.filter (any_all h) _).congr ?_
    intro t; unfold Due; cases hn : t.nrt <;> simp
  nextRun := fun {d} h => by
    have hs : SortedByTime (getAllTasks c suffix d) := sorted_sortBy _
    show IsEarliest _ (getNextRunTime c suffix d)
    unfold getNextRunTime
    rw [nextLoop_head _ hs]
    exact earliest_head (anyMap_id h) (any_all h) hs
  all := fun h => any_all h
  close_inv := fun {d} h => by
    show AnyInv c suffix (if cleanup then [] else d)
    split
    · exact anyInv_nil c suffix
    · exact h
  step_inv := fun h op => (any_step hc h op).1
  step_map := fun h op => (any_step hc h op).2

end File

namespace Redis

/-- `RedisStore` (redis.py:20-171) -/
def realOps (c : Codec β) : StoreOps DB β where
  init := init
  lookup := lookupTask c
  due := getDueTasks c
  nextRun := getNextRunTime
  all := getAllTasks c
  step := fun db op => ((step c db op).1, File.outRes (step c db op).2)
  close := fun db => db

/-- a Redis store that finds times before 1970 due, too -/
def anyOps (c : Codec β) : StoreOps DB β :=
  { realOps c with due := fun db now =>
      if db.zset.all fun p => decide (0 ≤ p.2) then getDueTasks c db now
      else (getAllTasks c db).filter fun t => match t.nrt with | none => false | some r => decide (r ≤ now) }

theorem any_due {c : Codec β} {db : DB} (h : Inv c db) (now : Int) :
    Lists (toMap c db) (Due now) ((anyOps c).due db now) := by
  show Lists _ _ (if _ then _ else _)
  split
  · rename_i hall
    obtain ⟨h1, h2⟩ := (due_lists h now).1
    refine ⟨h1, fun t => ?_⟩
    rw [h2 t]
    refine and_congr_right fun hm => ?_
    unfold Due
    constructor
    · rintro ⟨r, h1, _, h2⟩; exact ⟨r, h1, h2⟩
    · rintro ⟨r, h1, h2⟩
      refine ⟨r, h1, ?_, h2⟩
      have hz : db.zset.get? t.id = some r := by rw [h.scores, hm]; simpa using h1
      simpa using List.all_eq_true.1 hall _ (Dict.mem_of_get? hz)
  · refine (Lists.filter (all_lists h) _).congr ?_
    intro t; unfold Due; cases hn : t.nrt <;> simp

theorem any_step {c : Codec β} (hc : ∀ t, (c.enc t).isSome) {db : DB} (h : Inv c db) (op : StoreOp β) :
    Inv c ((anyOps c).step db op).1 ∧
      (toMap c ((anyOps c).step db op).1, ((anyOps c).step db op).2) = specStep false (toMap c db) op := by
  obtain ⟨h1, h2, h3⟩ := step_ok h op (Rows.opOk_of_total hc op)
  refine ⟨h1, ?_⟩
  show (toMap c (step c db op).1, File.outRes (step c db op).2) = _
  rw [h2, h3]; rfl

/-- a Redis store is lawful, if every task can be serialised and times before 1970 are found due -/
def anyLawful (c : Codec β) (hc : ∀ t, (c.enc t).isSome) : LawfulStore (anyOps c) where
  Inv := Inv c
  toMap := toMap c
  upsert := fun _ => false
  init_inv := inv_init c
  init_map := by funext i; simp [anyOps, realOps, toMap, init, lookupTask, Dict.get?, AMap.empty]
  key := fun h hm => h.toMap_id _ _ hm
  lookup := fun _ _ => rfl
  due := fun h now => any_due h now
  nextRun := fun h => next_earliest h
  all := fun h => all_lists h
  close_inv := fun h => h
  step_inv := fun h op => (any_step hc h op).1
  step_map := fun h op => (any_step hc h op).2

end Redis
end Persist
end Asyncz
