import Verif.Model.Persist
/-! Helper lemmas for the persistent-store models. -/
namespace Asyncz
namespace Persist
variable {β : Type}

/-! ### generic facts about listings -/

theorem _root_.Asyncz.Lists.filter {m : AMap β} {p : Task β → Prop} {l : List (Task β)} (h : Lists m p l)
    (q : Task β → Bool) : Lists m (fun t => p t ∧ q t = true) (l.filter q) := by
  refine ⟨h.1.filter _, fun t => ?_⟩
  rw [List.mem_filter, h.2 t]
  constructor
  · rintro ⟨⟨a, b⟩, c⟩; exact ⟨a, b, c⟩
  · rintro ⟨a, b, c⟩; exact ⟨⟨a, b⟩, c⟩

theorem _root_.Asyncz.Lists.perm {m : AMap β} {p : Task β → Prop} {l l' : List (Task β)} (h : Lists m p l)
    (hp : l'.Perm l) : Lists m p l' :=
  ⟨hp.nodup_iff.2 h.1, fun t => by rw [hp.mem_iff]; exact h.2 t⟩

theorem _root_.Asyncz.Lists.congr {m : AMap β} {p q : Task β → Prop} {l : List (Task β)} (h : Lists m p l)
    (hpq : ∀ t, p t ↔ q t) : Lists m q l :=
  ⟨h.1, fun t => by rw [h.2 t, hpq]⟩

def SortedByTime (l : List (Task β)) : Prop := l.Pairwise fun a b => RunsNoLater a.nrt b.nrt

theorem leTime_iff (a b : Task β) : File.leTime a b = true ↔ RunsNoLater a.nrt b.nrt := by
  unfold File.leTime RunsNoLater
  cases a.nrt <;> cases b.nrt <;> simp

theorem rnl_trans {a b c : Option Int} (h : RunsNoLater a b) (h' : RunsNoLater b c) :
    RunsNoLater a c := by
  unfold RunsNoLater at *
  cases a <;> cases b <;> cases c <;> simp_all; omega

theorem rnl_total (a b : Option Int) : RunsNoLater a b ∨ RunsNoLater b a := by
  unfold RunsNoLater
  cases a <;> cases b <;> simp_all; omega

theorem sorted_sortBy (l : List (Task β)) : SortedByTime (sortBy File.leTime l) := by
  have := sortBy_pairwise (le := File.leTime (β := β))
    (by intro a b c; simp only [leTime_iff]; exact rnl_trans)
    (by intro a b; have := rnl_total a.nrt b.nrt; simpa [leTime_iff, ← leTime_iff] using this) l
  exact this.imp (fun h => (leTime_iff _ _).1 h)

theorem nextLoop_sorted (l : List (Task β)) (hs : SortedByTime l) (a : Int)
    (ha : ∀ t ∈ l, ∀ r, t.nrt = some r → a ≤ r) : File.nextLoop (some a) l = some a := by
  induction l generalizing a with
  | nil => rfl
  | cons t ts ih =>
    unfold File.nextLoop
    cases hn : t.nrt with
    | none => rfl
    | some r =>
      simp only
      have har := ha t (by simp) r hn
      split
      · have : a = r := by omega
        subst this
        exact ih (List.pairwise_cons.1 hs).2 a (fun t' h' => ha t' (by simp [h']))
      · exact ih (List.pairwise_cons.1 hs).2 a (fun t' h' => ha t' (by simp [h']))

theorem earliest_head {m : AMap β} {l : List (Task β)} (hid : ∀ i t, m i = some t → t.id = i)
    (h : Lists m (fun _ => True) l) (hs : SortedByTime l) :
    IsEarliest m (l.head?.bind Task.nrt) := by
  have hmem : ∀ i t, m i = some t → t ∈ l := fun i t ht =>
    (h.2 t).2 ⟨by rw [hid i t ht]; exact ht, trivial⟩
  cases l with
  | nil => intro i t ht; have := hmem i t ht; simp at this
  | cons t ts =>
    have h1 := (List.pairwise_cons.1 hs).1
    show IsEarliest m t.nrt
    cases hn : t.nrt with
    | none =>
      intro i u hu
      rcases List.mem_cons.1 (hmem i u hu) with rfl | hm
      · exact hn
      · have := h1 u hm; rw [hn] at this; unfold RunsNoLater at this
        cases hu' : u.nrt <;> simp_all
    | some x =>
      refine ⟨⟨t.id, t, ((h.2 t).1 (by simp)).1, hn⟩, ?_⟩
      intro i u y hu hy
      rcases List.mem_cons.1 (hmem i u hu) with rfl | hm
      · simp_all
      · have := h1 u hm; rw [hn, hy] at this; simpa [RunsNoLater] using this

theorem nextLoop_head (l : List (Task β)) (hs : SortedByTime l) :
    File.nextLoop none l = (l.head?.bind Task.nrt) := by
  cases l with
  | nil => rfl
  | cons t ts =>
    unfold File.nextLoop
    cases hn : t.nrt with
    | none => simp [hn]
    | some r =>
      simp only [List.head?_cons, Option.bind_some, hn]
      apply nextLoop_sorted _ (List.pairwise_cons.1 hs).2
      intro u hu y hy
      have := (List.pairwise_cons.1 hs).1 u hu
      rw [hn, hy] at this; simpa [RunsNoLater] using this

/-- the rows of a dict, decoded, list the map that decoding each key gives -/
theorem lists_of_dict {κ ν : Type} [DecidableEq κ] (d : Dict κ ν) (hw : d.WF)
    (key : String → κ) (f : ν → Option (Task β)) (m : AMap β)
    (hm : ∀ i t, m i = some t ↔ ∃ v, d.get? (key i) = some v ∧ f v = some t ∧ t.id = i)
    (hk : ∀ k v t, d.get? k = some v → f v = some t → key t.id = k) :
    Lists m (fun _ => True) (d.filterMap fun p => f p.2) := by
  refine ⟨?_, ?_⟩
  · unfold List.Nodup
    rw [List.pairwise_filterMap]
    have hw' : d.Pairwise fun a b => a.1 ≠ b.1 := List.pairwise_map.1 hw
    refine hw'.imp_of_mem ?_
    intro a b ha hb hab t ht u hu e
    subst e
    have h1 := hk a.1 a.2 t (Dict.get?_of_mem hw ha) ht
    have h2 := hk b.1 b.2 t (Dict.get?_of_mem hw hb) hu
    exact hab (h1.symm.trans h2)
  · intro t
    rw [List.mem_filterMap, hm]
    constructor
    · rintro ⟨⟨k, v⟩, hp, hf⟩
      have hg := Dict.get?_of_mem hw hp
      have := hk k v t hg hf
      exact ⟨⟨v, by rw [this]; exact hg, hf, rfl⟩, trivial⟩
    · rintro ⟨⟨v, hg, hf, _⟩, _⟩
      exact ⟨(key t.id, v), Dict.mem_of_get? hg, hf⟩

/-! ### FileStore -/
namespace File

theorem fileName_inj {suffix a b : String} (h : fileName suffix a = fileName suffix b) : a = b := by
  unfold fileName at h
  have := congrArg String.toList h
  simp only [String.toList_append] at this
  exact String.ext (List.append_cancel_right this)

theorem hasSuffix_fileName (suffix id : String) : hasSuffix suffix (fileName suffix id) = true := by
  unfold hasSuffix fileName
  rw [String.toList_append, List.isSuffixOf_iff_suffix]
  exact List.suffix_append _ _

/-- every file was written by this store -/
structure Inv (c : Codec β) (suffix : String) (d : Dir) : Prop where
  wf : d.WF
  files : ∀ n b, d.get? n = some b →
    ∃ t, c.enc t = some b ∧ n = fileName suffix t.id ∧ checkTaskId t.id = true

def toMap (c : Codec β) (suffix : String) (d : Dir) : AMap β := fun id =>
  if checkTaskId id then (d.get? (fileName suffix id)).bind c.dec else none

/-- the call only uses accepted ids and serialisable tasks -/
def OpOk (c : Codec β) : StoreOp β → Prop
  | .add t => checkTaskId t.id = true ∧ (c.enc t).isSome
  | .update t => checkTaskId t.id = true ∧ (c.enc t).isSome
  | .delete id => checkTaskId id = true
  | .clear => True

theorem inv_nil (c : Codec β) (suffix : String) : Inv c suffix [] :=
  ⟨Dict.WF.nil, by simp [Dict.get?]⟩

theorem Inv.get_dec {c : Codec β} {suffix : String} {d : Dir} (h : Inv c suffix d) {id : String}
    {b : Bytes} (hg : d.get? (fileName suffix id) = some b) :
    ∃ t, c.dec b = some t ∧ t.id = id ∧ c.enc t = some b := by
  obtain ⟨t, he, hn, _⟩ := h.files _ _ hg
  exact ⟨t, c.dec_enc t b he, (fileName_inj hn).symm, he⟩

theorem Inv.set {c : Codec β} {suffix : String} {d : Dir} (h : Inv c suffix d) {t : Task β}
    {b : Bytes} (hc : checkTaskId t.id = true) (he : c.enc t = some b) :
    Inv c suffix (d.set (fileName suffix t.id) b) := by
  refine ⟨h.wf.set _ _, ?_⟩
  intro n b' hg
  rw [Dict.get?_set] at hg
  split at hg
  · rename_i hn; cases hg; exact ⟨t, he, hn, hc⟩
  · exact h.files n b' hg

theorem Inv.erase {c : Codec β} {suffix : String} {d : Dir} (h : Inv c suffix d) (n : String) :
    Inv c suffix (d.erase n) := by
  refine ⟨h.wf.erase _, ?_⟩
  intro n b' hg
  rw [Dict.get?_erase h.wf] at hg
  split at hg
  · cases hg
  · exact h.files n b' hg

theorem Inv.clear {c : Codec β} {suffix : String} {d : Dir} (h : Inv c suffix d) :
    (d.filter fun p => !hasSuffix suffix p.1) = [] := by
  rw [List.filter_eq_nil_iff]
  rintro ⟨n, b⟩ hp
  obtain ⟨t, _, hn, _⟩ := h.files n b (Dict.get?_of_mem h.wf hp)
  simp [hn, hasSuffix_fileName]

theorem inv_step {c : Codec β} {suffix : String} {d : Dir} (h : Inv c suffix d) (op : StoreOp β)
    (ho : OpOk c op) : Inv c suffix (step c suffix d op).1 := by
  cases op with
  | add t =>
    obtain ⟨hc, hs⟩ := ho
    obtain ⟨b, hb⟩ := Option.isSome_iff_exists.1 hs
    simp only [step, addTask, hc, if_true, hb]
    split
    · exact h
    · exact h.set hc hb
  | update t =>
    obtain ⟨hc, hs⟩ := ho
    obtain ⟨b, hb⟩ := Option.isSome_iff_exists.1 hs
    simp only [step, updateTask, hc, if_true, hb]
    split
    · exact h
    · exact h.set hc hb
  | delete id =>
    have hc : checkTaskId id = true := ho
    simp only [step, deleteTask, hc, if_true]
    split
    · exact h
    · exact h.erase _
  | clear =>
    simp only [step, removeAllTasks, h.clear]
    exact inv_nil c suffix

theorem toMap_none_iff {c : Codec β} {suffix : String} {d : Dir} (h : Inv c suffix d) {id : String}
    (hc : checkTaskId id = true) :
    toMap c suffix d id = none ↔ d.get? (fileName suffix id) = none := by
  unfold toMap
  simp only [hc, if_true]
  cases hg : d.get? (fileName suffix id) with
  | none => simp
  | some b =>
    obtain ⟨t, ht, _⟩ := h.get_dec hg
    simp [ht]

theorem toMap_set {c : Codec β} {suffix : String} {d : Dir} {t : Task β} {b : Bytes}
    (hc : checkTaskId t.id = true) (he : c.enc t = some b) :
    toMap c suffix (d.set (fileName suffix t.id) b) = (toMap c suffix d).set t := by
  funext i
  unfold toMap AMap.set
  by_cases hi : i = t.id
  · subst hi; simp [hc, Dict.get?_set, c.dec_enc t b he]
  · have : fileName suffix i ≠ fileName suffix t.id := fun e => hi (fileName_inj e)
    simp [hi, Dict.get?_set, this]

theorem toMap_erase {c : Codec β} {suffix : String} {d : Dir} (hw : d.WF) (id : String) :
    toMap c suffix (d.erase (fileName suffix id)) = (toMap c suffix d).erase id := by
  funext i
  unfold toMap AMap.erase
  by_cases hi : i = id
  · subst hi; simp [Dict.get?_erase hw]
  · have : fileName suffix i ≠ fileName suffix id := fun e => hi (fileName_inj e)
    simp [hi, Dict.get?_erase hw, this]

theorem toMap_step {c : Codec β} {suffix : String} {d : Dir} (h : Inv c suffix d) (op : StoreOp β)
    (ho : OpOk c op) :
    toMap c suffix (step c suffix d op).1 = (specStep false (toMap c suffix d) op).1 ∧
    (step c suffix d op).2 = .res (specStep false (toMap c suffix d) op).2 := by
  cases op with
  | add t =>
    obtain ⟨hc, hs⟩ := ho
    obtain ⟨b, hb⟩ := Option.isSome_iff_exists.1 hs
    have hn := toMap_none_iff h hc
    simp only [step, addTask, hc, if_true, hb, specStep]
    cases hg : d.get? (fileName suffix t.id) with
    | none => rw [hn.2 hg]; exact ⟨toMap_set hc hb, rfl⟩
    | some b' =>
      cases hm : toMap c suffix d t.id with
      | none => rw [hn.1 hm] at hg; cases hg
      | some u => exact ⟨rfl, rfl⟩
  | update t =>
    obtain ⟨hc, hs⟩ := ho
    obtain ⟨b, hb⟩ := Option.isSome_iff_exists.1 hs
    have hn := toMap_none_iff h hc
    simp only [step, updateTask, hc, if_true, hb, specStep]
    cases hg : d.get? (fileName suffix t.id) with
    | none => rw [hn.2 hg]; exact ⟨rfl, rfl⟩
    | some b' =>
      cases hm : toMap c suffix d t.id with
      | none => rw [hn.1 hm] at hg; cases hg
      | some u => exact ⟨toMap_set hc hb, rfl⟩
  | delete id =>
    have hc : checkTaskId id = true := ho
    have hn := toMap_none_iff h hc
    simp only [step, deleteTask, hc, if_true, specStep]
    cases hg : d.get? (fileName suffix id) with
    | none => rw [hn.2 hg]; exact ⟨rfl, rfl⟩
    | some b' =>
      cases hm : toMap c suffix d id with
      | none => rw [hn.1 hm] at hg; cases hg
      | some u => exact ⟨toMap_erase h.wf id, rfl⟩
  | clear =>
    simp only [step, removeAllTasks, h.clear, specStep]
    refine ⟨?_, trivial⟩
    funext i; simp [toMap, Dict.get?, AMap.empty]

theorem toMap_id {c : Codec β} {suffix : String} {d : Dir} (h : Inv c suffix d) (i : String)
    (t : Task β) (hm : toMap c suffix d i = some t) : t.id = i := by
  unfold toMap at hm
  split at hm
  · obtain ⟨b, hg, hd⟩ := Option.bind_eq_some_iff.1 hm
    obtain ⟨u, hu, hi, _⟩ := h.get_dec hg
    rw [hd] at hu; cases hu; exact hi
  · cases hm

theorem all_lists {c : Codec β} {suffix : String} {d : Dir} (h : Inv c suffix d) :
    Lists (toMap c suffix d) (fun _ => True) (getAllTasks c suffix d) := by
  unfold getAllTasks
  refine Lists.perm ?_ (sortBy_perm _ _)
  have hfm : (d.filterMap fun p => if hasSuffix suffix p.1 then c.dec p.2 else none) =
      d.filterMap fun p => c.dec p.2 := by
    have : ∀ l : Dir, (∀ p ∈ l, hasSuffix suffix p.1 = true) →
        (l.filterMap fun p => if hasSuffix suffix p.1 then c.dec p.2 else none) =
          l.filterMap fun p => c.dec p.2 := by
      intro l hl
      induction l with
      | nil => rfl
      | cons a l ih =>
        have ha := hl a (by simp)
        simp only [List.filterMap_cons, ha, if_true, ih (fun p hp => hl p (by simp [hp]))]
    apply this
    rintro ⟨n, b⟩ hp
    obtain ⟨t, _, hn, _⟩ := h.files n b (Dict.get?_of_mem h.wf hp)
    simp [hn, hasSuffix_fileName]
  rw [hfm]
  apply lists_of_dict d h.wf (fileName suffix) c.dec
  · intro i t
    unfold toMap
    constructor
    · intro hm
      have hid := toMap_id h i t hm
      split at hm
      · obtain ⟨b, hg, hd⟩ := Option.bind_eq_some_iff.1 hm
        exact ⟨b, hg, hd, hid⟩
      · cases hm
    · rintro ⟨b, hg, hd, hi⟩
      obtain ⟨u, _, hn, hc⟩ := h.files _ _ hg
      rw [fileName_inj hn]; simp only [hc, if_true]
      rw [← fileName_inj hn, hg]; simpa using hd
  · intro k v t hg hd
    obtain ⟨u, he, hn, _⟩ := h.files _ _ hg
    rw [c.dec_enc u v he] at hd; cases hd
    exact hn.symm

end File

/-! ### RedisStore -/
namespace Redis

def toMap (c : Codec β) (db : DB) : AMap β := fun id => lookupTask c db id

def OpOk (c : Codec β) : StoreOp β → Prop
  | .add t => (c.enc t).isSome
  | .update t => (c.enc t).isSome
  | _ => True

structure Inv (c : Codec β) (db : DB) : Prop where
  wf : db.hash.WF
  wfz : db.zset.WF
  rows : ∀ i b, db.hash.get? i = some b → ∃ t, c.enc t = some b ∧ t.id = i
  scores : ∀ i, db.zset.get? i = (toMap c db i).bind Task.nrt

theorem inv_init (c : Codec β) : Inv c init :=
  ⟨Dict.WF.nil, Dict.WF.nil, by simp [init, Dict.get?], by simp [init, toMap, lookupTask, Dict.get?]⟩

theorem Inv.none_iff {c : Codec β} {db : DB} (h : Inv c db) (i : String) :
    toMap c db i = none ↔ db.hash.get? i = none := by
  unfold toMap lookupTask
  cases hg : db.hash.get? i with
  | none => simp
  | some b =>
    obtain ⟨t, he, _⟩ := h.rows i b hg
    simp [c.dec_enc t b he]

theorem Inv.toMap_id {c : Codec β} {db : DB} (h : Inv c db) (i : String) (t : Task β)
    (hm : toMap c db i = some t) : t.id = i := by
  unfold toMap lookupTask at hm
  obtain ⟨b, hg, hd⟩ := Option.bind_eq_some_iff.1 hm
  obtain ⟨u, he, hi⟩ := h.rows i b hg
  rw [c.dec_enc u b he] at hd; cases hd; exact hi

theorem toMap_set {c : Codec β} {hash : Dict String Bytes} {z z' : Dict String Int} {t : Task β}
    {b : Bytes} (he : c.enc t = some b) :
    toMap c ⟨hash.set t.id b, z'⟩ = (toMap c ⟨hash, z⟩).set t := by
  funext i
  unfold toMap lookupTask AMap.set
  simp only [Dict.get?_set]
  split
  · simp [c.dec_enc t b he]
  · rfl

theorem toMap_erase {c : Codec β} {hash : Dict String Bytes} {z z' : Dict String Int}
    (hw : hash.WF) (id : String) :
    toMap c ⟨hash.erase id, z'⟩ = (toMap c ⟨hash, z⟩).erase id := by
  funext i
  unfold toMap lookupTask AMap.erase
  simp only [Dict.get?_erase hw]
  split <;> rfl

theorem inv_put {c : Codec β} {db : DB} (h : Inv c db) {t : Task β} {b : Bytes}
    (he : c.enc t = some b) (z : Dict String Int) (hz : z.WF)
    (hs : ∀ i, z.get? i = if i = t.id then t.nrt else db.zset.get? i) :
    Inv c ⟨db.hash.set t.id b, z⟩ := by
  refine ⟨h.wf.set _ _, hz, ?_, ?_⟩
  · intro i b' hg
    rw [Dict.get?_set] at hg
    split at hg
    · rename_i hi; cases hg; exact ⟨t, he, hi.symm⟩
    · exact h.rows i b' hg
  · intro i
    rw [toMap_set he (z := db.zset)]
    simp only [hs, AMap.set]
    split
    · simp
    · exact h.scores i

theorem step_ok {c : Codec β} {db : DB} (h : Inv c db) (op : StoreOp β) (ho : OpOk c op) :
    Inv c (step c db op).1 ∧
    toMap c (step c db op).1 = (specStep false (toMap c db) op).1 ∧
    (step c db op).2 = .res (specStep false (toMap c db) op).2 := by
  cases op with
  | add t =>
    obtain ⟨b, hb⟩ := Option.isSome_iff_exists.1 ho
    have hn := h.none_iff t.id
    simp only [step, addTask, hb, specStep]
    cases hg : db.hash.get? t.id with
    | none =>
      have hm := hn.2 hg
      have hz0 : db.zset.get? t.id = none := by rw [h.scores, hm]; rfl
      rw [hm]
      refine ⟨?_, toMap_set hb, rfl⟩
      cases ht : t.nrt with
      | some r =>
        exact inv_put h hb _ (h.wfz.set _ _) (by intro i; rw [Dict.get?_set, ht])
      | none =>
        exact inv_put h hb db.zset h.wfz (by
          intro i
          by_cases hi : i = t.id
          · rw [if_pos hi, hi, hz0, ht]
          · rw [if_neg hi])
    | some b' =>
      cases hm : toMap c db t.id with
      | none => rw [hn.1 hm] at hg; cases hg
      | some u => exact ⟨h, rfl, rfl⟩
  | update t =>
    obtain ⟨b, hb⟩ := Option.isSome_iff_exists.1 ho
    have hn := h.none_iff t.id
    simp only [step, updateTask, hb, specStep]
    cases hg : db.hash.get? t.id with
    | none => rw [hn.2 hg]; exact ⟨h, rfl, rfl⟩
    | some b' =>
      cases hm : toMap c db t.id with
      | none => rw [hn.1 hm] at hg; cases hg
      | some u =>
        refine ⟨?_, toMap_set hb, rfl⟩
        cases ht : t.nrt with
        | some r =>
          exact inv_put h hb _ (h.wfz.set _ _) (by intro i; rw [Dict.get?_set, ht])
        | none =>
          exact inv_put h hb _ (h.wfz.erase _) (by intro i; rw [Dict.get?_erase h.wfz, ht])
  | delete id =>
    have hn := h.none_iff id
    simp only [step, deleteTask, specStep]
    cases hg : db.hash.get? id with
    | none => rw [hn.2 hg]; exact ⟨h, rfl, rfl⟩
    | some b' =>
      cases hm : toMap c db id with
      | none => rw [hn.1 hm] at hg; cases hg
      | some u =>
        refine ⟨⟨h.wf.erase _, h.wfz.erase _, ?_, ?_⟩, toMap_erase h.wf id, rfl⟩
        · intro i b'' hg'
          rw [Dict.get?_erase h.wf] at hg'
          split at hg'
          · cases hg'
          · exact h.rows i b'' hg'
        · intro i
          rw [toMap_erase (z := db.zset) h.wf]
          simp only [Dict.get?_erase h.wfz, AMap.erase]
          split
          · rfl
          · exact h.scores i
  | clear =>
    refine ⟨inv_init c, ?_, rfl⟩
    funext i; simp [step, removeAllTasks, specStep, init, toMap, lookupTask, Dict.get?, AMap.empty]

theorem all_lists {c : Codec β} {db : DB} (h : Inv c db) :
    Lists (toMap c db) (fun _ => True) (getAllTasks c db) := by
  unfold getAllTasks
  refine Lists.perm ?_ (sortBy_perm _ _)
  apply lists_of_dict db.hash h.wf id c.dec
  · intro i t
    constructor
    · intro hm
      have hid := h.toMap_id i t hm
      obtain ⟨b, hg, hd⟩ := Option.bind_eq_some_iff.1 hm
      exact ⟨b, hg, hd, hid⟩
    · rintro ⟨b, hg, hd, hi⟩
      have hg' : db.hash.get? i = some b := hg
      unfold toMap lookupTask; rw [hg']; exact hd
  · intro k v t hg hd
    obtain ⟨u, he, hn⟩ := h.rows _ _ hg
    rw [c.dec_enc u v he] at hd; cases hd
    exact hn

theorem leScore_trans (a b c : String × Int) (h : leScore a b = true) (h' : leScore b c = true) :
    leScore a c = true := by
  simp only [leScore, Bool.or_eq_true, Bool.and_eq_true, decide_eq_true_eq, beq_iff_eq] at *
  rcases h with h | ⟨h, h2⟩ <;> rcases h' with h' | ⟨h', h2'⟩
  · left; omega
  · left; omega
  · left; omega
  · right; exact ⟨by omega, String.le_trans h2 h2'⟩

theorem leScore_total (a b : String × Int) : (leScore a b || leScore b a) = true := by
  simp only [leScore, Bool.or_eq_true, Bool.and_eq_true, decide_eq_true_eq, beq_iff_eq]
  have := String.le_total a.1 b.1
  rcases Int.lt_trichotomy a.2 b.2 with h | h | h
  · exact .inl (.inl h)
  · rcases this with ht | ht
    · exact .inl (.inr ⟨h, ht⟩)
    · exact .inr (.inr ⟨h.symm, ht⟩)
  · exact .inr (.inl h)

/-- what `zrangebyscore` + `hmget` returns -/
theorem due_lists {c : Codec β} {db : DB} (h : Inv c db) (now : Int) :
    Lists (toMap c db) (fun t => ∃ r, t.nrt = some r ∧ 0 ≤ r ∧ r ≤ now) (getDueTasks c db now) ∧
    (getDueTasks c db now).Pairwise Before := by
  have hperm := sortBy_perm leScore
    (db.zset.filter fun p => decide (0 ≤ p.2) && decide (p.2 ≤ now))
  have hsorted := sortBy_pairwise (le := leScore) leScore_trans leScore_total
    (db.zset.filter fun p => decide (0 ≤ p.2) && decide (p.2 ≤ now))
  have hkeys : (sortBy leScore (db.zset.filter fun p => decide (0 ≤ p.2) && decide (p.2 ≤ now))).Pairwise fun a b => a.1 ≠ b.1 := by
    refine (hperm.pairwise_iff (fun {a b} hne => Ne.symm hne)).2 ?_
    exact (List.pairwise_map.1 h.wfz).filter _
  have hmem : ∀ p, p ∈ (sortBy leScore (db.zset.filter fun p => decide (0 ≤ p.2) && decide (p.2 ≤ now))) ↔ db.zset.get? p.1 = some p.2 ∧ 0 ≤ p.2 ∧ p.2 ≤ now := by
    intro p
    rw [hperm.mem_iff, List.mem_filter, Dict.get?_iff_mem h.wfz]
    simp
  unfold getDueTasks zrangebyscore
  generalize (sortBy leScore (db.zset.filter fun p => decide (0 ≤ p.2) && decide (p.2 ≤ now))) = L at hmem hsorted hkeys
  have hval : ∀ p ∈ L, ∀ t, lookupTask c db p.1 = some t → t.nrt = some p.2 ∧ t.id = p.1 := by
    intro p hp t ht
    have h1 := ((hmem p).1 hp).1
    have h2 := h.scores p.1
    unfold toMap at h2
    rw [ht, h1] at h2
    exact ⟨h2.symm, h.toMap_id p.1 t ht⟩
  have hbefore : (L.map Prod.fst |>.filterMap fun id => lookupTask c db id).Pairwise Before := by
    rw [List.pairwise_filterMap, List.pairwise_map]
    refine (hsorted.and hkeys).imp_of_mem ?_
    intro a b ha hb hab t ht u hu
    obtain ⟨h1, h2⟩ := hval a ha t ht
    obtain ⟨h3, h4⟩ := hval b hb u hu
    obtain ⟨hle, hne⟩ := hab
    simp only [leScore, Bool.or_eq_true, Bool.and_eq_true, decide_eq_true_eq, beq_iff_eq] at hle
    unfold Before
    rw [h1, h3, h2, h4]
    simp only
    rcases hle with hle | ⟨he, hle⟩
    · exact .inl hle
    · refine .inr ⟨he, ?_⟩
      by_cases hlt : a.1 < b.1
      · exact hlt
      · exact absurd (String.le_antisymm hle (by simpa using hlt)) hne
  refine ⟨⟨?_, ?_⟩, hbefore⟩
  · refine hbefore.imp ?_
    intro a b hb e
    subst e
    unfold Before at hb
    cases ha : a.nrt <;> rw [ha] at hb <;> simp at hb
  · intro t
    simp only [List.mem_filterMap, List.mem_map]
    constructor
    · rintro ⟨i, ⟨p, hp, rfl⟩, ht⟩
      obtain ⟨h1, h2⟩ := hval p hp t ht
      obtain ⟨_, h0, hn⟩ := (hmem p).1 hp
      refine ⟨?_, p.2, h1, h0, hn⟩
      rw [h2]; exact ht
    · rintro ⟨hm, r, hr, h0, hn⟩
      refine ⟨t.id, ⟨(t.id, r), ?_, rfl⟩, hm⟩
      rw [hmem]
      refine ⟨?_, h0, hn⟩
      rw [h.scores, hm]; simpa using hr

theorem next_earliest {c : Codec β} {db : DB} (h : Inv c db) :
    IsEarliest (toMap c db) (getNextRunTime db) := by
  have hperm := sortBy_perm leScore db.zset
  have hsorted := sortBy_pairwise (le := leScore) leScore_trans leScore_total db.zset
  have hmem : ∀ p, p ∈ sortBy leScore db.zset ↔ db.zset.get? p.1 = some p.2 := by
    intro p; rw [hperm.mem_iff, Dict.get?_iff_mem h.wfz]
  unfold getNextRunTime
  generalize sortBy leScore db.zset = L at hmem hsorted
  cases L with
  | nil =>
    intro i t ht
    cases hn : t.nrt with
    | none => rfl
    | some r =>
      have := (hmem (i, r)).2 (by rw [h.scores, ht]; simpa using hn)
      simp at this
  | cons p L =>
    have hp := (hmem p).1 (by simp)
    rw [h.scores] at hp
    obtain ⟨t, ht, hn⟩ := Option.bind_eq_some_iff.1 hp
    refine ⟨⟨p.1, t, ht, hn⟩, ?_⟩
    intro i u y hu hy
    have hu' := (hmem (i, y)).2 (by rw [h.scores, hu]; simpa using hy)
    rcases List.mem_cons.1 hu' with he | hm
    · rw [← he]; simp
    · have := (List.pairwise_cons.1 hsorted).1 _ hm
      simp only [leScore, Bool.or_eq_true, Bool.and_eq_true, decide_eq_true_eq, beq_iff_eq] at this
      show p.2 ≤ y
      omega

end Redis

/-! ### SQLAlchemyStore / MongoDBStore -/
namespace Rows

def toMap (c : Codec β) (tb : Table) : AMap β := fun id => lookupTask c tb id

structure Inv (c : Codec β) (q : Int → Int) (tb : Table) : Prop where
  wf : tb.WF
  rows : ∀ i r, tb.get? i = some r → ∃ t, c.enc t = some r.2 ∧ t.id = i ∧ r.1 = t.nrt.map q

theorem inv_nil (c : Codec β) (q : Int → Int) : Inv c q [] :=
  ⟨Dict.WF.nil, by simp [Dict.get?]⟩

theorem Inv.none_iff {c : Codec β} {q : Int → Int} {tb : Table} (h : Inv c q tb) (i : String) :
    toMap c tb i = none ↔ tb.get? i = none := by
  unfold toMap lookupTask
  cases hg : tb.get? i with
  | none => simp
  | some b =>
    obtain ⟨t, he, _⟩ := h.rows i b hg
    simp [c.dec_enc t b.2 he]

theorem Inv.toMap_id {c : Codec β} {q : Int → Int} {tb : Table} (h : Inv c q tb) (i : String)
    (t : Task β) (hm : toMap c tb i = some t) : t.id = i := by
  unfold toMap lookupTask at hm
  obtain ⟨b, hg, hd⟩ := Option.bind_eq_some_iff.1 hm
  obtain ⟨u, he, hi, _⟩ := h.rows i b hg
  rw [c.dec_enc u b.2 he] at hd; cases hd; exact hi

theorem toMap_set {c : Codec β} {tb : Table} {t : Task β} {x : Option Int}
    {b : Bytes} (he : c.enc t = some b) :
    toMap c (tb.set t.id (x, b)) = (toMap c tb).set t := by
  funext i
  unfold toMap lookupTask AMap.set
  simp only [Dict.get?_set]
  split
  · simp [c.dec_enc t b he]
  · rfl

theorem toMap_erase {c : Codec β} {tb : Table} (hw : tb.WF) (id : String) :
    toMap c (tb.erase id) = (toMap c tb).erase id := by
  funext i
  unfold toMap lookupTask AMap.erase
  simp only [Dict.get?_erase hw]
  split <;> rfl

theorem Inv.set {c : Codec β} {q : Int → Int} {tb : Table} (h : Inv c q tb) {t : Task β}
    {b : Bytes} (he : c.enc t = some b) : Inv c q (tb.set t.id (t.nrt.map q, b)) := by
  refine ⟨h.wf.set _ _, ?_⟩
  intro i r hg
  rw [Dict.get?_set] at hg
  split at hg
  · rename_i hi; cases hg; exact ⟨t, he, hi.symm, rfl⟩
  · exact h.rows i r hg

theorem step_ok {c : Codec β} {q : Int → Int} {tb : Table} (h : Inv c q tb) (op : StoreOp β)
    (ho : Redis.OpOk c op) :
    Inv c q (step c q tb op).1 ∧
    toMap c (step c q tb op).1 = (specStep false (toMap c tb) op).1 ∧
    (step c q tb op).2 = .res (specStep false (toMap c tb) op).2 := by
  cases op with
  | add t =>
    obtain ⟨b, hb⟩ := Option.isSome_iff_exists.1 ho
    have hn := h.none_iff t.id
    simp only [step, addTask, hb, specStep]
    cases hg : tb.get? t.id with
    | none => rw [hn.2 hg]; exact ⟨h.set hb, toMap_set hb, rfl⟩
    | some b' =>
      cases hm : toMap c tb t.id with
      | none => rw [hn.1 hm] at hg; cases hg
      | some u => exact ⟨h, rfl, rfl⟩
  | update t =>
    obtain ⟨b, hb⟩ := Option.isSome_iff_exists.1 ho
    have hn := h.none_iff t.id
    simp only [step, updateTask, hb, specStep]
    cases hg : tb.get? t.id with
    | none => rw [hn.2 hg]; exact ⟨h, rfl, rfl⟩
    | some b' =>
      cases hm : toMap c tb t.id with
      | none => rw [hn.1 hm] at hg; cases hg
      | some u => exact ⟨h.set hb, toMap_set hb, rfl⟩
  | delete id =>
    have hn := h.none_iff id
    simp only [step, deleteTask, specStep]
    cases hg : tb.get? id with
    | none => rw [hn.2 hg]; exact ⟨h, rfl, rfl⟩
    | some b' =>
      cases hm : toMap c tb id with
      | none => rw [hn.1 hm] at hg; cases hg
      | some u =>
        refine ⟨⟨h.wf.erase _, ?_⟩, toMap_erase h.wf id, rfl⟩
        intro i b'' hg'
        rw [Dict.get?_erase h.wf] at hg'
        split at hg'
        · cases hg'
        · exact h.rows i b'' hg'
  | clear =>
    refine ⟨inv_nil c q, ?_, rfl⟩
    funext i; simp [step, removeAllTasks, specStep, toMap, lookupTask, Dict.get?, AMap.empty]

theorem rebuild_lists {c : Codec β} {q : Int → Int} {tb : Table} (h : Inv c q tb) :
    Lists (toMap c tb) (fun _ => True) (rebuild c tb) := by
  unfold rebuild
  apply lists_of_dict tb h.wf id (fun r => c.dec r.2)
  · intro i t
    constructor
    · intro hm
      have hid := h.toMap_id i t hm
      obtain ⟨b, hg, hd⟩ := Option.bind_eq_some_iff.1 hm
      exact ⟨b, hg, hd, hid⟩
    · rintro ⟨b, hg, hd, hi⟩
      have hg' : tb.get? i = some b := hg
      unfold toMap lookupTask; rw [hg']; exact hd
  · intro k v t hg hd
    obtain ⟨u, he, hn, _⟩ := h.rows _ _ hg
    rw [c.dec_enc u v.2 he] at hd; cases hd
    exact hn

theorem rebuild_due {c : Codec β} {q : Int → Int} {tb : Table} (h : Inv c q tb) (now : Int) :
    rebuild c (tb.filter (dueRow now)) = (rebuild c tb).filter
      (fun t => match t.nrt with | none => false | some r => decide (q r ≤ now)) := by
  have hrow : ∀ p ∈ tb, ∃ t, c.dec p.2.2 = some t ∧ p.2.1 = t.nrt.map q := by
    rintro ⟨i, r⟩ hp
    obtain ⟨t, he, _, hx⟩ := h.rows i r (Dict.get?_of_mem h.wf hp)
    exact ⟨t, c.dec_enc t r.2 he, hx⟩
  have hall : ∀ l : Table, (∀ p ∈ l, ∃ t, c.dec p.2.2 = some t ∧ p.2.1 = t.nrt.map q) →
      rebuild c (l.filter (dueRow now)) = (rebuild c l).filter
      (fun t => match t.nrt with | none => false | some r => decide (q r ≤ now)) := by
    intro l hl
    induction l with
    | nil => rfl
    | cons p l ih =>
      obtain ⟨t, hd, hx⟩ := hl p (by simp)
      have ih' := ih (fun p hp => hl p (by simp [hp]))
      unfold rebuild at *
      simp only [List.filter_cons, List.filterMap_cons, hd]
      have hdr : dueRow now p = (match t.nrt with | none => false | some r => decide (q r ≤ now)) := by
        unfold dueRow; rw [hx]; cases t.nrt <;> rfl
      rw [← hdr]
      cases dueRow now p
      · exact ih'
      · simp only [if_true, List.filterMap_cons, hd]; rw [ih']
  exact hall tb hrow

theorem rebuild_perm (c : Codec β) {l l' : List (String × Option Int × Bytes)} (h : l.Perm l') :
    (rebuild c l).Perm (rebuild c l') := h.filterMap _

theorem leNullsLast_iff (a b : Option Int) : leNullsLast a b = true ↔ RunsNoLater a b := by
  unfold leNullsLast RunsNoLater; cases a <;> cases b <;> simp

theorem nl_sorted (l : Table) :
    (sortBy (fun a b => leNullsLast a.2.1 b.2.1) l).Pairwise
      fun a b => RunsNoLater a.2.1 b.2.1 := by
  have := sortBy_pairwise (le := fun a b : String × Option Int × Bytes =>
      leNullsLast a.2.1 b.2.1)
    (by intro a b c; simp only [leNullsLast_iff]; exact rnl_trans)
    (by intro a b; have := rnl_total a.2.1 b.2.1; simpa [leNullsLast_iff, ← leNullsLast_iff] using this) l
  exact this.imp (fun h => (leNullsLast_iff _ _).1 h)

/-- `NoLaterNF a b`: ascending with null first -/
def NoLaterNF (a b : Option Int) : Prop :=
  match a, b with
  | some x, some y => x ≤ y
  | none, _ => True
  | some _, none => False

theorem nf_iff (a b : Option Int) : leNullsFirst a b = true ↔ NoLaterNF a b := by
  unfold leNullsFirst NoLaterNF; cases a <;> cases b <;> simp

theorem nf_sorted (l : Table) :
    (sortBy (fun a b => leNullsFirst a.2.1 b.2.1) l).Pairwise
      fun a b => NoLaterNF a.2.1 b.2.1 := by
  have := sortBy_pairwise (le := fun a b : String × Option Int × Bytes =>
      leNullsFirst a.2.1 b.2.1)
    (by
      intro a b c; simp only [nf_iff]; unfold NoLaterNF
      cases a.2.1 <;> cases b.2.1 <;> cases c.2.1 <;> simp; omega)
    (by
      intro a b
      show (leNullsFirst a.2.1 b.2.1 || leNullsFirst b.2.1 a.2.1) = true
      unfold leNullsFirst
      cases a.2.1 <;> cases b.2.1 <;> simp; omega) l
  exact this.imp (fun h => (nf_iff _ _).1 h)

/-- order of rows transfers to the order of the decoded tasks when the column is exact -/
theorem rebuild_pairwise {c : Codec β} {R : Option Int → Option Int → Prop}
    {l : List (String × Option Int × Bytes)}
    (hl : ∀ p ∈ l, ∀ t, c.dec p.2.2 = some t → p.2.1 = t.nrt)
    (h : l.Pairwise fun a b => R a.2.1 b.2.1) :
    (rebuild c l).Pairwise fun a b => R a.nrt b.nrt := by
  unfold rebuild
  rw [List.pairwise_filterMap]
  refine h.imp_of_mem ?_
  intro a b ha hb hab t ht u hu
  rw [← hl a ha t ht, ← hl b hb u hu]; exact hab

theorem Inv.exact {c : Codec β} {tb : Table} (h : Inv c id tb) :
    ∀ p ∈ tb, ∀ t, c.dec p.2.2 = some t → p.2.1 = t.nrt := by
  rintro ⟨i, r⟩ hp t hd
  obtain ⟨u, he, _, hx⟩ := h.rows i r (Dict.get?_of_mem h.wf hp)
  simp only at hd
  rw [c.dec_enc u r.2 he] at hd; cases hd
  simpa using hx

theorem fixPaused_perm (l : List (Task β)) : (fixPaused l).Perm l := by
  unfold fixPaused
  split
  · have := List.perm_append_comm (l₁ := l.dropWhile (fun t => t.nrt.isNone))
      (l₂ := l.takeWhile (fun t => t.nrt.isNone))
    rw [List.takeWhile_append_dropWhile] at this
    exact this
  · exact List.Perm.refl _

theorem fixPaused_sorted {l : List (Task β)} (h : l.Pairwise fun a b => NoLaterNF a.nrt b.nrt) :
    SortedByTime (fixPaused l) := by
  have key : ∀ l : List (Task β), l.Pairwise (fun a b => NoLaterNF a.nrt b.nrt) →
      SortedByTime (l.dropWhile (fun t => t.nrt.isNone)) := by
    intro l h
    induction l with
    | nil => exact List.Pairwise.nil
    | cons a l ih =>
      obtain ⟨h1, h2⟩ := List.pairwise_cons.1 h
      rw [List.dropWhile_cons]
      split
      · exact ih h2
      · rename_i hn
        refine h.imp_of_mem ?_
        have hsome : ∀ x ∈ a :: l, x.nrt.isSome := by
          intro x hx
          have ha : a.nrt.isSome := by cases ha : a.nrt <;> simp_all
          rcases List.mem_cons.1 hx with rfl | hx
          · exact ha
          · have := h1 x hx
            unfold NoLaterNF at this
            cases hx' : x.nrt <;> cases ha' : a.nrt <;> simp_all
        intro x y hx hy hxy
        have := hsome x hx
        have := hsome y hy
        unfold NoLaterNF at hxy
        unfold RunsNoLater
        cases hx' : x.nrt <;> cases hy' : y.nrt <;> simp_all
  unfold fixPaused
  have hnone : ∀ x ∈ l.takeWhile (fun t => t.nrt.isNone), x.nrt = none := by
    intro x hx
    have hall := List.all_takeWhile (l := l) (p := fun t : Task β => t.nrt.isNone)
    have := List.all_eq_true.1 hall x hx
    simpa using this
  split
  · unfold SortedByTime
    rw [List.pairwise_append]
    refine ⟨key l h, ?_, ?_⟩
    · refine List.Pairwise.imp_of_mem ?_ (List.pairwise_of_forall (R := fun _ _ => True) (by simp))
      intro a b _ hb _
      rw [hnone b hb]; unfold RunsNoLater; cases a.nrt <;> trivial
    · intro a _ b hb
      rw [hnone b hb]; unfold RunsNoLater; cases a.nrt <;> trivial
  · rename_i hn
    have hall : ∀ x ∈ l, x.nrt = none := by
      intro x hx
      cases hx' : x.nrt with
      | none => rfl
      | some r => exact absurd (List.any_eq_true.2 ⟨x, hx, by simp [hx']⟩) hn
    refine List.Pairwise.imp_of_mem ?_ h
    intro a b _ hb _
    rw [hall b hb]; unfold RunsNoLater; cases a.nrt <;> trivial

theorem next_earliest {c : Codec β} {tb : Table} (h : Inv c id tb) :
    IsEarliest (toMap c tb) (nextRunTime tb) := by
  have hperm := sortBy_perm (fun a b : Int => decide (a ≤ b)) (tb.filterMap fun r => r.2.1)
  have hsorted := sortBy_pairwise (le := fun a b : Int => decide (a ≤ b))
    (by intro a b c; simp; omega) (by intro a b; simp; omega) (tb.filterMap fun r => r.2.1)
  have hmem : ∀ x, x ∈ sortBy (fun a b : Int => decide (a ≤ b)) (tb.filterMap fun r => r.2.1) ↔
      ∃ i t, toMap c tb i = some t ∧ t.nrt = some x := by
    intro x
    rw [hperm.mem_iff, List.mem_filterMap]
    constructor
    · rintro ⟨⟨i, r⟩, hp, hx⟩
      have hg := Dict.get?_of_mem h.wf hp
      obtain ⟨t, he, hi, hr⟩ := h.rows i r hg
      refine ⟨i, t, ?_, ?_⟩
      · unfold toMap lookupTask; rw [hg]; exact c.dec_enc t r.2 he
      · have hx' : r.1 = some x := hx
        rw [hr] at hx'; simpa using hx'
    · rintro ⟨i, t, hm, hx⟩
      obtain ⟨r, hg, hd⟩ := Option.bind_eq_some_iff.1 hm
      obtain ⟨u, he, hi, hr⟩ := h.rows i r hg
      rw [c.dec_enc u r.2 he] at hd; cases hd
      exact ⟨(i, r), Dict.mem_of_get? hg, by rw [hr]; simpa using hx⟩
  unfold nextRunTime
  generalize sortBy (fun a b : Int => decide (a ≤ b)) (tb.filterMap fun r => r.2.1) = L
    at hmem hsorted
  cases L with
  | nil =>
    intro i t ht
    cases hn : t.nrt with
    | none => rfl
    | some r => have := (hmem r).2 ⟨i, t, ht, hn⟩; simp at this
  | cons p L =>
    refine ⟨(hmem p).1 (by simp), ?_⟩
    intro i u y hu hy
    rcases List.mem_cons.1 ((hmem y).2 ⟨i, u, hu, hy⟩) with he | hm
    · rw [he]; exact Int.le_refl _
    · have := (List.pairwise_cons.1 hsorted).1 _ hm
      simpa using this

end Rows
end Persist
end Asyncz
