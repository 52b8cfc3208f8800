import Verif.Model.Memory
/-! Helper lemmas for the `MemoryStore` model. -/
namespace Asyncz
namespace Memory
variable {β : Type}

/-- order of sort keys -/
def klt (a b : Option Int × String) : Prop := tsLT a.1 b.1 = true ∨ (a.1 = b.1 ∧ a.2 < b.2)

def ekey (e : Entry β) : Option Int × String := (e.ts, e.task.id)

theorem tsLT_irrefl (a : Option Int) : tsLT a a = false := by
  cases a <;> simp [tsLT]

theorem tsLT_trans {a b c : Option Int} (h : tsLT a b = true) (h' : tsLT b c = true) :
    tsLT a c = true := by
  cases a <;> cases b <;> cases c <;> simp_all [tsLT]; omega

theorem tsLT_asymm {a b : Option Int} (h : tsLT a b = true) : tsLT b a = false := by
  cases a <;> cases b <;> simp_all [tsLT]; omega

theorem ts_eq_of_not_lt {a b : Option Int} (h : ¬ tsLT a b = true) (h' : ¬ tsLT b a = true) :
    a = b := by
  cases a <;> cases b <;> simp_all [tsLT]; omega

theorem id_eq_of_not_lt {a b : String} (h : ¬ a < b) (h' : ¬ b < a) : a = b := by
  have h1 : b ≤ a := by simpa using h
  have h2 : a ≤ b := by simpa using h'
  exact String.le_antisymm h2 h1

theorem klt_irrefl (a : Option Int × String) : ¬ klt a a := by
  simp [klt, tsLT_irrefl]

theorem klt_trans {a b c : Option Int × String} (h : klt a b) (h' : klt b c) : klt a c := by
  unfold klt at *
  rcases h with h | ⟨h, h2⟩ <;> rcases h' with h' | ⟨h', h2'⟩
  · exact .inl (tsLT_trans h h')
  · exact .inl (h' ▸ h)
  · exact .inl (h ▸ h')
  · exact .inr ⟨h.trans h', String.lt_trans h2 h2'⟩

theorem klt_asymm {a b : Option Int × String} (h : klt a b) : ¬ klt b a :=
  fun h' => klt_irrefl a (klt_trans h h')

def Sorted (l : List (Entry β)) : Prop := l.Pairwise fun a b => klt (ekey a) (ekey b)

/-- what the binary search guarantees -/
structure Found (l : List (Entry β)) (k : Option Int × String) (i : Nat) : Prop where
  le : i ≤ l.length
  before : ∀ j (h : j < l.length), j < i → klt (ekey l[j]) k
  after : ∀ j (h : j < l.length), i ≤ j → ekey l[j] = k ∨ klt k (ekey l[j])

theorem search_found (l : List (Entry β)) (ts : Option Int) (id : String) (hs : Sorted l)
    (low high : Nat) (hlh : low ≤ high) (hh : high ≤ l.length)
    (hlow : ∀ j (h : j < l.length), j < low → klt (ekey l[j]) (ts, id))
    (hhigh : ∀ j (h : j < l.length), high ≤ j → klt (ts, id) (ekey l[j])) :
    Found l (ts, id) (searchLoop l ts id low high) := by
  have hs' := List.pairwise_iff_getElem.1 hs
  induction low, high using searchLoop.induct (tasks := l) (ts := ts) (id := id) with
  | case1 low high h mid hm => simp [mid] at hm; omega
  | case2 low high h mid e hm hlt ih =>
    rw [searchLoop, dif_pos h]; simp only [mid] at *
    simp only [hm, hlt, if_true]
    obtain ⟨hml, hme⟩ := List.getElem?_eq_some_iff.1 hm
    refine ih (by omega) (by omega) hlow ?_
    intro j hj hjm
    have hk : klt (ts, id) (ekey e) := .inl hlt
    rcases Nat.lt_or_eq_of_le hjm with hc | hc
    · have := hs' _ _ hml hj hc; rw [hme] at this; exact klt_trans hk this
    · subst hc; rw [hme]; exact hk
  | case3 low high h mid e hm hlt hlt2 ih =>
    rw [searchLoop, dif_pos h]; simp only [mid] at *
    simp only [hm, hlt, hlt2, if_true]
    obtain ⟨hml, hme⟩ := List.getElem?_eq_some_iff.1 hm
    refine ih (by omega) hh ?_ hhigh
    intro j hj hjm
    have hk : klt (ekey e) (ts, id) := .inl hlt2
    rcases Nat.lt_or_eq_of_le (Nat.le_of_lt_succ hjm) with hc | hc
    · have := hs' _ _ hj hml hc; rw [hme] at this; exact klt_trans this hk
    · subst hc; rw [hme]; exact hk
  | case4 low high h mid e hm hlt hlt2 hid ih =>
    rw [searchLoop, dif_pos h]; simp only [mid] at *
    simp only [hm, hlt, hlt2, hid, if_true]
    obtain ⟨hml, hme⟩ := List.getElem?_eq_some_iff.1 hm
    have hts := ts_eq_of_not_lt hlt hlt2
    refine ih (by omega) (by omega) hlow ?_
    intro j hj hjm
    have hk : klt (ts, id) (ekey e) := .inr ⟨hts, hid⟩
    rcases Nat.lt_or_eq_of_le hjm with hc | hc
    · have := hs' _ _ hml hj hc; rw [hme] at this; exact klt_trans hk this
    · subst hc; rw [hme]; exact hk
  | case5 low high h mid e hm hlt hlt2 hid hid2 ih =>
    rw [searchLoop, dif_pos h]; simp only [mid] at *
    simp only [hm, hlt, hlt2, hid, hid2, if_true]
    obtain ⟨hml, hme⟩ := List.getElem?_eq_some_iff.1 hm
    have hts := ts_eq_of_not_lt hlt hlt2
    refine ih (by omega) hh ?_ hhigh
    intro j hj hjm
    have hk : klt (ekey e) (ts, id) := .inr ⟨hts.symm, hid2⟩
    rcases Nat.lt_or_eq_of_le (Nat.le_of_lt_succ hjm) with hc | hc
    · have := hs' _ _ hj hml hc; rw [hme] at this; exact klt_trans this hk
    · subst hc; rw [hme]; exact hk
  | case6 low high h mid e hm hlt hlt2 hid hid2 =>
    rw [searchLoop, dif_pos h]; simp only [mid] at *
    simp only [hm, hlt, hlt2, hid, hid2]
    obtain ⟨hml, hme⟩ := List.getElem?_eq_some_iff.1 hm
    have hts := ts_eq_of_not_lt hlt hlt2
    have hide := id_eq_of_not_lt hid hid2
    have hk : ekey e = (ts, id) := by simp [ekey, hts, hide]
    simp only [if_false, Bool.false_eq_true]
    refine ⟨by omega, ?_, ?_⟩
    · intro j hj hjm
      have := hs' _ _ hj hml hjm; rw [hme, hk] at this; exact this
    · intro j hj hjm
      rcases Nat.lt_or_eq_of_le hjm with hc | hc
      · have := hs' _ _ hml hj hc; rw [hme, hk] at this; exact .inr this
      · left; subst hc; rw [hme, hk]
  | case7 low high h =>
    rw [searchLoop]; simp only [h, dite_false]
    refine ⟨by omega, hlow, fun j hj hjl => .inr (hhigh j hj (by omega))⟩

theorem found_getTaskIndex (l : List (Entry β)) (ts : Option Int) (id : String) (hs : Sorted l) :
    Found l (ts, id) (searchLoop l ts id 0 l.length) :=
  search_found l ts id hs 0 l.length (by omega) (by omega) (by intros; omega) (by intros; omega)

/-- the list splits at the index found -/
theorem Found.split {l : List (Entry β)} {k} {i : Nat} (h : Found l k i) :
    ∃ A B, l = A ++ B ∧ A.length = i ∧ (∀ a ∈ A, klt (ekey a) k) ∧
      (∀ b ∈ B, ekey b = k ∨ klt k (ekey b)) := by
  refine ⟨l.take i, l.drop i, by simp, by simp [h.le], ?_, ?_⟩
  · intro a ha
    obtain ⟨j, hj, rfl⟩ := List.mem_iff_getElem.1 ha
    simp at hj
    simpa using h.before j (by omega) (by omega)
  · intro a ha
    obtain ⟨j, hj, rfl⟩ := List.mem_iff_getElem.1 ha
    simp at hj
    simpa using h.after (i + j) (by omega) (by omega)

theorem Found.split_mem {l : List (Entry β)} {k} {i : Nat} (h : Found l k i) (hs : Sorted l)
    {e : Entry β} (he : e ∈ l) (hek : ekey e = k) :
    ∃ A B, l = A ++ e :: B ∧ A.length = i := by
  obtain ⟨A, B, rfl, hA, h1, h2⟩ := h.split
  rcases List.mem_append.1 he with he | he
  · exact absurd (hek ▸ h1 e he) (klt_irrefl _)
  · cases B with
    | nil => simp at he
    | cons b B =>
      rcases List.mem_cons.1 he with rfl | he
      · exact ⟨A, B, rfl, hA⟩
      · exfalso
        have hb : klt (ekey b) (ekey e) := by
          have := (List.pairwise_append.1 hs).2.1
          exact (List.pairwise_cons.1 this).1 e he
        rw [hek] at hb
        rcases h2 b (by simp) with hc | hc
        · rw [hc] at hb; exact klt_irrefl _ hb
        · exact klt_asymm hb hc

/-- insertion of a new key -/
theorem insert_split {l : List (Entry β)} (hs : Sorted l) (e : Entry β)
    (hne : ∀ a ∈ l, ekey a ≠ ekey e) :
    ∃ A B, l = A ++ B ∧
      l.insertIdx (searchLoop l e.ts e.task.id 0 l.length) e = A ++ e :: B ∧
      Sorted (A ++ e :: B) := by
  have hf := found_getTaskIndex l e.ts e.task.id hs
  generalize searchLoop l e.ts e.task.id 0 l.length = i at hf ⊢
  obtain ⟨A, B, rfl, hA, h1, h2⟩ := hf.split
  refine ⟨A, B, rfl, ?_, ?_⟩
  · subst hA
    clear hf h1 h2 hs hne
    induction A with
    | nil => simp
    | cons a A ih => simp [ih]
  · unfold Sorted at *
    rw [List.pairwise_append] at hs ⊢
    refine ⟨hs.1, ?_, ?_⟩
    · refine List.pairwise_cons.2 ⟨?_, hs.2.1⟩
      intro b hb
      rcases h2 b hb with hc | hc
      · exact absurd hc (hne b (by simp [hb]))
      · exact hc
    · intro a ha b hb
      rcases List.mem_cons.1 hb with rfl | hb
      · exact h1 a ha
      · exact hs.2.2 a ha b hb

/-- representation invariant -/
structure Inv (s : Store β) : Prop where
  sorted : Sorted s.tasks
  ids : (s.tasks.map fun e => e.task.id).Nodup
  wf : s.index.WF
  agree : ∀ i e, s.index.get? i = some e ↔ e ∈ s.tasks ∧ e.task.id = i

theorem inv_init : Inv (init : Store β) := by
  refine ⟨by simp [init, Sorted], by simp [init], by simp [init, Dict.WF], ?_⟩
  simp [init, Dict.get?]

theorem Inv.none_iff {s : Store β} (h : Inv s) (i : String) :
    s.index.get? i = none ↔ ∀ e ∈ s.tasks, e.task.id ≠ i := by
  constructor
  · intro hn e he hi
    have := (h.agree i e).2 ⟨he, hi⟩
    simp [hn] at this
  · intro hn
    cases hg : s.index.get? i with
    | none => rfl
    | some e =>
      have := (h.agree i e).1 hg
      exact absurd this.2 (hn e this.1)

theorem nodup_ids_perm {A B : List (Entry β)} {e : Entry β} :
    (((A ++ e :: B).map fun e => e.task.id).Nodup ↔
      (∀ a ∈ A ++ B, a.task.id ≠ e.task.id) ∧ ((A ++ B).map fun e => e.task.id).Nodup) := by
  have hp : ((A ++ e :: B).map fun e => e.task.id).Perm
      (e.task.id :: (A ++ B).map fun e => e.task.id) := by
    simpa using List.perm_middle.map _
  rw [hp.nodup_iff, List.nodup_cons]
  constructor
  · rintro ⟨h1, h2⟩
    refine ⟨fun a ha hi => h1 ?_, h2⟩
    exact List.mem_map.2 ⟨a, ha, hi⟩
  · rintro ⟨h1, h2⟩
    refine ⟨fun hc => ?_, h2⟩
    obtain ⟨a, ha, hi⟩ := List.mem_map.1 hc
    exact h1 a ha hi

theorem Sorted.remove {A B : List (Entry β)} {e : Entry β} (h : Sorted (A ++ e :: B)) :
    Sorted (A ++ B) := by
  unfold Sorted at *
  rw [List.pairwise_append] at h ⊢
  refine ⟨h.1, (List.pairwise_cons.1 h.2.1).2, fun a ha b hb => h.2.2 a ha b (by simp [hb])⟩

theorem Sorted.replace {A B : List (Entry β)} {e e' : Entry β} (h : Sorted (A ++ e :: B))
    (hk : ekey e' = ekey e) : Sorted (A ++ e' :: B) := by
  unfold Sorted at *
  rw [List.pairwise_append, List.pairwise_cons] at h ⊢
  refine ⟨h.1, ⟨?_, h.2.1.2⟩, ?_⟩
  · intro b hb; rw [hk]; exact h.2.1.1 b hb
  · intro a ha b hb
    rcases List.mem_cons.1 hb with rfl | hb
    · rw [hk]; exact h.2.2 a ha e (by simp)
    · exact h.2.2 a ha b (by simp [hb])

/-- inserting an entry with a fresh id -/
theorem inv_insert {s : Store β} (h : Inv s) (e : Entry β)
    (hn : s.index.get? e.task.id = none) :
    Inv ⟨s.tasks.insertIdx (getTaskIndex s e.ts e.task.id) e, s.index.set e.task.id e⟩ := by
  have hne := (h.none_iff _).1 hn
  obtain ⟨A, B, hAB, hins, hsort⟩ := insert_split h.sorted e
    (fun a ha hk => hne a ha (by have := congrArg Prod.snd hk; simpa [ekey] using this))
  unfold getTaskIndex
  refine ⟨?_, ?_, h.wf.set _ _, ?_⟩
  · simp only [hins]; exact hsort
  · simp only [hins]
    rw [nodup_ids_perm, ← hAB]
    exact ⟨hne, h.ids⟩
  · intro i e'
    simp only [hins, Dict.get?_set]
    by_cases hi : i = e.task.id
    · subst hi
      simp only [if_true]
      constructor
      · intro he; cases he; simp
      · rintro ⟨hm, hi⟩
        simp only [List.mem_append, List.mem_cons] at hm
        rcases hm with hm | hm | hm
        · exact absurd hi (hne e' (by rw [hAB]; simp [hm]))
        · rw [hm]
        · exact absurd hi (hne e' (by rw [hAB]; simp [hm]))
    · simp only [hi, if_false, h.agree, hAB]
      simp only [List.mem_append, List.mem_cons]
      constructor
      · rintro ⟨hm, rfl⟩; exact ⟨by rcases hm with hm | hm <;> simp [hm], rfl⟩
      · rintro ⟨hm, rfl⟩
        rcases hm with hm | hm | hm
        · exact ⟨.inl hm, rfl⟩
        · exact absurd (by rw [hm]) hi
        · exact ⟨.inr hm, rfl⟩

theorem eraseIdx_append_cons (A B : List (Entry β)) (e : Entry β) :
    (A ++ e :: B).eraseIdx A.length = A ++ B := by
  induction A with
  | nil => simp
  | cons a A ih => simp [ih]

theorem set_append_cons (A B : List (Entry β)) (e e' : Entry β) :
    (A ++ e :: B).set A.length e' = A ++ e' :: B := by
  induction A with
  | nil => simp
  | cons a A ih => simp [ih]

theorem inv_delete {s : Store β} (h : Inv s) {id : String} {e : Entry β}
    (hg : s.index.get? id = some e) :
    Inv ⟨s.tasks.eraseIdx (getTaskIndex s e.ts id), s.index.erase id⟩ := by
  obtain ⟨hm, hi⟩ := (h.agree _ _).1 hg
  subst hi
  have hf := found_getTaskIndex s.tasks e.ts e.task.id h.sorted
  obtain ⟨A, B, hAB, hA⟩ := hf.split_mem h.sorted hm rfl
  unfold getTaskIndex
  rw [← hA, hAB, eraseIdx_append_cons]
  have hids := h.ids
  have hsort := h.sorted
  rw [hAB] at hids hsort
  rw [nodup_ids_perm] at hids
  refine ⟨hsort.remove, hids.2, h.wf.erase _, ?_⟩
  intro i e'
  rw [Dict.get?_erase h.wf]
  by_cases hi : i = e.task.id
  · subst hi
    simp only [if_true, reduceCtorEq, false_iff]
    rintro ⟨hm', hi'⟩
    exact hids.1 e' hm' hi'
  · simp only [hi, if_false, h.agree, hAB, List.mem_append, List.mem_cons]
    constructor
    · rintro ⟨hm', rfl⟩
      rcases hm' with hm' | hm' | hm'
      · exact ⟨.inl hm', rfl⟩
      · exact absurd (by rw [hm']) hi
      · exact ⟨.inr hm', rfl⟩
    · rintro ⟨hm', rfl⟩; exact ⟨by rcases hm' with hm' | hm' <;> simp [hm'], rfl⟩

theorem inv_update {s : Store β} (h : Inv s) (t : Task β) : Inv (updateTask s t).1 := by
  unfold updateTask
  cases hg : s.index.get? t.id with
  | none => exact inv_insert h ⟨t, t.nrt⟩ hg
  | some old =>
    obtain ⟨hm, hi⟩ := (h.agree _ _).1 hg
    have hf := found_getTaskIndex s.tasks old.ts old.task.id h.sorted
    obtain ⟨A, B, hAB, hA⟩ := hf.split_mem h.sorted hm rfl
    have hids := h.ids
    have hsort := h.sorted
    rw [hAB] at hids hsort
    rw [nodup_ids_perm] at hids
    have hgi : getTaskIndex s old.ts old.task.id = A.length := by unfold getTaskIndex; exact hA.symm
    simp only [hgi]
    -- both branches produce `C ++ e :: D` with `C ++ D = A ++ B`
    have key : ∃ C D, C ++ D = A ++ B ∧
        (if old.ts = t.nrt then s.tasks.set A.length ⟨t, t.nrt⟩ else
          (s.tasks.eraseIdx A.length).insertIdx
            (searchLoop (s.tasks.eraseIdx A.length) t.nrt t.id 0 (s.tasks.eraseIdx A.length).length)
            ⟨t, t.nrt⟩) = C ++ ⟨t, t.nrt⟩ :: D ∧ Sorted (C ++ (⟨t, t.nrt⟩ : Entry β) :: D) := by
      rw [hAB, eraseIdx_append_cons, set_append_cons]
      split
      · rename_i hts
        refine ⟨A, B, rfl, rfl, hsort.replace ?_⟩
        simp [ekey, hts, hi]
      · obtain ⟨C, D, hCD, hins, hs'⟩ := insert_split hsort.remove ⟨t, t.nrt⟩ (by
          intro a ha hk
          have := congrArg Prod.snd hk
          simp only [ekey] at this
          exact hids.1 a ha (this.trans hi.symm))
        exact ⟨C, D, hCD.symm, hins, hs'⟩
    obtain ⟨C, D, hCD, heq, hs'⟩ := key
    simp only [heq]
    refine ⟨hs', ?_, h.wf.set _ _, ?_⟩
    · show ((C ++ (⟨t, t.nrt⟩ : Entry β) :: D).map fun e => e.task.id).Nodup
      rw [nodup_ids_perm, hCD]
      exact ⟨by intro a ha; have := hids.1 a ha; rw [hi] at this; exact this, hids.2⟩
    · intro i e'
      have hmemCD : ∀ x, x ∈ C ∨ x ∈ D ↔ x ∈ A ∨ x ∈ B := by
        intro x; rw [← List.mem_append, hCD, List.mem_append]
      simp only [Dict.get?_set]
      by_cases hti : i = t.id
      · subst hti
        simp only [if_true]
        constructor
        · intro he; cases he; simp
        · rintro ⟨hm', hi'⟩
          simp only [List.mem_append, List.mem_cons] at hm'
          have : e' = ⟨t, t.nrt⟩ ∨ e' ∈ A ++ B := by
            rcases hm' with hm' | hm' | hm'
            · exact .inr (List.mem_append.2 ((hmemCD _).1 (.inl hm')))
            · exact .inl hm'
            · exact .inr (List.mem_append.2 ((hmemCD _).1 (.inr hm')))
          rcases this with rfl | hc
          · rfl
          · exact absurd (hi'.trans hi.symm) (hids.1 e' hc)
      · simp only [hti, if_false, h.agree, hAB, List.mem_append, List.mem_cons]
        constructor
        · rintro ⟨hm', rfl⟩
          refine ⟨?_, rfl⟩
          have : e' ∈ A ∨ e' ∈ B := by
            rcases hm' with hm' | hm' | hm'
            · exact .inl hm'
            · subst hm'; exact absurd hi hti
            · exact .inr hm'
          rcases (hmemCD _).2 this with hc | hc <;> simp [hc]
        · rintro ⟨hm', rfl⟩
          refine ⟨?_, rfl⟩
          have : e' ∈ C ∨ e' ∈ D := by
            rcases hm' with hm' | hm' | hm'
            · exact .inl hm'
            · subst hm'; exact absurd rfl hti
            · exact .inr hm'
          rcases (hmemCD _).1 this with hc | hc <;> simp [hc]

theorem inv_step {s : Store β} (h : Inv s) (op : StoreOp β) : Inv (step s op).1 := by
  cases op with
  | add t =>
    simp only [step, addTask]
    cases hg : s.index.get? t.id with
    | none => exact inv_insert h ⟨t, t.nrt⟩ hg
    | some e => simpa using h
  | update t => exact inv_update h t
  | delete id =>
    simp only [step, deleteTask]
    cases hg : s.index.get? id with
    | none => exact h
    | some e => exact inv_delete h hg
  | clear => exact inv_init

/-- in-place mutation keeps the invariant -/
theorem inv_touch {s : Store β} (h : Inv s) (id : String) (nrt : Option Int) (body : β) :
    Inv (touch s id nrt body) := by
  unfold touch
  generalize hf : (fun (e : Entry β) => if e.task.id = id then
    { e with task := ⟨id, nrt, body⟩ } else e) = f
  have hkey : ∀ e, ekey (f e) = ekey e := by
    intro e; subst hf; simp only [ekey]; split <;> simp_all
  have hid : ∀ e, (f e).task.id = e.task.id := by
    intro e; have := congrArg Prod.snd (hkey e); simpa [ekey] using this
  have hget : ∀ (d : Dict String (Entry β)) i,
      Dict.get? (d.map fun p => (p.1, f p.2)) i = (Dict.get? d i).map f := by
    intro d i
    induction d with
    | nil => simp [Dict.get?]
    | cons a d ih => simp only [List.map_cons, Dict.get?]; split <;> simp_all
  refine ⟨?_, ?_, ?_, ?_⟩
  · have := h.sorted
    unfold Sorted at *
    simp only [List.pairwise_map, hkey]
    exact this
  · simp only [List.map_map]
    have : ((fun e : Entry β => e.task.id) ∘ f) = fun e => e.task.id := by
      funext e; exact hid e
    rw [this]; exact h.ids
  · unfold Dict.WF
    simp only [List.map_map]
    exact h.wf
  · intro i e
    simp only [hget]
    constructor
    · intro hh
      obtain ⟨e0, h0, rfl⟩ := Option.map_eq_some_iff.1 hh
      obtain ⟨hm, hi⟩ := (h.agree _ _).1 h0
      exact ⟨List.mem_map.2 ⟨e0, hm, rfl⟩, (hid e0).trans hi⟩
    · rintro ⟨hm, hi⟩
      obtain ⟨e0, h0, rfl⟩ := List.mem_map.1 hm
      rw [(h.agree i e0).2 ⟨h0, (hid e0).symm.trans hi⟩]; rfl

/-- every recorded timestamp is the task's own next run time -/
def Committed (s : Store β) : Prop := ∀ e ∈ s.tasks, e.ts = e.task.nrt

theorem index_step (s : Store β) (h : Inv s) (op : StoreOp β) (i : String) :
    ((step s op).1.index.get? i).map Entry.task =
      (specStep true (fun j => (s.index.get? j).map Entry.task) op).1 i ∧
    (step s op).2 = (specStep true (fun j => (s.index.get? j).map Entry.task) op).2 := by
  cases op with
  | add t =>
    simp only [step, addTask, specStep]
    cases hg : s.index.get? t.id with
    | none => simp [Dict.get?_set, AMap.set]; split <;> simp
    | some e => simp
  | update t =>
    simp only [step, updateTask, specStep]
    cases hg : s.index.get? t.id with
    | none => simp [Dict.get?_set, AMap.set]; split <;> simp
    | some e => simp [Dict.get?_set, AMap.set]; split <;> simp
  | delete id =>
    simp only [step, deleteTask, specStep]
    cases hg : s.index.get? id with
    | none => simp
    | some e => simp [Dict.get?_erase h.wf, AMap.erase]; split <;> simp
  | clear => simp [step, removeAllTasks, specStep, init, Dict.get?, AMap.empty]

theorem committed_iff {s : Store β} (h : Inv s) :
    Committed s ↔ ∀ i e, s.index.get? i = some e → e.ts = e.task.nrt := by
  constructor
  · intro hc i e he; exact hc e ((h.agree _ _).1 he).1
  · intro hc e he; exact hc e.task.id e ((h.agree _ _).2 ⟨he, rfl⟩)

theorem committed_step {s : Store β} (h : Inv s) (hc : Committed s) (op : StoreOp β) :
    Committed (step s op).1 := by
  rw [committed_iff (inv_step h op)]
  rw [committed_iff h] at hc
  intro i e
  cases op with
  | add t =>
    simp only [step, addTask]
    cases hg : s.index.get? t.id with
    | none =>
      simp only [Dict.get?_set]
      split
      · intro he; cases he; rfl
      · exact hc i e
    | some e' => simpa using hc i e
  | update t =>
    simp only [step, updateTask]
    cases hg : s.index.get? t.id with
    | none =>
      simp only [Dict.get?_set]
      split
      · intro he; cases he; rfl
      · exact hc i e
    | some e' =>
      simp only [Dict.get?_set]
      split
      · intro he; cases he; rfl
      · exact hc i e
  | delete id =>
    simp only [step, deleteTask]
    cases hg : s.index.get? id with
    | none => exact hc i e
    | some e' =>
      simp only [Dict.get?_erase h.wf]
      split
      · simp
      · exact hc i e
  | clear => simp [step, removeAllTasks, init, Dict.get?]

/-- lookups of the store, as an abstract map -/
def toMap (s : Store β) : AMap β := fun i => lookupTask s i

theorem toMap_step (s : Store β) (h : Inv s) (op : StoreOp β) :
    (toMap (step s op).1, (step s op).2) = specStep true (toMap s) op := by
  have h1 := fun i => (index_step s h op i).1
  have h2 := (index_step s h op "").2
  apply Prod.ext
  · funext i; exact h1 i
  · exact h2

theorem run_inv {s : Store β} (h : Inv s) (ops : List (StoreOp β)) : Inv (run s ops).1 := by
  induction ops generalizing s with
  | nil => exact h
  | cons op ops ih => exact ih (inv_step h op)

theorem run_committed {s : Store β} (h : Inv s) (hc : Committed s) (ops : List (StoreOp β)) :
    Committed (run s ops).1 := by
  induction ops generalizing s with
  | nil => exact hc
  | cons op ops ih => exact ih (inv_step h op) (committed_step h hc op)

theorem run_spec {s : Store β} (h : Inv s) (ops : List (StoreOp β)) :
    (toMap (run s ops).1, (run s ops).2) = specRun true (toMap s) ops := by
  induction ops generalizing s with
  | nil => rfl
  | cons op ops ih =>
    have h1 := toMap_step s h op
    have h2 := ih (inv_step h op)
    simp only [run, specRun]
    rw [← h1]
    simp only
    rw [← h2]

theorem mem_tasks_iff {s : Store β} (h : Inv s) (t : Task β) :
    t ∈ s.tasks.map Entry.task ↔ toMap s t.id = some t := by
  unfold toMap lookupTask
  constructor
  · intro ht
    obtain ⟨e, he, rfl⟩ := List.mem_map.1 ht
    rw [(h.agree _ _).2 ⟨he, rfl⟩]; rfl
  · intro ht
    obtain ⟨e, he, rfl⟩ := Option.map_eq_some_iff.1 ht
    exact List.mem_map.2 ⟨e, ((h.agree _ _).1 he).1, rfl⟩

theorem tasks_nodup {s : Store β} (h : Inv s) : (s.tasks.map Entry.task).Nodup := by
  have h1 : ((s.tasks.map Entry.task).map Task.id).Nodup := by
    simpa [List.map_map, Function.comp_def] using h.ids
  exact (List.pairwise_map.1 h1).imp (fun hne he => hne (by rw [he]))

theorem before_of_klt {a b : Entry β} (ha : a.ts = a.task.nrt) (hb : b.ts = b.task.nrt)
    (h : klt (ekey a) (ekey b)) : Before a.task b.task := by
  simp only [klt, ekey, ha, hb] at h
  unfold Before
  cases h1 : a.task.nrt <;> cases h2 : b.task.nrt <;> simp_all [tsLT]

theorem tasks_before {s : Store β} (h : Inv s) (hc : Committed s) :
    (s.tasks.map Entry.task).Pairwise Before := by
  rw [List.pairwise_map]
  have hs := h.sorted
  unfold Sorted at hs
  refine List.Pairwise.imp_of_mem ?_ hs
  intro a b ha hb hk
  exact before_of_klt (hc a ha) (hc b hb) hk

theorem due_go (l : List (Entry β)) (now : Int) (hs : Sorted l) :
    getDueTasks.go now l =
      (l.filter fun e => match e.ts with | none => false | some t => t ≤ now).map Entry.task := by
  induction l with
  | nil => rfl
  | cons e es ih =>
    obtain ⟨h1, h2⟩ := List.pairwise_cons.1 hs
    unfold getDueTasks.go
    have hnil : (match e.ts with | none => false | some t => decide (t ≤ now)) = false →
        es.filter (fun e => match e.ts with | none => false | some t => decide (t ≤ now)) = [] := by
      intro hf
      rw [List.filter_eq_nil_iff]
      intro b hb
      have := h1 b hb
      simp only [klt, ekey] at this
      cases hb' : b.ts <;> cases he' : e.ts <;> simp_all [tsLT]
      omega
    cases he : e.ts with
    | none => simp [he] at hnil ⊢; simpa [List.filter_eq_nil_iff] using hnil
    | some t =>
      simp only
      by_cases ht : t > now
      · have : ¬ t ≤ now := by omega
        simp only [ht, if_true]
        simp [he, this] at hnil ⊢
        simpa [List.filter_eq_nil_iff] using hnil
      · have : t ≤ now := by omega
        simp [ht, this, he, ih h2]

end Memory
end Asyncz
