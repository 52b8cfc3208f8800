import Verif.Model.SchedApi
import Verif.Props.SchedPass
import Verif.Spec.SchedApi
/-! # What the calls of a scheduler do to its stores -/
namespace Asyncz
namespace Sched
variable {σ τ φ : Type} {O : StoreOps σ (Body τ φ)}

/-- like `WF`, of a dictionary of stores -/
def Stores (L : LawfulStore O) (d : Dict String σ) : Prop := d.WF ∧ ∀ a st, d.get? a = some st → L.Inv st

theorem wf_iff {L : LawfulStore O} {s : State σ τ φ} : WF L s ↔ Stores L s.stores :=
  ⟨fun h => ⟨h.keys, h.inv⟩, fun h => ⟨h.1, h.2⟩⟩

theorem WF.congr {L : LawfulStore O} {s s' : State σ τ φ} (h : WF L s) (hs : s'.stores = s.stores) : WF L s' :=
  ⟨by rw [hs]; exact h.keys, by rw [hs]; exact h.inv⟩

theorem Stores.erase {L : LawfulStore O} {d : Dict String σ} (h : Stores L d) (a : String) :
    Stores L (d.erase a) := by
  refine ⟨h.1.erase _, fun b st' hb => ?_⟩
  rw [Dict.get?_erase h.1] at hb
  split at hb
  · cases hb
  · exact h.2 _ _ hb

theorem Stores.cons {L : LawfulStore O} {a : String} {st : σ} {d : Dict String σ} :
    Stores L ((a, st) :: d) ↔ a ∉ d.keys ∧ L.Inv st ∧ Stores L d := by
  constructor
  · rintro ⟨h1, h2⟩
    simp only [Dict.WF, List.map_cons, List.nodup_cons] at h1
    refine ⟨h1.1, h2 a st (by simp [Dict.get?]), h1.2, fun b sb hb => h2 b sb ?_⟩
    simp only [Dict.get?]
    rw [if_neg]
    · exact hb
    · rintro rfl; exact h1.1 (Dict.mem_keys_of_mem (Dict.mem_of_get? hb))
  · rintro ⟨h1, h2, h3⟩
    refine ⟨?_, fun b sb hb => ?_⟩
    · simp only [Dict.WF, List.map_cons, List.nodup_cons]; exact ⟨h1, h3.1⟩
    · simp only [Dict.get?] at hb
      split at hb
      · cases hb; exact h2
      · exact h3.2 b sb hb

theorem Stores.nil (L : LawfulStore O) : Stores L [] := ⟨Dict.WF.nil, fun _ _ h => by simp [Dict.get?] at h⟩

/-- the entries of a dictionary of stores -/
def look (O : StoreOps σ (Body τ φ)) (d : Dict String σ) (a id : String) : Option (T τ φ) :=
  (d.get? a).bind fun st => O.lookup st id

theorem entry_look (s : State σ τ φ) (a id : String) : entry O s a id = look O s.stores a id := rfl

theorem look_cons_ne {a b id : String} {st : σ} {d : Dict String σ} (h : a ≠ b) :
    look O ((a, st) :: d) b id = look O d b id := by simp [look, Dict.get?, h]

theorem look_cons_eq {a id : String} {st : σ} {d : Dict String σ} :
    look O ((a, st) :: d) a id = O.lookup st id := by simp [look, Dict.get?]

theorem look_not_mem {a id : String} {d : Dict String σ} (h : a ∉ d.keys) : look O d a id = none := by
  simp [look, (Dict.get?_eq_none d a).2 h]

theorem admits_iff {store : Option String} {a : String} : (store = none ∨ store = some a) ↔ Admits store a := by
  cases store with
  | none => simp [Admits]
  | some x => simp [Admits, eq_comm]

theorem findInStores_none (L : LawfulStore O) {d : Dict String σ} (hd : Stores L d) {id : String}
    {store : Option String} :
    findInStores O id store d = none ↔ ∀ a, Admits store a → look O d a id = none := by
  induction d with
  | nil => simp [findInStores, look, Dict.get?]
  | cons p d ih =>
    obtain ⟨a, st⟩ := p
    obtain ⟨h1, h2, h3⟩ := Stores.cons.1 hd
    have step : ∀ (P : Prop), (P ↔ (Admits store a → O.lookup st id = none) ∧
        ∀ b, Admits store b → look O d b id = none) →
        (P ↔ ∀ b, Admits store b → look O ((a, st) :: d) b id = none) := by
      intro P hP
      rw [hP]
      constructor
      · rintro ⟨q1, q2⟩ b hb
        by_cases hab : a = b
        · subst hab; rw [look_cons_eq]; exact q1 hb
        · rw [look_cons_ne hab]; exact q2 b hb
      · intro q
        refine ⟨fun ha => by rw [← look_cons_eq (O := O) (d := d)]; exact q a ha, fun b hb => ?_⟩
        by_cases hab : a = b
        · subst hab; exact look_not_mem h1
        · rw [← look_cons_ne (O := O) hab]; exact q b hb
    apply step
    simp only [findInStores]
    split
    · rename_i ha
      have ha := admits_iff.1 ha
      cases hl : O.lookup st id with
      | none => simp [ih h3]
      | some t => simp [ha]
    · rename_i ha
      have ha : ¬ Admits store a := fun h => ha (admits_iff.2 h)
      simp [ih h3, ha]

theorem findInStores_some (L : LawfulStore O) {d : Dict String σ} (hd : Stores L d) {id : String}
    {store : Option String} {t : T τ φ} {a : String} (h : findInStores O id store d = some (t, a)) :
    Admits store a ∧ look O d a id = some t ∧
      ∃ pre post, d.keys = pre ++ a :: post ∧ a ∉ pre ∧ ∀ b ∈ pre, Admits store b → look O d b id = none := by
  induction d with
  | nil => simp [findInStores] at h
  | cons p d ih =>
    obtain ⟨b, st⟩ := p
    obtain ⟨h1, h2, h3⟩ := Stores.cons.1 hd
    have later : findInStores O id store d = some (t, a) → (Admits store b → O.lookup st id = none) →
        Admits store a ∧ look O ((b, st) :: d) a id = some t ∧ ∃ pre post, Dict.keys ((b, st) :: d) = pre ++ a :: post ∧
          a ∉ pre ∧ ∀ x ∈ pre, Admits store x → look O ((b, st) :: d) x id = none := by
      intro hf hn
      obtain ⟨r1, r2, pre, post, r3, r4, r5⟩ := ih h3 hf
      have hba : b ≠ a := by
        rintro rfl; rw [look_not_mem h1] at r2; cases r2
      refine ⟨r1, by rw [look_cons_ne hba]; exact r2, b :: pre, post, by simp [Dict.keys] at r3 ⊢; exact r3, ?_, ?_⟩
      · simp only [List.mem_cons, not_or]; exact ⟨fun h => hba h.symm, r4⟩
      · intro x hx hax
        by_cases hbx : b = x
        · subst hbx; rw [look_cons_eq]; exact hn hax
        · rw [look_cons_ne hbx]
          refine r5 x ?_ hax
          rcases List.mem_cons.1 hx with h | h
          · exact absurd h.symm hbx
          · exact h
    simp only [findInStores] at h
    split at h
    · rename_i ha
      have ha := admits_iff.1 ha
      cases hl : O.lookup st id with
      | none => rw [hl] at h; exact later h (fun _ => hl)
      | some t' =>
        rw [hl] at h
        cases h
        exact ⟨ha, by rw [look_cons_eq, hl], [], Dict.keys d, rfl, by simp, by simp⟩
    · rename_i ha
      exact later h (fun h => absurd (admits_iff.2 h) ha)

/-- the task found is the one that has the id -/
theorem look_id (L : LawfulStore O) {d : Dict String σ} (hd : Stores L d) {a id : String} {t : T τ φ}
    (h : look O d a id = some t) : t.id = id ∧ ∃ st, d.get? a = some st ∧ L.Inv st ∧ L.toMap st id = some t := by
  simp only [look] at h
  cases hg : d.get? a with
  | none => rw [hg] at h; cases h
  | some st =>
    rw [hg] at h
    have hi := hd.2 _ _ hg
    simp only [Option.bind_some, L.lookup hi] at h
    exact ⟨L.key hi h, st, rfl, hi, h⟩

theorem look_set (L : LawfulStore O) {d : Dict String σ} {a : String} {st : σ} (hi : L.Inv st) (b j : String) :
    look O (d.set a st) b j = if b = a then L.toMap st j else look O d b j := by
  simp only [look, Dict.get?_set]
  split
  · simp [L.lookup hi]
  · rfl

theorem Stores.set {L : LawfulStore O} {d : Dict String σ} (h : Stores L d) {a : String} {st : σ}
    (hi : L.Inv st) : Stores L (d.set a st) := by
  refine ⟨h.1.set _ _, fun b st' hb => ?_⟩
  rw [Dict.get?_set] at hb
  split at hb
  · cases hb; exact hi
  · exact h.2 _ _ hb

/-! ## delete -/

/-- what the loop of `delete_task` does -/
theorem deleteInStores_spec (L : LawfulStore O) {d : Dict String σ} (hd : Stores L d) (id : String)
    (store : Option String) :
    Stores L (deleteInStores O id store d).1 ∧ (deleteInStores O id store d).1.keys = d.keys ∧
    (deleteInStores O id store d).2 = (findInStores O id store d).map (·.2) ∧
    ∀ b j, look O (deleteInStores O id store d).1 b j =
      if j = id ∧ (deleteInStores O id store d).2 = some b then none else look O d b j := by
  induction d with
  | nil => exact ⟨hd, rfl, rfl, fun b j => by simp [deleteInStores, look, Dict.get?]⟩
  | cons p d ih =>
    obtain ⟨a, st⟩ := p
    obtain ⟨h1, h2, h3⟩ := Stores.cons.1 hd
    obtain ⟨i1, i2, i3, i4⟩ := ih h3
    have ne_a : ∀ b, (deleteInStores O id store d).2 = some b → b ∈ Dict.keys d := by
      intro b hb
      rw [i3] at hb
      cases hf : findInStores O id store d with
      | none => rw [hf] at hb; cases hb
      | some q =>
        obtain ⟨t, c⟩ := q
        rw [hf] at hb
        cases hb
        obtain ⟨_, _, pre, post, hk, _⟩ := findInStores_some L h3 hf
        rw [hk]; simp
    -- the case in which the first store is passed over
    have pass : ∀ st', L.Inv st' → L.toMap st' = L.toMap st →
        Stores L ((a, st') :: (deleteInStores O id store d).1) ∧
        Dict.keys ((a, st') :: (deleteInStores O id store d).1) = Dict.keys ((a, st) :: d) ∧
        ∀ b j, look O ((a, st') :: (deleteInStores O id store d).1) b j =
          if j = id ∧ (deleteInStores O id store d).2 = some b then none else look O ((a, st) :: d) b j := by
      intro st' hi' hm'
      refine ⟨Stores.cons.2 ⟨by rw [i2]; exact h1, hi', i1⟩, ?_, ?_⟩
      · simp only [Dict.keys, List.map_cons] at i2 ⊢; rw [i2]
      · intro b j
        by_cases hab : a = b
        · subst hab
          rw [look_cons_eq, look_cons_eq, L.lookup hi', L.lookup h2, hm', if_neg]
          rintro ⟨_, h⟩; exact h1 (ne_a _ h)
        · rw [look_cons_ne hab, look_cons_ne hab, i4]
    simp only [deleteInStores, findInStores]
    split
    · cases hm : L.toMap st id with
      | none =>
        obtain ⟨r1, r2⟩ := L.delete_none h2 hm
        have r3 := L.step_inv h2 (.delete id)
        cases hs : O.step st (.delete id) with
        | mk st' r =>
          rw [hs] at r1 r2 r3
          simp only at r1 r2 r3
          subst r1
          simp only [L.lookup h2, hm]
          exact ⟨(pass st' r3 r2).1, (pass st' r3 r2).2.1, i3, (pass st' r3 r2).2.2⟩
      | some t =>
        obtain ⟨r1, r2⟩ := L.delete_ok h2 hm
        have r3 := L.step_inv h2 (.delete id)
        cases hs : O.step st (.delete id) with
        | mk st' r =>
          rw [hs] at r1 r2 r3
          simp only at r1 r2 r3
          subst r1
          simp only [L.lookup h2, hm]
          refine ⟨Stores.cons.2 ⟨h1, r3, h3⟩, rfl, rfl, fun b j => ?_⟩
          by_cases hab : a = b
          · subst hab
            rw [look_cons_eq, look_cons_eq, L.lookup r3, L.lookup h2, r2]
            simp only [AMap.erase, and_true]
          · rw [look_cons_ne hab, look_cons_ne hab, if_neg]
            rintro ⟨_, h⟩; cases h; exact hab rfl
    · exact ⟨(pass st h2 rfl).1, (pass st h2 rfl).2.1, i3, (pass st h2 rfl).2.2⟩

/-- replacing one entry -/
def put (O : StoreOps σ (Body τ φ)) (s : State σ τ φ) (a i : String) (x : Option (T τ φ)) (b j : String) :
    Option (T τ φ) := if b = a ∧ j = i then x else entry O s b j

theorem deleteTask_spec (L : LawfulStore O) {s : State σ τ φ} (hw : WF L s) (hm : s.mode ≠ .stopped) (id : String)
    (store : Option String) :
    (findInStores O id store s.stores = none ∧ (deleteTask O id store s).2 = .error (.lookup id) ∧
      WF L (deleteTask O id store s).1 ∧ (deleteTask O id store s).1.log = s.log ∧
      Frame s (deleteTask O id store s).1 ∧ (deleteTask O id store s).1.instances = s.instances ∧
      ∀ b j, entry O (deleteTask O id store s).1 b j = entry O s b j) ∨
    ∃ t a, findInStores O id store s.stores = some (t, a) ∧ (deleteTask O id store s).2 = .ok () ∧
      WF L (deleteTask O id store s).1 ∧ (deleteTask O id store s).1.log = s.log ++ [.taskRemoved id a] ∧
      Frame s (deleteTask O id store s).1 ∧ (deleteTask O id store s).1.instances = s.instances ∧
      ∀ b j, entry O (deleteTask O id store s).1 b j = put O s a id none b j := by
  obtain ⟨h1, h2, h3, h4⟩ := deleteInStores_spec L (wf_iff.1 hw) id store
  simp only [deleteTask, if_neg hm]
  cases hf : findInStores O id store s.stores with
  | none =>
    rw [hf] at h3
    simp only [Option.map_none] at h3
    rw [h3]
    refine .inl ⟨rfl, rfl, wf_iff.2 h1, rfl, ⟨rfl, rfl, rfl, rfl, rfl, rfl⟩, rfl, fun b j => ?_⟩
    rw [entry_look, h4, h3]
    simp [entry_look]
  | some p =>
    obtain ⟨t, a⟩ := p
    rw [hf] at h3
    simp only [Option.map_some] at h3
    rw [h3]
    refine .inr ⟨t, a, rfl, rfl, wf_iff.2 h1, rfl, ⟨rfl, rfl, rfl, rfl, rfl, rfl⟩, rfl, fun b j => ?_⟩
    rw [entry_look]
    simp only [State.emit]
    rw [h4, h3]
    simp only [put, Option.some.injEq]
    by_cases hb : j = id ∧ a = b
    · rw [if_pos hb, if_pos ⟨hb.2.symm, hb.1⟩]
    · rw [if_neg hb, if_neg (fun h => hb ⟨h.2, h.1.symm⟩)]; rfl

theorem wf_deleteTask {L : LawfulStore O} {s : State σ τ φ} (hw : WF L s) (id : String) (store : Option String) :
    WF L (deleteTask O id store s).1 := by
  by_cases hm : s.mode = .stopped
  · simp only [deleteTask, if_pos hm]
    split
    · exact hw
    · exact hw.congr rfl
  · rcases deleteTask_spec L hw hm id store with h | ⟨_, _, h⟩
    · exact h.2.2.1
    · exact h.2.2.1

/-- `store.update_task` of a task that is there -/
theorem store_update (L : LawfulStore O) {s : State σ τ φ} (hw : WF L s) {a : String} {st : σ}
    (hg : s.stores.get? a = some st) {t u : T τ φ} (ht : L.toMap st t.id = some u) :
    (O.step st (.update t)).2 = .ok ∧ WF L (s.setStore a (O.step st (.update t)).1) ∧
    ∀ b j, entry O (s.setStore a (O.step st (.update t)).1) b j = put O s a t.id (some t) b j := by
  have hi := hw.inv _ _ hg
  obtain ⟨h1, h2⟩ := L.update_ok hi ht
  have h3 := L.step_inv hi (.update t)
  refine ⟨h1, wf_iff.2 ((wf_iff.1 hw).set h3), fun b j => ?_⟩
  rw [entry_look]
  simp only [State.setStore]
  rw [look_set L h3, h2, put]
  by_cases hb : b = a
  · subst hb
    simp only [if_true, AMap.set, true_and]
    split
    · rfl
    · rw [entry_eq L hw hg]
  · rw [if_neg hb, if_neg (fun h => hb h.1), entry_look]

/-- `store.add_task` of a task that is not there -/
theorem store_add (L : LawfulStore O) {s : State σ τ φ} (hw : WF L s) {a : String} {st : σ}
    (hg : s.stores.get? a = some st) {t : T τ φ} (ht : L.toMap st t.id = none) :
    (O.step st (.add t)).2 = .ok ∧ WF L (s.setStore a (O.step st (.add t)).1) ∧
    ∀ b j, entry O (s.setStore a (O.step st (.add t)).1) b j = put O s a t.id (some t) b j := by
  have hi := hw.inv _ _ hg
  obtain ⟨h1, h2⟩ := L.add_ok hi ht
  have h3 := L.step_inv hi (.add t)
  refine ⟨h1, wf_iff.2 ((wf_iff.1 hw).set h3), fun b j => ?_⟩
  rw [entry_look]
  simp only [State.setStore]
  rw [look_set L h3, h2, put]
  by_cases hb : b = a
  · subst hb
    simp only [if_true, AMap.set, true_and]
    split
    · rfl
    · rw [entry_eq L hw hg]
  · rw [if_neg hb, if_neg (fun h => hb h.1), entry_look]

theorem wf_setStore {L : LawfulStore O} {s : State σ τ φ} (hw : WF L s) (a : String) {st : σ} (hi : L.Inv st)
    (op : StoreOp (Body τ φ)) : WF L (s.setStore a (O.step st op).1) :=
  wf_iff.2 ((wf_iff.1 hw).set (L.step_inv hi op))

theorem wf_sendTask {L : LawfulStore O} {s : State σ τ φ} (hw : WF L s) (e : Env τ) (ex a : String) (t : T τ φ)
    (times : List Int) : WF L (sendTask e ex a t times s).1 := by
  obtain ⟨ins, new, h, _⟩ := sendTask_spec e ex a t times s
  rw [h]; exact hw.congr rfl

theorem wf_reschedule {L : LawfulStore O} {s : State σ τ φ} (hw : WF L s) (e : Env τ) (a : String) (t : T τ φ)
    (last : Int) : WF L (reschedule O e a t last s).1 := by
  simp only [reschedule]
  split
  · exact hw
  · split
    · exact hw
    · rename_i st hg
      have := wf_setStore hw a (hw.inv _ _ hg)
      split <;> rename_i hs <;> (have h2 := congrArg Prod.fst hs; simp only at h2; rw [← h2]; exact this _)
  · exact wf_deleteTask hw _ _

theorem wf_processTask {L : LawfulStore O} {s s' : State σ τ φ} (hw : WF L s) {e : Env τ} {fuel : Nat} {a : String}
    {t : T τ φ} {r : Except Err (List Obs)} (h : processTask O e fuel a t s = some (s', r)) : WF L s' := by
  simp only [processTask] at h
  split at h
  · have := wf_deleteTask hw t.id (some a)
    split at h <;> rename_i hd <;> rw [hd] at this <;> cases h <;> exact this
  · split at h
    · cases h
    · cases h; exact hw
    · split at h
      · cases h; exact hw
      · rename_i last _
        have := wf_reschedule (wf_sendTask hw e t.body.executor a t (coalesce t.body.coalesce ‹_›).1) e a t last
        split at h <;> rename_i hd <;> rw [hd] at this <;> cases h <;> exact this

theorem wf_processDue {L : LawfulStore O} {e : Env τ} {fuel : Nat} {a : String}
    {ts : List (T τ φ)} {s s' : State σ τ φ} (hw : WF L s) {r : Except Err (List Obs)}
    (h : processDue O e fuel a ts s = some (s', r)) : WF L s' := by
  induction ts generalizing s s' r with
  | nil => cases h; exact hw
  | cons t ts ih =>
    simp only [processDue] at h
    cases h1 : processTask O e fuel a t s with
    | none => rw [h1] at h; cases h
    | some p =>
      obtain ⟨s1, r1⟩ := p
      have hw1 := wf_processTask hw h1
      rw [h1] at h
      cases r1 with
      | error x => cases h; exact hw1
      | ok evs =>
        simp only at h
        cases h2 : processDue O e fuel a ts s1 with
        | none => rw [h2] at h; cases h
        | some p =>
          obtain ⟨s2, r2⟩ := p
          have hw2 := ih hw1 h2
          rw [h2] at h
          cases r2 <;> cases h <;> exact hw2

theorem wf_processStore {L : LawfulStore O} {c : Cfg τ} {e : Env τ} {fuel : Nat} {a : String} {w : Option Int}
    {s s' : State σ τ φ} (hw : WF L s) {r : Except Err (List Obs × Option Int)}
    (h : processStore O c e fuel a w s = some (s', r)) : WF L s' := by
  simp only [processStore] at h
  split at h
  · cases h; exact hw
  · split at h
    · split at h
      · cases h
      · rename_i hd; cases h; exact wf_processDue hw hd
      · rename_i hd; cases h; exact wf_processDue hw hd
    · cases h; exact hw

theorem wf_processStores {L : LawfulStore O} {c : Cfg τ} {e : Env τ} {fuel : Nat} {as : List String} {w : Option Int}
    {s s' : State σ τ φ} (hw : WF L s) {r : Except Err (List Obs × Option Int)}
    (h : processStores O c e fuel as w s = some (s', r)) : WF L s' := by
  induction as generalizing s s' r w with
  | nil => cases h; exact hw
  | cons a as ih =>
    simp only [processStores] at h
    cases h1 : processStore O c e fuel a w s with
    | none => rw [h1] at h; cases h
    | some p =>
      obtain ⟨s1, r1⟩ := p
      have hw1 := wf_processStore hw h1
      rw [h1] at h
      cases r1 with
      | error x => cases h; exact hw1
      | ok q =>
        simp only at h
        cases h2 : processStores O c e fuel as q.2 s1 with
        | none => rw [h2] at h; cases h
        | some p =>
          obtain ⟨s2, r2⟩ := p
          have hw2 := ih hw1 h2
          rw [h2] at h
          cases r2 <;> cases h <;> exact hw2

theorem wf_processTasks {L : LawfulStore O} {c : Cfg τ} {e : Env τ} {fuel : Nat} {s s' : State σ τ φ} (hw : WF L s)
    {r : Except Err (Option Int)} (h : processTasks O c e fuel s = some (s', r)) : WF L s' := by
  simp only [processTasks] at h
  split at h
  · cases h; exact hw
  · split at h
    · split at h
      · cases h
      · rename_i hd; cases h; exact wf_processStores hw hd
      · rename_i hd; cases h; exact (wf_processStores hw hd).congr rfl
    · cases h; exact hw

theorem wf_tick {L : LawfulStore O} {c : Cfg τ} {e : Env τ} {fuel : Nat} {s s' : State σ τ φ} (hw : WF L s)
    {r : Except Err Unit} (h : tick O c e fuel s = some (s', r)) : WF L s' := by
  simp only [tick] at h
  have hw0 : WF L { s with woken := false, timer := none } := hw.congr rfl
  split at h
  · cases h
  · rename_i hd; cases h; exact wf_processTasks hw0 hd
  · rename_i hd; cases h; exact (wf_processTasks hw0 hd).congr rfl

theorem stores_wakeIfRunning (s : State σ τ φ) : s.wakeIfRunning.stores = s.stores := by
  simp only [State.wakeIfRunning]; split <;> rfl

/-- What `real_add_task` does: it fails and changes nothing, or the task is in its store. -/
theorem realAddTask_spec (L : LawfulStore O) {s : State σ τ φ} (hw : WF L s) (e : Env τ) (t : T τ φ)
    (replace start : Bool) (minD : Option Int) :
    ((realAddTask O e t replace start minD s).1 = s ∧
      ((∃ x, firstTime e t start minD = .error x ∧
          (realAddTask O e t replace start minD s).2 = .error (.trigger x)) ∨
       (s.stores.get? t.body.store = none ∧
          (realAddTask O e t replace start minD s).2 = .error (.keyError t.body.store)) ∨
       (replace = false ∧ (entry O s t.body.store t.id).isSome ∧
          (realAddTask O e t replace start minD s).2 = .error (.conflict t.id)))) ∨
    ∃ n, firstTime e t start minD = .ok n ∧ (s.stores.get? t.body.store).isSome ∧
      (entry O s t.body.store t.id = none ∨ replace = true) ∧
      (realAddTask O e t replace start minD s).2 = .ok () ∧
      WF L (realAddTask O e t replace start minD s).1 ∧
      (realAddTask O e t replace start minD s).1.log = s.log ++ [.taskAdded t.id t.body.store] ∧
      (realAddTask O e t replace start minD s).1.stores.keys = s.stores.keys ∧
      Frame { s with woken := if start ∧ s.mode = .running then true else s.woken }
        (realAddTask O e t replace start minD s).1 ∧
      (realAddTask O e t replace start minD s).1.instances = s.instances ∧
      ∀ b j, entry O (realAddTask O e t replace start minD s).1 b j =
        put O s t.body.store t.id (some { t with nrt := n, body := { t.body with pending := false } }) b j := by
  have hadded : ∀ (t' : T τ φ) (st' : σ), (added t' start (s.setStore t.body.store st')).stores = (s.setStore t.body.store st').stores ∧
      (added t' start (s.setStore t.body.store st')).log = s.log ++ [.taskAdded t'.id t'.body.store] ∧
      Frame { s with woken := if start ∧ s.mode = .running then true else s.woken }
        (added t' start (s.setStore t.body.store st')) ∧
      (added t' start (s.setStore t.body.store st')).instances = s.instances := by
    intro t' st'
    simp only [added, State.wakeIfRunning, State.emit, State.wake, State.setStore]
    cases start <;> by_cases hr : s.mode = .running <;> simp [hr] <;> exact ⟨by simp [hr], rfl, rfl, rfl, rfl, by simp⟩
  simp only [realAddTask]
  cases hf : firstTime e t start minD with
  | error x => exact .inl ⟨rfl, .inl ⟨x, rfl, rfl⟩⟩
  | ok n =>
    simp only []
    cases hg : s.stores.get? t.body.store with
    | none => exact .inl ⟨rfl, .inr (.inl ⟨rfl, rfl⟩)⟩
    | some st =>
      simp only []
      have hi := hw.inv _ _ hg
      generalize ht' : ({ t with nrt := n, body := { t.body with pending := false } } : T τ φ) = t'
      have hid : t'.id = t.id := by subst ht'; rfl
      have hst : t'.body.store = t.body.store := by subst ht'; rfl
      have ok : ∀ (op : StoreOp (Body τ φ)), WF L (s.setStore t.body.store (O.step st op).1) →
          (∀ b j, entry O (s.setStore t.body.store (O.step st op).1) b j = put O s t.body.store t'.id (some t') b j) →
          (entry O s t.body.store t.id = none ∨ replace = true) →
          ∃ n1, Except.ok n = Except.ok (ε := Exc) n1 ∧ (some st).isSome = true ∧
            (entry O s t.body.store t.id = none ∨ replace = true) ∧ Except.ok (ε := Err) () = .ok () ∧
            WF L (added t' start (s.setStore t.body.store (O.step st op).1)) ∧
            (added t' start (s.setStore t.body.store (O.step st op).1)).log = s.log ++ [.taskAdded t.id t.body.store] ∧
            (added t' start (s.setStore t.body.store (O.step st op).1)).stores.keys = s.stores.keys ∧
            Frame { s with woken := if start ∧ s.mode = .running then true else s.woken }
              (added t' start (s.setStore t.body.store (O.step st op).1)) ∧
            (added t' start (s.setStore t.body.store (O.step st op).1)).instances = s.instances ∧
            ∀ b j, entry O (added t' start (s.setStore t.body.store (O.step st op).1)) b j =
              put O s t.body.store t.id (some { t with nrt := n1, body := { t.body with pending := false } }) b j := by
        intro op q1 q2 q3
        obtain ⟨a1, a2, a3, a4⟩ := hadded t' (O.step st op).1
        refine ⟨n, rfl, rfl, q3, rfl, q1.congr a1, by rw [a2, hid, hst], ?_, a3, a4, fun b j => ?_⟩
        · rw [a1]; exact Dict.keys_set_of_mem hg
        · rw [entry_look, a1, ← entry_look, q2, hid, ht']
      cases hm : L.toMap st t.id with
      | none =>
        obtain ⟨h1, h2, h3⟩ := store_add L hw hg (t := t') (by rw [hid]; exact hm)
        have hen : entry O s t.body.store t.id = none := by rw [entry_eq L hw hg, hm]
        have := ok (.add t') h2 h3 (.inl hen)
        cases hs : O.step st (.add t') with
        | mk st' r =>
          rw [hs] at h1 this
          simp only at h1
          subst h1
          exact .inr this
      | some u =>
        have hen : entry O s t.body.store t.id = some u := by rw [entry_eq L hw hg, hm]
        have h1 := (L.add_conflict hi (t := t') (u := u) (by rw [hid]; exact hm)).1
        cases hs : O.step st (.add t') with
        | mk st' r =>
          rw [hs] at h1
          simp only at h1
          subst h1
          simp only []
          cases hrep : replace with
          | false =>
            refine .inl ⟨by simp, .inr (.inr ⟨rfl, ?_, by simp⟩)⟩
            rw [hen]; rfl
          | true =>
            obtain ⟨h1, h2, h3⟩ := store_update L hw hg (t := t') (u := u) (by rw [hid]; exact hm)
            have := ok (.update t') h2 h3 (.inr hrep)
            cases hs2 : O.step st (.update t') with
            | mk st2 r2 =>
              rw [hs2] at h1 this
              simp only at h1
              subst h1
              simp only [if_true]
              rw [hrep] at this
              exact .inr (by simpa using this)

theorem wf_realAddTask {L : LawfulStore O} {s : State σ τ φ} (hw : WF L s) (e : Env τ) (t : T τ φ)
    (replace start : Bool) (minD : Option Int) : WF L (realAddTask O e t replace start minD s).1 := by
  rcases realAddTask_spec L hw e t replace start minD with h | ⟨n, h⟩
  · rw [h.1]; exact hw
  · exact h.2.2.2.2.1

theorem wf_addPending {L : LawfulStore O} (e : Env τ) (minD : Option Int) (ps : List (T τ φ × Bool × Bool))
    {s : State σ τ φ} (hw : WF L s) : WF L (addPending O e minD ps s).1 := by
  induction ps generalizing s with
  | nil => exact hw
  | cons p ps ih =>
    obtain ⟨t, replace, start⟩ := p
    have := wf_realAddTask hw e t replace start minD
    simp only [addPending]
    split <;> rename_i hd <;> rw [hd] at this
    · exact ih this
    · exact ih this
    · exact this

theorem wf_addStore {L : LawfulStore O} {s : State σ τ φ} (hw : WF L s) {st : σ} (hi : L.Inv st) (a : String) :
    WF L (addStore st a s).1 := by
  simp only [addStore]
  split
  · exact hw
  · refine WF.congr (s := s.setStore a st) (wf_iff.2 ((wf_iff.1 hw).set hi)) ?_
    rw [stores_wakeIfRunning]; rfl

theorem stores_addExecutor (x : Nat) (a : String) (s : State σ τ φ) : (addExecutor x a s).1.stores = s.stores := by
  simp only [addExecutor]; split <;> rfl

theorem wf_withDefaults {L : LawfulStore O} {s : State σ τ φ} (hw : WF L s) (c : Cfg τ) : WF L (withDefaults O c s) :=
  wf_addStore (hw.congr (stores_addExecutor _ _ _)) L.init_inv _

theorem wf_start {L : LawfulStore O} {s : State σ τ φ} (hw : WF L s) (c : Cfg τ) (e : Env τ) (paused : Bool) :
    WF L (start O c e paused s).1 := by
  simp only [start]
  split
  · exact hw.congr rfl
  · split
    · exact hw.congr rfl
    · have := wf_addPending e (if c.lockPath then some (e.now + c.startupDelay) else none) s.pending
        (wf_withDefaults (s := { s with refs := s.refs + 1 }) (hw.congr rfl) c)
      split <;> rename_i hd <;> rw [hd] at this
      · exact this
      · refine this.congr ?_
        split <;> rfl

theorem inv_shutdownTasks (L : LawfulStore O) (c : Cfg τ) (a : String) (ts : List (T τ φ)) {st : σ} (hi : L.Inv st) :
    L.Inv (shutdownTasks O c a ts st).1 := by
  induction ts generalizing st with
  | nil => exact hi
  | cons t ts ih =>
    simp only [shutdownTasks]
    split
    · exact ih (L.step_inv hi _)
    · exact ih hi

theorem stores_shutdownStores (L : LawfulStore O) (c : Cfg τ) {d : Dict String σ} (hd : Stores L d) :
    Stores L (shutdownStores O c d).1 ∧ (shutdownStores O c d).1.keys = d.keys := by
  induction d with
  | nil => exact ⟨hd, rfl⟩
  | cons p d ih =>
    obtain ⟨a, st⟩ := p
    obtain ⟨h1, h2, h3⟩ := Stores.cons.1 hd
    obtain ⟨i1, i2⟩ := ih h3
    simp only [shutdownStores]
    refine ⟨Stores.cons.2 ⟨by rw [i2]; exact h1, L.close_inv (inv_shutdownTasks L c a _ h2), i1⟩, ?_⟩
    simp only [Dict.keys, List.map_cons] at i2 ⊢
    rw [i2]

theorem wf_shutdown {L : LawfulStore O} {s : State σ τ φ} (hw : WF L s) (c : Cfg τ) : WF L (shutdown O c s).1 := by
  simp only [shutdown]
  split
  · exact hw.congr rfl
  · split
    · exact hw.congr rfl
    · exact wf_iff.2 (stores_shutdownStores L c (wf_iff.1 hw)).1

/-- What `update_task` does on a scheduler that is not stopped. -/
theorem updateTask_spec (L : LawfulStore O) {s : State σ τ φ} (hw : WF L s) (hm : s.mode ≠ .stopped) (id : String)
    (store : Option String) (f : T τ φ → Option (T τ φ)) (hf : ∀ t t', f t = some t' → t'.id = t.id) :
    (findInStores O id store s.stores = none ∧ updateTask O id store f s = (s, .error (.lookup id))) ∨
    ∃ t a, findInStores O id store s.stores = some (t, a) ∧
      ((f t = none ∧ updateTask O id store f s = (s, .error .invalid)) ∨
       ∃ t', f t = some t' ∧ (updateTask O id store f s).2 = .ok t' ∧ WF L (updateTask O id store f s).1 ∧
        (updateTask O id store f s).1.log = s.log ++ [.taskModified id (some a)] ∧
        Frame { s with woken := if s.mode = .running then true else s.woken } (updateTask O id store f s).1 ∧
        (updateTask O id store f s).1.instances = s.instances ∧
        ∀ b j, entry O (updateTask O id store f s).1 b j = put O s a id (some t') b j) := by
  simp only [updateTask, lookupTask, if_neg hm]
  cases hfi : findInStores O id store s.stores with
  | none => exact .inl ⟨rfl, rfl⟩
  | some p =>
    obtain ⟨t, a⟩ := p
    refine .inr ⟨t, a, rfl, ?_⟩
    simp only [Option.map_some]
    cases hft : f t with
    | none => exact .inl ⟨rfl, rfl⟩
    | some t' =>
      simp only []
      obtain ⟨_, hl, _⟩ := findInStores_some L (wf_iff.1 hw) hfi
      obtain ⟨hid, st, hg, hi, hmap⟩ := look_id L (wf_iff.1 hw) hl
      have hid' : t'.id = id := by rw [hf t t' hft, hid]
      obtain ⟨h1, h2, h3⟩ := store_update L hw hg (t := t') (u := t) (by rw [hid']; exact hmap)
      rw [hg]
      simp only []
      cases hs : O.step st (.update t') with
      | mk st' r =>
        rw [hs] at h1 h2 h3
        simp only at h1 h2 h3
        subst h1
        refine .inr ⟨t', rfl, rfl, h2.congr (by rw [stores_wakeIfRunning]; rfl), ?_, ?_, ?_, ?_⟩
        · simp only [State.wakeIfRunning]; split <;> simp [State.emit, State.setStore, State.wake]
        · simp only [State.wakeIfRunning, State.emit, State.setStore, State.wake]
          by_cases hr : s.mode = .running
          · simp only [hr, if_true]; exact ⟨rfl, rfl, rfl, rfl, rfl, by simp⟩
          · simp only [hr, if_false]; exact ⟨rfl, rfl, rfl, rfl, rfl, by simp⟩
        · simp only [State.wakeIfRunning]; split <;> simp [State.emit, State.setStore, State.wake]
        · intro b j
          rw [entry_look, stores_wakeIfRunning, ← hid']
          exact h3 b j

theorem wf_updateTask {L : LawfulStore O} {s : State σ τ φ} (hw : WF L s) (id : String)
    (store : Option String) (f : T τ φ → Option (T τ φ)) : WF L (updateTask O id store f s).1 := by
  simp only [updateTask]
  cases hl : lookupTask O s id store with
  | none => exact hw
  | some p =>
    obtain ⟨t, loc⟩ := p
    simp only []
    cases f t with
    | none => exact hw
    | some t' =>
      cases loc with
      | none =>
        simp only []
        exact hw.congr (by rw [stores_wakeIfRunning]; rfl)
      | some a =>
        simp only []
        cases hg : s.stores.get? a with
        | none => exact hw
        | some st =>
          simp only []
          have := wf_setStore hw a (hw.inv _ _ hg) (.update t')
          cases hs : O.step st (.update t') with
          | mk st' r =>
            rw [hs] at this
            cases r with
            | ok => exact this.congr (by rw [stores_wakeIfRunning]; rfl)
            | conflict _ => exact this
            | notFound _ => exact this

theorem wf_rescheduleTask {L : LawfulStore O} {s : State σ τ φ} (hw : WF L s) (e : Env τ) (id : String)
    (store : Option String) (g : τ) : WF L (rescheduleTask O e id store g s).1 := by
  simp only [rescheduleTask]
  split
  · exact hw
  · exact wf_updateTask hw _ _ _

theorem wf_resumeTask {L : LawfulStore O} {s : State σ τ φ} (hw : WF L s) (e : Env τ) (id : String)
    (store : Option String) : WF L (resumeTask O e id store s).1 := by
  simp only [resumeTask]
  cases hl : lookupTask O s id store with
  | none => exact hw
  | some p =>
    obtain ⟨t, loc⟩ := p
    simp only []
    cases e.next 2 t.body.trigger none e.now with
    | error x => exact hw
    | ok n => cases n with
      | none =>
        simp only []
        have := wf_deleteTask hw t.id loc
        split <;> rename_i hd <;> rw [hd] at this <;> exact this
      | some n =>
        simp only []
        have := wf_updateTask hw id loc (fun t => some { t with nrt := some n })
        split <;> rename_i hd <;> rw [hd] at this <;> exact this

theorem wf_afterManualRun {L : LawfulStore O} {s : State σ τ φ} (hw : WF L s) (e : Env τ) (t : T τ φ) (a : String)
    (last : Int) (rf : Bool) : WF L (afterManualRun O e t a last rf s).1 := by
  simp only [afterManualRun]
  split
  · exact hw
  · split
    · have := wf_deleteTask hw t.id (some a)
      split <;> rename_i hd <;> rw [hd] at this <;> exact this
    · split
      · exact hw
      · rename_i st hg
        have := wf_setStore hw a (hw.inv _ _ hg)
        split <;> rename_i hs <;> (have h2 := congrArg Prod.fst hs; simp only at h2; rw [← h2]; exact this _)

theorem wf_runFound {L : LawfulStore O} {s : State σ τ φ} (hw : WF L s) (e : Env τ) (t : T τ φ) (a : String)
    (all : List Int) (force rf : Bool) : WF L (runFound O e t a all force rf s).1 := by
  simp only [runFound]
  split
  · exact hw
  · split
    · exact hw
    · generalize (if all = [] then ([e.now], 0) else coalesce t.body.coalesce all) = c
      have := wf_sendTask hw e t.body.executor a t c.1
      split <;> rename_i hd <;> rw [hd] at this
      · exact this.congr rfl
      · exact this
      · rename_i s'
        exact wf_afterManualRun (s := s'.emit _) (this.congr rfl) _ _ _ _ _

theorem wf_runTask {L : LawfulStore O} {s s' : State σ τ φ} (hw : WF L s) {e : Env τ} {fuel : Nat} {id : String}
    {store : Option String} {force rf : Bool} {r : Except Err (Option (T τ φ))}
    (h : runTask O e fuel id store force rf s = some (s', r)) : WF L s' := by
  simp only [runTask] at h
  split at h
  · cases h; exact hw
  · split at h
    · cases h; exact hw
    · split at h
      · cases h
      · cases h; exact hw
      · rename_i t a _ _ all _
        have := wf_runFound hw e t a all force rf
        simp only [Option.some.injEq] at h
        rw [h] at this; exact this

theorem stores_clear (L : LawfulStore O) (store : Option String) {d : Dict String σ} (hd : Stores L d) :
    Stores L (d.map fun p => if store = none ∨ store = some p.1 then (p.1, (O.step p.2 .clear).1) else p) ∧
    Dict.keys (d.map fun p => if store = none ∨ store = some p.1 then (p.1, (O.step p.2 .clear).1) else p) = d.keys ∧
    ∀ b j, look O (d.map fun p => if store = none ∨ store = some p.1 then (p.1, (O.step p.2 .clear).1) else p) b j =
      if store = none ∨ store = some b then none else look O d b j := by
  induction d with
  | nil => exact ⟨hd, rfl, fun b j => by simp [look, Dict.get?]⟩
  | cons p d ih =>
    obtain ⟨a, st⟩ := p
    obtain ⟨h1, h2, h3⟩ := Stores.cons.1 hd
    obtain ⟨i1, i2, i3⟩ := ih h3
    have hc := L.step_inv h2 .clear
    have hcm : L.toMap (O.step st .clear).1 = AMap.empty := by
      have := L.step_map h2 .clear
      simp only [specStep, Prod.mk.injEq] at this
      exact this.1
    simp only [List.map_cons]
    by_cases ha : store = none ∨ store = some a
    · simp only [if_pos ha]
      refine ⟨Stores.cons.2 ⟨by rw [i2]; exact h1, hc, i1⟩, by simp only [Dict.keys, List.map_cons] at i2 ⊢; rw [i2], ?_⟩
      intro b j
      by_cases hab : a = b
      · subst hab; rw [look_cons_eq, L.lookup hc, hcm, if_pos ha]; rfl
      · rw [look_cons_ne hab, look_cons_ne hab, i3]
    · simp only [if_neg ha]
      refine ⟨Stores.cons.2 ⟨by rw [i2]; exact h1, h2, i1⟩, by simp only [Dict.keys, List.map_cons] at i2 ⊢; rw [i2], ?_⟩
      intro b j
      by_cases hab : a = b
      · subst hab; rw [look_cons_eq, look_cons_eq, if_neg ha]
      · rw [look_cons_ne hab, look_cons_ne hab, i3]

theorem wf_removeAllTasks {L : LawfulStore O} {s : State σ τ φ} (hw : WF L s) (store : Option String) :
    WF L (removeAllTasks O store s) := by
  simp only [removeAllTasks]
  split
  · exact hw.congr rfl
  · exact wf_iff.2 (stores_clear L store (wf_iff.1 hw)).1

/-- every call keeps the stores in order -/
theorem wf_exec {L : LawfulStore O} {c : Cfg τ} {e : Env τ} {fuel : Nat} {k : Call σ τ φ} {s s' : State σ τ φ}
    (hw : WF L s) (hk : k.Ok L) (h : exec O c e fuel k s = some s') : WF L s' := by
  cases k with
  | addTask t nrt replace =>
    simp only [exec, Option.some.injEq] at h; subst h
    simp only [addTask]
    split
    · exact hw.congr rfl
    · exact wf_realAddTask hw _ _ _ _ _
  | start paused => simp only [exec, Option.some.injEq] at h; subst h; exact wf_start hw _ _ _
  | shutdown => simp only [exec, Option.some.injEq] at h; subst h; exact wf_shutdown hw _
  | pause =>
    simp only [exec, Option.some.injEq] at h; subst h
    simp only [pause]; split <;> exact hw.congr rfl
  | resume =>
    simp only [exec, Option.some.injEq] at h; subst h
    simp only [resume]; split <;> exact hw.congr rfl
  | update id store f => simp only [exec, Option.some.injEq] at h; subst h; exact wf_updateTask hw _ _ _
  | pauseTask id store => simp only [exec, Option.some.injEq] at h; subst h; exact wf_updateTask hw _ _ _
  | rescheduleTask id store g => simp only [exec, Option.some.injEq] at h; subst h; exact wf_rescheduleTask hw _ _ _ _
  | resumeTask id store => simp only [exec, Option.some.injEq] at h; subst h; exact wf_resumeTask hw _ _ _
  | runTask id store force rf =>
    simp only [exec] at h
    cases hr : runTask O e fuel id store force rf s with
    | none => rw [hr] at h; cases h
    | some p =>
      rw [hr] at h
      simp only [Option.map_some, Option.some.injEq] at h
      subst h
      exact wf_runTask hw (r := p.2) hr
  | deleteTask id store => simp only [exec, Option.some.injEq] at h; subst h; exact wf_deleteTask hw _ _
  | removeAllTasks store => simp only [exec, Option.some.injEq] at h; subst h; exact wf_removeAllTasks hw _
  | addExecutor x a =>
    simp only [exec, Option.some.injEq] at h; subst h; exact hw.congr (stores_addExecutor _ _ _)
  | removeExecutor a =>
    simp only [exec, Option.some.injEq] at h; subst h
    simp only [removeExecutor]; split <;> exact hw.congr rfl
  | addStore st a => simp only [exec, Option.some.injEq] at h; subst h; exact wf_addStore hw hk _
  | removeStore a =>
    simp only [exec, Option.some.injEq] at h; subst h
    simp only [removeStore]
    split
    · exact hw
    · exact wf_iff.2 ((wf_iff.1 hw).erase a)
  | tick =>
    simp only [exec] at h
    cases hr : tick O c e fuel s with
    | none => rw [hr] at h; cases h
    | some p =>
      rw [hr] at h
      simp only [Option.map_some, Option.some.injEq] at h
      subst h
      exact wf_tick hw (r := p.2) hr
  | timerFires => simp only [exec, Option.some.injEq] at h; subst h; exact hw.congr rfl
  | finishRun id => simp only [exec, Option.some.injEq] at h; subst h; exact hw.congr rfl

/-- the stores of every reachable scheduler are in order -/
theorem Reachable.wf {L : LawfulStore O} {c : Cfg τ} {s : State σ τ φ} (h : Reachable L c s) : WF L s := by
  induction h with
  | init => exact wf_iff.2 (Stores.nil L)
  | call hs hk h ih => exact wf_exec ih hk h

end Sched
end Asyncz
