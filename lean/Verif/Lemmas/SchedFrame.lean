import Verif.Lemmas.SchedLocal
/-!
# A pass, whether or not it raises, leaves every task alone that is not due
-/
namespace Asyncz
namespace Sched
variable {σ τ φ : Type} {O : StoreOps σ (Body τ φ)}

/-- the tasks of `s'` are those of `s`, except perhaps the tasks `ids` of store `a` -/
def Apart (O : StoreOps σ (Body τ φ)) (a : String) (ids : List String) (s s' : State σ τ φ) : Prop :=
  ∀ b j, ¬ (b = a ∧ j ∈ ids) → entry O s' b j = entry O s b j

theorem Apart.refl (a : String) (ids : List String) (s : State σ τ φ) : Apart O a ids s s := fun _ _ _ => rfl

theorem Apart.trans {a : String} {ids : List String} {s s' s'' : State σ τ φ} (h : Apart O a ids s s')
    (h' : Apart O a ids s' s'') : Apart O a ids s s'' := fun b j hn => by rw [h' b j hn, h b j hn]

theorem Apart.mono {a : String} {ids ids' : List String} {s s' : State σ τ φ} (h : Apart O a ids s s')
    (hi : ∀ i ∈ ids, i ∈ ids') : Apart O a ids' s s' := fun b j hn => h b j fun hc => hn ⟨hc.1, hi _ hc.2⟩

theorem apart_deleteTask (L : LawfulStore O) {s : State σ τ φ} (hw : WF L s) (id a : String) :
    Apart O a [id] s (deleteTask O id (some a) s).1 := by
  intro b j hn
  have hn' : ¬ (b = a ∧ j = id) := by simpa using hn
  by_cases hm : s.mode = .stopped
  · simp only [deleteTask, if_pos hm]
    split <;> rfl
  · rcases deleteTask_spec L hw hm id (some a) with ⟨_, _, _, _, _, _, h⟩ | ⟨t, a', hf, _, _, _, _, _, h⟩
    · exact h b j
    · have ha : a' = a := by
        have := (findInStores_some L (wf_iff.1 hw) hf).1
        simpa [Admits, eq_comm] using this
      subst ha
      rw [h, put, if_neg hn']

theorem apart_update (L : LawfulStore O) {s : State σ τ φ} (hw : WF L s) {a : String} {st : σ}
    (hg : s.stores.get? a = some st) (t : T τ φ) : Apart O a [t.id] s (s.setStore a (O.step st (.update t)).1) := by
  intro b j hn
  have hn' : ¬ (b = a ∧ j = t.id) := by simpa using hn
  have hi := hw.inv _ _ hg
  have h3 := L.step_inv hi (.update t)
  rw [entry_look, entry_look]
  simp only [State.setStore]
  rw [look_set L h3]
  by_cases hb : b = a
  · subst hb
    have hj : j ≠ t.id := fun h => hn' ⟨rfl, h⟩
    rw [if_pos rfl]
    have hm : L.toMap (O.step st (.update t)).1 = (specStep (L.upsert st) (L.toMap st) (.update t)).1 := by
      rw [← L.step_map hi]
    rw [hm]
    simp only [look, hg, Option.bind_some, L.lookup hi]
    simp only [specStep]
    split
    · simp [AMap.set, hj]
    · split
      · simp [AMap.set, hj]
      · rfl
  · rw [if_neg hb]

theorem apart_same {a : String} {ids : List String} {s s' : State σ τ φ} (h : s'.stores = s.stores) : Apart O a ids s s' :=
  fun b j _ => by simp [entry, h]

theorem stores_sendTask (e : Env τ) (ex a : String) (t : T τ φ) (times : List Int) (s : State σ τ φ) :
    (sendTask e ex a t times s).1.stores = s.stores := by
  simp only [sendTask]
  split
  · rfl
  · split <;> rfl

theorem apart_reschedule (L : LawfulStore O) {s : State σ τ φ} (hw : WF L s) (e : Env τ) (a : String) (t : T τ φ)
    (last : Int) : Apart O a [t.id] s (reschedule O e a t last s).1 := by
  simp only [reschedule]
  split
  · exact .refl _ _ _
  · split
    · exact .refl _ _ _
    · rename_i n _ _ st hg
      have := apart_update L hw hg { t with nrt := some n }
      split <;> rename_i hd <;> rw [hd] at this <;> exact this
  · exact apart_deleteTask L hw _ _

theorem apart_processTask (L : LawfulStore O) {e : Env τ} {fuel : Nat} {a : String} {t : T τ φ} {s s' : State σ τ φ}
    (hw : WF L s) {r : Except Err (List Obs)} (h : processTask O e fuel a t s = some (s', r)) :
    Apart O a [t.id] s s' := by
  simp only [processTask] at h
  split at h
  · have := apart_deleteTask L hw t.id a
    split at h <;> rename_i hd <;> rw [hd] at this <;> cases h <;> exact this
  · split at h
    · cases h
    · cases h; exact .refl _ _ _
    · rename_i all _
      split at h
      · cases h; exact .refl _ _ _
      · rename_i last _
        have hs := stores_sendTask e t.body.executor a t (coalesce t.body.coalesce all).1 s
        have h2 := (apart_same (O := O) (a := a) (ids := [t.id]) hs).trans
          (apart_reschedule L (hw.congr hs) e a t last)
        split at h <;> rename_i hd <;> cases h
        · rw [hd] at h2; exact h2
        · rw [hd] at h2; exact h2

theorem apart_processDue (L : LawfulStore O) {e : Env τ} {fuel : Nat} {a : String} {ts : List (T τ φ)}
    {s s' : State σ τ φ} (hw : WF L s) {r : Except Err (List Obs)}
    (h : processDue O e fuel a ts s = some (s', r)) : Apart O a (ts.map Task.id) s s' := by
  induction ts generalizing s s' r with
  | nil => cases h; exact .refl _ _ _
  | cons t ts ih =>
    simp only [processDue] at h
    split at h
    · cases h
    · rename_i hd; cases h; exact (apart_processTask L hw hd).mono (by simp)
    · rename_i hd
      have h1 := (apart_processTask L hw hd).mono (ids' := (t :: ts).map Task.id) (by simp)
      have hw1 := wf_processTask hw hd
      split at h
      · cases h
      · rename_i hd'; cases h; exact h1.trans ((ih hw1 hd').mono (by intro i hi; simp at hi ⊢; exact .inr hi))
      · rename_i hd'; cases h; exact h1.trans ((ih hw1 hd').mono (by intro i hi; simp at hi ⊢; exact .inr hi))

/-- the task `j` of store `b` is not due at `now` -/
def Later (O : StoreOps σ (Body τ φ)) (now : Int) (s : State σ τ φ) (b j : String) : Prop :=
  ∀ t, entry O s b j = some t → ¬ Due now t

theorem apart_processStore (L : LawfulStore O) {c : Cfg τ} {e : Env τ} {fuel : Nat} {a : String} {w : Option Int}
    {s s' : State σ τ φ} (hw : WF L s) {r : Except Err (List Obs × Option Int)}
    (h : processStore O c e fuel a w s = some (s', r)) (b j : String) (hb : Later O e.now s b j) :
    entry O s' b j = entry O s b j := by
  simp only [processStore] at h
  split at h
  · cases h; rfl
  · rename_i st hg
    split at h
    · have key : ∀ s1 x, processDue O e fuel a (O.due st e.now) s = some (s1, x) →
          entry O s1 b j = entry O s b j := by
        intro s1 x hd
        refine apart_processDue L hw hd b j ?_
        rintro ⟨rfl, hj⟩
        obtain ⟨t, ht, rfl⟩ := List.mem_map.1 hj
        have hinv := hw.inv _ _ hg
        obtain ⟨hm, hd⟩ := ((L.due hinv e.now).2 t).1 ht
        exact hb t (by simp [entry, hg, L.lookup hinv, hm]) hd
      split at h
      · cases h
      · rename_i hd; cases h; exact key _ _ hd
      · rename_i hd; cases h; exact key _ _ hd
    · cases h; rfl

theorem apart_processStores (L : LawfulStore O) {c : Cfg τ} {e : Env τ} {fuel : Nat} {as : List String} {w : Option Int}
    {s s' : State σ τ φ} (hw : WF L s) {r : Except Err (List Obs × Option Int)}
    (h : processStores O c e fuel as w s = some (s', r)) (b j : String) (hb : Later O e.now s b j) :
    entry O s' b j = entry O s b j := by
  induction as generalizing s s' r w with
  | nil => cases h; rfl
  | cons a as ih =>
    simp only [processStores] at h
    split at h
    · cases h
    · rename_i hd; cases h; exact apart_processStore L hw hd b j hb
    · rename_i s1 q hd
      have h1 := apart_processStore L hw hd b j hb
      have hw1 := wf_processStore hw hd
      have hb1 : Later O e.now s1 b j := fun t ht => hb t (by rw [← h1, ht])
      split at h
      · cases h
      · rename_i hd'; cases h; rw [ih hw1 hd' hb1, h1]
      · rename_i hd'; cases h; rw [ih hw1 hd' hb1, h1]

theorem apart_processTasks (L : LawfulStore O) {c : Cfg τ} {e : Env τ} {fuel : Nat} {s s' : State σ τ φ} (hw : WF L s)
    {r : Except Err (Option Int)} (h : processTasks O c e fuel s = some (s', r)) (b j : String)
    (hb : Later O e.now s b j) : entry O s' b j = entry O s b j := by
  simp only [processTasks] at h
  split at h
  · cases h; rfl
  · split at h
    · split at h
      · cases h
      · rename_i hd; cases h; exact apart_processStores L hw hd b j hb
      · rename_i hd; cases h; exact apart_processStores L hw hd b j hb
    · cases h; rfl

theorem apart_tick (L : LawfulStore O) {c : Cfg τ} {e : Env τ} {fuel : Nat} {s s' : State σ τ φ} (hw : WF L s)
    {r : Except Err Unit} (h : tick O c e fuel s = some (s', r)) (b j : String)
    (hb : Later O e.now s b j) : entry O s' b j = entry O s b j := by
  have hw0 : WF L ({ s with woken := false, timer := none } : State σ τ φ) := hw.congr rfl
  simp only [tick] at h
  split at h
  · cases h
  · rename_i hd; cases h; exact apart_processTasks L hw0 hd b j hb
  · rename_i hd; cases h; exact apart_processTasks L hw0 hd b j hb

end Sched
end Asyncz
