import Verif.Lemmas.SchedRel
/-!
# A pass, whether or not it raises, only touches the tasks that are due
-/
namespace Asyncz
namespace Sched
variable {σ τ φ : Type} {O : StoreOps σ (Body τ φ)}

theorem submitted_append (a i : String) (l l' : List Obs) : submitted a i (l ++ l') = submitted a i l ++ submitted a i l' := by
  have : ∀ l l', sends a i (l ++ l') = sends a i l ++ sends a i l' := by
    intro l l'
    induction l with
    | nil => rfl
    | cons o l ih =>
      cases o <;> simp only [List.cons_append, sends] <;> try exact ih
      split <;> simp [ih]
  simp [submitted, this]

/-- `s'` comes from `s` by work on the tasks `ids` of store `a` -/
def Local (a : String) (ids : List String) (s s' : State σ τ φ) : Prop :=
  (∀ b, b ≠ a → s'.stores.get? b = s.stores.get? b) ∧
  ∃ l, s'.log = s.log ++ l ∧ ∀ b i, submitted b i l ≠ [] → b = a ∧ i ∈ ids

theorem Local.refl (a : String) (ids : List String) (s : State σ τ φ) : Local a ids s s :=
  ⟨fun _ _ => rfl, [], by simp, fun b i h => absurd rfl h⟩

theorem Local.trans {a : String} {ids : List String} {s s' s'' : State σ τ φ} (h : Local a ids s s')
    (h' : Local a ids s' s'') : Local a ids s s'' := by
  obtain ⟨h1, l, h2, h3⟩ := h
  obtain ⟨h1', l', h2', h3'⟩ := h'
  refine ⟨fun b hb => by rw [h1' b hb, h1 b hb], l ++ l', by rw [h2', h2, List.append_assoc], fun b i hs => ?_⟩
  rw [submitted_append] at hs
  by_cases hl : submitted b i l = []
  · exact h3' b i (fun hc => hs (by rw [hl, hc]; rfl))
  · exact h3 b i hl

theorem Local.mono {a : String} {ids ids' : List String} {s s' : State σ τ φ} (h : Local a ids s s')
    (hi : ∀ i ∈ ids, i ∈ ids') : Local a ids' s s' := by
  obtain ⟨h1, l, h2, h3⟩ := h
  exact ⟨h1, l, h2, fun b i hs => ⟨(h3 b i hs).1, hi _ (h3 b i hs).2⟩⟩

theorem deleteInStores_local (id a : String) (d : Dict String σ) (b : String) (hb : b ≠ a) :
    (deleteInStores O id (some a) d).1.get? b = d.get? b := by
  induction d with
  | nil => rfl
  | cons p d ih =>
    obtain ⟨x, st⟩ := p
    simp only [deleteInStores, Option.some.injEq, reduceCtorEq, false_or]
    by_cases hx : a = x
    · subst hx
      rw [if_pos rfl]
      split
      · simp [Dict.get?, hb.symm]
      · simp only [Dict.get?, hb.symm, if_false]; exact ih
    · rw [if_neg hx]
      simp only [Dict.get?]
      split
      · rfl
      · exact ih

theorem local_deleteTask (id a : String) (ids : List String) (s : State σ τ φ) :
    Local a ids s (deleteTask O id (some a) s).1 := by
  simp only [deleteTask]
  split
  · split
    · exact .refl _ _ _
    · exact ⟨fun _ _ => rfl, [.taskRemoved id _], rfl, fun b i h => absurd rfl h⟩
  · split
    · exact ⟨fun b hb => deleteInStores_local id a _ b hb, [], by simp, fun b i h => absurd rfl h⟩
    · exact ⟨fun b hb => deleteInStores_local id a _ b hb, [.taskRemoved id _], rfl, fun b i h => absurd rfl h⟩

theorem local_setStore (a : String) (ids : List String) (s : State σ τ φ) (st : σ) : Local a ids s (s.setStore a st) := by
  refine ⟨fun b hb => ?_, [], by simp [State.setStore], fun b i h => absurd rfl h⟩
  simp only [State.setStore, Dict.get?_set, if_neg hb]

theorem local_sendTask (e : Env τ) (ex a : String) (t : T τ φ) (times : List Int) (s : State σ τ φ) :
    Local a [t.id] s (sendTask e ex a t times s).1 := by
  simp only [sendTask]
  split
  · exact ⟨fun _ _ => rfl, [], by simp, fun b i h => absurd rfl h⟩
  · split
    · refine ⟨fun _ _ => rfl, [.send ex t.id a times], rfl, fun b i h => ?_⟩
      simp only [submitted, sends] at h
      split at h
      · rename_i hc; exact ⟨hc.1.symm, by simp [hc.2]⟩
      · exact absurd rfl h
    · exact ⟨fun _ _ => rfl, [], by simp, fun b i h => absurd rfl h⟩

theorem local_reschedule (e : Env τ) (a : String) (t : T τ φ) (last : Int) (ids : List String) (s : State σ τ φ) :
    Local a ids s (reschedule O e a t last s).1 := by
  simp only [reschedule]
  split
  · exact .refl _ _ _
  · split
    · exact .refl _ _ _
    · split <;> exact local_setStore _ _ _ _
  · exact local_deleteTask _ _ _ _

theorem local_processTask {e : Env τ} {fuel : Nat} {a : String} {t : T τ φ} {s s' : State σ τ φ}
    {r : Except Err (List Obs)} (h : processTask O e fuel a t s = some (s', r)) : Local a [t.id] s s' := by
  simp only [processTask] at h
  split at h
  · have := local_deleteTask (O := O) t.id a [t.id] s
    split at h <;> rename_i hd <;> rw [hd] at this <;> cases h <;> exact this
  · split at h
    · cases h
    · cases h; exact .refl _ _ _
    · rename_i all _
      split at h
      · cases h; exact .refl _ _ _
      · rename_i last _
        have h1 := local_sendTask e t.body.executor a t (coalesce t.body.coalesce all).1 s
        have h2 := h1.trans (local_reschedule (O := O) e a t last [t.id] _)
        split at h <;> rename_i hd <;> cases h
        · rw [hd] at h2; exact h2
        · rw [hd] at h2; exact h2

theorem local_processDue {e : Env τ} {fuel : Nat} {a : String} {ts : List (T τ φ)} {s s' : State σ τ φ}
    {r : Except Err (List Obs)} (h : processDue O e fuel a ts s = some (s', r)) : Local a (ts.map Task.id) s s' := by
  induction ts generalizing s s' r with
  | nil => cases h; exact .refl _ _ _
  | cons t ts ih =>
    simp only [processDue] at h
    split at h
    · cases h
    · rename_i hd; cases h; exact (local_processTask hd).mono (by simp)
    · rename_i hd
      have h1 := (local_processTask hd).mono (ids' := (t :: ts).map Task.id) (by simp)
      split at h
      · cases h
      · rename_i hd'; cases h; exact h1.trans ((ih hd').mono (by intro i hi; simp at hi ⊢; exact .inr hi))
      · rename_i hd'; cases h; exact h1.trans ((ih hd').mono (by intro i hi; simp at hi ⊢; exact .inr hi))

/-- submissions of a pass are of tasks that were due when it began -/
def DueOnly (O : StoreOps σ (Body τ φ)) (now : Int) (s s' : State σ τ φ) : Prop :=
  ∃ l, s'.log = s.log ++ l ∧ ∀ b i, submitted b i l ≠ [] → ∃ t r, entry O s b i = some t ∧ t.nrt = some r ∧ r ≤ now

theorem processStore_dueOnly (L : LawfulStore O) {c : Cfg τ} {e : Env τ} {fuel : Nat} {a : String} {w : Option Int}
    {s s' : State σ τ φ} (hw : WF L s) {r : Except Err (List Obs × Option Int)}
    (h : processStore O c e fuel a w s = some (s', r)) :
    DueOnly O e.now s s' ∧ ∀ b, b ≠ a → s'.stores.get? b = s.stores.get? b := by
  simp only [processStore] at h
  split at h
  · cases h; exact ⟨⟨[], by simp, fun b i h => absurd rfl h⟩, fun _ _ => rfl⟩
  · rename_i st hg
    split at h
    · have key : ∀ s1 x, processDue O e fuel a (O.due st e.now) s = some (s1, x) →
          DueOnly O e.now s s1 ∧ ∀ b, b ≠ a → s1.stores.get? b = s.stores.get? b := by
        intro s1 x hd
        obtain ⟨h1, l, h2, h3⟩ := local_processDue hd
        refine ⟨⟨l, h2, fun b i hs => ?_⟩, h1⟩
        obtain ⟨rfl, hi⟩ := h3 b i hs
        obtain ⟨t, ht, rfl⟩ := List.mem_map.1 hi
        have hinv := hw.inv _ _ hg
        obtain ⟨hm, r, hr1, hr2⟩ := ((L.due hinv e.now).2 t).1 ht
        exact ⟨t, r, by simp [entry, hg, L.lookup hinv, hm], hr1, hr2⟩
      split at h
      · cases h
      · rename_i hd; cases h; exact key _ _ hd
      · rename_i hd; cases h; exact key _ _ hd
    · cases h; exact ⟨⟨[], by simp, fun b i h => absurd rfl h⟩, fun _ _ => rfl⟩

theorem processStores_dueOnly (L : LawfulStore O) {c : Cfg τ} {e : Env τ} {fuel : Nat} {as : List String} {w : Option Int}
    {s s' : State σ τ φ} (hw : WF L s) (hn : as.Nodup) {r : Except Err (List Obs × Option Int)}
    (h : processStores O c e fuel as w s = some (s', r)) :
    ∃ l, s'.log = s.log ++ l ∧
      ∀ b i, submitted b i l ≠ [] → b ∈ as ∧ ∃ t r, entry O s b i = some t ∧ t.nrt = some r ∧ r ≤ e.now := by
  have only : ∀ {a : String} {w : Option Int} {s s' : State σ τ φ}, WF L s → ∀ {r : Except Err (List Obs × Option Int)},
      processStore O c e fuel a w s = some (s', r) → ∃ l, s'.log = s.log ++ l ∧
        ∀ b i, submitted b i l ≠ [] → b = a ∧ ∃ t r, entry O s b i = some t ∧ t.nrt = some r ∧ r ≤ e.now := by
    intro a w s s' hw r h
    have h0 := h
    obtain ⟨⟨l, h1, h2⟩, _⟩ := processStore_dueOnly L hw h
    refine ⟨l, h1, fun b i hs => ⟨?_, h2 b i hs⟩⟩
    simp only [processStore] at h0
    split at h0
    · cases h0
      have : l = [] := by simpa using h1
      subst this; exact absurd rfl hs
    · split at h0
      · have key : ∀ s1 x st, processDue O e fuel a (O.due st e.now) s = some (s1, x) → s1 = s' → b = a := by
          rintro s1 x st hd rfl
          obtain ⟨_, l', h2', h3'⟩ := local_processDue hd
          rw [h1, List.append_cancel_left_eq] at h2'
          subst h2'
          exact (h3' b i hs).1
        split at h0
        · cases h0
        · rename_i hd; cases h0; exact key _ _ _ hd rfl
        · rename_i hd; cases h0; exact key _ _ _ hd rfl
      · cases h0
        have : l = [] := by simpa using h1
        subst this; exact absurd rfl hs
  induction as generalizing s s' r w with
  | nil => cases h; exact ⟨[], by simp, fun b i h => absurd rfl h⟩
  | cons a as ih =>
    simp only [processStores] at h
    obtain ⟨hna, hn⟩ := List.nodup_cons.1 hn
    split at h
    · cases h
    · rename_i hd
      cases h
      obtain ⟨l, h1, h2⟩ := only hw hd
      exact ⟨l, h1, fun b i hs => ⟨by rw [(h2 b i hs).1]; exact List.mem_cons_self .., (h2 b i hs).2⟩⟩
    · rename_i s1 q hd
      obtain ⟨l, h1, h2⟩ := only hw hd
      have h3 := (processStore_dueOnly L hw hd).2
      have hw1 := wf_processStore hw hd
      have glue : ∀ {s2 : State σ τ φ} {x : Except Err (List Obs × Option Int)},
          processStores O c e fuel as q.2 s1 = some (s2, x) → ∃ l, s2.log = s.log ++ l ∧
          ∀ b i, submitted b i l ≠ [] → b ∈ a :: as ∧ ∃ t r, entry O s b i = some t ∧ t.nrt = some r ∧ r ≤ e.now := by
        intro s2 x hd'
        obtain ⟨l', h1', h2'⟩ := ih hw1 hn hd'
        refine ⟨l ++ l', by rw [h1', h1, List.append_assoc], fun b i hs => ?_⟩
        rw [submitted_append] at hs
        by_cases hl : submitted b i l = []
        · obtain ⟨hb, t, r, ht, hr⟩ := h2' b i (fun hc => hs (by rw [hl, hc]; rfl))
          have hba : b ≠ a := fun hc => hna (hc ▸ hb)
          refine ⟨List.mem_cons_of_mem _ hb, t, r, ?_, hr⟩
          simp only [entry, h3 b hba] at ht
          exact ht
        · obtain ⟨rfl, h4⟩ := h2 b i hl
          exact ⟨List.mem_cons_self .., h4⟩
      split at h
      · cases h
      · rename_i hd'; cases h; exact glue hd'
      · rename_i hd'; cases h; exact glue hd'

end Sched
end Asyncz
