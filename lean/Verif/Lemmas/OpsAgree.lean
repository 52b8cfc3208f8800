import Verif.Lemmas.SchedLocal
import Verif.Model.Crash
/-!
# Two implementations of the stores that agree on what a scheduler uses

If two kinds of store agree on accepted ids and on the due tasks of stores whose tasks are all of a certain form, then a scheduler
does the same on both.
-/
namespace Asyncz
namespace Sched
variable {σ τ φ : Type} {O O' : StoreOps σ (Body τ φ)}

/-- `O` does what `O'` does, for ids that the store accepts (`idOk`) and stores all of whose tasks are such that the store finds
them when they are due (`ok`). -/
structure Agree (O O' : StoreOps σ (Body τ φ)) (L : LawfulStore O') (idOk : σ → String → Prop) (ok : σ → T τ φ → Prop) : Prop where
  init : O.init = O'.init
  nextRun : ∀ st, O.nextRun st = O'.nextRun st
  add : ∀ st (t : T τ φ), idOk st t.id → O.step st (.add t) = O'.step st (.add t)
  update : ∀ st (t : T τ φ), idOk st t.id → O.step st (.update t) = O'.step st (.update t)
  delete : ∀ st id, idOk st id → O.step st (.delete id) = O'.step st (.delete id)
  stable : ∀ st op i, idOk (O'.step st op).1 i ↔ idOk st i
  lookup : ∀ st id, idOk st id → O.lookup st id = O'.lookup st id
  ok_id : ∀ st t, ok st t → idOk st t.id
  due : ∀ st now, L.Inv st → (∀ i t, L.toMap st i = some t → ok st t) → O.due st now = O'.due st now

variable {L : LawfulStore O'} {idOk : σ → String → Prop} {ok : σ → T τ φ → Prop}

/-- the store `a` accepts the id -/
def IdOk (idOk : σ → String → Prop) (s : State σ τ φ) (a id : String) : Prop := ∀ st, s.stores.get? a = some st → idOk st id

/-- the stores of `s'` are of the same kinds as those of `s` -/
def Kinds (idOk : σ → String → Prop) (s s' : State σ τ φ) : Prop :=
  ∀ a st', s'.stores.get? a = some st' → ∃ st, s.stores.get? a = some st ∧ ∀ i, idOk st' i ↔ idOk st i

theorem Kinds.refl (s : State σ τ φ) : Kinds idOk s s := fun _ st h => ⟨st, h, fun _ => Iff.rfl⟩

theorem Kinds.trans {s s' s'' : State σ τ φ} (h : Kinds idOk s s') (h' : Kinds idOk s' s'') : Kinds idOk s s'' := by
  intro a st hg
  obtain ⟨st1, h1, h2⟩ := h' a st hg
  obtain ⟨st2, h3, h4⟩ := h a st1 h1
  exact ⟨st2, h3, fun i => (h2 i).trans (h4 i)⟩

theorem kinds_idOk {s s' : State σ τ φ} (h : Kinds idOk s s') {a id : String} (hi : IdOk idOk s a id) : IdOk idOk s' a id := by
  intro st hg
  obtain ⟨st1, h1, h2⟩ := h a st hg
  exact (h2 id).2 (hi st1 h1)

theorem kinds_same {s s' : State σ τ φ} (h : s'.stores = s.stores) : Kinds idOk s s' := by
  intro a st hg; rw [h] at hg; exact ⟨st, hg, fun _ => Iff.rfl⟩

theorem kinds_set (hA : Agree O O' L idOk ok) {s : State σ τ φ} {a : String} {st : σ} (hg : s.stores.get? a = some st)
    (op : StoreOp (Body τ φ)) : Kinds idOk s (s.setStore a (O'.step st op).1) := by
  intro b st' hb
  simp only [State.setStore, Dict.get?_set] at hb
  split at hb
  · rename_i h; subst h; cases hb; exact ⟨st, hg, fun i => hA.stable st op i⟩
  · exact ⟨st', hb, fun _ => Iff.rfl⟩

theorem kinds_deleteInStores (hA : Agree O O' L idOk ok) (id : String) (store : Option String) (d : Dict String σ) (a : String) (st' : σ)
    (h : (deleteInStores O' id store d).1.get? a = some st') : ∃ st, d.get? a = some st ∧ ∀ i, idOk st' i ↔ idOk st i := by
  induction d with
  | nil => simp [deleteInStores, Dict.get?] at h
  | cons p d ih =>
    obtain ⟨x, st⟩ := p
    have hstep := hA.stable st (.delete id)
    simp only [deleteInStores] at h
    split at h
    · split at h <;> rename_i heq <;> rw [heq] at hstep <;> simp only [Dict.get?] at h ⊢ <;> split at h
      · cases h; exact ⟨st, by simp_all, hstep⟩
      · exact ⟨st', by simp_all, fun _ => Iff.rfl⟩
      · cases h; exact ⟨st, by simp_all, hstep⟩
      · rename_i hx; rw [if_neg hx]; exact ih h
    · simp only [Dict.get?] at h ⊢
      split at h
      · cases h; exact ⟨_, by simp_all, fun _ => Iff.rfl⟩
      · rename_i hx; rw [if_neg hx]; exact ih h

theorem kinds_deleteTask (hA : Agree O O' L idOk ok) (id : String) (store : Option String) (s : State σ τ φ) :
    Kinds idOk s (deleteTask O' id store s).1 := by
  simp only [deleteTask]
  split
  · split
    · exact Kinds.refl _
    · exact kinds_same rfl
  · split <;> exact fun a st' h => kinds_deleteInStores hA id store s.stores a st' h

theorem kinds_passRel (hA : Agree O O' L idOk ok) (e : Env τ) : PassRel O' e (Kinds idOk) where
  refl := Kinds.refl
  trans := Kinds.trans
  del := kinds_deleteTask hA
  upd := fun _ _ _ _ _ hg _ => kinds_set hA hg _
  obs := fun _ _ _ _ => kinds_same rfl

theorem agree_deleteInStores (hA : Agree O O' L idOk ok) (id a : String) (d : Dict String σ) (h : ∀ st, (a, st) ∈ d → idOk st id) :
    deleteInStores O id (some a) d = deleteInStores O' id (some a) d := by
  induction d with
  | nil => rfl
  | cons p d ih =>
    obtain ⟨x, st⟩ := p
    have ih := ih fun st' h' => h st' (by simp [h'])
    simp only [deleteInStores, ih, Option.some.injEq, reduceCtorEq, false_or]
    by_cases hx : a = x
    · subst hx
      rw [hA.delete st id (h st (by simp))]
    · rw [if_neg hx, if_neg hx]

theorem agree_deleteTask (hA : Agree O O' L idOk ok) (id a : String) {s : State σ τ φ} (hk : s.stores.WF) (h : IdOk idOk s a id) :
    deleteTask O id (some a) s = deleteTask O' id (some a) s := by
  simp only [deleteTask, agree_deleteInStores hA id a s.stores fun st hm => h st (Dict.get?_of_mem hk hm)]

theorem agree_reschedule (hA : Agree O O' L idOk ok) (e : Env τ) (a : String) (t : T τ φ) (last : Int) {s : State σ τ φ}
    (hk : s.stores.WF) (h : IdOk idOk s a t.id) : reschedule O e a t last s = reschedule O' e a t last s := by
  simp only [reschedule, agree_deleteTask hA t.id a hk h]
  cases e.next 1 t.body.trigger (some last) e.now with
  | error x => rfl
  | ok n =>
    cases n with
    | none => rfl
    | some n =>
      cases hg : s.stores.get? a with
      | none => rfl
      | some st => simp only [hA.update st { t with nrt := some n } (h st hg)]

theorem agree_processTask (hA : Agree O O' L idOk ok) (e : Env τ) (fuel : Nat) (a : String) (t : T τ φ) {s : State σ τ φ}
    (hk : s.stores.WF) (h : IdOk idOk s a t.id) : processTask O e fuel a t s = processTask O' e fuel a t s := by
  have hs : ∀ ts, (sendTask e t.body.executor a t ts s).1.stores = s.stores := by
    intro ts; simp only [sendTask]; split
    · rfl
    · split <;> rfl
  have hr : ∀ ts last, reschedule O e a t last (sendTask e t.body.executor a t ts s).1 =
      reschedule O' e a t last (sendTask e t.body.executor a t ts s).1 :=
    fun ts last => agree_reschedule hA e a t last (by rw [hs]; exact hk) (by intro st hg; rw [hs] at hg; exact h st hg)
  simp only [processTask, agree_deleteTask hA t.id a hk h, hr]

theorem agree_processDue (hA : Agree O O' L idOk ok) (e : Env τ) (fuel : Nat) (a : String) (ts : List (T τ φ)) {s : State σ τ φ}
    (hw : WF L s) (h : ∀ t ∈ ts, IdOk idOk s a t.id) : processDue O e fuel a ts s = processDue O' e fuel a ts s := by
  induction ts generalizing s with
  | nil => rfl
  | cons t ts ih =>
    simp only [processDue, agree_processTask hA e fuel a t hw.keys (h t (by simp))]
    cases hp : processTask O' e fuel a t s with
    | none => rfl
    | some p =>
      obtain ⟨s1, r⟩ := p
      cases r with
      | error x => rfl
      | ok evs =>
        have := ih (wf_processTask hw hp) fun u hu => kinds_idOk (rel_processTask (kinds_passRel hA e) hp) (h u (by simp [hu]))
        simp only [this]

/-- every task of the store can be used there -/
def StoreOk (L : LawfulStore O') (ok : σ → T τ φ → Prop) (st : σ) : Prop := ∀ i t, L.toMap st i = some t → ok st t

theorem agree_due (hA : Agree O O' L idOk ok) {s : State σ τ φ} (hw : WF L s) {a : String} {st : σ} (hg : s.stores.get? a = some st)
    (h : StoreOk L ok st) (now : Int) : O.due st now = O'.due st now ∧ ∀ t ∈ O'.due st now, IdOk idOk s a t.id := by
  refine ⟨hA.due st now (hw.inv a st hg) h, fun t ht st' hg' => ?_⟩
  rw [hg] at hg'; cases hg'
  exact hA.ok_id st t (h _ t (((L.due (hw.inv a st hg) now).2 t).1 ht).1)

theorem agree_processStore (hA : Agree O O' L idOk ok) (c : Cfg τ) (e : Env τ) (fuel : Nat) (a : String) (w : Option Int)
    {s : State σ τ φ} (hw : WF L s) (h : ∀ st, s.stores.get? a = some st → StoreOk L ok st) :
    processStore O c e fuel a w s = processStore O' c e fuel a w s := by
  simp only [processStore]
  cases hg : s.stores.get? a with
  | none => rfl
  | some st =>
    obtain ⟨h1, h2⟩ := agree_due hA hw hg (h st hg) e.now
    have hn : O.nextRun = O'.nextRun := funext hA.nextRun
    simp only [h1, agree_processDue hA e fuel a _ hw h2, hn]

theorem agree_processStores (hA : Agree O O' L idOk ok) (c : Cfg τ) (e : Env τ) (fuel : Nat) (as : List String) (hn : as.Nodup)
    (w : Option Int) {s : State σ τ φ} (hw : WF L s) (h : ∀ a ∈ as, ∀ st, s.stores.get? a = some st → StoreOk L ok st) :
    processStores O c e fuel as w s = processStores O' c e fuel as w s := by
  induction as generalizing s w with
  | nil => rfl
  | cons a as ih =>
    simp only [processStores, agree_processStore hA c e fuel a w hw (h a (by simp))]
    cases hp : processStore O' c e fuel a w s with
    | none => rfl
    | some p =>
      obtain ⟨s1, r⟩ := p
      cases r with
      | error x => rfl
      | ok q =>
        have hloc := (processStore_dueOnly L hw hp).2
        have := ih (List.nodup_cons.1 hn).2 q.2 (wf_processStore hw hp) fun b hb st hg => by
          rw [hloc b (fun he => (List.nodup_cons.1 hn).1 (he ▸ hb))] at hg
          exact h b (by simp [hb]) st hg
        simp only [this]

/-- all the scheduler's stores are of tasks that can be used there -/
def AllOk (L : LawfulStore O') (ok : σ → T τ φ → Prop) (s : State σ τ φ) : Prop :=
  ∀ a st, s.stores.get? a = some st → StoreOk L ok st

theorem agree_processTasks (hA : Agree O O' L idOk ok) (c : Cfg τ) (e : Env τ) (fuel : Nat) {s : State σ τ φ} (hw : WF L s)
    (h : AllOk L ok s) : processTasks O c e fuel s = processTasks O' c e fuel s := by
  simp only [processTasks, agree_processStores hA c e fuel s.stores.keys hw.keys none hw fun a _ st hg => h a st hg]

theorem agree_crashPass (hA : Agree O O' L idOk ok) (c : Cfg τ) (e : Env τ) (fuel : Nat) (p : Point) {s : State σ τ φ} (hw : WF L s)
    (h : AllOk L ok s) : crashPass O c e fuel p s = crashPass O' c e fuel p s := by
  have hnd : (s.stores.keys.take p.stores).Nodup := List.Nodup.sublist (List.take_sublist _ _) hw.keys
  simp only [crashPass, agree_processStores hA c e fuel _ hnd none hw fun a _ st hg => h a st hg]
  cases hp : processStores O' c e fuel (s.stores.keys.take p.stores) none s with
  | none => rfl
  | some q =>
    obtain ⟨s1, r⟩ := q
    cases r with
    | error x => rfl
    | ok q =>
      cases hk : s.stores.keys[p.stores]? with
      | none => rfl
      | some a =>
        have hw1 := wf_processStores hw hp
        have hst : ∀ st, s1.stores.get? a = some st → StoreOk L ok st := by
          intro st hg
          have hne : a ∉ s.stores.keys.take p.stores := by
            intro hm
            obtain ⟨i, hi, hia⟩ := List.getElem_of_mem hm
            obtain ⟨hj, hja⟩ := List.getElem?_eq_some_iff.1 hk
            rw [List.getElem_take] at hia
            have hlt : i < p.stores := by rw [List.length_take] at hi; omega
            have := (List.pairwise_iff_getElem.1 hw.keys) i p.stores (Nat.lt_trans hlt hj) hj hlt
            exact this (hia.trans hja.symm)
          have key : ∀ (as : List String) (w : Option Int) (s s' : State σ τ φ) r, WF L s → a ∉ as →
              processStores O' c e fuel as w s = some (s', r) → s'.stores.get? a = s.stores.get? a := by
            intro as
            induction as with
            | nil => intro w s s' r _ _ h; cases h; rfl
            | cons b as ih =>
              intro w s s' r hw hn h
              simp only [processStores] at h
              have hab : a ≠ b := fun he => hn (by simp [he])
              have hn' : a ∉ as := fun he => hn (by simp [he])
              split at h
              · cases h
              · rename_i hd; cases h; exact (processStore_dueOnly L hw hd).2 a hab
              · rename_i hd
                have h1 := (processStore_dueOnly L hw hd).2 a hab
                have hw1 := wf_processStore hw hd
                split at h
                · cases h
                · rename_i hd'; cases h; rw [ih _ _ _ _ hw1 hn' hd', h1]
                · rename_i hd'; cases h; rw [ih _ _ _ _ hw1 hn' hd', h1]
          rw [key _ _ _ _ _ hw hne hp] at hg
          exact h a st hg
        simp only [crashStore]
        cases hg : s1.stores.get? a with
        | none => rfl
        | some st =>
          obtain ⟨h1, h2⟩ := agree_due hA hw1 hg (hst st hg) e.now
          simp only [h1, agree_processDue hA e fuel a ((O'.due st e.now).take p.tasks) hw1
            fun t ht => h2 t (List.mem_of_mem_take ht)]

theorem agree_realAddTask (hA : Agree O O' L idOk ok) (e : Env τ) (t : T τ φ) (replace start : Bool) (minD : Option Int)
    {s : State σ τ φ} (h : IdOk idOk s t.body.store t.id) :
    realAddTask O e t replace start minD s = realAddTask O' e t replace start minD s ∧
      Kinds idOk s (realAddTask O' e t replace start minD s).1 := by
  simp only [realAddTask]
  cases firstTime e t start minD with
  | error x => exact ⟨rfl, Kinds.refl _⟩
  | ok n =>
    cases hg : s.stores.get? t.body.store with
    | none => exact ⟨rfl, Kinds.refl _⟩
    | some st =>
      simp only []
      have hi := h st hg
      constructor
      · simp only [hA.add st { t with nrt := n, body := { t.body with pending := false } } hi,
          hA.update st { t with nrt := n, body := { t.body with pending := false } } hi]
      · have hset := fun op => kinds_set hA hg op
        have hadd : ∀ (s' : State σ τ φ) (u : T τ φ) b, Kinds idOk s s' → Kinds idOk s (added u b s') := by
          intro s' u b hk
          simp only [added, State.wakeIfRunning]
          split
          · split <;> exact hk.trans (kinds_same rfl)
          · exact hk.trans (kinds_same rfl)
        split
        · rename_i heq
          have := hset (.add { t with nrt := n, body := { t.body with pending := false } })
          rw [heq] at this
          exact hadd _ _ _ this
        · split
          · split
            · rename_i heq
              have := hset (.update { t with nrt := n, body := { t.body with pending := false } })
              rw [heq] at this
              exact hadd _ _ _ this
            · rename_i heq
              have := hset (.update { t with nrt := n, body := { t.body with pending := false } })
              rw [heq] at this
              exact this
          · exact Kinds.refl _

theorem agree_addTask (hA : Agree O O' L idOk ok) (e : Env τ) (t : T τ φ) (nrt : Option (Option Int)) (replace : Bool)
    {s : State σ τ φ} (h : IdOk idOk s t.body.store t.id) : addTask O e t nrt replace s = addTask O' e t nrt replace s := by
  simp only [addTask]
  rw [(agree_realAddTask hA e { t with nrt := nrt.getD t.nrt } replace _ none h).1]

theorem agree_addPending (hA : Agree O O' L idOk ok) (e : Env τ) (minD : Option Int) (ps : List (T τ φ × Bool × Bool))
    {s : State σ τ φ} (h : ∀ p ∈ ps, IdOk idOk s p.1.body.store p.1.id) : addPending O e minD ps s = addPending O' e minD ps s := by
  induction ps generalizing s with
  | nil => rfl
  | cons p ps ih =>
    obtain ⟨t, replace, start⟩ := p
    obtain ⟨h1, h2⟩ := agree_realAddTask hA e t replace start minD (h (t, replace, start) (by simp))
    have h3 := ih (s := (realAddTask O' e t replace start minD s).1) fun q hq => kinds_idOk h2 (h q (by simp [hq]))
    simp only [addPending, h1]
    cases hr : realAddTask O' e t replace start minD s with
    | mk s1 r =>
      rw [hr] at h3
      cases r with
      | ok u => exact h3
      | error x => cases x <;> first | exact h3 | rfl

theorem agree_start (hA : Agree O O' L idOk ok) (hi : ∀ i, idOk O'.init i) (c : Cfg τ) (e : Env τ) (paused : Bool) {s : State σ τ φ}
    (h : ∀ p ∈ s.pending, IdOk idOk s p.1.body.store p.1.id) : start O c e paused s = start O' c e paused s := by
  have hd : ∀ s : State σ τ φ, withDefaults O c s = withDefaults O' c s := by
    intro s; simp only [withDefaults, hA.init]
  have hp : addPending O e (if c.lockPath then some (e.now + c.startupDelay) else none) s.pending
        (withDefaults O' c { s with refs := s.refs + 1 }) =
      addPending O' e (if c.lockPath then some (e.now + c.startupDelay) else none) s.pending
        (withDefaults O' c { s with refs := s.refs + 1 }) := by
    refine agree_addPending hA e _ _ fun p hp st hg => ?_
    have : ∀ (a : String) (st : σ) (s : State σ τ φ), (withDefaults O' c s).stores.get? a = some st →
        s.stores.get? a = some st ∨ st = O'.init := by
      intro a st s hg
      have he : (addExecutor c.defaultExecutor "default" s).1.stores = s.stores := by
        simp only [addExecutor]; split <;> rfl
      simp only [withDefaults, addStore] at hg
      split at hg
      · rw [he] at hg; exact .inl hg
      · have hwk : ∀ s : State σ τ φ, s.wakeIfRunning.stores = s.stores := by
          intro s; simp only [State.wakeIfRunning]; split <;> rfl
        simp only [hwk, State.emit, State.setStore, Dict.get?_set, he] at hg
        split at hg
        · cases hg; exact .inr rfl
        · exact .inl hg
    rcases this _ _ _ hg with h' | h'
    · exact h p hp st h'
    · rw [h']; exact hi _
  simp only [start, hd, hp]

theorem kinds_addPending (hA : Agree O O' L idOk ok) (e : Env τ) (minD : Option Int) (ps : List (T τ φ × Bool × Bool))
    {s : State σ τ φ} (h : ∀ p ∈ ps, IdOk idOk s p.1.body.store p.1.id) : Kinds idOk s (addPending O' e minD ps s).1 := by
  induction ps generalizing s with
  | nil => exact Kinds.refl _
  | cons p ps ih =>
    obtain ⟨t, replace, start⟩ := p
    obtain ⟨h1, h2⟩ := agree_realAddTask hA e t replace start minD (h (t, replace, start) (by simp))
    have h3 := ih (s := (realAddTask O' e t replace start minD s).1) fun q hq => kinds_idOk h2 (h q (by simp [hq]))
    simp only [addPending]
    cases hr : realAddTask O' e t replace start minD s with
    | mk s1 r =>
      rw [hr] at h2 h3
      cases r with
      | ok u => exact h2.trans h3
      | error x => cases x <;> first | exact h2.trans h3 | exact h2

theorem withDefaults_get? (c : Cfg τ) (a : String) (st : σ) (s : State σ τ φ) (hg : (withDefaults O' c s).stores.get? a = some st) :
    s.stores.get? a = some st ∨ st = O'.init := by
  have he : (addExecutor c.defaultExecutor "default" s).1.stores = s.stores := by
    simp only [addExecutor]; split <;> rfl
  simp only [withDefaults, addStore] at hg
  split at hg
  · rw [he] at hg; exact .inl hg
  · have hwk : ∀ s : State σ τ φ, s.wakeIfRunning.stores = s.stores := by
      intro s; simp only [State.wakeIfRunning]; split <;> rfl
    simp only [hwk, State.emit, State.setStore, Dict.get?_set, he] at hg
    split at hg
    · cases hg; exact .inr rfl
    · exact .inl hg

/-- an id that its store accepts is still accepted after `start` -/
theorem idOk_start (hA : Agree O O' L idOk ok) (hi : ∀ i, idOk O'.init i) (c : Cfg τ) (e : Env τ) (paused : Bool) {s : State σ τ φ}
    (h : ∀ p ∈ s.pending, IdOk idOk s p.1.body.store p.1.id) {a i : String} (ha : IdOk idOk s a i) :
    IdOk idOk (start O' c e paused s).1 a i := by
  have hd : ∀ {b j}, IdOk idOk s b j → IdOk idOk (withDefaults O' c { s with refs := s.refs + 1 }) b j := by
    intro b j hb st hg
    rcases withDefaults_get? c b st _ hg with h' | h'
    · exact hb st h'
    · rw [h']; exact hi _
  have hk := fun m => kinds_addPending hA e m s.pending (s := withDefaults O' c { s with refs := s.refs + 1 }) fun p hp => hd (h p hp)
  simp only [start]
  split
  · exact ha
  · split
    · exact ha
    · split
      · rename_i hr
        have := kinds_idOk (hk (if c.lockPath then some (e.now + c.startupDelay) else none)) (hd ha)
        rw [hr] at this; exact this
      · rename_i hr
        have := kinds_idOk (hk (if c.lockPath then some (e.now + c.startupDelay) else none)) (hd ha)
        rw [hr] at this
        split <;> exact this

theorem kinds_crashPass (hA : Agree O O' L idOk ok) (c : Cfg τ) (e : Env τ) (fuel : Nat) (p : Point) {s s' : State σ τ φ}
    (h : crashPass O' c e fuel p s = some s') : Kinds idOk s s' := by
  have hR := kinds_passRel hA e
  simp only [crashPass] at h
  split at h
  · cases h; exact Kinds.refl _
  · split at h
    · split at h
      · rename_i hd
        have h1 := rel_processStores hR hd
        split at h
        · cases h; exact h1
        · refine h1.trans ?_
          simp only [crashStore] at h
          split at h
          · cases h; exact Kinds.refl _
          · split at h
            · split at h
              · rename_i hd2
                have h2 := rel_processDue hR hd2
                split at h
                · split at h
                  · cases h; exact h2
                  · refine h2.trans ?_
                    simp only [handOver] at h
                    split at h
                    · cases h; exact Kinds.refl _
                    · split at h
                      · cases h
                      · cases h
                      · split at h
                        · cases h; exact Kinds.refl _
                        · cases h; exact rel_sendTask hR _ _ _ _ _
                · cases h; exact h2
              · cases h
            · cases h; exact Kinds.refl _
      · cases h
    · cases h; exact Kinds.refl _

theorem agree_entry (hA : Agree O O' L idOk ok) {s : State σ τ φ} {a i : String} (h : IdOk idOk s a i) :
    entry O s a i = entry O' s a i := by
  simp only [entry]
  cases hg : s.stores.get? a with
  | none => rfl
  | some st => exact hA.lookup st i (h st hg)

end Sched
end Asyncz
