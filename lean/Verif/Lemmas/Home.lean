import Verif.Lemmas.SchedApi
/-! # Tasks are labelled with the store that holds them -/
namespace Asyncz
namespace Sched
variable {σ τ φ : Type} {O : StoreOps σ (Body τ φ)}

/-- Every task of a store carries the alias of that store. -/
def Labelled (L : LawfulStore O) (d : Dict String σ) : Prop :=
  ∀ a st, d.get? a = some st → ∀ i t, L.toMap st i = some t → t.body.store = a

/-- What a call must not do: change the label of a task by an update, or bring in a store whose tasks are labelled otherwise. -/
def Call.Keeps (L : LawfulStore O) : Call σ τ φ → Prop
  | .update _ _ f => ∀ t t', f t = some t' → t'.body.store = t.body.store
  | .addStore st a => ∀ i t, L.toMap st i = some t → t.body.store = a
  | _ => True

/-- Closing a store brings no task into it. -/
def ClosesClean (L : LawfulStore O) : Prop :=
  ∀ st, L.Inv st → ∀ i t, L.toMap (O.close st) i = some t → L.toMap st i = some t

theorem Labelled.set {L : LawfulStore O} {d : Dict String σ} (h : Labelled L d) {a : String} {st : σ}
    (hs : ∀ i t, L.toMap st i = some t → t.body.store = a) : Labelled L (d.set a st) := by
  intro b st' hb
  rw [Dict.get?_set] at hb
  split at hb
  · rename_i e; cases hb; subst e; exact hs
  · exact h b st' hb

theorem Labelled.erase {L : LawfulStore O} {d : Dict String σ} (h : Labelled L d) (hw : d.WF) (a : String) :
    Labelled L (d.erase a) := by
  intro b st' hb
  rw [Dict.get?_erase hw] at hb
  split at hb
  · cases hb
  · exact h b st' hb

theorem step_tasks (L : LawfulStore O) {st : σ} (hi : L.Inv st) (op : StoreOp (Body τ φ)) {i : String} {t : T τ φ}
    (h : L.toMap (O.step st op).1 i = some t) :
    L.toMap st i = some t ∨ op = .add t ∨ op = .update t := by
  have hm := congrArg Prod.fst (L.step_map hi op)
  simp only at hm
  rw [hm] at h
  cases op with
  | add u =>
    simp only [specStep] at h
    split at h
    · exact .inl h
    · simp only [AMap.set] at h
      split at h
      · cases h; exact .inr (.inl rfl)
      · exact .inl h
  | update u =>
    simp only [specStep] at h
    split at h
    · simp only [AMap.set] at h
      split at h
      · cases h; exact .inr (.inr rfl)
      · exact .inl h
    · split at h
      · simp only [AMap.set] at h
        split at h
        · cases h; exact .inr (.inr rfl)
        · exact .inl h
      · exact .inl h
  | delete j =>
    simp only [specStep] at h
    split at h
    · simp only [AMap.erase] at h
      split at h
      · cases h
      · exact .inl h
    · exact .inl h
  | clear => simp only [specStep, AMap.empty] at h; cases h

theorem labelled_step {L : LawfulStore O} {s : State σ τ φ} (hw : WF L s) (h : Labelled L s.stores) {a : String} {st : σ}
    (hg : s.stores.get? a = some st) (op : StoreOp (Body τ φ)) (hop : ∀ t, op = .add t ∨ op = .update t → t.body.store = a) :
    Labelled L (s.setStore a (O.step st op).1).stores := by
  refine h.set fun i t ht => ?_
  rcases step_tasks L (hw.inv _ _ hg) op ht with q | q
  · exact h a st hg i t q
  · exact hop t q

theorem labelled_deleteInStores {L : LawfulStore O} {d : Dict String σ} (hd : Stores L d) (h : Labelled L d) (id : String)
    (store : Option String) : Labelled L (deleteInStores O id store d).1 := by
  obtain ⟨h1, h2, h3, h4⟩ := deleteInStores_spec L hd id store
  intro a st hg i t ht
  have hl : look O (deleteInStores O id store d).1 a i = some t := by
    simp only [look, hg, Option.bind_some]
    rw [L.lookup (h1.2 _ _ hg), ht]
  rw [h4] at hl
  split at hl
  · cases hl
  · simp only [look] at hl
    cases hd' : d.get? a with
    | none => rw [hd'] at hl; cases hl
    | some st0 =>
      rw [hd'] at hl
      simp only [Option.bind_some] at hl
      rw [L.lookup (hd.2 _ _ hd')] at hl
      exact h a st0 hd' i t hl

theorem labelled_deleteTask {L : LawfulStore O} {s : State σ τ φ} (hw : WF L s) (h : Labelled L s.stores) (id : String)
    (store : Option String) : Labelled L (deleteTask O id store s).1.stores := by
  simp only [deleteTask]
  split
  · split
    · exact h
    · exact h
  · have := labelled_deleteInStores (wf_iff.1 hw) h id store
    split <;> exact this

theorem labelled_reschedule {L : LawfulStore O} {s : State σ τ φ} (hw : WF L s) (h : Labelled L s.stores) (e : Env τ)
    (a : String) (t : T τ φ) (ht : t.body.store = a) (last : Int) : Labelled L (reschedule O e a t last s).1.stores := by
  simp only [reschedule]
  split
  · exact h
  · split
    · exact h
    · rename_i st hg
      have := labelled_step hw h hg
      split <;> rename_i hs <;> (have h2 := congrArg Prod.fst hs; simp only at h2; rw [← h2]; refine this _ ?_)
      all_goals
        rintro t' (h' | h') <;> cases h'
        exact ht
  · exact labelled_deleteTask hw h _ _

theorem stores_sendTask (e : Env τ) (ex a : String) (t : T τ φ) (times : List Int) (s : State σ τ φ) :
    (sendTask e ex a t times s).1.stores = s.stores := by
  obtain ⟨ins, new, h, _⟩ := sendTask_spec e ex a t times s
  rw [h]

theorem labelled_processTask {L : LawfulStore O} {s s' : State σ τ φ} (hw : WF L s) (hL : Labelled L s.stores) {e : Env τ}
    {fuel : Nat} {a : String} {t : T τ φ} (ht : t.body.store = a) {r : Except Err (List Obs)}
    (h : processTask O e fuel a t s = some (s', r)) : Labelled L s'.stores := by
  simp only [processTask] at h
  split at h
  · have := labelled_deleteTask hw hL t.id (some a)
    split at h <;> rename_i hd <;> rw [hd] at this <;> cases h <;> exact this
  · split at h
    · cases h
    · cases h; exact hL
    · split at h
      · cases h; exact hL
      · rename_i last _
        have := labelled_reschedule (wf_sendTask hw e t.body.executor a t (coalesce t.body.coalesce ‹_›).1)
          (by rw [stores_sendTask]; exact hL) e a t ht last
        split at h <;> rename_i hd <;> rw [hd] at this <;> cases h <;> exact this

theorem labelled_processDue {L : LawfulStore O} {e : Env τ} {fuel : Nat} {a : String} {ts : List (T τ φ)}
    (ht : ∀ t ∈ ts, t.body.store = a) {s s' : State σ τ φ} (hw : WF L s) (hL : Labelled L s.stores)
    {r : Except Err (List Obs)} (h : processDue O e fuel a ts s = some (s', r)) : Labelled L s'.stores := by
  induction ts generalizing s s' r with
  | nil => cases h; exact hL
  | cons t ts ih =>
    simp only [processDue] at h
    cases h1 : processTask O e fuel a t s with
    | none => rw [h1] at h; cases h
    | some p =>
      obtain ⟨s1, r1⟩ := p
      have hw1 := wf_processTask hw h1
      have hL1 := labelled_processTask hw hL (ht t List.mem_cons_self) h1
      rw [h1] at h
      cases r1 with
      | error x => cases h; exact hL1
      | ok evs =>
        simp only at h
        cases h2 : processDue O e fuel a ts s1 with
        | none => rw [h2] at h; cases h
        | some p =>
          obtain ⟨s2, r2⟩ := p
          have hw2 := ih (fun t h => ht t (List.mem_cons_of_mem _ h)) hw1 hL1 h2
          rw [h2] at h
          cases r2 <;> cases h <;> exact hw2

theorem labelled_processStore {L : LawfulStore O} {c : Cfg τ} {e : Env τ} {fuel : Nat} {a : String} {w : Option Int}
    {s s' : State σ τ φ} (hw : WF L s) (hL : Labelled L s.stores) {r : Except Err (List Obs × Option Int)}
    (h : processStore O c e fuel a w s = some (s', r)) : Labelled L s'.stores := by
  simp only [processStore] at h
  split at h
  · cases h; exact hL
  · rename_i st hg
    have ht : ∀ t ∈ O.due st e.now, t.body.store = a := by
      intro t ht
      obtain ⟨h1, _⟩ := ((L.due (hw.inv _ _ hg) e.now).2 t).1 ht
      exact hL a st hg _ t h1
    split at h
    · split at h
      · cases h
      · rename_i hd; cases h; exact labelled_processDue ht hw hL hd
      · rename_i hd; cases h; exact labelled_processDue ht hw hL hd
    · cases h; exact hL

theorem labelled_processStores {L : LawfulStore O} {c : Cfg τ} {e : Env τ} {fuel : Nat} {as : List String} {w : Option Int}
    {s s' : State σ τ φ} (hw : WF L s) (hL : Labelled L s.stores) {r : Except Err (List Obs × Option Int)}
    (h : processStores O c e fuel as w s = some (s', r)) : Labelled L s'.stores := by
  induction as generalizing s s' r w with
  | nil => cases h; exact hL
  | cons a as ih =>
    simp only [processStores] at h
    cases h1 : processStore O c e fuel a w s with
    | none => rw [h1] at h; cases h
    | some p =>
      obtain ⟨s1, r1⟩ := p
      have hw1 := wf_processStore hw h1
      have hL1 := labelled_processStore hw hL h1
      rw [h1] at h
      cases r1 with
      | error x => cases h; exact hL1
      | ok q =>
        simp only at h
        cases h2 : processStores O c e fuel as q.2 s1 with
        | none => rw [h2] at h; cases h
        | some p =>
          obtain ⟨s2, r2⟩ := p
          have hw2 := ih hw1 hL1 h2
          rw [h2] at h
          cases r2 <;> cases h <;> exact hw2

theorem labelled_tick {L : LawfulStore O} {c : Cfg τ} {e : Env τ} {fuel : Nat} {s s' : State σ τ φ} (hw : WF L s)
    (hL : Labelled L s.stores) {r : Except Err Unit} (h : tick O c e fuel s = some (s', r)) : Labelled L s'.stores := by
  simp only [tick] at h
  have hw0 : WF L { s with woken := false, timer := none } := hw.congr rfl
  have key : ∀ {s1 : State σ τ φ} {r1 : Except Err (Option Int)},
      processTasks O c e fuel { s with woken := false, timer := none } = some (s1, r1) → Labelled L s1.stores := by
    intro s1 r1 h
    simp only [processTasks] at h
    split at h
    · cases h; exact hL
    · split at h
      · split at h
        · cases h
        · rename_i hd; cases h; exact labelled_processStores hw0 hL hd
        · rename_i hd; cases h; have := labelled_processStores hw0 hL hd; exact this
      · cases h; exact hL
  split at h
  · cases h
  · rename_i hd; cases h; exact key hd
  · rename_i hd; cases h; have := key hd; exact this

theorem labelled_realAddTask {L : LawfulStore O} {s : State σ τ φ} (hw : WF L s) (hL : Labelled L s.stores) (e : Env τ)
    (t : T τ φ) (replace start : Bool) (minD : Option Int) :
    Labelled L (realAddTask O e t replace start minD s).1.stores := by
  rcases realAddTask_spec L hw e t replace start minD with h | ⟨n, h⟩
  · rw [h.1]; exact hL
  · intro a st hg i u hu
    have he : entry O (realAddTask O e t replace start minD s).1 a i = some u := by
      rw [entry_eq L h.2.2.2.2.1 hg, hu]
    rw [h.2.2.2.2.2.2.2.2.2] at he
    simp only [put] at he
    split at he
    · rename_i hc; cases he; exact hc.1.symm
    · rw [entry_look] at he
      simp only [look] at he
      cases hd' : s.stores.get? a with
      | none => rw [hd'] at he; cases he
      | some st0 =>
        rw [hd'] at he
        simp only [Option.bind_some] at he
        rw [L.lookup (hw.inv _ _ hd')] at he
        exact hL a st0 hd' i u he

theorem labelled_addPending {L : LawfulStore O} (e : Env τ) (minD : Option Int) (ps : List (T τ φ × Bool × Bool))
    {s : State σ τ φ} (hw : WF L s) (hL : Labelled L s.stores) : Labelled L (addPending O e minD ps s).1.stores := by
  induction ps generalizing s with
  | nil => exact hL
  | cons p ps ih =>
    obtain ⟨t, replace, start⟩ := p
    have h1 := wf_realAddTask hw e t replace start minD
    have h2 := labelled_realAddTask hw hL e t replace start minD
    simp only [addPending]
    split <;> rename_i hd <;> rw [hd] at h1 h2
    · exact ih h1 h2
    · exact ih h1 h2
    · exact h2

theorem labelled_addStore {L : LawfulStore O} {s : State σ τ φ} (hL : Labelled L s.stores) {st : σ} (a : String)
    (hs : ∀ i t, L.toMap st i = some t → t.body.store = a) : Labelled L (addStore st a s).1.stores := by
  simp only [addStore]
  split
  · exact hL
  · rw [stores_wakeIfRunning]
    exact hL.set hs

theorem labelled_withDefaults {L : LawfulStore O} {s : State σ τ φ} (hL : Labelled L s.stores) (c : Cfg τ) :
    Labelled L (withDefaults O c s).stores := by
  refine labelled_addStore (by rw [stores_addExecutor]; exact hL) _ fun i t h => ?_
  rw [L.init_map] at h
  cases h

theorem labelled_shutdownTasks {L : LawfulStore O} (c : Cfg τ) (a : String) (ts : List (T τ φ)) {st : σ} (hi : L.Inv st)
    {P : T τ φ → Prop} (h : ∀ i t, L.toMap st i = some t → P t) :
    ∀ i t, L.toMap (shutdownTasks O c a ts st).1 i = some t → P t := by
  induction ts generalizing st with
  | nil => exact h
  | cons t ts ih =>
    simp only [shutdownTasks]
    split
    · refine ih (L.step_inv hi _) fun i t ht => ?_
      rcases step_tasks L hi _ ht with q | q | q
      · exact h i t q
      · cases q
      · cases q
    · exact ih hi h

theorem labelled_shutdownStores {L : LawfulStore O} (hc : ClosesClean L) (c : Cfg τ) {d : Dict String σ} (hd : Stores L d)
    (h : Labelled L d) : Labelled L (shutdownStores O c d).1 := by
  induction d with
  | nil => exact h
  | cons p d ih =>
    obtain ⟨a, st⟩ := p
    obtain ⟨h1, h2, h3⟩ := Stores.cons.1 hd
    have hd' : Labelled L d := by
      intro b st' hb
      refine h b st' ?_
      simp only [Dict.get?]
      rw [if_neg]
      · exact hb
      · rintro rfl; exact h1 (Dict.mem_keys_of_mem (Dict.mem_of_get? hb))
    have i := ih h3 hd'
    simp only [shutdownStores]
    intro b st' hb
    simp only [Dict.get?] at hb
    split at hb
    · rename_i e
      cases hb; subst e
      intro i t ht
      have := hc _ (inv_shutdownTasks L c a (O.all st) h2) i t ht
      exact labelled_shutdownTasks c a (O.all st) h2 (P := fun t => t.body.store = a)
        (h a st (by simp [Dict.get?])) i t this
    · exact i b st' hb

theorem labelled_updateTask {L : LawfulStore O} {s : State σ τ φ} (hw : WF L s) (hL : Labelled L s.stores) (id : String)
    (store : Option String) (f : T τ φ → Option (T τ φ)) (hf : ∀ t t', f t = some t' → t'.body.store = t.body.store) :
    Labelled L (updateTask O id store f s).1.stores := by
  simp only [updateTask]
  cases hl : lookupTask O s id store with
  | none => exact hL
  | some p =>
    obtain ⟨t, loc⟩ := p
    simp only []
    cases hft : f t with
    | none => exact hL
    | some t' =>
      cases loc with
      | none => simp only []; rw [stores_wakeIfRunning]; exact hL
      | some a =>
        simp only []
        cases hg : s.stores.get? a with
        | none => exact hL
        | some st =>
          simp only []
          have hta : t.body.store = a := by
            simp only [lookupTask] at hl
            split at hl
            · obtain ⟨x, _, hx⟩ := Option.map_eq_some_iff.1 hl
              cases hx
            · obtain ⟨⟨t1, a1⟩, hx, he⟩ := Option.map_eq_some_iff.1 hl
              cases he
              obtain ⟨_, hk, _⟩ := findInStores_some L (wf_iff.1 hw) hx
              obtain ⟨_, st1, hg1, _, hm1⟩ := look_id L (wf_iff.1 hw) hk
              exact hL _ st1 hg1 _ _ hm1
          have := labelled_step hw hL hg (.update t') (by
            rintro u (h | h) <;> cases h
            rw [hf t t' hft, hta])
          cases hs : O.step st (.update t') with
          | mk st' r =>
            rw [hs] at this
            cases r with
            | ok => simp only []; rw [stores_wakeIfRunning]; exact this
            | conflict _ => exact this
            | notFound _ => exact this

theorem labelled_afterManualRun {L : LawfulStore O} {s : State σ τ φ} (hw : WF L s) (hL : Labelled L s.stores) (e : Env τ)
    (t : T τ φ) (a : String) (ht : t.body.store = a) (last : Int) (rf : Bool) :
    Labelled L (afterManualRun O e t a last rf s).1.stores := by
  simp only [afterManualRun]
  split
  · exact hL
  · split
    · have := labelled_deleteTask hw hL t.id (some a)
      split <;> rename_i hd <;> rw [hd] at this <;> exact this
    · split
      · exact hL
      · rename_i st hg
        have := labelled_step hw hL hg
        split <;> rename_i hs <;> (have h2 := congrArg Prod.fst hs; simp only at h2; rw [← h2]; refine this _ ?_)
        all_goals
          rintro t' (h' | h') <;> cases h'
          exact ht

theorem labelled_runTask {L : LawfulStore O} {s s' : State σ τ φ} (hw : WF L s) (hL : Labelled L s.stores) {e : Env τ}
    {fuel : Nat} {id : String} {store : Option String} {force rf : Bool} {r : Except Err (Option (T τ φ))}
    (h : runTask O e fuel id store force rf s = some (s', r)) : Labelled L s'.stores := by
  simp only [runTask] at h
  split at h
  · cases h; exact hL
  · split at h
    · cases h; exact hL
    · rename_i t a hf
      have hta : t.body.store = a := by
        obtain ⟨_, hk, _⟩ := findInStores_some L (wf_iff.1 hw) hf
        obtain ⟨_, st1, hg1, _, hm1⟩ := look_id L (wf_iff.1 hw) hk
        exact hL _ st1 hg1 _ _ hm1
      split at h
      · cases h
      · cases h; exact hL
      · rename_i all _
        simp only [Option.some.injEq] at h
        have key : Labelled L (runFound O e t a all force rf s).1.stores := by
          simp only [runFound]
          split
          · exact hL
          · split
            · exact hL
            · generalize (if all = [] then ([e.now], 0) else coalesce t.body.coalesce all) = c
              have h1 := wf_sendTask hw e t.body.executor a t c.1
              have h2 : Labelled L (sendTask e t.body.executor a t c.1 s).1.stores := by rw [stores_sendTask]; exact hL
              split <;> rename_i hd <;> rw [hd] at h1 h2
              · exact h2
              · exact h2
              · rename_i s'
                exact labelled_afterManualRun (s := s'.emit _) (h1.congr rfl) h2 _ _ _ hta _ _
        rw [h] at key; exact key

/-- Every call that keeps the labels keeps every task in the store it is labelled with. -/
theorem labelled_exec {L : LawfulStore O} (hclose : ClosesClean L) {c : Cfg τ} {e : Env τ} {fuel : Nat} {k : Call σ τ φ}
    {s s' : State σ τ φ} (hw : WF L s) (hL : Labelled L s.stores) (hk : k.Keeps L) (h : exec O c e fuel k s = some s') :
    Labelled L s'.stores := by
  cases k with
  | addTask t nrt replace =>
    simp only [exec, Option.some.injEq] at h; subst h
    simp only [addTask]
    split
    · exact hL
    · exact labelled_realAddTask hw hL _ _ _ _ _
  | start paused =>
    simp only [exec, Option.some.injEq] at h; subst h
    simp only [start]
    split
    · exact hL
    · split
      · exact hL
      · have := labelled_addPending e (if c.lockPath then some (e.now + c.startupDelay) else none) s.pending
          (wf_withDefaults (s := { s with refs := s.refs + 1 }) (hw.congr rfl) c)
          (labelled_withDefaults (s := { s with refs := s.refs + 1 }) hL c)
        split <;> rename_i hd <;> rw [hd] at this
        · exact this
        · revert this
          cases paused <;> exact fun h => h
  | shutdown =>
    simp only [exec, Option.some.injEq] at h; subst h
    simp only [shutdown]
    split
    · exact hL
    · split
      · exact hL
      · exact labelled_shutdownStores hclose c (wf_iff.1 hw) hL
  | pause =>
    simp only [exec, Option.some.injEq] at h; subst h
    simp only [pause]; split <;> exact hL
  | resume =>
    simp only [exec, Option.some.injEq] at h; subst h
    simp only [resume]; split <;> exact hL
  | update id store f =>
    simp only [exec, Option.some.injEq] at h; subst h; exact labelled_updateTask hw hL _ _ _ hk
  | pauseTask id store =>
    simp only [exec, Option.some.injEq] at h; subst h
    exact labelled_updateTask hw hL _ _ _ (fun t t' h => by cases h; rfl)
  | rescheduleTask id store g =>
    simp only [exec, Option.some.injEq] at h; subst h
    simp only [rescheduleTask]
    split
    · exact hL
    · exact labelled_updateTask hw hL _ _ _ (fun t t' h => by cases h; rfl)
  | resumeTask id store =>
    simp only [exec, Option.some.injEq] at h; subst h
    simp only [resumeTask]
    cases hl : lookupTask O s id store with
    | none => exact hL
    | some p =>
      obtain ⟨t, loc⟩ := p
      simp only []
      cases e.next 2 t.body.trigger none e.now with
      | error x => exact hL
      | ok n => cases n with
        | none =>
          simp only []
          have := labelled_deleteTask hw hL t.id loc
          split <;> rename_i hd <;> rw [hd] at this <;> exact this
        | some n =>
          simp only []
          have := labelled_updateTask hw hL id loc (fun t => some { t with nrt := some n }) (fun t t' h => by cases h; rfl)
          split <;> rename_i hd <;> rw [hd] at this <;> exact this
  | runTask id store force rf =>
    simp only [exec] at h
    obtain ⟨⟨s1, r⟩, h1, rfl⟩ := Option.map_eq_some_iff.1 h
    exact labelled_runTask hw hL h1
  | deleteTask id store => simp only [exec, Option.some.injEq] at h; subst h; exact labelled_deleteTask hw hL _ _
  | removeAllTasks store =>
    simp only [exec, Option.some.injEq] at h; subst h
    simp only [removeAllTasks]
    split
    · exact hL
    · intro a st hg i t ht
      obtain ⟨q1, q2, q3⟩ := stores_clear L store (wf_iff.1 hw)
      have hl : look O (s.stores.map fun p => if store = none ∨ store = some p.1 then (p.1, (O.step p.2 .clear).1) else p) a i =
          some t := by
        simp only [look]
        have hg' : Dict.get? (s.stores.map fun p => if store = none ∨ store = some p.1 then (p.1, (O.step p.2 .clear).1) else p) a =
          some st := hg
        rw [hg']
        simp only [Option.bind_some]
        rw [L.lookup (q1.2 _ _ hg'), ht]
      rw [q3] at hl
      split at hl
      · cases hl
      · simp only [look] at hl
        cases hd' : s.stores.get? a with
        | none => rw [hd'] at hl; cases hl
        | some st0 =>
          rw [hd'] at hl
          simp only [Option.bind_some] at hl
          rw [L.lookup (hw.inv _ _ hd')] at hl
          exact hL a st0 hd' i t hl
  | addExecutor x a =>
    simp only [exec, Option.some.injEq] at h; subst h; rw [stores_addExecutor]; exact hL
  | removeExecutor a =>
    simp only [exec, Option.some.injEq] at h; subst h
    simp only [removeExecutor]; split <;> exact hL
  | addStore st a => simp only [exec, Option.some.injEq] at h; subst h; exact labelled_addStore hL a hk
  | removeStore a =>
    simp only [exec, Option.some.injEq] at h; subst h
    simp only [removeStore]
    split
    · exact hL
    · exact hL.erase hw.keys a
  | tick =>
    simp only [exec] at h
    obtain ⟨⟨s1, r⟩, h1, rfl⟩ := Option.map_eq_some_iff.1 h
    exact labelled_tick hw hL h1
  | timerFires => simp only [exec, Option.some.injEq] at h; subst h; exact hL
  | finishRun id =>
    simp only [exec, Option.some.injEq] at h; subst h
    exact hL

end Sched
end Asyncz
