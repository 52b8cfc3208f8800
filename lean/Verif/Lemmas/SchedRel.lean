import Verif.Lemmas.SchedApi
/-! # What a pass, a manual run and the other calls leave alone -/
namespace Asyncz
namespace Sched
variable {σ τ φ : Type} {O : StoreOps σ (Body τ φ)}

/-- the next run time that a pass or a manual run stores for a task -/
def NewTime (e : Env τ) (g : τ) (n : Option Int) : Prop :=
  ∃ last n0, e.next 1 g (some last) e.now = .ok n0 ∧ (n = n0 ∨ n = manualNext e.now n0)

/-- A relation between states that all the elementary steps of a pass respect. -/
structure PassRel (O : StoreOps σ (Body τ φ)) (e : Env τ) (R : State σ τ φ → State σ τ φ → Prop) : Prop where
  refl : ∀ s, R s s
  trans : ∀ {s s' s''}, R s s' → R s' s'' → R s s''
  del : ∀ id store s, R s (deleteTask O id store s).1
  upd : ∀ a st (t : T τ φ) n s, s.stores.get? a = some st → NewTime e t.body.trigger n →
    R s (s.setStore a (O.step st (.update { t with nrt := n })).1)
  obs : ∀ s ins l, (s.instances.WF → ins.WF) → R s { s with instances := ins, log := s.log ++ l }

variable {R : State σ τ φ → State σ τ φ → Prop}

theorem rel_sendTask {e : Env τ} (hR : PassRel O e R) (ex a : String) (t : T τ φ) (times : List Int) (s : State σ τ φ) :
    R s (sendTask e ex a t times s).1 := by
  unfold sendTask
  simp only
  split
  · have := hR.obs s (s.instances.set t.id ((s.instances.get? t.id).getD 0)) [] (fun hw => hw.set _ _)
    simpa using this
  · split
    · exact hR.obs s _ [_] (fun hw => (hw.set _ _).set _ _)
    · have := hR.obs s (s.instances.set t.id ((s.instances.get? t.id).getD 0)) [] (fun hw => hw.set _ _)
      simpa using this

theorem rel_emit {e : Env τ} (hR : PassRel O e R) (s : State σ τ φ) (o : Obs) : R s (s.emit o) :=
  hR.obs s s.instances [o] id

theorem rel_reschedule {e : Env τ} (hR : PassRel O e R) (a : String) (t : T τ φ) (last : Int) (s : State σ τ φ) :
    R s (reschedule O e a t last s).1 := by
  simp only [reschedule]
  split
  · exact hR.refl _
  · rename_i n hn
    split
    · exact hR.refl _
    · rename_i st hg
      have := hR.upd a st t (some n) s hg ⟨last, some n, hn, .inl rfl⟩
      split <;> rename_i hd <;> rw [hd] at this <;> exact this
  · exact hR.del _ _ _

theorem rel_processTask {e : Env τ} (hR : PassRel O e R) {s s' : State σ τ φ} {fuel : Nat} {a : String}
    {t : T τ φ} {r : Except Err (List Obs)} (h : processTask O e fuel a t s = some (s', r)) : R s s' := by
  simp only [processTask] at h
  split at h
  · have := hR.del t.id (some a) s
    split at h <;> rename_i hd <;> rw [hd] at this <;> cases h <;> exact this
  · split at h
    · cases h
    · cases h; exact hR.refl _
    · split at h
      · cases h; exact hR.refl _
      · rename_i last _
        have h1 := rel_sendTask hR t.body.executor a t (coalesce t.body.coalesce ‹_›).1 s
        have := hR.trans h1 (rel_reschedule hR a t last _)
        split at h <;> rename_i hd <;> rw [hd] at this <;> cases h <;> exact this

theorem rel_processDue {e : Env τ} (hR : PassRel O e R) {fuel : Nat} {a : String}
    {ts : List (T τ φ)} {s s' : State σ τ φ} {r : Except Err (List Obs)}
    (h : processDue O e fuel a ts s = some (s', r)) : R s s' := by
  induction ts generalizing s s' r with
  | nil => cases h; exact hR.refl _
  | cons t ts ih =>
    simp only [processDue] at h
    cases h1 : processTask O e fuel a t s with
    | none => rw [h1] at h; cases h
    | some p =>
      obtain ⟨s1, r1⟩ := p
      have hw1 := rel_processTask hR h1
      rw [h1] at h
      cases r1 with
      | error x => cases h; exact hw1
      | ok evs =>
        simp only at h
        cases h2 : processDue O e fuel a ts s1 with
        | none => rw [h2] at h; cases h
        | some p =>
          obtain ⟨s2, r2⟩ := p
          have hw2 := hR.trans hw1 (ih h2)
          rw [h2] at h
          cases r2 <;> cases h <;> exact hw2

theorem rel_processStore {e : Env τ} (hR : PassRel O e R) {c : Cfg τ} {fuel : Nat} {a : String} {w : Option Int}
    {s s' : State σ τ φ} {r : Except Err (List Obs × Option Int)}
    (h : processStore O c e fuel a w s = some (s', r)) : R s s' := by
  simp only [processStore] at h
  split at h
  · cases h; exact hR.refl _
  · split at h
    · split at h
      · cases h
      · rename_i hd; cases h; exact rel_processDue hR hd
      · rename_i hd; cases h; exact rel_processDue hR hd
    · cases h; exact hR.refl _

theorem rel_processStores {e : Env τ} (hR : PassRel O e R) {c : Cfg τ} {fuel : Nat} {as : List String} {w : Option Int}
    {s s' : State σ τ φ} {r : Except Err (List Obs × Option Int)}
    (h : processStores O c e fuel as w s = some (s', r)) : R s s' := by
  induction as generalizing s s' r w with
  | nil => cases h; exact hR.refl _
  | cons a as ih =>
    simp only [processStores] at h
    cases h1 : processStore O c e fuel a w s with
    | none => rw [h1] at h; cases h
    | some p =>
      obtain ⟨s1, r1⟩ := p
      have hw1 := rel_processStore hR h1
      rw [h1] at h
      cases r1 with
      | error x => cases h; exact hw1
      | ok q =>
        simp only at h
        cases h2 : processStores O c e fuel as q.2 s1 with
        | none => rw [h2] at h; cases h
        | some p =>
          obtain ⟨s2, r2⟩ := p
          have hw2 := hR.trans hw1 (ih h2)
          rw [h2] at h
          cases r2 <;> cases h <;> exact hw2

theorem rel_processTasks {e : Env τ} (hR : PassRel O e R) {c : Cfg τ} {fuel : Nat} {s s' : State σ τ φ}
    {r : Except Err (Option Int)} (h : processTasks O c e fuel s = some (s', r)) : R s s' := by
  simp only [processTasks] at h
  split at h
  · cases h; exact hR.refl _
  · split at h
    · split at h
      · cases h
      · rename_i hd; cases h; exact rel_processStores hR hd
      · rename_i hd; cases h; exact hR.trans (rel_processStores hR hd) (hR.obs _ _ _ id)
    · cases h; exact hR.refl _

theorem rel_afterManualRun {e : Env τ} (hR : PassRel O e R) (t : T τ φ) (a : String)
    (last : Int) (rf : Bool) (s : State σ τ φ) : R s (afterManualRun O e t a last rf s).1 := by
  simp only [afterManualRun]
  split
  · exact hR.refl _
  · rename_i n hn
    split
    · have := hR.del t.id (some a) s
      split <;> rename_i hd <;> rw [hd] at this <;> exact this
    · split
      · exact hR.refl _
      · rename_i st hg
        have := hR.upd a st t (manualNext e.now n) s hg ⟨last, n, hn, .inr rfl⟩
        split <;> rename_i hd <;> rw [hd] at this <;> exact this

theorem rel_runFound {e : Env τ} (hR : PassRel O e R) (t : T τ φ) (a : String)
    (all : List Int) (force rf : Bool) (s : State σ τ φ) : R s (runFound O e t a all force rf s).1 := by
  simp only [runFound]
  split
  · exact hR.refl _
  · split
    · exact hR.refl _
    · generalize (if all = [] then ([e.now], 0) else coalesce t.body.coalesce all) = c
      have := rel_sendTask hR t.body.executor a t c.1 s
      split <;> rename_i hd <;> rw [hd] at this
      · exact hR.trans this (rel_emit hR _ _)
      · exact this
      · exact hR.trans (hR.trans this (rel_emit hR _ _)) (rel_afterManualRun hR _ _ _ _ _)

theorem rel_runTask {e : Env τ} (hR : PassRel O e R) {s s' : State σ τ φ} {fuel : Nat} {id : String}
    {store : Option String} {force rf : Bool} {r : Except Err (Option (T τ φ))}
    (h : runTask O e fuel id store force rf s = some (s', r)) : R s s' := by
  simp only [runTask] at h
  split at h
  · cases h; exact hR.refl _
  · split at h
    · cases h; exact hR.refl _
    · split at h
      · cases h
      · cases h; exact hR.refl _
      · rename_i t a _ _ all _
        have := rel_runFound hR t a all force rf s
        simp only [Option.some.injEq] at h
        rw [h] at this; exact this

/-- what passes, manual runs and changes of tasks leave alone -/
structure Kept (s s' : State σ τ φ) : Prop where
  mode : s'.mode = s.mode
  refs : s'.refs = s.refs
  executors : s'.executors = s.executors
  keys : s'.stores.keys = s.stores.keys
  log : ∃ l, s'.log = s.log ++ l

theorem Kept.rfl' {s : State σ τ φ} : Kept s s := ⟨rfl, rfl, rfl, rfl, [], by simp⟩

theorem Kept.trans {s s' s'' : State σ τ φ} (h : Kept s s') (h' : Kept s' s'') : Kept s s'' := by
  obtain ⟨l, hl⟩ := h.log
  obtain ⟨l', hl'⟩ := h'.log
  exact ⟨by rw [h'.mode, h.mode], by rw [h'.refs, h.refs], by rw [h'.executors, h.executors],
    by rw [h'.keys, h.keys], l ++ l', by rw [hl', hl, List.append_assoc]⟩

theorem deleteInStores_keys (id : String) (store : Option String) (d : Dict String σ) :
    (deleteInStores O id store d).1.keys = d.keys := by
  induction d with
  | nil => rfl
  | cons p d ih =>
    obtain ⟨a, st⟩ := p
    have ih' : List.map Prod.fst (deleteInStores O id store d).1 = List.map Prod.fst d := ih
    simp only [deleteInStores]
    split
    · split <;> simp only [Dict.keys, List.map_cons, ih']
    · simp only [Dict.keys, List.map_cons, ih']

theorem kept_deleteTask (id : String) (store : Option String) (s : State σ τ φ) :
    Kept s (deleteTask O id store s).1 := by
  simp only [deleteTask]
  split
  · split
    · exact .rfl'
    · exact ⟨rfl, rfl, rfl, rfl, _, rfl⟩
  · split
    · exact ⟨rfl, rfl, rfl, deleteInStores_keys _ _ _, [], by simp⟩
    · exact ⟨rfl, rfl, rfl, deleteInStores_keys _ _ _, _, rfl⟩

theorem kept_passRel (O : StoreOps σ (Body τ φ)) (e : Env τ) : PassRel O e Kept where
  refl _ := .rfl'
  trans h h' := h.trans h'
  del := kept_deleteTask
  upd _ _ _ _ _ hg _ := ⟨rfl, rfl, rfl, Dict.keys_set_of_mem hg, [], by simp [State.setStore]⟩
  obs _ _ l _ := ⟨rfl, rfl, rfl, rfl, l, rfl⟩

theorem kept_tick {c : Cfg τ} {e : Env τ} {fuel : Nat} {s s' : State σ τ φ}
    {r : Except Err Unit} (h : tick O c e fuel s = some (s', r)) : Kept s s' := by
  simp only [tick] at h
  split at h
  · cases h
  · rename_i hd
    cases h
    have := rel_processTasks (kept_passRel O e) hd
    exact ⟨this.mode, this.refs, this.executors, this.keys, this.log⟩
  · rename_i hd
    cases h
    have := rel_processTasks (kept_passRel O e) hd
    exact ⟨this.mode, this.refs, this.executors, this.keys, this.log⟩

theorem kept_wakeIfRunning {s s' : State σ τ φ} (h : Kept s s') : Kept s s'.wakeIfRunning := by
  simp only [State.wakeIfRunning]
  split
  · exact ⟨h.mode, h.refs, h.executors, h.keys, h.log⟩
  · exact h

theorem kept_setStore {s : State σ τ φ} {a : String} {st : σ} (hg : s.stores.get? a = some st) (st' : σ) :
    Kept s (s.setStore a st') := ⟨rfl, rfl, rfl, Dict.keys_set_of_mem hg, [], by simp [State.setStore]⟩

theorem kept_emit {s s' : State σ τ φ} (h : Kept s s') (o : Obs) : Kept s (s'.emit o) := by
  obtain ⟨l, hl⟩ := h.log
  exact ⟨h.mode, h.refs, h.executors, h.keys, l ++ [o], by simp [State.emit, hl]⟩

theorem kept_added {s s' : State σ τ φ} (h : Kept s s') (t : T τ φ) (start : Bool) : Kept s (added t start s') := by
  simp only [added]
  split
  · exact kept_wakeIfRunning (kept_emit h _)
  · exact kept_emit h _

theorem kept_realAddTask (e : Env τ) (t : T τ φ) (replace start : Bool) (minD : Option Int) (s : State σ τ φ) :
    Kept s (realAddTask O e t replace start minD s).1 := by
  simp only [realAddTask]
  cases firstTime e t start minD with
  | error x => exact .rfl'
  | ok n =>
    simp only []
    cases hg : s.stores.get? t.body.store with
    | none => exact .rfl'
    | some st =>
      simp only []
      split
      · exact kept_added (kept_setStore hg _) _ _
      · split
        · split
          · exact kept_added (kept_setStore hg _) _ _
          · exact kept_setStore hg _
        · exact .rfl'

theorem kept_addPending (e : Env τ) (minD : Option Int) (ps : List (T τ φ × Bool × Bool)) (s : State σ τ φ) :
    Kept s (addPending O e minD ps s).1 := by
  induction ps generalizing s with
  | nil => exact .rfl'
  | cons p ps ih =>
    obtain ⟨t, replace, start⟩ := p
    have := kept_realAddTask (O := O) e t replace start minD s
    simp only [addPending]
    split <;> rename_i hd <;> rw [hd] at this
    · exact this.trans (ih _)
    · exact this.trans (ih _)
    · exact this

theorem kept_updateTask (id : String) (store : Option String) (f : T τ φ → Option (T τ φ)) (s : State σ τ φ) :
    Kept s (updateTask O id store f s).1 := by
  simp only [updateTask]
  cases lookupTask O s id store with
  | none => exact .rfl'
  | some p =>
    obtain ⟨t, loc⟩ := p
    simp only []
    cases f t with
    | none => exact .rfl'
    | some t' =>
      cases loc with
      | none =>
        refine kept_wakeIfRunning (kept_emit ?_ _)
        exact ⟨rfl, rfl, rfl, rfl, [], by simp⟩
      | some a =>
        simp only []
        cases hg : s.stores.get? a with
        | none => exact .rfl'
        | some st =>
          simp only []
          split
          · exact kept_wakeIfRunning (kept_emit (kept_setStore hg _) _)
          · exact kept_setStore hg _

/-- calls other than starting, stopping, pausing and changing executors or stores -/
def Call.Plain : Call σ τ φ → Prop
  | .start _ | .shutdown | .pause | .resume | .addExecutor .. | .removeExecutor _ | .addStore .. | .removeStore _ => False
  | _ => True

theorem kept_exec {c : Cfg τ} {e : Env τ} {fuel : Nat} {k : Call σ τ φ} {s s' : State σ τ φ}
    (hk : k.Plain) (h : exec O c e fuel k s = some s') : Kept s s' := by
  cases k with
  | start _ => cases hk
  | shutdown => cases hk
  | pause => cases hk
  | resume => cases hk
  | addExecutor _ _ => cases hk
  | removeExecutor _ => cases hk
  | addStore _ _ => cases hk
  | removeStore _ => cases hk
  | addTask t nrt replace =>
    simp only [exec, Option.some.injEq] at h; subst h
    simp only [addTask]
    split
    · exact ⟨rfl, rfl, rfl, rfl, [], by simp⟩
    · exact kept_realAddTask _ _ _ _ _ _
  | update id store f => simp only [exec, Option.some.injEq] at h; subst h; exact kept_updateTask _ _ _ _
  | pauseTask id store => simp only [exec, Option.some.injEq] at h; subst h; exact kept_updateTask _ _ _ _
  | rescheduleTask id store g =>
    simp only [exec, Option.some.injEq] at h; subst h
    simp only [rescheduleTask]
    split
    · exact .rfl'
    · exact kept_updateTask _ _ _ _
  | resumeTask id store =>
    simp only [exec, Option.some.injEq] at h; subst h
    simp only [resumeTask]
    cases lookupTask O s id store with
    | none => exact .rfl'
    | some p =>
      obtain ⟨t, loc⟩ := p
      simp only []
      cases e.next 2 t.body.trigger none e.now with
      | error x => exact .rfl'
      | ok n => cases n with
        | none =>
          simp only []
          have := kept_deleteTask (O := O) t.id loc s
          split <;> rename_i hd <;> rw [hd] at this <;> exact this
        | some n =>
          simp only []
          have := kept_updateTask (O := O) id loc (fun t => some { t with nrt := some n }) s
          split <;> rename_i hd <;> rw [hd] at this <;> exact this
  | runTask id store force rf =>
    simp only [exec] at h
    cases hr : runTask O e fuel id store force rf s with
    | none => rw [hr] at h; cases h
    | some p =>
      rw [hr] at h
      simp only [Option.map_some, Option.some.injEq] at h
      subst h
      exact rel_runTask (kept_passRel O e) (r := p.2) hr
  | deleteTask id store => simp only [exec, Option.some.injEq] at h; subst h; exact kept_deleteTask _ _ _
  | removeAllTasks store =>
    simp only [exec, Option.some.injEq] at h; subst h
    simp only [removeAllTasks]
    refine kept_emit ?_ _
    split
    · exact ⟨rfl, rfl, rfl, rfl, [], by simp⟩
    · refine ⟨rfl, rfl, rfl, ?_, [], by simp⟩
      simp only [Dict.keys, List.map_map]
      congr 1
      funext p
      simp only [Function.comp]
      split <;> rfl
  | tick =>
    simp only [exec] at h
    cases hr : tick O c e fuel s with
    | none => rw [hr] at h; cases h
    | some p =>
      rw [hr] at h
      simp only [Option.map_some, Option.some.injEq] at h
      subst h
      exact kept_tick (r := p.2) hr
  | timerFires => simp only [exec, Option.some.injEq] at h; subst h; exact ⟨rfl, rfl, rfl, rfl, [], by simp [timerFires]⟩
  | finishRun id => simp only [exec, Option.some.injEq] at h; subst h; exact ⟨rfl, rfl, rfl, rfl, [], by simp [finishRun]⟩

end Sched
end Asyncz
