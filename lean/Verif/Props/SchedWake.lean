import Verif.Props.SchedLife
/-!
# The scheduler wakes up in time (C33)
-/
namespace Asyncz
namespace Sched
variable {σ τ φ : Type} {O : StoreOps σ (Body τ φ)}

/-- If the scheduler is running, a wake-up is queued, or the timer is set so that it expires no later than the
next run time of every stored task, or than `n` if that is later. -/
def Timely (O : StoreOps σ (Body τ φ)) (n : Int) (s : State σ τ φ) : Prop :=
  s.mode = .running → s.woken = true ∨
    ∀ a i t r, entry O s a i = some t → t.nrt = some r → ∃ x, s.timer = some x ∧ x ≤ max r n

/-- Histories of a scheduler with the clock at which they end.  Excluded are forced manual runs and passes that
raise.  `δ` bounds the delay: it is at least the retry interval if some pass found a lock taken or a store's
backend failing. -/
inductive Timeline (L : LawfulStore O) (c : Cfg τ) (δ : Int) : Int → State σ τ φ → Prop
  | init (n : Int) : Timeline L c δ n State.init
  | call {n : Int} {s s' : State σ τ φ} {e : Env τ} {fuel : Nat} {k : Call σ τ φ} (hs : Timeline L c δ n s)
      (hn : n ≤ e.now) (hk : k.Ok L) (hq : k ≠ .tick ∧ ∀ id store rf, k ≠ .runTask id store true rf)
      (h : exec O c e fuel k s = some s') : Timeline L c δ e.now s'
  | pass {n : Int} {s s' : State σ τ φ} {e : Env τ} {fuel : Nat} (hs : Timeline L c δ n s)
      (hn : n ≤ e.now) (hl : c.retryInterval ≤ δ ∨ (e.procLock = true ∧ ∀ a, e.storeLock a = true ∧ e.dueOk a = true))
      (h : tick O c e fuel s = some (s', .ok ())) : Timeline L c δ e.now s'

/-- times only go, or come in place of times that have passed; the timer stays -/
def Calm (O : StoreOps σ (Body τ φ)) (n : Int) (s s' : State σ τ φ) : Prop :=
  s'.timer = s.timer ∧ s'.woken = s.woken ∧ ∀ a i t r, entry O s' a i = some t → t.nrt = some r →
    ∃ t0 r0, entry O s a i = some t0 ∧ t0.nrt = some r0 ∧ (r0 = r ∨ r0 ≤ n)

theorem Calm.refl (n : Int) (s : State σ τ φ) : Calm O n s s :=
  ⟨rfl, rfl, fun _ _ t r h1 h2 => ⟨t, r, h1, h2, .inl rfl⟩⟩

theorem Calm.trans {n : Int} {s s' s'' : State σ τ φ} (h : Calm O n s s') (h' : Calm O n s' s'') : Calm O n s s'' := by
  refine ⟨h'.1.trans h.1, h'.2.1.trans h.2.1, fun a i t r h1 h2 => ?_⟩
  obtain ⟨t1, r1, x1, x2, x3⟩ := h'.2.2 a i t r h1 h2
  obtain ⟨t0, r0, y1, y2, y3⟩ := h.2.2 a i t1 r1 x1 x2
  exact ⟨t0, r0, y1, y2, by omega⟩

/-- what a call does to the wake-up: the scheduler does not run, a wake-up is queued, or nothing needs one -/
def Safe (O : StoreOps σ (Body τ φ)) (n : Int) (s s' : State σ τ φ) : Prop :=
  s'.mode ≠ .running ∨ s'.woken = true ∨ (s.mode = .running ∧ Calm O n s s')

theorem calm_stores {n : Int} {s s' : State σ τ φ} (ht : s'.timer = s.timer) (hw : s'.woken = s.woken)
    (hs : s'.stores = s.stores) : Calm O n s s' :=
  ⟨ht, hw, fun a i t r h1 h2 => ⟨t, r, by rw [entry_look, ← hs]; exact h1, h2, .inl rfl⟩⟩

theorem calm_less {n : Int} {s s' : State σ τ φ} (ht : s'.timer = s.timer) (hw : s'.woken = s.woken)
    (hs : ∀ b j, entry O s' b j = none ∨ entry O s' b j = entry O s b j) : Calm O n s s' := by
  refine ⟨ht, hw, fun a i t r h1 h2 => ?_⟩
  rcases hs a i with h | h
  · rw [h] at h1; cases h1
  · exact ⟨t, r, by rw [← h]; exact h1, h2, .inl rfl⟩

theorem calm_deleteTask (L : LawfulStore O) {n : Int} {s : State σ τ φ} (hw : WF L s) (hm : s.mode ≠ .stopped) (id : String)
    (store : Option String) : Calm O n s (deleteTask O id store s).1 := by
  rcases deleteTask_spec L hw hm id store with h | ⟨t, a, h⟩
  · obtain ⟨_, _, _, _, hf, _, he⟩ := h
    exact calm_less hf.timer hf.woken fun b j => .inr (he b j)
  · obtain ⟨_, _, _, _, hf, _, he⟩ := h
    refine calm_less hf.timer hf.woken fun b j => ?_
    rw [he, put]
    split
    · exact .inl rfl
    · exact .inr rfl

theorem safe_update (L : LawfulStore O) {n : Int} {s : State σ τ φ} (hw : WF L s) (hm : s.mode = .running) (id : String)
    (store : Option String) (f : T τ φ → Option (T τ φ)) (hf : ∀ t t', f t = some t' → t'.id = t.id) :
    Safe O n s (updateTask O id store f s).1 := by
  have hm' : s.mode ≠ .stopped := by rw [hm]; decide
  rcases updateTask_spec L hw hm' id store f hf with ⟨_, h⟩ | ⟨t, a, _, ⟨_, h⟩ | ⟨t', _, _, _, _, h, _⟩⟩
  · rw [h]; exact .inr (.inr ⟨hm, .refl _ _⟩)
  · rw [h]; exact .inr (.inr ⟨hm, .refl _ _⟩)
  · exact .inr (.inl (by rw [h.woken, if_pos hm]))

theorem safe_realAddTask (L : LawfulStore O) {n : Int} {s : State σ τ φ} (hw : WF L s) (hm : s.mode = .running) (e : Env τ)
    (t : T τ φ) (replace start : Bool) (hst : start = false → t.nrt = none) :
    Safe O n s (realAddTask O e t replace start none s).1 := by
  rcases realAddTask_spec L hw e t replace start none with ⟨h, _⟩ | ⟨k, hk, _, _, _, _, _, _, hf, _, he⟩
  · rw [h]; exact .inr (.inr ⟨hm, .refl _ _⟩)
  · cases start with
    | true => exact .inr (.inl (by rw [hf.woken]; simp [hm]))
    | false =>
      have hkn : k = none := by
        simp only [firstTime, hst rfl, Except.ok.injEq] at hk
        exact hk.symm
      refine .inr (.inr ⟨hm, by rw [hf.timer], by rw [hf.woken]; simp, fun a i u r h1 h2 => ?_⟩)
      rw [he, put] at h1
      split at h1
      · cases h1; rw [hkn] at h2; cases h2
      · exact ⟨u, r, h1, h2, .inl rfl⟩

theorem calm_afterManualRun (L : LawfulStore O) {s : State σ τ φ} (hw : WF L s) (hm : s.mode = .running) (e : Env τ)
    (t : T τ φ) (a : String) (last : Int) (rf : Bool) (r0 : Int) (ht : entry O s a t.id = some t)
    (hr : t.nrt = some r0) (hle : r0 ≤ e.now) : Calm O e.now s (afterManualRun O e t a last rf s).1 := by
  have hm' : s.mode ≠ .stopped := by rw [hm]; decide
  obtain ⟨hid, st, hg, hi, hmap⟩ := look_id L (wf_iff.1 hw) ht
  simp only [afterManualRun]
  split
  · exact .refl _ _
  · rename_i n hn
    split
    · have := calm_deleteTask L (n := e.now) hw hm' t.id (some a)
      split <;> rename_i hd <;> rw [hd] at this <;> exact this
    · obtain ⟨h1, h2, h3⟩ := store_update L hw hg (t := { t with nrt := manualNext e.now n }) (u := t) hmap
      rw [hg]
      simp only []
      cases hs : O.step st (.update { t with nrt := manualNext e.now n }) with
      | mk st' r =>
        rw [hs] at h1 h2 h3
        simp only at h1 h2 h3
        subst h1
        refine ⟨rfl, rfl, fun b j u r h4 h5 => ?_⟩
        simp only [] at h4
        rw [h3, put] at h4
        split at h4
        · rename_i hb
          rw [hb.1, hb.2]
          exact ⟨t, r0, ht, hr, .inr hle⟩
        · exact ⟨u, r, h4, h5, .inl rfl⟩

theorem calm_runTask (L : LawfulStore O) {s s' : State σ τ φ} (hw : WF L s) (hm : s.mode = .running) {e : Env τ}
    {fuel : Nat} {id : String} {store : Option String} {rf : Bool} {r : Except Err (Option (T τ φ))}
    (h : runTask O e fuel id store false rf s = some (s', r)) : Calm O e.now s s' := by
  have hm' : s.mode ≠ .stopped := by rw [hm]; decide
  simp only [runTask, if_neg hm'] at h
  split at h
  · cases h; exact .refl _ _
  · rename_i t a hf
    obtain ⟨_, hl, _⟩ := findInStores_some L (wf_iff.1 hw) hf
    obtain ⟨hid, _⟩ := look_id L (wf_iff.1 hw) hl
    split at h
    · cases h
    · cases h; exact .refl _ _
    · rename_i all hall
      obtain ⟨q1, q2, _⟩ := runTimes_cons hall
      simp only [Option.some.injEq] at h
      have key : Calm O e.now s (runFound O e t a all false rf s).1 := by
        simp only [runFound]
        split
        · exact .refl _ _
        · rename_i hne
          simp only [and_true] at hne
          obtain ⟨r0, rest, hall'⟩ := List.exists_cons_of_ne_nil hne
          have hnrt := q2 r0 rest hall'
          have hle := q1 r0 (by rw [hall']; simp)
          split
          · exact .refl _ _
          · rw [if_neg hne]
            generalize coalesce t.body.coalesce all = cc
            obtain ⟨ins, new, hs, _⟩ := sendTask_spec e t.body.executor a t cc.1 s
            split <;> rename_i hd <;> rw [hd] at hs <;> simp only at hs <;> subst hs
            · exact calm_stores rfl rfl rfl
            · exact calm_stores rfl rfl rfl
            · refine Calm.trans (s' := State.emit { s with instances := ins, log := s.log ++ new }
                (.taskSubmitted t.id a cc.1 cc.2 true)) (calm_stores rfl rfl rfl) ?_
              refine calm_afterManualRun L (s := State.emit { s with instances := ins, log := s.log ++ new }
                (.taskSubmitted t.id a cc.1 cc.2 true)) (hw.congr rfl) hm e t a _ rf r0 ?_ hnrt hle
              rw [hid]; exact hl
      rw [h] at key; exact key

theorem safe_exec (L : LawfulStore O) {c : Cfg τ} {e : Env τ} {fuel : Nat} {k : Call σ τ φ} {s s' : State σ τ φ}
    (hw : WF L s) (hk : k.Ok L) (hq : k ≠ .tick ∧ ∀ id store rf, k ≠ .runTask id store true rf)
    (h : exec O c e fuel k s = some s') : Safe O e.now s s' := by
  by_cases hm : s.mode = .running
  · have hm' : s.mode ≠ .stopped := by rw [hm]; decide
    have same : Safe O e.now s s := .inr (.inr ⟨hm, .refl _ _⟩)
    cases k with
    | tick => exact absurd rfl hq.1
    | runTask id store force rf =>
      cases force with
      | true => exact absurd rfl (hq.2 id store rf)
      | false =>
        simp only [exec] at h
        obtain ⟨⟨s1, r⟩, h1, rfl⟩ := Option.map_eq_some_iff.1 h
        exact .inr (.inr ⟨hm, calm_runTask L hw hm h1⟩)
    | start p =>
      simp only [exec, Option.some.injEq] at h; subst h
      simp only [start]
      split
      · exact .inr (.inr ⟨hm, calm_stores rfl rfl rfl⟩)
      · exact .inr (.inr ⟨hm, calm_stores rfl rfl rfl⟩)
    | shutdown =>
      simp only [exec, Option.some.injEq] at h; subst h
      simp only [shutdown]
      split
      · exact .inr (.inr ⟨hm, calm_stores rfl rfl rfl⟩)
      · exact .inl (by simp)
    | pause =>
      simp only [exec, Option.some.injEq] at h; subst h
      simp [pause, hm, Safe, State.emit]
    | resume =>
      simp only [exec, Option.some.injEq] at h; subst h
      simpa [resume, hm] using same
    | addTask t nrt replace =>
      simp only [exec, Option.some.injEq] at h; subst h
      simp only [addTask, if_neg hm']
      refine safe_realAddTask L hw hm e _ _ _ fun hd => ?_
      simp only [ne_eq, decide_not, Bool.not_eq_eq_eq_not, Bool.not_false, decide_eq_true_eq] at hd
      subst hd; rfl
    | update id store f =>
      simp only [exec, Option.some.injEq] at h; subst h
      exact safe_update L hw hm _ _ _ hk
    | pauseTask id store =>
      simp only [exec, Option.some.injEq] at h; subst h
      exact safe_update L hw hm _ _ _ (fun t t' h => by cases h; rfl)
    | rescheduleTask id store g =>
      simp only [exec, Option.some.injEq] at h; subst h
      simp only [rescheduleTask]
      split
      · exact same
      · exact safe_update L hw hm _ _ _ (fun t t' h => by cases h; rfl)
    | resumeTask id store =>
      simp only [exec, Option.some.injEq] at h; subst h
      simp only [resumeTask]
      cases lookupTask O s id store with
      | none => exact same
      | some p =>
        obtain ⟨t, loc⟩ := p
        simp only []
        cases e.next 2 t.body.trigger none e.now with
        | error x => exact same
        | ok n => cases n with
          | none =>
            simp only []
            have : Safe O e.now s (deleteTask O t.id loc s).1 := .inr (.inr ⟨hm, calm_deleteTask L hw hm' t.id loc⟩)
            split <;> rename_i hd <;> rw [hd] at this <;> exact this
          | some n =>
            simp only []
            have := safe_update L (n := e.now) hw hm id loc (fun t => some { t with nrt := some n })
              (fun t t' h => by cases h; rfl)
            split <;> rename_i hd <;> rw [hd] at this <;> exact this
    | deleteTask id store =>
      simp only [exec, Option.some.injEq] at h; subst h
      exact .inr (.inr ⟨hm, calm_deleteTask L hw hm' id store⟩)
    | removeAllTasks store =>
      simp only [exec, Option.some.injEq] at h; subst h
      simp only [removeAllTasks, if_neg hm']
      refine .inr (.inr ⟨hm, calm_less rfl rfl fun b j => ?_⟩)
      rw [entry_look]
      simp only [State.emit]
      rw [(stores_clear L store (wf_iff.1 hw)).2.2 b j]
      split
      · exact .inl rfl
      · exact .inr rfl
    | addExecutor x b =>
      simp only [exec, Option.some.injEq] at h; subst h
      simp only [addExecutor]
      split
      · exact same
      · exact .inr (.inr ⟨hm, calm_stores rfl rfl rfl⟩)
    | removeExecutor b =>
      simp only [exec, Option.some.injEq] at h; subst h
      simp only [removeExecutor]
      split
      · exact same
      · exact .inr (.inr ⟨hm, calm_stores rfl rfl rfl⟩)
    | addStore st b =>
      simp only [exec, Option.some.injEq] at h; subst h
      simp only [addStore]
      split
      · exact same
      · refine .inr (.inl ?_)
        simp [State.wakeIfRunning, State.emit, State.setStore, hm, State.wake]
    | removeStore b =>
      simp only [exec, Option.some.injEq] at h; subst h
      simp only [removeStore]
      split
      · exact same
      · refine .inr (.inr ⟨hm, calm_less rfl rfl fun a j => ?_⟩)
        rw [entry_look, entry_look]
        simp only [State.emit, look]
        by_cases hb : a = b
        · subst hb
          rw [Dict.get?_erase (wf_iff.1 hw).1, if_pos rfl]; exact .inl rfl
        · rw [Dict.get?_erase (wf_iff.1 hw).1, if_neg hb]; exact .inr rfl
    | timerFires =>
      simp only [exec, Option.some.injEq] at h; subst h
      exact .inr (.inl rfl)
    | finishRun id =>
      simp only [exec, Option.some.injEq] at h; subst h
      exact .inr (.inr ⟨hm, calm_stores rfl rfl rfl⟩)
  · by_cases hp : k.Plain
    · exact .inl (by rw [(kept_exec hp h).mode]; exact hm)
    · cases k with
      | start p =>
        simp only [exec, Option.some.injEq] at h; subst h
        simp only [start]
        split
        · exact .inl hm
        · by_cases hs : s.mode = .stopped
          · simp only [hs, ne_eq, not_true_eq_false, if_false]
            have hk2 := kept_addPending (O := O) e (if c.lockPath then some (e.now + c.startupDelay) else none) s.pending
              (withDefaults O c { s with refs := s.refs + 1 })
            have hd0 : (withDefaults O c { s with refs := s.refs + 1 }).mode = s.mode := by
              simp only [withDefaults, addStore, addExecutor]
              split <;> split <;> simp [State.wakeIfRunning, State.setStore, State.emit, State.wake, hs]
            split
            · rename_i s2 x hd
              rw [hs] at hd0
              simp only [hs, hd] at hk2
              exact .inl (by rw [hk2.mode, hd0]; decide)
            · cases p
              · exact .inr (.inl (by simp [State.wake]))
              · exact .inl (by simp [State.emit])
          · simp only [ne_eq, hs, not_false_eq_true, if_true]; exact .inl hm
      | shutdown =>
        simp only [exec, Option.some.injEq] at h; subst h
        simp only [shutdown]
        split
        · exact .inl hm
        · split
          · exact .inl hm
          · exact .inl (by simp)
      | pause =>
        simp only [exec, Option.some.injEq] at h; subst h
        cases hs : s.mode <;> simp [pause, hs, Safe, State.emit] at hm ⊢
      | resume =>
        simp only [exec, Option.some.injEq] at h; subst h
        cases hs : s.mode <;> simp [resume, hs, Safe, State.emit, State.wake] at hm ⊢
      | addExecutor x b =>
        simp only [exec, Option.some.injEq] at h; subst h
        refine .inl ?_
        simp only [addExecutor]; split <;> exact hm
      | removeExecutor b =>
        simp only [exec, Option.some.injEq] at h; subst h
        refine .inl ?_
        simp only [removeExecutor]; split <;> exact hm
      | addStore st b =>
        simp only [exec, Option.some.injEq] at h; subst h
        refine .inl ?_
        simp only [addStore]; split
        · exact hm
        · simp only [State.wakeIfRunning]; split <;> exact hm
      | removeStore b =>
        simp only [exec, Option.some.injEq] at h; subst h
        refine .inl ?_
        simp only [removeStore]; split <;> exact hm
      | _ => exact absurd trivial hp

theorem timely_tick (L : LawfulStore O) {c : Cfg τ} {e : Env τ} {fuel : Nat} {s s' : State σ τ φ} {δ : Int} (hδ : 0 ≤ δ)
    (hw : WF L s) (hl : c.retryInterval ≤ δ ∨ (e.procLock = true ∧ ∀ a, e.storeLock a = true ∧ e.dueOk a = true))
    (h : tick O c e fuel s = some (s', .ok ())) : Timely O (e.now + δ) s' := by
  intro hr
  have hm : s.mode = .running := by rw [← (kept_tick h).mode]; exact hr
  right
  simp only [tick] at h
  split at h
  · cases h
  · cases h
  · rename_i s1 w h1
    simp only [Option.some.injEq, Prod.mk.injEq, and_true] at h
    subst h
    have hlate : ∀ w r, NoLater w r → ∃ x, (waitTime c e .running w).map (e.now + ·) = some x ∧ x ≤ max r e.now := by
      rintro w r ⟨y, rfl, hy⟩
      refine ⟨e.now + min (max (y - e.now) 0) c.timeoutMax, rfl, ?_⟩
      omega
    by_cases hp : e.procLock = true
    · obtain ⟨new, evs, wake, _, _, hw1, _, _, hst, hno, rfl⟩ := processTasks_spec L
        (s := { s with woken := false, timer := none }) (hw.congr rfl) hm hp h1
      intro a i t r ha hr'
      rw [entry_look] at ha
      obtain ⟨_, st', hg', _, hmap⟩ := look_id L (d := s1.stores) (wf_iff.1 hw1) ha
      cases hg : s.stores.get? a with
      | none =>
        exfalso
        have hk : a ∈ s1.stores.keys := Dict.mem_keys_of_mem (Dict.mem_of_get? hg')
        rw [(rel_processTasks (kept_passRel O e) h1).keys] at hk
        exact (Dict.get?_eq_none _ _).1 hg hk
      | some st =>
        obtain ⟨st2, g2, _, n1, n2⟩ := hst a st hg
        rw [hg'] at g2
        cases g2
        cases hlk : e.storeLock a && e.dueOk a with
        | true =>
          obtain ⟨x, x1, x2⟩ := hlate wake r (n1 hlk i t r hmap hr')
          exact ⟨x, x1, by omega⟩
        | false =>
          obtain ⟨x, x1, x2⟩ := hlate wake _ (n2 hlk)
          refine ⟨x, x1, ?_⟩
          rcases hl with hl | ⟨_, hl⟩
          · omega
          · rw [(hl a).1, (hl a).2] at hlk; cases hlk
    · rcases hl with hl | ⟨hl, _⟩
      · simp only [processTasks, hm, if_neg (show ¬ Mode.running = Mode.paused by decide)] at h1
        rw [if_neg hp] at h1
        cases h1
        intro a i t r _ _
        obtain ⟨x, x1, x2⟩ := hlate (earlier none (e.now + c.retryInterval)) _ (earlier_le _ _).1
        exact ⟨x, x1, by omega⟩
      · exact absurd hl hp

theorem Timeline.reachable {L : LawfulStore O} {c : Cfg τ} {δ n : Int} {s : State σ τ φ} (h : Timeline L c δ n s) :
    Reachable L c s := by
  induction h with
  | init => exact .init
  | call _ _ hk _ h ih => exact .call ih hk h
  | pass hs hn hl h ih =>
    rename_i e fuel
    exact .call (k := .tick) (e := e) (fuel := fuel) ih trivial (by simp [exec, h])

/-- **C33** (partial): after any history of calls (but forced manual runs) and passes that do not raise, the clock
going forward, a running scheduler has a wake-up queued, or its timer expires no later than the next run time of
every stored task; for a task whose time has already passed, no later than now.  If a pass found a lock taken or a
store's backend failing, the tasks may be up to the retry interval late.  Without the exclusions it is false:
`C33_forced_run_witness`, `C33_raise_witness`. -/
theorem C33_timely_partial (L : LawfulStore O) (c : Cfg τ) (δ : Int) (hδ : 0 ≤ δ) (n : Int) (s : State σ τ φ)
    (h : Timeline L c δ n s) (hr : s.mode = .running) : s.woken = true ∨
    ∀ a i t r, entry O s a i = some t → t.nrt = some r → ∃ x, s.timer = some x ∧ x ≤ max r (n + δ) := by
  revert hr
  show Timely O (n + δ) s
  induction h with
  | init => intro hr; cases hr
  | call hs hn hk hq h ih =>
    rename_i n s s' e fuel k
    intro hr
    rcases safe_exec L hs.reachable.wf hk hq h with h1 | h1 | ⟨hm, h1, h2, h3⟩
    · exact absurd hr h1
    · exact .inl h1
    · rcases ih hm with h4 | h4
      · exact .inl (by rw [h2, h4])
      · right
        intro a i t r ha hb
        obtain ⟨t0, r0, y1, y2, y3⟩ := h3 a i t r ha hb
        obtain ⟨x, x1, x2⟩ := h4 a i t0 r0 y1 y2
        refine ⟨x, by rw [h1, x1], ?_⟩
        rcases y3 with rfl | y3 <;> omega
  | pass hs hn hl h ih => exact timely_tick L hδ hs.reachable.wf hl h

/-- **C33** (no failures): if no pass ever meets a taken lock or a failing backend, the timer is exact. -/
theorem C33_exact_partial (L : LawfulStore O) (c : Cfg τ) (n : Int) (s : State σ τ φ)
    (h : Timeline L c 0 n s) (hr : s.mode = .running) (hw : s.woken = false) (a i : String) (t : T τ φ) (r : Int)
    (ha : entry O s a i = some t) (ht : t.nrt = some r) (hnow : n ≤ r) : ∃ x, s.timer = some x ∧ x ≤ r := by
  rcases C33_timely_partial L c 0 (Int.le_refl _) n s h hr with h1 | h1
  · rw [hw] at h1; cases h1
  · obtain ⟨x, x1, x2⟩ := h1 a i t r ha ht
    exact ⟨x, x1, by omega⟩

/-! ### Example and counterexamples -/

/-- a running scheduler after one pass: its timer, whether it is woken, and the stored times -/
def exWake (s : State MS Int Unit) : Mode × Option Int × Bool × List (Option (Option Int)) :=
  (s.mode, s.timer, s.woken, (exSees s [("s1", "a"), ("s2", "a"), ("s2", "b")]).1)

/-- the calls of the example are a history of a scheduler -/
theorem exHistory_timeline {s : State MS Int Unit} (h1 : execAll 7 exHistory State.init = some s) :
    Timeline Memory.lawful exCfg 0 7 s := by
  have key : ∀ (ks : List (Call MS Int Unit)) (s0 s1 : State MS Int Unit), (∀ k ∈ ks, k.Ok Memory.lawful) →
      (∀ k ∈ ks, k ≠ .tick ∧ ∀ id store rf, k ≠ .runTask id store true rf) →
      Timeline Memory.lawful exCfg 0 7 s0 → execAll 7 ks s0 = some s1 → Timeline Memory.lawful exCfg 0 7 s1 := by
    intro ks
    induction ks with
    | nil => intro s0 s1 _ _ hs he; cases he; exact hs
    | cons k ks ih =>
      intro s0 s1 hk hq hs he
      simp only [execAll] at he
      obtain ⟨s2, e1, e2⟩ := Option.bind_eq_some_iff.1 he
      exact ih s2 s1 (fun k h => hk k (by simp [h])) (fun k h => hq k (by simp [h]))
        (.call (e := exEnvAt 7) hs (by decide) (hk k (by simp)) (hq k (by simp)) e1) e2
  refine key exHistory _ _ exHistory_ok ?_ (.init 7) h1
  intro k hk
  simp only [exHistory, List.mem_cons, List.not_mem_nil, or_false] at hk
  rcases hk with rfl | rfl | rfl | rfl | rfl | rfl <;> simp

set_option synthInstance.maxSize 2048 in
set_option synthInstance.maxHeartbeats 200000 in
/-- The hypotheses are met by a running scheduler whose timer is set for the earliest of two times. -/
example : ∃ s : State MS Int Unit, Timeline Memory.lawful exCfg 0 7 s ∧
    exWake s = (.running, some 17, false, [some (some 17), some (some 33), none]) := by
  have h : ((execAll 7 exHistory State.init).bind fun s => (tick Memory.ops exCfg (exEnvAt 7) 20 s).bind fun r =>
      match r with | (s', .ok _) => some (exWake s') | (_, .error _) => none) =
      some (.running, some 17, false, [some (some 17), some (some 33), none]) := by decide +kernel
  obtain ⟨s, h1, h2⟩ := Option.bind_eq_some_iff.1 h
  obtain ⟨⟨s', r⟩, h3, h4⟩ := Option.bind_eq_some_iff.1 h2
  cases r with
  | error x => cases h4
  | ok u =>
    simp only [Option.some.injEq] at h4
    refine ⟨s', .pass (e := exEnvAt 7) (fuel := 20) (n := 7) (s := s) (exHistory_timeline h1) (by decide) (.inr ⟨rfl, fun _ => ⟨rfl, rfl⟩⟩) h3, h4⟩

/-- **C33, counterexample**: a forced manual run of a paused task stores its next run time (17), but neither
sets the timer nor queues a wake-up: until something else wakes the scheduler, the task does not run. -/
theorem C33_forced_run_witness : ∃ s : State MS Int Unit,
    execAll 7 [.start false, .addTask ⟨"a", some 7, exBody 10 "default" "default" false 3⟩ none false,
      .pauseTask "a" none, .tick, .runTask "a" none true true] State.init = some s ∧
    s.mode = .running ∧ s.timer = none ∧ s.woken = false ∧
    (entry Memory.ops s "default" "a").map Task.nrt = some (some 17) := by
  have h : (execAll 7 [.start false, .addTask ⟨"a", some 7, exBody 10 "default" "default" false 3⟩ none false,
      .pauseTask "a" none, .tick, .runTask "a" none true true] State.init).map (fun s =>
        (s.mode, s.timer, s.woken, (entry Memory.ops s "default" "a").map Task.nrt)) =
      some (.running, none, false, some (some 17)) := by decide +kernel
  obtain ⟨s, h1, h2⟩ := Option.map_eq_some_iff.1 h
  simp only [Prod.mk.injEq] at h2
  exact ⟨s, h1, h2⟩

/-- **C33, counterexample**: if a trigger raises in a pass, the timer is not set again, though tasks are due. -/
theorem C33_raise_witness : ∃ (s s' : State MS Int Unit) (e : Env Int) (x : Err),
    execAll 7 [.start false, .addTask ⟨"a", some 7, exBody 10 "default" "default" false 3⟩ none false] State.init = some s ∧
    tick Memory.ops exCfg e 20 s = some (s', .error x) ∧ s'.mode = .running ∧ s'.timer = none ∧ s'.woken = false ∧
    (entry Memory.ops s' "default" "a").map Task.nrt = some (some 7) := by
  have h : ((execAll 7 [.start false, .addTask ⟨"a", some 7, exBody 10 "default" "default" false 3⟩ none false]
      State.init).bind fun s => (tick Memory.ops exCfg { exEnvAt 7 with next := fun _ _ _ _ => .error .valueError } 20 s).bind
        fun r => match r with
          | (s', .error _) => some (s'.mode, s'.timer, s'.woken, (entry Memory.ops s' "default" "a").map Task.nrt)
          | (_, .ok _) => none) = some (.running, none, false, some (some 7)) := by decide +kernel
  obtain ⟨s, h1, h2⟩ := Option.bind_eq_some_iff.1 h
  obtain ⟨⟨s', r⟩, h3, h4⟩ := Option.bind_eq_some_iff.1 h2
  cases r with
  | ok u => cases h4
  | error x =>
    simp only [Option.some.injEq, Prod.mk.injEq] at h4
    exact ⟨s, s', _, x, h1, h3, h4⟩

end Sched
end Asyncz
