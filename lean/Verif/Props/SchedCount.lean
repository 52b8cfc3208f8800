import Verif.Props.SchedTasks
import Verif.Lemmas.SchedCount
/-!
# C28 for the scheduler: counted instances over histories
-/
namespace Asyncz
namespace Sched
variable {σ τ φ : Type} {O : StoreOps σ (Body τ φ)}

/-- the table of instances stays a mapping, and counts change with submissions only -/
def Bal (s s' : State σ τ φ) : Prop := (s.instances.WF → s'.instances.WF) ∧ ∀ i, balance s' i = balance s i

theorem Bal.rfl' {s : State σ τ φ} : Bal s s := ⟨id, fun _ => rfl⟩

theorem Bal.trans {s s' s'' : State σ τ φ} (h : Bal s s') (h' : Bal s' s'') : Bal s s'' :=
  ⟨fun hw => h'.1 (h.1 hw), fun i => (h'.2 i).trans (h.2 i)⟩

theorem Bal.same {s s' : State σ τ φ} (hi : s'.instances = s.instances) (l : List Obs) (hl : s'.log = s.log ++ l)
    (hn : ∀ i, sendCount i l = 0) : Bal s s' :=
  ⟨fun hw => hi ▸ hw, fun i => by simp [balance, count, hi, hl, sendCount_append, hn]⟩

/-- the same instances and the same log -/
theorem Bal.eq {s s' : State σ τ φ} (hi : s'.instances = s.instances) (hl : s'.log = s.log) : Bal s s' :=
  .same hi [] (by simp [hl]) (fun _ => rfl)

theorem bal_emit {s s' : State σ τ φ} (h : Bal s s') (o : Obs) (ho : ∀ ex id st ts, o ≠ .send ex id st ts) :
    Bal s (s'.emit o) := by
  refine h.trans (Bal.same (s := s') (s' := s'.emit o) rfl [o] rfl (fun j => ?_))
  cases o <;> simp [sendCount]
  exact absurd rfl (ho _ _ _ _)

theorem bal_wakeIfRunning {s s' : State σ τ φ} (h : Bal s s') : Bal s s'.wakeIfRunning := by
  unfold State.wakeIfRunning; split
  · exact h.trans (.eq rfl rfl)
  · exact h

theorem wf_passRel (O : StoreOps σ (Body τ φ)) (e : Env τ) :
    PassRel O e (fun s s' => s.instances.WF → s'.instances.WF) where
  refl _ h := h
  trans h h' hw := h' (h hw)
  del id store s hw := by
    simp only [deleteTask]
    split
    · split <;> exact hw
    · split <;> exact hw
  upd _ _ _ _ _ _ _ hw := hw
  obs _ _ _ h := h

theorem bal_deleteTask (id : String) (store : Option String) (s : State σ τ φ) : Bal s (deleteTask O id store s).1 :=
  ⟨(wf_passRel O ⟨0, fun _ _ _ _ => .ok none, fun _ => true, true, fun _ => true, fun _ _ => true⟩).del id store s,
    balance_deleteTask id store s⟩

theorem bal_added {s s' : State σ τ φ} (h : Bal s s') (t : T τ φ) (start : Bool) : Bal s (added t start s') := by
  unfold added
  simp only
  split
  · exact bal_wakeIfRunning (bal_emit h _ (by simp))
  · exact bal_emit h _ (by simp)

theorem bal_realAddTask (e : Env τ) (t : T τ φ) (replace start : Bool) (minD : Option Int) (s : State σ τ φ) :
    Bal s (realAddTask O e t replace start minD s).1 := by
  simp only [realAddTask]
  split
  · exact .rfl'
  · split
    · exact .rfl'
    · split
      · exact bal_added (s' := s.setStore _ _) (Bal.eq rfl rfl) _ _
      · split
        · split
          · exact bal_added (s' := s.setStore _ _) (Bal.eq rfl rfl) _ _
          · exact .eq rfl rfl
        · exact .rfl'

theorem bal_addPending (e : Env τ) (minD : Option Int) (ps : List (T τ φ × Bool × Bool)) (s : State σ τ φ) :
    Bal s (addPending O e minD ps s).1 := by
  induction ps generalizing s with
  | nil => exact .rfl'
  | cons p ps ih =>
    obtain ⟨t, replace, start⟩ := p
    have := bal_realAddTask (O := O) e t replace start minD s
    simp only [addPending]
    split <;> rename_i h <;> rw [h] at this
    · exact this.trans (ih _)
    · exact this.trans (ih _)
    · exact this

theorem bal_updateTask (id : String) (store : Option String) (f : T τ φ → Option (T τ φ)) (s : State σ τ φ) :
    Bal s (updateTask O id store f s).1 := by
  simp only [updateTask]
  split
  · exact .rfl'
  · split
    · exact .rfl'
    · split
      · exact bal_wakeIfRunning (bal_emit (.eq rfl rfl) _ (by simp))
      · split
        · exact .rfl'
        · split
          · exact bal_wakeIfRunning (bal_emit (.eq rfl rfl) _ (by simp))
          · exact .eq rfl rfl

theorem balance_afterManualRun (e : Env τ) (t : T τ φ) (a : String) (last : Int) (rf : Bool) (s : State σ τ φ)
    (i : String) : balance (afterManualRun O e t a last rf s).1 i = balance s i := by
  simp only [afterManualRun]
  split
  · rfl
  · split
    · have := balance_deleteTask (O := O) t.id (some a) s i
      split <;> rename_i h <;> rw [h] at this <;> exact this
    · split
      · rfl
      · split <;> rfl

theorem balance_runFound (e : Env τ) (t : T τ φ) (a : String) (all : List Int) (force rf : Bool) (s : State σ τ φ)
    (i : String) : balance (runFound O e t a all force rf s).1 i = balance s i := by
  simp only [runFound]
  split
  · rfl
  · split
    · rfl
    · generalize (if all = [] then ([e.now], 0) else coalesce t.body.coalesce all) = c
      have := balance_sendTask e t.body.executor a t c.1 s i
      split <;> rename_i h <;> rw [h] at this
      · rw [← this]; exact (bal_emit .rfl' _ (by simp)).2 i
      · exact this
      · rw [balance_afterManualRun, ← this]; exact (bal_emit .rfl' _ (by simp)).2 i

theorem balance_runTask {e : Env τ} {fuel : Nat} {id : String} {store : Option String} {force rf : Bool}
    {s s' : State σ τ φ} {r : Except Err (Option (T τ φ))} (h : runTask O e fuel id store force rf s = some (s', r))
    (i : String) : balance s' i = balance s i := by
  simp only [runTask] at h
  split at h
  · cases h; rfl
  · split at h
    · cases h; rfl
    · split at h
      · cases h
      · cases h; rfl
      · rename_i t a _ _ all _
        have := balance_runFound (O := O) e t a all force rf s i
        simp only [Option.some.injEq] at h
        rw [h] at this; exact this

theorem sendCount_shutdownTasks (c : Cfg τ) (a : String) (ts : List (T τ φ)) (st : σ) (i : String) :
    sendCount i (shutdownTasks O c a ts st).2 = 0 := by
  induction ts generalizing st with
  | nil => rfl
  | cons t ts ih =>
    simp only [shutdownTasks]
    split
    · simp only [sendCount]; exact ih _
    · exact ih _

theorem sendCount_shutdownStores (c : Cfg τ) (d : Dict String σ) (i : String) :
    sendCount i (shutdownStores O c d).2 = 0 := by
  induction d with
  | nil => rfl
  | cons p d ih =>
    obtain ⟨a, st⟩ := p
    simp only [shutdownStores, sendCount_append, sendCount_shutdownTasks]
    simpa using ih

theorem bal_addExecutor (x : Nat) (a : String) (s : State σ τ φ) : Bal s (addExecutor x a s).1 := by
  unfold addExecutor; split
  · exact .rfl'
  · exact bal_emit (.eq rfl rfl) _ (by simp)

theorem bal_addStore (st : σ) (a : String) (s : State σ τ φ) : Bal s (addStore st a s).1 := by
  unfold addStore; split
  · exact .rfl'
  · exact bal_wakeIfRunning (bal_emit (.eq rfl rfl) _ (by simp))

/-- every call but the end of a run changes the counts by its submissions only -/
theorem bal_exec {c : Cfg τ} {e : Env τ} {fuel : Nat} {k : Call σ τ φ} {s s' : State σ τ φ}
    (hk : ∀ id, k ≠ .finishRun id) (h : exec O c e fuel k s = some s') : Bal s s' := by
  cases k with
  | addTask t nrt replace =>
    simp only [exec, Option.some.injEq] at h; subst h
    simp only [addTask]
    split
    · exact .eq rfl rfl
    · exact bal_realAddTask _ _ _ _ _ _
  | start paused =>
    simp only [exec, Option.some.injEq] at h; subst h
    simp only [start]
    split
    · exact .eq rfl rfl
    · split
      · exact .eq rfl rfl
      · have h1 : Bal s (withDefaults O c { s with refs := s.refs + 1 }) :=
          Bal.trans (s' := { s with refs := s.refs + 1 }) (.eq rfl rfl) ((bal_addExecutor _ _ _).trans (bal_addStore _ _ _))
        have h2 := h1.trans (bal_addPending (O := O) e (if c.lockPath then some (e.now + c.startupDelay) else none)
          s.pending _)
        split <;> rename_i hd <;> rw [hd] at h2
        · exact h2
        · split
          · exact bal_emit (h2.trans (.eq rfl rfl)) _ (by simp)
          · exact Bal.trans (bal_emit (h2.trans (.eq rfl rfl)) _ (by simp)) (.eq rfl rfl)
  | shutdown =>
    simp only [exec, Option.some.injEq] at h; subst h
    simp only [shutdown]
    split
    · exact .eq rfl rfl
    · split
      · exact .eq rfl rfl
      · refine .same rfl _ (List.append_assoc _ _ _) (fun i => ?_)
        rw [sendCount_append, sendCount_shutdownStores]; rfl
  | pause =>
    simp only [exec, Option.some.injEq] at h; subst h
    simp only [pause]
    split
    · exact .rfl'
    · exact bal_emit (.eq rfl rfl) _ (by simp)
    · exact .rfl'
  | resume =>
    simp only [exec, Option.some.injEq] at h; subst h
    simp only [resume]
    split
    · exact .rfl'
    · exact Bal.trans (bal_emit (.eq rfl rfl) _ (by simp)) (.eq rfl rfl)
    · exact .rfl'
  | update id store f => simp only [exec, Option.some.injEq] at h; subst h; exact bal_updateTask _ _ _ _
  | pauseTask id store => simp only [exec, Option.some.injEq] at h; subst h; exact bal_updateTask _ _ _ _
  | rescheduleTask id store g =>
    simp only [exec, Option.some.injEq] at h; subst h
    simp only [rescheduleTask]
    split
    · exact .rfl'
    · exact bal_updateTask _ _ _ _
  | resumeTask id store =>
    simp only [exec, Option.some.injEq] at h; subst h
    simp only [resumeTask]
    cases lookupTask O s id store with
    | none => exact .rfl'
    | some p =>
      obtain ⟨t, loc⟩ := p
      simp only []
      cases e.next 2 t.body.trigger none e.now with
      | error x => exact .rfl'
      | ok n => cases n with
        | none =>
          simp only []
          have := bal_deleteTask (O := O) t.id loc s
          split <;> rename_i hd <;> rw [hd] at this <;> exact this
        | some n =>
          simp only []
          have := bal_updateTask (O := O) id loc (fun t => some { t with nrt := some n }) s
          split <;> rename_i hd <;> rw [hd] at this <;> exact this
  | runTask id store force rf =>
    simp only [exec] at h
    cases hr : runTask O e fuel id store force rf s with
    | none => rw [hr] at h; cases h
    | some p =>
      rw [hr] at h
      simp only [Option.map_some, Option.some.injEq] at h
      subst h
      exact ⟨rel_runTask (wf_passRel O e) (r := p.2) hr, balance_runTask (r := p.2) hr⟩
  | deleteTask id store => simp only [exec, Option.some.injEq] at h; subst h; exact bal_deleteTask _ _ _
  | removeAllTasks store =>
    simp only [exec, Option.some.injEq] at h; subst h
    simp only [removeAllTasks]
    refine bal_emit ?_ _ (by simp)
    split <;> exact .eq rfl rfl
  | addExecutor x a => simp only [exec, Option.some.injEq] at h; subst h; exact bal_addExecutor _ _ _
  | removeExecutor a =>
    simp only [exec, Option.some.injEq] at h; subst h
    simp only [removeExecutor]
    split
    · exact .rfl'
    · exact bal_emit (.eq rfl rfl) _ (by simp)
  | addStore st a => simp only [exec, Option.some.injEq] at h; subst h; exact bal_addStore _ _ _
  | removeStore a =>
    simp only [exec, Option.some.injEq] at h; subst h
    simp only [removeStore]
    split
    · exact .rfl'
    · exact bal_emit (.eq rfl rfl) _ (by simp)
  | tick =>
    simp only [exec] at h
    cases hr : tick O c e fuel s with
    | none => rw [hr] at h; cases h
    | some p =>
      rw [hr] at h
      simp only [Option.map_some, Option.some.injEq] at h
      subst h
      simp only [tick] at hr
      split at hr
      · cases hr
      · rename_i h1
        cases hr
        have hw := rel_processTasks (wf_passRel O e) h1
        have hb := fun i => balance_processTasks h1 i
        exact ⟨hw, hb⟩
      · rename_i s1 w h1
        cases hr
        have hw := rel_processTasks (wf_passRel O e) h1
        have hb := fun i => balance_processTasks h1 i
        exact ⟨hw, hb⟩
  | timerFires => simp only [exec, Option.some.injEq] at h; subst h; exact .eq rfl rfl
  | finishRun id => exact absurd rfl (hk id)

theorem count_finishRun (id : String) (s : State σ τ φ) (hd : s.instances.WF) (i : String) :
    count (finishRun id s) i = count s i - if i = id then 1 else 0 := by
  unfold finishRun count
  simp only
  by_cases h : i = id
  · subst h
    split
    · rename_i h0
      rw [Dict.get?_erase hd]
      simp; omega
    · rw [Dict.get?_set]; simp
  · split
    · rw [Dict.get?_erase hd]; simp [h]
    · rw [Dict.get?_set]; simp [h]

/-- A history of a scheduler from its creation: the calls and the state after them.  Every call meets its
own environment (clock, answers of triggers, locks, backends and executors). -/
inductive CallHistory (O : StoreOps σ (Body τ φ)) (c : Cfg τ) : List (Call σ τ φ) → State σ τ φ → Prop
  | nil : CallHistory O c [] State.init
  | snoc {ks : List (Call σ τ φ)} {s s' : State σ τ φ} {e : Env τ} {fuel : Nat} (k : Call σ τ φ)
      (h : CallHistory O c ks s) (hk : exec O c e fuel k s = some s') : CallHistory O c (ks ++ [k]) s'

/-- the runs of `id` that have ended -/
def finished (id : String) (ks : List (Call σ τ φ)) : Nat :=
  (ks.filter (fun k => match k with | .finishRun i => i == id | _ => false)).length

/-- **C28 for the scheduler.** After every history of calls, the recorded number of running instances of a
task is the number of its submissions minus the number of its runs that have ended: none is lost, none is
counted twice, whatever passes, manual runs, updates, removals, starts and shutdowns came between. -/
theorem C28_scheduler_count {c : Cfg τ} {ks : List (Call σ τ φ)} {s : State σ τ φ} (h : CallHistory O c ks s) (i : String) :
    count s i = (sendCount i s.log : Int) - (finished i ks : Int) := by
  have : s.instances.WF ∧ balance s i = - (finished i ks : Int) := by
    induction h with
    | nil => exact ⟨Dict.WF.nil, rfl⟩
    | @snoc ks s s' e fuel k h hk ih =>
      by_cases hf : ∃ id, k = .finishRun id
      · obtain ⟨id, rfl⟩ := hf
        simp only [exec, Option.some.injEq] at hk
        subst hk
        refine ⟨?_, ?_⟩
        · unfold finishRun; simp only; split
          · exact ih.1.erase _
          · exact ih.1.set _ _
        · have h1 := count_finishRun id s ih.1 i
          have h2 := ih.2
          unfold balance at h2 ⊢
          rw [h1]
          have h3 : (finishRun id s).log = s.log := rfl
          rw [h3]
          unfold finished at h2 ⊢
          rw [List.filter_append, List.length_append]
          by_cases hi : i = id
          · subst hi; simp; omega
          · have : (id == i) = false := by simpa using fun e => hi e.symm
            simp [hi, this]; omega
      · have hb := bal_exec (fun id he => hf ⟨id, he⟩) hk
        refine ⟨hb.1 ih.1, ?_⟩
        rw [hb.2 i, ih.2]
        unfold finished
        rw [List.filter_append, List.length_append]
        cases k with
        | finishRun id => exact absurd ⟨id, rfl⟩ hf
        | _ => simp
  have h2 := this.2
  unfold balance at h2
  omega

/-- so a task is never refused for its maximum while fewer than `max_instances` of its runs are going on -/
theorem C28_scheduler_not_refused {c : Cfg τ} {ks : List (Call σ τ φ)} {s : State σ τ φ} (h : CallHistory O c ks s)
    {e : Env τ} {ex a : String} {t : T τ φ} {times : List Int}
    (hlt : (sendCount t.id s.log : Int) - (finished t.id ks : Int) < t.body.maxInst) :
    (sendTask e ex a t times s).2 ≠ .max := by
  have := C28_scheduler_count h t.id
  obtain ⟨ins, new, _, _, _, h4⟩ := sendTask_spec e ex a t times s
  rcases h4 with ⟨h, _⟩ | ⟨_, _, h, _⟩ | ⟨h, _⟩
  · rw [h]; simp
  · unfold count at this; omega
  · rw [h]; simp

theorem execAll_calls {now : Int} {ks done : List (Call MS Int Unit)} {s s' : State MS Int Unit}
    (hs : CallHistory Memory.ops exCfg done s) (h : execAll now ks s = some s') :
    CallHistory Memory.ops exCfg (done ++ ks) s' := by
  induction ks generalizing s done with
  | nil => cases h; simpa using hs
  | cons k ks ih =>
    simp only [execAll] at h
    cases h1 : exec Memory.ops exCfg (exEnvAt now) 20 k s with
    | none => rw [h1] at h; cases h
    | some s1 =>
      rw [h1] at h
      have := ih (.snoc k hs h1) h
      simpa using this

/-- a task that may run twice is sent three times by hand and once refused; one run ends in between -/
def exTwice : List (Call MS Int Unit) :=
  [.addTask ⟨"a", some 7, exBody 10 "default" "default" true 2⟩ none false, .start false, .tick,
    .runTask "a" none true false, .runTask "a" none true false, .finishRun "a", .runTask "a" none true false]

example : (execAll 7 exTwice State.init).map (fun s => (count s "a", sendCount "a" s.log, finished "a" exTwice)) =
    some (2, 3, 1) := by decide +kernel

end Sched
end Asyncz
