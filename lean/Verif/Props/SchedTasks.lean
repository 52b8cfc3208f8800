import Verif.Lemmas.SchedRel
import Verif.Props.SchedHistory
/-!
# Calls about tasks (C36, C37, C38, C39, C41)
-/
namespace Asyncz
namespace Sched
variable {σ τ φ : Type} {O : StoreOps σ (Body τ φ)}

/-! ## C38: which task a call is about -/

theorem named_iff {id : String} {store : Option String} {p : T τ φ × Bool × Bool} :
    pendingMatch id store p = true ↔ Named id store p.1 := by
  simp only [pendingMatch, Named, Bool.and_eq_true, Bool.or_eq_true, beq_iff_eq, ← admits_iff]

/-- **C38** (lookup): a call finds the task with that id in the pending list (stopped) or in the given store or
the first store that has it (running), and `TaskLookupError` is raised exactly if there is none. -/
theorem C38_lookup (L : LawfulStore O) (c : Cfg τ) (s : State σ τ φ) (hs : Reachable L c s) (id : String)
    (store : Option String) :
    (lookupTask O s id store = none ↔ Absent O s id store) ∧
    ∀ t loc, lookupTask O s id store = some (t, loc) ↔ Located O s id store t loc := by
  have hw := wf_iff.1 hs.wf
  by_cases hm : s.mode = .stopped
  · have hfind : ∀ p, s.pending.find? (pendingMatch id store) = some p ↔
        ∃ pre post, s.pending = pre ++ p :: post ∧ Named id store p.1 ∧ ∀ q ∈ pre, ¬ Named id store q.1 := by
      intro p
      rw [List.find?_eq_some_iff_append]
      constructor
      · rintro ⟨h1, pre, post, h2, h3⟩
        exact ⟨pre, post, h2, named_iff.1 h1, fun q hq hn => by
          have := h3 q hq; rw [named_iff.2 hn] at this; cases this⟩
      · rintro ⟨pre, post, h1, h2, h3⟩
        exact ⟨named_iff.2 h2, pre, post, h1, fun q hq => by
          cases hc : pendingMatch id store q with
          | false => rfl
          | true => exact absurd (named_iff.1 hc) (h3 q hq)⟩
    simp only [lookupTask, if_pos hm]
    refine ⟨?_, fun t loc => ?_⟩
    · rw [Option.map_eq_none_iff, List.find?_eq_none]
      constructor
      · intro h
        exact ⟨fun _ p hp hn => h p hp (named_iff.2 hn), fun h' => absurd hm h'⟩
      · intro h p hp hn
        exact h.1 hm p hp (named_iff.1 hn)
    · constructor
      · intro h
        obtain ⟨p, hp, he⟩ := Option.map_eq_some_iff.1 h
        cases he
        obtain ⟨pre, post, h1, h2, h3⟩ := (hfind p).1 hp
        exact .pending (flags := p.2) hm h1 h2 h3
      · intro h
        cases h with
        | pending _ hp hn hf =>
          rw [Option.map_eq_some_iff]
          exact ⟨_, (hfind _).2 ⟨_, _, hp, hn, hf⟩, rfl⟩
        | stored hm' _ _ _ _ => exact absurd hm hm'
  · simp only [lookupTask, if_neg hm]
    refine ⟨?_, fun t loc => ?_⟩
    · rw [Option.map_eq_none_iff, findInStores_none L hw]
      exact ⟨fun h => ⟨fun h' => absurd h' hm, fun _ => h⟩, fun h => h.2 hm⟩
    · constructor
      · intro h
        obtain ⟨p, hp, he⟩ := Option.map_eq_some_iff.1 h
        cases he
        obtain ⟨h1, h2, pre, post, h3, _, h5⟩ := findInStores_some L hw hp
        exact .stored hm h1 h2 h3 h5
      · intro h
        cases h with
        | pending hm' _ _ _ => exact absurd hm' hm
        | stored hm1 ha ht hk hf =>
          rename_i pre post a
          cases hfi : findInStores O id store s.stores with
          | none =>
            have := (findInStores_none L hw).1 hfi a ha
            rw [← entry_look, ht] at this; cases this
          | some p =>
            obtain ⟨t', b⟩ := p
            obtain ⟨h1, h2, pre', post', h3, h4, h5⟩ := findInStores_some L hw hfi
            -- both are the first store that has the task
            have hab : a = b := by
              rw [hk] at h3
              rcases List.append_eq_append_iff.1 h3 with ⟨l, hl1, hl2⟩ | ⟨l, hl1, hl2⟩
              · cases l with
                | nil => simp at hl2; exact hl2.1
                | cons x l =>
                  simp at hl2
                  exfalso
                  have : a ∈ pre' := by rw [hl1]; simp [hl2.1]
                  have := h5 a this ha
                  rw [← entry_look, ht] at this; cases this
              · cases l with
                | nil => simp at hl2; exact hl2.1.symm
                | cons x l =>
                  simp at hl2
                  exfalso
                  have : b ∈ pre := by rw [hl1]; simp [hl2.1]
                  have := hf b this h1
                  rw [entry_look, h2] at this; cases this
            subst hab
            rw [← entry_look, ht] at h2
            cases h2
            rfl

theorem eraseP_first {pre post : List (T τ φ × Bool × Bool)} {p : T τ φ × Bool × Bool} {id : String}
    {store : Option String} (hn : Named id store p.1) (hf : ∀ q ∈ pre, ¬ Named id store q.1) :
    (pre ++ p :: post).eraseP (pendingMatch id store) = pre ++ post := by
  rw [List.eraseP_append_right]
  · rw [List.eraseP_cons_of_pos (named_iff.2 hn)]
  · intro q hq h; exact hf q hq (named_iff.1 h)

theorem setPending_first {pre post : List (T τ φ × Bool × Bool)} {p : T τ φ × Bool × Bool} {id : String}
    {store : Option String} (t : T τ φ) (hn : Named id store p.1) (hf : ∀ q ∈ pre, ¬ Named id store q.1) :
    setPending id store t (pre ++ p :: post) = pre ++ (t, p.2) :: post := by
  induction pre with
  | nil => simp only [List.nil_append, setPending, if_pos (named_iff.2 hn)]
  | cons q pre ih =>
    have : ¬ pendingMatch id store q = true := fun h => hf q (by simp) (named_iff.1 h)
    simp only [List.cons_append, setPending, if_neg this, ih fun r hr => hf r (by simp [hr])]

theorem find_pending {s : State σ τ φ} {pre post : List (T τ φ × Bool × Bool)} {p : T τ φ × Bool × Bool} {id : String}
    {store : Option String} (hp : s.pending = pre ++ p :: post) (hn : Named id store p.1)
    (hf : ∀ q ∈ pre, ¬ Named id store q.1) : s.pending.find? (pendingMatch id store) = some p := by
  rw [List.find?_eq_some_iff_append]
  exact ⟨named_iff.2 hn, pre, post, hp, fun q hq => by
    cases hc : pendingMatch id store q with
    | false => rfl
    | true => exact absurd (named_iff.1 hc) (hf q hq)⟩

theorem findInStores_located (L : LawfulStore O) {c : Cfg τ} {s : State σ τ φ} (hs : Reachable L c s) {id : String}
    {store : Option String} {t : T τ φ} {loc : Option String} (h : Located O s id store t loc) (hm : s.mode ≠ .stopped) :
    ∃ a, loc = some a ∧ findInStores O id store s.stores = some (t, a) := by
  have := ((C38_lookup L c s hs id store).2 t loc).2 h
  simp only [lookupTask, if_neg hm] at this
  obtain ⟨p, hp, he⟩ := Option.map_eq_some_iff.1 this
  cases he
  exact ⟨p.2, rfl, hp⟩

/-- **C38** (delete): `delete_task` removes the task it is about and touches no other; it raises
`TaskLookupError` exactly if there is none, and then changes nothing. -/
theorem C38_delete (L : LawfulStore O) (c : Cfg τ) (s : State σ τ φ) (hs : Reachable L c s) (id : String)
    (store : Option String) :
    (Absent O s id store → (deleteTask O id store s).2 = .error (.lookup id) ∧
      (deleteTask O id store s).1.pending = s.pending ∧ (deleteTask O id store s).1.log = s.log ∧
      ∀ b j, entry O (deleteTask O id store s).1 b j = entry O s b j) ∧
    ∀ t loc, Located O s id store t loc →
      (deleteTask O id store s).2 = .ok () ∧ Replaced O s (deleteTask O id store s).1 id store none loc ∧
      (deleteTask O id store s).1.log = s.log ++ [.taskRemoved id (loc.getD t.body.store)] := by
  by_cases hm : s.mode = .stopped
  · refine ⟨fun h => ?_, fun t loc h => ?_⟩
    · have : s.pending.find? (pendingMatch id store) = none := by
        rw [List.find?_eq_none]; exact fun p hp hc => h.1 hm p hp (named_iff.1 hc)
      simp only [deleteTask, if_pos hm, this]
      exact ⟨trivial, trivial, trivial, fun _ _ => trivial⟩
    · cases h with
      | stored hm' _ _ _ _ => exact absurd hm hm'
      | pending _ hp hn hf =>
        simp only [deleteTask, if_pos hm, find_pending hp hn hf]
        refine ⟨trivial, .pending hp hn hf ?_ rfl, rfl⟩
        simp only [State.emit, hp, eraseP_first (p := (t, _)) hn hf]
        simp
  · refine ⟨fun h => ?_, fun t loc h => ?_⟩
    · have hno : findInStores O id store s.stores = none :=
        (findInStores_none L (wf_iff.1 hs.wf)).2 (fun a ha => h.2 hm a ha)
      rcases deleteTask_spec L hs.wf hm id store with h' | ⟨t, a, h', _⟩
      · exact ⟨h'.2.1, h'.2.2.2.2.1.pending, h'.2.2.2.1, h'.2.2.2.2.2.2⟩
      · rw [hno] at h'; cases h'
    · obtain ⟨a, rfl, hfi⟩ := findInStores_located L hs h hm
      rcases deleteTask_spec L hs.wf hm id store with h' | ⟨t', a', h', h2, h3, h4, h5, h6, h7⟩
      · rw [h'.1] at hfi; cases hfi
      · rw [hfi] at h'; cases h'
        refine ⟨h2, .stored ?_ ?_ h5.pending, h4⟩
        · rw [h7]; simp [put]
        · intro b j hb
          rw [h7, put, if_neg]
          rintro ⟨rfl, rfl⟩; exact hb rfl

/-- **C38** (remove all): `remove_all_tasks(store)` removes exactly the tasks of that store, or of every store if none is
given – those in the stores if the scheduler runs, those waiting for its start if it is stopped –, touches nothing else,
and reports it once. -/
theorem C38_remove_all (L : LawfulStore O) (c : Cfg τ) (s : State σ τ φ) (hs : Reachable L c s) (store : Option String)
    (hne : store ≠ some "") :
    (s.mode ≠ .stopped → (∀ b j, entry O (removeAllTasks O store s) b j = if store = none ∨ store = some b then none else entry O s b j) ∧
      (removeAllTasks O store s).pending = s.pending) ∧
    (s.mode = .stopped →
      (removeAllTasks O store s).pending = s.pending.filter (fun p => !(store == none || store == some p.1.body.store)) ∧
      (removeAllTasks O store s).stores = s.stores) ∧
    (removeAllTasks O store s).log = s.log ++ [.allTasksRemoved store] ∧
    (removeAllTasks O store s).mode = s.mode ∧ (removeAllTasks O store s).executors = s.executors ∧
    (removeAllTasks O store s).stores.keys = s.stores.keys ∧ (removeAllTasks O store s).instances = s.instances := by
  by_cases hm : s.mode = .stopped
  · refine ⟨fun h => absurd hm h, fun _ => ?_, ?_⟩
    · simp only [removeAllTasks, if_pos hm, State.emit, and_true]
      cases store with
      | none =>
        symm
        simp
      | some a =>
        have : a ≠ "" := fun h => hne (by rw [h])
        simp only [if_neg this]
        refine List.filter_congr fun p _ => ?_
        simp only [bne, Option.some_beq_some, reduceCtorEq, beq_iff_eq, Bool.false_or]
        rw [Bool.beq_comm]; simp
    · simp [removeAllTasks, if_pos hm, State.emit]
  · obtain ⟨_, h2, h3⟩ := stores_clear L store (wf_iff.1 hs.wf)
    refine ⟨fun _ => ⟨fun b j => ?_, ?_⟩, fun h => absurd h hm, ?_⟩
    · simp only [removeAllTasks, if_neg hm, State.emit, entry]
      exact h3 b j
    · simp [removeAllTasks, if_neg hm, State.emit]
    · simp only [removeAllTasks, if_neg hm, State.emit]
      exact ⟨trivial, trivial, trivial, h2, trivial⟩

/-- **C38** (update): `update_task` changes the task it is about – to what `Task.update_task` makes of it – and
no other; it raises `TaskLookupError` exactly if there is none; if it raises it changes nothing. -/
theorem C38_update (L : LawfulStore O) (c : Cfg τ) (s : State σ τ φ) (hs : Reachable L c s) (id : String)
    (store : Option String) (f : T τ φ → Option (T τ φ)) (hf : ∀ t t', f t = some t' → t'.id = t.id) :
    (Absent O s id store → updateTask O id store f s = (s, .error (.lookup id))) ∧
    ∀ t loc, Located O s id store t loc →
      (f t = none → updateTask O id store f s = (s, .error .invalid)) ∧
      ∀ t', f t = some t' →
        (updateTask O id store f s).2 = .ok t' ∧
        Replaced O s (updateTask O id store f s).1 id store (some t') loc ∧
        (updateTask O id store f s).1.log = s.log ++ [.taskModified id loc] := by
  have hl := C38_lookup L c s hs id store
  refine ⟨fun h => ?_, fun t loc h => ?_⟩
  · have := hl.1.2 h
    simp only [updateTask, this]
  · have hlk := (hl.2 t loc).2 h
    refine ⟨fun hn => ?_, fun t' ht' => ?_⟩
    · simp only [updateTask, hlk, hn]
    · by_cases hm : s.mode = .stopped
      · cases h with
        | stored hm' _ _ _ _ => exact absurd hm hm'
        | pending _ hp hn hfi =>
          simp only [updateTask, hlk, ht']
          have hnr : ∀ s' : State σ τ φ, s'.mode = s.mode → s'.wakeIfRunning = s' := by
            intro s' h'
            simp only [State.wakeIfRunning]
            rw [if_neg]
            rw [h', hm]; decide
          rw [hnr _ (by simp [State.emit])]
          refine ⟨trivial, .pending hp hn hfi ?_ rfl, rfl⟩
          simp only [State.emit, hp, setPending_first (p := (t, _)) t' hn hfi]
          simp
      · obtain ⟨a, rfl, hfi⟩ := findInStores_located L hs h hm
        rcases updateTask_spec L hs.wf hm id store f hf with ⟨h', _⟩ | ⟨t1, a1, h', h2⟩
        · rw [hfi] at h'; cases h'
        · rw [hfi] at h'; cases h'
          rcases h2 with ⟨h2, _⟩ | ⟨t2, h2, h3, h4, h5, h6, h7, h8⟩
          · rw [ht'] at h2; cases h2
          · rw [ht'] at h2; cases h2
            refine ⟨h3, .stored ?_ ?_ h6.pending, h5⟩
            · rw [h8]; simp [put]
            · intro b j hb
              rw [h8, put, if_neg]
              rintro ⟨rfl, rfl⟩; exact hb rfl

/-! ## C36: pausing and resuming -/

/-- **C36** (pause): after `pause_task` of a task of a started scheduler the task has no next run time, no other
task is touched, and no pass submits it, in any history in which nobody changes it, whatever the triggers do.
Partial: pausing a task that is still pending is lost at `start` (`C36_pending_witness`). -/
theorem C36_pause_partial (L : LawfulStore O) (c : Cfg τ) (s : State σ τ φ) (hs : Reachable L c s) (id : String)
    (store : Option String) (t : T τ φ) (a : String) (h : Located O s id store t (some a)) :
    (pauseTask O id store s).2 = .ok { t with nrt := none } ∧
    Replaced O s (pauseTask O id store s).1 id store (some { t with nrt := none }) (some a) ∧
    ∀ subs s', History L c (fun _ => True) a id (pauseTask O id store s).1 subs s' →
      subs = [] ∧ (entry O s' a id = some { t with nrt := none } ∨ entry O s' a id = none) := by
  have h1 := ((C38_update L c s hs id store (fun t => some { t with nrt := none })
    (by intro t t' h; simp only [Option.some.injEq] at h; subst h; rfl)).2 t (some a) h).2 _ rfl
  have hent : entry O (pauseTask O id store s).1 a id = some { t with nrt := none } := by
    cases h1.2.1 with
    | stored hx _ _ => exact hx
  refine ⟨h1.1, h1.2.1, fun subs s' hh => ?_⟩
  have := C36_paused_not_submitted L c a id (pauseTask O id store s).1 s' (wf_updateTask hs.wf _ _ _) subs hh
    (fun u hu => by rw [hent] at hu; cases hu; rfl)
  rw [hent] at this
  exact this

/-- **C36** (resume): `resume_task` of a task of a started scheduler gives it the trigger's next time from now
and wakes the scheduler, or removes it if the trigger is finished; no other task is touched. -/
theorem C36_resume (L : LawfulStore O) (c : Cfg τ) (e : Env τ) (s : State σ τ φ) (hs : Reachable L c s) (id : String)
    (store : Option String) (t : T τ φ) (a : String) (h : Located O s id store t (some a)) :
    (∀ n, e.next 2 t.body.trigger none e.now = .ok (some n) →
      (resumeTask O e id store s).2 = .ok (some { t with nrt := some n }) ∧
      Replaced O s (resumeTask O e id store s).1 id store (some { t with nrt := some n }) (some a) ∧
      (s.mode = .running → (resumeTask O e id store s).1.woken = true)) ∧
    (e.next 2 t.body.trigger none e.now = .ok none →
      (resumeTask O e id store s).2 = .ok none ∧
      Replaced O s (resumeTask O e id store s).1 id store none (some a)) ∧
    (∀ x, e.next 2 t.body.trigger none e.now = .error x →
      resumeTask O e id store s = (s, .error (.trigger x))) := by
  have hlk := ((C38_lookup L c s hs id store).2 t (some a)).2 h
  cases h with
  | stored hm ha ht hk hf =>
    have hid := (look_id L (wf_iff.1 hs.wf) ht).1
    -- the second lookup, in the store that was found, finds the same task
    have h' : Located O s id (some a) t (some a) := by
      refine .stored hm (fun x hx => by cases hx; rfl) ht hk (fun b hb hab => ?_)
      have := hab a rfl
      subst this
      exfalso
      have hnd : s.stores.keys.Nodup := hs.wf.keys
      rw [hk] at hnd
      exact (List.nodup_append.1 hnd).2.2 _ hb _ (by simp) rfl
    refine ⟨fun n hn => ?_, fun hn => ?_, fun x hx => ?_⟩
    · simp only [resumeTask, hlk, hn]
      have h1 := ((C38_update L c s hs id (some a) (fun t => some { t with nrt := some n })
        (by intro t t' h; simp only [Option.some.injEq] at h; subst h; rfl)).2 t (some a) h').2 _ rfl
      have hw : s.mode = .running → (updateTask O id (some a) (fun t => some { t with nrt := some n }) s).1.woken = true := by
        intro hr
        rcases updateTask_spec L hs.wf hm id (some a) (fun t => some { t with nrt := some n })
          (by intro t t' h; simp only [Option.some.injEq] at h; subst h; rfl) with ⟨_, h'⟩ | ⟨t1, a1, h', h2⟩
        · rw [h'] at h1; simp at h1
        · rcases h2 with ⟨h2, _⟩ | ⟨t2, h2, h3, h4, h5, h6, h7, h8⟩
          · cases h2
          · rw [h6.woken, if_pos hr]
      cases hu : updateTask O id (some a) (fun t => some { t with nrt := some n }) s with
      | mk s' r =>
        rw [hu] at h1 hw
        obtain ⟨h2, h3, _⟩ := h1
        simp only at h2
        subst h2
        refine ⟨rfl, ?_, hw⟩
        cases h3 with
        | stored q1 q2 q3 => exact .stored q1 q2 q3
    · simp only [resumeTask, hlk, hn]
      rw [hid]
      have h1 := (C38_delete L c s hs id (some a)).2 t (some a) h'
      cases hu : deleteTask O id (some a) s with
      | mk s' r =>
        rw [hu] at h1
        obtain ⟨h2, h3, _⟩ := h1
        simp only at h2
        subst h2
        refine ⟨rfl, ?_⟩
        cases h3 with
        | stored q1 q2 q3 => exact .stored q1 q2 q3
    · simp only [resumeTask, hlk, hx]

/-- **C38** (reschedule): `reschedule_task` gives the task the new trigger and its first time from now. -/
theorem C38_reschedule (L : LawfulStore O) (c : Cfg τ) (e : Env τ) (s : State σ τ φ) (hs : Reachable L c s) (id : String)
    (store : Option String) (g : τ) (n : Option Int) (hn : e.next 2 g none e.now = .ok n) :
    (Absent O s id store → rescheduleTask O e id store g s = (s, .error (.lookup id))) ∧
    ∀ t loc, Located O s id store t loc →
      (rescheduleTask O e id store g s).2 = .ok { t with nrt := n, body := { t.body with trigger := g } } ∧
      Replaced O s (rescheduleTask O e id store g s).1 id store
        (some { t with nrt := n, body := { t.body with trigger := g } }) loc := by
  have h1 := C38_update L c s hs id store (fun t => some { t with nrt := n, body := { t.body with trigger := g } })
    (by intro t t' h; simp only [Option.some.injEq] at h; subst h; rfl)
  simp only [rescheduleTask, hn]
  exact ⟨h1.1, fun t loc h => ⟨((h1.2 t loc h).2 _ rfl).1, ((h1.2 t loc h).2 _ rfl).2.1⟩⟩

/-! ### Examples and counterexamples -/

/-- a started scheduler with a task "a" in two stores, made by calls -/
def exHistory : List (Call MS Int Unit) :=
  [.addStore Memory.init "s1", .addStore Memory.init "s2",
   .addTask ⟨"a", none, exBody 10 "default" "s1" false 3⟩ none false,
   .addTask ⟨"a", some 33, exBody 50 "default" "s2" false 1⟩ none false,
   .addTask ⟨"b", none, exBody 0 "default" "s2" false 1⟩ none false,
   .start false]

/-- a sequence of calls, all at time `now` -/
def execAll (now : Int) : List (Call MS Int Unit) → State MS Int Unit → Option (State MS Int Unit)
  | [], s => some s
  | k :: ks, s => (exec Memory.ops exCfg (exEnvAt now) 20 k s).bind (execAll now ks)

theorem execAll_reachable {now : Int} {ks : List (Call MS Int Unit)} (hk : ∀ k ∈ ks, k.Ok Memory.lawful)
    {s s' : State MS Int Unit} (hs : Reachable Memory.lawful exCfg s) (h : execAll now ks s = some s') :
    Reachable Memory.lawful exCfg s' := by
  induction ks generalizing s with
  | nil => cases h; exact hs
  | cons k ks ih =>
    simp only [execAll] at h
    cases h1 : exec Memory.ops exCfg (exEnvAt now) 20 k s with
    | none => rw [h1] at h; cases h
    | some s1 =>
      rw [h1] at h
      exact ih (fun k hk' => hk k (by simp [hk'])) (.call hs (hk k (by simp)) h1) h

theorem exHistory_ok : ∀ k ∈ exHistory, k.Ok (Memory.lawful (β := Body Int Unit)) := by
  intro k hk
  simp only [exHistory, List.mem_cons, List.not_mem_nil, or_false] at hk
  rcases hk with rfl | rfl | rfl | rfl | rfl | rfl
  · exact Memory.lawful.init_inv
  · exact Memory.lawful.init_inv
  all_goals exact trivial

/-- what is stored under an id, and the times of the pending tasks -/
def exSees (s : State MS Int Unit) (ids : List (String × String)) : List (Option (Option Int)) × List (Option Int) :=
  (ids.map fun p => (entry Memory.ops s p.1 p.2).map Task.nrt, s.pending.map fun p => p.1.nrt)

set_option synthInstance.maxSize 2048 in
set_option synthInstance.maxHeartbeats 200000 in
-- the calls about "a" reach the one in the first store, or the one in the store that is named
example : (execAll 7 exHistory State.init).map (fun s =>
      (exSees s [("s1", "a"), ("s2", "a"), ("s2", "b")],
       exSees (pauseTask Memory.ops "a" none s).1 [("s1", "a"), ("s2", "a"), ("s2", "b")],
       exSees (pauseTask Memory.ops "a" (some "s2") s).1 [("s1", "a"), ("s2", "a"), ("s2", "b")],
       exSees (deleteTask Memory.ops "b" none s).1 [("s1", "a"), ("s2", "a"), ("s2", "b")],
       (deleteTask Memory.ops "b" (some "s1") s).2.toBool)) =
    some (([some (some 7), some (some 33), some (some 7)], []), ([some none, some (some 33), some (some 7)], []),
      ([some (some 7), some none, some (some 7)], []), ([some (some 7), some (some 33), none], []), false) := by
  decide +kernel

/-- the hypotheses of the theorems above are met by a scheduler that calls lead to -/
example : ∃ (s : State MS Int Unit) (t : T Int Unit), Reachable Memory.lawful exCfg s ∧ Located Memory.ops s "a" (some "s2") t (some "s2") ∧
    t.nrt = some 33 ∧ s.mode = .running := by
  cases h : execAll 7 exHistory State.init with
  | none =>
    have : (execAll 7 exHistory State.init).isSome = true := by decide +kernel
    rw [h] at this; cases this
  | some s =>
    have hr := execAll_reachable exHistory_ok .init h
    have h1 : (execAll 7 exHistory State.init).map (fun s => ((lookupTask Memory.ops s "a" (some "s2")).map
        fun p => (p.1.nrt, p.2), s.mode)) = some (some (some 33, some "s2"), .running) := by decide +kernel
    rw [h] at h1
    simp only [Option.map_some, Option.some.injEq, Prod.mk.injEq] at h1
    obtain ⟨h1, h2⟩ := h1
    obtain ⟨p, hp, he⟩ := Option.map_eq_some_iff.1 h1
    obtain ⟨t, loc⟩ := p
    simp only [Prod.mk.injEq] at he
    obtain ⟨he1, rfl⟩ := he
    exact ⟨s, t, hr, ((C38_lookup Memory.lawful exCfg s hr "a" (some "s2")).2 t _).1 hp, he1, h2⟩

/-- **C36, counterexample**: a task that is paused before `start` is scheduled by `start` all the same. -/
theorem C36_pending_witness : ∃ s : State MS Int Unit,
    execAll 7 [.addTask ⟨"a", none, exBody 10 "default" "default" false 3⟩ none false, .pauseTask "a" none,
      .start false] State.init = some s ∧ (entry Memory.ops s "default" "a").map Task.nrt = some (some 7) := by
  have h : (execAll 7 [.addTask ⟨"a", none, exBody 10 "default" "default" false 3⟩ none false, .pauseTask "a" none,
      .start false] State.init).map (fun s => (entry Memory.ops s "default" "a").map Task.nrt) = some (some (some 7)) := by
    decide +kernel
  obtain ⟨s, h1, h2⟩ := Option.map_eq_some_iff.1 h
  exact ⟨s, h1, h2⟩

-- two pending tasks in two stores; then the same with the scheduler running
example : (execAll 7 [.addTask ⟨"a", some 1, exBody 10 "default" "s1" false 3⟩ none false,
    .addTask ⟨"b", some 2, exBody 10 "default" "s2" false 3⟩ none false, .removeAllTasks (some "s1")] State.init).map
    (fun s => s.pending.map (·.1.id)) = some ["b"] := by decide +kernel
example : (execAll 7 [.addTask ⟨"a", some 1, exBody 10 "default" "default" false 3⟩ none false, .start false,
    .removeAllTasks none] State.init).map (fun s => (entry Memory.ops s "default" "a").map Task.nrt) = some none := by decide +kernel

/-- **C38, counterexample**: `resume_task(id, store)` on a stopped scheduler may change the pending task with
that id of another store: it looks the task up with the store, but updates it without. -/
theorem C38_resume_pending_witness : ∃ s : State MS Int Unit,
    execAll 7 [.addTask ⟨"a", some 1, exBody 10 "default" "s1" false 3⟩ none false,
      .addTask ⟨"a", some 2, exBody 10 "default" "s2" false 3⟩ none false, .resumeTask "a" (some "s2")] State.init
      = some s ∧ s.pending.map (fun p => (p.1.body.store, p.1.nrt)) = [("s1", some 7), ("s2", some 2)] := by
  have h : (execAll 7 [.addTask ⟨"a", some 1, exBody 10 "default" "s1" false 3⟩ none false,
      .addTask ⟨"a", some 2, exBody 10 "default" "s2" false 3⟩ none false, .resumeTask "a" (some "s2")]
      State.init).map (fun s => s.pending.map (fun p => (p.1.body.store, p.1.nrt))) =
      some [("s1", some 7), ("s2", some 2)] := by decide +kernel
  obtain ⟨s, h1, h2⟩ := Option.map_eq_some_iff.1 h
  exact ⟨s, h1, h2⟩

/-! ## C37: aliases -/

theorem addExecutor_executors (x : Nat) (b : String) (s : State σ τ φ) :
    (addExecutor x b s).1.executors = if (s.executors.get? b).isSome then s.executors else s.executors.set b x := by
  by_cases hc : (s.executors.get? b).isSome = true
  · simp [addExecutor, Dict.contains, hc]
  · simp [addExecutor, Dict.contains, hc, State.emit]

theorem addStore_stores (st : σ) (b : String) (s : State σ τ φ) :
    (addStore st b s).1.stores = if (s.stores.get? b).isSome then s.stores else s.stores.set b st := by
  by_cases hc : (s.stores.get? b).isSome = true
  · simp [addStore, Dict.contains, hc]
  · simp [addStore, Dict.contains, hc, stores_wakeIfRunning, State.emit, State.setStore]

theorem addStore_executors (st : σ) (b : String) (s : State σ τ φ) :
    (addStore st b s).1.executors = s.executors := by
  simp only [addStore]
  split
  · rfl
  · simp only [State.wakeIfRunning]; split <;> rfl

theorem executors_start_eq {c : Cfg τ} {e : Env τ} {p : Bool} {s : State σ τ φ} :
    (start O c e p s).1.executors = s.executors ∨
    (start O c e p s).1.executors = (addExecutor c.defaultExecutor "default" s).1.executors := by
  simp only [start]
  split
  · exact .inl rfl
  · split
    · exact .inl rfl
    · have := (kept_addPending (O := O) e (if c.lockPath then some (e.now + c.startupDelay) else none) s.pending
        (withDefaults O c { s with refs := s.refs + 1 })).executors
      have hd : (withDefaults O c { s with refs := s.refs + 1 }).executors =
          (addExecutor c.defaultExecutor "default" s).1.executors := by
        simp only [withDefaults]
        rw [addStore_executors, addExecutor_executors, addExecutor_executors]
      rw [hd] at this
      split <;> rename_i h2 <;> rw [h2] at this
      · exact .inr this
      · refine .inr ?_
        rw [← this]
        split <;> rfl

theorem stores_start_keys {c : Cfg τ} {e : Env τ} {p : Bool} {s : State σ τ φ} :
    (start O c e p s).1.stores.keys = s.stores.keys ∨
    (start O c e p s).1.stores.keys = (addStore O.init "default" s).1.stores.keys := by
  simp only [start]
  split
  · exact .inl rfl
  · split
    · exact .inl rfl
    · have := (kept_addPending (O := O) e (if c.lockPath then some (e.now + c.startupDelay) else none) s.pending
        (withDefaults O c { s with refs := s.refs + 1 })).keys
      have hd : (withDefaults O c { s with refs := s.refs + 1 }).stores.keys =
          (addStore O.init "default" s).1.stores.keys := by
        simp only [withDefaults]
        rw [addStore_stores, addStore_stores, stores_addExecutor]
      rw [hd] at this
      split <;> rename_i h2 <;> rw [h2] at this
      · exact .inr this
      · refine .inr ?_
        rw [← this]
        split <;> rfl

/-- the executors' aliases are unique in every reachable state -/
theorem Reachable.executors_wf {L : LawfulStore O} {c : Cfg τ} {s : State σ τ φ} (h : Reachable L c s) :
    s.executors.WF := by
  have hadd : ∀ (s : State σ τ φ) x b, s.executors.WF → (addExecutor x b s).1.executors.WF := by
    intro s x b hw
    rw [addExecutor_executors]
    split
    · exact hw
    · exact hw.set _ _
  induction h with
  | init => exact Dict.WF.nil
  | call hs hk h ih =>
    rename_i s s' e fuel k
    by_cases hp : k.Plain
    · rw [(kept_exec hp h).executors]; exact ih
    · cases k with
      | start p =>
        simp only [exec, Option.some.injEq] at h; subst h
        rcases executors_start_eq (O := O) (c := c) (e := e) (p := p) (s := s) with h | h <;> rw [h]
        · exact ih
        · exact hadd _ _ _ ih
      | shutdown =>
        simp only [exec, Option.some.injEq] at h; subst h
        simp only [shutdown]; split
        · exact ih
        · split <;> exact ih
      | pause => simp only [exec, Option.some.injEq] at h; subst h; simp only [pause]; split <;> exact ih
      | resume => simp only [exec, Option.some.injEq] at h; subst h; simp only [resume]; split <;> exact ih
      | addExecutor x b => simp only [exec, Option.some.injEq] at h; subst h; exact hadd _ _ _ ih
      | removeExecutor b =>
        simp only [exec, Option.some.injEq] at h; subst h
        simp only [removeExecutor]
        split
        · exact ih
        · exact ih.erase _
      | addStore st b =>
        simp only [exec, Option.some.injEq] at h; subst h
        simp only [addStore]; split
        · exact ih
        · simp only [State.wakeIfRunning]; split <;> exact ih
      | removeStore b =>
        simp only [exec, Option.some.injEq] at h; subst h
        simp only [removeStore]; split <;> exact ih
      | _ => exact absurd trivial hp

/-- **C37** (executors): adding under an alias in use raises and changes nothing, otherwise the alias names the
new executor; removing an unknown alias raises and changes nothing, otherwise the alias is free again; other
aliases keep their executors; no other call touches the executors, but that `start` adds the default one if
there is none. -/
theorem C37_executor_aliases (L : LawfulStore O) (c : Cfg τ) (s : State σ τ φ) (hs : Reachable L c s) (a : String) :
    (∀ x, (s.executors.get? a ≠ none → addExecutor x a s = (s, .error (.aliasInUse a))) ∧
      (s.executors.get? a = none → (addExecutor x a s).2 = .ok () ∧
        (addExecutor x a s).1.executors.get? a = some x ∧
        ∀ b, b ≠ a → (addExecutor x a s).1.executors.get? b = s.executors.get? b)) ∧
    (s.executors.get? a = none → removeExecutor a s = (s, .error (.keyError a))) ∧
    (s.executors.get? a ≠ none → (removeExecutor a s).2 = .ok () ∧ (removeExecutor a s).1.executors.get? a = none ∧
      ∀ b, b ≠ a → (removeExecutor a s).1.executors.get? b = s.executors.get? b) ∧
    (∀ e p, ∀ b, (start O c e p s).1.executors.get? b = s.executors.get? b ∨
      (b = "default" ∧ s.executors.get? b = none ∧ (start O c e p s).1.executors.get? b = some c.defaultExecutor)) ∧
    (∀ e fuel k s', exec O c e fuel k s = some s' → (∀ p, k ≠ .start p) → (∀ x b, k ≠ .addExecutor x b) →
      (∀ b, k ≠ .removeExecutor b) → s'.executors = s.executors) := by
  have hew := hs.executors_wf
  refine ⟨fun x => ⟨fun h => ?_, fun h => ?_⟩, fun h => ?_, fun h => ?_, fun e p b => ?_, ?_⟩
  · cases hg : s.executors.get? a with
    | none => exact absurd hg h
    | some _ => simp [addExecutor, Dict.contains, hg]
  · rw [addExecutor_executors]
    refine ⟨by simp [addExecutor, Dict.contains, h], ?_, fun b hb => ?_⟩
    · simp [h, Dict.get?_set]
    · simp [h, Dict.get?_set, hb]
  · simp only [removeExecutor, h]
  · simp only [removeExecutor]
    cases hg : s.executors.get? a with
    | none => exact absurd hg h
    | some _ =>
      refine ⟨rfl, ?_, fun b hb => ?_⟩
      · simp only [State.emit]; rw [Dict.get?_erase hew]; simp
      · simp only [State.emit]; rw [Dict.get?_erase hew]; simp [hb]
  · rcases executors_start_eq (O := O) (c := c) (e := e) (p := p) (s := s) with h | h <;> rw [h]
    · exact .inl rfl
    · rw [addExecutor_executors]
      split
      · exact .inl rfl
      · rename_i hn
        rw [Dict.get?_set]
        split
        · rename_i hb
          subst hb
          refine .inr ⟨rfl, ?_, rfl⟩
          cases hg : s.executors.get? "default" with
          | none => rfl
          | some _ => rw [hg] at hn; exact absurd rfl hn
        · exact .inl rfl
  · intro e fuel k s' h h1 h2 h3
    by_cases hp : k.Plain
    · exact (kept_exec hp h).executors
    · cases k with
      | start p => exact absurd rfl (h1 p)
      | shutdown =>
        simp only [exec, Option.some.injEq] at h; subst h
        simp only [shutdown]; split
        · rfl
        · split <;> rfl
      | pause => simp only [exec, Option.some.injEq] at h; subst h; simp only [pause]; split <;> rfl
      | resume => simp only [exec, Option.some.injEq] at h; subst h; simp only [resume]; split <;> rfl
      | addExecutor x b => exact absurd rfl (h2 x b)
      | removeExecutor b => exact absurd rfl (h3 b)
      | addStore st b =>
        simp only [exec, Option.some.injEq] at h; subst h
        simp only [addStore]; split
        · rfl
        · simp only [State.wakeIfRunning]; split <;> rfl
      | removeStore b =>
        simp only [exec, Option.some.injEq] at h; subst h
        simp only [removeStore]; split <;> rfl
      | _ => exact absurd trivial hp

theorem isSome_iff_mem_keys (d : Dict String σ) (a : String) : (d.get? a).isSome ↔ a ∈ d.keys := by
  cases h : d.get? a with
  | none => simp [(Dict.get?_eq_none d a).1 h]
  | some v => simp [Dict.mem_keys_of_mem (Dict.mem_of_get? h)]

/-- **C37** (stores): the same for stores; adding or removing one does not touch the tasks of the others. -/
theorem C37_store_aliases (L : LawfulStore O) (c : Cfg τ) (s : State σ τ φ) (hs : Reachable L c s) (a : String) :
    (∀ st, (s.stores.get? a ≠ none → addStore st a s = (s, .error (.aliasInUse a))) ∧
      (s.stores.get? a = none → (addStore st a s).2 = .ok () ∧ (addStore st a s).1.stores.get? a = some st ∧
        ∀ b, b ≠ a → (addStore st a s).1.stores.get? b = s.stores.get? b)) ∧
    (s.stores.get? a = none → removeStore a s = (s, .error (.keyError a))) ∧
    (s.stores.get? a ≠ none → (removeStore a s).2 = .ok () ∧ (removeStore a s).1.stores.get? a = none ∧
      ∀ b, b ≠ a → (removeStore a s).1.stores.get? b = s.stores.get? b) ∧
    (∀ e p, ∀ b, b ∈ (start O c e p s).1.stores.keys ↔ b ∈ s.stores.keys ∨
      (b = "default" ∧ (start O c e p s).1.stores.keys ≠ s.stores.keys)) ∧
    (∀ e fuel k s', exec O c e fuel k s = some s' → (∀ p, k ≠ .start p) → (∀ x b, k ≠ .addStore x b) →
      (∀ b, k ≠ .removeStore b) → s'.stores.keys = s.stores.keys) := by
  have hew := hs.wf.keys
  have hadd : ∀ st, s.stores.get? a = none → (addStore st a s).1.stores = s.stores.set a st := by
    intro st h
    rw [addStore_stores]; simp [h]
  refine ⟨fun x => ⟨fun h => ?_, fun h => ?_⟩, fun h => ?_, fun h => ?_, fun e p b => ?_, ?_⟩
  · cases hg : s.stores.get? a with
    | none => exact absurd hg h
    | some _ => simp [addStore, Dict.contains, hg]
  · rw [hadd x h]
    refine ⟨?_, ?_, fun b hb => ?_⟩
    · simp [addStore, Dict.contains, h]
    · simp [Dict.get?_set]
    · simp [Dict.get?_set, hb]
  · simp only [removeStore, h]
  · simp only [removeStore]
    cases hg : s.stores.get? a with
    | none => exact absurd hg h
    | some _ =>
      refine ⟨rfl, ?_, fun b hb => ?_⟩
      · simp only [State.emit]; rw [Dict.get?_erase hew]; simp
      · simp only [State.emit]; rw [Dict.get?_erase hew]; simp [hb]
  · rcases stores_start_keys (O := O) (c := c) (e := e) (p := p) (s := s) with h | h <;> rw [h]
    · simp
    · rw [addStore_stores]
      split
      · simp
      · rename_i hn
        have hn' : "default" ∉ s.stores.keys := by
          rw [← isSome_iff_mem_keys]; simpa using hn
        simp only [Dict.keys_set, if_neg hn', List.mem_append, List.mem_singleton]
        constructor
        · rintro (h | h)
          · exact .inl h
          · exact .inr ⟨h, by simp⟩
        · rintro (h | ⟨h, _⟩)
          · exact .inl h
          · exact .inr h
  · intro e fuel k s' h h1 h2 h3
    by_cases hp : k.Plain
    · exact (kept_exec hp h).keys
    · cases k with
      | start p => exact absurd rfl (h1 p)
      | shutdown =>
        simp only [exec, Option.some.injEq] at h; subst h
        simp only [shutdown]; split
        · rfl
        · split
          · rfl
          · exact (stores_shutdownStores L c (wf_iff.1 hs.wf)).2
      | pause => simp only [exec, Option.some.injEq] at h; subst h; simp only [pause]; split <;> rfl
      | resume => simp only [exec, Option.some.injEq] at h; subst h; simp only [resume]; split <;> rfl
      | addStore x b => exact absurd rfl (h2 x b)
      | removeStore b => exact absurd rfl (h3 b)
      | addExecutor st b =>
        simp only [exec, Option.some.injEq] at h; subst h
        simp only [addExecutor]; split <;> rfl
      | removeExecutor b =>
        simp only [exec, Option.some.injEq] at h; subst h
        simp only [removeExecutor]; split <;> rfl
      | _ => exact absurd trivial hp

set_option synthInstance.maxSize 2048 in
set_option synthInstance.maxHeartbeats 200000 in
-- the aliases of the example: adding under an alias in use and removing an unknown one raise
example : (execAll 7 exHistory State.init).map (fun s => (s.executors, s.stores.keys,
      (addExecutor 5 "default" s).2.toBool, (addExecutor 5 "x" s).1.executors, (removeExecutor "x" s).2.toBool,
      (addStore Memory.init "s1" s).2.toBool, (removeStore "s1" s).1.stores.keys, (removeStore "s3" s).2.toBool)) =
    some ([("default", 0)], ["s1", "s2", "default"], false, [("default", 0), ("x", 5)], false, false,
      ["s2", "default"], false) := by decide +kernel

end Sched
end Asyncz
