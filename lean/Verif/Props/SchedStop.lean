import Verif.Props.SchedStart
import Verif.Lemmas.SchedLocal
import Verif.Lemmas.SchedStore2
/-!
# Shutdown tasks (C40), and what a stopped scheduler does (C57)
-/
namespace Asyncz
namespace Sched
variable {σ τ φ : Type} {O : StoreOps σ (Body τ φ)}

theorem processTasks_dueOnly (L : LawfulStore O) {c : Cfg τ} {e : Env τ} {fuel : Nat} {s s' : State σ τ φ}
    (hw : WF L s) {r : Except Err (Option Int)} (h : processTasks O c e fuel s = some (s', r)) :
    ∃ l, s'.log = s.log ++ l ∧ ∀ a i, submitted a i l ≠ [] →
      ∃ t n, entry O s a i = some t ∧ t.nrt = some n ∧ n ≤ e.now := by
  simp only [processTasks] at h
  split at h
  · cases h; exact ⟨[], by simp, fun a i h => absurd rfl h⟩
  · split at h
    · split at h
      · cases h
      · rename_i hd
        cases h
        obtain ⟨l, h1, h2⟩ := processStores_dueOnly L hw hw.keys hd
        exact ⟨l, h1, fun a i hs => (h2 a i hs).2⟩
      · rename_i s1 q hd
        cases h
        obtain ⟨l, h1, h2⟩ := processStores_dueOnly L hw hw.keys hd
        -- the events that follow are no submissions
        have hev : ∀ a i, submitted a i q.1 = [] := by
          have one : ∀ (t : T τ φ) alias times n x a i, submitted a i (sendEvents t alias times n x) = [] := by
            intro t alias times n x a i; cases x <;> rfl
          have task : ∀ {fuel alias} {t : T τ φ} {s s' : State σ τ φ} {evs}, processTask O e fuel alias t s = some (s', .ok evs) →
              ∀ a i, submitted a i evs = [] := by
            intro fuel alias t s s' evs h a i
            simp only [processTask] at h
            split at h
            · split at h <;> cases h <;> rfl
            · split at h
              · cases h
              · cases h
              · split at h
                · cases h; rfl
                · split at h <;> cases h; exact one ..
          have due : ∀ {fuel alias} {ts : List (T τ φ)} {s s' : State σ τ φ} {evs},
              processDue O e fuel alias ts s = some (s', .ok evs) → ∀ a i, submitted a i evs = [] := by
            intro fuel alias ts
            induction ts with
            | nil => intro s s' evs h a i; cases h; rfl
            | cons t ts ih =>
              intro s s' evs h a i
              simp only [processDue] at h
              split at h
              · cases h
              · cases h
              · rename_i hd
                split at h <;> cases h
                rename_i hd'
                rw [submitted_append, task hd, ih hd']; rfl
          have store : ∀ {fuel alias w} {s s' : State σ τ φ} {q}, processStore O c e fuel alias w s = some (s', .ok q) →
              ∀ a i, submitted a i q.1 = [] := by
            intro fuel alias w s s' q h a i
            simp only [processStore] at h
            split at h
            · cases h; rfl
            · split at h
              · split at h
                · cases h
                · cases h
                · rename_i hd; cases h; exact due hd a i
              · cases h; rfl
          have stores : ∀ {as w} {s s' : State σ τ φ} {q}, processStores O c e fuel as w s = some (s', .ok q) →
              ∀ a i, submitted a i q.1 = [] := by
            intro as
            induction as with
            | nil => intro w s s' q h a i; cases h; rfl
            | cons x as ih =>
              intro w s s' q h a i
              simp only [processStores] at h
              split at h
              · cases h
              · cases h
              · rename_i hd
                split at h <;> cases h
                rename_i hd'
                rw [submitted_append, store hd, ih hd']; rfl
          exact stores hd
        refine ⟨l ++ q.1, by simp [h1], fun a i hs => ?_⟩
        rw [submitted_append, hev, List.append_nil] at hs
        exact (h2 a i hs).2
    · cases h; exact ⟨[], by simp, fun a i h => absurd rfl h⟩

/-! ## C40: what `shutdown` does -/

theorem nodup_map_on {α γ : Type} {f : α → γ} {l : List α} (hf : ∀ x ∈ l, ∀ y ∈ l, f x = f y → x = y) (h : l.Nodup) :
    (l.map f).Nodup := by
  induction l with
  | nil => exact List.nodup_nil
  | cons a l ih =>
    rw [List.nodup_cons] at h
    rw [List.map_cons, List.nodup_cons]
    refine ⟨fun hc => ?_, ih (fun x hx y hy => hf x (by simp [hx]) y (by simp [hy])) h.2⟩
    obtain ⟨b, hb, hab⟩ := List.mem_map.1 hc
    exact h.1 (hf b (by simp [hb]) a (by simp) hab ▸ hb)

/-- **C36**, also for passes that raise: a pass, whatever its outcome, submits a task of a store only if the task was
there with a run time that had come; so it submits no paused task. -/
theorem C36_only_due_submitted (L : LawfulStore O) (c : Cfg τ) (e : Env τ) (fuel : Nat) (s s' : State σ τ φ)
    (hs : Reachable L c s) (r : Except Err (Option Int)) (h : processTasks O c e fuel s = some (s', r)) :
    ∃ l, s'.log = s.log ++ l ∧ ∀ a i, submitted a i l ≠ [] →
      ∃ t n, entry O s a i = some t ∧ t.nrt = some n ∧ n ≤ e.now :=
  processTasks_dueOnly L hs.wf h

/-- `t` is a shutdown task of store `a` -/
def ShutdownTask (O : StoreOps σ (Body τ φ)) (c : Cfg τ) (s : State σ τ φ) (a i : String) : Prop :=
  ∃ t, entry O s a i = some t ∧ c.isShutdown t.body.trigger = true

theorem shutdownTasks_spec (L : LawfulStore O) (c : Cfg τ) (a : String) (ts : List (T τ φ)) {st : σ} (hi : L.Inv st)
    (hn : (ts.map Task.id).Nodup) (hm : ∀ t ∈ ts, L.toMap st t.id = some t) :
    (shutdownTasks O c a ts st).2 = (ts.filter fun t => c.isShutdown t.body.trigger).map (fun t => Obs.shutdownRun t.id a) ∧
    ∀ i, L.toMap (shutdownTasks O c a ts st).1 i =
      if i ∈ (ts.filter fun t => c.isShutdown t.body.trigger).map Task.id then none else L.toMap st i := by
  induction ts generalizing st with
  | nil => exact ⟨rfl, fun i => by simp [shutdownTasks]⟩
  | cons t ts ih =>
    simp only [List.map_cons, List.nodup_cons] at hn
    simp only [shutdownTasks]
    by_cases ht : c.isShutdown t.body.trigger = true
    · rw [if_pos ht]
      have hd := (L.delete_ok hi (hm t (by simp))).2
      have hi' := L.step_inv hi (.delete t.id)
      obtain ⟨h1, h2⟩ := ih hi' hn.2 (fun u hu => by
        rw [hd, AMap.erase, if_neg, hm u (by simp [hu])]
        intro hc; exact hn.1 (List.mem_map.2 ⟨u, hu, hc⟩))
      refine ⟨by simp [h1, ht], fun i => ?_⟩
      rw [h2, hd]
      simp only [AMap.erase, List.filter_cons, ht, if_true, List.map_cons, List.mem_cons]
      by_cases hit : i = t.id
      · simp [hit]
      · simp only [hit, false_or, if_false]
    · rw [if_neg ht]
      obtain ⟨h1, h2⟩ := ih hi hn.2 (fun u hu => hm u (by simp [hu]))
      exact ⟨by simp [h1, ht], fun i => by rw [h2]; simp only [List.filter_cons, if_neg ht]⟩

theorem store_shutdown (L : LawfulStore O) (c : Cfg τ) (a : String) {st : σ} (hi : L.Inv st) :
    (∀ o ∈ (shutdownTasks O c a (O.all st) st).2, ∃ i t, o = .shutdownRun i a ∧ L.toMap st i = some t ∧
      c.isShutdown t.body.trigger = true) ∧
    (shutdownTasks O c a (O.all st) st).2.Nodup ∧
    (∀ i t, L.toMap st i = some t → c.isShutdown t.body.trigger = true →
      .shutdownRun i a ∈ (shutdownTasks O c a (O.all st) st).2) ∧
    ∀ i, L.toMap (shutdownTasks O c a (O.all st) st).1 i =
      (L.toMap st i).filter (fun t => !c.isShutdown t.body.trigger) := by
  have hl := L.all hi
  have hmem : ∀ t, t ∈ O.all st ↔ L.toMap st t.id = some t := fun t => by rw [hl.2]; simp
  have hn : ((O.all st).map Task.id).Nodup := by
    refine nodup_map_on ?_ hl.1
    intro x hx y hy hxy
    have h1 := (hmem x).1 hx
    have h2 := (hmem y).1 hy
    rw [hxy, h2] at h1
    exact (Option.some.inj h1).symm
  obtain ⟨h1, h2⟩ := shutdownTasks_spec L c a (O.all st) hi hn (fun t ht => (hmem t).1 ht)
  refine ⟨fun o ho => ?_, ?_, fun i t ht hsd => ?_, fun i => ?_⟩
  · rw [h1] at ho
    obtain ⟨t, ht, rfl⟩ := List.mem_map.1 ho
    obtain ⟨ht1, ht2⟩ := List.mem_filter.1 ht
    exact ⟨t.id, t, rfl, (hmem t).1 ht1, ht2⟩
  · rw [h1]
    have : ((O.all st).filter fun t => c.isShutdown t.body.trigger).map Task.id |>.Nodup :=
      List.Nodup.sublist (List.Sublist.map _ List.filter_sublist) hn
    rw [show (fun t : T τ φ => Obs.shutdownRun t.id a) = (fun i => Obs.shutdownRun i a) ∘ Task.id from rfl, ← List.map_map]
    refine nodup_map_on ?_ this
    intro x _ y _ hxy
    cases hxy; rfl
  · rw [h1]
    have hid := L.key hi ht
    subst hid
    exact List.mem_map.2 ⟨t, List.mem_filter.2 ⟨(hmem t).2 ht, hsd⟩, rfl⟩
  · rw [h2]
    cases ht : L.toMap st i with
    | none => split <;> rfl
    | some t =>
      have hid := L.key hi ht
      subst hid
      by_cases hsd : c.isShutdown t.body.trigger = true
      · rw [if_pos (List.mem_map.2 ⟨t, List.mem_filter.2 ⟨(hmem t).2 ht, hsd⟩, rfl⟩)]
        simp [Option.filter, hsd]
      · rw [if_neg]
        · simp [Option.filter, hsd]
        · intro hc
          obtain ⟨u, hu, hid⟩ := List.mem_map.1 hc
          obtain ⟨hu1, hu2⟩ := List.mem_filter.1 hu
          have := (hmem u).1 hu1
          rw [hid, ht] at this
          cases this
          exact hsd hu2

theorem shutdownStores_spec (L : LawfulStore O) (c : Cfg τ) {d : Dict String σ} (hd : Stores L d) :
    (∀ o ∈ (shutdownStores O c d).2, ∃ a i t, o = .shutdownRun i a ∧ look O d a i = some t ∧
      c.isShutdown t.body.trigger = true) ∧
    (shutdownStores O c d).2.Nodup ∧
    (∀ a i t, look O d a i = some t → c.isShutdown t.body.trigger = true → .shutdownRun i a ∈ (shutdownStores O c d).2) ∧
    ∀ a, (shutdownStores O c d).1.get? a =
      (d.get? a).map fun st => O.close (shutdownTasks O c a (O.all st) st).1 := by
  induction d with
  | nil => exact ⟨fun o ho => (List.not_mem_nil ho).elim, List.nodup_nil, fun a i t h => by simp [look, Dict.get?] at h,
      fun a => by simp [shutdownStores, Dict.get?]⟩
  | cons p d ih =>
    obtain ⟨x, st⟩ := p
    obtain ⟨h1, h2, h3⟩ := Stores.cons.1 hd
    obtain ⟨i1, i2, i3, i4⟩ := ih h3
    obtain ⟨k1, k2, k3, k4⟩ := store_shutdown L c x h2
    have hx : ∀ o ∈ (shutdownStores O c d).2, ∀ i, o ≠ .shutdownRun i x := by
      intro o ho i hc
      obtain ⟨a, j, t, rfl, ht, _⟩ := i1 o ho
      cases hc
      rw [look_not_mem h1] at ht; cases ht
    simp only [shutdownStores]
    refine ⟨fun o ho => ?_, ?_, fun a i t ht hsd => ?_, fun a => ?_⟩
    · rcases List.mem_append.1 ho with ho | ho
      · obtain ⟨i, t, rfl, ht, hsd⟩ := k1 o ho
        exact ⟨x, i, t, rfl, by rw [look_cons_eq, L.lookup h2, ht], hsd⟩
      · obtain ⟨a, i, t, rfl, ht, hsd⟩ := i1 o ho
        refine ⟨a, i, t, rfl, ?_, hsd⟩
        rw [look_cons_ne]
        · exact ht
        · rintro rfl; rw [look_not_mem h1] at ht; cases ht
    · refine List.nodup_append.2 ⟨k2, i2, fun o ho o' ho' hc => ?_⟩
      subst hc
      obtain ⟨i, t, rfl, _⟩ := k1 o ho
      exact hx _ ho' i rfl
    · by_cases hax : x = a
      · subst hax
        rw [look_cons_eq, L.lookup h2] at ht
        exact List.mem_append_left _ (k3 i t ht hsd)
      · rw [look_cons_ne hax] at ht
        exact List.mem_append_right _ (i3 a i t ht hsd)
    · simp only [Dict.get?]
      by_cases hax : x = a
      · subst hax; simp
      · simp only [hax, if_false]; exact i4 a

/-- **C40** (partial): the `shutdown` that stops the scheduler runs every shutdown task of every store exactly once
and runs and logs nothing else; no shutdown task stays in a store.  In a store whose `shutdown` keeps the data all
other tasks stay as they were.  Partial: `MemoryStore.shutdown` drops them (`C40_memory_witness`).
`hsub` and `hkeep` say what closing a store does to its tasks (`Keeps`: for SQL and MongoDB nothing). -/
theorem C40_shutdown_partial (L : LawfulStore O) (c : Cfg τ) (s s' : State σ τ φ) (hs : Reachable L c s)
    (h : shutdown O c s = (s', .ok true))
    (hsub : ∀ st i t, L.Inv st → L.toMap (O.close st) i = some t → L.toMap st i = some t)
    (Keeps : σ → Prop) (hstep : ∀ st op, Keeps st → Keeps (O.step st op).1)
    (hkeep : ∀ st, L.Inv st → Keeps st → L.toMap (O.close st) = L.toMap st) :
    (∃ l, s'.log = s.log ++ l ++ [.schedulerShutdown] ∧ l.Nodup ∧
      ∀ o, o ∈ l ↔ ∃ a i, o = .shutdownRun i a ∧ ShutdownTask O c s a i) ∧
    (∀ a i, ¬ ShutdownTask O c s' a i) ∧
    (∀ a i t, entry O s' a i = some t → entry O s a i = some t) ∧
    ∀ a st, s.stores.get? a = some st → Keeps st → ∀ i t, entry O s a i = some t →
      c.isShutdown t.body.trigger = false → entry O s' a i = some t := by
  have hw := hs.wf
  have hst := wf_iff.1 hw
  simp only [shutdown] at h
  split at h
  · cases h
  · split at h
    · cases h
    · simp only [Prod.mk.injEq, Except.ok.injEq, and_true] at h
      obtain ⟨k1, k2, k3, k4⟩ := shutdownStores_spec L c hst
      have hen : ∀ a i t, entry O s' a i = some t → ∃ st, s.stores.get? a = some st ∧ L.Inv st ∧
          L.toMap (O.close (shutdownTasks O c a (O.all st) st).1) i = some t := by
        intro a i t ht
        rw [entry_look, ← h, look, k4] at ht
        cases hg : s.stores.get? a with
        | none => rw [hg] at ht; cases ht
        | some st =>
          rw [hg] at ht
          have hi := hst.2 _ _ hg
          refine ⟨st, rfl, hi, ?_⟩
          simpa [L.lookup (L.close_inv (inv_shutdownTasks L c a _ hi))] using ht
      have hgone : ∀ a i t, entry O s' a i = some t → entry O s a i = some t ∧ c.isShutdown t.body.trigger = false := by
        intro a i t ht
        obtain ⟨st, hg, hi, hm⟩ := hen a i t ht
        have h1 := hsub _ _ _ (inv_shutdownTasks L c a _ hi) hm
        rw [(store_shutdown L c a hi).2.2.2] at h1
        obtain ⟨h2, h3⟩ := Option.filter_eq_some_iff.1 h1
        exact ⟨by simp [entry, hg, L.lookup hi, h2], by simpa using h3⟩
      refine ⟨⟨(shutdownStores O c s.stores).2, by rw [← h], k2, fun o => ⟨fun ho => ?_, ?_⟩⟩, ?_, fun a i t ht => (hgone a i t ht).1, ?_⟩
      · obtain ⟨a, i, t, rfl, ht, hsd⟩ := k1 o ho
        exact ⟨a, i, rfl, t, ht, hsd⟩
      · rintro ⟨a, i, rfl, t, ht, hsd⟩
        exact k3 a i t ht hsd
      · rintro a i ⟨t, ht, hsd⟩
        rw [(hgone a i t ht).2] at hsd; cases hsd
      · intro a st hg hk i t ht hsd
        have hi := hst.2 _ _ hg
        have hk' : ∀ (ts : List (T τ φ)) (st : σ), Keeps st → Keeps (shutdownTasks O c a ts st).1 := by
          intro ts
          induction ts with
          | nil => exact fun st h => h
          | cons t ts ih =>
            intro st hk
            simp only [shutdownTasks]
            split
            · exact ih _ (hstep _ _ hk)
            · exact ih _ hk
        rw [entry_look, ← h, look, k4, hg]
        simp only [Option.map_some, Option.bind_some]
        rw [L.lookup (L.close_inv (inv_shutdownTasks L c a _ hi)),
          hkeep _ (inv_shutdownTasks L c a _ hi) (hk' _ _ hk), (store_shutdown L c a hi).2.2.2]
        simp only [entry, hg, Option.bind_some, L.lookup hi] at ht
        rw [ht]
        simp [hsd]


/-! ## C40: passes leave shutdown tasks alone -/

/-- A shutdown trigger has no times (triggers/shutdown.py:10-13). -/
def Silent (c : Cfg τ) (e : Env τ) : Prop :=
  ∀ site g p now, c.isShutdown g = true → e.next site g p now = .ok none

/-- the task has no run time, if it is a shutdown task -/
def Dormant (c : Cfg τ) (t : T τ φ) : Prop := c.isShutdown t.body.trigger = true → t.nrt = none

/-- a call that does not itself give a shutdown task a run time -/
def Call.Quiet (L : LawfulStore O) (c : Cfg τ) : Call σ τ φ → Prop
  | .addTask t nrt _ => Dormant c { t with nrt := nrt.getD t.nrt }
  | .update _ _ f => ∀ t t', Dormant c t → f t = some t' → Dormant c t'
  | .addStore st _ => ∀ i t, L.toMap st i = some t → Dormant c t
  | _ => True

/-- the histories in which nobody gives a shutdown task a run time; `hr`: `resume_task` with a store alias may give it
to another pending task of the same id, see `C38_resume_pending_witness` -/
inductive QuietHistory (L : LawfulStore O) (c : Cfg τ) : State σ τ φ → Prop
  | init : QuietHistory L c State.init
  | call {s s' : State σ τ φ} {e : Env τ} {fuel : Nat} {k : Call σ τ φ} (hs : QuietHistory L c s) (hk : k.Ok L)
      (hq : k.Quiet L c) (he : Silent c e) (hr : ∀ id store, k = .resumeTask id store → s.mode = .stopped → store = none)
      (h : exec O c e fuel k s = some s') : QuietHistory L c s'

theorem QuietHistory.reachable {L : LawfulStore O} {c : Cfg τ} {s : State σ τ φ} (h : QuietHistory L c s) :
    Reachable L c s := by
  induction h with
  | init => exact .init
  | call hs hk hq he hr h ih => exact .call ih hk h

/-- all shutdown tasks are without run time -/
def AllDormant (O : StoreOps σ (Body τ φ)) (c : Cfg τ) (s : State σ τ φ) : Prop :=
  (∀ a i t, entry O s a i = some t → Dormant c t) ∧ ∀ p ∈ s.pending, Dormant c p.1

/-- the tasks of `s'` are tasks of `s` or satisfy `P` -/
def Grows (O : StoreOps σ (Body τ φ)) (P : T τ φ → Prop) (s s' : State σ τ φ) : Prop :=
  (∀ a i t, entry O s' a i = some t → entry O s a i = some t ∨ P t) ∧ ∀ p ∈ s'.pending, p ∈ s.pending ∨ P p.1

theorem Grows.refl (P : T τ φ → Prop) (s : State σ τ φ) : Grows O P s s := ⟨fun _ _ _ h => .inl h, fun _ h => .inl h⟩

theorem Grows.same {P : T τ φ → Prop} {s s' : State σ τ φ} (h : s'.stores = s.stores) (hp : s'.pending = s.pending) :
    Grows O P s s' := ⟨fun a i t ht => .inl (by rw [entry_look, h] at ht; exact ht), fun p hq => .inl (hp ▸ hq)⟩

theorem Grows.trans {P : T τ φ → Prop} {s s' s'' : State σ τ φ} (h : Grows O P s s') (h' : Grows O P s' s'') :
    Grows O P s s'' := by
  refine ⟨fun a i t ht => ?_, fun p hp => ?_⟩
  · rcases h'.1 a i t ht with h1 | h1
    · exact h.1 a i t h1
    · exact .inr h1
  · rcases h'.2 p hp with h1 | h1
    · exact h.2 p h1
    · exact .inr h1

theorem AllDormant.grows {c : Cfg τ} {s s' : State σ τ φ} (h : AllDormant O c s) (h' : Grows O (Dormant c) s s') :
    AllDormant O c s' := by
  refine ⟨fun a i t ht => ?_, fun p hp => ?_⟩
  · rcases h'.1 a i t ht with h1 | h1
    · exact h.1 a i t h1
    · exact h1
  · rcases h'.2 p hp with h1 | h1
    · exact h.2 p h1
    · exact h1

theorem grows_deleteTask (L : LawfulStore O) {P : T τ φ → Prop} {s : State σ τ φ} (hw : WF L s) (id : String)
    (store : Option String) : Grows O P s (deleteTask O id store s).1 := by
  by_cases hm : s.mode = .stopped
  · simp only [deleteTask, if_pos hm]
    split
    · exact .refl _ _
    · refine ⟨fun a i t h => .inl h, fun p hp => .inl ?_⟩
      exact List.mem_of_mem_eraseP hp
  · rcases deleteTask_spec L hw hm id store with ⟨_, _, _, _, h1, _, h2⟩ | ⟨t, a, _, _, _, _, h1, _, h2⟩
    · exact ⟨fun a i t h => .inl (by rw [h2] at h; exact h), fun p hp => .inl (by rw [h1.pending] at hp; exact hp)⟩
    · refine ⟨fun b i u h => .inl ?_, fun p hp => .inl (by rw [h1.pending] at hp; exact hp)⟩
      rw [h2, put] at h
      split at h
      · cases h
      · exact h

theorem grows_update (L : LawfulStore O) {P : T τ φ → Prop} {s : State σ τ φ} (hw : WF L s) {a : String} {st : σ}
    (hg : s.stores.get? a = some st) {t : T τ φ} (ht : P t) : Grows O P s (s.setStore a (O.step st (.update t)).1) := by
  refine ⟨fun b i u hu => ?_, fun p hp => .inl hp⟩
  have hi := hw.inv _ _ hg
  rw [entry_look] at hu
  simp only [State.setStore] at hu
  rw [look_set L (L.step_inv hi _)] at hu
  split at hu
  · rename_i hb; subst hb
    have := congrArg Prod.fst (L.step_map hi (.update t))
    simp only [specStep] at this
    rw [this] at hu
    have old : L.toMap st i = some u → entry O s b i = some u := by intro h; simp [entry, hg, L.lookup hi, h]
    have new : (L.toMap st).set t i = some u → entry O s b i = some u ∨ P u := by
      intro h
      simp only [AMap.set] at h
      split at h
      · cases h; exact .inr ht
      · exact .inl (old h)
    cases hx : L.toMap st t.id with
    | some v => rw [hx] at hu; exact new hu
    | none =>
      rw [hx] at hu
      simp only [] at hu
      split at hu
      · exact new hu
      · exact .inl (old hu)
  · exact .inl hu

/-- the steps of a pass keep the invariant -/
theorem dormant_passRel (L : LawfulStore O) (c : Cfg τ) (e : Env τ) (he : Silent c e) :
    PassRel O e (fun s s' => WF L s → WF L s' ∧ Grows O (Dormant c) s s') where
  refl s hw := ⟨hw, .refl _ _⟩
  trans h h' hw := by
    obtain ⟨h1, h2⟩ := h hw
    obtain ⟨h3, h4⟩ := h' h1
    exact ⟨h3, h2.trans h4⟩
  del id store s hw := ⟨wf_deleteTask hw id store, grows_deleteTask L hw id store⟩
  upd a st t n s hg hn hw := by
    refine ⟨wf_setStore hw a (hw.inv _ _ hg) _, grows_update L hw hg ?_⟩
    intro hsd
    obtain ⟨last, n0, h1, h2⟩ := hn
    rw [he 1 _ _ _ hsd] at h1
    cases h1
    rcases h2 with h2 | h2 <;> simp [h2, manualNext]
  obs s ins l _ hw := ⟨hw.congr rfl, .same rfl rfl⟩

theorem grows_wakeIfRunning {P : T τ φ → Prop} {s s' : State σ τ φ} (h : Grows O P s s') : Grows O P s s'.wakeIfRunning := by
  refine h.trans ?_
  simp only [State.wakeIfRunning]
  split
  · exact .same rfl rfl
  · exact .refl _ _

theorem lookup_mem (L : LawfulStore O) {s : State σ τ φ} (hw : WF L s) {id : String} {store : Option String} {t : T τ φ}
    {loc : Option String} (hl : lookupTask O s id store = some (t, loc)) :
    (∃ a i, entry O s a i = some t) ∨ ∃ p ∈ s.pending, p.1 = t := by
  simp only [lookupTask] at hl
  split at hl
  · obtain ⟨p, hp, hq⟩ := Option.map_eq_some_iff.1 hl
    cases hq
    exact .inr ⟨p, List.mem_of_find?_eq_some hp, rfl⟩
  · obtain ⟨p, hp, hq⟩ := Option.map_eq_some_iff.1 hl
    cases hq
    obtain ⟨_, h2, _⟩ := findInStores_some L (wf_iff.1 hw) (t := p.1) (a := p.2) hp
    exact .inl ⟨p.2, id, h2⟩

/-- asking again for the task at the place where it was found -/
theorem lookup_again (L : LawfulStore O) {s : State σ τ φ} (hw : WF L s) {id : String} {store : Option String}
    {t u : T τ φ} {loc loc' : Option String} (hs : s.mode = .stopped → store = none)
    (hl : lookupTask O s id store = some (t, loc)) (hu : lookupTask O s id loc = some (u, loc')) : u = t := by
  by_cases hm : s.mode = .stopped
  · have := hs hm; subst this
    have : loc = none := by
      simp only [lookupTask, if_pos hm] at hl
      obtain ⟨p, _, hq⟩ := Option.map_eq_some_iff.1 hl
      cases hq; rfl
    subst this
    rw [hl] at hu; cases hu; rfl
  · simp only [lookupTask, if_neg hm] at hl hu
    obtain ⟨p, hp, hq⟩ := Option.map_eq_some_iff.1 hl
    obtain ⟨p', hp', hq'⟩ := Option.map_eq_some_iff.1 hu
    cases hq; cases hq'
    obtain ⟨_, h2, _⟩ := findInStores_some L (wf_iff.1 hw) (t := p.1) (a := p.2) hp
    obtain ⟨h3, h4, _⟩ := findInStores_some L (wf_iff.1 hw) (t := p'.1) (a := p'.2) hp'
    rw [h3 _ rfl, h2] at h4
    exact (Option.some.inj h4).symm

theorem grows_updateTask (L : LawfulStore O) {P : T τ φ → Prop} {s : State σ τ φ} (hw : WF L s) (id : String)
    (store : Option String) (f : T τ φ → Option (T τ φ))
    (hf : ∀ t t' loc, lookupTask O s id store = some (t, loc) → f t = some t' → P t') :
    Grows O P s (updateTask O id store f s).1 := by
  simp only [updateTask]
  cases hl : lookupTask O s id store with
  | none => exact .refl _ _
  | some q =>
    obtain ⟨t, loc⟩ := q
    simp only []
    cases hft : f t with
    | none => exact .refl _ _
    | some t' =>
      have hP := hf t t' loc hl hft
      simp only []
      cases loc with
      | none =>
        simp only []
        refine grows_wakeIfRunning ⟨fun a i t h => .inl h, fun p hp => ?_⟩
        have : ∀ (ps : List (Waiting τ φ)), p ∈ setPending id store t' ps → p ∈ ps ∨ P p.1 := by
          intro ps
          induction ps with
          | nil => exact fun h => .inl h
          | cons q ps ih =>
            intro h
            simp only [setPending] at h
            split at h
            · rcases List.mem_cons.1 h with rfl | h
              · exact .inr hP
              · exact .inl (by simp [h])
            · rcases List.mem_cons.1 h with rfl | h
              · exact .inl (by simp)
              · rcases ih h with h | h
                · exact .inl (by simp [h])
                · exact .inr h
        exact this _ hp
      | some a =>
        simp only []
        cases hg : s.stores.get? a with
        | none => exact .refl _ _
        | some st =>
          simp only []
          have := grows_update L hw hg hP
          split <;> rename_i hd <;> rw [hd] at this
          · exact grows_wakeIfRunning (this.trans (.same rfl rfl))
          · exact this

theorem firstTime_dormant {c : Cfg τ} {e : Env τ} (he : Silent c e) {t : T τ φ} (ht : Dormant c t) {start : Bool}
    {minD n : Option Int} (h : firstTime e t start minD = .ok n) : Dormant c (stored t n) := by
  intro hsd
  have hsd' : c.isShutdown t.body.trigger = true := hsd
  simp only [stored]
  simp only [firstTime, ht hsd'] at h
  cases start with
  | false => cases h; rfl
  | true => simp only [he 2 _ _ _ hsd'] at h; cases h; rfl

theorem grows_realAddTask (L : LawfulStore O) {c : Cfg τ} {s : State σ τ φ} (hw : WF L s) {e : Env τ} (he : Silent c e)
    {t : T τ φ} (ht : Dormant c t) (rep start : Bool) (minD : Option Int) :
    Grows O (Dormant c) s (realAddTask O e t rep start minD s).1 := by
  rcases realAddTask_spec L hw e t rep start minD with ⟨h1, _⟩ | ⟨n, h1, _, _, _, _, _, _, h8, _, h10⟩
  · rw [h1]; exact .refl _ _
  · refine ⟨fun b i u hu => ?_, fun p hp => .inl (by rw [h8.pending] at hp; exact hp)⟩
    rw [h10, put] at hu
    split at hu
    · cases hu; exact .inr (firstTime_dormant he ht h1)
    · exact .inl hu

theorem grows_addPending (L : LawfulStore O) {c : Cfg τ} {e : Env τ} (he : Silent c e) (minD : Option Int)
    (ps : List (Waiting τ φ)) (hp : ∀ p ∈ ps, Dormant c p.1) {s : State σ τ φ} (hw : WF L s) :
    Grows O (Dormant c) s (addPending O e minD ps s).1 := by
  induction ps generalizing s with
  | nil => exact .refl _ _
  | cons p ps ih =>
    obtain ⟨t, rep, st⟩ := p
    have h1 := grows_realAddTask L hw he (hp (t, rep, st) (by simp)) rep st minD
    have hw1 := wf_realAddTask hw e t rep st minD
    have ih' := fun {s : State σ τ φ} (h : WF L s) => ih (fun p h => hp p (by simp [h])) h
    simp only [addPending]
    split <;> rename_i hd <;> rw [hd] at h1 hw1
    · exact h1.trans (ih' hw1)
    · exact h1.trans (ih' hw1)
    · exact h1

theorem grows_addStore (L : LawfulStore O) {P : T τ φ → Prop} {st : σ} (hi : L.Inv st)
    (hP : ∀ i t, L.toMap st i = some t → P t) (a : String) (s : State σ τ φ) : Grows O P s (addStore st a s).1 := by
  simp only [addStore]
  split
  · exact .refl _ _
  · refine grows_wakeIfRunning ⟨fun b i t ht => ?_, fun p hp => .inl hp⟩
    rw [entry_look] at ht
    change look O (s.stores.set a st) b i = some t at ht
    rw [look_set L hi] at ht
    split at ht
    · exact .inr (hP i t ht)
    · exact .inl ht

theorem exec_dormant (L : LawfulStore O) (c : Cfg τ)
    (hsub : ∀ st i t, L.Inv st → L.toMap (O.close st) i = some t → L.toMap st i = some t)
    {e : Env τ} (he : Silent c e) {fuel : Nat} {k : Call σ τ φ} (hk : k.Ok L) (hq : k.Quiet L c) {s s' : State σ τ φ}
    (hw : WF L s) (hst : ∀ id store, k = .resumeTask id store → s.mode = .stopped → store = none)
    (hd : AllDormant O c s) (h : exec O c e fuel k s = some s') : AllDormant O c s' := by
  have up : ∀ (f : T τ φ → Option (T τ φ)), (∀ t t', Dormant c t → f t = some t' → Dormant c t') → ∀ id store,
      AllDormant O c (updateTask O id store f s).1 := by
    intro f hf id store
    refine hd.grows (grows_updateTask L hw id store f fun t t' loc hm ht => hf t t' ?_ ht)
    rcases lookup_mem L hw hm with ⟨a, i, hm⟩ | ⟨p, hp, rfl⟩
    · exact hd.1 a i t hm
    · exact hd.2 p hp
  cases k with
  | addTask t nrt rep =>
    simp only [exec, Option.some.injEq] at h; subst h
    simp only [addTask]
    split
    · refine hd.grows ⟨fun a i t h => .inl h, fun p hp => ?_⟩
      rcases List.mem_append.1 hp with hp | hp
      · exact .inl hp
      · simp only [List.mem_singleton] at hp; subst hp; exact .inr hq
    · exact hd.grows (grows_realAddTask L hw he hq rep _ none)
  | start p =>
    simp only [exec, Option.some.injEq] at h; subst h
    simp only [start]
    split
    · exact hd.grows (.same rfl rfl)
    · split
      · exact hd.grows (.same rfl rfl)
      · have g1 : Grows O (Dormant c) s (withDefaults O c { s with refs := s.refs + 1 }) := by
          simp only [withDefaults]
          refine Grows.trans ?_ (grows_addStore L L.init_inv (fun i t h => by rw [L.init_map] at h; cases h) _ _)
          simp only [addExecutor]; split <;> exact .same rfl rfl
        have g2 := g1.trans (grows_addPending L he (if c.lockPath then some (e.now + c.startupDelay) else none) s.pending
          hd.2 (wf_withDefaults (s := { s with refs := s.refs + 1 }) (hw.congr rfl) c))
        split <;> rename_i hx <;> rw [hx] at g2
        · exact hd.grows g2
        · refine (hd.grows g2).grows ⟨fun a i t ht => .inl ?_, fun q hq => .inl ?_⟩
          · revert ht; cases p <;> exact id
          · revert hq; cases p <;> exact fun hq => (List.not_mem_nil hq).elim
  | shutdown =>
    simp only [exec, Option.some.injEq] at h; subst h
    cases hsh : shutdown O c s with
    | mk s1 r =>
      simp only [shutdown] at hsh
      split at hsh
      · cases hsh; exact hd.grows (.same rfl rfl)
      · split at hsh
        · cases hsh; exact hd.grows (.same rfl rfl)
        · simp only [Prod.mk.injEq] at hsh
          refine hd.grows ⟨fun a i t ht => .inl ?_, fun q hq => .inl (by rw [← hsh.1] at hq; exact hq)⟩
          rw [entry_look, ← hsh.1, look, (shutdownStores_spec L c (wf_iff.1 hw)).2.2.2] at ht
          cases hg : s.stores.get? a with
          | none => rw [hg] at ht; cases ht
          | some st =>
            rw [hg] at ht
            have hi := hw.inv _ _ hg
            simp only [Option.map_some, Option.bind_some,
              L.lookup (L.close_inv (inv_shutdownTasks L c a _ hi))] at ht
            have h1 := hsub _ _ _ (inv_shutdownTasks L c a _ hi) ht
            rw [(store_shutdown L c a hi).2.2.2] at h1
            simp [entry, hg, L.lookup hi, (Option.filter_eq_some_iff.1 h1).1]
  | pause =>
    simp only [exec, Option.some.injEq] at h; subst h
    simp only [pause]; split <;> exact hd.grows (.same rfl rfl)
  | resume =>
    simp only [exec, Option.some.injEq] at h; subst h
    simp only [resume]; split <;> exact hd.grows (.same rfl rfl)
  | update id store f => simp only [exec, Option.some.injEq] at h; subst h; exact up f hq id store
  | pauseTask id store =>
    simp only [exec, Option.some.injEq] at h; subst h
    exact up _ (fun t t' _ h => by cases h; exact fun _ => rfl) id store
  | rescheduleTask id store g =>
    simp only [exec, Option.some.injEq] at h; subst h
    simp only [rescheduleTask]
    split
    · exact hd
    · rename_i n hn
      refine up _ (fun t t' _ h => ?_) id store
      cases h
      intro hsd
      have hsd' : c.isShutdown g = true := hsd
      rw [he 2 _ _ _ hsd'] at hn; cases hn; rfl
  | resumeTask id store =>
    simp only [exec, Option.some.injEq] at h; subst h
    simp only [resumeTask]
    cases hl : lookupTask O s id store with
    | none => exact hd
    | some q =>
      obtain ⟨t, loc⟩ := q
      simp only []
      cases hn : e.next 2 t.body.trigger none e.now with
      | error x => exact hd
      | ok n => cases n with
        | none =>
          simp only []
          have := hd.grows (grows_deleteTask L hw t.id loc)
          split <;> rename_i hx <;> rw [hx] at this <;> exact this
        | some n =>
          simp only []
          have : AllDormant O c (updateTask O id loc (fun t => some { t with nrt := some n }) s).1 := by
            refine hd.grows (grows_updateTask L hw id loc _ fun u u' loc' hu hf => ?_)
            cases hf
            have := lookup_again L hw (hst id store rfl) hl hu
            subst this
            intro hsd
            rw [he 2 _ _ _ (show c.isShutdown u.body.trigger = true from hsd)] at hn
            cases hn
          split <;> rename_i hx <;> rw [hx] at this <;> exact this
  | runTask id store force rf =>
    simp only [exec] at h
    cases hr : runTask O e fuel id store force rf s with
    | none => rw [hr] at h; cases h
    | some p =>
      rw [hr] at h
      simp only [Option.map_some, Option.some.injEq] at h
      subst h
      exact hd.grows (rel_runTask (dormant_passRel L c e he) (r := p.2) hr hw).2
  | deleteTask id store =>
    simp only [exec, Option.some.injEq] at h; subst h
    exact hd.grows (grows_deleteTask L hw id store)
  | removeAllTasks store =>
    simp only [exec, Option.some.injEq] at h; subst h
    simp only [removeAllTasks]
    split
    · refine hd.grows ⟨fun a i t h => .inl h, fun p hp => .inl ?_⟩
      simp only [State.emit] at hp
      cases store with
      | none => cases hp
      | some a =>
        simp only [] at hp
        split at hp
        · cases hp
        · exact (List.mem_filter.1 hp).1
    · refine hd.grows ⟨fun a i t ht => .inl ?_, fun p hp => .inl hp⟩
      rw [entry_look] at ht
      simp only [State.emit] at ht
      rw [(stores_clear L store (wf_iff.1 hw)).2.2] at ht
      split at ht
      · cases ht
      · exact ht
  | addExecutor x b =>
    simp only [exec, Option.some.injEq] at h; subst h
    simp only [addExecutor]; split <;> exact hd.grows (.same rfl rfl)
  | removeExecutor b =>
    simp only [exec, Option.some.injEq] at h; subst h
    simp only [removeExecutor]; split <;> exact hd.grows (.same rfl rfl)
  | addStore st b =>
    simp only [exec, Option.some.injEq] at h; subst h
    exact hd.grows (grows_addStore L hk hq b s)
  | removeStore b =>
    simp only [exec, Option.some.injEq] at h; subst h
    simp only [removeStore]
    split
    · exact hd
    · refine hd.grows ⟨fun a i t ht => .inl ?_, fun p hp => .inl hp⟩
      simp only [entry, State.emit, Dict.get?_erase (wf_iff.1 hw).1] at ht
      split at ht
      · cases ht
      · exact ht
  | tick =>
    simp only [exec] at h
    cases hr : tick O c e fuel s with
    | none => rw [hr] at h; cases h
    | some p =>
      rw [hr] at h
      simp only [Option.map_some, Option.some.injEq] at h
      subst h
      simp only [tick] at hr
      have hw0 : WF L { s with woken := false, timer := none } := hw.congr rfl
      have g0 : Grows O (Dormant c) s { s with woken := false, timer := none } := .same rfl rfl
      split at hr
      · cases hr
      · rename_i hx; cases hr
        exact hd.grows (g0.trans (rel_processTasks (dormant_passRel L c e he) hx hw0).2)
      · rename_i hx; cases hr
        exact (hd.grows (g0.trans (rel_processTasks (dormant_passRel L c e he) hx hw0).2)).grows (.same rfl rfl)
  | timerFires => simp only [exec, Option.some.injEq] at h; subst h; exact hd.grows (.same rfl rfl)
  | finishRun id => simp only [exec, Option.some.injEq] at h; subst h; exact hd.grows (.same rfl rfl)


theorem QuietHistory.dormant {L : LawfulStore O} {c : Cfg τ} {s : State σ τ φ} (h : QuietHistory L c s)
    (hsub : ∀ st i t, L.Inv st → L.toMap (O.close st) i = some t → L.toMap st i = some t) : AllDormant O c s := by
  induction h with
  | init => exact ⟨fun a i t h => by simp [entry, State.init, Dict.get?] at h, fun p hp => (List.not_mem_nil hp).elim⟩
  | call hs hk hq he hr h ih => exact exec_dormant L c hsub he hk hq hs.reachable.wf hr ih h

/-- **C40** (partial): however the scheduler is used, as long as nobody gives a shutdown task a run time explicitly, no
pass submits a shutdown task, not even one that raises.  Partial: with an explicit `next_run_time` a pass does run it
(`C40_explicit_time_witness`). -/
theorem C40_never_submitted_partial (L : LawfulStore O) (c : Cfg τ)
    (hsub : ∀ st i t, L.Inv st → L.toMap (O.close st) i = some t → L.toMap st i = some t) (s s' : State σ τ φ)
    (hs : QuietHistory L c s) (e : Env τ) (fuel : Nat) (r : Except Err (Option Int))
    (h : processTasks O c e fuel s = some (s', r)) :
    ∃ l, s'.log = s.log ++ l ∧ ∀ a i, ShutdownTask O c s a i → submitted a i l = [] := by
  obtain ⟨l, h1, h2⟩ := C36_only_due_submitted L c e fuel s s' hs.reachable r h
  refine ⟨l, h1, ?_⟩
  rintro a i ⟨t, ht, hsd⟩
  cases hx : submitted a i l with
  | nil => rfl
  | cons x xs =>
    obtain ⟨u, n, hu, hn, _⟩ := h2 a i (by rw [hx]; simp)
    rw [ht] at hu; cases hu
    rw [(hs.dormant hsub).1 a i t ht hsd] at hn; cases hn

/-! ### The stores meet the assumptions -/

theorem close_sub_memory {β : Type} : ∀ (st : Memory.Store β) i t, Memory.lawful.Inv st →
    Memory.lawful.toMap (Memory.ops.close st) i = some t → Memory.lawful.toMap st i = some t := by
  intro st i t _ h
  exact absurd h (by simp [Memory.lawful, Memory.ops, Memory.toMap, Memory.lookupTask, Memory.removeAllTasks, Memory.init, Dict.get?])

/-- the tasks of the examples can be serialised -/
def exCodec : Persist.Codec (Body Int Unit) := Persist.Prefixed.codec (Persist.Prefixed.task
  ((Persist.Prefixed.int.prod (Persist.Prefixed.string.prod (Persist.Prefixed.string.prod (Persist.Prefixed.bool.prod
    (Persist.Prefixed.int.prod (Persist.Prefixed.int.option.prod Persist.Prefixed.bool)))))).via
    (fun b => (b.trigger, b.executor, b.store, b.coalesce, b.maxInst, b.grace, b.pending))
    (fun x => some ⟨x.1, x.2.1, x.2.2.1, x.2.2.2.1, x.2.2.2.2.1, x.2.2.2.2.2.1, x.2.2.2.2.2.2, ()⟩) (by intro a; rfl)))

/-- memory stores and SQL tables -/
abbrev Mixed := MS ⊕ Persist.Rows.Table

def mixedOps : StoreOps Mixed (Body Int Unit) := Memory.ops.sum (Persist.Rows.sqlOps exCodec)
def mixedLawful : LawfulStore mixedOps := Memory.lawful.sum (Persist.Rows.sqlLawful (c := exCodec) (fun _ => rfl))

/-- SQL tables keep their data when they are closed -/
def IsSql : Mixed → Prop
  | .inl _ => False
  | .inr _ => True

/-- `C40_shutdown_partial` and `C40_never_submitted_partial` apply to schedulers with memory and SQL stores. -/
theorem mixed_meets :
    (∀ st i t, mixedLawful.Inv st → mixedLawful.toMap (mixedOps.close st) i = some t → mixedLawful.toMap st i = some t) ∧
    (∀ st op, IsSql st → IsSql (mixedOps.step st op).1) ∧
    ∀ st, mixedLawful.Inv st → IsSql st → mixedLawful.toMap (mixedOps.close st) = mixedLawful.toMap st := by
  refine ⟨fun st i t hi h => ?_, fun st op h => ?_, fun st hi h => ?_⟩
  · cases st with
    | inl st => exact close_sub_memory st i t hi h
    | inr st => exact h
  · cases st with
    | inl st => cases h
    | inr st => exact trivial
  · cases st with
    | inl st => cases h
    | inr st => rfl

/-- triggers as before, but `-1` is the shutdown trigger -/
def exStopCfg : Cfg Int := ⟨false, 10, 1, 4000000, fun g => g == -1, 0⟩

def exStopEnv (now : Int) : Env Int :=
  { exEnvAt now with next := fun i g p n => if g = -1 then .ok none else exNext i g p n }

theorem exStopEnv_silent (now : Int) : Silent exStopCfg (exStopEnv now) := by
  intro site g p n h
  simp only [exStopCfg, beq_iff_eq] at h
  simp [exStopEnv, h]

/-- a sequence of calls on a scheduler with memory and SQL stores -/
def execMixed (now : Int) : List (Call Mixed Int Unit) → State Mixed Int Unit → Option (State Mixed Int Unit)
  | [], s => some s
  | k :: ks, s => (exec mixedOps exStopCfg (exStopEnv now) 20 k s).bind (execMixed now ks)

/-- two shutdown tasks and two others, in a memory store and a SQL store -/
def exStopHistory : List (Call Mixed Int Unit) :=
  [.addStore (.inr []) "sql",
   .addTask ⟨"a", none, exBody (-1) "default" "default" false 3⟩ none false,
   .addTask ⟨"b", none, exBody 30 "default" "default" false 3⟩ none false,
   .addTask ⟨"a", none, exBody (-1) "default" "sql" false 3⟩ none false,
   .addTask ⟨"b", none, exBody 50 "default" "sql" false 1⟩ none false,
   .start false, .tick]

/-- which tasks are there, and when they run next -/
def seesMixed (s : State Mixed Int Unit) : List (Option (Option Int)) :=
  [("default", "a"), ("default", "b"), ("sql", "a"), ("sql", "b")].map fun p => (entry mixedOps s p.1 p.2).map Task.nrt

theorem execMixed_quiet {now : Int} {ks : List (Call Mixed Int Unit)}
    (hk : ∀ k ∈ ks, k.Ok mixedLawful ∧ k.Quiet mixedLawful exStopCfg ∧ ∀ id store, k ≠ .resumeTask id store)
    {s s' : State Mixed Int Unit} (hs : QuietHistory mixedLawful exStopCfg s) (h : execMixed now ks s = some s') :
    QuietHistory mixedLawful exStopCfg s' := by
  induction ks generalizing s with
  | nil => cases h; exact hs
  | cons k ks ih =>
    simp only [execMixed] at h
    obtain ⟨s1, h1, h2⟩ := Option.bind_eq_some_iff.1 h
    obtain ⟨q1, q2, q3⟩ := hk k (by simp)
    exact ih (fun k h => hk k (by simp [h])) (.call hs q1 q2 (exStopEnv_silent now)
      (fun id store hc => absurd hc (q3 id store)) h1) h2

theorem exStopHistory_quiet : ∀ k ∈ exStopHistory,
    k.Ok mixedLawful ∧ k.Quiet mixedLawful exStopCfg ∧ ∀ id store, k ≠ .resumeTask id store := by
  intro k hk
  simp only [exStopHistory, List.mem_cons, List.not_mem_nil, or_false] at hk
  rcases hk with rfl | rfl | rfl | rfl | rfl | rfl | rfl <;> refine ⟨?_, ?_, by simp⟩ <;> try exact trivial
  · exact (Persist.Rows.sqlLawful (c := exCodec) (fun _ => rfl)).init_inv
  · intro i t h; simp [mixedLawful, LawfulStore.sum, Persist.Rows.sqlLawful, Persist.Rows.toMap_nil', AMap.empty] at h
  · intro h; rfl
  · intro h; simp [exStopCfg, exBody] at h
  · intro h; rfl
  · intro h; simp [exStopCfg, exBody] at h

set_option synthInstance.maxSize 2048 in
set_option synthInstance.maxHeartbeats 200000 in
/-- The hypotheses of both theorems of C40 are met: shutdown tasks in two stores, no run time before the shutdown, run
at the shutdown; the other task of the SQL store stays. -/
example : ∃ s s' : State Mixed Int Unit, QuietHistory mixedLawful exStopCfg s ∧ shutdown mixedOps exStopCfg s = (s', .ok true) ∧
    seesMixed s = [some none, some (some 37), some none, some (some 57)] ∧
    seesMixed s' = [none, none, none, some (some 57)] ∧
    s'.log.filter (fun | .shutdownRun .. => true | _ => false) = [.shutdownRun "a" "sql", .shutdownRun "a" "default"] := by
  have h : (execMixed 7 exStopHistory State.init).bind (fun s => match shutdown mixedOps exStopCfg s with
      | (s', .ok true) => some (seesMixed s, seesMixed s', s'.log.filter (fun | .shutdownRun .. => true | _ => false))
      | _ => none) = some ([some none, some (some 37), some none, some (some 57)], [none, none, none, some (some 57)],
        [.shutdownRun "a" "sql", .shutdownRun "a" "default"]) := by decide +kernel
  obtain ⟨s, h1, h2⟩ := Option.bind_eq_some_iff.1 h
  split at h2
  · rename_i s' hs
    simp only [Option.some.injEq, Prod.mk.injEq] at h2
    exact ⟨s, s', execMixed_quiet exStopHistory_quiet .init h1, hs, h2⟩
  · cases h2

set_option synthInstance.maxSize 2048 in
set_option synthInstance.maxHeartbeats 200000 in
/-- **C40, counterexample**: `MemoryStore.shutdown` drops all tasks, also those that are no shutdown tasks (here "b"). -/
theorem C40_memory_witness : ∃ s s' : State Mixed Int Unit, Reachable mixedLawful exStopCfg s ∧
    shutdown mixedOps exStopCfg s = (s', .ok true) ∧
    (entry mixedOps s "default" "b").map Task.nrt = some (some 37) ∧ entry mixedOps s' "default" "b" = none := by
  have h : (execMixed 7 exStopHistory State.init).bind (fun s => match shutdown mixedOps exStopCfg s with
      | (s', .ok true) => some ((entry mixedOps s "default" "b").map Task.nrt, (entry mixedOps s' "default" "b").isNone)
      | _ => none) = some (some (some 37), true) := by decide +kernel
  obtain ⟨s, h1, h2⟩ := Option.bind_eq_some_iff.1 h
  split at h2
  · rename_i s' hs
    simp only [Option.some.injEq, Prod.mk.injEq, Option.isNone_iff_eq_none] at h2
    exact ⟨s, s', (execMixed_quiet exStopHistory_quiet .init h1).reachable, hs, h2⟩
  · cases h2

set_option synthInstance.maxSize 2048 in
set_option synthInstance.maxHeartbeats 200000 in
/-- **C40, counterexample**: a shutdown task that is added with an explicit `next_run_time` is run by a pass and
removed, so that the shutdown does not run it any more. -/
theorem C40_explicit_time_witness : ∃ s : State Mixed Int Unit,
    execMixed 7 [.addTask ⟨"a", none, exBody (-1) "default" "default" false 3⟩ (some (some 5)) false, .start false, .tick,
      .shutdown] State.init = some s ∧
    submitted "default" "a" s.log = [[5]] ∧ s.log.filter (fun | .shutdownRun .. => true | _ => false) = [] := by
  have h : (execMixed 7 [.addTask ⟨"a", none, exBody (-1) "default" "default" false 3⟩ (some (some 5)) false, .start false, .tick,
      .shutdown] State.init).map (fun s => (submitted "default" "a" s.log, s.log.filter (fun | .shutdownRun .. => true | _ => false))) =
      some ([[5]], []) := by decide +kernel
  obtain ⟨s, h1, h2⟩ := Option.map_eq_some_iff.1 h
  simp only [Prod.mk.injEq] at h2
  exact ⟨s, h1, h2⟩

/-! ## C57: a stopped scheduler submits nothing -/

/-- The scheduler is stopped, no wake-up is queued and no timer is set. -/
def Quiescent (s : State σ τ φ) : Prop := s.mode = .stopped ∧ s.woken = false ∧ s.timer = none

/-- what can happen: the queued wake-up runs only if there is one, the timer fires only if it is set -/
def Enabled (s : State σ τ φ) : Call σ τ φ → Prop
  | .tick => s.woken = true
  | .timerFires => s.timer ≠ none
  | _ => True

/-- calls and events, but no `start` -/
inductive NoStart (O : StoreOps σ (Body τ φ)) (c : Cfg τ) : State σ τ φ → State σ τ φ → Prop
  | refl (s : State σ τ φ) : NoStart O c s s
  | call {s s1 s2 : State σ τ φ} {e : Env τ} {fuel : Nat} {k : Call σ τ φ} (hk : ∀ p, k ≠ .start p) (he : Enabled s k)
      (h : exec O c e fuel k s = some s1) (hr : NoStart O c s1 s2) : NoStart O c s s2

/-- an observation that is a submission -/
def isSend : Obs → Bool
  | .send .. => true
  | _ => false

theorem wakeIfRunning_stopped {s : State σ τ φ} (h : s.mode = .stopped) : s.wakeIfRunning = s := by
  simp [State.wakeIfRunning, h]

theorem quiescent_exec {c : Cfg τ} {e : Env τ} {fuel : Nat} {k : Call σ τ φ} {s s' : State σ τ φ} (hq : Quiescent s)
    (hk : ∀ p, k ≠ .start p) (he : Enabled s k) (h : exec O c e fuel k s = some s') :
    Quiescent s' ∧ ∃ l, s'.log = s.log ++ l ∧ ∀ o ∈ l, isSend o = false := by
  obtain ⟨q1, q2, q3⟩ := hq
  have none' : ∀ {s' : State σ τ φ}, s'.mode = s.mode → s'.woken = s.woken → s'.timer = s.timer → s'.log = s.log →
      Quiescent s' ∧ ∃ l, s'.log = s.log ++ l ∧ ∀ o ∈ l, isSend o = false := by
    intro s' h1 h2 h3 h4
    exact ⟨⟨by rw [h1, q1], by rw [h2, q2], by rw [h3, q3]⟩, [], by simp [h4], by simp⟩
  have one : ∀ {s' : State σ τ φ} (o : Obs), isSend o = false → s'.mode = s.mode → s'.woken = s.woken → s'.timer = s.timer →
      s'.log = s.log ++ [o] → Quiescent s' ∧ ∃ l, s'.log = s.log ++ l ∧ ∀ o ∈ l, isSend o = false := by
    intro s' o ho h1 h2 h3 h4
    exact ⟨⟨by rw [h1, q1], by rw [h2, q2], by rw [h3, q3]⟩, [o], h4, by simp [ho]⟩
  have del : ∀ id store, Quiescent (deleteTask O id store s).1 ∧
      ∃ l, (deleteTask O id store s).1.log = s.log ++ l ∧ ∀ o ∈ l, isSend o = false := by
    intro id store
    simp only [deleteTask, if_pos q1]
    split
    · exact none' rfl rfl rfl rfl
    · exact one _ (by rfl) rfl rfl rfl rfl
  have upd : ∀ id store f, Quiescent (updateTask O id store f s).1 ∧
      ∃ l, (updateTask O id store f s).1.log = s.log ++ l ∧ ∀ o ∈ l, isSend o = false := by
    intro id store f
    simp only [updateTask]
    cases hl : lookupTask O s id store with
    | none => exact none' rfl rfl rfl rfl
    | some q =>
      obtain ⟨t, loc⟩ := q
      simp only []
      cases f t with
      | none => exact none' rfl rfl rfl rfl
      | some t' =>
        have hloc : loc = none := by
          simp only [lookupTask, if_pos q1] at hl
          obtain ⟨p, _, hq⟩ := Option.map_eq_some_iff.1 hl
          cases hq; rfl
        subst hloc
        simp only []
        rw [wakeIfRunning_stopped (by exact q1)]
        exact one (.taskModified id none) rfl rfl rfl rfl rfl
  cases k with
  | addTask t nrt rep =>
    simp only [exec, Option.some.injEq, addTask, if_pos q1] at h; subst h
    exact none' rfl rfl rfl rfl
  | start p => exact absurd rfl (hk p)
  | shutdown =>
    simp only [exec, Option.some.injEq, shutdown] at h; subst h
    split
    · exact none' rfl rfl rfl rfl
    · exact none' rfl rfl rfl rfl
  | pause => simp only [exec, Option.some.injEq, pause, q1] at h; subst h; exact none' rfl rfl rfl rfl
  | resume => simp only [exec, Option.some.injEq, resume, q1] at h; subst h; exact none' rfl rfl rfl rfl
  | update id store f => simp only [exec, Option.some.injEq] at h; subst h; exact upd _ _ _
  | pauseTask id store => simp only [exec, Option.some.injEq] at h; subst h; exact upd _ _ _
  | rescheduleTask id store g =>
    simp only [exec, Option.some.injEq, rescheduleTask] at h; subst h
    split
    · exact none' rfl rfl rfl rfl
    · exact upd _ _ _
  | resumeTask id store =>
    simp only [exec, Option.some.injEq, resumeTask] at h; subst h
    cases lookupTask O s id store with
    | none => exact none' rfl rfl rfl rfl
    | some q =>
      obtain ⟨t, loc⟩ := q
      simp only []
      cases e.next 2 t.body.trigger none e.now with
      | error x => exact none' rfl rfl rfl rfl
      | ok n => cases n with
        | none =>
          simp only []
          have := del t.id loc
          split <;> rename_i hx <;> rw [hx] at this <;> exact this
        | some n =>
          simp only []
          have := upd id loc (fun t => some { t with nrt := some n })
          split <;> rename_i hx <;> rw [hx] at this <;> exact this
  | runTask id store force rf =>
    simp only [exec, runTask, if_pos q1, Option.map_some, Option.some.injEq] at h; subst h
    exact none' rfl rfl rfl rfl
  | deleteTask id store => simp only [exec, Option.some.injEq] at h; subst h; exact del _ _
  | removeAllTasks store =>
    simp only [exec, Option.some.injEq, removeAllTasks, if_pos q1] at h; subst h
    exact one (.allTasksRemoved store) rfl rfl rfl rfl rfl
  | addExecutor x b =>
    simp only [exec, Option.some.injEq, addExecutor] at h; subst h
    split
    · exact none' rfl rfl rfl rfl
    · exact one (.executorAdded b) rfl rfl rfl rfl rfl
  | removeExecutor b =>
    simp only [exec, Option.some.injEq, removeExecutor] at h; subst h
    split
    · exact none' rfl rfl rfl rfl
    · exact one (.executorRemoved b) rfl rfl rfl rfl rfl
  | addStore st b =>
    simp only [exec, Option.some.injEq, addStore] at h; subst h
    split
    · exact none' rfl rfl rfl rfl
    · simp only []
      rw [wakeIfRunning_stopped (by exact q1)]
      exact one (.storeAdded b) rfl rfl rfl rfl rfl
  | removeStore b =>
    simp only [exec, Option.some.injEq, removeStore] at h; subst h
    split
    · exact none' rfl rfl rfl rfl
    · exact one (.storeRemoved b) rfl rfl rfl rfl rfl
  | tick => rw [Enabled, q2] at he; cases he
  | timerFires => exact absurd q3 he
  | finishRun id => simp only [exec, Option.some.injEq] at h; subst h; exact none' rfl rfl rfl rfl

/-- **C57** (partial): a scheduler that is stopped and has no wake-up left submits nothing, whatever is called, until
`start` is called.  Partial: `shutdown` does not drop wake-ups that are queued behind it
(`C57_queued_wakeup_witness`). -/
theorem C57_stopped_partial (c : Cfg τ) (s s' : State σ τ φ) (hq : Quiescent s) (h : NoStart O c s s') :
    Quiescent s' ∧ ∃ l, s'.log = s.log ++ l ∧ ∀ o ∈ l, isSend o = false := by
  induction h with
  | refl s => exact ⟨hq, [], by simp, by simp⟩
  | call hk he h hr ih =>
    obtain ⟨h1, l, h2, h3⟩ := quiescent_exec hq hk he h
    obtain ⟨h4, l', h5, h6⟩ := ih h1
    refine ⟨h4, l ++ l', by rw [h5, h2, List.append_assoc], fun o ho => ?_⟩
    rcases List.mem_append.1 ho with ho | ho
    · exact h3 o ho
    · exact h6 o ho

set_option synthInstance.maxSize 2048 in
/-- Shutting down a scheduler that has no wake-up queued leaves it so. -/
theorem shutdown_quiescent (c : Cfg τ) (s s' : State σ τ φ) (hw : s.woken = false)
    (h : shutdown O c s = (s', .ok true)) : Quiescent s' := by
  simp only [shutdown] at h
  split at h
  · cases h
  · split at h
    · cases h
    · simp only [Prod.mk.injEq, and_true] at h
      rw [← h]; exact ⟨rfl, hw, rfl⟩

set_option synthInstance.maxSize 2048 in
set_option synthInstance.maxHeartbeats 200000 in
/-- a scheduler that has been started, has run a pass and is shut down is quiescent -/
example : ∃ s s' : State Mixed Int Unit, execMixed 7 exStopHistory State.init = some s ∧
    shutdown mixedOps exStopCfg s = (s', .ok true) ∧ Quiescent s' ∧ (seesMixed s').length = 4 := by
  have h : (execMixed 7 exStopHistory State.init).bind (fun s => match shutdown mixedOps exStopCfg s with
      | (_, .ok true) => some s.woken
      | _ => none) = some false := by decide +kernel
  obtain ⟨s, h1, h2⟩ := Option.bind_eq_some_iff.1 h
  split at h2
  · rename_i s' hs
    simp only [Option.some.injEq] at h2
    exact ⟨s, s', h1, hs, shutdown_quiescent _ _ _ h2 hs, rfl⟩
  · cases h2

set_option synthInstance.maxSize 2048 in
set_option synthInstance.maxHeartbeats 200000 in
/-- **C57, counterexample**: a task is added while the scheduler runs but its `shutdown` is already queued in the event
loop; the wake-up for the new task is queued behind it.  The pass then runs on the stopped scheduler, submits the
task and sets the timer again: tasks of a persistent store go on running. -/
theorem C57_queued_wakeup_witness : ∃ s : State Mixed Int Unit,
    execMixed 7 [.addStore (.inr []) "sql", .start false, .tick,
      .addTask ⟨"b", none, exBody 50 "default" "sql" false 1⟩ none false, .shutdown, .tick] State.init = some s ∧
    s.mode = .stopped ∧ submitted "sql" "b" s.log = [[7]] ∧ s.timer = some 57 := by
  have h : (execMixed 7 [.addStore (.inr []) "sql", .start false, .tick,
      .addTask ⟨"b", none, exBody 50 "default" "sql" false 1⟩ none false, .shutdown, .tick] State.init).map
      (fun s => (s.mode, submitted "sql" "b" s.log, s.timer)) = some (.stopped, [[7]], some 57) := by decide +kernel
  obtain ⟨s, h1, h2⟩ := Option.map_eq_some_iff.1 h
  simp only [Prod.mk.injEq] at h2
  exact ⟨s, h1, h2⟩

end Sched
end Asyncz
