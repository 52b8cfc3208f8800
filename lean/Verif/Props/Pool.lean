import Verif.Model.Pool
/-!
# C78: what an executor does with the runs it has accepted
-/
namespace Asyncz
namespace Pool

/-- all runs, by what has become of them -/
def St.all (s : St) : List Nat := s.queued ++ s.running ++ s.done ++ s.cancelled

/-- invariant: the runs are numbered, each is at one place, and what is queued has not begun -/
structure Inv (s : St) : Prop where
  perm : s.all.Perm (List.range s.next)
  began : s.began.Nodup
  sorted : s.began.Pairwise (· < ·)
  before : ∀ i ∈ s.began, ∀ j ∈ s.queued, i < j
  qsorted : s.queued.Pairwise (· < ·)
  running : ∀ i ∈ s.running, i ∈ s.began
  bound : ∀ i ∈ s.began, i < s.next
  qbound : ∀ i ∈ s.queued, i < s.next

theorem submit_cases (c : Cfg) (s : St) : submit c s = (s, some .runtimeError) ∨ submit c s = (s, some .attributeError) ∨
    ∃ cd, submit c s = ({ s with cond := cd, queued := s.queued ++ [s.next], next := s.next + 1 }, none) := by
  unfold submit
  simp only
  cases c.kind with
  | loop => exact Or.inr (Or.inr ⟨s.cond, rfl⟩)
  | pool =>
    cases hc : s.cond with
    | ready => exact Or.inr (Or.inr ⟨s.cond, by rw [hc]⟩)
    | shut => exact Or.inl rfl
    | broken =>
      simp only
      split
      · exact Or.inr (Or.inr ⟨.ready, rfl⟩)
      · exact Or.inr (Or.inl rfl)

theorem inv_submit {s : St} (h : Inv s) (cd : Cond) :
    Inv { s with cond := cd, queued := s.queued ++ [s.next], next := s.next + 1 } := by
  refine ⟨?_, h.began, h.sorted, ?_, ?_, h.running, fun i hi => Nat.lt_succ_of_lt (h.bound i hi), ?_⟩
  · have hp := h.perm
    simp only [St.all] at hp ⊢
    rw [List.range_succ]
    refine List.Perm.trans ?_ (List.Perm.append hp (List.Perm.refl [s.next]))
    rw [List.perm_iff_count]
    intro a
    simp only [List.count_append]
    omega
  · intro i hi j hj
    simp only [List.mem_append, List.mem_singleton] at hj
    rcases hj with hj | rfl
    · exact h.before i hi j hj
    · exact h.bound i hi
  · rw [List.pairwise_append]
    refine ⟨h.qsorted, by simp, ?_⟩
    intro i hi j hj
    simp only [List.mem_singleton] at hj
    subst hj
    exact h.qbound i hi
  · intro i hi
    simp only [List.mem_append, List.mem_singleton] at hi
    rcases hi with hi | rfl
    · exact Nat.lt_succ_of_lt (h.qbound i hi)
    · exact Nat.lt_succ_self _

theorem inv_step (c : Cfg) {s : St} (h : Inv s) (op : Op) : Inv (step c s op).1 := by
  cases op with
  | start => exact h
  | submit =>
    simp only [step]
    rcases submit_cases c s with e | e | ⟨cd, e⟩
    · rw [e]; exact h
    · rw [e]; exact h
    · rw [e]; exact inv_submit h cd
  | begin =>
    simp only [step]
    cases hq : s.queued with
    | nil => exact h
    | cons i q =>
      simp only
      split
      · exact h
      · have hs := h.qsorted
        rw [hq, List.pairwise_cons] at hs
        have hb : ∀ j ∈ s.began, j < i := fun j hj => h.before j hj i (by simp [hq])
        refine ⟨?_, ?_, ?_, ?_, hs.2, ?_, ?_, fun j hj => h.qbound j (by simp [hq, hj])⟩
        · have hp := h.perm
          rw [List.perm_iff_count] at hp ⊢
          intro a
          have := hp a
          simp only [St.all, hq, List.count_append, List.count_cons, List.count_nil] at this ⊢
          omega
        · rw [List.nodup_append]
          refine ⟨h.began, by simp, ?_⟩
          intro a ha b hbb
          simp only [List.mem_singleton] at hbb
          have := hb a ha
          omega
        · rw [List.pairwise_append]
          refine ⟨h.sorted, by simp, ?_⟩
          intro a ha b hbb
          simp only [List.mem_singleton] at hbb
          have := hb a ha
          omega
        · intro a ha b hbb
          simp only [List.mem_append, List.mem_singleton] at ha
          rcases ha with ha | rfl
          · exact h.before a ha b (by simp [hq, hbb])
          · exact hs.1 b hbb
        · intro a ha
          simp only [List.mem_append, List.mem_singleton] at ha ⊢
          rcases ha with ha | rfl
          · exact Or.inl (h.running a ha)
          · exact Or.inr rfl
        · intro a ha
          simp only [List.mem_append, List.mem_singleton] at ha
          rcases ha with ha | rfl
          · exact h.bound a ha
          · exact h.qbound a (by simp [hq])
  | finish i =>
    simp only [step]
    split
    · rename_i hi
      refine ⟨?_, h.began, h.sorted, h.before, h.qsorted, fun j hj => h.running j (List.mem_of_mem_erase hj), h.bound, h.qbound⟩
      have hp := h.perm
      rw [List.perm_iff_count] at hp ⊢
      intro a
      have := hp a
      simp only [St.all, List.count_append, List.count_erase, List.count_cons, List.count_nil] at this ⊢
      have hpos : 0 < s.running.count i := List.count_pos_iff.mpr hi
      by_cases ha : i = a
      · subst ha
        simp only [beq_self_eq_true, if_true] at this ⊢
        omega
      · have hb : (i == a) = false := by simp [ha]
        simp only [hb, Bool.false_eq_true, if_false] at this ⊢
        omega
    · exact h
  | shutdown w =>
    simp only [step, shutdown]
    cases c.kind with
    | loop =>
      refine ⟨?_, h.began, h.sorted, by simp, by simp, by simp, h.bound, by simp⟩
      have hp := h.perm
      rw [List.perm_iff_count] at hp ⊢
      intro a
      have := hp a
      simp only [St.all, List.count_append, List.count_nil] at this ⊢
      omega
    | pool =>
      simp only
      split
      · refine ⟨?_, h.began, h.sorted, by simp, by simp, h.running, h.bound, by simp⟩
        have hp := h.perm
        rw [List.perm_iff_count] at hp ⊢
        intro a
        have := hp a
        simp only [St.all, List.count_append, List.count_nil] at this ⊢
        omega
      · exact ⟨h.perm, h.began, h.sorted, h.before, h.qsorted, h.running, h.bound, h.qbound⟩
  | returns =>
    simp only [step]
    split
    · exact ⟨h.perm, h.began, h.sorted, h.before, h.qsorted, h.running, h.bound, h.qbound⟩
    · exact h
  | die =>
    simp only [step]
    split
    · refine ⟨?_, h.began, h.sorted, by simp, by simp, by simp, h.bound, by simp⟩
      have hp := h.perm
      rw [List.perm_iff_count] at hp ⊢
      intro a
      have := hp a
      simp only [St.all, List.count_append, List.count_nil] at this ⊢
      omega
    · exact h

theorem inv_init : Inv init := ⟨.refl _, by simp [init], by simp [init], by simp [init], by simp [init], by simp [init],
  by simp [init], by simp [init]⟩

theorem run_snoc (c : Cfg) (ops : List Op) (op : Op) : run c (ops ++ [op]) = (step c (run c ops) op).1 := by
  simp [run]

/-- induction over histories, from the end -/
theorem history {P : List Op → Prop} (h0 : P []) (hs : ∀ ops op, P ops → P (ops ++ [op])) (ops : List Op) : P ops := by
  rw [← List.reverse_reverse ops]
  induction ops.reverse with
  | nil => exact h0
  | cons op l ih => rw [List.reverse_cons]; exact hs _ _ ih

theorem inv_run (c : Cfg) (ops : List Op) : Inv (run c ops) := by
  induction ops using history with
  | h0 => exact inv_init
  | hs ops op ih => rw [run_snoc]; exact inv_step c ih op

/-- **C78.** In every history each accepted run (they are numbered in the order of acceptance) is at exactly one place: still
queued, running, reported or cancelled; no run is begun twice; and they are begun in the order in which they were submitted. -/
theorem C78_once (c : Cfg) (ops : List Op) :
    (∀ i, i < (run c ops).next → (run c ops).queued.count i + (run c ops).running.count i + (run c ops).done.count i +
      (run c ops).cancelled.count i = 1) ∧
    (∀ i, (run c ops).began.count i ≤ 1) ∧ (run c ops).began.Pairwise (· < ·) := by
  have h := inv_run c ops
  refine ⟨?_, fun i => List.nodup_iff_count.mp h.began i, h.sorted⟩
  intro i hi
  have := List.perm_iff_count.mp h.perm i
  have h1 : (List.range (run c ops).next).count i ≤ 1 := List.nodup_iff_count.mp List.nodup_range i
  have h2 : 0 < (List.range (run c ops).next).count i := List.count_pos_iff.mpr (List.mem_range.mpr hi)
  simp only [St.all, List.count_append] at this
  omega

/-- Only `shutdown` cancels: a loop's executor that was not shut down, and a pool that does not cancel futures, cancel
nothing. -/
theorem C78_not_cancelled (c : Cfg) (ops : List Op)
    (h : (∀ w, Op.shutdown w ∉ ops) ∨ c.kind = .pool ∧ c.cancelFutures = false) : (run c ops).cancelled = [] := by
  induction ops using history with
  | h0 => rfl
  | hs ops op ih =>
    have ih := ih (h.imp (fun h w hm => h w (by simp [hm])) id)
    rw [run_snoc]
    cases op with
    | start => exact ih
    | submit =>
      simp only [step]
      rcases submit_cases c (run c ops) with e | e | ⟨cd, e⟩ <;> rw [e] <;> exact ih
    | begin =>
      simp only [step]
      split
      · exact ih
      · split <;> exact ih
    | finish i => simp only [step]; split <;> exact ih
    | shutdown w =>
      rcases h with h | ⟨h1, h2⟩
      · exact absurd (by simp) (h w)
      · simp only [step, shutdown, h1, h2, Bool.false_eq_true, if_false]; exact ih
    | returns => simp only [step]; split <;> exact ih
    | die => simp only [step]; split <;> exact ih

/-- A shutdown that waits returns only when every accepted run has been reported or cancelled. -/
theorem C78_wait (c : Cfg) (ops : List Op) (hw : (run c ops).waiting = true)
    (hr : (step c (run c ops) .returns).1.waiting = false) :
    ∀ i, i < (run c ops).next → i ∈ (run c ops).done ∨ i ∈ (run c ops).cancelled := by
  intro i hi
  simp only [step] at hr
  split at hr
  · rename_i hc
    have := (C78_once c ops).1 i hi
    rw [hc.2.1, hc.2.2] at this
    simp only [List.count_nil, Nat.zero_add] at this
    by_cases hd : i ∈ (run c ops).done
    · exact Or.inl hd
    · rw [List.count_eq_zero.mpr hd] at this
      exact Or.inr (List.count_pos_iff.mp (by omega))
  · rw [hw] at hr; cases hr

theorem waiting_stays (c : Cfg) (s : St) (op : Op) (hw : s.waiting = true) (hr : (step c s op).1.waiting = false) :
    op = .returns ∧ s.queued = [] ∧ s.running = [] := by
  cases op with
  | start => rw [show (step c s .start).1.waiting = s.waiting from rfl, hw] at hr; cases hr
  | submit =>
    simp only [step, submit] at hr
    split at hr
    · rw [hw] at hr; cases hr
    · rw [hw] at hr; cases hr
    · rw [hw] at hr; cases hr
    · split at hr <;> (rw [hw] at hr; cases hr)
  | begin =>
    simp only [step] at hr
    split at hr
    · rw [hw] at hr; cases hr
    · split at hr <;> (rw [hw] at hr; cases hr)
  | finish i =>
    simp only [step] at hr
    split at hr <;> (rw [hw] at hr; cases hr)
  | shutdown w =>
    simp only [step, shutdown] at hr
    split at hr
    · rw [hw] at hr; cases hr
    · split at hr <;> (simp [hw] at hr)
  | returns =>
    simp only [step] at hr
    split at hr
    · rename_i h; exact ⟨rfl, h.2⟩
    · rw [hw] at hr; cases hr
  | die =>
    simp only [step] at hr
    split at hr <;> (rw [hw] at hr; cases hr)

/-- Whether the shutdown of a pool waits: as the executor was configured with `overwrite_wait`, and if it was not, as the
caller asked. -/
def Waits (c : Cfg) (w : Bool) : Prop := c.overwriteWait = some true ∨ (c.overwriteWait = none ∧ w = true)

/-- A pool's shutdown that is to wait does wait: whatever happens afterwards, the caller goes on only at a moment when no
run is queued or in progress.  One that is not to wait returns at once. -/
theorem C78_waits (c : Cfg) (hk : c.kind = .pool) (ops : List Op) (w : Bool) :
    (Waits c w → ∀ more, (run c (ops ++ .shutdown w :: more)).waiting = false →
      ∃ m1 m2, more = m1 ++ .returns :: m2 ∧ (run c (ops ++ .shutdown w :: m1)).queued = [] ∧
        (run c (ops ++ .shutdown w :: m1)).running = []) ∧
    (¬ Waits c w → (run c ops).waiting = false → (run c (ops ++ [.shutdown w])).waiting = false) := by
  have hsh : ∀ s : St, (step c s (.shutdown w)).1.waiting = (s.waiting || c.overwriteWait.getD w) := by
    intro s
    simp only [step, shutdown, hk]
    split <;> rfl
  constructor
  · intro hW more
    have h0 : (run c (ops ++ [.shutdown w])).waiting = true := by
      simp only [run, List.foldl_append, List.foldl_cons, List.foldl_nil]
      rw [hsh]
      rcases hW with h | ⟨h, h'⟩
      · simp [h]
      · simp [h, h']
    induction more using history with
    | h0 => intro h; rw [h0] at h; cases h
    | hs m op ih =>
      intro h
      cases hm : (run c (ops ++ .shutdown w :: m)).waiting with
      | false =>
        obtain ⟨m1, m2, e, h1⟩ := ih hm
        exact ⟨m1, m2 ++ [op], by rw [e]; simp, h1⟩
      | true =>
        have h' : (step c (run c (ops ++ .shutdown w :: m)) op).1.waiting = false := by
          rw [← h]
          simp only [run, List.foldl_append, List.foldl_cons, List.foldl_nil]
        obtain ⟨e, h2⟩ := waiting_stays c _ op hm h'
        exact ⟨m, [], by rw [e], h2⟩
  · intro hW h
    simp only [run, List.foldl_append, List.foldl_cons, List.foldl_nil] at h ⊢
    rw [hsh, h]
    cases hO : c.overwriteWait with
    | none =>
      cases w with
      | false => rfl
      | true => exact absurd (Or.inr ⟨hO, rfl⟩) hW
    | some b =>
      cases b with
      | false => rfl
      | true => exact absurd (Or.inl hO) hW

theorem shut_stays (c : Cfg) (hk : c.kind = .pool) (hn : c.named = false) (ops : List Op) (s : St) (hs : s.cond ≠ .ready) :
    (ops.foldl (fun s op => (step c s op).1) s).cond ≠ .ready ∧ (ops.foldl (fun s op => (step c s op).1) s).next = s.next := by
  induction ops generalizing s with
  | nil => exact ⟨hs, rfl⟩
  | cons op ops ih =>
    have key : (step c s op).1.cond ≠ .ready ∧ (step c s op).1.next = s.next := by
      cases op with
      | start => exact ⟨hs, rfl⟩
      | submit =>
        simp only [step, submit, hk]
        cases hc : s.cond with
        | ready => exact absurd hc hs
        | shut => simp [hc]
        | broken => simp [hc, hn]
      | begin =>
        simp only [step]
        split
        · exact ⟨hs, rfl⟩
        · split <;> exact ⟨hs, rfl⟩
      | finish i => simp only [step]; split <;> exact ⟨hs, rfl⟩
      | shutdown w =>
        simp only [step, shutdown, hk]
        split
        · exact ⟨by split <;> simp, rfl⟩
        · exact ⟨by split <;> simp, rfl⟩
      | returns => simp only [step]; split <;> exact ⟨hs, rfl⟩
      | die => simp only [step, hk, if_true]; exact ⟨by simp, trivial⟩
    obtain ⟨h1, h2⟩ := ih _ key.1
    exact ⟨h1, h2.trans key.2⟩

/-- **C78 is false of pools across restarts.** Once a pool executor has been shut down, or one of its processes has died, it
refuses every run for ever, also after the scheduler has been started again. -/
theorem C78_pool_dead (c : Cfg) (hk : c.kind = .pool) (hn : c.named = false) (before after : List Op) (e : Op)
    (he : (∃ w, e = .shutdown w) ∨ e = .die) :
    (step c (run c (before ++ e :: after)) .submit).2 ≠ none ∧
    (run c (before ++ e :: after)).next = (run c before).next := by
  have hs : (step c (run c before) e).1.cond ≠ .ready ∧ (step c (run c before) e).1.next = (run c before).next := by
    rcases he with ⟨w, rfl⟩ | rfl
    · simp only [step, shutdown, hk]
      split
      · exact ⟨by split <;> simp, rfl⟩
      · exact ⟨by split <;> simp, rfl⟩
    · simp only [step, hk, if_true]; exact ⟨by simp, trivial⟩
  have hr : run c (before ++ e :: after) = after.foldl (fun s op => (step c s op).1) (step c (run c before) e).1 := by
    simp [run]
  obtain ⟨h1, h2⟩ := shut_stays c hk hn after _ hs.1
  rw [hr]
  refine ⟨?_, h2.trans hs.2⟩
  have key : ∀ s : St, s.cond ≠ .ready → (step c s .submit).2 ≠ none := by
    intro s h
    simp only [step, submit, hk]
    cases hc : s.cond with
    | ready => exact absurd hc h
    | shut => simp
    | broken => simp [hn]
  exact key _ h1

/-- A pool that has been neither shut down nor broken accepts every run; the loop's executor always does. -/
theorem C78_accepts (c : Cfg) (ops : List Op) (h : c.kind = .loop ∨ ∀ op ∈ ops, (∀ w, op ≠ .shutdown w) ∧ op ≠ .die) :
    (step c (run c ops) .submit).2 = none ∧
    (step c (run c ops) .submit).1.queued = (run c ops).queued ++ [(run c ops).next] := by
  have H : c.kind = .loop ∨ (run c ops).cond = .ready := by
    rcases h with h | h
    · exact Or.inl h
    refine Or.inr ?_
    induction ops using history with
    | h0 => rfl
    | hs ops op ih =>
      have ih := ih (fun op hm => h op (by simp [hm]))
      rw [run_snoc]
      have hop := h op (by simp)
      cases op with
      | start => exact ih
      | submit =>
        simp only [step, submit, ih]
        cases c.kind <;> rfl
      | begin =>
        simp only [step]
        split
        · exact ih
        · split <;> exact ih
      | finish i => simp only [step]; split <;> exact ih
      | shutdown w => exact absurd rfl (hop.1 w)
      | returns => simp only [step]; split <;> exact ih
      | die => exact absurd rfl hop.2
  simp only [step, submit]
  rcases H with H | H
  · simp only [H]; exact ⟨trivial, trivial⟩
  · simp only [H]; cases c.kind <;> exact ⟨rfl, rfl⟩

/-- The shutdown of an AsyncIOExecutor cancels every run that has not ended, also if it is asked to wait. -/
theorem C78_loop_cut (c : Cfg) (hk : c.kind = .loop) (ops : List Op) (w : Bool) :
    let s := (step c (run c ops) (.shutdown w)).1
    s.queued = [] ∧ s.running = [] ∧ (∀ i, i < (run c ops).next → i ∉ (run c ops).done → i ∈ s.cancelled) := by
  simp only [step, shutdown, hk]
  refine ⟨trivial, trivial, ?_⟩
  intro i hi hd
  have := (C78_once c ops).1 i hi
  rw [List.count_eq_zero.mpr hd] at this
  simp only [List.mem_append]
  by_cases h1 : i ∈ (run c ops).cancelled
  · exact Or.inl (Or.inl h1)
  by_cases h2 : i ∈ (run c ops).queued
  · exact Or.inl (Or.inr h2)
  rw [List.count_eq_zero.mpr h1, List.count_eq_zero.mpr h2] at this
  exact Or.inr (List.count_pos_iff.mp (by omega))

/-- At most as many runs are in progress in a pool as it has workers. -/
theorem C78_workers (c : Cfg) (hk : c.kind = .pool) (ops : List Op) : (run c ops).running.length ≤ c.workers := by
  induction ops using history with
  | h0 => simp [run, init]
  | hs ops op ih =>
    rw [run_snoc]
    cases op with
    | start => exact ih
    | submit =>
      simp only [step]
      rcases submit_cases c (run c ops) with e | e | ⟨cd, e⟩ <;> rw [e] <;> exact ih
    | begin =>
      simp only [step]
      split
      · exact ih
      · split
        · exact ih
        · rename_i hn
          simp only [List.length_append, List.length_cons, List.length_nil]
          simp only [hk, true_and] at hn
          omega
    | finish i =>
      simp only [step]
      split
      · exact Nat.le_trans (List.length_erase_le ..) ih
      · exact ih
    | shutdown w =>
      simp only [step, shutdown, hk]
      split <;> exact ih
    | returns => simp only [step]; split <;> exact ih
    | die => simp only [step, hk, if_true]; exact Nat.zero_le _

/-- Nothing waits for an executor that was not told to wait: as long as no shutdown that is to wait was called on it, no caller waits. -/
theorem C78_nobody_waits (c : Cfg) (ops : List Op) (h : ∀ w, .shutdown w ∈ ops → c.kind = .pool → ¬ Waits c w) :
    (run c ops).waiting = false := by
  induction ops using history with
  | h0 => rfl
  | hs m op ih =>
    have hm := ih fun w hw => h w (by simp [hw])
    have he : run c (m ++ [op]) = (step c (run c m) op).1 := by simp only [run, List.foldl_append, List.foldl_cons, List.foldl_nil]
    rw [he]
    cases op with
    | start => exact hm
    | submit => simp only [step, submit]; split <;> try exact hm
                split <;> exact hm
    | begin =>
      simp only [step]
      split
      · exact hm
      · split <;> exact hm
    | finish i => simp only [step]; split <;> exact hm
    | shutdown w =>
      cases hk : c.kind with
      | loop => simp only [step, shutdown, hk]; exact hm
      | pool =>
        have hW := h w (by simp) hk
        have hsh : (step c (run c m) (.shutdown w)).1.waiting = ((run c m).waiting || c.overwriteWait.getD w) := by
          simp only [step, shutdown, hk]
          split <;> rfl
        rw [hsh, hm]
        cases hO : c.overwriteWait with
        | none =>
          cases w with
          | true => exact absurd (Or.inr ⟨hO, rfl⟩) hW
          | false => rfl
        | some b =>
          cases b with
          | true => exact absurd (Or.inl hO) hW
          | false => rfl
    | returns => simp only [step]; split <;> first | rfl | exact hm
    | die => simp only [step]; split <;> exact hm

/-! ## Examples and witnesses -/

/-- a thread pool with two workers and the default settings -/
def exPool : Cfg := ⟨.pool, 2, false, none, false⟩
/-- an AsyncIOExecutor -/
def exLoop : Cfg := ⟨.loop, 0, false, none, false⟩

example : run exPool [.start, .submit, .submit, .submit, .begin, .begin, .begin, .finish 1, .begin, .shutdown true, .finish 0, .finish 2, .returns] =
    ⟨.shut, [], [], [1, 0, 2], [], [0, 1, 2], 3, false⟩ := by decide
example : (run exPool [.start, .submit, .shutdown true, .begin, .finish 0]).waiting = true ∧
    (step exPool (run exPool [.start, .submit, .shutdown true, .begin, .finish 0]) .returns).1.waiting = false := by decide

example : Waits exPool true ∧ ¬ Waits { exPool with overwriteWait := some false } true ∧ Waits { exPool with overwriteWait := some true } false := by
  refine ⟨Or.inr ⟨rfl, rfl⟩, ?_, Or.inl rfl⟩
  rintro (h | ⟨h, _⟩) <;> cases h

-- a shutdown that is not to wait
example : (∀ w, Op.shutdown w ∈ [Op.start, .submit, .begin, .shutdown false] → exPool.kind = .pool → ¬ Waits exPool w) ∧
    (run exPool [.start, .submit, .begin, .shutdown false]).waiting = false := by
  refine ⟨fun w hw _ => ?_, by decide⟩
  simp at hw
  subst hw
  rintro (h | ⟨_, h⟩) <;> cases h

/-- Restarting the scheduler: a thread pool refuses the next run, the loop's executor takes it. -/
theorem C78_restart_witness :
    (step exPool (run exPool [.start, .submit, .begin, .finish 0, .shutdown true, .returns, .start]) .submit).2 = some .runtimeError ∧
    (step exLoop (run exLoop [.start, .submit, .begin, .finish 0, .shutdown true, .start]) .submit).2 = none := by decide

/-- After a worker process has died, the replacement of the pool fails. -/
theorem C78_broken_witness : (step exPool (run exPool [.start, .submit, .die]) .submit).2 = some .attributeError := by decide

/-- `shutdown(wait=True)` of an AsyncIOExecutor cancels a run in progress. -/
theorem C78_loop_wait_witness : (run exLoop [.start, .submit, .begin, .shutdown true]).cancelled = [0] := by decide

end Pool
end Asyncz
