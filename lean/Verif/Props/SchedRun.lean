import Verif.Props.SchedTasks
/-!
# Running a task explicitly, and previews (C39, C41)
-/
namespace Asyncz
namespace Sched
variable {σ τ φ : Type} {O : StoreOps σ (Body τ φ)}

/-! ## C39 -/

/-- what a manual run stores when the trigger answers `n`: strictly in the future -/
theorem manualNext_future (now : Int) (n : Option Int) : (manualNext now n = none ↔ n = none) ∧
    (∀ m, n = some m → now < m → manualNext now n = some m) ∧
    (∀ m, n = some m → m ≤ now → manualNext now n = some (now + 1000)) := by
  cases n with
  | none => simp [manualNext]
  | some m =>
    simp only [manualNext]
    refine ⟨by split <;> simp, fun k hk h => ?_, fun k hk h => ?_⟩
    · cases hk; rw [if_neg (by omega)]
    · cases hk; rw [if_pos h]

/-- **C39** (partial): `run_task` of a task of a started scheduler, whose due times are `due` and whose executor
exists.
* Nothing due and not forced: nothing happens.
* Otherwise, if the maximum of instances is reached, `MaximumInstancesError` is raised; if the executor fails,
  its error; in both cases nothing is submitted and no task is changed.
* Otherwise the task is submitted exactly once: with the due times (only the last of them if the task
  coalesces), or with the current time if none is due.  Afterwards its next run time is the trigger's next time
  if that is in the future, or 1 ms after now if it is not; if the trigger is finished, the task is removed, or
  kept without next run time if `remove_finished` is not set.  No other task is touched.
Partial: the call is taken as atomic; see `C39_race_witness`. -/
theorem C39_run_task_partial (L : LawfulStore O) (c : Cfg τ) (e : Env τ) (fuel : Nat) (s : State σ τ φ)
    (hs : Reachable L c s) (id : String) (store : Option String) (force rf : Bool) (t : T τ φ) (a : String)
    (hl : Located O s id store t (some a)) (nx : Int → Option Int)
    (hnx : ∀ r, r ≤ e.now → e.next 0 t.body.trigger (some r) e.now = .ok (nx r))
    (hx : s.executors.get? t.body.executor ≠ none)
    (s' : State σ τ φ) (r : Except Err (Option (T τ φ)))
    (h : runTask O e fuel id store force rf s = some (s', r)) :
    ∃ due, DueTimes nx e.now t.nrt due ∧
      (due = [] ∧ force = false → s' = s ∧ r = .ok (some t)) ∧
      (¬ (due = [] ∧ force = false) → ∃ times k,
        ((due = [] ∧ times = [e.now] ∧ k = 0) ∨
          (due ≠ [] ∧ Handed t.body.coalesce due times ∧ k = due.length - times.length)) ∧
        (t.body.maxInst ≤ count s id →
          r = .error (.maxInstances id) ∧ s'.log = s.log ++ [.taskMaxInstances id a times k true] ∧
          ∀ b j, entry O s' b j = entry O s b j) ∧
        (count s id < t.body.maxInst → e.sendOk t.body.executor id = false →
          r = .error .sendFailed ∧ s'.log = s.log ∧ ∀ b j, entry O s' b j = entry O s b j) ∧
        (count s id < t.body.maxInst → e.sendOk t.body.executor id = true →
          ∃ last, times.getLast? = some last ∧ sends a id s'.log = sends a id s.log ++ [(t.body.executor, times)] ∧
            count s' id = count s id + 1 ∧
            (∀ b j, (b, j) ≠ (a, id) → entry O s' b j = entry O s b j) ∧
            (∀ n, e.next 1 t.body.trigger (some last) e.now = .ok (some n) →
              ∃ m, (m = n ∧ e.now < n ∨ m = e.now + 1000 ∧ n ≤ e.now) ∧
                entry O s' a id = some { t with nrt := some m } ∧ r = .ok (some { t with nrt := some m })) ∧
            (e.next 1 t.body.trigger (some last) e.now = .ok none →
              entry O s' a id = (if rf then none else some { t with nrt := none }) ∧
              r = .ok (if rf then none else some { t with nrt := none })))) := by
  cases hl with
  | stored hm ha ht hk hf =>
    rename_i pre post
    have hl : Located O s id store t (some a) := .stored hm ha ht hk hf
    obtain ⟨hid, st, hg, hi, hmap⟩ := look_id L (wf_iff.1 hs.wf) ht
    obtain ⟨a', ha', hfi⟩ := findInStores_located L hs hl hm
    cases ha'
    simp only [runTask, if_neg hm, hfi] at h
    split at h
    · cases h
    · rename_i x hrt
      -- the trigger does not raise on the due times
      exfalso
      obtain ⟨v, hv⟩ : ∃ v, ∀ y, v ≠ some (Except.error (ε := Exc) (α := List Int) y) ∧ v = runTimes e t.body.trigger fuel t.nrt := by
        refine ⟨_, fun y => ⟨?_, rfl⟩⟩
        clear hrt h
        generalize t.nrt = first
        induction fuel generalizing first with
        | zero => cases first <;> simp [runTimes]
        | succ n ih =>
          cases first with
          | none => simp [runTimes]
          | some q =>
            simp only [runTimes]
            split
            · rename_i hq
              rw [hnx q hq]
              simp only []
              have := ih (nx q)
              cases hh : runTimes e t.body.trigger n (nx q) with
              | none => simp
              | some w => cases w with
                | error z => simp; rintro rfl; exact this hh
                | ok l => simp
            · simp
      exact (hv x).1 ((hv x).2.trans hrt)
    · rename_i due hrt
      refine ⟨due, runTimes_spec hnx hrt, ?_, ?_⟩
      · intro hc
        simp only [Option.some.injEq, runFound, if_pos hc, Prod.mk.injEq] at h
        exact ⟨h.1.symm, h.2.symm⟩
      · intro hc
        simp only [Option.some.injEq, runFound, if_neg hc] at h
        generalize hcc : (if due = [] then ([e.now], 0) else coalesce t.body.coalesce due) = cc at h
        refine ⟨cc.1, cc.2, ?_, ?_⟩
        · rw [← hcc]
          by_cases hd : due = []
          · exact .inl (by simp [hd])
          · refine .inr ⟨hd, ?_⟩
            rw [if_neg hd]
            have := coalesce_handed t.body.coalesce hd
            exact ⟨this.1, this.2.1⟩
        · have hne : ∃ last, cc.1.getLast? = some last := by
            rw [← hcc]
            by_cases hd : due = []
            · exact ⟨e.now, by simp [hd]⟩
            · rw [if_neg hd]
              simp only [coalesce]
              cases hlast : due.getLast? with
              | none => simp at hlast; exact absurd hlast hd
              | some z => split <;> simp [hlast]
          obtain ⟨last, hlast⟩ := hne
          cases hex : s.executors.get? t.body.executor with
          | none => exact absurd hex hx
          | some xx =>
            simp only [hex] at h
            obtain ⟨ins, new, q1, q2, q3, q4⟩ := sendTask_spec e t.body.executor a t cc.1 s
            rw [hid] at q2 q3 q4
            cases hsd : sendTask e t.body.executor a t cc.1 s with
            | mk s1 res =>
              rw [hsd] at h q1 q4
              simp only at q1 q4
              subst q1
              rcases q4 with ⟨rfl, rfl, q5, q6, q7⟩ | ⟨rfl, rfl, q5, q6⟩ | ⟨rfl, rfl, q5, q6⟩
              · -- submitted
                refine ⟨fun hmax => ?_, fun _ hno => ?_, fun _ _ => ⟨last, hlast, ?_⟩⟩
                · simp only [count] at hmax; omega
                · rw [q5] at hno; cases hno
                · simp only [State.emit] at h
                  have hgl : cc.1.getLastD e.now = last := by
                    rw [List.getLastD_eq_getLast?, hlast]; rfl
                  rw [hgl] at h
                  generalize hs2 : ({ s with instances := ins, log := s.log ++ [.send t.body.executor id a cc.1] ++
                    [.taskSubmitted t.id a cc.1 cc.2 true] } : State σ τ φ) = s2 at h
                  have hw2 : WF L s2 := by subst hs2; exact hs.wf.congr rfl
                  have he2 : ∀ b j, entry O s2 b j = entry O s b j := by subst hs2; intros; rfl
                  have hg2 : s2.stores.get? a = some st := by subst hs2; exact hg
                  have hm2 : s2.mode ≠ .stopped := by subst hs2; exact hm
                  have hse2 : sends a id s2.log = sends a id s.log ++ [(t.body.executor, cc.1)] := by
                    subst hs2
                    simp [sends_append, sends]
                  have hc2 : count s2 id = count s id + 1 := by subst hs2; simp only [count]; exact q7
                  -- after the submission
                  have key : ∀ n, e.next 1 t.body.trigger (some last) e.now = .ok n →
                      sends a id s'.log = sends a id s2.log ∧ count s' id = count s2 id ∧
                      (∀ b j, (b, j) ≠ (a, id) → entry O s' b j = entry O s b j) ∧
                      ((manualNext e.now n = none ∧ rf = true → entry O s' a id = none ∧ r = .ok none) ∧
                       (¬ (manualNext e.now n = none ∧ rf = true) →
                          entry O s' a id = some { t with nrt := manualNext e.now n } ∧
                          r = .ok (some { t with nrt := manualNext e.now n }))) := by
                    intro n hn
                    simp only [afterManualRun, hn] at h
                    by_cases hcond : manualNext e.now n = none ∧ rf = true
                    · rw [if_pos hcond, hid, deleteTask_some L hw2 hm2 hg2 hmap] at h
                      simp only [Prod.mk.injEq] at h
                      obtain ⟨rfl, rfl⟩ := h
                      rcases deleteTask_spec L hw2 hm2 id (some a) with ⟨_, h'⟩ | ⟨t', a', h', h3, h4, h5, h6, h7, h8⟩
                      · rw [deleteTask_some L hw2 hm2 hg2 hmap] at h'; simp at h'
                      · rw [deleteTask_some L hw2 hm2 hg2 hmap] at h3 h4 h5 h6 h7 h8
                        have haa : a' = a := (findInStores_some L (wf_iff.1 hw2) h').1 a rfl
                        subst haa
                        refine ⟨by simp [State.emit, sends_append, sends], rfl, fun b j hb => ?_, fun _ => ⟨?_, rfl⟩, fun hno => absurd hcond hno⟩
                        · simp only at h8
                          rw [h8, put, if_neg, he2]
                          rintro ⟨rfl, rfl⟩; exact hb rfl
                        · simp only at h8
                          rw [h8, put, if_pos ⟨rfl, rfl⟩]
                    · rw [if_neg hcond, hg2] at h
                      simp only at h
                      obtain ⟨u1, u2, u3⟩ := store_update L hw2 hg2 (t := { t with nrt := manualNext e.now n }) (u := t)
                        (by simp only [hid]; exact hmap)
                      cases hst : O.step st (.update { t with nrt := manualNext e.now n }) with
                      | mk st' rr =>
                        rw [hst] at h u1 u2 u3
                        simp only at u1 u2 u3
                        subst u1
                        simp only [Prod.mk.injEq] at h
                        obtain ⟨rfl, rfl⟩ := h
                        simp only [hid] at u3
                        refine ⟨rfl, rfl, fun b j hb => ?_, fun hno => absurd hno hcond, fun _ => ⟨?_, rfl⟩⟩
                        · rw [u3, put, if_neg, he2]
                          rintro ⟨rfl, rfl⟩; exact hb rfl
                        · rw [u3, put, if_pos ⟨rfl, rfl⟩]; simp only [hid]
                  have common : sends a id s'.log = sends a id s2.log ∧ count s' id = count s2 id ∧
                      ∀ b j, (b, j) ≠ (a, id) → entry O s' b j = entry O s b j := by
                    cases hn : e.next 1 t.body.trigger (some last) e.now with
                    | ok n => have := key n hn; exact ⟨this.1, this.2.1, this.2.2.1⟩
                    | error x =>
                      simp only [afterManualRun, hn, Prod.mk.injEq] at h
                      obtain ⟨rfl, rfl⟩ := h
                      exact ⟨rfl, rfl, fun b j _ => he2 b j⟩
                  refine ⟨by rw [common.1, hse2], by rw [common.2.1, hc2], common.2.2, fun n hn => ?_, fun hn => ?_⟩
                  · have hk := (key (some n) hn).2.2.2
                    have hmn := manualNext_future e.now (some n)
                    by_cases hle : n ≤ e.now
                    · rw [hmn.2.2 n rfl hle] at hk
                      exact ⟨_, .inr ⟨rfl, hle⟩, hk.2 (by simp)⟩
                    · rw [hmn.2.1 n rfl (by omega)] at hk
                      exact ⟨_, .inl ⟨rfl, by omega⟩, hk.2 (by simp)⟩
                  · have hk := (key none hn).2.2.2
                    have hmn : manualNext e.now none = none := rfl
                    rw [hmn] at hk
                    cases rf with
                    | true => exact hk.1 ⟨rfl, rfl⟩
                    | false => exact hk.2 (by simp)
              · -- too many instances
                simp only [State.emit, Prod.mk.injEq, List.append_nil, hid] at h
                obtain ⟨rfl, rfl⟩ := h
                refine ⟨fun _ => ⟨rfl, rfl, fun _ _ => rfl⟩, fun hlt => ?_, fun hlt => ?_⟩
                · simp only [count] at hlt; omega
                · simp only [count] at hlt; omega
              · -- the executor failed
                simp only [Prod.mk.injEq, List.append_nil] at h
                obtain ⟨rfl, rfl⟩ := h
                refine ⟨fun hmax => ?_, fun _ _ => ⟨rfl, rfl, fun _ _ => rfl⟩, fun _ hok => ?_⟩
                · exfalso
                  simp only [sendTask] at hsd
                  rw [if_pos (by rw [hid]; exact hmax)] at hsd
                  simp at hsd
                · rw [q5] at hok; cases hok

/-- **C39** (lookup): `run_task` of a task that is not there raises `TaskLookupError`, on a stopped scheduler
`SchedulerNotRunningError`; nothing changes. -/
theorem C39_not_found (L : LawfulStore O) (c : Cfg τ) (e : Env τ) (fuel : Nat) (s : State σ τ φ)
    (hs : Reachable L c s) (id : String) (store : Option String) (force rf : Bool) :
    (s.mode = .stopped → runTask O e fuel id store force rf s = some (s, .error .notRunning)) ∧
    (s.mode ≠ .stopped → Absent O s id store → runTask O e fuel id store force rf s = some (s, .error (.lookup id))) := by
  refine ⟨fun h => by simp only [runTask, if_pos h], fun h ha => ?_⟩
  have hno : findInStores O id store s.stores = none :=
    (findInStores_none L (wf_iff.1 hs.wf)).2 (fun a hh => ha.2 h a hh)
  simp only [runTask, if_neg h, hno]

/-- the result of a manual run in the example scheduler -/
def exRun (now : Int) (id : String) (store : Option String) (force rf : Bool) (ks : List (Call MS Int Unit)) :=
  (execAll 7 ks State.init).bind fun s => (runTask Memory.ops (exEnvAt now) 20 id store force rf s).map fun p =>
    (exSees p.1 [("s1", "a"), ("s2", "a"), ("s2", "b")], sends "s1" "a" p.1.log, sends "s2" "a" p.1.log,
      sends "s2" "b" p.1.log, p.2.toBool)

set_option synthInstance.maxSize 2048 in
set_option synthInstance.maxHeartbeats 200000 in
-- due times, nothing due but forced, nothing due, and a finished trigger
example :
    exRun 25 "a" none true true exHistory = some (([some (some 27), some (some 33), some (some 7)], []),
      [("default", [7, 17])], [], [], true) ∧
    exRun 25 "a" (some "s2") true true exHistory = some (([some (some 7), some (some 75), some (some 7)], []),
      [], [("default", [25])], [], true) ∧
    exRun 25 "a" (some "s2") false true exHistory = some (([some (some 7), some (some 33), some (some 7)], []),
      [], [], [], true) ∧
    exRun 25 "b" none true true exHistory = some (([some (some 7), some (some 33), none], []), [], [],
      [("default", [7])], true) ∧
    exRun 25 "b" none true false exHistory = some (([some (some 7), some (some 33), some none], []), [], [],
      [("default", [7])], true) := by decide +kernel

set_option synthInstance.maxSize 2048 in
/-- **C39, counterexample**: `run_task` does not hold the store lock.  If a pass comes between its computation of
the due times and the submission, the same run time is submitted twice. -/
theorem C39_race_witness : ∃ (s s1 s2 : State MS Int Unit) (t : T Int Unit) (due : List Int) (w : Except Err (Option Int))
    (r : Except Err (Option (T Int Unit))),
    Reachable Memory.lawful exCfg s ∧
    findInStores Memory.ops "a" none s.stores = some (t, "s1") ∧
    runTimes (exEnvAt 25) t.body.trigger 20 t.nrt = some (.ok due) ∧
    processTasks Memory.ops exCfg (exEnvAt 25) 20 s = some (s1, w) ∧
    runFound Memory.ops (exEnvAt 25) t "s1" due true true s1 = (s2, r) ∧
    sends "s1" "a" s2.log = [("default", [7, 17]), ("default", [7, 17])] := by
  have h : ((execAll 7 exHistory State.init).bind fun s => (findInStores Memory.ops "a" none s.stores).bind fun p =>
      (runTimes (exEnvAt 25) p.1.body.trigger 20 p.1.nrt).bind fun due =>
      (processTasks Memory.ops exCfg (exEnvAt 25) 20 s).map fun q =>
        (p.2, due.toOption, sends "s1" "a" (runFound Memory.ops (exEnvAt 25) p.1 "s1" [7, 17] true true q.1).1.log)) =
      some ("s1", some [7, 17], [("default", [7, 17]), ("default", [7, 17])]) := by decide +kernel
  obtain ⟨s, hs, h⟩ := Option.bind_eq_some_iff.1 h
  obtain ⟨p, hp, h⟩ := Option.bind_eq_some_iff.1 h
  obtain ⟨due, hd, h⟩ := Option.bind_eq_some_iff.1 h
  obtain ⟨q, hq, h⟩ := Option.map_eq_some_iff.1 h
  simp only [Prod.mk.injEq] at h
  obtain ⟨h1, h2, h3⟩ := h
  obtain ⟨t, a⟩ := p
  simp only at h1 hd
  subst h1
  cases due with
  | error x => cases h2
  | ok l =>
    simp only [Except.toOption, Option.some.injEq] at h2
    subst h2
    exact ⟨s, q.1, _, t, _, q.2, _, execAll_reachable exHistory_ok .init hs, hp, hd, hq, rfl, h3⟩

/-! ## C41: previews -/

theorem previewLoop_spec {e : Env τ} {g : τ} {nx : Int → Option Int} (hnx : ∀ r, e.next 2 g (some r) r = .ok (nx r))
    (n : Nat) (first : Option Int) :
    ∃ l b after, previewLoop e g n first = .ok (l, b) ∧ Successive nx first l after ∧ l.length ≤ n ∧
      (b = true ↔ after = none) ∧ (after ≠ none → l.length = n) := by
  induction n generalizing first with
  | zero =>
    cases first with
    | none => exact ⟨[], true, none, rfl, .nil _, by simp, by simp, by simp⟩
    | some r => exact ⟨[], false, some r, rfl, .nil _, by simp, by simp, by simp⟩
  | succ n ih =>
    cases first with
    | none => exact ⟨[], true, none, rfl, .nil _, by simp, by simp, by simp⟩
    | some r =>
      obtain ⟨l, b, after, h1, h2, h3, h4, h5⟩ := ih (nx r)
      refine ⟨r :: l, b, after, ?_, .cons h2, by simp; exact h3, h4, fun h => by simp [h5 h]⟩
      simp only [previewLoop, hnx, h1]

/-- **C41**: `preview_task_runs` rejects counts outside 1..50; it reports nothing if there is no such task;
otherwise it returns the next run times of the task (from its next run time on, or from the trigger's first time
from now if it has none), `count` of them or all there are, and says whether there are more. -/
theorem C41_preview (L : LawfulStore O) (c : Cfg τ) (e : Env τ) (s : State σ τ φ) (hs : Reachable L c s) (id : String)
    (store : Option String) (count : Int) :
    (count < 1 ∨ 50 < count → preview O e s id store count = .error .badCount) ∧
    (1 ≤ count → count ≤ 50 → Absent O s id store → preview O e s id store count = .ok none) ∧
    (1 ≤ count → count ≤ 50 → ∀ t loc, Located O s id store t loc → ∀ nx : Int → Option Int,
      (∀ r, e.next 2 t.body.trigger (some r) r = .ok (nx r)) →
      ∀ first, (t.nrt = some first ∨ (t.nrt = none ∧ e.next 2 t.body.trigger none e.now = .ok (some first))) →
      ∃ l more, preview O e s id store count = .ok (some (l, more.isNone)) ∧ Successive nx (some first) l more ∧
        (l.length : Int) ≤ count ∧ (more ≠ none → (l.length : Int) = count)) := by
  have hl := C38_lookup L c s hs id store
  refine ⟨fun h => ?_, fun h1 h2 ha => ?_, fun h1 h2 t loc hloc nx hnx first hfirst => ?_⟩
  · simp only [preview]
    rw [if_neg (by omega)]
  · simp only [preview]
    rw [if_pos ⟨h1, h2⟩, hl.1.2 ha]
  · simp only [preview]
    rw [if_pos ⟨h1, h2⟩, (hl.2 t loc).2 hloc]
    have hfp : firstPreview e t = .ok (some first) := by
      simp only [firstPreview]
      rcases hfirst with h | ⟨h, h'⟩
      · rw [h]
      · rw [h]; exact h'
    simp only [hfp]
    obtain ⟨l, b, after, q1, q2, q3, q4, q5⟩ := previewLoop_spec hnx count.toNat (some first)
    simp only [q1]
    refine ⟨l, after, ?_, q2, by omega, fun h => by have := q5 h; omega⟩
    cases after with
    | none => rw [q4.2 rfl]; rfl
    | some r =>
      cases b with
      | true => exact absurd (q4.1 rfl) (by simp)
      | false => rfl

theorem Successive.append {nx : Int → Option Int} {first x y : Option Int} {l l' : List Int}
    (h : Successive nx first l x) (h' : Successive nx x l' y) : Successive nx first (l ++ l') y := by
  induction h with
  | nil x => exact h'
  | cons h ih => exact .cons (ih h')

theorem Successive.prefix {nx : Int → Option Int} {first x y : Option Int} {l l' : List Int}
    (h : Successive nx first l x) (h' : Successive nx first l' y) : l <+: l' ∨ l' <+: l := by
  induction h generalizing l' with
  | nil x => exact .inl (List.nil_prefix)
  | cons h ih =>
    cases h' with
    | nil => exact .inr (List.nil_prefix)
    | cons h' =>
      rcases ih h' with h | h
      · exact .inl ((List.cons_prefix_cons).2 ⟨rfl, h⟩)
      · exact .inr ((List.cons_prefix_cons).2 ⟨rfl, h⟩)

/-- **C41** (the runs that happen are the ones previewed): if the time that follows a run does not depend on when
the trigger is asked, then in every history the run times submitted form a subsequence of the successive times of
the trigger, beginning with the next run time the task has now – that is of what a preview shows – and after it the
task's next run time is the one that follows these.  (Times are left out if the task coalesces, or if the executor
refuses.) -/
theorem C41_runs_are_previewed_partial (L : LawfulStore O) (c : Cfg τ) (a i : String) (s s' : State σ τ φ)
    (hw : WF L s) (t : T τ φ) (ht : entry O s a i = some t) (nx : Int → Option Int) (subs : List (Int × List Int))
    (h : History L c (fun e => ∀ site p, p ≤ e.now → e.next site t.body.trigger (some p) e.now = .ok (nx p)) a i s subs s') :
    ∃ l after, Successive nx t.nrt l after ∧ (subs.flatMap (·.2)).Sublist l ∧
      (∀ t', entry O s' a i = some t' → t' = { t with nrt := after }) ∧
      ∀ l' more, Successive nx t.nrt l' more → l <+: l' ∨ l' <+: l := by
  suffices hmain : ∃ l after, Successive nx t.nrt l after ∧ (subs.flatMap (·.2)).Sublist l ∧
      ∀ t', entry O s' a i = some t' → t' = { t with nrt := after } by
    obtain ⟨l, after, h1, h2, h3⟩ := hmain
    exact ⟨l, after, h1, h2, h3, fun l' more h' => h1.prefix h'⟩
  generalize hgood : (fun e : Env τ => ∀ site p, p ≤ e.now → e.next site t.body.trigger (some p) e.now = .ok (nx p)) = Good at h
  induction h generalizing t with
  | done s => exact ⟨[], t.nrt, .nil _, by simp, fun t' h => by rw [ht] at h; cases h; rfl⟩
  | other hw' he hr ih => exact ih hw' t (by rw [he]; exact ht) hgood
  | pass hm hg hpt hlog hr ih =>
    rename_i s s1 s2 e fuel w obs rest
    obtain ⟨obs', hl', hw1, hnone, hsome⟩ := pass_one L c e fuel s s1 w hw hm a i hpt
    rw [hlog, List.append_cancel_left_eq] at hl'
    subst hl'
    have gone : entry O s1 a i = none → rest = [] ∧ entry O s2 a i = none := by
      intro hn
      have hr' : History L c (fun _ => True) a i s1 rest s2 := by
        clear ih hsome hnone hn hpt hlog hm hg hw1 hw ht hgood
        induction hr with
        | done s => exact .done s
        | pass hm hg h hlog hr ih => exact .pass hm trivial h hlog ih
        | other hw he hr ih => exact .other hw he ih
      have := C36_paused_not_submitted L c a i s1 s2 hw1 rest hr' (by rw [hn]; simp)
      rw [hn] at this
      exact ⟨this.1, by rcases this.2 with h | h <;> exact h⟩
    have hg' := hg
    rw [← hgood] at hg'
    rcases hsome t ht with ⟨hn, hs⟩ | ⟨hn, hs⟩ | ⟨all, times, last, n, hrt, htimes, hlast, hnext, hnew, hsub⟩
    · obtain ⟨l, after, h1, h2, h3⟩ := ih hw1 t hn hgood
      exact ⟨l, after, h1, by simpa [hs] using h2, h3⟩
    · obtain ⟨r1, r2⟩ := gone hn
      exact ⟨[], t.nrt, .nil _, by simp [hs, r1], by rw [r2]; simp⟩
    · obtain ⟨x, d1, d2, d3⟩ := runTimes_spec (nx := nx) (fun r hr => hg' 0 r hr) hrt
      have hne : all ≠ [] := by
        rintro rfl; rw [htimes] at hlast; simp [coalesce] at hlast
      have hll : all.getLast? = some last := by
        have := (coalesce_handed t.body.coalesce hne).2.2
        rw [← htimes, hlast] at this; exact this.symm
      have hx : nx last = x := (Successive.last d1 hll).symm
      have hle : last ≤ e.now := d2 last (List.mem_of_getLast? hll)
      have hnx : n = x := by
        have := hg' 1 last hle
        rw [hnext] at this
        simp only [Except.ok.injEq] at this
        rw [this, hx]
      have hsubl : (((submitted a i obs).map fun l => (e.now, l)).flatMap (·.2)).Sublist all := by
        have ht : times.Sublist all := by
          rw [htimes]
          simp only [coalesce]
          split
          · rw [hll]
            exact List.singleton_sublist.2 (List.mem_of_getLast? hll)
          · exact List.Sublist.refl _
        rcases hsub with h | h <;> rw [h] <;> simp
        exact ht
      cases n with
      | none =>
        obtain ⟨r1, r2⟩ := gone hnew
        refine ⟨all, x, d1, ?_, by rw [r2]; simp⟩
        rw [r1, List.append_nil]; exact hsubl
      | some q =>
        obtain ⟨l, after, h1, h2, h3⟩ := ih hw1 { t with nrt := some q } hnew hgood
        simp only at h1
        rw [hnx] at h1
        refine ⟨all ++ l, after, d1.append h1, ?_, h3⟩
        rw [List.flatMap_append]
        exact List.Sublist.append hsubl h2

set_option synthInstance.maxSize 2048 in
set_option synthInstance.maxHeartbeats 200000 in
/-- a preview in the example scheduler, and a pass at 35 that runs the first three of these times -/
example : (execAll 7 exHistory State.init).map (fun s =>
      ((preview Memory.ops (exEnvAt 9) s "a" none 5).toOption, (preview Memory.ops (exEnvAt 9) s "b" none 5).toOption,
       (preview Memory.ops (exEnvAt 9) s "a" none 51).toOption,
       (processTasks Memory.ops exCfg (exEnvAt 35) 20 s).map fun p => sends "s1" "a" p.1.log)) =
    some (some (some ([7, 17, 27, 37, 47], false)), some (some ([7], true)), none,
      some [("default", [7, 17, 27])]) := by
  decide +kernel

end Sched
end Asyncz
