import Verif.Props.SchedPass
/-!
# Histories of passes (C32, C14, C36)
-/
namespace Asyncz
namespace Sched
variable {σ τ φ : Type} {O : StoreOps σ (Body τ φ)}

/-- A history of the task `i` of store `a`: processing passes that complete, in any number, and between them
anything at all that leaves this task alone (calls about other tasks, other stores, executors, pausing, runs
ending, the passage of time).  The list collects the submissions of the task with the time of the pass. -/
inductive History (L : LawfulStore O) (c : Cfg τ) (Good : Env τ → Prop) (a i : String) :
    State σ τ φ → List (Int × List Int) → State σ τ φ → Prop
  | done (s : State σ τ φ) : History L c Good a i s [] s
  | pass {s s' s'' : State σ τ φ} {e : Env τ} {fuel : Nat} {w : Option Int} {obs : List Obs}
      {rest : List (Int × List Int)} (hm : s.mode ≠ .stopped) (hg : Good e)
      (h : processTasks O c e fuel s = some (s', .ok w)) (hlog : s'.log = s.log ++ obs)
      (hr : History L c Good a i s' rest s'') :
      History L c Good a i s ((submitted a i obs).map (fun l => (e.now, l)) ++ rest) s''
  | other {s s' s'' : State σ τ φ} {rest : List (Int × List Int)} (hw : WF L s')
      (he : entry O s' a i = entry O s a i) (hr : History L c Good a i s' rest s'') :
      History L c Good a i s rest s''

/-- one pass, seen from one task; no assumption on the triggers but that they go forward -/
theorem pass_one (L : LawfulStore O) (c : Cfg τ) (e : Env τ) (fuel : Nat) (s s' : State σ τ φ)
    (w : Option Int) (hw : WF L s) (hm : s.mode ≠ .stopped) (a i : String)
    (h : processTasks O c e fuel s = some (s', .ok w)) :
    ∃ obs, s'.log = s.log ++ obs ∧ WF L s' ∧
      (entry O s a i = none → entry O s' a i = none ∧ submitted a i obs = []) ∧
      ∀ t, entry O s a i = some t →
        (entry O s' a i = some t ∧ submitted a i obs = []) ∨
        (entry O s' a i = none ∧ submitted a i obs = []) ∨
        ∃ all times last n, runTimes e t.body.trigger fuel t.nrt = some (.ok all) ∧
          times = (coalesce t.body.coalesce all).1 ∧ times.getLast? = some last ∧
          e.next 1 t.body.trigger (some last) e.now = .ok n ∧
          entry O s' a i = n.map (fun n => { t with nrt := some n }) ∧
          (submitted a i obs = [times] ∨ submitted a i obs = []) := by
  by_cases hpa : s.mode = .paused
  · simp only [processTasks, hpa, if_true] at h
    cases h
    exact ⟨[], by simp, hw, fun hn => ⟨hn, rfl⟩, fun t ht => .inl ⟨ht, rfl⟩⟩
  have hru : s.mode = .running := by
    cases hmm : s.mode <;> simp_all
  by_cases hp : e.procLock = true
  · obtain ⟨new, evs, wake, h1, h2, h3, h4, h5, h6, h7, h8⟩ := processTasks_spec L hw hru hp h
    refine ⟨new ++ evs, by rw [h1, List.append_assoc], h3, ?_⟩
    have noObs : ∀ n v : List Obs, n.filter (concerns a i) = [] ∧ v.filter (concerns a i) = [] →
        submitted a i (n ++ v) = [] := by
      intro n v hnv
      rw [submitted, ← sends_filter, List.filter_append, hnv.1, hnv.2]
      rfl
    cases hg : s.stores.get? a with
    | none =>
      have hg' : s'.stores.get? a = none := by
        rw [Dict.get?_eq_none] at hg ⊢
        rw [h4]; exact hg
      have e1 : entry O s a i = none := by simp [entry, hg]
      have e2 : entry O s' a i = none := by simp [entry, hg']
      refine ⟨fun _ => ⟨e2, noObs _ _ (h7 a hg i)⟩, fun t ht => ?_⟩
      rw [e1] at ht; cases ht
    | some st =>
      obtain ⟨st', b1, b2, b3, b4⟩ := h6 a st hg
      rw [entry_eq L hw hg, entry_eq L h3 b1]
      refine ⟨fun hn => ?_, fun t ht => ?_⟩
      · have := b2.other i (.inr (fun t ht => by rw [hn] at ht; cases ht))
        exact ⟨by rw [this.1, hn], noObs _ _ this.2⟩
      · by_cases hd : (e.storeLock a && e.dueOk a) = false ∨ ¬ Due e.now t
        · have := b2.other i (by
            rcases hd with h | h
            · exact .inl h
            · exact .inr fun t' ht' => by rw [ht] at ht'; cases ht'; exact h)
          exact .inl ⟨by rw [this.1, ht], noObs _ _ this.2⟩
        · simp only [not_or, Bool.not_eq_false, Classical.not_not] at hd
          obtain ⟨n0, n1, c1, c2, c3⟩ := b2.due hd.1 i t ht hd.2
          have hk := L.key (hw.inv _ _ hg) ht
          subst hk
          have hs : submitted a t.id (new ++ evs) = submitted a t.id (new.filter (concerns a t.id) ++
              evs.filter (concerns a t.id)) := by
            rw [submitted, submitted, ← List.filter_append, sends_filter]
          rw [hs]
          generalize new.filter (concerns a t.id) = fn at *
          generalize evs.filter (concerns a t.id) = fv at *
          generalize L.toMap st' t.id = res at *
          cases c3 with
          | noExecutor h hn he hi => exact .inr (.inl ⟨rfl, by subst hn he; rfl⟩)
          | notDue h hn he hi hx => exact .inl ⟨rfl, by subst hn he; rfl⟩
          | ran hx hr hl hn hnew hrem hsent =>
            rename_i all last n sent removed
            refine .inr (.inr ⟨all, _, last, n, hr, rfl, hl, hn, rfl, ?_⟩)
            have hrm : ∀ l, sends a t.id (l ++ removed) = sends a t.id l := by
              intro l; rw [sends_append, hrem]; split <;> simp [sends]
            rw [submitted, sends_append, hnew, hrm]
            rcases hsent with ⟨h1, h2, _⟩ | ⟨h1, h2, h3, _⟩ | ⟨h1, h2, h3, _⟩
            · exact .inl (by subst h1 h2; simp [sends])
            · exact .inr (by subst h1 h2; simp [sends])
            · exact .inr (by subst h1 h2; simp [sends])
  · have hp : e.procLock = false := by simpa using hp
    simp only [processTasks, hru, if_neg (show ¬ Mode.running = Mode.paused by decide), hp] at h
    simp only [Bool.false_eq_true, if_false, Option.some.injEq, Prod.mk.injEq] at h
    obtain ⟨rfl, _⟩ := h
    exact ⟨[], by simp, hw, fun hn => ⟨hn, rfl⟩, fun t ht => .inl ⟨ht, rfl⟩⟩

/-- **C32** (partial): in any history, with triggers that go forward (random jitter allowed), every run time
submitted is not after the time of its pass, the run times of the task strictly increase over the whole
history, and none is before the next run time the task had at the beginning.  The clock need not be
monotone.  Partial: "passes that complete"; if a pass is abandoned because a trigger raises, a time
may be submitted again (`C32_raise_witness`). -/
theorem C32_no_early_no_twice_partial (L : LawfulStore O) (c : Cfg τ) (a i : String) (s s' : State σ τ φ)
    (hw : WF L s) (subs : List (Int × List Int))
    (h : History L c (fun e => Advancing e.next) a i s subs s') :
    (∀ p ∈ subs, ∀ r ∈ p.2, r ≤ p.1) ∧
    (subs.flatMap (·.2)).Pairwise (· < ·) ∧
    ∀ t, entry O s a i = some t → ∀ r, t.nrt = some r → ∀ x ∈ subs.flatMap (·.2), r ≤ x := by
  suffices hmain : (∀ p ∈ subs, ∀ r ∈ p.2, r ≤ p.1) ∧ (subs.flatMap (·.2)).Pairwise (· < ·) ∧
      (∀ t, entry O s a i = some t → ∀ r, t.nrt = some r → ∀ x ∈ subs.flatMap (·.2), r ≤ x) ∧
      ((entry O s a i = none ∨ ∃ t, entry O s a i = some t ∧ t.nrt = none) → subs.flatMap (·.2) = []) from
    ⟨hmain.1, hmain.2.1, hmain.2.2.1⟩
  induction h with
  | done s => simp
  | other hw' he hr ih => rw [← he]; exact ih hw'
  | pass hm hg hp hlog hr ih =>
    rename_i s s1 s2 e fuel w obs rest
    obtain ⟨obs', hl', hw1, hnone, hsome⟩ := pass_one L c e fuel s s1 w hw hm a i hp
    rw [hlog, List.append_cancel_left_eq] at hl'
    subst hl'
    obtain ⟨i1, i2, i3, i4⟩ := ih hw1
    cases he : entry O s a i with
    | none =>
      obtain ⟨hn, hs⟩ := hnone he
      simp only [hs, List.map_nil, List.nil_append]
      exact ⟨i1, i2, by simp, fun _ => i4 (.inl hn)⟩
    | some t =>
      rcases hsome t he with ⟨hn, hs⟩ | ⟨hn, hs⟩ | ⟨all, times, last, n, hrt, htimes, hlast, hnext, hnew, hsub⟩
      · simp only [hs, List.map_nil, List.nil_append]
        rw [hn] at i3 i4
        exact ⟨i1, i2, i3, i4⟩
      · simp only [hs, List.map_nil, List.nil_append]
        have hrest := i4 (.inl hn)
        refine ⟨i1, by rw [hrest]; simp, by rw [hrest]; simp, fun _ => hrest⟩
      · -- the run times of this pass
        have hall := runTimes_cons hrt
        have hinc := runTimes_increasing (fun p r hp' => hg 0 t.body.trigger p e.now r hp') hrt
        have hsub_all : ∀ x ∈ times, x ∈ all := by
          intro x hx
          rw [htimes] at hx
          simp only [coalesce] at hx
          split at hx
          · exact List.mem_of_getLast? (Option.mem_toList.1 hx)
          · exact hx
        have hpair : times.Pairwise (· < ·) := by
          rw [htimes]
          simp only [coalesce]
          split
          · cases all.getLast? <;> simp
          · exact hinc.1
        have hlastmax : ∀ x ∈ times, x ≤ last := by
          intro x hx
          obtain ⟨l0, hl0⟩ := List.getLast?_eq_some_iff.1 hlast
          rw [hl0] at hx hpair
          rcases List.mem_append.1 hx with hx | hx
          · have := (List.pairwise_append.1 hpair).2.2 x hx last (by simp); omega
          · simp at hx; omega
        have hlastle : last ≤ e.now := hall.1 last (hsub_all _ (List.mem_of_getLast? hlast))
        have hge : ∀ r, t.nrt = some r → ∀ x ∈ times, r ≤ x := fun r hr x hx => hinc.2 r hr x (hsub_all x hx)
        -- what is submitted later is after `last`
        have hlater : ∀ x ∈ rest.flatMap (·.2), last < x := by
          intro x hx
          cases n with
          | none =>
            have := i4 (.inl hnew)
            rw [this] at hx; simp at hx
          | some q =>
            have h1 := hg 1 t.body.trigger last e.now q hlastle hnext
            have h2 := i3 _ hnew q rfl x hx
            omega
        have hfirst : ∀ r, t.nrt = some r → r ≤ last := fun r hr => hge r hr last (List.mem_of_getLast? hlast)
        have hnr : ¬ t.nrt = none := by
          intro hc
          rw [hc] at hrt
          have : all = [] := by cases fuel <;> simp [runTimes] at hrt <;> exact hrt
          subst this
          rw [htimes] at hlast
          simp [coalesce] at hlast
        refine ⟨?_, ?_, ?_, ?_⟩
        · intro p hpm r hr
          rcases List.mem_append.1 hpm with hpm | hpm
          · obtain ⟨l, hl, rfl⟩ := List.mem_map.1 hpm
            rcases hsub with hsub | hsub
            · rw [hsub] at hl; simp at hl; subst hl
              exact hall.1 r (hsub_all r hr)
            · rw [hsub] at hl; simp at hl
          · exact i1 p hpm r hr
        · rw [List.flatMap_append]
          rcases hsub with hsub | hsub
          · rw [hsub]
            simp only [List.map_cons, List.map_nil, List.flatMap_cons, List.flatMap_nil, List.append_nil]
            refine List.pairwise_append.2 ⟨hpair, i2, fun x hx y hy => ?_⟩
            have := hlastmax x hx; have := hlater y hy; omega
          · rw [hsub]; simpa using i2
        · intro t' ht' r hr x hx
          cases ht'
          rw [List.flatMap_append] at hx
          rcases List.mem_append.1 hx with hx | hx
          · rcases hsub with hsub | hsub
            · rw [hsub] at hx; simp at hx; exact hge r hr x hx
            · rw [hsub] at hx; simp at hx
          · have := hlater x hx; have := hfirst r hr; omega
        · rintro (h | ⟨t', ht', h⟩)
          · cases h
          · cases ht'; exact absurd h hnr

/-- **C36** (passes): a paused task (no next run time), and likewise a task that is not there, is not
submitted by any pass, whatever the triggers do, until somebody changes it. -/
theorem C36_paused_not_submitted (L : LawfulStore O) (c : Cfg τ) (a i : String) (s s' : State σ τ φ)
    (hw : WF L s) (subs : List (Int × List Int)) (h : History L c (fun _ => True) a i s subs s')
    (hp : ∀ t, entry O s a i = some t → t.nrt = none) :
    subs = [] ∧ (entry O s' a i = entry O s a i ∨ entry O s' a i = none) := by
  induction h with
  | done s => exact ⟨rfl, .inl rfl⟩
  | other hw' he hr ih => rw [← he]; exact ih hw' (by rw [he]; exact hp)
  | pass hm hg hpt hlog hr ih =>
    rename_i s s1 s2 e fuel w obs rest
    obtain ⟨obs', hl', hw1, hnone, hsome⟩ := pass_one L c e fuel s s1 w hw hm a i hpt
    rw [hlog, List.append_cancel_left_eq] at hl'
    subst hl'
    cases he : entry O s a i with
    | none =>
      obtain ⟨hn, hs⟩ := hnone he
      obtain ⟨r1, r2⟩ := ih hw1 (by rw [hn]; simp)
      exact ⟨by simp [hs, r1], by rw [hn] at r2; rcases r2 with h | h <;> exact .inl h⟩
    | some t =>
      rcases hsome t he with ⟨hn, hs⟩ | ⟨hn, hs⟩ | ⟨all, times, last, n, hrt, htimes, hlast, hnext, hnew, hsub⟩
      · obtain ⟨r1, r2⟩ := ih hw1 (by rw [hn]; rw [he] at hp; exact hp)
        exact ⟨by simp [hs, r1], by rw [hn] at r2; exact r2⟩
      · obtain ⟨r1, r2⟩ := ih hw1 (by rw [hn]; simp)
        exact ⟨by simp [hs, r1], by rw [hn] at r2; rcases r2 with h | h <;> exact .inr h⟩
      · exfalso
        rw [hp t he] at hrt
        have : all = [] := by cases fuel <;> simp [runTimes] at hrt <;> exact hrt
        subst this
        rw [htimes] at hlast
        simp [coalesce] at hlast

/-- **C14** (scheduler): a task whose trigger has nothing after a run – a date trigger – is submitted at most
once, for its next run time, and is then not in the store any more. -/
theorem C14_runs_at_most_once (L : LawfulStore O) (c : Cfg τ) (a i : String) (s s' : State σ τ φ)
    (hw : WF L s) (t : T τ φ) (ht : entry O s a i = some t) (subs : List (Int × List Int))
    (h : History L c (fun e => ∀ site p now, e.next site t.body.trigger (some p) now = .ok none) a i s subs s') :
    (subs = [] ∧ (entry O s' a i = some t ∨ entry O s' a i = none)) ∨
    ∃ now r, t.nrt = some r ∧ r ≤ now ∧ subs = [(now, [r])] ∧ entry O s' a i = none := by
  induction h with
  | done s => exact .inl ⟨rfl, .inl ht⟩
  | other hw' he hr ih => exact ih hw' (by rw [he]; exact ht)
  | pass hm hg hpt hlog hr ih =>
    rename_i s s1 s2 e fuel w obs rest
    obtain ⟨obs', hl', hw1, hnone, hsome⟩ := pass_one L c e fuel s s1 w hw hm a i hpt
    rw [hlog, List.append_cancel_left_eq] at hl'
    subst hl'
    have gone : entry O s1 a i = none → rest = [] ∧ entry O s2 a i = none := by
      intro hn
      have hr' : History L c (fun _ => True) a i s1 rest s2 := by
        clear ih hsome hnone hn hpt hlog hm hg hw1 hw ht
        induction hr with
        | done s => exact .done s
        | pass hm hg h hlog hr ih => exact .pass hm trivial h hlog ih
        | other hw he hr ih => exact .other hw he ih
      have := C36_paused_not_submitted L c a i s1 s2 hw1 rest hr' (by rw [hn]; simp)
      rw [hn] at this
      exact ⟨this.1, by rcases this.2 with h | h <;> exact h⟩
    rcases hsome t ht with ⟨hn, hs⟩ | ⟨hn, hs⟩ | ⟨all, times, last, n, hrt, htimes, hlast, hnext, hnew, hsub⟩
    · simp only [hs, List.map_nil, List.nil_append]
      exact ih hw1 hn
    · obtain ⟨r1, r2⟩ := gone hn
      exact .inl ⟨by simp [hs, r1], .inr r2⟩
    · rw [hg] at hnext
      cases hnext
      obtain ⟨r1, r2⟩ := gone hnew
      -- there is exactly one due time
      have hone : ∃ r, t.nrt = some r ∧ r ≤ e.now ∧ all = [r] := by
        cases hnr : t.nrt with
        | none =>
          rw [hnr] at hrt
          have : all = [] := by cases fuel <;> simp [runTimes] at hrt <;> exact hrt
          subst this; rw [htimes] at hlast; simp [coalesce] at hlast
        | some r =>
          rw [hnr] at hrt
          cases fuel with
          | zero => simp [runTimes] at hrt
          | succ k =>
            rw [runTimes] at hrt
            split at hrt
            · rename_i hle
              rw [hg] at hrt
              have : runTimes e t.body.trigger k none = some (.ok []) := by cases k <;> rfl
              simp only [this, Option.some.injEq, Except.ok.injEq] at hrt
              exact ⟨r, rfl, hle, hrt.symm⟩
            · simp only [Option.some.injEq, Except.ok.injEq] at hrt
              subst hrt; rw [htimes] at hlast; simp [coalesce] at hlast
      obtain ⟨r, hr1, hr2, rfl⟩ := hone
      have ht1 : times = [r] := by rw [htimes]; simp only [coalesce]; split <;> simp
      rcases hsub with hsub | hsub
      · refine .inr ⟨e.now, r, hr1, hr2, ?_, r2⟩
        rw [hsub, r1, ht1]; rfl
      · exact .inl ⟨by simp [hsub, r1], .inr r2⟩

-- the task "d" of the example scheduler: two passes, the second one at the same time; the hypotheses hold
-- and it is submitted once
example : ∃ s', History Memory.lawful exCfg (fun e => ∀ site p now, e.next site (0 : Int) (some p) now = .ok none)
    "s1" "d" exState [(35, [30])] s' ∧ entry Memory.ops exState "s1" "d" ≠ none := by
  cases hp : processTasks Memory.ops exCfg (exEnvAt 35) 20 exState with
  | none =>
    have : (processTasks Memory.ops exCfg (exEnvAt 35) 20 exState).isSome = true := by decide +kernel
    rw [hp] at this; cases this
  | some r =>
    obtain ⟨s1, r1⟩ := r
    have h1 : (processTasks Memory.ops exCfg (exEnvAt 35) 20 exState).map (fun r => (r.2, submitted "s1" "d" r.1.log,
        r.1.mode)) = some (.ok (some 5), [[30]], .running) := by decide +kernel
    rw [hp] at h1
    simp only [Option.map_some, Option.some.injEq, Prod.mk.injEq] at h1
    obtain ⟨rfl, h2, h3⟩ := h1
    refine ⟨s1, ?_, by decide +kernel⟩
    have := History.pass (L := Memory.lawful) (c := exCfg)
      (Good := fun e => ∀ site p now, e.next site (0 : Int) (some p) now = .ok none) (a := "s1") (i := "d")
      (s := exState) (obs := s1.log) (rest := []) (by decide) (fun _ _ _ => rfl) hp (by simp [exState]) (.done s1)
    rw [h2] at this
    exact this

/-- **C32, counterexample**: after a pass that was abandoned because the trigger raised in the rescheduling
step, the next pass submits the same run time again. -/
theorem C32_raise_witness : ∃ (e e' : Env Int) (s1 s2 : State MS Int Unit) (x : Err) (r : Except Err (Option Int)),
    Advancing e.next ∧ Advancing e'.next ∧ e.now ≤ e'.now ∧
    processTasks Memory.ops exCfg e 20 exState = some (s1, .error x) ∧
    processTasks Memory.ops exCfg e' 20 s1 = some (s2, r) ∧
    submitted "s1" "b" s2.log = [[35], [35]] := by
  let e : Env Int := ⟨35, fun site _ p _ => if site = 1 ∧ p = some 35 then .error .indexError
    else .ok (p.map (· + 10)), fun _ => true, true, fun _ => true, fun _ _ => true⟩
  let e' : Env Int := ⟨36, fun _ _ p _ => .ok (p.map (· + 10)), fun _ => true, true, fun _ => true, fun _ _ => true⟩
  have h : ((processTasks Memory.ops exCfg e 20 exState).bind fun r =>
      (processTasks Memory.ops exCfg e' 20 r.1).map fun q => (r.2, submitted "s1" "b" q.1.log)) =
      some (.error (.trigger .indexError), [[35], [35]]) := by decide +kernel
  cases hp : processTasks Memory.ops exCfg e 20 exState with
  | none => rw [hp] at h; cases h
  | some r =>
    obtain ⟨s1, r1⟩ := r
    rw [hp] at h
    simp only [Option.bind_some] at h
    cases hq : processTasks Memory.ops exCfg e' 20 s1 with
    | none => rw [hq] at h; cases h
    | some q =>
      obtain ⟨s2, r2⟩ := q
      rw [hq] at h
      simp only [Option.map_some, Option.some.injEq, Prod.mk.injEq] at h
      obtain ⟨rfl, h2⟩ := h
      refine ⟨e, e', s1, s2, _, r2, ?_, ?_, by decide, hp, hq, h2⟩
      · intro site g p now r _ hr
        simp only [e] at hr
        split at hr
        · cases hr
        · simp at hr; omega
      · intro site g p now r _ hr
        simp only [e', Option.map_some, Except.ok.injEq, Option.some.injEq] at hr
        omega

end Sched
end Asyncz
