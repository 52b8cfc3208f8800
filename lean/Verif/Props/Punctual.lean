import Verif.Props.AddToRun
/-!
# C85: a due run is submitted within the latency of the event loop
-/
namespace Asyncz
namespace Sched

variable {σ τ φ : Type} {O : StoreOps σ (Body τ φ)}

/-! ## Specification -/

/-- A stretch of the life of a running scheduler that begins at time `b` in state `s0`, during which the task `i` of store `a` is
left alone and no pass comes at or after the time `r`; on an event loop that answers within `ℓ`: when a wake-up is queued or the
timer has expired, the pass comes no more than `ℓ` later.  The stretch ends at the time and in the state given; the last component
is the time until which the next pass must have come, if there is any. -/
inductive Waits (L : LawfulStore O) (c : Cfg τ) (ℓ b r : Int) (a i : String) (s0 : State σ τ φ) : Int → State σ τ φ → Option Int → Prop
  | start : Waits L c ℓ b r a i s0 b s0 (if s0.woken then some (b + ℓ) else s0.timer.map (· + ℓ))
  | call {n : Int} {s s' : State σ τ φ} {dl : Option Int} {e : Env τ} {fuel : Nat} {k : Call σ τ φ}
      (hs : Waits L c ℓ b r a i s0 n s dl) (hn : n ≤ e.now) (hdl : ∀ d, dl = some d → e.now ≤ d) (hk : k.Ok L) (hq : k ≠ .tick)
      (h : exec O c e fuel k s = some s') (hm : s'.mode = .running) (he : entry O s' a i = entry O s a i) :
      Waits L c ℓ b r a i s0 e.now s' (dl.or (if s'.woken then some (e.now + ℓ) else none))
  | pass {n : Int} {s s' : State σ τ φ} {dl : Option Int} {e : Env τ} {fuel : Nat}
      (hs : Waits L c ℓ b r a i s0 n s dl) (hn : n ≤ e.now) (hdl : ∀ d, dl = some d → e.now ≤ d) (hr : e.now < r)
      (hl : e.procLock = true ∧ ∀ a, e.storeLock a = true ∧ e.dueOk a = true)
      (h : tick O c e fuel s = some (s', .ok ())) : Waits L c ℓ b r a i s0 e.now s' (s'.timer.map (· + ℓ))

/-! ## Proof -/

/-- a pass, seen from a task that is due, with any trigger: what is reported begins with the task's next run time -/
theorem pass_due (L : LawfulStore O) (c : Cfg τ) (e : Env τ) (fuel : Nat) (s s' : State σ τ φ) (w : Option Int) (hw : WF L s)
    (hm : s.mode = .running) (a i : String) (hl : e.procLock = true ∧ e.storeLock a = true ∧ e.dueOk a = true) (t : T τ φ)
    (ht : entry O s a i = some t) (hx : (s.executors.get? t.body.executor).isSome = true ∧ e.sendOk t.body.executor i = true)
    (r : Int) (hr : t.nrt = some r) (hle : r ≤ e.now) (h : processTasks O c e fuel s = some (s', .ok w)) :
    ∃ obs l ok, s'.log = s.log ++ obs ∧ l.head? = some r ∧ (∀ x ∈ l, x ≤ e.now) ∧
        submissionEvents a i obs = [report a i t.body.coalesce (ok, l)] ∧
        sends a i obs = if ok = true then [(t.body.executor, handed t.body.coalesce l)] else [] := by
  obtain ⟨new, evs, wake, h1, h2, h3, h4, h5, h6, h7, h8⟩ := processTasks_spec L hw hm hl.1 h
  suffices H : ∃ l ok, l.head? = some r ∧ (∀ x ∈ l, x ≤ e.now) ∧
        submissionEvents a i (new ++ evs) = [report a i t.body.coalesce (ok, l)] ∧
        sends a i (new ++ evs) = if ok = true then [(t.body.executor, handed t.body.coalesce l)] else [] by
    obtain ⟨l, ok, H⟩ := H
    exact ⟨new ++ evs, l, ok, by rw [h1, List.append_assoc], H⟩
  cases hg : s.stores.get? a with
  | none =>
    have e1 : entry O s a i = none := by simp [entry, hg]
    rw [e1] at ht; cases ht
  | some st =>
    obtain ⟨st', b1, b2, b3, b4⟩ := h6 a st hg
    rw [entry_eq L hw hg] at ht
    obtain ⟨n0, n1, c1, c2, c3⟩ := b2.due (by simp [hl.2.1, hl.2.2]) i t ht ⟨r, hr, hle⟩
    have hk := L.key (hw.inv _ _ hg) ht
    subst hk
    have es : sends a t.id (new.filter (concerns a t.id) ++ evs.filter (concerns a t.id)) = sends a t.id (new ++ evs) := by
      rw [← List.filter_append, sends_filter]
    have ev : submissionEvents a t.id (new.filter (concerns a t.id) ++ evs.filter (concerns a t.id)) =
        submissionEvents a t.id (new ++ evs) := by
      rw [← List.filter_append, submissionEvents_filter]
    rw [← es, ← ev]
    generalize new.filter (concerns a t.id) = new' at *
    generalize evs.filter (concerns a t.id) = evs' at *
    generalize hr' : L.toMap st' t.id = r' at *
    cases c3 with
    | noExecutor h hn he hi => rw [h] at hx; cases hx.1
    | notDue h hn he hi hx' =>
      have := (runTimes_cons h).2.2 rfl r hr
      omega
    | ran hx' hr2 hla hn hnew hrem hsent =>
      rename_i all last n sent removed
      obtain ⟨s1, s2, s3⟩ := runTimes_cons hr2
      have hne : all ≠ [] := by
        intro h; subst h; simp [coalesce] at hla
      have hhead : all.head? = some r := by
        cases all with
        | nil => exact absurd rfl hne
        | cons x l => have := s2 x l rfl; rw [hr] at this; cases this; rfl
      obtain ⟨k1, k2, k3⟩ := coalesce_handed' t.body.coalesce hne
      have hremE : ∀ l, sends a t.id (l ++ removed) = sends a t.id l ∧ submissionEvents a t.id removed = [] := by
        intro l; rw [sends_append, hrem]; split <;> simp [sends, submissionEvents]
      rw [k1, k2] at hsent
      rcases hsent with ⟨h1, h2, _⟩ | ⟨h1, h2, h3, _⟩ | ⟨h1, h2, h3, _⟩
      · refine ⟨all, true, hhead, s1, ?_, ?_⟩
        · rw [submissionEvents_append, hnew, submissionEvents_append, (hremE []).2, h1, h2]
          simp [submissionEvents, report]
        · rw [sends_append, hnew, (hremE sent).1, h1, h2]
          simp [sends]
      · refine ⟨all, false, hhead, s1, ?_, ?_⟩
        · rw [submissionEvents_append, hnew, submissionEvents_append, (hremE []).2, h1, h2]
          simp [submissionEvents, report]
        · rw [sends_append, hnew, (hremE sent).1, h1, h2]
          simp [sends]
      · rw [hx.2] at h3; cases h3

/-- a pass leaves a task alone that is not due -/
theorem pass_not_due (L : LawfulStore O) (c : Cfg τ) (e : Env τ) (fuel : Nat) (s s' : State σ τ φ) (w : Option Int) (hw : WF L s)
    (hm : s.mode = .running) (a i : String) (hp : e.procLock = true) (t : T τ φ)
    (ht : entry O s a i = some t) (r : Int) (hr : t.nrt = some r) (hle : e.now < r)
    (h : processTasks O c e fuel s = some (s', .ok w)) : entry O s' a i = some t := by
  obtain ⟨new, evs, wake, h1, h2, h3, h4, h5, h6, h7, h8⟩ := processTasks_spec L hw hm hp h
  cases hg : s.stores.get? a with
  | none =>
    have e1 : entry O s a i = none := by simp [entry, hg]
    rw [e1] at ht; cases ht
  | some st =>
    obtain ⟨st', b1, b2, b3, b4⟩ := h6 a st hg
    rw [entry_eq L hw hg] at ht
    rw [entry_eq L h3 b1]
    have := b2.other i (.inr fun t' ht' hd => by
      rw [ht] at ht'; cases ht'
      obtain ⟨q, hq, hq'⟩ := hd
      rw [hr] at hq; cases hq; omega)
    rw [this.1, ht]

theorem tick_pass {c : Cfg τ} {e : Env τ} {fuel : Nat} {s s' : State σ τ φ} (h : tick O c e fuel s = some (s', .ok ())) :
    ∃ s1 w, processTasks O c e fuel { s with woken := false, timer := none } = some (s1, .ok w) ∧
      s' = { s1 with timer := w.map (e.now + ·) } := by
  simp only [tick] at h
  split at h
  · cases h
  · cases h
  · rename_i s1 w hp
    simp only [Option.some.injEq, Prod.mk.injEq, and_true] at h
    exact ⟨s1, w, hp, h.symm⟩

theorem Waits.invariant {L : LawfulStore O} {c : Cfg τ} {ℓ b r δ : Int} {a i : String} {s0 : State σ τ φ} {t : T τ φ}
    (h0 : Timeline L c δ b s0) (hδ : 0 ≤ δ) (hm0 : s0.mode = .running) (ht : entry O s0 a i = some t) (hr : t.nrt = some r)
    {n : Int} {s : State σ τ φ} {dl : Option Int} (h : Waits L c ℓ b r a i s0 n s dl) :
    WF L s ∧ s.mode = .running ∧ entry O s a i = some t ∧ ∃ d, dl = some d ∧ d ≤ max r (b + δ) + ℓ := by
  induction h with
  | start =>
    refine ⟨h0.reachable.wf, hm0, ht, ?_⟩
    rcases C33_timely_partial L c δ hδ b s0 h0 hm0 with hw | hw
    · rw [hw]; exact ⟨_, rfl, by omega⟩
    · obtain ⟨x, hx, hle⟩ := hw a i t r ht hr
      rw [hx]
      cases s0.woken with
      | true => exact ⟨_, rfl, by omega⟩
      | false => exact ⟨x + ℓ, rfl, by omega⟩
  | call hs hn hdl hk hq h hm he ih =>
    obtain ⟨w1, w2, w3, d, rfl, hd⟩ := ih
    exact ⟨wf_exec w1 hk h, hm, by rw [he, w3], d, rfl, hd⟩
  | pass hs hn hdl hlt hl h ih =>
    rename_i n s s' dl e fuel
    obtain ⟨w1, w2, w3, d, _, hd⟩ := ih
    have hm' : s'.mode = .running := by rw [(kept_tick h).mode]; exact w2
    have hw' := wf_tick w1 h
    obtain ⟨s1, w, hp, rfl⟩ := tick_pass h
    have w0 : WF L { s with woken := false, timer := none } := w1.congr rfl
    have he' := pass_not_due L c e fuel _ s1 w w0 w2 a i hl.1 t (by exact w3) r hr hlt hp
    refine ⟨hw', hm', he', ?_⟩
    have hT := timely_tick L (Int.le_refl 0) w1 (.inr hl) h hm'
    rcases hT with hwk | hT
    · exfalso
      have hk : s1.woken = false := by
        obtain ⟨new, evs, wake, h1, h2, h3, h4, h5, h6, h7, h8⟩ := processTasks_spec L w0 w2 hl.1 hp
        exact h2.woken
      have : s1.woken = true := hwk
      rw [hk] at this; cases this
    · obtain ⟨x, hx, hle⟩ := hT a i t r he' hr
      rw [hx]
      exact ⟨x + ℓ, rfl, by omega⟩

/-- **C85.** A scheduler is running at time `b` after any history of calls and passes that did not raise (without forced runs;
`δ` is 0, or the retry interval if some pass found a lock taken or a store failing), and a stored task has the next run time `r`.
Until the first pass at or after `r`, on an event loop with latency `ℓ`: the loop is bound to make a pass before
`max r (b + δ) + ℓ`, whatever other calls and passes come in between; and the first pass that comes at or after `r` reports `r` as the
first of the task's due times and hands them over. -/
theorem C85_punctual (L : LawfulStore O) (c : Cfg τ) (δ ℓ b : Int) (hδ : 0 ≤ δ) (s0 : State σ τ φ) (h0 : Timeline L c δ b s0)
    (hm : s0.mode = .running) (a i : String) (t : T τ φ) (ht : entry O s0 a i = some t) (r : Int) (hr : t.nrt = some r)
    (n : Int) (s : State σ τ φ) (dl : Option Int) (h : Waits L c ℓ b r a i s0 n s dl) :
    (∃ d, dl = some d ∧ d ≤ max r (b + δ) + ℓ) ∧
    ∀ (e : Env τ) (fuel : Nat) (s' : State σ τ φ), (∀ d, dl = some d → e.now ≤ d) → r ≤ e.now →
      e.procLock = true → e.storeLock a = true → e.dueOk a = true →
      (s.executors.get? t.body.executor).isSome = true → e.sendOk t.body.executor i = true →
      tick O c e fuel s = some (s', .ok ()) →
      e.now ≤ max r (b + δ) + ℓ ∧ ∃ obs l ok, s'.log = s.log ++ obs ∧ l.head? = some r ∧ (∀ x ∈ l, x ≤ e.now) ∧
        submissionEvents a i obs = [report a i t.body.coalesce (ok, l)] ∧
        sends a i obs = if ok = true then [(t.body.executor, handed t.body.coalesce l)] else [] := by
  obtain ⟨w1, w2, w3, d, rfl, hd⟩ := h.invariant h0 hδ hm ht hr
  refine ⟨⟨d, rfl, hd⟩, fun e fuel s' hdl hle hp hsl hdo hx hso htick => ?_⟩
  have hnow := hdl d rfl
  refine ⟨by omega, ?_⟩
  obtain ⟨s1, w, hpt, rfl⟩ := tick_pass htick
  exact pass_due L c e fuel { s with woken := false, timer := none } s1 w (w1.congr rfl) w2 a i ⟨hp, hsl, hdo⟩ t w3 ⟨hx, hso⟩ r hr hle hpt

/-! ## Example -/

set_option synthInstance.maxSize 2048 in
set_option synthInstance.maxHeartbeats 200000 in
/-- The hypotheses are met: after the calls of `exHistory` and a pass at 7 the task "a" of store "s2" waits for 33 and the timer is
set to 17; a pass at 18 (latency 1) runs another task and sets the timer to 27; the next one must come before 28. -/
example : ∃ s0 s : State MS Int Unit, Timeline Memory.lawful exCfg 0 7 s0 ∧ s0.mode = .running ∧
    (entry Memory.ops s0 "s2" "a").map Task.nrt = some (some 33) ∧
    Waits Memory.lawful exCfg 1 7 33 "s2" "a" s0 18 s (some 28) := by
  have h : ((execAll 7 exHistory State.init).bind fun s => (tick Memory.ops exCfg (exEnvAt 7) 20 s).bind fun r =>
      match r with
      | (_, .error _) => none
      | (s0, .ok _) => (tick Memory.ops exCfg (exEnvAt 18) 20 s0).bind fun r => match r with
        | (_, .error _) => none
        | (s1, .ok _) => some (s0.mode, (entry Memory.ops s0 "s2" "a").map Task.nrt, s0.woken, s0.timer, s1.timer)) =
      some (.running, some (some 33), false, some 17, some 27) := by decide +kernel
  obtain ⟨s, h1, h2⟩ := Option.bind_eq_some_iff.1 h
  obtain ⟨⟨s0, r⟩, h3, h4⟩ := Option.bind_eq_some_iff.1 h2
  cases r with
  | error x => cases h4
  | ok u =>
    obtain ⟨⟨s1, r⟩, h5, h6⟩ := Option.bind_eq_some_iff.1 h4
    cases r with
    | error x => cases h6
    | ok u =>
      simp only [Option.some.injEq, Prod.mk.injEq] at h6
      obtain ⟨q1, q2, q3, q4, q5⟩ := h6
      refine ⟨s0, s1, .pass (e := exEnvAt 7) (fuel := 20) (n := 7) (s := s) (exHistory_timeline h1) (by decide)
        (.inr ⟨rfl, fun _ => ⟨rfl, rfl⟩⟩) h3, q1, q2, ?_⟩
      have hw := Waits.pass (ℓ := 1) (r := 33) (a := "s2") (i := "a") (e := exEnvAt 18) (Waits.start (L := Memory.lawful) (c := exCfg)
        (b := 7) (s0 := s0)) (by decide) (fun d hd => by rw [q3, q4] at hd; cases hd; decide) (by decide) ⟨rfl, fun _ => ⟨rfl, rfl⟩⟩ h5
      rw [q5] at hw
      exact hw

end Sched
end Asyncz
