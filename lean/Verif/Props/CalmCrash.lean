import Verif.Props.CalmRun
import Verif.Props.Crash
import Verif.Props.BuiltinStores2
/-!
# C117 between two changes of the clocks

`Props/Crash.lean` follows tasks through deaths of the process in zones of constant offset.  Here the zones are arbitrary, and the
time from the first run to the one after the latest pass is a period without a change of the clocks (`Spec/Steady.lean`).
-/
namespace Asyncz
namespace Sched

variable {σ φ : Type} {O : StoreOps σ (Body Trig φ)} {E : TzEnv} {lo hi : Int}

theorem Recovered.until {τ : Type} {O : StoreOps σ (Body τ φ)} {L : LawfulStore O} {c : Cfg τ} {G G' : Env τ → Prop}
    {Room : State σ τ φ → Prop} {a i x : String} {s s' : State σ τ φ} {ps : List Seen} {T : Int} (h : Recovered L c G Room a i x s ps s')
    (hT : ∀ p ∈ ps, p.now ≤ T) (hG : ∀ e, G e → e.now ≤ T → G' e) : Recovered L c G' Room a i x s ps s' := by
  induction h with
  | done s => exact .done s
  | pass hm hg hl hx h hlog hroom _ ih =>
    exact .pass hm (hG _ hg (hT _ (List.mem_cons_self ..))) hl hx h hlog hroom (ih fun p hp => hT p (List.mem_cons_of_mem _ hp))
  | crash hm hg hl hx h hlog hroom hp hgone hs _ ih =>
    exact .crash hm (hG _ hg (hT _ (List.mem_cons_self ..))) hl hx h hlog hroom hp hgone hs (ih fun p hp => hT p (List.mem_cons_of_mem _ hp))
  | other hw he _ ih => exact .other hw he (ih hT)

/-! ## Interval triggers -/

/-- an interval trigger goes forward and answers in the same way wherever it is asked up to `T`, and its successive times from `r` on
are known, if no clock is changed until one interval after `T` -/
theorem interval_calm_ans (hS : E.Steady lo hi) (tz : Nat) (g : Interval) (hv : g.Valid) (hj : g.jitter = none)
    (hst : ∀ s, g.stopDt tz = some s → s.Clear E lo hi) (r : Int) (hlo : lo ≤ r) (T : Int) (hhi : T + g.interval ≤ hi) :
    ∃ ans : Int → Except Exc (Option Int), Forward r ans ∧
      (∀ e : Env Trig, (∃ draw, e.next = Trig.next E tz draw) → e.now ≤ T → Regular (.interval g) r ans e) ∧
      ∀ u, u ≤ T → (Successor ans r u ↔
        ∃ k : Nat, u = r + k * g.interval ∧ ∀ j : Nat, 0 < j → j ≤ k → g.WithinEnd E tz (r + j * g.interval)) := by
  have hI := hv.1
  let ans : Int → Except Exc (Option Int) := fun p => if p ≤ T then Trig.next E tz (fun _ => 0) 0 (.interval g) (some p) p else .ok none
  have hf : Forward r ans := by
    intro p q hp hq
    simp only [ans] at hq
    split at hq
    · rcases interval_calm hS tz g hv hj hst p (by omega) (by omega) (fun _ => 0) 0 p with ⟨_, h2⟩ | ⟨_, h2⟩ <;> rw [h2] at hq <;> cases hq
      omega
    · cases hq
  have hreg : ∀ e : Env Trig, (∃ draw, e.next = Trig.next E tz draw) → e.now ≤ T → Regular (.interval g) r ans e := by
    rintro e ⟨draw, he⟩ hn site p h1 h2
    simp only [ans, if_pos (show p ≤ T by omega), he]
    rcases interval_calm hS tz g hv hj hst p (by omega) (by omega) (fun _ => 0) 0 p with ⟨h3, h4⟩ | ⟨h3, h4⟩ <;>
      rcases interval_calm hS tz g hv hj hst p (by omega) (by omega) draw site e.now with ⟨h5, h6⟩ | ⟨h5, h6⟩
    · rw [h4, h6]
    · exact absurd h3 h5
    · exact absurd h5 h3
    · rw [h4, h6]
  have hsucc : ∀ u, u ≤ T → (Successor ans r u ↔
      ∃ k : Nat, u = r + k * g.interval ∧ ∀ j : Nat, 0 < j → j ≤ k → g.WithinEnd E tz (r + j * g.interval)) := by
    suffices H : ∀ b, lo ≤ b → ∀ u, u ≤ T → (Successor ans b u ↔
      ∃ k : Nat, u = b + k * g.interval ∧ ∀ j : Nat, 0 < j → j ≤ k → g.WithinEnd E tz (b + j * g.interval)) from H r hlo
    intro b hb u hu
    constructor
    · rintro ⟨l, h⟩
      induction l generalizing b with
      | nil => cases h; exact ⟨0, by simp, fun j h1 h2 => by omega⟩
      | cons b' l ih =>
        have hbr : b' = b := by cases h; rfl
        subst hbr
        cases h with
        | cons e h =>
          simp only [ans] at e
          split at e
          · rcases interval_calm hS tz g hv hj hst b' hb (by omega) (fun _ => 0) 0 b' with ⟨h1, h2⟩ | ⟨h1, h2⟩
            · rw [h2] at e
              cases e
              obtain ⟨k, hk, hj⟩ := ih _ (by omega) h
              refine ⟨k + 1, by rw [hk]; push_cast; rw [Int.add_mul]; omega, fun j h3 h4 => ?_⟩
              cases j with
              | zero => omega
              | succ j =>
                have hc : b' + ((j + 1 : Nat) : Int) * g.interval = b' + g.interval + j * g.interval := by push_cast; rw [Int.add_mul]; omega
                rw [hc]
                cases j with
                | zero => simpa using h1
                | succ j => exact hj (j + 1) (by omega) (by omega)
            · rw [h2] at e
              cases e
              cases h
          · cases e; cases h
    · rintro ⟨k, hk, hj'⟩
      induction k generalizing b with
      | zero => exact ⟨[], by simp at hk; rw [hk]; exact .nil _⟩
      | succ k ih =>
        have h1 := hj' 1 (by omega) (by omega)
        rw [show ((1 : Nat) : Int) = 1 from rfl, Int.one_mul] at h1
        have hk' : u = b + g.interval + k * g.interval := by rw [hk]; push_cast; rw [Int.add_mul]; omega
        have hkI : 0 ≤ (k : Int) * g.interval := Int.mul_nonneg (by omega) (by omega)
        rcases interval_calm hS tz g hv hj hst b hb (by omega) (fun _ => 0) 0 b with ⟨_, h2⟩ | ⟨h3, _⟩
        · obtain ⟨l, hl⟩ := ih (b + g.interval) (by omega) hk' (fun j h3 h4 => by
            have := hj' (j + 1) (by omega) (by omega)
            have hc : b + ((j + 1 : Nat) : Int) * g.interval = b + g.interval + j * g.interval := by push_cast; rw [Int.add_mul]; omega
            rw [hc] at this
            exact this)
          exact ⟨b :: l, .cons (by simp only [ans, if_pos (show b ≤ T by omega)]; exact h2) hl⟩
        · exact absurd h1 h3
  exact ⟨ans, hf, hreg, hsucc⟩

/-- **C117** (interval triggers, any time zones): a task that runs every `interval`, without jitter, does not coalesce and has room
for its instances; from its next run `r` to one interval after the latest pass `T`, complete or not, no clock is changed.  Whatever
the deaths, each of `r`, `r + interval`, ... up to the latest completed pass (and the end date) was handed to the executor, at least
once and at most `1 + deaths` times, and nothing else was. -/
theorem C117_calm_interval (hS : E.Steady lo hi) (tz : Nat) (L : LawfulStore O) (c : Cfg Trig)
    (a i : String) (s s' : State σ Trig φ) (hw : WF L s) (t : T Trig φ) (ht : entry O s a i = some t) (g : Interval)
    (hg : t.body.trigger = .interval g) (hv : g.Valid) (hj : g.jitter = none) (hco : t.body.coalesce = false)
    (hst : ∀ s, g.stopDt tz = some s → s.Clear E lo hi) (r : Int) (hr : t.nrt = some r) (hlo : lo ≤ r)
    (seen : List Seen) (T : Int) (hT : ∀ p ∈ seen, p.now ≤ T) (hhi : T + g.interval ≤ hi)
    (h : Recovered L c (fun e => ∃ draw, e.next = Trig.next E tz draw) (fun s => count s i < t.body.maxInst) a i t.body.executor s seen s') :
    (∀ u, (handedOver a i seen).count u ≤ 1 + deaths seen) ∧
    (∀ u ∈ handedOver a i seen, u ≤ T ∧ ∃ k : Nat, u = r + k * g.interval ∧ ∀ j : Nat, 0 < j → j ≤ k → g.WithinEnd E tz (r + j * g.interval)) ∧
    ∀ k : Nat, (∀ j : Nat, 0 < j → j ≤ k → g.WithinEnd E tz (r + j * g.interval)) →
      (∃ p ∈ seen, p.complete = true ∧ r + k * g.interval ≤ p.now) → r + k * g.interval ∈ handedOver a i seen := by
  obtain ⟨ans, hf, hreg, hsucc⟩ := interval_calm_ans hS tz g hv hj hst r hlo T hhi
  rw [← hg] at hreg
  obtain ⟨k1, k2, k3, _⟩ := C117_recovery L c _ a i s s' hw t ht r hr r (Int.le_refl _) hf seen (h.until hT hreg)
  have hle : ∀ u, (∃ p ∈ seen, u ≤ p.now) → u ≤ T := by
    rintro u ⟨p, hp, hu⟩
    have := hT p hp
    omega
  refine ⟨k1, fun u hu => ?_, fun k hk hp => ?_⟩
  · obtain ⟨h1, h2⟩ := k2 u hu
    exact ⟨hle u h2, (hsucc u (hle u h2)).1 h1⟩
  · obtain ⟨p, hp1, hp2, hp3⟩ := hp
    have := k3 (fun _ h => h) _ ((hsucc _ (hle _ ⟨p, hp1, hp3⟩)).2 ⟨k, rfl, hk⟩) ⟨p, hp1, hp2, hp3⟩
    rw [hco] at this
    simpa using this

/-! ## Cron triggers -/

/-- the same for a cron trigger, if no clock is changed until some matching time after `T` -/
theorem cron_calm_ans (hS : E.Steady lo hi) (tz : Nat) (g : Cron.Trig) (hwf : g.WfAll) (hj : g.jitter = none)
    (hE : (E (g.zone tz)).Lawful) (hcal : 0 ≤ ((E (g.zone tz)).loc lo).1) (hst : ∀ s, g.stopDt tz = some s → s.Clear E lo hi)
    (r : Int) (hlo : lo ≤ r) (T : Int)
    (v : Int) (hv : Cron.FiresAt g.exprs (E (g.zone tz)) v) (hTv : T < v) (hvhi : v ≤ hi) (hve : g.WithinEnd E tz v) :
    ∃ ans : Int → Except Exc (Option Int), Forward r ans ∧
      (∀ e : Env Trig, (∃ draw, e.next = Trig.next E tz draw) → e.now ≤ T → Regular (.cron g) r ans e) ∧
      ∀ u, u ≤ T → (Successor ans r u ↔ u = r ∨ r < u ∧ Cron.FiresAt g.exprs (E (g.zone tz)) u) := by
  have step := cron_calm hS tz g hwf hj hE hcal hst v hv hvhi hve
  let ans : Int → Except Exc (Option Int) := fun p =>
    if r ≤ p ∧ p ≤ T then Trig.next E tz (fun _ => 0) 0 (.cron g) (some p) p else .error .attributeError
  have hans : ∀ b, r ≤ b → b ≤ T → ∃ n, ans b = .ok (some n) ∧ b < n ∧ Cron.FiresAt g.exprs (E (g.zone tz)) n ∧
      ∀ u, Cron.FiresAt g.exprs (E (g.zone tz)) u → b < u → n ≤ u := by
    intro b h1 h2
    obtain ⟨n, h3, _, _, h5, h6, h7⟩ := step b b (by omega) (Int.le_refl _) (by omega) (fun _ => 0) 0
    exact ⟨n, by simp only [ans, if_pos (And.intro h1 h2)]; exact h3, h6, h5, h7⟩
  have hf : Forward r ans := by
    intro p q hp hq
    by_cases hpT : p ≤ T
    · obtain ⟨n, h1, h2, _⟩ := hans p hp hpT
      rw [h1] at hq; cases hq; exact h2
    · simp only [ans, if_neg (show ¬ (r ≤ p ∧ p ≤ T) by omega)] at hq
      cases hq
  have hreg : ∀ e : Env Trig, (∃ draw, e.next = Trig.next E tz draw) → e.now ≤ T → Regular (.cron g) r ans e := by
    rintro e ⟨draw, he⟩ hn site p h1 h2
    obtain ⟨n, h3, h4, h5, h6⟩ := hans p h1 (by omega)
    obtain ⟨n', h3', _, _, h5', h6', h7'⟩ := step p e.now (by omega) h2 (by omega) draw site
    rw [he, h3, h3']
    have := h6 n' h5' h6'
    have := h7' n h5 h4
    rw [show n = n' by omega]
  have hsucc : ∀ u, u ≤ T → (Successor ans r u ↔ u = r ∨ r < u ∧ Cron.FiresAt g.exprs (E (g.zone tz)) u) := by
    suffices H : ∀ b, r ≤ b → ∀ u, u ≤ T → (Successor ans b u ↔ u = b ∨ b < u ∧ Cron.FiresAt g.exprs (E (g.zone tz)) u) from
      H r (Int.le_refl _)
    intro b hb u hu
    constructor
    · rintro ⟨l, h⟩
      induction l generalizing b with
      | nil => cases h; exact .inl rfl
      | cons b' l ih =>
        have hbr : b' = b := by cases h; rfl
        subst hbr
        cases h with
        | cons e h =>
          by_cases hbT : b' ≤ T
          · obtain ⟨n, h1, h2, h3, _⟩ := hans b' hb hbT
            rw [h1] at e
            cases e
            rcases ih n (by omega) h with rfl | ⟨k1, k2⟩
            · exact .inr ⟨h2, h3⟩
            · exact .inr ⟨by omega, k2⟩
          · simp only [ans, if_neg (show ¬ (r ≤ b' ∧ b' ≤ T) by omega)] at e
            cases e
    · intro h
      suffices H : ∀ (k : Nat) (b : Int), r ≤ b → (u - b).toNat = k →
          (u = b ∨ b < u ∧ Cron.FiresAt g.exprs (E (g.zone tz)) u) → Successor ans b u from H _ b hb rfl h
      intro k
      induction k using Nat.strongRecOn with
      | _ k ih =>
        intro b hb hk h
        rcases h with rfl | ⟨h1, h2⟩
        · exact ⟨[], .nil _⟩
        · obtain ⟨n, k1, k2, k3, k4⟩ := hans b hb (by omega)
          have hle := k4 u h2 h1
          obtain ⟨l, hl⟩ := ih (u - n).toNat (by omega) n (by omega) rfl
            (if hu : u = n then .inl hu else .inr ⟨by omega, h2⟩)
          exact ⟨b :: l, .cons k1 hl⟩
  exact ⟨ans, hf, hreg, hsucc⟩

/-- **C117** (cron triggers, any time zones): a task with a cron trigger without jitter that does not coalesce and has room for its
instances; from its next run `r` to some matching time `v` after the latest pass `T`, complete or not (and not after the end date), no
clock is changed.  Whatever the deaths, `r` and each matching time of the calendar after it, up to the latest completed pass, was
handed to the executor, at least once and at most `1 + deaths` times, and nothing else was. -/
theorem C117_calm_cron (hS : E.Steady lo hi) (tz : Nat) (L : LawfulStore O) (c : Cfg Trig)
    (a i : String) (s s' : State σ Trig φ) (hw : WF L s) (t : T Trig φ) (ht : entry O s a i = some t) (g : Cron.Trig)
    (hg : t.body.trigger = .cron g) (hwf : g.WfAll) (hj : g.jitter = none) (hco : t.body.coalesce = false)
    (hE : (E (g.zone tz)).Lawful) (hcal : 0 ≤ ((E (g.zone tz)).loc lo).1) (hst : ∀ s, g.stopDt tz = some s → s.Clear E lo hi)
    (r : Int) (hr : t.nrt = some r) (hlo : lo ≤ r) (seen : List Seen) (T : Int) (hT : ∀ p ∈ seen, p.now ≤ T)
    (v : Int) (hv : Cron.FiresAt g.exprs (E (g.zone tz)) v) (hTv : T < v) (hvhi : v ≤ hi) (hve : g.WithinEnd E tz v)
    (h : Recovered L c (fun e => ∃ draw, e.next = Trig.next E tz draw) (fun s => count s i < t.body.maxInst) a i t.body.executor s seen s') :
    (∀ u, (handedOver a i seen).count u ≤ 1 + deaths seen) ∧
    (∀ u ∈ handedOver a i seen, u ≤ T ∧ (u = r ∨ r < u ∧ Cron.FiresAt g.exprs (E (g.zone tz)) u)) ∧
    ∀ u, (u = r ∨ r < u ∧ Cron.FiresAt g.exprs (E (g.zone tz)) u) →
      (∃ p ∈ seen, p.complete = true ∧ u ≤ p.now) → u ∈ handedOver a i seen := by
  obtain ⟨ans, hf, hreg, hsucc⟩ := cron_calm_ans hS tz g hwf hj hE hcal hst r hlo T v hv hTv hvhi hve
  rw [← hg] at hreg
  obtain ⟨k1, k2, k3, _⟩ := C117_recovery L c _ a i s s' hw t ht r hr r (Int.le_refl _) hf seen (h.until hT hreg)
  have hle : ∀ u, (∃ p ∈ seen, u ≤ p.now) → u ≤ T := by
    rintro u ⟨p, hp, hu⟩
    have := hT p hp
    omega
  refine ⟨k1, fun u hu => ?_, fun u hu hp => ?_⟩
  · obtain ⟨h1, h2⟩ := k2 u hu
    exact ⟨hle u h2, (hsucc u (hle u h2)).1 h1⟩
  · obtain ⟨p, hp1, hp2, hp3⟩ := hp
    have := k3 (fun _ h => h) _ ((hsucc _ (hle _ ⟨p, hp1, hp3⟩)).2 hu) ⟨p, hp1, hp2, hp3⟩
    rw [hco] at this
    simpa using this

/-! ## On the five built-in stores -/

section
variable {φ : Type} {c : Persist.Codec (Body Trig φ)} {suffix : String} {cleanup : Bool} {E : TzEnv} {lo hi : Int}

/-- **C123, an interval task after crashes, in zones with clock changes** (C117), over a period in which no clock is changed. -/
theorem C123_recovered_calm_interval (hc : ∀ t, (c.enc t).isSome) (hS : E.Steady lo hi) (tz : Nat) (cfg : Cfg Trig)
    (a i : String) (s s' : State (AnyStore Trig φ) Trig φ) (hs : Consistent c suffix s) (hi' : Takes s a i) (t : T Trig φ)
    (ht : entry (builtinOps c suffix cleanup) s a i = some t) (g : Interval)
    (hg : t.body.trigger = .interval g) (hv : g.Valid) (hj : g.jitter = none) (hco : t.body.coalesce = false)
    (hst : ∀ s, g.stopDt tz = some s → s.Clear E lo hi) (r : Int) (hr : t.nrt = some r) (hlo : lo ≤ r)
    (seen : List Seen) (T : Int) (hT : ∀ p ∈ seen, p.now ≤ T) (hhi : T + g.interval ≤ hi)
    (h : RecoveredBy c suffix cleanup cfg (fun e => ∃ draw, e.next = Trig.next E tz draw) (fun s => count s i < t.body.maxInst) a i
      t.body.executor s seen s') :
    (∀ u, (handedOver a i seen).count u ≤ 1 + deaths seen) ∧
    (∀ u ∈ handedOver a i seen, u ≤ T ∧ ∃ k : Nat, u = r + k * g.interval ∧ ∀ j : Nat, 0 < j → j ≤ k → g.WithinEnd E tz (r + j * g.interval)) ∧
    ∀ k : Nat, (∀ j : Nat, 0 < j → j ≤ k → g.WithinEnd E tz (r + j * g.interval)) →
      (∃ p ∈ seen, p.complete = true ∧ r + k * g.interval ≤ p.now) → r + k * g.interval ∈ handedOver a i seen := by
  rw [agree_entry (builtin_agree c suffix cleanup hc) hi'] at ht
  exact C117_calm_interval hS tz _ cfg a i s s' ((consistent_iff hc).1 hs) t ht g hg hv hj hco hst r hr hlo seen T hT hhi
    (recoveredBy_ideal hc h hs hi')

/-- **C123, a cron task after crashes, in zones with clock changes** (C117), over a period in which no clock is changed. -/
theorem C123_recovered_calm_cron (hc : ∀ t, (c.enc t).isSome) (hS : E.Steady lo hi) (tz : Nat) (cfg : Cfg Trig)
    (a i : String) (s s' : State (AnyStore Trig φ) Trig φ) (hs : Consistent c suffix s) (hi' : Takes s a i) (t : T Trig φ)
    (ht : entry (builtinOps c suffix cleanup) s a i = some t) (g : Cron.Trig)
    (hg : t.body.trigger = .cron g) (hwf : g.WfAll) (hj : g.jitter = none) (hco : t.body.coalesce = false)
    (hE : (E (g.zone tz)).Lawful) (hcal : 0 ≤ ((E (g.zone tz)).loc lo).1) (hst : ∀ s, g.stopDt tz = some s → s.Clear E lo hi)
    (r : Int) (hr : t.nrt = some r) (hlo : lo ≤ r) (seen : List Seen) (T : Int) (hT : ∀ p ∈ seen, p.now ≤ T)
    (v : Int) (hv : Cron.FiresAt g.exprs (E (g.zone tz)) v) (hTv : T < v) (hvhi : v ≤ hi) (hve : g.WithinEnd E tz v)
    (h : RecoveredBy c suffix cleanup cfg (fun e => ∃ draw, e.next = Trig.next E tz draw) (fun s => count s i < t.body.maxInst) a i
      t.body.executor s seen s') :
    (∀ u, (handedOver a i seen).count u ≤ 1 + deaths seen) ∧
    (∀ u ∈ handedOver a i seen, u ≤ T ∧ (u = r ∨ r < u ∧ Cron.FiresAt g.exprs (E (g.zone tz)) u)) ∧
    ∀ u, (u = r ∨ r < u ∧ Cron.FiresAt g.exprs (E (g.zone tz)) u) →
      (∃ p ∈ seen, p.complete = true ∧ u ≤ p.now) → u ∈ handedOver a i seen := by
  rw [agree_entry (builtin_agree c suffix cleanup hc) hi'] at ht
  exact C117_calm_cron hS tz _ cfg a i s s' ((consistent_iff hc).1 hs) t ht g hg hwf hj hco hE hcal hst r hr hlo seen T hT v hv hTv hvhi hve
    (recoveredBy_ideal hc h hs hi')

end

/-! ## Examples -/

-- the hypotheses are met (`exLives_recovered` for `exSpring`; from midnight to 1:59:59 no clock is changed, `exSpring_steady`):
-- a task every 10 s, next at 00:00:05; killed at 7 s after handing over the run of 5 s, at 30 s before anything, a pass at 36 s
def exSpringTick : State (Memory.Store (Body Trig Unit)) Trig Unit :=
  { exTrigState with stores := [("s", Memory.after [.add ⟨"tick", some (day 5), ⟨.interval exEvery, "default", "s", false, 3, none, false, ()⟩⟩])] }
example : (exLives exSpring exTrigCfg [(day 7, some ⟨0, 0, true⟩), (day 30, some ⟨0, 0, false⟩), (day 36, none)] exSpringTick).map (fun p =>
      (handedOver "s" "tick" p.1, deaths p.1, (entry Memory.ops p.2 "s" "tick").map (·.nrt))) =
    some ([day 5, day 5, day 15, day 25, day 35], 2, some (some (day 45))) := by decide +kernel
example : (exLives exSpring exTrigCfg [(day 40, some ⟨0, 0, true⟩), (day 100, some ⟨0, 0, false⟩), (day 130, none)] exHalfState).map (fun p =>
      (handedOver "s" "tick" p.1, deaths p.1, (entry Memory.ops p.2 "s" "tick").map (·.nrt))) =
    some ([day 30, day 30, day 90], 2, some (some (day 150))) := by decide +kernel

end Sched
end Asyncz
