import Verif.Props.AddToRun
import Verif.Props.Steady
/-!
# C121: between two changes of the clocks

`Props/EndToEnd.lean` and `Props/AddToRun.lean` follow tasks in zones of constant offset.  Here the zones are arbitrary, and the
time from the first run to the one after the latest pass is a period without a change of the clocks (`Spec/Steady.lean`).
-/
namespace Asyncz
namespace Sched

variable {σ φ : Type} {O : StoreOps σ (Body Trig φ)} {E : TzEnv} {lo hi : Int}

theorem Served.until {τ : Type} {O : StoreOps σ (Body τ φ)} {L : LawfulStore O} {c : Cfg τ} {G : Env τ → Prop} {a i x : String} {s s' : State σ τ φ} {ps : List (Int × List Obs)}
    {T : Int} (h : Served L c G a i x s ps s') (hT : ∀ p ∈ ps, p.1 ≤ T) : Served L c (fun e => G e ∧ e.now ≤ T) a i x s ps s' := by
  induction h with
  | done s => exact .done s
  | pass hm hg hl hx h hlog _ ih => exact .pass hm ⟨hg, hT _ (List.mem_cons_self ..)⟩ hl hx h hlog (ih fun p hp => hT p (List.mem_cons_of_mem _ hp))
  | other hw he _ ih => exact .other hw he (ih hT)

/-- what the passes report are the successive answers, up to the latest pass -/
theorem regular_reported (L : LawfulStore O) (c : Cfg Trig) (a i : String) (s s' : State σ Trig φ) (hw : WF L s) (t : T Trig φ)
    (ht : entry O s a i = some t) (hco : t.body.coalesce = false) (r : Int) (hr : t.nrt = some r)
    (passes : List (Int × List Obs)) (T : Int) (hT : Latest passes T) (tz : Nat)
    (h : Served L c (fun e => ∃ draw, e.next = Trig.next E tz draw) a i t.body.executor s passes s')
    (ans : Int → Except Exc (Option Int)) (hf : Forward r ans)
    (hreg : ∀ e : Env Trig, (∃ draw, e.next = Trig.next E tz draw) → e.now ≤ T → Regular t.body.trigger r ans e) :
    (∃ after, Answered ans (some r) (reported a i passes) after ∧ (∀ x ∈ reported a i passes, x ≤ T) ∧ ∀ q, after = some q → T < q) ∧
    (NeverFull a i passes → executed a i passes = reported a i passes) := by
  obtain ⟨gs, after, k1, k2, k3, k4, k5, k6, k7⟩ := C83_none_lost L c a i s s' hw t ht r hr r (Int.le_refl _) hf passes
    ((h.until hT.2).mono fun e he => hreg e he.1 he.2)
  rw [hco] at k5 k6
  obtain ⟨e1, e2⟩ := reported_eq k5 k6
  rw [e1]
  refine ⟨⟨after, k1, fun x hx => ?_, fun q hq => ?_⟩, e2⟩
  · obtain ⟨p, hp, hx⟩ := k4 x hx
    have := hT.2 p hp
    omega
  · obtain ⟨p, hp, hpT⟩ := hT.1
    have := k3 p hp q hq
    omega

/-! ## Interval triggers -/

theorem interval_calm (hS : E.Steady lo hi) (tz : Nat) (g : Interval) (hv : g.Valid) (hj : g.jitter = none)
    (hst : ∀ s, g.stopDt tz = some s → s.Clear E lo hi) (q : Int) (hlo : lo ≤ q) (hhi : q + g.interval ≤ hi) (draw : Nat → Int) (site : Nat) (now : Int) :
    (g.WithinEnd E tz (q + g.interval) ∧ Trig.next E tz draw site (.interval g) (some q) now = .ok (some (q + g.interval))) ∨
    (¬ g.WithinEnd E tz (q + g.interval) ∧ Trig.next E tz draw site (.interval g) (some q) now = .ok none) := by
  have hI := hv.1
  obtain ⟨q1, q2⟩ := Dt.ofInst_in hS tz (u := q) (by omega) (by omega)
  have hC : g.Calm E tz (some (Dt.ofInst E tz q)) (Dt.ofInst E tz now) lo hi :=
    ⟨by simp, fun p hp => by
      cases hp
      refine ⟨q1, ?_⟩
      rw [hj, q2]; simp only [Option.getD_none, secs]; omega, hst⟩
  rcases Interval.C12_interval_step_calm_partial hS g hv hj tz (Dt.ofInst E tz q) (Dt.ofInst E tz now) (draw site) hC with
    ⟨hwe, d, hq, hq', _⟩ | ⟨hwe, hq⟩
  · rw [q2] at hq' hwe
    exact .inl ⟨hwe, by simp only [Trig.next, Option.map_some, hq, toInst, hq']⟩
  · rw [q2] at hwe
    exact .inr ⟨hwe, by simp only [Trig.next, Option.map_some, hq, toInst, Option.map_none]⟩

/-- **C121** (interval triggers): in any time zones, a task that runs every `interval`, without jitter, and does not coalesce; from
its next run `r` to one interval after the latest pass `T` no clock is changed.  The run times reported by the passes are exactly
`r`, `r + interval`, ... up to `T` (and up to the end date), each once and in order; and if there were never too many instances,
these are the run times that the executor got. -/
theorem C121_interval (hS : E.Steady lo hi) (tz : Nat) (L : LawfulStore O) (c : Cfg Trig)
    (a i : String) (s s' : State σ Trig φ) (hw : WF L s) (t : T Trig φ) (ht : entry O s a i = some t) (g : Interval)
    (hg : t.body.trigger = .interval g) (hv : g.Valid) (hj : g.jitter = none) (hco : t.body.coalesce = false)
    (hst : ∀ s, g.stopDt tz = some s → s.Clear E lo hi)
    (r : Int) (hr : t.nrt = some r) (hlo : lo ≤ r) (passes : List (Int × List Obs)) (T : Int) (hT : Latest passes T) (hhi : T + g.interval ≤ hi)
    (h : Served L c (fun e => ∃ draw, e.next = Trig.next E tz draw) a i t.body.executor s passes s') :
    ∃ n : Nat, reported a i passes = (List.range n).map (fun k : Nat => r + k * g.interval) ∧
      (∀ k : Nat, k < n ↔ r + k * g.interval ≤ T ∧ ∀ j : Nat, 0 < j → j ≤ k → g.WithinEnd E tz (r + j * g.interval)) ∧
      (NeverFull a i passes → executed a i passes = reported a i passes) := by
  have hI := hv.1
  let ans : Int → Except Exc (Option Int) := fun p => if p ≤ T then Trig.next E tz (fun _ => 0) 0 (.interval g) (some p) p else .ok none
  have hf : Forward r ans := by
    intro p q hp hq
    simp only [ans] at hq
    split at hq
    · rcases interval_calm hS tz g hv hj hst p (by omega) (by omega) (fun _ => 0) 0 p with ⟨_, h2⟩ | ⟨_, h2⟩ <;> rw [h2] at hq <;> cases hq
      omega
    · cases hq
  have hreg : ∀ e : Env Trig, (∃ draw, e.next = Trig.next E tz draw) → e.now ≤ T → Regular t.body.trigger r ans e := by
    rintro e ⟨draw, he⟩ hn site p h1 h2
    simp only [ans, if_pos (show p ≤ T by omega), he, hg]
    rcases interval_calm hS tz g hv hj hst p (by omega) (by omega) (fun _ => 0) 0 p with ⟨h3, h4⟩ | ⟨h3, h4⟩ <;>
      rcases interval_calm hS tz g hv hj hst p (by omega) (by omega) draw site e.now with ⟨h5, h6⟩ | ⟨h5, h6⟩
    · rw [h4, h6]
    · exact absurd h3 h5
    · exact absurd h5 h3
    · rw [h4, h6]
  obtain ⟨⟨after, k1, k2, k3⟩, k4⟩ := regular_reported L c a i s s' hw t ht hco r hr passes T hT tz h ans hf hreg
  have hrt := answered_runTimes (e := envAt E tz T) (hreg (envAt E tz T) ⟨_, rfl⟩ (Int.le_refl _)) hf k1 (fun q hq => by cases hq; omega)
    (fun x hx => k2 x hx) (fun q hq => k3 q hq)
  rw [hg] at hrt
  obtain ⟨n, h1, h2⟩ := C24_interval_run_times_calm_partial hS tz (fun _ => 0) g hv hj hst (envAt E tz T) rfl _ r hlo hhi _ hrt
  exact ⟨n, h1, h2, k4⟩

/-! ## Cron triggers -/

theorem cron_calm (hS : E.Steady lo hi) (tz : Nat) (g : Cron.Trig) (hw : g.WfAll) (hj : g.jitter = none)
    (hE : (E (g.zone tz)).Lawful) (hy : 0 ≤ ((E (g.zone tz)).loc lo).1)
    (hst : ∀ s, g.stopDt tz = some s → s.Clear E lo hi) (v : Int) (hv : Cron.FiresAt g.exprs (E (g.zone tz)) v) (hvhi : v ≤ hi) (hve : g.WithinEnd E tz v)
    (q now : Int) (hlo : lo ≤ q) (hqn : q ≤ now) (hnv : now < v) (draw : Nat → Int) (site : Nat) :
    ∃ n, Trig.next E tz draw site (.cron g) (some q) now = .ok (some n) ∧ n ≤ v ∧ g.WithinEnd E tz n ∧ Cron.FiresAt g.exprs (E (g.zone tz)) n ∧
      q < n ∧ ∀ u, Cron.FiresAt g.exprs (E (g.zone tz)) u → q < u → n ≤ u := by
  obtain ⟨q1, q2⟩ := Dt.ofInst_in hS tz (u := q) (by omega) (by omega)
  obtain ⟨n1, n2⟩ := Dt.ofInst_in hS tz (u := now) (by omega) (by omega)
  have hC : Cron.Calm E g tz (some (Dt.ofInst E tz q)) (Dt.ofInst E tz now) lo hi :=
    ⟨n1, by simp, fun p hp => by cases hp; exact ⟨q1, by rw [q2]; omega⟩, hst⟩
  have hfrom : Cron.searchFrom E g tz (some (Dt.ofInst E tz q)) (Dt.ofInst E tz now) = q + 1 := by
    simp only [Cron.searchFrom, q2, n2, if_neg (show ¬ now < q by omega)]
  have hyw : 0 ≤ (Cron.startOf E g tz (some (Dt.ofInst E tz q)) (Dt.ofInst E tz now)).wall := by
    obtain ⟨hin, hfr⟩ := Cron.startOf_calm hS hC
    obtain ⟨c, hc, e1, s1, s2⟩ := hin.facts hS
    rw [Cron.startOf_tz] at hc
    rw [(hc lo (Int.le_refl _) (by omega)).1] at hy
    simp only [] at hy
    omega
  obtain ⟨x, hx⟩ := cron_total g hw tz hE (some (Dt.ofInst E tz q)) (Dt.ofInst E tz now) (draw site) hyw
  obtain ⟨d, rfl, h1, h2, h3⟩ := Cron.C18_cron_finds_calm_partial hS g hw hj tz hE _ _ (draw site) cronFuel hC hy x hx v hv (by rw [hfrom]; omega) hvhi hve
  rw [hfrom] at h3
  obtain ⟨h4, h5, h6⟩ := h3
  exact ⟨d.inst E, by simp only [Trig.next, Option.map_some, cronNext, hx, toInst], h1, h2, h4, by omega, fun u hu1 hu2 => h6 u hu1 (by omega)⟩

theorem cron_answered {F W : Int → Prop} {ans : Int → Except Exc (Option Int)} {T : Int}
    (hstep : ∀ q, q ≤ T → ∀ y, ans q = .ok y → ∃ n, y = some n ∧ W n ∧ F n ∧ q < n ∧ ∀ u, F u → q < u → n ≤ u) :
    ∀ (l : List Int) (r : Int) (after : Option Int), Answered ans (some r) l after → (∀ x ∈ l, x ≤ T) → (∀ q, after = some q → T < q) →
      l.Pairwise (· < ·) ∧ (∀ u ∈ l, r ≤ u) ∧ ∀ u, u ∈ l ↔ u ≤ T ∧ (u = r ∨ r < u ∧ F u ∧ W u) := by
  intro l
  induction l with
  | nil =>
    intro r after h h1 h2
    cases h
    have := h2 r rfl
    refine ⟨.nil, by simp, fun u => ?_⟩
    simp only [List.not_mem_nil, false_iff]
    rintro ⟨h3, rfl | ⟨h4, _⟩⟩ <;> omega
  | cons b l ih =>
    intro r after h h1 h2
    have hbr : b = r := by cases h; rfl
    subst hbr
    have hb := h1 b (List.mem_cons_self ..)
    cases h with
    | cons e h =>
      obtain ⟨n, rfl, k1, k2, k3, k4⟩ := hstep b hb _ e
      obtain ⟨i1, i2, i3⟩ := ih n after h (fun x hx => h1 x (List.mem_cons_of_mem _ hx)) h2
      refine ⟨List.pairwise_cons.2 ⟨fun u hu => by have := i2 u hu; omega, i1⟩, ?_, fun u => ?_⟩
      · intro u hu
        rcases List.mem_cons.1 hu with rfl | hu
        · omega
        · have := i2 u hu; omega
      · rw [List.mem_cons, i3]
        constructor
        · rintro (rfl | ⟨h3, rfl | ⟨h4, h5, h6⟩⟩)
          · exact ⟨hb, .inl rfl⟩
          · exact ⟨h3, .inr ⟨k3, k2, k1⟩⟩
          · exact ⟨h3, .inr ⟨by omega, h5, h6⟩⟩
        · rintro ⟨h3, rfl | ⟨h4, h5, h6⟩⟩
          · exact .inl rfl
          · have := k4 u h5 h4
            by_cases hun : u = n
            · exact .inr ⟨h3, .inl hun⟩
            · exact .inr ⟨h3, .inr ⟨by omega, h5, h6⟩⟩

/-- **C121** (cron triggers): in any time zones, a task with a cron trigger without jitter that does not coalesce; from its next run
`r` to some matching time `v` after the latest pass `T` (and not after the end date) no clock is changed.  The run times reported by
the passes are exactly `r` and the matching times of the calendar after it, up to `T`, each once and in order. -/
theorem C121_cron (hS : E.Steady lo hi) (tz : Nat) (L : LawfulStore O) (c : Cfg Trig)
    (a i : String) (s s' : State σ Trig φ) (hw : WF L s) (t : T Trig φ) (ht : entry O s a i = some t) (g : Cron.Trig)
    (hg : t.body.trigger = .cron g) (hwf : g.WfAll) (hj : g.jitter = none) (hco : t.body.coalesce = false)
    (hE : (E (g.zone tz)).Lawful) (hcal : 0 ≤ ((E (g.zone tz)).loc lo).1) (hst : ∀ s, g.stopDt tz = some s → s.Clear E lo hi)
    (r : Int) (hr : t.nrt = some r) (hlo : lo ≤ r) (passes : List (Int × List Obs)) (T : Int) (hT : Latest passes T)
    (v : Int) (hv : Cron.FiresAt g.exprs (E (g.zone tz)) v) (hTv : T < v) (hvhi : v ≤ hi) (hve : g.WithinEnd E tz v)
    (h : Served L c (fun e => ∃ draw, e.next = Trig.next E tz draw) a i t.body.executor s passes s') :
    (reported a i passes).Pairwise (· < ·) ∧
      (∀ u, u ∈ reported a i passes ↔ u ≤ T ∧ (u = r ∨ r < u ∧ Cron.FiresAt g.exprs (E (g.zone tz)) u)) ∧
      (NeverFull a i passes → executed a i passes = reported a i passes) := by
  have step := cron_calm hS tz g hwf hj hE hcal hst v hv hvhi hve
  let ans : Int → Except Exc (Option Int) := fun p =>
    if r ≤ p ∧ p ≤ T then Trig.next E tz (fun _ => 0) 0 (.cron g) (some p) p else .error .attributeError
  have hf : Forward r ans := by
    intro p q hp hq
    simp only [ans] at hq
    split at hq
    · obtain ⟨n, h1, h2, h3, h4, h5, h6⟩ := step p p (by omega) (Int.le_refl _) (by omega) (fun _ => 0) 0
      rw [h1] at hq; cases hq; exact h5
    · cases hq
  have hreg : ∀ e : Env Trig, (∃ draw, e.next = Trig.next E tz draw) → e.now ≤ T → Regular t.body.trigger r ans e := by
    rintro e ⟨draw, he⟩ hn site p h1 h2
    simp only [ans, if_pos (show r ≤ p ∧ p ≤ T by omega), he, hg]
    obtain ⟨n, h3, _, _, h5, h6, h7⟩ := step p p (by omega) (Int.le_refl _) (by omega) (fun _ => 0) 0
    obtain ⟨n', h3', _, _, h5', h6', h7'⟩ := step p e.now (by omega) h2 (by omega) draw site
    rw [h3, h3']
    have := h7 n' h5' h6'
    have := h7' n h5 h6
    rw [show n = n' by omega]
  obtain ⟨⟨after, k1, k2, k3⟩, k4⟩ := regular_reported L c a i s s' hw t ht hco r hr passes T hT tz h ans hf hreg
  obtain ⟨j1, _, j3⟩ := cron_answered (F := Cron.FiresAt g.exprs (E (g.zone tz))) (W := fun _ => True) (T := T) (fun q hq y hy => by
    simp only [ans] at hy
    split at hy
    · obtain ⟨n, h1, h2, h3, h4, h5, h6⟩ := step q q (by omega) (Int.le_refl _) (by omega) (fun _ => 0) 0
      rw [h1] at hy; cases hy
      exact ⟨n, rfl, trivial, h4, h5, h6⟩
    · cases hy) _ _ _ k1 k2 k3
  refine ⟨j1, fun u => ?_, k4⟩
  rw [j3]
  simp

/-! ## From `add_task` on -/

/-- **C121** (interval triggers, from `add_task` on): in any time zones, if the start date, the addition and the time to one interval
after the latest pass lie in a period without a change of the clocks, the run times reported are exactly the points of the grid
`start + k * interval` not before the addition, up to the latest pass and the end date. -/
theorem C121_added_interval (hS : E.Steady lo hi) (tz : Nat) (L : LawfulStore O) (c : Cfg Trig) (e : Env Trig)
    (he : ∃ draw, e.next = Trig.next E tz draw) (s1 s' : State σ Trig φ) (t : T Trig φ)
    (ht : t.nrt = none) (g : Interval) (hg : t.body.trigger = .interval g) (hv : g.Valid) (hj : g.jitter = none)
    (hco : t.body.coalesce = false) (hst : ∀ s, g.stopDt tz = some s → s.Clear E lo hi) (hstart : (g.startDt tz).In E lo hi)
    (hlo : lo ≤ e.now) (hnhi : e.now + g.interval ≤ hi)
    (hb : Begins L c e t s1) (passes : List (Int × List Obs)) (T : Int) (hT : Latest passes T) (hhi : T + g.interval ≤ hi)
    (h : Served L c (fun e => ∃ draw, e.next = Trig.next E tz draw) t.body.store t.id t.body.executor s1 passes s') :
    (reported t.body.store t.id passes).Pairwise (· < ·) ∧
    (∀ u, u ∈ reported t.body.store t.id passes ↔
      (∃ k : Nat, u = (g.startDt tz).inst E + k * g.interval) ∧ e.now ≤ u ∧ u ≤ T ∧ g.WithinEnd E tz u) ∧
    (NeverFull t.body.store t.id passes → executed t.body.store t.id passes = reported t.body.store t.id passes) := by
  obtain ⟨n, hn, hw1, hent⟩ := hb.first ht
  obtain ⟨draw, he⟩ := he
  have hI := hv.1
  obtain ⟨n1, hnow⟩ := Dt.ofInst_in hS tz (u := e.now) hlo (by omega)
  rw [he, hg] at hn
  simp only [Trig.next, Option.map_none] at hn
  obtain ⟨_, _, _, _, hs2⟩ := hstart.facts hS
  have hC : g.Calm E tz none (Dt.ofInst E tz e.now) lo hi :=
    ⟨fun _ => ⟨hstart, n1, by rw [hj]; simp only [Option.getD_none, secs]; omega, by rw [hj, hnow]; simp only [Option.getD_none, secs]; omega⟩,
      by simp, hst⟩
  obtain ⟨q, ⟨⟨k0, hk0⟩, hq1, hq2⟩, hq⟩ := Interval.C11_interval_first_run_calm_partial hS g hv hj tz (Dt.ofInst E tz e.now) (draw 2) hC
  rw [hnow] at hq1 hq2
  rcases hq with ⟨hin, r, hr, hri⟩ | ⟨hin, hr⟩
  · rw [hr] at hn
    simp only [toInst, Option.map_some, Except.ok.injEq] at hn
    subst hn
    rw [hri] at hent
    obtain ⟨m, h1, h2, h3⟩ := C121_interval hS tz L c t.body.store t.id s1 s' hw1
      { t with nrt := some q, body := { t.body with pending := false } } hent g hg hv hj hco hst q rfl (by omega) passes T hT hhi h
    refine ⟨?_, fun u => ?_, h3⟩
    · rw [h1, List.pairwise_map]
      refine List.Pairwise.imp ?_ List.pairwise_lt_range
      intro x y hxy
      have : (x : Int) * g.interval < (y : Int) * g.interval := Int.mul_lt_mul_of_pos_right (by omega) hI
      omega
    · rw [h1, List.mem_map]
      constructor
      · rintro ⟨k, hk, rfl⟩
        obtain ⟨ha, hb⟩ := (h2 k).mp (List.mem_range.mp hk)
        have hkI : 0 ≤ (k : Int) * g.interval := Int.mul_nonneg (by omega) (by omega)
        refine ⟨⟨k0 + k, ?_⟩, by omega, ha, ?_⟩
        · rw [hk0]; push_cast; rw [Int.add_mul]; omega
        · rcases Nat.eq_zero_or_pos k with rfl | hk
          · simpa using hin
          · exact hb k hk (Nat.le_refl _)
      · rintro ⟨⟨k, rfl⟩, hu1, hu2, hu3⟩
        have hle := hq2 k hu1
        rw [hk0] at hle
        have hkk : (k0 : Int) * g.interval ≤ (k : Int) * g.interval := by omega
        have hkk' : k0 ≤ k := by
          have := Int.le_of_mul_le_mul_right hkk hI
          omega
        obtain ⟨j, rfl⟩ := Nat.le.dest hkk'
        have hsum : q + (j : Int) * g.interval = (g.startDt tz).inst E + ((k0 + j : Nat) : Int) * g.interval := by
          rw [hk0]; push_cast; rw [Int.add_mul]; omega
        refine ⟨j, List.mem_range.mpr ((h2 j).mpr ⟨by omega, fun i _ hi st hst => ?_⟩), hsum⟩
        have h5 := hu3 st hst
        have : (i : Int) * g.interval ≤ (j : Int) * g.interval := Int.mul_le_mul_of_nonneg_right (by omega) (by omega)
        omega
  · rw [hr] at hn
    simp only [toInst, Option.map_none, Except.ok.injEq] at hn
    subst hn
    have hnil := reported_nil (h.idle hw1 (fun t' ht' => by rw [hent] at ht'; cases ht'; rfl))
    rw [hnil.1, hnil.2]
    refine ⟨.nil, fun u => ?_, fun _ => rfl⟩
    constructor
    · intro hu; cases hu
    · rintro ⟨⟨k, rfl⟩, hu1, hu2, hu3⟩
      exact absurd (fun st hst => Int.le_trans (hq2 k hu1) (hu3 st hst)) hin

/-- **C121** (cron triggers, from `add_task` on): in any time zones, if the addition, the start date (if there is one) and the time
to some matching time after the latest pass (and not after the end date) lie in a period without a change of the clocks, the run
times reported are exactly the matching times of the calendar not before the addition and the start date, up to the latest pass. -/
theorem C121_added_cron (hS : E.Steady lo hi) (tz : Nat) (L : LawfulStore O) (c : Cfg Trig) (e : Env Trig)
    (he : ∃ draw, e.next = Trig.next E tz draw) (s1 s' : State σ Trig φ) (t : T Trig φ)
    (ht : t.nrt = none) (g : Cron.Trig) (hg : t.body.trigger = .cron g) (hwf : g.WfAll) (hj : g.jitter = none)
    (hco : t.body.coalesce = false) (hE : (E (g.zone tz)).Lawful) (hcal : 0 ≤ ((E (g.zone tz)).loc lo).1)
    (hst : ∀ s, g.stopDt tz = some s → s.Clear E lo hi) (hstart : ∀ s, g.start = some s → (s.withTz (g.zone tz)).In E lo hi)
    (hlo : lo ≤ e.now) (hb : Begins L c e t s1) (passes : List (Int × List Obs)) (T : Int) (hT : Latest passes T) (v : Int)
    (hv : Cron.FiresAt g.exprs (E (g.zone tz)) v) (hTv : T < v) (hvhi : v ≤ hi) (hve : g.WithinEnd E tz v) (hnv : e.now ≤ v)
    (hsv : ∀ s, g.start = some s → (s.withTz (g.zone tz)).inst E ≤ v)
    (h : Served L c (fun e => ∃ draw, e.next = Trig.next E tz draw) t.body.store t.id t.body.executor s1 passes s') :
    (reported t.body.store t.id passes).Pairwise (· < ·) ∧
    (∀ u, u ∈ reported t.body.store t.id passes ↔
      Cron.FiresAt g.exprs (E (g.zone tz)) u ∧ e.now ≤ u ∧ (∀ st, g.start = some st → (st.withTz (g.zone tz)).inst E ≤ u) ∧ u ≤ T) ∧
    (NeverFull t.body.store t.id passes → executed t.body.store t.id passes = reported t.body.store t.id passes) := by
  obtain ⟨n, hn, hw1, hent⟩ := hb.first ht
  obtain ⟨draw, he⟩ := he
  obtain ⟨n1, hnow⟩ := Dt.ofInst_in hS tz (u := e.now) hlo (by omega)
  rw [he, hg] at hn
  simp only [Trig.next, Option.map_none, cronNext] at hn
  have hfrom : ∀ u, Cron.searchFrom E g tz none (Dt.ofInst E tz e.now) ≤ u ↔
      e.now ≤ u ∧ ∀ st, g.start = some st → (st.withTz (g.zone tz)).inst E ≤ u := by
    intro u
    simp only [Cron.searchFrom, hnow]
    cases hst : g.start with
    | none => simp
    | some st =>
      simp only [Option.some.injEq, forall_eq']
      omega
  have hC : Cron.Calm E g tz none (Dt.ofInst E tz e.now) lo hi := ⟨n1, fun _ => hstart, by simp, hst⟩
  have hy : 0 ≤ (Cron.startOf E g tz none (Dt.ofInst E tz e.now)).wall := by
    obtain ⟨hin, hfr⟩ := Cron.startOf_calm hS hC
    obtain ⟨c, hc, e1, s1, s2⟩ := hin.facts hS
    rw [Cron.startOf_tz] at hc
    rw [(hc lo (Int.le_refl _) (by omega)).1] at hcal
    simp only [] at hcal
    omega
  obtain ⟨x, hx⟩ := cron_total g hwf tz hE none (Dt.ofInst E tz e.now) (draw 2) hy
  rw [hx] at hn
  simp only at hn
  obtain ⟨r, rfl, h1, h2, hf1, hf2, hf3⟩ := Cron.C18_cron_finds_calm_partial hS g hwf hj tz hE _ _ (draw 2) cronFuel hC hcal x hx v hv
    ((hfrom v).2 ⟨hnv, hsv⟩) hvhi hve
  simp only [toInst, Option.map_some, Except.ok.injEq] at hn
  subst hn
  have hr2 := (hfrom _).mp hf2
  obtain ⟨k1, k2, k3⟩ := C121_cron hS tz L c t.body.store t.id s1 s' hw1
    { t with nrt := some (r.inst E), body := { t.body with pending := false } } hent g hg hwf hj hco hE hcal hst (r.inst E) rfl
    (by omega) passes T hT v hv hTv hvhi hve h
  refine ⟨k1, fun u => ?_, k3⟩
  rw [k2]
  constructor
  · rintro ⟨hu, rfl | ⟨hu1, hu2⟩⟩
    · exact ⟨hf1, hr2.1, hr2.2, hu⟩
    · exact ⟨hu2, by omega, fun st hst => by have := hr2.2 st hst; omega, hu⟩
  · rintro ⟨hu1, hu2, hu3, hu4⟩
    have := hf3 u hu1 ((hfrom u).mpr ⟨hu2, hu3⟩)
    refine ⟨hu4, ?_⟩
    rcases Int.lt_or_eq_of_le this with h | h
    · exact .inr ⟨h, hu1⟩
    · exact .inl h.symm

/-! ## Examples -/

/-- zones whose clocks go forward by one hour two hours after midnight of 2021-03-28 -/
def exSpring : TzEnv := fun _ => Zone.gap 0 (day 7200) (secs 3600)

/-- from midnight to 1:59:59 no clock is changed -/
theorem exSpring_steady : exSpring.Steady (day 0) (day 7199) := fun _ =>
  ⟨0, (gap_steady 0 (day 7200) (secs 3600) (day 0) (day 7199) (by decide)).2 (by decide +kernel)⟩

/-- the tasks of `Props/AddToRun.lean` in these zones, started at 7 s; passes at the times given -/
def exSpringRun (l : List Int) (i : String) : Option (List Int × List Int × Option (Option Int)) :=
  let r := start Memory.ops exTrigCfg (envAt exSpring 0 (day 7)) false (addAll Memory.ops (envAt exSpring 0 (day 0)) exThree State.init)
  if r.2 = .ok true then (exPasses exSpring exTrigCfg "default" l r.1).map fun p =>
    (reported "default" i p.1, executed "default" i p.1, (entry Memory.ops p.2 "default" i).map (·.nrt))
  else none

-- the hypotheses are met (`Begins.started`, `exPasses_served`, `exSpring_steady`; the matching time after the latest pass is 150 s)
example : exSpringRun [day 8, day 40, day 41, day 95] "tick" =
      some ([day 13, day 23, day 33, day 43, day 53, day 63, day 73, day 83, day 93],
        [day 13, day 23, day 33, day 43, day 53, day 63, day 73, day 83, day 93], some (some (day 103))) ∧
    exSpringRun [day 8, day 40, day 41, day 95] "half" = some ([day 30, day 90], [day 30, day 90], some (some (day 150))) := by
  refine ⟨?_, ?_⟩ <;> decide +kernel
example : Cron.FiresAt exHalf (exSpring 0) (day 150) := by
  refine ⟨by decide +kernel, fun f => ?_⟩
  cases f with
  | second => exact ⟨_, List.mem_cons_self .., by decide +kernel, by decide +kernel, ⟨0, by decide +kernel⟩, fun l hl => by cases hl; decide +kernel⟩
  | _ => exact ⟨.all none, List.mem_cons_self .., by decide +kernel, by decide +kernel, trivial⟩

end Sched
end Asyncz
