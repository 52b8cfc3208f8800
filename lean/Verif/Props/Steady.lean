import Verif.Spec.Steady
import Verif.Props.Cron
/-!
# The triggers in zones with daylight saving, away from the changes of the clocks
(C11, C12, C13, C15, C17, C18, C19, C22, C55)

The theorems of `Props/Trigger.lean` and `Props/Cron.lean` for zones with a constant offset hold in every
zone as long as the times involved lie in a period without a change of the clocks (`Spec/Steady.lean`).
Zones with a constant offset are the special case of an unlimited period (`steady_fixed`).
-/
namespace Asyncz

theorem steady_fixed {E : TzEnv} (hE : E.Fixed) (lo hi : Int) : E.Steady lo hi := fun z => by
  obtain ⟨c, hc⟩ := hE z
  exact ⟨c, fun u _ _ => by rw [hc]; exact ⟨rfl, fun _ => rfl⟩⟩

namespace Dt
variable {E : TzEnv} {lo hi : Int}

theorem In.facts (hS : E.Steady lo hi) {d : Dt} (hd : d.In E lo hi) :
    ∃ c, (E d.tz).Steady c lo hi ∧ d.inst E = d.wall - c ∧ lo ≤ d.inst E ∧ d.inst E ≤ hi := by
  obtain ⟨c, hc⟩ := hS d.tz
  obtain ⟨u, h1, h2, h3⟩ := hd
  obtain ⟨h4, h5⟩ := hc u h1 h2
  rw [h4] at h3
  have : d.inst E = u := by simp only [inst, h3, h5]; omega
  refine ⟨c, hc, ?_, by omega, by omega⟩
  simp only [] at h3
  omega

theorem in_of {z : Nat} {c : Int} (hc : (E z).Steady c lo hi) {d : Dt} (hz : d.tz = z)
    (h1 : lo + c ≤ d.wall) (h2 : d.wall ≤ hi + c) : d.In E lo hi := by
  refine ⟨d.wall - c, by omega, by omega, ?_⟩
  rw [hz, (hc (d.wall - c) (by omega) (by omega)).1]
  simp only []; omega

/-- the offset of a zone in a non-empty period is determined -/
theorem steady_unique {z : Zone} {c c' lo hi : Int} (h : z.Steady c lo hi) (h' : z.Steady c' lo hi) (hne : lo ≤ hi) :
    c = c' := by
  have h1 := (h lo (Int.le_refl _) hne).1
  rw [(h' lo (Int.le_refl _) hne).1] at h1
  simp only [Prod.mk.injEq] at h1
  omega

/-- In the period, the times of one zone differ from their instants by one and the same offset. -/
theorem In.same (hS : E.Steady lo hi) {a b : Dt} (ha : a.In E lo hi) (hb : b.In E lo hi) (hz : a.tz = b.tz) :
    a.wall - a.inst E = b.wall - b.inst E := by
  obtain ⟨c, hc, h1, h2, h3⟩ := ha.facts hS
  obtain ⟨c', hc', h1', _, _⟩ := hb.facts hS
  rw [hz] at hc
  have := steady_unique hc hc' (by omega)
  omega

theorem lt_in (hS : E.Steady lo hi) {a b : Dt} (ha : a.In E lo hi) (hb : b.In E lo hi) :
    lt E a b = decide (a.inst E < b.inst E) := by
  simp only [lt]
  split
  · rename_i hz
    have := ha.same hS hb hz
    congr 1
    apply propext
    omega
  · rfl

theorem eq_in (hS : E.Steady lo hi) {a b : Dt} (ha : a.In E lo hi) (hb : b.In E lo hi) :
    eq E a b = decide (a.inst E = b.inst E) := by
  simp only [eq]
  split
  · rename_i hz
    have := ha.same hS hb hz
    congr 1
    apply propext
    omega
  · rfl

theorem sub_in (hS : E.Steady lo hi) {a b : Dt} (ha : a.In E lo hi) (hb : b.In E lo hi) :
    sub E a b = a.inst E - b.inst E := by
  simp only [sub]
  split
  · rename_i hz
    have := ha.same hS hb hz
    omega
  · rfl

theorem In.shown (hS : E.Steady lo hi) {a : Dt} (ha : a.In E lo hi) :
    ((E a.tz).loc (a.inst E)).1 = a.wall ∧ ((E a.tz).loc (a.inst E)).2 = false := by
  obtain ⟨c, hc, h1, h2, h3⟩ := ha.facts hS
  rw [(hc _ h2 h3).1]
  exact ⟨by simp only []; omega, rfl⟩

/-- comparison with a date that is clear of the borders of the period -/
theorem clear_cases (hS : E.Steady lo hi) {a s : Dt} (ha : a.In E lo hi) (hs : s.Clear E lo hi) (hz : a.tz = s.tz) :
    (a.wall ≤ s.wall ↔ a.inst E ≤ s.inst E) ∧ (s.wall < a.wall ↔ s.inst E < a.inst E) := by
  obtain ⟨c, hc, h1, h2, h3⟩ := ha.facts hS
  have hsh := (ha.shown hS).1
  rw [hz] at hsh
  rcases hs with hs | ⟨hs1, hs2⟩ | ⟨hs1, hs2⟩
  · have := ha.same hS hs hz
    omega
  · have := hs2 _ h2 h3
    omega
  · have := hs2 _ h2 h3
    omega

theorem le_clear (hS : E.Steady lo hi) {a s : Dt} (ha : a.In E lo hi) (hs : s.Clear E lo hi) :
    le E a s = decide (a.inst E ≤ s.inst E) := by
  simp only [le]
  split
  · rename_i hz
    have := (clear_cases hS ha hs hz).1
    congr 1
    exact propext this
  · rfl

theorem lt_clear (hS : E.Steady lo hi) {a s : Dt} (ha : a.In E lo hi) (hs : s.Clear E lo hi) :
    lt E s a = decide (s.inst E < a.inst E) := by
  simp only [lt]
  split
  · rename_i hz
    have := (clear_cases hS ha hs hz.symm).2
    congr 1
    exact propext this
  · rfl

theorem add_in (hS : E.Steady lo hi) {a : Dt} (ha : a.In E lo hi) {x : Int} (h0 : lo ≤ a.inst E + x)
    (h1 : a.inst E + x ≤ hi) : (a.add x).In E lo hi ∧ (a.add x).inst E = a.inst E + x := by
  obtain ⟨c, hc, e, h2, h3⟩ := ha.facts hS
  have hin : (a.add x).In E lo hi := in_of hc rfl (by simp only [add]; omega) (by simp only [add]; omega)
  obtain ⟨c', hc', e', _, _⟩ := hin.facts hS
  have := steady_unique hc hc' (by omega)
  refine ⟨hin, ?_⟩
  rw [e', e, ← this]
  simp only [add]
  omega

theorem ofInst_in (hS : E.Steady lo hi) (z : Nat) {u : Int} (h0 : lo ≤ u) (h1 : u ≤ hi) :
    (ofInst E z u).In E lo hi ∧ (ofInst E z u).inst E = u := by
  obtain ⟨c, hc⟩ := hS z
  obtain ⟨h2, h3⟩ := hc u h0 h1
  refine ⟨⟨u, h0, h1, rfl⟩, ?_⟩
  simp only [inst, ofInst, h2, h3]
  omega

theorem normalize_in (hS : E.Steady lo hi) {a : Dt} (ha : a.In E lo hi) :
    (a.normalize E).In E lo hi ∧ (a.normalize E).inst E = a.inst E := by
  obtain ⟨_, _, _, h2, h3⟩ := ha.facts hS
  exact ofInst_in hS a.tz h2 h3

end Dt

/-- After the clocks have gone forward, and up to just before, the zone is steady. -/
theorem gap_steady (a t g lo hi : Int) (hg : 0 ≤ g) :
    (t ≤ lo → (Zone.gap a t g).Steady (a + g) lo hi) ∧ (hi < t → (Zone.gap a t g).Steady a lo hi) := by
  constructor
  · intro h u h1 h2
    have e1 : ¬ u < t := by omega
    have e2 : ¬ u + (a + g) < t + a := by omega
    have e3 : ¬ u + (a + g) < t + a + g := by omega
    refine ⟨?_, fun f => ?_⟩
    · simp only [Zone.gap, if_neg e1, Prod.mk.injEq, and_true]; omega
    · simp only [Zone.gap, if_neg e2, if_neg e3]
  · intro h u h1 h2
    have e1 : u < t := by omega
    have e2 : u + a < t + a := by omega
    exact ⟨by simp only [Zone.gap, if_pos e1], fun f => by simp only [Zone.gap, if_pos e2]⟩

/-- After the repeated hour, and before it, the zone is steady. -/
theorem overlap_steady (a t g lo hi : Int) (hg : 0 ≤ g) :
    (t + g ≤ lo → (Zone.overlap a t g).Steady (a - g) lo hi) ∧ (hi < t - g → (Zone.overlap a t g).Steady a lo hi) := by
  constructor
  · intro h u h1 h2
    have e1 : ¬ u < t := by omega
    have e2 : ¬ u + (a - g) < t + a - g := by omega
    have e3 : ¬ u + (a - g) < t + a := by omega
    refine ⟨?_, fun f => ?_⟩
    · simp only [Zone.overlap, if_neg e1, Prod.mk.injEq, decide_eq_false_iff_not]; omega
    · simp only [Zone.overlap, if_neg e2, if_neg e3]
  · intro h u h1 h2
    have e1 : u < t := by omega
    have e2 : u + a < t + a - g := by omega
    exact ⟨by simp only [Zone.overlap, if_pos e1], fun f => by simp only [Zone.overlap, if_pos e2]⟩

/-- Random delays within the period. -/
theorem jitter_in {E : TzEnv} {lo hi : Int} (hS : E.Steady lo hi) {t : Dt} (ht : t.In E lo hi) {j : Option Int} {draw : Int}
    (hd : DrawOk j draw) (hhi : t.inst E + secs (j.getD 0) ≤ hi) :
    (applyJitter t j draw).In E lo hi ∧ t.inst E ≤ (applyJitter t j draw).inst E ∧
    (applyJitter t j draw).inst E ≤ t.inst E + secs (j.getD 0) ∧ (applyJitter t j draw).tz = t.tz := by
  obtain ⟨_, _, _, h2, h3⟩ := ht.facts hS
  cases j with
  | none =>
    simp only [applyJitter, Option.getD_none, secs]
    exact ⟨ht, by omega, by omega, trivial⟩
  | some j =>
    obtain ⟨d0, d1⟩ := hd j rfl
    simp only [applyJitter, Option.getD_some, secs] at hhi ⊢
    split
    · rename_i h0; subst h0
      exact ⟨ht, by omega, by omega, rfl⟩
    · obtain ⟨a, b⟩ := Dt.add_in hS ht (x := draw) (by omega) (by omega)
      exact ⟨a, by omega, by omega, rfl⟩

namespace Interval

/-- The call lies in the period: the times it is given do, one interval (and the jitter) later is still in it,
and the end date is clear of the period's borders. -/
structure Calm (E : TzEnv) (g : Interval) (tz : Nat) (prev : Option Dt) (now : Dt) (lo hi : Int) : Prop where
  first : prev = none → (g.startDt tz).In E lo hi ∧ now.In E lo hi ∧
    (g.startDt tz).inst E + secs (g.jitter.getD 0) ≤ hi ∧
    now.inst E + g.interval + secs (g.jitter.getD 0) ≤ hi
  later : ∀ p, prev = some p → p.In E lo hi ∧ p.inst E + g.interval + secs (g.jitter.getD 0) ≤ hi
  stop : ∀ s, g.stopDt tz = some s → s.Clear E lo hi

theorem drawOk_nonneg {j : Option Int} {draw : Int} (hd : DrawOk j draw) : 0 ≤ secs (j.getD 0) := by
  cases j with
  | none => simp [secs]
  | some j => have := hd j rfl; simp only [Option.getD_some, secs]; omega

/-- What is computed before jitter and the end date: by instants. -/
theorem base_calm {E : TzEnv} {lo hi : Int} (hS : E.Steady lo hi) {g : Interval} (hv : g.Valid) {tz : Nat}
    {prev : Option Dt} {now : Dt} (hC : g.Calm E tz prev now lo hi) {draw : Int} (hd : DrawOk g.jitter draw) :
    ∃ t, base E g tz prev now = .ok t ∧ t.In E lo hi ∧ t.inst E + secs (g.jitter.getD 0) ≤ hi ∧
      (prev = none → FirstOnGrid ((g.startDt tz).inst E) g.interval (now.inst E) (t.inst E)) ∧
      ∀ p, prev = some p → t.inst E = p.inst E + g.interval := by
  obtain ⟨hI, hsz⟩ := hv
  have hJ := drawOk_nonneg hd
  cases prev with
  | some p =>
    obtain ⟨hp, hh⟩ := hC.later p rfl
    obtain ⟨_, _, _, h2, h3⟩ := hp.facts hS
    obtain ⟨a, b⟩ := Dt.add_in hS hp (x := g.interval) (by omega) (by omega)
    exact ⟨_, rfl, a, by omega, by simp, fun q hq => by cases hq; exact b⟩
  | none =>
    obtain ⟨hs, hn, hh1, hh2⟩ := hC.first rfl
    obtain ⟨_, _, _, h2, h3⟩ := hs.facts hS
    by_cases hlt : now.inst E < (g.startDt tz).inst E
    · refine ⟨g.startDt tz, ?_, hs, hh1, fun _ => firstOnGrid_start hI (Int.le_of_lt hlt), by simp⟩
      simp only [base]
      rw [← startDt, Dt.lt_in hS hn hs]
      simp [hlt]
    · have hN : (g.startDt tz).inst E ≤ now.inst E := by omega
      have hg := firstOnGrid_ceil hI hN
      have hc1 := le_ceilDiv_mul (a := now.inst E - (g.startDt tz).inst E) hI
      have hc2 := ceilDiv_mul_lt (a := now.inst E - (g.startDt tz).inst E) hI
      obtain ⟨a, b⟩ := Dt.add_in hS hs
        (x := g.interval * ceilDiv (now.inst E - (g.startDt tz).inst E) g.interval) (by omega) (by omega)
      refine ⟨_, ?_, a, by omega, fun _ => by rw [b]; exact hg, by simp⟩
      simp only [base, hsz]
      rw [← startDt, Dt.lt_in hS hn hs, Dt.sub_in hS hn hs, timedeltaSeconds_exact]
      simp [hlt]

/-- The whole call, by instants. -/
theorem next_calm {E : TzEnv} {lo hi : Int} (hS : E.Steady lo hi) {g : Interval} (hv : g.Valid) {tz : Nat}
    {prev : Option Dt} {now : Dt} (hC : g.Calm E tz prev now lo hi) {draw : Int} (hd : DrawOk g.jitter draw) :
    ∃ t t', (prev = none → FirstOnGrid ((g.startDt tz).inst E) g.interval (now.inst E) t) ∧
      (∀ p, prev = some p → t = p.inst E + g.interval) ∧
      t ≤ t' ∧ t' ≤ t + secs (g.jitter.getD 0) ∧
      ((g.WithinEnd E tz t' ∧ ∃ r, next E g tz prev now draw = .ok (some r) ∧ r.inst E = t' ∧ r.In E lo hi) ∨
       (¬ g.WithinEnd E tz t' ∧ next E g tz prev now draw = .ok none)) := by
  obtain ⟨t, hb, hin, hle, hf, hl⟩ := base_calm hS hv hC hd
  obtain ⟨j1, j2, j3, j4⟩ := jitter_in hS hin hd hle
  obtain ⟨n1, n2⟩ := Dt.normalize_in hS j1
  refine ⟨t.inst E, (applyJitter t g.jitter draw).inst E, hf, hl, j2, j3, ?_⟩
  have hC' := hC.stop
  simp only [next, hb, WithinEnd, stopDt] at hC' ⊢
  cases hs : g.stop with
  | none => exact .inl ⟨by simp, _, rfl, n2, n1⟩
  | some s =>
    simp only [hs, Option.map_some, Option.some.injEq, forall_eq'] at hC' ⊢
    simp only [Dt.le_clear hS j1 hC', decide_eq_true_eq]
    split
    · rename_i h; exact .inl ⟨h, _, rfl, n2, n1⟩
    · rename_i h; exact .inr ⟨h, rfl⟩

/-- **C11** (any zone, in a period without a change of the clocks): without jitter, the first run of an interval
trigger is the earliest of `start, start + interval, ...` that is not before `now`, or `None` exactly if that
time is after `end_at`. -/
theorem C11_interval_first_run_calm_partial {E : TzEnv} {lo hi : Int} (hS : E.Steady lo hi) (g : Interval) (hv : g.Valid)
    (hj : g.jitter = none) (tz : Nat) (now : Dt) (draw : Int) (hC : g.Calm E tz none now lo hi) :
    ∃ t, FirstOnGrid ((g.startDt tz).inst E) g.interval (now.inst E) t ∧
      ((g.WithinEnd E tz t ∧ ∃ r, next E g tz none now draw = .ok (some r) ∧ r.inst E = t) ∨
       (¬ g.WithinEnd E tz t ∧ next E g tz none now draw = .ok none)) := by
  have hd : DrawOk g.jitter draw := by rw [hj]; intro j hj; cases hj
  obtain ⟨t, t', hf, _, h1, h2, h⟩ := next_calm hS hv hC hd
  have : t' = t := by rw [hj] at h2; simp only [Option.getD_none, secs] at h2; omega
  subst this
  refine ⟨t', hf rfl, ?_⟩
  rcases h with ⟨a, r, b, c, _⟩ | h
  · exact .inl ⟨a, r, b, c⟩
  · exact .inr h

/-- **C12** (any zone, in a period without a change of the clocks): the run after `p` is at `p + interval`, or `None`
exactly if that is after `end_at`. -/
theorem C12_interval_step_calm_partial {E : TzEnv} {lo hi : Int} (hS : E.Steady lo hi) (g : Interval) (hv : g.Valid)
    (hj : g.jitter = none) (tz : Nat) (p now : Dt) (draw : Int) (hC : g.Calm E tz (some p) now lo hi) :
    (g.WithinEnd E tz (p.inst E + g.interval) ∧
      ∃ r, next E g tz (some p) now draw = .ok (some r) ∧ r.inst E = p.inst E + g.interval ∧ r.In E lo hi) ∨
    (¬ g.WithinEnd E tz (p.inst E + g.interval) ∧ next E g tz (some p) now draw = .ok none) := by
  have hd : DrawOk g.jitter draw := by rw [hj]; intro j hj; cases hj
  obtain ⟨t, t', _, hl, h1, h2, h⟩ := next_calm hS hv hC hd
  have : t' = t := by rw [hj] at h2; simp only [Option.getD_none, secs] at h2; omega
  subst this
  rw [← hl p rfl]
  exact h

/-- The zone of the DST counterexamples, in the year after its clocks have gone back (from 11 h on). -/
theorem fallEnv_steady : fallEnv.Steady (secs 39600) (secs 40000000) := fun _ =>
  ⟨_, (overlap_steady (secs 3600) (secs 36000) (secs 3600) _ _ (by decide)).1 (by decide)⟩

/-- The zone of the DST counterexamples, before its clocks go forward. -/
theorem springEnv_steady : springEnv.Steady 0 (secs 35999) := fun _ =>
  ⟨_, (gap_steady 0 (secs 36000) (secs 3600) _ _ (by decide)).2 (by decide)⟩

-- every ten minutes from 12:00 in the zone whose clocks have gone back, asked at 12:35, and after a run at 12:40
example : Valid ⟨secs 600, some (secs 600), some 0, ⟨secs 43200, false, none⟩, some ⟨secs 90000, false, none⟩, none⟩ ∧
    Calm fallEnv ⟨secs 600, some (secs 600), some 0, ⟨secs 43200, false, none⟩, some ⟨secs 90000, false, none⟩, none⟩ 0
      none ⟨secs 45300, false, 0⟩ (secs 39600) (secs 40000000) ∧
    Calm fallEnv ⟨secs 600, some (secs 600), some 0, ⟨secs 43200, false, none⟩, some ⟨secs 90000, false, none⟩, none⟩ 0
      (some ⟨secs 45600, false, 0⟩) ⟨secs 45600, false, 0⟩ (secs 39600) (secs 40000000) ∧
    next fallEnv ⟨secs 600, some (secs 600), some 0, ⟨secs 43200, false, none⟩, some ⟨secs 90000, false, none⟩, none⟩ 0
      none ⟨secs 45300, false, 0⟩ 0 = .ok (some ⟨secs 45600, false, 0⟩) := by
  have hin : ∀ w, secs 39600 ≤ w → w ≤ secs 40000000 →
      Dt.In fallEnv (secs 39600) (secs 40000000) ⟨w, false, 0⟩ := by
    intro w h1 h2
    refine ⟨w, h1, h2, ?_⟩
    have := ((overlap_steady (secs 3600) (secs 36000) (secs 3600) (secs 39600) (secs 40000000) (by decide)).1 (by decide)
      w h1 h2).1
    have e : (fallEnv 0).loc w = _ := this
    simp only [e, secs]; omega
  refine ⟨by decide, ⟨fun _ => ⟨hin _ (by decide) (by decide), hin _ (by decide) (by decide), by decide, by decide⟩,
    by simp, fun s hs => ?_⟩, ⟨by simp, fun p hp => ?_, fun s hs => ?_⟩, by decide⟩
  · cases hs; exact .inl (hin _ (by decide) (by decide))
  · cases hp; exact ⟨hin _ (by decide) (by decide), by decide⟩
  · cases hs; exact .inl (hin _ (by decide) (by decide))

/-- **C12** (any zone): as long as the runs stay in a period without a change of the clocks, the `n`-th run is
exactly `n` intervals after the first. -/
theorem C12_interval_spacing_calm_partial {E : TzEnv} {lo hi : Int} (hS : E.Steady lo hi) (g : Interval) (hv : g.Valid)
    (hj : g.jitter = none) (tz : Nat) (hst : ∀ s, g.stopDt tz = some s → s.Clear E lo hi)
    (runs : Nat → Dt) (nows : Nat → Dt) (draws : Nat → Int) (n : Nat)
    (h0 : (runs 0).In E lo hi) (hn : (runs 0).inst E + n * g.interval ≤ hi)
    (h : ∀ k < n, next E g tz (some (runs k)) (nows k) (draws k) = .ok (some (runs (k + 1)))) :
    (runs n).In E lo hi ∧ (runs n).inst E = (runs 0).inst E + n * g.interval := by
  have hI := hv.1
  induction n with
  | zero => exact ⟨h0, by simp⟩
  | succ n ih =>
    have hmul : ((n + 1 : Nat) : Int) * g.interval = n * g.interval + g.interval := by
      rw [Int.natCast_succ, Int.add_mul]; simp
    obtain ⟨i1, i2⟩ := ih (by omega) (fun k hk => h k (by omega))
    have hC : g.Calm E tz (some (runs n)) (nows n) lo hi :=
      ⟨by simp, fun p hp => by
        cases hp
        refine ⟨i1, ?_⟩
        rw [hj]; simp only [Option.getD_none, secs]; omega, hst⟩
    rcases C12_interval_step_calm_partial hS g hv hj tz _ _ (draws n) hC with ⟨_, r, hr, hr', hin⟩ | ⟨_, hr⟩
    · rw [h n (by omega)] at hr; cases hr
      exact ⟨hin, by omega⟩
    · rw [h n (by omega)] at hr; cases hr

/-- **C12** (any zone, exact): in every lawful zone, across changes of the clocks too, the next run is `interval`
later *on the wall clock*: as an instant it is `interval` plus the change of the offset later. -/
theorem C12_interval_step_wall {E : TzEnv} (g : Interval) (hj : g.jitter = none) (hs : g.stop = none) (tz : Nat)
    (p now : Dt) (hE : (E p.tz).Lawful) (draw : Int) :
    ∃ r, next E g tz (some p) now draw = .ok (some r) ∧ r.tz = p.tz ∧
      r.inst E = p.inst E + g.interval +
        ((E p.tz).off p.wall p.fold - (E p.tz).off (p.wall + g.interval) false) := by
  refine ⟨Dt.normalize E (p.add g.interval), by simp [next, base, hj, hs, applyJitter], rfl, ?_⟩
  rw [Dt.inst_normalize (p.add g.interval) hE]
  simp only [Dt.inst, Dt.add]
  omega

/-- **C13** (any zone, in a period without a change of the clocks; with or without jitter): no returned time is after
`end_at`. -/
theorem C13_interval_not_after_end_calm_partial {E : TzEnv} {lo hi : Int} (hS : E.Steady lo hi) (g : Interval) (hv : g.Valid)
    (tz : Nat) (prev : Option Dt) (now r : Dt) (draw : Int) (hd : DrawOk g.jitter draw)
    (hC : g.Calm E tz prev now lo hi) (h : next E g tz prev now draw = .ok (some r)) :
    g.WithinEnd E tz (r.inst E) := by
  obtain ⟨t, t', _, _, _, _, hx⟩ := next_calm hS hv hC hd
  rcases hx with ⟨hw, r', hr, hr', _⟩ | ⟨_, hr⟩
  · rw [h] at hr; cases hr; rw [hr']; exact hw
  · rw [h] at hr; cases hr

/-- **C22** (any zone, in a period without a change of the clocks): with jitter `j` the time returned is at least the
unjittered time (the first on the grid, or one interval after the previous run), at most `j` seconds later,
and not after `end_at`. -/
theorem C22_interval_jitter_calm_partial {E : TzEnv} {lo hi : Int} (hS : E.Steady lo hi) (g : Interval) (hv : g.Valid)
    (tz : Nat) (prev : Option Dt) (now r : Dt) (draw : Int) (hd : DrawOk g.jitter draw)
    (hC : g.Calm E tz prev now lo hi) (h : next E g tz prev now draw = .ok (some r)) :
    ∃ t, (prev = none → FirstOnGrid ((g.startDt tz).inst E) g.interval (now.inst E) t) ∧
      (∀ p, prev = some p → t = p.inst E + g.interval) ∧
      t ≤ r.inst E ∧ r.inst E ≤ t + secs (g.jitter.getD 0) ∧ g.WithinEnd E tz (r.inst E) := by
  obtain ⟨t, t', h1, h2, h3, h4, hx⟩ := next_calm hS hv hC hd
  rcases hx with ⟨hw, r', hr, hr', _⟩ | ⟨_, hr⟩
  · rw [h] at hr; cases hr; subst hr'; exact ⟨t, h1, h2, h3, h4, hw⟩
  · rw [h] at hr; cases hr

/-- **C55** (any zone): an interval trigger created at instant `u` with a time zone and no `start_at` starts one interval
after its creation, if the offset of that zone does not change in between. -/
theorem C55_default_start_calm_partial {E : TzEnv} {lo hi : Int} (hS : E.Steady lo hi) (sys : Zone) (u len : Int)
    (e : Option NDt) (z : Nat) (j : Option Int) (tz : Nat) (h0 : lo ≤ u) (hlen : 0 ≤ len)
    (h1 : u + (mk' E sys u len none e (some z) j).interval ≤ hi) :
    ((mk' E sys u len none e (some z) j).startDt tz).inst E =
      u + (mk' E sys u len none e (some z) j).interval := by
  have hp : 0 ≤ (mk' E sys u len none e (some z) j).interval := by
    have := (mk'_valid E sys u len none e (some z) j hlen).1
    omega
  obtain ⟨c, hc⟩ := hS z
  have h2 := hc u h0 (by omega)
  have h3 := hc _ (by omega) h1
  have e1 : u + (mk' E sys u len none e (some z) j).interval + c =
      u + c + (mk' E sys u len none e (some z) j).interval := by omega
  rw [e1] at h3
  simp only [mk'] at *
  simp [startDt, toDatetime, NDt.withTz, Dt.inst, Dt.ofInst, Dt.add, h2.1, h3.2]
  omega

end Interval

/-- **C15** (any zone): the hypothesis of `C15_or_trigger_partial` is met by all times of a period without a change of
the clocks. -/
theorem agree_in {E : TzEnv} {lo hi : Int} (hS : E.Steady lo hi) (ts : List Dt) (h : ∀ t ∈ ts, t.In E lo hi) :
    Agree E ts := fun a ha b hb => Dt.lt_in hS (h a ha) (h b hb)

/-- **C15** (any zone): if the times the members return lie in a period without a change of the clocks, `OrTrigger`
(no jitter) answers `None` iff all members do; otherwise its answer is the earliest of theirs. -/
theorem C15_or_trigger_calm_partial {E : TzEnv} {lo hi : Int} (hS : E.Steady lo hi) (ms : List Member) (prev : Option Dt) (now : Dt)
    (hin : ∀ m ∈ ms, ∀ t, m prev now = .ok (some t) → t.In E lo hi)
    (draw : Int) (res : Option Dt) (h : orNext E ms none prev now draw = .ok res) :
    (res = none ↔ ∀ m ∈ ms, m prev now = .ok none) ∧
    ∀ r, res = some r → (∃ m ∈ ms, m prev now = .ok (some r)) ∧
      ∀ m ∈ ms, ∀ t, m prev now = .ok (some t) → r.inst E ≤ t.inst E :=
  C15_or_trigger_partial ms prev now (fun ts hts => agree_in hS ts fun t ht => by
    obtain ⟨m, hm, hr⟩ := hts t ht
    exact hin m hm t hr) draw res h

/-- **C22** (or, any zone): jitter delays the answer of `OrTrigger` by at most `j` seconds, if the members' answers lie at least
`j` seconds before the end of a period without a change of the clocks. -/
theorem C22_or_jitter_calm_partial {E : TzEnv} {lo hi : Int} (hS : E.Steady lo hi) (ms : List Member) (j : Option Int)
    (prev : Option Dt) (now r : Dt) (draw : Int) (hd : DrawOk j draw)
    (hin : ∀ m ∈ ms, ∀ t, m prev now = .ok (some t) → t.In E lo hi ∧ t.inst E + secs (j.getD 0) ≤ hi)
    (h : orNext E ms j prev now draw = .ok (some r)) :
    ∃ t, orNext E ms none prev now 0 = .ok (some t) ∧
      t.inst E ≤ r.inst E ∧ r.inst E ≤ t.inst E + secs (j.getD 0) := by
  have h0 : ∃ t, orNext E ms none prev now 0 = .ok (some t) ∧ r = applyJitter t j draw := by
    simp only [orNext] at h ⊢
    cases ho : orTimes prev now ms with
    | error e => simp [ho] at h
    | ok ts =>
      simp only [ho] at h
      cases ts with
      | nil => cases h
      | cons t ts =>
        simp only [pyMin, Except.ok.injEq, Option.some.injEq] at h ⊢
        exact ⟨_, rfl, h.symm⟩
  obtain ⟨t, ht, rfl⟩ := h0
  obtain ⟨⟨m, hm, hmt⟩, _⟩ := (C15_or_trigger_calm_partial hS ms prev now (fun m hm t ht => (hin m hm t ht).1) 0 _ ht).2 t rfl
  obtain ⟨a, b⟩ := hin m hm t hmt
  obtain ⟨_, j2, j3, _⟩ := jitter_in hS a hd b
  exact ⟨t, ht, j2, j3⟩

namespace Cron

/-- The call lies in the period: the times it is given do, and the end date is clear of the period's borders. -/
structure Calm (E : TzEnv) (g : Trig) (tz : Nat) (prev : Option Dt) (now : Dt) (lo hi : Int) : Prop where
  now : now.In E lo hi
  start : prev = none → ∀ s, g.start = some s → (s.withTz (g.zone tz)).In E lo hi
  prev : ∀ p, prev = some p → p.In E lo hi ∧ p.inst E + 1 ≤ hi
  stop : ∀ s, g.stopDt tz = some s → s.Clear E lo hi

/-- The search starts in the period. -/
theorem startOf_calm {E : TzEnv} {lo hi : Int} (hS : E.Steady lo hi) {g : Trig} {tz : Nat} {prev : Option Dt} {now : Dt}
    (hC : Calm E g tz prev now lo hi) : (startOf E g tz prev now).In E lo hi ∧
    (startOf E g tz prev now).inst E = searchFrom E g tz prev now := by
  have hast : ∀ d : Dt, d.In E lo hi → (Dt.astimezone E (g.tz.getD tz) d).In E lo hi ∧
      (Dt.astimezone E (g.tz.getD tz) d).inst E = d.inst E := by
    intro d hd
    simp only [Dt.astimezone]
    split
    · exact ⟨hd, rfl⟩
    · obtain ⟨_, _, _, h2, h3⟩ := hd.facts hS
      exact Dt.ofInst_in hS _ h2 h3
  have hn := hC.now
  obtain ⟨_, _, _, n2, n3⟩ := hn.facts hS
  simp only [startOf, searchFrom, Trig.zone]
  cases prev with
  | none =>
    cases hg : g.start with
    | none => exact hast _ hn
    | some s =>
      have hs := hC.start rfl s hg
      simp only [Trig.zone] at hs
      simp only [Dt.max, Dt.lt_in hS hn hs, decide_eq_true_eq]
      split
      · obtain ⟨a, b⟩ := hast _ hs
        exact ⟨a, by omega⟩
      · obtain ⟨a, b⟩ := hast _ hn
        exact ⟨a, by omega⟩
  | some p =>
    obtain ⟨hp, hp1⟩ := hC.prev p rfl
    obtain ⟨_, _, _, p2, p3⟩ := hp.facts hS
    obtain ⟨q1, q2⟩ := Dt.add_in hS hp (x := 1) (by omega) hp1
    have hmin : (Dt.min E now (p.add 1)).In E lo hi ∧
        (Dt.min E now (p.add 1)).inst E = min (now.inst E) (p.inst E + 1) := by
      simp only [Dt.min, Dt.lt_in hS q1 hn, decide_eq_true_eq]
      split
      · exact ⟨q1, by omega⟩
      · exact ⟨hn, by omega⟩
    obtain ⟨m1, m2⟩ := hmin
    simp only [Dt.eq_in hS m1 hp, decide_eq_true_eq]
    split
    · obtain ⟨r1, r2⟩ := Dt.add_in hS m1 (x := 1) (by omega) (by omega)
      obtain ⟨a, b⟩ := hast _ r1
      refine ⟨a, ?_⟩
      rw [b, r2, m2]; split <;> omega
    · obtain ⟨a, b⟩ := hast _ m1
      refine ⟨a, ?_⟩
      rw [b, m2]; split <;> omega

theorem shown_steady {E : TzEnv} {lo hi c : Int} {z : Nat} (hc : (E z).Steady c lo hi) (s : Int)
    (h1 : lo + c ≤ s * 1000000) (h2 : s * 1000000 ≤ hi + c) : Shown E z s := by
  obtain ⟨a, b⟩ := hc (s * 1000000 - c) (by omega) (by omega)
  have e : s * 1000000 - c + c = s * 1000000 := by omega
  rw [e] at a b
  simp only [Shown, b, a]

/-- **C17, C18** (any zone): without jitter, if the call and the time it answers lie in a period without a change of the
clocks, the answer is the earliest instant from the start of the search on at which the clock of the trigger's
zone shows a whole second that satisfies every field, and it is not after the end date. -/
theorem C17_C18_cron_first_match_calm_partial {E : TzEnv} {lo hi : Int} (hS : E.Steady lo hi) (g : Trig) (hw : g.WfAll)
    (hj : g.jitter = none) (tz : Nat) (hE : (E (g.zone tz)).Lawful) (prev : Option Dt) (now r : Dt) (draw : Int) (fuel : Nat)
    (hC : Calm E g tz prev now lo hi) (hy : 0 ≤ ((E (g.zone tz)).loc lo).1)
    (h : next E g tz prev now draw fuel = some (.ok (some r))) (hr : r.In E lo hi) :
    g.WithinEnd E tz (r.inst E) ∧
    FirstOf (FiresAt g.exprs (E (g.zone tz))) (searchFrom E g tz prev now) (r.inst E) := by
  obtain ⟨hin, hfrom⟩ := startOf_calm hS hC
  have hz := startOf_tz E g tz prev now
  obtain ⟨c, hc, e1, s1, s2⟩ := hin.facts hS
  rw [hz] at hc
  have hlo := (hc lo (Int.le_refl _) (by omega)).1
  rw [hlo] at hy
  simp only [] at hy
  obtain ⟨_, _, hnl⟩ := next_search hj h
  -- the wall clock of the answer
  obtain ⟨c', hc', e2, r1, r2⟩ := hr.facts hS
  have hlt := next_search hj h
  obtain ⟨c1, c2, c3, c4⟩ := ceil_facts (startOf E g tz prev now)
  have hrz : r.tz = g.zone tz := (search_tz hw hE _ _ _ (c4.trans hz) (by omega) hlt.1 hlt.2.1).1
  rw [hrz] at hc'
  have hcc := Dt.steady_unique hc hc' (by omega)
  subst hcc
  obtain ⟨w1, w2, w3, w4, w5⟩ := C17_C18_cron_wall_clock_partial g hw hj tz hE prev now r draw fuel (by omega) h
    (fun s a b => shown_steady hc s (by omega) (by omega))
  refine ⟨fun st hst => ?_, ?_, ?_, ?_⟩
  · have := hnl st hst
    rw [Dt.lt_clear hS hr (hC.stop st hst)] at this
    simpa using this
  · have := (hr.shown hS).1
    rw [hrz] at this
    exact ⟨by rw [this]; exact w3, by rw [this]; exact w4⟩
  · rw [← hfrom]; omega
  · intro u hu hNu
    rcases Int.lt_or_le u (r.inst E) with hlt' | hle
    · exfalso
      obtain ⟨u1, u2⟩ := hu
      rw [(hc u (by omega) (by omega)).1] at u1 u2
      simp only [] at u1 u2
      exact w5 _ (by omega) (by omega) u2
    · exact hle

/-- **C18** (any zone): without jitter, if the schedule has a time in a period without a change of the clocks, from the
start of the search on and not after the end date, the trigger finds the earliest one. -/
theorem C18_cron_finds_calm_partial {E : TzEnv} {lo hi : Int} (hS : E.Steady lo hi) (g : Trig) (hw : g.WfAll)
    (hj : g.jitter = none) (tz : Nat) (hE : (E (g.zone tz)).Lawful) (prev : Option Dt) (now : Dt) (draw : Int) (fuel : Nat)
    (hC : Calm E g tz prev now lo hi) (hy : 0 ≤ ((E (g.zone tz)).loc lo).1) (x : Except Exc (Option Dt))
    (h : next E g tz prev now draw fuel = some x)
    (u : Int) (hu : FiresAt g.exprs (E (g.zone tz)) u) (hN : searchFrom E g tz prev now ≤ u) (huhi : u ≤ hi)
    (hwe : g.WithinEnd E tz u) :
    ∃ r, x = .ok (some r) ∧ r.inst E ≤ u ∧ g.WithinEnd E tz (r.inst E) ∧
      FirstOf (FiresAt g.exprs (E (g.zone tz))) (searchFrom E g tz prev now) (r.inst E) := by
  obtain ⟨hin, hfrom⟩ := startOf_calm hS hC
  have hz := startOf_tz E g tz prev now
  obtain ⟨c, hc, e1, s1, s2⟩ := hin.facts hS
  rw [hz] at hc
  have hlo := (hc lo (Int.le_refl _) (by omega)).1
  have hy' := hy
  rw [hlo] at hy
  simp only [] at hy
  obtain ⟨c1, c2, c3, c4⟩ := ceil_facts (startOf E g tz prev now)
  rw [hz] at c4
  obtain ⟨u1, u2⟩ := hu
  rw [(hc u (by omega) huhi).1] at u1 u2
  simp only [] at u1 u2
  have hyear := matches_year u2
  obtain ⟨_, hr2⟩ := inRange' (by omega) hyear.2
  have hm : (u + c) / 1000000 * 1000000 = u + c := by omega
  have hIn : ∀ d : Dt, d.tz = g.zone tz → lo + c ≤ d.wall → d.wall ≤ hi + c → d.In E lo hi ∧ d.inst E = d.wall - c := by
    intro d hd h1 h2
    have hi' := Dt.in_of hc hd h1 h2
    obtain ⟨c', hc', e', _, _⟩ := hi'.facts hS
    rw [hd] at hc'
    have := Dt.steady_unique hc hc' (by omega)
    exact ⟨hi', by omega⟩
  have hmono : StopMono E (g.zone tz) (g.stopDt tz) (startOf E g tz prev now).ceil.wall
      ((u + c) / 1000000 * 1000000) := by
    intro st hst a b ha hb h1 h2 h3 hl
    obtain ⟨a1, a2⟩ := hIn a ha (by omega) (by omega)
    obtain ⟨b1, b2⟩ := hIn b hb (by omega) (by omega)
    rw [Dt.lt_clear hS a1 (hC.stop st hst), decide_eq_true_eq] at hl
    rw [Dt.lt_clear hS b1 (hC.stop st hst), decide_eq_true_eq]
    omega
  have hx : ∃ r, x = .ok (some r) ∧ r.wall ≤ u + c := by
    have h' := h
    simp only [next] at h'
    split at h'
    · rename_i hlt
      cases hs : search E g (g.tz.getD tz) (g.stop.map (NDt.withTz (g.tz.getD tz))) fuel
          (startOf E g tz prev now).ceil 0 with
      | none => rw [hs] at h'; simp at h'
      | some y =>
        have hcomp := search_complete hw hmono fuel _ 0 (by omega) (Int.le_refl _) c4 (by omega) hlt c1
          (fun f hf => absurd hf (by cases f <;> simp [FieldName.idx])) hs u2 (by omega)
          (fun s a b => shown_steady hc s (by omega) (by omega))
        rcases hcomp with ⟨r, rfl, hle⟩ | ⟨rfl, st, hst, hl⟩
        · rw [hs] at h'
          simp only [Option.some.injEq, hj, applyJitter] at h'
          have hstop := search_stop _ _ _ (.inl (by omega)) hs
          refine ⟨r, ?_, by omega⟩
          rw [← h']
          cases hgs : g.stop.map (NDt.withTz (g.tz.getD tz)) with
          | none => rfl
          | some st => simp [Dt.min, hstop st hgs]
        · exfalso
          obtain ⟨a1, a2⟩ := hIn ⟨(u + c) / 1000000 * 1000000, false, g.zone tz⟩ rfl (by simp only []; omega)
            (by simp only []; omega)
          rw [Dt.lt_clear hS a1 (hC.stop st hst), decide_eq_true_eq, a2] at hl
          have := hwe st hst
          simp only [] at hl
          omega
    · rename_i hlt
      omega
  obtain ⟨r, rfl, hrle⟩ := hx
  have hlt := next_search hj h
  obtain ⟨t1, t2, t3⟩ := search_tz hw hE _ _ _ c4 (by omega) hlt.1 hlt.2.1
  obtain ⟨rin, rinst⟩ := hIn r t1 (by omega) (by omega)
  obtain ⟨f1, f2⟩ := C17_C18_cron_first_match_calm_partial hS g hw hj tz hE prev now r draw fuel hC hy' h rin
  exact ⟨r, rfl, by omega, f1, f2⟩

/-- **C19** (progress, any zone): a time returned after a previous run is strictly later than it, provided the clock has not
gone back before the previous run, and the call and the answer lie in a period without a change of the clocks. -/
theorem C19_cron_progress_calm_partial {E : TzEnv} {lo hi : Int} (hS : E.Steady lo hi) (g : Trig) (hw : g.WfAll)
    (hj : g.jitter = none) (tz : Nat) (hE : (E (g.zone tz)).Lawful) (p now r : Dt) (draw : Int) (fuel : Nat)
    (hC : Calm E g tz (some p) now lo hi) (hy : 0 ≤ ((E (g.zone tz)).loc lo).1) (hle : p.inst E ≤ now.inst E)
    (h : next E g tz (some p) now draw fuel = some (.ok (some r))) (hr : r.In E lo hi) : p.inst E < r.inst E := by
  obtain ⟨_, _, hN, _⟩ := C17_C18_cron_first_match_calm_partial hS g hw hj tz hE (some p) now r draw fuel hC hy h hr
  have : searchFrom E g tz (some p) now = p.inst E + 1 := by
    simp only [searchFrom]; rw [if_neg (by omega)]
  omega

/-- **C13** (any zone): with or without jitter, a time returned in a period without a change of the clocks is not after the
end date. -/
theorem C13_cron_within_end_calm_partial {E : TzEnv} {lo hi : Int} (hS : E.Steady lo hi) (g : Trig) (tz : Nat) (prev : Option Dt)
    (now r : Dt) (draw : Int) (fuel : Nat) (hst : ∀ s, g.stopDt tz = some s → s.Clear E lo hi)
    (h : next E g tz prev now draw fuel = some (.ok (some r))) (hr : r.In E lo hi) :
    g.WithinEnd E tz (r.inst E) := by
  intro st hs
  have := C13_cron_not_after_end g tz prev now r draw fuel h st hs
  rw [Dt.lt_clear hS hr (hst st hs)] at this
  simpa using this

/-- **C22** (cron, any zone): with jitter `j`, if the unjittered answer lies at least `j` seconds before the end of a period
without a change of the clocks, the answer is at least the unjittered one, at most `j` seconds later, and not after
the end date. -/
theorem C22_cron_jitter_calm_partial {E : TzEnv} {lo hi : Int} (hS : E.Steady lo hi) (g : Trig) (tz : Nat) (prev : Option Dt)
    (now r : Dt) (draw : Int) (fuel : Nat) (hd : DrawOk g.jitter draw)
    (hst : ∀ s, g.stopDt tz = some s → s.Clear E lo hi)
    (h : next E g tz prev now draw fuel = some (.ok (some r))) :
    ∃ t, next E { g with jitter := none } tz prev now 0 fuel = some (.ok (some t)) ∧
      (t.In E lo hi → t.inst E + secs (g.jitter.getD 0) ≤ hi →
        t.inst E ≤ r.inst E ∧ r.inst E ≤ t.inst E + secs (g.jitter.getD 0) ∧ g.WithinEnd E tz (r.inst E)) := by
  have hsearch : ∀ st fuel d fn, search E { g with jitter := none } (g.tz.getD tz) st fuel d fn =
      search E g (g.tz.getD tz) st fuel d fn := by
    intro st fuel
    induction fuel with
    | zero => intros; rfl
    | succ n ih =>
      intro d fn
      rw [search, search]
      have hr : round E { g with jitter := none } (g.tz.getD tz) d fn = round E g (g.tz.getD tz) d fn := rfl
      rw [hr]
      simp only [ih]
  have hstart : startOf E { g with jitter := none } tz prev now = startOf E g tz prev now := rfl
  simp only [next] at h
  split at h
  · rename_i hlt
    split at h
    · rename_i t hs
      have hsts := search_stop _ _ _ (.inl (by omega)) hs
      simp only [Option.some.injEq, Except.ok.injEq] at h
      refine ⟨t, ?_, fun htin hthi => ?_⟩
      · simp only [next, hstart, if_pos hlt, hsearch, hs, applyJitter]
        cases hgs : g.stop.map (NDt.withTz (g.tz.getD tz)) with
        | none => rfl
        | some st =>
          have := hsts st hgs
          simp [Dt.min, this]
      · obtain ⟨j1, j2, j3, j4⟩ := jitter_in hS htin hd hthi
        simp only [Trig.WithinEnd, Trig.stopDt] at hst ⊢
        cases hgs : g.stop.map (NDt.withTz (g.tz.getD tz)) with
        | none => rw [hgs] at h; simp only [] at h; subst h; exact ⟨j2, j3, by simp⟩
        | some st =>
          have h2 := hsts st hgs
          have hcl := hst st hgs
          rw [Dt.lt_clear hS htin hcl, decide_eq_false_iff_not] at h2
          rw [hgs] at h
          simp only [Dt.min, Dt.lt_clear hS j1 hcl, decide_eq_true_eq] at h
          simp only [Option.some.injEq, forall_eq']
          split at h
          · subst h; exact ⟨by omega, by omega, by omega⟩
          · subst h; exact ⟨by omega, by omega, by omega⟩
    · rename_i hx; exact absurd h (hx r)
  · simp at h

/-- The zones of the cron counterexamples are steady after the day of the change. -/
theorem springDay_steady : springDay.Steady (mar28 1 0 0) (mar28 1 0 0 + secs 10000000) := fun _ =>
  ⟨_, (gap_steady (secs 3600) (mar28 1 0 0) (secs 3600) _ _ (by decide)).1 (by decide)⟩

-- 2:30 every day, asked at 12:00 on the day on which the clocks go forward: 2:30 the next day
example : Trig.WfAll ⟨daily 2 30, some 0, none, none, none⟩ ∧
    Calm springDay ⟨daily 2 30, some 0, none, none, none⟩ 0 none ⟨mar28 12 0 0, false, 0⟩
      (mar28 1 0 0) (mar28 1 0 0 + secs 10000000) ∧
    0 ≤ ((springDay 0).loc (mar28 1 0 0)).1 ∧
    next springDay ⟨daily 2 30, some 0, none, none, none⟩ 0 none ⟨mar28 12 0 0, false, 0⟩ 0 40 =
      some (.ok (some ⟨mar28 2 30 0 + secs 86400, false, 0⟩)) ∧
    Dt.In springDay (mar28 1 0 0) (mar28 1 0 0 + secs 10000000) ⟨mar28 2 30 0 + secs 86400, false, 0⟩ := by
  refine ⟨daily_wf 2 30, ⟨⟨mar28 10 0 0, by decide +kernel, by decide +kernel, by decide +kernel⟩, by simp, by simp,
    by simp [Trig.stopDt]⟩, by decide +kernel, by decide +kernel,
    ⟨mar28 0 30 0 + secs 86400, by decide +kernel, by decide +kernel, by decide +kernel⟩⟩

end Cron

end Asyncz
