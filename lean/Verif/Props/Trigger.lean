import Verif.Lemmas.Trigger
/-!
# Properties of the interval, date, shutdown and combining triggers
(C11, C12, C13, C14, C15, C16, C22, C23, C55)

`E` gives the time zones of the program, `tz` is the scheduler's zone passed to the trigger.
`d.inst E` is the instant (UTC microseconds) a date-time denotes.
-/
namespace Asyncz

/-- An environment of three zones used in the examples: UTC, UTC+2 and UTC-5. -/
def exEnv : TzEnv := fun z =>
  if z = 0 then Zone.fixed 0 else if z = 1 then Zone.fixed 7200000000 else Zone.fixed (-18000000000)

theorem exEnv_fixed : exEnv.Fixed := fun z => by
  simp only [exEnv]; split
  · exact ⟨_, rfl⟩
  · split <;> exact ⟨_, rfl⟩

/-- Seconds, in microseconds. -/
abbrev secs (n : Int) : Int := n * 1000000

namespace Interval

/-- What construction establishes for a positive (or zero, read as one second) interval. -/
def Valid (g : Interval) : Prop := 0 < g.interval ∧ g.size = some g.interval

/-- The start of the schedule of `g`, when called with the scheduler's zone `tz`. -/
def startDt (g : Interval) (tz : Nat) : Dt := g.start.withTz (g.tz.getD tz)

/-- The end of the schedule of `g`. -/
def stopDt (g : Interval) (tz : Nat) : Option Dt := g.stop.map (NDt.withTz (g.tz.getD tz))

/-- `t` is not after the end of the schedule. -/
def WithinEnd (E : TzEnv) (g : Interval) (tz : Nat) (t : Int) : Prop :=
  ∀ s, g.stopDt tz = some s → t ≤ s.inst E

instance (g : Interval) : Decidable g.Valid := by unfold Valid; infer_instance

instance (E : TzEnv) (g : Interval) (tz : Nat) (t : Int) : Decidable (g.WithinEnd E tz t) :=
  match h : g.stopDt tz with
  | none => .isTrue (by simp [WithinEnd, h])
  | some s => decidable_of_iff (t ≤ s.inst E) (by simp [WithinEnd, h])

/-- **C11, zones.**  A start or end given with a zone is read in that zone, another in the zone of the trigger, or else in the
zone of the scheduler; its wall clock and its fold are those given. -/
theorem C11_zones (g : Interval) (tz : Nat) :
    g.startDt tz = ⟨g.start.wall, g.start.fold, match g.start.tz, g.tz with
      | some z, _ => z
      | none, some z => z
      | none, none => tz⟩ ∧
    g.stopDt tz = (match g.stop with
      | none => none
      | some s => some ⟨s.wall, s.fold, match s.tz, g.tz with
        | some z, _ => z
        | none, some z => z
        | none, none => tz⟩) := by
  obtain ⟨i, sz, z, ⟨w, f, z'⟩, st, j⟩ := g
  constructor
  · cases z' <;> cases z <;> rfl
  · match st with
    | none => rfl
    | some ⟨w', f', z''⟩ => cases z'' <;> cases z <;> rfl

/-- **C11, times given without a zone.**  With a zone for the trigger, such a time becomes what the clocks of that zone show at
the instant it denotes, so that a time the clocks skip becomes one that they show, while one that they show stays what it is; with
a zone of its own, or without a zone for the trigger, any time stays as it is. -/
theorem C11_given_times (E : TzEnv) (z : Nat) (hE : (E z).Lawful) (w : Int) (f : Bool) (d : NDt) :
    toDatetime E (some z) ⟨w, f, none⟩ =
      ⟨((E z).loc (w - (E z).off w f)).1, ((E z).loc (w - (E z).off w f)).2, some z⟩ ∧
    (∀ u, (E z).loc u = (w, f) → toDatetime E (some z) ⟨w, f, none⟩ = ⟨w, f, some z⟩) ∧
    toDatetime E none d = d ∧ ∀ z' t, toDatetime E t ⟨w, f, some z'⟩ = ⟨w, f, some z'⟩ := by
  refine ⟨rfl, ?_, ?_, fun z' t => rfl⟩
  · intro u hu
    have h1 : toDatetime E (some z) ⟨w, f, none⟩ =
      ⟨((E z).loc (w - (E z).off w f)).1, ((E z).loc (w - (E z).off w f)).2, some z⟩ := rfl
    have h2 : w - (E z).off w f = u := by
      have := hE.loc_inst u
      rw [hu] at this
      exact this
    rw [h1, h2, hu]
  · obtain ⟨w', f', z'⟩ := d
    cases z' <;> rfl

/-- a zone whose clocks skip the hour from 10 h to 11 h: 10:30 becomes 11:30, 11:30 stays -/
example : (Zone.gap 0 (secs 36000) (secs 3600)).Lawful ∧
    toDatetime (fun _ => Zone.gap 0 (secs 36000) (secs 3600)) (some 0) ⟨secs 37800, false, none⟩ = ⟨secs 41400, false, some 0⟩ ∧
    toDatetime (fun _ => Zone.gap 0 (secs 36000) (secs 3600)) (some 0) ⟨secs 41400, false, none⟩ = ⟨secs 41400, false, some 0⟩ :=
  ⟨Zone.gap_lawful _ _ _ (by decide), by decide, by decide⟩

/-- a start without a zone is read in the zone of the trigger -/
example : startDt ⟨secs 10, some (secs 10), some 1, ⟨secs 7300, false, none⟩, none, none⟩ 0 = ⟨secs 7300, false, 1⟩ := by decide

theorem mk'_valid (E : TzEnv) (sys : Zone) (u len : Int) (s e : Option NDt) (z : Option Nat)
    (j : Option Int) (h : 0 ≤ len) : (mk' E sys u len s e z j).Valid := by
  simp only [Valid, mk', timedeltaSeconds_exact]
  split <;> simp <;> omega

/-- `next` in fixed-offset zones, by instants. -/
theorem next_of_base {E : TzEnv} (hE : E.Fixed) {g : Interval} {tz : Nat} {prev : Option Dt}
    {now t : Dt} {draw : Int} (hb : base E g tz prev now = .ok t)
    {t' : Int} (ht' : (applyJitter t g.jitter draw).inst E = t') :
    (g.WithinEnd E tz t' ∧ ∃ r, next E g tz prev now draw = .ok (some r) ∧ r.inst E = t' ∧
        r.tz = t.tz) ∨
    (¬ g.WithinEnd E tz t' ∧ next E g tz prev now draw = .ok none) := by
  have hz : (applyJitter t g.jitter draw).tz = t.tz := by
    simp only [applyJitter]; split <;> try split
    all_goals rfl
  obtain ⟨c, hc⟩ := hE (applyJitter t g.jitter draw).tz
  have hl : (E (applyJitter t g.jitter draw).tz).Lawful := hE.lawful _
  simp only [next, hb, WithinEnd, stopDt]
  cases hs : g.stop with
  | none =>
    left
    exact ⟨by simp, _, rfl, by rw [Dt.inst_normalize _ hl, ht'], by simp [hz]⟩
  | some s =>
    simp only [Dt.le_fixed hc, ht', Option.map_some, Option.some.injEq, forall_eq',
      decide_eq_true_eq]
    split
    · left; rename_i h
      exact ⟨h, _, rfl, by rw [Dt.inst_normalize _ hl, ht'], by simp [hz]⟩
    · right; rename_i h; exact ⟨h, rfl⟩

/-- **C11**: in zones with a fixed offset, without jitter, the first run of an interval trigger is
the earliest of `start, start + interval, start + 2*interval, ...` that is not before `now`, or
`None` exactly if that time is after `end_at`. -/
theorem C11_interval_first_run_partial {E : TzEnv} (hE : E.Fixed) (g : Interval) (hv : g.Valid)
    (hj : g.jitter = none) (tz : Nat) (now : Dt) (draw : Int) :
    ∃ t, FirstOnGrid ((g.startDt tz).inst E) g.interval (now.inst E) t ∧
      ((g.WithinEnd E tz t ∧ ∃ r, next E g tz none now draw = .ok (some r) ∧ r.inst E = t) ∨
       (¬ g.WithinEnd E tz t ∧ next E g tz none now draw = .ok none)) := by
  obtain ⟨hI, hs⟩ := hv
  obtain ⟨c, hc⟩ := hE (g.startDt tz).tz
  have key : ∃ t d, FirstOnGrid ((g.startDt tz).inst E) g.interval (now.inst E) t ∧
      base E g tz none now = .ok d ∧ d.inst E = t := by
    by_cases hlt : now.inst E < (g.startDt tz).inst E
    · refine ⟨_, g.startDt tz, firstOnGrid_start hI (Int.le_of_lt hlt), ?_, rfl⟩
      simp only [base]
      rw [← startDt, Dt.lt_fixed hc]
      simp [hlt]
    · refine ⟨_, (g.startDt tz).add _, firstOnGrid_ceil hI (by omega), ?_,
        Dt.inst_add_fixed hc _⟩
      simp only [base, hs]
      rw [← startDt, Dt.lt_fixed hc, Dt.sub_fixed hc, timedeltaSeconds_exact]
      simp [hlt]
  obtain ⟨t, d, h1, h2, h3⟩ := key
  refine ⟨t, h1, ?_⟩
  have hd : (applyJitter d g.jitter draw).inst E = t := by rw [hj]; exact h3
  rcases next_of_base hE h2 hd with ⟨ha, r, hr, hr', _⟩ | h
  · exact .inl ⟨ha, r, hr, hr'⟩
  · exact .inr h

/-- every 10 s from 100 s, asked at 123 s in another zone: 130 s -/
example : exEnv.Fixed ∧ Valid ⟨secs 10, some (secs 10), some 1, ⟨secs 7300, false, none⟩, none, none⟩ ∧
    next exEnv ⟨secs 10, some (secs 10), some 1, ⟨secs 7300, false, none⟩, none, none⟩ 0 none
      ⟨secs 123, false, 0⟩ 0 = .ok (some ⟨secs 7330, false, 1⟩) :=
  ⟨exEnv_fixed, by decide, by decide⟩

/-- **C11** (any zone, by wall clock): in every lawful zone, with `now` in the trigger's zone, the time
returned is the first *wall-clock* time `start, start + interval, ...` not before the wall clock of
`now`, converted to an instant that exists. -/
theorem C11_interval_wall_clock {E : TzEnv} (g : Interval) (hv : g.Valid) (hj : g.jitter = none)
    (hs : g.stop = none) (tz : Nat) (hE : (E (g.startDt tz).tz).Lawful) (now : Dt)
    (hz : now.tz = (g.startDt tz).tz) (draw : Int) :
    ∃ d r : Dt, FirstOnGrid (g.startDt tz).wall g.interval now.wall d.wall ∧ d.tz = now.tz ∧
      next E g tz none now draw = .ok (some r) ∧ r.tz = d.tz ∧ r.inst E = d.inst E := by
  obtain ⟨hI, hsz⟩ := hv
  have hz' : now.tz = (g.start.withTz (g.tz.getD tz)).tz := hz
  by_cases hlt : now.wall < (g.startDt tz).wall
  · refine ⟨g.startDt tz, (g.startDt tz).normalize E, firstOnGrid_start hI (Int.le_of_lt hlt),
      hz.symm, ?_, rfl, Dt.inst_normalize _ hE⟩
    simp only [startDt] at hlt
    simp [next, base, hj, hs, applyJitter, Dt.lt, hz', hlt, startDt]
  · refine ⟨(g.startDt tz).add (g.interval * ceilDiv (now.wall - (g.startDt tz).wall) g.interval),
      Dt.normalize E ((g.startDt tz).add
        (g.interval * ceilDiv (now.wall - (g.startDt tz).wall) g.interval)),
      firstOnGrid_ceil hI (by omega), hz.symm, ?_, rfl, Dt.inst_normalize _ hE⟩
    simp only [startDt] at hlt
    simp [next, base, hj, hs, applyJitter, Dt.lt, Dt.sub, hz', hlt, startDt, hsz,
      timedeltaSeconds_exact]

/-- A zone whose clocks go back by one hour at instant 10 h (offset +1 h before, 0 after). -/
def fallEnv : TzEnv := fun _ => Zone.overlap (secs 3600) (secs 36000) (secs 3600)
/-- A zone whose clocks go forward by one hour at instant 10 h (offset 0 before, +1 h after). -/
def springEnv : TzEnv := fun _ => Zone.gap 0 (secs 36000) (secs 3600)

theorem fallEnv_lawful : fallEnv.Lawful := fun _ => Zone.overlap_lawful _ _ _
theorem springEnv_lawful : springEnv.Lawful := fun _ => Zone.gap_lawful _ _ _ (by decide)

/-- **C11, counterexample** in a zone with daylight saving: in the repeated hour the trigger answers
with a time that is before `now` (here by one hour). -/
theorem C11_dst_witness : ∃ (g : Interval) (now r : Dt), g.Valid ∧ g.jitter = none ∧ g.stop = none ∧
    next fallEnv g 0 none now 0 = .ok (some r) ∧ r.inst fallEnv < now.inst fallEnv :=
  ⟨⟨secs 600, some (secs 600), some 0, ⟨0, false, none⟩, none, none⟩,
    -- 10:40 the second time (instant 10 h 40 min)
    ⟨secs 38400, true, 0⟩, ⟨secs 38400, false, 0⟩, by decide, rfl, rfl, by decide, by decide⟩

/-- **C12** (one step): the run after `p` is at `p + interval`, or `None` exactly if that is after
`end_at`. -/
theorem C12_interval_step_partial {E : TzEnv} (hE : E.Fixed) (g : Interval)
    (hj : g.jitter = none) (tz : Nat) (p now : Dt) (draw : Int) :
    (g.WithinEnd E tz (p.inst E + g.interval) ∧
      ∃ r, next E g tz (some p) now draw = .ok (some r) ∧ r.inst E = p.inst E + g.interval) ∨
    (¬ g.WithinEnd E tz (p.inst E + g.interval) ∧ next E g tz (some p) now draw = .ok none) := by
  obtain ⟨c, hc⟩ := hE p.tz
  have hb : base E g tz (some p) now = .ok (p.add g.interval) := rfl
  have hd : (applyJitter (p.add g.interval) g.jitter draw).inst E = p.inst E + g.interval := by
    rw [hj]; exact Dt.inst_add_fixed hc _
  rcases next_of_base hE hb hd with ⟨ha, r, hr, hr', _⟩ | h
  · exact .inl ⟨ha, r, hr, hr'⟩
  · exact .inr h

/-- **C12**: however the calls are made, if each time returned is passed back as the previous time,
the `n`-th run is exactly `n` intervals after the first, and the runs strictly increase. -/
theorem C12_interval_spacing_partial {E : TzEnv} (hE : E.Fixed) (g : Interval) (hv : g.Valid)
    (hj : g.jitter = none) (tz : Nat) (runs : Nat → Dt) (nows : Nat → Dt) (draws : Nat → Int) (n : Nat)
    (h : ∀ k < n, next E g tz (some (runs k)) (nows k) (draws k) = .ok (some (runs (k + 1)))) :
    (runs n).inst E = (runs 0).inst E + n * g.interval ∧
    ∀ k < n, (runs k).inst E < (runs (k + 1)).inst E := by
  have step : ∀ k < n, (runs (k + 1)).inst E = (runs k).inst E + g.interval := by
    intro k hk
    rcases C12_interval_step_partial hE g hj tz (runs k) (nows k) (draws k) with ⟨_, r, hr, hr'⟩ | ⟨_, hr⟩
    · rw [h k hk] at hr; cases hr; exact hr'
    · rw [h k hk] at hr; cases hr
  refine ⟨?_, fun k hk => by have := step k hk; have := hv.1; omega⟩
  clear h
  induction n with
  | zero => simp
  | succ n ih =>
    rw [step n (by omega), ih fun k hk => step k (by omega)]
    have : ((n + 1 : Nat) : Int) * g.interval = n * g.interval + g.interval := by
      rw [Int.natCast_succ, Int.add_mul]; simp
    omega

example : ∀ k : Nat, k < 3 → next exEnv ⟨secs 10, some (secs 10), some 1, ⟨secs 100, false, none⟩, none, none⟩ 0
    (some ⟨secs 100 + secs 10 * (k : Int), false, 1⟩) ⟨0, false, 0⟩ 0
    = .ok (some ⟨secs 100 + secs 10 * ((k + 1 : Nat) : Int), false, 1⟩) := by decide

/-- **C12, counterexample** with daylight saving: in the hour repeated when the clocks go back, the
run after an hourly run is two hours later, and the run after a ten-minute run can be *earlier* than
the run before it. -/
theorem C12_dst_witness :
    (∃ (g : Interval) (p r : Dt), g.Valid ∧ g.jitter = none ∧
      next fallEnv g 0 (some p) p 0 = .ok (some r) ∧
      r.inst fallEnv = p.inst fallEnv + 2 * g.interval) ∧
    (∃ (g : Interval) (p r : Dt), g.Valid ∧ g.jitter = none ∧
      next fallEnv g 0 (some p) p 0 = .ok (some r) ∧ r.inst fallEnv < p.inst fallEnv) :=
  ⟨⟨⟨secs 3600, some (secs 3600), some 0, ⟨0, false, none⟩, none, none⟩,
      ⟨secs 37800, false, 0⟩, ⟨secs 41400, false, 0⟩, by decide, rfl, by decide, by decide⟩,
   ⟨⟨secs 600, some (secs 600), some 0, ⟨0, false, none⟩, none, none⟩,
      ⟨secs 37800, true, 0⟩, ⟨secs 38400, false, 0⟩, by decide, rfl, by decide, by decide⟩⟩

/-- **C13** (interval, with or without jitter): no returned time is after `end_at`. -/
theorem C13_interval_not_after_end_partial {E : TzEnv} (hE : E.Fixed) (g : Interval) (tz : Nat)
    (prev : Option Dt) (now r : Dt) (draw : Int) (h : next E g tz prev now draw = .ok (some r)) :
    g.WithinEnd E tz (r.inst E) := by
  cases hb : base E g tz prev now with
  | error e => simp [next, hb] at h
  | ok t =>
    rcases next_of_base hE hb (draw := draw) rfl with ⟨ha, r', hr, hr', _⟩ | ⟨_, hr⟩
    · rw [h] at hr; cases hr; rw [hr']; exact ha
    · rw [h] at hr; cases hr

example : WithinEnd exEnv ⟨secs 10, some (secs 10), none, ⟨0, false, none⟩, some ⟨secs 35, false, some 2⟩,
    some 3⟩ 0 (secs 25) := by decide

/-- **C13, counterexample** with daylight saving: the end date is compared by wall clock before the
time is normalised, so in the hour skipped in spring a time after `end_at` is returned. -/
theorem C13_dst_witness : ∃ (g : Interval) (now r : Dt), g.Valid ∧ g.jitter = none ∧
    next springEnv g 0 none now 0 = .ok (some r) ∧ ¬ g.WithinEnd springEnv 0 (r.inst springEnv) :=
  -- every hour from 9:30; end_at 11:00 (= instant 10 h); 10:30 does not exist
  ⟨⟨secs 3600, some (secs 3600), some 0, ⟨secs 34200, false, none⟩,
      some ⟨secs 39600, false, some 0⟩, none⟩,
    ⟨secs 35999, false, 0⟩, ⟨secs 41400, false, 0⟩, by decide, rfl, by decide, by decide⟩

/-- **C13** (interval, no jitter): once it has answered `None`, it answers `None` at every later time. -/
theorem C13_interval_none_stays_partial {E : TzEnv} (hE : E.Fixed) (g : Interval) (hv : g.Valid)
    (hj : g.jitter = none) (tz : Nat) (prev : Option Dt) (now now' : Dt) (draw draw' : Int)
    (hle : now.inst E ≤ now'.inst E) (h : next E g tz prev now draw = .ok none) :
    next E g tz prev now' draw' = .ok none := by
  cases prev with
  | some p =>
    rcases C12_interval_step_partial hE g hj tz p now draw with ⟨_, r, hr, _⟩ | ⟨hn, _⟩
    · rw [h] at hr; cases hr
    · rcases C12_interval_step_partial hE g hj tz p now' draw' with ⟨hw, _⟩ | ⟨_, hr⟩
      · exact absurd hw hn
      · exact hr
  | none =>
    obtain ⟨t, ht, hr⟩ := C11_interval_first_run_partial hE g hv hj tz now draw
    obtain ⟨t', ht', hr'⟩ := C11_interval_first_run_partial hE g hv hj tz now' draw'
    have htt : t ≤ t' := by
      obtain ⟨⟨k, hk⟩, h1, _⟩ := ht'
      rw [hk] at h1 ⊢
      exact ht.2.2 k (by omega)
    rcases hr with ⟨_, r, hr, _⟩ | ⟨hn, _⟩
    · rw [h] at hr; cases hr
    · rcases hr' with ⟨hw, _⟩ | ⟨_, hr'⟩
      · exact absurd (fun s hs => Int.le_trans htt (hw s hs)) hn
      · exact hr'

example : next exEnv ⟨secs 10, some (secs 10), none, ⟨0, false, none⟩, some ⟨secs 35, false, none⟩, none⟩ 0
    none ⟨secs 31, false, 0⟩ 0 = .ok none := by decide

/-- **C13, counterexample** with jitter: the end date is compared after a fresh random delay has been
added, so a trigger that has answered `None` can answer with a time when asked again later. -/
theorem C13_jitter_witness : ∃ (g : Interval) (now now' r : Dt) (draw draw' : Int), g.Valid ∧
    DrawOk g.jitter draw ∧ DrawOk g.jitter draw' ∧ now.inst exEnv ≤ now'.inst exEnv ∧
    next exEnv g 0 none now draw = .ok none ∧ next exEnv g 0 none now' draw' = .ok (some r) := by
  refine ⟨⟨secs 10, some (secs 10), none, ⟨0, false, none⟩, some ⟨secs 35, false, none⟩, some 20⟩,
    ⟨secs 22, false, 0⟩, ⟨secs 23, false, 0⟩, ⟨secs 31, false, 0⟩, secs 10, secs 1,
    by decide, ?_, ?_, by decide, by decide, by decide⟩ <;>
  · intro j hj; cases hj; decide

/-- **C22** (interval): with jitter `j` the returned time is between the unjittered time and that time
plus `j` seconds. -/
theorem C22_interval_jitter_partial {E : TzEnv} (hE : E.Fixed) (g : Interval) (tz : Nat) (prev : Option Dt)
    (now r t : Dt) (draw : Int) (hd : DrawOk g.jitter draw)
    (hb : next E { g with jitter := none, stop := none } tz prev now 0 = .ok (some t))
    (h : next E g tz prev now draw = .ok (some r)) :
    t.inst E ≤ r.inst E ∧ r.inst E ≤ t.inst E + secs (g.jitter.getD 0) ∧
    g.WithinEnd E tz (r.inst E) := by
  refine ⟨?_, ?_, C13_interval_not_after_end_partial hE g tz prev now r draw h⟩
  all_goals
    have hbase : base E { g with jitter := none, stop := none } tz prev now = base E g tz prev now := rfl
    cases hb' : base E g tz prev now with
    | error e => simp [next, hb'] at h
    | ok d =>
      obtain ⟨c, hc⟩ := hE d.tz
      rcases next_of_base hE hb' (draw := draw) rfl with ⟨_, r', hr, hr', _⟩ | ⟨_, hr⟩
      · rw [h] at hr; cases hr
        rcases next_of_base hE (hbase ▸ hb') (draw := 0)
            (g := { g with jitter := none, stop := none }) (t' := d.inst E) rfl with
          ⟨_, t', ht, ht', _⟩ | ⟨_, ht⟩
        · rw [hb] at ht; cases ht
          rw [hr', ht']
          cases hg : g.jitter with
          | none => simp [applyJitter]
          | some j =>
            obtain ⟨h0, h1⟩ := hd j hg
            simp only [applyJitter, Option.getD_some, secs]
            split
            · subst_vars; omega
            · rw [Dt.inst_add_fixed hc]; omega
        · rw [hb] at ht; cases ht
      · rw [h] at hr; cases hr

example : next exEnv ⟨secs 10, some (secs 10), none, ⟨0, false, none⟩, some ⟨secs 35, false, none⟩, some 5⟩ 0
    none ⟨secs 22, false, 0⟩ (secs 3) = .ok (some ⟨secs 33, false, 0⟩) := by decide

/-- **C22, observation**: the delays add up.  Since the jittered time is the previous time of the next
call, after `n` runs the schedule may have drifted by `n` times the jitter. -/
theorem C22_interval_jitter_accumulates_witness (n : Nat) :
    ∃ (g : Interval) (runs : Nat → Dt) (draws : Nat → Int), g.Valid ∧
      (∀ k, DrawOk g.jitter (draws k)) ∧ runs 0 = g.startDt 0 ∧
      (∀ k, next exEnv g 0 (some (runs k)) (runs k) (draws k) = .ok (some (runs (k + 1)))) ∧
      (runs n).inst exEnv = (runs 0).inst exEnv + n * g.interval + n * secs (g.jitter.getD 0) := by
  refine ⟨⟨secs 10, some (secs 10), none, ⟨0, false, none⟩, none, some 5⟩,
    fun k => ⟨secs 15 * k, false, 0⟩, fun _ => secs 5, by decide, ?_, rfl, ?_, ?_⟩
  · intro k j hj; cases hj; exact (by decide : 0 ≤ secs 5 ∧ secs 5 ≤ 5 * 1000000)
  · intro k
    simp only [next, base, Dt.add, applyJitter, Dt.normalize, Dt.ofInst, Dt.inst, exEnv, Zone.fixed,
      secs]
    simp
    omega
  · simp [Dt.inst, exEnv, Zone.fixed, secs]; omega

/-- **C23** (interval, partial): a restored interval trigger gives the same answers whenever a previous
time is given or its start is still in the future.  Missing: the other calls, see the witness. -/
theorem C23_interval_restore_partial (E : TzEnv) (g : Interval) (tz : Nat) (prev : Option Dt) (now : Dt)
    (draw : Int) (h : prev.isSome ∨ Dt.lt E now (g.startDt tz)) :
    next E g.restore tz prev now draw = next E g tz prev now draw := by
  have : base E g.restore tz prev now = base E g tz prev now := by
    cases prev with
    | some p => rfl
    | none =>
      have h : Dt.lt E now (g.startDt tz) = true := by simpa using h
      simp only [startDt] at h
      simp [base, restore, h]
  simp only [next, this]
  rfl

/-- **C23, counterexample**: after a save and restore, asking for the first run of an interval trigger
whose start has passed (as `resume_task` does) raises `AttributeError`: for every such trigger. -/
theorem C23_interval_restore_witness (E : TzEnv) (g : Interval) (hv : g.Valid) (tz : Nat) (now : Dt)
    (draw : Int) (h : Dt.lt E now (g.startDt tz) = false) :
    next E g.restore tz none now draw = .error .attributeError ∧
    ∃ r, next E g tz none now draw = .ok r := by
  simp only [startDt] at h
  constructor
  · simp [next, base, restore, h]
  · simp only [next, base, hv.2, h]
    cases g.stop <;> simp
    split <;> simp

example : Valid ⟨secs 10, some (secs 10), none, ⟨0, false, none⟩, none, none⟩ ∧
    Dt.lt exEnv ⟨secs 5, false, 0⟩ (startDt ⟨secs 10, some (secs 10), none, ⟨0, false, none⟩, none, none⟩ 0)
      = false := by decide

/-- **C55**: an interval trigger created at instant `u` with a time zone (fixed offset) and no
`start_at` starts one interval after its creation. -/
theorem C55_default_start_with_timezone_partial {E : TzEnv} (hE : E.Fixed) (sys : Zone) (u len : Int)
    (e : Option NDt) (z : Nat) (j : Option Int) (tz : Nat) :
    ((mk' E sys u len none e (some z) j).startDt tz).inst E =
      u + (mk' E sys u len none e (some z) j).interval := by
  obtain ⟨c, hc⟩ := hE z
  simp [mk', startDt, toDatetime, NDt.withTz, Dt.inst, Dt.ofInst, Dt.add, hc, Zone.fixed]
  omega

/-- **C55** for no time zone: the start is one interval after creation if the system's offset is the
offset of the scheduler's zone. -/
theorem C55_default_start_same_zone_partial {E : TzEnv} (c : Int) (u len : Int)
    (j : Option Int) (tz : Nat) (hc : E tz = Zone.fixed c) :
    ((mk' E (Zone.fixed c) u len none none none j).startDt tz).inst E =
      u + (mk' E (Zone.fixed c) u len none none none j).interval := by
  simp [mk', startDt, toDatetime, NDt.withTz, Dt.inst, hc, Zone.fixed]
  omega

/-- **C55, counterexample**: without a time zone the start is the system's wall clock read in the
scheduler's zone, so the first run is off by the difference of the two offsets (here 2 h late, for
a one-minute interval). -/
theorem C55_default_start_witness : ∃ (sys : Zone) (u len : Int) (g : Interval) (r : Dt),
    sys.Lawful ∧ 0 < len ∧ g = mk' exEnv sys u len none none none none ∧
    next exEnv g 0 none (Dt.ofInst exEnv 0 u) 0 = .ok (some r) ∧
    r.inst exEnv = u + len + secs 7200 :=
  ⟨Zone.fixed (secs 7200), 0, secs 60, _, ⟨secs 7260, false, 0⟩, Zone.fixed_lawful _, by decide, rfl,
    by decide, by decide⟩

end Interval

/-- **C14** (trigger): a date trigger yields its date if it has not run, and nothing afterwards. -/
theorem C14_date_trigger {E : TzEnv} (hE : E.Lawful) (g : DateTrig) (tz : Nat) (now : Dt) :
    (∃ r, g.next E tz none now = some r ∧ r.inst E = g.runAt.inst E ∧ r.tz = tz) ∧
    ∀ p, g.next E tz (some p) now = none := by
  refine ⟨⟨_, rfl, ?_, ?_⟩, fun p => rfl⟩
  · simp only [Dt.astimezone]
    split
    · rfl
    · exact Dt.inst_ofInst _ _ (hE _)
  · simp only [Dt.astimezone]; split
    · assumption
    · rfl

example : (DateTrig.next exEnv ⟨⟨secs 7300, false, 1⟩⟩ 0 none ⟨0, false, 0⟩)
    = some ⟨secs 100, false, 0⟩ := by decide

/-- **C23** (date) -/
theorem C23_date_restore (E : TzEnv) (g : DateTrig) (tz : Nat) (prev : Option Dt) (now : Dt) :
    g.restore.next E tz prev now = g.next E tz prev now := rfl

/-- The unjittered answer of a combining trigger, as an instant. -/
def instOf (E : TzEnv) (r : Option Dt) : Option Int := r.map (Dt.inst E)

/-- **C15** (partial): `OrTrigger` (no jitter) answers `None` iff all members do; otherwise its answer is the
answer of some member and no member's answer is earlier.  Partial: the times the members return must be
ones that Python orders as the instants they denote, which holds for all zones without daylight saving
(`agree_fixed`) and for any times outside the repeated hours; see `C15_dst_witness`. -/
theorem C15_or_trigger_partial {E : TzEnv} (ms : List Member) (prev : Option Dt) (now : Dt)
    (hA : ∀ ts, (∀ t ∈ ts, ∃ m ∈ ms, m prev now = .ok (some t)) → Agree E ts)
    (draw : Int) (res : Option Dt) (h : orNext E ms none prev now draw = .ok res) :
    (res = none ↔ ∀ m ∈ ms, m prev now = .ok none) ∧
    ∀ r, res = some r → (∃ m ∈ ms, m prev now = .ok (some r)) ∧
      ∀ m ∈ ms, ∀ t, m prev now = .ok (some t) → r.inst E ≤ t.inst E := by
  simp only [orNext] at h
  cases ho : orTimes prev now ms with
  | error e => simp [ho] at h
  | ok ts =>
    obtain ⟨h1, h2⟩ := orTimes_spec ho
    simp only [ho] at h
    cases ts with
    | nil =>
      cases h
      refine ⟨⟨fun _ m hm => ?_, fun _ => rfl⟩, by simp⟩
      obtain ⟨r, hr⟩ := h2 m hm
      cases r with
      | none => exact hr
      | some t => have := (h1 t).2 ⟨m, hm, hr⟩; simp at this
    | cons t ts =>
      obtain ⟨m, hm⟩ := pyMin_cons (E := E) t ts
      simp only [hm] at h
      obtain ⟨h3, h4⟩ := pyMin_agree (hA _ fun x hx => (h1 x).1 hx) hm
      simp only [applyJitter, Except.ok.injEq] at h
      subst h
      obtain ⟨m0, h5, h6⟩ := (h1 m).1 h3
      refine ⟨⟨by simp, fun hn => ?_⟩, ?_⟩
      · have := hn m0 h5; rw [h6] at this; cases this
      · intro r hr
        cases hr
        exact ⟨⟨m0, h5, h6⟩, fun m' hm' t' ht' => h4 t' ((h1 t').2 ⟨m', hm', ht'⟩)⟩

/-- **C15, counterexample** with daylight saving: Python compares times of one zone by wall clock, so in
the repeated hour `OrTrigger` can return a time that is later than another member's. -/
theorem C15_dst_witness : ∃ (a b : Dt),
    orNext Interval.fallEnv [fun _ _ => .ok (some a), fun _ _ => .ok (some b)] none none ⟨0, false, 0⟩ 0
      = .ok (some a) ∧ b.inst Interval.fallEnv < a.inst Interval.fallEnv :=
  ⟨⟨secs 37800, true, 0⟩, ⟨secs 38700, false, 0⟩, by decide, by decide⟩

/-- **C15** (total): if no member raises, `OrTrigger` answers. -/
theorem C15_or_total {E : TzEnv} (ms : List Member) (j : Option Int) (prev : Option Dt) (now : Dt)
    (draw : Int) (h : ∀ m ∈ ms, ∃ r, m prev now = .ok r) :
    ∃ res, orNext E ms j prev now draw = .ok res := by
  have ho : ∃ ts, orTimes prev now ms = .ok ts := by
    induction ms with
    | nil => exact ⟨_, rfl⟩
    | cons m ms ih =>
      obtain ⟨r, hr⟩ := h m List.mem_cons_self
      obtain ⟨ts, hts⟩ := ih fun m' hm' => h m' (List.mem_cons_of_mem _ hm')
      exact ⟨_, by simp only [orTimes, hr, hts]; rfl⟩
  obtain ⟨ts, hts⟩ := ho
  cases ts with
  | nil => exact ⟨none, by simp [orNext, hts]⟩
  | cons t ts => exact ⟨_, by simp only [orNext, hts, pyMin]; rfl⟩

/-- Two members: one finished, one at 30 s, one at 20 s in another zone. -/
example : orNext exEnv [fun _ _ => .ok none, fun _ _ => .ok (some ⟨secs 30, false, 0⟩),
      fun _ _ => .ok (some ⟨secs 7220, false, 1⟩)] none none ⟨0, false, 0⟩ 0
    = .ok (some ⟨secs 7220, false, 1⟩) := by decide

/-- **C22** (or): jitter delays the answer of `OrTrigger` by at most `j` seconds. -/
theorem C22_or_jitter_partial {E : TzEnv} (hE : E.Fixed) (ms : List Member) (j : Option Int) (prev : Option Dt)
    (now r : Dt) (draw : Int) (hd : DrawOk j draw) (h : orNext E ms j prev now draw = .ok (some r)) :
    ∃ t, orNext E ms none prev now 0 = .ok (some t) ∧
      t.inst E ≤ r.inst E ∧ r.inst E ≤ t.inst E + secs (j.getD 0) := by
  simp only [orNext] at h ⊢
  cases ho : orTimes prev now ms with
  | error e => simp [ho] at h
  | ok ts =>
    simp only [ho] at h
    cases ts with
    | nil => cases h
    | cons t ts =>
      simp only [pyMin, Except.ok.injEq, Option.some.injEq] at h ⊢
      refine ⟨_, rfl, ?_⟩
      obtain ⟨c, hc⟩ := hE (ts.foldl (Dt.min E) t).tz
      subst h
      cases j with
      | none => simp [applyJitter]
      | some j =>
        obtain ⟨h0, h1⟩ := hd j rfl
        simp only [applyJitter, Option.getD_some, secs]
        split
        · subst_vars; omega
        · rw [Dt.inst_add_fixed hc]; omega

/-! ## AndTrigger -/

/-- More rounds of the loop do not change an answer. -/
theorem andNext_mono {E : TzEnv} {ms : List Member} {j : Option Int} {prev : Option Dt} {draw : Int}
    {fuel : Nat} {now : Dt} {res} (h : andNext E ms j prev draw fuel now = some res) (k : Nat) :
    andNext E ms j prev draw (fuel + k) now = some res := by
  induction fuel generalizing now with
  | zero => simp [andNext] at h
  | succ n ih =>
    rw [Nat.add_right_comm]
    simp only [andNext] at h ⊢
    split <;> simp_all
    split <;> simp_all
    split <;> simp_all

/-- **C16** (soundness): if `AndTrigger` (no jitter) answers with a time, then at some moment not before
`now` every member answers with that very instant. -/
theorem C16_and_sound_partial {E : TzEnv} (hE : E.Fixed) (ms : List Member) (prev : Option Dt) (now r : Dt)
    (draw : Int) (fuel : Nat) (h : andNext E ms none prev draw fuel now = some (.ok (some r))) :
    ∃ now', ∀ m ∈ ms, ∃ t, m prev now' = .ok (some t) ∧ t.inst E = r.inst E := by
  induction fuel generalizing now with
  | zero => simp [andNext] at h
  | succ n ih =>
    simp only [andNext] at h
    cases ha : andTimes prev now ms with
    | error e => simp [ha] at h
    | ok o =>
      cases o with
      | none => simp [ha] at h
      | some ts =>
        cases ts with
        | nil => simp [ha, pyMin] at h
        | cons t ts =>
          obtain ⟨lo, hlo⟩ := pyMin_cons (E := E) t ts
          obtain ⟨hi, hhi⟩ := pyMax_cons (E := E) t ts
          simp only [ha, hlo, hhi] at h
          split at h
          · rename_i heq
            obtain ⟨c, hc⟩ := hE lo.tz
            rw [Dt.eq_fixed hc] at heq
            simp only [decide_eq_true_eq] at heq
            simp only [List.head?_cons, Option.map_some, applyJitter, Option.some.injEq,
              Except.ok.injEq] at h
            subst h
            have l1 := (pyMin_spec hE hlo).2
            have l2 := (pyMax_spec hE hhi).2
            have hmap := andTimes_some ha
            refine ⟨now, fun m hm => ?_⟩
            have : m prev now ∈ ms.map (fun m => m prev now) := List.mem_map_of_mem hm
            rw [hmap, List.mem_map] at this
            obtain ⟨x, hx, hx'⟩ := this
            refine ⟨x, hx'.symm, ?_⟩
            have a := l1 x hx; have b := l2 x hx
            have a' := l1 t List.mem_cons_self; have b' := l2 t List.mem_cons_self
            omega
          · exact ih hi h

/-- **C16** (finished): `AndTrigger` answers `None` only if some member did. -/
theorem C16_and_none {E : TzEnv} (ms : List Member) (j : Option Int) (prev : Option Dt) (now : Dt)
    (draw : Int) (fuel : Nat) (h : andNext E ms j prev draw fuel now = some (.ok none)) :
    ∃ now', ∃ m ∈ ms, m prev now' = .ok none := by
  induction fuel generalizing now with
  | zero => simp [andNext] at h
  | succ n ih =>
    simp only [andNext] at h
    cases ha : andTimes prev now ms with
    | error e => simp [ha] at h
    | ok o =>
      cases o with
      | none => exact ⟨now, andTimes_none ha⟩
      | some ts =>
        cases ts with
        | nil => simp [ha, pyMin] at h
        | cons t ts =>
          obtain ⟨lo, hlo⟩ := pyMin_cons (E := E) t ts
          obtain ⟨hi, hhi⟩ := pyMax_cons (E := E) t ts
          simp only [ha, hlo, hhi] at h
          split at h
          · simp at h
          · exact ih hi h

/-- **C16** (finished): if some member answers `None` at `now` and none raises, so does `AndTrigger`. -/
theorem C16_and_none_of {E : TzEnv} (ms : List Member) (j : Option Int) (prev : Option Dt) (now : Dt)
    (draw : Int) (fuel : Nat) (hok : ∀ m ∈ ms, ∃ r, m prev now = .ok r)
    (h : ∃ m ∈ ms, m prev now = .ok none) :
    andNext E ms j prev draw (fuel + 1) now = some (.ok none) := by
  simp [andNext, andTimes_none_of hok h]

/-- The member follows the schedule `P`: asked at any `now` (with the previous time `prev`) it answers
with the first time of `P` not before `now`, `None` if there is none. -/
def Follows (E : TzEnv) (prev : Option Dt) (P : Int → Prop) (m : Member) : Prop :=
  ∀ now : Dt, (∃ r, m prev now = .ok (some r) ∧ FirstOf P (now.inst E) (r.inst E)) ∨
    (m prev now = .ok none ∧ ∀ x, P x → x < now.inst E)

/-- One round of the loop with members that follow schedules: it ends with the first common time, ends
with `None` because one schedule has ended, or goes on strictly later without passing a common time. -/
theorem and_round {E : TzEnv} (hE : E.Fixed) {ms : List Member} {prev : Option Dt}
    {sched : Member → Int → Prop} (hne : ms ≠ []) (hf : ∀ m ∈ ms, Follows E prev (sched m) m)
    (now : Dt) (draw : Int) :
    (∃ r, (∀ fuel, andNext E ms none prev draw (fuel + 1) now = some (.ok (some r))) ∧
      FirstOf (fun x => ∀ m ∈ ms, sched m x) (now.inst E) (r.inst E)) ∨
    ((∀ fuel, andNext E ms none prev draw (fuel + 1) now = some (.ok none)) ∧
      ∃ m ∈ ms, ∀ x, sched m x → x < now.inst E) ∨
    (∃ now', (∀ fuel, andNext E ms none prev draw (fuel + 1) now = andNext E ms none prev draw fuel now') ∧
      now.inst E < now'.inst E ∧ (∃ m ∈ ms, sched m (now'.inst E)) ∧
      ∀ x, (∀ m ∈ ms, sched m x) → now.inst E ≤ x → now'.inst E ≤ x) := by
  have hok : ∀ m ∈ ms, ∃ r, m prev now = .ok r := by
    intro m hm
    rcases hf m hm now with ⟨r, hr, _⟩ | ⟨hr, _⟩ <;> exact ⟨_, hr⟩
  obtain ⟨o, ha⟩ := andTimes_total hok
  cases o with
  | none =>
    right; left
    refine ⟨fun fuel => by simp [andNext, ha], ?_⟩
    obtain ⟨m, hm, hn⟩ := andTimes_none ha
    rcases hf m hm now with ⟨r, hr, _⟩ | ⟨_, hx⟩
    · rw [hn] at hr; cases hr
    · exact ⟨m, hm, hx⟩
  | some ts =>
    have hmap := andTimes_some ha
    cases ts with
    | nil => simp at hmap; exact absurd hmap hne
    | cons t ts =>
      have hof : ∀ m ∈ ms, ∃ x ∈ t :: ts, m prev now = .ok (some x) ∧
          FirstOf (sched m) (now.inst E) (x.inst E) := by
        intro m hm
        have : m prev now ∈ ms.map (fun m => m prev now) := List.mem_map_of_mem hm
        rw [hmap, List.mem_map] at this
        obtain ⟨x, hx, hx'⟩ := this
        refine ⟨x, hx, hx'.symm, ?_⟩
        rcases hf m hm now with ⟨r, hr, hF⟩ | ⟨hr, _⟩
        · rw [← hx'] at hr; cases hr; exact hF
        · rw [← hx'] at hr; cases hr
      have hfrom : ∀ x ∈ t :: ts, ∃ m ∈ ms, m prev now = .ok (some x) ∧
          FirstOf (sched m) (now.inst E) (x.inst E) := by
        intro x hx
        have : (Except.ok (some x) : Except Exc (Option Dt)) ∈
            (t :: ts).map (fun t => Except.ok (some t)) := List.mem_map_of_mem hx
        rw [← hmap, List.mem_map] at this
        obtain ⟨m, hm, hm'⟩ := this
        refine ⟨m, hm, hm', ?_⟩
        rcases hf m hm now with ⟨r, hr, hF⟩ | ⟨hr, _⟩
        · rw [hm'] at hr; cases hr; exact hF
        · rw [hm'] at hr; cases hr
      obtain ⟨lo, hlo⟩ := pyMin_cons (E := E) t ts
      obtain ⟨hi, hhi⟩ := pyMax_cons (E := E) t ts
      obtain ⟨lomem, lole⟩ := pyMin_spec hE hlo
      obtain ⟨himem, hile⟩ := pyMax_spec hE hhi
      obtain ⟨c, hc⟩ := hE lo.tz
      by_cases heq : lo.inst E = hi.inst E
      · left
        refine ⟨t, fun fuel => by simp [andNext, ha, hlo, hhi, Dt.eq_fixed hc, heq, applyJitter], ?_, ?_, ?_⟩
        · intro m hm
          obtain ⟨x, hx, _, hF⟩ := hof m hm
          have a := lole x hx; have b := hile x hx
          have a' := lole t List.mem_cons_self; have b' := hile t List.mem_cons_self
          have : t.inst E = x.inst E := by omega
          rw [this]; exact hF.1
        · obtain ⟨m, _, _, hF⟩ := hfrom t List.mem_cons_self
          exact hF.2.1
        · intro x hx hle
          obtain ⟨m, hm, _, hF⟩ := hfrom t List.mem_cons_self
          exact hF.2.2 x (hx m hm) hle
      · right; right
        obtain ⟨mlo, _, _, hFlo⟩ := hfrom lo lomem
        obtain ⟨mhi, hmhi, _, hFhi⟩ := hfrom hi himem
        refine ⟨hi, fun fuel => by simp [andNext, ha, hlo, hhi, Dt.eq_fixed hc, heq], ?_,
          ⟨mhi, hmhi, hFhi.1⟩, fun x hx hle => hFhi.2.2 x (hx mhi hmhi) hle⟩
        have := lole hi himem
        have := hFlo.2.1
        omega

/-- **C16** (answers): if every member follows a schedule and the schedules have a common time not
before `now`, then `AndTrigger` answers, with the earliest such time. -/
theorem C16_and_finds_common_partial {E : TzEnv} (hE : E.Fixed) (ms : List Member) (prev : Option Dt)
    (sched : Member → Int → Prop) (hne : ms ≠ []) (hf : ∀ m ∈ ms, Follows E prev (sched m) m)
    (now : Dt) (draw : Int) (T : Int) (hT : ∀ m ∈ ms, sched m T) (hle : now.inst E ≤ T) :
    ∃ fuel r, andNext E ms none prev draw fuel now = some (.ok (some r)) ∧
      FirstOf (fun x => ∀ m ∈ ms, sched m x) (now.inst E) (r.inst E) := by
  generalize hn : (T - now.inst E).toNat = n
  induction n using Nat.strongRecOn generalizing now with
  | _ n ih =>
    rcases and_round hE hne hf now draw with ⟨r, hr, hF⟩ | ⟨_, m, hm, hx⟩ | ⟨now', he, hlt, _, hc⟩
    · exact ⟨1, r, hr 0, hF⟩
    · have := hx T (hT m hm); omega
    · have hle' := hc T hT hle
      obtain ⟨fuel, r, hr, hF⟩ := ih _ (by omega) now' hle' rfl
      exact ⟨fuel + 1, r, by rw [he, hr], hF.1, by have := hF.2.1; omega,
        fun x hx hxle => hF.2.2 x hx (hc x hx hxle)⟩

/-- **C16** (answers): if every member follows a schedule and one of the schedules ends, then `AndTrigger`
answers: with the earliest common time not before `now`, or with `None` if there is none. -/
theorem C16_and_ends_partial {E : TzEnv} (hE : E.Fixed) (ms : List Member) (prev : Option Dt)
    (sched : Member → Int → Prop) (hf : ∀ m ∈ ms, Follows E prev (sched m) m)
    (now : Dt) (draw : Int) (m₀ : Member) (hm₀ : m₀ ∈ ms) (B : Int) (hB : ∀ x, sched m₀ x → x < B) :
    (∃ fuel r, andNext E ms none prev draw fuel now = some (.ok (some r)) ∧
      FirstOf (fun x => ∀ m ∈ ms, sched m x) (now.inst E) (r.inst E)) ∨
    (∃ fuel, andNext E ms none prev draw fuel now = some (.ok none) ∧
      ∀ x, (∀ m ∈ ms, sched m x) → x < now.inst E) := by
  have hne : ms ≠ [] := List.ne_nil_of_mem hm₀
  generalize hn : (B - now.inst E).toNat = n
  induction n using Nat.strongRecOn generalizing now with
  | _ n ih =>
    rcases and_round hE hne hf now draw with ⟨r, hr, hF⟩ | ⟨hr, m, hm, hx⟩ | ⟨now', he, hlt, _, hc⟩
    · exact .inl ⟨1, r, hr 0, hF⟩
    · exact .inr ⟨1, hr 0, fun x hx' => hx x (hx' m hm)⟩
    · by_cases hb : now.inst E < B
      · rcases ih _ (by omega) now' rfl with ⟨fuel, r, hr, hF⟩ | ⟨fuel, hr, hx⟩
        · exact .inl ⟨fuel + 1, r, by rw [he, hr], hF.1, by have := hF.2.1; omega,
            fun x hx hxle => hF.2.2 x hx (hc x hx hxle)⟩
        · refine .inr ⟨fuel + 1, by rw [he, hr], fun x hx' => ?_⟩
          rcases Int.lt_or_le x (now.inst E) with h | h
          · exact h
          · have := hx x hx'; have := hc x hx' h; omega
      · -- past the end: the ended member answers `None` in this round
        have hok : ∀ m ∈ ms, ∃ r, m prev now = .ok r := by
          intro m hm
          rcases hf m hm now with ⟨r, hr, _⟩ | ⟨hr, _⟩ <;> exact ⟨_, hr⟩
        rcases hf m₀ hm₀ now with ⟨r, _, hF⟩ | ⟨hr, hx⟩
        · have := hB _ hF.1; have := hF.2.1; omega
        · exact .inr ⟨1, C16_and_none_of ms none prev now draw 0 hok ⟨m₀, hm₀, hr⟩,
            fun x hx' => hx x (hx' m₀ hm₀)⟩

/-- The interval trigger as a member of a combining trigger (no jitter). -/
def Interval.member (E : TzEnv) (g : Interval) (tz : Nat) : Member :=
  fun prev now => g.next E tz prev now 0

/-- Before the first run, an interval trigger without jitter follows the schedule of its grid, up to
its end: the hypothesis `Follows` of the two theorems above is met. -/
theorem Interval.follows {E : TzEnv} (hE : E.Fixed) (g : Interval) (hv : g.Valid)
    (hj : g.jitter = none) (tz : Nat) :
    Follows E none (fun x => (∃ k : Nat, x = (g.startDt tz).inst E + k * g.interval) ∧
      g.WithinEnd E tz x) (g.member E tz) := by
  intro now
  obtain ⟨t, ht, h⟩ := C11_interval_first_run_partial hE g hv hj tz now 0
  rcases h with ⟨hw, r, hr, rfl⟩ | ⟨hw, hr⟩
  · refine .inl ⟨r, hr, ⟨ht.1, hw⟩, ht.2.1, fun x hx hle => ?_⟩
    obtain ⟨⟨k, rfl⟩, _⟩ := hx
    exact ht.2.2 k hle
  · refine .inr ⟨hr, fun x hx => ?_⟩
    obtain ⟨⟨k, rfl⟩, hw'⟩ := hx
    rcases Int.lt_or_le ((g.startDt tz).inst E + k * g.interval) (now.inst E) with h | h
    · exact h
    · exact absurd (fun s hs => Int.le_trans (ht.2.2 k h) (hw' s hs)) hw

/-- Every 2 s and every 3 s from 0, asked at 1 s: 6 s. -/
example : andNext exEnv
    [Interval.member exEnv ⟨secs 2, some (secs 2), none, ⟨0, false, none⟩, none, none⟩ 0,
     Interval.member exEnv ⟨secs 3, some (secs 3), none, ⟨0, false, none⟩, none, none⟩ 0]
    none none 0 9 ⟨secs 1, false, 0⟩ = some (.ok (some ⟨secs 6, false, 0⟩)) := by decide

/-- **C16, counterexample**: after the first run `AndTrigger` does not terminate, even if the members'
schedules (here every 2 s and every 3 s, both from 0) have infinitely many future times in common:
with a previous time the members ignore `now`, so the loop repeats the same round for ever. -/
theorem C16_and_hangs_witness : ∃ (g₁ g₂ : Interval) (p : Dt), g₁.Valid ∧ g₂.Valid ∧
    g₁.jitter = none ∧ g₂.jitter = none ∧ g₁.stop = none ∧ g₂.stop = none ∧
    (∀ k : Nat, ∃ a b : Nat, (g₁.startDt 0).inst exEnv + a * g₁.interval = secs (6 * k) ∧
      (g₂.startDt 0).inst exEnv + b * g₂.interval = secs (6 * k)) ∧
    (∃ fuel, andNext exEnv [g₁.member exEnv 0, g₂.member exEnv 0] none none 0 fuel p
      = some (.ok (some p))) ∧
    ∀ fuel now, andNext exEnv [g₁.member exEnv 0, g₂.member exEnv 0] none (some p) 0 fuel now = none := by
  refine ⟨⟨secs 2, some (secs 2), none, ⟨0, false, none⟩, none, none⟩,
    ⟨secs 3, some (secs 3), none, ⟨0, false, none⟩, none, none⟩, ⟨0, false, 0⟩,
    by decide, by decide, rfl, rfl, rfl, rfl, ?_, ⟨1, by decide⟩, ?_⟩
  · intro k
    refine ⟨3 * k, 2 * k, ?_, ?_⟩ <;>
      simp [Interval.startDt, NDt.withTz, Dt.inst, exEnv, Zone.fixed, secs] <;> omega
  · intro fuel
    induction fuel with
    | zero => intro now; rfl
    | succ n ih => intro now; rw [← ih ⟨secs 3, false, 0⟩]; rfl

/-- **C16, observation**: without members `AndTrigger` raises `ValueError`. -/
theorem C16_and_empty (E : TzEnv) (j : Option Int) (prev : Option Dt) (draw : Int) (fuel : Nat) (now : Dt) :
    andNext E [] j prev draw (fuel + 1) now = some (.error .valueError) := rfl

end Asyncz
