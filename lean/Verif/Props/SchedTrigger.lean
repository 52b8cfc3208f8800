import Verif.Model.SchedTrigger
import Verif.Props.SchedHistory
import Verif.Props.Trigger
import Verif.Props.Cron
import Verif.Props.Steady
/-!
# The built-in triggers meet the assumptions of the scheduler theorems

In zones with a constant offset, without jitter, the interval, date, cron and shutdown triggers do not
raise after a run, go forward and do not depend on when they are asked; so C24, C31, C32, C41 apply to them.
-/
namespace Asyncz
namespace Sched
open Dt

/-- a usable trigger without jitter; cron triggers need well-formed fields (which parsing guarantees, C20) -/
def Trig.Good : Trig → Prop
  | .interval g => 0 < g.interval ∧ g.jitter = none
  | .date _ => True
  | .cron g => g.WfAll ∧ g.jitter = none
  | .shutdown => True

/-- `u` is after year 1 in every zone the trigger may use -/
def Trig.InCalendar (E : TzEnv) (tz : Nat) (u : Int) : Trig → Prop
  | .cron g => 0 ≤ ((E (g.zone tz)).loc u).1
  | _ => True

theorem cron_total {E : TzEnv} (g : Cron.Trig) (hw : g.WfAll) (tz : Nat) (hE : (E (g.zone tz)).Lawful)
    (prev : Option Dt) (now : Dt) (draw : Int) (hy : 0 ≤ (Cron.startOf E g tz prev now).wall) :
    ∃ x, Cron.next E g tz prev now draw cronFuel = some x := by
  obtain ⟨c1, c2, c3, c4⟩ := Cron.ceil_facts (Cron.startOf E g tz prev now)
  rw [Cron.startOf_tz] at c4
  by_cases hlt : ((Cron.startOf E g tz prev now).ceil).wall < Cron.endOfTime
  · obtain ⟨y, hs⟩ := Cron.search_terminates (stop := g.stopDt tz) hw hE cronFuel _ 0 c4 (by omega) hlt
      (by omega) (by unfold cronFuel; omega)
    have hs' : Cron.search E g (g.tz.getD tz) (g.stop.map (NDt.withTz (g.tz.getD tz))) cronFuel
      (Cron.startOf E g tz prev now).ceil 0 = some y := hs
    simp only [Cron.next, if_pos hlt, hs']
    cases y with
    | error e => exact ⟨_, rfl⟩
    | ok o => cases o <;> exact ⟨_, rfl⟩
  · exact ⟨.error .valueError, by simp only [Cron.next, if_neg hlt]⟩

theorem wall_fixed {E : TzEnv} {d : Dt} {z : Nat} {c : Int} (hz : d.tz = z) (hc : E z = Zone.fixed c) :
    d.wall = ((E z).loc (d.inst E)).1 := by
  subst hz
  simp only [Dt.inst, hc, Zone.fixed]; omega

/-- The answer after a run at `p ≤ now`: for every one of these triggers it is later than `p` and does not depend
on `now`.  (The cron trigger may raise at the end of the calendar: `C19_end_of_calendar_witness`.) -/
theorem trigger_step {E : TzEnv} (hE : E.Fixed) (tz : Nat) (draw : Nat → Int) (g : Trig) (hg : g.Good)
    (p : Int) (hp : g.InCalendar E tz p) (now : Int) (i : Nat) (hle : p ≤ now) :
    Trig.next E tz draw i g (some p) now = Trig.next E tz draw i g (some p) p ∧
    ∀ r, Trig.next E tz draw i g (some p) now = .ok (some r) → p < r := by
  have hinst : ∀ u, (Dt.ofInst E tz u).inst E = u := fun u => Dt.inst_ofInst tz u (hE.lawful tz)
  cases g with
  | interval g =>
    refine ⟨rfl, fun r hr => ?_⟩
    simp only [Trig.next, Option.map_some] at hr
    rcases Interval.C12_interval_step_partial hE g hg.2 tz (Dt.ofInst E tz p) (Dt.ofInst E tz now) (draw i) with
      ⟨_, q, hq, hq'⟩ | ⟨_, hq⟩
    · rw [hq] at hr
      simp only [toInst, Option.map_some, Except.ok.injEq, Option.some.injEq] at hr
      rw [hq', hinst] at hr
      have := hg.1
      omega
    · rw [hq] at hr; simp [toInst] at hr
  | date g => exact ⟨rfl, fun r hr => by simp [Trig.next, DateTrig.next, toInst] at hr⟩
  | shutdown => exact ⟨rfl, fun r hr => by simp [Trig.next, shutdownNext, toInst] at hr⟩
  | cron g =>
    obtain ⟨hw, hj⟩ := hg
    have hfrom : ∀ n, p ≤ n → Cron.searchFrom E g tz (some (Dt.ofInst E tz p)) (Dt.ofInst E tz n) = p + 1 := by
      intro n hn
      simp only [Cron.searchFrom, hinst]
      rw [if_neg (by omega)]
    obtain ⟨c, hc⟩ := hE (g.zone tz)
    have hwall : ∀ n, p ≤ n → (Cron.startOf E g tz (some (Dt.ofInst E tz p)) (Dt.ofInst E tz n)).wall = p + 1 + c := by
      intro n hn
      rw [wall_fixed (Cron.startOf_tz E g tz _ _) hc, Cron.startOf_inst hE, hfrom n hn, hc]
      rfl
    have hy : ∀ n, p ≤ n → 0 ≤ (Cron.startOf E g tz (some (Dt.ofInst E tz p)) (Dt.ofInst E tz n)).wall := by
      intro n hn
      rw [hwall n hn]
      have hp' : 0 ≤ ((E (g.zone tz)).loc p).1 := hp
      rw [hc] at hp'
      simp only [Zone.fixed] at hp'
      omega
    have hfold : ∀ d : Dt, (d.ceil).fold = if d.wall % 1000000 > 0 then false else d.fold := by
      intro d; simp only [Dt.ceil]; split <;> rfl
    constructor
    · -- the search starts at the same time
      have hsame : (Cron.startOf E g tz (some (Dt.ofInst E tz p)) (Dt.ofInst E tz now)) =
          (Cron.startOf E g tz (some (Dt.ofInst E tz p)) (Dt.ofInst E tz p)) := by
        have h1 := hwall now hle
        have h2 := hwall p (Int.le_refl _)
        have f : ∀ n, p ≤ n → (Cron.startOf E g tz (some (Dt.ofInst E tz p)) (Dt.ofInst E tz n)).fold = false := by
          intro n hn
          have hz : ∀ z, (Dt.ofInst E tz z).fold = false := by
            intro z
            obtain ⟨c', hc'⟩ := hE tz
            simp only [Dt.ofInst, hc', Zone.fixed]
          have hz' : ∀ z, (Dt.ofInst E (g.tz.getD tz) z).fold = false := by
            intro z
            obtain ⟨c', hc'⟩ := hE (g.tz.getD tz)
            simp only [Dt.ofInst, hc', Zone.fixed]
          have hz1 : ∀ d : Dt, d.fold = false → (Dt.astimezone E (g.tz.getD tz) d).fold = false := by
            intro d hd
            simp only [Dt.astimezone]
            split
            · exact hd
            · exact hz' _
          simp only [Cron.startOf]
          apply hz1
          split
          · rfl
          · simp only [Dt.min]; split
            · rfl
            · exact hz n
        have h3 := f now hle
        have h4 := f p (Int.le_refl _)
        have h5 := Cron.startOf_tz E g tz (some (Dt.ofInst E tz p)) (Dt.ofInst E tz now)
        have h6 := Cron.startOf_tz E g tz (some (Dt.ofInst E tz p)) (Dt.ofInst E tz p)
        generalize Cron.startOf E g tz (some (Dt.ofInst E tz p)) (Dt.ofInst E tz now) = x at *
        generalize Cron.startOf E g tz (some (Dt.ofInst E tz p)) (Dt.ofInst E tz p) = y at *
        cases x; cases y
        simp_all
      simp only [Trig.next, cronNext, Option.map_some, Cron.next, hsame]
    · intro r hr
      simp only [Trig.next, cronNext, Option.map_some] at hr
      obtain ⟨x, hx⟩ := cron_total g hw tz (hE.lawful _) (some (Dt.ofInst E tz p)) (Dt.ofInst E tz now) (draw i)
        (hy now hle)
      rw [hx] at hr
      cases x with
      | error e => cases hr
      | ok o => cases o with
        | none => simp [toInst] at hr
        | some d =>
          simp only [toInst, Option.map_some, Except.ok.injEq, Option.some.injEq] at hr
          have := Cron.C19_cron_progress_partial hE g hw hj tz (Dt.ofInst E tz p) (Dt.ofInst E tz now) d (draw i)
            cronFuel (hy now hle) (by rw [hinst, hinst]; exact hle) hx
          rw [hinst] at this
          omega

/-- The due run times of a task whose interval trigger steps by one interval from every due time. -/
theorem interval_run_times {E : TzEnv} (tz : Nat) (g : Interval) (hI : 0 < g.interval) (e : Env Trig) (fuel : Nat)
    (r : Int) (hstep : ∀ q, r ≤ q → q ≤ e.now →
      (g.WithinEnd E tz (q + g.interval) ∧ e.next 0 (.interval g) (some q) e.now = .ok (some (q + g.interval))) ∨
      (¬ g.WithinEnd E tz (q + g.interval) ∧ e.next 0 (.interval g) (some q) e.now = .ok none))
    (l : List Int) (h : runTimes e (.interval g) fuel (some r) = some (.ok l)) :
    ∃ n : Nat, l = (List.range n).map (fun k : Nat => r + k * g.interval) ∧
      ∀ k : Nat, k < n ↔ r + k * g.interval ≤ e.now ∧
        ∀ j : Nat, 0 < j → j ≤ k → g.WithinEnd E tz (r + j * g.interval) := by
  induction fuel generalizing r l with
  | zero => simp [runTimes] at h
  | succ fuel ih =>
    rw [runTimes] at h
    split at h
    · rename_i hle
      rcases hstep r (Int.le_refl _) hle with ⟨hwe, hn⟩ | ⟨hwe, hn⟩
      · rw [hn] at h
        simp only [] at h
        cases hrt : runTimes e (.interval g) fuel (some (r + g.interval)) with
        | none => rw [hrt] at h; cases h
        | some x => cases x with
          | error x => rw [hrt] at h; cases h
          | ok l' =>
            rw [hrt] at h
            simp only [Option.some.injEq, Except.ok.injEq] at h
            subst h
            obtain ⟨n, hl', hk⟩ := ih _ (fun q h1 h2 => hstep q (by omega) h2) _ hrt
            refine ⟨n + 1, ?_, fun k => ?_⟩
            · rw [List.range_succ_eq_map, List.map_cons, List.map_map, hl']
              simp only [Int.natCast_zero, Int.zero_mul, Int.add_zero, List.cons.injEq, true_and]
              apply List.map_congr_left
              intro k _
              simp only [Function.comp, Nat.succ_eq_add_one]
              have := Int.add_mul (k : Int) 1 g.interval
              push_cast
              omega
            · have step : ∀ j : Nat, r + ((j + 1 : Nat) : Int) * g.interval = r + g.interval + j * g.interval := by
                intro j
                have := Int.add_mul (j : Int) 1 g.interval
                push_cast
                omega
              cases k with
              | zero =>
                simp only [Int.natCast_zero, Int.zero_mul, Int.add_zero]
                exact ⟨fun _ => ⟨hle, fun j h1 h2 => by omega⟩, fun _ => by omega⟩
              | succ k =>
                have hk := hk k
                rw [step]
                constructor
                · intro hlt
                  obtain ⟨h1, h2⟩ := hk.1 (by omega)
                  refine ⟨h1, fun j hj0 hj => ?_⟩
                  cases j with
                  | zero => omega
                  | succ j =>
                    rw [step]
                    cases j with
                    | zero => simpa using hwe
                    | succ j => exact h2 _ (by omega) (by omega)
                · rintro ⟨h1, h2⟩
                  have : k < n := hk.2 ⟨h1, fun j hj0 hj => by rw [← step]; exact h2 (j + 1) (by omega) (by omega)⟩
                  omega
      · rw [hn] at h
        have h0 : runTimes e (.interval g) fuel none = some (.ok []) := by cases fuel <;> rfl
        simp only [h0, Option.some.injEq, Except.ok.injEq] at h
        subst h
        refine ⟨1, by simp [List.range_succ], fun k => ⟨fun hk => ?_, fun ⟨_, h2⟩ => ?_⟩⟩
        · have : k = 0 := by omega
          subst this
          exact ⟨by simpa using hle, fun j h1 h2 => by omega⟩
        · cases k with
          | zero => omega
          | succ k => exact absurd (by simpa using h2 1 (by omega) (by omega)) hwe
    · rename_i hle
      simp only [Option.some.injEq, Except.ok.injEq] at h
      subst h
      refine ⟨0, rfl, fun k => ⟨fun hk => by omega, fun ⟨h1, _⟩ => ?_⟩⟩
      have : 0 ≤ (k : Int) * g.interval := Int.mul_nonneg (by omega) (by omega)
      omega

/-- **C24** (interval triggers): the due run times of a task with an interval trigger (no jitter, zones with a
constant offset) are `next_run_time`, `next_run_time + interval`, ... – exactly those that are not after `now`
and (but for the first) not after `end_at`. -/
theorem C24_interval_run_times_partial {E : TzEnv} (hE : E.Fixed) (tz : Nat) (draw : Nat → Int) (g : Interval)
    (hI : 0 < g.interval) (hj : g.jitter = none) (e : Env Trig) (he : e.next = Trig.next E tz draw) (fuel : Nat)
    (r : Int) (l : List Int) (h : runTimes e (.interval g) fuel (some r) = some (.ok l)) :
    ∃ n : Nat, l = (List.range n).map (fun k : Nat => r + k * g.interval) ∧
      ∀ k : Nat, k < n ↔ r + k * g.interval ≤ e.now ∧
        ∀ j : Nat, 0 < j → j ≤ k → g.WithinEnd E tz (r + j * g.interval) := by
  have hinst : ∀ u, (Dt.ofInst E tz u).inst E = u := fun u => Dt.inst_ofInst tz u (hE.lawful tz)
  refine interval_run_times tz g hI e fuel r (fun q _ _ => ?_) l h
  rw [he]
  rcases Interval.C12_interval_step_partial hE g hj tz (Dt.ofInst E tz q) (Dt.ofInst E tz e.now) (draw 0) with
    ⟨hwe, d, hq, hq'⟩ | ⟨hwe, hq⟩
  · rw [hinst] at hq' hwe
    exact .inl ⟨hwe, by simp only [Trig.next, Option.map_some, hq, toInst, hq']⟩
  · rw [hinst] at hwe
    exact .inr ⟨hwe, by simp only [Trig.next, Option.map_some, hq, toInst, Option.map_none]⟩

/-- **C24** (interval triggers, any zone): the same if the run times up to `now`, and one interval more, lie in a period
without a change of the clocks. -/
theorem C24_interval_run_times_calm_partial {E : TzEnv} {lo hi : Int} (hS : E.Steady lo hi) (tz : Nat) (draw : Nat → Int)
    (g : Interval) (hv : g.Valid) (hj : g.jitter = none) (hst : ∀ s, g.stopDt tz = some s → s.Clear E lo hi)
    (e : Env Trig) (he : e.next = Trig.next E tz draw) (fuel : Nat) (r : Int) (hlo : lo ≤ r) (hhi : e.now + g.interval ≤ hi)
    (l : List Int) (h : runTimes e (.interval g) fuel (some r) = some (.ok l)) :
    ∃ n : Nat, l = (List.range n).map (fun k : Nat => r + k * g.interval) ∧
      ∀ k : Nat, k < n ↔ r + k * g.interval ≤ e.now ∧
        ∀ j : Nat, 0 < j → j ≤ k → g.WithinEnd E tz (r + j * g.interval) := by
  have hI := hv.1
  refine interval_run_times tz g hI e fuel r (fun q h1 h2 => ?_) l h
  rw [he]
  obtain ⟨q1, q2⟩ := Dt.ofInst_in hS tz (u := q) (by omega) (by omega)
  have hC : g.Calm E tz (some (Dt.ofInst E tz q)) (Dt.ofInst E tz e.now) lo hi :=
    ⟨by simp, fun p hp => by
      cases hp
      refine ⟨q1, ?_⟩
      rw [hj, q2]; simp only [Option.getD_none, secs]; omega, hst⟩
  rcases Interval.C12_interval_step_calm_partial hS g hv hj tz (Dt.ofInst E tz q) (Dt.ofInst E tz e.now) (draw 0) hC with
    ⟨hwe, d, hq, hq', _⟩ | ⟨hwe, hq⟩
  · rw [q2] at hq' hwe
    exact .inl ⟨hwe, by simp only [Trig.next, Option.map_some, hq, toInst, hq']⟩
  · rw [q2] at hwe
    exact .inr ⟨hwe, by simp only [Trig.next, Option.map_some, hq, toInst, Option.map_none]⟩

-- ten minutes, in the zone of the counterexample below, the day after the clocks went back
example : (runTimes (τ := Trig) ⟨secs 91300, Trig.next Interval.fallEnv 0 (fun _ => 0), fun _ => true, true, fun _ => true,
      fun _ _ => true⟩
    (.interval ⟨secs 600, some (secs 600), some 0, ⟨0, false, none⟩, none, none⟩) 20 (some (secs 90000)))
    = some (.ok [secs 90000, secs 90600, secs 91200]) := by decide +kernel

-- every 10 s, end date after 25 s: due at 5, 15 and 25 s
example : (runTimes (τ := Trig) ⟨secs 60, Trig.next exEnv 0 (fun _ => 0), fun _ => true, true, fun _ => true, fun _ _ => true⟩
    (.interval ⟨secs 10, some (secs 10), none, ⟨0, false, none⟩, some ⟨secs 25, false, some 0⟩, none⟩) 20 (some (secs 5)))
    = some (.ok [secs 5, secs 15, secs 25]) := by decide +kernel

/-- **C24** (cron triggers): the due run times of a task with a cron trigger (no jitter, zones with a constant
offset, dates after year 1) are, in increasing order, exactly `next_run_time` and the matching times of the
calendar after it that are not after `now` nor after `end_at`. -/
theorem C24_cron_run_times_partial {E : TzEnv} (hE : E.Fixed) (tz : Nat) (draw : Nat → Int) (g : Cron.Trig)
    (hw : g.WfAll) (hj : g.jitter = none) (e : Env Trig) (he : e.next = Trig.next E tz draw) (fuel : Nat)
    (r : Int) (hcal : Trig.InCalendar E tz r (.cron g)) (l : List Int)
    (h : runTimes e (.cron g) fuel (some r) = some (.ok l)) :
    l.Pairwise (· < ·) ∧ ∀ u, u ∈ l ↔ u ≤ e.now ∧ (u = r ∨
      r < u ∧ Cron.FiresAt g.exprs (E (g.zone tz)) u ∧ g.WithinEnd E tz u) := by
  have hinst : ∀ u, (Dt.ofInst E tz u).inst E = u := fun u => Dt.inst_ofInst tz u (hE.lawful tz)
  obtain ⟨c, hc⟩ := hE (g.zone tz)
  have hcalIff : ∀ p, Trig.InCalendar E tz p (.cron g) ↔ 0 ≤ p + c := by
    intro p; simp only [Trig.InCalendar, hc, Zone.fixed]
  suffices hmain : l.Pairwise (· < ·) ∧ (∀ u ∈ l, r ≤ u) ∧ ∀ u, u ∈ l ↔ u ≤ e.now ∧ (u = r ∨
      r < u ∧ Cron.FiresAt g.exprs (E (g.zone tz)) u ∧ g.WithinEnd E tz u) from ⟨hmain.1, hmain.2.2⟩
  induction fuel generalizing r l with
  | zero => simp [runTimes] at h
  | succ fuel ih =>
    rw [runTimes] at h
    split at h
    · rename_i hle
      rw [he] at h
      have hy : 0 ≤ (Cron.startOf E g tz (some (Dt.ofInst E tz r)) (Dt.ofInst E tz e.now)).wall := by
        rw [wall_fixed (Cron.startOf_tz E g tz _ _) hc, Cron.startOf_inst hE, hc]
        simp only [Cron.searchFrom, hinst, if_neg (show ¬ e.now < r by omega), Zone.fixed]
        have := (hcalIff r).1 hcal
        omega
      have hfrom : Cron.searchFrom E g tz (some (Dt.ofInst E tz r)) (Dt.ofInst E tz e.now) = r + 1 := by
        simp only [Cron.searchFrom, hinst, if_neg (show ¬ e.now < r by omega)]
      obtain ⟨x, hx⟩ := cron_total g hw tz (hE.lawful _) (some (Dt.ofInst E tz r)) (Dt.ofInst E tz e.now) (draw 0) hy
      have hn : Trig.next E tz draw 0 (.cron g) (some r) e.now = toInst E x := by
        simp only [Trig.next, Option.map_some, cronNext, hx]
      rw [hn] at h
      have hspec := Cron.C17_C18_cron_first_match_partial hE g hw hj tz _ _ (draw 0) cronFuel hy x hx
      rw [hfrom] at hspec
      rcases hspec with ⟨d, rfl, hd1, hd2, hd3, hd4⟩ | ⟨hx', hno⟩
      · simp only [toInst, Option.map_some] at h
        generalize hq : d.inst E = q at *
        cases hrt : runTimes e (.cron g) fuel (some q) with
        | none => rw [hrt] at h; cases h
        | some y => cases y with
          | error y => rw [hrt] at h; cases h
          | ok l' =>
            rw [hrt] at h
            simp only [Option.some.injEq, Except.ok.injEq] at h
            subst h
            have hcal' : Trig.InCalendar E tz q (.cron g) := by
              rw [hcalIff] at hcal ⊢; omega
            obtain ⟨i1, i2, i3⟩ := ih q hcal' l' hrt
            refine ⟨List.pairwise_cons.2 ⟨fun u hu => by have := i2 u hu; omega, i1⟩, ?_, fun u => ?_⟩
            · intro u hu
              rcases List.mem_cons.1 hu with rfl | hu
              · omega
              · have := i2 u hu; omega
            · rw [List.mem_cons, i3]
              constructor
              · rintro (rfl | ⟨h1, rfl | ⟨h2, h3, h4⟩⟩)
                · exact ⟨hle, .inl rfl⟩
                · exact ⟨h1, .inr ⟨by omega, hd2, hd1⟩⟩
                · exact ⟨h1, .inr ⟨by omega, h3, h4⟩⟩
              · rintro ⟨h1, rfl | ⟨h2, h3, h4⟩⟩
                · exact .inl rfl
                · have := hd4 u h3 (by omega)
                  by_cases huq : u = q
                  · exact .inr ⟨h1, .inl huq⟩
                  · exact .inr ⟨h1, .inr ⟨by omega, h3, h4⟩⟩
      · rcases hx' with rfl | ⟨y, rfl⟩
        · have h0 : runTimes e (.cron g) fuel none = some (.ok []) := by cases fuel <;> rfl
          simp only [toInst, Option.map_none, h0, Option.some.injEq, Except.ok.injEq] at h
          subst h
          refine ⟨by simp, by simp, fun u => ?_⟩
          rw [List.mem_singleton]
          constructor
          · rintro rfl; exact ⟨hle, .inl rfl⟩
          · rintro ⟨h1, rfl | ⟨h2, h3, h4⟩⟩
            · rfl
            · exact absurd h4 (hno u h3 (by omega))
        · simp [toInst] at h
    · rename_i hle
      simp only [Option.some.injEq, Except.ok.injEq] at h
      subst h
      refine ⟨by simp, by simp, fun u => ?_⟩
      simp only [List.not_mem_nil, false_iff]
      rintro ⟨h1, rfl | ⟨h2, _⟩⟩ <;> omega

/-- **C24, counterexample** with daylight saving: an interval trigger of ten minutes, next run at the second
10:30 of the night the clocks go back.  The list of due times is not in order and names times of the hour
before the next run time. -/
theorem C24_dst_witness : ∃ (g : Interval) (e : Env Trig) (r : Int) (l : List Int), 0 < g.interval ∧ g.jitter = none ∧
    e.next = Trig.next Interval.fallEnv 0 (fun _ => 0) ∧
    runTimes e (.interval g) 20 (some r) = some (.ok l) ∧ l.head? = some r ∧ ¬ l.Pairwise (· < ·) ∧
    ∃ u ∈ l, u < r :=
  ⟨⟨secs 600, some (secs 600), some 0, ⟨0, false, none⟩, none, none⟩,
    ⟨secs 38400, Trig.next Interval.fallEnv 0 (fun _ => 0), fun _ => true, true, fun _ => true, fun _ _ => true⟩,
    secs 37800, [secs 37800, secs 34800, secs 35400], by decide, rfl, rfl, by decide +kernel, by decide, by decide, by decide⟩

end Sched
end Asyncz
