import Verif.Props.Steady
/-!
# C99, C100: the schedules of interval and cron triggers in zones of constant offset, in full

Totals of C11-C13 and C17-C19 for the zones in which the code keeps them: no assumption that a call ends or
succeeds is left.
-/
namespace Asyncz

namespace Interval

/-- The answers of an interval trigger when each answer is passed back as the previous time; `nows k` and
`draws k` are the time and the random number of the `k`-th call.  After `None` (or an exception) no further call is
made. -/
def chain (E : TzEnv) (g : Interval) (tz : Nat) (nows : Nat → Dt) (draws : Nat → Int) : Nat → Except Exc (Option Dt)
  | 0 => next E g tz none (nows 0) (draws 0)
  | k + 1 => match chain E g tz nows draws k with
    | .ok (some r) => next E g tz (some r) (nows (k + 1)) (draws (k + 1))
    | x => x

/-- **C99.**  In zones of constant offset, an interval trigger without jitter answers, whatever the clock shows at the
later calls: first the earliest time on its grid that is not before the first call's `now`, then one interval
later each time, up to its end date, and `None` from then on.  It never raises. -/
theorem C99_interval_schedule {E : TzEnv} (hE : E.Fixed) (g : Interval) (hv : g.Valid) (hj : g.jitter = none)
    (tz : Nat) (nows : Nat → Dt) (draws : Nat → Int) :
    ∃ t₀, FirstOnGrid ((g.startDt tz).inst E) g.interval ((nows 0).inst E) t₀ ∧
      ∀ k : Nat,
        (g.WithinEnd E tz (t₀ + k * g.interval) →
          ∃ r, chain E g tz nows draws k = .ok (some r) ∧ r.inst E = t₀ + k * g.interval) ∧
        (¬ g.WithinEnd E tz (t₀ + k * g.interval) → chain E g tz nows draws k = .ok none) := by
  obtain ⟨t₀, ht, h0⟩ := C11_interval_first_run_partial hE g hv hj tz (nows 0) (draws 0)
  refine ⟨t₀, ht, fun k => ?_⟩
  have hI : 0 < g.interval := hv.1
  have hmono : ∀ a b : Int, a ≤ b → g.WithinEnd E tz b → g.WithinEnd E tz a :=
    fun a b hab hb s hs => Int.le_trans hab (hb s hs)
  induction k with
  | zero =>
    rcases h0 with ⟨hw, r, hr, hr'⟩ | ⟨hw, hr⟩
    · exact ⟨fun _ => ⟨r, hr, by simpa using hr'⟩, fun h => absurd (by simpa using hw) h⟩
    · exact ⟨fun h => absurd (by simpa using h) hw, fun _ => hr⟩
  | succ k ih =>
    have hstep : t₀ + ((k + 1 : Nat) : Int) * g.interval = t₀ + k * g.interval + g.interval := by
      rw [Int.natCast_add, Int.add_mul]; omega
    rw [hstep]
    constructor
    · intro hw
      obtain ⟨r, hr, hr'⟩ := ih.1 (hmono _ _ (by omega) hw)
      rcases C12_interval_step_partial hE g hj tz r (nows (k + 1)) (draws (k + 1)) with
        ⟨_, r2, hr2, hr2'⟩ | ⟨hn, _⟩
      · exact ⟨r2, by rw [chain, hr]; exact hr2, by rw [hr2', hr']⟩
      · rw [hr'] at hn; exact absurd hw hn
    · intro hw
      by_cases hk : g.WithinEnd E tz (t₀ + k * g.interval)
      · obtain ⟨r, hr, hr'⟩ := ih.1 hk
        rcases C12_interval_step_partial hE g hj tz r (nows (k + 1)) (draws (k + 1)) with ⟨hn, _⟩ | ⟨_, hn⟩
        · rw [hr'] at hn; exact absurd hn hw
        · rw [chain, hr]; exact hn
      · rw [chain, ih.2 hk]

/-- an interval of three seconds with an end date after its second run: two answers, then none -/
example :
    let E : TzEnv := fun _ => Zone.fixed 3600
    let g : Interval := ⟨3, some 3, some 0, ⟨10, false, none⟩, some ⟨16, false, none⟩, none⟩
    g.Valid ∧ (∃ r, chain E g 0 (fun _ => ⟨11, false, 0⟩) (fun _ => 0) 0 = .ok (some r) ∧ r.wall = 13) ∧
      (∃ r, chain E g 0 (fun _ => ⟨11, false, 0⟩) (fun _ => 0) 1 = .ok (some r) ∧ r.wall = 16) ∧
      chain E g 0 (fun _ => ⟨11, false, 0⟩) (fun _ => 0) 2 = .ok none := by
  refine ⟨by decide, ⟨_, rfl, rfl⟩, ⟨_, rfl, rfl⟩, rfl⟩

end Interval

namespace Cron

/-- **C100.**  In zones of constant offset, `get_next_trigger_time` of a cron trigger without jitter always ends, and
answers the earliest time, from the start of its search on, at which the clock of its zone shows a whole second
that matches every field — or, if there is none up to the end date, `None` (or it raises, at the end of the
calendar). -/
theorem C100_cron_schedule {E : TzEnv} (hE : E.Fixed) (g : Trig) (hw : g.WfAll) (hj : g.jitter = none) (tz : Nat)
    (prev : Option Dt) (now : Dt) (draw : Int) (hy : 0 ≤ (startOf E g tz prev now).wall) :
    ∃ n x, (∀ fuel, n ≤ fuel → next E g tz prev now draw fuel = some x) ∧
      ((∃ r, x = .ok (some r) ∧ g.WithinEnd E tz (r.inst E) ∧
          FirstOf (FiresAt g.exprs (E (g.zone tz))) (searchFrom E g tz prev now) (r.inst E)) ∨
        ((x = .ok none ∨ ∃ e, x = .error e) ∧
          ∀ u, FiresAt g.exprs (E (g.zone tz)) u → searchFrom E g tz prev now ≤ u → ¬ g.WithinEnd E tz u)) := by
  obtain ⟨n, x, h⟩ := C19_cron_terminates g hw tz (hE.lawful _) prev now draw hy
  exact ⟨n, x, h, C17_C18_cron_first_match_partial hE g hw hj tz prev now draw n hy x (h n (Nat.le_refl _))⟩

/-- daily at 2:30, in UTC+1, asked at noon of 2021-03-28: the hypotheses hold and the answer is the next day's 2:30 -/
example :
    let E : TzEnv := fun _ => Zone.fixed (secs 3600)
    let g : Trig := ⟨daily 2 30, some 0, none, none, none⟩
    (E.Fixed ∧ g.WfAll ∧ 0 ≤ (startOf E g 0 none ⟨mar28 12 0 0, false, 0⟩).wall) ∧
      ∃ r, next E g 0 none ⟨mar28 12 0 0, false, 0⟩ 0 40 = some (.ok (some r)) ∧ r.wall = mar28 26 30 0 := by
  refine ⟨⟨fun _ => ⟨_, rfl⟩, daily_wf 2 30, by decide +kernel⟩, ?_⟩
  refine ⟨⟨mar28 26 30 0, false, 0⟩, by decide +kernel, rfl⟩

end Cron
end Asyncz
