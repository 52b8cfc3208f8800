import Verif.Props.Flow
import Verif.Props.CalmRun
/-!
# C124 between two changes of the clocks

`Props/Flow.lean` follows the runs of tasks in zones of constant offset into the run history.  Here the zones are arbitrary, and the
time from the first run to the one after the latest pass is a period without a change of the clocks (`Spec/Steady.lean`).
-/
namespace Asyncz
namespace Flow
open Listing (Text)
open Sched

variable {σ φ : Type} {O : StoreOps σ (Body Trig φ)} {E : TzEnv} {lo hi : Int}

/-- **C124** (interval triggers, any time zones): the run history of a task with an interval trigger that does not coalesce, over a
period without a change of the clocks, has exactly the times `r`, `r + interval`, … up to the latest pass and the end date, one record
each, with what is true of each. -/
theorem C124_calm_interval_partial (hS : E.Steady lo hi) (tz : Nat) (L : LawfulStore O)
    (c : Cfg Trig) (a i : String) (s s' : State σ Trig φ) (hw : WF L s) (t : T Trig φ) (ht : entry O s a i = some t) (g : Interval)
    (hg : t.body.trigger = .interval g) (hv : g.Valid) (hj : g.jitter = none) (hco : t.body.coalesce = false)
    (hst : ∀ s, g.stopDt tz = some s → s.Clear E lo hi)
    (r : Int) (hr : t.nrt = some r) (hlo : lo ≤ r) (passes : List (Int × List Obs)) (T : Int) (hT : Latest passes T) (hhi : T + g.interval ≤ hi)
    (h : Served L c (fun e => ∃ draw, e.next = Trig.next E tz draw) a i t.body.executor s passes s')
    (iso : Int → Text) (hiso : ∀ x y, iso x = iso y → x = y) (rid : Hist.Key → Text) (m : Nat)
    (alias : String → String → String) (hal : ∀ b, alias b i = a ↔ b = a) (l : List Item) (honly : Only a i (seen l) passes)
    (hne : NoEscape (run alias l) a i) (hroom : Room iso m (run alias l).ops) (hnc : Hist.NoCollision rid iso (run alias l).ops) :
    ∃ n : Nat, (∀ k : Nat, k < n ↔ r + k * g.interval ≤ T ∧ ∀ j : Nat, 0 < j → j ≤ k → g.WithinEnd E tz (r + j * g.interval)) ∧
    ∃ h, Hist.runAll rid iso m (run alias l).ops = some h ∧
      Recorded iso h (run alias l) (seen l) a i ((List.range n).map (fun k : Nat => r + k * g.interval)) := by
  obtain ⟨n, h1, h2, _⟩ := C121_interval hS tz L c a i s s' hw t ht g hg hv hj hco hst r hr hlo passes T hT hhi h
  refine ⟨n, h2, ?_⟩
  rw [← h1]
  have hI := hv.1
  let ans : Int → Except Exc (Option Int) := fun p => if p ≤ T then Trig.next E tz (fun _ => 0) 0 (.interval g) (some p) p else .ok none
  have hf : Forward r ans := by
    intro p q hp hq
    simp only [ans] at hq
    split at hq
    · rcases interval_calm hS tz g hv hj hst p (by omega) (by omega) (fun _ => 0) 0 p with ⟨_, h2⟩ | ⟨_, h2⟩ <;> rw [h2] at hq <;> cases hq
      omega
    · cases hq
  have hreg : ∀ e : Env Trig, (∃ draw, e.next = Trig.next E tz draw) → e.now ≤ T → Regular t.body.trigger r ans e := by
    rintro e ⟨draw, he⟩ hn site p h1 h2
    simp only [ans, if_pos (show p ≤ T by omega), he, hg]
    rcases interval_calm hS tz g hv hj hst p (by omega) (by omega) (fun _ => 0) 0 p with ⟨h3, h4⟩ | ⟨h3, h4⟩ <;>
      rcases interval_calm hS tz g hv hj hst p (by omega) (by omega) draw site e.now with ⟨h5, h6⟩ | ⟨h5, h6⟩
    · rw [h4, h6]
    · exact absurd h3 h5
    · exact absurd h5 h3
    · rw [h4, h6]
  exact C124_recorded_partial L c a i s s' hw t ht r hr r (Int.le_refl _) hf passes ((h.until hT.2).mono fun e he => hreg e he.1 he.2)
    iso hiso rid m alias hal l honly hne hroom hnc

/-- **C124** (cron triggers, any time zones): the run history of a task with a cron trigger that does not coalesce, over a period without
a change of the clocks that reaches to some matching time `v` after the latest pass, has exactly `r` and the matching times of the
calendar after it, up to the latest pass, one record each, with what is true of each. -/
theorem C124_calm_cron_partial (hS : E.Steady lo hi) (tz : Nat) (L : LawfulStore O)
    (c : Cfg Trig) (a i : String) (s s' : State σ Trig φ) (hw : WF L s) (t : T Trig φ) (ht : entry O s a i = some t) (g : Cron.Trig)
    (hg : t.body.trigger = .cron g) (hwf : g.WfAll) (hj : g.jitter = none) (hco : t.body.coalesce = false)
    (hE : (E (g.zone tz)).Lawful) (hcal : 0 ≤ ((E (g.zone tz)).loc lo).1) (hst : ∀ s, g.stopDt tz = some s → s.Clear E lo hi)
    (r : Int) (hr : t.nrt = some r) (hlo : lo ≤ r) (passes : List (Int × List Obs)) (T : Int) (hT : Latest passes T)
    (v : Int) (hv : Cron.FiresAt g.exprs (E (g.zone tz)) v) (hTv : T < v) (hvhi : v ≤ hi) (hve : g.WithinEnd E tz v)
    (h : Served L c (fun e => ∃ draw, e.next = Trig.next E tz draw) a i t.body.executor s passes s')
    (iso : Int → Text) (hiso : ∀ x y, iso x = iso y → x = y) (rid : Hist.Key → Text) (m : Nat)
    (alias : String → String → String) (hal : ∀ b, alias b i = a ↔ b = a) (l : List Item) (honly : Only a i (seen l) passes)
    (hne : NoEscape (run alias l) a i) (hroom : Room iso m (run alias l).ops) (hnc : Hist.NoCollision rid iso (run alias l).ops) :
    ∃ us : List Int, (∀ u, u ∈ us ↔ u ≤ T ∧ (u = r ∨ r < u ∧ Cron.FiresAt g.exprs (E (g.zone tz)) u)) ∧
    ∃ h, Hist.runAll rid iso m (run alias l).ops = some h ∧ Recorded iso h (run alias l) (seen l) a i us := by
  obtain ⟨_, h2, _⟩ := C121_cron hS tz L c a i s s' hw t ht g hg hwf hj hco hE hcal hst r hr hlo passes T hT v hv hTv hvhi hve h
  refine ⟨_, h2, ?_⟩
  have step := cron_calm hS tz g hwf hj hE hcal hst v hv hvhi hve
  let ans : Int → Except Exc (Option Int) := fun p =>
    if r ≤ p ∧ p ≤ T then Trig.next E tz (fun _ => 0) 0 (.cron g) (some p) p else .error .attributeError
  have hf : Forward r ans := by
    intro p q hp hq
    simp only [ans] at hq
    split at hq
    · obtain ⟨n, h1, h2, h3, h4, h5, h6⟩ := step p p (by omega) (Int.le_refl _) (by omega) (fun _ => 0) 0
      rw [h1] at hq; cases hq; exact h5
    · cases hq
  have hreg : ∀ e : Env Trig, (∃ draw, e.next = Trig.next E tz draw) → e.now ≤ T → Regular t.body.trigger r ans e := by
    rintro e ⟨draw, he⟩ hn site p h1 h2
    simp only [ans, if_pos (show r ≤ p ∧ p ≤ T by omega), he, hg]
    obtain ⟨n, h3, _, _, h5, h6, h7⟩ := step p p (by omega) (Int.le_refl _) (by omega) (fun _ => 0) 0
    obtain ⟨n', h3', _, _, h5', h6', h7'⟩ := step p e.now (by omega) h2 (by omega) draw site
    rw [h3, h3']
    have := h7 n' h5' h6'
    have := h7' n h5 h6
    rw [show n = n' by omega]
  exact C124_recorded_partial L c a i s s' hw t ht r hr r (Int.le_refl _) hf passes ((h.until hT.2).mono fun e he => hreg e he.1 he.2)
    iso hiso rid m alias hal l honly hne hroom hnc

/-! ## Example: zones whose clocks go forward two hours after midnight (`exSpring`, `exSpring_steady`) -/

/-- a task every 10 s, next at 00:00:05, in the store `s` -/
def exSpringState : State (Memory.Store (Body Trig Unit)) Trig Unit :=
  { exTrigState with stores := [("s", Memory.after [.add ⟨"tick", some (day 5), ⟨.interval exEvery, "default", "s", false, 9, none, false, ()⟩⟩])] }

def exSpringPs : Option (List (Int × List Obs)) :=
  (exPasses exSpring exTrigCfg "default" [day 7, day 33, day 34, day 70] exSpringState).map (·.1)

-- the first run ends before its submission is reported, those of the second pass after it, the last are in progress
example : (exSpringPs.bind fun ps => (Hist.runAll (Hist.runIdOf id) Hist.exIso 10 (run (fun b _ => b) (exItems ps)).ops).map fun h =>
      h.records.values.map fun r => (r.task, r.time, r.status)) =
    some [("tick".toList, .utc (day 5), .succeeded), ("tick".toList, .utc (day 15), .running), ("tick".toList, .utc (day 25), .running),
      ("tick".toList, .utc (day 35), .running), ("tick".toList, .utc (day 45), .running), ("tick".toList, .utc (day 55), .running),
      ("tick".toList, .utc (day 65), .running)] := by decide +kernel
example : exSpringPs.map (fun ps => (submissionEvents "s" "tick" (seen (exItems ps)), sends "s" "tick" (seen (exItems ps)))) =
    exSpringPs.map (fun ps => (ps.flatMap (fun p => submissionEvents "s" "tick" p.2), ps.flatMap (fun p => sends "s" "tick" p.2))) := by
  decide +kernel

end Flow
end Asyncz
