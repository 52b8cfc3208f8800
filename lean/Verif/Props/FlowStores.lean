import Verif.Props.Flow
import Verif.Props.BuiltinStores2
/-!
# C124 over the built-in stores

What `Props/Flow.lean` proves for lawful stores, for a scheduler with any mixture of the five built-in stores (C123), and in zones whose
clocks change, over a period without a change (C121).
-/
namespace Asyncz
namespace Flow
open Listing (Text)
open Sched

section
variable {τ φ : Type} {c : Persist.Codec (Body τ φ)} {suffix : String} {cleanup : Bool} {ans : Int → Except Exc (Option Int)}

/-- **C124, any mixture of built-in stores**, every trigger whose answers go forward, with or without coalescing. -/
theorem C124_stores_partial (hc : ∀ t, (c.enc t).isSome) (cfg : Cfg τ) (a i : String) (s s' : State (AnyStore τ φ) τ φ)
    (hs : Consistent c suffix s) (hi : Takes s a i) (t : T τ φ) (ht : entry (builtinOps c suffix cleanup) s a i = some t) (r : Int)
    (hr : t.nrt = some r) (lo : Int) (hlo : lo ≤ r) (hf : Forward lo ans) (passes : List (Int × List Obs))
    (h : ServedBy c suffix cleanup cfg (Regular t.body.trigger lo ans) a i t.body.executor s passes s')
    (iso : Int → Text) (hiso : ∀ x y, iso x = iso y → x = y) (rid : Hist.Key → Text) (m : Nat)
    (alias : String → String → String) (hal : ∀ b, alias b i = a ↔ b = a) (l : List Item) (honly : Only a i (seen l) passes)
    (hne : NoEscape (run alias l) a i) (hroom : Room iso m (run alias l).ops) (hnc : Hist.NoCollision rid iso (run alias l).ops) :
    ∃ h, Hist.runAll rid iso m (run alias l).ops = some h ∧ Recorded iso h (run alias l) (seen l) a i (reported a i passes) := by
  obtain ⟨gs, after, q1, _, _, _, q5, q6, _⟩ := C123_none_lost hc cfg a i s s' hs hi t ht r hr lo hlo hf passes h
  exact recorded_of_groups hiso rid m alias hal l hne hroom hnc passes honly _ _ gs
    (q1.increasing hf fun r' hr' => by cases hr'; exact hlo) q5 q6

end

section
variable {φ : Type} {c : Persist.Codec (Body Trig φ)} {suffix : String} {cleanup : Bool} {E : TzEnv}

/-- **C124, any mixture of built-in stores, interval triggers** that do not coalesce, in zones of constant offset. -/
theorem C124_stores_interval_partial (hc : ∀ t, (c.enc t).isSome) (hE : E.Fixed) (tz : Nat) (cfg : Cfg Trig)
    (a i : String) (s s' : State (AnyStore Trig φ) Trig φ) (hs : Consistent c suffix s) (hi : Takes s a i) (t : T Trig φ)
    (ht : entry (builtinOps c suffix cleanup) s a i = some t) (g : Interval)
    (hg : t.body.trigger = .interval g) (hI : 0 < g.interval) (hj : g.jitter = none) (hco : t.body.coalesce = false)
    (r : Int) (hr : t.nrt = some r) (passes : List (Int × List Obs)) (T : Int) (hT : Latest passes T)
    (h : ServedBy c suffix cleanup cfg (fun e => ∃ draw, e.next = Trig.next E tz draw) a i t.body.executor s passes s')
    (iso : Int → Text) (hiso : ∀ x y, iso x = iso y → x = y) (rid : Hist.Key → Text) (m : Nat)
    (alias : String → String → String) (hal : ∀ b, alias b i = a ↔ b = a) (l : List Item) (honly : Only a i (seen l) passes)
    (hne : NoEscape (run alias l) a i) (hroom : Room iso m (run alias l).ops) (hnc : Hist.NoCollision rid iso (run alias l).ops) :
    ∃ n : Nat, (∀ k : Nat, k < n ↔ r + k * g.interval ≤ T ∧ ∀ j : Nat, 0 < j → j ≤ k → g.WithinEnd E tz (r + j * g.interval)) ∧
    ∃ h, Hist.runAll rid iso m (run alias l).ops = some h ∧
      Recorded iso h (run alias l) (seen l) a i ((List.range n).map (fun k : Nat => r + k * g.interval)) := by
  rw [agree_entry (builtin_agree c suffix cleanup hc) hi] at ht
  exact C124_interval_partial hE tz _ cfg a i s s' ((consistent_iff hc).1 hs) t ht g hg hI hj hco r hr passes T hT
    (servedBy_ideal hc h hs hi) iso hiso rid m alias hal l honly hne hroom hnc

/-- **C124, any mixture of built-in stores, cron triggers** that do not coalesce, in zones of constant offset. -/
theorem C124_stores_cron_partial (hc : ∀ t, (c.enc t).isSome) (hE : E.Fixed) (tz : Nat) (cfg : Cfg Trig)
    (a i : String) (s s' : State (AnyStore Trig φ) Trig φ) (hs : Consistent c suffix s) (hi : Takes s a i) (t : T Trig φ)
    (ht : entry (builtinOps c suffix cleanup) s a i = some t) (g : Cron.Trig)
    (hg : t.body.trigger = .cron g) (hwf : g.WfAll) (hj : g.jitter = none) (hco : t.body.coalesce = false)
    (r : Int) (hr : t.nrt = some r) (hcal : 0 ≤ ((E (g.zone tz)).loc r).1) (passes : List (Int × List Obs)) (T : Int) (hT : Latest passes T)
    (h : ServedBy c suffix cleanup cfg (fun e => ∃ draw, e.next = Trig.next E tz draw) a i t.body.executor s passes s')
    (iso : Int → Text) (hiso : ∀ x y, iso x = iso y → x = y) (rid : Hist.Key → Text) (m : Nat)
    (alias : String → String → String) (hal : ∀ b, alias b i = a ↔ b = a) (l : List Item) (honly : Only a i (seen l) passes)
    (hne : NoEscape (run alias l) a i) (hroom : Room iso m (run alias l).ops) (hnc : Hist.NoCollision rid iso (run alias l).ops) :
    ∃ us : List Int, (∀ u, u ∈ us ↔ u ≤ T ∧ (u = r ∨ r < u ∧ Cron.FiresAt g.exprs (E (g.zone tz)) u ∧ g.WithinEnd E tz u)) ∧
    ∃ h, Hist.runAll rid iso m (run alias l).ops = some h ∧ Recorded iso h (run alias l) (seen l) a i us := by
  rw [agree_entry (builtin_agree c suffix cleanup hc) hi] at ht
  exact C124_cron_partial hE tz _ cfg a i s s' ((consistent_iff hc).1 hs) t ht g hg hwf hj hco r hr hcal passes T hT
    (servedBy_ideal hc h hs hi) iso hiso rid m alias hal l honly hne hroom hnc

end

set_option synthInstance.maxSize 2048 in
-- histories that these theorems are about: the tasks of the file store and of Redis after two passes; the first run has ended
example : ((exBPasses exEnv [12, 33] exBAdded.1).map fun p =>
      run (fun b _ => b) (p.1.flatMap (fun q => q.2.map (Item.obs · exCtx)) ++ [.ends 0 exGood fun _ => exCtx])).map (fun f =>
      (f.running.length, (Hist.runAll (Hist.runIdOf id) Hist.exIso 20 f.ops).map fun h =>
        (h.records.values.filter fun r => r.task = "t".toList).map fun r => (r.store, r.time, r.status))) =
    some (4, some [(some "f".toList, .utc 5, .succeeded), (some "r".toList, .utc 7, .running), (some "f".toList, .utc 15, .running),
      (some "f".toList, .utc 25, .running), (some "r".toList, .utc 17, .running), (some "r".toList, .utc 27, .running)]) := by
  decide +kernel

end Flow
end Asyncz
