import Verif.Props.SchedRun
import Verif.Props.EndToEnd
/-!
# C41: previews of a trigger with jitter
-/
namespace Asyncz
namespace Sched

/-- every 10 s with a jitter of up to 4 s -/
def exJittery : Interval := { exEvery with jitter := some 4 }

def exJitterState : State (Memory.Store (Body Trig Unit)) Trig Unit :=
  { exTrigState with stores := [("s", Memory.after
      [.add ⟨"tick", some (secs 5), ⟨.interval exJittery, "default", "s", false, 3, none, false, ()⟩⟩])] }

/-- an environment in which the random number generator gives `d` -/
def envDraw (d T : Int) : Env Trig := { envAt exEnv 0 T with next := Trig.next exEnv 0 (fun _ => d) }

/-- **C41, counterexample**: the second run of a task with jitter is not at the time that the preview gave: the delay is
drawn anew by the pass (both numbers are admissible ones). -/
theorem C41_jitter_witness :
    (∃ d1 d2, DrawOk exJittery.jitter d1 ∧ DrawOk exJittery.jitter d2 ∧
      (preview Memory.ops (envDraw d1 0) exJitterState "tick" none 2).toOption = some (some ([secs 5, secs 16], false)) ∧
      (processTasks Memory.ops exTrigCfg (envDraw d2 (secs 7)) 20 exJitterState).map (fun p =>
        (entry Memory.ops p.1 "s" "tick").map (·.nrt)) = some (some (some (secs 18)))) := by
  refine ⟨secs 1, secs 3, ?_, ?_, ?_, ?_⟩
  · intro j hj; cases hj; decide
  · intro j hj; cases hj; decide
  all_goals decide +kernel

end Sched
end Asyncz
