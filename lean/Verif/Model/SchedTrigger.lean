import Verif.Model.Scheduler
import Verif.Model.Cron
/-!
# The built-in triggers as the scheduler uses them

The scheduler passes its own time zone, the previous run time and `datetime.now(self.timezone)`
(base.py:1631-1633, tasks/base.py:73).  `Model/Scheduler.lean` works with instants; here the triggers of
`Model/Trigger.lean` and `Model/Cron.lean` are turned into functions on instants.
Simplification: a previous run time is given to the trigger in the scheduler's zone, not in the zone of the
trigger that produced it; for zones with a constant offset this makes no difference.
-/
namespace Asyncz
namespace Sched

/-- the built-in trigger classes that are not combinations.
(triggers/interval.py, date.py, shutdown.py, cron/trigger.py:24) -/
inductive Trig where
  | interval (g : Interval)
  | date (g : DateTrig)
  | cron (g : Cron.Trig)
  | shutdown

/-- enough rounds for every search of a cron trigger (C19_cron_terminates).
(bound for the loop of triggers/cron/trigger.py:251) -/
def cronFuel : Nat := (Cron.endOfTime * 9 + 9).toNat

/-- an answer as an instant.  (schedulers/base.py:1634) -/
def toInst (E : TzEnv) : Except Exc (Option Dt) → Except Exc (Option Int)
  | .ok r => .ok (r.map (Dt.inst E))
  | .error x => .error x

/-- `cron_next` with the answer of a search that has not ended (there is none, see `cron_total`).
(triggers/cron/trigger.py:223-273) -/
def cronNext (E : TzEnv) (tz : Nat) (g : Cron.Trig) (prev : Option Dt) (now : Dt) (draw : Int) :
    Except Exc (Option Dt) :=
  match Cron.next E g tz prev now draw cronFuel with
  | some x => x
  | none => .error .valueError

/-- `trigger.get_next_trigger_time(self.timezone, prev, now)`; `draw` gives the random numbers.
(schedulers/base.py:1631-1633) -/
def Trig.next (E : TzEnv) (tz : Nat) (draw : Nat → Int) (site : Nat) (g : Trig) (prev : Option Int) (now : Int) :
    Except Exc (Option Int) :=
  let p := prev.map (Dt.ofInst E tz)
  let n := Dt.ofInst E tz now
  toInst E (match g with
    | .interval g => g.next E tz p n (draw site)
    | .date g => .ok (g.next E tz p n)
    | .cron g => cronNext E tz g p n (draw site)
    | .shutdown => .ok (shutdownNext tz p n))

end Sched
end Asyncz
