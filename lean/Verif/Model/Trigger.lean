import Verif.Model.Time
/-!
# Model of the interval, date, shutdown and combining triggers (/repo/asyncz/triggers)

Randomness: every call that may add jitter takes the value drawn by `random.uniform` as the argument
`draw` (microseconds); the theorems quantify over it.
-/
namespace Asyncz

/-- The exceptions the trigger code can raise.  (triggers/base.py:26-39, combination.py:19-65) -/
inductive Exc where
  | attributeError
  | valueError
  | indexError
  deriving DecidableEq, Repr

deriving instance DecidableEq for Except

/-- `draw` is a possible value of `random.uniform(0, jitter)` seconds, in microseconds.  (triggers/base.py:39) -/
def DrawOk (jitter : Option Int) (draw : Int) : Prop :=
  ∀ j, jitter = some j → 0 ≤ draw ∧ draw ≤ j * 1000000

/-- `BaseTrigger.apply_jitter` (triggers/base.py:26-39) on a non-`None` time. -/
def applyJitter (t : Dt) (jitter : Option Int) (draw : Int) : Dt :=
  match jitter with
  | none => t
  | some j => if j = 0 then t else t.add draw

/-- `int(ceil(a / b))` (interval.py:86).
Simplification: exact division instead of floating point; for an interval of whole seconds the two
agree while the difference is below 2^33 s. -/
def ceilDiv (a b : Int) : Int := -((-a) / b)

/-- The attributes of an `IntervalTrigger` (interval.py:27-63).  `size` is `interval_size` in
microseconds; `none` if the attribute does not exist (see `restore`). -/
structure Interval where
  interval : Int
  size : Option Int
  tz : Option Nat
  start : NDt
  stop : Option NDt
  jitter : Option Int
  deriving DecidableEq, Repr

namespace Interval

/-- `IntervalTrigger.__init__` (interval.py:29-63).  `length` is the timedelta in microseconds,
`u` the current instant and `sys` the system's local zone, which `datetime.now(None)` uses.
Simplification: `start_at`/`end_at` are `datetime` objects or `None`, not strings. -/
def mk' (E : TzEnv) (sys : Zone) (u : Int) (length : Int) (startAt endAt : Option NDt)
    (timezone : Option Nat) (jitter : Option Int) : Interval :=
  let size := timedeltaSeconds length
  let length' := if size = 0 then 1000000 else length
  let size' := if size = 0 then 1000000 else size
  let tz : Option Nat :=
    match timezone, startAt.bind NDt.tz, endAt.bind NDt.tz with
    | some z, _, _ => some z
    | none, some z, _ => some z
    | none, none, z => z
  let start : NDt := match startAt with
    | some s => s
    | none => match tz with
      | some z => let n := (Dt.ofInst E z u).add length'; ⟨n.wall, n.fold, some n.tz⟩
      | none => ⟨(sys.loc u).1 + length', false, none⟩
  { interval := length', size := some size', tz := tz
    start := toDatetime E tz start, stop := endAt.map (toDatetime E tz), jitter := jitter }

/-- The unjittered time computed by `get_next_trigger_time` (interval.py:65-87). -/
def base (E : TzEnv) (g : Interval) (tz : Nat) (prev : Option Dt) (now : Dt) : Except Exc Dt :=
  let start := g.start.withTz (g.tz.getD tz)
  match prev with
  | some p => .ok (p.add g.interval)
  | none =>
    if Dt.lt E now start then .ok start
    else match g.size with
      | none => .error .attributeError
      | some s => .ok (start.add (g.interval * ceilDiv (timedeltaSeconds (Dt.sub E now start)) s))

/-- `IntervalTrigger.get_next_trigger_time` (interval.py:65-101) -/
def next (E : TzEnv) (g : Interval) (tz : Nat) (prev : Option Dt) (now : Dt) (draw : Int) :
    Except Exc (Option Dt) :=
  match base E g tz prev now with
  | .error e => .error e
  | .ok t =>
    let t := applyJitter t g.jitter draw
    match g.stop with
    | none => .ok (some (Dt.normalize E t))
    | some s =>
      if Dt.le E t (s.withTz (g.tz.getD tz)) then .ok (some (Dt.normalize E t)) else .ok none

/-- `__getstate__` followed by `__setstate__` (interval.py:103-111, datastructures.py:27-36,
state.py:12-28): exactly the attributes of `IntervalState` survive, and `interval_size` is not one
of them. -/
def restore (g : Interval) : Interval := { g with size := none }

end Interval

/-- The attributes of a `DateTrigger` (date.py:21-33). -/
structure DateTrig where
  runAt : Dt
  deriving DecidableEq, Repr

namespace DateTrig

/-- `DateTrigger.get_next_trigger_time` (date.py:35-40) -/
def next (E : TzEnv) (g : DateTrig) (tz : Nat) (prev : Option Dt) (_now : Dt) : Option Dt :=
  match prev with
  | none => some (Dt.astimezone E tz g.runAt)
  | some _ => none

/-- `__getstate__`/`__setstate__` (date.py:42-47, datastructures.py:19-24) -/
def restore (g : DateTrig) : DateTrig := ⟨g.runAt⟩

end DateTrig

/-- `ShutdownTrigger.get_next_trigger_time` (shutdown.py:10-13) -/
def shutdownNext (_tz : Nat) (_prev : Option Dt) (_now : Dt) : Option Dt := none

/-- A member of a combining trigger: its `get_next_trigger_time(timezone, previous_time, now)` for
the fixed time zone of the call.  (triggers/combination.py:27,58) -/
abbrev Member := Option Dt → Dt → Except Exc (Option Dt)

/-- Python's `min(list)`: the first of the least elements; `ValueError` on the empty list.
(Library; used at /repo/asyncz/triggers/combination.py:32,63) -/
def pyMin (E : TzEnv) : List Dt → Except Exc Dt
  | [] => .error .valueError
  | t :: ts => .ok (ts.foldl (Dt.min E) t)

/-- Python's `max(list)`.  (Library; used at /repo/asyncz/triggers/combination.py:32,36) -/
def pyMax (E : TzEnv) : List Dt → Except Exc Dt
  | [] => .error .valueError
  | t :: ts => .ok (ts.foldl (Dt.max E) t)

/-- The `for` loop of `OrTrigger.get_next_trigger_time` (combination.py:56-60). -/
def orTimes (prev : Option Dt) (now : Dt) : List Member → Except Exc (List Dt)
  | [] => .ok []
  | m :: ms => match m prev now with
    | .error e => .error e
    | .ok r => match orTimes prev now ms with
      | .error e => .error e
      | .ok ts => .ok (match r with | some t => t :: ts | none => ts)

/-- `OrTrigger.get_next_trigger_time` (combination.py:51-65) -/
def orNext (E : TzEnv) (ms : List Member) (jitter : Option Int) (prev : Option Dt) (now : Dt)
    (draw : Int) : Except Exc (Option Dt) :=
  match orTimes prev now ms with
  | .error e => .error e
  | .ok [] => .ok none
  | .ok (t :: ts) => match pyMin E (t :: ts) with
    | .error e => .error e
    | .ok m => .ok (some (applyJitter m jitter draw))

/-- The `for` loop of `AndTrigger.get_next_trigger_time` (combination.py:26-31): `none` = bail out. -/
def andTimes (prev : Option Dt) (now : Dt) : List Member → Except Exc (Option (List Dt))
  | [] => .ok (some [])
  | m :: ms => match m prev now with
    | .error e => .error e
    | .ok none => .ok none
    | .ok (some t) => match andTimes prev now ms with
      | .error e => .error e
      | .ok none => .ok none
      | .ok (some ts) => .ok (some (t :: ts))

/-- `AndTrigger.get_next_trigger_time` (combination.py:19-36), with at most `fuel` rounds of the
`while True` loop; `none` means that the loop has not ended after `fuel` rounds. -/
def andNext (E : TzEnv) (ms : List Member) (jitter : Option Int) (prev : Option Dt) (draw : Int) :
    Nat → Dt → Option (Except Exc (Option Dt))
  | 0, _ => none
  | fuel + 1, now => match andTimes prev now ms with
    | .error e => some (.error e)
    | .ok none => some (.ok none)
    | .ok (some ts) => match pyMin E ts, pyMax E ts with
      | .ok lo, .ok hi =>
        if Dt.eq E lo hi then some (.ok (ts.head?.map fun t => applyJitter t jitter draw))
        else andNext E ms jitter prev draw fuel hi
      | .error e, _ => some (.error e)
      | _, .error e => some (.error e)

end Asyncz
