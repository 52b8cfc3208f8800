import Verif.Model.Trigger
import Verif.Model.Calendar
/-!
# Model of the cron trigger (/repo/asyncz/triggers/cron)

Wall-clock times are microseconds since 0001-01-01 00:00; `sec` below is the number of whole seconds.
-/
namespace Asyncz
namespace Cron

/-- The field names, in the order of `CronTrigger.field_names` (trigger.py:83-92). -/
inductive FieldName where
  | year | month | day | week | dayOfWeek | hour | minute | second
  deriving DecidableEq, Repr

/-- `MIN_VALUES` (constants.py:1-10) -/
def minValue : FieldName → Int
  | .year => 1970 | .month => 1 | .day => 1 | .week => 1
  | .dayOfWeek => 0 | .hour => 0 | .minute => 0 | .second => 0

/-- `MAX_VALUES` (constants.py:11-20) -/
def maxValue : FieldName → Int
  | .year => 9999 | .month => 12 | .day => 31 | .week => 53
  | .dayOfWeek => 6 | .hour => 23 | .minute => 59 | .second => 59

/-- `BaseField.real` and its overrides (fields.py:27,95,110) -/
def FieldName.real : FieldName → Bool
  | .week => false
  | .dayOfWeek => false
  | _ => true

/-- `get_value` (fields.py:54-55,97-98,112-113) -/
def getValue (f : FieldName) (sec : Int) : Int :=
  match f with
  | .year => (Cal.ofSec sec).year
  | .month => (Cal.ofSec sec).month
  | .day => (Cal.ofSec sec).day
  | .week => Cal.isoWeek (sec / 86400)
  | .dayOfWeek => Cal.weekday (sec / 86400)
  | .hour => (Cal.ofSec sec).hour
  | .minute => (Cal.ofSec sec).minute
  | .second => (Cal.ofSec sec).second

/-- `get_min` (fields.py:46-48) -/
def getMin (f : FieldName) (_sec : Int) : Int := minValue f

/-- `get_max` (fields.py:50-52,104-105) -/
def getMax (f : FieldName) (sec : Int) : Int :=
  match f with
  | .day => Cal.monthLen (Cal.ofSec sec).year (Cal.ofSec sec).month
  | f => maxValue f

/-- The compiled expressions (expressions.py): `AllExpression`, `RangeExpression`,
`MonthRangeExpression`, `WeekdayRangeExpression`, `WeekdayPositionExpression` (`option` 0..4 is the
first..fifth, 5 the last) and `LastDayOfMonthExpression`. Numbers are what `int()` gives for `\d+`. -/
inductive Expr where
  | all (step : Option Nat)
  | range (first : Nat) (last : Option Nat) (step : Option Nat)
  | monthRange (first last : Nat)
  | weekdayRange (first last : Nat)
  | weekdayPos (option weekday : Nat)
  | lastDay
  deriving DecidableEq, Repr

/-- `x`, moved up to the next value `lo + k*step` (expressions.py:43-47,119-122). -/
def stepUp (step : Option Nat) (x lo : Int) : Int :=
  match step with
  | none => x
  | some n => if n = 0 then x else x + ((n : Int) - (x - lo)) % (n : Int)

/-- `AllExpression.get_next_value` (expressions.py:37-51) -/
def allNext (step : Option Nat) (f : FieldName) (sec : Int) : Option Int :=
  let start := max (getValue f sec) (getMin f sec)
  let next := stepUp step start (getMin f sec)
  if next ≤ getMax f sec then some next else none

/-- `min(max_value, self.last) if self.last is not None else max_value` (expressions.py:116) -/
def capAt (maxV : Int) : Option Nat → Int
  | some l => min maxV (l : Int)
  | none => maxV

/-- `RangeExpression.get_next_value` (expressions.py:110-124) -/
def rangeNext (first : Nat) (last : Option Nat) (step : Option Nat) (f : FieldName) (sec : Int) :
    Option Int :=
  let minV := max (getMin f sec) (first : Int)
  let maxV := capAt (getMax f sec) last
  let next := max minV (getValue f sec)
  let next := stepUp step next minV
  if next ≤ maxV then some next else none

/-- `WeekdayPositionExpression.get_next_value` (expressions.py:259-274) -/
def weekdayPosNext (option weekday : Nat) (sec : Int) : Option Int :=
  let c := Cal.ofSec sec
  let firstDayWday := Cal.weekday (Cal.days c.year c.month 1)
  let lastDay := Cal.monthLen c.year c.month
  let firstHit := (weekday : Int) - firstDayWday + 1
  let firstHit := if firstHit ≤ 0 then firstHit + 7 else firstHit
  let target := if option < 5 then firstHit + (option : Int) * 7
    else firstHit + (lastDay - firstHit) / 7 * 7
  if target ≤ lastDay ∧ target ≥ c.day then some target else none

/-- `get_next_value` of each kind of expression; `MonthRangeExpression` and `WeekdayRangeExpression`
inherit `RangeExpression`'s with `last` set and no step (expressions.py:151-236,290-299). -/
def Expr.next (e : Expr) (f : FieldName) (sec : Int) : Option Int :=
  match e with
  | .all step => allNext step f sec
  | .range a b step => rangeNext a b step f sec
  | .monthRange a b => rangeNext a (some b) none f sec
  | .weekdayRange a b => rangeNext a (some b) none f sec
  | .weekdayPos o w => weekdayPosNext o w sec
  | .lastDay => some (Cal.monthLen (Cal.ofSec sec).year (Cal.ofSec sec).month)

/-- The loop of `BaseField.get_next_value` (fields.py:57-64) -/
def fieldNextLoop (f : FieldName) (sec : Int) : List Expr → Option Int → Option Int
  | [], smallest => smallest
  | e :: es, smallest =>
    let value := e.next f sec
    let smallest := match smallest, value with
      | none, v => v
      | some s, some v => if v < s then some v else some s
      | some s, none => some s
    fieldNextLoop f sec es smallest

/-- `BaseField.get_next_value` (fields.py:57-64) -/
def fieldNext (es : List Expr) (f : FieldName) (sec : Int) : Option Int := fieldNextLoop f sec es none

/-- The attributes of a `CronTrigger` that `get_next_trigger_time` uses (trigger.py:104-142): the
expressions of each of the eight fields, zone, limits and jitter. -/
structure Trig where
  exprs : FieldName → List Expr
  tz : Option Nat
  start : Option NDt
  stop : Option NDt
  jitter : Option Int

/-- `self.fields[count]` for a Python index: negative indices count from the end, and there is an
`IndexError` outside -8..7.  (triggers/cron/trigger.py:179) -/
def fieldAt (count : Int) : Except Exc FieldName :=
  let i := if count < 0 then count + 8 else count
  match i with
  | 0 => .ok .year | 1 => .ok .month | 2 => .ok .day | 3 => .ok .week
  | 4 => .ok .dayOfWeek | 5 => .ok .hour | 6 => .ok .minute | 7 => .ok .second
  | _ => .error .indexError

/-- The `values` dict of `increment_field_value`/`set_field_value`.  (triggers/cron/trigger.py:175,211) -/
abbrev Values := FieldName → Option Int

/-- `values[field.name] = x` (triggers/cron/trigger.py:190-202, 215-219). -/
def Values.set (v : Values) (f : FieldName) (x : Int) : Values := fun g => if g = f then some x else v g

/-- `datetime(**values)`: `TypeError` without year, month and day, `ValueError` for a date that does
not exist.  Simplification: both are `valueError` here.  (triggers/cron/trigger.py:205,221) -/
def mkDatetime (v : Values) : Except Exc Civil :=
  match v .year, v .month, v .day with
  | some y, some m, some d =>
    let c : Civil := ⟨y, m, d, (v .hour).getD 0, (v .minute).getD 0, (v .second).getD 0⟩
    if 1 ≤ y ∧ y ≤ 9999 ∧ 1 ≤ m ∧ m ≤ 12 ∧ 1 ≤ d ∧ d ≤ Cal.monthLen y m ∧ 0 ≤ c.hour ∧ c.hour ≤ 23 ∧
      0 ≤ c.minute ∧ c.minute ≤ 59 ∧ 0 ≤ c.second ∧ c.second ≤ 59
    then .ok c else .error .valueError
  | _, _, _ => .error .valueError

/-- The `while` loop of `increment_field_value` (trigger.py:178-203).  The first argument bounds the
number of rounds; 64 are always enough (`incrLoop` never reports `valueError` from an exhausted bound,
see `Lemmas/Cron.lean`). -/
def incrLoop (sec : Int) : Nat → Int → Int → Values → Except Exc (Values × Int)
  | 0, _, _, _ => .error .valueError
  | fuel + 1, count, fn, v =>
    if count < 8 then
      match fieldAt count with
      | .error e => .error e
      | .ok f =>
        if f.real = false then
          if count = fn then incrLoop sec fuel (count - 1) (fn - 1) v
          else incrLoop sec fuel (count + 1) fn v
        else if count < fn then incrLoop sec fuel (count + 1) fn (v.set f (getValue f sec))
        else if count > fn then incrLoop sec fuel (count + 1) fn (v.set f (getMin f sec))
        else if getValue f sec = getMax f sec then incrLoop sec fuel (count - 1) (fn - 1) v
        else incrLoop sec fuel (count + 1) fn (v.set f (getValue f sec + 1))
    else .ok (v, fn)

/-- The first wall-clock time after year 9999.  (triggers/cron/trigger.py:205,221: `datetime` has years up to 9999) -/
def endOfTime : Int := Cal.beforeYear 10000 * 86400 * 1000000

/-- `normalize` (utils.py:425-427) with the range check of `datetime.fromtimestamp`: outside the years
1..9999 it raises. -/
def normChecked (E : TzEnv) (d : Dt) : Except Exc Dt :=
  let r := d.normalize E
  if 0 ≤ r.wall ∧ r.wall < endOfTime then .ok r else .error .valueError

/-- `CronTrigger.increment_field_value` (trigger.py:171-206): `dateval + difference` has the wall clock of
`datetime(**values)` and fold 0. -/
def increment (E : TzEnv) (d : Dt) (fn : Int) : Except Exc (Dt × Int) :=
  match incrLoop (d.wall / 1000000) 64 0 fn (fun _ => none) with
  | .error e => .error e
  | .ok (v, fn') => match mkDatetime v with
    | .error e => .error e
    | .ok c => match normChecked E ⟨Cal.toSec c * 1000000, false, d.tz⟩ with
      | .error e => .error e
      | .ok d' => .ok (d', fn')

/-- The index of each field.  (triggers/cron/trigger.py:83-92) -/
def FieldName.idx : FieldName → Int
  | .year => 0 | .month => 1 | .day => 2 | .week => 3
  | .dayOfWeek => 4 | .hour => 5 | .minute => 6 | .second => 7

/-- The `values` built by `set_field_value` (trigger.py:211-219). -/
def setValues (sec : Int) (fn : Int) (x : Int) : Values := fun f =>
  if f.real then
    if f.idx < fn then some (getValue f sec)
    else if f.idx > fn then some (getMin f sec)
    else some x
  else none

/-- `CronTrigger.set_field_value` (trigger.py:208-221) -/
def setField (E : TzEnv) (tz : Nat) (d : Dt) (fn : Int) (x : Int) : Except Exc Dt :=
  match mkDatetime (setValues (d.wall / 1000000) fn x) with
  | .error e => .error e
  | .ok c => normChecked E ⟨Cal.toSec c * 1000000, false, tz⟩

/-- One round of the search loop (trigger.py:252-264), without the check of the end date. -/
def round (E : TzEnv) (g : Trig) (tz : Nat) (d : Dt) (fn : Int) : Except Exc (Dt × Int) :=
  match fieldAt fn with
  | .error e => .error e
  | .ok f =>
    let sec := d.wall / 1000000
    match fieldNext (g.exprs f) f sec with
    | none => increment E d (fn - 1)
    | some next =>
      if next > getValue f sec then
        if f.real then
          match setField E tz d fn next with
          | .error e => .error e
          | .ok d' => .ok (d', fn + 1)
        else increment E d fn
      else .ok (d, fn + 1)

/-- The search loop (trigger.py:251-267) followed by the test of trigger.py:269, for at most `fuel`
rounds; `none` means that it has not ended after `fuel` rounds. -/
def search (E : TzEnv) (g : Trig) (tz : Nat) (stop : Option Dt) : Nat → Dt → Int →
    Option (Except Exc (Option Dt))
  | 0, _, _ => none
  | fuel + 1, d, fn =>
    if 0 ≤ fn ∧ fn < 8 then
      match round E g tz d fn with
      | .error e => some (.error e)
      | .ok (d', fn') =>
        match stop with
        | some s => if Dt.lt E s d' then some (.ok none) else search E g tz stop fuel d' fn'
        | none => search E g tz stop fuel d' fn'
    else some (.ok (if fn ≥ 0 then some d else none))

/-- Where the search starts (trigger.py:239-247). -/
def startOf (E : TzEnv) (g : Trig) (tz : Nat) (prev : Option Dt) (now : Dt) : Dt :=
  let z := g.tz.getD tz
  let start := match prev with
    | some p =>
      let s := Dt.min E now (p.add 1)
      if Dt.eq E s p then s.add 1 else s
    | none => match g.start with
      | some s => Dt.max E now (s.withTz z)
      | none => now
  Dt.astimezone E z start

/-- `CronTrigger.get_next_trigger_time` (trigger.py:223-273), with at most `fuel` rounds of the search.
`datetime_ceil` raises `OverflowError` at the end of year 9999 (here `valueError`). -/
def next (E : TzEnv) (g : Trig) (tz : Nat) (prev : Option Dt) (now : Dt) (draw : Int) (fuel : Nat) :
    Option (Except Exc (Option Dt)) :=
  let z := g.tz.getD tz
  let stop := g.stop.map (NDt.withTz z)
  let d := (startOf E g tz prev now).ceil
  if d.wall < endOfTime then
    match search E g z stop fuel d 0 with
    | some (.ok (some r)) =>
      let r := applyJitter r g.jitter draw
      some (.ok (some (match stop with | some s => Dt.min E r s | none => r)))
    | r => r
  else some (.error .valueError)

end Cron
end Asyncz
