import Verif.Model.CronParse
/-!
# The description of a trigger, `str(trigger)`
(/repo/asyncz/triggers/{base,combination,date,interval}.py, /repo/asyncz/triggers/cron/trigger.py, /repo/asyncz/utils.py)

`TaskInfo.trigger_description` (tasks/types.py:167) is what listings, dashboard pages and previews show of a task's schedule.
-/
namespace Asyncz
namespace Describe

open Cron (Text FieldName Expr showNat fieldText construct fieldNames)

/-- a number with leading zeros, `%0kd` (library) (utils.py:225) -/
def pad (k n : Nat) : Text := List.replicate (k - (showNat n).length) '0' ++ showNat n

/-- `str(timedelta)` for a length in microseconds (library; triggers/interval.py:114). -/
def deltaText (us : Nat) : Text :=
  let d := us / 86400000000
  let h := us / 3600000000 % 24
  let m := us / 60000000 % 60
  let s := us / 1000000 % 60
  let u := us % 1000000
  (if d = 0 then [] else showNat d ++ ' ' :: ("day".toList ++ ((if d = 1 then [] else ['s']) ++ [',', ' ']))) ++
    (showNat h ++ ':' :: (pad 2 m ++ ':' :: (pad 2 s ++ (if u = 0 then [] else '.' :: pad 6 u))))

/-- The fields of a date and time that `datetime_repr` prints; `abbr` is `tzname()`.  (utils.py:224-225) -/
structure Stamp where
  year : Nat
  month : Nat
  day : Nat
  hour : Nat
  minute : Nat
  second : Nat
  abbr : Text
  deriving DecidableEq

/-- `datetime_repr`: `%Y-%m-%d %H:%M:%S %Z` (utils.py:224-225).  `%Y` does not pad (glibc). -/
def Stamp.text (s : Stamp) : Text :=
  showNat s.year ++ '-' :: (pad 2 s.month ++ '-' :: (pad 2 s.day ++ ' ' :: (pad 2 s.hour ++ ':' :: (pad 2 s.minute ++ ':' ::
    (pad 2 s.second ++ ' ' :: s.abbr)))))

/-- The names of the fields (triggers/cron/trigger.py:85-94). -/
def label : FieldName → Text
  | .year => "year".toList | .month => "month".toList | .day => "day".toList | .week => "week".toList
  | .dayOfWeek => "day_of_week".toList | .hour => "hour".toList | .minute => "minute".toList | .second => "second".toList

/-- `", ".join(f"{f.name}='{f}'")` (triggers/cron/trigger.py:291-292). -/
def optionsText : List (FieldName × Text) → Text
  | [] => []
  | [p] => label p.1 ++ '=' :: '\'' :: (p.2 ++ ['\''])
  | p :: l => label p.1 ++ '=' :: '\'' :: (p.2 ++ '\'' :: ',' :: ' ' :: optionsText l)

/-- A trigger as it is made: `DateTrigger`, `IntervalTrigger` (its length in microseconds), `CronTrigger` (the fields given, as text),
and `AndTrigger` or `OrTrigger` (`any`).  Start and end dates, time zones and jitter are left out: they are not described.
Simplification: `ShutdownTrigger`, which has no schedule, is left out.  (triggers/date.py:19, interval.py:27-37, cron/trigger.py:60-79,
combination.py:17-49) -/
inductive Source where
  | date (s : Stamp)
  | interval (us : Nat)
  | cron (given : FieldName → Option Text)
  | comb (any : Bool) (members : List Source)

mutual
/-- `str(trigger)` (triggers/base.py:90-91, date.py:49-50, interval.py:113-114, cron/trigger.py:290-292); `none`: the trigger could not
be made.  A field of a cron trigger is a default exactly if it was not given (cron/trigger.py:129-139). -/
def describe : Source → Option Text
  | .date s => some ("date".toList ++ '[' :: (s.text ++ [']']))
  | .interval us => some ("interval".toList ++ '[' :: (deltaText us ++ [']']))
  | .cron given => (construct given).map fun es =>
      "cron".toList ++ '[' :: (optionsText ((fieldNames.filter fun f => (given f).isSome).map fun f => (f, fieldText (es f))) ++ [']'])
  | .comb any ms => (describeAll ms).map fun x => (if any then "or".toList else "and".toList) ++ '[' :: (x ++ [']'])
/-- `', '.join(str(trigger) for trigger in self.triggers)` (triggers/base.py:91) -/
def describeAll : List Source → Option Text
  | [] => some []
  | [t] => describe t
  | t :: u :: l => match describe t, describeAll (u :: l) with
    | some x, some y => some (x ++ ',' :: ' ' :: y)
    | _, _ => none
end

end Describe
end Asyncz
