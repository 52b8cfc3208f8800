import Verif.Model.Time
import Verif.Model.Calendar
import Verif.Spec.DateString
/-!
# Parsing date strings (/repo/asyncz/utils.py:28-33,114-171)

A regular expression is modelled by its backtracking matcher: the list, in order of preference, of the ways in
which it matches a prefix of the text, each with the captured groups and the rest.  `re.match` takes the first.
The decimal digits (`\d`) and their values are a parameter: Python accepts those of all scripts.

Simplifications: the timestamps `normalize` goes through are exact; `pytz` zones are not modelled; a zone given
by name has been looked up already.
-/
namespace Asyncz
namespace DateString
open Spec

/-- A matcher.  (Library `re`; used at /repo/asyncz/utils.py:28-33,145) -/
abbrev Re (α : Type) := Text → List (α × Text)

/-- Matches nothing more.  (Library `re`; used at /repo/asyncz/utils.py:28-33) -/
def Re.ret {α : Type} (a : α) : Re α := fun s => [(a, s)]

/-- Concatenation: the rest of the pattern is tried after each way of matching the first part, in order.
(Library `re`; used at /repo/asyncz/utils.py:28-33) -/
def Re.bind {α β : Type} (p : Re α) (q : α → Re β) : Re β := fun s => (p s).flatMap fun r => q r.1 r.2

/-- One of the given characters.  (Library `re`; used at /repo/asyncz/utils.py:28-33) -/
def oneOf (cs : List Char) : Re Char := fun s =>
  match s with
  | [] => []
  | c :: t => if c ∈ cs then [(c, t)] else []

/-- `\d{lo,hi}`, greedy: the longest row of digits first.  (Library `re`; used at /repo/asyncz/utils.py:28-33) -/
def digits (D : Digits) (lo hi : Nat) : Re Text := fun s =>
  let n := min hi (s.takeWhile fun c => (D c).isSome).length
  (List.range' lo (n + 1 - lo)).reverse.map fun k => (s.take k, s.drop k)

/-- `p?`, greedy.  (Library `re`; used at /repo/asyncz/utils.py:28-33) -/
def opt {α : Type} (p : Re α) : Re (Option α) := fun s => (p s).map (fun r => (some r.1, r.2)) ++ [(none, s)]

/-- `p|q`.  (Library `re`; used at /repo/asyncz/utils.py:32) -/
def alt {α : Type} (p q : Re α) : Re α := fun s => p s ++ q s

/-- `$`: at the end or before a final line feed.  (Library `re`; used at /repo/asyncz/utils.py:32) -/
def eos : Re Unit := fun s => if s = [] ∨ s = ['\n'] then [((), s)] else []

/-- `Z|[+-]\d\d:\d\d`, with its text.  (/repo/asyncz/utils.py:32) -/
def zoneRe (D : Digits) : Re Text :=
  alt ((oneOf ['Z']).bind fun c => Re.ret [c])
    ((oneOf ['+', '-']).bind fun c => (digits D 2 2).bind fun h => (oneOf [':']).bind fun _ =>
      (digits D 2 2).bind fun m => Re.ret (c :: (h ++ ':' :: m)))

/-- The groups of the time part: hour, minute, second, microsecond, timezone (/repo/asyncz/utils.py:30-32). -/
structure TimeGroups where
  hour : Text
  minute : Text
  second : Text
  microsecond : Option Text
  timezone : Option Text

/-- The time part (/repo/asyncz/utils.py:30-32):
`[ T](\d{1,2}):(\d{1,2}):(\d{1,2})(?:\.(\d{1,6}))?(Z|[+-]\d\d:\d\d)?` -/
def timeRe (D : Digits) : Re TimeGroups :=
  (oneOf [' ', 'T']).bind fun _ => (digits D 1 2).bind fun h => (oneOf [':']).bind fun _ =>
    (digits D 1 2).bind fun mi => (oneOf [':']).bind fun _ => (digits D 1 2).bind fun se =>
      (opt ((oneOf ['.']).bind fun _ => digits D 1 6)).bind fun us =>
        (opt (zoneRe D)).bind fun z => Re.ret ⟨h, mi, se, us, z⟩

/-- The groups of the whole pattern (/repo/asyncz/utils.py:28-33). -/
structure Groups where
  year : Text
  month : Text
  day : Text
  time : Option TimeGroups

/-- `DATE_REGEX` (/repo/asyncz/utils.py:28-33) -/
def dateRe (D : Digits) : Re Groups :=
  (digits D 4 4).bind fun y => (oneOf ['-']).bind fun _ => (digits D 1 2).bind fun mo =>
    (oneOf ['-']).bind fun _ => (digits D 1 2).bind fun d => (opt (timeRe D)).bind fun t =>
      eos.bind fun _ => Re.ret ⟨y, mo, d, t⟩

/-- `DATE_REGEX.match(value)` (/repo/asyncz/utils.py:145) -/
def dateMatch (D : Digits) (s : Text) : Option Groups := ((dateRe D s).head?).map (·.1)

/-- `int(v)` of a row of digits (Horner).  (/repo/asyncz/utils.py:155,159) -/
def int (D : Digits) (t : Text) : Nat := t.foldl (fun n c => n * 10 + (D c).getD 0) 0

/-- `int(v or 0)` (/repo/asyncz/utils.py:159) -/
def intOr (D : Digits) : Option Text → Nat
  | none => 0
  | some t => int D t

/-- The offset of the zone in minutes, from `tzname` (/repo/asyncz/utils.py:152-157): the part after the sign is
split at the colon. -/
def zoneMinutes (D : Digits) (tz : Text) : Int :=
  if tz = ['Z'] then 0
  else
    let body := tz.drop 1
    let hours := body.takeWhile (· ≠ ':')
    let minutes := (body.dropWhile (· ≠ ':')).drop 1
    let sign : Int := if tz.head? = some '+' then 1 else -1
    sign * (60 * int D hours + int D minutes)

/-- What `to_datetime` does with a string: returns `None`, raises `AsynczException("Invalid date string.")`,
raises a `ValueError` or `OverflowError` of `datetime`, raises `AsynczException` because no zone is known, or
returns a wall-clock time in microseconds since 0001-01-01 with fold and zone.  (/repo/asyncz/utils.py:114-171) -/
inductive Outcome where
  | nothing
  | invalid
  | range
  | tzRequired
  | naive (wall : Int)
  | aware (wall : Int) (fold : Bool) (zone : Zone)

/-- The first microsecond after the year 9999 (Library `datetime.MAXYEAR`; used at /repo/asyncz/utils.py:160,427) -/
def endOfTime : Int := Cal.days 10000 1 1 * 86400000000

/-- `datetime(**values)` accepts the values (Library; used at /repo/asyncz/utils.py:160).  The year has four
digits, the microsecond at most six. -/
instance (c : Civil) : Decidable (Cal.Valid c) :=
  if h : (1 ≤ c.month ∧ c.month ≤ 12) ∧ (1 ≤ c.day ∧ c.day ≤ Cal.monthLen c.year c.month) ∧
      (0 ≤ c.hour ∧ c.hour ≤ 23) ∧ (0 ≤ c.minute ∧ c.minute ≤ 59) ∧ (0 ≤ c.second ∧ c.second ≤ 59) then
    .isTrue ⟨h.1, h.2.1, h.2.2.1, h.2.2.2.1, h.2.2.2.2⟩
  else .isFalse fun v => h ⟨v.1, v.2, v.3, v.4, v.5⟩

/-- `localize` (/repo/asyncz/utils.py:425-435) of a naive time: through the instant, which must be in the years
1 to 9999, as must be the local time. -/
def localizeIn (z : Zone) (wall : Int) : Outcome :=
  let u := wall - z.off wall false
  if 0 ≤ u ∧ u < endOfTime ∧ 0 ≤ (z.loc u).1 ∧ (z.loc u).1 < endOfTime then
    .aware (z.loc u).1 (z.loc u).2 z
  else .range

/-- `to_datetime(value, tz, arg_name, require_tz)` of a string (/repo/asyncz/utils.py:114-171). -/
def toDatetimeStr (D : Digits) (tz : Option Zone) (requireTz : Bool) (s : Text) : Outcome :=
  if s = [] then .nothing
  else
    match dateMatch D s with
    | none => .invalid
    | some g =>
      let tzname := g.time.bind (·.timezone)
      let off := tzname.map (zoneMinutes D)
      if off.any (fun m => m ≤ -1440 ∨ 1440 ≤ m) then .range
      else
        let tz := match off with
          | some m => some (Zone.fixed (m * 60000000))
          | none => tz
        let c : Civil := ⟨int D g.year, int D g.month, int D g.day, intOr D (g.time.map (·.hour)),
          intOr D (g.time.map (·.minute)), intOr D (g.time.map (·.second))⟩
        let us := intOr D (g.time.bind (·.microsecond))
        if 1 ≤ c.year ∧ Cal.Valid c then
          let wall := Cal.toSec c * 1000000 + us
          match tz with
          | none => if requireTz then .tzRequired else .naive wall
          | some z => localizeIn z wall
        else .range

end DateString
end Asyncz
