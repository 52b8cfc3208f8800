/-!
# Date-times and time zones

A model of the parts of Python's `datetime` the triggers use, and of the helpers built on them in
/repo/asyncz/utils.py.  All quantities are integers counting microseconds.

Simplifications: the year 1..9999 overflow of `datetime` is not modelled here (it is for the cron
search), and the float timestamps that `normalize` goes through are taken to be exact, which they are
to the microsecond for |timestamp| < 2^33 s.
-/
namespace Asyncz

/-- A `tzinfo`: `off wall fold` is `utcoffset()` of the wall-clock time, `loc u` is the wall-clock
time and fold of the UTC instant `u` (`fromutc`).  (Library; used at /repo/asyncz/utils.py:425-435) -/
structure Zone where
  off : Int → Bool → Int
  loc : Int → Int × Bool

/-- What every PEP 495 `tzinfo` guarantees: the instant shown by the local time of `u` is `u`, and a
wall-clock time that is skipped by a transition (a gap) is moved forward, never backward, when it
is converted to UTC and back with `fold = 0`.  (assumed of the zones passed to /repo/asyncz/utils.py:425-435) -/
structure Zone.Lawful (z : Zone) : Prop where
  loc_inst : ∀ u, (z.loc u).1 - z.off (z.loc u).1 (z.loc u).2 = u
  forward : ∀ w, w ≤ (z.loc (w - z.off w false)).1

/-- A zone with a constant UTC offset `c` (UTC itself, `datetime.timezone`, zones without DST).
(an example for /repo/asyncz/utils.py:425-435) -/
def Zone.fixed (c : Int) : Zone := ⟨fun _ _ => c, fun u => (u + c, false)⟩

theorem Zone.fixed_lawful (c : Int) : (Zone.fixed c).Lawful :=
  ⟨fun u => by simp [Zone.fixed], fun w => by simp [Zone.fixed]⟩

/-- Offsets of a zone with one spring-forward: offset `a` before instant `t`, `a + g` from then on.
(an example for /repo/asyncz/utils.py:425-435) -/
def Zone.gap (a t g : Int) : Zone where
  off w f := if w < t + a then a else if w < t + a + g then (if f then a + g else a) else a + g
  loc u := if u < t then (u + a, false) else (u + a + g, false)

/-- Offsets of a zone with one fall-back: offset `a` before instant `t`, `a - g` from then on; the
wall-clock times from `t + a - g` up to `t + a` happen twice.  (an example for /repo/asyncz/utils.py:425-435) -/
def Zone.overlap (a t g : Int) : Zone where
  off w f := if w < t + a - g then a else if w < t + a then (if f then a - g else a) else a - g
  loc u := if u < t then (u + a, false) else (u + a - g, decide (u + a - g < t + a))

theorem Zone.gap_lawful (a t g : Int) (hg : 0 ≤ g) : (Zone.gap a t g).Lawful := by
  constructor
  · intro u
    simp only [Zone.gap]
    split <;> simp only [] <;> repeat' split
    all_goals simp_all
    all_goals omega
  · intro w
    simp only [Zone.gap]
    repeat' split
    all_goals simp_all
    all_goals omega

theorem Zone.overlap_lawful (a t g : Int) : (Zone.overlap a t g).Lawful := by
  constructor
  · intro u
    simp only [Zone.overlap]
    split
    · simp only []; repeat' split
      all_goals simp_all
      all_goals omega
    · simp only [decide_eq_true_eq]; repeat' split
      all_goals omega
  · intro w
    simp only [Zone.overlap]
    repeat' split
    all_goals simp_all
    all_goals omega

/-- The time zone objects of the program, by identity.  (Library; used at /repo/asyncz/utils.py:78-97) -/
abbrev TzEnv := Nat → Zone

/-- An aware `datetime`: wall clock, fold and the identity of its `tzinfo`.
(Library; used at /repo/asyncz/utils.py:425-435) -/
structure Dt where
  wall : Int
  fold : Bool
  tz : Nat
  deriving DecidableEq, Repr

/-- A possibly naive `datetime`, as kept in `start_at`/`end_at`.
(Library; used at /repo/asyncz/triggers/interval.py:62-63, cron/trigger.py:115-116) -/
structure NDt where
  wall : Int
  fold : Bool
  tz : Option Nat
  deriving DecidableEq, Repr

namespace Dt

/-- The UTC instant denoted (`timestamp()`).  (Library; used at /repo/asyncz/utils.py:187,427) -/
def inst (E : TzEnv) (d : Dt) : Int := d.wall - (E d.tz).off d.wall d.fold

/-- `datetime.fromtimestamp(u, tz)`.  (Library; used at /repo/asyncz/utils.py:427) -/
def ofInst (E : TzEnv) (tz : Nat) (u : Int) : Dt :=
  ⟨((E tz).loc u).1, ((E tz).loc u).2, tz⟩

/-- `d + timedelta`: wall-clock arithmetic, `fold` is reset.
(Library; used at /repo/asyncz/triggers/interval.py:81,87) -/
def add (d : Dt) (δ : Int) : Dt := ⟨d.wall + δ, false, d.tz⟩

/-- `a - b`: wall-clock difference for the same `tzinfo` object, else the difference of instants.
(Library; used at /repo/asyncz/triggers/interval.py:85) -/
def sub (E : TzEnv) (a b : Dt) : Int :=
  if a.tz = b.tz then a.wall - b.wall else a.inst E - b.inst E

/-- `a < b`, by wall clock for the same `tzinfo` object, else by instant.
(Library; used at /repo/asyncz/triggers/cron/trigger.py:267) -/
def lt (E : TzEnv) (a b : Dt) : Bool :=
  if a.tz = b.tz then a.wall < b.wall else a.inst E < b.inst E

/-- `a <= b`.  (Library; used at /repo/asyncz/triggers/interval.py:99) -/
def le (E : TzEnv) (a b : Dt) : Bool :=
  if a.tz = b.tz then a.wall ≤ b.wall else a.inst E ≤ b.inst E

/-- `a == b` (Simplification: the PEP 495 rule that an ambiguous time never equals a time in another
zone is not modelled.).  (Library; used at /repo/asyncz/triggers/cron/trigger.py:241) -/
def eq (E : TzEnv) (a b : Dt) : Bool :=
  if a.tz = b.tz then a.wall = b.wall else a.inst E = b.inst E

/-- Python's `min(a, b)`: the first argument unless the second is smaller.
(Library; used at /repo/asyncz/triggers/cron/trigger.py:240) -/
def min (E : TzEnv) (a b : Dt) : Dt := if lt E b a then b else a

/-- Python's `max(a, b)`: the first argument unless the second is larger.
(Library; used at /repo/asyncz/triggers/cron/trigger.py:244) -/
def max (E : TzEnv) (a b : Dt) : Dt := if lt E a b then b else a

/-- `d.astimezone(tz)`: unchanged if it is that `tzinfo` already.
(Library; used at /repo/asyncz/triggers/cron/trigger.py:246) -/
def astimezone (E : TzEnv) (tz : Nat) (d : Dt) : Dt :=
  if d.tz = tz then d else ofInst E tz (d.inst E)

/-- `normalize` (utils.py:425-427) -/
def normalize (E : TzEnv) (d : Dt) : Dt := ofInst E d.tz (d.inst E)

/-- `datetime_ceil` (utils.py:215-221) -/
def ceil (d : Dt) : Dt :=
  if d.wall % 1000000 > 0 then d.add (1000000 - d.wall % 1000000) else d

end Dt

/-- `value.replace(tzinfo=tz) if value.tzinfo is None else value`
(interval.py:75-79,92-96, cron/trigger.py:229-238) -/
def NDt.withTz (tz : Nat) (d : NDt) : Dt := ⟨d.wall, d.fold, d.tz.getD tz⟩

/-- `localize` (utils.py:430-435) of a naive value.
Simplification: `pytz` zones (objects with a `localize` method) are not modelled. -/
def localize (E : TzEnv) (tz : Nat) (wall : Int) (fold : Bool) : Dt :=
  Dt.normalize E ⟨wall, fold, tz⟩

/-- `to_datetime(value, tz, ..., require_tz=False)` on a `datetime` (utils.py:140-171). -/
def toDatetime (E : TzEnv) (tz : Option Nat) (d : NDt) : NDt :=
  match d.tz, tz with
  | some _, _ => d
  | none, none => d
  | none, some z => let r := localize E z d.wall d.fold; ⟨r.wall, r.fold, some r.tz⟩

/-- `timedelta_seconds` (utils.py:208-212) of a `timedelta` of `us` microseconds, in microseconds:
`days`, `seconds` and `microseconds` are Python's normalised fields.
Simplification: exact instead of binary floating point. -/
def timedeltaSeconds (us : Int) : Int :=
  let days := us / 86400000000
  let seconds := us % 86400000000 / 1000000
  let micros := us % 1000000
  (days * 24 * 60 * 60 + seconds) * 1000000 + micros

end Asyncz
