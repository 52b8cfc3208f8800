/-!
# What a date string says

A date string is `YYYY-M[M]-D[D]`, optionally followed by a blank or `T` and a time `h[h]:m[m]:s[s]`, a decimal
fraction of a second and a zone (`Z` or `±hh:mm`).
-/
namespace Asyncz
namespace DateString
namespace Spec

/-- Strings -/
abbrev Text := List Char

/-- Decimal digits and their values. -/
abbrev Digits := Char → Option Nat

/-- the ASCII digits -/
def ascii : Digits := fun c => if '0' ≤ c ∧ c ≤ '9' then some (c.toNat - 48) else none

/-- A row of digits -/
def Row (D : Digits) (t : Text) : Prop := ∀ c ∈ t, (D c).isSome

/-- The number a row of digits denotes: the last digit is the units. -/
def number (D : Digits) : Text → Nat
  | [] => 0
  | c :: t => (D c).getD 0 * 10 ^ t.length + number D t

/-- A zone as written -/
inductive ZoneText where
  | z
  | offset (negative : Bool) (hours minutes : Text)
  deriving Repr, DecidableEq

/-- A time of day as written; `t` tells whether it is preceded by `T` or by a blank. -/
structure TimeText where
  t : Bool
  hour : Text
  minute : Text
  second : Text
  fraction : Option Text
  zone : Option ZoneText
  deriving Repr, DecidableEq

/-- A date, perhaps with a time, as written -/
structure Stamp where
  year : Text
  month : Text
  day : Text
  time : Option TimeText
  deriving Repr, DecidableEq

/-- how the zone is written -/
def ZoneText.render : ZoneText → Text
  | .z => ['Z']
  | .offset neg h m => (if neg then '-' else '+') :: (h ++ ':' :: m)

/-- how the fraction is written -/
def renderFraction : Option Text → Text
  | none => []
  | some f => '.' :: f

/-- how an optional zone is written -/
def renderZone : Option ZoneText → Text
  | none => []
  | some z => z.render

/-- how the time is written -/
def TimeText.render (x : TimeText) : Text :=
  (if x.t then 'T' else ' ') ::
    (x.hour ++ ':' :: (x.minute ++ ':' :: (x.second ++ (renderFraction x.fraction ++ renderZone x.zone))))

/-- how an optional time is written -/
def renderTime : Option TimeText → Text
  | none => []
  | some x => x.render

/-- how the whole is written -/
def Stamp.render (x : Stamp) : Text :=
  x.year ++ '-' :: (x.month ++ '-' :: (x.day ++ renderTime x.time))

/-- `n` to `m` digits -/
def Count (D : Digits) (n m : Nat) (t : Text) : Prop := Row D t ∧ n ≤ t.length ∧ t.length ≤ m

/-- the zone is well written -/
def ZoneText.Ok (D : Digits) : ZoneText → Prop
  | .z => True
  | .offset _ h m => Count D 2 2 h ∧ Count D 2 2 m

/-- the time is well written -/
def TimeText.Ok (D : Digits) (x : TimeText) : Prop :=
  Count D 1 2 x.hour ∧ Count D 1 2 x.minute ∧ Count D 1 2 x.second ∧
  (∀ f, x.fraction = some f → Count D 1 6 f) ∧ (∀ z, x.zone = some z → z.Ok D)

/-- the stamp is well written -/
def Stamp.Ok (D : Digits) (x : Stamp) : Prop :=
  Count D 4 4 x.year ∧ Count D 1 2 x.month ∧ Count D 1 2 x.day ∧ (∀ t, x.time = some t → t.Ok D)

/-- The string `s` is a well-written stamp, perhaps with one final line feed. -/
def Written (D : Digits) (s : Text) (x : Stamp) : Prop := x.Ok D ∧ (s = x.render ∨ s = x.render ++ ['\n'])

/-- The microseconds denoted by the decimal fraction `.f`, of at most six digits. -/
def micros (D : Digits) (f : Text) : Nat := number D f * 10 ^ (6 - f.length)

/-- The offset from UTC a zone denotes, in minutes -/
def ZoneText.minutes (D : Digits) : ZoneText → Int
  | .z => 0
  | .offset false h m => 60 * number D h + number D m
  | .offset true h m => - (60 * number D h + number D m)

end Spec
end DateString
end Asyncz
