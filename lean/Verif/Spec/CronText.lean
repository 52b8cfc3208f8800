import Verif.Model.Cron
/-!
# Specification: what a cron field text says (C116)

The language of the fields, from the documentation (/repo/docs/en/docs/triggers.md) and independent of the parser.
-/
namespace Asyncz
namespace Cron
namespace Lang

/-- texts -/
abbrev Text := List Char

/-- The number written in decimal. -/
def value : Text → Nat
  | [] => 0
  | c :: cs => (c.toNat - '0'.toNat) * 10 ^ cs.length + value cs

/-- `t` is a decimal number, of value `n` (leading zeros are allowed). -/
def Number (t : Text) (n : Nat) : Prop := t ≠ [] ∧ (∀ c ∈ t, '0' ≤ c ∧ c ≤ '9') ∧ value t = n

/-- a letter -/
def Letter (c : Char) : Prop := ('a' ≤ c ∧ c ≤ 'z') ∨ ('A' ≤ c ∧ c ≤ 'Z')
/-- a letter, digit or underscore -/
def WordChar (c : Char) : Prop := Letter c ∨ ('0' ≤ c ∧ c ≤ '9') ∨ c = '_'

/-- the names -/
def monthNames : List String := ["jan", "feb", "mar", "apr", "may", "jun", "jul", "aug", "sep", "oct", "nov", "dec"]
/-- the names -/
def dayNames : List String := ["mon", "tue", "wed", "thu", "fri", "sat", "sun"]
/-- the names -/
def positionNames : List String := ["1st", "2nd", "3rd", "4th", "5th", "last"]

/-- `t` is the name number `i`, in capitals or small letters. -/
def Named (names : List String) (t : Text) (i : Nat) : Prop := ∃ s, names[i]? = some s ∧ t.map Char.toLower = s.toList

/-- nothing, or a line break, follows -/
def AtEnd (rest : Text) : Prop := rest = [] ∨ rest = ['\n']

/-- what follows does not begin with such a character -/
def NotNext (P : Char → Prop) (rest : Text) : Prop := ∀ c r, rest = c :: r → ¬ P c

/-- Of the text `t ++ rest` the part `t` says `e`.  The documented language is that with nothing in `rest`; the conditions
on `rest` are those under which the code takes no notice of it. -/
inductive Says (f : FieldName) : Text → Text → Expr → Prop
  /-- `*` -/
  | every {rest} : AtEnd rest → Says f ['*'] rest (.all none)
  /-- `*/n` -/
  | everyStep {t n rest} : Number t n → 0 < n → AtEnd rest → Says f ('*' :: '/' :: t) rest (.all (some n))
  /-- `a` -/
  | one {t a rest} : Number t a → AtEnd rest → Says f t rest (.range a (some a) none)
  /-- `a-b` -/
  | range {t a u b rest} : Number t a → Number u b → a ≤ b → AtEnd rest → Says f (t ++ '-' :: u) rest (.range a (some b) none)
  /-- `a-b/n` -/
  | rangeStep {t a u b v n rest} : Number t a → Number u b → a ≤ b → Number v n → 0 < n → AtEnd rest →
      Says f (t ++ '-' :: (u ++ '/' :: v)) rest (.range a (some b) (some n))
  /-- `a/n` -/
  | step {t a v n rest} : Number t a → Number v n → 0 < n → AtEnd rest → Says f (t ++ '/' :: v) rest (.range a none (some n))
  /-- a month -/
  | month {t i rest} : f = .month → Named monthNames t i → NotNext Letter rest →
      (∀ r, rest = '-' :: r → NotNext Letter r) → Says f t rest (.monthRange (i + 1) (i + 1))
  /-- from month to month -/
  | months {t i u j rest} : f = .month → Named monthNames t i → Named monthNames u j → i ≤ j → NotNext Letter rest →
      Says f (t ++ '-' :: u) rest (.monthRange (i + 1) (j + 1))
  /-- a day of the week -/
  | weekday {t i rest} : f = .dayOfWeek → Named dayNames t i → NotNext Letter rest →
      (∀ r, rest = '-' :: r → NotNext Letter r) → Says f t rest (.weekdayRange i i)
  /-- from day to day -/
  | weekdays {t i u j rest} : f = .dayOfWeek → Named dayNames t i → Named dayNames u j → i ≤ j → NotNext Letter rest →
      Says f (t ++ '-' :: u) rest (.weekdayRange i j)
  /-- the n-th such day of the month -/
  | nth {t o k u w rest} : f = .day → Named positionNames t o → Named dayNames u w → NotNext WordChar rest →
      Says f (t ++ (List.replicate (k + 1) ' ' ++ u)) rest (.weekdayPos o w)
  /-- the last day of the month -/
  | last {t rest} : f = .day → t.map Char.toLower = "last".toList →
      (¬ ∃ k c r, rest = List.replicate (k + 1) ' ' ++ c :: r ∧ WordChar c) → Says f t rest .lastDay

/-- the smallest value of a field -/
def lowest : FieldName → Int
  | .year => 1970 | .month => 1 | .day => 1 | .week => 1 | .dayOfWeek => 0 | .hour => 0 | .minute => 0 | .second => 0
/-- the greatest value of a field -/
def highest : FieldName → Int
  | .year => 9999 | .month => 12 | .day => 31 | .week => 53 | .dayOfWeek => 6 | .hour => 23 | .minute => 59 | .second => 59

/-- The values are those of the field, and no step is longer than the range it divides. -/
def Fits (f : FieldName) : Expr → Prop
  | .all step => ∀ n, step = some n → (n : Int) ≤ highest f - lowest f
  | .range a last step => lowest f ≤ a ∧ (∀ b, last = some b → (b : Int) ≤ highest f) ∧
      ∀ n, step = some n → (n : Int) ≤ highest f - lowest f ∧
        (n : Int) ≤ (match last with | none => highest f | some b => if b = 0 then highest f else (b : Int)) - a
  | _ => True

/-- white space -/
def White (c : Char) : Prop := c = ' ' ∨ c = '\t' ∨ c = '\n' ∨ c = '\r' ∨ c = '\x0b' ∨ c = '\x0c'

/-- neither the first nor the last character of `t` is such -/
def Trimmed (P : Char → Prop) (t : Text) : Prop := (∀ c r, t = c :: r → ¬ P c) ∧ ∀ c r, t = r ++ [c] → ¬ P c

/-- an item of a list -/
def Item (t : Text) : Prop := (∀ c ∈ t, c ≠ ',') ∧ Trimmed (· = ' ') t

/-- The items, in order, separated by commas with any spaces around them. -/
inductive Separated : Text → List Text → Prop
  | one {t a b} : Item t → (∀ c ∈ a, c = ' ') → (∀ c ∈ b, c = ' ') → Separated (a ++ (t ++ b)) [t]
  | more {t a b s ts} : Item t → (∀ c ∈ a, c = ' ') → (∀ c ∈ b, c = ' ') → Separated s ts →
      Separated (a ++ (t ++ (b ++ ',' :: s))) (t :: ts)

/-- The text of a field lists these items: white space around the whole is of no account. -/
def Lists (s : Text) (ts : List Text) : Prop :=
  ∃ a m b, s = a ++ (m ++ b) ∧ (∀ c ∈ a, White c) ∧ (∀ c ∈ b, White c) ∧ Trimmed White m ∧ Separated m ts

/-- The text says this expression, perhaps with something behind it of which the code takes no notice. -/
def Reads (f : FieldName) (s : Text) (e : Expr) : Prop := Fits f e ∧ ∃ t rest, s = t ++ rest ∧ Says f t rest e

end Lang
end Cron
end Asyncz
