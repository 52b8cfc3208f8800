import Verif.Model.Cron
/-!
# What cron expressions mean (docs/en/docs/triggers/cron.md)

Only the syntax (`FieldName`, `Expr`) and the calendar are shared with the model.
-/
namespace Asyncz
namespace Cron

/-- The documented least value of each field. -/
def lowest : FieldName → Int
  | .year => 1970 | .month => 1 | .day => 1 | .week => 1
  | .dayOfWeek => 0 | .hour => 0 | .minute => 0 | .second => 0

/-- The documented greatest value of each field in month `m` of year `y`. -/
def highest (y m : Int) : FieldName → Int
  | .year => 9999 | .month => 12 | .day => Cal.monthLen y m | .week => 53
  | .dayOfWeek => 6 | .hour => 23 | .minute => 59 | .second => 59

/-- `v` is one of the values an expression selects for field `f` in month `m` of year `y`:
* `*` every value, `*/n` every `n`-th value from the least one;
* `a`, `a-b`, `a-b/n`, `a/n`: the values `a, a+n, a+2n, ...` up to `b` (up to the end without `b`);
* month and weekday names, and ranges of them;
* `1st mon` ... `5th sun`: the day that is that weekday for the first ... fifth time in the month;
  `last mon`: the last such day; `last`: the last day of the month. -/
def Selects (e : Expr) (f : FieldName) (y m v : Int) : Prop :=
  lowest f ≤ v ∧ v ≤ highest y m f ∧
  match e with
  | .all none => True
  | .all (some n) => ∃ k : Nat, v = lowest f + k * n
  | .range a b n => (∃ k : Nat, v = a + k * ((n.getD 1 : Nat) : Int)) ∧ ∀ l : Nat, b = some l → v ≤ l
  | .monthRange a b => (a : Int) ≤ v ∧ v ≤ b
  | .weekdayRange a b => (a : Int) ≤ v ∧ v ≤ b
  | .weekdayPos o w => Cal.weekday (Cal.days y m v) = w ∧
      if o < 5 then 7 * (o : Int) < v ∧ v ≤ 7 * (o : Int) + 7 else Cal.monthLen y m < v + 7
  | .lastDay => v = Cal.monthLen y m

/-- Expressions that construction accepts for field `f` (see C21): positive steps, bounds inside the
field, month names only for months and so on. -/
def Wf (f : FieldName) : Expr → Prop
  | .all n => ∀ k, n = some k → 0 < k
  | .range a b n => lowest f ≤ a ∧ (∀ l, b = some l → a ≤ l) ∧ (∀ k, n = some k → 0 < k) ∧
      (n = none → b ≠ none)
  | .monthRange a b => f = .month ∧ 1 ≤ a ∧ a ≤ b ∧ b ≤ 12
  | .weekdayRange a b => f = .dayOfWeek ∧ a ≤ b ∧ b ≤ 6
  | .weekdayPos o w => f = .day ∧ o ≤ 5 ∧ w ≤ 6
  | .lastDay => f = .day

/-- The value of field `f` at a wall-clock time (in seconds). -/
def valueAt (f : FieldName) (sec : Int) : Int :=
  let c := Cal.ofSec sec
  match f with
  | .year => c.year | .month => c.month | .day => c.day
  | .week => Cal.isoWeek (sec / 86400) | .dayOfWeek => Cal.weekday (sec / 86400)
  | .hour => c.hour | .minute => c.minute | .second => c.second

/-- The wall-clock time satisfies every field: each field's value is selected by one of its
expressions. -/
def Matches (exprs : FieldName → List Expr) (sec : Int) : Prop :=
  ∀ f, ∃ e ∈ exprs f, Selects e f (Cal.ofSec sec).year (Cal.ofSec sec).month (valueAt f sec)

/-- `v` is the least value `≥ x` with property `P` (`none`: there is none). -/
def LeastFrom (P : Int → Prop) (x : Int) : Option Int → Prop
  | some v => P v ∧ x ≤ v ∧ ∀ w, P w → x ≤ w → v ≤ w
  | none => ∀ w, P w → ¬ x ≤ w

/-- The documented greatest value of each field, whatever the month. -/
def limit : FieldName → Nat
  | .year => 9999 | .month => 12 | .day => 31 | .week => 53
  | .dayOfWeek => 6 | .hour => 23 | .minute => 59 | .second => 59

/-- All numbers of the expression lie in the range of the field, bounds are ordered, and steps are
positive and fit into the range. -/
def InRange (f : FieldName) : Expr → Prop
  | .all n => ∀ k, n = some k → 0 < k ∧ (k : Int) ≤ limit f - lowest f
  | .range a b n => lowest f ≤ a ∧ a ≤ limit f ∧ (∀ l, b = some l → a ≤ l ∧ l ≤ limit f) ∧
      ∀ k, n = some k → 0 < k ∧ (k : Int) ≤ limit f - a
  | .monthRange a b => f = .month ∧ 1 ≤ a ∧ a ≤ b ∧ b ≤ 12
  | .weekdayRange a b => f = .dayOfWeek ∧ a ≤ b ∧ b ≤ 6
  | .weekdayPos o w => f = .day ∧ o ≤ 5 ∧ w ≤ 6
  | .lastDay => f = .day

/-- The instant `u` is a time of the schedule in zone `z`: the clock of the zone shows a whole second
that satisfies every field. -/
def FiresAt (exprs : FieldName → List Expr) (z : Zone) (u : Int) : Prop :=
  (z.loc u).1 % 1000000 = 0 ∧ Matches exprs ((z.loc u).1 / 1000000)

end Cron
end Asyncz
