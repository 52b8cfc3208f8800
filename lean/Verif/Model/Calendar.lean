/-!
# The proleptic Gregorian calendar

The parts of Python's `datetime.date` and `calendar` the cron trigger uses: the fields of a wall-clock
time, `monthrange`, `weekday()` and `isocalendar()`.  Days are counted from 0001-01-01 (day 0).
This is library behaviour, not code of /repo; it is specified directly.
-/
namespace Asyncz

/-- The civil fields of a wall-clock time (`datetime.year` ... `datetime.second`).
(Library; used at /repo/asyncz/triggers/cron/fields.py:54-55) -/
structure Civil where
  year : Int
  month : Int
  day : Int
  hour : Int
  minute : Int
  second : Int
  deriving DecidableEq, Repr

namespace Cal

/-- `calendar.isleap`.  (Library; used at /repo/asyncz/triggers/cron/fields.py:109 through `monthrange`) -/
def leap (y : Int) : Bool := y % 4 = 0 && (y % 100 != 0 || y % 400 = 0)

/-- Number of days before January 1st of year `y`.
(Library; used at /repo/asyncz/triggers/cron/fields.py:102,117 through `toordinal`) -/
def beforeYear (y : Int) : Int := 365 * (y - 1) + (y - 1) / 4 - (y - 1) / 100 + (y - 1) / 400

/-- 1 in a leap year.  (Library; used at /repo/asyncz/triggers/cron/fields.py:109 through `monthrange`) -/
def leapDay (y : Int) : Int := if leap y then 1 else 0

/-- Number of days of month `m`: `calendar.monthrange(y, m)[1]`.
(Library; used at /repo/asyncz/triggers/cron/fields.py:109) -/
def monthLen (y m : Int) : Int :=
  if m = 2 then 28 + leapDay y
  else if m = 4 ∨ m = 6 ∨ m = 9 ∨ m = 11 then 30 else 31

/-- Number of days in year `y` before the first of month `m`.
(Library; used at /repo/asyncz/triggers/cron/fields.py:102,117 through `toordinal`) -/
def beforeMonth (y m : Int) : Int :=
  if m ≤ 1 then 0 else if m = 2 then 31
  else leapDay y +
    (if m = 3 then 59 else if m = 4 then 90 else if m = 5 then 120 else if m = 6 then 151
     else if m = 7 then 181 else if m = 8 then 212 else if m = 9 then 243 else if m = 10 then 273
     else if m = 11 then 304 else if m = 12 then 334 else 365)

/-- The day number of a date (`date.toordinal() - 1`).
(Library; used at /repo/asyncz/triggers/cron/fields.py:102,117) -/
def days (y m d : Int) : Int := beforeYear y + beforeMonth y m + (d - 1)

/-- The year of a day number.  (Library; used at /repo/asyncz/triggers/cron/fields.py:54-55 through `fromordinal`) -/
def yearOf (n : Int) : Int :=
  let q := n * 400 / 146097 + 1
  if beforeYear (q + 1) ≤ n then q + 1 else if n < beforeYear q then q - 1 else q

/-- The month of the day with 0-based number `k` in year `y`.
(Library; used at /repo/asyncz/triggers/cron/fields.py:54-55 through `fromordinal`) -/
def monthOf (y k : Int) : Int :=
  let l := leapDay y
  if k < 31 then 1 else if k < 59 + l then 2 else if k < 90 + l then 3 else if k < 120 + l then 4
  else if k < 151 + l then 5 else if k < 181 + l then 6 else if k < 212 + l then 7
  else if k < 243 + l then 8 else if k < 273 + l then 9 else if k < 304 + l then 10
  else if k < 334 + l then 11 else 12

/-- The civil fields of a wall-clock time in seconds since 0001-01-01 00:00. -/
def ofSec (s : Int) : Civil :=
  let n := s / 86400
  let t := s % 86400
  let y := yearOf n
  let k := n - beforeYear y
  let m := monthOf y k
  { year := y, month := m, day := k - beforeMonth y m + 1
    hour := t / 3600, minute := t % 3600 / 60, second := t % 60 }

/-- Seconds since 0001-01-01 00:00 of a wall-clock time. -/
def toSec (c : Civil) : Int :=
  days c.year c.month c.day * 86400 + c.hour * 3600 + c.minute * 60 + c.second

/-- A date and time that exists.
(Library; used at /repo/asyncz/triggers/cron/trigger.py:205,221, where `datetime(**values)` rejects others) -/
structure Valid (c : Civil) : Prop where
  month : 1 ≤ c.month ∧ c.month ≤ 12
  day : 1 ≤ c.day ∧ c.day ≤ monthLen c.year c.month
  hour : 0 ≤ c.hour ∧ c.hour ≤ 23
  minute : 0 ≤ c.minute ∧ c.minute ≤ 59
  second : 0 ≤ c.second ∧ c.second ≤ 59

/-- `date.weekday()`: 0 is Monday (0001-01-01 was a Monday).
(Library; used at /repo/asyncz/triggers/cron/fields.py:117) -/
def weekday (n : Int) : Int := n % 7

/-- ISO 8601 week number, `date.isocalendar()[1]`: the week of a day is numbered by the position of its
Thursday in the Thursday's year.  (Library; used at /repo/asyncz/triggers/cron/fields.py:102) -/
def isoWeek (n : Int) : Int :=
  let thu := n - weekday n + 3
  (thu - beforeYear (yearOf thu)) / 7 + 1

/-! ## Lemmas -/

theorem leapDay_bounds (y : Int) : 0 ≤ leapDay y ∧ leapDay y ≤ 1 := by
  simp only [leapDay]; split <;> omega

theorem beforeYear_succ (y : Int) : beforeYear (y + 1) = beforeYear y + 365 + leapDay y := by
  have h : leap y = true ↔ y % 4 = 0 ∧ (y % 100 ≠ 0 ∨ y % 400 = 0) := by
    simp [leap]
  simp only [leapDay, beforeYear]
  split <;> rename_i hl <;> rw [h] at hl <;> omega

theorem yearOf_spec (n : Int) : beforeYear (yearOf n) ≤ n ∧ n < beforeYear (yearOf n + 1) := by
  have h1 : 146097 * (n * 400 / 146097) ≤ n * 400 := by omega
  have h2 : n * 400 < 146097 * (n * 400 / 146097) + 146097 := by omega
  simp only [yearOf]
  generalize n * 400 / 146097 = q at *
  split
  · rename_i h; simp only [beforeYear] at *; omega
  · split
    · rename_i h h'; simp only [beforeYear] at *; omega
    · rename_i h h'; simp only [beforeYear] at *; omega

theorem beforeYear_lt {y y' : Int} (h : y < y') : beforeYear y + 365 ≤ beforeYear y' := by
  simp only [beforeYear]; omega

theorem beforeYear_succ_le {y y' : Int} (h : y < y') : beforeYear (y + 1) ≤ beforeYear y' := by
  simp only [beforeYear]; omega

theorem yearOf_unique {n y : Int} (h1 : beforeYear y ≤ n) (h2 : n < beforeYear (y + 1)) :
    yearOf n = y := by
  obtain ⟨a, b⟩ := yearOf_spec n
  rcases Int.lt_trichotomy (yearOf n) y with h | h | h
  · have := beforeYear_succ_le h; omega
  · exact h
  · have := beforeYear_succ_le h; omega

theorem beforeMonth_succ {y m : Int} (h1 : 1 ≤ m) (h2 : m ≤ 12) :
    beforeMonth y (m + 1) = beforeMonth y m + monthLen y m := by
  have : m = 1 ∨ m = 2 ∨ m = 3 ∨ m = 4 ∨ m = 5 ∨ m = 6 ∨ m = 7 ∨ m = 8 ∨ m = 9 ∨ m = 10 ∨ m = 11 ∨
    m = 12 := by omega
  rcases this with rfl|rfl|rfl|rfl|rfl|rfl|rfl|rfl|rfl|rfl|rfl|rfl <;>
    simp [beforeMonth, monthLen] <;> omega

theorem beforeMonth_13 (y : Int) : beforeMonth y 13 = 365 + leapDay y := by
  simp [beforeMonth]; omega

theorem monthOf_spec {y k : Int} (h0 : 0 ≤ k) (h1 : k < 365 + leapDay y) :
    1 ≤ monthOf y k ∧ monthOf y k ≤ 12 ∧ beforeMonth y (monthOf y k) ≤ k ∧
    k < beforeMonth y (monthOf y k + 1) := by
  have hl := leapDay_bounds y
  simp only [monthOf]
  generalize hgl : leapDay y = l at *
  repeat' split
  all_goals simp [beforeMonth, hgl]
  all_goals omega

theorem beforeMonth_mono {y m m' : Int} (h1 : 1 ≤ m) (h : m < m') (h2 : m' ≤ 13) :
    beforeMonth y (m + 1) ≤ beforeMonth y m' := by
  have hl := leapDay_bounds y
  simp only [beforeMonth]
  generalize leapDay y = l at *
  repeat' split
  all_goals omega

theorem beforeMonth_nonneg (y m : Int) : 0 ≤ beforeMonth y m := by
  have hl := leapDay_bounds y
  have : m ≤ 1 ∨ m = 2 ∨ m = 3 ∨ m = 4 ∨ m = 5 ∨ m = 6 ∨ m = 7 ∨ m = 8 ∨ m = 9 ∨ m = 10 ∨ m = 11 ∨
    m = 12 ∨ 13 ≤ m := by omega
  rcases this with h|rfl|rfl|rfl|rfl|rfl|rfl|rfl|rfl|rfl|rfl|rfl|h
  case inl => simp [beforeMonth, h]
  case' inr.inr.inr.inr.inr.inr.inr.inr.inr.inr.inr.inr =>
    have : beforeMonth y m = leapDay y + 365 := by
      simp only [beforeMonth]
      rw [if_neg (by omega), if_neg (by omega), if_neg (by omega), if_neg (by omega), if_neg (by omega),
        if_neg (by omega), if_neg (by omega), if_neg (by omega), if_neg (by omega), if_neg (by omega),
        if_neg (by omega), if_neg (by omega)]
    omega
  all_goals simp [beforeMonth]
  all_goals omega

theorem monthOf_unique {y k m : Int} (h0 : 1 ≤ m) (h1 : m ≤ 12) (h2 : beforeMonth y m ≤ k)
    (h3 : k < beforeMonth y (m + 1)) : monthOf y k = m := by
  have hk0 : 0 ≤ k := by
    have := beforeMonth_nonneg y m
    omega
  have hk1 : k < 365 + leapDay y := by
    have : beforeMonth y (m + 1) ≤ beforeMonth y 13 := by
      by_cases hm : m = 12
      · subst hm; exact Int.le_refl _
      · exact beforeMonth_mono h0 (by omega) (by omega)
    rw [beforeMonth_13] at this; omega
  obtain ⟨a, b, c, d⟩ := monthOf_spec hk0 hk1
  rcases Int.lt_trichotomy (monthOf y k) m with h | h | h
  · have := beforeMonth_mono a h (by omega : m ≤ 13) (y := y); omega
  · exact h
  · have := beforeMonth_mono h0 h (by omega) (y := y); omega

theorem ofSec_valid (s : Int) : Valid (ofSec s) := by
  obtain ⟨a, b⟩ := yearOf_spec (s / 86400)
  rw [beforeYear_succ] at b
  obtain ⟨c, d, e, f⟩ := monthOf_spec (y := yearOf (s / 86400)) (k := s / 86400 - beforeYear (yearOf (s / 86400)))
    (by omega) (by omega)
  rw [beforeMonth_succ c d] at f
  constructor <;> simp only [ofSec] <;> omega

theorem toSec_ofSec (s : Int) : toSec (ofSec s) = s := by
  simp only [toSec, ofSec, days]; omega

theorem days_bounds {c : Civil} (h : Valid c) :
    beforeYear c.year ≤ days c.year c.month c.day ∧
    days c.year c.month c.day < beforeYear (c.year + 1) := by
  obtain ⟨m1, m2⟩ := h.month
  obtain ⟨d1, d2⟩ := h.day
  have hb := beforeMonth_succ (y := c.year) m1 m2
  have : beforeMonth c.year (c.month + 1) ≤ beforeMonth c.year 13 := by
    by_cases hm : c.month = 12
    · rw [hm]; exact Int.le_refl _
    · exact beforeMonth_mono m1 (by omega) (by omega)
  rw [beforeMonth_13] at this
  have h0 := beforeMonth_nonneg c.year c.month
  rw [beforeYear_succ]
  simp only [days]; omega

theorem ofSec_toSec {c : Civil} (h : Valid c) : ofSec (toSec c) = c := by
  obtain ⟨y1, y2⟩ := days_bounds h
  obtain ⟨m1, m2⟩ := h.month
  obtain ⟨d1, d2⟩ := h.day
  obtain ⟨h1, h2⟩ := h.hour
  obtain ⟨n1, n2⟩ := h.minute
  obtain ⟨s1, s2⟩ := h.second
  have hd : toSec c / 86400 = days c.year c.month c.day := by simp only [toSec]; omega
  have ht : toSec c % 86400 = c.hour * 3600 + c.minute * 60 + c.second := by simp only [toSec]; omega
  have hy : yearOf (days c.year c.month c.day) = c.year := yearOf_unique y1 y2
  have hb := beforeMonth_succ (y := c.year) m1 m2
  have hm : monthOf c.year (days c.year c.month c.day - beforeYear c.year) = c.month :=
    monthOf_unique m1 m2 (by simp only [days]; omega) (by simp only [days]; omega)
  have e1 : (ofSec (toSec c)).year = c.year := by simp only [ofSec, hd, hy]
  cases c with
  | mk y m d hh mm ss =>
    simp only at *
    simp only [ofSec, hd, ht, hy, hm, Civil.mk.injEq, true_and]
    simp only [days]
    omega

/-- The weekday of a day number is the weekday of the date. -/
theorem weekday_bounds (n : Int) : 0 ≤ weekday n ∧ weekday n ≤ 6 := by
  simp only [weekday]; omega

/-- ISO week numbers run from 1 to 53. -/
theorem isoWeek_bounds (n : Int) : 1 ≤ isoWeek n ∧ isoWeek n ≤ 53 := by
  simp only [isoWeek]
  obtain ⟨a, b⟩ := yearOf_spec (n - weekday n + 3)
  rw [beforeYear_succ] at b
  have := leapDay_bounds (yearOf (n - weekday n + 3))
  omega

/-- Calendar order: earlier year, or same year and earlier month, and so on.
(Specification of the order of wall-clock times that trigger.py:267 compares) -/
def Before (a b : Civil) : Prop :=
  a.year < b.year ∨ a.year = b.year ∧ (a.month < b.month ∨ a.month = b.month ∧ (a.day < b.day ∨
  a.day = b.day ∧ (a.hour < b.hour ∨ a.hour = b.hour ∧ (a.minute < b.minute ∨
  a.minute = b.minute ∧ a.second < b.second))))

theorem days_lt_of {a b : Civil} (ha : Valid a) (hb : Valid b)
    (h : a.year < b.year ∨ a.year = b.year ∧ (a.month < b.month ∨ a.month = b.month ∧ a.day < b.day)) :
    days a.year a.month a.day < days b.year b.month b.day := by
  obtain ⟨_, a2⟩ := days_bounds ha
  obtain ⟨b1, _⟩ := days_bounds hb
  rcases h with h | ⟨hy, h | ⟨h', h''⟩⟩
  · have := beforeYear_succ_le h; omega
  · have := beforeMonth_mono (y := a.year) ha.month.1 h (by have := hb.month; omega)
    rw [beforeMonth_succ ha.month.1 ha.month.2] at this
    have := ha.day; have := hb.day
    simp only [days, ← hy]
    omega
  · simp only [days, ← hy, ← h']; omega

/-- The calendar order of valid times is the order of their seconds. -/
theorem toSec_lt_iff {a b : Civil} (ha : Valid a) (hb : Valid b) : toSec a < toSec b ↔ Before a b := by
  have key : ∀ {a b : Civil}, Valid a → Valid b → Before a b → toSec a < toSec b := by
    intro a b ha hb h
    have := ha.hour; have := ha.minute; have := ha.second
    have := hb.hour; have := hb.minute; have := hb.second
    by_cases hd : a.year < b.year ∨ a.year = b.year ∧ (a.month < b.month ∨ a.month = b.month ∧ a.day < b.day)
    · have := days_lt_of ha hb hd
      simp only [toSec]; omega
    · have h1 : a.year = b.year := by simp only [Before] at h; omega
      have h2 : a.month = b.month := by simp only [Before] at h; omega
      have h3 : a.day = b.day := by simp only [Before] at h; omega
      simp only [toSec, h1, h2, h3]
      simp only [Before] at h
      omega
  refine ⟨fun h => ?_, key ha hb⟩
  by_cases hab : Before a b
  · exact hab
  · exfalso
    by_cases hba : Before b a
    · have := key hb ha hba; omega
    · have : a = b := by
        cases a; cases b
        simp only [Before] at hab hba
        simp only [Civil.mk.injEq]
        omega
      subst this; omega

end Cal
end Asyncz
