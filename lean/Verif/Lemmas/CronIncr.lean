import Verif.Lemmas.CronExpr
/-! # `increment_field_value` and `set_field_value` in closed form -/
namespace Asyncz
namespace Cron

def bumpYear (c : Civil) : Option (Civil × Int) :=
  if c.year = 9999 then none else some (⟨c.year + 1, 1, 1, 0, 0, 0⟩, 0)
def bumpMonth (c : Civil) : Option (Civil × Int) :=
  if c.month = 12 then bumpYear c else some (⟨c.year, c.month + 1, 1, 0, 0, 0⟩, 1)
def bumpDay (c : Civil) : Option (Civil × Int) :=
  if c.day = Cal.monthLen c.year c.month then bumpMonth c
  else some (⟨c.year, c.month, c.day + 1, 0, 0, 0⟩, 2)
def bumpHour (c : Civil) : Option (Civil × Int) :=
  if c.hour = 23 then bumpDay c else some (⟨c.year, c.month, c.day, c.hour + 1, 0, 0⟩, 5)
def bumpMinute (c : Civil) : Option (Civil × Int) :=
  if c.minute = 59 then bumpHour c else some (⟨c.year, c.month, c.day, c.hour, c.minute + 1, 0⟩, 6)

/-- What `increment_field_value(dateval, fn)` does to the fields: the first field that can be
increased, going up from `fn`, is; the fields below it are reset.  `none`: past the end of time. -/
def bump (c : Civil) (fn : Int) : Option (Civil × Int) :=
  if fn = 6 then bumpMinute c else if fn = 5 then bumpHour c
  else if fn = 4 ∨ fn = 3 ∨ fn = 2 then bumpDay c else if fn = 1 then bumpMonth c
  else if fn = 0 then bumpYear c else none

/-- The dict holds the six fields of `c`. -/
def Is (v : Values) (c : Civil) : Prop :=
  v .year = some c.year ∧ v .month = some c.month ∧ v .day = some c.day ∧
  v .hour = some c.hour ∧ v .minute = some c.minute ∧ v .second = some c.second

/-- The date the loop falls back to when it runs past the end of time. -/
def epoch : Civil := ⟨1970, 1, 1, 0, 0, 0⟩

/-- `r` is the outcome of the loop described by `bump c fn`. -/
def Outcome (c : Civil) (fn : Int) (r : Except Exc (Values × Int)) : Prop :=
  match bump c fn with
  | some (c', fn') => ∃ v', r = .ok (v', fn') ∧ Is v' c'
  | none => (∃ e, r = .error e) ∨ ∃ v' fn', r = .ok (v', fn') ∧ fn' < 0 ∧ Is v' epoch

theorem fieldAt_0 : fieldAt 0 = .ok .year := rfl
theorem fieldAt_1 : fieldAt 1 = .ok .month := rfl
theorem fieldAt_2 : fieldAt 2 = .ok .day := rfl
theorem fieldAt_3 : fieldAt 3 = .ok .week := rfl
theorem fieldAt_4 : fieldAt 4 = .ok .dayOfWeek := rfl
theorem fieldAt_5 : fieldAt 5 = .ok .hour := rfl
theorem fieldAt_6 : fieldAt 6 = .ok .minute := rfl
theorem fieldAt_7 : fieldAt 7 = .ok .second := rfl
theorem fieldAt_m1 : fieldAt (-1) = .ok .second := rfl
theorem fieldAt_m2 : fieldAt (-2) = .ok .minute := rfl
theorem fieldAt_m3 : fieldAt (-3) = .ok .hour := rfl
theorem fieldAt_m4 : fieldAt (-4) = .ok .dayOfWeek := rfl
theorem fieldAt_m5 : fieldAt (-5) = .ok .week := rfl
theorem fieldAt_m6 : fieldAt (-6) = .ok .day := rfl
theorem fieldAt_m7 : fieldAt (-7) = .ok .month := rfl
theorem fieldAt_m8 : fieldAt (-8) = .ok .year := rfl
theorem fieldAt_m9 : fieldAt (-9) = .error .indexError := rfl

/-- The loop from count `c` when `fn < c`, in terms of what is left. -/
theorem tail_7 (sec : Int) (k : Nat) (fn : Int) (v : Values) (h : fn < 7) :
    incrLoop sec (k + 2) 7 fn v = .ok (v.set .second 0, fn) := by
  have b : ¬ (7 < fn) := by omega
  simp [incrLoop, fieldAt_7, FieldName.real, b, h, getMin, minValue]

theorem tail_6 (sec : Int) (k : Nat) (fn : Int) (v : Values) (h : fn < 6) :
    incrLoop sec (k + 3) 6 fn v = .ok ((v.set .minute 0).set .second 0, fn) := by
  have b : ¬ (6 < fn) := by omega
  rw [incrLoop]
  simp [fieldAt_6, FieldName.real, b, h, getMin, minValue]
  exact tail_7 sec k fn _ (by omega)

theorem tail_5 (sec : Int) (k : Nat) (fn : Int) (v : Values) (h : fn < 5) :
    incrLoop sec (k + 4) 5 fn v = .ok (((v.set .hour 0).set .minute 0).set .second 0, fn) := by
  have b : ¬ (5 < fn) := by omega
  rw [incrLoop]
  simp [fieldAt_5, FieldName.real, b, h, getMin, minValue]
  exact tail_6 sec k fn _ (by omega)

theorem tail_3 (sec : Int) (k : Nat) (fn : Int) (v : Values) (h : fn < 3) :
    incrLoop sec (k + 6) 3 fn v = .ok (((v.set .hour 0).set .minute 0).set .second 0, fn) := by
  have b : ¬ (3 = fn) := by omega
  have b' : ¬ (4 = fn) := by omega
  rw [incrLoop]
  simp [fieldAt_3, FieldName.real, b]
  rw [incrLoop]
  simp [fieldAt_4, FieldName.real, b']
  exact tail_5 sec k fn _ (by omega)

theorem tail_2 (sec : Int) (k : Nat) (fn : Int) (v : Values) (h : fn < 2) :
    incrLoop sec (k + 7) 2 fn v =
      .ok ((((v.set .day 1).set .hour 0).set .minute 0).set .second 0, fn) := by
  have b : ¬ (2 < fn) := by omega
  rw [incrLoop]
  simp [fieldAt_2, FieldName.real, b, h, getMin, minValue]
  exact tail_3 sec k fn _ (by omega)

theorem tail_1 (sec : Int) (k : Nat) (fn : Int) (v : Values) (h : fn < 1) :
    incrLoop sec (k + 8) 1 fn v =
      .ok (((((v.set .month 1).set .day 1).set .hour 0).set .minute 0).set .second 0, fn) := by
  have b : ¬ (1 < fn) := by omega
  rw [incrLoop]
  simp [fieldAt_1, FieldName.real, b, h, getMin, minValue]
  exact tail_2 sec k fn _ (by omega)

theorem tail_0 (sec : Int) (k : Nat) (fn : Int) (v : Values) (h : fn < 0) :
    incrLoop sec (k + 9) 0 fn v =
      .ok ((((((v.set .year 1970).set .month 1).set .day 1).set .hour 0).set .minute 0).set .second 0, fn) := by
  have b : ¬ (0 < fn) := by omega
  rw [incrLoop]
  simp [fieldAt_0, FieldName.real, b, h, getMin, minValue]
  exact tail_1 sec k fn _ (by omega)

/-- Going up from a negative count resets every field. -/
theorem up (sec : Int) (n : Nat) (hn : n ≤ 8) (k : Nat) (fn : Int) (v : Values) (h : fn < -(n : Int)) :
    ∃ v', incrLoop sec (k + 9 + n) (-(n : Int)) fn v = .ok (v', fn) ∧ Is v' epoch := by
  induction n generalizing v with
  | zero => exact ⟨_, tail_0 sec k fn v (by simpa using h), by simp [Is, Values.set, epoch]⟩
  | succ n ih =>
    have e : -((n + 1 : Nat) : Int) + 1 = -(n : Int) := by omega
    have b : ¬ (-((n + 1 : Nat) : Int) < fn) := by omega
    have b' : ¬ (-((n + 1 : Nat) : Int) = fn) := by omega
    have b'' : fn < -((n + 1 : Nat) : Int) := by omega
    have h8 : -((n + 1 : Nat) : Int) < 8 := by omega
    have hf : ∃ f, fieldAt (-((n + 1 : Nat) : Int)) = .ok f := by
      have : n = 0 ∨ n = 1 ∨ n = 2 ∨ n = 3 ∨ n = 4 ∨ n = 5 ∨ n = 6 ∨ n = 7 := by omega
      rcases this with rfl|rfl|rfl|rfl|rfl|rfl|rfl|rfl <;> exact ⟨_, rfl⟩
    obtain ⟨f, hf⟩ := hf
    rw [← Nat.add_assoc, incrLoop]
    simp only [h8, if_true, hf, b, b', b'', if_false, e]
    split
    · exact ih (by omega) v (by omega)
    · exact ih (by omega) _ (by omega)

/-- Past the end of time the loop raises or ends with a negative field number. -/
theorem neg (sec : Int) (n : Nat) (hn : n ≤ 8) (k : Nat) (v : Values) :
    (∃ e, incrLoop sec (k + 20 + n) (n - 9) (n - 9) v = .error e) ∨
    ∃ v' fn', incrLoop sec (k + 20 + n) (n - 9) (n - 9) v = .ok (v', fn') ∧ fn' < 0 ∧ Is v' epoch := by
  induction n generalizing v with
  | zero => left; exact ⟨.indexError, by rw [incrLoop]; simp [fieldAt_m9]⟩
  | succ n ih =>
    have e : ((n + 1 : Nat) : Int) - 9 - 1 = (n : Int) - 9 := by omega
    have h8 : ((n + 1 : Nat) : Int) - 9 < 8 := by omega
    have hf : ∃ f, fieldAt (((n + 1 : Nat) : Int) - 9) = .ok f := by
      have : n = 0 ∨ n = 1 ∨ n = 2 ∨ n = 3 ∨ n = 4 ∨ n = 5 ∨ n = 6 ∨ n = 7 := by omega
      rcases this with rfl|rfl|rfl|rfl|rfl|rfl|rfl|rfl <;> exact ⟨_, rfl⟩
    obtain ⟨f, hf⟩ := hf
    rw [← Nat.add_assoc, incrLoop]
    simp only [h8, if_true, hf, Int.lt_irrefl, if_false, e, gt_iff_lt]
    split
    · exact ih (by omega) v
    · split
      · exact ih (by omega) v
      · right
        have hu := up sec (7 - n) (by omega) (k + 11 + n - (7 - n)) (((n + 1 : Nat) : Int) - 9)
          (v.set f (getValue f sec + 1)) (by omega)
        have e1 : k + 11 + n - (7 - n) + 9 + (7 - n) = k + 20 + n := by omega
        have e2 : -((7 - n : Nat) : Int) = ((n + 1 : Nat) : Int) - 9 + 1 := by omega
        rw [e1, e2] at hu
        obtain ⟨v', h1, h2⟩ := hu
        exact ⟨v', _, h1, by omega, h2⟩

variable {sec : Int}

theorem at_0 (k : Nat) (v : Values) :
    Outcome (Cal.ofSec sec) 0 (incrLoop sec (k + 29) 0 0 v) := by
  simp only [Outcome, bump]
  rw [incrLoop]
  by_cases h : (Cal.ofSec sec).year = 9999
  · simp [fieldAt_0, FieldName.real, getMax, maxValue, getValue, h, bumpYear]
    exact neg sec 8 (by omega) k v
  · simp [fieldAt_0, FieldName.real, getMax, maxValue, getValue, h, bumpYear]
    exact ⟨_, tail_1 sec (k + 20) 0 _ (by omega), by simp [Is, Values.set]⟩

theorem at_1 (k : Nat) (v : Values) (h0 : v .year = some (Cal.ofSec sec).year) :
    Outcome (Cal.ofSec sec) 1 (incrLoop sec (k + 30) 1 1 v) := by
  rw [incrLoop]
  by_cases h : (Cal.ofSec sec).month = 12
  · have : Outcome (Cal.ofSec sec) 0 (incrLoop sec (k + 29) 0 0 v) := at_0 k v
    simpa [Outcome, bump, fieldAt_1, FieldName.real, getMax, maxValue, getValue, h, bumpMonth] using this
  · simp [Outcome, bump, fieldAt_1, FieldName.real, getMax, maxValue, getValue, h, bumpMonth]
    exact ⟨_, tail_2 sec (k + 22) 1 _ (by omega), by simp [Is, Values.set, h0]⟩

theorem at_2 (k : Nat) (v : Values) (h0 : v .year = some (Cal.ofSec sec).year)
    (h1 : v .month = some (Cal.ofSec sec).month) :
    Outcome (Cal.ofSec sec) 2 (incrLoop sec (k + 31) 2 2 v) := by
  rw [incrLoop]
  by_cases h : (Cal.ofSec sec).day = Cal.monthLen (Cal.ofSec sec).year (Cal.ofSec sec).month
  · have : Outcome (Cal.ofSec sec) 1 (incrLoop sec (k + 30) 1 1 v) := at_1 k v h0
    simpa [Outcome, bump, fieldAt_2, FieldName.real, getMax, maxValue, getValue, h, bumpDay] using this
  · simp [Outcome, bump, fieldAt_2, FieldName.real, getMax, getValue, h, bumpDay]
    exact ⟨_, tail_3 sec (k + 24) 2 _ (by omega), by simp [Is, Values.set, h0, h1]⟩

theorem at_3 (k : Nat) (v : Values) (h0 : v .year = some (Cal.ofSec sec).year)
    (h1 : v .month = some (Cal.ofSec sec).month) :
    Outcome (Cal.ofSec sec) 3 (incrLoop sec (k + 32) 3 3 v) := by
  rw [incrLoop]
  have : Outcome (Cal.ofSec sec) 2 (incrLoop sec (k + 31) 2 2 v) := at_2 k v h0 h1
  simpa [Outcome, bump, fieldAt_3, FieldName.real] using this

theorem at_4 (k : Nat) (v : Values) (h0 : v .year = some (Cal.ofSec sec).year)
    (h1 : v .month = some (Cal.ofSec sec).month) :
    Outcome (Cal.ofSec sec) 4 (incrLoop sec (k + 33) 4 4 v) := by
  rw [incrLoop]
  have : Outcome (Cal.ofSec sec) 3 (incrLoop sec (k + 32) 3 3 v) := at_3 k v h0 h1
  simpa [Outcome, bump, fieldAt_4, FieldName.real] using this

theorem at_5 (k : Nat) (v : Values) (h0 : v .year = some (Cal.ofSec sec).year)
    (h1 : v .month = some (Cal.ofSec sec).month) (h2 : v .day = some (Cal.ofSec sec).day) :
    Outcome (Cal.ofSec sec) 5 (incrLoop sec (k + 34) 5 5 v) := by
  rw [incrLoop]
  by_cases h : (Cal.ofSec sec).hour = 23
  · have : Outcome (Cal.ofSec sec) 4 (incrLoop sec (k + 33) 4 4 v) := at_4 k v h0 h1
    simpa [Outcome, bump, fieldAt_5, FieldName.real, getMax, maxValue, getValue, h, bumpHour] using this
  · simp [Outcome, bump, fieldAt_5, FieldName.real, getMax, maxValue, getValue, h, bumpHour]
    exact ⟨_, tail_6 sec (k + 30) 5 _ (by omega), by simp [Is, Values.set, h0, h1, h2]⟩

theorem at_6 (k : Nat) (v : Values) (h0 : v .year = some (Cal.ofSec sec).year)
    (h1 : v .month = some (Cal.ofSec sec).month) (h2 : v .day = some (Cal.ofSec sec).day)
    (h3 : v .hour = some (Cal.ofSec sec).hour) :
    Outcome (Cal.ofSec sec) 6 (incrLoop sec (k + 35) 6 6 v) := by
  rw [incrLoop]
  by_cases h : (Cal.ofSec sec).minute = 59
  · have : Outcome (Cal.ofSec sec) 5 (incrLoop sec (k + 34) 5 5 v) := at_5 k v h0 h1 h2
    simpa [Outcome, bump, fieldAt_6, FieldName.real, getMax, maxValue, getValue, h, bumpMinute] using this
  · simp [Outcome, bump, fieldAt_6, FieldName.real, getMax, maxValue, getValue, h, bumpMinute]
    exact ⟨_, tail_7 sec (k + 32) 6 _ (by omega), by simp [Is, Values.set, h0, h1, h2, h3]⟩

/-- The whole loop of `increment_field_value`. -/
theorem incrLoop_outcome (fn : Int) (h1 : -1 ≤ fn) (h2 : fn ≤ 6) :
    Outcome (Cal.ofSec sec) fn (incrLoop sec 64 0 fn (fun _ => none)) := by
  have : fn = -1 ∨ fn = 0 ∨ fn = 1 ∨ fn = 2 ∨ fn = 3 ∨ fn = 4 ∨ fn = 5 ∨ fn = 6 := by omega
  rcases this with rfl|rfl|rfl|rfl|rfl|rfl|rfl|rfl
  · simp only [Outcome, bump]
    right
    exact ⟨_, -1, tail_0 sec 55 (-1) _ (by omega), by omega, by simp [Is, Values.set, epoch]⟩
  · exact at_0 35 _
  · rw [incrLoop]
    simp only [fieldAt_0, FieldName.real]
    simp
    exact at_1 33 _ (by simp [Values.set, getValue])
  · rw [incrLoop]
    simp only [fieldAt_0, FieldName.real]
    simp
    rw [incrLoop]
    simp only [fieldAt_1, FieldName.real]
    simp
    exact at_2 31 _ (by simp [Values.set, getValue]) (by simp [Values.set, getValue])
  · rw [incrLoop]
    simp only [fieldAt_0, FieldName.real]
    simp
    rw [incrLoop]
    simp only [fieldAt_1, FieldName.real]
    simp
    rw [incrLoop]
    simp only [fieldAt_2, FieldName.real]
    simp
    exact at_3 29 _ (by simp [Values.set, getValue]) (by simp [Values.set, getValue])
  · rw [incrLoop]
    simp only [fieldAt_0, FieldName.real]
    simp
    rw [incrLoop]
    simp only [fieldAt_1, FieldName.real]
    simp
    rw [incrLoop]
    simp only [fieldAt_2, FieldName.real]
    simp
    rw [incrLoop]
    simp only [fieldAt_3, FieldName.real]
    simp
    exact at_4 27 _ (by simp [Values.set, getValue]) (by simp [Values.set, getValue])
  · rw [incrLoop]
    simp only [fieldAt_0, FieldName.real]
    simp
    rw [incrLoop]
    simp only [fieldAt_1, FieldName.real]
    simp
    rw [incrLoop]
    simp only [fieldAt_2, FieldName.real]
    simp
    rw [incrLoop]
    simp only [fieldAt_3, FieldName.real]
    simp
    rw [incrLoop]
    simp only [fieldAt_4, FieldName.real]
    simp
    exact at_5 25 _ (by simp [Values.set, getValue]) (by simp [Values.set, getValue])
      (by simp [Values.set, getValue])
  · rw [incrLoop]
    simp only [fieldAt_0, FieldName.real]
    simp
    rw [incrLoop]
    simp only [fieldAt_1, FieldName.real]
    simp
    rw [incrLoop]
    simp only [fieldAt_2, FieldName.real]
    simp
    rw [incrLoop]
    simp only [fieldAt_3, FieldName.real]
    simp
    rw [incrLoop]
    simp only [fieldAt_4, FieldName.real]
    simp
    rw [incrLoop]
    simp only [fieldAt_5, FieldName.real]
    simp
    exact at_6 23 _ (by simp [Values.set, getValue]) (by simp [Values.set, getValue])
      (by simp [Values.set, getValue]) (by simp [Values.set, getValue])

end Cron
end Asyncz
