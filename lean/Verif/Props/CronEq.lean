import Verif.Model.CronEq
/-!
# C126: cron expressions, cron fields and tasks are equal when they are the same
-/
namespace Asyncz
namespace Cron

/-! ## Expressions -/

/-- two weekday positions (`1st mon`) -/
def BothPositions (v w : Expr) : Prop := v.kind = .pos ∧ w.kind = .pos

/-- two ranges that differ in the step at most -/
def RangesUpToStep (v w : Expr) : Prop := ∃ a b s t, v = .range a b s ∧ w = .range a b t ∧ s ≠ t

/-- **C126.** Except for two weekday positions and two ranges that differ in the step only, `==` holds for two expressions exactly when
they are of the same kind with the same values; so it is symmetric, and never raises. -/
theorem C126_expr_partial (v w : Expr) (hp : ¬ BothPositions v w) (hr : ¬ RangesUpToStep v w) :
    ∃ b, exprEq v w = some b ∧ (b = true ↔ v = w) := by
  cases v <;> cases w <;> simp [exprEq, dunderEq, Expr.kind, ExprClass.isSub, Expr.stepAttr, Expr.bounds]
  · rename_i a b s c d t
    rintro rfl rfl
    by_cases h : s = t
    · exact h
    · exact absurd ⟨_, _, _, _, rfl, rfl, h⟩ hr
  · exact absurd ⟨rfl, rfl⟩ hp

/-- **C126** (all expressions): an answer "not equal" is always right. -/
theorem C126_unequal (v w : Expr) (h : exprEq v w = some false) : v ≠ w := by
  rintro rfl
  cases v <;> simp [exprEq, dunderEq, Expr.kind, ExprClass.isSub, Expr.stepAttr, Expr.bounds] at h

/-- **C126** (all expressions): it does not matter which of two expressions comes first. -/
theorem C126_symmetric (v w : Expr) : exprEq v w = exprEq w v := by
  cases v <;> cases w <;> first
    | rfl
    | simp [exprEq, dunderEq, Expr.kind, ExprClass.isSub, Expr.stepAttr, Expr.bounds, Bool.beq_comm]
    | simp only [exprEq, dunderEq, Expr.kind, ExprClass.isSub]; rfl

/-- **C126, counterexample**: comparing two weekday positions always raises, whatever they are. -/
theorem C126_position_witness (o w o' w' : Nat) : exprEq (.weekdayPos o w) (.weekdayPos o' w') = none := by
  simp [exprEq, dunderEq, Expr.kind, ExprClass.isSub, Expr.stepAttr]

/-- **C126, counterexample**: the step of a range is not compared: `0-10/2` and `0-10/5` are equal, although after minute 3 they fire
at different minutes. -/
theorem C126_step_witness : compileField .minute "0-10/2".toList = some [.range 0 (some 10) (some 2)] ∧
    compileField .minute "0-10/5".toList = some [.range 0 (some 10) (some 5)] ∧
    exprEq (.range 0 (some 10) (some 2)) (.range 0 (some 10) (some 5)) = some true ∧
    fieldNext [.range 0 (some 10) (some 2)] .minute 180 = some 4 ∧ fieldNext [.range 0 (some 10) (some 5)] .minute 180 = some 5 := by
  refine ⟨?_, ?_, ?_, ?_, ?_⟩ <;> decide +kernel

-- the hypotheses are met by different classes with the same values (`*` and `last`, `1` and `jan`), and by ranges with the same step
example : exprEq (.all none) .lastDay = some false ∧ exprEq (.range 1 (some 1) none) (.monthRange 1 1) = some false ∧
    exprEq (.range 0 (some 10) (some 2)) (.range 0 (some 10) (some 2)) = some true ∧ exprEq (.all (some 2)) (.all (some 3)) = some false := by
  decide
example : ¬ BothPositions (.range 1 (some 1) none) (.monthRange 1 1) ∧ ¬ RangesUpToStep (.range 1 (some 1) none) (.monthRange 1 1) :=
  ⟨(fun h => by cases h.1), (fun ⟨_, _, _, _, _, h, _⟩ => by cases h)⟩

/-! ## Fields -/

theorem itemsEq_self (l : List (Nat × Expr)) : itemsEq l l = some true := by
  induction l with
  | nil => rfl
  | cons a l ih => simp [itemsEq, ih]

theorem itemsEq_exact (l m : List (Nat × Expr)) (hlen : l.length = m.length) (hid : ∀ p ∈ l, ∀ q ∈ m, p.1 = q.1 → p.2 = q.2)
    (hp : ∀ p ∈ l, ∀ q ∈ m, ¬ BothPositions p.2 q.2 ∧ ¬ RangesUpToStep p.2 q.2) :
    ∃ b, itemsEq l m = some b ∧ (b = true ↔ l.map (·.2) = m.map (·.2)) := by
  induction l generalizing m with
  | nil => cases m with
    | nil => exact ⟨true, rfl, by simp⟩
    | cons _ _ => simp at hlen
  | cons a l ih => cases m with
    | nil => simp at hlen
    | cons c m =>
      obtain ⟨b, hb, hbl⟩ := ih m (by simpa using hlen) (fun p h q h' => hid p (by simp [h]) q (by simp [h']))
        (fun p h q h' => hp p (by simp [h]) q (by simp [h']))
      simp only [itemsEq]
      by_cases h : a.1 = c.1
      · have := hid a (by simp) c (by simp) h
        exact ⟨b, by simp [h, hb], by simp [hbl, this]⟩
      · obtain ⟨h1, h2⟩ := hp a (by simp) c (by simp)
        obtain ⟨x, hx, hxe⟩ := C126_expr_partial a.2 c.2 h1 h2
        rw [if_neg h, hx]
        cases x with
        | false =>
          refine ⟨false, rfl, ?_⟩
          have : a.2 ≠ c.2 := fun h => by have := hxe.2 h; cases this
          simp [this]
        | true =>
          have := hxe.1 rfl
          exact ⟨b, hb, by simp [hbl, this]⟩

/-- **C126** (fields of one name): two fields of the same name, none of whose expressions are the exceptions of `C126_expr_partial`, are
equal exactly when they have the same expressions in the same order.  Each expression comes with the identity of its object. -/
theorem C126_field_partial (f : FieldName) (l m : List (Nat × Expr)) (hid : ∀ p ∈ l, ∀ q ∈ m, p.1 = q.1 → p.2 = q.2)
    (hp : ∀ p ∈ l, ∀ q ∈ m, ¬ BothPositions p.2 q.2 ∧ ¬ RangesUpToStep p.2 q.2) :
    ∃ b, fieldEq (f, l) (f, m) = some b ∧ (b = true ↔ l.map (·.2) = m.map (·.2)) := by
  have : fieldEq (f, l) (f, m) = listEq l m := by cases f <;> rfl
  rw [this, listEq]
  by_cases hlen : l.length = m.length
  · rw [if_neg (by simpa using hlen)]
    exact itemsEq_exact l m hlen hid hp
  · rw [if_pos hlen]
    refine ⟨false, rfl, ?_⟩
    have : l.map (·.2) ≠ m.map (·.2) := fun h => hlen (by simpa using congrArg List.length h)
    simp [this]

/-- **C126** (all fields): a field equals itself, weekday positions and all. -/
theorem C126_field_self (f : FieldName × List (Nat × Expr)) : fieldEq f f = some true := by
  simp [fieldEq, listEq, itemsEq_self]

theorem itemsEq_symm (l m : List (Nat × Expr)) : itemsEq l m = itemsEq m l := by
  induction l generalizing m with
  | nil => cases m <;> rfl
  | cons a l ih => cases m with
    | nil => rfl
    | cons b m =>
      simp only [itemsEq, ih m, C126_symmetric a.2 b.2, eq_comm (a := a.1)]

/-- **C126** (all pairs of fields): it does not matter which of two fields comes first. -/
theorem C126_field_symmetric (f g : FieldName × List (Nat × Expr)) : fieldEq f g = fieldEq g f := by
  have h : ∀ l m : List (Nat × Expr), listEq l m = listEq m l := fun l m => by
    simp only [listEq, itemsEq_symm l m, ne_comm (a := l.length), ne_eq]
  simp only [fieldEq, h g.2 f.2, ite_self]
example : fieldEq (.hour, [(1, .range 5 (some 5) none)]) (.day, [(2, .range 5 (some 5) none)]) = some true ∧
    fieldEq (.day, [(2, .range 5 (some 5) none)]) (.hour, [(1, .range 5 (some 5) none)]) = some true := by decide

/-- **C126** (all pairs of fields): the answer depends on the expressions alone, never on which fields they are. -/
theorem C126_field_names (f g f' g' : FieldName) (l m : List (Nat × Expr)) : fieldEq (f, l) (g, m) = fieldEq (f', l) (g', m) := by
  have h : ∀ f g : FieldName, fieldEq (f, l) (g, m) = listEq l m := fun f g => by
    simp only [fieldEq, show listEq m l = listEq l m by
      simp only [listEq, itemsEq_symm l m, ne_eq, eq_comm (a := l.length)], ite_self]
  rw [h, h]
example : fieldEq (.hour, [(1, .all none)]) (.day, [(2, .lastDay)]) = fieldEq (.day, [(1, .all none)]) (.day, [(2, .lastDay)]) ∧
    fieldEq (.hour, [(1, .all none)]) (.day, [(2, .lastDay)]) = some false := by decide

/-- **C126, counterexample**: the name of a field is not compared: hour 5 and minute 5 are equal. -/
theorem C126_name_witness : fieldEq (.hour, [(1, .range 5 (some 5) none)]) (.minute, [(2, .range 5 (some 5) none)]) = some true ∧
    compileField .hour "5".toList = some [.range 5 (some 5) none] ∧ compileField .minute "5".toList = some [.range 5 (some 5) none] := by
  refine ⟨?_, ?_, ?_⟩ <;> decide +kernel

/-- **C126, counterexample**: two fields that both say `1st mon` cannot be compared. -/
theorem C126_position_field_witness :
    compileField .day "1st mon".toList = some [.weekdayPos 0 0] ∧
    fieldEq (.day, [(1, .weekdayPos 0 0)]) (.day, [(2, .weekdayPos 0 0)]) = none := by
  refine ⟨?_, ?_⟩ <;> decide +kernel

example : fieldEq (.hour, [(1, .range 1 (some 5) none), (2, .range 8 (some 20) (some 3))])
    (.hour, [(3, .range 1 (some 5) none), (4, .range 8 (some 20) (some 3))]) = some true ∧
    fieldEq (.hour, [(1, .range 1 (some 5) none), (2, .all none)]) (.hour, [(2, .all none), (1, .range 1 (some 5) none)]) = some false := by decide

/-! ## Tasks -/

/-- **C126** (tasks): tasks with an id are compared by the id, which is an equivalence; a task without id equals no task, not even
itself. -/
theorem C126_task (i j : Option String) : (taskEq i j = true ↔ i = j ∧ i ≠ none) ∧ taskEq i j = taskEq j i := by
  cases i with
  | none => cases j <;> simp [taskEq]
  | some i => cases j with
    | none => simp [taskEq]
    | some j => exact ⟨by simp [taskEq], by simp [taskEq, Bool.beq_comm]⟩
example : taskEq (some "a") (some "a") = true ∧ taskEq (some "a") (some "b") = false ∧ taskEq none none = false := by decide

end Cron
end Asyncz
