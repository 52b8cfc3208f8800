import Verif.Model.CronParse
/-!
# Comparing cron expressions, cron fields and tasks with `==`
(/repo/asyncz/triggers/cron/expressions.py, /repo/asyncz/triggers/cron/fields.py, /repo/asyncz/tasks/base.py)

Python semantics (library): `v == w` calls `type(w).__eq__(w, v)` first if the type of `w` is a proper subtype of that of `v`; otherwise
`type(v).__eq__(v, w)`.  None of the `__eq__` of expressions and fields returns `NotImplemented`.
-/
namespace Asyncz
namespace Cron

/-- The classes of expressions (expressions.py:20, 64, 151, 198, 241, 290). -/
inductive ExprClass where
  | all | range | month | weekday | pos | last
  deriving DecidableEq

/-- `issubclass(c, d)` (expressions.py:20, 64, 151, 198, 241, 290) -/
def ExprClass.isSub (c d : ExprClass) : Bool :=
  c == d || d == .all || (d == .range && (c == .month || c == .weekday))

/-- The class of an expression (expressions.py:20-300). -/
def Expr.kind : Expr → ExprClass
  | .all _ => .all
  | .range _ _ _ => .range
  | .monthRange _ _ => .month
  | .weekdayRange _ _ => .weekday
  | .weekdayPos _ _ => .pos
  | .lastDay => .last

/-- The attribute `step`: it is `None` unless it is written (expressions.py:22-26, 76-80, 186, 232, 249, 294). -/
def Expr.stepAttr : Expr → Option Nat
  | .all s => s
  | .range _ _ s => s
  | _ => none

/-- The attributes `first` and `last` of the range classes (expressions.py:89-90). -/
def Expr.bounds : Expr → Option (Nat × Option Nat)
  | .range a b _ => some (a, b)
  | .monthRange a b => some (a, some b)
  | .weekdayRange a b => some (a, some b)
  | _ => none

/-- `type(v).__eq__(v, w)` (expressions.py:52-53, 125-130, 273-278); `none`: it raises `AttributeError`, since no expression has the
attribute `option_num` (the attribute is called `option_number`). -/
def dunderEq (v w : Expr) : Option Bool :=
  let isInstance := w.kind.isSub v.kind
  match v.kind with
  | .all | .last => some (isInstance && v.stepAttr == w.stepAttr)
  | .range | .month | .weekday => some (isInstance && v.bounds == w.bounds)
  | .pos => if isInstance && v.stepAttr == w.stepAttr then none else some false

/-- `v == w` for two expression objects (expressions.py:52-53, 125-130, 273-278). -/
def exprEq (v w : Expr) : Option Bool :=
  if v.kind ≠ w.kind ∧ w.kind.isSub v.kind = true then dunderEq w v else dunderEq v w

/-- `l == m` for two lists of equal length (library): an object equals itself without being asked.  Each expression comes with the
identity of the object.  (triggers/cron/fields.py:88) -/
def itemsEq : List (Nat × Expr) → List (Nat × Expr) → Option Bool
  | a :: l, b :: m =>
    if a.1 = b.1 then itemsEq l m
    else match exprEq a.2 b.2 with
      | none => none
      | some false => some false
      | some true => itemsEq l m
  | _, _ => some true

/-- `self.expressions == other.expressions` (fields.py:88) -/
def listEq (l m : List (Nat × Expr)) : Option Bool :=
  if l.length ≠ m.length then some false else itemsEq l m

/-- `f == g` for two cron fields: the name and the expressions (fields.py:87-88).  The class goes with the name
(trigger.py:95-104), every field class except `BaseField` is a direct subclass of it and has no `__eq__` of its own.  The name is not
compared, and `isinstance(self, self.__class__)` always holds. -/
def fieldEq (f g : FieldName × List (Nat × Expr)) : Option Bool :=
  let isBase (n : FieldName) : Bool := n == .year || n == .hour || n == .minute || n == .second
  if isBase f.1 && !isBase g.1 then listEq g.2 f.2 else listEq f.2 g.2

/-- `t == u` for two tasks with these ids (tasks/base.py:247-252); with anything else a task is compared by identity. -/
def taskEq (i j : Option String) : Bool :=
  match i with
  | none => false
  | some _ => i == j

end Cron
end Asyncz
