/-!
# How the calls of a shape may end (C128)

Written from the documentation of the shape errors, independently of the model.
-/
namespace Asyncz
namespace ShapeCalls

/-- The documented errors of shapes. -/
inductive Kind where
  | capability
  | validation
  | serialization
  | deserialization
  | dependency
  deriving DecidableEq, Repr

/-- What Python code raises: an error (`raw`: any class that is no shape error), a request to stop that is no `Exception`
(cancellation, an interrupt), or a shape error, with or without the error that caused it. -/
inductive Exc where
  | raw (cls : String)
  | stop (cls : String)
  | shape (k : Kind)
  | shapeFrom (k : Kind) (cause : Exc)
  deriving DecidableEq, Repr

/-- A call ends in a result or raises. -/
abbrev Res (α : Type) := Except Exc α

namespace Spec

/-- the error is a shape error of this kind -/
def IsKind (k : Kind) : Exc → Prop
  | .shape k' => k' = k
  | .shapeFrom k' _ => k' = k
  | _ => False

/-- the error is a request to stop -/
def IsStop : Exc → Prop
  | .stop _ => True
  | _ => False

/-- The call gives a result, raises a shape error of kind `k`, or is stopped. -/
def EndsWith {α : Type} (k : Kind) (r : Res α) : Prop :=
  match r with
  | .ok _ => True
  | .error e => IsKind k e ∨ IsStop e

/-- The call raises an error of kind `k` without doing anything else. -/
def Raises {α : Type} (k : Kind) (r : Res α) : Prop := ∃ e, r = .error e ∧ IsKind k e

end Spec
end ShapeCalls
end Asyncz
