/-!
# Specifications for triggers

Instants are integers (microseconds); nothing here refers to the trigger implementations.
-/
namespace Asyncz

/-- `r` is the earliest of the instants `S, S + I, S + 2*I, ...` that is not before `N`. -/
def FirstOnGrid (S I N r : Int) : Prop :=
  (∃ k : Nat, r = S + k * I) ∧ N ≤ r ∧ ∀ k : Nat, N ≤ S + k * I → r ≤ S + k * I

/-- `r` is the earliest element of the schedule `P` that is not before `N`. -/
def FirstOf (P : Int → Prop) (N r : Int) : Prop :=
  P r ∧ N ≤ r ∧ ∀ x, P x → N ≤ x → r ≤ x

end Asyncz
