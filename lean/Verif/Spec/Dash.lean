/-!
# Specification of the dashboard buffers (C50)

What a user of the event, audit and log pages relies on, without the code's deques and indices.
-/
namespace Asyncz
namespace Dash
namespace Spec

/-- the newest `m` of the items appended so far (oldest first) -/
def newest {α : Type} (m : Nat) (l : List α) : List α := l.drop (l.length - m)

/-- the matching items of a buffer, newest first, at most `n` -/
def answer {α : Type} (p : α → Prop) [DecidablePred p] (n : Nat) (buf : List α) : List α :=
  (buf.reverse.filter fun x => decide (p x)).take n

/-- Texts written one after the other with a blank between them; a missing text is empty. -/
def words (xs : List (Option (List Char))) : List Char := List.intercalate [' '] (xs.map fun x => x.getD [])

/-- `needle` occurs in `hay` -/
def Within {α : Type} (needle hay : List α) : Prop := ∃ a b, hay = a ++ needle ++ b

end Spec
end Dash
end Asyncz
