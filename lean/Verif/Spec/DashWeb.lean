/-!
# Specification of the dashboard's pages as a browser sees them (C94-C98)
-/
namespace Asyncz
namespace DashWeb
namespace Spec

/-- Texts. -/
abbrev Text := List Char

/-- The tags of an HTML text: what lies between `<` and `>` (`inside`: are we in a tag?). -/
def tags : Bool → Text → Text
  | _, [] => []
  | false, c :: t => if c = '<' then '<' :: tags true t else tags false t
  | true, c :: t => if c = '>' then '>' :: tags false t else c :: tags true t

/-- The markup of an HTML text. -/
def markup (t : Text) : Text := tags false t

/-- A text occurs in another one. -/
def Occurs (t u : Text) : Prop := ∃ a b, u = a ++ t ++ b

/-- An id that a URL carries as it is: not empty, neither `.` nor `..`, none of the characters that mean
something in a URL. -/
def Plain (id : Text) : Prop :=
  id ≠ [] ∧ id ≠ ['.'] ∧ id ≠ ['.', '.'] ∧ ∀ c ∈ id, c ∉ ['/', '?', '#', '%', '\\', ':']

/-- A path a query string carries as it is. -/
def PlainPath (p : Text) : Prop := ∀ c ∈ p, c ∉ ['&', '#', '%', '+']

/-- A URL prefix in its normal form: starts with a slash, does not end in one unless it is one. -/
def NormalPrefix (p : Text) : Prop := p = ['/'] ∨ (∃ c r, p = '/' :: c :: r) ∧ ∀ r, p ≠ r ++ ['/']

end Spec
end DashWeb
end Asyncz
