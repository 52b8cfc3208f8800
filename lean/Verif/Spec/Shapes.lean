/-!
# What a history of shape registrations says
-/
namespace Asyncz
namespace Shapes
namespace Spec

/-- what a history says about names: a name was bound to a class, or its binding was removed -/
inductive Change (γ : Type) where
  | bind (name : String) (cls : γ)
  | unbind (name : String)

/-- the name a change is about -/
def Change.name {γ : Type} : Change γ → String
  | .bind n _ => n
  | .unbind n => n

/-- After these changes (oldest first) `name` stands for `cls`: the last change about `name` bound it to `cls`. -/
def Bound {γ : Type} (h : List (Change γ)) (name : String) (cls : γ) : Prop :=
  ∃ before after, h = before ++ .bind name cls :: after ∧ ∀ c ∈ after, c.name ≠ name

/-- strictly increasing: sorted and without repetition -/
def Increasing (l : List String) : Prop := l.Pairwise fun a b => a < b

end Spec
end Shapes
end Asyncz
