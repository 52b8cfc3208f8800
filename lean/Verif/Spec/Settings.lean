import Verif.Model.Settings
/-!
# Specification of settings (C113)

What an annotation means and when a text of the environment stands for a value of that type.  Only the world of
Python (`World`, `Class`, `Ann`, `Ty`) is shared with the model.
-/
namespace Asyncz
namespace Settings
namespace Spec
variable {V : Type}

/-- `n` is the name before the first bracket of `s` (all of `s` if there is none). -/
def Names (s n : String) : Prop :=
  (s = n ∧ '[' ∉ n.toList) ∨ ('[' ∉ n.toList ∧ ∃ r, s.toList = n.toList ++ '[' :: r)

/-- `n` is bound to `x` in the module of the class or, if it is not bound there, among the builtins. -/
def Bound (w : World V) (c : Class V) (n : String) (x : Thing) : Prop :=
  c.module n = some x ∨ (c.module n = none ∧ w.builtins n = some x)

/-- the words for true, in any case -/
def IsTrue (w : World V) (t : Text) : Prop :=
  w.lower t = "true".toList ∨ w.lower t = "1".toList ∨ w.lower t = "yes".toList ∨ w.lower t = "on".toList ∨ w.lower t = "y".toList

/-- The text stands for a value of that type: of a class, what its constructor makes of it; a truth value; of
an optional type, a value of its only other member. -/
inductive Stands (w : World V) : Ty → Text → V → Prop
  | isTrue {t : Text} (h : IsTrue w t) : Stands w (.cls "bool") t (w.bool true)
  | isFalse {t : Text} (h : ¬ IsTrue w t) : Stands w (.cls "bool") t (w.bool false)
  | cls {n : String} {t : Text} {v : V} (hn : n ≠ "bool") (h : w.call n t = some v) : Stands w (.cls n) t v
  | optional {n : String} {ts : List Ty} {t : Text} {v : V} (hm : .cls n ∈ ts)
      (hone : ∀ i j : Nat, (∃ u : Ty, ts[i]? = some u ∧ u ≠ .none) → (∃ u : Ty, ts[j]? = some u ∧ u ≠ .none) → i = j)
      (h : Stands w (.cls n) t v) : Stands w (.union ts) t v

/-- The text stands for a value of an annotated setting.  Source texts of annotations are understood if they are a name, perhaps
with a bracket. -/
inductive Reads (w : World V) (c : Class V) : Ann → Text → V → Prop
  | obj {ty : Ty} {t : Text} {v : V} (h : Stands w ty t v) : Reads w c (.obj ty) t v
  | annotated {ty : Ty} {t : Text} {v : V} (h : Stands w ty t v) : Reads w c (.obj (.annotated ty)) t v
  | text {s n : String} {ty : Ty} {t : Text} {v : V} (hn : Names s n) (hb : Bound w c n (.ty ty)) (h : Stands w ty t v) :
      Reads w c (.text s) t v

/-- the class attribute: of the nearest class that has one -/
inductive Default : List (Class V) → String → V → Prop
  | here {c : Class V} {cs : List (Class V)} {k : String} {v : V} (h : c.defaults.get? k = some v) : Default (c :: cs) k v
  | above {c : Class V} {cs : List (Class V)} {k : String} {v : V} (h : c.defaults.get? k = none) (h' : Default cs k v) :
      Default (c :: cs) k v

/-- the value without the environment: the keyword argument, else the class attribute, else `None` -/
def Plain (w : World V) (classes : List (Class V)) (kwargs : Dict String V) (k : String) (v : V) : Prop :=
  kwargs.get? k = some v ∨ (kwargs.get? k = none ∧ Default classes k v) ∨
    (kwargs.get? k = none ∧ (∀ u, ¬ Default classes k u) ∧ v = w.noneV)

end Spec
end Settings
end Asyncz
