/-!
# Specification of shapes on user classes (C108, C109)
-/
namespace Asyncz
namespace ShapeObj

/-- Values: `None`, other simple values, mappings with text keys, lists, tuples, other sequences, instances of a class (numbered)
with their attributes. -/
inductive V where
  | none
  | atom (n : Nat)
  | map (items : List (String × V))
  | list (items : List V)
  | tuple (items : List V)
  | seq (items : List V)
  | obj (cls : Nat) (attrs : List (String × V))

namespace Spec

mutual
/-- Plain data: no instances of classes and no sequences other than lists and tuples. -/
def plain : V → Bool
  | .none | .atom _ => true
  | .map items => plainItems items
  | .list items => plainList items
  | .tuple items => plainList items
  | .seq _ => false
  | .obj _ _ => false

/-- the same for the items of a mapping -/
def plainItems : List (String × V) → Bool
  | [] => true
  | (_, v) :: l => plain v && plainItems l

/-- the same for the elements of a list -/
def plainList : List V → Bool
  | [] => true
  | v :: l => plain v && plainList l
end

mutual
/-- No `None` among the items of mappings, at any depth. -/
def noNone : V → Bool
  | .map items => noNoneItems items
  | .list items => noNoneList items
  | .tuple items => noNoneList items
  | .seq items => noNoneList items
  | .obj _ attrs => noNoneItems attrs
  | _ => true

/-- the same for the items of a mapping -/
def noNoneItems : List (String × V) → Bool
  | [] => true
  | (_, .none) :: _ => false
  | (_, v) :: l => noNone v && noNoneItems l

/-- the same for the elements of a list -/
def noNoneList : List V → Bool
  | [] => true
  | v :: l => noNone v && noNoneList l
end

end Spec
end ShapeObj
end Asyncz
