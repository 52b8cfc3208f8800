/-!
# Stable sorting

Python's `sorted`/`list.sort` and the `ORDER BY` of the backends, as a stable insertion sort (the
result of a stable sort is determined by the input and the comparison, so the algorithm does not
matter).
-/
namespace Asyncz

variable {α : Type}

/-- insert before the first element that is not smaller.
(Library; used at /repo/asyncz/schedulers/base.py:1025, stores/redis.py:107) -/
def insertBy (le : α → α → Bool) (a : α) : List α → List α
  | [] => [a]
  | b :: l => if le a b then a :: b :: l else b :: insertBy le a l

/-- stable sort by `le`.  (Library; used at /repo/asyncz/schedulers/base.py:1025, stores/redis.py:107) -/
def sortBy (le : α → α → Bool) : List α → List α
  | [] => []
  | a :: l => insertBy le a (sortBy le l)

theorem insertBy_perm (le : α → α → Bool) (a : α) (l : List α) :
    (insertBy le a l).Perm (a :: l) := by
  induction l with
  | nil => exact .refl _
  | cons b l ih =>
    unfold insertBy
    split
    · exact .refl _
    · exact (ih.cons b).trans (.swap a b l)

theorem sortBy_perm (le : α → α → Bool) (l : List α) : (sortBy le l).Perm l := by
  induction l with
  | nil => exact .refl _
  | cons a l ih => exact (insertBy_perm le a _).trans (ih.cons a)

theorem mem_sortBy {le : α → α → Bool} {l : List α} {a : α} : a ∈ sortBy le l ↔ a ∈ l :=
  (sortBy_perm le l).mem_iff

theorem insertBy_pairwise {le : α → α → Bool}
    (htrans : ∀ a b c, le a b = true → le b c = true → le a c = true)
    (htotal : ∀ a b, (le a b || le b a) = true) (a : α) (l : List α)
    (h : l.Pairwise fun a b => le a b = true) :
    (insertBy le a l).Pairwise fun a b => le a b = true := by
  induction l with
  | nil => simp [insertBy]
  | cons b l ih =>
    obtain ⟨h1, h2⟩ := List.pairwise_cons.1 h
    unfold insertBy
    split
    · rename_i hab
      refine List.pairwise_cons.2 ⟨?_, h⟩
      intro x hx
      rcases List.mem_cons.1 hx with rfl | hx
      · exact hab
      · exact htrans a b x hab (h1 x hx)
    · rename_i hab
      refine List.pairwise_cons.2 ⟨?_, ih h2⟩
      intro x hx
      rcases List.mem_cons.1 ((insertBy_perm le a l).mem_iff.1 hx) with rfl | hx
      · have := htotal x b
        simp [hab] at this; exact this
      · exact h1 x hx

theorem sortBy_pairwise {le : α → α → Bool}
    (htrans : ∀ a b c, le a b = true → le b c = true → le a c = true)
    (htotal : ∀ a b, (le a b || le b a) = true) (l : List α) :
    (sortBy le l).Pairwise fun a b => le a b = true := by
  induction l with
  | nil => exact List.Pairwise.nil
  | cons a l ih => exact insertBy_pairwise htrans htotal a _ ih

/-- stability: elements that the comparison does not separate keep their order -/
theorem insertBy_filter {le : α → α → Bool} {p : α → Bool} (a : α) (l : List α)
    (hp : ∀ b ∈ l, p a = true → p b = true → le a b = true) :
    (insertBy le a l).filter p = (a :: l).filter p := by
  induction l with
  | nil => rfl
  | cons b l ih =>
    unfold insertBy
    split
    · rfl
    · rename_i hab
      have ih' := ih (fun c hc => hp c (by simp [hc]))
      rw [List.filter_cons, ih']
      cases ha : p a <;> cases hb : p b <;> simp [ha, hb]
      exact absurd (hp b (by simp) ha hb) hab

/-- stability: the elements of any class of mutually equivalent elements keep their order -/
theorem sortBy_filter {le : α → α → Bool} {p : α → Bool}
    (hp : ∀ a b, p a = true → p b = true → le a b = true) (l : List α) :
    (sortBy le l).filter p = l.filter p := by
  induction l with
  | nil => rfl
  | cons a l ih =>
    unfold sortBy
    rw [insertBy_filter a _ (fun b _ => hp a b), List.filter_cons, List.filter_cons, ih]

end Asyncz
