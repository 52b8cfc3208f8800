import Verif.Spec.Sched
/-!
# Where a task is, and what it means to change only that task
-/
namespace Asyncz
namespace Sched
variable {σ τ φ : Type}

/-- the store is one that the optional `store` argument of a call names -/
def Admits (store : Option String) (a : String) : Prop := ∀ x, store = some x → a = x

/-- a pending task that the arguments of a call name -/
def Named (id : String) (store : Option String) (t : T τ φ) : Prop := t.id = id ∧ Admits store t.body.store

/-- `t` is the task that a call with arguments `id` and `store` is about: while the scheduler is stopped the
first such task among the pending ones, otherwise the one in the first store (in the order in which the
stores were added) that has the id. -/
inductive Located (O : StoreOps σ (Body τ φ)) (s : State σ τ φ) (id : String) (store : Option String) :
    T τ φ → Option String → Prop
  | pending {pre post : List (T τ φ × Bool × Bool)} {t : T τ φ} {flags : Bool × Bool} (hm : s.mode = .stopped)
      (hp : s.pending = pre ++ (t, flags) :: post) (hn : Named id store t)
      (hf : ∀ p ∈ pre, ¬ Named id store p.1) : Located O s id store t none
  | stored {pre post : List String} {t : T τ φ} {a : String} (hm : s.mode ≠ .stopped) (ha : Admits store a)
      (ht : entry O s a id = some t) (hk : s.stores.keys = pre ++ a :: post)
      (hf : ∀ b ∈ pre, Admits store b → entry O s b id = none) : Located O s id store t (some a)

/-- there is no task that a call with these arguments could be about -/
def Absent (O : StoreOps σ (Body τ φ)) (s : State σ τ φ) (id : String) (store : Option String) : Prop :=
  (s.mode = .stopped → ∀ p ∈ s.pending, ¬ Named id store p.1) ∧
  (s.mode ≠ .stopped → ∀ a, Admits store a → entry O s a id = none)

/-- in `s'` the task found at `loc` is replaced by `x` (or removed: `none`), and all other tasks are as in `s` -/
inductive Replaced (O : StoreOps σ (Body τ φ)) (s s' : State σ τ φ) (id : String) (store : Option String) (x : Option (T τ φ)) :
    Option String → Prop
  | pending {pre post : List (T τ φ × Bool × Bool)} {t : T τ φ} {flags : Bool × Bool}
      (hp : s.pending = pre ++ (t, flags) :: post) (hn : Named id store t) (hf : ∀ p ∈ pre, ¬ Named id store p.1)
      (hp' : s'.pending = pre ++ (x.map (·, flags)).toList ++ post) (hs : s'.stores = s.stores) :
      Replaced O s s' id store x none
  | stored {a : String} (hx : entry O s' a id = x) (ho : ∀ b j, (b, j) ≠ (a, id) → entry O s' b j = entry O s b j)
      (hp : s'.pending = s.pending) : Replaced O s s' id store x (some a)

end Sched
end Asyncz
