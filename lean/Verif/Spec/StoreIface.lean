import Verif.Spec.Store
/-!
# What the scheduler may assume of a store

The scheduler only calls the methods of `StoreType` (/repo/asyncz/stores/types.py:15-105).  `StoreOps`
lists them, `LawfulStore` says that they behave like a map from ids to tasks in the sense of
`Spec/Store.lean`.  The scheduler theorems hold for every lawful store; `Lemmas/SchedStore.lean` shows
that the model of `MemoryStore` is one.
-/
namespace Asyncz

/-- The methods of a store.  `init` is a fresh store, `close` is `shutdown()`. -/
structure StoreOps (σ β : Type) where
  init : σ
  lookup : σ → String → Option (Task β)
  due : σ → Int → List (Task β)
  nextRun : σ → Option Int
  all : σ → List (Task β)
  step : σ → StoreOp β → σ × Res
  close : σ → σ

/-- `O` is a correct implementation of a map from ids to tasks: `toMap` is the map a store state
stands for, `Inv` holds in all reachable states. -/
structure LawfulStore {σ β : Type} (O : StoreOps σ β) where
  Inv : σ → Prop
  toMap : σ → AMap β
  upsert : σ → Bool
  init_inv : Inv O.init
  init_map : toMap O.init = AMap.empty
  key : ∀ {s i t}, Inv s → toMap s i = some t → t.id = i
  lookup : ∀ {s}, Inv s → ∀ i, O.lookup s i = toMap s i
  due : ∀ {s}, Inv s → ∀ now, Lists (toMap s) (Due now) (O.due s now)
  nextRun : ∀ {s}, Inv s → IsEarliest (toMap s) (O.nextRun s)
  all : ∀ {s}, Inv s → Lists (toMap s) (fun _ => True) (O.all s)
  close_inv : ∀ {s}, Inv s → Inv (O.close s)
  step_inv : ∀ {s}, Inv s → ∀ op, Inv (O.step s op).1
  step_map : ∀ {s}, Inv s → ∀ op, (toMap (O.step s op).1, (O.step s op).2) = specStep (upsert s) (toMap s) op

end Asyncz
