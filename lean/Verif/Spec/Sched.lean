import Verif.Model.Scheduler
/-!
# Specifications for the scheduler

Statements about triggers, run times and observations.  Only the *types* of the model (`Env`, `Obs`,
tasks) are used here.
-/
namespace Asyncz
namespace Sched

/-- `l` lists the successive times of a trigger whose following time is `next`, beginning with
`first`; `after` is the time that follows the last one of `l`. -/
inductive Successive (next : Int → Option Int) : Option Int → List Int → Option Int → Prop
  | nil (x : Option Int) : Successive next x [] x
  | cons {r : Int} {l : List Int} {x : Option Int} (h : Successive next (next r) l x) :
      Successive next (some r) (r :: l) x

/-- `l` is the list of all times of the trigger from `first` on that are due at `now`. -/
def DueTimes (next : Int → Option Int) (now : Int) (first : Option Int) (l : List Int) : Prop :=
  ∃ after, Successive next first l after ∧ (∀ t ∈ l, t ≤ now) ∧ ∀ r, after = some r → now < r

/-- Triggers go forward: the time following `p` is after `p`. -/
def Advancing {τ : Type} (next : Nat → τ → Option Int → Int → Except Exc (Option Int)) : Prop :=
  ∀ site g p now r, p ≤ now → next site g (some p) now = .ok (some r) → p < r

/-- Triggers answer the same wherever they are asked (no random jitter). -/
def Deterministic {τ : Type} (next : Nat → τ → Option Int → Int → Except Exc (Option Int)) : Prop :=
  ∀ i j, next i = next j

/-- The time following `p` does not depend on when the question is asked, once `p` has passed. -/
def NowFree {τ : Type} (next : Nat → τ → Option Int → Int → Except Exc (Option Int)) : Prop :=
  ∀ site g p now, p ≤ now → next site g (some p) now = next site g (some p) p

/-- the submissions of task `id` of store `store`, in order: executor and run times -/
def sends (store id : String) : List Obs → List (String × List Int)
  | [] => []
  | .send x i st ts :: os => if st = store ∧ i = id then (x, ts) :: sends store id os else sends store id os
  | _ :: os => sends store id os

/-- the run times of the submissions of task `id` of store `store`, in the order of submission -/
def submitted (store id : String) (os : List Obs) : List (List Int) := (sends store id os).map (·.2)

/-- the events TASK_SUBMITTED and TASK_MAX_INSTANCES of task `id` of store `store` -/
def submissionEvents (store id : String) (os : List Obs) : List Obs :=
  os.filter fun
    | .taskSubmitted i st _ _ _ => st == store && i == id
    | .taskMaxInstances i st _ _ _ => st == store && i == id
    | _ => false

/-- the number of submissions of tasks called `id`, in whatever store -/
def sendCount (id : String) : List Obs → Nat
  | [] => 0
  | .send _ i _ _ :: os => if i = id then sendCount id os + 1 else sendCount id os
  | _ :: os => sendCount id os

/-- the task `id` of the store `a` of the scheduler -/
def entry {σ τ φ : Type} (O : StoreOps σ (Body τ φ)) (s : State σ τ φ) (a id : String) : Option (T τ φ) :=
  (s.stores.get? a).bind fun st => O.lookup st id

/-- the observation is about task `id` of store `a` -/
def concerns (a id : String) : Obs → Bool
  | .send _ i st _ => st == a && i == id
  | .taskRemoved i st => st == a && i == id
  | .taskSubmitted i st _ _ _ => st == a && i == id
  | .taskMaxInstances i st _ _ _ => st == a && i == id
  | _ => false

/-- the number of running instances recorded for a task -/
def count {σ τ φ : Type} (s : State σ τ φ) (id : String) : Int := (s.instances.get? id).getD 0

end Sched
end Asyncz
