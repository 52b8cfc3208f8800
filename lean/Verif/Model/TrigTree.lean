import Verif.Model.SchedTrigger
/-!
# Triggers made of triggers (/repo/asyncz/triggers/combination.py, triggers/base.py:42-92)
-/
namespace Asyncz
namespace Sched

/-- Any trigger made of the built-in classes: the members of `AndTrigger` and `OrTrigger` may be combinations again
(triggers/base.py:51-61). -/
inductive Tree where
  | leaf (g : Trig)
  | and (ms : List Tree) (jitter : Option Int)
  | or (ms : List Tree) (jitter : Option Int)

/-- What `get_next_trigger_time` does: `none` if it has not ended (triggers/combination.py:24-36). -/
abbrev Answer := Option (Except Exc (Option Dt))

/-- `get_next_trigger_time` of the classes that are no combinations
(triggers/interval.py:65, date.py:35, cron/trigger.py:223, shutdown.py:10). -/
def leafNext (E : TzEnv) (tz : Nat) (g : Trig) (prev : Option Dt) (now : Dt) (draw : Int) : Except Exc (Option Dt) :=
  match g with
  | .interval g => g.next E tz prev now draw
  | .date g => .ok (g.next E tz prev now)
  | .cron g => cronNext E tz g prev now draw
  | .shutdown => .ok (shutdownNext tz prev now)

/-- The `for` loop of `OrTrigger` over what its members answer (triggers/combination.py:56-60). -/
def orLoop : List Answer → Option (Except Exc (List Dt))
  | [] => some (.ok [])
  | none :: _ => none
  | some (.error x) :: _ => some (.error x)
  | some (.ok r) :: ms => match orLoop ms with
    | none => none
    | some (.error x) => some (.error x)
    | some (.ok ts) => some (.ok (match r with | some t => t :: ts | none => ts))

/-- `OrTrigger.get_next_trigger_time` (triggers/combination.py:51-65) -/
def orAnswer (E : TzEnv) (ms : List Answer) (jitter : Option Int) (draw : Int) : Answer :=
  match orLoop ms with
  | none => none
  | some (.error x) => some (.error x)
  | some (.ok []) => some (.ok none)
  | some (.ok (t :: ts)) => match pyMin E (t :: ts) with
    | .error x => some (.error x)
    | .ok m => some (.ok (some (applyJitter m jitter draw)))

/-- The `for` loop of `AndTrigger` (triggers/combination.py:26-31); the inner `none`: a member has finished. -/
def andFor : List Answer → Option (Except Exc (Option (List Dt)))
  | [] => some (.ok (some []))
  | none :: _ => none
  | some (.error x) :: _ => some (.error x)
  | some (.ok none) :: _ => some (.ok none)
  | some (.ok (some t)) :: ms => match andFor ms with
    | none => none
    | some (.error x) => some (.error x)
    | some (.ok none) => some (.ok none)
    | some (.ok (some ts)) => some (.ok (some (t :: ts)))

/-- `AndTrigger.get_next_trigger_time` (triggers/combination.py:19-36); `ask k now`: what the members answer in round `k`. -/
def andLoop (E : TzEnv) (ask : Nat → Dt → List Answer) (jitter : Option Int) (draw : Int) : Nat → Nat → Dt → Answer
  | 0, _, _ => none
  | n + 1, k, now => match andFor (ask k now) with
    | none => none
    | some (.error x) => some (.error x)
    | some (.ok none) => some (.ok none)
    | some (.ok (some ts)) => match pyMin E ts, pyMax E ts with
      | .ok lo, .ok hi =>
        if Dt.eq E lo hi then some (.ok (ts.head?.map fun t => applyJitter t jitter draw))
        else andLoop E ask jitter draw n (k + 1) hi
      | .error x, _ => some (.error x)
      | _, .error x => some (.error x)

mutual
/-- `get_next_trigger_time` of any trigger (triggers/combination.py:19-65).  `rounds` bounds the rounds of each `while`
loop; `draw` gives the random numbers, by the position in the tree and the rounds. -/
def Tree.next (E : TzEnv) (tz rounds : Nat) (prev : Option Dt) : Tree → (List Nat → Int) → Dt → Answer
  | .leaf g, draw, now => some (leafNext E tz g prev now (draw []))
  | .or ms j, draw, now => orAnswer E (Tree.nexts E tz rounds prev ms 0 draw now) j (draw [])
  | .and ms j, draw, now =>
    andLoop E (fun k now => Tree.nexts E tz rounds prev ms 0 (fun p => draw (k :: p)) now) j (draw []) rounds 0 now

/-- the answers of the members (triggers/combination.py:26-27,57-58) -/
def Tree.nexts (E : TzEnv) (tz rounds : Nat) (prev : Option Dt) : List Tree → Nat → (List Nat → Int) → Dt → List Answer
  | [], _, _, _ => []
  | t :: ts, i, draw, now => Tree.next E tz rounds prev t (fun p => draw (i :: p)) now :: Tree.nexts E tz rounds prev ts (i + 1) draw now
end

/-- saving and restoring a trigger that is no combination (triggers/interval.py:103-111, date.py:42-47, cron/trigger.py:275-288, state.py:12-28) -/
def Trig.restore : Trig → Trig
  | .interval g => .interval g.restore
  | .date g => .date g.restore
  | .cron g => .cron g
  | .shutdown => .shutdown

mutual
/-- `BaseCombinationTrigger.__getstate__` followed by `__setstate__` (triggers/base.py:63-83): class reference and state of
each member are saved, and restored one by one. -/
def Tree.restore : Tree → Tree
  | .leaf g => .leaf g.restore
  | .and ms j => .and (Tree.restores ms) j
  | .or ms j => .or (Tree.restores ms) j

/-- the list comprehension of `__getstate__` and the loop of `__setstate__` (triggers/base.py:64-66,77-81) -/
def Tree.restores : List Tree → List Tree
  | [] => []
  | t :: ts => t.restore :: Tree.restores ts
end

/-- `trigger.get_next_trigger_time(self.timezone, prev, now)` as the scheduler uses it (schedulers/base.py:1631-1633), for
triggers that always answer. -/
def Tree.at (E : TzEnv) (tz : Nat) (draw : Nat → List Nat → Int) (site : Nat) (t : Tree) (prev : Option Int) (now : Int) :
    Except Exc (Option Int) :=
  toInst E ((t.next E tz 0 (prev.map (Dt.ofInst E tz)) (draw site) (Dt.ofInst E tz now)).getD (.error .valueError))

end Sched
end Asyncz
