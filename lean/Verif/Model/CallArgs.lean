import Verif.Spec.Call
/-!
# Model of `check_callable_args` (/repo/asyncz/utils.py:338-422)

Only the number of positional arguments matters.  `inspect.signature` is given: the list of parameters of the callable.
-/
namespace Asyncz
namespace Call

/-- The local variables (utils.py:342-348). -/
structure Loc where
  posKwConflicts : List String := []
  posOnlyKws : List String := []
  unsatArgs : List String := []
  unsatKws : List String := []
  args : Nat
  kws : List String
  hasVarargs : Bool := false
  hasVarKw : Bool := false
  deriving Repr

/-- The body of the loop (utils.py:355-381). -/
def visit (l : Loc) (p : Param) : Loc :=
  match p.kind with
  | .posOrKw =>
    if p.name ∈ l.kws ∧ l.args ≠ 0 then { l with posKwConflicts := l.posKwConflicts ++ [p.name] }
    else if l.args ≠ 0 then { l with args := l.args - 1 }
    else if p.name ∈ l.kws then { l with kws := l.kws.erase p.name }
    else if !p.hasDefault then { l with unsatArgs := l.unsatArgs ++ [p.name] }
    else l
  | .posOnly =>
    if l.args ≠ 0 then { l with args := l.args - 1 }
    else if p.name ∈ l.kws then { l with kws := l.kws.erase p.name, posOnlyKws := l.posOnlyKws ++ [p.name] }
    else if !p.hasDefault then { l with unsatArgs := l.unsatArgs ++ [p.name] }
    else l
  | .kwOnly =>
    if p.name ∈ l.kws then { l with kws := l.kws.erase p.name }
    else if !p.hasDefault then { l with unsatKws := l.unsatKws ++ [p.name] }
    else l
  | .varPos => { l with hasVarargs := true }
  | .varKw => { l with hasVarKw := true }

/-- The message of the `ValueError` (utils.py:383-422). -/
inductive Problem where
  | conflicts (names : List String)
  | positionalOnly (names : List String)
  | missing (names : List String)
  | missingKeywords (names : List String)
  | tooMany (allowed given : Nat)
  | unknown (names : List String)
  deriving DecidableEq, Repr

/-- The checks behind the loop (utils.py:383-422); `none`: the function returns. -/
def verdict (n : Nat) (l : Loc) : Option Problem :=
  if l.posKwConflicts ≠ [] then some (.conflicts l.posKwConflicts)
  else if l.posOnlyKws ≠ [] then some (.positionalOnly l.posOnlyKws)
  else if l.unsatArgs ≠ [] then some (.missing l.unsatArgs)
  else if l.unsatKws ≠ [] then some (.missingKeywords l.unsatKws)
  else if !l.hasVarargs && l.args ≠ 0 then some (.tooMany (n - l.args) n)
  else if !l.hasVarKw && l.kws ≠ [] then some (.unknown l.kws)
  else none

/-- `check_callable_args(func, args, kwargs)` with `n` positional arguments and the keywords `kws`
(utils.py:338-422). -/
def checkCallableArgs (ps : List Param) (n : Nat) (kws : List String) : Option Problem :=
  verdict n (ps.foldl visit { args := n, kws })

end Call
end Asyncz
