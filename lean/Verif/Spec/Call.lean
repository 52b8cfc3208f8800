/-!
# How Python binds the arguments of a call

Language reference, "Calls": positional arguments fill the positional parameters in order, the surplus goes to
`*args`; each keyword goes to the parameter of that name that may be given by keyword, else to `**kwargs`; a parameter
that is filled twice, or not at all and has no default, is a `TypeError`.
-/
namespace Asyncz
namespace Call

inductive Kind where
  | posOnly | posOrKw | varPos | kwOnly | varKw
  deriving DecidableEq, Repr

/-- A parameter of a signature (`inspect.Parameter`). -/
structure Param where
  name : String
  kind : Kind
  hasDefault : Bool
  deriving DecidableEq, Repr

def Param.positional (p : Param) : Bool := p.kind == .posOnly || p.kind == .posOrKw
def Param.byKeyword (p : Param) : Bool := p.kind == .posOrKw || p.kind == .kwOnly

/-- The call `f(*args, **kwargs)` with `n` positional arguments and the keywords `kws` binds. -/
structure Binds (ps : List Param) (n : Nat) (kws : List String) : Prop where
  /-- surplus positional arguments go to `*args` -/
  surplus : n ≤ (ps.filter Param.positional).length ∨ ∃ p ∈ ps, p.kind = .varPos
  /-- every keyword has a parameter, or goes to `**kwargs` -/
  known : ∀ k ∈ kws, (∃ p ∈ ps, p.byKeyword ∧ p.name = k) ∨ ∃ p ∈ ps, p.kind = .varKw
  /-- no parameter is given by position and by keyword -/
  once : ∀ i p, (ps.filter Param.positional)[i]? = some p → i < n → p.kind = .posOrKw → p.name ∉ kws
  /-- positional parameters that are left have a default, or are given by keyword -/
  positional : ∀ i p, (ps.filter Param.positional)[i]? = some p → n ≤ i →
    p.hasDefault ∨ (p.kind = .posOrKw ∧ p.name ∈ kws)
  /-- so do the keyword-only parameters -/
  keyword : ∀ p ∈ ps, p.kind = .kwOnly → p.hasDefault ∨ p.name ∈ kws

end Call
end Asyncz
