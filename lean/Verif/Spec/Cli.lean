/-!
# What command-line options say
-/
namespace Asyncz
namespace Cli
namespace Spec

/-- Strings -/
abbrev Text := List Char

/-- `s` is `left`, then the first occurrence of `c` in `s`, then `right`. -/
def CutAt (c : Char) (s left right : Text) : Prop := s = left ++ c :: right ∧ c ∉ left

/-- `v` is the value of the last entry for `k` in a list of key-value pairs -/
def Last {κ ν : Type} (l : List (κ × ν)) (k : κ) (v : ν) : Prop :=
  ∃ a b, l = a ++ (k, v) :: b ∧ ∀ x ∈ b, x.1 ≠ k

/-- the seconds in a unit -/
def seconds : Char → Option Nat
  | 's' => some 1 | 'S' => some 1
  | 'm' => some 60 | 'M' => some 60
  | 'h' => some 3600 | 'H' => some 3600
  | _ => none

/-- the executor types and their documented names (docs/en/docs/cli.md, help of `--executor`) -/
inductive Executor where
  | asyncio | thread | process | debug
  deriving DecidableEq

/-- the names of the executor types -/
def executorNames : List (String × Executor) :=
  [("asyncio", .asyncio), ("thread", .thread), ("threads", .thread), ("pool", .thread),
   ("process", .process), ("proc", .process), ("processpool", .process), ("debug", .debug)]

end Spec
end Cli
end Asyncz
