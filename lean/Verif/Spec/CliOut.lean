/-!
# Specification: what a command that shows something writes, and how it ends (C129)
-/
namespace Asyncz
namespace CliOut

/-- the commands that show something and change nothing -/
inductive Cmd where
  | list | status | preview | inspect | doctor | instances | timeline
  deriving DecidableEq, Repr

/-- What can be observed of a command: a line of text, a JSON document on its standard output, the bootstrapped scheduler is made, a
scheduler is started, is shut down. -/
inductive Ev (π : Type) where
  | text (line : String)
  | json (document : π)
  | loaded
  | started
  | stopped
  deriving DecidableEq, Repr

namespace Spec

/-- the standard output -/
def output {π : Type} : List (Ev π) → List (Ev π)
  | [] => []
  | .text l :: es => .text l :: output es
  | .json p :: es => .json p :: output es
  | _ :: es => output es

/-- what is done to schedulers -/
def effects {π : Type} : List (Ev π) → List (Ev π)
  | [] => []
  | .text _ :: es => effects es
  | .json _ :: es => effects es
  | e :: es => e :: effects es

/-- a program that reads the output as JSON finds exactly this -/
def Parses {π : Type} (es : List (Ev π)) (p : π) : Prop := output es = [.json p]

end Spec
end CliOut
end Asyncz
