import Verif.Model.Pages
/-!
# What the pages of the dashboard should do
-/
namespace Asyncz
namespace Pages
variable {α σ : Type}

/-- What is used of the Python string methods: lower-casing is idempotent, leaves a stripped text stripped and these words
alone; the characters of these words and the comma are not blank; and `int` reads decimal numbers. -/
structure Str.Lawful (S : Str) : Prop where
  lower_lower : ∀ s, S.lower (S.lower s) = S.lower s
  strip_lower : ∀ s, S.strip (S.lower (S.strip s)) = S.lower (S.strip s)
  words : S.lower "desc" = "desc" ∧ S.lower "asc" = "asc" ∧ S.lower "interval" = "interval" ∧ S.lower "cron" = "cron" ∧
    S.lower "date" = "date"
  ink : ∀ c ∈ "adceinrtvlsxumho_,0123456789-+:T".toList, S.blank c = false
  int : ∀ n : Nat, S.int n.repr = some (n : Int) ∧ S.int ("-" ++ n.repr) = some (-(n : Int))

/-- The `n`-th block of `k` elements of a list (counted from 1). -/
def block (l : List α) (k n : Nat) : List α := (l.drop ((n - 1) * k)).take k

/-- `ids` without repetitions, in the order of first appearance: every element once, and each element appears before
those that first occur after it. -/
structure FirstAppearances (ids r : List String) : Prop where
  nodup : r.Nodup
  mem : ∀ x, x ∈ r ↔ x ∈ ids
  order : ∀ x y, x ∈ r → y ∈ r → (r.idxOf x < r.idxOf y ↔ ids.idxOf x < ids.idxOf y)

/-- An id that survives a comma-separated list. -/
def PlainId (S : Str) (x : String) : Prop := x ≠ "" ∧ S.strip x = x ∧ ',' ∉ x.toList

/-- A call that ended in one of the ways the pages handle. -/
def Handled (a : Action) : Except Remote.Exc Unit → Prop
  | .ok _ => True
  | .error (.lookup _) => True
  | .error (.maxInst _ _) => a = .run
  | .error _ => False

/-- the state before the `k`-th call when the calls are made one after the other -/
def before (act : Act σ) (a : Action) (ids : List String) (s : σ) (k : Nat) : σ :=
  (ids.take k).foldl (fun s id => (act a id s).2) s

/-- the status that the audit log should show for a call -/
def statusOf : Except Remote.Exc Unit → String
  | .ok _ => "succeeded"
  | .error (.lookup _) => "failed"
  | .error _ => "warning"

/-- what the audit log should say about a call -/
inductive Message : Action → String → Except Remote.Exc Unit → String → Prop
  | run (id : String) (u : Unit) : Message .run id (.ok u) ("Triggered task " ++ id ++ " manually.")
  | pause (id : String) (u : Unit) : Message .pause id (.ok u) ("Paused task " ++ id ++ ".")
  | resume (id : String) (u : Unit) : Message .resume id (.ok u) ("Resumed task " ++ id ++ ".")
  | remove (id : String) (u : Unit) : Message .remove id (.ok u) ("Removed task " ++ id ++ ".")
  | missing (a : Action) (id : String) (i : Option String) : Message a id (.error (.lookup i)) "Task was not found."
  | full (a : Action) (id i : String) (n : Int) : Message a id (.error (.maxInst i n))
      ("The task by the id of " ++ i ++ " reached its maximum number of instances " ++ toString n ++ ".")

end Pages
end Asyncz
