import Verif.Model.Edit
import Verif.Props.TaskObj
/-!
# What the task editing form should do
-/
namespace Asyncz
namespace Edit
open TaskObj Pages

/-- The values that Python counts as false: `None`, `False`, zeros, empty texts, sequences and mappings. -/
inductive Void : Val → Prop
  | none : Void .none
  | false : Void (.bool false)
  | zero : Void (.int 0)
  | zeroFloat : Void (.float 0)
  | empty : Void (.str "")
  | noItems : Void (.seq [])
  | noEntries : Void (.map [])

theorem truthy_iff (v : Val) : v.truthy = false ↔ Void v := by
  constructor
  · intro h
    cases v with
    | none => exact .none
    | bool b => cases b with
      | true => cases h
      | false => exact .false
    | int n =>
      have : n = 0 := by simpa [Val.truthy] using h
      subst this; exact .zero
    | float n =>
      have : n = 0 := by simpa [Val.truthy] using h
      subst this; exact .zeroFloat
    | str s =>
      have : s = "" := by simpa [Val.truthy] using h
      subst this; exact .empty
    | seq xs =>
      have : xs = [] := by simpa [Val.truthy] using h
      subst this; exact .noItems
    | map xs =>
      have : xs = [] := by simpa [Val.truthy] using h
      subst this; exact .noEntries
    | _ => cases h
  · intro h
    cases h <;> rfl

/-- What a submitted form asks for: the function `fn` and the other changes `u`, if every field is valid.  All texts are
meant without the blanks around them. -/
structure Asks (S : Str) (L : Lib) (f : Form) (t : Attrs) (fn : Val) (u : String → Option Val) : Prop where
  /-- a name, or none if the task has none or the form does not have the field -/
  name : (text S f.name ≠ "" ∧ u "name" = some (.str (text S f.name))) ∨
    (text S f.name = "" ∧ u "name" = none ∧ ((t .name).truthy = false ∨ f.name = none))
  /-- the textual reference; it may be empty only if the task has none -/
  fn : (text S f.callable ≠ "" ∧ fn = .str (text S f.callable)) ∨
    (text S f.callable = "" ∧ fn = .none ∧ (t .fnRef).truthy = false)
  executor : text S f.executor ≠ "" ∧ u "executor" = some (.str (text S f.executor))
  /-- a JSON list; nothing means the empty one -/
  args : ∃ xs, L.list (if text S f.args = "" then "[]" else text S f.args) = some xs ∧ u "args" = some (.seq xs)
  kwargs : ∃ kv, L.object (if text S f.kwargs = "" then "{}" else text S f.kwargs) = some kv ∧ u "kwargs" = some (.map kv)
  coalesce : (S.lower (text S f.coalesce) ∈ ["1", "true", "yes", "on"] ∧ u "coalesce" = some (.bool true)) ∨
    (S.lower (text S f.coalesce) ∈ ["0", "false", "no", "off"] ∧ u "coalesce" = some (.bool false))
  maxInst : ∃ n, S.int (text S f.maxInstances) = some n ∧ 0 < n ∧ u "max_instances" = some (.int n)
  /-- none if the box is ticked or nothing is given; whole numbers are integers -/
  grace : ((f.clearGrace = true ∨ text S f.grace = "") ∧ u "mistrigger_grace_time" = some .none) ∨
    (f.clearGrace = false ∧ text S f.grace ≠ "" ∧ ∃ m, L.float (text S f.grace) = some m ∧ 0 < m ∧
      ((∃ n, m = n * 1000000 ∧ u "mistrigger_grace_time" = some (.int n)) ∨
       ((∀ n, m ≠ n * 1000000) ∧ u "mistrigger_grace_time" = some (.float m))))
  rest : ∀ k, k ∉ ["name", "executor", "args", "kwargs", "coalesce", "max_instances", "mistrigger_grace_time"] → u k = none

/-- The attributes that the page shows, by the names it shows. -/
def Shown (name : String) (a : Attr) : Prop :=
  (name, a) ∈ [("name", Attr.name), ("executor", .executor), ("callable_reference", .fnRef), ("args", .args),
    ("kwargs", .kwargs), ("coalesce", .coalesce), ("max_instances", .maxInst), ("mistrigger_grace_time", .grace)]

/-- `d` lists exactly the shown attributes in which `t` and `t'` differ, with both values. -/
def Differences (t t' : Attrs) (d : List (String × Val × Val)) : Prop :=
  ∀ name b a, (name, b, a) ∈ d ↔ ∃ f, Shown name f ∧ t f ≠ t' f ∧ b = t f ∧ a = t' f

/-- The fields that are not valid. -/
inductive Invalid (S : Str) (L : Lib) (f : Form) (t : Attrs) : String → Prop
  /-- a name must not be taken away -/
  | name (h : text S f.name = "") (ht : (t .name).truthy = true) (hf : f.name ≠ none) : Invalid S L f t "name"
  | callable (h : text S f.callable = "") (ht : (t .fnRef).truthy = true) : Invalid S L f t "callable"
  | executor (h : text S f.executor = "") : Invalid S L f t "executor"
  | args (h : L.list (if text S f.args = "" then "[]" else text S f.args) = none) : Invalid S L f t "args"
  | kwargs (h : L.object (if text S f.kwargs = "" then "{}" else text S f.kwargs) = none) : Invalid S L f t "kwargs"
  | coalesce (h : S.lower (text S f.coalesce) ∉ ["1", "true", "yes", "on", "0", "false", "no", "off"]) : Invalid S L f t "coalesce"
  | maxInst (h : ∀ n, S.int (text S f.maxInstances) = some n → n ≤ 0) : Invalid S L f t "max_instances"
  | grace (hc : f.clearGrace = false) (h0 : text S f.grace ≠ "") (h : ∀ m, L.float (text S f.grace) = some m → m ≤ 0) :
    Invalid S L f t "mistrigger_grace_time"

/-- What is written for the task can be read again. -/
structure Show.Readable (W : Show) (S : Str) (L : Lib) (t : Attrs) : Prop where
  list : ∀ xs, t .args = .seq xs → L.list (W.list xs) = some xs ∧ S.strip (W.list xs) = W.list xs ∧ W.list xs ≠ ""
  object : ∀ kv, t .kwargs = .map kv → L.object (W.object kv) = some kv ∧ S.strip (W.object kv) = W.object kv ∧ W.object kv ≠ ""
  int : ∀ n, t .maxInst = .int n → S.int (W.int n) = some n ∧ S.strip (W.int n) = W.int n
  whole : ∀ n, t .grace = .int n → L.float (W.int n) = some (n * 1000000) ∧ S.strip (W.int n) = W.int n ∧ W.int n ≠ ""
  float : ∀ m, t .grace = .float m → L.float (W.float m) = some m ∧ S.strip (W.float m) = W.float m ∧ W.float m ≠ ""

/-- A text that stripping leaves alone. -/
def Plain (S : Str) (v : Val) (s : String) : Prop := v = .str s ∧ s ≠ "" ∧ S.strip s = s

/-- A task that the form can show completely: name, executor and reference are texts without blanks around them, the
reference leads to its function, and the function takes its arguments. -/
structure Showable (S : Str) (py : Py) (sched : Val) (t : Attrs) : Prop where
  name : ∃ s, Plain S (t .name) s
  fn : ∃ s c, Plain S (t .fnRef) s ∧ py.resolve s = some c ∧ t .fn = .callable c ∧ py.argsOk c (t .args) (t .kwargs) = true
  executor : ∃ s, Plain S (t .executor) s
  args : ∃ xs, t .args = .seq xs
  kwargs : ∃ kv, t .kwargs = .map kv
  coalesce : ∃ b, t .coalesce = .bool b
  maxInst : ∃ n, 0 < n ∧ t .maxInst = .int n
  grace : t .grace = .none ∨ (∃ n, 0 < n ∧ t .grace = .int n) ∨ (∃ m, 0 < m ∧ (∀ n, m ≠ n * 1000000) ∧ t .grace = .float m)
  sched : t .scheduler = .none ∨ t .scheduler = sched

end Edit
end Asyncz
