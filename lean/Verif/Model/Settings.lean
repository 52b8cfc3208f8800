import Verif.Model.Dict
/-!
# Model of the settings classes (/repo/asyncz/conf/global_settings.py)

Python's class constructors, `str.lower`/`str.upper`, the environment, the names bound in modules and the evaluation of
annotations other than a name or a subscripted name are parameters.
-/
namespace Asyncz
namespace Settings

/-- texts: the values of /repo/asyncz/conf/global_settings.py:64 -/
abbrev Text := List Char

/-- A type as the code sees it.  (/repo/asyncz/conf/global_settings.py:86-99,122-156) -/
inductive Ty where
  /-- a class, or a generic alias of it such as `list[str]`: calling it calls the class -/
  | cls (name : String)
  /-- `NoneType` -/
  | none
  /-- `Union[...]` or `A | B` -/
  | union (ts : List Ty)
  /-- `Annotated[t, ...]` -/
  | annotated (t : Ty)
  /-- a text that could not be resolved; calling it raises -/
  | unresolved (s : String)
  /-- anything else that cannot be called with a text -/
  | other
  deriving Repr

/-- An annotation in a class body: an object, or its source text under `from __future__ import annotations`.
(/repo/asyncz/conf/global_settings.py:1,86-99) -/
inductive Ann where
  | obj (t : Ty)
  | text (s : String)
  deriving Repr

/-- What a name is bound to.  (/repo/asyncz/conf/global_settings.py:101-120) -/
inductive Thing where
  | ty (t : Ty)
  | function
  deriving Repr

/-- Python's side: constructors, texts, and evaluation of annotations.
(Library; used at /repo/asyncz/conf/global_settings.py:31-34,64,101-120,146-147) -/
structure World (V : Type) where
  /-- `cls(text)`; `none`: it raises -/
  call : String → Text → Option V
  /-- the values `True` and `False` -/
  bool : Bool → V
  /-- `None` -/
  noneV : V
  lower : Text → Text
  upper : String → String
  /-- the environment -/
  env : String → Option Text
  /-- the builtins -/
  builtins : String → Option Thing
  /-- the value of an annotation text that is neither a name nor a subscripted name -/
  evalOther : String → Option Ty

/-- One class: its own annotations, attributes with a value, other names bound in its body, read-only properties, and the
names of its module.  (/repo/asyncz/conf/global_settings.py:37-43,221-269) -/
structure Class (V : Type) where
  annotations : Dict String Ann
  defaults : Dict String V
  functions : List String
  readOnly : List String
  module : String → Option Thing

/-- `BaseSettings` itself: the annotations and methods of its body.  None of the names of its module is `dict`.
(/repo/asyncz/conf/global_settings.py:3-18,37-219) -/
def base {V : Type} (w : World V) (modl : String → Option Thing) : Class V where
  annotations := [("__type_hints__", .text "dict[str, Any]"), ("__truthy__", .text "set[str]")]
  defaults := [("__type_hints__", w.noneV)]
  functions := ["__init__", "__init_subclass__", "post_init", "_extract_base_type", "_resolve_string_type", "_cast", "dict", "tuple"]
  readOnly := []
  module n := if n = "dict" then none else modl n

variable {V : Type}

/-- the part of an annotation text before the first `[`.  (/repo/asyncz/conf/global_settings.py:108) -/
def beforeBracket (s : String) : String := String.ofList (s.toList.takeWhile (· ≠ '['))

/-- `s` is a name: letters, digits and underscores.
(Library: how annotation texts are evaluated; used at /repo/asyncz/conf/global_settings.py:32) -/
def isName (s : String) : Bool := s.toList.all fun c => c.isAlphanum || c == '_'

/-- Evaluation of an annotation by `typing.get_type_hints(cls)`: names are looked up in the module, then in the class body, then
in the builtins; a function cannot be subscripted.  `none`: it raises.
(Library: `typing.get_type_hints` for classes; used at /repo/asyncz/conf/global_settings.py:32) -/
def evalAnn (w : World V) (c : Class V) : Ann → Option Ty
  | .obj t => some t
  | .text s =>
    let n := beforeBracket s
    let thing := (c.module n).or ((if n ∈ c.functions then some Thing.function else none).or (w.builtins n))
    if isName n && s.toList.contains '[' then
      match thing with
      | some (.ty t) => some t
      | _ => none
    else if isName s then
      match thing with
      | some (.ty t) => some t
      | some .function => some .other
      | none => none
    else w.evalOther s

/-- `typing.get_type_hints(cls)`: the evaluated annotations of the classes of the method resolution order, most basic class
first.  (Library; used at /repo/asyncz/conf/global_settings.py:32) -/
def getTypeHints (w : World V) (mro : List (Class V)) : Option (Dict String Ty) :=
  mro.reverse.foldlM (fun d c => c.annotations.foldlM (fun d p => (evalAnn w c p.2).map fun t => d.set p.1 t) d) []

/-- `safe_get_type_hints`; the method resolution order begins with the class itself.
(/repo/asyncz/conf/global_settings.py:21-34) -/
def safeHints (w : World V) (c : Class V) (mro : List (Class V)) : Dict String Ann :=
  match getTypeHints w (c :: mro) with
  | some d => d.map fun p => (p.1, .obj p.2)
  | none => c.annotations

/-- `_resolve_string_type`; only types resolve to something that can be used as one.
(/repo/asyncz/conf/global_settings.py:101-120) -/
def resolveText (w : World V) (c : Class V) (s : String) : Option Ty :=
  let n := beforeBracket s
  match (c.module n).or (w.builtins n) with
  | some (.ty t) => some t
  | some .function => some .other
  | none => none

/-- `_extract_base_type`.  (/repo/asyncz/conf/global_settings.py:86-99) -/
def extract (w : World V) (c : Class V) : Ann → Ty
  | .obj (.annotated t) => t
  | .obj t => t
  | .text s => (resolveText w c s).getD (.unresolved s)

/-- `__truthy__`.  (/repo/asyncz/conf/global_settings.py:43) -/
def truthy : List Text := ["true", "1", "yes", "on", "y"].map String.toList

/-- the types of a union other than `NoneType`.  (/repo/asyncz/conf/global_settings.py:139) -/
def nonNone : List Ty → List Ty
  | [] => []
  | .none :: ts => nonNone ts
  | t :: ts => t :: nonNone ts

/-- the conversion of one type that is not a union.  (/repo/asyncz/conf/global_settings.py:145-147) -/
def castOne (w : World V) (value : Text) : Ty → Option V
  | .cls n => if n = "bool" then some (w.bool (truthy.contains (w.lower value))) else w.call n value
  | .none => none
  | .union _ => none
  | .annotated _ => none
  | .unresolved s => if s = "bool" then some (w.bool (truthy.contains (w.lower value))) else none
  | .other => none

/-- `_cast`; `none`: `ValueError`.  (/repo/asyncz/conf/global_settings.py:122-156) -/
def cast (w : World V) (value : Text) : Ty → Option V
  | .union ts =>
    match nonNone ts with
    | [t] => castOne w value t
    | _ => none
  | t => castOne w value t

/-- the value of a class attribute: that of the first class of the method resolution order that has one.
(Library; used at /repo/asyncz/conf/global_settings.py:68) -/
def classAttr (mro : List (Class V)) (key : String) : Option V :=
  mro.findSome? fun c => c.defaults.get? key

/-- `getattr(self, key, None)`.  (/repo/asyncz/conf/global_settings.py:68,173) -/
def getAttr (w : World V) (mro : List (Class V)) (obj : Dict String V) (key : String) : V :=
  ((obj.get? key).or (classAttr mro key)).getD w.noneV

/-- one round of the loop of `__init__`.  (/repo/asyncz/conf/global_settings.py:61-69) -/
def loadOne (w : World V) (c : Class V) (mro : List (Class V)) (obj : Dict String V) (p : String × Ann) :
    Option (Dict String V) :=
  match w.env (w.upper p.1) with
  | some text => (cast w text (extract w c p.2)).map fun v => obj.set p.1 v
  | none => some (obj.set p.1 (getAttr w (c :: mro) obj p.1))

/-- `setattr` for a keyword argument; `none`: the attribute is a property without a setter.
(/repo/asyncz/conf/global_settings.py:57-59) -/
def setKw (mro : List (Class V)) (obj : Dict String V) (p : String × V) : Option (Dict String V) :=
  if mro.any fun c => c.readOnly.contains p.1 then none else some (obj.set p.1 p.2)

/-- `BaseSettings.__init__` of an object of class `c`, whose ancestors are `mro` (nearest first); the result is the instance
dictionary, `none`: it raises.  `post_init` is not modelled: it does nothing unless overridden.
(/repo/asyncz/conf/global_settings.py:45-84) -/
def construct (w : World V) (c : Class V) (mro : List (Class V)) (kwargs : Dict String V) : Option (Dict String V) := do
  let obj ← kwargs.foldlM (setKw (c :: mro)) []
  (safeHints w c mro).foldlM (loadOne w c mro) obj

/-- `dict(exclude_none, upper, exclude)` without properties: the pairs in order, before they are put in a dictionary.
(/repo/asyncz/conf/global_settings.py:157-178) -/
def dumped (w : World V) [DecidableEq V] (c : Class V) (mro : List (Class V)) (obj : Dict String V) (excludeNone upper : Bool)
    (exclude : List String) : List (String × V) :=
  ((safeHints w c mro).keys.filter fun k => !exclude.contains k).filterMap fun k =>
    let v := getAttr w (c :: mro) obj k
    if excludeNone && decide (v = w.noneV) then none else some (if upper then w.upper k else k, v)

/-- `dict(...)`.  (/repo/asyncz/conf/global_settings.py:157-219) -/
def dict (w : World V) [DecidableEq V] (c : Class V) (mro : List (Class V)) (obj : Dict String V) (excludeNone upper : Bool)
    (exclude : List String) : Dict String V :=
  (dumped w c mro obj excludeNone upper exclude).foldl (fun d p => d.set p.1 p.2) []

/-- The class `Settings`.  Its module imports the future annotations, so its annotations are texts.
(/repo/asyncz/conf/global_settings.py:221-269) -/
def settings (w : World V) (modl : String → Option Thing) (version : V) : Class V where
  annotations := [("debug", .text "bool"), ("version", .text "str"), ("secret_key", .text "str | None")]
  defaults := [("debug", w.bool false), ("version", version), ("secret_key", w.noneV)]
  functions := []
  readOnly := ["dashboard_config"]
  module n := if n = "dict" then none else modl n

end Settings
end Asyncz
