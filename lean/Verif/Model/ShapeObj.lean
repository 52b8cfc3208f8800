import Verif.Spec.ShapeObj
/-!
# Shapes on user classes: construct, dump, fields (/repo/asyncz/shapes/builtins.py, shapes/base.py)
-/
namespace Asyncz
namespace ShapeObj

/-- The default of a field (shapes/builtins.py:195-199, 316-317, 424-425): none, a value, or a factory; `v` is what the
factory makes. -/
inductive Default where
  | required
  | value (v : V)
  | factory (v : V)

/-- A field of a dataclass, attrs class or Struct: its name, the parameter of the constructor that sets it (`none`: it is no
parameter, `init=False`; attrs drops leading underscores), its default (shapes/builtins.py:192-206, 311-319). -/
structure Field where
  name : String
  arg : Option String
  default : Default

/-- The libraries (shapes/builtins.py:18,138,213,324). -/
inductive Kind where
  | pydantic
  | dataclass
  | attrs
  | msgspec
  deriving DecidableEq, Repr

/-- A class (shapes/builtins.py:136-160, 213-268) -/
structure Cls where
  id : Nat
  kind : Kind
  fields : List Field

/-- Why an operation fails (shapes/errors.py): `ShapeValidationError`. -/
inductive Err where
  | validation
  deriving DecidableEq, Repr

/-- look up a keyword argument (Python's `**values`; shapes/builtins.py:155, 262) -/
def lookup (kw : List (String × V)) (k : String) : Option V := (kw.find? (·.1 = k)).map (·.2)

/-- The value the constructor gives a field (library constructors; shapes/builtins.py:155, 262). -/
def init (kw : List (String × V)) (f : Field) : Option V :=
  match f.arg.bind (lookup kw) with
  | some v => some v
  | none => match f.default with
    | .required => none
    | .value v => some v
    | .factory v => some v

/-- The fields, one after the other; a missing argument fails (library constructors; shapes/builtins.py:155, 262). -/
def initAll (kw : List (String × V)) : List Field → Option (List (String × V))
  | [] => some []
  | f :: fs => match init kw f with
    | none => none
    | some v => (initAll kw fs).map fun l => (f.name, v) :: l

/-- `model_type(**values)` (shapes/builtins.py:155, 262): unknown arguments fail.  Simplifications: no converters, validators or
`__post_init__`; a field that is no parameter and has no default fails. -/
def call (c : Cls) (kw : List (String × V)) : Option V :=
  if kw.all fun p => c.fields.any fun f => f.arg = some p.1 then (initAll kw c.fields).map (.obj c.id) else none

/-- `DataclassShape.construct`, `AttrsShape.construct` (shapes/builtins.py:141-160, 245-268, shapes/base.py:131-151): an
instance as it is, a mapping as arguments.  Simplification: no subclasses.  `model_validate` and `msgspec.convert`
(shapes/builtins.py:57-66, 382-389) do the same for arguments of plain data of the declared types; they also make objects of
nested mappings and ignore unknown keys, which is not modelled. -/
def construct (c : Cls) : V → Except Err V
  | .obj i l => if i = c.id then .ok (.obj i l) else .error .validation
  | .map kw => match call c kw with
    | some v => .ok v
    | none => .error .validation
  | _ => .error .validation

/-- `not exclude_none or item is not None` (shapes/base.py:66, 78, 85, shapes/builtins.py:290) -/
def kept (ex : Bool) : V → Bool
  | .none => !ex
  | _ => true

mutual
/-- `dump_plain`, for dataclass and attrs instances, mappings and sequences (shapes/base.py:50-97). -/
def dump (ex : Bool) : V → V
  | .none => .none
  | .atom n => .atom n
  | .map items => .map (dumpItems ex items)
  | .list items => .list (dumpList ex items)
  | .tuple items => .tuple (dumpList ex items)
  | .seq items => .list (dumpList ex items)
  | .obj _ attrs => .map (dumpItems ex attrs)

/-- the comprehensions over fields and items (shapes/base.py:63-67, 75-79, 82-86, shapes/builtins.py:287-291) -/
def dumpItems (ex : Bool) : List (String × V) → List (String × V)
  | [] => []
  | (k, v) :: l => if kept ex v then (k, dump ex v) :: dumpItems ex l else dumpItems ex l

/-- the comprehensions over elements (shapes/base.py:88-95) -/
def dumpList (ex : Bool) : List V → List V
  | [] => []
  | v :: l => dump ex v :: dumpList ex l
end

/-- `Shape.dump` for the kind of class (shapes/builtins.py:269-292, 390-409, shapes/base.py:153-177).  `msgspec.to_builtins`
is given no `exclude_none`. -/
def shapeDump (k : Kind) (ex : Bool) (v : V) : V :=
  match k with
  | .msgspec => dump false v
  | _ => dump ex v

/-- What a `ShapeField` shows as default: `None`, a value, or a marker object of the library (shapes/base.py:35-48). -/
inductive Shown where
  | none
  | value (v : V)
  | marker

/-- A `ShapeField` (shapes/base.py:35-48) without the annotation. -/
structure Info where
  name : String
  default : Shown
  required : Bool

/-- One field of `Shape.fields` (shapes/builtins.py:98-121, 192-206, 311-320, 420-430): the default is the library's attribute
`default`; of a field with a factory this is a marker (`MISSING`, `PydanticUndefined`, `NODEFAULT`) or the factory object.
Only msgspec shows the marker for required fields, too. -/
def info (k : Kind) (f : Field) : Info :=
  match f.default with
  | .required => ⟨f.name, if k = .msgspec then .marker else .none, true⟩
  | .value v => ⟨f.name, .value v, false⟩
  | .factory _ => ⟨f.name, .marker, false⟩

/-- `Shape.fields` (shapes/builtins.py:83-121, 183-206, 293-320, 410-430) -/
def fields (c : Cls) : List Info := c.fields.map (info c.kind)

end ShapeObj
end Asyncz
