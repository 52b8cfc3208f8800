import Verif.Spec.ShapeCalls
/-!
# The calls of the built-in shapes and their errors (/repo/asyncz/shapes/builtins.py, shapes/base.py)

Validation libraries and user classes are arbitrary: a `World` says how each of their functions ends.
-/
namespace Asyncz
namespace ShapeCalls

/-- The built-in shapes (shapes/builtins.py:17, 134, 210, 321, 445) -/
inductive Shape where
  | pydantic
  | dataclass
  | attrs
  | msgspec
  | any
  deriving DecidableEq, Repr

/-- A `ShapeField` (shapes/base.py:35-48); values, annotations and defaults are Python objects `O`. -/
structure Field (O : Type) where
  name : String
  annotation : O
  default : O
  required : Bool

/-- A field as a library describes it (shapes/builtins.py:107-109, 192-197, 311-318, 421-428): `default = none` is the marker
for "no default"; `marker` is the object the library then shows. -/
structure LibField (O : Type) where
  name : String
  annotation : O
  default : Option O
  factory : Bool
  marker : O
  required : Bool

/-- The libraries and classes a shape calls, on Python objects `O` (shapes/builtins.py:1-503, shapes/base.py:50-97).
Simplifications: imports, `hasattr`, `issubclass` and the `==` of `model_type in (Any, object)` do not raise; the recursive
`dump_plain` is one function here (it is modelled in Model/ShapeObj.lean). -/
structure World (O : Type) where
  /-- `import attr`, `import msgspec`, `import pydantic` succeed (builtins.py:37-40, 229-233, 339-343) -/
  installed : Shape → Bool
  /-- `is_dataclass`, `attr.has`, `issubclass(.., BaseModel)`, `issubclass(.., Struct)` of the object or its class -/
  recognises : Shape → O → Bool
  /-- `isinstance(value, model_type)` -/
  isInstance : O → O → Res Bool
  /-- `isinstance(values, Mapping)` -/
  isMapping : O → Bool
  /-- `model_type.__name__` exists -/
  hasName : O → Bool
  /-- `model_type in (Any, object)` -/
  isAny : O → Bool
  /-- `model_type(**values)` -/
  callKw : O → O → Res O
  /-- `model_type(values)` -/
  callOne : O → O → Res O
  /-- `model_type.model_validate(values)` -/
  modelValidate : O → O → Res O
  /-- `msgspec.convert(values, type=model_type)` -/
  convert : O → O → Res O
  /-- `hasattr(value, "model_dump")` -/
  hasModelDump : O → Bool
  /-- `value.model_dump(mode=.., exclude_none=..)` -/
  modelDumpMode : String → Bool → O → Res O
  /-- `value.model_dump(exclude_none=..)` -/
  modelDump : Bool → O → Res O
  /-- `dump_plain(value, exclude_none=..)` -/
  dumpPlain : Bool → O → Res O
  /-- `attr.asdict(value, recurse=False)` -/
  asdict : O → Res (List (String × O))
  /-- a dict as an object -/
  dict : List (String × O) → O
  /-- `item is None` -/
  isNone : O → Bool
  /-- `None` -/
  none : O
  /-- `typing.Any` -/
  anyType : O
  /-- `msgspec.to_builtins(value)` -/
  toBuiltins : O → Res O
  /-- `model_fields`, `dataclasses.fields`, `attr.fields`, `msgspec.structs.fields` -/
  libFields : Shape → O → Res (List (LibField O))
  /-- `get_type_hints(model_type)` -/
  typeHints : O → Res (List (String × O))
  /-- `hasattr(model_type, "model_json_schema")` -/
  hasSchema : O → Bool
  /-- `model_type.model_json_schema()`, `msgspec.json.schema(model_type)` -/
  librarySchema : Shape → O → Res O

variable {O : Type}

/-- `except Exception` (shapes/base.py:151, 177, shapes/builtins.py:61, 88, 173, 267, 376, 400, 484, 490): every error but requests to stop. -/
def caught : Exc → Bool
  | .stop _ => false
  | _ => true

/-- `except ShapeValidationError` (shapes/base.py:193) -/
def isValidation : Exc → Bool
  | .shape .validation => true
  | .shapeFrom .validation _ => true
  | _ => false

/-- `except TypeError` (shapes/builtins.py:86) -/
def isTypeError : Exc → Bool
  | .raw "TypeError" => true
  | _ => false

/-- `raise ShapeValidationError(f"... {model_type.__name__}.")` (shapes/base.py:152-157, shapes/builtins.py:62-64): a type
without a name fails in the message. -/
def invalid (w : World O) (t : O) (cause : Option Exc) : Exc :=
  if w.hasName t then
    match cause with
    | some e => .shapeFrom .validation e
    | none => .shape .validation
  else .raw "AttributeError"

/-- `try: return call except Exception as exc: raise ShapeValidationError(...) from exc` (shapes/base.py:149-154,
shapes/builtins.py:59-64, 171-176, 265-270, 374-379, 482-493) -/
def trying (w : World O) (t : O) (r : Res O) : Res O :=
  match r with
  | .ok v => .ok v
  | .error e => if caught e then .error (invalid w t (some e)) else .error e

/-- `Shape.construct` (shapes/base.py:135-157) -/
def baseConstruct (w : World O) (t v : O) : Res O :=
  match w.isInstance v t with
  | .error e => .error e
  | .ok true => .ok v
  | .ok false => if w.isMapping v then trying w t (w.callKw t v) else .error (invalid w t none)

/-- `supports` (shapes/builtins.py:28-43, 145-154, 235-248, 345-358, 456-464): false without the library. -/
def supports (w : World O) (s : Shape) (x : O) : Bool :=
  match s with
  | .dataclass => w.recognises .dataclass x
  | .any => true
  | s => w.installed s && w.recognises s x

/-- `DataclassShape.construct` (shapes/builtins.py:156-177) and what `AttrsShape.construct` does after the import
(shapes/builtins.py:260-271): the class is tried before the default behaviour. -/
def classConstruct (w : World O) (known : Bool) (t v : O) : Res O :=
  if known then
    match w.isInstance v t with
    | .error e => .error e
    | .ok true => .ok v
    | .ok false => if w.isMapping v then trying w t (w.callKw t v) else baseConstruct w t v
  else baseConstruct w t v

/-- `construct` of the five shapes (shapes/builtins.py:45-65, 156-177, 250-271, 360-380, 466-493): the import of attrs and
msgspec comes first (shapes/builtins.py:221-233, 331-343). -/
def construct (w : World O) (s : Shape) (t v : O) : Res O :=
  match s with
  | .pydantic =>
    match w.isInstance v t with
    | .error e => .error e
    | .ok true => .ok v
    | .ok false => if supports w .pydantic t then trying w t (w.modelValidate t v) else baseConstruct w t v
  | .dataclass => classConstruct w (w.recognises .dataclass t) t v
  | .attrs =>
    if w.installed .attrs then classConstruct w (w.recognises .attrs t) t v else .error (.shapeFrom .dependency (.raw "ImportError"))
  | .msgspec =>
    if w.installed .msgspec then
      if supports w .msgspec t then
        match w.isInstance v t with
        | .error e => .error e
        | .ok true => .ok v
        | .ok false => trying w t (w.convert t v)
      else baseConstruct w t v
    else .error (.shapeFrom .dependency (.raw "ImportError"))
  | .any =>
    if w.isAny t then .ok v
    else match w.isInstance v t with
      | .error e => .error e
      | .ok true => .ok v
      | .ok false => if w.isMapping v then trying w t (w.callKw t v) else trying w t (w.callOne t v)

/-- `Shape.validate` (shapes/base.py:122-133) -/
def validate (w : World O) (s : Shape) (t v : O) : Res O := construct w s t v

/-- `Shape.load` (shapes/base.py:180-194) -/
def load (w : World O) (s : Shape) (t v : O) : Res O :=
  match construct w s t v with
  | .ok x => .ok x
  | .error e => if isValidation e then .error (.shapeFrom .deserialization e) else .error e

/-- `try: ... except Exception as exc: raise ShapeSerializationError(...) from exc` (shapes/base.py:175-178,
shapes/builtins.py:88-91, 400-403): the message names the class of the value, which has a name. -/
def dumping (r : Res O) : Res O :=
  match r with
  | .ok v => .ok v
  | .error e => if caught e then .error (.shapeFrom .serialization e) else .error e

/-- The comprehension of `AttrsShape.dump` over the attributes (shapes/builtins.py:290-294) -/
def dumpItems (w : World O) (ex : Bool) : List (String × O) → Res (List (String × O))
  | [] => .ok []
  | (k, v) :: l =>
    if !ex || !w.isNone v then
      match w.dumpPlain ex v with
      | .error e => .error e
      | .ok d => (dumpItems w ex l).map fun r => (k, d) :: r
    else dumpItems w ex l

/-- `mode or "python"` (shapes/builtins.py:85) -/
def modeOf : Option String → String
  | none => "python"
  | some m => if m = "" then "python" else m

/-- `dump` of the five shapes (shapes/base.py:159-178, shapes/builtins.py:67-92, 273-295, 382-405). -/
def dump (w : World O) (s : Shape) (mode : Option String) (ex : Bool) (v : O) : Res O :=
  match s with
  | .pydantic =>
    if w.hasModelDump v then
      match w.modelDumpMode (modeOf mode) ex v with
      | .ok d => .ok d
      | .error e =>
        if isTypeError e then w.modelDump ex v
        else if caught e then .error (.shapeFrom .serialization e) else .error e
    else dumping (w.dumpPlain ex v)
  | .attrs =>
    if w.installed .attrs then
      if w.recognises .attrs v then
        match w.asdict v with
        | .error e => .error e
        | .ok items => (dumpItems w ex items).map w.dict
      else dumping (w.dumpPlain ex v)
    else .error (.shapeFrom .dependency (.raw "ImportError"))
  | .msgspec =>
    if w.installed .msgspec then
      if supports w .msgspec v then dumping (w.toBuiltins v) else dumping (w.dumpPlain ex v)
    else .error (.shapeFrom .dependency (.raw "ImportError"))
  | _ => dumping (w.dumpPlain ex v)

/-- One `ShapeField` (shapes/builtins.py:108-117, 193-206, 311-316, 422-427): pydantic, dataclass and attrs show `None` for a
required field; msgspec shows its marker; a default made by a factory is shown as the library's marker. -/
def field (w : World O) (s : Shape) (hints : List (String × O)) (f : LibField O) : Field O :=
  let shown := f.default.getD f.marker
  match s with
  | .dataclass =>
    let required := f.default.isNone && !f.factory
    ⟨f.name, ((hints.find? fun p => p.1 = f.name).map (·.2)).getD w.anyType, if required then w.none else shown, required⟩
  | .msgspec => ⟨f.name, f.annotation, shown, f.required⟩
  | .attrs =>
    let required := f.default.isNone && !f.factory
    ⟨f.name, f.annotation, if required then w.none else shown, required⟩
  | _ => ⟨f.name, f.annotation, if f.required then w.none else shown, f.required⟩

/-- `fields` of the five shapes (shapes/base.py:196-206, shapes/builtins.py:94-119, 179-207, 297-318, 407-429). -/
def fields (w : World O) (s : Shape) (t : O) : Res (List (Field O)) :=
  match s with
  | .pydantic =>
    if supports w .pydantic t then (w.libFields .pydantic t).map (·.map (field w .pydantic [])) else .error (.shape .capability)
  | .dataclass =>
    if w.recognises .dataclass t then
      match w.typeHints t with
      | .error e => .error e
      | .ok hints => (w.libFields .dataclass t).map (·.map (field w .dataclass hints))
    else .error (.shape .capability)
  | .attrs =>
    if w.installed .attrs then
      if w.recognises .attrs t then (w.libFields .attrs t).map (·.map (field w .attrs [])) else .error (.shape .capability)
    else .error (.shapeFrom .dependency (.raw "ImportError"))
  | .msgspec =>
    if w.installed .msgspec then
      if supports w .msgspec t then (w.libFields .msgspec t).map (·.map (field w .msgspec [])) else .error (.shape .capability)
    else .error (.shapeFrom .dependency (.raw "ImportError"))
  | .any => .error (.shape .capability)

/-- `schema` of the five shapes (shapes/base.py:208-217, shapes/builtins.py:121-131, 431-442, 495-503). -/
def schema (w : World O) (s : Shape) (t : O) : Res O :=
  match s with
  | .pydantic =>
    if supports w .pydantic t && w.hasSchema t then w.librarySchema .pydantic t else .error (.shape .capability)
  | .msgspec =>
    if w.installed .msgspec then
      if supports w .msgspec t then w.librarySchema .msgspec t else .error (.shape .capability)
    else .error (.shapeFrom .dependency (.raw "ImportError"))
  | _ => .error (.shape .capability)

end ShapeCalls
end Asyncz
