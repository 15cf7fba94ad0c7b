import Verif.Go.Str

/-!
# Model of the data types of svcdef/svcdef.go and of svcdef/resolvetypes.go

Go pointers to messages and enums are indices into `Svcdef.messages` / `Svcdef.enums`.
-/

namespace Baron.Svcdef

/-- svcdef.go:60-64 `Map`: the key type is a base type name; the value is a base type, an enum or a message. -/
structure MapType where
  key : Str
  valName : Str
  valStar : Bool
  valEnum : Option Nat
  valMessage : Option Nat
  deriving Repr, DecidableEq

/-- An element of `FieldType.Oneof` (svcdef.go:98-106): the only field of a oneof wrapper struct. Its `Type.Message`
is a fresh message carrying the wrapper's name (svcdef.go:304-306). Maps cannot occur in a oneof. -/
structure OneofField where
  name : Str
  pbName : Str
  typeName : Str
  star : Bool
  array : Bool
  wrapper : Str
  deriving Repr, DecidableEq

/-- svcdef.go:93-119 `FieldType`. -/
structure FieldType where
  name : Str
  enum : Option Nat
  oneof : List OneofField
  message : Option Nat
  map : Option MapType
  star : Bool
  array : Bool
  deriving Repr, DecidableEq

/-- svcdef.go:81-88 `Field`. -/
structure Field where
  name : Str
  pbName : Str
  type : FieldType
  deriving Repr, DecidableEq

/-- svcdef.go:51-54 `Message`. -/
structure Message where
  name : Str
  fields : List Field
  deriving Repr, DecidableEq

/-- svcdef.go:134-139 `HTTPParameter`. -/
structure HTTPParameter where
  field : Field
  location : Str
  deriving Repr, DecidableEq

/-- svcdef.go:123-129 `HTTPBinding`. -/
structure HTTPBinding where
  verb : Str
  path : Str
  params : List HTTPParameter
  deriving Repr, DecidableEq

/-- svcdef.go:71-78 `ServiceMethod`. -/
structure ServiceMethod where
  name : Str
  request : FieldType
  response : FieldType
  bindings : List HTTPBinding
  deriving Repr, DecidableEq

/-- svcdef.go:66-69 `Service`. -/
structure Service where
  name : Str
  methods : List ServiceMethod
  deriving Repr, DecidableEq

/-- svcdef.go:38-48 `Svcdef`; an `Enum` (56-58) is its name. -/
structure Svcdef where
  pkgName : Str
  messages : List Message
  enums : List Str
  service : Option Service
  deriving Repr, DecidableEq

/-! ## resolvetypes.go -/

/-- resolvetypes.go:5-9 `typeBox` (always exactly one of the two). -/
inductive TypeBox where
  | message (i : Nat)
  | enum (i : Nat)
  deriving Repr, DecidableEq

/-- Index of the last element equal to `x`, counting from `i`: what writing every element into a Go map keyed by name
leaves behind. -/
def lastIndex (x : Str) : Nat → List Str → Option Nat
  | _, [] => none
  | i, y :: ys => match lastIndex x (i + 1) ys with
    | some j => some j
    | none => if y = x then some i else none

/-- resolvetypes.go:13-22 `newTypeMap`, as a lookup function: enums are written after messages, later ones over
earlier ones. -/
def typeMap (sd : Svcdef) (name : Str) : Option TypeBox :=
  match lastIndex name 0 sd.enums with
  | some i => some (.enum i)
  | none => (lastIndex name 0 (sd.messages.map Message.name)).map .message

/-- resolvetypes.go:44-65 `setType`. -/
def setType (tmap : Str → Option TypeBox) (f : FieldType) : FieldType :=
  let plain (f : FieldType) : FieldType :=
    match tmap f.name with
    | none => f
    | some (.enum i) => { f with enum := some i }
    | some (.message i) => { f with message := some i }
  match f.map with
  | some mp =>
    if mp.valStar then
      match tmap mp.valName with
      | none => f
      | some (.enum i) => { f with map := some { mp with valEnum := some i } }
      | some (.message i) => { f with map := some { mp with valMessage := some i } }
    else plain f
  | none => plain f

/-- resolvetypes.go:27-41 `resolveTypes`. -/
def resolveTypes (sd : Svcdef) : Svcdef :=
  let tmap := typeMap sd
  { sd with
    messages := sd.messages.map fun m => { m with fields := m.fields.map fun f => { f with type := setType tmap f.type } }
    service := sd.service.map fun s => { s with methods := s.methods.map fun m =>
      { m with request := setType tmap m.request, response := setType tmap m.response } } }

end Baron.Svcdef
