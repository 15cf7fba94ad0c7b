import Verif.Model.SvcdefNew

/-!
# Specification: references (C38), declarations (C37) and struct tags (C39)
-/

namespace Baron.Svcdef

/-- Two lists of the same length whose elements correspond. -/
inductive All2 {α β : Type} (R : α → β → Prop) : List α → List β → Prop where
  | nil : All2 R [] []
  | cons {a b l l'} : R a b → All2 R l l' → All2 R (a :: l) (b :: l')

/-! ## C38 -/

/-- `e` and `m` are the references a type name should have: the enum and the message of that name, if declared. -/
def Refers (sd : Svcdef) (name : Str) (e m : Option Nat) : Prop :=
  (∀ i, e = some i ↔ sd.enums[i]? = some name) ∧ (∀ j, m = some j ↔ (sd.messages.map Message.name)[j]? = some name)

/-- No two messages or enums share a name, and no name is empty (what a Go package guarantees). -/
def DistinctNames (sd : Svcdef) : Prop := (sd.enums ++ sd.messages.map Message.name).Nodup ∧
  [] ∉ sd.enums ++ sd.messages.map Message.name

/-- A type as `NewField` and `NewServiceMethod` leave it: nothing resolved, and the name of a map field empty. -/
def Unresolved (t : FieldType) : Prop :=
  t.enum = none ∧ t.message = none ∧
  ∀ mp, t.map = some mp → t.name = [] ∧ mp.valEnum = none ∧ mp.valMessage = none

/-- `t'` is `t` with the references its name should have. In a map it is the value type that counts; a value that is not a
pointer (a scalar or an enum) is left as it is. -/
def TypeOK (sd : Svcdef) (t t' : FieldType) : Prop :=
  match t.map with
  | none => ∃ e m, t' = { t with enum := e, message := m } ∧ Refers sd t.name e m
  | some mp =>
    if mp.valStar then
      ∃ e m, t' = { t with map := some { mp with valEnum := e, valMessage := m } } ∧ Refers sd mp.valName e m
    else t' = t

/-- Messages and methods correspond one to one, all types being resolved. -/
def Resolved (sd sd' : Svcdef) : Prop :=
  sd'.pkgName = sd.pkgName ∧ sd'.enums = sd.enums ∧
  All2 (fun m m' : Message => m'.name = m.name ∧
    All2 (fun f f' : Field => f'.name = f.name ∧ f'.pbName = f.pbName ∧ TypeOK sd f.type f'.type) m.fields m'.fields)
    sd.messages sd'.messages ∧
  match sd.service, sd'.service with
  | none, none => True
  | some s, some s' => s'.name = s.name ∧
    All2 (fun m m' : ServiceMethod => m'.name = m.name ∧ m'.bindings = m.bindings ∧
      TypeOK sd m.request m'.request ∧ TypeOK sd m.response m'.response) s.methods s'.methods
  | _, _ => False

/-- All types of a definition. -/
def typesOf (sd : Svcdef) : List FieldType :=
  (sd.messages.flatMap fun m => m.fields.map Field.type) ++
    match sd.service with
    | none => []
    | some s => s.methods.flatMap fun m => [m.request, m.response]

/-! ## C39 -/

/-- The inside of a Go string literal: no bare quote, and every backslash has a character after it. -/
def Quotable : Str → Bool
  | [] => true
  | c :: r => if c = '\\' then (match r with | [] => false | _ :: r => Quotable r) else c != '"' && Quotable r

/-- A `key:"value"` entry of a struct tag; the value is a Go string literal and may have escapes. -/
structure TagEntry where
  key : Str
  val : Str

def TagEntry.print (e : TagEntry) : Str := e.key ++ ':' :: '"' :: (e.val ++ ['"'])

def TagEntry.WF (e : TagEntry) : Prop :=
  e.key ≠ [] ∧ (∀ c ∈ e.key, tagKeyChar c = true) ∧ Quotable e.val = true

/-- The value protoc-gen-go writes under the key `protobuf`: wire type, number, cardinality, `packed` if packed, the name
and further options. -/
def pbValue (wire num card : Str) (packed : Bool) (name : Str) (more : List Str) : Str :=
  join ',' ([wire, num, card] ++ (if packed then ["packed".toList] else []) ++ ("name=".toList ++ name) :: more)

/-- A tag literal: back quotes around entries separated by blanks. -/
def tagLiteral (es : List TagEntry) : Str := '`' :: (join ' ' (es.map TagEntry.print) ++ ['`'])

/-! ## C37 -/

/-- An enum: a named type over int32. -/
def IsEnum (t : GoTypeSpec) : Bool := t.spec = .ident "int32".toList

def IsExportedStruct (t : GoTypeSpec) : Bool :=
  match t.spec with
  | .struct _ => exported t.name
  | _ => false

/-- A oneof interface: named `is…`, and neither `Unsafe…` nor `…Server`. -/
def IsOneof (t : GoTypeSpec) : Bool :=
  match t.spec with
  | .iface _ => hasPrefix t.name "is".toList && !hasPrefix t.name "Unsafe".toList && !hasSuffix t.name "Server".toList
  | _ => false

/-- The service interface: named `…Server`, but not `Unsafe…`. -/
def IsServer (t : GoTypeSpec) : Bool :=
  match t.spec with
  | .iface _ => hasSuffix t.name "Server".toList && !hasPrefix t.name "Unsafe".toList
  | _ => false

/-- The types of a file that implement one of its oneof interfaces: those with a method named like it. -/
def wrappers (f : GoFile) : List Str :=
  f.funcs.filterMap fun fn =>
    match fn.recv with
    | some (.star (.ident n)) => if fn.name ∈ (f.types.filter IsOneof).map GoTypeSpec.name then some n else none
    | _ => none

/-- The messages of a file: its exported structs that are not oneof wrappers. -/
def specMessages (f : GoFile) : List Str :=
  ((f.types.filter IsExportedStruct).map GoTypeSpec.name).filter fun n => n ∉ wrappers f

def specEnums (f : GoFile) : List Str := (f.types.filter IsEnum).map GoTypeSpec.name

def members (t : GoTypeSpec) : List GoMember :=
  match t.spec with
  | .iface ms => ms
  | _ => []

/-- A pointer to a named type, with or without package. -/
def PointerTo (t : GoType) (n : Str) : Prop := t = .star (.ident n) ∨ ∃ p, t = .star (.sel p n)

/-- The service read from an interface: the name without `Server`, and for every exported method, in order, its name and
the types its second parameter and first result point to. -/
def ServiceOf (t : GoTypeSpec) (s : Service) : Prop :=
  s.name ++ "Server".toList = t.name ∧
  All2 (fun (m : GoMember) (r : ServiceMethod) => m.names.head? = some r.name ∧
      ∃ ctx rq more rs more', m.func = some (ctx :: rq :: more, some (rs :: more')) ∧
        PointerTo rq r.request.name ∧ PointerTo rs r.response.name)
    ((members t).filter fun m => m.names.head?.any exported) s.methods

/-- The fields of a message, from the fields of the struct: exported and not `XXX_…`. -/
def keptField (f : GoField) : Bool := f.names.head?.any fun n => exported n && !hasPrefix n "XXX_".toList

/-- svcdef.go:532-541, the table: how the Go type of a field corresponds to its description. -/
inductive TypeShape : GoType → FieldType → Prop where
  | plain {n o} : TypeShape (.ident n) ⟨n, none, o, none, none, false, false⟩
  | pointer {n o} : TypeShape (.star (.ident n)) ⟨n, none, o, none, none, true, false⟩
  | list {n o} : TypeShape (.array (.ident n)) ⟨n, none, o, none, none, false, true⟩
  | pointers {n o} : TypeShape (.array (.star (.ident n))) ⟨n, none, o, none, none, true, true⟩
  | lists {n o} : TypeShape (.array (.array (.ident n))) ⟨"[]".toList ++ n, none, o, none, none, false, true⟩
  | imported {p n} : TypeShape (.star (.sel (some p) n)) ⟨p ++ '.' :: n, none, [], none, none, true, false⟩
  | importeds {p n} : TypeShape (.array (.star (.sel (some p) n))) ⟨p ++ '.' :: n, none, [], none, none, true, true⟩
  | map {k v} : TypeShape (.map (.ident k) (.ident v))
      ⟨[], none, [], none, some ⟨k, v, false, none, none⟩, false, false⟩
  | mapPointer {k v} : TypeShape (.map (.ident k) (.star (.ident v)))
      ⟨[], none, [], none, some ⟨k, v, true, none, none⟩, false, false⟩

/-- Names a type mentions without package. -/
def identsOf : GoType → List Str
  | .ident n => [n]
  | .star t => identsOf t
  | .array t => identsOf t
  | _ => []

/-- Names the struct fields of a file mention. -/
def fieldIdents (f : GoFile) : List Str :=
  f.types.flatMap fun t => match t.spec with
    | .struct fs => fs.flatMap fun x => identsOf x.type
    | _ => []

/-- What a struct tag says about the protobuf name of a field: nothing without a tag, otherwise the `name=` part of the
entry protoc-gen-go writes under the key `protobuf` (`unq` is `strconv.Unquote`). -/
inductive TagName (unq : Str → Option Str) : Option Str → Str → Prop where
  | none : TagName unq none []
  | pb {pre post : List TagEntry} {v wire num card name : Str} {packed : Bool} {more : List Str}
      (hw : ',' ∉ wire ∧ ',' ∉ num ∧ ',' ∉ card ∧ ',' ∉ name) (hm : ∀ x ∈ more, ',' ∉ x)
      (hpre : ∀ x ∈ pre, x.WF ∧ x.key ≠ "protobuf".toList)
      (he : TagEntry.WF ⟨"protobuf".toList, v⟩)
      (hq : unq ('"' :: (v ++ ['"'])) = some (pbValue wire num card packed name more)) :
      TagName unq (some (tagLiteral (pre ++ ⟨"protobuf".toList, v⟩ :: post))) name

/-- The fields of a struct that count. -/
def structFields (t : GoTypeSpec) : List GoField :=
  match t.spec with
  | .struct fs => fs.filter keptField
  | _ => []

/-- The oneof interface the struct `s` of a file belongs to: the name of its last method named like one. -/
def implements (f : GoFile) (s : Str) : Option Str :=
  (f.funcs.filterMap fun fn =>
    if fn.recv = some (.star (.ident s)) ∧ fn.name ∈ (f.types.filter IsOneof).map GoTypeSpec.name
    then some fn.name else none).getLast?

/-- The structs standing for the options of the oneof a field of this type holds, in the order of their declarations. -/
def optionStructs (f : GoFile) (ty : GoType) : List GoTypeSpec :=
  (f.types.filter IsExportedStruct).filter fun t => (identsOf ty).any fun n => implements f t.name = some n

/-- `o` describes the only field of the wrapper struct `t`. -/
def OptionOf (unq : Str → Option Str) (t : GoTypeSpec) (o : OneofField) : Prop :=
  o.wrapper = t.name ∧ ∃ y, (structFields t).head? = some y ∧ y.names.head? = some o.name ∧
    (∀ n, TagName unq y.tag n → o.pbName = n) ∧
    ((∃ sh, TypeShape y.type sh) → ∃ sh, TypeShape y.type sh ∧ o.typeName = sh.name ∧ o.star = sh.star ∧ o.array = sh.array)

/-- `x` describes the struct field `y`: name, protobuf name, type, and the options if it is a oneof. -/
def FieldOf (unq : Str → Option Str) (f : GoFile) (y : GoField) (x : Field) : Prop :=
  y.names.head? = some x.name ∧ (∀ n, TagName unq y.tag n → x.pbName = n) ∧
  ((∃ t, TypeShape y.type t) → TypeShape y.type x.type) ∧
  All2 (OptionOf unq) (optionStructs f y.type) x.type.oneof

/-- `m` describes the struct `t`. -/
def MessageOf (unq : Str → Option Str) (f : GoFile) (t : GoTypeSpec) (m : Message) : Prop :=
  m.name = t.name ∧ All2 (FieldOf unq f) (structFields t) m.fields

/-- The file has an exported struct that is an option of one of its oneofs. -/
def HasWrapper (f : GoFile) : Bool := f.types.any fun t => IsExportedStruct t && (implements f t.name).isSome

/-- The exported structs of a file. -/
def structs (f : GoFile) : List GoTypeSpec := f.types.filter IsExportedStruct

/-- What a fresh process takes for messages, each with the file its oneofs are looked up in. Up to the first file with
oneof wrappers: the structs that are no wrappers, each file on its own. After it: all structs, wrappers included, and
only the oneofs of that first file are known. -/
def freshMessages : List GoFile → List (GoFile × GoTypeSpec)
  | [] => []
  | f :: fs =>
    (((structs f).filter fun t => (implements f t.name).isNone).map fun t => (f, t)) ++
      if HasWrapper f then fs.flatMap fun x => (structs x).map fun t => (f, t) else freshMessages fs

/-- The process-wide table holds the oneofs of file `f`. -/
def TableOf (unq : Str → Option Str) (g : Oneofs) (f : GoFile) : Prop :=
  ∀ n, All2 (OptionOf unq) ((structs f).filter fun t => implements f t.name = some n) ((g.get n).getD [])

end Baron.Svcdef
