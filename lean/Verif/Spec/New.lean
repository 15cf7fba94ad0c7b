import Verif.Model.New
import Verif.Spec.Text
import Verif.Spec.Lexer
import Verif.Spec.Svcdef
import Verif.Spec.Consolidate

/-!
# Specification of `svcdef.New` (C57, C58)

What goes in: Go files as protoc-gen-go and protoc-gen-go-grpc write them, and .proto texts. What comes out is described
in terms of the declarations in the Go files and of the annotations written in the .proto texts only.
-/

namespace Baron.New

open Baron.Scanner Baron.Lexer Baron.Svcdef Baron.Consolidate Baron.Text Baron.Strs Baron.Parser.Grammar

/-! ## The .proto texts -/

/-- How a .proto text is written: without a service (the word `service` does not occur, braces balance), or around the
service `s`, laid out in any way. -/
def Written (U : Uni) (unq : Str → Option Str) (text : Str) : Option ASvc → Prop
  | none => ∃ units, Laid U units ∧ text = units.flatten ∧ "service".toList ∉ units ∧ depthOf units = 0
  | some s => ∃ pre hdr body post, File U text pre hdr body post ∧ s.WF unq ∧ Tokens U (serviceUnits hdr body) s.print

/-- The http annotations written for the rpcs that become the Go method `name`: file by file, rpc by rpc, for each rpc the
additional bindings and then the primary one. -/
def annotations (docs : List (Option ASvc)) (name : Str) : List Parser.HTTPBinding :=
  docs.flatMap fun d => match d with
    | none => []
    | some s => s.rpcs.flatMap fun r => match r.tail with
      | .http o => if goCamelCase r.name = name then o.meaning else []
      | _ => []

/-- The rpcs that carry an http option. -/
def annotated (docs : List (Option ASvc)) : List Str :=
  docs.flatMap fun d => match d with
    | none => []
    | some s => s.rpcs.flatMap fun r => match r.tail with
      | .http _ => [r.name]
      | _ => []

/-! ## The Go files -/

/-- The tags protoc-gen-go writes: none, one with a `protobuf` entry, or one without (`protobuf_oneof`). -/
inductive TagOK (unq : Str → Option Str) : Option Str → Prop where
  | named {tag name} : TagName unq tag name → TagOK unq tag
  | noEntry {es : List TagEntry} : (∀ e ∈ es, e.WF ∧ e.key ≠ "protobuf".toList) → TagOK unq (some (tagLiteral es))

/-- The keys of map types are named types. -/
def KeysOK : GoType → Prop
  | .star t => KeysOK t
  | .array t => KeysOK t
  | .map k _ => ∃ n, k = .ident n
  | _ => True

/-- `func(context.Context, *Req) (*Resp, error)` -/
def Unary (m : GoMember) : Prop :=
  ∃ ctx rq more rs more' a b, m.func = some (ctx :: rq :: more, some (rs :: more')) ∧ PointerTo rq a ∧ PointerTo rs b

/-- What protoc-gen-go-grpc writes for a streaming rpc: `func(S_MServer) error` if the client streams,
`func(*Req, S_MServer) error` if only the server does. -/
def Streaming (m : GoMember) : Prop :=
  (∃ stream out, m.func = some ([stream], some out)) ∨
  ∃ rq stream out more, m.func = some ([rq, stream], some (out :: more)) ∧ ∀ t, stream ≠ .star t

/-- A Go file of the kind protoc-gen-go and protoc-gen-go-grpc write for .proto files whose rpcs become methods with the
property `P`. -/
structure ProtocFile (unq : Str → Option Str) (P : GoMember → Prop) (f : GoFile) : Prop where
  /-- struct fields are named, with the tags and types above -/
  fields : ∀ t ∈ f.types, ∀ fs, t.spec = .struct fs → ∀ y ∈ fs, y.names ≠ [] ∧ TagOK unq y.tag ∧ KeysOK y.type
  /-- the members of a service are methods, the exported ones stand for rpcs -/
  service : ∀ t ∈ f.types, IsServer t = true → ∀ m ∈ members t, m.names ≠ [] ∧
    (m.names.head?.any exported = true → P m)
  /-- the methods that mark the options of a oneof have a pointer receiver -/
  markers : ∀ fn ∈ f.funcs, fn.name ∈ (f.types.filter IsOneof).map GoTypeSpec.name → ∃ n, fn.recv = some (.star (.ident n))
  /-- an option of a oneof holds its value in a field -/
  options : ∀ t ∈ f.types, IsExportedStruct t = true → t.name ∈ wrappers f → structFields t ≠ []

/-- A Go file of the kind protoc-gen-go and protoc-gen-go-grpc write for .proto files without streaming rpcs. -/
abbrev GoodFile (unq : Str → Option Str) (f : GoFile) : Prop := ProtocFile unq Unary f

/-- The names of the exported structs of a file. -/
def structNames (f : GoFile) : List Str := (f.types.filter IsExportedStruct).map GoTypeSpec.name

/-- The exported methods of the service interface. -/
def exportedMembers (t : GoTypeSpec) : List GoMember := (members t).filter fun m => m.names.head?.any exported

/-- The Go files declare one service, with interface `t`; no two types share a name, nor do two methods. -/
structure OneService (fs : List GoFile) (t : GoTypeSpec) : Prop where
  service : (fs.flatMap GoFile.types).filter IsServer = [t]
  types : (fs.flatMap specEnums ++ fs.flatMap structNames).Nodup
  methods : ((exportedMembers t).map fun m => m.names.head?).Nodup

/-- The rpc `n` is a method of the service `t`. -/
def IsMethod (t : GoTypeSpec) (n : Str) : Prop := ∃ m ∈ exportedMembers t, m.names.head? = some (goCamelCase n)

/-- The rpc `n` is a method of the service `t` and its request is a message declared in the Go files. -/
def Usable (fs : List GoFile) (t : GoTypeSpec) (n : Str) : Prop :=
  ∃ m ∈ exportedMembers t, m.names.head? = some (goCamelCase n) ∧
    ∀ ctx rq more res x, m.func = some (ctx :: rq :: more, res) → PointerTo rq x → x ∈ fs.flatMap specMessages

/-- The rpc `n` is a method of the service `t`, but its request is declared elsewhere. -/
def ForeignRequest (fs : List GoFile) (t : GoTypeSpec) (n : Str) : Prop :=
  ∃ m ∈ exportedMembers t, m.names.head? = some (goCamelCase n) ∧
    ∀ ctx rq more res x, m.func = some (ctx :: rq :: more, res) → PointerTo rq x → x ∉ fs.flatMap structNames

/-! ## The definition -/

/-- What an annotation `b` leads to for a request message with these fields: its verb and path, and for every field in
order one parameter, in the path if the path names it, else in the body if `b` selects it, else in the query. -/
def BindingOf (fields : List Str) (b : Parser.HTTPBinding) (r : HTTPBinding) : Prop :=
  VerbPath b r.verb r.path ∧ (r.params.map fun p => p.field.name) = fields ∧
  ∀ p ∈ r.params, ∀ pieces last, TemplateWF pieces last → r.path = templateText pieces last →
    (p.location = "path".toList ↔ ∃ x ∈ pieces, Names x.2 p.field) ∧
    (p.location = "body".toList ↔ (¬ ∃ x ∈ pieces, Names x.2 p.field) ∧ InBody b p.field) ∧
    (p.location = "query".toList ↔ (¬ ∃ x ∈ pieces, Names x.2 p.field) ∧ ¬ InBody b p.field)

/-- The description `r` of the interface method `m`: name, request and response; if the request is declared in the Go files,
the message it refers to, which describes the struct of that name, and the bindings written for it. A method nothing is
written for has no bindings. -/
def MethodOf (fs : List GoFile) (docs : List (Option ASvc)) (sd : Svcdef) (m : GoMember) (r : ServiceMethod) : Prop :=
  m.names.head? = some r.name ∧
  (∃ ctx rq more rs more', m.func = some (ctx :: rq :: more, some (rs :: more')) ∧
    PointerTo rq r.request.name ∧ PointerTo rs r.response.name) ∧
  (r.request.name ∈ fs.flatMap specMessages →
    ∃ t ∈ fs.flatMap GoFile.types, IsExportedStruct t = true ∧ t.name = r.request.name ∧
      (∃ i msg, r.request.message = some i ∧ sd.messages[i]? = some msg ∧ msg.name = t.name ∧
        msg.fields.map Field.name = (structFields t).map fun y => y.names.headD []) ∧
      All2 (BindingOf ((structFields t).map fun y => y.names.headD [])) (annotations docs r.name) r.bindings) ∧
  (annotations docs r.name = [] → r.bindings = [])

end Baron.New
