import Verif.Spec.Encoders
import Verif.Spec.HTTPCode
import Verif.Model.Wire

/-!
# What an encoder's program is run on, and the request it makes
-/

namespace Baron.Encoders

open Baron.Svcdef
open Baron.HTTP Baron.HTTPCode Baron.GoClient
open Baron.Strs (goCamelCase)
open Baron.Decoders (isScalar scalarNames plainParams oneofParams PlainText)

/-- The request message's type, as far as a binding's parameters tell: its fields, whose types are scalars or not, and its getters for the
options of the oneofs in the query. -/
structure Typed {F : Type} (L : Libs F) (b : HTTPBinding) : Prop where
  field : ∀ p ∈ plainParams b, L.field (goCamelCase p.field.name) = some (if isScalar p.field.type then baseOf p.field.type.name else none)
  /-- the fields of a struct have different names -/
  names : ((plainParams b).map fun p => goCamelCase p.field.name).Nodup
  option : ∀ p ∈ oneofParams b, p.location = "query".toList → ∀ o ∈ p.field.type.oneof, ∃ t, baseOf o.typeName = some t ∧
    L.option o.name = some (goCamelCase p.field.name, t)

/-- The binding's variables are fields, and its texts stand for themselves between the quotes of a Go string. -/
structure Writable (b : HTTPBinding) (ps : List Piece) : Prop where
  var : ∀ n, Piece.var n ∈ ps → ∃ p ∈ plainParams b, p.location = "path".toList ∧ goCamelCase p.field.name = goCamelCase n
  lit : ∀ l, Piece.lit l ∈ ps → PlainText l
  query : ∀ p ∈ plainParams b, p.location = "query".toList → PlainText p.field.pbName
  option : ∀ p ∈ oneofParams b, p.location = "query".toList → ∀ o ∈ p.field.type.oneof, PlainText o.pbName

/-- The message's fields in the path and in the query have values of their types. -/
def Sendable {F : Type} (fl : Floats F) (b : HTTPBinding) (m : FullMsg F) : Prop :=
  ∀ p ∈ plainParams b, p.location ≠ "body".toList → ∃ sh, HasShape (HTTPCode.newField p) sh ∧ Holds fl sh (m.fields (goCamelCase p.field.name))

/-- The state in which an encoder starts. -/
structure Called {F : Type} (m : FullMsg F) (h : Http) (σ : State F) : Prop where
  scope : ∃ s, σ.scopes = [s] ∧ s "request".toList = some .msg
  msg : σ.msg = m
  http : σ.http = h

/-- The HTTP request for `m`, made from the request `h` of the instance: `none` if the path cannot be parsed or the message not be written. -/
def sent {F : Type} (L : Libs F) (b : HTTPBinding) (h : Http) (m : FullMsg F) : Option Http :=
  let raw := clientPath (pathEnv L.fl L.addr (bindingFields b) m.fields) b.path
  match urlParsePath raw with
  | none => none
  | some path =>
    let h' : Http := ⟨Runtime.headerSet (Runtime.headerSet h.header "transport".toList "HTTPJSON".toList) "request-url".toList h.path,
      path, L.rawPath raw, encodeFrom L.fl L.fzero h.query (bindingFields b) (bindingOneofs b) m, h.body⟩
    if b.verb = "get".toList then some h' else (L.writeReq m).map fun body => { h' with body := some body }

end Baron.Encoders
