import Verif.Spec.Decoders
import Verif.Spec.Idents

/-!
# What a decoder's program is run on
-/

namespace Baron.Decoders

open Baron.Svcdef
open Baron.HTTP Baron.HTTPCode Baron.GoLang
open Baron.Idents (Exported)
open Baron.Strs (goCamelCase)

/-- A name that stands for itself between the quotes of a Go string. -/
def PlainText (s : Str) : Prop := '"' ∉ s ∧ '\\' ∉ s ∧ '\n' ∉ s

/-- A parameter of the path or the query whose statements compile (see C44). -/
structure Readable (p : HTTPParameter) : Prop where
  location : p.location = "path".toList ∨ p.location = "query".toList
  compiles : compiles (newField p) = true
  /-- only scalars have names of scalars -/
  scalar : p.field.type.name ∈ scalarNames → isScalar p.field.type = true
  /-- lists have no pointers to scalars -/
  list : p.field.type.array = true → isScalar p.field.type = true → p.field.type.star = false
  name : Exported p.field.name
  text : PlainText p.field.pbName

/-- A oneof whose statements compile: its options are single scalars with different names. -/
structure ReadableOneof (p : HTTPParameter) : Prop where
  options : ∀ o ∈ p.field.type.oneof, o.star = false ∧ o.array = false ∧ o.typeName ∈ scalarNames ∧ Exported o.name ∧ goCamelCase o.name = o.name ∧
    PlainText o.pbName
  names : (p.field.type.oneof.map fun o => goCamelCase o.name).Nodup

/-- What `L.left` leaves of a text that neither is a list of strings nor becomes one in brackets is what `L.fl.junk` says. -/
def Leftovers {F : Type} (L : Libs F) : Prop := ∀ s, jsonArray L.fl .string s = none → jsonArray L.fl .string ('[' :: s ++ [']']) = none →
  L.left ('[' :: s ++ [']']) (L.left s []) = (L.fl.junk s).map fun x => some (.str x)

/-- The state in which the parameters are read: the body has been read into `m`, without error. -/
structure Ready {F : Type} (vars : List (Str × Str)) (query : List (Str × List Str)) (m : FullMsg F) (σ : State F) : Prop where
  scope : ∃ s, σ.scopes = [s] ∧ s "err".toList = some (.err false) ∧ s "pathParams".toList = some (.vars vars) ∧ s "queryParams".toList = some (.query query)
  req : σ.req = m

end Baron.Decoders
