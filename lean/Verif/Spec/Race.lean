import Verif.Model.Race
import Verif.Spec.HTTP

/-!
# Specification for C82: what a client call does with the caller's message
-/

namespace Baron.Race

open Baron.HTTP (Piece templateOf TemplateOK)
open Baron.HTTPCode (bindingFields bindingOneofs)

/-- A call over this binding writes this field of the message: it is in the body and the verb is not `get`. -/
def Writes (b : Svcdef.HTTPBinding) (F : Str) : Prop :=
  b.verb ≠ "get".toList ∧ ∃ f ∈ bindingFields b, f.location = "body".toList ∧ f.camelName = F

/-- A call over this binding, whose path is written from `ps`, reads this field: it is in the path or in the query, or there
is a body, which is made from the whole message. -/
def Reads (all : List Str) (b : Svcdef.HTTPBinding) (ps : List Piece) (F : Str) : Prop :=
  (∃ n, Piece.var n ∈ ps ∧ Strs.goCamelCase n = F) ∨
  (∃ f ∈ bindingFields b, f.location = "query".toList ∧ f.camelName = F) ∨
  (∃ o ∈ bindingOneofs b, o.location = "query".toList ∧ o.options ≠ [] ∧ Strs.goCamelCase o.name = F) ∨
  (b.verb ≠ "get".toList ∧ F ∈ all)

/-- A data race: after some accesses, two of the calls are both about to access the same field, and one of them writes. -/
def Races {V : Type} (σ : State V) : Prop :=
  ∃ is σ', run σ is = some σ' ∧ ∃ (i j : Nat) (s t : Thread V) (o p : Op) (os ps : List Op), i ≠ j ∧
    σ'.threads[i]? = some s ∧ σ'.threads[j]? = some t ∧ s.ops = o :: os ∧ t.ops = p :: ps ∧ o.field = p.field ∧
      ∃ f, o = .store f

end Baron.Race
