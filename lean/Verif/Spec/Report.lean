import Verif.Model.Report
import Verif.Spec.Generator
import Verif.Spec.Service

/-!
# Specification vocabulary for C71: what the message about a file should say

Independent of how the generator dispatches on templates: per output file of the table in `Spec/Generator.lean`.
-/

namespace Baron.Gen

/-- The mark for an output file, given what is there before the run. -/
def ExpectedMark (changed : Option Str → Bool) (before : Option Str) (o : Output) : Mark :=
  match before, o.policy with
  | none, _ => .first
  | some _, .refresh => .override
  | some _, .keep => .same
  | some s, .merge => if changed (some s) then .modified else .same

end Baron.Gen

namespace Baron.Service

/-- The previous file already is what the definition asks for: every declaration is the user's own, or implements an rpc
with the rpc's own message names wherever the generator would adapt them. -/
def UpToDate (exp : Str → Bool) (svc : Str) (ms : List Rpc) (prev : List Decl) : Prop :=
  ∀ d ∈ prev, UserDecl exp d = true ∨
    ∃ f r, d = .func f ∧ r ∈ ms ∧ Implements svc r.name d = true ∧ AdaptedTo r f f

/-- An rpc for which a regeneration appends a method: one whose name is left alone, or without a method in the file. -/
def Appended (exp : Str → Bool) (svc : Str) (prev : List Decl) (r : Rpc) : Prop :=
  LeftAlone exp r.name ∨ ∀ d ∈ prev, Implements svc r.name d = false

end Baron.Service
