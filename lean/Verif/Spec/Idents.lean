import Verif.Spec.Strs

/-!
# Specification of legal declarations

What the Go specification asks of the identifiers declared in one scope ("No identifier may be declared twice in the same
block", "Keywords may not be used as identifiers"; the fields and methods of a struct type share one such name space).
-/

namespace Baron.Idents

/-- A list of identifiers may be declared together in one scope. -/
def Legal (scope : List Str) : Prop := scope.Nodup ∧ ∀ x ∈ scope, x ∉ Strs.keywords

/-- An exported name: it starts with an upper-case letter. (Everything in the Go interface generated by protoc is exported.) -/
def Exported (n : Str) : Prop := ∃ c r, n = c :: r ∧ isAsciiUpper c = true

end Baron.Idents
