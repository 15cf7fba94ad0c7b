import Verif.Model.Transport
import Verif.Spec.HTTP

/-!
# Specification vocabulary for C51–C54

When a request path fits a template, which of a service's bindings a request is for, and when two templates can never be
confused. Nothing here refers to how the router searches.
-/

namespace Baron.Transport

open HTTP (Piece templateOf TemplateOK)

/-- A list of path segments fits a list of template pieces: literals are equal, parameters are not empty. -/
inductive Fits : List Piece → List Str → Prop where
  | nil : Fits [] []
  | lit (s : Str) {ps : List Piece} {ss : List Str} : Fits ps ss → Fits (.lit s :: ps) (s :: ss)
  | var (n : Str) {s : Str} {ps : List Piece} {ss : List Str} : s ≠ [] → Fits ps ss → Fits (.var n :: ps) (s :: ss)

/-- What the handler finds under a parameter name: the segment at the parameter's position. -/
def Bound (ps : List Piece) (segs : List Str) (n v : Str) : Prop :=
  ∃ i : Nat, ps[i]? = some (.var n) ∧ segs[i]? = some v

/-- The path `/seg/seg/…`. -/
def pathOf (segs : List Str) : Str := segs.flatMap fun s => '/' :: s

/-- A path that no router rewrites: segments free of slashes, none of them `.` or `..`, only the last one may be
empty. -/
structure PlainPath (segs : List Str) : Prop where
  some : segs ≠ []
  slash : ∀ s ∈ segs, '/' ∉ s
  dots : ∀ s ∈ segs, s ≠ ['.'] ∧ s ≠ ['.', '.']
  empty : ∀ s ∈ segs.dropLast, s ≠ []

/-- Two templates no path fits both of: they differ in length, or in a literal at some position, or one has the empty
literal where the other has a parameter. -/
def Apart : List Piece → List Piece → Prop
  | [], [] => False
  | [], _ :: _ => True
  | _ :: _, [] => True
  | .lit s :: ps, .lit t :: qs => s ≠ t ∨ Apart ps qs
  | .lit s :: ps, .var _ :: qs => s = [] ∨ Apart ps qs
  | .var _ :: ps, .lit t :: qs => t = [] ∨ Apart ps qs
  | .var _ :: ps, .var _ :: qs => Apart ps qs

/-- Every path template of the service is written from pieces. -/
def Wellformed (s : Svcdef.Service) : Prop :=
  ∀ m ∈ s.methods, ∀ b ∈ m.bindings, ∃ ps, b.path = templateOf ps ∧ TemplateOK ps

/-- The binding is for requests with this verb and these path segments. -/
def Takes (b : Svcdef.HTTPBinding) (verb : Str) (segs : List Str) : Prop :=
  toUpper b.verb = verb ∧ ∃ ps, b.path = templateOf ps ∧ TemplateOK ps ∧ Fits ps segs

/-- `b` is the `k`-th binding of `m`, a method of `s`, and no binding declared before it (in an earlier method, or
earlier in `m`) has the property `P`. -/
def FirstWith (s : Svcdef.Service) (P : Svcdef.HTTPBinding → Prop) (m : Svcdef.ServiceMethod) (k : Nat)
    (b : Svcdef.HTTPBinding) : Prop :=
  P b ∧ ∃ ms₁ ms₂ bs₁ bs₂, s.methods = ms₁ ++ m :: ms₂ ∧ m.bindings = bs₁ ++ b :: bs₂ ∧ bs₁.length = k ∧
    (∀ m' ∈ ms₁, ∀ b' ∈ m'.bindings, ¬ P b') ∧ ∀ b' ∈ bs₁, ¬ P b'

end Baron.Transport
