import Verif.Model.Generator

/-!
# Specification of a generator run: which files exist afterwards and what is in them

The list of output files is written out by hand, per path, with the policy a user relies on. It does not refer to the
template-path substitution, the exclusion list or the dispatch of the model.
-/

namespace Baron.Gen

/-- What a run does to an output file. -/
inductive Policy where
  /-- belongs to the user once it exists -/
  | keep
  /-- always rewritten from the template -/
  | refresh
  /-- the service implementation: merged with the previous text -/
  | merge
  deriving Repr, DecidableEq

/-- An output file: where it is, which template it starts from, what happens to a previous version. -/
structure Output where
  path : Str
  template : Str
  policy : Policy

/-- The output files below the service directory for the lower-cased service name `x`. -/
def outputs (x : Str) (client : Bool) : List Output :=
  [⟨"service/service.go".toList, "service/service.go.tmpl".toList, .merge⟩,
   ⟨"service/wrapper.go".toList, "service/wrapper.go.tmpl".toList, .keep⟩,
   ⟨"server/server.go".toList, "server/server.go.tmpl".toList, .refresh⟩,
   ⟨"server/endpoints.go".toList, "server/endpoints.go.tmpl".toList, .keep⟩,
   ⟨"server/interrupt.go".toList, "server/interrupt.go.tmpl".toList, .keep⟩,
   ⟨"server/wrapper.go".toList, "server/wrapper.go.tmpl".toList, .keep⟩,
   ⟨"cmd/".toList ++ x ++ "/main.go".toList, "cmd/NAME/main.go.tmpl".toList, .keep⟩]
  ++ if client then [⟨"cmd/".toList ++ x ++ "-client/main.go".toList, "cmd/NAME-client/main.go.tmpl".toList, .keep⟩] else []

/-- The unformatted text an output file should get, given what is there now; `none`: it cannot be produced. -/
def wanted (tmpl : Str → Option Str) (regen : Option Str → Option Str) (now : Option Str) (o : Output) : Option Str :=
  match o.policy, now with
  | .keep, some s => some s
  | .keep, none => tmpl o.template
  | .refresh, _ => tmpl o.template
  | .merge, now => regen now

/-- The three historical locations that cleaning up removes: the directory or anything below it. -/
def Obsolete (x p : Str) : Prop :=
  ∃ d, (d = "svc/server/cli".toList ∨ d = "svc/client/cli".toList ∨ d = "cmd/".toList ++ x ++ "-server".toList) ∧
    (p = d ∨ ∃ r, p = d ++ '/' :: r)

end Baron.Gen
