import Verif.Model.GoWrap

/-!
# The generated functions that wrap endpoints, as programs (C96)
-/

namespace Baron.GoWrap

/-- The field of an rpc. -/
def field (rpc : Str) : Str := rpc ++ "Endpoint".toList

/-- The text of the panic. -/
def message : Str := chars% "Excluded endpoint '%s' does not exist; see middlewares/endpoints.go"

/-- The `if` for each rpc. -/
def chain (one : Str → Code) : List Str → Code
  | [] => .done (chars% "\n\t")
  | n :: ns => .ifIs (chars% "\n\t\t\t") (chars% "inc") n (one n) (chain one ns)

/-- Both functions: what is done for an rpc is `one`. -/
def wrapping (names : List Str) (one : Str → Code) : Code :=
  .makeMap (chars% "\n\t") (chars% "included") names <|
  .forEach (chars% "\n\n\t") (chars% "ex") (chars% "excluded")
    (.ifMissing (chars% "\n\t\t") (chars% "included") (chars% "ex") (.panic (chars% "\n\t\t\t") message (chars% "ex") (.done (chars% "\n\t\t"))) <|
     .delete (chars% "\n\t\t") (chars% "included") (chars% "ex") (.done (chars% "\n\t"))) <|
  .forKeys (chars% "\n\n\t") (chars% "inc") (chars% "included") (chain one names) <|
  .done (chars% "\n")

/-- template/NAME-service/baron/NAME.pb.baron.go.tmpl 124-145. -/
def wrapAllExcept (names : List Str) : Func where
  name := chars% "WrapAllExcept"
  type := chars% "endpoint.Middleware"
  body := wrapping names fun n => .wrap (chars% "\n\t\t\t\t") (n ++ chars% "Endpoint") (n ++ chars% "Endpoint") (.done (chars% "\n\t\t\t"))

/-- template/NAME-service/baron/NAME.pb.baron.go.tmpl 156-177. -/
def wrapAllLabeledExcept (names : List Str) : Func where
  name := chars% "WrapAllLabeledExcept"
  type := chars% "func(string, endpoint.Endpoint) endpoint.Endpoint"
  body := wrapping names fun n => .wrapLabel (chars% "\n\t\t\t\t") (n ++ chars% "Endpoint") n (n ++ chars% "Endpoint") (.done (chars% "\n\t\t\t"))

/-- Exclusions that are names of endpoints, each given once. -/
def Proper (names excluded : List Str) : Prop := excluded.Nodup ∧ ∀ x ∈ excluded, x ∈ names

/-- The endpoints of all rpcs that are not excluded have been wrapped once, each with `mw` of its name; nothing else has changed. -/
def WrappedBy {E : Type} (mw : Str → E → E) (names excluded : List Str) (before after : Str → Option E) : Prop :=
  (∀ n ∈ names, n ∉ excluded → after (field n) = (before (field n)).map (mw n)) ∧
  ∀ f, (∀ n ∈ names, n ∉ excluded → f ≠ field n) → after f = before f

end Baron.GoWrap
