import Verif.Model.GoExchange
import Verif.Spec.GoFunc

/-!
# The generated HTTP transport and the generated endpoints, connected

The HTTP functions (`GoHTTP`) and the functions of the service (`GoFunc`) are two fragments of Go with their own values: what a value of the one is in the other.
-/

namespace Baron.GoExchange

open Baron.HTTPCode (FullMsg)
open Baron.Runtime (Err)
open Baron.GoHTTP (Val)
open Baron.GoRoutes (Routes)

variable {F : Type}

/-- A value of the functions of the service: an endpoint is one of them. -/
abbrev Endpoint (F : Type) := GoFunc.Val (FullMsg F) GoHTTP.Ctx Err

/-- What has happened to the implementation, the state of the service. -/
abbrev History (F : Type) := GoFunc.Hist (FullMsg F) GoHTTP.Ctx Err

/-- go-kit's server calls an endpoint: what happens is what the program of the endpoint comes to when it is called with the context and with a pointer to the message (whose type is
one of package pb; the HTTP functions, in that package, write it without), and what it returns is a response, if the error is nil, or the error.
Nil responses and panics are left open. -/
structure Runs (w : GoFunc.World (FullMsg F) GoHTTP.Ctx Err) (p : GoFunc.Prog)
    (endpoint : Endpoint F → GoHTTP.Ctx → Val (FullMsg F) → History F → Except (Val (FullMsg F)) (Val (FullMsg F)) × History F) : Prop where
  response : ∀ e c t x h t' y h', GoFunc.Comes w p (fun k => k.invoke e [.ctx c, .msg (chars% "pb." ++ t) (some x)] h) (.ok [.msg (chars% "pb." ++ t') (some y), .nil] h') →
    endpoint e c (.msg t x) h = (.ok (.msg t' y), h')
  error : ∀ e c t x h v er h', GoFunc.Comes w p (fun k => k.invoke e [.ctx c, .msg (chars% "pb." ++ t) (some x)] h) (.ok [v, .error er] h') →
    endpoint e c (.msg t x) h = (.error (.err er), h')

/-- The fields of a struct of endpoints, for `MakeHTTPHandler`. -/
def endpointFields (fs : List (Str × Endpoint F)) : List (Str × GoRoutes.Val (Endpoint F)) := fs.map fun x => (x.1, .ext x.2)

end Baron.GoExchange
