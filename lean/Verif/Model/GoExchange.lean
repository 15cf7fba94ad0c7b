import Verif.Model.GoDecode
import Verif.Model.GoRoutes
import Verif.Model.GoClient
import Verif.Model.HTTPCall

/-!
# The generated client and the generated server, connected

What net/http carries between a client's program and a handler's program.
-/

namespace Baron.GoExchange

open Baron.HTTPCode (FullMsg)
open Baron.GoClient (Http)

variable {F E S : Type}

/-- net/http: the server's world for a request, with its path and its body. -/
def worldAt (w : GoHTTP.World (FullMsg F)) (q : Http) : GoHTTP.World (FullMsg F) := { w with path := q.path, body := (q.body.getD [], .complete) }

/-- An encoder's program is called, with a request made for the client's address: the path of the binding up to its first parameter. -/
def start (msg : FullMsg F) (path raw : Str) : GoClient.State F :=
  ⟨[fun x => if x = chars% "request" then some .msg else none], msg, ⟨[], path, raw, [], none⟩⟩

/-- net/http: what the client gets of an answer, its status and its body, if that status is sent with one. -/
def reply : GoRoutes.Outcome (FullMsg F) S → Option (Nat × Str)
  | .answered st _ => st.sent.map fun x => (x.1, if Runtime.bodyAllowed x.1 then st.out else [])
  | _ => none

/-- The server's libraries and the client's, as `HTTPCall.Lib` has them, for a type of requests: `Survives` and `BodyTravels` refer to them. -/
def libOf (C : GoClient.Libs F) (L : GoLang.Libs F) (w : GoHTTP.World (FullMsg F)) (t : Str) : HTTPCall.Lib F Unit where
  fl := L.fl
  fzero := C.fzero
  jok := L.jok
  addr := C.addr
  zero _ := w.empty t
  readReq _ x := match w.readProto [(chars% "AllowPartial", true), (chars% "DiscardUnknown", true)] t x (w.empty t) with
    | (m, none) => some m
    | _ => none
  writeReq := C.writeReq
  writeResp _ := none
  readResp _ _ := none
  J := w.json
  decodeText _ _ := []
  writeText _ := []
  added := []

end Baron.GoExchange
