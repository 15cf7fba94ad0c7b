import Verif.Model.Oneof
import Verif.Model.Runtime
import Verif.Model.Transport

/-!
# Model of a whole HTTP call: generated client, router, decoder, endpoint, encoder, generated client

`template/NAME-service/baron/NAME.pb.baron.go.tmpl` (TB) and `template/NAME-service/server/server.go.tmpl` (TS) with go-kit's
`httptransport.Server` and `Client`, which call the generated functions in turn. Model/Transport routes, Model/Oneof encodes
and decodes requests, Model/Runtime makes contexts and encodes and decodes errors; here they are put together. A service
implementation reads and changes a state of any type `S`, so what a call does to the state tells how often it was run.
Not modelled: cancelled contexts, user-supplied options and middleware, header values that HTTP cannot carry, verbs whose
responses have no body (HEAD).
-/

namespace Baron.HTTPCall

open Baron.HTTP (look)
open Baron.HTTPCode (FullMsg FullRequest DErr OErr Floats JSONOk HField HOneof)
open Baron.Runtime (Ctx Header Err Response ErrJSON)
open Baron.Transport (Endpoint Impl Route)

/-- A service implementation with a state: TS:122-144 makes the endpoints of its methods. -/
abbrev Service (F S R : Type) := Impl (Ctx × S) (FullMsg F) (R × S) (Err × S)

/-- The libraries the generated code calls, for requests over `F` and responses `R`. `zero`, `readReq` and `readResp`
depend on the method's types and take the method's name. `none` is an error of protojson. -/
structure Lib (F R : Type) where
  fl : Floats F
  /-- which floats equal 0 -/
  fzero : F → Bool
  jok : JSONOk
  /-- texts of values printed as addresses -/
  addr : Str → Str
  zero : Str → FullMsg F
  readReq : Str → Str → Option (FullMsg F)
  writeReq : FullMsg F → Option Str
  writeResp : R → Option Str
  readResp : Str → Str → Option R
  J : ErrJSON
  /-- the message of the error a decoder returns -/
  decodeText : Str → DErr ⊕ OErr → Str
  /-- the message of the error of marshalling a response -/
  writeText : R → Str
  /-- headers net/http adds to a request (`User-Agent`, …) unless they are set -/
  added : Header

/-- An `http.Request` as the server sees it; an empty body and no body are the same. -/
structure Req where
  verb : Str
  path : Str
  header : Header
  query : List (Str × List Str)
  body : Str

/-- What becomes of a request. -/
inductive Answer where
  | response (r : Response)
  /-- mux redirects to the cleaned path -/
  | redirect
  /-- the handler panicked: the connection is closed without an answer -/
  | crash
  deriving DecidableEq

/-- TB:421-465: the decoders of all bindings, under their labels. Two of the same label do not compile (C23). -/
def decoders (s : Svcdef.Service) : List (Str × Svcdef.HTTPBinding) :=
  (s.methods.filter fun m => !m.bindings.isEmpty).flatMap fun m =>
    m.bindings.zipIdx.map fun b => (m.name ++ HTTP.englishNumber b.2, b.1)

/-- TB:427-445: the error a decoder returns. A malformed body gives an `httpError` (TB:401-413) with status 400 and no
headers, everything else an error of `github.com/pkg/errors` or the standard library. -/
def requestErr (text : Str) : DErr ⊕ OErr → Err
  | .inl .badBody => ⟨text, none, some [], some 400⟩
  | _ => ⟨text, none, none, none⟩

/-- An error value that only has a message. -/
def plainErr (text : Str) : Err := ⟨text, none, none, none⟩

/-- TB:332-336: the response headers set before encoding a response (`ServerAfter`). -/
def okHeader : Header := Runtime.headerSet [] "Content-Type".toList Runtime.contentType

variable {F S R : Type}

/-- TB:421-465, with the body read from its text (TB:424-445). -/
def decode (L : Lib F R) (b : Svcdef.HTTPBinding) (n : Str) (vars : List (Str × Str)) (q : Req) :
    Except (DErr ⊕ OErr) (FullMsg F) :=
  HTTPCode.decodeFull L.fl L.jok (L.zero n) (HTTPCode.bindingFields b) (HTTPCode.bindingOneofs b)
    ⟨vars, q.query, if q.body = [] then none else some (L.readReq n q.body)⟩

/-- go-kit `httptransport.Server.ServeHTTP` with the functions TB:331-349 gives it: context, decoder, endpoint, encoder
(TB:467-482), errors to `errorEncoder`. Indexing an empty list of query values panics. -/
def handle (L : Lib F R) (b : Svcdef.HTTPBinding) (n : Str)
    (e : Endpoint (Ctx × S) (FullMsg F) (R × S) (Err × S)) (vars : List (Str × Str)) (q : Req) (sctx : Ctx) (st : S) :
    Answer × S :=
  match decode L b n vars q with
  | .error (.inl .emptyValues) => (.crash, st)
  | .error (.inr .emptyValues) => (.crash, st)
  | .error x => (.response (Runtime.errorEncoder L.J (requestErr (L.decodeText n x) x) []), st)
  | .ok msg =>
    match e (Runtime.httpHeadersToContext sctx q.header q.path, st) msg with
    | .error (err, st') => (.response (Runtime.errorEncoder L.J err []), st')
    | .ok (r, st') => match L.writeResp r with
      | some body => (.response ⟨200, okHeader, body⟩, st')
      | none => (.response (Runtime.errorEncoder L.J (plainErr (L.writeText r)) okHeader), st')

/-- net/http `NotFound`, mux's handler when no route has the path. -/
def notFound : Response :=
  ⟨404, [("Content-Type".toList, ["text/plain; charset=utf-8".toList]), ("X-Content-Type-Options".toList, ["nosniff".toList])],
    "404 page not found\n".toList⟩

/-- mux's handler when a route has the path, but none with this verb. -/
def notAllowed : Response := ⟨405, [], []⟩

/-- TB:330-353 `MakeHTTPHandler` on the endpoints of TS:122-144: the server's answer to a request and its state
afterwards. A nil endpoint panics. -/
def serveHTTP (L : Lib F R) (s : Svcdef.Service) (svc : Service F S R) (sctx : Ctx) (q : Req) (st : S) : Answer × S :=
  match Transport.serve s q.verb q.path with
  | .redirect => (.redirect, st)
  | .refused =>
    if (Transport.routes s).any fun r => (HTTP.muxGo (split '/' r.tmpl) (split '/' q.path)).isSome
    then (.response notAllowed, st) else (.response notFound, st)
  | .handled r vars =>
    match look (decoders s) r.label,
        look (Transport.newEndpoints svc (s.methods.map (·.name))) (Transport.endpointField r.method) with
    | some b, some e => handle L b r.method e vars q sctx st
    | _, _ => (.crash, st)

/-- How a call through the generated client can end. -/
inductive Result (R : Type) where
  /-- the method returned a response, or an error with this message -/
  | returned (x : Except Str R)
  /-- the client has no endpoint for the method (a nil function is called) -/
  | noEndpoint
  /-- the request could not be made: the path does not parse, or the message does not marshal -/
  | notSent
  /-- the server closed the connection -/
  | lost
  /-- net/http follows the server's redirect -/
  | redirected
  deriving DecidableEq

/-- TB:619-620 and 530: the headers the request encoder sets; when it runs, the request's URL has the binding's base
path. -/
def encoderHeader (b : Svcdef.HTTPBinding) : Header :=
  Runtime.headerSet (Runtime.headerSet [] "transport".toList "HTTPJSON".toList) "request-url".toList (HTTP.basePath b.path)

/-- The headers as they arrive: net/http adds its own. -/
def arrive (L : Lib F R) (h : Header) : Header := h ++ L.added.filter fun e => e.1 ∉ h.map (·.1)

/-- TB:613-714 `EncodeHTTP…Request`, then `CtxValuesToSend` (TB:561-570, run by go-kit after the encoder), then the wire,
for an instance without a query: the request as the server sees it. -/
def clientRequest (L : Lib F R) (ctx : Ctx) (keys : List Str) (b : Svcdef.HTTPBinding) (msg : FullMsg F) : Option Req :=
  match HTTP.urlParsePath (HTTP.clientPath (HTTPCode.pathEnv L.fl L.addr (HTTPCode.bindingFields b) msg.fields) b.path) with
  | none => none
  | some path =>
    let header := arrive L (Runtime.ctxValuesToSend ctx keys (encoderHeader b))
    let query := HTTPCode.encodeFull L.fl L.fzero (HTTPCode.bindingFields b) (HTTPCode.bindingOneofs b) msg
    if b.verb = "get".toList then some ⟨toUpper b.verb, path, header, query, []⟩
    else match L.writeReq msg with
      | none => none
      | some body => some ⟨toUpper b.verb, path, header, query, body⟩

/-- TB:506-547 `NewHTTPClient` (the endpoint of a method uses its first binding), TB:93-100, go-kit's
`httptransport.Client` and TB:580-604, against the server of the same service. `ctx` is the caller's context, `keys` those
given to `CtxValuesToSend`, `sctx` the server's base context, `st` its state. -/
def call (L : Lib F R) (s : Svcdef.Service) (svc : Service F S R) (ctx : Ctx) (keys : List Str) (sctx : Ctx)
    (m : Svcdef.ServiceMethod) (msg : FullMsg F) (st : S) : Result R × S :=
  match m.bindings with
  | [] => (.noEndpoint, st)
  | b :: _ => match clientRequest L ctx keys b msg with
    | none => (.notSent, st)
    | some q => match serveHTTP L s svc sctx q st with
      | (.redirect, st') => (.redirected, st')
      | (.crash, st') => (.lost, st')
      | (.response r, st') => (.returned (Runtime.decodeResponse L.J (L.readResp m.name) r), st')

end Baron.HTTPCall
