import Verif.Model.HTTPCall

/-!
# Model of the generated servers handling many requests at the same time

`template/NAME-service/server/server.go.tmpl` (TS) `Run` makes one value `endpoints` (TS:44) and gives it to the HTTP handler
(TS:72), the gRPC server (TS:88) and the NATS subscriptions (TS:111-112). net/http and gRPC run every request in its own
goroutine, nats.go runs the handlers of different subscriptions in different goroutines; here any number of requests of the
three kinds can be under way at any time, and the goroutines take turns in any order. A request is handled in three steps:
everything before the endpoint is called, the call of the endpoint, everything after it. The generated code
(`NAME.pb.baron.go.tmpl`, TB) has no variable that two requests share, so only the endpoints' calls touch a common state,
that of the service implementation. A call of the implementation's method is one step: an implementation with a state
has to guard it (a mutex), which is not baron's business.
-/

namespace Baron.Concurrent

open Baron.HTTP (look)
open Baron.HTTPCode (FullMsg)
open Baron.Runtime (Ctx Header Err Response)
open Baron.Transport (Endpoint NatsCodec Proto CallErr)
open Baron.HTTPCall (Lib Req Answer Service)

variable {F S R : Type}

/-- What the servers are made from. -/
structure Setup (F S R : Type) where
  L : Lib F R
  /-- the service as declared in the .proto file, for gRPC's paths -/
  proto : Proto
  s : Svcdef.Service
  svc : Service F S R
  /-- the base context of the HTTP server and of the NATS subscribers -/
  sctx : Ctx
  nats : NatsCodec (FullMsg F) R Err

/-- Something that comes in. `md` is the metadata as a context: TB:241-253 adds it to `ctx`. -/
inductive Incoming (F : Type) where
  | http (q : Req)
  | grpc (path : Str) (ctx : Ctx) (md : Ctx) (msg : FullMsg F)
  | nats (subject text : Str)

/-- What goes out. A NATS message nobody subscribed to gets no reply. -/
inductive Reply (R : Type) where
  | http (a : Answer)
  | grpc (r : Except (CallErr Err) R)
  | nats (t : Option Str)

/-- An endpoint on a stateful implementation. -/
abbrev Ep (F S R : Type) := Endpoint (Ctx × S) (FullMsg F) (R × S) (Err × S)

/-- TS:44 and 125-144: the one value `endpoints`. -/
def endpoints (u : Setup F S R) : List (Str × Ep F S R) := Transport.newEndpoints u.svc (u.s.methods.map (·.name))

/-! ## The steps of one request -/

/-- Where the goroutine of a request is. -/
inductive Phase (F S R : Type) where
  /-- nothing was done yet -/
  | arrived
  /-- about to call this endpoint with this context and request -/
  | calling (e : Ep F S R) (c : Ctx) (msg : FullMsg F)
  /-- the endpoint returned -/
  | returned (x : Except Err R)
  /-- the reply was sent -/
  | answered (r : Reply R)

/-- TB:330-353, 421-465 and go-kit's `ServeHTTP` up to the endpoint's call: mux, context, decoder. -/
def startHTTP (u : Setup F S R) (q : Req) : Phase F S R :=
  match Transport.serve u.s q.verb q.path with
  | .redirect => .answered (.http .redirect)
  | .refused =>
    if (Transport.routes u.s).any fun r => (HTTP.muxGo (split '/' r.tmpl) (split '/' q.path)).isSome
    then .answered (.http (.response HTTPCall.notAllowed)) else .answered (.http (.response HTTPCall.notFound))
  | .handled r vars =>
    match look (HTTPCall.decoders u.s) r.label, look (endpoints u) (Transport.endpointField r.method) with
    | some b, some e => match HTTPCall.decode u.L b r.method vars q with
      | .error (.inl .emptyValues) => .answered (.http .crash)
      | .error (.inr .emptyValues) => .answered (.http .crash)
      | .error x => .answered (.http (.response
          (Runtime.errorEncoder u.L.J (HTTPCall.requestErr (u.L.decodeText r.method x) x) [])))
      | .ok msg => .calling e (Runtime.httpHeadersToContext u.sctx q.header q.path) msg
    | _, _ => .answered (.http .crash)

/-- protoc-gen-go-grpc's dispatch, TB:182-217 and go-kit's `ServeGRPC` up to the endpoint's call. -/
def startGRPC (u : Setup F S R) (path : Str) (ctx md : Ctx) (msg : FullMsg F) : Phase F S R :=
  match look (Transport.serviceDesc u.proto) path with
  | none => .answered (.grpc (.error .unimplemented))
  | some n =>
    -- TB:185-192: the handler under the lower-cased name has the endpoint of the method of that name
    match (u.s.methods.map (·.name)).find? fun m => toLower m = toLower n with
    | none => .answered (.grpc (.error .noEndpoint))
    | some m => match look (endpoints u) (Transport.endpointField m) with
      | none => .answered (.grpc (.error .noEndpoint))
      | some e => .calling e (md ++ ctx) msg

/-- TB:720-752, 762-769 and go-kit's `ServeMsg` up to the endpoint's call. -/
def startNATS (u : Setup F S R) (subject text : Str) : Phase F S R :=
  match (u.s.methods.map (·.name)).find? fun m => Transport.subject u.s.name m = subject with
  | none => .answered (.nats none)
  | some m => match look (endpoints u) (Transport.endpointField m) with
    | none => .answered (.nats none)
    | some e => match u.nats.decQ text with
      | none => .answered (.nats (some (u.nats.errBody none)))
      | some msg => .calling e u.sctx msg

/-- The first step. -/
def start (u : Setup F S R) : Incoming F → Phase F S R
  | .http q => startHTTP u q
  | .grpc path ctx md msg => startGRPC u path ctx md msg
  | .nats subject text => startNATS u subject text

/-- The last step: TB:467-482 and go-kit's `ServeHTTP`, `ServeGRPC`, `ServeMsg` after the endpoint's call. -/
def finish (u : Setup F S R) : Incoming F → Except Err R → Reply R
  | .http _, .error err => .http (.response (Runtime.errorEncoder u.L.J err []))
  | .http _, .ok r => match u.L.writeResp r with
    | some body => .http (.response ⟨200, HTTPCall.okHeader, body⟩)
    | none => .http (.response (Runtime.errorEncoder u.L.J (HTTPCall.plainErr (u.L.writeText r)) HTTPCall.okHeader))
  | .grpc .., .error err => .grpc (.error (.app err))
  | .grpc .., .ok r => .grpc (.ok r)
  | .nats .., .error err => .nats (some (u.nats.errBody (some err)))
  | .nats .., .ok r => .nats (some (u.nats.encR r))

/-! ## All goroutines together -/

/-- All requests so far, each with the phase of its goroutine, and the state of the service implementation. -/
structure State (F S R : Type) where
  threads : List (Incoming F × Phase F S R)
  st : S

/-- What can happen next; the number is the request's, in the order of arrival. -/
inductive Event (F : Type) where
  | arrives (x : Incoming F)
  | starts (i : Nat)
  | calls (i : Nat)
  | answers (i : Nat)

/-- The effect of an endpoint's call: the implementation's new state and what it returned. -/
def runEp (e : Ep F S R) (c : Ctx) (msg : FullMsg F) (st : S) : Except Err R × S :=
  match e (c, st) msg with
  | .ok (r, st') => (.ok r, st')
  | .error (err, st') => (.error err, st')

/-- One step; `none`: not possible. -/
def step (u : Setup F S R) (σ : State F S R) : Event F → Option (State F S R)
  | .arrives x => some { σ with threads := σ.threads ++ [(x, .arrived)] }
  | .starts i => match σ.threads[i]? with
    | some (x, .arrived) => some { σ with threads := σ.threads.set i (x, start u x) }
    | _ => none
  | .calls i => match σ.threads[i]? with
    | some (x, .calling e c msg) =>
      some ⟨σ.threads.set i (x, .returned (runEp e c msg σ.st).1), (runEp e c msg σ.st).2⟩
    | _ => none
  | .answers i => match σ.threads[i]? with
    | some (x, .returned r) => some { σ with threads := σ.threads.set i (x, .answered (finish u x r)) }
    | _ => none

/-- Executions: the events in the order they happen. -/
def run (u : Setup F S R) (σ : State F S R) : List (Event F) → Option (State F S R)
  | [] => some σ
  | e :: es => match step u σ e with
    | none => none
    | some σ' => run u σ' es

end Baron.Concurrent
