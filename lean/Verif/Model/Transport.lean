import Verif.Model.HTTPNames

/-!
# Model of how the generated code connects methods, endpoints, routes and subjects

`template/NAME-service/baron/NAME.pb.baron.go.tmpl` (TB below) and `template/NAME-service/server/server.go.tmpl` (TS),
applied to a service definition. A generated struct literal or a block of generated variables is an association list from
identifiers to values, in the order the template writes them; using an identifier looks it up. go-kit's transports call
decode, endpoint and encode in turn; the type assertions of the generated decoders and encoders always succeed on the values
the generated code passes to them and are left out.
-/

namespace Baron.Transport

open HTTP (look)

/-! ## HTTP routes -/

/-- A route registered with gorilla/mux: TB:342-349. -/
structure Route where
  verb : Str
  tmpl : Str
  method : Str
  label : Str
  deriving Repr, DecidableEq

/-- httptransport.go:50-71 `NewMethod`, `NewBinding` and TB:343: the routes of one method. -/
def methodRoutes (m : Svcdef.ServiceMethod) : List Route :=
  m.bindings.zipIdx.map fun b => ⟨toUpper b.1.verb, b.1.path, m.name, m.name ++ HTTP.englishNumber b.2⟩

/-- httptransport.go:33-47 `NewHelper` and TB:340-351: all routes, in the order they are registered. -/
def routes (s : Svcdef.Service) : List Route :=
  (s.methods.filter fun m => !m.bindings.isEmpty).flatMap methodRoutes

/-- What the router does with a request. -/
inductive Outcome where
  /-- mux answers with a redirect to the cleaned path -/
  | redirect
  /-- the handler of a route runs and sees these variables -/
  | handled (r : Route) (vars : List (Str × Str))
  /-- 404 or 405 -/
  | refused
  deriving Repr, DecidableEq

/-- gorilla/mux `Router.Match`: the first route that matches both the verb and the path. -/
def firstMatch (verb : Str) (path : List Str) : List Route → Outcome
  | [] => .refused
  | r :: rs =>
    match HTTP.muxGo (split '/' r.tmpl) path with
    | some vars => if r.verb = verb then .handled r vars else firstMatch verb path rs
    | none => firstMatch verb path rs

/-- gorilla/mux `Router.ServeHTTP`, on the handler of TB:330-353. -/
def serve (s : Svcdef.Service) (verb path : Str) : Outcome :=
  if HTTP.cleanSegs (split '/' path).tail then firstMatch verb (split '/' path) (routes s) else .redirect

/-- TB:522-538 and 623-633: verb and path of the request the HTTP client makes for a method (always its first binding);
`none`: the method has no endpoint, or the path does not parse. -/
def clientRequest (env : Str → Str) (m : Svcdef.ServiceMethod) : Option (Str × Str) :=
  match m.bindings with
  | [] => none
  | b :: _ => (HTTP.urlParsePath (HTTP.clientPath env b.path)).map fun p => (toUpper b.verb, p)

/-- TB:510-512: the address the HTTP client parses. -/
def clientInstance (inst : Str) : Str :=
  if hasPrefix inst "http".toList then inst else "http://".toList ++ inst

/-- The characters of a URL scheme. -/
def schemeChar (c : Char) : Bool := c.isAlpha || c.isDigit || c == '+' || c == '-' || c == '.'

/-- net/url `getScheme`: the scheme and what follows its colon; the scheme is empty when there is none; `none`: error. -/
def getScheme (s : Str) : Option (Str × Str) :=
  match s.takeWhile schemeChar, s.dropWhile schemeChar with
  | [], ':' :: _ => none
  | c :: p, ':' :: r => if c.isAlpha then some (c :: p, r) else some ([], s)
  | _, _ => some ([], s)

/-- Where requests go. -/
inductive Target where
  /-- scheme and authority (`host:port`) -/
  | host (scheme authority : Str)
  /-- there is no authority in the address: no request can be sent -/
  | nowhere
  deriving Repr, DecidableEq

/-- TB:513-517 `url.Parse(instance)`, keeping what the client uses: `copyURL` (TB:549-553) replaces the path by the
binding's. Errors of host validation, user information and percent-encoded hosts are not modelled. -/
def clientTarget (inst : Str) : Target :=
  match getScheme ((clientInstance inst).takeWhile (· ≠ '#')) with
  | some (scheme, '/' :: '/' :: r) =>
    if (r.takeWhile fun c => c ≠ '/' ∧ c ≠ '?') = [] then .nowhere
    else .host (toLower scheme) (r.takeWhile fun c => c ≠ '/' ∧ c ≠ '?')
  | _ => .nowhere

/-- TB:524-538, 549-553, 623-633: where the client of an instance sends the request of a method, its verb and its path. -/
def clientSends (inst : Str) (env : Str → Str) (m : Svcdef.ServiceMethod) : Option (Target × Str × Str) :=
  (clientRequest env m).map fun r => (clientTarget inst, r)

/-! ## Endpoints -/

/-- go-kit's `endpoint.Endpoint`. -/
abbrev Endpoint (C Q R E : Type) := C → Q → Except E R

/-- A service implementation: for every method name, what it does. -/
abbrev Impl (C Q R E : Type) := Str → Endpoint C Q R E

def endpointField (n : Str) : Str := n ++ "Endpoint".toList
def localEndpoint (n : Str) : Str := toLower n ++ "Endpoint".toList

/-- TB:103-117 `Make…Endpoint`: calls the method of that name. -/
def makeEndpoint {C Q R E : Type} (svc : Impl C Q R E) (n : Str) : Endpoint C Q R E := svc n

/-- TS:122-144 `NewEndpoints` before `WrapEndpoints`: the local variables, then the struct literal reading them. -/
def newEndpoints {C Q R E : Type} (svc : Impl C Q R E) (methods : List Str) : List (Str × Endpoint C Q R E) :=
  let vars := methods.map fun n => (localEndpoint n, makeEndpoint svc n)
  methods.filterMap fun n => (look vars (localEndpoint n)).map fun e => (endpointField n, e)

/-! ## gRPC -/

/-- TB:182-198 `MakeGRPCServer`: the fields of `grpcServer`; `before` is `GRPCMetadataToContext`. -/
def grpcServer {C Q R E : Type} (before : C → C) (endpoints : List (Str × Endpoint C Q R E)) (methods : List Str) :
    List (Str × Endpoint C Q R E) :=
  methods.filterMap fun n => (look endpoints (endpointField n)).map fun e => (toLower n, fun c q => e (before c) q)

/-- TB:209-217: the methods of `grpcServer`. -/
def grpcMethod {C Q R E : Type} (srv : List (Str × Endpoint C Q R E)) (n : Str) : Option (Endpoint C Q R E) :=
  look srv (toLower n)

/-- A service as declared in the .proto file. -/
structure Proto where
  package : Str
  name : Str
  rpcs : List Str

/-- The full name of a service in gRPC: the proto package and the declared name. -/
def Proto.fullName (p : Proto) : Str := if p.package = [] then p.name else p.package ++ '.' :: p.name

/-- protoc-gen-go-grpc's `ServiceDesc`: the paths the server answers and the Go methods they call. -/
def serviceDesc (p : Proto) : List (Str × Str) :=
  p.rpcs.map fun r => ('/' :: p.fullName ++ '/' :: r, Strs.goCamelCase r)

/-- TB:259-276 with go-kit's `grpctransport.NewClient`: the path the client calls. `pkg` is the Go package name
(svcdef.go:218), `svc` and `n` are Go names. -/
def grpcPath (pkg svc n : Str) : Str := '/' :: (pkg ++ '.' :: svc) ++ '/' :: n

/-- How a remote call can end without a result of the method. -/
inductive CallErr (E : Type) where
  /-- the method's own error -/
  | app (e : E)
  /-- gRPC `Unimplemented`: no such path -/
  | unimplemented
  /-- the generated code has no such endpoint (a nil function is called) -/
  | noEndpoint
  deriving Repr, DecidableEq

/-- The gRPC server's answer to a call of `path`. -/
def grpcServe {C Q R E : Type} (p : Proto) (srv : List (Str × Endpoint C Q R E)) (path : Str) (c : C) (q : Q) :
    Except (CallErr E) R :=
  match look (serviceDesc p) path with
  | none => .error .unimplemented
  | some n => match grpcMethod srv n with
    | none => .error .noEndpoint
    | some e => match e c q with
      | .ok r => .ok r
      | .error e => .error (.app e)

/-- TB:259-285 `NewGRPCClient`: the endpoints, each calling its path on the connection. -/
def grpcClient {C Q R E : Type} (invoke : Str → C → Q → Except (CallErr E) R) (pkg svc : Str) (methods : List Str) :
    List (Str × Endpoint C Q R (CallErr E)) :=
  let vars := methods.map fun n => (localEndpoint n, (invoke (grpcPath pkg svc n) : Endpoint C Q R (CallErr E)))
  methods.filterMap fun n => (look vars (localEndpoint n)).map fun e => (endpointField n, e)

/-- TB:93-100: a method of `Endpoints`. -/
def callEndpoint {C Q R E : Type} (es : List (Str × Endpoint C Q R (CallErr E))) (n : Str) (c : C) (q : Q) :
    Except (CallErr E) R :=
  match look es (endpointField n) with
  | none => .error .noEndpoint
  | some e => e c q

/-- A call through the generated gRPC client to the generated gRPC server of the same service. -/
def grpcCall {C Q R E : Type} (p : Proto) (goPkg : Str) (before : C → C) (svc : Impl C Q R E) (n : Str) (c : C) (q : Q) :
    Except (CallErr E) R :=
  let methods := p.rpcs.map Strs.goCamelCase
  let srv := grpcServer before (newEndpoints svc methods) methods
  callEndpoint (grpcClient (grpcServe p srv) goPkg (Strs.goCamelCase p.name) methods) n c q

/-! ## NATS -/

/-- TB:724, 792: the subject of a method. -/
def subject (svc n : Str) : Str := svc ++ '.' :: n

/-- encoding/json on the generated messages, and go-kit's `natstransport.DefaultErrorEncoder` (`{"err": …}`). -/
structure NatsCodec (Q R E : Type) where
  encQ : Q → Str
  decQ : Str → Option Q
  encR : R → Str
  decR : Str → Option R
  errBody : Option E → Str

/-- What a NATS client call can end with besides a response. -/
inductive NatsErr where
  /-- nobody subscribed to the subject: the request times out -/
  | timeout
  /-- the reply is not a response -/
  | badReply
  | noEndpoint
  deriving Repr, DecidableEq

/-- TB:735-752 `MakeNATSServer` and 762-769, with go-kit's `Subscriber.ServeMsg`: the reply to a message. -/
def natsHandle {C Q R E : Type} (k : NatsCodec Q R E) (e : Endpoint C Q R E) (c : C) (msg : Str) : Str :=
  match k.decQ msg with
  | none => k.errBody none
  | some q => match e c q with
    | .ok r => k.encR r
    | .error err => k.errBody (some err)

/-- TB:720-732 `ServeNATS`: the subscriptions. -/
def natsServer {C Q R E : Type} (k : NatsCodec Q R E) (svcName : Str) (endpoints : List (Str × Endpoint C Q R E))
    (methods : List Str) : List (Str × (C → Str → Str)) :=
  methods.filterMap fun n =>
    (look endpoints (endpointField n)).map fun e => (subject svcName n, fun c msg => natsHandle k e c msg)

/-- TB:785-807 `NewNATSClient` and 812-825, on a connection to a server with these subscriptions. -/
def natsCall {C Q R E : Type} (k : NatsCodec Q R E) (svcName : Str) (svc : Impl C Q R E) (methods : List Str) (n : Str)
    (c : C) (q : Q) : Except NatsErr R :=
  let subs := natsServer k svcName (newEndpoints svc methods) methods
  let send := fun (subj : Str) => match look subs subj with
    | none => Except.error NatsErr.timeout
    | some h => match k.decR (h c (k.encQ q)) with
      | none => .error .badReply
      | some r => .ok r
  let vars := methods.map fun n => (localEndpoint n, subject svcName n)
  let fields := methods.filterMap fun n => (look vars (localEndpoint n)).map fun s => (endpointField n, s)
  match look fields (endpointField n) with
  | none => .error .noEndpoint
  | some s => send s

end Baron.Transport
