import Verif.Model.GoFunc

/-!
# The functions of a generated service as programs, and what calling them comes to (C99)
-/

namespace Baron.GoFunc

open Baron.Svcdef (Service ServiceMethod)
open Baron.TT (goType)

/-! ## The programs -/

/-- Two arguments, or two values returned. -/
def pair (ws : Str) (a b : Expr) : Args := .arg ws a (chars% ",") (.arg (chars% " ") b [] (.done []))

def single (ws : Str) (a : Expr) : Args := .arg ws a [] (.done [])

/-- `if err != nil { return nil, err }` -/
def failing (ws : Str) (rest : Code) : Code :=
  .ifErr ws (.ret (ws ++ chars% "\t") (pair (chars% " ") .nil (.id (chars% "err"))) (.done ws)) rest

def star (t : Str) : Str := chars% "*" ++ t

/-- The parameters of a service's method. -/
def methodParams (in_ request : Str) : List (Str × Str) := [(chars% "ctx", chars% "context.Context"), (in_, star request)]

def methodResults (response : Str) : List (Str × Str) := [([], star response), ([], chars% "error")]

/-- NAME.pb.baron.go.tmpl 93-99. -/
def endpointFunc (m : ServiceMethod) : Func where
  pkg := chars% "pb"
  recv := some (chars% "e", chars% "Endpoints")
  name := m.name
  params := methodParams (chars% "in") (goType m.request)
  results := methodResults (goType m.response)
  gap := chars% " "
  body :=
    .define (chars% "\n\t") (chars% "response") [chars% "err"]
      (.method (chars% "e") (m.name ++ chars% "Endpoint") (pair [] (.id (chars% "ctx")) (.id (chars% "in")))) <|
    failing (chars% "\n\t") <|
    .ret (chars% "\n\t") (pair (chars% " ") (.assert (chars% "response") (goType m.response)) .nil) <|
    .done (chars% "\n")

/-- NAME.pb.baron.go.tmpl 107-114. -/
def endpointBody (m : ServiceMethod) : Code :=
  .define (chars% "\n\t\t") (chars% "req") [] (.assert (chars% "request") (goType m.request)) <|
  .define (chars% "\n\t\t") (chars% "v") [chars% "err"] (.method (chars% "s") m.name (pair [] (.id (chars% "ctx")) (.id (chars% "req")))) <|
  failing (chars% "\n\t\t") <|
  .ret (chars% "\n\t\t") (pair (chars% " ") (.id (chars% "v")) .nil) <|
  .done (chars% "\n\t")

def endpointParams : List (Str × Str) := [(chars% "ctx", chars% "context.Context"), (chars% "request", chars% "interface{}")]

def endpointResults : List (Str × Str) := [(chars% "response", chars% "interface{}"), (chars% "err", chars% "error")]

/-- NAME.pb.baron.go.tmpl 106-115. -/
def makeEndpoint (service : Str) (m : ServiceMethod) : Func where
  pkg := chars% "pb"
  recv := none
  name := chars% "Make" ++ (m.name ++ chars% "Endpoint")
  params := [(chars% "s", service ++ chars% "Server")]
  results := [([], chars% "endpoint.Endpoint")]
  gap := chars% " "
  body := .ret (chars% "\n\t") (single (chars% " ") (.fn endpointParams endpointResults (endpointBody m))) <| .done (chars% "\n")

/-! ### gRPC -/

/-- The entry of an rpc in the gRPC server (NAME.pb.baron.go.tmpl 197-202). -/
def handlerArgs (m : ServiceMethod) : Args :=
  .arg (chars% "\n\t\t\t") (.sel (chars% "endpoints") (m.name ++ chars% "Endpoint")) (chars% ",") <|
  .arg (chars% "\n\t\t\t") (.id (chars% "DecodeGRPC" ++ (m.name ++ chars% "Request"))) (chars% ",") <|
  .arg (chars% "\n\t\t\t") (.id (chars% "EncodeGRPC" ++ (m.name ++ chars% "Response"))) (chars% ",") <|
  .spread (chars% "\n\t\t\t") (chars% "serverOptions") (chars% ",") <|
  .done (chars% "\n\t\t")

def handlers : List ServiceMethod → Args
  | [] => .done (chars% "\n\t")
  | m :: l => .named (chars% "\n\t\t") (toLower m.name) (chars% ": ") (.call (chars% "grpctransport.NewServer") (handlerArgs m)) (chars% ",") (handlers l)

/-- NAME.pb.baron.go.tmpl 188-205. -/
def makeGRPCServer (s : Service) : Func where
  pkg := chars% "pb"
  recv := none
  name := chars% "MakeGRPCServer"
  params := [(chars% "endpoints", chars% "Endpoints"), (chars% "options", chars% "...grpctransport.ServerOption")]
  results := [([], s.name ++ chars% "Server")]
  gap := chars% " "
  body :=
    .define (chars% "\n\t") (chars% "serverOptions") [] (.slice (chars% "grpctransport.ServerOption")
      (.arg (chars% "\n\t\t") (.call (chars% "grpctransport.ServerBefore") (single [] (.id (chars% "GRPCMetadataToContext")))) (chars% ",") (.done (chars% "\n\t")))) <|
    .assign (chars% "\n\t") (chars% "serverOptions") (.call (chars% "append")
      (.arg [] (.id (chars% "serverOptions")) (chars% ",") (.spread (chars% " ") (chars% "options") [] (.done [])))) <|
    .comment (chars% "\n\t") (chars% " " ++ toLower s.name) <|
    .ret (chars% "\n\t") (single (chars% " ") (.ref (chars% "grpcServer") (.blank (chars% "\n\t") (handlers s.methods)))) <|
    .done (chars% "\n")

/-- NAME.pb.baron.go.tmpl 217-223. -/
def grpcMethod (m : ServiceMethod) : Func where
  pkg := chars% "pb"
  recv := some (chars% "s", chars% "*grpcServer")
  name := Strs.goCamelCase m.name
  params := methodParams (chars% "req") (goType m.request)
  results := methodResults (goType m.response)
  gap := chars% " "
  body :=
    .define (chars% "\n\t") (chars% "_") [chars% "rep", chars% "err"]
      (.method2 (chars% "s") (toLower m.name) (chars% "ServeGRPC") (pair [] (.id (chars% "ctx")) (.id (chars% "req")))) <|
    failing (chars% "\n\t") <|
    .ret (chars% "\n\t") (pair (chars% " ") (.assert (chars% "rep") (goType m.response)) .nil) <|
    .done (chars% "\n")

/-- A function that only asserts the type of a message (NAME.pb.baron.go.tmpl 230-233, 241-244, 300-303, 311-314). -/
def codec (name arg var t : Str) : Func where
  pkg := chars% "pb"
  recv := none
  name := name
  params := [(chars% "_", chars% "context.Context"), (arg, chars% "interface{}")]
  results := [([], chars% "interface{}"), ([], chars% "error")]
  gap := chars% " "
  body := .define (chars% "\n\t") var [] (.assert arg t) <| .ret (chars% "\n\t") (pair (chars% " ") (.id var) .nil) <| .done (chars% "\n")

def decodeRequest (m : ServiceMethod) : Func := codec (chars% "DecodeGRPC" ++ (m.name ++ chars% "Request")) (chars% "grpcReq") (chars% "req") (goType m.request)
def encodeResponse (m : ServiceMethod) : Func := codec (chars% "EncodeGRPC" ++ (m.name ++ chars% "Response")) (chars% "response") (chars% "resp") (goType m.response)
def decodeResponse (m : ServiceMethod) : Func := codec (chars% "DecodeGRPC" ++ (m.name ++ chars% "Response")) (chars% "grpcReply") (chars% "reply") (goType m.response)
def encodeRequest (m : ServiceMethod) : Func := codec (chars% "EncodeGRPC" ++ (m.name ++ chars% "Request")) (chars% "request") (chars% "req") (goType m.request)

/-- The variable for the endpoint of an rpc. -/
def endpointVar (m : ServiceMethod) : Str := toLower m.name ++ chars% "Endpoint"

/-- NAME.pb.baron.go.tmpl 275-286. -/
def clientArgs (pkg service : Str) (m : ServiceMethod) : Args :=
  .arg (chars% "\n\t\t\t") (.id (chars% "conn")) (chars% ",") <|
  .arg (chars% "\n\t\t\t") (.text (pkg ++ (chars% "." ++ service))) (chars% ",") <|
  .arg (chars% "\n\t\t\t") (.text m.name) (chars% ",") <|
  .arg (chars% "\n\t\t\t") (.id (chars% "EncodeGRPC" ++ (m.name ++ chars% "Request"))) (chars% ",") <|
  .arg (chars% "\n\t\t\t") (.id (chars% "DecodeGRPC" ++ (m.name ++ chars% "Response"))) (chars% ",") <|
  .arg (chars% "\n\t\t\t") (.lit (goType m.response) (.done [])) (chars% ",") <|
  .spread (chars% "\n\t\t\t") (chars% "options") (chars% ",") <|
  .done (chars% "\n\t\t")

def clientEndpoints (pkg service : Str) (rest : Code) : List ServiceMethod → Code
  | [] => rest
  | m :: l =>
    .var (chars% "\n\t") (endpointVar m) (chars% "endpoint.Endpoint") <|
    .block (chars% "\n\t") (.assign (chars% "\n\t\t") (endpointVar m)
      (.dot (.call (chars% "grpctransport.NewClient") (clientArgs pkg service m)) (chars% "Endpoint")) (.done (chars% "\n\t"))) <|
    .blank (chars% "\n\t\t\t") (clientEndpoints pkg service rest l)

def namedEndpoints (last : Str) : List ServiceMethod → Args
  | [] => .done last
  | m :: l => .named [] (m.name ++ chars% "Endpoint") (chars% ":    ") (.id (endpointVar m)) (chars% ",\n\t") (namedEndpoints last l)

/-- NAME.pb.baron.go.tmpl 270-292, for a package with a name. -/
def newGRPCClient (pkg : Str) (s : Service) : Func where
  pkg := chars% "pb"
  recv := none
  name := chars% "NewGRPCClient"
  params := [(chars% "conn", chars% "*grpc.ClientConn"), (chars% "options", chars% "...grpctransport.ClientOption")]
  results := [([], s.name ++ chars% "Server"), ([], chars% "error")]
  gap := chars% " "
  body := clientEndpoints pkg s.name
    (.ret (chars% "\n\t\t\n\t\n\n\t") (pair (chars% " ") (.lit (chars% "Endpoints") (.blank (chars% "\n\t") (namedEndpoints (chars% "\n\t") s.methods))) .nil) <|
    .done (chars% "\n")) s.methods

/-! ### The server and the service -/

def madeEndpoints : List ServiceMethod → Code
  | [] => .done (chars% "\n\t")
  | m :: l => .init [] (endpointVar m) (.call (chars% "pb.Make" ++ (m.name ++ chars% "Endpoint")) (single [] (.id (chars% "svc")))) (.blank (chars% "\n\t") (madeEndpoints l))

/-- server.go.tmpl 125-144. -/
def newEndpoints (s : Service) : Func where
  pkg := chars% "server"
  recv := none
  name := chars% "NewEndpoints"
  params := [(chars% "svc", chars% "pb." ++ (s.name ++ chars% "Server"))]
  results := [([], chars% "pb.Endpoints")]
  gap := chars% " "
  body :=
    .comment (chars% "\n\t") (chars% " Business domain") <|
    .assign (chars% "\n\t") (chars% "svc") (.call (chars% "service.WrapService") (single [] (.id (chars% "svc")))) <|
    .comment (chars% "\n\t") (chars% " Endpoint domain") <|
    .group (chars% "\n\t") (.blank (chars% "\n\t") (madeEndpoints s.methods)) <|
    .define (chars% "\n\n\t") (chars% "endpoints") [] (.lit (chars% "pb.Endpoints") (.blank (chars% "\n\t") (namedEndpoints (chars% "\n\t") s.methods))) <|
    .comment (chars% "\n\t") (chars% " Wrap selected Endpoints with middlewares") <|
    .assign (chars% "\n\t") (chars% "endpoints") (.call (chars% "service.WrapEndpoints") (single [] (.id (chars% "endpoints")))) <|
    .ret (chars% "\n\n\t") (single (chars% " ") (.id (chars% "endpoints"))) <|
    .done (chars% "\n")

/-- server/endpoints.go.tmpl 9-14. -/
def endpoints : Func where
  pkg := chars% "server"
  recv := none
  name := chars% "Endpoints"
  params := []
  results := [([], chars% "pb.Endpoints")]
  gap := chars% " "
  body :=
    .define (chars% "\n\t") (chars% "svc") [] (.call (chars% "service.NewService") (.done [])) <|
    .define (chars% "\n\t") (chars% "endpoints") [] (.call (chars% "NewEndpoints") (single [] (.id (chars% "svc")))) <|
    .ret (chars% "\n\n\t") (single (chars% " ") (.id (chars% "endpoints"))) <|
    .done (chars% "\n")

/-- service/wrapper.go.tmpl 33-35. -/
def wrapService (s : Service) : Func where
  pkg := chars% "service"
  recv := none
  name := chars% "WrapService"
  params := [(chars% "in", chars% "pb." ++ (s.name ++ chars% "Server"))]
  results := [([], chars% "pb." ++ (s.name ++ chars% "Server"))]
  gap := chars% " "
  body := .ret (chars% "\n\t") (single (chars% " ") (.id (chars% "in"))) <| .done (chars% "\n")

/-- service/wrapper.go.tmpl 13-31. -/
def wrapEndpoints : Func where
  pkg := chars% "service"
  recv := none
  name := chars% "WrapEndpoints"
  params := [(chars% "in", chars% "pb.Endpoints")]
  results := [([], chars% "pb.Endpoints")]
  gap := chars% " "
  body :=
    .comment (chars% "\n\n\t") (chars% " Pass a middleware you want applied to every endpoint.") <|
    .comment (chars% "\n\t") (chars% " optionally pass in endpoints by name that you want to be excluded") <|
    .comment (chars% "\n\t") (chars% " e.g.") <|
    .comment (chars% "\n\t") (chars% " in.WrapAllExcept(authMiddleware, \"Status\", \"Ping\")") <|
    .comment (chars% "\n\n\t") (chars% " Pass in a svc.LabeledMiddleware you want applied to every endpoint.") <|
    .comment (chars% "\n\t") (chars% " These middlewares get passed the endpoints name as their first argument when applied.") <|
    .comment (chars% "\n\t") (chars% " This can be used to write generic metric gathering middlewares that can") <|
    .comment (chars% "\n\t") (chars% " report the endpoint name for free.") <|
    .comment (chars% "\n\t") (chars% " github.com/teamlint/baron/_example/middlewares/labeledmiddlewares.go for examples.") <|
    .comment (chars% "\n\t") (chars% " in.WrapAllLabeledExcept(errorCounter(statsdCounter), \"Status\", \"Ping\")") <|
    .comment (chars% "\n\n\t") (chars% " How to apply a middleware to a single endpoint.") <|
    .comment (chars% "\n\t") (chars% " in.ExampleEndpoint = authMiddleware(in.ExampleEndpoint)") <|
    .ret (chars% "\n\n\t") (single (chars% " ") (.id (chars% "in"))) <|
    .done (chars% "\n")

/-- The type of the service. -/
def serviceType (s : Service) : Str := toLower s.name ++ chars% "Service"

/-- service/service.go.tmpl 9-11. -/
def newService (s : Service) : Func where
  pkg := chars% "service"
  recv := none
  name := chars% "NewService"
  params := []
  results := [([], star (serviceType s))]
  gap := chars% " "
  body := .ret (chars% "\n\t") (single (chars% " ") (.ref (serviceType s) (.done []))) <| .done (chars% "\n")

/-- service/service.go.tmpl 19-22. -/
def stubFunc (s : Service) (m : ServiceMethod) : Func where
  pkg := chars% "service"
  recv := some (chars% "s", star (serviceType s))
  name := m.name
  params := methodParams (chars% "in") (chars% "pb." ++ goType m.request)
  results := methodResults (chars% "pb." ++ goType m.response)
  gap := []
  body := .var (chars% "\n\t\t\t") (chars% "resp") (chars% "pb." ++ goType m.response) <|
    .ret (chars% "\n\t\t\t") (pair (chars% " ") (.addr (chars% "resp")) .nil) <| .done (chars% "\n\t\t")

/-! ### NATS -/

/-- The variable for the subscription of an rpc. -/
def subVar (m : ServiceMethod) : Str := toLower m.name ++ chars% "Sub"

def subscribeAll (service : Str) : List ServiceMethod → Code
  | [] => .ret (chars% "\n\t") (single (chars% " ") .nil) (.done (chars% "\n\n"))
  | m :: l =>
    .define (chars% "\n\t\t") (subVar m) [chars% "err"] (.method (chars% "conn") (chars% "QueueSubscribe")
      (.arg [] (.text (service ++ (chars% "." ++ m.name))) (chars% ",") <|
      .arg (chars% " ") (.text service) (chars% ",") <|
      .arg (chars% " ") (.method2 (chars% "srv") m.name (chars% "ServeMsg") (single [] (.id (chars% "conn")))) [] <|
      .done [])) <|
    .ifErr (chars% "\n\t\t") (.ret (chars% "\n\t\t\t") (single (chars% " ") (.id (chars% "err"))) (.done (chars% "\n\t\t"))) <|
    .discard (chars% "\n\t\t") (subVar m) <|
    .blank (chars% "\n\t") (subscribeAll service l)

/-- NAME.pb.baron.go.tmpl 721-732. -/
def serveNATS (s : Service) : Func where
  pkg := chars% "pb"
  recv := none
  name := chars% "ServeNATS"
  params := [(chars% "conn", chars% "*nats.Conn"), (chars% "srv", chars% "*natsServer")]
  results := [([], chars% "error")]
  gap := chars% " "
  body := .blank (chars% "\n") (subscribeAll s.name s.methods)

/-- The entry of an rpc in the NATS server (NAME.pb.baron.go.tmpl 743-749). -/
def subscriberArgs (m : ServiceMethod) : Args :=
  .arg (chars% "\n\t\t\t") (.sel (chars% "endpoints") (m.name ++ chars% "Endpoint")) (chars% ",") <|
  .arg (chars% "\n\t\t\t") (.id (chars% "DecodeNATS" ++ (m.name ++ chars% "Request"))) (chars% ",") <|
  .comment (chars% "\n\t\t\t") (chars% " EncodeNATS" ++ (m.name ++ chars% "Response,")) <|
  .arg (chars% "\n\t\t\t") (.id (chars% "EncodeNATSGenericResponse")) (chars% ",") <|
  .spread (chars% "\n\t\t\t") (chars% "serverOptions") (chars% ",") <|
  .done (chars% "\n\t\t")

def subscribers : List ServiceMethod → Args
  | [] => .done (chars% "\n\t")
  | m :: l => .named (chars% "\n\t\t") m.name (chars% ": ") (.call (chars% "natstransport.NewSubscriber") (subscriberArgs m)) (chars% ",") (subscribers l)

/-- NAME.pb.baron.go.tmpl 735-752. -/
def makeNATSServer (s : Service) : Func where
  pkg := chars% "pb"
  recv := none
  name := chars% "MakeNATSServer"
  params := [(chars% "endpoints", chars% "Endpoints"), (chars% "options", chars% "...natstransport.SubscriberOption")]
  results := [([], chars% "*natsServer")]
  gap := chars% " "
  body :=
    .define (chars% "\n\t") (chars% "serverOptions") [] (.slice (chars% "natstransport.SubscriberOption")
      (.comment (chars% "\n\t\t") (chars% " grpctransport.ServerBefore(GRPCMetadataToContext),") (.done (chars% "\n\t")))) <|
    .assign (chars% "\n\t") (chars% "serverOptions") (.call (chars% "append")
      (.arg [] (.id (chars% "serverOptions")) (chars% ",") (.spread (chars% " ") (chars% "options") [] (.done [])))) <|
    .comment (chars% "\n\t") (chars% " " ++ toLower s.name) <|
    .ret (chars% "\n\t") (single (chars% " ") (.ref (chars% "natsServer") (.blank (chars% "\n\t") (subscribers s.methods)))) <|
    .done (chars% "\n")

/-- A message of a type, read from the JSON in a NATS message. -/
def readJSON (var t : Str) : Code :=
  .var (chars% "\n\t") var t <|
  .unmarshal (chars% "\n\t") (chars% "msg") var (.ret (chars% "\n\t\t") (pair (chars% " ") .nil (.id (chars% "err"))) (.done (chars% "\n\t"))) <|
  .ret (chars% "\n\t") (pair (chars% " ") (.addr var) .nil) <|
  .done (chars% "\n")

/-- NAME.pb.baron.go.tmpl 763-769. -/
def decodeNATSRequest (m : ServiceMethod) : Func where
  pkg := chars% "pb"
  recv := none
  name := chars% "DecodeNATS" ++ (m.name ++ chars% "Request")
  params := [(chars% "ctx", chars% "context.Context"), (chars% "msg", chars% "*nats.Msg")]
  results := [([], chars% "interface{}"), ([], chars% "error")]
  gap := chars% " "
  body := readJSON (chars% "req") (goType m.request)

/-- NAME.pb.baron.go.tmpl 812-824. -/
def decodeNATSResponse (m : ServiceMethod) : Func where
  pkg := chars% "pb"
  recv := none
  name := chars% "DecodeNATS" ++ (m.name ++ chars% "Response")
  params := [(chars% "ctx", chars% "context.Context"), (chars% "msg", chars% "*nats.Msg ")]
  results := [([], chars% "interface{}"), ([], chars% "error")]
  gap := chars% " "
  body :=
    .comment (chars% "\n\t") (chars% " if err := json.Unmarshal(msg.Data, &errResponse); err != nil {") <|
    .comment (chars% "\n\t") (chars% " \treturn nil, err") <|
    .comment (chars% "\n\t") (chars% " }") <|
    .comment (chars% "\n\t") (chars% " if errResponse.Error != nil && errResponse.Error.Code == \"_internal_\" {") <|
    .comment (chars% "\n\t") (chars% " \treturn nil, errors.New(errResponse.Error.Message)") <|
    .comment (chars% "\n\t") (chars% " }") <|
    readJSON (chars% "resp") (goType m.response)

/-- NAME.pb.baron.go.tmpl 777-779. -/
def encodeNATSResponse : Func where
  pkg := chars% "pb"
  recv := none
  name := chars% "EncodeNATSGenericResponse"
  params := [(chars% "ctx", chars% "context.Context"), (chars% "reply", chars% "string"), (chars% "nc", chars% "*nats.Conn"), (chars% "response", chars% "interface{}")]
  results := [([], chars% "error")]
  gap := chars% " "
  body := .ret (chars% "\n\t") (single (chars% " ") (.call (chars% "natstransport.EncodeJSONResponse")
    (.arg [] (.id (chars% "ctx")) (chars% ",") <| .arg (chars% " ") (.id (chars% "reply")) (chars% ",") <|
    .arg (chars% " ") (.id (chars% "nc")) (chars% ",") <| .arg (chars% " ") (.id (chars% "response")) [] <| .done []))) <| .done (chars% "\n")

/-- NAME.pb.baron.go.tmpl 831-833. -/
def encodeNATSRequest : Func where
  pkg := chars% "pb"
  recv := none
  name := chars% "EncodeNATSGenericRequest"
  params := [(chars% "ctx", chars% "context.Context"), (chars% "msg", chars% "*nats.Msg"), (chars% "request", chars% "interface{}")]
  results := [([], chars% "error")]
  gap := chars% " "
  body := .ret (chars% "\n\t") (single (chars% " ") (.call (chars% "natstransport.EncodeJSONRequest")
    (.arg [] (.id (chars% "ctx")) (chars% ",") <| .arg (chars% " ") (.id (chars% "msg")) (chars% ",") <|
    .arg (chars% " ") (.id (chars% "request")) [] <| .done []))) <| .done (chars% "\n")

/-- NAME.pb.baron.go.tmpl 790-797. -/
def publisherArgs (service : Str) (m : ServiceMethod) : Args :=
  .arg (chars% "\n\t\t\t\t\t") (.id (chars% "conn")) (chars% ",") <|
  .arg (chars% "\n\t\t\t\t\t") (.text (service ++ (chars% "." ++ m.name))) (chars% ",") <|
  .arg (chars% "\n\t\t\t\t\t") (.id (chars% "EncodeNATSGenericRequest")) (chars% ",") <|
  .arg (chars% "\n\t\t\t\t\t") (.id (chars% "DecodeNATS" ++ (m.name ++ chars% "Response"))) (chars% ",") <|
  .spread (chars% "\n\t\t\t\t\t") (chars% "options") (chars% ",") <|
  .done (chars% "\n\t\t\t\t")

def publishers (service : Str) (rest : Code) : List ServiceMethod → Code
  | [] => rest
  | m :: l =>
    .var (chars% "\n\t\t\t") (endpointVar m) (chars% "endpoint.Endpoint") <|
    .block (chars% "\n\t\t\t") (.assign (chars% "\n\t\t\t\t") (endpointVar m)
      (.dot (.call (chars% "natstransport.NewPublisher") (publisherArgs service m)) (chars% "Endpoint")) (.done (chars% "\n\t\t\t"))) <|
    .blank (chars% "\n\t\t") (publishers service rest l)

/-- NAME.pb.baron.go.tmpl 785-806. -/
def newNATSClient (s : Service) : Func where
  pkg := chars% "pb"
  recv := none
  name := chars% "NewNATSClient"
  params := [(chars% "conn", chars% "*nats.Conn"), (chars% "options", chars% "...natstransport.PublisherOption")]
  results := [([], s.name ++ chars% "Server"), ([], chars% "error")]
  gap := chars% " "
  body := publishers s.name
    (.ret (chars% "\n\t\n\n\t") (pair (chars% " ") (.lit (chars% "Endpoints") (.blank (chars% "\n\t") (namedEndpoints (chars% "\n\t") s.methods))) .nil) <|
    .done (chars% "\n")) s.methods

/-! ### All of them -/

/-- The functions that every service has. -/
def commonFuncs (s : Service) : List (Str × Func) :=
  [("server/server.go.tmpl".toList, newEndpoints s), ("server/endpoints.go.tmpl".toList, endpoints),
    ("service/wrapper.go.tmpl".toList, wrapService s), ("service/wrapper.go.tmpl".toList, wrapEndpoints),
    ("service/service.go.tmpl".toList, newService s)] ++
  s.methods.flatMap fun m => [("baron/NAME.pb.baron.go.tmpl".toList, endpointFunc m), ("baron/NAME.pb.baron.go.tmpl".toList, makeEndpoint s.name m),
    ("service/service.go.tmpl".toList, stubFunc s m)]

/-- Those for gRPC, and for NATS. -/
def grpcFuncs (pkg : Str) (s : Service) : List Func :=
  [makeGRPCServer s, newGRPCClient pkg s] ++ s.methods.flatMap fun m => [grpcMethod m, decodeRequest m, encodeResponse m, decodeResponse m, encodeRequest m]

def natsFuncs (s : Service) : List Func :=
  [serveNATS s, makeNATSServer s, newNATSClient s, encodeNATSResponse, encodeNATSRequest] ++ s.methods.flatMap fun m => [decodeNATSRequest m, decodeNATSResponse m]

/-- The functions of a generated service that C99 and C100 are about, with the templates of the files that they are in. -/
def sources (pkg : Str) (s : Service) (cfg : TT.Config) : List (Str × Func) :=
  commonFuncs s ++ ((if TT.selected (chars% "grpc") cfg then grpcFuncs pkg s else []) ++ (if TT.selected (chars% "nats") cfg then natsFuncs s else [])).map
    fun f => ("baron/NAME.pb.baron.go.tmpl".toList, f)

def program (pkg : Str) (s : Service) (cfg : TT.Config) : Prog := (sources pkg s cfg).map (·.2)

/-! ## What calls come to -/

variable {M C E : Type}

/-- The messages of an rpc. -/
def requestType (m : ServiceMethod) : Str := chars% "pb." ++ goType m.request
def responseType (m : ServiceMethod) : Str := chars% "pb." ++ goType m.response

/-- What the caller of an rpc gets: the response, or nil and the error. -/
def answer (m : ServiceMethod) (a : Option M × Option E) : List (Val M C E) :=
  match a.2 with
  | none => [.msg (responseType m) a.1, .nil]
  | some e => [.nil, .error e]

/-- What a pointer to a message becomes on its way, if it can be sent. -/
def Carried (w : World M C E) (t : Str) (r : Option M) (q : M) : Prop := r = some q ∨ (r = none ∧ w.nilMessage t = .ok q)

/-- The error with which a pointer to a message is not sent. -/
def NotSent (w : World M C E) (t : Str) (r : Option M) (e : E) : Prop := r = none ∧ w.nilMessage t = .error e

/-- What the caller gets of it on the other side of a gRPC connection: the response, or nil and the status of the error. -/
def remoteAnswer (w : World M C E) (m : ServiceMethod) (a : Option M × Option E) : List (Val M C E) :=
  match a with
  | (_, some e) => [.nil, .error (w.status e)]
  | (some x, none) => [.msg (responseType m) (some x), .nil]
  | (none, none) => match w.nilMessage (responseType m) with
    | .ok x => [.msg (responseType m) (some x), .nil]
    | .error e => [.nil, .error (w.status e)]

/-- The context of a call after the options of the client. -/
def clientContext (w : World M C E) (os : List (Val M C E)) (c : C) : C := os.foldl (fun c o => w.option o c) c

/-- The context that an endpoint gets on a gRPC server: the metadata first, then the options of the server. -/
def serverContext (w : World M C E) (os : List (Val M C E)) (c : C) : C := os.foldl (fun c o => applyOption w o c) (w.metadata c)

/-- The service's interface, as protoc generates it. -/
def Implements (w : World M C E) (s : Service) : Prop := ∀ m ∈ s.methods, HTTP.look w.responses m.name = some (responseType m)

/-- The names in the service definition are identifiers, the Go names of the rpcs are the names in the definition, and no two rpcs differ
only in upper and lower case (what the generated code needs to compile, see C56 and C72). -/
structure Ordinary (pkg : Str) (s : Service) : Prop where
  camel : ∀ m ∈ s.methods, Strs.goCamelCase m.name = m.name
  lower : (s.methods.map fun m => toLower m.name).Nodup
  names : ∀ m ∈ s.methods, '.' ∉ m.name ∧ '.' ∉ goType m.request ∧ '.' ∉ goType m.response
  service : '.' ∉ s.name
  plain : TT.Plain pkg ∧ TT.Plain s.name ∧ ∀ m ∈ s.methods, TT.Plain m.name

/-! ### NATS -/

/-- The connection to the NATS server. -/
def connection : Val M C E := .lib natsConn []

/-- The subject of an rpc. -/
def subject (s : Service) (m : ServiceMethod) : Str := s.name ++ '.' :: m.name

/-- Subscriptions for rpcs in their order, up to the first one that is refused: the error of it, or nil, and what has happened then. -/
def subscribing (w : World M C E) (s : Service) (handler : ServiceMethod → Val M C E) : List ServiceMethod → Hist M C E → Val M C E × Hist M C E
  | [], h => (.nil, h)
  | m :: l, h => match w.refused h (subject s m) with
    | some e => (.error e, h)
    | none => subscribing w s handler l (h ++ [.subscribed (subject s m) s.name (handler m)])

/-- The context of an rpc over NATS. -/
def natsContext (w : World M C E) (os : List (Val M C E)) : C := os.foldl (fun c o => w.option o c) w.background

/-- What is sent back for an answer: the response in JSON, or the text of an error. -/
def natsBody (w : World M C E) (m : ServiceMethod) (a : Option M × Option E) : Str :=
  match a with
  | (_, some e) => w.errorBody e
  | (x, none) => match w.marshal (.msg (responseType m) x) with
    | .ok d => d
    | .error e => w.errorBody e

/-- What the caller gets of it: whatever it is, it is read as a response. -/
def readBack (w : World M C E) (m : ServiceMethod) (body : Str) : List (Val M C E) :=
  match w.unmarshal (responseType m) (w.empty (responseType m)) body with
  | (x, none) => [.msg (responseType m) (some x), .nil]
  | (_, some e) => [.nil, .error e]

/-- There is a subscription to a subject. -/
def Subscribed (subject : Str) (h : Hist M C E) : Prop := ∃ q f, Event.subscribed subject q f ∈ h

/-- A call comes to that, at every sufficient depth. -/
def Comes (w : World M C E) (p : Prog) {α : Type} (run : Calls M C E → Ans M C E α) (a : Ans M C E α) : Prop := ∃ N, ∀ n, N ≤ n → run (calls w p n) = a

end Baron.GoFunc
