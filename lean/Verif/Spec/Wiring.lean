import Verif.Spec.Texts

/-!
# The texts expected in the transport file for endpoints, gRPC and NATS
-/

namespace Baron.TT

open Baron.Svcdef Baron.HTTP

/-- The Go name of a message. -/
def goType (t : FieldType) : Str := Strs.goCamelCase t.name

/-! ## Endpoints -/

/-- The field of an rpc in the type `Endpoints`. -/
def endpointField (m : ServiceMethod) : Str := chars% "\n\t" ++ (m.name ++ chars% "Endpoint    endpoint.Endpoint\n")

/-- The method of an rpc of the type `Endpoints`: it runs the endpoint of that rpc, once. -/
def endpointMethod (m : ServiceMethod) : Str := [
  chars% "\nfunc (e Endpoints) ", m.name, chars% "(ctx context.Context, in *", goType m.request, chars% ") (*", goType m.response,
  chars% ", error) {\n\tresponse, err := e.", m.name,
  chars% "Endpoint(ctx, in)\n\tif err != nil {\n\t\treturn nil, err\n\t}\n\treturn response.(*", goType m.response,
  chars% "), nil\n}\n"].flatten

/-- The function that makes the endpoint of an rpc: it calls the method of that name, once. -/
def endpointMaker (service : Str) (m : ServiceMethod) : Str := [
  chars% "\nfunc Make", m.name, chars% "Endpoint(s ", service,
  chars% "Server) endpoint.Endpoint {\n\treturn func(ctx context.Context, request interface{}) (response interface{}, err error) {\n\t\treq := request.(*",
  goType m.request, chars% ")\n\t\tv, err := s.", m.name,
  chars% "(ctx, req)\n\t\tif err != nil {\n\t\t\treturn nil, err\n\t\t}\n\t\treturn v, nil\n\t}\n}"].flatten

def endpointsText (s : Service) : Str := [
  chars% "\n", s.methods.flatMap endpointField, chars% "\n}\n\n// Endpoints\n", s.methods.flatMap endpointMethod,
  chars% "\n\n// Make Endpoints\n", s.methods.flatMap (endpointMaker s.name), chars% "\n\n\n"].flatten

/-! ## gRPC -/

/-- The handler of an rpc in the gRPC server. -/
def grpcHandler (m : ServiceMethod) : Str := [
  chars% "\n\t\t", toLower m.name, chars% ": grpctransport.NewServer(\n\t\t\tendpoints.", m.name, chars% "Endpoint,\n\t\t\tDecodeGRPC",
  m.name, chars% "Request,\n\t\t\tEncodeGRPC", m.name, chars% "Response,\n\t\t\tserverOptions...,\n\t\t),"].flatten

def grpcServerText (s : Service) : Str := [
  chars% "\n\treturn &grpcServer{\n\t", s.methods.flatMap grpcHandler, chars% "\n\t}\n}\n\n"].flatten

/-- The method of an rpc of the gRPC server. -/
def grpcMethod (m : ServiceMethod) : Str := [
  chars% "\nfunc (s *grpcServer) ", Strs.goCamelCase m.name, chars% "(ctx context.Context, req *", goType m.request, chars% ") (*",
  goType m.response, chars% ", error) {\n\t_, rep, err := s.", toLower m.name,
  chars% ".ServeGRPC(ctx, req)\n\tif err != nil {\n\t\treturn nil, err\n\t}\n\treturn rep.(*", goType m.response, chars% "), nil\n}\n"].flatten

def grpcMethodsText (s : Service) : Str := [s.methods.flatMap grpcMethod, chars% "\n\n"].flatten

/-- The endpoint of an rpc in the gRPC client. -/
def grpcEndpoint (pkg service : Str) (m : ServiceMethod) : Str := [
  chars% "\n\tvar ", toLower m.name, chars% "Endpoint endpoint.Endpoint\n\t{\n\t\t", toLower m.name,
  chars% "Endpoint = grpctransport.NewClient(\n\t\t\tconn,\n\t\t\t\"", pkg, chars% ".", service, chars% "\",\n\t\t\t\"", m.name,
  chars% "\",\n\t\t\tEncodeGRPC", m.name, chars% "Request,\n\t\t\tDecodeGRPC", m.name, chars% "Response,\n\t\t\t", goType m.response,
  chars% "{},\n\t\t\toptions...,\n\t\t).Endpoint()\n\t}\n\t\t\t"].flatten

/-- An endpoint in the value that a client for gRPC or NATS returns. -/
def namedEndpoint (m : ServiceMethod) : Str := [m.name, chars% "Endpoint:    ", toLower m.name, chars% "Endpoint,\n\t"].flatten

def grpcClientText (pkg : Str) (s : Service) : Str := [
  chars% "Server, error) {", s.methods.flatMap (grpcEndpoint pkg s.name), chars% "\n\t\t\n\t\n\n\treturn Endpoints{\n\t",
  s.methods.flatMap namedEndpoint, chars% "\n\t}, nil\n}\n"].flatten

/-! ## NATS -/

/-- The subscription of an rpc. -/
def natsSubscription (service : Str) (m : ServiceMethod) : Str := [
  chars% "\n\t\t", toLower m.name, chars% "Sub, err := conn.QueueSubscribe(\"", service, chars% ".", m.name, chars% "\", \"", service,
  chars% "\", srv.", m.name, chars% ".ServeMsg(conn))\n\t\tif err != nil {\n\t\t\treturn err\n\t\t}\n\t\t_ = ", toLower m.name,
  chars% "Sub\n\t"].flatten

def natsServeText (s : Service) : Str := [
  chars% "\nfunc ServeNATS(conn *nats.Conn, srv *natsServer) error {\n", s.methods.flatMap (natsSubscription s.name),
  chars% "\n\treturn nil\n\n}\n"].flatten

/-- The subscriber of an rpc in the NATS server. -/
def natsSubscriber (m : ServiceMethod) : Str := [
  chars% "\n\t\t", m.name, chars% ": natstransport.NewSubscriber(\n\t\t\tendpoints.", m.name, chars% "Endpoint,\n\t\t\tDecodeNATS", m.name,
  chars% "Request,\n\t\t\t// EncodeNATS", m.name, chars% "Response,\n\t\t\tEncodeNATSGenericResponse,\n\t\t\tserverOptions...,\n\t\t),"].flatten

def natsServerText (s : Service) : Str := [
  chars% "\n\treturn &natsServer{\n\t", s.methods.flatMap natsSubscriber, chars% "\n\t}\n}\n\n"].flatten

/-- The decoder of an rpc in the NATS server. -/
def natsDecoder (m : ServiceMethod) : Str := [
  chars% "\nfunc DecodeNATS", m.name, chars% "Request(ctx context.Context, msg *nats.Msg) (interface{}, error) {\n\tvar req ",
  goType m.request,
  chars% "\n\tif err := json.Unmarshal(msg.Data, &req); err != nil {\n\t\treturn nil, err\n\t}\n\treturn &req, nil\n}\n"].flatten

def natsDecodersText (s : Service) : Str := [s.methods.flatMap natsDecoder, chars% "\n\n"].flatten

/-- The endpoint of an rpc in the NATS client. -/
def natsEndpoint (service : Str) (m : ServiceMethod) : Str := [
  chars% "\n\t\t\tvar ", toLower m.name, chars% "Endpoint endpoint.Endpoint\n\t\t\t{\n\t\t\t\t", toLower m.name,
  chars% "Endpoint = natstransport.NewPublisher(\n\t\t\t\t\tconn,\n\t\t\t\t\t\"", service, chars% ".", m.name,
  chars% "\",\n\t\t\t\t\tEncodeNATSGenericRequest,\n\t\t\t\t\tDecodeNATS", m.name,
  chars% "Response,\n\t\t\t\t\toptions...,\n\t\t\t\t).Endpoint()\n\t\t\t}\n\t\t"].flatten

def natsClientText (s : Service) : Str := [
  chars% "Server, error) {", s.methods.flatMap (natsEndpoint s.name), chars% "\n\t\n\n\treturn Endpoints{\n\t",
  s.methods.flatMap namedEndpoint, chars% "\n\t}, nil\n}\n"].flatten

end Baron.TT
