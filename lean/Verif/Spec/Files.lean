import Verif.Spec.Wiring

/-!
# The texts expected in the files of the service
-/

namespace Baron.TT

open Baron.Svcdef Baron.HTTP

/-- The transport `t` is generated with that `-t`. -/
def selected (t : Str) (c : Config) : Bool := c.transport = chars% "all" || c.transport = t

/-! ## service.go -/

/-- The method of an rpc, to be filled in by the user. -/
def stub (service : Str) (m : ServiceMethod) : Str := [
  chars% "\n\t\tfunc (s *", toLower service, chars% "Service) ", m.name, chars% "(ctx context.Context, in *pb.", goType m.request,
  chars% ") (*pb.", goType m.response, chars% ", error){\n\t\t\tvar resp pb.", goType m.response,
  chars% "\n\t\t\treturn &resp, nil\n\t\t}\n\t"].flatten

/-- A fresh service.go. -/
def serviceText (s : Service) (c : Config) : Str := [
  chars% "package service\n\nimport (\n\t\"context\"\n\n\tpb \"", c.pbPackage, chars% "\"\n)\n\nfunc NewService() *", toLower s.name,
  chars% "Service {\n\treturn &", toLower s.name, chars% "Service{}\n}\n\ntype ", toLower s.name,
  chars% "Service struct {\n\tpb.Unimplemented", s.name, chars% "Server\n}\n\n\n\t", s.methods.flatMap (stub s.name), chars% "\n"].flatten

/-- The methods added to an existing service.go. -/
def addedText (service : Str) (ms : List ServiceMethod) : Str := [chars% "\n\t", ms.flatMap (stub service), chars% "\n"].flatten

/-! ## server.go -/

def httpRun : Str :=
  chars% "\n\t// HTTP transport\n\tif cfg.HTTPAddr != \"\" {\n\t\tgo func() {\n\t\t\tlog.Println(\"transport\", \"HTTP\", \"addr\", cfg.HTTPAddr)\n\t\t\th := pb.MakeHTTPHandler(endpoints, HTTPServerOptions()...)\n\t\t\terrc <- http.ListenAndServe(cfg.HTTPAddr, h)\n\t\t}()\n\t}\n\t"

def grpcRun (service : Str) : Str :=
  chars% "\n\t// gRPC transport\n\tif cfg.GRPCAddr != \"\" {\n\t\tgo func() {\n\t\t\tlog.Println(\"transport\", \"gRPC\",\"addr\", cfg.GRPCAddr)\n\t\t\tln, err := net.Listen(\"tcp\", cfg.GRPCAddr)\n\t\t\tif err != nil {\n\t\t\t\terrc <- err\n\t\t\t\treturn\n\t\t\t}\n\n\t\t\tsrv := pb.MakeGRPCServer(endpoints, GRPCServerOptions()...)\n\t\t\ts := grpc.NewServer()\n\t\t\tpb.Register" ++
  (service ++ chars% "Server(s, srv)\n\n\t\t\terrc <- s.Serve(ln)\n\t\t}()\n\t}\n\t")

def natsRun : Str :=
  chars% "\n\t// NATS transport\n\tif cfg.NATSAddr != \"\" {\n\t\tgo func() {\n\t\t\tlog.Println(\"transport\", \"NATS\",\"addr\", cfg.NATSAddr)\n\t\t\tconn, err := nats.Connect(cfg.NATSAddr)\n\t\t\tif err != nil {\n\t\t\t\terrc <- err\n\t\t\t\treturn\n\t\t\t}\n\t\t\tcloseConn := func(c *nats.Conn) {\n\t\t\t\tc.Close()\n\t\t\t}\n\t\t\truntime.SetFinalizer(conn, closeConn)\n\n\t\t\tsrv := pb.MakeNATSServer(endpoints, NATSSubscriberOptions()...)\n\t\t\terr = pb.ServeNATS(conn, srv)\n\t\t\tif err != nil {\n\t\t\t\terrc <- err\n\t\t\t\treturn\n\t\t\t}\n\t\t}()\n\t}\n\t"

/-- The end of server.go: the rest of `Run` with the servers that are started, and `NewEndpoints`. -/
def serverText (s : Service) (c : Config) : Str := [
  if httpRpcs s = [] then [] else httpRun, chars% "\n\t", if selected (chars% "grpc") c then grpcRun s.name else [], chars% "\n\t",
  if selected (chars% "nats") c then natsRun else [],
  chars% "\n\n\t// Exit\n\tlog.Println(\"exit\", <-errc)\n}\n\nfunc NewEndpoints(svc pb.", s.name,
  chars% "Server) pb.Endpoints {\n\t// Business domain\n\tsvc = service.WrapService(svc)\n\t// Endpoint domain\n\tvar (\n\t",
  s.methods.flatMap (fun m => [toLower m.name, chars% "Endpoint = pb.Make", m.name, chars% "Endpoint(svc)\n\t"].flatten),
  chars% "\n\t)\n\n\tendpoints := pb.Endpoints{\n\t", s.methods.flatMap namedEndpoint,
  chars% "\n\t}\n\t// Wrap selected Endpoints with middlewares\n\tendpoints = service.WrapEndpoints(endpoints)\n\n\treturn endpoints\n}\n"].flatten

/-! ## The example client -/

/-- The calls of an rpc with one of the clients, named `kind`. -/
def call (kind service : Str) (m : ServiceMethod) : Str := [
  chars% "\n\t// ", kind, chars% ".", service, chars% ".", m.name, chars% "\n\t{\n\t\tctx := context.Background()\n\t\tvar in pb.",
  goType m.request, chars% "\n\t\tout, err := baron", kind, chars% "Client.", Strs.goCamelCase m.name,
  chars% "(ctx, &in)\n\t\tif err != nil {\n\t\t\tlog.Fatalf(\"[Baron.", kind, chars% "Client] ", service, chars% ".", Strs.goCamelCase m.name,
  chars% " err=%v\\n\", err)\n\t\t}\n\t\tlog.Printf(\"[Baron.", kind, chars% "Client] ", service, chars% ".", Strs.goCamelCase m.name,
  chars% " result=%+v\\n\", *out)\n\t\tpln()\n\t}\n\t"].flatten

/-- The call of an rpc over HTTP, with a client of its own. -/
def httpCall (service : Str) (m : ServiceMethod) : Str := [
  chars% "\n\t// HTTP.", service, chars% ".", m.name, chars% "\n\t{\n\t\tctx := context.Background()\n\t\tvar in pb.", goType m.request,
  chars% "\n\t\tbaronHTTPClient, err := pb.NewHTTPClient(httpAddr)\n\t\tif err != nil {\n\t\t\tlog.Fatal(err)\n\t\t}\n\t\tout, err := baronHTTPClient.",
  Strs.goCamelCase m.name, chars% "(ctx, &in)\n\t\tif err != nil {\n\t\t\tlog.Fatalf(\"[Baron.HTTPClient] ", service, chars% ".",
  Strs.goCamelCase m.name, chars% " err=%v\\n\", err)\n\t\t}\n\t\tlog.Printf(\"[Baron.HTTPClient] ", service, chars% ".",
  Strs.goCamelCase m.name, chars% " result=%+v\\n\", *out)\n\t\tpln()\n\t\t}\n\t"].flatten

def grpcCalls (s : Service) : Str := [
  chars% "\n\t// Baron GRPC Client\n\tlog.Println(\"[GRPC.", s.name,
  chars% "]\")\n\tpln()\n\tconn, err := grpc.Dial(\n\t\tgrpcAddr,\n\t\tgrpc.WithInsecure(),\n\t\tgrpc.WithBlock(),\n\t)\n\tif err != nil {\n\t\tlog.Fatal(err)\n\t}\n\tdefer conn.Close()\n\tbaronGRPCClient, err := pb.NewGRPCClient(conn)\n\tif err != nil {\n\t\tlog.Fatal(err)\n\t}\n\t",
  s.methods.flatMap (call (chars% "GRPC") s.name), chars% "\n\t"].flatten

def httpCalls (s : Service) : Str := [
  chars% "\n\t// Baron HTTP Client\n\tlog.Println(\"[HTTP][", s.name, chars% "]\")\n\tpln()\n\t", (httpRpcs s).flatMap (httpCall s.name),
  chars% "\n\t"].flatten

def natsCalls (s : Service) : Str := [
  chars% "\n\t// Baron NATS Client\n\tlog.Println(\"[NATS.", s.name,
  chars% "]\")\n\tpln()\n\tnc, err := nats.Connect(natsAddr)\n\tif err != nil {\n\t\tlog.Fatal(err)\n\t}\n\tdefer nc.Close()\n\tbaronNATSClient, err := pb.NewNATSClient(nc)\n\tif err != nil {\n\t\tlog.Fatal(err)\n\t}\n\t",
  s.methods.flatMap (call (chars% "NATS") s.name), chars% "\n\t"].flatten

/-- The end of the example client's main.go, from the beginning of `main`. -/
def callsText (s : Service) (c : Config) : Str := [
  chars% "\nfunc main() {\n\tflag.Parse()\n\t\n\t", if selected (chars% "grpc") c then grpcCalls s else [], chars% "\n\n\t",
  if httpRpcs s = [] then [] else httpCalls s, chars% "\n\n\t", if selected (chars% "nats") c then natsCalls s else [],
  chars% "\n\n\t\n}\nfunc pln() {\n\tlog.Println(\"---------------------------------------------------------------------------------\")\n}\n"].flatten

end Baron.TT
