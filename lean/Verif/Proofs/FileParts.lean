import Verif.Proofs.Texts

/-!
# The parts of the templates of the service's files that the texts of C88 come from
-/

namespace Baron.TT

/-- The template of service.go. -/
def serviceT : Tmpl :=
  .text (chars% "package service\n\nimport (\n\t\"context\"\n\n\tpb \"")
  (.action (.dot [chars% "PBImportPath"])
  (.text (chars% "\"\n)\n\nfunc NewService() *")
  (.action (.call1 (chars% "ToLower") (.dot [chars% "Service", chars% "Name"]))
  (.text (chars% "Service {\n\treturn &")
  (.action (.call1 (chars% "ToLower") (.dot [chars% "Service", chars% "Name"]))
  (.text (chars% "Service{}\n}\n\ntype ")
  (.action (.call1 (chars% "ToLower") (.dot [chars% "Service", chars% "Name"]))
  (.text (chars% "Service struct {\n\tpb.Unimplemented")
  (.action (.dot [chars% "Service", chars% "Name"])
  (.text (chars% "Server\n}\n\n")
  (.within (some (chars% "te")) (.dot [])
    (.text (chars% "\n\t")
    (.range (some (chars% "i")) (.var (chars% "te") [chars% "Service", chars% "Methods"])
      (.text (chars% "\n\t\tfunc (s *")
      (.action (.call1 (chars% "ToLower") (.var (chars% "te") [chars% "Service", chars% "Name"]))
      (.text (chars% "Service) ")
      (.action (.var (chars% "i") [chars% "Name"])
      (.text (chars% "(ctx context.Context, in *pb.")
      (.action (.call1 (chars% "GoName") (.var (chars% "i") [chars% "RequestType", chars% "Name"]))
      (.text (chars% ") (*pb.")
      (.action (.call1 (chars% "GoName") (.var (chars% "i") [chars% "ResponseType", chars% "Name"]))
      (.text (chars% ", error){\n\t\t\tvar resp pb.")
      (.action (.call1 (chars% "GoName") (.var (chars% "i") [chars% "ResponseType", chars% "Name"]))
      (.text (chars% "\n\t\t\treturn &resp, nil\n\t\t}\n\t")
      .nil)))))))))))
    .nil))
  (.text (chars% "\n")
  .nil))))))))))))

theorem serviceT_eq : (parse serviceSrc).map (fun t => t) = some serviceT := by
  decide +kernel

/-- The template of missing methods. -/
def methodsT : Tmpl :=
  .within (some (chars% "t")) (.dot [])
    (.text (chars% "\n\t")
    (.range (some (chars% "i")) (.dot [chars% "Methods"])
      (.text (chars% "\n\t\tfunc (s *")
      (.action (.call1 (chars% "ToLower") (.var (chars% "t") [chars% "ServiceName"]))
      (.text (chars% "Service) ")
      (.action (.dot [chars% "Name"])
      (.text (chars% "(ctx context.Context, in *pb.")
      (.action (.call1 (chars% "GoName") (.dot [chars% "RequestType", chars% "Name"]))
      (.text (chars% ") (*pb.")
      (.action (.call1 (chars% "GoName") (.dot [chars% "ResponseType", chars% "Name"]))
      (.text (chars% ", error){\n\t\t\tvar resp pb.")
      (.action (.call1 (chars% "GoName") (.dot [chars% "ResponseType", chars% "Name"]))
      (.text (chars% "\n\t\t\treturn &resp, nil\n\t\t}\n\t")
      .nil)))))))))))
    .nil))
  (.text (chars% "\n")
  .nil)

theorem methodsT_eq : (parse serviceMethodsSrc).map (fun t => t) = some methodsT := by
  decide +kernel

/-- server.go from the HTTP server in `Run` on. -/
def runT : Tmpl :=
  .cond (.dot [chars% "HTTPHelper", chars% "Methods"])
    (.text (chars% "\n\t// HTTP transport\n\tif cfg.HTTPAddr != \"\" {\n\t\tgo func() {\n\t\t\tlog.Println(\"transport\", \"HTTP\", \"addr\", cfg.HTTPAddr)\n\t\t\th := pb.MakeHTTPHandler(endpoints, HTTPServerOptions()...)\n\t\t\terrc <- http.ListenAndServe(cfg.HTTPAddr, h)\n\t\t}()\n\t}\n\t")
    .nil)
    .nil
  (.text (chars% "\n\t")
  (.cond (.call3 (chars% "eq") (.dot [chars% "Config", chars% "Transport"]) (.str (chars% "all")) (.str (chars% "grpc")))
    (.text (chars% "\n\t// gRPC transport\n\tif cfg.GRPCAddr != \"\" {\n\t\tgo func() {\n\t\t\tlog.Println(\"transport\", \"gRPC\",\"addr\", cfg.GRPCAddr)\n\t\t\tln, err := net.Listen(\"tcp\", cfg.GRPCAddr)\n\t\t\tif err != nil {\n\t\t\t\terrc <- err\n\t\t\t\treturn\n\t\t\t}\n\n\t\t\tsrv := pb.MakeGRPCServer(endpoints, GRPCServerOptions()...)\n\t\t\ts := grpc.NewServer()\n\t\t\tpb.Register")
    (.action (.dot [chars% "Service", chars% "Name"])
    (.text (chars% "Server(s, srv)\n\n\t\t\terrc <- s.Serve(ln)\n\t\t}()\n\t}\n\t")
    .nil)))
    .nil
  (.text (chars% "\n\t")
  (.cond (.call3 (chars% "eq") (.dot [chars% "Config", chars% "Transport"]) (.str (chars% "all")) (.str (chars% "nats")))
    (.text (chars% "\n\t// NATS transport\n\tif cfg.NATSAddr != \"\" {\n\t\tgo func() {\n\t\t\tlog.Println(\"transport\", \"NATS\",\"addr\", cfg.NATSAddr)\n\t\t\tconn, err := nats.Connect(cfg.NATSAddr)\n\t\t\tif err != nil {\n\t\t\t\terrc <- err\n\t\t\t\treturn\n\t\t\t}\n\t\t\tcloseConn := func(c *nats.Conn) {\n\t\t\t\tc.Close()\n\t\t\t}\n\t\t\truntime.SetFinalizer(conn, closeConn)\n\n\t\t\tsrv := pb.MakeNATSServer(endpoints, NATSSubscriberOptions()...)\n\t\t\terr = pb.ServeNATS(conn, srv)\n\t\t\tif err != nil {\n\t\t\t\terrc <- err\n\t\t\t\treturn\n\t\t\t}\n\t\t}()\n\t}\n\t")
    .nil)
    .nil
  (.text (chars% "\n\n\t// Exit\n\tlog.Println(\"exit\", <-errc)\n}\n\nfunc NewEndpoints(svc pb.")
  (.action (.dot [chars% "Service", chars% "Name"])
  (.text (chars% "Server) pb.Endpoints {\n\t// Business domain\n\tsvc = service.WrapService(svc)\n\t// Endpoint domain\n\tvar (\n\t")
  (.range (some (chars% "i")) (.dot [chars% "Service", chars% "Methods"])
    (.action (.call1 (chars% "ToLower") (.var (chars% "i") [chars% "Name"]))
    (.text (chars% "Endpoint = pb.Make")
    (.action (.var (chars% "i") [chars% "Name"])
    (.text (chars% "Endpoint(svc)\n\t")
    .nil))))
  (.text (chars% "\n\t)\n\n\tendpoints := pb.Endpoints{\n\t")
  (.range (some (chars% "i")) (.dot [chars% "Service", chars% "Methods"])
    (.action (.var (chars% "i") [chars% "Name"])
    (.text (chars% "Endpoint:    ")
    (.action (.call1 (chars% "ToLower") (.var (chars% "i") [chars% "Name"]))
    (.text (chars% "Endpoint,\n\t")
    .nil))))
  (.text (chars% "\n\t}\n\t// Wrap selected Endpoints with middlewares\n\tendpoints = service.WrapEndpoints(endpoints)\n\n\treturn endpoints\n}\n")
  .nil)))))))))))

theorem runT_eq : (parse serverSrc).map (fun t => t.skip 13) = some runT := by
  decide +kernel

/-- The example client from the beginning of `main` on. -/
def callsT : Tmpl :=
  .text (chars% "\nfunc main() {\n\tflag.Parse()\n\t")
  (.within (some (chars% "te")) (.dot [])
    (.text (chars% "\n\t")
    (.cond (.call3 (chars% "eq") (.var (chars% "te") [chars% "Config", chars% "Transport"]) (.str (chars% "all")) (.str (chars% "grpc")))
      (.text (chars% "\n\t// Baron GRPC Client\n\tlog.Println(\"[GRPC.")
      (.action (.var (chars% "te") [chars% "Service", chars% "Name"])
      (.text (chars% "]\")\n\tpln()\n\tconn, err := grpc.Dial(\n\t\tgrpcAddr,\n\t\tgrpc.WithInsecure(),\n\t\tgrpc.WithBlock(),\n\t)\n\tif err != nil {\n\t\tlog.Fatal(err)\n\t}\n\tdefer conn.Close()\n\tbaronGRPCClient, err := pb.NewGRPCClient(conn)\n\tif err != nil {\n\t\tlog.Fatal(err)\n\t}\n\t")
      (.range (some (chars% "i")) (.var (chars% "te") [chars% "Service", chars% "Methods"])
        (.text (chars% "\n\t// GRPC.")
        (.action (.var (chars% "te") [chars% "Service", chars% "Name"])
        (.text (chars% ".")
        (.action (.var (chars% "i") [chars% "Name"])
        (.text (chars% "\n\t{\n\t\tctx := context.Background()\n\t\tvar in pb.")
        (.action (.call1 (chars% "GoName") (.var (chars% "i") [chars% "RequestType", chars% "Name"]))
        (.text (chars% "\n\t\tout, err := baronGRPCClient.")
        (.action (.call1 (chars% "GoName") (.var (chars% "i") [chars% "Name"]))
        (.text (chars% "(ctx, &in)\n\t\tif err != nil {\n\t\t\tlog.Fatalf(\"[Baron.GRPCClient] ")
        (.action (.var (chars% "te") [chars% "Service", chars% "Name"])
        (.text (chars% ".")
        (.action (.call1 (chars% "GoName") (.var (chars% "i") [chars% "Name"]))
        (.text (chars% " err=%v\\n\", err)\n\t\t}\n\t\tlog.Printf(\"[Baron.GRPCClient] ")
        (.action (.var (chars% "te") [chars% "Service", chars% "Name"])
        (.text (chars% ".")
        (.action (.call1 (chars% "GoName") (.var (chars% "i") [chars% "Name"]))
        (.text (chars% " result=%+v\\n\", *out)\n\t\tpln()\n\t}\n\t")
        .nil)))))))))))))))))
      (.text (chars% "\n\t")
      .nil)))))
      .nil
    (.text (chars% "\n\n\t")
    (.cond (.var (chars% "te") [chars% "HTTPHelper", chars% "Methods"])
      (.text (chars% "\n\t// Baron HTTP Client\n\tlog.Println(\"[HTTP][")
      (.action (.var (chars% "te") [chars% "Service", chars% "Name"])
      (.text (chars% "]\")\n\tpln()\n\t")
      (.range (some (chars% "method")) (.var (chars% "te") [chars% "HTTPHelper", chars% "Methods"])
        (.text (chars% "\n\t// HTTP.")
        (.action (.var (chars% "te") [chars% "Service", chars% "Name"])
        (.text (chars% ".")
        (.action (.var (chars% "method") [chars% "Name"])
        (.text (chars% "\n\t{\n\t\tctx := context.Background()\n\t\tvar in pb.")
        (.action (.call1 (chars% "GoName") (.var (chars% "method") [chars% "RequestType"]))
        (.text (chars% "\n\t\tbaronHTTPClient, err := pb.NewHTTPClient(httpAddr)\n\t\tif err != nil {\n\t\t\tlog.Fatal(err)\n\t\t}\n\t\tout, err := baronHTTPClient.")
        (.action (.call1 (chars% "GoName") (.var (chars% "method") [chars% "Name"]))
        (.text (chars% "(ctx, &in)\n\t\tif err != nil {\n\t\t\tlog.Fatalf(\"[Baron.HTTPClient] ")
        (.action (.var (chars% "te") [chars% "Service", chars% "Name"])
        (.text (chars% ".")
        (.action (.call1 (chars% "GoName") (.var (chars% "method") [chars% "Name"]))
        (.text (chars% " err=%v\\n\", err)\n\t\t}\n\t\tlog.Printf(\"[Baron.HTTPClient] ")
        (.action (.var (chars% "te") [chars% "Service", chars% "Name"])
        (.text (chars% ".")
        (.action (.call1 (chars% "GoName") (.var (chars% "method") [chars% "Name"]))
        (.text (chars% " result=%+v\\n\", *out)\n\t\tpln()\n\t\t}\n\t")
        .nil)))))))))))))))))
      (.text (chars% "\n\t")
      .nil)))))
      .nil
    (.text (chars% "\n\n\t")
    (.cond (.call3 (chars% "eq") (.var (chars% "te") [chars% "Config", chars% "Transport"]) (.str (chars% "all")) (.str (chars% "nats")))
      (.text (chars% "\n\t// Baron NATS Client\n\tlog.Println(\"[NATS.")
      (.action (.var (chars% "te") [chars% "Service", chars% "Name"])
      (.text (chars% "]\")\n\tpln()\n\tnc, err := nats.Connect(natsAddr)\n\tif err != nil {\n\t\tlog.Fatal(err)\n\t}\n\tdefer nc.Close()\n\tbaronNATSClient, err := pb.NewNATSClient(nc)\n\tif err != nil {\n\t\tlog.Fatal(err)\n\t}\n\t")
      (.range (some (chars% "i")) (.var (chars% "te") [chars% "Service", chars% "Methods"])
        (.text (chars% "\n\t// NATS.")
        (.action (.var (chars% "te") [chars% "Service", chars% "Name"])
        (.text (chars% ".")
        (.action (.var (chars% "i") [chars% "Name"])
        (.text (chars% "\n\t{\n\t\tctx := context.Background()\n\t\tvar in pb.")
        (.action (.call1 (chars% "GoName") (.var (chars% "i") [chars% "RequestType", chars% "Name"]))
        (.text (chars% "\n\t\tout, err := baronNATSClient.")
        (.action (.call1 (chars% "GoName") (.var (chars% "i") [chars% "Name"]))
        (.text (chars% "(ctx, &in)\n\t\tif err != nil {\n\t\t\tlog.Fatalf(\"[Baron.NATSClient] ")
        (.action (.var (chars% "te") [chars% "Service", chars% "Name"])
        (.text (chars% ".")
        (.action (.call1 (chars% "GoName") (.var (chars% "i") [chars% "Name"]))
        (.text (chars% " err=%v\\n\", err)\n\t\t}\n\t\tlog.Printf(\"[Baron.NATSClient] ")
        (.action (.var (chars% "te") [chars% "Service", chars% "Name"])
        (.text (chars% ".")
        (.action (.call1 (chars% "GoName") (.var (chars% "i") [chars% "Name"]))
        (.text (chars% " result=%+v\\n\", *out)\n\t\tpln()\n\t}\n\t")
        .nil)))))))))))))))))
      (.text (chars% "\n\t")
      .nil)))))
      .nil
    (.text (chars% "\n\n\t")
    .nil)))))))
  (.text (chars% "\n}\nfunc pln() {\n\tlog.Println(\"---------------------------------------------------------------------------------\")\n}\n")
  .nil))

theorem callsT_eq : (parse cmdClientSrc).map (fun t => (t.skip 6).chop 303) = some callsT := by
  decide +kernel

end Baron.TT
