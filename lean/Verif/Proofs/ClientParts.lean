import Verif.Proofs.Texts

/-!
# The template of the example client
-/

namespace Baron.TT

/-- The template of the example client. -/
def clientT : Tmpl :=
  .text (chars% "package main\n\nimport (\n\t\"context\"\n\t\"flag\"\n\t\"log\"\n\t")
  (.cond (.call3 (chars% "eq") (.dot [chars% "Config", chars% "Transport"]) (.str (chars% "all")) (.str (chars% "nats")))
    (.text (chars% "\n\t\"github.com/nats-io/nats.go\"\n\t")
    .nil)
    .nil
  (.text (chars% "\n\n\tpb \"")
  (.action (.dot [chars% "PBImportPath"])
  (.text (chars% "\"\n\t")
  (.cond (.call3 (chars% "eq") (.dot [chars% "Config", chars% "Transport"]) (.str (chars% "all")) (.str (chars% "grpc")))
    (.text (chars% "\n\t\"google.golang.org/grpc\"\n\t")
    .nil)
    .nil
  (.text (chars% "\n)\n\nvar (\n\tgrpcAddr string\n\thttpAddr string\n\tnatsAddr string\n)\n\nfunc init() {\n\tflag.StringVar(&grpcAddr, \"grpc.addr\", \":5040\", \"gRPC (HTTP) listen address\")\n\tflag.StringVar(&httpAddr, \"http.addr\", \":5050\", \"HTTP listen address\")\n\tflag.StringVar(&natsAddr, \"nats.addr\", \":4222\", \"NATS listen address\")\n}\n\nfunc main() {\n\tflag.Parse()\n\t")
  (.within (some (chars% "te")) (.dot [])
    (.text (chars% "\n\t")
    (.cond (.call3 (chars% "eq") (.var (chars% "te") [chars% "Config", chars% "Transport"]) (.str (chars% "all")) (.str (chars% "grpc")))
      (.text (chars% "\n\t// Baron GRPC Client\n\tlog.Println(\"[GRPC.")
      (.action (.var (chars% "te") [chars% "Service", chars% "Name"])
      (.text (chars% "]\")\n\tpln()\n\tconn, err := grpc.Dial(\n\t\tgrpcAddr,\n\t\tgrpc.WithInsecure(),\n\t\tgrpc.WithBlock(),\n\t)\n\tif err != nil {\n\t\tlog.Fatal(err)\n\t}\n\tdefer conn.Close()\n\tbaronGRPCClient, err := pb.NewGRPCClient(conn)\n\tif err != nil {\n\t\tlog.Fatal(err)\n\t}\n\t")
      (.range (some (chars% "i")) (.var (chars% "te") [chars% "Service", chars% "Methods"])
        (.text (chars% "\n\t// GRPC.")
        (.action (.var (chars% "te") [chars% "Service", chars% "Name"])
        (.text (chars% ".")
        (.action (.var (chars% "i") [chars% "Name"])
        (.text (chars% "\n\t{\n\t\tctx := context.Background()\n\t\tvar in pb.")
        (.action (.call1 (chars% "GoName") (.var (chars% "i") [chars% "RequestType", chars% "Name"]))
        (.text (chars% "\n\t\tout, err := baronGRPCClient.")
        (.action (.call1 (chars% "GoName") (.var (chars% "i") [chars% "Name"]))
        (.text (chars% "(ctx, &in)\n\t\tif err != nil {\n\t\t\tlog.Fatalf(\"[Baron.GRPCClient] ")
        (.action (.var (chars% "te") [chars% "Service", chars% "Name"])
        (.text (chars% ".")
        (.action (.call1 (chars% "GoName") (.var (chars% "i") [chars% "Name"]))
        (.text (chars% " err=%v\\n\", err)\n\t\t}\n\t\tlog.Printf(\"[Baron.GRPCClient] ")
        (.action (.var (chars% "te") [chars% "Service", chars% "Name"])
        (.text (chars% ".")
        (.action (.call1 (chars% "GoName") (.var (chars% "i") [chars% "Name"]))
        (.text (chars% " result=%+v\\n\", *out)\n\t\tpln()\n\t}\n\t")
        .nil)))))))))))))))))
      (.text (chars% "\n\t")
      .nil)))))
      .nil
    (.text (chars% "\n\n\t")
    (.cond (.var (chars% "te") [chars% "HTTPHelper", chars% "Methods"])
      (.text (chars% "\n\t// Baron HTTP Client\n\tlog.Println(\"[HTTP][")
      (.action (.var (chars% "te") [chars% "Service", chars% "Name"])
      (.text (chars% "]\")\n\tpln()\n\t")
      (.range (some (chars% "method")) (.var (chars% "te") [chars% "HTTPHelper", chars% "Methods"])
        (.text (chars% "\n\t// HTTP.")
        (.action (.var (chars% "te") [chars% "Service", chars% "Name"])
        (.text (chars% ".")
        (.action (.var (chars% "method") [chars% "Name"])
        (.text (chars% "\n\t{\n\t\tctx := context.Background()\n\t\tvar in pb.")
        (.action (.call1 (chars% "GoName") (.var (chars% "method") [chars% "RequestType"]))
        (.text (chars% "\n\t\tbaronHTTPClient, err := pb.NewHTTPClient(httpAddr)\n\t\tif err != nil {\n\t\t\tlog.Fatal(err)\n\t\t}\n\t\tout, err := baronHTTPClient.")
        (.action (.call1 (chars% "GoName") (.var (chars% "method") [chars% "Name"]))
        (.text (chars% "(ctx, &in)\n\t\tif err != nil {\n\t\t\tlog.Fatalf(\"[Baron.HTTPClient] ")
        (.action (.var (chars% "te") [chars% "Service", chars% "Name"])
        (.text (chars% ".")
        (.action (.call1 (chars% "GoName") (.var (chars% "method") [chars% "Name"]))
        (.text (chars% " err=%v\\n\", err)\n\t\t}\n\t\tlog.Printf(\"[Baron.HTTPClient] ")
        (.action (.var (chars% "te") [chars% "Service", chars% "Name"])
        (.text (chars% ".")
        (.action (.call1 (chars% "GoName") (.var (chars% "method") [chars% "Name"]))
        (.text (chars% " result=%+v\\n\", *out)\n\t\tpln()\n\t\t}\n\t")
        .nil)))))))))))))))))
      (.text (chars% "\n\t")
      .nil)))))
      .nil
    (.text (chars% "\n\n\t")
    (.cond (.call3 (chars% "eq") (.var (chars% "te") [chars% "Config", chars% "Transport"]) (.str (chars% "all")) (.str (chars% "nats")))
      (.text (chars% "\n\t// Baron NATS Client\n\tlog.Println(\"[NATS.")
      (.action (.var (chars% "te") [chars% "Service", chars% "Name"])
      (.text (chars% "]\")\n\tpln()\n\tnc, err := nats.Connect(natsAddr)\n\tif err != nil {\n\t\tlog.Fatal(err)\n\t}\n\tdefer nc.Close()\n\tbaronNATSClient, err := pb.NewNATSClient(nc)\n\tif err != nil {\n\t\tlog.Fatal(err)\n\t}\n\t")
      (.range (some (chars% "i")) (.var (chars% "te") [chars% "Service", chars% "Methods"])
        (.text (chars% "\n\t// NATS.")
        (.action (.var (chars% "te") [chars% "Service", chars% "Name"])
        (.text (chars% ".")
        (.action (.var (chars% "i") [chars% "Name"])
        (.text (chars% "\n\t{\n\t\tctx := context.Background()\n\t\tvar in pb.")
        (.action (.call1 (chars% "GoName") (.var (chars% "i") [chars% "RequestType", chars% "Name"]))
        (.text (chars% "\n\t\tout, err := baronNATSClient.")
        (.action (.call1 (chars% "GoName") (.var (chars% "i") [chars% "Name"]))
        (.text (chars% "(ctx, &in)\n\t\tif err != nil {\n\t\t\tlog.Fatalf(\"[Baron.NATSClient] ")
        (.action (.var (chars% "te") [chars% "Service", chars% "Name"])
        (.text (chars% ".")
        (.action (.call1 (chars% "GoName") (.var (chars% "i") [chars% "Name"]))
        (.text (chars% " err=%v\\n\", err)\n\t\t}\n\t\tlog.Printf(\"[Baron.NATSClient] ")
        (.action (.var (chars% "te") [chars% "Service", chars% "Name"])
        (.text (chars% ".")
        (.action (.call1 (chars% "GoName") (.var (chars% "i") [chars% "Name"]))
        (.text (chars% " result=%+v\\n\", *out)\n\t\tpln()\n\t}\n\t")
        .nil)))))))))))))))))
      (.text (chars% "\n\t")
      .nil)))))
      .nil
    (.text (chars% "\n\n\t")
    .nil)))))))
  (.text (chars% "\n}\nfunc pln() {\n\tlog.Println(\"---------------------------------------------------------------------------------\")\n}\n")
  .nil))))))))

theorem clientT_eq : (parse cmdClientSrc).map (fun t => t) = some clientT := by
  decide +kernel

end Baron.TT
