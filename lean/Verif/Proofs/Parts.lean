import Verif.Proofs.Texts

/-!
# The parts of the transport template that the texts of C86 and C87 come from
-/

namespace Baron.TT

/-- The statements of `MakeHTTPHandler` from the creation of the router. -/
def routesT : Tmpl :=
  .text (chars% "\n\tm := mux.NewRouter()\n\n\t")
  (.range (some (chars% "method")) (.dot [chars% "HTTPHelper", chars% "Methods"])
    (.text (chars% "\n\t\t")
    (.range (some (chars% "binding")) (.var (chars% "method") [chars% "Bindings"])
      (.text (chars% "\n\t\t\tm.Methods(\"")
      (.action (.call1 (chars% "ToUpper") (.var (chars% "binding") [chars% "Verb"]))
      (.text (chars% "\").Path(\"")
      (.action (.var (chars% "binding") [chars% "PathTemplate"])
      (.text (chars% "\").Handler(httptransport.NewServer(\n\t\t\t\tendpoints.")
      (.action (.var (chars% "method") [chars% "Name"])
      (.text (chars% "Endpoint,\n\t\t\t\tDecodeHTTP")
      (.action (.var (chars% "binding") [chars% "Label"])
      (.text (chars% "Request,\n\t\t\t\tEncodeHTTPGenericResponse,\n\t\t\t\tserverOptions...,\n\t\t\t))")
      .nil)))))))))
    .nil))
  (.text (chars% "\n\treturn m\n}\n")
  .nil))

/-- `NewHTTPClient` after the instance has been read. -/
def clientsT : Tmpl :=
  .text (chars% "\n\t_ = u\n\n\t")
  (.cond (.call1 (chars% "not") (.dot [chars% "HTTPHelper", chars% "Methods"]))
    (.text (chars% "panic(\"No HTTP Endpoints, this client will not work, define bindings in your proto definition\")")
    .nil)
    .nil
  (.text (chars% "\n\n\t")
  (.range (some (chars% "method")) (.dot [chars% "HTTPHelper", chars% "Methods"])
    (.text (chars% "\n\t\t")
    (.cond (.var (chars% "method") [chars% "Bindings"])
      (.within (some (chars% "binding")) (.call2 (chars% "index") (.var (chars% "method") [chars% "Bindings"]) (.num 0))
        (.text (chars% "var ")
        (.action (.var (chars% "binding") [chars% "Label"])
        (.text (chars% "Endpoint endpoint.Endpoint\n\t\t\t\t{\n\t\t\t\t\t")
        (.action (.var (chars% "binding") [chars% "Label"])
        (.text (chars% "Endpoint = httptransport.NewClient(\n\t\t\t\t\t\t\"")
        (.action (.call1 (chars% "ToUpper") (.var (chars% "binding") [chars% "Verb"]))
        (.text (chars% "\",\n\t\t\t\t\t\tcopyURL(u, \"")
        (.action (.var (chars% "binding") [chars% "BasePath"])
        (.text (chars% "\"),\n\t\t\t\t\t\tEncodeHTTP")
        (.action (.var (chars% "binding") [chars% "Label"])
        (.text (chars% "Request,\n\t\t\t\t\t\tDecodeHTTP")
        (.action (.var (chars% "method") [chars% "Name"])
        (.text (chars% "Response,\n\t\t\t\t\t\toptions...,\n\t\t\t\t\t).Endpoint()\n\t\t\t\t}")
        .nil)))))))))))))
      .nil)
      .nil
    .nil))
  (.text (chars% "\n\n\treturn Endpoints{\n\t")
  (.range (some (chars% "method")) (.dot [chars% "HTTPHelper", chars% "Methods"])
    (.cond (.var (chars% "method") [chars% "Bindings"])
      (.within (some (chars% "binding")) (.call2 (chars% "index") (.var (chars% "method") [chars% "Bindings"]) (.num 0))
        (.action (.var (chars% "method") [chars% "Name"])
        (.text (chars% "Endpoint:    ")
        (.action (.var (chars% "binding") [chars% "Label"])
        (.text (chars% "Endpoint,\n\t\t\t")
        .nil))))
      .nil)
      .nil
    .nil)
  (.text (chars% "\n\t}, nil\n}\n")
  .nil))))))

/-- The beginning of the encoder of a binding. -/
def encoderT : Tmpl :=
  .text (chars% "func EncodeHTTP")
  (.action (.var (chars% "binding") [chars% "Label"])
  (.text (chars% "Request(_ context.Context, r *http.Request, request interface{}) error {\n\t\tstrval := \"\"\n\t\t_ = strval\n\t\treq := request.(*")
  (.action (.call1 (chars% "GoName") (.var (chars% "binding") [chars% "Parent", chars% "RequestType"]))
  (.text (chars% ")\n\t\t_ = req\n\n\t\tr.Header.Set(\"transport\", \"HTTPJSON\")\n\t\tr.Header.Set(\"request-url\", r.URL.Path)\n\n\t\t// Set the path parameters\n\t\tpath := strings.Join([]string{")
  (.range (some (chars% "section")) (.var (chars% "binding") [chars% "PathSections"])
    (.text (chars% "\n\t\t\t")
    (.action (.var (chars% "section") [])
    (.text (chars% ",")
    .nil)))
  (.text (chars% "\n\t\t}, \"/\")\n")
  .nil))))))

/-- The type `Endpoints` from its second field on, its methods, and the functions that make endpoints. -/
def endpointsT : Tmpl :=
  .text (chars% "\n")
  (.range (some (chars% "i")) (.dot [chars% "Service", chars% "Methods"])
    (.text (chars% "\n\t")
    (.action (.var (chars% "i") [chars% "Name"])
    (.text (chars% "Endpoint    endpoint.Endpoint\n")
    .nil)))
  (.text (chars% "\n}\n\n// Endpoints\n")
  (.range (some (chars% "i")) (.dot [chars% "Service", chars% "Methods"])
    (.text (chars% "\nfunc (e Endpoints) ")
    (.action (.var (chars% "i") [chars% "Name"])
    (.text (chars% "(ctx context.Context, in *")
    (.action (.call1 (chars% "GoName") (.var (chars% "i") [chars% "RequestType", chars% "Name"]))
    (.text (chars% ") (*")
    (.action (.call1 (chars% "GoName") (.var (chars% "i") [chars% "ResponseType", chars% "Name"]))
    (.text (chars% ", error) {\n\tresponse, err := e.")
    (.action (.var (chars% "i") [chars% "Name"])
    (.text (chars% "Endpoint(ctx, in)\n\tif err != nil {\n\t\treturn nil, err\n\t}\n\treturn response.(*")
    (.action (.call1 (chars% "GoName") (.var (chars% "i") [chars% "ResponseType", chars% "Name"]))
    (.text (chars% "), nil\n}\n")
    .nil)))))))))))
  (.text (chars% "\n\n// Make Endpoints\n")
  (.within (some (chars% "te")) (.dot [])
    (.range (some (chars% "i")) (.var (chars% "te") [chars% "Service", chars% "Methods"])
      (.text (chars% "\nfunc Make")
      (.action (.var (chars% "i") [chars% "Name"])
      (.text (chars% "Endpoint(s ")
      (.action (.var (chars% "te") [chars% "Service", chars% "Name"])
      (.text (chars% "Server) endpoint.Endpoint {\n\treturn func(ctx context.Context, request interface{}) (response interface{}, err error) {\n\t\treq := request.(*")
      (.action (.call1 (chars% "GoName") (.var (chars% "i") [chars% "RequestType", chars% "Name"]))
      (.text (chars% ")\n\t\tv, err := s.")
      (.action (.var (chars% "i") [chars% "Name"])
      (.text (chars% "(ctx, req)\n\t\tif err != nil {\n\t\t\treturn nil, err\n\t\t}\n\t\treturn v, nil\n\t}\n}")
      .nil)))))))))
    (.text (chars% "\n")
    .nil))
  (.text (chars% "\n\n")
  .nil))))))

/-- The value `MakeGRPCServer` returns. -/
def grpcServerT : Tmpl :=
  .text (chars% "\n\treturn &grpcServer{\n\t")
  (.range (some (chars% "i")) (.dot [chars% "Service", chars% "Methods"])
    (.text (chars% "\n\t\t")
    (.action (.call1 (chars% "ToLower") (.var (chars% "i") [chars% "Name"]))
    (.text (chars% ": grpctransport.NewServer(\n\t\t\tendpoints.")
    (.action (.var (chars% "i") [chars% "Name"])
    (.text (chars% "Endpoint,\n\t\t\tDecodeGRPC")
    (.action (.var (chars% "i") [chars% "Name"])
    (.text (chars% "Request,\n\t\t\tEncodeGRPC")
    (.action (.var (chars% "i") [chars% "Name"])
    (.text (chars% "Response,\n\t\t\tserverOptions...,\n\t\t),")
    .nil)))))))))
  (.text (chars% "\n\t}\n}\n\n")
  .nil))

/-- The methods of the gRPC server. -/
def grpcMethodsT : Tmpl :=
  .range (some (chars% "i")) (.dot [chars% "Service", chars% "Methods"])
    (.text (chars% "\nfunc (s *grpcServer) ")
    (.action (.call1 (chars% "GoName") (.var (chars% "i") [chars% "Name"]))
    (.text (chars% "(ctx context.Context, req *")
    (.action (.call1 (chars% "GoName") (.var (chars% "i") [chars% "RequestType", chars% "Name"]))
    (.text (chars% ") (*")
    (.action (.call1 (chars% "GoName") (.var (chars% "i") [chars% "ResponseType", chars% "Name"]))
    (.text (chars% ", error) {\n\t_, rep, err := s.")
    (.action (.call1 (chars% "ToLower") (.var (chars% "i") [chars% "Name"]))
    (.text (chars% ".ServeGRPC(ctx, req)\n\tif err != nil {\n\t\treturn nil, err\n\t}\n\treturn rep.(*")
    (.action (.call1 (chars% "GoName") (.var (chars% "i") [chars% "ResponseType", chars% "Name"]))
    (.text (chars% "), nil\n}\n")
    .nil)))))))))))
  (.text (chars% "\n\n")
  .nil)

/-- `NewGRPCClient`. -/
def grpcClientT : Tmpl :=
  .text (chars% "Server, error) {")
  (.within (some (chars% "te")) (.dot [])
    (.within (some (chars% "pkgName")) (.var (chars% "te") [chars% "PackageName"])
      (.range (some (chars% "i")) (.var (chars% "te") [chars% "Service", chars% "Methods"])
        (.text (chars% "\n\tvar ")
        (.action (.call1 (chars% "ToLower") (.var (chars% "i") [chars% "Name"]))
        (.text (chars% "Endpoint endpoint.Endpoint\n\t{\n\t\t")
        (.action (.call1 (chars% "ToLower") (.var (chars% "i") [chars% "Name"]))
        (.text (chars% "Endpoint = grpctransport.NewClient(\n\t\t\tconn,\n\t\t\t\"")
        (.action (.var (chars% "pkgName") [])
        (.text (chars% ".")
        (.action (.var (chars% "te") [chars% "Service", chars% "Name"])
        (.text (chars% "\",\n\t\t\t\"")
        (.action (.var (chars% "i") [chars% "Name"])
        (.text (chars% "\",\n\t\t\tEncodeGRPC")
        (.action (.var (chars% "i") [chars% "Name"])
        (.text (chars% "Request,\n\t\t\tDecodeGRPC")
        (.action (.var (chars% "i") [chars% "Name"])
        (.text (chars% "Response,\n\t\t\t")
        (.action (.call1 (chars% "GoName") (.var (chars% "i") [chars% "ResponseType", chars% "Name"]))
        (.text (chars% "{},\n\t\t\toptions...,\n\t\t).Endpoint()\n\t}\n\t\t\t")
        .nil)))))))))))))))))
      (.text (chars% "\n\t\t")
      .nil))
    (.text (chars% "\n\t")
    .nil))
  (.text (chars% "\n\n\treturn Endpoints{\n\t")
  (.range (some (chars% "i")) (.dot [chars% "Service", chars% "Methods"])
    (.action (.var (chars% "i") [chars% "Name"])
    (.text (chars% "Endpoint:    ")
    (.action (.call1 (chars% "ToLower") (.var (chars% "i") [chars% "Name"]))
    (.text (chars% "Endpoint,\n\t")
    .nil))))
  (.text (chars% "\n\t}, nil\n}\n")
  .nil))))

/-- `ServeNATS`. -/
def natsServeT : Tmpl :=
  .text (chars% "\nfunc ServeNATS(conn *nats.Conn, srv *natsServer) error {\n")
  (.within (some (chars% "te")) (.dot [])
    (.range (some (chars% "i")) (.var (chars% "te") [chars% "Service", chars% "Methods"])
      (.text (chars% "\n\t\t")
      (.action (.call1 (chars% "ToLower") (.var (chars% "i") [chars% "Name"]))
      (.text (chars% "Sub, err := conn.QueueSubscribe(\"")
      (.action (.var (chars% "te") [chars% "Service", chars% "Name"])
      (.text (chars% ".")
      (.action (.var (chars% "i") [chars% "Name"])
      (.text (chars% "\", \"")
      (.action (.var (chars% "te") [chars% "Service", chars% "Name"])
      (.text (chars% "\", srv.")
      (.action (.var (chars% "i") [chars% "Name"])
      (.text (chars% ".ServeMsg(conn))\n\t\tif err != nil {\n\t\t\treturn err\n\t\t}\n\t\t_ = ")
      (.action (.call1 (chars% "ToLower") (.var (chars% "i") [chars% "Name"]))
      (.text (chars% "Sub\n\t")
      .nil)))))))))))))
    (.text (chars% "\n\treturn nil\n")
    .nil))
  (.text (chars% "\n}\n")
  .nil))

/-- The value `MakeNATSServer` returns. -/
def natsServerT : Tmpl :=
  .text (chars% "\n\treturn &natsServer{\n\t")
  (.range (some (chars% "i")) (.dot [chars% "Service", chars% "Methods"])
    (.text (chars% "\n\t\t")
    (.action (.var (chars% "i") [chars% "Name"])
    (.text (chars% ": natstransport.NewSubscriber(\n\t\t\tendpoints.")
    (.action (.var (chars% "i") [chars% "Name"])
    (.text (chars% "Endpoint,\n\t\t\tDecodeNATS")
    (.action (.var (chars% "i") [chars% "Name"])
    (.text (chars% "Request,\n\t\t\t// EncodeNATS")
    (.action (.var (chars% "i") [chars% "Name"])
    (.text (chars% "Response,\n\t\t\tEncodeNATSGenericResponse,\n\t\t\tserverOptions...,\n\t\t),")
    .nil)))))))))
  (.text (chars% "\n\t}\n}\n\n")
  .nil))

/-- The decoders of the NATS server. -/
def natsDecodersT : Tmpl :=
  .range (some (chars% "i")) (.dot [chars% "Service", chars% "Methods"])
    (.text (chars% "\nfunc DecodeNATS")
    (.action (.dot [chars% "Name"])
    (.text (chars% "Request(ctx context.Context, msg *nats.Msg) (interface{}, error) {\n\tvar req ")
    (.action (.call1 (chars% "GoName") (.var (chars% "i") [chars% "RequestType", chars% "Name"]))
    (.text (chars% "\n\tif err := json.Unmarshal(msg.Data, &req); err != nil {\n\t\treturn nil, err\n\t}\n\treturn &req, nil\n}\n")
    .nil)))))
  (.text (chars% "\n\n")
  .nil)

/-- `NewNATSClient`. -/
def natsClientT : Tmpl :=
  .text (chars% "Server, error) {")
  (.within (some (chars% "te")) (.dot [])
    (.range (some (chars% "i")) (.var (chars% "te") [chars% "Service", chars% "Methods"])
      (.text (chars% "\n\t\t\tvar ")
      (.action (.call1 (chars% "ToLower") (.var (chars% "i") [chars% "Name"]))
      (.text (chars% "Endpoint endpoint.Endpoint\n\t\t\t{\n\t\t\t\t")
      (.action (.call1 (chars% "ToLower") (.var (chars% "i") [chars% "Name"]))
      (.text (chars% "Endpoint = natstransport.NewPublisher(\n\t\t\t\t\tconn,\n\t\t\t\t\t\"")
      (.action (.var (chars% "te") [chars% "Service", chars% "Name"])
      (.text (chars% ".")
      (.action (.var (chars% "i") [chars% "Name"])
      (.text (chars% "\",\n\t\t\t\t\tEncodeNATSGenericRequest,\n\t\t\t\t\tDecodeNATS")
      (.action (.var (chars% "i") [chars% "Name"])
      (.text (chars% "Response,\n\t\t\t\t\toptions...,\n\t\t\t\t).Endpoint()\n\t\t\t}\n\t\t")
      .nil)))))))))))
    (.text (chars% "\n\t")
    .nil))
  (.text (chars% "\n\n\treturn Endpoints{\n\t")
  (.range (some (chars% "i")) (.dot [chars% "Service", chars% "Methods"])
    (.action (.var (chars% "i") [chars% "Name"])
    (.text (chars% "Endpoint:    ")
    (.action (.call1 (chars% "ToLower") (.var (chars% "i") [chars% "Name"]))
    (.text (chars% "Endpoint,\n\t")
    .nil))))
  (.text (chars% "\n\t}, nil\n}\n")
  .nil))))

/-- These are parts of the template. -/
theorem parts : (parse baronSrc).map (fun t => [
  t.part 33 0 2 13,
  t.part 39 165 6 11,
  ((t.skip 48).body.skip 1).body.part 4 85 6 11,
  t.part 15 6 6 2,
  (t.skip 30).body.part 6 0 2 7,
  (t.skip 30).body.part 17 0 1 2,
  (t.skip 30).body.part 24 0 4 11,
  (t.skip 50).body.part 0 110 2 3,
  (t.skip 50).body.part 6 0 2 7,
  (t.skip 50).body.part 13 0 1 2,
  (t.skip 50).body.part 16 0 4 11]) = some [
  routesT, clientsT, encoderT, endpointsT, grpcServerT, grpcMethodsT, grpcClientT, natsServeT, natsServerT, natsDecodersT, natsClientT] := by
  decide +kernel

/-- The template has these parts. -/
structure Parts (t : Tmpl) : Prop where
  routesT : t.part 33 0 2 13 = routesT
  clientsT : t.part 39 165 6 11 = clientsT
  encoderT : ((t.skip 48).body.skip 1).body.part 4 85 6 11 = encoderT
  endpointsT : t.part 15 6 6 2 = endpointsT
  grpcServerT : (t.skip 30).body.part 6 0 2 7 = grpcServerT
  grpcMethodsT : (t.skip 30).body.part 17 0 1 2 = grpcMethodsT
  grpcClientT : (t.skip 30).body.part 24 0 4 11 = grpcClientT
  natsServeT : (t.skip 50).body.part 0 110 2 3 = natsServeT
  natsServerT : (t.skip 50).body.part 6 0 2 7 = natsServerT
  natsDecodersT : (t.skip 50).body.part 13 0 1 2 = natsDecodersT
  natsClientT : (t.skip 50).body.part 16 0 4 11 = natsClientT

theorem parts_of {t : Tmpl} (h : parse baronSrc = some t) : Parts t := by
  have := parts
  rw [h, Option.map_some, Option.some.injEq] at this
  simp only [List.cons.injEq, and_true] at this
  obtain ⟨h0, h1, h2, h3, h4, h5, h6, h7, h8, h9, h10⟩ := this
  exact ⟨h0, h1, h2, h3, h4, h5, h6, h7, h8, h9, h10⟩

/-- What is around them. -/
theorem heads : (parse baronSrc).map (fun t => decide (
  (t.skip 48).ranges = some (some (chars% "method"), .dot [chars% "HTTPHelper", chars% "Methods"]) ∧
  ((t.skip 48).body.skip 1).ranges = some (some (chars% "binding"), .var (chars% "method") [chars% "Bindings"]) ∧
  (t.skip 30).conds = some (.call3 (chars% "eq") (.dot [chars% "Config", chars% "Transport"]) (.str (chars% "all")) (.str (chars% "grpc"))) ∧
  (t.skip 50).conds = some (.call3 (chars% "eq") (.dot [chars% "Config", chars% "Transport"]) (.str (chars% "all")) (.str (chars% "nats"))))) = some true := by
  decide +kernel

theorem heads_of {t : Tmpl} (h : parse baronSrc = some t) :
    (t.skip 48).ranges = some (some (chars% "method"), .dot [chars% "HTTPHelper", chars% "Methods"]) ∧
    ((t.skip 48).body.skip 1).ranges = some (some (chars% "binding"), .var (chars% "method") [chars% "Bindings"]) ∧
    (t.skip 30).conds = some (.call3 (chars% "eq") (.dot [chars% "Config", chars% "Transport"]) (.str (chars% "all")) (.str (chars% "grpc"))) ∧
    (t.skip 50).conds = some (.call3 (chars% "eq") (.dot [chars% "Config", chars% "Transport"]) (.str (chars% "all")) (.str (chars% "nats"))) := by
  have := heads
  rw [h, Option.map_some, Option.some.injEq, decide_eq_true_eq] at this
  exact this

end Baron.TT
