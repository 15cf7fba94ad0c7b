import Verif.Proofs.Texts

/-!
# The parts of the transport template with the functions for gRPC
-/

namespace Baron.TT

/-- `MakeGRPCServer`. -/
def makeServerT : Tmpl :=
  .text (chars% "func MakeGRPCServer(endpoints Endpoints, options ...grpctransport.ServerOption) ")
  (.action (.dot [chars% "Service", chars% "Name"])
  (.text (chars% "Server {\n\tserverOptions := []grpctransport.ServerOption{\n\t\tgrpctransport.ServerBefore(GRPCMetadataToContext),\n\t}\n\tserverOptions = append(serverOptions, options...)\n\t// ")
  (.action (.call1 (chars% "ToLower") (.dot [chars% "Service", chars% "Name"]))
  (.text (chars% "\n\treturn &grpcServer{\n\t")
  (.range (some (chars% "i")) (.dot [chars% "Service", chars% "Methods"])
    (.text (chars% "\n\t\t")
    (.action (.call1 (chars% "ToLower") (.var (chars% "i") [chars% "Name"]))
    (.text (chars% ": grpctransport.NewServer(\n\t\t\tendpoints.")
    (.action (.var (chars% "i") [chars% "Name"])
    (.text (chars% "Endpoint,\n\t\t\tDecodeGRPC")
    (.action (.var (chars% "i") [chars% "Name"])
    (.text (chars% "Request,\n\t\t\tEncodeGRPC")
    (.action (.var (chars% "i") [chars% "Name"])
    (.text (chars% "Response,\n\t\t\tserverOptions...,\n\t\t),")
    .nil)))))))))
  (.text (chars% "\n\t}\n}")
  .nil))))))

/-- The decoders of requests. -/
def decodeRequestT : Tmpl :=
  .range (some (chars% "i")) (.dot [chars% "Service", chars% "Methods"])
    (.text (chars% "\n// DecodeGRPC")
    (.action (.var (chars% "i") [chars% "Name"])
    (.text (chars% "Request is a transport/grpc.DecodeRequestFunc that converts a\n// gRPC ")
    (.action (.call1 (chars% "ToLower") (.var (chars% "i") [chars% "Name"]))
    (.text (chars% " request to a user-domain ")
    (.action (.call1 (chars% "ToLower") (.var (chars% "i") [chars% "Name"]))
    (.text (chars% " request. Primarily useful in a server.\nfunc DecodeGRPC")
    (.action (.var (chars% "i") [chars% "Name"])
    (.text (chars% "Request(_ context.Context, grpcReq interface{}) (interface{}, error) {\n\treq := grpcReq.(*")
    (.action (.call1 (chars% "GoName") (.var (chars% "i") [chars% "RequestType", chars% "Name"]))
    (.text (chars% ")\n\treturn req, nil\n}\n")
    .nil)))))))))))
  (.text (chars% "\n\n")
  .nil)

/-- The encoders of responses. -/
def encodeResponseT : Tmpl :=
  .range (some (chars% "i")) (.dot [chars% "Service", chars% "Methods"])
    (.text (chars% "\n// EncodeGRPC")
    (.action (.var (chars% "i") [chars% "Name"])
    (.text (chars% "Response is a transport/grpc.EncodeResponseFunc that converts a\n// user-domain ")
    (.action (.call1 (chars% "ToLower") (.var (chars% "i") [chars% "Name"]))
    (.text (chars% " response to a gRPC ")
    (.action (.call1 (chars% "ToLower") (.var (chars% "i") [chars% "Name"]))
    (.text (chars% " reply. Primarily useful in a server.\nfunc EncodeGRPC")
    (.action (.var (chars% "i") [chars% "Name"])
    (.text (chars% "Response(_ context.Context, response interface{}) (interface{}, error) {\n\tresp := response.(*")
    (.action (.call1 (chars% "GoName") (.var (chars% "i") [chars% "ResponseType", chars% "Name"]))
    (.text (chars% ")\n\treturn resp, nil\n}\n")
    .nil)))))))))))
  (.text (chars% "\n\n")
  .nil)

/-- `NewGRPCClient`. -/
def newClientT : Tmpl :=
  .text (chars% "func NewGRPCClient(conn *grpc.ClientConn, options ...grpctransport.ClientOption) (")
  (.action (.dot [chars% "Service", chars% "Name"])
  (.text (chars% "Server, error) {")
  (.within (some (chars% "te")) (.dot [])
    (.within (some (chars% "pkgName")) (.var (chars% "te") [chars% "PackageName"])
      (.range (some (chars% "i")) (.var (chars% "te") [chars% "Service", chars% "Methods"])
        (.text (chars% "\n\tvar ")
        (.action (.call1 (chars% "ToLower") (.var (chars% "i") [chars% "Name"]))
        (.text (chars% "Endpoint endpoint.Endpoint\n\t{\n\t\t")
        (.action (.call1 (chars% "ToLower") (.var (chars% "i") [chars% "Name"]))
        (.text (chars% "Endpoint = grpctransport.NewClient(\n\t\t\tconn,\n\t\t\t\"")
        (.action (.var (chars% "pkgName") [])
        (.text (chars% ".")
        (.action (.var (chars% "te") [chars% "Service", chars% "Name"])
        (.text (chars% "\",\n\t\t\t\"")
        (.action (.var (chars% "i") [chars% "Name"])
        (.text (chars% "\",\n\t\t\tEncodeGRPC")
        (.action (.var (chars% "i") [chars% "Name"])
        (.text (chars% "Request,\n\t\t\tDecodeGRPC")
        (.action (.var (chars% "i") [chars% "Name"])
        (.text (chars% "Response,\n\t\t\t")
        (.action (.call1 (chars% "GoName") (.var (chars% "i") [chars% "ResponseType", chars% "Name"]))
        (.text (chars% "{},\n\t\t\toptions...,\n\t\t).Endpoint()\n\t}\n\t\t\t")
        .nil)))))))))))))))))
      (.text (chars% "\n\t\t")
      .nil))
    (.text (chars% "\n\t")
    .nil))
  (.text (chars% "\n\n\treturn Endpoints{\n\t")
  (.range (some (chars% "i")) (.dot [chars% "Service", chars% "Methods"])
    (.action (.var (chars% "i") [chars% "Name"])
    (.text (chars% "Endpoint:    ")
    (.action (.call1 (chars% "ToLower") (.var (chars% "i") [chars% "Name"]))
    (.text (chars% "Endpoint,\n\t")
    .nil))))
  (.text (chars% "\n\t}, nil\n}")
  .nil))))))

/-- The decoders of responses. -/
def decodeResponseT : Tmpl :=
  .range (some (chars% "i")) (.dot [chars% "Service", chars% "Methods"])
    (.text (chars% "\n// DecodeGRPC")
    (.action (.var (chars% "i") [chars% "Name"])
    (.text (chars% "Response is a transport/grpc.DecodeResponseFunc that converts a\n// gRPC ")
    (.action (.call1 (chars% "ToLower") (.var (chars% "i") [chars% "Name"]))
    (.text (chars% " reply to a user-domain ")
    (.action (.call1 (chars% "ToLower") (.var (chars% "i") [chars% "Name"]))
    (.text (chars% " response. Primarily useful in a client.\nfunc DecodeGRPC")
    (.action (.var (chars% "i") [chars% "Name"])
    (.text (chars% "Response(_ context.Context, grpcReply interface{}) (interface{}, error) {\n\treply := grpcReply.(*")
    (.action (.call1 (chars% "GoName") (.var (chars% "i") [chars% "ResponseType", chars% "Name"]))
    (.text (chars% ")\n\treturn reply, nil\n}\n")
    .nil)))))))))))
  (.text (chars% "\n\n")
  .nil)

/-- The encoders of requests. -/
def encodeRequestT : Tmpl :=
  .range (some (chars% "i")) (.dot [chars% "Service", chars% "Methods"])
    (.text (chars% "\n// EncodeGRPC")
    (.action (.var (chars% "i") [chars% "Name"])
    (.text (chars% "Request is a transport/grpc.EncodeRequestFunc that converts a\n// user-domain ")
    (.action (.call1 (chars% "ToLower") (.var (chars% "i") [chars% "Name"]))
    (.text (chars% " request to a gRPC ")
    (.action (.call1 (chars% "ToLower") (.var (chars% "i") [chars% "Name"]))
    (.text (chars% " request. Primarily useful in a client.\nfunc EncodeGRPC")
    (.action (.var (chars% "i") [chars% "Name"])
    (.text (chars% "Request(_ context.Context, request interface{}) (interface{}, error) {\n\treq := request.(*")
    (.action (.call1 (chars% "GoName") (.var (chars% "i") [chars% "RequestType", chars% "Name"]))
    (.text (chars% ")\n\treturn req, nil\n}\n")
    .nil)))))))))))
  (.text (chars% "\n\n")
  .nil)

/-- These are parts of the template. -/
theorem grpcParts : (parse baronSrc).map (fun t => [
  (t.skip 30).body.part 2 8 6 5,
  (t.skip 30).body.part 19 0 1 2,
  (t.skip 30).body.part 21 0 1 2,
  (t.skip 30).body.part 22 687 6 10,
  (t.skip 30).body.part 29 0 1 2,
  (t.skip 30).body.part 31 0 1 2]) = some [
  makeServerT, decodeRequestT, encodeResponseT, newClientT, decodeResponseT, encodeRequestT] := by
  decide +kernel

/-- server/endpoints.go.tmpl -/
def endpointsFileT : Tmpl :=
  .text (chars% "package server\n\nimport (\n\tpb \"")
  (.action (.dot [chars% "PBImportPath"])
  (.text (chars% "\"\n\t\"")
  (.action (.dot [chars% "ImportPath"])
  (.text (chars% "/service\"\n)\n\n// Endpoints application domain\nfunc Endpoints() pb.Endpoints {\n\tsvc := service.NewService()\n\tendpoints := NewEndpoints(svc)\n\n\treturn endpoints\n}\n\n")
  .nil))))

theorem endpointsFileT_eq : parse endpointsSrc = some endpointsFileT := by
  decide +kernel

/-- service/wrapper.go.tmpl -/
def wrapperFileT : Tmpl :=
  .text (chars% "package service\n\nimport (\n\tpb \"")
  (.action (.dot [chars% "PBImportPath"])
  (.text (chars% "\"\n)\n\n// WrapEndpoints accepts the service's entire collection of endpoints, so that a\n// set of middlewares can be wrapped around every middleware (e.g., access\n// logging and instrumentation), and others wrapped selectively around some\n// endpoints and not others (e.g., endpoints requiring authenticated access).\n// Note that the final middleware wrapped will be the outermost middleware\n// (i.e. applied first)\nfunc WrapEndpoints(in pb.Endpoints) pb.Endpoints {\n\n\t// Pass a middleware you want applied to every endpoint.\n\t// optionally pass in endpoints by name that you want to be excluded\n\t// e.g.\n\t// in.WrapAllExcept(authMiddleware, \"Status\", \"Ping\")\n\n\t// Pass in a svc.LabeledMiddleware you want applied to every endpoint.\n\t// These middlewares get passed the endpoints name as their first argument when applied.\n\t// This can be used to write generic metric gathering middlewares that can\n\t// report the endpoint name for free.\n\t// github.com/teamlint/baron/_example/middlewares/labeledmiddlewares.go for examples.\n\t// in.WrapAllLabeledExcept(errorCounter(statsdCounter), \"Status\", \"Ping\")\n\n\t// How to apply a middleware to a single endpoint.\n\t// in.ExampleEndpoint = authMiddleware(in.ExampleEndpoint)\n\n\treturn in\n}\n\nfunc WrapService(in pb.")
  (.action (.dot [chars% "Service", chars% "Name"])
  (.text (chars% "Server) pb.")
  (.action (.dot [chars% "Service", chars% "Name"])
  (.text (chars% "Server {\n\treturn in\n}\n")
  .nil))))))

theorem wrapperFileT_eq : parse serviceWrapperSrc = some wrapperFileT := by
  decide +kernel

structure GRPCParts (t : Tmpl) : Prop where
  makeServerT : (t.skip 30).body.part 2 8 6 5 = TT.makeServerT
  decodeRequestT : (t.skip 30).body.part 19 0 1 2 = TT.decodeRequestT
  encodeResponseT : (t.skip 30).body.part 21 0 1 2 = TT.encodeResponseT
  newClientT : (t.skip 30).body.part 22 687 6 10 = TT.newClientT
  decodeResponseT : (t.skip 30).body.part 29 0 1 2 = TT.decodeResponseT
  encodeRequestT : (t.skip 30).body.part 31 0 1 2 = TT.encodeRequestT

theorem grpcParts_of {t : Tmpl} (h : parse baronSrc = some t) : GRPCParts t := by
  have := grpcParts
  rw [h, Option.map_some, Option.some.injEq] at this
  simp only [List.cons.injEq, and_true] at this
  obtain ⟨h0, h1, h2, h3, h4, h5⟩ := this
  exact ⟨h0, h1, h2, h3, h4, h5⟩

end Baron.TT
