import Verif.Proofs.Texts

/-!
# The parts of the transport template with the functions for NATS
-/

namespace Baron.TT

/-- `MakeNATSServer`. -/
def makeNatsT : Tmpl :=
  .text (chars% "func MakeNATSServer(endpoints Endpoints, options ...natstransport.SubscriberOption) *natsServer {\n\tserverOptions := []natstransport.SubscriberOption{\n\t\t// grpctransport.ServerBefore(GRPCMetadataToContext),\n\t}\n\tserverOptions = append(serverOptions, options...)\n\t// ")
  (.action (.call1 (chars% "ToLower") (.dot [chars% "Service", chars% "Name"]))
  (.text (chars% "\n\treturn &natsServer{\n\t")
  (.range (some (chars% "i")) (.dot [chars% "Service", chars% "Methods"])
    (.text (chars% "\n\t\t")
    (.action (.var (chars% "i") [chars% "Name"])
    (.text (chars% ": natstransport.NewSubscriber(\n\t\t\tendpoints.")
    (.action (.var (chars% "i") [chars% "Name"])
    (.text (chars% "Endpoint,\n\t\t\tDecodeNATS")
    (.action (.var (chars% "i") [chars% "Name"])
    (.text (chars% "Request,\n\t\t\t// EncodeNATS")
    (.action (.var (chars% "i") [chars% "Name"])
    (.text (chars% "Response,\n\t\t\tEncodeNATSGenericResponse,\n\t\t\tserverOptions...,\n\t\t),")
    .nil)))))))))
  (.text (chars% "\n\t}\n}")
  .nil))))

/-- `EncodeNATSGenericResponse`. -/
def encodeNatsResponseT : Tmpl :=
  .text (chars% "func EncodeNATSGenericResponse(ctx context.Context, reply string, nc *nats.Conn, response interface{}) error {\n\treturn natstransport.EncodeJSONResponse(ctx, reply, nc, response)\n}")
  .nil

/-- `NewNATSClient`. -/
def newNatsClientT : Tmpl :=
  .text (chars% "func NewNATSClient(conn *nats.Conn, options ...natstransport.PublisherOption) (")
  (.action (.dot [chars% "Service", chars% "Name"])
  (.text (chars% "Server, error) {")
  (.within (some (chars% "te")) (.dot [])
    (.range (some (chars% "i")) (.var (chars% "te") [chars% "Service", chars% "Methods"])
      (.text (chars% "\n\t\t\tvar ")
      (.action (.call1 (chars% "ToLower") (.var (chars% "i") [chars% "Name"]))
      (.text (chars% "Endpoint endpoint.Endpoint\n\t\t\t{\n\t\t\t\t")
      (.action (.call1 (chars% "ToLower") (.var (chars% "i") [chars% "Name"]))
      (.text (chars% "Endpoint = natstransport.NewPublisher(\n\t\t\t\t\tconn,\n\t\t\t\t\t\"")
      (.action (.var (chars% "te") [chars% "Service", chars% "Name"])
      (.text (chars% ".")
      (.action (.var (chars% "i") [chars% "Name"])
      (.text (chars% "\",\n\t\t\t\t\tEncodeNATSGenericRequest,\n\t\t\t\t\tDecodeNATS")
      (.action (.var (chars% "i") [chars% "Name"])
      (.text (chars% "Response,\n\t\t\t\t\toptions...,\n\t\t\t\t).Endpoint()\n\t\t\t}\n\t\t")
      .nil)))))))))))
    (.text (chars% "\n\t")
    .nil))
  (.text (chars% "\n\n\treturn Endpoints{\n\t")
  (.range (some (chars% "i")) (.dot [chars% "Service", chars% "Methods"])
    (.action (.var (chars% "i") [chars% "Name"])
    (.text (chars% "Endpoint:    ")
    (.action (.call1 (chars% "ToLower") (.var (chars% "i") [chars% "Name"]))
    (.text (chars% "Endpoint,\n\t")
    .nil))))
  (.text (chars% "\n\t}, nil\n}")
  .nil))))))

/-- The decoders of responses. -/
def decodeNatsResponseT : Tmpl :=
  .range (some (chars% "i")) (.dot [chars% "Service", chars% "Methods"])
    (.text (chars% "\n// DecodeNATS")
    (.action (.var (chars% "i") [chars% "Name"])
    (.text (chars% "Response is a transport/nats.DecodeResponseFunc that converts a\n// nats.Msg to a user-domain ")
    (.action (.call1 (chars% "ToLower") (.var (chars% "i") [chars% "Name"]))
    (.text (chars% " response. Primarily useful in a client.\nfunc DecodeNATS")
    (.action (.var (chars% "i") [chars% "Name"])
    (.text (chars% "Response(ctx context.Context, msg *nats.Msg ) (interface{}, error) {\n\t// if err := json.Unmarshal(msg.Data, &errResponse); err != nil {\n\t// \treturn nil, err\n\t// }\n\t// if errResponse.Error != nil && errResponse.Error.Code == \"_internal_\" {\n\t// \treturn nil, errors.New(errResponse.Error.Message)\n\t// }\n\tvar resp ")
    (.action (.call1 (chars% "GoName") (.var (chars% "i") [chars% "ResponseType", chars% "Name"]))
    (.text (chars% "\n\tif err := json.Unmarshal(msg.Data, &resp); err != nil {\n\t\treturn nil, err\n\t}\n\treturn &resp, nil\n}\n")
    .nil)))))))))
  (.text (chars% "\n\n")
  .nil)

/-- `EncodeNATSGenericRequest`. -/
def encodeNatsRequestT : Tmpl :=
  .text (chars% "func EncodeNATSGenericRequest(ctx context.Context, msg *nats.Msg, request interface{}) error {\n\treturn natstransport.EncodeJSONRequest(ctx, msg, request)\n}")
  .nil

/-- These are parts of the template. -/
theorem natsParts : (parse baronSrc).map (fun t => [
  (t.skip 50).body.part 4 8 4 5,
  (t.skip 50).body.part 14 202 0 179,
  (t.skip 50).body.part 14 635 6 10,
  (t.skip 50).body.part 21 0 1 2,
  (t.skip 50).body.part 22 228 0 155]) = some [
  makeNatsT, encodeNatsResponseT, newNatsClientT, decodeNatsResponseT, encodeNatsRequestT] := by
  decide +kernel

structure NATSParts (t : Tmpl) : Prop where
  makeNatsT : (t.skip 50).body.part 4 8 4 5 = TT.makeNatsT
  encodeNatsResponseT : (t.skip 50).body.part 14 202 0 179 = TT.encodeNatsResponseT
  newNatsClientT : (t.skip 50).body.part 14 635 6 10 = TT.newNatsClientT
  decodeNatsResponseT : (t.skip 50).body.part 21 0 1 2 = TT.decodeNatsResponseT
  encodeNatsRequestT : (t.skip 50).body.part 22 228 0 155 = TT.encodeNatsRequestT

theorem natsParts_of {t : Tmpl} (h : parse baronSrc = some t) : NATSParts t := by
  have := natsParts
  rw [h, Option.map_some, Option.some.injEq] at this
  simp only [List.cons.injEq, and_true] at this
  obtain ⟨h0, h1, h2, h3, h4⟩ := this
  exact ⟨h0, h1, h2, h3, h4⟩

end Baron.TT
