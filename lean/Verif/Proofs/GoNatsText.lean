import Verif.Proofs.GoFuncText
import Verif.Proofs.NatsParts

/-!
# The texts of the functions for NATS (C100)
-/

namespace Baron.GoFunc

open Baron.TT hiding Config grpcMethod Val
open Baron.TT (dataWith methodVal)
open Baron.Svcdef (Service ServiceMethod)

set_option maxRecDepth 16000 in
theorem subscribeAll_print (service : Str) (l : List ServiceMethod) : (subscribeAll service l).print = l.flatMap (natsSubscription service) ++ chars% "\n\treturn nil\n\n" := by
  induction l with
  | nil => rfl
  | cons m l ih =>
    rw [subscribeAll, List.flatMap_cons]
    simp only [Code.print, Args.print, ih, Expr.print, printNames, subVar, single, List.append_assoc, List.nil_append]
    simp only [natsSubscription, List.flatten_cons, List.flatten_nil, List.append_nil, List.append_assoc]
    rfl

set_option maxRecDepth 16000 in
theorem serveNATS_print (s : Service) : chars% "\n" ++ ((serveNATS s).print ++ chars% "\n") = natsServeText s := by
  unfold serveNATS Func.print natsServeText
  simp only [Code.print, subscribeAll_print, printNames, printParams, printParam, printResults, List.append_assoc, List.flatten_cons, List.flatten_nil]
  rfl

set_option maxRecDepth 16000 in
theorem subscribers_print (l : List ServiceMethod) : (subscribers l).print = l.flatMap natsSubscriber ++ chars% "\n\t" := by
  induction l with
  | nil => rfl
  | cons m l ih =>
    rw [subscribers, List.flatMap_cons]
    simp only [Args.print, ih, subscriberArgs, Expr.print, List.append_assoc]
    simp only [natsSubscriber, List.flatten_cons, List.flatten_nil, List.append_nil, List.append_assoc]
    rfl

set_option maxRecDepth 16000 in
theorem makeNATSServer_print (s : Service) : (makeNATSServer s).print = [
    chars% "func MakeNATSServer(endpoints Endpoints, options ...natstransport.SubscriberOption) *natsServer {\n\tserverOptions := []natstransport.SubscriberOption{\n\t\t// grpctransport.ServerBefore(GRPCMetadataToContext),\n\t}\n\tserverOptions = append(serverOptions, options...)\n\t// ",
    toLower s.name, chars% "\n\treturn &natsServer{\n\t", s.methods.flatMap natsSubscriber, chars% "\n\t}\n}"].flatten := by
  unfold makeNATSServer Func.print single
  simp only [Code.print, Expr.print, Args.print, subscribers_print, printNames, printParams, printParam, printResults, List.append_assoc, List.flatten_cons, List.flatten_nil]
  rfl

set_option maxRecDepth 16000 in
theorem decodeNATSRequest_print (m : ServiceMethod) : chars% "\n" ++ ((decodeNATSRequest m).print ++ chars% "\n") = natsDecoder m := by
  unfold decodeNATSRequest readJSON pair Func.print natsDecoder
  simp only [Code.print, Expr.print, Args.print, printNames, printParams, printParam, printResults, List.append_assoc, List.flatten_cons, List.flatten_nil]
  rfl

def decodeNATSResponseText (m : ServiceMethod) : Str := [
  chars% "\n// DecodeNATS", m.name, chars% "Response is a transport/nats.DecodeResponseFunc that converts a\n// nats.Msg to a user-domain ", toLower m.name,
  chars% " response. Primarily useful in a client.\nfunc DecodeNATS", m.name,
  chars% "Response(ctx context.Context, msg *nats.Msg ) (interface{}, error) {\n\t// if err := json.Unmarshal(msg.Data, &errResponse); err != nil {\n\t// \treturn nil, err\n\t// }\n\t// if errResponse.Error != nil && errResponse.Error.Code == \"_internal_\" {\n\t// \treturn nil, errors.New(errResponse.Error.Message)\n\t// }\n\tvar resp ",
  goType m.response, chars% "\n\tif err := json.Unmarshal(msg.Data, &resp); err != nil {\n\t\treturn nil, err\n\t}\n\treturn &resp, nil\n}\n"].flatten

set_option maxRecDepth 16000 in
theorem decodeNATSResponse_text (m : ServiceMethod) : Occurs (decodeNATSResponse m).print (decodeNATSResponseText m) := by
  refine ⟨chars% "\n// DecodeNATS" ++ (m.name ++ (chars% "Response is a transport/nats.DecodeResponseFunc that converts a\n// nats.Msg to a user-domain " ++ (toLower m.name ++
    chars% " response. Primarily useful in a client.\n"))), chars% "\n", ?_⟩
  unfold decodeNATSResponseText decodeNATSResponse readJSON Func.print pair
  simp only [Code.print, Expr.print, Args.print, printNames, printParams, printParam, printResults, List.append_assoc, List.flatten_cons, List.flatten_nil]
  rfl

set_option maxRecDepth 16000 in
theorem publishers_print (service : Str) (rest : Code) (l : List ServiceMethod) :
    (publishers service rest l).print = l.flatMap (natsEndpoint service) ++ rest.print := by
  induction l with
  | nil => rfl
  | cons m l ih =>
    rw [publishers, List.flatMap_cons]
    simp only [Code.print, Args.print, ih, Expr.print, endpointVar, publisherArgs, List.append_assoc, List.nil_append]
    simp only [natsEndpoint, List.flatten_cons, List.flatten_nil, List.append_nil, List.append_assoc]
    rfl

set_option maxRecDepth 16000 in
theorem newNATSClient_print (s : Service) : (newNATSClient s).print = [
    chars% "func NewNATSClient(conn *nats.Conn, options ...natstransport.PublisherOption) (", s.name, chars% "Server, error) {",
    s.methods.flatMap (natsEndpoint s.name) ++ chars% "\n\t", chars% "\n\n\treturn Endpoints{\n\t", s.methods.flatMap namedEndpoint, chars% "\n\t}, nil\n}"].flatten := by
  unfold newNATSClient Func.print pair
  simp only [Code.print, Expr.print, Args.print, publishers_print, namedEndpoints_print, printNames, printParams, printParam, printResults, List.append_assoc, List.flatten_cons, List.flatten_nil]
  rfl

section
variable {fmt : Str → Str} {pkg : Str} {s : Service} {c : TT.Config} {txt : Str}

theorem nats_occurs (h : render fmt pkg s c "baron/NAME.pb.baron.go.tmpl".toList = some txt)
    (hc : c.transport = "all".toList ∨ c.transport = "nats".toList) : ∀ f ∈ natsFuncs s, Occurs f.print txt := by
  have hn := C87_nats_server h hc
  obtain ⟨ms, -, t, hp, he⟩ := render_data (src := baronSrc) rfl h
  obtain ⟨b, hb, ho⟩ := nats_inside hp he hc
  intro f hf
  rw [natsFuncs, List.mem_append] at hf
  rcases hf with hf | hf
  · simp only [List.mem_cons, List.not_mem_nil, or_false] at hf
    rcases hf with rfl | rfl | rfl | rfl | rfl
    · rw [← serveNATS_print] at hn
      exact (((Occurs.refl _).left _).right _).trans hn.1
    · obtain ⟨a, h1, h2⟩ := exec_part 4 8 4 5 hb
      rw [(natsParts_of hp).makeNatsT] at h1
      have hr : exec makeNatsT [([], dataWith pkg s c ms)] (dataWith pkg s c ms) = some (makeNATSServer s).print := by
        rw [makeNATSServer_print]
        unfold makeNatsT
        exact exec_text (exec_action rfl (exec_text (exec_range (l := s.methods.map methodVal) rfl (each_methods fun _ => rfl) exec_text_nil)))
      rw [hr] at h1
      cases h1
      exact h2.trans ho
    · obtain ⟨a, h1, h2⟩ := exec_part 14 635 6 10 hb
      rw [(natsParts_of hp).newNatsClientT] at h1
      have hr : exec newNatsClientT [([], dataWith pkg s c ms)] (dataWith pkg s c ms) = some (newNATSClient s).print := by
        rw [newNATSClient_print]
        unfold newNatsClientT
        exact exec_text (exec_action rfl (exec_text (exec_within (v := dataWith pkg s c ms)
          (o := s.methods.flatMap (natsEndpoint s.name) ++ chars% "\n\t") rfl rfl
          (exec_range (l := s.methods.map methodVal) rfl (each_methods fun _ => rfl) exec_text_nil)
          (exec_text (exec_range (l := s.methods.map methodVal) rfl (each_methods fun _ => rfl) exec_text_nil)))))
      rw [hr] at h1
      cases h1
      exact h2.trans ho
    · obtain ⟨a, h1, h2⟩ := exec_part 14 202 0 179 hb
      rw [(natsParts_of hp).encodeNatsResponseT] at h1
      have hr : exec encodeNatsResponseT [([], dataWith pkg s c ms)] (dataWith pkg s c ms) = some encodeNATSResponse.print := exec_text_nil
      rw [hr] at h1
      cases h1
      exact h2.trans ho
    · obtain ⟨a, h1, h2⟩ := exec_part 22 228 0 155 hb
      rw [(natsParts_of hp).encodeNatsRequestT] at h1
      have hr : exec encodeNatsRequestT [([], dataWith pkg s c ms)] (dataWith pkg s c ms) = some encodeNATSRequest.print := exec_text_nil
      rw [hr] at h1
      cases h1
      exact h2.trans ho
  · obtain ⟨m, hm, hf⟩ := List.mem_flatMap.mp hf
    simp only [List.mem_cons, List.not_mem_nil, or_false] at hf
    rcases hf with rfl | rfl
    · have h1 : Occurs (natsDecoder m) (natsDecodersText s) := by
        unfold natsDecodersText
        exact (occurs_flatMap hm).left _
      rw [← decodeNATSRequest_print] at h1
      exact ((((Occurs.refl _).left _).right _).trans h1).trans hn.2.2
    · obtain ⟨a, h1, h2⟩ := exec_part 21 0 1 2 hb
      rw [(natsParts_of hp).decodeNatsResponseT] at h1
      have hr : exec decodeNatsResponseT [([], dataWith pkg s c ms)] (dataWith pkg s c ms) = some (s.methods.flatMap decodeNATSResponseText ++ chars% "\n\n") :=
        exec_range (l := s.methods.map methodVal) rfl (each_methods fun _ => rfl) exec_text_nil
      rw [hr] at h1
      cases h1
      exact (((decodeNATSResponse_text m).trans (occurs_flatMap hm)).left _).trans (h2.trans ho)

end

end Baron.GoFunc
