import Verif.Proofs.GoNatsText
import Verif.Proofs.GoFuncExec
import Verif.Props.Files

/-!
# C99 The functions of a generated service: their texts, and what calling them comes to
-/

namespace Baron.GoFunc

open Baron.TT hiding Config grpcMethod Val
open Baron.TT (dataWith methodVal)
open Baron.Svcdef (Service ServiceMethod)

section
variable {fmt : Str → Str} {pkg : Str} {s : Service} {c : TT.Config} {txt : Str}

theorem endpoints_occurs (h : render fmt pkg s c "baron/NAME.pb.baron.go.tmpl".toList = some txt) {m : ServiceMethod} (hm : m ∈ s.methods) :
    Occurs (endpointFunc m).print txt ∧ Occurs (makeEndpoint s.name m).print txt := by
  have ho := C87_endpoints h
  constructor
  · have h1 : Occurs (endpointMethod m) (endpointsText s) := by
      unfold endpointsText
      exact ((occurs_flatMap hm).left _).right _ |>.right _ |>.right _
    rw [← endpointFunc_print] at h1
    exact ((((Occurs.refl _).left _).right _).trans h1).trans ho
  · have h1 : Occurs (endpointMaker s.name m) (endpointsText s) := by
      unfold endpointsText
      exact ((occurs_flatMap hm).left _).right _ |>.right _ |>.right _ |>.right _ |>.right _
    rw [← makeEndpoint_print] at h1
    exact (((Occurs.refl _).right _).trans h1).trans ho

set_option maxRecDepth 16000 in
theorem makeGRPCServer_print (s : Service) : (makeGRPCServer s).print = [
    chars% "func MakeGRPCServer(endpoints Endpoints, options ...grpctransport.ServerOption) ", s.name,
    chars% "Server {\n\tserverOptions := []grpctransport.ServerOption{\n\t\tgrpctransport.ServerBefore(GRPCMetadataToContext),\n\t}\n\tserverOptions = append(serverOptions, options...)\n\t// ",
    toLower s.name, chars% "\n\treturn &grpcServer{\n\t", s.methods.flatMap grpcHandler, chars% "\n\t}\n}"].flatten := by
  unfold makeGRPCServer Func.print single
  simp only [Code.print, Expr.print, Args.print, handlers_print, printNames, printParams, printParam, printResults, List.append_assoc, List.flatten_cons, List.flatten_nil]
  rfl

theorem makeGRPCServer_occurs (h : render fmt pkg s c "baron/NAME.pb.baron.go.tmpl".toList = some txt)
    (hc : c.transport = "all".toList ∨ c.transport = "grpc".toList) : Occurs (makeGRPCServer s).print txt := by
  obtain ⟨ms, -, t, hp, he⟩ := render_data (src := baronSrc) rfl h
  obtain ⟨b, hb, ho⟩ := grpc_inside hp he hc
  obtain ⟨a, h1, h2⟩ := exec_part 2 8 6 5 hb
  rw [(grpcParts_of hp).makeServerT] at h1
  have hr : exec makeServerT [([], dataWith pkg s c ms)] (dataWith pkg s c ms) = some (makeGRPCServer s).print := by
    rw [makeGRPCServer_print]
    unfold makeServerT
    exact exec_text (exec_action rfl (exec_text (exec_action rfl (exec_text (exec_range (l := s.methods.map methodVal) rfl (each_methods fun _ => rfl) exec_text_nil)))))
  rw [hr] at h1
  cases h1
  exact h2.trans ho

set_option maxRecDepth 16000 in
theorem newGRPCClient_print (pkg : Str) (s : Service) : (newGRPCClient pkg s).print = [
    chars% "func NewGRPCClient(conn *grpc.ClientConn, options ...grpctransport.ClientOption) (", s.name, chars% "Server, error) {",
    (s.methods.flatMap (grpcEndpoint pkg s.name) ++ chars% "\n\t\t") ++ chars% "\n\t", chars% "\n\n\treturn Endpoints{\n\t", s.methods.flatMap namedEndpoint, chars% "\n\t}, nil\n}"].flatten := by
  unfold newGRPCClient Func.print pair
  simp only [Code.print, Expr.print, Args.print, clientEndpoints_print, namedEndpoints_print, printNames, printParams, printParam, printResults, List.append_assoc, List.flatten_cons, List.flatten_nil]
  rfl

theorem newGRPCClient_occurs (h : render fmt pkg s c "baron/NAME.pb.baron.go.tmpl".toList = some txt)
    (hc : c.transport = "all".toList ∨ c.transport = "grpc".toList) (hpkg : pkg ≠ []) : Occurs (newGRPCClient pkg s).print txt := by
  obtain ⟨ms, -, t, hp, he⟩ := render_data (src := baronSrc) rfl h
  obtain ⟨b, hb, ho⟩ := grpc_inside hp he hc
  obtain ⟨a, h1, h2⟩ := exec_part 22 687 6 10 hb
  rw [(grpcParts_of hp).newClientT] at h1
  have hr : exec newClientT [([], dataWith pkg s c ms)] (dataWith pkg s c ms) = some (newGRPCClient pkg s).print := by
    have hpk : (Val.str pkg).truth = true := by cases pkg with
      | nil => exact absurd rfl hpkg
      | cons _ _ => rfl
    rw [newGRPCClient_print]
    unfold newClientT
    exact exec_text (exec_action rfl (exec_text (exec_within (v := dataWith pkg s c ms)
      (o := (s.methods.flatMap (grpcEndpoint pkg s.name) ++ chars% "\n\t\t") ++ chars% "\n\t") rfl rfl
      (exec_within (v := .str pkg) rfl hpk (exec_range (l := s.methods.map methodVal) rfl (each_methods fun _ => rfl) exec_text_nil) exec_text_nil)
      (exec_text (exec_range (l := s.methods.map methodVal) rfl (each_methods fun _ => rfl) exec_text_nil)))))
  rw [hr] at h1
  cases h1
  exact h2.trans ho

def decodeRequestText (m : ServiceMethod) : Str := [
  chars% "\n// DecodeGRPC", m.name, chars% "Request is a transport/grpc.DecodeRequestFunc that converts a\n// gRPC ", toLower m.name, chars% " request to a user-domain ", toLower m.name,
  chars% " request. Primarily useful in a server.\nfunc DecodeGRPC", m.name,
  chars% "Request(_ context.Context, grpcReq interface{}) (interface{}, error) {\n\treq := grpcReq.(*", goType m.request, chars% ")\n\treturn req, nil\n}\n"].flatten

set_option maxRecDepth 16000 in
theorem decodeRequest_text (m : ServiceMethod) : Occurs (decodeRequest m).print (decodeRequestText m) := by
  refine ⟨chars% "\n// DecodeGRPC" ++ (m.name ++ (chars% "Request is a transport/grpc.DecodeRequestFunc that converts a\n// gRPC " ++ (toLower m.name ++
    (chars% " request to a user-domain " ++ (toLower m.name ++ chars% " request. Primarily useful in a server.\n"))))), chars% "\n", ?_⟩
  unfold decodeRequestText decodeRequest codec Func.print pair
  simp only [Code.print, Expr.print, Args.print, printNames, printParams, printParam, printResults, List.append_assoc, List.flatten_cons, List.flatten_nil]
  rfl

def encodeResponseText (m : ServiceMethod) : Str := [
  chars% "\n// EncodeGRPC", m.name, chars% "Response is a transport/grpc.EncodeResponseFunc that converts a\n// user-domain ", toLower m.name, chars% " response to a gRPC ", toLower m.name,
  chars% " reply. Primarily useful in a server.\nfunc EncodeGRPC", m.name,
  chars% "Response(_ context.Context, response interface{}) (interface{}, error) {\n\tresp := response.(*", goType m.response, chars% ")\n\treturn resp, nil\n}\n"].flatten

set_option maxRecDepth 16000 in
theorem encodeResponse_text (m : ServiceMethod) : Occurs (encodeResponse m).print (encodeResponseText m) := by
  refine ⟨chars% "\n// EncodeGRPC" ++ (m.name ++ (chars% "Response is a transport/grpc.EncodeResponseFunc that converts a\n// user-domain " ++ (toLower m.name ++
    (chars% " response to a gRPC " ++ (toLower m.name ++ chars% " reply. Primarily useful in a server.\n"))))), chars% "\n", ?_⟩
  unfold encodeResponseText encodeResponse codec Func.print pair
  simp only [Code.print, Expr.print, Args.print, printNames, printParams, printParam, printResults, List.append_assoc, List.flatten_cons, List.flatten_nil]
  rfl

def decodeResponseText (m : ServiceMethod) : Str := [
  chars% "\n// DecodeGRPC", m.name, chars% "Response is a transport/grpc.DecodeResponseFunc that converts a\n// gRPC ", toLower m.name, chars% " reply to a user-domain ", toLower m.name,
  chars% " response. Primarily useful in a client.\nfunc DecodeGRPC", m.name,
  chars% "Response(_ context.Context, grpcReply interface{}) (interface{}, error) {\n\treply := grpcReply.(*", goType m.response, chars% ")\n\treturn reply, nil\n}\n"].flatten

set_option maxRecDepth 16000 in
theorem decodeResponse_text (m : ServiceMethod) : Occurs (decodeResponse m).print (decodeResponseText m) := by
  refine ⟨chars% "\n// DecodeGRPC" ++ (m.name ++ (chars% "Response is a transport/grpc.DecodeResponseFunc that converts a\n// gRPC " ++ (toLower m.name ++
    (chars% " reply to a user-domain " ++ (toLower m.name ++ chars% " response. Primarily useful in a client.\n"))))), chars% "\n", ?_⟩
  unfold decodeResponseText decodeResponse codec Func.print pair
  simp only [Code.print, Expr.print, Args.print, printNames, printParams, printParam, printResults, List.append_assoc, List.flatten_cons, List.flatten_nil]
  rfl

def encodeRequestText (m : ServiceMethod) : Str := [
  chars% "\n// EncodeGRPC", m.name, chars% "Request is a transport/grpc.EncodeRequestFunc that converts a\n// user-domain ", toLower m.name, chars% " request to a gRPC ", toLower m.name,
  chars% " request. Primarily useful in a client.\nfunc EncodeGRPC", m.name,
  chars% "Request(_ context.Context, request interface{}) (interface{}, error) {\n\treq := request.(*", goType m.request, chars% ")\n\treturn req, nil\n}\n"].flatten

set_option maxRecDepth 16000 in
theorem encodeRequest_text (m : ServiceMethod) : Occurs (encodeRequest m).print (encodeRequestText m) := by
  refine ⟨chars% "\n// EncodeGRPC" ++ (m.name ++ (chars% "Request is a transport/grpc.EncodeRequestFunc that converts a\n// user-domain " ++ (toLower m.name ++
    (chars% " request to a gRPC " ++ (toLower m.name ++ chars% " request. Primarily useful in a client.\n"))))), chars% "\n", ?_⟩
  unfold encodeRequestText encodeRequest codec Func.print pair
  simp only [Code.print, Expr.print, Args.print, printNames, printParams, printParam, printResults, List.append_assoc, List.flatten_cons, List.flatten_nil]
  rfl

theorem codecs_occur (h : render fmt pkg s c "baron/NAME.pb.baron.go.tmpl".toList = some txt)
    (hc : c.transport = "all".toList ∨ c.transport = "grpc".toList) {m : ServiceMethod} (hm : m ∈ s.methods) :
    Occurs (decodeRequest m).print txt ∧ Occurs (encodeResponse m).print txt ∧ Occurs (decodeResponse m).print txt ∧ Occurs (encodeRequest m).print txt := by
  obtain ⟨ms, -, t, hp, he⟩ := render_data (src := baronSrc) rfl h
  obtain ⟨b, hb, ho⟩ := grpc_inside hp he hc
  refine ⟨?_, ?_, ?_, ?_⟩
  · obtain ⟨a, h1, h2⟩ := exec_part 19 0 1 2 hb
    rw [(grpcParts_of hp).decodeRequestT] at h1
    have hr : exec decodeRequestT [([], dataWith pkg s c ms)] (dataWith pkg s c ms) = some (s.methods.flatMap decodeRequestText ++ chars% "\n\n") :=
      exec_range (l := s.methods.map methodVal) rfl (each_methods fun _ => rfl) exec_text_nil
    rw [hr] at h1
    cases h1
    exact (((decodeRequest_text m).trans (occurs_flatMap hm)).left _).trans (h2.trans ho)
  · obtain ⟨a, h1, h2⟩ := exec_part 21 0 1 2 hb
    rw [(grpcParts_of hp).encodeResponseT] at h1
    have hr : exec encodeResponseT [([], dataWith pkg s c ms)] (dataWith pkg s c ms) = some (s.methods.flatMap encodeResponseText ++ chars% "\n\n") :=
      exec_range (l := s.methods.map methodVal) rfl (each_methods fun _ => rfl) exec_text_nil
    rw [hr] at h1
    cases h1
    exact (((encodeResponse_text m).trans (occurs_flatMap hm)).left _).trans (h2.trans ho)
  · obtain ⟨a, h1, h2⟩ := exec_part 29 0 1 2 hb
    rw [(grpcParts_of hp).decodeResponseT] at h1
    have hr : exec decodeResponseT [([], dataWith pkg s c ms)] (dataWith pkg s c ms) = some (s.methods.flatMap decodeResponseText ++ chars% "\n\n") :=
      exec_range (l := s.methods.map methodVal) rfl (each_methods fun _ => rfl) exec_text_nil
    rw [hr] at h1
    cases h1
    exact (((decodeResponse_text m).trans (occurs_flatMap hm)).left _).trans (h2.trans ho)
  · obtain ⟨a, h1, h2⟩ := exec_part 31 0 1 2 hb
    rw [(grpcParts_of hp).encodeRequestT] at h1
    have hr : exec encodeRequestT [([], dataWith pkg s c ms)] (dataWith pkg s c ms) = some (s.methods.flatMap encodeRequestText ++ chars% "\n\n") :=
      exec_range (l := s.methods.map methodVal) rfl (each_methods fun _ => rfl) exec_text_nil
    rw [hr] at h1
    cases h1
    exact (((encodeRequest_text m).trans (occurs_flatMap hm)).left _).trans (h2.trans ho)

set_option maxRecDepth 16000 in
theorem newEndpoints_text (s : Service) (c : TT.Config) : Occurs (newEndpoints s).print (serverText s c) := by
  refine ⟨(if httpRpcs s = [] then [] else httpRun) ++ (chars% "\n\t" ++ ((if selected (chars% "grpc") c then grpcRun s.name else []) ++ (chars% "\n\t" ++
    ((if selected (chars% "nats") c then natsRun else []) ++ chars% "\n\n\t// Exit\n\tlog.Println(\"exit\", <-errc)\n}\n\n")))), chars% "\n", ?_⟩
  unfold serverText newEndpoints Func.print single
  simp only [Code.print, Expr.print, Args.print, madeEndpoints_print, namedEndpoints_print, printNames, printParams, printParam, printResults, List.append_assoc, List.flatten_cons, List.flatten_nil]
  rfl

set_option maxRecDepth 16000 in
theorem service_text {s : Service} {c : TT.Config} :
    Occurs (newService s).print (serviceText s c) ∧ ∀ m ∈ s.methods, Occurs (stubFunc s m).print (serviceText s c) := by
  refine ⟨?_, fun m hm => ?_⟩
  · refine ⟨chars% "package service\n\nimport (\n\t\"context\"\n\n\tpb \"" ++ (c.pbPackage ++ chars% "\"\n)\n\n"), chars% "\n\ntype " ++ (toLower s.name ++
      (chars% "Service struct {\n\tpb.Unimplemented" ++ (s.name ++ (chars% "Server\n}\n\n\n\t" ++ (s.methods.flatMap (stub s.name) ++ chars% "\n"))))), ?_⟩
    unfold serviceText newService Func.print single star serviceType
    simp only [Code.print, Expr.print, Args.print, printNames, printParams, printParam, printResults, List.append_assoc, List.flatten_cons, List.flatten_nil]
    rfl
  · have h1 : Occurs (stub s.name m) (serviceText s c) := by
      unfold serviceText
      exact ((occurs_flatMap hm).left _).right _ |>.right _ |>.right _ |>.right _ |>.right _ |>.right _ |>.right _ |>.right _ |>.right _ |>.right _ |>.right _
    rw [← stubFunc_print] at h1
    exact (((Occurs.refl _).left _).right _).trans h1

set_option maxRecDepth 16000 in
theorem endpoints_text (h : render fmt pkg s c "server/endpoints.go.tmpl".toList = some txt) : Occurs endpoints.print txt := by
  obtain ⟨ms, -, t, hp, he⟩ := render_data (src := endpointsSrc) rfl h
  cases endpointsFileT_eq.symm.trans hp
  have hr : exec endpointsFileT [([], dataWith pkg s c ms)] (dataWith pkg s c ms) = some (chars% "package server\n\nimport (\n\tpb \"" ++ (c.pbPackage ++
      (chars% "\"\n\t\"" ++ (c.goPackage ++ (chars% "/service\"\n)\n\n// Endpoints application domain\n" ++ (endpoints.print ++ chars% "\n\n")))))) := by
    unfold endpointsFileT
    exact exec_text (exec_action rfl (exec_text (exec_action rfl exec_text_nil)))
  cases hr.symm.trans he
  exact ((Occurs.refl _).left _).right _ |>.right _ |>.right _ |>.right _ |>.right _

set_option maxRecDepth 16000 in
theorem wrapper_text (h : render fmt pkg s c "service/wrapper.go.tmpl".toList = some txt) : Occurs (wrapService s).print txt ∧ Occurs wrapEndpoints.print txt := by
  obtain ⟨ms, -, t, hp, he⟩ := render_data (src := serviceWrapperSrc) rfl h
  cases wrapperFileT_eq.symm.trans hp
  obtain ⟨a, b, h1, h2⟩ : ∃ a b, exec wrapperFileT [([], dataWith pkg s c ms)] (dataWith pkg s c ms) = some (a ++ (wrapEndpoints.print ++ (chars% "\n\n" ++ ((wrapService s).print ++ b)))) ∧ b = chars% "\n" := by
    refine ⟨chars% "package service\n\nimport (\n\tpb \"" ++ (c.pbPackage ++ chars% "\"\n)\n\n// WrapEndpoints accepts the service's entire collection of endpoints, so that a\n// set of middlewares can be wrapped around every middleware (e.g., access\n// logging and instrumentation), and others wrapped selectively around some\n// endpoints and not others (e.g., endpoints requiring authenticated access).\n// Note that the final middleware wrapped will be the outermost middleware\n// (i.e. applied first)\n"), _, ?_, rfl⟩
    unfold wrapperFileT
    refine Eq.trans (exec_text (exec_action rfl (exec_text (exec_action rfl (exec_text (exec_action rfl exec_text_nil)))))) ?_
    unfold wrapEndpoints wrapService Func.print single
    simp only [Code.print, Expr.print, Args.print, printNames, printParams, printParam, printResults, List.append_assoc]
    rfl
  cases h1.symm.trans he
  exact ⟨((Occurs.refl _).left _).right _ |>.right _ |>.right _, ((Occurs.refl _).left _).right _⟩

end

theorem selected_iff {t : Str} {c : TT.Config} : TT.selected t c = true ↔ c.transport = "all".toList ∨ c.transport = t := by
  unfold TT.selected
  rw [Bool.or_eq_true, decide_eq_true_eq, decide_eq_true_eq]
  exact Iff.rfl

/-- **C99** The functions of a service that is generated with a configuration are written as `Func.print` prints them, in these files. -/
theorem C99_text (fmt : Str → Str) {pkg : Str} (s : Service) (c : TT.Config) (hpkg : pkg ≠ []) :
    ∀ x ∈ sources pkg s c, ∃ txt, render fmt pkg s c x.1 = some txt ∧ Occurs x.2.print txt := by
  obtain ⟨t1, h1⟩ := C84_render fmt pkg s c "server/server.go.tmpl".toList (by decide +kernel)
  obtain ⟨t2, h2⟩ := C84_render fmt pkg s c "server/endpoints.go.tmpl".toList (by decide +kernel)
  obtain ⟨t3, h3⟩ := C84_render fmt pkg s c "service/wrapper.go.tmpl".toList (by decide +kernel)
  obtain ⟨t5, h5⟩ := C84_render fmt pkg s c "baron/NAME.pb.baron.go.tmpl".toList (by decide +kernel)
  have h4' := C88_service fmt pkg s c
  intro x hx
  rw [sources, List.mem_append] at hx
  rcases hx with hx | hx
  · rw [commonFuncs, List.mem_append] at hx
    rcases hx with hx | hx
    · simp only [List.mem_cons, List.not_mem_nil, or_false] at hx
      rcases hx with rfl | rfl | rfl | rfl | rfl
      · obtain ⟨A, rfl⟩ := C88_server h1
        exact ⟨_, h1, (newEndpoints_text s c).right _⟩
      · exact ⟨_, h2, endpoints_text h2⟩
      · exact ⟨_, h3, (wrapper_text h3).1⟩
      · exact ⟨_, h3, (wrapper_text h3).2⟩
      · exact ⟨_, h4', service_text.1⟩
    · obtain ⟨m, hm, hx⟩ := List.mem_flatMap.mp hx
      simp only [List.mem_cons, List.not_mem_nil, or_false] at hx
      rcases hx with rfl | rfl | rfl
      · exact ⟨_, h5, (endpoints_occurs h5 hm).1⟩
      · exact ⟨_, h5, (endpoints_occurs h5 hm).2⟩
      · exact ⟨_, h4', service_text.2 m hm⟩
  · obtain ⟨f, hf, rfl⟩ := List.mem_map.mp hx
    rw [List.mem_append] at hf
    refine ⟨_, h5, ?_⟩
    rcases hf with hf | hf
    · by_cases hg : TT.selected (chars% "grpc") c = true
      · rw [if_pos hg, grpcFuncs, List.mem_append] at hf
        have hc := selected_iff.mp hg
        rcases hf with hf | hf
        · simp only [List.mem_cons, List.not_mem_nil, or_false] at hf
          rcases hf with rfl | rfl
          · exact makeGRPCServer_occurs h5 hc
          · exact newGRPCClient_occurs h5 hc hpkg
        · obtain ⟨m, hm, hf⟩ := List.mem_flatMap.mp hf
          have hc' := codecs_occur h5 hc hm
          simp only [List.mem_cons, List.not_mem_nil, or_false] at hf
          rcases hf with rfl | rfl | rfl | rfl | rfl
          · have h1 : Occurs (TT.grpcMethod m) (grpcMethodsText s) := by
              unfold grpcMethodsText
              exact (occurs_flatMap hm).left _
            rw [← grpcMethod_print] at h1
            exact ((((Occurs.refl _).left _).right _).trans h1).trans (C87_grpc_server h5 hc).2
          · exact hc'.1
          · exact hc'.2.1
          · exact hc'.2.2.1
          · exact hc'.2.2.2
      · rw [if_neg hg] at hf
        exact absurd hf List.not_mem_nil
    · by_cases hg : TT.selected (chars% "nats") c = true
      · rw [if_pos hg] at hf
        exact nats_occurs h5 (selected_iff.mp hg) f hf
      · rw [if_neg hg] at hf
        exact absurd hf List.not_mem_nil

/-! ## What they do -/

variable {M C E : Type} {w : World M C E} {pkg : Str} {s : Service} {cfg : TT.Config}

theorem comes {p : Prog} {α : Type} {run : Calls M C E → Ans M C E α} {a : Ans M C E α} (N : Nat) (h : ∀ n, run (calls w p (n + N)) = a) : Comes w p run a :=
  ⟨N, fun n hn => by obtain ⟨d, rfl⟩ := Nat.exists_eq_add_of_le hn; rw [Nat.add_comm]; exact h d⟩

/-- **C99** `NewEndpoints` calls nothing of the implementation. The method of an rpc on what it makes calls the implementation's method of
that rpc exactly once, with the same context and request, and gives back its response, or nil and its error. An endpoint that gets anything
but a pointer to the rpc's request panics before the implementation is called. -/
theorem C99_endpoints (ho : Ordinary pkg s) (hw : Implements w s) : ∃ es : Val M C E,
    (∀ h, Comes w (program pkg s cfg) (fun k => k.invoke (.func (chars% "server.NewEndpoints")) [.service] h) (.ok [es] h)) ∧
    (∀ m ∈ s.methods, ∀ c r h, Comes w (program pkg s cfg) (fun k => k.method es m.name [.ctx c, .msg (requestType m) r] h)
      (.ok (answer m (w.impl h ⟨m.name, c, r⟩)) (h ++ [.call ⟨m.name, c, r⟩]))) ∧
    (∀ m ∈ s.methods, ∀ c v h, (∀ r, v ≠ .msg (requestType m) r) →
      Comes w (program pkg s cfg) (fun k => k.method es m.name [.ctx c, v] h) (.panic h)) := by
  refine ⟨endpointsVal (madeEndpoint .service) s, fun h => comes 2 fun n => new_endpoints ho, fun m hm c r h => comes 3 fun n => ?_,
    fun m hm c v h hv => comes 2 fun n => ?_⟩
  · refine endpoints_method ho hm (field_look ho hm) ?_
    exact endpoint_call (ho.names m hm).2.1 (service_method (pkg := pkg) (cfg := cfg) (k := calls w (program pkg s cfg) n) hw hm)
  · exact endpoints_panic ho hm (field_look ho hm) (endpoint_wrong (ho.names m hm).2.1 hv)

/-- **C99** A call over gRPC, from the method of the client that `NewGRPCClient` makes to the server that `MakeGRPCServer` makes from these
endpoints, is exactly one call of the implementation's method of that rpc: with the request (or what a nil request is sent as), in the context
that the client's options, the network, the metadata and the server's options make of the caller's, in this order; its response or
the status of its error comes back. If a nil request cannot be sent, the client gets that error and nothing is called. Nothing is called before. -/
theorem C99_grpc (ho : Ordinary pkg s) (hg : TT.selected (chars% "grpc") cfg = true) (hw : Implements w s) (serverOptions clientOptions : List (Val M C E)) : ∃ es srv client : Val M C E,
    (∀ h, Comes w (program pkg s cfg) (fun k => k.invoke (.func (chars% "server.NewEndpoints")) [.service] h) (.ok [es] h)) ∧
    (∀ h, Comes w (program pkg s cfg) (fun k => k.invoke (.func (chars% "pb.MakeGRPCServer")) (es :: serverOptions) h) (.ok [srv] h)) ∧
    (∀ h, Comes w (program pkg s cfg) (fun k => k.invoke (.func (chars% "pb.NewGRPCClient")) (.lib dialed [.text (pkg ++ '.' :: s.name), srv] :: clientOptions) h)
      (.ok [client, .nil] h)) ∧
    ∀ m ∈ s.methods, ∀ c r h,
      (∀ q, Carried w (requestType m) r q → ∀ call : Call M C,
        call = ⟨m.name, serverContext w serverOptions (w.network (clientContext w clientOptions c)), some q⟩ →
        Comes w (program pkg s cfg) (fun k => k.method client m.name [.ctx c, .msg (requestType m) r] h) (.ok (remoteAnswer w m (w.impl h call)) (h ++ [.call call]))) ∧
      (∀ e, NotSent w (requestType m) r e → Comes w (program pkg s cfg) (fun k => k.method client m.name [.ctx c, .msg (requestType m) r] h) (.ok [.nil, .error e] h)) := by
  refine ⟨endpointsVal (madeEndpoint .service) s, grpcServerVal (madeEndpoint .service) serverOptions s,
    endpointsVal (clientVal pkg s.name (.lib dialed [.text (pkg ++ '.' :: s.name), grpcServerVal (madeEndpoint .service) serverOptions s]) clientOptions) s,
    fun h => comes 2 fun n => new_endpoints ho, fun h => comes 2 fun n => make_server ho hg, fun h => comes 2 fun n => new_client ho hg,
    fun m hm c r h => ⟨fun q hq call hcall => comes 6 fun n => ?_, fun e he => comes 4 fun n =>
      endpoints_method (a := (none, some e)) ho hm (field_look ho hm) (client_unsent ho hg hm he)⟩⟩
  subst hcall
  rw [← remote_answer]
  refine endpoints_method ho hm (field_look ho hm) ?_
  rw [remote_answer]
  refine client_call (k := calls w (program pkg s cfg) (n + 3)) ho hg hw hm hq ?_
  refine server_method (k := calls w (program pkg s cfg) (n + 1)) ho hg hm ?_
  exact endpoint_call (k := calls w (program pkg s cfg) (n + 1)) (ho.names m hm).2.1 (service_method (pkg := pkg) (cfg := cfg) (k := calls w (program pkg s cfg) n) hw hm)

/-- **C99** If the server is registered under another name than the client's, every call over gRPC fails with the error of an unimplemented
method and nothing is called. -/
theorem C99_grpc_name (ho : Ordinary pkg s) (hg : TT.selected (chars% "grpc") cfg = true) {registered : Str} (hn : registered ≠ pkg ++ '.' :: s.name) (srv : Val M C E) (clientOptions : List (Val M C E)) :
    ∃ client : Val M C E,
      (∀ h, Comes w (program pkg s cfg) (fun k => k.invoke (.func (chars% "pb.NewGRPCClient")) (.lib dialed [.text registered, srv] :: clientOptions) h)
        (.ok [client, .nil] h)) ∧
      ∀ m ∈ s.methods, ∀ c r h, Comes w (program pkg s cfg) (fun k => k.method client m.name [.ctx c, .msg (requestType m) (some r)] h) (.ok [.nil, .error w.unimplemented] h) := by
  refine ⟨endpointsVal (clientVal pkg s.name (.lib dialed [.text registered, srv]) clientOptions) s, fun h => comes 2 fun n => new_client ho hg,
    fun m hm c r h => comes 4 fun n => ?_⟩
  refine endpoints_method (a := (none, some w.unimplemented)) ho hm (field_look ho hm) ?_
  exact client_unknown ho hg hm hn

/-- **C99** The endpoints of a service as it is generated, before anything is written into service.go, answer every rpc with an empty message and
no error. -/
theorem C99_fresh (ho : Ordinary pkg s) : ∃ es : Val M C E,
    (∀ h, Comes w (program pkg s cfg) (fun k => k.invoke (.func (chars% "server.Endpoints")) [] h) (.ok [es] h)) ∧
    ∀ m ∈ s.methods, ∀ c r h, Comes w (program pkg s cfg) (fun k => k.method es m.name [.ctx c, .msg (requestType m) r] h)
      (.ok [.msg (responseType m) (some (w.empty (responseType m))), .nil] h) := by
  refine ⟨endpointsVal (madeEndpoint (freshService s)) s, fun h => comes 3 fun n => ?_, fun m hm c r h => comes 3 fun n => ?_⟩
  · exact endpoints_func ho
  · refine endpoints_method (a := (some (w.empty (responseType m)), none)) ho hm (field_look ho hm) ?_
    exact endpoint_call (a := (some (w.empty (responseType m)), none)) (ho.names m hm).2.1 (stub_method ho hm)

/-! ## A case -/

namespace Example
open Baron.TT.Example (third conf rpcA rpcC)

/-- A service that doubles, and fails for zero. -/
def world : World Nat Str Str where
  empty _ := 0
  responses := third.methods.map fun m => (m.name, responseType m)
  impl h call := match call.req with
    | none => (none, none)
    | some 0 => (none, some (chars% "zero"))
    | some n => (some (2 * n + h.length), none)
  metadata c := c ++ chars% "+meta"
  option o c := match o with
    | .text x => c ++ x
    | _ => c
  network _ := chars% "net"
  nilMessage _ := .ok 0
  status e := chars% "status " ++ e
  unimplemented := chars% "unimplemented"
  background := chars% "back"
  marshal v := match v with
    | .msg _ (some n) => .ok (List.replicate n '1')
    | .msg _ none => .ok (chars% "null")
    | _ => .error (chars% "marshal")
  unmarshal _ m d := if d = chars% "null" then (m, none) else if d.all (· = '1') then (d.length, none) else (m, some (chars% "unmarshal"))
  errorBody e := e
  refused _ _ := none
  inbox h := List.replicate h.length 'i'
  chosen h := h.length
  noReply := chars% "no reply"

theorem third_ordinary : Ordinary (chars% "pkg") third := by
  refine ⟨?_, ?_, ?_, ?_, ?_, ?_, ?_⟩ <;> (try unfold TT.Plain) <;> decide +kernel

theorem third_implements : Implements world third := by
  unfold Implements
  decide +kernel

example : 3 = third.methods.length := by decide +kernel

/-- C99's hypotheses can be met: a request for the second rpc over gRPC. -/
example : ∃ client : Val Nat Str Str, Comes world (program (chars% "pkg") third conf) (fun k => k.method client (chars% "C") [.ctx (chars% "c"), .msg (requestType rpcC) (some 4)] [])
    (.ok [.msg (responseType rpcC) (some 8), .nil] [.call ⟨chars% "C", chars% "net+metaS", some 4⟩]) := by
  obtain ⟨es, srv, client, -, -, -, h⟩ := C99_grpc (cfg := conf) third_ordinary (by decide +kernel) third_implements [.text (chars% "S")] [.text (chars% "K")]
  refine ⟨client, ?_⟩
  exact (h rpcC (by decide +kernel) (chars% "c") (some 4) []).1 4 (.inl rfl) _ rfl

/-- A request that the service fails for. -/
example : ∃ es : Val Nat Str Str, Comes world (program (chars% "pkg") third conf) (fun k => k.method es (chars% "A") [.ctx (chars% "c"), .msg (requestType rpcA) (some 0)] [])
    (.ok [.nil, .error (chars% "zero")] [.call ⟨chars% "A", chars% "c", some 0⟩]) := by
  obtain ⟨es, -, h, -⟩ := C99_endpoints (cfg := conf) third_ordinary third_implements
  exact ⟨es, h rpcA (by decide +kernel) (chars% "c") (some 0) []⟩

example : ∀ x ∈ sources (chars% "pkg") third conf, ∃ txt, TT.render id (chars% "pkg") third conf x.1 = some txt ∧ Occurs x.2.print txt :=
  C99_text id third conf (by decide)

end Example

end Baron.GoFunc
