import Verif.Props.Wiring
import Verif.Proofs.FileParts
import Verif.Spec.Files

/-!
# C88 The text of the files of the service
-/

namespace Baron.TT

open Baron.Svcdef Baron.HTTP

theorem map_some {α β : Type} {o : Option α} {f : α → β} {b : β} (h : o.map f = some b) {a : α} (ha : o = some a) : f a = b := by
  rw [ha] at h
  exact Option.some.inj h

/-- **C88** A service.go that does not exist yet gets exactly this text: the package, its import, the constructor, the type, and one method per
rpc, in order, with the rpc's name, request and response. -/
theorem C88_service (fmt : Str → Str) (pkg : Str) (s : Service) (c : Config) :
    render fmt pkg s c "service/service.go.tmpl".toList = some (serviceText s c) := by
  obtain ⟨txt, h⟩ := C84_render fmt pkg s c "service/service.go.tmpl".toList (by decide +kernel)
  obtain ⟨ms, -, t, hp, he⟩ := render_data (src := serviceSrc) rfl h
  rw [h, ← he]
  have := map_some serviceT_eq hp
  subst this
  unfold serviceT serviceText
  refine exec_text (exec_action rfl (exec_text (exec_action rfl (exec_text (exec_action rfl (exec_text (exec_action rfl
    (exec_text (exec_action rfl (exec_text ?_))))))))))
  refine Eq.trans (exec_within (v := dataWith pkg s c ms) rfl rfl (exec_text (exec_range_nil (l := s.methods.map methodVal) rfl
    (each_methods fun _ => rfl))) exec_text_nil) ?_
  simp only [List.append_assoc]
  rfl

/-- **C88** The text added to a service.go that lacks some methods: one method for each of them, in order, and nothing else. -/
theorem C88_added (service : Str) (ms : List ServiceMethod) : renderMethods service ms = some (addedText service ms) := by
  obtain ⟨txt, h⟩ := C84_methods service ms
  unfold renderMethods apply at h ⊢
  cases hp : parse serviceMethodsSrc with
  | none => rw [hp] at h; cases h
  | some t =>
    simp only
    have := map_some methodsT_eq hp
    subst this
    unfold methodsT addedText
    refine Eq.trans (exec_within (v := .struct [(chars% "ServiceName", .str service), (chars% "Methods", .list (ms.map methodVal))]) rfl rfl
      (exec_text (exec_range_nil (l := ms.map methodVal) rfl (each_map (g := stub service) fun _ _ => rfl))) exec_text_nil) ?_
    simp only [List.append_assoc]
    rfl

/-- **C88** The method that a later run adds for an rpc is the one it would have had in a fresh service.go. -/
theorem C88_same_method (fmt : Str → Str) (pkg : Str) (s : Service) (c : Config) {m : ServiceMethod} (hm : m ∈ s.methods) :
    ∃ txt A B, render fmt pkg s c "service/service.go.tmpl".toList = some txt ∧ txt = A ++ (stub s.name m ++ B) ∧
      renderMethods s.name [m] = some (chars% "\n\t" ++ (stub s.name m ++ chars% "\n")) := by
  obtain ⟨A, B, h⟩ := occurs_flatMap (f := stub s.name) hm
  refine ⟨_, [chars% "package service\n\nimport (\n\t\"context\"\n\n\tpb \"", c.pbPackage, chars% "\"\n)\n\nfunc NewService() *", toLower s.name,
    chars% "Service {\n\treturn &", toLower s.name, chars% "Service{}\n}\n\ntype ", toLower s.name,
    chars% "Service struct {\n\tpb.Unimplemented", s.name, chars% "Server\n}\n\n\n\t"].flatten ++ A, B ++ chars% "\n",
    C88_service fmt pkg s c, ?_, ?_⟩
  · unfold serviceText
    rw [h]
    simp only [List.flatten_cons, List.flatten_nil, List.append_assoc]
    rfl
  · rw [C88_added]
    simp only [addedText, List.flatMap_cons, List.flatMap_nil, List.flatten_cons, List.flatten_nil, List.append_nil]

theorem selected_eval {pkg : Str} {s : Service} {c : Config} {ms : List Val} (t : Str) :
    eval [([], dataWith pkg s c ms)] (dataWith pkg s c ms) (.call3 (chars% "eq") (.dot [chars% "Config", chars% "Transport"])
      (.str (chars% "all")) (.str t)) = some (.bool (selected t c)) := rfl

theorem truth_bool (b : Bool) : (Val.bool b).truth = b := rfl

theorem if_some {b : Bool} {x : Option Str} {y : Str} (h : x = some y) : (if b = true then x else some []) = some (if b = true then y else []) := by
  cases b
  · rfl
  · exact h

theorem truth_list {α : Type} {l : List α} {ms : List Val} (h : ms.isEmpty = l.isEmpty) {x : Option Str} {y : Str} (hx : x = some y) [Decidable (l = [])] :
    (if (Val.list ms).truth = true then x else some []) = some (if l = [] then [] else y) := by
  show (if (!ms.isEmpty) = true then x else some []) = _
  rw [h]
  cases l with
  | nil => simp
  | cons a l => rw [if_neg (show ¬ (a :: l) = [] from nofun)]; exact hx

/-- **C88** server.go ends with this text: `Run` starts the HTTP server exactly if some rpc has an HTTP binding, the gRPC and the NATS server
exactly if selected; `NewEndpoints` makes one endpoint per rpc from the wrapped service and puts it under the rpc's name. -/
theorem C88_server {fmt : Str → Str} {pkg : Str} {s : Service} {c : Config} {txt : Str}
    (h : render fmt pkg s c "server/server.go.tmpl".toList = some txt) : ∃ A, txt = A ++ serverText s c := by
  obtain ⟨ms, hms, t, hp, he⟩ := render_data (src := serverSrc) rfl h
  obtain ⟨A, B, h1, rfl⟩ := exec_skip (k := 13) he
  rw [map_some runT_eq hp] at h1
  refine ⟨A, congrArg (A ++ ·) (Option.some.inj (h1.symm.trans ?_))⟩
  unfold runT serverText
  refine exec_cond (v := .list ms) rfl (truth_list (all2_isEmpty hms) exec_text_nil) (exec_text (exec_cond (selected_eval _)
    (if_some (exec_text (exec_action rfl exec_text_nil))) (exec_text (exec_cond (selected_eval _) (if_some exec_text_nil)
    (exec_text (exec_action rfl (exec_text (exec_range (l := s.methods.map methodVal) rfl (each_methods fun _ => rfl)
    (exec_text (exec_range (l := s.methods.map methodVal) rfl (each_methods fun _ => rfl) exec_text_nil))))))))))

/-- **C88** The example client's main.go ends with this text: `main` calls every rpc over gRPC if that is selected, then every rpc with an HTTP
binding over HTTP, then every rpc over NATS if that is selected; each in the order of the rpcs and with an empty request. -/
theorem C88_client {fmt : Str → Str} {pkg : Str} {s : Service} {c : Config} {txt : Str}
    (h : render fmt pkg s c "cmd/NAME-client/main.go.tmpl".toList = some txt) : ∃ A, txt = A ++ callsText s c := by
  obtain ⟨ms, hms, t, hp, he⟩ := render_data (src := cmdClientSrc) rfl h
  obtain ⟨A, B, h1, rfl⟩ := exec_skip (k := 6) he
  obtain ⟨A', B, h2, rfl⟩ := exec_chop (n := 303) h1
  clear h1
  have h1 := h2
  rw [map_some callsT_eq hp] at h1
  have : B = callsText s c := by
    refine (Option.some.inj (h1.symm.trans ?_))
    unfold callsT callsText
    refine exec_text (Eq.trans (exec_within (v := dataWith pkg s c ms) rfl rfl (exec_text (exec_cond (v := .bool (selected (chars% "grpc") c)) rfl
      (if_some (y := grpcCalls s) (exec_text (exec_action rfl (exec_text (exec_range (l := s.methods.map methodVal) rfl (each_methods fun _ => rfl)
      exec_text_nil)))))
      (exec_text (exec_cond (v := .list ms) rfl (truth_list (all2_isEmpty hms) (y := httpCalls s) (exec_text (exec_action rfl
      (exec_text (exec_range (l := ms) rfl (each_all2 hms ?_) exec_text_nil)))))
      (exec_text (exec_cond (v := .bool (selected (chars% "nats") c)) rfl
      (if_some (y := natsCalls s) (exec_text (exec_action rfl (exec_text (exec_range (l := s.methods.map methodVal) rfl (each_methods fun _ => rfl)
      exec_text_nil)))))
      exec_text_nil)))))) exec_text_nil) ?_)
    · intro m v hv
      obtain ⟨bs, -, rfl⟩ := helperMethod_bindings hv
      rfl
    · simp only [List.append_assoc]
      rfl
  rw [this]
  exact ⟨A ++ A', by rw [List.append_assoc]⟩

namespace Example

example : serviceText ⟨"Echo".toList, [rpcA]⟩ conf = ("package service\n\nimport (\n\t\"context\"\n\n\tpb \"x/pb\"\n)\n\nfunc NewService() *echoService {\n\treturn &echoService{}\n}\n" ++
    "\ntype echoService struct {\n\tpb.UnimplementedEchoServer\n}\n\n\n\t\n\t\tfunc (s *echoService) A(ctx context.Context, in *pb.In) (*pb.Out, error){\n\t\t\tvar resp pb.Out\n" ++
    "\t\t\treturn &resp, nil\n\t\t}\n\t\n").toList := by decide +kernel

/-- The example has rpcs with and without HTTP bindings, and both values of a selection. -/
example : httpRpcs third ≠ [] ∧ httpRpcs third ≠ third.methods ∧ selected (chars% "grpc") conf = true ∧ selected (chars% "nats") conf = false := by
  refine ⟨?_, ?_, ?_, ?_⟩
  · intro h; exact absurd (congrArg List.length h) (by decide +kernel)
  · intro h; exact absurd (congrArg List.length h) (by decide +kernel)
  · decide +kernel
  · decide +kernel

example : ∃ txt A, render id "pb".toList third conf "cmd/NAME-client/main.go.tmpl".toList = some txt ∧ txt = A ++ callsText third conf := by
  obtain ⟨txt, h⟩ := C84_render id "pb".toList third conf "cmd/NAME-client/main.go.tmpl".toList (by decide +kernel)
  obtain ⟨A, hA⟩ := C88_client h
  exact ⟨txt, A, h, hA⟩

end Example

end Baron.TT
