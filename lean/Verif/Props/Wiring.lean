import Verif.Props.Texts
import Verif.Spec.Wiring

/-!
# C87 The text of the transport file: endpoints, gRPC and NATS
-/

namespace Baron.TT

open Baron.Svcdef Baron.HTTP

theorem each_methods {f : Val → Option Str} {s : Service} {g : ServiceMethod → Str} (h : ∀ m, f (methodVal m) = some (g m)) :
    each f (s.methods.map methodVal) = some (s.methods.flatMap g) := each_map fun m _ => h m

/-- **C87** The type `Endpoints` has one endpoint per rpc, in order, a method per rpc that runs the endpoint of that rpc, and there is one function
per rpc that makes an endpoint calling the service's method of that name; with the Go types of the rpc's request and response. -/
theorem C87_endpoints {fmt : Str → Str} {pkg : Str} {s : Service} {c : Config} {txt : Str}
    (h : render fmt pkg s c "baron/NAME.pb.baron.go.tmpl".toList = some txt) : Occurs (endpointsText s) txt := by
  obtain ⟨ms, -, t, hp, he⟩ := render_data (src := baronSrc) rfl h
  obtain ⟨a, h1, h2⟩ := exec_part 15 6 6 2 he
  rw [(parts_of hp).endpointsT] at h1
  have hr : exec endpointsT [([], dataWith pkg s c ms)] (dataWith pkg s c ms) = some (endpointsText s) := by
    unfold endpointsT endpointsText
    refine exec_text (exec_range (l := s.methods.map methodVal) rfl (each_methods fun _ => rfl) (exec_text (exec_range (l := s.methods.map methodVal) rfl
      (each_methods fun _ => rfl) (exec_text ?_))))
    refine Eq.trans (exec_within (v := dataWith pkg s c ms) (o := s.methods.flatMap (endpointMaker s.name) ++ chars% "\n") rfl rfl
      (exec_range (l := s.methods.map methodVal) rfl (each_methods fun _ => rfl) exec_text_nil) exec_text_nil) ?_
    rw [List.append_assoc]
    rfl
  rw [hr] at h1
  cases h1
  exact h2

/-- What is inside of the condition on the transport is in the file. -/
theorem grpc_inside {pkg : Str} {s : Service} {c : Config} {ms : List Val} {t : Tmpl} {txt : Str} (hp : parse baronSrc = some t)
    (he : exec t [([], dataWith pkg s c ms)] (dataWith pkg s c ms) = some txt) (hc : c.transport = "all".toList ∨ c.transport = "grpc".toList) :
    ∃ a, exec (t.skip 30).body [([], dataWith pkg s c ms)] (dataWith pkg s c ms) = some a ∧ Occurs a txt := by
  obtain ⟨_, a, h1, rfl⟩ := exec_skip (k := 30) he
  obtain ⟨b, h2, h3⟩ := exec_conds (heads_of hp).2.2.1 h1
    (v := .bool (c.transport = chars% "all" || c.transport = chars% "grpc")) rfl (by
      show (decide _ || decide _) = true
      rw [Bool.or_eq_true, decide_eq_true_eq, decide_eq_true_eq]
      exact hc)
  exact ⟨b, h2, h3.right _⟩

theorem nats_inside {pkg : Str} {s : Service} {c : Config} {ms : List Val} {t : Tmpl} {txt : Str} (hp : parse baronSrc = some t)
    (he : exec t [([], dataWith pkg s c ms)] (dataWith pkg s c ms) = some txt) (hc : c.transport = "all".toList ∨ c.transport = "nats".toList) :
    ∃ a, exec (t.skip 50).body [([], dataWith pkg s c ms)] (dataWith pkg s c ms) = some a ∧ Occurs a txt := by
  obtain ⟨_, a, h1, rfl⟩ := exec_skip (k := 50) he
  obtain ⟨b, h2, h3⟩ := exec_conds (heads_of hp).2.2.2 h1
    (v := .bool (c.transport = chars% "all" || c.transport = chars% "nats")) rfl (by
      show (decide _ || decide _) = true
      rw [Bool.or_eq_true, decide_eq_true_eq, decide_eq_true_eq]
      exact hc)
  exact ⟨b, h2, h3.right _⟩

/-- **C87** With gRPC selected: `MakeGRPCServer` has one handler per rpc, in order, with the endpoint, decoder and encoder of that rpc; the
server's method of each rpc hands its request to that handler, once. -/
theorem C87_grpc_server {fmt : Str → Str} {pkg : Str} {s : Service} {c : Config} {txt : Str}
    (h : render fmt pkg s c "baron/NAME.pb.baron.go.tmpl".toList = some txt)
    (hc : c.transport = "all".toList ∨ c.transport = "grpc".toList) :
    Occurs (grpcServerText s) txt ∧ Occurs (grpcMethodsText s) txt := by
  obtain ⟨ms, -, t, hp, he⟩ := render_data (src := baronSrc) rfl h
  obtain ⟨b, hb, ho⟩ := grpc_inside hp he hc
  constructor
  · obtain ⟨a, h1, h2⟩ := exec_part 6 0 2 7 hb
    rw [(parts_of hp).grpcServerT] at h1
    have hr : exec grpcServerT [([], dataWith pkg s c ms)] (dataWith pkg s c ms) = some (grpcServerText s) := by
      unfold grpcServerT grpcServerText
      exact exec_text (exec_range (l := s.methods.map methodVal) rfl (each_methods fun _ => rfl) exec_text_nil)
    rw [hr] at h1
    cases h1
    exact h2.trans ho
  · obtain ⟨a, h1, h2⟩ := exec_part 17 0 1 2 hb
    rw [(parts_of hp).grpcMethodsT] at h1
    have hr : exec grpcMethodsT [([], dataWith pkg s c ms)] (dataWith pkg s c ms) = some (grpcMethodsText s) := by
      unfold grpcMethodsT grpcMethodsText
      exact exec_range (l := s.methods.map methodVal) rfl (each_methods fun _ => rfl) exec_text_nil
    rw [hr] at h1
    cases h1
    exact h2.trans ho

/-- **C87** With gRPC selected: `NewGRPCClient` makes one endpoint per rpc, in order, each for the gRPC method of that rpc's name of the service
`<Go package>.<service>`, and returns each under the name of its rpc. -/
theorem C87_grpc_client {fmt : Str → Str} {pkg : Str} {s : Service} {c : Config} {txt : Str}
    (h : render fmt pkg s c "baron/NAME.pb.baron.go.tmpl".toList = some txt)
    (hc : c.transport = "all".toList ∨ c.transport = "grpc".toList) (hpkg : pkg ≠ []) : Occurs (grpcClientText pkg s) txt := by
  obtain ⟨ms, -, t, hp, he⟩ := render_data (src := baronSrc) rfl h
  obtain ⟨b, hb, ho⟩ := grpc_inside hp he hc
  obtain ⟨a, h1, h2⟩ := exec_part 24 0 4 11 hb
  rw [(parts_of hp).grpcClientT] at h1
  have hr : exec grpcClientT [([], dataWith pkg s c ms)] (dataWith pkg s c ms) = some (grpcClientText pkg s) := by
    have hpk : (Val.str pkg).truth = true := by cases pkg with
      | nil => exact absurd rfl hpkg
      | cons _ _ => rfl
    unfold grpcClientT grpcClientText
    refine exec_text (Eq.trans (exec_within (v := dataWith pkg s c ms)
      (o := (s.methods.flatMap (grpcEndpoint pkg s.name) ++ chars% "\n\t\t") ++ chars% "\n\t") rfl rfl
      (exec_within (v := .str pkg) rfl hpk (exec_range (l := s.methods.map methodVal) rfl (each_methods fun _ => rfl) exec_text_nil) exec_text_nil)
      (exec_text (exec_range (l := s.methods.map methodVal) rfl (each_methods fun _ => rfl) exec_text_nil))) ?_)
    simp only [List.append_assoc]
    rfl
  rw [hr] at h1
  cases h1
  exact h2.trans ho

/-- **C87** With NATS selected: `ServeNATS` subscribes, for each rpc in order, to the subject `<service>.<rpc>` with the service's name as queue
group, and hands the messages to the subscriber of that rpc; `MakeNATSServer` makes one subscriber per rpc, with the endpoint and the
decoder of that rpc, and the decoder of each rpc reads a request of that rpc. -/
theorem C87_nats_server {fmt : Str → Str} {pkg : Str} {s : Service} {c : Config} {txt : Str}
    (h : render fmt pkg s c "baron/NAME.pb.baron.go.tmpl".toList = some txt)
    (hc : c.transport = "all".toList ∨ c.transport = "nats".toList) :
    Occurs (natsServeText s) txt ∧ Occurs (natsServerText s) txt ∧ Occurs (natsDecodersText s) txt := by
  obtain ⟨ms, -, t, hp, he⟩ := render_data (src := baronSrc) rfl h
  obtain ⟨b, hb, ho⟩ := nats_inside hp he hc
  refine ⟨?_, ?_, ?_⟩
  · obtain ⟨a, h1, h2⟩ := exec_part 0 110 2 3 hb
    rw [(parts_of hp).natsServeT] at h1
    have hr : exec natsServeT [([], dataWith pkg s c ms)] (dataWith pkg s c ms) = some (natsServeText s) := by
      unfold natsServeT natsServeText
      refine exec_text (Eq.trans (exec_within (v := dataWith pkg s c ms)
        (o := s.methods.flatMap (natsSubscription s.name) ++ chars% "\n\treturn nil\n") rfl rfl
        (exec_range (l := s.methods.map methodVal) rfl (each_methods fun _ => rfl) exec_text_nil) exec_text_nil) ?_)
      simp only [List.append_assoc]
      rfl
    rw [hr] at h1
    cases h1
    exact h2.trans ho
  · obtain ⟨a, h1, h2⟩ := exec_part 6 0 2 7 hb
    rw [(parts_of hp).natsServerT] at h1
    have hr : exec natsServerT [([], dataWith pkg s c ms)] (dataWith pkg s c ms) = some (natsServerText s) := by
      unfold natsServerT natsServerText
      exact exec_text (exec_range (l := s.methods.map methodVal) rfl (each_methods fun _ => rfl) exec_text_nil)
    rw [hr] at h1
    cases h1
    exact h2.trans ho
  · obtain ⟨a, h1, h2⟩ := exec_part 13 0 1 2 hb
    rw [(parts_of hp).natsDecodersT] at h1
    have hr : exec natsDecodersT [([], dataWith pkg s c ms)] (dataWith pkg s c ms) = some (natsDecodersText s) := by
      unfold natsDecodersT natsDecodersText
      exact exec_range (l := s.methods.map methodVal) rfl (each_methods fun _ => rfl) exec_text_nil
    rw [hr] at h1
    cases h1
    exact h2.trans ho

/-- **C87** With NATS selected: `NewNATSClient` makes one endpoint per rpc, in order, which publishes to the subject `<service>.<rpc>` and
decodes with the decoder of that rpc, and returns each under the name of its rpc. -/
theorem C87_nats_client {fmt : Str → Str} {pkg : Str} {s : Service} {c : Config} {txt : Str}
    (h : render fmt pkg s c "baron/NAME.pb.baron.go.tmpl".toList = some txt)
    (hc : c.transport = "all".toList ∨ c.transport = "nats".toList) : Occurs (natsClientText s) txt := by
  obtain ⟨ms, -, t, hp, he⟩ := render_data (src := baronSrc) rfl h
  obtain ⟨b, hb, ho⟩ := nats_inside hp he hc
  obtain ⟨a, h1, h2⟩ := exec_part 16 0 4 11 hb
  rw [(parts_of hp).natsClientT] at h1
  have hr : exec natsClientT [([], dataWith pkg s c ms)] (dataWith pkg s c ms) = some (natsClientText s) := by
    unfold natsClientT natsClientText
    refine exec_text (Eq.trans (exec_within (v := dataWith pkg s c ms)
      (o := s.methods.flatMap (natsEndpoint s.name) ++ chars% "\n\t") rfl rfl
      (exec_range (l := s.methods.map methodVal) rfl (each_methods fun _ => rfl) exec_text_nil)
      (exec_text (exec_range (l := s.methods.map methodVal) rfl (each_methods fun _ => rfl) exec_text_nil))) ?_)
    simp only [List.append_assoc]
    rfl
  rw [hr] at h1
  cases h1
  exact h2.trans ho

/-! ## Names on the wire -/

theorem literal_clean {p r : Str} (h : Plain p) : literal (p ++ '"' :: r) = some (p, r) := by
  refine literalGo_clean h.1 h.2.1 h.2.2 _ ?_
  simp only [List.length_append, List.length_cons]
  omega

theorem plain_dotted {a b : Str} (ha : Plain a) (hb : Plain b) : Plain (a ++ '.' :: b) := by
  have : ∀ c : Char, c ∉ a → c ∉ b → c ≠ '.' → c ∉ a ++ '.' :: b := by
    intro c h1 h2 h3 h
    rcases List.mem_append.mp h with h | h
    · exact h1 h
    · rcases List.mem_cons.mp h with h | h
      · exact h3 h
      · exact h2 h
  exact ⟨this _ ha.1 hb.1 (by decide), this _ ha.2.1 hb.2.1 (by decide), this _ ha.2.2 hb.2.2 (by decide)⟩

/-- **C87** Server and client agree on the subject of every rpc: the string literal given to the server's subscription and the one given to the
client's publisher have the same value, the service's and the rpc's name with a dot between. -/
theorem C87_subjects {fmt : Str → Str} {pkg : Str} {s : Service} {c : Config} {txt : Str}
    (h : render fmt pkg s c "baron/NAME.pb.baron.go.tmpl".toList = some txt)
    (hc : c.transport = "all".toList ∨ c.transport = "nats".toList) (hs : Plain s.name) {m : ServiceMethod} (hm : m ∈ s.methods)
    (hn : Plain m.name) :
    (∃ A B r, txt = A ++ ((toLower m.name ++ chars% "Sub, err := conn.QueueSubscribe(\"") ++ B) ∧
      literal B = some (s.name ++ '.' :: m.name, r)) ∧
    (∃ A B r, txt = A ++ ((toLower m.name ++ chars% "Endpoint = natstransport.NewPublisher(\n\t\t\t\t\tconn,\n\t\t\t\t\t\"") ++ B) ∧
      literal B = some (s.name ++ '.' :: m.name, r)) := by
  constructor
  · have ho : Occurs (natsSubscription s.name m) txt :=
      (((occurs_flatMap hm).left _).right _).trans (C87_nats_server h hc).1
    obtain ⟨A, B, rfl⟩ := ho
    refine ⟨A ++ chars% "\n\t\t", (s.name ++ '.' :: m.name) ++ '"' :: (chars% ", \"" ++ (s.name ++ (chars% "\", srv." ++ (m.name ++
      (chars% ".ServeMsg(conn))\n\t\tif err != nil {\n\t\t\treturn err\n\t\t}\n\t\t_ = " ++ (toLower m.name ++ (chars% "Sub\n\t" ++ B))))))), _, ?_,
      literal_clean (plain_dotted hs hn)⟩
    simp only [natsSubscription, List.flatten_cons, List.flatten_nil, List.append_assoc]
    rfl
  · have ho : Occurs (natsEndpoint s.name m) txt :=
      (((occurs_flatMap hm).left _).right _).trans (C87_nats_client h hc)
    obtain ⟨A, B, rfl⟩ := ho
    refine ⟨A ++ (chars% "\n\t\t\tvar " ++ (toLower m.name ++ chars% "Endpoint endpoint.Endpoint\n\t\t\t{\n\t\t\t\t")),
      (s.name ++ '.' :: m.name) ++ '"' :: (chars% ",\n\t\t\t\t\tEncodeNATSGenericRequest,\n\t\t\t\t\tDecodeNATS" ++ (m.name ++
      (chars% "Response,\n\t\t\t\t\toptions...,\n\t\t\t\t).Endpoint()\n\t\t\t}\n\t\t" ++ B))), _, ?_,
      literal_clean (plain_dotted hs hn)⟩
    simp only [natsEndpoint, List.flatten_cons, List.flatten_nil, List.append_assoc]
    rfl

/-- **C87** The gRPC client calls, for every rpc, the method of the rpc's name of the service `<Go package>.<service>`: these are the values of
the two literals. -/
theorem C87_grpc_names {fmt : Str → Str} {pkg : Str} {s : Service} {c : Config} {txt : Str}
    (h : render fmt pkg s c "baron/NAME.pb.baron.go.tmpl".toList = some txt)
    (hc : c.transport = "all".toList ∨ c.transport = "grpc".toList) (hpkg : pkg ≠ []) (hp : Plain pkg) (hs : Plain s.name)
    {m : ServiceMethod} (hm : m ∈ s.methods) (hn : Plain m.name) :
    ∃ A B C r, txt = A ++ ((toLower m.name ++ chars% "Endpoint = grpctransport.NewClient(\n\t\t\tconn,\n\t\t\t\"") ++ B) ∧
      literal B = some (pkg ++ '.' :: s.name, chars% ",\n\t\t\t\"" ++ C) ∧ literal C = some (m.name, r) := by
  have ho : Occurs (grpcEndpoint pkg s.name m) txt :=
    (((occurs_flatMap hm).left _).right _).trans (C87_grpc_client h hc hpkg)
  obtain ⟨A, B, rfl⟩ := ho
  refine ⟨A ++ (chars% "\n\tvar " ++ (toLower m.name ++ chars% "Endpoint endpoint.Endpoint\n\t{\n\t\t")),
    (pkg ++ '.' :: s.name) ++ '"' :: (chars% ",\n\t\t\t\"" ++ (m.name ++ '"' :: (chars% ",\n\t\t\tEncodeGRPC" ++ (m.name ++
    (chars% "Request,\n\t\t\tDecodeGRPC" ++ (m.name ++ (chars% "Response,\n\t\t\t" ++ (goType m.response ++
    (chars% "{},\n\t\t\toptions...,\n\t\t).Endpoint()\n\t}\n\t\t\t" ++ B))))))))), _, _, ?_,
    literal_clean (plain_dotted hp hs), literal_clean hn⟩
  simp only [grpcEndpoint, List.flatten_cons, List.flatten_nil, List.append_assoc]
  rfl

/-! ## An example -/

namespace Example

example : ∃ txt, render id "pb".toList third { conf with transport := "all".toList } "baron/NAME.pb.baron.go.tmpl".toList = some txt ∧ Occurs (endpointsText third) txt ∧
    Occurs (grpcClientText "pb".toList third) txt ∧ Occurs (natsClientText third) txt ∧ Occurs (natsServeText third) txt := by
  obtain ⟨txt, h⟩ := C84_render id "pb".toList third { conf with transport := "all".toList } "baron/NAME.pb.baron.go.tmpl".toList (by decide +kernel)
  exact ⟨txt, h, C87_endpoints h, C87_grpc_client h (.inl rfl) (by decide), C87_nats_client h (.inl rfl), (C87_nats_server h (.inl rfl)).1⟩

example : Plain third.name ∧ ∀ m ∈ third.methods, Plain m.name := by
  unfold Plain
  decide +kernel

example : natsServeText ⟨"S".toList, [rpcA, rpcB]⟩ = ("\nfunc ServeNATS(conn *nats.Conn, srv *natsServer) error {\n" ++
    "\n\t\taSub, err := conn.QueueSubscribe(\"S.A\", \"S\", srv.A.ServeMsg(conn))\n\t\tif err != nil {\n\t\t\treturn err\n\t\t}\n\t\t_ = aSub\n\t" ++
    "\n\t\tbSub, err := conn.QueueSubscribe(\"S.B\", \"S\", srv.B.ServeMsg(conn))\n\t\tif err != nil {\n\t\t\treturn err\n\t\t}\n\t\t_ = bSub\n\t" ++
    "\n\treturn nil\n\n}\n").toList := by decide +kernel

end Example

end Baron.TT
