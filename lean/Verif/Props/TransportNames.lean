import Verif.Props.Decoder

/-!
# C75: no unused, undefined or hidden names in the generated transport file
-/

namespace Baron.Locals

open Baron.Scope Baron.HTTPCode Baron.Idents Baron.DecoderNames

/-- The names among `topLevel` that are types. -/
def typeNames : List Str :=
  ["Endpoints", "LabeledMiddleware", "errorWrapper", "httpError", "grpcServer", "natsServer"].map String.toList

/-- The Go package of the transport file of a service: it declares what the file itself declares, protoc's interface of
the service with the type to embed, and the messages of its rpcs; and protoc made the names. -/
structure PackageOf (pkg : Outer) (t : Str) (s : Svcdef.Service) : Prop where
  values : ∀ x ∈ topLevel t s, x ∉ typeNames → pkg.value x = true
  types : ∀ x ∈ topLevel t s, x ∈ typeNames → pkg.type x = true
  service : Exported s.name
  server : pkg.type (s.name ++ "Server".toList) = true
  embedded : pkg.type ("Unimplemented".toList ++ s.name ++ "Server".toList) = true
  distinct : (names s).Nodup
  rpcs : ∀ m ∈ s.methods, Exported m.name
  requests : ∀ m ∈ s.methods, Exported (reqT m) ∧ pkg.type (reqT m) = true
  responses : ∀ m ∈ s.methods, Exported (respT m) ∧ pkg.type (respT m) = true
  params : ∀ m ∈ s.methods, ∀ b ∈ m.bindings, ∀ p ∈ b.params, PlainParam p

/-- The conditions for the decoders, read off the service. -/
def DecodersOK (g : Outer) (s : Svcdef.Service) : Prop :=
  ∀ m ∈ s.methods, ∀ b ∈ m.bindings,
    DecoderOK g (Strs.goCamelCase m.name) ((bindingFields b).filter fun f => f.location ≠ "body".toList)
      ((bindingOneofs b).filter fun o => o.location = "query".toList)

section
variable {pkg : Outer} {t : Str} {s : Svcdef.Service} (h : PackageOf pkg t s)

theorem outer_import {x : Str} (hx : x ∈ transportImports (grpcOn t) (natsOn t)) :
    ((transportFile t s).outer pkg).value x = true := by
  show (_ || decide (x ∈ transportImports (grpcOn t) (natsOn t))) = true
  rw [decide_eq_true hx, Bool.or_true]

theorem outer_value {x : Str} (hx : pkg.value x = true) : ((transportFile t s).outer pkg).value x = true := by
  show (pkg.value x || _) = true
  rw [hx, Bool.true_or]

theorem imports_sub : ∀ g n : Bool, ∀ x ∈ transportImports false false, x ∈ transportImports g n := by decide +kernel

theorem fixedNames_sub : ∀ g n : Bool, ∀ x ∈ fixedNames g n, (x ∈ fixed g n ∧ x ∉ typeNames) ∨ x ∈ transportImports g n := by
  decide +kernel

theorem fixedTypes_sub : ∀ g n : Bool, ∀ x ∈ fixedTypes g n, x ∈ fixed g n ∧ x ∈ typeNames := by
  decide +kernel

include h in
theorem seen_le : (seen (grpcOn t) (natsOn t)).le ((transportFile t s).outer pkg) := by
  refine lists_le ?_ ?_
  · intro x hx
    rcases fixedNames_sub _ _ x hx with ⟨h1, h2⟩ | h1
    · exact outer_value (h.values x (List.mem_append_left _ h1) h2)
    · exact outer_import h1
  · intro x hx
    obtain ⟨h1, h2⟩ := fixedTypes_sub _ _ x hx
    exact h.types x (List.mem_append_left _ h1) h2

theorem seen_mono : ∀ g n : Bool, (∀ x ∈ fixedNames g false, x ∈ fixedNames g n) ∧ (∀ x ∈ fixedTypes g false, x ∈ fixedTypes g n) ∧
    (∀ x ∈ fixedNames false n, x ∈ fixedNames g n) ∧ (∀ x ∈ fixedTypes false n, x ∈ fixedTypes g n) := by
  decide +kernel

theorem lists_sub {vs ts vs' ts' : List Str} (h1 : ∀ x ∈ vs, x ∈ vs') (h2 : ∀ x ∈ ts, x ∈ ts') :
    (lists vs ts).le (lists vs' ts') :=
  lists_le (fun x hx => decide_eq_true (h1 x hx)) (fun x hx => decide_eq_true (h2 x hx))

theorem le_trans' {a b c : Outer} (h1 : a.le b) (h2 : b.le c) : a.le c := ⟨fun x hx => h2.1 x (h1.1 x hx), fun x hx => h2.2 x (h1.2 x hx)⟩

include h in
theorem seen_ff : (seen false false).le ((transportFile t s).outer pkg) :=
  le_trans' (lists_sub (seen_mono false (natsOn t)).1 (seen_mono false (natsOn t)).2.1)
    (le_trans' (lists_sub (seen_mono (grpcOn t) (natsOn t)).2.2.1 (seen_mono (grpcOn t) (natsOn t)).2.2.2) (seen_le h))

include h in
theorem seen_tf (hg : grpcOn t = true) : (seen true false).le ((transportFile t s).outer pkg) := by
  have := seen_le h
  rw [hg] at this
  exact le_trans' (lists_sub (seen_mono true (natsOn t)).1 (seen_mono true (natsOn t)).2.1) this

include h in
theorem seen_ft (hn : natsOn t = true) : (seen false true).le ((transportFile t s).outer pkg) := by
  have := seen_le h
  rw [hn] at this
  exact le_trans' (lists_sub (seen_mono (grpcOn t) true).2.2.1 (seen_mono (grpcOn t) true).2.2.2) this

theorem not_type {pre n suf : Str} (hp : pre.take 3 ∈ ["Mak", "Dec", "Enc"].map String.toList) (hl : 3 ≤ pre.length) :
    pre ++ n ++ suf ∉ typeNames := by
  intro hx
  have h1 : (pre ++ n ++ suf).take 3 = pre.take 3 := by
    rw [List.append_assoc, List.take_append_of_le_length hl]
  have h2 : ∀ x ∈ typeNames, x.take 3 ∉ ["Mak", "Dec", "Enc"].map String.toList := by decide +kernel
  exact h2 _ hx (h1 ▸ hp)

include h in
theorem family_value {pre suf : Str} {ns : List Str} (hf : Family.mk pre suf ns ∈ families (grpcOn t) (natsOn t) s) {n : Str}
    (hn : n ∈ ns) (hp : pre.take 3 ∈ ["Mak", "Dec", "Enc"].map String.toList) (hl : 3 ≤ pre.length) :
    ((transportFile t s).outer pkg).value (pre ++ n ++ suf) = true :=
  outer_value (h.values _ (List.mem_append_right _ (List.mem_flatMap.2 ⟨_, hf, List.mem_map.2 ⟨n, hn, rfl⟩⟩)) (not_type hp hl))

theorem mem_httpMethods {m : Svcdef.ServiceMethod} (hm : m ∈ httpMethods s) : m ∈ s.methods := (List.mem_filter.1 hm).1

theorem label_mem {m : Svcdef.ServiceMethod} (hm : m ∈ httpMethods s) {l : Str} (hl : l ∈ HTTP.methodLabels m) :
    l ∈ HTTP.serviceLabels s := by
  exact List.mem_flatMap.2 ⟨m, hm, hl⟩

theorem upper_server (hs : Exported s.name) : upper (serverT s) = true := upper_append (upper_of hs)

theorem Surrounded.mono {req : Str} {g g' : Outer} (hle : g.le g') (hs : Surrounded g req) : Surrounded g' req :=
  ⟨fun x hx => hle.1 x (hs.imports x hx), hle.2 _ hs.error, hs.exported, hle.2 _ hs.request⟩

include h in
theorem surrounded_of {m : Svcdef.ServiceMethod} (hm : m ∈ s.methods) : Surrounded ((transportFile t s).outer pkg) (reqT m) where
  imports := fun x hx => outer_import (imports_sub _ _ x hx)
  error := (seen_ff h).2 _ (by decide +kernel)
  exported := (h.requests m hm).1
  request := (h.requests m hm).2

include h in
theorem newGRPC_iff (hg : grpcOn t = true) :
    FuncOK ((transportFile t s).outer pkg) (newGRPCClient s) ↔ ((names s).map toLower).Nodup := by
  refine newGRPCClient_iff (seen_tf h hg) ?_ (upper_server h.service) h.server ?_
  · intro n hn
    obtain ⟨m, hm, rfl⟩ := List.mem_map.1 hn
    exact h.rpcs m hm
  · intro m hm
    refine ⟨upper_of (h.responses m hm).1, (h.responses m hm).2, ?_, ?_⟩
    · refine family_value h (pre := "EncodeGRPC".toList) (suf := "Request".toList) (ns := names s) ?_ (List.mem_map.2 ⟨m, hm, rfl⟩)
        (by decide +kernel) (by decide)
      unfold families; rw [hg, if_pos rfl]
      exact List.mem_append_left _ (List.mem_append_right _ (by simp only [List.mem_cons, true_or, or_true]))
    · refine family_value h (pre := "DecodeGRPC".toList) (suf := "Response".toList) (ns := names s) ?_ (List.mem_map.2 ⟨m, hm, rfl⟩)
        (by decide +kernel) (by decide)
      unfold families; rw [hg, if_pos rfl]
      exact List.mem_append_left _ (List.mem_append_right _ (by simp only [List.mem_cons, true_or, or_true]))

include h in
theorem newNATS_iff (hn : natsOn t = true) :
    FuncOK ((transportFile t s).outer pkg) (newNATSClient s) ↔ ((names s).map toLower).Nodup := by
  refine newNATSClient_iff (seen_ft h hn) ?_ (upper_server h.service) h.server ?_
  · intro n hn
    obtain ⟨m, hm, rfl⟩ := List.mem_map.1 hn
    exact h.rpcs m hm
  · intro m hm
    refine family_value h (pre := "DecodeNATS".toList) (suf := "Response".toList) (ns := names s) ?_ (List.mem_map.2 ⟨m, hm, rfl⟩)
      (by decide +kernel) (by decide)
    unfold families; rw [hn, if_pos rfl]
    exact List.mem_append_right _ (by simp only [List.mem_cons, true_or, or_true])

include h in
theorem grpc_funcs (hg : grpcOn t = true) (hd : ((names s).map toLower).Nodup) :
    ∀ fn ∈ [makeGRPCServer s] ++ s.methods.map grpcMethod ++
      s.methods.flatMap (fun m => [grpcConvert "grpcReq" "req" (reqT m), grpcConvert "response" "resp" (respT m)]) ++
      [metadataToContext, newGRPCClient s] ++
      s.methods.flatMap (fun m => [grpcConvert "grpcReply" "reply" (respT m), grpcConvert "request" "req" (reqT m)]) ++
      [valuesToMetadata], FuncOK ((transportFile t s).outer pkg) fn := by
  have hf : ∀ f ∈ [metadataToContext, valuesToMetadata], FuncOK ((transportFile t s).outer pkg) f := fun f hf =>
    run_mono (seen_tf h hg) (fixed_grpc_ok f hf)
  have hc := fun (m : Svcdef.ServiceMethod) (hm : m ∈ s.methods) =>
    grpcConvert_ok (seen_ff h) (upper_of (h.requests m hm).1) (h.requests m hm).2
  have hc' := fun (m : Svcdef.ServiceMethod) (hm : m ∈ s.methods) =>
    grpcConvert_ok (seen_ff h) (upper_of (h.responses m hm).1) (h.responses m hm).2
  intro fn hfn
  rcases List.mem_append.1 hfn with hfn | hfn
  rcases List.mem_append.1 hfn with hfn | hfn
  rcases List.mem_append.1 hfn with hfn | hfn
  rcases List.mem_append.1 hfn with hfn | hfn
  rcases List.mem_append.1 hfn with hfn | hfn
  · rw [List.mem_singleton.1 hfn]
    refine makeGRPCServer_ok (seen_tf h hg) (upper_server h.service) h.server fun m hm => ⟨?_, ?_⟩
    · refine family_value h (pre := "DecodeGRPC".toList) (suf := "Request".toList) (ns := names s) ?_ (List.mem_map.2 ⟨m, hm, rfl⟩)
        (by decide +kernel) (by decide)
      unfold families; rw [hg, if_pos rfl]
      exact List.mem_append_left _ (List.mem_append_right _ (by simp only [List.mem_cons, true_or, or_true]))
    · refine family_value h (pre := "EncodeGRPC".toList) (suf := "Response".toList) (ns := names s) ?_ (List.mem_map.2 ⟨m, hm, rfl⟩)
        (by decide +kernel) (by decide)
      unfold families; rw [hg, if_pos rfl]
      exact List.mem_append_left _ (List.mem_append_right _ (by simp only [List.mem_cons, true_or, or_true]))
  · obtain ⟨m, hm, rfl⟩ := List.mem_map.1 hfn
    exact grpcMethod_ok (seen_tf h hg) (upper_of (h.requests m hm).1) (upper_of (h.responses m hm).1) (h.requests m hm).2
      (h.responses m hm).2
  · obtain ⟨m, hm, hx⟩ := List.mem_flatMap.1 hfn
    simp only [List.mem_cons, List.not_mem_nil, or_false] at hx
    rcases hx with rfl | rfl
    · exact (hc m hm).1
    · exact (hc' m hm).2.1
  · simp only [List.mem_cons, List.not_mem_nil, or_false] at hfn
    rcases hfn with rfl | rfl
    · exact hf _ (List.mem_cons_self ..)
    · exact (newGRPC_iff h hg).2 hd
  · obtain ⟨m, hm, hx⟩ := List.mem_flatMap.1 hfn
    simp only [List.mem_cons, List.not_mem_nil, or_false] at hx
    rcases hx with rfl | rfl
    · exact (hc' m hm).2.2.1
    · exact (hc m hm).2.2.2
  · rw [List.mem_singleton.1 hfn]
    exact hf _ (List.mem_cons_of_mem _ (List.mem_cons_self ..))

include h in
theorem nats_funcs (hn : natsOn t = true) (hd : ((names s).map toLower).Nodup) :
    ∀ fn ∈ [serveNATS s, makeNATSServer s] ++ s.methods.map (fun m => natsDecode "req" (reqT m)) ++
      [natsGenericResponse, newNATSClient s] ++ s.methods.map (fun m => natsDecode "resp" (respT m)) ++
      [natsGenericRequest], FuncOK ((transportFile t s).outer pkg) fn := by
  have hf : ∀ f ∈ [natsGenericResponse, natsGenericRequest], FuncOK ((transportFile t s).outer pkg) f := fun f hf =>
    run_mono (seen_ft h hn) (fixed_nats_ok f hf)
  intro fn hfn
  rcases List.mem_append.1 hfn with hfn | hfn
  rcases List.mem_append.1 hfn with hfn | hfn
  rcases List.mem_append.1 hfn with hfn | hfn
  rcases List.mem_append.1 hfn with hfn | hfn
  · simp only [List.mem_cons, List.not_mem_nil, or_false] at hfn
    rcases hfn with rfl | rfl
    · exact (serveNATS_iff (seen_ft h hn) s).2 hd
    · refine makeNATSServer_ok (seen_ft h hn) fun m hm => ?_
      refine family_value h (pre := "DecodeNATS".toList) (suf := "Request".toList) (ns := names s) ?_ (List.mem_map.2 ⟨m, hm, rfl⟩)
        (by decide +kernel) (by decide)
      unfold families; rw [hn, if_pos rfl]
      exact List.mem_append_right _ (by simp only [List.mem_cons, true_or])
  · obtain ⟨m, hm, rfl⟩ := List.mem_map.1 hfn
    exact (natsDecode_ok (seen_ft h hn) (upper_of (h.requests m hm).1) (h.requests m hm).2).1
  · simp only [List.mem_cons, List.not_mem_nil, or_false] at hfn
    rcases hfn with rfl | rfl
    · exact hf _ (List.mem_cons_self ..)
    · exact (newNATS_iff h hn).2 hd
  · obtain ⟨m, hm, rfl⟩ := List.mem_map.1 hfn
    exact (natsDecode_ok (seen_ft h hn) (upper_of (h.responses m hm).1) (h.responses m hm).2).2
  · rw [List.mem_singleton.1 hfn]
    exact hf _ (List.mem_cons_of_mem _ (List.mem_cons_self ..))

include h in
theorem handler_ok : FuncOK ((transportFile t s).outer pkg) (makeHTTPHandler s) := by
  refine makeHTTPHandler_ok (seen_ff h) fun m hm l hl => ?_
  refine family_value h (pre := "DecodeHTTP".toList) (suf := "Request".toList) (ns := HTTP.serviceLabels s) ?_ (label_mem hm hl)
    (by decide +kernel) (by decide)
  unfold families
  exact List.mem_append_left _ (List.mem_append_left _ (by simp only [List.mem_cons, true_or, or_true]))

include h in
theorem httpClient_ok : FuncOK ((transportFile t s).outer pkg) (newHTTPClient s) := by
  refine newHTTPClient_ok (seen_ff h) h.distinct ?_ (upper_server h.service) h.server fun m hm => ⟨?_, fun l hl => ?_⟩
  · intro n hn
    obtain ⟨m, hm, rfl⟩ := List.mem_map.1 hn
    exact h.rpcs m hm
  · refine family_value h (pre := "DecodeHTTP".toList) (suf := "Response".toList) (ns := (httpMethods s).map (·.name)) ?_
      (List.mem_map.2 ⟨m, hm, rfl⟩) (by decide +kernel) (by decide)
    unfold families
    exact List.mem_append_left _ (List.mem_append_left _ (by simp only [List.mem_cons, true_or, or_true]))
  · refine family_value h (pre := "EncodeHTTP".toList) (suf := "Request".toList) (ns := HTTP.serviceLabels s) ?_ (label_mem hm hl)
      (by decide +kernel) (by decide)
    unfold families
    exact List.mem_append_left _ (List.mem_append_left _ (by simp only [List.mem_cons, true_or, or_true]))

include h in
theorem fixed_funcs : ∀ f ∈ [errorEncoderEvs, errorDecoderEvs] ++ httpErrorMethods ++ [genericResponse,
    headersToContext, copyURLEvs, ctxValuesToSend], FuncOK ((transportFile t s).outer pkg) f := fun f hf =>
  run_mono (seen_ff h) (fixed_ok f hf)

include h in
theorem http_funcs (hd : DecodersOK ((transportFile t s).outer pkg) s) :
    ∀ fn ∈ (httpMethods s).flatMap bindingFuncs, FuncOK ((transportFile t s).outer pkg) fn := by
  intro fn hfn
  obtain ⟨m, hm, hfn⟩ := List.mem_flatMap.1 hfn
  obtain ⟨b, hb, hfn⟩ := List.mem_flatMap.1 hfn
  have hm' := mem_httpMethods hm
  simp only [List.mem_cons, List.not_mem_nil, or_false] at hfn
  rcases hfn with rfl | rfl
  · exact (C74_decoder (surrounded_of h hm') b (h.params m hm' b hb)).2 (hd m hm' b hb)
  · exact encoder_ok (seen_ff h) (upper_of (h.requests m hm').1) (h.requests m hm').2 ..

include h in
theorem all_funcs (h0 : s.methods ≠ []) (h1 : grpcOn t = true ∨ natsOn t = true → ((names s).map toLower).Nodup)
    (h2 : DecodersOK ((transportFile t s).outer pkg) s) :
    ∀ fn ∈ (transportFile t s).funcs, FuncOK ((transportFile t s).outer pkg) fn := by
  have hf := fixed_funcs h
  intro fn hfn
  unfold transportFile at hfn
  simp only at hfn
  rcases List.mem_append.1 hfn with hfn | hfn
  rcases List.mem_append.1 hfn with hfn | hfn
  rcases List.mem_append.1 hfn with hfn | hfn
  rcases List.mem_append.1 hfn with hfn | hfn
  rcases List.mem_append.1 hfn with hfn | hfn
  rcases List.mem_append.1 hfn with hfn | hfn
  rcases List.mem_append.1 hfn with hfn | hfn
  rcases List.mem_append.1 hfn with hfn | hfn
  rcases List.mem_append.1 hfn with hfn | hfn
  · obtain ⟨m, hm, rfl⟩ := List.mem_map.1 hfn
    exact endpointMethod_ok (seen_ff h) (upper_of (h.requests m hm).1) (upper_of (h.responses m hm).1) (h.requests m hm).2
      (h.responses m hm).2
  · obtain ⟨m, hm, rfl⟩ := List.mem_map.1 hfn
    exact makeEndpoint_ok (seen_ff h) (upper_of (h.requests m hm).1) (upper_server h.service) (h.requests m hm).2 h.server
  · have : fn = wrapAll s := by
      simp only [List.mem_cons, List.not_mem_nil, or_false, or_self] at hfn
      exact hfn
    rw [this]
    exact (wrapAll_iff (seen_ff h) s).2 h0
  · split at hfn
    · rename_i hg
      exact grpc_funcs h hg (h1 (.inl hg)) fn hfn
    · cases hfn
  · rcases List.mem_cons.1 hfn with rfl | hfn
    · exact handler_ok h
    · exact hf fn (List.mem_append_left _ (List.mem_append_left _ hfn))
  · exact hf fn (List.mem_append_left _ (List.mem_append_right _ hfn))
  · simp only [List.mem_cons, List.not_mem_nil, or_false] at hfn
    rcases hfn with rfl | rfl | rfl | rfl | rfl
    · exact hf _ (List.mem_append_right _ (by simp only [List.mem_cons, true_or]))
    · exact hf _ (List.mem_append_right _ (by simp only [List.mem_cons, true_or, or_true]))
    · exact httpClient_ok h
    · exact hf _ (List.mem_append_right _ (by simp only [List.mem_cons, true_or, or_true]))
    · exact hf _ (List.mem_append_right _ (by simp only [List.mem_cons, true_or, or_true]))
  · obtain ⟨m, hm, rfl⟩ := List.mem_map.1 hfn
    have hm := mem_httpMethods hm
    exact decodeResponse_ok (seen_ff h) (upper_of (h.responses m hm).1) (h.responses m hm).2
  · exact http_funcs h h2 fn hfn
  · split at hfn
    · rename_i hn
      exact nats_funcs h hn (h1 (.inr hn)) fn hfn
    · cases hfn

/-! ## Imports -/

/-- An accepted function uses a package it mentions, unless it declares a variable of that name. -/
theorem uses_import {g : Outer} {fn : List Ev} (hf : FuncOK g fn) {x : Str} (h1 : .use x ∈ fn) (h2 : ∀ e ∈ fn, x ∉ e.decls) :
    uses g x [] (.opn :: fn ++ [.cls]) = true := by
  refine uses_of_mem hf (List.mem_append_left _ (List.mem_cons_of_mem _ h1)) nofun ?_
  intro e he
  rcases List.mem_append.1 he with he | he
  · rcases List.mem_cons.1 he with rfl | he
    · exact nofun
    · exact h2 e he
  · rw [List.mem_singleton.1 he]
    exact nofun

/-- Imports used by functions that are always there. -/
def usedHTTP : List (Str × List Ev) :=
  [("context".toList, genericResponse), ("json".toList, errorDecoderEvs), ("http".toList, genericResponse), ("url".toList, copyURLEvs),
    ("strings".toList, headersToContext), ("protojson".toList, genericResponse), ("proto".toList, genericResponse)]

theorem usedHTTP_ok : ∀ p ∈ usedHTTP, (p.2 ∈ [errorEncoderEvs, errorDecoderEvs] ++ httpErrorMethods ++ [genericResponse,
    headersToContext, copyURLEvs, ctxValuesToSend]) ∧ .use p.1 ∈ p.2 ∧ ∀ e ∈ p.2, p.1 ∉ e.decls := by decide +kernel

def always : List Str := ["fmt", "bytes", "strconv", "httptransport", "ioutil", "io", "errors", "anypb", "durationpb", "emptypb",
    "structpb", "timestamppb", "wrapperspb", "fieldmaskpb", "endpoint"].map String.toList

theorem always_values {x : Str} (hx : x ∈ always) : x ∈ (transportFile t s).values := by
  unfold transportFile
  simp only [List.map_append]
  exact List.mem_append_left _ (List.mem_append_left _ hx)

theorem values_cases {x : Str} (hx : x ∈ (transportFile t s).values) : x ∈ transportImports (grpcOn t) (natsOn t) := by
  unfold transportFile at hx
  simp only [List.map_append] at hx
  have h1 : ∀ g n : Bool, ∀ x ∈ always, x ∈ transportImports g n := by decide +kernel
  have h2 : ∀ n : Bool, "grpctransport".toList ∈ transportImports true n := by decide +kernel
  have h3 : ∀ g : Bool, "natstransport".toList ∈ transportImports g true := by decide +kernel
  rcases List.mem_append.1 hx with hx | hx
  rcases List.mem_append.1 hx with hx | hx
  · exact h1 _ _ x hx
  · split at hx
    · rename_i hc
      rw [hc.1, List.mem_singleton.1 hx]
      exact h2 _
    · cases hx
  · split at hx
    · rename_i hc
      rw [hc.1, List.mem_singleton.1 hx]
      exact h3 _
    · cases hx

theorem imports_cases : ∀ g n : Bool, ∀ x ∈ transportImports g n, x ∈ always ∨ (∃ p ∈ usedHTTP, p.1 = x) ∨ x = "mux".toList ∨
    (g = true ∧ x ∈ ["grpc".toList, "metadata".toList, "grpctransport".toList]) ∨
    (n = true ∧ x ∈ ["nats".toList, "natstransport".toList]) := by decide +kernel

theorem mem_part {fn : List Ev} (hfn : fn ∈ makeHTTPHandler s :: ([errorEncoderEvs, errorDecoderEvs] ++ httpErrorMethods ++
    [genericResponse, headersToContext, copyURLEvs, ctxValuesToSend])) : fn ∈ (transportFile t s).funcs := by
  unfold transportFile
  simp only
  simp only [List.mem_append, List.mem_cons, List.not_mem_nil, or_false] at hfn ⊢
  rcases hfn with h | ((h | h) | h) | h | h | h | h
  all_goals simp only [h, true_or, or_true]

theorem mem_grpc (hg : grpcOn t = true) {fn : List Ev} (hfn : fn ∈ [metadataToContext, newGRPCClient s, valuesToMetadata]) :
    fn ∈ (transportFile t s).funcs := by
  unfold transportFile
  simp only
  rw [hg, if_pos rfl]
  simp only [List.mem_append, List.mem_cons, List.not_mem_nil, or_false] at hfn ⊢
  rcases hfn with h | h | h
  all_goals simp only [h, true_or, or_true]

theorem mem_nats (hn : natsOn t = true) {fn : List Ev} (hfn : fn ∈ [serveNATS s, natsGenericRequest]) :
    fn ∈ (transportFile t s).funcs := by
  unfold transportFile
  simp only
  rw [hn, if_pos rfl]
  simp only [List.mem_append, List.mem_cons, List.not_mem_nil, or_false] at hfn ⊢
  rcases hfn with h | h
  all_goals simp only [h, true_or, or_true]

theorem handler_decls {e : Ev} (he : e ∈ makeHTTPHandler s) : "mux".toList ∉ e.decls := by
  have h1 : ∀ e ∈ [T "Endpoints", U "httptransport", U "http", P "endpoints", P "options"], "mux".toList ∉ e.decls := by
    decide +kernel
  have h2 : ∀ e ∈ [U "httptransport", U "httptransport", U "HTTPHeadersToContext", U "httptransport",
    U "errorEncoder", U "httptransport", U "httptransport", U "contentType", S ["serverOptions"], U "serverOptions",
    U "options", A "serverOptions"], "mux".toList ∉ e.decls := by decide +kernel
  have h3 : ∀ e ∈ [U "mux", S ["m"]], "mux".toList ∉ e.decls := by decide +kernel
  unfold makeHTTPHandler at he
  rcases List.mem_append.1 he with he | he
  rcases List.mem_append.1 he with he | he
  rcases List.mem_append.1 he with he | he
  rcases List.mem_append.1 he with he | he
  · exact h1 e he
  · split at he
    · cases he
    · exact h2 e he
  · exact h3 e he
  · obtain ⟨m, _, he⟩ := List.mem_flatMap.1 he
    obtain ⟨l, _, he⟩ := List.mem_flatMap.1 he
    simp only [List.mem_cons, List.not_mem_nil, or_false] at he
    rcases he with rfl | rfl | rfl | rfl | rfl | rfl <;> exact nofun
  · rw [List.mem_singleton.1 he]; exact nofun

include h in
theorem imports_used (hf : ∀ fn ∈ (transportFile t s).funcs, FuncOK ((transportFile t s).outer pkg) fn) :
    ∀ i ∈ (transportFile t s).imports, i ∈ (transportFile t s).values ∨ ∃ fn ∈ (transportFile t s).funcs,
      uses ((transportFile t s).outer pkg) i [] (.opn :: fn ++ [.cls]) = true := by
  intro x hx
  rcases imports_cases _ _ x hx with hx | ⟨p, hp, rfl⟩ | rfl | ⟨hg, hx⟩ | ⟨hn, hx⟩
  · exact .inl (always_values hx)
  · obtain ⟨h1, h2, h3⟩ := usedHTTP_ok p hp
    exact .inr ⟨p.2, mem_part (List.mem_cons_of_mem _ h1), uses_import (fixed_funcs h _ h1) h2 h3⟩
  · refine .inr ⟨makeHTTPHandler s, mem_part (List.mem_cons_self ..), uses_import (handler_ok h) ?_ fun e he => handler_decls he⟩
    unfold makeHTTPHandler
    refine List.mem_append_left _ (List.mem_append_left _ (List.mem_append_right _ ?_))
    exact List.mem_cons_self ..
  · simp only [List.mem_cons, List.not_mem_nil, or_false] at hx
    rcases hx with rfl | rfl | rfl
    · refine .inr ⟨newGRPCClient s, mem_grpc hg (by simp only [List.mem_cons, true_or, or_true]), ?_⟩
      unfold newGRPCClient
      rfl
    · refine .inr ⟨metadataToContext, mem_grpc hg (by simp only [List.mem_cons, true_or]), ?_⟩
      refine uses_import (hf _ (mem_grpc hg (by simp only [List.mem_cons, true_or]))) (by decide +kernel) (by decide +kernel)
    · refine .inr ⟨valuesToMetadata, mem_grpc hg (by simp only [List.mem_cons, true_or, or_true]), ?_⟩
      refine uses_import (hf _ (mem_grpc hg (by simp only [List.mem_cons, true_or, or_true]))) (by decide +kernel) (by decide +kernel)
  · refine .inr ⟨natsGenericRequest, mem_nats hn (by simp only [List.mem_cons, true_or, or_true]), ?_⟩
    have hu : ∀ x ∈ ["nats".toList, "natstransport".toList], .use x ∈ natsGenericRequest ∧
        ∀ e ∈ natsGenericRequest, x ∉ e.decls := by decide +kernel
    exact uses_import (hf _ (mem_nats hn (by simp only [List.mem_cons, true_or, or_true]))) (hu x hx).1 (hu x hx).2

end

theorem transports {t : Str} : (grpcOn t = true ∨ natsOn t = true) ↔ t = "all".toList ∨ t = "grpc".toList ∨ t = "nats".toList := by
  unfold grpcOn natsOn
  simp only [Bool.or_eq_true, decide_eq_true_eq]
  constructor
  · rintro ((h | h) | h | h) <;> simp only [h, true_or, or_true]
  · rintro (h | h | h) <;> simp only [h, true_or, or_true]

/-- **C75** The names in the transport file are accepted by the compiler exactly if the service has an rpc; with gRPC or NATS no
two rpcs differ only in case; and the decoders of all bindings can name their fields and oneofs (C74). -/
theorem C75_transport {pkg : Outer} {t : Str} {s : Svcdef.Service} (h : PackageOf pkg t s) :
    FileOK pkg (transportFile t s) ↔ s.methods ≠ [] ∧
      (t = "all".toList ∨ t = "grpc".toList ∨ t = "nats".toList → ((names s).map toLower).Nodup) ∧
      DecodersOK ((transportFile t s).outer pkg) s := by
  rw [← transports]
  constructor
  · intro hf
    refine ⟨?_, ?_, ?_⟩
    · refine (wrapAll_iff (seen_ff h) s).1 (hf.funcs _ ?_)
      unfold transportFile
      simp only [List.mem_append, List.mem_cons, true_or, or_true]
    · rintro (hg | hn)
      · exact (newGRPC_iff h hg).1 (hf.funcs _ (mem_grpc hg (by simp only [List.mem_cons, true_or, or_true])))
      · exact (serveNATS_iff (seen_ft h hn) s).1 (hf.funcs _ (mem_nats hn (by simp only [List.mem_cons, true_or])))
    · intro m hm b hb
      refine (C74_decoder (surrounded_of h hm) b (h.params m hm b hb)).1 (hf.funcs _ ?_)
      have hm' : m ∈ httpMethods s := List.mem_filter.2 ⟨hm, by
        cases hbs : m.bindings with
        | nil => rw [hbs] at hb; cases hb
        | cons _ _ => rfl⟩
      unfold transportFile
      simp only
      refine List.mem_append_left _ (List.mem_append_right _ ?_)
      exact List.mem_flatMap.2 ⟨m, hm', List.mem_flatMap.2 ⟨b, hb, List.mem_cons_self ..⟩⟩
  · intro ⟨h0, h1, h2⟩
    have hf := all_funcs h h0 h1 h2
    refine ⟨hf, fun x hx => outer_import (values_cases hx), fun x hx => ?_, imports_used h hf⟩
    have : x = embedded s := List.mem_singleton.1 hx
    rw [this]
    exact h.embedded

/-! ## Examples -/

namespace TransportExample

open DecoderExample

def svc : Svcdef.Service := ⟨"Shop".toList, [⟨"Get".toList, request, request, [binding good]⟩, ⟨"Put".toList, request, request, []⟩]⟩

/-- Two rpcs that differ in case. -/
def svc2 : Svcdef.Service := ⟨"Shop".toList, [⟨"GetIt".toList, request, request, []⟩, ⟨"Getit".toList, request, request, []⟩]⟩

def svc0 : Svcdef.Service := ⟨"Shop".toList, []⟩

/-- The package: what the file declares, and what protoc does. -/
def pkgOf (t : String) (s : Svcdef.Service) : Outer := lists (topLevel t.toList s)
  (typeNames ++ ["ShopServer", "UnimplementedShopServer", "GetRequest", "Filter", "Kind"].map String.toList)

theorem packageOf (t : String) (s : Svcdef.Service) (hs : s = svc ∨ s = svc2 ∨ s = svc0) : PackageOf (pkgOf t s) t.toList s where
  values := fun x hx _ => decide_eq_true hx
  types := fun x _ hx => decide_eq_true (List.mem_append_left _ hx)
  service := exported_iff.2 (by rcases hs with rfl | rfl | rfl <;> decide +kernel)
  server := decide_eq_true (List.mem_append_right _ (by rcases hs with rfl | rfl | rfl <;> decide +kernel))
  embedded := decide_eq_true (List.mem_append_right _ (by rcases hs with rfl | rfl | rfl <;> decide +kernel))
  distinct := by rcases hs with rfl | rfl | rfl <;> decide +kernel
  rpcs := by
    intro m hm
    rw [exported_iff]
    revert m
    rcases hs with rfl | rfl | rfl <;> decide +kernel
  requests := by
    have : ∀ m ∈ s.methods, upper (reqT m) = true ∧
        reqT m ∈ ["ShopServer", "UnimplementedShopServer", "GetRequest", "Filter", "Kind"].map String.toList := by
      rcases hs with rfl | rfl | rfl <;> decide +kernel
    exact fun m hm => ⟨exported_iff.2 (this m hm).1, decide_eq_true (List.mem_append_right _ (this m hm).2)⟩
  responses := by
    have : ∀ m ∈ s.methods, upper (respT m) = true ∧
        respT m ∈ ["ShopServer", "UnimplementedShopServer", "GetRequest", "Filter", "Kind"].map String.toList := by
      rcases hs with rfl | rfl | rfl <;> decide +kernel
    exact fun m hm => ⟨exported_iff.2 (this m hm).1, decide_eq_true (List.mem_append_right _ (this m hm).2)⟩
  params := by
    intro m hm b hb p hp
    rcases hs with rfl | rfl | rfl
    · simp only [svc, List.mem_cons, List.not_mem_nil, or_false] at hm
      rcases hm with rfl | rfl
      · rw [List.mem_singleton.1 hb] at hp
        exact good_plain p hp
      · cases hb
    · simp only [svc2, List.mem_cons, List.not_mem_nil, or_false] at hm
      rcases hm with rfl | rfl <;> cases hb
    · cases hm

/-- The conditions are met by a service with an rpc over HTTP with parameters of all kinds and one without. -/
example : FileOK (pkgOf "all" svc) (transportFile "all".toList svc) := by
  refine (C75_transport (packageOf "all" svc (.inl rfl))).2 ⟨nofun, fun _ => by decide +kernel, ?_⟩
  intro m hm b hb
  simp only [svc, List.mem_cons, List.not_mem_nil, or_false] at hm
  rcases hm with rfl | rfl
  · rw [List.mem_singleton.1 hb]
    exact (C74_decoder (m := ⟨"Get".toList, request, request, [binding good]⟩) (surrounded_of (packageOf "all" svc (.inl rfl))
      (List.mem_cons_self ..)) (binding good) good_plain).1 (by decide +kernel)
  · cases hb

/-- The rpcs `GetIt` and `Getit` are fine over HTTP, but not with gRPC or NATS. -/
theorem C75_case_witness : FileOK (pkgOf "http" svc2) (transportFile "http".toList svc2) ∧
    ∀ t ∈ ["all", "grpc", "nats"], ¬FileOK (pkgOf t svc2) (transportFile t.toList svc2) := by
  constructor
  · refine (C75_transport (packageOf "http" svc2 (.inr (.inl rfl)))).2 ⟨nofun, fun h => absurd h (by decide +kernel), ?_⟩
    intro m hm b hb
    simp only [svc2, List.mem_cons, List.not_mem_nil, or_false] at hm
    rcases hm with rfl | rfl <;> cases hb
  · intro t ht hf
    have ht' : ∀ t ∈ ["all", "grpc", "nats"], t.toList = "all".toList ∨ t.toList = "grpc".toList ∨ t.toList = "nats".toList := by
      decide +kernel
    have := ((C75_transport (packageOf t svc2 (.inr (.inl rfl)))).1 hf).2.1 (ht' t ht)
    revert this
    decide +kernel

/-- A service without rpcs has a transport file that does not compile. -/
theorem C75_no_rpc_witness (t : String) : ¬FileOK (pkgOf t svc0) (transportFile t.toList svc0) := fun hf =>
  ((C75_transport (packageOf t svc0 (.inr (.inr rfl)))).1 hf).1 rfl

end TransportExample

end Baron.Locals
