import Verif.Model.Locals
import Verif.Proofs.Scope
import Verif.Proofs.Idents

/-!
# The functions of the generated transport file that have no decoder in them
-/

namespace Baron.Locals

open Baron.Scope Baron.HTTPCode Baron.Idents

/-- The name starts with an upper-case letter. -/
def upper (x : Str) : Bool := match x with
  | c :: _ => isAsciiUpper c
  | [] => false

theorem upper_of {x : Str} (h : Exported x) : upper x = true := by
  obtain ⟨c, r, rfl, h⟩ := h
  exact h

/-- Code that is repeated, but does the same with names each time. -/
theorem run_repeat {α : Type} {g : Outer} {B : List Ev} {bs bs1 : List Block} (h1 : run g bs B = some bs1)
    (h2 : run g bs1 B = some bs1) {l : List α} (hl : l ≠ []) : run g bs (l.flatMap fun _ => B) = some bs1 := by
  cases l with
  | nil => exact absurd rfl hl
  | cons a l =>
    rw [List.flatMap_cons, run_append_some h1]
    exact run_flatMap_id fun _ _ => h2

theorem ne_suffix {x suf : Str} (h : x.drop (x.length - suf.length) ≠ suf) (p : Str) : x ≠ p ++ suf := by
  rintro rfl
  apply h
  rw [List.length_append, Nat.add_sub_cancel, List.drop_left]

theorem ne_local {x n : Str} (h : x.getLast? ≠ some 't') : x ≠ Transport.localEndpoint n := by
  rintro rfl
  apply h
  unfold Transport.localEndpoint
  rw [List.getLast?_append]
  rfl

theorem tops_flatMap {α : Type} {k : List Str} {f : α → Str} {F : α → List Ev}
    (h : ∀ a r, tops k 0 (F a ++ r) = f a :: tops k 0 r) :
    ∀ (l : List α) (r : List Ev), tops k 0 (l.flatMap F ++ r) = l.map f ++ tops k 0 r := by
  intro l
  induction l with
  | nil => intro r; rfl
  | cons a l ih =>
    intro r
    rw [List.flatMap_cons, List.append_assoc, h, ih]
    rfl

/-- Leave out the package-level names for which the context knows that they are declared. -/
macro "erases" : tactic => `(tactic| repeat (first
  | exact Erases.nil
  | (apply Erases.type; assumption; assumption)
  | (apply Erases.use; assumption; assumption)
  | (apply Erases.keep; decide +kernel)))

theorem ok_of {g : Outer} {far : Str → Bool} {es es' : List Ev} (h : Erases g far es es') (h' : FuncOK g es') : FuncOK g es :=
  h.funcOK.2 h'

/-- What the transport file sees of its imports and what it declares itself. -/
def fixedNames (g n : Bool) : List Str :=
  (["contentType", "errorEncoder", "errorDecoder", "EncodeHTTPGenericResponse", "HTTPHeadersToContext", "copyURL",
    "CtxValuesToSend", "MakeHTTPHandler", "NewHTTPClient"] ++
    (if g then ["GRPCMetadataToContext"] else []) ++
    (if n then ["EncodeNATSGenericResponse", "EncodeNATSGenericRequest"] else [])).map String.toList ++ transportImports g n

def fixedTypes (g n : Bool) : List Str :=
  (["Endpoints", "errorWrapper", "httpError"] ++ (if g then ["grpcServer"] else []) ++
    (if n then ["natsServer"] else [])).map String.toList

/-- The part of them that is always there, with what gRPC or NATS adds. -/
abbrev seen (g n : Bool) : Outer := lists (fixedNames g n) (fixedTypes g n)

/-- Functions that do not depend on the service. -/
theorem fixed_ok : ∀ f ∈ [errorEncoderEvs, errorDecoderEvs] ++ httpErrorMethods ++ [genericResponse,
    headersToContext, copyURLEvs, ctxValuesToSend], FuncOK (seen false false) f := by
  unfold FuncOK
  decide +kernel

theorem fixed_grpc_ok : ∀ f ∈ [metadataToContext, valuesToMetadata], FuncOK (seen true false) f := by
  unfold FuncOK
  decide +kernel

theorem fixed_nats_ok : ∀ f ∈ [natsGenericResponse, natsGenericRequest], FuncOK (seen false true) f := by
  unfold FuncOK
  decide +kernel

section
variable {g : Outer}

theorem endpointMethod_ok (hle : (seen false false).le g) {m : Svcdef.ServiceMethod} (h1 : upper (reqT m) = true)
    (h2 : upper (respT m) = true) (h3 : g.type (reqT m) = true) (h4 : g.type (respT m) = true) :
    FuncOK g (endpointMethod m) := by
  unfold endpointMethod errReturn
  apply ok_of (far := upper)
  · simp only [List.cons_append, List.nil_append]
    erases
  · exact run_mono hle (by decide +kernel)

theorem makeEndpoint_ok (hle : (seen false false).le g) {s : Svcdef.Service} {m : Svcdef.ServiceMethod}
    (h1 : upper (reqT m) = true) (h2 : upper (serverT s) = true) (h3 : g.type (reqT m) = true)
    (h4 : g.type (serverT s) = true) : FuncOK g (makeEndpoint s m) := by
  unfold makeEndpoint errReturn
  apply ok_of (far := upper)
  · simp only [List.cons_append, List.nil_append]
    erases
  · exact run_mono hle (by decide +kernel)

theorem grpcMethod_ok (hle : (seen true false).le g) {m : Svcdef.ServiceMethod} (h1 : upper (reqT m) = true)
    (h2 : upper (respT m) = true) (h3 : g.type (reqT m) = true) (h4 : g.type (respT m) = true) :
    FuncOK g (grpcMethod m) := by
  unfold grpcMethod errReturn
  apply ok_of (far := upper)
  · simp only [List.cons_append, List.nil_append]
    erases
  · exact run_mono hle (by decide +kernel)

theorem grpcConvert_ok (hle : (seen false false).le g) {t : Str} (h1 : upper t = true) (h3 : g.type t = true) :
    FuncOK g (grpcConvert "grpcReq" "req" t) ∧ FuncOK g (grpcConvert "response" "resp" t) ∧
    FuncOK g (grpcConvert "grpcReply" "reply" t) ∧ FuncOK g (grpcConvert "request" "req" t) := by
  unfold grpcConvert
  refine ⟨?_, ?_, ?_, ?_⟩
  all_goals
    apply ok_of (far := upper)
    · erases
    · exact run_mono hle (by decide +kernel)

theorem decodeResponse_ok (hle : (seen false false).le g) {m : Svcdef.ServiceMethod} (h2 : upper (respT m) = true)
    (h4 : g.type (respT m) = true) : FuncOK g (decodeResponse m) := by
  unfold decodeResponse errReturn
  apply ok_of (far := upper)
  · simp only [List.cons_append, List.nil_append]
    erases
  · exact run_mono hle (by decide +kernel)

theorem natsDecode_ok (hle : (seen false true).le g) {t : Str} (h1 : upper t = true) (h3 : g.type t = true) :
    FuncOK g (natsDecode "req" t) ∧ FuncOK g (natsDecode "resp" t) := by
  unfold natsDecode
  refine ⟨?_, ?_⟩
  all_goals
    apply ok_of (far := upper)
    · erases
    · exact run_mono hle (by decide +kernel)

/-! ## Functions with a piece of code for every rpc -/

/-- Repeated code, possibly not at all. -/
theorem run_const {α : Type} {B : List Ev} {bs : List Block} (h : run g bs B = some bs) (l : List α) :
    run g bs (l.flatMap fun _ => B) = some bs := run_flatMap_id fun _ _ => h

def wrapHead : List Ev :=
  [T "Endpoints", U "endpoint", P "e", P "middleware", P "excluded", S ["included"], U "excluded", .opn, S ["ex"], .opn,
    .opn, U "included", U "ex", S ["ok"], U "ok", .opn, U "fmt", U "ex", .cls, .cls, U "included", U "ex", .cls, .cls,
    U "included", .opn, S ["inc"], .opn]
def wrapStep : List Ev := [U "inc", .opn, U "e", U "middleware", U "e", .cls]

theorem wrapAll_eq (s : Svcdef.Service) : wrapAll s = wrapHead ++ s.methods.flatMap (fun _ => wrapStep) ++ [.cls, .cls] := rfl

def wrapBlocks (u : Bool) : List Block :=
  [[], [("inc".toList, u)], [("e".toList, true), ("middleware".toList, true), ("excluded".toList, true), ("included".toList, true)]]

theorem wrapAll_iff (hle : (seen false false).le g) (s : Svcdef.Service) : FuncOK g (wrapAll s) ↔ s.methods ≠ [] := by
  rw [wrapAll_eq]
  constructor
  · intro h hm
    have h := run_mono (le_all g) h
    rw [hm] at h
    revert h
    decide +kernel
  · intro h
    unfold FuncOK
    rw [List.cons_append, run_cons_some (bs' := [[]]) rfl, List.append_assoc, List.append_assoc,
      run_append_some (bs' := wrapBlocks false) (run_mono hle (by decide +kernel))]
    obtain ⟨m, l, hl⟩ := List.exists_cons_of_ne_nil h
    rw [hl, List.flatMap_cons, List.append_assoc, run_append_some (bs' := wrapBlocks true) (run_mono hle (by decide +kernel)),
      run_append_some (run_const (run_mono hle (by decide +kernel)) l)]
    exact run_mono hle (by decide +kernel)

/-- The same names for every rpc. -/
theorem makeGRPCServer_ok (hle : (seen true false).le g) {s : Svcdef.Service} (h1 : upper (serverT s) = true)
    (h2 : g.type (serverT s) = true)
    (h3 : ∀ m ∈ s.methods, g.value ("DecodeGRPC".toList ++ m.name ++ "Request".toList) = true ∧
      g.value ("EncodeGRPC".toList ++ m.name ++ "Response".toList) = true) : FuncOK g (makeGRPCServer s) := by
  unfold makeGRPCServer
  apply ok_of (far := upper)
  · apply Erases.append
    · erases
    · refine Erases.flatMap (F' := fun _ => [U "grpctransport", U "endpoints", U "serverOptions"]) fun m hm => ?_
      obtain ⟨h4, h5⟩ := h3 m hm
      have h6 : upper ("DecodeGRPC".toList ++ m.name ++ "Request".toList) = true := rfl
      have h7 : upper ("EncodeGRPC".toList ++ m.name ++ "Response".toList) = true := rfl
      unfold fn
      generalize "DecodeGRPC".toList ++ m.name ++ "Request".toList = x at h4 h6 ⊢
      generalize "EncodeGRPC".toList ++ m.name ++ "Response".toList = y at h5 h7 ⊢
      erases
  · unfold FuncOK
    rw [List.cons_append, run_cons_some (bs' := [[]]) rfl, List.append_assoc,
      run_append_some (bs' := [[("endpoints".toList, true), ("options".toList, true), ("serverOptions".toList, true)]])
      (run_mono hle (by decide +kernel)), run_append_some (run_const (run_mono hle (by decide +kernel)) _)]
    exact run_mono hle (by decide +kernel)

theorem makeNATSServer_ok (hle : (seen false true).le g) {s : Svcdef.Service}
    (h3 : ∀ m ∈ s.methods, g.value ("DecodeNATS".toList ++ m.name ++ "Request".toList) = true) :
    FuncOK g (makeNATSServer s) := by
  unfold makeNATSServer
  apply ok_of (far := upper)
  · apply Erases.append
    · erases
    · refine Erases.flatMap (F' := fun _ => [U "natstransport", U "endpoints", U "EncodeNATSGenericResponse",
        U "serverOptions"]) fun m hm => ?_
      have h4 := h3 m hm
      have h6 : upper ("DecodeNATS".toList ++ m.name ++ "Request".toList) = true := rfl
      unfold fn
      generalize "DecodeNATS".toList ++ m.name ++ "Request".toList = x at h4 h6 ⊢
      erases
  · unfold FuncOK
    rw [List.cons_append, run_cons_some (bs' := [[]]) rfl, List.append_assoc,
      run_append_some (bs' := [[("endpoints".toList, true), ("options".toList, true), ("serverOptions".toList, true)]])
      (run_mono hle (by decide +kernel)), run_append_some (run_const (run_mono hle (by decide +kernel)) _)]
    exact run_mono hle (by decide +kernel)

theorem makeHTTPHandler_ok (hle : (seen false false).le g) {s : Svcdef.Service}
    (h3 : ∀ m ∈ httpMethods s, ∀ l ∈ HTTP.methodLabels m, g.value ("DecodeHTTP".toList ++ l ++ "Request".toList) = true) :
    FuncOK g (makeHTTPHandler s) := by
  unfold makeHTTPHandler
  apply ok_of (far := upper)
  · apply Erases.append
    apply Erases.append
    apply Erases.append
    apply Erases.append
    · erases
    · exact (show Erases g upper _ (if httpMethods s = [] then [] else _) by
        split
        · exact .nil
        · erases)
    · erases
    · refine Erases.flatMap (F' := fun m => (HTTP.methodLabels m).flatMap fun _ => [U "m", U "httptransport", U "endpoints",
        U "EncodeHTTPGenericResponse", U "serverOptions"]) fun m hm => Erases.flatMap fun l hl => ?_
      have h4 := h3 m hm l hl
      have h6 : upper ("DecodeHTTP".toList ++ l ++ "Request".toList) = true := rfl
      unfold fn
      generalize "DecodeHTTP".toList ++ l ++ "Request".toList = x at h4 h6 ⊢
      erases
    · erases
  · unfold FuncOK
    by_cases hm : httpMethods s = []
    · rw [hm]
      exact run_mono hle (by decide +kernel)
    · rw [if_neg hm, List.cons_append, run_cons_some (bs' := [[]]) rfl, List.append_assoc, List.append_assoc,
        run_append_some (bs' := [[("endpoints".toList, true), ("options".toList, true), ("serverOptions".toList, true),
          ("m".toList, false)]]) (run_mono hle (by decide +kernel))]
      rw [← List.flatMap_assoc]
      cases (httpMethods s).flatMap HTTP.methodLabels with
      | nil => exact run_mono hle (by decide +kernel)
      | cons a l =>
        rw [run_append_some (run_repeat (l := a :: l) (bs1 := [[("endpoints".toList, true), ("options".toList, true),
          ("serverOptions".toList, true), ("m".toList, true)]]) (run_mono hle (by decide +kernel))
          (run_mono hle (by decide +kernel)) (List.cons_ne_nil a l))]
        exact run_mono hle (by decide +kernel)

/-- Functions that make a variable for every rpc and then use them all. -/
theorem vars_ok {α : Type} {b : Block} (hb : b.all (·.2) = true) {f : α → Str} {ep : Str} {is : List Str} {l : List α}
    (hep : Fine g [b] ep) (hepf : ∀ a ∈ l, ep ≠ f a) (his : ∀ i ∈ is, Fine g [b] i) (hif : ∀ i ∈ is, ∀ a ∈ l, i ≠ f a)
    (hf : ∀ a ∈ l, declared (f a) b = false) (hn : (l.map f).Nodup) :
    run g [b] (l.flatMap (fun a => .use ep :: .var (f a) :: .opn :: (is.map .use ++ [.assign (f a), .cls])) ++
      ((l.map fun a => .use (f a)) ++ [.cls])) = some [] := by
  have hvars := run_vars (g := g) (b := b) (bs := []) (f := f)
    (F := fun a => .use ep :: .var (f a) :: .opn :: (is.map .use ++ [.assign (f a), .cls])) (l := l) (ys := []) (by
      intro a ha zs hz hzm hd
      have hq : ∀ x : Str, (∀ a ∈ l, x ≠ f a) → x ∉ zs := fun x hx hm => by
        rcases hz x hm with h | ⟨m, hm, h⟩
        · cases h
        · exact hx m hm h
      rw [run_fine (Fine.more hep (hq _ hepf))]
      have hnd : declared (f a) (b ++ zs.map fun x => (x, false)) = false := by
        rw [declared_append, hd, Bool.false_or, Bool.eq_false_iff]
        exact fun h => hzm ((declared_map _ _ _).1 h)
      rw [run_cons_some (bs' := [b ++ (zs ++ [f a]).map fun x => (x, false)])]
      · rw [run_cons_some (bs' := [[], b ++ (zs ++ [f a]).map fun x => (x, false)]) rfl]
        have hin : ∀ js : List Str, (∀ j ∈ js, j ∈ is) → ∀ r,
            run g [[], b ++ (zs ++ [f a]).map fun x => (x, false)] (js.map .use ++ r) =
            run g [[], b ++ (zs ++ [f a]).map fun x => (x, false)] r := by
          intro js
          induction js with
          | nil => intro _ r; rfl
          | cons j js ih =>
            intro hj r
            have hji := hj j List.mem_cons_self
            rw [List.map_cons, List.cons_append, run_fine (Fine.nil (Fine.more (his j hji) ?_))]
            · exact ih (fun k hk => hj k (List.mem_cons_of_mem _ hk)) r
            · rw [List.mem_append, not_or]
              exact ⟨hq _ (hif j hji), fun h => hif j hji a ha (List.mem_singleton.1 h)⟩
        rw [hin is (fun _ h => h), run_cons_some (bs' := [[], b ++ (zs ++ [f a]).map fun x => (x, false)])]
        · rfl
        · simp only [step]
          rw [if_pos]
          refine captured_iff.2 ?_
          simp [blockNames]
      · simp only [step]
        rw [if_neg (by rw [hnd]; exact Bool.false_ne_true), List.map_append, List.append_assoc]
        rfl) hf (by simpa using hn)
  rw [List.map_nil, List.append_nil, List.nil_append] at hvars
  have huse := run_uses (g := g) (b := b ++ (l.map f).map fun x => (x, false)) (bs := []) (xs := l.map f) (by
      intro x hx
      rw [declared_append, (declared_map x false _).2 hx, Bool.or_true])
  rw [run_append_some hvars, show (l.map fun a => Ev.use (f a)) = (l.map f).map .use by rw [List.map_map]; rfl,
    run_append_some huse, run_cons_some (bs' := [])]
  · rfl
  · simp only [step]
    rw [if_pos]
    rw [List.map_append, List.all_append, Bool.and_eq_true]
    constructor
    · rw [List.all_eq_true] at hb ⊢
      intro e he
      obtain ⟨e', he', rfl⟩ := List.mem_map.1 he
      split
      · rfl
      · exact hb e' he'
    · rw [List.all_eq_true]
      intro e he
      rw [List.map_map] at he
      obtain ⟨x, hx, rfl⟩ := List.mem_map.1 he
      simp only [Function.comp_def]
      rw [if_pos hx]

theorem localEndpoint_nodup (s : Svcdef.Service) :
    (s.methods.map fun m => Transport.localEndpoint m.name).Nodup ↔ ((names s).map toLower).Nodup := by
  rw [show (s.methods.map fun m => Transport.localEndpoint m.name) =
      ((names s).map toLower).map fun x => x ++ "Endpoint".toList by
        unfold names; rw [List.map_map, List.map_map]; rfl, List.Nodup, List.pairwise_map]
  exact ⟨List.Pairwise.imp (fun {a b} h (h2 : a = b) => h (h2 ▸ rfl)),
    List.Pairwise.imp (fun h h2 => h (List.append_cancel_right h2))⟩

theorem upper_local {n : Str} (h : Exported n) : upper (Transport.localEndpoint n) = false := by
  obtain ⟨c, r, rfl, _⟩ := h
  exact isAsciiUpper_lowerC c

/-- The variables of the gRPC and NATS clients. -/
theorem clientVars_ok {s : Svcdef.Service} {is : List Str} (hn : ((names s).map toLower).Nodup)
    (hep : g.value "endpoint".toList = true)
    (his : ∀ i ∈ is, Fine g [[("conn".toList, true), ("options".toList, true)]] i ∧
      i.drop (i.length - "Endpoint".toList.length) ≠ "Endpoint".toList) :
    run g [[("conn".toList, true), ("options".toList, true)]] (s.methods.flatMap (fun m => .use "endpoint".toList ::
      .var (Transport.localEndpoint m.name) :: .opn :: (is.map .use ++ [.assign (Transport.localEndpoint m.name), .cls])) ++
      ((s.methods.map fun m => .use (Transport.localEndpoint m.name)) ++ [.cls])) = some [] := by
  refine vars_ok rfl (.inr ⟨rfl, hep⟩) (fun m _ => ne_suffix (by decide) _) (fun i hi => (his i hi).1)
    (fun i hi m _ => ne_suffix (his i hi).2 _)
    (fun m _ => ?_) ((localEndpoint_nodup s).2 hn)
  rw [Bool.eq_false_iff]
  intro h
  rcases List.mem_cons.1 (declared_names.1 h) with h | h
  · exact ne_local (x := "conn".toList) (by decide) h.symm
  · exact ne_local (x := "options".toList) (by decide) (List.mem_singleton.1 h).symm

theorem newGRPCClient_iff (hle : (seen true false).le g) {s : Svcdef.Service} (h0 : ∀ n ∈ names s, Exported n)
    (h1 : upper (serverT s) = true)
    (h2 : g.type (serverT s) = true) (h3 : ∀ m ∈ s.methods, upper (respT m) = true ∧ g.type (respT m) = true ∧
      g.value ("EncodeGRPC".toList ++ m.name ++ "Request".toList) = true ∧
      g.value ("DecodeGRPC".toList ++ m.name ++ "Response".toList) = true) :
    FuncOK g (newGRPCClient s) ↔ ((names s).map toLower).Nodup := by
  constructor
  · intro h
    rw [← localEndpoint_nodup]
    unfold FuncOK newGRPCClient at h
    rw [List.cons_append, run_cons_some (bs' := [[]]) rfl] at h
    have := (run_tops (k := []) (inner := []) nofun h).1
    simp only [List.append_assoc] at this
    have h1 : ∀ r, tops [] 0 ([U "grpc", U "grpctransport", .type (serverT s), P "conn", P "options"] ++ r) = tops [] 0 r := fun r => rfl
    rw [List.length_nil, h1, tops_flatMap (f := fun m => Transport.localEndpoint m.name) (fun a r => rfl), List.nodup_append] at this
    exact this.1
  · intro hn
    have h9 : g.type "Endpoints".toList = true := hle.2 _ (by decide +kernel)
    unfold newGRPCClient
    refine ok_of (far := upper) (es' := [U "grpc", U "grpctransport", P "conn", P "options"] ++ s.methods.flatMap (fun m =>
        .use "endpoint".toList :: .var (Transport.localEndpoint m.name) :: .opn ::
          (["grpctransport".toList, "conn".toList, "options".toList].map .use ++
            [.assign (Transport.localEndpoint m.name), .cls])) ++ [] ++
          s.methods.map fun m => .use (Transport.localEndpoint m.name)) ?_ ?_
    · refine .append (.append (.append ?_ (.flatMap fun m hm => ?_)) (.type rfl h9 .nil)) ?_
      · erases
      · obtain ⟨h10, h11, h4, h5⟩ := h3 m hm
        have hv := upper_local (h0 m.name (List.mem_map.2 ⟨m, hm, rfl⟩))
        have h6 : upper ("EncodeGRPC".toList ++ m.name ++ "Request".toList) = true := rfl
        have h7 : upper ("DecodeGRPC".toList ++ m.name ++ "Response".toList) = true := rfl
        exact .keep rfl (.keep (by simp [Ev.decls, hv]) (.keep rfl (.keep rfl (.keep rfl (.use h6 h4 (.use h7 h5 (.type h10 h11
          (.keep rfl (.keep rfl (.keep rfl .nil))))))))))
      · rw [List.map_eq_flatMap]
        exact .flatMap fun m _ => .keep rfl .nil
    · unfold FuncOK
      rw [List.append_nil, List.cons_append, run_cons_some (bs' := [[]]) rfl, List.append_assoc, List.append_assoc,
        run_append_some (bs' := [[("conn".toList, true), ("options".toList, true)]]) (run_mono hle (by decide +kernel))]
      refine clientVars_ok hn (hle.1 _ (by decide +kernel)) fun i hi => ?_
      have hv : g.value "grpctransport".toList = true := hle.1 _ (by decide +kernel)
      simp only [List.mem_cons, List.not_mem_nil, or_false] at hi
      rcases hi with rfl | rfl | rfl
      · exact ⟨.inr ⟨rfl, hv⟩, by decide⟩
      · exact ⟨.inl ⟨rfl, rfl⟩, by decide⟩
      · exact ⟨.inl ⟨rfl, rfl⟩, by decide⟩

theorem newNATSClient_iff (hle : (seen false true).le g) {s : Svcdef.Service} (h0 : ∀ n ∈ names s, Exported n)
    (h1 : upper (serverT s) = true) (h2 : g.type (serverT s) = true)
    (h3 : ∀ m ∈ s.methods, g.value ("DecodeNATS".toList ++ m.name ++ "Response".toList) = true) :
    FuncOK g (newNATSClient s) ↔ ((names s).map toLower).Nodup := by
  constructor
  · intro h
    rw [← localEndpoint_nodup]
    unfold FuncOK newNATSClient at h
    rw [List.cons_append, run_cons_some (bs' := [[]]) rfl] at h
    have := (run_tops (k := []) (inner := []) nofun h).1
    simp only [List.append_assoc] at this
    have h1 : ∀ r, tops [] 0 ([U "nats", U "natstransport", .type (serverT s), P "conn", P "options"] ++ r) = tops [] 0 r := fun r => rfl
    rw [List.length_nil, h1, tops_flatMap (f := fun m => Transport.localEndpoint m.name) (fun a r => rfl), List.nodup_append] at this
    exact this.1
  · intro hn
    have h9 : g.type "Endpoints".toList = true := hle.2 _ (by decide +kernel)
    unfold newNATSClient
    refine ok_of (far := upper) (es' := [U "nats", U "natstransport", P "conn", P "options"] ++ s.methods.flatMap (fun m =>
        .use "endpoint".toList :: .var (Transport.localEndpoint m.name) :: .opn ::
          (["natstransport".toList, "conn".toList, "EncodeNATSGenericRequest".toList, "options".toList].map .use ++
            [.assign (Transport.localEndpoint m.name), .cls])) ++ [] ++
          s.methods.map fun m => .use (Transport.localEndpoint m.name)) ?_ ?_
    · refine .append (.append (.append ?_ (.flatMap fun m hm => ?_)) (.type rfl h9 .nil)) ?_
      · erases
      · have h4 := h3 m hm
        have hv := upper_local (h0 m.name (List.mem_map.2 ⟨m, hm, rfl⟩))
        have h6 : upper ("DecodeNATS".toList ++ m.name ++ "Response".toList) = true := rfl
        exact .keep rfl (.keep (by simp [Ev.decls, hv]) (.keep rfl (.keep rfl (.keep rfl (.keep rfl (.use h6 h4
          (.keep rfl (.keep rfl (.keep rfl .nil)))))))))
      · rw [List.map_eq_flatMap]
        exact .flatMap fun m _ => .keep rfl .nil
    · unfold FuncOK
      rw [List.append_nil, List.cons_append, run_cons_some (bs' := [[]]) rfl, List.append_assoc, List.append_assoc,
        run_append_some (bs' := [[("conn".toList, true), ("options".toList, true)]]) (run_mono hle (by decide +kernel))]
      refine clientVars_ok hn (hle.1 _ (by decide +kernel)) fun i hi => ?_
      have hv : g.value "natstransport".toList = true := hle.1 _ (by decide +kernel)
      have hw : g.value "EncodeNATSGenericRequest".toList = true := hle.1 _ (by decide +kernel)
      simp only [List.mem_cons, List.not_mem_nil, or_false] at hi
      rcases hi with rfl | rfl | rfl | rfl
      · exact ⟨.inr ⟨rfl, hv⟩, by decide⟩
      · exact ⟨.inl ⟨rfl, rfl⟩, by decide⟩
      · exact ⟨.inr ⟨rfl, hw⟩, by decide⟩
      · exact ⟨.inl ⟨rfl, rfl⟩, by decide⟩

/-- Starts upper-case and is none of the variables of `NewHTTPClient`. -/
def farHTTP (x : Str) : Bool := upper x && x.reverse.take 3 != "tni".toList

theorem farHTTP_of {p q : Str} (h : upper (p ++ q) = true) (hq : 3 ≤ q.length) (hr : q.reverse.take 3 ≠ "tni".toList) :
    farHTTP (p ++ q) = true := by
  unfold farHTTP
  rw [h, Bool.true_and, bne_iff_ne, List.reverse_append, List.take_append_of_le_length (by rw [List.length_reverse]; exact hq)]
  exact hr

theorem not_farHTTP (n : Str) : farHTTP (Transport.endpointField n) = false := by
  unfold farHTTP Transport.endpointField
  rw [List.reverse_append]
  exact Bool.and_false _

theorem head_label {m : Svcdef.ServiceMethod} {l : Str} (h : (HTTP.methodLabels m).head? = some l) :
    l = m.name ++ HTTP.englishNumber 0 := by
  unfold HTTP.methodLabels at h
  cases hb : m.bindings.length with
  | zero => rw [hb] at h; cases h
  | succ k =>
    rw [hb, List.range_succ_eq_map] at h
    simpa using h.symm

theorem firstLabels_nodup {s : Svcdef.Service} (hn : (names s).Nodup) :
    ((firstLabels s).map fun x => Transport.endpointField x.2).Nodup := by
  have h1 : (s.methods.map fun m => m.name).Pairwise (· ≠ ·) := hn
  rw [List.pairwise_map] at h1
  have h2 : (httpMethods s).Pairwise fun a b => a.name ≠ b.name := h1.filter _
  unfold firstLabels
  rw [List.Nodup, List.pairwise_map, List.pairwise_filterMap]
  refine h2.imp fun {a b} hab x hx y hy he => ?_
  cases hla : (HTTP.methodLabels a).head? with
  | none => rw [hla] at hx; cases hx
  | some la =>
    cases hlb : (HTTP.methodLabels b).head? with
    | none => rw [hlb] at hy; cases hy
    | some lb =>
      rw [hla] at hx; rw [hlb] at hy
      cases hx; cases hy
      unfold Transport.endpointField at he
      have := List.append_cancel_right he
      rw [head_label hla, head_label hlb] at this
      exact hab (List.append_cancel_right this)

theorem newHTTPClient_ok (hle : (seen false false).le g) {s : Svcdef.Service} (hn : (names s).Nodup)
    (h0 : ∀ n ∈ names s, Exported n) (h1 : upper (serverT s) = true) (h2 : g.type (serverT s) = true)
    (h3 : ∀ m ∈ httpMethods s, g.value ("DecodeHTTP".toList ++ m.name ++ "Response".toList) = true ∧
      ∀ l ∈ HTTP.methodLabels m, g.value ("EncodeHTTP".toList ++ l ++ "Request".toList) = true) :
    FuncOK g (newHTTPClient s) := by
  have h9 : g.type "Endpoints".toList = true := hle.2 _ (by decide +kernel)
  have hs : farHTTP (serverT s) = true := farHTTP_of h1 (by decide) (by decide)
  unfold newHTTPClient
  refine ok_of (far := farHTTP) (es' := [U "httptransport", P "instance", P "options", U "strings", U "instance", .opn, U "instance",
    A "instance", .cls, U "url", U "instance", S ["u", "err"]] ++ errReturn [] ++ [U "u"] ++
    (firstLabels s).flatMap (fun x => .use "endpoint".toList :: .var (Transport.endpointField x.2) :: .opn ::
      (["httptransport".toList, "copyURL".toList, "u".toList, "options".toList].map .use ++
        [.assign (Transport.endpointField x.2), .cls])) ++ [] ++
      (firstLabels s).map fun x => .use (Transport.endpointField x.2)) ?_ ?_
  · refine .append (.append (.append (.append (.append ?_ ?_) ?_) (.flatMap fun x hx => ?_)) (.type (by decide) h9 .nil)) ?_
    · erases
    · unfold errReturn
      simp only [List.cons_append, List.nil_append]
      erases
    · erases
    · obtain ⟨m, hm, hl⟩ := List.mem_filterMap.1 hx
      cases hlm : (HTTP.methodLabels m).head? with
      | none => rw [hlm] at hl; cases hl
      | some l =>
        rw [hlm] at hl
        cases hl
        obtain ⟨h4, h5⟩ := h3 m hm
        have h5 := h5 l (List.mem_of_mem_head? hlm)
        have hv := not_farHTTP l
        have h6 : farHTTP ("DecodeHTTP".toList ++ m.name ++ "Response".toList) = true := farHTTP_of rfl (by decide) (by decide)
        have h7 : farHTTP ("EncodeHTTP".toList ++ l ++ "Request".toList) = true := farHTTP_of rfl (by decide) (by decide)
        exact .keep rfl (.keep (by simp [Ev.decls, hv]) (.keep rfl (.keep rfl (.keep rfl (.keep rfl (.use h7 h5 (.use h6 h4
          (.keep rfl (.keep rfl (.keep rfl .nil))))))))))
    · rw [List.map_eq_flatMap]
      exact .flatMap fun m _ => .keep rfl .nil
  · unfold FuncOK
    rw [List.append_nil, List.cons_append, run_cons_some (bs' := [[]]) rfl, List.append_assoc, List.append_assoc,
      run_append_some (bs' := [[("instance".toList, true), ("options".toList, true), ("u".toList, true), ("err".toList, true)]])
      (run_mono hle (by decide +kernel))]
    have hv : ∀ x ∈ ["endpoint".toList, "httptransport".toList, "copyURL".toList], g.value x = true := fun x hx =>
      hle.1 x (by revert x; decide +kernel)
    refine vars_ok rfl (.inr ⟨rfl, hv _ (by simp)⟩) (fun m _ => ne_suffix (by decide) _) (fun i hi => ?_) (fun i hi m _ => ?_)
      (fun x _ => ?_) (firstLabels_nodup hn)
    · simp only [List.mem_cons, List.not_mem_nil, or_false] at hi
      rcases hi with rfl | rfl | rfl | rfl
      · exact .inr ⟨rfl, hv _ (by simp)⟩
      · exact .inr ⟨rfl, hv _ (by simp)⟩
      · exact .inl ⟨rfl, rfl⟩
      · exact .inl ⟨rfl, rfl⟩
    · refine ne_suffix ?_ _
      revert i
      decide
    · rw [Bool.eq_false_iff]
      intro h
      have h := declared_names.1 h
      have hE : ∀ y ∈ ["instance".toList, "options".toList, "u".toList, "err".toList],
          y.drop (y.length - "Endpoint".toList.length) ≠ "Endpoint".toList := by decide
      exact ne_suffix (hE _ h) x.2 rfl

/-! ## `ServeNATS` -/

def subName (m : Svcdef.ServiceMethod) : Str := toLower m.name ++ "Sub".toList

def serveStep (m : Svcdef.ServiceMethod) : List Ev :=
  [U "conn", U "srv", U "conn", .short [subName m, "err".toList], U "err", .opn, U "err", .cls, .use (subName m)]

theorem serveNATS_eq (s : Svcdef.Service) :
    serveNATS s = [U "nats", T "natsServer", P "conn", P "srv"] ++ s.methods.flatMap serveStep := rfl

theorem markB_all {b : Block} (h : b.all (·.2) = true) (x : Str) : markB x b = b := by
  unfold markB
  refine List.map_congr_left (g := id) ?_ |>.trans (List.map_id _)
  intro e he
  have := List.all_eq_true.1 h e he
  split
  · exact Prod.ext rfl this.symm
  · rfl

theorem mem_markB {x : Str} {b : Block} {e : Str × Bool} (h : e ∈ markB x b) : e.2 = true ∨ (e ∈ b ∧ e.1 ≠ x) := by
  unfold markB at h
  obtain ⟨e', he', rfl⟩ := List.mem_map.1 h
  split
  · exact .inl rfl
  · rename_i hn; exact .inr ⟨he', hn⟩

theorem serveStep_ok {b : Block} (hb : b.all (·.2) = true) (hc : declared "conn".toList b = true)
    (hs : declared "srv".toList b = true) (m : Svcdef.ServiceMethod) (hm : declared (subName m) b = false) :
    ∃ b', run g [b] (serveStep m) = some [b'] ∧ b'.all (·.2) = true ∧
      ∀ x, declared x b' = true ↔ declared x b = true ∨ x = subName m ∨ x = "err".toList := by
  have hne : subName m ≠ "err".toList := (ne_suffix (by decide) _).symm
  unfold serveStep
  unfold U
  rw [run_cons_some (step_use_here hc), markB_all hb, run_cons_some (step_use_here hs), markB_all hb,
    run_cons_some (step_use_here hc), markB_all hb]
  generalize hnew : [subName m, "err".toList].filter (fun x => !declared x b) = new
  have hsub : subName m ∈ new := by rw [← hnew]; exact List.mem_filter.2 ⟨by simp, by rw [hm]; rfl⟩
  have hall : ∀ x ∈ new, x = subName m ∨ x = "err".toList := by
    intro x hx
    rw [← hnew] at hx
    simpa using (List.mem_filter.1 hx).1
  have herr : "err".toList ∈ new ∨ declared "err".toList b = true := by
    cases hd : declared "err".toList b with
    | true => exact .inr rfl
    | false => left; rw [← hnew]; exact List.mem_filter.2 ⟨by simp, by rw [hd]; rfl⟩
  have hnd : new.Nodup := by
    rw [← hnew]
    exact List.Nodup.sublist List.filter_sublist (List.nodup_cons.2 ⟨fun h => hne (List.mem_singleton.1 h), by decide⟩)
  have hd1 : ∀ x, declared x (b ++ new.map fun x => (x, false)) = true ↔ declared x b = true ∨ x ∈ new := by
    intro x
    rw [declared_append, Bool.or_eq_true, declared_map]
  have he1 : declared "err".toList (b ++ new.map fun x => (x, false)) = true := (hd1 _).2 herr.symm
  have hs1 : declared (subName m) (b ++ new.map fun x => (x, false)) = true := (hd1 _).2 (.inr hsub)
  have hstep : step g [b] (.short [subName m, "err".toList]) = some [b ++ new.map fun x => (x, false)] := by
    simp only [step]
    rw [hnew, if_neg]
    rw [not_or, Decidable.not_not]
    exact ⟨List.ne_nil_of_mem hsub, hnd⟩
  have hnil : ∀ c : Block, declared "err".toList c = true → step g [[], c] (.use "err".toList) = some [[], markB "err".toList c] := by
    intro c hc
    simp only [step]
    rw [if_pos (captured_iff.2 (by simpa [blockNames] using declared_names.1 hc))]
    unfold mark
    rw [if_neg (by decide)]
    unfold mark
    rw [if_pos hc]
  refine ⟨markB (subName m) (markB "err".toList (markB "err".toList (b ++ new.map fun x => (x, false)))), ?_, ?_, ?_⟩
  · rw [run_cons_some hstep, run_cons_some (step_use_here he1), run_cons_some (bs' := [[], _]) rfl,
      run_cons_some (hnil _ (by rw [declared_markB]; exact he1)), run_cons_some (bs' := [markB "err".toList (markB "err".toList _)]) rfl,
      run_cons_some (step_use_here (by rw [declared_markB, declared_markB]; exact hs1))]
    rfl
  · rw [List.all_eq_true] at hb ⊢
    intro e he
    rcases mem_markB he with h | ⟨h, h1⟩
    · exact h
    rcases mem_markB h with h | ⟨h, h2⟩
    · exact h
    rcases mem_markB h with h | ⟨h, _⟩
    · exact h
    rcases List.mem_append.1 h with h | h
    · exact hb e h
    · obtain ⟨x, hx, rfl⟩ := List.mem_map.1 h
      exact ((hall x hx).elim h1 h2).elim
  · intro x
    rw [declared_markB, declared_markB, declared_markB, hd1]
    constructor
    · rintro (h | h)
      · exact .inl h
      · exact .inr (hall x h)
    · rintro (h | rfl | rfl)
      · exact .inl h
      · exact .inr hsub
      · exact herr.symm

theorem serveNATS_run {l : List Svcdef.ServiceMethod} : ∀ {b : Block}, b.all (·.2) = true → declared "conn".toList b = true →
    declared "srv".toList b = true → (l.map subName).Nodup → (∀ m ∈ l, declared (subName m) b = false) →
    ∃ b', run g [b] (l.flatMap serveStep) = some [b'] ∧ b'.all (·.2) = true := by
  induction l with
  | nil => intro b hb _ _ _ _; exact ⟨b, rfl, hb⟩
  | cons m l ih =>
    intro b hb hc hs hn hf
    obtain ⟨b1, h1, h2, h3⟩ := serveStep_ok (g := g) hb hc hs m (hf m List.mem_cons_self)
    rw [List.flatMap_cons, run_append_some h1]
    rw [List.map_cons, List.nodup_cons] at hn
    refine ih h2 ((h3 _).2 (.inl hc)) ((h3 _).2 (.inl hs)) hn.2 fun m' hm' => ?_
    rw [Bool.eq_false_iff]
    intro h
    rcases (h3 _).1 h with h | h | h
    · rw [hf m' (List.mem_cons_of_mem _ hm')] at h; cases h
    · exact hn.1 (h ▸ List.mem_map.2 ⟨m', hm', rfl⟩)
    · exact ne_suffix (by decide) _ h.symm

theorem subName_nodup (s : Svcdef.Service) : (s.methods.map subName).Nodup ↔ ((names s).map toLower).Nodup := by
  rw [show s.methods.map subName = ((names s).map toLower).map fun x => x ++ "Sub".toList by
        unfold names; rw [List.map_map, List.map_map]; rfl, List.Nodup, List.pairwise_map]
  exact ⟨List.Pairwise.imp (fun {a b} h (h2 : a = b) => h (h2 ▸ rfl)),
    List.Pairwise.imp (fun h h2 => h (List.append_cancel_right h2))⟩

def connBlock : Block := [("conn".toList, true), ("srv".toList, true)]

theorem serveNATS_iff (hle : (seen false true).le g) (s : Svcdef.Service) :
    FuncOK g (serveNATS s) ↔ ((names s).map toLower).Nodup := by
  have hpre : run g [[]] [U "nats", T "natsServer", P "conn", P "srv"] = some [connBlock] := run_mono hle (by decide +kernel)
  have hfree : ∀ m : Svcdef.ServiceMethod, declared (subName m) connBlock = false := by
    intro m
    rw [Bool.eq_false_iff]
    intro h
    have hE : ∀ y ∈ ["conn".toList, "srv".toList], y.drop (y.length - "Sub".toList.length) ≠ "Sub".toList := by decide
    exact ne_suffix (hE _ (declared_names.1 h)) _ rfl
  rw [← subName_nodup, serveNATS_eq]
  unfold FuncOK
  rw [List.cons_append, run_cons_some (bs' := [[]]) rfl, List.append_assoc, run_append_some hpre]
  constructor
  · intro h
    cases hl : s.methods with
    | nil => exact List.nodup_nil
    | cons m l =>
      rw [hl, List.flatMap_cons, List.append_assoc] at h
      obtain ⟨b1, h1, h2, h3⟩ := serveStep_ok (g := g) (b := connBlock) (by decide) (by decide) (by decide) m (hfree m)
      rw [run_append_some h1] at h
      obtain ⟨hn, hf⟩ := run_tops (k := ["err".toList]) (inner := []) (c := b1)
        (by intro x hx; exact (h3 x).2 (.inr (.inr (List.mem_singleton.1 hx)))) h
      have htop : ∀ (a : Svcdef.ServiceMethod) (r : List Ev),
          tops ["err".toList] 0 (serveStep a ++ r) = subName a :: tops ["err".toList] 0 r := by
        intro a r
        have hne : subName a ≠ "err".toList := (ne_suffix (by decide) _).symm
        have hfil : ([subName a, "err".toList].filter fun x => decide (x ∉ ["err".toList])) = [subName a] := by
          have hd : decide (subName a ∉ ["err".toList]) = true := decide_eq_true fun h => hne (List.mem_singleton.1 h)
          rw [List.filter_cons_of_pos (p := fun x => decide (x ∉ ["err".toList])) hd, List.filter_cons_of_neg (by decide), List.filter_nil]
        have ht : tops ["err".toList] 0 (serveStep a ++ r) =
            match [subName a, "err".toList].filter fun x => decide (x ∉ ["err".toList]) with
            | [x] => x :: tops ["err".toList] 0 r
            | _ => tops ["err".toList] 0 r := rfl
        rw [ht, hfil]
      rw [List.length_nil, tops_flatMap htop] at hn hf
      rw [List.map_cons, List.nodup_cons]
      refine ⟨fun hm => ?_, (List.nodup_append.1 hn).1⟩
      have := hf _ (List.mem_append_left _ hm)
      rw [(h3 _).2 (.inr (.inl rfl))] at this
      cases this
  · intro hn
    obtain ⟨b', h1, h2⟩ := serveNATS_run (g := g) (b := connBlock) (by decide) (by decide) (by decide) hn fun m _ => hfree m
    rw [run_append_some h1, run_cons_some (bs' := [])]
    · rfl
    · simp only [step]
      rw [if_pos h2]

/-! ## The encoders -/

/-- The variables of an encoder; `values` may not have been used yet. -/
def encBlock (u : Bool) : Block :=
  [("r".toList, true), ("request".toList, true), ("strval".toList, true), ("req".toList, true), ("path".toList, true),
    ("u".toList, true), ("err".toList, true), ("values".toList, u), ("tmp".toList, true)]

theorem run_either {α : Type} {F : α → List Ev} {l : List α}
    (h : ∀ a ∈ l, ∀ u, ∃ u', run g [encBlock u] (F a) = some [encBlock u']) :
    ∀ u, ∃ u', run g [encBlock u] (l.flatMap F) = some [encBlock u'] := by
  induction l with
  | nil => intro u; exact ⟨u, rfl⟩
  | cons a l ih =>
    intro u
    obtain ⟨u1, h1⟩ := h a List.mem_cons_self u
    rw [List.flatMap_cons, run_append_some h1]
    exact ih (fun x hx => h x (List.mem_cons_of_mem _ hx)) u1

theorem encodeField_run (hle : (seen false false).le g) (f : HField) (u : Bool) :
    ∃ u', run g [encBlock u] (encodeField f) = some [encBlock u'] := by
  unfold encodeField
  have h : ∀ es ∈ [[U "req", .opn, S ["v"], .opn, U "values", U "fmt", U "v", .cls, .cls],
      [U "json", U "req", A "tmp", A "err"] ++ errReturn [U "errors"] ++ [U "tmp", A "strval", U "values", U "strval"],
      [U "req", .opn, U "values", U "fmt", U "req", .cls], [U "values", U "fmt", U "req"]],
      run g [encBlock u] es = some [encBlock true] := by
    intro es hes
    refine run_mono hle ?_
    revert es
    cases u <;> decide +kernel
  split
  · split
    · exact ⟨_, h _ (by simp)⟩
    · split
      · exact ⟨_, h _ (by simp)⟩
      · split
        · exact ⟨_, h _ (by simp)⟩
        · exact ⟨_, h _ (by simp)⟩
  · exact ⟨u, rfl⟩

theorem encodeOneof_run (hle : (seen false false).le g) (o : HOneof) (u : Bool) :
    ∃ u', run g [encBlock u] (encodeOneofEvs o) = some [encBlock u'] := by
  unfold encodeOneofEvs
  split
  · refine run_either (fun p _ u => ?_) u
    split
    · exact ⟨true, run_mono hle (by cases u <;> decide +kernel)⟩
    · exact ⟨true, run_mono hle (by cases u <;> decide +kernel)⟩
  · exact ⟨u, rfl⟩

def encPre : List Ev :=
  [U "context", U "http", P "r", P "request", S ["strval"], U "strval", U "request", S ["req"], U "req",
    U "r", U "r", U "r", U "strings"]

theorem encoder_ok (hle : (seen false false).le g) {req : Str} (h1 : upper req = true) (h2 : g.type req = true)
    (verb path : Str) (fs : List HField) (os : List HOneof) : FuncOK g (encoder req verb path fs os) := by
  have hke : ∀ es : List Ev, (es.all fun e => e.decls.all fun x => !upper x) = true → Erases g upper es es := by
    intro es
    induction es with
    | nil => intro _; exact .nil
    | cons e es ih =>
      intro h
      rw [List.all_cons, Bool.and_eq_true] at h
      exact .keep h.1 (ih h.2)
  have hke' : ∀ {α : Type} (F : α → List Ev) (l : List α), (∀ a, ((F a).all fun e => e.decls.all fun x => !upper x) = true) →
      Erases g upper (l.flatMap F) (l.flatMap F) := fun F l h => .flatMap fun a _ => hke _ (h a)
  unfold encoder
  refine ok_of (far := upper) (es' := encPre ++ sectionEvs path ++ [S ["path"], U "url", U "path", S ["u", "err"]] ++
    [U "err", .opn, U "errors", U "err", U "path", .cls, U "r", U "u", U "r", U "u", U "r", S ["values"], V "tmp", U "tmp"] ++
    fs.flatMap encodeField ++ os.flatMap encodeOneofEvs ++ [U "r", U "values"] ++
    (if verb ≠ "get".toList then
      [U "request", S ["toRet"]] ++
      (fs.filter fun f => f.location = "body".toList).flatMap (fun _ => [U "toRet", U "req"]) ++
      [U "protojson", S ["marshaler"], U "marshaler", U "req", S ["data", "err"], U "err", .opn, U "errors", U "err", U "toRet",
        .cls, U "r", U "ioutil", U "bytes", U "data"]
    else [])) ?_ ?_
  · refine .append (.append (.append (.append (.append (.append (.append ?_ ?_) ?_) ?_) ?_) ?_) ?_) ?_
    · unfold encPre
      erases
    · refine hke' _ _ fun p => ?_
      split <;> rfl
    · erases
    · erases
    · refine hke' _ _ fun f => ?_
      unfold encodeField errReturn
      split
      · split
        · rfl
        · split
          · rfl
          · split <;> rfl
      · rfl
    · refine hke' _ _ fun o => ?_
      unfold encodeOneofEvs
      split
      · rw [List.all_flatMap]
        refine List.all_eq_true.2 fun p _ => ?_
        split <;> rfl
      · rfl
    · erases
    · split
      · refine .append (.append ?_ ?_) ?_
        · erases
        · exact hke' _ _ fun _ => rfl
        · erases
      · exact .nil
  · unfold FuncOK
    rw [List.cons_append, run_cons_some (bs' := [[]]) rfl]
    simp only [List.append_assoc]
    rw [run_append_some (bs' := [[("r".toList, true), ("request".toList, true), ("strval".toList, true), ("req".toList, true)]])
      (run_mono hle (by decide +kernel))]
    have hsec : run g [[("r".toList, true), ("request".toList, true), ("strval".toList, true), ("req".toList, true)]]
        (sectionEvs path) = some [[("r".toList, true), ("request".toList, true), ("strval".toList, true), ("req".toList, true)]] := by
      unfold sectionEvs
      refine run_flatMap_id fun p _ => ?_
      split
      · exact run_mono hle (by decide +kernel)
      · rfl
    rw [run_append_some hsec, ← List.append_assoc [S ["path"], _, _, _],
      run_append_some (bs' := [encBlock false]) (run_mono hle (by decide +kernel))]
    obtain ⟨u1, hu1⟩ := run_either (F := encodeField) (l := fs) (fun f _ u => encodeField_run hle f u) false
    obtain ⟨u2, hu2⟩ := run_either (F := encodeOneofEvs) (l := os) (fun f _ u => encodeOneof_run hle f u) u1
    rw [run_append_some hu1, run_append_some hu2,
      run_append_some (bs' := [encBlock true]) (run_mono hle (by cases u2 <;> decide +kernel))]
    split
    · simp only [List.append_assoc]
      rw [run_append_some (bs' := [encBlock true ++ [("toRet".toList, false)]]) (run_mono hle (by decide +kernel))]
      cases fs.filter fun f => f.location = "body".toList with
      | nil => exact run_mono hle (by decide +kernel)
      | cons a l =>
        rw [run_append_some (run_repeat (l := a :: l) (bs1 := [encBlock true ++ [("toRet".toList, true)]])
          (run_mono hle (by decide +kernel)) (run_mono hle (by decide +kernel)) (List.cons_ne_nil a l))]
        exact run_mono hle (by decide +kernel)
    · exact run_mono hle (by decide +kernel)

end

end Baron.Locals
