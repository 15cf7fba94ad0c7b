import Verif.Proofs.Transport
import Verif.Proofs.Runtime

/-!
# C51–C54: the generated transports
-/

namespace Baron.Transport

open HTTP

/-! ## C51: HTTP routing -/

/-- **C51**, exact: a request with a plain path is handled by the first declared binding with its verb whose template it
fits, under that binding's label, with the path's segments under the parameter names; it is refused if there is none. -/
theorem C51_first_declared_wins (s : Svcdef.Service) (hw : Wellformed s) (verb : Str) (segs : List Str)
    (hp : PlainPath segs) :
    (∀ m k b, FirstWith s (Takes · verb segs) m k b → ∃ vars,
      serve s verb (pathOf segs) = .handled ⟨verb, b.path, m.name, m.name ++ englishNumber k⟩ vars ∧
      ∀ ps, b.path = templateOf ps → TemplateOK ps → ∀ n v, look vars n = some v ↔ Bound ps segs n v) ∧
    (serve s verb (pathOf segs) = .refused ↔ ∀ m ∈ s.methods, ∀ b ∈ m.bindings, ¬ Takes b verb segs) ∧
    (∀ r vars, serve s verb (pathOf segs) = .handled r vars →
      ∃ m k b, FirstWith s (Takes · verb segs) m k b ∧ r = ⟨verb, b.path, m.name, m.name ++ englishNumber k⟩) ∧
    serve s verb (pathOf segs) ≠ .redirect := by
  rw [serve_plain s verb hp]
  refine ⟨?_, ?_, ?_, ?_⟩
  · intro m k b h
    have hv : toUpper b.verb = verb := h.1.1
    rw [(find_some s hw verb segs _).2 ⟨m, k, b, h, rfl⟩]
    refine ⟨_, by rw [hv], ?_⟩
    intro ps hb ho n v
    have hf : Fits ps segs := by
      obtain ⟨qs, hq, ho', hf⟩ := h.1.2
      rw [split_inj_template ho ho' (hb.symm.trans hq)]; exact hf
    obtain ⟨w, hw'⟩ := Option.isSome_iff_exists.1 ((fits_iff ps segs).1 hf)
    simp only [hb, muxGo_template ho, hw', Option.getD_some]
    exact look_fitVars ho.nodup hw' n v
  · rw [← find_none s hw]
    cases (routes s).find? (hit verb segs) <;> simp
  · intro r vars h
    cases hf : (routes s).find? (hit verb segs) with
    | none => rw [hf] at h; cases h
    | some r' =>
      rw [hf] at h
      simp only [Outcome.handled.injEq] at h
      obtain ⟨m, k, b, h1, h2⟩ := (find_some s hw verb segs r').1 hf
      have hv : toUpper b.verb = verb := h1.1.1
      exact ⟨m, k, b, h1, by rw [← h.1, h2, hv]⟩
  · cases (routes s).find? (hit verb segs) <;> simp

/-- **C51**: two templates can be confused, that is, some path fits both, exactly when they are not apart. -/
theorem C51_apart (ps qs : List Piece) : Apart ps qs ↔ ∀ segs, ¬ (Fits ps segs ∧ Fits qs segs) := by
  constructor
  · exact fun h => apart_not_fits h
  · intro h
    exact Classical.byContradiction fun hn => by
      obtain ⟨segs, a⟩ := common_of_not_apart hn
      exact h segs a

theorem fits_values (env : Str → Str) (ps : List Piece) (hv : ∀ n, Piece.var n ∈ ps → env (Strs.goCamelCase n) ≠ []) :
    Fits ps (ps.map (Piece.value env)) := by
  induction ps with
  | nil => exact .nil
  | cons p ps ih =>
    have ih := ih (fun n h => hv n (by simp [h]))
    cases p with
    | lit s => exact .lit s ih
    | var n => exact .var n (hv n (by simp)) ih

/-- **C51**, from the client: if every binding declared before a method's with the same verb is apart from the method's
first one, the generated client's call of the method is handled by that method, with the client's values under the
parameter names. The conditions on the values are those of C22; without the condition on earlier bindings the claim fails,
see `C51_shadowed`. -/
theorem C51_client (s : Svcdef.Service) (hw : Wellformed s) (ms₁ ms₂ : List Svcdef.ServiceMethod)
    (m : Svcdef.ServiceMethod) (b : Svcdef.HTTPBinding) (bs : List Svcdef.HTTPBinding)
    (hs : s.methods = ms₁ ++ m :: ms₂) (hb : m.bindings = b :: bs)
    (ps : List Piece) (hps : b.path = templateOf ps) (ho : TemplateOK ps) (env : Str → Str)
    (hsafe : ∀ p ∈ ps, UrlSafe (p.value env) ∧ p.value env ≠ ['.'] ∧ p.value env ≠ ['.', '.'])
    (hne : ∀ p ∈ ps.dropLast, p.value env ≠ []) (hvar : ∀ n, Piece.var n ∈ ps → env (Strs.goCamelCase n) ≠ [])
    (hapart : ∀ m' ∈ ms₁, ∀ b' ∈ m'.bindings, toUpper b'.verb = toUpper b.verb →
      ∀ qs, b'.path = templateOf qs → TemplateOK qs → Apart qs ps) :
    ∃ path vars, clientRequest env m = some (toUpper b.verb, path) ∧
      serve s (toUpper b.verb) path = .handled ⟨toUpper b.verb, b.path, m.name, m.name ++ "Zero".toList⟩ vars ∧
      ∀ n, look vars n = if Piece.var n ∈ ps then some (env (Strs.goCamelCase n)) else none := by
  have hslash : ∀ n, Piece.var n ∈ ps → '/' ∉ env (Strs.goCamelCase n) :=
    fun n hn hc => ((hsafe _ hn).1 '/' hc).1 rfl
  have hplain : PlainPath (ps.map (Piece.value env)) := by
    refine ⟨by simpa using ho.some, ?_, ?_, ?_⟩
    · intro t ht hc
      obtain ⟨q, hq, rfl⟩ := List.mem_map.1 ht
      exact ((hsafe q hq).1 '/' hc).1 rfl
    · intro t ht
      obtain ⟨q, hq, rfl⟩ := List.mem_map.1 ht
      exact (hsafe q hq).2
    · intro t ht
      rw [← List.map_dropLast] at ht
      obtain ⟨q, hq, rfl⟩ := List.mem_map.1 ht
      exact hne q hq
  have hpath : clientPath env (templateOf ps) = pathOf (ps.map (Piece.value env)) := by
    rw [clientPath_eq ho, pathOf_eq]
  have hfit := fits_values env ps hvar
  have hparse : urlParsePath (pathOf (ps.map (Piece.value env))) = some (pathOf (ps.map (Piece.value env))) := by
    apply urlParse_safe
    · intro c hc
      rw [pathOf_eq] at hc
      rcases mem_join hc with rfl | ⟨p, hp, hcp⟩
      · decide
      · rcases List.mem_cons.1 hp with rfl | hp
        · simp at hcp
        · obtain ⟨q, hq, rfl⟩ := List.mem_map.1 hp
          exact ((hsafe q hq).1 c hcp).2
    · intro r hr
      have hsplit := split_pathOf hplain
      rw [hr] at hsplit
      simp only [split, if_true, List.cons.injEq, true_and] at hsplit
      cases ps with
      | nil => exact absurd rfl ho.some
      | cons p qs =>
        simp only [List.map_cons, List.cons.injEq] at hsplit
        cases qs with
        | nil => simp at hsplit; exact absurd hsplit.2 (split_ne_nil _ _)
        | cons q qs => exact hne p (by simp) hsplit.1.symm
  have hfirst : FirstWith s (Takes · (toUpper b.verb) (ps.map (Piece.value env))) m 0 b := by
    refine ⟨⟨rfl, ps, hps, ho, hfit⟩, ms₁, ms₂, [], bs, hs, hb, rfl, ?_, by simp⟩
    rintro m' hm' b' hb' ⟨hv, qs, hq, hoq, hf⟩
    exact (C51_apart qs ps).1 (hapart m' hm' b' hb' hv qs hq hoq) _ ⟨hf, hfit⟩
  obtain ⟨vars, h1, h2⟩ := (C51_first_declared_wins s hw (toUpper b.verb) _ hplain).1 m 0 b hfirst
  rw [show englishNumber 0 = "Zero".toList by decide +kernel] at h1
  refine ⟨_, vars, ?_, h1, ?_⟩
  · rw [clientRequest, hb]
    simp only [hps, hpath, hparse, Option.map_some]
  · intro n
    have h2 := h2 ps hps ho n
    by_cases hn : Piece.var n ∈ ps
    · rw [if_pos hn, h2]
      obtain ⟨i, hi, he⟩ := List.mem_iff_getElem.1 hn
      exact ⟨i, by rw [List.getElem?_eq_getElem hi, he], by simp [hi, he, Piece.value]⟩
    · rw [if_neg hn]
      cases hl : look vars n with
      | none => rfl
      | some v =>
        obtain ⟨i, hi, -⟩ := (h2 v).1 hl
        exact absurd (List.mem_of_getElem? hi) hn

def c51Type : Svcdef.FieldType := ⟨"R".toList, none, [], none, none, true, false⟩

def c51Shadow : Svcdef.Service :=
  ⟨"S".toList, [⟨"Get".toList, c51Type, c51Type, [⟨"get".toList, "/v1/{id}".toList, []⟩]⟩,
    ⟨"Status".toList, c51Type, c51Type, [⟨"get".toList, "/v1/status".toList, []⟩]⟩]⟩

/-- Without the condition on earlier bindings the claim is false: with `GET /v1/{id}` declared first, the client's call of
`Status` (`GET /v1/status`) runs `Get` with `id = status`. -/
theorem C51_shadowed :
    clientRequest (fun _ => []) (c51Shadow.methods.getD 1 ⟨[], c51Type, c51Type, []⟩) =
      some ("GET".toList, "/v1/status".toList) ∧
    serve c51Shadow "GET".toList "/v1/status".toList =
      .handled ⟨"GET".toList, "/v1/{id}".toList, "Get".toList, "GetZero".toList⟩ [("id".toList, "status".toList)] := by
  decide +kernel

/-- The conditions of `C51_client` are met when the same bindings are declared in the other order. -/
example : serve ⟨"S".toList, c51Shadow.methods.reverse⟩ "GET".toList "/v1/status".toList =
      .handled ⟨"GET".toList, "/v1/status".toList, "Status".toList, "StatusZero".toList⟩ [] ∧
    serve ⟨"S".toList, c51Shadow.methods.reverse⟩ "GET".toList "/v1/x".toList =
      .handled ⟨"GET".toList, "/v1/{id}".toList, "Get".toList, "GetZero".toList⟩ [("id".toList, "x".toList)] ∧
    serve ⟨"S".toList, c51Shadow.methods.reverse⟩ "POST".toList "/v1/x".toList = .refused := by decide +kernel

example : Apart [.lit "v1".toList, .lit "users".toList, .var "id".toList] [.lit "v1".toList, .lit "books".toList, .var "id".toList] ∧
    ¬ Apart [.lit "v1".toList, .var "id".toList] [.lit "v1".toList, .lit "status".toList] := by
  refine ⟨.inr (.inl (by decide)), ?_⟩
  rintro (h | h | h)
  · exact h rfl
  · exact absurd h (by decide)
  · exact h

/-! ## C52: gRPC -/

theorem look_map_nodup {α V : Type} [DecidableEq α] (key : α → Str) (val : α → V) (l : List α)
    (hinj : ∀ a ∈ l, ∀ b ∈ l, key a = key b → a = b) (a : α) (ha : a ∈ l) :
    look (l.map fun x => (key x, val x)) (key a) = some (val a) := by
  induction l with
  | nil => simp at ha
  | cons x xs ih =>
    by_cases hx : key x = key a
    · have := hinj x (by simp) a ha hx
      subst this
      simp [look]
    · have ha' : a ∈ xs := by
        rcases List.mem_cons.1 ha with rfl | h
        · exact absurd rfl hx
        · exact h
      have := ih (fun a h b h' => hinj a (by simp [h]) b (by simp [h'])) ha'
      simp only [look, List.map_cons, List.find?_cons, hx, decide_false] at this ⊢
      exact this

theorem lower_inj {methods : List Str} (h : (methods.map toLower).Nodup) :
    ∀ a ∈ methods, ∀ b ∈ methods, toLower a = toLower b → a = b := by
  induction methods with
  | nil => simp
  | cons x xs ih =>
    simp only [List.map_cons, List.nodup_cons] at h
    intro a ha b hb hab
    rcases List.mem_cons.1 ha with rfl | ha
    · rcases List.mem_cons.1 hb with rfl | hb
      · rfl
      · exact absurd (List.mem_map.2 ⟨b, hb, hab.symm⟩) h.1
    · rcases List.mem_cons.1 hb with hb | hb
      · exact absurd (List.mem_map.2 ⟨a, ha, by rw [hab, hb]⟩) h.1
      · exact ih h.2 a ha b hb hab

theorem local_inj {methods : List Str} (h : (methods.map toLower).Nodup) :
    ∀ a ∈ methods, ∀ b ∈ methods, localEndpoint a = localEndpoint b → a = b := by
  intro a ha b hb hab
  exact lower_inj h a ha b hb (List.append_cancel_right hab)

theorem field_inj (a b : Str) (h : endpointField a = endpointField b) : a = b := List.append_cancel_right h

theorem look_filterMap {V : Type} (key : Str → Str) (val : Str → Option V) (l : List Str)
    (hinj : ∀ a ∈ l, ∀ b ∈ l, key a = key b → a = b) (a : Str) (ha : a ∈ l) (v : V) (hv : val a = some v) :
    look (l.filterMap fun x => (val x).map fun y => (key x, y)) (key a) = some v := by
  induction l with
  | nil => simp at ha
  | cons x xs ih =>
    by_cases hx : x = a
    · subst hx
      simp [hv, look]
    · have ha' : a ∈ xs := by
        rcases List.mem_cons.1 ha with rfl | h
        · exact absurd rfl hx
        · exact h
      have ih := ih (fun a h b h' => hinj a (by simp [h]) b (by simp [h'])) ha'
      have hk : key x ≠ key a := fun h => hx (hinj x (by simp) a ha h)
      rw [List.filterMap_cons]
      cases hval : val x with
      | none => simpa using ih
      | some y =>
        simp only [Option.map_some]
        simp only [look, List.find?_cons, hk, decide_false] at ih ⊢
        exact ih

theorem newEndpoints_look {C Q R E : Type} (svc : Impl C Q R E) (methods : List Str)
    (h : (methods.map toLower).Nodup) (n : Str) (hn : n ∈ methods) :
    look (newEndpoints svc methods) (endpointField n) = some (svc n) := by
  rw [newEndpoints]
  exact look_filterMap endpointField (fun n => look (methods.map fun n => (localEndpoint n, makeEndpoint svc n)) (localEndpoint n))
    methods (fun a _ b _ => field_inj a b) n hn (svc n)
    (look_map_nodup localEndpoint (makeEndpoint svc) methods (local_inj h) n hn)

theorem grpcServer_look {C Q R E : Type} (before : C → C) (svc : Impl C Q R E) (methods : List Str)
    (h : (methods.map toLower).Nodup) (n : Str) (hn : n ∈ methods) :
    grpcMethod (grpcServer before (newEndpoints svc methods) methods) n = some (fun c q => svc n (before c) q) := by
  rw [grpcMethod, grpcServer]
  have := look_filterMap toLower
    (fun n => (look (newEndpoints svc methods) (endpointField n)).map fun e => (fun c q => e (before c) q : Endpoint C Q R E))
    methods (lower_inj h) n hn (fun c q => svc n (before c) q) (by rw [newEndpoints_look svc methods h n hn]; rfl)
  rw [← this]
  congr 2
  funext x
  cases look (newEndpoints svc methods) (endpointField x) <;> rfl

theorem grpcClient_look {C Q R E : Type} (invoke : Str → C → Q → Except (CallErr E) R) (pkg svc : Str) (methods : List Str)
    (h : (methods.map toLower).Nodup) (n : Str) (hn : n ∈ methods) :
    look (grpcClient invoke pkg svc methods) (endpointField n) = some (invoke (grpcPath pkg svc n)) := by
  rw [grpcClient]
  exact look_filterMap endpointField
    (fun n => look (methods.map fun n => (localEndpoint n, (invoke (grpcPath pkg svc n) : Endpoint C Q R (CallErr E)))) (localEndpoint n))
    methods (fun a _ b _ => field_inj a b) n hn _
    (look_map_nodup localEndpoint (fun n => (invoke (grpcPath pkg svc n) : Endpoint C Q R (CallErr E))) methods (local_inj h) n hn)

/-- What a caller is told about the result of the implementation. -/
def answered {R E : Type} : Except E R → Except (CallErr E) R
  | .ok r => .ok r
  | .error e => .error (.app e)

/-- **C52**: when the Go package has the proto package's name and the service and the rpc keep their names in Go, a call
through the generated client runs the method of that name of the implementation, with the caller's request, and returns its
response or its error. (`C`, `R` and `E` may carry the implementation's state, so the theorem also says that it runs once.)
These conditions on names are necessary, see `C52_reached_iff`; that lower-cased method names are distinct is required for
the generated file to compile. -/
theorem C52_grpc_call {C Q R E : Type} (p : Proto) (before : C → C) (svc : Impl C Q R E) (hpkg : p.package ≠ [])
    (hname : Strs.goCamelCase p.name = p.name) (hlow : ((p.rpcs.map Strs.goCamelCase).map toLower).Nodup) (n : Str)
    (hn : n ∈ p.rpcs) (hrpc : Strs.goCamelCase n = n) (c : C) (q : Q) :
    grpcCall p p.package before svc n c q = answered (svc n (before c) q) := by
  have hm : n ∈ p.rpcs.map Strs.goCamelCase := List.mem_map.2 ⟨n, hn, hrpc⟩
  rw [grpcCall]
  simp only [callEndpoint, grpcClient_look _ _ _ _ hlow n hm, hname]
  rw [grpcServe]
  have hdesc : look (serviceDesc p) (grpcPath p.package p.name n) = some n := by
    have := look_map_nodup (fun r => '/' :: p.fullName ++ '/' :: r) Strs.goCamelCase p.rpcs
      (fun a _ b _ hab => by simpa using hab) n hn
    rw [hrpc] at this
    rw [serviceDesc, ← this, grpcPath, Proto.fullName, if_neg hpkg]
  rw [hdesc]
  simp only [grpcServer_look before svc _ hlow n hm]
  cases svc n (before c) q <;> rfl

theorem append_sep_inj {c : Char} {a a' b b' : Str} (h1 : c ∉ b) (h2 : c ∉ b') (h : a ++ c :: b = a' ++ c :: b') :
    a = a' ∧ b = b' := by
  induction a generalizing a' with
  | nil =>
    cases a' with
    | nil => simpa using h
    | cons x xs =>
      simp only [List.nil_append, List.cons_append, List.cons.injEq] at h
      exact absurd (by rw [h.2]; simp) h1
  | cons y ys ih =>
    cases a' with
    | nil =>
      simp only [List.nil_append, List.cons_append, List.cons.injEq] at h
      exact absurd (by rw [← h.2]; simp) h2
    | cons x xs =>
      simp only [List.cons_append, List.cons.injEq] at h
      obtain ⟨h3, h4⟩ := ih h.2
      exact ⟨by rw [h.1, h3], h4⟩

/-- **C52**, which calls reach the server at all: exactly those where the proto package is the Go package's name, the
service keeps its name in Go, and the method's Go name is the declared name of an rpc. -/
theorem C52_reached_iff {C Q R E : Type} (p : Proto) (goPkg : Str) (before : C → C) (svc : Impl C Q R E)
    (hpkg : goPkg ≠ []) (hgo : '.' ∉ Strs.goCamelCase p.name ∧ '/' ∉ Strs.goCamelCase p.name) (hdot : '.' ∉ p.name)
    (hslash : ∀ r ∈ p.rpcs, '/' ∉ r ∧ '/' ∉ Strs.goCamelCase r)
    (hlow : ((p.rpcs.map Strs.goCamelCase).map toLower).Nodup) (r : Str) (hr : r ∈ p.rpcs) (c : C) (q : Q) :
    grpcCall p goPkg before svc (Strs.goCamelCase r) c q ≠ .error .unimplemented ↔
      goPkg = p.package ∧ Strs.goCamelCase p.name = p.name ∧ Strs.goCamelCase r ∈ p.rpcs := by
  have hn : Strs.goCamelCase r ∈ p.rpcs.map Strs.goCamelCase := List.mem_map_of_mem hr
  have key : (look (serviceDesc p) (grpcPath goPkg (Strs.goCamelCase p.name) (Strs.goCamelCase r))).isSome ↔
      goPkg = p.package ∧ Strs.goCamelCase p.name = p.name ∧ Strs.goCamelCase r ∈ p.rpcs := by
    have h1 : (look (serviceDesc p) (grpcPath goPkg (Strs.goCamelCase p.name) (Strs.goCamelCase r))).isSome ↔
        ∃ r' ∈ p.rpcs, '/' :: p.fullName ++ '/' :: r' = grpcPath goPkg (Strs.goCamelCase p.name) (Strs.goCamelCase r) := by
      simp only [look, Option.isSome_map, List.find?_isSome, decide_eq_true_eq, serviceDesc, List.mem_map]
      constructor
      · rintro ⟨x, ⟨r', hr', rfl⟩, h⟩; exact ⟨r', hr', h⟩
      · rintro ⟨r', hr', h⟩; exact ⟨_, ⟨r', hr', rfl⟩, h⟩
    rw [h1]
    constructor
    · rintro ⟨r', hr', h⟩
      obtain ⟨h2, h3⟩ := append_sep_inj (hslash r' hr').1 (hslash r hr).2 h
      simp only [List.cons.injEq, true_and] at h2
      have hpp : p.package ≠ [] := by
        intro hp
        rw [Proto.fullName, if_pos hp] at h2
        exact hdot (by rw [h2]; simp)
      rw [Proto.fullName, if_neg hpp] at h2
      obtain ⟨h4, h5⟩ := append_sep_inj hdot hgo.1 h2
      exact ⟨h4.symm, h5.symm, h3 ▸ hr'⟩
    · rintro ⟨h2, h3, h4⟩
      exact ⟨_, h4, by rw [grpcPath, Proto.fullName, if_neg (h2 ▸ hpkg), h2, h3]⟩
  rw [← key, grpcCall]
  simp only [callEndpoint, grpcClient_look _ _ _ _ hlow _ hn]
  rw [grpcServe]
  cases look (serviceDesc p) (grpcPath goPkg (Strs.goCamelCase p.name) (Strs.goCamelCase r)) with
  | none => simp
  | some n =>
    simp only [Option.isSome_some, iff_true]
    cases grpcMethod (grpcServer before (newEndpoints svc (p.rpcs.map Strs.goCamelCase)) (p.rpcs.map Strs.goCamelCase)) n with
    | none => simp
    | some e =>
      simp only
      cases e c q <;> simp

/-- The unrestricted claim is false: a proto package of two parts is not a Go package name, so every call of the generated
client fails with `Unimplemented`; the same holds for an rpc whose name is changed in Go. -/
theorem C52_unreached :
    (grpcCall ⟨"foo.v1".toList, "Svc".toList, ["Get".toList]⟩ "foov1".toList id (fun _ (_ : Unit) (q : Nat) => (.ok q : Except Unit Nat))
      "Get".toList () 7 = .error .unimplemented) ∧
    (grpcCall ⟨"foo".toList, "Svc".toList, ["get_it".toList]⟩ "foo".toList id (fun _ (_ : Unit) (q : Nat) => (.ok q : Except Unit Nat))
      "GetIt".toList () 7 = .error .unimplemented) := by
  constructor <;> with_unfolding_all rfl

/-- The conditions of `C52_grpc_call` are met. -/
example : grpcCall ⟨"foo".toList, "Svc".toList, ["Get".toList, "Put".toList]⟩ "foo".toList id
      (fun n (_ : Unit) (q : Nat) => (if n = "Put".toList then .error "no".toList else .ok (q + 1) : Except Str Nat)) "Get".toList () 7 = .ok 8 ∧
    grpcCall ⟨"foo".toList, "Svc".toList, ["Get".toList, "Put".toList]⟩ "foo".toList id
      (fun n (_ : Unit) (q : Nat) => (if n = "Put".toList then .error "no".toList else .ok (q + 1) : Except Str Nat)) "Put".toList () 7 =
        .error (.app "no".toList) := by
  constructor <;> with_unfolding_all rfl

/-! ## C53: NATS -/

theorem natsServer_look {C Q R E : Type} (k : NatsCodec Q R E) (svcName : Str) (svc : Impl C Q R E) (methods : List Str)
    (hlow : (methods.map toLower).Nodup) (n : Str) (hn : n ∈ methods) :
    look (natsServer k svcName (newEndpoints svc methods) methods) (subject svcName n) =
      some (fun c msg => natsHandle k (svc n) c msg) := by
  have := look_filterMap (subject svcName)
    (fun n => (look (newEndpoints svc methods) (endpointField n)).map fun e => (fun c msg => natsHandle k e c msg))
    methods (fun a _ b _ hab => by simpa [subject] using hab) n hn (fun c msg => natsHandle k (svc n) c msg)
    (by rw [newEndpoints_look svc methods hlow n hn]; rfl)
  rw [← this, natsServer]
  congr 2
  funext x
  cases look (newEndpoints svc methods) (endpointField x) <;> rfl

theorem natsCall_eq {C Q R E : Type} (k : NatsCodec Q R E) (svcName : Str) (svc : Impl C Q R E) (methods : List Str)
    (hlow : (methods.map toLower).Nodup) (n : Str) (hn : n ∈ methods) (c : C) (q : Q) :
    natsCall k svcName svc methods n c q = match k.decR (natsHandle k (svc n) c (k.encQ q)) with
      | none => .error .badReply
      | some r => .ok r := by
  rw [natsCall]
  have h1 := look_filterMap endpointField (fun n => look (methods.map fun n => (localEndpoint n, subject svcName n)) (localEndpoint n))
    methods (fun a _ b _ => field_inj a b) n hn (subject svcName n)
    (look_map_nodup localEndpoint (subject svcName) methods (local_inj hlow) n hn)
  have h2 := natsServer_look k svcName svc methods hlow n hn
  simp only [h1, h2]
  rfl

/-- **C53**, successful calls: for every codec that decodes what it encodes, a call through the generated NATS client runs
the implementation's method of that name with the caller's request and returns its response. -/
theorem C53_success {C Q R E : Type} (k : NatsCodec Q R E) (hq : ∀ q, k.decQ (k.encQ q) = some q)
    (hr : ∀ r, k.decR (k.encR r) = some r) (svcName : Str) (svc : Impl C Q R E) (methods : List Str)
    (hlow : (methods.map toLower).Nodup) (n : Str) (hn : n ∈ methods) (c : C) (q : Q) (r : R) (h : svc n c q = .ok r) :
    natsCall k svcName svc methods n c q = .ok r := by
  rw [natsCall_eq k svcName svc methods hlow n hn, natsHandle, hq]
  simp [h, hr]

/-- **C53**, failed calls: whenever the error reply is acceptable as a response (encoding/json ignores the unknown key
`err`, so it is, with every field unset), the client reports success with that response, whatever the error. -/
theorem C53_failure {C Q R E : Type} (k : NatsCodec Q R E) (hq : ∀ q, k.decQ (k.encQ q) = some q) (zero : R)
    (hz : ∀ e, k.decR (k.errBody e) = some zero) (svcName : Str) (svc : Impl C Q R E) (methods : List Str)
    (hlow : (methods.map toLower).Nodup) (n : Str) (hn : n ∈ methods) (c : C) (q : Q) (e : E) (h : svc n c q = .error e) :
    natsCall k svcName svc methods n c q = .ok zero := by
  rw [natsCall_eq k svcName svc methods hlow n hn, natsHandle, hq]
  simp [h, hz]

/-- **C53**, what is on the wire: the server answers on the subjects `SERVICE.METHOD` of its methods and no others; a message
that is not a request is answered with an error body, a request with the response of the implementation's method, or with an
error body carrying the method's error. -/
theorem C53_server {C Q R E : Type} (k : NatsCodec Q R E) (svcName : Str) (svc : Impl C Q R E) (methods : List Str)
    (hlow : (methods.map toLower).Nodup) :
    (∀ n ∈ methods, ∃ h, look (natsServer k svcName (newEndpoints svc methods) methods) (svcName ++ ".".toList ++ n) = some h ∧
      ∀ c msg, (k.decQ msg = none → h c msg = k.errBody none) ∧
        ∀ q, k.decQ msg = some q → (∀ r, svc n c q = .ok r → h c msg = k.encR r) ∧
          ∀ e, svc n c q = .error e → h c msg = k.errBody (some e)) ∧
    ∀ s, (∀ n ∈ methods, s ≠ svcName ++ ".".toList ++ n) →
      look (natsServer k svcName (newEndpoints svc methods) methods) s = none := by
  have hs : ∀ n, svcName ++ ".".toList ++ n = subject svcName n := by
    intro n; simp only [subject, List.append_assoc]; rfl
  constructor
  · intro n hn
    refine ⟨_, by rw [hs]; exact natsServer_look k svcName svc methods hlow n hn, ?_⟩
    intro c msg
    simp only [natsHandle]
    refine ⟨fun h => by rw [h], fun q h => ⟨fun r hr => by rw [h]; simp only [hr], fun e he => by rw [h]; simp only [he]⟩⟩
  · intro s h
    refine Baron.Runtime.look_none ?_
    intro f hx
    simp only [natsServer, List.mem_filterMap, Option.map_eq_some_iff, Prod.mk.injEq] at hx
    obtain ⟨n, hn, e, -, rfl, -⟩ := hx
    exact h n hn (hs n).symm

/-- **C53** No message reaches another method or another service: since Go names have no dots, two subjects are the same only
if service and method are. -/
theorem C53_subjects (svc svc' n n' : Str) (h : '.' ∉ svc) (h' : '.' ∉ svc') :
    subject svc n = subject svc' n' ↔ svc = svc' ∧ n = n' := by
  constructor
  · intro e
    unfold subject at e
    induction svc generalizing svc' with
    | nil =>
      cases svc' with
      | nil => exact ⟨rfl, List.cons.inj e |>.2⟩
      | cons a l => exact absurd (by rw [(List.cons.inj e).1]; exact List.mem_cons_self) h'
    | cons a l ih =>
      cases svc' with
      | nil => exact absurd (by rw [← (List.cons.inj e).1]; exact List.mem_cons_self) h
      | cons b l' =>
        obtain ⟨e1, e2⟩ := List.cons.inj e
        obtain ⟨r1, r2⟩ := ih l' (fun hm => h (List.mem_cons_of_mem _ hm)) (fun hm => h' (List.mem_cons_of_mem _ hm)) e2
        exact ⟨by rw [e1, r1], r2⟩
  · rintro ⟨rfl, rfl⟩; rfl

/-- A codec for a one-flag message that, as encoding/json, ignores what it does not know. -/
def flagCodec : NatsCodec Bool Bool Str where
  encQ b := if b then "{\"f\":true}".toList else "{}".toList
  decQ s := if hasPrefix s "{".toList then some (s = "{\"f\":true}".toList) else none
  encR b := if b then "{\"f\":true}".toList else "{}".toList
  decR s := if hasPrefix s "{".toList then some (s = "{\"f\":true}".toList) else none
  errBody e := "{\"err\":\"".toList ++ (match e with | some e => e | none => "bad request".toList) ++ "\"}".toList

/-- The hypotheses of `C53_success` and `C53_failure` are met by a codec of this kind. -/
example : (∀ q, flagCodec.decQ (flagCodec.encQ q) = some q) ∧ (∀ r, flagCodec.decR (flagCodec.encR r) = some r) ∧
    (∀ e, flagCodec.decR (flagCodec.errBody e) = some false) := by
  refine ⟨by decide +kernel, by decide +kernel, ?_⟩
  intro e
  have h1 : ∀ x : Str, hasPrefix ("{\"err\":\"".toList ++ x) "{".toList = true := by intro x; rfl
  have h2 : ∀ x : Str, "{\"err\":\"".toList ++ x ≠ "{\"f\":true}".toList := by
    intro x h
    have := congrArg (fun l : Str => l[2]?) h
    revert this
    show some 'e' = some 'f' → False
    decide
  simp only [flagCodec, List.append_assoc, h1, if_true]
  simp [h2]

example : natsCall flagCodec "Svc".toList (fun n (_ : Unit) b => if n = "Not".toList then .ok (!b) else .error "no".toList)
      ["Fail".toList, "Not".toList] "Not".toList () false = .ok true ∧
    natsCall flagCodec "Svc".toList (fun n (_ : Unit) b => if n = "Not".toList then .ok (!b) else .error "no".toList)
      ["Fail".toList, "Not".toList] "Fail".toList () true = .ok false := by
  constructor <;> with_unfolding_all rfl

/-! ## C54: the address of the HTTP client -/

/-- An authority (`host` or `host:port`) free of the characters that end it. -/
def Authority (a : Str) : Prop := a ≠ [] ∧ ∀ c ∈ a, c ≠ '/' ∧ c ≠ '?' ∧ c ≠ '#'

theorem takeWhile_stop {p : Char → Bool} {a r : Str} (ha : ∀ c ∈ a, p c = true) (hr : ∀ c ∈ r.head?, p c = false) :
    (a ++ r).takeWhile p = a := by
  induction a with
  | nil =>
    cases r with
    | nil => rfl
    | cons c r => simp [List.takeWhile_cons, hr c (by simp)]
  | cons x xs ih => simp [List.takeWhile_cons, ha x (by simp), ih (fun c h => ha c (by simp [h]))]

theorem takeWhile_authority {a r : Str} (ha : Authority a) (hr : r = [] ∨ ∃ r', r = '/' :: r') :
    ((a ++ r).takeWhile (· ≠ '#')).takeWhile (fun c => c ≠ '/' ∧ c ≠ '?') = a := by
  have h1 : (a ++ r).takeWhile (· ≠ '#') = a ++ r.takeWhile (· ≠ '#') := by
    rw [List.takeWhile_append, if_pos]
    rw [takeWhile_all fun c hc => by simpa using (ha.2 c hc).2.2]
  rw [h1]
  apply takeWhile_stop
  · intro c hc; simpa using ⟨(ha.2 c hc).1, (ha.2 c hc).2.1⟩
  · intro c hc
    rcases hr with rfl | ⟨r', rfl⟩
    · simp at hc
    · simp [List.takeWhile_cons] at hc
      subst hc; simp

theorem target_scheme (scheme : Str) (hs : scheme = "http".toList ∨ scheme = "https".toList) {a r : Str} (ha : Authority a)
    (hr : r = [] ∨ ∃ r', r = '/' :: r') :
    (match getScheme ((scheme ++ "://".toList ++ (a ++ r)).takeWhile (· ≠ '#')) with
      | some (scheme, '/' :: '/' :: r) =>
        if (r.takeWhile fun c => c ≠ '/' ∧ c ≠ '?') = [] then Target.nowhere
        else .host (toLower scheme) (r.takeWhile fun c => c ≠ '/' ∧ c ≠ '?')
      | _ => .nowhere) = .host scheme a := by
  have h1 : (scheme ++ "://".toList ++ (a ++ r)).takeWhile (· ≠ '#') =
      scheme ++ "://".toList ++ ((a ++ r).takeWhile (· ≠ '#')) := by
    rcases hs with rfl | rfl <;> rfl
  have h2 : ∀ x : Str, getScheme (scheme ++ "://".toList ++ x) = some (scheme, '/' :: '/' :: x) := by
    intro x; rcases hs with rfl | rfl <;> rfl
  have h3 := takeWhile_authority ha hr
  rw [h1, h2]
  simp only [h3, ha.1, if_false]
  rcases hs with rfl | rfl <;> rfl

/-- What follows the authority in an instance: nothing, or a path (whose first segment is not empty). -/
def InstPath (r : Str) : Prop := r = [] ∨ ∃ r', r = '/' :: r' ∧ r'.head? ≠ some '/'

theorem target_nowhere {a r : Str} (ha : Authority a) (hr : InstPath r) (h : hasPrefix (a ++ r) "http".toList = true) :
    clientTarget (a ++ r) = .nowhere := by
  rw [clientTarget, clientInstance, if_pos h]
  have h1 : (a ++ r).takeWhile (· ≠ '#') = a ++ r.takeWhile (· ≠ '#') := by
    rw [List.takeWhile_append, if_pos]
    rw [takeWhile_all fun c hc => by simpa using (ha.2 c hc).2.2]
  have hr1 : InstPath (r.takeWhile (· ≠ '#')) := by
    rcases hr with rfl | ⟨r', rfl, h'⟩
    · left; rfl
    · right
      refine ⟨r'.takeWhile (· ≠ '#'), by simp [List.takeWhile_cons], ?_⟩
      cases r' with
      | nil => simp
      | cons c r' =>
        rw [List.takeWhile_cons]
        split
        · exact h'
        · simp
  have hh : ∃ t, a = 'h' :: t := by
    obtain ⟨c, a', rfl⟩ : ∃ c a', a = c :: a' := by
      cases a with
      | nil => exact absurd rfl ha.1
      | cons c a' => exact ⟨c, a', rfl⟩
    obtain ⟨z, hz⟩ := List.isPrefixOf_iff_prefix.1 (show "http".toList.isPrefixOf (c :: a' ++ r) = true from h)
    have := congrArg List.head? hz
    simp at this
    exact ⟨a', by rw [← this]⟩
  rw [h1]
  generalize r.takeWhile (· ≠ '#') = r at hr1
  cases hg : getScheme (a ++ r) with
  | none => rfl
  | some z =>
    obtain ⟨sch, rest⟩ := z
    split
    · rename_i sch' t he
      simp only [Option.some.injEq, Prod.mk.injEq] at he
      obtain ⟨rfl, rfl⟩ := he
      exfalso
      rw [getScheme] at hg
      have hsplit := List.takeWhile_append_dropWhile (p := schemeChar) (l := a ++ r)
      have hsc : ∀ c ∈ (a ++ r).takeWhile schemeChar, schemeChar c = true := fun c hc => List.all_eq_true.1 List.all_takeWhile c hc
      obtain ⟨t', ht'⟩ := hh
      revert hg hsplit hsc
      generalize (a ++ r).takeWhile schemeChar = p
      generalize (a ++ r).dropWhile schemeChar = d
      intro hg hsplit hsc
      split at hg
      · cases hg
      · rename_i c p' r' 
        split at hg
        · simp only [Option.some.injEq, Prod.mk.injEq] at hg
          obtain ⟨rfl, rfl⟩ := hg
          have e1 : (a ++ r).takeWhile (· ≠ '/') = a := by
            apply takeWhile_stop
            · intro x hx; simpa using (ha.2 x hx).1
            · intro x hx
              rcases hr1 with rfl | ⟨r', rfl, -⟩
              · simp at hx
              · simp at hx; subst hx; decide
          have e2 : (c :: p' ++ ':' :: '/' :: '/' :: t).takeWhile (· ≠ '/') = c :: p' ++ [':'] := by
            rw [show c :: p' ++ ':' :: '/' :: '/' :: t = (c :: p' ++ [':']) ++ '/' :: '/' :: t by simp]
            apply takeWhile_stop
            · intro x hx
              rcases List.mem_append.1 hx with hx | hx
              · have := hsc x hx
                simp only [ne_eq, decide_not, Bool.not_eq_true', decide_eq_false_iff_not]
                rintro rfl; simp [schemeChar] at this
              · simp at hx; subst hx; decide
            · intro x hx; simp at hx; subst hx; decide
          rw [hsplit] at e2
          rw [e1] at e2
          rw [e2, show c :: p' ++ ':' :: '/' :: '/' :: t = (c :: p' ++ [':']) ++ '/' :: '/' :: t by simp] at hsplit
          have := List.append_cancel_left hsplit
          rcases hr1 with rfl | ⟨r', rfl, h'⟩
          · cases this
          · simp only [List.cons.injEq, true_and] at this
            rw [← this] at h'
            simp at h'
        · simp only [Option.some.injEq, Prod.mk.injEq] at hg
          rw [ht'] at hg
          simp at hg
      · simp only [Option.some.injEq, Prod.mk.injEq] at hg
        rw [ht'] at hg
        simp at hg
    · rfl

/-- **C54.** Where the client of an instance sends its requests: an instance that spells out `http://` or `https://` is
contacted with that scheme, at the address behind it. One without a scheme (`host:port`, perhaps followed by a path) is
contacted over http at that address, exactly when its text does not begin with `http`; otherwise no request can be sent. -/
theorem C54_address (a r : Str) (ha : Authority a) (hr : InstPath r) :
    clientTarget ("http://".toList ++ (a ++ r)) = .host "http".toList a ∧
    clientTarget ("https://".toList ++ (a ++ r)) = .host "https".toList a ∧
    clientTarget (a ++ r) = (if "http".toList <+: a ++ r then .nowhere else .host "http".toList a) := by
  have hr' : r = [] ∨ ∃ r', r = '/' :: r' := by
    rcases hr with h | ⟨r', h, -⟩
    · exact .inl h
    · exact .inr ⟨r', h⟩
  refine ⟨?_, ?_, ?_⟩
  · rw [clientTarget, clientInstance, if_pos (by rfl)]
    exact target_scheme "http".toList (.inl rfl) ha hr'
  · rw [clientTarget, clientInstance, if_pos (by rfl)]
    exact target_scheme "https".toList (.inr rfl) ha hr'
  · split
    · rename_i h
      exact target_nowhere ha hr (List.isPrefixOf_iff_prefix.2 h)
    · rename_i h
      have : hasPrefix (a ++ r) "http".toList = false := by
        cases hh : hasPrefix (a ++ r) "http".toList with
        | false => rfl
        | true => exact absurd (List.isPrefixOf_iff_prefix.1 hh) h
      rw [clientTarget, clientInstance, if_neg (by rw [this]; decide)]
      exact target_scheme "http".toList (.inl rfl) ha hr'

/-- **C54**: a path in the instance is never used: the request's path comes from the binding alone. -/
theorem C54_path_dropped (a r : Str) (ha : Authority a) (hr : InstPath r) (env : Str → Str) (m : Svcdef.ServiceMethod) :
    clientSends ("http://".toList ++ (a ++ r)) env m = clientSends ("http://".toList ++ a) env m ∧
    clientSends ("https://".toList ++ (a ++ r)) env m = clientSends ("https://".toList ++ a) env m ∧
    (¬ "http".toList <+: a ++ r → clientSends (a ++ r) env m = clientSends a env m) := by
  have h0 := C54_address a [] ha (.inl rfl)
  have h1 := C54_address a r ha hr
  rw [List.append_nil] at h0
  refine ⟨?_, ?_, fun h => ?_⟩
  · rw [clientSends, clientSends, h0.1, h1.1]
  · rw [clientSends, clientSends, h0.2.1, h1.2.1]
  · have h' : ¬ "http".toList <+: a := fun hp => h (hp.trans (List.prefix_append a r))
    rw [clientSends, clientSends, h0.2.2, h1.2.2, if_neg h, if_neg h']

example : clientTarget "localhost:5050".toList = .host "http".toList "localhost:5050".toList ∧
    clientTarget "https://gw:443/api".toList = .host "https".toList "gw:443".toList ∧
    clientTarget "httpbin:8080".toList = .nowhere := by decide +kernel

example : Authority "httpbin:8080".toList ∧ InstPath "/api".toList ∧ "http".toList <+: "httpbin:8080".toList := by
  refine ⟨⟨by decide, by decide⟩, .inr ⟨"api".toList, rfl, by decide⟩, ⟨"bin:8080".toList, rfl⟩⟩

end Baron.Transport
