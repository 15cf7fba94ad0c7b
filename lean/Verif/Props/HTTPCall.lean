import Verif.Proofs.HTTPCall

/-!
# C79: a whole call over HTTP
-/

namespace Baron.HTTPCall

open Baron.HTTP (look Piece templateOf TemplateOK muxGo englishNumber cleanSegs)
open Baron.HTTPCode (FullMsg FullRequest DErr OErr Floats JSONOk HField HOneof bindingFields bindingOneofs decodeFull
  transmitFull)
open Baron.Runtime (Ctx Header Err Response ErrJSON WireHeader canonical tokenChar withStatus clientMessage arriving errorText)
open Baron.Transport

variable {F S R : Type}

/-- The generated file compiles: decoders and endpoint variables have distinct names; and its templates are written from
literals and parameters. -/
structure Compiles (s : Svcdef.Service) : Prop where
  templates : Wellformed s
  labels : (HTTP.serviceLabels s).Nodup
  lower : ((s.methods.map (·.name)).map toLower).Nodup

/-- What a request's body text is for the decoder of a method: nothing, malformed, or a message. -/
def bodyOf (L : Lib F R) (n : Str) (body : Str) : Option (Option (FullMsg F)) :=
  if body = [] then none else some (L.readReq n body)

/-- The context a method is run in: the server's, with the request's headers (C28). -/
def contextOf (sctx : Ctx) (q : Req) : Ctx := Runtime.httpHeadersToContext sctx q.header q.path

/-- **C79**, the server, for any request with a plain path. If no binding takes it, the answer is 405 when the path fits a
binding of another verb and 404 otherwise, and the service is not run. Else the first declared binding that takes it
decides: if its body is malformed the answer is 400, if its parameters cannot be decoded 500, both without running the
service; if they decode to a message, the binding's method is run once with that message, and the answer is its response with
status 200, or its error with the error's status. -/
theorem C79_serve (L : Lib F R) (s : Svcdef.Service) (hs : Compiles s) (svc : Service F S R) (sctx : Ctx) (q : Req) (st : S)
    (segs : List Str) (hp : PlainPath segs) (hpath : q.path = pathOf segs) (hquery : ∀ k, look q.query k ≠ some []) :
    ((∀ m ∈ s.methods, ∀ b ∈ m.bindings, ¬ Takes b q.verb segs) → ∃ r, serveHTTP L s svc sctx q st = (.response r, st) ∧
      ((∃ m ∈ s.methods, ∃ b ∈ m.bindings, Takes b (toUpper b.verb) segs) → r.code = 405) ∧
      ((∀ m ∈ s.methods, ∀ b ∈ m.bindings, ¬ Takes b (toUpper b.verb) segs) → r.code = 404)) ∧
    (∀ m k b, FirstWith s (Takes · q.verb segs) m k b → ∃ vars,
      (∀ ps, b.path = templateOf ps → TemplateOK ps → ∀ n v, look vars n = some v ↔ Bound ps segs n v) ∧
      (q.body ≠ [] ∧ L.readReq m.name q.body = none → ∃ r, serveHTTP L s svc sctx q st = (.response r, st) ∧ r.code = 400) ∧
      (¬ (q.body ≠ [] ∧ L.readReq m.name q.body = none) →
        (∀ x, decodeFull L.fl L.jok (L.zero m.name) (bindingFields b) (bindingOneofs b)
            ⟨vars, q.query, bodyOf L m.name q.body⟩ = .error x →
          ∃ r, serveHTTP L s svc sctx q st = (.response r, st) ∧ r.code = 500) ∧
        (∀ msg, decodeFull L.fl L.jok (L.zero m.name) (bindingFields b) (bindingOneofs b)
            ⟨vars, q.query, bodyOf L m.name q.body⟩ = .ok msg →
          (∀ r st' t, svc m.name (contextOf sctx q, st) msg = .ok (r, st') → L.writeResp r = some t →
            serveHTTP L s svc sctx q st = (.response ⟨200, [("Content-Type".toList, [Runtime.contentType])], t⟩, st')) ∧
          (∀ r st', svc m.name (contextOf sctx q, st) msg = .ok (r, st') → L.writeResp r = none →
            ∃ a, serveHTTP L s svc sctx q st = (.response a, st') ∧ a.code = 500) ∧
          (∀ e st', svc m.name (contextOf sctx q, st) msg = .error (e, st') →
            ∃ a, serveHTTP L s svc sctx q st = (.response a, st') ∧ a.code = e.status.getD 500 ∧
              a.body = errorText L.J e)))) := by
  have hsp : split '/' q.path = [] :: segs := by rw [hpath]; exact split_pathOf hp
  have hc : cleanSegs segs = true := HTTP.cleanSegs_ok _ hp.dots hp.empty
  refine ⟨?_, ?_⟩
  · intro hnone
    have hserve : serve s q.verb q.path = .refused := by
      rw [hpath]; exact (C51_first_declared_wins s hs.templates q.verb segs hp).2.1.2 hnone
    have hfit : ((routes s).any fun r => (muxGo (split '/' r.tmpl) (split '/' q.path)).isSome) = true ↔
        ∃ m ∈ s.methods, ∃ b ∈ m.bindings, Takes b (toUpper b.verb) segs := by
      rw [List.any_eq_true, routes_eq, hsp]
      constructor
      · rintro ⟨r, hr, hm⟩
        obtain ⟨m, hm', hr⟩ := List.mem_flatMap.1 hr
        obtain ⟨i, hi, hget⟩ := List.mem_iff_getElem.1 hr
        have := methodRoutes_get m i
        rw [List.getElem?_eq_getElem hi, hget] at this
        cases hb : m.bindings[i]? with
        | none => rw [hb] at this; cases this
        | some b =>
          rw [hb] at this
          simp only [Option.map_some, Option.some.injEq] at this
          have hbm := List.mem_of_getElem? hb
          refine ⟨m, hm', b, hbm, ?_⟩
          rw [← takes_iff (n := m.name) (l := m.name ++ englishNumber i) (hs.templates m hm' b hbm), ← this]
          rw [hit, hm, this]
          simp
      · rintro ⟨m, hm, b, hb, ht⟩
        obtain ⟨i, hi, he⟩ := List.mem_iff_getElem.1 hb
        refine ⟨⟨toUpper b.verb, b.path, m.name, m.name ++ englishNumber i⟩, List.mem_flatMap.2 ⟨m, hm, ?_⟩, ?_⟩
        · apply List.mem_of_getElem? (i := i)
          rw [methodRoutes_get, List.getElem?_eq_getElem hi, he]
          rfl
        · have := (takes_iff (n := m.name) (l := m.name ++ englishNumber i) (hs.templates m hm b hb)).2 ht
          rw [hit, Bool.and_eq_true] at this
          exact this.2
    rw [serveHTTP, hserve]
    simp only
    by_cases hf : ((routes s).any fun r => (muxGo (split '/' r.tmpl) (split '/' q.path)).isSome) = true
    · rw [if_pos hf]
      obtain ⟨m, hm, b, hb, ht⟩ := hfit.1 hf
      exact ⟨_, rfl, fun _ => rfl, fun h => absurd ht (h m hm b hb)⟩
    · rw [if_neg hf]
      exact ⟨_, rfl, fun h => absurd (hfit.2 h) hf, fun _ => rfl⟩
  · intro m k b hfirst
    have hrun := serveHTTP_first L s hs.templates hs.labels hs.lower svc sctx q st hsp hc m k b hfirst
    refine ⟨(muxGo (split '/' b.path) ([] :: segs)).getD [], ?_, ?_, ?_⟩
    rotate_left
    · intro hbad
      rw [hrun, handle, decode, if_neg hbad.1, hbad.2, decodeFull_bad]
      exact ⟨_, rfl, rfl⟩
    rotate_left
    · intro ps hb ho n v
      have hf : Fits ps segs := by
        obtain ⟨qs, hq, ho', hf⟩ := hfirst.1.2
        rw [split_inj_template ho ho' (hb.symm.trans hq)]; exact hf
      obtain ⟨w, hw'⟩ := Option.isSome_iff_exists.1 ((fits_iff ps segs).1 hf)
      simp only [hb, muxGo_template ho, hw', Option.getD_some]
      exact look_fitVars ho.nodup hw' n v
    · intro hgood
      have hbody : bodyOf L m.name q.body ≠ some none := by
        rw [bodyOf]
        by_cases hb : q.body = []
        · rw [if_pos hb]; nofun
        · rw [if_neg hb]
          intro h
          exact hgood ⟨hb, Option.some.inj h⟩
      refine ⟨?_, ?_⟩
      · intro x hx
        obtain ⟨h1, h2, h3⟩ := decodeFull_err L.fl L.jok _ _ _ _ hquery hbody x hx
        have hd : decode L b m.name ((muxGo (split '/' b.path) ([] :: segs)).getD []) q = .error x := hx
        rw [hrun, handle, hd]
        cases x with
        | inl x => cases x <;> first | exact ⟨_, rfl, rfl⟩ | exact absurd rfl h1 | exact absurd rfl h2
        | inr x => cases x <;> first | exact ⟨_, rfl, rfl⟩ | exact absurd rfl h3
      · intro msg hx
        have hd : decode L b m.name ((muxGo (split '/' b.path) ([] :: segs)).getD []) q = .ok msg := hx
        refine ⟨?_, ?_, ?_⟩
        · intro r st' t hr ht
          have hr : svc m.name (Runtime.httpHeadersToContext sctx q.header q.path, st) msg = .ok (r, st') := hr
          rw [hrun, handle, hd]
          simp only [hr, ht]
          rw [show okHeader = [("Content-Type".toList, [Runtime.contentType])] by decide +kernel]
        · intro r st' hr ht
          have hr : svc m.name (Runtime.httpHeadersToContext sctx q.header q.path, st) msg = .ok (r, st') := hr
          rw [hrun, handle, hd]
          simp only [hr, ht]
          exact ⟨_, rfl, rfl⟩
        · intro e st' hr
          have hr : svc m.name (Runtime.httpHeadersToContext sctx q.header q.path, st) msg = .error (e, st') := hr
          rw [hrun, handle, hd]
          simp only [hr]
          refine ⟨_, rfl, (Runtime.C40_status_and_headers L.J e []).1, ?_⟩
          rfl

/-! ## From the client -/

/-- The message makes the way from the client's encoder to the server's decoder unchanged; C25 and C65 say exactly when. -/
def Survives (L : Lib F R) (b : Svcdef.HTTPBinding) (n : Str) (msg : FullMsg F) : Prop :=
  ∃ r, transmitFull L.fl L.fzero L.addr b.verb b.path (bindingFields b) (bindingOneofs b) msg = some r ∧
    decodeFull L.fl L.jok (L.zero n) (bindingFields b) (bindingOneofs b) r = .ok msg

/-- protojson reads the message it wrote; only needed when there is a body. -/
def BodyTravels (L : Lib F R) (b : Svcdef.HTTPBinding) (n : Str) (msg : FullMsg F) : Prop :=
  b.verb ≠ "get".toList → ∃ t, L.writeReq msg = some t ∧ t ≠ [] ∧ L.readReq n t = some msg

/-- What the method finds in its context `c` when a client with context `ctx` and `CtxValuesToSend(keys…)` calls it at
`path` over the binding `b`: the fixed entries, the values selected by the caller, the template's static part under
`Request-Url`, the client's `HTTPJSON` under `Transport`, net/http's headers, and nothing else but what the server's own context has. -/
structure Arrives (L : Lib F R) (b : Svcdef.HTTPBinding) (ctx : Ctx) (keys : List Str) (sctx : Ctx) (path : Str)
    (c : Ctx) : Prop where
  transport : look c "transport".toList = some "HTTPJSON".toList
  url : look c "request-url".toList = some path
  sent : ∀ k ∈ keys, ∀ v, look ctx k = some v → look c (canonical k) = some v ∧
    (toLower k ≠ "transport".toList → toLower k ≠ "request-url".toList → look c (toLower k) = some v)
  base : (∀ k ∈ keys, canonical k ≠ "Request-Url".toList) → look c "Request-Url".toList = some (HTTP.basePath b.path)
  protocol : (∀ k ∈ keys, canonical k ≠ "Transport".toList) → look c "Transport".toList = some "HTTPJSON".toList
  rest : ∀ key, (∀ n, n = "Transport".toList ∨ n = "Request-Url".toList ∨ n ∈ keys.map canonical ∨ n ∈ L.added.map (·.1) →
    key ≠ n ∧ key ≠ toLower n) → look c key = look sctx key

theorem ctxValuesToSend_names (ctx : Ctx) : ∀ (ks : List Str) (h : Header) (k : Str) (vs : List Str),
    (k, vs) ∈ Runtime.ctxValuesToSend ctx ks h → k ∈ ks.map canonical ∨ (k, vs) ∈ h := by
  intro ks
  induction ks with
  | nil => intro h k vs hm; exact .inr hm
  | cons x ks ih =>
    intro h k vs hm
    rw [Runtime.ctxValuesToSend] at hm
    split at hm
    · rcases ih _ k vs hm with h1 | h1
      · exact .inl (by simp [h1])
      · rcases Runtime.headerSet_mem.1 h1 with h2 | h2
        · exact .inl (by simp [h2.1])
        · exact .inr h2.2
    · rcases ih _ k vs hm with h1 | h1
      · exact .inl (by simp [h1])
      · exact .inr h1

theorem canonical_consts : canonical "transport".toList = "Transport".toList ∧
    canonical "request-url".toList = "Request-Url".toList ∧ "transport".toList.all tokenChar = true ∧
    "request-url".toList.all tokenChar = true := by decide +kernel

theorem wire_nil : WireHeader [] := ⟨fun _ _ h => by simp at h, List.nodup_nil⟩

theorem encoderHeader_wire (b : Svcdef.HTTPBinding) : WireHeader (encoderHeader b) :=
  Runtime.headerSet_wire (Runtime.headerSet_wire wire_nil canonical_consts.2.2.1) canonical_consts.2.2.2

theorem arrive_wire (L : Lib F R) (hadd : WireHeader L.added) {h : Header} (hw : WireHeader h) : WireHeader (arrive L h) := by
  constructor
  · intro k vs hm
    rcases List.mem_append.1 hm with hm | hm
    · exact hw.valid k vs hm
    · exact hadd.valid k vs (List.mem_filter.1 hm).1
  · rw [arrive, List.map_append, List.nodup_append]
    refine ⟨hw.nodup, ?_, ?_⟩
    · exact hadd.nodup.sublist (List.filter_sublist.map _)
    · intro a ha x hx he
      obtain ⟨e, he', rfl⟩ := List.mem_map.1 hx
      have := (List.mem_filter.1 he').2
      simp only [decide_eq_true_eq] at this
      exact this (he ▸ ha)

theorem arrives (L : Lib F R) (hadd : WireHeader L.added) (b : Svcdef.HTTPBinding) (ctx : Ctx) (keys : List Str) (sctx : Ctx)
    (path : Str) (hk : ∀ k ∈ keys, k.all tokenChar = true) (hd : (keys.map canonical).Nodup) :
    Arrives L b ctx keys sctx path
      (Runtime.httpHeadersToContext sctx (arrive L (Runtime.ctxValuesToSend ctx keys (encoderHeader b))) path) := by
  have hw0 := Runtime.ctxValuesToSend_wire ctx keys _ (encoderHeader_wire b) hk
  have hw := arrive_wire L hadd hw0
  have h28 := fun key => Runtime.C28_http_headers_to_context sctx _ hw path key
  refine ⟨(h28 []).1, (h28 []).2.1, ?_, ?_, ?_, ?_⟩
  · intro k hkm v hv
    have hin : (canonical k, [v]) ∈ arrive L (Runtime.ctxValuesToSend ctx keys (encoderHeader b)) :=
      List.mem_append.2 (.inl (Runtime.ctxValuesToSend_mem ctx v keys _ k hkm hv hd))
    have hup := Runtime.canonical_head (hk k hkm)
    have h1 : canonical k ≠ "transport".toList := fun h => absurd (hup 't' _ h) (by decide)
    have h2 : canonical k ≠ "request-url".toList := fun h => absurd (hup 'r' _ h) (by decide)
    exact ⟨((h28 _).2.2 h1 h2).1 _ _ hin (.inl rfl), fun h3 h4 => ((h28 _).2.2 h3 h4).1 _ _ hin
      (.inr (Runtime.lower_canonical k).symm)⟩
  · intro hno
    have hin : ("Request-Url".toList, [HTTP.basePath b.path]) ∈
        arrive L (Runtime.ctxValuesToSend ctx keys (encoderHeader b)) := by
      refine List.mem_append.2 (.inl (Runtime.ctxValuesToSend_keep ctx _ _ keys _ hno ?_))
      exact Runtime.headerSet_mem.2 (.inl ⟨canonical_consts.2.1.symm, rfl⟩)
    exact ((h28 _).2.2 (by decide) (by decide)).1 _ _ hin (.inl rfl)
  · intro hno
    have hin : ("Transport".toList, ["HTTPJSON".toList]) ∈
        arrive L (Runtime.ctxValuesToSend ctx keys (encoderHeader b)) := by
      refine List.mem_append.2 (.inl (Runtime.ctxValuesToSend_keep ctx _ _ keys _ hno ?_))
      refine Runtime.headerSet_mem.2 (.inr ⟨?_, Runtime.headerSet_mem.2 (.inl ⟨canonical_consts.1.symm, rfl⟩)⟩)
      rw [canonical_consts.2.1]; decide
    exact ((h28 _).2.2 (by decide) (by decide)).1 _ _ hin (.inl rfl)
  · intro key hkey
    have h1 := (hkey _ (.inl rfl)).2
    have h2 := (hkey _ (.inr (.inl rfl))).2
    rw [show toLower "Transport".toList = "transport".toList by decide +kernel] at h1
    rw [show toLower "Request-Url".toList = "request-url".toList by decide +kernel] at h2
    refine ((h28 key).2.2 h1 h2).2 ?_
    intro k vs hm
    apply hkey k
    rcases List.mem_append.1 hm with hm | hm
    · rcases ctxValuesToSend_names ctx keys _ k vs hm with hm | hm
      · exact .inr (.inr (.inl hm))
      · rcases Runtime.headerSet_mem.1 hm with hm | hm
        · exact .inr (.inl (hm.1.trans canonical_consts.2.1))
        · rcases Runtime.headerSet_mem.1 hm.2 with hm | hm
          · exact .inl (hm.1.trans canonical_consts.1)
          · cases hm.2
    · exact .inr (.inr (.inr (List.mem_map.2 ⟨_, (List.mem_filter.1 hm).1, rfl⟩)))

/-- **C79**, from the client. Let every binding declared before a method's with the same verb be apart from the method's
first one, and let the message make the way unchanged. Then calling the method through the generated client runs the
service's method of that name exactly once, with the caller's message and the context described above; if it returns a
response that protojson writes and reads back, the caller gets that response; if it fails with a status other than 200, the
caller gets an error with that status and the error's text (C40). -/
theorem C79_call (L : Lib F R) (hadd : WireHeader L.added) (s : Svcdef.Service) (hs : Compiles s) (svc : Service F S R)
    (ctx : Ctx) (keys : List Str) (hk : ∀ k ∈ keys, k.all tokenChar = true) (hd : (keys.map canonical).Nodup) (sctx : Ctx)
    (ms₁ ms₂ : List Svcdef.ServiceMethod) (m : Svcdef.ServiceMethod) (b : Svcdef.HTTPBinding) (bs : List Svcdef.HTTPBinding)
    (hms : s.methods = ms₁ ++ m :: ms₂) (hb : m.bindings = b :: bs) (ps : List Piece) (hps : b.path = templateOf ps)
    (ho : TemplateOK ps)
    (hapart : ∀ m' ∈ ms₁, ∀ b' ∈ m'.bindings, toUpper b'.verb = toUpper b.verb →
      ∀ qs, b'.path = templateOf qs → TemplateOK qs → Apart qs ps)
    (msg : FullMsg F) (hsurv : Survives L b m.name msg) (hbody : BodyTravels L b m.name msg) (st : S) :
    ∃ path c, Transport.clientRequest (HTTPCode.pathEnv L.fl L.addr (bindingFields b) msg.fields) m =
        some (toUpper b.verb, path) ∧
      Arrives L b ctx keys sctx path c ∧
      (∀ r st' t, svc m.name (c, st) msg = .ok (r, st') → L.writeResp r = some t → L.readResp m.name t = some r →
        call L s svc ctx keys sctx m msg st = (.returned (.ok r), st')) ∧
      (∀ r st', svc m.name (c, st) msg = .ok (r, st') → L.writeResp r = none →
        call L s svc ctx keys sctx m msg st = (.returned (.error (withStatus 500 (L.writeText r))), st')) ∧
      (∀ e st', svc m.name (c, st) msg = .error (e, st') → e.status.getD 500 ≠ 200 →
        call L s svc ctx keys sctx m msg st =
          (.returned (.error (withStatus (e.status.getD 500) (clientMessage L.J (arriving L.J e)))), st')) := by
  obtain ⟨r0, htr, hdec⟩ := hsurv
  unfold transmitFull at htr
  split at htr
  · cases htr
  rename_i path hpath
  split at htr
  · cases htr
  rename_i vars hvars
  simp only [Option.some.injEq] at htr
  subst htr
  rw [HTTP.muxVars] at hvars
  split at hvars
  rotate_left
  · cases hvars
  rename_i hclean
  -- the request
  let q : Req := ⟨toUpper b.verb, path, arrive L (Runtime.ctxValuesToSend ctx keys (encoderHeader b)),
    HTTPCode.encodeFull L.fl L.fzero (bindingFields b) (bindingOneofs b) msg,
    if b.verb = "get".toList then [] else (L.writeReq msg).getD []⟩
  have hreq : clientRequest L ctx keys b msg = some q := by
    rw [clientRequest, hpath]
    by_cases hg : b.verb = "get".toList
    · simp only [if_pos hg, q]
    · obtain ⟨t, ht, -, -⟩ := hbody hg
      simp only [if_neg hg, ht, q, Option.getD_some]
  have hqbody : (if q.body = [] then none else some (L.readReq m.name q.body)) =
      (if b.verb = "get".toList then none else some (some msg)) := by
    by_cases hg : b.verb = "get".toList
    · simp only [if_pos hg, q, if_true]
    · obtain ⟨t, ht, hne, hr⟩ := hbody hg
      simp only [if_neg hg, ht, q, Option.getD_some, if_neg hne, hr]
  -- the route
  obtain ⟨segs, hsp⟩ : ∃ segs, split '/' path = [] :: segs := by
    rw [hps, HTTP.split_template ho] at hvars
    cases hsplit : split '/' path with
    | nil => exact absurd hsplit (HTTP.split_ne_nil _ _)
    | cons x segs =>
      rw [hsplit, muxGo, show HTTP.isParamPart ([] : Str) = false from rfl] at hvars
      simp only [Bool.false_eq_true, if_false] at hvars
      by_cases hx : ([] : Str) = x
      · exact ⟨segs, by rw [← hx]⟩
      · rw [if_neg hx] at hvars; cases hvars
  rw [hsp] at hvars
  have hclean' : cleanSegs segs = true := by rw [hsp] at hclean; exact hclean
  have hfit : Fits ps segs := by
    rw [fits_iff, ← muxGo_template ho segs, ← hps, hvars]; rfl
  have hfirst : FirstWith s (Takes · q.verb segs) m 0 b := by
    refine ⟨⟨rfl, ps, hps, ho, hfit⟩, ms₁, ms₂, [], bs, hms, hb, rfl, ?_, by simp⟩
    rintro m' hm' b' hb' ⟨hv, qs, hq, hoq, hf⟩
    exact (C51_apart qs ps).1 (hapart m' hm' b' hb' hv qs hq hoq) _ ⟨hf, hfit⟩
  have hrun := serveHTTP_first L s hs.templates hs.labels hs.lower svc sctx q st hsp hclean' m 0 b hfirst
  have hd2 : decode L b m.name ((muxGo (split '/' b.path) ([] :: segs)).getD []) q = .ok msg := by
    rw [decode, hvars, Option.getD_some, hqbody]; exact hdec
  refine ⟨path, Runtime.httpHeadersToContext sctx q.header path, ?_, arrives L hadd b ctx keys sctx path hk hd, ?_, ?_, ?_⟩
  · rw [Transport.clientRequest, hb]
    simp only [hpath, Option.map_some]
  · intro r st' t hr ht hrd
    rw [call, hb]
    simp only [hreq, hrun, handle, hd2]
    have hr : svc m.name (Runtime.httpHeadersToContext sctx q.header q.path, st) msg = .ok (r, st') := hr
    simp only [hr, ht]
    rw [Runtime.decodeResponse, if_neg (by simp)]
    simp only [Response.received, show Runtime.bodyAllowed 200 = true from rfl, if_true, hrd]
  · intro r st' hr ht
    rw [call, hb]
    simp only [hreq, hrun, handle, hd2]
    have hr : svc m.name (Runtime.httpHeadersToContext sctx q.header q.path, st) msg = .ok (r, st') := hr
    simp only [hr, ht]
    rw [(Runtime.C40_client_gets L.J (L.readResp m.name) (plainErr (L.writeText r)) okHeader).1 (show 500 ≠ 200 by decide)]
    have h1 : arriving L.J (plainErr (L.writeText r)) = L.J.enc (L.writeText r) := by
      have hn : ¬ Runtime.NoBody ((plainErr (L.writeText r)).status.getD 500) := by
        show ¬ Runtime.NoBody 500
        unfold Runtime.NoBody; omega
      rw [arriving, if_neg hn]; rfl
    rw [h1, clientMessage, L.J.dec_enc]
    rfl
  · intro e st' hr hne
    rw [call, hb]
    simp only [hreq, hrun, handle, hd2]
    have hr : svc m.name (Runtime.httpHeadersToContext sctx q.header q.path, st) msg = .error (e, st') := hr
    simp only [hr]
    rw [(Runtime.C40_client_gets L.J (L.readResp m.name) e []).1 hne]

/-- **C79**, when a message makes the way, in terms of the message alone. For a template whose parameters are the binding's
path fields, single scalars or enums (C25), and oneofs that hold scalars (C65): each string in the path must be one a path
segment carries unchanged, each query field must carry its value, and for a GET, body fields and oneofs must be unset and
oneofs in the query must not hold a zero. -/
theorem C79_survives (L : Lib F R) (b : Svcdef.HTTPBinding) (n : Str) (msg : FullMsg F) (ps : List Piece)
    (hps : b.path = templateOf ps) (htmpl : TemplateOK ps)
    (hloc : ∀ f ∈ bindingFields b, HTTPCode.InPath f ∨ HTTPCode.InQuery f ∨ HTTPCode.InBody f)
    (hcamel : ((bindingFields b).map (·.camelName)).Nodup)
    (hlit : ∀ s, Piece.lit s ∈ ps → HTTP.PathText s)
    (hvar : ∀ n, Piece.var n ∈ ps → ∃ f ∈ bindingFields b, HTTPCode.InPath f ∧ f.queryParamName = n)
    (hpath : ∀ f ∈ bindingFields b, HTTPCode.InPath f → Piece.var f.queryParamName ∈ ps ∧
      Strs.goCamelCase f.queryParamName = f.camelName ∧
      ∃ sh, HTTPCode.HasShape f sh ∧ HTTPCode.Holds L.fl sh (msg.fields f.camelName) ∧ HTTPCode.PathShape sh)
    (hquery : ∀ f ∈ bindingFields b, HTTPCode.InQuery f → ∃ sh, HTTPCode.HasShape f sh ∧
      HTTPCode.Holds L.fl sh (msg.fields f.camelName))
    (hzero : ∀ f ∈ bindingFields b, ∀ sh, HTTPCode.HasShape f sh → ∀ v, HTTPCode.absent sh v →
      (L.zero n).fields f.camelName = v)
    (hozero : ∀ k, (L.zero n).oneofs k = none)
    (hnd : ((bindingOneofs b).map fun o => Strs.goCamelCase o.name).Nodup)
    (hparams : ((bindingFields b).map (·.queryParamName) ++
      (bindingOneofs b).flatMap fun o => o.options.map (·.queryParamName)).Nodup)
    (hnames : ∀ o ∈ bindingOneofs b, (o.options.map (·.name)).Nodup)
    (hholds : ∀ o ∈ bindingOneofs b, ∀ k x, msg.oneofs (Strs.goCamelCase o.name) = some (k, x) →
      ∃ p ∈ o.options, p.name = k ∧ ∃ t, HTTPCode.baseOf p.goType = some t ∧ HTTPCode.FitsBase L.fl t x)
    (hpathok : ∀ f ∈ bindingFields b, HTTPCode.InPath f → ∀ sh, HTTPCode.HasShape f sh →
      HTTPCode.PathOK sh (msg.fields f.camelName))
    (hqueryok : ∀ f ∈ bindingFields b, HTTPCode.InQuery f → ∀ sh, HTTPCode.HasShape f sh →
      HTTPCode.QueryOK L.fl L.jok sh (msg.fields f.camelName))
    (hget : b.verb = "get".toList →
      (∀ k, msg.fields k = (L.zero n).fields k ∨
        ∃ f ∈ bindingFields b, f.camelName = k ∧ (HTTPCode.InPath f ∨ HTTPCode.InQuery f)) ∧
      (∀ o ∈ bindingOneofs b, o.location = "query".toList → ∀ k x, msg.oneofs (Strs.goCamelCase o.name) = some (k, x) →
        ¬ Wire.Zero L.fzero x) ∧
      ∀ k, (∀ o ∈ bindingOneofs b, o.location = "query".toList → Strs.goCamelCase o.name ≠ k) → msg.oneofs k = none) :
    Survives L b n msg := by
  have hfields := (HTTPCode.C25_round_trip L.fl L.jok L.addr (L.zero n).fields b.verb ps (bindingFields b) msg.fields hloc
    hcamel (List.nodup_append.1 hparams).1 htmpl hlit hvar hpath hquery hzero).2
    ⟨hpathok, hqueryok, fun h => (hget h).1⟩
  rw [← hps] at hfields
  obtain ⟨r, h1, h2⟩ := HTTPCode.C65_round_trip L.fl L.fzero L.jok L.addr (L.zero n) b.verb b.path (bindingFields b)
    (bindingOneofs b) msg hozero hnd hparams hnames hholds hfields
  refine ⟨r, h1, h2.2 ?_⟩
  by_cases hg : b.verb = "get".toList
  · exact .inr (hget hg).2
  · exact .inl hg

/-! ### A concrete case -/

def c79Ty (n : String) (star array : Bool) : Svcdef.FieldType := ⟨n.toList, none, [], none, none, star, array⟩

def c79Id : Svcdef.HTTPParameter := ⟨⟨"UserId".toList, "user_id".toList, c79Ty "int64" false false⟩, "path".toList⟩
def c79Nums : Svcdef.HTTPParameter := ⟨⟨"Nums".toList, "nums".toList, c79Ty "int64" false true⟩, "query".toList⟩
def c79Note : Svcdef.HTTPParameter := ⟨⟨"Note".toList, "note".toList, c79Ty "string" false false⟩, "body".toList⟩

/-- `GET /v1/{user_id}?nums=…` and `POST /v1/{user_id}` with a body. -/
def c79Svc : Svcdef.Service :=
  ⟨"S".toList, [⟨"Get".toList, c51Type, c51Type, [⟨"get".toList, "/v1/{user_id}".toList, [c79Id, c79Nums]⟩]⟩,
    ⟨"Put".toList, c51Type, c51Type, [⟨"post".toList, "/v1/{user_id}".toList, [c79Id, c79Note]⟩]⟩]⟩

def c79Zero : FullMsg Empty := ⟨fun n => if n = "UserId".toList then .one (.num 0)
  else if n = "Note".toList then .one (.str []) else .many [], fun _ => none⟩

/-- A message with `user_id = 7`, `nums` and `note`. -/
def c79Msg (nums : List Int) (note : String) : FullMsg Empty := ⟨fun n => if n = "UserId".toList then .one (.num 7)
  else if n = "Note".toList then .one (.str note.toList)
  else if n = "Nums".toList then .many (nums.map .num) else .many [], fun _ => none⟩

def c79Lib : Lib Empty Str where
  fl := HTTPCode.noFloats
  fzero := nofun
  jok _ := true
  addr _ := []
  zero _ := c79Zero
  readReq _ t := if t = "{}".toList then some c79Zero else if t = "{7,hi}".toList then some (c79Msg [] "hi") else none
  writeReq _ := some "{7,hi}".toList
  writeResp t := some t
  readResp _ t := some t
  J := Runtime.demoJSON
  decodeText _ _ := "bad".toList
  writeText _ := "bad".toList
  added := [("User-Agent".toList, ["Go-http-client/1.1".toList])]

/-- Counts its calls; the response names the method, the user's number from the context and how many numbers there are. -/
def c79Impl : Service Empty Nat Str := fun n c m => match m.fields "Nums".toList with
  | .many l => if l.length = 13 then .error (⟨"unlucky".toList, none, none, some 418⟩, c.2 + 1) else
    .ok (n ++ '/' :: (look c.1 "request-url".toList).getD [] ++ ' ' :: HTTP.itoa l.length, c.2 + 1)
  | _ => .ok ([], c.2 + 1)

theorem c79_compiles : Compiles c79Svc := by
  refine ⟨?_, by decide +kernel, by decide +kernel⟩
  have h : ∃ ps, "/v1/{user_id}".toList = templateOf ps ∧ TemplateOK ps := by
    refine ⟨[.lit "v1".toList, .var "user_id".toList], by decide +kernel, ?_, ?_, by decide +kernel, by simp⟩
    · intro s hs
      simp only [List.mem_cons, Piece.lit.injEq, reduceCtorEq, List.not_mem_nil, or_false] at hs
      subst hs
      unfold HTTP.Braced
      decide +kernel
    · intro s hs
      simp only [List.mem_cons, Piece.var.injEq, reduceCtorEq, List.not_mem_nil, or_false, false_or] at hs
      subst hs
      unfold HTTP.Braced
      decide +kernel
  intro m hm b hb
  simp only [c79Svc, List.mem_cons, List.not_mem_nil, or_false] at hm
  rcases hm with rfl | rfl <;> simp only [List.mem_cons, List.not_mem_nil, or_false] at hb <;> subst hb <;> exact h

def c79Get : Svcdef.HTTPBinding := ⟨"get".toList, "/v1/{user_id}".toList, [c79Id, c79Nums]⟩

/-- The conditions of `C79_survives` and `C79_call` are met by the call of `Get` with three numbers. -/
theorem c79_survives : Survives c79Lib c79Get "Get".toList (c79Msg [1, 2, 3] "") := by
  have hf : bindingFields c79Get =
      [⟨"user_id".toList, "UserId".toList, "path".toList, "int64".toList, false, true, false, false⟩,
       ⟨"nums".toList, "Nums".toList, "query".toList, "int64".toList, false, true, false, true⟩] := by decide +kernel
  have hos : bindingOneofs c79Get = [] := by decide +kernel
  have hb64 : HTTPCode.baseOf "int64".toList = some .int64 := by decide +kernel
  have key : ∀ {P : HField → Prop}, P ⟨"user_id".toList, "UserId".toList, "path".toList, "int64".toList, false, true, false, false⟩ →
      P ⟨"nums".toList, "Nums".toList, "query".toList, "int64".toList, false, true, false, true⟩ →
      ∀ f ∈ bindingFields c79Get, P f := by
    intro P h1 h2 f hmem
    rw [hf] at hmem
    rcases List.mem_cons.1 hmem with rfl | hmem
    · exact h1
    · rcases List.mem_cons.1 hmem with rfl | hmem
      · exact h2
      · cases hmem
  have hU : (c79Msg [1, 2, 3] "").fields "UserId".toList = .one (.num 7) := by decide +kernel
  have hN : (c79Msg [1, 2, 3] "").fields "Nums".toList = .many [.num 1, .num 2, .num 3] := by decide +kernel
  refine C79_survives c79Lib c79Get "Get".toList _ [.lit "v1".toList, .var "user_id".toList] (by decide +kernel) ?_
    (key (.inl rfl) (.inr (.inl rfl))) (by decide +kernel) ?_ ?_ ?_ ?_ ?_ (fun _ => rfl) (by rw [hos]; simp)
    (by rw [hos]; decide +kernel) (by rw [hos]; simp) (by rw [hos]; simp) ?_ ?_ ?_
  · obtain ⟨ps, h1, h2⟩ := c79_compiles.templates _ (List.mem_cons_self ..) _ (List.mem_cons_self ..)
    refine ⟨?_, ?_, by decide +kernel, by simp⟩
    · intro s hs
      simp only [List.mem_cons, Piece.lit.injEq, reduceCtorEq, List.not_mem_nil, or_false] at hs
      subst hs
      unfold HTTP.Braced
      decide +kernel
    · intro s hs
      simp only [List.mem_cons, Piece.var.injEq, reduceCtorEq, List.not_mem_nil, or_false, false_or] at hs
      subst hs
      unfold HTTP.Braced
      decide +kernel
  · intro s hs
    simp only [List.mem_cons, Piece.lit.injEq, reduceCtorEq, List.not_mem_nil, or_false] at hs
    subst hs
    unfold HTTP.PathText HTTP.UrlSafe
    decide +kernel
  · intro n hn
    simp only [List.mem_cons, Piece.var.injEq, reduceCtorEq, List.not_mem_nil, or_false, false_or] at hn
    subst hn
    exact ⟨⟨"user_id".toList, "UserId".toList, "path".toList, "int64".toList, false, true, false, false⟩,
      by rw [hf]; exact List.mem_cons_self .., rfl, rfl⟩
  · refine key (fun _ => ⟨by simp, by decide +kernel, .single .int64, ⟨rfl, rfl, hb64, rfl, rfl⟩, ?_, trivial⟩)
      (fun h => absurd h (by unfold HTTPCode.InPath; decide))
    rw [hU]
    show -(2 ^ 63) ≤ (7 : Int) ∧ (7 : Int) < 2 ^ 63
    decide
  · refine key (fun h => absurd h (by unfold HTTPCode.InQuery; decide))
      (fun _ => ⟨.repeated .int64, ⟨rfl, rfl, hb64, rfl, rfl⟩, ?_⟩)
    rw [hN]
    intro v hv
    rcases List.mem_cons.1 hv with rfl | hv
    · exact (by decide : -(2 ^ 63) ≤ (1 : Int) ∧ (1 : Int) < 2 ^ 63)
    rcases List.mem_cons.1 hv with rfl | hv
    · exact (by decide : -(2 ^ 63) ≤ (2 : Int) ∧ (2 : Int) < 2 ^ 63)
    rcases List.mem_cons.1 hv with rfl | hv
    · exact (by decide : -(2 ^ 63) ≤ (3 : Int) ∧ (3 : Int) < 2 ^ 63)
    · cases hv
  · refine key ?_ ?_
    · intro sh hsh v hv
      cases sh <;> simp [HTTPCode.HasShape, HTTPCode.absent] at hsh hv
    · intro sh hsh v hv
      cases sh <;> simp [HTTPCode.HasShape, HTTPCode.absent] at hsh hv
      subst hv
      rfl
  · refine key ?_ (fun h => absurd h (by unfold HTTPCode.InPath; decide))
    intro _ sh hsh
    rw [hU]
    cases sh with
    | single b => cases b <;> trivial
    | _ => trivial
  · refine key (fun h => absurd h (by unfold HTTPCode.InQuery; decide)) ?_
    intro _ sh hsh
    cases sh with
    | repeated b =>
      have : some HTTPCode.Base.int64 = some b := hb64.symm.trans hsh.2.2.1
      cases this
      rw [hN]; trivial
    | message => exact absurd hsh.2.2.2 (by decide)
    | messages => exact absurd hsh.1 (by decide)
    | single => rw [hN]; trivial
    | optional => rw [hN]; trivial
    | enum => rw [hN]; trivial
  · intro _
    refine ⟨?_, by rw [hos]; simp, fun _ _ => rfl⟩
    intro k
    by_cases h1 : k = "UserId".toList
    · exact .inr ⟨⟨"user_id".toList, "UserId".toList, "path".toList, "int64".toList, false, true, false, false⟩,
        by rw [hf]; exact List.mem_cons_self .., h1.symm, .inl rfl⟩
    · by_cases h2 : k = "Nums".toList
      · exact .inr ⟨⟨"nums".toList, "Nums".toList, "query".toList, "int64".toList, false, true, false, true⟩,
          by rw [hf]; exact List.mem_cons_of_mem _ (List.mem_cons_self ..), h2.symm, .inr rfl⟩
      · refine .inl ?_
        show (if k = "UserId".toList then _ else if k = "Note".toList then _ else if k = "Nums".toList then _ else _) =
          (if k = "UserId".toList then _ else if k = "Note".toList then _ else _)
        rw [if_neg h1, if_neg h2, if_neg h1]
        rfl

/-- So `C79_call` applies to that call, from a context with `user`, sent as a header; the state counts one run. -/
example : ∃ c, look c "User".toList = some "me".toList ∧ ∀ r st', c79Impl "Get".toList (c, 5) (c79Msg [1, 2, 3] "") = .ok (r, st') →
    call c79Lib c79Svc c79Impl [("user".toList, "me".toList)] ["user".toList] []
      ⟨"Get".toList, c51Type, c51Type, [c79Get]⟩ (c79Msg [1, 2, 3] "") 5 = (.returned (.ok r), st') := by
  obtain ⟨ps, h1, h2⟩ := c79_compiles.templates _ (List.mem_cons_self ..) _ (List.mem_cons_self ..)
  have hadd : WireHeader c79Lib.added := by
    refine ⟨?_, by decide +kernel⟩
    intro k vs h
    rcases List.mem_cons.1 h with h | h
    · cases h; decide +kernel
    · cases h
  obtain ⟨path, c, -, ha, hok, -, -⟩ := C79_call c79Lib hadd c79Svc c79_compiles c79Impl [("user".toList, "me".toList)]
    ["user".toList] (by decide +kernel) (by decide +kernel) [] [] _ ⟨"Get".toList, c51Type, c51Type, [c79Get]⟩ c79Get [] rfl
    rfl ps h1 h2 (fun _ h => absurd h List.not_mem_nil) (c79Msg [1, 2, 3] "") c79_survives (fun h => absurd rfl h) 5
  refine ⟨c, ?_, fun r st' h => hok r st' r h rfl rfl⟩
  have := (ha.sent "user".toList (by simp) "me".toList (by decide +kernel)).1
  rwa [show canonical "user".toList = "User".toList by decide +kernel] at this

/-- Calls through the client: a response, an error of the service, a message whose body the server refuses (its state is
unchanged); and requests made by hand: no such path, no such verb, a parameter that is no number. -/
example :
    let get := c79Svc.methods.getD 0 ⟨[], c51Type, c51Type, []⟩
    let put := c79Svc.methods.getD 1 ⟨[], c51Type, c51Type, []⟩
    call c79Lib c79Svc c79Impl [] [] [] get (c79Msg [1, 2, 3] "") 0 = (.returned (.ok "Get//v1/7 3".toList), 1) ∧
    call c79Lib c79Svc c79Impl [] [] [] get (c79Msg (List.replicate 13 5) "") 0 =
      (.returned (.error "status code: '418': unlucky".toList), 1) ∧
    call c79Lib c79Svc c79Impl [] [] [] put (c79Msg [] "hi") 4 = (.returned (.ok "Put//v1/7 0".toList), 5) ∧
    call { c79Lib with writeReq := fun _ => some "?".toList } c79Svc c79Impl [] [] [] put (c79Msg [] "hi") 4 =
      (.returned (.error "status code: '400': bad".toList), 4) ∧
    serveHTTP c79Lib c79Svc c79Impl [] ⟨"GET".toList, "/v2/7".toList, [], [], []⟩ 4 = (.response notFound, 4) ∧
    serveHTTP c79Lib c79Svc c79Impl [] ⟨"PUT".toList, "/v1/7".toList, [], [], []⟩ 4 = (.response notAllowed, 4) ∧
    (serveHTTP c79Lib c79Svc c79Impl [] ⟨"GET".toList, "/v1/x".toList, [], [], []⟩ 4).2 = 4 := by
  refine ⟨?_, ?_, ?_, ?_, ?_, ?_, ?_⟩ <;> decide +kernel

end Baron.HTTPCall
