import Verif.Proofs.Runtime

/-!
# C27, C28, C40, C43: middleware, contexts, errors
-/

namespace Baron.Runtime

open Baron.HTTP (look look_cons)

/-! ## C27 -/

/-- **C27.** With a list of exclusions that are distinct endpoint names, every endpoint not excluded is wrapped exactly
once, with its own name as label, and the excluded ones are untouched, whatever order Go ranges over the map in. -/
theorem C27_wrap_labeled {E : Type} (order : List Str → List Str) (horder : ∀ l, (order l).Perm l)
    (methods : List Str) (hm : methods.Nodup) (e : Str → E) (mw : Str → E → E) (excluded : List Str)
    (hex : excluded.Nodup ∧ ∀ x ∈ excluded, x ∈ methods) :
    wrapAllLabeledExcept order methods e mw excluded =
      (fun n => if n ∈ methods ∧ n ∉ excluded then mw n (e n) else e n, none) := by
  rw [wrapAllLabeledExcept, exclude_ok _ _ hex.1 hex.2]
  simp only
  rw [wrap_fold mw methods hm]
  · congr 1
    funext n
    simp only [(horder _).mem_iff, List.mem_filter, decide_eq_true_eq]
  · exact (horder _).nodup_iff.2 (hm.sublist List.filter_sublist)
  · intro x hx
    exact (List.mem_filter.1 ((horder _).mem_iff.1 hx)).1

/-- **C27**, the unlabelled variant. -/
theorem C27_wrap {E : Type} (order : List Str → List Str) (horder : ∀ l, (order l).Perm l)
    (methods : List Str) (hm : methods.Nodup) (e : Str → E) (mw : E → E) (excluded : List Str)
    (hex : excluded.Nodup ∧ ∀ x ∈ excluded, x ∈ methods) :
    wrapAllExcept order methods e mw excluded =
      (fun n => if n ∈ methods ∧ n ∉ excluded then mw (e n) else e n, none) :=
  C27_wrap_labeled order horder methods hm e (fun _ => mw) excluded hex

/-- **C27.** An exclusion that names no endpoint, or is repeated, makes the call panic with that name, and no endpoint
has been wrapped. -/
theorem C27_bad_exclusion {E : Type} (order : List Str → List Str) (methods : List Str) (e : Str → E)
    (mw : Str → E → E) (mw' : E → E) (excluded : List Str) (hex : ¬ (excluded.Nodup ∧ ∀ x ∈ excluded, x ∈ methods)) :
    ∃ pre x post, excluded = pre ++ x :: post ∧ (x ∉ methods ∨ x ∈ pre) ∧
      wrapAllLabeledExcept order methods e mw excluded = (e, some x) ∧
      wrapAllExcept order methods e mw' excluded = (e, some x) := by
  obtain ⟨pre, x, post, h1, h2, -, h3⟩ := exclude_bad _ _ hex
  exact ⟨pre, x, post, h1, h2, by rw [wrapAllLabeledExcept, h3], by rw [wrapAllExcept, h3]⟩

/-- **C27.** Wrapping twice composes in call order: the middleware of the second call is the outer one. -/
theorem C27_wrap_twice {E : Type} (order order' : List Str → List Str) (horder : ∀ l, (order l).Perm l)
    (horder' : ∀ l, (order' l).Perm l) (methods : List Str) (hm : methods.Nodup) (e : Str → E) (mw mw' : E → E)
    (excluded excluded' : List Str) (hex : excluded.Nodup ∧ ∀ x ∈ excluded, x ∈ methods)
    (hex' : excluded'.Nodup ∧ ∀ x ∈ excluded', x ∈ methods) (n : Str) (hn : n ∈ methods) :
    (wrapAllExcept order' methods (wrapAllExcept order methods e mw excluded).1 mw' excluded').1 n =
      (if n ∈ excluded' then id else mw') ((if n ∈ excluded then id else mw) (e n)) := by
  rw [C27_wrap order horder methods hm e mw excluded hex, C27_wrap order' horder' methods hm _ mw' excluded' hex']
  by_cases h1 : n ∈ excluded <;> by_cases h2 : n ∈ excluded' <;> simp [h1, h2, hn]

/-- The hypotheses are met by a concrete service; the middleware here records its label. -/
example : (["Sum", "Ping", "Echo"].map String.toList).Nodup ∧
    (["Ping".toList].Nodup ∧ ∀ x ∈ ["Ping".toList], x ∈ ["Sum", "Ping", "Echo"].map String.toList) ∧
    (wrapAllLabeledExcept List.reverse (["Sum", "Ping", "Echo"].map String.toList) (fun n => [n])
      (fun l x => l :: x) ["Ping".toList]).1 "Sum".toList = ["Sum".toList, "Sum".toList] ∧
    (wrapAllLabeledExcept List.reverse (["Sum", "Ping", "Echo"].map String.toList) (fun n => [n])
      (fun l x => l :: x) ["Ping".toList, "Pong".toList]).2 = some "Pong".toList := by decide +kernel

/-! ## C28 -/

/-- **C28**, HTTP. For every header map as net/http delivers it (valid canonical names, each once), every context and
path: `transport` and `request-url` are set; any other key that is a header's canonical or lower-case name yields that
header's first value; every other key is as before. The result does not depend on the order in which Go ranges over the
map (the header list is in arbitrary order). -/
theorem C28_http_headers_to_context (ctx : Ctx) (h : Header) (hw : WireHeader h) (path key : Str) :
    look (httpHeadersToContext ctx h path) "transport".toList = some "HTTPJSON".toList ∧
    look (httpHeadersToContext ctx h path) "request-url".toList = some path ∧
    (key ≠ "transport".toList → key ≠ "request-url".toList →
      (∀ k vs, (k, vs) ∈ h → (key = k ∨ key = toLower k) →
        look (httpHeadersToContext ctx h path) key = some (vs.headD [])) ∧
      ((∀ k vs, (k, vs) ∈ h → key ≠ k ∧ key ≠ toLower k) →
        look (httpHeadersToContext ctx h path) key = look ctx key)) := by
  refine ⟨?_, ?_, ?_⟩
  · rw [httpHeadersToContext, look_cons, if_pos rfl]
  · rw [httpHeadersToContext, look_cons, if_neg (by decide +kernel), look_cons, if_pos rfl]
  · intro h1 h2
    have hl := headersLoop_look h key h ctx (fun k vs k' vs' hk hk' hm hm' =>
      matches_unique (hw.valid k vs hk).1 (hw.valid k' vs' hk').1 (hw.valid k vs hk).2 (hw.valid k' vs' hk').2 hm hm')
    rw [httpHeadersToContext, look_cons, if_neg (Ne.symm h1), look_cons, if_neg (Ne.symm h2)]
    refine ⟨?_, ?_⟩
    · intro k vs hk hm
      rw [hl.1 k vs hk hm, headerGet, (hw.valid k vs hk).2, look_mem hw.nodup hk]
      cases vs <;> rfl
    · intro hno
      exact hl.2 (fun k vs hk => by
        have := hno k vs hk
        rintro (h0 | h0)
        · exact this.1 h0
        · exact this.2 h0)

/-- **C28**, gRPC. For metadata with valid lower-case names, each once, and no empty value list, the conversion does not
panic, and every key that is an entry's name or its canonical form yields the first value, other keys are unchanged. -/
theorem C28_grpc_metadata_to_context (ctx : Ctx) (md : MD)
    (hvalid : ∀ k o, (k, o) ∈ md → k.all tokenChar = true ∧ toLower k = k) (hnd : (md.map (·.1)).Nodup)
    (hne : ∀ k, (k, some []) ∉ md) :
    ∃ ctx', grpcMetadataToContext md ctx = some ctx' ∧ ∀ key,
      (∀ k v vs, (k, some (v :: vs)) ∈ md → (key = k ∨ key = canonical k) → look ctx' key = some v) ∧
      ((∀ k vs, (k, some vs) ∈ md → key ≠ k ∧ key ≠ canonical k) → look ctx' key = look ctx key) := by
  have hco : ∀ key k vs k' vs', (k, some vs) ∈ md → (k', some vs') ∈ md → (key = k ∨ key = canonical k) →
      (key = k' ∨ key = canonical k') → vs = vs' := by
    intro key k vs k' vs' hk hk' hm hm'
    have e1 : toLower key = k := by
      rcases hm with h0 | h0 <;> rw [h0]
      · exact (hvalid k _ hk).2
      · rw [lower_canonical]; exact (hvalid k _ hk).2
    have e2 : toLower key = k' := by
      rcases hm' with h0 | h0 <;> rw [h0]
      · exact (hvalid k' _ hk').2
      · rw [lower_canonical]; exact (hvalid k' _ hk').2
    have hkk : k = k' := e1.symm.trans e2
    subst hkk
    have h1 := look_mem hnd hk
    have h2 := look_mem hnd hk'
    rw [h1] at h2
    simpa using h2
  obtain ⟨ctx', h0, -⟩ := grpc_look [] md ctx hne (hco [])
  refine ⟨ctx', h0, ?_⟩
  intro key
  obtain ⟨ctx'', h1, h2, h3⟩ := grpc_look key md ctx hne (hco key)
  rw [h0] at h1
  cases h1
  refine ⟨h2, fun hno => h3 (fun k vs hk => ?_)⟩
  have := hno k vs hk
  rintro (h | h)
  · exact this.1 h
  · exact this.2 h

/-- The guard of the gRPC half is needed: a present but empty value list makes the conversion panic. -/
theorem C28_grpc_empty_value_panics (k : Str) (md : MD) (ctx : Ctx) :
    grpcMetadataToContext ((k, some []) :: md) ctx = none := rfl

/-- Concrete headers meeting the hypotheses; a `Request-Url` header sent by the client stays visible under its canonical
name only. -/
example :
    let h : Header := [("X-Trace-Id".toList, ["t1".toList, "t2".toList]), ("Request-Url".toList, ["spoof".toList])]
    let c := httpHeadersToContext [("user".toList, "u".toList)] h "/v1/x".toList
    (∀ e ∈ h, e.1.all tokenChar = true ∧ canonical e.1 = e.1) ∧ (h.map (·.1)).Nodup ∧
    look c "x-trace-id".toList = some "t1".toList ∧ look c "X-Trace-Id".toList = some "t1".toList ∧
    look c "request-url".toList = some "/v1/x".toList ∧ look c "user".toList = some "u".toList := by decide +kernel

example :
    let md : MD := [("x-trace-id".toList, some ["t1".toList, "t2".toList]), ("empty".toList, none)]
    (∀ e ∈ md, e.1.all tokenChar = true ∧ toLower e.1 = e.1) ∧ (md.map (·.1)).Nodup ∧
    (grpcMetadataToContext md []).map (fun c => (look c "x-trace-id".toList, look c "X-Trace-Id".toList)) =
      some (some "t1".toList, some "t1".toList) := by decide +kernel

/-! ## C43 -/

/-- **C43**, HTTP. A context value selected with `CtxValuesToSend` is found in the server's context under the key's
canonical and lower-case form (for keys that are valid header names with distinct canonical forms, other than the two
reserved ones). -/
theorem C43_http_context_propagation (ctx sctx : Ctx) (keys : List Str) (h0 : Header) (hw : WireHeader h0)
    (hk : ∀ k ∈ keys, k.all tokenChar = true) (hd : (keys.map canonical).Nodup) (path k v : Str) (hmem : k ∈ keys)
    (hv : look ctx k = some v) :
    look (httpHeadersToContext sctx (ctxValuesToSend ctx keys h0) path) (canonical k) = some v ∧
    (toLower k ≠ "transport".toList → toLower k ≠ "request-url".toList →
      look (httpHeadersToContext sctx (ctxValuesToSend ctx keys h0) path) (toLower k) = some v) := by
  have hw' := ctxValuesToSend_wire ctx keys h0 hw hk
  have hin := ctxValuesToSend_mem ctx v keys h0 k hmem hv hd
  have hup := canonical_head (hk k hmem)
  have h1 : canonical k ≠ "transport".toList := fun h => absurd (hup 't' _ h) (by decide)
  have h2 : canonical k ≠ "request-url".toList := fun h => absurd (hup 'r' _ h) (by decide)
  refine ⟨?_, ?_⟩
  · exact ((C28_http_headers_to_context sctx _ hw' path (canonical k)).2.2 h1 h2).1 _ _ hin (.inl rfl)
  · intro h3 h4
    exact ((C28_http_headers_to_context sctx _ hw' path (toLower k)).2.2 h3 h4).1 _ _ hin
      (.inr (lower_canonical k).symm)

/-- **C43**, gRPC. A context value selected with `ContextValuesToGRPCMetadata` is found in the server's context under the
key's lower-case and canonical form, provided the outgoing metadata did not already hold that key. -/
theorem C43_grpc_context_propagation (ctx sctx : Ctx) (keys : List Str) (md : Header) (hw : WireMD md)
    (hk : ∀ k ∈ keys, k.all tokenChar = true) (hd : (keys.map toLower).Nodup) (k v : Str) (hmem : k ∈ keys)
    (hv : look ctx k = some v) (hnew : toLower k ∉ md.map (·.1)) :
    ∃ sctx', grpcMetadataToContext ((ctxValuesToMD ctx keys md).map fun e => (e.1, some e.2)) sctx = some sctx' ∧
      look sctx' (toLower k) = some v ∧ look sctx' (canonical k) = some v := by
  have hw' := ctxValuesToMD_wire ctx keys md hw hk
  obtain ⟨ws, hin⟩ := ctxValuesToMD_mem ctx v keys md k hmem hv hd hnew
  obtain ⟨sctx', h1, h2⟩ := C28_grpc_metadata_to_context sctx ((ctxValuesToMD ctx keys md).map fun e => (e.1, some e.2))
    (by
      intro k' o h
      obtain ⟨e, he, heq⟩ := List.mem_map.1 h
      cases heq
      have := hw'.valid e.1 e.2 he
      exact ⟨this.1, this.2.1⟩)
    (by rw [List.map_map]; exact hw'.nodup)
    (by
      intro k' h
      obtain ⟨e, he, heq⟩ := List.mem_map.1 h
      have := (hw'.valid e.1 e.2 he).2.2
      simp only [Prod.mk.injEq, Option.some.injEq] at heq
      exact this heq.2)
  have hin' : (toLower k, some (v :: ws)) ∈ (ctxValuesToMD ctx keys md).map fun e => (e.1, some e.2) :=
    List.mem_map.2 ⟨_, hin, rfl⟩
  refine ⟨sctx', h1, (h2 _).1 _ _ _ hin' (.inl rfl), (h2 _).1 _ _ _ hin' (.inr ?_)⟩
  rw [canonical_lower (hk k hmem) (toLower_token (hk k hmem))]

example :
    let ctx : Ctx := [("user-id".toList, "7".toList), ("Trace".toList, "t".toList)]
    let keys := ["user-id".toList, "Trace".toList, "absent".toList]
    (∀ k ∈ keys, k.all tokenChar = true) ∧ (keys.map canonical).Nodup ∧ (keys.map toLower).Nodup ∧
    ctxValuesToSend ctx keys [] = [("Trace".toList, ["t".toList]), ("User-Id".toList, ["7".toList])] ∧
    ctxValuesToMD ctx keys [] = [("user-id".toList, ["7".toList]), ("trace".toList, ["t".toList])] := by
  decide +kernel

/-! ## C40 -/

/-- The first value a header has under exactly this name, empty if there is none. -/
def firstValue (h : Header) (key : Str) : Str := ((look h key).getD []).headD []

theorem headerGet_eq (h : Header) (k : Str) : headerGet h k = firstValue h (canonical k) := by
  rw [headerGet, firstValue]
  cases look h (canonical k) with
  | none => rfl
  | some vs => cases vs <;> rfl

theorem copyHeaders_look (all : Header) (key : Str) : ∀ (r : Header) (h : Header),
    look (copyHeaders all r h) key = if key ∈ r.map (fun x => canonical x.1) then some [firstValue all key] else look h key := by
  intro r
  induction r with
  | nil => intro h; simp [copyHeaders]
  | cons a r ih =>
    obtain ⟨k, vs⟩ := a
    intro h
    rw [copyHeaders, ih]
    by_cases hr : key ∈ r.map (fun x => canonical x.1)
    · have h2 : key ∈ ((k, vs) :: r).map (fun x => canonical x.1) := by rw [List.map_cons]; exact List.mem_cons_of_mem _ hr
      rw [if_pos hr, if_pos h2]
    · rw [if_neg hr, headerSet, look_cons]
      by_cases hk : canonical k = key
      · rw [if_pos hk, if_pos (by simp [hk]), headerGet_eq, hk]
      · have h2 : key ∉ ((k, vs) :: r).map (fun x => canonical x.1) := by
          rw [List.map_cons, List.mem_cons, not_or]; exact ⟨Ne.symm hk, hr⟩
        rw [if_neg hk, if_neg h2]
        clear ih
        generalize canonical k = k' at hk
        induction h with
        | nil => rfl
        | cons b h ihh =>
          obtain ⟨kb, vb⟩ := b
          rw [List.filter_cons]
          by_cases hb : kb = k'
          · subst hb
            simp only [ne_eq, not_true_eq_false, decide_false, Bool.false_eq_true, if_false, look_cons, if_neg hk]
            exact ihh
          · simp only [ne_eq, hb, not_false_eq_true, decide_true, if_true, look_cons]
            split
            · rfl
            · exact ihh

/-- **C40**, server half. The response carries the declared status code (500 by default), the JSON content type unless
the error overrides it, and each declared header (canonical names, each once) with its first value. -/
theorem C40_status_and_headers (J : ErrJSON) (err : Err) (h0 : Header) :
    (errorEncoder J err h0).code = err.status.getD 500 ∧
    (err.headers = none → look (errorEncoder J err h0).headers "Content-Type".toList = some [contentType]) ∧
    (∀ hs, err.headers = some hs → WireHeader hs →
      (∀ k vs, (k, vs) ∈ hs → look (errorEncoder J err h0).headers k = some [vs.headD []]) ∧
      (("Content-Type".toList ∉ hs.map (·.1)) →
        look (errorEncoder J err h0).headers "Content-Type".toList = some [contentType])) := by
  have hct : canonical "Content-Type".toList = "Content-Type".toList := by decide +kernel
  refine ⟨?_, ?_, ?_⟩
  · simp only [errorEncoder]
    cases err.status <;> rfl
  · intro h
    simp only [errorEncoder, h, headerSet, hct, look_cons, if_true]
  · intro hs hh hw
    have hl := fun key h => copyHeaders_look hs key hs h
    refine ⟨?_, ?_⟩
    · intro k vs hk
      simp only [errorEncoder, hh]
      rw [hl, if_pos (List.mem_map.2 ⟨_, hk, (hw.valid k vs hk).2⟩), firstValue, look_mem hw.nodup hk]
      rfl
    · intro hno
      simp only [errorEncoder, hh]
      rw [hl, if_neg, headerSet, hct, look_cons, if_pos rfl]
      intro hm
      obtain ⟨x, hx, he⟩ := List.mem_map.1 hm
      rw [(hw.valid x.1 x.2 hx).2] at he
      exact hno (List.mem_map.2 ⟨x, hx, he⟩)

/-- **C40**, server half, exactly what becomes of arbitrary declared headers: under the canonical form of each declared name
the response carries the first of the values declared under that canonical form, and the empty text if there is none; the
other headers are those already there. -/
theorem C40_any_headers (J : ErrJSON) (err : Err) (h0 : Header) (hs : Header) (hh : err.headers = some hs) (key : Str) :
    look (errorEncoder J err h0).headers key =
      if key ∈ hs.map (fun x => canonical x.1) then some [firstValue hs key]
      else look (headerSet h0 "Content-Type".toList contentType) key := by
  simp only [errorEncoder, hh]
  exact copyHeaders_look hs key hs _

/-- The text the client's error has for a message received with a status other than 200. -/
def withStatus (code : Nat) (m : Str) : Str := "status code: '".toList ++ HTTP.itoa code ++ "': ".toList ++ m

theorem withStatus_ne (c : Nat) (m : Str) : m ≠ withStatus c m := by
  intro hm
  have h1 : m.length = ("status code: '".toList ++ HTTP.itoa c ++ "': ".toList).length + m.length := by
    conv => lhs; rw [hm]
    exact List.length_append
  have h2 : 1 ≤ ("status code: '".toList ++ HTTP.itoa c ++ "': ".toList).length := Nat.succ_le_succ (Nat.zero_le _)
  revert h1 h2
  generalize ("status code: '".toList ++ HTTP.itoa c ++ "': ".toList).length = x
  generalize m.length = y
  omega

/-- The JSON text that is sent for an error. -/
def errorText (J : ErrJSON) (err : Err) : Str := match err.json with
  | some (some b) => b
  | _ => J.enc err.msg

/-- The status codes HTTP sends no body with. -/
def NoBody (code : Nat) : Prop := code < 200 ∨ code = 204 ∨ code = 304

instance (code : Nat) : Decidable (NoBody code) := inferInstanceAs (Decidable (_ ∨ _ ∨ _))

theorem bodyAllowed_iff (code : Nat) : bodyAllowed code = true ↔ ¬ NoBody code := by
  simp only [bodyAllowed, NoBody, Bool.and_eq_true, Bool.not_eq_true', decide_eq_false_iff_not, decide_eq_true_eq, not_or,
    ne_eq, and_assoc]

/-- The message the client reads from a body: the one in the JSON text, and for a body that is no such JSON text a fixed
sentence with at most the first 8196 characters of the body. -/
def clientMessage (J : ErrJSON) (body : Str) : Str :=
  (J.dec body).getD ("response body '".toList ++ body.take 8196 ++ "': cannot parse non-json request body".toList)

theorem errorDecoder_eq (J : ErrJSON) (b : Str) : errorDecoder J b = clientMessage J b := by
  unfold errorDecoder clientMessage
  cases J.dec b <;> rfl

/-- What arrives of the error's text. -/
def arriving (J : ErrJSON) (err : Err) : Str := if NoBody (err.status.getD 500) then [] else errorText J err

theorem arriving_eq (J : ErrJSON) (err : Err) :
    (if bodyAllowed (err.status.getD 500) then errorText J err else []) = arriving J err := by
  unfold arriving
  by_cases h : NoBody (err.status.getD 500)
  · rw [if_pos h, if_neg (fun h' => (bodyAllowed_iff _).1 h' h)]
  · rw [if_neg h, if_pos ((bodyAllowed_iff _).2 h)]

theorem received_eq (J : ErrJSON) (err : Err) (h0 : Header) :
    (errorEncoder J err h0).received = if bodyAllowed (err.status.getD 500) then errorText J err else [] := by
  have hcode := (C40_status_and_headers J err h0).1
  rw [Response.received, hcode]
  rfl

/-- **C40**, client half, exactly what the caller gets for any error: with a status other than 200, an error with that
status and the message read from the JSON text (from nothing, if the status allows no body); with status 200, the text
decoded as a response if that is possible, and otherwise an error with the message alone. -/
theorem C40_client_gets {R : Type} (J : ErrJSON) (unmarshal : Str → Option R) (err : Err) (h0 : Header) :
    (err.status.getD 500 ≠ 200 → decodeResponse J unmarshal (errorEncoder J err h0) =
      .error (withStatus (err.status.getD 500)
        (clientMessage J (arriving J err)))) ∧
    (err.status.getD 500 = 200 → ∀ v, unmarshal (errorText J err) = some v →
      decodeResponse J unmarshal (errorEncoder J err h0) = .ok v) ∧
    (err.status.getD 500 = 200 → unmarshal (errorText J err) = none →
      decodeResponse J unmarshal (errorEncoder J err h0) = .error (clientMessage J (errorText J err))) := by
  have hcode := (C40_status_and_headers J err h0).1
  have h200 : bodyAllowed 200 = true := by decide
  refine ⟨fun h => ?_, fun h v hv => ?_, fun h hv => ?_⟩
  · rw [decodeResponse, hcode, if_pos h, received_eq, arriving_eq, errorDecoder_eq]; rfl
  · rw [decodeResponse, hcode, if_neg (fun h' => h' h), received_eq, h, if_pos h200, hv]
  · rw [decodeResponse, hcode, if_neg (fun h' => h' h), received_eq, h, if_pos h200, hv]
    simp only
    rw [errorDecoder_eq]

/-- **C40** When an error that does not marshal itself arrives with its message: exactly when its status is not 200 and the
status allows a body (or the client's text for a missing body happens to be the message). -/
theorem C40_message_iff {R : Type} (J : ErrJSON) (unmarshal : Str → Option R) (err : Err) (h0 : Header)
    (hj : err.json = none ∨ err.json = some none) :
    decodeResponse J unmarshal (errorEncoder J err h0) = .error (withStatus (err.status.getD 500) err.msg) ↔
      err.status.getD 500 ≠ 200 ∧ (¬ NoBody (err.status.getD 500) ∨ clientMessage J [] = err.msg) := by
  obtain ⟨h1, h2, h3⟩ := C40_client_gets J unmarshal err h0
  have htext : errorText J err = J.enc err.msg := by
    rw [errorText]; rcases hj with h | h <;> rw [h]
  have hdec : clientMessage J (errorText J err) = err.msg := by rw [htext, clientMessage, J.dec_enc]; rfl
  have hinj : ∀ c m m', withStatus c m = withStatus c m' → m = m' := fun c m m' h => by
    unfold withStatus at h
    exact (List.append_right_inj _).1 h
  constructor
  · intro h
    by_cases hs : err.status.getD 500 = 200
    · exfalso
      have hlen := withStatus_ne (err.status.getD 500)
      cases hu : unmarshal (errorText J err) with
      | some v =>
        have h' := (h2 hs v hu).symm.trans h
        cases h'
      | none =>
        have h' := Except.error.inj ((h3 hs hu).symm.trans h)
        rw [hdec] at h'
        exact hlen _ h'
    · refine ⟨hs, ?_⟩
      rw [h1 hs] at h
      simp only [Except.error.injEq] at h
      have := hinj _ _ _ h
      unfold arriving at this
      split at this
      · exact .inr this
      · rename_i hb; exact .inl hb
  · rintro ⟨hs, hb⟩
    rw [h1 hs]
    unfold arriving
    by_cases hb' : NoBody (err.status.getD 500)
    · rw [if_pos hb', hb.resolve_left (fun h => h hb')]
    · rw [if_neg hb', hdec]

/-- A JSON codec for the witnesses below: the text after the literal prefix. It only needs to satisfy the one law. -/
def demoJSON : ErrJSON where
  enc m := '{' :: m
  dec b := match b with
    | '{' :: m => some m
    | 'x' :: _ => some []
    | _ => none
  dec_enc _ := rfl

/-- Multi-valued and non-canonical declared headers: only the first value survives, and a header stored under a non-canonical
name arrives empty. -/
example :
    look (errorEncoder demoJSON ⟨[], none, some [("X-A".toList, ["1".toList, "2".toList])], none⟩ []).headers "X-A".toList
      = some ["1".toList] ∧
    look (errorEncoder demoJSON ⟨[], none, some [("x-a".toList, ["1".toList])], none⟩ []).headers "X-A".toList
      = some [[]] := by decide +kernel

/-- An error with status 200 is a success for the caller, one with status 204 loses its message, and one that marshals
itself to JSON without an `error` key has none. -/
example :
    decodeResponse demoJSON (fun _ => some ()) (errorEncoder demoJSON ⟨"m".toList, none, none, some 200⟩ []) = .ok () ∧
    decodeResponse demoJSON (fun _ => some ()) (errorEncoder demoJSON ⟨"m".toList, none, none, some 204⟩ []) =
      .error "status code: '204': response body '': cannot parse non-json request body".toList ∧
    decodeResponse demoJSON (fun _ => some ()) (errorEncoder demoJSON ⟨"m".toList, some (some ['x']), none, none⟩ []) =
      .error "status code: '500': ".toList := by decide +kernel

example :
    let err : Err := ⟨"not found".toList, none, some [("X-A".toList, ["1".toList])], some 404⟩
    err.status.getD 500 ≠ 200 ∧ ¬ NoBody (err.status.getD 500) ∧
    decodeResponse demoJSON (fun _ => (none : Option Unit)) (errorEncoder demoJSON err []) =
      .error "status code: '404': not found".toList := by decide +kernel

end Baron.Runtime
