import Verif.Proofs.GoHTTPErr
import Verif.Proofs.GoHTTPText
import Verif.Props.Runtime
import Verif.Proofs.Strs
import Verif.Props.Texts

/-!
# C101 The helpers of the transport file: their text, and what calling them comes to
-/

namespace Baron.GoHTTP

open Baron.HTTP (look look_cons)
open Baron.Runtime (Header MD Err ErrJSON headerGet headerSet canonical errorText clientMessage firstValue withStatus NoBody arriving WireHeader)
open Baron.TT (Occurs render)
open Baron.Svcdef (Service ServiceMethod)

/-- **C101** The helpers are written in the transport file as `Func.print` prints them: the ones for HTTP always, with the declarations of the types
and the constant they use, the ones for metadata if gRPC is selected, and the decoder of responses of every rpc with a binding. -/
theorem C101_text (fmt : Str → Str) (pkg : Str) (s : Service) (c : TT.Config) : ∃ txt,
    render fmt pkg s c "baron/NAME.pb.baron.go.tmpl".toList = some txt ∧ (∀ f ∈ helpers, Occurs f.print txt) ∧
    Occurs wrapperType txt ∧ Occurs httpErrorType txt ∧ Occurs contentTypeConst txt ∧
    ((c.transport = chars% "all" ∨ c.transport = chars% "grpc") → ∀ f ∈ grpcHelpers, Occurs f.print txt) ∧
    ∀ m ∈ s.methods, m.bindings ≠ [] → Occurs (decodeResponse m.name (Strs.goCamelCase m.response.name)).print txt := by
  obtain ⟨t, h⟩ := TT.C84_render fmt pkg s c "baron/NAME.pb.baron.go.tmpl".toList (by decide +kernel)
  obtain ⟨h1, h2, h3, h4⟩ := helpers_occur h
  exact ⟨t, h, h1, h2, h3, h4, fun hc => grpc_helpers_occur h hc, fun m hm hb => responses_occur h hm hb⟩

variable {M : Type} (w : World M) (s : Service) (n : Nat)

/-! ## Errors -/

theorem Represents.acts {w : World M} {s : Service} {n : Nat} {v : Val M} {e : Err} (h : Represents v e) : Acts w (calls w (program s) (n + 1)) v e := by
  cases h with
  | err e => exact acts_err _ _ _
  | http e c h => exact acts_http _ _ _ _ _ _

theorem look_headerSet (h : Header) (k v x : Str) : look (headerSet h k v) x = if x = canonical k then some [v] else look h x := by
  rw [headerSet]
  by_cases hx : x = canonical k
  · subst hx
    rw [if_pos rfl, look_cons_eq]
  · rw [if_neg hx, look_cons_ne _ _ (eq_false (Ne.symm hx)), look_filter_ne hx]

theorem codeOf_eq (e : Err) : codeOf e = e.status.getD 500 := by
  unfold codeOf
  cases e.status <;> rfl

/-- The headers of a response to an error: under the canonical form of each name that the error declares, the first of the values declared under
that canonical form; the content type, if the error does not declare it; the headers that were there before. -/
def ErrorHeaders (e : Err) (before after : Header) : Prop := ∀ key,
  look after key = if key ∈ (e.headers.getD []).map (fun x => canonical x.1) then some [firstValue (e.headers.getD []) key]
    else if key = "Content-Type".toList then some ["application/json; charset=utf-8".toList]
    else look before key

theorem headerOf_spec (e : Err) (h : Header) : ErrorHeaders e h (headerOf e h) := by
  intro key
  have hct : canonical (chars% "Content-Type") = "Content-Type".toList := by decide +kernel
  unfold headerOf
  cases e.headers with
  | none =>
    simp only [Option.getD_none, List.map_nil]
    rw [if_neg List.not_mem_nil, look_headerSet, hct]
    rfl
  | some hs =>
    simp only [Option.getD_some]
    rw [Runtime.copyHeaders_look, look_headerSet, hct]
    rfl

/-- **C101** `errorEncoder` with an error, while nothing has been sent: it sends the status the error declares, 500 if it declares none, the headers above,
and then the JSON text of the error: what it marshals itself to, or else an object with its message. If the status is not between
100 and 999 it panics before anything is sent. -/
theorem C101_error_encoder {v : Val M} {e : Err} (hv : Represents v e) (st : St M) (hs : st.sent = none) (c : Val M) :
    (100 ≤ e.status.getD 500 ∧ e.status.getD 500 ≤ 999 → ∃ h, ErrorHeaders e st.header h ∧
      (calls w (program s) (n + 2)).call (chars% "errorEncoder") [c, v, .writer] st =
        .ok [] { st with header := h, sent := some (e.status.getD 500, h), out := st.out ++ errorText w.json e }) ∧
    (e.status.getD 500 < 100 ∨ 999 < e.status.getD 500 → ∃ h,
      (calls w (program s) (n + 2)).call (chars% "errorEncoder") [c, v, .writer] st = .panic { st with header := h }) := by
  obtain ⟨h1, h2⟩ := run_errorEncoder (w := w) (s := s) (n := n + 1) hv.acts st c hs
  rw [codeOf_eq] at h1 h2
  rw [call_helper (g := errorEncoder) (by rfl)]
  exact ⟨fun h => ⟨_, headerOf_spec e st.header, h1 (by omega)⟩, fun h => ⟨_, h2 h⟩⟩

/-- **C101** `errorDecoder`: an error with the message in the JSON text, and for any other body a fixed sentence with at most the first 8196 characters. -/
theorem C101_error_decoder (st : St M) (b : Str) :
    (calls w (program s) (n + 2)).call (chars% "errorDecoder") [.text b] st = .ok [.err (plain (clientMessage w.json b))] st := by
  rw [call_helper (g := errorDecoder) (by rfl), run_errorDecoder, Runtime.errorDecoder_eq]

/-- **C101** The methods of an `httpError`. -/
theorem C101_http_error (st : St M) (e : Err) (c : Nat) (h : Header) :
    (calls w (program s) (n + 2)).call (chars% "httpError.StatusCode") [httpErr e c h] st = .ok [.num c] st ∧
    (calls w (program s) (n + 2)).call (chars% "httpError.Headers") [httpErr e c h] st = .ok [.header h] st := by
  rw [call_helper (g := statusCode) (by rfl), call_helper (g := headers) (by rfl)]
  exact ⟨run_statusCode _ _ _ _ _ _, run_headers _ _ _ _ _ _⟩

/-! ## Responses -/

theorem writeOptions_eq : writeOptions = [(chars% "AllowPartial", true), (chars% "UseProtoNames", true), (chars% "UseEnumNumbers", true), (chars% "EmitUnpopulated", true)] := rfl

theorem run_encodeResponse_panic (w : World M) (k : Calls M) (st : St M) (c v : Val M) (h : ∀ t m, v ≠ .msg t m) :
    encodeResponse.run w k [c, .writer, v] st = .panic st := by
  have hA : isA k v (chars% "proto.Message") = false := by
    cases v <;> first | rfl | exact absurd rfl (h _ _)
  unfold Func.run runBody encodeResponse
  go [optionArgs, hA, Bool.false_eq_true]

/-- **C101** `EncodeHTTPGenericResponse` of a message: its text with status 200 unless a status was sent, or the error of marshalling it and
nothing is sent. It panics if the response is no message. -/
theorem C101_response_encoder (st : St M) (c : Val M) :
    (∀ t m b, w.writeProto writeOptions m = .ok b →
      (calls w (program s) (n + 2)).call (chars% "EncodeHTTPGenericResponse") [c, .writer, .msg t m] st =
        .ok [ofErr (w.writeErr b)] { st with sent := some (st.sent.getD (200, st.header)), out := st.out ++ b }) ∧
    (∀ t m e, w.writeProto writeOptions m = .error e →
      (calls w (program s) (n + 2)).call (chars% "EncodeHTTPGenericResponse") [c, .writer, .msg t m] st = .ok [.err e] st) ∧
    (∀ v, (∀ t m, v ≠ .msg t m) →
      (calls w (program s) (n + 2)).call (chars% "EncodeHTTPGenericResponse") [c, .writer, v] st = .panic st) := by
  refine ⟨fun t m b h => ?_, fun t m e h => ?_, fun v h => ?_⟩
  · rw [call_helper (g := encodeResponse) (by rfl)]
    exact run_encodeResponse_ok _ _ _ _ _ _ _ _ h
  · rw [call_helper (g := encodeResponse) (by rfl)]
    exact run_encodeResponse_err _ _ _ _ _ _ _ _ h
  · rw [call_helper (g := encodeResponse) (by rfl)]
    exact run_encodeResponse_panic _ _ _ _ _ h

/-- The name of the decoder of responses of an rpc. -/
def decoderName (m : ServiceMethod) : Str := chars% "DecodeHTTP" ++ (m.name ++ chars% "Response")

theorem find_decoder {s : Service} (hd : (s.methods.map (·.name)).Nodup) {m : ServiceMethod} (hm : m ∈ s.methods) (hb : m.bindings ≠ []) :
    (program s).find? (·.key = decoderName m) = some (decodeResponse m.name (Strs.goCamelCase m.response.name)) := by
  have h0 : (helpers ++ grpcHelpers).find? (·.key = decoderName m) = none := by
    rw [List.find?_eq_none]
    intro g hg
    have : ∀ g ∈ helpers ++ grpcHelpers, g.key.head? ≠ some 'D' := by decide +kernel
    rw [decide_eq_true_eq]
    intro hk
    refine this g hg ?_
    rw [hk]
    rfl
  rw [program, List.find?_append, h0, Option.none_or]
  obtain ⟨l1, l2, hl⟩ := List.append_of_mem hm
  rw [hl, List.filter_append, List.map_append, List.find?_append]
  have hnone : ((l1.filter fun m => !m.bindings.isEmpty).map fun m => decodeResponse m.name (Strs.goCamelCase m.response.name)).find? (·.key = decoderName m) = none := by
    rw [List.find?_eq_none]
    intro g hg
    obtain ⟨m', hm', rfl⟩ := List.mem_map.mp hg
    rw [decide_eq_true_eq]
    intro hk
    have hk' : m'.name = m.name := by
      have h1 : chars% "DecodeHTTP" ++ (m'.name ++ chars% "Response") = chars% "DecodeHTTP" ++ (m.name ++ chars% "Response") := hk
      exact List.append_cancel_right (List.append_cancel_left h1)
    rw [hl, List.map_append, List.nodup_append] at hd
    exact hd.2.2 _ (List.mem_map.mpr ⟨m', (List.mem_filter.mp hm').1, rfl⟩) _ (List.mem_map.mpr ⟨m, List.mem_cons_self, rfl⟩) hk'
  rw [hnone, Option.none_or, List.filter_cons_of_pos (by cases h : m.bindings with | nil => exact absurd h hb | cons _ _ => rfl), List.map_cons,
    List.find?_cons_of_pos (by rw [decide_eq_true_eq]; rfl)]

/-- A name that begins with a letter, as the names of messages do. -/
def Begins (x : Str) : Prop := ∃ c r, x = c :: r ∧ isAsciiLetter c = true

theorem messageType_of {x : Str} (h : Begins x) : MessageType (Strs.goCamelCase x) := by
  obtain ⟨c, r, rfl, h⟩ := h
  have hu : isAsciiUpper (upperC c) = true := by
    rw [isAsciiLetter, Bool.or_eq_true] at h
    rcases h with h | h
    · exact Strs.upperC_upper c h
    · rw [Strs.upperC_not c (Strs.upper_not_lower c h)]
      exact h
  have h1 : c ≠ '.' := by rintro rfl; revert h; decide
  have h2 : c ≠ '_' := by rintro rfl; revert h; decide
  have h3 : ¬ isAsciiDigit c = true := by
    rw [isAsciiLetter, Bool.or_eq_true, Strs.upper_iff, Strs.lower_iff] at h
    rw [Strs.digit_iff]
    omega
  unfold Strs.goCamelCase Strs.camelGo
  rw [if_neg (by simp [h1]), if_neg h1, if_neg (by simp [h2]), if_neg (by simp [h2]), if_neg h3, List.cons_append]
  constructor <;> (intro e; rw [(List.cons.inj e).1] at hu; revert hu; decide)

theorem status_text (c : Nat) (x : Str) : (chars% "status code: '" ++ (HTTP.itoa c ++ chars% "'")) ++ (chars% ": " ++ x) = withStatus c x := by
  have h : ∀ a b c d e : Str, (a ++ (b ++ c)) ++ (d ++ e) = a ++ b ++ (c ++ d) ++ e := by intros; simp only [List.append_assoc]
  rw [h]
  rfl

/-- What the decoder of a response returns, for a body that was read completely. -/
def decoded (w : World M) (t : Str) : List (Val M) :=
  if w.status = 200 then
    match (w.readProto readOptions t w.body.1 (w.empty t)).2 with
    | none => [.msg t (w.readProto readOptions t w.body.1 (w.empty t)).1, .nil]
    | some _ => [.nil, .err (plain (clientMessage w.json w.body.1))]
  else [.nil, .err (plain (withStatus w.status (clientMessage w.json w.body.1)))]

/-- **C101** `DecodeHTTP…Response` of an rpc closes the body in every case. It returns an error if the body cannot be read. With a status other
than 200 it returns an error with the status and the message in the body; with status 200, the response read from the body or, if that fails, an error with the message
in the body. -/
theorem C101_decode_response (hd : (s.methods.map (·.name)).Nodup) {m : ServiceMethod} (hm : m ∈ s.methods) (hb : m.bindings ≠ []) (ht : Begins m.response.name)
    (st : St M) (c : Val M) : ∃ r, (calls w (program s) (n + 2)).call (decoderName m) [c, .response] st = .ok r { st with closed := true } ∧
      (w.body.2 = .eof → r = [.nil, .err (plain "response http body empty".toList)]) ∧
      (∀ e, w.body.2 = .failed e → r = [.nil, .err (plain ("cannot read http body: ".toList ++ e.msg))]) ∧
      (w.body.2 = .complete → r = decoded w (Strs.goCamelCase m.response.name)) := by
  refine ⟨answerOf w (Strs.goCamelCase m.response.name), ?_, fun h => ?_, fun e h => ?_, fun h => ?_⟩
  · show (match (program s).find? (·.key = decoderName m) with | some g => g.run w (calls w (program s) (n + 1)) [c, .response] st | none => Ans.stuck) = _
    rw [find_decoder hd hm hb]
    exact run_decodeResponse _ _ _ _ _ _ _ (messageType_of ht)
  · rw [answerOf, h]
    rfl
  · rw [answerOf, h]
    rfl
  · rw [answerOf, h, decoded]
    simp only [Runtime.errorDecoder_eq]
    by_cases hs : w.status = 200
    · rw [if_pos hs, if_pos hs]
      generalize (w.readProto readOptions (Strs.goCamelCase m.response.name) w.body.1 (w.empty (Strs.goCamelCase m.response.name))) = x
      obtain ⟨x, _ | _⟩ := x <;> rfl
    · rw [if_neg hs, if_neg hs, status_text]

/-- **C101** An error on its way to the caller: what `errorEncoder` sends in one process, `DecodeHTTP…Response` reads in another. The caller gets an error
with the status and the message read from what arrives of the JSON text; that is the message of the error if it does not marshal itself and its
status allows a body. -/
theorem C101_roundtrip (hd : (s.methods.map (·.name)).Nodup) {m : ServiceMethod} (hm : m ∈ s.methods) (hb : m.bindings ≠ []) (ht : Begins m.response.name)
    {v : Val M} {e : Err} (hv : Represents v e) (st : St M) (hs : st.sent = none) (ho : st.out = []) (c : Val M)
    (hc : 100 ≤ e.status.getD 500 ∧ e.status.getD 500 ≤ 999) (h200 : e.status.getD 500 ≠ 200) :
    ∃ st' h, (calls w (program s) (n + 2)).call (chars% "errorEncoder") [c, v, .writer] st = .ok [] st' ∧ st'.sent = some (e.status.getD 500, h) ∧
      ∀ (w' : World M) (cst : St M) (c' : Val M), w'.json = w.json → w'.status = e.status.getD 500 → w'.body = ((⟨w'.status, h, st'.out⟩ : Runtime.Response).received, .complete) →
        (calls w' (program s) (n + 2)).call (decoderName m) [c', .response] cst =
          .ok [.nil, .err (plain (withStatus (e.status.getD 500) (clientMessage w.json (arriving w.json e))))] { cst with closed := true } ∧
        ((e.json = none ∨ e.json = some none) → ¬ NoBody (e.status.getD 500) → clientMessage w.json (arriving w.json e) = e.msg) := by
  obtain ⟨h, -, he⟩ := (C101_error_encoder w s n hv st hs c).1 hc
  refine ⟨_, h, he, rfl, fun w' cst c' hj hw hbody => ⟨?_, fun hjs hnb => ?_⟩⟩
  · obtain ⟨r, hr, -, -, hk⟩ := C101_decode_response w' s n hd hm hb ht cst c'
    have hbody2 : w'.body.2 = .complete := by rw [hbody]
    have hbody1 : w'.body.1 = arriving w.json e := by
      rw [hbody, Runtime.Response.received, ← Runtime.arriving_eq]
      simp only [ho, List.nil_append, hw]
    rw [hr, hk hbody2, decoded, hw, if_neg h200, hbody1, hj]
  · rw [arriving, if_neg hnb, errorText]
    rcases hjs with h | h <;> rw [h] <;> simp only [clientMessage, w.json.dec_enc, Option.getD_some]

/-! ## Contexts -/

theorem look_lift (d : Runtime.Ctx) (c : Ctx) (x : Str) : look (lift d ++ c) x = match look d x with | some v => some (some v) | none => look c x := by
  induction d with
  | nil => rfl
  | cons e d ih =>
    obtain ⟨y, v⟩ := e
    show look ((y, some v) :: (lift d ++ c)) x = _
    by_cases hy : y = x
    · subst hy
      rw [look_cons_eq, look_cons_eq]
    · rw [look_cons_ne _ _ (eq_false hy), look_cons_ne _ _ (eq_false hy)]
      exact ih

/-- **C101** `HTTPHeadersToContext`, for headers as net/http delivers them: the transport, the path of the request's URL, and the first value of every
header under its canonical and its lower-case name; everything else in the context is as before. -/
theorem C101_headers (st : St M) (c : Ctx) (hw : WireHeader st.reqHeader) : ∃ c',
    (calls w (program s) (n + 2)).call (chars% "HTTPHeadersToContext") [.ctx c, .request] st = .ok [.ctx c'] st ∧
    look c' "transport".toList = some (some "HTTPJSON".toList) ∧ look c' "request-url".toList = some (some w.path) ∧
    ∀ key, key ≠ "transport".toList → key ≠ "request-url".toList →
      (∀ k vs, (k, vs) ∈ st.reqHeader → (key = k ∨ key = toLower k) → look c' key = some (some (vs.headD []))) ∧
      ((∀ k vs, (k, vs) ∈ st.reqHeader → key ≠ k ∧ key ≠ toLower k) → look c' key = look c key) := by
  refine ⟨lift (Runtime.httpHeadersToContext [] st.reqHeader w.path) ++ c, ?_, ?_, ?_, fun key h1 h2 => ⟨fun k vs hk hx => ?_, fun hno => ?_⟩⟩
  · rw [call_helper (g := headersToContext) (by rfl)]
    exact run_headersToContext _ _ _ _ _
  · rw [look_lift, (Runtime.C28_http_headers_to_context [] st.reqHeader hw w.path []).1]
  · rw [look_lift, (Runtime.C28_http_headers_to_context [] st.reqHeader hw w.path []).2.1]
  · rw [look_lift, ((Runtime.C28_http_headers_to_context [] st.reqHeader hw w.path key).2.2 h1 h2).1 k vs hk hx]
  · rw [look_lift, ((Runtime.C28_http_headers_to_context [] st.reqHeader hw w.path key).2.2 h1 h2).2 hno]
    rfl

theorem send_look (c : Ctx) (key : Str) (keys : List Str) (h : Header) : look (Runtime.ctxValuesToSend (strings c) keys h) key =
    match keys.reverse.findSome? (fun k => if canonical k = key then stringOf c k else none) with
    | some v => some [v]
    | none => look h key := by
  induction keys generalizing h with
  | nil => rfl
  | cons k keys ih =>
    rw [List.reverse_cons, List.findSome?_append, Runtime.ctxValuesToSend, look_strings]
    show look (match stringOf c k with | some v => Runtime.ctxValuesToSend (strings c) keys (headerSet h k v) | none => Runtime.ctxValuesToSend (strings c) keys h) key = _
    cases hs : stringOf c k with
    | none =>
      simp only [List.findSome?_cons, List.findSome?_nil, hs, ite_self, Option.or_none]
      exact ih h
    | some v =>
      simp only [List.findSome?_cons, List.findSome?_nil, hs]
      rw [ih]
      cases keys.reverse.findSome? (fun k => if canonical k = key then stringOf c k else none) with
      | some u => rfl
      | none =>
        simp only [Option.none_or]
        rw [look_headerSet]
        by_cases hk : canonical k = key
        · rw [if_pos hk.symm, if_pos hk]
        · rw [if_neg (Ne.symm hk), if_neg hk]

/-- **C101** `CtxValuesToSend` gives go-kit a function to call before a request is sent. That function returns the context it gets, and sets, for every one
of the keys that has a string in the context, the header of that name to it; of keys with one canonical form the last wins. -/
theorem C101_send (keys : List Str) : ∃ f : Val M,
    (∀ st, (calls w (program s) (n + 2)).call (chars% "CtxValuesToSend") [.strs keys] st = .ok [.lib (chars% "httptransport.ClientBefore") [f]] st) ∧
    ∀ (w' : World M) (c : Ctx) (st : St M), ∃ h, apply w' (calls w' (program s) (n + 2)) f [.ctx c, .request] st = .ok [.ctx c] { st with reqHeader := h } ∧
      ∀ key, look h key = match keys.reverse.findSome? (fun k => if canonical k = key then stringOf c k else none) with
        | some v => some [v]
        | none => look st.reqHeader key := by
  refine ⟨.closure [(chars% "ctx", chars% "context.Context"), (chars% "r", chars% "*http.Request")] sendValues [(chars% "keys", .strs keys)], fun st => ?_,
    fun w' c st => ⟨_, run_sendValues _ _ _ _ _, fun key => send_look _ _ _ _⟩⟩
  rw [call_helper (g := ctxValuesToSend) (by rfl)]
  exact run_ctxValuesToSend _ _ _ _ _

/-- **C101** A context value on its way over HTTP: the client's function sets the headers of a request, and the server, which gets
these headers, puts the value into its context, under the canonical and the lower-case form of the key. -/
theorem C101_http_propagation (keys : List Str) (hk : ∀ k ∈ keys, k.all Runtime.tokenChar = true) (hd : (keys.map canonical).Nodup) : ∃ f : Val M,
    (∀ st, (calls w (program s) (n + 2)).call (chars% "CtxValuesToSend") [.strs keys] st = .ok [.lib (chars% "httptransport.ClientBefore") [f]] st) ∧
    ∀ (c : Ctx) (st : St M), WireHeader st.reqHeader → ∃ h, apply w (calls w (program s) (n + 2)) f [.ctx c, .request] st = .ok [.ctx c] { st with reqHeader := h } ∧
      ∀ (w' : World M) (sc : Ctx) (sst : St M), sst.reqHeader = h → ∃ sc',
        (calls w' (program s) (n + 2)).call (chars% "HTTPHeadersToContext") [.ctx sc, .request] sst = .ok [.ctx sc'] sst ∧
        ∀ k ∈ keys, ∀ v, stringOf c k = some v → stringOf sc' (canonical k) = some v ∧
          (toLower k ≠ "transport".toList → toLower k ≠ "request-url".toList → stringOf sc' (toLower k) = some v) := by
  refine ⟨.closure [(chars% "ctx", chars% "context.Context"), (chars% "r", chars% "*http.Request")] sendValues [(chars% "keys", .strs keys)], fun st => ?_,
    fun c st hw => ⟨_, run_sendValues _ _ _ _ _, fun w' sc sst hst => ⟨lift (Runtime.httpHeadersToContext [] sst.reqHeader w'.path) ++ sc, ?_, fun k hmem v hv => ?_⟩⟩⟩
  · rw [call_helper (g := ctxValuesToSend) (by rfl)]
    exact run_ctxValuesToSend _ _ _ _ _
  · rw [call_helper (g := headersToContext) (by rfl)]
    exact run_headersToContext _ _ _ _ _
  · rw [hst]
    have := Runtime.C43_http_context_propagation (strings c) [] keys st.reqHeader hw hk hd w'.path k v hmem ((look_strings c k).trans hv)
    refine ⟨?_, fun h1 h2 => ?_⟩
    · rw [stringOf, look_lift, this.1]
      rfl
    · rw [stringOf, look_lift, this.2 h1 h2]
      rfl

/-- **C101** `copyURL` makes a new URL with the given path and everything else of the old one, which stays as it was. -/
theorem C101_copy_url (st : St M) (i : Nat) (u : URL) (p : Str) (h : st.urls[i]? = some u) :
    (calls w (program s) (n + 2)).call (chars% "copyURL") [.urlPtr i, .text p] st =
      .ok [.urlPtr st.urls.length] { st with urls := st.urls ++ [{ u with path := p }] } := by
  rw [call_helper (g := copyURL) (by rfl)]
  exact run_copyURL _ _ _ _ _ _ h

/-! ## Metadata -/

/-- **C101** `GRPCMetadataToContext`, for metadata as gRPC delivers it: the first value of every entry under its name and its canonical form, everything
else in the context is as before. A list of values that is empty, and not nil, makes it panic. -/
theorem C101_grpc_context (st : St M) (c : Ctx) (md : MD) :
    (WireValues md → ∃ c', (calls w (program s) (n + 2)).call (chars% "GRPCMetadataToContext") [.ctx c, .md md] st = .ok [.ctx c'] st ∧ ∀ key,
      (∀ k v vs, (k, some (v :: vs)) ∈ md → (key = k ∨ key = canonical k) → look c' key = some (some v)) ∧
      ((∀ k vs, (k, some vs) ∈ md → key ≠ k ∧ key ≠ canonical k) → look c' key = look c key)) ∧
    (∀ k, (k, some []) ∈ md → (calls w (program s) (n + 2)).call (chars% "GRPCMetadataToContext") [.ctx c, .md md] st = .panic st) := by
  have hcall : (calls w (program s) (n + 2)).call (chars% "GRPCMetadataToContext") [.ctx c, .md md] st = match Runtime.grpcMetadataToContext md [] with
      | some d => .ok [.ctx (lift d ++ c)] st
      | none => .panic st := by
    rw [call_helper (g := metadataToContext) (by rfl)]
    exact run_metadataToContext _ _ _ _ _ _
  refine ⟨fun hw => ?_, fun k hk => ?_⟩
  · obtain ⟨d, hd, hl⟩ := Runtime.C28_grpc_metadata_to_context [] md (fun k o h => ⟨(hw.valid _ h).1, (hw.valid _ h).2.1⟩) hw.nodup (fun k h => (hw.valid _ h).2.2 rfl)
    rw [hd] at hcall
    refine ⟨_, hcall, fun key => ⟨fun k v vs hk hx => ?_, fun hno => ?_⟩⟩
    · rw [look_lift, (hl key).1 k v vs hk hx]
    · rw [look_lift, (hl key).2 hno]
      rfl
  · have : ∀ (l : MD) (d : Runtime.Ctx), (k, some []) ∈ l → Runtime.grpcMetadataToContext l d = none := by
      intro l
      induction l with
      | nil => intro d h; exact absurd h List.not_mem_nil
      | cons e l ih =>
        intro d h
        obtain ⟨x, vs⟩ := e
        rcases List.mem_cons.mp h with h0 | h0
        · cases h0
          rfl
        · match vs with
          | none => exact ih _ h0
          | some [] => rfl
          | some (v :: _) => exact ih _ h0
    rw [this md [] hk] at hcall
    exact hcall

theorem vals_filterMap (c : Ctx) (keys : List Str) (x : Str) : ((selected c keys).filterMap fun p => if toLower p.1 = x then some p.2 else none) =
    keys.filterMap fun k => if toLower k = x then stringOf c k else none := by
  rw [selected, List.filterMap_filterMap]
  congr 1
  funext k
  show (((look c k).bind id).map fun v => (k, v)).bind _ = _
  rw [stringOf]
  cases (look c k).bind id with
  | none => simp
  | some v => rfl

theorem join_vals (a b : MD) (ha : (a.map (·.1)).Nodup) (hb : (b.map (·.1)).Nodup) (x : Str) : vals (join a b) x = vals a x ++ vals b x := by
  rw [join, joinGo_vals _ _ hb, joinGo_vals _ _ ha]
  rfl

/-- **C101** `ContextValuesToGRPCMetadata` makes a function for go-kit to call before a request is sent. That function returns the context it gets, and adds to
the outgoing metadata, for every one of the keys that has a string in the context, that string to the values under the key in lower case. -/
theorem C101_grpc_send (keys : List Str) : ∃ f : Val M,
    (∀ st, (calls w (program s) (n + 2)).call (chars% "ContextValuesToGRPCMetadata") [.strs keys] st = .ok [f] st) ∧
    ∀ (w' : World M) (c : Ctx) (st : St M), (st.md.map (·.1)).Nodup → ∃ md, apply w' (calls w' (program s) (n + 2)) f [.ctx c, .mdPtr] st = .ok [.ctx c] { st with md := md } ∧
      ∀ key, vals md key = vals st.md key ++ keys.filterMap fun k => if toLower k = key then stringOf c k else none := by
  refine ⟨.closure [(chars% "ctx", chars% "context.Context"), (chars% "md", chars% "*metadata.MD")] sendMetadata [(chars% "keys", .strs keys)], fun st => ?_,
    fun w' c st hd => ⟨_, run_sendMetadata _ _ _ _ _ _, fun key => ?_⟩⟩
  · rw [call_helper (g := valuesToMetadata) (by rfl)]
    exact run_valuesToMetadata _ _ _ _ _
  · rw [← vals_filterMap]
    by_cases he : selected c keys = []
    · rw [if_pos he, he]
      exact (List.append_nil _).symm
    · rw [if_neg he, join_vals _ _ hd (pairs_nodup _ (m := []) List.nodup_nil), pairs_vals]
      rfl

/-- Entries that may be sent. -/
def Fine (e : Str × Option (List Str)) : Prop := e.1.all Runtime.tokenChar = true ∧ toLower e.1 = e.1 ∧ e.2 ≠ some []

theorem pairOne_fine {m : MD} {p : Str × Str} (hp : p.1.all Runtime.tokenChar = true) (h : ∀ e ∈ m, Fine e) : ∀ e ∈ pairOne m p, Fine e := by
  intro e he
  unfold pairOne at he
  cases hl : look m (toLower p.1) with
  | some o =>
    rw [hl] at he
    obtain ⟨e', he', rfl⟩ := List.mem_map.mp he
    by_cases hx : e'.1 = toLower p.1
    · rw [if_pos hx]
      refine ⟨(h e' he').1, (h e' he').2.1, fun h0 => ?_⟩
      exact absurd (Option.some.inj h0) (by cases e'.2.getD [] <;> simp)
    · rw [if_neg hx]
      exact h e' he'
  | none =>
    rw [hl] at he
    rcases List.mem_append.mp he with he | he
    · exact h e he
    · cases List.mem_singleton.mp he
      exact ⟨Runtime.toLower_token hp, Runtime.toLower_idem _, nofun⟩

theorem joinGo_fine {l m : MD} (hl : ∀ e ∈ l, Fine e) (hm : ∀ e ∈ m, Fine e) : ∀ e ∈ joinGo l m, Fine e := by
  induction l generalizing m with
  | nil => exact hm
  | cons a l ih =>
    obtain ⟨k, vs⟩ := a
    rw [joinGo]
    refine ih (fun e he => hl e (List.mem_cons_of_mem _ he)) fun e he => ?_
    have hk := hl _ List.mem_cons_self
    have ha : ∀ o, o ≠ some [] → appendAll o vs ≠ some [] := by
      intro o ho
      match vs with
      | none => exact ho
      | some [] => exact ho
      | some (v :: r) => intro h; exact absurd (Option.some.inj h) (by simp)
    cases hlk : look m k with
    | some o =>
      rw [hlk] at he
      obtain ⟨e', he', rfl⟩ := List.mem_map.mp he
      by_cases hx : e'.1 = k
      · rw [if_pos hx]
        exact ⟨(hm e' he').1, (hm e' he').2.1, ha _ (hm e' he').2.2⟩
      · rw [if_neg hx]
        exact hm e' he'
    | none =>
      rw [hlk] at he
      rcases List.mem_append.mp he with he | he
      · exact hm e he
      · cases List.mem_singleton.mp he
        exact ⟨hk.1, hk.2.1, ha none nofun⟩

theorem joinGo_nodup {l m : MD} (hm : (m.map (·.1)).Nodup) : ((joinGo l m).map (·.1)).Nodup := by
  induction l generalizing m with
  | nil => exact hm
  | cons a l ih =>
    obtain ⟨k, vs⟩ := a
    rw [joinGo]
    refine ih ?_
    cases hlk : look m k with
    | some o =>
      simp only
      rw [List.map_map, show (m.map ((·.1) ∘ fun e => if e.1 = k then (e.1, appendAll e.2 vs) else e)) = m.map (·.1) from
        List.map_congr_left fun e _ => by simp only [Function.comp_apply]; split <;> rfl]
      exact hm
    | none =>
      simp only
      rw [List.map_append, List.nodup_append]
      refine ⟨hm, List.nodup_cons.mpr ⟨List.not_mem_nil, List.nodup_nil⟩, ?_⟩
      intro a ha b hb
      rcases List.mem_cons.mp hb with rfl | hb
      · rintro rfl
        exact look_none_mem hlk ha
      · exact absurd hb List.not_mem_nil

theorem join_wire {a : MD} {ps : List (Str × Str)} (ha : WireValues a) (hp : ∀ p ∈ ps, p.1.all Runtime.tokenChar = true) : WireValues (join a (ps.foldl pairOne [])) := by
  have hf : ∀ (l : List (Str × Str)) (m : MD), (∀ p ∈ l, p.1.all Runtime.tokenChar = true) → (∀ e ∈ m, Fine e) → ∀ e ∈ l.foldl pairOne m, Fine e := by
    intro l
    induction l with
    | nil => exact fun m _ h => h
    | cons p l ih => exact fun m hl h => ih _ (fun q hq => hl q (List.mem_cons_of_mem _ hq)) (pairOne_fine (hl p List.mem_cons_self) h)
  exact ⟨joinGo_fine (hf ps [] hp fun e he => absurd he List.not_mem_nil) (joinGo_fine ha.valid fun e he => absurd he List.not_mem_nil),
    joinGo_nodup (joinGo_nodup List.nodup_nil)⟩

theorem vals_mem {m : MD} {x v : Str} {l : List Str} (h : vals m x = v :: l) : (x, some (v :: l)) ∈ m := by
  unfold vals at h
  cases hl : look m x with
  | none => rw [hl] at h; cases h
  | some o =>
    rw [hl] at h
    cases o with
    | none => cases h
    | some r =>
      have : r = v :: l := h
      subst this
      exact Runtime.look_some_mem hl

/-- **C101** A context value on its way over gRPC: the client's function adds it to the outgoing metadata, and the server, which gets
this metadata, puts it into its context, under the lower-case and the canonical form of the key, if the key was not in the metadata before. -/
theorem C101_grpc_propagation (keys : List Str) (hk : ∀ k ∈ keys, k.all Runtime.tokenChar = true) (hd : (keys.map toLower).Nodup) : ∃ f : Val M,
    (∀ st, (calls w (program s) (n + 2)).call (chars% "ContextValuesToGRPCMetadata") [.strs keys] st = .ok [f] st) ∧
    ∀ (c : Ctx) (st : St M), WireValues st.md → ∃ md, apply w (calls w (program s) (n + 2)) f [.ctx c, .mdPtr] st = .ok [.ctx c] { st with md := md } ∧
      ∀ (w' : World M) (sc : Ctx) (sst : St M), ∃ sc',
        (calls w' (program s) (n + 2)).call (chars% "GRPCMetadataToContext") [.ctx sc, .md md] sst = .ok [.ctx sc'] sst ∧
        ∀ k ∈ keys, ∀ v, stringOf c k = some v → vals st.md (toLower k) = [] → stringOf sc' (toLower k) = some v ∧ stringOf sc' (canonical k) = some v := by
  obtain ⟨f, hf, ha⟩ := C101_grpc_send w s n keys
  refine ⟨.closure [(chars% "ctx", chars% "context.Context"), (chars% "md", chars% "*metadata.MD")] sendMetadata [(chars% "keys", .strs keys)], fun st => ?_,
    fun c st hw => ⟨_, run_sendMetadata _ _ _ _ _ _, fun w' sc sst => ?_⟩⟩
  · rw [call_helper (g := valuesToMetadata) (by rfl)]
    exact run_valuesToMetadata _ _ _ _ _
  · have hsel : ∀ p ∈ selected c keys, p.1.all Runtime.tokenChar = true := by
      intro p hp
      obtain ⟨k, hk', he⟩ := List.mem_filterMap.mp hp
      obtain ⟨v, -, rfl⟩ := Option.map_eq_some_iff.mp he
      exact hk k hk'
    have hwire : WireValues (if selected c keys = [] then st.md else join st.md ((selected c keys).foldl pairOne [])) := by
      by_cases he : selected c keys = []
      · rw [if_pos he]; exact hw
      · rw [if_neg he]; exact join_wire hw hsel
    obtain ⟨sc', hc, hl⟩ := (C101_grpc_context w' s n sst sc _).1 hwire
    refine ⟨sc', hc, fun k hmem v hv hno => ?_⟩
    have hfm : ∀ l : List Str, (l.map toLower).Nodup → (∀ k' ∈ l, toLower k' ≠ toLower k) → (l.filterMap fun k' => if toLower k' = toLower k then stringOf c k' else none) = [] := by
      intro l _ h
      rw [List.filterMap_eq_nil_iff]
      intro a ha
      rw [if_neg (h a ha)]
    have hvals : vals (if selected c keys = [] then st.md else join st.md ((selected c keys).foldl pairOne [])) (toLower k) = [v] := by
      have h1 : (keys.filterMap fun k' => if toLower k' = toLower k then stringOf c k' else none) = [v] := by
        obtain ⟨l1, l2, rfl⟩ := List.append_of_mem hmem
        rw [List.map_append, List.map_cons, List.nodup_append, List.nodup_cons] at hd
        rw [List.filterMap_append, List.filterMap_cons, if_pos rfl, hv,
          hfm l1 hd.1 (fun k' hk' => hd.2.2 _ (List.mem_map.mpr ⟨k', hk', rfl⟩) _ List.mem_cons_self),
          hfm l2 hd.2.1.2 (fun k' hk' e => hd.2.1.1 (List.mem_map.mpr ⟨k', hk', e⟩))]
        rfl
      have hne : selected c keys ≠ [] := by
        intro he
        have := vals_filterMap c keys (toLower k)
        rw [he, h1] at this
        cases this
      rw [if_neg hne, join_vals _ _ hw.nodup (pairs_nodup _ (m := []) List.nodup_nil), pairs_vals, hno, vals_filterMap, h1]
      rfl
    have hin := vals_mem hvals
    have h1 := (hl (toLower k)).1 _ _ _ hin (.inl rfl)
    have h2 := (hl (canonical k)).1 _ _ _ hin (.inr (by rw [Runtime.canonical_lower (hk k hmem) (Runtime.toLower_token (hk k hmem))]))
    exact ⟨by rw [stringOf, h1]; rfl, by rw [stringOf, h2]; rfl⟩

/-! ## Concrete cases -/

namespace Example

open Baron.TT.Example (third rpcB)

/-- Messages are their texts; the text `bad` cannot be read; the response arrives with status 200. -/
def world : World Str where
  json := Runtime.demoJSON
  jsonErr s := plain s
  empty _ := []
  readProto _ _ s m := if s = "bad".toList then (m, some (plain s)) else (s, none)
  writeProto _ m := .ok m
  body := ("out".toList, .complete)
  status := 200
  path := "/v1/x".toList
  writeErr _ := none

/-- Nothing has happened; the request and the writer have a header each. -/
def start : St Str := ⟨[], [("X-Before".toList, ["1".toList])], none, [], [("X-Trace-Id".toList, ["t1".toList, "t2".toList])], [("a".toList, some ["1".toList])], [⟨"/base".toList, "h".toList⟩], false⟩

def sentOf {α : Type} : Ans Str α → Option Runtime.Response
  | .ok _ st => st.sent.map fun x => ⟨x.1, x.2, st.out⟩
  | _ => none

def errorOf : Ans Str (List (Val Str)) → Option Str
  | .ok [.nil, .err e] _ => some e.msg
  | _ => none

def missing : Err := plain "no such user".toList

example : Represents (httpErr (M := Str) missing 404 [("Retry-After".toList, ["5".toList, "6".toList])]) ⟨missing.msg, none, some [("Retry-After".toList, ["5".toList, "6".toList])], some 404⟩ ∧
    start.sent = none ∧ start.out = [] := ⟨.http _ _ _, rfl, rfl⟩

example : sentOf ((calls world (program third) 2).call (chars% "errorEncoder") [.ctx [], httpErr missing 404 [("Retry-After".toList, ["5".toList, "6".toList])], .writer] start) =
    some ⟨404, [("Retry-After".toList, ["5".toList]), ("Content-Type".toList, ["application/json; charset=utf-8".toList]), ("X-Before".toList, ["1".toList])], "{no such user".toList⟩ := by
  decide +kernel

example : errorOf ((calls { world with status := 404, body := ("{no such user".toList, .complete) } (program third) 2).call (decoderName rpcB) [.ctx [], .response] start) =
    some "status code: '404': no such user".toList := by decide +kernel

example : errorOf ((calls { world with body := ("bad".toList, .complete) } (program third) 2).call (decoderName rpcB) [.ctx [], .response] start) =
    some "response body 'bad': cannot parse non-json request body".toList := by decide +kernel

/-- The premises about rpcs. -/
example : (third.methods.map (·.name)).Nodup ∧ rpcB ∈ third.methods ∧ rpcB.bindings ≠ [] ∧ Begins rpcB.response.name :=
  ⟨by decide +kernel, .tail _ (.tail _ (.head _)), by decide +kernel, 'O', "ut".toList, rfl, by decide⟩

example : WireHeader start.reqHeader ∧ WireValues start.md := by
  refine ⟨⟨fun k vs h => ?_, by decide +kernel⟩, ⟨by decide +kernel, by decide +kernel⟩⟩
  cases List.mem_singleton.mp h
  decide +kernel

def ctxOf : Ans Str (List (Val Str)) → Option Ctx
  | .ok [.ctx c] _ => some c
  | _ => none

example : ((ctxOf ((calls world (program third) 2).call (chars% "HTTPHeadersToContext") [.ctx [("user".toList, none)], .request] start)).map fun c =>
      (stringOf c "x-trace-id".toList, stringOf c "X-Trace-Id".toList, stringOf c "request-url".toList, look c "user".toList)) =
    some (some "t1".toList, some "t1".toList, some "/v1/x".toList, some none) := by decide +kernel

/-- Keys that can be sent: one has a string, one has another value, one has nothing. -/
example :
    let keys := ["User-Id".toList, "Trace".toList, "Absent".toList]
    (∀ k ∈ keys, k.all Runtime.tokenChar = true) ∧ (keys.map canonical).Nodup ∧ (keys.map toLower).Nodup ∧
    ((match (calls world (program third) 2).call (chars% "ContextValuesToGRPCMetadata") [.strs keys] start with
      | .ok [f] st => match apply world (calls world (program third) 2) f [.ctx [("User-Id".toList, some "7".toList), ("Trace".toList, none)], .mdPtr] st with
        | .ok _ st => some st.md
        | _ => none
      | _ => none) = some [("a".toList, some ["1".toList]), ("user-id".toList, some ["7".toList])]) ∧
    ((match (calls world (program third) 2).call (chars% "CtxValuesToSend") [.strs keys] start with
      | .ok [.lib _ [f]] st => match apply world (calls world (program third) 2) f [.ctx [("User-Id".toList, some "7".toList), ("Trace".toList, none)], .request] st with
        | .ok _ st => some st.reqHeader
        | _ => none
      | _ => none) = some [("User-Id".toList, ["7".toList]), ("X-Trace-Id".toList, ["t1".toList, "t2".toList])]) := by
  refine ⟨?_, ?_, ?_, ?_, ?_⟩ <;> decide +kernel

end Example

end Baron.GoHTTP
