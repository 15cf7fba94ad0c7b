import Verif.Proofs.GoExchange
import Verif.Props.GoDecode
import Verif.Props.RoundTrip

/-!
# C104 A call through the programs of the generated client and of the generated server
-/

namespace Baron.GoExchange

open Baron.Svcdef hiding newField
open Baron.HTTP (look Piece TemplateOK templateOf basePath)
open Baron.HTTPCode (FullMsg bindingFields bindingOneofs)
open Baron.HTTPCall (Survives BodyTravels)
open Baron.Runtime (Header Err WireHeader canonical errorText clientMessage withStatus)
open Baron.GoHTTP (World Val St Represents Begins program calls plain readOptions writeOptions)
open Baron.Decoders (Readable ReadableOneof Leftovers plainParams oneofParams)
open Baron.Encoders (Typed Writable Called encoderCode)
open Baron.GoClient (Http)
open Baron.GoRoutes (serve makeHandler standard ContextOf callClient Net Env Routes)
open Baron.Transport (Wellformed FirstWith Takes Apart)
open Baron.Strs (goCamelCase)
open Baron.TT (Plain)

variable {F E S : Type}

/-- The client's net reaches the handler: requests are made by the encoder's program, for the address of the client, and answered by the handler with
these routes, in the state `σ`, with the context `c₀` and a fresh writer. Headers arrive as `carry` says. -/
structure Wired (net : Net (FullMsg F) Http) (C : GoClient.Libs F) (m : ServiceMethod) (b : HTTPBinding) (ps : List Piece) (raw rest : Str) (carry : Header → Header)
    (env : Http → Env (FullMsg F) E S) (sw : World (FullMsg F)) (s : Service) (n : Nat) (rs : Routes E) (c₀ : GoHTTP.Ctx) (st₀ : St (FullMsg F)) (σ : S) : Prop where
  encode : ∀ c t msg σ, GoClient.run C (encoderCode m.request.name b ps) (start msg (basePath b.path) raw) = .returned false σ →
    net.encode ("EncodeHTTP".toList ++ m.name ++ "ZeroRequest".toList) (toUpper b.verb) ⟨basePath b.path, rest⟩ c (.msg t msg) = .ok (σ.http, σ.http.header)
  send : ∀ q h code body, reply (serve (env q) (calls (worldAt sw q) (program s) (n + 2)) rs (toUpper b.verb) q.path c₀ { st₀ with reqHeader := carry h } σ) = some (code, body) →
    net.send q h = .ok (code, body, .complete)

/-- The server's environments, one for each request, differ only in how they decode, and decode as the decoder's program does. -/
structure Serving (env : Http → Env (FullMsg F) E S) (endpoint : E → GoHTTP.Ctx → Val (FullMsg F) → S → Except (Val (FullMsg F)) (Val (FullMsg F)) × S)
    (opts : List (GoRoutes.Val E)) (sw : World (FullMsg F)) (s : Service) (n : Nat) (L : GoLang.Libs F) (conv : GoLang.State F → Err) (m : ServiceMethod) (b : HTTPBinding) : Prop where
  endpoint : ∀ q, (env q).endpoint = endpoint
  option : ∀ q, ∀ o ∈ opts, ∃ a, o = .ext a ∧ (env q).option a standard = standard
  decode : ∀ q st, GoDecode.Decodes (env q) (worldAt sw q) s n L conv q.query st m b 0

/-- The handler answers the request `q`, whose headers arrive as `h`, and the service is left in the state `σ'`. -/
def Leaves (env : Http → Env (FullMsg F) E S) (sw : World (FullMsg F)) (s : Service) (n : Nat) (rs : Routes E) (b : HTTPBinding) (q : Http) (h : Header) (c₀ : GoHTTP.Ctx)
    (st₀ : St (FullMsg F)) (σ σ' : S) : Prop :=
  ∃ out, serve (env q) (calls (worldAt sw q) (program s) (n + 2)) rs (toUpper b.verb) q.path c₀ { st₀ with reqHeader := h } σ = .answered out σ'

/-- What a call returns when the server sends the error `er`: no response, and an error with the status and what the client makes of the text. -/
def failed (sw cw : World (FullMsg F)) (er : Err) (st : St (FullMsg F)) : GoHTTP.Ans (FullMsg F) (List (Val (FullMsg F))) :=
  .ok [.nil, .err (plain (withStatus (er.status.getD 500) (clientMessage cw.json (if Runtime.bodyAllowed (er.status.getD 500) then errorText sw.json er else []))))] st

theorem sent_run {C : GoClient.Libs F} {L : GoLang.Libs F} (hfl : C.fl = L.fl) {sw : World (FullMsg F)} {t : Str} {b : HTTPBinding} {ps : List Piece} (hok : TemplateOK ps) (hp : b.path = templateOf ps)
    (ht : Typed C b) (hw : Writable b ps) {msg : FullMsg F} (hm : Encoders.Sendable C.fl b msg) {n : Str} (hs : Survives (libOf C L sw t) b n msg)
    (hb : BodyTravels (libOf C L sw t) b n msg) (request raw : Str) {σ : GoClient.State F} (hσ : Called msg ⟨[], basePath b.path, raw, [], none⟩ σ) :
    ∃ σ₁ vars x, GoClient.run C (encoderCode request b ps) σ = .returned false σ₁ ∧ HTTP.muxVars b.path σ₁.http.path = some vars ∧
      σ₁.http.header = HTTPCall.encoderHeader b ∧ HTTP.urlParsePath (HTTP.clientPath (HTTPCode.pathEnv L.fl C.addr (bindingFields b) msg.fields) b.path) = some σ₁.http.path ∧
      GoDecode.Gives (worldAt sw σ₁.http) t x ∧
      HTTPCode.decodeFull L.fl L.jok x (bindingFields b) (bindingOneofs b) ⟨vars, σ₁.http.query, none⟩ = .ok msg := by
  have henc := Encoders.C92_run request hok hp ht hw hm hσ
  obtain ⟨r, h1, h2⟩ := hs
  unfold HTTPCode.transmitFull at h1
  unfold Encoders.sent at henc
  rw [hfl] at henc
  simp only [libOf] at h1 h2 henc
  cases hu : HTTP.urlParsePath (HTTP.clientPath (HTTPCode.pathEnv L.fl C.addr (bindingFields b) msg.fields) b.path) with
  | none => rw [hu] at h1; cases h1
  | some path =>
    rw [hu] at h1 henc
    simp only at h1 henc
    cases hv : HTTP.muxVars b.path path with
    | none => rw [hv] at h1; cases h1
    | some vars =>
      rw [hv] at h1
      simp only [Option.some.injEq] at h1
      subst h1
      by_cases hg : b.verb = "get".toList
      · rw [if_pos hg] at henc
        obtain ⟨σ₁, e1, e2, -⟩ := henc
        refine ⟨σ₁, vars, sw.empty t, e1, by rw [e2]; exact hv, by rw [e2]; rfl, by rw [e2], ⟨rfl, .inl ⟨by rw [e2]; rfl, rfl⟩⟩, ?_⟩
        rw [e2, ← h2]
        exact decodeFull_look _ _ _ _ (fun _ => rfl) rfl nofun (by simp only [if_pos hg]; nofun) (by simp only [if_pos hg] <;> rfl)
      · rw [if_neg hg] at henc
        obtain ⟨txt, t1, t2, t3⟩ := hb hg
        have t1 : C.writeReq msg = some txt := t1
        rw [t1] at henc
        obtain ⟨σ₁, e1, e2, -⟩ := henc
        have hread : sw.readProto readOptions t txt (sw.empty t) = (msg, none) := by
          have t3 : (match sw.readProto readOptions t txt (sw.empty t) with
            | (m, none) => some m
            | _ => none) = some msg := t3
          cases hr : sw.readProto readOptions t txt (sw.empty t) with
          | mk y e =>
            rw [hr] at t3
            cases e with
            | none => cases t3; rfl
            | some e => cases t3
        refine ⟨σ₁, vars, msg, e1, by rw [e2]; exact hv, by rw [e2]; rfl, by rw [e2], ⟨rfl, .inr ⟨by rw [e2]; exact t2, by rw [e2]; exact hread⟩⟩, ?_⟩
        rw [e2, ← h2]
        exact decodeFull_look _ _ _ _ (fun _ => rfl) rfl nofun (by simp only [if_neg hg]; nofun) (by simp only [if_neg hg] <;> rfl)

theorem sent_body {C : GoClient.Libs F} {L : GoLang.Libs F} (hfl : C.fl = L.fl) {b : HTTPBinding} {ps : List Piece} (hok : TemplateOK ps) (hp : b.path = templateOf ps)
    (ht : Typed C b) (hw : Writable b ps) {msg : FullMsg F} (hm : Encoders.Sendable C.fl b msg) {r : HTTPCode.FullRequest F}
    (h1 : HTTPCode.transmitFull L.fl C.fzero C.addr b.verb b.path (bindingFields b) (bindingOneofs b) msg = some r) (hg : b.verb ≠ "get".toList) {txt : Str}
    (t1 : C.writeReq msg = some txt) (request raw : Str) {σ : GoClient.State F} (hσ : Called msg ⟨[], basePath b.path, raw, [], none⟩ σ) :
    ∃ σ₁ vars, GoClient.run C (encoderCode request b ps) σ = .returned false σ₁ ∧ HTTP.muxVars b.path σ₁.http.path = some vars ∧ σ₁.http.body = some txt := by
  have henc := Encoders.C92_run request hok hp ht hw hm hσ
  unfold HTTPCode.transmitFull at h1
  unfold Encoders.sent at henc
  rw [hfl] at henc
  simp only at h1 henc
  cases hu : HTTP.urlParsePath (HTTP.clientPath (HTTPCode.pathEnv L.fl C.addr (bindingFields b) msg.fields) b.path) with
  | none => rw [hu] at h1; cases h1
  | some path =>
    rw [hu] at h1 henc
    simp only at h1 henc
    cases hv : HTTP.muxVars b.path path with
    | none => rw [hv] at h1; cases h1
    | some vars =>
      rw [if_neg hg, t1] at henc
      obtain ⟨σ₁, e1, e2, -⟩ := henc
      exact ⟨σ₁, vars, e1, by rw [e2]; exact hv, by rw [e2]⟩

theorem encoderHeader_look (b : HTTPBinding) (key : Str) : look (HTTPCall.encoderHeader b) key =
    if key = "Request-Url".toList then some [basePath b.path] else if key = "Transport".toList then some ["HTTPJSON".toList] else none := by
  have h : HTTPCall.encoderHeader b = [("Request-Url".toList, [basePath b.path]), ("Transport".toList, ["HTTPJSON".toList])] := by
    unfold HTTPCall.encoderHeader Runtime.headerSet
    rw [HTTPCall.canonical_consts.1, HTTPCall.canonical_consts.2.1]
    rfl
  rw [h]
  by_cases h1 : key = "Request-Url".toList
  · rw [if_pos h1, h1]
    rfl
  · rw [if_neg h1, GoHTTP.look_cons_ne _ _ (eq_false fun h => h1 h.symm)]
    by_cases h2 : key = "Transport".toList
    · rw [if_pos h2, h2]
      rfl
    · rw [if_neg h2, GoHTTP.look_cons_ne _ _ (eq_false fun h => h2 h.symm)]
      rfl

/-- **C104** A call through the client's endpoint for an rpc, of which every program is the generated one: the encoder, the functions before, the handler, the
decoder of requests, the encoder of responses or of errors, and the decoder of responses. For every message that makes the way (`Survives`, see C79, whose conditions are about the binding and the message alone), with
the path of the binding: the endpoint of that rpc, and no other, gets a message with exactly that content, once, in a context with the values of the caller's context
that were selected; if it returns a response that protojson writes and the client's reads, the call returns that, without error; if it fails with a status other than 200, the call
returns an error with that status and the text of the error. An error with status 200 is taken for a response: if protojson at the client reads its text, the call returns what
it read, and no error. The body of the response is closed. -/
theorem C104_call (w : GoRoutes.World) (cw sw : World (FullMsg F)) (s : Service) (n : Nat) (hwf : Wellformed s)
    (hlit : ∀ m ∈ s.methods, ∀ b ∈ m.bindings, Plain (toUpper b.verb) ∧ Plain b.path) (hd : (s.methods.map (·.name)).Nodup)
    (fields : List (Str × GoRoutes.Val E)) (opts : List (GoRoutes.Val E)) {C : GoClient.Libs F} {L : GoLang.Libs F} (hL : Leftovers L) (hfl : C.fl = L.fl)
    (conv : GoLang.State F → Err) (hconv : ∀ σ, (conv σ).status = none) {ms₁ ms₂ : List ServiceMethod} {m : ServiceMethod} {b : HTTPBinding} {bs : List HTTPBinding}
    (hms : s.methods = ms₁ ++ m :: ms₂) (hb : m.bindings = b :: bs) (hreq : Begins m.request.name) (hresp : Begins m.response.name)
    {ps : List Piece} (hok : TemplateOK ps) (hps : b.path = templateOf ps)
    (hapart : ∀ m' ∈ ms₁, ∀ b' ∈ m'.bindings, toUpper b'.verb = toUpper b.verb → ∀ qs, b'.path = templateOf qs → TemplateOK qs → Apart qs ps)
    (htyped : Typed C b) (hwrite : Writable b ps) (hpl : ∀ p ∈ plainParams b, p.location ≠ "body".toList → Readable p)
    (hon : ∀ p ∈ oneofParams b, p.location = "query".toList → ReadableOneof p) (carry : Header → Header) (hcarry : ∀ h, WireHeader (carry h)) (keys : List Str) :
    ∃ rs o, (∃ h, (makeHandler s).run w [.struct (chars% "Endpoints") fields, .list opts] = .ok [.router] h ∧ h.routes = rs) ∧
      (∀ st, (calls cw (program s) (n + 2)).call "CtxValuesToSend".toList [.strs keys] st = .ok [o] st) ∧
      ∀ (endpoint : E → GoHTTP.Ctx → Val (FullMsg F) → S → Except (Val (FullMsg F)) (Val (FullMsg F)) × S) (env : Http → Env (FullMsg F) E S),
        Serving env endpoint opts sw s n L conv m b → ∀ (net : Net (FullMsg F) Http) (raw rest : Str) (c₀ : GoHTTP.Ctx) (st₀ : St (FullMsg F)) (σ : S),
        st₀.sent = none → st₀.out = [] → Wired net C m b ps raw rest carry env sw s n rs c₀ st₀ σ →
        ∀ (e : E), look fields (m.name ++ chars% "Endpoint") = some (.ext e) → ∀ (c : GoHTTP.Ctx) (st : St (FullMsg F)) (msg : FullMsg F),
        Encoders.Sendable C.fl b msg → Survives (libOf C L sw (goCamelCase m.request.name)) b m.name msg → BodyTravels (libOf C L sw (goCamelCase m.request.name)) b m.name msg →
        ∃ q : Http, ∃ path h' c' st', q.path = path ∧ Transport.clientRequest (HTTPCode.pathEnv L.fl C.addr (bindingFields b) msg.fields) m = some (toUpper b.verb, path) ∧
          (∀ key, look h' key = match keys.reverse.findSome? (fun k => if canonical k = key then GoHTTP.stringOf c k else none) with
            | some v => some [v]
            | none => if key = "Request-Url".toList then some [basePath b.path] else if key = "Transport".toList then some ["HTTPJSON".toList] else none) ∧
          ContextOf path (carry h') c₀ c' ∧ st'.closed = true ∧
          ∀ answer, answer = callClient net cw (fun w => calls w (program s) (n + 2)) (.lib "httptransport.NewClient.Endpoint".toList [.text (toUpper b.verb), .url ⟨basePath b.path, rest⟩,
              .func ("EncodeHTTP".toList ++ m.name ++ "ZeroRequest".toList), .func ("DecodeHTTP".toList ++ m.name ++ "Response".toList), .ext o])
              c (.msg (goCamelCase m.request.name) msg) st →
            (∀ t y body y' σ', endpoint e c' (.msg (goCamelCase m.request.name) msg) σ = (.ok (.msg t y), σ') → sw.writeProto writeOptions y = .ok body → sw.writeErr body = none →
              cw.readProto readOptions (goCamelCase m.response.name) body (cw.empty (goCamelCase m.response.name)) = (y', none) →
              Leaves env sw s n rs b q (carry h') c₀ st₀ σ σ' ∧ answer = .ok [.msg (goCamelCase m.response.name) y', .nil] st') ∧
            (∀ v er σ', endpoint e c' (.msg (goCamelCase m.request.name) msg) σ = (.error v, σ') → Represents v er → GoRoutes.Sendable er → er.status.getD 500 ≠ 200 →
              Leaves env sw s n rs b q (carry h') c₀ st₀ σ σ' ∧ answer = failed sw cw er st') ∧
            (∀ t y er σ', endpoint e c' (.msg (goCamelCase m.request.name) msg) σ = (.ok (.msg t y), σ') → sw.writeProto writeOptions y = .error er → GoRoutes.Sendable er →
              er.status.getD 500 ≠ 200 → Leaves env sw s n rs b q (carry h') c₀ st₀ σ σ' ∧ answer = failed sw cw er st') ∧
            ∀ v er σ' y', endpoint e c' (.msg (goCamelCase m.request.name) msg) σ = (.error v, σ') → Represents v er → er.status = some 200 →
              cw.readProto readOptions (goCamelCase m.response.name) (errorText sw.json er) (cw.empty (goCamelCase m.response.name)) = (y', none) →
              Leaves env sw s n rs b q (carry h') c₀ st₀ σ σ' ∧ answer = .ok [.msg (goCamelCase m.response.name) y', .nil] st' := by
  have hm : m ∈ s.methods := by rw [hms]; exact List.mem_append_right _ List.mem_cons_self
  obtain ⟨h, hrun, -⟩ := GoRoutes.run_makeHandler w s fields opts hlit
  obtain ⟨o, ho, -⟩ := GoRoutes.C102_client_call (Q := Http) cw s n hd hm hb hresp keys ⟨basePath b.path, []⟩
  refine ⟨h.routes, o, ⟨h, hrun, rfl⟩, ho, ?_⟩
  intro endpoint env hserv net raw rest c₀ st₀ σ hsent hout hwired e he c st msg hsend hsurv hbody
  -- the request
  have hcalled : Called msg ⟨[], basePath b.path, raw, [], none⟩ (start msg (basePath b.path) raw) := ⟨⟨_, rfl, rfl⟩, rfl, rfl⟩
  obtain ⟨σ₁, vars, x, e1, e2, e3, e4, e5, e6⟩ := sent_run hfl hok hps htyped hwrite hsend hsurv hbody m.request.name raw hcalled
  have hencode := fun c => hwired.encode c (goCamelCase m.request.name) msg _ e1
  obtain ⟨o', ho', hclient⟩ := GoRoutes.C102_client_call (Q := Http) cw s n hd hm hb hresp keys ⟨basePath b.path, rest⟩
  have hoo : o' = o := by
    have h1 := ho' st
    rw [ho st] at h1
    injection h1 with h1 _
    injection h1 with h1 _
    exact h1.symm
  subst hoo
  obtain ⟨h', hl, -, hans⟩ := (hclient net c (.msg (goCamelCase m.request.name) msg) st _ rfl).2 _ _ (hencode c)
  -- the way to the server
  rw [hps] at e2
  obtain ⟨segs, hplain, hpath, hfit⟩ := matched_plain hok e2
  have hfits : Transport.Fits ps segs := by rw [Transport.fits_iff, hfit]; rfl
  have hfirst : FirstWith s (Takes · (toUpper b.verb) segs) m 0 b := by
    refine ⟨⟨rfl, ps, hps, hok, hfits⟩, ms₁, ms₂, [], bs, hms, hb, rfl, ?_, by simp⟩
    rintro m' hm' b' hb' ⟨hv, qs, hq, hoq, hf⟩
    exact (Transport.C51_apart qs ps).1 (hapart m' hm' b' hb' hv qs hq hoq) _ ⟨hf, hfits⟩
  obtain ⟨h2, hrun2, hs⟩ := GoDecode.C103_served w (worldAt sw σ₁.http) (env σ₁.http) s n hwf hlit fields opts (hserv.option σ₁.http) hL conv hconv σ₁.http.query
  have hh : h2 = h := by
    rw [hrun] at hrun2
    injection hrun2 with _ h1
    exact h1.symm
  subst hh
  obtain ⟨vars', c', hvars', hctx, -, hgives⟩ := hs (toUpper b.verb) segs hplain hpath c₀ { st₀ with reqHeader := carry h' } σ hsent (hcarry h') m 0 b e hfirst he hreq hpl hon
    (hserv.decode σ₁.http _)
  have hlook : ∀ y, look vars' y = look vars y := by
    intro y
    have h1 := hvars' ps hps hok y
    have h2 := Transport.look_fitVars hok.nodup hfit y
    cases hv : look vars y with
    | some v => exact (h1 v).2 ((h2 v).1 hv)
    | none =>
      cases hv' : look vars' y with
      | none => rfl
      | some v => rw [(h2 v).2 ((h1 v).1 hv')] at hv; cases hv
  obtain ⟨-, hgo⟩ := hgives x e5
  have hdec : HTTPCode.decodeFull L.fl L.jok x (bindingFields b) (bindingOneofs b) ⟨vars', σ₁.http.query, none⟩ = .ok msg :=
    (decodeFull_look L.fl L.jok (bindingFields b) (bindingOneofs b) (zero := x) (zero' := x) (r := ⟨vars', σ₁.http.query, none⟩) (r' := ⟨vars, σ₁.http.query, none⟩)
      hlook rfl nofun nofun rfl).trans e6
  obtain ⟨herr, hok2, hbad⟩ := hgo msg hdec
  rw [hserv.endpoint] at herr hok2 hbad
  rw [← hpath] at hctx herr hok2 hbad
  have hfail : ∀ er st₁ st' σ', st₁.out = [] → GoRoutes.ErrorSent sw.json er st₁ st' → er.status.getD 500 ≠ 200 →
      serve (env σ₁.http) (calls (worldAt sw σ₁.http) (program s) (n + 2)) h2.routes (toUpper b.verb) σ₁.http.path c₀ { st₀ with reqHeader := carry h' } σ = .answered st' σ' →
      callClient net cw (fun w => calls w (program s) (n + 2)) (.lib "httptransport.NewClient.Endpoint".toList [.text (toUpper b.verb), .url ⟨basePath b.path, rest⟩,
        .func ("EncodeHTTP".toList ++ m.name ++ "ZeroRequest".toList), .func ("DecodeHTTP".toList ++ m.name ++ "Response".toList), .ext o'])
        c (.msg (goCamelCase m.request.name) msg) st = failed sw cw er { st with reqHeader := h', closed := true } := by
    intro er st₁ st' σ' ho hes hne hserve
    have := hwired.send σ₁.http h' (er.status.getD 500) (if Runtime.bodyAllowed (er.status.getD 500) then errorText sw.json er else []) (by
      rw [hserve]
      show st'.sent.map _ = _
      rw [hes.sent, hes.out]
      show some (er.status.getD 500, if Runtime.bodyAllowed (er.status.getD 500) then st₁.out ++ errorText sw.json er else []) = _
      rw [ho]
      rfl)
    rw [hans _ _ this]
    unfold GoHTTP.decoded
    simp only [if_neg hne, failed]
  refine ⟨σ₁.http, σ₁.http.path, h', c', { st with reqHeader := h', closed := true }, rfl, ?_, ?_, hctx, rfl, ?_⟩
  · rw [Transport.clientRequest, hb]
    simp only [e4, Option.map_some]
  · intro key
    rw [hl key, e3, encoderHeader_look]
    rfl
  · rintro answer rfl
    refine ⟨fun t y body y' σ' hep hwp hwe hrd => ?_, fun v er σ' hep hrep hsd hne => ?_, fun t y er σ' hep hwp hsd hne => ?_,
      fun v er σ' y' hep hrep h200 hrd => ?_⟩
    · have hserve := hok2 t y body σ' hep hwp hwe
      refine ⟨⟨_, hserve⟩, ?_⟩
      have := hwired.send σ₁.http h' 200 body (by
        rw [hserve]
        show some (200, if Runtime.bodyAllowed 200 then st₀.out ++ body else []) = _
        rw [hout]
        rfl)
      rw [hans 200 body this]
      unfold GoHTTP.decoded
      simp only [if_true, hrd]
    · obtain ⟨st', hes, hserve⟩ := herr v er σ' hep hrep hsd
      exact ⟨⟨_, hserve⟩, hfail er { st₀ with reqHeader := carry h' } st' σ' hout hes hne hserve⟩
    · obtain ⟨st', hes, hserve⟩ := hbad t y er σ' hep hwp hsd
      exact ⟨⟨_, hserve⟩, hfail er (GoRoutes.typed { st₀ with reqHeader := carry h' }) st' σ' hout hes hne hserve⟩
    · obtain ⟨st', hes, hserve⟩ := herr v er σ' hep hrep (by unfold GoRoutes.Sendable; rw [h200]; decide)
      refine ⟨⟨_, hserve⟩, ?_⟩
      have := hwired.send σ₁.http h' 200 (errorText sw.json er) (by
        rw [hserve]
        show st'.sent.map _ = _
        rw [hes.sent, hes.out, h200]
        show some (200, if Runtime.bodyAllowed 200 then st₀.out ++ errorText sw.json er else []) = _
        rw [hout]
        rfl)
      rw [hans _ _ this]
      unfold GoHTTP.decoded
      simp only [if_true, hrd]

/-- **C104** The same call of a message whose body protojson at the server does not take: the handler answers it, no endpoint is called (the service is left in its state),
and the call returns an error with status 400, the first 8196 bytes of the body and what protojson reported. -/
theorem C104_refused (w : GoRoutes.World) (cw sw : World (FullMsg F)) (s : Service) (n : Nat) (hwf : Wellformed s)
    (hlit : ∀ m ∈ s.methods, ∀ b ∈ m.bindings, Plain (toUpper b.verb) ∧ Plain b.path) (hd : (s.methods.map (·.name)).Nodup)
    (fields : List (Str × GoRoutes.Val E)) (opts : List (GoRoutes.Val E)) {C : GoClient.Libs F} {L : GoLang.Libs F} (hL : Leftovers L) (hfl : C.fl = L.fl)
    (conv : GoLang.State F → Err) (hconv : ∀ σ, (conv σ).status = none) {ms₁ ms₂ : List ServiceMethod} {m : ServiceMethod} {b : HTTPBinding} {bs : List HTTPBinding}
    (hms : s.methods = ms₁ ++ m :: ms₂) (hb : m.bindings = b :: bs) (hreq : Begins m.request.name) (hresp : Begins m.response.name)
    {ps : List Piece} (hok : TemplateOK ps) (hps : b.path = templateOf ps)
    (hapart : ∀ m' ∈ ms₁, ∀ b' ∈ m'.bindings, toUpper b'.verb = toUpper b.verb → ∀ qs, b'.path = templateOf qs → TemplateOK qs → Apart qs ps)
    (htyped : Typed C b) (hwrite : Writable b ps) (hpl : ∀ p ∈ plainParams b, p.location ≠ "body".toList → Readable p)
    (hon : ∀ p ∈ oneofParams b, p.location = "query".toList → ReadableOneof p) (carry : Header → Header) (hcarry : ∀ h, WireHeader (carry h)) (keys : List Str) :
    ∃ rs o, (∃ h, (makeHandler s).run w [.struct (chars% "Endpoints") fields, .list opts] = .ok [.router] h ∧ h.routes = rs) ∧
      (∀ st, (calls cw (program s) (n + 2)).call "CtxValuesToSend".toList [.strs keys] st = .ok [o] st) ∧
      ∀ (endpoint : E → GoHTTP.Ctx → Val (FullMsg F) → S → Except (Val (FullMsg F)) (Val (FullMsg F)) × S) (env : Http → Env (FullMsg F) E S),
        Serving env endpoint opts sw s n L conv m b → ∀ (net : Net (FullMsg F) Http) (raw rest : Str) (c₀ : GoHTTP.Ctx) (st₀ : St (FullMsg F)) (σ : S),
        st₀.sent = none → st₀.out = [] → Wired net C m b ps raw rest carry env sw s n rs c₀ st₀ σ →
        ∀ (e : E), look fields (m.name ++ chars% "Endpoint") = some (.ext e) → ∀ (c : GoHTTP.Ctx) (st : St (FullMsg F)) (msg : FullMsg F),
        Encoders.Sendable C.fl b msg → b.verb ≠ "get".toList → ∀ r txt er,
        HTTPCode.transmitFull L.fl C.fzero C.addr b.verb b.path (bindingFields b) (bindingOneofs b) msg = some r → C.writeReq msg = some txt → txt ≠ [] →
        (sw.readProto readOptions (goCamelCase m.request.name) txt (sw.empty (goCamelCase m.request.name))).2 = some er →
        ∃ q : Http, ∃ h st', st'.closed = true ∧ q.body = some txt ∧ Leaves env sw s n rs b q h c₀ st₀ σ σ ∧
          callClient net cw (fun w => calls w (program s) (n + 2)) (.lib "httptransport.NewClient.Endpoint".toList [.text (toUpper b.verb), .url ⟨basePath b.path, rest⟩,
              .func ("EncodeHTTP".toList ++ m.name ++ "ZeroRequest".toList), .func ("DecodeHTTP".toList ++ m.name ++ "Response".toList), .ext o])
              c (.msg (goCamelCase m.request.name) msg) st =
            failed sw cw ⟨"request body '".toList ++ txt.take 8196 ++ "': cannot parse non-json request body: ".toList ++ er.msg, none, some [], some 400⟩ st' := by
  have hm : m ∈ s.methods := by rw [hms]; exact List.mem_append_right _ List.mem_cons_self
  obtain ⟨h, hrun, -⟩ := GoRoutes.run_makeHandler w s fields opts hlit
  obtain ⟨o, ho, -⟩ := GoRoutes.C102_client_call (Q := Http) cw s n hd hm hb hresp keys ⟨basePath b.path, []⟩
  refine ⟨h.routes, o, ⟨h, hrun, rfl⟩, ho, ?_⟩
  intro endpoint env hserv net raw rest c₀ st₀ σ hsent hout hwired e he c st msg hsend hg r txt er htr htxt hne hread
  -- the request
  have hcalled : Called msg ⟨[], basePath b.path, raw, [], none⟩ (start msg (basePath b.path) raw) := ⟨⟨_, rfl, rfl⟩, rfl, rfl⟩
  obtain ⟨σ₁, vars, e1, e2, e3⟩ := sent_body hfl hok hps htyped hwrite hsend htr hg htxt m.request.name raw hcalled
  have hencode := fun c => hwired.encode c (goCamelCase m.request.name) msg _ e1
  obtain ⟨o', ho', hclient⟩ := GoRoutes.C102_client_call (Q := Http) cw s n hd hm hb hresp keys ⟨basePath b.path, rest⟩
  have hoo : o' = o := by
    have h1 := ho' st
    rw [ho st] at h1
    injection h1 with h1 _
    injection h1 with h1 _
    exact h1.symm
  subst hoo
  obtain ⟨h', hl, -, hans⟩ := (hclient net c (.msg (goCamelCase m.request.name) msg) st _ rfl).2 _ _ (hencode c)
  -- the way to the server
  rw [hps] at e2
  obtain ⟨segs, hplain, hpath, hfit⟩ := matched_plain hok e2
  have hfits : Transport.Fits ps segs := by rw [Transport.fits_iff, hfit]; rfl
  have hfirst : FirstWith s (Takes · (toUpper b.verb) segs) m 0 b := by
    refine ⟨⟨rfl, ps, hps, hok, hfits⟩, ms₁, ms₂, [], bs, hms, hb, rfl, ?_, by simp⟩
    rintro m' hm' b' hb' ⟨hv, qs, hq, hoq, hf⟩
    exact (Transport.C51_apart qs ps).1 (hapart m' hm' b' hb' hv qs hq hoq) _ ⟨hf, hfits⟩
  obtain ⟨h2, hrun2, hs⟩ := GoDecode.C103_served w (worldAt sw σ₁.http) (env σ₁.http) s n hwf hlit fields opts (hserv.option σ₁.http) hL conv hconv σ₁.http.query
  have hh : h2 = h := by
    rw [hrun] at hrun2
    injection hrun2 with _ h1
    exact h1.symm
  subst hh
  obtain ⟨vars', c', -, -, hgives, -⟩ := hs (toUpper b.verb) segs hplain hpath c₀ { st₀ with reqHeader := carry h' } σ hsent (hcarry h') m 0 b e hfirst he hreq hpl hon
    (hserv.decode σ₁.http _)
  have hbody : (worldAt sw σ₁.http).body = (txt, .complete) := by
    show (σ₁.http.body.getD [], _) = _
    rw [e3]
    rfl
  obtain ⟨st', hes, hserve⟩ := hgives er (by rw [hbody]) (by rw [hbody]; exact hne) (by rw [hbody]; exact hread)
  rw [hbody] at hes
  rw [← hpath] at hserve
  refine ⟨σ₁.http, carry h', { st with reqHeader := h', closed := true }, rfl, e3, ⟨_, hserve⟩, ?_⟩
  have := hwired.send σ₁.http h' 400 (errorText sw.json ⟨"request body '".toList ++ txt.take 8196 ++ "': cannot parse non-json request body: ".toList ++ er.msg, none, some [], some 400⟩) (by
    rw [hserve]
    show st'.sent.map _ = _
    rw [hes.sent, hes.out]
    show some (400, if Runtime.bodyAllowed 400 then st₀.out ++ errorText sw.json _ else []) = _
    rw [hout]
    rfl)
  rw [hans _ _ this]
  rfl

namespace Example

open Baron.HTTPCall (c79Svc c79Get c79Msg c79Zero c79_survives c79_compiles)
open Baron.Encoders.Example (client server getPieces getPieces_ok get_writable get_readable get_sendable noOneofs)

/-- Messages are written as the number of their user, and the client reads that of the user 7. -/
def sw : World (FullMsg Empty) where
  json := Runtime.demoJSON
  jsonErr s := plain s
  empty _ := c79Zero
  readProto _ _ _ m := (m, none)
  writeProto _ m := .ok (match m.fields "UserId".toList with
    | .one (.num i) => HTTP.itoa i.toNat
    | _ => [])
  body := ([], .complete)
  status := 200
  path := []
  writeErr _ := none

def cw : World (FullMsg Empty) := { sw with readProto := fun _ _ s m => (if s = "7".toList then c79Msg [] "" else m, none) }

/-- Counts its calls, answers with the request, and fails if there are 13 numbers. -/
def endpoint (_ : Nat) (_ : GoHTTP.Ctx) (v : Val (FullMsg Empty)) (n : Nat) : Except (Val (FullMsg Empty)) (Val (FullMsg Empty)) × Nat := match v with
  | .msg t m => match m.fields "Nums".toList with
    | .many l => if l.length = 13 then (.error (.err ⟨"unlucky".toList, none, none, some 418⟩), n + 1) else (.ok (.msg t m), n + 1)
    | _ => (.ok (.msg t m), n + 1)
  | v => (.ok v, n + 1)

def fresh : St (FullMsg Empty) := ⟨[], [], none, [], [], [], [], false⟩

def rpc : ServiceMethod := ⟨"Get".toList, Transport.c51Type, Transport.c51Type, [c79Get]⟩

def conv (_ : GoLang.State Empty) : Err := plain "conv".toList

def decoded (q : Http) (vars : List (Str × Str)) (st : St (FullMsg Empty)) : GoHTTP.Ans (FullMsg Empty) (List (Val (FullMsg Empty))) :=
  GoDecode.decode (worldAt sw q) (calls (worldAt sw q) (program c79Svc) 1) server conv (goCamelCase rpc.request.name) rpc.name c79Get vars q.query st

def env (q : Http) : Env (FullMsg Empty) Nat Nat where
  option _ s := s
  decode _ vars _ := match decoded q vars fresh with
    | .ok [v, .nil] _ => .ok v
    | .ok [_, v] _ => .error v
    | _ => .error .nil
  endpoint := endpoint

noncomputable def net (rs : Routes Nat) : Net (FullMsg Empty) Http where
  encode _ _ u _ v := match v with
    | .msg _ msg => match GoClient.run client (encoderCode rpc.request.name c79Get getPieces) (start msg u.path []) with
      | .returned false σ => .ok (σ.http, σ.http.header)
      | _ => .error .nil
    | _ => .error .nil
  send q _ := match reply (serve (env q) (calls (worldAt sw q) (program c79Svc) 2) rs "GET".toList q.path [] fresh 0) with
    | some (code, body) => .ok (code, body, .complete)
    | none => .error .nil

theorem serving : Serving env endpoint [.ext 0] sw c79Svc 0 server conv rpc c79Get where
  endpoint _ := rfl
  option _ o ho := ⟨0, List.mem_singleton.1 ho, rfl⟩
  decode q st vars c v er st' h := by
    have hd : decoded q vars fresh = .ok [v, er] { fresh with closed := true } :=
      GoDecode.decode_again _ _ _ _ _ ⟨'R', [], rfl, by decide⟩ _ _ rfl h fresh
    refine ⟨fun he => ?_, fun he => ?_⟩
    · subst he
      simp only [env, hd]
    · cases er with
      | nil => exact absurd rfl he
      | _ => simp only [env, hd]

theorem wired (rs : Routes Nat) : Wired (net rs) client rpc c79Get getPieces [] [] (fun _ => []) env sw c79Svc 0 rs [] fresh 0 where
  encode c t msg σ h := by
    have h : GoClient.run client (encoderCode rpc.request.name c79Get getPieces) (start msg (basePath c79Get.path) []) = .returned false σ := h
    simp only [net, h]
  send q h code body hr := by
    have hr : reply (serve (env q) (calls (worldAt sw q) (program c79Svc) 2) rs "GET".toList q.path [] fresh 0) = some (code, body) := hr
    simp only [net, hr]

theorem plainLits : ∀ m ∈ c79Svc.methods, ∀ b ∈ m.bindings, Plain (toUpper b.verb) ∧ Plain b.path := by unfold Plain; decide +kernel

theorem namesApart : (c79Svc.methods.map (·.name)).Nodup := by decide +kernel

theorem pathPieces : c79Get.path = templateOf getPieces := by decide +kernel

theorem typed : Encoders.Typed client c79Get := ⟨by decide +kernel, by decide +kernel, fun p hp => by rw [noOneofs] at hp; cases hp⟩

theorem survives : Survives (libOf client server sw (goCamelCase rpc.request.name)) c79Get rpc.name (c79Msg [1, 2, 3] "") := by
  obtain ⟨r, h1, h2⟩ := c79_survives
  exact ⟨r, h1, h2⟩

theorem travels : BodyTravels (libOf client server sw (goCamelCase rpc.request.name)) c79Get rpc.name (c79Msg [1, 2, 3] "") := fun h => absurd rfl h

theorem theRpc : c79Svc.methods = [] ++ rpc :: c79Svc.methods.tail := rfl

theorem theType : goCamelCase rpc.request.name = "R".toList := by decide +kernel

theorem theAnswer : goCamelCase rpc.response.name = "R".toList := by decide +kernel

theorem begins : GoHTTP.Begins rpc.request.name := ⟨'R', [], rfl, by decide⟩

theorem noneBefore : ∀ m' ∈ ([] : List ServiceMethod), ∀ b' ∈ m'.bindings, toUpper b'.verb = toUpper c79Get.verb →
    ∀ qs, b'.path = templateOf qs → TemplateOK qs → Apart qs getPieces := fun _ h => absurd h List.not_mem_nil

theorem theEndpoint : look [("GetEndpoint".toList, GoRoutes.Val.ext (1 : Nat))] (rpc.name ++ chars% "Endpoint") = some (.ext 1) := by
  rw [show rpc.name ++ chars% "Endpoint" = "GetEndpoint".toList by decide +kernel]
  simp [look]

theorem answered (c : GoHTTP.Ctx) : endpoint 1 c (.msg "R".toList (c79Msg [1, 2, 3] "")) 0 = (.ok (.msg "R".toList (c79Msg [1, 2, 3] "")), 1) := by
  have hf : (c79Msg [1, 2, 3] "").fields "Nums".toList = .many [.num 1, .num 2, .num 3] := rfl
  simp only [endpoint, hf]
  rfl

/-- The hypotheses of `C104_call` are met: a call of `Get` with three numbers, which answers with the message of its user. -/
example : ∃ rs o, ∃ st', callClient (net rs) cw (fun w => calls w (program c79Svc) 2) (.lib "httptransport.NewClient.Endpoint".toList [.text "GET".toList, .url ⟨basePath c79Get.path, []⟩,
    .func "EncodeHTTPGetZeroRequest".toList, .func "DecodeHTTPGetResponse".toList, .ext o]) [] (.msg "R".toList (c79Msg [1, 2, 3] "")) fresh =
      .ok [.msg "R".toList (c79Msg [] ""), .nil] st' ∧ st'.closed = true := by
  obtain ⟨rs, o, -, -, h⟩ := C104_call (E := Nat) (S := Nat) ⟨fun _ => .error (plain []), fun _ _ => none⟩ cw sw c79Svc 0 c79_compiles.templates
    plainLits namesApart [("GetEndpoint".toList, .ext 1)] [.ext 0] (C := client) (L := server) (fun _ _ _ => rfl) rfl conv (fun _ => rfl)
    (ms₁ := []) (ms₂ := c79Svc.methods.tail) (m := rpc) (b := c79Get) (bs := []) theRpc rfl begins begins
    getPieces_ok pathPieces noneBefore typed get_writable get_readable
    (fun p hp => by rw [noOneofs] at hp; cases hp) (fun _ => []) (fun _ => HTTPCall.wire_nil) []
  obtain ⟨q, path, h', c', st', -, -, -, -, hc, ha⟩ := h endpoint env serving (net rs) [] [] [] fresh 0 rfl rfl (wired rs) 1 theEndpoint [] fresh (c79Msg [1, 2, 3] "")
    get_sendable survives travels
  rw [theType, theAnswer, show toUpper c79Get.verb = "GET".toList by decide +kernel,
    show "EncodeHTTP".toList ++ rpc.name ++ "ZeroRequest".toList = "EncodeHTTPGetZeroRequest".toList by decide +kernel,
    show "DecodeHTTP".toList ++ rpc.name ++ "Response".toList = "DecodeHTTPGetResponse".toList by decide +kernel] at ha
  exact ⟨rs, o, st', ((ha _ rfl).1 "R".toList (c79Msg [1, 2, 3] "") "7".toList (c79Msg [] "") 1 (answered c') (by decide +kernel) rfl rfl).2, hc⟩

/-- Fails with status 200. -/
def endpoint200 (_ : Nat) (_ : GoHTTP.Ctx) (_ : Val (FullMsg Empty)) (n : Nat) : Except (Val (FullMsg Empty)) (Val (FullMsg Empty)) × Nat :=
  (.error (.err ⟨"lost".toList, none, none, some 200⟩), n + 1)

def env200 (q : Http) : Env (FullMsg Empty) Nat Nat := { env q with endpoint := endpoint200 }

noncomputable def net200 (rs : Routes Nat) : Net (FullMsg Empty) Http where
  encode := (net rs).encode
  send q _ := match reply (serve (env200 q) (calls (worldAt sw q) (program c79Svc) 2) rs "GET".toList q.path [] fresh 0) with
    | some (code, body) => .ok (code, body, .complete)
    | none => .error .nil

theorem serving200 : Serving env200 endpoint200 [.ext 0] sw c79Svc 0 server conv rpc c79Get where
  endpoint _ := rfl
  option := serving.option
  decode := serving.decode

theorem wired200 (rs : Routes Nat) : Wired (net200 rs) client rpc c79Get getPieces [] [] (fun _ => []) env200 sw c79Svc 0 rs [] fresh 0 where
  encode := (wired rs).encode
  send q h code body hr := by
    have hr : reply (serve (env200 q) (calls (worldAt sw q) (program c79Svc) 2) rs "GET".toList q.path [] fresh 0) = some (code, body) := hr
    simp only [net200, hr]

/-- An error that the caller never sees: the endpoint fails with status 200, and the call returns a message and no error. -/
example : ∃ rs o, ∃ st', callClient (net200 rs) cw (fun w => calls w (program c79Svc) 2) (.lib "httptransport.NewClient.Endpoint".toList [.text "GET".toList, .url ⟨basePath c79Get.path, []⟩,
    .func "EncodeHTTPGetZeroRequest".toList, .func "DecodeHTTPGetResponse".toList, .ext o]) [] (.msg "R".toList (c79Msg [1, 2, 3] "")) fresh =
      .ok [.msg "R".toList c79Zero, .nil] st' ∧ st'.closed = true := by
  obtain ⟨rs, o, -, -, h⟩ := C104_call (E := Nat) (S := Nat) ⟨fun _ => .error (plain []), fun _ _ => none⟩ cw sw c79Svc 0 c79_compiles.templates
    plainLits namesApart [("GetEndpoint".toList, .ext 1)] [.ext 0] (C := client) (L := server) (fun _ _ _ => rfl) rfl conv (fun _ => rfl)
    (ms₁ := []) (ms₂ := c79Svc.methods.tail) (m := rpc) (b := c79Get) (bs := []) theRpc rfl begins begins
    getPieces_ok pathPieces noneBefore typed get_writable get_readable
    (fun p hp => by rw [noOneofs] at hp; cases hp) (fun _ => []) (fun _ => HTTPCall.wire_nil) []
  obtain ⟨q, path, h', c', st', -, -, -, -, hc, ha⟩ := h endpoint200 env200 serving200 (net200 rs) [] [] [] fresh 0 rfl rfl (wired200 rs) 1 theEndpoint [] fresh (c79Msg [1, 2, 3] "")
    get_sendable survives travels
  rw [theType, theAnswer, show toUpper c79Get.verb = "GET".toList by decide +kernel,
    show "EncodeHTTP".toList ++ rpc.name ++ "ZeroRequest".toList = "EncodeHTTPGetZeroRequest".toList by decide +kernel,
    show "DecodeHTTP".toList ++ rpc.name ++ "Response".toList = "DecodeHTTPGetResponse".toList by decide +kernel] at ha
  exact ⟨rs, o, st', ((ha _ rfl).2.2.2 _ ⟨"lost".toList, none, none, some 200⟩ 1 c79Zero rfl (.err _) rfl (by
    show (if errorText sw.json ⟨"lost".toList, none, none, some 200⟩ = "7".toList then c79Msg [] "" else c79Zero, none) = (c79Zero, none)
    rw [if_neg (by decide +kernel)])).2, hc⟩

/-! ### A message that the server does not take -/

def put : HTTPBinding := ⟨"post".toList, "/v1/{user_id}".toList, [HTTPCall.c79Id, HTTPCall.c79Note]⟩

def putRpc : ServiceMethod := ⟨"Put".toList, Transport.c51Type, Transport.c51Type, [put]⟩

def putClient : GoClient.Libs Empty := { client with field := look [("UserId".toList, some .int64), ("Note".toList, HTTPCode.baseOf "string".toList)] }

/-- protojson at this server takes nothing. -/
def rw : World (FullMsg Empty) := { sw with readProto := fun _ _ _ m => (m, some (plain "syntax".toList)) }

def putDecoded (q : Http) (vars : List (Str × Str)) (st : St (FullMsg Empty)) : GoHTTP.Ans (FullMsg Empty) (List (Val (FullMsg Empty))) :=
  GoDecode.decode (worldAt rw q) (calls (worldAt rw q) (program c79Svc) 1) server conv (goCamelCase putRpc.request.name) putRpc.name put vars q.query st

def putEnv (q : Http) : Env (FullMsg Empty) Nat Nat where
  option _ s := s
  decode _ vars _ := match putDecoded q vars fresh with
    | .ok [v, .nil] _ => .ok v
    | .ok [_, v] _ => .error v
    | _ => .error .nil
  endpoint := endpoint

noncomputable def putNet (rs : Routes Nat) : Net (FullMsg Empty) Http where
  encode _ _ u _ v := match v with
    | .msg _ msg => match GoClient.run putClient (encoderCode putRpc.request.name put getPieces) (start msg u.path []) with
      | .returned false σ => .ok (σ.http, σ.http.header)
      | _ => .error .nil
    | _ => .error .nil
  send q _ := match reply (serve (putEnv q) (calls (worldAt rw q) (program c79Svc) 2) rs "POST".toList q.path [] fresh 0) with
    | some (code, body) => .ok (code, body, .complete)
    | none => .error .nil

theorem putServing : Serving putEnv endpoint [.ext 0] rw c79Svc 0 server conv putRpc put where
  endpoint _ := rfl
  option _ o ho := ⟨0, List.mem_singleton.1 ho, rfl⟩
  decode q st vars c v er st' h := by
    have hd : putDecoded q vars fresh = .ok [v, er] { fresh with closed := true } :=
      GoDecode.decode_again _ _ _ _ _ ⟨'R', [], rfl, by decide⟩ _ _ rfl h fresh
    refine ⟨fun he => ?_, fun he => ?_⟩
    · subst he
      simp only [putEnv, hd]
    · cases er with
      | nil => exact absurd rfl he
      | _ => simp only [putEnv, hd]

theorem putWired (rs : Routes Nat) : Wired (putNet rs) putClient putRpc put getPieces [] [] (fun _ => []) putEnv rw c79Svc 0 rs [] fresh 0 where
  encode c t msg σ h := by
    have h : GoClient.run putClient (encoderCode putRpc.request.name put getPieces) (start msg (basePath put.path) []) = .returned false σ := h
    simp only [putNet, h]
  send q h code body hr := by
    have hr : reply (serve (putEnv q) (calls (worldAt rw q) (program c79Svc) 2) rs "POST".toList q.path [] fresh 0) = some (code, body) := hr
    simp only [putNet, hr]

theorem putNoOneofs : oneofParams put = [] := by decide +kernel

theorem putTyped : Encoders.Typed putClient put := ⟨by decide +kernel, by decide +kernel, fun p hp => by rw [putNoOneofs] at hp; cases hp⟩

theorem putWritable : Writable put getPieces := by
  refine ⟨fun n hn => ?_, fun l hl => ?_, fun p hp _ => ?_, fun p hp => by rw [putNoOneofs] at hp; cases hp⟩
  · have h : ∀ x ∈ getPieces, ∀ n ∈ x.name?.toList, ∃ p ∈ plainParams put, p.location = "path".toList ∧
      Strs.goCamelCase p.field.name = Strs.goCamelCase n := by decide +kernel
    exact h _ hn n (List.mem_singleton.mpr rfl)
  · have h : ∀ x ∈ getPieces, x.name? = none → '"' ∉ x.text ∧ '\\' ∉ x.text ∧ '\n' ∉ x.text := by decide +kernel
    exact h _ hl rfl
  · have h : ∀ p ∈ plainParams put, '"' ∉ p.field.pbName ∧ '\\' ∉ p.field.pbName ∧ '\n' ∉ p.field.pbName := by decide +kernel
    exact h p hp

theorem putReadable : ∀ p ∈ plainParams put, p.location ≠ "body".toList → Readable p := by
  have h : ∀ p ∈ plainParams put, p.location ≠ "body".toList → (p.location = "path".toList ∨ p.location = "query".toList) ∧
      HTTPCode.compiles (HTTPCode.newField p) = true ∧ (p.field.type.name ∈ Decoders.scalarNames → Decoders.isScalar p.field.type = true) ∧
      (p.field.type.array = true → Decoders.isScalar p.field.type = true → p.field.type.star = false) ∧
      Locals.upper p.field.name = true ∧ '"' ∉ p.field.pbName ∧ '\\' ∉ p.field.pbName ∧ '\n' ∉ p.field.pbName := by decide +kernel
  intro p hp hl
  obtain ⟨h1, h2, h3, h4, h5, h6⟩ := h p hp hl
  exact ⟨h1, h2, h3, h4, Locals.exported_iff.mpr h5, h6⟩

theorem putSendable : Encoders.Sendable putClient.fl put (c79Msg [] "hi") := by
  have hb : plainParams put = [HTTPCall.c79Id, HTTPCall.c79Note] := by decide +kernel
  intro p hp hl
  rw [hb] at hp
  simp only [List.mem_cons, List.not_mem_nil, or_false] at hp
  rcases hp with rfl | rfl
  · refine ⟨.single .int64, by unfold HTTPCode.HasShape; decide +kernel, ?_⟩
    rw [show (c79Msg [] "hi").fields (Strs.goCamelCase _) = .one (.num 7) by decide +kernel]
    show -(2 ^ 63) ≤ (7 : Int) ∧ _; decide
  · exact absurd rfl hl

theorem putTransmitted : ∃ r, HTTPCode.transmitFull server.fl putClient.fzero putClient.addr put.verb put.path (bindingFields put) (bindingOneofs put) (c79Msg [] "hi") = some r := by
  have hu : HTTP.urlParsePath (HTTP.clientPath (HTTPCode.pathEnv server.fl putClient.addr (bindingFields put) (c79Msg [] "hi").fields) put.path) = some "/v1/7".toList := by decide +kernel
  have hv : HTTP.muxVars put.path "/v1/7".toList = some [("user_id".toList, "7".toList)] := by decide +kernel
  unfold HTTPCode.transmitFull
  simp only [hu, hv]
  exact ⟨_, rfl⟩

theorem putBefore : ∀ m' ∈ [rpc], ∀ b' ∈ m'.bindings, toUpper b'.verb = toUpper put.verb →
    ∀ qs, b'.path = templateOf qs → TemplateOK qs → Apart qs getPieces := by
  intro m' hm b' hb hv
  rw [List.mem_singleton.1 hm] at hb
  rw [List.mem_singleton.1 hb] at hv
  exact absurd hv (by decide +kernel)

theorem thePutEndpoint : look [("GetEndpoint".toList, GoRoutes.Val.ext (1 : Nat)), ("PutEndpoint".toList, .ext 2)] (putRpc.name ++ chars% "Endpoint") = some (.ext 2) := by
  rw [show putRpc.name ++ chars% "Endpoint" = "PutEndpoint".toList by decide +kernel]
  simp [look]

/-- The hypotheses of `C104_refused` are met: a call of `Put`, with a body, which the server refuses. -/
example : ∃ rs o, ∃ st', callClient (putNet rs) cw (fun w => calls w (program c79Svc) 2) (.lib "httptransport.NewClient.Endpoint".toList [.text "POST".toList, .url ⟨basePath put.path, []⟩,
    .func "EncodeHTTPPutZeroRequest".toList, .func "DecodeHTTPPutResponse".toList, .ext o]) [] (.msg "R".toList (c79Msg [] "hi")) fresh =
      failed rw cw ⟨"request body '{7,hi}': cannot parse non-json request body: syntax".toList, none, some [], some 400⟩ st' ∧ st'.closed = true := by
  obtain ⟨rs, o, -, -, h⟩ := C104_refused (E := Nat) (S := Nat) ⟨fun _ => .error (plain []), fun _ _ => none⟩ cw rw c79Svc 0 c79_compiles.templates
    plainLits namesApart [("GetEndpoint".toList, .ext 1), ("PutEndpoint".toList, .ext 2)] [.ext 0] (C := putClient) (L := server) (fun _ _ _ => rfl) rfl conv (fun _ => rfl)
    (ms₁ := [rpc]) (ms₂ := []) (m := putRpc) (b := put) (bs := []) rfl rfl begins begins
    getPieces_ok pathPieces putBefore putTyped putWritable putReadable
    (fun p hp => by rw [putNoOneofs] at hp; cases hp) (fun _ => []) (fun _ => HTTPCall.wire_nil) []
  obtain ⟨r, hr⟩ := putTransmitted
  obtain ⟨q, h', st', hc, -, -, ha⟩ := h endpoint putEnv putServing (putNet rs) [] [] [] fresh 0 rfl rfl (putWired rs) 2 thePutEndpoint [] fresh (c79Msg [] "hi")
    putSendable (by decide +kernel) r "{7,hi}".toList (plain "syntax".toList) hr rfl (by decide) rfl
  rw [show goCamelCase putRpc.request.name = "R".toList by decide +kernel, show toUpper put.verb = "POST".toList by decide +kernel,
    show "EncodeHTTP".toList ++ putRpc.name ++ "ZeroRequest".toList = "EncodeHTTPPutZeroRequest".toList by decide +kernel,
    show "DecodeHTTP".toList ++ putRpc.name ++ "Response".toList = "DecodeHTTPPutResponse".toList by decide +kernel,
    show "request body '".toList ++ List.take 8196 "{7,hi}".toList ++ "': cannot parse non-json request body: ".toList ++ (plain "syntax".toList).msg =
      "request body '{7,hi}': cannot parse non-json request body: syntax".toList by decide +kernel] at ha
  exact ⟨rs, o, st', ha, hc⟩

end Example

end Baron.GoExchange
