import Verif.Proofs.GoRoutes
import Verif.Proofs.GoRoutesText
import Verif.Props.GoHTTP
import Verif.Props.Transport

/-!
# C102 The generated HTTP handler and the generated HTTP client as programs
-/

namespace Baron.GoRoutes

open Baron.HTTP (look Piece templateOf TemplateOK muxGo englishNumber)
open Baron.Runtime (Header Err headerSet canonical errorText WireHeader)
open Baron.GoHTTP (Ctx URL Represents ErrorHeaders writeOptions program)
open Baron.Transport (PlainPath pathOf Wellformed Takes FirstWith Bound Fits Route routes methodRoutes firstMatch hit)
open Baron.TT (Occurs render httpRpcs numbered Plain)
open Baron.Svcdef (Service ServiceMethod HTTPBinding)

/-- **C102** `MakeHTTPHandler` and `NewHTTPClient` are written in the transport file as `Func.print` prints them. -/
theorem C102_text (fmt : Str → Str) (pkg : Str) (s : Service) (c : TT.Config) : ∃ txt,
    render fmt pkg s c "baron/NAME.pb.baron.go.tmpl".toList = some txt ∧ Occurs (makeHandler s).print txt ∧ Occurs (newHTTPClient s).print txt := by
  obtain ⟨t, h⟩ := TT.C84_render fmt pkg s c "baron/NAME.pb.baron.go.tmpl".toList (by decide +kernel)
  exact ⟨t, h, handler_occurs h, client_occurs h⟩

variable {E M S : Type}

/-! ## The router -/

theorem routes_map (s : Service) (fields : List (Str × Val E)) (opts : List (Val E)) : (httpRpcs s).flatMap (rpcRoutes fields opts) =
    (routes s).map fun r => (r.verb, r.tmpl, serverOf fields opts r.method r.label) := by
  rw [routes, List.map_flatMap]
  unfold httpRpcs
  congr 1
  funext m
  rw [rpcRoutes, methodRoutes, List.map_map]
  rfl

theorem dispatch_map (verb : Str) (path : List Str) (f : Route → Val E) (rs : List Route) :
    dispatch verb path (rs.map fun r => (r.verb, r.tmpl, f r)) = match firstMatch verb path rs with
      | .handled r vars => some (f r, vars)
      | _ => none := by
  induction rs with
  | nil => rfl
  | cons r rs ih =>
    rw [List.map_cons, dispatch, firstMatch]
    cases muxGo (split '/' r.tmpl) path with
    | none => exact ih
    | some vars =>
      simp only
      by_cases h : r.verb = verb
      · rw [if_pos h, if_pos h]
      · rw [if_neg h, if_neg h]
        exact ih

/-- Some route of the service fits the path, whatever its verb. -/
theorem any_fits (s : Service) (hw : Wellformed s) (segs : List Str) : ((routes s).any fun r => (muxGo (split '/' r.tmpl) ([] :: segs)).isSome) = true ↔
    ∃ m ∈ s.methods, ∃ b ∈ m.bindings, Takes b (toUpper b.verb) segs := by
  rw [List.any_eq_true, Transport.routes_eq]
  constructor
  · rintro ⟨r, hr, hm⟩
    obtain ⟨m, hm', hr⟩ := List.mem_flatMap.1 hr
    obtain ⟨i, hi, hget⟩ := List.mem_iff_getElem.1 hr
    have := Transport.methodRoutes_get m i
    rw [List.getElem?_eq_getElem hi, hget] at this
    cases hb : m.bindings[i]? with
    | none => rw [hb] at this; cases this
    | some b =>
      rw [hb] at this
      simp only [Option.map_some, Option.some.injEq] at this
      have hbm := List.mem_of_getElem? hb
      refine ⟨m, hm', b, hbm, ?_⟩
      rw [← Transport.takes_iff (n := m.name) (l := m.name ++ englishNumber i) (hw m hm' b hbm), ← this]
      rw [hit, hm, this]
      simp
  · rintro ⟨m, hm, b, hb, ht⟩
    obtain ⟨i, hi, he⟩ := List.mem_iff_getElem.1 hb
    refine ⟨⟨toUpper b.verb, b.path, m.name, m.name ++ englishNumber i⟩, List.mem_flatMap.2 ⟨m, hm, ?_⟩, ?_⟩
    · apply List.mem_of_getElem? (i := i)
      rw [Transport.methodRoutes_get, List.getElem?_eq_getElem hi, he]
      rfl
    · have := (Transport.takes_iff (n := m.name) (l := m.name ++ englishNumber i) (hw m hm b hb)).2 ht
      rw [hit, Bool.and_eq_true] at this
      exact this.2

/-! ## Serving -/

/-- A go-kit server with the functions that every generated handler has. -/
def standard : Srv := ⟨[chars% "HTTPHeadersToContext"], [Runtime.contentType], chars% "errorEncoder"⟩

theorem options_standard (env : Env M E S) (opts : List (Val E)) (h : ∀ o ∈ opts, ∃ a, o = .ext a ∧ env.option a standard = standard) :
    optionsOf env (allOptions opts) ⟨[], [], chars% "httptransport.DefaultErrorEncoder"⟩ = some standard := by
  show optionsOf env opts standard = some standard
  induction opts with
  | nil => rfl
  | cons o opts ih =>
    obtain ⟨a, rfl, ha⟩ := h o List.mem_cons_self
    show optionsOf env opts (env.option a standard) = _
    rw [ha]
    exact ih fun o ho => h o (List.mem_cons_of_mem _ ho)

/-- The context of a request: the transport, the path, and the first value of every header under its canonical and its lower-case name;
everything else as before. -/
structure ContextOf (path : Str) (h : Header) (c c' : Ctx) : Prop where
  transport : look c' "transport".toList = some (some "HTTPJSON".toList)
  url : look c' "request-url".toList = some (some path)
  header : ∀ key, key ≠ "transport".toList → key ≠ "request-url".toList → ∀ k vs, (k, vs) ∈ h → (key = k ∨ key = toLower k) →
    look c' key = some (some (vs.headD []))
  rest : ∀ key, key ≠ "transport".toList → key ≠ "request-url".toList → (∀ k vs, (k, vs) ∈ h → key ≠ k ∧ key ≠ toLower k) → look c' key = look c key

/-- What an error comes to: its status, 500 without one, and its headers and text are sent. -/
structure ErrorSent (J : Runtime.ErrJSON) (e : Err) (before after : GoHTTP.St M) : Prop where
  header : ErrorHeaders e before.header after.header
  sent : after.sent = some (e.status.getD 500, after.header)
  out : after.out = before.out ++ errorText J e

/-- A status that net/http can send. -/
def Sendable (e : Err) : Prop := 100 ≤ e.status.getD 500 ∧ e.status.getD 500 ≤ 999

theorem failed_sent (w : GoHTTP.World M) (s : Service) (n : Nat) (c : Ctx) {v : GoHTTP.Val M} {e : Err} (hv : Represents v e) (he : Sendable e)
    (st : GoHTTP.St M) (hs : st.sent = none) (σ : S) :
    ∃ st', ErrorSent w.json e st st' ∧ failed (GoHTTP.calls w (program s) (n + 2)) standard c v st σ = .answered st' σ := by
  obtain ⟨h, hh, hc⟩ := (GoHTTP.C101_error_encoder w s n hv st hs (.ctx c)).1 he
  refine ⟨{ st with header := h, sent := some (e.status.getD 500, h), out := st.out ++ errorText w.json e }, ⟨hh, rfl, rfl⟩, ?_⟩
  unfold failed
  rw [show standard.onError = chars% "errorEncoder" from rfl, hc]

theorem handle_server (env : Env M E S) (k : GoHTTP.Calls M) (e : E) (dec enc : Str) (opts : List (Val E)) (vars : List (Str × Str)) (c : Ctx) (st : GoHTTP.St M) (σ : S) :
    handle env k (.lib (chars% "httptransport.NewServer") (.ext e :: .func dec :: .func enc :: opts)) vars c st σ =
      match optionsOf env opts ⟨[], [], chars% "httptransport.DefaultErrorEncoder"⟩ with
      | some srv => serveHTTP env k e dec enc srv vars c st σ
      | none => .stuck := rfl

/-- The name of a binding's decoder of requests. -/
def requestDecoder (m : ServiceMethod) (i : Nat) : Str := chars% "DecodeHTTP" ++ ((m.name ++ englishNumber i) ++ chars% "Request")

/-- The writer with the content type. -/
def typed (st : GoHTTP.St M) : GoHTTP.St M := { st with header := headerSet st.header "Content-Type".toList "application/json; charset=utf-8".toList }

/-- **C102** The handler that `MakeHTTPHandler` returns, with options that leave the standard functions as they are, for requests with a plain path. If no
binding takes the request, it is refused, with 405 if some binding would with another verb, else with 404, and no endpoint is called. Otherwise it is
for the first binding that takes it, in the order of declaration. That binding's decoder gets the parameters in the path, in the context with the headers. If it fails, the
error is sent and no endpoint is called. Otherwise the endpoint of the rpc is called once, in that context and with what was decoded. Its
error, or the error of marshalling its response, is sent; or else the response, with status 200 and the content type. -/
theorem C102_served (w : World) (hw : GoHTTP.World M) (env : Env M E S) (s : Service) (n : Nat) (hwf : Wellformed s)
    (hlit : ∀ m ∈ s.methods, ∀ b ∈ m.bindings, Plain (toUpper b.verb) ∧ Plain b.path) (fields : List (Str × Val E)) (opts : List (Val E))
    (hopts : ∀ o ∈ opts, ∃ a, o = .ext a ∧ env.option a standard = standard) : ∃ h,
    (makeHandler s).run w [.struct (chars% "Endpoints") fields, .list opts] = .ok [.router] h ∧
    ∀ (verb : Str) (segs : List Str), PlainPath segs → hw.path = pathOf segs → ∀ (c : Ctx) (st : GoHTTP.St M) (σ : S), st.sent = none → WireHeader st.reqHeader →
      ((∀ m ∈ s.methods, ∀ b ∈ m.bindings, ¬ Takes b verb segs) → ∃ code,
        serve env (GoHTTP.calls hw (program s) (n + 2)) h.routes verb (pathOf segs) c st σ = .refused code σ ∧
        ((∃ m ∈ s.methods, ∃ b ∈ m.bindings, Takes b (toUpper b.verb) segs) → code = 405) ∧
        ((∀ m ∈ s.methods, ∀ b ∈ m.bindings, ¬ Takes b (toUpper b.verb) segs) → code = 404)) ∧
      ∀ m i b e, FirstWith s (Takes · verb segs) m i b → look fields (m.name ++ chars% "Endpoint") = some (.ext e) → ∃ vars c',
        (∀ ps, b.path = templateOf ps → TemplateOK ps → ∀ x v, look vars x = some v ↔ Bound ps segs x v) ∧
        ContextOf (pathOf segs) st.reqHeader c c' ∧
        (∀ v er, env.decode (requestDecoder m i) vars c' = .error v → Represents v er → Sendable er → ∃ st', ErrorSent hw.json er st st' ∧
          serve env (GoHTTP.calls hw (program s) (n + 2)) h.routes verb (pathOf segs) c st σ = .answered st' σ) ∧
        ∀ req, env.decode (requestDecoder m i) vars c' = .ok req →
          (∀ v er σ', env.endpoint e c' req σ = (.error v, σ') → Represents v er → Sendable er → ∃ st', ErrorSent hw.json er st st' ∧
            serve env (GoHTTP.calls hw (program s) (n + 2)) h.routes verb (pathOf segs) c st σ = .answered st' σ') ∧
          (∀ t x body σ', env.endpoint e c' req σ = (.ok (.msg t x), σ') → hw.writeProto writeOptions x = .ok body → hw.writeErr body = none →
            serve env (GoHTTP.calls hw (program s) (n + 2)) h.routes verb (pathOf segs) c st σ =
              .answered { typed st with sent := some (200, (typed st).header), out := st.out ++ body } σ') ∧
          (∀ t x er σ', env.endpoint e c' req σ = (.ok (.msg t x), σ') → hw.writeProto writeOptions x = .error er → Sendable er → ∃ st', ErrorSent hw.json er (typed st) st' ∧
            serve env (GoHTTP.calls hw (program s) (n + 2)) h.routes verb (pathOf segs) c st σ = .answered st' σ') := by
  obtain ⟨h, hrun, hroutes⟩ := run_makeHandler w s fields opts hlit
  refine ⟨h, hrun, fun verb segs hp hpath c st σ hs hwire => ?_⟩
  have hsp : split '/' (pathOf segs) = [] :: segs := Transport.split_pathOf hp
  have hcl : HTTP.cleanSegs segs = true := HTTP.cleanSegs_ok _ hp.dots hp.empty
  obtain ⟨hfirst, hnone, -, -⟩ := Transport.C51_first_declared_wins s hwf verb segs hp
  have hserve : ∀ o, Transport.serve s verb (pathOf segs) = o → firstMatch verb ([] :: segs) (routes s) = o := by
    intro o ho
    rw [Transport.serve, hsp, List.tail_cons, if_pos hcl] at ho
    exact ho
  rw [hroutes, routes_map]
  have hS : ∀ k, serve env k ((routes s).map fun r => (r.verb, r.tmpl, serverOf fields opts r.method r.label)) verb (pathOf segs) c st σ =
      match dispatch verb ([] :: segs) ((routes s).map fun r => (r.verb, r.tmpl, serverOf fields opts r.method r.label)) with
      | some (h, vars) => handle env k h vars c st σ
      | none => .refused (if (routes s).any fun r => (muxGo (split '/' r.tmpl) ([] :: segs)).isSome then 405 else 404) σ := by
    intro k
    rw [serve, hsp, List.tail_cons, if_pos hcl, List.any_map]
    rfl
  rw [hS, dispatch_map]
  refine ⟨fun hno => ?_, fun m i b e hf he => ?_⟩
  · rw [hserve _ (hnone.2 hno)]
    refine ⟨_, rfl, fun hex => ?_, fun hall => ?_⟩
    · rw [if_pos ((any_fits s hwf segs).2 hex)]
    · rw [if_neg]
      intro hf
      obtain ⟨m, hm, b, hb, ht⟩ := (any_fits s hwf segs).1 hf
      exact hall m hm b hb ht
  · obtain ⟨vars, hsv, hvars⟩ := hfirst m i b hf
    obtain ⟨c', hc, h1, h2, h3⟩ := GoHTTP.C101_headers hw s n st c hwire
    rw [hserve _ hsv]
    have hhandle : handle env (GoHTTP.calls hw (program s) (n + 2)) (serverOf fields opts m.name (m.name ++ englishNumber i)) vars c st σ =
        match env.decode (requestDecoder m i) vars c' with
        | .error v => failed (GoHTTP.calls hw (program s) (n + 2)) standard c' v st σ
        | .ok req => match env.endpoint e c' req σ with
          | (.error v, σ) => failed (GoHTTP.calls hw (program s) (n + 2)) standard c' v st σ
          | (.ok resp, σ) => match (GoHTTP.calls hw (program s) (n + 2)).call (chars% "EncodeHTTPGenericResponse") [.ctx c', .writer, resp] (typed st) with
            | .ok [v] st => encoded (GoHTTP.calls hw (program s) (n + 2)) standard c' v st σ
            | .panic st => .panicked st σ
            | _ => .stuck := by
      unfold serverOf
      rw [he, Option.getD_some]
      rw [handle_server, options_standard env opts hopts]
      simp only
      unfold serveHTTP
      rw [show standard.before = [chars% "HTTPHeadersToContext"] from rfl]
      unfold befores
      rw [hc]
      rfl
    refine ⟨vars, c', hvars, ⟨h1, hpath ▸ h2, fun key a b => (h3 key a b).1, fun key a b => (h3 key a b).2⟩, fun v er hd hv hsd => ?_, fun req hd => ⟨fun v er σ' hep hv hsd => ?_, fun t x body σ' hep hwp hwe => ?_, fun t x er σ' hep hwp hsd => ?_⟩⟩
    · obtain ⟨st', hsent, hfail⟩ := failed_sent hw s n c' hv hsd st hs σ
      refine ⟨st', hsent, hhandle.trans ?_⟩
      rw [hd]
      exact hfail
    · obtain ⟨st', hsent, hfail⟩ := failed_sent hw s n c' hv hsd st hs σ'
      refine ⟨st', hsent, hhandle.trans ?_⟩
      rw [hd]
      simp only [hep]
      exact hfail
    · refine hhandle.trans ?_
      rw [hd]
      simp only [hep]
      rw [(GoHTTP.C101_response_encoder hw s n (typed st) (.ctx c')).1 t x body hwp, hwe, show (typed st).sent = none from hs]
      rfl
    · obtain ⟨st', hsent, hfail⟩ := failed_sent hw s n c' (.err er) hsd (typed st) hs σ'
      refine ⟨st', hsent, hhandle.trans ?_⟩
      rw [hd]
      simp only [hep]
      rw [(GoHTTP.C101_response_encoder hw s n (typed st) (.ctx c')).2.1 t x er hwp]
      exact hfail

/-! ## The client -/

/-- What `copyURL` returns. -/
def copied (hw : GoHTTP.World M) (s : Service) (n : Nat) (st : GoHTTP.St M) (u : URL) (p : Str) : Option URL :=
  match (GoHTTP.calls hw (program s) (n + 2)).call "copyURL".toList [.urlPtr 0, .text p] { st with urls := [u] } with
  | .ok [.urlPtr i] st => st.urls[i]?
  | _ => none

theorem copied_eq (hw : GoHTTP.World M) (s : Service) (n : Nat) (st : GoHTTP.St M) (u : URL) (p : Str) : copied hw s n st u p = some { u with path := p } := by
  unfold copied
  rw [show "copyURL".toList = chars% "copyURL" from by decide, GoHTTP.C101_copy_url hw s n { st with urls := [u] } 0 u p rfl]
  rfl

theorem look_made (u : URL) (opts : List (Val E)) (base : Vars E) (l : List ServiceMethod) (hinj : ∀ a ∈ l, ∀ b ∈ l, a.name = b.name → a = b) {m : ServiceMethod}
    (hm : m ∈ l) {b : HTTPBinding} {r : List HTTPBinding} (hb : m.bindings = b :: r) :
    look (endpointVars u opts l ++ base) (m.name ++ chars% "ZeroEndpoint") = some (clientOf u opts m b) := by
  induction l with
  | nil => cases hm
  | cons x l ih =>
    by_cases hx : x.name = m.name
    · have := hinj x List.mem_cons_self m hm hx
      subst this
      show look (((x.bindings.take 1).map _ ++ endpointVars u opts l) ++ base) _ = _
      rw [hb]
      exact GoHTTP.look_cons_eq ..
    · have hm' : m ∈ l := (List.mem_cons.1 hm).resolve_left fun h => hx (h ▸ rfl)
      show look (((x.bindings.take 1).map _ ++ endpointVars u opts l) ++ base) _ = _
      have ih := ih (fun a ha b hb => hinj a (List.mem_cons_of_mem _ ha) b (List.mem_cons_of_mem _ hb)) hm'
      cases hxb : x.bindings with
      | nil => exact ih
      | cons y ys =>
        rw [List.append_assoc]
        show look ((x.name ++ chars% "ZeroEndpoint", _) :: (endpointVars u opts l ++ base)) _ = _
        rw [GoHTTP.look_cons_ne _ _ (eq_false fun h => hx (List.append_cancel_right h))]
        exact ih

theorem name_inj {l : List ServiceMethod} (h : (l.map (·.name)).Nodup) {a b : ServiceMethod} (ha : a ∈ l) (hb : b ∈ l) (hab : a.name = b.name) : a = b := by
  induction l with
  | nil => cases ha
  | cons x xs ih =>
    rw [List.map_cons, List.nodup_cons] at h
    rcases List.mem_cons.1 ha with rfl | ha'
    · rcases List.mem_cons.1 hb with rfl | hb'
      · rfl
      · exact absurd (List.mem_map.2 ⟨b, hb', hab.symm⟩) h.1
    · rcases List.mem_cons.1 hb with rfl | hb'
      · exact absurd (List.mem_map.2 ⟨a, ha', hab⟩) h.1
      · exact ih h.2 ha' hb'

/-- **C102** `NewHTTPClient`, for an address with `http://` put before it unless it begins with `http`. If the address does not parse, it returns that error. A service
without bindings makes it panic. Otherwise it returns endpoints: for every rpc with bindings, and for no other, a client with the verb of its
first binding in upper case, the parsed address with the path of that binding up to the first parameter, the encoder of that binding, the decoder of the
rpc, and the options. -/
theorem C102_client (w : World) (hw : GoHTTP.World M) (s : Service) (n : Nat) (st : GoHTTP.St M) (hcopy : w.copyURL = copied hw s n st)
    (hd : (s.methods.map (·.name)).Nodup) (hlit : ∀ m ∈ s.methods, ∀ b ∈ m.bindings, Plain (toUpper b.verb) ∧ Plain b.path) (inst addr : Str)
    (haddr : ("http".toList <+: inst ∧ addr = inst) ∨ (¬ "http".toList <+: inst ∧ addr = "http://".toList ++ inst)) (opts : List (Val E)) :
    (∀ e, w.parseURL addr = .error e → ∃ h, (newHTTPClient s).run w [.text inst, .list opts] = .ok [.nil, .err e] h) ∧
    ∀ u, w.parseURL addr = .ok u →
      ((∀ m ∈ s.methods, m.bindings = []) → (newHTTPClient s).run w [.text inst, .list opts] = .panic) ∧
      ((∃ m ∈ s.methods, m.bindings ≠ []) → ∃ fields h, (newHTTPClient s).run w [.text inst, .list opts] = .ok [.struct "Endpoints".toList fields, .nil] h ∧
        ∀ m ∈ s.methods, look fields (m.name ++ "Endpoint".toList) = match m.bindings with
          | [] => none
          | b :: _ => some (.lib "httptransport.NewClient.Endpoint".toList ([.text (toUpper b.verb), .url { u with path := b.path.takeWhile (· ≠ '{') },
              .func ("EncodeHTTP".toList ++ m.name ++ "ZeroRequest".toList), .func ("DecodeHTTP".toList ++ m.name ++ "Response".toList)] ++ opts))) := by
  have hc : ∀ u p, w.copyURL u p = some { u with path := p } := fun u p => by rw [hcopy, copied_eq]
  have ha : addressOf inst = addr := by
    unfold addressOf
    rcases haddr with ⟨h, rfl⟩ | ⟨h, rfl⟩
    · exact if_pos (List.isPrefixOf_iff_prefix.2 h)
    · exact if_neg fun h' => h (List.isPrefixOf_iff_prefix.1 h')
  have hsub : ∀ p : Str, Plain p → Plain (p.takeWhile (· ≠ '{')) := fun p hp =>
    ⟨fun h => hp.1 ((List.takeWhile_sublist _).mem h), fun h => hp.2.1 ((List.takeWhile_sublist _).mem h), fun h => hp.2.2 ((List.takeWhile_sublist _).mem h)⟩
  have hrun := run_newHTTPClient w hc s inst opts fun m hm b hb => ⟨(hlit m hm b hb).1, hsub _ (hlit m hm b hb).2⟩
  rw [ha] at hrun
  refine ⟨fun e he => ⟨_, hrun.trans (by rw [he])⟩, fun u hu => ?_⟩
  rw [hu] at hrun
  simp only at hrun
  refine ⟨fun hall => ?_, fun ⟨m₀, hm₀, hb₀⟩ => ?_⟩
  · rw [if_pos] at hrun
    · exact hrun
    · rw [List.isEmpty_iff]
      exact List.filter_eq_nil_iff.2 fun m hm => by rw [hall m hm]; decide
  · have hmem : ∀ m ∈ s.methods, m.bindings ≠ [] → m ∈ httpRpcs s := fun m hm hb => List.mem_filter.2 ⟨hm, by
      cases h : m.bindings with
      | nil => exact absurd h hb
      | cons b r => rfl⟩
    rw [if_neg] at hrun
    · refine ⟨_, _, hrun, fun m hm => ?_⟩
      have hinj : ∀ a ∈ httpRpcs s, ∀ b ∈ httpRpcs s, a.name = b.name → a = b := fun a ha b hb h =>
        name_inj hd (List.mem_filter.1 ha).1 (List.mem_filter.1 hb).1 h
      cases hb : m.bindings with
      | nil =>
        have : ∀ l : List ServiceMethod, (∀ x ∈ l, x.name ≠ m.name) → ∀ f : ServiceMethod → Val E, look (l.map fun x => (x.name ++ chars% "Endpoint", f x)) (m.name ++ chars% "Endpoint") = none := by
          intro l hl f
          induction l with
          | nil => rfl
          | cons x l ih =>
            rw [List.map_cons, GoHTTP.look_cons_ne _ _ (eq_false fun h => hl x List.mem_cons_self (List.append_cancel_right h))]
            exact ih fun y hy => hl y (List.mem_cons_of_mem _ hy)
        refine this _ (fun x hx h => ?_) _
        have he := name_inj hd (List.mem_filter.1 hx).1 hm h
        subst he
        have := (List.mem_filter.1 hx).2
        rw [hb] at this
        cases this
      | cons b r =>
        have hm' := hmem m hm (by rw [hb]; nofun)
        have := Transport.look_map_nodup (fun x : ServiceMethod => x.name ++ chars% "Endpoint")
          (fun x => ident (endpointVars u opts (httpRpcs s).reverse ++ clientVars u addr opts) (x.name ++ chars% "ZeroEndpoint")) (httpRpcs s)
          (fun a ha b hb h => hinj a ha b hb (List.append_cancel_right h)) m hm'
        refine this.trans (congrArg some ?_)
        unfold ident
        rw [look_made u opts _ _ (fun a ha b hb => hinj a (List.mem_reverse.1 ha) b (List.mem_reverse.1 hb)) (List.mem_reverse.2 hm') hb]
        unfold clientOf
        simp only [List.append_assoc]
        rfl
    · rw [List.isEmpty_iff]
      exact List.ne_nil_of_mem (hmem m₀ hm₀ hb₀)

theorem received_decoded (w : GoHTTP.World M) (t : Str) (st : GoHTTP.St M) : received (GoHTTP.decoded w t) st = .ok (GoHTTP.decoded w t) { st with closed := true } := by
  unfold GoHTTP.decoded
  by_cases h : w.status = 200
  · simp only [if_pos h]
    cases (w.readProto GoHTTP.readOptions t w.body.1 (w.empty t)).2 <;> rfl
  · simp only [if_neg h]
    rfl

/-- **C102** A call through an endpoint of this client, with the option that `CtxValuesToSend` makes of some keys. If the request cannot be made, that error is returned and
nothing is sent. Otherwise it is sent once, with the context's values under the canonical keys in place of the encoder's headers of these names.
An error of the exchange is returned. Else the answer is read as `DecodeHTTP…Response` does, and the body is closed. -/
theorem C102_client_call {Q : Type} (hw : GoHTTP.World M) (s : Service) (n : Nat) (hd : (s.methods.map (·.name)).Nodup) {m : ServiceMethod} (hm : m ∈ s.methods)
    {b : HTTPBinding} {r : List HTTPBinding} (hb : m.bindings = b :: r) (ht : GoHTTP.Begins m.response.name) (keys : List Str) (u : URL) : ∃ o : GoHTTP.Val M,
    (∀ st, (GoHTTP.calls hw (program s) (n + 2)).call "CtxValuesToSend".toList [.strs keys] st = .ok [o] st) ∧
    ∀ (net : Net M Q) (c : Ctx) (req : GoHTTP.Val M) (st : GoHTTP.St M) (v : Val (GoHTTP.Val M)),
      v = .lib "httptransport.NewClient.Endpoint".toList [.text (toUpper b.verb), .url u,
        .func ("EncodeHTTP".toList ++ m.name ++ "ZeroRequest".toList), .func ("DecodeHTTP".toList ++ m.name ++ "Response".toList), .ext o] →
      (∀ e, net.encode ("EncodeHTTP".toList ++ m.name ++ "ZeroRequest".toList) (toUpper b.verb) u c req = .error e →
        callClient net hw (fun w => GoHTTP.calls w (program s) (n + 2)) v c req st = .ok [.nil, e] st) ∧
      ∀ q h, net.encode ("EncodeHTTP".toList ++ m.name ++ "ZeroRequest".toList) (toUpper b.verb) u c req = .ok (q, h) → ∃ h',
        (∀ key, look h' key = match keys.reverse.findSome? (fun k => if canonical k = key then GoHTTP.stringOf c k else none) with
          | some v => some [v]
          | none => look h key) ∧
        (∀ e, net.send q h' = .error e → callClient net hw (fun w => GoHTTP.calls w (program s) (n + 2)) v c req st = .ok [.nil, e] { st with reqHeader := h' }) ∧
        ∀ status body, net.send q h' = .ok (status, body, .complete) →
          callClient net hw (fun w => GoHTTP.calls w (program s) (n + 2)) v c req st =
            .ok (GoHTTP.decoded { hw with status := status, body := (body, .complete) } (Strs.goCamelCase m.response.name)) { st with reqHeader := h', closed := true } := by
  obtain ⟨f, hf, happ⟩ := GoHTTP.C101_send hw s n keys
  refine ⟨.lib (chars% "httptransport.ClientBefore") [f], hf, ?_⟩
  rintro net c req st v rfl
  have hcall : ∀ k : GoHTTP.World M → GoHTTP.Calls M, callClient net hw k (.lib "httptransport.NewClient.Endpoint".toList [.text (toUpper b.verb), .url u,
        .func ("EncodeHTTP".toList ++ m.name ++ "ZeroRequest".toList), .func ("DecodeHTTP".toList ++ m.name ++ "Response".toList), .ext (.lib (chars% "httptransport.ClientBefore") [f])]) c req st =
      match net.encode ("EncodeHTTP".toList ++ m.name ++ "ZeroRequest".toList) (toUpper b.verb) u c req with
        | .error v => .ok [.nil, v] st
        | .ok (q, h) => match clientBefores hw (k hw) [f] c { st with reqHeader := h } with
          | .ok c st => match net.send q st.reqHeader with
            | .error v => .ok [.nil, v] st
            | .ok (status, body) => match (k { hw with status := status, body := body }).call ("DecodeHTTP".toList ++ m.name ++ "Response".toList) [.ctx c, .response] st with
              | .ok vs st => received vs st
              | .panic st => .panic st
              | .stuck => .stuck
          | .panic st => .panic st
          | .stuck => .stuck := fun k => rfl
  rw [hcall]
  refine ⟨fun e he => by rw [he], fun q h hq => ?_⟩
  rw [hq]
  obtain ⟨h', ha, hl⟩ := happ hw c { st with reqHeader := h }
  have hbef : clientBefores hw (GoHTTP.calls hw (program s) (n + 2)) [f] c { st with reqHeader := h } = .ok c { st with reqHeader := h' } := by
    unfold clientBefores
    rw [ha]
    rfl
  refine ⟨h', hl, fun e he => ?_, fun status body hs => ?_⟩
  · simp only [hbef, he]
  · simp only [hbef, hs]
    obtain ⟨res, hr, -, -, hk⟩ := GoHTTP.C101_decode_response { hw with status := status, body := (body, .complete) } s n hd hm (by rw [hb]; nofun) ht { st with reqHeader := h' } (.ctx c)
    rw [show "DecodeHTTP".toList ++ m.name ++ "Response".toList = GoHTTP.decoderName m by unfold GoHTTP.decoderName; simp only [List.append_assoc]; rfl, hr, hk rfl]
    exact received_decoded _ _ _

/-! ## An example -/

namespace Example

open Baron.TT.Example (third rpcC rpcB pieces)
open Baron.GoHTTP.Example (world start missing)

def addresses : World where
  parseURL a := if a = "http://bad".toList then .error missing else .ok ⟨"/base".toList, a⟩
  copyURL := copied world third 0 start

/-- The decoder cannot read a parameter `bad`; the endpoint `2` fails, others answer with what was decoded. Calls are recorded. -/
def env : Env Str Nat (List Nat) where
  option _ s := s
  decode _ vars _ := if look vars "my_id".toList = some "bad".toList then .error (.err missing) else .ok (.msg "In".toList ((look vars "my_id".toList).getD "none".toList))
  endpoint e _ v s := (if e = 2 then .error (GoHTTP.httpErr missing 404 []) else .ok v, e :: s)

def fields : List (Str × Val Nat) := [("BEndpoint".toList, .ext 2), ("CEndpoint".toList, .ext 3)]

/-- Status, headers and body of what is sent, or the status of a refusal, and the calls. -/
structure Seen where
  code : Nat
  header : List (Str × List Str)
  body : Str
  called : List Nat
deriving DecidableEq

def seen : Outcome Str (List Nat) → Option Seen
  | .answered st s => st.sent.map fun x => ⟨x.1, x.2, st.out, s⟩
  | .refused code s => some ⟨code, [], [], s⟩
  | _ => none

def routesOf : Ans Nat (List (Val Nat)) → Routes Nat
  | .ok [.router] st => st.routes
  | _ => []

def ask (verb path : Str) : Option Seen :=
  seen (serve env (GoHTTP.calls { world with path := path } (program third) 2) (routesOf ((makeHandler third).run addresses [.struct (chars% "Endpoints") fields, .list [.ext 0]]))
    verb path [] start [])

example : ask "POST".toList "/c/7/x".toList = some ⟨200, [("Content-Type".toList, ["application/json; charset=utf-8".toList]), ("X-Before".toList, ["1".toList])], "7".toList, [3]⟩ := by
  decide +kernel

example : (ask "POST".toList "/c/bad/x".toList).map (fun x => (x.code, x.body, x.called)) = some (500, "{no such user".toList, []) := by decide +kernel
example : (ask "GET".toList "/b".toList).map (fun x => (x.code, x.body, x.called)) = some (404, "{no such user".toList, [2]) := by decide +kernel
example : (ask "GET".toList "/c/7/x".toList).map (fun x => (x.code, x.body, x.called)) = some (405, [], []) := by decide +kernel
example : (ask "GET".toList "/d".toList).map (fun x => (x.code, x.body, x.called)) = some (404, [], []) := by decide +kernel

/-- The premises about the service. -/
example : Wellformed third ∧ (∀ m ∈ third.methods, ∀ b ∈ m.bindings, Plain (toUpper b.verb) ∧ Plain b.path) ∧ (third.methods.map (·.name)).Nodup := by
  refine ⟨?_, ?_, by decide +kernel⟩
  · intro m hm b hb
    have hone : ∀ x : Str, x ∈ ["c".toList, "b".toList] → TemplateOK [.lit x] := by
      intro x hx
      refine ⟨fun s hs => ?_, fun n hn => ?_, List.nodup_nil, List.cons_ne_nil _ _⟩
      · cases List.mem_singleton.1 hs
        have : ∀ x ∈ ["c".toList, "b".toList], '/' ∉ x ∧ '{' ∉ x ∧ '}' ∉ x := by decide +kernel
        rw [HTTP.not_braced_iff]
        exact this x hx
      · cases List.mem_singleton.1 hn
    have hpieces : TemplateOK pieces := by
      refine ⟨fun s hs => ?_, fun n hn => ?_, by decide +kernel, by decide⟩
      · have : ∀ p ∈ pieces, ∀ s ∈ [p.text], p.name? = none → '/' ∉ s ∧ '{' ∉ s ∧ '}' ∉ s := by decide +kernel
        rw [HTTP.not_braced_iff]
        exact this _ hs s (List.mem_singleton.mpr rfl) rfl
      · have : ∀ p ∈ pieces, ∀ s ∈ p.name?.toList, '/' ∉ s ∧ ('{' ∉ s ∧ '}' ∉ s) ∧ s ≠ [] := by decide +kernel
        rw [HTTP.not_braced_iff]
        exact this _ hn n (List.mem_singleton.mpr rfl)
    have : b.path = templateOf [.lit "c".toList] ∨ b.path = templateOf [.lit "b".toList] ∨ b.path = templateOf pieces := by
      have : ∀ m ∈ third.methods, ∀ b ∈ m.bindings, b.path = templateOf [.lit "c".toList] ∨ b.path = templateOf [.lit "b".toList] ∨ b.path = templateOf pieces := by decide +kernel
      exact this m hm b hb
    rcases this with h | h | h
    · exact ⟨_, h, hone _ (by decide)⟩
    · exact ⟨_, h, hone _ (by decide)⟩
    · exact ⟨_, h, hpieces⟩
  · unfold Plain
    decide +kernel

/-- The premises about a request. -/
example : PlainPath ["c".toList, "7".toList, "x".toList] ∧ start.sent = none ∧ WireHeader start.reqHeader ∧ look fields (rpcC.name ++ chars% "Endpoint") = some (.ext 3) ∧
    Sendable missing := by
  refine ⟨⟨by decide, by decide +kernel, by decide +kernel, by decide +kernel⟩, rfl, ⟨fun k vs h => ?_, by decide +kernel⟩, rfl, by unfold Sendable; decide⟩
  cases List.mem_singleton.mp h
  decide +kernel

/-- The client's endpoints by name, with verb, path, encoder and decoder. -/
def made : Ans Nat (List (Val Nat)) → List (Str × Str × Str × Str × Str)
  | .ok [.struct _ fs, .nil] _ => fs.filterMap fun f => match f.2 with
    | .lib _ [.text v, .url u, .func enc, .func dec, .ext _] => some (f.1, v, u.path, enc, dec)
    | _ => none
  | _ => []

example : made ((newHTTPClient third).run addresses [.text "h:80".toList, .list [.ext 1]]) =
    [("CEndpoint".toList, "GET".toList, "/c".toList, "EncodeHTTPCZeroRequest".toList, "DecodeHTTPCResponse".toList),
     ("BEndpoint".toList, "GET".toList, "/b".toList, "EncodeHTTPBZeroRequest".toList, "DecodeHTTPBResponse".toList)] := by decide +kernel

/-- A network that answers requests with a body by it, and others with 404. -/
def net : Net Str Str where
  encode enc _ u _ v := match v with
    | .msg _ x => .ok (u.path ++ (enc ++ x), [])
    | _ => .error (.err missing)
  send q h := .ok (if look h "User".toList = some ["u1".toList] then 200 else 404, q, .complete)

def reply : GoHTTP.Ans Str (List (GoHTTP.Val Str)) → Option (Str × Bool)
  | .ok [.msg t x, .nil] st => some (t ++ x, st.closed)
  | .ok [.nil, .err e] st => some (e.msg, st.closed)
  | _ => none

/-- A client of an rpc that sends the key `user`. -/
def clientB (opts : List (GoHTTP.Val Str)) : Val (GoHTTP.Val Str) :=
  .lib (chars% "httptransport.NewClient.Endpoint") ([.text "GET".toList, .url ⟨"/b".toList, "h".toList⟩, .func "EncodeHTTPBZeroRequest".toList, .func "DecodeHTTPBResponse".toList] ++ opts.map .ext)

def sending : List (GoHTTP.Val Str) := match (GoHTTP.calls world (program third) 2).call (chars% "CtxValuesToSend") [.strs ["user".toList]] start with
  | .ok l _ => l
  | _ => []

example : reply (callClient net world (fun w => GoHTTP.calls w (program third) 2) (clientB sending) [("user".toList, some "u1".toList)] (.msg "In".toList "q".toList) start) =
    some ("Out/bEncodeHTTPBZeroRequestq".toList, true) := by decide +kernel
example : (reply (callClient net world (fun w => GoHTTP.calls w (program third) 2) (clientB []) [("user".toList, some "u1".toList)] (.msg "In".toList "q".toList) start)).map (·.2) =
    some true := by decide +kernel
example : reply (callClient net world (fun w => GoHTTP.calls w (program third) 2) (clientB sending) [("user".toList, some "u1".toList)] .nil start) =
    some ("no such user".toList, false) := by decide +kernel

end Example

end Baron.GoRoutes
