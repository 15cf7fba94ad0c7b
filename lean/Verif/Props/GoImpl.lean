import Verif.Model.GoImpl
import Verif.Props.GoExchange
import Verif.Props.GoFunc

/-!
# C106 An HTTP call is one call of the implementation
-/

namespace Baron.GoExchange

open Baron.Svcdef hiding newField
open Baron.HTTP (look Piece TemplateOK templateOf basePath)
open Baron.HTTPCode (FullMsg bindingFields bindingOneofs)
open Baron.HTTPCall (Survives BodyTravels)
open Baron.Runtime (Header Err WireHeader canonical)
open Baron.GoHTTP (World Val St Represents Begins program calls readOptions writeOptions)
open Baron.Decoders (Readable ReadableOneof Leftovers plainParams oneofParams)
open Baron.Encoders (Typed Writable)
open Baron.GoClient (Http)
open Baron.GoRoutes (makeHandler ContextOf callClient Net Env)
open Baron.Transport (Wellformed Apart)
open Baron.Strs (goCamelCase)
open Baron.TT (Plain)
open Baron.GoFunc (Comes Ordinary Implements requestType responseType)

variable {F : Type}

theorem look_fields (fs : List (Str × Endpoint F)) (key : Str) : look (endpointFields fs) key = (look fs key).map .ext := by
  unfold endpointFields
  induction fs with
  | nil => rfl
  | cons x fs ih =>
    rw [List.map_cons, HTTP.look_cons, HTTP.look_cons, ih]
    by_cases h : x.1 = key <;> simp [h]

/-- The fields of the endpoints that `NewEndpoints` makes. -/
theorem endpoint_fields {M C E : Type} {w : GoFunc.World M C E} {pkg : Str} {s : Service} {cfg : TT.Config} (ho : Ordinary pkg s) (hw : Implements w s) :
    ∃ fs : List (Str × GoFunc.Val M C E),
      (∀ h, Comes w (GoFunc.program pkg s cfg) (fun k => k.invoke (.func (chars% "server.NewEndpoints")) [.service] h) (.ok [.struct (chars% "pb.Endpoints") fs] h)) ∧
      ∀ m ∈ s.methods, ∃ e, look fs (m.name ++ chars% "Endpoint") = some e ∧
        ∀ c r h, Comes w (GoFunc.program pkg s cfg) (fun k => k.invoke e [.ctx c, .msg (requestType m) r] h)
          (.ok (GoFunc.answer m (w.impl h ⟨m.name, c, r⟩)) (h ++ [.call ⟨m.name, c, r⟩])) := by
  refine ⟨s.methods.map fun m : ServiceMethod => (m.name ++ chars% "Endpoint", GoFunc.madeEndpoint (.service : GoFunc.Val M C E) m), fun h => GoFunc.comes 2 fun n => ?_, fun m hm =>
    ⟨GoFunc.madeEndpoint .service m, GoFunc.field_look ho hm, fun c r h => GoFunc.comes 2 fun n => ?_⟩⟩
  · exact GoFunc.new_endpoints (k := GoFunc.calls w (GoFunc.program pkg s cfg) n) ho
  · exact GoFunc.endpoint_call (k := GoFunc.calls w (GoFunc.program pkg s cfg) (n + 1)) (a := w.impl h ⟨m.name, c, r⟩) (ho.names m hm).2.1
      (GoFunc.service_method (pkg := pkg) (cfg := cfg) (k := GoFunc.calls w (GoFunc.program pkg s cfg) n) hw hm)

/-- **C106** A call through the client's endpoint for an rpc, of which every program is the generated one, as in C104, where the handler is made of the endpoints that
`NewEndpoints` makes of the implementation, and these run as their programs: it is exactly one call of the implementation's method of that rpc, with a message of exactly the
content sent, in a context with what arrived of the selected values. What the implementation returns may depend on all that happened before. Its response, as protojson writes
and reads it, is what the caller gets, or, if it fails or its response is not written, an error with that status and text, unless
that status is 200: then the caller gets what protojson reads of the text, as a response. -/
theorem C106_call {pkg : Str} {cfg : TT.Config} (iw : GoFunc.World (FullMsg F) GoHTTP.Ctx Err) (w : GoRoutes.World) (cw sw : World (FullMsg F)) (s : Service) (n : Nat)
    (ho : Ordinary pkg s) (hi : Implements iw s) (hwf : Wellformed s)
    (hlit : ∀ m ∈ s.methods, ∀ b ∈ m.bindings, Plain (toUpper b.verb) ∧ Plain b.path) (hd : (s.methods.map (·.name)).Nodup)
    (opts : List (GoRoutes.Val (Endpoint F))) {C : GoClient.Libs F} {L : GoLang.Libs F} (hL : Leftovers L) (hfl : C.fl = L.fl)
    (conv : GoLang.State F → Err) (hconv : ∀ σ, (conv σ).status = none) {ms₁ ms₂ : List ServiceMethod} {m : ServiceMethod} {b : HTTPBinding} {bs : List HTTPBinding}
    (hms : s.methods = ms₁ ++ m :: ms₂) (hb : m.bindings = b :: bs) (hreq : Begins m.request.name) (hresp : Begins m.response.name)
    {ps : List Piece} (hok : TemplateOK ps) (hps : b.path = templateOf ps)
    (hapart : ∀ m' ∈ ms₁, ∀ b' ∈ m'.bindings, toUpper b'.verb = toUpper b.verb → ∀ qs, b'.path = templateOf qs → TemplateOK qs → Apart qs ps)
    (htyped : Typed C b) (hwrite : Writable b ps) (hpl : ∀ p ∈ plainParams b, p.location ≠ "body".toList → Readable p)
    (hon : ∀ p ∈ oneofParams b, p.location = "query".toList → ReadableOneof p) (carry : Header → Header) (hcarry : ∀ h, WireHeader (carry h)) (keys : List Str) :
    ∃ fs rs o, (∀ h, Comes iw (GoFunc.program pkg s cfg) (fun k => k.invoke (.func (chars% "server.NewEndpoints")) [.service] h) (.ok [.struct (chars% "pb.Endpoints") fs] h)) ∧
      (∃ h, (makeHandler s).run w [.struct (chars% "Endpoints") (endpointFields fs), .list opts] = .ok [.router] h ∧ h.routes = rs) ∧
      (∀ st, (calls cw (program s) (n + 2)).call "CtxValuesToSend".toList [.strs keys] st = .ok [o] st) ∧
      ∀ endpoint, Runs iw (GoFunc.program pkg s cfg) endpoint → ∀ (env : Http → Env (FullMsg F) (Endpoint F) (History F)), Serving env endpoint opts sw s n L conv m b →
        ∀ (net : Net (FullMsg F) Http) (raw rest : Str) (c₀ : GoHTTP.Ctx) (st₀ : St (FullMsg F)) (hist : History F),
        st₀.sent = none → st₀.out = [] → Wired net C m b ps raw rest carry env sw s n rs c₀ st₀ hist →
        ∀ (c : GoHTTP.Ctx) (st : St (FullMsg F)) (msg : FullMsg F),
        Encoders.Sendable C.fl b msg → Survives (libOf C L sw (goCamelCase m.request.name)) b m.name msg → BodyTravels (libOf C L sw (goCamelCase m.request.name)) b m.name msg →
        ∃ q : Http, ∃ path h' c' st', q.path = path ∧ Transport.clientRequest (HTTPCode.pathEnv L.fl C.addr (bindingFields b) msg.fields) m = some (toUpper b.verb, path) ∧
          (∀ key, look h' key = match keys.reverse.findSome? (fun k => if canonical k = key then GoHTTP.stringOf c k else none) with
            | some v => some [v]
            | none => if key = "Request-Url".toList then some [basePath b.path] else if key = "Transport".toList then some ["HTTPJSON".toList] else none) ∧
          ContextOf path (carry h') c₀ c' ∧ st'.closed = true ∧
          ∀ answer, answer = callClient net cw (fun w => calls w (program s) (n + 2)) (.lib "httptransport.NewClient.Endpoint".toList [.text (toUpper b.verb), .url ⟨basePath b.path, rest⟩,
              .func ("EncodeHTTP".toList ++ m.name ++ "ZeroRequest".toList), .func ("DecodeHTTP".toList ++ m.name ++ "Response".toList), .ext o])
              c (.msg (goCamelCase m.request.name) msg) st → ∀ call : GoFunc.Call (FullMsg F) GoHTTP.Ctx, call = ⟨m.name, c', some msg⟩ →
            (∀ y body y', iw.impl hist call = (some y, none) → sw.writeProto writeOptions y = .ok body → sw.writeErr body = none →
              cw.readProto readOptions (goCamelCase m.response.name) body (cw.empty (goCamelCase m.response.name)) = (y', none) →
              Leaves env sw s n rs b q (carry h') c₀ st₀ hist (hist ++ [.call call]) ∧ answer = .ok [.msg (goCamelCase m.response.name) y', .nil] st') ∧
            (∀ x er, iw.impl hist call = (x, some er) → GoRoutes.Sendable er → er.status.getD 500 ≠ 200 →
              Leaves env sw s n rs b q (carry h') c₀ st₀ hist (hist ++ [.call call]) ∧ answer = failed sw cw er st') ∧
            (∀ y er, iw.impl hist call = (some y, none) → sw.writeProto writeOptions y = .error er → GoRoutes.Sendable er → er.status.getD 500 ≠ 200 →
              Leaves env sw s n rs b q (carry h') c₀ st₀ hist (hist ++ [.call call]) ∧ answer = failed sw cw er st') ∧
            ∀ x er y', iw.impl hist call = (x, some er) → er.status = some 200 →
              cw.readProto readOptions (goCamelCase m.response.name) (Runtime.errorText sw.json er) (cw.empty (goCamelCase m.response.name)) = (y', none) →
              Leaves env sw s n rs b q (carry h') c₀ st₀ hist (hist ++ [.call call]) ∧ answer = .ok [.msg (goCamelCase m.response.name) y', .nil] st' := by
  obtain ⟨fs, hnew, hfs⟩ := endpoint_fields (cfg := cfg) ho hi
  obtain ⟨rs, o, hmake, ho', hcall⟩ := C104_call w cw sw s n hwf hlit hd (endpointFields fs) opts hL hfl conv hconv hms hb hreq hresp hok hps hapart htyped hwrite hpl hon carry hcarry keys
  refine ⟨fs, rs, o, hnew, hmake, ho', fun endpoint hruns env hserv net raw rest c₀ st₀ hist hsent hout hwired c st msg hsend hsurv hbody => ?_⟩
  have hm : m ∈ s.methods := by rw [hms]; exact List.mem_append_right _ List.mem_cons_self
  obtain ⟨e, he, hinv⟩ := hfs m hm
  obtain ⟨q, path, h', c', st', hq, hpath, hlook, hctx, hcl, hans⟩ := hcall endpoint env hserv net raw rest c₀ st₀ hist hsent hout hwired e
    (by rw [look_fields, he]; rfl) c st msg hsend hsurv hbody
  refine ⟨q, path, h', c', st', hq, hpath, hlook, hctx, hcl, ?_⟩
  rintro answer ha call rfl
  obtain ⟨h1, h2, h3, h4⟩ := hans answer ha
  have hcomes := hinv c' (some msg) hist
  have hresponse : ∀ y, iw.impl hist ⟨m.name, c', some msg⟩ = (some y, none) →
      endpoint e c' (.msg (goCamelCase m.request.name) msg) hist = (.ok (.msg (goCamelCase m.response.name) y), hist ++ [.call ⟨m.name, c', some msg⟩]) := by
    intro y hy
    rw [hy] at hcomes
    exact hruns.response _ _ _ _ _ _ _ _ hcomes
  have herror : ∀ x er, iw.impl hist ⟨m.name, c', some msg⟩ = (x, some er) →
      endpoint e c' (.msg (goCamelCase m.request.name) msg) hist = (.error (.err er), hist ++ [.call ⟨m.name, c', some msg⟩]) := by
    intro x er hx
    rw [hx] at hcomes
    exact hruns.error _ _ _ _ _ _ _ _ hcomes
  exact ⟨fun y body y' hy hwp hwe hrd => h1 _ y body y' _ (hresponse y hy) hwp hwe hrd, fun x er hx hsd hne => h2 (.err er) er _ (herror x er hx) (.err er) hsd hne,
    fun y er hy hwp hsd hne => h3 _ y er _ (hresponse y hy) hwp hsd hne, fun x er y' hx h200 hrd => h4 (.err er) er _ y' (herror x er hx) (.err er) h200 hrd⟩

/-! ### One call after the other -/

theorem comes_unique {M C E α : Type} {w : GoFunc.World M C E} {p : GoFunc.Prog} {run : GoFunc.Calls M C E → GoFunc.Ans M C E α} {a a' : GoFunc.Ans M C E α}
    (h : Comes w p run a) (h' : Comes w p run a') : a = a' := by
  obtain ⟨n, h⟩ := h
  obtain ⟨n', h'⟩ := h'
  exact (h (n + n') (Nat.le_add_right ..)).symm.trans (h' (n + n') (Nat.le_add_left ..))

/-- A call that a client makes: of the first binding of `rpc`, which is declared after `before`. `net` is the net between this client and a server to which that has happened. -/
structure Turn (F : Type) where
  before : List ServiceMethod
  rpc : ServiceMethod
  after : List ServiceMethod
  binding : HTTPBinding
  more : List HTTPBinding
  pieces : List Piece
  net : History F → Net (FullMsg F) Http
  raw : Str
  rest : Str
  ctx : GoHTTP.Ctx
  st : St (FullMsg F)
  msg : FullMsg F

/-- What the call returns, if that has happened to the server before. -/
def Turn.answer (x : Turn F) (cw : World (FullMsg F)) (s : Service) (n : Nat) (o : Val (FullMsg F)) (hist : History F) : GoHTTP.Ans (FullMsg F) (List (Val (FullMsg F))) :=
  callClient (x.net hist) cw (fun w => calls w (program s) (n + 2)) (.lib "httptransport.NewClient.Endpoint".toList [.text (toUpper x.binding.verb), .url ⟨basePath x.binding.path, x.rest⟩,
    .func ("EncodeHTTP".toList ++ x.rpc.name ++ "ZeroRequest".toList), .func ("DecodeHTTP".toList ++ x.rpc.name ++ "Response".toList), .ext o])
    x.ctx (.msg (goCamelCase x.rpc.request.name) x.msg) x.st

/-- The rpc's binding is one that C106 is about. -/
structure Turn.Served (x : Turn F) (s : Service) (C : GoClient.Libs F) : Prop where
  methods : s.methods = x.before ++ x.rpc :: x.after
  bindings : x.rpc.bindings = x.binding :: x.more
  request : Begins x.rpc.request.name
  response : Begins x.rpc.response.name
  pieces : TemplateOK x.pieces
  path : x.binding.path = templateOf x.pieces
  apart : ∀ m' ∈ x.before, ∀ b' ∈ m'.bindings, toUpper b'.verb = toUpper x.binding.verb → ∀ qs, b'.path = templateOf qs → TemplateOK qs → Apart qs x.pieces
  typed : Typed C x.binding
  writable : Writable x.binding x.pieces
  readable : ∀ p ∈ plainParams x.binding, p.location ≠ "body".toList → Readable p
  oneofs : ∀ p ∈ oneofParams x.binding, p.location = "query".toList → ReadableOneof p

/-- The message is one that makes the way. -/
structure Turn.Travels (x : Turn F) (C : GoClient.Libs F) (L : GoLang.Libs F) (sw : World (FullMsg F)) : Prop where
  sendable : Encoders.Sendable C.fl x.binding x.msg
  survives : Survives (libOf C L sw (goCamelCase x.rpc.request.name)) x.binding x.rpc.name x.msg
  body : BodyTravels (libOf C L sw (goCamelCase x.rpc.request.name)) x.binding x.rpc.name x.msg

/-- What the caller gets for an answer of the implementation: the response as protojson reads it back, or the error, of the implementation or of protojson;
an error with status 200 is lost. -/
inductive Returned (sw cw : World (FullMsg F)) (m : ServiceMethod) (st : St (FullMsg F)) : Option (FullMsg F) × Option Err → GoHTTP.Ans (FullMsg F) (List (Val (FullMsg F))) → Prop where
  | response (y : FullMsg F) (body : Str) (y' : FullMsg F) : sw.writeProto writeOptions y = .ok body → sw.writeErr body = none →
      cw.readProto readOptions (goCamelCase m.response.name) body (cw.empty (goCamelCase m.response.name)) = (y', none) →
      Returned sw cw m st (some y, none) (.ok [.msg (goCamelCase m.response.name) y', .nil] st)
  | error (x : Option (FullMsg F)) (er : Err) : er.status.getD 500 ≠ 200 → Returned sw cw m st (x, some er) (failed sw cw er st)
  | lost (x : Option (FullMsg F)) (er : Err) (y' : FullMsg F) : er.status = some 200 →
      cw.readProto readOptions (goCamelCase m.response.name) (Runtime.errorText sw.json er) (cw.empty (goCamelCase m.response.name)) = (y', none) →
      Returned sw cw m st (x, some er) (.ok [.msg (goCamelCase m.response.name) y', .nil] st)
  | unwritten (y : FullMsg F) (er : Err) : sw.writeProto writeOptions y = .error er → er.status.getD 500 ≠ 200 → Returned sw cw m st (some y, none) (failed sw cw er st)

/-- The implementation's answer to the rpc can be sent: a response that the one protojson writes and the other reads, or an error (of the implementation or of protojson) with a status
other than 200, or an error with status 200 whose text the client's reads. -/
def Answers (sw cw : World (FullMsg F)) (m : ServiceMethod) (a : Option (FullMsg F) × Option Err) : Prop :=
  (∃ y body y', a = (some y, none) ∧ sw.writeProto writeOptions y = .ok body ∧ sw.writeErr body = none ∧
    cw.readProto readOptions (goCamelCase m.response.name) body (cw.empty (goCamelCase m.response.name)) = (y', none)) ∨
  (∃ x er, a = (x, some er) ∧ GoRoutes.Sendable er ∧ er.status.getD 500 ≠ 200) ∨
  (∃ x er y', a = (x, some er) ∧ er.status = some 200 ∧
    cw.readProto readOptions (goCamelCase m.response.name) (Runtime.errorText sw.json er) (cw.empty (goCamelCase m.response.name)) = (y', none)) ∨
  ∃ y er, a = (some y, none) ∧ sw.writeProto writeOptions y = .error er ∧ GoRoutes.Sendable er ∧ er.status.getD 500 ≠ 200

/-- The calls are made one after the other, to a server to which `hist` has happened, and `hist'` at the end: each is answered by the handler, which leaves the history that the next
one finds, and returns what the implementation answers to one call of the rpc's method, with the message of the caller. -/
inductive Exchanged (iw : GoFunc.World (FullMsg F) GoHTTP.Ctx Err) (cw sw : World (FullMsg F)) (s : Service) (n : Nat) (o : Val (FullMsg F)) (env : Http → Env (FullMsg F) (Endpoint F) (History F))
    (rs : GoRoutes.Routes (Endpoint F)) (c₀ : GoHTTP.Ctx) (st₀ : St (FullMsg F)) : History F → List (Turn F × GoHTTP.Ctx) → History F → Prop where
  | done (hist : History F) : Exchanged iw cw sw s n o env rs c₀ st₀ hist [] hist
  | call (hist hist₁ hist₂ : History F) (x : Turn F) (c : GoHTTP.Ctx) (xs : List (Turn F × GoHTTP.Ctx)) (q : Http) (h : Header) (st : St (FullMsg F)) :
      Leaves env sw s n rs x.binding q h c₀ st₀ hist hist₁ → Returned sw cw x.rpc st (iw.impl hist ⟨x.rpc.name, c, some x.msg⟩) (x.answer cw s n o hist) →
      Exchanged iw cw sw s n o env rs c₀ st₀ hist₁ xs hist₂ → Exchanged iw cw sw s n o env rs c₀ st₀ hist ((x, c) :: xs) hist₂

/-- **C106** Any number of calls, of any rpcs, one after the other: what happens to the implementation is, in this order, one call for each, of the method of its rpc and with exactly the
message that was sent, and nothing else. -/
theorem C106_calls {pkg : Str} {cfg : TT.Config} (iw : GoFunc.World (FullMsg F) GoHTTP.Ctx Err) (w : GoRoutes.World) (cw sw : World (FullMsg F)) (s : Service) (n : Nat)
    (ho : Ordinary pkg s) (hi : Implements iw s) (hwf : Wellformed s)
    (hlit : ∀ m ∈ s.methods, ∀ b ∈ m.bindings, Plain (toUpper b.verb) ∧ Plain b.path) (hd : (s.methods.map (·.name)).Nodup)
    (opts : List (GoRoutes.Val (Endpoint F))) {C : GoClient.Libs F} {L : GoLang.Libs F} (hL : Leftovers L) (hfl : C.fl = L.fl)
    (conv : GoLang.State F → Err) (hconv : ∀ σ, (conv σ).status = none) (carry : Header → Header) (hcarry : ∀ h, WireHeader (carry h)) (keys : List Str)
    {fs : List (Str × Endpoint F)} (hnew : Comes iw (GoFunc.program pkg s cfg) (fun k => k.invoke (.func (chars% "server.NewEndpoints")) [.service] []) (.ok [.struct (chars% "pb.Endpoints") fs] []))
    {h : GoRoutes.St (Endpoint F)} (hmake : (makeHandler s).run w [.struct (chars% "Endpoints") (endpointFields fs), .list opts] = .ok [.router] h)
    {o : Val (FullMsg F)} (hopt : ∀ st, (calls cw (program s) (n + 2)).call "CtxValuesToSend".toList [.strs keys] st = .ok [o] st)
    {endpoint} (hruns : Runs iw (GoFunc.program pkg s cfg) endpoint) {env : Http → Env (FullMsg F) (Endpoint F) (History F)} (c₀ : GoHTTP.Ctx) {st₀ : St (FullMsg F)} (hsent : st₀.sent = none) (hout : st₀.out = [])
    (xs : List (Turn F)) (hserv : ∀ x ∈ xs, x.Served s C ∧ x.Travels C L sw ∧ Serving env endpoint opts sw s n L conv x.rpc x.binding ∧
      (∀ hist, Wired (x.net hist) C x.rpc x.binding x.pieces x.raw x.rest carry env sw s n h.routes c₀ st₀ hist) ∧
      ∀ hist c, Answers sw cw x.rpc (iw.impl hist ⟨x.rpc.name, c, some x.msg⟩)) (hist : History F) :
    ∃ ys : List (Turn F × GoHTTP.Ctx), ys.map (·.1) = xs ∧
      Exchanged iw cw sw s n o env h.routes c₀ st₀ hist ys (hist ++ ys.map fun y => .call ⟨y.1.rpc.name, y.2, some y.1.msg⟩) := by
  induction xs generalizing hist with
  | nil => exact ⟨[], rfl, by rw [List.map_nil, List.append_nil]; exact .done hist⟩
  | cons x xs ih =>
    obtain ⟨hx, ht, hs, hw, ha⟩ := hserv x List.mem_cons_self
    obtain ⟨fs', rs', o', hnew', ⟨h', hrun', rfl⟩, hopt', hcall⟩ := C106_call (cfg := cfg) iw w cw sw s n ho hi hwf hlit hd opts hL hfl conv hconv hx.methods hx.bindings hx.request hx.response
      hx.pieces hx.path hx.apart hx.typed hx.writable hx.readable hx.oneofs carry hcarry keys
    have hfs : fs' = fs := by
      have := comes_unique (hnew' []) hnew
      injection this with h1 _
      injection h1 with h1 _
      injection h1 with _ h1
    subst hfs
    have hh : h' = h := by
      rw [hrun'] at hmake
      injection hmake with _ h1
    subst hh
    have hoo : o' = o := by
      have h1 := hopt x.st
      rw [hopt' x.st] at h1
      injection h1 with h1 _
      injection h1 with h1 _
    subst hoo
    obtain ⟨q, path, h₁, c, st', -, -, -, -, -, hans⟩ := hcall endpoint hruns env hs (x.net hist) x.raw x.rest c₀ st₀ hist hsent hout (hw hist) x.ctx x.st x.msg ht.sendable ht.survives ht.body
    obtain ⟨h1, h2, h3, h4⟩ := hans _ rfl _ rfl
    obtain ⟨ys, rfl, hys⟩ := ih (fun y hy => hserv y (List.mem_cons_of_mem _ hy)) (hist ++ [.call ⟨x.rpc.name, c, some x.msg⟩])
    refine ⟨(x, c) :: ys, rfl, ?_⟩
    have hstep : Leaves env sw s n h'.routes x.binding q (carry h₁) c₀ st₀ hist (hist ++ [.call ⟨x.rpc.name, c, some x.msg⟩]) ∧
        Returned sw cw x.rpc st' (iw.impl hist ⟨x.rpc.name, c, some x.msg⟩) (x.answer cw s n o' hist) := by
      rcases ha hist c with ⟨y, body, y', e1, e2, e3, e4⟩ | ⟨z, er, e1, e2, e3⟩ | ⟨z, er, y', e1, e2, e3⟩ | ⟨y, er, e1, e2, e3, e4⟩
      · obtain ⟨k1, k2⟩ := h1 y body y' e1 e2 e3 e4
        refine ⟨k1, ?_⟩
        rw [e1, show x.answer cw s n o' hist = _ from k2]
        exact .response y body y' e2 e3 e4
      · obtain ⟨k1, k2⟩ := h2 z er e1 e2 e3
        refine ⟨k1, ?_⟩
        rw [e1, show x.answer cw s n o' hist = _ from k2]
        exact .error z er e3
      · obtain ⟨k1, k2⟩ := h4 z er y' e1 e2 e3
        refine ⟨k1, ?_⟩
        rw [e1, show x.answer cw s n o' hist = _ from k2]
        exact .lost z er y' e2 e3
      · obtain ⟨k1, k2⟩ := h3 y er e1 e2 e3 e4
        refine ⟨k1, ?_⟩
        rw [e1, show x.answer cw s n o' hist = _ from k2]
        exact .unwritten y er e2 e4
    refine .call hist _ _ x c ys q (carry h₁) st' hstep.1 hstep.2 ?_
    rw [List.append_assoc] at hys
    exact hys

/-! ### A case -/

open Classical in
/-- Endpoints that run, for any implementation: `Runs` can always be met. -/
noncomputable def running (w : GoFunc.World (FullMsg F) GoHTTP.Ctx Err) (p : GoFunc.Prog) (e : Endpoint F) (c : GoHTTP.Ctx) (v : Val (FullMsg F)) (h : History F) :
    Except (Val (FullMsg F)) (Val (FullMsg F)) × History F :=
  match v with
  | .msg t x =>
    if hr : ∃ a : Str × FullMsg F × History F, Comes w p (fun k => k.invoke e [.ctx c, .msg (chars% "pb." ++ t) (some x)] h) (.ok [.msg (chars% "pb." ++ a.1) (some a.2.1), .nil] a.2.2) then
      (.ok (.msg hr.choose.1 hr.choose.2.1), hr.choose.2.2)
    else if he : ∃ a : Endpoint F × Err × History F, Comes w p (fun k => k.invoke e [.ctx c, .msg (chars% "pb." ++ t) (some x)] h) (.ok [a.1, .error a.2.1] a.2.2) then
      (.error (.err he.choose.2.1), he.choose.2.2)
    else (.error .nil, h)
  | _ => (.error .nil, h)

theorem running_runs (w : GoFunc.World (FullMsg F) GoHTTP.Ctx Err) (p : GoFunc.Prog) : Runs w p (running w p) where
  response e c t x h t' y h' hc := by
    have hr : ∃ a : Str × FullMsg F × History F, Comes w p (fun k => k.invoke e [.ctx c, .msg (chars% "pb." ++ t) (some x)] h) (.ok [.msg (chars% "pb." ++ a.1) (some a.2.1), .nil] a.2.2) :=
      ⟨(t', y, h'), hc⟩
    simp only [running, dif_pos hr]
    have hu := comes_unique hr.choose_spec hc
    injection hu with h1 h2
    injection h1 with h1
    injection h1 with h1 h3
    injection h3 with h3
    rw [List.append_cancel_left h1, h2, h3]
  error e c t x h v er h' hc := by
    have he : ∃ a : Endpoint F × Err × History F, Comes w p (fun k => k.invoke e [.ctx c, .msg (chars% "pb." ++ t) (some x)] h) (.ok [a.1, .error a.2.1] a.2.2) := ⟨(v, er, h'), hc⟩
    have hr : ¬ ∃ a : Str × FullMsg F × History F, Comes w p (fun k => k.invoke e [.ctx c, .msg (chars% "pb." ++ t) (some x)] h) (.ok [.msg (chars% "pb." ++ a.1) (some a.2.1), .nil] a.2.2) := by
      rintro ⟨a, ha⟩
      have hu := comes_unique ha hc
      injection hu with h1 h2
      injection h1 with _ h1
      injection h1 with h1
      cases h1
    simp only [running, dif_neg hr, dif_pos he]
    have hu := comes_unique he.choose_spec hc
    injection hu with h1 h2
    injection h1 with _ h1
    injection h1 with h1
    injection h1 with h1
    rw [h1, h2]

namespace Example

open Baron.HTTPCall (c79Svc c79Get c79Msg c79Zero c79_compiles)
open Baron.Encoders (encoderCode)
open Baron.Encoders.Example (client server getPieces getPieces_ok get_writable get_readable get_sendable noOneofs)
open Baron.GoRoutes (Routes serve)

/-- Fails at the first call, and answers each later one with its request. -/
def iw : GoFunc.World (FullMsg Empty) GoHTTP.Ctx Err where
  empty _ := c79Zero
  responses := c79Svc.methods.map fun m => (m.name, responseType m)
  impl h call := match h with
    | [] => (none, some ⟨"early".toList, none, none, some 503⟩)
    | _ => (call.req, none)
  metadata c := c
  option _ c := c
  network c := c
  nilMessage _ := .ok c79Zero
  status e := e
  unimplemented := GoHTTP.plain "unimplemented".toList
  background := []
  marshal _ := .ok []
  unmarshal _ m _ := (m, none)
  errorBody e := e.msg
  refused _ _ := none
  inbox _ := []
  chosen _ := 0
  noReply := GoHTTP.plain "no reply".toList

def conf : TT.Config := TT.Example.conf

theorem svc_ordinary : Ordinary (chars% "pkg") c79Svc := by
  refine ⟨?_, ?_, ?_, ?_, ?_, ?_, ?_⟩ <;> (try unfold TT.Plain) <;> decide +kernel

theorem svc_implements : Implements iw c79Svc := by
  unfold Implements
  decide +kernel

noncomputable def implEndpoint : Endpoint Empty → GoHTTP.Ctx → Val (FullMsg Empty) → History Empty → Except (Val (FullMsg Empty)) (Val (FullMsg Empty)) × History Empty :=
  running iw (GoFunc.program (chars% "pkg") c79Svc conf)

noncomputable def implEnv (q : Http) : Env (FullMsg Empty) (Endpoint Empty) (History Empty) where
  option _ s := s
  decode _ vars _ := match decoded q vars fresh with
    | .ok [v, .nil] _ => .ok v
    | .ok [_, v] _ => .error v
    | _ => .error .nil
  endpoint := implEndpoint

/-- The server, to which `h` has happened. -/
noncomputable def implNet (rs : Routes (Endpoint Empty)) (h : History Empty) : Net (FullMsg Empty) Http where
  encode _ _ u _ v := match v with
    | .msg _ msg => match GoClient.run client (encoderCode rpc.request.name c79Get getPieces) (start msg u.path []) with
      | .returned false σ => .ok (σ.http, σ.http.header)
      | _ => .error .nil
    | _ => .error .nil
  send q _ := match reply (serve (implEnv q) (calls (worldAt sw q) (program c79Svc) 2) rs "GET".toList q.path [] fresh h) with
    | some (code, body) => .ok (code, body, .complete)
    | none => .error .nil

theorem implServing : Serving implEnv implEndpoint [.ext .nil] sw c79Svc 0 server conv rpc c79Get where
  endpoint _ := rfl
  option _ o ho := ⟨.nil, List.mem_singleton.1 ho, rfl⟩
  decode q st vars c v er st' h := by
    have hd : decoded q vars fresh = .ok [v, er] { fresh with closed := true } :=
      GoDecode.decode_again _ _ _ _ _ ⟨'R', [], rfl, by decide⟩ _ _ rfl h fresh
    refine ⟨fun he => ?_, fun he => ?_⟩
    · subst he
      simp only [implEnv, hd]
    · cases er with
      | nil => exact absurd rfl he
      | _ => simp only [implEnv, hd]

theorem implWired (rs : Routes (Endpoint Empty)) (hist : History Empty) :
    Wired (implNet rs hist) client rpc c79Get getPieces [] [] (fun _ => []) implEnv sw c79Svc 0 rs [] fresh hist where
  encode c t msg σ h := by
    have h : GoClient.run client (encoderCode rpc.request.name c79Get getPieces) (start msg (basePath c79Get.path) []) = .returned false σ := h
    simp only [implNet, h]
  send q h code body hr := by
    have hr : reply (serve (implEnv q) (calls (worldAt sw q) (program c79Svc) 2) rs "GET".toList q.path [] fresh hist) = some (code, body) := hr
    simp only [implNet, hr]

/-- The hypotheses of `C106_call` are met: two calls of `Get`, of which the implementation fails the first, and answers the second one because of the first. -/
example : ∃ rs o, ∃ hist, ∃ st₁ st₂, hist ≠ [] ∧
    callClient (implNet rs []) cw (fun w => calls w (program c79Svc) 2) (.lib "httptransport.NewClient.Endpoint".toList [.text "GET".toList, .url ⟨basePath c79Get.path, []⟩,
      .func "EncodeHTTPGetZeroRequest".toList, .func "DecodeHTTPGetResponse".toList, .ext o]) [] (.msg "R".toList (c79Msg [1, 2, 3] "")) fresh =
        failed sw cw ⟨"early".toList, none, none, some 503⟩ st₁ ∧
    callClient (implNet rs hist) cw (fun w => calls w (program c79Svc) 2) (.lib "httptransport.NewClient.Endpoint".toList [.text "GET".toList, .url ⟨basePath c79Get.path, []⟩,
      .func "EncodeHTTPGetZeroRequest".toList, .func "DecodeHTTPGetResponse".toList, .ext o]) [] (.msg "R".toList (c79Msg [1, 2, 3] "")) fresh =
        .ok [.msg "R".toList (c79Msg [] ""), .nil] st₂ ∧
    ∃ q h, Leaves implEnv sw c79Svc 0 rs c79Get q h [] fresh [] hist := by
  obtain ⟨fs, rs, o, -, -, -, h⟩ := C106_call (cfg := conf) iw ⟨fun _ => .error (GoHTTP.plain []), fun _ _ => none⟩ cw sw c79Svc 0 svc_ordinary svc_implements c79_compiles.templates
    plainLits namesApart [.ext .nil] (C := client) (L := server) (fun _ _ _ => rfl) rfl conv (fun _ => rfl)
    (ms₁ := []) (ms₂ := c79Svc.methods.tail) (m := rpc) (b := c79Get) (bs := []) theRpc rfl begins begins
    getPieces_ok pathPieces noneBefore typed get_writable get_readable
    (fun p hp => by rw [noOneofs] at hp; cases hp) (fun _ => []) (fun _ => HTTPCall.wire_nil) []
  have hc := fun hist => h implEndpoint (running_runs _ _) implEnv implServing (implNet rs hist) [] [] [] fresh hist rfl rfl (implWired rs hist) [] fresh (c79Msg [1, 2, 3] "")
    get_sendable survives travels
  rw [theType, theAnswer, show toUpper c79Get.verb = "GET".toList by decide +kernel,
    show "EncodeHTTP".toList ++ rpc.name ++ "ZeroRequest".toList = "EncodeHTTPGetZeroRequest".toList by decide +kernel,
    show "DecodeHTTP".toList ++ rpc.name ++ "Response".toList = "DecodeHTTPGetResponse".toList by decide +kernel] at hc
  obtain ⟨q, path, h', c', st', -, -, -, -, -, ha⟩ := hc []
  obtain ⟨hl, h1⟩ := (ha _ rfl _ rfl).2.1 none ⟨"early".toList, none, none, some 503⟩ rfl (by unfold GoRoutes.Sendable; trivial) (by decide)
  obtain ⟨q₂, path₂, h₂, c₂, st₂, -, -, -, -, -, ha₂⟩ := hc ([] ++ [.call ⟨rpc.name, c', some (c79Msg [1, 2, 3] "")⟩])
  exact ⟨rs, o, _, st', st₂, List.cons_ne_nil _ _, h1,
    ((ha₂ _ rfl _ rfl).1 (c79Msg [1, 2, 3] "") "7".toList (c79Msg [] "") rfl (by decide +kernel) rfl rfl).2, q, _, hl⟩

noncomputable def turn (rs : Routes (Endpoint Empty)) : Turn Empty where
  before := []
  rpc := rpc
  after := c79Svc.methods.tail
  binding := c79Get
  more := []
  pieces := getPieces
  net := implNet rs
  raw := []
  rest := []
  ctx := []
  st := fresh
  msg := c79Msg [1, 2, 3] ""

theorem answers (hist : History Empty) (c : GoHTTP.Ctx) : Answers sw cw rpc (iw.impl hist ⟨rpc.name, c, some (c79Msg [1, 2, 3] "")⟩) := by
  cases hist with
  | nil => exact .inr (.inl ⟨none, ⟨"early".toList, none, none, some 503⟩, rfl, by unfold GoRoutes.Sendable; decide, by decide⟩)
  | cons e l =>
    refine .inl ⟨c79Msg [1, 2, 3] "", "7".toList, c79Msg [] "", rfl, by decide +kernel, rfl, ?_⟩
    rw [theAnswer]
    rfl

theorem turn_served (rs : Routes (Endpoint Empty)) : (turn rs).Served c79Svc client where
  methods := theRpc
  bindings := rfl
  request := begins
  response := begins
  pieces := getPieces_ok
  path := pathPieces
  apart := noneBefore
  typed := typed
  writable := get_writable
  readable := get_readable
  oneofs p hp := by
    have hp : p ∈ oneofParams c79Get := hp
    rw [noOneofs] at hp
    cases hp

theorem turn_travels (rs : Routes (Endpoint Empty)) : (turn rs).Travels client server sw where
  sendable := get_sendable
  survives := survives
  body := travels

theorem three {α β : Type} {ys : List (α × β)} {x y z : α} (h : ys.map (·.1) = [x, y, z]) : ∃ a b c, ys = [(x, a), (y, b), (z, c)] := by
  match ys, h with
  | [(_, a), (_, b), (_, c)], rfl => exact ⟨a, b, c, rfl⟩

theorem same {α : Type} {x y : α} (h : x ∈ [y, y, y]) : x = y := by
  simpa using h

/-- The hypotheses of `C106_calls` are met: the call, three times. -/
example : ∃ rs o, ∃ c₁ c₂ c₃, Exchanged iw cw sw c79Svc 0 o implEnv rs [] fresh [] [(turn rs, c₁), (turn rs, c₂), (turn rs, c₃)]
    [.call ⟨"Get".toList, c₁, some (c79Msg [1, 2, 3] "")⟩, .call ⟨"Get".toList, c₂, some (c79Msg [1, 2, 3] "")⟩, .call ⟨"Get".toList, c₃, some (c79Msg [1, 2, 3] "")⟩] := by
  obtain ⟨fs, rs, o, hnew, ⟨h, hrun, rfl⟩, hopt, -⟩ := C106_call (cfg := conf) iw ⟨fun _ => .error (GoHTTP.plain []), fun _ _ => none⟩ cw sw c79Svc 0 svc_ordinary svc_implements c79_compiles.templates
    plainLits namesApart [.ext .nil] (C := client) (L := server) (fun _ _ _ => rfl) rfl conv (fun _ => rfl)
    (ms₁ := []) (ms₂ := c79Svc.methods.tail) (m := rpc) (b := c79Get) (bs := []) theRpc rfl begins begins
    getPieces_ok pathPieces noneBefore typed get_writable get_readable
    (fun p hp => by rw [noOneofs] at hp; cases hp) (fun _ => []) (fun _ => HTTPCall.wire_nil) []
  obtain ⟨ys, hys, hex⟩ := C106_calls (cfg := conf) iw ⟨fun _ => .error (GoHTTP.plain []), fun _ _ => none⟩ cw sw c79Svc 0 svc_ordinary svc_implements c79_compiles.templates
    plainLits namesApart [.ext .nil] (C := client) (L := server) (fun _ _ _ => rfl) rfl conv (fun _ => rfl) (fun _ => []) (fun _ => HTTPCall.wire_nil) [] (hnew []) hrun hopt
    (running_runs _ _) (env := implEnv) [] (st₀ := fresh) rfl rfl [turn h.routes, turn h.routes, turn h.routes] (by
      intro x hx
      have hx := same hx
      subst hx
      exact ⟨turn_served _, turn_travels _, implServing, implWired h.routes, answers⟩) []
  obtain ⟨c₁, c₂, c₃, rfl⟩ := three hys
  exact ⟨h.routes, o, c₁, c₂, c₃, hex⟩

end Example

end Baron.GoExchange
