import Verif.Proofs.GoNatsExec
import Verif.Props.GoFunc

/-!
# C100 A service over NATS: its functions, and what calling them comes to
-/

namespace Baron.GoFunc

open Baron.TT (Occurs render)
open Baron.Svcdef (Service ServiceMethod)

/-- **C100** The functions for NATS are written in the transport file as `Func.print` prints them, whatever the package is called. -/
theorem C100_text (fmt : Str → Str) (pkg : Str) (s : Service) (c : TT.Config) (hn : TT.selected (chars% "nats") c = true) : ∃ txt,
    render fmt pkg s c "baron/NAME.pb.baron.go.tmpl".toList = some txt ∧ ∀ f ∈ natsFuncs s, Occurs f.print txt := by
  obtain ⟨t, h⟩ := TT.C84_render fmt pkg s c "baron/NAME.pb.baron.go.tmpl".toList (by decide +kernel)
  exact ⟨t, h, nats_occurs h (selected_iff.mp hn)⟩

variable {M C E : Type} {w : World M C E} {pkg : Str} {s : Service} {cfg : TT.Config}

theorem call_of_request {f : ServiceMethod → Val M C E} {m : ServiceMethod} {h : Hist M C E} (hs : Subscribed (subject s m) h)
    (ha : ∀ q g, Event.subscribed (subject s m) q g ∈ h → q = s.name ∧ ∃ os, g = natsHandler f os m) (d : Str) : ∃ os,
      Event.subscribed (subject s m) s.name (natsHandler f os m) ∈ h ∧
      ∀ k, natsRequest w k (subject s m) d (h ++ [.wrote d]) = (handle w k (natsHandler f os m) d (w.inbox (h ++ [.wrote d])) (h ++ [.wrote d])).bind fun _ h' =>
        .ok (replyTo (w.inbox (h ++ [.wrote d])) (h'.drop (h ++ [Event.wrote d]).length)) h' := by
  have hs' : Subscribed (subject s m) (h ++ [Event.wrote d]) := by
    obtain ⟨q, g, hx⟩ := hs
    exact ⟨q, g, List.mem_append.mpr (.inl hx)⟩
  have key : ∀ q g, Event.subscribed (subject s m) q g ∈ h ++ [Event.wrote d] → Event.subscribed (subject s m) q g ∈ h := by
    intro q g hx
    rcases List.mem_append.mp hx with hx | hx
    · exact hx
    · cases List.mem_singleton.mp hx
  obtain ⟨g, ⟨os, rfl⟩, hx, hr⟩ := request_some (w := w) (P := fun g => ∃ os, g = natsHandler f os m) hs' (fun q g hx => ha q g (key q g hx)) d
  exact ⟨os, key _ _ hx, hr⟩

theorem nats_call (ho : Ordinary pkg s) (hn : TT.selected (chars% "nats") cfg = true) (hw : Implements w s) {clientOptions os : List (Val M C E)} {m : ServiceMethod} (hm : m ∈ s.methods)
    {c : C} {r : Option M} {h : Hist M C E} {d : Str} (hd : w.marshal (.msg (requestType m) r) = .ok d)
    (hr : ∀ k, natsRequest w k (subject s m) d (h ++ [.wrote d]) = (handle w k (natsHandler (madeEndpoint .service) os m) d (w.inbox (h ++ [.wrote d])) (h ++ [.wrote d])).bind fun _ h' =>
      .ok (replyTo (w.inbox (h ++ [.wrote d])) (h'.drop (h ++ [Event.wrote d]).length)) h')
    {x : M} (hu : w.unmarshal (requestType m) (w.empty (requestType m)) d = (x, none)) {call : Call M C} {body : Str} (hc : call = ⟨m.name, natsContext w os, some x⟩)
    (hb : body = natsBody w m (w.impl (h ++ [.wrote d]) call)) :
    Comes w (program pkg s cfg) (fun k => k.method (endpointsVal (publisherVal s connection clientOptions) s) m.name [.ctx c, .msg (requestType m) r] h)
      (.ok (readBack w m body) (h ++ [.wrote d, .call call, .published (w.inbox (h ++ [.wrote d])) body])) := by
  refine comes 6 fun n => ?_
  obtain ⟨a, e'⟩ := readBack_answer w m body
  rw [e']
  refine endpoints_method ho hm (field_look ho hm) ?_
  rw [← e']
  refine publisher_reply (os := clientOptions) ho hn hm hd ?_
  have hi : invoke w (program pkg s cfg) (calls w (program pkg s cfg) (n + 3)) (madeEndpoint .service m) [.ctx (natsContext w os), .msg (requestType m) (some x)] (h ++ [.wrote d]) =
      .ok (answer m (w.impl (h ++ [.wrote d]) ⟨m.name, natsContext w os, some x⟩)) (h ++ [.wrote d] ++ [.call ⟨m.name, natsContext w os, some x⟩]) :=
    endpoint_call (k := calls w (program pkg s cfg) (n + 3)) (ho.names m hm).2.1 (service_method (pkg := pkg) (cfg := cfg) (k := calls w (program pkg s cfg) (n + 2)) hw hm)
  subst hc
  rw [hr, handle_good (k := calls w (program pkg s cfg) (n + 2)) ho hn hm hu hi, bind_ok]
  rw [reply_found (M := M) (C := C) (E := E) (h := h ++ [Event.wrote d]) (t := [.call ⟨m.name, natsContext w os, some x⟩]) rfl, ← hb, List.append_assoc, List.append_assoc]
  rfl

/-- **C100** `MakeNATSServer` and `NewNATSClient` have no effect. `ServeNATS` subscribes for every rpc, in their order, to `Service.Rpc` in
the queue `Service`, up to the first subscription that is refused; the error of that is its result. -/
theorem C100_serve (ho : Ordinary pkg s) (hn : TT.selected (chars% "nats") cfg = true) : ∃ (es : Val M C E) (handler : List (Val M C E) → ServiceMethod → Val M C E),
    (∀ h, Comes w (program pkg s cfg) (fun k => k.invoke (.func (chars% "server.NewEndpoints")) [.service] h) (.ok [es] h)) ∧
    ∀ options, ∃ srv : Val M C E,
      (∀ h, Comes w (program pkg s cfg) (fun k => k.invoke (.func (chars% "pb.MakeNATSServer")) (es :: options) h) (.ok [srv] h)) ∧
      (∀ h, Comes w (program pkg s cfg) (fun k => k.invoke (.func (chars% "pb.ServeNATS")) [connection, srv] h)
        (.ok [(subscribing w s (handler options) s.methods h).1] (subscribing w s (handler options) s.methods h).2)) :=
  ⟨endpointsVal (madeEndpoint .service) s, natsHandler (madeEndpoint .service), fun _ => comes 2 fun _ => new_endpoints ho, fun options =>
    ⟨natsServerVal (madeEndpoint .service) options s, fun _ => comes 2 fun _ => make_nats_server ho hn, fun _ => comes 2 fun _ => serve_nats ho hn⟩⟩

/-- **C100** A call of an rpc with the client that `NewNATSClient` makes.

A request that cannot be marshalled is not sent. Without a subscription for the rpc, the error is that there is no reply. If all subscriptions to
the rpc's subject come from `ServeNATS` with servers made from these endpoints, one of them gets the data; if the data cannot be read as a request, the
error is sent back and nothing is called. Otherwise the implementation's method of this rpc is called exactly once, with the request read from the data
and the context that the options of that server make of the background context, whatever the caller's context is; the response is sent back, or
the error if there is one. What is sent back is read as a response in either case. -/
theorem C100_call (ho : Ordinary pkg s) (hn : TT.selected (chars% "nats") cfg = true) (hw : Implements w s) (clientOptions : List (Val M C E)) :
    ∃ (es client : Val M C E) (handler : List (Val M C E) → ServiceMethod → Val M C E),
    (∀ h, Comes w (program pkg s cfg) (fun k => k.invoke (.func (chars% "server.NewEndpoints")) [.service] h) (.ok [es] h)) ∧
    (∀ options, ∃ srv : Val M C E,
      (∀ h, Comes w (program pkg s cfg) (fun k => k.invoke (.func (chars% "pb.MakeNATSServer")) (es :: options) h) (.ok [srv] h)) ∧
      (∀ h, Comes w (program pkg s cfg) (fun k => k.invoke (.func (chars% "pb.ServeNATS")) [connection, srv] h)
        (.ok [(subscribing w s (handler options) s.methods h).1] (subscribing w s (handler options) s.methods h).2))) ∧
    (∀ h, Comes w (program pkg s cfg) (fun k => k.invoke (.func (chars% "pb.NewNATSClient")) (connection :: clientOptions) h) (.ok [client, .nil] h)) ∧
    ∀ m ∈ s.methods, ∀ c r h,
      (∀ e, w.marshal (.msg (requestType m) r) = .error e →
        Comes w (program pkg s cfg) (fun k => k.method client m.name [.ctx c, .msg (requestType m) r] h) (.ok [.nil, .error e] h)) ∧
      (∀ d, w.marshal (.msg (requestType m) r) = .ok d →
        (¬ Subscribed (subject s m) h →
          Comes w (program pkg s cfg) (fun k => k.method client m.name [.ctx c, .msg (requestType m) r] h) (.ok [.nil, .error w.noReply] (h ++ [.wrote d]))) ∧
        (Subscribed (subject s m) h → (∀ q f, Event.subscribed (subject s m) q f ∈ h → q = s.name ∧ ∃ options, f = handler options m) →
          ∃ options, Event.subscribed (subject s m) s.name (handler options m) ∈ h ∧
            (∀ x e, w.unmarshal (requestType m) (w.empty (requestType m)) d = (x, some e) →
              Comes w (program pkg s cfg) (fun k => k.method client m.name [.ctx c, .msg (requestType m) r] h)
                (.ok (readBack w m (w.errorBody e)) (h ++ [.wrote d, .published (w.inbox (h ++ [.wrote d])) (w.errorBody e)]))) ∧
            (∀ x, w.unmarshal (requestType m) (w.empty (requestType m)) d = (x, none) →
              ∀ call body, call = ⟨m.name, natsContext w options, some x⟩ → body = natsBody w m (w.impl (h ++ [.wrote d]) call) →
              Comes w (program pkg s cfg) (fun k => k.method client m.name [.ctx c, .msg (requestType m) r] h)
                (.ok (readBack w m body) (h ++ [.wrote d, .call call, .published (w.inbox (h ++ [.wrote d])) body]))))) := by
  refine ⟨endpointsVal (madeEndpoint .service) s, endpointsVal (publisherVal s connection clientOptions) s, natsHandler (madeEndpoint .service),
    fun _ => comes 2 fun _ => new_endpoints ho, fun options => ⟨natsServerVal (madeEndpoint .service) options s, fun _ => comes 2 fun _ => make_nats_server ho hn,
      fun _ => comes 2 fun _ => serve_nats ho hn⟩, fun _ => comes 2 fun _ => new_nats_client ho hn, fun m hm c r h => ⟨fun e he => comes 4 fun n => ?_, fun d hd =>
    ⟨fun hs => comes 4 fun n => ?_, fun hs ha => ?_⟩⟩⟩
  · exact endpoints_method (a := (none, some e)) ho hm (field_look ho hm) (publisher_unsent (os := clientOptions) hn he)
  · exact endpoints_method (a := (none, some w.noReply)) ho hm (field_look ho hm) (publisher_alone (os := clientOptions) hn hd hs)
  · obtain ⟨os, hx, hr⟩ := call_of_request (w := w) hs ha d
    refine ⟨os, hx, fun x e hu => comes 4 fun n => ?_, fun x hu call body hc hb => nats_call ho hn hw hm hd hr hu hc hb⟩
    · obtain ⟨a, e'⟩ := readBack_answer w m (w.errorBody e)
      rw [e']
      refine endpoints_method ho hm (field_look ho hm) ?_
      rw [← e']
      refine publisher_reply (os := clientOptions) ho hn hm hd ?_
      rw [hr, handle_bad ho hn hm hu, bind_ok]
      have := reply_found (h := h ++ [.wrote d]) (t := []) (inbox := w.inbox (h ++ [.wrote d])) (b := w.errorBody e) rfl
      rw [List.append_nil] at this
      rw [this, List.append_assoc]
      rfl
/-! ## After `ServeNATS` -/

theorem subscribing_all {handler : ServiceMethod → Val M C E} (hr : ∀ h subject, w.refused h subject = none) : ∀ (l : List ServiceMethod) (h : Hist M C E),
    subscribing w s handler l h = (.nil, h ++ l.map fun m => .subscribed (subject s m) s.name (handler m))
  | [], h => by rw [subscribing, List.map_nil, List.append_nil]
  | m :: l, h => by rw [subscribing, hr, subscribing_all hr l, List.append_assoc]; rfl

/-- **C100** If nothing is refused, `ServeNATS` with a server made from these endpoints is enough: after it, until there are other subscriptions, every
rpc whose request is read back as it was sent and whose answer can be marshalled is exactly one call of the implementation's method of this rpc, with the
request, and the caller gets its response. -/
theorem C100_served (ho : Ordinary pkg s) (hn : TT.selected (chars% "nats") cfg = true) (hw : Implements w s) (hr : ∀ h subject, w.refused h subject = none)
    (serverOptions clientOptions : List (Val M C E)) : ∃ (es srv client : Val M C E),
    (∀ h, Comes w (program pkg s cfg) (fun k => k.invoke (.func (chars% "server.NewEndpoints")) [.service] h) (.ok [es] h)) ∧
    (∀ h, Comes w (program pkg s cfg) (fun k => k.invoke (.func (chars% "pb.MakeNATSServer")) (es :: serverOptions) h) (.ok [srv] h)) ∧
    (∀ h, Comes w (program pkg s cfg) (fun k => k.invoke (.func (chars% "pb.NewNATSClient")) (connection :: clientOptions) h) (.ok [client, .nil] h)) ∧
    ∀ h, (∀ subject, ¬ Subscribed subject h) → ∃ h',
      Comes w (program pkg s cfg) (fun k => k.invoke (.func (chars% "pb.ServeNATS")) [connection, srv] h) (.ok [.nil] h') ∧
      ∀ later : Hist M C E, (∀ subject, ¬ Subscribed subject later) → ∀ m ∈ s.methods, ∀ c r d,
        w.marshal (.msg (requestType m) (some r)) = .ok d → w.unmarshal (requestType m) (w.empty (requestType m)) d = (r, none) →
        ∀ now call, now = h' ++ later ++ [.wrote d] → call = ⟨m.name, natsContext w serverOptions, some r⟩ →
        ∀ x b, w.impl now call = (some x, none) → w.marshal (.msg (responseType m) (some x)) = .ok b →
          w.unmarshal (responseType m) (w.empty (responseType m)) b = (x, none) →
          Comes w (program pkg s cfg) (fun k => k.method client m.name [.ctx c, .msg (requestType m) (some r)] (h' ++ later))
            (.ok [.msg (responseType m) (some x), .nil] (now ++ [.call call, .published (w.inbox now) b])) := by
  refine ⟨endpointsVal (madeEndpoint .service) s, natsServerVal (madeEndpoint .service) serverOptions s, endpointsVal (publisherVal s connection clientOptions) s,
    fun _ => comes 2 fun _ => new_endpoints ho, fun _ => comes 2 fun _ => make_nats_server ho hn, fun _ => comes 2 fun _ => new_nats_client ho hn, fun h hh => ?_⟩
  refine ⟨h ++ s.methods.map fun m => .subscribed (subject s m) s.name (natsHandler (madeEndpoint .service) serverOptions m), comes 2 fun _ => ?_, ?_⟩
  · have := serve_nats (w := w) (k := calls w (program pkg s cfg) ‹Nat›) (f := madeEndpoint .service) (os := serverOptions) (h := h) ho hn
    rw [subscribing_all hr] at this
    exact this
  · intro later hl m hm c r d hd hu now call hnow hcall x b hi hb hx
    have hmem : ∀ q g, Event.subscribed (subject s m) q g ∈ (h ++ s.methods.map fun m => .subscribed (subject s m) s.name (natsHandler (madeEndpoint .service) serverOptions m)) ++ later →
        q = s.name ∧ g = natsHandler (madeEndpoint .service) serverOptions m := by
      intro q g hx
      rcases List.mem_append.mp hx with hx | hx
      · rcases List.mem_append.mp hx with hx | hx
        · exact absurd ⟨q, g, hx⟩ (hh _)
        · obtain ⟨m', hm', e⟩ := List.mem_map.mp hx
          injection e with e1 e2 e3
          have e1 := congrArg (List.drop (s.name.length + 1)) e1
          unfold subject at e1
          have hdrop : ∀ l : Str, List.drop (s.name.length + 1) (s.name ++ '.' :: l) = l := by
            intro l
            rw [show s.name ++ '.' :: l = (s.name ++ ['.']) ++ l from by simp, show s.name.length + 1 = (s.name ++ ['.']).length from by simp, List.drop_left]
          rw [hdrop, hdrop] at e1
          rw [← rpc_inj ho hm' hm e1]
          exact ⟨e2.symm, e3.symm⟩
      · exact absurd ⟨q, g, hx⟩ (hl _)
    have hs : Subscribed (subject s m) ((h ++ s.methods.map fun m => .subscribed (subject s m) s.name (natsHandler (madeEndpoint .service) serverOptions m)) ++ later) :=
      ⟨_, _, List.mem_append.mpr (.inl (List.mem_append.mpr (.inr (List.mem_map.mpr ⟨m, hm, rfl⟩))))⟩
    obtain ⟨os, ho', hq⟩ := call_of_request (w := w) hs (fun q g hx => ⟨(hmem q g hx).1, serverOptions, (hmem q g hx).2⟩) d
    have : os = serverOptions := by
      have := (hmem _ _ ho').2
      unfold natsHandler subscriberVal at this
      simpa using this
    subst this
    have hbody : b = natsBody w m (w.impl now call) := by
      rw [hi]
      unfold natsBody
      simp only [hb]
    rw [hnow] at hbody
    have := nats_call (clientOptions := clientOptions) (c := c) ho hn hw hm hd hq hu hcall hbody
    unfold readBack at this
    simp only [hx] at this
    rw [hnow, List.append_assoc _ [Event.wrote d]]
    exact this

/-! ## A case -/

namespace Example
open Baron.TT.Example (third conf rpcA rpcC)

def natsConf : TT.Config := { conf with transport := chars% "nats" }

/-- C100's hypotheses can be met: after `ServeNATS`, a request for the second rpc over NATS. -/
example : ∃ client : Val Nat Str Str, ∃ h n, n = 2 * 4 + (h.length + 1) ∧
    Comes world (program (chars% "pkg") third natsConf) (fun k => k.method client (chars% "C") [.ctx (chars% "c"), .msg (requestType rpcC) (some 4)] h)
      (.ok [.msg (responseType rpcC) (some n), .nil]
        (h ++ [.wrote (chars% "1111")] ++ [.call ⟨chars% "C", chars% "backS", some 4⟩, .published (List.replicate (h.length + 1) 'i') (List.replicate n '1')])) := by
  obtain ⟨es, srv, client, -, -, -, h⟩ := C100_served (cfg := natsConf) third_ordinary (by decide +kernel) third_implements (fun _ _ => rfl) [.text (chars% "S")] [.text (chars% "K")]
  obtain ⟨h', h1, h2⟩ := h [] (fun _ hs => by obtain ⟨_, _, hx⟩ := hs; exact absurd hx List.not_mem_nil)
  refine ⟨client, h', _, rfl, ?_⟩
  have := h2 [] (fun _ hs => by obtain ⟨_, _, hx⟩ := hs; exact absurd hx List.not_mem_nil) rpcC (by decide +kernel) (chars% "c") 4 (chars% "1111") (by decide +kernel) (by decide +kernel) _ _ rfl rfl
    (2 * 4 + (h'.length + 1)) (List.replicate (2 * 4 + (h'.length + 1)) '1') (by
      rw [List.append_nil]
      show (some (2 * 4 + (h' ++ [Event.wrote _]).length), none) = _
      rw [List.length_append]
      rfl) rfl (by
      show (if List.replicate (2 * 4 + (h'.length + 1)) '1' = chars% "null" then (0, none) else if (List.replicate (2 * 4 + (h'.length + 1)) '1').all (· = '1') then
        ((List.replicate (2 * 4 + (h'.length + 1)) '1').length, none) else (0, some (chars% "unmarshal"))) = _
      rw [if_neg (ne_of_head (by simp [List.head?_replicate])), if_pos (by simp), List.length_replicate])
  rw [List.append_nil] at this
  have hi : world.inbox (h' ++ [Event.wrote (chars% "1111")]) = List.replicate (h'.length + 1) 'i' := by
    show List.replicate (h' ++ [Event.wrote _]).length 'i' = _
    rw [List.length_append]
    rfl
  rw [hi] at this
  exact this

/-- Without a server there is no reply. -/
example : ∃ client : Val Nat Str Str, Comes world (program (chars% "pkg") third natsConf) (fun k => k.method client (chars% "C") [.ctx (chars% "c"), .msg (requestType rpcC) (some 4)] [])
    (.ok [.nil, .error (chars% "no reply")] [.wrote (chars% "1111")]) := by
  obtain ⟨es, client, handler, -, -, -, h⟩ := C100_call (cfg := natsConf) third_ordinary (by decide +kernel) third_implements []
  exact ⟨client, ((h rpcC (by decide +kernel) (chars% "c") (some 4) []).2 (chars% "1111") (by decide +kernel)).1
    (fun hs => by obtain ⟨_, _, hx⟩ := hs; exact absurd hx List.not_mem_nil)⟩

/-- The error of a service is read as a response by the caller; here that fails. -/
example : ∃ client : Val Nat Str Str, ∃ h : Hist Nat Str Str, ∃ ctx body, readBack world rpcC body = [.nil, .error (chars% "unmarshal")] ∧
    Comes world (program (chars% "pkg") third natsConf) (fun k => k.method client (chars% "C") [.ctx (chars% "c"), .msg (requestType rpcC) (some 0)] h)
      (.ok (readBack world rpcC body) (h ++ [.wrote [], .call ⟨chars% "C", ctx, some 0⟩, .published (world.inbox (h ++ [.wrote []])) body])) := by
  obtain ⟨es, client, handler, -, -, -, h⟩ := C100_call (cfg := natsConf) third_ordinary (by decide +kernel) third_implements []
  have h' := ((h rpcC (by decide +kernel) (chars% "c") (some 0) [.subscribed (subject third rpcC) third.name (handler [] rpcC)]).2 [] (by decide +kernel)).2
    ⟨_, _, List.mem_singleton.mpr rfl⟩ (fun q f hx => by
      have := List.mem_singleton.mp hx
      injection this with h1 h2 h3
      exact ⟨h2, [], h3⟩)
  obtain ⟨options, -, -, h''⟩ := h'
  exact ⟨client, _, natsContext world options, chars% "zero", by rfl, h'' 0 (by decide +kernel) _ _ rfl rfl⟩

end Example

end Baron.GoFunc
