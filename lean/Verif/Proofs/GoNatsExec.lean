import Verif.Proofs.GoFuncExec

/-!
# C100: what the functions for NATS do
-/

namespace Baron.GoFunc

open Baron.Svcdef (Service ServiceMethod)
open Baron.TT (goType)
open Baron.HTTP (look)

variable {M C E : Type} {w : World M C E} {k : Calls M C E} {m : ServiceMethod} {cfg : TT.Config} {pkg : Str} {s : Service}

/-! ## The server -/

def subscriberVal (f : ServiceMethod → Val M C E) (os : List (Val M C E)) (m : ServiceMethod) : Val M C E :=
  .lib newSubscriber (f m :: .func (chars% "pb.DecodeNATS" ++ (m.name ++ chars% "Request")) :: .func (chars% "pb.EncodeNATSGenericResponse") :: os)

def natsServerVal (f : ServiceMethod → Val M C E) (os : List (Val M C E)) (s : Service) : Val M C E :=
  .struct (chars% "pb.natsServer") (s.methods.map fun m => (m.name, subscriberVal f os m))

def natsHandler (f : ServiceMethod → Val M C E) (os : List (Val M C E)) (m : ServiceMethod) : Val M C E := .lib serveMsgHandler [subscriberVal f os m, connection]

theorem name_look (ho : Ordinary pkg s) (hm : m ∈ s.methods) {f : ServiceMethod → Val M C E} : look (s.methods.map fun m => (m.name, f m)) m.name = some (f m) := by
  have key : ∀ {l : List ServiceMethod}, (∀ a ∈ l, a ∈ s.methods) → m ∈ l → look (l.map fun m => (m.name, f m)) m.name = some (f m) := by
    intro l
    induction l with
    | nil => intro _ h; cases h
    | cons a l ih =>
      intro hl h
      rw [List.map_cons, HTTP.look_cons]
      split
      · rename_i e
        rw [rpc_inj ho (hl a (List.mem_cons_self ..)) hm e]
      · rename_i e
        rcases List.mem_cons.mp h with rfl | h
        · exact absurd rfl e
        · exact ih (fun b hb => hl b (List.mem_cons_of_mem _ hb)) h
  exact key (fun _ h => h) hm

theorem subscribers_eval (ho : Ordinary pkg s) {f : ServiceMethod → Val M C E} {os : List (Val M C E)} {h : Hist M C E} : ∀ {l : List ServiceMethod}, (∀ m ∈ l, m ∈ s.methods) →
    (subscribers l).eval w ⟨invoke w (program pkg s cfg) k, method w (program pkg s cfg) k⟩ (chars% "pb")
      [(chars% "endpoints", endpointsVal f s), (chars% "options", .list os), (chars% "serverOptions", .list os)] h =
    .ok (l.map fun m => (m.name, subscriberVal f os m)) h
  | [], _ => rfl
  | m :: l, hl => by
    have hm := hl m (List.mem_cons_self ..)
    have hd := (ho.names m hm).1
    have h1 : fieldOf (endpointsVal f s) (m.name ++ chars% "Endpoint") = some (f m) := field_look ho hm
    have h2 : identOf (chars% "pb") [(chars% "endpoints", endpointsVal f s), (chars% "options", .list os), (chars% "serverOptions", .list os)]
        (chars% "DecodeNATS" ++ (m.name ++ chars% "Request")) = .func (chars% "pb.DecodeNATS" ++ (m.name ++ chars% "Request")) :=
      ident_none rfl (no_dot (by decide) (by decide) hd)
    have h3 : identOf (chars% "pb") [(chars% "endpoints", endpointsVal f s), (chars% "options", .list os), (chars% "serverOptions", .list os)]
        (chars% "EncodeNATSGenericResponse") = .func (chars% "pb.EncodeNATSGenericResponse") :=
      ident_none rfl (by decide)
    have h4 : lookup [(chars% "endpoints", endpointsVal f s), (chars% "options", .list os), (chars% "serverOptions", .list os)] (chars% "endpoints") h =
        (.ok (endpointsVal f s) h : Ans M C E (Val M C E)) := rfl
    have h5 : lookup [(chars% "endpoints", endpointsVal f s), (chars% "options", .list os), (chars% "serverOptions", .list os)] (chars% "serverOptions") h =
        (.ok (.list os) h : Ans M C E (Val M C E)) := rfl
    rw [subscribers]
    simp only [Args.eval, Expr.eval, subscriberArgs, h1, h2, h3, h4, h5, bind_ok, one, elements, List.append_nil, List.map_cons, List.map_map]
    rw [if_neg (by decide), dot_qual (by decide), lib_call rfl]
    simp only [bind_ok]
    rw [subscribers_eval ho fun m' hm' => hl m' (List.mem_cons_of_mem _ hm')]
    simp only [bind_ok, subscriberVal, Function.comp_def, List.map_id']
    rfl

theorem make_nats_server (ho : Ordinary pkg s) (hn : TT.selected (chars% "nats") cfg = true) {f : ServiceMethod → Val M C E} {os : List (Val M C E)} {h : Hist M C E} :
    invoke w (program pkg s cfg) ⟨invoke w (program pkg s cfg) k, method w (program pkg s cfg) k⟩ (.func (chars% "pb.MakeNATSServer")) (endpointsVal f s :: os) h =
      .ok [natsServerVal f os s] h := by
  rw [invoke, find_makeNATSServer hn]
  have hb : bindParams (makeNATSServer s).params (endpointsVal f s :: os) = some [(chars% "endpoints", endpointsVal f s), (chars% "options", .list os)] := by
    cases os <;> rfl
  simp only [callBody, hb]
  show Ans.bind (Code.exec w _ (chars% "pb") (makeNATSServer s).body [(chars% "endpoints", endpointsVal f s), (chars% "options", .list os)] h) _ = _
  rw [makeNATSServer]
  have hv : ∀ v : Val M C E, setVar (chars% "serverOptions") v [(chars% "endpoints", endpointsVal f s), (chars% "options", .list os)] =
    [(chars% "endpoints", endpointsVal f s), (chars% "options", .list os), (chars% "serverOptions", v)] := fun _ => rfl
  have hv' : ∀ u v : Val M C E, setVar (chars% "serverOptions") v [(chars% "endpoints", endpointsVal f s), (chars% "options", .list os), (chars% "serverOptions", u)] =
    [(chars% "endpoints", endpointsVal f s), (chars% "options", .list os), (chars% "serverOptions", v)] := fun _ _ => rfl
  have hi : ∀ v : Val M C E, identOf (chars% "pb") [(chars% "endpoints", endpointsVal f s), (chars% "options", .list os), (chars% "serverOptions", v)] (chars% "serverOptions") = v :=
    fun _ => rfl
  have hl : ∀ v : Val M C E, lookup [(chars% "endpoints", endpointsVal f s), (chars% "options", .list os), (chars% "serverOptions", v)] (chars% "options") h =
    (.ok (.list os) h : Ans M C E (Val M C E)) := fun _ => rfl
  have hg : ∀ v : Val M C E, (Env.get [(chars% "endpoints", endpointsVal f s), (chars% "options", .list os), (chars% "serverOptions", v)] (chars% "serverOptions")).isSome = true :=
    fun _ => rfl
  have hq : qual (chars% "pb") (chars% "natsServer") = chars% "pb.natsServer" := qual_none (by decide)
  simp only [Code.exec, Expr.eval, Args.eval, single, bind_ok, one, List.map_cons, List.map_nil]
  rw [setVars_one (by decide)]
  simp only [hv, hi, hl, elements, bind_ok, List.append_nil, List.map_cons, List.map_map, Function.comp_def, List.map_id', if_true, appended, hg, hv', List.cons_append, List.nil_append]
  show Ans.bind (Ans.bind (Ans.bind (Ans.bind ((subscribers s.methods).eval w _ (chars% "pb") [(chars% "endpoints", endpointsVal f s), (chars% "options", .list os), (chars% "serverOptions", .list os)] h) _) _) _) _ = _
  rw [subscribers_eval ho fun _ h => h]
  simp only [bind_ok, hq]
  rfl

/-! ## `ServeNATS` -/

theorem plain_subject (ho : Ordinary pkg s) (hm : m ∈ s.methods) : TT.Plain (s.name ++ (chars% "." ++ m.name)) := TT.plain_dotted ho.plain.2.1 (ho.plain.2.2 m hm)

theorem look_setVar_ne {x y : Str} {v : Val M C E} (hxy : x ≠ y) : ∀ {env : Env M C E}, look (setVar x v env) y = look env y
  | [] => by rw [setVar, HTTP.look_cons, if_neg hxy]
  | p :: l => by
    rw [setVar]
    split
    · rename_i hp
      rw [show p = (p.1, p.2) from rfl, HTTP.look_cons, HTTP.look_cons, if_neg hxy, if_neg (by rw [hp]; exact hxy)]
    · rw [show p = (p.1, p.2) from rfl, HTTP.look_cons, HTTP.look_cons, look_setVar_ne hxy]

theorem subVar_ne {x : Str} (h : ¬ (chars% "Sub").isSuffixOf x = true) : subVar m ≠ x := by
  intro e
  rw [← e] at h
  exact h (List.isSuffixOf_iff_suffix.mpr ⟨_, rfl⟩)

theorem two_vars {x y : Str} {u v : Val M C E} {env : Env M C E} (hx : x ≠ chars% "_") (hy : y ≠ chars% "_") : setVars [x, y] [u, v] env = some (setVar y v (setVar x u env)) := by
  rw [setVars, if_neg hx, setVars_one hy]

theorem sub_eval (ho : Ordinary pkg s) (hm : m ∈ s.methods) {f : ServiceMethod → Val M C E} {os : List (Val M C E)} {env : Env M C E} {h : Hist M C E}
    (hc : look env (chars% "conn") = some connection) (hs : look env (chars% "srv") = some (natsServerVal f os s)) :
    (Expr.method (chars% "conn") (chars% "QueueSubscribe")
      (.arg [] (.text (s.name ++ (chars% "." ++ m.name))) (chars% ",") <|
      .arg (chars% " ") (.text s.name) (chars% ",") <|
      .arg (chars% " ") (.method2 (chars% "srv") m.name (chars% "ServeMsg") (single [] (.id (chars% "conn")))) [] <|
      .done [])).eval w ⟨invoke w (program pkg s cfg) k, method w (program pkg s cfg) k⟩ (chars% "pb") env h =
    queueSubscribe w [.text (subject s m), .text s.name, natsHandler f os m] h := by
  have h1 : lookup env (chars% "conn") h = .ok connection h := by unfold lookup Env.get; rw [hc]
  have h2 : lookup env (chars% "srv") h = .ok (natsServerVal f os s) h := by unfold lookup Env.get; rw [hs]
  have h3 : identOf (chars% "pb") env (chars% "conn") = connection := by unfold identOf Env.get; rw [hc]; rfl
  have h4 : fieldOf (natsServerVal f os s) m.name = some (subscriberVal f os m) := name_look ho hm
  have h5 := literal_text (plain_subject ho hm)
  have h6 := literal_text ho.plain.2.1
  have h7 : select ⟨invoke w (program pkg s cfg) k, method w (program pkg s cfg) k⟩ (subscriberVal f os m) (chars% "ServeMsg") [connection] h = .ok [natsHandler f os m] h := rfl
  simp only [Expr.eval, Args.eval, single, h1, h2, h3, h4, h5, h6, h7, bind_ok, one, List.map_cons, List.map_nil]
  rfl

theorem subscribe_exec (ho : Ordinary pkg s) {f : ServiceMethod → Val M C E} {os : List (Val M C E)} : ∀ {l : List ServiceMethod} {env : Env M C E} {h : Hist M C E}, (∀ m ∈ l, m ∈ s.methods) →
    look env (chars% "conn") = some connection → look env (chars% "srv") = some (natsServerVal f os s) →
    ∃ env', (subscribeAll s.name l).exec w ⟨invoke w (program pkg s cfg) k, method w (program pkg s cfg) k⟩ (chars% "pb") env h =
      .ok (env', some [(subscribing w s (natsHandler f os) l h).1]) (subscribing w s (natsHandler f os) l h).2
  | [], env, h, _, _, _ => ⟨env, rfl⟩
  | m :: l, env, h, hl, hc, hs => by
    have hm := hl m (List.mem_cons_self ..)
    rw [subscribeAll]
    simp only [Code.exec, sub_eval ho hm hc hs, queueSubscribe]
    rw [subscribing]
    cases hr : w.refused h (subject s m) with
    | some e =>
      simp only [bind_ok]
      rw [two_vars (subVar_ne (by decide)) (by decide)]
      have hi : ∀ env : Env M C E, isErr (setVar (chars% "err") (.error e) env) = some true := by
        intro env
        unfold isErr Env.get
        rw [look_setVar]
      have hj : ∀ env : Env M C E, identOf (chars% "pb") (setVar (chars% "err") (.error e) env) (chars% "err") = .error e := by
        intro env
        unfold identOf Env.get
        rw [look_setVar]
        rfl
      simp only [hi, single, Args.eval, Expr.eval, hj, bind_ok, one, List.map_cons, List.map_nil]
      exact ⟨_, rfl⟩
    | none =>
      simp only [bind_ok]
      rw [two_vars (subVar_ne (by decide)) (by decide)]
      have hi : ∀ env : Env M C E, isErr (setVar (chars% "err") .nil env) = some false := by
        intro env
        unfold isErr Env.get
        rw [look_setVar]
      have hd : ∀ v : Val M C E, (Env.get (setVar (chars% "err") .nil (setVar (subVar m) v env)) (subVar m)).isSome = true := by
        intro v
        unfold Env.get
        rw [look_setVar_ne (subVar_ne (by decide)).symm, look_setVar]
        rfl
      simp only [hi, hd, if_true]
      refine subscribe_exec ho (fun m' hm' => hl m' (List.mem_cons_of_mem _ hm')) ?_ ?_
      · rw [look_setVar_ne (by decide), look_setVar_ne (subVar_ne (by decide)), hc]
      · rw [look_setVar_ne (by decide), look_setVar_ne (subVar_ne (by decide)), hs]

theorem serve_nats (ho : Ordinary pkg s) (hn : TT.selected (chars% "nats") cfg = true) {f : ServiceMethod → Val M C E} {os : List (Val M C E)} {h : Hist M C E} :
    invoke w (program pkg s cfg) ⟨invoke w (program pkg s cfg) k, method w (program pkg s cfg) k⟩ (.func (chars% "pb.ServeNATS")) [connection, natsServerVal f os s] h =
      .ok [(subscribing w s (natsHandler f os) s.methods h).1] (subscribing w s (natsHandler f os) s.methods h).2 := by
  rw [invoke, find_serveNATS hn]
  have hb : bindParams (serveNATS s).params [connection, natsServerVal f os s] = some [(chars% "conn", connection), (chars% "srv", natsServerVal f os s)] := rfl
  simp only [callBody, hb]
  obtain ⟨env', he⟩ := subscribe_exec (w := w) (k := k) (cfg := cfg) ho (f := f) (os := os) (l := s.methods) (env := [(chars% "conn", connection), (chars% "srv", natsServerVal f os s)]) (h := h)
    (fun _ h => h) rfl rfl
  show Ans.bind ((subscribeAll s.name s.methods).exec w _ (chars% "pb") [(chars% "conn", connection), (chars% "srv", natsServerVal f os s)] h) _ = _
  rw [he]
  rfl

/-! ## The client -/

def newPublisherVal (s : Service) (conn : Val M C E) (os : List (Val M C E)) (m : ServiceMethod) : Val M C E :=
  .lib newPublisher (conn :: .text (subject s m) :: .func (chars% "pb.EncodeNATSGenericRequest") :: .func (chars% "pb.DecodeNATS" ++ (m.name ++ chars% "Response")) :: os)

def publisherVal (s : Service) (conn : Val M C E) (os : List (Val M C E)) (m : ServiceMethod) : Val M C E := .lib publisherEndpoint [newPublisherVal s conn os m]

theorem publisher_eval (ho : Ordinary pkg s) (hm : m ∈ s.methods) {conn : Val M C E} {os : List (Val M C E)} {vars : Env M C E} (hv : ∀ p ∈ vars, ∃ m, p.1 = endpointVar m) {h : Hist M C E} :
    (Expr.dot (.call (chars% "natstransport.NewPublisher") (publisherArgs s.name m)) (chars% "Endpoint")).eval w ⟨invoke w (program pkg s cfg) k, method w (program pkg s cfg) k⟩ (chars% "pb")
      ((chars% "conn", conn) :: (chars% "options", .list os) :: vars) h = .ok [publisherVal s conn os m] h := by
  have hd := (ho.names m hm).1
  have h1 : identOf (chars% "pb") ((chars% "conn", conn) :: (chars% "options", .list os) :: vars) (chars% "conn") = conn := rfl
  have h2 : identOf (chars% "pb") ((chars% "conn", conn) :: (chars% "options", .list os) :: vars) (chars% "EncodeNATSGenericRequest") =
      .func (chars% "pb.EncodeNATSGenericRequest") :=
    ident_none (codec_var_ne (a := chars% "EncodeNATS") (b := chars% "Request") hv (Or.inl rfl) (Or.inl rfl) (chars% "Generic")) (by decide)
  have h3 : identOf (chars% "pb") ((chars% "conn", conn) :: (chars% "options", .list os) :: vars) (chars% "DecodeNATS" ++ (m.name ++ chars% "Response")) =
      .func (chars% "pb.DecodeNATS" ++ (m.name ++ chars% "Response")) :=
    ident_none (codec_var_ne hv (Or.inr rfl) (Or.inr rfl) _) (no_dot (by decide) (by decide) hd)
  have h4 := literal_text (plain_subject ho hm)
  have h6 : lookup ((chars% "conn", conn) :: (chars% "options", .list os) :: vars) (chars% "options") h = (.ok (.list os) h : Ans M C E (Val M C E)) := rfl
  simp only [Expr.eval, Args.eval, publisherArgs, h1, h2, h3, h4, h6, bind_ok, one, elements, List.append_nil, List.map_cons, List.map_map, Function.comp_def, List.map_id']
  rw [if_neg (by decide), dot_qual (by decide), lib_call rfl]
  rfl

theorem publishers_exec (ho : Ordinary pkg s) {conn : Val M C E} {os : List (Val M C E)} {h : Hist M C E} {rest : Code} : ∀ {l done : List ServiceMethod}, (done ++ l).map (fun m => toLower m.name) |>.Nodup →
    (∀ m ∈ l, m ∈ s.methods) →
    (publishers s.name rest l).exec w ⟨invoke w (program pkg s cfg) k, method w (program pkg s cfg) k⟩ (chars% "pb")
      ([(chars% "conn", conn), (chars% "options", .list os)] ++ endpointVars (publisherVal s conn os) done) h =
    rest.exec w ⟨invoke w (program pkg s cfg) k, method w (program pkg s cfg) k⟩ (chars% "pb") ([(chars% "conn", conn), (chars% "options", .list os)] ++ endpointVars (publisherVal s conn os) (done ++ l)) h
  | [], done, _, _ => by rw [List.append_nil]; rfl
  | m :: l, done, hn, hl => by
    have ha : Apart ([(chars% "conn", conn), (chars% "options", .list os)] : Env M C E) := apart_of [chars% "conn", chars% "options"] rfl (by decide)
    have hm := hl m (List.mem_cons_self ..)
    have hnot : toLower m.name ∉ done.map fun m => toLower m.name := by
      rw [List.map_append, List.map_cons, List.nodup_append] at hn
      intro e
      exact hn.2.2 _ e _ (List.mem_cons_self ..) rfl
    have hnone := env_none (f := publisherVal s conn os) (l := done) ha hnot
    have hz : ∀ v : Val M C E, look ([(chars% "conn", conn), (chars% "options", .list os)] ++ endpointVars (publisherVal s conn os) done ++ [(endpointVar m, v)]) (endpointVar m) = some v := by
      intro v
      rw [look_append, hnone, HTTP.look_cons, if_pos rfl]
      rfl
    have ce : ∀ v : Val M C E, (Expr.dot (.call (chars% "natstransport.NewPublisher") (publisherArgs s.name m)) (chars% "Endpoint")).eval w
        ⟨invoke w (program pkg s cfg) k, method w (program pkg s cfg) k⟩ (chars% "pb")
        ([(chars% "conn", conn), (chars% "options", .list os)] ++ endpointVars (publisherVal s conn os) done ++ [(endpointVar m, v)]) h =
        .ok [publisherVal s conn os m] h := fun v => publisher_eval ho hm (vars_names _ _)
    rw [publishers]
    simp only [Code.exec]
    unfold Env.get
    rw [hnone, setVar_new hnone, if_neg (by simp)]
    rw [ce]
    simp only [bind_ok, one, hz, Option.isSome_some, if_true]
    rw [setVar_last hnone, List.append_assoc, vars_snoc]
    have := publishers_exec ho (conn := conn) (os := os) (h := h) (rest := rest) (l := l) (done := done ++ [m]) (by rwa [List.append_assoc]) fun m' hm' => hl m' (List.mem_cons_of_mem _ hm')
    rw [List.append_assoc] at this
    exact this

theorem new_nats_client (ho : Ordinary pkg s) (hn : TT.selected (chars% "nats") cfg = true) {conn : Val M C E} {os : List (Val M C E)} {h : Hist M C E} :
    invoke w (program pkg s cfg) ⟨invoke w (program pkg s cfg) k, method w (program pkg s cfg) k⟩ (.func (chars% "pb.NewNATSClient")) (conn :: os) h =
      .ok [endpointsVal (publisherVal s conn os) s, .nil] h := by
  have ha : Apart ([(chars% "conn", conn), (chars% "options", .list os)] : Env M C E) := apart_of [chars% "conn", chars% "options"] rfl (by decide)
  rw [invoke, find_newNATSClient hn]
  have hb : bindParams (newNATSClient s).params (conn :: os) = some [(chars% "conn", conn), (chars% "options", .list os)] := by
    cases os <;> rfl
  simp only [callBody, hb]
  show Ans.bind (Code.exec w _ (chars% "pb") (newNATSClient s).body ([(chars% "conn", conn), (chars% "options", .list os)] ++ endpointVars (publisherVal s conn os) []) h) _ = _
  rw [newNATSClient]
  rw [publishers_exec ho (by simpa using ho.lower) fun _ h => h, List.nil_append]
  have h2 := named_eval (w := w) (k := ⟨invoke w (program pkg s cfg) k, method w (program pkg s cfg) k⟩) (pkg := chars% "pb") (last := chars% "\n\t")
    (env := [(chars% "conn", conn), (chars% "options", .list os)] ++ endpointVars (publisherVal s conn os) s.methods) (f := publisherVal s conn os) (h := h) (l := s.methods)
    (fun m hm => env_some ha ho.lower hm)
  have hq : qual (chars% "pb") (chars% "Endpoints") = chars% "pb.Endpoints" := qual_none (by decide)
  simp only [Code.exec, Expr.eval, Args.eval, pair, h2, bind_ok, one, hq, List.map_cons, List.map_nil]
  rfl

/-! ## Encoders and decoders -/

theorem lib_encoders {q : Str} (hq : isLib q = true) {args : List (Val M C E)} {h : Hist M C E} : invoke w (program pkg s cfg) k (.func q) args h = libCall w q args h := by
  unfold invoke
  simp only
  rw [lib_none hq]

theorem encode_nats_request (hn : TT.selected (chars% "nats") cfg = true) {c : C} {v : Val M C E} {h : Hist M C E} :
    invoke w (program pkg s cfg) ⟨invoke w (program pkg s cfg) k, method w (program pkg s cfg) k⟩ (.func (chars% "pb.EncodeNATSGenericRequest")) [.ctx c, natsMsg [], v] h =
      match w.marshal v with
      | .ok d => .ok [.nil] (h ++ [.wrote d])
      | .error e => .ok [.error e] h := by
  have hl : libCall w (chars% "natstransport.EncodeJSONRequest") [.ctx c, natsMsg [], v] h = match w.marshal v with
      | .ok d => .ok [.nil] (h ++ [.wrote d])
      | .error e => .ok [.error e] h := by
    unfold libCall
    rw [if_pos (by decide)]
    rfl
  rw [invoke, find_encodeNATSRequest hn]
  show Ans.bind (Ans.bind (Ans.bind (if chars% "natstransport.EncodeJSONRequest" = chars% "append" then appended [.ctx c, natsMsg [], v] h else
    invoke w (program pkg s cfg) k (.func (qual (chars% "pb") (chars% "natstransport.EncodeJSONRequest"))) [.ctx c, natsMsg [], v] h) _) _) _ = _
  rw [if_neg (by decide), dot_qual (by decide), lib_encoders rfl, hl]
  cases w.marshal v <;> rfl

theorem encode_nats_response (hn : TT.selected (chars% "nats") cfg = true) {c : C} {reply : Str} {v : Val M C E} {h : Hist M C E} :
    invoke w (program pkg s cfg) ⟨invoke w (program pkg s cfg) k, method w (program pkg s cfg) k⟩ (.func (chars% "pb.EncodeNATSGenericResponse")) [.ctx c, .text reply, connection, v] h =
      match w.marshal v with
      | .ok d => .ok [.nil] (h ++ [.published reply d])
      | .error e => .ok [.error e] h := by
  have hl : libCall w (chars% "natstransport.EncodeJSONResponse") [.ctx c, .text reply, connection, v] h = match w.marshal v with
      | .ok d => .ok [.nil] (h ++ [.published reply d])
      | .error e => .ok [.error e] h := by
    unfold libCall
    rw [if_neg (by decide), if_pos (by decide)]
    rfl
  rw [invoke, find_encodeNATSResponse hn]
  show Ans.bind (Ans.bind (Ans.bind (if chars% "natstransport.EncodeJSONResponse" = chars% "append" then appended [.ctx c, .text reply, connection, v] h else
    invoke w (program pkg s cfg) k (.func (qual (chars% "pb") (chars% "natstransport.EncodeJSONResponse"))) [.ctx c, .text reply, connection, v] h) _) _) _ = _
  rw [if_neg (by decide), dot_qual (by decide), lib_encoders rfl, hl]
  cases w.marshal v <;> rfl

/-- A message of a type, read from data. -/
def readAs (w : World M C E) (t d : Str) : List (Val M C E) :=
  match w.unmarshal t (w.empty t) d with
  | (x, none) => [.msg t (some x), .nil]
  | (_, some e) => [.nil, .error e]

theorem read_exec {t q d : Str} {c : C} {h : Hist M C E} (hq : qual (chars% "pb") t = q) (hz : q ≠ chars% "endpoint.Endpoint") {var : Str} (hv : var = chars% "req" ∨ var = chars% "resp") :
    (Code.exec w k (chars% "pb") (readJSON var t) [(chars% "ctx", .ctx c), (chars% "msg", natsMsg d)] h).bind (fun x h => match x.2 with
      | some vs => .ok vs h
      | none => .stuck) = .ok (readAs w q d) h := by
  have hz' : zeroOf w q = .msg q (some (w.empty q)) := if_neg hz
  unfold readJSON readAs
  rcases hv with rfl | rfl
  all_goals
    simp only [Code.exec, hq, hz']
    first
    | rw [if_neg (show ¬ (Env.get [(chars% "ctx", .ctx c), (chars% "msg", natsMsg d)] (chars% "req") : Option (Val M C E)).isSome = true from Bool.false_ne_true)]
    | rw [if_neg (show ¬ (Env.get [(chars% "ctx", .ctx c), (chars% "msg", natsMsg d)] (chars% "resp") : Option (Val M C E)).isSome = true from Bool.false_ne_true)]
    rw [show unmarshalled w (setVar _ (Val.msg q (some (w.empty q))) [(chars% "ctx", .ctx c), (chars% "msg", natsMsg d)]) (chars% "msg") _ =
      some (.msg q (some (w.unmarshal q (w.empty q) d).1), (w.unmarshal q (w.empty q) d).2) from rfl]
    obtain ⟨x, e⟩ := w.unmarshal q (w.empty q) d
    cases e <;> rfl

theorem qual_not_endpoint {t : Str} (h : '.' ∉ t) : qual (chars% "pb") t ≠ chars% "endpoint.Endpoint" := by
  rw [qual_none h]
  exact ne_of_head (by simp)

theorem decode_nats_request (ho : Ordinary pkg s) (hn : TT.selected (chars% "nats") cfg = true) (hm : m ∈ s.methods) {c : C} {d : Str} {h : Hist M C E} :
    invoke w (program pkg s cfg) k (.func (chars% "pb.DecodeNATS" ++ (m.name ++ chars% "Request"))) [.ctx c, natsMsg d] h = .ok (readAs w (requestType m) d) h := by
  have hd := (ho.names m hm).2.1
  rw [invoke, find_decodeNATSRequest ho hm hn]
  exact read_exec (qual_request hd) (by rw [← qual_request hd]; exact qual_not_endpoint hd) (Or.inl rfl)

theorem decode_nats_response (ho : Ordinary pkg s) (hn : TT.selected (chars% "nats") cfg = true) (hm : m ∈ s.methods) {c : C} {d : Str} {h : Hist M C E} :
    invoke w (program pkg s cfg) k (.func (chars% "pb.DecodeNATS" ++ (m.name ++ chars% "Response"))) [.ctx c, natsMsg d] h = .ok (readAs w (responseType m) d) h := by
  have hd := (ho.names m hm).2.2
  rw [invoke, find_decodeNATSResponse ho hm hn]
  exact read_exec (qual_response hd) (by rw [← qual_response hd]; exact qual_not_endpoint hd) (Or.inr rfl)

/-! ## A message on the server -/

theorem handle_bad (ho : Ordinary pkg s) (hn : TT.selected (chars% "nats") cfg = true) (hm : m ∈ s.methods) {f : ServiceMethod → Val M C E} {os : List (Val M C E)} {d inbox : Str} {h : Hist M C E}
    {x : M} {e : E} (hd : w.unmarshal (requestType m) (w.empty (requestType m)) d = (x, some e)) :
    handle w ⟨invoke w (program pkg s cfg) k, method w (program pkg s cfg) k⟩ (natsHandler f os m) d inbox h = .ok () (h ++ [.published inbox (w.errorBody e)]) := by
  have hr : ∀ h : Hist M C E, readAs w (requestType m) d = ([.nil, .error e] : List (Val M C E)) := by
    intro _
    unfold readAs
    rw [hd]
  show serveMsg w _ (f m) (.func (chars% "pb.DecodeNATS" ++ (m.name ++ chars% "Request"))) (.func (chars% "pb.EncodeNATSGenericResponse")) os connection d inbox h = _
  unfold serveMsg
  simp only [decode_nats_request ho hn hm, hr h, orSend, bind_ok]

theorem handle_good (ho : Ordinary pkg s) (hn : TT.selected (chars% "nats") cfg = true) (hm : m ∈ s.methods) {f : ServiceMethod → Val M C E} {os : List (Val M C E)} {d inbox : Str} {h h' : Hist M C E}
    {q : M} {a : Option M × Option E} (hd : w.unmarshal (requestType m) (w.empty (requestType m)) d = (q, none))
    (he : invoke w (program pkg s cfg) ⟨invoke w (program pkg s cfg) k, method w (program pkg s cfg) k⟩ (f m) [.ctx (natsContext w os), .msg (requestType m) (some q)] h = .ok (answer m a) h') :
    handle w ⟨invoke w (program pkg s cfg) ⟨invoke w (program pkg s cfg) k, method w (program pkg s cfg) k⟩, method w (program pkg s cfg) ⟨invoke w (program pkg s cfg) k, method w (program pkg s cfg) k⟩⟩
      (natsHandler f os m) d inbox h = .ok () (h' ++ [.published inbox (natsBody w m a)]) := by
  have hr : ∀ h : Hist M C E, readAs w (requestType m) d = ([.msg (requestType m) (some q), .nil] : List (Val M C E)) := by
    intro _
    unfold readAs
    rw [hd]
  have hc : os.foldl (fun c o => w.option o c) w.background = natsContext w os := rfl
  show serveMsg w _ (f m) (.func (chars% "pb.DecodeNATS" ++ (m.name ++ chars% "Request"))) (.func (chars% "pb.EncodeNATSGenericResponse")) os connection d inbox h = _
  unfold serveMsg
  simp only [decode_nats_request ho hn hm, hr h, orSend, bind_ok, hc, he]
  obtain ⟨a1, a2⟩ := a
  cases a2 with
  | some e => rfl
  | none =>
    simp only [answer, natsBody, encode_nats_response hn]
    cases w.marshal (.msg (responseType m) a1) <;> rfl

/-! ## A call -/

theorem mem_subscriptions {subject : Str} {h : Hist M C E} {x : Str × Val M C E} : x ∈ subscriptions subject h ↔ Event.subscribed subject x.1 x.2 ∈ h := by
  unfold subscriptions
  rw [List.mem_filterMap]
  constructor
  · rintro ⟨e, he, hx⟩
    cases e with
    | subscribed s q f =>
      simp only at hx
      split at hx
      · rename_i hs
        cases hx
        rw [← hs]
        exact he
      · cases hx
    | _ => cases hx
  · intro he
    exact ⟨_, he, if_pos rfl⟩

theorem subscriptions_wrote {subject d : Str} {h : Hist M C E} : subscriptions subject (h ++ [.wrote d]) = subscriptions subject h := by
  unfold subscriptions
  rw [List.filterMap_append]
  exact List.append_nil _

theorem request_none {subject : Str} {h : Hist M C E} (hs : ¬ Subscribed subject h) {d : Str} : natsRequest w k subject d h = .ok none h := by
  have : subscriptions subject h = [] := by
    refine List.eq_nil_iff_forall_not_mem.mpr fun x hx => hs ⟨x.1, x.2, mem_subscriptions.mp hx⟩
  unfold natsRequest
  rw [this]

theorem request_some {subject queue : Str} {h : Hist M C E} {P : Val M C E → Prop} (hs : Subscribed subject h)
    (ha : ∀ q f, Event.subscribed subject q f ∈ h → q = queue ∧ P f) (d : Str) : ∃ f, P f ∧ Event.subscribed subject queue f ∈ h ∧
      ∀ k, natsRequest w k subject d h = (handle w k f d (w.inbox h) h).bind fun _ h' => .ok (replyTo (w.inbox h) (h'.drop h.length)) h' := by
  obtain ⟨q0, f0, h0⟩ := hs
  have hne : (q0, f0) ∈ subscriptions subject h := mem_subscriptions.mpr h0
  have hall : ∀ x ∈ subscriptions subject h, x.1 = queue ∧ P x.2 := fun x hx => ha _ _ (mem_subscriptions.mp hx)
  have hmem : ∀ x ∈ subscriptions subject h, Event.subscribed subject x.1 x.2 ∈ h := fun x hx => mem_subscriptions.mp hx
  unfold natsRequest
  generalize subscriptions subject h = l at hne hall hmem
  match l with
  | [] => cases hne
  | (q, f) :: r =>
    have hr : (r.all fun x => decide (x.1 = q)) = true := by
      rw [List.all_eq_true]
      intro x hx
      rw [decide_eq_true_eq, (hall x (List.mem_cons_of_mem _ hx)).1]
      exact (hall (q, f) (List.mem_cons_self ..)).1.symm
    have hlt : w.chosen h % (r.length + 1) < ((q, f) :: r).length := Nat.mod_lt _ (Nat.succ_pos _)
    have hx := List.getElem_mem hlt
    refine ⟨(((q, f) :: r)[w.chosen h % (r.length + 1)]'hlt).2, (hall _ hx).2, ?_, ?_⟩
    · have := hmem _ hx
      rw [(hall _ hx).1] at this
      exact this
    · intro k
      simp only [hr]
      rw [if_neg (by decide), List.getElem?_eq_getElem hlt]

theorem reply_found {inbox b : Str} {h t : Hist M C E} (ht : replyTo inbox t = none) : replyTo inbox ((h ++ t ++ [Event.published inbox b]).drop h.length) = some b := by
  rw [List.append_assoc, List.drop_left]
  unfold replyTo at ht ⊢
  rw [List.findSome?_append, ht]
  simp

theorem written_last {h : Hist M C E} {d : Str} : written (h ++ [.wrote d]) = d := by
  unfold written
  rw [List.getLast?_append]
  rfl

theorem publisher_unsent (hn : TT.selected (chars% "nats") cfg = true) {os : List (Val M C E)} {c : C} {v : Val M C E} {h : Hist M C E} {e : E} (he : w.marshal v = .error e) :
    invoke w (program pkg s cfg) ⟨invoke w (program pkg s cfg) ⟨invoke w (program pkg s cfg) k, method w (program pkg s cfg) k⟩, method w (program pkg s cfg) ⟨invoke w (program pkg s cfg) k, method w (program pkg s cfg) k⟩⟩
      (publisherVal s connection os m) [.ctx c, v] h = .ok [.nil, .error e] h := by
  show callNATS w _ (subject s m) (.func (chars% "pb.EncodeNATSGenericRequest")) (.func (chars% "pb.DecodeNATS" ++ (m.name ++ chars% "Response"))) c v h = _
  unfold callNATS
  simp only [encode_nats_request hn, he, bind_ok]

theorem publisher_alone (hn : TT.selected (chars% "nats") cfg = true) {os : List (Val M C E)} {c : C} {v : Val M C E} {h : Hist M C E} {d : Str} (hd : w.marshal v = .ok d) (hs : ¬ Subscribed (subject s m) h) :
    invoke w (program pkg s cfg) ⟨invoke w (program pkg s cfg) ⟨invoke w (program pkg s cfg) k, method w (program pkg s cfg) k⟩, method w (program pkg s cfg) ⟨invoke w (program pkg s cfg) k, method w (program pkg s cfg) k⟩⟩
      (publisherVal s connection os m) [.ctx c, v] h = .ok [.nil, .error w.noReply] (h ++ [.wrote d]) := by
  have hs' : ¬ Subscribed (subject s m) (h ++ [.wrote d]) := by
    rintro ⟨q, f, hx⟩
    rcases List.mem_append.mp hx with hx | hx
    · exact hs ⟨q, f, hx⟩
    · cases List.mem_singleton.mp hx
  show callNATS w _ (subject s m) (.func (chars% "pb.EncodeNATSGenericRequest")) (.func (chars% "pb.DecodeNATS" ++ (m.name ++ chars% "Response"))) c v h = _
  unfold callNATS
  simp only [encode_nats_request hn, hd, bind_ok, request_none hs']

theorem publisher_reply (ho : Ordinary pkg s) (hn : TT.selected (chars% "nats") cfg = true) (hm : m ∈ s.methods) {os : List (Val M C E)} {c : C} {v : Val M C E} {h h' : Hist M C E} {d b : Str}
    (hd : w.marshal v = .ok d)
    (hr : natsRequest w ⟨invoke w (program pkg s cfg) ⟨invoke w (program pkg s cfg) k, method w (program pkg s cfg) k⟩, method w (program pkg s cfg) ⟨invoke w (program pkg s cfg) k, method w (program pkg s cfg) k⟩⟩
      (subject s m) d (h ++ [.wrote d]) = .ok (some b) h') :
    invoke w (program pkg s cfg) ⟨invoke w (program pkg s cfg) ⟨invoke w (program pkg s cfg) k, method w (program pkg s cfg) k⟩, method w (program pkg s cfg) ⟨invoke w (program pkg s cfg) k, method w (program pkg s cfg) k⟩⟩
      (publisherVal s connection os m) [.ctx c, v] h = .ok (readBack w m b) h' := by
  show callNATS w _ (subject s m) (.func (chars% "pb.EncodeNATSGenericRequest")) (.func (chars% "pb.DecodeNATS" ++ (m.name ++ chars% "Response"))) c v h = _
  unfold callNATS
  simp only [encode_nats_request hn, hd, bind_ok, written_last, hr, decode_nats_response ho hn hm, orFail]
  unfold readAs readBack
  obtain ⟨x, e⟩ := w.unmarshal (responseType m) (w.empty (responseType m)) b
  cases e <;> rfl

/-- What is read back, as the answer of a service. -/
theorem readBack_answer (w : World M C E) (m : ServiceMethod) (b : Str) : ∃ a, readBack w m b = answer m a := by
  unfold readBack
  obtain ⟨x, e⟩ := w.unmarshal (responseType m) (w.empty (responseType m)) b
  cases e with
  | none => exact ⟨(some x, none), rfl⟩
  | some e => exact ⟨(none, some e), rfl⟩

end Baron.GoFunc
