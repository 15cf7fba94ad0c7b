import Verif.Model.GoRoutes
import Verif.Proofs.Literal
import Verif.Proofs.GoHTTP
import Verif.Proofs.Transport
import Verif.Proofs.Runtime

/-!
# Running `MakeHTTPHandler` and `NewHTTPClient` (C102)
-/

namespace Baron.GoRoutes

open Baron.HTTP (look look_cons)
open Baron.GoHTTP (look_cons_eq look_cons_ne)
open Baron.TT (literal httpRpcs numbered Plain literalGo_clean)
open Baron.Svcdef (Service ServiceMethod HTTPBinding)

variable {E : Type}

theorem literal_plain {p : Str} (h : Plain p) : literal (p ++ ['"']) = some (p, []) := by
  unfold literal
  exact literalGo_clean h.1 h.2.1 h.2.2 _ (by rw [List.length_append]; exact Nat.lt_succ_of_lt (Nat.lt_succ_self _))

theorem eval_quoted (w : World) (st : St E) {p : Str} (h : Plain p) : (Expr.quoted p).eval w st = .ok [.text p] st := by
  simp only [Expr.eval, literal_plain h, some?, Ans.bind]
  exact if_pos trivial

theorem toUpper_idem (s : Str) : toUpper (toUpper s) = toUpper s := by
  unfold toUpper
  rw [List.map_map]
  exact List.map_congr_left fun c _ => Runtime.upperC_idem c

theorem plain_of {p : Str} (h : p.all (fun c => c != '"' && c != '\\' && c != '\n') = true) : Plain p := by
  rw [List.all_eq_true] at h
  refine ⟨fun hc => ?_, fun hc => ?_, fun hc => ?_⟩ <;> exact absurd (h _ hc) (by decide)

/-! ## The handler -/

/-- The options in the variables: the ones that are always there, and then the caller's. -/
def allOptions (opts : List (Val E)) : List (Val E) :=
  .lib (chars% "httptransport.ServerBefore") [.func (chars% "HTTPHeadersToContext")] ::
  .lib (chars% "httptransport.ServerErrorEncoder") [.func (chars% "errorEncoder")] ::
  .lib (chars% "httptransport.ServerAfter") [.lib (chars% "httptransport.SetContentType") [.text Runtime.contentType]] :: opts

/-- The handler of a binding. -/
def serverOf (fields : List (Str × Val E)) (opts : List (Val E)) (rpc label : Str) : Val E :=
  .lib (chars% "httptransport.NewServer") ((look fields (rpc ++ chars% "Endpoint")).getD .nil :: .func (chars% "DecodeHTTP" ++ (label ++ chars% "Request")) ::
    .func (chars% "EncodeHTTPGenericResponse") :: allOptions opts)

/-- The variables where routes are added. -/
def routeVars (fields : List (Str × Val E)) (opts : List (Val E)) : Vars E :=
  [(chars% "m", .router), (chars% "serverOptions", .list (allOptions opts)), (chars% "options", .list opts), (chars% "endpoints", .struct (chars% "Endpoints") fields)]

theorem ident_func (vars : Vars E) (x : Str) (h : look vars x = none) (hc : x ≠ chars% "contentType") : ident vars x = .func x := by
  rw [ident, h]
  exact if_neg hc

theorem look_routeVars (fields : List (Str × Val E)) (opts : List (Val E)) (x : Str) (h : x.head? = some 'D' ∨ x.head? = some 'E') :
    look (routeVars fields opts) x = none := by
  have hne : ∀ y : Str, y.head? ≠ some 'D' → y.head? ≠ some 'E' → y ≠ x := by
    rintro y h1 h2 rfl
    rcases h with h | h
    · exact h1 h
    · exact h2 h
  unfold routeVars
  rw [look_cons_ne _ _ (eq_false (hne _ (by decide) (by decide))), look_cons_ne _ _ (eq_false (hne _ (by decide) (by decide))),
    look_cons_ne _ _ (eq_false (hne _ (by decide) (by decide))), look_cons_ne _ _ (eq_false (hne _ (by decide) (by decide)))]
  rfl

theorem callOf_lib (w : World) {f : Str} {as : List (Val E)} {st : St E} (h : f ∈ [chars% "httptransport.ServerBefore", chars% "httptransport.ServerErrorEncoder", chars% "httptransport.ServerAfter",
      chars% "httptransport.SetContentType", chars% "httptransport.NewServer", chars% "httptransport.NewClient"]) : callOf w f as st = .ok [.lib f as] st := by
  simp only [List.mem_cons, List.not_mem_nil, or_false] at h
  rcases h with rfl | rfl | rfl | rfl | rfl | rfl <;> rfl

theorem eval_newServer (w : World) (fields : List (Str × Val E)) (opts : List (Val E)) (rs : Routes E) (rpc label : Str) :
    (newServer rpc label).eval w ⟨routeVars fields opts, rs⟩ = .ok [serverOf fields opts rpc label] ⟨routeVars fields opts, rs⟩ := by
  have h1 : ident (routeVars fields opts) (chars% "endpoints") = .struct (chars% "Endpoints") fields := rfl
  have h2 : ident (routeVars fields opts) (chars% "DecodeHTTP" ++ (label ++ chars% "Request")) = .func (chars% "DecodeHTTP" ++ (label ++ chars% "Request")) :=
    ident_func _ _ (look_routeVars _ _ _ (.inl rfl)) (fun h => absurd (congrArg List.head? h) (by simp))
  have h3 : ident (routeVars fields opts) (chars% "EncodeHTTPGenericResponse") = .func (chars% "EncodeHTTPGenericResponse") := rfl
  have h4 : ident (routeVars fields opts) (chars% "serverOptions") = .list (allOptions opts) := rfl
  unfold newServer
  simp only [Expr.eval, Args.eval, Ans.bind, one, some?, h1, h2, h3, h4, fieldOf, spreadOf]
  rw [callOf_lib w (by simp)]
  rw [List.append_nil]
  rfl

theorem exec_route (w : World) (fields : List (Str × Val E)) (opts : List (Val E)) (rs : Routes E) (m : ServiceMethod) (b : HTTPBinding × Nat) (rest : Code)
    (hv : Plain (toUpper b.1.verb)) (hp : Plain b.1.path) : (routeCode m b rest).exec w ⟨routeVars fields opts, rs⟩ =
      rest.exec w ⟨routeVars fields opts, rs ++ [(toUpper b.1.verb, b.1.path, serverOf fields opts m.name (m.name ++ HTTP.englishNumber b.2))]⟩ := by
  have h1 : ident (routeVars fields opts) (chars% "m") = .router := rfl
  have e1 := fun rs : Routes E => eval_quoted w ⟨routeVars fields opts, rs⟩ hv
  have e2 := fun rs : Routes E => eval_quoted w ⟨routeVars fields opts, rs⟩ hp
  have e3 := fun rs : Routes E => eval_newServer w fields opts rs m.name (m.name ++ HTTP.englishNumber b.2)
  have m1 : ∀ (v : Str) (st : St E), methodOf .router (chars% "Methods") [.text v] st = .ok [.lib (chars% "Methods") [.text (toUpper v)]] st := fun v st => rfl
  have m2 : ∀ (v p : Str) (st : St E), methodOf (.lib (chars% "Methods") [.text v]) (chars% "Path") [.text p] st = .ok [.lib (chars% "Path") [.text v, .text p]] st := fun v p st => rfl
  have m3 : ∀ (v p : Str) (h : Val E) (st : St E), methodOf (.lib (chars% "Path") [.text v, .text p]) (chars% "Handler") [h] st =
    .ok [.lib (chars% "Handler") [.text v, .text p, h]] { st with routes := st.routes ++ [(v, p, h)] } := fun v p h st => rfl
  unfold routeCode
  simp only [Code.exec]
  unfold Expr.eval
  unfold Expr.eval
  unfold Expr.eval
  unfold Expr.eval
  simp only [Args.eval, args, Ans.bind, one, h1, e1, e2, e3, m1, m2, m3, toUpper_idem]

theorem exec_bindings (w : World) (fields : List (Str × Val E)) (opts : List (Val E)) (m : ServiceMethod) (l : List (HTTPBinding × Nat)) (rest : Code) :
    ∀ rs : Routes E, (∀ b ∈ l, Plain (toUpper b.1.verb) ∧ Plain b.1.path) → (l.foldr (routeCode m) rest).exec w ⟨routeVars fields opts, rs⟩ =
      rest.exec w ⟨routeVars fields opts, rs ++ l.map fun b => (toUpper b.1.verb, b.1.path, serverOf fields opts m.name (m.name ++ HTTP.englishNumber b.2))⟩ := by
  induction l with
  | nil => intro rs _; rw [List.map_nil, List.append_nil]; rfl
  | cons b l ih =>
    intro rs h
    rw [List.foldr_cons, exec_route w fields opts rs m b _ (h b List.mem_cons_self).1 (h b List.mem_cons_self).2,
      ih _ fun b' hb => h b' (List.mem_cons_of_mem _ hb), List.map_cons, List.append_assoc]
    rfl

/-- The routes of an rpc. -/
def rpcRoutes (fields : List (Str × Val E)) (opts : List (Val E)) (m : ServiceMethod) : Routes E :=
  (numbered m).map fun b => (toUpper b.1.verb, b.1.path, serverOf fields opts m.name (m.name ++ HTTP.englishNumber b.2))

theorem exec_rpcs (w : World) (fields : List (Str × Val E)) (opts : List (Val E)) (l : List ServiceMethod) (rest : Code) :
    ∀ rs : Routes E, (∀ m ∈ l, ∀ b ∈ m.bindings, Plain (toUpper b.verb) ∧ Plain b.path) → (l.foldr rpcCode rest).exec w ⟨routeVars fields opts, rs⟩ =
      rest.exec w ⟨routeVars fields opts, rs ++ l.flatMap (rpcRoutes fields opts)⟩ := by
  induction l with
  | nil => intro rs _; rw [List.flatMap_nil, List.append_nil]; rfl
  | cons m l ih =>
    intro rs h
    rw [List.foldr_cons, rpcCode]
    simp only [Code.exec]
    rw [exec_bindings w fields opts m _ _ rs, ih _ fun m' hm => h m' (List.mem_cons_of_mem _ hm), List.flatMap_cons, List.append_assoc]
    · rfl
    · intro b hb
      exact h m List.mem_cons_self _ (List.fst_mem_of_mem_zipIdx hb)

theorem run_makeHandler (w : World) (s : Service) (fields : List (Str × Val E)) (opts : List (Val E))
    (h : ∀ m ∈ s.methods, ∀ b ∈ m.bindings, Plain (toUpper b.verb) ∧ Plain b.path) : ∃ st,
    (makeHandler s).run w [.struct (chars% "Endpoints") fields, .list opts] = .ok [.router] st ∧ st.routes = (httpRpcs s).flatMap (rpcRoutes fields opts) := by
  by_cases hn : (httpRpcs s).isEmpty = true
  · have hnil : httpRpcs s = [] := List.isEmpty_iff.mp hn
    refine ⟨⟨[(chars% "m", .router), (chars% "options", .list opts), (chars% "endpoints", .struct (chars% "Endpoints") fields)], []⟩, ?_, by rw [hnil]; rfl⟩
    unfold makeHandler Func.run optionsCode
    rw [hnil]
    rfl
  · refine ⟨⟨routeVars fields opts, (httpRpcs s).flatMap (rpcRoutes fields opts)⟩, ?_, rfl⟩
    unfold makeHandler Func.run optionsCode
    rw [if_neg hn]
    show (Code.exec w (.space (chars% "\n\n\t") ((httpRpcs s).foldr rpcCode _)) ⟨[(chars% "m", .router), (chars% "serverOptions", .list (allOptions (opts ++ []))), (chars% "options", .list opts), (chars% "endpoints", .struct (chars% "Endpoints") fields)], []⟩).bind _ = _
    rw [List.append_nil]
    unfold Code.exec
    rw [show [(chars% "m", .router), (chars% "serverOptions", .list (allOptions opts)), (chars% "options", .list opts), (chars% "endpoints", .struct (chars% "Endpoints") fields)] = routeVars fields opts from rfl]
    rw [exec_rpcs w fields opts (httpRpcs s) _ [] fun m hm => h m (List.mem_filter.mp hm).1, List.nil_append]
    rfl

/-! ## The client -/

/-- The variables before the endpoints are made. -/
def clientVars (u : GoHTTP.URL) (instance' : Str) (opts : List (Val E)) : Vars E :=
  [(chars% "err", .nil), (chars% "u", .url u), (chars% "options", .list opts), (chars% "instance", .text instance')]

/-- The endpoint of a client. -/
def clientOf (u : GoHTTP.URL) (opts : List (Val E)) (m : ServiceMethod) (b : HTTPBinding) : Val E :=
  .lib (chars% "httptransport.NewClient.Endpoint") (.text (toUpper b.verb) :: .url { u with path := b.path.takeWhile (· ≠ '{') } ::
    .func (chars% "EncodeHTTP" ++ ((m.name ++ chars% "Zero") ++ chars% "Request")) :: .func (chars% "DecodeHTTP" ++ (m.name ++ chars% "Response")) :: opts)

/-- The variables with endpoints. -/
def endpointVars (u : GoHTTP.URL) (opts : List (Val E)) (l : List ServiceMethod) : Vars E :=
  l.flatMap fun m => (m.bindings.take 1).map fun b => (m.name ++ chars% "ZeroEndpoint", clientOf u opts m b)

theorem look_endpointVars (u : GoHTTP.URL) (opts : List (Val E)) (l : List ServiceMethod) (base : Vars E) (x : Str)
    (h : x.reverse.take 2 ≠ ['t', 'n']) : look (endpointVars u opts l ++ base) x = look base x := by
  have : ∀ v : Vars E, (∀ p ∈ v, p.1 ≠ x) → look (v ++ base) x = look base x := by
    intro v
    induction v with
    | nil => intro _; rfl
    | cons p v ih =>
      intro hv
      obtain ⟨y, a⟩ := p
      rw [List.cons_append, look_cons_ne _ _ (eq_false (hv _ List.mem_cons_self))]
      exact ih fun q hq => hv q (List.mem_cons_of_mem _ hq)
  refine this _ fun p hp => ?_
  obtain ⟨m, -, hp⟩ := List.mem_flatMap.mp hp
  obtain ⟨b, -, rfl⟩ := List.mem_map.mp hp
  rintro rfl
  refine h ?_
  rw [List.reverse_append]
  rfl

theorem eval_newClient (w : World) (hc : ∀ u p, w.copyURL u p = some { u with path := p }) (u : GoHTTP.URL) (opts : List (Val E)) (m : ServiceMethod) (b : HTTPBinding)
    (hv : Plain (toUpper b.verb)) (hp : Plain (b.path.takeWhile (· ≠ '{'))) (st : St E) (h1 : ident st.vars (chars% "u") = .url u)
    (h2 : ident st.vars (chars% "options") = .list opts)
    (h3 : ∀ l, ident st.vars (chars% "EncodeHTTP" ++ (l ++ chars% "Request")) = .func (chars% "EncodeHTTP" ++ (l ++ chars% "Request")))
    (h4 : ∀ l, ident st.vars (chars% "DecodeHTTP" ++ (l ++ chars% "Response")) = .func (chars% "DecodeHTTP" ++ (l ++ chars% "Response"))) :
    (newClient m.name (m.name ++ chars% "Zero") b).eval w st = .ok [clientOf u opts m b] st := by
  have e1 := eval_quoted w st hv
  have e2 := eval_quoted w st hp
  have c1 : ∀ p : Str, callOf w (chars% "copyURL") [.url u, .text p] st = .ok [.url { u with path := p }] st := by
    intro p
    show (some? (w.copyURL u p) st).bind _ = _
    rw [hc]
    rfl
  have c2 : ∀ as : List (Val E), callOf w (chars% "httptransport.NewClient") as st = .ok [.lib (chars% "httptransport.NewClient") as] st := fun as => rfl
  have m1 : ∀ (v : Str) (u : GoHTTP.URL) (x y : Val E) (r : List (Val E)), methodOf (.lib (chars% "httptransport.NewClient") (.text v :: .url u :: x :: y :: r)) (chars% "Endpoint") [] st =
      .ok [.lib (chars% "httptransport.NewClient.Endpoint") (.text v :: .url u :: x :: y :: r)] st := fun _ _ _ _ _ => rfl
  have i1 : ∀ x, (Expr.id x).eval w st = .ok [ident st.vars x] st := fun x => by simp only [Expr.eval]
  have cu : (Expr.call (chars% "copyURL") (args [.id (chars% "u"), .quoted (b.path.takeWhile (· ≠ '{'))])).eval w st = .ok [.url { u with path := b.path.takeWhile (· ≠ '{') }] st := by
    unfold Expr.eval
    simp only [args, Args.eval, i1, e2, h1, Ans.bind, one, c1]
  have cn : (Expr.call (chars% "httptransport.NewClient") <|
    .arg (chars% "\n\t\t\t\t\t\t") (.quoted (toUpper b.verb)) (chars% ",") <|
    .arg (chars% "\n\t\t\t\t\t\t") (.call (chars% "copyURL") (args [.id (chars% "u"), .quoted (b.path.takeWhile (· ≠ '{'))])) (chars% ",") <|
    .arg (chars% "\n\t\t\t\t\t\t") (.id (chars% "EncodeHTTP" ++ ((m.name ++ chars% "Zero") ++ chars% "Request"))) (chars% ",") <|
    .arg (chars% "\n\t\t\t\t\t\t") (.id (chars% "DecodeHTTP" ++ (m.name ++ chars% "Response"))) (chars% ",") <|
    .spread (chars% "\n\t\t\t\t\t\t") (chars% "options") (chars% ",") <|
    .done (chars% "\n\t\t\t\t\t")).eval w st = .ok [.lib (chars% "httptransport.NewClient") (.text (toUpper b.verb) :: .url { u with path := b.path.takeWhile (· ≠ '{') } ::
      .func (chars% "EncodeHTTP" ++ ((m.name ++ chars% "Zero") ++ chars% "Request")) :: .func (chars% "DecodeHTTP" ++ (m.name ++ chars% "Response")) :: opts)] st := by
    unfold Expr.eval
    simp only [Args.eval, cu, i1, e1, h2, h3, h4, Ans.bind, one, some?, spreadOf, c2, List.append_nil]
  unfold newClient
  unfold Expr.eval
  rw [cn]
  simp only [args, Args.eval, Ans.bind, one]
  rw [m1]
  rfl

theorem exec_client (w : World) (hc : ∀ u p, w.copyURL u p = some { u with path := p }) (u : GoHTTP.URL) (opts : List (Val E)) (m : ServiceMethod) (rest : Code)
    (hm : ∀ b ∈ m.bindings, Plain (toUpper b.verb) ∧ Plain (b.path.takeWhile (· ≠ '{'))) (inst : Str) (l : List ServiceMethod) (rs : Routes E) :
    (clientCode m rest).exec w ⟨endpointVars u opts l ++ clientVars u inst opts, rs⟩ = rest.exec w ⟨endpointVars u opts (m :: l) ++ clientVars u inst opts, rs⟩ := by
  have hl : endpointVars u opts (m :: l) = ((m.bindings.take 1).map fun b => (m.name ++ chars% "ZeroEndpoint", clientOf u opts m b)) ++ endpointVars u opts l := rfl
  rw [hl]
  unfold clientCode
  cases hb : m.bindings with
  | nil => rfl
  | cons b r =>
    rw [hb] at hm
    simp only [Code.exec]
    have hlook : ∀ x : Str, x.reverse.take 2 ≠ ['t', 'n'] → look ((m.name ++ chars% "ZeroEndpoint", Val.nil) :: (endpointVars u opts l ++ clientVars u inst opts)) x = look (clientVars u inst opts) x := by
      intro x hx
      rw [look_cons_ne, look_endpointVars _ _ _ _ _ hx]
      refine eq_false ?_
      rintro rfl
      refine hx ?_
      rw [List.reverse_append]
      rfl
    have hnew := eval_newClient w hc u opts m b (hm b List.mem_cons_self).1 (hm b List.mem_cons_self).2
      ⟨(m.name ++ chars% "ZeroEndpoint", .nil) :: (endpointVars u opts l ++ clientVars u inst opts), rs⟩
      (by unfold ident; rw [hlook _ (by decide)]; rfl) (by unfold ident; rw [hlook _ (by decide)]; rfl)
      (fun x => ident_func _ _ (by
        rw [hlook _ (by rw [List.reverse_append, List.reverse_append]; simp)]
        unfold clientVars
        rw [look_cons_ne _ _ (eq_false fun h => absurd (congrArg List.head? h) (by simp)), look_cons_ne _ _ (eq_false fun h => absurd (congrArg List.head? h) (by simp)),
          look_cons_ne _ _ (eq_false fun h => absurd (congrArg List.head? h) (by simp)), look_cons_ne _ _ (eq_false fun h => absurd (congrArg List.head? h) (by simp))]
        rfl) (fun h => absurd (congrArg List.head? h) (by simp)))
      (fun x => ident_func _ _ (by
        rw [hlook _ (by rw [List.reverse_append, List.reverse_append]; simp)]
        unfold clientVars
        rw [look_cons_ne _ _ (eq_false fun h => absurd (congrArg List.head? h) (by simp)), look_cons_ne _ _ (eq_false fun h => absurd (congrArg List.head? h) (by simp)),
          look_cons_ne _ _ (eq_false fun h => absurd (congrArg List.head? h) (by simp)), look_cons_ne _ _ (eq_false fun h => absurd (congrArg List.head? h) (by simp))]
        rfl) (fun h => absurd (congrArg List.head? h) (by simp)))
    rw [hnew]
    have hne : m.name ++ chars% "ZeroEndpoint" ≠ chars% "_" := by
      intro h
      have := congrArg List.length h
      rw [List.length_append] at this
      have h2 : (chars% "ZeroEndpoint").length = 12 := rfl
      have h3 : (chars% "_").length = 1 := rfl
      omega
    simp only [Ans.bind, one, setOf, if_neg hne, setVar, if_true, some?, leave, Ans.next, List.length_cons, Nat.sub_self, List.drop_zero]
    rfl

theorem exec_clients (w : World) (hc : ∀ u p, w.copyURL u p = some { u with path := p }) (u : GoHTTP.URL) (opts : List (Val E)) (rest : Code) (inst : Str) (rs : Routes E)
    (l : List ServiceMethod) : ∀ done : List ServiceMethod, (∀ m ∈ l, ∀ b ∈ m.bindings, Plain (toUpper b.verb) ∧ Plain (b.path.takeWhile (· ≠ '{'))) →
    (l.foldr clientCode rest).exec w ⟨endpointVars u opts done ++ clientVars u inst opts, rs⟩ =
      rest.exec w ⟨endpointVars u opts (l.reverse ++ done) ++ clientVars u inst opts, rs⟩ := by
  induction l with
  | nil => intro done _; rfl
  | cons m l ih =>
    intro done h
    rw [List.foldr_cons, exec_client w hc u opts m _ (h m List.mem_cons_self), ih (m :: done) fun m' hm => h m' (List.mem_cons_of_mem _ hm), List.reverse_cons, List.append_assoc]
    rfl

theorem fields_entries (w : World) (ws : Str) (l : List ServiceMethod) (st : St E) : (l.foldr clientEntry (.done ws)).fields w st =
    .ok ((l.filter fun m => !m.bindings.isEmpty).map fun m => (m.name ++ chars% "Endpoint", ident st.vars (m.name ++ chars% "ZeroEndpoint"))) st := by
  induction l with
  | nil => rfl
  | cons m l ih =>
    rw [List.foldr_cons]
    cases hb : m.bindings with
    | nil =>
      have hce : ∀ rest, clientEntry m rest = rest := fun rest => by unfold clientEntry; rw [hb]
      rw [hce, List.filter_cons_of_neg (by rw [hb]; nofun)]
      exact ih
    | cons b r =>
      have hce : ∀ rest, clientEntry m rest = .named [] (m.name ++ chars% "Endpoint") (chars% ":    ") (.id (m.name ++ chars% "ZeroEndpoint")) (chars% ",\n\t\t\t") rest :=
        fun rest => by unfold clientEntry; rw [hb]
      rw [hce, List.filter_cons_of_pos (by rw [hb]; rfl), List.map_cons]
      simp only [Args.fields, Expr.eval, Ans.bind, one]
      rw [ih]

/-- The address that a client parses. -/
def addressOf (inst : Str) : Str := if (chars% "http").isPrefixOf inst then inst else chars% "http://" ++ inst

theorem exec_prefix (w : World) (inst : Str) (opts : List (Val E)) (rest : Code) :
    (Code.ifThen (chars% "\n\t") (.not (.call (chars% "strings.HasPrefix") (args [.id (chars% "instance"), .quoted (chars% "http")])))
      (.assign (chars% "\n\t\t") (chars% "instance") (.plus (.quoted (chars% "http://")) (.id (chars% "instance"))) <|
      .done (chars% "\n\t")) rest).exec w ⟨[(chars% "options", .list opts), (chars% "instance", .text inst)], []⟩ =
    rest.exec w ⟨[(chars% "options", .list opts), (chars% "instance", .text (addressOf inst))], []⟩ := by
  have hcond : (Expr.not (.call (chars% "strings.HasPrefix") (args [.id (chars% "instance"), .quoted (chars% "http")]))).eval w
      ⟨[(chars% "options", .list opts), (chars% "instance", .text inst)], []⟩ =
      .ok [.bool !((chars% "http").isPrefixOf inst)] ⟨[(chars% "options", .list opts), (chars% "instance", .text inst)], []⟩ := rfl
  simp only [Code.exec]
  rw [hcond]
  unfold addressOf
  cases (chars% "http").isPrefixOf inst <;> rfl

theorem run_newHTTPClient (w : World) (hc : ∀ u p, w.copyURL u p = some { u with path := p }) (s : Service) (inst : Str) (opts : List (Val E))
    (h : ∀ m ∈ s.methods, ∀ b ∈ m.bindings, Plain (toUpper b.verb) ∧ Plain (b.path.takeWhile (· ≠ '{'))) :
    (newHTTPClient s).run w [.text inst, .list opts] = match w.parseURL (addressOf inst) with
      | .error e => .ok [.nil, .err e] ⟨[(chars% "err", .err e), (chars% "u", .nil), (chars% "options", .list opts), (chars% "instance", .text (addressOf inst))], []⟩
      | .ok u => if (httpRpcs s).isEmpty then .panic else
        .ok [.struct (chars% "Endpoints") ((httpRpcs s).map fun m => (m.name ++ chars% "Endpoint",
            ident (endpointVars u opts (httpRpcs s).reverse ++ clientVars u (addressOf inst) opts) (m.name ++ chars% "ZeroEndpoint"))), .nil]
          ⟨endpointVars u opts (httpRpcs s).reverse ++ clientVars u (addressOf inst) opts, []⟩ := by
  unfold newHTTPClient Func.run
  show (Code.exec w (.ifThen _ _ _ _) ⟨[(chars% "options", .list opts), (chars% "instance", .text inst)], []⟩).bind _ = _
  rw [exec_prefix]
  generalize addressOf inst = a
  have hcall : (Expr.call (chars% "url.Parse") (args [.id (chars% "instance")])).eval w ⟨[(chars% "options", .list opts), (chars% "instance", .text a)], []⟩ =
    match w.parseURL a with
      | .ok u => .ok [.url u, .nil] ⟨[(chars% "options", .list opts), (chars% "instance", .text a)], []⟩
      | .error e => .ok [.nil, .err e] ⟨[(chars% "options", .list opts), (chars% "instance", .text a)], []⟩ := rfl
  rw [Code.exec, hcall]
  cases hp : w.parseURL a with
  | error e => rfl
  | ok u =>
    show (Code.exec w (panicCode s _) ⟨clientVars u a opts, []⟩).bind _ = _
    unfold panicCode
    by_cases hn : (httpRpcs s).isEmpty = true
    · rw [if_pos hn]
      simp only
      rw [if_pos hn]
      rfl
    · rw [if_neg hn]
      simp only
      rw [if_neg hn]
      rw [Code.exec]
      have := exec_clients w hc u opts (.ret (chars% "\n\n\t") (args [.lit (chars% "Endpoints") (.space (chars% "\n\t") ((httpRpcs s).foldr clientEntry (.done (chars% "\n\t")))), .nil]) <|
        .done (chars% "\n")) a [] (httpRpcs s) [] fun m hm => h m (List.mem_filter.mp hm).1
      rw [show endpointVars u opts [] ++ clientVars u a opts = clientVars u a opts from rfl, List.append_nil] at this
      rw [this]
      simp only [Code.exec, args, Args.eval, Expr.eval, Args.fields, fields_entries, Ans.bind, one]
      have hf : ((httpRpcs s).filter fun m => !m.bindings.isEmpty) = httpRpcs s := List.filter_eq_self.2 fun m hm => (List.mem_filter.mp hm).2
      rw [hf]
      rfl

end Baron.GoRoutes
