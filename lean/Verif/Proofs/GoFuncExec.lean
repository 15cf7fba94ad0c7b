import Verif.Proofs.GoFuncRun
import Verif.Proofs.Runtime

/-!
# C99: what the functions do
-/

namespace Baron.GoFunc

open Baron.Svcdef (Service ServiceMethod)
open Baron.TT (goType)
open Baron.HTTP (look)

variable {M C E : Type} {w : World M C E} {k : Calls M C E} {m : ServiceMethod} {cfg : TT.Config}

theorem qual_none {pkg x : Str} (h : '.' ∉ x) : qual pkg x = pkg ++ '.' :: x := if_neg h

theorem qual_request (h : '.' ∉ goType m.request) : qual (chars% "pb") (goType m.request) = requestType m := qual_none h
theorem qual_response (h : '.' ∉ goType m.response) : qual (chars% "pb") (goType m.response) = responseType m := qual_none h

theorem bind_ok {α β : Type} {a : α} {h : Hist M C E} {f : α → Hist M C E → Ans M C E β} : (Ans.ok a h).bind f = f a h := rfl

theorem asserted_same {t : Str} {r : Option M} {h : Hist M C E} : asserted t (.msg t r : Val M C E) h = .ok [.msg t r] h := if_pos rfl

theorem asserted_wrong {t : Str} {v : Val M C E} {h : Hist M C E} (hv : ∀ r, v ≠ .msg t r) : asserted t v h = .panic h := by
  unfold asserted
  cases v
  case msg u r => exact if_neg fun e => hv r (by rw [e])
  all_goals rfl

theorem endpoint_wrong (hd : '.' ∉ goType m.request) {svc v : Val M C E} {c : C} {h : Hist M C E} (hv : ∀ r, v ≠ .msg (requestType m) r) :
    callBody w k (chars% "pb") endpointParams endpointResults (endpointBody m) [(chars% "s", svc)] [.ctx c, v] h = .panic h := by
  have : asserted (qual (chars% "pb") (goType m.request)) v h = .panic h := by rw [qual_request hd]; exact asserted_wrong hv
  show Ans.bind (Ans.bind (Ans.bind (.ok v h) (asserted (qual (chars% "pb") (goType m.request)))) _) _ = _
  rw [bind_ok, this]
  rfl

theorem endpoint_call (hd : '.' ∉ goType m.request) {svc : Val M C E} {c : C} {r : Option M} {h h' : Hist M C E} {a : Option M × Option E}
    (hk : select k svc m.name [.ctx c, .msg (requestType m) r] h = .ok [.msg (responseType m) a.1, errorVal a.2] h') :
    callBody w k (chars% "pb") endpointParams endpointResults (endpointBody m) [(chars% "s", svc)] [.ctx c, .msg (requestType m) r] h = .ok (answer m a) h' := by
  have : asserted (qual (chars% "pb") (goType m.request)) (.msg (requestType m) r : Val M C E) h = .ok [.msg (requestType m) r] h := by rw [qual_request hd]; exact asserted_same
  show Ans.bind (Ans.bind (Ans.bind (.ok (.msg (requestType m) r) h) (asserted (qual (chars% "pb") (goType m.request)))) _) _ = _
  rw [bind_ok, this, bind_ok]
  show Ans.bind (Ans.bind (select k svc m.name [.ctx c, .msg (requestType m) r] h) _) _ = _
  rw [hk]
  obtain ⟨a1, a2⟩ := a
  cases a2 <;> rfl

/-- A method of `Endpoints` gives back what the function in the field gives back. -/
theorem endpoints_method {pkg : Str} {s : Service} (ho : Ordinary pkg s) (hm : m ∈ s.methods) {fields : Env M C E} {g v : Val M C E} {c : C} {h h' : Hist M C E}
    {a : Option M × Option E} (hg : look fields (m.name ++ chars% "Endpoint") = some g) (hk : k.invoke g [.ctx c, v] h = .ok (answer m a) h') :
    method w (program pkg s cfg) k (.struct (chars% "pb.Endpoints") fields) m.name [.ctx c, v] h = .ok (answer m a) h' := by
  have hq := qual_response (ho.names m hm).2.2
  have hs : select k (.struct (chars% "pb.Endpoints") fields) (m.name ++ chars% "Endpoint") [.ctx c, v] h = .ok (answer m a) h' := by
    unfold select
    simp only
    rw [hg]
    exact hk
  unfold method
  simp only
  rw [find_endpointFunc ho hm]
  show Ans.bind (Ans.bind (select k (.struct (chars% "pb.Endpoints") fields) (m.name ++ chars% "Endpoint") [.ctx c, v] h) _) _ = _
  rw [hs]
  obtain ⟨a1, a2⟩ := a
  cases a2 with
  | some e => rfl
  | none =>
    have : asserted (qual (chars% "pb") (goType m.response)) (.msg (responseType m) a1 : Val M C E) h' = .ok [.msg (responseType m) a1] h' := by rw [hq]; exact asserted_same
    show Ans.bind (Ans.bind (Ans.bind (asserted (qual (chars% "pb") (goType m.response)) (.msg (responseType m) a1 : Val M C E) h') _) _) _ = _
    rw [this]
    rfl

theorem endpoints_panic {pkg : Str} {s : Service} (ho : Ordinary pkg s) (hm : m ∈ s.methods) {fields : Env M C E} {g v : Val M C E} {c : C} {h h' : Hist M C E}
    (hg : look fields (m.name ++ chars% "Endpoint") = some g) (hk : k.invoke g [.ctx c, v] h = .panic h') :
    method w (program pkg s cfg) k (.struct (chars% "pb.Endpoints") fields) m.name [.ctx c, v] h = .panic h' := by
  have hs : select k (.struct (chars% "pb.Endpoints") fields) (m.name ++ chars% "Endpoint") [.ctx c, v] h = .panic h' := by
    unfold select
    simp only
    rw [hg]
    exact hk
  unfold method
  simp only
  rw [find_endpointFunc ho hm]
  show Ans.bind (Ans.bind (select k (.struct (chars% "pb.Endpoints") fields) (m.name ++ chars% "Endpoint") [.ctx c, v] h) _) _ = _
  rw [hs]
  rfl

/-- The endpoint of an rpc. -/
def madeEndpoint (svc : Val M C E) (m : ServiceMethod) : Val M C E := .closure (chars% "pb") endpointParams endpointResults (endpointBody m) [(chars% "s", svc)]

def endpointsVal (f : ServiceMethod → Val M C E) (s : Service) : Val M C E := .struct (chars% "pb.Endpoints") (s.methods.map fun m => (m.name ++ chars% "Endpoint", f m))

theorem bindParams_one {x t : Str} {v : Val M C E} (h : t.head? ≠ some '.') : bindParams [(x, t)] [v] = some [(x, v)] := by
  cases t with
  | nil => rfl
  | cons c t =>
    unfold bindParams
    split
    · rename_i e; cases e
    · rename_i e
      simp only [List.cons.injEq, Prod.mk.injEq] at e
      exact absurd (by rw [e.1.2.1]; rfl) h
    · rename_i h1 h2
      cases h1
      cases h2
      rfl
    · rename_i hn
      exact (hn _ _ _ _ rfl rfl).elim

theorem make_endpoint {pkg : Str} {s : Service} (ho : Ordinary pkg s) (hm : m ∈ s.methods) {svc : Val M C E} {h : Hist M C E} :
    invoke w (program pkg s cfg) k (.func (chars% "pb.Make" ++ (m.name ++ chars% "Endpoint"))) [svc] h = .ok [madeEndpoint svc m] h := by
  unfold invoke
  simp only
  rw [find_makeEndpoint ho hm]
  have hb : bindParams (makeEndpoint s.name m).params [svc] = some [(chars% "s", svc)] := bindParams_one (by
    have := ho.service
    cases hn : s.name with
    | nil => decide
    | cons c l =>
      rw [hn] at this
      intro e
      simp at e
      exact this (by simp [e]))
  simp only [callBody, hb]
  rfl

theorem wrap_service {pkg : Str} {s : Service} {svc : Val M C E} {h : Hist M C E} :
    invoke w (program pkg s cfg) k (.func (chars% "service.WrapService")) [svc] h = .ok [svc] h := by
  unfold invoke
  simp only
  rw [find_wrapService]
  rfl

theorem wrap_endpoints {pkg : Str} {s : Service} {es : Val M C E} {h : Hist M C E} :
    invoke w (program pkg s cfg) k (.func (chars% "service.WrapEndpoints")) [es] h = .ok [es] h := by
  unfold invoke
  simp only
  rw [find_wrapEndpoints]
  rfl

theorem setVar_new {x : Str} {v : Val M C E} {env : Env M C E} (h : look env x = none) : setVar x v env = env ++ [(x, v)] := by
  induction env with
  | nil => rfl
  | cons p l ih =>
    rw [show p = (p.1, p.2) from rfl, HTTP.look_cons] at h
    by_cases e : p.1 = x
    · rw [if_pos e] at h; cases h
    · rw [if_neg e] at h
      rw [setVar, if_neg e, ih h]
      rfl

theorem setVar_last {x : Str} {u v : Val M C E} {env : Env M C E} (h : look env x = none) : setVar x v (env ++ [(x, u)]) = env ++ [(x, v)] := by
  induction env with
  | nil => exact if_pos rfl
  | cons p l ih =>
    rw [show p = (p.1, p.2) from rfl, HTTP.look_cons] at h
    by_cases e : p.1 = x
    · rw [if_pos e] at h; cases h
    · rw [if_neg e] at h
      rw [List.cons_append, setVar, if_neg e, ih h]
      rfl

theorem look_append {V : Type} (a b : List (Str × V)) (x : Str) : look (a ++ b) x = (look a x).or (look b x) := by
  induction a with
  | nil => rfl
  | cons p a ih =>
    rw [List.cons_append, show p = (p.1, p.2) from rfl, HTTP.look_cons, HTTP.look_cons, ih]
    split <;> rfl

/-- The variables for the endpoints. -/
def endpointVars (f : ServiceMethod → Val M C E) (l : List ServiceMethod) : Env M C E := l.map fun m => (endpointVar m, f m)

theorem endpointVar_inj {a b : ServiceMethod} (h : endpointVar a = endpointVar b) : toLower a.name = toLower b.name := List.append_cancel_right h

theorem vars_none {f : ServiceMethod → Val M C E} {l : List ServiceMethod} (h : toLower m.name ∉ l.map fun m => toLower m.name) : look (endpointVars f l) (endpointVar m) = none := by
  refine Runtime.look_none fun v hv => h ?_
  obtain ⟨m', hm', e⟩ := List.mem_map.mp hv
  exact List.mem_map.mpr ⟨m', hm', endpointVar_inj (Prod.mk.inj e).1⟩

theorem endpointVar_ne {x : Str} (h : ¬ (chars% "Endpoint").isSuffixOf x = true) : x ≠ endpointVar m := by
  intro e
  rw [e] at h
  exact h (List.isSuffixOf_iff_suffix.mpr ⟨_, rfl⟩)

/-- Variables that are not called after an endpoint. -/
def Apart (env : Env M C E) : Prop := ∀ m, look env (endpointVar m) = none

theorem apart_of {env : Env M C E} (names : List Str) (he : env.map (·.1) = names) (h : (names.all fun x => !(chars% "Endpoint").isSuffixOf x) = true) : Apart env := by
  intro m
  refine Runtime.look_none fun v hv => ?_
  have hx : endpointVar m ∈ names := he ▸ List.mem_map.mpr ⟨_, hv, rfl⟩
  have := List.all_eq_true.mp h _ hx
  rw [show (chars% "Endpoint").isSuffixOf (endpointVar m) = true from List.isSuffixOf_iff_suffix.mpr ⟨_, rfl⟩] at this
  cases this

theorem look_setVar {x : Str} {v : Val M C E} : ∀ {env : Env M C E}, look (setVar x v env) x = some v
  | [] => by rw [setVar, HTTP.look_cons, if_pos rfl]
  | p :: l => by
    rw [setVar]
    split
    · rw [HTTP.look_cons, if_pos rfl]
    · rename_i hp
      rw [show p = (p.1, p.2) from rfl, HTTP.look_cons, if_neg hp, look_setVar]

theorem env_none {env : Env M C E} {f : ServiceMethod → Val M C E} {l : List ServiceMethod} (ha : Apart env) (h : toLower m.name ∉ l.map fun m => toLower m.name) :
    look (env ++ endpointVars f l) (endpointVar m) = none := by
  rw [look_append, ha m, vars_none h]
  rfl

theorem vars_some {f : ServiceMethod → Val M C E} {l : List ServiceMethod} (hn : (l.map fun m => toLower m.name).Nodup) (hm : m ∈ l) :
    look (endpointVars f l) (endpointVar m) = some (f m) := by
  refine Runtime.look_mem ?_ (List.mem_map.mpr ⟨m, hm, rfl⟩)
  rw [endpointVars, List.map_map]
  have : (l.map fun m => toLower m.name).map (· ++ chars% "Endpoint") = l.map ((·.1) ∘ fun m => (endpointVar m, f m)) := by
    rw [List.map_map]
    rfl
  rw [← this]
  exact List.Pairwise.map _ (fun a b hab e => hab (List.append_cancel_right e)) hn

theorem env_some {env : Env M C E} {f : ServiceMethod → Val M C E} {l : List ServiceMethod} (ha : Apart env) (hn : (l.map fun m => toLower m.name).Nodup) (hm : m ∈ l) :
    look (env ++ endpointVars f l) (endpointVar m) = some (f m) := by
  rw [look_append, ha m, vars_some hn hm]
  rfl

theorem vars_snoc {f : ServiceMethod → Val M C E} (l : List ServiceMethod) (m : ServiceMethod) : endpointVars f l ++ [(endpointVar m, f m)] = endpointVars f (l ++ [m]) := by
  unfold endpointVars
  rw [List.map_append]
  rfl

theorem named_eval {pkg last : Str} {env : Env M C E} {f : ServiceMethod → Val M C E} {h : Hist M C E} : ∀ {l : List ServiceMethod},
    (∀ m ∈ l, look env (endpointVar m) = some (f m)) →
    (namedEndpoints last l).eval w k pkg env h = .ok (l.map fun m => (m.name ++ chars% "Endpoint", f m)) h
  | [], _ => rfl
  | m :: l, hl => by
    rw [namedEndpoints, Args.eval, Expr.eval, identOf]
    unfold Env.get
    rw [hl m (List.mem_cons_self ..), bind_ok, Option.getD_some]
    show Ans.bind ((namedEndpoints last l).eval w k pkg env h) _ = _
    rw [named_eval fun m' hm' => hl m' (List.mem_cons_of_mem _ hm')]
    rfl

theorem dot_qual {pkg x : Str} (h : '.' ∈ x) : qual pkg x = x := if_pos h

theorem made_exec {svc : Val M C E} {f : ServiceMethod → Val M C E} {h : Hist M C E} : ∀ {l done : List ServiceMethod}, ((done ++ l).map fun m => toLower m.name).Nodup →
    (∀ m ∈ l, k.invoke (.func (chars% "pb.Make" ++ (m.name ++ chars% "Endpoint"))) [svc] h = .ok [f m] h) →
    (madeEndpoints l).exec w k (chars% "server") ([(chars% "svc", svc)] ++ endpointVars f done) h = .ok ([(chars% "svc", svc)] ++ endpointVars f (done ++ l), none) h
  | [], done, _, _ => by rw [List.append_nil]; rfl
  | m :: l, done, hn, hk => by
    have ha : Apart ([(chars% "svc", svc)] : Env M C E) := apart_of [chars% "svc"] rfl (by decide)
    have hnot : toLower m.name ∉ done.map fun m => toLower m.name := by
      rw [List.map_append, List.map_cons, List.nodup_append] at hn
      intro e
      exact hn.2.2 _ e _ (List.mem_cons_self ..) rfl
    have hnone := env_none (f := f) (l := done) ha hnot
    rw [madeEndpoints, Code.exec]
    have he : (Expr.call (chars% "pb.Make" ++ (m.name ++ chars% "Endpoint")) (single [] (.id (chars% "svc")))).eval w k (chars% "server") ([(chars% "svc", svc)] ++ endpointVars f done) h =
        .ok [f m] h := by
      show (if chars% "pb.Make" ++ (m.name ++ chars% "Endpoint") = chars% "append" then appended [svc] h else k.invoke (.func (qual (chars% "server") (chars% "pb.Make" ++ (m.name ++ chars% "Endpoint")))) [svc] h) = _
      rw [if_neg (ne_of_head (by simp)), dot_qual (by simp)]
      exact hk m (List.mem_cons_self ..)
    rw [he]
    show (if (look ([(chars% "svc", svc)] ++ endpointVars f done) (endpointVar m)).isSome then _ else _) = _
    rw [hnone, setVar_new hnone, List.append_assoc, vars_snoc, if_neg (by simp)]
    have := made_exec (svc := svc) (f := f) (h := h) (l := l) (done := done ++ [m]) (by rwa [List.append_assoc]) fun m' hm' => hk m' (List.mem_cons_of_mem _ hm')
    rw [List.append_assoc] at this
    exact this

theorem setVars_one {x : Str} {v : Val M C E} {env : Env M C E} (h : x ≠ chars% "_") : setVars [x] [v] env = some (setVar x v env) := by
  rw [setVars, if_neg h]
  rfl

theorem new_endpoints {pkg : Str} {s : Service} (ho : Ordinary pkg s) {svc : Val M C E} {h : Hist M C E} :
    invoke w (program pkg s cfg) ⟨invoke w (program pkg s cfg) k, method w (program pkg s cfg) k⟩ (.func (chars% "server.NewEndpoints")) [svc] h =
      .ok [endpointsVal (madeEndpoint svc) s] h := by
  have ha : Apart ([(chars% "svc", svc)] : Env M C E) := apart_of [chars% "svc"] rfl (by decide)
  have h1 := made_exec (w := w) (k := ⟨invoke w (program pkg s cfg) k, method w (program pkg s cfg) k⟩) (svc := svc) (f := madeEndpoint svc) (h := h) (l := s.methods) (done := [])
    (by simpa using ho.lower) (fun m hm => make_endpoint ho hm)
  have h2 := named_eval (w := w) (k := ⟨invoke w (program pkg s cfg) k, method w (program pkg s cfg) k⟩) (pkg := chars% "server") (last := chars% "\n\t")
    (env := [(chars% "svc", svc)] ++ endpointVars (madeEndpoint svc) s.methods) (f := madeEndpoint svc) (h := h) (l := s.methods)
    (fun m hm => env_some ha ho.lower hm)
  rw [invoke, find_newEndpoints]
  have hb : bindParams (newEndpoints s).params [svc] = some [(chars% "svc", svc)] := rfl
  simp only [callBody, hb]
  show Ans.bind (Code.exec w _ (chars% "server") (newEndpoints s).body [(chars% "svc", svc)] h) _ = _
  rw [newEndpoints]
  simp only [Code.exec]
  show Ans.bind (Ans.bind (if chars% "service.WrapService" = chars% "append" then appended [svc] h else invoke w (program pkg s cfg) k (.func (qual (chars% "server") (chars% "service.WrapService"))) [svc] h) _) _ = _
  rw [if_neg (by decide), dot_qual (by decide), wrap_service]
  show Ans.bind (Ans.bind ((madeEndpoints s.methods).exec w _ (chars% "server") ([(chars% "svc", svc)] ++ endpointVars (madeEndpoint svc) []) h) _) _ = _
  rw [h1]
  show Ans.bind (Ans.bind (Ans.bind ((namedEndpoints (chars% "\n\t") s.methods).eval w _ (chars% "server") ([(chars% "svc", svc)] ++ endpointVars (madeEndpoint svc) s.methods) h) _) _) _ = _
  rw [h2]
  have hq : qual (chars% "server") (chars% "pb.Endpoints") = chars% "pb.Endpoints" := dot_qual (by decide)
  rw [bind_ok, hq]
  have hi : ∀ (e : Env M C E) (v : Val M C E), identOf (chars% "server") (setVar (chars% "endpoints") v e) (chars% "endpoints") = v := by
    intro e v
    unfold identOf Env.get
    rw [look_setVar]
    rfl
  rw [bind_ok, setVars_one (by decide)]
  simp only [Expr.eval, single, Args.eval, hi, bind_ok, one, List.map_cons, List.map_nil]
  rw [if_neg (by decide), dot_qual (by decide), wrap_endpoints]
  simp only [bind_ok]
  unfold Env.get
  simp only [look_setVar, Option.isSome_some, if_true, hi, bind_ok]
  rfl

/-! ## The implementation and the methods as they are generated -/

section
variable {pkg : Str} {s : Service}

theorem method_struct {f : Func} {t name : Str} {fields : Env M C E} {args : List (Val M C E)} {h : Hist M C E} (hf : (program pkg s cfg).find? (·.isMethod t name) = some f) :
    method w (program pkg s cfg) k (.struct t fields) name args h = callBody w k f.pkg f.params f.results f.body [((f.recv.getD ([], [])).1, .struct t fields)] args h := by
  unfold method
  simp only [hf]

theorem service_method (hw : Implements w s) (hm : m ∈ s.methods) {c : C} {t : Str} {r : Option M} {h : Hist M C E} :
    method w (program pkg s cfg) k .service m.name [.ctx c, .msg t r] h =
      .ok [.msg (responseType m) (w.impl h ⟨m.name, c, r⟩).1, errorVal (w.impl h ⟨m.name, c, r⟩).2] (h ++ [.call ⟨m.name, c, r⟩]) := by
  unfold method
  simp only [hw m hm]

/-- `&…Service{}` -/
def freshService (s : Service) : Val M C E := .struct (qual (chars% "service") (serviceType s)) []

theorem new_service {h : Hist M C E} : invoke w (program pkg s cfg) k (.func (chars% "service.NewService")) [] h = .ok [freshService s] h := by
  unfold invoke
  simp only
  rw [find_newService]
  rfl

theorem stub_method (ho : Ordinary pkg s) (hm : m ∈ s.methods) {c : C} {v : Val M C E} {h : Hist M C E} :
    method w (program pkg s cfg) k (freshService s) m.name [.ctx c, v] h = .ok [.msg (responseType m) (some (w.empty (responseType m))), .nil] h := by
  have hz : zeroOf w (qual (chars% "service") (chars% "pb." ++ goType m.response)) = .msg (responseType m) (some (w.empty (responseType m))) := by
    rw [dot_qual (by simp), zeroOf, if_neg (ne_of_head (by simp))]
    rfl
  unfold method freshService
  simp only
  rw [find_stubFunc ho hm]
  show Ans.ok [zeroOf w (qual (chars% "service") (chars% "pb." ++ goType m.response)), .nil] h = _
  rw [hz]

/-! ## gRPC: the server -/

def metadataOption : Val M C E := .lib (chars% "grpctransport.ServerBefore") [.func (chars% "pb.GRPCMetadataToContext")]

def handler (f : ServiceMethod → Val M C E) (os : List (Val M C E)) (m : ServiceMethod) : Val M C E :=
  .lib newServer (f m :: .func (chars% "pb.DecodeGRPC" ++ (m.name ++ chars% "Request")) :: .func (chars% "pb.EncodeGRPC" ++ (m.name ++ chars% "Response")) :: metadataOption :: os)

def grpcServerVal (f : ServiceMethod → Val M C E) (os : List (Val M C E)) (s : Service) : Val M C E :=
  .struct (chars% "pb.grpcServer") (s.methods.map fun m => (toLower m.name, handler f os m))

theorem field_look (ho : Ordinary pkg s) (hm : m ∈ s.methods) {f : ServiceMethod → Val M C E} :
    look (s.methods.map fun m => (m.name ++ chars% "Endpoint", f m)) (m.name ++ chars% "Endpoint") = some (f m) := by
  have key : ∀ {l : List ServiceMethod}, (∀ a ∈ l, a ∈ s.methods) → m ∈ l → look (l.map fun m => (m.name ++ chars% "Endpoint", f m)) (m.name ++ chars% "Endpoint") = some (f m) := by
    intro l
    induction l with
    | nil => intro _ h; cases h
    | cons a l ih =>
      intro hl h
      rw [List.map_cons, HTTP.look_cons]
      split
      · rename_i e
        rw [rpc_inj ho (hl a (List.mem_cons_self ..)) hm (List.append_cancel_right e)]
      · rename_i e
        rcases List.mem_cons.mp h with rfl | h
        · exact absurd rfl e
        · exact ih (fun b hb => hl b (List.mem_cons_of_mem _ hb)) h
  exact key (fun _ h => h) hm

theorem handler_look (ho : Ordinary pkg s) (hm : m ∈ s.methods) {f : ServiceMethod → Val M C E} :
    look (s.methods.map fun m => (toLower m.name, f m)) (toLower m.name) = some (f m) := by
  refine Runtime.look_mem ?_ (List.mem_map.mpr ⟨m, hm, rfl⟩)
  rw [List.map_map]
  exact ho.lower

theorem ident_none {env : Env M C E} {x : Str} (h : look env x = none) (hd : '.' ∉ x) : identOf (chars% "pb") env x = .func (chars% "pb." ++ x) := by
  unfold identOf Env.get
  rw [h, qual_none hd]
  rfl

/-- A function that only builds a value. -/
def builds (q : Str) : Bool := isLib q && (decide (q ≠ encodeJSONRequest) && decide (q ≠ encodeJSONResponse))

theorem lib_call {q : Str} (hq : builds q = true) {args : List (Val M C E)} {h : Hist M C E} : invoke w (program pkg s cfg) k (.func q) args h = .ok [.lib q args] h := by
  unfold builds at hq
  simp only [Bool.and_eq_true, decide_eq_true_eq] at hq
  unfold invoke
  simp only
  rw [lib_none hq.1]
  show libCall w q args h = _
  unfold libCall
  rw [if_neg hq.2.1, if_neg hq.2.2]

theorem no_dot {a b x : Str} (ha : '.' ∉ a) (hb : '.' ∉ b) (hx : '.' ∉ x) : '.' ∉ a ++ (x ++ b) := by
  simp only [List.mem_append, not_or]
  exact ⟨ha, hx, hb⟩

theorem handlers_eval (ho : Ordinary pkg s) {f : ServiceMethod → Val M C E} {os : List (Val M C E)} {h : Hist M C E} : ∀ {l : List ServiceMethod}, (∀ m ∈ l, m ∈ s.methods) →
    (handlers l).eval w ⟨invoke w (program pkg s cfg) k, method w (program pkg s cfg) k⟩ (chars% "pb")
      [(chars% "endpoints", endpointsVal f s), (chars% "options", .list os), (chars% "serverOptions", .list (metadataOption :: os))] h =
    .ok (l.map fun m => (toLower m.name, handler f os m)) h
  | [], _ => rfl
  | m :: l, hl => by
    have hm := hl m (List.mem_cons_self ..)
    have hd := (ho.names m hm).1
    have h1 : fieldOf (endpointsVal f s) (m.name ++ chars% "Endpoint") = some (f m) := field_look ho hm
    have h2 : identOf (chars% "pb") [(chars% "endpoints", endpointsVal f s), (chars% "options", .list os), (chars% "serverOptions", .list (metadataOption :: os))]
        (chars% "DecodeGRPC" ++ (m.name ++ chars% "Request")) = .func (chars% "pb.DecodeGRPC" ++ (m.name ++ chars% "Request")) :=
      ident_none rfl (no_dot (by decide) (by decide) hd)
    have h3 : identOf (chars% "pb") [(chars% "endpoints", endpointsVal f s), (chars% "options", .list os), (chars% "serverOptions", .list (metadataOption :: os))]
        (chars% "EncodeGRPC" ++ (m.name ++ chars% "Response")) = .func (chars% "pb.EncodeGRPC" ++ (m.name ++ chars% "Response")) :=
      ident_none rfl (no_dot (by decide) (by decide) hd)
    have h4 : lookup [(chars% "endpoints", endpointsVal f s), (chars% "options", .list os), (chars% "serverOptions", .list (metadataOption :: os))] (chars% "endpoints") h =
        (.ok (endpointsVal f s) h : Ans M C E (Val M C E)) := rfl
    have h5 : lookup [(chars% "endpoints", endpointsVal f s), (chars% "options", .list os), (chars% "serverOptions", .list (metadataOption :: os))] (chars% "serverOptions") h =
        (.ok (.list (metadataOption :: os)) h : Ans M C E (Val M C E)) := rfl
    rw [handlers]
    simp only [Args.eval, Expr.eval, handlerArgs, h1, h2, h3, h4, h5, bind_ok, one, elements, List.append_nil, List.map_cons, List.map_map]
    rw [if_neg (by decide), dot_qual (by decide), lib_call rfl]
    simp only [bind_ok]
    rw [handlers_eval ho fun m' hm' => hl m' (List.mem_cons_of_mem _ hm')]
    simp only [bind_ok, handler, Function.comp_def, List.map_id']
    rfl

theorem make_server (ho : Ordinary pkg s) (hg : TT.selected (chars% "grpc") cfg = true) {f : ServiceMethod → Val M C E} {os : List (Val M C E)} {h : Hist M C E} :
    invoke w (program pkg s cfg) ⟨invoke w (program pkg s cfg) k, method w (program pkg s cfg) k⟩ (.func (chars% "pb.MakeGRPCServer")) (endpointsVal f s :: os) h =
      .ok [grpcServerVal f os s] h := by
  rw [invoke, find_makeGRPCServer hg]
  have hb : bindParams (makeGRPCServer s).params (endpointsVal f s :: os) = some [(chars% "endpoints", endpointsVal f s), (chars% "options", .list os)] := by
    cases os <;> rfl
  simp only [callBody, hb]
  show Ans.bind (Code.exec w _ (chars% "pb") (makeGRPCServer s).body [(chars% "endpoints", endpointsVal f s), (chars% "options", .list os)] h) _ = _
  rw [makeGRPCServer]
  have h1 : identOf (chars% "pb") [(chars% "endpoints", endpointsVal f s), (chars% "options", .list os)] (chars% "GRPCMetadataToContext") = .func (chars% "pb.GRPCMetadataToContext") :=
    ident_none rfl (by decide)
  have hv : ∀ v : Val M C E, setVar (chars% "serverOptions") v [(chars% "endpoints", endpointsVal f s), (chars% "options", .list os)] =
    [(chars% "endpoints", endpointsVal f s), (chars% "options", .list os), (chars% "serverOptions", v)] := fun _ => rfl
  have hv' : ∀ u v : Val M C E, setVar (chars% "serverOptions") v [(chars% "endpoints", endpointsVal f s), (chars% "options", .list os), (chars% "serverOptions", u)] =
    [(chars% "endpoints", endpointsVal f s), (chars% "options", .list os), (chars% "serverOptions", v)] := fun _ _ => rfl
  have hi : ∀ v : Val M C E, identOf (chars% "pb") [(chars% "endpoints", endpointsVal f s), (chars% "options", .list os), (chars% "serverOptions", v)] (chars% "serverOptions") = v :=
    fun _ => rfl
  have hl : ∀ v : Val M C E, lookup [(chars% "endpoints", endpointsVal f s), (chars% "options", .list os), (chars% "serverOptions", v)] (chars% "options") h =
    (.ok (.list os) h : Ans M C E (Val M C E)) := fun _ => rfl
  have hg : ∀ v : Val M C E, (Env.get [(chars% "endpoints", endpointsVal f s), (chars% "options", .list os), (chars% "serverOptions", v)] (chars% "serverOptions")).isSome = true :=
    fun _ => rfl
  have hq : qual (chars% "pb") (chars% "grpcServer") = chars% "pb.grpcServer" := qual_none (by decide)
  simp only [Code.exec, Expr.eval, Args.eval, single, h1, bind_ok, one, List.map_cons, List.map_nil]
  rw [if_neg (by decide), dot_qual (by decide), lib_call rfl]
  simp only [bind_ok, List.map_cons, List.map_nil]
  rw [setVars_one (by decide)]
  simp only [hv, hi, hl, elements, bind_ok, List.append_nil, List.map_cons, List.map_map, Function.comp_def, List.map_id', if_true, appended, hg, hv', List.cons_append, List.nil_append]
  show Ans.bind (Ans.bind (Ans.bind (Ans.bind ((handlers s.methods).eval w _ (chars% "pb") [(chars% "endpoints", endpointsVal f s), (chars% "options", .list os), (chars% "serverOptions", .list (metadataOption :: os))] h) _) _) _) _ = _
  rw [handlers_eval ho fun _ h => h]
  simp only [bind_ok, hq]
  rfl

/-! ## gRPC: a call on the server -/

theorem codec_call {name arg var t : Str} {q : Str} (hf : (program pkg s cfg).find? (·.isFunction q) = some (codec name arg var t))
    (hv : (arg = chars% "grpcReq" ∧ var = chars% "req") ∨ (arg = chars% "response" ∧ var = chars% "resp") ∨ (arg = chars% "grpcReply" ∧ var = chars% "reply") ∨ (arg = chars% "request" ∧ var = chars% "req"))
    {c : C} {r : Option M} {h : Hist M C E} :
    invoke w (program pkg s cfg) k (.func q) [.ctx c, .msg (qual (chars% "pb") t) r] h = .ok [.msg (qual (chars% "pb") t) r, .nil] h := by
  rw [invoke, hf]
  have ha : asserted (qual (chars% "pb") t) (.msg (qual (chars% "pb") t) r : Val M C E) h = .ok [.msg (qual (chars% "pb") t) r] h := asserted_same
  rcases hv with ⟨rfl, rfl⟩ | ⟨rfl, rfl⟩ | ⟨rfl, rfl⟩ | ⟨rfl, rfl⟩
  all_goals
    show Ans.bind (Ans.bind (asserted (qual (chars% "pb") t) (.msg (qual (chars% "pb") t) r : Val M C E) h) _) _ = _
    rw [ha]
    rfl

theorem decode_request (ho : Ordinary pkg s) (hg : TT.selected (chars% "grpc") cfg = true) (hm : m ∈ s.methods) {c : C} {r : Option M} {h : Hist M C E} :
    invoke w (program pkg s cfg) k (.func (chars% "pb.DecodeGRPC" ++ (m.name ++ chars% "Request"))) [.ctx c, .msg (requestType m) r] h = .ok [.msg (requestType m) r, .nil] h := by
  rw [← qual_request (ho.names m hm).2.1]
  exact codec_call (find_decodeRequest ho hm hg) (Or.inl ⟨rfl, rfl⟩)

theorem encode_response (ho : Ordinary pkg s) (hg : TT.selected (chars% "grpc") cfg = true) (hm : m ∈ s.methods) {c : C} {r : Option M} {h : Hist M C E} :
    invoke w (program pkg s cfg) k (.func (chars% "pb.EncodeGRPC" ++ (m.name ++ chars% "Response"))) [.ctx c, .msg (responseType m) r] h = .ok [.msg (responseType m) r, .nil] h := by
  rw [← qual_response (ho.names m hm).2.2]
  exact codec_call (find_encodeResponse ho hm hg) (Or.inr (Or.inl ⟨rfl, rfl⟩))

theorem decode_response (ho : Ordinary pkg s) (hg : TT.selected (chars% "grpc") cfg = true) (hm : m ∈ s.methods) {c : C} {r : Option M} {h : Hist M C E} :
    invoke w (program pkg s cfg) k (.func (chars% "pb.DecodeGRPC" ++ (m.name ++ chars% "Response"))) [.ctx c, .msg (responseType m) r] h = .ok [.msg (responseType m) r, .nil] h := by
  rw [← qual_response (ho.names m hm).2.2]
  exact codec_call (find_decodeResponse ho hm hg) (Or.inr (Or.inr (Or.inl ⟨rfl, rfl⟩)))

theorem encode_request (ho : Ordinary pkg s) (hg : TT.selected (chars% "grpc") cfg = true) (hm : m ∈ s.methods) {c : C} {r : Option M} {h : Hist M C E} :
    invoke w (program pkg s cfg) k (.func (chars% "pb.EncodeGRPC" ++ (m.name ++ chars% "Request"))) [.ctx c, .msg (requestType m) r] h = .ok [.msg (requestType m) r, .nil] h := by
  rw [← qual_request (ho.names m hm).2.1]
  exact codec_call (find_encodeRequest ho hm hg) (Or.inr (Or.inr (Or.inr ⟨rfl, rfl⟩)))

theorem serve (ho : Ordinary pkg s) (hg : TT.selected (chars% "grpc") cfg = true) (hm : m ∈ s.methods) {e : Val M C E} {os : List (Val M C E)} {c : C} {r : Option M} {h h' : Hist M C E} {a : Option M × Option E}
    (he : invoke w (program pkg s cfg) k e [.ctx (serverContext w os c), .msg (requestType m) r] h = .ok (answer m a) h') :
    serveGRPC w ⟨invoke w (program pkg s cfg) k, method w (program pkg s cfg) k⟩ e (.func (chars% "pb.DecodeGRPC" ++ (m.name ++ chars% "Request")))
      (.func (chars% "pb.EncodeGRPC" ++ (m.name ++ chars% "Response"))) (metadataOption :: os) c (.msg (requestType m) r) h =
    .ok (.ctx (serverContext w os c) :: answer m a) h' := by
  have hc : (metadataOption :: os).foldl (fun c o => applyOption w o c) c = serverContext w os c := by
    rw [List.foldl_cons, serverContext]
    congr 1
  unfold serveGRPC
  simp only [hc, decode_request ho hg hm, orFail, bind_ok, he]
  obtain ⟨a1, a2⟩ := a
  cases a2 with
  | some e => rfl
  | none =>
    simp only [answer, encode_response ho hg hm, bind_ok]

theorem server_method (ho : Ordinary pkg s) (hg : TT.selected (chars% "grpc") cfg = true) (hm : m ∈ s.methods) {f : ServiceMethod → Val M C E} {os : List (Val M C E)} {c : C} {r : Option M} {h h' : Hist M C E}
    {a : Option M × Option E} (he : invoke w (program pkg s cfg) k (f m) [.ctx (serverContext w os c), .msg (requestType m) r] h = .ok (answer m a) h') :
    method w (program pkg s cfg) ⟨invoke w (program pkg s cfg) ⟨invoke w (program pkg s cfg) k, method w (program pkg s cfg) k⟩, method w (program pkg s cfg) ⟨invoke w (program pkg s cfg) k, method w (program pkg s cfg) k⟩⟩
      (grpcServerVal f os s) m.name [.ctx c, .msg (requestType m) r] h = .ok (answer m a) h' := by
  have h1 : fieldOf (grpcServerVal f os s) (toLower m.name) = some (handler f os m) := handler_look ho hm
  have hq := qual_response (ho.names m hm).2.2
  have h2 : method w (program pkg s cfg) ⟨invoke w (program pkg s cfg) k, method w (program pkg s cfg) k⟩ (handler f os m) (chars% "ServeGRPC") [.ctx c, .msg (requestType m) r] h =
      .ok (.ctx (serverContext w os c) :: answer m a) h' := by
    rw [← serve ho hg hm he]
    rfl
  unfold grpcServerVal
  rw [method_struct (find_grpcMethod ho hm hg)]
  show Ans.bind (Ans.bind (match fieldOf (grpcServerVal f os s) (toLower m.name) with
    | some u => select _ u (chars% "ServeGRPC") [.ctx c, .msg (requestType m) r] h
    | none => .stuck) _) _ = _
  rw [h1]
  show Ans.bind (Ans.bind (method w (program pkg s cfg) ⟨invoke w (program pkg s cfg) k, method w (program pkg s cfg) k⟩ (handler f os m) (chars% "ServeGRPC") [.ctx c, .msg (requestType m) r] h) _) _ = _
  rw [h2]
  obtain ⟨a1, a2⟩ := a
  cases a2 with
  | some e => rfl
  | none =>
    have : asserted (qual (chars% "pb") (goType m.response)) (.msg (responseType m) a1 : Val M C E) h' = .ok [.msg (responseType m) a1] h' := by rw [hq]; exact asserted_same
    show Ans.bind (Ans.bind (Ans.bind (asserted (qual (chars% "pb") (goType m.response)) (.msg (responseType m) a1 : Val M C E) h') _) _) _ = _
    rw [this]
    rfl

/-! ## gRPC: the client -/

def newClientVal (pkg service : Str) (conn : Val M C E) (os : List (Val M C E)) (m : ServiceMethod) : Val M C E :=
  .lib newClient (conn :: .text (pkg ++ (chars% "." ++ service)) :: .text m.name :: .func (chars% "pb.EncodeGRPC" ++ (m.name ++ chars% "Request")) ::
    .func (chars% "pb.DecodeGRPC" ++ (m.name ++ chars% "Response")) :: .struct (responseType m) [] :: os)

def clientVal (pkg service : Str) (conn : Val M C E) (os : List (Val M C E)) (m : ServiceMethod) : Val M C E := .lib clientEndpoint [newClientVal pkg service conn os m]

theorem literal_text {x : Str} (hx : TT.Plain x) : TT.literal (x ++ chars% "\"") = some (x, []) := TT.literal_clean hx

theorem codec_var_ne {a b : Str} {conn options : Val M C E} {vars : Env M C E} (hv : ∀ p ∈ vars, ∃ m, p.1 = endpointVar m)
    (ha : a.head? = some 'E' ∨ a.head? = some 'D') (hb : b = chars% "Request" ∨ b = chars% "Response") (n : Str) :
    look ((chars% "conn", conn) :: (chars% "options", options) :: vars) (a ++ (n ++ b)) = none := by
  refine Runtime.look_none fun v hx => ?_
  have hhead : (a ++ (n ++ b)).head? = some 'E' ∨ (a ++ (n ++ b)).head? = some 'D' := by
    rw [List.head?_append]
    rcases ha with ha | ha <;> rw [ha]
    · exact Or.inl rfl
    · exact Or.inr rfl
  rcases List.mem_cons.mp hx with e | hx
  · rw [(Prod.mk.inj e).1] at hhead
    rcases hhead with h | h <;> cases h
  rcases List.mem_cons.mp hx with e | hx
  · rw [(Prod.mk.inj e).1] at hhead
    rcases hhead with h | h <;> cases h
  obtain ⟨m', e⟩ := hv _ hx
  have e := congrArg List.reverse e
  unfold endpointVar at e
  rcases hb with rfl | rfl <;> simp at e

theorem client_eval (ho : Ordinary pkg s) (hm : m ∈ s.methods) {conn : Val M C E} {os : List (Val M C E)} {vars : Env M C E} (hv : ∀ p ∈ vars, ∃ m, p.1 = endpointVar m) {h : Hist M C E} :
    (Expr.dot (.call (chars% "grpctransport.NewClient") (clientArgs pkg s.name m)) (chars% "Endpoint")).eval w ⟨invoke w (program pkg s cfg) k, method w (program pkg s cfg) k⟩ (chars% "pb")
      ((chars% "conn", conn) :: (chars% "options", .list os) :: vars) h = .ok [clientVal pkg s.name conn os m] h := by
  have hd := (ho.names m hm).1
  have h1 : identOf (chars% "pb") ((chars% "conn", conn) :: (chars% "options", .list os) :: vars) (chars% "conn") = conn := rfl
  have h2 : identOf (chars% "pb") ((chars% "conn", conn) :: (chars% "options", .list os) :: vars) (chars% "EncodeGRPC" ++ (m.name ++ chars% "Request")) =
      .func (chars% "pb.EncodeGRPC" ++ (m.name ++ chars% "Request")) :=
    ident_none (codec_var_ne hv (Or.inl rfl) (Or.inl rfl) _) (no_dot (by decide) (by decide) hd)
  have h3 : identOf (chars% "pb") ((chars% "conn", conn) :: (chars% "options", .list os) :: vars) (chars% "DecodeGRPC" ++ (m.name ++ chars% "Response")) =
      .func (chars% "pb.DecodeGRPC" ++ (m.name ++ chars% "Response")) :=
    ident_none (codec_var_ne hv (Or.inr rfl) (Or.inr rfl) _) (no_dot (by decide) (by decide) hd)
  have h4 : TT.literal ((pkg ++ (chars% "." ++ s.name)) ++ chars% "\"") = some (pkg ++ (chars% "." ++ s.name), []) :=
    literal_text (TT.plain_dotted ho.plain.1 ho.plain.2.1)
  have h5 : TT.literal (m.name ++ chars% "\"") = some (m.name, []) := literal_text (ho.plain.2.2 m hm)
  have h6 : lookup ((chars% "conn", conn) :: (chars% "options", .list os) :: vars) (chars% "options") h = (.ok (.list os) h : Ans M C E (Val M C E)) := rfl
  have h7 := qual_response (ho.names m hm).2.2
  simp only [Expr.eval, Args.eval, clientArgs, h1, h2, h3, h4, h5, h6, h7, bind_ok, one, elements, List.append_nil, List.map_cons, List.map_map, Function.comp_def, List.map_id']
  rw [if_neg (by decide), dot_qual (by decide), lib_call rfl]
  rfl

theorem vars_names {f : ServiceMethod → Val M C E} (l : List ServiceMethod) (v : Val M C E) : ∀ p ∈ endpointVars f l ++ [(endpointVar m, v)], ∃ m, p.1 = endpointVar m := by
  intro p hp
  rcases List.mem_append.mp hp with hp | hp
  · obtain ⟨m', -, rfl⟩ := List.mem_map.mp hp
    exact ⟨m', rfl⟩
  · exact ⟨m, by rw [List.mem_singleton.mp hp]⟩

theorem clients_exec (ho : Ordinary pkg s) {conn : Val M C E} {os : List (Val M C E)} {h : Hist M C E} {rest : Code} : ∀ {l done : List ServiceMethod}, (done ++ l).map (fun m => toLower m.name) |>.Nodup →
    (∀ m ∈ l, m ∈ s.methods) →
    (clientEndpoints pkg s.name rest l).exec w ⟨invoke w (program pkg s cfg) k, method w (program pkg s cfg) k⟩ (chars% "pb")
      ([(chars% "conn", conn), (chars% "options", .list os)] ++ endpointVars (clientVal pkg s.name conn os) done) h =
    rest.exec w ⟨invoke w (program pkg s cfg) k, method w (program pkg s cfg) k⟩ (chars% "pb") ([(chars% "conn", conn), (chars% "options", .list os)] ++ endpointVars (clientVal pkg s.name conn os) (done ++ l)) h
  | [], done, _, _ => by rw [List.append_nil]; rfl
  | m :: l, done, hn, hl => by
    have ha : Apart ([(chars% "conn", conn), (chars% "options", .list os)] : Env M C E) := apart_of [chars% "conn", chars% "options"] rfl (by decide)
    have hm := hl m (List.mem_cons_self ..)
    have hnot : toLower m.name ∉ done.map fun m => toLower m.name := by
      rw [List.map_append, List.map_cons, List.nodup_append] at hn
      intro e
      exact hn.2.2 _ e _ (List.mem_cons_self ..) rfl
    have hnone := env_none (f := clientVal pkg s.name conn os) (l := done) ha hnot
    have hz : ∀ v : Val M C E, look ([(chars% "conn", conn), (chars% "options", .list os)] ++ endpointVars (clientVal pkg s.name conn os) done ++ [(endpointVar m, v)]) (endpointVar m) = some v := by
      intro v
      rw [look_append, hnone, HTTP.look_cons, if_pos rfl]
      rfl
    have ce : ∀ v : Val M C E, (Expr.dot (.call (chars% "grpctransport.NewClient") (clientArgs pkg s.name m)) (chars% "Endpoint")).eval w
        ⟨invoke w (program pkg s cfg) k, method w (program pkg s cfg) k⟩ (chars% "pb")
        ([(chars% "conn", conn), (chars% "options", .list os)] ++ endpointVars (clientVal pkg s.name conn os) done ++ [(endpointVar m, v)]) h =
        .ok [clientVal pkg s.name conn os m] h := fun v => client_eval ho hm (vars_names _ _)
    rw [clientEndpoints]
    simp only [Code.exec]
    unfold Env.get
    rw [hnone, setVar_new hnone, if_neg (by simp)]
    rw [ce]
    simp only [bind_ok, one, hz, Option.isSome_some, if_true]
    rw [setVar_last hnone, List.append_assoc, vars_snoc]
    have := clients_exec ho (conn := conn) (os := os) (h := h) (rest := rest) (l := l) (done := done ++ [m]) (by rwa [List.append_assoc]) fun m' hm' => hl m' (List.mem_cons_of_mem _ hm')
    rw [List.append_assoc] at this
    exact this

theorem new_client (ho : Ordinary pkg s) (hg : TT.selected (chars% "grpc") cfg = true) {conn : Val M C E} {os : List (Val M C E)} {h : Hist M C E} :
    invoke w (program pkg s cfg) ⟨invoke w (program pkg s cfg) k, method w (program pkg s cfg) k⟩ (.func (chars% "pb.NewGRPCClient")) (conn :: os) h =
      .ok [endpointsVal (clientVal pkg s.name conn os) s, .nil] h := by
  have ha : Apart ([(chars% "conn", conn), (chars% "options", .list os)] : Env M C E) := apart_of [chars% "conn", chars% "options"] rfl (by decide)
  rw [invoke, find_newGRPCClient hg]
  have hb : bindParams (newGRPCClient pkg s).params (conn :: os) = some [(chars% "conn", conn), (chars% "options", .list os)] := by
    cases os <;> rfl
  simp only [callBody, hb]
  show Ans.bind (Code.exec w _ (chars% "pb") (newGRPCClient pkg s).body ([(chars% "conn", conn), (chars% "options", .list os)] ++ endpointVars (clientVal pkg s.name conn os) []) h) _ = _
  rw [newGRPCClient]
  rw [clients_exec ho (by simpa using ho.lower) fun _ h => h, List.nil_append]
  have h2 := named_eval (w := w) (k := ⟨invoke w (program pkg s cfg) k, method w (program pkg s cfg) k⟩) (pkg := chars% "pb") (last := chars% "\n\t")
    (env := [(chars% "conn", conn), (chars% "options", .list os)] ++ endpointVars (clientVal pkg s.name conn os) s.methods) (f := clientVal pkg s.name conn os) (h := h) (l := s.methods)
    (fun m hm => env_some ha ho.lower hm)
  have hq : qual (chars% "pb") (chars% "Endpoints") = chars% "pb.Endpoints" := qual_none (by decide)
  simp only [Code.exec, Expr.eval, Args.eval, pair, h2, bind_ok, one, hq, List.map_cons, List.map_nil]
  rfl

/-! ## A call over gRPC -/

/-- What comes back of an answer. -/
def remote (w : World M C E) (m : ServiceMethod) (a : Option M × Option E) : Option M × Option E :=
  match a with
  | (_, some e) => (none, some (w.status e))
  | (some x, none) => (some x, none)
  | (none, none) => match w.nilMessage (responseType m) with
    | .ok x => (some x, none)
    | .error e => (none, some (w.status e))

theorem remote_answer (a : Option M × Option E) : answer m (remote w m a) = (remoteAnswer w m a : List (Val M C E)) := by
  obtain ⟨a1, a2⟩ := a
  cases a2 with
  | some e => rfl
  | none => cases a1 with
    | some x => rfl
    | none =>
      unfold remote remoteAnswer
      cases w.nilMessage (responseType m) <;> rfl

theorem carried_wire {t : Str} {r : Option M} {q : M} (hq : Carried w t r q) : onWire w t r = .ok q := by
  rcases hq with rfl | ⟨rfl, hq⟩
  · rfl
  · exact hq

theorem back_answer (a1 : Option M) : sentBack w (responseType m) (onWire w (responseType m) a1) = (remoteAnswer w m (a1, none) : List (Val M C E)) := by
  cases a1 with
  | some x => rfl
  | none =>
    unfold onWire remoteAnswer sentBack
    cases w.nilMessage (responseType m) <;> rfl

theorem client_call (ho : Ordinary pkg s) (hg : TT.selected (chars% "grpc") cfg = true) (hw : Implements w s) (hm : m ∈ s.methods) {srv : Val M C E} {os : List (Val M C E)} {c : C} {r : Option M} {q : M} (hq : Carried w (requestType m) r q) {h h' : Hist M C E} {a : Option M × Option E}
    (hs : method w (program pkg s cfg) k srv m.name [.ctx (w.network (clientContext w os c)), .msg (requestType m) (some q)] h = .ok (answer m a) h') :
    invoke w (program pkg s cfg) ⟨invoke w (program pkg s cfg) k, method w (program pkg s cfg) k⟩ (clientVal pkg s.name (.lib dialed [.text (pkg ++ '.' :: s.name), srv]) os m)
      [.ctx c, .msg (requestType m) r] h = .ok (remoteAnswer w m a) h' := by
  have hc : os.foldl (fun c o => w.option o c) c = clientContext w os c := rfl
  have hr : (look w.responses m.name).isSome = true := by rw [hw m hm]; rfl
  have hn : overNetwork w ⟨invoke w (program pkg s cfg) k, method w (program pkg s cfg) k⟩ (.lib dialed [.text (pkg ++ '.' :: s.name), srv]) (pkg ++ (chars% "." ++ s.name)) m.name (clientContext w os c)
      (.msg (requestType m) r) (responseType m) h = .ok (remoteAnswer w m a) h' := by
    unfold overNetwork
    simp only
    rw [if_pos trivial, carried_wire hq, sending, if_pos ⟨rfl, hr⟩, hs, reply, bind_ok]
    obtain ⟨a1, a2⟩ := a
    cases a2 with
    | some e => rfl
    | none => exact (if_pos rfl).trans (by rw [back_answer])
  show callGRPC w ⟨invoke w (program pkg s cfg) k, method w (program pkg s cfg) k⟩ (.lib dialed [.text (pkg ++ '.' :: s.name), srv]) (pkg ++ (chars% "." ++ s.name)) m.name
    (.func (chars% "pb.EncodeGRPC" ++ (m.name ++ chars% "Request"))) (.func (chars% "pb.DecodeGRPC" ++ (m.name ++ chars% "Response"))) (responseType m) os c (.msg (requestType m) r) h = _
  unfold callGRPC
  simp only [encode_request ho hg hm, orFail, bind_ok, hc, hn]
  obtain ⟨a1, a2⟩ := a
  cases a2 with
  | some e => rfl
  | none =>
    cases a1 with
    | some x => simp only [remoteAnswer, decode_response ho hg hm, bind_ok]
    | none =>
      cases hx : w.nilMessage (responseType m) with
      | ok x => simp only [remoteAnswer, hx, decode_response ho hg hm, bind_ok]
      | error e => simp only [remoteAnswer, hx]

theorem client_unsent (ho : Ordinary pkg s) (hg : TT.selected (chars% "grpc") cfg = true) (hm : m ∈ s.methods) {srv : Val M C E} {registered : Str} {os : List (Val M C E)} {c : C} {r : Option M} {e : E}
    (he : NotSent w (requestType m) r e) {h : Hist M C E} :
    invoke w (program pkg s cfg) ⟨invoke w (program pkg s cfg) k, method w (program pkg s cfg) k⟩ (clientVal pkg s.name (.lib dialed [.text registered, srv]) os m)
      [.ctx c, .msg (requestType m) r] h = .ok [.nil, .error e] h := by
  have hn : ∀ c, overNetwork w ⟨invoke w (program pkg s cfg) k, method w (program pkg s cfg) k⟩ (.lib dialed [.text registered, srv]) (pkg ++ (chars% "." ++ s.name)) m.name c
      (.msg (requestType m) r) (responseType m) h = .ok [.nil, .error e] h := by
    intro c
    unfold overNetwork
    simp only
    rw [if_pos trivial, he.1, show onWire w (requestType m) none = .error e from he.2, sending]
  show callGRPC w ⟨invoke w (program pkg s cfg) k, method w (program pkg s cfg) k⟩ (.lib dialed [.text registered, srv]) (pkg ++ (chars% "." ++ s.name)) m.name
    (.func (chars% "pb.EncodeGRPC" ++ (m.name ++ chars% "Request"))) (.func (chars% "pb.DecodeGRPC" ++ (m.name ++ chars% "Response"))) (responseType m) os c (.msg (requestType m) r) h = _
  unfold callGRPC
  simp only [encode_request ho hg hm, orFail, bind_ok, hn]

theorem client_unknown (ho : Ordinary pkg s) (hg : TT.selected (chars% "grpc") cfg = true) (hm : m ∈ s.methods) {srv : Val M C E} {registered : Str} (hn : registered ≠ pkg ++ '.' :: s.name) {os : List (Val M C E)} {c : C} {r : M} {h : Hist M C E} :
    invoke w (program pkg s cfg) ⟨invoke w (program pkg s cfg) k, method w (program pkg s cfg) k⟩ (clientVal pkg s.name (.lib dialed [.text registered, srv]) os m)
      [.ctx c, .msg (requestType m) (some r)] h = .ok [.nil, .error w.unimplemented] h := by
  have hn : ∀ c, overNetwork w ⟨invoke w (program pkg s cfg) k, method w (program pkg s cfg) k⟩ (.lib dialed [.text registered, srv]) (pkg ++ (chars% "." ++ s.name)) m.name c
      (.msg (requestType m) (some r)) (responseType m) h = .ok [.nil, .error w.unimplemented] h := by
    intro c
    unfold overNetwork
    simp only
    rw [if_pos trivial, show onWire w (requestType m) (some r) = .ok r from rfl, sending, if_neg fun e => hn e.1.symm]
  show callGRPC w ⟨invoke w (program pkg s cfg) k, method w (program pkg s cfg) k⟩ (.lib dialed [.text registered, srv]) (pkg ++ (chars% "." ++ s.name)) m.name
    (.func (chars% "pb.EncodeGRPC" ++ (m.name ++ chars% "Request"))) (.func (chars% "pb.DecodeGRPC" ++ (m.name ++ chars% "Response"))) (responseType m) os c (.msg (requestType m) (some r)) h = _
  unfold callGRPC
  simp only [encode_request ho hg hm, orFail, bind_ok, hn]

theorem endpoints_func (ho : Ordinary pkg s) {h : Hist M C E} :
    invoke w (program pkg s cfg) ⟨invoke w (program pkg s cfg) ⟨invoke w (program pkg s cfg) k, method w (program pkg s cfg) k⟩, method w (program pkg s cfg) ⟨invoke w (program pkg s cfg) k, method w (program pkg s cfg) k⟩⟩
      (.func (chars% "server.Endpoints")) [] h = .ok [endpointsVal (madeEndpoint (freshService s)) s] h := by
  rw [invoke, find_endpoints]
  have hb : bindParams endpoints.params ([] : List (Val M C E)) = some [] := rfl
  simp only [callBody, hb]
  show Ans.bind (Code.exec w _ (chars% "server") endpoints.body [] h) _ = _
  rw [endpoints]
  simp only [Code.exec, Expr.eval, Args.eval, single, bind_ok, List.map_nil]
  rw [if_neg (by decide), dot_qual (by decide), new_service]
  simp only [bind_ok]
  rw [setVars_one (by decide)]
  have hi : identOf (chars% "server") (setVar (chars% "svc") (freshService s) ([] : Env M C E)) (chars% "svc") = freshService s := rfl
  simp only [hi, bind_ok, one, List.map_cons, List.map_nil]
  rw [if_neg (by decide), qual_none (by decide)]
  rw [show invoke w (program pkg s cfg) ⟨invoke w (program pkg s cfg) k, method w (program pkg s cfg) k⟩ (.func (chars% "server" ++ '.' :: chars% "NewEndpoints")) [freshService s] h = _ from new_endpoints ho]
  simp only [bind_ok]
  rw [setVars_one (by decide)]
  rfl

end

end Baron.GoFunc
