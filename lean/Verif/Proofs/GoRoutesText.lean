import Verif.Model.GoRoutes
import Verif.Proofs.Texts
import Verif.Props.Texts

/-!
# The texts of the functions that connect a service to HTTP (C102)
-/

namespace Baron.GoRoutes

open Baron.TT hiding Config Val Expr Vars apply
open Baron.TT (dataWith)
open Baron.Svcdef (Service ServiceMethod HTTPBinding)

/-- NAME.pb.baron.go.tmpl:330-353. -/
def handlerT : Tmpl :=
  .text (chars% "func MakeHTTPHandler(endpoints Endpoints, options ...httptransport.ServerOption) http.Handler {")
  (.cond (.dot [chars% "HTTPHelper", chars% "Methods"])
    (.text (chars% "\n\t\tserverOptions := []httptransport.ServerOption{\n\t\t\thttptransport.ServerBefore(HTTPHeadersToContext),\n\t\t\thttptransport.ServerErrorEncoder(errorEncoder),\n\t\t\thttptransport.ServerAfter(httptransport.SetContentType(contentType)),\n\t\t}\n\t\tserverOptions = append(serverOptions, options...)")
    .nil)
    .nil
  (.text (chars% "\n\tm := mux.NewRouter()\n\n\t")
  (.range (some (chars% "method")) (.dot [chars% "HTTPHelper", chars% "Methods"])
    (.text (chars% "\n\t\t")
    (.range (some (chars% "binding")) (.var (chars% "method") [chars% "Bindings"])
      (.text (chars% "\n\t\t\tm.Methods(\"")
      (.action (.call1 (chars% "ToUpper") (.var (chars% "binding") [chars% "Verb"]))
      (.text (chars% "\").Path(\"")
      (.action (.var (chars% "binding") [chars% "PathTemplate"])
      (.text (chars% "\").Handler(httptransport.NewServer(\n\t\t\t\tendpoints.")
      (.action (.var (chars% "method") [chars% "Name"])
      (.text (chars% "Endpoint,\n\t\t\t\tDecodeHTTP")
      (.action (.var (chars% "binding") [chars% "Label"])
      (.text (chars% "Request,\n\t\t\t\tEncodeHTTPGenericResponse,\n\t\t\t\tserverOptions...,\n\t\t\t))")
      .nil)))))))))
    .nil))
  (.text (chars% "\n\treturn m\n}")
  .nil))))

/-- NAME.pb.baron.go.tmpl:506-547. -/
def clientFuncT : Tmpl :=
  .text (chars% "func NewHTTPClient(instance string, options ...httptransport.ClientOption) (")
  (.action (.dot [chars% "Service", chars% "Name"])
  (.text (chars% "Server, error) {\n\tif !strings.HasPrefix(instance, \"http\") {\n\t\tinstance = \"http://\" + instance\n\t}\n\tu, err := url.Parse(instance)\n\tif err != nil {\n\t\treturn nil, err\n\t}\n\t_ = u\n\n\t")
  (.cond (.call1 (chars% "not") (.dot [chars% "HTTPHelper", chars% "Methods"]))
    (.text (chars% "panic(\"No HTTP Endpoints, this client will not work, define bindings in your proto definition\")")
    .nil)
    .nil
  (.text (chars% "\n\n\t")
  (.range (some (chars% "method")) (.dot [chars% "HTTPHelper", chars% "Methods"])
    (.text (chars% "\n\t\t")
    (.cond (.var (chars% "method") [chars% "Bindings"])
      (.within (some (chars% "binding")) (.call2 (chars% "index") (.var (chars% "method") [chars% "Bindings"]) (.num 0))
        (.text (chars% "var ")
        (.action (.var (chars% "binding") [chars% "Label"])
        (.text (chars% "Endpoint endpoint.Endpoint\n\t\t\t\t{\n\t\t\t\t\t")
        (.action (.var (chars% "binding") [chars% "Label"])
        (.text (chars% "Endpoint = httptransport.NewClient(\n\t\t\t\t\t\t\"")
        (.action (.call1 (chars% "ToUpper") (.var (chars% "binding") [chars% "Verb"]))
        (.text (chars% "\",\n\t\t\t\t\t\tcopyURL(u, \"")
        (.action (.var (chars% "binding") [chars% "BasePath"])
        (.text (chars% "\"),\n\t\t\t\t\t\tEncodeHTTP")
        (.action (.var (chars% "binding") [chars% "Label"])
        (.text (chars% "Request,\n\t\t\t\t\t\tDecodeHTTP")
        (.action (.var (chars% "method") [chars% "Name"])
        (.text (chars% "Response,\n\t\t\t\t\t\toptions...,\n\t\t\t\t\t).Endpoint()\n\t\t\t\t}")
        .nil)))))))))))))
      .nil)
      .nil
    .nil))
  (.text (chars% "\n\n\treturn Endpoints{\n\t")
  (.range (some (chars% "method")) (.dot [chars% "HTTPHelper", chars% "Methods"])
    (.cond (.var (chars% "method") [chars% "Bindings"])
      (.within (some (chars% "binding")) (.call2 (chars% "index") (.var (chars% "method") [chars% "Bindings"]) (.num 0))
        (.action (.var (chars% "method") [chars% "Name"])
        (.text (chars% "Endpoint:    ")
        (.action (.var (chars% "binding") [chars% "Label"])
        (.text (chars% "Endpoint,\n\t\t\t")
        .nil))))
      .nil)
      .nil
    .nil)
  (.text (chars% "\n\t}, nil\n}")
  .nil))))))))

theorem routeParts : (parse baronSrc).map (fun t => [t.part 31 253 4 12, t.part 37 1506 8 10]) = some [handlerT, clientFuncT] := by
  decide +kernel

/-! ## What the model prints -/

set_option maxRecDepth 16000 in
theorem route_print (m : ServiceMethod) (b : HTTPBinding × Nat) (rest : Code) :
    (routeCode m b rest).print = routeText b.1.verb b.1.path m.name (m.name ++ HTTP.englishNumber b.2) ++ rest.print := by
  unfold routeCode newServer routeText routeRest
  simp only [Code.print, Expr.print, Args.print, args, List.append_assoc, List.cons_append, List.nil_append]

theorem routes_print (m : ServiceMethod) (l : List (HTTPBinding × Nat)) (rest : Code) : (l.foldr (routeCode m) rest).print =
    (l.flatMap fun b => routeText b.1.verb b.1.path m.name (m.name ++ HTTP.englishNumber b.2)) ++ rest.print := by
  induction l with
  | nil => rfl
  | cons b l ih => rw [List.foldr_cons, route_print, ih, List.flatMap_cons, List.append_assoc]

theorem rpcs_print (l : List ServiceMethod) (rest : Code) : (l.foldr rpcCode rest).print =
    (l.flatMap fun m => chars% "\n\t\t" ++ (numbered m).flatMap fun b => routeText b.1.verb b.1.path m.name (m.name ++ HTTP.englishNumber b.2)) ++ rest.print := by
  induction l with
  | nil => rfl
  | cons m l ih =>
    rw [List.foldr_cons, rpcCode, List.flatMap_cons]
    simp only [Code.print]
    rw [routes_print, ih]
    simp only [List.append_assoc]

def headText : Str := chars% "func MakeHTTPHandler(endpoints Endpoints, options ...httptransport.ServerOption) http.Handler {"

def optionsText : Str := chars% "\n\t\tserverOptions := []httptransport.ServerOption{\n\t\t\thttptransport.ServerBefore(HTTPHeadersToContext),\n\t\t\thttptransport.ServerErrorEncoder(errorEncoder),\n\t\t\thttptransport.ServerAfter(httptransport.SetContentType(contentType)),\n\t\t}\n\t\tserverOptions = append(serverOptions, options...)"

set_option maxRecDepth 16000 in
theorem options_print (s : Service) (rest : Code) : (optionsCode s rest).print = (if (httpRpcs s).isEmpty then [] else optionsText) ++ rest.print := by
  unfold optionsCode
  by_cases h : (httpRpcs s).isEmpty
  · rw [if_pos h, if_pos h]
    rfl
  · rw [if_neg h, if_neg h]
    rfl

set_option maxRecDepth 16000 in
theorem makeHandler_print (s : Service) : (makeHandler s).print = headText ++ ((if (httpRpcs s).isEmpty then [] else optionsText) ++
    (chars% "\n\tm := mux.NewRouter()\n\n\t" ++ ((httpRpcs s).flatMap (fun m => chars% "\n\t\t" ++
    (numbered m).flatMap fun b => routeText b.1.verb b.1.path m.name (m.name ++ HTTP.englishNumber b.2)) ++ chars% "\n\treturn m\n}"))) := by
  unfold makeHandler Func.print
  simp only [options_print, Code.print, rpcs_print, List.append_assoc]
  rfl

set_option maxRecDepth 16000 in
theorem clientCode_print (m : ServiceMethod) (rest : Code) : (clientCode m rest).print = ((m.bindings.take 1).flatMap fun b =>
    clientText b.verb (b.path.takeWhile (· ≠ '{')) m.name (m.name ++ HTTP.englishNumber 0)) ++ rest.print := by
  have hz : HTTP.englishNumber 0 = chars% "Zero" := by decide +kernel
  rw [hz]
  unfold clientCode
  cases m.bindings with
  | nil => rfl
  | cons b l =>
    rw [List.take_succ_cons, List.take_zero, List.flatMap_cons, List.flatMap_nil, List.append_nil]
    unfold newClient clientText clientRest
    simp only [Code.print, Expr.print, Args.print, args, List.append_assoc, List.cons_append, List.nil_append]

theorem clients_print (l : List ServiceMethod) (rest : Code) : (l.foldr clientCode rest).print = (l.flatMap fun m => (m.bindings.take 1).flatMap fun b =>
    clientText b.verb (b.path.takeWhile (· ≠ '{')) m.name (m.name ++ HTTP.englishNumber 0)) ++ rest.print := by
  induction l with
  | nil => rfl
  | cons m l ih => rw [List.foldr_cons, clientCode_print, ih, List.flatMap_cons, List.append_assoc]

set_option maxRecDepth 16000 in
theorem entries_print (l : List ServiceMethod) (rest : Args) : (l.foldr clientEntry rest).print = (l.flatMap fun m => (m.bindings.take 1).flatMap fun _ =>
    clientField m.name (m.name ++ HTTP.englishNumber 0)) ++ rest.print := by
  have hz : HTTP.englishNumber 0 = chars% "Zero" := by decide +kernel
  rw [hz]
  induction l with
  | nil => rfl
  | cons m l ih =>
    rw [List.foldr_cons, List.flatMap_cons, List.append_assoc, ← ih]
    unfold clientEntry
    cases m.bindings with
    | nil => rfl
    | cons b r =>
      rw [List.take_succ_cons, List.take_zero, List.flatMap_cons, List.flatMap_nil, List.append_nil]
      unfold clientField
      simp only [Expr.print, Args.print, List.append_assoc, List.nil_append]
      rfl

set_option maxRecDepth 16000 in
theorem panic_print (s : Service) (rest : Code) : (panicCode s rest).print = (if httpRpcs s = [] then
    chars% "panic(\"No HTTP Endpoints, this client will not work, define bindings in your proto definition\")" else []) ++ rest.print := by
  unfold panicCode
  cases h : httpRpcs s with
  | nil => rw [if_pos (by rfl), if_pos rfl]; rfl
  | cons m l => rw [if_neg (by nofun), if_neg nofun]; rfl

def clientHead (name : Str) : Str := chars% "func NewHTTPClient(instance string, options ...httptransport.ClientOption) (" ++ (name ++
  chars% "Server, error) {\n\tif !strings.HasPrefix(instance, \"http\") {\n\t\tinstance = \"http://\" + instance\n\t}\n\tu, err := url.Parse(instance)\n\tif err != nil {\n\t\treturn nil, err\n\t}")

set_option maxRecDepth 16000 in
theorem newHTTPClient_print (s : Service) : (newHTTPClient s).print ++ ['\n'] = clientHead s.name ++ newClientText s := by
  unfold newHTTPClient Func.print newClientText clientHead
  simp only [panic_print, clients_print, entries_print, Code.print, Expr.print, Args.print, args, List.append_assoc, List.cons_append]
  rfl

/-! ## The template -/

section
variable {fmt : Str → Str} {pkg : Str} {s : Service} {c : TT.Config} {txt : Str}

theorem handler_occurs (h : render fmt pkg s c "baron/NAME.pb.baron.go.tmpl".toList = some txt) : Occurs (makeHandler s).print txt := by
  obtain ⟨ms, hms, t, hp, he⟩ := render_data (src := baronSrc) rfl h
  have hparts := routeParts
  rw [hp, Option.map_some, Option.some.injEq] at hparts
  simp only [List.cons.injEq, and_true] at hparts
  obtain ⟨a, h1, h2⟩ := exec_part 31 253 4 12 he
  rw [hparts.1] at h1
  have e1 : eval [([], dataWith pkg s c ms)] (dataWith pkg s c ms) (.dot [chars% "HTTPHelper", chars% "Methods"]) = some (.list ms) := rfl
  have hr : exec handlerT [([], dataWith pkg s c ms)] (dataWith pkg s c ms) = some (makeHandler s).print := by
    rw [makeHandler_print]
    unfold handlerT
    refine exec_text (exec_cond e1 (?_ : _ = some (if (httpRpcs s).isEmpty then _ else _)) (exec_text (exec_range e1 ?_ exec_text_nil)))
    · cases hh : httpRpcs s with
      | nil =>
        have : ms.isEmpty = true := by rw [all2_isEmpty hms, hh]; rfl
        cases ms with
        | nil => rfl
        | cons _ _ => cases this
      | cons m l =>
        have : ms.isEmpty = false := by rw [all2_isEmpty hms, hh]; rfl
        cases ms with
        | nil => cases this
        | cons a as =>
          show exec (.text optionsText .nil) [([], dataWith pkg s c (a :: as))] (dataWith pkg s c (a :: as)) = some optionsText
          exact exec_text_nil
    · refine each_all2 hms ?_
      intro m v hv
      obtain ⟨bs, hbs, rfl⟩ := helperMethod_bindings hv
      unfold exec
      unfold exec
      have e2 : eval (bind (some (chars% "method")) (methodWith m bs) [([], dataWith pkg s c ms)]) (methodWith m bs)
        (.var (chars% "method") [chars% "Bindings"]) = some (.list bs) := rfl
      rw [e2]
      simp only
      rw [each_all2 (g := fun b : HTTPBinding × Nat => routeText b.1.verb b.1.path m.name (m.name ++ HTTP.englishNumber b.2)) hbs]
      · simp only [exec, List.append_nil]
        rfl
      · intro b w hw
        obtain ⟨oneofs, fields, -, rfl⟩ := binding_eq hw
        rfl
  rw [hr, Option.some.injEq] at h1
  rw [h1]
  exact h2

theorem client_occurs (h : render fmt pkg s c "baron/NAME.pb.baron.go.tmpl".toList = some txt) : Occurs (newHTTPClient s).print txt := by
  obtain ⟨ms, hms, t, hp, he⟩ := render_data (src := baronSrc) rfl h
  have hparts := routeParts
  rw [hp, Option.map_some, Option.some.injEq] at hparts
  simp only [List.cons.injEq, and_true] at hparts
  obtain ⟨a, h1, h2⟩ := exec_part 37 1506 8 10 he
  rw [hparts.2] at h1
  have e1 : eval [([], dataWith pkg s c ms)] (dataWith pkg s c ms) (.dot [chars% "HTTPHelper", chars% "Methods"]) = some (.list ms) := rfl
  have e0 : eval [([], dataWith pkg s c ms)] (dataWith pkg s c ms) (.call1 (chars% "not") (.dot [chars% "HTTPHelper", chars% "Methods"])) =
      some (.bool ms.isEmpty) := by
    show some (TT.Val.bool (!(!ms.isEmpty))) = _
    rw [Bool.not_not]
  have hr : exec clientFuncT [([], dataWith pkg s c ms)] (dataWith pkg s c ms) = some (newHTTPClient s).print := by
    have hx : (newHTTPClient s).print = chars% "func NewHTTPClient(instance string, options ...httptransport.ClientOption) (" ++ (s.name ++
        (chars% "Server, error) {\n\tif !strings.HasPrefix(instance, \"http\") {\n\t\tinstance = \"http://\" + instance\n\t}\n\tu, err := url.Parse(instance)\n\tif err != nil {\n\t\treturn nil, err\n\t}\n\t_ = u\n\n\t" ++
        ((if httpRpcs s = [] then chars% "panic(\"No HTTP Endpoints, this client will not work, define bindings in your proto definition\")" else []) ++
        (chars% "\n\n\t" ++ ((httpRpcs s).flatMap (fun m => (m.bindings.take 1).flatMap fun b =>
          clientText b.verb (b.path.takeWhile (· ≠ '{')) m.name (m.name ++ HTTP.englishNumber 0)) ++
        (chars% "\n\n\treturn Endpoints{\n\t" ++ ((httpRpcs s).flatMap (fun m => (m.bindings.take 1).flatMap fun _ =>
          clientField m.name (m.name ++ HTTP.englishNumber 0)) ++
        chars% "\n\t}, nil\n}"))))))) := by
      have h1 := newHTTPClient_print s
      refine List.append_cancel_right (h1.trans ?_)
      unfold newClientText clientHead
      simp only [List.append_assoc]
      rfl
    rw [hx]
    unfold clientFuncT
    refine exec_text (exec_action rfl (exec_text (exec_cond e0 (?_ : _ = some (if httpRpcs s = [] then _ else []))
      (exec_text (exec_range e1 ?_ (exec_text (exec_range e1 ?_ exec_text_nil)))))))
    · rw [all2_isEmpty hms]
      cases httpRpcs s with
      | nil => exact exec_text_nil (vars := [([], dataWith pkg s c ms)]) (dot := dataWith pkg s c ms)
      | cons m l => rw [if_neg (by nofun), if_neg (by nofun)]; rfl
    · refine each_all2_mem hms ?_
      intro m v hm hv
      obtain ⟨b, l, w, ws, hb, hw, rfl⟩ := helperMethod_first hm hv
      obtain ⟨oneofs, fields, -, rfl⟩ := binding_eq hw
      rw [hb, take_one]
      exact exec_text (s := chars% "\n\t\t") (exec_cond_true_nil rfl rfl (exec_within_nil rfl rfl rfl))
    · refine each_all2_mem hms ?_
      intro m v hm hv
      obtain ⟨b, l, w, ws, hb, hw, rfl⟩ := helperMethod_first hm hv
      obtain ⟨oneofs, fields, -, rfl⟩ := binding_eq hw
      rw [hb, take_one]
      exact exec_cond_true_nil rfl rfl (exec_within_nil rfl rfl rfl)
  rw [hr, Option.some.injEq] at h1
  rw [h1]
  exact h2

end

end Baron.GoRoutes
