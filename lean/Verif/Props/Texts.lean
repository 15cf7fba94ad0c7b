import Verif.Proofs.Parts
import Verif.Proofs.Literal
import Verif.Proofs.HTTPPaths

/-!
# C86 The text of the transport file: routes and paths
-/

namespace Baron.TT

open Baron.Svcdef Baron.HTTP

/-- **C86** The transport file contains `MakeHTTPHandler`'s statements from the creation of the router to its end, and they register exactly
the bindings of the definition, each with its verb in upper case, its path, the endpoint of its rpc and its own decoder, in the
order of the rpcs and of their bindings. -/
theorem C86_routes {fmt : Str → Str} {pkg : Str} {s : Service} {c : Config} {txt : Str}
    (h : render fmt pkg s c "baron/NAME.pb.baron.go.tmpl".toList = some txt) : Occurs (handlerText s) txt := by
  obtain ⟨ms, hms, t, hp, he⟩ := render_data (src := baronSrc) rfl h
  obtain ⟨a, h1, h2⟩ := exec_part 33 0 2 13 he
  rw [(parts_of hp).routesT] at h1
  have hr : exec routesT [([], dataWith pkg s c ms)] (dataWith pkg s c ms) = some (handlerText s) := by
    unfold routesT exec
    unfold exec
    have e1 : eval [([], dataWith pkg s c ms)] (dataWith pkg s c ms) (.dot [chars% "HTTPHelper", chars% "Methods"]) = some (.list ms) := rfl
    rw [e1]
    simp only
    rw [each_all2 (g := fun m => chars% "\n\t\t" ++
      (numbered m).flatMap fun b => routeText b.1.verb b.1.path m.name (m.name ++ englishNumber b.2)) hms]
    · simp only [exec]
      rfl
    · intro m v hv
      obtain ⟨bs, hbs, rfl⟩ := helperMethod_bindings hv
      unfold exec
      unfold exec
      have e2 : eval (bind (some (chars% "method")) (methodWith m bs) [([], dataWith pkg s c ms)]) (methodWith m bs)
        (.var (chars% "method") [chars% "Bindings"]) = some (.list bs) := rfl
      rw [e2]
      simp only
      rw [each_all2 (g := fun b : HTTPBinding × Nat => routeText b.1.verb b.1.path m.name (m.name ++ englishNumber b.2)) hbs]
      · simp only [exec, List.append_nil]
        rfl
      · intro b w hw
        obtain ⟨oneofs, fields, -, rfl⟩ := binding_eq hw
        rfl
  rw [hr] at h1
  cases h1
  exact h2

/-- **C86** The client made for HTTP: for each rpc with bindings, in their order, one endpoint, which uses the verb, base path and encoder of the
rpc's first binding, and which becomes the endpoint of that rpc. -/
theorem C86_clients {fmt : Str → Str} {pkg : Str} {s : Service} {c : Config} {txt : Str}
    (h : render fmt pkg s c "baron/NAME.pb.baron.go.tmpl".toList = some txt) : Occurs (newClientText s) txt := by
  obtain ⟨ms, hms, t, hp, he⟩ := render_data (src := baronSrc) rfl h
  obtain ⟨a, h1, h2⟩ := exec_part 39 165 6 11 he
  rw [(parts_of hp).clientsT] at h1
  have hr : exec clientsT [([], dataWith pkg s c ms)] (dataWith pkg s c ms) = some (newClientText s) := by
    have e1 : eval [([], dataWith pkg s c ms)] (dataWith pkg s c ms) (.dot [chars% "HTTPHelper", chars% "Methods"]) = some (.list ms) := rfl
    have e0 : eval [([], dataWith pkg s c ms)] (dataWith pkg s c ms) (.call1 (chars% "not") (.dot [chars% "HTTPHelper", chars% "Methods"])) =
        some (.bool ms.isEmpty) := by
      show some (Val.bool (!(!ms.isEmpty))) = _
      rw [Bool.not_not]
    unfold clientsT newClientText
    refine exec_text (exec_cond e0 (?_ : _ = some (if httpRpcs s = [] then _ else [])) (exec_text (exec_range e1 ?_ (exec_text (exec_range e1 ?_ exec_text_nil)))))
    · rw [all2_isEmpty hms]
      cases httpRpcs s with
      | nil => exact exec_text_nil (vars := [([], dataWith pkg s c ms)]) (dot := dataWith pkg s c ms)
      | cons m l => rw [if_neg (by nofun), if_neg (by nofun)]; rfl
    · refine each_all2_mem hms ?_
      intro m v hm hv
      obtain ⟨b, l, w, ws, hb, hw, rfl⟩ := helperMethod_first hm hv
      obtain ⟨oneofs, fields, -, rfl⟩ := binding_eq hw
      rw [hb, take_one]
      exact exec_text (s := chars% "\n\t\t") (exec_cond_true_nil rfl rfl (exec_within_nil rfl rfl rfl))
    · refine each_all2_mem hms ?_
      intro m v hm hv
      obtain ⟨b, l, w, ws, hb, hw, rfl⟩ := helperMethod_first hm hv
      obtain ⟨oneofs, fields, -, rfl⟩ := binding_eq hw
      rw [hb, take_one]
      exact exec_cond_true_nil rfl rfl (exec_within_nil rfl rfl rfl)
  rw [hr] at h1
  cases h1
  exact h2

/-- **C86** The encoder of every binding joins, with slashes, an empty part and then the parts of the binding's path in their order: a literal
part is written between quotes as it is, a parameter becomes the text of the field it names. -/
theorem C86_encoders {fmt : Str → Str} {pkg : Str} {s : Service} {c : Config} {txt : Str}
    (h : render fmt pkg s c "baron/NAME.pb.baron.go.tmpl".toList = some txt) {m : ServiceMethod} (hm : m ∈ s.methods)
    {b : HTTPBinding} {i : Nat} (hb : m.bindings[i]? = some b) {ps : List Piece} (ht : TemplateOK ps) (hp : b.path = templateOf ps) :
    Occurs (encoderText (m.name ++ englishNumber i) m.request.name b ps) txt := by
  obtain ⟨ms, hms, t, hpt, he⟩ := render_data (src := baronSrc) rfl h
  obtain ⟨hd1, hd2, -⟩ := heads_of hpt
  have hm' : m ∈ httpRpcs s := by
    refine List.mem_filter.mpr ⟨hm, ?_⟩
    cases hbs : m.bindings with
    | nil => rw [hbs] at hb; cases hb
    | cons _ _ => rfl
  obtain ⟨v, hv, hmv⟩ := all2_mem hms hm'
  obtain ⟨bs, hbs, rfl⟩ := helperMethod_bindings hmv
  obtain ⟨w, hw, hbw⟩ := all2_mem hbs (List.mem_zipIdx_iff_getElem?.mpr hb : (b, i) ∈ _)
  obtain ⟨oneofs, fields, hf, rfl⟩ := binding_eq hbw
  obtain ⟨_, a1, h1, rfl⟩ := exec_skip (k := 48) he
  obtain ⟨a2, h2, o2⟩ := exec_ranges hd1 h1 (l := ms) rfl hv
  obtain ⟨_, a3, h3, rfl⟩ := exec_skip (k := 1) h2
  obtain ⟨a4, h4, o4⟩ := exec_ranges hd2 h3 (l := bs) rfl hw
  obtain ⟨a5, h5, o5⟩ := exec_part 4 85 6 11 h4
  rw [(parts_of hpt).encoderT] at h5
  refine Occurs.trans ?_ (((o5.trans o4).right _).trans o2 |>.right _)
  have : a5 = encoderText (m.name ++ englishNumber i) m.request.name b ps := by
    refine Option.some.inj (h5.symm.trans ?_)
    unfold encoderT encoderText
    refine exec_text (exec_action rfl (exec_text (exec_action rfl (exec_text ?_))))
    rw [← List.append_assoc]
    refine exec_range (l := (pathSections b.path fields).map .str) rfl ?_ exec_text_nil
    rw [sections_eq hf ht hp, each_map (g := element)]
    · rw [List.flatMap_cons, List.flatMap_map]
    · intro a _
      rfl
  rw [this]
  exact Occurs.refl _

/-! ## Paths as string literals -/

theorem occurs_route {s : Service} {m : ServiceMethod} (hm : m ∈ s.methods) {b : HTTPBinding} {i : Nat} (hb : m.bindings[i]? = some b) :
    Occurs (routeText b.verb b.path m.name (m.name ++ englishNumber i)) (handlerText s) := by
  have hm' : m ∈ httpRpcs s := by
    refine List.mem_filter.mpr ⟨hm, ?_⟩
    cases hbs : m.bindings with
    | nil => rw [hbs] at hb; cases hb
    | cons _ _ => rfl
  refine Occurs.right (Occurs.left (Occurs.trans (Occurs.right ?_ (chars% "\n\t\t")) (occurs_flatMap (f := fun m => chars% "\n\t\t" ++
    (numbered m).flatMap fun b => routeText b.1.verb b.1.path m.name (m.name ++ englishNumber b.2)) hm')) _) _
  exact occurs_flatMap (f := fun b : HTTPBinding × Nat => routeText b.1.verb b.1.path m.name (m.name ++ englishNumber b.2))
    (List.mem_zipIdx_iff_getElem?.mpr hb : (b, i) ∈ numbered m)

/-- A path means itself in the statement that registers it exactly if it has no quote, backslash or newline. -/
theorem route_literal (path rpc label rest : Str) :
    (∃ r, literal (path ++ ('"' :: (routeRest rpc label ++ rest))) = some (path, r)) ↔ Plain path :=
  literal_iff path (chars% ").Handler(httptransport.NewServer(")
    (chars% "\t\t\t\tendpoints." ++ (rpc ++ (chars% "Endpoint,\n\t\t\t\tDecodeHTTP" ++ (label ++
    chars% "Request,\n\t\t\t\tEncodeHTTPGenericResponse,\n\t\t\t\tserverOptions...,\n\t\t\t))"))) ++ rest) (by decide)

theorem client_literal (base rpc label rest : Str) :
    (∃ r, literal (base ++ ('"' :: (clientRest rpc label ++ rest))) = some (base, r)) ↔ Plain base :=
  literal_iff base (chars% "),")
    (chars% "\t\t\t\t\t\tEncodeHTTP" ++ (label ++ (chars% "Request,\n\t\t\t\t\t\tDecodeHTTP" ++ (rpc ++
    chars% "Response,\n\t\t\t\t\t\toptions...,\n\t\t\t\t\t).Endpoint()\n\t\t\t\t}"))) ++ rest) (by decide)

/-- **C86** Every binding's path is given to the router as the definition has it, exactly if it has no quote, backslash or newline: the literal
after the statement's `Path(` then has it as its value, and otherwise it has another value or is no literal. -/
theorem C86_path_literal {fmt : Str → Str} {pkg : Str} {s : Service} {c : Config} {txt : Str}
    (h : render fmt pkg s c "baron/NAME.pb.baron.go.tmpl".toList = some txt) {m : ServiceMethod} (hm : m ∈ s.methods)
    {b : HTTPBinding} {i : Nat} (hb : m.bindings[i]? = some b) :
    ∃ A B, txt = A ++ (chars% "\n\t\t\tm.Methods(\"" ++ (toUpper b.verb ++ (chars% "\").Path(\"" ++ B))) ∧
      ((∃ r, literal B = some (b.path, r)) ↔ Plain b.path) := by
  obtain ⟨A, B, rfl⟩ := (occurs_route hm hb).trans (C86_routes h)
  refine ⟨A, b.path ++ ('"' :: (routeRest m.name (m.name ++ englishNumber i) ++ B)), ?_, route_literal _ _ _ _⟩
  unfold routeText
  simp only [List.append_assoc, List.cons_append]

/-- **C86** So does the base path in the client, which is the path up to its first parameter, for the first binding of an rpc. -/
theorem C86_base_literal {fmt : Str → Str} {pkg : Str} {s : Service} {c : Config} {txt : Str}
    (h : render fmt pkg s c "baron/NAME.pb.baron.go.tmpl".toList = some txt) {m : ServiceMethod} (hm : m ∈ s.methods)
    {b : HTTPBinding} (hb : m.bindings[0]? = some b) :
    ∃ A B, txt = A ++ (chars% "\n\t\tvar " ++ ((m.name ++ englishNumber 0) ++ (chars% "Endpoint endpoint.Endpoint\n\t\t\t\t{\n\t\t\t\t\t" ++
        ((m.name ++ englishNumber 0) ++ (chars% "Endpoint = httptransport.NewClient(\n\t\t\t\t\t\t\"" ++ (toUpper b.verb ++
        (chars% "\",\n\t\t\t\t\t\tcopyURL(u, \"" ++ B))))))) ∧
      ((∃ r, literal B = some (b.path.takeWhile (· ≠ '{'), r)) ↔ Plain (b.path.takeWhile (· ≠ '{'))) := by
  have hm' : m ∈ httpRpcs s := by
    refine List.mem_filter.mpr ⟨hm, ?_⟩
    cases hbs : m.bindings with
    | nil => rw [hbs] at hb; cases hb
    | cons _ _ => rfl
  have hoc : Occurs (clientText b.verb (b.path.takeWhile (· ≠ '{')) m.name (m.name ++ englishNumber 0)) (newClientText s) := by
    refine Occurs.right (Occurs.right (Occurs.right (Occurs.left (Occurs.trans ?_ (occurs_flatMap hm')) _) _) _) _
    cases hbs : m.bindings with
    | nil => rw [hbs] at hb; cases hb
    | cons b' l =>
      rw [hbs] at hb
      cases hb
      rw [take_one]
      exact Occurs.refl _
  obtain ⟨A, B, rfl⟩ := hoc.trans (C86_clients h)
  refine ⟨A, _ ++ ('"' :: (clientRest m.name (m.name ++ englishNumber 0) ++ B)), ?_, client_literal _ _ _ _⟩
  unfold clientText
  simp only [List.append_assoc, List.cons_append]

/-- **C86** A path with a pattern for its parameter, which the router would understand, gives a statement that is not Go; one with an escaped
backslash gives the pattern. -/
theorem C86_pattern_witness (rpc label rest : Str) :
    literal (chars% "/{id:\\d+}" ++ ('"' :: (routeRest rpc label ++ rest))) = none ∧
    ∃ r, literal (chars% "/{id:\\\\d+}" ++ ('"' :: (routeRest rpc label ++ rest))) = some (chars% "/{id:\\d+}", r) := by
  exact ⟨rfl, _, rfl⟩

/-! ## An example -/

namespace Example

/-- An rpc with two bindings, the second with a parameter. -/
def rpcC : ServiceMethod := ⟨"C".toList, ty "get_in", ty "Out", [⟨"get".toList, "/c".toList, []⟩, ⟨"post".toList, "/c/{my_id}/x".toList, []⟩]⟩

def third : Service := ⟨"S".toList, [rpcA, rpcC, rpcB]⟩

example : ∃ txt, render id "pb".toList third conf "baron/NAME.pb.baron.go.tmpl".toList = some txt ∧ Occurs (handlerText third) txt ∧
    Occurs (newClientText third) txt := by
  obtain ⟨txt, h⟩ := C84_render id "pb".toList third conf "baron/NAME.pb.baron.go.tmpl".toList (by decide +kernel)
  exact ⟨txt, h, C86_routes h, C86_clients h⟩

def pieces : List Piece := [.lit "c".toList, .var "my_id".toList, .lit "x".toList]

/-- The path of the second binding is one of those that `C86_encoders` is about. -/
example : TemplateOK pieces ∧ rpcC.bindings[1]?.map HTTPBinding.path = some (templateOf pieces) :=
  ⟨⟨fun s hs => by
      have : ∀ p ∈ pieces, ∀ s ∈ [p.text], p.name? = none → '/' ∉ s ∧ '{' ∉ s ∧ '}' ∉ s := by decide +kernel
      rw [not_braced_iff]
      exact this _ hs s (List.mem_singleton.mpr rfl) rfl, fun n hn => by
      have : ∀ p ∈ pieces, ∀ s ∈ p.name?.toList, '/' ∉ s ∧ ('{' ∉ s ∧ '}' ∉ s) ∧ s ≠ [] := by decide +kernel
      rw [not_braced_iff]
      exact this _ hn n (List.mem_singleton.mpr rfl), by decide +kernel, by decide⟩, by decide +kernel⟩

example : handlerText third = ("\n\tm := mux.NewRouter()\n\n\t" ++
    "\n\t\t\n\t\t\tm.Methods(\"GET\").Path(\"/c\").Handler(httptransport.NewServer(\n\t\t\t\tendpoints.CEndpoint,\n\t\t\t\tDecodeHTTPCZeroRequest,\n" ++
    "\t\t\t\tEncodeHTTPGenericResponse,\n\t\t\t\tserverOptions...,\n\t\t\t))" ++
    "\n\t\t\tm.Methods(\"POST\").Path(\"/c/{my_id}/x\").Handler(httptransport.NewServer(\n\t\t\t\tendpoints.CEndpoint,\n" ++
    "\t\t\t\tDecodeHTTPCOneRequest,\n\t\t\t\tEncodeHTTPGenericResponse,\n\t\t\t\tserverOptions...,\n\t\t\t))" ++
    "\n\t\t\n\t\t\tm.Methods(\"GET\").Path(\"/b\").Handler(httptransport.NewServer(\n\t\t\t\tendpoints.BEndpoint,\n\t\t\t\tDecodeHTTPBZeroRequest,\n" ++
    "\t\t\t\tEncodeHTTPGenericResponse,\n\t\t\t\tserverOptions...,\n\t\t\t))\n\treturn m\n}\n").toList := by decide +kernel

end Example

end Baron.TT
