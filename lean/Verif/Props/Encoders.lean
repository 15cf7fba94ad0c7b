import Verif.Proofs.Encoders
import Verif.Props.Decoders
import Verif.Props.Texts

/-!
# C91 The text of generated request encoders
-/

namespace Baron.Encoders

open Baron.Svcdef hiding newField
open Baron.HTTP Baron.HTTPCode Baron.TT Baron.GoClient
open Baron.GoClient (Expr)
open Baron.Strs (goCamelCase)
open Baron.Decoders (isScalar scalarNames plainParams oneofParams all2_map binding_data)
open Baron.GoLang (commas)

theorem flatMap_filter {α : Type} (c : α → Prop) [DecidablePred c] (g : α → Code) (l : List α) :
    l.flatMap (fun p => if c p then (g p).print else []) = ((l.filter fun p => c p).map g).flatMap Code.print := by
  induction l with
  | nil => rfl
  | cons a l ih =>
    rw [List.flatMap_cons, ih, List.filter_cons]
    by_cases h : c a
    · rw [if_pos h, if_pos (decide_eq_true h)]; rfl
    · rw [if_neg h, if_neg (by rw [decide_eq_false h]; decide)]; rfl

theorem flatMap_oneofs {α β : Type} (c : α → Prop) [DecidablePred c] (o : α → List β) (g : β → Code) (l : List α) :
    l.flatMap (fun p => if c p then (o p).flatMap (fun x => (g x).print) else []) =
      ((l.filter fun p => c p).flatMap fun p => (o p).map g).flatMap Code.print := by
  induction l with
  | nil => rfl
  | cons a l ih =>
    rw [List.flatMap_cons, ih, List.filter_cons]
    by_cases h : c a
    · rw [if_pos h, if_pos (decide_eq_true h), List.flatMap_cons, List.flatMap_append, List.flatMap_map]
    · rw [if_neg h, if_neg (by rw [decide_eq_false h]; decide)]; rfl

theorem piece_print (b : HTTPBinding) (p : Piece) : (pieceExpr b p).print = pieceText b p := by
  cases p with
  | lit l => rfl
  | var n =>
    unfold pieceExpr pieceText sprinted reqField
    simp only []
    by_cases h : EnumParam b n
    · rw [if_pos h, if_pos h]; simp only [Expr.print, List.append_assoc]; rfl
    · rw [if_neg h, if_neg h]; simp only [Expr.print, List.append_assoc]; rfl

theorem elems_print (b : HTTPBinding) (ps : List Piece) :
    ((ps.map (pieceExpr b)).foldr Expr.elem Expr.last).print = ps.flatMap (fun p => element (pieceText b p)) ++ chars% "\n\t\t" := by
  induction ps with
  | nil => rfl
  | cons p ps ih =>
    rw [List.map_cons, List.foldr_cons, Expr.print, ih, List.flatMap_cons, piece_print]
    unfold element
    simp only [List.append_assoc]

set_option maxRecDepth 16000 in
theorem start_print (request : Str) (b : HTTPBinding) (ps : List Piece) : (startCode request b ps).print =
    chars% "\n\t\tstrval := \"\"\n\t\t_ = strval\n\t\treq := request.(*" ++ (goCamelCase request ++
    (chars% ")\n\t\t_ = req\n\n\t\tr.Header.Set(\"transport\", \"HTTPJSON\")\n\t\tr.Header.Set(\"request-url\", r.URL.Path)\n\n\t\t// Set the path parameters\n\t\tpath := strings.Join([]string{" ++
    (element (chars% "\"\"") ++ (ps.flatMap (fun p => element (pieceText b p)) ++
    chars% "\n\t\t}, \"/\")\n\t\tu, err := url.Parse(path)\n\t\tif err != nil {\n\t\t\treturn errors.Wrapf(err, \"couldn't unmarshal path %q\", path)\n\t\t}\n\t\tr.URL.RawPath = u.RawPath\n\t\tr.URL.Path = u.Path\n\n\t\t// Set the query parameters\n\t\tvalues := r.URL.Query()\n\t\tvar tmp []byte\n\t\t_ = tmp")))) := by
  unfold startCode pathExpr failed
  simp only [Code.print, Expr.print, commas, elems_print]
  simp only [List.append_assoc, List.append_nil, List.nil_append]
  rfl

set_option maxRecDepth 16000 in
theorem body_code_print (request : Str) (b : HTTPBinding) : (bodyCode request b).flatMap Code.print =
    chars% "\n\t\t// Set the body parameters\n\t\ttoRet := request.(*" ++ (goCamelCase request ++ (chars% ")" ++
    ((((plainParams b).filter fun p => p.location = chars% "body").map copyCode).flatMap Code.print ++
    chars% "\n\t\tmarshaler := protojson.MarshalOptions{\n\t\t\tAllowPartial:    true,\n\t\t\tUseProtoNames:   true,\n\t\t\tUseEnumNumbers:  true,\n\t\t\tEmitUnpopulated: true,\n\t\t}\n\t\tdata, err := marshaler.Marshal(req)\n\t\tif err != nil {\n\t\t\treturn errors.Wrapf(err, \"couldn't encode body as json %v\", toRet)\n\t\t}\n\t\tr.Body = ioutil.NopCloser(bytes.NewBuffer(data))"))) := by
  unfold bodyCode failed
  rw [List.flatMap_cons, List.flatMap_append]
  simp only [Code.print, Expr.print, commas, List.flatMap_cons, List.flatMap_nil]
  simp only [List.append_assoc, List.append_nil, List.nil_append]
  rfl

theorem sequence_of {α β : Type} {f : α → Option β} {l : List α} {l' : List β} (h : All2 (fun a b => f a = some b) l l') :
    sequence (l.map f) = some l' := by
  induction h with
  | nil => rfl
  | cons hab _ ih => simp only [List.map_cons, hab, sequence, ih]

set_option maxRecDepth 16000 in
/-- **C91** The encoder of every binding is, letter for letter, this program: it sets the headers and the path, adds to the instance's query the
fields in the query, each with the statements for its type, and the options of the oneofs in the query, and unless the verb is `get` sends the
whole message as the body. -/
theorem C91_encoders {fmt : Str → Str} {pkg : Str} {s : Service} {c : Config} {txt : Str}
    (h : render fmt pkg s c "baron/NAME.pb.baron.go.tmpl".toList = some txt) {m : ServiceMethod} (hm : m ∈ s.methods)
    {b : HTTPBinding} {i : Nat} (hb : m.bindings[i]? = some b) {ps : List Piece} (ht : TemplateOK ps) (hp : b.path = templateOf ps)
    (hf : ∀ p ∈ plainParams b, p.location = "query".toList → '[' ∉ p.field.type.name)
    (ho : ∀ p ∈ oneofParams b, p.location = "query".toList → ∀ o ∈ p.field.type.oneof, o.array = false) :
    Occurs (encoderText (m.name ++ englishNumber i) m.request.name b ps) txt := by
  obtain ⟨ms, hms, t, hpt, he⟩ := render_data (src := baronSrc) rfl h
  have hd := encoder_heads
  rw [hpt] at hd
  simp only [Option.map_some, Option.some.injEq, Prod.mk.injEq] at hd
  obtain ⟨hd1, hd2⟩ := hd
  have hm' : m ∈ httpRpcs s := by
    refine List.mem_filter.mpr ⟨hm, ?_⟩
    cases hbs : m.bindings with
    | nil => rw [hbs] at hb; cases hb
    | cons _ _ => rfl
  obtain ⟨v, hv, hmv⟩ := all2_mem hms hm'
  obtain ⟨bs, hbs, rfl⟩ := helperMethod_bindings hmv
  obtain ⟨w, hw, hbw⟩ := all2_mem hbs (List.mem_zipIdx_iff_getElem?.mpr hb : (b, i) ∈ _)
  obtain ⟨oneofs, fields, hfs, hos, rfl⟩ := binding_data hbw
  obtain ⟨_, a1, h1, rfl⟩ := exec_skip (k := 48) he
  obtain ⟨a2, h2, o2⟩ := exec_ranges hd1 h1 (l := ms) rfl hv
  obtain ⟨_, a3, h3, rfl⟩ := exec_skip (k := 1) h2
  obtain ⟨a4, h4, o4⟩ := exec_ranges hd2 h3 (l := bs) rfl hw
  obtain ⟨_, a5, h5, rfl⟩ := exec_skip (k := 4) h4
  have hT := encoderFullT_eq
  rw [hpt] at hT
  obtain ⟨_, a6, h6, rfl⟩ := exec_chop (n := 85) h5
  rw [show Tmpl.chop 85 (Tmpl.skip 4 (Tmpl.skip 1 (Tmpl.skip 48 t).body).body) = _ from Option.some.inj hT] at h6
  refine Occurs.trans ?_ ((o4.right _).trans o2 |>.right _)
  have : a6 = encoderText (m.name ++ englishNumber i) m.request.name b ps := by
    refine Option.some.inj (h6.symm.trans ?_)
    unfold encoderFullT
    refine (exec_text (exec_action rfl (exec_text (exec_action rfl (exec_text (exec_range (l := (pathSections b.path fields).map .str) rfl
      (each_map (g := element) fun a _ => rfl) (exec_text (exec_range (l := fields.map (fieldVal fmt)) rfl
      (each_all2_mem (R := fun p v => ∃ f, newTField m.name p = some f ∧ v = fieldVal fmt f)
        (g := fun p : HTTPParameter => if p.location = chars% "query" then (fieldCode p).print else [])
        (all2_map hfs fun p _ f hpf => ⟨f, hpf, rfl⟩) ?_) (exec_range (l := oneofs.map (oneofVal fmt)) rfl
      (each_all2_mem (R := fun p v => ∃ l, sequence (p.field.type.oneof.map (newTOption m.name p.field.name)) = some l ∧ v = oneofVal fmt ⟨p.field.name, p.location, l⟩)
        (g := fun p : HTTPParameter => if p.location = chars% "query" then p.field.type.oneof.flatMap (fun o => (optionCode o).print) else [])
        (all2_map hos fun p _ o hpo => by obtain ⟨l, h1, rfl⟩ := hpo; exact ⟨l, h1, rfl⟩) ?_)
      (exec_text (exec_cond (v := .bool (decide (b.verb ≠ chars% "get")))
        (o := if b.verb = chars% "get" then [] else (bodyCode m.request.name b).flatMap Code.print) rfl ?_ exec_text_nil))))))))))).trans ?_
    · rintro p _ hpm ⟨f, hpf, rfl⟩
      exact field_print (field_data hpf) (hf p hpm) _ _
    · rintro p _ hpm ⟨l, hpl, rfl⟩
      unfold oneofQT
      refine exec_cond_nil (v := .bool (decide (p.location = chars% "query"))) rfl ?_
      by_cases hq : p.location = chars% "query"
      · rw [decide_eq_true hq, if_pos hq]
        refine Eq.trans (if_pos rfl) ?_
        refine exec_range_nil (l := l.map fun f => .struct (fieldData f)) rfl
          (each_all2_mem (R := fun o v => ∃ f, newTOption m.name p.field.name o = some f ∧ v = .struct (fieldData f))
            (all2_map (sequence_all2 hpl) fun o _ f hof => ⟨f, hof, rfl⟩) ?_)
        rintro o _ hom ⟨f, hof, rfl⟩
        exact option_print (opt_data hof (ho p hpm hq o hom)) _ _
      · rw [decide_eq_false hq, if_neg hq]
        rfl
    · by_cases hg : b.verb = chars% "get"
      · rw [decide_eq_false (not_not_intro hg), if_pos hg]
        rfl
      · rw [decide_eq_true hg, if_neg hg]
        refine Eq.trans (if_pos rfl) ?_
        refine (exec_text (exec_action rfl (exec_text (exec_range (l := fields.map (fieldVal fmt)) rfl
          (each_all2_mem (R := fun p v => ∃ f, newTField m.name p = some f ∧ v = fieldVal fmt f)
            (g := fun p : HTTPParameter => if p.location = chars% "body" then (copyCode p).print else [])
            (all2_map hfs fun p _ f hpf => ⟨f, hpf, rfl⟩) ?_) exec_text_nil)))).trans ?_
        · rintro p _ hpm ⟨f, hpf, rfl⟩
          exact body_print (field_data hpf) _ _
        · rw [flatMap_filter, body_code_print]
    · rw [sections_eq (sequence_of hfs) ht hp, flatMap_filter, flatMap_oneofs, List.flatMap_cons, List.flatMap_map]
      unfold encoderText encoderCode queryCode
      rw [List.flatMap_cons, start_print, List.flatMap_append, List.flatMap_append, List.flatMap_cons, List.flatMap_append]
      simp only [List.append_assoc]
      by_cases hg : b.verb = chars% "get"
      · simp only [if_pos hg]
        rfl
      · simp only [if_neg hg]
        rfl
  rw [this]
  exact (Occurs.refl _).right _ |>.right _

namespace Example

open Baron.TT.Example hiding pieces
open Baron.Decoders.Example

def pieces : List Piece := [.lit "d".toList, .var "my_id".toList]

theorem pieces_ok : TemplateOK pieces := by
  refine ⟨fun s hs => ?_, fun n hn => ?_, by decide +kernel, by decide⟩
  · have : ∀ p ∈ pieces, ∀ s ∈ [p.text], p.name? = none → '/' ∉ s ∧ '{' ∉ s ∧ '}' ∉ s := by decide +kernel
    rw [not_braced_iff]
    exact this _ hs s (List.mem_singleton.mpr rfl) rfl
  · have : ∀ p ∈ pieces, ∀ s ∈ p.name?.toList, '/' ∉ s ∧ ('{' ∉ s ∧ '}' ∉ s) ∧ s ≠ [] := by decide +kernel
    rw [not_braced_iff]
    exact this _ hn n (List.mem_singleton.mpr rfl)

/-- The hypotheses of `C91_encoders` are met by it. -/
example : ∃ txt, render id "pb".toList fourth conf "baron/NAME.pb.baron.go.tmpl".toList = some txt ∧
    Occurs (encoderText "DZero".toList "In".toList Decoders.Example.binding pieces) txt := by
  obtain ⟨txt, h⟩ := C84_render id "pb".toList fourth conf "baron/NAME.pb.baron.go.tmpl".toList (by decide +kernel)
  refine ⟨txt, h, ?_⟩
  have := C91_encoders (m := rpcD) (b := Decoders.Example.binding) (i := 0) h (List.mem_cons_of_mem _ (List.mem_cons_self ..)) rfl pieces_ok rfl
    (by decide +kernel) (by decide +kernel)
  rwa [show rpcD.name ++ englishNumber 0 = "DZero".toList by decide +kernel] at this

/-- The statements for the query of that binding: a scalar, a list, an optional string, an enum, a message and the options of a oneof. -/
example : (queryCode Decoders.Example.binding).flatMap Code.print = (chars% "
				
					
					values.Add(\"size\", fmt.Sprint(req.Size))
					
				
					for _, v := range req.Ids {
						values.Add(\"ids\", fmt.Sprint(v))
					}
				
				
					
					if req.Note !=nil {
						values.Add(\"note\", fmt.Sprint(*req.Note))
					}
					
				
					tmp, err = json.Marshal(req.Kind)
					if err != nil {
						return errors.Wrap(err, \"failed to marshal req.Kind\")
					}
					strval = string(tmp)
					values.Add(\"kind\", strval)
				
				
					tmp, err = json.Marshal(req.Sub)
					if err != nil {
						return errors.Wrap(err, \"failed to marshal req.Sub\")
					}
					strval = string(tmp)
					values.Add(\"sub\", strval)
				
					
						if val := req.GetRed(); val != false {
							values.Add(\"red\", fmt.Sprint(val))
						}
					
						if val := req.GetBlue(); val != \"\" {
							values.Add(\"blue\", fmt.Sprint(val))
						}") := by decide +kernel

end Example

end Baron.Encoders
