import Verif.Proofs.CodecParts
import Verif.Spec.Decoders

/-!
# The texts that `ConvertFunc` and `GenQueryUnmarshaler` generate are programs
-/

namespace Baron.Decoders

open Baron.TT Baron.Svcdef Baron.HTTP Baron.HTTPCode Baron.GoLang
open Baron.GoLang (Expr)
open Baron.Strs (goCamelCase)

/-! ## Scalars -/

theorem scalar_iff (t : Str) : scalarNames.contains t = (baseOf t).isSome := by
  by_cases h : t ∈ scalarNames
  · rw [List.contains_iff_mem.mpr h]
    simp only [scalarNames, List.mem_cons, List.not_mem_nil, or_false] at h
    rcases h with rfl | rfl | rfl | rfl | rfl | rfl | rfl | rfl <;> decide +kernel
  · rw [show scalarNames.contains t = false from Bool.eq_false_iff.mpr fun hc => h (List.contains_iff_mem.mp hc)]
    simp only [scalarNames, List.mem_cons, List.not_mem_nil, or_false, not_or] at h
    obtain ⟨h1, h2, h3, h4, h5, h6, h7, h8⟩ := h
    cases hb : baseOf t with
    | none => rfl
    | some b =>
      exfalso
      unfold baseOf at hb
      repeat' split at hb
      all_goals first | exact h1 ‹_› | exact h2 ‹_› | exact h3 ‹_› | exact h4 ‹_› | exact h5 ‹_› | exact h6 ‹_› | exact h7 ‹_› | exact h8 ‹_› | cases hb

/-- The name of a base type. -/
def nameOf : Base → Str
  | .uint32 => chars% "uint32"
  | .uint64 => chars% "uint64"
  | .int32 => chars% "int32"
  | .int64 => chars% "int64"
  | .bool => chars% "bool"
  | .float32 => chars% "float32"
  | .float64 => chars% "float64"
  | .string => chars% "string"

theorem baseOf_name {t : Str} {b : Base} (h : baseOf t = some b) : t = nameOf b := by
  have hs : t ∈ scalarNames := List.contains_iff_mem.mp (by rw [scalar_iff, h]; rfl)
  simp only [scalarNames, List.mem_cons, List.not_mem_nil, or_false] at hs
  rcases hs with rfl | rfl | rfl | rfl | rfl | rfl | rfl | rfl <;> (revert h; cases b <;> decide +kernel)

theorem baseOf_nameOf (b : Base) : baseOf (nameOf b) = some b := by cases b <;> decide +kernel

theorem baseOf_string {t : Str} : baseOf t = some .string ↔ t = chars% "string" :=
  ⟨fun h => baseOf_name h, fun h => by subst h; decide +kernel⟩

theorem itoa10 : itoa 10 = chars% "10" := by decide +kernel
theorem itoa32 : itoa 32 = chars% "32" := by decide +kernel
theorem itoa64 : itoa 64 = chars% "64" := by decide +kernel
theorem itoa0 : itoa 0 = chars% "0" := by decide +kernel
theorem itoa1 : itoa 1 = chars% "1" := by decide +kernel

/-- Flatten a printed text. -/
macro "flat" : tactic => `(tactic| simp only [Code.print, Expr.print, GoLang.Ty.print, commas, itoa10, itoa32, itoa64, itoa0, itoa1,
  List.append_assoc, List.append_nil, List.nil_append])

theorem readScalar_print {b : Base} {t : Str} (h : baseOf t = some b) (ws x y : Str) (rest : Code) :
    (readScalar ws t x y rest).print = ws ++ (parseText t x y ++ rest.print) := by
  have := baseOf_name h
  subst this
  unfold parseText
  rw [h]
  cases b <;> (simp only [nameOf, readScalar, parseCall, reduceIte, List.cons.injEq, Char.reduceEq, false_and, and_false, reduceCtorEq]; flat; try rfl)

theorem narrowed_print (t x : Str) : (narrowed t x).print = if baseOf t = some .uint32 ∨ baseOf t = some .int32 ∨ baseOf t = some .float32 then
    t ++ (chars% "(" ++ (x ++ [')'])) else x := by
  unfold narrowed
  have e : ∀ b, (baseOf t = some b) ↔ t = nameOf b := fun b => ⟨baseOf_name, fun h => by subst h; exact baseOf_nameOf b⟩
  by_cases h : t = chars% "uint32" ∨ t = chars% "int32" ∨ t = chars% "float32"
  · rw [if_pos h, if_pos (by rw [e, e, e]; exact h)]
    rfl
  · rw [if_neg h, if_neg (by rw [e, e, e]; exact h)]
    rfl

theorem converted_print (t : Str) : (narrowed t (chars% "converted")).print = convertedVar t := by
  rw [narrowed_print]
  unfold convertedVar
  cases h : baseOf t with
  | none => simp
  | some b => have := baseOf_name h; subst this; cases b <;> simp [nameOf]

/-! ## Lists and messages -/

theorem contains_head {s sub : Str} {c : Char} (h : contains s (c :: sub) = true) : c ∈ s := by
  induction s with
  | nil => cases h
  | cons a s ih =>
    unfold contains at h
    rcases Bool.or_eq_true _ _ ▸ h with h | h
    · have : c = a := by
        have := (Bool.and_eq_true _ _ ▸ h : (c == a) = true ∧ _).1
        exact beq_iff_eq.mp this
      rw [this]; exact List.mem_cons_self
    · exact List.mem_cons_of_mem _ (ih h)

theorem contains_not {s sub : Str} {c : Char} (h : c ∉ s) : contains s (c :: sub) = false :=
  Bool.eq_false_iff.mpr fun hc => h (contains_head hc)

theorem eval_base (f : TField) (vars : Vars) (h : '[' ∉ f.goType) : eval vars (.struct (fieldData f))
    (.call2 (chars% "and") (.dot [chars% "IsBaseType"]) (.call1 (chars% "not") (.call2 (chars% "Contains") (.dot [chars% "GoType"]) (.str (chars% "[]byte"))))) =
    some (.bool f.isBase) := by
  show some (if f.isBase = true then Val.bool (!contains f.goType (chars% "[]byte")) else .bool f.isBase) = _
  rw [contains_not h]
  cases f.isBase <;> rfl

theorem eval_base' (f : TField) (vars : Vars) (h : '[' ∉ f.goType) (hr : f.repeated = true) : eval vars (.struct (fieldData f))
    (.call2 (chars% "and") (.call2 (chars% "and") (.dot [chars% "IsBaseType"]) (.dot [chars% "Repeated"]))
      (.call1 (chars% "not") (.call2 (chars% "Contains") (.dot [chars% "GoType"]) (.str (chars% "[]byte"))))) =
    some (.bool f.isBase) := by
  show some (if (if f.isBase = true then Val.bool f.repeated else .bool f.isBase).truth = true then Val.bool (!contains f.goType (chars% "[]byte")) else
    (if f.isBase = true then Val.bool f.repeated else .bool f.isBase)) = _
  rw [contains_not h, hr]
  cases f.isBase <;> rfl

theorem eval_strings (f : TField) (vars : Vars) (h : '[' ∉ f.goType) : eval vars (.struct (fieldData f))
    (.call2 (chars% "Contains") (.dot [chars% "GoType"]) (.str (chars% "[]string"))) = some (.bool false) := by
  show some (Val.bool (contains f.goType (chars% "[]string"))) = _
  rw [contains_not h]

theorem if_two {b : Bool} {x x' : Option Str} {y y' : Str} (h : x = some y) (h' : x' = some y') :
    (if b = true then x else x') = some (if b = true then y else y') := by
  cases b
  · exact h'
  · exact h

theorem if_one {b : Bool} {x : Option Str} {y : Str} (h : x = some y) : (if b = true then x else some []) = some (if b = true then y else []) :=
  if_two h rfl

/-- Output of an empty template. -/
theorem exec_nil {vars : Vars} {dot : Val} : exec .nil vars dot = some [] := rfl

/-- The text for a list. -/
def listText (x g : Str) (star base : Bool) (loop set o : Str) : Str :=
  let elem := (if star = true then chars% "*" else []) ++ g
  chars% "\nvar " ++ (x ++ (chars% " []" ++ (elem ++
  ((if base = true then chars% "\nif len(" ++ (x ++ (chars% "StrArr) > 1 {\n\t" ++ (x ++ (chars% " = make([]" ++ (elem ++ (chars% ", len(" ++ (x ++
    (chars% "StrArr))\n\tfor i, v := range " ++ (x ++ (loop ++ (x ++ (chars% " from %v\", " ++ (x ++ (chars% "Str)\n}\n\t\t" ++ (x ++ (set ++
    chars% "\n} else {")))))))))))))))) else []) ++
  ((if base = true then chars% "\n\terr = json.Unmarshal([]byte(" ++ (x ++ (chars% "Str), &" ++ (x ++ (chars% ")\n\tif err != nil {\n\t\t" ++ (x ++
    (chars% "Str = \"[\" + " ++ (x ++ (chars% "Str + \"]\"\n\t}\n\terr = json.Unmarshal([]byte(" ++ (x ++ (chars% "Str), &" ++ (x ++ chars% ")")))))))))))
    else chars% "\n\terr = json.Unmarshal([]byte(" ++ (x ++ (chars% "Str), &" ++ (x ++ chars% ")")))) ++
  ((if base = true then chars% "\n}" else []) ++ o))))))

theorem exec_repeated (f : TField) (vars : Vars) (loop set : Str) {tail : Tmpl} {o : Str} (h : '[' ∉ f.goType) (hr : f.repeated = true)
    (ht : exec tail vars (.struct (fieldData f)) = some o) :
    exec (repeatedT loop set tail) vars (.struct (fieldData f)) = some (listText f.localName f.goType f.star f.isBase loop set o) := by
  unfold repeatedT
  refine Eq.trans (exec_text (exec_action rfl (exec_text (exec_cond rfl (if_one exec_text_nil) (exec_action rfl (exec_cond (eval_base f vars h)
    (if_one (exec_text (exec_action rfl (exec_text (exec_cond (eval_strings f vars h) (Eq.trans (if_neg Bool.false_ne_true) (exec_text (exec_action rfl (exec_text (exec_cond rfl (if_one exec_text_nil) (exec_action rfl (exec_text (exec_action rfl
        (exec_text (exec_action rfl (exec_text (exec_action rfl (exec_text (exec_action rfl (exec_text (exec_action rfl exec_text_nil)))))))))))))))) exec_text_nil)))))
    (exec_cond (eval_strings f vars h) (Eq.trans (if_neg Bool.false_ne_true) (exec_cond_nil (eval_base' f vars h hr) (if_two (exec_text (exec_action rfl (exec_text (exec_action rfl (exec_text (exec_action rfl (exec_text (exec_action rfl (exec_text (exec_action rfl
          (exec_text (exec_action rfl exec_text_nil)))))))))))) (exec_text (exec_action rfl (exec_text (exec_action rfl exec_text_nil)))))))
    (exec_cond (eval_base f vars h) (if_one exec_text_nil) ht)))))))) (congrArg some ?_)
  unfold listText
  simp only [List.append_assoc]
  rfl

theorem exec_check (f : TField) (vars : Vars) : exec checkT vars (.struct (fieldData f)) = some (chars% "\nif err != nil {\n\treturn nil, errors.Wrapf(err, \"couldn't decode " ++
    (f.localName ++ (chars% " from %v\", " ++ (f.localName ++ chars% "Str)\n}")))) :=
  exec_text (exec_action rfl (exec_text (exec_action rfl exec_text_nil)))

theorem exec_single (f : TField) (vars : Vars) : exec singleT vars (.struct (fieldData f)) = some (chars% "\nvar " ++ (f.localName ++ (chars% " " ++
    ((if f.star = true then chars% "*" else []) ++ (f.goType ++ (chars% "\n" ++ (f.localName ++ (chars% " = " ++ ((if f.star = true then chars% "&" else []) ++ (f.goType ++
    (chars% "{}\nerr = json.Unmarshal([]byte(" ++ (f.localName ++ (chars% "Str), " ++ (f.localName ++ (chars% ")\nif err != nil {\n\treturn nil, errors.Wrapf(err, \"couldn't decode " ++
    (f.localName ++ (chars% " from %v\", " ++ (f.localName ++ chars% "Str)\n}")))))))))))))))))) := by
  unfold singleT
  exact exec_text (exec_action rfl (exec_text (exec_cond rfl (if_one exec_text_nil) (exec_action rfl (exec_text (exec_action rfl (exec_text
    (exec_cond rfl (if_one exec_text_nil) (exec_action rfl (exec_text (exec_action rfl (exec_text (exec_action rfl (exec_text (exec_action rfl (exec_text (exec_action rfl
    exec_text_nil)))))))))))))))))

/-! ## Fields -/

theorem apply_eq {src : Str} {t : Tmpl} (h : parse src = some t) (d : Val) : apply src d = exec t [([], d)] d := by
  unfold apply
  rw [h]

theorem parse_eq {src : Str} {t : Tmpl} (h : (parse src).map (fun t => t) = some t) : parse src = some t := by
  rw [Option.map_id'] at h
  exact h

/-- The text after a conversion that can fail. -/
def checkText (x loc : Str) : Str := chars% "\nif err != nil {\n\treturn nil, errors.Wrap(err, fmt.Sprintf(\"Error while extracting " ++ (x ++ (chars% " from " ++ (loc ++
  (chars% ", " ++ (loc ++ (chars% "Params: %v\", " ++ (loc ++ chars% "Params))\n}")))))))

theorem checkDecoded_print (x : Str) (rest : Code) : (checkDecoded x rest).print = chars% "\nif err != nil {\n\treturn nil, errors.Wrapf(err, \"couldn't decode " ++ (x ++
    (chars% " from %v\", " ++ (x ++ (chars% "Str)\n}" ++ rest.print)))) := by
  unfold checkDecoded failed
  flat
  rfl

theorem checkParsed_print (x loc : Str) (rest : Code) : (checkParsed [] x loc loc rest).print = checkText x loc ++ rest.print := by
  unfold checkParsed failed checkText
  flat
  rfl

set_option maxRecDepth 8000 in
/-- The statements for a list of scalars before the error is checked. -/
theorem list_print (x : Str) {t : Str} {b : Base} (hb : baseOf t = some b) (elem : Str) (rest : Code) :
    (Code.condElse (chars% "\n") (.bin (.call1 (chars% "len") (.id (x ++ chars% "StrArr"))) (chars% ">") (.num 1))
      (.assign (chars% "\n\t") x (.make elem (.call1 (chars% "len") (.id (x ++ chars% "StrArr"))))
      (.range (chars% "\n\t") (chars% "i") (chars% "v") (.id (x ++ chars% "StrArr"))
        (readScalar (chars% "\n\t") t (chars% "converted") (chars% "v")
        (checkDecoded x
        (.setAt (chars% "\n\t\t") x (chars% "i") (narrowed t (chars% "converted"))
        (.done (chars% "\n\t")))))
      (.done (chars% "\n"))))
      (.unmarshal (chars% "\n\t") (x ++ chars% "Str") true x
      (.cond (chars% "\n\t") failed
        (.assign (chars% "\n\t\t") (x ++ chars% "Str") (.bin (.bin (.text (chars% "[")) (chars% "+") (.id (x ++ chars% "Str"))) (chars% "+") (.text (chars% "]")))
        (.done (chars% "\n\t")))
      (.unmarshal (chars% "\n\t") (x ++ chars% "Str") true x
      (.done (chars% "\n")))))
      rest).print = chars% "\nif len(" ++ (x ++ (chars% "StrArr) > 1 {\n\t" ++ (x ++ (chars% " = make([]" ++ (elem ++ (chars% ", len(" ++ (x ++
    (chars% "StrArr))\n\tfor i, v := range " ++ (x ++ (chars% "StrArr {\n\t" ++ (parseText t (chars% "converted") (chars% "v") ++
      (chars% "\nif err != nil {\n\treturn nil, errors.Wrapf(err, \"couldn't decode " ++ (x ++ (chars% " from %v\", " ++ (x ++ (chars% "Str)\n}\n\t\t" ++ (x ++
      (chars% "[i] = " ++ (convertedVar t ++ (chars% "\n\t}" ++ (chars% "\n} else {" ++
    (chars% "\n\terr = json.Unmarshal([]byte(" ++ (x ++ (chars% "Str), &" ++ (x ++ (chars% ")\n\tif err != nil {\n\t\t" ++ (x ++
    (chars% "Str = \"[\" + " ++ (x ++ (chars% "Str + \"]\"\n\t}\n\terr = json.Unmarshal([]byte(" ++ (x ++ (chars% "Str), &" ++ (x ++ (chars% ")" ++ (chars% "\n}" ++
    rest.print))))))))))))))))))))))))))))))))))) := by
  simp only [Code.print, readScalar_print hb, checkDecoded_print, converted_print, failed]
  flat
  rfl

theorem valueOf_print {f : TField} {t : FieldType} (hr : f.repeated = false) (hg : f.goType = t.name) (hs : f.star = t.star)
    (hb : f.isBase = isScalar t) (he : f.isEnum = t.enum.isSome) : (valueOf t f.localName).print = createDecodeTypeConversion f := by
  unfold valueOf createDecodeTypeConversion
  rw [hr, hg, hs, hb, he]
  simp only [Bool.false_eq_true, if_false, Bool.or_eq_true, decide_eq_true_eq]
  have key : (if t.enum.isSome = true then GoLang.Expr.conv t.name (.id f.localName) else narrowed t.name f.localName).print =
      if ((t.enum.isSome = true ∨ baseOf t.name = some .uint32) ∨ baseOf t.name = some .int32) ∨ baseOf t.name = some .float32 then
        t.name ++ chars% "(" ++ f.localName ++ chars% ")" else f.localName := by
    by_cases h : t.enum.isSome = true
    · rw [if_pos h, if_pos (.inl (.inl (.inl h)))]
      flat
    · rw [if_neg h, narrowed_print]
      by_cases h2 : baseOf t.name = some .uint32 ∨ baseOf t.name = some .int32 ∨ baseOf t.name = some .float32
      · rw [if_pos h2, if_pos (by rcases h2 with h2 | h2 | h2 <;> simp only [h2, or_true, true_or])]
        flat
      · rw [if_neg h2, if_neg (by simp only [not_or] at h2 ⊢; exact ⟨⟨⟨h, h2.1⟩, h2.2.1⟩, h2.2.2⟩)]
  cases isScalar t && t.star
  · simp only [Bool.false_eq_true, if_false]
    exact key
  · simp only [if_true]
    show chars% "&" ++ GoLang.Expr.print _ = _
    rw [key]

theorem parseText_enum (x y : Str) : parseText (chars% "int32") x y = x ++ chars% ", err := strconv.ParseInt(" ++ y ++ chars% ", 10, 32)" := by
  unfold parseText
  rw [show baseOf (chars% "int32") = some .int32 from by decide +kernel]

set_option maxRecDepth 4000 in
theorem convert_field {f : TField} {t : FieldType} (field : Str) (hr : f.repeated = t.array) (hg : f.goType = t.name) (hs : f.star = t.star)
    (hb : f.isBase = isScalar t) (he : f.isEnum = t.enum.isSome) (hn : '[' ∉ t.name) : ∃ c n, createDecodeConvertFunc f = some (c, n) ∧
    (readField f.localName field f.location t).print = chars% "\n" ++ (c ++ ((if n = true then checkText f.localName f.location else []) ++
      (chars% "\nreq." ++ (field ++ (chars% " = " ++ (createDecodeTypeConversion f ++ chars% "\n")))))) := by
  have hn' : '[' ∉ f.goType := by rw [hg]; exact hn
  cases ha : t.array with
  | true =>
    have hr' : f.repeated = true := hr.trans ha
    have hc : createDecodeTypeConversion f = f.localName := by unfold createDecodeTypeConversion; rw [hr']; rfl
    rw [hc]
    unfold createDecodeConvertFunc readField
    rw [hr', ha]
    simp only [Bool.not_true, Bool.and_false, Bool.false_eq_true, if_false, Bool.or_true, if_true]
    by_cases hstr : t.name = chars% "string"
    · have hstr' : baseOf f.goType = some .string := baseOf_string.mpr (hg.trans hstr)
      unfold jsonConvTmpl
      rw [hr', hstr']
      simp only [Bool.not_true, Bool.false_eq_true, if_false, if_true]
      rw [apply_eq (repeatedT_eq _).1, exec_repeated f _ _ _ hn' hr' exec_nil]
      refine ⟨_, _, rfl, ?_⟩
      rw [if_pos hstr, hg, hs, hb]
      unfold listText
      cases hsc : isScalar t
      · simp only [Bool.false_eq_true, if_false]
        cases t.star <;> (flat; rfl)
      · simp only [if_true, Bool.false_eq_true, if_false]
        rw [Code.print, list_print _ (hg ▸ hstr')]
        cases t.star <;> (flat; rfl)
    · have hstr' : baseOf f.goType ≠ some .string := fun h => hstr (hg ▸ baseOf_string.mp h)
      unfold jsonConvTmpl
      rw [hr', if_neg (by decide), if_neg hstr']
      rw [apply_eq (repeatedT_eq _).2, exec_repeated f _ _ _ hn' hr' (exec_check f _)]
      refine ⟨_, _, rfl, ?_⟩
      rw [if_neg hstr, hg, hs, hb]
      unfold listText
      cases hsc : isScalar t
      · simp only [Bool.false_eq_true, if_false]
        simp only [Code.print, checkDecoded_print]
        cases t.star <;> (flat; rfl)
      · simp only [if_true, Bool.false_eq_true, if_false]
        have : ∃ b, baseOf t.name = some b := by
          unfold isScalar at hsc
          rw [scalar_iff] at hsc
          exact Option.isSome_iff_exists.mp (Bool.and_eq_true _ _ ▸ hsc).2
        obtain ⟨b, hb'⟩ := this
        rw [Code.print, list_print _ hb', checkDecoded_print]
        cases t.star <;> (flat; rfl)
  | false =>
    have hr' : f.repeated = false := hr.trans ha
    rw [← valueOf_print hr' hg hs hb he]
    unfold createDecodeConvertFunc readField
    rw [hr', he, ha]
    simp only [Bool.not_false, Bool.and_true, Bool.or_false, Bool.false_eq_true, if_false]
    cases hen : t.enum.isSome with
    | true =>
      refine ⟨_, _, rfl, ?_⟩
      simp only [if_true, Code.print, checkParsed_print]
      flat
      rfl
    | false =>
      simp only [Bool.false_eq_true, if_false, hb]
      cases hsc : isScalar t with
      | true =>
        have : ∃ b, baseOf t.name = some b := by
          unfold isScalar at hsc
          rw [scalar_iff] at hsc
          exact Option.isSome_iff_exists.mp (Bool.and_eq_true _ _ ▸ hsc).2
        obtain ⟨b, hb'⟩ := this
        refine ⟨_, _, rfl, ?_⟩
        simp only [if_true]
        rw [readScalar_print hb', hg]
        by_cases hstr : t.name = chars% "string"
        · rw [if_pos hstr, if_neg (by rw [baseOf_string.mpr hstr]; decide)]
          flat
          rfl
        · have hd : decide (baseOf t.name ≠ some .string) = true := decide_eq_true fun h => hstr (baseOf_string.mp h)
          rw [if_neg hstr, if_pos hd, checkParsed_print]
          flat
          rfl
      | false =>
        simp only [Bool.not_false, Bool.false_eq_true, if_false, if_true]
        unfold jsonConvTmpl
        rw [hr', if_pos (by decide), apply_eq (parse_eq singleT_eq), exec_single]
        refine ⟨_, _, rfl, ?_⟩
        simp only [Code.print, checkDecoded_print, hg, hs, Bool.false_eq_true, if_false]
        cases t.star
        · simp only [Bool.false_eq_true, if_false]
          flat
          rfl
        · simp only [if_true]
          flat
          rfl

theorem exec_path (f : TField) (vars : Vars) : exec pathT vars (.struct (fieldData f)) = some (chars% "\n" ++ (f.localName ++ (chars% "Str := " ++ (f.location ++
    (chars% "Params[\"" ++ (f.queryParamName ++ (chars% "\"]\n" ++ (f.convertFunc ++ ((if f.needsErrorCheck = true then checkText f.localName f.location else []) ++
    (chars% "\nreq." ++ (f.camelName ++ (chars% " = " ++ (f.typeConversion ++ chars% "\n"))))))))))))) := by
  unfold pathT
  exact exec_text (exec_action rfl (exec_text (exec_action rfl (exec_text (exec_action rfl (exec_text (exec_action rfl (exec_cond rfl (if_one
    (exec_text (exec_action rfl (exec_text (exec_action rfl (exec_text (exec_action rfl (exec_text (exec_action rfl exec_text_nil)))))))))
    (exec_text (exec_action rfl (exec_text (exec_action rfl exec_text_nil))))))))))))

theorem exec_query (f : TField) (vars : Vars) : exec queryT vars (.struct (fieldData f)) = some (chars% "\nif " ++ (f.localName ++ (chars% "StrArr, ok := " ++ (f.location ++
    (chars% "Params[\"" ++ (f.queryParamName ++ (chars% "\"]; ok {\n" ++ (f.localName ++ (chars% "Str := " ++ (f.localName ++ (chars% "StrArr[0]\n" ++
    (f.convertFunc ++ ((if f.needsErrorCheck = true then checkText f.localName f.location else []) ++
    (chars% "\nreq." ++ (f.camelName ++ (chars% " = " ++ (f.typeConversion ++ chars% "\n}"))))))))))))))))) := by
  unfold queryT
  exact exec_text (exec_action rfl (exec_text (exec_action rfl (exec_text (exec_action rfl (exec_text (exec_action rfl (exec_text (exec_action rfl (exec_text (exec_action rfl (exec_cond rfl (if_one
    (exec_text (exec_action rfl (exec_text (exec_action rfl (exec_text (exec_action rfl (exec_text (exec_action rfl exec_text_nil)))))))))
    (exec_text (exec_action rfl (exec_text (exec_action rfl exec_text_nil))))))))))))))))

theorem genField_text (fmt : Str → Str) {meth : Str} {p : HTTPParameter} {f : TField} (h : newTField meth p = some f) (hn : '[' ∉ p.field.type.name) :
    genField fmt f = some (fmt (fieldCode meth p).print) ∧ f.location = p.location := by
  unfold newTField at h
  simp only at h
  have hb : (HTTPCode.newField p).isBase = isScalar p.field.type := by
    unfold HTTPCode.newField isScalar
    simp only [scalar_iff]
  generalize hf : ({ name := p.field.name, queryParamName := p.field.pbName, camelName := goCamelCase p.field.name
                     lowCamelName := lowCamelName p.field.name, location := p.location, repeated := p.field.type.array
                     goType := p.field.type.name, star := p.field.type.star, localName := goCamelCase p.field.name ++ goCamelCase meth
                     isBase := (HTTPCode.newField p).isBase, isEnum := p.field.type.enum.isSome
                     convertFunc := [], needsErrorCheck := false, typeConversion := [], zeroValue := [] } : TField) = g at h
  obtain ⟨c, n, h1, h2⟩ := convert_field (f := g) (t := p.field.type) (goCamelCase p.field.name) (by subst hf; rfl) (by subst hf; rfl) (by subst hf; rfl)
    (by subst hf; exact hb) (by subst hf; rfl) hn
  rw [h1] at h
  simp only [Option.some.injEq] at h
  replace h : { g with convertFunc := c, needsErrorCheck := n, typeConversion := createDecodeTypeConversion g } = f := by
    rw [← h]; subst hf; rfl
  unfold genField fieldCode
  have hl : f.location = p.location := by subst h; subst hf; rfl
  refine ⟨?_, hl⟩
  rw [hl]
  by_cases hp : p.location = chars% "path"
  · rw [if_pos hp, if_pos hp]
    simp only
    rw [apply_eq (parse_eq pathT_eq), exec_path]
    refine congrArg (fun z => some (fmt z)) ?_
    subst h
    subst hf
    simp only at h2 ⊢
    unfold localOf
    rw [Code.print, h2]
    flat
    rfl
  · rw [if_neg hp, if_neg hp]
    simp only
    rw [apply_eq (parse_eq queryT_eq), exec_query]
    refine congrArg (fun z => some (fmt z)) ?_
    subst h
    subst hf
    simp only at h2 ⊢
    unfold localOf
    simp only [Code.print, h2]
    flat
    rfl

/-! ## Oneofs -/

/-- What is known of an option's data. -/
structure OptionData (meth oneof : Str) (o : OneofField) (f : TField) : Prop where
  localName : f.localName = localOf meth o.name
  queryParamName : f.queryParamName = o.pbName
  camelName : f.camelName = goCamelCase oneof
  location : f.location = []
  convertFunc : f.convertFunc = parseText o.typeName (localOf meth o.name) (localOf meth o.name ++ chars% "Str")
  needsErrorCheck : f.needsErrorCheck = decide (o.typeName ≠ chars% "string")
  typeConversion : f.typeConversion = (if o.star then [] else chars% "&") ++ (o.wrapper ++ (chars% "{" ++ (goCamelCase o.name ++ (chars% ": " ++
    ((narrowed o.typeName (localOf meth o.name)).print ++ chars% "}")))))

theorem option_data {meth oneof : Str} {o : OneofField} {f : TField} (h : newTOption meth oneof o = some f) (ha : o.array = false) : OptionData meth oneof o f := by
  unfold newTOption createDecodeConvertFunc at h
  simp only [ha, Bool.false_and, Bool.not_true, Bool.or_false, Bool.false_eq_true, if_false] at h
  simp only [Option.some.injEq] at h
  subst h
  refine ⟨rfl, rfl, rfl, rfl, rfl, ?_, ?_⟩
  · simp only [ne_eq, decide_eq_true_eq, baseOf_string]
  · simp only [createDecodeTypeConversion, narrowed_print, Bool.false_eq_true, if_false, Bool.and_false, Bool.false_or, Bool.or_eq_true, decide_eq_true_eq, or_assoc,
      List.append_assoc, localOf]

theorem checkParsed_option (x : Str) (rest : Code) : (checkParsed (chars% "\t") x [] (chars% "query") rest).print =
    chars% "\n\tif err != nil {\n\t\treturn nil, errors.Wrap(err, fmt.Sprintf(\"Error while extracting " ++ (x ++ (chars% " from , queryParams: %v\", queryParams))\n\t}" ++
    rest.print)) := by
  unfold checkParsed failed
  flat
  rfl

/-- The text that looks for an option. -/
def presentText (meth oneof : Str) (o : OneofField) : Str :=
  let x := localOf meth o.name
  chars% "\n\n\t\tvar " ++ (x ++ (chars% "Str string\n\t\t" ++ (x ++ (chars% "StrArr, " ++ (x ++ (chars% "OK := queryParams[\"" ++ (o.pbName ++
  (chars% "\"]\n\t\tif " ++ (x ++ (chars% "OK {\n\t\t\t" ++ (x ++ (chars% "Str = " ++ (x ++ (chars% "StrArr[0]\n\t\t\t" ++ (oneof ++
  chars% "CountSet++\n\t\t}\n\t")))))))))))))))

theorem presence_print (meth oneof K : Str) {rest : Code} (hr : rest.print = chars% "\n\t" ++ K) (os : List OneofField) :
    (os.foldr (presenceCode meth oneof) rest).print = chars% "\n\t" ++ (os.flatMap (presentText meth oneof) ++ K) := by
  induction os with
  | nil => exact hr
  | cons o os ih =>
    rw [List.foldr_cons, List.flatMap_cons]
    generalize os.foldr _ rest = z at ih ⊢
    unfold presenceCode presentText
    simp only [Code.print, ih]
    flat
    rfl

/-- The text for the case of an option. -/
def caseText (meth oneof : Str) (o : OneofField) : Str :=
  let x := localOf meth o.name
  chars% "\ncase " ++ (x ++ (chars% "OK:\n\t" ++ (parseText o.typeName x (x ++ chars% "Str") ++ ((if o.typeName ≠ chars% "string" then
    chars% "\n\tif err != nil {\n\t\treturn nil, errors.Wrap(err, fmt.Sprintf(\"Error while extracting " ++ (x ++ chars% " from , queryParams: %v\", queryParams))\n\t}") else []) ++
  (chars% "\n\treq." ++ (goCamelCase oneof ++ (chars% " = " ++ (((if o.star then [] else chars% "&") ++ (o.wrapper ++ (chars% "{" ++ (goCamelCase o.name ++ (chars% ": " ++
    ((narrowed o.typeName (localOf meth o.name)).print ++ chars% "}")))))) ++ chars% "\n"))))))))

theorem options_print (meth oneof K : Str) {rest : Code} (hr : rest.print = chars% "\n" ++ K) (os : List OneofField) (ht : ∀ o ∈ os, o.typeName ∈ scalarNames) :
    (os.foldr (optionCode meth oneof) rest).print = chars% "\n" ++ (os.flatMap (caseText meth oneof) ++ K) := by
  induction os with
  | nil => exact hr
  | cons o os ih =>
    have ih := ih fun o' ho' => ht o' (List.mem_cons_of_mem _ ho')
    obtain ⟨b, hb⟩ : ∃ b, baseOf o.typeName = some b := Option.isSome_iff_exists.mp
      (by rw [← scalar_iff]; exact List.contains_iff_mem.mpr (ht o List.mem_cons_self))
    rw [List.foldr_cons, List.flatMap_cons]
    generalize os.foldr _ rest = z at ih ⊢
    generalize os.flatMap _ = L at ih ⊢
    unfold optionCode caseText
    simp only [Code.print, readScalar_print hb]
    rw [ih]
    by_cases hs : o.typeName = chars% "string"
    · simp only [hs, if_true, ne_eq, not_true, if_false]
      cases o.star
      · simp only [Bool.false_eq_true, if_false]; flat; rfl
      · simp only [if_true]; flat; rfl
    · simp only [hs, if_true, ne_eq, not_false_eq_true, if_false, checkParsed_option]
      cases o.star
      · simp only [Bool.false_eq_true, if_false]; flat; rfl
      · simp only [if_true]; flat; rfl

theorem all2_map {α β γ : Type} {R : α → β → Prop} {S : α → γ → Prop} {f : β → γ} {l : List α} {l' : List β} (h : All2 R l l')
    (hf : ∀ a ∈ l, ∀ b, R a b → S a (f b)) : All2 S l (l'.map f) := by
  induction h with
  | nil => exact .nil
  | cons hab _ ih => exact .cons (hf _ List.mem_cons_self _ hab) (ih fun a ha => hf a (List.mem_cons_of_mem _ ha))

theorem genOneof_text (fmt : Str → Str) {meth : Str} {oneof : Str} {os : List OneofField} {l : List TField} (h : sequence (os.map (newTOption meth oneof)) = some l)
    (ho : ∀ o ∈ os, o.array = false ∧ o.typeName ∈ scalarNames) :
    genOneof fmt ⟨oneof, chars% "query", l⟩ = some (fmt (oneofCode meth oneof os).print) := by
  have hl : All2 (fun o v => ∃ f, v = Val.struct (fieldData f) ∧ OptionData meth oneof o f) os (l.map fun f => .struct (fieldData f)) :=
    all2_map (sequence_all2 h) fun o hm f hf => ⟨f, rfl, option_data hf (ho o hm).1⟩
  unfold genOneof
  rw [apply_eq (parse_eq oneofT_eq)]
  generalize hd : Val.struct (oneofData ⟨oneof, chars% "query", l⟩) = d
  have e1 : ∀ vars, eval (bind (some (chars% "oneof")) d vars) d (.var (chars% "oneof") [chars% "Options"]) = some (.list (l.map fun f => .struct (fieldData f))) := by
    intro vars; subst hd; rfl
  have e2 : ∀ vars, eval vars d (.dot [chars% "Name"]) = some (.str oneof) := by
    intro vars; subst hd; rfl
  have e3 : ∀ v vars, eval (bind (some (chars% "option")) v (bind (some (chars% "oneof")) d vars)) v (.var (chars% "oneof") [chars% "Location"]) = some (.str (chars% "query")) := by
    intro v vars; subst hd; rfl
  have e4 : ∀ v vars, eval (bind (some (chars% "option")) v (bind (some (chars% "oneof")) d vars)) v (.var (chars% "oneof") [chars% "Name"]) = some (.str oneof) := by
    intro v vars; subst hd; rfl
  have ht : d.truth = true := by subst hd; rfl
  have key : exec oneofT [([], d)] d = some (oneofCode meth oneof os).print := by
    unfold oneofT
    refine Eq.trans (exec_within_nil (v := d) rfl ht (exec_text (exec_action (e2 _) (exec_text (exec_action (e2 _) (exec_text (exec_range (e1 _)
      (each_all2 (g := presentText meth oneof) hl ?_)
      (exec_text (exec_action (e2 _) (exec_text (exec_range (e1 _) (each_all2 (g := fun o => chars% "\\\"" ++ (o.pbName ++ chars% "\\\",")) hl ?_)
      (exec_text (exec_range (e1 _) (each_all2 (g := caseText meth oneof) hl ?_) exec_text_nil))))))))))))) ?_
    · rintro o _ ⟨f, rfl, D⟩
      refine Eq.trans (exec_text (exec_action rfl (exec_text (exec_action rfl (exec_text (exec_action rfl (exec_text (exec_action (e3 _ _) (exec_text (exec_action rfl (exec_text (exec_action rfl (exec_text (exec_action rfl (exec_text (exec_action rfl (exec_text (exec_action (e4 _ _) exec_text_nil)))))))))))))))))) ?_
      rw [D.localName, D.queryParamName]
      rfl
    · rintro o _ ⟨f, rfl, D⟩
      refine Eq.trans (exec_text (exec_action rfl exec_text_nil)) ?_
      rw [D.queryParamName]
    · rintro o _ ⟨f, rfl, D⟩
      refine Eq.trans (exec_text (exec_action rfl (exec_text (exec_action rfl (exec_cond rfl (if_one (exec_text (exec_action rfl (exec_text (exec_action rfl (exec_text (exec_action (e3 _ _) (exec_text (exec_action (e3 _ _) exec_text_nil))))))))) (exec_text (exec_action rfl (exec_text (exec_action rfl exec_text_nil))))))))) ?_
      rw [D.localName, D.camelName, D.convertFunc, D.typeConversion, D.location]
      show some (_ ++ (_ ++ (_ ++ (_ ++ ((if f.needsErrorCheck = true then _ else _) ++ _))))) = _
      rw [D.needsErrorCheck]
      unfold caseText
      simp only [decide_eq_true_eq, List.append_assoc]
      rfl
    · refine congrArg some ?_
      unfold oneofCode
      simp only [Code.print]
      rw [presence_print meth oneof _ rfl]
      simp only [Code.print]
      rw [options_print meth oneof _ rfl os fun o h => (ho o h).2]
      flat
      rfl
  rw [key]

end Baron.Decoders
