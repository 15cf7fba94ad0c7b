import Verif.Proofs.TextTemplate

/-!
# The data of a definition has the shape the templates need
-/

namespace Baron.TT

open Baron.Svcdef (All2 ServiceMethod HTTPBinding HTTPParameter OneofField Service)

/-! ## Shapes -/

def record (l : List (Str × Ty)) : Ty := l.foldr (fun p r => .fld p.1 p.2 r) .struct

def fieldTy : List (Str × Ty) := [
  (chars% "Name", .str), (chars% "QueryParamName", .str), (chars% "CamelName", .str),
  (chars% "LowCamelName", .str), (chars% "LocalName", .str), (chars% "Location", .str),
  (chars% "GoType", .str), (chars% "StarExpr", .bool), (chars% "ConvertFunc", .str),
  (chars% "ConvertFuncNeedsErrorCheck", .bool), (chars% "TypeConversion", .str),
  (chars% "IsBaseType", .bool), (chars% "IsEnum", .bool), (chars% "Repeated", .bool),
  (chars% "ZeroValue", .str)]
def genTy : List (Str × Ty) := [(chars% "GenQueryUnmarshaler", .str)]
def oneofTy : List (Str × Ty) := [
  (chars% "Name", .str), (chars% "Location", .str),
  (chars% "Options", .list false (record fieldTy))]
def bindingTy : Ty := record [
      (chars% "Label", .str), (chars% "PathTemplate", .str),
      (chars% "BasePath", .str), (chars% "Verb", .str),
      (chars% "Fields", .list false (record (fieldTy ++ genTy))), (chars% "OneofFields", .list false (record (oneofTy ++ genTy))),
      (chars% "Parent", record [(chars% "Name", .str), (chars% "RequestType", .str)]),
      (chars% "PathSections", .list false .str)]
def helperMethodTy : Ty := record [(chars% "Name", .str), (chars% "RequestType", .str),
      (chars% "ResponseType", .str), (chars% "Bindings", .list true bindingTy)]
def methodTy : Ty := record [(chars% "Name", .str),
  (chars% "RequestType", record [(chars% "Name", .str)]),
  (chars% "ResponseType", record [(chars% "Name", .str)])]
def dataTy : Ty := record [(chars% "ImportPath", .str), (chars% "PBImportPath", .str),
      (chars% "PackageName", .str), (chars% "Service", record [(chars% "Name", .str), (chars% "Methods", .list false methodTy)]),
      (chars% "HTTPHelper", record [(chars% "Methods", .list false helperMethodTy)]),
      (chars% "Version", .str), (chars% "VersionDate", .str),
      (chars% "Config", record [(chars% "Transport", .str)])]

/-! ## The templates read nothing else -/

theorem check_baron : checkSrc baronSrc dataTy = true := by decide +kernel
theorem check_cmdServer : checkSrc cmdServerSrc dataTy = true := by decide +kernel
theorem check_cmdClient : checkSrc cmdClientSrc dataTy = true := by decide +kernel
theorem check_endpoints : checkSrc endpointsSrc dataTy = true := by decide +kernel
theorem check_interrupt : checkSrc interruptSrc dataTy = true := by decide +kernel
theorem check_server : checkSrc serverSrc dataTy = true := by decide +kernel
theorem check_wrapper : checkSrc wrapperSrc dataTy = true := by decide +kernel
theorem check_service : checkSrc serviceSrc dataTy = true := by decide +kernel
theorem check_serviceWrapper : checkSrc serviceWrapperSrc dataTy = true := by decide +kernel

def methodsTy : Ty := record [(chars% "ServiceName", .str), (chars% "Methods", .list false methodTy)]
theorem check_serviceMethods : checkSrc serviceMethodsSrc methodsTy = true := by decide +kernel

theorem check_single : checkSrc (singleTmpl ++ errorCheckingTmpl) (record fieldTy) = true := by decide +kernel
theorem check_path : checkSrc (pathParamLogic ++ genericLogic) (record fieldTy) = true := by decide +kernel
theorem check_query : checkSrc (queryParamLogic ++ genericLogic ++ chars% "}") (record fieldTy) = true := by decide +kernel
theorem check_oneof : checkSrc oneofEnclosure (record oneofTy) = true := by decide +kernel

theorem check_repeated (g : Str) : checkSrc (repeatedTmpl g) (record fieldTy) = true ∧
    checkSrc (repeatedTmpl g ++ errorCheckingTmpl) (record fieldTy) = true := by
  unfold repeatedTmpl parseText convertedVar
  cases HTTPCode.baseOf g with
  | none => exact ⟨by decide +kernel, by decide +kernel⟩
  | some b => cases b <;> exact ⟨by decide +kernel, by decide +kernel⟩

/-! ## The data has these shapes -/

/-- Descend one field. -/
macro "fld" : tactic => `(tactic| refine ⟨⟨_, _, rfl, rfl, ?_⟩, ?_⟩)

theorem has_str (s : Str) : Agree .str (.str s) (.str s) := ⟨s, rfl, rfl⟩
theorem has_bool (s : Bool) : Agree .bool (.bool s) (.bool s) := ⟨s, rfl, rfl⟩
theorem has_struct (s : List (Str × Val)) : Agree .struct (.struct s) (.struct s) := ⟨⟨s, rfl⟩, s, rfl⟩

theorem all2_self {α β : Type} {R : β → β → Prop} {f : α → β} {l : List α} (h : ∀ a ∈ l, R (f a) (f a)) :
    All2 R (l.map f) (l.map f) := by
  induction l with
  | nil => exact .nil
  | cons a l ih => exact .cons (h a List.mem_cons_self) (ih fun b hb => h b (List.mem_cons_of_mem _ hb))

theorem has_list {α : Type} {t : Ty} {f : α → Val} {l : List α} (h : ∀ a ∈ l, Has t (f a)) :
    Agree (.list false t) (.list (l.map f)) (.list (l.map f)) :=
  ⟨_, _, rfl, rfl, nofun, all2_self h⟩

theorem has_field (f : TField) : Has (record fieldTy) (.struct (fieldData f)) := by
  iterate 15 fld; (first | exact has_str _ | exact has_bool _)
  exact has_struct _

theorem has_method (m : ServiceMethod) : Has methodTy (methodVal m) := by
  fld; exact has_str _
  fld
  · fld; exact has_str _
    exact has_struct _
  fld
  · fld; exact has_str _
    exact has_struct _
  exact has_struct _

/-! ## The inner templates -/

theorem convert_some (f : TField) : ∃ r, createDecodeConvertFunc f = some r := by
  unfold createDecodeConvertFunc
  by_cases h : (f.isEnum && !f.repeated) = true
  · rw [if_pos h]; exact ⟨_, rfl⟩
  rw [if_neg h]
  by_cases h' : (!f.isBase || f.repeated) = true
  · rw [if_pos h']
    have : ∃ o, apply (jsonConvTmpl f) (.struct (fieldData f)) = some o := by
      unfold jsonConvTmpl
      by_cases hr : (!f.repeated) = true
      · rw [if_pos hr]; exact apply_has check_single (has_field f)
      · rw [if_neg hr]
        by_cases hs : HTTPCode.baseOf f.goType = some .string
        · rw [if_pos hs]; exact apply_has (check_repeated _).1 (has_field f)
        · rw [if_neg hs]; exact apply_has (check_repeated _).2 (has_field f)
    obtain ⟨o, ho⟩ := this
    rw [ho]; exact ⟨_, rfl⟩
  · rw [if_neg h']; exact ⟨_, rfl⟩

theorem newTField_some (m : Str) (p : HTTPParameter) : ∃ f, newTField m p = some f := by
  unfold newTField
  generalize hf : (TField.mk _ _ _ _ _ _ _ _ _ _ _ _ _ _ _) = f
  obtain ⟨r, hr⟩ := convert_some f
  simp only [hr]
  exact ⟨_, rfl⟩

theorem newTOption_some (m n : Str) (o : OneofField) : ∃ f, newTOption m n o = some f := by
  unfold newTOption
  generalize hf : (TField.mk _ _ _ _ _ _ _ _ _ _ _ _ _ _ _) = f
  obtain ⟨r, hr⟩ := convert_some f
  simp only [hr]
  exact ⟨_, rfl⟩

theorem sequence_some {α β : Type} {f : α → Option β} {P : β → Prop} {l : List α} (h : ∀ a ∈ l, ∃ b, f a = some b ∧ P b) :
    ∃ r, sequence (l.map f) = some r ∧ r.length = l.length ∧ ∀ b ∈ r, P b := by
  induction l with
  | nil => exact ⟨[], rfl, rfl, fun _ h => absurd h List.not_mem_nil⟩
  | cons a l ih =>
    obtain ⟨b, hb, hP⟩ := h a List.mem_cons_self
    obtain ⟨r, hr, hl, hR⟩ := ih fun x hx => h x (List.mem_cons_of_mem _ hx)
    refine ⟨b :: r, ?_, by simp [hl], ?_⟩
    · simp only [List.map_cons, hb, sequence, hr]
    · intro x hx
      rcases List.mem_cons.mp hx with rfl | hx
      · exact hP
      · exact hR x hx

theorem genField_some (fmt : Str → Str) (f : TField) : ∃ c, genField fmt f = some c := by
  have : ∃ o, apply (if f.location = chars% "path" then pathParamLogic ++ genericLogic
    else queryParamLogic ++ genericLogic ++ chars% "}") (.struct (fieldData f)) = some o := by
    by_cases h : f.location = chars% "path"
    · rw [if_pos h]; exact apply_has check_path (has_field f)
    · rw [if_neg h]; exact apply_has check_query (has_field f)
  obtain ⟨o, ho⟩ := this
  unfold genField
  simp only [ho]
  exact ⟨_, rfl⟩

theorem has_oneof (o : TOneof) : Has (record oneofTy) (.struct (oneofData o)) := by
  fld; exact has_str _
  fld; exact has_str _
  fld; exact has_list fun f _ => has_field f
  exact has_struct _

theorem genOneof_some (fmt : Str → Str) (o : TOneof) : ∃ c, genOneof fmt o = some c := by
  obtain ⟨c, hc⟩ := apply_has check_oneof (has_oneof o)
  unfold genOneof
  rw [hc]
  exact ⟨_, rfl⟩

theorem has_fieldVal (fmt : Str → Str) (f : TField) : Has (record (fieldTy ++ genTy)) (fieldVal fmt f) := by
  obtain ⟨c, hc⟩ := genField_some fmt f
  unfold fieldVal
  rw [hc]
  iterate 16 fld; (first | exact has_str _ | exact has_bool _)
  exact has_struct _

theorem has_oneofVal (fmt : Str → Str) (o : TOneof) : Has (record (oneofTy ++ genTy)) (oneofVal fmt o) := by
  obtain ⟨c, hc⟩ := genOneof_some fmt o
  unfold oneofVal
  rw [hc]
  fld; exact has_str _
  fld; exact has_str _
  fld; exact has_list fun f _ => has_field f
  fld; exact has_str _
  exact has_struct _

/-! ## Bindings, methods, the whole -/

theorem binding_some (fmt : Str → Str) (m : ServiceMethod) (i : Nat) (b : HTTPBinding) :
    ∃ v, bindingVal fmt m i b = some v ∧ Has bindingTy v := by
  unfold bindingVal
  simp only
  obtain ⟨fields, hf, -, -⟩ := sequence_some (f := newTField m.name) (P := fun _ => True)
    (l := b.params.filter fun p => p.field.type.oneof.isEmpty && p.field.type.name ≠ [])
    fun p _ => by obtain ⟨f, hf⟩ := newTField_some m.name p; exact ⟨f, hf, trivial⟩
  obtain ⟨oneofs, ho, -, -⟩ := sequence_some (P := fun _ => True)
    (f := fun p : HTTPParameter => (sequence (p.field.type.oneof.map (newTOption m.name p.field.name))).map fun l =>
      (⟨p.field.name, p.location, l⟩ : TOneof))
    (l := b.params.filter fun p => !p.field.type.oneof.isEmpty)
    fun p _ => by
      obtain ⟨r, hr, -, -⟩ := sequence_some (f := newTOption m.name p.field.name) (P := fun _ => True) (l := p.field.type.oneof)
        fun o _ => by obtain ⟨f, hf⟩ := newTOption_some m.name p.field.name o; exact ⟨f, hf, trivial⟩
      exact ⟨⟨p.field.name, p.location, r⟩, by rw [hr]; rfl, trivial⟩
  rw [hf, ho]
  refine ⟨_, rfl, ?_⟩
  iterate 4 fld; exact has_str _
  fld; exact has_list fun f _ => has_fieldVal fmt f
  fld; exact has_list fun f _ => has_oneofVal fmt f
  fld
  · fld; exact has_str _
    fld; exact has_str _
    exact has_struct _
  fld; exact has_list fun s _ => has_str s
  exact has_struct _

theorem all2_refl {β : Type} {R : β → β → Prop} {l : List β} (h : ∀ a ∈ l, R a a) : All2 R l l := by
  induction l with
  | nil => exact .nil
  | cons a l ih => exact .cons (h a List.mem_cons_self) (ih fun b hb => h b (List.mem_cons_of_mem _ hb))

theorem helperMethod_some (fmt : Str → Str) (m : ServiceMethod) (hm : m.bindings ≠ []) :
    ∃ v, helperMethod fmt m = some v ∧ Has helperMethodTy v := by
  unfold helperMethod
  obtain ⟨bs, hb, hl, hall⟩ := sequence_some (f := fun b : HTTPBinding × Nat => bindingVal fmt m b.2 b.1) (P := Has bindingTy)
    (l := m.bindings.zipIdx) fun b _ => binding_some fmt m b.2 b.1
  rw [hb]
  refine ⟨_, rfl, ?_⟩
  iterate 3 fld; exact has_str _
  fld
  · refine ⟨bs, bs, rfl, rfl, fun _ h => hm ?_, all2_refl hall⟩
    rw [h, List.length_zipIdx] at hl
    exact List.length_eq_zero_iff.mp hl.symm
  exact has_struct _

theorem helper_some (fmt : Str → Str) (s : Service) :
    ∃ v, helperVal fmt s = some v ∧ Has (record [(chars% "Methods", .list false helperMethodTy)]) v := by
  unfold helperVal
  obtain ⟨ms, hm, -, hall⟩ := sequence_some (f := helperMethod fmt) (P := Has helperMethodTy)
    (l := s.methods.filter fun m => !m.bindings.isEmpty)
    fun m hm => helperMethod_some fmt m fun h => by
      have := (List.mem_filter.mp hm).2
      rw [h] at this
      exact absurd this (by decide)
  rw [hm]
  refine ⟨_, rfl, ?_⟩
  fld
  · exact ⟨ms, ms, rfl, rfl, nofun, all2_refl hall⟩
  exact has_struct _

theorem data_some (fmt : Str → Str) (pkg : Str) (s : Service) (c : Config) :
    ∃ d, newData fmt pkg s c = some d ∧ Has dataTy d := by
  obtain ⟨h, hh, hhas⟩ := helper_some fmt s
  unfold newData
  rw [hh]
  refine ⟨_, rfl, ?_⟩
  iterate 3 fld; exact has_str _
  fld
  · fld; exact has_str _
    fld; exact has_list fun m _ => has_method m
    exact has_struct _
  fld; exact hhas
  iterate 2 fld; exact has_str _
  fld
  · fld; exact has_str _
    exact has_struct _
  exact has_struct _

end Baron.TT
