import Verif.Proofs.Decoders
import Verif.Props.Texts

/-!
# C89 The text of the generated request decoders
-/

namespace Baron.Decoders

open Baron.TT Baron.Svcdef Baron.HTTP Baron.HTTPCode Baron.GoLang
open Baron.GoLang (Expr)
open Baron.Strs (goCamelCase)

theorem all2_imp {α β : Type} {R S : α → β → Prop} {l : List α} {l' : List β} (h : All2 R l l') (hi : ∀ a b, R a b → S a b) : All2 S l l' := by
  induction h with
  | nil => exact .nil
  | cons hab _ ih => exact .cons (hi _ _ hab) ih

theorem binding_data {fmt : Str → Str} {m : ServiceMethod} {i : Nat} {b : HTTPBinding} {v : Val} (h : bindingVal fmt m i b = some v) :
    ∃ (oneofs : List TOneof) (fields : List TField), All2 (fun p f => newTField m.name p = some f) (plainParams b) fields ∧
      All2 (fun p o => ∃ l, sequence (p.field.type.oneof.map (newTOption m.name p.field.name)) = some l ∧ o = (⟨p.field.name, p.location, l⟩ : TOneof))
        (oneofParams b) oneofs ∧
      v = .struct [
      (chars% "Label", .str (m.name ++ HTTP.englishNumber i)), (chars% "PathTemplate", .str b.path),
      (chars% "BasePath", .str (HTTP.basePath b.path)), (chars% "Verb", .str b.verb),
      (chars% "Fields", .list (fields.map (fieldVal fmt))), (chars% "OneofFields", .list (oneofs.map (oneofVal fmt))),
      (chars% "Parent", .struct [(chars% "Name", .str m.name), (chars% "RequestType", .str m.request.name)]),
      (chars% "PathSections", .list ((pathSections b.path fields).map .str))] := by
  unfold bindingVal at h
  simp only at h
  split at h
  · rename_i oneofs fields h1 h2
    cases h
    refine ⟨oneofs, fields, sequence_all2 h2, ?_, rfl⟩
    refine all2_imp (sequence_all2 h1) fun p o hab => ?_
    cases hs : sequence (List.map (newTOption m.name p.field.name) p.field.type.oneof) with
    | none => rw [hs] at hab; cases hab
    | some l => rw [hs] at hab; cases hab; exact ⟨l, rfl, rfl⟩
  · cases h

theorem newTField_location {meth : Str} {p : HTTPParameter} {f : TField} (h : newTField meth p = some f) : f.location = p.location := by
  unfold newTField at h
  simp only at h
  split at h
  · cases h
  · cases h
    rfl

set_option maxRecDepth 16000 in
/-- **C89** The decoder of every binding is, letter for letter, this program: it reads the request from the body, then the fields that are
parameters of the path or the query, each with the statements for its type, then the oneofs in the query, and returns the request and the error
of the last conversion. -/
theorem C89_decoders {fmt : Str → Str} {pkg : Str} {s : Service} {c : Config} {txt : Str}
    (h : render fmt pkg s c "baron/NAME.pb.baron.go.tmpl".toList = some txt) {m : ServiceMethod} (hm : m ∈ s.methods)
    {b : HTTPBinding} {i : Nat} (hb : m.bindings[i]? = some b)
    (hf : ∀ p ∈ plainParams b, p.location ≠ "body".toList → '[' ∉ p.field.type.name)
    (ho : ∀ p ∈ oneofParams b, p.location = "query".toList → ∀ o ∈ p.field.type.oneof, o.array = false ∧ o.typeName ∈ scalarNames) :
    Occurs (decoderText fmt (m.name ++ englishNumber i) m.name m.request.name b) txt := by
  obtain ⟨ms, hms, t, hpt, he⟩ := render_data (src := baronSrc) rfl h
  have hd := decoder_heads
  rw [hpt] at hd
  simp only [Option.map_some, Option.some.injEq, Prod.mk.injEq] at hd
  obtain ⟨hd1, hd2⟩ := hd
  have hm' : m ∈ httpRpcs s := by
    refine List.mem_filter.mpr ⟨hm, ?_⟩
    cases hbs : m.bindings with
    | nil => rw [hbs] at hb; cases hb
    | cons _ _ => rfl
  obtain ⟨v, hv, hmv⟩ := all2_mem hms hm'
  obtain ⟨bs, hbs, rfl⟩ := helperMethod_bindings hmv
  obtain ⟨w, hw, hbw⟩ := all2_mem hbs (List.mem_zipIdx_iff_getElem?.mpr hb : (b, i) ∈ _)
  obtain ⟨oneofs, fields, hfs, hos, rfl⟩ := binding_data hbw
  obtain ⟨_, a1, h1, rfl⟩ := exec_skip (k := 36) he
  obtain ⟨a2, h2, o2⟩ := exec_ranges hd1 h1 (l := ms) rfl hv
  obtain ⟨a4, h4, o4⟩ := exec_ranges hd2 h2 (l := bs) rfl hw
  obtain ⟨_, a5, h5, rfl⟩ := exec_skip (k := 4) h4
  have hT := decoderT_eq
  rw [hpt] at hT
  obtain ⟨_, a6, h6, rfl⟩ := exec_chop (n := 72) h5
  rw [show Tmpl.chop 72 (Tmpl.skip 4 (Tmpl.skip 36 t).body.body) = _ from Option.some.inj hT] at h6
  refine Occurs.trans ?_ (((o4.trans o2)).right _)
  have : a6 = decoderText fmt (m.name ++ englishNumber i) m.name m.request.name b := by
    refine Option.some.inj (h6.symm.trans ?_)
    unfold decoderT decoderText bodyText
    refine exec_text (exec_action rfl (exec_text (exec_action rfl (exec_text (exec_range (l := fields.map (fieldVal fmt)) rfl
      (each_all2_mem (R := fun p v => ∃ f, newTField m.name p = some f ∧ v = fieldVal fmt f)
        (all2_map hfs fun p _ f hpf => ⟨f, hpf, rfl⟩) ?_) (exec_text (exec_range (l := oneofs.map (oneofVal fmt)) rfl
      (each_all2_mem (R := fun p v => ∃ l, sequence (p.field.type.oneof.map (newTOption m.name p.field.name)) = some l ∧ v = oneofVal fmt ⟨p.field.name, p.location, l⟩)
        (all2_map hos fun p _ o hpo => by obtain ⟨l, h1, rfl⟩ := hpo; exact ⟨l, h1, rfl⟩) ?_) exec_text_nil)))))))
    · rintro p _ hp ⟨f, hpf, rfl⟩
      have hl : f.location = p.location := newTField_location hpf
      unfold piece
      refine exec_text (exec_cond (v := .bool (decide (f.location ≠ chars% "body"))) rfl ?_ exec_text_nil)
      rw [hl]
      by_cases hbody : p.location = chars% "body"
      · rw [decide_eq_false (not_not_intro hbody)]
        rfl
      · rw [decide_eq_true hbody]
        obtain ⟨hg, -⟩ := genField_text fmt hpf (hf p hp hbody)
        refine exec_text (exec_action ?_ exec_text_nil)
        unfold fieldVal
        rw [hg]
        rfl
    · rintro p _ hp ⟨l, hpl, rfl⟩
      unfold piece
      refine exec_text (exec_cond (v := .bool (decide (p.location = chars% "query"))) rfl ?_ exec_text_nil)
      by_cases hq : p.location = chars% "query"
      · rw [decide_eq_true hq, hq]
        have hg := genOneof_text fmt hpl (ho p hp hq)
        refine exec_text (exec_action ?_ exec_text_nil)
        unfold oneofVal
        rw [hg]
        rfl
      · rw [decide_eq_false hq]
        rfl
  rw [this]
  exact (Occurs.refl _).right _ |>.right _

namespace Example

open Baron.TT.Example

def scalarT (n : String) (star array : Bool) : FieldType := ⟨n.toList, none, [], none, none, star, array⟩

/-- A binding with a parameter in the path, one in the body, and in the query a scalar, a list of scalars, an optional string, an enum, a
message and a oneof. -/
def binding : HTTPBinding := ⟨"get".toList, "/d/{my_id}".toList, [
  ⟨⟨"MyId".toList, "my_id".toList, scalarT "int32" false false⟩, "path".toList⟩,
  ⟨⟨"Blob".toList, "blob".toList, scalarT "[]byte" false false⟩, "body".toList⟩,
  ⟨⟨"Size".toList, "size".toList, scalarT "uint64" false false⟩, "query".toList⟩,
  ⟨⟨"Ids".toList, "ids".toList, scalarT "int64" false true⟩, "query".toList⟩,
  ⟨⟨"Note".toList, "note".toList, scalarT "string" true false⟩, "query".toList⟩,
  ⟨⟨"Kind".toList, "kind".toList, ⟨"Kind".toList, some 0, [], none, none, false, false⟩⟩, "query".toList⟩,
  ⟨⟨"Sub".toList, "sub".toList, ⟨"Sub".toList, none, [], some 0, none, true, false⟩⟩, "query".toList⟩,
  ⟨⟨"Pick".toList, "pick".toList, ⟨[], none, [⟨"Red".toList, "red".toList, "bool".toList, false, false, "In_Red".toList⟩,
    ⟨"Blue".toList, "blue".toList, "string".toList, false, false, "In_Blue".toList⟩], none, none, false, false⟩⟩, "query".toList⟩]⟩

def rpcD : ServiceMethod := ⟨"D".toList, ty "In", ty "Out", [binding]⟩

def fourth : Service := ⟨"S".toList, [rpcA, rpcD]⟩

/-- The hypotheses of `C89_decoders` are met by it. -/
example : ∃ txt, render id "pb".toList fourth conf "baron/NAME.pb.baron.go.tmpl".toList = some txt ∧
    Occurs (decoderText id "DZero".toList "D".toList "In".toList binding) txt := by
  obtain ⟨txt, h⟩ := C84_render id "pb".toList fourth conf "baron/NAME.pb.baron.go.tmpl".toList (by decide +kernel)
  refine ⟨txt, h, ?_⟩
  have := C89_decoders (m := rpcD) (b := binding) (i := 0) h (List.mem_cons_of_mem _ (List.mem_cons_self ..)) rfl (by decide +kernel)
    (by decide +kernel)
  rwa [show rpcD.name ++ englishNumber 0 = "DZero".toList by decide +kernel] at this

/-- A parameter in the path. -/
example : (binding.params[0]?.map fun p => (fieldCode "D".toList p).print) = some ("\nMyIdDStr := pathParams[\"my_id\"]\n" ++
    "MyIdD, err := strconv.ParseInt(MyIdDStr, 10, 32)\nif err != nil {\n" ++
    "\treturn nil, errors.Wrap(err, fmt.Sprintf(\"Error while extracting MyIdD from path, pathParams: %v\", pathParams))\n}\n" ++
    "req.MyId = int32(MyIdD)\n").toList := by decide +kernel

/-- An optional string in the query. -/
example : (binding.params[4]?.map fun p => (fieldCode "D".toList p).print) = some ("\nif NoteDStrArr, ok := queryParams[\"note\"]; ok {\n" ++
    "NoteDStr := NoteDStrArr[0]\nNoteD := NoteDStr\nreq.Note = &NoteD\n}").toList := by decide +kernel

end Example

end Baron.Decoders
