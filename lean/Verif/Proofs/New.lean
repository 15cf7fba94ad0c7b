import Verif.Spec.New
import Verif.Props.Text
import Verif.Props.SvcdefNew
import Verif.Props.SvcdefTags
import Verif.Props.Svcdef
import Verif.Props.Consolidate

namespace Baron.New

open Baron.Scanner Baron.Lexer Baron.Svcdef Baron.Consolidate Baron.Text Baron.Strs Baron.Parser.Grammar

/-! ## Everything protoc-gen-go writes is accepted -/

theorem tagGet_absent (unq : Str → Option Str) (key : Str) (es : List TagEntry) (h : ∀ e ∈ es, e.WF ∧ e.key ≠ key) :
    tagGet unq key (join ' ' (es.map TagEntry.print)) = [] := by
  unfold tagGet
  generalize (join ' ' (es.map TagEntry.print)).length + 1 = n
  have nil : ∀ n, tagGetN unq key n [] = [] := by
    intro n
    cases n <;> rfl
  induction es generalizing n with
  | nil => exact nil n
  | cons e es ih =>
    obtain ⟨h1, h2⟩ := h e (by simp)
    cases n with
    | zero => rfl
    | succ n =>
      cases es with
      | nil =>
        rw [show join ' ' ([e].map TagEntry.print) = e.print ++ [] by simp [join], tagGetN_entry unq key n e h1,
          if_neg fun x => h2 x.symm]
        exact nil n
      | cons d ds =>
        rw [show join ' ' ((e :: d :: ds).map TagEntry.print) = e.print ++ ' ' :: join ' ' ((d :: ds).map TagEntry.print) from
          rfl, tagGetN_entry unq key n e h1, if_neg fun x => h2 x.symm, tagGetN_blank]
        exact ih (fun x hx => h x (List.mem_cons_of_mem _ hx)) n

theorem tag_ok {unq tag} (h : TagOK unq tag) : ∃ v, pbNameOf unq tag = .ok v := by
  cases h with
  | @named _ name h =>
    cases h with
    | none => exact ⟨[], rfl⟩
    | pb hw hm hpre he hq => exact ⟨_, C39_name unq _ _ _ _ _ _ _ _ _ hw hm hpre he hq⟩
  | @noEntry es h =>
    refine ⟨[], ?_⟩
    unfold pbNameOf
    have e : ((tagLiteral es).drop 1).dropLast = join ' ' (es.map TagEntry.print) := by
      unfold tagLiteral
      simp
    simp only [e, tagGet_absent unq _ es h]
    rfl

theorem follow_total (g : Oneofs) (t : GoType) (acc : FieldType) (h : KeysOK t) : ∃ r, follow g t acc = .ok r := by
  induction t generalizing acc with
  | star t ih => exact ih _ h
  | array t ih => exact ih _ h
  | map k v =>
    obtain ⟨n, rfl⟩ := h
    exact ⟨_, rfl⟩
  | _ => exact ⟨_, rfl⟩

theorem newFields_total (unq) (g : Oneofs) (fs : List GoField)
    (h : ∀ y ∈ fs, y.names ≠ [] ∧ TagOK unq y.tag ∧ KeysOK y.type) : ∃ l, newFields unq g fs = .ok l := by
  induction fs with
  | nil => exact ⟨[], rfl⟩
  | cons y fs ih =>
    obtain ⟨h1, h2, h3⟩ := h y (by simp)
    obtain ⟨l, hl⟩ := ih fun z hz => h z (List.mem_cons_of_mem _ hz)
    unfold newFields
    cases hn : y.names with
    | nil => exact absurd hn h1
    | cons n ns =>
      simp only
      split
      · exact ⟨l, hl⟩
      · obtain ⟨v, hv⟩ := tag_ok h2
        obtain ⟨r, hr⟩ := follow_total g y.type emptyType h3
        unfold newField
        rw [hv, hr, hl]
        exact ⟨_, rfl⟩

theorem newMessage_total (unq) (g : Oneofs) (n : Str) (fs : List GoField)
    (h : ∀ y ∈ fs, y.names ≠ [] ∧ TagOK unq y.tag ∧ KeysOK y.type) : ∃ m, newMessage unq g n fs = .ok m := by
  obtain ⟨l, hl⟩ := newFields_total unq g fs h
  unfold newMessage
  rw [hl]
  exact ⟨_, rfl⟩

theorem makeFieldType_total {t : GoType} {n : Str} (h : PointerTo t n) : ∃ r, makeFieldType t = .ok r := by
  rcases h with rfl | ⟨p, rfl⟩ <;> exact ⟨_, rfl⟩

theorem newMethods_total (ms : List GoMember)
    (h : ∀ m ∈ ms, m.names ≠ [] ∧ (m.names.head?.any exported = true → Unary m)) : ∃ rs, newMethods ms = .ok rs := by
  induction ms with
  | nil => exact ⟨[], rfl⟩
  | cons m ms ih =>
    obtain ⟨h1, h2⟩ := h m (by simp)
    obtain ⟨l, hl⟩ := ih fun z hz => h z (List.mem_cons_of_mem _ hz)
    unfold newMethods
    cases hn : m.names with
    | nil => exact absurd hn h1
    | cons n ns =>
      simp only
      split
      · exact ⟨l, hl⟩
      · rename_i he
        obtain ⟨ctx, rq, more, rs, more', a, b, hf, ha, hb⟩ := h2 (by rw [hn]; simpa using he)
        obtain ⟨ra, hra⟩ := makeFieldType_total ha
        obtain ⟨rb, hrb⟩ := makeFieldType_total hb
        rw [hf]
        unfold newServiceMethod
        simp only
        rw [hra, hrb, hl]
        exact ⟨_, rfl⟩

theorem services_total (ts : List GoTypeSpec) (s : Option Service)
    (h : ∀ t ∈ ts, IsServer t = true → ∀ m ∈ members t, m.names ≠ [] ∧ (m.names.head?.any exported = true → Unary m)) :
    ∃ s', services ts s = .ok s' := by
  induction ts generalizing s with
  | nil => exact ⟨s, rfl⟩
  | cons t ts ih =>
    unfold services
    rw [serverIface_eq]
    have ih := fun s => ih s fun z hz => h z (List.mem_cons_of_mem _ hz)
    by_cases ht : IsServer t = true
    · rw [if_pos ht]
      obtain ⟨rs, hrs⟩ := newMethods_total (members t) (h t (by simp) ht)
      simp only
      unfold newService
      rw [hrs]
      exact ih _
    · rw [if_neg ht]
      exact ih s

theorem oneofTypes_total (ifaces : List Str) (fns : List GoFunc)
    (h : ∀ fn ∈ fns, fn.name ∈ ifaces → ∃ n, fn.recv = some (.star (.ident n))) : ∃ r, oneofTypes ifaces fns = .ok r := by
  induction fns with
  | nil => exact ⟨[], rfl⟩
  | cons f fs ih =>
    obtain ⟨l, hl⟩ := ih fun z hz => h z (List.mem_cons_of_mem _ hz)
    unfold oneofTypes
    split
    · rename_i hc
      obtain ⟨n, hn⟩ := h f (by simp) (by simpa using hc)
      rw [hn, hl]
      exact ⟨_, rfl⟩
    · exact ⟨l, hl⟩

theorem collectOneofs_total (unq) (types : List (Str × Str)) (ts : List GoTypeSpec) (g : Oneofs)
    (h : ∀ t ∈ ts, ∀ fs, t.spec = .struct fs → ∀ y ∈ fs, y.names ≠ [] ∧ TagOK unq y.tag ∧ KeysOK y.type)
    (hw : ∀ t ∈ ts, IsExportedStruct t = true → t.name ∈ types.map (·.1) → structFields t ≠ []) :
    ∃ g', collectOneofs unq types ts g = .ok g' := by
  induction ts generalizing g with
  | nil => exact ⟨g, rfl⟩
  | cons t ts ih =>
    have ih := fun g => ih g (fun z hz => h z (List.mem_cons_of_mem _ hz)) fun z hz => hw z (List.mem_cons_of_mem _ hz)
    unfold collectOneofs
    cases hs : t.spec with
    | struct fs =>
      simp only
      split
      · rename_i he
        cases hl : lastEntry types t.name with
        | none => exact ih g
        | some i =>
          simp only
          obtain ⟨m, hm⟩ := newMessage_total unq g t.name fs (h t (by simp) fs hs)
          rw [hm]
          simp only [bind, Except.bind]
          cases hf : m.fields with
          | cons f l => exact ih _
          | nil =>
            exfalso
            have h1 := (C37_fields unq g t.name fs m hm).2
            rw [hf] at h1
            refine hw t (by simp) (by unfold IsExportedStruct; rw [hs]; exact he) ?_ ?_
            · exact Classical.byContradiction fun hn => by rw [(lastEntry_none _ _).mpr hn] at hl; cases hl
            · unfold structFields
              rw [hs]
              simp only [List.map_nil] at h1
              exact List.map_eq_nil_iff.mp h1.symm
      · exact ih g
    | _ => exact ih g

theorem declared_total (unq) (g : Oneofs) (types : List (Str × Str)) (ts : List GoTypeSpec)
    (h : ∀ t ∈ ts, ∀ fs, t.spec = .struct fs → ∀ y ∈ fs, y.names ≠ [] ∧ TagOK unq y.tag ∧ KeysOK y.type) :
    ∃ r, declared unq g types ts = .ok r := by
  induction ts with
  | nil => exact ⟨_, rfl⟩
  | cons t ts ih =>
    obtain ⟨l, hl⟩ := ih fun z hz => h z (List.mem_cons_of_mem _ hz)
    unfold declared
    cases hs : t.spec with
    | struct fs =>
      simp only
      split
      · obtain ⟨m, hm⟩ := newMessage_total unq g t.name fs (h t (by simp) fs hs)
        rw [hm, hl]
        exact ⟨_, rfl⟩
      · exact ⟨l, hl⟩
    | ident n =>
      simp only
      split
      · rw [hl]; exact ⟨_, rfl⟩
      · exact ⟨l, hl⟩
    | _ => exact ⟨l, hl⟩

/-- Once the services of a file are read, the rest of it is, too. -/
theorem newFile_rest (unq) {P : GoMember → Prop} (g : Oneofs) (acc : Found) (f : GoFile) (h : ProtocFile unq P f)
    {s : Option Service} (hs : services f.types acc.service = .ok s) : ∃ r, newFile unq g acc f = .ok r := by
  have : ∃ types g', fileTypes g f = .ok types ∧ fileOneofs unq g types f = .ok g' := by
    unfold fileTypes fileOneofs
    by_cases hg : g = []
    · obtain ⟨r, hr⟩ := oneofTypes_total ((f.types.filter isOneofIface).map GoTypeSpec.name) f.funcs (by
        rw [filter_iface]; exact h.markers)
      have hw : r.map (·.1) = wrappers f := by
        have := (oneofTypes_ok hr).1
        rw [filter_iface] at this
        exact this
      obtain ⟨g', hg'⟩ := collectOneofs_total unq r f.types g h.fields (by rw [hw]; exact h.options)
      exact ⟨r, g', by rw [if_pos hg, hr], by rw [if_pos hg, hg']⟩
    · exact ⟨[], g, by rw [if_neg hg], by rw [if_neg hg]⟩
  obtain ⟨types, g', h1, h2⟩ := this
  obtain ⟨r, hr⟩ := declared_total unq g' types f.types h.fields
  unfold newFile
  rw [hs, h1]
  simp only [bind, Except.bind]
  rw [h2]
  simp only
  rw [hr]
  exact ⟨_, rfl⟩

theorem newFile_total (unq) (g : Oneofs) (acc : Found) (f : GoFile) (h : GoodFile unq f) : ∃ r, newFile unq g acc f = .ok r := by
  obtain ⟨s, hs⟩ := services_total f.types acc.service h.service
  exact newFile_rest unq g acc f h hs

theorem newFiles_total (unq) (g : Oneofs) (acc : Found) (fs : List GoFile) (h : ∀ f ∈ fs, GoodFile unq f) :
    ∃ r, newFiles unq g acc (fs.map some) = .ok r := by
  induction fs generalizing g acc with
  | nil => exact ⟨_, rfl⟩
  | cons f fs ih =>
    obtain ⟨r, hr⟩ := newFile_total unq g acc f (h f (by simp))
    rw [List.map_cons]
    unfold newFiles
    rw [hr]
    exact ih _ _ fun z hz => h z (List.mem_cons_of_mem _ hz)

/-! ## What is found -/

theorem declared_fields {unq g types ts r} (h : declared unq g types ts = .ok r) :
    ∀ m ∈ r.1, ∃ t ∈ ts, IsExportedStruct t = true ∧ m.name = t.name ∧
      m.fields.map Field.name = (structFields t).map fun y => y.names.headD [] := by
  induction ts generalizing r with
  | nil => simp only [declared, Except.ok.injEq] at h; subst h; intro m hm; cases hm
  | cons t ts ih =>
    have lift : ∀ {l : List Message}, (∀ m ∈ l, ∃ t ∈ ts, IsExportedStruct t = true ∧ m.name = t.name ∧
        m.fields.map Field.name = (structFields t).map fun y => y.names.headD []) →
        ∀ m ∈ l, ∃ t' ∈ t :: ts, IsExportedStruct t' = true ∧ m.name = t'.name ∧
          m.fields.map Field.name = (structFields t').map fun y => y.names.headD [] := by
      intro l hl m hm
      obtain ⟨t', ht', h'⟩ := hl m hm
      exact ⟨t', List.mem_cons_of_mem _ ht', h'⟩
    unfold declared at h
    cases hs : t.spec with
    | ident n =>
      rw [hs] at h
      simp only at h
      split at h
      · cases hd : declared unq g types ts with
        | error e => rw [hd] at h; cases h
        | ok r' =>
          rw [hd] at h
          simp only [bind, Except.bind, Except.ok.injEq] at h
          subst h
          exact lift (l := r'.1) (ih hd)
      · exact lift (ih h)
    | struct fs =>
      rw [hs] at h
      simp only at h
      split at h
      · rename_i hx
        cases hm : newMessage unq g t.name fs with
        | error e => rw [hm] at h; cases h
        | ok m =>
          cases hd : declared unq g types ts with
          | error e => rw [hm, hd] at h; cases h
          | ok r' =>
            rw [hm, hd] at h
            simp only [bind, Except.bind, Except.ok.injEq] at h
            subst h
            intro x hx'
            rcases List.mem_cons.mp hx' with rfl | hx'
            · obtain ⟨c1, c2⟩ := C37_fields unq g t.name fs x hm
              refine ⟨t, List.mem_cons_self, ?_, c1, ?_⟩
              · unfold IsExportedStruct; rw [hs]
                simp only [Bool.and_eq_true] at hx
                exact hx.1
              · unfold structFields; rw [hs]; exact c2
            · exact lift (ih hd) x hx'
      · exact lift (ih h)
    | iface ms => rw [hs] at h; exact lift (ih h)
    | other => rw [hs] at h; exact lift (ih h)

/-- The messages found, whatever the state of the process. -/
theorem newFiles_messages {unq g acc} {fs : List GoFile} {r} (h : newFiles unq g acc (fs.map some) = .ok r) :
    ∃ l, r.2.messages = acc.messages ++ l ∧
      (l.map Message.name).Sublist (fs.flatMap structNames) ∧
      (∀ n ∈ fs.flatMap specMessages, n ∈ l.map Message.name) ∧
      ∀ m ∈ l, ∃ t ∈ fs.flatMap GoFile.types, IsExportedStruct t = true ∧ m.name = t.name ∧
        m.fields.map Field.name = (structFields t).map fun y => y.names.headD [] := by
  induction fs generalizing g acc with
  | nil =>
    simp only [List.map_nil, newFiles, Except.ok.injEq] at h
    subst h
    exact ⟨[], by simp, by simp, by simp, by simp⟩
  | cons f fs ih =>
    rw [List.map_cons] at h
    unfold newFiles at h
    cases hf : newFile unq g acc f with
    | error e => rw [hf] at h; cases h
    | ok r1 =>
      rw [hf] at h
      simp only [bind, Except.bind] at h
      obtain ⟨l, e, h1, h2, h3⟩ := ih h
      obtain ⟨-, n1, n2⟩ := newFile_names hf
      obtain ⟨types, x, -, -, d, -, e5, -⟩ := newFile_ok hf
      have hsub : (x.1.map Message.name).Sublist (structNames f) ∧ ∀ n ∈ specMessages f, n ∈ x.1.map Message.name := by
        by_cases hg : g = []
        · have := n1 hg
          rw [e5, List.map_append, List.append_cancel_left_eq] at this
          rw [this]
          exact ⟨List.filter_sublist, fun n hn => hn⟩
        · have := (n2 hg).2
          rw [e5, List.map_append, List.append_cancel_left_eq] at this
          rw [this]
          exact ⟨List.Sublist.refl _, fun n hn => (List.mem_filter.mp hn).1⟩
      refine ⟨x.1 ++ l, by rw [e, e5, List.append_assoc], ?_, ?_, ?_⟩
      · rw [List.map_append, List.flatMap_cons]
        exact hsub.1.append h1
      · intro n hn
        rw [List.flatMap_cons, List.mem_append] at hn
        rw [List.map_append, List.mem_append]
        exact hn.imp (hsub.2 n) (h2 n)
      · intro m hm
        rw [List.flatMap_cons]
        rcases List.mem_append.mp hm with hm | hm
        · obtain ⟨t, ht, h'⟩ := declared_fields d m hm
          exact ⟨t, List.mem_append_left _ ht, h'⟩
        · obtain ⟨t, ht, h'⟩ := h3 m hm
          exact ⟨t, List.mem_append_right _ ht, h'⟩

theorem newServiceMethod_map {n : Str} {fn} {r : ServiceMethod} (h : newServiceMethod n fn = .ok r) :
    r.request.map = none ∧ r.request.message = none := by
  match fn, h with
  | none, h => cases h
  | some (_, none), h => cases h
  | some ([], some _), h => cases h
  | some ([_], some _), h => cases h
  | some (_ :: _ :: _, some []), h => cases h
  | some (ctx :: rq :: more, some (rs :: more')), h =>
    unfold newServiceMethod at h
    simp only at h
    cases ha : makeFieldType rq with
    | error e => rw [ha] at h; cases h
    | ok a =>
      cases hb : makeFieldType rs with
      | error e => rw [ha, hb] at h; cases h
      | ok b =>
        rw [ha, hb] at h
        simp only [bind, Except.bind, Except.ok.injEq] at h
        subst h
        exact ⟨(makeFieldType_ok ha).2.2.2.1, (makeFieldType_ok ha).2.2.1⟩

/-- Methods before resolution: nothing is resolved or bound yet. -/
theorem newMethods_plain {ms : List GoMember} {rs : List ServiceMethod} (h : newMethods ms = .ok rs) :
    ∀ r ∈ rs, r.bindings = [] ∧ r.request.map = none ∧ r.request.message = none := by
  induction ms generalizing rs with
  | nil => simp only [newMethods, Except.ok.injEq] at h; subst h; intro r hr; cases hr
  | cons m ms ih =>
    unfold newMethods at h
    cases hn : m.names with
    | nil => rw [hn] at h; cases h
    | cons n ns =>
      rw [hn] at h
      simp only at h
      split at h
      · exact ih h
      · cases h1 : newServiceMethod n m.func with
        | error e => rw [h1] at h; cases h
        | ok x =>
          cases h2 : newMethods ms with
          | error e => rw [h1, h2] at h; cases h
          | ok xs =>
            rw [h1, h2] at h
            simp only [bind, Except.bind, Except.ok.injEq] at h
            subst h
            intro r hr
            rcases List.mem_cons.mp hr with rfl | hr
            · refine ⟨(newServiceMethod_ok h1).2.1, ?_⟩
              exact newServiceMethod_map h1
            · exact ih h2 r hr

/-! ## The texts -/

theorem written_none {U : Uni} {unq text} (h : Written U unq text none) :
    lexText U .init text = .ok [] ∧ (scan U .init text).2.1 = .init := by
  obtain ⟨units, h1, rfl, h3, h4⟩ := h
  have hv := scan_laid h1 .init
  refine ⟨C06_no_service_no_tokens U .init _ (by rw [hv]; exact h3), ?_⟩
  obtain ⟨us', rd1, hr, e, -⟩ := region_pre units [] (scan_run U .init units.flatten) rfl rfl (by rw [hv]; simp) h3
  simp at e
  subst e
  rw [h4] at hr
  generalize (scan U .init units.flatten).2.1 = g' at hr
  generalize (scan U .init units.flatten).2.2 = rd' at hr
  cases hr
  rfl

theorem written_some {U : Uni} {unq text s} (h : Written U unq text (some s)) :
    (∃ ts, lexText U .init text = .ok ts ∧ Parser.parseService unq ts = .ok s.meaning) ∧ (scan U .init text).2.1 = .init := by
  obtain ⟨pre, hdr, body, post, hf, hs, ht⟩ := h
  refine ⟨C11_text U unq text pre hdr body post hf s hs ht, ?_⟩
  have hv := scan_laid hf.laid .init
  rw [← hf.text] at hv
  exact file_glob (scan_run U .init text) pre hdr body post hv hf.pre_word hf.hdr_word hf.body_word hf.post_word hf.pre_depth
    hf.hdr_open hf.hdr_close hf.body_nonneg hf.body_depth hf.post_depth

/-- The rpcs read from the files. -/
def rpcs (docs : List (Option ASvc)) : List Parser.Method :=
  docs.flatMap fun d => match d with
    | none => []
    | some s => s.meaning.methods

theorem consolidateTexts_written {U : Uni} {unq : Str → Option Str} {texts docs} (h : All2 (Written U unq) texts docs)
    (sd : Svcdef) (hw : Distinct sd) (hk : ∀ r ∈ rpcs docs, Has sd r) :
    consolidateTexts U unq .init sd texts = .ok (.init, addRpcs sd (rpcs docs)) := by
  induction h generalizing sd with
  | nil => rw [consolidateTexts]; simp [rpcs, addRpcs_nil]
  | @cons t d texts docs h1 _ ih =>
    rw [consolidateTexts]
    cases d with
    | none =>
      obtain ⟨e1, e2⟩ := written_none h1
      rw [e1, e2]
      have : Parser.parseService unq [] = .error .unexpectedEOF := rfl
      simp only [this]
      rw [if_neg (by decide), if_pos (by decide)]
      exact ih sd hw hk
    | some s =>
      obtain ⟨⟨ts, e1, e2⟩, e3⟩ := written_some h1
      rw [e1, e3]
      simp only [e2]
      have hr : rpcs (some s :: docs) = s.meaning.methods ++ rpcs docs := rfl
      rw [hr] at hk
      rw [assemble_has sd hw s.meaning fun r hr => hk r (List.mem_append_left _ hr)]
      simp only
      rw [ih _ (by unfold Distinct; rw [addRpcs_names]; exact hw)
        (fun r hr => addRpcs_has _ (hk r (List.mem_append_right _ hr))), addRpcs_append, hr]

theorem consolidateTexts_stops {U : Uni} {unq : Str → Option Str} {texts docs} (h : All2 (Written U unq) texts docs)
    (err : CErr) (Bad : Svcdef → Prop) (r : Parser.Method)
    (hadd : ∀ sd a, Bad sd → Bad (addRpcs sd a))
    (hbad : ∀ (sd : Svcdef) (p : Parser.Service) (a b : List Parser.Method), Distinct sd → Bad sd →
      p.methods = a ++ r :: b → (∀ x ∈ a, Has sd x) → assemble sd p = .error err)
    (sd : Svcdef) (hw : Distinct sd) (a b : List Parser.Method) (e : rpcs docs = a ++ r :: b)
    (ha : ∀ x ∈ a, Has sd x) (hr : Bad sd) :
    consolidateTexts U unq .init sd texts = .error (.http err) := by
  induction h generalizing sd a with
  | nil => simp [rpcs] at e
  | @cons t d texts docs h1 _ ih =>
    rw [consolidateTexts]
    cases d with
    | none =>
      obtain ⟨e1, e2⟩ := written_none h1
      rw [e1, e2]
      have : Parser.parseService unq [] = .error .unexpectedEOF := rfl
      simp only [this]
      rw [if_neg (by decide), if_pos (by decide)]
      exact ih sd hw a e ha hr
    | some s =>
      obtain ⟨⟨ts, e1, e2⟩, e3⟩ := written_some h1
      rw [e1, e3]
      simp only [e2]
      have hr' : rpcs (some s :: docs) = s.meaning.methods ++ rpcs docs := rfl
      have hw' : ∀ l, Distinct (addRpcs sd l) := fun l => by unfold Distinct; rw [addRpcs_names]; exact hw
      rw [hr', List.append_eq_append_iff] at e
      rcases e with ⟨a', rfl, e⟩ | ⟨c, e, e'⟩
      · rw [assemble_has sd hw s.meaning fun r hr => ha r (List.mem_append_left _ hr)]
        simp only
        exact ih _ (hw' _) a' e (fun x hx => addRpcs_has _ (ha x (List.mem_append_right _ hx))) (hadd _ _ hr)
      · cases c with
        | nil =>
          rw [List.append_nil] at e
          rw [assemble_has sd hw s.meaning fun r hr => ha r (by rw [← e]; exact hr)]
          simp only
          exact ih _ (hw' _) [] e'.symm (by intro x hx; cases hx) (hadd _ _ hr)
        | cons r' c =>
          simp only [List.cons_append, List.cons.injEq] at e'
          obtain ⟨rfl, rfl⟩ := e'
          rw [hbad sd s.meaning a c hw hr e ha]

theorem consolidateTexts_unknown {U : Uni} {unq : Str → Option Str} {texts docs} (h : All2 (Written U unq) texts docs)
    (sd : Svcdef) (hw : Distinct sd) (a b : List Parser.Method) (r : Parser.Method) (e : rpcs docs = a ++ r :: b)
    (ha : ∀ x ∈ a, Has sd x) (hr : goCamelCase r.name ∉ methodNames sd) :
    consolidateTexts U unq .init sd texts = .error (.http (.noMethod r.name)) :=
  consolidateTexts_stops h _ (fun sd => goCamelCase r.name ∉ methodNames sd) r
    (fun sd a h => by rw [addRpcs_names]; exact h)
    (fun sd p a b h1 h2 h3 h4 => assemble_unknown' sd h1 p a b r h3 h4 h2) sd hw a b e ha hr

theorem consolidateTexts_foreign {U : Uni} {unq : Str → Option Str} {texts docs} (h : All2 (Written U unq) texts docs)
    (sd : Svcdef) (hw : Distinct sd) (a b : List Parser.Method) (r : Parser.Method) (e : rpcs docs = a ++ r :: b)
    (ha : ∀ x ∈ a, Has sd x) (hr : Foreign sd r) :
    consolidateTexts U unq .init sd texts = .error (.http .nilMessage) :=
  consolidateTexts_stops h _ (fun sd => Foreign sd r) r (fun sd a h => addRpcs_foreign a h)
    (fun sd p a b h1 h2 h3 h4 => assemble_foreign sd h1 p a b r h3 h4 h2) sd hw a b e ha hr

theorem rpcs_bindings {docs : List (Option ASvc)} {r : Parser.Method} (h : r ∈ rpcs docs) : r.bindings ≠ [] := by
  unfold rpcs at h
  obtain ⟨d, -, h⟩ := List.mem_flatMap.mp h
  cases d with
  | none => cases h
  | some s =>
    simp only [ASvc.meaning] at h
    obtain ⟨x, -, hx⟩ := List.mem_filterMap.mp h
    unfold ARpc.meaning at hx
    split at hx
    · rename_i o _
      simp only [Option.some.injEq] at hx
      subst hx
      unfold Parser.Grammar.AOpt.meaning
      simp
    · cases hx

theorem rpcs_names (docs : List (Option ASvc)) : (rpcs docs).map Parser.Method.name = annotated docs := by
  unfold rpcs annotated
  rw [List.map_flatMap]
  congr 1
  funext d
  cases d with
  | none => rfl
  | some s =>
    simp only [ASvc.meaning]
    induction s.rpcs with
    | nil => rfl
    | cons r rs ih =>
      rw [List.filterMap_cons, List.flatMap_cons, ← ih]
      unfold ARpc.meaning
      cases r.tail <;> rfl

theorem rpcs_annotations (docs : List (Option ASvc)) (n : Str) :
    ((rpcs docs).filter fun r => goCamelCase r.name = n).flatMap Parser.Method.bindings = annotations docs n := by
  unfold rpcs annotations
  induction docs with
  | nil => rfl
  | cons d docs ih =>
    rw [List.flatMap_cons, List.flatMap_cons, List.filter_append, List.flatMap_append, ih]
    congr 1
    cases d with
    | none => rfl
    | some s =>
      simp only [ASvc.meaning]
      induction s.rpcs with
      | nil => rfl
      | cons r rs ih =>
        rw [List.filterMap_cons, List.flatMap_cons, ← ih]
        unfold ARpc.meaning
        cases ht : r.tail with
        | semi => rfl
        | empty p => rfl
        | http o =>
          simp only
          by_cases hn : goCamelCase r.name = n
          · rw [if_pos hn, List.filter_cons_of_pos (by simpa using hn), List.flatMap_cons]
          · rw [if_neg hn, List.filter_cons_of_neg (by simpa using hn)]; rfl

theorem mkBinding_of (fields : List Field) (b : Parser.HTTPBinding) :
    BindingOf (fields.map Field.name) b (mkBinding fields b) := by
  refine ⟨(C15_binding fields b _ _).mpr ⟨rfl, rfl⟩, ?_, ?_⟩
  · have := C13_one_param_per_field fields b
    have := congrArg (List.map Field.name) this
    rw [List.map_map] at this
    exact this
  · intro p hp pieces last hwf hpath
    obtain ⟨i, hi, rfl⟩ := List.getElem_of_mem hp
    have hl : (mkBinding fields b).params.length = fields.length := by
      have := congrArg List.length (C13_one_param_per_field fields b)
      simpa using this
    obtain ⟨h1, h2⟩ := C13_locations fields b pieces last hwf hpath i (by omega) hi
    rw [h1]
    exact h2

theorem all2_map {α β : Type} {R : α → β → Prop} (f : α → β) (h : ∀ a, R a (f a)) (l : List α) : All2 R l (l.map f) := by
  induction l with
  | nil => exact .nil
  | cons a l ih => exact .cons (h a) ih

end Baron.New
