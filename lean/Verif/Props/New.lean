import Verif.Proofs.New

/-!
# C57, C58: `svcdef.New` from the files to the definition
-/

namespace Baron.New

open Baron.Scanner Baron.Lexer Baron.Svcdef Baron.Consolidate Baron.Text Baron.Strs Baron.Parser.Grammar

theorem sameFiles {fs fs' : List GoFile} (h : fs.map some = fs'.map some) : fs = fs' := by
  have := congrArg (List.filterMap id) h
  simpa using this

/-- **C58** Every Go file that protoc-gen-go and protoc-gen-go-grpc write for .proto files without streaming rpcs is
accepted, whatever the process did before. -/
theorem C58_accepted (unq : Str → Option Str) (g : Oneofs) (fs : List GoFile) (h : ∀ f ∈ fs, GoodFile unq f) :
    ∃ r, newDefs unq g (fs.map some) = .ok r := by
  obtain ⟨r, hr⟩ := newFiles_total unq g ⟨[], [], [], none⟩ fs h
  unfold newDefs
  rw [hr]
  exact ⟨_, rfl⟩

/-- The definition before the annotations are read. -/
theorem defs_found {unq : Str → Option Str} {g : Oneofs} {fs : List GoFile} {t : GoTypeSpec} (hg : ∀ f ∈ fs, GoodFile unq f)
    (ho : OneService fs t) : ∃ g' sd s, newDefs unq g (fs.map some) = .ok (g', sd) ∧ sd.service = some s ∧ ServiceOf t s ∧
      (∀ m ∈ s.methods, m.bindings = [] ∧ (m.request.name ∈ fs.flatMap specMessages →
        ∃ t' ∈ fs.flatMap GoFile.types, IsExportedStruct t' = true ∧ t'.name = m.request.name ∧
        ∃ i msg, m.request.message = some i ∧ sd.messages[i]? = some msg ∧ msg.name = t'.name ∧
          msg.fields.map Field.name = (structFields t').map fun y => y.names.headD []) ∧
        (m.request.name ∉ fs.flatMap structNames → ¬ Resolved sd.messages m)) := by
  obtain ⟨⟨g', sd⟩, h⟩ := C58_accepted unq g fs hg
  obtain ⟨fs', r, he, hr, -, hsd⟩ := newDefs_ok h
  obtain rfl := sameFiles he
  have hserv := C37_service unq g g' fs sd h
  rw [ho.service] at hserv
  simp only [List.getLast?_singleton] at hserv
  obtain ⟨s, hs, hsof⟩ := hserv
  refine ⟨g', sd, s, h, hs, hsof, ?_⟩
  obtain ⟨g1, g2, -⟩ := newFiles_general hr
  obtain ⟨l, e, l1, l2, l3⟩ := newFiles_messages hr
  simp only [nothing, List.nil_append] at e g1
  rw [← e] at l1 l2 l3
  -- before resolution
  unfold LastService at g2
  rw [ho.service] at g2
  simp only [List.getLast?_singleton] at g2
  obtain ⟨x, hx, hn⟩ := g2
  unfold newService at hn
  cases hm : newMethods (members t) with
  | error e => rw [hm] at hn; cases hn
  | ok rs =>
    rw [hm] at hn
    simp only [Except.map, Except.ok.injEq] at hn
    have plain := newMethods_plain hm
    generalize hsd0 : (⟨r.2.pkg, r.2.messages, r.2.enums, r.2.service⟩ : Svcdef) = sd0 at hsd
    have hmsgs : sd0.messages = r.2.messages := by rw [← hsd0]
    have hnodup : (sd0.enums ++ sd0.messages.map Message.name).Nodup := by
      rw [← hsd0]
      simp only
      rw [g1]
      exact List.Nodup.sublist (List.Sublist.append (List.Sublist.refl _) l1) ho.types
    intro m hmem
    -- the method it comes from
    have hsm : s.methods = rs.map fun m =>
        { m with request := setType (typeMap sd0) m.request, response := setType (typeMap sd0) m.response } := by
      rw [hsd] at hs
      unfold resolveTypes at hs
      have : sd0.service = some x := by rw [← hsd0]; exact hx
      simp only [this, Option.map_some, Option.some.injEq] at hs
      rw [← hs, ← hn]
    rw [hsm] at hmem
    obtain ⟨m0, hm0, rfl⟩ := List.mem_map.mp hmem
    obtain ⟨p1, p2, p3⟩ := plain m0 hm0
    have hset : setType (typeMap sd0) m0.request = match typeMap sd0 m0.request.name with
        | none => m0.request
        | some (.enum i) => { m0.request with enum := some i }
        | some (.message i) => { m0.request with message := some i } := by
      unfold setType
      simp only [p2]
      rfl
    have hsetname : (setType (typeMap sd0) m0.request).name = m0.request.name := by
      rw [hset]; split <;> rfl
    refine ⟨p1, ?_, ?_⟩
    · intro hreq
      simp only [hsetname] at hreq
      replace hreq := l2 _ hreq
      obtain ⟨i, hi, hi'⟩ := List.getElem_of_mem hreq
      have htm : typeMap sd0 m0.request.name = some (.message i) := by
        rw [(typeMap_nodup sd0 hnodup _).2 i, hmsgs, List.getElem?_eq_getElem hi, hi']
      rw [htm] at hset
      have hi2 : i < r.2.messages.length := by simpa using hi
      obtain ⟨t', ht', k1, k2, k3⟩ := l3 r.2.messages[i] (List.getElem_mem hi2)
      have hname : r.2.messages[i].name = m0.request.name := by simpa using hi'
      simp only [hset]
      refine ⟨t', ht', k1, by rw [← k2, hname], i,
        { r.2.messages[i] with fields := r.2.messages[i].fields.map fun f => { f with type := setType (typeMap sd0) f.type } },
        rfl, ?_, ?_, ?_⟩
      · rw [hsd]
        unfold resolveTypes
        simp only [hmsgs, List.getElem?_map, List.getElem?_eq_getElem hi2, Option.map_some]
      · exact k2
      · rw [← k3]
        simp only [List.map_map]
        rfl
    · intro hnot
      simp only [hsetname] at hnot
      have hno : ∀ i, typeMap sd0 m0.request.name ≠ some (.message i) := by
        intro i hi
        rw [(typeMap_nodup sd0 hnodup _).2 i, hmsgs] at hi
        exact hnot (l1.mem (List.mem_of_getElem? hi))
      rintro ⟨i, msg, h1, -⟩
      simp only [hset] at h1
      split at h1
      · rw [p3] at h1; cases h1
      · simp only [p3] at h1; cases h1
      · rename_i j hj
        exact hno j hj

/-- The method of the definition an rpc stands for. -/
theorem method_of {ms : List GoMember} {rs : List ServiceMethod} {n : Str}
    (h : All2 (fun (m : GoMember) (r : ServiceMethod) => m.names.head? = some r.name ∧
      ∃ ctx rq more rs more', m.func = some (ctx :: rq :: more, some (rs :: more')) ∧
      PointerTo rq r.request.name ∧ PointerTo rs r.response.name) ms rs) {m : GoMember} (hm : m ∈ ms)
    (hn : m.names.head? = some n) : ∃ r ∈ rs, r.name = n ∧
      ∃ ctx rq more res, m.func = some (ctx :: rq :: more, res) ∧ PointerTo rq r.request.name := by
  induction h with
  | nil => cases hm
  | cons hab _ ih =>
    rcases List.mem_cons.mp hm with rfl | hm
    · obtain ⟨h1, ctx, rq, more, rs, more', f1, f2, -⟩ := hab
      rw [hn, Option.some.injEq] at h1
      exact ⟨_, List.mem_cons_self, h1.symm, ctx, rq, more, _, f1, f2⟩
    · obtain ⟨r, hr, h'⟩ := ih hm
      exact ⟨r, List.mem_cons_of_mem _ hr, h'⟩

/-- What the annotations are attached to. -/
theorem attached {fs : List GoFile} {t : GoTypeSpec} (ho : OneService fs t) {sd : Svcdef}
    {s : Service} (h2 : sd.service = some s) (h4 : ServiceOf t s)
    (h5 : ∀ m ∈ s.methods, (m.request.name ∈ fs.flatMap specMessages → Resolved sd.messages m) ∧
      (m.request.name ∉ fs.flatMap structNames → ¬ Resolved sd.messages m)) :
    Distinct sd ∧ (∀ r : Parser.Method, Usable fs t r.name → Has sd r) ∧
    (∀ n, goCamelCase n ∈ methodNames sd ↔ IsMethod t n) ∧
    ∀ r : Parser.Method, r.bindings ≠ [] → ForeignRequest fs t r.name → Foreign sd r := by
  obtain ⟨h3, h4⟩ := h4
  -- names of the methods
  have hnames : s.methods.map (fun m => some m.name) = (exportedMembers t).map fun m => m.names.head? := by
    unfold exportedMembers
    generalize (members t).filter (fun m => m.names.head?.any exported) = ms at h4
    clear h5 h2
    generalize s.methods = rs at h4 ⊢
    induction h4 with
    | nil => rfl
    | cons hab _ ih => rw [List.map_cons, List.map_cons, ih, hab.1]
  have hmn : methodNames sd = s.methods.map ServiceMethod.name := by
    simp only [methodNames, h2, Option.map_some, Option.getD_some]
  have hd : Distinct sd := by
    unfold Distinct
    rw [hmn]
    have := ho.methods
    rw [← hnames] at this
    rw [show s.methods.map (fun m => some m.name) = (s.methods.map ServiceMethod.name).map some by rw [List.map_map]; rfl] at this
    exact (List.pairwise_map.mp this).imp fun h e => h (congrArg some e)
  have hiff : ∀ n, goCamelCase n ∈ methodNames sd ↔ IsMethod t n := by
    intro n
    rw [hmn]
    constructor
    · intro h
      obtain ⟨m, hm, e⟩ := List.mem_map.mp h
      have : some m.name ∈ (exportedMembers t).map fun m => m.names.head? := by
        rw [← hnames]; exact List.mem_map_of_mem (f := fun m : ServiceMethod => some m.name) hm
      obtain ⟨x, hx, ex⟩ := List.mem_map.mp this
      exact ⟨x, hx, by rw [ex, e]⟩
    · rintro ⟨m, hm, e⟩
      have : some (goCamelCase n) ∈ s.methods.map fun m => some m.name := by
        rw [hnames, ← e]; exact List.mem_map_of_mem (f := fun m : GoMember => m.names.head?) hm
      obtain ⟨m', hm', e'⟩ := List.mem_map.mp this
      simp only [Option.some.injEq] at e'
      rw [← e']
      exact List.mem_map_of_mem hm'
  refine ⟨hd, ?_, hiff, ?_⟩
  · rintro r ⟨m, hm, hn, hx⟩
    obtain ⟨x, hxm, e, ctx, rq, more, res, f1, f2⟩ := method_of h4 hm hn
    exact ⟨s, h2, x, hxm, e, (h5 x hxm).1 (hx ctx rq more res _ f1 f2)⟩
  · rintro r hb ⟨m, hm, hn, hx⟩
    refine ⟨(hiff _).mpr ⟨m, hm, hn⟩, hb, ?_⟩
    intro s' hs' x hxm hxn
    rw [h2, Option.some.injEq] at hs'
    subst hs'
    obtain ⟨y, hym, e, ctx, rq, more, res, f1, f2⟩ := method_of h4 hm hn
    have : y = x := by
      unfold Distinct at hd
      rw [hmn] at hd
      have hxy : y.name = x.name := by rw [e, hxn]
      clear h5 h4 hnames hiff hmn h2
      generalize s.methods = l at hd hxm hym
      induction l with
      | nil => cases hxm
      | cons z l ih =>
        rw [List.map_cons, List.nodup_cons] at hd
        rcases List.mem_cons.mp hxm with hx1 | hx1 <;> rcases List.mem_cons.mp hym with hy1 | hy1
        · rw [hx1, hy1]
        · exact absurd (by rw [← hx1, ← hxy]; exact List.mem_map_of_mem hy1) hd.1
        · exact absurd (by rw [← hy1, hxy]; exact List.mem_map_of_mem hx1) hd.1
        · exact ih hd.2 hx1 hy1
    subst this
    exact (h5 y hym).2 (hx ctx rq more res _ f1 f2)

/-- **C57** For Go files with one service and .proto files written in the supported grammar whose annotated rpcs are methods
of that service with requests declared in these files, in any order and whatever was done before in the process (as long as
the scanner was left outside of any definition): `New` succeeds; the definition has that service's name and its exported
methods in order; each method has the request and response it is declared with; if its request is declared in these files,
it refers to the description of the struct of that name, and the method has exactly the bindings written for it, in order;
the other methods have none. The scanner is left outside of any definition again. -/
theorem C57_new (U : Uni) (unq : Str → Option Str) (p : Process) (hp : p.glob = .init) (fs : List GoFile) (t : GoTypeSpec)
    (hg : ∀ f ∈ fs, GoodFile unq f) (ho : OneService fs t) (texts : List Str) (docs : List (Option ASvc))
    (hw : All2 (Written U unq) texts docs) (hk : ∀ n ∈ annotated docs, Usable fs t n) :
    ∃ p' sd s, newSvcdef U unq p (fs.map some) texts = .ok (p', sd) ∧ p'.glob = .init ∧ sd.service = some s ∧
      s.name ++ "Server".toList = t.name ∧ All2 (MethodOf fs docs sd) (exportedMembers t) s.methods := by
  obtain ⟨g', sd, s, h1, h2, h34, h5⟩ := defs_found (g := p.oneofs) hg ho
  obtain ⟨hd, hhas, -, -⟩ := attached ho h2 h34 (fun m hm => ⟨fun hx => by
    obtain ⟨t', -, -, -, i, msg, e1, e2, -⟩ := (h5 m hm).2.1 hx
    exact ⟨i, msg, e1, e2⟩, (h5 m hm).2.2⟩)
  obtain ⟨h3, h4⟩ := h34
  have hknown : ∀ r ∈ rpcs docs, Has sd r := by
    intro r hr
    exact hhas r (hk _ (by rw [← rpcs_names]; exact List.mem_map_of_mem hr))
  refine ⟨⟨.init, g'⟩, addRpcs sd (rpcs docs), ⟨s.name, s.methods.map (withRpcs sd.messages (rpcs docs))⟩, ?_, rfl, ?_, h3, ?_⟩
  · unfold newSvcdef
    rw [h1]
    simp only [hp]
    rw [consolidateTexts_written hw sd hd hknown]
  · unfold addRpcs
    simp only [h2, Option.map_some]
  · simp only
    have h4 : All2 _ (exportedMembers t) s.methods := h4
    clear hd hhas hknown h2 h3
    generalize exportedMembers t = ms at h4
    generalize s.methods = rs at h4 h5
    induction h4 with
    | nil => exact .nil
    | @cons m r ms rs hab _ ih =>
      refine .cons ?_ (ih fun m hm => h5 m (List.mem_cons_of_mem _ hm))
      obtain ⟨hb, hloc, -⟩ := h5 r List.mem_cons_self
      refine ⟨hab.1, hab.2, ?_, ?_⟩
      · intro hx
        obtain ⟨t', ht', k1, k2, i, msg, e1, e2, e3, e4⟩ := hloc hx
        refine ⟨t', ht', k1, k2, ⟨i, msg, e1, e2, e3, e4⟩, ?_⟩
        have hf : reqFields sd.messages r = msg.fields := by
          unfold reqFields
          simp only [e1, Option.bind_some, e2, Option.map_some, Option.getD_some]
        have : (withRpcs sd.messages (rpcs docs) r).bindings = (annotations docs r.name).map (mkBinding msg.fields) := by
          simp only [withRpcs, hb, List.nil_append, hf]
          rw [← rpcs_annotations, List.map_flatMap]
        rw [withRpcs_name, this, ← e4]
        exact all2_map _ (mkBinding_of msg.fields) _
      · intro hx
        rw [withRpcs_name, ← rpcs_annotations] at hx
        simp only [withRpcs, hb, List.nil_append]
        rw [← List.map_flatMap, hx]
        rfl

/-- **C57** The command builds two definitions in one process, from the same files: the second one has, too, exactly the
methods and bindings that were written. -/
theorem C57_twice (U : Uni) (unq : Str → Option Str) (fs : List GoFile) (t : GoTypeSpec)
    (hg : ∀ f ∈ fs, GoodFile unq f) (ho : OneService fs t) (texts : List Str) (docs : List (Option ASvc))
    (hw : All2 (Written U unq) texts docs) (hk : ∀ n ∈ annotated docs, Usable fs t n) :
    ∃ p sd p' sd' s', newSvcdef U unq .fresh (fs.map some) texts = .ok (p, sd) ∧
      newSvcdef U unq p (fs.map some) texts = .ok (p', sd') ∧ sd'.service = some s' ∧
      s'.name ++ "Server".toList = t.name ∧ All2 (MethodOf fs docs sd') (exportedMembers t) s'.methods := by
  obtain ⟨p, sd, -, h1, h2, -⟩ := C57_new U unq .fresh rfl fs t hg ho texts docs hw hk
  obtain ⟨p', sd', s', h3, -, h4⟩ := C57_new U unq p h2 fs t hg ho texts docs hw hk
  exact ⟨p, sd, p', sd', s', h1, h3, h4⟩

/-- **C57** If an annotated rpc is not a method of the service and the ones before it can be used, `New` fails, naming that
rpc. -/
theorem C57_unknown_rpc (U : Uni) (unq : Str → Option Str) (p : Process) (hp : p.glob = .init) (fs : List GoFile)
    (t : GoTypeSpec) (hg : ∀ f ∈ fs, GoodFile unq f) (ho : OneService fs t) (texts : List Str) (docs : List (Option ASvc))
    (hw : All2 (Written U unq) texts docs) (a b : List Str) (n : Str) (he : annotated docs = a ++ n :: b)
    (ha : ∀ n ∈ a, Usable fs t n) (hn : ¬ IsMethod t n) :
    newSvcdef U unq p (fs.map some) texts = .error (.http (.noMethod n)) := by
  obtain ⟨g', sd, s, h1, h2, h34, h5⟩ := defs_found (g := p.oneofs) hg ho
  obtain ⟨hd, hhas, hnm, -⟩ := attached ho h2 h34 (fun m hm => ⟨fun hx => by
    obtain ⟨t', -, -, -, i, msg, e1, e2, -⟩ := (h5 m hm).2.1 hx
    exact ⟨i, msg, e1, e2⟩, (h5 m hm).2.2⟩)
  rw [← rpcs_names, List.map_eq_append_iff] at he
  obtain ⟨ra, rb, e1, e2, e3⟩ := he
  rw [List.map_eq_cons_iff] at e3
  obtain ⟨r, rb', rfl, rfl, -⟩ := e3
  unfold newSvcdef
  rw [h1]
  simp only [hp]
  rw [consolidateTexts_unknown hw sd hd ra rb' r e1 (fun x hx => hhas x (ha _ (by
    rw [← e2]; exact List.mem_map_of_mem hx))) (fun h => hn ((hnm _).mp h))]

/-- **C57** If the request of an annotated rpc is declared in another package (an imported .proto file that is not among the
files given) and the annotated rpcs before it can be used, `New` dereferences a nil pointer. -/
theorem C57_foreign_request (U : Uni) (unq : Str → Option Str) (p : Process) (hp : p.glob = .init) (fs : List GoFile)
    (t : GoTypeSpec) (hg : ∀ f ∈ fs, GoodFile unq f) (ho : OneService fs t) (texts : List Str) (docs : List (Option ASvc))
    (hw : All2 (Written U unq) texts docs) (a b : List Str) (n : Str) (he : annotated docs = a ++ n :: b)
    (ha : ∀ n ∈ a, Usable fs t n) (hn : ForeignRequest fs t n) :
    newSvcdef U unq p (fs.map some) texts = .error (.http .nilMessage) := by
  obtain ⟨g', sd, s, h1, h2, h34, h5⟩ := defs_found (g := p.oneofs) hg ho
  obtain ⟨hd, hhas, -, hfor⟩ := attached ho h2 h34 (fun m hm => ⟨fun hx => by
    obtain ⟨t', -, -, -, i, msg, e1, e2, -⟩ := (h5 m hm).2.1 hx
    exact ⟨i, msg, e1, e2⟩, (h5 m hm).2.2⟩)
  rw [← rpcs_names, List.map_eq_append_iff] at he
  obtain ⟨ra, rb, e1, e2, e3⟩ := he
  rw [List.map_eq_cons_iff] at e3
  obtain ⟨r, rb', rfl, rfl, -⟩ := e3
  unfold newSvcdef
  rw [h1]
  simp only [hp]
  rw [consolidateTexts_foreign hw sd hd ra rb' r e1 (fun x hx => hhas x (ha _ (by
    rw [← e2]; exact List.mem_map_of_mem hx))) (hfor r (rpcs_bindings (docs := docs) (by
      rw [e1]; exact List.mem_append_right _ List.mem_cons_self)) hn)]

/-- What reading the .proto files leaves behind. -/
theorem consolidateTexts_state {U : Uni} {unq : Str → Option Str} {texts : List Str} {g g' : Glob} {sd sd' : Svcdef}
    (h : consolidateTexts U unq g sd texts = .ok (g', sd')) :
    ∃ seen rest, texts = seen ++ rest ∧ g' = globAfter U g seen ∧ (rest = [] ∨
      ∃ before last toks val line, seen = before ++ [last] ∧ lexText U (globAfter U g before) last = .ok toks ∧
        Parser.parseService unq toks = .error (.optional val line)) := by
  induction texts generalizing g sd with
  | nil =>
    simp only [consolidateTexts, Except.ok.injEq, Prod.mk.injEq] at h
    exact ⟨[], [], rfl, h.1.symm, .inl rfl⟩
  | cons t ts ih =>
    have step : ∀ sd1, consolidateTexts U unq (scan U g t).2.1 sd1 ts = .ok (g', sd') →
        ∃ seen rest, t :: ts = seen ++ rest ∧ g' = globAfter U g seen ∧ (rest = [] ∨
          ∃ before last toks val line, seen = before ++ [last] ∧ lexText U (globAfter U g before) last = .ok toks ∧
            Parser.parseService unq toks = .error (.optional val line)) := by
      intro sd1 h1
      obtain ⟨seen, rest, e1, e2, e3⟩ := ih h1
      refine ⟨t :: seen, rest, by rw [e1]; rfl, e2, ?_⟩
      rcases e3 with e3 | ⟨b, l, toks, v, ln, f1, f2, f3⟩
      · exact .inl e3
      · exact .inr ⟨t :: b, l, toks, v, ln, by rw [f1]; rfl, f2, f3⟩
    unfold consolidateTexts at h
    split at h
    · rename_i toks hl
      split at h
      · rename_i e he
        split at h
        · rename_i ho
          simp only [Except.ok.injEq, Prod.mk.injEq] at h
          cases e with
          | optional v ln => exact ⟨[t], ts, rfl, h.1.symm, .inr ⟨[], t, toks, v, ln, rfl, hl, he⟩⟩
          | _ => cases ho
        · split at h
          · exact step _ h
          · cases h
      · rename_i p hp
        split at h
        · cases h
        · exact step _ h
    · cases h

/-- **C57** What the scanner keeps between files, for all files whatsoever: a successful `New` has scanned the files from the
first one on, each in the state the scanner was left in by the ones before it and by whatever the process did earlier, and
leaves the scanner in the state after the last of them. It has scanned all files, unless the parser reported a missing
optional part for one of them: then that is the last one scanned. -/
theorem C57_scanner_state (U : Uni) (unq : Str → Option Str) (p p' : Process) (gos : List (Option GoFile)) (texts : List Str)
    (sd : Svcdef) (h : newSvcdef U unq p gos texts = .ok (p', sd)) :
    ∃ seen rest, texts = seen ++ rest ∧ p'.glob = globAfter U p.glob seen ∧ (rest = [] ∨
      ∃ before last toks val line, seen = before ++ [last] ∧ lexText U (globAfter U p.glob before) last = .ok toks ∧
        Parser.parseService unq toks = .error (.optional val line)) := by
  unfold newSvcdef at h
  split at h
  · cases h
  · rename_i g1 sd1 _
    split at h
    · cases h
    · rename_i gl sd2 hc
      simp only [Except.ok.injEq, Prod.mk.injEq] at h
      obtain ⟨seen, rest, e1, e2, e3⟩ := consolidateTexts_state hc
      exact ⟨seen, rest, e1, by rw [← h.1]; exact e2, e3⟩

/-! ## The hypotheses are met -/

namespace Example

open Baron.Text.Example Baron.Parser

/-- What protoc writes for `message A { string id = 1; } service S { rpc M(A) returns (A); }`. -/
def goFile : GoFile where
  pkg := "pb".toList
  types := [⟨"A".toList, .struct [⟨["state".toList], none, .sel (some "protoimpl".toList) "MessageState".toList⟩,
      ⟨["Id".toList], some (tagLiteral [⟨"protobuf".toList, pbValue "bytes".toList "1".toList "opt".toList false "id".toList
        ["proto3".toList]⟩, ⟨"json".toList, "id,omitempty".toList⟩]), .ident "string".toList⟩]⟩,
    ⟨"SClient".toList, .iface []⟩,
    ⟨"SServer".toList, .iface [⟨["M".toList], some ([.sel (some "context".toList) "Context".toList, .star (.ident "A".toList)],
        some [.star (.ident "A".toList), .ident "error".toList])⟩,
      ⟨["mustEmbedUnimplementedSServer".toList], some ([], none)⟩]⟩]
  funcs := []

def iface : GoTypeSpec := goFile.types[2]

theorem good : GoodFile plainUnq goFile where
  fields := by
    intro t ht fs hs y hy
    simp only [goFile, List.mem_cons, List.not_mem_nil, or_false] at ht
    rcases ht with rfl | rfl | rfl
    · simp only [GoSpec.struct.injEq] at hs
      subst hs
      simp only [List.mem_cons, List.not_mem_nil, or_false] at hy
      rcases hy with rfl | rfl
      · exact ⟨by decide, .named .none, trivial⟩
      · refine ⟨by decide, .named (name := "id".toList) (.pb (pre := []) (wire := "bytes".toList) (num := "1".toList) (card := "opt".toList) (packed := false)
          (more := ["proto3".toList]) ?_ ?_ ?_ ?_ ?_), trivial⟩
        · decide
        · decide
        · intro x hx; cases hx
        · unfold TagEntry.WF; decide +kernel
        · decide +kernel
    · cases hs
    · cases hs
  service := by
    intro t ht hs m hm
    simp only [goFile, List.mem_cons, List.not_mem_nil, or_false] at ht
    rcases ht with rfl | rfl | rfl
    · cases hm
    · cases hm
    · simp only [members, List.mem_cons, List.not_mem_nil, or_false] at hm
      rcases hm with rfl | rfl
      · exact ⟨by decide, fun _ => ⟨_, _, _, _, _, _, _, rfl, .inl rfl, .inl rfl⟩⟩
      · exact ⟨by decide, fun h => absurd h (by decide +kernel)⟩
  markers := by intro fn h; cases h
  options := by intro t _ _ h; cases h

theorem one : OneService [goFile] iface where
  service := by decide +kernel
  types := by decide +kernel
  methods := by decide +kernel

theorem usable : Usable [goFile] iface "M".toList := by
  refine ⟨⟨["M".toList], some ([.sel (some "context".toList) "Context".toList,
        .star (.ident "A".toList)], some [.star (.ident "A".toList), .ident "error".toList])⟩, by decide +kernel, by decide +kernel, ?_⟩
  intro ctx rq more res n hf hp
  simp only [Option.some.injEq, Prod.mk.injEq, List.cons.injEq] at hf
  obtain ⟨⟨-, rfl, -⟩, -⟩ := hf
  have : n = "A".toList := by
    rcases hp with h | ⟨_, h⟩
    · simp only [GoType.star.injEq, GoType.ident.injEq] at h; exact h.symm
    · cases h
  subst this
  decide +kernel

/-- A file of another kind: no service. -/
def other : List Str := ["syntax", " ", "=", " ", "\"proto3\"", ";", "\n", "message", " ", "B", " ", "{", "}", "\n"].map String.toList

/-- With the text of the example for C11 and a file without service, all hypotheses of `C57_new` are met. -/
example (U : Uni) : (∀ f ∈ [goFile], GoodFile plainUnq f) ∧ OneService [goFile] iface ∧
    All2 (Written U plainUnq) [other.flatten, ("message A { } // a service\nservice S {\n  // doc\n  rpc M(A) returns (A) {\n  " ++
      "option (google.api.http) = { get: \"/a\" }; }\n}\n").toList] [none, some svc] ∧
    ∀ n ∈ annotated [none, some svc], Usable [goFile] iface n := by
  refine ⟨?_, one, .cons ⟨other, laidA_sound U (by decide +kernel), rfl, by decide +kernel, by decide +kernel⟩
    (.cons ⟨pre, hdr, body, post, file U, svc_wf, svc_tokens U⟩ .nil), ?_⟩
  · intro f hf
    simp only [List.mem_singleton] at hf
    subst hf
    exact good
  · intro n hn
    have : n = "M".toList := by simpa [annotated, svc] using hn
    subst this
    exact usable

/-- **C57 (witness)** The state left by an earlier file matters: a file with a service that is read correctly on its own is
rejected after a file with a closing brace in a single-quoted string (which protoc accepts, and the scanner does not know). -/
theorem C57_earlier_file_witness :
    let quoted := "syntax = 'proto3'; option x = '}';\n".toList
    let main := ("message A { } service S {\n  rpc M(A) returns (A) {\n  option (google.api.http) = { get: \"/a\" }; }\n}\n").toList
    ((newSvcdef asciiUni plainUnq .fresh [some goFile] [main]).toOption.bind fun r => r.2.service.map fun s =>
      s.methods.map fun m => m.bindings.map fun b => (b.verb, b.path)) = some [[("get".toList, "/a".toList)]] ∧
    (newSvcdef asciiUni plainUnq .fresh [some goFile] [quoted]).toOption.isSome = true ∧
    (newSvcdef asciiUni plainUnq .fresh [some goFile] [quoted, main]).toOption.isSome = false ∧
    (newSvcdef asciiUni plainUnq .fresh [some goFile] [main, quoted]).toOption.isSome = true := by
  refine ⟨?_, ?_, ?_, ?_⟩ <;> decide +kernel

/-- The same with a request from another package, `*emptypb.Empty`. -/
def goForeign : GoFile where
  pkg := "pb".toList
  types := [⟨"SServer".toList, .iface [⟨["M".toList], some ([.sel (some "context".toList) "Context".toList,
    .star (.sel (some "emptypb".toList) "Empty".toList)], some [.star (.ident "A".toList), .ident "error".toList])⟩]⟩]
  funcs := []

def ifaceF : GoTypeSpec := goForeign.types[0]

theorem goodF : GoodFile plainUnq goForeign where
  fields := by
    intro t ht fs hs
    simp only [goForeign, List.mem_singleton] at ht
    subst ht
    cases hs
  service := by
    intro t ht _ m hm
    simp only [goForeign, List.mem_singleton] at ht
    subst ht
    simp only [members, List.mem_singleton] at hm
    subst hm
    exact ⟨by decide, fun _ => ⟨_, _, _, _, _, _, _, rfl, .inr ⟨_, rfl⟩, .inl rfl⟩⟩
  markers := by intro fn h; cases h
  options := by intro t _ _ h; cases h

theorem oneF : OneService [goForeign] ifaceF where
  service := by decide +kernel
  types := by decide +kernel
  methods := by decide +kernel

theorem foreignF (fs : List GoFile) (hm : ∀ f ∈ fs, "Empty".toList ∉ structNames f) :
    ForeignRequest fs ifaceF "M".toList := by
  refine ⟨⟨["M".toList], some ([.sel (some "context".toList) "Context".toList,
    .star (.sel (some "emptypb".toList) "Empty".toList)], some [.star (.ident "A".toList), .ident "error".toList])⟩,
    by decide +kernel, by decide +kernel, ?_⟩
  intro ctx rq more' res n hf hp
  simp only [Option.some.injEq, Prod.mk.injEq, List.cons.injEq] at hf
  obtain ⟨⟨-, rfl, -⟩, -⟩ := hf
  have : n = "Empty".toList := by
    rcases hp with h | ⟨_, h⟩
    · cases h
    · simp only [GoType.star.injEq, GoType.sel.injEq] at h; exact h.2.symm
  subst this
  intro h
  obtain ⟨f, hf, h⟩ := List.mem_flatMap.mp h
  exact hm f hf h

/-- The hypotheses of `C57_foreign_request` are met. -/
example : (∀ f ∈ [goForeign], GoodFile plainUnq f) ∧ OneService [goForeign] ifaceF ∧
    annotated [some svc] = [] ++ "M".toList :: [] ∧ ForeignRequest [goForeign] ifaceF "M".toList := by
  refine ⟨?_, oneF, by decide +kernel, foreignF _ (by decide +kernel)⟩
  intro f hf
  rw [List.mem_singleton] at hf
  subst hf
  exact goodF

end Example

end Baron.New
