import Verif.Proofs.Consolidate

/-!
# Properties of HTTP consolidation: C13-C17
-/

namespace Baron.Consolidate

open Baron.Strs Baron.Svcdef

/-! ## C13 -/

/-- **C13** Every field of the request message yields exactly one HTTP parameter, in field order. -/
theorem C13_one_param_per_field (fields : List Field) (b : Parser.HTTPBinding) :
    (mkBinding fields b).params.map HTTPParameter.field = fields := by
  simp [mkBinding, Function.comp_def]

/-- **C13** The location is 'path' exactly when some braced parameter of the path names the field. -/
theorem C13_path (f : Field) (b : Parser.HTTPBinding) (pieces : List (Str × Str)) (last : Str)
    (hwf : TemplateWF pieces last) (hpath : (getVerb b).2 = templateText pieces last) :
    paramLocation f b = "path".toList ↔ ∃ x ∈ pieces, Names x.2 f := by
  have hp : getPathParams b = pieces.map Prod.snd := by
    unfold getPathParams
    rw [hpath, findBraced_template pieces last hwf]
    have : ∀ p ∈ pieces.map Prod.snd, (p.filter fun c => decide (c ≠ '{' ∧ c ≠ '}')) = p := by
      intro p hp
      obtain ⟨x, hx, rfl⟩ := List.mem_map.mp hp
      obtain ⟨-, h1, h2, -⟩ := hwf.1 x hx
      rw [List.filter_eq_self]
      intro c hc
      simp only [decide_eq_true_eq]
      exact ⟨fun e => h1 (e ▸ hc), fun e => h2 (e ▸ hc)⟩
    rw [List.map_congr_left this]
    exact List.map_id' _
  unfold paramLocation
  rw [hp]
  constructor
  · intro h
    split at h
    · rename_i ha
      rw [List.any_eq_true] at ha
      obtain ⟨p, hp, hn⟩ := ha
      obtain ⟨x, hx, rfl⟩ := List.mem_map.mp hp
      exact ⟨x, hx, (names_iff _ _).mpr (by simpa using hn)⟩
    · split at h
      · exact absurd h (by decide)
      · exact absurd h (by decide)
  · rintro ⟨x, hx, hn⟩
    rw [if_pos]
    rw [List.any_eq_true]
    exact ⟨x.2, List.mem_map_of_mem hx, by simpa using (names_iff _ _).mp hn⟩

/-- **C13** A field not in the path is in the body exactly when a body option selects it, otherwise in the query. -/
theorem C13_body_query (f : Field) (b : Parser.HTTPBinding) (h : paramLocation f b ≠ "path".toList) :
    (paramLocation f b = "body".toList ↔ InBody b f) ∧ (paramLocation f b = "query".toList ↔ ¬ InBody b f) := by
  have hb : (b.fields.any fun o => o.kind = "body".toList ∧
      (o.value = "*".toList ∨ o.value = f.name ∨ goCamelCase (firstSeg o.value) = f.name)) = true ↔ InBody b f := by
    rw [List.any_eq_true]
    simp only [decide_eq_true_eq, InBody, names_iff]
  unfold paramLocation at h ⊢
  split at h
  · exact absurd rfl h
  rename_i hnp
  rw [if_neg hnp]
  by_cases hin : InBody b f
  · rw [if_pos (hb.mpr hin)]
    exact ⟨⟨fun _ => hin, fun _ => rfl⟩, ⟨fun e => absurd e (by decide), fun e => absurd hin e⟩⟩
  · rw [if_neg (fun e => hin (hb.mp e))]
    exact ⟨⟨fun e => absurd e (by decide), fun e => absurd e hin⟩, ⟨fun _ => hin, fun _ => rfl⟩⟩

/-- **C13** Path, body and query are the only locations. -/
theorem C13_total (f : Field) (b : Parser.HTTPBinding) :
    paramLocation f b = "path".toList ∨ paramLocation f b = "body".toList ∨ paramLocation f b = "query".toList := by
  unfold paramLocation
  split
  · exact .inl rfl
  · split
    · exact .inr (.inl rfl)
    · exact .inr (.inr rfl)

/-! ## C14 -/

/-- **C14** From every well-formed path template exactly the parameter names are extracted, in order. -/
theorem C14_path_params (b : Parser.HTTPBinding) (pieces : List (Str × Str)) (last : Str)
    (hwf : TemplateWF pieces last) (hpath : (getVerb b).2 = templateText pieces last) :
    getPathParams b = pieces.map Prod.snd := by
  unfold getPathParams
  rw [hpath, findBraced_template pieces last hwf]
  have : ∀ p ∈ pieces.map Prod.snd, (p.filter fun c => decide (c ≠ '{' ∧ c ≠ '}')) = p := by
    intro p hp
    obtain ⟨x, hx, rfl⟩ := List.mem_map.mp hp
    obtain ⟨-, h1, h2, -⟩ := hwf.1 x hx
    rw [List.filter_eq_self]
    intro c hc
    simp only [decide_eq_true_eq]
    exact ⟨fun e => h1 (e ▸ hc), fun e => h2 (e ▸ hc)⟩
  rw [List.map_congr_left this]
  exact List.map_id' _

/-- **C14** For any path at all, every extracted parameter is free of braces and newlines, and is written between
braces in the path (stray opening braces inside aside). -/
theorem C14_any_path (b : Parser.HTTPBinding) (p : Str) (h : p ∈ getPathParams b) :
    '{' ∉ p ∧ '}' ∉ p ∧ '\n' ∉ p ∧
    ∃ a q c, (getVerb b).2 = a ++ '{' :: (q ++ '}' :: c) ∧ p = q.filter (· ≠ '{') := by
  unfold getPathParams at h
  obtain ⟨q, hq, rfl⟩ := List.mem_map.mp h
  obtain ⟨h1, h2, a, c, e⟩ := findBraced_clean _ q hq
  refine ⟨by simp, by simp, ?_, a, q, c, e, ?_⟩
  · intro hn
    exact h2 (List.mem_filter.mp hn).1
  · apply List.filter_congr
    intro x hx
    have : x ≠ '}' := fun e => h1 (e ▸ hx)
    simp [this]

/-! ## C15 -/

theorem foldl_last (l : List Parser.Field) : ∀ (v p : Str),
    l.foldl (fun vp f => if f.kind = "kind".toList then (f.value, vp.2)
      else if f.kind = "path".toList then (vp.1, f.value) else vp) (v, p) =
    ((((l.filter fun f => f.kind = "kind".toList).getLast?).map Parser.Field.value).getD v,
     (((l.filter fun f => f.kind = "path".toList).getLast?).map Parser.Field.value).getD p) := by
  have hne : ¬ ("kind".toList = "path".toList) := by decide
  have hlast : ∀ (x : Parser.Field) (xs : List Parser.Field) (d : Str),
      (((x :: xs).getLast?).map Parser.Field.value).getD d = ((xs.getLast?).map Parser.Field.value).getD x.value := by
    intro x xs d
    cases h : xs.getLast? <;> simp [List.getLast?_cons, h]
  induction l with
  | nil => intro v p; rfl
  | cons f l ih =>
    intro v p
    rw [List.foldl_cons, List.filter_cons, List.filter_cons]
    by_cases hk : f.kind = "kind".toList
    · have hp : ¬ f.kind = "path".toList := fun e => hne (hk ▸ e)
      rw [if_pos hk, ih, if_pos (by simpa using hk), if_neg (by simpa using hp), hlast]
    · by_cases hp : f.kind = "path".toList
      · rw [if_neg hk, if_pos hp, ih, if_neg (by simpa using hk), if_pos (by simpa using hp), hlast]
      · rw [if_neg hk, if_neg hp, ih, if_neg (by simpa using hk), if_neg (by simpa using hp)]

/-- **C15** With a custom pattern, the verb is the value of its last `kind` entry and the path that of its last `path`
entry, each empty if there is none; the other fields are not consulted. -/
theorem C15_custom (b : Parser.HTTPBinding) (h : b.custom ≠ []) :
    getVerb b = ((((b.custom.filter fun f => f.kind = "kind".toList).getLast?).map Parser.Field.value).getD [],
      (((b.custom.filter fun f => f.kind = "path".toList).getLast?).map Parser.Field.value).getD []) := by
  unfold getVerb
  rw [if_pos h]
  exact foldl_last b.custom [] []

theorem std_iff (k : Str) : (["get", "put", "post", "delete", "patch"].any fun s => decide (k = s.toList)) = true ↔
    StdVerb k := by
  simp [StdVerb]

/-- **C15** Without a custom pattern, verb and path come from the first field whose kind is a standard verb. -/
theorem C15_standard (b : Parser.HTTPBinding) (h : b.custom = []) (pre post : List Parser.Field) (f : Parser.Field)
    (hb : b.fields = pre ++ f :: post) (hpre : ∀ x ∈ pre, ¬ StdVerb x.kind) (hf : StdVerb f.kind) :
    getVerb b = (f.kind, f.value) := by
  unfold getVerb
  rw [if_neg (by simp [h])]
  have : (b.fields.find? fun f => ["get", "put", "post", "delete", "patch"].any fun k => decide (f.kind = k.toList)) =
      some f := by
    rw [hb, List.find?_append]
    have hn : (pre.find? fun f => ["get", "put", "post", "delete", "patch"].any fun k => decide (f.kind = k.toList)) =
        none := by
      rw [List.find?_eq_none]
      intro x hx he
      exact hpre x hx ((std_iff _).mp he)
    rw [hn, Option.none_or, List.find?_cons_of_pos (p := fun f : Parser.Field => ["get", "put", "post", "delete", "patch"].any fun k =>
      decide (f.kind = k.toList)) ((std_iff _).mpr hf)]
  rw [this]

/-- **C15** With neither, both are empty. -/
theorem C15_none (b : Parser.HTTPBinding) (h : b.custom = []) (hf : ∀ x ∈ b.fields, ¬ StdVerb x.kind) :
    getVerb b = ([], []) := by
  unfold getVerb
  rw [if_neg (by simp [h])]
  have : (b.fields.find? fun f => ["get", "put", "post", "delete", "patch"].any fun k => decide (f.kind = k.toList)) =
      none := by
    rw [List.find?_eq_none]
    intro x hx he
    exact hf x hx ((std_iff _).mp he)
  rw [this]

/-- **C13** In the binding that ends up in the definition: the i-th parameter is the i-th field of the request
message; it is located in the path exactly when a braced parameter of the binding's path names it, else in the body
exactly when a body option selects it, else in the query. -/
theorem C13_locations (fields : List Field) (b : Parser.HTTPBinding) (pieces : List (Str × Str)) (last : Str)
    (hwf : TemplateWF pieces last) (hpath : (mkBinding fields b).path = templateText pieces last)
    (i : Nat) (h : i < fields.length) (h' : i < (mkBinding fields b).params.length) :
    let p := (mkBinding fields b).params[i]
    p.field = fields[i] ∧
    (p.location = "path".toList ↔ ∃ x ∈ pieces, Names x.2 fields[i]) ∧
    (p.location = "body".toList ↔ (¬ ∃ x ∈ pieces, Names x.2 fields[i]) ∧ InBody b fields[i]) ∧
    (p.location = "query".toList ↔ (¬ ∃ x ∈ pieces, Names x.2 fields[i]) ∧ ¬ InBody b fields[i]) := by
  have e : (mkBinding fields b).params[i] = ⟨fields[i], paramLocation fields[i] b⟩ := by simp [mkBinding]
  have h1 := C13_path fields[i] b pieces last hwf hpath
  simp only [e]
  refine ⟨trivial, h1, ?_, ?_⟩
  · by_cases hp : paramLocation fields[i] b = "path".toList
    · rw [hp]
      exact ⟨fun e => absurd e (by decide), fun e => absurd (h1.mp hp) e.1⟩
    · rw [(C13_body_query fields[i] b hp).1]
      exact ⟨fun e => ⟨fun c => hp (h1.mpr c), e⟩, fun e => e.2⟩
  · by_cases hp : paramLocation fields[i] b = "path".toList
    · rw [hp]
      exact ⟨fun e => absurd e (by decide), fun e => absurd (h1.mp hp) e.1⟩
    · rw [(C13_body_query fields[i] b hp).2]
      exact ⟨fun e => ⟨fun c => hp (h1.mpr c), e⟩, fun e => e.2⟩

/-- **C15** Verb and path of the binding that ends up in the definition are those the annotation stands for, and an
annotation stands for only one verb and path. -/
theorem C15_binding (fields : List Field) (b : Parser.HTTPBinding) (v p : Str) :
    VerbPath b v p ↔ (mkBinding fields b).verb = v ∧ (mkBinding fields b).path = p := by
  have key : ∀ v p, VerbPath b v p → getVerb b = (v, p) := by
    intro v p h
    cases h with
    | custom h => rw [C15_custom b h]; rfl
    | standard h1 h2 h3 h4 => exact C15_standard b h1 _ _ _ h2 h3 h4
    | none h1 h2 => exact C15_none b h1 h2
  constructor
  · intro h
    have := key v p h
    simp [mkBinding, this]
  · rintro ⟨rfl, rfl⟩
    have ex : ∃ v p, VerbPath b v p := by
      by_cases hc : b.custom = []
      · by_cases hf : ∃ x ∈ b.fields, StdVerb x.kind
        · have : ∀ l : List Parser.Field, (∃ x ∈ l, StdVerb x.kind) →
              ∃ pre f post, l = pre ++ f :: post ∧ (∀ x ∈ pre, ¬ StdVerb x.kind) ∧ StdVerb f.kind := by
            intro l
            induction l with
            | nil => rintro ⟨x, hx, -⟩; simp at hx
            | cons a l ih =>
              rintro ⟨x, hx, hs⟩
              by_cases ha : StdVerb a.kind
              · exact ⟨[], a, l, rfl, by simp, ha⟩
              · rcases List.mem_cons.mp hx with rfl | hx
                · exact absurd hs ha
                · obtain ⟨pre, f, post, e, h1, h2⟩ := ih ⟨x, hx, hs⟩
                  refine ⟨a :: pre, f, post, by rw [e]; rfl, ?_, h2⟩
                  intro y hy
                  rcases List.mem_cons.mp hy with rfl | hy
                  · exact ha
                  · exact h1 y hy
          obtain ⟨pre, f, post, e, h1, h2⟩ := this _ hf
          exact ⟨_, _, .standard hc e h1 h2⟩
        · exact ⟨_, _, .none hc fun x hx hs => hf ⟨x, hx, hs⟩⟩
      · exact ⟨_, _, .custom hc⟩
    obtain ⟨v, p, h⟩ := ex
    have := key v p h
    simp only [mkBinding, this]
    exact h

example : VerbPath ⟨[], [⟨[], "body".toList, "*".toList⟩, ⟨[], "put".toList, "/a/{x}".toList⟩], []⟩ "put".toList
    "/a/{x}".toList :=
  .standard (b := ⟨[], [⟨[], "body".toList, "*".toList⟩, ⟨[], "put".toList, "/a/{x}".toList⟩], []⟩)
    (f := ⟨[], "put".toList, "/a/{x}".toList⟩) (post := []) (pre := [⟨[], "body".toList, "*".toList⟩]) rfl rfl
    (by intro x hx; simp only [List.mem_singleton] at hx; subst hx; unfold StdVerb; decide) (.inr (.inl rfl))

/-! ## C16 -/

/-- **C16** When every parsed rpc names a method of the service, each method gets exactly the bindings of the rpcs
whose camel-cased name is its name, appended in parsed order after those it had; nothing else of the definition
changes. -/
theorem C16_attached (sd : Svcdef) (s : Service) (hs : sd.service = some s) (p : Parser.Service)
    (hnames : (s.methods.map ServiceMethod.name).Nodup) (hres : ∀ m ∈ s.methods, Resolved sd.messages m)
    (hk : ∀ r ∈ p.methods, ∃ m ∈ s.methods, m.name = goCamelCase r.name) :
    ∃ ms, assemble sd p = .ok { sd with service := some ⟨s.name, ms⟩ } ∧ ms.length = s.methods.length ∧
      ∀ i (h : i < s.methods.length) (h' : i < ms.length),
        ms[i].name = s.methods[i].name ∧ ms[i].request = s.methods[i].request ∧
        ms[i].response = s.methods[i].response ∧
        ms[i].bindings = s.methods[i].bindings ++
          ((p.methods.filter fun r => goCamelCase r.name = s.methods[i].name).flatMap Parser.Method.bindings).map
            (mkBinding (reqFields sd.messages s.methods[i])) := by
  have hk' : ∀ r ∈ p.methods, goCamelCase r.name ∈ s.methods.map ServiceMethod.name := by
    intro r hr
    obtain ⟨m, hm, e⟩ := hk r hr
    rw [← e]
    exact List.mem_map_of_mem hm
  refine ⟨s.methods.map (withRpcs sd.messages p.methods), ?_, by simp, ?_⟩
  · unfold assemble
    rw [hs]
    simp only
    rw [assembleLoop_known _ _ _ hnames hres hk']
    rfl
  · intro i h h'
    simp only [List.getElem_map]
    refine ⟨rfl, rfl, rfl, ?_⟩
    simp only [withRpcs, List.map_flatMap]

/-- **C16** A parsed rpc that names no method is reported: the error carries the name of the first such rpc. -/
theorem C16_unknown_rpc (sd : Svcdef) (s : Service) (hs : sd.service = some s) (p : Parser.Service)
    (hnames : (s.methods.map ServiceMethod.name).Nodup) (hres : ∀ m ∈ s.methods, Resolved sd.messages m)
    (a b : List Parser.Method) (r : Parser.Method) (hp : p.methods = a ++ r :: b)
    (ha : ∀ x ∈ a, ∃ m ∈ s.methods, m.name = goCamelCase x.name)
    (hr : ∀ m ∈ s.methods, m.name ≠ goCamelCase r.name) :
    assemble sd p = .error (.noMethod r.name) := by
  unfold assemble
  rw [hs]
  simp only
  rw [assembleLoop_unknown sd.messages p.methods s.methods hnames hres a b r hp]
  · rfl
  · intro x hx
    obtain ⟨m, hm, e⟩ := ha x hx
    rw [← e]
    exact List.mem_map_of_mem hm
  · intro h
    obtain ⟨m, hm, e⟩ := List.mem_map.mp h
    exact hr m hm e

/-! ## C17 -/

/-- The file declares an rpc that belongs to the method named `n`. -/
def declares (n : Str) (r : Except Parser.PErr Parser.Service) : Bool :=
  match r with
  | .ok p => p.methods.any fun m => goCamelCase m.name = n
  | .error _ => false

/-- **C17** When the order of visiting the files does not matter, exactly. Either some file stops consolidation silently
(an rpc without http annotations), no file breaks it and no file adds any binding; or no file stops it, and either some
file breaks it (then every order fails) or for every method what any two files add to it commutes. Otherwise two orders
give different definitions, or one fails and another does not. -/
theorem C17_order_iff (sd : Svcdef) (hsd : WellNamed sd) (l : List Parsed) :
    (∀ l', l.Perm l' → (consolidate sd l').toOption = (consolidate sd l).toOption) ↔
      ((∃ r ∈ l, Stops r) ∧ ∀ r ∈ l, ¬ Breaks sd r ∧ ∀ s, sd.service = some s → ∀ m ∈ s.methods, adds sd m r = []) ∨
      ((∀ r ∈ l, ¬ Stops r) ∧ ((∃ r ∈ l, Breaks sd r) ∨
        ∀ s, sd.service = some s → ∀ m ∈ s.methods, ∀ r ∈ l, ∀ r' ∈ l,
          adds sd m r ++ adds sd m r' = adds sd m r' ++ adds sd m r)) := by
  by_cases hst : ∃ r ∈ l, Stops r
  · obtain ⟨st, hst1, hst2⟩ := hst
    constructor
    · intro h
      refine .inl ⟨⟨st, hst1, hst2⟩, fun r hr => ?_⟩
      obtain ⟨l0, p0, -⟩ := perm_first hst1
      have h0 : (consolidate sd l).toOption = some sd := by rw [← h _ p0]; exact hst2.head sd _
      by_cases hrs : Stops r
      · refine ⟨(not_breaks sd r).2 ⟨.inl hrs, ?_⟩, ?_⟩
        · obtain ⟨_, _, rfl⟩ := hrs; simp [rpcsOf]
        · obtain ⟨_, _, rfl⟩ := hrs; simp [adds]
      · obtain ⟨l1, p1, m1⟩ := perm_first hr
        have hnb : ¬ Breaks sd r := by
          intro hb
          have := h _ p1
          rw [hb.head sd hsd, h0] at this
          cases this
        refine ⟨hnb, ?_⟩
        obtain ⟨h3, h4⟩ := (not_breaks sd r).1 hnb
        have h3 := h3.resolve_left hrs
        obtain ⟨l2, p2, -⟩ := perm_first (m1 st hst1 (fun e => hrs (e ▸ hst2)))
        have := h _ (p1.trans (p2.cons r))
        rw [fine_head sd hsd h3 h4, hst2.head, h0] at this
        have this := Option.some.inj this
        conv at this => rhs; rw [← addRpcs_nil sd]
        rw [addRpcs_eq_iff] at this
        intro s hs m hm
        have := this s hs m hm
        rw [adds_rpcs] at this
        rw [this]; rfl
    · rintro (⟨-, h⟩ | ⟨h, -⟩)
      · intro l' hp
        rw [consolidate_quiet sd hsd l h, consolidate_quiet sd hsd l' fun r hr => h r (hp.mem_iff.2 hr)]
      · exact absurd hst2 (h st hst1)
  · have hns : ∀ r ∈ l, ¬ Stops r := fun r hr h => hst ⟨r, hr, h⟩
    have ho : ∀ l', l.Perm l' → ∀ r ∈ l', ∀ e, r = .error e → isOptional e = false := by
      intro l' hp r hr e he
      have := hns r (hp.mem_iff.2 hr)
      cases e with
      | optional line v => exact absurd ⟨line, v, he⟩ this
      | _ => rfl
    have hcond : ∀ l', l.Perm l' → (((∀ r ∈ l', fine r = true) ∧ (∀ r ∈ l'.flatMap rpcsOf, goCamelCase r.name ∈ methodNames sd)) ↔
        ∀ r ∈ l, ¬ Breaks sd r) := by
      intro l' hp
      simp only [not_breaks, List.mem_flatMap]
      constructor
      · rintro ⟨a, b⟩ r hr
        exact ⟨.inr (a r (hp.mem_iff.1 hr)), fun hm hh => b hm ⟨r, hp.mem_iff.1 hr, hh⟩⟩
      · intro h
        refine ⟨fun r hr => ((h r (hp.mem_iff.2 hr)).1).resolve_left (hns r (hp.mem_iff.2 hr)), ?_⟩
        rintro hm ⟨r, hr, hh⟩
        exact (h r (hp.mem_iff.2 hr)).2 hm hh
    by_cases hb : ∀ r ∈ l, ¬ Breaks sd r
    · have hval : ∀ l', l.Perm l' → (consolidate sd l').toOption = some (addRpcs sd (l'.flatMap rpcsOf)) := by
        intro l' hp
        rw [consolidate_closed l' sd hsd (ho l' hp), if_pos ((hcond l' hp).2 hb)]
      constructor
      · intro h
        refine .inr ⟨hns, .inr fun s hs m hm r hr r' hr' => ?_⟩
        have key : ∀ l' l'', l.Perm l' → l.Perm l'' → l'.flatMap (adds sd m) = l''.flatMap (adds sd m) := by
          intro l' l'' h1 h2
          have e : (consolidate sd l').toOption = (consolidate sd l'').toOption := by rw [h l' h1, h l'' h2]
          rw [hval l' h1, hval l'' h2, Option.some.injEq, addRpcs_eq_iff] at e
          have := e s hs m hm
          rwa [adds_flatMap, adds_flatMap] at this
        by_cases e : r' = r
        · rw [e]
        · obtain ⟨l1, p1, m1⟩ := perm_first hr
          obtain ⟨l2, p2, -⟩ := perm_first (m1 r' hr' e)
          have q := p1.trans (p2.cons r)
          have := key _ _ q (q.trans (List.Perm.swap r' r l2))
          simp only [List.flatMap_cons, ← List.append_assoc] at this
          exact List.append_cancel_right this
      · rintro (⟨⟨r, hr, h⟩, -⟩ | ⟨-, ⟨r, hr, h⟩ | h⟩)
        · exact absurd h (hns r hr)
        · exact absurd h (hb r hr)
        · intro l' hp
          rw [hval l' hp, hval l (List.Perm.refl _), Option.some.injEq, addRpcs_eq_iff]
          intro s hs m hm
          rw [adds_flatMap, adds_flatMap]
          exact (flatMap_perm_commute _ hp (h s hs m hm)).symm
    · refine ⟨fun _ => .inr ⟨hns, .inl ?_⟩, ?_⟩
      · exact Classical.byContradiction fun hc => hb fun r hr h => hc ⟨r, hr, h⟩
      · intro _ l' hp
        rw [consolidate_closed l' sd hsd (ho l' hp), consolidate_closed l sd hsd (ho l (List.Perm.refl _)),
          if_neg (fun h => hb ((hcond l' hp).1 h)), if_neg (fun h => hb ((hcond l (List.Perm.refl _)).1 h))]
/-- **C17** In particular: if no file triggers the "rpc without http annotations" error and no two files annotate the
same method, any order of visiting the files gives the same definition, or an error in both. -/
theorem C17_order (sd : Svcdef) (hsd : WellNamed sd) (l l' : List (Except Parser.PErr Parser.Service))
    (hperm : l.Perm l') (hopt : ∀ r ∈ l, ∀ line v, r ≠ .error (.optional line v))
    (hshare : ∀ n, (l.filter (declares n)).length ≤ 1) :
    (consolidate sd l).toOption = (consolidate sd l').toOption := by
  have ho : ∀ r ∈ l, ∀ e, r = .error e → isOptional e = false := by
    intro r hr e he
    cases e with
    | optional line v => exact absurd he (hopt r hr line v)
    | _ => rfl
  rw [consolidate_closed l sd hsd ho,
    consolidate_closed l' sd hsd (fun r hr => ho r (hperm.mem_iff.mpr hr))]
  have hcond : ((∀ r ∈ l, fine r = true) ∧ (∀ r ∈ l.flatMap rpcsOf, goCamelCase r.name ∈ methodNames sd)) ↔
      ((∀ r ∈ l', fine r = true) ∧ (∀ r ∈ l'.flatMap rpcsOf, goCamelCase r.name ∈ methodNames sd)) := by
    simp only [List.mem_flatMap, hperm.mem_iff]
  have hval : addRpcs sd (l.flatMap rpcsOf) = addRpcs sd (l'.flatMap rpcsOf) := by
    unfold addRpcs
    congr 1
    cases sd.service with
    | none => rfl
    | some s =>
      simp only [Option.map_some, Option.some.injEq, Service.mk.injEq, true_and]
      apply List.map_congr_left
      intro m _
      unfold withRpcs
      congr 3
      rw [List.filter_flatMap, List.filter_flatMap]
      apply flatten_perm hperm
      have : (l.filter fun x => !((rpcsOf x).filter fun r => decide (goCamelCase r.name = m.name)).isEmpty) =
          l.filter (declares m.name) := by
        apply List.filter_congr
        intro x _
        cases x with
        | error e => rfl
        | ok p =>
          simp only [rpcsOf, declares]
          rw [Bool.eq_iff_iff]
          simp
      rw [this]
      exact hshare m.name
  by_cases hc : (∀ r ∈ l, fine r = true) ∧ (∀ r ∈ l.flatMap rpcsOf, goCamelCase r.name ∈ methodNames sd)
  · rw [if_pos hc, if_pos (hcond.mp hc), hval]
  · rw [if_neg hc, if_neg (fun h => hc (hcond.mpr h))]

/-! ### Witnesses -/

namespace Example

def ty (n : Str) (i : Option Nat) : FieldType := ⟨n, none, [], i, none, true, false⟩
def strTy : FieldType := ⟨"string".toList, none, [], none, none, false, false⟩
def req : Message := ⟨"Req".toList, [⟨"UserId".toList, "user_id".toList, strTy⟩, ⟨"Name".toList, "name".toList, strTy⟩,
  ⟨"Page".toList, "page".toList, strTy⟩]⟩
def sd : Svcdef := ⟨"pb".toList, [req], [], some ⟨"Svc".toList,
  [⟨"GetUser".toList, ty "Req".toList (some 0), ty "Req".toList (some 0), []⟩]⟩⟩
def bind1 : Parser.HTTPBinding := ⟨[], [⟨[], "put".toList, "/users/{user_id.x}/n".toList⟩,
  ⟨[], "body".toList, "name".toList⟩], []⟩
def bind2 : Parser.HTTPBinding := ⟨[], [⟨[], "get".toList, "/n".toList⟩], []⟩
def file (b : Parser.HTTPBinding) : Except Parser.PErr Parser.Service :=
  .ok ⟨"Svc".toList, [⟨"get_user".toList, [], "Req".toList, "Req".toList, [b]⟩]⟩

theorem sd_wellNamed : WellNamed sd := by
  intro s hs
  cases hs
  refine ⟨by decide, ?_⟩
  intro m hm
  simp only [List.mem_cons, List.not_mem_nil, or_false] at hm
  subst hm
  exact ⟨0, req, rfl, rfl⟩

/-- The three locations, on a concrete binding. -/
example : (mkBinding req.fields bind1).params.map HTTPParameter.location =
    ["path".toList, "body".toList, "query".toList] ∧ (mkBinding req.fields bind1).verb = "put".toList := by
  decide +kernel
example : TemplateWF [("/users/".toList, "user_id.x".toList)] "/n".toList ∧
    (getVerb bind1).2 = templateText [("/users/".toList, "user_id.x".toList)] "/n".toList := by
  refine ⟨⟨?_, by decide⟩, by decide +kernel⟩
  intro x hx
  simp only [List.mem_cons, List.not_mem_nil, or_false] at hx
  subst hx
  decide
example : getPathParams bind1 = ["user_id.x".toList] := by decide +kernel
example : (consolidate sd [.error .unexpectedEOF, file bind1]).toOption.isSome = true := by decide +kernel
example : (consolidate sd [.ok ⟨[], [⟨"nope".toList, [], [], [], [bind1]⟩]⟩]) = .error (.noMethod "nope".toList) := by
  decide +kernel
example : WellNamed sd ∧ ∀ n, ([Except.error Parser.PErr.unexpectedEOF, file bind1].filter (declares n)).length ≤ 1 :=
  ⟨sd_wellNamed, fun n => by
    rw [List.filter_cons, if_neg (by simp [declares]), List.filter_cons]
    split <;> simp⟩

-- two files annotating one method with equal bindings: what they add commutes
example : ∀ r ∈ [file bind1, file bind1], ∀ r' ∈ [file bind1, file bind1], ∀ m : ServiceMethod,
    adds sd m r ++ adds sd m r' = adds sd m r' ++ adds sd m r := by
  intro r hr r' hr' m
  simp only [List.mem_cons, List.not_mem_nil, or_false, or_self] at hr hr'
  rw [hr, hr']

end Example

open Example in
/-- **C17** (witness) The order can matter: a file with an rpc lacking annotations (body `{ ; }`) makes the result depend
on whether it is visited first. -/
theorem C17_stop_witness :
    consolidate sd [.error (.optional 3 ";".toList), file bind1] ≠
    consolidate sd [file bind1, .error (.optional 3 ";".toList)] := by
  have h : (consolidate sd [.error (.optional 3 ";".toList), file bind1]).toOption ≠
    (consolidate sd [file bind1, .error (.optional 3 ";".toList)]).toOption := by decide +kernel
  exact fun e => h (by rw [e])

open Example in
/-- **C17** (witness) It also matters when two files annotate the same method: the bindings come out in visiting order. -/
theorem C17_shared_witness : consolidate sd [file bind1, file bind2] ≠ consolidate sd [file bind2, file bind1] := by
  have h : (consolidate sd [file bind1, file bind2]).toOption ≠
    (consolidate sd [file bind2, file bind1]).toOption := by decide +kernel
  exact fun e => h (by rw [e])

end Baron.Consolidate
