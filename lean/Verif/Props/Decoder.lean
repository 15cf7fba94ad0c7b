import Verif.Proofs.DecoderAll

/-!
# C74: the names in generated HTTP request decoders
-/

namespace Baron.Locals

open Baron.Scope Baron.HTTPCode Baron.Idents Baron.DecoderNames

theorem exported_iff {x : Str} : Exported x ↔ upper x = true := by
  constructor
  · exact upper_of
  · intro h
    cases x with
    | nil => cases h
    | cons c r => exact ⟨c, r, rfl, h⟩

theorem upper_camel {x : Str} (h : Exported x) : upper (Strs.goCamelCase x) = true := by
  obtain ⟨c, r, rfl, h⟩ := h
  have h1 : c ≠ '.' := by rintro rfl; revert h; decide
  have h2 : c ≠ '_' := by rintro rfl; revert h; decide
  have h3 : ¬ isAsciiDigit c = true := by
    rw [Strs.upper_iff] at h; rw [Strs.digit_iff]; omega
  unfold Strs.goCamelCase Strs.camelGo
  rw [if_neg (by simp [h1]), if_neg h1, if_neg (by simp [h2]), if_neg (by simp [h2]), if_neg h3]
  have h4 : upperC c = c := Strs.upperC_not c (Strs.upper_not_lower c h)
  rw [List.cons_append, h4]
  exact h

theorem taken_lowers : ∀ x ∈ lowers, x ∈ taken.map String.toList := by decide +kernel

theorem plain_of {p : Svcdef.HTTPParameter} (h : PlainParam p) (hl : p.location ≠ "body".toList) : Plain (newField p) where
  location := by
    have := h.location
    simp only [List.map_cons, List.map_nil, List.mem_cons, List.not_mem_nil, or_false] at this
    rcases this with h | h | h
    · exact .inl h
    · exact .inr h
    · exact absurd h hl
  camel := upper_camel h.name
  base := fun hb => by
    unfold newField at hb
    simp only [Bool.and_eq_true] at hb
    exact hb.2
  enum := fun he => by
    unfold newField at he ⊢
    simp only at he ⊢
    cases hh : p.field.type.enum with
    | none => rw [hh] at he; cases he
    | some n => simp only [Option.isNone_some, Bool.and_false, Bool.false_and]
  imported := fun q hq => by
    obtain ⟨h1, h2⟩ := h.imported q hq
    refine ⟨?_, fun hx => h2 (taken_lowers _ hx)⟩
    rw [exported_iff] at h1
    exact Bool.eq_false_iff.2 h1
  own := fun t ht => upper_of (h.own t ht)

theorem plainOneof_of {p : Svcdef.HTTPParameter} (h : PlainParam p) (hl : p.location = "query".toList) :
    PlainOneof ⟨p.field.name, p.location, p.field.type.oneof.map newOption⟩ where
  location := hl
  name := upper_of h.name
  options := fun o ho => by
    obtain ⟨o', ho', rfl⟩ := List.mem_map.1 ho
    obtain ⟨h1, h2, h3⟩ := h.options hl o' ho'
    exact ⟨upper_camel h1, upper_of h2, h3⟩

/-- What a decoder sees besides the types of its fields: the imports of the file, the type for errors and the type of the
request. -/
structure Surrounded (g : Outer) (req : Str) : Prop where
  imports : ∀ x ∈ transportImports false false, g.value x = true
  error : g.type "httpError".toList = true
  exported : Exported req
  request : g.type req = true

/-- **C74** The compiler accepts the names in the decoder generated for a binding exactly if `DecoderOK` holds of its path
and query parameters. -/
theorem C74_decoder {g : Outer} {m : Svcdef.ServiceMethod} (hs : Surrounded g (reqT m)) (b : Svcdef.HTTPBinding)
    (hp : ∀ p ∈ b.params, PlainParam p) :
    FuncOK g (decoder (reqT m) m.name (bindingFields b) (bindingOneofs b)) ↔
      DecoderOK g (Strs.goCamelCase m.name) ((bindingFields b).filter fun f => f.location ≠ "body".toList)
        ((bindingOneofs b).filter fun o => o.location = "query".toList) := by
  refine decoder_iff (lists_le hs.imports ?_) (upper_of hs.exported) hs.request ?_ ?_
  · intro x hx
    rw [List.mem_singleton.1 hx]
    exact hs.error
  · intro f hf hl
    obtain ⟨p, hp', rfl⟩ := List.mem_map.1 hf
    exact plain_of (hp p (List.mem_filter.1 hp').1) hl
  · intro o ho hl
    obtain ⟨p, hp', rfl⟩ := List.mem_map.1 ho
    exact plainOneof_of (hp p (List.mem_filter.1 hp').1) hl

/-! ## Without oneofs -/

theorem Nameable.mono {g : Outer} {vs vs' : List Str} {t : Str} (h : ∀ x ∈ vs, x ∈ vs') (hn : Nameable g vs' t) :
    Nameable g vs t := by
  unfold Nameable at hn ⊢
  split
  · trivial
  · rename_i hm; rw [hm] at hn; exact hn
  · rename_i hm; rw [hm] at hn; exact ⟨hn.1, fun hx => hn.2 (h _ hx)⟩

/-- An exported name that ends a text ending in a capital and two small letters ends in these itself. -/
theorem suffix_of {a rpc q : Str} {c d e : Char} (hq : q = [c, d, e]) (hd : isAsciiUpper d = false) (he : isAsciiUpper e = false)
    (hr : Exported rpc) (h : q <:+ a ++ rpc) : q <:+ rpc := by
  subst hq
  rcases List.suffix_or_suffix_of_suffix h (List.suffix_append a rpc) with h | h
  · exact h
  · obtain ⟨t, ht⟩ := h
    obtain ⟨x, r, rfl, hx⟩ := hr
    match t with
    | [] => exact ⟨[], ht.symm⟩
    | [_] =>
      injection ht with _ ht; injection ht with h1 _
      rw [h1, hd] at hx; cases hx
    | [_, _] =>
      injection ht with _ ht; injection ht with _ ht; injection ht with h1 _
      rw [h1, he] at hx; cases hx
    | _ :: _ :: _ :: t => injection ht with _ ht; injection ht with _ ht; injection ht with _ ht; cases t <;> cases ht

/-- The three variables of each parameter. -/
def variables (rpc : Str) (fs : List HField) : List Str :=
  fs.flatMap fun f => [main f.camelName rpc, text f.camelName rpc, texts f.camelName rpc]

section
variable {g : Outer} {rpc : Str} (hr : Exported rpc) (hS : ¬"Str".toList <:+ rpc) (hA : ¬"Arr".toList <:+ rpc)
include hr

theorem mem_left {pre : List HField} {x : Str} : x ∈ pre.flatMap (left rpc) ↔
    ∃ h ∈ pre, h.location = "path".toList ∧ (x = text h.camelName rpc ∨ x = main h.camelName rpc) := by
  rw [List.mem_flatMap]
  refine ⟨fun ⟨h, hm, hx⟩ => ⟨h, hm, ?_⟩, fun ⟨h, hm, hl, hx⟩ => ⟨h, hm, ?_⟩⟩
  · unfold left at hx
    split at hx
    · rename_i hl
      simp only [List.mem_cons, List.not_mem_nil, or_false] at hx
      exact ⟨hl, hx⟩
    · cases hx
  · unfold left
    rw [if_pos hl]
    simp only [List.mem_cons, List.not_mem_nil, or_false]
    exact hx

include hS in
theorem main_text {a b : Str} : main a rpc ≠ text b rpc := by
  intro h
  refine hS (suffix_of (a := a) (c := 'S') (d := 't') (e := 'r') rfl (by decide) (by decide) hr ?_)
  unfold main text at h
  rw [h]
  exact List.suffix_append _ _

include hA in
theorem main_texts {a b : Str} : main a rpc ≠ texts b rpc := by
  intro h
  refine hA (suffix_of (a := a) (c := 'A') (d := 'r') (e := 'r') rfl (by decide) (by decide) hr ?_)
  unfold main texts at h
  rw [h]
  exact ⟨b ++ rpc ++ "Str".toList, by rw [List.append_assoc (b ++ rpc)]; rfl⟩

theorem text_texts {a b : Str} : text a rpc ≠ texts b rpc := by
  intro h
  have := congrArg (fun x => x.reverse.take 3) h
  simp only [text, texts, List.reverse_append, show "Str".toList.reverse = ['r', 't', 'S'] from rfl,
    show "StrArr".toList.reverse = ['r', 'r', 'A', 'r', 't', 'S'] from rfl, List.cons_append, List.take_succ_cons] at this
  revert this
  simp

include hS hA in
theorem fields_simple {all : List HField} : ∀ {fs pre : List HField}, (∀ f ∈ fs, f ∈ all) → (∀ f ∈ pre, f ∈ all) →
    (∀ f ∈ fs, f.isBase = false → Nameable g (variables rpc all) f.goType) →
    (∀ f ∈ fs, g.value (texts f.camelName rpc) = false) →
    (FieldsOK g rpc (pre.flatMap (left rpc)) fs ↔
      (∀ f ∈ fs, f.location = "path".toList → ∀ h ∈ pre, h.location = "path".toList → f.camelName ≠ h.camelName) ∧
      ((fs.filter fun f => f.location = "path".toList).map (·.camelName)).Nodup ∧
      ∀ f ∈ fs, f.location = "path".toList → ¬(f.isBase = true ∧ f.repeated = true)) := by
  intro fs
  induction fs with
  | nil => intros; exact ⟨fun _ => ⟨nofun, .nil, nofun⟩, fun _ => trivial⟩
  | cons f fs ih =>
    intro pre h1 h2 h3 h4
    unfold FieldsOK
    have e : pre.flatMap (left rpc) ++ left rpc f = (pre ++ [f]).flatMap (left rpc) := by
      rw [List.flatMap_append, List.flatMap_cons, List.flatMap_nil, List.append_nil]
    rw [e, ih (fun x hx => h1 x (List.mem_cons_of_mem _ hx)) (fun x hx => by
        rcases List.mem_append.1 hx with hx | hx
        · exact h2 x hx
        · rw [List.mem_singleton.1 hx]; exact h1 f (List.mem_cons_self ..))
      (fun x hx => h3 x (List.mem_cons_of_mem _ hx)) (fun x hx => h4 x (List.mem_cons_of_mem _ hx))]
    have hmem : ∀ h ∈ all, main h.camelName rpc ∈ variables rpc all ∧ text h.camelName rpc ∈ variables rpc all ∧
        texts h.camelName rpc ∈ variables rpc all := by
      intro h hh
      refine ⟨?_, ?_, ?_⟩ <;> refine List.mem_flatMap.2 ⟨h, hh, ?_⟩ <;> simp
    have hfree : f.location = "path".toList → (text f.camelName rpc ∉ pre.flatMap (left rpc) ∧
        main f.camelName rpc ∉ pre.flatMap (left rpc) ↔
        ∀ h ∈ pre, h.location = "path".toList → f.camelName ≠ h.camelName) := by
      intro hf
      rw [mem_left hr, mem_left hr]
      constructor
      · intro ⟨ha, _⟩ h hh hl he
        exact ha ⟨h, hh, hl, .inl (by rw [he])⟩
      · intro ha
        refine ⟨?_, ?_⟩
        · rintro ⟨h, hh, hl, hx | hx⟩
          · exact ha h hh hl (List.append_cancel_right (List.append_cancel_right hx))
          · exact main_text hr hS hx.symm
        · rintro ⟨h, hh, hl, hx | hx⟩
          · exact main_text hr hS hx
          · exact ha h hh hl (List.append_cancel_right hx)
    have hf : FieldOK g rpc (pre.flatMap (left rpc)) f ↔
        (f.location = "path".toList → ∀ h ∈ pre, h.location = "path".toList → f.camelName ≠ h.camelName) ∧
        (f.location = "path".toList → ¬(f.isBase = true ∧ f.repeated = true)) := by
      constructor
      · intro h
        refine ⟨fun hl => (hfree hl).1 (h.fresh hl), fun hl ⟨hb, hrep⟩ => ?_⟩
        rcases h.texts hl hb hrep with hx | hx
        · rw [mem_left hr] at hx
          obtain ⟨k, hk, hkl, hx | hx⟩ := hx
          · exact text_texts hr hx.symm
          · exact main_texts hr hA hx.symm
        · rw [h4 f (List.mem_cons_self ..)] at hx; cases hx
      · intro ⟨ha, hb⟩
        refine ⟨fun hl => (hfree hl).2 (ha hl), fun hnb => ?_, fun hl h1 h2 => absurd ⟨h1, h2⟩ (hb hl)⟩
        refine Nameable.mono ?_ (h3 f (List.mem_cons_self ..) hnb)
        intro x hx
        rcases List.mem_append.1 hx with hx | hx
        · obtain ⟨k, hk, hkl, rfl | rfl⟩ := (mem_left hr).1 hx
          · exact (hmem k (h2 k hk)).2.1
          · exact (hmem k (h2 k hk)).1
        · obtain ⟨m1, m2, m3⟩ := hmem f (h1 f (List.mem_cons_self ..))
          unfold around at hx
          simp only [List.mem_append, List.mem_singleton] at hx
          rcases hx with (rfl | hx) | hx
          · exact m2
          · split at hx
            · cases hx
            · rw [List.mem_singleton.1 hx]; exact m3
          · split at hx
            · cases hx
            · rw [List.mem_singleton.1 hx]; exact m1
    rw [hf]
    by_cases hl : f.location = "path".toList
    · rw [List.filter_cons_of_pos (p := fun f : HField => decide (f.location = "path".toList)) (decide_eq_true hl), List.map_cons, List.nodup_cons]
      constructor
      · intro ⟨⟨a1, a2⟩, b1, b2, b3⟩
        refine ⟨?_, ⟨?_, b2⟩, ?_⟩
        · intro x hx hxl k hk
          rcases List.mem_cons.1 hx with rfl | hx
          · exact a1 hxl k hk
          · exact b1 x hx hxl k (List.mem_append_left _ hk)
        · intro hx
          obtain ⟨k, hk, he⟩ := List.mem_map.1 hx
          obtain ⟨hk, hkl⟩ := List.mem_filter.1 hk
          exact b1 k hk (of_decide_eq_true hkl) f (List.mem_append_right _ (List.mem_singleton.2 rfl)) hl he
        · intro x hx
          rcases List.mem_cons.1 hx with rfl | hx
          · exact a2
          · exact b3 x hx
      · intro ⟨a1, ⟨a2, a3⟩, a4⟩
        refine ⟨⟨a1 f (List.mem_cons_self ..), a4 f (List.mem_cons_self ..)⟩, ?_, a3, fun x hx => a4 x (List.mem_cons_of_mem _ hx)⟩
        intro x hx hxl k hk hkl he
        rcases List.mem_append.1 hk with hk | hk
        · exact a1 x (List.mem_cons_of_mem _ hx) hxl k hk hkl he
        · rw [List.mem_singleton.1 hk] at he
          exact a2 (List.mem_map.2 ⟨x, List.mem_filter.2 ⟨hx, decide_eq_true hxl⟩, he⟩)
    · rw [List.filter_cons_of_neg (p := fun f : HField => decide (f.location = "path".toList)) (fun h => hl (of_decide_eq_true h))]
      constructor
      · intro ⟨_, b1, b2, b3⟩
        refine ⟨?_, b2, ?_⟩
        · intro x hx hxl k hk
          rcases List.mem_cons.1 hx with rfl | hx
          · exact absurd hxl hl
          · exact b1 x hx hxl k (List.mem_append_left _ hk)
        · intro x hx
          rcases List.mem_cons.1 hx with rfl | hx
          · exact fun h => absurd h hl
          · exact b3 x hx
      · intro ⟨a1, a3, a4⟩
        refine ⟨⟨fun h => absurd h hl, fun h => absurd h hl⟩, ?_, a3, fun x hx => a4 x (List.mem_cons_of_mem _ hx)⟩
        intro x hx hxl k hk hkl he
        rcases List.mem_append.1 hk with hk | hk
        · exact a1 x (List.mem_cons_of_mem _ hx) hxl k hk hkl he
        · rw [List.mem_singleton.1 hk] at hkl
          exact hl hkl

end

/-- **C74** Without oneofs in the query, with an rpc whose name does not end in `Str` or `Arr`, and with no type named like one
of the decoder's variables: the names are accepted exactly if the path parameters differ in their Go names and none of
them is a repeated base type. -/
theorem C74_without_oneofs {g : Outer} {m : Svcdef.ServiceMethod} (hs : Surrounded g (reqT m)) (b : Svcdef.HTTPBinding)
    (hp : ∀ p ∈ b.params, PlainParam p) (hn : ∀ p ∈ b.params, p.location = "query".toList → p.field.type.oneof = [])
    (hm : Exported m.name) (hS : ¬"Str".toList <:+ Strs.goCamelCase m.name) (hA : ¬"Arr".toList <:+ Strs.goCamelCase m.name)
    (ht : ∀ f ∈ bindingFields b, f.location ≠ "body".toList → f.isBase = false →
      Nameable g (variables (Strs.goCamelCase m.name) (bindingFields b)) f.goType)
    (hv : ∀ f ∈ bindingFields b, g.value (texts f.camelName (Strs.goCamelCase m.name)) = false) :
    FuncOK g (decoder (reqT m) m.name (bindingFields b) (bindingOneofs b)) ↔
      (((bindingFields b).filter fun f => f.location = "path".toList).map (·.camelName)).Nodup ∧
      ∀ f ∈ bindingFields b, f.location = "path".toList → ¬(f.isBase = true ∧ f.repeated = true) := by
  rw [C74_decoder hs b hp]
  have ho : ((bindingOneofs b).filter fun o => o.location = "query".toList) = [] := by
    rw [List.filter_eq_nil_iff]
    intro o ho hl
    obtain ⟨p, hp', rfl⟩ := List.mem_map.1 ho
    obtain ⟨h1, h2⟩ := List.mem_filter.1 hp'
    rw [hn p h1 (of_decide_eq_true hl)] at h2
    cases h2
  unfold DecoderOK
  rw [ho]
  have hin : ∀ f ∈ (bindingFields b).filter fun f => decide (f.location ≠ "body".toList), f ∈ bindingFields b := fun f hf =>
    (List.mem_filter.1 hf).1
  have key := fields_simple (g := g) (exported_iff.2 (upper_camel hm)) hS hA (all := bindingFields b) (pre := []) hin nofun
    (fun f hf => ht f (hin f hf) (of_decide_eq_true (List.mem_filter.1 hf).2)) (fun f hf => hv f (hin f hf))
  rw [List.flatMap_nil] at key
  have hpath : ∀ f : HField, f.location = "path".toList → f.location ≠ "body".toList := fun f h h' => by
    rw [h] at h'; revert h'; decide
  have hff : (((bindingFields b).filter fun f => decide (f.location ≠ "body".toList)).filter fun f => f.location = "path".toList) =
      (bindingFields b).filter fun f => f.location = "path".toList := by
    rw [List.filter_filter]
    refine List.filter_congr fun f _ => ?_
    by_cases h : f.location = "path".toList
    · rw [decide_eq_true h, decide_eq_true (hpath f h)]; rfl
    · rw [decide_eq_false h, Bool.false_and]
  rw [hff] at key
  constructor
  · intro h
    obtain ⟨_, h2, h3⟩ := key.1 h.1
    exact ⟨h2, fun f hf hl => h3 f (List.mem_filter.2 ⟨hf, decide_eq_true (hpath f hl)⟩) hl⟩
  · intro ⟨h2, h3⟩
    exact ⟨key.2 ⟨fun _ _ _ => nofun, h2, fun f hf => h3 f (hin f hf)⟩, trivial⟩

/-! ## Examples -/

namespace DecoderExample

/-- A package with a request `GetRequest`, a message `Filter`, an enum `Kind`, a message `NameGet` and wrapper structs. -/
def pkg : Outer := lists (transportImports false false)
  (["httpError", "GetRequest", "Filter", "Kind", "NameGet", "GetRequest_Foo", "GetRequest_FooCount"].map String.toList)

def field (name : String) (loc : String) (type : String) (arr := false) (enum : Option Nat := none) (msg : Option Nat := none)
    (oneof : List Svcdef.OneofField := []) : Svcdef.HTTPParameter :=
  ⟨⟨name.toList, name.toList.map lowerC, ⟨type.toList, enum, oneof, msg, none, false, arr⟩⟩, loc.toList⟩

def request : Svcdef.FieldType := ⟨"GetRequest".toList, none, [], some 0, none, true, false⟩

def rpc (name : String) : Svcdef.ServiceMethod := ⟨name.toList, request, request, []⟩

def binding (ps : List Svcdef.HTTPParameter) : Svcdef.HTTPBinding := ⟨"get".toList, "/x/{name}".toList, ps⟩

theorem surrounded (n : String) : Surrounded pkg (reqT (rpc n)) where
  imports := by decide +kernel
  error := by decide +kernel
  exported := ⟨'G', "etRequest".toList, show Strs.goCamelCase "GetRequest".toList = _ by decide +kernel, by decide⟩
  request := show pkg.type (Strs.goCamelCase "GetRequest".toList) = true by decide +kernel

/-- The decoder of a binding with these parameters. -/
def dec (n : String) (ps : List Svcdef.HTTPParameter) : List Ev :=
  decoder (reqT (rpc n)) (rpc n).name (bindingFields (binding ps)) (bindingOneofs (binding ps))

instance (g : Outer) (f : List Ev) : Decidable (FuncOK g f) := by unfold FuncOK; infer_instance

/-- A path parameter, an enum, a message and a list in the query. -/
def good : List Svcdef.HTTPParameter :=
  [field "Name" "path" "string", field "Kind" "query" "Kind" (enum := some 0), field "Filter" "query" "Filter" (msg := some 0),
    field "Ids" "query" "int64" (arr := true), field "Rest" "body" "string"]

theorem good_plain : ∀ p ∈ good, PlainParam p := by
  intro p hp
  simp only [good, List.mem_cons, List.not_mem_nil, or_false] at hp
  rcases hp with rfl | rfl | rfl | rfl | rfl
  all_goals
    refine ⟨by decide +kernel, exported_iff.2 (by decide +kernel), fun t ht => ?_, fun q hq => ?_, fun _ => nofun⟩
    · first
        | (have : t = "Kind".toList := by revert ht; simp only [field]; intro ht; exact (Mention.own.inj (ht.symm.trans (by decide +kernel)))
           subst this; exact exported_iff.2 (by decide +kernel))
        | (have : t = "Filter".toList := by revert ht; simp only [field]; intro ht; exact (Mention.own.inj (ht.symm.trans (by decide +kernel)))
           subst this; exact exported_iff.2 (by decide +kernel))
        | exact nomatch (ht.symm.trans (by simp only [field]; decide +kernel : _ = Mention.predeclared))
    · first
        | exact nomatch (hq.symm.trans (by simp only [field]; decide +kernel : _ = Mention.predeclared))
        | exact nomatch (hq.symm.trans (by simp only [field]; decide +kernel : _ = Mention.own "Kind".toList))
        | exact nomatch (hq.symm.trans (by simp only [field]; decide +kernel : _ = Mention.own "Filter".toList))

/-- All hypotheses of both theorems are met, and the names are accepted. -/
example : FuncOK pkg (dec "Get" good) :=
  (C74_without_oneofs (surrounded "Get") (binding good) good_plain (by decide +kernel) (exported_iff.2 (by decide +kernel))
    (by decide +kernel) (by decide +kernel) (by decide +kernel) (by decide +kernel)).2 (by decide +kernel)

/-- A parameter that is a list of numbers in the path refers to a variable nobody declares. -/
theorem C74_repeated_path_witness : ¬FuncOK pkg (dec "Get" [field "Ids" "path" "int64" (arr := true)]) ∧
    FuncOK pkg (dec "Get" [field "Ids" "query" "int64" (arr := true)]) ∧ FuncOK pkg (dec "Get" [field "Ids" "path" "int64"]) := by
  decide +kernel

/-- An rpc called `Str` whose path has the fields `name` and `name_str` declares `NameStrStr` twice. -/
theorem C74_rpc_named_str_witness :
    ¬FuncOK pkg (dec "Str" [field "Name" "path" "string", field "NameStr" "path" "string"]) ∧
    FuncOK pkg (dec "Get" [field "Name" "path" "string", field "NameStr" "path" "string"]) := by
  decide +kernel

/-- A path field `name` of an rpc `Get` hides the message `NameGet` from the parameters after it. -/
theorem C74_hidden_type_witness :
    ¬FuncOK pkg (dec "Get" [field "Name" "path" "string", field "Filter" "query" "NameGet" (msg := some 0)]) ∧
    FuncOK pkg (dec "Find" [field "Name" "path" "string", field "Filter" "query" "NameGet" (msg := some 0)]) ∧
    FuncOK pkg (dec "Get" [field "Filter" "query" "NameGet" (msg := some 0), field "Name" "path" "string"]) := by
  refine ⟨?_, ?_, ?_⟩ <;> decide +kernel

def oneof : Svcdef.HTTPParameter := field "Foo" "query" "isGetRequest_Foo"
  (oneof := [⟨"Foo".toList, "foo".toList, "string".toList, false, false, "GetRequest_Foo".toList⟩])

/-- A oneof `foo` counts the options found in `FooCountSet`, which is also the variable of a path field `foo_count` in the
decoder of an rpc `Set`. -/
theorem C74_oneof_count_witness :
    ¬FuncOK pkg (dec "Set" [field "FooCount" "path" "string", oneof]) ∧
    FuncOK pkg (dec "Get" [field "FooCount" "path" "string", oneof]) := by
  decide +kernel

end DecoderExample

end Baron.Locals
