import Verif.Spec.Wire
import Verif.Model.Wire
import Verif.Props.Oneof

/-!
# C26, C76: which texts are read as which values, and what a query holds
-/

namespace Baron.Wire

open Baron.HTTPCode Baron.HTTP
open Baron.Svcdef hiding newField

variable {F : Type}

/-! ## Numbers and truth values -/

theorem digit_iff {c : Char} : isAsciiDigit c = true ↔ c.toNat ∈ List.range' 48 10 := by
  rw [Strs.digit_iff, List.mem_range']
  constructor
  · intro h; exact ⟨c.toNat - 48, by omega, by omega⟩
  · rintro ⟨i, h1, h2⟩; omega

theorem foldl_decimal (s : Str) : ∀ a, s.foldl (fun a c => 10 * a + (c.toNat - 48)) a = a * 10 ^ s.length + decimal s := by
  induction s with
  | nil => intro a; simp [decimal]
  | cons c r ih =>
    intro a
    rw [List.foldl_cons, ih, decimal, List.length_cons, Nat.pow_succ, Nat.add_mul]
    have : 10 * a * 10 ^ r.length = a * (10 ^ r.length * 10) := by
      rw [Nat.mul_comm 10 a, Nat.mul_assoc, Nat.mul_comm 10]
    omega

theorem parseNat_iff {s : Str} {n : Nat} : parseNat s = some n ↔ Digits s ∧ n = decimal s := by
  unfold parseNat
  rw [foldl_decimal s 0]
  have hd : (s ≠ [] ∧ s.all isAsciiDigit = true) ↔ Digits s := by
    unfold Digits
    rw [List.all_eq_true]
    simp only [digit_iff]
  by_cases h : Digits s
  · rw [if_pos (hd.2 h)]
    simp only [Nat.zero_mul, Nat.zero_add, Option.some.injEq]
    exact ⟨fun e => ⟨h, e.symm⟩, fun e => e.2.symm⟩
  · rw [if_neg (fun h' => h (hd.1 h'))]
    exact ⟨nofun, fun e => absurd e.1 h⟩

theorem Digits.head {s : Str} (h : Digits s) : ∀ c r, s = c :: r → c ≠ '+' ∧ c ≠ '-' := by
  rintro c r rfl
  have := h.2 c (List.mem_cons_self ..)
  constructor
  · rintro rfl; revert this; decide
  · rintro rfl; revert this; decide

theorem parseUint_iff {bits : Nat} {s : Str} {i : Int} :
    parseUint bits s = some i ↔ Digits s ∧ decimal s < 2 ^ bits ∧ i = decimal s := by
  unfold parseUint
  cases h : parseNat s with
  | none =>
    refine ⟨nofun, fun ⟨h1, _⟩ => ?_⟩
    rw [parseNat_iff.2 ⟨h1, rfl⟩] at h; cases h
  | some n =>
    obtain ⟨h1, rfl⟩ := parseNat_iff.1 h
    simp only
    split
    · rename_i hlt
      exact ⟨fun e => ⟨h1, hlt, (Option.some.inj e).symm⟩, fun e => by rw [e.2.2]⟩
    · rename_i hlt
      exact ⟨nofun, fun e => absurd e.2.1 hlt⟩

theorem signed_cases {s : Str} {i : Int} (h : Signed s i) :
    (Digits s ∧ i = decimal s) ∨ (∃ d, s = '+' :: d ∧ Digits d ∧ i = decimal d) ∨
      ∃ d, s = '-' :: d ∧ Digits d ∧ i = -(decimal d : Int) := by
  cases h with
  | plain h => exact .inl ⟨h, rfl⟩
  | plus h => exact .inr (.inl ⟨_, rfl, h, rfl⟩)
  | minus h => exact .inr (.inr ⟨_, rfl, h, rfl⟩)

theorem parseInt_iff {bits : Nat} {s : Str} {i : Int} :
    parseInt bits s = some i ↔ Signed s i ∧ -(2 ^ (bits - 1)) ≤ i ∧ i < 2 ^ (bits - 1) := by
  have hcast : ((2 ^ (bits - 1) : Nat) : Int) = 2 ^ (bits - 1) := by simp
  have hpos : 0 < 2 ^ (bits - 1) := Nat.two_pow_pos _
  rw [← hcast]
  unfold parseInt
  clear hcast
  generalize 2 ^ (bits - 1) = P at *
  constructor
  · intro h
    split at h
    · rename_i r
      split at h
      · rename_i n hn
        obtain ⟨hd, rfl⟩ := parseNat_iff.1 hn
        split at h
        · rename_i hle
          cases h
          exact ⟨.minus hd, by omega, by omega⟩
        · cases h
      · cases h
    · rename_i r
      split at h
      · rename_i n hn
        obtain ⟨hd, rfl⟩ := parseNat_iff.1 hn
        split at h
        · cases h
          exact ⟨.plus hd, by omega, by omega⟩
        · cases h
      · cases h
    · split at h
      · rename_i n hn
        obtain ⟨hd, rfl⟩ := parseNat_iff.1 hn
        split at h
        · cases h
          exact ⟨.plain hd, by omega, by omega⟩
        · cases h
      · cases h
  · rintro ⟨h, h1, h2⟩
    rcases signed_cases h with ⟨hd, rfl⟩ | ⟨d, rfl, hd, rfl⟩ | ⟨d, rfl, hd, rfl⟩
    · have hn := parseNat_iff.2 ⟨hd, rfl⟩
      split
      · exact absurd rfl (hd.head _ _ rfl).2
      · exact absurd rfl (hd.head _ _ rfl).1
      · rw [hn]
        simp only
        rw [if_pos (by omega)]
    · have hn := parseNat_iff.2 ⟨hd, rfl⟩
      simp only [hn]
      rw [if_pos (by omega)]
    · have hn := parseNat_iff.2 ⟨hd, rfl⟩
      simp only [hn]
      rw [if_pos (by omega)]

theorem any_toList {l : List String} {s : Str} : l.any (·.toList = s) = true ↔ ∃ x ∈ l, x.toList = s := by
  simp [List.any_eq_true]

/-- **C26**, the texts a parameter of a base type is read from, exactly. -/
theorem C26_texts (fl : Floats F) (b : Base) (s : Str) (v : SVal F) : parseBase fl b s = some v ↔ Denotes fl b s v := by
  constructor
  · intro h
    cases b <;> simp only [parseBase, Option.map_eq_some_iff, Option.some.injEq] at h
    · obtain ⟨i, hi, rfl⟩ := h
      obtain ⟨hd, hlt, rfl⟩ := parseUint_iff.1 hi
      exact .uint32 hd hlt
    · obtain ⟨i, hi, rfl⟩ := h
      obtain ⟨hd, hlt, rfl⟩ := parseUint_iff.1 hi
      exact .uint64 hd hlt
    · obtain ⟨i, hi, rfl⟩ := h
      obtain ⟨hd, h1, h2⟩ := parseInt_iff.1 hi
      exact .int32 hd h1 h2
    · obtain ⟨i, hi, rfl⟩ := h
      obtain ⟨hd, h1, h2⟩ := parseInt_iff.1 hi
      exact .int64 hd h1 h2
    · obtain ⟨i, hi, rfl⟩ := h
      unfold parseBool at hi
      split at hi
      · rename_i hany
        obtain ⟨x, hx, rfl⟩ := any_toList.1 hany
        cases hi
        exact .yes hx
      · split at hi
        · rename_i hany
          obtain ⟨x, hx, rfl⟩ := any_toList.1 hany
          cases hi
          exact .no hx
        · cases hi
    · obtain ⟨i, hi, rfl⟩ := h
      exact .float32 hi
    · obtain ⟨i, hi, rfl⟩ := h
      exact .float64 hi
    · subst h
      exact .string
  · intro h
    cases h with
    | uint32 hd hlt => simp only [parseBase, parseUint_iff.2 ⟨hd, hlt, rfl⟩, Option.map_some]
    | uint64 hd hlt => simp only [parseBase, parseUint_iff.2 ⟨hd, hlt, rfl⟩, Option.map_some]
    | int32 hd h1 h2 => simp only [parseBase, (parseInt_iff (bits := 32)).2 ⟨hd, h1, h2⟩, Option.map_some]
    | int64 hd h1 h2 => simp only [parseBase, (parseInt_iff (bits := 64)).2 ⟨hd, h1, h2⟩, Option.map_some]
    | @yes x hx =>
      have : ∀ x ∈ ["1", "t", "T", "true", "TRUE", "True"], parseBool x.toList = some true := by decide +kernel
      simp only [parseBase, this x hx, Option.map_some]
    | @no x hx =>
      have : ∀ x ∈ ["0", "f", "F", "false", "FALSE", "False"], parseBool x.toList = some false := by decide +kernel
      simp only [parseBase, this x hx, Option.map_some]
    | float32 hx => simp only [parseBase, hx, Option.map_some]
    | float64 hx => simp only [parseBase, hx, Option.map_some]
    | string => rfl

theorem numChar_iff {c : Char} : jsonNumChar c = true ↔ c.toNat ∈ List.range' 48 10 ∨ c ∈ "+-.eE".toList := by
  have e : "+-.eE".toList = ['+', '-', '.', 'e', 'E'] := by decide
  rw [e, ← digit_iff]
  simp only [jsonNumChar, Bool.or_eq_true, decide_eq_true_eq, List.mem_cons, List.not_mem_nil, or_false]
  constructor
  · rintro (((((h | h) | h) | h) | h) | h) <;> simp [h]
  · rintro (h | h | h | h | h | h) <;> simp [h]

theorem noLeadingZero_iff {s : Str} :
    noLeadingZero s = true ↔ (∀ r, s = '0' :: r → r = []) ∧ (∀ r, s = '-' :: '0' :: r → r = []) := by
  constructor
  · intro h
    constructor
    · rintro r rfl
      cases r with
      | nil => rfl
      | cons c r => simp [noLeadingZero] at h
    · rintro r rfl
      cases r with
      | nil => rfl
      | cons c r => simp [noLeadingZero] at h
  · rintro ⟨h1, h2⟩
    unfold noLeadingZero
    split
    · exact absurd (h2 _ rfl) (by simp)
    · exact absurd (h1 _ rfl) (by simp)
    · rfl

theorem jsonScalar_iff (fl : Floats F) (b : Base) (s : Str) (v : SVal F) :
    jsonScalar fl b s = some v ↔ JsonElem fl b s v := by
  have hnum : b ≠ .bool → b ≠ .string → (jsonScalar fl b s =
      if s.head? ≠ some '+' ∧ noLeadingZero s = true ∧ s.all jsonNumChar = true then parseBase fl b s else none) := by
    intro h1 h2
    cases b <;> first | rfl | exact absurd rfl h1 | exact absurd rfl h2
  have hcond : (s.head? ≠ some '+' ∧ noLeadingZero s = true ∧ s.all jsonNumChar = true) ↔
      (s.head? ≠ some '+' ∧ ((∀ r, s = '0' :: r → r = []) ∧ (∀ r, s = '-' :: '0' :: r → r = [])) ∧
        ∀ c ∈ s, c.toNat ∈ List.range' 48 10 ∨ c ∈ "+-.eE".toList) := by
    rw [noLeadingZero_iff, List.all_eq_true]
    simp only [numChar_iff]
  constructor
  · intro h
    by_cases hb : b = .bool
    · subst hb
      simp only [jsonScalar] at h
      split at h
      · rename_i e; cases h; rw [e]; exact .yes
      · split at h
        · rename_i e; cases h; rw [e]; exact .no
        · cases h
    by_cases hs : b = .string
    · subst hs
      simp only [jsonScalar] at h
      split at h
      · rename_i r
        split at h
        · rename_i hc
          cases h
          have hr : r = r.dropLast ++ ['"'] := by
            rcases List.eq_nil_or_concat r with rfl | ⟨x, y, rfl⟩
            · simp at hc
            · simp only [List.concat_eq_append, List.getLast?_append, List.getLast?_singleton, Option.some_or,
                Option.some.injEq] at hc
              simp [hc.1]
          have hall := List.all_eq_true.1 hc.2
          have := JsonElem.string (fl := fl) (s := r.dropLast)
            (fun hm => by simpa using hall _ hm) (fun hm => by simpa using hall _ hm)
          rw [List.cons_append, ← hr] at this
          exact this
        · cases h
      · cases h
    rw [hnum hb hs] at h
    split at h
    · rename_i hc
      obtain ⟨h1, ⟨h2, h3⟩, h4⟩ := hcond.1 hc
      exact .number hb hs h1 h2 h3 h4 ((C26_texts fl b s v).1 h)
    · cases h
  · intro h
    cases h with
    | yes => rfl
    | no =>
      have : ("false".toList : Str) ≠ "true".toList := by decide +kernel
      simp only [jsonScalar, if_neg this, if_pos]
    | @string s hq hb =>
      simp only [jsonScalar, List.cons_append]
      rw [if_pos]
      · simp
      · refine ⟨by simp, ?_⟩
        rw [List.dropLast_concat, List.all_eq_true]
        intro c hc
        have h1 : c ≠ '"' := fun e => hq (e ▸ hc)
        have h2 : c ≠ '\\' := fun e => hb (e ▸ hc)
        simp [h1, h2]
    | number hb hs h1 h2 h3 h4 h5 =>
      rw [hnum hb hs, if_pos (hcond.2 ⟨h1, ⟨h2, h3⟩, h4⟩)]
      exact (C26_texts fl b s v).2 h5

theorem all2_map {α β : Type} {R : α → β → Prop} {f : α → Option β} (h : ∀ a b, f a = some b ↔ R a b) :
    ∀ (l : List α) (r : List β), l.map f = r.map some ↔ All2 R l r := by
  intro l
  induction l with
  | nil =>
    intro r
    cases r with
    | nil => exact ⟨fun _ => .nil, fun _ => rfl⟩
    | cons b r => exact ⟨nofun, nofun⟩
  | cons a l ih =>
    intro r
    cases r with
    | nil => exact ⟨nofun, nofun⟩
    | cons b r =>
      simp only [List.map_cons, List.cons.injEq, h, ih]
      exact ⟨fun ⟨x, y⟩ => .cons x y, fun hh => by cases hh; exact ⟨‹_›, ‹_›⟩⟩

/-- **C26**, the single text of a repeated field: exactly these are JSON lists, of these values. -/
theorem C26_lists (fl : Floats F) (b : Base) (s : Str) (l : List (SVal F)) :
    jsonArray fl b s = some l ↔ JsonList fl b s l := by
  have hnull : ∀ r : Str, "null".toList ≠ '[' :: r := by
    intro r h
    have e : "null".toList = ['n', 'u', 'l', 'l'] := by decide
    rw [e] at h
    simp at h
  constructor
  · intro h
    unfold jsonArray at h
    split at h
    · rename_i e; cases h; rw [e]; exact .null
    · split at h
      · rename_i r _
        split at h
        · rename_i e; cases h; rw [e]; exact .empty
        · split at h
          · rename_i hl
            have hr : r = r.dropLast ++ [']'] := by
              rcases List.eq_nil_or_concat r with rfl | ⟨x, y, rfl⟩
              · simp at hl
              · simp only [List.concat_eq_append, List.getLast?_append, List.getLast?_singleton, Option.some_or,
                  Option.some.injEq] at hl
                simp [hl]
            rw [allSome_iff] at h
            have := JsonList.list (fl := fl) (b := b) (es := split ',' r.dropLast) (vs := l)
              (by intro e
                  have hj := join_split ',' r.dropLast
                  rw [e] at hj
                  have : r.dropLast = [] := by rw [← hj]; rfl
                  rw [this] at e
                  simp [split] at e)
              (split_mem ',' _)
              ((all2_map (jsonScalar_iff fl b) _ _).1 h)
            rw [join_split, List.cons_append, ← hr] at this
            exact this
          · cases h
      · cases h
  · intro h
    cases h with
    | null => rfl
    | empty =>
      unfold jsonArray
      have : ("[]".toList : Str) = '[' :: [']'] := by decide
      rw [this, if_neg (fun e => hnull _ e.symm)]
      rfl
    | @list es vs hne hc ha =>
      rw [List.cons_append]
      unfold jsonArray
      rw [if_neg (fun e => hnull _ e.symm)]
      simp only
      rw [if_neg, if_pos (by simp), List.dropLast_concat, split_join ',' es hne hc, allSome_iff]
      · exact (all2_map (jsonScalar_iff fl b) _ _).2 ha
      · intro e
        have hj : join ',' es = [] := by
          have := congrArg List.dropLast e
          simpa using this
        have hs := split_join ',' es hne hc
        rw [hj] at hs
        have hs' : es = [[]] := by rw [← hs]; rfl
        subst hs'
        cases ha with
        | @cons _ v _ vs h1 _ =>
          have hn := (jsonScalar_iff fl b [] v).2 h1
          cases b <;> simp [jsonScalar, parseBase, parseUint, parseInt, parseNat, fl.parse_empty] at hn


/-! ## What a client puts into the query -/

theorem baseOf_iff {n : Str} {b : Base} : baseOf n = some b ↔ n = (baseName b).toList := by
  constructor
  · intro h
    unfold baseOf at h
    repeat' split at h
    all_goals first
      | (rename_i e; cases h; exact e)
      | cases h
  · rintro rfl
    cases b <;> decide +kernel

theorem baseOf_none {n : Str} (h : ∀ b, n ≠ (baseName b).toList) : baseOf n = none := by
  cases hb : baseOf n with
  | none => rfl
  | some b => exact absurd (baseOf_iff.1 hb) (h b)

theorem TypeShape.hasShape {p : HTTPParameter} {sh : Shape} (h : TypeShape p.field.type sh) : HasShape (newField p) sh := by
  generalize ht : p.field.type = t at h
  cases h with
  | single b | optional b | repeated b =>
    have hb : baseOf (baseName b).toList = some b := baseOf_iff.2 rfl
    simp [HasShape, newField, ht, hb]
  | enum hn | message hn | messages hn =>
    have hb := baseOf_none hn
    simp [HasShape, newField, ht, hb]

theorem TypeShape.no_oneof {t : FieldType} {sh : Shape} (h : TypeShape t sh) : t.oneof = [] := by
  cases h <;> rfl

theorem itoaInt_written (fl : Floats F) (b : Base) (i : Int) : Written fl b (.num i) (itoaInt i) := by
  have hd : Digits (itoa i.natAbs) := ⟨itoa_ne_nil _, fun c hc => digit_iff.1 (itoa_digits _ c hc)⟩
  have hv : decimal (itoa i.natAbs) = i.natAbs := by
    have := parseNat_itoa i.natAbs
    exact (parseNat_iff.1 this).2.symm
  obtain ⟨hz1, hz2⟩ := itoa_noLeadingZero i.natAbs
  obtain ⟨h1, -⟩ := noLeadingZero_iff.1 hz1
  unfold itoaInt
  split
  · rename_i hneg
    have hne : (itoa i.natAbs).head? ≠ some '0' := by
      intro h
      obtain ⟨c, r, hc, -⟩ := itoa_head i.natAbs
      rw [hc] at h
      simp only [List.head?_cons, Option.some.injEq] at h
      subst h
      have hr := h1 r hc
      subst hr
      rw [hc] at hv
      simp [decimal] at hv
      omega
    have := Written.neg (fl := fl) (b := b) hd hne
    rw [hv] at this
    have e : i = -(i.natAbs : Int) := by omega
    rw [← e] at this
    exact this
  · rename_i hpos
    have hw : (itoa i.natAbs).length = 1 ∨ (itoa i.natAbs).head? ≠ some '0' := by
      obtain ⟨c, r, hc, -⟩ := itoa_head i.natAbs
      by_cases h : c = '0'
      · subst h
        have hr := h1 r hc
        subst hr
        left; rw [hc]; rfl
      · right; rw [hc]; simp [h]
    have := Written.nat (fl := fl) (b := b) hd hw
    rw [hv] at this
    have e : (i.natAbs : Int) = i := by omega
    rw [e] at this
    exact this

theorem sprint_written (fl : Floats F) (b : Base) (v : SVal F) (h : FitsBase fl b v) : Written fl b v (sprint fl b v) := by
  cases v with
  | num i => exact itoaInt_written fl b i
  | bool x => cases x <;> constructor
  | flt x => cases b <;> first | exact h.elim | exact .float32 | exact .float64
  | str s => exact .string

theorem all2_written (fl : Floats F) (b : Base) : ∀ l : List (SVal F), (∀ v ∈ l, FitsBase fl b v) →
    All2 (Written fl b) l (l.map (sprint fl b)) := by
  intro l
  induction l with
  | nil => intro _; exact .nil
  | cons v l ih =>
    intro h
    exact .cons (sprint_written fl b v (h v (.head _))) (ih fun x hx => h x (.tail _ hx))

theorem texts_fieldTexts (fl : Floats F) (f : HField) (sh : Shape) (hs : HasShape f sh) (v : FVal F) (h : Holds fl sh v) :
    FieldTexts fl sh v (texts fl f v) := by
  cases sh with
  | single b =>
    cases v <;> simp only [Holds] at h
    obtain ⟨h1, h2, h3, h4, h5⟩ := hs
    simp only [texts, h1, h3, h4, h5]
    exact .single (sprint_written fl b _ h)
  | optional b =>
    cases v <;> simp only [Holds] at h
    rename_i o
    obtain ⟨h1, h2, h3, h4, h5⟩ := hs
    simp only [texts, h1, h3, h4, h5]
    cases o with
    | none => exact .unset
    | some x => exact .set (sprint_written fl b _ (h x rfl))
  | repeated b =>
    cases v <;> simp only [Holds] at h
    obtain ⟨h1, h2, h3, h4, h5⟩ := hs
    simp only [texts, h1, h3, h5]
    exact .repeated (all2_written fl b _ h)
  | enum =>
    cases v <;> simp only [Holds] at h
    obtain ⟨h1, h2, h3, h4, h5⟩ := hs
    simp only [texts, h2, h3, h5]
    exact .enum (sprint_written fl .int32 _ h)
  | message =>
    cases v <;> simp only [Holds] at h
    obtain ⟨h1, h2, h3, h4⟩ := hs
    simp only [texts, h2, h4]
    exact .message
  | messages =>
    cases v <;> simp only [Holds] at h
    obtain ⟨h1, h2⟩ := hs
    simp only [texts, h1, h2]
    exact .messages

theorem textsOf_encode (fl : Floats F) (m : Msg F) (f : HField) : ∀ (fs : List HField) (q : List (Str × List Str)),
    (fs.map (·.queryParamName)).Nodup → f ∈ fs →
    textsOf (fs.foldl (fun q f => encodeField fl f (m f.camelName) q) q) f.queryParamName =
      textsOf q f.queryParamName ++ texts fl f (m f.camelName) := by
  intro fs
  induction fs with
  | nil => intro q _ h; simp at h
  | cons g fs ih =>
    intro q hnd hf
    rw [List.map_cons, List.nodup_cons] at hnd
    rw [List.foldl_cons]
    rcases List.mem_cons.1 hf with he | hf'
    · subst he
      unfold textsOf
      rw [look_encode_other]
      · rw [encodeField_eq, look_addValues]
        by_cases ht : texts fl f (m f.camelName) = []
        · simp [ht]
        · simp [ht]
      · intro g hg he
        exact hnd.1 (List.mem_map.2 ⟨g, hg, he⟩)
    · rw [ih _ hnd.2 hf']
      congr 1
      unfold textsOf
      rw [encodeField_eq, look_addValues, if_neg]
      rintro ⟨he, -⟩
      exact hnd.1 (List.mem_map.2 ⟨f, hf', he⟩)

/-- What an option adds to the query. -/
def optionTexts (fl : Floats F) (fzero : F → Bool) (v : OVal F) (p : HOption) : List Str :=
  match v with
  | none => []
  | some (n, x) => if n = p.name ∧ isZero fzero x = false then [sprint fl ((baseOf p.goType).getD .int32) x] else []

theorem encodeOption_eq (fl : Floats F) (fzero : F → Bool) (v : OVal F) (p : HOption) (q : List (Str × List Str)) :
    encodeOption fl fzero v q p = (optionTexts fl fzero v p).foldl (fun q t => addValue q p.queryParamName t) q := by
  unfold encodeOption optionTexts
  cases v with
  | none => rfl
  | some x =>
    simp only
    split <;> rfl

theorem look_option_self (fl : Floats F) (fzero : F → Bool) (v : OVal F) (p : HOption) :
    ∀ (ps : List HOption) (q : List (Str × List Str)), (ps.map (·.queryParamName)).Nodup → p ∈ ps →
    look (ps.foldl (encodeOption fl fzero v) q) p.queryParamName =
      if optionTexts fl fzero v p = [] then look q p.queryParamName
      else some (textsOf q p.queryParamName ++ optionTexts fl fzero v p) := by
  intro ps
  induction ps with
  | nil => intro q _ h; cases h
  | cons g ps ih =>
    intro q hnd hp
    rw [List.map_cons, List.nodup_cons] at hnd
    rw [List.foldl_cons]
    rcases List.mem_cons.1 hp with rfl | hp'
    · rw [look_encodeOptions]
      · rw [encodeOption_eq, look_addValues]
        by_cases ht : optionTexts fl fzero v p = [] <;> simp [ht, textsOf]
      · intro g hg e
        exact hnd.1 (List.mem_map.2 ⟨g, hg, e⟩)
    · have := look_encodeOptions fl fzero v p.queryParamName [g] q
        (by
          intro x hx e
          rw [List.mem_singleton] at hx; subst hx
          exact hnd.1 (List.mem_map.2 ⟨p, hp', e.symm⟩))
      rw [List.foldl_cons, List.foldl_nil] at this
      rw [ih _ hnd.2 hp', textsOf, this]
      rfl

theorem look_oneofs_self (fl : Floats F) (fzero : F → Bool) (m : Str → OVal F) (o : HOneof) (p : HOption)
    (hp : p ∈ o.options) :
    ∀ (os : List HOneof) (q : List (Str × List Str)),
    (os.flatMap fun o => o.options.map (·.queryParamName)).Nodup → o ∈ os →
    look (addOneofs fl fzero os m q) p.queryParamName =
      if optionTexts fl fzero (m (Strs.goCamelCase o.name)) p = [] then look q p.queryParamName
      else some (textsOf q p.queryParamName ++ optionTexts fl fzero (m (Strs.goCamelCase o.name)) p) := by
  intro os
  induction os with
  | nil => intro q _ h; cases h
  | cons o' os ih =>
    intro q hnd ho
    rw [List.flatMap_cons, List.nodup_append] at hnd
    obtain ⟨hnd1, hnd2, hnd3⟩ := hnd
    have hothers : ∀ x ∈ os, ∀ y ∈ x.options, ∀ z ∈ o'.options, z.queryParamName ≠ y.queryParamName := by
      intro x hx y hy z hz
      exact hnd3 _ (List.mem_map_of_mem hz) _ (List.mem_flatMap.2 ⟨x, hx, List.mem_map_of_mem hy⟩)
    rw [addOneofs, List.foldl_cons]
    rcases List.mem_cons.1 ho with rfl | ho'
    · have := look_addOneofs_other fl fzero m p.queryParamName os
        (o.options.foldl (encodeOption fl fzero (m (Strs.goCamelCase o.name))) q)
        (fun x hx y hy => (hothers x hx y hy p hp).symm)
      rw [addOneofs] at this
      rw [this]
      exact look_option_self fl fzero _ p _ q hnd1 hp
    · have := ih (o'.options.foldl (encodeOption fl fzero (m (Strs.goCamelCase o'.name))) q) hnd2 ho'
      rw [addOneofs] at this
      rw [this, textsOf, look_encodeOptions _ _ _ _ _ _ (fun z hz => hothers o ho' p hp z hz)]
      rfl

theorem encodeFrom_eq (fl : Floats F) (fzero : F → Bool) (q0 : List (Str × List Str)) (fs : List HField) (os : List HOneof)
    (m : FullMsg F) :
    encodeFrom fl fzero q0 fs os m =
      addOneofs fl fzero (os.filter fun o => o.location = "query".toList) m.oneofs
        ((fs.filter fun f => f.location = "query".toList).foldl (fun q f => encodeField fl f (m.fields f.camelName) q) q0) := rfl

/-- Of the parameters of a binding, those sent as fields. -/
theorem mem_queryFields {b : HTTPBinding} {f : HField} :
    f ∈ (bindingFields b).filter (fun f => f.location = "query".toList) ↔
      ∃ p ∈ b.params, p.location = "query".toList ∧ p.field.type.oneof = [] ∧ p.field.type.name ≠ [] ∧ f = newField p := by
  simp only [bindingFields, List.mem_filter, List.mem_map, Bool.and_eq_true, List.isEmpty_iff, decide_eq_true_eq]
  constructor
  · rintro ⟨⟨p, ⟨hp, h1, h2⟩, rfl⟩, h3⟩
    exact ⟨p, hp, h3, h1, h2, rfl⟩
  · rintro ⟨p, hp, h3, h1, h2, rfl⟩
    exact ⟨⟨p, ⟨hp, h1, h2⟩, rfl⟩, h3⟩

theorem mem_queryOneofs {b : HTTPBinding} {o : HOneof} :
    o ∈ (bindingOneofs b).filter (fun o => o.location = "query".toList) ↔
      ∃ p ∈ b.params, p.location = "query".toList ∧ p.field.type.oneof ≠ [] ∧
        o = ⟨p.field.name, p.location, p.field.type.oneof.map newOption⟩ := by
  simp only [bindingOneofs, List.mem_filter, List.mem_map, Bool.not_eq_true', decide_eq_true_eq]
  constructor
  · rintro ⟨⟨p, ⟨hp, h1⟩, rfl⟩, h3⟩
    exact ⟨p, hp, h3, by intro e; simp [e] at h1, rfl⟩
  · rintro ⟨p, hp, h3, h1, rfl⟩
    exact ⟨⟨p, ⟨hp, by simpa using h1⟩, rfl⟩, h3⟩

theorem fields_nodup : ∀ {ps : List HTTPParameter}, (wireNames ps).Nodup →
    ((ps.filter fun p => p.field.type.oneof.isEmpty && p.field.type.name ≠ []).map fun p => p.field.pbName).Nodup := by
  intro ps
  induction ps with
  | nil => intro _; exact List.nodup_nil
  | cons p ps ih =>
    intro h
    rw [wireNames, List.flatMap_cons, List.nodup_append] at h
    rw [List.filter_cons]
    split
    · rename_i hp
      simp only [Bool.and_eq_true, List.isEmpty_iff] at hp
      rw [List.map_cons, List.nodup_cons]
      refine ⟨?_, ih h.2.1⟩
      intro hm
      obtain ⟨p', hp', e⟩ := List.mem_map.1 hm
      obtain ⟨hp'', hc⟩ := List.mem_filter.1 hp'
      simp only [Bool.and_eq_true, List.isEmpty_iff] at hc
      refine h.2.2 p.field.pbName (by simp [paramNames, hp.1]) p'.field.pbName
        (List.mem_flatMap.2 ⟨p', hp'', by simp [paramNames, hc.1]⟩) e.symm
    · exact ih h.2.1

theorem oneofs_nodup {b : HTTPBinding} (h : (wireNames b.params).Nodup) :
    (((bindingOneofs b).filter fun o => o.location = "query".toList).flatMap
      fun o => o.options.map (·.queryParamName)).Nodup := by
  have : ((bindingOneofs b).flatMap fun o => o.options.map (·.queryParamName)).Sublist (wireNames b.params) := by
    unfold bindingOneofs wireNames
    rw [List.flatMap_map]
    generalize b.params = ps
    induction ps with
    | nil => exact .slnil
    | cons p ps ih =>
      rw [List.filter_cons, List.flatMap_cons]
      split
      · rename_i hp
        have hp' : p.field.type.oneof ≠ [] := by intro e; simp [e] at hp
        rw [List.flatMap_cons]
        have e : (p.field.type.oneof.map newOption).map (·.queryParamName) = paramNames p := by
          rw [paramNames, if_neg hp', List.map_map]; rfl
        rw [e]
        exact (List.Sublist.refl _).append ih
      · exact ih.trans (List.sublist_append_right _ _)
  exact ((flatMap_sublist _ List.filter_sublist).trans this).nodup h


/-- **C76**, the client. Let the names of the request's parameters on the wire be distinct. Then after the texts the
instance's own query has for a name, the query of a call has: for a field carried in the query exactly the texts of its
value; for an option of a oneof carried in the query the text of its value, if the option is set and not zero, and
otherwise nothing; and for any other name nothing. -/
theorem C76_client_query (fl : Floats F) (fzero : F → Bool) (q0 : List (Str × List Str)) (b : HTTPBinding) (m : FullMsg F)
    (hnd : (wireNames b.params).Nodup) :
    let q := encodeFrom fl fzero q0 (bindingFields b) (bindingOneofs b) m
    (∀ p ∈ b.params, Queried p → ∀ sh, TypeShape p.field.type sh → Holds fl sh (m.fields (Strs.goCamelCase p.field.name)) →
      ∃ ts, FieldTexts fl sh (m.fields (Strs.goCamelCase p.field.name)) ts ∧
        textsOf q p.field.pbName = textsOf q0 p.field.pbName ++ ts) ∧
    (∀ p ∈ b.params, Queried p → ∀ o ∈ p.field.type.oneof, ∀ B, o.typeName = (baseName B).toList →
      (∀ x, m.oneofs (Strs.goCamelCase p.field.name) = some (o.name, x) → FitsBase fl B x → ¬ Zero fzero x →
        ∃ t, Written fl B x t ∧ textsOf q o.pbName = textsOf q0 o.pbName ++ [t]) ∧
      ((∀ x, m.oneofs (Strs.goCamelCase p.field.name) = some (o.name, x) → Zero fzero x) →
        look q o.pbName = look q0 o.pbName)) ∧
    (∀ k, (∀ p ∈ b.params, Queried p → k ∉ paramNames p) → look q k = look q0 k) := by
  intro q
  have hdisj : ∀ p ∈ b.params, ∀ p' ∈ b.params, ∀ k, k ∈ paramNames p → k ∈ paramNames p' → p = p' := by
    intro p hp p' hp' k hk hk'
    obtain ⟨l1, l2, e⟩ := List.append_of_mem hp
    rw [wireNames, e, List.flatMap_append, List.flatMap_cons, List.nodup_append, List.nodup_append] at hnd
    obtain ⟨h1, ⟨h2, h3, h4⟩, h5⟩ := hnd
    rw [e, List.mem_append, List.mem_cons] at hp'
    rcases hp' with h | h | h
    · exact absurd rfl (h5 k (List.mem_flatMap.2 ⟨p', h, hk'⟩) k (List.mem_append.2 (.inl hk)))
    · exact h.symm
    · exact absurd rfl (h4 k hk k (List.mem_flatMap.2 ⟨p', h, hk'⟩))
  have hfn : (((bindingFields b).filter fun f => f.location = "query".toList).map (·.queryParamName)).Nodup := by
    refine (List.filter_sublist.map _).nodup ?_
    have := fields_nodup hnd
    unfold bindingFields
    rw [List.map_map]
    exact this
  have hfield : ∀ p ∈ b.params, p.location = "query".toList → p.field.type.oneof = [] → p.field.type.name ≠ [] →
      textsOf q p.field.pbName = textsOf q0 p.field.pbName ++ texts fl (newField p) (m.fields (Strs.goCamelCase p.field.name)) := by
    intro p hp hl ho hn
    have h1 := textsOf_encode fl m.fields (newField p) _ q0 hfn (mem_queryFields.2 ⟨p, hp, hl, ho, hn, rfl⟩)
    rw [show q = _ from encodeFrom_eq ..]
    rw [textsOf, look_addOneofs_other]
    · exact h1
    · intro o ho' x hx e
      obtain ⟨p', hp', hl', ho'', rfl⟩ := mem_queryOneofs.1 ho'
      obtain ⟨y, hy, rfl⟩ := List.mem_map.1 hx
      have := hdisj p hp p' hp' p.field.pbName (by simp [paramNames, ho])
        (by rw [paramNames, if_neg ho'']; exact List.mem_map.2 ⟨y, hy, e⟩)
      subst this
      exact ho'' ho
  refine ⟨?_, ?_, ?_⟩
  · intro p hp hq sh hs hh
    have ho := hs.no_oneof
    have hn : p.field.type.name ≠ [] := by
      rcases hq.2 with h | h
      · exact absurd ho h
      · exact h
    exact ⟨_, texts_fieldTexts fl _ sh hs.hasShape _ hh, hfield p hp hq.1 ho hn⟩
  · intro p hp hq o ho B hB
    have hone : p.field.type.oneof ≠ [] := by intro e; rw [e] at ho; cases ho
    have hb : baseOf o.typeName = some B := baseOf_iff.2 hB
    have hmem : o.pbName ∈ paramNames p := by
      rw [paramNames, if_neg hone]; exact List.mem_map_of_mem ho
    have h1 := look_oneofs_self fl fzero m.oneofs ⟨p.field.name, p.location, p.field.type.oneof.map newOption⟩ (newOption o)
      (List.mem_map_of_mem ho) _
      (((bindingFields b).filter fun f => f.location = "query".toList).foldl
        (fun q f => encodeField fl f (m.fields f.camelName) q) q0)
      (oneofs_nodup hnd) (mem_queryOneofs.2 ⟨p, hp, hq.1, hone, rfl⟩)
    rw [← encodeFrom_eq] at h1
    have h2 : look (((bindingFields b).filter fun f => f.location = "query".toList).foldl
        (fun q f => encodeField fl f (m.fields f.camelName) q) q0) o.pbName = look q0 o.pbName := by
      apply look_encode_other
      intro f hf e
      obtain ⟨p', hp', hl', ho', hn', rfl⟩ := mem_queryFields.1 hf
      have := hdisj p hp p' hp' o.pbName hmem (by rw [paramNames, if_pos ho']; exact List.mem_singleton.2 e.symm)
      subst this
      exact hone ho'
    have hbo : baseOf (newOption o).goType = some B := hb
    have hpb : (newOption o).queryParamName = o.pbName := rfl
    have hnm : (newOption o).name = o.name := rfl
    rw [hpb, textsOf, h2] at h1
    constructor
    · intro x hx hf hz
      refine ⟨_, sprint_written fl B x hf, ?_⟩
      have : optionTexts fl fzero (m.oneofs (Strs.goCamelCase p.field.name)) (newOption o) = [sprint fl B x] := by
        unfold optionTexts
        rw [hx]
        simp only [hbo, hnm, (isZero_iff fzero x).2 hz, and_self, if_true, Option.getD_some]
      rw [this, if_neg (by simp)] at h1
      rw [textsOf, h1]
      rfl
    · intro hz
      have : optionTexts fl fzero (m.oneofs (Strs.goCamelCase p.field.name)) (newOption o) = [] := by
        unfold optionTexts
        split
        · rfl
        · rename_i n x hx
          rw [if_neg]
          rintro ⟨rfl, h⟩
          exact (isZero_iff fzero x).1 h (hz x hx)
      rw [this, if_pos rfl] at h1
      exact h1
  · intro k hk
    rw [show q = _ from encodeFrom_eq ..]
    rw [look_addOneofs_other, look_encode_other]
    · intro f hf e
      obtain ⟨p', hp', hl', ho', hn', rfl⟩ := mem_queryFields.1 hf
      exact hk p' hp' ⟨hl', .inr hn'⟩ (by rw [paramNames, if_pos ho']; exact List.mem_singleton.2 e.symm)
    · intro o ho x hx e
      obtain ⟨p', hp', hl', ho', rfl⟩ := mem_queryOneofs.1 ho
      obtain ⟨y, hy, rfl⟩ := List.mem_map.1 hx
      exact hk p' hp' ⟨hl', .inl ho'⟩ (by rw [paramNames, if_neg ho']; exact List.mem_map.2 ⟨y, hy, e⟩)

/-- **C76**, the server. When the decoder accepts a request, each path parameter's field holds what the path variable with
the field's proto name is read as, each field in the query with texts what these are read as, and each oneof in the query
with a text for one of its options that option, with the value its first text denotes. -/
theorem C76_server (fl : Floats F) (jok : JSONOk) (zero : FullMsg F) (b : HTTPBinding) (r : FullRequest F) (m : FullMsg F)
    (hloc : ∀ p ∈ b.params, p.location = "path".toList ∨ p.location = "query".toList ∨ p.location = "body".toList)
    (hcamel : (b.params.map fun p => Strs.goCamelCase p.field.name).Nodup)
    (hopt : ∀ p ∈ b.params, (p.field.type.oneof.map (·.pbName)).Nodup)
    (hshape : ∀ p ∈ b.params, p.location ≠ "body".toList → p.field.type.oneof = [] → p.field.type.name ≠ [] →
      ∃ sh, TypeShape p.field.type sh)
    (hwf : ∀ k, look r.query k ≠ some [])
    (h : decodeFull fl jok zero (bindingFields b) (bindingOneofs b) r = .ok m) :
    (∀ p ∈ b.params, p.location = "path".toList → p.field.type.name ≠ [] → ∀ sh, TypeShape p.field.type sh →
      Stores fl jok sh [(look r.vars p.field.pbName).getD []] (m.fields (Strs.goCamelCase p.field.name))) ∧
    (∀ p ∈ b.params, Queried p → ∀ sh, TypeShape p.field.type sh → ∀ ts, look r.query p.field.pbName = some ts →
      Stores fl jok sh ts (m.fields (Strs.goCamelCase p.field.name))) ∧
    (∀ p ∈ b.params, Queried p → ∀ o ∈ p.field.type.oneof, ∀ t ts, look r.query o.pbName = some (t :: ts) →
      ∃ B x, o.typeName = (baseName B).toList ∧ Denotes fl B t x ∧
        m.oneofs (Strs.goCamelCase p.field.name) = some (o.name, x)) := by
  have hfmem : ∀ p ∈ b.params, p.field.type.oneof = [] → p.field.type.name ≠ [] → newField p ∈ bindingFields b := by
    intro p hp h1 h2
    exact List.mem_map.2 ⟨p, List.mem_filter.2 ⟨hp, by simp [h1, h2]⟩, rfl⟩
  have hfinv : ∀ f ∈ bindingFields b, ∃ p ∈ b.params, p.field.type.oneof = [] ∧ p.field.type.name ≠ [] ∧ f = newField p := by
    intro f hf
    obtain ⟨p, hp, rfl⟩ := List.mem_map.1 hf
    obtain ⟨hp, hc⟩ := List.mem_filter.1 hp
    simp only [Bool.and_eq_true, List.isEmpty_iff, decide_eq_true_eq] at hc
    exact ⟨p, hp, hc.1, hc.2, rfl⟩
  have hond : ((bindingOneofs b).map fun o => Strs.goCamelCase o.name).Nodup := by
    unfold bindingOneofs
    rw [List.map_map]
    exact (List.filter_sublist.map _).nodup hcamel
  obtain ⟨hf, ho, -⟩ := (C65_decode fl jok zero (bindingFields b) (bindingOneofs b) r hond (by
    intro o ho
    obtain ⟨p, hp, rfl⟩ := List.mem_map.1 ho
    rw [List.map_map]
    exact hopt p (List.mem_filter.1 hp).1) hwf m).1 h
  obtain ⟨-, hst, -, -⟩ := (C26_decode_iff fl jok zero.fields (bindingFields b) r.plain (by
      intro f hf
      obtain ⟨p, hp, -, -, rfl⟩ := hfinv f hf
      exact hloc p hp) (by
      unfold bindingFields
      rw [List.map_map]
      exact (List.filter_sublist.map _).nodup hcamel) (by
      intro f hf hb
      obtain ⟨p, hp, h1, h2, rfl⟩ := hfinv f hf
      obtain ⟨sh, hs⟩ := hshape p hp hb h1 h2
      exact ⟨sh, hs.hasShape⟩) hwf m.fields).1 hf
  refine ⟨?_, ?_, ?_⟩
  · intro p hp hl hn sh hs
    refine hst (newField p) (hfmem p hp hs.no_oneof hn) _ ?_ sh hs.hasShape
    rw [carried, if_pos (show (newField p).location = _ from hl)]
    rfl
  · intro p hp hq sh hs ts hts
    have hn : p.field.type.name ≠ [] := by
      rcases hq.2 with h | h
      · exact absurd hs.no_oneof h
      · exact h
    refine hst (newField p) (hfmem p hp hs.no_oneof hn) _ ?_ sh hs.hasShape
    have hl : (newField p).location = "query".toList := hq.1
    rw [carried, if_neg (by rw [hl]; decide +kernel), if_pos hl]
    exact hts
  · intro p hp hq o hop t ts hts
    have hone : p.field.type.oneof ≠ [] := by intro e; rw [e] at hop; cases hop
    obtain ⟨-, h2, -⟩ := ho ⟨p.field.name, p.location, p.field.type.oneof.map newOption⟩
      (List.mem_map.2 ⟨p, List.mem_filter.2 ⟨hp, by simpa using hone⟩, rfl⟩) hq.1
    obtain ⟨B, x, hB, hx, hm⟩ := h2 (newOption o) (List.mem_map_of_mem hop) t ts hts
    exact ⟨B, x, baseOf_iff.1 hB, (C26_texts fl B t x).1 hx, hm⟩

theorem look_first {q0 q : List (Str × List Str)} {k t : Str} {ts ts' : List Str}
    (h : look q0 k = some (t :: ts)) (h' : textsOf q k = textsOf q0 k ++ ts') : look q k = some (t :: (ts ++ ts')) := by
  unfold textsOf at h'
  rw [h] at h'
  cases hq : look q k with
  | none => rw [hq] at h'; simp at h'
  | some l => rw [hq] at h'; simpa using h'

theorem encodeFrom_wf (fl : Floats F) (fzero : F → Bool) (q0 : List (Str × List Str)) (fs : List HField) (os : List HOneof)
    (m : FullMsg F) (h0 : ∀ k, look q0 k ≠ some []) : ∀ k, look (encodeFrom fl fzero q0 fs os m) k ≠ some [] := by
  unfold encodeFrom
  have hopts : ∀ (v : OVal F) (l : List HOption) (q : List (Str × List Str)), (∀ k, look q k ≠ some []) →
      ∀ k, look (l.foldl (encodeOption fl fzero v) q) k ≠ some [] := by
    intro v l
    induction l with
    | nil => intro q h; exact h
    | cons p l ih =>
      intro q h
      refine ih _ ?_
      unfold encodeOption
      split
      · exact h
      · split
        · exact addValue_wf q _ _ h
        · exact h
  have h1 : ∀ (l : List HOneof) (q : List (Str × List Str)), (∀ k, look q k ≠ some []) →
      ∀ k, look (l.foldl (fun q o => o.options.foldl (encodeOption fl fzero (m.oneofs (Strs.goCamelCase o.name))) q) q) k
        ≠ some [] := by
    intro l
    induction l with
    | nil => intro q h; exact h
    | cons o l ih => intro q h; exact ih _ (hopts _ _ q h)
  have h2 : ∀ (l : List HField) (q : List (Str × List Str)), (∀ k, look q k ≠ some []) →
      ∀ k, look (l.foldl (fun q f => encodeField fl f (m.fields f.camelName) q) q) k ≠ some [] := by
    intro l
    induction l with
    | nil => intro q h; exact h
    | cons f l ih => intro q h; exact ih _ (encodeField_wf fl f _ q h)
  exact h1 _ _ (h2 _ _ h0)

/-- **C76**, a query in the instance address: where it has a text for a field carried in the query, that text is what the
server reads as a single or optional field, in every call and whatever the client's request says. -/
theorem C76_instance_query_wins (fl : Floats F) (fzero : F → Bool) (jok : JSONOk) (zero : FullMsg F) (b : HTTPBinding)
    (q0 : List (Str × List Str)) (vars : List (Str × Str)) (body : Option (Option (FullMsg F))) (m m' : FullMsg F)
    (hnd : (wireNames b.params).Nodup)
    (hloc : ∀ p ∈ b.params, p.location = "path".toList ∨ p.location = "query".toList ∨ p.location = "body".toList)
    (hcamel : (b.params.map fun p => Strs.goCamelCase p.field.name).Nodup)
    (hshape : ∀ p ∈ b.params, p.location ≠ "body".toList → p.field.type.oneof = [] → p.field.type.name ≠ [] →
      ∃ sh, TypeShape p.field.type sh)
    (hwf : ∀ k, look q0 k ≠ some [])
    (h : decodeFull fl jok zero (bindingFields b) (bindingOneofs b)
      ⟨vars, encodeFrom fl fzero q0 (bindingFields b) (bindingOneofs b) m, body⟩ = .ok m') :
    ∀ p ∈ b.params, Queried p → ∀ B, ∀ t ts, look q0 p.field.pbName = some (t :: ts) →
      (TypeShape p.field.type (.single B) → Holds fl (.single B) (m.fields (Strs.goCamelCase p.field.name)) →
        ∃ x, Denotes fl B t x ∧ m'.fields (Strs.goCamelCase p.field.name) = .one x) ∧
      (TypeShape p.field.type (.optional B) → Holds fl (.optional B) (m.fields (Strs.goCamelCase p.field.name)) →
        ∃ x, Denotes fl B t x ∧ m'.fields (Strs.goCamelCase p.field.name) = .opt (some x)) := by
  intro p hp hq B t ts ht
  have hopt : ∀ p ∈ b.params, (p.field.type.oneof.map (·.pbName)).Nodup := by
    intro p hp
    by_cases ho : p.field.type.oneof = []
    · rw [ho]; exact List.nodup_nil
    · have : (paramNames p).Sublist (wireNames b.params) := by
        obtain ⟨l1, l2, e⟩ := List.append_of_mem hp
        rw [wireNames, e, List.flatMap_append, List.flatMap_cons]
        exact (List.sublist_append_left _ _).trans (List.sublist_append_right _ _)
      have := this.nodup hnd
      rwa [paramNames, if_neg ho] at this
  obtain ⟨-, hs, -⟩ := C76_server fl jok zero b _ m' hloc hcamel hopt hshape
    (encodeFrom_wf fl fzero q0 _ _ m hwf) h
  obtain ⟨hc, -, -⟩ := C76_client_query fl fzero q0 b m hnd
  constructor
  · intro hsh hh
    obtain ⟨ts', -, he⟩ := hc p hp hq _ hsh hh
    obtain ⟨x, hx, e⟩ := hs p hp hq _ hsh _ (look_first ht he)
    exact ⟨x, (C26_texts fl B t x).1 hx, e⟩
  · intro hsh hh
    obtain ⟨ts', -, he⟩ := hc p hp hq _ hsh hh
    obtain ⟨x, hx, e⟩ := hs p hp hq _ hsh _ (look_first ht he)
    exact ⟨x, (C26_texts fl B t x).1 hx, e⟩


/-! ## What a client puts into the path -/

theorem sprintField_written (fl : Floats F) (addr : Str → Str) (p : HTTPParameter) (sh : Shape) (hs : TypeShape p.field.type sh)
    (hsh : sh ≠ .message ∧ sh ≠ .messages ∧ ∀ b, sh ≠ .repeated b) (v : FVal F) (h : Holds fl sh v) :
    PathWritten fl (addr (newField p).camelName) sh v (sprintField fl addr (newField p) v) := by
  have hh := hs.hasShape
  cases sh with
  | single b =>
    cases v <;> simp only [Holds] at h
    simp only [sprintField, hh.2.2.1, Option.getD_some]
    exact .single (sprint_written fl b _ h)
  | optional b =>
    cases v <;> simp only [Holds] at h
    rename_i o
    cases o with
    | none => exact .unset
    | some x => exact .set
  | repeated b => exact absurd rfl (hsh.2.2 b)
  | enum =>
    cases v <;> simp only [Holds] at h
    simp only [sprintField, hh.2.2.1, Option.getD_none]
    exact .enum (sprint_written fl .int32 _ h)
  | message => exact absurd rfl hsh.1
  | messages => exact absurd rfl hsh.2.1

/-- **C76**, the path. Where every variable of the path template is the name of a path parameter (a single value, an enum or
an optional value) and all texts are such as a path segment carries unchanged, the handler runs and finds for each variable
the text of the client's value: the value itself as written in the query, for an unset optional field the text `<nil>`,
and for a set one the address of the value, not the value. -/
theorem C76_path (fl : Floats F) (fzero : F → Bool) (addr : Str → Str) (verb : Str) (ps : List Piece) (b : HTTPBinding)
    (m : FullMsg F) (htmpl : TemplateOK ps) (hcamel : (b.params.map fun p => Strs.goCamelCase p.field.name).Nodup)
    (hlit : ∀ s, Piece.lit s ∈ ps → PathText s)
    (hvar : ∀ n, Piece.var n ∈ ps → ∃ p ∈ b.params, p.field.pbName = n ∧ p.field.type.name ≠ [] ∧
      Strs.goCamelCase n = Strs.goCamelCase p.field.name ∧
      ∃ sh, TypeShape p.field.type sh ∧ (sh ≠ .message ∧ sh ≠ .messages ∧ ∀ b, sh ≠ .repeated b) ∧
        Holds fl sh (m.fields (Strs.goCamelCase p.field.name)) ∧
        ∀ t, PathWritten fl (addr (Strs.goCamelCase p.field.name)) sh (m.fields (Strs.goCamelCase p.field.name)) t → PathText t) :
    ∃ r, transmitFull fl fzero addr verb (templateOf ps) (bindingFields b) (bindingOneofs b) m = some r ∧
      r.query = encodeFrom fl fzero [] (bindingFields b) (bindingOneofs b) m ∧
      ∀ p ∈ b.params, Piece.var p.field.pbName ∈ ps →
        Strs.goCamelCase p.field.pbName = Strs.goCamelCase p.field.name → ∀ sh, TypeShape p.field.type sh →
        ∃ t, PathWritten fl (addr (Strs.goCamelCase p.field.name)) sh (m.fields (Strs.goCamelCase p.field.name)) t ∧
          look r.vars p.field.pbName = some t := by
  have hfmem : ∀ p ∈ b.params, p.field.type.oneof = [] → p.field.type.name ≠ [] → newField p ∈ bindingFields b := by
    intro p hp h1 h2
    exact List.mem_map.2 ⟨p, List.mem_filter.2 ⟨hp, by simp [h1, h2]⟩, rfl⟩
  have hnd : ((bindingFields b).map (·.camelName)).Nodup := by
    unfold bindingFields
    rw [List.map_map]
    exact (List.filter_sublist.map _).nodup hcamel
  have henv : ∀ n, Piece.var n ∈ ps → ∃ p ∈ b.params, Strs.goCamelCase n = Strs.goCamelCase p.field.name ∧
      ∃ sh, TypeShape p.field.type sh ∧
      PathWritten fl (addr (Strs.goCamelCase p.field.name)) sh (m.fields (Strs.goCamelCase p.field.name))
        (pathEnv fl addr (bindingFields b) m.fields (Strs.goCamelCase n)) ∧
      PathText (pathEnv fl addr (bindingFields b) m.fields (Strs.goCamelCase n)) := by
    intro n hn
    obtain ⟨p, hp, rfl, hne, hc, sh, hs, hsh, hh, ht⟩ := hvar n hn
    have e : pathEnv fl addr (bindingFields b) m.fields (Strs.goCamelCase p.field.pbName) =
        sprintField fl addr (newField p) (m.fields (Strs.goCamelCase p.field.name)) := by
      rw [hc]
      exact pathEnv_field fl addr (bindingFields b) m.fields (newField p) (hfmem p hp hs.no_oneof hne) hnd
    have hw := sprintField_written fl addr p sh hs hsh _ hh
    rw [← e] at hw
    exact ⟨p, hp, hc, sh, hs, hw, ht _ hw⟩
  have hvals : ∀ p ∈ ps, PathText (p.value (pathEnv fl addr (bindingFields b) m.fields)) := by
    intro p hp
    cases p with
    | lit s => exact hlit s hp
    | var n =>
      obtain ⟨-, -, -, -, -, -, h⟩ := henv n hp
      exact h
  obtain ⟨path, vars, hurl, hmux, hlook⟩ := client_to_handler ps htmpl (pathEnv fl addr (bindingFields b) m.fields)
    (fun p hp => ⟨(hvals p hp).1, (hvals p hp).2.2⟩) (fun p hp => (hvals p (List.dropLast_subset _ hp)).2.1)
    (fun n hn => (hvals _ hn).2.1)
  refine ⟨_, by simp only [transmitFull, hurl, hmux]; rfl, rfl, ?_⟩
  intro p hp hmem hc sh hs
  obtain ⟨p', hp', hc', sh', hs', hw, -⟩ := henv _ hmem
  have hpp : p = p' := by
    rw [hc'] at hc
    obtain ⟨l1, l2, e⟩ := List.append_of_mem hp
    rw [e, List.map_append, List.map_cons, List.nodup_append, List.nodup_cons] at hcamel
    obtain ⟨-, ⟨h2, -⟩, h3⟩ := hcamel
    rw [e, List.mem_append, List.mem_cons] at hp'
    rcases hp' with h | h | h
    · exact absurd hc (h3 _ (List.mem_map_of_mem (f := fun p : HTTPParameter => Strs.goCamelCase p.field.name) h) _ (.head _))
    · exact h.symm
    · exact absurd (List.mem_map.2 ⟨p', h, hc⟩) h2
  subst hpp
  have : sh' = sh := shape_unique hs'.hasShape hs.hasShape
  subst this
  exact ⟨_, hw, by rw [hlook, if_pos hmem]⟩

/-- **C25**, an optional field in the path never makes the round trip unset: the server finds the text `<nil>`, refuses the
request unless the field is a string, and reads a string field as set to that text. -/
theorem C25_optional_in_path (fl : Floats F) (jok : JSONOk) (zero : FullMsg F) (b : HTTPBinding) (r : FullRequest F)
    (m : FullMsg F)
    (hloc : ∀ p ∈ b.params, p.location = "path".toList ∨ p.location = "query".toList ∨ p.location = "body".toList)
    (hcamel : (b.params.map fun p => Strs.goCamelCase p.field.name).Nodup)
    (hopt : ∀ p ∈ b.params, (p.field.type.oneof.map (·.pbName)).Nodup)
    (hshape : ∀ p ∈ b.params, p.location ≠ "body".toList → p.field.type.oneof = [] → p.field.type.name ≠ [] →
      ∃ sh, TypeShape p.field.type sh)
    (hwf : ∀ k, look r.query k ≠ some [])
    (hfloat : ∀ w, fl.parse w "<nil>".toList = none)
    (p : HTTPParameter) (hp : p ∈ b.params) (hpath : p.location = "path".toList) (B : Base)
    (hs : TypeShape p.field.type (.optional B)) (hv : look r.vars p.field.pbName = some "<nil>".toList)
    (h : decodeFull fl jok zero (bindingFields b) (bindingOneofs b) r = .ok m) :
    B = .string ∧ m.fields (Strs.goCamelCase p.field.name) = .opt (some (.str "<nil>".toList)) := by
  obtain ⟨hpth, -, -⟩ := C76_server fl jok zero b r m hloc hcamel hopt hshape hwf h
  have hn : p.field.type.name ≠ [] := by
    generalize p.field.type = t at hs
    cases hs
    cases B <;> decide
  have := hpth p hp hpath hn _ hs
  rw [hv] at this
  obtain ⟨x, hx, e⟩ := this
  have hnone : ∀ B : Base, B ≠ .string → parseBase fl B "<nil>".toList = none := by
    intro B hB
    have h1 : parseNat "<nil>".toList = none := by decide +kernel
    have h2 : ∀ bits, parseUint bits "<nil>".toList = none := by
      intro bits; unfold parseUint; rw [h1]
    have h3 : parseInt 32 "<nil>".toList = none ∧ parseInt 64 "<nil>".toList = none := by
      constructor <;> decide +kernel
    have h4 : parseBool "<nil>".toList = none := by decide +kernel
    cases B <;> simp only [parseBase, h2, h3, h4, hfloat, Option.map_none]
    exact absurd rfl hB
  by_cases hB : B = .string
  · subst hB
    refine ⟨rfl, ?_⟩
    rw [e]
    simp only [Option.getD_some, parseBase, Option.some.injEq] at hx
    rw [hx]
  · rw [Option.getD_some, hnone B hB] at hx
    cases hx


/-! ## A concrete case -/

section WireExample

/-- Which texts are read, and which are not. -/
example : Denotes noFloats .int64 "-042".toList (.num (-42)) ∧ Denotes noFloats .bool "True".toList (.bool true) ∧
    (∀ v, ¬ Denotes noFloats .uint32 "-1".toList v) ∧ (∀ v, ¬ Denotes noFloats .int32 "2147483648".toList v) ∧
    (∀ v, ¬ Denotes noFloats .bool "yes".toList v) := by
  refine ⟨(C26_texts ..).1 (by decide +kernel), (C26_texts ..).1 (by decide +kernel), ?_, ?_, ?_⟩ <;>
    intro v hv <;> have := (C26_texts ..).2 hv <;> revert this
  · have : parseBase noFloats .uint32 "-1".toList = none := by decide +kernel
    rw [this]; exact nofun
  · have : parseBase noFloats .int32 "2147483648".toList = none := by decide +kernel
    rw [this]; exact nofun
  · have : parseBase noFloats .bool "yes".toList = none := by decide +kernel
    rw [this]; exact nofun

/-- A list, and a text that is none. -/
example : JsonList noFloats .int32 "[1,-20]".toList [.num 1, .num (-20)] ∧
    JsonList noFloats .string "[\"a b\"]".toList [.str "a b".toList] ∧ (∀ l, ¬ JsonList noFloats .int32 "[01]".toList l) := by
  refine ⟨(C26_lists ..).1 (by decide +kernel), (C26_lists ..).1 (by decide +kernel), ?_⟩
  intro l hl
  have := (C26_lists ..).2 hl
  have hn : jsonArray noFloats .int32 "[01]".toList = none := by decide +kernel
  rw [hn] at this
  cases this

def wt (n : String) (star array : Bool) : FieldType := ⟨n.toList, none, [], none, none, star, array⟩
def wp (n pb : String) (t : FieldType) (loc : String) : HTTPParameter := ⟨⟨n.toList, pb.toList, t⟩, loc.toList⟩

/-- `GET /v1/{user_id}` with the query fields `page_size`, `limit` (optional), `tags` (repeated), `color` (an enum) and a
oneof. -/
def wb : HTTPBinding := ⟨"get".toList, "/v1/{user_id}".toList,
  [wp "UserId" "user_id" (wt "int64" false false) "path",
   wp "PageSize" "page_size" (wt "int32" false false) "query",
   wp "Limit" "limit" (wt "uint64" true false) "query",
   wp "Tags" "tags" (wt "string" false true) "query",
   wp "Color" "color" ⟨"Color".toList, some 0, [], none, none, false, false⟩ "query",
   wp "Key" "key" ⟨[], none, [⟨"Id".toList, "id".toList, "int64".toList, false, false, "Q_Id".toList⟩,
     ⟨"Flag".toList, "flag".toList, "bool".toList, false, false, "Q_Flag".toList⟩], none, none, false, false⟩ "query"]⟩

def wm : FullMsg Empty := ⟨fun n =>
    if n = "UserId".toList then .one (.num 7) else if n = "PageSize".toList then .one (.num (-3))
    else if n = "Limit".toList then .opt none else if n = "Tags".toList then .many [.str "x".toList, .str "y".toList]
    else .one (.num 2),
  fun n => if n = "Key".toList then some ("Flag".toList, .bool true) else none⟩

/-- The address `http://host?page_size=9`. -/
def wq : List (Str × List Str) := [("page_size".toList, ["9".toList])]

def wnz : Empty → Bool := nofun

/-- The hypotheses hold. -/
example : (wireNames wb.params).Nodup ∧ (wb.params.map fun p => Strs.goCamelCase p.field.name).Nodup ∧
    (∀ p ∈ wb.params, p.location = "path".toList ∨ p.location = "query".toList ∨ p.location = "body".toList) ∧
    (∀ p ∈ wb.params, p.field.type.oneof = [] → ∃ sh, TypeShape p.field.type sh ∧
      Holds noFloats sh (wm.fields (Strs.goCamelCase p.field.name))) ∧
    wb.params.map (fun p => decide (p.location = "query".toList ∧ (p.field.type.oneof ≠ [] ∨ p.field.type.name ≠ []))) =
      [false, true, true, true, true, true] ∧
    ¬ Zero wnz (.bool true) ∧ Zero wnz (.bool false) := by
  refine ⟨by decide +kernel, by decide +kernel, by decide +kernel, ?_, by decide +kernel, by simp [Zero], rfl⟩
  intro p hp ho
  simp only [wb, List.mem_cons, List.not_mem_nil, or_false] at hp
  rcases hp with rfl | rfl | rfl | rfl | rfl | rfl
  · refine ⟨_, .single .int64, ?_⟩
    rw [show wm.fields _ = .one (.num 7) by decide +kernel]
    exact ⟨by decide, by decide⟩
  · refine ⟨_, .single .int32, ?_⟩
    rw [show wm.fields _ = .one (.num (-3)) by decide +kernel]
    exact ⟨by decide, by decide⟩
  · refine ⟨_, .optional .uint64, ?_⟩
    rw [show wm.fields _ = .opt none by decide +kernel]
    exact nofun
  · refine ⟨_, .repeated .string, ?_⟩
    rw [show wm.fields _ = .many [.str "x".toList, .str "y".toList] by decide +kernel]
    intro v hv
    simp only [List.mem_cons, List.not_mem_nil, or_false] at hv
    rcases hv with rfl | rfl <;> trivial
  · refine ⟨_, .enum (by intro b; cases b <;> decide +kernel), ?_⟩
    rw [show wm.fields _ = .one (.num 2) by decide +kernel]
    exact ⟨by decide, by decide⟩
  · cases ho

/-- The query of the call: the address's text first. -/
example : encodeFrom noFloats wnz wq (bindingFields wb) (bindingOneofs wb) wm =
    [("page_size".toList, ["9".toList, "-3".toList]), ("tags".toList, ["x".toList, "y".toList]), ("color".toList, ["2".toList]),
     ("flag".toList, ["true".toList])] := by decide +kernel

/-- What the server reads: the page size of the address, everything else as sent. -/
example : (match decodeFull noFloats (fun _ => true) ⟨fun n => if n = "Limit".toList then .opt none else .one (.num 0), fun _ => none⟩
      (bindingFields wb) (bindingOneofs wb)
      ⟨[("user_id".toList, "7".toList)], encodeFrom noFloats wnz wq (bindingFields wb) (bindingOneofs wb) wm, none⟩ with
    | .ok m => some ((wb.params.map fun p => m.fields p.field.name), m.oneofs "Key".toList)
    | .error _ => none) =
    some ([.one (.num 7), .one (.num 9), .opt none, .many [.str "x".toList, .str "y".toList], .one (.num 2), .one (.num 0)],
      some ("Flag".toList, .bool true)) := by decide +kernel

/-- An unset optional field in the path: `<nil>`; a set one: its address. -/
example : (match transmitFull noFloats wnz (fun _ => "0xc000014080".toList) "get".toList "/v1/{limit}/{page_size}".toList
      (bindingFields wb) (bindingOneofs wb) wm with
    | some r => some r.vars
    | none => none) = some [("limit".toList, "<nil>".toList), ("page_size".toList, "-3".toList)] := by decide +kernel

/-- The hypotheses of `C76_path` hold for that template. -/
example : TemplateOK [.lit "v1".toList, .var "limit".toList, .var "page_size".toList] ∧
    templateOf [.lit "v1".toList, .var "limit".toList, .var "page_size".toList] = "/v1/{limit}/{page_size}".toList ∧
    PathText "v1".toList ∧ PathText "<nil>".toList ∧ PathText "-3".toList ∧
    Strs.goCamelCase "page_size".toList = Strs.goCamelCase "PageSize".toList := by
  refine ⟨⟨?_, ?_, by decide +kernel, by simp⟩, by decide +kernel, ?_, ?_, ?_, by decide +kernel⟩
  · intro s hs
    simp only [List.mem_cons, List.not_mem_nil, or_false, Piece.lit.injEq, reduceCtorEq] at hs
    subst hs
    rw [not_braced_iff]; decide +kernel
  · intro n hn
    simp only [List.mem_cons, List.not_mem_nil, or_false, Piece.var.injEq, reduceCtorEq, false_or] at hn
    rcases hn with rfl | rfl <;> rw [not_braced_iff] <;> decide +kernel
  all_goals unfold PathText UrlSafe; decide +kernel

end WireExample

end Baron.Wire
