import Verif.Spec.HTTPCode
import Verif.Proofs.HTTPLabels
import Verif.Proofs.HTTPPaths

namespace Baron.HTTPCode

open Baron.HTTP

variable {F : Type}

/-! ## Numbers -/

theorem digitChar_toNat {d : Nat} (h : d < 10) : (digitChar d).toNat = 48 + d := by
  rw [digitChar, Strs.ofNat_toNat_small _ (by omega)]

theorem digitChar_digit {d : Nat} (h : d < 10) : isAsciiDigit (digitChar d) = true := by
  rw [Strs.digit_iff, digitChar_toNat h]; omega

theorem itoa_digits (n : Nat) : ∀ c ∈ itoa n, isAsciiDigit c = true := by
  intro c hc
  obtain ⟨d, hd, rfl⟩ := List.mem_map.1 hc
  exact digitChar_digit (digitsRev_lt n d (by simpa using hd))

theorem itoa_ne_nil (n : Nat) : itoa n ≠ [] := by
  simp [itoa, digitsRev_ne]

theorem foldl_itoa : ∀ (ds : List Nat) (a : Nat), (∀ d ∈ ds, d < 10) →
    (ds.map digitChar).foldl (fun a c => 10 * a + (c.toNat - 48)) a = ds.foldl (fun a d => 10 * a + d) a := by
  intro ds
  induction ds with
  | nil => intros; rfl
  | cons d ds ih =>
    intro a h
    rw [List.map_cons, List.foldl_cons, List.foldl_cons, ih _ (fun x hx => h x (by simp [hx])),
      digitChar_toNat (h d (by simp))]
    congr 1
    omega

theorem parseNat_itoa (n : Nat) : parseNat (itoa n) = some n := by
  rw [parseNat, if_pos ⟨itoa_ne_nil n, by rw [List.all_eq_true]; exact itoa_digits n⟩]
  congr 1
  rw [itoa, foldl_itoa _ _ (fun d hd => digitsRev_lt n d (by simpa using hd))]
  exact ofDigits_digits n

theorem parseUint_itoaInt (bits : Nat) (i : Int) (h0 : 0 ≤ i) (h1 : i < 2 ^ bits) :
    parseUint bits (itoaInt i) = some i := by
  rw [itoaInt, if_neg (by omega), parseUint, parseNat_itoa]
  have : i.natAbs < 2 ^ bits := by
    have : ((i.natAbs : Nat) : Int) < ((2 ^ bits : Nat) : Int) := by
      rw [Int.natAbs_of_nonneg h0]; simpa using h1
    exact Int.ofNat_lt.1 this
  simp only [if_pos this]
  rw [Int.natAbs_of_nonneg h0]

theorem itoa_head (n : Nat) : ∃ c r, itoa n = c :: r ∧ isAsciiDigit c = true := by
  cases h : itoa n with
  | nil => exact absurd h (itoa_ne_nil n)
  | cons c r => exact ⟨c, r, rfl, itoa_digits n c (by rw [h]; simp)⟩

theorem parseInt_itoaInt (bits : Nat) (i : Int) (h0 : -(2 ^ (bits - 1)) ≤ i) (h1 : i < 2 ^ (bits - 1)) :
    parseInt bits (itoaInt i) = some i := by
  rw [itoaInt]
  split
  · rename_i hneg
    simp only [parseInt, parseNat_itoa]
    have : i.natAbs ≤ 2 ^ (bits - 1) := by
      have : ((i.natAbs : Nat) : Int) ≤ ((2 ^ (bits - 1) : Nat) : Int) := by
        rw [Int.natCast_pow]
        have : ((2 : Nat) : Int) = 2 := rfl
        rw [this]; omega
      exact Int.ofNat_le.1 this
    rw [if_pos this]
    congr 1
    omega
  · rename_i hneg
    obtain ⟨c, r, hc, hd⟩ := itoa_head i.natAbs
    have hm : c ≠ '-' := by rintro rfl; exact absurd hd (by decide)
    have hp : c ≠ '+' := by rintro rfl; exact absurd hd (by decide)
    have : i.natAbs < 2 ^ (bits - 1) := by
      have : ((i.natAbs : Nat) : Int) < ((2 ^ (bits - 1) : Nat) : Int) := by
        rw [Int.natAbs_of_nonneg (by omega), Int.natCast_pow]; simpa using h1
      exact Int.ofNat_lt.1 this
    have hgen : parseInt bits (itoa i.natAbs) = match parseNat (itoa i.natAbs) with
      | some n => if n < 2 ^ (bits - 1) then some (n : Int) else none
      | none => none := by
      rw [hc]
      unfold parseInt
      split
      · rename_i h; simp at h; exact absurd h.1 hm
      · rename_i h; simp at h; exact absurd h.1 hp
      · rfl
    rw [hgen, parseNat_itoa]
    simp only [if_pos this]
    rw [Int.natAbs_of_nonneg (by omega)]

theorem parse_sprint (fl : Floats F) (b : Base) (v : SVal F) (h : FitsBase fl b v) :
    parseBase fl b (sprint fl b v) = some v := by
  cases b <;> cases v <;> simp only [FitsBase] at h <;> simp only [parseBase, sprint]
  · rw [parseUint_itoaInt 32 _ h.1 h.2]; rfl
  · rw [parseUint_itoaInt 64 _ h.1 h.2]; rfl
  · rw [parseInt_itoaInt 32 _ h.1 h.2]; rfl
  · rw [parseInt_itoaInt 64 _ h.1 h.2]; rfl
  · rename_i x
    cases x
    · show Option.map SVal.bool (parseBool "false".toList) = _
      rw [show parseBool "false".toList = some false from by decide +kernel]; rfl
    · show Option.map SVal.bool (parseBool "true".toList) = _
      rw [show parseBool "true".toList = some true from by decide +kernel]; rfl
  · rename_i x
    have := fl.parse_fmt true x (fun _ => h)
    simp [this]
  · rename_i x
    have := fl.parse_fmt false x (fun h => by simp at h)
    simp [this]

/-! ## Query values -/

theorem look_append_new {V : Type} (q : List (Str × V)) (k k' : Str) (v : V) (h : look q k = none) :
    look (q ++ [(k, v)]) k' = if k' = k then some v else look q k' := by
  induction q with
  | nil => rw [List.nil_append, look_cons]; simp [look, eq_comm]
  | cons a q ih =>
    obtain ⟨ka, va⟩ := a
    rw [look_cons] at h
    split at h
    · cases h
    · rename_i hk
      rw [List.cons_append, look_cons, ih h, look_cons]
      by_cases h1 : ka = k'
      · subst h1; simp [hk]
      · simp [h1]

theorem look_map_update (q : List (Str × List Str)) (k k' v : Str) :
    look (q.map fun x => if x.1 = k then (x.1, x.2 ++ [v]) else x) k' =
      if k' = k then (look q k).map (· ++ [v]) else look q k' := by
  induction q with
  | nil => simp [look]
  | cons a q ih =>
    obtain ⟨ka, va⟩ := a
    rw [List.map_cons]
    by_cases h1 : ka = k
    · subst h1
      simp only [if_true, look_cons, ih]
      by_cases h2 : ka = k'
      · subst h2; simp
      · simp [h2, Ne.symm h2]
    · simp only [if_neg h1, look_cons, ih]
      by_cases h2 : ka = k'
      · subst h2; simp [h1]
      · by_cases h3 : k' = k
        · subst h3; simp [h2]
        · simp [h2, h3]

theorem look_addValue (q : List (Str × List Str)) (k v k' : Str) :
    look (addValue q k v) k' = if k' = k then some ((look q k).getD [] ++ [v]) else look q k' := by
  rw [addValue]
  cases h : look q k with
  | none => rw [look_append_new q k k' [v] h]; simp
  | some l => rw [look_map_update]; simp [h]

theorem look_addValues (k : Str) : ∀ (ts : List Str) (q : List (Str × List Str)) (k' : Str),
    look (ts.foldl (fun q t => addValue q k t) q) k' =
      if k' = k ∧ ts ≠ [] then some ((look q k).getD [] ++ ts) else look q k' := by
  intro ts
  induction ts with
  | nil => intro q k'; simp
  | cons t ts ih =>
    intro q k'
    rw [List.foldl_cons, ih, look_addValue, look_addValue]
    by_cases h : k' = k
    · subst h
      by_cases ht : ts = []
      · subst ht; simp
      · simp [ht]
    · simp [h]

/-- The texts a field adds to the query. -/
def texts (fl : Floats F) (f : HField) (v : FVal F) : List Str :=
  let b := (baseOf f.goType).getD .int32
  if f.repeated && f.isBase then
    match v with
    | .many l => l.map (sprint fl b)
    | _ => []
  else if !f.isBase || f.repeated then
    match v with
    | .one x => [sprint fl b x]
    | .other j => [j]
    | _ => []
  else if f.star then
    match v with
    | .opt (some x) => [sprint fl b x]
    | _ => []
  else
    match v with
    | .one x => [sprint fl b x]
    | _ => []

theorem encodeField_eq (fl : Floats F) (f : HField) (v : FVal F) (q : List (Str × List Str)) :
    encodeField fl f v q = (texts fl f v).foldl (fun q t => addValue q f.queryParamName t) q := by
  simp only [encodeField, texts]
  split
  · cases v <;> simp [List.foldl_map]
  · split
    · cases v <;> simp
    · split
      · cases v with
        | opt o => cases o <;> simp
        | _ => simp
      · cases v <;> simp

theorem look_encode_other (fl : Floats F) (m : Msg F) (k : Str) : ∀ (fs : List HField) (q : List (Str × List Str)),
    (∀ f ∈ fs, f.queryParamName ≠ k) →
    look (fs.foldl (fun q f => encodeField fl f (m f.camelName) q) q) k = look q k := by
  intro fs
  induction fs with
  | nil => intros; rfl
  | cons f fs ih =>
    intro q h
    rw [List.foldl_cons, ih _ (fun x hx => h x (by simp [hx])), encodeField_eq, look_addValues,
      if_neg (by intro hc; exact h f (by simp) hc.1.symm)]

theorem look_encode (fl : Floats F) (m : Msg F) (f : HField) : ∀ (fs : List HField) (q : List (Str × List Str)),
    (fs.map (·.queryParamName)).Nodup → f ∈ fs → look q f.queryParamName = none →
    look (fs.foldl (fun q f => encodeField fl f (m f.camelName) q) q) f.queryParamName =
      if texts fl f (m f.camelName) = [] then none else some (texts fl f (m f.camelName)) := by
  intro fs
  induction fs with
  | nil => intro q _ h; simp at h
  | cons g fs ih =>
    intro q hnd hf hq
    rw [List.map_cons, List.nodup_cons] at hnd
    rw [List.foldl_cons]
    rcases List.mem_cons.1 hf with he | hf'
    · subst he
      rw [look_encode_other]
      · rw [encodeField_eq, look_addValues, hq]
        by_cases ht : texts fl f (m f.camelName) = []
        · simp [ht, hq]
        · simp [ht]
      · intro g hg he
        exact hnd.1 (List.mem_map.2 ⟨g, hg, he⟩)
    · apply ih _ hnd.2 hf'
      rw [encodeField_eq, look_addValues, if_neg, hq]
      rintro ⟨he, -⟩
      exact hnd.1 (List.mem_map.2 ⟨f, hf', he⟩)

/-! ## JSON fallback for one-element lists -/

theorem split_comma_none {s : Str} (h : ',' ∉ s) : split ',' s = [s] := split_none ',' s h

theorem jsonArray_single (fl : Floats F) (b : Base) (s : Str) (v : SVal F) (hne : s ≠ [])
    (hbr : s.head? ≠ some '[') (hnull : s ≠ "null".toList) (hc : ',' ∉ s) (hv : jsonScalar fl b s = some v) :
    jsonArray fl b s = none ∧ jsonArray fl b ('[' :: s ++ [']']) = some [v] := by
  constructor
  · unfold jsonArray
    rw [if_neg hnull]
    cases s with
    | nil => exact absurd rfl hne
    | cons c r =>
      have : c ≠ '[' := by rintro rfl; simp at hbr
      split
      · rename_i r' heq; simp at heq; exact absurd heq.1 this
      · rfl
  · have h1 : ('[' :: s ++ [']']) ≠ "null".toList := by
      intro h
      have := congrArg List.head? h
      simp at this
    unfold jsonArray
    rw [if_neg h1]
    simp only [List.cons_append]
    have h2 : s ++ [']'] ≠ [']'] := by
      intro h
      exact hne (by simpa using h)
    rw [if_neg h2, if_pos (by simp)]
    rw [List.dropLast_concat, split_comma_none hc, List.map_cons, List.map_nil, hv]
    rfl

theorem itoa_noLeadingZero (n : Nat) : noLeadingZero (itoa n) = true ∧ noLeadingZero ('-' :: itoa n) = true := by
  have key : ∀ r, itoa n = '0' :: r → r = [] := by
    intro r h
    rw [itoa] at h
    cases hr : (digitsRev n).reverse with
    | nil => simp at hr; exact absurd hr (digitsRev_ne n)
    | cons d ds =>
      rw [hr, List.map_cons] at h
      simp only [List.cons.injEq] at h
      have hd : d < 10 := digitsRev_lt n d (by
        have : d ∈ (digitsRev n).reverse := by rw [hr]; simp
        simpa using this)
      have h0 : d = 0 := by
        have := congrArg Char.toNat h.1
        rw [digitChar_toNat hd] at this
        have h2 : ('0' : Char).toNat = 48 := rfl
        omega
      have hl : (digitsRev n).getLast? = some 0 := by
        rw [← List.head?_reverse, hr, h0]; rfl
      have := digitsRev_last n hl
      rw [this] at hr
      simp at hr
      rw [← h.2, hr.2]; rfl
  obtain ⟨c, r, hc, hd⟩ := itoa_head n
  have hm : c ≠ '-' := by rintro rfl; exact absurd hd (by decide)
  rw [hc]
  constructor
  · unfold noLeadingZero
    split
    · rename_i heq; simp at heq; exact absurd heq.1 hm
    · rename_i a b heq
      simp at heq
      have := key _ (by rw [hc, heq.1])
      rw [heq.2] at this; simp at this
    · rfl
  · unfold noLeadingZero
    split
    · rename_i a b heq
      simp at heq
      have := key _ (by rw [hc, heq.1])
      rw [heq.2] at this; simp at this
    · rename_i heq; simp at heq
    · rfl

theorem itoaInt_json (i : Int) : (itoaInt i).head? ≠ some '+' ∧ noLeadingZero (itoaInt i) = true ∧
    (itoaInt i).all jsonNumChar = true ∧ itoaInt i ≠ [] := by
  have hd : (itoa i.natAbs).all jsonNumChar = true := by
    rw [List.all_eq_true]
    intro c hc
    simp [jsonNumChar, itoa_digits _ c hc]
  obtain ⟨c, r, hc, hcd⟩ := itoa_head i.natAbs
  have hp : c ≠ '+' := by rintro rfl; exact absurd hcd (by decide)
  rw [itoaInt]
  split
  · refine ⟨by simp, (itoa_noLeadingZero _).2, ?_, by simp⟩
    rw [List.all_cons, hd]; rfl
  · refine ⟨?_, (itoa_noLeadingZero _).1, hd, itoa_ne_nil _⟩
    rw [hc]; simpa using hp

theorem json_plain {s : Str} (h : s.all jsonNumChar = true) (hne : s ≠ []) :
    s.head? ≠ some '[' ∧ s ≠ "null".toList ∧ ',' ∉ s := by
  rw [List.all_eq_true] at h
  refine ⟨?_, ?_, ?_⟩
  · intro hh
    cases s with
    | nil => exact hne rfl
    | cons c r =>
      simp at hh; subst hh
      exact absurd (h '[' (by simp)) (by decide)
  · intro hh
    exact absurd (h 'n' (by rw [hh]; decide)) (by decide)
  · intro hh
    exact absurd (h ',' hh) (by decide)

theorem jsonScalar_num (fl : Floats F) (b : Base) (hb : b ≠ .bool ∧ b ≠ .string) (s : Str)
    (h : s.head? ≠ some '+' ∧ noLeadingZero s = true ∧ s.all jsonNumChar = true) :
    jsonScalar fl b s = parseBase fl b s := by
  cases b <;> simp only [jsonScalar] <;> first
    | exact absurd rfl hb.1
    | exact absurd rfl hb.2
    | rw [if_pos ⟨h.1, h.2.1, h.2.2⟩]

theorem json_one (fl : Floats F) (b : Base) (v : SVal F) (h : FitsBase fl b v)
    (jok : JSONOk) (hq : QueryOK fl jok (.repeated b) (.many [v])) :
    jsonArray fl b (sprint fl b v) = none ∧ jsonArray fl b ('[' :: sprint fl b v ++ [']']) = some [v] := by
  have num : ∀ i, b ≠ .bool ∧ b ≠ .string → v = .num i → FitsBase fl b v →
      jsonArray fl b (sprint fl b v) = none ∧ jsonArray fl b ('[' :: sprint fl b v ++ [']']) = some [v] := by
    intro i hb hv hf
    have hj := itoaInt_json i
    have hpl := json_plain hj.2.2.1 hj.2.2.2
    have hs : sprint fl b v = itoaInt i := by rw [hv]; rfl
    rw [hs]
    apply jsonArray_single fl b _ v hj.2.2.2 hpl.1 hpl.2.1 hpl.2.2
    rw [jsonScalar_num fl b hb _ ⟨hj.1, hj.2.1, hj.2.2.1⟩, ← hs]
    exact parse_sprint fl b v hf
  cases b with
  | uint32 | uint64 | int32 | int64 =>
    cases v with
    | num i => exact num i (by simp) rfl h
    | _ => simp [FitsBase] at h
  | bool =>
    cases v with
    | bool x =>
      cases x
      · exact jsonArray_single fl .bool "false".toList _ (by decide +kernel) (by decide +kernel) (by decide +kernel)
          (by decide +kernel) (by
            show (if "false".toList = "true".toList then some (SVal.bool true) else
              if "false".toList = "false".toList then some (SVal.bool false) else none) = _
            rw [if_neg (by decide +kernel), if_pos rfl])
      · exact jsonArray_single fl .bool "true".toList _ (by decide +kernel) (by decide +kernel) (by decide +kernel)
          (by decide +kernel) (by
            show (if "true".toList = "true".toList then some (SVal.bool true) else
              if "true".toList = "false".toList then some (SVal.bool false) else none) = _
            rw [if_pos rfl])
    | _ => simp [FitsBase] at h
  | float32 =>
    cases v with
    | flt x =>
      have hj := hq x rfl
      have hs : sprint fl .float32 (.flt x) = fl.fmt true x := by simp [sprint]
      have hpl := json_plain hj.2.2.1 hj.2.2.2
      rw [hs]
      apply jsonArray_single fl .float32 _ _ hj.2.2.2 hpl.1 hpl.2.1 hpl.2.2
      rw [jsonScalar_num fl .float32 (by simp) _ ⟨hj.1, hj.2.1, hj.2.2.1⟩, ← hs]
      exact parse_sprint fl _ _ h
    | _ => simp [FitsBase] at h
  | float64 =>
    cases v with
    | flt x =>
      have hj := hq x rfl
      have hs : sprint fl .float64 (.flt x) = fl.fmt false x := by simp [sprint]
      have hpl := json_plain hj.2.2.1 hj.2.2.2
      rw [hs]
      apply jsonArray_single fl .float64 _ _ hj.2.2.2 hpl.1 hpl.2.1 hpl.2.2
      rw [jsonScalar_num fl .float64 (by simp) _ ⟨hj.1, hj.2.1, hj.2.2.1⟩, ← hs]
      exact parse_sprint fl _ _ h
    | _ => simp [FitsBase] at h
  | string => simp [QueryOK] at hq

theorem allSome_map {α : Type} (f : α → Str) (p : Str → Option α) (l : List α)
    (h : ∀ x ∈ l, p (f x) = some x) : allSome ((l.map f).map p) = some l := by
  induction l with
  | nil => rfl
  | cons x l ih =>
    simp only [List.map_cons, h x (by simp), allSome, ih (fun y hy => h y (by simp [hy])), Option.map_some]

theorem allSome_iff {α : Type} : ∀ (l : List (Option α)) (r : List α), allSome l = some r ↔ l = r.map some := by
  intro l
  induction l with
  | nil => intro r; cases r <;> simp [allSome]
  | cons x l ih =>
    intro r
    cases x with
    | none => cases r <;> simp [allSome]
    | some x =>
      cases r with
      | nil => simp [allSome]
      | cons y r =>
        simp only [allSome, Option.map_eq_some_iff, List.cons.injEq, List.map_cons, Option.some.injEq]
        constructor
        · rintro ⟨a, ha, rfl, rfl⟩; exact ⟨rfl, (ih _).1 ha⟩
        · rintro ⟨rfl, h⟩; exact ⟨r, (ih _).2 h, rfl, rfl⟩

/-- A string list with exactly one text: the one case where the decoder swallows an error. -/
def LoneString : Shape → List Str → Prop
  | .repeated .string, [_] => True
  | _, _ => False

theorem shape_unique {f : HField} {a b : Shape} (ha : HasShape f a) (hb : HasShape f b) : a = b := by
  cases a <;> cases b <;> simp only [HasShape] at ha hb <;> simp_all

/-- With the outer `err` nil, running the statements of a field succeeds exactly when its texts can be read. -/
theorem convert_iff (fl : Floats F) (jok : JSONOk) (f : HField) (sh : Shape) (hs : HasShape f sh) (s : Str)
    (rest : List Str) (hl : ¬ LoneString sh (s :: rest)) (c : Conv F) :
    convert fl jok f s rest false = c ↔
      (c = .fail ∧ ∀ v, ¬ Reads fl jok sh (s :: rest) v) ∨ (∃ v, c = .ok v false ∧ Reads fl jok sh (s :: rest) v) := by
  have key : (convert fl jok f s rest false = .fail ∧ ∀ v, ¬ Reads fl jok sh (s :: rest) v) ∨
      (∃ v, convert fl jok f s rest false = .ok v false ∧ Reads fl jok sh (s :: rest) v ∧
        ∀ v', Reads fl jok sh (s :: rest) v' → v' = v) := by
    cases sh with
    | single b =>
      obtain ⟨h1, h2, h3, h4, h5⟩ := hs
      simp only [convert, h1, h2, h3, h4, h5, Reads]
      cases hp : parseBase fl b s with
      | none => left; simp
      | some v => right; exact ⟨.one v, by simp, ⟨v, rfl, rfl⟩, by rintro v' ⟨x, hx, rfl⟩; simp at hx; rw [hx]⟩
    | optional b =>
      obtain ⟨h1, h2, h3, h4, h5⟩ := hs
      simp only [convert, h1, h2, h3, h4, h5, Reads]
      cases hp : parseBase fl b s with
      | none => left; simp
      | some v => right; exact ⟨.opt (some v), by simp, ⟨v, rfl, rfl⟩, by rintro v' ⟨x, hx, rfl⟩; simp at hx; rw [hx]⟩
    | enum =>
      obtain ⟨h1, h2, h3, h4, h5⟩ := hs
      simp only [convert, h1, h2, h3, h4, h5, Reads]
      cases hp : parseInt 32 s with
      | none => left; simp
      | some v => right; exact ⟨.one (.num v), by simp, ⟨v, rfl, rfl⟩, by rintro v' ⟨x, hx, rfl⟩; simp at hx; rw [hx]⟩
    | message =>
      obtain ⟨h1, h2, h3, h4⟩ := hs
      simp only [convert, h1, h2, h3, h4, Reads]
      cases hj : jok s with
      | false => left; simp
      | true => right; exact ⟨_, by simp, ⟨rfl, rfl⟩, by rintro v' ⟨-, rfl⟩; rfl⟩
    | messages =>
      obtain ⟨h1, h2⟩ := hs
      simp only [convert, h1, h2, Reads]
      cases hj : jok s with
      | false => left; simp
      | true => right; exact ⟨.other s, by simp, ⟨rfl, rfl⟩, by rintro v' ⟨-, rfl⟩; rfl⟩
    | repeated b =>
      obtain ⟨h1, h2, h3, h4, h5⟩ := hs
      cases rest with
      | nil =>
        have hb : b ≠ .string := by rintro rfl; exact hl trivial
        simp only [convert, h1, h2, h3, h5, Reads]
        cases hj : jsonArray fl b s with
        | some l =>
          right
          refine ⟨.many l, by simp [hj], ⟨l, rfl, Or.inl rfl⟩, ?_⟩
          rintro v' ⟨l', rfl, h | h⟩
          · simp at h; rw [h]
          · simp at h
        | none =>
          cases hk : jsonArray fl b ('[' :: s ++ [']']) with
          | none =>
            left
            refine ⟨?_, ?_⟩
            · simp only [List.cons_append] at hk; simp [hj, hk, hb]
            · rintro v ⟨l, -, h | h⟩ <;> simp at h
          | some l =>
            right
            refine ⟨.many l, ?_, ⟨l, rfl, Or.inr ⟨rfl, rfl⟩⟩, ?_⟩
            · simp only [List.cons_append] at hk; simp [hj, hk]
            · rintro v' ⟨l', rfl, h | h⟩
              · simp at h
              · simp at h; rw [h]
      | cons t rest =>
        have hstr : ∀ l : List Str, l.map (parseBase fl .string) = (l.map SVal.str).map some := by
          intro l; simp [parseBase]
        simp only [convert, h1, h2, h3, h5, Reads]
        by_cases hb : b = .string
        · subst hb
          right
          refine ⟨.many ((s :: t :: rest).map .str), by simp, ⟨_, rfl, hstr _⟩, ?_⟩
          rintro v' ⟨l', rfl, h⟩
          rw [hstr] at h
          rw [(List.map_inj_right (fun (a b : SVal F) (h : some a = some b) => Option.some.inj h)).1 h]
        · cases ha : allSome ((s :: t :: rest).map (parseBase fl b)) with
          | none =>
            left
            refine ⟨?_, ?_⟩
            · simp [hb, ha, -List.map_cons]
            · rintro v ⟨l, -, h⟩
              rw [(allSome_iff _ _).2 h] at ha; cases ha
          | some l =>
            right
            refine ⟨.many l, by simp [hb, ha, -List.map_cons], ⟨l, rfl, (allSome_iff _ _).1 ha⟩, ?_⟩
            rintro v' ⟨l', rfl, h⟩
            rw [(allSome_iff _ _).2 h] at ha
            simp at ha; rw [ha]
  rcases key with ⟨h, hn⟩ | ⟨v, h, hr, hu⟩
  · rw [h]
    constructor
    · rintro rfl; exact Or.inl ⟨rfl, hn⟩
    · rintro (⟨rfl, -⟩ | ⟨v, -, hv⟩)
      · rfl
      · exact absurd hv (hn v)
  · rw [h]
    constructor
    · rintro rfl; exact Or.inr ⟨v, rfl, hr⟩
    · rintro (⟨-, hn⟩ | ⟨v', rfl, hv⟩)
      · exact absurd hr (hn v)
      · rw [hu v' hv]

/-! ## All fields -/

/-- The texts a field's parameter has in a request, if it is there. -/
def paramTexts (r : Request F) (f : HField) : Option (List Str) :=
  if f.location = "path".toList then some [(look r.vars f.queryParamName).getD []] else look r.query f.queryParamName

theorem decodeField_eq (fl : Floats F) (jok : JSONOk) (r : Request F) (f : HField) (m : Msg F) (e : Bool) :
    decodeField fl jok r f m e = match paramTexts r f with
      | none => .ok (m, e)
      | some [] => .error .emptyValues
      | some (s :: rest) => match convert fl jok f s rest e with
        | .fail => .error (.field f.camelName)
        | .ok v e' => .ok (setMsg m f.camelName v, e') := by
  unfold decodeField paramTexts
  split
  · rfl
  · cases look r.query f.queryParamName with
    | none => rfl
    | some l => cases l <;> rfl

theorem loc_dec (f : HField) (t : Str) : f.location = t ∨ f.location ≠ t := by
  by_cases h : f.location = t
  · exact Or.inl h
  · exact Or.inr h

theorem decodeFields_iff (fl : Floats F) (jok : JSONOk) (r : Request F) : ∀ (fs : List HField) (M m : Msg F),
    (∀ f ∈ fs, ¬ InBody f → ∃ sh, HasShape f sh ∧ ∀ ts, paramTexts r f = some ts → ts ≠ [] ∧ ¬ LoneString sh ts) →
    (fs.map (·.camelName)).Nodup →
    ((∃ e, decodeFields fl jok r fs M false = .ok (m, e)) ↔
      (∀ f ∈ fs, ¬ InBody f → ∀ ts, paramTexts r f = some ts → ∀ sh, HasShape f sh → Reads fl jok sh ts (m f.camelName)) ∧
      (∀ n, (∀ f ∈ fs, ¬ InBody f → f.camelName = n → paramTexts r f = none) → m n = M n)) ∧
    (∀ m e, decodeFields fl jok r fs M false = .ok (m, e) → e = false) := by
  intro fs
  induction fs with
  | nil =>
    intro M m _ _
    simp only [decodeFields]
    refine ⟨⟨?_, ?_⟩, ?_⟩
    · rintro ⟨e, h⟩
      simp only [Except.ok.injEq, Prod.mk.injEq] at h
      refine ⟨by simp, fun n _ => by rw [h.1]⟩
    · rintro ⟨-, h⟩
      have : m = M := funext fun n => h n (by simp)
      exact ⟨false, by rw [this]⟩
    · intro m e h
      simp at h; exact h.2
  | cons f fs ih =>
    intro M m hsh hnd
    have hsh' : ∀ g ∈ fs, ¬ InBody g → ∃ sh, HasShape g sh ∧ ∀ ts, paramTexts r g = some ts → ts ≠ [] ∧ ¬ LoneString sh ts :=
      fun g hg => hsh g (by simp [hg])
    rw [List.map_cons, List.nodup_cons] at hnd
    by_cases hb : f.location = "body".toList
    · rw [decodeFields, if_pos hb]
      have := ih M m hsh' hnd.2
      refine ⟨this.1.trans ?_, fun m' e h => (ih M m' hsh' hnd.2).2 m' e h⟩
      constructor
      · rintro ⟨h1, h2⟩
        refine ⟨?_, ?_⟩
        · intro g hg hgb
          rcases List.mem_cons.1 hg with rfl | hg
          · exact absurd hb hgb
          · exact h1 g hg hgb
        · intro n hn
          exact h2 n fun g hg => hn g (by simp [hg])
      · rintro ⟨h1, h2⟩
        refine ⟨fun g hg => h1 g (by simp [hg]), ?_⟩
        intro n hn
        apply h2 n
        intro g hg hgb hgn
        rcases List.mem_cons.1 hg with rfl | hg
        · exact absurd hb hgb
        · exact hn g hg hgb hgn
    · rw [decodeFields, if_neg hb, decodeField_eq]
      obtain ⟨sh, hs, hts⟩ := hsh f (by simp) hb
      cases hp : paramTexts r f with
      | none =>
        simp only
        refine ⟨(ih M m hsh' hnd.2).1.trans ?_, fun m' e h => (ih M m' hsh' hnd.2).2 m' e h⟩
        constructor
        · rintro ⟨h1, h2⟩
          refine ⟨?_, ?_⟩
          · intro g hg hgb ts hgt
            rcases List.mem_cons.1 hg with rfl | hg
            · rw [hp] at hgt; cases hgt
            · exact h1 g hg hgb ts hgt
          · intro n hn
            exact h2 n fun g hg => hn g (by simp [hg])
        · rintro ⟨h1, h2⟩
          refine ⟨fun g hg => h1 g (by simp [hg]), ?_⟩
          intro n hn
          apply h2 n
          intro g hg hgb hgn
          rcases List.mem_cons.1 hg with rfl | hg
          · exact hp
          · exact hn g hg hgb hgn
      | some ts =>
        obtain ⟨hne, hlone⟩ := hts ts hp
        cases ts with
        | nil => exact absurd rfl hne
        | cons s rest =>
          simp only
          rcases (convert_iff fl jok f sh hs s rest hlone _).1 rfl with ⟨hc, hn⟩ | ⟨v, hc, hv⟩
          · rw [hc]
            simp only
            refine ⟨⟨?_, ?_⟩, ?_⟩
            · rintro ⟨e, h⟩; cases h
            · rintro ⟨h1, -⟩
              exact absurd (h1 f (by simp) hb _ hp sh hs) (hn _)
            · intro m e h; cases h
          · rw [hc]
            simp only
            have hih := ih (setMsg M f.camelName v)
            refine ⟨(hih m hsh' hnd.2).1.trans ?_, fun m' e h => (hih m' hsh' hnd.2).2 m' e h⟩
            have hother : ∀ g ∈ fs, g.camelName ≠ f.camelName :=
              fun g hg he => hnd.1 (List.mem_map.2 ⟨g, hg, he⟩)
            have huniq : ∀ sh', HasShape f sh' → ∀ w, Reads fl jok sh' (s :: rest) w → ∀ hl : ¬ LoneString sh' (s :: rest), w = v := by
              intro sh' hs' w hw hl
              have := (convert_iff fl jok f sh' hs' s rest hl (.ok w false)).2 (Or.inr ⟨w, rfl, hw⟩)
              rw [hc] at this
              simp at this; exact this.symm
            constructor
            · rintro ⟨h1, h2⟩
              have hmf : m f.camelName = v := by
                rw [h2 f.camelName fun g hg _ he => absurd he (hother g hg)]
                simp [setMsg]
              refine ⟨?_, ?_⟩
              · intro g hg hgb ts hgt sh' hs'
                rcases List.mem_cons.1 hg with he | hg
                · subst he
                  rw [hp] at hgt; cases hgt
                  have : sh' = sh := shape_unique hs' hs
                  rw [this, hmf]; exact hv
                · exact h1 g hg hgb ts hgt sh' hs'
              · intro n hn
                rw [h2 n fun g hg => hn g (by simp [hg])]
                have : n ≠ f.camelName := by
                  rintro rfl
                  have := hn f (by simp) hb rfl
                  rw [hp] at this; cases this
                simp [setMsg, this]
            · rintro ⟨h1, h2⟩
              refine ⟨fun g hg => h1 g (by simp [hg]), ?_⟩
              intro n hn
              by_cases hnf : n = f.camelName
              · subst hnf
                have := h1 f (by simp) hb _ hp sh hs
                rw [huniq sh hs _ this hlone]
                simp [setMsg]
              · rw [setMsg, if_neg hnf]
                apply h2 n
                intro g hg hgb hgn
                rcases List.mem_cons.1 hg with he | hg
                · subst he; exact absurd hgn.symm hnf
                · exact hn g hg hgb hgn

/-! ## The decoder exactly, with its error variable -/

/-- The error variable after one field; `none` when it is noticed. -/
def flag : Bool → Effect → Option Bool
  | e, .keeps => some e
  | _, .leaves => some true
  | _, .clears => some false
  | e, .demands => if e then none else some false

/-- The error variable after several fields. -/
def flags : Bool → List Effect → Option Bool
  | e, [] => some e
  | e, x :: l => (flag e x).bind fun e' => flags e' l

theorem flags_iff : ∀ l : List Effect,
    (flags false l = some false ↔ NoErrorNoticed l) ∧
    (flags true l = some false ↔ NoErrorNoticed l ∧ ∃ a b, l = a ++ Effect.clears :: b ∧ Effect.demands ∉ a) := by
  intro l
  induction l with
  | nil =>
    refine ⟨⟨fun _ b a h => by simp at h, fun _ => rfl⟩, ⟨fun h => by simp [flags] at h, ?_⟩⟩
    rintro ⟨-, a, b, h, -⟩; simp at h
  | cons x l ih =>
    have skip : x ≠ .leaves → (NoErrorNoticed (x :: l) ↔ NoErrorNoticed l) := by
      intro hx
      constructor
      · intro h b a e; exact h (x :: b) a (by rw [e]; rfl)
      · intro h b a e
        cases b with
        | nil => simp at e; exact absurd e.1 hx
        | cons y b => simp at e; exact h b a e.2
    have hleave : x = .leaves → (NoErrorNoticed (x :: l) ↔
        NoErrorNoticed l ∧ ∃ a b, l = a ++ Effect.clears :: b ∧ Effect.demands ∉ a) := by
      rintro rfl
      constructor
      · intro h
        refine ⟨fun b a e => h (.leaves :: b) a (by rw [e]; rfl), ?_⟩
        exact h [] l rfl
      · rintro ⟨h, hl⟩ b a e
        cases b with
        | nil => simp at e; rw [← e]; exact hl
        | cons y b => simp at e; exact h b a e.2
    have hex : x ≠ .clears → x ≠ .demands → ((∃ a b, x :: l = a ++ Effect.clears :: b ∧ Effect.demands ∉ a) ↔
        ∃ a b, l = a ++ Effect.clears :: b ∧ Effect.demands ∉ a) := by
      intro h1 h2
      constructor
      · rintro ⟨a, b, e, hd⟩
        cases a with
        | nil => simp at e; exact absurd e.1 h1
        | cons y a => simp at e hd; exact ⟨a, b, e.2, hd.2⟩
      · rintro ⟨a, b, e, hd⟩
        exact ⟨x :: a, b, by rw [e]; rfl, by simp [hd, Ne.symm h2]⟩
    cases x with
    | keeps =>
      rw [skip (by decide), hex (by decide) (by decide)]
      exact ih
    | leaves =>
      rw [hleave rfl, hex (by decide) (by decide)]
      refine ⟨ih.2, ih.2.trans ⟨fun h => ⟨h, h.2⟩, fun h => h.1⟩⟩
    | clears =>
      rw [skip (by decide)]
      refine ⟨ih.1, ih.1.trans ⟨fun h => ⟨h, [], l, rfl, by simp⟩, fun h => h.1⟩⟩
    | demands =>
      rw [skip (by decide)]
      refine ⟨ih.1, ⟨fun h => by simp [flags, flag] at h, ?_⟩⟩
      rintro ⟨-, a, b, e, hd⟩
      cases a with
      | nil => simp at e
      | cons y a => simp at e hd; exact absurd e.1 hd.1

theorem baseOf_string (t : Str) : baseOf t = some .string ↔ t = "string".toList := by
  constructor
  · intro h; unfold baseOf at h
    repeat' split at h
    all_goals first | (simp at h; done) | assumption
  · rintro rfl; decide +kernel

theorem convert_full (fl : Floats F) (jok : JSONOk) (f : HField) (sh : Shape) (hs : HasShape f sh) (s : Str)
    (rest : List Str) (e : Bool) (v : FVal F) (e' : Bool) :
    convert fl jok f s rest e = .ok v e' ↔
      Stores fl jok sh (s :: rest) v ∧ flag e (effect fl f (s :: rest)) = some e' := by
  cases sh with
  | single b =>
    obtain ⟨h1, h2, h3, h4, h5⟩ := hs
    have hst := baseOf_string f.goType
    rw [h3, Option.some.injEq] at hst
    simp only [convert, effect, Stores, Reads, h1, h2, h3, h4, h5, ← hst]
    cases hp : parseBase fl b s with
    | none => simp
    | some x =>
      generalize "path".toList = pth
      generalize "string".toList = st at hst ⊢
      by_cases hb : b = .string <;> by_cases hl : f.location = pth <;>
        simp [← hst, hb, hl, flag, eq_comm]
  | optional b =>
    obtain ⟨h1, h2, h3, h4, h5⟩ := hs
    have hst := baseOf_string f.goType
    rw [h3, Option.some.injEq] at hst
    simp only [convert, effect, Stores, Reads, h1, h2, h3, h4, h5, ← hst]
    cases hp : parseBase fl b s with
    | none => simp
    | some x =>
      generalize "path".toList = pth
      generalize "string".toList = st at hst ⊢
      by_cases hb : b = .string <;> by_cases hl : f.location = pth <;>
        simp [← hst, hb, hl, flag, eq_comm]
  | enum =>
    obtain ⟨h1, h2, h3, h4, h5⟩ := hs
    have hst : f.goType ≠ "string".toList := by
      intro h; rw [(baseOf_string _).2 h] at h3; cases h3
    simp only [convert, effect, Stores, Reads, h1, h2, h3, h4, h5]
    cases hp : parseInt 32 s with
    | none => simp
    | some x =>
      generalize "path".toList = pth
      generalize "string".toList = st at hst ⊢
      by_cases hl : f.location = pth <;> simp [hl, hst, flag, eq_comm]
  | message =>
    obtain ⟨h1, h2, h3, h4⟩ := hs
    simp only [convert, effect, Stores, Reads, h1, h2, h3, h4]
    generalize "null".toList = nul
    generalize "path".toList = pth
    generalize "string".toList = st
    cases hj : jok s with
    | false => simp
    | true =>
      simp [flag]
      exact fun _ => eq_comm
  | messages =>
    obtain ⟨h1, h2⟩ := hs
    simp only [convert, effect, Stores, Reads, h1, h2]
    generalize "null".toList = nul
    generalize "path".toList = pth
    generalize "string".toList = st
    cases hj : jok s with
    | false => simp
    | true =>
      simp [flag]
      exact fun _ => eq_comm
  | repeated b =>
    obtain ⟨h1, h2, h3, h4, h5⟩ := hs
    have hst := baseOf_string f.goType
    rw [h3, Option.some.injEq] at hst
    cases rest with
    | nil =>
      simp only [convert, effect, h1, h2, h3, h4, h5, ← hst]
      have hS : Stores fl jok (.repeated b) [s] v ↔ Reads fl jok (.repeated b) [s] v ∨
          b = .string ∧ NoList fl s ∧ v = .many ((fl.junk s).map .str) := by
        cases b <;> simp [Stores]
      rw [hS]
      simp only [Reads, NoList, List.cons_append]
      cases hj : jsonArray fl b s with
      | some l =>
        by_cases hb : b = .string
        · subst hb; simp [hj, flag, eq_comm]
        · simp [hj, hb, flag, eq_comm]
      | none =>
        cases hk : jsonArray fl b ('[' :: (s ++ [']'])) with
        | some l =>
          by_cases hb : b = .string
          · subst hb; simp [hj, hk, flag, eq_comm]
          · simp [hj, hk, hb, flag, eq_comm]
        | none =>
          by_cases hb : b = .string
          · subst hb; simp [hj, hk, flag, eq_comm]
          · simp [hj, hk, hb]
    | cons t rest =>
      have hS : Stores fl jok (.repeated b) (s :: t :: rest) v ↔ Reads fl jok (.repeated b) (s :: t :: rest) v := by
        cases b <;> exact Iff.rfl
      rw [hS]
      simp only [convert, effect, h1, h2, h3, h4, h5, Reads]
      have hstr : ∀ l : List Str, l.map (parseBase fl .string) = (l.map SVal.str).map some := by
        intro l; simp [parseBase]
      have hinj := fun l l' : List (SVal F) =>
        (List.map_inj_right (l := l) (l' := l') (fun (a b : SVal F) (h : some a = some b) => Option.some.inj h))
      by_cases hb : b = .string
      · subst hb
        rw [hstr]
        simp only [hinj]
        cases e <;> simp [flag, eq_comm]
      · cases ha : allSome ((s :: t :: rest).map (parseBase fl b)) with
        | none =>
          have : ∀ l : List (SVal F), (s :: t :: rest).map (parseBase fl b) ≠ l.map some := by
            intro l h
            rw [(allSome_iff _ _).2 h] at ha; cases ha
          simp [hb, ha, -List.map_cons, this]
        | some l =>
          rw [(allSome_iff _ _).1 ha]
          simp only [hinj]
          cases e <;> simp [hb, ha, -List.map_cons, flag, eq_comm]

theorem carried_of_not_body {r : Request F} {f : HField} (h : InPath f ∨ InQuery f) : carried r f = paramTexts r f := by
  unfold carried paramTexts InPath InQuery at *
  by_cases hp : f.location = "path".toList
  · rw [if_pos hp, if_pos hp]
  · rw [if_neg hp, if_neg hp, if_pos (h.resolve_left hp)]

theorem carried_body {r : Request F} {f : HField} (h : InBody f) : carried r f = none := by
  unfold carried InBody at *
  rw [h, if_neg (by decide +kernel), if_neg (by decide +kernel)]

theorem not_body {f : HField} (h : InPath f ∨ InQuery f) : f.location ≠ "body".toList := by
  intro hb
  unfold InPath InQuery at h
  rw [hb] at h
  revert h; decide +kernel

theorem flags_filterMap_cons (e : Bool) (o : Option Effect) (l : List Effect) :
    flags e (o.toList ++ l) = ((o.map (flag e)).getD (some e)).bind fun e' => flags e' l := by
  cases o <;> rfl

theorem effects_cons (fl : Floats F) (r : Request F) (f : HField) (fs : List HField) :
    effects fl r (f :: fs) = ((carried r f).map (effect fl f)).toList ++ effects fl r fs := by
  unfold effects
  rw [List.filterMap_cons]
  cases (carried r f).map (effect fl f) <;> rfl

theorem decodeFields_exact (fl : Floats F) (jok : JSONOk) (r : Request F) : ∀ (fs : List HField) (M m : Msg F) (e e' : Bool),
    (∀ f ∈ fs, InPath f ∨ InQuery f ∨ InBody f) →
    (∀ f ∈ fs, ¬ InBody f → ∃ sh, HasShape f sh) → (∀ f ∈ fs, carried r f ≠ some []) →
    (fs.map (·.camelName)).Nodup →
    (decodeFields fl jok r fs M e = .ok (m, e') ↔
      (∀ f ∈ fs, ∀ ts, carried r f = some ts → ∀ sh, HasShape f sh → Stores fl jok sh ts (m f.camelName)) ∧
      (∀ n, (∀ f ∈ fs, f.camelName = n → carried r f = none) → m n = M n) ∧
      flags e (effects fl r fs) = some e') := by
  intro fs
  induction fs with
  | nil =>
    intro M m e e' _ _ _ _
    simp only [decodeFields, Except.ok.injEq, Prod.mk.injEq, effects, List.filterMap_nil, flags, Option.some.injEq]
    constructor
    · rintro ⟨rfl, rfl⟩
      exact ⟨by simp, fun _ _ => rfl, rfl⟩
    · rintro ⟨-, h, rfl⟩
      exact ⟨(funext fun n => h n (by simp)).symm, rfl⟩
  | cons f fs ih =>
    intro M m e e' hloc hsh hne hnd
    have hloc' : ∀ g ∈ fs, InPath g ∨ InQuery g ∨ InBody g := fun g hg => hloc g (by simp [hg])
    have hsh' : ∀ g ∈ fs, ¬ InBody g → ∃ sh, HasShape g sh := fun g hg => hsh g (by simp [hg])
    have hne' : ∀ g ∈ fs, carried r g ≠ some [] := fun g hg => hne g (by simp [hg])
    rw [List.map_cons, List.nodup_cons] at hnd
    have hother : ∀ g ∈ fs, g.camelName ≠ f.camelName :=
      fun g hg he => hnd.1 (List.mem_map.2 ⟨g, hg, he⟩)
    have skip : ∀ M : Msg F, carried r f = none →
        ((∀ g ∈ f :: fs, ∀ ts, carried r g = some ts → ∀ sh, HasShape g sh → Stores fl jok sh ts (m g.camelName)) ↔
          ∀ g ∈ fs, ∀ ts, carried r g = some ts → ∀ sh, HasShape g sh → Stores fl jok sh ts (m g.camelName)) ∧
        ((∀ n, (∀ g ∈ f :: fs, g.camelName = n → carried r g = none) → m n = M n) ↔
          ∀ n, (∀ g ∈ fs, g.camelName = n → carried r g = none) → m n = M n) := by
      intro M hc
      refine ⟨⟨fun h g hg => h g (by simp [hg]), ?_⟩, ⟨?_, fun h n hn => h n fun g hg => hn g (by simp [hg])⟩⟩
      · intro h g hg ts ht
        rcases List.mem_cons.1 hg with rfl | hg
        · rw [hc] at ht; cases ht
        · exact h g hg ts ht
      · intro h n hn
        apply h n
        intro g hg he
        rcases List.mem_cons.1 hg with rfl | hg
        · exact hc
        · exact hn g hg he
    rw [effects_cons, flags_filterMap_cons]
    by_cases hb : f.location = "body".toList
    · rw [decodeFields, if_pos hb, ih M m e e' hloc' hsh' hne' hnd.2]
      have hc := carried_body (r := r) hb
      rw [(skip M hc).1, (skip M hc).2, hc]
      rfl
    · rw [decodeFields, if_neg hb, decodeField_eq]
      have hpq : InPath f ∨ InQuery f := by
        rcases hloc f (by simp) with h | h | h
        · exact .inl h
        · exact .inr h
        · exact absurd h hb
      have hcar := carried_of_not_body (r := r) hpq
      obtain ⟨sh, hs⟩ := hsh f (by simp) hb
      rw [← hcar]
      have hnef := hne f (by simp)
      cases hp : carried r f with
      | none =>
        simp only
        rw [ih M m e e' hloc' hsh' hne' hnd.2, (skip M hp).1, (skip M hp).2]
        rfl
      | some ts =>
        cases ts with
        | nil => exact absurd hp hnef
        | cons s rest =>
          simp only [Option.map_some, Option.getD_some]
          have hconv := convert_full fl jok f sh hs s rest e
          cases hc : convert fl jok f s rest e with
          | fail =>
            simp only [reduceCtorEq, false_iff]
            rintro ⟨h1, -, h3⟩
            cases hfl : flag e (effect fl f (s :: rest)) with
            | none => rw [hfl] at h3; cases h3
            | some e1 =>
              have := (hconv (m f.camelName) e1).2 ⟨h1 f (by simp) _ hp sh hs, hfl⟩
              rw [hc] at this; cases this
          | ok v e1 =>
            simp only
            obtain ⟨hv, hfl⟩ := (hconv v e1).1 hc
            rw [ih (setMsg M f.camelName v) m e1 e' hloc' hsh' hne' hnd.2, hfl, Option.bind_some]
            constructor
            · rintro ⟨h1, h2, h3⟩
              have hmf : m f.camelName = v := by
                rw [h2 f.camelName fun g hg he => absurd he (hother g hg)]
                simp [setMsg]
              refine ⟨?_, ?_, h3⟩
              · intro g hg ts hgt sh' hs'
                rcases List.mem_cons.1 hg with he | hg
                · subst he
                  rw [hp] at hgt; cases hgt
                  have : sh' = sh := shape_unique hs' hs
                  rw [this, hmf]; exact hv
                · exact h1 g hg ts hgt sh' hs'
              · intro n hn
                rw [h2 n fun g hg => hn g (by simp [hg])]
                have : n ≠ f.camelName := by
                  rintro rfl
                  have := hn f (by simp) rfl
                  rw [hp] at this; cases this
                simp [setMsg, this]
            · rintro ⟨h1, h2, h3⟩
              refine ⟨fun g hg => h1 g (by simp [hg]), ?_, h3⟩
              intro n hn
              by_cases hnf : n = f.camelName
              · subst hnf
                have h4 := h1 f (by simp) _ hp sh hs
                have h5 := (hconv (m f.camelName) e1).2 ⟨h4, hfl⟩
                rw [hc] at h5
                simp only [Conv.ok.injEq, and_true] at h5
                rw [setMsg, if_pos rfl, h5]
              · rw [setMsg, if_neg hnf]
                apply h2 n
                intro g hg hgn
                rcases List.mem_cons.1 hg with he | hg
                · subst he; exact absurd hgn.symm hnf
                · exact hn g hg hgn

/-! ## Reading back what was written -/

theorem sprint_num (fl : Floats F) (b : Base) (i : Int) : sprint fl b (.num i) = itoaInt i := rfl

theorem fits_num {fl : Floats F} {v : SVal F} (h : FitsBase fl .int32 v) :
    ∃ i, v = .num i ∧ -(2 ^ 31) ≤ i ∧ i < 2 ^ 31 := by
  cases v with
  | num i => exact ⟨i, rfl, h⟩
  | _ => simp [FitsBase] at h

theorem reads_texts (fl : Floats F) (jok : JSONOk) (f : HField) (sh : Shape) (hs : HasShape f sh) (v : FVal F)
    (hh : Holds fl sh v) (hq : QueryOK fl jok sh v) :
    (texts fl f v = [] ∧ absent sh v) ∨
      (texts fl f v ≠ [] ∧ ¬ LoneString sh (texts fl f v) ∧ Reads fl jok sh (texts fl f v) v) := by
  cases sh with
  | single b =>
    obtain ⟨h1, h2, h3, h4, h5⟩ := hs
    cases v with
    | one x =>
      right
      simp only [texts, h1, h3, h4, h5, Option.getD_some]
      exact ⟨by simp, by simp [LoneString], ⟨x, parse_sprint fl b x hh, rfl⟩⟩
    | _ => simp [Holds] at hh
  | optional b =>
    obtain ⟨h1, h2, h3, h4, h5⟩ := hs
    cases v with
    | opt o =>
      cases o with
      | none => left; exact ⟨by simp [texts, h1, h4, h5], rfl⟩
      | some x =>
        right
        simp only [texts, h1, h3, h4, h5, Option.getD_some]
        exact ⟨by simp, by simp [LoneString], ⟨x, parse_sprint fl b x (hh x rfl), rfl⟩⟩
    | _ => simp [Holds] at hh
  | enum =>
    obtain ⟨h1, h2, h3, h4, h5⟩ := hs
    cases v with
    | one x =>
      right
      obtain ⟨i, rfl, hi⟩ := fits_num hh
      simp only [texts, h2, h3, h5]
      exact ⟨by simp, by simp [LoneString], ⟨i, parseInt_itoaInt 32 i hi.1 hi.2, rfl⟩⟩
    | _ => simp [Holds] at hh
  | message =>
    obtain ⟨h1, h2, h3, h4⟩ := hs
    cases v with
    | other j =>
      right
      simp only [texts, h2, h4]
      exact ⟨by simp, by simp [LoneString], hq.1, by rw [if_neg hq.2]⟩
    | _ => simp [Holds] at hh
  | messages =>
    obtain ⟨h1, h2⟩ := hs
    cases v with
    | other j =>
      right
      simp only [texts, h1, h2]
      exact ⟨by simp, by simp [LoneString], hq, rfl⟩
    | _ => simp [Holds] at hh
  | repeated b =>
    obtain ⟨h1, h2, h3, h4, h5⟩ := hs
    cases v with
    | many l =>
      have ht : texts fl f (.many l) = l.map (sprint fl b) := by
        simp [texts, h1, h5, h3]
      rw [ht]
      match l, hh, hq with
      | [], _, _ => left; exact ⟨rfl, rfl⟩
      | [x], hh, hq =>
        right
        have hb : b ≠ .string := by rintro rfl; simp [QueryOK] at hq
        have hj := json_one fl b x (hh x (by simp)) jok hq
        refine ⟨by simp, ?_, [x], rfl, Or.inr hj⟩
        cases b <;> simp [LoneString] at hb ⊢
      | x :: y :: r, hh, hq =>
        right
        refine ⟨by simp, ?_, x :: y :: r, rfl, ?_⟩
        · cases b <;> simp [LoneString]
        · have : ∀ l : List (SVal F), (∀ v ∈ l, FitsBase fl b v) →
              (l.map (sprint fl b)).map (parseBase fl b) = l.map some := by
            intro l hl
            rw [List.map_map]
            exact List.map_congr_left fun v hv => parse_sprint fl b v (hl v hv)
          exact this _ hh
    | _ => simp [Holds] at hh

/-- Texts of integers are unreserved in URLs. -/
theorem itoaInt_safe (i : Int) : UrlSafe (itoaInt i) ∧ itoaInt i ≠ [] ∧ itoaInt i ≠ ['.'] ∧ itoaInt i ≠ ['.', '.'] := by
  have hc : ∀ c ∈ itoaInt i, c = '-' ∨ isAsciiDigit c = true := by
    intro c hc
    rw [itoaInt] at hc
    split at hc
    · rcases List.mem_cons.1 hc with h | h
      · exact Or.inl h
      · exact Or.inr (itoa_digits _ c h)
    · exact Or.inr (itoa_digits _ c hc)
  have hdot : '.' ∉ itoaInt i := by
    intro h
    rcases hc _ h with h | h <;> revert h <;> decide
  refine ⟨?_, (itoaInt_json i).2.2.2, ?_, ?_⟩
  · intro c h
    rcases hc c h with rfl | h
    · decide
    · rw [Strs.digit_iff] at h
      refine ⟨?_, ?_, ?_, ?_, by omega, by omega⟩ <;> (rintro rfl; revert h; decide)
  · intro h; exact hdot (by rw [h]; simp)
  · intro h; exact hdot (by rw [h]; simp)

theorem floatText_path (fl : Floats F) (w : Bool) (x : F) : PathText (fl.fmt w x) := by
  obtain ⟨⟨c0, hc0, hne0⟩, hall⟩ := fl.fmt_plain w x
  refine ⟨fun c hc => ?_, ?_, ?_, ?_⟩
  · have hcase := hall c hc
    have hnat : (48 ≤ c.toNat ∧ c.toNat ≤ 57) ∨ (65 ≤ c.toNat ∧ c.toNat ≤ 90) ∨ (97 ≤ c.toNat ∧ c.toNat ≤ 122) ∨
        c = '+' ∨ c = '-' ∨ c = '.' := by
      rcases hcase with h | h | h | h
      · simp only [Char.isAlphanum, Char.isAlpha, Char.isUpper, Char.isLower, Char.isDigit, Bool.or_eq_true,
          Bool.and_eq_true, decide_eq_true_eq, ge_iff_le, UInt32.le_iff_toNat_le] at h
        have hv : c.toNat = c.val.toNat := rfl
        rw [hv]
        have e1 : 'A'.val.toNat = 65 := rfl
        have e2 : 'Z'.val.toNat = 90 := rfl
        have e3 : 'a'.val.toNat = 97 := rfl
        have e4 : 'z'.val.toNat = 122 := rfl
        have e5 : '0'.val.toNat = 48 := rfl
        have e6 : '9'.val.toNat = 57 := rfl
        omega
      · exact .inr (.inr (.inr (.inl h)))
      · exact .inr (.inr (.inr (.inr (.inl h))))
      · exact .inr (.inr (.inr (.inr (.inr h))))
    rcases hnat with h | h | h | rfl | rfl | rfl
    · refine ⟨?_, ?_, ?_, ?_, by omega, by omega⟩ <;> rintro rfl <;> revert h <;> decide
    · refine ⟨?_, ?_, ?_, ?_, by omega, by omega⟩ <;> rintro rfl <;> revert h <;> decide
    · refine ⟨?_, ?_, ?_, ?_, by omega, by omega⟩ <;> rintro rfl <;> revert h <;> decide
    · decide
    · decide
    · decide
  · intro h; rw [h] at hc0; cases hc0
  · intro h; rw [h] at hc0; simp at hc0; exact hne0 hc0
  · intro h; rw [h] at hc0; simp at hc0; exact hne0 hc0

theorem reads_path (fl : Floats F) (jok : JSONOk) (addr : Str → Str) (f : HField) (sh : Shape) (hs : HasShape f sh)
    (v : FVal F) (hh : Holds fl sh v) (hsp : PathShape sh) (hp : PathOK sh v) :
    ∃ s, sprintField fl addr f v = s ∧ Reads fl jok sh [s] v ∧ ¬ LoneString sh [s] ∧ PathText s := by
  refine ⟨_, rfl, ?_⟩
  cases sh with
  | single b =>
    obtain ⟨h1, h2, h3, h4, h5⟩ := hs
    cases v with
    | one x =>
      simp only [sprintField, h3, Option.getD_some]
      refine ⟨⟨x, parse_sprint fl b x hh, rfl⟩, by simp [LoneString], ?_⟩
      cases b <;> cases x <;> simp only [Holds, FitsBase] at hh <;> simp only [PathOK] at hp <;> first
        | exact itoaInt_safe _
        | exact hp
        | (rename_i x; cases x <;> (unfold PathText UrlSafe; simp only [sprint]; decide +kernel))
        | exact floatText_path fl _ _
    | _ => simp [Holds] at hh
  | enum =>
    obtain ⟨h1, h2, h3, h4, h5⟩ := hs
    cases v with
    | one x =>
      obtain ⟨i, rfl, hi⟩ := fits_num hh
      exact ⟨⟨i, parseInt_itoaInt 32 i hi.1 hi.2, rfl⟩, by simp [LoneString], itoaInt_safe i⟩
    | _ => simp [Holds] at hh
  | _ => exact hsp.elim

theorem pathEnv_field (fl : Floats F) (addr : Str → Str) (fs : List HField) (m : Msg F) (f : HField) (hf : f ∈ fs)
    (hnd : (fs.map (·.camelName)).Nodup) :
    pathEnv fl addr fs m f.camelName = sprintField fl addr f (m f.camelName) := by
  have : fs.find? (fun g => g.camelName = f.camelName) = some f := by
    induction fs with
    | nil => simp at hf
    | cons g fs ih =>
      rw [List.map_cons, List.nodup_cons] at hnd
      rw [List.find?_cons]
      rcases List.mem_cons.1 hf with he | hf
      · subst he; simp
      · have : g.camelName ≠ f.camelName := fun he => hnd.1 (List.mem_map.2 ⟨f, hf, he.symm⟩)
        simp only [this, decide_false]
        exact ih hf hnd.2
  rw [pathEnv, this]

end Baron.HTTPCode
