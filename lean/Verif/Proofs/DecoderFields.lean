import Verif.Proofs.DecoderRun

/-!
# The statements for all parameters
-/

namespace Baron.Locals

open Baron.Scope Baron.HTTPCode Baron.Idents Baron.DecoderNames

theorem typeEvs_mention (t : Str) : typeEvs t = match mention t with
    | .predeclared => []
    | .imported p => [.use p]
    | .own t => [.type t] := by
  unfold typeEvs mention
  simp only
  generalize t.dropWhile _ = t'
  split
  · rfl
  · have hb : ((baseOf t').isSome || decide (t' = "byte".toList)) = true ↔ t' ∈ predeclaredTypes.map String.toList := by
      unfold baseOf
      constructor
      · intro h
        simp only [predeclaredTypes, List.map_cons, List.map_nil, List.mem_cons, List.not_mem_nil, or_false]
        by_cases h1 : t' = "byte".toList
        · simp only [h1, or_true]
        · rw [decide_eq_false h1, Bool.or_false] at h
          repeat' split at h
          all_goals first | (rename_i hh; simp only [hh, true_or, or_true]; done) | cases h
      · intro h
        simp only [predeclaredTypes, List.map_cons, List.map_nil, List.mem_cons, List.not_mem_nil, or_false] at h
        rcases h with rfl | rfl | rfl | rfl | rfl | rfl | rfl | rfl | rfl <;> with_unfolding_all rfl
    by_cases h : t' ∈ predeclaredTypes.map String.toList
    · rw [if_pos (hb.2 h), if_pos h]
    · rw [if_neg fun h' => h (hb.1 h'), if_neg h]

/-- Fields as `protoc` and `NewBinding` make them. -/
structure Plain (f : HField) : Prop where
  location : f.location = "path".toList ∨ f.location = "query".toList
  camel : upper f.camelName = true
  base : f.isBase = true → (baseOf f.goType).isSome = true
  enum : f.isEnum = true → f.isBase = false
  imported : ∀ p, mention f.goType = .imported p → upper p = false ∧ p ∉ lowers
  own : ∀ t, mention f.goType = .own t → upper t = true

theorem upper_append {x y : Str} (h : upper x = true) : upper (x ++ y) = true := by
  cases x with
  | nil => cases h
  | cons c x => exact h

theorem append_ne {l x y : Str} (h : x ≠ y) : l ++ x ≠ l ++ y := fun he => h (List.append_cancel_left he)

theorem names_of {l t : Str} (h : upper l = true) (ht : t ∉ lowers) : Names l (strN l) (arrN l) t where
  upL := h
  upS := upper_append h
  upA := upper_append h
  LS := fun he => by have := congrArg List.length he; simp [strN] at this
  LA := fun he => by have := congrArg List.length he; simp [arrN] at this
  SA := append_ne (by decide)
  T := ht

/-- The name mentioned, and how. -/
def mark' : Mention → Option Bool
  | .predeclared => none
  | .imported _ => some true
  | .own _ => some false

def name' : Mention → Str
  | .predeclared => ['_']
  | .imported p => p
  | .own t => t

theorem base_predeclared {t : Str} (h : (baseOf t).isSome = true) : mention t = .predeclared := by
  unfold baseOf at h
  repeat' split at h
  all_goals first | (rename_i hh; rw [hh]; decide +kernel) | cases h

theorem kind_facts {f : HField} (h : Plain f) :
    ((kindOf f = .str ∨ kindOf f = .base ∨ kindOf f = .rstr ∨ kindOf f = .rbase) ↔ f.isBase = true) ∧
    ((kindOf f = .rstr ∨ kindOf f = .rbase) ↔ f.isBase = true ∧ f.repeated = true) ∧
    (f.isBase = false → (kindOf f = .rmsg ↔ f.repeated = true)) := by
  have h1 := h.base
  have h2 := h.enum
  clear h
  obtain ⟨q, c, loc, t, star, ib, ie, rep⟩ := f
  simp only at h1 h2
  unfold kindOf
  simp only
  generalize baseOf t = b at h1 ⊢
  cases ie <;> cases rep <;> cases ib <;> rcases b with _ | (_ | _) <;> simp_all

/-- The statements for a field are accepted under the stated conditions, and leave its variables behind. -/
theorem fieldEvs_run {g : Outer} (hpk : ∀ x ∈ pkgs, g.value x = true) {c : Block} {vs : List Str} (hI : Inv c vs) {meth : Str}
    {f : HField} (hf : Plain f) :
    (¬FieldOK g (Strs.goCamelCase meth) vs f ∧ run g [c] (fieldEvs meth f) = none) ∨
    (FieldOK g (Strs.goCamelCase meth) vs f ∧ ∃ c', run g [c] (fieldEvs meth f) = some [c'] ∧
      Inv c' (vs ++ left (Strs.goCamelCase meth) f)) := by
  have hup : upper (lName meth f) = true := upper_append hf.camel
  obtain ⟨k1, k2, k3⟩ := kind_facts hf
  have hpre : f.isBase = true → mention f.goType = .predeclared := fun h => base_predeclared (hf.base h)
  have htl : name' (mention f.goType) ∉ lowers := by
    cases hm : mention f.goType with
    | predeclared => decide +kernel
    | imported p => exact (hf.imported p hm).2
    | own t => exact fun h => by have := lower_of_mem h; rw [show upper (name' (.own t)) = _ from hf.own t hm] at this; cases this
  have hnot : ∀ x : Str, upper x = false → x ∉ vs ∧ x ≠ lName meth f ∧ x ≠ strN (lName meth f) ∧ x ≠ arrN (lName meth f) := by
    intro x hx
    refine ⟨fun h => ?_, ?_, ?_, ?_⟩
    · rw [hI.upper x h] at hx; cases hx
    · rintro rfl; rw [hup] at hx; cases hx
    · rintro rfl; rw [show upper (strN _) = true from upper_append hup] at hx; cases hx
    · rintro rfl; rw [show upper (arrN _) = true from upper_append hup] at hx; cases hx
  have hev : fieldEvs meth f = shape (decide (f.location = "path".toList)) (kindOf f)
      (mev (name' (mention f.goType)) (mark' (mention f.goType))) (lName meth f) (strN (lName meth f)) (arrN (lName meth f)) := by
    rw [fieldEvs_eq hf.location, typeEvs_mention]
    cases mention f.goType <;> rfl
  have haround : f.isBase = false → around (Strs.goCamelCase meth) f = [strN (lName meth f)] ++
      (if decide (f.location = "path".toList) = true then [] else [arrN (lName meth f)]) ++
      (if kindOf f = .rmsg then [] else [lName meth f]) := by
    intro hb
    unfold around
    congr 1
    · congr 1
      by_cases hp : f.location = "path".toList
      · rw [if_pos hp, if_pos (decide_eq_true hp)]
      · rw [if_neg hp, if_neg fun h => hp (of_decide_eq_true h)]; rfl
    · by_cases hr : f.repeated = true
      · rw [if_pos hr, if_pos ((k3 hb).2 hr)]
      · rw [if_neg hr, if_neg fun h => hr ((k3 hb).1 h)]; rfl
  have hiff : FC g vs (lName meth f) (strN (lName meth f)) (arrN (lName meth f)) (name' (mention f.goType))
      (decide (f.location = "path".toList)) (kindOf f) (mark' (mention f.goType)) ↔ FieldOK g (Strs.goCamelCase meth) vs f := by
    constructor
    · intro h
      refine ⟨fun hp => h.fresh (decide_eq_true hp), fun hb => ?_, fun hp hb hr => h.texts (decide_eq_true hp) (k2.2 ⟨hb, hr⟩)⟩
      unfold Nameable
      split
      · trivial
      · rename_i p hm
        have := h.imp (by rw [hm]; rfl)
        rwa [hm] at this
      · rename_i t hm
        have := h.own (by rw [hm]; rfl)
        rw [hm] at this
        rw [haround hb]
        exact this
    · intro h
      refine ⟨fun hp => h.fresh (of_decide_eq_true hp), fun hp hk => h.texts (of_decide_eq_true hp) (k2.1 hk).1 (k2.1 hk).2,
        fun hm => ?_, fun hm => ?_⟩
      · cases hme : mention f.goType with
        | imported p =>
          have := h.type (Bool.eq_false_iff.2 fun hb => by rw [hpre hb] at hme; cases hme)
          unfold Nameable at this
          rw [hme] at this
          exact this
        | predeclared => rw [hme] at hm; cases hm
        | own t => rw [hme] at hm; cases hm
      · cases hme : mention f.goType with
        | own t =>
          have hb : f.isBase = false := Bool.eq_false_iff.2 fun hb => by rw [hpre hb] at hme; cases hme
          have := h.type hb
          unfold Nameable at this
          rw [hme] at this
          rw [haround hb] at this
          exact this
        | predeclared => rw [hme] at hm; cases hm
        | imported t => rw [hme] at hm; cases hm
  rw [hev, ← hiff]
  have hleft : left (Strs.goCamelCase meth) f =
      if decide (f.location = "path".toList) = true then [strN (lName meth f), lName meth f] else [] := by
    unfold left
    by_cases hp : f.location = "path".toList
    · rw [if_pos hp, if_pos (decide_eq_true hp)]; rfl
    · rw [if_neg hp, if_neg fun h => hp (of_decide_eq_true h)]
  rw [hleft]
  refine field_run hpk hI (names_of hup htl) _ _ _ (fun hm => hnot _ ?_) (fun hk => ?_)
  · cases hme : mention f.goType with
    | predeclared => rfl
    | imported p => exact (hf.imported p hme).1
    | own t => rw [hme] at hm; exact absurd rfl hm
  · rw [hpre (k1.1 hk)]; rfl

/-- … of all parameters. -/
theorem fields_run {g : Outer} (hpk : ∀ x ∈ pkgs, g.value x = true) {meth : Str} : ∀ {fs : List HField} {c : Block}
    {vs : List Str}, Inv c vs → (∀ f ∈ fs, Plain f) →
    (¬FieldsOK g (Strs.goCamelCase meth) vs fs ∧ run g [c] (fs.flatMap (fieldEvs meth)) = none) ∨
    (FieldsOK g (Strs.goCamelCase meth) vs fs ∧ ∃ c', run g [c] (fs.flatMap (fieldEvs meth)) = some [c'] ∧
      Inv c' (vs ++ fs.flatMap (left (Strs.goCamelCase meth)))) := by
  intro fs
  induction fs with
  | nil => intro c vs hI _; exact .inr ⟨trivial, c, rfl, by simpa using hI⟩
  | cons f fs ih =>
    intro c vs hI hf
    rw [List.flatMap_cons, List.flatMap_cons]
    unfold FieldsOK
    rcases fieldEvs_run hpk hI (meth := meth) (hf f List.mem_cons_self) with ⟨h1, h2⟩ | ⟨h1, c', h2, h3⟩
    · exact .inl ⟨fun h => h1 h.1, run_append_none h2⟩
    · rw [run_append_some h2]
      rcases ih h3 (fun f' hf' => hf f' (List.mem_cons_of_mem _ hf')) with ⟨h4, h5⟩ | ⟨h4, c'', h5, h6⟩
      · exact .inl ⟨fun h => h4 h.2, h5⟩
      · exact .inr ⟨⟨h1, h4⟩, c'', h5, by rwa [List.append_assoc] at h6⟩

end Baron.Locals
