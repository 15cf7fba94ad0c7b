import Verif.Proofs.Strs
import Verif.Spec.Strs

/-!
# Properties of names: C18-C20, C42
-/

namespace Baron.Strs

/-! ## C18 -/

theorem identChar_upperC {c : Char} (h : IdentChar c) : IdentChar (upperC c) := by
  cases hl : isAsciiLower c with
  | true => left; simp [isAsciiLetter, upperC_upper c hl]
  | false => rw [upperC_not c hl]; exact h

theorem camelGo_ident (prev : Option Char) (s : Str) (h : ∀ x ∈ s, IdentChar x) :
    ∀ x ∈ camelGo prev s, IdentChar x := by
  fun_induction camelGo prev s with
  | case1 => simp
  | case2 prev c r h1 ih => exact ih (fun x hx => h x (List.mem_cons_of_mem _ hx))
  | case3 prev r _ ih =>
    intro x hx
    rcases List.mem_cons.mp hx with rfl | hx
    · exact .inr (.inr rfl)
    · exact ih (fun x hx => h x (List.mem_cons_of_mem _ hx)) x hx
  | case4 prev c r h1 h2 h3 ih =>
    intro x hx
    rcases List.mem_cons.mp hx with rfl | hx
    · exact .inl (by decide)
    · exact ih (fun x hx => h x (List.mem_cons_of_mem _ hx)) x hx
  | case5 prev c r h1 h2 h3 h4 ih => exact ih (fun x hx => h x (List.mem_cons_of_mem _ hx))
  | case6 prev c r h1 h2 h3 h4 h5 ih =>
    intro x hx
    rcases List.mem_cons.mp hx with rfl | hx
    · exact .inr (.inl h5)
    · exact ih (fun x hx => h x (List.mem_cons_of_mem _ hx)) x hx
  | case7 prev c r h1 h2 h3 h4 h5 ih =>
    intro x hx
    rw [List.cons_append] at hx
    rcases List.mem_cons.mp hx with rfl | hx
    · exact identChar_upperC (h c List.mem_cons_self)
    · rcases List.mem_append.mp hx with hx | hx
      · exact .inl (by simp [isAsciiLetter, mem_takeWhile_imp hx])
      · exact ih (fun x hx => h x (List.mem_cons_of_mem _ ((List.dropWhile_sublist _).subset hx))) x hx

/-- **C18** Camel-casing a protobuf identifier yields an exported Go identifier. -/
theorem C18_exported (s : Str) (h : ProtoIdent s) : ExportedIdent (goCamelCase s) := by
  obtain ⟨c, r, rfl, hc, hr⟩ := h
  have hall : ∀ x ∈ goCamelCase (c :: r), IdentChar x := by
    apply camelGo_ident
    intro x hx
    rcases List.mem_cons.mp hx with rfl | hx
    · rcases hc with hc | hc
      · exact .inl hc
      · exact .inr (.inr hc)
    · exact hr x hx
  suffices ∃ d t, goCamelCase (c :: r) = d :: t ∧ isAsciiUpper d = true by
    obtain ⟨d, t, e, hd⟩ := this
    exact ⟨d, t, e, hd, fun x hx => hall x (by rw [e]; exact List.mem_cons_of_mem _ hx)⟩
  have hdot : c ≠ '.' := by
    rintro rfl
    rcases hc with hc | hc <;> exact absurd hc (by decide)
  unfold goCamelCase
  rw [camelGo, if_neg (fun e => hdot e.1), if_neg hdot]
  by_cases hu : c = '_'
  · rw [if_pos ⟨hu, .inl rfl⟩]
    exact ⟨_, _, rfl, by decide⟩
  · rw [if_neg (fun e => hu e.1), if_neg (fun e => hu e.1)]
    have hl : isAsciiLetter c = true := hc.resolve_right hu
    rw [isAsciiLetter, Bool.or_eq_true, lower_iff, upper_iff] at hl
    have hd : ¬ (isAsciiDigit c = true) := by rw [digit_iff]; omega
    rw [if_neg hd]
    refine ⟨_, _, rfl, ?_⟩
    cases hlo : isAsciiLower c with
    | true => exact upperC_upper c hlo
    | false =>
      rw [upperC_not c hlo, upper_iff]
      rcases hl with hl | hl
      · rw [(lower_iff c).mpr hl] at hlo
        exact absurd hlo (by decide)
      · exact hl

/-- **C18** No underscore is left before a lower-case letter, whatever the input. -/
theorem C18_no_underscore_lower (s a b : Str) (c : Char) (h : goCamelCase s = a ++ '_' :: c :: b) :
    isAsciiLower c = false := by
  have hst := (camelGo_stable none s 'A').1
  change Stable (some 'A') (goCamelCase s) at hst
  rw [h] at hst
  have : ∀ (a : Str) (p : Option Char), Stable p (a ++ '_' :: c :: b) → isAsciiLower c = false := by
    intro a
    induction a with
    | nil =>
      intro p hp
      cases hl : isAsciiLower c with
      | false => rfl
      | true =>
        obtain ⟨q, e, -, hq⟩ := hp.2.2.2.2.2.1 hl
        cases e
        exact absurd rfl hq
    | cons x a ih => intro p hp; exact ih _ hp.2.2.2
  exact this a _ hst

/-- **C18** Camel-casing a camel-cased name changes nothing, for every name not starting with a dot. -/
theorem C18_idempotent (s : Str) (h : s.head? ≠ some '.') : goCamelCase (goCamelCase s) = goCamelCase s := by
  have hst := (camelGo_stable none s 'A').1
  have hnl := (camelGo_stable none s 'A').2
  apply camelGo_fix none _ _ hnl (by simp)
  change Stable (some 'A') (goCamelCase s) at hst
  cases s with
  | nil => show Stable none (camelGo none []); rw [camelGo]; trivial
  | cons c r =>
    have hdot : c ≠ '.' := by
      rintro rfl
      exact h rfl
    have hne : ∃ d t, goCamelCase (c :: r) = d :: t ∧ d ≠ '_' := by
      unfold goCamelCase
      rw [camelGo, if_neg (fun e => hdot e.1), if_neg hdot]
      by_cases hu : c = '_'
      · rw [if_pos ⟨hu, .inl rfl⟩]
        exact ⟨_, _, rfl, by decide⟩
      · rw [if_neg (fun e => hu e.1), if_neg (fun e => hu e.1)]
        split
        · exact ⟨_, _, rfl, hu⟩
        · exact ⟨_, _, rfl, upperC_ne c '_' (by decide) hu⟩
    obtain ⟨d, t, e, hd⟩ := hne
    change nextLower (goCamelCase (c :: r)) = false at hnl
    change Stable none (goCamelCase (c :: r))
    rw [e] at hst hnl ⊢
    refine ⟨hst.1, fun e => absurd e hd, fun hl => ?_, hst.2.2.2⟩
    simp only [nextLower] at hnl
    rw [hnl] at hl
    exact absurd hl (by decide)

theorem lettersOf_cons (c : Char) (s : Str) (h : c ≠ '_') : lettersOf (c :: s) = lowerC c :: lettersOf s := by
  simp [lettersOf, h]

theorem lettersOf_underscore (s : Str) : lettersOf ('_' :: s) = lettersOf s := by
  simp [lettersOf]

theorem lettersOf_append (a b : Str) : lettersOf (a ++ b) = lettersOf a ++ lettersOf b := by
  simp [lettersOf]

/-- **C18** Camel-casing only changes case and drops underscores: apart from those, every letter and digit is kept,
in order (for names without dots that do not start with an underscore, which would become an 'X'). -/
theorem C18_keeps_letters (s : Str) (hdot : '.' ∉ s) (hu : s.head? ≠ some '_') :
    lettersOf (goCamelCase s) = lettersOf s := by
  have key : ∀ (prev : Option Char) (s : Str), '.' ∉ s → (prev = none → s.head? ≠ some '_') → prev ≠ some '.' →
      lettersOf (camelGo prev s) = lettersOf s := by
    intro prev s
    fun_induction camelGo prev s with
    | case1 => intros; rfl
    | case2 prev c r h1 ih => intro hd; exact absurd (by rw [h1.1]; simp) hd
    | case3 prev r _ ih => intro hd; exact absurd (by simp) hd
    | case4 prev c r h1 h2 h3 ih =>
      intro hd hp hq
      rcases h3.2 with e | e
      · exact absurd (by rw [h3.1]; rfl) (hp e)
      · exact absurd e hq
    | case5 prev c r h1 h2 h3 h4 ih =>
      intro hd hp hq
      rw [show lettersOf (c :: r) = lettersOf r by rw [h4.1, lettersOf_underscore]]
      exact ih (fun e => hd (List.mem_cons_of_mem _ e)) (by simp) (by simp; exact h2)
    | case6 prev c r h1 h2 h3 h4 h5 ih =>
      intro hd hp hq
      have hc : c ≠ '_' := by
        rintro rfl
        exact absurd h5 (by decide)
      rw [lettersOf_cons _ _ hc, lettersOf_cons _ _ hc,
        ih (fun e => hd (List.mem_cons_of_mem _ e)) (by simp) (by simp; exact h2)]
    | case7 prev c r h1 h2 h3 h4 h5 ih =>
      intro hd hp hq
      have hlast : some ((c :: r.takeWhile isAsciiLower).getLast (by simp)) ≠ some '.' := by
        intro e
        have e := Option.some.inj e
        have hm := List.getLast_mem (l := c :: r.takeWhile isAsciiLower) (by simp)
        rw [e] at hm
        rcases List.mem_cons.mp hm with hm | hm
        · exact h2 hm.symm
        · have := mem_takeWhile_imp hm
          exact absurd this (by decide)
      have ih := ih (fun e => hd (List.mem_cons_of_mem _ ((List.dropWhile_sublist _).subset e))) (by simp) hlast
      rw [List.cons_append]
      have htail : lettersOf (r.takeWhile isAsciiLower ++ camelGo (some ((c :: r.takeWhile isAsciiLower).getLast
          (by simp))) (r.dropWhile isAsciiLower)) = lettersOf r := by
        rw [lettersOf_append, ih, ← lettersOf_append, List.takeWhile_append_dropWhile]
      by_cases hc : c = '_'
      · subst hc
        rw [upperC_not '_' (by decide), lettersOf_underscore, lettersOf_underscore, htail]
      · rw [lettersOf_cons _ _ (upperC_ne c '_' (by decide) hc), lettersOf_cons _ _ hc, htail]
        congr 1
        cases hl : isAsciiLower c with
        | true => rw [lower_upper c hl, lowerC_not c (lower_not_upper c hl)]
        | false => rw [upperC_not c hl]
  exact key none s hdot (fun _ => hu) (by simp)

example : ProtoIdent "_my_2".toList := by
  refine ⟨'_', "my_2".toList, by decide +kernel, .inr rfl, fun x hx => ?_⟩
  simp only [show "my_2".toList = ['m', 'y', '_', '2'] by decide +kernel, List.mem_cons, List.not_mem_nil,
    or_false] at hx
  rcases hx with rfl | rfl | rfl | rfl
  · exact .inl (by decide)
  · exact .inl (by decide)
  · exact .inr (.inr rfl)
  · exact .inr (.inl (by decide))
example : goCamelCase "_my_field_name_2".toList = "XMyFieldName_2".toList := by decide +kernel
/-- A name starting with a dot is not covered by idempotence, and indeed it fails there. -/
example : goCamelCase ".A".toList = "_A".toList ∧ goCamelCase "_A".toList = "XA".toList := by decide +kernel
example : lettersOf (goCamelCase "user_ID2x".toList) = lettersOf "user_ID2x".toList := by decide +kernel

/-! ## C19 -/

theorem mem_keywords (s : Str) : s ∈ goKeywords ↔ s ∈ keywords := by
  have h1 : ∀ k ∈ goKeywords, k ∈ keywords := by decide +kernel
  have h2 : ∀ k ∈ keywords, k ∈ goKeywords := by decide +kernel
  exact ⟨h1 s, h2 s⟩

theorem keyword_not_underscore (s : Str) : goKeywords.contains ('_' :: s) = false := by
  have : ∀ k ∈ goKeywords, k.head? ≠ some '_' := by decide +kernel
  cases h : goKeywords.contains ('_' :: s) with
  | false => rfl
  | true =>
    rw [List.contains_iff_mem] at h
    exact absurd rfl (this _ h)

/-- **C19** Sanitising any string yields a Go identifier that is not a keyword. -/
theorem C19_valid (U : Uni) (s : Str) : GoIdent U (goSanitized U s) ∧ goSanitized U s ∉ keywords := by
  rw [← mem_keywords]
  unfold goSanitized
  simp only
  generalize hs : (s.map fun r => if (U.isLetter r || U.isDigit r) = true then r else '_') = t
  have hall : ∀ x ∈ t, U.isLetter x = true ∨ U.isDigit x = true ∨ x = '_' := by
    rw [← hs]
    intro x hx
    obtain ⟨y, -, rfl⟩ := List.mem_map.mp hx
    split
    · rename_i h
      rw [Bool.or_eq_true] at h
      exact h.elim .inl (fun h => .inr (.inl h))
    · exact .inr (.inr rfl)
  split
  · refine ⟨⟨'_', t, rfl, .inr rfl, hall⟩, ?_⟩
    intro hm
    have := keyword_not_underscore t
    rw [List.contains_iff_mem.mpr hm] at this
    exact absurd this (by decide)
  · rename_i h
    simp only [Bool.or_eq_true, Bool.not_eq_true', not_or] at h
    cases t with
    | nil => exact absurd rfl h.2
    | cons c r =>
      refine ⟨⟨c, r, rfl, .inl (by simpa [firstLetter] using h.2), fun x hx => hall x (List.mem_cons_of_mem _ hx)⟩, ?_⟩
      intro hm
      exact h.1 (List.contains_iff_mem.mpr hm)

/-- **C19** A string that already is a non-keyword identifier starting with a letter is left unchanged. -/
theorem C19_unchanged (U : Uni) (s : Str) (h : GoIdent U s) (hk : s ∉ keywords)
    (hl : ∃ c r, s = c :: r ∧ U.isLetter c = true) : goSanitized U s = s := by
  rw [← mem_keywords] at hk
  obtain ⟨c, r, rfl, hc⟩ := hl
  obtain ⟨c', r', e, -, hr⟩ := h
  cases e
  have hm : ((c :: r).map fun r => if (U.isLetter r || U.isDigit r) = true then r else '_') = c :: r := by
    rw [List.map_cons, hc, Bool.true_or, if_pos rfl]
    congr 1
    have : ∀ x ∈ r, (if (U.isLetter x || U.isDigit x) = true then x else '_') = x := by
      intro x hx
      split
      · rfl
      · rename_i hn
        simp only [Bool.or_eq_true, not_or] at hn
        rcases hr x hx with h | h | h
        · exact absurd h hn.1
        · exact absurd h hn.2
        · exact h.symm
    rw [List.map_congr_left this]
    exact List.map_id' r
  unfold goSanitized
  simp only
  rw [hm]
  have hcont : goKeywords.contains (c :: r) = false := by
    cases hh : goKeywords.contains (c :: r) with
    | false => rfl
    | true => exact absurd (List.contains_iff_mem.mp hh) hk
  rw [hcont, firstLetter, hc]
  rfl

/-- **C19** Every character of the input survives or becomes an underscore; at most one underscore is put in front. -/
theorem C19_shape (U : Uni) (s : Str) :
    ∃ t, (goSanitized U s = t ∨ goSanitized U s = '_' :: t) ∧ t.length = s.length ∧
      ∀ i (h : i < s.length) (h' : i < t.length), t[i] = s[i] ∨
        (t[i] = '_' ∧ U.isLetter s[i] = false ∧ U.isDigit s[i] = false) := by
  refine ⟨s.map fun r => if (U.isLetter r || U.isDigit r) = true then r else '_', ?_, by simp, ?_⟩
  · unfold goSanitized
    simp only
    split
    · exact .inr rfl
    · exact .inl rfl
  · intro i h h'
    rw [List.getElem_map]
    split
    · exact .inl rfl
    · rename_i hn
      simp only [Bool.or_eq_true, not_or, Bool.not_eq_true] at hn
      exact .inr ⟨rfl, hn⟩

example : goSanitized asciiUni "func".toList = "_func".toList ∧ goSanitized asciiUni "9-a".toList = "_9_a".toList ∧
    goSanitized asciiUni [] = ['_'] ∧ goSanitized asciiUni "my_pkg".toList = "my_pkg".toList := by decide +kernel
example : GoIdent asciiUni "my_pkg".toList ∧ "my_pkg".toList ∉ keywords :=
  ⟨⟨'m', _, rfl, .inl (by decide), by decide⟩, by decide +kernel⟩

/-! ## C20 -/

/-- **C20** Snake-casing a JSON name without underscores and camel-casing the result gives the name back. -/
theorem C20_camel_of_snake (s : Str) (h : '_' ∉ s) : jsonCamelCase (jsonSnakeCase s) = s := by
  unfold jsonCamelCase
  induction s with
  | nil => rfl
  | cons c r ih =>
    have hc : c ≠ '_' := fun e => h (by rw [e]; simp)
    have ih := ih (fun e => h (List.mem_cons_of_mem _ e))
    rw [jsonSnakeCase]
    cases hu : isAsciiUpper c with
    | true =>
      rw [if_pos rfl, jsonCamelGo, if_neg (by simp), jsonCamelGo]
      have hlo := lowerC_lower c hu
      have hne : lowerC c ≠ '_' := by
        intro e
        rw [e] at hlo
        exact absurd hlo (by decide)
      rw [if_pos hne, hlo, Bool.and_true, if_pos rfl, upper_lower c hu, ih]
    | false =>
      rw [if_neg (by decide), jsonCamelGo, if_pos hc, Bool.false_and, if_neg (by decide), ih]

/-- **C20** Camel-casing a lower_snake_case name and snake-casing the result gives the name back. -/
theorem C20_snake_of_camel (s : Str) (h : LowerSnake s) : jsonSnakeCase (jsonCamelCase s) = s := by
  obtain ⟨hlow, hus⟩ := h
  unfold jsonCamelCase
  have key : ∀ (was : Bool) (s : Str), (∀ c ∈ s, isAsciiUpper c = false) →
      (∀ a b, s = a ++ '_' :: b → ∃ c r, b = c :: r ∧ isAsciiLower c = true) →
      (was = true → ∃ c r, s = c :: r ∧ isAsciiLower c = true) →
      jsonSnakeCase (jsonCamelGo was s) = if was then '_' :: s else s := by
    intro was s
    induction s generalizing was with
    | nil =>
      intro _ _ hw
      cases was with
      | false => rfl
      | true => obtain ⟨c, r, e, -⟩ := hw rfl; cases e
    | cons c r ih =>
      intro h1 h2 h3
      have hr1 : ∀ c ∈ r, isAsciiUpper c = false := fun x hx => h1 x (List.mem_cons_of_mem _ hx)
      have hr2 : ∀ a b, r = a ++ '_' :: b → ∃ c r, b = c :: r ∧ isAsciiLower c = true :=
        fun a b e => h2 (c :: a) b (by rw [e]; rfl)
      rw [jsonCamelGo]
      by_cases hc : c = '_'
      · subst hc
        rw [if_neg (by simp)]
        have hw : was = false := by
          cases was with
          | false => rfl
          | true =>
            obtain ⟨c, r', e, hl⟩ := h3 rfl
            cases e
            exact absurd hl (by decide)
        rw [ih true hr1 hr2 (fun _ => h2 [] r rfl), hw]
        rfl
      · rw [if_pos hc]
        have hcu := h1 c List.mem_cons_self
        cases was with
        | false =>
          rw [Bool.false_and, if_neg (by decide), jsonSnakeCase, hcu, if_neg (by decide),
            ih false hr1 hr2 (by simp)]
          rfl
        | true =>
          obtain ⟨c', r', e, hl⟩ := h3 rfl
          cases e
          rw [hl, Bool.true_and, if_pos rfl, jsonSnakeCase, upperC_upper c hl, if_pos rfl, lower_upper c hl,
            ih false hr1 hr2 (by simp)]
          rfl
  exact key false s hlow hus (by simp)

example : LowerSnake "user_id2".toList := by
  refine ⟨by decide, ?_⟩
  intro a b h
  have hb : b = (("user_id2".toList).drop (a.length + 1)) := by
    rw [h, List.drop_append]; simp
  have hi : ("user_id2".toList)[a.length]? = some '_' := by rw [h]; simp
  have : a.length = 4 := by
    have hlt : a.length < 8 := by
      have := congrArg List.length h
      simp at this
      omega
    match ha : a.length, hlt with
    | 0, _ | 1, _ | 2, _ | 3, _ | 5, _ | 6, _ | 7, _ => rw [ha] at hi; exact absurd hi (by decide)
    | 4, _ => rfl
  rw [this] at hb
  exact ⟨'i', "d2".toList, hb, by decide⟩
example : jsonCamelCase "user_id2".toList = "userId2".toList ∧ jsonSnakeCase "userId2".toList = "user_id2".toList := by
  decide +kernel
/-- Outside lower_snake_case the round trip fails: digits after an underscore lose it. -/
example : jsonSnakeCase (jsonCamelCase "a_1".toList) = "a1".toList := by decide +kernel

/-! ## C42 -/

/-- **C42** Trimming an enum prefix returns the value name itself, or a suffix of it that is not empty and does not
start with an underscore, such that what was cut off spells the prefix (ignoring case and underscores). -/
theorem C42_trim_prefix (s pre : Str) (hp : '_' ∉ pre) :
    trimEnumPrefix s pre = s ∨
    ∃ cut, s = cut ++ trimEnumPrefix s pre ∧ trimEnumPrefix s pre ≠ [] ∧
      (trimEnumPrefix s pre).head? ≠ some '_' ∧ lettersOf cut = pre := by
  have key : ∀ (s pre : Str) (t : Str), '_' ∉ pre → trimEnumGo s pre = some t →
      ∃ cut, s = cut ++ t ∧ lettersOf cut = pre := by
    intro s pre
    fun_induction trimEnumGo s pre with
    | case1 s => intro t _ h; cases h; exact ⟨[], rfl, rfl⟩
    | case2 => intro t _ h; cases h
    | case3 p ps r ih =>
      intro t hp h
      obtain ⟨cut, e, hl⟩ := ih t hp h
      exact ⟨'_' :: cut, by rw [e]; rfl, by rw [lettersOf_underscore, hl]⟩
    | case4 => intro t _ h; cases h
    | case5 c r p ps h1 h2 ih =>
      intro t hp h
      obtain ⟨cut, e, hl⟩ := ih t (fun e => hp (List.mem_cons_of_mem _ e)) h
      refine ⟨c :: cut, by rw [e]; rfl, ?_⟩
      rw [lettersOf_cons _ _ h1, hl, Classical.not_not.mp h2]
  unfold trimEnumPrefix
  cases hg : trimEnumGo s pre with
  | none => exact .inl rfl
  | some t =>
    simp only
    split
    · exact .inl rfl
    · rename_i hne
      right
      obtain ⟨cut, e, hl⟩ := key s pre t hp hg
      have htd : ∃ u, t = u ++ trimLeft '_' t ∧ ∀ x ∈ u, x = '_' := by
        refine ⟨t.takeWhile (fun x => decide (x = '_')), ?_, fun x hx => by simpa using mem_takeWhile_imp hx⟩
        exact (List.takeWhile_append_dropWhile).symm
      obtain ⟨u, hu, hall⟩ := htd
      refine ⟨cut ++ u, ?_, hne, ?_, ?_⟩
      · rw [List.append_assoc, ← hu, e]
      · intro hh
        have := List.head_dropWhile_not (fun x => decide (x = '_')) (l := t) hne
        rw [decide_eq_false_iff_not] at this
        apply this
        have h2 := List.head?_eq_some_head (l := trimLeft '_' t) hne
        rw [hh] at h2
        exact (Option.some.inj h2).symm
      · rw [lettersOf_append, hl]
        have : lettersOf u = [] := by
          unfold lettersOf
          rw [List.filter_eq_nil_iff.mpr]
          · rfl
          · intro x hx; simp [hall x hx]
        rw [this, List.append_nil]

/-- **C42** The map-entry name is the field name with every word capitalised and underscores dropped, plus "Entry". -/
theorem C42_map_entry (s : Str) : lettersOf (mapEntryName s) = lettersOf s ++ "entry".toList ∧
    '_' ∉ mapEntryName s := by
  have key : ∀ (u : Bool) (s : Str), lettersOf (mapEntryGo u s) = lettersOf s ∧ '_' ∉ mapEntryGo u s := by
    intro u s
    fun_induction mapEntryGo u s with
    | case1 => exact ⟨rfl, by simp⟩
    | case2 u r ih => rw [lettersOf_underscore]; exact ih
    | case3 c r hc ih =>
      have hne := upperC_ne c '_' (by decide) hc
      rw [lettersOf_cons _ _ hne, lettersOf_cons _ _ hc, ih.1]
      refine ⟨?_, by simp [ih.2, hne.symm]⟩
      cases hl : isAsciiLower c with
      | true => rw [lower_upper c hl, lowerC_not c (lower_not_upper c hl)]
      | false => rw [upperC_not c hl]
    | case4 u c r hc hu ih =>
      rw [lettersOf_cons _ _ hc, lettersOf_cons _ _ hc, ih.1]
      exact ⟨rfl, by simp [ih.2, Ne.symm hc]⟩
  unfold mapEntryName
  rw [lettersOf_append, (key true s).1]
  refine ⟨rfl, ?_⟩
  rw [List.mem_append, not_or]
  exact ⟨(key true s).2, by decide⟩

/-- **C42** The enum value name keeps every letter, has no underscores and ignores the input's case. -/
theorem C42_enum_value (s : Str) : lettersOf (enumValueName s) = lettersOf s ∧ '_' ∉ enumValueName s ∧
    enumValueName (toLower s) = enumValueName s := by
  have hlow : ∀ c, c ≠ '_' → lowerC c ≠ '_' := by
    intro c hc
    cases hu : isAsciiUpper c with
    | true =>
      intro e
      have := lowerC_lower c hu
      rw [e] at this
      exact absurd this (by decide)
    | false => rw [lowerC_not c hu]; exact hc
  have hll : ∀ c, lowerC (lowerC c) = lowerC c := by
    intro c
    cases hu : isAsciiUpper c with
    | true => exact lowerC_not _ (lower_not_upper _ (lowerC_lower c hu))
    | false => rw [lowerC_not c hu, lowerC_not c hu]
  have hlu : ∀ c, lowerC (upperC c) = lowerC c := by
    intro c
    cases hl : isAsciiLower c with
    | true => rw [lower_upper c hl, lowerC_not c (lower_not_upper c hl)]
    | false => rw [upperC_not c hl]
  have hul : ∀ c, upperC (lowerC c) = upperC c := by
    intro c
    cases hu : isAsciiUpper c with
    | true => rw [upper_lower c hu, upperC_not c (upper_not_lower c hu)]
    | false => rw [lowerC_not c hu]
  have key : ∀ (u : Bool) (s : Str), lettersOf (enumValueGo u s) = lettersOf s ∧ '_' ∉ enumValueGo u s ∧
      enumValueGo u (toLower s) = enumValueGo u s := by
    intro u s
    fun_induction enumValueGo u s with
    | case1 => exact ⟨rfl, by simp, rfl⟩
    | case2 u r ih =>
      rw [lettersOf_underscore]
      refine ⟨ih.1, ih.2.1, ?_⟩
      show enumValueGo u (lowerC '_' :: toLower r) = _
      rw [lowerC_not '_' (by decide), enumValueGo, if_pos rfl, ih.2.2]
    | case3 c r hc ih =>
      have hne := upperC_ne c '_' (by decide) hc
      rw [lettersOf_cons _ _ hne, lettersOf_cons _ _ hc, ih.1]
      refine ⟨by rw [hlu], by simp [ih.2.1, hne.symm], ?_⟩
      show enumValueGo true (lowerC c :: toLower r) = _
      rw [enumValueGo, if_neg (hlow c hc), if_pos rfl, ih.2.2, hul]
    | case4 u c r hc hu ih =>
      have hne := hlow c hc
      rw [lettersOf_cons _ _ hne, lettersOf_cons _ _ hc, ih.1]
      refine ⟨by rw [hll], by simp [ih.2.1, hne.symm], ?_⟩
      show enumValueGo u (lowerC c :: toLower r) = _
      rw [enumValueGo, if_neg hne, if_neg hu, ih.2.2, hll]
  exact key true s

example : trimEnumPrefix "MY_COLOR_RED".toList "mycolor".toList = "RED".toList ∧
    trimEnumPrefix "MY_COLOR".toList "mycolor".toList = "MY_COLOR".toList ∧
    mapEntryName "foo_bar".toList = "FooBarEntry".toList ∧ enumValueName "FOO_BAR".toList = "FooBar".toList := by
  decide +kernel

/-! ## Exact forms -/

theorem nextLower_head (s : Str) : nextLower s = lowerNext s.head? := by
  cases s <;> rfl

theorem camelText_run (r : Str) : ∀ p : Char, wordStart (some p) = false →
    camelText (some p) r = r.takeWhile isAsciiLower ++
      camelText (some ((p :: r.takeWhile isAsciiLower).getLast (by simp))) (r.dropWhile isAsciiLower) := by
  induction r with
  | nil => intro p _; rfl
  | cons c r ih =>
    intro p hp
    by_cases hc : isAsciiLower c = true
    · have hd : c ≠ '.' := by rintro rfl; exact absurd hc (by decide)
      have hu : c ≠ '_' := by rintro rfl; exact absurd hc (by decide)
      have hdig : isAsciiDigit c = false := by
        rw [Bool.eq_false_iff, ne_eq, digit_iff]; have := (lower_iff c).mp hc; omega
      have hw : wordStart (some c) = false := by simp [wordStart, hd, hu, hdig]
      have e1 : camelChar (some p) r.head? c = [c] := by
        unfold camelChar
        rw [if_neg hd, if_neg (fun e => hu e.1), if_neg (fun e => hu e.1), if_neg (by rw [hp]; simp)]
      rw [camelText, e1, ih c hw, List.takeWhile_cons_of_pos hc, List.dropWhile_cons_of_pos hc]
      simp [List.getLast_cons]
    · rw [List.takeWhile_cons_of_neg hc, List.dropWhile_cons_of_neg hc]; rfl

theorem camelGo_text (s : Str) : ∀ prev, (nextLower s = true → wordStart prev = true) →
    camelGo prev s = camelText prev s := by
  generalize hn : s.length = n
  induction n using Nat.strongRecOn generalizing s with
  | _ n ih =>
    intro prev hprev
    cases s with
    | nil => rw [camelGo]; rfl
    | cons c r =>
      have hr : r.length < n := by rw [← hn]; simp
      rw [camelGo, camelText]
      unfold camelChar
      rw [nextLower_head r]
      by_cases h1 : c = '.'
      · subst h1
        by_cases h2 : lowerNext r.head? = true
        · rw [if_pos ⟨rfl, h2⟩, if_pos rfl, if_pos h2, ih _ hr r rfl _ (fun _ => rfl)]; rfl
        · rw [if_neg (fun e => h2 e.2), if_pos rfl, if_pos rfl, if_neg h2, ih _ hr r rfl _ (fun _ => rfl)]; rfl
      · rw [if_neg (fun e => h1 e.1), if_neg h1, if_neg h1]
        by_cases h2 : c = '_' ∧ (prev = none ∨ prev = some '.')
        · rw [if_pos h2, if_pos h2, ih _ hr r rfl _ (fun _ => by rw [h2.1]; rfl)]; rfl
        · rw [if_neg h2, if_neg h2]
          by_cases h3 : c = '_' ∧ lowerNext r.head? = true
          · rw [if_pos h3, if_pos h3, ih _ hr r rfl _ (fun _ => by rw [h3.1]; rfl)]; rfl
          · rw [if_neg h3, if_neg h3]
            by_cases h4 : isAsciiDigit c = true
            · have hl : isAsciiLower c = false := by
                rw [Bool.eq_false_iff, ne_eq, lower_iff]; have := (digit_iff c).mp h4; omega
              rw [if_pos h4, if_neg (by rw [hl]; simp), ih _ hr r rfl _ (fun _ => by simp [wordStart, h4])]; rfl
            · rw [if_neg h4]
              have hcont : ∀ q, (nextLower (r.dropWhile isAsciiLower) = true → wordStart q = true) := by
                intro q hq
                exfalso
                revert hq
                have : ∀ l : Str, nextLower (l.dropWhile isAsciiLower) = false := by
                  intro l
                  induction l with
                  | nil => rfl
                  | cons x l ihl =>
                    by_cases hx : isAsciiLower x = true
                    · rw [List.dropWhile_cons_of_pos hx]; exact ihl
                    · rw [List.dropWhile_cons_of_neg hx]; simpa [nextLower] using hx
                rw [this]; simp
              have hlen : (r.dropWhile isAsciiLower).length < n :=
                Nat.lt_of_le_of_lt (List.dropWhile_sublist _).length_le hr
              rw [ih _ hlen _ rfl _ (hcont _)]
              by_cases h5 : c = '_'
              · have hnl : ¬ lowerNext r.head? = true := fun e => h3 ⟨h5, e⟩
                have ht : r.takeWhile isAsciiLower = [] ∧ r.dropWhile isAsciiLower = r := by
                  cases r with
                  | nil => exact ⟨rfl, rfl⟩
                  | cons x r =>
                    have hx : ¬ isAsciiLower x = true := hnl
                    exact ⟨List.takeWhile_cons_of_neg hx, List.dropWhile_cons_of_neg hx⟩
                have hl : isAsciiLower c = false := by rw [h5]; decide
                rw [if_neg (by rw [hl]; simp), upperC_not c hl]
                simp only [ht.1, ht.2, List.nil_append, List.cons_append, List.getLast_singleton]
              · have hw : wordStart (some c) = false := by simp [wordStart, h1, h5, h4]
                rw [camelText_run r c hw]
                by_cases hl : isAsciiLower c = true
                · rw [if_pos ⟨hl, hprev hl⟩]; simp
                · rw [if_neg (fun e => hl e.1), upperC_not c (by simpa using hl)]; simp

/-- **C18** Exactly what camel-casing does to any string: each character is treated by looking at its neighbours only.
A lower-case letter at the beginning of a word (after the start, a dot, an underscore or a digit) becomes upper case;
an underscore or dot before a lower-case letter disappears; another dot becomes an underscore; an underscore at the
start of a name becomes `X`; everything else stays. -/
theorem C18_exact (s : Str) : goCamelCase s = camelText none s :=
  camelGo_text s none (fun _ => rfl)

example : goCamelCase "my_field_2b.x_1".toList = "MyField_2BX_1".toList := by
  rw [C18_exact]; decide +kernel

/-- **C18** In particular a lower-case name made of words joined by underscores becomes the capitalised words joined. -/
theorem C18_words (ws : List Str) (hne : ∀ w ∈ ws, w ≠ []) (hl : ∀ w ∈ ws, ∀ c ∈ w, isAsciiLower c = true) :
    goCamelCase (join '_' ws) = ws.flatMap capital := by
  rw [C18_exact]
  have word : ∀ (w rest : Str) (prev : Option Char), w ≠ [] → (∀ c ∈ w, isAsciiLower c = true) →
      wordStart prev = true → (∀ c r, rest = c :: r → isAsciiLower c = false) →
      camelText prev (w ++ rest) = capital w ++ camelText (w.getLast?) rest := by
    intro w rest prev hw hlow hp hrest
    cases w with
    | nil => exact absurd rfl hw
    | cons c w =>
      have hc := hlow c List.mem_cons_self
      have hd : c ≠ '.' := by rintro rfl; exact absurd hc (by decide)
      have hu : c ≠ '_' := by rintro rfl; exact absurd hc (by decide)
      have hdig : isAsciiDigit c = false := by
        rw [Bool.eq_false_iff, ne_eq, digit_iff]; have := (lower_iff c).mp hc; omega
      have hwc : wordStart (some c) = false := by simp [wordStart, hd, hu, hdig]
      have e1 : ∀ nx, camelChar prev nx c = [upperC c] := by
        intro nx
        unfold camelChar
        rw [if_neg hd, if_neg (fun e => hu e.1), if_neg (fun e => hu e.1), if_pos ⟨hc, hp⟩]
      rw [List.cons_append, camelText, e1, camelText_run _ c hwc]
      have hall : ∀ x ∈ w, isAsciiLower x = true := fun x hx => hlow x (List.mem_cons_of_mem _ hx)
      have ht : (w ++ rest).takeWhile isAsciiLower = w ∧ (w ++ rest).dropWhile isAsciiLower = rest := by
        rw [List.takeWhile_append_of_pos hall, List.dropWhile_append_of_pos hall]
        cases rest with
        | nil => simp
        | cons x r =>
          have hx := hrest x r rfl
          rw [List.takeWhile_cons_of_neg (by rw [hx]; simp), List.dropWhile_cons_of_neg (by rw [hx]; simp)]
          simp
      have hgl : (c :: w).getLast? = some ((c :: w).getLast (by simp)) := List.getLast?_eq_some_getLast _
      simp only [ht.1, ht.2, capital, hgl]
      simp
  have main : ∀ (ws : List Str) (prev : Option Char), (∀ w ∈ ws, w ≠ []) →
      (∀ w ∈ ws, ∀ c ∈ w, isAsciiLower c = true) → wordStart prev = true →
      camelText prev (join '_' ws) = ws.flatMap capital := by
    intro ws
    induction ws with
    | nil => intro prev _ _ _; rfl
    | cons w ws ih =>
      intro prev h1 h2 h3
      cases ws with
      | nil =>
        have := word w [] prev (h1 w List.mem_cons_self) (h2 w List.mem_cons_self) h3 (by simp)
        simpa [join, camelText] using this
      | cons v ws =>
        rw [join, word w _ prev (h1 w List.mem_cons_self) (h2 w List.mem_cons_self) h3
          (by rintro c r e; cases e; decide)]
        have hw := h1 w List.mem_cons_self
        have hgl := List.getLast?_eq_some_getLast hw
        have hlast := h2 w List.mem_cons_self _ (List.getLast_mem hw)
        rw [hgl, camelText]
        have hv := h1 v (by simp)
        have hhead : lowerNext (join '_' (v :: ws)).head? = true := by
          cases v with
          | nil => exact absurd rfl hv
          | cons x v =>
            have hx := h2 (x :: v) (by simp) x List.mem_cons_self
            cases ws <;> simpa [join, lowerNext] using hx
        have e1 : camelChar (some (w.getLast hw)) (join '_' (v :: ws)).head? '_' = [] := by
          unfold camelChar
          rw [if_neg (by decide), if_neg, if_pos ⟨rfl, hhead⟩]
          rintro ⟨-, e | e⟩
          · cases e
          · simp only [Option.some.injEq] at e; rw [e] at hlast; exact absurd hlast (by decide)
        rw [e1, List.nil_append, ih (some '_') (fun x hx => h1 x (List.mem_cons_of_mem _ hx))
          (fun x hx => h2 x (List.mem_cons_of_mem _ hx)) rfl]
        rfl
  exact main ws none hne hl rfl

/-- **C19** The underscore in front is only put there when the rest would not be usable: it is a keyword or does not
start with a letter. -/
theorem C19_prefix_needed (U : Uni) (s t : Str) (h : goSanitized U s = '_' :: t) (hlen : t.length = s.length) :
    t ∈ keywords ∨ ¬ ∃ c r, t = c :: r ∧ U.isLetter c = true := by
  rw [← mem_keywords]
  unfold goSanitized at h
  simp only at h
  split at h
  · rename_i hc
    simp only [List.cons.injEq, true_and] at h
    rw [h] at hc
    simp only [Bool.or_eq_true, List.contains_iff_mem, Bool.not_eq_true'] at hc
    rcases hc with hc | hc
    · exact .inl hc
    · refine .inr ?_
      rintro ⟨c, r, rfl, hl⟩
      rw [firstLetter, hl] at hc; cases hc
  · have := congrArg List.length h
    simp at this; omega

/-- **C42** If the value name starts with the prefix (spelled ignoring case and underscores) and something other than
underscores follows, exactly that is returned; if nothing else follows, the whole name is. -/
theorem C42_trims (cut rest pre : Str) (h : lettersOf cut = pre) :
    trimEnumPrefix (cut ++ rest) pre =
      if rest.dropWhile (· = '_') = [] then cut ++ rest else rest.dropWhile (· = '_') := by
  have low : ∀ c : Char, c ≠ '_' → lowerC c ≠ '_' := by
    intro c hc
    cases hu : isAsciiUpper c with
    | true =>
      intro e
      have := lowerC_lower c hu
      rw [e] at this; exact absurd this (by decide)
    | false => rw [lowerC_not c hu]; exact hc
  have key : ∀ (cut pre : Str), lettersOf cut = pre →
      ∃ t, trimEnumGo (cut ++ rest) pre = some t ∧ trimLeft '_' t = trimLeft '_' rest := by
    intro cut
    induction cut with
    | nil =>
      intro pre h
      have : pre = [] := by rw [← h]; rfl
      subst this
      exact ⟨rest, by unfold trimEnumGo; rfl, rfl⟩
    | cons c cut ih =>
      intro pre h
      by_cases hc : c = '_'
      · subst hc
        have h' : lettersOf cut = pre := by rw [← h]; rfl
        cases pre with
        | nil =>
          refine ⟨'_' :: cut ++ rest, by unfold trimEnumGo; rfl, ?_⟩
          obtain ⟨t, h1, h2⟩ := ih [] h'
          have ht : t = cut ++ rest := by
            unfold trimEnumGo at h1; simpa using h1.symm
          rw [← h2, ht]; rfl
        | cons p ps =>
          obtain ⟨t, h1, h2⟩ := ih (p :: ps) h'
          exact ⟨t, by rw [List.cons_append, trimEnumGo, if_pos rfl]; exact h1, h2⟩
      · have h' : lowerC c :: lettersOf cut = pre := by
          rw [← h]; simp [lettersOf, hc]
        subst h'
        obtain ⟨t, h1, h2⟩ := ih _ rfl
        exact ⟨t, by rw [List.cons_append, trimEnumGo, if_neg hc, if_neg (by simp)]; exact h1, h2⟩
  obtain ⟨t, h1, h2⟩ := key cut pre h
  unfold trimEnumPrefix
  rw [h1]
  simp only [h2]
  rfl

example : trimEnumPrefix "FOO_BAR_BAZ".toList "foobar".toList = "BAZ".toList := by
  rw [show "FOO_BAR_BAZ".toList = "FOO_BAR".toList ++ "_BAZ".toList from rfl, C42_trims _ _ _ (by decide +kernel)]
  decide +kernel

theorem mapEntryGo_join (ws : List Str) (h : ∀ w ∈ ws, '_' ∉ w) : mapEntryGo true (join '_' ws) = ws.flatMap capital := by
  have copy : ∀ (w rest : Str), '_' ∉ w → mapEntryGo false (w ++ rest) = w ++ mapEntryGo false rest := by
    intro w rest
    induction w with
    | nil => intro _; rfl
    | cons c w ih =>
      intro hw
      simp only [List.mem_cons, not_or] at hw
      rw [List.cons_append, mapEntryGo, if_neg (fun e => hw.1 e.symm), if_neg (by simp), ih hw.2]; rfl
  have one : ∀ (w rest : Str), '_' ∉ w → mapEntryGo true (w ++ '_' :: rest) = capital w ++ mapEntryGo true rest := by
    intro w rest hw
    cases w with
    | nil => rw [List.nil_append, mapEntryGo, if_pos rfl]; rfl
    | cons c w =>
      simp only [List.mem_cons, not_or] at hw
      rw [List.cons_append, mapEntryGo, if_neg (fun e => hw.1 e.symm), if_pos rfl, copy w _ hw.2, mapEntryGo, if_pos rfl]
      rfl
  have last : ∀ w : Str, '_' ∉ w → mapEntryGo true w = capital w := by
    intro w hw
    cases w with
    | nil => rfl
    | cons c w =>
      simp only [List.mem_cons, not_or] at hw
      have := copy w [] hw.2
      rw [List.append_nil] at this
      rw [mapEntryGo, if_neg (fun e => hw.1 e.symm), if_pos rfl, this]
      simp [mapEntryGo, capital]
  induction ws with
  | nil => rfl
  | cons w ws ih =>
    cases ws with
    | nil => simp [join, last w (h w List.mem_cons_self)]
    | cons v ws =>
      rw [join, one w _ (h w List.mem_cons_self), ih (fun x hx => h x (List.mem_cons_of_mem _ hx))]; rfl

/-- **C42** The map-entry name of words joined by underscores: the words with their first letters in upper case, then
`Entry`. -/
theorem C42_map_entry_words (ws : List Str) (h : ∀ w ∈ ws, '_' ∉ w) :
    mapEntryName (join '_' ws) = ws.flatMap capital ++ "Entry".toList := by
  unfold mapEntryName; rw [mapEntryGo_join ws h]

theorem enumValueGo_eq (b : Bool) (s : Str) : enumValueGo b s = mapEntryGo b (s.map lowerC) := by
  have low : ∀ c : Char, c ≠ '_' → lowerC c ≠ '_' := by
    intro c hc
    cases hu : isAsciiUpper c with
    | true =>
      intro e
      have := lowerC_lower c hu
      rw [e] at this; exact absurd this (by decide)
    | false => rw [lowerC_not c hu]; exact hc
  have up : ∀ c : Char, upperC (lowerC c) = upperC c := by
    intro c
    cases hu : isAsciiUpper c with
    | true => rw [upper_lower c hu, upperC_not c (upper_not_lower c hu)]
    | false => rw [lowerC_not c hu]
  induction s generalizing b with
  | nil => rfl
  | cons c s ih =>
    rw [enumValueGo, List.map_cons, mapEntryGo]
    by_cases hc : c = '_'
    · subst hc
      rw [if_pos rfl, if_pos (by decide), ih]
    · rw [if_neg hc, if_neg (low c hc), ih, up]

/-- **C42** The enum value name of words joined by underscores: the words in lower case with their first letters in
upper case. -/
theorem C42_enum_value_words (ws : List Str) (h : ∀ w ∈ ws, '_' ∉ w) :
    enumValueName (join '_' ws) = ws.flatMap fun w => capital (toLower w) := by
  have hm : ∀ ws : List Str, (join '_' ws).map lowerC = join '_' (ws.map toLower) := by
    intro ws
    induction ws with
    | nil => rfl
    | cons w ws ih =>
      cases ws with
      | nil => rfl
      | cons v ws =>
        rw [join, List.map_append, List.map_cons, ih]
        rfl
  unfold enumValueName
  rw [enumValueGo_eq, hm, mapEntryGo_join]
  · rw [List.flatMap_map]
  · intro w hw
    obtain ⟨v, hv, rfl⟩ := List.mem_map.mp hw
    intro hm
    obtain ⟨c, hc, e⟩ := List.mem_map.mp hm
    have hcu : c ≠ '_' := fun e => h v hv (e ▸ hc)
    cases hu : isAsciiUpper c with
    | true =>
      have := lowerC_lower c hu
      rw [e] at this; exact absurd this (by decide)
    | false => rw [lowerC_not c hu] at e; exact hcu e

example : enumValueName "FOO_bar".toList = "FooBar".toList ∧ mapEntryName "foo_bar".toList = "FooBarEntry".toList := by
  decide +kernel

end Baron.Strs
