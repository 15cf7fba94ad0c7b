import Verif.Model.Strs

namespace Baron.Strs

theorem mem_takeWhile_imp {p : Char → Bool} {l : Str} {x : Char} (h : x ∈ l.takeWhile p) : p x = true := by
  induction l with
  | nil => simp at h
  | cons c l ih =>
    rw [List.takeWhile_cons] at h
    split at h
    · rename_i hc
      rcases List.mem_cons.mp h with rfl | h
      · exact hc
      · exact ih h
    · simp at h

theorem char_le (a b : Char) : a ≤ b ↔ a.toNat ≤ b.toNat := by
  rw [Char.le_def, UInt32.le_iff_toNat_le]; rfl

theorem lower_iff (c : Char) : isAsciiLower c = true ↔ 97 ≤ c.toNat ∧ c.toNat ≤ 122 := by
  simp only [isAsciiLower, Bool.and_eq_true, decide_eq_true_eq, char_le]; rfl

theorem upper_iff (c : Char) : isAsciiUpper c = true ↔ 65 ≤ c.toNat ∧ c.toNat ≤ 90 := by
  simp only [isAsciiUpper, Bool.and_eq_true, decide_eq_true_eq, char_le]; rfl

theorem digit_iff (c : Char) : isAsciiDigit c = true ↔ 48 ≤ c.toNat ∧ c.toNat ≤ 57 := by
  simp only [isAsciiDigit, Bool.and_eq_true, decide_eq_true_eq, char_le]; rfl

theorem ofNat_toNat_small (n : Nat) (h : n < 0xD800) : (Char.ofNat n).toNat = n := by
  unfold Char.ofNat
  rw [dif_pos (Or.inl h)]
  rfl

theorem toNat_inj {a b : Char} (h : a.toNat = b.toNat) : a = b := by
  apply Char.ext
  exact UInt32.toNat.inj h

theorem upperC_toNat (c : Char) (h : isAsciiLower c = true) : (upperC c).toNat = c.toNat - 32 := by
  unfold upperC
  rw [if_pos h]
  apply ofNat_toNat_small
  have := (lower_iff c).mp h
  omega

theorem lowerC_toNat (c : Char) (h : isAsciiUpper c = true) : (lowerC c).toNat = c.toNat + 32 := by
  unfold lowerC
  rw [if_pos h]
  apply ofNat_toNat_small
  have := (upper_iff c).mp h
  omega

theorem upperC_upper (c : Char) (h : isAsciiLower c = true) : isAsciiUpper (upperC c) = true := by
  rw [upper_iff, upperC_toNat c h]
  have := (lower_iff c).mp h
  omega

theorem lowerC_lower (c : Char) (h : isAsciiUpper c = true) : isAsciiLower (lowerC c) = true := by
  rw [lower_iff, lowerC_toNat c h]
  have := (upper_iff c).mp h
  omega

theorem upperC_not (c : Char) (h : isAsciiLower c = false) : upperC c = c := by
  unfold upperC; rw [if_neg (by rw [h]; exact Bool.false_ne_true)]

theorem lowerC_not (c : Char) (h : isAsciiUpper c = false) : lowerC c = c := by
  unfold lowerC; rw [if_neg (by rw [h]; exact Bool.false_ne_true)]

theorem upper_not_lower (c : Char) (h : isAsciiUpper c = true) : isAsciiLower c = false := by
  rw [Bool.eq_false_iff, ne_eq, lower_iff]
  have := (upper_iff c).mp h
  omega

theorem lower_not_upper (c : Char) (h : isAsciiLower c = true) : isAsciiUpper c = false := by
  rw [Bool.eq_false_iff, ne_eq, upper_iff]
  have := (lower_iff c).mp h
  omega

theorem upper_lower (c : Char) (h : isAsciiUpper c = true) : upperC (lowerC c) = c := by
  apply toNat_inj
  rw [upperC_toNat _ (lowerC_lower c h), lowerC_toNat c h]
  omega

theorem lower_upper (c : Char) (h : isAsciiLower c = true) : lowerC (upperC c) = c := by
  apply toNat_inj
  rw [lowerC_toNat _ (upperC_upper c h), upperC_toNat c h]
  have := (lower_iff c).mp h
  omega

theorem upperC_not_lower (c : Char) : isAsciiLower (upperC c) = false := by
  cases h : isAsciiLower c with
  | true => exact upper_not_lower _ (upperC_upper c h)
  | false => rw [upperC_not c h, h]

theorem upperC_ne (c d : Char) (hd : isAsciiUpper d = false) (h : c ≠ d) : upperC c ≠ d := by
  cases hl : isAsciiLower c with
  | true =>
    intro e
    have := upperC_upper c hl
    rw [e, hd] at this
    exact absurd this (by decide)
  | false => rw [upperC_not c hl]; exact h

/-! ### Stable strings: those `GoCamelCase` leaves alone -/

/-- `Stable prev s`: no '.', no '_' at the start, and every lower-case letter follows a character that is neither a
digit nor '_' (so it is inside a word). -/
def Stable : Option Char → Str → Prop
  | _, [] => True
  | prev, c :: r =>
    c ≠ '.' ∧ (c = '_' → prev ≠ none) ∧
    (isAsciiLower c = true → ∃ p, prev = some p ∧ isAsciiDigit p = false ∧ p ≠ '_') ∧ Stable (some c) r

theorem stable_mono {c : Char} {p q : Option Char} {s : Str} (h : Stable p s)
    (hq : q = some c) (hn : nextLower s = false) : Stable q s := by
  cases s with
  | nil => trivial
  | cons x r =>
    obtain ⟨a, b, d, e⟩ := h
    subst hq
    refine ⟨a, fun _ => by simp, fun hl => ?_, e⟩
    simp [nextLower] at hn
    rw [hn] at hl
    exact absurd hl (by decide)

theorem stable_run (w : Str) (hw : ∀ c ∈ w, isAsciiLower c = true) (s : Str) (q : Char)
    (hq : isAsciiDigit q = false ∧ q ≠ '_') (hs : ∀ p, Stable (some p) s) : Stable (some q) (w ++ s) := by
  induction w generalizing q with
  | nil => exact hs q
  | cons c w ih =>
    have hc := hw c List.mem_cons_self
    have hr := (lower_iff c).mp hc
    have hd : isAsciiDigit c = false := by rw [Bool.eq_false_iff, ne_eq, digit_iff]; omega
    have hu : c ≠ '_' := by
      rintro rfl
      exact absurd hc (by decide)
    refine ⟨?_, fun e => absurd e hu, fun _ => ⟨q, rfl, hq.1, hq.2⟩, ?_⟩
    · rintro rfl
      exact absurd hc (by decide)
    · exact ih (fun x hx => hw x (List.mem_cons_of_mem _ hx)) c ⟨hd, hu⟩

/-- Every output of the loop, after at least one input character, is stable after any character. -/
theorem camelGo_stable (prev : Option Char) (s : Str) :
    (∀ p, Stable (some p) (camelGo prev s) ∧ nextLower (camelGo prev s) = false) := by
  fun_induction camelGo prev s with
  | case1 => intro p; exact ⟨trivial, rfl⟩
  | case2 prev c r h ih => exact ih
  | case3 prev r _ ih =>
    intro p
    refine ⟨⟨by decide, fun _ => by simp, fun h => absurd h (by decide), (ih '_').1⟩, rfl⟩
  | case4 prev c r h1 h2 h3 ih =>
    intro p
    refine ⟨⟨by decide, fun _ => by simp, fun h => absurd h (by decide), (ih 'X').1⟩, rfl⟩
  | case5 prev c r h1 h2 h3 h4 ih => exact ih
  | case6 prev c r h1 h2 h3 h4 h5 ih =>
    intro p
    have hd := (digit_iff c).mp h5
    have hl : isAsciiLower c = false := by rw [Bool.eq_false_iff, ne_eq, lower_iff]; omega
    refine ⟨⟨h2, fun _ => by simp, fun h => ?_, (ih c).1⟩, hl⟩
    rw [hl] at h
    exact absurd h (by decide)
  | case7 prev c r h1 h2 h3 h4 h5 ih =>
    intro p
    have hnl := upperC_not_lower c
    have hrun : ∀ x ∈ r.takeWhile isAsciiLower, isAsciiLower x = true := fun x hx => mem_takeWhile_imp hx
    refine ⟨⟨upperC_ne c '.' (by decide) h2, fun _ => by simp, fun h => ?_, ?_⟩, hnl⟩
    · rw [hnl] at h
      exact absurd h (by decide)
    · by_cases hu : c = '_'
      · subst hu
        have hr : nextLower r = false := by
          cases hh : nextLower r with
          | false => rfl
          | true => exact absurd ⟨rfl, hh⟩ h4
        have : r.takeWhile isAsciiLower = [] := by
          cases r with
          | nil => rfl
          | cons x r => simp only [nextLower] at hr; rw [List.takeWhile_cons, hr]; rfl
        simp only [this, List.nil_append] at ih ⊢
        exact (ih _).1
      · apply stable_run _ hrun _ _ ?_ (fun p => (ih p).1)
        refine ⟨?_, upperC_ne c '_' (by decide) hu⟩
        cases hl : isAsciiLower c with
        | true =>
          have := (upper_iff _).mp (upperC_upper c hl)
          rw [Bool.eq_false_iff, ne_eq, digit_iff]; omega
        | false => rw [upperC_not c hl]; exact Bool.eq_false_iff.mpr h5

/-- Stable strings are fixed points. -/
theorem camelGo_fix (prev : Option Char) (s : Str) (h : Stable prev s) (hn : nextLower s = false)
    (hp : prev ≠ some '.') : camelGo prev s = s := by
  fun_induction camelGo prev s with
  | case1 => rfl
  | case2 prev c r h1 ih => exact absurd h1.1 h.1
  | case3 prev r _ ih => exact absurd rfl h.1
  | case4 prev c r h1 h2 h3 ih =>
    rcases h3.2 with e | e
    · exact absurd e (h.2.1 h3.1)
    · exact absurd e hp
  | case5 prev c r h1 h2 h3 h4 ih =>
    obtain ⟨hc, hl⟩ := h4
    subst hc
    cases r with
    | nil => simp [nextLower] at hl
    | cons x r =>
      simp only [nextLower] at hl
      obtain ⟨p, e, -, hne⟩ := h.2.2.2.2.2.1 hl
      cases e
      exact absurd rfl hne
  | case6 prev c r h1 h2 h3 h4 h5 ih =>
    congr 1
    refine ih h.2.2.2 ?_ (by intro e; cases e; exact absurd h5 (by decide))
    cases r with
    | nil => rfl
    | cons x r =>
      cases hl : isAsciiLower x with
      | false => exact hl
      | true =>
        obtain ⟨p, e, hd, -⟩ := h.2.2.2.2.2.1 hl
        cases e
        rw [hd] at h5
        exact absurd h5 (by decide)
  | case7 prev c r h1 h2 h3 h4 h5 ih =>
    have hc : upperC c = c := upperC_not c hn
    rw [hc]
    have key : ∀ (w s : Str) (p : Char), Stable (some p) (w ++ s) → Stable (some ((p :: w).getLast (by simp))) s := by
      intro w
      induction w with
      | nil => intro s p h; exact h
      | cons x w ih =>
        intro s p h
        rw [List.getLast_cons (by simp)]
        exact ih s x h.2.2.2
    have hst := key (r.takeWhile isAsciiLower) (r.dropWhile isAsciiLower) c (by
      rw [List.takeWhile_append_dropWhile]; exact h.2.2.2)
    have hnl : nextLower (r.dropWhile isAsciiLower) = false := by
      cases hd : r.dropWhile isAsciiLower with
      | nil => rfl
      | cons x t =>
        have := List.head_dropWhile_not isAsciiLower (l := r) (by rw [hd]; simp)
        simp only [hd, List.head_cons] at this
        simpa [nextLower] using this
    have hlast : (c :: r.takeWhile isAsciiLower).getLast (by simp) ≠ '.' := by
      intro e
      have hm := List.getLast_mem (l := c :: r.takeWhile isAsciiLower) (by simp)
      rw [e] at hm
      rcases List.mem_cons.mp hm with hm | hm
      · exact h2 hm.symm
      · have := mem_takeWhile_imp hm
        exact absurd this (by decide)
    rw [ih hst hnl (by intro e; exact hlast (Option.some.inj e))]
    rw [List.cons_append, List.takeWhile_append_dropWhile]

end Baron.Strs
