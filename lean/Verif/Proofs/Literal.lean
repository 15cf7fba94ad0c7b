import Verif.Spec.Texts

/-!
# Values of Go string literals
-/

namespace Baron.TT

theorem digits_some {b n acc : Nat} {s r : Str} {x : Nat} (h : digits b n acc s = some (x, r)) :
    ∃ u, s = u ++ r ∧ u.length = n ∧ ∀ c ∈ u, (hexDigit c).isSome := by
  induction n generalizing acc s with
  | zero => unfold digits at h; cases h; exact ⟨[], rfl, rfl, fun _ h => absurd h List.not_mem_nil⟩
  | succ n ih =>
    cases s with
    | nil => cases h
    | cons c s =>
      unfold digits at h
      cases hc : hexDigit c with
      | none => rw [hc] at h; cases h
      | some d =>
        rw [hc] at h
        simp only at h
        by_cases hd : d < b
        · rw [if_pos hd] at h
          obtain ⟨u, rfl, hl, hu⟩ := ih h
          refine ⟨c :: u, rfl, by rw [List.length_cons, hl], fun e he => ?_⟩
          rcases List.mem_cons.mp he with rfl | he
          · rw [hc]; rfl
          · exact hu e he
        · rw [if_neg hd] at h; cases h

theorem hex_newline : hexDigit '\n' = none := by decide +kernel

theorem digits_newline {b n acc : Nat} {s r : Str} {x : Nat} (h : digits b n acc s = some (x, r)) :
    ∃ u, s = u ++ r ∧ u.length = n ∧ '\n' ∉ u := by
  obtain ⟨u, h1, h2, h3⟩ := digits_some h
  refine ⟨u, h1, h2, fun hn => ?_⟩
  have := h3 _ hn
  rw [hex_newline] at this
  cases this

theorem escape_some {s r : Str} {c : Char} (h : escape s = some (c, r)) : ∃ u, s = u ++ r ∧ u ≠ [] ∧ '\n' ∉ u := by
  have dig : ∀ {b n : Nat} {t : Str}, (digits b n 0 t).map (fun x => (Char.ofNat x.1, x.2)) = some (c, r) →
      ∃ u, t = u ++ r ∧ u.length = n ∧ '\n' ∉ u := by
    intro b n t h
    cases hd : digits b n 0 t with
    | none => rw [hd] at h; cases h
    | some x =>
      rw [hd] at h
      obtain ⟨x, r'⟩ := x
      cases h
      exact digits_newline hd
  have one : ∀ d : Char, d ≠ '\n' → ∀ t : Str, ∃ u, d :: t = u ++ t ∧ u ≠ [] ∧ '\n' ∉ u :=
    fun d hd t => ⟨[d], rfl, nofun, by rw [List.mem_singleton]; exact fun h => hd h.symm⟩
  have more : ∀ d : Char, d ≠ '\n' → ∀ t : Str, (∃ u, t = u ++ r ∧ '\n' ∉ u) → ∃ u, d :: t = u ++ r ∧ u ≠ [] ∧ '\n' ∉ u := by
    rintro d hd t ⟨u, rfl, hu⟩
    refine ⟨d :: u, rfl, nofun, ?_⟩
    rw [List.mem_cons, not_or]
    exact ⟨fun h => hd h.symm, hu⟩
  unfold escape at h
  split at h
  case h_13 =>
    obtain ⟨u, h1, h2, h3⟩ := dig h
    refine ⟨u, h1, fun e => ?_, h3⟩
    rw [e] at h2; cases h2
  case h_10 => obtain ⟨u, h1, -, h3⟩ := dig h; exact more _ (by decide) _ ⟨u, h1, h3⟩
  case h_11 => obtain ⟨u, h1, -, h3⟩ := dig h; exact more _ (by decide) _ ⟨u, h1, h3⟩
  case h_12 => obtain ⟨u, h1, -, h3⟩ := dig h; exact more _ (by decide) _ ⟨u, h1, h3⟩
  all_goals
    cases h
    exact one _ (by decide) _

/-- What a literal consists of: a text without newlines, not shorter than the value, and longer if it has a backslash. -/
theorem literalGo_some {n : Nat} {s v r : Str} (h : literalGo n s = some (v, r)) :
    ∃ u, s = u ++ '"' :: r ∧ v.length ≤ u.length ∧ ('\\' ∈ u → v.length < u.length) ∧ '\n' ∉ u ∧ ('"' ∈ u → '\\' ∈ u) := by
  induction n generalizing s v with
  | zero => cases h
  | succ n ih =>
    unfold literalGo at h
    split at h
    · cases h
    · cases h
      exact ⟨[], rfl, Nat.le_refl _, nofun, nofun, nofun⟩
    · cases h
    · rename_i r0
      cases he : escape r0 with
      | none => rw [he] at h; cases h
      | some x =>
        obtain ⟨c, r'⟩ := x
        rw [he] at h
        simp only at h
        cases hl : literalGo n r' with
        | none => rw [hl] at h; cases h
        | some y =>
          obtain ⟨v', r''⟩ := y
          rw [hl] at h
          cases h
          obtain ⟨u, rfl, h1, h2, h3, h4⟩ := ih hl
          obtain ⟨w, rfl, hw, hn⟩ := escape_some he
          have hwl : 0 < w.length := List.length_pos_iff.mpr hw
          refine ⟨'\\' :: (w ++ u), by simp, ?_, fun _ => ?_, ?_, fun _ => List.mem_cons_self⟩
          · simp only [List.length_cons, List.length_append]; omega
          · simp only [List.length_cons, List.length_append]; omega
          · simp only [List.mem_cons, List.mem_append, not_or]
            exact ⟨by decide, hn, h3⟩
    · rename_i c r0 hc1 hc2 hc3
      cases hl : literalGo n r0 with
      | none => rw [hl] at h; cases h
      | some y =>
        obtain ⟨v', r''⟩ := y
        rw [hl] at h
        cases h
        obtain ⟨u, rfl, h1, h2, h3, h4⟩ := ih hl
        refine ⟨c :: u, rfl, by simp only [List.length_cons]; omega, fun hm => ?_, ?_, fun hm => ?_⟩
        · rcases List.mem_cons.mp hm with e | hm
          · exact absurd e.symm hc3
          · have := h2 hm
            simp only [List.length_cons]; omega
        · rw [List.mem_cons, not_or]
          exact ⟨fun e => hc2 e.symm, h3⟩
        · rcases List.mem_cons.mp hm with e | hm
          · exact absurd e.symm hc1
          · exact List.mem_cons_of_mem _ (h4 hm)

theorem literalGo_clean {p r : Str} (h1 : '"' ∉ p) (h2 : '\\' ∉ p) (h3 : '\n' ∉ p) (n : Nat) (hn : p.length < n) :
    literalGo n (p ++ '"' :: r) = some (p, r) := by
  induction p generalizing n with
  | nil =>
    cases n with
    | zero => cases hn
    | succ n => rfl
  | cons c p ih =>
    cases n with
    | zero => cases hn
    | succ n =>
      rw [List.mem_cons, not_or] at h1 h2 h3
      have := ih h1.2 h2.2 h3.2 n (by rw [List.length_cons] at hn; omega)
      rw [List.cons_append]
      unfold literalGo
      split
      · rename_i heq; cases heq
      · rename_i heq; exact absurd (List.cons.inj heq).1.symm h1.1
      · rename_i heq; exact absurd (List.cons.inj heq).1.symm h3.1
      · rename_i heq; exact absurd (List.cons.inj heq).1.symm h2.1
      · rename_i heq
        cases heq
        rw [this]
        rfl

/-- A text written between quotes, followed by a line without further quotes, is the value of the literal there exactly if it has no quote,
backslash or newline. -/
theorem literal_iff (p a b : Str) (ha : '"' ∉ a) :
    (∃ r, literal (p ++ '"' :: (a ++ '\n' :: b)) = some (p, r)) ↔ '"' ∉ p ∧ '\\' ∉ p ∧ '\n' ∉ p := by
  constructor
  · rintro ⟨r, h⟩
    obtain ⟨u, h1, h2, h3, h4, h5⟩ := literalGo_some h
    have hbs : '\\' ∉ u → '"' ∉ u := fun h h' => h (h5 h')
    rcases List.append_eq_append_iff.mp h1 with ⟨w, e1, e2⟩ | ⟨w, e1, e2⟩
    · -- u = p ++ w
      cases w with
      | nil =>
        rw [List.append_nil] at e1
        subst e1
        have : '\\' ∉ u := fun hm => absurd (h3 hm) (Nat.lt_irrefl _)
        exact ⟨hbs this, this, h4⟩
      | cons x w =>
        exfalso
        rw [List.cons_append, List.cons.injEq] at e2
        obtain ⟨rfl, e2⟩ := e2
        -- a ++ '\n' :: b = w ++ '"' :: r
        rcases List.append_eq_append_iff.mp e2 with ⟨z, f1, f2⟩ | ⟨z, f1, f2⟩
        · cases z with
          | nil => rw [List.nil_append, List.cons.injEq] at f2; exact absurd f2.1 (by decide)
          | cons y z =>
            rw [List.cons_append, List.cons.injEq] at f2
            apply h4
            rw [e1, f1, ← f2.1]
            simp
        · cases z with
          | nil => rw [List.nil_append, List.cons.injEq] at f2; exact absurd f2.1 (by decide)
          | cons y z =>
            rw [List.cons_append, List.cons.injEq] at f2
            apply ha
            rw [f1, f2.1]
            simp
    · -- p = u ++ w
      cases w with
      | nil =>
        rw [List.append_nil] at e1
        subst e1
        have : '\\' ∉ p := fun hm => absurd (h3 hm) (Nat.lt_irrefl _)
        exact ⟨hbs this, this, h4⟩
      | cons x w =>
        exfalso
        rw [e1] at h2
        simp only [List.length_append, List.length_cons] at h2
        omega
  · rintro ⟨h1, h2, h3⟩
    refine ⟨a ++ '\n' :: b, literalGo_clean h1 h2 h3 _ ?_⟩
    simp only [List.length_append, List.length_cons]
    omega

end Baron.TT
