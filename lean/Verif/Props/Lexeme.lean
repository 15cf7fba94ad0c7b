import Verif.Proofs.Lexeme

/-!
# C49: the scanner cuts a file into its lexical elements
-/

namespace Baron.Scanner

/-- **C49** Every text is cut, from left to right, into its lexical elements (maximal runs of white space, maximal
words, complete string literals, complete comments, single other characters) followed by an unterminated rest; each
scan unit reports its element (verbatim except for block comments with interior stars), the line reached at the end of
the element and the brace depth there, counting only the elements `{` and `}`, so braces inside comments and strings
never count. -/
theorem C49_lexemes (U : Uni) (g : Glob) (s : Str) :
    ∃ cs : List (Str × ScanUnit), cs.map (·.2) = (scan U g s).1 ∧
      s = (cs.map (·.1)).flatten ++ (scan U g s).2.2.rest ∧ Unterminated (scan U g s).2.2.rest ∧
      ∀ pre x post, cs = pre ++ x :: post →
        Lexeme U x.1 x.2.value ((post.map (·.1)).flatten ++ (scan U g s).2.2.rest) ∧
        x.2.lineNo = 1 + (((pre ++ [x]).map (·.1)).flatten).count '\n' ∧
        x.2.braceLevel = g.braceLev + depthOf ((pre ++ [x]).map (·.1)) := by
  obtain ⟨cs, e0, e, f⟩ := (scan_run U g s).lexemes
  exact ⟨cs, e0, e, (scan_run U g s).unterminated, f⟩

-- the brace inside the string does not count, the escaped quote does not end it
example : (scan asciiUni .init "\"{\\\"{\" }\n".toList).1.map (fun u => (u.value, u.lineNo, u.braceLevel)) =
    [("\"{\\\"{\"".toList, 1, 0), (" ".toList, 1, 0), ("}".toList, 1, -1), ("\n".toList, 2, -1)] := by decide +kernel

/-- **C49** The cutting is forced: at any point of a text there is at most one lexical element that can start there.
(So the decomposition of `C49_lexemes` is the only one.) -/
theorem C49_unique (U : Uni) (k₁ v₁ r₁ k₂ v₂ r₂ : Str) (h₁ : Lexeme U k₁ v₁ r₁) (h₂ : Lexeme U k₂ v₂ r₂)
    (e : k₁ ++ r₁ = k₂ ++ r₂) : k₁ = k₂ ∧ v₁ = v₂ ∧ r₁ = r₂ := by
  have hsp : ∀ c, isSpace c = true → wordChar U c = false := by
    intro c hc
    unfold wordChar
    rw [(U.space_not c hc).1, (U.space_not c hc).2]
    have : (c == '_') = false := by
      cases h : c == '_' with
      | false => rfl
      | true => rw [beq_iff_eq] at h; subst h; exact absurd hc (by decide)
    rw [this]; rfl
  have hq : wordChar U '"' = false := by
    unfold wordChar; rw [U.letter_ascii _ (by decide), U.digit_ascii _ (by decide)]; decide
  have hsl : wordChar U '/' = false := by
    unfold wordChar; rw [U.letter_ascii _ (by decide), U.digit_ascii _ (by decide)]; decide
  -- maximal runs
  have run : ∀ (p : Char → Bool) (v w r s : Str), (∀ c ∈ v, p c = true) → (∀ c ∈ w, p c = true) →
      StopsAt p r → StopsAt p s → v ++ r = w ++ s → v = w ∧ r = s := by
    intro p v
    induction v with
    | nil =>
      intro w r s _ hw hr hs e
      cases w with
      | nil => exact ⟨rfl, e⟩
      | cons c w =>
        have := hr c (w ++ s) e
        rw [hw c (List.mem_cons_self)] at this; cases this
    | cons c v ih =>
      intro w r s hv hw hr hs e
      cases w with
      | nil =>
        have := hs c (v ++ r) e.symm
        rw [hv c (List.mem_cons_self)] at this; cases this
      | cons d w =>
        simp only [List.cons_append, List.cons.injEq] at e
        obtain ⟨rfl, e⟩ := e
        obtain ⟨a, b⟩ := ih w r s (fun c hc => hv c (List.mem_cons_of_mem _ hc))
          (fun c hc => hw c (List.mem_cons_of_mem _ hc)) hr hs e
        exact ⟨by rw [a], b⟩
  -- string bodies
  have strU : ∀ b b' r r' : Str, StrBody b → StrBody b' → b ++ '"' :: r = b' ++ '"' :: r' → b = b' ∧ r = r' := by
    intro b b' r r' hb
    induction hb generalizing b' with
    | nil =>
      intro hb' e
      cases hb' with
      | nil => simp at e; exact ⟨rfl, e⟩
      | plain h => simp at e; exact absurd e.1.symm h
      | esc h => simp at e
    | @plain c t h1 h2 _ ih =>
      intro hb' e
      cases hb' with
      | nil => simp at e; exact absurd e.1 h1
      | plain _ _ h' =>
        simp only [List.cons_append, List.cons.injEq] at e
        obtain ⟨rfl, e⟩ := e
        obtain ⟨a, b⟩ := ih _ h' e
        exact ⟨by rw [a], b⟩
      | esc _ => simp only [List.cons_append, List.cons.injEq] at e; exact absurd e.1 h2
    | @esc d t _ ih =>
      intro hb' e
      cases hb' with
      | nil => simp at e
      | plain _ h2 _ => simp only [List.cons_append, List.cons.injEq] at e; exact absurd e.1.symm h2
      | esc h' =>
        simp only [List.cons_append, List.cons.injEq] at e
        obtain ⟨-, rfl, e⟩ := e
        obtain ⟨a, b⟩ := ih _ h' e
        exact ⟨by rw [a], b⟩
  have lineU : ∀ b b' r r' : Str, '\n' ∉ b → '\n' ∉ b' → b ++ '\n' :: r = b' ++ '\n' :: r' → b = b' ∧ r = r' := by
    intro b
    induction b with
    | nil =>
      intro b' r r' _ h' e
      cases b' with
      | nil => simp at e; exact ⟨rfl, e⟩
      | cons c b' => simp only [List.nil_append, List.cons_append, List.cons.injEq] at e; exact absurd (e.1 ▸ List.mem_cons_self) h'
    | cons c b ih =>
      intro b' r r' h h' e
      cases b' with
      | nil => simp only [List.nil_append, List.cons_append, List.cons.injEq] at e; exact absurd (e.1 ▸ List.mem_cons_self) h
      | cons d b' =>
        simp only [List.cons_append, List.cons.injEq] at e
        obtain ⟨rfl, e⟩ := e
        obtain ⟨x, y⟩ := ih b' r r' (fun hm => h (List.mem_cons_of_mem _ hm)) (fun hm => h' (List.mem_cons_of_mem _ hm)) e
        exact ⟨by rw [x], y⟩
  have blockU : ∀ b k b' k' r r' : Str, BlockBody b k → BlockBody b' k' →
      b ++ '*' :: '/' :: r = b' ++ '*' :: '/' :: r' → b = b' ∧ k = k' ∧ r = r' := by
    intro b k b' k' r r' hb
    induction hb generalizing b' k' with
    | nil =>
      intro hb' e
      cases hb' with
      | nil => simp at e; exact ⟨rfl, rfl, e⟩
      | plain h => simp at e; exact absurd e.1.symm h
      | star h => simp at e; exact absurd e.1.symm h
    | @plain c t kk h1 _ ih =>
      intro hb' e
      cases hb' with
      | nil => simp at e; exact absurd e.1 h1
      | plain _ h' =>
        simp only [List.cons_append, List.cons.injEq] at e
        obtain ⟨rfl, e⟩ := e
        obtain ⟨a, b, d⟩ := ih _ _ h' e
        exact ⟨by rw [a], by rw [b], d⟩
      | star _ _ => simp only [List.cons_append, List.cons.injEq] at e; exact absurd e.1 h1
    | @star d t kk h1 _ ih =>
      intro hb' e
      cases hb' with
      | nil => simp at e; exact absurd e.1 h1
      | plain h2 _ => simp only [List.cons_append, List.cons.injEq] at e; exact absurd e.1.symm h2
      | star _ h' =>
        simp only [List.cons_append, List.cons.injEq] at e
        obtain ⟨-, rfl, e⟩ := e
        obtain ⟨a, b, c⟩ := ih _ _ h' e
        exact ⟨by rw [a], by rw [b], c⟩
  have h0 : ∀ (v : Str) (c : Char) (t r : Str), v ≠ [] → v ++ r = c :: t → c ∈ v := by
    intro v c t r hv e
    cases v with
    | nil => exact absurd rfl hv
    | cons d v => simp only [List.cons_append, List.cons.injEq] at e; rw [e.1]; exact List.mem_cons_self
  cases h₁ with
  | space n1 a1 s1 =>
    cases h₂ with
    | space n2 a2 s2 => obtain ⟨x, y⟩ := run _ _ _ _ _ a1 a2 s1 s2 e; exact ⟨x, x, y⟩
    | word n2 a2 s2 =>
      match k₂, n2 with
      | c :: t, _ =>
        have := hsp c (a1 c (h0 _ _ _ _ n1 e)); rw [a2 c (List.mem_cons_self)] at this; cases this
    | str _ => have := a1 _ (h0 _ _ _ _ n1 e); exact absurd this (by decide)
    | line _ => have := a1 _ (h0 _ _ _ _ n1 e); exact absurd this (by decide)
    | block _ => have := a1 _ (h0 _ _ _ _ n1 e); exact absurd this (by decide)
    | slash _ _ => have := a1 _ (h0 _ _ _ _ n1 e); exact absurd this (by decide)
    | symbol x1 _ _ _ => have := a1 _ (h0 _ _ _ _ n1 e); rw [x1] at this; cases this
  | word n1 a1 s1 =>
    cases h₂ with
    | space n2 a2 s2 =>
      match k₂, n2 with
      | c :: t, _ =>
        have := hsp c (a2 c (List.mem_cons_self)); rw [a1 c (h0 _ _ _ _ n1 e)] at this; cases this
    | word n2 a2 s2 => obtain ⟨x, y⟩ := run _ _ _ _ _ a1 a2 s1 s2 e; exact ⟨x, x, y⟩
    | str _ => have := a1 _ (h0 _ _ _ _ n1 e); rw [hq] at this; cases this
    | line _ => have := a1 _ (h0 _ _ _ _ n1 e); rw [hsl] at this; cases this
    | block _ => have := a1 _ (h0 _ _ _ _ n1 e); rw [hsl] at this; cases this
    | slash _ _ => have := a1 _ (h0 _ _ _ _ n1 e); rw [hsl] at this; cases this
    | symbol _ x1 _ _ => have := a1 _ (h0 _ _ _ _ n1 e); rw [x1] at this; cases this
  | str b1 =>
    cases h₂ with
    | space n2 a2 s2 => have := a2 _ (h0 _ _ _ _ n2 e.symm); exact absurd this (by decide)
    | word n2 a2 s2 => have := a2 _ (h0 _ _ _ _ n2 e.symm); rw [hq] at this; cases this
    | str b2 =>
      simp only [List.cons_append, List.cons.injEq, true_and, List.append_assoc, List.nil_append] at e
      obtain ⟨rfl, rfl⟩ := strU _ _ _ _ b1 b2 e
      exact ⟨rfl, rfl, rfl⟩
    | line _ => simp at e
    | block _ => simp at e
    | slash _ _ => simp at e
    | symbol _ _ x1 _ => simp at e; exact absurd e.1.symm x1
  | line m1 =>
    cases h₂ with
    | space n2 a2 s2 => have := a2 _ (h0 _ _ _ _ n2 e.symm); exact absurd this (by decide)
    | word n2 a2 s2 => have := a2 _ (h0 _ _ _ _ n2 e.symm); rw [hsl] at this; cases this
    | str b2 => simp at e
    | line m2 =>
      simp only [List.cons_append, List.cons.injEq, true_and, List.append_assoc, List.nil_append] at e
      obtain ⟨rfl, rfl⟩ := lineU _ _ _ _ m1 m2 e
      exact ⟨rfl, rfl, rfl⟩
    | block _ => simp at e
    | slash x _ => simp at e; exact absurd e.1.symm x
    | symbol _ _ _ x1 => simp at e; exact absurd e.1.symm x1
  | block m1 =>
    cases h₂ with
    | space n2 a2 s2 => have := a2 _ (h0 _ _ _ _ n2 e.symm); exact absurd this (by decide)
    | word n2 a2 s2 => have := a2 _ (h0 _ _ _ _ n2 e.symm); rw [hsl] at this; cases this
    | str b2 => simp at e
    | line m2 => simp at e
    | block m2 =>
      simp only [List.cons_append, List.cons.injEq, true_and, List.append_assoc, List.nil_append] at e
      obtain ⟨rfl, rfl, rfl⟩ := blockU _ _ _ _ _ _ m1 m2 e
      exact ⟨rfl, rfl, rfl⟩
    | slash _ x => simp at e; exact absurd e.1.symm x
    | symbol _ _ _ x1 => simp at e; exact absurd e.1.symm x1
  | slash x1 y1 =>
    cases h₂ with
    | space n2 a2 s2 => have := a2 _ (h0 _ _ _ _ n2 e.symm); exact absurd this (by decide)
    | word n2 a2 s2 => have := a2 _ (h0 _ _ _ _ n2 e.symm); rw [hsl] at this; cases this
    | str b2 => simp at e
    | line m2 => simp at e; exact absurd e.1 x1
    | block m2 => simp at e; exact absurd e.1 y1
    | slash _ _ => simp at e; exact ⟨rfl, rfl, by rw [e.1, e.2]⟩
    | symbol _ _ _ x1 => simp at e; exact absurd e.1.symm x1
  | symbol x1 x2 x3 x4 =>
    cases h₂ with
    | space n2 a2 s2 => have := a2 _ (h0 _ _ _ _ n2 e.symm); rw [x1] at this; cases this
    | word n2 a2 s2 => have := a2 _ (h0 _ _ _ _ n2 e.symm); rw [x2] at this; cases this
    | str b2 => simp at e; exact absurd e.1 x3
    | line m2 => simp at e; exact absurd e.1 x4
    | block m2 => simp at e; exact absurd e.1 x4
    | slash _ _ => simp at e; exact absurd e.1 x4
    | symbol _ _ _ _ => simp at e; exact ⟨by rw [e.1], by rw [e.1], e.2⟩

end Baron.Scanner
