import Verif.Spec.Scanner

/-! Lemmas about the scanner model. -/

namespace Baron.Scanner

theorem bump_eq (c : Char) (n : Nat) : bump c n = n + [c].count '\n' := by
  unfold bump
  by_cases h : c = '\n' <;> simp [h]

theorem count_cons_nl (c : Char) (s : Str) : (c :: s).count '\n' = [c].count '\n' + s.count '\n' := by
  rw [show c :: s = [c] ++ s from rfl, List.count_append]

/-! ### RuneReader -/

/-- The unread part of a reader. -/
def RuneReader.rd (r : RuneReader) : Rd := ⟨r.contents.drop r.pos, r.lineNo.toNat⟩

theorem lineComment_spec : ∀ (s : Str) (line : Nat) (b : Str) (rd : Rd), lineComment line s = some (b, rd) →
    s = b ++ rd.rest ∧ rd.line = line + b.count '\n' ∧ b ≠ [] ∧ b.getLast? = some '\n' ∧
      '\n' ∉ b.dropLast := by
  intro s
  induction s with
  | nil => intro line b rd h; simp [lineComment] at h
  | cons c r ih =>
    intro line b rd h
    unfold lineComment at h
    by_cases hc : c = '\n'
    · simp [hc] at h; obtain ⟨rfl, rfl⟩ := h; simp [hc]
    · simp only [hc, if_false, Option.map_eq_some_iff] at h
      obtain ⟨⟨b', rd'⟩, h1, h2⟩ := h
      obtain ⟨e1, e2, e3, e4, e5⟩ := ih _ _ _ h1
      simp only [Prod.mk.injEq] at h2
      obtain ⟨rfl, rfl⟩ := h2
      refine ⟨by rw [List.cons_append, ← e1], ?_, by simp, ?_, ?_⟩
      · rw [List.count_cons_of_ne (by simpa using hc)]; exact e2
      · cases b' with
        | nil => simp at e3
        | cons x xs => simpa [List.getLast?_cons_cons] using e4
      · cases b' with
        | nil => simp at e3
        | cons x xs =>
          simp only [List.dropLast_cons_cons, List.mem_cons, not_or]
          exact ⟨fun h => hc h.symm, e5⟩

/-- A block comment body: what is returned is the consumed text minus the runes dropped after interior stars. -/
theorem blockComment_spec (s : Str) (line : Nat) : ∀ (b : Str) (rd : Rd), blockComment line s = some (b, rd) →
    ∃ m m', b = m ++ ['*', '/'] ∧ s = m' ++ ['*', '/'] ++ rd.rest ∧
      rd.line = line + m'.count '\n' ∧ m.Sublist m' ∧ ('*' ∉ m → m = m') := by
  fun_induction blockComment line s with
  | case1 => intro b rd h; simp at h
  | case2 => intro b rd h; simp at h
  | case3 line r' =>
    intro b rd h
    simp only [Option.some.injEq, Prod.mk.injEq] at h
    obtain ⟨rfl, rfl⟩ := h
    exact ⟨[], [], by simp⟩
  | case4 line d r' hd ih =>
    intro b rd h
    simp only [Option.map_eq_some_iff] at h
    obtain ⟨⟨b', rd'⟩, h1, h2⟩ := h
    obtain ⟨m, m', e1, e2, e3, e4, e5⟩ := ih _ _ h1
    simp only [Prod.mk.injEq] at h2
    obtain ⟨rfl, rfl⟩ := h2
    refine ⟨'*' :: m, '*' :: d :: m', by simp [e1], by simp [e2], ?_, ?_, by simp⟩
    · rw [e3, bump_eq, count_cons_nl '*', count_cons_nl d m', show ['*'].count '\n' = 0 from rfl]; omega
    · exact (e4.cons d).cons_cons '*'
  | case5 line c r hc ih =>
    intro b rd h
    simp only [Option.map_eq_some_iff] at h
    obtain ⟨⟨b', rd'⟩, h1, h2⟩ := h
    obtain ⟨m, m', e1, e2, e3, e4, e5⟩ := ih _ _ h1
    simp only [Prod.mk.injEq] at h2
    obtain ⟨rfl, rfl⟩ := h2
    refine ⟨c :: m, c :: m', by simp [e1], by simp [e2], ?_, e4.cons_cons c, ?_⟩
    · rw [e3, bump_eq, count_cons_nl c m']; omega
    · intro h; rw [e5 (fun hm => h (List.mem_cons_of_mem _ hm))]

theorem strLit_spec (s : Str) (line : Nat) : ∀ (b : Str) (rd : Rd), strLit line s = some (b, rd) →
    s = b ++ rd.rest ∧ rd.line = line + b.count '\n' ∧ b ≠ [] ∧ b.getLast? = some '"' := by
  fun_induction strLit line s with
  | case1 => intro b rd h; simp at h
  | case2 => intro b rd h; simp at h
  | case3 line d r' ih =>
    intro b rd h
    simp only [Option.map_eq_some_iff] at h
    obtain ⟨⟨b', rd'⟩, h1, h2⟩ := h
    obtain ⟨e1, e2, e3, e4⟩ := ih _ _ h1
    simp only [Prod.mk.injEq] at h2
    obtain ⟨rfl, rfl⟩ := h2
    refine ⟨by simp [← e1], ?_, by simp, ?_⟩
    · rw [e2, bump_eq, count_cons_nl '\\', count_cons_nl d b', show ['\\'].count '\n' = 0 from rfl]; omega
    · cases b' with
      | nil => simp at e3
      | cons x xs => simpa [List.getLast?_cons_cons] using e4
  | case4 line r h0 =>
    intro b rd h
    simp only [Option.some.injEq, Prod.mk.injEq] at h
    obtain ⟨rfl, rfl⟩ := h
    simp
  | case5 line c r h1 h2 ih =>
    intro b rd h
    simp only [Option.map_eq_some_iff] at h
    obtain ⟨⟨b', rd'⟩, h1, h2⟩ := h
    obtain ⟨e1, e2, e3, e4⟩ := ih _ _ h1
    simp only [Prod.mk.injEq] at h2
    obtain ⟨rfl, rfl⟩ := h2
    refine ⟨by simp [← e1], ?_, by simp, ?_⟩
    · rw [e2, bump_eq, count_cons_nl c b']; omega
    · cases b' with
      | nil => simp at e3
      | cons x xs => simpa [List.getLast?_cons_cons] using e4

theorem groupLoop_spec (p : Char → Bool) (s : Str) (line : Nat) :
    s = (groupLoop p line s).1 ++ (groupLoop p line s).2.rest ∧
    (groupLoop p line s).2.line = line + (groupLoop p line s).1.count '\n' ∧
    (∀ c ∈ (groupLoop p line s).1, p c = true) ∧
    (∀ c ∈ (groupLoop p line s).2.rest.head?, p c = false) := by
  induction s generalizing line with
  | nil => simp [groupLoop]
  | cons c r ih =>
    unfold groupLoop
    by_cases h : p c = true
    · simp only [h, if_true]
      obtain ⟨e1, e2, e3, e4⟩ := ih (bump c line)
      refine ⟨by simp only [List.cons_append]; rw [← e1], ?_, ?_, e4⟩
      · rw [e2]; generalize (groupLoop p (bump c line) r).1 = z; rw [bump_eq, count_cons_nl c z]; omega
      · simp only [List.mem_cons]; rintro x (rfl | hx)
        · exact h
        · exact e3 x hx
    · simp [h]

/-! ### Unit facts -/

theorem isIdent_open (U : Uni) : isIdent U '{' = false := by
  simp only [isIdent]
  rw [U.letter_ascii _ (by decide), U.digit_ascii _ (by decide)]; decide

theorem isIdent_close (U : Uni) : isIdent U '}' = false := by
  simp only [isIdent]
  rw [U.letter_ascii _ (by decide), U.digit_ascii _ (by decide)]; decide

/-- Everything there is to know about one scan step, in terms of the consumed text `k`. -/
theorem buildScanUnit_spec (U : Uni) (g : Glob) (rd : Rd) (u : ScanUnit) (g' : Glob) (rd' : Rd)
    (h : buildScanUnit U g rd = some (u, g', rd')) :
    ∃ k, k ≠ [] ∧ rd.rest = k ++ rd'.rest ∧ rd'.line = rd.line + k.count '\n' ∧
      u = setReturn g' rd' u.value ∧ u.value.Sublist k ∧ u.value ≠ [] ∧
      (¬ StarComment u.value → u.value = k) ∧ u.value.head? = k.head? ∧
      g'.braceLev = g.braceLev + braceDelta u.value := by
  unfold buildScanUnit at h
  split at h
  · simp at h
  · rename_i ch r hr
    by_cases h1 : ch = '/'
    · simp only [h1, if_true] at h
      split at h
      · simp at h
      · rename_i d r'
        by_cases h2 : d = '/'
        · simp only [h2, if_true, Option.map_eq_some_iff] at h
          obtain ⟨⟨b, rdx⟩, hb, he⟩ := h
          simp only [Prod.mk.injEq] at he
          obtain ⟨rfl, rfl, rfl⟩ := he
          obtain ⟨e1, e2, e3, -, -⟩ := lineComment_spec _ _ _ _ hb
          refine ⟨'/' :: '/' :: b, by simp, ?_, ?_, rfl, by simp [setReturn], by simp [setReturn],
            by simp [setReturn], by simp [setReturn], by simp [setReturn, braceDelta]⟩
          · rw [hr, h1, h2, e1]; simp
          · rw [e2, bump_eq]; simp
        · by_cases h3 : d = '*'
          · simp only [h3, if_true, Option.map_eq_some_iff, show ¬ ('*' = '/') by decide, if_false] at h
            obtain ⟨⟨b, rdx⟩, hb, he⟩ := h
            simp only [Prod.mk.injEq] at he
            obtain ⟨rfl, rfl, rfl⟩ := he
            obtain ⟨m, m', e1, e2, e3, e4, e5⟩ := blockComment_spec _ _ _ _ hb
            refine ⟨'/' :: '*' :: (m' ++ ['*', '/']), by simp, ?_, ?_, rfl, ?_, by simp [setReturn], ?_,
              by simp [setReturn], by simp [setReturn, braceDelta]⟩
            · rw [hr, h1, h3, e2]; simp
            · rw [e3, bump_eq]; simp
            · simp only [setReturn, e1]
              exact ((e4.append (List.Sublist.refl _)).cons_cons _).cons_cons _
            · intro hns
              simp only [setReturn, e1] at hns ⊢
              have : '*' ∉ m := fun hm => hns ⟨m, by simp, hm⟩
              rw [e5 this]
          · simp only [h2, h3, if_false, Option.some.injEq, Prod.mk.injEq] at h
            obtain ⟨rfl, rfl, rfl⟩ := h
            refine ⟨['/'], by simp, by simp [hr, h1], ?_, rfl, by simp [setReturn], by simp [setReturn],
              by simp [setReturn], by simp [setReturn], by simp [setReturn, braceDelta]⟩
            rw [bump_eq]
    · simp only [h1, if_false] at h
      by_cases h2 : ch = '"'
      · simp only [h2, if_true, Option.map_eq_some_iff] at h
        obtain ⟨⟨b, rdx⟩, hb, he⟩ := h
        simp only [Prod.mk.injEq] at he
        obtain ⟨rfl, rfl, rfl⟩ := he
        obtain ⟨e1, e2, e3, -⟩ := strLit_spec _ _ _ _ hb
        refine ⟨'"' :: b, by simp, ?_, ?_, rfl, by simp [setReturn], by simp [setReturn],
            by simp [setReturn], by simp [setReturn], by simp [setReturn, braceDelta]⟩
        · rw [hr, h2, e1]; simp
        · rw [e2, bump_eq]; simp
      · simp only [h2, if_false] at h
        by_cases h3 : isSpace ch = true
        · simp only [h3, if_true, Option.some.injEq, Prod.mk.injEq] at h
          obtain ⟨rfl, rfl, rfl⟩ := h
          obtain ⟨e1, e2, -, -⟩ := groupLoop_spec isSpace r (bump ch rd.line)
          refine ⟨ch :: (groupLoop isSpace (bump ch rd.line) r).1, by simp, ?_, ?_, rfl, by simp [setReturn],
            by simp [setReturn], by simp [setReturn], by simp [setReturn], ?_⟩
          · rw [hr, List.cons_append, ← e1]
          · rw [e2]; generalize (groupLoop isSpace (bump ch rd.line) r).1 = z; rw [bump_eq, count_cons_nl ch z]; omega
          · simp only [setReturn, braceDelta]
            have a : ch ≠ '{' := by rintro rfl; exact absurd h3 (by decide)
            have b : ch ≠ '}' := by rintro rfl; exact absurd h3 (by decide)
            simp [a, b]
        · simp only [h3] at h
          by_cases h4 : isIdent U ch = true
          · simp only [h4, if_true, Option.some.injEq, Prod.mk.injEq, Bool.false_eq_true, if_false] at h
            obtain ⟨rfl, rfl, rfl⟩ := h
            obtain ⟨e1, e2, -, -⟩ := groupLoop_spec (isIdent U) r (bump ch rd.line)
            refine ⟨ch :: (groupLoop (isIdent U) (bump ch rd.line) r).1, by simp, ?_, ?_, rfl, by simp [setReturn],
              by simp [setReturn], by simp [setReturn], by simp [setReturn], ?_⟩
            · rw [hr, List.cons_append, ← e1]
            · rw [e2]; generalize (groupLoop (isIdent U) (bump ch rd.line) r).1 = z; rw [bump_eq, count_cons_nl ch z]; omega
            · simp only [setReturn, braceDelta]
              have a : ch ≠ '{' := by rintro rfl; rw [isIdent_open] at h4; simp at h4
              have b : ch ≠ '}' := by rintro rfl; rw [isIdent_close] at h4; simp at h4
              simp only [List.cons.injEq, a, b, false_and, if_false, Int.add_zero]
              split <;> rfl
          · simp only [h4, Bool.false_eq_true, if_false] at h
            by_cases h5 : ch = '{'
            · simp only [h5, if_true, Option.some.injEq, Prod.mk.injEq] at h
              obtain ⟨rfl, rfl, rfl⟩ := h
              refine ⟨['{'], by simp, by simp [hr, h5], ?_, rfl, by simp [setReturn], by simp [setReturn],
                by simp [setReturn], by simp [setReturn], ?_⟩
              · simp [bump_eq]
              · simp only [setReturn, braceDelta]; split <;> simp
            · by_cases h6 : ch = '}'
              · simp only [h6, if_true, Option.some.injEq, Prod.mk.injEq, show ¬ ('}' = '{') by decide,
                  if_false] at h
                obtain ⟨rfl, rfl, rfl⟩ := h
                refine ⟨['}'], by simp, by simp [hr, h6], ?_, rfl, by simp [setReturn], by simp [setReturn],
                  by simp [setReturn], by simp [setReturn], ?_⟩
                · simp [bump_eq]
                · simp only [setReturn, braceDelta]; split <;> simp <;> omega
              · simp only [h5, h6, if_false, Option.some.injEq, Prod.mk.injEq] at h
                obtain ⟨rfl, rfl, rfl⟩ := h
                refine ⟨[ch], by simp, by simp [hr], ?_, rfl, by simp [setReturn], by simp [setReturn],
                  by simp [setReturn], by simp [setReturn], ?_⟩
                · simp [bump_eq]
                · simp [setReturn, braceDelta, h5, h6]

end Baron.Scanner

namespace Baron.Scanner

theorem isSpace_not_service : ∀ c, isSpace c = true → ∀ b, c :: b ≠ "service".toList := by
  intro c h b e
  have : c = 's' := by
    have := congrArg List.head? e
    simpa using this
  subst this
  exact absurd h (by decide)

/-- How one scan step changes the process-wide state, in terms of the unit's text and of whether input remains. -/
theorem buildScanUnit_glob (U : Uni) (g : Glob) (rd : Rd) (u : ScanUnit) (g' : Glob) (rd' : Rd)
    (h : buildScanUnit U g rd = some (u, g', rd')) :
    g' = if u.value = "service".toList then (if rd'.rest = [] then g else { g with withinDef := true })
         else if u.value = ['{'] then
           ⟨g.withinBody || g.withinDef, false, g.braceLev + 1⟩
         else if u.value = ['}'] then
           ⟨g.withinBody && !decide (g.braceLev - 1 = 0), g.withinDef, g.braceLev - 1⟩
         else g := by
  have hs : "service".toList = ['s', 'e', 'r', 'v', 'i', 'c', 'e'] := by decide
  unfold buildScanUnit at h
  split at h
  · simp at h
  · rename_i ch r hr
    by_cases h1 : ch = '/'
    · simp only [h1, if_true] at h
      split at h
      · simp at h
      · rename_i d r'
        by_cases h2 : d = '/'
        · simp only [h2, if_true, Option.map_eq_some_iff] at h
          obtain ⟨⟨b, rdx⟩, hb, he⟩ := h
          simp only [Prod.mk.injEq] at he
          obtain ⟨rfl, rfl, rfl⟩ := he
          simp [setReturn]
        · by_cases h3 : d = '*'
          · simp only [h3, if_true, Option.map_eq_some_iff, show ¬ ('*' = '/') by decide, if_false] at h
            obtain ⟨⟨b, rdx⟩, hb, he⟩ := h
            simp only [Prod.mk.injEq] at he
            obtain ⟨rfl, rfl, rfl⟩ := he
            simp [setReturn]
          · simp only [h2, h3, if_false, Option.some.injEq, Prod.mk.injEq] at h
            obtain ⟨rfl, rfl, rfl⟩ := h
            simp [setReturn]
    · simp only [h1, if_false] at h
      by_cases h2 : ch = '"'
      · simp only [h2, if_true, Option.map_eq_some_iff] at h
        obtain ⟨⟨b, rdx⟩, hb, he⟩ := h
        simp only [Prod.mk.injEq] at he
        obtain ⟨rfl, rfl, rfl⟩ := he
        simp [setReturn]
      · simp only [h2, if_false] at h
        by_cases h3 : isSpace ch = true
        · simp only [h3, if_true, Option.some.injEq, Prod.mk.injEq] at h
          obtain ⟨rfl, rfl, rfl⟩ := h
          have a : ch ≠ '{' := by rintro rfl; exact absurd h3 (by decide)
          have b : ch ≠ '}' := by rintro rfl; exact absurd h3 (by decide)
          have hns := isSpace_not_service ch h3 (groupLoop isSpace (bump ch rd.line) r).1
          refine Eq.symm ((if_neg hns).trans ?_)
          simp [setReturn, a, b]
        · simp only [h3] at h
          by_cases h4 : isIdent U ch = true
          · simp only [h4, if_true, Option.some.injEq, Prod.mk.injEq, Bool.false_eq_true, if_false] at h
            obtain ⟨rfl, rfl, rfl⟩ := h
            have a : ch ≠ '{' := by rintro rfl; rw [isIdent_open] at h4; simp at h4
            have b : ch ≠ '}' := by rintro rfl; rw [isIdent_close] at h4; simp at h4
            simp only [setReturn, List.cons.injEq, a, b, false_and, if_false]
            by_cases e1 : ch :: (groupLoop (isIdent U) (bump ch rd.line) r).1 = "service".toList
            · by_cases e2 : (groupLoop (isIdent U) (bump ch rd.line) r).2.rest = []
              · simp [e1, e2]
              · simp [e1, e2]
            · rw [if_neg (fun h => e1 h.2), if_neg e1]
          · simp only [h4, Bool.false_eq_true, if_false] at h
            by_cases h5 : ch = '{'
            · simp only [h5, if_true, Option.some.injEq, Prod.mk.injEq] at h
              obtain ⟨rfl, rfl, rfl⟩ := h
              cases hd : g.withinDef <;> simp [setReturn]
            · by_cases h6 : ch = '}'
              · simp only [h6, if_true, Option.some.injEq, Prod.mk.injEq, show ¬ ('}' = '{') by decide,
                  if_false] at h
                obtain ⟨rfl, rfl, rfl⟩ := h
                cases hd : g.withinBody <;> by_cases hz : g.braceLev - 1 = 0 <;> simp [setReturn, hz]
              · simp only [h5, h6, if_false, Option.some.injEq, Prod.mk.injEq] at h
                obtain ⟨rfl, rfl, rfl⟩ := h
                simp [setReturn, h5, h6]

/-- Neither the text of a unit nor what remains depends on the process-wide state. -/
theorem buildScanUnit_indep (U : Uni) (g₁ g₂ : Glob) (rd : Rd) :
    (buildScanUnit U g₁ rd).map (fun x => (x.1.value, x.1.lineNo, x.2.2)) =
    (buildScanUnit U g₂ rd).map (fun x => (x.1.value, x.1.lineNo, x.2.2)) := by
  unfold buildScanUnit
  split
  · rfl
  · rename_i ch r hr
    by_cases h1 : ch = '/'
    · simp only [h1, if_true]
      split
      · rfl
      · rename_i d r'
        by_cases h2 : d = '/'
        · simp [h2, Option.map_map, Function.comp_def, setReturn]
        · by_cases h3 : d = '*'
          · simp [h3, Option.map_map, Function.comp_def, setReturn]
          · simp [h2, h3, setReturn]
    · simp only [h1, if_false]
      by_cases h2 : ch = '"'
      · simp [h2, Option.map_map, Function.comp_def, setReturn]
      · simp only [h2, if_false]
        repeat' split
        all_goals simp [setReturn]

end Baron.Scanner

namespace Baron.Scanner

/-! ### Failure of a scan step -/

theorem lineComment_none (s : Str) (line : Nat) (h : lineComment line s = none) : '\n' ∉ s := by
  induction s with
  | nil => simp
  | cons c r ih =>
    unfold lineComment at h
    by_cases hc : c = '\n'
    · simp [hc] at h
    · simp only [hc, if_false, Option.map_eq_none_iff] at h
      simp only [List.mem_cons, not_or]
      exact ⟨fun e => hc e.symm, ih h⟩

theorem blockComment_ok (m post : Str) (line : Nat) (hm : '*' ∉ m) :
    blockComment line (m ++ ['*', '/'] ++ post) = some (m ++ ['*', '/'], ⟨post, line + m.count '\n'⟩) := by
  induction m generalizing line with
  | nil => simp [blockComment]
  | cons c r ih =>
    simp only [List.mem_cons, not_or] at hm
    have hc : ¬ c = '*' := fun e => hm.1 e.symm
    simp only [List.cons_append]
    unfold blockComment
    simp only [hc, if_false]
    rw [ih _ hm.2, bump_eq, count_cons_nl c r]
    simp [Nat.add_assoc]

theorem lineComment_ok (m post : Str) (line : Nat) (hm : '\n' ∉ m) :
    lineComment line (m ++ '\n' :: post) = some (m ++ ['\n'], ⟨post, line + 1⟩) := by
  induction m generalizing line with
  | nil => simp [lineComment]
  | cons c r ih =>
    simp only [List.mem_cons, not_or] at hm
    have hc : ¬ c = '\n' := fun e => hm.1 e.symm
    simp only [List.cons_append]
    unfold lineComment
    simp only [hc, if_false]
    rw [ih _ hm.2]
    simp

theorem strLit_ok (b post : Str) (line : Nat) (hb : StrBody b) :
    strLit line (b ++ '"' :: post) = some (b ++ ['"'], ⟨post, line + b.count '\n'⟩) := by
  induction hb generalizing line with
  | nil => unfold strLit; simp
  | @plain c r h1 h2 _ ih =>
    simp only [List.cons_append]
    unfold strLit
    simp only [h1, h2, if_false]
    rw [ih, bump_eq, count_cons_nl c r]
    simp [Nat.add_assoc]
  | @esc d r _ ih =>
    simp only [List.cons_append]
    unfold strLit
    simp only [if_true]
    rw [ih, bump_eq, count_cons_nl '\\', count_cons_nl d r]
    simp [Nat.add_assoc]

theorem buildScanUnit_none (U : Uni) (g : Glob) (rd : Rd) (h : buildScanUnit U g rd = none) :
    Unterminated rd.rest := by
  unfold buildScanUnit at h
  split at h
  · rename_i hr; exact .inl hr
  · rename_i ch r hr
    by_cases h1 : ch = '/'
    · simp only [h1, if_true] at h
      split at h
      · exact .inr (.inl (by simp [hr, h1]))
      · rename_i d r'
        by_cases h2 : d = '/'
        · simp only [h2, if_true, Option.map_eq_none_iff] at h
          exact .inr (.inr (.inl ⟨r', by simp [hr, h1, h2], lineComment_none _ _ h⟩))
        · by_cases h3 : d = '*'
          · simp only [h3, if_true, Option.map_eq_none_iff, show ¬ ('*' = '/') by decide, if_false] at h
            refine .inr (.inr (.inr (.inl ⟨r', by simp [hr, h1, h3], ?_⟩)))
            intro m post e
            apply Classical.byContradiction
            intro hm
            rw [e, blockComment_ok _ _ _ hm] at h
            simp at h
          · simp [h2, h3] at h
    · simp only [h1, if_false] at h
      by_cases h2 : ch = '"'
      · simp only [h2, if_true, Option.map_eq_none_iff] at h
        refine .inr (.inr (.inr (.inr ⟨r, by simp [hr, h2], ?_⟩)))
        rintro ⟨b, post, hb, e⟩
        rw [e, strLit_ok _ _ _ hb] at h
        simp at h
      · simp only [h2, if_false] at h
        repeat' split at h
        all_goals simp at h

/-! ### The loop -/

theorem scanLoop_run (U : Uni) (n : Nat) (g : Glob) (rd : Rd) (h : rd.rest.length < n) :
    ScanRun U g rd (scanLoop U n g rd).1 (scanLoop U n g rd).2.1 (scanLoop U n g rd).2.2 := by
  induction n generalizing g rd with
  | zero => omega
  | succ n ih =>
    unfold scanLoop
    cases hb : buildScanUnit U g rd with
    | none => exact .stop hb
    | some x =>
      obtain ⟨u, g', rd'⟩ := x
      obtain ⟨k, hk, e, -⟩ := buildScanUnit_spec U g rd u g' rd' hb
      have : rd'.rest.length < n := by
        have := congrArg List.length e
        have hk' : 0 < k.length := List.length_pos_iff.mpr hk
        simp at this; omega
      exact .step hb (ih g' rd' this)

theorem ScanRun.unique {U : Uni} {g rd us₁ g₁ r₁ us₂ g₂ r₂} (h₁ : ScanRun U g rd us₁ g₁ r₁)
    (h₂ : ScanRun U g rd us₂ g₂ r₂) : us₁ = us₂ ∧ g₁ = g₂ ∧ r₁ = r₂ := by
  induction h₁ generalizing us₂ g₂ r₂ with
  | stop h =>
    cases h₂ with
    | stop _ => simp
    | step h' _ => rw [h] at h'; simp at h'
  | step h _ ih =>
    cases h₂ with
    | stop h' => rw [h] at h'; simp at h'
    | step h' h'' =>
      rw [h] at h'
      simp only [Option.some.injEq, Prod.mk.injEq] at h'
      obtain ⟨rfl, rfl, rfl⟩ := h'
      obtain ⟨rfl, rfl, rfl⟩ := ih h''
      simp

theorem ScanRun.length_le {U : Uni} {g rd us g' rd'} (h : ScanRun U g rd us g' rd') :
    us.length + rd'.rest.length ≤ rd.rest.length := by
  induction h with
  | stop => simp
  | step h _ ih =>
    obtain ⟨k, hk, e, -⟩ := buildScanUnit_spec U _ _ _ _ _ h
    have := congrArg List.length e
    have hk' : 0 < k.length := List.length_pos_iff.mpr hk
    simp at this ⊢; omega

theorem ScanRun.unterminated {U : Uni} {g rd us g' rd'} (h : ScanRun U g rd us g' rd') :
    Unterminated rd'.rest := by
  induction h with
  | stop h => exact buildScanUnit_none U _ _ h
  | step _ _ ih => exact ih

/-- One chunk of consumed text per unit. -/
theorem ScanRun.chunks {U : Uni} {g rd us g' rd'} (h : ScanRun U g rd us g' rd') :
    ∃ cs : List (Str × ScanUnit), cs.map (·.2) = us ∧ rd.rest = (cs.map (·.1)).flatten ++ rd'.rest ∧
      ∀ x ∈ cs, x.1 ≠ [] ∧ x.2.value ≠ [] ∧ x.2.value.Sublist x.1 ∧ x.2.value.head? = x.1.head? ∧
        (¬ StarComment x.2.value → x.2.value = x.1) := by
  induction h with
  | stop => exact ⟨[], by simp⟩
  | @step g rd u g' rd' us g'' rd'' h _ ih =>
    obtain ⟨cs, e0, e, f⟩ := ih
    obtain ⟨k, hk, e', -, -, h1, h2, h3, h4, -⟩ := buildScanUnit_spec U _ _ _ _ _ h
    refine ⟨(k, u) :: cs, by simp [e0], by simp [e', e], ?_⟩
    intro x hx
    rcases List.mem_cons.mp hx with rfl | hx
    · exact ⟨hk, h2, h1, h4, h3⟩
    · exact f x hx

/-- Line number and depth of the unit at any position. -/
theorem ScanRun.at {U : Uni} {g rd us g' rd'} (h : ScanRun U g rd us g' rd') :
    ∀ pre u post, us = pre ++ u :: post → ∃ k r, rd.rest = k ++ r ∧
      u.lineNo = rd.line + k.count '\n' ∧
      u.braceLevel = g.braceLev + depthOf ((pre ++ [u]).map (·.value)) ∧
      ((∀ x ∈ pre ++ [u], ¬ StarComment x.value) → k = ((pre ++ [u]).map (·.value)).flatten) := by
  induction h with
  | stop => intro pre u post e; simp at e
  | @step g rd u0 g1 rd1 us g'' rd'' hb hr ih =>
    obtain ⟨k, hk, e', hl, hu, -, -, h3, -, hlev⟩ := buildScanUnit_spec U _ _ _ _ _ hb
    intro pre u post e
    cases pre with
    | nil =>
      simp only [List.nil_append, List.cons.injEq] at e
      obtain ⟨rfl, rfl⟩ := e
      refine ⟨k, rd1.rest, e', ?_, ?_, ?_⟩
      · rw [hu]; exact hl
      · rw [hu]; simp only [setReturn]; rw [hlev]; simp [depthOf]
      · intro hx; simp at hx; simp [h3 hx]
    | cons p pre =>
      simp only [List.cons_append, List.cons.injEq] at e
      obtain ⟨rfl, rfl⟩ := e
      obtain ⟨k2, r2, e2, l2, d2, s2⟩ := ih pre u post rfl
      refine ⟨k ++ k2, r2, by rw [e', e2, List.append_assoc], ?_, ?_, ?_⟩
      · rw [l2, hl, List.count_append]; omega
      · rw [d2, hlev]; simp [depthOf]; omega
      · intro hx
        rw [s2 (fun x hm => hx x (by simp at hm ⊢; exact .inr hm)), ← h3 (hx _ (by simp))]
        simp

theorem scan_run (U : Uni) (g : Glob) (s : Str) :
    ScanRun U g ⟨s, 1⟩ (scan U g s).1 (scan U g s).2.1 (scan U g s).2.2 :=
  scanLoop_run U _ g _ (by simp)

/-- Unit texts, line numbers and the remaining input do not depend on the process-wide state. -/
theorem ScanRun.indep {U : Uni} {g₁ rd us g' rd'} (h : ScanRun U g₁ rd us g' rd') (g₂ : Glob) :
    ∃ us₂ g₂', ScanRun U g₂ rd us₂ g₂' rd' ∧ us₂.map (·.value) = us.map (·.value) ∧
      us₂.map (·.lineNo) = us.map (·.lineNo) := by
  induction h generalizing g₂ with
  | @stop g rd h =>
    refine ⟨[], g₂, .stop ?_, rfl, rfl⟩
    have := buildScanUnit_indep U g g₂ rd
    rw [h] at this
    simpa using this.symm
  | @step g rd u g' rd' us g'' rd'' h _ ih =>
    have e := buildScanUnit_indep U g g₂ rd
    rw [h] at e
    cases h2 : buildScanUnit U g₂ rd with
    | none => rw [h2] at e; simp at e
    | some x =>
      obtain ⟨u2, g2', rd2⟩ := x
      rw [h2] at e
      simp only [Option.map_some, Option.some.injEq, Prod.mk.injEq] at e
      obtain ⟨ev, el, er⟩ := e
      subst er
      obtain ⟨us2, gx, hr, e1, e2⟩ := ih g2'
      exact ⟨u2 :: us2, gx, .step h2 hr, by simp [e1, ev], by simp [e2, el]⟩

theorem depthOf_append (a b : List Str) : depthOf (a ++ b) = depthOf a + depthOf b := by
  simp [depthOf]

/-- The process-wide state after a run, tracked along the unit texts. -/
theorem ScanRun.glob_inv {U : Uni} {g rd us g' rd'} (h : ScanRun U g rd us g' rd')
    (hinv : 0 ≤ g.braceLev ∧ (g.withinBody = true → 1 ≤ g.braceLev))
    (hpre : ∀ pre post, us.map (·.value) = pre ++ post → 0 ≤ g.braceLev + depthOf pre) :
    g'.braceLev = g.braceLev + depthOf (us.map (·.value)) ∧
    (g'.withinBody = true → 1 ≤ g'.braceLev) ∧
    (g'.withinDef = true → (g.withinDef = true ∧ ['{'] ∉ us.map (·.value)) ∨
      ∃ pre post, us.map (·.value) = pre ++ "service".toList :: post ∧ ['{'] ∉ post) := by
  induction h with
  | stop => simpa [depthOf] using hinv.2
  | @step g rd u g1 rd1 us g'' rd'' hb hr ih =>
    have hg := buildScanUnit_glob U _ _ _ _ _ hb
    obtain ⟨k, hk, e', hl, hu, -, -, h3, -, hlev⟩ := buildScanUnit_spec U _ _ _ _ _ hb
    have h0 : 0 ≤ g1.braceLev := by
      have := hpre [u.value] (us.map (·.value)) (by simp)
      rw [hlev]; simpa [depthOf] using this
    have hb1 : g1.withinBody = true → 1 ≤ g1.braceLev := by
      obtain ⟨i1, i2⟩ := hinv
      by_cases c1 : u.value = "service".toList
      · rw [if_pos c1] at hg
        by_cases c2 : rd1.rest = []
        · rw [if_pos c2] at hg; rw [hg]; exact i2
        · rw [if_neg c2] at hg; rw [hg]; exact i2
      · rw [if_neg c1] at hg
        by_cases c2 : u.value = ['{']
        · rw [if_pos c2] at hg; rw [hg]; intro _; show 1 ≤ g.braceLev + 1; omega
        · rw [if_neg c2] at hg
          by_cases c3 : u.value = ['}']
          · rw [if_pos c3] at hg
            rw [hg] at h0 ⊢
            intro hw
            simp only [Bool.and_eq_true, Bool.not_eq_true', decide_eq_false_iff_not] at hw h0 ⊢
            omega
          · rw [if_neg c3] at hg; rw [hg]; exact i2
    obtain ⟨a1, a2, a3⟩ := ih ⟨h0, hb1⟩ (by
      intro pre post e
      have := hpre (u.value :: pre) post (by simp [e])
      simp only [depthOf, List.map_cons, List.sum_cons] at this ⊢
      omega)
    refine ⟨?_, a2, ?_⟩
    · rw [a1, hlev]; simp [depthOf]; omega
    · intro hd
      rcases a3 hd with ⟨b1, b2⟩ | ⟨pre, post, b1, b2⟩
      · by_cases hv : u.value = "service".toList
        · exact .inr ⟨[], us.map (·.value), by simp [hv], b2⟩
        · left
          rw [hg, if_neg hv] at b1
          by_cases hv2 : u.value = ['{']
          · simp [hv2] at b1
          · rw [if_neg hv2] at b1
            have : g.withinDef = true := by
              split at b1 <;> exact b1
            exact ⟨this, by simp only [List.map_cons, List.mem_cons, not_or]; exact ⟨fun e => hv2 e.symm, b2⟩⟩
      · exact .inr ⟨u.value :: pre, post, by simp [b1], b2⟩

/-- Scanning a balanced text from the initial state ends in the initial state. -/
theorem scan_balanced (U : Uni) (s : Str) (h : Balanced ((scan U .init s).1.map (·.value))) :
    (scan U .init s).2.1 = .init := by
  obtain ⟨h1, h2, h3⟩ := h
  have := (scan_run U .init s).glob_inv (by simp [Glob.init]) (by
    intro pre post e
    simpa [Glob.init] using h1 pre post e)
  generalize (scan U Glob.init s).2.1 = g at this ⊢
  obtain ⟨a1, a2, a3⟩ := this
  rw [h2] at a1
  have hb : g.withinBody = false := by
    cases hw : g.withinBody with
    | false => rfl
    | true => have := a2 hw; rw [a1] at this; simp [Glob.init] at this
  have hd : g.withinDef = false := by
    cases hw : g.withinDef with
    | false => rfl
    | true =>
      rcases a3 hw with ⟨c, -⟩ | ⟨pre, post, e, hn⟩
      · simp [Glob.init] at c
      · exact absurd (h3 pre post e) hn
  cases g
  simp_all [Glob.init]

end Baron.Scanner

namespace Baron.Scanner

theorem count_zero_of (p : Char → Bool) (x : Char) (hx : p x = false) (l : Str) (h : ∀ c ∈ l, p c = true) :
    l.count x = 0 := by
  rw [List.count_eq_zero]
  intro hm
  rw [h x hm] at hx
  simp at hx

/-- A unit that is neither a comment (or slash) nor a string contains a brace only if it is that brace. -/
theorem buildScanUnit_brace (U : Uni) (g : Glob) (rd : Rd) (u : ScanUnit) (g' : Glob) (rd' : Rd)
    (h : buildScanUnit U g rd = some (u, g', rd')) (h1 : u.value.head? ≠ some '/')
    (h2 : u.value.head? ≠ some '"') :
    braceDelta u.value = (u.value.count '{' : Int) - u.value.count '}' := by
  unfold buildScanUnit at h
  split at h
  · simp at h
  · rename_i ch r hr
    by_cases c1 : ch = '/'
    · exfalso
      apply h1
      simp only [c1, if_true] at h
      split at h
      · simp at h
      · repeat' split at h
        all_goals simp only [Option.map_eq_some_iff, Option.some.injEq, Prod.mk.injEq] at h
        · obtain ⟨x, _, e, _⟩ := h; rw [← e]; rfl
        · obtain ⟨x, _, e, _⟩ := h; rw [← e]; rfl
        · obtain ⟨e, _⟩ := h; rw [← e]; rfl
    · simp only [c1, if_false] at h
      by_cases c2 : ch = '"'
      · exfalso
        apply h2
        simp only [c2, if_true, Option.map_eq_some_iff, Prod.mk.injEq] at h
        obtain ⟨x, _, e, _⟩ := h; rw [← e]; rfl
      · simp only [c2, if_false] at h
        by_cases h3 : isSpace ch = true
        · simp only [h3, if_true, Option.some.injEq, Prod.mk.injEq] at h
          obtain ⟨rfl, rfl, rfl⟩ := h
          obtain ⟨-, -, e3, -⟩ := groupLoop_spec isSpace r (bump ch rd.line)
          have hall : ∀ c ∈ ch :: (groupLoop isSpace (bump ch rd.line) r).1, isSpace c = true := by
            intro c hc
            rcases List.mem_cons.mp hc with rfl | hc
            · exact h3
            · exact e3 c hc
          have a : ch ≠ '{' := by rintro rfl; exact absurd h3 (by decide)
          have b : ch ≠ '}' := by rintro rfl; exact absurd h3 (by decide)
          simp only [setReturn]
          rw [count_zero_of isSpace '{' (by decide) _ hall, count_zero_of isSpace '}' (by decide) _ hall]
          simp [braceDelta, a, b]
        · simp only [h3] at h
          by_cases h4 : isIdent U ch = true
          · simp only [h4, if_true, Option.some.injEq, Prod.mk.injEq, Bool.false_eq_true, if_false] at h
            obtain ⟨rfl, rfl, rfl⟩ := h
            obtain ⟨-, -, e3, -⟩ := groupLoop_spec (isIdent U) r (bump ch rd.line)
            have hall : ∀ c ∈ ch :: (groupLoop (isIdent U) (bump ch rd.line) r).1, isIdent U c = true := by
              intro c hc
              rcases List.mem_cons.mp hc with rfl | hc
              · exact h4
              · exact e3 c hc
            have a : ch ≠ '{' := by rintro rfl; rw [isIdent_open] at h4; simp at h4
            have b : ch ≠ '}' := by rintro rfl; rw [isIdent_close] at h4; simp at h4
            simp only [setReturn]
            rw [count_zero_of (isIdent U) '{' (isIdent_open U) _ hall,
              count_zero_of (isIdent U) '}' (isIdent_close U) _ hall]
            simp [braceDelta, a, b]
          · simp only [h4, Bool.false_eq_true, if_false] at h
            by_cases h5 : ch = '{'
            · simp only [h5, if_true, Option.some.injEq, Prod.mk.injEq] at h
              obtain ⟨rfl, rfl, rfl⟩ := h
              simp [setReturn, braceDelta]
            · by_cases h6 : ch = '}'
              · simp only [h6, if_true, Option.some.injEq, Prod.mk.injEq, show ¬ ('}' = '{') by decide,
                  if_false] at h
                obtain ⟨rfl, rfl, rfl⟩ := h
                simp [setReturn, braceDelta]
              · simp only [h5, h6, if_false, Option.some.injEq, Prod.mk.injEq] at h
                obtain ⟨rfl, rfl, rfl⟩ := h
                simp [setReturn, braceDelta, h5, h6]

theorem ScanRun.depth_plain {U : Uni} {g rd us g' rd'} (h : ScanRun U g rd us g' rd')
    (h1 : '/' ∉ rd.rest) (h2 : '"' ∉ rd.rest) :
    ∀ u ∈ us, braceDelta u.value = (u.value.count '{' : Int) - u.value.count '}' := by
  induction h with
  | stop => simp
  | @step g rd u g1 rd1 us g'' rd'' hb hr ih =>
    obtain ⟨k, hk, e', -, -, -, -, -, h4, -⟩ := buildScanUnit_spec U _ _ _ _ _ hb
    have hh : ∀ x, x ∉ rd.rest → u.value.head? ≠ some x := by
      intro x hx e
      rw [h4] at e
      apply hx
      rw [e']
      exact List.mem_append_left _ (List.mem_of_head? e)
    intro x hx
    rcases List.mem_cons.mp hx with rfl | hx
    · exact buildScanUnit_brace U _ _ _ _ _ hb (hh _ h1) (hh _ h2)
    · refine ih ?_ ?_ x hx
      · intro hm; apply h1; rw [e']; exact List.mem_append_right _ hm
      · intro hm; apply h2; rw [e']; exact List.mem_append_right _ hm

theorem depthOf_flatten (vs : List Str) (h : ∀ v ∈ vs, braceDelta v = (v.count '{' : Int) - v.count '}') :
    depthOf vs = (vs.flatten.count '{' : Int) - vs.flatten.count '}' := by
  induction vs with
  | nil => simp [depthOf]
  | cons v vs ih =>
    have := ih (fun x hx => h x (List.mem_cons_of_mem _ hx))
    have h0 := h v (List.mem_cons_self)
    simp only [depthOf, List.map_cons, List.sum_cons, List.flatten_cons, List.count_append] at this ⊢
    omega

/-! ### The position-based reader and the pair (unread text, line) -/

theorem readRune_rd (r : RuneReader) (h : 0 ≤ r.lineNo) :
    (∀ c r', r.readRune = (some c, r') → r.rd.rest = c :: r'.rd.rest ∧ r'.rd.line = bump c r.rd.line) ∧
    (∀ r', r.readRune = (none, r') → r.rd.rest = [] ∧ r' = r) := by
  unfold RuneReader.readRune RuneReader.rd
  constructor
  · intro c r' e
    split at e
    · rename_i x hx
      simp only [Prod.mk.injEq, Option.some.injEq] at e
      obtain ⟨rfl, rfl⟩ := e
      obtain ⟨hlt, hget⟩ := List.getElem?_eq_some_iff.mp hx
      refine ⟨?_, ?_⟩
      · simp only
        rw [List.drop_eq_getElem_cons hlt, hget]
      · simp only [bump]; split <;> omega
    · simp at e
  · intro r' e
    split at e
    · simp at e
    · rename_i hx
      simp only [Prod.mk.injEq, true_and] at e
      rw [List.getElem?_eq_none_iff] at hx
      exact ⟨by simpa using hx, e.symm⟩

end Baron.Scanner
