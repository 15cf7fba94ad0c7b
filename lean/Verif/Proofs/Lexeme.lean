import Verif.Proofs.Scanner
import Verif.Spec.Lexeme

namespace Baron.Scanner

theorem blockComment_body (s : Str) (line : Nat) : ∀ (b : Str) (rd : Rd), blockComment line s = some (b, rd) →
    ∃ m k, BlockBody m k ∧ b = k ++ ['*', '/'] ∧ s = m ++ ['*', '/'] ++ rd.rest ∧
      rd.line = line + m.count '\n' := by
  fun_induction blockComment line s with
  | case1 => intro b rd h; simp at h
  | case2 => intro b rd h; simp at h
  | case3 line r' =>
    intro b rd h
    simp only [Option.some.injEq, Prod.mk.injEq] at h
    obtain ⟨rfl, rfl⟩ := h
    exact ⟨[], [], .nil, by simp⟩
  | case4 line d r' hd ih =>
    intro b rd h
    simp only [Option.map_eq_some_iff] at h
    obtain ⟨⟨b', rd'⟩, h1, h2⟩ := h
    obtain ⟨m, k, e0, e1, e2, e3⟩ := ih _ _ h1
    simp only [Prod.mk.injEq] at h2
    obtain ⟨rfl, rfl⟩ := h2
    refine ⟨'*' :: d :: m, '*' :: k, .star hd e0, by simp [e1], by simp [e2], ?_⟩
    rw [e3, bump_eq, count_cons_nl '*', count_cons_nl d m, show ['*'].count '\n' = 0 from rfl]; omega
  | case5 line c r hc ih =>
    intro b rd h
    simp only [Option.map_eq_some_iff] at h
    obtain ⟨⟨b', rd'⟩, h1, h2⟩ := h
    obtain ⟨m, k, e0, e1, e2, e3⟩ := ih _ _ h1
    simp only [Prod.mk.injEq] at h2
    obtain ⟨rfl, rfl⟩ := h2
    refine ⟨c :: m, c :: k, .plain hc e0, by simp [e1], by simp [e2], ?_⟩
    rw [e3, bump_eq, count_cons_nl c m]; omega

theorem strLit_body (s : Str) (line : Nat) : ∀ (b : Str) (rd : Rd), strLit line s = some (b, rd) →
    ∃ m, StrBody m ∧ b = m ++ ['"'] := by
  fun_induction strLit line s with
  | case1 => intro b rd h; simp at h
  | case2 => intro b rd h; simp at h
  | case3 line d r' ih =>
    intro b rd h
    simp only [Option.map_eq_some_iff] at h
    obtain ⟨⟨b', rd'⟩, h1, h2⟩ := h
    obtain ⟨m, e0, e1⟩ := ih _ _ h1
    simp only [Prod.mk.injEq] at h2
    obtain ⟨rfl, rfl⟩ := h2
    exact ⟨'\\' :: d :: m, .esc e0, by simp [e1]⟩
  | case4 line r h0 =>
    intro b rd h
    simp only [Option.some.injEq, Prod.mk.injEq] at h
    obtain ⟨rfl, rfl⟩ := h
    exact ⟨[], .nil, rfl⟩
  | case5 line c r h1 h2 ih =>
    intro b rd h
    simp only [Option.map_eq_some_iff] at h
    obtain ⟨⟨b', rd'⟩, h3, h4⟩ := h
    obtain ⟨m, e0, e1⟩ := ih _ _ h3
    simp only [Prod.mk.injEq] at h4
    obtain ⟨rfl, rfl⟩ := h4
    exact ⟨c :: m, .plain h2 h1 e0, by simp [e1]⟩

theorem stopsAt_of_head {p : Char → Bool} {rest : Str} (h : ∀ c ∈ rest.head?, p c = false) : StopsAt p rest := by
  rintro c r rfl; exact h c rfl

/-- One scan step reads exactly one lexical element. -/
theorem buildScanUnit_lexeme (U : Uni) (g : Glob) (rd : Rd) (u : ScanUnit) (g' : Glob) (rd' : Rd)
    (h : buildScanUnit U g rd = some (u, g', rd')) :
    ∃ k, rd.rest = k ++ rd'.rest ∧ Lexeme U k u.value rd'.rest := by
  unfold buildScanUnit at h
  split at h
  · simp at h
  · rename_i ch r hr
    by_cases h1 : ch = '/'
    · simp only [h1, if_true] at h
      split at h
      · simp at h
      · rename_i d r'
        by_cases h2 : d = '/'
        · simp only [h2, if_true, Option.map_eq_some_iff] at h
          obtain ⟨⟨b, rdx⟩, hb, he⟩ := h
          simp only [Prod.mk.injEq] at he
          obtain ⟨rfl, rfl, rfl⟩ := he
          obtain ⟨e1, -, e3, e4, e5⟩ := lineComment_spec _ _ _ _ hb
          have hb' : b = b.dropLast ++ ['\n'] := by
            rw [List.getLast?_eq_some_getLast e3, Option.some.injEq] at e4
            rw [← e4]; exact (List.dropLast_concat_getLast e3).symm
          refine ⟨'/' :: '/' :: (b.dropLast ++ ['\n']), ?_, ?_⟩
          · rw [hr, h1, h2, e1, ← hb']; simp
          · simp only [setReturn]
            conv => arg 3; rw [hb']
            exact .line e5
        · by_cases h3 : d = '*'
          · simp only [h3, if_true, Option.map_eq_some_iff, show ¬ ('*' = '/') by decide, if_false] at h
            obtain ⟨⟨b, rdx⟩, hb, he⟩ := h
            simp only [Prod.mk.injEq] at he
            obtain ⟨rfl, rfl, rfl⟩ := he
            obtain ⟨m, k, e0, e1, e2, -⟩ := blockComment_body _ _ _ _ hb
            refine ⟨'/' :: '*' :: (m ++ ['*', '/']), by rw [hr, h1, h3, e2]; simp, ?_⟩
            simp only [setReturn, e1]
            exact .block e0
          · simp only [h2, h3, if_false, Option.some.injEq, Prod.mk.injEq] at h
            obtain ⟨rfl, rfl, rfl⟩ := h
            exact ⟨['/'], by simp [hr, h1], .slash h2 h3⟩
    · simp only [h1, if_false] at h
      by_cases h2 : ch = '"'
      · simp only [h2, if_true, Option.map_eq_some_iff] at h
        obtain ⟨⟨b, rdx⟩, hb, he⟩ := h
        simp only [Prod.mk.injEq] at he
        obtain ⟨rfl, rfl, rfl⟩ := he
        obtain ⟨e1, -, -, -⟩ := strLit_spec _ _ _ _ hb
        obtain ⟨m, e5, rfl⟩ := strLit_body _ _ _ _ hb
        exact ⟨'"' :: (m ++ ['"']), by rw [hr, h2, e1]; simp, .str e5⟩
      · simp only [h2, if_false] at h
        by_cases h3 : isSpace ch = true
        · simp only [h3, if_true, Option.some.injEq, Prod.mk.injEq] at h
          obtain ⟨rfl, rfl, rfl⟩ := h
          obtain ⟨e1, -, e3, e4⟩ := groupLoop_spec isSpace r (bump ch rd.line)
          refine ⟨ch :: (groupLoop isSpace (bump ch rd.line) r).1, by rw [hr, List.cons_append, ← e1], ?_⟩
          refine .space (by simp) ?_ (stopsAt_of_head e4)
          intro c hc
          rcases List.mem_cons.mp hc with rfl | hc
          · exact h3
          · exact e3 c hc
        · simp only [h3] at h
          by_cases h4 : isIdent U ch = true
          · simp only [h4, if_true, Option.some.injEq, Prod.mk.injEq, Bool.false_eq_true, if_false] at h
            obtain ⟨rfl, rfl, rfl⟩ := h
            obtain ⟨e1, -, e3, e4⟩ := groupLoop_spec (isIdent U) r (bump ch rd.line)
            refine ⟨ch :: (groupLoop (isIdent U) (bump ch rd.line) r).1, by rw [hr, List.cons_append, ← e1], ?_⟩
            refine .word (by simp) ?_ (stopsAt_of_head e4)
            intro c hc
            rcases List.mem_cons.mp hc with rfl | hc
            · exact h4
            · exact e3 c hc
          · simp only [h4, Bool.false_eq_true, if_false] at h
            have hs : Lexeme U [ch] [ch] r :=
              .symbol (by simpa using h3) (show isIdent U ch = false by simpa using h4) h2 h1
            by_cases h5 : ch = '{'
            · rw [if_pos h5] at h
              simp only [Option.some.injEq, Prod.mk.injEq] at h
              obtain ⟨rfl, rfl, rfl⟩ := h
              exact ⟨[ch], by simp [hr], hs⟩
            · by_cases h6 : ch = '}'
              · rw [if_neg h5, if_pos h6] at h
                simp only [Option.some.injEq, Prod.mk.injEq] at h
                obtain ⟨rfl, rfl, rfl⟩ := h
                exact ⟨[ch], by simp [hr], hs⟩
              · rw [if_neg h5, if_neg h6] at h
                simp only [Option.some.injEq, Prod.mk.injEq] at h
                obtain ⟨rfl, rfl, rfl⟩ := h
                exact ⟨[ch], by simp [hr], hs⟩

theorem ScanRun.lexemes {U : Uni} {g rd us g' rd'} (h : ScanRun U g rd us g' rd') :
    ∃ cs : List (Str × ScanUnit), cs.map (·.2) = us ∧ rd.rest = (cs.map (·.1)).flatten ++ rd'.rest ∧
      ∀ pre x post, cs = pre ++ x :: post →
        Lexeme U x.1 x.2.value ((post.map (·.1)).flatten ++ rd'.rest) ∧
        x.2.lineNo = rd.line + (((pre ++ [x]).map (·.1)).flatten).count '\n' ∧
        x.2.braceLevel = g.braceLev + depthOf ((pre ++ [x]).map (·.1)) := by
  induction h with
  | stop => exact ⟨[], by simp, by simp, by intro pre x post h; simp at h⟩
  | @step g rd u g1 rd1 us g'' rd'' hb hr ih =>
    obtain ⟨cs, e0, e, f⟩ := ih
    obtain ⟨k, hk, e1, hl, hu, -, -, h3, h4, hlev⟩ := buildScanUnit_spec U _ _ _ _ _ hb
    obtain ⟨k', e1', hlex⟩ := buildScanUnit_lexeme U _ _ _ _ _ hb
    have : k' = k := List.append_cancel_right (e1'.symm.trans e1)
    subst this
    have hbd : braceDelta u.value = braceDelta k' := by
      by_cases hs : StarComment u.value
      · obtain ⟨m, hm, -⟩ := hs
        have hh := h4
        rw [hm] at hh
        have hk2 : ∃ r, k' = '/' :: r := by
          cases k' with
          | nil => exact absurd rfl hk
          | cons c r => simp only [List.cons_append, List.head?_cons, Option.some.injEq] at hh; exact ⟨r, by rw [hh]⟩
        obtain ⟨r, hr'⟩ := hk2
        rw [hm, hr']; simp [braceDelta]
      · rw [h3 hs]
    refine ⟨(k', u) :: cs, by simp [e0], by simp [e1, e], ?_⟩
    intro pre x post hx
    cases pre with
    | nil =>
      simp only [List.nil_append, List.cons.injEq] at hx
      obtain ⟨rfl, rfl⟩ := hx
      refine ⟨by rw [← e]; exact hlex, ?_, ?_⟩
      · rw [hu]; simp [setReturn, hl]
      · show u.braceLevel = _
        rw [hu]; simp only [setReturn]; rw [hlev, hbd]; simp [depthOf]
    | cons p pre =>
      simp only [List.cons_append, List.cons.injEq] at hx
      obtain ⟨rfl, rfl⟩ := hx
      obtain ⟨a, b, c⟩ := f pre x post rfl
      refine ⟨a, ?_, ?_⟩
      · rw [b, hl, List.cons_append, List.map_cons, List.flatten_cons, List.count_append]; simp only; omega
      · rw [c, hlev, hbd]; simp [depthOf]; omega

theorem kept_nil : kept [] = [] := by rw [kept]
theorem kept_star (d : Char) (r : Str) : kept ('*' :: d :: r) = '*' :: kept r := by rw [kept]; simp
theorem kept_plain (c : Char) (r : Str) (h : c ≠ '*') : kept (c :: r) = c :: kept r := by rw [kept]; simp [h]

theorem BlockBody.kept {m k : Str} (h : BlockBody m k) :
    k = kept m ∧ ('*' ∈ k ↔ '*' ∈ m) ∧ ('*' ∈ m → k.length < m.length) ∧ ('*' ∉ m → k = m) ∧ k.length ≤ m.length := by
  induction h with
  | nil => simp [kept_nil]
  | @plain c r k hc _ ih =>
    obtain ⟨a, b, c', d, e⟩ := ih
    rw [kept_plain _ _ hc, ← a]
    have hc' : ¬ '*' = c := fun h => hc h.symm
    simp only [List.mem_cons, hc', false_or, List.length_cons, Nat.add_lt_add_iff_right, Nat.add_le_add_iff_right,
      List.cons.injEq, true_and]
    exact ⟨b, c', d, e⟩
  | @star d r k hd _ ih =>
    obtain ⟨a, b, c', d', e⟩ := ih
    rw [kept_star, ← a]
    simp
    omega

theorem Lexeme.text {U : Uni} {c v r : Str} (h : Lexeme U c v r) :
    (v = c ∧ ¬ StarComment c) ∨
    ∃ m, '*' ∈ m ∧ c = ['/', '*'] ++ m ++ ['*', '/'] ∧ v = ['/', '*'] ++ Baron.Scanner.kept m ++ ['*', '/'] ∧
      v.length < c.length := by
  have hsl : wordChar U '/' = false := by
    unfold wordChar; rw [U.letter_ascii _ (by decide), U.digit_ascii _ (by decide)]; decide
  cases h with
  | space n a s =>
    refine .inl ⟨rfl, ?_⟩
    rintro ⟨m, rfl, -⟩
    exact absurd (a '/' (by simp)) (by decide)
  | word n a s =>
    refine .inl ⟨rfl, ?_⟩
    rintro ⟨m, rfl, -⟩
    have := a '/' (by simp)
    rw [hsl] at this; cases this
  | str b =>
    refine .inl ⟨rfl, ?_⟩
    rintro ⟨m, h, -⟩
    simp at h
  | line hn =>
    refine .inl ⟨rfl, ?_⟩
    rintro ⟨m, h, -⟩
    simp at h
  | @block m k _ hb =>
    obtain ⟨a, b, c, d, -⟩ := hb.kept
    by_cases hm : '*' ∈ m
    · refine .inr ⟨m, hm, by simp, by simp [a], ?_⟩
      have := c hm
      simpa using this
    · refine .inl ⟨by rw [d hm], ?_⟩
      rintro ⟨m', h, hs⟩
      simp at h
      rw [h] at hm
      exact hm hs
  | slash h1 h2 =>
    refine .inl ⟨rfl, ?_⟩
    rintro ⟨m, h, -⟩
    simp at h
  | symbol h1 h2 h3 h4 =>
    refine .inl ⟨rfl, ?_⟩
    rintro ⟨m, h, -⟩
    simp at h

theorem Lexeme.chunk_ne {U : Uni} {c v r : Str} (h : Lexeme U c v r) : c ≠ [] := by
  cases h with
  | space n _ _ => exact n
  | word n _ _ => exact n
  | _ => simp

theorem sum_le_lt {α : Type} (f g : α → Str) (l : List α) (h : ∀ x ∈ l, (f x).length ≤ (g x).length) :
    ((l.map f).flatten.length ≤ (l.map g).flatten.length) ∧
    ((∃ x ∈ l, (f x).length < (g x).length) → (l.map f).flatten.length < (l.map g).flatten.length) := by
  induction l with
  | nil => simp
  | cons a l ih =>
    obtain ⟨i1, i2⟩ := ih (fun x hx => h x (List.mem_cons_of_mem _ hx))
    have ha := h a List.mem_cons_self
    simp only [List.map_cons, List.flatten_cons, List.length_append]
    refine ⟨by omega, ?_⟩
    rintro ⟨x, hx, hl⟩
    rcases List.mem_cons.1 hx with rfl | hx
    · omega
    · have := i2 ⟨x, hx, hl⟩; omega

/-- The whole state after unit texts `vs`. -/
def gstep (g : Glob) (v : Str) : Glob :=
  if v = "service".toList then { g with withinDef := true }
  else if v = ['{'] then ⟨g.withinBody || g.withinDef, false, g.braceLev + 1⟩
  else if v = ['}'] then ⟨g.withinBody && !decide (g.braceLev - 1 = 0), g.withinDef, g.braceLev - 1⟩
  else g

theorem ScanRun.gfold {U : Uni} {g rd us g' rd'} (h : ScanRun U g rd us g' rd') :
    g' = (if rd'.rest = [] ∧ (us.map (·.value)).getLast? = some "service".toList then (us.map (·.value)).dropLast
      else us.map (·.value)).foldl gstep g := by
  induction h with
  | stop => simp
  | @step g rd u g1 rd1 us g'' rd'' hb hr ih =>
    have hg := buildScanUnit_glob U _ _ _ _ _ hb
    by_cases hus : us = []
    · subst hus
      cases hr with
      | stop hn =>
        by_cases c1 : u.value = "service".toList
        · rw [if_pos c1] at hg
          by_cases c2 : rd1.rest = []
          · rw [if_pos c2] at hg
            rw [if_pos ⟨c2, by simp [c1]⟩, hg]; simp
          · rw [if_neg c2] at hg
            rw [if_neg (fun h => c2 h.1), hg]
            simp [gstep, c1]
        · rw [if_neg c1] at hg
          rw [if_neg (fun h => c1 (by simpa using h.2))]
          simp only [List.map_cons, List.map_nil, List.foldl_cons, List.foldl_nil, gstep, if_neg c1]
          exact hg
    · have h1 : g1 = gstep g u.value := by
        unfold gstep
        by_cases c1 : u.value = "service".toList
        · rw [if_pos c1] at hg ⊢
          rw [if_neg] at hg
          · exact hg
          · intro h0
            cases hr with
            | stop => exact hus rfl
            | step hb' _ =>
              obtain ⟨k, hk, e', -⟩ := buildScanUnit_spec U _ _ _ _ _ hb'
              rw [h0] at e'
              simp at e'
              exact hk e'.1
        · rw [if_neg c1] at hg ⊢; exact hg
      have hne : us.map (·.value) ≠ [] := by simpa using hus
      rw [ih, h1]
      simp only [List.map_cons]
      generalize us.map (·.value) = vs at hne ih ⊢
      match vs, hne with
      | v :: vs, _ =>
        rw [List.getLast?_cons_cons, List.dropLast_cons_cons]
        split <;> simp

theorem globAfter_fold (U : Uni) (g : Glob) (hist : List Str) :
    globAfter U g hist = ((hist.map (counted U)).flatten).foldl gstep g := by
  induction hist generalizing g with
  | nil => rfl
  | cons t ts ih =>
    unfold globAfter
    have := (scan_run U g t).gfold
    obtain ⟨us, g', hr, e1, e2⟩ := (scan_run U g t).indep .init
    obtain ⟨e3, e4, e5⟩ := hr.unique (scan_run U .init t)
    rw [← e1, e3, e5] at this
    rw [ih, this]
    simp [counted]

theorem snoc_split {α} {vs : List α} {v x : α} {a b : List α} (h : vs ++ [v] = a ++ x :: b) :
    (b = [] ∧ v = x ∧ a = vs) ∨ ∃ b', b = b' ++ [v] ∧ vs = a ++ x :: b' := by
  rcases List.eq_nil_or_concat b with rfl | ⟨b', y, rfl⟩
  · left
    have := List.append_inj' h (by simp)
    simp at this
    exact ⟨rfl, this.2, this.1.symm⟩
  · right
    have h' : vs ++ [v] = (a ++ x :: b') ++ [y] := by simpa using h
    have := List.append_inj' h' (by simp)
    simp at this
    exact ⟨b', by simp [this.2], this.1⟩

theorem service_ne : ("service".toList : Str) ≠ ['{'] ∧ ("service".toList : Str) ≠ ['}'] := by decide

theorem depth_snoc (vs : List Str) (v : Str) : depthOf (vs ++ [v]) = depthOf vs + braceDelta v := by
  simp [depthOf]

theorem gfold_spec (vs : List Str) (g : Glob) (hg : g = vs.foldl gstep .init) :
    g.braceLev = depthOf vs ∧
    (g.withinDef = true ↔ ∃ pre post, vs = pre ++ "service".toList :: post ∧ ['{'] ∉ post) ∧
    (g.withinBody = true ↔ ∃ pre mid post, vs = pre ++ "service".toList :: (mid ++ ['{'] :: post) ∧ ['{'] ∉ mid ∧
      ∀ d e, post = d ++ ['}'] :: e → depthOf (pre ++ "service".toList :: (mid ++ ['{'] :: (d ++ [['}']]))) ≠ 0) := by
  induction hn : vs.length generalizing vs g with
  | zero =>
    cases vs with
    | nil => subst hg; simp [Glob.init, depthOf]
    | cons _ _ => simp at hn
  | succ n ih =>
    rcases List.eq_nil_or_concat vs with rfl | ⟨vs, v, rfl⟩
    · simp at hn
    rw [List.concat_eq_append] at hg hn ⊢
    rw [List.foldl_append] at hg
    obtain ⟨i1, i2, i3⟩ := ih vs _ rfl (by simpa using hn)
    generalize vs.foldl gstep .init = g0 at hg i1 i2 i3
    simp only [List.foldl_cons, List.foldl_nil] at hg
    have S := service_ne
    generalize hsv : ("service".toList : Str) = sv at *
    have hdef : v ≠ ['{'] → v ≠ sv →
        ((∃ pre post, vs ++ [v] = pre ++ sv :: post ∧ ['{'] ∉ post) ↔ ∃ pre post, vs = pre ++ sv :: post ∧ ['{'] ∉ post) := by
      intro n1 n2
      constructor
      · rintro ⟨pre, post, e, hp⟩
        rcases snoc_split e with ⟨-, h, -⟩ | ⟨b', rfl, e'⟩
        · exact absurd h n2
        · exact ⟨pre, b', e', fun h => hp (by simp [h])⟩
      · rintro ⟨pre, post, e, hp⟩
        refine ⟨pre, post ++ [v], by simp [e], ?_⟩
        simp only [List.mem_append, List.mem_singleton, not_or]
        exact ⟨hp, fun h => n1 h.symm⟩
    have hbody : v ≠ ['{'] → v ≠ ['}'] →
        ((∃ pre mid post, vs ++ [v] = pre ++ sv :: (mid ++ ['{'] :: post) ∧ ['{'] ∉ mid ∧
          ∀ d e, post = d ++ ['}'] :: e → depthOf (pre ++ sv :: (mid ++ ['{'] :: (d ++ [['}']]))) ≠ 0) ↔
         ∃ pre mid post, vs = pre ++ sv :: (mid ++ ['{'] :: post) ∧ ['{'] ∉ mid ∧
          ∀ d e, post = d ++ ['}'] :: e → depthOf (pre ++ sv :: (mid ++ ['{'] :: (d ++ [['}']]))) ≠ 0) := by
      intro n1 n2
      constructor
      · rintro ⟨pre, mid, post, e, hm, hp⟩
        have e' : vs ++ [v] = (pre ++ sv :: mid) ++ ['{'] :: post := by rw [e]; simp
        rcases snoc_split e' with ⟨-, h, -⟩ | ⟨b', rfl, e''⟩
        · exact absurd h n1
        · exact ⟨pre, mid, b', by rw [e'']; simp, hm, fun d e h => hp d (e ++ [v]) (by simp [h])⟩
      · rintro ⟨pre, mid, post, e, hm, hp⟩
        refine ⟨pre, mid, post ++ [v], by simp [e], hm, ?_⟩
        intro d e h
        rcases snoc_split h with ⟨-, h, -⟩ | ⟨b', rfl, e'⟩
        · exact absurd h n2
        · exact hp d b' e'
    unfold gstep at hg
    rw [hsv] at hg
    by_cases c1 : v = sv
    · rw [if_pos c1] at hg
      have n1 : v ≠ ['{'] := c1 ▸ S.1
      have n2 : v ≠ ['}'] := c1 ▸ S.2
      subst hg
      refine ⟨?_, ?_, ?_⟩
      · simp [depth_snoc, braceDelta, n1, n2, i1]
      · simp only [true_iff]
        exact ⟨vs, [], by simp [c1], by simp⟩
      · rw [hbody n1 n2]; exact i3
    rw [if_neg c1] at hg
    by_cases c2 : v = ['{']
    · rw [if_pos c2] at hg
      subst hg
      refine ⟨?_, ?_, ?_⟩
      · simp [depth_snoc, braceDelta, c2, i1]
      · simp only [Bool.false_eq_true, false_iff]
        rintro ⟨pre, post, e, hp⟩
        rcases snoc_split e with ⟨-, h, -⟩ | ⟨b', rfl, e'⟩
        · exact c1 h
        · exact hp (by simp [c2])
      · simp only [Bool.or_eq_true]
        rw [i2, i3]
        constructor
        · rintro (⟨pre, mid, post, e, hm, hp⟩ | ⟨pre, post, e, hp⟩)
          · refine ⟨pre, mid, post ++ [v], by simp [e], hm, ?_⟩
            intro d e h
            rcases snoc_split h with ⟨-, h, -⟩ | ⟨b', rfl, e'⟩
            · rw [c2] at h; cases h
            · exact hp d b' e'
          · refine ⟨pre, post, [], by simp [e, c2], hp, ?_⟩
            intro d e h
            simp at h
        · rintro ⟨pre, mid, post, e, hm, hp⟩
          have e' : vs ++ [v] = (pre ++ sv :: mid) ++ ['{'] :: post := by rw [e]; simp
          rcases snoc_split e' with ⟨-, -, h⟩ | ⟨b', rfl, e''⟩
          · exact .inr ⟨pre, mid, h.symm, hm⟩
          · exact .inl ⟨pre, mid, b', by rw [e'']; simp, hm, fun d e h => hp d (e ++ [v]) (by simp [h])⟩
    rw [if_neg c2] at hg
    by_cases c3 : v = ['}']
    · rw [if_pos c3] at hg
      subst hg
      refine ⟨?_, ?_, ?_⟩
      · simp [depth_snoc, braceDelta, c3, i1]; omega
      · rw [hdef c2 c1]; exact i2
      · have hd : g0.braceLev - 1 = depthOf (vs ++ [v]) := by
          simp [depth_snoc, braceDelta, c3, i1]; omega
        simp only [Bool.and_eq_true, Bool.not_eq_true', decide_eq_false_iff_not]
        rw [hd, i3]
        constructor
        · rintro ⟨⟨pre, mid, post, e, hm, hp⟩, h0⟩
          refine ⟨pre, mid, post ++ [v], by simp [e], hm, ?_⟩
          intro d e' h
          rcases snoc_split h with ⟨-, -, h⟩ | ⟨b', rfl, e'⟩
          · rw [e, c3] at h0
            rw [h]
            simpa using h0
          · exact hp d b' e'
        · rintro ⟨pre, mid, post, e, hm, hp⟩
          have e' : vs ++ [v] = (pre ++ sv :: mid) ++ ['{'] :: post := by rw [e]; simp
          rcases snoc_split e' with ⟨-, h, -⟩ | ⟨b', rfl, e''⟩
          · exact absurd h c2
          · refine ⟨⟨pre, mid, b', by rw [e'']; simp, hm, fun d e h => hp d (e ++ [v]) (by simp [h])⟩, ?_⟩
            have := hp b' [] (by simp [c3])
            rw [e'', c3]
            simpa using this
    rw [if_neg c3] at hg
    subst hg
    refine ⟨?_, ?_, ?_⟩
    · simp [depth_snoc, braceDelta, c2, c3, i1]
    · rw [hdef c2 c1]; exact i2
    · rw [hbody c2 c3]; exact i3

theorem globAfter_init_iff (U : Uni) (hist : List Str) :
    globAfter U .init hist = .init ↔
      depthOf (hist.map (counted U)).flatten = 0 ∧ ServicesOpened (hist.map (counted U)).flatten ∧
      ServicesClosed (hist.map (counted U)).flatten := by
  rw [globAfter_fold]
  obtain ⟨h1, h2, h3⟩ := gfold_spec _ _ rfl
  generalize (hist.map (counted U)).flatten.foldl gstep .init = g at h1 h2 h3 ⊢
  generalize (hist.map (counted U)).flatten = vs at h1 h2 h3 ⊢
  have hd : g.withinDef = false ↔ ServicesOpened vs := by
    rw [← Bool.not_eq_true, h2]
    constructor
    · intro h pre post e
      exact Classical.byContradiction fun hc => h ⟨pre, post, e, hc⟩
    · rintro h ⟨pre, post, e, hc⟩
      exact hc (h pre post e)
  have hb : g.withinBody = false ↔ ServicesClosed vs := by
    rw [← Bool.not_eq_true, h3]
    constructor
    · intro h pre mid post e hm
      refine Classical.byContradiction fun hc => h ⟨pre, mid, post, e, hm, ?_⟩
      intro d e' hp h0
      exact hc ⟨d, e', hp, h0⟩
    · rintro h ⟨pre, mid, post, e, hm, hp⟩
      obtain ⟨d, e', a, b⟩ := h pre mid post e hm
      exact hp d e' a b
  rw [← hd, ← hb, ← h1]
  cases g
  simp [Glob.init]
  constructor
  · rintro ⟨a, b, c⟩; exact ⟨c, b, a⟩
  · rintro ⟨a, b, c⟩; exact ⟨c, b, a⟩

end Baron.Scanner
