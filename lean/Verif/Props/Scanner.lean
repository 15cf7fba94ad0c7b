import Verif.Proofs.Lexeme

/-!
# Properties of the scanner: C01-C05
-/

namespace Baron.Scanner

/-! ## C01 -/

/-- **C01** For every text and every sequence of reads and un-reads, the cursor stays inside the text, the line
number is one plus the number of newlines before the cursor, and the next read returns the character at the cursor
(or end of input exactly at the end). -/
theorem C01_cursor_invariant (s : Str) (ops : List RuneOp) :
    let r := (newRuneReader s).run ops
    r.contents = s ∧ r.pos ≤ s.length ∧ r.lineNo = 1 + (s.take r.pos).count '\n' ∧
    r.readRune.1 = s[r.pos]? := by
  let P : RuneReader → Prop := fun r =>
    r.contents = s ∧ r.pos ≤ s.length ∧ r.lineNo = 1 + (s.take r.pos).count '\n'
  have step : ∀ (r : RuneReader) (o : RuneOp), P r → P (r.apply o) := by
    rintro r o ⟨a, b, c⟩
    cases o with
    | read =>
      simp only [RuneReader.apply, RuneReader.readRune]
      split
      · rename_i x hx
        obtain ⟨hlt, hget⟩ := List.getElem?_eq_some_iff.mp hx
        subst a
        refine ⟨rfl, hlt, ?_⟩
        simp only
        rw [List.take_add_one, hx, List.count_append, c]
        by_cases hn : x = '\n'
        · simp [hn]; omega
        · simp [hn]
      · exact ⟨a, b, c⟩
    | unread =>
      simp only [RuneReader.apply, RuneReader.unreadRune]
      split
      · exact ⟨a, b, c⟩
      · rename_i hp
        split
        · rename_i x hx
          obtain ⟨hlt, hget⟩ := List.getElem?_eq_some_iff.mp hx
          subst a
          obtain ⟨p, hp'⟩ : ∃ p, r.pos = p + 1 := ⟨r.pos - 1, by omega⟩
          rw [hp'] at c hx b
          simp only [Nat.add_sub_cancel] at hx
          refine ⟨rfl, ?_, ?_⟩
          · show r.pos - 1 ≤ _
            omega
          · simp only [Option.getD_some, hp', Nat.add_sub_cancel]
            rw [List.take_add_one, hx, List.count_append] at c
            by_cases hn : x = '\n'
            · simp [hn] at c ⊢; omega
            · simp [hn] at c ⊢; omega
        · exact ⟨a, b, c⟩
  have key : ∀ (ops : List RuneOp) (r : RuneReader), P r → P (r.run ops) := by
    intro ops
    induction ops with
    | nil => intro r h; exact h
    | cons o ops ih => intro r h; exact ih _ (step r o h)
  obtain ⟨h1, h2, h3⟩ := key ops (newRuneReader s)
    ⟨rfl, by simp [newRuneReader], by simp [newRuneReader]⟩
  refine ⟨h1, h2, h3, ?_⟩
  unfold RuneReader.readRune
  rw [← h1]
  split <;> simp_all

/-- **C01** Un-reading after a successful read restores the reader exactly. -/
theorem C01_unread_read (r r' : RuneReader) (c : Char) (h : r.readRune = (some c, r')) :
    r'.unreadRune = some r := by
  unfold RuneReader.readRune at h
  split at h
  · rename_i x hx
    simp only [Prod.mk.injEq, Option.some.injEq] at h
    obtain ⟨rfl, rfl⟩ := h
    simp only [RuneReader.unreadRune, Nat.add_sub_cancel, hx]
    cases r
    by_cases hn : x = '\n' <;> simp [hn]
  · simp at h

/-- **C01** Reading after a successful un-read restores the reader exactly. -/
theorem C01_read_unread (r r' : RuneReader) (h : r.unreadRune = some r') :
    ∃ c, r'.readRune = (some c, r) := by
  unfold RuneReader.unreadRune at h
  split at h
  · simp at h
  · rename_i hp
    split at h
    · rename_i x hx
      simp only [Option.some.injEq] at h
      subst h
      refine ⟨x, ?_⟩
      simp only [RuneReader.readRune, hx]
      cases r
      simp only at hp
      simp only [Prod.mk.injEq, true_and, RuneReader.mk.injEq]
      refine ⟨by omega, ?_⟩
      by_cases hn : x = '\n' <;> simp [hn]
    · simp at h

-- a concrete history: three reads and one un-read over "a\nb" leave the cursor on line 2 before 'b'
example : (newRuneReader "a\nb".toList).run [.read, .read, .read, .unread] = ⟨"a\nb".toList, 2, 2⟩ := by decide +kernel
example : (newRuneReader "a\nb".toList).readRune.1 = some 'a' := by decide +kernel

/-! ## C02 -/

/-- **C02** Scanning cuts every text into consecutive non-empty chunks, one per unit, followed by an unterminated
rest. A unit is its chunk verbatim, unless the chunk is a block comment with a star in its interior: then the character
after each interior star (and nothing else) is missing from the unit. -/
theorem C02_chunks (U : Uni) (g : Glob) (s : Str) :
    ∃ cs : List (Str × ScanUnit), cs.map (·.2) = (scan U g s).1 ∧
      s = (cs.map (·.1)).flatten ++ (scan U g s).2.2.rest ∧ Unterminated (scan U g s).2.2.rest ∧
      ∀ x ∈ cs, x.1 ≠ [] ∧
        ((x.2.value = x.1 ∧ ¬ StarComment x.1) ∨
         ∃ m, '*' ∈ m ∧ x.1 = ['/', '*'] ++ m ++ ['*', '/'] ∧ x.2.value = ['/', '*'] ++ kept m ++ ['*', '/'] ∧
           x.2.value.length < x.1.length) := by
  obtain ⟨cs, e0, e, f⟩ := (scan_run U g s).lexemes
  refine ⟨cs, e0, e, (scan_run U g s).unterminated, fun x hx => ?_⟩
  obtain ⟨pre, post, hp⟩ := List.append_of_mem hx
  have h := (f pre x post hp).1
  refine ⟨?_, h.text⟩
  exact h.chunk_ne

/-- **C02** No text is lost, i.e. the units and the unterminated rest concatenated give back the file, exactly when no
unit is a block comment with an interior star. -/
theorem C02_lossless_iff (U : Uni) (g : Glob) (s : Str) :
    ((scan U g s).1.map (·.value)).flatten ++ (scan U g s).2.2.rest = s ↔
      ∀ u ∈ (scan U g s).1, ¬ StarComment u.value := by
  obtain ⟨cs, e0, e, -, f⟩ := C02_chunks U g s
  rw [← e0]
  constructor
  · intro h u hu hs
    obtain ⟨x, hx, rfl⟩ := List.mem_map.1 hu
    have hlt := (sum_le_lt (fun x : Str × ScanUnit => x.2.value) (·.1) cs (by
      intro y hy
      rcases (f y hy).2 with ⟨a, -⟩ | ⟨m, -, -, -, a⟩
      · rw [a]; exact Nat.le_refl _
      · exact Nat.le_of_lt a)).2 ⟨x, hx, by
        rcases (f x hx).2 with ⟨a, b⟩ | ⟨m, -, -, -, a⟩
        · rw [a] at hs; exact absurd hs b
        · exact a⟩
    have := congrArg List.length (h.trans e)
    simp only [List.length_append, List.map_map] at this
    have hc : ((fun x : ScanUnit => x.value) ∘ fun x : Str × ScanUnit => x.2) = fun x => x.2.value := rfl
    rw [hc] at this
    omega
  · intro h
    have : (cs.map (·.2)).map (·.value) = cs.map (·.1) := by
      rw [List.map_map]
      refine List.map_congr_left fun x hx => ?_
      rcases (f x hx).2 with ⟨a, -⟩ | ⟨m, hm, -, a, -⟩
      · exact a
      · refine absurd ⟨kept m, a, ?_⟩ (h x.2 (List.mem_map_of_mem hx))
        have : ∀ (n : Nat) (m : Str), m.length ≤ n → '*' ∈ m → '*' ∈ kept m := by
          intro n
          induction n with
          | zero => intro m h1 h2; cases m <;> simp at h1 h2
          | succ n ih =>
            intro m h1 h2
            cases m with
            | nil => simp at h2
            | cons c r =>
              rw [kept]
              by_cases hc : c = '*'
              · simp [hc]
              · rw [if_neg hc]
                refine List.mem_cons_of_mem _ (ih r (by simp at h1; omega) ?_)
                rcases List.mem_cons.1 h2 with h | h
                · exact absurd h.symm hc
                · exact h
        exact this _ m (Nat.le_refl _) hm
    rw [this]; exact e.symm
/-- **C02 (witness)** The exception is real: a star inside a block comment makes the scanner drop the next character.
The text is `/**a*/ x`; the `a` is gone from the units. -/
theorem C02_lossless_witness : ¬ ∀ (U : Uni) (g : Glob) (s : Str),
    ((scan U g s).1.map (·.value)).flatten ++ (scan U g s).2.2.rest = s := by
  intro h
  exact absurd (h asciiUni .init "/**a*/ x".toList) (by decide +kernel)

/-- **C02 (witness)** A block comment closed by `**/` is not recognised as closed: nothing of such a file is
scanned. -/
theorem C02_doubleStar_witness :
    (scan asciiUni .init "/***/ service S {}".toList).1 = [] := by decide +kernel

/-- **C02** In particular nothing is lost in a text without stars. -/
theorem C02_lossless_noStar (U : Uni) (g : Glob) (s : Str) (h : '*' ∉ s) :
    ((scan U g s).1.map (·.value)).flatten ++ (scan U g s).2.2.rest = s := by
  rw [C02_lossless_iff]
  obtain ⟨cs, e0, e, -, f⟩ := C02_chunks U g s
  intro u hu
  rw [← e0] at hu
  obtain ⟨x, hx, rfl⟩ := List.mem_map.1 hu
  have hc : '*' ∉ x.1 := fun hm => h (by
    rw [e]
    exact List.mem_append_left _ (List.mem_flatten.2 ⟨x.1, List.mem_map_of_mem hx, hm⟩))
  rcases (f x hx).2 with ⟨a, b⟩ | ⟨m, -, a, -⟩
  · rw [a]; exact b
  · exact absurd (by rw [a]; simp) hc

example : '*' ∉ "service S { // c\n}".toList ∧
    (scan asciiUni .init "service S { // c\n}".toList).1.length = 8 := by decide +kernel

/-! ## C03 -/

/-- **C03** The line number of every unit is one plus the number of newlines consumed up to its end, and its brace
depth is the depth before scanning plus the number of `{` units minus the number of `}` units up to and including
it; the consumed text `k` is the concatenation of the units so far when none of them is a starred block comment. -/
theorem C03_line_and_depth (U : Uni) (g : Glob) (s : Str) (pre post : List ScanUnit) (u : ScanUnit)
    (h : (scan U g s).1 = pre ++ u :: post) :
    ∃ k r, s = k ++ r ∧ u.lineNo = 1 + k.count '\n' ∧
      u.braceLevel = g.braceLev + depthOf ((pre ++ [u]).map (·.value)) ∧
      ((∀ x ∈ pre ++ [u], ¬ StarComment x.value) → k = ((pre ++ [u]).map (·.value)).flatten) :=
  (scan_run U g s).at pre u post h

/-- **C03** For a text without comments and strings (no `/` and no `"`), the depth of a unit is simply the number of
`{` minus the number of `}` in the text up to its end. -/
theorem C03_depth_counts_braces (U : Uni) (s : Str) (h1 : '/' ∉ s) (h2 : '"' ∉ s)
    (pre post : List ScanUnit) (u : ScanUnit) (h : (scan U .init s).1 = pre ++ u :: post) :
    ∃ k r, s = k ++ r ∧ u.lineNo = 1 + k.count '\n' ∧ u.braceLevel = (k.count '{' : Int) - k.count '}' := by
  have hd := (scan_run U .init s).depth_plain h1 h2
  obtain ⟨cs, e0, e, f⟩ := (scan_run U .init s).chunks
  simp only at e
  obtain ⟨k, r, hs, hl, hb, hk⟩ := C03_line_and_depth U .init s pre post u h
  have hstar : ∀ x ∈ pre ++ [u], ¬ StarComment x.value := by
    intro x hx
    have hx' : x ∈ (scan U .init s).1 := by
      rw [h]; simp at hx ⊢; rcases hx with hx | hx
      · exact .inl hx
      · exact .inr (.inl hx)
    rw [← e0] at hx'
    obtain ⟨y, hy, rfl⟩ := List.mem_map.mp hx'
    rintro ⟨m, hm, -⟩
    apply h1
    rw [e]
    refine List.mem_append_left _ (List.mem_flatten.mpr ⟨y.1, List.mem_map_of_mem hy, (f y hy).2.2.1.subset ?_⟩)
    rw [hm]; simp
  refine ⟨k, r, hs, hl, ?_⟩
  rw [hb, hk hstar, ← depthOf_flatten]
  · simp [Glob.init]
  · intro v hv
    obtain ⟨y, hy, rfl⟩ := List.mem_map.mp hv
    refine hd y ?_
    rw [h]; simp at hy ⊢; rcases hy with hy | hy
    · exact .inl hy
    · exact .inr (.inl hy)

-- the closing brace of `a {\n b }` ends on line 2 at depth 0; a brace inside a comment does not count
example : ((scan asciiUni .init "a {\n b }".toList).1.getLast?.map fun u => (u.value, u.lineNo, u.braceLevel)) =
    some ("}".toList, 2, 0) := by decide +kernel
example : ((scan asciiUni .init "{ // {\n x \"{\" y".toList).1.getLast?.map fun u => (u.value, u.lineNo, u.braceLevel)) =
    some ("y".toList, 2, 1) := by decide +kernel

/-! ## C04 -/

/-- **C04** The files scanned before influence nothing exactly when, reading all of them as one list of lexical
elements, the braces cancel out, every word `service` is followed by an opening brace, and the first opening brace
after it by a closing brace at net depth zero. (A `service` that is the very end of a file does not count.) -/
theorem C04_isolated_iff (U : Uni) (hist : List Str) :
    (∀ s, (scan U (globAfter U .init hist) s).1 = (scan U .init s).1) ↔
      depthOf (hist.map (counted U)).flatten = 0 ∧ ServicesOpened (hist.map (counted U)).flatten ∧
      ServicesClosed (hist.map (counted U)).flatten := by
  rw [← globAfter_init_iff]
  constructor
  · intro h
    have := h [' ']
    generalize globAfter U .init hist = g at this
    have hs : ∀ g, (scan U g [' ']).1 = [⟨g.withinDef, g.withinBody, g.braceLev, 1, [' ']⟩] := by
      intro g
      simp [scan, scanLoop, buildScanUnit, groupLoop, setReturn, bump, show isSpace ' ' = true by decide]
    rw [hs, hs] at this
    cases g
    simpa [Glob.init, and_comm, and_left_comm] using this
  · intro h s
    rw [h]
-- two unbalanced files whose braces cancel out meet the condition, so they leave no trace
example : ([("}".toList : Str), "{".toList].map (counted asciiUni)).flatten = [['}'], ['{']] ∧
    depthOf [['}'], ['{']] = 0 ∧ ServicesOpened [['}'], ['{']] ∧ ServicesClosed [['}'], ['{']] := by
  have no : ∀ pre post : List Str, ([['}'], ['{']] : List Str) ≠ pre ++ "service".toList :: post := by
    intro pre post h
    have hm : "service".toList ∈ ([['}'], ['{']] : List Str) := by rw [h]; simp
    revert hm; decide +kernel
  exact ⟨by decide +kernel, by decide +kernel, fun pre post h => absurd h (no pre post),
    fun pre mid post h => absurd h (no pre _)⟩

/-- **C04 (witness)** Not all histories are harmless: after a file with an unmatched closing brace, the depths
reported for the next file are off. -/
theorem C04_isolated_witness : ¬ ∀ (U : Uni) (hist : List Str) (s : Str),
    (scan U (globAfter U .init hist) s).1 = (scan U .init s).1 := by
  intro h
  exact absurd (h asciiUni ["}".toList] "service S { }".toList) (by decide +kernel)

/-- **C04** In particular: after any sequence of balanced files (every closing brace has an opening one, all are closed,
and every word `service` is followed by an opening brace) the scanner returns for every file exactly what it returns
in a fresh process. -/
theorem C04_isolated_balanced (U : Uni) (hist : List Str)
    (h : ∀ t ∈ hist, Balanced ((scan U .init t).1.map (·.value))) (s : Str) :
    scan U (globAfter U .init hist) s = scan U .init s := by
  have : globAfter U .init hist = .init := by
    induction hist with
    | nil => rfl
    | cons t ts ih =>
      unfold globAfter
      rw [scan_balanced U t (h t (List.mem_cons_self))]
      exact ih (fun x hx => h x (List.mem_cons_of_mem _ hx))
  rw [this]

/-- **C04 (what never leaks)** Whatever was scanned before, the texts and line numbers of the units of a file are
the same as in a fresh process; only depths and the in-definition / in-body flags can differ. -/
theorem C04_texts_isolated (U : Uni) (g : Glob) (s : Str) :
    (scan U g s).1.map (·.value) = (scan U .init s).1.map (·.value) ∧
    (scan U g s).1.map (·.lineNo) = (scan U .init s).1.map (·.lineNo) ∧
    (scan U g s).2.2 = (scan U .init s).2.2 := by
  obtain ⟨us, g', hr, e1, e2⟩ := (scan_run U g s).indep .init
  obtain ⟨e3, e4, e5⟩ := hr.unique (scan_run U .init s)
  exact ⟨by rw [← e1, e3], by rw [← e2, e3], e5⟩

example : Balanced ((scan asciiUni .init "service S { }".toList).1.map (·.value)) := by
  have e : (scan asciiUni .init "service S { }".toList).1.map (·.value) =
      ["service".toList, " ".toList, "S".toList, " ".toList, "{".toList, " ".toList, "}".toList] := by decide +kernel
  rw [e]
  refine ⟨?_, by decide +kernel, ?_⟩
  · intro pre post h
    have hp : pre = List.take pre.length
        ["service".toList, " ".toList, "S".toList, " ".toList, "{".toList, " ".toList, "}".toList] := by
      rw [h]; simp
    have hl : pre.length < 8 := by have := congrArg List.length h; simp at this; omega
    rw [hp]
    generalize pre.length = n at hl
    have : ∀ n < 8, 0 ≤ depthOf (List.take n
      ["service".toList, " ".toList, "S".toList, " ".toList, "{".toList, " ".toList, "}".toList]) := by decide +kernel
    exact this n hl
  · intro pre post h
    match pre with
    | [] => simp at h; rw [← h]; decide +kernel
    | _ :: pre' =>
      exfalso
      simp only [List.cons_append, List.cons.injEq] at h
      have hm : "service".toList ∈
          [" ".toList, "S".toList, " ".toList, "{".toList, " ".toList, "}".toList] := by rw [h.2]; simp
      revert hm; decide +kernel

/-! ## C05 -/

/-- **C05** For every text and every earlier process state the (unbounded) scanning loop of `NewSvcScanner` stops;
what it produces is what the model's bounded loop computes, with at most one unit per character. -/
theorem C05_scanning_terminates (U : Uni) (g : Glob) (s : Str) :
    ScanRun U g ⟨s, 1⟩ (scan U g s).1 (scan U g s).2.1 (scan U g s).2.2 ∧
    (scan U g s).1.length + (scan U g s).2.2.rest.length ≤ s.length :=
  ⟨scan_run U g s, (scan_run U g s).length_le⟩

/-- **C05** Each scan step either reports the end of the input or consumes at least one character. -/
theorem C05_progress (U : Uni) (g : Glob) (rd : Rd) :
    buildScanUnit U g rd = none ∨
    ∃ u g' rd', buildScanUnit U g rd = some (u, g', rd') ∧ rd'.rest.length < rd.rest.length := by
  cases h : buildScanUnit U g rd with
  | none => exact .inl rfl
  | some x =>
    obtain ⟨u, g', rd'⟩ := x
    obtain ⟨k, hk, e, -⟩ := buildScanUnit_spec U _ _ _ _ _ h
    refine .inr ⟨u, g', rd', rfl, ?_⟩
    have := congrArg List.length e
    have hk' : 0 < k.length := List.length_pos_iff.mpr hk
    simp at this; omega

example : (scan asciiUni .init "service S { rpc".toList).1.length = 7 := by decide +kernel

end Baron.Scanner
