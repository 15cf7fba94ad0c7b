import Verif.Proofs.LexText
import Verif.Proofs.Cursor

/-!
# Properties of the lexer: C06-C08
-/

namespace Baron.Lexer

open Baron.Scanner

/-! ## C06 -/

/-- **C06** Whatever was scanned before and whatever the file, its token stream is empty or begins with the
identifier `service`; before that word nothing yields a token, wherever else (comments, strings) it may occur. -/
theorem C06_starts_with_service (U : Uni) (g : Glob) (s : Str) (ts : List TokenGroup)
    (h : lexText U g s = .ok ts) :
    ts = [] ∨ ∃ t r, ts = t :: r ∧ t.token = .ident ∧ t.value = "service".toList := by
  unfold lexText at h
  rw [lexUnits_eq] at h
  unfold lexL at h
  split at h
  · simp at h; exact .inl h
  · rename_i u r he
    have hu : u.value = "service".toList := skip_head _ _ _ he
    have hcl : classify U u.value = .ident := by rw [hu]; exact classify_service U
    unfold nextTok at h
    rw [if_neg (by rw [hcl]; simp)] at h
    simp only [hcl] at h
    rw [if_neg (by simp)] at h
    split at h
    · simp only [Out.ok.injEq] at h
      exact .inr ⟨_, _, h.symm, rfl, hu⟩
    · simp at h

/-- **C06** A file without the word `service` (as an identifier of its own) has no tokens. -/
theorem C06_no_service_no_tokens (U : Uni) (g : Glob) (s : Str)
    (h : "service".toList ∉ (scan U g s).1.map (·.value)) : lexText U g s = .ok [] := by
  unfold lexText
  rw [lexUnits_eq]
  unfold lexL
  have : skipTo false (scan U g s).1 = [] := by
    simp only [skipTo, Bool.false_eq_true, if_false]
    generalize (scan U g s).1 = us at h
    induction us with
    | nil => rfl
    | cons x xs ih =>
      simp only [List.map_cons, List.mem_cons, not_or] at h
      rw [dw_skip x xs (fun e => h.1 e.symm)]
      exact ih h.2
  rw [this]

/-- **C06, C07** In a file made of arbitrary balanced text, a service definition and arbitrary text, in which the
word `service` occurs only as its keyword, the tokens spell out exactly the service definition. -/
theorem C06_tokens_are_the_service (U : Uni) (s : Str) (pre hdr body post : List Str)
    (e : (scan U .init s).1.map (·.value) =
      pre ++ "service".toList :: (hdr ++ ['{'] :: (body ++ ['}'] :: post)))
    (hpre : "service".toList ∉ pre) (hhdr : "service".toList ∉ hdr) (hbody : "service".toList ∉ body)
    (hpost : "service".toList ∉ post) (hd : depthOf pre = 0) (ho : ['{'] ∉ hdr) (hc : ['}'] ∉ hdr)
    (hb : ∀ p q, body = p ++ q → 0 ≤ depthOf p) (hb0 : depthOf body = 0)
    (ts : List TokenGroup) (h : lexText U .init s = .ok ts) :
    (ts.map (·.value)).flatten =
      "service".toList ++ hdr.flatten ++ ['{'] ++ body.flatten ++ ['}'] := by
  unfold lexText at h
  rw [lexUnits_eq] at h
  have hrun := scan_run U .init s
  obtain ⟨gs, ⟨g1, -⟩, g3, -, -⟩ := lexL_groups U _ false _ _ ts (by omega) (ScanRun.flags hrun) (by simp)
    (ScanRun.shape hrun) h
  have hreg := region_file hrun pre hdr body post e hpre hhdr hbody hpost hd ho hc hb hb0
  rw [g3]
  have : ∀ gs : List (List ScanUnit), (gs.map textOf).flatten = ((gs.flatten).map (·.value)).flatten := by
    intro gs
    induction gs with
    | nil => rfl
    | cons x xs ih => simp [textOf, ih]
  rw [this, g1, hreg]
  simp

-- a file with an import mentioning `service`, a message and a service: exactly the service is tokenised
example : lexText asciiUni .init "import \"service\"; message M { } service S { } x".toList =
    .ok [⟨.ident, "service".toList, 1⟩, ⟨.whitespace, " ".toList, 1⟩, ⟨.ident, "S".toList, 1⟩,
      ⟨.whitespace, " ".toList, 1⟩, ⟨.openBrace, "{".toList, 1⟩, ⟨.whitespace, " ".toList, 1⟩,
      ⟨.closeBrace, "}".toList, 1⟩] := by decide +kernel

-- the hypotheses of `C06_tokens_are_the_service` hold for that file
example : ∃ pre hdr body post : List Str,
    (scan asciiUni .init "import \"service\"; message M { } service S { } x".toList).1.map (·.value) =
      pre ++ "service".toList :: (hdr ++ ['{'] :: (body ++ ['}'] :: post)) ∧
    "service".toList ∉ pre ∧ "service".toList ∉ hdr ∧ "service".toList ∉ body ∧ "service".toList ∉ post ∧
    depthOf pre = 0 ∧ ['{'] ∉ hdr ∧ ['}'] ∉ hdr ∧ (∀ p q, body = p ++ q → 0 ≤ depthOf p) ∧ depthOf body = 0 := by
  refine ⟨["import".toList, " ".toList, "\"service\"".toList, ";".toList, " ".toList, "message".toList, " ".toList,
      "M".toList, " ".toList, "{".toList, " ".toList, "}".toList, " ".toList],
    [" ".toList, "S".toList, " ".toList], [" ".toList], [" ".toList, "x".toList], by decide +kernel,
    by decide +kernel, by decide +kernel, by decide +kernel, by decide +kernel, by decide +kernel,
    by decide +kernel, by decide +kernel, ?_, by decide +kernel⟩
  intro p q h
  match p with
  | [] => decide
  | [x] => simp at h; rw [← h.1]; decide
  | x :: y :: z => simp at h

/-! ## C07 -/

/-- **C07** For every file and every earlier state of the process: if lexing succeeds, the tokens are the units of
the service region cut into groups, in order and without loss; a group of more than one unit consists of comments and
blanks between them; each token's kind is the one its text has, and its line is that of its last unit. -/
theorem C07_tokens_lossless (U : Uni) (g : Glob) (s : Str) (ts : List TokenGroup)
    (h : lexText U g s = .ok ts) :
    ∃ gs, Grouping (region false (scan U g s).1) gs ∧ ts.map (·.value) = gs.map textOf ∧
      ts.map (·.line) = gs.map (fun g => (g.getLast?.map (·.lineNo)).getD 0) ∧
      ∀ t ∈ ts, KindOf U t.value t.token := by
  unfold lexText at h
  rw [lexUnits_eq] at h
  have hrun := scan_run U g s
  exact lexL_groups U _ false _ _ ts (by omega) (ScanRun.flags hrun) (by simp) (ScanRun.shape hrun) h

/-- The kind of a token is a function of its text. -/
theorem C07_kind_unique (U : Uni) (v : Str) (t t' : Tok) (h : KindOf U v t) (h' : KindOf U v t') : t = t' := by
  have hcl : ∀ t v, KindOf U v t → classify U v = t := by
    clear h h' t t' v
    intro t v h
    have key : ∀ c : Char, c.toNat < 128 → isAsciiLetter c = false → isAsciiDigit c = false → (c == '_') = false →
        isIdent U c = false := by
      intro c h1 h2 h3 h4
      rw [ident_ascii U c h1, h2, h3, h4]; rfl
    match t with
    | .whitespace => obtain ⟨c, r, rfl, hsp⟩ := h; rw [classify, if_pos hsp]
    | .ident =>
      obtain ⟨c, r, rfl, h⟩ := h
      have hid : isIdent U c = true := by
        rcases h with h | h | h <;> simp [isIdent, h]
      have hsp : isSpace c = false := by
        cases hs : isSpace c with
        | false => rfl
        | true =>
          have := U.space_not c hs
          rcases h with h | h | h
          · rw [this.1] at h; simp at h
          · rw [this.2] at h; simp at h
          · subst h; exact absurd hs (by decide)
      rw [classify, if_neg (by simp [hsp]), if_pos hid]
    | .stringLit =>
      obtain ⟨r, rfl⟩ := h
      rw [classify, if_neg (by decide), if_neg (by simp [key '"' (by decide) (by decide) (by decide) (by decide)])]
      simp
    | .openParen =>
      have h : v = _ := h
      subst h
      rw [classify, if_neg (by decide), if_neg (by simp [key '(' (by decide) (by decide) (by decide) (by decide)])]
      simp
    | .closeParen =>
      have h : v = _ := h
      subst h
      rw [classify, if_neg (by decide), if_neg (by simp [key ')' (by decide) (by decide) (by decide) (by decide)])]
      simp
    | .openBrace =>
      have h : v = _ := h
      subst h
      rw [classify, if_neg (by decide), if_neg (by simp [key '{' (by decide) (by decide) (by decide) (by decide)])]
      simp
    | .closeBrace =>
      have h : v = _ := h
      subst h
      rw [classify, if_neg (by decide), if_neg (by simp [key '}' (by decide) (by decide) (by decide) (by decide)])]
      simp
    | .comment => obtain ⟨c, r, rfl⟩ := h; exact classify_comment U c r
    | .symbol =>
      obtain ⟨c, rfl, h1, h2, h3, h4⟩ := h
      simp only [List.mem_cons, List.not_mem_nil, or_false, not_or] at h4
      obtain ⟨n1, n2, n3, n4, n5, n6⟩ := h4
      rw [classify, if_neg (by simp [h1]), if_neg (by simp [isIdent, h2, h3, n1]), if_neg n2, if_neg n3, if_neg n4,
        if_neg n5, if_neg n6]
      simp
    | .illegal => exact absurd h id
    | .eof => exact absurd h id
  rw [← hcl t v h, ← hcl t' v h']

/-- **C07** Lexing can only crash when the file ends inside a service definition. -/
theorem C07_panic_only_unfinished (U : Uni) (g : Glob) (s : Str) (h : lexText U g s = .panic) :
    ∃ u, (scan U g s).1.getLast? = some u ∧ Inside u = true := by
  unfold lexText at h
  rw [lexUnits_eq] at h
  exact lexL_panic U _ false _ _ (ScanRun.flags (scan_run U g s)) (by simp) h

/-- **C07** Lexing never crashes on a file with balanced braces. -/
theorem C07_no_panic_balanced (U : Uni) (s : Str) (hb : Balanced ((scan U .init s).1.map (·.value))) :
    ∃ ts, lexText U .init s = .ok ts := by
  cases h : lexText U .init s with
  | ok ts => exact ⟨ts, rfl⟩
  | panic =>
    obtain ⟨u, h1, h2⟩ := C07_panic_only_unfinished U .init s h
    have := ScanRun.last_inside (scan_run U .init s) u h1
    rw [scan_balanced U s hb, h2] at this
    exact absurd this (by decide)
  | err =>
    exfalso
    unfold lexText at h
    rw [lexUnits_eq] at h
    revert h
    unfold lexL
    repeat' split
    all_goals simp

/-- **C07 (crash)** A comment at the end of an unfinished service crashes the lexer (and with it the generator)
instead of being reported. -/
theorem C07_panics_on_unfinished : lexText asciiUni .init "service S { // x\n".toList = .panic := by decide +kernel

-- two comments on consecutive lines are merged into one token, the others are not
example : (match lexText asciiUni .init "service S { //a\n//b\nrpc }".toList with
    | .ok ts => ts.map fun t => (t.token, t.value) | _ => []) =
    [(.ident, "service".toList), (.whitespace, " ".toList), (.ident, "S".toList), (.whitespace, " ".toList),
     (.openBrace, "{".toList), (.whitespace, " ".toList), (.comment, "//a\n//b\n".toList), (.ident, "rpc".toList),
     (.whitespace, " ".toList), (.closeBrace, "}".toList)] := by decide +kernel

/-! ## C08 -/

/-- **C08** After any sequence of reads and push-backs the token list is untouched and the position lies within it. -/
theorem C08_position_valid (b : List TokenGroup) (ops : List LexOp) :
    ((Lex.new b).run ops).buf = b ∧ ((Lex.new b).run ops).pos ≤ b.length := by
  let P : Lex → Prop := fun l => l.buf = b ∧ l.pos ≤ b.length
  have hget : ∀ l, P l → P l.getToken.2.2 := by
    rintro l ⟨h1, h2⟩
    unfold Lex.getToken
    split
    · rename_i g hg
      obtain ⟨hlt, -⟩ := List.getElem?_eq_some_iff.mp hg
      exact ⟨h1, by rw [← h1]; exact hlt⟩
    · exact ⟨h1, h2⟩
  have hskip : ∀ ign n l, P l → P (Lex.getSkip ign n l).2.2 := by
    intro ign n
    induction n with
    | zero => intro l h; exact h
    | succ n ih =>
      intro l h
      unfold Lex.getSkip
      simp only
      split
      · exact ih _ (hget l h)
      · exact hget l h
  have hun : ∀ l l', P l → l.unGet = some l' → P l' := by
    rintro l l' ⟨h1, h2⟩ h
    unfold Lex.unGet at h
    split at h
    · simp at h
    · rename_i p hp
      split at h
      · simp only [Option.some.injEq] at h
        subst h
        exact ⟨h1, by show p ≤ _; omega⟩
      · simp at h
  have hto : ∀ t n l l', P l → Lex.unGetTo t n l = some l' → P l' := by
    intro t n
    induction n with
    | zero =>
      intro l l' h e
      unfold Lex.unGetTo at e
      split at e
      · cases e; exact h
      · simp at e
    | succ n ih =>
      intro l l' h e
      unfold Lex.unGetTo at e
      split at e
      · cases e; exact h
      · split at e
        · rename_i l1 hl1
          exact ih _ _ (hun _ _ h hl1) e
        · simp at e
  have hstep : ∀ l o, P l → P (l.apply o) := by
    intro l o h
    cases o with
    | get => exact hget l h
    | getWS => exact hskip _ _ l h
    | getWSC => exact hskip _ _ l h
    | unGet =>
      show P ((l.unGet).getD l)
      cases hu : l.unGet with
      | none => exact h
      | some l' => exact hun l l' h hu
    | unGetTo p =>
      show P (Option.getD _ _)
      cases hu : l.unGetTo p l.pos with
      | none => exact ⟨h.1, Nat.zero_le _⟩
      | some l' => exact hto _ _ l l' h hu
  have : ∀ ops l, P l → P (l.run ops) := by
    intro ops
    induction ops with
    | nil => intro l h; exact h
    | cons o ops ih => intro l h; exact ih _ (hstep l o h)
  exact this ops _ ⟨rfl, Nat.zero_le _⟩

/-- **C08** Pushing back the token just read makes the next read return the same token again. -/
theorem C08_unget_get (l : Lex) (h : l.pos < l.buf.length) :
    ∃ l', l.getToken.2.2.unGet = some l' ∧ l'.pos = l.pos ∧ l'.buf = l.buf ∧ l'.getToken = l.getToken := by
  have hg : l.buf[l.pos]? = some l.buf[l.pos] := by simp
  have e : l.getToken = (l.buf[l.pos].token, l.buf[l.pos].value,
      { l with lineNo := l.buf[l.pos].line, pos := l.pos + 1 }) := by
    unfold Lex.getToken; rw [hg]
  refine ⟨{ l with lineNo := l.buf[l.pos].line }, ?_, rfl, rfl, ?_⟩
  · rw [e]; simp [Lex.unGet, hg]
  · rw [e]; unfold Lex.getToken; rw [hg]

/-- **C08** Pushing back to any earlier position succeeds, changes nothing but the position and line, and the tokens
read next are those from that position on. -/
theorem C08_unget_to (l : Lex) (p : Nat) (hl : l.pos ≤ l.buf.length) (hp : p ≤ l.pos) :
    ∃ l', l.unGetTo p l.pos = some l' ∧ l'.pos = p ∧ l'.buf = l.buf ∧
      (l'.getToken.1, l'.getToken.2.1) = ((l.buf[p]?.map (·.token)).getD .eof, (l.buf[p]?.map (·.value)).getD []) := by
  have key : ∀ n (l : Lex), l.pos = n → l.pos ≤ l.buf.length → p ≤ l.pos →
      ∃ l', l.unGetTo p n = some l' ∧ l'.pos = p ∧ l'.buf = l.buf := by
    intro n
    induction n with
    | zero =>
      intro l e h1 h2
      exact ⟨l, by unfold Lex.unGetTo; rw [if_pos (by omega)], by omega, rfl⟩
    | succ n ih =>
      intro l e h1 h2
      unfold Lex.unGetTo
      by_cases hpe : l.pos = p
      · exact ⟨l, by rw [if_pos hpe], hpe, rfl⟩
      · rw [if_neg hpe]
        have hu : l.unGet = some { l with pos := n, lineNo := (l.buf[n]'(by omega)).line } := by
          unfold Lex.unGet
          rw [e]
          simp [show n < l.buf.length by omega]
        rw [hu]
        simp only
        obtain ⟨l', a, b, c⟩ := ih { l with pos := n, lineNo := (l.buf[n]'(by omega)).line } rfl
          (by show n ≤ l.buf.length; omega) (by show p ≤ n; omega)
        exact ⟨l', a, b, c⟩
  obtain ⟨l', a, b, c⟩ := key l.pos l rfl hl hp
  refine ⟨l', a, b, c, ?_⟩
  unfold Lex.getToken
  rw [b, c]
  cases l.buf[p]? <;> rfl

/-- **C08** Pushing back to a later position fails. -/
theorem C08_unget_to_later (l : Lex) (p : Nat) (hp : l.pos < p) : l.unGetTo p l.pos = none := by
  have key : ∀ n (l : Lex), l.pos = n → n < p → l.unGetTo p n = none := by
    intro n
    induction n with
    | zero => intro l e h; unfold Lex.unGetTo; rw [if_neg (by omega)]
    | succ n ih =>
      intro l e h
      unfold Lex.unGetTo
      rw [if_neg (by omega)]
      unfold Lex.unGet
      rw [e]
      simp only
      cases hb : l.buf[n]? with
      | none => rfl
      | some g => exact ih _ rfl (by omega)
  exact key _ l rfl hp

/-- **C08** A skipping read returns the first token at or after the position whose kind is not skipped; everything it
jumped over is of a skipped kind; it reports the end only if no such token is left. `ks` are the tokens jumped
over. -/
theorem C08_skip_exact (l : Lex) (hl : l.pos ≤ l.buf.length) (ign : Tok → Bool) (he : ign .eof = false) :
    ∃ ks, (∀ k ∈ ks, ign k.token = true) ∧
      ((∃ t r, l.buf.drop l.pos = ks ++ t :: r ∧ ign t.token = false ∧
          (l.getSkip ign (l.buf.length + 1)) =
            (t.token, t.value, { l with lineNo := t.line, pos := l.pos + ks.length + 1 })) ∨
       (l.buf.drop l.pos = ks ∧ (l.getSkip ign (l.buf.length + 1)).1 = .eof ∧
          (l.getSkip ign (l.buf.length + 1)).2.1 = [] ∧
          (l.getSkip ign (l.buf.length + 1)).2.2.pos = l.buf.length)) := by
  have key : ∀ (r : List TokenGroup) (n : Nat) (l : Lex), l.pos ≤ l.buf.length → l.buf.drop l.pos = r → r.length < n →
      ∃ ks, (∀ k ∈ ks, ign k.token = true) ∧
      ((∃ t r, l.buf.drop l.pos = ks ++ t :: r ∧ ign t.token = false ∧
          (l.getSkip ign n) = (t.token, t.value, { l with lineNo := t.line, pos := l.pos + ks.length + 1 })) ∨
       (l.buf.drop l.pos = ks ∧ (l.getSkip ign n).1 = .eof ∧ (l.getSkip ign n).2.1 = [] ∧
          (l.getSkip ign n).2.2.pos = l.buf.length)) := by
    intro r
    induction r with
    | nil =>
      intro n l hl hd hn
      refine ⟨[], by simp, .inr ⟨hd, ?_⟩⟩
      have hlen : l.pos = l.buf.length := by
        have := congrArg List.length hd; simp at this; omega
      match n, hn with
      | n + 1, _ =>
        have hg : l.buf[l.pos]? = none := by simp; omega
        unfold Lex.getSkip Lex.getToken
        rw [hg]
        simp [he, hlen]
    | cons t r ih =>
      intro n l hl hd hn
      match n, hn with
      | n + 1, hn =>
        have hg : l.buf[l.pos]? = some t := by
          rw [← List.head?_drop, hd]; rfl
        obtain ⟨hlt, -⟩ := List.getElem?_eq_some_iff.mp hg
        unfold Lex.getSkip Lex.getToken
        rw [hg]
        simp only
        cases hi : ign t.token with
        | false =>
          refine ⟨[], by simp, .inl ⟨t, r, by simpa using hd, hi, ?_⟩⟩
          simp
        | true =>
          simp only [if_true]
          have hd' : l.buf.drop (l.pos + 1) = r := by
            rw [← List.drop_drop, hd]; rfl
          obtain ⟨ks, hk, hrest⟩ := ih n { l with lineNo := t.line, pos := l.pos + 1 } hlt hd'
            (by simp at hn; omega)
          refine ⟨t :: ks, ?_, ?_⟩
          · intro k hk'
            rcases List.mem_cons.mp hk' with rfl | hk'
            · exact hi
            · exact hk k hk'
          · rcases hrest with ⟨t', r', e1, e2, e3⟩ | ⟨e1, e2⟩
            · left
              refine ⟨t', r', ?_, e2, ?_⟩
              · rw [hd, ← hd', e1]; rfl
              · rw [e3]; simp; omega
            · right
              exact ⟨by rw [hd, ← hd', e1], e2⟩
  exact key _ _ l hl rfl (by simp; omega)

example : (Lex.new [⟨.whitespace, [' '], 1⟩, ⟨.ident, ['a'], 2⟩]).getWS =
    (.ident, ['a'], ⟨[⟨.whitespace, [' '], 1⟩, ⟨.ident, ['a'], 2⟩], 2, 2⟩) := by decide
example : (⟨[⟨.whitespace, [' '], 1⟩, ⟨.ident, ['a'], 2⟩], 2, 2⟩ : Lex).unGetTo 0 2 =
    some ⟨[⟨.whitespace, [' '], 1⟩, ⟨.ident, ['a'], 2⟩], 0, 1⟩ := by decide

end Baron.Lexer
