import Verif.Proofs.Accepts
import Verif.Props.Parser

/-!
# Exactly what is accepted (C67), and options of an rpc (C41)
-/

namespace Baron.Parser

open Baron.Lexer
open Baron.Parser.Grammar (Toks comments kw)

/-! ## C67 -/

/-- **C67** A token stream is accepted exactly when it begins with a service of the grammar of `Spec/Accepts.lean`, and the
result is the one given there. -/
theorem C67_accepts (unq : Str → Option Str) (ts : List TokenGroup) (s : Service) :
    parseService unq ts = .ok s ↔ Accepts.Service unq (significant ts) s :=
  Accepts.parse_iff unq ts s

/-- Tokens at the given line, without white space. -/
def bare (l : Toks) : List TokenGroup := l.map fun x => ⟨x.1, x.2, 1⟩

theorem significant_bare (l : Toks) (h : ∀ x ∈ l, x.1 ≠ .whitespace) : significant (bare l) = l := by
  induction l with
  | nil => rfl
  | cons x l ih =>
    have := h x (by simp)
    show List.map _ (List.filter _ (⟨x.1, x.2, 1⟩ :: bare l)) = _
    rw [List.filter_cons_of_pos (by simpa using this), List.map_cons]
    rw [show List.map (fun g : TokenGroup => (g.token, g.value)) (List.filter (fun g => decide (g.token ≠ .whitespace)) (bare l)) = l from
      ih fun y hy => h y (by simp [hy])]

/-- **C67** The grammar is unambiguous: it gives a token stream at most one meaning. -/
theorem C67_unambiguous (unq : Str → Option Str) (l : Toks) (hl : ∀ x ∈ l, x.1 ≠ .whitespace) (s s' : Service)
    (h : Accepts.Service unq l s) (h' : Accepts.Service unq l s') : s = s' := by
  rw [← significant_bare l hl] at h h'
  have a := (C67_accepts unq _ _).mpr h
  have b := (C67_accepts unq _ _).mpr h'
  rw [a] at b
  cases b
  rfl

/-- **C67** What stands behind the closing brace of the service does not matter. -/
theorem C67_rest (unq : Str → Option Str) (l more : Toks) (s : Service) (h : Accepts.Service unq l s) :
    Accepts.Service unq (l ++ more) s := by
  obtain ⟨t, v, name, o, l', rfl, ht, hs, hn, hr⟩ := h
  refine ⟨t, v, name, o, l' ++ more, by simp, ht, hs, hn, ?_⟩
  exact Accepts.Rpcs.append hr more

/-! ### Examples -/

/-- `service A { rpc B (C) returns (D); }` belongs to the larger grammar … -/
example : Accepts.Service plainUnq
    [kw "service", (.ident, "A".toList), (.openBrace, "{".toList), kw "rpc", (.ident, "B".toList), (.openParen, "(".toList),
     (.ident, "C".toList), (.closeParen, ")".toList), kw "returns", (.openParen, "(".toList), (.ident, "D".toList),
     (.closeParen, ")".toList), (.symbol, ";".toList), (.closeBrace, "}".toList)] ⟨"A".toList, []⟩ := by
  rw [← significant_bare [kw "service", (.ident, "A".toList), (.openBrace, "{".toList), kw "rpc", (.ident, "B".toList),
    (.openParen, "(".toList), (.ident, "C".toList), (.closeParen, ")".toList), kw "returns", (.openParen, "(".toList),
    (.ident, "D".toList), (.closeParen, ")".toList), (.symbol, ";".toList), (.closeBrace, "}".toList)] (by decide), ← C67_accepts]
  rfl

/-- … and so does every service of the grammar users write in, with its meaning. -/
example (unq : Str → Option Str) (s : Grammar.ASvc) (hs : s.WF unq) (h : ∀ x ∈ s.print, x.1 ≠ .whitespace) :
    Accepts.Service unq s.print s.meaning := by
  rw [← significant_bare s.print h, ← C67_accepts]
  exact C11_roundtrip unq s hs _ [] (by rw [significant_bare _ h, List.append_nil])

/-! ## C41 -/

theorem aMethods_before (unq : Str → Option Str) (fuel : Nat) (L : Toks) : ∀ (rpcs : List Grammar.ARpc), (∀ r ∈ rpcs, r.WF unq) →
    (rpcs.flatMap Grammar.ARpc.print ++ L).length + 2 ≤ fuel → ∀ (n : Nat) (ms : List Method),
    ∃ ms', aMethods unq fuel (n + rpcs.length) (rpcs.flatMap Grammar.ARpc.print ++ L) ms = aMethods unq fuel n L ms' := by
  intro rpcs
  induction rpcs with
  | nil => intro _ _ n ms; exact ⟨ms, rfl⟩
  | cons r rpcs ih =>
    intro hwf hf n ms
    simp only [List.flatMap_cons, List.append_assoc] at hf ⊢
    rw [List.length_cons, ← Nat.add_assoc, aMethods, aMethod_print unq r (hwf r List.mem_cons_self) _ fuel hf]
    have hih := ih (fun x hx => hwf x (List.mem_cons_of_mem _ hx)) (by simp at hf ⊢; omega) n
    cases hm : r.meaning with
    | none => exact hih ms
    | some m => exact hih (ms ++ [m])

/-- An option of an rpc from its first token to its semicolon. -/
def Grammar.AOpt.upToSemicolon (o : Grammar.AOpt) : Toks :=
  comments o.pre ++ [kw "option"] ++ o.skip ++ [(.openBrace, "{".toList)] ++ o.body.print ++
    o.adds.flatMap Grammar.AAdd.print ++ comments o.post ++ [(.closeBrace, "}".toList)] ++ comments o.preSemi ++
    [(.symbol, ";".toList)]

/-- The option is read up to its semicolon, whatever follows. -/
theorem aHttp_upToSemicolon (unq : Str → Option Str) (o : Grammar.AOpt) (ho : o.WF unq) (more : Toks) :
    ∃ N, ∀ n, N ≤ n → aHttp unq n (o.upToSemicolon ++ more) =
      .ok (some o.meaning, comments o.preSemi ++ (.symbol, ";".toList) :: more) := by
  have h := aHttp_opt unq o ho [] _ (Nat.le_refl _)
  rw [List.append_nil] at h
  have B := (Accepts.aHttp_sound unq _).1 _ _ _ h
  obtain ⟨p, e, hp⟩ := B.local
  have e2 : o.upToSemicolon = p ++ (comments o.preSemi ++ [(.symbol, ";".toList)]) := by
    have e1 : o.print = o.upToSemicolon ++ (comments o.preEnd ++ [(.closeBrace, "}".toList)]) := by
      simp [Grammar.AOpt.print, Grammar.AOpt.upToSemicolon]
    rw [e1] at e
    have e3 : o.upToSemicolon ++ (comments o.preEnd ++ [(.closeBrace, "}".toList)]) =
        (p ++ (comments o.preSemi ++ [(.symbol, ";".toList)])) ++ (comments o.preEnd ++ [(.closeBrace, "}".toList)]) := by
      rw [e]; simp
    exact List.append_cancel_right e3
  rw [e2]
  have := Accepts.aHttp_complete unq (hp (comments o.preSemi ++ (.symbol, ";".toList) :: more))
  simpa using this

/-- The tokens of a service up to the body of an rpc. -/
def upToBody (name : Str) (earlier : List Grammar.ARpc) (pre : List Str) (rpc : Str) (req resp : Grammar.AType) : Toks :=
  [kw "service", (.ident, name), (.openBrace, "{".toList)] ++ earlier.flatMap Grammar.ARpc.print ++
    comments pre ++ [kw "rpc", (.ident, rpc)] ++ req.print ++ [kw "returns"] ++ resp.print ++ [(.openBrace, "{".toList)]

/-- If reading the body of an rpc fails, so does the whole parse, for the same reason. -/
theorem parse_body_error (unq : Str → Option Str) (name : Str) (earlier : List Grammar.ARpc) (hb : ∀ r ∈ earlier, r.WF unq)
    (pre : List Str) (rpc : Str) (req resp : Grammar.AType) (hreq : req.WF) (hresp : resp.WF) (body : Toks) (err : PErr)
    (herr : err ≠ .svcDefEnd)
    (hbody : ∃ N, ∀ n, N ≤ n → ∀ m, aTail unq n ((.openBrace, "{".toList) :: body) m = .error err)
    (ts : List TokenGroup) (h : significant ts = upToBody name earlier pre rpc req resp ++ body) :
    evS (parseService unq ts) = .error err := by
  obtain ⟨N, hN⟩ := hbody
  have habs := parseServiceN_abs unq (ts.length + 2) (Cur.new ts)
  have hr : (Cur.new ts).rest = ts := rfl
  rw [hr] at habs
  have hl := sig_length ts
  rw [(aService_fuel unq (ts.length + 2) (N + ts.length + 2) (sig ts) (by omega) (by omega)).1, ← significant_eq_sig, h] at habs
  rw [← significant_eq_sig, h] at hl
  unfold parseService
  rw [habs]
  rw [aService]
  simp only [upToBody, List.append_assoc, List.cons_append, List.nil_append, kw, aget, reduceCtorEq, if_false,
    ne_eq, not_true_eq_false, false_and]
  simp only [upToBody, List.append_assoc, List.cons_append, List.nil_append, kw, List.length_append, List.length_cons] at hl
  have hlen : earlier.length ≤ (earlier.flatMap Grammar.ARpc.print).length := by
    clear hl habs h hb
    induction earlier with
    | nil => simp
    | cons r rs ih => simp [Grammar.ARpc.print] at ih ⊢; omega
  obtain ⟨ms', e⟩ := aMethods_before unq (N + ts.length + 2)
    (comments pre ++ (.ident, "rpc".toList) :: (.ident, rpc) :: (req.print ++ (.ident, "returns".toList) :: (resp.print ++
      (.openBrace, "{".toList) :: body))) earlier hb
    (by simp only [List.length_append, List.length_cons]; omega) (N + ts.length + 2 - earlier.length - 1 + 1) []
  rw [show N + ts.length + 2 - earlier.length - 1 + 1 + earlier.length = N + ts.length + 2 by omega] at e
  rw [e, aMethods, aMethod, adesc_comments]
  simp only [adesc, reduceCtorEq, if_false, ne_eq, not_true_eq_false, or_self, aget]
  rw [aType_print _ _ _ req hreq _ _ (by simp only [List.length_append, List.length_cons]; omega)]
  simp only [aget, ne_eq, not_true_eq_false, or_self, if_false]
  rw [aType_print _ _ _ resp hresp _ _ (by simp only [List.length_append, List.length_cons]; omega)]
  simp only
  rw [hN _ (by omega)]
  cases err with
  | svcDefEnd => exact absurd rfl herr
  | _ => rfl

/-- **C41** After the first option with a block value nothing but comments may follow in the body of an rpc: the first other
token is reported, whatever stands behind it. -/
theorem C41_nothing_after (unq : Str → Option Str) (name : Str) (earlier : List Grammar.ARpc) (hb : ∀ r ∈ earlier, r.WF unq)
    (pre : List Str) (rpc : Str) (req resp : Grammar.AType) (hreq : req.WF) (hresp : resp.WF)
    (o : Grammar.AOpt) (ho : o.WF unq) (cs : List Str) (x : Tok × Str) (hx : x.1 ≠ .comment) (hx' : x.1 ≠ .closeBrace)
    (more : Toks) (ts : List TokenGroup)
    (h : significant ts = upToBody name earlier pre rpc req resp ++ (o.upToSemicolon ++ comments cs ++ x :: more)) :
    ∃ line, parseService unq ts = .error (.expected .rpcClose line x.2) := by
  have key := parse_body_error unq name earlier hb pre rpc req resp hreq hresp _ (.expected .rpcClose 0 x.2) (by simp)
    (by
      obtain ⟨N, hN⟩ := aHttp_upToSemicolon unq o ho (comments cs ++ x :: more)
      refine ⟨N, fun n hn m => ?_⟩
      rw [aTail]
      simp only [aget]
      rw [if_neg lits.2.2.2.2.2]
      simp only [ne_eq, not_true_eq_false, if_false]
      rw [hN _ hn]
      simp only
      rw [agetC_comments]
      simp only [agetC, reduceCtorEq, if_false, ne_eq, not_true_eq_false, or_self]
      rw [agetC_comments]
      obtain ⟨t, v⟩ := x
      simp only at hx hx'
      simp only [agetC, hx, hx', if_false, not_false_iff, if_true]) ts (by rw [h, List.append_assoc o.upToSemicolon])
  revert key
  cases parseService unq ts with
  | ok s => intro k; cases k
  | error e =>
    cases e with
    | expected s l v =>
      intro k
      simp only [evS, PErr.noLine, Except.error.injEq, PErr.expected.injEq] at k
      exact ⟨l, by rw [k.1, k.2.2]⟩
    | _ => intro k; cases k

theorem aff_none (d : Str) : ∀ (l : Toks), (∀ x ∈ l, x.1 ≠ .eof ∧ x.1 ≠ .illegal ∧ x.2 ≠ d) →
    aff d l = .error (.fastForward .eof []) := by
  intro l
  induction l with
  | nil => intro _; rfl
  | cons x l ih =>
    intro h
    obtain ⟨t, v⟩ := x
    obtain ⟨h1, h2, h3⟩ := h (t, v) (by simp)
    simp only at h1 h2 h3
    rw [aff, if_neg (by simp [h1, h2]), if_neg h3]
    exact ih fun y hy => h y (by simp [hy])

/-- **C41** An rpc whose options have no block value has no http rule of its own: if no block follows in the rest of the file
either, parsing fails at the end of the file. (If one follows, `C41_lead_in` applies: it is taken for the http rule.) -/
theorem C41_no_block (unq : Str → Option Str) (name : Str) (earlier : List Grammar.ARpc) (hb : ∀ r ∈ earlier, r.WF unq)
    (pre : List Str) (rpc : Str) (req resp : Grammar.AType) (hreq : req.WF) (hresp : resp.WF) (cs : List Str)
    (more : Toks) (hm : Grammar.SkipOK more) (ts : List TokenGroup)
    (h : significant ts = upToBody name earlier pre rpc req resp ++ (comments cs ++ kw "option" :: more)) :
    parseService unq ts = .error (.fastForward .eof []) := by
  have key := parse_body_error unq name earlier hb pre rpc req resp hreq hresp _ (.fastForward .eof []) (by simp)
    (by
      refine ⟨1, fun n hn m => ?_⟩
      obtain ⟨n, rfl⟩ : ∃ k, n = k + 1 := ⟨n - 1, by omega⟩
      rw [aTail]
      simp only [aget]
      rw [if_neg lits.2.2.2.2.2]
      simp only [ne_eq, not_true_eq_false, if_false]
      rw [aHttp, adesc_comments]
      simp only [kw, adesc, reduceCtorEq, if_false, or_self, if_true]
      rw [aff_none _ _ hm]) ts h
  revert key
  cases parseService unq ts with
  | ok s => intro k; cases k
  | error e =>
    cases e with
    | fastForward t v =>
      intro k
      simp only [evS, PErr.noLine, Except.error.injEq, PErr.fastForward.injEq] at k
      rw [k.1, k.2]
    | _ => intro k; cases k

/-! ### Examples -/

/-- An http option and its type names for the examples. -/
def exOpt (lead : Toks) : Grammar.AOpt := ⟨[], lead, ⟨[Example.fld "get" "/"], []⟩, [], [], [], []⟩

theorem exOpt_wf (lead : Toks) (h : Grammar.SkipOK lead) : (exOpt lead).WF plainUnq := by
  refine ⟨h, ?_, by intro a ha; cases ha⟩
  intro i hi
  simp only [exOpt, List.mem_cons, List.not_mem_nil, or_false] at hi
  subst hi
  exact ⟨by decide, by decide, by decide⟩

/-- A second option behind the http option of the second rpc of a service. -/
example : ∃ line, parseService plainUnq (bare (upToBody "A".toList Example.svc.rpcs [] "B".toList ⟨false, [], "C".toList⟩
    ⟨false, [], "D".toList⟩ ++ ((exOpt []).upToSemicolon ++ comments ["// c".toList] ++ kw "option" :: [(.ident, "x".toList)]))) =
    .error (.expected .rpcClose line "option".toList) :=
  C41_nothing_after plainUnq "A".toList _ Example.svc_wf [] "B".toList ⟨false, [], "C".toList⟩ ⟨false, [], "D".toList⟩
    (fun _ => by decide) (fun _ => by decide) (exOpt []) (exOpt_wf [] (by intro x hx; cases hx)) ["// c".toList] (kw "option")
    (by decide) (by decide) [(.ident, "x".toList)] _ (significant_bare _ (by decide +kernel))

/-- `rpc B (C) returns (D) { option deprecated = true; } }` -/
example : parseService plainUnq (bare (upToBody "A".toList Example.svc.rpcs [] "B".toList ⟨false, [], "C".toList⟩
    ⟨false, [], "D".toList⟩ ++ (comments [] ++ kw "option" :: [kw "deprecated", (.symbol, "=".toList), kw "true", (.symbol, ";".toList),
      (.closeBrace, "}".toList), (.closeBrace, "}".toList)]))) = .error (.fastForward .eof []) :=
  C41_no_block plainUnq "A".toList _ Example.svc_wf [] "B".toList ⟨false, [], "C".toList⟩ ⟨false, [], "D".toList⟩
    (fun _ => by decide) (fun _ => by decide) [] _ (by
      intro x hx
      simp only [List.mem_cons, List.not_mem_nil, or_false] at hx
      rcases hx with rfl | rfl | rfl | rfl | rfl | rfl <;> decide) _ (significant_bare _ (by decide +kernel))

/-- The block of a later rpc is taken for the http rule of an rpc that has only `option deprecated = true;`: the tokens
`… { option deprecated = true; } rpc E (C) returns (D) { get: "/" }; }` belong to one rpc. -/
example : Grammar.SkipOK [kw "deprecated", (.symbol, "=".toList), kw "true", (.symbol, ";".toList), (.closeBrace, "}".toList),
    kw "rpc", kw "E", (.openParen, "(".toList), kw "C", (.closeParen, ")".toList), kw "returns", (.openParen, "(".toList),
    kw "D", (.closeParen, ")".toList)] := by
  intro x hx
  simp only [List.mem_cons, List.not_mem_nil, or_false] at hx
  rcases hx with rfl | rfl | rfl | rfl | rfl | rfl | rfl | rfl | rfl | rfl | rfl | rfl | rfl | rfl <;> decide

end Baron.Parser
