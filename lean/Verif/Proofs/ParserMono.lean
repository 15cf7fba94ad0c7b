import Verif.Proofs.ParserFuel

/-! The parser's iteration bound never changes an outcome other than "bound reached". -/

namespace Baron.Parser

open Baron.Lexer

theorem bindingFields_mono (unq : Str → Option Str) (n : Nat) : ∀ (m : Nat) (c : Cur) (d : Str) (fs cs : List Field),
    n ≤ m → bindingFields unq n c d fs cs ≠ .error .fuel →
    bindingFields unq m c d fs cs = bindingFields unq n c d fs cs := by
  induction n with
  | zero => intro m c d fs cs _ h; exact absurd rfl h
  | succ n ih =>
    intro m c d fs cs hm h
    obtain ⟨m, rfl⟩ : ∃ k, m = k + 1 := ⟨m - 1, by omega⟩
    have hm : n ≤ m := by omega
    rw [bindingFields] at h ⊢
    rw [bindingFields]
    generalize c.getDesc d = x at h ⊢
    obtain ⟨desc, tk, val, c1⟩ := x
    simp only at h ⊢
    split at h; · rename_i k; rw [if_pos k]; try rw [if_pos k]
    rename_i k0; rw [if_neg k0]; try rw [if_neg k0]
    split at h; · rename_i k; rw [if_pos k]; try rw [if_pos k]
    rename_i k0; rw [if_neg k0]; try rw [if_neg k0]
    split at h; · rename_i k; rw [if_pos k]; try rw [if_pos k]
    rename_i k0; rw [if_neg k0]; try rw [if_neg k0]
    split at h
    · rename_i k; rw [if_pos k]; try rw [if_pos k]
      cases hf : fastForwardTill c1 "{".toList with
      | error e => rfl
      | ok c2 =>
        simp only [hf, bind, Except.bind] at h ⊢
        cases hb : bindingFields unq n c2 [] [] [] with
        | error e =>
          rw [hb] at h
          rw [ih m c2 [] [] [] hm (by rw [hb]; exact fun e' => h (by cases e'; rfl)), hb]
        | ok r =>
          obtain ⟨cf, x, c3⟩ := r
          rw [hb] at h
          rw [ih m c2 [] [] [] hm (by rw [hb]; exact fun e' => nomatch e'), hb]
          simp only at h ⊢
          cases hf2 : fastForwardTill c3 "}".toList with
          | error e => rfl
          | ok c4 =>
            simp only [hf2] at h ⊢
            exact ih m c4 _ _ _ hm h
    · rename_i k0; rw [if_neg k0]; try rw [if_neg k0]
      generalize c1.getWS = x at h ⊢
      obtain ⟨tk2, val2, c2⟩ := x
      simp only at h ⊢
      split at h; · rename_i k; rw [if_pos k]; try rw [if_pos k]
      rename_i k0; rw [if_neg k0]; try rw [if_neg k0]
      generalize c2.getWS = x at h ⊢
      obtain ⟨tk3, val3, c3⟩ := x
      simp only at h ⊢
      split at h; · rename_i k; rw [if_pos k]; try rw [if_pos k]
      rename_i k0; rw [if_neg k0]; try rw [if_neg k0]
      cases hu : unq val3 with
      | none => rfl
      | some v =>
        simp only [hu] at h ⊢
        exact ih m c3 _ _ _ hm h

theorem httpBindings_mono (unq : Str → Option Str) (n : Nat) : (∀ (m : Nat) (c : Cur),
    n ≤ m → httpBindings unq n c ≠ .error .fuel → httpBindings unq m c = httpBindings unq n c) ∧
    (∀ (m : Nat) (c : Cur) (good : Nat) (rv : List HTTPBinding) (opt : HTTPBinding),
    n ≤ m → optionLoop unq n c good rv opt ≠ .error .fuel →
      optionLoop unq m c good rv opt = optionLoop unq n c good rv opt) := by
  induction n with
  | zero =>
    exact ⟨fun m c _ h => absurd (by rw [httpBindings]) h, fun m c g rv o _ h => absurd (by rw [optionLoop]) h⟩
  | succ n ih =>
    obtain ⟨ih1, ih2⟩ := ih
    constructor
    · intro m c hm h
      obtain ⟨m, rfl⟩ : ∃ k, m = k + 1 := ⟨m - 1, by omega⟩
      have hm : n ≤ m := by omega
      rw [httpBindings] at h ⊢
      rw [httpBindings]
      generalize c.getDesc [] = x at h ⊢
      obtain ⟨desc, tk, val, c1⟩ := x
      simp only at h ⊢
      split at h; · rename_i k; rw [if_pos k]; try rw [if_pos k]
      rename_i k0; rw [if_neg k0]; try rw [if_neg k0]
      split at h
      · rename_i k; rw [if_pos k]; try rw [if_pos k]
        cases hf : fastForwardTill c1 "{".toList with
        | error e => rfl
        | ok c2 =>
          simp only [hf, bind, Except.bind] at h ⊢
          cases hb : bindingFields unq n c2 [] [] [] with
          | error e =>
            rw [hb] at h
            rw [bindingFields_mono unq n m c2 [] [] [] hm (by rw [hb]; exact fun e' => h (by cases e'; rfl)), hb]
          | ok r =>
            obtain ⟨cf, x, c3⟩ := r
            rw [hb] at h
            rw [bindingFields_mono unq n m c2 [] [] [] hm (by rw [hb]; exact fun e' => nomatch e'), hb]
            exact ih2 m _ _ _ _ hm h
      rename_i k0; rw [if_neg k0]; try rw [if_neg k0]
      split at h
      · rename_i k; rw [if_pos k]; try rw [if_pos k]
        cases hf : fastForwardTill c1 "{".toList with
        | error e => rfl
        | ok c2 =>
          simp only [hf, bind, Except.bind] at h ⊢
          cases hb : bindingFields unq n c2 [] [] [] with
          | error e =>
            rw [hb] at h
            rw [bindingFields_mono unq n m c2 [] [] [] hm (by rw [hb]; exact fun e' => h (by cases e'; rfl)), hb]
          | ok r =>
            rw [bindingFields_mono unq n m c2 [] [] [] hm (by rw [hb]; exact fun e' => nomatch e'), hb]
      rename_i k0; rw [if_neg k0]; try rw [if_neg k0]
    · intro m c good rv opt hm h
      obtain ⟨m, rfl⟩ : ∃ k, m = k + 1 := ⟨m - 1, by omega⟩
      have hm : n ≤ m := by omega
      rw [optionLoop] at h ⊢
      rw [optionLoop]
      generalize c.getWS = x at h ⊢
      obtain ⟨tk, val, c1⟩ := x
      simp only at h ⊢
      split at h; · rename_i k; rw [if_pos k]; try rw [if_pos k]
      rename_i k0; rw [if_neg k0]; try rw [if_neg k0]
      split at h
      · rename_i k; rw [if_pos k]; try rw [if_pos k]
        exact ih2 m _ _ _ _ hm h
      rename_i k0; rw [if_neg k0]; try rw [if_neg k0]
      split at h
      · rename_i k; rw [if_pos k]; try rw [if_pos k]
        simp only [bind, Except.bind] at h ⊢
        cases hb : httpBindings unq n (c1.unGetTo good) with
        | error e =>
          rw [hb] at h
          rw [ih1 m _ hm (by rw [hb]; exact fun e' => h (by cases e'; rfl)), hb]
        | ok r =>
          rw [hb] at h
          rw [ih1 m _ hm (by rw [hb]; exact fun e' => nomatch e'), hb]
          exact ih2 m _ _ _ _ hm h
      rename_i k0; rw [if_neg k0]; try rw [if_neg k0]

theorem typeLoop_mono (site : Site) (n : Nat) : ∀ (m : Nat) (tk : Tok) (val : Str) (c : Cur) (acc : Str),
    n ≤ m → typeLoop site n tk val c acc ≠ .error .fuel →
    typeLoop site m tk val c acc = typeLoop site n tk val c acc := by
  induction n with
  | zero => intro m tk val c acc _ h; exact absurd rfl h
  | succ n ih =>
    intro m tk val c acc hm h
    obtain ⟨m, rfl⟩ : ∃ k, m = k + 1 := ⟨m - 1, by omega⟩
    have hm : n ≤ m := by omega
    rw [typeLoop] at h ⊢
    rw [typeLoop]
    split at h; · rename_i k; rw [if_pos k]; try rw [if_pos k]
    rename_i k0; rw [if_neg k0]; try rw [if_neg k0]
    split at h
    · rename_i k; rw [if_pos k]; try rw [if_pos k]
      exact ih m _ _ _ _ hm h
    rename_i k0; rw [if_neg k0]; try rw [if_neg k0]
    split at h
    · rename_i k; rw [if_pos k]; try rw [if_pos k]
      exact ih m _ _ _ _ hm h
    rename_i k0; rw [if_neg k0]; try rw [if_neg k0]

theorem typeRef_mono (s1 s2 s3 : Site) (n m : Nat) (c : Cur) (hm : n ≤ m)
    (h : typeRef s1 s2 s3 n c ≠ .error .fuel) : typeRef s1 s2 s3 m c = typeRef s1 s2 s3 n c := by
  unfold typeRef at h ⊢
  generalize c.getWS = x at h ⊢
  obtain ⟨tk, val, c1⟩ := x
  simp only at h ⊢
  split at h; · rename_i k; rw [if_pos k]; try rw [if_pos k]
  rename_i k0; rw [if_neg k0]; try rw [if_neg k0]
  generalize (if c1.getWS.2.1 = "stream".toList then c1.getWS.2.2.getWS else c1.getWS) = y at h ⊢
  obtain ⟨tk3, val3, c3⟩ := y
  simp only at h ⊢
  split at h; · rename_i k; rw [if_pos k]; try rw [if_pos k]
  rename_i k0; rw [if_neg k0]; try rw [if_neg k0]
  exact typeLoop_mono _ _ _ _ _ _ _ hm h

theorem methodTail_mono (unq : Str → Option Str) (n m : Nat) (c : Cur) (me : Method) (hm : n ≤ m)
    (h : methodTail unq n c me ≠ .error .fuel) : methodTail unq m c me = methodTail unq n c me := by
  unfold methodTail at h ⊢
  generalize c.getWS = x at h ⊢
  obtain ⟨tk, val, c1⟩ := x
  simp only at h ⊢
  split at h; · rename_i k; rw [if_pos k]; try rw [if_pos k]
  rename_i k0; rw [if_neg k0]; try rw [if_neg k0]
  split at h; · rename_i k; rw [if_pos k]; try rw [if_pos k]
  rename_i k0; rw [if_neg k0]; try rw [if_neg k0]
  simp only [bind, Except.bind] at h ⊢
  rw [(httpBindings_mono unq n).1 m c1 hm]
  intro e
  rw [e] at h
  exact h rfl

theorem parseMethod_mono (unq : Str → Option Str) (n m : Nat) (c : Cur) (hm : n ≤ m)
    (h : parseMethod unq n c ≠ .error .fuel) : parseMethod unq m c = parseMethod unq n c := by
  unfold parseMethod at h ⊢
  generalize c.getDesc [] = x at h ⊢
  obtain ⟨desc, tk, val, c1⟩ := x
  simp only at h ⊢
  split at h; · rename_i k; rw [if_pos k]; try rw [if_pos k]
  rename_i k0; rw [if_neg k0]; try rw [if_neg k0]
  split at h; · rename_i k; rw [if_pos k]; try rw [if_pos k]
  rename_i k0; rw [if_neg k0]; try rw [if_neg k0]
  generalize c1.getWS = x at h ⊢
  obtain ⟨tk2, name, c2⟩ := x
  simp only at h ⊢
  split at h; · rename_i k; rw [if_pos k]; try rw [if_pos k]
  rename_i k0; rw [if_neg k0]; try rw [if_neg k0]
  simp only [bind, Except.bind] at h ⊢
  rw [typeRef_mono _ _ _ n m c2 hm (by intro e; rw [e] at h; exact h rfl)]
  cases hr0 : typeRef .rpcOpenArg .rpcArgIdent .rpcArg n c2 with
  | error e => rfl
  | ok r =>
    rw [hr0] at h
    simp only at h ⊢
    generalize r.2.getWS = x at h ⊢
    obtain ⟨tk4, val4, c4⟩ := x
    simp only at h ⊢
    split at h; · rename_i k; rw [if_pos k]; try rw [if_pos k]
    rename_i k0; rw [if_neg k0]; try rw [if_neg k0]
    rw [typeRef_mono _ _ _ n m c4 hm (by intro e; rw [e] at h; exact h rfl)]
    cases hr : typeRef .rpcOpenRet .rpcRetIdent .rpcRet n c4 with
    | error e => rfl
    | ok r2 =>
      simp only [hr] at h ⊢
      exact methodTail_mono unq n m _ _ hm h

theorem methodsLoop_mono (unq : Str → Option Str) (f g : Nat) (hfg : f ≤ g) (n : Nat) :
    ∀ (m : Nat) (c : Cur) (ms : List Method),
    n ≤ m → methodsLoop unq f n c ms ≠ .error .fuel → methodsLoop unq g m c ms = methodsLoop unq f n c ms := by
  induction n with
  | zero => intro m c ms _ h; exact absurd rfl h
  | succ n ih =>
    intro m c ms hm h
    obtain ⟨m, rfl⟩ : ∃ k, m = k + 1 := ⟨m - 1, by omega⟩
    have hm : n ≤ m := by omega
    rw [methodsLoop] at h ⊢
    rw [methodsLoop]
    have hne : parseMethod unq f c ≠ .error .fuel := by
      intro e; rw [e] at h; exact h rfl
    rw [parseMethod_mono unq f g c hfg hne]
    split at h
    · rfl
    · rfl
    · exact ih m _ _ hm h
    · exact ih m _ _ hm h

theorem parseServiceN_mono (unq : Str → Option Str) (f g : Nat) (hfg : f ≤ g) (c : Cur)
    (h : parseServiceN unq f c ≠ .error .fuel) : parseServiceN unq g c = parseServiceN unq f c := by
  unfold parseServiceN at h ⊢
  generalize c.getWS = x at h ⊢
  obtain ⟨tk, val, c1⟩ := x
  simp only at h ⊢
  split at h; · rename_i k; rw [if_pos k]; try rw [if_pos k]
  rename_i k0; rw [if_neg k0]; try rw [if_neg k0]
  split at h; · rename_i k; rw [if_pos k]; try rw [if_pos k]
  rename_i k0; rw [if_neg k0]; try rw [if_neg k0]
  generalize c1.getWS = x at h ⊢
  obtain ⟨tk2, name, c2⟩ := x
  simp only at h ⊢
  split at h; · rename_i k; rw [if_pos k]; try rw [if_pos k]
  rename_i k0; rw [if_neg k0]; try rw [if_neg k0]
  generalize c2.getWS = x at h ⊢
  obtain ⟨tk3, val3, c3⟩ := x
  simp only at h ⊢
  split at h; · rename_i k; rw [if_pos k]; try rw [if_pos k]
  rename_i k0; rw [if_neg k0]; try rw [if_neg k0]
  simp only [bind, Except.bind] at h ⊢
  rw [methodsLoop_mono unq f g hfg f g c3 [] hfg]
  intro e
  rw [e] at h
  exact h rfl

end Baron.Parser
