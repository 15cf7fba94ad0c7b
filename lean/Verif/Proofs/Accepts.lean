import Verif.Spec.Accepts
import Verif.Proofs.Grammar

namespace Baron.Parser.Accepts

open Baron.Lexer
open Baron.Parser.Grammar (Toks comments)

theorem lastOr_cons (d c : Str) (cs : List Str) : lastOr d (c :: cs) = lastOr c cs := by
  unfold lastOr
  cases cs with
  | nil => rfl
  | cons x xs => rw [List.getLast?_cons_cons]; rw [List.getLast?_eq_some_getLast (by simp)]; rfl

theorem adesc_sound (l : Toks) : ∀ (d d' : Str) (t : Tok) (v : Str) (r : Toks), adesc d l = (d', t, v, r) →
    (∃ cs, l = comments cs ++ (t, v) :: r ∧ d' = lastOr d cs ∧ t ≠ .comment) ∨ t = .eof := by
  induction l with
  | nil => intro d d' t v r h; simp only [adesc, Prod.mk.injEq] at h; exact .inr h.2.1.symm
  | cons x l ih =>
    obtain ⟨t0, v0⟩ := x
    intro d d' t v r h
    rw [adesc] at h
    split at h
    · rename_i hc
      subst hc
      rcases ih _ _ _ _ _ h with ⟨cs, e, e2, h3⟩ | h
      · left
        exact ⟨v0 :: cs, by rw [e]; rfl, by rw [lastOr_cons]; exact e2, h3⟩
      · exact .inr h
    · rename_i hc
      simp only [Prod.mk.injEq] at h
      obtain ⟨rfl, rfl, rfl, rfl⟩ := h
      exact .inl ⟨[], rfl, rfl, hc⟩

theorem adesc_complete (cs : List Str) : ∀ (d : Str) (t : Tok) (v : Str) (l : Toks), t ≠ .comment →
    adesc d (comments cs ++ (t, v) :: l) = (lastOr d cs, t, v, l) := by
  induction cs with
  | nil => intro d t v l h; show adesc d ((t, v) :: l) = _; rw [adesc, if_neg h]; rfl
  | cons c cs ih =>
    intro d t v l h
    show adesc d ((.comment, c) :: (comments cs ++ (t, v) :: l)) = _
    rw [adesc, if_pos rfl, ih c t v l h, lastOr_cons]

theorem agetC_sound (l : Toks) (t : Tok) (v : Str) (r : Toks) (h : agetC l = (t, v, r)) :
    (∃ cs, l = comments cs ++ (t, v) :: r ∧ t ≠ .comment) ∨ t = .eof := by
  induction l with
  | nil => simp only [agetC, Prod.mk.injEq] at h; exact .inr h.1.symm
  | cons x l ih =>
    obtain ⟨t0, v0⟩ := x
    rw [agetC] at h
    split at h
    · rename_i hc
      subst hc
      rcases ih h with ⟨cs, e, h3⟩ | h
      · exact .inl ⟨v0 :: cs, by rw [e]; rfl, h3⟩
      · exact .inr h
    · rename_i hc
      simp only [Prod.mk.injEq] at h
      obtain ⟨rfl, rfl, rfl⟩ := h
      exact .inl ⟨[], rfl, hc⟩

theorem agetC_complete (cs : List Str) (t : Tok) (v : Str) (l : Toks) (h : t ≠ .comment) :
    agetC (comments cs ++ (t, v) :: l) = (t, v, l) := by
  rw [agetC_comments, agetC, if_neg h]

theorem aff_iff (d : Str) (l r : Toks) : aff d l = .ok r ↔ SkipTo d l r := by
  constructor
  · intro h
    induction l with
    | nil => rw [aff] at h; cases h
    | cons x l ih =>
      obtain ⟨t, v⟩ := x
      rw [aff] at h
      split at h
      · cases h
      · rename_i hn
        have hreal : Real t := ⟨fun e => hn (.inl e), fun e => hn (.inr e)⟩
        split at h
        · rename_i hv
          cases h
          exact ⟨[], t, by rw [hv]; rfl, hreal, by simp⟩
        · rename_i hv
          obtain ⟨s, t', e, h1, h2⟩ := ih h
          refine ⟨(t, v) :: s, t', by rw [e]; rfl, h1, ?_⟩
          intro x hx
          rcases List.mem_cons.mp hx with rfl | hx
          · exact ⟨hreal, hv⟩
          · exact h2 x hx
  · rintro ⟨s, t, rfl, h1, h2⟩
    induction s with
    | nil =>
      show aff d ((t, d) :: r) = _
      rw [aff, if_neg (by rintro (e | e); exact h1.1 e; exact h1.2 e), if_pos rfl]
    | cons x s ih =>
      obtain ⟨t', v'⟩ := x
      have hx := h2 (t', v') (by simp)
      show aff d ((t', v') :: (s ++ (t, d) :: r)) = _
      rw [aff, if_neg (by rintro (e | e); exact hx.1.1 e; exact hx.1.2 e), if_neg hx.2]
      exact ih (fun x h => h2 x (List.mem_cons_of_mem _ h))

theorem real_of {t : Tok} (h : ¬ (t = .eof ∨ t = .illegal)) : Real t := ⟨fun e => h (.inl e), fun e => h (.inr e)⟩
theorem not_of {t : Tok} (h : Real t) : ¬ (t = .eof ∨ t = .illegal) := fun e => e.elim h.1 h.2

theorem aget_sound {l : Toks} {t : Tok} {v : Str} {r : Toks} (h : aget l = (t, v, r)) (ht : t ≠ .eof) : l = (t, v) :: r := by
  cases l with
  | nil => simp only [aget, Prod.mk.injEq] at h; exact absurd h.1.symm ht
  | cons x l =>
    obtain ⟨a, b⟩ := x
    simp only [aget, Prod.mk.injEq] at h
    obtain ⟨rfl, rfl, rfl⟩ := h
    rfl

theorem aFields_sound (unq : Str → Option Str) (n : Nat) : ∀ (l : Toks) (d : Str) (fs0 cs0 fs cs : List Field) (r : Toks),
    aFields unq n l d fs0 cs0 = .ok (fs, cs, r) →
    ∃ fs' cu, Fields unq l d fs' cu r ∧ fs = fs0 ++ fs' ∧ cs = cu.getD cs0 := by
  induction n with
  | zero => intro l d fs0 cs0 fs cs r h; rw [aFields] at h; cases h
  | succ n ih =>
    intro l d fs0 cs0 fs cs r h
    rw [aFields] at h
    generalize hd : adesc d l = z at h
    obtain ⟨d', tk, val, l1⟩ := z
    simp only at h
    split at h
    · cases h
    rename_i hreal
    obtain ⟨cm, rfl, rfl, hcm⟩ := (adesc_sound l d d' tk val l1 hd).resolve_right fun he => hreal (.inl he)
    have hw : Word tk := ⟨real_of hreal, hcm⟩
    split at h
    · rename_i hc
      obtain ⟨rfl, rfl⟩ := hc
      cases h
      exact ⟨[], none, .close, by simp, rfl⟩
    rename_i hnc
    split at h
    · rename_i hv
      subst hv
      cases h
      exact ⟨[], none, .more hw, by simp, rfl⟩
    rename_i hna
    split at h
    · rename_i hv
      subst hv
      split at h
      · cases h
      rename_i l2 h2
      split at h
      · cases h
      rename_i cf cx l3 h3
      split at h
      · cases h
      rename_i l4 h4
      obtain ⟨cf', cu', F, e1, -⟩ := ih _ _ _ _ _ _ _ h3
      obtain ⟨fs', cu, G, e2, e3⟩ := ih _ _ _ _ _ _ _ h
      rw [List.nil_append] at e1
      subst e1
      refine ⟨fs', some (cu.getD cf), .custom hw ((aff_iff _ _ _).mp h2) F ((aff_iff _ _ _).mp h4) G, e2, e3⟩
    rename_i hnk
    generalize h2 : aget l1 = z2 at h
    obtain ⟨tk2, val2, l2⟩ := z2
    simp only at h
    split at h
    · cases h
    rename_i hs
    have hs2 : tk2 = .symbol ∧ val2 = ":".toList :=
      ⟨Decidable.byContradiction fun e => hs (.inl e), Decidable.byContradiction fun e => hs (.inr e)⟩
    obtain ⟨rfl, rfl⟩ := hs2
    generalize h3 : aget l2 = z3 at h
    obtain ⟨tk3, val3, l3⟩ := z3
    simp only at h
    split at h
    · cases h
    rename_i hlit
    have hlit := Decidable.not_not.mp hlit
    subst hlit
    split at h
    · cases h
    rename_i v hv
    obtain ⟨fs', cu, G, e2, e3⟩ := ih _ _ _ _ _ _ _ h
    rw [aget_sound h2 (by decide), aget_sound h3 (by decide)]
    exact ⟨_, cu, .field hw hnc hna hnk hv G, by rw [e2, List.append_assoc]; rfl, e3⟩

theorem aFields_complete (unq : Str → Option Str) {l d fs' cu r} (h : Fields unq l d fs' cu r) :
    ∃ N, ∀ n, N ≤ n → ∀ fs0 cs0, aFields unq n l d fs0 cs0 = .ok (fs0 ++ fs', cu.getD cs0, r) := by
  induction h with
  | @close cs d l =>
    refine ⟨1, fun n hn fs0 cs0 => ?_⟩
    obtain ⟨m, rfl⟩ : ∃ m, n = m + 1 := ⟨n - 1, by omega⟩
    rw [aFields, adesc_complete _ _ _ _ _ (by decide)]
    simp only
    rw [if_neg (by decide), if_pos (by decide), List.append_nil]; rfl
  | @more cs d t l hw =>
    refine ⟨1, fun n hn fs0 cs0 => ?_⟩
    obtain ⟨m, rfl⟩ : ∃ m, n = m + 1 := ⟨n - 1, by omega⟩
    rw [aFields, adesc_complete _ _ _ _ _ hw.2]
    simp only
    rw [if_neg (not_of hw.1), if_neg (fun e => absurd e.2 (by decide)), if_pos trivial, List.append_nil]; rfl
  | @custom cs d t l l2 l3 l4 r cf cu' fs cu hw h1 _ h2 _ ih1 ih2 =>
    obtain ⟨N1, ih1⟩ := ih1
    obtain ⟨N2, ih2⟩ := ih2
    refine ⟨N1 + N2 + 1, fun n hn fs0 cs0 => ?_⟩
    obtain ⟨m, rfl⟩ : ∃ m, n = m + 1 := ⟨n - 1, by omega⟩
    rw [aFields, adesc_complete _ _ _ _ _ hw.2]
    simp only
    rw [if_neg (not_of hw.1), if_neg (fun e => absurd e.2 (by decide)), if_neg (by decide), if_pos trivial,
      (aff_iff _ _ _).mpr h1]
    simp only
    rw [ih1 m (by omega)]
    simp only
    rw [(aff_iff _ _ _).mpr h2]
    simp only
    rw [ih2 m (by omega), List.nil_append]
    rfl
  | @field cs d t k lit v l fs cu r hw hnc hna hnk hv _ ih =>
    obtain ⟨N, ih⟩ := ih
    refine ⟨N + 1, fun n hn fs0 cs0 => ?_⟩
    obtain ⟨m, rfl⟩ : ∃ m, n = m + 1 := ⟨n - 1, by omega⟩
    rw [aFields, adesc_complete _ _ _ _ _ hw.2]
    simp only
    rw [if_neg (not_of hw.1), if_neg hnc, if_neg hna, if_neg hnk,
      show aget ((.symbol, ":".toList) :: (.stringLit, lit) :: l) = (.symbol, ":".toList, (.stringLit, lit) :: l) from rfl]
    simp only
    rw [if_neg (by decide), show aget ((.stringLit, lit) :: l) = (.stringLit, lit, l) from rfl]
    simp only
    rw [if_neg (by decide), hv]
    simp only
    rw [ih m (by omega), List.append_assoc]
    rfl

/-! ### Bindings -/

theorem word_ne {t : Tok} (h : Word t) : ¬ (t = .eof ∨ t = .illegal) := not_of h.1

theorem aHttp_sound (unq : Str → Option Str) (n : Nat) :
    (∀ (l : Toks) (bs : Option (List HTTPBinding)) (r : Toks), aHttp unq n l = .ok (bs, r) → Body unq l bs r) ∧
    (∀ (l : Toks) (rv : List HTTPBinding) (opt : HTTPBinding) (bs : Option (List HTTPBinding)) (r : Toks),
      aOption unq n l rv opt = .ok (bs, r) → ∃ more, Adds unq l more r ∧ bs = some (rv ++ more ++ [opt])) := by
  induction n with
  | zero =>
    refine ⟨fun l bs r h => ?_, fun l rv opt bs r h => ?_⟩
    · rw [aHttp] at h; cases h
    · rw [aOption] at h; cases h
  | succ n ih =>
    refine ⟨?_, ?_⟩
    · intro l bs r h
      rw [aHttp] at h
      generalize hd : adesc [] l = z at h
      obtain ⟨d', tk, val, l1⟩ := z
      simp only at h
      split at h
      · cases h
      rename_i hreal
      obtain ⟨cm, rfl, rfl, hcm⟩ := (adesc_sound l _ d' tk val l1 hd).resolve_right fun he => hreal (.inl he)
      have hw : Word tk := ⟨real_of hreal, hcm⟩
      split at h
      · rename_i hv
        subst hv
        split at h
        · cases h
        rename_i l2 h2
        split at h
        · cases h
        rename_i fs cs l3 h3
        obtain ⟨fs', cu, F, e1, e2⟩ := aFields_sound unq n _ _ _ _ _ _ _ h3
        obtain ⟨more, A, e3⟩ := ih.2 _ _ _ _ _ h
        subst e3; subst e1; subst e2
        exact .option hw ((aff_iff _ _ _).mp h2) F A
      split at h
      · rename_i hv
        subst hv
        split at h
        · cases h
        rename_i l2 h2
        split at h
        · cases h
        rename_i fs cs l3 h3
        split at h
        · cases h
        rename_i l4 h4
        obtain ⟨fs', cu, F, e1, e2⟩ := aFields_sound unq n _ _ _ _ _ _ _ h3
        cases h
        subst e1; subst e2
        exact .additional hw ((aff_iff _ _ _).mp h2) F ((aff_iff _ _ _).mp h4)
      split at h
      · rename_i hv
        subst hv
        cases h
        exact .empty hw
      · cases h
    · intro l rv opt bs r h
      rw [aOption] at h
      generalize hd : aget l = z at h
      obtain ⟨tk, val, l1⟩ := z
      simp only at h
      split at h
      · rename_i hc
        subst hc
        cases h
        rw [aget_sound hd (by decide)]
        exact ⟨[], .close (cs := []), by rw [List.append_nil]⟩
      rename_i hnc
      split at h
      · rename_i hc
        subst hc
        obtain ⟨more, A, e⟩ := ih.2 _ _ _ _ _ h
        rw [aget_sound hd (by decide)]
        refine ⟨more, ?_, e⟩
        cases A with
        | @close cs v l => exact .close (cs := val :: cs)
        | @add cs t l l2 l3 l4 fs cu bs r a1 a2 a3 a4 a5 a6 => exact .add (cs := val :: cs) a1 a2 a3 a4 a5 a6
      rename_i hncm
      split at h
      · rename_i hv
        split at h
        · cases h
        rename_i more l2 h2
        have B := ih.1 _ _ _ h2
        obtain ⟨m2, A, e⟩ := ih.2 _ _ _ _ _ h
        have htk : tk ≠ .eof := by
          intro e
          have hl : l = [] ∨ l = (tk, val) :: l1 := by
            cases l with
            | nil => exact .inl rfl
            | cons x l =>
              right
              obtain ⟨a, b⟩ := x
              simp only [aget, Prod.mk.injEq] at hd
              obtain ⟨rfl, rfl, rfl⟩ := hd
              rfl
          rcases hl with rfl | rfl
          · simp only [aget, Prod.mk.injEq] at hd
            rw [← hd.2.1] at hv
            exact absurd hv (by decide)
          · subst e
            cases n with
            | zero => rw [aHttp] at h2; cases h2
            | succ n =>
              rw [aHttp, adesc, if_neg (by decide)] at h2
              simp only [true_or, if_true] at h2
              cases h2
        have hl := aget_sound hd htk
        rw [hl, hv] at B ⊢
        generalize hz : (tk, "additional_bindings".toList) :: l1 = z at B
        have hcs : ∀ (cs : List Str) (t : Tok) (v : Str) (q : Toks), (tk, "additional_bindings".toList) :: l1 =
            comments cs ++ (t, v) :: q → cs = [] ∧ t = tk ∧ v = "additional_bindings".toList ∧ q = l1 := by
          intro cs t v q e
          cases cs with
          | nil =>
            change _ = (t, v) :: q at e
            simp only [List.cons.injEq, Prod.mk.injEq] at e
            exact ⟨rfl, e.1.1.symm, e.1.2.symm, e.2.symm⟩
          | cons c cs =>
            exfalso
            change _ = (.comment, c) :: (comments cs ++ (t, v) :: q) at e
            simp only [List.cons.injEq, Prod.mk.injEq] at e
            exact hncm e.1.1
        cases B with
        | empty hw => exact absurd (hcs _ _ _ _ hz).2.2.1 (by decide)
        | option hw a b c => exact absurd (hcs _ _ _ _ hz).2.2.1 (by decide)
        | @additional cs t l l2 l3 r fs cu hw a b c =>
          obtain ⟨rfl, rfl, -, rfl⟩ := hcs _ _ _ _ hz
          refine ⟨_, .add (cs := []) hw hnc a b c A, ?_⟩
          rw [e]
          simp only [Option.getD, List.append_assoc, List.cons_append, List.nil_append]
          rfl
      · split at h <;> cases h

theorem aOption_complete (unq : Str → Option Str) {l more r} (h : Adds unq l more r) :
    ∃ N, ∀ n, N ≤ n → ∀ rv opt, aOption unq n l rv opt = .ok (some (rv ++ more ++ [opt]), r) := by
  have hcm : ∀ (cs : List Str) (l : Toks) (N : Nat) (f : List HTTPBinding → HTTPBinding → Except PErr (Option (List HTTPBinding) × Sig)),
      (∀ n, N ≤ n → ∀ rv opt, aOption unq n l rv opt = f rv opt) →
      ∀ n, N + cs.length ≤ n → ∀ rv opt, aOption unq n (comments cs ++ l) rv opt = f rv opt := by
    intro cs
    induction cs with
    | nil => intro l N f h n hn rv opt; exact h n hn rv opt
    | cons c cs ih =>
      intro l N f h n hn rv opt
      rw [List.length_cons] at hn
      obtain ⟨m, rfl⟩ : ∃ m, n = m + 1 := ⟨n - 1, by omega⟩
      show aOption unq (m + 1) ((.comment, c) :: (comments cs ++ l)) rv opt = _
      rw [aOption, aget]
      simp only
      rw [if_neg (by decide), if_pos trivial]
      exact ih l N f h m (by omega) rv opt
  induction h with
  | @close cs v l =>
    refine ⟨1 + cs.length, hcm cs _ 1 _ fun n hn rv opt => ?_⟩
    obtain ⟨m, rfl⟩ : ∃ m, n = m + 1 := ⟨n - 1, by omega⟩
    rw [aOption, aget]
    simp only
    rw [if_pos trivial, List.append_nil]
  | @add cs t l l2 l3 l4 fs cu bs r hw hnc a F b _ ih =>
    obtain ⟨N1, F⟩ := aFields_complete unq F
    obtain ⟨N2, ih⟩ := ih
    refine ⟨N1 + N2 + 2 + cs.length, hcm cs _ (N1 + N2 + 2) _ fun n hn rv opt => ?_⟩
    obtain ⟨m, rfl⟩ : ∃ m, n = m + 1 + 1 := ⟨n - 2, by omega⟩
    rw [aOption, aget]
    simp only
    rw [if_neg hnc, if_neg hw.2, if_pos trivial, aHttp, adesc, if_neg hw.2]
    simp only
    rw [if_neg (word_ne hw), if_neg (by decide), if_pos trivial, (aff_iff _ _ _).mpr a]
    simp only
    rw [F m (by omega)]
    simp only
    rw [(aff_iff _ _ _).mpr b]
    simp only [Option.getD, List.nil_append]
    rw [ih (m + 1) (by omega)]
    simp only [List.append_assoc, List.cons_append, List.nil_append]

theorem aHttp_complete (unq : Str → Option Str) {l bs r} (h : Body unq l bs r) :
    ∃ N, ∀ n, N ≤ n → aHttp unq n l = .ok (bs, r) := by
  cases h with
  | @empty cs t l hw =>
    refine ⟨1, fun n hn => ?_⟩
    obtain ⟨m, rfl⟩ : ∃ m, n = m + 1 := ⟨n - 1, by omega⟩
    rw [aHttp, adesc_complete _ _ _ _ _ hw.2]
    simp only
    rw [if_neg (word_ne hw), if_neg (by decide), if_neg (by decide), if_pos trivial]
  | @option cs t l l2 l3 fs cu bs r hw a F A =>
    obtain ⟨N1, F⟩ := aFields_complete unq F
    obtain ⟨N2, A⟩ := aOption_complete unq A
    refine ⟨N1 + N2 + 1, fun n hn => ?_⟩
    obtain ⟨m, rfl⟩ : ∃ m, n = m + 1 := ⟨n - 1, by omega⟩
    rw [aHttp, adesc_complete _ _ _ _ _ hw.2]
    simp only
    rw [if_neg (word_ne hw), if_pos trivial, (aff_iff _ _ _).mpr a]
    simp only
    rw [F m (by omega)]
    simp only
    rw [A m (by omega)]
    rfl
  | @additional cs t l l2 l3 r fs cu hw a F b =>
    obtain ⟨N1, F⟩ := aFields_complete unq F
    refine ⟨N1 + 1, fun n hn => ?_⟩
    obtain ⟨m, rfl⟩ : ∃ m, n = m + 1 := ⟨n - 1, by omega⟩
    rw [aHttp, adesc_complete _ _ _ _ _ hw.2]
    simp only
    rw [if_neg (word_ne hw), if_neg (by decide), if_pos trivial, (aff_iff _ _ _).mpr a]
    simp only
    rw [F m (by omega)]
    simp only
    rw [(aff_iff _ _ _).mpr b]
    rfl

/-! ### Types, rpcs, services -/

theorem aTypeLoop_sound (site : Site) (n : Nat) : ∀ (tk : Tok) (val : Str) (l : Toks) (acc name : Str) (r : Toks),
    aTypeLoop site n tk val l acc = .ok (name, r) →
    (tk = .closeParen ∧ name = acc ∧ r = l) ∨
    ((tk = .ident ∨ tk = .symbol) ∧ ∃ ws c, l = ws ++ (.closeParen, c) :: r ∧ (∀ w ∈ ws, w.1 = .ident ∨ w.1 = .symbol) ∧
      name = lastOr (if tk = .ident then val else acc) ((ws.filter fun w => w.1 = .ident).map (·.2))) := by
  induction n with
  | zero => intro tk val l acc name r h; rw [aTypeLoop] at h; cases h
  | succ n ih =>
    intro tk val l acc name r h
    have step : ∀ acc', aTypeLoop site n (aget l).1 (aget l).2.1 (aget l).2.2 acc' = .ok (name, r) →
        ∃ ws c, l = ws ++ (.closeParen, c) :: r ∧ (∀ w ∈ ws, w.1 = .ident ∨ w.1 = .symbol) ∧
          name = lastOr acc' ((ws.filter fun w => w.1 = .ident).map (·.2)) := by
      intro acc' h'
      cases l with
      | nil =>
        rcases ih _ _ _ _ _ _ h' with ⟨e, -⟩ | ⟨e, -⟩
        · cases e
        · rcases e with e | e <;> cases e
      | cons x l =>
        obtain ⟨t, v⟩ := x
        rcases ih _ _ _ _ _ _ h' with ⟨e, e2, e3⟩ | ⟨e, ws, c, e2, e3, e4⟩
        · change t = .closeParen at e
          subst e
          exact ⟨[], v, by rw [e3]; rfl, by simp, e2⟩
        · change t = .ident ∨ t = .symbol at e
          change l = _ at e2
          refine ⟨(t, v) :: ws, c, by rw [e2]; rfl, ?_, ?_⟩
          · intro w hw
            rcases List.mem_cons.mp hw with rfl | hw
            · exact e
            · exact e3 w hw
          · rw [e4]
            show lastOr (if t = .ident then v else acc') _ = _
            by_cases ht : t = .ident
            · rw [if_pos ht, List.filter_cons_of_pos (by simpa using ht), List.map_cons, lastOr_cons]
            · rw [if_neg ht, List.filter_cons_of_neg (by simpa using ht)]
    rw [aTypeLoop] at h
    split at h
    · rename_i hc
      cases h
      exact .inl ⟨hc, rfl, rfl⟩
    split at h
    · rename_i hs
      subst hs
      right
      obtain ⟨ws, c, h1, h2, h3⟩ := step acc h
      exact ⟨.inr rfl, ws, c, h1, h2, by rw [if_neg (by decide)]; exact h3⟩
    split at h
    · rename_i hs
      subst hs
      right
      obtain ⟨ws, c, h1, h2, h3⟩ := step val h
      exact ⟨.inl rfl, ws, c, h1, h2, by rw [if_pos rfl]; exact h3⟩
    · cases h

theorem aType_sound (s1 s2 s3 : Site) (n : Nat) (l : Toks) (name : Str) (r : Toks)
    (h : aType s1 s2 s3 n l = .ok (name, r)) : TypeRef l name r := by
  unfold aType at h
  generalize hd : aget l = z at h
  obtain ⟨tk, val, l1⟩ := z
  simp only at h
  split at h
  · cases h
  rename_i ho
  have ho := Decidable.not_not.mp ho
  subst ho
  have e0 := aget_sound hd (by decide)
  generalize hd2 : aget l1 = z2 at h
  obtain ⟨tk2, val2, l2⟩ := z2
  simp only at h
  have fin : ∀ (tk3 : Tok) (val3 : Str) (l3 : Toks) (st : Toks), l1 = st ++ (tk3, val3) :: l3 →
      ((st = [] ∧ val3 ≠ "stream".toList) ∨ ∃ t, st = [(t, "stream".toList)]) → tk3 = .ident →
      aTypeLoop s3 n tk3 val3 l3 [] = .ok (name, r) → TypeRef l name r := by
    intro tk3 val3 l3 st e hst ht hl
    subst ht
    rcases aTypeLoop_sound _ _ _ _ _ _ _ _ hl with ⟨e', -⟩ | ⟨-, ws, c, e1, e2, e3⟩
    · cases e'
    · exact ⟨val, st, val3, ws, c, by rw [e0, e, e1], hst, e2, by rw [e3, if_pos rfl]⟩
  by_cases hs : val2 = "stream".toList
  · rw [if_pos hs] at h
    generalize hd3 : aget l2 = z3 at h
    obtain ⟨tk3, val3, l3⟩ := z3
    simp only at h
    split at h
    · cases h
    rename_i hi
    have hi := Decidable.not_not.mp hi
    have e2 := aget_sound hd3 (by rw [hi]; decide)
    have e1 : l1 = (tk2, val2) :: l2 := by
      cases l1 with
      | nil => simp only [aget, Prod.mk.injEq] at hd2; rw [← hd2.2.1] at hs; exact absurd hs (by decide)
      | cons x l =>
        obtain ⟨a, b⟩ := x
        simp only [aget, Prod.mk.injEq] at hd2
        obtain ⟨rfl, rfl, rfl⟩ := hd2
        rfl
    exact fin tk3 val3 l3 [(tk2, val2)] (by rw [e1, e2]; rfl) (.inr ⟨tk2, by rw [hs]⟩) hi h
  · rw [if_neg hs] at h
    simp only at h
    split at h
    · cases h
    rename_i hi
    have hi := Decidable.not_not.mp hi
    exact fin tk2 val2 l2 [] (by rw [aget_sound hd2 (by rw [hi]; decide)]; rfl) (.inl ⟨rfl, hs⟩) hi h

theorem aTypeLoop_complete (site : Site) (c : Str) (r : Toks) : ∀ (ws : Toks) (_ : ∀ w ∈ ws, w.1 = .ident ∨ w.1 = .symbol)
    (tk : Tok) (_ : tk = .ident ∨ tk = .symbol) (val acc : Str) (n : Nat), ws.length + 2 ≤ n →
    aTypeLoop site n tk val (ws ++ (.closeParen, c) :: r) acc =
      .ok (lastOr (if tk = .ident then val else acc) ((ws.filter fun w => w.1 = .ident).map (·.2)), r) := by
  intro ws
  induction ws with
  | nil =>
    intro _ tk htk val acc n hn
    obtain ⟨m, rfl⟩ : ∃ m, n = m + 1 + 1 := ⟨n - 2, by simp at hn; omega⟩
    rw [aTypeLoop]
    rcases htk with rfl | rfl
    · rw [if_neg (by decide), if_neg (by decide), if_pos rfl, if_pos rfl]
      show aTypeLoop site (m + 1) .closeParen c r val = _
      rw [aTypeLoop, if_pos rfl]; rfl
    · rw [if_neg (by decide), if_pos rfl, if_neg (by decide)]
      show aTypeLoop site (m + 1) .closeParen c r acc = _
      rw [aTypeLoop, if_pos rfl]; rfl
  | cons w ws ih =>
    intro hw tk htk val acc n hn
    rw [List.length_cons] at hn
    obtain ⟨m, rfl⟩ : ∃ m, n = m + 1 := ⟨n - 1, by omega⟩
    obtain ⟨t, v⟩ := w
    have ht : t = .ident ∨ t = .symbol := hw (t, v) (by simp)
    have key := fun acc' => ih (fun w h => hw w (List.mem_cons_of_mem _ h)) t ht v acc' m (by omega)
    have fin : ∀ acc', lastOr (if t = .ident then v else acc') ((ws.filter fun w => w.1 = .ident).map (·.2)) =
        lastOr acc' ((((t, v) :: ws).filter fun w => w.1 = .ident).map (·.2)) := by
      intro acc'
      by_cases hti : t = .ident
      · rw [if_pos hti, List.filter_cons_of_pos (by simpa using hti), List.map_cons, lastOr_cons]
      · rw [if_neg hti, List.filter_cons_of_neg (by simpa using hti)]
    rw [aTypeLoop]
    rcases htk with rfl | rfl
    · rw [if_neg (by decide), if_neg (by decide), if_pos rfl, if_pos rfl]
      show aTypeLoop site m t v (ws ++ (.closeParen, c) :: r) val = _
      rw [key, fin]
    · rw [if_neg (by decide), if_pos rfl, if_neg (by decide)]
      show aTypeLoop site m t v (ws ++ (.closeParen, c) :: r) acc = _
      rw [key, fin]

theorem aType_complete (s1 s2 s3 : Site) {l : Toks} {name : Str} {r : Toks} (h : TypeRef l name r) :
    ∃ N, ∀ n, N ≤ n → aType s1 s2 s3 n l = .ok (name, r) := by
  obtain ⟨p, st, nm, ws, c, rfl, hst, hws, rfl⟩ := h
  refine ⟨ws.length + 2, fun n hn => ?_⟩
  have key := aTypeLoop_complete s3 c r ws hws .ident (.inl rfl) nm [] n hn
  rw [if_pos rfl] at key
  unfold aType
  rw [aget]
  simp only
  rw [if_neg (by decide)]
  rcases hst with ⟨rfl, hns⟩ | ⟨t, rfl⟩
  · rw [List.nil_append, aget]
    simp only
    rw [if_neg hns]
    simp only
    rw [if_neg (by decide)]
    exact key
  · rw [List.cons_append, aget]
    simp only
    rw [if_pos trivial, List.nil_append, aget]
    simp only
    rw [if_neg (by decide)]
    exact key

theorem aTail_sound (unq : Str → Option Str) (n : Nat) (l : Toks) (m : Method) (o : Option Method) (r : Toks)
    (h : aTail unq n l m = .ok (o, r)) :
    ∃ bs, Tail unq l bs r ∧ o = bs.map fun b => { m with bindings := b } := by
  unfold aTail at h
  generalize hd : aget l = z at h
  obtain ⟨tk, val, l1⟩ := z
  simp only at h
  split at h
  · rename_i hv
    have hl : l = (tk, val) :: l1 := by
      cases l with
      | nil => simp only [aget, Prod.mk.injEq] at hd; rw [← hd.2.1] at hv; exact absurd hv (by decide)
      | cons x l =>
        obtain ⟨a, b⟩ := x
        simp only [aget, Prod.mk.injEq] at hd
        obtain ⟨rfl, rfl, rfl⟩ := hd
        rfl
    cases h
    rw [hl, hv]
    exact ⟨none, .semi, rfl⟩
  rename_i hv
  split at h
  · cases h
  rename_i ho
  have ho := Decidable.not_not.mp ho
  subst ho
  rw [aget_sound hd (by decide)]
  split at h
  · cases h
  · rename_i l2 h2
    cases h
    exact ⟨none, .empty hv ((aHttp_sound unq n).1 _ _ _ h2), rfl⟩
  · rename_i bs l2 h2
    have B := (aHttp_sound unq n).1 _ _ _ h2
    generalize hd3 : agetC l2 = z3 at h
    obtain ⟨tk3, val3, l3⟩ := z3
    simp only at h
    split at h
    · cases h
    rename_i hs
    have hs2 : tk3 = .symbol ∧ val3 = ";".toList :=
      ⟨Decidable.byContradiction fun e => hs (.inl e), Decidable.byContradiction fun e => hs (.inr e)⟩
    obtain ⟨rfl, rfl⟩ := hs2
    generalize hd4 : agetC l3 = z4 at h
    obtain ⟨tk4, val4, l4⟩ := z4
    simp only at h
    split at h
    · cases h
    rename_i hc
    have hc := Decidable.not_not.mp hc
    subst hc
    cases h
    obtain ⟨c1, e1, -⟩ := (agetC_sound _ _ _ _ hd3).resolve_right (by decide)
    obtain ⟨c2, e2, -⟩ := (agetC_sound _ _ _ _ hd4).resolve_right (by decide)
    rw [e1, e2] at B
    exact ⟨some bs, .http hv B, rfl⟩

theorem aTail_complete (unq : Str → Option Str) {l : Toks} {bs : Option (List HTTPBinding)} {r : Toks}
    (h : Tail unq l bs r) : ∃ N, ∀ n, N ≤ n → ∀ m, aTail unq n l m = .ok (bs.map fun b => { m with bindings := b }, r) := by
  cases h with
  | @semi t r => exact ⟨0, fun n _ m => by unfold aTail; rw [aget]; simp only; rw [if_pos trivial]; rfl⟩
  | @empty v l r hv B =>
    obtain ⟨N, B⟩ := aHttp_complete unq B
    refine ⟨N, fun n hn m => ?_⟩
    unfold aTail
    rw [aget]
    simp only
    rw [if_neg hv, if_neg (by decide), B n hn]
    rfl
  | @http v l bs cs1 cs2 v2 r hv B =>
    obtain ⟨N, B⟩ := aHttp_complete unq B
    refine ⟨N, fun n hn m => ?_⟩
    unfold aTail
    rw [aget]
    simp only
    rw [if_neg hv, if_neg (by decide), B n hn]
    simp only
    rw [agetC_complete _ _ _ _ (by decide)]
    simp only
    rw [if_neg (by decide), agetC_complete _ _ _ _ (by decide)]
    simp only
    rw [if_neg (by decide)]
    rfl

theorem aMethods_sound (unq : Str → Option Str) (fuel n : Nat) : ∀ (l : Toks) (ms0 ms : List Method),
    aMethods unq fuel n l ms0 = .ok ms → ∃ more, Rpcs unq l more ∧ ms = ms0 ++ more := by
  induction n with
  | zero => intro l ms0 ms h; rw [aMethods] at h; cases h
  | succ n ih =>
    intro l ms0 ms h
    rw [aMethods] at h
    -- one rpc
    have one : ∀ o r, aMethod unq fuel l = .ok (o, r) → ∀ more, Rpcs unq r more → Rpcs unq l (o.toList ++ more) := by
      intro o r hm more hr
      unfold aMethod at hm
      generalize hd : adesc [] l = z at hm
      obtain ⟨d', tk, val, l1⟩ := z
      simp only at hm
      split at hm
      · cases hm
      split at hm
      · cases hm
      rename_i hs
      have hs2 : tk = .ident ∧ val = "rpc".toList :=
        ⟨Decidable.byContradiction fun e => hs (.inl e), Decidable.byContradiction fun e => hs (.inr e)⟩
      obtain ⟨rfl, rfl⟩ := hs2
      obtain ⟨cm, rfl, rfl, -⟩ := (adesc_sound _ _ _ _ _ _ hd).resolve_right (by decide)
      generalize hd2 : aget l1 = z2 at hm
      obtain ⟨tk2, name, l2⟩ := z2
      simp only at hm
      split at hm
      · cases hm
      rename_i hi
      have hi := Decidable.not_not.mp hi
      subst hi
      rw [aget_sound hd2 (by decide)]
      split at hm
      · cases hm
      rename_i rq l3 h3
      generalize hd4 : aget l3 = z4 at hm
      obtain ⟨tk4, val4, l4⟩ := z4
      simp only at hm
      split at hm
      · cases hm
      rename_i hs
      have hs2 : tk4 = .ident ∧ val4 = "returns".toList :=
        ⟨Decidable.byContradiction fun e => hs (.inl e), Decidable.byContradiction fun e => hs (.inr e)⟩
      obtain ⟨rfl, rfl⟩ := hs2
      have T1 := aType_sound _ _ _ _ _ _ _ h3
      rw [aget_sound hd4 (by decide)] at T1
      split at hm
      · cases hm
      rename_i rs l5 h5
      have T2 := aType_sound _ _ _ _ _ _ _ h5
      obtain ⟨bs, T, e⟩ := aTail_sound unq _ _ _ _ _ hm
      have := Rpcs.rpc (cs := cm) (name := name) T1 T2 T hr
      rw [e]
      exact this
    split at h
    · rename_i hm
      cases h
      refine ⟨[], ?_, (List.append_nil _).symm⟩
      unfold aMethod at hm
      generalize hd : adesc [] l = z at hm
      obtain ⟨d', tk, val, l1⟩ := z
      simp only at hm
      split at hm
      · rename_i hc
        subst hc
        obtain ⟨cm, rfl, rfl, -⟩ := (adesc_sound _ _ _ _ _ _ hd).resolve_right (by decide)
        exact .close
      · exfalso
        -- no other path ends with this error
        have hty : ∀ s1 s2 s3 k q, aType s1 s2 s3 k q ≠ .error .svcDefEnd := by
          intro s1 s2 s3 k q
          have hloop : ∀ s k tk v q a, aTypeLoop s k tk v q a ≠ .error .svcDefEnd := by
            intro s k
            induction k with
            | zero => intro tk v q a h; rw [aTypeLoop] at h; cases h
            | succ k ih =>
              intro tk v q a h
              rw [aTypeLoop] at h
              split at h
              · cases h
              split at h
              · exact ih _ _ _ _ h
              split at h
              · exact ih _ _ _ _ h
              · cases h
          unfold aType
          generalize aget q = z
          obtain ⟨a, b, c⟩ := z
          simp only
          split
          · intro h; cases h
          generalize aget c = z
          obtain ⟨a, b, c⟩ := z
          simp only
          generalize (if b = "stream".toList then aget c else (a, b, c)) = z
          obtain ⟨a, b, c⟩ := z
          simp only
          split
          · intro h; cases h
          · exact hloop _ _ _ _ _ _
        have hff : ∀ d q, aff d q ≠ .error .svcDefEnd := by
          intro d q
          induction q with
          | nil => rw [aff]; intro h; cases h
          | cons x q ih =>
            obtain ⟨t, v⟩ := x
            rw [aff]
            split
            · intro h; cases h
            split
            · intro h; cases h
            · exact ih
        have hfl : ∀ k q d f c, aFields unq k q d f c ≠ .error .svcDefEnd := by
          intro k
          induction k with
          | zero => intro q d f c h; rw [aFields] at h; cases h
          | succ k ih =>
            intro q d f c h
            rw [aFields] at h
            generalize adesc d q = z at h
            obtain ⟨x1, x2, x3, x4⟩ := z
            simp only at h
            split at h
            · cases h
            split at h
            · cases h
            split at h
            · cases h
            split at h
            · split at h
              · rename_i h'; cases h; exact hff _ _ h'
              split at h
              · rename_i h'; cases h; exact ih _ _ _ _ h'
              split at h
              · rename_i h'; cases h; exact hff _ _ h'
              · exact ih _ _ _ _ h
            generalize aget x4 = z at h
            obtain ⟨y2, y3, y4⟩ := z
            simp only at h
            split at h
            · cases h
            generalize aget y4 = z at h
            obtain ⟨y2, y3, y4⟩ := z
            simp only at h
            split at h
            · cases h
            split at h
            · cases h
            · exact ih _ _ _ _ h
        have hht : ∀ k, (∀ q, aHttp unq k q ≠ .error .svcDefEnd) ∧ (∀ q rv op, aOption unq k q rv op ≠ .error .svcDefEnd) := by
          intro k
          induction k with
          | zero =>
            refine ⟨fun q h => ?_, fun q rv op h => ?_⟩
            · rw [aHttp] at h; cases h
            · rw [aOption] at h; cases h
          | succ k ih =>
            refine ⟨fun q h => ?_, fun q rv op h => ?_⟩
            · rw [aHttp] at h
              generalize adesc [] q = z at h
              obtain ⟨x1, x2, x3, x4⟩ := z
              simp only at h
              split at h
              · cases h
              split at h
              · split at h
                · rename_i h'; cases h; exact hff _ _ h'
                split at h
                · rename_i h'; cases h; exact hfl _ _ _ _ _ h'
                · exact ih.2 _ _ _ h
              split at h
              · split at h
                · rename_i h'; cases h; exact hff _ _ h'
                split at h
                · rename_i h'; cases h; exact hfl _ _ _ _ _ h'
                split at h
                · rename_i h'; cases h; exact hff _ _ h'
                · cases h
              split at h <;> cases h
            · rw [aOption] at h
              generalize aget q = z at h
              obtain ⟨x2, x3, x4⟩ := z
              simp only at h
              split at h
              · cases h
              split at h
              · exact ih.2 _ _ _ h
              split at h
              · split at h
                · rename_i h'; cases h; exact ih.1 _ h'
                · exact ih.2 _ _ _ h
              split at h <;> cases h
        split at hm
        · cases hm
        generalize aget l1 = z at hm
        obtain ⟨x2, x3, x4⟩ := z
        simp only at hm
        split at hm
        · cases hm
        split at hm
        · rename_i h'; cases hm; exact hty _ _ _ _ _ h'
        rename_i l3 _
        generalize aget l3 = z at hm
        obtain ⟨x2, x3, x4⟩ := z
        simp only at hm
        split at hm
        · cases hm
        split at hm
        · rename_i h'; cases hm; exact hty _ _ _ _ _ h'
        rename_i l5 _
        unfold aTail at hm
        generalize aget l5 = z at hm
        obtain ⟨x2, x3, x4⟩ := z
        simp only at hm
        split at hm
        · cases hm
        split at hm
        · cases hm
        split at hm
        · rename_i h'; cases hm; exact (hht _).1 _ h'
        · cases hm
        rename_i l2 _
        generalize agetC l2 = z at hm
        obtain ⟨x2, x3, x4⟩ := z
        simp only at hm
        split at hm
        · cases hm
        generalize agetC x4 = z at hm
        obtain ⟨x2, x3, x4⟩ := z
        simp only at hm
        split at hm <;> cases hm
    · cases h
    · rename_i l' hm
      obtain ⟨more, R, e⟩ := ih _ _ _ h
      exact ⟨more, one none l' hm more R, e⟩
    · rename_i m l' hm
      obtain ⟨more, R, e⟩ := ih _ _ _ h
      exact ⟨m :: more, one (some m) l' hm more R, by rw [e, List.append_assoc]; rfl⟩

theorem aMethods_complete (unq : Str → Option Str) {l : Toks} {more : List Method} (h : Rpcs unq l more) :
    ∃ N, ∀ fuel n, N ≤ fuel → N ≤ n → ∀ ms0, aMethods unq fuel n l ms0 = .ok (ms0 ++ more) := by
  induction h with
  | @close cs v r =>
    refine ⟨1, fun fuel n _ hn ms0 => ?_⟩
    obtain ⟨m, rfl⟩ : ∃ m, n = m + 1 := ⟨n - 1, by omega⟩
    rw [aMethods]
    have : aMethod unq fuel (comments cs ++ (.closeBrace, v) :: r) = .error .svcDefEnd := by
      unfold aMethod
      rw [adesc_complete _ _ _ _ _ (by decide)]
      simp only
      rw [if_pos trivial]
    rw [this, List.append_nil]
  | @rpc cs name l rq l2 rs l3 bs r ms T1 T2 T _ ih =>
    obtain ⟨N, ih⟩ := ih
    obtain ⟨N1, T1⟩ := aType_complete .rpcOpenArg .rpcArgIdent .rpcArg T1
    obtain ⟨N2, T2⟩ := aType_complete .rpcOpenRet .rpcRetIdent .rpcRet T2
    obtain ⟨N3, T⟩ := aTail_complete unq T
    refine ⟨N + N1 + N2 + N3 + 1, fun fuel n hf hn ms0 => ?_⟩
    obtain ⟨m, rfl⟩ : ∃ m, n = m + 1 := ⟨n - 1, by omega⟩
    have hm : aMethod unq fuel (comments cs ++ (.ident, "rpc".toList) :: (.ident, name) :: l) =
        .ok (bs.map fun b => ⟨name, lastOr [] cs, rq, rs, b⟩, r) := by
      unfold aMethod
      rw [adesc_complete _ _ _ _ _ (by decide)]
      simp only
      rw [if_neg (by decide), if_neg (by decide), aget]
      simp only
      rw [if_neg (by decide), T1 fuel (by omega)]
      simp only
      rw [aget]
      simp only
      rw [if_neg (by decide), T2 fuel (by omega)]
      simp only
      rw [T fuel (by omega)]
    rw [aMethods, hm]
    cases bs with
    | none => exact ih fuel m (by omega) (by omega) ms0
    | some b =>
      show aMethods unq fuel m r (ms0 ++ [_]) = _
      rw [ih fuel m (by omega) (by omega), List.append_assoc]
      rfl

theorem aService_sound_complete (unq : Str → Option Str) (l : Toks) (s : Parser.Service) :
    (∀ n, aService unq n l = .ok s → Service unq l s) ∧
    (Service unq l s → ∃ N, ∀ n, N ≤ n → aService unq n l = .ok s) := by
  constructor
  · intro n h
    unfold aService at h
    generalize hd : aget l = z at h
    obtain ⟨tk, val, l1⟩ := z
    simp only at h
    split at h
    · cases h
    rename_i he
    split at h
    · cases h
    rename_i hs
    generalize hd2 : aget l1 = z at h
    obtain ⟨tk2, name, l2⟩ := z
    simp only at h
    split at h
    · cases h
    rename_i hi
    have hi := Decidable.not_not.mp hi
    subst hi
    generalize hd3 : aget l2 = z at h
    obtain ⟨tk3, val3, l3⟩ := z
    simp only at h
    split at h
    · cases h
    rename_i ho
    have ho := Decidable.not_not.mp ho
    subst ho
    split at h
    · cases h
    rename_i ms hm
    cases h
    obtain ⟨more, R, e⟩ := aMethods_sound unq _ _ _ _ _ hm
    rw [List.nil_append] at e
    refine ⟨tk, val, name, val3, l3, ?_, he, ?_, rfl, by rw [e]; exact R⟩
    · rw [aget_sound hd he, aget_sound hd2 (by decide), aget_sound hd3 (by decide)]
    · by_cases ht : tk = .ident
      · exact .inl ht
      · right
        exact Decidable.byContradiction fun hv => hs ⟨ht, hv⟩
  · rintro ⟨t, v, name, o, l', rfl, ht, hs, hn, R⟩
    obtain ⟨N, R⟩ := aMethods_complete unq R
    refine ⟨N, fun n hn => ?_⟩
    unfold aService
    rw [aget]
    simp only
    rw [if_neg ht, if_neg (by rintro ⟨a, b⟩; exact hs.elim a b), aget]
    simp only
    rw [if_neg (by decide), aget]
    simp only
    rw [if_neg (by decide), R n n hn hn]
    cases s
    simp only at hn
    subst hn
    rfl

theorem parse_iff (unq : Str → Option Str) (ts : List TokenGroup) (s : Parser.Service) :
    parseService unq ts = .ok s ↔ Service unq (significant ts) s := by
  have habs := parseServiceN_abs unq (ts.length + 2) (Cur.new ts)
  have hr : (Cur.new ts).rest = ts := rfl
  rw [hr] at habs
  have hev : parseService unq ts = .ok s ↔ aService unq (ts.length + 2) (sig ts) = .ok s := by
    rw [← habs]
    unfold parseService
    cases parseServiceN unq (ts.length + 2) (Cur.new ts) with
    | ok x => exact Iff.rfl
    | error e => exact ⟨fun h => (by cases h), fun h => (by cases h)⟩
  rw [hev, significant_eq]
  obtain ⟨h1, h2⟩ := aService_sound_complete unq (sig ts) s
  refine ⟨h1 _, fun h => ?_⟩
  obtain ⟨N, hN⟩ := h2 h
  have hl := sig_length ts
  rw [(aService_fuel unq (ts.length + 2) (N + ts.length + 2) (sig ts) (by omega) (by omega)).1]
  exact hN _ (by omega)

/-! ### What follows does not matter -/

theorem SkipTo.local {d : Str} {l r : Toks} (h : SkipTo d l r) : ∃ p, p ≠ [] ∧ l = p ++ r ∧ ∀ r', SkipTo d (p ++ r') r' := by
  obtain ⟨s, t, rfl, h1, h2⟩ := h
  refine ⟨s ++ [(t, d)], by simp, by simp, fun r' => ⟨s, t, by simp, h1, h2⟩⟩

theorem Fields.local {unq l d fs cu r} (h : Fields unq l d fs cu r) :
    ∃ p x r0, r = x :: r0 ∧ l = p ++ x :: r0 ∧ ∀ r', Fields unq (p ++ x :: r') d fs cu (x :: r') := by
  induction h with
  | @close cs d l => exact ⟨comments cs, _, l, rfl, rfl, fun r' => .close⟩
  | @more cs d t l hw => exact ⟨comments cs, _, l, rfl, rfl, fun r' => .more hw⟩
  | @custom cs d t l l2 l3 l4 r cf cu' fs cu hw a _ b _ ih1 ih2 =>
    obtain ⟨p1, -, rfl, h1⟩ := a.local
    obtain ⟨p2, x, r0, rfl, rfl, h2⟩ := ih1
    obtain ⟨p3, hp3, e3, h3⟩ := b.local
    obtain ⟨p4, y, r1, rfl, rfl, h4⟩ := ih2
    cases p3 with
    | nil => exact absurd rfl hp3
    | cons x' p3 =>
      simp only [List.cons_append, List.cons.injEq] at e3
      obtain ⟨rfl, rfl⟩ := e3
      refine ⟨comments cs ++ (t, "custom".toList) :: (p1 ++ (p2 ++ x :: (p3 ++ p4))), y, r1, rfl, by simp, fun r' => ?_⟩
      have := Fields.custom (cs := cs) (d := d) hw (h1 (p2 ++ x :: (p3 ++ (p4 ++ y :: r')))) (h2 (p3 ++ (p4 ++ y :: r')))
        (h3 (p4 ++ y :: r')) (h4 r')
      simpa using this
  | @field cs d t k lit v l fs cu r hw a b c e _ ih =>
    obtain ⟨p, x, r0, rfl, rfl, h1⟩ := ih
    refine ⟨comments cs ++ (t, k) :: (.symbol, ":".toList) :: (.stringLit, lit) :: p, x, r0, rfl, by simp, fun r' => ?_⟩
    have := Fields.field (cs := cs) (d := d) hw a b c e (h1 r')
    simpa using this

theorem fields_skip_local {unq d l fs cu l3 e r} (F : Fields unq l d fs cu l3) (S : SkipTo e l3 r) :
    ∃ p, l = p ++ r ∧ ∀ r', ∃ l3', Fields unq (p ++ r') d fs cu l3' ∧ SkipTo e l3' r' := by
  obtain ⟨p2, x, r0, rfl, rfl, h2⟩ := F.local
  obtain ⟨p3, hp3, e3, h3⟩ := S.local
  cases p3 with
  | nil => exact absurd rfl hp3
  | cons x' p3 =>
    simp only [List.cons_append, List.cons.injEq] at e3
    obtain ⟨rfl, rfl⟩ := e3
    refine ⟨p2 ++ x :: p3, by simp, fun r' => ⟨x :: (p3 ++ r'), ?_, h3 r'⟩⟩
    have := h2 (p3 ++ r')
    simpa using this

theorem Adds.local {unq l bs r} (h : Adds unq l bs r) : ∃ p, l = p ++ r ∧ p ≠ [] ∧ ∀ r', Adds unq (p ++ r') bs r' := by
  induction h with
  | @close cs v l =>
    refine ⟨comments cs ++ [(.closeBrace, v)], by simp, by simp, fun r' => ?_⟩
    have := Adds.close (unq := unq) (cs := cs) (v := v) (l := r')
    simpa using this
  | @add cs t l l2 l3 l4 fs cu bs r hw a b F S _ ih =>
    obtain ⟨p1, -, rfl, h1⟩ := b.local
    obtain ⟨p2, rfl, h2⟩ := fields_skip_local F S
    obtain ⟨p3, rfl, -, h3⟩ := ih
    refine ⟨comments cs ++ (t, "additional_bindings".toList) :: (p1 ++ (p2 ++ p3)), by simp, by simp, fun r' => ?_⟩
    obtain ⟨l3', F', S'⟩ := h2 (p3 ++ r')
    have := Adds.add (cs := cs) hw a (h1 (p2 ++ (p3 ++ r'))) F' S' (h3 r')
    simpa using this

theorem Body.local {unq l bs r} (h : Body unq l bs r) : ∃ p, l = p ++ r ∧ ∀ r', Body unq (p ++ r') bs r' := by
  cases h with
  | @empty cs t r hw =>
    refine ⟨comments cs ++ [(t, "}".toList)], by simp, fun r' => ?_⟩
    have := Body.empty (unq := unq) (cs := cs) (l := r') hw
    simpa using this
  | @option cs t l l2 l3 fs cu bs r hw a F A =>
    obtain ⟨p1, -, rfl, h1⟩ := a.local
    obtain ⟨p2, x, r0, rfl, rfl, h2⟩ := F.local
    obtain ⟨p3, e3, hp3, h3⟩ := A.local
    cases p3 with
    | nil => exact absurd rfl hp3
    | cons x' p3 =>
      simp only [List.cons_append, List.cons.injEq] at e3
      obtain ⟨rfl, rfl⟩ := e3
      refine ⟨comments cs ++ (t, "option".toList) :: (p1 ++ (p2 ++ x :: p3)), by simp, fun r' => ?_⟩
      have := Body.option (cs := cs) hw (h1 (p2 ++ x :: (p3 ++ r'))) (h2 (p3 ++ r')) (h3 r')
      simpa using this
  | @additional cs t l l2 l3 r fs cu hw a F S =>
    obtain ⟨p1, -, rfl, h1⟩ := a.local
    obtain ⟨p2, rfl, h2⟩ := fields_skip_local F S
    refine ⟨comments cs ++ (t, "additional_bindings".toList) :: (p1 ++ p2), by simp, fun r' => ?_⟩
    obtain ⟨l3', F', S'⟩ := h2 r'
    have := Body.additional (cs := cs) hw (h1 (p2 ++ r')) F' S'
    simpa using this

theorem TypeRef.append {l name r} (h : TypeRef l name r) (more : Toks) : TypeRef (l ++ more) name (r ++ more) := by
  obtain ⟨p, st, n, ws, c, rfl, h1, h2, h3⟩ := h
  exact ⟨p, st, n, ws, c, by simp, h1, h2, h3⟩

theorem Tail.append {unq l bs r} (h : Tail unq l bs r) (more : Toks) : Tail unq (l ++ more) bs (r ++ more) := by
  cases h with
  | semi => exact .semi
  | empty hv B =>
    obtain ⟨p, rfl, h⟩ := B.local
    have := Tail.empty hv (h (r ++ more))
    simpa using this
  | @http v l bs cs1 cs2 v2 r hv B =>
    obtain ⟨p, rfl, h⟩ := B.local
    have := Tail.http hv (h (comments cs1 ++ (.symbol, ";".toList) :: (comments cs2 ++ (.closeBrace, v2) :: (r ++ more))))
    simpa using this

theorem Rpcs.append {unq l ms} (h : Rpcs unq l ms) (more : Toks) : Rpcs unq (l ++ more) ms := by
  induction h with
  | @close cs v r =>
    have := Rpcs.close (unq := unq) (cs := cs) (v := v) (r := r ++ more)
    simpa using this
  | @rpc cs name l rq l2 rs l3 bs r ms a b c _ ih =>
    have := Rpcs.rpc (cs := cs) (name := name) (a.append more) (b.append more) (c.append more) ih
    simpa using this

end Baron.Parser.Accepts
