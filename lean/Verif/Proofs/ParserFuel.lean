import Verif.Proofs.AbsParser

namespace Baron.Parser

open Baron.Lexer

theorem aget_len (l : Sig) : (aget l).2.2.length ≤ l.length ∧ ((aget l).1 ≠ .eof → (aget l).2.2.length < l.length) := by
  match l with
  | [] => simp [aget]
  | (t, v) :: r => simp [aget]

theorem agetC_len (l : Sig) : (agetC l).2.2.length ≤ l.length ∧
    ((agetC l).1 ≠ .eof → (agetC l).2.2.length < l.length) := by
  induction l with
  | nil => simp [agetC]
  | cons x r ih =>
    obtain ⟨t, v⟩ := x
    unfold agetC
    split
    · simp only [List.length_cons]
      exact ⟨by omega, fun h => by have := ih.2 h; omega⟩
    · simp

theorem adesc_len (d : Str) (l : Sig) : (adesc d l).2.2.2.length ≤ l.length ∧
    ((adesc d l).2.1 ≠ .eof → (adesc d l).2.2.2.length < l.length) := by
  induction l generalizing d with
  | nil => simp [adesc]
  | cons x r ih =>
    obtain ⟨t, v⟩ := x
    unfold adesc
    split
    · simp only [List.length_cons]
      exact ⟨by have := (ih v).1; omega, fun h => by have := (ih v).2 h; omega⟩
    · simp

theorem aff_len (d : Str) (l l' : Sig) (h : aff d l = .ok l') : l'.length < l.length := by
  induction l with
  | nil => simp [aff] at h
  | cons x r ih =>
    obtain ⟨t, v⟩ := x
    unfold aff at h
    split at h
    · simp at h
    · split at h
      · cases h; simp
      · have := ih h; simp; omega

theorem aff_ne_fuel (d : Str) (l : Sig) : aff d l ≠ .error .fuel := by
  induction l with
  | nil => simp [aff]
  | cons x r ih =>
    obtain ⟨t, v⟩ := x
    unfold aff
    repeat' split
    all_goals first | exact ih | simp

/-- Enough fuel: the result is independent of it, is not the fuel error, and does not grow the input. -/
theorem aFields_fuel (unq : Str → Option Str) (n m : Nat) (l : Sig) (d : Str) (fs cs : List Field)
    (hn : l.length < n) (hm : l.length < m) :
    aFields unq n l d fs cs = aFields unq m l d fs cs ∧ aFields unq n l d fs cs ≠ .error .fuel ∧
    ∀ a b l', aFields unq n l d fs cs = .ok (a, b, l') → l'.length ≤ l.length ∧ l' ≠ [] := by
  induction n generalizing m l d fs cs with
  | zero => omega
  | succ n ih =>
    match m, hm with
    | m + 1, hm =>
      unfold aFields
      obtain ⟨hl1, hl2⟩ := adesc_len d l
      generalize adesc d l = x at hl1 hl2 ⊢
      obtain ⟨d', tk, val, l1⟩ := x
      simp only at hl1 hl2 ⊢
      by_cases k1 : tk = .eof ∨ tk = .illegal
      · (rw [if_pos k1]; try rw [if_pos k1]); simp
      · (rw [if_neg k1]; try rw [if_neg k1])
        simp only [not_or] at k1
        have hl2 := hl2 k1.1
        by_cases k2 : tk = .closeBrace ∧ val = "}".toList
        · (rw [if_pos k2]; try rw [if_pos k2])
          refine ⟨rfl, by simp, ?_⟩
          intro a b l' h
          simp only [Except.ok.injEq, Prod.mk.injEq] at h
          rw [← h.2.2]; exact ⟨by simp; omega, by simp⟩
        · (rw [if_neg k2]; try rw [if_neg k2])
          by_cases k3 : val = "additional_bindings".toList
          · (rw [if_pos k3]; try rw [if_pos k3])
            refine ⟨rfl, by simp, ?_⟩
            intro a b l' h
            simp only [Except.ok.injEq, Prod.mk.injEq] at h
            rw [← h.2.2]; exact ⟨by simp; omega, by simp⟩
          · (rw [if_neg k3]; try rw [if_neg k3])
            by_cases k4 : val = "custom".toList
            · (rw [if_pos k4]; try rw [if_pos k4])
              cases hf : aff "{".toList l1 with
              | error e =>
                refine ⟨rfl, ?_, by simp⟩
                intro h; cases h; exact aff_ne_fuel _ _ hf
              | ok l2 =>
                have hl3 := aff_len _ _ _ hf
                simp only
                obtain ⟨e1, e2, e3⟩ := ih m l2 [] [] [] (by omega) (by omega)
                rw [← e1]
                cases hb : aFields unq n l2 [] [] [] with
                | error e =>
                  refine ⟨rfl, ?_, by simp⟩
                  intro h; cases h; exact e2 hb
                | ok y =>
                  obtain ⟨cf, cf2, l3⟩ := y
                  have hl4 := (e3 _ _ _ hb).1
                  simp only
                  cases hf2 : aff "}".toList l3 with
                  | error e =>
                    refine ⟨rfl, ?_, by simp⟩
                    intro h; cases h; exact aff_ne_fuel _ _ hf2
                  | ok l4 =>
                    have hl5 := aff_len _ _ _ hf2
                    simp only
                    obtain ⟨f1, f2, f3⟩ := ih m l4 d' fs cf (by omega) (by omega)
                    refine ⟨f1, f2, ?_⟩
                    intro a b l' h
                    have := f3 a b l' h
                    exact ⟨by omega, this.2⟩
            · (rw [if_neg k4]; try rw [if_neg k4])
              obtain ⟨g1, -⟩ := aget_len l1
              generalize aget l1 = x2 at g1 ⊢
              obtain ⟨tk2, val2, l2⟩ := x2
              simp only at g1 ⊢
              by_cases k5 : tk2 ≠ .symbol ∨ val2 ≠ ":".toList
              · (rw [if_pos k5]; try rw [if_pos k5]); simp
              · (rw [if_neg k5]; try rw [if_neg k5])
                obtain ⟨g3, -⟩ := aget_len l2
                generalize aget l2 = x3 at g3 ⊢
                obtain ⟨tk3, val3, l3⟩ := x3
                simp only at g3 ⊢
                by_cases k6 : tk3 ≠ .stringLit
                · (rw [if_pos k6]; try rw [if_pos k6]); simp
                · (rw [if_neg k6]; try rw [if_neg k6])
                  cases unq val3 with
                  | none => simp
                  | some v =>
                    simp only
                    obtain ⟨f1, f2, f3⟩ := ih m l3 [] (fs ++ [⟨d', val, v⟩]) cs (by omega) (by omega)
                    refine ⟨f1, f2, ?_⟩
                    intro a b l' h
                    have := f3 a b l' h
                    exact ⟨by omega, this.2⟩

theorem aHttp_fuel (unq : Str → Option Str) (n : Nat) :
    (∀ (m : Nat) (l : Sig), l.length ≤ n → 1 ≤ n → l.length ≤ m → 1 ≤ m →
      aHttp unq n l = aHttp unq m l ∧ aHttp unq n l ≠ .error .fuel ∧
      ∀ a l', aHttp unq n l = .ok (a, l') → l'.length < l.length) ∧
    (∀ (m : Nat) (l : Sig) (rv : List HTTPBinding) (opt : HTTPBinding), l.length < n → l.length < m →
      aOption unq n l rv opt = aOption unq m l rv opt ∧ aOption unq n l rv opt ≠ .error .fuel ∧
      ∀ a l', aOption unq n l rv opt = .ok (a, l') → l'.length < l.length) := by
  induction n with
  | zero => exact ⟨fun _ _ _ h => absurd h (by omega), fun _ _ _ _ h => absurd h (by omega)⟩
  | succ n ih =>
    obtain ⟨ihH, ihO⟩ := ih
    constructor
    · intro m l hn _ hm hm1
      match m, hm1 with
      | m + 1, _ =>
        unfold aHttp
        obtain ⟨hl1, hl2⟩ := adesc_len [] l
        generalize adesc [] l = x at hl1 hl2 ⊢
        obtain ⟨d', tk, val, l1⟩ := x
        simp only at hl1 hl2 ⊢
        by_cases k1 : tk = .eof ∨ tk = .illegal
        · (rw [if_pos k1]; try rw [if_pos k1]); simp
        · (rw [if_neg k1]; try rw [if_neg k1])
          simp only [not_or] at k1
          have hl2 := hl2 k1.1
          by_cases k2 : val = "option".toList
          · (rw [if_pos k2]; try rw [if_pos k2])
            cases hf : aff "{".toList l1 with
            | error e =>
              refine ⟨rfl, ?_, by simp⟩
              intro h; cases h; exact aff_ne_fuel _ _ hf
            | ok l2 =>
              have hl3 := aff_len _ _ _ hf
              simp only
              obtain ⟨e1, e2, e3⟩ := aFields_fuel unq n m l2 [] [] [] (by omega) (by omega)
              rw [← e1]
              cases hb : aFields unq n l2 [] [] [] with
              | error e =>
                refine ⟨rfl, ?_, by simp⟩
                intro h; cases h; exact e2 hb
              | ok y =>
                obtain ⟨cf, cf2, l3⟩ := y
                have hl4 := (e3 _ _ _ hb).1
                simp only
                obtain ⟨f1, f2, f3⟩ := ihO m l3 [] ⟨d', cf, cf2⟩ (by omega) (by omega)
                refine ⟨f1, f2, ?_⟩
                intro a l' h
                have := f3 a l' h
                omega
          · (rw [if_neg k2]; try rw [if_neg k2])
            by_cases k3 : val = "additional_bindings".toList
            · (rw [if_pos k3]; try rw [if_pos k3])
              cases hf : aff "{".toList l1 with
              | error e =>
                refine ⟨rfl, ?_, by simp⟩
                intro h; cases h; exact aff_ne_fuel _ _ hf
              | ok l2 =>
                have hl3 := aff_len _ _ _ hf
                simp only
                obtain ⟨e1, e2, e3⟩ := aFields_fuel unq n m l2 [] [] [] (by omega) (by omega)
                rw [← e1]
                cases hb : aFields unq n l2 [] [] [] with
                | error e =>
                  refine ⟨rfl, ?_, by simp⟩
                  intro h; cases h; exact e2 hb
                | ok y =>
                  obtain ⟨cf, cf2, l3⟩ := y
                  have hl4 := (e3 _ _ _ hb).1
                  simp only
                  cases hf2 : aff "}".toList l3 with
                  | error e =>
                    refine ⟨trivial, ?_, by simp⟩
                    intro h; cases h; exact aff_ne_fuel _ _ hf2
                  | ok l4 =>
                    have hl5 := aff_len _ _ _ hf2
                    refine ⟨trivial, by simp, ?_⟩
                    intro a l' h
                    simp only [Except.ok.injEq, Prod.mk.injEq] at h
                    rw [← h.2]; omega
            · (rw [if_neg k3]; try rw [if_neg k3])
              by_cases k4 : val = "}".toList
              · (rw [if_pos k4]; try rw [if_pos k4])
                refine ⟨rfl, by simp, ?_⟩
                intro a l' h
                simp only [Except.ok.injEq, Prod.mk.injEq] at h
                rw [← h.2]; exact hl2
              · (rw [if_neg k4]; try rw [if_neg k4]); simp
    · intro m l rv opt hn hm
      match m, hm with
      | m + 1, hm =>
        unfold aOption
        obtain ⟨hl1, hl2⟩ := aget_len l
        generalize hx : aget l = x at hl1 hl2 ⊢
        obtain ⟨tk, val, l1⟩ := x
        simp only at hl1 hl2 ⊢
        by_cases k1 : tk = .closeBrace
        · (rw [if_pos k1]; try rw [if_pos k1])
          refine ⟨rfl, by simp, ?_⟩
          intro a l' h
          simp only [Except.ok.injEq, Prod.mk.injEq] at h
          rw [← h.2]; exact hl2 (by rw [k1]; simp)
        · (rw [if_neg k1]; try rw [if_neg k1])
          by_cases k2 : tk = .comment
          · (rw [if_pos k2]; try rw [if_pos k2])
            have hl2 := hl2 (by rw [k2]; simp)
            obtain ⟨f1, f2, f3⟩ := ihO m l1 rv opt (by omega) (by omega)
            refine ⟨f1, f2, ?_⟩
            intro a l' h
            have := f3 a l' h
            omega
          · (rw [if_neg k2]; try rw [if_neg k2])
            by_cases k3 : val = "additional_bindings".toList
            · (rw [if_pos k3]; try rw [if_pos k3])
              have hpos : 1 ≤ l.length := by
                match l with
                | [] =>
                  simp only [aget, Prod.mk.injEq] at hx
                  rw [← hx.2.1] at k3
                  exact absurd k3 (by decide)
                | _ :: _ => simp
              obtain ⟨e1, e2, e3⟩ := ihH m l (by omega) (by omega) (by omega) (by omega)
              rw [← e1]
              cases hb : aHttp unq n l with
              | error e =>
                refine ⟨rfl, ?_, by simp⟩
                intro h; cases h; exact e2 hb
              | ok y =>
                obtain ⟨more, l2⟩ := y
                have hl3 := e3 _ _ hb
                simp only
                obtain ⟨f1, f2, f3⟩ := ihO m l2 (rv ++ more.getD []) opt (by omega) (by omega)
                refine ⟨f1, f2, ?_⟩
                intro a l' h
                have := f3 a l' h
                omega
            · (rw [if_neg k3]; try rw [if_neg k3])
              by_cases k4 : tk = .eof ∨ tk = .illegal
              · (rw [if_pos k4]; try rw [if_pos k4]); simp
              · (rw [if_neg k4]; try rw [if_neg k4]); simp

theorem aTypeLoop_fuel (site : Site) (n m : Nat) (tk : Tok) (val : Str) (l : Sig) (acc : Str)
    (hn : (tk = .eof ∧ 1 ≤ n) ∨ l.length + 2 ≤ n) (hm : (tk = .eof ∧ 1 ≤ m) ∨ l.length + 2 ≤ m) :
    aTypeLoop site n tk val l acc = aTypeLoop site m tk val l acc ∧ aTypeLoop site n tk val l acc ≠ .error .fuel ∧
    ∀ a l', aTypeLoop site n tk val l acc = .ok (a, l') → l'.length ≤ l.length := by
  induction n generalizing m tk val l acc with
  | zero => omega
  | succ n ih =>
    match m, hm with
    | 0, hm => omega
    | m + 1, hm =>
      unfold aTypeLoop
      by_cases k1 : tk = .closeParen
      · (rw [if_pos k1]; try rw [if_pos k1])
        refine ⟨rfl, by simp, ?_⟩
        intro a l' h
        simp only [Except.ok.injEq, Prod.mk.injEq] at h
        rw [← h.2]; exact Nat.le_refl _
      · (rw [if_neg k1]; try rw [if_neg k1])
        obtain ⟨hl1, hl2⟩ := aget_len l
        generalize aget l = x at hl1 hl2 ⊢
        obtain ⟨tk', val', l1⟩ := x
        simp only at hl1 hl2 ⊢
        have hstep : ∀ k, tk ≠ .eof → ((tk = .eof ∧ 1 ≤ k + 1) ∨ l.length + 2 ≤ k + 1) →
            (tk' = .eof ∧ 1 ≤ k) ∨ l1.length + 2 ≤ k := by
          intro k hne hk
          by_cases he : tk' = .eof
          · left
            refine ⟨he, ?_⟩
            rcases hk with hk | hk
            · exact absurd hk.1 hne
            · omega
          · right
            have := hl2 he
            rcases hk with hk | hk
            · exact absurd hk.1 hne
            · omega
        by_cases k2 : tk = .symbol
        · (rw [if_pos k2]; try rw [if_pos k2])
          have hne : tk ≠ .eof := by rw [k2]; simp
          obtain ⟨f1, f2, f3⟩ := ih m tk' val' l1 acc (hstep n hne hn) (hstep m hne hm)
          refine ⟨f1, f2, ?_⟩
          intro a l' h
          have := f3 a l' h
          omega
        · (rw [if_neg k2]; try rw [if_neg k2])
          by_cases k3 : tk = .ident
          · (rw [if_pos k3]; try rw [if_pos k3])
            have hne : tk ≠ .eof := by rw [k3]; simp
            obtain ⟨f1, f2, f3⟩ := ih m tk' val' l1 val (hstep n hne hn) (hstep m hne hm)
            refine ⟨f1, f2, ?_⟩
            intro a l' h
            have := f3 a l' h
            omega
          · (rw [if_neg k3]; try rw [if_neg k3]); simp

theorem aType_fuel (s1 s2 s3 : Site) (n m : Nat) (l : Sig) (hn : l.length + 2 ≤ n) (hm : l.length + 2 ≤ m) :
    aType s1 s2 s3 n l = aType s1 s2 s3 m l ∧ aType s1 s2 s3 n l ≠ .error .fuel ∧
    ∀ a l', aType s1 s2 s3 n l = .ok (a, l') → l'.length ≤ l.length := by
  unfold aType
  obtain ⟨hl1, hl2⟩ := aget_len l
  generalize aget l = x at hl1 hl2 ⊢
  obtain ⟨tk, val, l1⟩ := x
  simp only at hl1 hl2 ⊢
  by_cases k1 : tk ≠ .openParen
  · (rw [if_pos k1]; try rw [if_pos k1]); simp
  · (rw [if_neg k1]; try rw [if_neg k1])
    obtain ⟨g1, -⟩ := aget_len l1
    generalize aget l1 = x at g1 ⊢
    obtain ⟨tk2, val2, l2⟩ := x
    simp only at g1 ⊢
    have h3 : ((if val2 = "stream".toList then aget l2 else (tk2, val2, l2)) : Tok × Str × Sig).2.2.length ≤
        l2.length := by
      split
      · exact (aget_len l2).1
      · exact Nat.le_refl _
    generalize (if val2 = "stream".toList then aget l2 else (tk2, val2, l2) : Tok × Str × Sig) = x at h3 ⊢
    obtain ⟨tk3, val3, l3⟩ := x
    simp only at h3 ⊢
    by_cases k3 : tk3 ≠ .ident
    · (rw [if_pos k3]; try rw [if_pos k3]); simp
    · (rw [if_neg k3]; try rw [if_neg k3])
      obtain ⟨f1, f2, f3⟩ := aTypeLoop_fuel s3 n m tk3 val3 l3 [] (.inr (by omega)) (.inr (by omega))
      refine ⟨f1, f2, ?_⟩
      intro a l' h
      have := f3 a l' h
      omega

theorem aTail_fuel (unq : Str → Option Str) (n m : Nat) (l : Sig) (me : Method) (hn : l.length + 2 ≤ n)
    (hm : l.length + 2 ≤ m) :
    aTail unq n l me = aTail unq m l me ∧ aTail unq n l me ≠ .error .fuel ∧
    ∀ a l', aTail unq n l me = .ok (a, l') → l'.length ≤ l.length := by
  unfold aTail
  obtain ⟨hl1, -⟩ := aget_len l
  generalize aget l = x at hl1 ⊢
  obtain ⟨tk, val, l1⟩ := x
  simp only at hl1 ⊢
  by_cases k1 : val = ";".toList
  · (rw [if_pos k1]; try rw [if_pos k1])
    refine ⟨rfl, by simp, ?_⟩
    intro a l' h
    simp only [Except.ok.injEq, Prod.mk.injEq] at h
    rw [← h.2]; exact hl1
  · (rw [if_neg k1]; try rw [if_neg k1])
    by_cases k2 : tk ≠ .openBrace
    · (rw [if_pos k2]; try rw [if_pos k2]); simp
    · (rw [if_neg k2]; try rw [if_neg k2])
      obtain ⟨e1, e2, e3⟩ := (aHttp_fuel unq n).1 m l1 (by omega) (by omega) (by omega) (by omega)
      rw [← e1]
      cases hb : aHttp unq n l1 with
      | error e =>
        refine ⟨rfl, ?_, by simp⟩
        intro h; cases h; exact e2 hb
      | ok y =>
        obtain ⟨bs, l2⟩ := y
        have hl3 := e3 _ _ hb
        cases bs with
        | none =>
          refine ⟨rfl, by simp, ?_⟩
          intro a l' h
          simp only [Except.ok.injEq, Prod.mk.injEq] at h
          rw [← h.2]; omega
        | some bs =>
          simp only
          obtain ⟨g1, -⟩ := agetC_len l2
          generalize agetC l2 = x at g1 ⊢
          obtain ⟨tk3, val3, l3⟩ := x
          simp only at g1 ⊢
          by_cases k3 : tk3 ≠ .symbol ∨ val3 ≠ ";".toList
          · rw [if_pos k3]; simp
          · rw [if_neg k3]
            obtain ⟨g2, -⟩ := agetC_len l3
            generalize agetC l3 = x at g2 ⊢
            obtain ⟨tk4, val4, l4⟩ := x
            simp only at g2 ⊢
            by_cases k4 : tk4 ≠ .closeBrace
            · rw [if_pos k4]; simp
            · rw [if_neg k4]
              refine ⟨trivial, by simp, ?_⟩
              intro a l' h
              simp only [Except.ok.injEq, Prod.mk.injEq] at h
              rw [← h.2]; omega

theorem aMethod_fuel (unq : Str → Option Str) (n m : Nat) (l : Sig) (hn : l.length + 2 ≤ n)
    (hm : l.length + 2 ≤ m) :
    aMethod unq n l = aMethod unq m l ∧ aMethod unq n l ≠ .error .fuel ∧
    ∀ a l', aMethod unq n l = .ok (a, l') → l'.length < l.length := by
  unfold aMethod
  obtain ⟨hl1, hl2⟩ := adesc_len [] l
  generalize adesc [] l = x at hl1 hl2 ⊢
  obtain ⟨d, tk, val, l1⟩ := x
  simp only at hl1 hl2 ⊢
  by_cases k1 : tk = .closeBrace
  · (rw [if_pos k1]; try rw [if_pos k1]); simp
  · (rw [if_neg k1]; try rw [if_neg k1])
    by_cases k2 : tk ≠ .ident ∨ val ≠ "rpc".toList
    · (rw [if_pos k2]; try rw [if_pos k2]); simp
    · (rw [if_neg k2]; try rw [if_neg k2])
      have hl2 := hl2 (by
        intro e; apply k2; left; rw [e]; simp)
      obtain ⟨g1, -⟩ := aget_len l1
      generalize aget l1 = x at g1 ⊢
      obtain ⟨tk2, name, l2⟩ := x
      simp only at g1 ⊢
      by_cases k3 : tk2 ≠ .ident
      · (rw [if_pos k3]; try rw [if_pos k3]); simp
      · (rw [if_neg k3]; try rw [if_neg k3])
        obtain ⟨e1, e2, e3⟩ := aType_fuel .rpcOpenArg .rpcArgIdent .rpcArg n m l2 (by omega) (by omega)
        rw [← e1]
        cases hb : aType .rpcOpenArg .rpcArgIdent .rpcArg n l2 with
        | error e =>
          refine ⟨rfl, ?_, by simp⟩
          intro h; cases h; exact e2 hb
        | ok y =>
          obtain ⟨rq, l3⟩ := y
          have hl3 := e3 _ _ hb
          simp only
          obtain ⟨g2, -⟩ := aget_len l3
          generalize aget l3 = x at g2 ⊢
          obtain ⟨tk4, val4, l4⟩ := x
          simp only at g2 ⊢
          by_cases k4 : tk4 ≠ .ident ∨ val4 ≠ "returns".toList
          · (rw [if_pos k4]; try rw [if_pos k4]); simp
          · (rw [if_neg k4]; try rw [if_neg k4])
            obtain ⟨e1, e2, e3⟩ := aType_fuel .rpcOpenRet .rpcRetIdent .rpcRet n m l4 (by omega) (by omega)
            rw [← e1]
            cases hb : aType .rpcOpenRet .rpcRetIdent .rpcRet n l4 with
            | error e =>
              refine ⟨rfl, ?_, by simp⟩
              intro h; cases h; exact e2 hb
            | ok y =>
              obtain ⟨rs, l5⟩ := y
              have hl5 := e3 _ _ hb
              simp only
              obtain ⟨f1, f2, f3⟩ := aTail_fuel unq n m l5 ⟨name, d, rq, rs, []⟩ (by omega) (by omega)
              refine ⟨f1, f2, ?_⟩
              intro a l' h
              have := f3 a l' h
              omega

theorem aMethods_fuel (unq : Str → Option Str) (n m f g : Nat) (l : Sig) (ms : List Method)
    (hn : l.length + 1 ≤ n) (hm : l.length + 1 ≤ m) (hf : l.length + 2 ≤ f) (hg : l.length + 2 ≤ g) :
    aMethods unq f n l ms = aMethods unq g m l ms ∧ aMethods unq f n l ms ≠ .error .fuel := by
  induction n generalizing m l ms with
  | zero => omega
  | succ n ih =>
    match m, hm with
    | m + 1, hm =>
      unfold aMethods
      obtain ⟨e1, e2, e3⟩ := aMethod_fuel unq f g l hf hg
      rw [← e1]
      cases hb : aMethod unq f l with
      | error e =>
        rw [hb] at e2
        cases e
        case fuel => exact absurd rfl e2
        all_goals exact ⟨rfl, by simp⟩
      | ok y =>
        obtain ⟨me, l'⟩ := y
        have := e3 _ _ hb
        cases me with
        | none => exact ih m l' ms (by omega) (by omega) (by omega) (by omega)
        | some me => exact ih m l' (ms ++ [me]) (by omega) (by omega) (by omega) (by omega)

theorem aService_fuel (unq : Str → Option Str) (f g : Nat) (l : Sig) (hf : l.length + 2 ≤ f) (hg : l.length + 2 ≤ g) :
    aService unq f l = aService unq g l ∧ aService unq f l ≠ .error .fuel := by
  unfold aService
  obtain ⟨hl1, -⟩ := aget_len l
  generalize aget l = x at hl1 ⊢
  obtain ⟨tk, val, l1⟩ := x
  simp only at hl1 ⊢
  by_cases k1 : tk = .eof
  · (rw [if_pos k1]; try rw [if_pos k1]); simp
  · (rw [if_neg k1]; try rw [if_neg k1])
    by_cases k2 : tk ≠ .ident ∧ val ≠ "service".toList
    · (rw [if_pos k2]; try rw [if_pos k2]); simp
    · (rw [if_neg k2]; try rw [if_neg k2])
      obtain ⟨g1, -⟩ := aget_len l1
      generalize aget l1 = x at g1 ⊢
      obtain ⟨tk2, name, l2⟩ := x
      simp only at g1 ⊢
      by_cases k3 : tk2 ≠ .ident
      · (rw [if_pos k3]; try rw [if_pos k3]); simp
      · (rw [if_neg k3]; try rw [if_neg k3])
        obtain ⟨g2, -⟩ := aget_len l2
        generalize aget l2 = x at g2 ⊢
        obtain ⟨tk3, val3, l3⟩ := x
        simp only at g2 ⊢
        by_cases k4 : tk3 ≠ .openBrace
        · (rw [if_pos k4]; try rw [if_pos k4]); simp
        · (rw [if_neg k4]; try rw [if_neg k4])
          obtain ⟨e1, e2⟩ := aMethods_fuel unq f g f g l3 [] (by omega) (by omega) (by omega) (by omega)
          rw [← e1]
          cases hb : aMethods unq f f l3 [] with
          | error e =>
            refine ⟨rfl, ?_⟩
            intro h; cases h; exact e2 hb
          | ok ms => exact ⟨rfl, by simp⟩

theorem sig_length (ts : List TokenGroup) : (sig ts).length ≤ ts.length := by
  simp [sig]; exact List.length_filter_le _ _

end Baron.Parser
