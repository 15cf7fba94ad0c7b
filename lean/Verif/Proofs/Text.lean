import Verif.Spec.Text
import Verif.Proofs.LexText
import Verif.Props.Lexer
import Verif.Props.Parser

namespace Baron.Text

open Baron.Scanner Baron.Lexer Baron.Parser

/-! ## Scanning a laid-out text gives its units -/

theorem groupLoop_take (p : Char → Bool) (v rest : Str) (line : Nat) (h : ∀ c ∈ v, p c = true)
    (hr : rest.head?.any p = false) :
    ∃ line', groupLoop p line (v ++ rest) = (v, ⟨rest, line'⟩) := by
  induction v generalizing line with
  | nil =>
    cases rest with
    | nil => exact ⟨line, rfl⟩
    | cons c r =>
      refine ⟨line, ?_⟩
      show groupLoop p line (c :: r) = _
      unfold groupLoop
      rw [if_neg (by simpa using hr)]
  | cons c v ih =>
    obtain ⟨l, hl⟩ := ih (bump c line) (fun d hd => h d (List.mem_cons_of_mem _ hd))
    refine ⟨l, ?_⟩
    show groupLoop p line (c :: (v ++ rest)) = _
    unfold groupLoop
    rw [if_pos (h c List.mem_cons_self), hl]

theorem space_not_special {c : Char} (h : isSpace c = true) : c ≠ '/' ∧ c ≠ '"' := by
  constructor <;> (intro e; subst e; exact absurd h (by decide))

theorem ident_not_special (U : Uni) {c : Char} (h : isIdent U c = true) : c ≠ '/' ∧ c ≠ '"' ∧ isSpace c = false := by
  refine ⟨?_, ?_, ?_⟩
  · intro e; subst e; rw [ident_ascii U '/' (by decide)] at h; exact absurd h (by decide)
  · intro e; subst e; rw [ident_ascii U '"' (by decide)] at h; exact absurd h (by decide)
  · cases hs : isSpace c with
    | false => rfl
    | true =>
      have := U.space_not c hs
      unfold isIdent at h
      rw [this.1, this.2] at h
      have hu : c = '_' := by simpa using h
      subst hu
      exact absurd hs (by decide)

theorem build_unit (U : Uni) (g : Glob) (line : Nat) {v : Str} (hv : UnitText U v) (rest : Str)
    (h1 : v.head?.any isSpace = true → rest.head?.any isSpace = false)
    (h2 : v.head?.any (isIdent U) = true → rest.head?.any (isIdent U) = false) :
    ∃ u g' line', buildScanUnit U g ⟨v ++ rest, line⟩ = some (u, g', ⟨rest, line'⟩) ∧ u.value = v := by
  unfold buildScanUnit
  cases hv with
  | @space v hne hall =>
    cases v with
    | nil => exact absurd rfl hne
    | cons c v =>
      have hc := hall c List.mem_cons_self
      obtain ⟨l, hl⟩ := groupLoop_take isSpace v rest (bump c line) (fun d hd => hall d (List.mem_cons_of_mem _ hd))
        (h1 (by simpa using hc))
      simp only [List.cons_append]
      rw [if_neg (space_not_special hc).1, if_neg (space_not_special hc).2, if_pos hc, hl]
      exact ⟨_, _, _, rfl, rfl⟩
  | @word v hne hall =>
    cases v with
    | nil => exact absurd rfl hne
    | cons c v =>
      have hc := hall c List.mem_cons_self
      obtain ⟨l, hl⟩ := groupLoop_take (isIdent U) v rest (bump c line) (fun d hd => hall d (List.mem_cons_of_mem _ hd))
        (h2 (by simpa using hc))
      obtain ⟨n1, n2, n3⟩ := ident_not_special U hc
      simp only [List.cons_append]
      rw [if_neg n1, if_neg n2, if_neg (by rw [n3]; exact Bool.false_ne_true), if_pos hc, hl]
      exact ⟨_, _, _, rfl, rfl⟩
  | @str b hb =>
    have hl := strLit_ok b rest (bump '"' line) hb
    have e : '"' :: (b ++ ['"']) ++ rest = '"' :: (b ++ '"' :: rest) := by simp
    rw [e]
    simp only
    rw [if_neg (by decide), if_pos trivial, hl]
    exact ⟨_, _, _, rfl, rfl⟩
  | @line m hm =>
    have hl := lineComment_ok m rest (bump '/' line) hm
    have e : '/' :: '/' :: (m ++ ['\n']) ++ rest = '/' :: '/' :: (m ++ '\n' :: rest) := by simp
    rw [e]
    simp only
    rw [if_pos trivial, if_pos trivial, hl]
    exact ⟨_, _, _, rfl, rfl⟩
  | @block m hm =>
    have hl := blockComment_ok m rest (bump '/' line) hm
    have e : '/' :: '*' :: (m ++ ['*', '/']) ++ rest = '/' :: '*' :: (m ++ ['*', '/'] ++ rest) := by simp
    rw [e]
    simp only
    rw [if_pos trivial, if_neg (by decide), if_pos trivial, hl]
    exact ⟨_, _, _, rfl, rfl⟩
  | @symbol c n1 n2 n3 n4 =>
    simp only [List.cons_append, List.nil_append]
    rw [if_neg n4, if_neg n3, if_neg (by rw [n1]; exact Bool.false_ne_true),
      if_neg (by rw [n2]; exact Bool.false_ne_true)]
    split
    · exact ⟨_, _, _, rfl, rfl⟩
    · split
      · exact ⟨_, _, _, rfl, rfl⟩
      · exact ⟨_, _, _, rfl, rfl⟩

theorem head_flatten (w : Str) (r : List Str) (h : w ≠ []) : ((w :: r).flatten).head? = w.head? := by
  cases w with
  | nil => exact absurd rfl h
  | cons c w => rfl

theorem UnitText.ne_nil {U : Uni} {v : Str} (h : UnitText U v) : v ≠ [] := by
  cases h <;> simp_all

theorem Laid.head {U : Uni} {v : Str} {r : List Str} (h : Laid U (v :: r)) : UnitText U v := by
  cases h with
  | one h => exact h
  | cons h _ _ => exact h

/-- Scanning gives back the units a text was laid out from. -/
theorem scanRun_laid {U : Uni} {vs : List Str} (h : Laid U vs) {g : Glob} {line : Nat} {us : List ScanUnit}
    {g' : Glob} {rd' : Rd} (hr : ScanRun U g ⟨vs.flatten, line⟩ us g' rd') : us.map (·.value) = vs := by
  induction h generalizing g line us with
  | nil =>
    cases hr with
    | stop => rfl
    | step hb _ => exact absurd hb (by unfold buildScanUnit; simp)
  | @one v hv =>
    obtain ⟨u, g2, l2, hb, hval⟩ := build_unit U g line hv [] (fun _ => rfl) (fun _ => rfl)
    have e : [v].flatten = v ++ [] := by simp
    rw [e] at hr
    cases hr with
    | stop h => rw [hb] at h; cases h
    | step hb' hrest =>
      rw [hb] at hb'
      cases hb'
      cases hrest with
      | stop => rw [List.map_cons, hval]; rfl
      | step hb _ => exact absurd hb (by unfold buildScanUnit; simp)
  | @cons v w r hv hf hl ih =>
    have hw := hl.head
    have hh : ((w :: r).flatten).head? = w.head? := head_flatten w r hw.ne_nil
    obtain ⟨u, g2, l2, hb, hval⟩ := build_unit U g line hv ((w :: r).flatten)
      (fun h => by
        rw [hh]
        cases hx : w.head?.any isSpace with
        | false => rfl
        | true => exact absurd ⟨h, hx⟩ hf.1)
      (fun h => by
        rw [hh]
        cases hx : w.head?.any (isIdent U) with
        | false => rfl
        | true => exact absurd ⟨h, hx⟩ hf.2)
    have e : (v :: w :: r).flatten = v ++ (w :: r).flatten := rfl
    rw [e] at hr
    cases hr with
    | stop h => rw [hb] at h; cases h
    | step hb' hrest =>
      rw [hb] at hb'
      cases hb'
      rw [List.map_cons, hval, ih hrest]

theorem scan_laid {U : Uni} {vs : List Str} (h : Laid U vs) (g : Glob) : (scan U g vs.flatten).1.map (·.value) = vs :=
  scanRun_laid h (scan_run U g vs.flatten)

/-! ## Tokens of a run of units -/

/-- Units that a comment takes in. -/
inductive Absorbable : List Str → Prop where
  | nil : Absorbable []
  | comment {v r} : isComment v = true → Absorbable r → Absorbable (v :: r)
  | blank {b v r} : isComment b = false → isBlank b = true → isComment v = true → Absorbable r → Absorbable (b :: v :: r)

/-- Where it stops. -/
def Stop : List Str → Prop
  | [] => True
  | [v] => isComment v = false
  | v :: w :: _ => isComment v = false ∧ (isBlank v = true → isComment w = false)

theorem absorb_stop (acc : Str) {x : List Str} (h : Stop x) : absorb acc x = (acc, x) := by
  unfold absorb
  split
  · rfl
  · rw [if_neg (by rw [show isComment _ = false from h]; exact Bool.false_ne_true)]
  · obtain ⟨h1, h2⟩ := h
    rw [if_neg (by rw [h1]; exact Bool.false_ne_true), if_neg]
    intro hb
    rw [Bool.and_eq_true] at hb
    rw [h2 hb.1] at hb
    cases hb.2

theorem absorb_append (acc : Str) {a x : List Str} (ha : Absorbable a) (hx : Stop x) :
    absorb acc (a ++ x) = (acc ++ a.flatten, x) := by
  induction ha generalizing acc with
  | nil => rw [List.nil_append, absorb_stop acc hx]; simp
  | @comment v r hv _ ih =>
    have : absorb acc (v :: r ++ x) = absorb (acc ++ v) (r ++ x) := by
      rw [List.cons_append]
      cases hrx : r ++ x with
      | nil => unfold absorb; rw [if_pos hv]
      | cons w t =>
        conv => lhs; unfold absorb
        rw [if_pos hv]
    rw [this, ih]
    simp
  | @blank b v r hb hb2 hv _ ih =>
    have : absorb acc (b :: v :: r ++ x) = absorb (acc ++ b ++ v) (r ++ x) := by
      rw [List.cons_append, List.cons_append]
      conv => lhs; unfold absorb
      rw [if_neg (by rw [hb]; exact Bool.false_ne_true), if_pos (by rw [hb2, hv]; rfl)]
    rw [this, ih]
    simp

theorem isComment_eq (v : Str) : isComment v = isCommentUnit v := by
  unfold isComment isCommentUnit; rfl

theorem isBlank_eq (v : Str) : isBlank v = true ↔ isSpaceUnit v = true ∧ v.count '\n' = 0 := by
  unfold isBlank isSpaceUnit
  cases v with
  | nil => simp
  | cons c r => simp [List.count_eq_zero]

theorem mergeRest_absorb (last : ScanUnit) (str : Str) (rest : List ScanUnit) :
    ∀ str' last' rest', mergeRest last str rest = some (str', last', rest') →
    ∃ a, rest = a ++ rest' ∧ Absorbable (a.map (·.value)) ∧ str' = str ++ (a.map (·.value)).flatten ∧
      Stop (rest'.map (·.value)) := by
  fun_induction mergeRest last str rest with
  | case1 => intro _ _ _ h; cases h
  | case2 last str one r h1 ih =>
    intro str' last' rest' h
    obtain ⟨a, e1, e2, e3, e4⟩ := ih _ _ _ h
    exact ⟨one :: a, by rw [e1]; rfl, .comment (by rw [isComment_eq]; exact h1) e2, by rw [e3]; simp, e4⟩
  | case3 => intro _ _ _ h; cases h
  | case4 last str one h1 h2 h3 two r' h4 ih =>
    intro str' last' rest' h
    obtain ⟨a, e1, e2, e3, e4⟩ := ih _ _ _ h
    exact ⟨one :: two :: a, by rw [e1]; rfl, .blank (by rw [isComment_eq]; simpa using h1) ((isBlank_eq _).mpr ⟨h2, h3⟩)
      (by rw [isComment_eq]; exact h4) e2, by rw [e3]; simp, e4⟩
  | case5 last str one h1 h2 h3 two r' h4 =>
    intro str' last' rest' h
    simp only [Option.some.injEq, Prod.mk.injEq] at h
    obtain ⟨rfl, rfl, rfl⟩ := h
    refine ⟨[], rfl, .nil, by simp, ?_⟩
    exact ⟨by rw [isComment_eq]; simpa using h1, fun _ => by rw [isComment_eq]; simpa using h4⟩
  | case6 last str one r h1 h2 h3 =>
    intro str' last' rest' h
    simp only [Option.some.injEq, Prod.mk.injEq] at h
    obtain ⟨rfl, rfl, rfl⟩ := h
    refine ⟨[], rfl, .nil, by simp, ?_⟩
    have hc : isComment one.value = false := by rw [isComment_eq]; simpa using h1
    cases r with
    | nil => exact hc
    | cons w r => exact ⟨hc, fun hb => absurd ((isBlank_eq _).mp hb).2 h3⟩
  | case7 last str one r h1 h2 =>
    intro str' last' rest' h
    simp only [Option.some.injEq, Prod.mk.injEq] at h
    obtain ⟨rfl, rfl, rfl⟩ := h
    refine ⟨[], rfl, .nil, by simp, ?_⟩
    have hc : isComment one.value = false := by rw [isComment_eq]; simpa using h1
    cases r with
    | nil => exact hc
    | cons w r => exact ⟨hc, fun hb => absurd ((isBlank_eq _).mp hb).1 h2⟩

theorem tokenTexts_plain {v : Str} (r : List Str) (h : isComment v = false) : tokenTexts (v :: r) = v :: tokenTexts r := by
  rw [tokenTexts, if_neg (by rw [h]; exact Bool.false_ne_true)]

theorem tokenTexts_comment {v : Str} {a x : List Str} (h : isComment v = true) (ha : Absorbable a) (hx : Stop x) :
    tokenTexts (v :: (a ++ x)) = (v ++ a.flatten) :: tokenTexts x := by
  rw [tokenTexts, if_pos h, absorb_append v ha hx]

/-- The lexer's tokens are exactly the token texts of the service region. -/
theorem lexL_exact (U : Uni) (n : Nat) (ins b : Bool) (us : List ScanUnit) (ts : List TokenGroup)
    (hlen : us.length < n) (hf : FlagsOK b us) (hb : ins = true → b = true)
    (hsh : ∀ u ∈ us, UnitShape U u.value) (h : lexL U n ins us = .ok ts) :
    ts.map (·.value) = tokenTexts ((region ins us).map (·.value)) := by
  induction n generalizing ins b us ts with
  | zero => omega
  | succ n ih =>
    unfold lexL at h
    obtain ⟨sk, hsk⟩ := skipTo_suffix ins us
    rw [region_skipTo]
    split at h
    · rename_i he
      rw [he]
      cases h
      rw [List.map_nil, List.map_nil, tokenTexts]
    · rename_i u r he
      rw [he] at hsk ⊢
      have hu := hsh u (by rw [hsk]; simp)
      split at h
      · cases h
      · rename_i t u' r' hn
        obtain ⟨a, e1, e2, e3, e4, e5, e6, e7⟩ := nextTok_spec U _ _ _ _ _ hn
        rw [if_neg (by rw [e4]; exact classify_ne_illegal U _ hu)] at h
        split at h
        · rename_i ts' hts
          simp only [Out.ok.injEq] at h
          subst h
          have hfr : FlagsOK (Inside u) r := by rw [hsk] at hf; exact hf.suffix
          rw [e1] at hfr
          obtain ⟨q1, q2⟩ := hfr.quiet_prefix (fun w hw => mem_quiet w (e7 w hw))
          have hu' : Inside u' = Inside u := by
            rcases List.eq_nil_or_concat a with rfl | ⟨a', w, rfl⟩
            · simp at e3; rw [e3]
            · simp at e3; rw [e3]; exact q1 w (by simp)
          have hsub : r'.length < n := by
            have := congrArg List.length hsk
            have := congrArg List.length e1
            simp at *; omega
          have ih' := ih (Inside u') (Inside u) r' ts' hsub q2
            (by rw [hu']; exact id) (fun w hw => hsh w (by rw [hsk, e1]; simp [hw])) hts
          by_cases hc : classify U u.value = .comment
          · -- a comment is only reached inside
            have hcu : isComment u.value = true := by
              rw [isComment_eq, isCommentUnit_iff]; exact isComment_of_classify U _ hc
            have hins : Inside u = true := by
              obtain ⟨c, t', hv⟩ := isComment_of_classify U _ hc
              cases ins with
              | true =>
                simp only [skipTo, if_true] at he
                rw [he, hb rfl] at hf
                exact hf.1 (.inl (by rw [isCommentUnit_iff]; exact ⟨c, t', hv⟩))
              | false =>
                exfalso
                simp only [skipTo, Bool.false_eq_true, if_false] at he
                have := skip_head _ _ _ he
                rw [hv] at this
                simp at this
            have hnu := hn
            unfold nextTok at hnu
            rw [if_pos hc] at hnu
            simp only [Option.map_eq_some_iff, Prod.mk.injEq] at hnu
            obtain ⟨⟨str, u1, r1⟩, hm, hte, hu1, hr1⟩ := hnu
            simp only at hr1 hu1 hte
            obtain ⟨a2, m1, m2, m3, m4⟩ := mergeRest_absorb _ _ _ _ _ _ hm
            have haa : a2 = a := by
              rw [hr1, e1] at m1
              exact (List.append_cancel_right m1).symm
            subst haa
            have hu't : Inside u' = true := by rw [hu', hins]
            have hreg : region (Inside u) r = a2 ++ region true r' := by
              rw [e1, hins]
              rw [hins] at q1
              exact region_append_inside a2 r' q1
            have hstop : Stop ((region true r').map (·.value)) := by
              rw [hr1] at m4
              rw [hins] at q2
              cases r' with
              | nil => exact trivial
              | cons x r' =>
                rw [region]
                cases r' with
                | nil => rw [region]; exact m4
                | cons y r' =>
                  obtain ⟨m4a, m4b⟩ := m4
                  by_cases hq : isBlank x.value = true
                  · have hxi : Inside x = true := q2.1 (Or.inr ((isBlank_eq _).mp hq).1)
                    rw [hxi, region]
                    exact ⟨m4a, m4b⟩
                  · rw [List.map_cons]
                    cases (region (Inside x) (y :: r')).map (·.value) with
                    | nil => exact m4a
                    | cons z _ => exact ⟨m4a, fun h => absurd h hq⟩
            show _ = tokenTexts ((u :: region (Inside u) r).map (·.value))
            rw [hreg, List.map_cons, List.map_cons, List.map_append, tokenTexts_comment hcu m2 hstop, ih', hu't]
            congr 1
          · have ha : a = [] := e6.resolve_right hc
            subst ha
            have hcu : isComment u.value = false := by
              cases hx : isComment u.value with
              | false => rfl
              | true =>
                rw [isComment_eq, isCommentUnit_iff] at hx
                obtain ⟨c, t', hv⟩ := hx
                exact absurd (by rw [hv]; exact classify_comment U c t') hc
            simp only [List.nil_append] at e1
            subst e1
            show _ = tokenTexts ((u :: region (Inside u) r).map (·.value))
            rw [List.map_cons, List.map_cons, tokenTexts_plain _ hcu, ih', hu']
            congr 1
            rw [e2]
            simp [textOf]
        · cases h

end Baron.Text
