import Verif.Proofs.Lexer

namespace Baron.Lexer

open Baron.Scanner

/-! ### Shape of scan units -/

def UnitShape (U : Uni) (v : Str) : Prop :=
  (∃ c r, v = c :: r ∧ isSpace c = true) ∨ (∃ c r, v = c :: r ∧ isIdent U c = true) ∨
  (∃ r, v = '"' :: r) ∨ (∃ c r, v = '/' :: c :: r) ∨ (∃ c, v = [c])

theorem buildScanUnit_shape (U : Uni) (g : Glob) (rd : Rd) (u : ScanUnit) (g' : Glob) (rd' : Rd)
    (h : buildScanUnit U g rd = some (u, g', rd')) : UnitShape U u.value := by
  unfold buildScanUnit at h
  split at h
  · simp at h
  · rename_i ch r hr
    by_cases c1 : ch = '/'
    · subst c1
      simp only [if_true] at h
      split at h
      · simp at h
      · rename_i d r'
        by_cases c2 : d = '/'
        · simp only [c2, if_true, Option.map_eq_some_iff, Prod.mk.injEq] at h
          obtain ⟨x, -, rfl, -⟩ := h
          exact .inr (.inr (.inr (.inl ⟨_, _, rfl⟩)))
        · simp only [c2, if_false] at h
          by_cases c3 : d = '*'
          · simp only [c3, if_true, Option.map_eq_some_iff, Prod.mk.injEq] at h
            obtain ⟨x, -, rfl, -⟩ := h
            exact .inr (.inr (.inr (.inl ⟨_, _, rfl⟩)))
          · simp only [c3, if_false, Option.some.injEq, Prod.mk.injEq] at h
            obtain ⟨rfl, -⟩ := h
            exact .inr (.inr (.inr (.inr ⟨_, rfl⟩)))
    · simp only [c1, if_false] at h
      by_cases c2 : ch = '"'
      · subst c2
        simp only [if_true, Option.map_eq_some_iff, Prod.mk.injEq] at h
        obtain ⟨x, -, rfl, -⟩ := h
        exact .inr (.inr (.inl ⟨_, rfl⟩))
      · simp only [c2, if_false] at h
        by_cases c3 : isSpace ch = true
        · simp only [c3, if_true, Option.some.injEq, Prod.mk.injEq] at h
          obtain ⟨rfl, -⟩ := h
          exact .inl ⟨_, _, rfl, c3⟩
        · rw [if_neg c3] at h
          by_cases c4 : isIdent U ch = true
          · simp only [c4, if_true, Option.some.injEq, Prod.mk.injEq] at h
            obtain ⟨rfl, -⟩ := h
            exact .inr (.inl ⟨_, _, rfl, c4⟩)
          · rw [if_neg c4] at h
            refine .inr (.inr (.inr (.inr ⟨ch, ?_⟩)))
            by_cases c5 : ch = '{'
            · rw [if_pos c5] at h
              simp only [Option.some.injEq, Prod.mk.injEq] at h
              rw [← h.1]; rfl
            · rw [if_neg c5] at h
              by_cases c6 : ch = '}'
              · rw [if_pos c6] at h
                simp only [Option.some.injEq, Prod.mk.injEq] at h
                rw [← h.1]; rfl
              · rw [if_neg c6] at h
                simp only [Option.some.injEq, Prod.mk.injEq] at h
                rw [← h.1]; rfl

theorem ScanRun.shape {U : Uni} {g rd us g' rd'} (h : ScanRun U g rd us g' rd') :
    ∀ u ∈ us, UnitShape U u.value := by
  induction h with
  | stop => simp
  | step hb _ ih =>
    intro u hu
    rcases List.mem_cons.mp hu with rfl | hu
    · exact buildScanUnit_shape U _ _ _ _ _ hb
    · exact ih u hu

theorem ident_ascii (U : Uni) (c : Char) (h : c.toNat < 128) :
    isIdent U c = (isAsciiLetter c || isAsciiDigit c || c == '_') := by
  unfold isIdent
  rw [U.letter_ascii c h, U.digit_ascii c h]

theorem kindOf_classify (U : Uni) (v : Str) (h : UnitShape U v) : KindOf U v (classify U v) := by
  match v with
  | [] => simp [UnitShape] at h
  | c :: r =>
    rw [classify]
    by_cases h1 : isSpace c = true
    · rw [if_pos h1]; exact ⟨c, r, rfl, h1⟩
    · rw [if_neg h1]
      by_cases h2 : isIdent U c = true
      · rw [if_pos h2]
        refine ⟨c, r, rfl, ?_⟩
        simpa [isIdent, or_assoc] using h2
      · rw [if_neg h2]
        have hid : U.isLetter c = false ∧ U.isDigit c = false ∧ c ≠ '_' := by
          simpa [isIdent, and_assoc] using h2
        have hsingle : c ≠ '"' → (c = '/' → r = []) → r = [] := by
          intro hq hs
          rcases h with ⟨c', r', e, h⟩ | ⟨c', r', e, h⟩ | ⟨r', e⟩ | ⟨c', r', e⟩ | ⟨c', e⟩
          · cases e; exact absurd h h1
          · cases e; exact absurd h h2
          · cases e; exact absurd rfl hq
          · cases e; exact absurd (hs rfl) (by simp)
          · cases e; rfl
        by_cases h3 : c = '"'
        · rw [if_pos h3]; exact ⟨r, by rw [h3]⟩
        · rw [if_neg h3]
          by_cases h4 : c = '('
          · rw [if_pos h4]; show c :: r = _; rw [hsingle h3 (fun e => absurd (h4.symm.trans e) (by decide)), h4]
          · rw [if_neg h4]
            by_cases h5 : c = ')'
            · rw [if_pos h5]; show c :: r = _; rw [hsingle h3 (fun e => absurd (h5.symm.trans e) (by decide)), h5]
            · rw [if_neg h5]
              by_cases h6 : c = '{'
              · rw [if_pos h6]; show c :: r = _; rw [hsingle h3 (fun e => absurd (h6.symm.trans e) (by decide)), h6]
              · rw [if_neg h6]
                by_cases h7 : c = '}'
                · rw [if_pos h7]; show c :: r = _; rw [hsingle h3 (fun e => absurd (h7.symm.trans e) (by decide)), h7]
                · rw [if_neg h7]
                  by_cases h8 : r ≠ [] ∧ c = '/'
                  · rw [if_pos h8]
                    obtain ⟨h8, rfl⟩ := h8
                    match r, h8 with
                    | d :: r', _ => exact ⟨d, r', rfl⟩
                  · rw [if_neg h8]
                    have hr : r = [] := hsingle h3 (fun e =>
                      Classical.byContradiction fun hne => h8 ⟨hne, e⟩)
                    rw [if_pos hr]
                    refine ⟨c, by rw [hr], by simpa using h1, hid.1, hid.2.1, ?_⟩
                    simp [hid.2.2, h3, h4, h5, h6, h7]

theorem classify_ne_illegal (U : Uni) (v : Str) (h : UnitShape U v) : classify U v ≠ .illegal := by
  intro e
  have := kindOf_classify U v h
  rw [e] at this
  exact this

theorem classify_service (U : Uni) : classify U "service".toList = .ident := by
  show classify U ('s' :: ['e', 'r', 'v', 'i', 'c', 'e']) = _
  rw [classify, if_neg (by decide), if_pos]
  rw [ident_ascii U _ (by decide)]; decide

theorem isComment_of_classify (U : Uni) (v : Str) (h : classify U v = .comment) : ∃ c t, v = '/' :: c :: t := by
  match v with
  | [] => simp [classify] at h
  | c :: r =>
    rw [classify] at h
    split at h; · simp at h
    split at h; · simp at h
    split at h; · simp at h
    split at h; · simp at h
    split at h; · simp at h
    split at h; · simp at h
    split at h; · simp at h
    split at h
    · rename_i h8
      obtain ⟨h8, rfl⟩ := h8
      match r, h8 with
      | d :: r', _ => exact ⟨d, r', rfl⟩
    · split at h <;> simp at h

theorem classify_comment (U : Uni) (c : Char) (t : Str) : classify U ('/' :: c :: t) = .comment := by
  rw [classify, if_neg (by decide), if_neg (by rw [ident_ascii U _ (by decide)]; decide)]
  simp

/-! ### Flags along the unit list -/

def quiet (v : Str) : Prop := isCommentUnit v = true ∨ isSpaceUnit v = true

/-- Comments and white space carry the flags of the unit before. -/
def FlagsOK : Bool → List ScanUnit → Prop
  | _, [] => True
  | b, u :: r => (quiet u.value → Inside u = b) ∧ FlagsOK (Inside u) r

def insideG (g : Glob) : Bool := g.withinDef || g.withinBody || decide (g.braceLev ≠ 0)

theorem Inside_setReturn (g rd v) : Inside (setReturn g rd v) = insideG g := rfl

theorem quiet_ne (v : Str) (h : quiet v) : v ≠ "service".toList ∧ v ≠ ['{'] ∧ v ≠ ['}'] := by
  refine ⟨?_, ?_, ?_⟩ <;> rintro rfl <;> revert h <;> unfold quiet <;> decide

theorem ScanRun.flags {U : Uni} {g rd us g' rd'} (h : ScanRun U g rd us g' rd') : FlagsOK (insideG g) us := by
  induction h with
  | stop => trivial
  | @step g rd u g1 rd1 us g2 rd2 hb _ ih =>
    have hs := buildScanUnit_spec U _ _ _ _ _ hb
    obtain ⟨k, -, -, -, hu, -⟩ := hs
    have hI : Inside u = insideG g1 := by rw [hu, Inside_setReturn]
    refine ⟨?_, by rw [hI]; exact ih⟩
    intro hq
    obtain ⟨q1, q2, q3⟩ := quiet_ne _ hq
    have hg := buildScanUnit_glob U _ _ _ _ _ hb
    rw [if_neg q1, if_neg q2, if_neg q3] at hg
    rw [hI, hg]

/-- The flags of the last unit are the final process state. -/
theorem ScanRun.last_inside {U : Uni} {g rd us g' rd'} (h : ScanRun U g rd us g' rd') :
    ∀ u, us.getLast? = some u → Inside u = insideG g' := by
  induction h with
  | stop => simp
  | @step g rd u0 g1 rd1 us g2 rd2 hb hr ih =>
    intro u hu
    cases us with
    | nil =>
      cases hr
      simp at hu
      subst hu
      obtain ⟨k, -, -, -, hu, -⟩ := buildScanUnit_spec U _ _ _ _ _ hb
      rw [hu, Inside_setReturn]
    | cons x xs =>
      rw [List.getLast?_cons_cons] at hu
      exact ih u hu

theorem FlagsOK.quiet_prefix {b : Bool} : ∀ {a r : List ScanUnit}, FlagsOK b (a ++ r) → (∀ w ∈ a, quiet w.value) →
    (∀ w ∈ a, Inside w = b) ∧ FlagsOK b r := by
  intro a
  induction a with
  | nil => intro r h _; exact ⟨by simp, h⟩
  | cons x xs ih =>
    intro r h hq
    obtain ⟨h1, h2⟩ := h
    have hx := h1 (hq x List.mem_cons_self)
    rw [hx] at h2
    obtain ⟨h3, h4⟩ := ih h2 (fun w hw => hq w (List.mem_cons_of_mem _ hw))
    refine ⟨?_, h4⟩
    intro w hw
    rcases List.mem_cons.mp hw with rfl | hw
    · exact hx
    · exact h3 w hw

theorem region_append_inside (a r : List ScanUnit) (h : ∀ w ∈ a, Inside w = true) :
    region true (a ++ r) = a ++ region true r := by
  induction a with
  | nil => rfl
  | cons x xs ih =>
    simp only [List.cons_append, region]
    rw [h x List.mem_cons_self, ih (fun w hw => h w (List.mem_cons_of_mem _ hw))]

theorem skip_head (us r : List ScanUnit) (u : ScanUnit)
    (h : us.dropWhile notSvc = u :: r) : u.value = "service".toList := by
  induction us with
  | nil => simp at h
  | cons x xs ih =>
    by_cases hx : x.value = "service".toList
    · rw [dw_stop _ _ hx] at h
      cases h; exact hx
    · rw [dw_skip _ _ hx] at h
      exact ih h

theorem region_skipTo (ins : Bool) (us : List ScanUnit) :
    region ins us = match skipTo ins us with
      | [] => []
      | u :: r => u :: region (Inside u) r := by
  cases ins with
  | true => cases us <;> rfl
  | false =>
    simp only [skipTo, Bool.false_eq_true, if_false]
    induction us with
    | nil => rfl
    | cons x xs ih =>
      rw [region]
      by_cases hx : x.value = "service".toList
      · rw [if_pos hx, dw_stop _ _ hx]
      · rw [if_neg hx, dw_skip _ _ hx]
        exact ih

theorem FlagsOK.suffix {b : Bool} : ∀ {a r : List ScanUnit} {u : ScanUnit}, FlagsOK b (a ++ u :: r) →
    FlagsOK (Inside u) r := by
  intro a
  induction a generalizing b with
  | nil => intro r u h; exact h.2
  | cons x xs ih => intro r u h; exact ih h.2

theorem skipTo_suffix (ins : Bool) (us : List ScanUnit) : ∃ a, us = a ++ skipTo ins us := by
  unfold skipTo
  split
  · exact ⟨[], rfl⟩
  · exact ⟨us.takeWhile _, (List.takeWhile_append_dropWhile).symm⟩

theorem mem_quiet (w : ScanUnit) (h : isCommentUnit w.value = true ∨
    (isSpaceUnit w.value = true ∧ w.value.count '\n' = 0)) : quiet w.value := by
  rcases h with h | h
  · exact .inl h
  · exact .inr h.1

theorem isCommentUnit_iff (v : Str) : isCommentUnit v = true ↔ ∃ c t, v = '/' :: c :: t := by
  constructor
  · intro h
    unfold isCommentUnit at h
    split at h
    · exact ⟨_, _, rfl⟩
    · simp at h
  · rintro ⟨c, t, rfl⟩; rfl

/-- Lexing groups exactly the region. -/
theorem lexL_groups (U : Uni) (n : Nat) (ins b : Bool) (us : List ScanUnit) (ts : List TokenGroup)
    (hlen : us.length < n) (hf : FlagsOK b us) (hb : ins = true → b = true)
    (hsh : ∀ u ∈ us, UnitShape U u.value) (h : lexL U n ins us = .ok ts) :
    ∃ gs, Grouping (region ins us) gs ∧ ts.map (·.value) = gs.map textOf ∧
      ts.map (·.line) = gs.map (fun g => (g.getLast?.map (·.lineNo)).getD 0) ∧
      ∀ t ∈ ts, KindOf U t.value t.token := by
  induction n generalizing ins b us ts with
  | zero => omega
  | succ n ih =>
    unfold lexL at h
    obtain ⟨sk, hsk⟩ := skipTo_suffix ins us
    rw [region_skipTo]
    split at h
    · rename_i he
      rw [he]
      cases h
      exact ⟨[], ⟨rfl, by simp⟩, rfl, rfl, by simp⟩
    · rename_i u r he
      rw [he] at hsk ⊢
      have hu := hsh u (by rw [hsk]; simp)
      split at h
      · simp at h
      · rename_i t u' r' hn
        obtain ⟨a, e1, e2, e3, e4, e5, e6, e7⟩ := nextTok_spec U _ _ _ _ _ hn
        rw [if_neg (by rw [e4]; exact classify_ne_illegal U _ hu)] at h
        split at h
        · rename_i ts' hts
          simp only [Out.ok.injEq] at h
          subst h
          have hfr : FlagsOK (Inside u) r := by rw [hsk] at hf; exact hf.suffix
          rw [e1] at hfr
          obtain ⟨q1, q2⟩ := hfr.quiet_prefix (fun w hw => mem_quiet w (e7 w hw))
          have hu' : Inside u' = Inside u := by
            rcases List.eq_nil_or_concat a with rfl | ⟨a', w, rfl⟩
            · simp at e3; rw [e3]
            · simp at e3; rw [e3]; exact q1 w (by simp)
          -- the region after u
          have hreg : region (Inside u) r = a ++ region (Inside u') r' := by
            rw [e1, hu']
            rcases e6 with rfl | hc
            · rfl
            · -- a comment is only reached inside
              have hins : Inside u = true := by
                obtain ⟨c, t', hv⟩ := isComment_of_classify U _ hc
                cases ins with
                | true =>
                  simp only [skipTo, if_true] at he
                  rw [he, hb rfl] at hf
                  exact hf.1 (.inl (by rw [isCommentUnit_iff]; exact ⟨c, t', hv⟩))
                | false =>
                  exfalso
                  simp only [skipTo, Bool.false_eq_true, if_false] at he
                  have := skip_head _ _ _ he
                  rw [hv] at this
                  simp at this
              rw [hins] at q1 ⊢
              exact region_append_inside a r' q1
          have hsub : r'.length < n := by
            have := congrArg List.length hsk
            have := congrArg List.length e1
            simp at *; omega
          obtain ⟨gs, ⟨g1, g2⟩, g3, g4, g5⟩ := ih (Inside u') (Inside u) r' ts' hsub q2
            (by rw [hu']; exact id) (fun w hw => hsh w (by rw [hsk, e1]; simp [hw])) hts
          refine ⟨(u :: a) :: gs, ⟨by simp [g1, hreg], ?_⟩, by simp [g3, e2], ?_, ?_⟩
          · intro g hg
            rcases List.mem_cons.mp hg with rfl | hg
            · refine ⟨by simp, ?_⟩
              rcases e6 with rfl | hc
              · exact .inl rfl
              · right
                intro w hw
                rcases List.mem_cons.mp hw with rfl | hw
                · exact .inl (isComment_of_classify U _ hc)
                · rcases e7 w hw with hw | ⟨hw1, hw2⟩
                  · exact .inl ((isCommentUnit_iff _).mp hw)
                  · right
                    refine ⟨?_, by simpa [List.count_eq_zero] using hw2⟩
                    unfold isSpaceUnit at hw1
                    split at hw1
                    · simp at hw1
                    · rename_i heq; rw [heq]; simpa using hw1
            · exact g2 g hg
          · simp only [List.map_cons, g4, List.cons.injEq, and_true]
            rw [e5, e3]
            cases a <;> simp [List.getLast?_cons]
          · intro x hx
            rcases List.mem_cons.mp hx with rfl | hx
            · rw [e4]
              rcases e6 with rfl | hc
              · have : x.value = u.value := by rw [e2]; simp [textOf]
                rw [this]; exact kindOf_classify U _ hu
              · obtain ⟨c, t', hv⟩ := isComment_of_classify U _ hc
                rw [hc]
                exact ⟨c, t' ++ textOf a, by rw [e2]; simp [textOf, hv]⟩
            · exact g5 x hx
        · simp at h

/-- A panic means that the units end inside a service definition. -/
theorem lexL_panic (U : Uni) (n : Nat) (ins b : Bool) (us : List ScanUnit)
    (hf : FlagsOK b us) (hb : ins = true → b = true) (h : lexL U n ins us = .panic) :
    ∃ u, us.getLast? = some u ∧ Inside u = true := by
  induction n generalizing ins b us with
  | zero => simp [lexL] at h
  | succ n ih =>
    unfold lexL at h
    obtain ⟨sk, hsk⟩ := skipTo_suffix ins us
    split at h
    · simp at h
    · rename_i u r he
      rw [he] at hsk
      have hfr : FlagsOK (Inside u) r := by rw [hsk] at hf; exact hf.suffix
      split at h
      · rename_i hn
        unfold nextTok at hn
        split at hn
        · rename_i hc
          simp only [Option.map_eq_none_iff] at hn
          have hq : ∀ (l : ScanUnit) (s : Str) (r : List ScanUnit), mergeRest l s r = none →
              ∀ w ∈ r, quiet w.value := by
            intro l s r
            fun_induction mergeRest l s r with
            | case1 => simp
            | case2 l s one r h1 ih =>
              intro h w hw
              rcases List.mem_cons.mp hw with rfl | hw
              · exact .inl h1
              · exact ih h w hw
            | case3 l s one h1 h2 h3 => intro h w hw; simp at hw; subst hw; exact .inr h2
            | case4 l s one h1 h2 h3 two r' h4 ih =>
              intro h w hw
              simp only [List.mem_cons] at hw
              rcases hw with rfl | rfl | hw
              · exact .inr h2
              · exact .inl h4
              · exact ih h w hw
            | case5 => intro h; simp at h
            | case6 => intro h; simp at h
            | case7 => intro h; simp at h
          have hq' := hq _ _ _ hn
          have hins : Inside u = true := by
            obtain ⟨c, t', hv⟩ := isComment_of_classify U _ hc
            cases ins with
            | true =>
              simp only [skipTo, if_true] at he
              rw [he, hb rfl] at hf
              exact hf.1 (.inl (by rw [isCommentUnit_iff]; exact ⟨c, t', hv⟩))
            | false =>
              exfalso
              simp only [skipTo, Bool.false_eq_true, if_false] at he
              have := skip_head _ _ _ he
              rw [hv] at this
              simp at this
          have := (FlagsOK.quiet_prefix (a := r) (r := []) (by simpa using hfr) hq').1
          rcases List.eq_nil_or_concat r with rfl | ⟨a', w, rfl⟩
          · exact ⟨u, by rw [hsk]; simp, hins⟩
          · refine ⟨w, by rw [hsk]; simp [List.getLast?_append, List.getLast?_cons], ?_⟩
            rw [this w (by simp), hins]
        · simp at hn
      · rename_i t u' r' hn
        obtain ⟨a, e1, e2, e3, e4, e5, e6, e7⟩ := nextTok_spec U _ _ _ _ _ hn
        split at h
        · simp at h
        · split at h
          · simp at h
          · rename_i hne hl
            rw [e1] at hfr
            obtain ⟨q1, q2⟩ := hfr.quiet_prefix (fun w hw => mem_quiet w (e7 w hw))
            have hu' : Inside u' = Inside u := by
              rcases List.eq_nil_or_concat a with rfl | ⟨a', w, rfl⟩
              · simp at e3; rw [e3]
              · simp at e3; rw [e3]; exact q1 w (by simp)
            have hp : lexL U n (Inside u') r' = .panic := by
              cases hx : lexL U n (Inside u') r' with
              | ok ts => exact absurd hx (hl ts)
              | panic => rfl
              | err =>
                exfalso
                have hne : ∀ n i us, lexL U n i us ≠ .err := by
                  intro n i us
                  cases n with
                  | zero => simp [lexL]
                  | succ n =>
                    unfold lexL
                    repeat' split
                    all_goals simp
                exact hne _ _ _ hx
            obtain ⟨w, hw1, hw2⟩ := ih (Inside u') (Inside u) r' q2 (by rw [hu']; exact id) hp
            refine ⟨w, ?_, hw2⟩
            rw [hsk, e1]
            simp [List.getLast?_append, List.getLast?_cons, hw1]

end Baron.Lexer
