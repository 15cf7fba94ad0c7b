import Verif.Proofs.Text

/-!
# Checking that a list of ASCII units is laid out properly, for every Unicode table
-/

namespace Baron.Text

open Baron.Scanner Baron.Lexer Baron.Parser

def identA (c : Char) : Bool := isAsciiLetter c || isAsciiDigit c || c == '_'

def symA (c : Char) : Bool := !isSpace c && !identA c && c != '"' && c != '/'

/-- A sufficient check for `UnitText`. -/
def unitA (v : Str) : Bool :=
  v.all (fun c => decide (c.toNat < 128)) &&
  match v with
  | [] => false
  | '"' :: r => decide (r.getLast? = some '"') && r.dropLast.all (fun c => c != '"' && c != '\\')
  | '/' :: '/' :: r => decide (r.getLast? = some '\n') && r.dropLast.all (fun c => c != '\n')
  | c :: r => (isSpace c && r.all isSpace) || (identA c && r.all identA) || (symA c && r.isEmpty)

def followA (v w : Str) : Bool :=
  !(v.head?.any isSpace && w.head?.any isSpace) && !(v.head?.any identA && w.head?.any identA)

def laidA : List Str → Bool
  | [] => true
  | [v] => unitA v
  | v :: w :: r => unitA v && followA v w && laidA (w :: r)

theorem identA_eq (U : Uni) {c : Char} (h : c.toNat < 128) : isIdent U c = identA c := ident_ascii U c h

theorem strBody_plain (b : Str) (h : b.all (fun c => c != '"' && c != '\\') = true) : StrBody b := by
  induction b with
  | nil => exact .nil
  | cons c b ih =>
    rw [List.all_cons, Bool.and_eq_true] at h
    have h1 := h.1
    simp only [Bool.and_eq_true, bne_iff_ne] at h1
    exact .plain h1.1 h1.2 (ih h.2)

theorem dropLast_getLast {r : Str} {c : Char} (h : r.getLast? = some c) : r = r.dropLast ++ [c] := by
  rcases List.eq_nil_or_concat r with rfl | ⟨l, x, rfl⟩
  · simp at h
  · simp at h; subst h; simp

theorem unitA_sound (U : Uni) {v : Str} (h : unitA v = true) : UnitText U v := by
  unfold unitA at h
  rw [Bool.and_eq_true] at h
  obtain ⟨ha, h⟩ := h
  have ha : ∀ c ∈ v, c.toNat < 128 := by
    intro c hc
    have := List.all_eq_true.mp ha c hc
    simpa using this
  split at h
  · cases h
  · rename_i r
    rw [Bool.and_eq_true, decide_eq_true_eq] at h
    rw [dropLast_getLast h.1]
    exact .str (strBody_plain _ h.2)
  · rename_i r
    rw [Bool.and_eq_true, decide_eq_true_eq] at h
    rw [dropLast_getLast h.1]
    refine .line ?_
    intro hm
    have := List.all_eq_true.mp h.2 _ hm
    simp at this
  · rename_i c r _ _ _
    rw [Bool.or_eq_true, Bool.or_eq_true, Bool.and_eq_true, Bool.and_eq_true, Bool.and_eq_true] at h
    rcases h with (h | h) | h
    · refine .space (by simp) ?_
      intro x hx
      rcases List.mem_cons.mp hx with rfl | hx
      · exact h.1
      · exact List.all_eq_true.mp h.2 x hx
    · refine .word (by simp) ?_
      intro x hx
      rw [identA_eq U (ha x hx)]
      rcases List.mem_cons.mp hx with rfl | hx
      · exact h.1
      · exact List.all_eq_true.mp h.2 x hx
    · obtain ⟨hs, hr⟩ := h
      rw [List.isEmpty_iff] at hr
      subst hr
      unfold symA at hs
      simp only [Bool.and_eq_true, Bool.not_eq_true', bne_iff_ne] at hs
      exact .symbol hs.1.1.1 (by rw [identA_eq U (ha c (by simp))]; exact hs.1.1.2) hs.1.2 hs.2

theorem unitA_ascii {v : Str} (h : unitA v = true) : ∀ c ∈ v, c.toNat < 128 := by
  unfold unitA at h
  rw [Bool.and_eq_true] at h
  intro c hc
  have := List.all_eq_true.mp h.1 c hc
  simpa using this

theorem headAny_identA (U : Uni) {v : Str} (h : unitA v = true) : v.head?.any (isIdent U) = v.head?.any identA := by
  cases v with
  | nil => rfl
  | cons c v => exact identA_eq U (unitA_ascii h c (by simp))

theorem followA_sound (U : Uni) {v w : Str} (hv : unitA v = true) (hw : unitA w = true) (h : followA v w = true) :
    MayFollow U v w := by
  unfold followA at h
  rw [Bool.and_eq_true, Bool.not_eq_true', Bool.not_eq_true'] at h
  refine ⟨fun e => ?_, fun e => ?_⟩
  · rw [e.1, e.2] at h; cases h.1
  · rw [headAny_identA U hv, headAny_identA U hw] at e
    rw [e.1, e.2] at h; cases h.2

theorem laidA_head {v : Str} {r : List Str} (h : laidA (v :: r) = true) : unitA v = true := by
  cases r with
  | nil => exact h
  | cons w r => simp only [laidA, Bool.and_eq_true] at h; exact h.1.1

theorem laidA_sound (U : Uni) : ∀ {vs : List Str}, laidA vs = true → Laid U vs
  | [], _ => .nil
  | [v], h => .one (unitA_sound U h)
  | v :: w :: r, h => by
    simp only [laidA, Bool.and_eq_true] at h
    exact .cons (unitA_sound U h.1.1) (followA_sound U h.1.1 (laidA_head h.2) h.1.2) (laidA_sound U h.2)

/-- Putting a list, a word and another list together. -/
theorem laidA_append : ∀ {a b : List Str}, laidA a = true → laidA b = true →
    (∀ x y, a.getLast? = some x → b.head? = some y → followA x y = true) → laidA (a ++ b) = true
  | [], b, _, hb, _ => hb
  | [v], [], ha, _, _ => ha
  | [v], w :: b, ha, hb, hf => by
    show (unitA v && followA v w && laidA (w :: b)) = true
    rw [show unitA v = true from ha, hf v w rfl rfl, hb]; rfl
  | v :: w :: r, b, ha, hb, hf => by
    simp only [laidA, Bool.and_eq_true] at ha
    show (unitA v && followA v w && laidA (w :: r ++ b)) = true
    rw [ha.1.1, ha.1.2, laidA_append ha.2 hb (fun x y hx hy => hf x y (by rw [List.getLast?_cons_cons]; exact hx) hy)]
    rfl

theorem laidA_all : ∀ {vs : List Str}, laidA vs = true → ∀ v ∈ vs, unitA v = true
  | [], _, v, hv => by cases hv
  | [w], h, v, hv => by rw [List.mem_singleton] at hv; subst hv; exact h
  | x :: w :: r, h, v, hv => by
    simp only [laidA, Bool.and_eq_true] at h
    rcases List.mem_cons.mp hv with rfl | hv
    · exact h.1.1
    · exact laidA_all h.2 v hv

/-- The kind of an ASCII unit. -/
def kindA : Str → Tok
  | [] => .illegal
  | c :: r =>
    if isSpace c then .whitespace
    else if identA c then .ident
    else if c = '"' then .stringLit
    else if c = '(' then .openParen
    else if c = ')' then .closeParen
    else if c = '{' then .openBrace
    else if c = '}' then .closeBrace
    else if r ≠ [] ∧ c = '/' then .comment
    else if r = [] then .symbol
    else .illegal

theorem kindA_eq (U : Uni) {v : Str} (h : ∀ c ∈ v, c.toNat < 128) : classify U v = kindA v := by
  cases v with
  | nil => rfl
  | cons c r =>
    simp only [classify, kindA, identA_eq U (h c (by simp))]

theorem unitText_shape (U : Uni) {v : Str} (h : UnitText U v) : UnitShape U v := by
  have hr := scan_run U .init v
  have hv := scan_laid (Laid.one h) .init
  simp only [List.flatten_cons, List.flatten_nil, List.append_nil] at hv
  have : ∃ u ∈ (scan U .init v).1, u.value = v := by
    match hs : (scan U .init v).1, hv with
    | [u], hv => simp at hv; exact ⟨u, by simp, hv⟩
    | [], hv => simp at hv
    | _ :: _ :: _, hv => simp at hv
  obtain ⟨u, hu, e⟩ := this
  have := ScanRun.shape hr u hu
  rw [e] at this
  exact this

theorem kindOf_unit (U : Uni) {v : Str} (h : unitA v = true) : KindOf U v (kindA v) := by
  rw [← kindA_eq U (unitA_ascii h)]
  exact kindOf_classify U v (unitText_shape U (unitA_sound U h))

/-- The tokens of a list of checked units without comments. -/
theorem tokens_plain (U : Uni) {vs : List Str} (h : laidA vs = true) (hc : ∀ v ∈ vs, isComment v = false) :
    Tokens U vs ((vs.map fun v => (kindA v, v)).filter fun k => k.1 ≠ .whitespace) := by
  refine ⟨vs.map fun v => (kindA v, v), ?_, ?_, rfl⟩
  · rw [List.map_map]
    have : ∀ vs : List Str, (∀ v ∈ vs, isComment v = false) → tokenTexts vs = vs := by
      intro vs
      induction vs with
      | nil => intro _; unfold tokenTexts; rfl
      | cons v vs ih =>
        intro h
        rw [tokenTexts_plain _ (h v (by simp)), ih (fun w hw => h w (by simp [hw]))]
    rw [this vs hc]
    exact List.map_id vs
  · intro k hk
    obtain ⟨v, hv, rfl⟩ := List.mem_map.mp hk
    exact kindOf_unit U (laidA_all h v hv)

/-- The tokens of a list of checked units, with comments. -/
theorem tokens_checked (U : Uni) {vs : List Str} (toks : List Str) (ht : tokenTexts vs = toks)
    (h : ∀ v ∈ toks, unitA v = true) :
    Tokens U vs ((toks.map fun v => (kindA v, v)).filter fun k => k.1 ≠ .whitespace) := by
  refine ⟨toks.map fun v => (kindA v, v), ?_, ?_, rfl⟩
  · rw [List.map_map, ht]
    exact List.map_id toks
  · intro k hk
    obtain ⟨v, hv, rfl⟩ := List.mem_map.mp hk
    exact kindOf_unit U (h v hv)

end Baron.Text
