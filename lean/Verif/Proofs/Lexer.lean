import Verif.Spec.Lexer
import Verif.Proofs.Scanner

namespace Baron.Lexer

open Baron.Scanner

theorem dec_ne_self {a b : Str} (h : a = b) : ¬ decide (a ≠ b) = true := by simp [h]
theorem dec_ne_of {a b : Str} (h : ¬ a = b) : decide (a ≠ b) = true := by simp [h]

/-- The unit is not the word `service`. -/
def notSvc (u : ScanUnit) : Bool := decide (u.value ≠ "service".toList)

theorem dw_stop (u : ScanUnit) (r : List ScanUnit) (h : u.value = "service".toList) :
    (u :: r).dropWhile notSvc = u :: r := List.dropWhile_cons_of_neg (dec_ne_self h)

theorem dw_skip (u : ScanUnit) (r : List ScanUnit) (h : ¬ u.value = "service".toList) :
    (u :: r).dropWhile notSvc = r.dropWhile notSvc := List.dropWhile_cons_of_pos (dec_ne_of h)

/-! ### The scanner cursor as a zipper -/

def stOf (buf : List ScanUnit) (p : Nat) (u : ScanUnit) : SvcScanner :=
  ⟨u.inDef, u.inBody, u.braceLevel, buf, p, u.lineNo⟩

def stZ (pre rest : List ScanUnit) : SvcScanner :=
  match pre.getLast? with
  | none => SvcScanner.ofUnits (pre ++ rest)
  | some u => stOf (pre ++ rest) pre.length u

theorem stZ_buf (pre rest) : (stZ pre rest).buf = pre ++ rest := by
  unfold stZ; split <;> rfl

theorem stZ_pos (pre rest) : (stZ pre rest).unitPos = pre.length := by
  unfold stZ; split
  · rename_i h; simp at h; simp [h, SvcScanner.ofUnits]
  · rfl

theorem stZ_snoc (pre rest u) : stZ (pre ++ [u]) rest = stOf (pre ++ u :: rest) (pre.length + 1) u := by
  simp [stZ]

theorem readUnit_stZ (pre rest u) :
    (stZ pre (u :: rest)).readUnit = some (u.value, stZ (pre ++ [u]) rest) := by
  have h : (stZ pre (u :: rest)).buf[(stZ pre (u :: rest)).unitPos]? = some u := by
    rw [stZ_buf, stZ_pos]; simp
  unfold SvcScanner.readUnit
  rw [h]
  simp only [stZ_snoc, stOf, stZ_buf, stZ_pos]

theorem readUnit_stZ_nil (pre) : (stZ pre []).readUnit = none := by
  have h : (stZ pre []).buf[(stZ pre []).unitPos]? = none := by
    rw [stZ_buf, stZ_pos]; simp
  unfold SvcScanner.readUnit
  rw [h]

theorem unreadUnit_stZ (pre rest u) (h : pre ≠ []) :
    (stZ (pre ++ [u]) rest).unreadUnit = .ok (stZ pre (u :: rest)) := by
  obtain ⟨p', v, rfl⟩ : ∃ p' v, pre = p' ++ [v] := ⟨pre.dropLast, pre.getLast h, (List.dropLast_concat_getLast h).symm⟩
  rw [stZ_snoc, stZ_snoc]
  simp [stOf, SvcScanner.unreadUnit]

theorem backTo_stZ (pre rest a) (h : pre ≠ []) :
    backTo pre.length (stZ (pre ++ a) rest) = .ok (stZ pre (a ++ rest)) := by
  have key : ∀ (n : Nat) (a rest : List ScanUnit), a.length ≤ n →
      (stZ (pre ++ a) rest).unreadTo pre.length n = .ok (stZ pre (a ++ rest)) := by
    intro n
    induction n with
    | zero =>
      intro a rest ha
      have : a = [] := by simpa using ha
      subst this
      simp [SvcScanner.unreadTo, stZ_pos]
    | succ n ih =>
      intro a rest ha
      rcases List.eq_nil_or_concat a with rfl | ⟨a', u, rfl⟩
      · simp [SvcScanner.unreadTo, stZ_pos]
      · simp only [List.concat_eq_append] at *
        unfold SvcScanner.unreadTo
        rw [if_neg (by rw [stZ_pos]; simp), ← List.append_assoc, unreadUnit_stZ _ _ _ (by simp [h])]
        simp only
        rw [ih a' (u :: rest) (by simp at ha; omega)]
        simp
  unfold backTo
  rw [key _ a rest (by rw [stZ_pos]; simp)]

/-! ### The comment merging loop over the remaining units -/

def mergeRest (last : ScanUnit) (str : Str) : List ScanUnit → Option (Str × ScanUnit × List ScanUnit)
  | [] => none
  | one :: r =>
    if isCommentUnit one.value then mergeRest one (str ++ one.value) r
    else if isSpaceUnit one.value then
      if one.value.count '\n' = 0 then
        match r with
        | [] => none
        | two :: r' =>
          if isCommentUnit two.value then mergeRest two (str ++ (one.value ++ two.value)) r'
          else some (str, last, one :: two :: r')
      else some (str, last, one :: r)
    else some (str, last, one :: r)

theorem commentLoop_eq (n : Nat) (pre rest : List ScanUnit) (u : ScanUnit) (str : Str) (h : rest.length < n) :
    commentLoop n (stZ (pre ++ [u]) rest) str =
      match mergeRest u str rest with
      | none => .panic
      | some (str', u', rest') =>
        .ok (str', stOf (pre ++ u :: rest) ((pre ++ u :: rest).length - rest'.length) u') := by
  induction n generalizing pre rest u str with
  | zero => omega
  | succ n ih =>
    unfold commentLoop
    match rest with
    | [] => rw [readUnit_stZ_nil]; rfl
    | one :: r =>
      rw [readUnit_stZ]
      simp only
      unfold mergeRest
      by_cases h1 : isCommentUnit one.value = true
      · rw [if_pos h1, if_pos h1, ih (pre ++ [u]) r one _ (by simp at h; omega)]
        simp
      · rw [if_neg h1, if_neg h1]
        have hb1 : backTo (stZ (pre ++ [u]) (one :: r)).unitPos (stZ (pre ++ [u] ++ [one]) r) =
            .ok (stOf (pre ++ u :: one :: r) ((pre ++ u :: one :: r).length - (one :: r).length) u) := by
          rw [stZ_pos, backTo_stZ _ _ _ (by simp), List.singleton_append, stZ_snoc]
          congr 2
          simp; omega
        by_cases h2 : isSpaceUnit one.value = true
        · rw [if_pos h2, if_pos h2]
          by_cases h3 : one.value.count '\n' = 0
          · rw [if_pos h3, if_pos h3]
            match r with
            | [] => rw [readUnit_stZ_nil]
            | two :: r' =>
              rw [readUnit_stZ]
              simp only
              by_cases h4 : isCommentUnit two.value = true
              · rw [if_pos h4, if_pos h4, ih (pre ++ [u] ++ [one]) r' two _ (by simp at h; omega)]
                simp
              · rw [if_neg h4, if_neg h4, stZ_pos,
                  show pre ++ [u] ++ [one] ++ [two] = (pre ++ [u]) ++ [one, two] by simp,
                  backTo_stZ _ _ _ (by simp)]
                simp only [List.cons_append, List.nil_append, stZ_snoc, Out.ok.injEq, Prod.mk.injEq, true_and]
                congr 1
                simp; omega
          · rw [if_neg h3, if_neg h3, hb1]
        · rw [if_neg h2, if_neg h2, hb1]

theorem mergeRest_spec (last : ScanUnit) (str : Str) (rest : List ScanUnit) :
    ∀ str' last' rest', mergeRest last str rest = some (str', last', rest') →
    ∃ a, rest = a ++ rest' ∧ str' = str ++ textOf a ∧ last' = (a.getLast?).getD last ∧
      (∀ u ∈ a, isCommentUnit u.value = true ∨ (isSpaceUnit u.value = true ∧ u.value.count '\n' = 0)) := by
  fun_induction mergeRest last str rest with
  | case1 => intro _ _ _ h; simp at h
  | case2 last str one r h1 ih =>
    intro str' last' rest' h
    obtain ⟨a, e1, e2, e3, e4⟩ := ih _ _ _ h
    refine ⟨one :: a, by simp [e1], by simp [e2, textOf], ?_, ?_⟩
    · rw [e3]; cases a <;> simp [List.getLast?_cons]
    · intro u hu
      rcases List.mem_cons.mp hu with rfl | hu
      · exact .inl h1
      · exact e4 u hu
  | case3 => intro _ _ _ h; simp at h
  | case4 last str one h1 h2 h3 two r' h4 ih =>
    intro str' last' rest' h
    obtain ⟨a, e1, e2, e3, e4⟩ := ih _ _ _ h
    refine ⟨one :: two :: a, by simp [e1], by simp [e2, textOf], ?_, ?_⟩
    · rw [e3]; cases a <;> simp [List.getLast?_cons]
    · intro u hu
      simp only [List.mem_cons] at hu
      rcases hu with rfl | rfl | hu
      · exact .inr ⟨h2, h3⟩
      · exact .inl h4
      · exact e4 u hu
  | case5 last str one h1 h2 h3 two r' h4 =>
    intro str' last' rest' h
    simp only [Option.some.injEq, Prod.mk.injEq] at h
    obtain ⟨rfl, rfl, rfl⟩ := h
    exact ⟨[], by simp [textOf]⟩
  | case6 last str one r h1 h2 h3 =>
    intro str' last' rest' h
    simp only [Option.some.injEq, Prod.mk.injEq] at h
    obtain ⟨rfl, rfl, rfl⟩ := h
    exact ⟨[], by simp [textOf]⟩
  | case7 last str one r h1 h2 =>
    intro str' last' rest' h
    simp only [Option.some.injEq, Prod.mk.injEq] at h
    obtain ⟨rfl, rfl, rfl⟩ := h
    exact ⟨[], by simp [textOf]⟩

/-! ### The lexer loop over the remaining units -/

/-- The token starting with unit `u`, the last unit it consumed and the units after it; `none` is a panic. -/
def nextTok (U : Uni) (u : ScanUnit) (r : List ScanUnit) : Option (TokenGroup × ScanUnit × List ScanUnit) :=
  if classify U u.value = .comment then
    (mergeRest u u.value r).map fun x => (⟨.comment, x.1, x.2.1.lineNo⟩, x.2.1, x.2.2)
  else some (⟨classify U u.value, u.value, u.lineNo⟩, u, r)

/-- Skip to the next word `service` unless already inside. -/
def skipTo (ins : Bool) (us : List ScanUnit) : List ScanUnit :=
  if ins then us else us.dropWhile notSvc

def lexL (U : Uni) : Nat → Bool → List ScanUnit → Out (List TokenGroup)
  | 0, _, _ => .ok []
  | n + 1, ins, us =>
    match skipTo ins us with
    | [] => .ok []
    | u :: r =>
      match nextTok U u r with
      | none => .panic
      | some (t, u', r') =>
        if t.token = .illegal then .ok []
        else match lexL U n (Inside u') r' with
          | .ok ts => .ok (t :: ts)
          | _ => .panic

/-- The state flags of the scanner cursor. -/
def insideS (s : SvcScanner) : Bool := s.inDef || s.inBody || decide (s.braceLevel ≠ 0)

theorem insideS_stOf (buf p u) : insideS (stOf buf p u) = Inside u := rfl

theorem ffLoop_stZ (n : Nat) (pre rest : List ScanUnit) (h : rest.length < n) :
    match rest.dropWhile notSvc with
    | [] => ∃ s, ffLoop n (stZ pre rest) = (s, false)
    | u :: r => ∃ a s, rest = a ++ u :: r ∧ ffLoop n (stZ pre rest) = (s, true) ∧
        s.readUnit = some (u.value, stZ (pre ++ a ++ [u]) r) ∧ s.buf = pre ++ rest := by
  induction n generalizing pre rest with
  | zero => omega
  | succ n ih =>
    unfold ffLoop
    match rest with
    | [] => rw [readUnit_stZ_nil]; exact ⟨_, rfl⟩
    | v :: rest =>
      rw [readUnit_stZ]
      simp only
      by_cases hv : v.value = "service".toList
      · rw [if_pos hv]
        rw [dw_stop _ _ hv]
        refine ⟨[], _, rfl, rfl, ?_, ?_⟩
        · have : ∀ w, (SvcScanner.readUnit { stZ (pre ++ [v]) rest with
              unitPos := (stZ (pre ++ [v]) rest).unitPos - 1 }) = w →
              w = some (v.value, stZ (pre ++ [v]) rest) := by
            intro w hw
            rw [← hw]
            unfold SvcScanner.readUnit
            simp only [stZ_snoc, stOf]
            simp
          simpa using this _ rfl
        · simp [stZ_buf]
      · rw [if_neg hv]
        rw [dw_skip _ _ hv]
        have := ih (pre ++ [v]) rest (by simp at h; omega)
        split at this
        · exact this
        · rename_i u r hd
          obtain ⟨a, s, e1, e2, e3, e4⟩ := this
          refine ⟨v :: a, s, by simp [e1], e2, ?_, ?_⟩
          · rw [e3]; simp
          · rw [e4]; simp

/-- What the loop does with a token just read. -/
def afterRead (U : Uni) (n : Nat) : Out (TokenGroup × SvcScanner) → Out (List TokenGroup)
  | .ok (t, s') =>
    if t.token = Tok.illegal ∨ t.token = Tok.eof then .ok []
    else match lexLoop U n s' with
      | .ok ts => .ok (t :: ts)
      | _ => .panic
  | _ => .panic

theorem lexLoop_succ (U : Uni) (n : Nat) (s : SvcScanner) :
    lexLoop U (n + 1) s = afterRead U n (newTokenGroup U s) := by
  unfold lexLoop afterRead
  rfl

theorem classify_ne_eof (U : Uni) (v : Str) : classify U v ≠ .eof := by
  unfold classify
  repeat' split
  all_goals simp

theorem readToken_eq (U : Uni) (s : SvcScanner) (pre : List ScanUnit) (u : ScanUnit) (r : List ScanUnit)
    (hs : s.readUnit = some (u.value, stZ (pre ++ [u]) r)) (hlen : r.length < s.buf.length + 1) :
    readToken U s = match nextTok U u r with
      | none => .panic
      | some (t, u', r') => .ok (t, stOf (pre ++ u :: r) ((pre ++ u :: r).length - r'.length) u') := by
  unfold readToken nextTok
  rw [hs]
  simp only
  have hst : stOf (pre ++ u :: r) ((pre ++ u :: r).length - r.length) u = stZ (pre ++ [u]) r := by
    rw [stZ_snoc]; congr 1; simp; omega
  have hline : (stZ (pre ++ [u]) r).lineNo = u.lineNo := by rw [stZ_snoc]; rfl
  cases hc : classify U u.value with
  | comment =>
    simp only [if_true]
    rw [commentLoop_eq _ _ _ _ _ hlen]
    cases hm : mergeRest u u.value r with
    | none => rfl
    | some x => rfl
  | eof => exact absurd hc (classify_ne_eof U _)
  | _ => simp only [hst, hline, reduceCtorEq, if_false]

theorem nextTok_spec (U : Uni) (u : ScanUnit) (r : List ScanUnit) (t u' r')
    (h : nextTok U u r = some (t, u', r')) :
    ∃ a, r = a ++ r' ∧ t.value = textOf (u :: a) ∧ u' = (a.getLast?).getD u ∧
      t.token = classify U u.value ∧ t.line = u'.lineNo ∧
      (a = [] ∨ classify U u.value = .comment) ∧
      (∀ w ∈ a, isCommentUnit w.value = true ∨ (isSpaceUnit w.value = true ∧ w.value.count '\n' = 0)) := by
  unfold nextTok at h
  split at h
  · rename_i hc
    simp only [Option.map_eq_some_iff, Prod.mk.injEq] at h
    obtain ⟨⟨str, u1, r1⟩, hm, rfl, rfl, rfl⟩ := h
    obtain ⟨a, e1, e2, e3, e4⟩ := mergeRest_spec _ _ _ _ _ _ hm
    exact ⟨a, e1, by simp [e2, textOf], e3, hc.symm, rfl, .inr hc, e4⟩
  · simp only [Option.some.injEq, Prod.mk.injEq] at h
    obtain ⟨rfl, rfl, rfl⟩ := h
    exact ⟨[], by simp [textOf]⟩

theorem afterRead_eq (U : Uni) (n : Nat)
    (ih : ∀ pre rest, lexLoop U n (stZ pre rest) = lexL U n (insideS (stZ pre rest)) rest)
    (s : SvcScanner) (pre : List ScanUnit) (u : ScanUnit) (r : List ScanUnit)
    (hs : s.readUnit = some (u.value, stZ (pre ++ [u]) r)) (hlen : r.length < s.buf.length + 1) :
    afterRead U n (readToken U s) = match nextTok U u r with
      | none => .panic
      | some (t, u', r') =>
        if t.token = .illegal then .ok []
        else match lexL U n (Inside u') r' with
          | .ok ts => .ok (t :: ts)
          | _ => .panic := by
  rw [readToken_eq U s pre u r hs hlen]
  cases hn : nextTok U u r with
  | none => rfl
  | some x =>
    obtain ⟨t, u', r'⟩ := x
    obtain ⟨a, e1, -, e3, e4, -, -, -⟩ := nextTok_spec U _ _ _ _ _ hn
    have hst : stOf (pre ++ u :: r) ((pre ++ u :: r).length - r'.length) u' = stZ (pre ++ u :: a) r' := by
      rcases List.eq_nil_or_concat a with rfl | ⟨a', w, rfl⟩
      · simp at e1 e3; subst e1; subst e3; rw [stZ_snoc]; congr 1; simp; omega
      · simp only [List.concat_eq_append] at *
        simp at e3
        subst e3
        rw [show pre ++ u :: (a' ++ [u']) = (pre ++ u :: a') ++ [u'] by simp, stZ_snoc, e1]
        congr 1
        · simp
        · simp; omega
    have hne : t.token ≠ .eof := by rw [e4]; exact classify_ne_eof U _
    simp only [afterRead, hne, or_false]
    rw [hst, ih, ← hst, insideS_stOf]

theorem newTokenGroup_inside (U : Uni) (s : SvcScanner) (h : insideS s = true) :
    newTokenGroup U s = readToken U s := by
  unfold newTokenGroup
  split
  · rename_i hb
    have : (s.inBody || s.inDef) = true := by
      simp only [insideS, hb, ne_eq, not_true_eq_false, decide_false, Bool.or_false] at h
      rw [Bool.or_comm]; exact h
    simp [SvcScanner.fastForward, this]
  · rfl

theorem newTokenGroup_outside (U : Uni) (s : SvcScanner) (h : insideS s = false) :
    newTokenGroup U s = match ffLoop (s.buf.length + 1) s with
      | (s', false) => .ok (⟨.eof, [], s'.lineNo⟩, s')
      | (s', true) => readToken U s' := by
  simp only [insideS, Bool.or_eq_false_iff, decide_eq_false_iff_not, Decidable.not_not] at h
  unfold newTokenGroup
  rw [if_pos h.2]
  have hf : s.fastForward = ffLoop (s.buf.length + 1) s := by
    simp [SvcScanner.fastForward, h.1.1, h.1.2]
  rw [hf]
  cases ffLoop (s.buf.length + 1) s with
  | mk s' b => cases b <;> rfl

theorem lexLoop_eq (U : Uni) (n : Nat) (pre rest : List ScanUnit) :
    lexLoop U n (stZ pre rest) = lexL U n (insideS (stZ pre rest)) rest := by
  induction n generalizing pre rest with
  | zero => rfl
  | succ n ih =>
    rw [lexLoop_succ]
    unfold lexL
    cases hi : insideS (stZ pre rest) with
    | true =>
      rw [newTokenGroup_inside U _ hi]
      simp only [skipTo, if_true]
      match rest with
      | [] =>
        unfold readToken
        rw [readUnit_stZ_nil]
        simp [afterRead]
      | u :: r =>
        exact afterRead_eq U n ih _ pre u r (readUnit_stZ pre r u) (by rw [stZ_buf]; simp; omega)
    | false =>
      rw [newTokenGroup_outside U _ hi]
      have hff := ffLoop_stZ ((stZ pre rest).buf.length + 1) pre rest (by rw [stZ_buf]; simp; omega)
      simp only [skipTo, Bool.false_eq_true, if_false]
      split at hff
      · rename_i hd
        obtain ⟨s, hs⟩ := hff
        rw [hs]
        simp [afterRead]
      · rename_i u r hd
        obtain ⟨a, s, e1, e2, e3, e4⟩ := hff
        rw [e2]
        exact afterRead_eq U n ih s (pre ++ a) u r e3 (by rw [e4, e1]; simp; omega)

theorem lexUnits_eq (U : Uni) (b : List ScanUnit) : lexUnits U b = lexL U (b.length + 1) false b := by
  have := lexLoop_eq U (b.length + 1) [] b
  simpa [stZ, lexUnits, insideS, SvcScanner.ofUnits] using this

end Baron.Lexer
