import Verif.Proofs.TextCheck
import Verif.Props.Text
import Verif.Props.Keyword
import Verif.Props.Start

/-!
# The starter's file is accepted by baron's own reader (C48)
-/

namespace Baron.Start

open Baron.Scanner Baron.Lexer Baron.Parser Baron.Text
open Baron.Strs (ExportedIdent IdentChar)

/-- The units of the starter's file before the package name. -/
def uPre1 : List Str :=
  ["\n", "syntax", " ", "=", " ", "\"proto3\"", ";", "\n\n", "package", " "].map String.toList
/-- Between the package name and the word `service`. -/
def uPre2 : List Str :=
  [";", "\n\n", "import", " ", "\"google/api/annotations.proto\"", ";", "\n\n"].map String.toList
/-- The service body. -/
def uBody : List Str :=
  ["\n  ", "rpc", " ", "Status", "(", "StatusRequest", ")", " ", "returns", " ", "(", "StatusResponse", ")",
   " ", "{", "\n    ", "option", " ", "(", "google", ".", "api", ".", "http", ")", " ", "=", " ", "{",
   "\n      ", "get", ":", " ", "\"/status\"", "\n    ", "}", ";", "\n  ", "}", "\n"].map String.toList
/-- After the service. -/
def uPost : List Str :=
  ["\n\n", "enum", " ", "ServiceStatus", " ", "{", "\n  ", "FAIL", " ", "=", " ", "0", ";", "\n  ", "OK", " ",
   "=", " ", "1", ";", "\n", "}", "\n\n", "message", " ", "StatusRequest", " ", "{", "\n  ", "bool", " ",
   "full", " ", "=", " ", "1", ";", "\n", "}", "\n\n", "message", " ", "StatusResponse", " ", "{", "\n  ",
   "ServiceStatus", " ", "status", " ", "=", " ", "1", ";", "\n", "}", "\n"].map String.toList

/-- The service the starter writes: one rpc `Status`, answering `GET /status`. -/
def starterService (name : Str) : Service :=
  ⟨name, [⟨"Status".toList, [], "StatusRequest".toList, "StatusResponse".toList,
    [⟨[], [⟨[], "get".toList, "/status".toList⟩], []⟩]⟩]⟩

/-- The same in the grammar of the specification. -/
def starterSvc (name : Str) : Grammar.ASvc :=
  { name := name
    rpcs := [{ pre := [], name := "Status".toList, req := ⟨false, [], "StatusRequest".toList⟩,
               resp := ⟨false, [], "StatusResponse".toList⟩,
               tail := .http { pre := []
                               skip := [(.openParen, "(".toList), (.ident, "google".toList), (.symbol, ".".toList),
                                 (.ident, "api".toList), (.symbol, ".".toList), (.ident, "http".toList),
                                 (.closeParen, ")".toList), (.symbol, "=".toList)]
                               body := ⟨[.field ⟨[], "get".toList, "\"/status\"".toList, "/status".toList⟩], []⟩
                               adds := [], post := [], preSemi := [], preEnd := [] } }]
    post := [] }

/-- A plain word. -/
def Word (w : Str) : Prop := w ≠ [] ∧ ∀ c ∈ w, IdentChar c

theorem identChar_identA {c : Char} (h : IdentChar c) : identA c = true ∧ c.toNat < 128 := by
  have lt : ∀ a b : Char, a ≤ b → a.toNat ≤ b.toNat := fun a b h => h
  have ascii : ∀ c : Char, (isAsciiLetter c = true ∨ isAsciiDigit c = true ∨ c = '_') → c.toNat < 128 := by
    intro c h
    rcases h with h | h | h
    · unfold isAsciiLetter isAsciiUpper isAsciiLower at h
      simp only [Bool.or_eq_true, Bool.and_eq_true, decide_eq_true_eq] at h
      have e1 : ('Z' : Char).toNat = 90 := rfl
      have e2 : ('z' : Char).toNat = 122 := rfl
      rcases h with h | h
      · have := lt _ _ h.2; omega
      · have := lt _ _ h.2; omega
    · unfold isAsciiDigit at h
      simp only [Bool.and_eq_true, decide_eq_true_eq] at h
      have e1 : ('9' : Char).toNat = 57 := rfl
      have := lt _ _ h.2; omega
    · subst h; decide
  refine ⟨?_, ?_⟩
  · rcases h with h | h | h
    · simp [identA, h]
    · simp [identA, h]
    · simp [identA, h]
  · exact ascii c h

theorem identA_head {c : Char} (h : identA c = true) : isSpace c = false ∧ c ≠ '"' ∧ c ≠ '/' := by
  refine ⟨?_, ?_, ?_⟩
  · have := ident_not_special asciiUni (c := c)
    cases hs : isSpace c with
    | false => rfl
    | true =>
      have h1 := asciiUni.space_not c hs
      have h2 := this (by
        unfold identA at h
        have e : isIdent asciiUni c = identA c := rfl
        rw [e]; exact h)
      rw [hs] at h2; exact absurd h2.2.2 (by simp)
  · intro e; subst e; exact absurd h (by decide)
  · intro e; subst e; exact absurd h (by decide)

theorem word_unit {w : Str} (h : Word w) : unitA w = true ∧ kindA w = .ident ∧ isComment w = false ∧
    w.head?.any isSpace = false ∧ w.head?.any identA = true := by
  obtain ⟨h0, h⟩ := h
  cases w with
  | nil => exact absurd rfl h0
  | cons c r =>
    have hc := identChar_identA (h c (by simp))
    obtain ⟨c1, c2, c3⟩ := identA_head hc.1
    refine ⟨?_, ?_, ?_, ?_, ?_⟩
    · unfold unitA
      rw [Bool.and_eq_true]
      refine ⟨?_, ?_⟩
      · rw [List.all_eq_true]
        intro x hx
        rw [decide_eq_true_eq]
        exact (identChar_identA (h x hx)).2
      · split
        · rename_i e; cases e
        · rename_i e; simp only [List.cons.injEq] at e; exact absurd e.1 c2
        · rename_i e; simp only [List.cons.injEq] at e; exact absurd e.1 c3
        · rename_i a b _ _ e
          simp only [List.cons.injEq] at e
          obtain ⟨rfl, rfl⟩ := e
          rw [hc.1, c1, Bool.false_and, Bool.false_or, Bool.true_and, Bool.or_eq_true]
          left
          rw [List.all_eq_true]
          intro x hx
          exact (identChar_identA (h x (by simp [hx]))).1
    · simp only [kindA, c1, hc.1, Bool.false_eq_true, if_false, if_true]
    · unfold isComment
      split
      · rename_i e; simp only [List.cons.injEq] at e; exact absurd e.1 c3
      · rfl
    · exact c1
    · exact hc.1

theorem identChar_lower {c : Char} (h : IdentChar c) : IdentChar (lowerC c) := by
  unfold lowerC
  split
  · rename_i hu
    left
    unfold isAsciiUpper at hu
    simp only [Bool.and_eq_true, decide_eq_true_eq, Char.le_def, UInt32.le_iff_toNat_le] at hu
    have e1 : ('A':Char).val.toNat = 65 := rfl
    have e2 : ('Z':Char).val.toNat = 90 := rfl
    have e3 : ('a':Char).val.toNat = 97 := rfl
    have e4 : ('z':Char).val.toNat = 122 := rfl
    rw [e1, e2] at hu
    have hcv : c.val.toNat = c.toNat := rfl
    have hv : (Char.ofNat (c.toNat + 32)).val.toNat = c.toNat + 32 := Strs.ofNat_toNat_small _ (by omega)
    unfold isAsciiLetter isAsciiLower
    simp only [Bool.or_eq_true, Bool.and_eq_true, decide_eq_true_eq, Char.le_def, UInt32.le_iff_toNat_le]
    left
    rw [hv, e3, e4]
    omega
  · exact h

theorem package_word (p : ProtoInfo) (h : ReasonableName p.alias) : Word p.packageName := by
  rw [(C36_package p).1]
  obtain ⟨c, r, he, hc, hr⟩ := h
  have hcc : c ≠ '-' ∧ c ≠ ' ' := ⟨by rintro rfl; exact absurd hc (by decide), by rintro rfl; exact absurd hc (by decide)⟩
  refine ⟨?_, ?_⟩
  · rw [he, List.filter_cons_of_pos (by simp [hcc]), List.map_cons]
    simp
  · intro x hx
    obtain ⟨y, hy, rfl⟩ := List.mem_map.mp hx
    obtain ⟨hy1, hy2⟩ := List.mem_filter.mp hy
    simp only [ne_eq, decide_eq_true_eq] at hy2
    apply identChar_lower
    rw [he] at hy1
    rcases List.mem_cons.mp hy1 with rfl | hm
    · exact Or.inl hc
    · rcases hr y hm with h | h | h
      · exact h
      · exact absurd h hy2.1
      · exact absurd h hy2.2

theorem service_word (p : ProtoInfo) (h : ReasonableName p.alias) :
    Word p.serviceName ∧ p.serviceName ≠ "service".toList := by
  obtain ⟨c, r, he, hc, hr⟩ := (C36_service p h).1
  rw [he]
  refine ⟨⟨by simp, ?_⟩, ?_⟩
  · intro x hx
    rcases List.mem_cons.mp hx with rfl | hm
    · left; unfold isAsciiLetter; rw [hc, Bool.or_true]
    · exact hr x hm
  · intro e
    have : c = 's' := by
      have := congrArg List.head? e
      simpa using this
    subst this
    exact absurd hc (by decide)

theorem followA_words {x y : Str} (h : x = [' '] ∨ x = [';'] ) (hy : Word y) : followA x y = true ∧ followA y x = true := by
  obtain ⟨-, -, -, h1, h2⟩ := word_unit hy
  unfold followA
  rw [h1, h2]
  rcases h with rfl | rfl <;> decide

theorem laidA_word {w : Str} (h : Word w) : laidA [w] = true := (word_unit h).1

/-- The starter's file is laid out as these units. -/
theorem starter_laid (U : Uni) (p : ProtoInfo) (h : ReasonableName p.alias) :
    renderStart p = ((uPre1 ++ p.packageName :: uPre2) ++ "service".toList :: ([[' '], p.serviceName, [' ']] ++
      ['{'] :: (uBody ++ ['}'] :: uPost))).flatten ∧
    Laid U ((uPre1 ++ p.packageName :: uPre2) ++ "service".toList :: ([[' '], p.serviceName, [' ']] ++
      ['{'] :: (uBody ++ ['}'] :: uPost))) := by
  have hp := package_word p h
  obtain ⟨hs, hns⟩ := service_word p h
  have htext : renderStart p = ((uPre1 ++ p.packageName :: uPre2) ++ "service".toList :: ([[' '], p.serviceName, [' ']] ++
      ['{'] :: (uBody ++ ['}'] :: uPost))).flatten := by
    unfold renderStart
    have t1 : tmplPackage = uPre1.flatten := by decide +kernel
    have t2 : tmplService = uPre2.flatten ++ "service".toList ++ [' '] := by decide +kernel
    have t3 : tmplRest = [' '] ++ ['{'] ++ uBody.flatten ++ ['}'] ++ uPost.flatten := by decide +kernel
    rw [t1, t2, t3]
    simp only [List.flatten_append, List.flatten_cons, List.flatten_nil, List.append_assoc, List.cons_append,
      List.nil_append]
  refine ⟨htext, ?_⟩
  · apply laidA_sound U
    have l1 : laidA uPre1 = true := by decide +kernel
    have l2 : laidA (uPre2 ++ ["service".toList, [' ']]) = true := by decide +kernel
    have l3 : laidA ([' '] :: ['{'] :: (uBody ++ ['}'] :: uPost)) = true := by decide +kernel
    have e1 : uPre1.getLast? = some [' '] := by decide +kernel
    have e2 : (uPre2 ++ ["service".toList, [' ']]).head? = some [';'] := by decide +kernel
    have e2' : (uPre2 ++ ["service".toList, [' ']]).getLast? = some [' '] := by decide +kernel
    have a3 : laidA ([p.serviceName] ++ [' '] :: ['{'] :: (uBody ++ ['}'] :: uPost)) = true := by
      refine laidA_append (laidA_word hs) l3 ?_
      intro x y hx hy
      simp only [List.getLast?_singleton, Option.some.injEq, List.head?_cons] at hx hy
      subst hx; subst hy
      exact (followA_words (.inl rfl) hs).2
    have a2 : laidA ((uPre2 ++ ["service".toList, [' ']]) ++ ([p.serviceName] ++ [' '] :: ['{'] :: (uBody ++ ['}'] :: uPost))) = true := by
      refine laidA_append l2 a3 ?_
      intro x y hx hy
      rw [e2'] at hx
      simp only [Option.some.injEq, List.head?_cons, List.cons_append] at hx hy
      subst hx; subst hy
      exact (followA_words (.inl rfl) hs).1
    have a1 : laidA ([p.packageName] ++ ((uPre2 ++ ["service".toList, [' ']]) ++
        ([p.serviceName] ++ [' '] :: ['{'] :: (uBody ++ ['}'] :: uPost)))) = true := by
      refine laidA_append (laidA_word hp) a2 ?_
      intro x y hx hy
      rw [List.head?_append, e2] at hy
      simp only [List.getLast?_singleton, Option.some.injEq, Option.some_or] at hx hy
      subst hx; subst hy
      exact (followA_words (.inr rfl) hp).2
    have a0 := laidA_append l1 a1 (by
      intro x y hx hy
      rw [e1] at hx
      simp only [Option.some.injEq, List.head?_cons, List.cons_append] at hx hy
      subst hx; subst hy
      exact (followA_words (.inl rfl) hp).1)
    simp only [List.append_assoc, List.cons_append, List.nil_append] at a0 ⊢
    exact a0

/-- The starter's file is a file in the sense of the specification. -/
theorem starter_file (U : Uni) (p : ProtoInfo) (h : ReasonableName p.alias) (hne : p.packageName ≠ "service".toList) :
    File U (renderStart p) (uPre1 ++ p.packageName :: uPre2) [[' '], p.serviceName, [' ']] uBody uPost := by
  have hp := package_word p h
  obtain ⟨hs, hns⟩ := service_word p h
  obtain ⟨-, kp, -, -, -⟩ := word_unit hp
  obtain ⟨-, ks, -, -, -⟩ := word_unit hs
  have hob : ∀ w : Str, Word w → w ≠ ['{'] ∧ w ≠ ['}'] := by
    rintro w ⟨-, hw⟩
    refine ⟨?_, ?_⟩
    · rintro rfl; exact absurd (hw '{' (by simp)) (by unfold IdentChar; decide)
    · rintro rfl; exact absurd (hw '}' (by simp)) (by unfold IdentChar; decide)
  obtain ⟨htext, hlaid⟩ := starter_laid U p h
  refine ⟨hlaid, htext, ?_, ?_, ?_, ?_, ?_, ?_, ?_, ?_, ?_, ?_⟩
  · rw [List.mem_append, List.mem_cons, not_or, not_or]
    exact ⟨by decide +kernel, fun e => hne e.symm, by decide +kernel⟩
  · simp only [List.mem_cons, List.not_mem_nil, or_false, not_or]
    exact ⟨by decide, fun e => hns e.symm, by decide⟩
  · decide +kernel
  · decide +kernel
  · unfold depthOf
    rw [List.map_append, List.map_cons, List.sum_append, List.sum_cons]
    have : braceDelta p.packageName = 0 := by
      unfold braceDelta
      rw [if_neg (hob _ hp).1, if_neg (hob _ hp).2]
    rw [this]
    decide +kernel
  · simp only [List.mem_cons, List.not_mem_nil, or_false, not_or]
    exact ⟨by decide, fun e => (hob _ hs).1 e.symm, by decide⟩
  · simp only [List.mem_cons, List.not_mem_nil, or_false, not_or]
    exact ⟨by decide, fun e => (hob _ hs).2 e.symm, by decide⟩
  · have key : ∀ n ∈ List.range (uBody.length + 1), 0 ≤ depthOf (uBody.take n) := by decide +kernel
    intro a b e
    have := key a.length (by rw [List.mem_range, e, List.length_append]; omega)
    rw [e, List.take_left] at this
    exact this
  · decide +kernel
  · decide +kernel

/-- **C48** For every reasonable name whose package is not called `service`, the file the starter writes is read by
baron's own parser as the service it announces: named after the argument, with one rpc `Status` at `GET /status`. -/
theorem C48_starter_parses (U : Uni) (unq : Str → Option Str) (p : ProtoInfo) (h : ReasonableName p.alias)
    (hne : p.packageName ≠ "service".toList) (hq : unq "\"/status\"".toList = some "/status".toList) :
    ∃ ts, lexText U .init (renderStart p) = .ok ts ∧ parseService unq ts = .ok (starterService p.serviceName) := by
  obtain ⟨hs, -⟩ := service_word p h
  obtain ⟨us, ks, cs, ss, -⟩ := word_unit hs
  have hwf : (starterSvc p.serviceName).WF unq := by
    intro r hr
    simp only [starterSvc, List.mem_singleton] at hr
    subst hr
    refine ⟨by intro _; decide +kernel, by intro _; decide +kernel, ?_, ?_, ?_⟩
    · unfold Grammar.SkipOK; decide +kernel
    · intro i hi
      simp only [List.mem_singleton] at hi
      subst hi
      exact ⟨by decide +kernel, by decide +kernel, hq⟩
    · intro a ha; cases ha
  have hm : (starterSvc p.serviceName).meaning = starterService p.serviceName := by rfl
  rw [← hm]
  refine C11_text U unq _ _ _ _ _ (starter_file U p h hne) _ hwf ?_
  have hlaid : laidA (serviceUnits [[' '], p.serviceName, [' ']] uBody) = true := by
    have l1 : laidA ["service".toList, [' ']] = true := by decide +kernel
    have l3 : laidA ([' '] :: ['{'] :: (uBody ++ [['}']])) = true := by decide +kernel
    have a3 : laidA ([p.serviceName] ++ [' '] :: ['{'] :: (uBody ++ [['}']])) = true := by
      refine laidA_append (laidA_word hs) l3 ?_
      intro x y hx hy
      simp only [List.getLast?_singleton, Option.some.injEq, List.head?_cons] at hx hy
      subst hx; subst hy
      exact (followA_words (.inl rfl) hs).2
    exact laidA_append l1 a3 (by
      intro x y hx hy
      simp only [List.getLast?_cons_cons, List.getLast?_singleton, Option.some.injEq, List.head?_cons] at hx hy
      subst hx; subst hy
      exact (followA_words (.inl rfl) hs).1)
  have hcomm : ∀ v ∈ serviceUnits [[' '], p.serviceName, [' ']] uBody, isComment v = false := by
    intro v hv
    have e : serviceUnits [[' '], p.serviceName, [' ']] uBody =
      ["service".toList, [' ']] ++ p.serviceName :: ([' '] :: ['{'] :: (uBody ++ [['}']])) := rfl
    rw [e] at hv
    have d1 : ∀ v ∈ ["service".toList, [' ']], isComment v = false := by decide +kernel
    have d2 : ∀ v ∈ [' '] :: ['{'] :: (uBody ++ [['}']]), isComment v = false := by decide +kernel
    rcases List.mem_append.mp hv with hv | hv
    · exact d1 v hv
    · rcases List.mem_cons.mp hv with hv | hv
      · rw [hv]; exact cs
      · exact d2 v hv
  have ht := tokens_plain U hlaid hcomm
  have e : ((serviceUnits [[' '], p.serviceName, [' ']] uBody).map fun v => (kindA v, v)).filter
      (fun k => k.1 ≠ .whitespace) = (starterSvc p.serviceName).print := by
    have e : serviceUnits [[' '], p.serviceName, [' ']] uBody =
      ["service".toList, [' ']] ++ ([p.serviceName] ++ ([' '] :: ['{'] :: (uBody ++ [['}']]))) := rfl
    rw [e, List.map_append, List.map_append, List.filter_append, List.filter_append]
    have e1 : (["service".toList, [' ']].map fun v => (kindA v, v)).filter (fun k => k.1 ≠ .whitespace) =
        [Grammar.kw "service"] := by decide +kernel
    have e2 : ([p.serviceName].map fun v => (kindA v, v)).filter (fun k => k.1 ≠ .whitespace) =
        [(.ident, p.serviceName)] := by
      rw [List.map_cons, ks]; rfl
    have e3 : ∀ n : Str, ((([' '] :: ['{'] :: (uBody ++ [['}']])).map fun v => (kindA v, v)).filter (fun k => k.1 ≠ .whitespace)) =
        ((starterSvc n).print).drop 2 := by
      intro n
      have : ((starterSvc n).print).drop 2 = ((starterSvc []).print).drop 2 := rfl
      rw [this]
      decide +kernel
    rw [e1, e2, e3 p.serviceName]
    rfl
  rw [e] at ht
  exact ht

/-- **C48** When the package is called `service` (whatever the capitals, dashes and blanks of the argument), baron rejects
the file it wrote itself: the word in `package service;` is taken for the keyword. -/
theorem C48_package_service (U : Uni) (unq : Str → Option Str) (p : ProtoInfo) (h : ReasonableName p.alias)
    (he : p.packageName = "service".toList) (ts : List TokenGroup) (hl : lexText U .init (renderStart p) = .ok ts) :
    ∃ e, parseService unq ts = .error e := by
  obtain ⟨htext, hlaid⟩ := starter_laid U p h
  rw [he] at htext hlaid
  have e2 : uPre2 = [] ++ [';'] :: uPre2.tail := by decide +kernel
  have eu : ∀ z : List Str, (uPre1 ++ "service".toList :: uPre2) ++ z =
      uPre1 ++ "service".toList :: ([] ++ [';'] :: (uPre2.tail ++ z)) := by
    intro z
    rw [List.append_assoc, List.cons_append]
    conv => lhs; rw [e2]
    rfl
  rw [eu] at htext hlaid
  rw [htext] at hl
  refine C66_other_use U unq uPre1 [] _ [';'] hlaid (by decide +kernel) (by simp) .symbol ?_ (by decide) (by decide) ts hl
  refine ⟨';', rfl, by decide, ?_, ?_, by decide⟩
  · rw [U.letter_ascii ';' (by decide)]; decide
  · rw [U.digit_ascii ';' (by decide)]; decide

/-- **C48** So, for every reasonable name: baron reads its own starter file exactly when the package is not called
`service`, and then as the service announced. -/
theorem C48_iff (U : Uni) (unq : Str → Option Str) (p : ProtoInfo) (h : ReasonableName p.alias)
    (hq : unq "\"/status\"".toList = some "/status".toList) :
    (∃ ts s, lexText U .init (renderStart p) = .ok ts ∧ parseService unq ts = .ok s) ↔
      p.packageName ≠ "service".toList := by
  constructor
  · rintro ⟨ts, s, h1, h2⟩ he
    obtain ⟨e, h3⟩ := C48_package_service U unq p h he ts h1
    rw [h2] at h3; cases h3
  · intro hne
    obtain ⟨ts, h1, h2⟩ := C48_starter_parses U unq p h hne hq
    exact ⟨ts, _, h1, h2⟩

/-- The message baron gives for the name `Ser-Vice`. -/
theorem C48_package_service_witness :
    (match lexText asciiUni .init (renderStart ⟨"Ser-Vice".toList, []⟩) with
      | .ok ts => parseService plainUnq ts
      | _ => .error .fuel) = .error (.expected .svcName 4 ";".toList) ∧
    (ProtoInfo.mk "Ser-Vice".toList []).packageName = "service".toList := by
  refine ⟨?_, ?_⟩ <;> decide +kernel

/-- A name that meets the hypotheses. -/
example : ReasonableName "my-first svc2".toList ∧
    (ProtoInfo.mk "my-first svc2".toList []).packageName ≠ "service".toList := by
  refine ⟨⟨'m', "y-first svc2".toList, rfl, by decide, ?_⟩, by decide +kernel⟩
  unfold IdentChar
  decide +kernel

end Baron.Start
