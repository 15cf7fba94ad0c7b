import Verif.Spec.Lexer
import Verif.Spec.Grammar

/-!
# Texts: how a .proto text is written as units, tokens and white space

This is the specification used by the end-to-end theorems: a text is the concatenation of its units, and the tokens of a
run of units are the units themselves, except that a comment takes in the comments that follow it on the same or the next
line.
-/

namespace Baron.Text

open Baron.Scanner Baron.Lexer Baron.Parser

/-- The ways to write one unit of text. -/
inductive UnitText (U : Uni) : Str → Prop where
  | space {v} : v ≠ [] → (∀ c ∈ v, isSpace c = true) → UnitText U v
  | word {v} : v ≠ [] → (∀ c ∈ v, isIdent U c = true) → UnitText U v
  | str {b} : StrBody b → UnitText U ('"' :: (b ++ ['"']))
  | line {m} : '\n' ∉ m → UnitText U ('/' :: '/' :: (m ++ ['\n']))
  | block {m} : '*' ∉ m → UnitText U ('/' :: '*' :: (m ++ ['*', '/']))
  | symbol {c} : isSpace c = false → isIdent U c = false → c ≠ '"' → c ≠ '/' → UnitText U [c]

/-- Two units that may stand next to each other: not two runs of white space, not two words. -/
def MayFollow (U : Uni) (v w : Str) : Prop :=
  ¬ (v.head?.any isSpace = true ∧ w.head?.any isSpace = true) ∧
  ¬ (v.head?.any (isIdent U) = true ∧ w.head?.any (isIdent U) = true)

/-- A list of units that, written one after the other, are again exactly these units. -/
inductive Laid (U : Uni) : List Str → Prop where
  | nil : Laid U []
  | one {v} : UnitText U v → Laid U [v]
  | cons {v w r} : UnitText U v → MayFollow U v w → Laid U (w :: r) → Laid U (v :: w :: r)

/-- `//…` or `/*…*/`. -/
def isComment (v : Str) : Bool := match v with
  | '/' :: _ :: _ => true
  | _ => false

/-- White space that does not leave the line. -/
def isBlank (v : Str) : Bool := v.head?.any isSpace && !v.contains '\n'

/-- The comment `acc` together with the comments directly after it (blanks may separate them): its full text and the
units after it. -/
def absorb (acc : Str) : List Str → Str × List Str
  | [] => (acc, [])
  | [v] => if isComment v then (acc ++ v, []) else (acc, [v])
  | v :: w :: r =>
    if isComment v then absorb (acc ++ v) (w :: r)
    else if isBlank v && isComment w then absorb (acc ++ v ++ w) r
    else (acc, v :: w :: r)

theorem absorb_length (acc : Str) (l : List Str) : (absorb acc l).2.length ≤ l.length := by
  fun_induction absorb acc l with
  | case1 => exact Nat.le_refl _
  | case2 => exact Nat.zero_le _
  | case3 => exact Nat.le_refl _
  | case4 acc v w r h ih => rw [List.length_cons]; omega
  | case5 acc v w r h1 h2 ih => rw [List.length_cons, List.length_cons]; omega
  | case6 => exact Nat.le_refl _

/-- The token texts of a run of units. -/
def tokenTexts (l : List Str) : List Str :=
  match l with
  | [] => []
  | v :: r =>
    if isComment v then (absorb v r).1 :: tokenTexts (absorb v r).2
    else v :: tokenTexts r
termination_by l.length
decreasing_by
  · exact Nat.lt_succ_of_le (absorb_length v r)
  · exact Nat.lt_succ_self _

/-- The token texts with their kinds, white space left out. -/
def Tokens (U : Uni) (l : List Str) (toks : Grammar.Toks) : Prop :=
  ∃ ks : List (Tok × Str), ks.map (·.2) = tokenTexts l ∧ (∀ k ∈ ks, KindOf U k.2 k.1) ∧
    toks = ks.filter (fun k => k.1 ≠ .whitespace)

/-- A file: text before the service, the service's header and body, and text after it. -/
structure File (U : Uni) (text : Str) (pre hdr body post : List Str) : Prop where
  laid : Laid U (pre ++ "service".toList :: (hdr ++ ['{'] :: (body ++ ['}'] :: post)))
  text : text = (pre ++ "service".toList :: (hdr ++ ['{'] :: (body ++ ['}'] :: post))).flatten
  /-- the word `service` is used for the keyword only (comments and strings are not words) -/
  pre_word : "service".toList ∉ pre
  hdr_word : "service".toList ∉ hdr
  body_word : "service".toList ∉ body
  post_word : "service".toList ∉ post
  /-- balanced braces before the service, in its body and after it, none in the header -/
  pre_depth : depthOf pre = 0
  hdr_open : ['{'] ∉ hdr
  hdr_close : ['}'] ∉ hdr
  body_nonneg : ∀ p q, body = p ++ q → 0 ≤ depthOf p
  body_depth : depthOf body = 0
  post_depth : depthOf post = 0

/-- The units of the service itself. -/
def serviceUnits (hdr body : List Str) : List Str := "service".toList :: (hdr ++ ['{'] :: (body ++ [['}']]))

end Baron.Text
