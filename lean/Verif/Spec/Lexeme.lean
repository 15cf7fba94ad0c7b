import Verif.Spec.Scanner

/-!
# Lexical elements of a proto text (C49)

`Lexeme U chunk value rest`: at a point where the remaining text is `chunk ++ rest`, the next lexical element is
`chunk`, and what the scanner reports for it is `value`. The two differ only for block comments with interior stars.
-/

namespace Baron.Scanner

/-- The inside of a block comment as the scanner reads it, and what it keeps: after a star the next character is
swallowed (unless it is the closing slash). -/
inductive BlockBody : Str → Str → Prop where
  | nil : BlockBody [] []
  | plain {c r k} : c ≠ '*' → BlockBody r k → BlockBody (c :: r) (c :: k)
  | star {d r k} : d ≠ '/' → BlockBody r k → BlockBody ('*' :: d :: r) ('*' :: k)

/-- What is reported of the inside of a block comment: everything, except the character after each star. -/
def kept : Str → Str
  | [] => []
  | c :: r => if c = '*' then '*' :: kept (r.drop 1) else c :: kept r
termination_by s => s.length
decreasing_by all_goals simp <;> omega

/-- The next character, if any, is not of this class. -/
def StopsAt (p : Char → Bool) (rest : Str) : Prop := ∀ c r, rest = c :: r → p c = false

/-- A letter, a digit or an underscore. -/
def wordChar (U : Uni) (c : Char) : Bool := U.isLetter c || U.isDigit c || c == '_'

inductive Lexeme (U : Uni) : Str → Str → Str → Prop where
  /-- a maximal run of white space -/
  | space {v rest} : v ≠ [] → (∀ c ∈ v, isSpace c = true) → StopsAt isSpace rest → Lexeme U v v rest
  /-- a maximal run of letters, digits and underscores -/
  | word {v rest} : v ≠ [] → (∀ c ∈ v, wordChar U c = true) → StopsAt (wordChar U) rest → Lexeme U v v rest
  /-- a string literal, up to its first quote that is not escaped -/
  | str {b rest} : StrBody b → Lexeme U ('"' :: (b ++ ['"'])) ('"' :: (b ++ ['"'])) rest
  /-- a comment up to the end of the line, included -/
  | line {m rest} : '\n' ∉ m → Lexeme U ('/' :: '/' :: (m ++ ['\n'])) ('/' :: '/' :: (m ++ ['\n'])) rest
  /-- a block comment -/
  | block {m k rest} : BlockBody m k →
      Lexeme U ('/' :: '*' :: (m ++ ['*', '/'])) ('/' :: '*' :: (k ++ ['*', '/'])) rest
  /-- a slash that starts no comment -/
  | slash {c r} : c ≠ '/' → c ≠ '*' → Lexeme U ['/'] ['/'] (c :: r)
  /-- any other single character -/
  | symbol {c rest} : isSpace c = false → wordChar U c = false → c ≠ '"' → c ≠ '/' → Lexeme U [c] [c] rest

end Baron.Scanner
