import Verif.Go.Str

/-! # What names should look like (C18-C20, C42) -/

namespace Baron.Strs

/-- A letter, digit or underscore. -/
def IdentChar (c : Char) : Prop := isAsciiLetter c = true ∨ isAsciiDigit c = true ∨ c = '_'

/-- A protobuf identifier: a letter or underscore, then letters, digits and underscores. -/
def ProtoIdent (s : Str) : Prop :=
  ∃ c r, s = c :: r ∧ (isAsciiLetter c = true ∨ c = '_') ∧ ∀ x ∈ r, IdentChar x

/-- An exported ASCII Go identifier. -/
def ExportedIdent (s : Str) : Prop := ∃ c r, s = c :: r ∧ isAsciiUpper c = true ∧ ∀ x ∈ r, IdentChar x

/-- The characters of a name other than underscores, ignoring case. -/
def lettersOf (s : Str) : Str := (s.filter (· ≠ '_')).map lowerC

/-- A Go identifier for the given Unicode tables: a letter or underscore, then letters, digits, underscores. -/
def GoIdent (U : Uni) (s : Str) : Prop :=
  ∃ c r, s = c :: r ∧ (U.isLetter c = true ∨ c = '_') ∧
    ∀ x ∈ r, U.isLetter x = true ∨ U.isDigit x = true ∨ x = '_'

/-- The keywords of Go, in the order of the language specification. -/
def keywords : List Str :=
  ["break", "default", "func", "interface", "select",
   "case", "defer", "go", "map", "struct",
   "chan", "else", "goto", "package", "switch",
   "const", "fallthrough", "if", "range", "type",
   "continue", "for", "import", "return", "var"].map String.toList

/-- lower_snake_case: no upper-case letters, and every underscore is followed by a lower-case letter. -/
def LowerSnake (s : Str) : Prop :=
  (∀ c ∈ s, isAsciiUpper c = false) ∧
  ∀ a b, s = a ++ '_' :: b → ∃ c r, b = c :: r ∧ isAsciiLower c = true

/-- A lower-case letter stands after this character (or at the beginning). -/
def lowerNext (next : Option Char) : Bool := next.any isAsciiLower

/-- A letter after this (or at the beginning) starts a word: nothing, a dot, an underscore or a digit. -/
def wordStart (prev : Option Char) : Bool :=
  match prev with
  | none => true
  | some p => p == '.' || p == '_' || isAsciiDigit p

/-- What one character of a protobuf name becomes in the Go name, given its neighbours. -/
def camelChar (prev next : Option Char) (c : Char) : Str :=
  if c = '.' then (if lowerNext next then [] else ['_'])
  else if c = '_' ∧ (prev = none ∨ prev = some '.') then ['X']
  else if c = '_' ∧ lowerNext next then []
  else if isAsciiLower c ∧ wordStart prev then [upperC c]
  else [c]

/-- Every character of a name replaced according to its neighbours. -/
def camelText : Option Char → Str → Str
  | _, [] => []
  | prev, c :: r => camelChar prev r.head? c ++ camelText (some c) r

/-- A word with its first letter in upper case. -/
def capital : Str → Str
  | [] => []
  | c :: r => upperC c :: r

end Baron.Strs
