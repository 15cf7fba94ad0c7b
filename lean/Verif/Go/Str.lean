/-!
# Go string primitives

A Go `string` or `[]rune` is modelled as the list of its runes. Go strings are byte sequences; every function
modelled here (and in the modules importing this file) only compares bytes with ASCII constants or moves whole
runes, so on valid UTF-8 working rune by rune gives the same result. Invalid UTF-8 is outside the model.

The functions below model the Go standard library (`strings`, `unicode`), not code in /repo; they are part of the
trusted base and are written to be obviously the documented behaviour.
-/

-- Decidable equality of results, used to evaluate concrete examples.
deriving instance DecidableEq for Except

namespace Baron

/-- A Go string, as its sequence of runes. -/
abbrev Str := List Char

/-- `unicode.IsSpace`: the White_Space property. Exact list of code points. -/
def isSpace (c : Char) : Bool :=
  let n := c.val.toNat
  (9 ≤ n && n ≤ 13) || n == 0x20 || n == 0x85 || n == 0xA0 || n == 0x1680 ||
  (0x2000 ≤ n && n ≤ 0x200A) || n == 0x2028 || n == 0x2029 || n == 0x202F || n == 0x205F || n == 0x3000

def isAsciiLower (c : Char) : Bool := 'a' ≤ c && c ≤ 'z'
def isAsciiUpper (c : Char) : Bool := 'A' ≤ c && c ≤ 'Z'
def isAsciiDigit (c : Char) : Bool := '0' ≤ c && c ≤ '9'
def isAsciiLetter (c : Char) : Bool := isAsciiLower c || isAsciiUpper c

/-- The Unicode tables behind `unicode.IsLetter` and `unicode.IsDigit`. They are a parameter: only the three facts
used anywhere are required, and all are true of Go's tables. -/
structure Uni where
  isLetter : Char → Bool
  isDigit : Char → Bool
  letter_ascii : ∀ c : Char, c.val < 128 → isLetter c = isAsciiLetter c
  digit_ascii : ∀ c : Char, c.val < 128 → isDigit c = isAsciiDigit c
  space_not : ∀ c : Char, isSpace c = true → isLetter c = false ∧ isDigit c = false

/-- `strings.Split(s, sep)` for a one-character separator: always at least one part. -/
def split (sep : Char) : Str → List Str
  | [] => [[]]
  | c :: cs =>
    if c = sep then [] :: split sep cs
    else match split sep cs with
      | [] => [[c]]
      | p :: ps => (c :: p) :: ps

/-- `strings.Join(parts, sep)` for a one-character separator. -/
def join (sep : Char) : List Str → Str
  | [] => []
  | [p] => p
  | p :: q :: ps => p ++ sep :: join sep (q :: ps)

/-- `strings.HasPrefix`. -/
def hasPrefix (s p : Str) : Bool := p.isPrefixOf s

/-- `strings.HasSuffix`. -/
def hasSuffix (s p : Str) : Bool := p.reverse.isPrefixOf s.reverse

/-- `strings.TrimSuffix`. -/
def trimSuffix (s p : Str) : Str := if hasSuffix s p then s.take (s.length - p.length) else s

/-- `strings.TrimPrefix`. -/
def trimPrefix (s p : Str) : Str := if hasPrefix s p then s.drop p.length else s

/-- `strings.TrimRight(s, string(c))`. -/
def trimRight (c : Char) (s : Str) : Str := (s.reverse.dropWhile (· = c)).reverse

/-- `strings.TrimLeft(s, string(c))`. -/
def trimLeft (c : Char) (s : Str) : Str := s.dropWhile (· = c)

/-- ASCII part of `unicode.ToUpper`. -/
def upperC (c : Char) : Char := if isAsciiLower c then Char.ofNat (c.toNat - 32) else c
/-- ASCII part of `unicode.ToLower`. -/
def lowerC (c : Char) : Char := if isAsciiUpper c then Char.ofNat (c.toNat + 32) else c

/-- `strings.ToLower` restricted to ASCII case pairs (identifiers handled by baron are ASCII proto identifiers). -/
def toLower (s : Str) : Str := s.map lowerC
/-- `strings.ToUpper` restricted to ASCII case pairs. -/
def toUpper (s : Str) : Str := s.map upperC

/-- The ASCII-only tables: a concrete `Uni`, showing the parameter can be instantiated. -/
def asciiUni : Uni where
  isLetter := isAsciiLetter
  isDigit := isAsciiDigit
  letter_ascii := fun _ _ => rfl
  digit_ascii := fun _ _ => rfl
  space_not := by
    intro c h
    simp only [isSpace, isAsciiLetter, isAsciiLower, isAsciiUpper, isAsciiDigit, Bool.or_eq_true,
      Bool.and_eq_true, decide_eq_true_eq, beq_iff_eq, Bool.or_eq_false_iff,
      Bool.and_eq_false_iff, decide_eq_false_iff_not, Char.le_def, UInt32.le_iff_toNat_le] at *
    have e1 : ('a':Char).val.toNat = 97 := rfl
    have e2 : ('z':Char).val.toNat = 122 := rfl
    have e3 : ('A':Char).val.toNat = 65 := rfl
    have e4 : ('Z':Char).val.toNat = 90 := rfl
    have e5 : ('0':Char).val.toNat = 48 := rfl
    have e6 : ('9':Char).val.toNat = 57 := rfl
    rw [e1, e2, e3, e4, e5, e6]
    omega

end Baron
