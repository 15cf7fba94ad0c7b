import Verif.Go.Str

/-! # Lower camel-case names of fields and static parts of paths (C68, C69) -/

namespace Baron.Strs

/-- The names for which "camel case with a small first letter" and "JSON name" mean the same: the first letter is neither
an upper-case letter nor an underscore, every underscore is followed by a lower-case letter, and no lower-case letter
follows a digit. -/
def JSONLike (s : Str) : Prop :=
  (∃ c r, s = c :: r ∧ isAsciiUpper c = false ∧ c ≠ '_') ∧
  (∀ a b, s = a ++ '_' :: b → ∃ c r, b = c :: r ∧ isAsciiLower c = true) ∧
  (∀ a d c b, s = a ++ d :: c :: b → isAsciiDigit d = true → isAsciiLower c = false)

/-- `b` is the longest beginning of `p` without the character `c`. -/
def LongestWithout (c : Char) (b p : Str) : Prop :=
  (∃ rest, p = b ++ rest) ∧ c ∉ b ∧ ∀ b' rest, p = b' ++ rest → c ∉ b' → b'.length ≤ b.length

end Baron.Strs
