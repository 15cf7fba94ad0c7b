import Verif.Model.HTTPNames

/-!
# Specification vocabulary for C21–C24

Nothing here refers to how the code computes: segments are described by where they sit in the string, templates by the
pieces they are written from, numbers by the words they are spelled with.
-/

namespace Baron.HTTP

/-- Number of path segments ignoring trailing slashes: one more than the number of slashes left after stripping the
trailing ones. -/
def segCount (s : Str) : Nat := (s.reverse.dropWhile (· = '/')).count '/' + 1

/-- `p` is the `i`-th (from 0) maximal slash-free stretch of `s`. -/
def SegAt (s : Str) (i : Nat) (p : Str) : Prop :=
  ∃ a b, s = a ++ p ++ b ∧ '/' ∉ p ∧ a.count '/' = i ∧ (a = [] ∨ ∃ a', a = a' ++ ['/']) ∧ (b = [] ∨ ∃ b', b = '/' :: b')

/-- The segment mentions a parameter. -/
def Braced (p : Str) : Prop := '{' ∈ p ∨ '}' ∈ p

/-- A template segment: a literal or a `{name}` parameter. -/
inductive Piece where
  | lit (s : Str)
  | var (name : Str)
  deriving Repr, DecidableEq

/-- How a piece is written in the template. -/
def Piece.text : Piece → Str
  | .lit s => s
  | .var n => '{' :: n ++ ['}']

/-- What a piece becomes when the fields have the given texts. -/
def Piece.value (env : Str → Str) : Piece → Str
  | .lit s => s
  | .var n => env (Strs.goCamelCase n)

/-- The parameter name of a piece, if it is one. -/
def Piece.name? : Piece → Option Str
  | .var n => some n
  | .lit _ => none

/-- The template `/piece/piece/…`. -/
def templateOf (ps : List Piece) : Str := ps.flatMap fun p => '/' :: p.text

/-- Well-formed template: literals without slashes and braces, names non-empty without slashes and braces, and no name
used twice. -/
structure TemplateOK (ps : List Piece) : Prop where
  lit : ∀ s, Piece.lit s ∈ ps → '/' ∉ s ∧ ¬ Braced s
  var : ∀ n, Piece.var n ∈ ps → '/' ∉ n ∧ ¬ Braced n ∧ n ≠ []
  nodup : (ps.filterMap Piece.name?).Nodup
  some : ps ≠ []

/-- Characters that `url.Parse` gives a meaning to, or refuses. -/
def UrlSafe (s : Str) : Prop :=
  ∀ c ∈ s, c ≠ '/' ∧ c ≠ '?' ∧ c ≠ '#' ∧ c ≠ '%' ∧ 32 ≤ c.toNat ∧ c.toNat ≠ 127

/-- Texts that a path segment carries unchanged: free of such characters, not empty and not a dot segment. -/
def PathText (s : Str) : Prop := UrlSafe s ∧ s ≠ [] ∧ s ≠ ['.'] ∧ s ≠ ['.', '.']

/-- The ten digit words. -/
def digitWord : Nat → Str
  | 0 => "Zero".toList | 1 => "One".toList | 2 => "Two".toList | 3 => "Three".toList | 4 => "Four".toList
  | 5 => "Five".toList | 6 => "Six".toList | 7 => "Seven".toList | 8 => "Eight".toList | _ => "Nine".toList

/-- The number written by decimal digits, most significant first. -/
def ofDigits (ds : List Nat) : Nat := ds.foldl (fun a d => 10 * a + d) 0

/-- `s` spells `n`: the digits of `n`, without leading zeros, as words. -/
def Spells (s : Str) (n : Nat) : Prop :=
  ∃ ds : List Nat, s = ds.flatMap digitWord ∧ (∀ d ∈ ds, d < 10) ∧ ofDigits ds = n ∧
    ds ≠ [] ∧ (ds.head? = some 0 → ds = [0])

end Baron.HTTP
