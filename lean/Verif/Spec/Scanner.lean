import Verif.Model.Scanner

/-!
# Specification vocabulary for the scanner properties (C01-C05)

Nothing here is code of /repo: these are the words the property statements are written in.
-/

namespace Baron.Scanner

/-- A client of the rune reader: any sequence of reads and un-reads. -/
inductive RuneOp where
  | read | unread
  deriving Repr, DecidableEq

/-- Perform one operation; a failing one leaves the reader alone. -/
def RuneReader.apply (r : RuneReader) : RuneOp → RuneReader
  | .read => r.readRune.2
  | .unread => (r.unreadRune).getD r

/-- Perform a sequence of operations. -/
def RuneReader.run (r : RuneReader) (ops : List RuneOp) : RuneReader := ops.foldl RuneReader.apply r

/-- A complete block comment whose interior contains a star. -/
def StarComment (v : Str) : Prop := ∃ m, v = ['/', '*'] ++ m ++ ['*', '/'] ∧ '*' ∈ m

/-- Contribution of a unit to the brace depth: only the one-character units `{` and `}` count. -/
def braceDelta (v : Str) : Int := if v = ['{'] then 1 else if v = ['}'] then -1 else 0

/-- Net brace depth of a list of unit texts. -/
def depthOf (vs : List Str) : Int := (vs.map braceDelta).sum

/-- The inside of a string literal: plain characters and backslash pairs. -/
inductive StrBody : Str → Prop where
  | nil : StrBody []
  | plain {c r} : c ≠ '"' → c ≠ '\\' → StrBody r → StrBody (c :: r)
  | esc {d r} : StrBody r → StrBody ('\\' :: d :: r)

/-- What may be left when scanning stops: nothing, a lone slash, or an unterminated comment or string. -/
def Unterminated (r : Str) : Prop :=
  r = [] ∨ r = ['/'] ∨ (∃ t, r = '/' :: '/' :: t ∧ '\n' ∉ t) ∨
  (∃ t, r = '/' :: '*' :: t ∧ ∀ m post, t = m ++ ['*', '/'] ++ post → '*' ∈ m) ∨
  (∃ t, r = '"' :: t ∧ ¬ ∃ b post, StrBody b ∧ t = b ++ '"' :: post)

/-- The Go loop `for { unit, err := BuildScanUnit(rr); if err == nil { append } else { break } }`
(scanner.go:268-275) as an unbounded execution: `ScanRun g rd us g' rd'` says that started with global state `g` and
reader `rd` it stops after exactly the units `us`. -/
inductive ScanRun (U : Uni) : Glob → Rd → List ScanUnit → Glob → Rd → Prop where
  | stop {g rd} : buildScanUnit U g rd = none → ScanRun U g rd [] g rd
  | step {g rd u g' rd' us g'' rd''} : buildScanUnit U g rd = some (u, g', rd') →
      ScanRun U g' rd' us g'' rd'' → ScanRun U g rd (u :: us) g'' rd''

/-- A list of unit texts is balanced: no prefix closes more braces than it opens, all braces are closed at the end,
and every word `service` is followed by an opening brace. -/
def Balanced (vs : List Str) : Prop :=
  (∀ pre post, vs = pre ++ post → 0 ≤ depthOf pre) ∧ depthOf vs = 0 ∧
  (∀ pre post, vs = pre ++ "service".toList :: post → ['{'] ∈ post)

/-- The texts of the units of a file; a word `service` that ends the file does not count. -/
def counted (U : Uni) (s : Str) : List Str :=
  let vs := (scan U .init s).1.map (·.value)
  if (scan U .init s).2.2.rest = [] ∧ vs.getLast? = some "service".toList then vs.dropLast else vs

/-- Every word `service` is followed by an opening brace. -/
def ServicesOpened (vs : List Str) : Prop := ∀ pre post, vs = pre ++ "service".toList :: post → ['{'] ∈ post

/-- The first opening brace after every word `service` is followed by a closing brace at which the net depth is
zero. -/
def ServicesClosed (vs : List Str) : Prop :=
  ∀ pre mid post, vs = pre ++ "service".toList :: (mid ++ ['{'] :: post) → ['{'] ∉ mid →
    ∃ d e, post = d ++ ['}'] :: e ∧ depthOf (pre ++ "service".toList :: (mid ++ ['{'] :: (d ++ [['}']]))) = 0

end Baron.Scanner
