import Verif.Go.Str

/-!
# Model of svcdef/svcparse/scanner.go
-/

namespace Baron.Scanner

/-! ## RuneReader -/

/-- scanner.go:13-18 `RuneReader`. `ContentLen` is always `len(Contents)` (scanner.go:51-57, never reassigned) and is
not stored. `LineNo` is an `Int` because `UnreadRune` decrements it. -/
structure RuneReader where
  contents : Str
  pos : Nat
  lineNo : Int
  deriving Repr, DecidableEq

/-- scanner.go:48-58 `NewRuneReader`, given the decoded runes of the input. -/
def newRuneReader (s : Str) : RuneReader := ⟨s, 0, 1⟩

/-- scanner.go:20-34 `ReadRune`: `none` is `io.EOF`. -/
def RuneReader.readRune (r : RuneReader) : Option Char × RuneReader :=
  match r.contents[r.pos]? with
  | some c => (some c, { r with lineNo := if c = '\n' then r.lineNo + 1 else r.lineNo, pos := r.pos + 1 })
  | none => (none, r)

/-- scanner.go:36-46 `UnreadRune`: `none` is `bufio.ErrInvalidUnreadRune`. The index `Contents[RunePos]` after the
decrement is in range in every reachable state; out of range (a Go panic) is mapped to `none` too. -/
def RuneReader.unreadRune (r : RuneReader) : Option RuneReader :=
  if r.pos = 0 then none
  else match r.contents[r.pos - 1]? with
    | some c => some { r with pos := r.pos - 1, lineNo := if c = '\n' then r.lineNo - 1 else r.lineNo }
    | none => none

/-! ## Scan units

`BuildScanUnit` only ever looks at the unread part of the input and at the line number, so the reader is modelled
here as that pair; reading a rune pops the head of `rest`, and "read then unread" leaves the pair alone
(`Proofs/Scanner.lean`: `readRune_rd`, `unread_read_rd` relate this to `RuneReader`). -/

/-- The unread input and the current line number of a `RuneReader`. -/
structure Rd where
  rest : Str
  line : Nat
  deriving Repr, DecidableEq

/-- scanner.go:26-28: the line counter after reading `c`. -/
def bump (c : Char) (line : Nat) : Nat := if c = '\n' then line + 1 else line

/-- scanner.go:60-71 `isIdent`. -/
def isIdent (U : Uni) (c : Char) : Bool := U.isLetter c || U.isDigit c || c == '_'

/-- scanner.go:88-92: the process-wide variables `withinBody`, `withinDef`, `braceLev`. -/
structure Glob where
  withinBody : Bool
  withinDef : Bool
  braceLev : Int
  deriving Repr, DecidableEq

/-- Their initial values. -/
def Glob.init : Glob := ⟨false, false, 0⟩

/-- scanner.go:73-79 `ScanUnit`. -/
structure ScanUnit where
  inDef : Bool
  inBody : Bool
  braceLevel : Int
  lineNo : Nat
  value : Str
  deriving Repr, DecidableEq

/-- scanner.go:104-111 `setReturn`. -/
def setReturn (g : Glob) (rd : Rd) (buf : Str) : ScanUnit :=
  ⟨g.withinDef, g.withinBody, g.braceLev, rd.line, buf⟩

/-- scanner.go:130-139: the loop reading a `//` comment. Result: what is appended to the buffer, and the reader
after it; `none` is end of input before a newline. -/
def lineComment (line : Nat) : Str → Option (Str × Rd)
  | [] => none
  | c :: r =>
    if c = '\n' then some ([c], ⟨r, line + 1⟩)
    else (lineComment line r).map fun (b, rd) => (c :: b, rd)

/-- scanner.go:143-160: the loop reading a `/*` comment. After a `'*'` the next rune is read and, unless it is
`'/'`, dropped: it is neither appended nor looked at again. -/
def blockComment (line : Nat) : Str → Option (Str × Rd)
  | [] => none
  | c :: r =>
    if c = '*' then
      match r with
      | [] => none
      | d :: r' =>
        if d = '/' then some ([c, d], ⟨r', line⟩)
        else (blockComment (bump d line) r').map fun (b, rd) => (c :: b, rd)
    else (blockComment (bump c line) r).map fun (b, rd) => (c :: b, rd)

/-- scanner.go:168-188: the loop reading a string literal after its opening quote. -/
def strLit (line : Nat) : Str → Option (Str × Rd)
  | [] => none
  | c :: r =>
    if c = '\\' then
      match r with
      | [] => none
      | d :: r' => (strLit (bump d line) r').map fun (b, rd) => (c :: d :: b, rd)
    else if c = '"' then some ([c], ⟨r, line⟩)
    else (strLit (bump c line) r).map fun (b, rd) => (c :: b, rd)

/-- scanner.go:191-206 and 209-224: the loops grouping white space (`p = unicode.IsSpace`) or identifier runes
(`p = isIdent`). The rune that stops the loop is un-read; at end of input the loop stops without error. -/
def groupLoop (p : Char → Bool) (line : Nat) : Str → Str × Rd
  | [] => ([], ⟨[], line⟩)
  | c :: r =>
    if p c then
      let (b, rd) := groupLoop p (bump c line) r
      (c :: b, rd)
    else ([], ⟨c :: r, line⟩)

/-- scanner.go:94-244 `BuildScanUnit`. `none` is the `err != nil` return (end of input; the half-read unit is
discarded by the only caller, scanner.go:268-275, and the globals are unchanged on those paths).
The switch order is the order of the Go `case`s. -/
def buildScanUnit (U : Uni) (g : Glob) (rd : Rd) : Option (ScanUnit × Glob × Rd) :=
  match rd.rest with
  | [] => none
  | ch :: r =>
    let line := bump ch rd.line
    if ch = '/' then
      match r with
      | [] => none
      | d :: r' =>
        if d = '/' then
          (lineComment line r').map fun (b, rd') => (setReturn g rd' (ch :: d :: b), g, rd')
        else if d = '*' then
          (blockComment line r').map fun (b, rd') => (setReturn g rd' (ch :: d :: b), g, rd')
        else some (setReturn g ⟨r, line⟩ [ch], g, ⟨r, line⟩)
    else if ch = '"' then
      (strLit line r).map fun (b, rd') => (setReturn g rd' (ch :: b), g, rd')
    else if isSpace ch then
      let (b, rd') := groupLoop isSpace line r
      some (setReturn g rd' (ch :: b), g, rd')
    else if isIdent U ch then
      let (b, rd') := groupLoop (isIdent U) line r
      -- scanner.go:216-221: `withinDef` is set only when the identifier is followed by another rune
      let g' := if rd'.rest ≠ [] ∧ ch :: b = "service".toList then { g with withinDef := true } else g
      some (setReturn g' rd' (ch :: b), g', rd')
    else if ch = '{' then
      -- scanner.go:225-230
      let g1 := { g with braceLev := g.braceLev + 1 }
      let g2 := if g1.withinDef then { g1 with withinDef := false, withinBody := true } else g1
      some (setReturn g2 ⟨r, line⟩ [ch], g2, ⟨r, line⟩)
    else if ch = '}' then
      -- scanner.go:231-235
      let g1 := { g with braceLev := g.braceLev - 1 }
      let g2 := if g1.withinBody ∧ g1.braceLev = 0 then { g1 with withinBody := false } else g1
      some (setReturn g2 ⟨r, line⟩ [ch], g2, ⟨r, line⟩)
    else some (setReturn g ⟨r, line⟩ [ch], g, ⟨r, line⟩)

/-- scanner.go:268-275: the loop of `NewSvcScanner`, with a bound on the number of iterations.
`Props/Scanner.lean` (C05) shows that the bound used by `scan` is never what stops it. -/
def scanLoop (U : Uni) : Nat → Glob → Rd → List ScanUnit × Glob × Rd
  | 0, g, rd => ([], g, rd)
  | n + 1, g, rd =>
    match buildScanUnit U g rd with
    | none => ([], g, rd)
    | some (u, g', rd') =>
      let (us, g'', rd'') := scanLoop U n g' rd'
      (u :: us, g'', rd'')

/-- scanner.go:265-275: all units of a text, the process-wide state left behind, and the reader as it was before the
failing `BuildScanUnit`. -/
def scan (U : Uni) (g : Glob) (s : Str) : List ScanUnit × Glob × Rd :=
  scanLoop U (s.length + 1) g ⟨s, 1⟩

/-- The process-wide state after scanning several texts one after the other. -/
def globAfter (U : Uni) : Glob → List Str → Glob
  | g, [] => g
  | g, s :: ss => globAfter U (scan U g s).2.1 ss

/-! ## SvcScanner -/

/-- Result of an operation that may return a Go error or panic. -/
inductive Out (α : Type) where
  | ok (a : α)
  | err
  | panic
  deriving Repr, DecidableEq

/-- scanner.go:255-263 `SvcScanner`; `R` is never used after construction and is left out. `unitPos` is a
natural number: the only place where Go makes it negative is immediately followed by an index panic. -/
structure SvcScanner where
  inDef : Bool
  inBody : Bool
  braceLevel : Int
  buf : List ScanUnit
  unitPos : Nat
  lineNo : Nat
  deriving Repr, DecidableEq

/-- scanner.go:265-284 `NewSvcScanner`, from the units already built. -/
def SvcScanner.ofUnits (b : List ScanUnit) : SvcScanner := ⟨false, false, 0, b, 0, 0⟩

/-- scanner.go:310-329 `ReadUnit`: `none` is `io.EOF` (state unchanged). -/
def SvcScanner.readUnit (s : SvcScanner) : Option (Str × SvcScanner) :=
  match s.buf[s.unitPos]? with
  | some u => some (u.value, { s with inBody := u.inBody, inDef := u.inDef, braceLevel := u.braceLevel,
                                      lineNo := u.lineNo, unitPos := s.unitPos + 1 })
  | none => none

/-- scanner.go:331-356 `UnreadUnit`. At position 0: error. At position 1 the Go code sets `UnitPos` to 0, then
decrements it to -1 and indexes `Buf[-2]`: a panic. Otherwise the state becomes that of the unit before the new
position. -/
def SvcScanner.unreadUnit (s : SvcScanner) : Out SvcScanner :=
  match s.unitPos with
  | 0 => .err
  | 1 => .panic
  | p + 2 =>
    match s.buf[p]? with
    | some u => .ok { s with inBody := u.inBody, inDef := u.inDef, braceLevel := u.braceLevel,
                             lineNo := u.lineNo, unitPos := p + 1 }
    | none => .panic

/-- scanner.go:357-369 `UnReadToPosition`, looping at most `fuel` times; with `fuel` = current position the loop has
always ended (by reaching the target, or by the error or panic at the start). -/
def SvcScanner.unreadTo (target : Nat) : Nat → SvcScanner → Out SvcScanner
  | 0, s => if s.unitPos = target then .ok s else .err
  | n + 1, s =>
    if s.unitPos = target then .ok s
    else match s.unreadUnit with
      | .ok s' => SvcScanner.unreadTo target n s'
      | .err => .err
      | .panic => .panic

/-- scanner.go:289-305 `FastForward`. The loop reads at most the remaining units, so `fuel = buf.length + 1`
suffices. `none` is `io.EOF`. On success `UnitPos` is stepped back by one but the other state is not. -/
def ffLoop : Nat → SvcScanner → SvcScanner × Bool
  | 0, s => (s, false)
  | n + 1, s =>
    match s.readUnit with
    | none => (s, false)
    | some (v, s') =>
      if v = "service".toList then ({ s' with unitPos := s'.unitPos - 1 }, true) else ffLoop n s'

/-- scanner.go:289-305 `FastForward`; the flag is false for `io.EOF`. -/
def SvcScanner.fastForward (s : SvcScanner) : SvcScanner × Bool :=
  if s.inBody || s.inDef then (s, true) else ffLoop (s.buf.length + 1) s

end Baron.Scanner
