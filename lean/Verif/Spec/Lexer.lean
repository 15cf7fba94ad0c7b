import Verif.Spec.Scanner
import Verif.Model.Lexer

/-!
# Specification vocabulary for the lexer properties (C06-C08)
-/

namespace Baron.Lexer

open Baron.Scanner

/-- After reading this unit we are still between the word `service` and the end of its body. -/
def Inside (u : ScanUnit) : Bool := u.inDef || u.inBody || decide (u.braceLevel ≠ 0)

/-- The units that belong to service definitions: outside, everything up to the next word `service` is skipped;
inside, everything is kept. -/
def region : Bool → List ScanUnit → List ScanUnit
  | _, [] => []
  | false, u :: r => if u.value = "service".toList then u :: region (Inside u) r else region false r
  | true, u :: r => u :: region (Inside u) r

/-- `gs` cuts `us` into the groups of units behind each token: comments may be merged (with blanks between them),
everything else is a token of its own. -/
def Grouping (us : List ScanUnit) (gs : List (List ScanUnit)) : Prop :=
  gs.flatten = us ∧ ∀ g ∈ gs, g ≠ [] ∧
    (g.length = 1 ∨ ∀ u ∈ g, (∃ c t, u.value = '/' :: c :: t) ∨
      (u.value.head?.any isSpace = true ∧ '\n' ∉ u.value))

/-- The text of a group. -/
def textOf (g : List ScanUnit) : Str := (g.map (·.value)).flatten

/-- The kind of token a text is, by its first character(s). -/
def KindOf (U : Uni) (v : Str) : Tok → Prop
  | .whitespace => ∃ c r, v = c :: r ∧ isSpace c = true
  | .ident => ∃ c r, v = c :: r ∧ (U.isLetter c = true ∨ U.isDigit c = true ∨ c = '_')
  | .stringLit => ∃ r, v = '"' :: r
  | .openParen => v = ['(']
  | .closeParen => v = [')']
  | .openBrace => v = ['{']
  | .closeBrace => v = ['}']
  | .comment => ∃ c r, v = '/' :: c :: r
  | .symbol => ∃ c, v = [c] ∧ isSpace c = false ∧ U.isLetter c = false ∧ U.isDigit c = false ∧
      c ∉ ['_', '"', '(', ')', '{', '}']
  | .illegal => False
  | .eof => False

/-- A client of the lexer cursor. -/
inductive LexOp where
  | get | getWS | getWSC | unGet
  /-- push back to an absolute position -/
  | unGetTo (p : Nat)
  deriving Repr, DecidableEq

/-- Perform one operation; a failing push-back by one leaves the cursor alone. A failing `UnGetToPosition` has pushed
everything back. -/
def Lex.apply (l : Lex) : LexOp → Lex
  | .get => l.getToken.2.2
  | .getWS => l.getWS.2.2
  | .getWSC => l.getWSC.2.2
  | .unGet => (l.unGet).getD l
  | .unGetTo p => (l.unGetTo p l.pos).getD { l with pos := 0, lineNo := (l.buf.head?.map (·.line)).getD l.lineNo }

def Lex.run (l : Lex) (ops : List LexOp) : Lex := ops.foldl Lex.apply l

end Baron.Lexer
