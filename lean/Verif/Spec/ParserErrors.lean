import Verif.Model.Parser

/-!
# What the parser's errors refer to (C50)
-/

namespace Baron.Parser

open Baron.Lexer

/-- The line of the last token, 0 if there is none. -/
def lastLine (ts : List TokenGroup) : Nat := (ts.getLast?.map (·.line)).getD 0

/-- A line and a text that are those of a token of the stream, or the end of the stream. -/
def Located (ts : List TokenGroup) (line : Nat) (val : Str) : Prop :=
  (∃ g ∈ ts, g.token ≠ .whitespace ∧ g.line = line ∧ g.value = val) ∨ (line = lastLine ts ∧ val = [])

/-- What each kind of error says about the token stream. -/
def ErrorOK (unq : Str → Option Str) (ts : List TokenGroup) : PErr → Prop
  | .unexpectedEOF => ∀ g ∈ ts, g.token = .whitespace
  | .svcDefEnd => False
  | .expected _ line val => Located ts line val
  | .optional line val => ∃ g ∈ ts, g.token ≠ .whitespace ∧ g.line = line ∧ g.value = val
  | .fastForward tk val => tk = .eof ∧ val = []
  | .unquote val => unq val = none ∧ ∃ g ∈ ts, g.token = .stringLit ∧ g.value = val
  | .fuel => False

/-- A stream as the lexer makes it: no token of kind "end of file" or "illegal". -/
def Proper (ts : List TokenGroup) : Prop := ∀ g ∈ ts, g.token ≠ .eof ∧ g.token ≠ .illegal

end Baron.Parser
