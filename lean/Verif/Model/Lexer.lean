import Verif.Model.Scanner

/-!
# Model of svcdef/svcparse/lexer.go and token.go
-/

namespace Baron.Lexer

open Baron.Scanner

/-- token.go:8-26 `Token`. -/
inductive Tok where
  | illegal | eof | whitespace | comment | symbol | ident | stringLit
  | openParen | closeParen | openBrace | closeBrace
  deriving Repr, DecidableEq

/-- token.go:50-54 `TokenGroup`. -/
structure TokenGroup where
  token : Tok
  value : Str
  line : Nat
  deriving Repr, DecidableEq

/-- lexer.go:61, 70, 50: `len(u) > 1 && u[0] == '/'`. -/
def isCommentUnit : Str → Bool
  | '/' :: _ :: _ => true
  | _ => false

/-- lexer.go:63: `unicode.IsSpace(one[0])`. An empty unit would be an index panic in Go; scan units are never empty
(C02), so the value given here for `[]` is never used. -/
def isSpaceUnit : Str → Bool
  | [] => false
  | c :: _ => isSpace c

/-- lexer.go:75, 79, 83: `scn.UnReadToPosition(pos)` with its error result ignored. With the fuel used the call has
always ended; its error outcome (unreachable here) is mapped to `panic`. -/
def backTo (pos : Nat) (s : SvcScanner) : Out SvcScanner :=
  match s.unreadTo pos s.unitPos with
  | .ok s' => .ok s'
  | _ => .panic

/-- lexer.go:54-86: the loop merging adjacent comments, bounded by `fuel` iterations (each iteration that continues
reads at least one unit, so `buf.length + 1` suffices). Reading past the end panics (lexer.go:57-59, 66-68). -/
def commentLoop : Nat → SvcScanner → Str → Out (Str × SvcScanner)
  | 0, _, _ => .panic
  | n + 1, s, str =>
    match s.readUnit with
    | none => .panic
    | some (one, s1) =>
      if isCommentUnit one then commentLoop n s1 (str ++ one)
      else if isSpaceUnit one then
        if one.count '\n' = 0 then
          match s1.readUnit with
          | none => .panic
          | some (two, s2) =>
            if isCommentUnit two then commentLoop n s2 (str ++ (one ++ two))
            else match backTo s.unitPos s2 with
              | .ok s' => .ok (str, s')
              | _ => .panic
        else match backTo s.unitPos s1 with
          | .ok s' => .ok (str, s')
          | _ => .panic
      else match backTo s.unitPos s1 with
        | .ok s' => .ok (str, s')
        | _ => .panic

/-- lexer.go:33-92: the kind of a unit that is not a comment, by its first rune, in `case` order. -/
def classify (U : Uni) : Str → Tok
  | [] => .illegal
  | c :: r =>
    if isSpace c then .whitespace
    else if isIdent U c then .ident
    else if c = '"' then .stringLit
    else if c = '(' then .openParen
    else if c = ')' then .closeParen
    else if c = '{' then .openBrace
    else if c = '}' then .closeBrace
    else if r ≠ [] ∧ c = '/' then .comment
    else if r = [] then .symbol
    else .illegal

/-- lexer.go:24-92: `NewTokenGroup` after the fast-forward. -/
def readToken (U : Uni) (s : SvcScanner) : Out (TokenGroup × SvcScanner) :=
  match s.readUnit with
  | none => .ok (⟨.eof, [], s.lineNo⟩, s)
  | some (unit, s1) =>
    match classify U unit with
    | .comment =>
      match commentLoop (s.buf.length + 1) s1 unit with
      | .ok (str, s2) => .ok (⟨.comment, str, s2.lineNo⟩, s2)
      | _ => .panic
    | .illegal => .ok (⟨.illegal, unit, s1.lineNo⟩, s1)
    | t => .ok (⟨t, unit, s1.lineNo⟩, s1)

/-- lexer.go:10-93 `NewTokenGroup`. -/
def newTokenGroup (U : Uni) (s : SvcScanner) : Out (TokenGroup × SvcScanner) :=
  if s.braceLevel = 0 then
    match s.fastForward with
    | (s', false) => .ok (⟨.eof, [], s'.lineNo⟩, s')
    | (s', true) => readToken U s'
  else readToken U s

/-- lexer.go:98-105: the loop of `NewSvcLexer`, bounded by `fuel` iterations. -/
def lexLoop (U : Uni) : Nat → SvcScanner → Out (List TokenGroup)
  | 0, _ => .ok []
  | n + 1, s =>
    match newTokenGroup U s with
    | .ok (t, s') =>
      if t.token = .illegal ∨ t.token = .eof then .ok []
      else match lexLoop U n s' with
        | .ok ts => .ok (t :: ts)
        | _ => .panic
    | _ => .panic

/-- lexer.go:95-111 `NewSvcLexer` on already scanned units: the token buffer, or a panic. -/
def lexUnits (U : Uni) (b : List ScanUnit) : Out (List TokenGroup) :=
  lexLoop U (b.length + 1) (SvcScanner.ofUnits b)

/-- lexer.go:95-111 `NewSvcLexer` on a text, with the process-wide scanner state before it. -/
def lexText (U : Uni) (g : Glob) (s : Str) : Out (List TokenGroup) :=
  lexUnits U (scan U g s).1

/-! ## The token cursor -/

/-- lexer.go:113-118 `SvcLexer` (the scanner is not used after construction). -/
structure Lex where
  buf : List TokenGroup
  pos : Nat
  lineNo : Nat
  deriving Repr, DecidableEq

/-- lexer.go:106-110. -/
def Lex.new (b : List TokenGroup) : Lex := ⟨b, 0, 0⟩

/-- lexer.go:128-144 `GetToken`: at the end `EOF` with an empty value, position and line unchanged. -/
def Lex.getToken (l : Lex) : Tok × Str × Lex :=
  match l.buf[l.pos]? with
  | some g => (g.token, g.value, { l with lineNo := g.line, pos := l.pos + 1 })
  | none => (.eof, [], l)

/-- lexer.go:146-153 `UnGetToken`: `none` at position 0 (error); the index after the decrement is in range whenever
the position is at most the length, otherwise Go panics (mapped to `none` as well). -/
def Lex.unGet (l : Lex) : Option Lex :=
  match l.pos with
  | 0 => none
  | p + 1 =>
    match l.buf[p]? with
    | some g => some { l with pos := p, lineNo := g.line }
    | none => none

/-- lexer.go:155-167 `UnGetToPosition` with at most `fuel` iterations (`fuel` = position suffices). `none` is the
error of `UnGetToken` at the start of the input. -/
def Lex.unGetTo (target : Nat) : Nat → Lex → Option Lex
  | 0, l => if l.pos = target then some l else none
  | n + 1, l => if l.pos = target then some l
    else match l.unGet with
      | some l' => Lex.unGetTo target n l'
      | none => none

/-- lexer.go:168-183: the loops of `GetTokenIgnoreCommentAndWhitespace` and `getTokenIgnore`: read until a token
whose kind is not ignored, at most `fuel` reads (end of input is never ignored, so remaining tokens + 1 suffices). -/
def Lex.getSkip (ign : Tok → Bool) : Nat → Lex → Tok × Str × Lex
  | 0, l => (.eof, [], l)
  | n + 1, l =>
    match l.getToken with
    | (t, v, l') => if ign t then Lex.getSkip ign n l' else (t, v, l')

def ignWS : Tok → Bool
  | .whitespace => true
  | _ => false

def ignWSC : Tok → Bool
  | .whitespace => true
  | .comment => true
  | _ => false

/-- lexer.go:185-187 `GetTokenIgnoreWhitespace`. -/
def Lex.getWS (l : Lex) : Tok × Str × Lex := l.getSkip ignWS (l.buf.length + 1)

/-- lexer.go:168-175 `GetTokenIgnoreCommentAndWhitespace`. -/
def Lex.getWSC (l : Lex) : Tok × Str × Lex := l.getSkip ignWSC (l.buf.length + 1)

end Baron.Lexer
