import Verif.Model.Lexer

/-!
# Model of svcdef/svcparse/parser.go

The parser drives a `SvcLexer` through `GetToken…`, `UnGetToken` and `UnGetToPosition`. Here the lexer is a zipper
(`Cur`): tokens already read (most recent first), tokens still to read, current line. `Proofs/Cursor.lean` shows each
zipper operation is the corresponding operation of the position-based `Lex` (Model/Lexer.lean) under
`buf = prev.reverse ++ rest`, `pos = prev.length`.
-/

namespace Baron.Parser

open Baron.Lexer

/-- lexer.go:113-118 `SvcLexer` as a zipper. -/
structure Cur where
  prev : List TokenGroup
  rest : List TokenGroup
  line : Nat
  deriving Repr, DecidableEq

/-- lexer.go:106-110. -/
def Cur.new (ts : List TokenGroup) : Cur := ⟨[], ts, 0⟩

/-- lexer.go:120-122 `GetPosition`. -/
def Cur.pos (c : Cur) : Nat := c.prev.length

/-- lexer.go:176-183 `getTokenIgnore` / 168-175: read until a token that is not ignored, or the end. -/
def skipGo (ign : Tok → Bool) (prev : List TokenGroup) (line : Nat) : List TokenGroup → Tok × Str × Cur
  | [] => (.eof, [], ⟨prev, [], line⟩)
  | g :: r => if ign g.token then skipGo ign (g :: prev) g.line r
              else (g.token, g.value, ⟨g :: prev, r, g.line⟩)

/-- lexer.go:185-187 `GetTokenIgnoreWhitespace`. -/
def Cur.getWS (c : Cur) : Tok × Str × Cur := skipGo ignWS c.prev c.line c.rest

/-- lexer.go:168-175 `GetTokenIgnoreCommentAndWhitespace`. -/
def Cur.getWSC (c : Cur) : Tok × Str × Cur := skipGo ignWSC c.prev c.line c.rest

/-- lexer.go:146-153 `UnGetToken`; its error (at the start of the input) is ignored by the parser
(parser.go:518, 521), leaving the lexer as it was. -/
def Cur.unGet (c : Cur) : Cur :=
  match c.prev with
  | [] => c
  | g :: p => ⟨p, g :: c.rest, g.line⟩

/-- lexer.go:155-167 `UnGetToPosition`; its error is ignored by the parser (parser.go:450). -/
def unGetToGo (target : Nat) : List TokenGroup → List TokenGroup → Nat → Cur
  | [], rest, line => ⟨[], rest, line⟩
  | g :: p, rest, line =>
    if p.length + 1 = target then ⟨g :: p, rest, line⟩ else unGetToGo target p (g :: rest) g.line

/-- lexer.go:155-167 `UnGetToPosition`. -/
def Cur.unGetTo (c : Cur) (target : Nat) : Cur := unGetToGo target c.prev c.rest c.line

/-- The places where parser.go builds a `parserErr` (one per `expected:` text). -/
inductive Site where
  | svcKeyword        -- parser.go:172
  | svcName           -- parser.go:183
  | svcOpen           -- parser.go:193
  | rpcKeyword        -- parser.go:237
  | rpcName           -- parser.go:249
  | rpcOpenArg        -- parser.go:262
  | rpcArgIdent       -- parser.go:276
  | rpcArg            -- parser.go:294
  | rpcReturns        -- parser.go:304
  | rpcOpenRet        -- parser.go:313
  | rpcRetIdent       -- parser.go:327
  | rpcRet            -- parser.go:345
  | rpcOpenBody       -- parser.go:358
  | rpcSemi           -- parser.go:379
  | rpcClose          -- parser.go:388
  | bindStart         -- parser.go:419
  | bindLegal         -- parser.go:458
  | bindClose         -- parser.go:464
  | fieldLegal        -- parser.go:507
  | fieldColon        -- parser.go:549
  | fieldValue        -- parser.go:558
  deriving Repr, DecidableEq

/-- Errors of the parser. `errors.Wrap` around an error keeps its cause and only adds text, so wrapped errors
(parser.go:528, 534, 539, 567) are represented by their cause. Three sites append or substitute the token kind's name
in the reported value (parser.go:382, 391, 422, 461, 467); only the value part is kept here. -/
inductive PErr where
  /-- parser.go:169 `io.ErrUnexpectedEOF` -/
  | unexpectedEOF
  /-- parser.go:27 `ErrSvcDefEnd`, returned by `ParseMethod` at the closing brace -/
  | svcDefEnd
  /-- `parserErr` -/
  | expected (site : Site) (line : Nat) (val : Str)
  /-- parser.go:41-45 `optionalParseErr` -/
  | optional (line : Nat) (val : Str)
  /-- parser.go:63 plain error of `fastForwardTill` -/
  | fastForward (tk : Tok) (val : Str)
  /-- parser.go:567 `strconv.Unquote` failed -/
  | unquote (val : Str)
  /-- the model's iteration bound was reached; never happens (C09) -/
  | fuel
  deriving Repr, DecidableEq

/-- parser.go:153-162 `Field` (`Name` always equals `Kind`, parser.go:544-545, and is left out). -/
structure Field where
  description : Str
  kind : Str
  value : Str
  deriving Repr, DecidableEq

/-- parser.go:94-149 `HTTPBinding`. `Fields` and `CustomHTTPPattern` are only ever built by appending to a nil slice,
so nil and empty coincide. -/
structure HTTPBinding where
  description : Str
  fields : List Field
  custom : List Field
  deriving Repr, DecidableEq

/-- parser.go:84-90 `Method`. -/
structure Method where
  name : Str
  description : Str
  requestType : Str
  responseType : Str
  bindings : List HTTPBinding
  deriving Repr, DecidableEq

/-- parser.go:77-80 `Service`. -/
structure Service where
  name : Str
  methods : List Method
  deriving Repr, DecidableEq

/-- parser.go:59-68 `fastForwardTill`: scans the remaining tokens; the lexer never holds an `ILLEGAL` token, but the
check is kept. -/
def ffTillGo (delim : Str) (prev : List TokenGroup) : List TokenGroup → Except PErr Cur
  | [] => .error (.fastForward .eof [])
  | g :: r =>
    if g.token = .whitespace then ffTillGo delim (g :: prev) r
    else if g.token = .eof ∨ g.token = .illegal then .error (.fastForward g.token g.value)
    else if g.value = delim then .ok ⟨g :: prev, r, g.line⟩
    else ffTillGo delim (g :: prev) r

/-- parser.go:59-68 `fastForwardTill`. -/
def fastForwardTill (c : Cur) (delim : Str) : Except PErr Cur := ffTillGo delim c.prev c.rest

/-- parser.go:222-230, 404-416, 501-505: read ignoring white space; while the token is a comment remember its text
(the last one wins) and read on. Result: description, token, value, cursor. -/
def commentsGo (desc : Str) (prev : List TokenGroup) (line : Nat) : List TokenGroup → Str × Tok × Str × Cur
  | [] => (desc, .eof, [], ⟨prev, [], line⟩)
  | g :: r =>
    if g.token = .whitespace then commentsGo desc (g :: prev) g.line r
    else if g.token = .comment then commentsGo g.value (g :: prev) g.line r
    else (desc, g.token, g.value, ⟨g :: prev, r, g.line⟩)

def Cur.getDesc (c : Cur) (desc : Str) : Str × Tok × Str × Cur := commentsGo desc c.prev c.line c.rest

/-- parser.go:498-576 `ParseBindingFields`. The loop state is the description pending on the next field, the fields
so far and the custom pattern so far. One unit of fuel per loop iteration or recursive call. `unq` is
`strconv.Unquote`. -/
def bindingFields (unq : Str → Option Str) :
    Nat → Cur → Str → List Field → List Field → Except PErr (List Field × List Field × Cur)
  | 0, _, _, _, _ => .error .fuel
  | n + 1, c, desc, fields, custom =>
    match c.getDesc desc with
    | (desc, tk, val, c1) =>
      if tk = .eof ∨ tk = .illegal then .error (.expected .fieldLegal c1.line val)
      else if tk = .closeBrace ∧ val = "}".toList then .ok (fields, custom, c1.unGet)
      else if val = "additional_bindings".toList then .ok (fields, custom, c1.unGet)
      else if val = "custom".toList then do
        let c2 ← fastForwardTill c1 "{".toList
        let (cf, _, c3) ← bindingFields unq n c2 [] [] []
        let c4 ← fastForwardTill c3 "}".toList
        bindingFields unq n c4 desc fields cf
      else
        match c1.getWS with
        | (tk2, val2, c2) =>
          if tk2 ≠ .symbol ∨ val2 ≠ ":".toList then .error (.expected .fieldColon c2.line val2)
          else match c2.getWS with
            | (tk3, val3, c3) =>
              if tk3 ≠ .stringLit then .error (.expected .fieldValue c3.line val3)
              else match unq val3 with
                | none => .error (.unquote val3)
                | some v => bindingFields unq n c3 [] (fields ++ [⟨desc, val, v⟩]) custom

mutual
/-- parser.go:399-496 `ParseHttpBindings`. The inner `none` is the nil slice returned at the end of an rpc without
options. -/
def httpBindings (unq : Str → Option Str) : Nat → Cur → Except PErr (Option (List HTTPBinding) × Cur)
  | 0, _ => .error .fuel
  | n + 1, c =>
    match c.getDesc [] with
    | (desc, tk, val, c1) =>
      if tk = .eof ∨ tk = .illegal then .error (.expected .bindStart c1.line [])
      else if val = "option".toList then do
        let c2 ← fastForwardTill c1 "{".toList
        let (fs, cs, c3) ← bindingFields unq n c2 [] [] []
        optionLoop unq n c3 c3.pos [] ⟨desc, fs, cs⟩
      else if val = "additional_bindings".toList then do
        let c2 ← fastForwardTill c1 "{".toList
        let (fs, cs, c3) ← bindingFields unq n c2 [] [] []
        let c4 ← fastForwardTill c3 "}".toList
        .ok (some [⟨desc, fs, cs⟩], c4)
      else if val = "}".toList then .ok (none, c1)
      else .error (.optional c1.line val)

/-- parser.go:441-471: the loop of the `option` case. `good` is `good_position`, `rv` the additional bindings so
far, `opt` the primary binding. -/
def optionLoop (unq : Str → Option Str) :
    Nat → Cur → Nat → List HTTPBinding → HTTPBinding → Except PErr (Option (List HTTPBinding) × Cur)
  | 0, _, _, _, _ => .error .fuel
  | n + 1, c, good, rv, opt =>
    match c.getWS with
    | (tk, val, c1) =>
      if tk = .closeBrace then .ok (some (rv ++ [opt]), c1)
      else if tk = .comment then optionLoop unq n c1 c1.pos rv opt
      else if val = "additional_bindings".toList then do
        let (more, c2) ← httpBindings unq n (c1.unGetTo good)
        optionLoop unq n c2 c2.pos (rv ++ more.getD []) opt
      else if tk = .eof ∨ tk = .illegal then .error (.expected .bindLegal c1.line val)
      else .error (.expected .bindClose c1.line val)
end

/-- parser.go:288-300 and 339-351: the loop over the tokens of a request or response type; keeps the last
identifier. -/
def typeLoop (site : Site) : Nat → Tok → Str → Cur → Str → Except PErr (Str × Cur)
  | 0, _, _, _, _ => .error .fuel
  | n + 1, tk, val, c, acc =>
    if tk = .closeParen then .ok (acc, c)
    else if tk = .symbol then
      match c.getWS with
      | (tk', val', c') => typeLoop site n tk' val' c' acc
    else if tk = .ident then
      match c.getWS with
      | (tk', val', c') => typeLoop site n tk' val' c' val
    else .error (.expected site c.line val)

/-- parser.go:260-300 and 311-351: "( [stream] type )". -/
def typeRef (openSite identSite loopSite : Site) (n : Nat) (c : Cur) : Except PErr (Str × Cur) :=
  match c.getWS with
  | (tk, val, c1) =>
    if tk ≠ .openParen then .error (.expected openSite c1.line val)
    else
      match c1.getWS with
      | (tk2, val2, c2) =>
        match (if val2 = "stream".toList then c2.getWS else (tk2, val2, c2)) with
        | (tk3, val3, c3) =>
          if tk3 ≠ .ident then .error (.expected identSite c3.line val3)
          else typeLoop loopSite n tk3 val3 c3 []

/-- parser.go:353-395: the part of `ParseMethod` after the response type. -/
def methodTail (unq : Str → Option Str) (n : Nat) (c : Cur) (m : Method) : Except PErr (Option Method × Cur) :=
  match c.getWS with
  | (tk, val, c1) =>
    if val = ";".toList then .ok (none, c1)
    else if tk ≠ .openBrace then .error (.expected .rpcOpenBody c1.line val)
    else do
      let (bs, c2) ← httpBindings unq n c1
      match bs with
      | none => .ok (none, c2)
      | some bs =>
        match c2.getWSC with
        | (tk3, val3, c3) =>
          if tk3 ≠ .symbol ∨ val3 ≠ ";".toList then .error (.expected .rpcSemi c3.line val3)
          else match c3.getWSC with
            | (tk4, val4, c4) =>
              if tk4 ≠ .closeBrace then .error (.expected .rpcClose c4.line val4)
              else .ok (some { m with bindings := bs }, c4)

/-- parser.go:219-397 `ParseMethod`. The outer `none` is a nil method (an rpc without http options). -/
def parseMethod (unq : Str → Option Str) (n : Nat) (c : Cur) : Except PErr (Option Method × Cur) :=
  match c.getDesc [] with
  | (desc, tk, val, c1) =>
    if tk = .closeBrace then .error .svcDefEnd
    else if tk ≠ .ident ∨ val ≠ "rpc".toList then .error (.expected .rpcKeyword c1.line val)
    else
      match c1.getWS with
      | (tk2, name, c2) =>
        if tk2 ≠ .ident then .error (.expected .rpcName c2.line name)
        else do
          let (rq, c3) ← typeRef .rpcOpenArg .rpcArgIdent .rpcArg n c2
          match c3.getWS with
          | (tk4, val4, c4) =>
            if tk4 ≠ .ident ∨ val4 ≠ "returns".toList then .error (.expected .rpcReturns c4.line val4)
            else do
              let (rs, c5) ← typeRef .rpcOpenRet .rpcRetIdent .rpcRet n c4
              methodTail unq n c5 ⟨name, desc, rq, rs, []⟩

/-- parser.go:201-214: the loop of `ParseService`. -/
def methodsLoop (unq : Str → Option Str) (fuel : Nat) : Nat → Cur → List Method → Except PErr (List Method)
  | 0, _, _ => .error .fuel
  | n + 1, c, ms =>
    match parseMethod unq fuel c with
    | .error .svcDefEnd => .ok ms
    | .error e => .error e
    | .ok (none, c') => methodsLoop unq fuel n c' ms
    | .ok (some m, c') => methodsLoop unq fuel n c' (ms ++ [m])

/-- parser.go:166-217 `ParseService`, with a bound on loop iterations. The keyword check is
`tk != IDENT && val != "service"` as in the Go code (parser.go:171). -/
def parseServiceN (unq : Str → Option Str) (fuel : Nat) (c : Cur) : Except PErr Service :=
  match c.getWS with
  | (tk, val, c1) =>
    if tk = .eof then .error .unexpectedEOF
    else if tk ≠ .ident ∧ val ≠ "service".toList then .error (.expected .svcKeyword c1.line val)
    else
      match c1.getWS with
      | (tk2, name, c2) =>
        if tk2 ≠ .ident then .error (.expected .svcName c2.line name)
        else
          match c2.getWS with
          | (tk3, val3, c3) =>
            if tk3 ≠ .openBrace then .error (.expected .svcOpen c3.line val3)
            else do
              let ms ← methodsLoop unq fuel fuel c3 []
              .ok ⟨name, ms⟩

/-- parser.go:166-217 `ParseService` on a token buffer. C09 shows any larger bound gives the same result. -/
def parseService (unq : Str → Option Str) (ts : List TokenGroup) : Except PErr Service :=
  parseServiceN unq (ts.length + 2) (Cur.new ts)

end Baron.Parser
