import Verif.Model.Strs
import Verif.Model.Svcdef

/-!
# Model of gengokit/httptransport: names, labels and path handling

Covers `EnglishNumber`, `DigitEnglish`, `NewMethod`/`NewBinding` labels, `basePath`, `LowCamelName`, `PathSections`
(httptransport.go) and `PathParams`, `BuildParamMap`, `RemoveBraces` (embeddable_funcs.go), together with the parts of
`net/url` and gorilla/mux that the generated client and server put between them (NAME.pb.baron.go.tmpl:343, 445, 623-633).
-/

namespace Baron.HTTP

/-- `strconv.Itoa` of a natural number, least significant digit first. -/
def digitsRev (n : Nat) : List Nat :=
  if n < 10 then [n] else (n % 10) :: digitsRev (n / 10)

/-- The character of a decimal digit. -/
def digitChar (d : Nat) : Char := Char.ofNat (48 + d)

/-- `strconv.Itoa` on natural numbers. -/
def itoa (n : Nat) : Str := (digitsRev n).reverse.map digitChar

/-- httptransport.go:537-548 `DigitEnglish`. -/
def digitEnglish (c : Char) : Option Str :=
  if c = '0' then some "zero".toList
  else if c = '1' then some "one".toList
  else if c = '2' then some "two".toList
  else if c = '3' then some "three".toList
  else if c = '4' then some "four".toList
  else if c = '5' then some "five".toList
  else if c = '6' then some "six".toList
  else if c = '7' then some "seven".toList
  else if c = '8' then some "eight".toList
  else if c = '9' then some "nine".toList
  else none

/-- `strings.Title` on a single lower-case ASCII word (the only use, httptransport.go:561). -/
def title : Str → Str
  | [] => []
  | c :: r => upperC c :: r

/-- httptransport.go:556-565 `EnglishNumber` (the argument is a slice index, hence natural). -/
def englishNumber (i : Nat) : Str :=
  (itoa i).flatMap fun c => match digitEnglish c with
    | some engl => title engl
    | none => []

/-- httptransport.go:50-63 `NewMethod` and 68 `NewBinding`: the labels of one method, in order. -/
def methodLabels (m : Svcdef.ServiceMethod) : List Str :=
  (List.range m.bindings.length).map fun i => m.name ++ englishNumber i

/-- httptransport.go:33-47 `NewHelper`: the labels of all bindings of a service; methods without bindings are skipped
(they would contribute no label). Every label names the Go functions `DecodeHTTP<label>Request` and
`EncodeHTTP<label>Request` (NAME.pb.baron.go.tmpl:421, 613). -/
def serviceLabels (s : Svcdef.Service) : List Str :=
  (s.methods.filter fun m => !m.bindings.isEmpty).flatMap methodLabels

/-- httptransport.go:530-533 `basePath`. -/
def basePath (path : Str) : Str := path.takeWhile (· ≠ '{')

/-- httptransport.go:569-579 `LowCamelName`. -/
def lowCamelName (s : Str) : Str :=
  match Strs.goCamelCase s with
  | [] => []
  | c :: r => lowerC c :: r

/-! ## embeddable_funcs.go -/

/-- embeddable_funcs.go:67-71 `RemoveBraces`. -/
def removeBraces (s : Str) : Str := (s.filter (· ≠ '{')).filter (· ≠ '}')

/-- embeddable_funcs.go:57: `strings.ContainsAny(part, "{}")`. -/
def hasBrace (s : Str) : Bool := s.any fun c => c = '{' || c = '}'

/-- A Go `map[string]V` as the list of its writes, latest first; reading takes the latest write. -/
def look {V : Type} (m : List (Str × V)) (k : Str) : Option V := (m.find? (·.1 = k)).map (·.2)

/-- embeddable_funcs.go:52-63 `BuildParamMap`: the loop, from index `idx`, over the writes so far. -/
def buildGo : Nat → List Str → List (Str × Nat) → List (Str × Nat)
  | _, [], m => m
  | idx, part :: ps, m =>
    buildGo (idx + 1) ps (if hasBrace part then (removeBraces part, idx) :: m else m)

/-- embeddable_funcs.go:52-63 `BuildParamMap`. -/
def buildParamMap (tmpl : Str) : List (Str × Nat) := buildGo 0 (split '/' tmpl) []

/-- How `PathParams` can end without a value. -/
inductive PathErr where
  /-- embeddable_funcs.go:28: the segment counts differ. -/
  | count (expected received : Nat)
  /-- embeddable_funcs.go:33: `parts[v]` out of range, a Go panic. -/
  | panic
  deriving Repr, DecidableEq

/-- embeddable_funcs.go:32-34: the loop filling the result. Go ranges over a map, so each key is visited once with its
latest position; visiting older writes of the same key later changes no lookup. -/
def fillGo (parts : List Str) : List (Str × Nat) → Except PathErr (List (Str × Str))
  | [] => .ok []
  | (k, v) :: m => match parts[v]? with
    | none => .error .panic
    | some x => match fillGo parts m with
      | .error e => .error e
      | .ok r => .ok ((k, x) :: r)

/-- embeddable_funcs.go:21-37 `PathParams`. -/
def pathParams (url tmpl : Str) : Except PathErr (List (Str × Str)) :=
  let expectedLen := (split '/' (trimRight '/' tmpl)).length
  let recievedLen := (split '/' (trimRight '/' url)).length
  if expectedLen ≠ recievedLen then .error (.count expectedLen recievedLen)
  else fillGo (split '/' url) (buildParamMap tmpl)

/-! ## The client's path: PathSections and url.Parse -/

/-- httptransport.go:268: a segment standing for a parameter. -/
def isParamPart (p : Str) : Bool :=
  p.length > 2 && p.head? == some '{' && p.getLast? == some '}'

/-- httptransport.go:257-285 `PathSections` evaluated by the generated `strings.Join([]string{...}, "/")`
(NAME.pb.baron.go.tmpl:623-627): `env` gives the text `fmt.Sprint(req.<GoName>)` (or `%d` for an enum) of the field
with the given Go name. Literal parts are embedded between double quotes; parts holding quotes or backslashes do not
yield valid Go and are outside the model. -/
def clientPath (env : Str → Str) (tmpl : Str) : Str :=
  join '/' ((split '/' tmpl).map fun part =>
    if isParamPart part then env (Strs.goCamelCase (removeBraces part)) else part)

def isHex (c : Char) : Bool :=
  isAsciiDigit c || ('a' ≤ c && c ≤ 'f') || ('A' ≤ c && c ≤ 'F')

def hexVal (c : Char) : Nat :=
  if isAsciiDigit c then c.toNat - 48 else if 'a' ≤ c ∧ c ≤ 'f' then c.toNat - 87 else c.toNat - 55

/-- net/url `unescape(s, encodePath)`. Escapes of bytes above 0x7f are decoded to one rune each (simplification: Go
yields raw bytes). -/
def unescape : Str → Option Str
  | [] => some []
  | '%' :: a :: b :: r =>
    if isHex a && isHex b then (unescape r).map (Char.ofNat (16 * hexVal a + hexVal b) :: ·) else none
  | '%' :: _ => none
  | c :: r => (unescape r).map (c :: ·)

/-- net/url `stringContainsCTLByte`. -/
def hasCtl (s : Str) : Bool := s.any fun c => c.toNat < 32 || c.toNat == 127

/-- `url.Parse(path)` followed by reading `.Path` (NAME.pb.baron.go.tmpl:628-633), for a string that starts with a
slash; `none` is a parse error. The fragment is cut at '#', then the query at '?', a leading double slash makes the next
segment the host. Host validation errors are not modelled. -/
def urlParsePath (raw : Str) : Option Str :=
  let s := raw.takeWhile (· ≠ '#')
  if hasCtl s then none
  else
    let s := s.takeWhile (· ≠ '?')
    match s with
    | '/' :: '/' :: '/' :: r => unescape ('/' :: '/' :: '/' :: r)
    | '/' :: '/' :: r => unescape (r.dropWhile (· ≠ '/'))
    | s => unescape s

/-! ## gorilla/mux on the server -/

/-- mux `cleanPath(p) == p` for a path starting with a slash: no empty, "." or ".." segment, except that the last one may
be empty. When it fails, mux answers with a redirect and never runs the handler. `segs` are the parts after the
leading slash. -/
def cleanSegs : List Str → Bool
  | [] => true
  | [s] => s ≠ ['.'] && s ≠ ['.', '.']
  | s :: r => s ≠ [] && s ≠ ['.'] && s ≠ ['.', '.'] && cleanSegs r

/-- Matching a `.Path(template)` route (NAME.pb.baron.go.tmpl:343), segment by segment: a segment that is one `{name}`
matches any non-empty segment (`[^/]+`), a literal one matches itself. Templates with braces inside a longer segment, or
`{name:regexp}`, are outside the model. -/
def muxGo : List Str → List Str → Option (List (Str × Str))
  | [], [] => some []
  | t :: ts, s :: ss =>
    if isParamPart t then
      if s = [] then none else (muxGo ts ss).map ((removeBraces t, s) :: ·)
    else if t = s then muxGo ts ss else none
  | _, _ => none

/-- mux `Router.ServeHTTP` for one route and `mux.Vars` (NAME.pb.baron.go.tmpl:343, 445): the variables the handler
sees, or `none` when the handler is not run. -/
def muxVars (tmpl path : Str) : Option (List (Str × Str)) :=
  if cleanSegs (split '/' path).tail then muxGo (split '/' tmpl) (split '/' path) else none

end Baron.HTTP
