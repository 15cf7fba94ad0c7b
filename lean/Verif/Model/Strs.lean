import Verif.Go.Str

/-!
# Model of pkg/strs.go

Go's functions index bytes; every test is against an ASCII constant and every other byte is copied, so the rune-level
model below agrees on valid UTF-8. `MapEntryName` and `EnumValueName` convert runes with `byte(...)` and use
`unicode.ToUpper/ToLower`; they are modelled on ASCII input only (proto identifiers are ASCII).
-/

namespace Baron.Strs

/-- `i+1 < len(s) && isASCIILower(s[i+1])`, strs.go:29, 37, 50 (175-177 `isASCIILower`). -/
def nextLower : Str → Bool
  | [] => false
  | c :: _ => isAsciiLower c

/-- strs.go:26-53: the loop of `GoCamelCase`. `prev` is `s[i-1]` (`none` when `i == 0`). The inner loop at line 50
copies the following lower-case run. -/
def camelGo : Option Char → Str → Str
  | _, [] => []
  | prev, c :: r =>
    if c = '.' ∧ nextLower r then camelGo (some c) r
    else if c = '.' then '_' :: camelGo (some c) r
    else if c = '_' ∧ (prev = none ∨ prev = some '.') then 'X' :: camelGo (some c) r
    else if c = '_' ∧ nextLower r then camelGo (some c) r
    else if isAsciiDigit c then c :: camelGo (some c) r
    else upperC c :: r.takeWhile isAsciiLower ++
      camelGo (some ((c :: r.takeWhile isAsciiLower).getLast (by simp))) (r.dropWhile isAsciiLower)
termination_by _ s => s.length
decreasing_by
  all_goals simp_wf
  have := (List.dropWhile_sublist (l := r) isAsciiLower).length_le
  omega

/-- strs.go:19-55 `GoCamelCase`. -/
def goCamelCase (s : Str) : Str := camelGo none s

/-- go/token's keyword table (the 25 Go keywords), used by `token.Lookup(s).IsKeyword()`, strs.go:71. -/
def goKeywords : List Str :=
  ["break", "case", "chan", "const", "continue", "default", "defer", "else", "fallthrough", "for", "func", "go",
   "goto", "if", "import", "interface", "map", "package", "range", "return", "select", "struct", "switch", "type",
   "var"].map String.toList

/-- strs.go:70-71: the first rune is a letter (`utf8.DecodeRuneInString("")` is the replacement character, not a
letter). -/
def firstLetter (U : Uni) : Str → Bool
  | [] => false
  | r :: _ => U.isLetter r

/-- strs.go:58-75 `GoSanitized`. -/
def goSanitized (U : Uni) (s : Str) : Str :=
  let s := s.map fun r => if U.isLetter r || U.isDigit r then r else '_'
  if goKeywords.contains s || !firstLetter U s then '_' :: s else s

/-- strs.go:79-93 `JSONCamelCase`; `was` is `wasUnderscore`. -/
def jsonCamelGo (was : Bool) : Str → Str
  | [] => []
  | c :: r =>
    if c ≠ '_' then (if was && isAsciiLower c then upperC c else c) :: jsonCamelGo false r
    else jsonCamelGo true r

/-- strs.go:79-93 `JSONCamelCase`. -/
def jsonCamelCase (s : Str) : Str := jsonCamelGo false s

/-- strs.go:97-108 `JSONSnakeCase`. -/
def jsonSnakeCase : Str → Str
  | [] => []
  | c :: r => if isAsciiUpper c then '_' :: lowerC c :: jsonSnakeCase r else c :: jsonSnakeCase r

/-- strs.go:112-127: the loop of `MapEntryName`. -/
def mapEntryGo (upperNext : Bool) : Str → Str
  | [] => []
  | c :: r =>
    if c = '_' then mapEntryGo true r
    else if upperNext then upperC c :: mapEntryGo false r
    else c :: mapEntryGo false r

/-- strs.go:112-128 `MapEntryName`. -/
def mapEntryName (s : Str) : Str := mapEntryGo true s ++ "Entry".toList

/-- strs.go:132-148: the loop of `EnumValueName`. -/
def enumValueGo (upperNext : Bool) : Str → Str
  | [] => []
  | c :: r =>
    if c = '_' then enumValueGo true r
    else if upperNext then upperC c :: enumValueGo false r
    else lowerC c :: enumValueGo false r

/-- strs.go:132-148 `EnumValueName`. -/
def enumValueName (s : Str) : Str := enumValueGo true s

/-- strs.go:153-173: the loop of `TrimEnumPrefix`; `none` is "no prefix match". -/
def trimEnumGo : Str → Str → Option Str
  | s, [] => some s
  | [], _ :: _ => none
  | c :: r, p :: ps =>
    if c = '_' then trimEnumGo r (p :: ps)
    else if lowerC c ≠ p then none
    else trimEnumGo r ps

/-- strs.go:153-173 `TrimEnumPrefix`. -/
def trimEnumPrefix (s pre : Str) : Str :=
  match trimEnumGo s pre with
  | none => s
  | some t => if trimLeft '_' t = [] then s else trimLeft '_' t

end Baron.Strs
