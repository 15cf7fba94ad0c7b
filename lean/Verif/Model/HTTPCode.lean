import Verif.Model.HTTPNames

/-!
# Model of the generated HTTP request encoder and decoder

`NewBinding` (httptransport.go:66-195) distils each request field into a `Field`; the text it generates
(`createDecodeConvertFunc`, `createDecodeTypeConversion`, `GenQueryUnmarshaler`) and the template
(NAME.pb.baron.go.tmpl:416-465 and 608-716) make up the server's decoder and the client's encoder. Modelled here: the
distilled fields, the Go types of both sides of each generated assignment (does it compile?), and the behaviour of the
generated statements. JSON of message-typed values, float text and protojson bodies are parameters.
-/

namespace Baron.HTTPCode

open Baron.HTTP Baron.Svcdef

/-- pkg/types.go:4-13 `GoBaseTypes`. -/
inductive Base where
  | uint32 | uint64 | int32 | int64 | bool | float32 | float64 | string
  deriving Repr, DecidableEq

/-- pkg/types.go:18-24 `IsGoBaseType`, and the `switch goType` of httptransport.go:372-391. -/
def baseOf (t : Str) : Option Base :=
  if t = "uint32".toList then some .uint32
  else if t = "uint64".toList then some .uint64
  else if t = "int32".toList then some .int32
  else if t = "int64".toList then some .int64
  else if t = "bool".toList then some .bool
  else if t = "float32".toList then some .float32
  else if t = "float64".toList then some .float64
  else if t = "string".toList then some .string
  else none

/-- httptransport/types.go:40-78 `Field`, without the generated texts. -/
structure HField where
  queryParamName : Str
  camelName : Str
  location : Str
  goType : Str
  star : Bool
  isBase : Bool
  isEnum : Bool
  repeated : Bool
  deriving Repr, DecidableEq

/-- httptransport.go:137-155, 170: the distilled field. -/
def newField (p : HTTPParameter) : HField where
  queryParamName := p.field.pbName
  camelName := Strs.goCamelCase p.field.name
  location := p.location
  goType := p.field.type.name
  star := p.field.type.star
  repeated := p.field.type.array
  isBase := p.field.type.message.isNone && p.field.type.enum.isNone && p.field.type.map.isNone &&
    (baseOf p.field.type.name).isSome
  isEnum := p.field.type.enum.isSome

/-- httptransport.go:126-194: the fields of a binding. Oneofs (131-133) and fields without a type name — maps — (134-137)
are skipped. -/
def bindingFields (b : HTTPBinding) : List HField :=
  (b.params.filter fun p => p.field.type.oneof.isEmpty && p.field.type.name ≠ []).map newField

/-! ## Do the generated assignments compile? -/

/-- Go types as far as the generated assignments need them. -/
inductive GoTy where
  | named (s : Str)
  | ptr (t : GoTy)
  | slice (t : GoTy)
  deriving Repr, DecidableEq

/-- The declared type of the request struct's field, from what svcdef.NewField recorded (svcdef.go:531-609). -/
def fieldTy (f : HField) : GoTy :=
  let elem := if f.star then .ptr (.named f.goType) else .named f.goType
  if f.repeated then .slice elem else elem

/-- The type of `LocalName` after `ConvertFunc` for a single base type (httptransport.go:372-391): the strconv functions
return 64-bit types. -/
def parsedTy : Base → Str
  | .uint32 | .uint64 => "uint64".toList
  | .int32 | .int64 => "int64".toList
  | .bool => "bool".toList
  | .float32 | .float64 => "float64".toList
  | .string => "string".toList

/-- The conversion of httptransport.go:496-504: the 32-bit types are converted with a cast. -/
def needsCast : Base → Bool
  | .uint32 | .int32 | .float32 => true
  | _ => false

/-- httptransport.go:361-482 and 488-512 together: the type of the right-hand side of `req.<CamelName> = …`, or `none`
when the generated statements do not compile: a repeated base type in the path refers to the undeclared `…StrArr`
(403-446), `&int32(x)` takes the address of a conversion (508), an enum or base type without a `switch` case has no
conversion. -/
def rhsTy (f : HField) : Option GoTy :=
  let elem := if f.star then GoTy.ptr (.named f.goType) else .named f.goType
  if f.repeated then
    if f.isBase ∧ f.location = "path".toList then none else some (.slice elem)
  else if f.isEnum then some (.named f.goType)
  else if f.isBase then
    match baseOf f.goType with
    | none => none
    | some b =>
      let t := if needsCast b then .named f.goType else .named (parsedTy b)
      if f.star then (if needsCast b then none else some (.ptr t)) else some t
  else some elem

/-- The generated decoding statements for a field compile. -/
def compiles (f : HField) : Bool := rhsTy f = some (fieldTy f)

/-! ## Values -/

/-- The standard library functions that are left open. Texts of floating point numbers: `fmt.Sprint` and
`strconv.ParseFloat` for a value type `F`, with the only facts used: parsing gives back what was printed (per width), the
empty text is no number, and the printed text consists of letters, digits, signs and points, not only of points. And
what two failing `json.Unmarshal` calls, on a text and on the same text in brackets, leave in a variable of type
`[]string`: nothing for a text that is not JSON, some elements after a type error (`[1]` leaves one empty text), but never
the text itself as the only element. -/
structure Floats (F : Type) where
  fits32 : F → Bool
  fmt : Bool → F → Str
  parse : Bool → Str → Option F
  fmt_plain : ∀ w x, (∃ c ∈ fmt w x, c ≠ '.') ∧ ∀ c ∈ fmt w x, c.isAlphanum = true ∨ c = '+' ∨ c = '-' ∨ c = '.'
  junk : Str → List Str
  junk_ne : ∀ s, junk s ≠ [s]
  parse_empty : ∀ w, parse w [] = none
  parse_fmt : ∀ w x, (w = true → fits32 x = true) → parse w (fmt w x) = some x

/-- A scalar value: all integer kinds and enums are `num`. -/
inductive SVal (F : Type) where
  | num (i : Int)
  | bool (b : Bool)
  | flt (x : F)
  | str (s : Str)
  deriving Repr, DecidableEq

/-- A field value: a single scalar, an optional scalar, a list of scalars, or something else (messages, bytes, maps)
given by its JSON text. -/
inductive FVal (F : Type) where
  | one (v : SVal F)
  | opt (v : Option (SVal F))
  | many (l : List (SVal F))
  | other (json : Str)
  deriving Repr, DecidableEq

/-- A request message: its fields by Go name. -/
abbrev Msg (F : Type) := Str → FVal F

/-- `fmt.Sprint` of an integer. -/
def itoaInt (i : Int) : Str := if i < 0 then '-' :: itoa i.natAbs else itoa i.natAbs

/-- `fmt.Sprint` of a scalar of the given base type. -/
def sprint {F : Type} (fl : Floats F) (b : Base) : SVal F → Str
  | .num i => itoaInt i
  | .bool true => "true".toList
  | .bool false => "false".toList
  | .flt x => fl.fmt (b = .float32) x
  | .str s => s

/-- Decimal digits to a number, `none` unless all characters are digits and there is at least one. -/
def parseNat (s : Str) : Option Nat :=
  if s ≠ [] ∧ s.all isAsciiDigit then some (s.foldl (fun a c => 10 * a + (c.toNat - 48)) 0) else none

/-- `strconv.ParseUint(s, 10, bits)`. -/
def parseUint (bits : Nat) (s : Str) : Option Int :=
  match parseNat s with
  | some n => if n < 2 ^ bits then some n else none
  | none => none

/-- `strconv.ParseInt(s, 10, bits)`: an optional sign, then digits, in range. -/
def parseInt (bits : Nat) (s : Str) : Option Int :=
  match s with
  | '-' :: r => match parseNat r with
    | some n => if n ≤ 2 ^ (bits - 1) then some (-(n : Int)) else none
    | none => none
  | '+' :: r => match parseNat r with
    | some n => if n < 2 ^ (bits - 1) then some n else none
    | none => none
  | r => match parseNat r with
    | some n => if n < 2 ^ (bits - 1) then some n else none
    | none => none

/-- `strconv.ParseBool`. -/
def parseBool (s : Str) : Option Bool :=
  if ["1", "t", "T", "true", "TRUE", "True"].any (·.toList = s) then some true
  else if ["0", "f", "F", "false", "FALSE", "False"].any (·.toList = s) then some false
  else none

/-- The conversions of httptransport.go:372-391. -/
def parseBase {F : Type} (fl : Floats F) (b : Base) (s : Str) : Option (SVal F) :=
  match b with
  | .uint32 => (parseUint 32 s).map .num
  | .uint64 => (parseUint 64 s).map .num
  | .int32 => (parseInt 32 s).map .num
  | .int64 => (parseInt 64 s).map .num
  | .bool => (parseBool s).map .bool
  | .float32 => (fl.parse true s).map .flt
  | .float64 => (fl.parse false s).map .flt
  | .string => some (.str s)

/-- Characters that can start or continue a JSON number. -/
def jsonNumChar (c : Char) : Bool := isAsciiDigit c || c = '-' || c = '+' || c = '.' || c = 'e' || c = 'E'

/-- No superfluous leading zero (JSON numbers). -/
def noLeadingZero : Str → Bool
  | '-' :: '0' :: _ :: _ => false
  | '0' :: _ :: _ => false
  | _ => true

/-- `encoding/json` decoding one array element of a base type. Numbers: JSON syntax (digits, sign, no leading zero),
then as strconv; a plus sign is not JSON. Strings: a quoted text without backslash or inner quote (simplification:
escaped strings are not decoded). -/
def jsonScalar {F : Type} (fl : Floats F) (b : Base) (s : Str) : Option (SVal F) :=
  match b with
  | .bool => if s = "true".toList then some (.bool true) else if s = "false".toList then some (.bool false) else none
  | .string => match s with
    | '"' :: r => if r.getLast? = some '"' ∧ r.dropLast.all (fun c => c ≠ '"' && c ≠ '\\') then some (.str r.dropLast) else none
    | _ => none
  | b => if s.head? ≠ some '+' ∧ noLeadingZero s ∧ s.all jsonNumChar then parseBase fl b s else none

/-- All elements of a list decode. -/
def allSome {α : Type} : List (Option α) → Option (List α)
  | [] => some []
  | none :: _ => none
  | some x :: r => (allSome r).map (x :: ·)

/-- `json.Unmarshal(text, &slice)` for a slice of a base type: `null`, or elements separated by commas in square
brackets (simplification: no white space, no commas inside strings). -/
def jsonArray {F : Type} (fl : Floats F) (b : Base) (s : Str) : Option (List (SVal F)) :=
  if s = "null".toList then some []
  else match s with
    | '[' :: r =>
      if r = [']'] then some []
      else if r.getLast? = some ']' then allSome ((split ',' r.dropLast).map (jsonScalar fl b)) else none
    | _ => none

/-! ## The server's decoder -/

/-- What running the conversion statements of one field does: return from the decoder with an error, panic, or assign a
value; `err` is the decoder's outer `err` variable afterwards (`true` when non-nil). -/
inductive Conv (F : Type) where
  | fail
  | ok (v : FVal F) (err : Bool)

/-- `json.Unmarshal` into a variable of a non-base type: accepts or not; the value keeps its JSON text. -/
abbrev JSONOk := Str → Bool

/-- httptransport.go:361-482 run on a non-empty list of texts `s :: rest` (for a path parameter the list has one
element). Simplifications: a non-base value keeps the JSON text it was read from (only `null`, which leaves the freshly
allocated message empty, is special). `path` tells whether the statements sit at function level (where `X, err := …` assigns the outer `err`) or
inside the `if …, ok := queryParams[…]` block (where it declares a new one). `e` is the outer `err` before. -/
def convert {F : Type} (fl : Floats F) (jok : JSONOk) (f : HField) (s : Str) (rest : List Str) (e : Bool) : Conv F :=
  let path := f.location = "path".toList
  if f.isEnum ∧ !f.repeated then                              -- 393-396
    match parseInt 32 s with
    | some i => .ok (.one (.num i)) (if path then false else e)
    | none => .fail
  else if f.repeated then
    match (if f.isBase then baseOf f.goType else none) with
    | some b =>                                                -- 434-462
      if rest ≠ [] then
        if b = .string then
          if e then .fail else .ok (.many ((s :: rest).map .str)) e
        else match allSome ((s :: rest).map (parseBase fl b)) with
          | none => .fail
          | some l => if e then .fail else .ok (.many l) e
      else
        let r := match jsonArray fl b s with
          | some l => some l
          | none => jsonArray fl b ('[' :: s ++ [']'])
        match r with
        | some l => .ok (.many l) false
        | none => if b = .string then .ok (.many ((fl.junk s).map .str)) true else .fail   -- 468-471: no check for strings
    | none => if jok s then .ok (.other s) false else .fail     -- 455-456, 470
  else if !f.isBase then                                        -- 411-419
    if f.star && jok s then .ok (.other (if s = "null".toList then "{}".toList else s)) false else .fail
  else
    match baseOf f.goType with
    | none => .fail
    | some b => match parseBase fl b s with
      | none => .fail
      | some v =>
        let e' := if b = .string then e else if path then false else e
        .ok (if f.star then .opt (some v) else .one v) e'

/-- A decoded request: path variables, query values, and the body (`none` when empty; a body that is not valid JSON for
the message is `some none`). -/
structure Request (F : Type) where
  vars : List (Str × Str)
  query : List (Str × List Str)
  body : Option (Option (Msg F))

/-- Assignment to a field of the request struct. -/
def setMsg {F : Type} (m : Msg F) (n : Str) (v : FVal F) : Msg F := fun k => if k = n then v else m k

inductive DErr where
  | badBody | field (name : Str) | leftover | emptyValues
  deriving Repr, DecidableEq

/-- httptransport.go:289-315 `GenQueryUnmarshaler` for one field outside the body: path parameters are always assigned
(a missing variable reads as ""), query parameters only when present. -/
def decodeField {F : Type} (fl : Floats F) (jok : JSONOk) (r : Request F) (f : HField) (m : Msg F) (e : Bool) :
    Except DErr (Msg F × Bool) :=
  if f.location = "path".toList then
    match convert fl jok f ((look r.vars f.queryParamName).getD []) [] e with
    | .fail => .error (.field f.camelName)
    | .ok v e' => .ok (setMsg m f.camelName v, e')
  else match look r.query f.queryParamName with
    | none => .ok (m, e)
    | some [] => .error .emptyValues
    | some (s :: rest) =>
      match convert fl jok f s rest e with
      | .fail => .error (.field f.camelName)
      | .ok v e' => .ok (setMsg m f.camelName v, e')

/-- NAME.pb.baron.go.tmpl:451-455: the statements of all fields in order. -/
def decodeFields {F : Type} (fl : Floats F) (jok : JSONOk) (r : Request F) : List HField → Msg F → Bool →
    Except DErr (Msg F × Bool)
  | [], m, e => .ok (m, e)
  | f :: fs, m, e =>
    if f.location = "body".toList then decodeFields fl jok r fs m e
    else match decodeField fl jok r f m e with
      | .error x => .error x
      | .ok (m', e') => decodeFields fl jok r fs m' e'

/-- NAME.pb.baron.go.tmpl:421-463 `DecodeHTTP…Request` for a request message without oneofs; `zero` is the zero message.
The final `return &req, err` fails when a repeated string left an error behind. -/
def decodeRequest {F : Type} (fl : Floats F) (jok : JSONOk) (zero : Msg F) (fs : List HField) (r : Request F) :
    Except DErr (Msg F) :=
  match r.body with
  | some none => .error .badBody
  | body =>
    match decodeFields fl jok r fs ((body.bind id).getD zero) false with
    | .error x => .error x
    | .ok (m, e) => if e then .error .leftover else .ok m

/-! ## The client's encoder -/

/-- `url.Values.Add`. -/
def addValue (q : List (Str × List Str)) (k v : Str) : List (Str × List Str) :=
  match look q k with
  | some _ => q.map fun x => if x.1 = k then (x.1, x.2 ++ [v]) else x
  | none => q ++ [(k, [v])]

/-- `fmt.Sprint(req.X)` of a field value in the path (httptransport.go:270-277): single values print themselves, a nil
optional prints `<nil>`, a non-nil one its address (any text `addr`), other values some text (`addr` as well). -/
def sprintField {F : Type} (fl : Floats F) (addr : Str → Str) (f : HField) : FVal F → Str
  | .one v => sprint fl ((baseOf f.goType).getD .int32) v
  | .opt none => "<nil>".toList
  | _ => addr f.camelName

/-- NAME.pb.baron.go.tmpl:639-667: the query values one field adds. -/
def encodeField {F : Type} (fl : Floats F) (f : HField) (v : FVal F) (q : List (Str × List Str)) :
    List (Str × List Str) :=
  let b := (baseOf f.goType).getD .int32
  if f.repeated && f.isBase then
    match v with
    | .many l => l.foldl (fun q x => addValue q f.queryParamName (sprint fl b x)) q
    | _ => q
  else if !f.isBase || f.repeated then
    match v with
    | .one x => addValue q f.queryParamName (sprint fl b x)      -- an enum: json.Marshal prints the number
    | .other j => addValue q f.queryParamName j
    | _ => q
  else if f.star then
    match v with
    | .opt (some x) => addValue q f.queryParamName (sprint fl b x)
    | _ => q
  else
    match v with
    | .one x => addValue q f.queryParamName (sprint fl b x)
    | _ => q

/-- NAME.pb.baron.go.tmpl:636-689: the query of the request, starting from an empty one. -/
def encodeQuery {F : Type} (fl : Floats F) (fs : List HField) (m : Msg F) : List (Str × List Str) :=
  (fs.filter fun f => f.location = "query".toList).foldl (fun q f => encodeField fl f (m f.camelName) q) []

/-- The texts the path sections are built from: the field whose Go name is asked for. -/
def pathEnv {F : Type} (fl : Floats F) (addr : Str → Str) (fs : List HField) (m : Msg F) (n : Str) : Str :=
  match fs.find? fun f => f.camelName = n with
  | some f => sprintField fl addr f (m n)
  | none => addr n

/-- NAME.pb.baron.go.tmpl:613-714 `EncodeHTTP…Request`, then the wire, then mux: the request as the server's decoder
sees it; `none` when the client fails or the route's handler does not run. The body is the whole request message unless
the verb is "get" (691-712); protojson is taken to restore the message it wrote. -/
def transmit {F : Type} (fl : Floats F) (addr : Str → Str) (verb tmpl : Str) (fs : List HField) (m : Msg F) :
    Option (Request F) :=
  match urlParsePath (clientPath (pathEnv fl addr fs m) tmpl) with
  | none => none
  | some path => match muxVars tmpl path with
    | none => none
    | some vars => some {
        vars
        query := encodeQuery fl fs m
        body := if verb = "get".toList then none else some (some m) }

end Baron.HTTPCode
