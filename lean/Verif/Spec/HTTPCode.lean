import Verif.Model.HTTPCode
import Verif.Spec.HTTP

/-!
# Specification vocabulary for C25, C26 and C44: which values a field can hold, which fields the generated code supports
-/

namespace Baron.HTTPCode

open Baron.HTTP

variable {F : Type}

/-- The value is in the range of the Go type. -/
def FitsBase (fl : Floats F) : Base → SVal F → Prop
  | .uint32, .num i => 0 ≤ i ∧ i < 2 ^ 32
  | .uint64, .num i => 0 ≤ i ∧ i < 2 ^ 64
  | .int32, .num i => -(2 ^ 31) ≤ i ∧ i < 2 ^ 31
  | .int64, .num i => -(2 ^ 63) ≤ i ∧ i < 2 ^ 63
  | .bool, .bool _ => True
  | .float32, .flt x => fl.fits32 x = true
  | .float64, .flt _ => True
  | .string, .str _ => True
  | _, _ => False

/-- What kind of field: a base type, single, optional or repeated, a single enum, a message, or a list of something that
is not a base type (messages, enums, bytes). -/
inductive Shape where
  | single (b : Base)
  | optional (b : Base)
  | repeated (b : Base)
  | enum
  | message
  | messages

/-- The distilled field describes a field of that shape. -/
def HasShape (f : HField) : Shape → Prop
  | .single b => f.isBase = true ∧ f.isEnum = false ∧ baseOf f.goType = some b ∧ f.star = false ∧ f.repeated = false
  | .optional b => f.isBase = true ∧ f.isEnum = false ∧ baseOf f.goType = some b ∧ f.star = true ∧ f.repeated = false
  | .repeated b => f.isBase = true ∧ f.isEnum = false ∧ baseOf f.goType = some b ∧ f.star = false ∧ f.repeated = true
  | .enum => f.isEnum = true ∧ f.isBase = false ∧ baseOf f.goType = none ∧ f.star = false ∧ f.repeated = false
  | .message => f.isEnum = false ∧ f.isBase = false ∧ f.star = true ∧ f.repeated = false
  | .messages => f.isBase = false ∧ f.repeated = true

/-- The value is one the field can hold. -/
def Holds (fl : Floats F) : Shape → FVal F → Prop
  | .single b, .one v => FitsBase fl b v
  | .optional b, .opt o => ∀ v, o = some v → FitsBase fl b v
  | .repeated b, .many l => ∀ v ∈ l, FitsBase fl b v
  | .enum, .one v => FitsBase fl .int32 v
  | .message, .other _ => True
  | .messages, .other _ => True
  | _, _ => False

/-- A float whose text is also a JSON number (finite ones). -/
def JsonFloat (fl : Floats F) (w : Bool) (x : F) : Prop :=
  (fl.fmt w x).head? ≠ some '+' ∧ noLeadingZero (fl.fmt w x) = true ∧ (fl.fmt w x).all jsonNumChar = true ∧ fl.fmt w x ≠ []

/-- What a query parameter of that shape can carry: everything, except that a one-element list must not be of strings
(a single text of a repeated string is read as JSON, C26), and if of floats, a finite one; the JSON of a message must be accepted by the decoder, and a message
must not be nil (`null`). -/
def QueryOK (fl : Floats F) (jok : JSONOk) : Shape → FVal F → Prop
  | .repeated .string, .many l => l.length ≠ 1
  | .repeated .float32, .many l => ∀ x, l = [.flt x] → JsonFloat fl true x
  | .repeated .float64, .many l => ∀ x, l = [.flt x] → JsonFloat fl false x
  | .message, .other j => jok j = true ∧ j ≠ "null".toList
  | .messages, .other j => jok j = true
  | _, _ => True

/-- The shapes of path parameters considered: a single scalar or enum. (An optional one is sent as the address of its value;
for a list the generated code does not compile, C44.) -/
def PathShape : Shape → Prop
  | .single _ | .enum => True
  | _ => False

/-- What a path parameter can carry: everything, except that a string must be one a path segment carries unchanged. -/
def PathOK : Shape → FVal F → Prop
  | .single .string, .one (.str s) => PathText s
  | _, _ => True

/-- The zero value of a shape that a client does not put into the query. -/
def absent : Shape → FVal F → Prop
  | .optional _, v => v = .opt none
  | .repeated _, v => v = .many []
  | _, _ => False

/-- Where a field travels. -/
def InPath (f : HField) : Prop := f.location = "path".toList
def InQuery (f : HField) : Prop := f.location = "query".toList
def InBody (f : HField) : Prop := f.location = "body".toList

/-- `texts`, the values of one parameter in a request, are read as the value `v` of a field of that kind. -/
def Reads (fl : Floats F) (jok : JSONOk) : Shape → List Str → FVal F → Prop
  | .single b, s :: _, v => ∃ x, parseBase fl b s = some x ∧ v = .one x
  | .optional b, s :: _, v => ∃ x, parseBase fl b s = some x ∧ v = .opt (some x)
  | .enum, s :: _, v => ∃ i, parseInt 32 s = some i ∧ v = .one (.num i)
  | .repeated b, [s], v => ∃ l, v = .many l ∧
      (jsonArray fl b s = some l ∨ jsonArray fl b s = none ∧ jsonArray fl b ('[' :: s ++ [']']) = some l)
  | .repeated b, s :: t :: rest, v => ∃ l, v = .many l ∧ (s :: t :: rest).map (parseBase fl b) = l.map some
  | .message, s :: _, v => jok s = true ∧ v = .other (if s = "null".toList then "{}".toList else s)
  | .messages, s :: _, v => jok s = true ∧ v = .other s
  | _, [], _ => False

/-- The texts carried by a request for a field's parameter, if any: path parameters always have exactly one (a missing
variable reads as the empty text), query parameters those of the query, body fields none. -/
def carried (r : Request F) (f : HField) : Option (List Str) :=
  if f.location = "path".toList then some [(look r.vars f.queryParamName).getD []]
  else if f.location = "query".toList then look r.query f.queryParamName
  else none

/-- The text is no JSON list of strings, neither as it is nor in brackets. -/
def NoList (fl : Floats F) (s : Str) : Prop :=
  jsonArray fl .string s = none ∧ jsonArray fl .string ('[' :: s ++ [']']) = none

instance (fl : Floats F) (s : Str) : Decidable (NoList fl s) := inferInstanceAs (Decidable (_ = _ ∧ _ = _))

/-- The value the decoder stores for the texts of a parameter: what they are read as, except that a repeated string field
with a single text that is no list gets whatever the JSON decoder left behind. -/
def Stores (fl : Floats F) (jok : JSONOk) : Shape → List Str → FVal F → Prop
  | .repeated .string, [s], v => Reads fl jok (.repeated .string) [s] v ∨ NoList fl s ∧ v = .many ((fl.junk s).map .str)
  | sh, ts, v => Reads fl jok sh ts v

/-- What the decoding statements of a field do with the decoder's one error variable, once they have stored a value:
nothing, leave an error in it (a single text that is no list, for a repeated string), clear it (they assign the result of
a conversion to it), or demand that it is clear (they test it without assigning it). -/
inductive Effect where
  | keeps | leaves | clears | demands
  deriving DecidableEq

/-- Which of these it is. -/
def effect (fl : Floats F) (f : HField) (ts : List Str) : Effect :=
  if f.repeated ∧ f.isBase then
    match ts with
    | [s] => if f.goType = "string".toList ∧ NoList fl s then .leaves else .clears
    | _ => .demands
  else if f.repeated ∨ (¬ f.isBase ∧ ¬ f.isEnum) then .clears
  else if f.location = "path".toList ∧ f.goType ≠ "string".toList then .clears
  else .keeps

/-- What the fields that are present do with the error variable, in order. -/
def effects (fl : Floats F) (r : Request F) (fs : List HField) : List Effect :=
  fs.filterMap fun f => (carried r f).map (effect fl f)

/-- No error is noticed: each error that is left behind is cleared by a later field, before any field demands that there
is none. -/
def NoErrorNoticed (l : List Effect) : Prop :=
  ∀ before after, l = before ++ Effect.leaves :: after →
    ∃ between rest, after = between ++ Effect.clears :: rest ∧ Effect.demands ∉ between

end Baron.HTTPCode
