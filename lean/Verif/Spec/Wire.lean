import Verif.Spec.HTTPCode
import Verif.Spec.Svcdef
import Verif.Model.Oneof

/-!
# Specification of texts on the wire: how numbers and truth values are written, and what a query holds

`Reads` and `Stores` (Spec/HTTPCode) refer to the conversion functions of the standard library; here is what these accept,
in so many words.
-/

namespace Baron.Wire

open Baron.HTTPCode Baron.Svcdef Baron.HTTP

variable {F : Type}

/-- A non-empty sequence of decimal digits. -/
def Digits (s : Str) : Prop := s ≠ [] ∧ ∀ c ∈ s, c.toNat ∈ List.range' 48 10

/-- The number they denote: each digit counts ten to the number of digits after it. -/
def decimal : Str → Nat
  | [] => 0
  | c :: r => (c.toNat - 48) * 10 ^ r.length + decimal r

/-- Digits with an optional sign. -/
inductive Signed : Str → Int → Prop where
  | plain {d : Str} : Digits d → Signed d (decimal d)
  | plus {d : Str} : Digits d → Signed ('+' :: d) (decimal d)
  | minus {d : Str} : Digits d → Signed ('-' :: d) (-(decimal d))

/-- The text denotes the value of that type. Numbers out of the type's range are not read. -/
inductive Denotes (fl : Floats F) : Base → Str → SVal F → Prop where
  | uint32 {s : Str} : Digits s → decimal s < 2 ^ 32 → Denotes fl .uint32 s (.num (decimal s))
  | uint64 {s : Str} : Digits s → decimal s < 2 ^ 64 → Denotes fl .uint64 s (.num (decimal s))
  | int32 {s : Str} {i : Int} : Signed s i → -(2 ^ 31) ≤ i → i < 2 ^ 31 → Denotes fl .int32 s (.num i)
  | int64 {s : Str} {i : Int} : Signed s i → -(2 ^ 63) ≤ i → i < 2 ^ 63 → Denotes fl .int64 s (.num i)
  | yes {s : String} : s ∈ ["1", "t", "T", "true", "TRUE", "True"] → Denotes fl .bool s.toList (.bool true)
  | no {s : String} : s ∈ ["0", "f", "F", "false", "FALSE", "False"] → Denotes fl .bool s.toList (.bool false)
  | float32 {s : Str} {x : F} : fl.parse true s = some x → Denotes fl .float32 s (.flt x)
  | float64 {s : Str} {x : F} : fl.parse false s = some x → Denotes fl .float64 s (.flt x)
  | string {s : Str} : Denotes fl .string s (.str s)

/-- The text is a JSON value of that type: `true` and `false`; a text in quotes without quotes or backslashes in it; a
number without plus sign and superfluous zero. -/
inductive JsonElem (fl : Floats F) : Base → Str → SVal F → Prop where
  | yes : JsonElem fl .bool "true".toList (.bool true)
  | no : JsonElem fl .bool "false".toList (.bool false)
  | string {s : Str} : '"' ∉ s → '\\' ∉ s → JsonElem fl .string ('"' :: s ++ ['"']) (.str s)
  | number {b : Base} {s : Str} {v : SVal F} : b ≠ .bool → b ≠ .string → s.head? ≠ some '+' →
      (∀ r, s = '0' :: r → r = []) → (∀ r, s = '-' :: '0' :: r → r = []) →
      (∀ c ∈ s, c.toNat ∈ List.range' 48 10 ∨ c ∈ "+-.eE".toList) → Denotes fl b s v → JsonElem fl b s v

/-- The text is a JSON list of such values (without white space). -/
inductive JsonList (fl : Floats F) (b : Base) : Str → List (SVal F) → Prop where
  | null : JsonList fl b "null".toList []
  | empty : JsonList fl b "[]".toList []
  | list {es : List Str} {vs : List (SVal F)} : es ≠ [] → (∀ e ∈ es, ',' ∉ e) → All2 (JsonElem fl b) es vs →
      JsonList fl b ('[' :: join ',' es ++ [']']) vs

/-! ## What a query holds -/

/-- The names of the base types. -/
def baseName : Base → String
  | .uint32 => "uint32" | .uint64 => "uint64" | .int32 => "int32" | .int64 => "int64"
  | .bool => "bool" | .float32 => "float32" | .float64 => "float64" | .string => "string"

/-- The kind of a declared type: what it refers to, its name, whether it is a pointer, whether it is a slice. -/
inductive TypeShape : FieldType → Shape → Prop where
  | single (b : Base) : TypeShape ⟨(baseName b).toList, none, [], none, none, false, false⟩ (.single b)
  | optional (b : Base) : TypeShape ⟨(baseName b).toList, none, [], none, none, true, false⟩ (.optional b)
  | repeated (b : Base) : TypeShape ⟨(baseName b).toList, none, [], none, none, false, true⟩ (.repeated b)
  | enum {n : Str} {e : Nat} {msg : Option Nat} {mp : Option MapType} :
      (∀ b, n ≠ (baseName b).toList) → TypeShape ⟨n, some e, [], msg, mp, false, false⟩ .enum
  | message {n : Str} {msg : Option Nat} {mp : Option MapType} :
      (∀ b, n ≠ (baseName b).toList) → TypeShape ⟨n, none, [], msg, mp, true, false⟩ .message
  | messages {n : Str} {e msg : Option Nat} {mp : Option MapType} {star : Bool} :
      (∀ b, n ≠ (baseName b).toList) → TypeShape ⟨n, e, [], msg, mp, star, true⟩ .messages

/-- The zero value of its type. -/
def Zero (fzero : F → Bool) : SVal F → Prop
  | .num i => i = 0
  | .bool b => b = false
  | .flt x => fzero x = true
  | .str s => s = []

/-- The names of a parameter on the wire: its own, or those of its options if it is a oneof. -/
def paramNames (p : HTTPParameter) : List Str :=
  if p.field.type.oneof = [] then [p.field.pbName] else p.field.type.oneof.map (·.pbName)

/-- The names under which the parameters of a binding appear: those of the fields and of the options. -/
def wireNames (ps : List HTTPParameter) : List Str := ps.flatMap paramNames

/-- A parameter carried in the query: a oneof, or a field with a type name (a map has none). -/
def Queried (p : HTTPParameter) : Prop :=
  p.location = "query".toList ∧ (p.field.type.oneof ≠ [] ∨ p.field.type.name ≠ [])

/-- How a value is written: a number without superfluous zeros and with a sign only if it is negative; `true` or `false`;
a string as it is. -/
inductive Written (fl : Floats F) : Base → SVal F → Str → Prop where
  | nat {b : Base} {d : Str} : Digits d → (d.length = 1 ∨ d.head? ≠ some '0') → Written fl b (.num (decimal d)) d
  | neg {b : Base} {d : Str} : Digits d → d.head? ≠ some '0' → Written fl b (.num (-(decimal d))) ('-' :: d)
  | yes {b : Base} : Written fl b (.bool true) "true".toList
  | no {b : Base} : Written fl b (.bool false) "false".toList
  | float32 {x : F} : Written fl .float32 (.flt x) (fl.fmt true x)
  | float64 {x : F} : Written fl .float64 (.flt x) (fl.fmt false x)
  | string {b : Base} {s : Str} : Written fl b (.str s) s

/-- The texts for a field of that kind holding that value: one for each element of a list; none for an optional field that
is not set; the JSON of a message. -/
inductive FieldTexts (fl : Floats F) : Shape → FVal F → List Str → Prop where
  | single {b : Base} {x : SVal F} {t : Str} : Written fl b x t → FieldTexts fl (.single b) (.one x) [t]
  | set {b : Base} {x : SVal F} {t : Str} : Written fl b x t → FieldTexts fl (.optional b) (.opt (some x)) [t]
  | unset {b : Base} : FieldTexts fl (.optional b) (.opt none) []
  | repeated {b : Base} {l : List (SVal F)} {ts : List Str} : All2 (Written fl b) l ts →
      FieldTexts fl (.repeated b) (.many l) ts
  | enum {x : SVal F} {t : Str} : Written fl .int32 x t → FieldTexts fl .enum (.one x) [t]
  | message {j : Str} : FieldTexts fl .message (.other j) [j]
  | messages {j : Str} : FieldTexts fl .messages (.other j) [j]

/-- The text of a field's value in the path: `fmt.Sprint` of a pointer does not print what it points to. -/
inductive PathWritten (fl : Floats F) (address : Str) : Shape → FVal F → Str → Prop where
  | single {b : Base} {x : SVal F} {t : Str} : Written fl b x t → PathWritten fl address (.single b) (.one x) t
  | enum {x : SVal F} {t : Str} : Written fl .int32 x t → PathWritten fl address .enum (.one x) t
  | unset {b : Base} : PathWritten fl address (.optional b) (.opt none) "<nil>".toList
  | set {b : Base} {x : SVal F} : PathWritten fl address (.optional b) (.opt (some x)) address

/-- All texts a query has for a name. -/
def textsOf (q : List (Str × List Str)) (k : Str) : List Str := (look q k).getD []

end Baron.Wire
