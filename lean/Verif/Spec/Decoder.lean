import Verif.Spec.Scope
import Verif.Spec.Strs
import Verif.Spec.Idents
import Verif.Model.Oneof

/-!
# Which fields and oneofs a generated HTTP decoder can name

The decoder of a binding declares variables named after the request's fields and the rpc. Those of path parameters live to
the end of the function, those of query parameters in a block of their own, those of oneofs to the end of the function.
The names collide with each other, and hide types of the package, in the cases spelled out here.
-/

namespace Baron.DecoderNames

open Baron.Scope Baron.HTTPCode

/-- How the code writes a Go type. -/
inductive Mention where
  /-- a predeclared type, no matter how often repeated -/
  | predeclared
  /-- `p.T` of an imported package -/
  | imported (p : Str)
  /-- a type of the package -/
  | own (t : Str)
  deriving Repr, DecidableEq

def predeclaredTypes : List String := ["uint32", "uint64", "int32", "int64", "bool", "float32", "float64", "string", "byte"]

def mention (goType : Str) : Mention :=
  let t := goType.dropWhile fun c => c = '[' || c = ']'
  if '.' ∈ t then .imported (t.takeWhile (· ≠ '.'))
  else if t ∈ predeclaredTypes.map String.toList then .predeclared
  else .own t

/-- The type can be named although these variables exist. -/
def Nameable (g : Outer) (vars : List Str) (goType : Str) : Prop :=
  match mention goType with
  | .predeclared => True
  | .imported p => g.value p = true
  | .own t => g.type t = true ∧ t ∉ vars

instance {g : Outer} {vars : List Str} {t : Str} : Decidable (Nameable g vars t) := by
  unfold Nameable; split <;> infer_instance

/-- The variable for a field of that Go name in the decoder of an rpc, and those for the texts it is read from. -/
def main (camel rpc : Str) : Str := camel ++ rpc
def text (camel rpc : Str) : Str := camel ++ rpc ++ "Str".toList
def texts (camel rpc : Str) : Str := camel ++ rpc ++ "StrArr".toList
def found (camel rpc : Str) : Str := camel ++ rpc ++ "OK".toList

/-- The field's own variables that exist where its type is named: the text, in the query also the list of texts, and
the variable itself unless the type is named in its declaration only. -/
def around (rpc : Str) (f : HField) : List Str :=
  [text f.camelName rpc] ++ (if f.location = "path".toList then [] else [texts f.camelName rpc]) ++
    (if f.repeated then [] else [main f.camelName rpc])

/-- The statements for a parameter, given the variables `vars` of earlier ones. -/
structure FieldOK (g : Outer) (rpc : Str) (vars : List Str) (f : HField) : Prop where
  /-- a path parameter needs its two variables for itself -/
  fresh : f.location = "path".toList → text f.camelName rpc ∉ vars ∧ main f.camelName rpc ∉ vars
  /-- its type can be named -/
  type : f.isBase = false → Nameable g (vars ++ around rpc f) f.goType
  /-- a repeated base type refers to the list of texts, which path parameters do not have -/
  texts : f.location = "path".toList → f.isBase = true → f.repeated = true →
    texts f.camelName rpc ∈ vars ∨ g.value (texts f.camelName rpc) = true

/-- The variables a parameter leaves behind. -/
def left (rpc : Str) (f : HField) : List Str :=
  if f.location = "path".toList then [text f.camelName rpc, main f.camelName rpc] else []

/-- All parameters, in order. -/
def FieldsOK (g : Outer) (rpc : Str) : List Str → List HField → Prop
  | _, [] => True
  | vars, f :: fs => FieldOK g rpc vars f ∧ FieldsOK g rpc (vars ++ left rpc f) fs

/-- The variables of an option: its text, the list of texts and whether there is one. -/
def optionVars (rpc : Str) (o : HOption) : List Str :=
  [text (Strs.goCamelCase o.name) rpc, texts (Strs.goCamelCase o.name) rpc, found (Strs.goCamelCase o.name) rpc]

/-- The statements that look for the options, in order: one declares the text, one the other two, of which one may exist. -/
def OptionsOK (rpc : Str) : List Str → List HOption → Prop
  | _, [] => True
  | vars, o :: os => text (Strs.goCamelCase o.name) rpc ∉ vars ∧
    (texts (Strs.goCamelCase o.name) rpc ∉ vars ∨ found (Strs.goCamelCase o.name) rpc ∉ vars) ∧
    OptionsOK rpc (vars ++ optionVars rpc o) os

/-- The variables of a oneof. -/
def oneofVars (rpc : Str) (o : HOneof) : List Str := (o.name ++ "CountSet".toList) :: o.options.flatMap (optionVars rpc)

/-- The statements for a oneof in the query. -/
structure OneofOK (g : Outer) (rpc : Str) (vars : List Str) (o : HOneof) : Prop where
  /-- the number of options found needs a variable -/
  count : o.name ++ "CountSet".toList ∉ vars
  options : OptionsOK rpc (vars ++ [o.name ++ "CountSet".toList]) o.options
  /-- no variable hides the struct protoc wraps the option in -/
  wrappers : ∀ p ∈ o.options, g.type p.wrapper = true ∧ p.wrapper ∉ vars ++ oneofVars rpc o ∧
    p.wrapper ≠ main (Strs.goCamelCase p.name) rpc

/-- All oneofs, in order. -/
def OneofsOK (g : Outer) (rpc : Str) : List Str → List HOneof → Prop
  | _, [] => True
  | vars, o :: os => OneofOK g rpc vars o ∧ OneofsOK g rpc (vars ++ oneofVars rpc o) os

/-! ## Parameters as protoc makes them -/

/-- The names the decoder uses for its own purposes; a package of one of these names would be confused with them. -/
def taken : List String :=
  ["r", "req", "buf", "err", "pathParams", "queryParams", "ok", "i", "v", "converted", "strconv", "errors", "fmt", "json"]

/-- A parameter whose names are of the form protoc gives them: fields, types of the package and wrapper structs are
exported, imported packages are not. Options of oneofs in the query are of base types; others never compile, whatever
their names (see C65). -/
structure PlainParam (p : Svcdef.HTTPParameter) : Prop where
  location : p.location ∈ ["path", "query", "body"].map String.toList
  name : Idents.Exported p.field.name
  own : ∀ t, mention p.field.type.name = .own t → Idents.Exported t
  imported : ∀ q, mention p.field.type.name = .imported q → ¬Idents.Exported q ∧ q ∉ taken.map String.toList
  options : p.location = "query".toList → ∀ o ∈ p.field.type.oneof,
    Idents.Exported o.name ∧ Idents.Exported o.wrapper ∧ (baseOf o.typeName).isSome = true

/-- A decoder for these parameters and oneofs. -/
def DecoderOK (g : Outer) (rpc : Str) (fs : List HField) (os : List HOneof) : Prop :=
  FieldsOK g rpc [] fs ∧ OneofsOK g rpc (fs.flatMap (left rpc)) os

end Baron.DecoderNames
