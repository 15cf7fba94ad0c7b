import Verif.Model.HTTPCode

/-!
# Model of oneofs in the generated HTTP request encoder and decoder

`NewBinding` (httptransport.go:75-125) distils each oneof of the request into an `OneofField` with its options, for which
`OneofField.GenQueryUnmarshaler` (httptransport.go:319-357) and NAME.pb.baron.go.tmpl:457-461, 668-687 generate code. The
other fields are those of Model/HTTPCode.
-/

namespace Baron.HTTPCode

open Baron.HTTP Baron.Svcdef

/-- httptransport.go:85-94 (`Field` of an option, what the generated texts depend on). `star` is the star of the option's
own type, read at 115-118; `wrapper` is the Go struct protoc makes for the option. -/
structure HOption where
  name : Str
  queryParamName : Str
  goType : Str
  star : Bool
  repeated : Bool
  wrapper : Str
  deriving Repr, DecidableEq

/-- httptransport/types.go `OneofField`. -/
structure HOneof where
  name : Str
  location : Str
  options : List HOption
  deriving Repr, DecidableEq

/-- httptransport.go:85-94. -/
def newOption (o : OneofField) : HOption where
  name := o.name
  queryParamName := o.pbName
  goType := o.typeName
  star := o.star
  repeated := o.array
  wrapper := o.wrapper

/-- httptransport.go:75-125: the oneofs of a binding. -/
def bindingOneofs (b : HTTPBinding) : List HOneof :=
  (b.params.filter fun p => !p.field.type.oneof.isEmpty).map fun p =>
    ⟨p.field.name, p.location, p.field.type.oneof.map newOption⟩

/-- The type protoc gives the option's field in its wrapper struct. -/
def optionTy (o : HOption) : GoTy :=
  let elem := if o.star then GoTy.ptr (.named o.goType) else .named o.goType
  if o.repeated then .slice elem else elem

/-- httptransport.go:95-122 with 361-482 and 488-512: the type of the value generated for the wrapper's field, `none`
when the statements do not compile. Every option counts as a base type (95-97: only resolved enums and maps do not, and
options are never resolved), so a type without a case in the `switch` of 372-391 leaves the text `%!(EXTRA …)` behind, both
for single options and, inside the loop, for repeated ones (443-444). A repeated option can only be of type `byte`, which
has no case. -/
def optionRhs (o : HOption) : Option GoTy :=
  match baseOf o.goType with
  | none => none
  | some b => if o.repeated then some (.slice (.named o.goType))
    else some (if needsCast b then .named o.goType else .named (parsedTy b))

/-- The assignment `req.X = &Wrapper{Name: value}` of httptransport.go:347 compiles: the value has the field's type, and
the wrapper is taken by address (113-118: not when the option is a pointer), as only the pointer type implements the
oneof's interface. -/
def optionCompiles (o : HOption) : Bool := !o.star && optionRhs o = some (optionTy o)

/-- The content of a oneof: nothing, or the Go name of an option and its value. -/
abbrev OVal (F : Type) := Option (Str × SVal F)

/-- A request message with its oneofs, by Go name. -/
structure FullMsg (F : Type) where
  fields : Msg F
  oneofs : Str → OVal F

/-- A decoded request, see `Request`. -/
structure FullRequest (F : Type) where
  vars : List (Str × Str)
  query : List (Str × List Str)
  body : Option (Option (FullMsg F))

/-- What the statements of the plain fields see of a request. -/
def FullRequest.plain {F : Type} (r : FullRequest F) : Request F :=
  ⟨r.vars, r.query, r.body.map fun b => b.map fun m => m.fields⟩

inductive OErr where
  | tooMany (name : Str) | option (name : Str) | emptyValues
  deriving Repr, DecidableEq

/-- httptransport.go:320-349: count the options present in the query, refuse more than one, convert the one present.
Indexing an empty list of values panics (329). -/
def decodeOneof {F : Type} (fl : Floats F) (query : List (Str × List Str)) (o : HOneof) (old : OVal F) :
    Except OErr (OVal F) :=
  let present := o.options.filter fun p => (look query p.queryParamName).isSome
  if present.any fun p => look query p.queryParamName = some [] then .error .emptyValues
  else match present with
    | [] => .ok old
    | [p] => match look query p.queryParamName, baseOf p.goType with
      | some (s :: _), some b => match parseBase fl b s with
        | some v => .ok (some (p.name, v))
        | none => .error (.option p.name)
      | _, _ => .error (.option p.name)
    | _ => .error (.tooMany o.name)

/-- NAME.pb.baron.go.tmpl:457-461. -/
def decodeOneofs {F : Type} (fl : Floats F) (query : List (Str × List Str)) : List HOneof → (Str → OVal F) →
    Except OErr (Str → OVal F)
  | [], m => .ok m
  | o :: os, m =>
    if o.location = "query".toList then
      match decodeOneof fl query o (m (Strs.goCamelCase o.name)) with
      | .error e => .error e
      | .ok v => decodeOneofs fl query os fun n => if n = Strs.goCamelCase o.name then v else m n
    else decodeOneofs fl query os m

/-- NAME.pb.baron.go.tmpl:421-463 `DecodeHTTP…Request` with oneofs; the statements of a oneof never touch the outer
`err`. -/
def decodeFull {F : Type} (fl : Floats F) (jok : JSONOk) (zero : FullMsg F) (fs : List HField) (os : List HOneof)
    (r : FullRequest F) : Except (DErr ⊕ OErr) (FullMsg F) :=
  match r.body with
  | some none => .error (.inl .badBody)
  | body =>
    let m := (body.bind id).getD zero
    match decodeFields fl jok r.plain fs m.fields false with
    | .error x => .error (.inl x)
    | .ok (m', e) => match decodeOneofs fl r.query os m.oneofs with
      | .error x => .error (.inr x)
      | .ok o => if e then .error (.inl .leftover) else .ok ⟨m', o⟩

/-- httptransport.go:514-526 `getZeroValue` compared with `==`; `fzero` tells which floats equal `0`. -/
def isZero {F : Type} (fzero : F → Bool) : SVal F → Bool
  | .num i => i = 0
  | .bool b => !b
  | .flt x => fzero x
  | .str s => s.isEmpty

/-- NAME.pb.baron.go.tmpl:681-683: `if val := req.Get…(); val != zero { values.Add(…) }`. The getter gives the value of
this option when it is the one set, and zero otherwise, which is never sent. -/
def encodeOption {F : Type} (fl : Floats F) (fzero : F → Bool) (v : OVal F) (q : List (Str × List Str)) (p : HOption) :
    List (Str × List Str) :=
  match v with
  | none => q
  | some (n, x) => if n = p.name ∧ isZero fzero x = false
    then addValue q p.queryParamName (sprint fl ((baseOf p.goType).getD .int32) x) else q

/-- NAME.pb.baron.go.tmpl:636-689: the query of the request with oneofs. -/
def encodeFull {F : Type} (fl : Floats F) (fzero : F → Bool) (fs : List HField) (os : List HOneof) (m : FullMsg F) :
    List (Str × List Str) :=
  (os.filter fun o => o.location = "query".toList).foldl
    (fun q o => o.options.foldl (encodeOption fl fzero (m.oneofs (Strs.goCamelCase o.name))) q)
    (encodeQuery fl fs m.fields)

/-- NAME.pb.baron.go.tmpl:613-714 and the wire, see `transmit`. -/
def transmitFull {F : Type} (fl : Floats F) (fzero : F → Bool) (addr : Str → Str) (verb tmpl : Str) (fs : List HField)
    (os : List HOneof) (m : FullMsg F) : Option (FullRequest F) :=
  match urlParsePath (clientPath (pathEnv fl addr fs m.fields) tmpl) with
  | none => none
  | some path => match muxVars tmpl path with
    | none => none
    | some vars => some {
        vars
        query := encodeFull fl fzero fs os m
        body := if verb = "get".toList then none else some (some m) }

end Baron.HTTPCode
