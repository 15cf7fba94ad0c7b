import Verif.Model.Svcdef
import Verif.Model.Consolidate

/-!
# Model of `svcdef.New` (svcdef/svcdef.go:141-155, 202-609)

Go source files are given as syntax trees (`go/parser` is trusted). `go/ast.IsExported` is modelled on ASCII names, the
only ones protoc-gen-go writes. Log messages and the positions in errors are left out.
-/

namespace Baron.Svcdef

/-- The type expressions `NewField`, `NewMap` and `NewServiceMethod` distinguish. -/
inductive GoType where
  | ident (n : Str)
  | star (t : GoType)
  | array (t : GoType)
  | map (k v : GoType)
  /-- `x.name`; the first part is there if `x` is an identifier. -/
  | sel (pkg : Option Str) (name : Str)
  | other
  deriving Repr, DecidableEq

/-- `*ast.Field` of a struct: its names (none if embedded), the raw tag literal and the type. -/
structure GoField where
  names : List Str
  tag : Option Str
  type : GoType
  deriving Repr, DecidableEq

/-- A member of an interface: its names (none if embedded) and, for a method, the types of the entries of its parameter
list and of its result list (absent if it has no results). -/
structure GoMember where
  names : List Str
  func : Option (List GoType × Option (List GoType))
  deriving Repr, DecidableEq

inductive GoSpec where
  | iface (ms : List GoMember)
  | struct (fs : List GoField)
  | ident (n : Str)
  | other
  deriving Repr, DecidableEq

structure GoTypeSpec where
  name : Str
  spec : GoSpec
  deriving Repr, DecidableEq

/-- `*ast.FuncDecl`: its name and, for a method, the receiver type. -/
structure GoFunc where
  name : Str
  recv : Option GoType
  deriving Repr, DecidableEq

/-- A parsed file: svcdef.go:141-155 `retrieveTypeSpecs` gives the type declarations in order; the functions are those of
`fileAst.Decls`. -/
structure GoFile where
  pkg : Str
  types : List GoTypeSpec
  funcs : List GoFunc
  deriving Repr, DecidableEq

/-- Ways `New` ends without a definition. -/
inductive NErr where
  /-- svcdef.go:213-216 -/
  | parse
  /-- svcdef.go:481-485 (`ErrNotSupported`, wrapped) -/
  | notSupported
  /-- svcdef.go:452-457 -/
  | notFunc
  /-- svcdef.go:491-497 -/
  | notStar
  /-- svcdef.go:505-509 -/
  | badStar
  /-- an index out of range, a nil dereference or a failed type assertion -/
  | panic
  deriving Repr, DecidableEq

/-- svcdef.go:202-204: the process-wide variable `oneofs`, in insertion order. -/
abbrev Oneofs := List (Str × List OneofField)

def Oneofs.get (g : Oneofs) (n : Str) : Option (List OneofField) := (g.find? fun e => e.1 = n).map (·.2)

/-- `oneofs[k] = append(oneofs[k], f)` -/
def Oneofs.add : Oneofs → Str → OneofField → Oneofs
  | [], k, f => [(k, [f])]
  | e :: g, k, f => if e.1 = k then (e.1, e.2 ++ [f]) :: g else e :: Oneofs.add g k f

/-- `ast.IsExported` on ASCII names. -/
def exported (n : Str) : Bool := n.head?.any isAsciiUpper

/-! ## Struct tags -/

/-- The inside of a quoted string and what follows the closing quote (`reflect.StructTag.Lookup`). -/
def takeQuoted : Str → Option (Str × Str)
  | [] => none
  | ['\\'] => none
  | '\\' :: d :: r => (takeQuoted r).map fun x => ('\\' :: d :: x.1, x.2)
  | c :: r => if c = '"' then some ([], r) else (takeQuoted r).map fun x => (c :: x.1, x.2)

/-- The characters of a key in a struct tag. -/
def tagKeyChar (c : Char) : Bool := decide (32 < c.toNat) && c != ':' && c != '"' && decide (c.toNat ≠ 127)

/-- `reflect.StructTag.Get` (standard library), `strconv.Unquote` being a parameter. -/
def tagGetN (unq : Str → Option Str) (key : Str) : Nat → Str → Str
  | 0, _ => []
  | n + 1, tag =>
    let tag := trimLeft ' ' tag
    let name := tag.takeWhile tagKeyChar
    match name, tag.dropWhile tagKeyChar with
    | _ :: _, ':' :: '"' :: r =>
      match takeQuoted r with
      | none => []
      | some (q, rest) =>
        if key = name then (unq ('"' :: (q ++ ['"']))).getD []
        else tagGetN unq key n rest
    | _, _ => []

def tagGet (unq : Str → Option Str) (key tag : Str) : Str := tagGetN unq key (tag.length + 1) tag

/-- The text after the first `=`. -/
def afterEq (s : Str) : Option Str :=
  match s.dropWhile (· ≠ '=') with
  | _ :: r => some r
  | [] => none

/-- svcdef.go:557-567: the protobuf name taken from the tag. -/
def pbNameOf (unq : Str → Option Str) : Option Str → Except NErr Str
  | none => .ok []
  | some raw =>
    let sub := split ',' (tagGet unq "protobuf".toList (raw.drop 1).dropLast)
    if 4 ≤ sub.length then
      match afterEq (sub.getD 3 []) with
      | some v => .ok v
      | none =>
        match sub[4]? with
        | none => .error .panic
        | some s => .ok ((afterEq s).getD [])
    else .ok []

/-! ## Fields and messages -/

/-- svcdef.go:405-414 `keyFollower` -/
def valueOf : GoType → Bool → Str × Bool
  | .ident n, s => (n, s)
  | .star t, _ => valueOf t true
  | _, s => ([], s)

/-- svcdef.go:395-418 `NewMap` -/
def newMap (k v : GoType) : Except NErr MapType :=
  match k with
  | .ident n => .ok ⟨n, (valueOf v false).1, (valueOf v false).2, none, none⟩
  | _ => .error .panic

/-- svcdef.go:569-597 `typeFollower` -/
def follow (g : Oneofs) : GoType → FieldType → Except NErr FieldType
  | .ident n, t => .ok { t with name := t.name ++ n, oneof := (g.get n).getD t.oneof }
  | .star x, t => follow g x { t with star := true }
  | .array x, t => follow g x { t with name := if t.array then '[' :: ']' :: t.name else t.name, array := true }
  | .map k v, t => (newMap k v).map fun m => { t with map := some m }
  | .sel p n, t => .ok { t with name := t.name ++ (p.map (· ++ ['.'])).getD [] ++ n }
  | .other, t => .ok t

def emptyType : FieldType := ⟨[], none, [], none, none, false, false⟩

/-- svcdef.go:531-609 `NewField`; the first name is used. -/
def newField (unq : Str → Option Str) (g : Oneofs) (name : Str) (f : GoField) : Except NErr Field := do
  let pb ← pbNameOf unq f.tag
  let t ← follow g f.type emptyType
  .ok ⟨name, pb, t⟩

/-- svcdef.go:361-376: the loop over the fields of a struct. -/
def newFields (unq : Str → Option Str) (g : Oneofs) : List GoField → Except NErr (List Field)
  | [] => .ok []
  | f :: fs =>
    match f.names with
    | [] => .error .panic
    | n :: _ =>
      if hasPrefix n "XXX_".toList || !exported n then newFields unq g fs
      else do
        let x ← newField unq g n f
        let xs ← newFields unq g fs
        .ok (x :: xs)

/-- svcdef.go:357-379 `NewMessage` -/
def newMessage (unq : Str → Option Str) (g : Oneofs) (name : Str) (fs : List GoField) : Except NErr Message :=
  (newFields unq g fs).map fun l => ⟨name, l⟩

/-! ## Services -/

/-- svcdef.go:490-515 `makeFieldType` -/
def makeFieldType : GoType → Except NErr FieldType
  | .star (.sel _ n) => .ok { emptyType with name := n, star := true }
  | .star (.ident n) => .ok { emptyType with name := n, star := true }
  | .star _ => .error .badStar
  | _ => .error .notStar

/-- svcdef.go:448-526 `NewServiceMethod` -/
def newServiceMethod (name : Str) : Option (List GoType × Option (List GoType)) → Except NErr ServiceMethod
  | none => .error .notFunc
  | some (_, none) => .error .panic
  | some (input, some output) =>
    match input with
    | _ :: rq :: _ =>
      match output with
      | [] => .error .panic
      | rs :: _ => do
        let a ← makeFieldType rq
        let b ← makeFieldType rs
        .ok ⟨name, a, b, []⟩
    | _ => .error .notSupported

/-- svcdef.go:427-441: the loop over the members. The comparison `err == ErrNotSupported` is never true, because the error
was wrapped. -/
def newMethods : List GoMember → Except NErr (List ServiceMethod)
  | [] => .ok []
  | m :: ms =>
    match m.names with
    | [] => .error .panic
    | n :: _ =>
      if !exported n then newMethods ms
      else do
        let x ← newServiceMethod n m.func
        let xs ← newMethods ms
        .ok (x :: xs)

/-- svcdef.go:422-443 `NewService` -/
def newService (name : Str) (ms : List GoMember) : Except NErr Service :=
  (newMethods ms).map fun l => ⟨trimSuffix name "Server".toList, l⟩

/-! ## Files -/

/-- svcdef.go:235-251: the interfaces taken for oneofs. -/
def isOneofIface (t : GoTypeSpec) : Bool :=
  match t.spec with
  | .iface _ => !hasPrefix t.name "Unsafe".toList && !hasSuffix t.name "Server".toList && hasPrefix t.name "is".toList
  | _ => false

/-- svcdef.go:235-244: the interfaces taken for services. -/
def serverIface (t : GoTypeSpec) : Option (List GoMember) :=
  match t.spec with
  | .iface ms => if !hasPrefix t.name "Unsafe".toList && hasSuffix t.name "Server".toList then some ms else none
  | _ => none

/-- svcdef.go:231-268: the first loop; the last service wins. -/
def services : List GoTypeSpec → Option Service → Except NErr (Option Service)
  | [], s => .ok s
  | t :: ts, s =>
    match serverIface t with
    | some ms => do
      let s' ← newService t.name ms
      services ts (some s')
    | none => services ts s

/-- svcdef.go:274-283: struct name to interface name, from the methods named like a oneof interface. -/
def oneofTypes (ifaces : List Str) : List GoFunc → Except NErr (List (Str × Str))
  | [] => .ok []
  | f :: fs =>
    if ifaces.contains f.name then
      match f.recv with
      | some (.star (.ident n)) => do
        let r ← oneofTypes ifaces fs
        .ok ((n, f.name) :: r)
      | _ => .error .panic
    else oneofTypes ifaces fs

/-- The entry written last for a name. -/
def lastEntry (m : List (Str × Str)) (n : Str) : Option Str := (m.reverse.find? fun e => e.1 = n).map (·.2)

/-- svcdef.go:301-308: the option of a oneof that a wrapper struct stands for. The wrapper's field is never itself a oneof
or a map, so only its name and shape are kept. -/
def wrapperField (wrapper : Str) (f : Field) : OneofField :=
  ⟨f.name, f.pbName, f.type.name, f.type.star, f.type.array, wrapper⟩

/-- svcdef.go:286-310: the second loop. -/
def collectOneofs (unq : Str → Option Str) (types : List (Str × Str)) : List GoTypeSpec → Oneofs → Except NErr Oneofs
  | [], g => .ok g
  | t :: ts, g =>
    match t.spec with
    | .struct fs =>
      if exported t.name then
        match lastEntry types t.name with
        | none => collectOneofs unq types ts g
        | some iface => do
          let m ← newMessage unq g t.name fs
          match m.fields with
          | [] => .error .panic
          | f :: _ => collectOneofs unq types ts (g.add iface (wrapperField t.name f))
      else collectOneofs unq types ts g
    | _ => collectOneofs unq types ts g

/-- svcdef.go:313-338: the third loop. -/
def declared (unq : Str → Option Str) (g : Oneofs) (types : List (Str × Str)) :
    List GoTypeSpec → Except NErr (List Message × List Str)
  | [] => .ok ([], [])
  | t :: ts =>
    match t.spec with
    | .ident n =>
      if n = "int32".toList then do
        let r ← declared unq g types ts
        .ok (r.1, t.name :: r.2)
      else declared unq g types ts
    | .struct fs =>
      if exported t.name && (lastEntry types t.name).isNone then do
        let m ← newMessage unq g t.name fs
        let r ← declared unq g types ts
        .ok (m :: r.1, r.2)
      else declared unq g types ts
    | _ => declared unq g types ts

/-- What has been found so far. -/
structure Found where
  pkg : Str
  messages : List Message
  enums : List Str
  service : Option Service
  deriving Repr, DecidableEq

/-- svcdef.go:270-283: the wrappers are looked for only while `oneofs` is empty. -/
def fileTypes (g : Oneofs) (f : GoFile) : Except NErr (List (Str × Str)) :=
  if g = [] then oneofTypes ((f.types.filter isOneofIface).map GoTypeSpec.name) f.funcs else .ok []

/-- svcdef.go:273-311: `oneofs` after the file. -/
def fileOneofs (unq : Str → Option Str) (g : Oneofs) (types : List (Str × Str)) (f : GoFile) : Except NErr Oneofs :=
  if g = [] then collectOneofs unq types f.types g else .ok g

/-- svcdef.go:211-339: one file. -/
def newFile (unq : Str → Option Str) (g : Oneofs) (acc : Found) (f : GoFile) : Except NErr (Oneofs × Found) := do
  let svc ← services f.types acc.service
  let types ← fileTypes g f
  let g' ← fileOneofs unq g types f
  let r ← declared unq g' types f.types
  .ok (g', ⟨f.pkg, acc.messages ++ r.1, acc.enums ++ r.2, svc⟩)

/-- svcdef.go:211-339: the files in the order they are visited (`none`: it does not parse). -/
def newFiles (unq : Str → Option Str) (g : Oneofs) (acc : Found) : List (Option GoFile) → Except NErr (Oneofs × Found)
  | [] => .ok (g, acc)
  | none :: _ => .error .parse
  | some f :: fs => do
    let r ← newFile unq g acc f
    newFiles unq r.1 r.2 fs

/-- svcdef.go:207-340: everything before the http annotations. -/
def newDefs (unq : Str → Option Str) (g : Oneofs) (files : List (Option GoFile)) : Except NErr (Oneofs × Svcdef) := do
  let r ← newFiles unq g ⟨[], [], [], none⟩ files
  .ok (r.1, resolveTypes ⟨r.2.pkg, r.2.messages, r.2.enums, r.2.service⟩)

end Baron.Svcdef
