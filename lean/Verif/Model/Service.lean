import Verif.Model.Strs
import Verif.Model.Svcdef

/-!
# Model of gengokit/service/services.go: regenerating the service file

A Go file is its list of top-level declarations. Function declarations keep what the generator looks at (receiver, name,
parameter and result types) and the rest of their text; every other declaration is its text. go/parser, go/printer and
gofmt are taken to be inverse to each other at this level (comments between declarations are not modelled).
`ast.IsExported` is a parameter `exp`, so the theorems hold for every letter table; the lower-cased service name is the
parameter `svc`.
-/

namespace Baron.Service

open Baron.Svcdef

/-- A Go type expression, as far as services.go inspects it: `X`, `p.X`, `*T`, anything else. Simplification: the
qualifier of a selector is always an identifier. -/
inductive Ty where
  | ident (s : Str)
  | sel (p : Str) (s : Str)
  | star (t : Ty)
  | other (text : Str)
  deriving Repr, DecidableEq

/-- An entry of a parameter or result list (`*ast.Field`): the names before the type and the type. -/
structure Param where
  names : List Str
  type : Ty
  deriving Repr, DecidableEq

/-- `*ast.FuncDecl`; `recv` is `none` for functions; `body` stands for doc comment and body. -/
structure Func where
  recv : Option (List Ty)
  name : Str
  params : List Param
  results : List Param
  body : Str
  deriving Repr, DecidableEq

inductive Decl where
  | func (f : Func)
  | other (text : Str)
  deriving Repr, DecidableEq

/-- An rpc as far as this file uses it: svcdef.go:71-78 restricted to the names. -/
structure Rpc where
  name : Str
  request : Str
  response : Str
  deriving Repr, DecidableEq

/-- services.go:24 `ignoredFunc`. -/
def ignoredFunc : Str := "NewService".toList

/-- `mMap[m.Name] = m`. -/
def mapInsert (m : List Rpc) (r : Rpc) : List Rpc := m.filter (fun x => x.name ≠ r.name) ++ [r]

/-- services.go:50-56 `newMethodMap`: as an association list, every name once. -/
def newMethodMap (ms : List Rpc) : List Rpc := ms.foldl mapInsert []

/-- `m[name]`. -/
def mapGet (m : List Rpc) (n : Str) : Option Rpc := m.find? (fun x => x.name = n)

/-- `delete(m, name)`. -/
def mapDelete (m : List Rpc) (n : Str) : List Rpc := m.filter (fun x => x.name ≠ n)

/-- `ast.FieldList.NumFields`. -/
def numFields (l : List Param) : Nat := (l.map fun p => max 1 p.names.length).sum

/-- services.go:210-220 `updatePBFieldType`. -/
def updatePBFieldType (t : Ty) (new : Str) : Ty :=
  match t with
  | .star (.sel p _) => .star (.sel p new)
  | .sel p _ => .sel p new
  | t => t

/-- services.go:188-195 `updateParams`; `none` is the panic of `List[1]` when one entry names both parameters. -/
def updateParams (f : Func) (r : Rpc) : Option Func :=
  if numFields f.params ≠ 2 then some f
  else match f.params with
    | a :: b :: rest => some { f with params := a :: { b with type := updatePBFieldType b.type r.request } :: rest }
    | _ => none

/-- services.go:199-206 `updateResults`. -/
def updateResults (f : Func) (r : Rpc) : Func :=
  if numFields f.results ≠ 2 then f
  else match f.results with
    | a :: rest => { f with results := { a with type := updatePBFieldType a.type r.response } :: rest }
    | [] => f

/-- services.go:270-293 `exprString`. -/
def exprString : Ty → Str
  | .star (.sel p s) => '*' :: p ++ '.' :: s
  | .sel p s => p ++ '.' :: s
  | .star (.ident s) => '*' :: s
  | .ident s => s
  | _ => []

/-- services.go:257-265 `recvTypeToString`; `none` is the panic of `List[0]` on `func () F()`. -/
def recvTypeToString : Option (List Ty) → Option Str
  | none => some []
  | some (t :: _) => some (exprString t)
  | some [] => none

/-- services.go:224-253 `isValidFunc` for an exported name. -/
def isValidFunc (svc : Str) (m : List Rpc) (f : Func) : Option Bool :=
  match mapGet m f.name with
  | none => some false
  | some _ => (recvTypeToString f.recv).map (· = '*' :: svc ++ "Service".toList)

/-- services.go:156-184 `pruneDecls`: the kept declarations and the methods left in the map. -/
def pruneDecls (exp : Str → Bool) (svc : Str) : List Rpc → List Decl → Option (List Decl × List Rpc)
  | m, [] => some ([], m)
  | m, .other t :: ds => (pruneDecls exp svc m ds).map fun r => (.other t :: r.1, r.2)
  | m, .func f :: ds =>
    if f.name = ignoredFunc ∨ exp f.name = false then
      (pruneDecls exp svc m ds).map fun r => (.func f :: r.1, r.2)
    else match isValidFunc svc m f with
      | none => none
      | some false => pruneDecls exp svc m ds
      | some true => match mapGet m f.name with
        | none => none
        | some r => match updateParams f r with
          | none => none
          | some f' => (pruneDecls exp svc (mapDelete m f.name) ds).map fun x => (.func (updateResults f' r) :: x.1, x.2)

/-- `*p.s`. -/
def ptr (p s : Str) : Ty := .star (.sel p s)

/-- The body written by the templates. -/
def stubBody (resp : Str) : Str :=
  "{ var resp pb.".toList ++ Strs.goCamelCase resp ++ "; return &resp, nil }".toList

/-- template/NAME-service/service/service_methods.go.tmpl:3-6 and service.go.tmpl:18-21: the generated method. -/
def stub (svc : Str) (r : Rpc) : Decl := .func {
  recv := some [.star (.ident (svc ++ "Service".toList))]
  name := r.name
  params := [⟨["ctx".toList], .sel "context".toList "Context".toList⟩,
    ⟨["in".toList], ptr "pb".toList (Strs.goCamelCase r.request)⟩]
  results := [⟨[], ptr "pb".toList (Strs.goCamelCase r.response)⟩, ⟨[], .ident "error".toList⟩]
  body := stubBody r.response }

/-- service.go.tmpl:1-24: the first generation. The imports and the service type are texts. -/
def freshFile (svc : Str) (ms : List Rpc) : List Decl :=
  .other "import".toList ::
  .func ⟨none, ignoredFunc, [], [⟨[], .star (.ident (svc ++ "Service".toList))⟩],
    "{ return &".toList ++ svc ++ "Service{} }".toList⟩ ::
  .other ("type ".toList ++ svc ++ "Service struct".toList) :: ms.map (stub svc)

/-- services.go:28-45 and 73-124 `NewService` and `Render`: `none` is a panic. `order` is the iteration order of the Go
map of missing methods. -/
def render (exp : Str → Bool) (svc : Str) (order : List Rpc → List Rpc) (ms : List Rpc) (prev : Option (List Decl)) :
    Option (List Decl) :=
  match prev with
  | none => some (freshFile svc ms)
  | some ds => match pruneDecls exp svc (newMethodMap ms) ds with
    | none => none
    | some (kept, missing) => some (kept ++ (order missing).map (stub svc))

end Baron.Service
