import Verif.Model.Render

/-!
# Model of the lookups of gengokit/template/template.go

The texts themselves are in `Model/TemplateSrc.lean` (the compressed bytes of template.go were compared with the files). Not
modelled: file information and digests; `RestoreAsset(s)` are in `Model/Restore.lean`.
-/

namespace Baron.Assets

open Baron.TT
open Baron.HTTP (look)

/-- `strings.Replace(name, "\\", "/", -1)` (template.go 285, 323, 337, 403). -/
def canonical (name : Str) : Str := name.map fun c => if c = '\\' then '/' else c

/-- template.go 284-294 `Asset`, 297-300 `AssetString`: `none` is an error. -/
def asset (name : Str) : Option Str := look assets (canonical name)

/-- template.go 304-311 `MustAsset`, 315-317 `MustAssetString`: `none` is a panic. -/
def mustAsset (name : Str) : Option Str := asset name

/-- template.go 362-368 `AssetNames`: the names in the order in which the map is visited (`order`). -/
def assetNames (order : List Str → List Str) : List Str := order (assets.map (·.1))

/-- template.go 422-425 `bintree`: the text of a file (the function that returns it), and the children. -/
inductive Tree where
  | node (file : Option Str) (children : List (Str × Tree))

def Tree.file : Tree → Option Str
  | .node f _ => f

def Tree.children : Tree → List (Str × Tree)
  | .node _ cs => cs

/-- template.go 427-450: a file of the tree. -/
def leaf (s : Str) : Tree := .node (some s) []

/-- template.go 427-450 `_bintree`. -/
def bintree : Tree := .node none [
  (chars% "baron", .node none [(chars% "NAME.pb.baron.go.tmpl", leaf baronSrc)]),
  (chars% "cmd", .node none [
    (chars% "NAME", .node none [(chars% "main.go.tmpl", leaf cmdServerSrc)]),
    (chars% "NAME-client", .node none [(chars% "main.go.tmpl", leaf cmdClientSrc)])]),
  (chars% "server", .node none [(chars% "endpoints.go.tmpl", leaf endpointsSrc), (chars% "interrupt.go.tmpl", leaf interruptSrc),
    (chars% "server.go.tmpl", leaf serverSrc), (chars% "wrapper.go.tmpl", leaf wrapperSrc)]),
  (chars% "service", .node none [(chars% "service.go.tmpl", leaf serviceSrc),
    (chars% "service_methods.go.tmpl", leaf serviceMethodsSrc), (chars% "wrapper.go.tmpl", leaf serviceWrapperSrc)])]

/-- template.go 405-410: the loop of `AssetDir`. -/
def walk : Tree → List Str → Option Tree
  | t, [] => some t
  | t, p :: ps => match look t.children p with
    | none => none
    | some t' => walk t' ps

/-- template.go 400-420 `AssetDir`: the names in the order in which the map of children is visited (`order`). -/
def assetDir (order : List Str → List Str) (name : Str) : Option (List Str) :=
  match (if name.length ≠ 0 then walk bintree (split '/' (canonical name)) else some bintree) with
  | none => none
  | some t => if t.file.isSome then none else some (order (t.children.map (·.1)))

end Baron.Assets
