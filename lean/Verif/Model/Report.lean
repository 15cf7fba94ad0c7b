import Verif.Model.Generator
import Verif.Model.Service

/-!
# Model of the messages about written files: gengokit/generator/gen.go `responseInfo`

Only the messages of the generator are modelled, not those about the .pb.go files protoc wrote (main.go:203-207). A message
is a mark and a path; paths are relative to the service directory, or to the directory of the .proto file for the transport
file.
-/

namespace Baron.Gen

/-- The four marks, explained by baron's usage text (main.go:85-91): `*>` override, `->` first creation, `=>` no change, `>>`
modified. -/
inductive Mark where
  | override
  | first
  | same
  | modified
  deriving Repr, DecidableEq

/-- gen.go:239-264 `responseInfo`: `r` is `IsFirst` and `IsModified` of the renderer, if there is one; `onDisk` is
`pkg.FileExists` of the path. -/
def responseInfo (r : Option (Bool × Bool)) (onDisk : Bool) : Mark :=
  match r with
  | none => if onDisk then .override else .first
  | some (isFirst, isModified) =>
    if !onDisk then .first
    else if !isFirst && isModified then .modified
    else .same

/-- gen.go:91-166: the mark with which `generateResponseFile` reports a file it rendered. `changed` is `IsModified` of the
service file's handler after `Render`, as a function of the previous text; the other renderers return constants
(`IsFirst`: no previous file, `IsModified`: false). -/
def markOf (changed : Option Str → Bool) (templ : Str) (prev : Option Str) (onDisk : Bool) : Mark :=
  if templ = servicePath then responseInfo (some (prev.isNone, changed prev)) onDisk
  else if templ = serviceWrapperPath then responseInfo (some (prev.isNone, false)) onDisk
  else if templ = cmdServerPath then responseInfo (some (prev.isNone, false)) onDisk
  else if templ = cmdClientPath then responseInfo (some (prev.isNone, false)) onDisk
  else if templ = serverPath then responseInfo none onDisk
  else if templ = serverEndpointsPath then responseInfo (some (prev.isNone, false)) onDisk
  else if templ = serverInterruptPath then responseInfo (some (prev.isNone, false)) onDisk
  else if templ = serverWrapperPath then responseInfo (some (prev.isNone, false)) onDisk
  else responseInfo none onDisk

/-- gen.go:31-60 `GenerateGokit`: the messages, in order; a template that fails ends the generation without a message of
its own. -/
def reports (e : Env) (changed : Option Str → Bool) (base : Str) (fs : FS) : List Str → List (Str × Mark)
  | [] => []
  | t :: ts =>
    if isExcludedPath t then reports e changed base fs ts
    else
      let actual := templatePathToActual t (toLower e.name)
      let prev := readPrevious base (toLower e.name) fs actual
      match generateResponseFile e t prev with
      | .error => []
      | .ignored => reports e changed base fs ts
      | .file _ => (actual, markOf changed t prev (fs actual).isSome) :: reports e changed base fs ts

/-- gen.go:155-161: the name under which the transport file is reported. Simplification: `filepath.Join` of the directory
and the name with its leading slash is the name without the slash below that directory. -/
def reportedTransport (name : Str) : Str := (templatePathToActual baronPath name).drop "baron/".toList.length

/-- gen.go:155-161: the message about the transport file. -/
def transportReport (e : Env) (pb : FS) : Str × Mark :=
  (reportedTransport e.name, responseInfo none (pb (reportedTransport e.name)).isSome)

end Baron.Gen

namespace Baron.Service

/-- services.go:143-145 `IsModified`, after `Render`: methods are left in the map. -/
def isModified (exp : Str → Bool) (svc : Str) (ms : List Rpc) (prev : List Decl) : Bool :=
  match pruneDecls exp svc (newMethodMap ms) prev with
  | some (_, left) => !left.isEmpty
  | none => false

end Baron.Service
