import Verif.Go.Str

/-!
# Model of gengokit/generator/gen.go, of the renderers in gengokit/service, and of the file handling of cmd/baron/main.go

The service directory is a function from slash-separated relative paths to file contents. Template execution, gofmt and
the regeneration of service.go (modelled in `Model/Service.lean`) are parameters; symbolic links, permissions and other
processes are not modelled.
-/

namespace Baron.Gen

/-- The files below the service directory. -/
abbrev FS := Str → Option Str

/-- `strings.Replace(s, old, new, -1)` for a non-empty `old`; `n` bounds the recursion (the length of `s` suffices). -/
def replaceGo (old new : Str) : Nat → Str → Str
  | 0, s => s
  | _, [] => []
  | n + 1, c :: cs =>
    if old.isPrefixOf (c :: cs) then new ++ replaceGo old new n ((c :: cs).drop old.length)
    else c :: replaceGo old new n cs

def replaceAll (old new s : Str) : Str := replaceGo old new s.length s

/-- template.go `_bindata`: the asset names; service/templates.go:4-21 names them. -/
def baronPath : Str := "baron/NAME.pb.baron.go.tmpl".toList
def cmdServerPath : Str := "cmd/NAME/main.go.tmpl".toList
def cmdClientPath : Str := "cmd/NAME-client/main.go.tmpl".toList
def serverEndpointsPath : Str := "server/endpoints.go.tmpl".toList
def serverInterruptPath : Str := "server/interrupt.go.tmpl".toList
def serverPath : Str := "server/server.go.tmpl".toList
def serverWrapperPath : Str := "server/wrapper.go.tmpl".toList
def servicePath : Str := "service/service.go.tmpl".toList
def serviceMethodsPath : Str := "service/service_methods.go.tmpl".toList
def serviceWrapperPath : Str := "service/wrapper.go.tmpl".toList

def assetNames : List Str := [baronPath, cmdServerPath, cmdClientPath, serverEndpointsPath, serverInterruptPath, serverPath,
  serverWrapperPath, servicePath, serviceMethodsPath, serviceWrapperPath]

/-- service/templates.go:21-32 `IsExcludedPath`. -/
def isExcludedPath (p : Str) : Bool := p = baronPath || p = serviceMethodsPath

/-- gen.go:183-191 `templatePathToActual`. -/
def templatePathToActual (templ svcName : Str) : Str :=
  trimSuffix (replaceAll "NAME".toList (toLower svcName) templ) ".tmpl".toList

/-- What a run depends on: the service name, the client flag, the executed templates (`none` on a template error), the
regeneration of service.go from its previous text (`none` when it fails), and `formatCode`. -/
structure Env where
  name : Str
  client : Bool
  tmpl : Str → Option Str
  regen : Option Str → Option Str
  fmt : Str → Str

inductive Outcome where
  | file (s : Str)
  | ignored
  | error
  deriving Repr, DecidableEq

/-- The `Render` methods of cmd_client.go:27-36, cmd_server.go:27-36, server.go:22-30, server_endpoints.go:25-34,
server_interrupt.go:25-34, service_wrapper.go:26-35, server_wrapper.go:25-34: the previous text if there is one. -/
def passThrough (e : Env) (templ : Str) (prev : Option Str) : Option Str :=
  match prev with
  | some p => some p
  | none => e.tmpl templ

/-- gen.go:91-178 `generateResponseFile`. -/
def generateResponseFile (e : Env) (templ : Str) (prev : Option Str) : Outcome :=
  let done (r : Option Str) : Outcome := match r with
    | some s => .file (e.fmt s)
    | none => .error
  if templ = servicePath then done (e.regen prev)
  else if templ = serviceWrapperPath then done (passThrough e templ prev)
  else if templ = cmdServerPath then done (passThrough e templ prev)
  else if templ = cmdClientPath then
    if e.client then done (passThrough e templ prev) else .ignored
  else if templ = serverPath then done (passThrough e templ none)
  else if templ = serverEndpointsPath then done (passThrough e templ prev)
  else if templ = serverInterruptPath then done (passThrough e templ prev)
  else if templ = serverWrapperPath then done (passThrough e templ prev)
  else done (e.tmpl templ)

/-- gen.go:31-60 `GenerateGokit`: `assets` is the asset names in the map's iteration order; the result is the list of
entries written into `codeGenFiles`, in order. -/
def generateGokit (e : Env) (prev : FS) : List Str → Option (List (Str × Str))
  | [] => some []
  | t :: ts =>
    if isExcludedPath t then generateGokit e prev ts
    else
      let actual := templatePathToActual t (toLower e.name)
      match generateResponseFile e t (prev actual) with
      | .error => none
      | .ignored => generateGokit e prev ts
      | .file s => (generateGokit e prev ts).map ((actual, s) :: ·)

/-- main.go:437-448: the directories whose files are read. `base` is the service directory's own name. -/
def dirAllowed (base svc d : Str) : Bool :=
  d = base || d = svc || d = svc ++ "-client".toList || d = "service".toList || d = "cmd".toList || d = "server".toList

/-- main.go:429-480 `readPreviousGeneration`: files all of whose directories are allowed, without server/server.go. -/
def readPrevious (base svc : Str) (fs : FS) : FS := fun p =>
  if (split '/' p).dropLast.all (dirAllowed base svc) ∧ p ≠ "server/server.go".toList then fs p else none

/-- gen.go:224-240 `WriteGenFile`, successful. -/
def writeFile (fs : FS) (p s : Str) : FS := fun q => if q = p then some s else fs q

/-- main.go:152-159: writing the generated files in the order of the map `genFiles`. -/
def writeAll (fs : FS) (files : List (Str × Str)) : FS := files.foldl (fun fs x => writeFile fs x.1 x.2) fs

/-- The path is the directory or something below it. -/
def below (d p : Str) : Bool := p = d || (d ++ ['/']).isPrefixOf p

/-- `os.RemoveAll` (after a successful `os.Stat`; removing what does not exist changes nothing). -/
def removeAll (d : Str) (fs : FS) : FS := fun p => if below d p then none else fs p

/-- main.go:489-515 `cleanupOldFiles`. -/
def cleanupOldFiles (svc : Str) (fs : FS) : FS :=
  removeAll ("cmd/".toList ++ svc ++ "-server".toList)
    (removeAll "svc/client/cli".toList (removeAll "svc/server/cli".toList fs))

/-- From reading the previous generation (main.go:276) to the end (main.go:145-161); `none` when the generation fails.
`assets` and `worder` are map iteration orders. -/
def run (e : Env) (base : Str) (assets : List Str) (worder : List (Str × Str) → List (Str × Str)) (fs : FS) : Option FS :=
  match generateGokit e (readPrevious base (toLower e.name) fs) assets with
  | none => none
  | some files => some (cleanupOldFiles (toLower e.name) (writeAll fs (worder files)))

/-- The two directories a run writes to: that of the first .proto file and the service directory. They are separate file
systems here; baron lets them be nested, which is not modelled. -/
structure World where
  pb : FS
  svc : FS

/-- `filepath.Ext` of a file name: from the last dot on. -/
def ext (s : Str) : Str :=
  if '.' ∈ s then '.' :: (s.reverse.takeWhile (· ≠ '.')).reverse else []

/-- main.go:372-376: the name of the transport file for the base name of the first .proto file. -/
def baronFile (protoBase : Str) : Str := trimSuffix protoBase (ext protoBase) ++ ".pb.baron.go".toList

/-- How the process ends. -/
inductive Exit where
  | success
  | failure
  deriving Repr, DecidableEq

/-- main.go:139-161 with gen.go:66-83 `GenerateBaronFile`: the transport file is written before the other files are
generated. The definition has been parsed (`e`) and no write fails. -/
def main (e : Env) (protoBase base : Str) (assets : List Str) (worder : List (Str × Str) → List (Str × Str))
    (w : World) : Exit × World :=
  match generateResponseFile e baronPath none with
  | .file s =>
    let pb := writeFile w.pb (baronFile protoBase) s
    match run e base assets worder w.svc with
    | none => (.failure, ⟨pb, w.svc⟩)
    | some svc => (.success, ⟨pb, svc⟩)
  | _ => (.failure, w)

/-! ## Writes that fail or are interrupted -/

/-- A write in small steps (gen.go:224-240): `os.Create` truncates, then the contents arrive in pieces. -/
inductive WriteStep where
  | create (p : Str)
  | append (p s : Str)
  deriving Repr, DecidableEq

def WriteStep.apply (fs : FS) : WriteStep → FS
  | .create p => fun q => if q = p then some [] else fs q
  | .append p s => fun q => if q = p then some ((fs p).getD [] ++ s) else fs q

/-- The steps of writing a file whose contents are copied in the given pieces. -/
def fileSteps (p : Str) (pieces : List Str) : List WriteStep := .create p :: pieces.map (.append p)

/-- The steps of writing all files. -/
def allSteps (files : List (Str × List Str)) : List WriteStep := files.flatMap fun x => fileSteps x.1 x.2

def runSteps (fs : FS) (l : List WriteStep) : FS := l.foldl WriteStep.apply fs

end Baron.Gen
