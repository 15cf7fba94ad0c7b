import Verif.Model.Cli
import Verif.Model.HTTPCode

/-!
# Model of the command line of cmd/baron/main.go and of internal/execprotoc

Flags are parsed as pflag 1.0.5 does it (external, modelled from its source: `parseArgs`, `parseLongArg`,
`parseSingleShortArg`); baron itself was built with make, so that main.go:64-77 does not ask anything.
-/

namespace Baron.Main

open Baron.Gen Baron.New Baron.Svcdef Baron.Cli
open Baron.Start (joinPath clean)

/-! ## Flags -/

/-- main.go:40-50: the flags. -/
inductive FlagName where
  | svcout | verbose | help | start | version | client | transport | svcdef | debug
  deriving Repr, DecidableEq

/-- main.go:40-50: the values of the flags, with their defaults. -/
structure Flags where
  svcOut : Str := "./".toList
  verbose : Bool := false
  help : Bool := false
  start : Bool := false
  version : Bool := false
  client : Bool := false
  transport : Str := "all".toList
  svcdef : Bool := false
  debug : Bool := false
  deriving Repr, DecidableEq

/-- main.go:40-50: long names. -/
def lookupLong (s : Str) : Option FlagName :=
  if s = "svcout".toList then some .svcout
  else if s = "verbose".toList then some .verbose
  else if s = "help".toList then some .help
  else if s = "start".toList then some .start
  else if s = "version".toList then some .version
  else if s = "client".toList then some .client
  else if s = "transport".toList then some .transport
  else if s = "svcdef".toList then some .svcdef
  else if s = "debug".toList then some .debug
  else none

/-- main.go:40-50: shorthands. -/
def lookupShort (c : Char) : Option FlagName :=
  if c = 'o' then some .svcout
  else if c = 'v' then some .verbose
  else if c = 'h' then some .help
  else if c = 's' then some .start
  else if c = 'V' then some .version
  else if c = 'c' then some .client
  else if c = 't' then some .transport
  else if c = 'd' then some .svcdef
  else none

/-- `flag.NoOptDefVal != ""`: the Boolean flags (`BoolP`). -/
def isBool : FlagName → Bool
  | .svcout | .transport => false
  | _ => true

/-- `flag.Value.Set`: a Boolean flag takes what `strconv.ParseBool` takes. -/
def setFlag (f : Flags) (n : FlagName) (v : Str) : Option Flags :=
  match n with
  | .svcout => some { f with svcOut := v }
  | .transport => some { f with transport := v }
  | .verbose => (HTTPCode.parseBool v).map fun b => { f with verbose := b }
  | .help => (HTTPCode.parseBool v).map fun b => { f with help := b }
  | .start => (HTTPCode.parseBool v).map fun b => { f with start := b }
  | .version => (HTTPCode.parseBool v).map fun b => { f with version := b }
  | .client => (HTTPCode.parseBool v).map fun b => { f with client := b }
  | .svcdef => (HTTPCode.parseBool v).map fun b => { f with svcdef := b }
  | .debug => (HTTPCode.parseBool v).map fun b => { f with debug := b }

/-- What one argument that begins with a dash does: nothing acceptable, set flags, or ask for the next argument as the value
of a flag. -/
inductive Step where
  | fail
  | done (f : Flags)
  | needs (f : Flags) (n : FlagName)

/-- pflag `parseLongArg` for `--name`, `--name=value`. -/
def longArg (f : Flags) (name : Str) : Step :=
  if name.head? = some '-' ∨ name.head? = some '=' then .fail
  else
    match lookupLong (name.takeWhile (· ≠ '=')) with
    | none => .fail
    | some n =>
      match name.dropWhile (· ≠ '=') with
      | _ :: v => match setFlag f n v with
        | some f' => .done f'
        | none => .fail
      | [] => if isBool n then (match setFlag f n "true".toList with | some f' => .done f' | none => .fail) else .needs f n

/-- pflag `parseShortArg` with `parseSingleShortArg`: the characters after the dash. -/
def shortArg (f : Flags) : Str → Step
  | [] => .done f
  | c :: cs =>
    if hasPrefix (c :: cs) "test.".toList then .done f
    else match lookupShort c with
      | none => .fail
      | some n =>
        if cs.head? = some '=' ∧ cs.length ≥ 2 then
          match setFlag f n cs.tail with
          | some f' => .done f'
          | none => .fail
        else if isBool n then
          match setFlag f n "true".toList with
          | some f' => shortArg f' cs
          | none => .fail
        else if cs ≠ [] then
          match setFlag f n cs with
          | some f' => .done f'
          | none => .fail
        else .needs f n

/-- pflag `parseArgs` (flags and other arguments may be mixed): the flags and the other arguments, `none` for an error. The
first argument tells for which flag the next argument is the value. -/
def parseArgs : Option FlagName → Flags → List Str → Option (Flags × List Str)
  | none, f, [] => some (f, [])
  | some _, _, [] => none
  | some n, f, v :: r => match setFlag f n v with
    | some f' => parseArgs none f' r
    | none => none
  | none, f, s :: r =>
    match s with
    | '-' :: '-' :: name =>
      if name = [] then some (f, r)
      else match longArg f name with
        | .fail => none
        | .done f' => parseArgs none f' r
        | .needs f' n => parseArgs (some n) f' r
    | '-' :: c :: cs =>
      match shortArg f (c :: cs) with
      | .fail => none
      | .done f' => parseArgs none f' r
      | .needs f' n => parseArgs (some n) f' r
    | _ => (parseArgs none f r).map fun x => (x.1, s :: x.2)

/-! ## GOPATH and protoc -/

/-- `filepath.SplitList` (Unix). -/
def splitList (s : Str) : List Str := if s = [] then [] else split ':' s

/-- main.go:174-177: GOPATH, or the default one. -/
def goPath (env dflt : Str) : List Str := if splitList env = [] then splitList dflt else splitList env

/-- execprotoc.go:16-32: the plugins' arguments. -/
def pluginArgs (outDir : Str) : List Str :=
  ["--go_out=".toList ++ outDir, "--go_opt=paths=source_relative".toList,
   "--go-grpc_out=".toList ++ outDir, "--go-grpc_opt=paths=source_relative".toList]

/-- execprotoc.go:114-128: the arguments of protoc. The list of .proto files is not empty. -/
def protocArgs (protos gopath : List Str) (outDir : Str) : List Str :=
  "--experimental_allow_proto3_optional".toList :: ("--proto_path=".toList ++ dir (protos.headD [])) ::
    (gopath.flatMap fun gp =>
      ["-I".toList ++ joinPath gp "src".toList,
       "-I".toList ++ joinPath gp "src/github.com/teamlint/baron/third_party/googleapis".toList]) ++
    pluginArgs outDir ++ protos

/-- The rest of the world: the environment, which programs `exec.LookPath` finds, what protoc does when it is called with
some arguments, and what the run and the starter depend on otherwise: of the flags, only `-c` and `-t` reach the generator
(main.go:167-171; `-d` prints the definition, `-v` and `--debug` set the level of the log, main.go:432-448). -/
structure Host where
  env : Str
  dflt : Str
  found : String → Bool
  exec : List Str → Option (List (Str × Str))
  sys : Bool → Str → Sys
  start : Start.Sys

/-- execprotoc.go:15-50 `GeneratePBDotGo`. -/
def generatePBDotGo (h : Host) (protos gopath : List Str) (outDir : Str) : Option (List (Str × Str)) :=
  if h.found "protoc-gen-go" = false then none
  else if h.found "protoc-gen-go-grpc" = false then none
  else h.exec (protocArgs protos gopath outDir)

/-- The run with the flags `f` (main.go:122-162): protoc is called through `GeneratePBDotGo`, for the directory of the .proto
files (195) and for a temporary one (parsesvcname.go:24); that it does the same in both is a simplification. Without any
GOPATH, main.go:235 indexes an empty list, right before the service directory would be made, unless `-o` is empty: as if
that directory could not be made. -/
def runSys (h : Host) (f : Flags) : Sys :=
  { h.sys f.client f.transport with
    gopath := (goPath h.env h.dflt).headD []
    protoc := fun protos => generatePBDotGo h protos (goPath h.env h.dflt) (dir (protos.headD []))
    mkdir := (h.sys f.client f.transport).mkdir && !(goPath h.env h.dflt == [] && f.svcOut != []) }

/-- The file system: the directories a run works in, and the one of the starter. -/
structure Disk where
  world : World
  files : FS

/-- How the process ends. -/
structure Result where
  exit : Exit
  disk : Disk

/-- main.go:94-162 `main` on the arguments after the program's name. -/
def main (h : Host) (argv : List Str) (d : Disk) : Result :=
  match parseArgs none {} argv with
  | none => ⟨.failure, d⟩                                     -- pflag: ExitOnError
  | some (f, args) =>
    if f.help then ⟨.success, d⟩                               -- 97-100
    else if f.version then ⟨.success, d⟩                       -- 102-105
    else if f.start then                                       -- 106-116
      match Start.start h.start (args.headD []) (args.tail.headD []) d.files with
      | (0, fs) => ⟨.success, ⟨d.world, fs⟩⟩
      | (_, fs) => ⟨.failure, ⟨d.world, fs⟩⟩
    else
      match command (runSys h f) f.svcOut args d.world with    -- 118-162
      | (e, w) => ⟨e, ⟨w, d.files⟩⟩

end Baron.Main
