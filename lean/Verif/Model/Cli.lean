import Verif.Model.Generator
import Verif.Model.Start
import Verif.Model.New

/-!
# Model of cmd/baron/main.go around the generator, and of internal/parsesvcname

Arguments, output directory, file names, and the order of the steps of a run. protoc, `packages.Load`, go/parser and the
operating system are parameters; flags have been parsed. Paths are Unix paths.
-/

namespace Baron.Cli

open Baron.Gen Baron.Start Baron.New Baron.Svcdef

/-! ## Paths (path/filepath and go/build of the standard library) -/

/-- `filepath.Abs` with the working directory `cwd`. The joined parts are not empty there (`cwd` never is). -/
def abs (cwd p : Str) : Str := if p.head? = some '/' then clean p else clean (cwd ++ '/' :: p)

/-- The part of `p` after its last slash: `filepath.Split(p)`, second result. -/
def lastPart (p : Str) : Str := (p.reverse.takeWhile (· ≠ '/')).reverse

/-- The part of `p` up to and including its last slash: `filepath.Split(p)`, first result. -/
def dirPart (p : Str) : Str := (p.reverse.dropWhile (· ≠ '/')).reverse

/-- `filepath.Dir`. -/
def dir (p : Str) : Str := clean (dirPart p)

/-- `filepath.Base`. -/
def base (p : Str) : Str :=
  if p = [] then ['.']
  else if lastPart (trimRight '/' p) = [] then ['/'] else lastPart (trimRight '/' p)

/-- `filepath.Ext`: only the last element of the path is looked at. -/
def pathExt (p : Str) : Str := ext (lastPart p)

/-- `build.IsLocalImport`. -/
def isLocalImport (p : Str) : Bool :=
  p = ".".toList || p = "..".toList || hasPrefix p "./".toList || hasPrefix p "../".toList

/-! ## main.go and parsesvcname.go -/

/-- The `for` loop of main.go:402-426 `cleanProtofilePath`: `first` is the first path of `fullPaths`, if any. -/
def cleanGo (cwd : Str) : Option Str → List Str → Option (List Str)
  | _, [] => some []
  | first, d :: ds =>
    let full := abs cwd d
    if dir (first.getD full) ≠ dir full then none
    else (cleanGo cwd (some (first.getD full)) ds).map (full :: ·)

/-- main.go:402-426 `cleanProtofilePath`. `filepath.Abs` does not fail here: the working directory exists. -/
def cleanProtofilePath (cwd : Str) (raw : List Str) : Option (List Str) := cleanGo cwd none raw

/-- parsesvcname.go:95-103 `GetPBFileName`. -/
def pbFile (proto pbPath : Str) : Str :=
  joinPath pbPath (trimSuffix (base proto) (pathExt proto) ++ ".pb.go".toList)

/-- parsesvcname.go:105-112 `GetGRPCPBFileName`. -/
def grpcFile (proto pbPath : Str) : Str :=
  joinPath pbPath (trimSuffix (base proto) (pathExt proto) ++ "_grpc.pb.go".toList)

/-- main.go:371-376 in `generateBaronCode`. -/
def transportFile (proto pbPath : Str) : Str :=
  joinPath pbPath (trimSuffix (base proto) (pathExt proto) ++ ".pb.baron.go".toList)

/-- main.go:281-286 `parseSVCOut`: `filepath.Join(GOPATH, "src", svcOut)`. GOPATH is not empty here. -/
def parseSVCOut (cwd gopath svcOut : Str) : Str :=
  if isLocalImport svcOut then abs cwd svcOut else clean (gopath ++ "/src/".toList ++ svcOut)

/-- main.go:216-243: the service directory for the service `name` and the flag `-o`. -/
def serviceDir (cwd gopath name svcOut : Str) : Str :=
  let svcDirName := toLower name ++ "-service".toList
  if svcOut = [] then joinPath ".".toList svcDirName
  else
    let svcPath := parseSVCOut cwd gopath svcOut
    if lastPart svcOut = [] then joinPath svcPath svcDirName else svcPath

/-! ## A run -/

/-- What a run depends on besides the command line: the working directory and GOPATH, the texts of the .proto files, what
protoc makes of them (`none`: it fails; else the files it writes, by their names in the output directory), whether
`packages.Load` finds the directories, whether the directories can be made, the Go parser (`none`: syntax error), the
Unicode tables and `strconv.Unquote`, and what the generator needs for a definition. The `order`s are those of maps. -/
structure Sys where
  cwd : Str
  gopath : Str
  read : Str → Option Str
  protoc : List Str → Option (List (Str × Str))
  loadPB : Bool
  loadSvc : Bool
  mkdir : Bool
  parseGo : Str → Option GoFile
  uni : Uni
  unq : Str → Option Str
  env : Svcdef → Env
  order : List Str → List Str
  assets : List Str
  worder : List (Str × Str) → List (Str × Str)

/-- The stem the names of the generated files begin with. -/
def stem (proto : Str) : Str := trimSuffix (base proto) (pathExt proto)

/-- parsesvcname.go:30-43 and main.go:299-310: the names, in the directory of the generated files `fs`, of the Go files
that are read: one for each .proto file and a second one where it exists. -/
def goNames (fs : FS) (protos : List Str) : List Str :=
  protos.flatMap fun p =>
    (stem p ++ ".pb.go".toList) ::
      if (fs (stem p ++ "_grpc.pb.go".toList)).isSome then [stem p ++ "_grpc.pb.go".toList] else []

/-- parsesvcname.go:46-56 and main.go:387-397 `openFiles`: a map from paths, iterated in some order; `none` if one of the
files cannot be opened. -/
def openFiles (order : List Str → List Str) (fs : FS) (names : List Str) : Option (List Str) :=
  (order names.eraseDups).mapM fs

/-- How a step ends that does not end well: it returns an error, or it panics. -/
inductive Fault where
  | error
  | panic
  deriving Repr, DecidableEq

/-- The errors of `svcdef.New` that are panics of the Go program: an index out of range, a nil dereference or a failed type
assertion (svcdef.go:395-609), the nil message of consolidate_http.go:115, an index out of range in the lexer. -/
def faultOf : Err → Fault
  | .defs .panic => .panic
  | .http .nilMessage => .panic
  | .lexer => .panic
  | _ => .error

/-- Both uses of `svcdef.New` (parsesvcname.go:57-66, main.go:311-325) on the files of the directory `fs`. -/
def define (sys : Sys) (p : Process) (fs : FS) (protos : List Str) : Except Fault (Process × Svcdef) :=
  match openFiles sys.order fs (goNames fs protos), openFiles sys.order sys.read protos with
  | some gos, some texts =>
    match newSvcdef sys.uni sys.unq p (gos.map sys.parseGo) texts with
    | .ok r => .ok r
    | .error e => .error (faultOf e)
  | _, _ => .error .error

/-- parsesvcname.go:18-76 `FromPaths`: protoc runs into a fresh temporary directory. -/
def fromPaths (sys : Sys) (protos : List Str) : Except Fault (Process × Str) :=
  match sys.protoc protos with
  | none => .error .error
  | some files =>
    match define sys .fresh (writeAll (fun _ => none) files) protos with
    | .error e => .error e
    | .ok (p, sd) =>
      match sd.service with
      | none => .error .error
      | some s => .ok (p, s.name)

/-- main.go:94-162 `main` without the flags -h, -V and -s, with main.go:164-279 `parseInput`, 289-331
`parseServiceDefinition` and 334-384: how the process ends and the directories of the .proto files and of the service
afterwards. An error of `FromPaths` ends the run with status 0 (main.go:209-213), a panic does not; a definition without a
service makes `NewHelper` panic (main.go:362-366, httptransport.go:33-47). The log and the printed definition (-d) are left out, and so is `MkdirAll` on directories. The service names of
the two definitions are taken to be the same (the first one selects the directories that are read, main.go:276, the second
one those that are written). -/
def command (sys : Sys) (svcOut : Str) (args : List Str) (w : World) : Exit × World :=
  if args = [] then (.failure, w)
  else match cleanProtofilePath sys.cwd args with
    | none => (.failure, w)
    | some protos =>
      if sys.loadPB = false then (.failure, w)
      else match sys.protoc protos with
        | none => (.failure, w)
        | some files =>
          let w1 : World := ⟨writeAll w.pb files, w.svc⟩
          match fromPaths sys protos with
          | .error .error => (.success, w1)
          | .error .panic => (.failure, w1)
          | .ok (p, name) =>
            if sys.mkdir = false ∨ sys.loadSvc = false then (.failure, w1)
            else match define sys p w1.pb protos with
              | .error _ => (.failure, w1)
              | .ok (_, sd) =>
                if sd.service = none then (.failure, w1)
                else Gen.main (sys.env sd) (base (protos.headD [])) (base (serviceDir sys.cwd sys.gopath name svcOut))
                  sys.assets sys.worder w1

end Baron.Cli
