import Verif.Go.Str
import Verif.Model.Strs
import Verif.Model.Generator

/-!
# Model of internal/start/start.go

The file system is a function from cleaned paths to contents; which system calls succeed is a parameter. Log messages
are not modelled, nor are the message templates (they cannot fail: the `protoInfo` methods are total).
-/

namespace Baron.Start

open Baron.Gen (FS replaceAll writeFile)
open Baron.Strs (goCamelCase)

/-- One step of `filepath.Clean` on the reversed stack of segments. -/
def cleanStep (rooted : Bool) (st : List Str) (seg : Str) : List Str :=
  if seg = [] ∨ seg = ['.'] then st
  else if seg = ['.', '.'] then
    match st with
    | [] => if rooted then [] else [seg]
    | top :: rest => if top = ['.', '.'] then seg :: st else rest
  else seg :: st

/-- `filepath.Clean` (Unix). -/
def clean (s : Str) : Str :=
  let rooted := s.head? = some '/'
  let segs := (split '/' s).foldl (cleanStep rooted) []
  let body := join '/' segs.reverse
  if rooted then '/' :: body else if body = [] then ['.'] else body

/-- `filepath.Join` of two parts: empty parts are ignored. The second part is never empty here. -/
def joinPath (a b : Str) : Str := if a = [] then clean b else clean (a ++ '/' :: b)

/-- start.go:14-17 `protoInfo`. -/
structure ProtoInfo where
  alias : Str
  out : Str

/-- start.go:24-31 `PackageName`. -/
def ProtoInfo.packageName (p : ProtoInfo) : Str :=
  toLower (replaceAll [' '] [] (replaceAll ['-'] [] p.alias))

/-- start.go:33-38 `ServiceName`. -/
def ProtoInfo.serviceName (p : ProtoInfo) : Str :=
  goCamelCase (replaceAll [' '] ['_'] (replaceAll ['-'] ['_'] p.alias))

/-- start.go:19-22 `FileName`. -/
def ProtoInfo.fileName (p : ProtoInfo) : Str := joinPath p.out (p.packageName ++ ".proto".toList)

/-- start.go:103-121 `removeDotProtoSuffix`. -/
def removeDotProtoSuffix (pkg : Str) : Str := replaceAll ".proto".toList [] pkg

/-- template.go:3-32 `startProto` up to the package name, between package and service name, and after it. -/
def tmplPackage : Str := "\nsyntax = \"proto3\";\n\npackage ".toList
def tmplService : Str := ";\n\nimport \"google/api/annotations.proto\";\n\nservice ".toList
def tmplRest : Str := (" {\n  rpc Status(StatusRequest) returns (StatusResponse) {\n    option (google.api.http) = {\n" ++
  "      get: \"/status\"\n    };\n  }\n}\n\nenum ServiceStatus {\n  FAIL = 0;\n  OK = 1;\n}\n\n" ++
  "message StatusRequest {\n  bool full = 1;\n}\n\nmessage StatusResponse {\n  ServiceStatus status = 1;\n}\n").toList

/-- `renderTemplate(_, startProto, pinfo)` (start.go:123-132). -/
def renderStart (p : ProtoInfo) : Str :=
  tmplPackage ++ p.packageName ++ tmplService ++ p.serviceName ++ tmplRest

/-- Which system calls succeed: `os.Stat`, `os.MkdirAll`, `os.Create`, and how much of the text `Write` stores before it
fails (`none`: it succeeds). -/
structure Sys where
  stat : Str → Bool
  mkdir : Bool
  create : Bool
  write : Option Nat

/-- start.go:45-96 `Do`: the exit code and the file system afterwards. -/
def start (sys : Sys) (pkg outDir : Str) (fs : FS) : Nat × FS :=
  let pkg := if pkg = [] then "start".toList else pkg
  let p : ProtoInfo := ⟨removeDotProtoSuffix pkg, outDir⟩
  if sys.stat p.fileName then (1, fs)
  else if outDir ≠ [] ∧ sys.mkdir = false then (1, fs)
  else if sys.create = false then (1, fs)
  else match sys.write with
    | some n => (1, writeFile fs p.fileName ((renderStart p).take n))
    | none => (0, writeFile fs p.fileName (renderStart p))

end Baron.Start
