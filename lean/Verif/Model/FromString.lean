import Verif.Model.New

/-!
# Model of `NewFromString` (svcdef/newfromstring.go:15-60)
-/

namespace Baron.New

open Baron.Scanner Baron.Lexer Baron.Svcdef Baron.Consolidate

inductive StringErr where
  /-- newfromstring.go:20-43: no temporary directory, protoc fails, or its file cannot be read -/
  | protoc
  /-- newfromstring.go:52-55 -/
  | new (e : Err)
  deriving Repr, DecidableEq

/-- What protoc writes for one .proto file: `definition.pb.go` and, if the file has a service, `definition_grpc.pb.go`
(execprotoc.go:17-31, options `--go_out` and `--go-grpc_out`). A syntax tree is `none` if the file does not parse. -/
structure Written2 where
  pb : Option GoFile
  grpc : Option (Option GoFile)

/-- newfromstring.go:15-60 `NewFromString`: `def` goes to `definition.proto` in a temporary directory, protoc runs on it, then
`definition.pb.go`, and it only, is given to `New`, with `def`. `protoc` is `none` if it fails. -/
def newFromString (U : Uni) (unq : Str → Option Str) (protoc : Str → Option Written2) (p : Process) (text : Str) :
    Except StringErr (Process × Svcdef) :=
  match protoc text with
  | none => .error .protoc
  | some w =>
    match newSvcdef U unq p [w.pb] [text] with
    | .error e => .error (.new e)
    | .ok r => .ok r

end Baron.New
