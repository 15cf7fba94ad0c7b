import Verif.Model.Scanner
import Verif.Model.Lexer
import Verif.Model.Parser
import Verif.Model.Consolidate
import Verif.Model.SvcdefNew

/-!
# Model of `svcdef.New` from the texts of the .proto files (svcdef/svcdef.go:207-347, svcdef/consolidate_http.go:38-88)

The pieces modelled elsewhere are put together here: the Go files as syntax trees (`newDefs`), the .proto files as texts,
scanned, lexed and parsed one after the other in one process.
-/

namespace Baron.New

open Baron.Scanner Baron.Lexer Baron.Svcdef Baron.Consolidate

/-- The process-wide variables: scanner.go:88-92 and svcdef.go:202-204. -/
structure Process where
  glob : Glob
  oneofs : Oneofs
  deriving Repr, DecidableEq

/-- Their initial values. -/
def Process.fresh : Process := ⟨.init, []⟩

inductive Err where
  /-- svcdef.go:211-341 -/
  | defs (e : NErr)
  /-- consolidate_http.go:52, 85 -/
  | http (e : CErr)
  /-- lexer.go:23-89: an index out of range in the lexer -/
  | lexer
  deriving Repr, DecidableEq

/-- consolidate_http.go:38-88 `consolidateHTTP`, the files in the order they are visited; scanning a file leaves the
scanner's process-wide variables changed. -/
def consolidateTexts (U : Uni) (unq : Str → Option Str) : Glob → Svcdef → List Str → Except Err (Glob × Svcdef)
  | g, sd, [] => .ok (g, sd)
  | g, sd, t :: ts =>
    match lexText U g t with
    | .ok toks =>
      match Parser.parseService unq toks with
      | .error e =>
        if isOptional e then .ok ((scan U g t).2.1, sd)
        else if isEOF e then consolidateTexts U unq (scan U g t).2.1 sd ts
        else .error (.http (.parse e))
      | .ok p =>
        match assemble sd p with
        | .error e => .error (.http e)
        | .ok sd' => consolidateTexts U unq (scan U g t).2.1 sd' ts
    | _ => .error .lexer

/-- svcdef.go:207-347 `New`, with the state of the process before and after. An error ends the run, so no state is given
for it. `unq` is `strconv.Unquote`. -/
def newSvcdef (U : Uni) (unq : Str → Option Str) (p : Process) (goFiles : List (Option GoFile)) (protoFiles : List Str) :
    Except Err (Process × Svcdef) :=
  match newDefs unq p.oneofs goFiles with
  | .error e => .error (.defs e)
  | .ok (g, sd) =>
    match consolidateTexts U unq p.glob sd protoFiles with
    | .error e => .error e
    | .ok (gl, sd') => .ok (⟨gl, g⟩, sd')

end Baron.New
