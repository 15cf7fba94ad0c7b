import Verif.Spec.Paths

/-!
# What protoc reads from its command line (C77)

protoc's rules for arguments: an argument that does not begin with a dash is an input file; `--NAME=VALUE` and `-IVALUE`
give values; a value of `-I` or `--proto_path` is a list of directories, separated by colons, each of which may be
`VIRTUAL=DISK`; a value of `--PLUGIN_out` may begin with parameters, ended by a colon. `none`: an argument of a kind baron
has no use for.
-/

namespace Baron.Protoc

open Baron.Cli (Place)

/-- A command line as protoc understands it. Directories for imports: the virtual prefix and the directory. Plugins: their
name, parameters in front of the directory, and the directory. -/
structure Call where
  switches : List Str
  imports : List (Str × Str)
  outs : List (Str × Str × Str)
  opts : List (Str × Str)
  inputs : List Str
  deriving DecidableEq, Repr

/-- `VIRTUAL=DISK` or `DISK`. -/
def importDir (s : Str) : Str × Str :=
  if '=' ∈ s then (s.takeWhile (· ≠ '='), (s.dropWhile (· ≠ '=')).tail) else ([], s)

/-- The directories in a value of `-I` or `--proto_path`. -/
def importDirs (v : Str) : List (Str × Str) := ((split ':' v).filter (· ≠ [])).map importDir

/-- `PARAMETERS:DIR` or `DIR`. -/
def outDir (v : Str) : Str × Str :=
  if ':' ∈ v then (v.takeWhile (· ≠ ':'), (v.dropWhile (· ≠ ':')).tail) else ([], v)

/-- One argument. -/
def arg (c : Call) (a : Str) : Option Call :=
  match a with
  | '-' :: '-' :: r =>
    if '=' ∈ r then
      let name := r.takeWhile (· ≠ '=')
      let value := (r.dropWhile (· ≠ '=')).tail
      if name = "proto_path".toList then some { c with imports := c.imports ++ importDirs value }
      else if "_out".toList <:+ name then
        some { c with outs := c.outs ++ [(name.take (name.length - 4), outDir value)] }
      else if "_opt".toList <:+ name then some { c with opts := c.opts ++ [(name.take (name.length - 4), value)] }
      else none
    else if r = "experimental_allow_proto3_optional".toList then some { c with switches := c.switches ++ [r] }
    else none
  | '-' :: 'I' :: v => if v = [] then none else some { c with imports := c.imports ++ importDirs v }
  | '-' :: _ => none
  | '@' :: _ => none
  | _ => some { c with inputs := c.inputs ++ [a] }

/-- All arguments, in order. -/
def read (args : List Str) : Option Call := args.foldlM arg ⟨[], [], [], [], []⟩

/-- The name under which protoc knows an input file: its path below the first import directory that contains it. -/
def nameIn : List Place → Place → Option Place
  | [], _ => none
  | d :: ds, p => if d <+: p then some (p.drop d.length) else nameIn ds p

/-- What protoc-gen-go and protoc-gen-go-grpc (with `paths=source_relative`) make of a file's name to name theirs: without
`.proto` or `.protodevel`, if it ends so. -/
def stripped (n : Str) : Str :=
  if ".proto".toList <:+ n then n.take (n.length - 6)
  else if ".protodevel".toList <:+ n then n.take (n.length - 11)
  else n

end Baron.Protoc
