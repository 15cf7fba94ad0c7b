import Verif.Model.Signatures
import Verif.Spec.New

/-!
# Specification vocabulary for C72: when a Go type implements an interface

Types are compared across files: a name written in a file stands for a type of the file's own package, a qualified name for
a type of the package the qualifier is imported from.
-/

namespace Baron.Sigs

open Baron.Svcdef Baron.New

/-- A file's package and the import paths of its qualifiers. -/
structure FileScope where
  self : Str
  imports : Str → Str

/-- The type an expression stands for, every name qualified by the path of its package; `error` is predeclared. -/
def denote (sc : FileScope) : GoType → GoType
  | .ident n => if n = "error".toList then .ident n else .sel (some sc.self) n
  | .sel (some q) n => .sel (some (sc.imports q)) n
  | .star t => .star (denote sc t)
  | t => t

def Method.denote (sc : FileScope) (m : Method) : Method :=
  ⟨m.name, m.params.map (Sigs.denote sc), m.results.map (Sigs.denote sc)⟩

/-- The method that is called under a name: the type's own one, else the one promoted from the embedded struct. -/
def called (own promoted : List Method) (n : Str) : Option Method :=
  match own.find? (fun m => m.name = n) with
  | some m => some m
  | none => promoted.find? fun m => m.name = n

/-- A type with these methods of its own, that embeds a struct with the methods `promoted`, implements the interface: no
method is declared twice, and every method of the interface is there with its type. -/
def ImplementsIface (own promoted iface : List Method) : Prop :=
  (own.map Method.name).Nodup ∧ ∀ m ∈ iface, called own promoted m.name = some m

/-- The methods of an interface. -/
def ifaceMethods (t : GoTypeSpec) : List Method := (members t).filterMap fun m =>
  match m.names.head?, m.func with
  | some n, some (ps, rs) => some ⟨n, ps, rs.getD []⟩
  | _, _ => none

/-- A service interface as protoc-gen-go-grpc writes it: all members are methods with different names; the rpcs (the
exported ones) are named in Go style and have the form `func(context.Context, …) (…, error)`. -/
structure ProtocIface (t : GoTypeSpec) : Prop where
  members : ∀ m ∈ members t, ∃ n, m.names = [n] ∧ m.func ≠ none
  names : ((Svcdef.members t).map GoMember.names).Nodup
  rpcs : ∀ m ∈ exportedMembers t,
    (∃ rq rs, m.func = some ([.sel (some "context".toList) "Context".toList, rq], some [rs, .ident "error".toList])) ∧
    ∀ n, m.names = [n] → Strs.goCamelCase n = n

/-- Request and response of the rpc are types of the file's own package, named in Go style. -/
def OwnTypes (m : GoMember) : Prop := ∃ c a b e,
  m.func = some ([c, .star (.ident a)], some [.star (.ident b), e]) ∧ Strs.goCamelCase a = a ∧ Strs.goCamelCase b = b

/-- The rpc mentions a type of another package. -/
def Mixed (m : GoMember) : Prop := ∃ c rq rs e, m.func = some ([c, rq], some [rs, e]) ∧
  ∃ p n, rq = .star (.sel p n) ∨ rs = .star (.sel p n)

end Baron.Sigs
