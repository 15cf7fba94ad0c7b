import Verif.Model.Oneof

/-!
# Model of what the HTTP client does with the caller's request message

`template/NAME-service/baron/NAME.pb.baron.go.tmpl` (TB) `EncodeHTTP…Request`, as the sequence of its accesses to the fields of
the message `request` points to. Both `req` (TB:616) and `toRet` (TB:693) are that pointer, so the assignments of TB:694-700
read a field of the caller's message and write it back. Calls made at the same time with the same message run these
sequences in any interleaving. Go's statements may read a field several times; one access stands for them. The request
`r`, its URL and its header belong to the call alone: go-kit's client makes them anew for every call.
-/

namespace Baron.Race

open Baron.HTTPCode (bindingFields bindingOneofs)

/-- An access to a field of the message: reading it into a register, or writing the register to it. -/
inductive Op where
  | load (f : Str)
  | store (f : Str)
  deriving Repr, DecidableEq

def Op.field : Op → Str
  | .load f => f
  | .store f => f

/-- TB:623-627: the path is built from the fields named in the template. -/
def pathOps (b : Svcdef.HTTPBinding) : List Op :=
  ((split '/' b.path).filter HTTP.isParamPart).map fun part => .load (Strs.goCamelCase (HTTP.removeBraces part))

/-- TB:639-665: the query is built from the fields in the query. -/
def queryOps (b : Svcdef.HTTPBinding) : List Op :=
  ((bindingFields b).filter fun f => f.location = "query".toList).map fun f => .load f.camelName

/-- TB:666-686: and from the oneofs in the query; the getter of every option reads the oneof's field. -/
def oneofOps (b : Svcdef.HTTPBinding) : List Op :=
  ((bindingOneofs b).filter fun o => o.location = "query".toList).flatMap fun o =>
    o.options.map fun _ => .load (Strs.goCamelCase o.name)

/-- TB:694-700: `toRet.F = req.F` for the fields in the body. -/
def bodyOps (b : Svcdef.HTTPBinding) : List Op :=
  ((bindingFields b).filter fun f => f.location = "body".toList).flatMap fun f => [.load f.camelName, .store f.camelName]

/-- TB:613-714: all accesses; `all` are the fields of the message, which protojson reads (TB:707). An encoder that fails
does only a first part of them. -/
def encoderOps (all : List Str) (b : Svcdef.HTTPBinding) : List Op :=
  pathOps b ++ queryOps b ++ oneofOps b ++ if b.verb ≠ "get".toList then bodyOps b ++ all.map .load else []

/-- A call under way: what its encoder has still to do, and its register. -/
structure Thread (V : Type) where
  ops : List Op
  reg : Option V

/-- The message and the calls that share it. -/
structure State (V : Type) where
  mem : Str → V
  threads : List (Thread V)

/-- The next access of call `i`; `none`: there is none. -/
def step {V : Type} (σ : State V) (i : Nat) : Option (State V) :=
  match σ.threads[i]? with
  | some ⟨.load f :: r, _⟩ => some { σ with threads := σ.threads.set i ⟨r, some (σ.mem f)⟩ }
  | some ⟨.store f :: r, some v⟩ =>
    some ⟨fun g => if g = f then v else σ.mem g, σ.threads.set i ⟨r, some v⟩⟩
  | _ => none

/-- Executions: which call does its next access. -/
def run {V : Type} (σ : State V) : List Nat → Option (State V)
  | [] => some σ
  | i :: is => match step σ i with
    | none => none
    | some σ' => run σ' is

/-- Calls of these bindings, all with the same message. -/
def calls {V : Type} (mem : Str → V) (all : List Str) (bs : List Svcdef.HTTPBinding) : State V :=
  ⟨mem, bs.map fun b => ⟨encoderOps all b, none⟩⟩

end Baron.Race
