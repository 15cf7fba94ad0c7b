import Verif.Model.Service

/-!
# Specification vocabulary for C29–C31: what in a service file is the user's, and what implements an rpc
-/

namespace Baron.Service

/-- `d` is a method named `n` on `*<svc>Service`. -/
def Implements (svc n : Str) (d : Decl) : Bool :=
  match d with
  | .func { recv := some (.star (.ident s) :: _), name, .. } => s = svc ++ "Service".toList && name = n
  | _ => false

/-- Declarations the generator has no business with: anything that is not a function, unexported functions, and
`NewService`. -/
def UserDecl (exp : Str → Bool) (d : Decl) : Bool :=
  match d with
  | .func f => f.name = "NewService".toList || !exp f.name
  | .other _ => true

/-- The declarations that must survive a regeneration for rpcs named `rpcs`. -/
def MustStay (exp : Str → Bool) (svc : Str) (rpcs : List Str) (d : Decl) : Bool :=
  UserDecl exp d || rpcs.any fun n => Implements svc n d

/-- `d'` is `d` with at most the second parameter's and the first result's type changed: same receiver, name, body
and parameter names, and all other types. -/
def SameButTypes (d d' : Decl) : Prop :=
  match d, d' with
  | .other t, .other t' => t = t'
  | .func f, .func f' =>
    f'.recv = f.recv ∧ f'.name = f.name ∧ f'.body = f.body ∧
    f'.params.map (·.names) = f.params.map (·.names) ∧ f'.results.map (·.names) = f.results.map (·.names) ∧
    (∀ i, i ≠ 1 → f'.params[i]? = f.params[i]?) ∧ (∀ i, i ≠ 0 → f'.results[i]? = f.results[i]?)
  | _, _ => False

/-- Two lists agree position by position. -/
inductive Pointwise {α β : Type} (R : α → β → Prop) : List α → List β → Prop where
  | nil : Pointwise R [] []
  | cons {a b as bs} : R a b → Pointwise R as bs → Pointwise R (a :: as) (b :: bs)

/-- No two methods of the service type in the file have the same name (Go requires it). -/
def NoDuplicateMethods (svc : Str) (ds : List Decl) : Prop :=
  ds.Pairwise fun d d' => ∀ n, Implements svc n d = true → Implements svc n d' = false

/-- Identifiers are identifiers: the service name has no dot, no receiver is an identifier starting with a star. -/
def IdentsOK (svc : Str) (ds : List Decl) : Prop :=
  '.' ∉ svc ∧ ∀ f, Decl.func f ∈ ds → ∀ s r, f.recv = some (.ident s :: r) → '*' ∉ s

/-- Names the generator handles: exported, not `NewService`, and with message names that are Go names already. -/
def GoodRpc (exp : Str → Bool) (r : Rpc) : Prop :=
  exp r.name = true ∧ r.name ≠ "NewService".toList ∧
  Strs.goCamelCase r.request = r.request ∧ Strs.goCamelCase r.response = r.response

/-- A generated implementation of an rpc: a method of the service type, named like the rpc, with the signature the gRPC
interface asks for: `(context.Context, *pb.Request) (*pb.Response, error)`, each parameter with its own name. -/
def GeneratedFor (svc : Str) (r : Rpc) (f : Func) : Prop :=
  f.recv = some [.star (.ident (svc ++ "Service".toList))] ∧ f.name = r.name ∧
  f.params.map Param.type = [.sel "context".toList "Context".toList, .star (.sel "pb".toList r.request)] ∧
  f.results.map Param.type = [.star (.sel "pb".toList r.response), .ident "error".toList] ∧
  (∀ p ∈ f.params, p.names.length = 1) ∧ (f.params.flatMap Param.names).Nodup

/-- Names whose functions the generator never removes or rewrites. -/
def LeftAlone (exp : Str → Bool) (n : Str) : Prop := exp n = false ∨ n = "NewService".toList

/-- How many parameters (or results) a list declares; `a, b T` declares two. -/
def arity (l : List Param) : Nat := (l.flatMap fun p => if p.names = [] then [[]] else p.names).length

/-- `t'` is `t` with the message name replaced: `*p.T` and `p.T` keep the package and the star, any other type stays. -/
inductive Retyped (new : Str) : Ty → Ty → Prop where
  | ptr (p s : Str) : Retyped new (.star (.sel p s)) (.star (.sel p new))
  | plain (p s : Str) : Retyped new (.sel p s) (.sel p new)
  | stays (t : Ty) (h1 : ∀ p s, t ≠ .star (.sel p s)) (h2 : ∀ p s, t ≠ .sel p s) : Retyped new t t

/-- `f'` is `f` adapted to the rpc `r`: if there are two parameters the type of the second is retyped to the request, if
there are two results the type of the first is retyped to the response; nothing else changes. -/
def AdaptedTo (r : Rpc) (f f' : Func) : Prop :=
  f'.recv = f.recv ∧ f'.name = f.name ∧ f'.body = f.body ∧
  (arity f.params ≠ 2 → f'.params = f.params) ∧
  (arity f.params = 2 → ∃ a b t, f.params = [a, b] ∧ f'.params = [a, ⟨b.names, t⟩] ∧ Retyped r.request b.type t) ∧
  (arity f.results ≠ 2 → f'.results = f.results) ∧
  (arity f.results = 2 → ∃ a rest t, f.results = a :: rest ∧ f'.results = ⟨a.names, t⟩ :: rest ∧
    Retyped r.response a.type t)

end Baron.Service
