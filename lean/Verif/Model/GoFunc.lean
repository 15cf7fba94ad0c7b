import Verif.Spec.Files

/-!
# A fragment of Go with closures: endpoints and the gRPC and NATS transports of a generated service, their text and their meaning

Not a model of code in /repo but of the language that `NewEndpoints`, `Endpoints`, the service's methods and the gRPC functions of the
transport file are written in, and of the part of go-kit 0.10 and gRPC that they use. A value of a struct type and a pointer to it are
the same here; a closure keeps the values of the variables at the time it is made (the captured variables are never assigned to again).
What the functions of a library only build is the term of the call. The implementation of the service is any program: its answer may
depend on all earlier calls. Options of servers and clients only change the context. Types are not checked beyond what is needed to
run: an expression without meaning is `stuck`, which the theorems exclude.
-/

namespace Baron.GoFunc

open Baron.HTTP (look)

/-! ## Syntax -/

mutual
inductive Expr where
  | nil
  /-- a variable, or a function of the package -/
  | id (x : Str)
  /-- `x.f` -/
  | sel (x f : Str)
  /-- `x.(*t)` -/
  | assert (x t : Str)
  /-- a string literal, as it is written between the quotes -/
  | text (s : Str)
  /-- `&x` -/
  | addr (x : Str)
  /-- `f(…)`, a function of this or, written with its package, of another package -/
  | call (f : Str) (args : Args)
  /-- `x.f(…)`, a method or a function in a field -/
  | method (x f : Str) (args : Args)
  /-- `x.g.f(…)` -/
  | method2 (x g f : Str) (args : Args)
  /-- `e.f()` -/
  | dot (e : Expr) (f : Str)
  /-- `t{…}` -/
  | lit (t : Str) (args : Args)
  /-- `&t{…}` -/
  | ref (t : Str) (args : Args)
  /-- `[]t{…}` -/
  | slice (t : Str) (args : Args)
  /-- `func(params) results {body}` -/
  | fn (params results : List (Str × Str)) (body : Code)

/-- Arguments, or the entries of a literal. -/
inductive Args where
  | done (ws : Str)
  | blank (ws : Str) (rest : Args)
  | arg (ws : Str) (e : Expr) (after : Str) (rest : Args)
  /-- `name: e` -/
  | named (ws name colon : Str) (e : Expr) (after : Str) (rest : Args)
  /-- `// …` up to the end of the line -/
  | comment (ws s : Str) (rest : Args)
  /-- `x...` -/
  | spread (ws x after : Str) (rest : Args)

/-- Statements. `ws` is the white space before a statement or a closing brace. -/
inductive Code where
  | done (ws : Str)
  | blank (ws : Str) (rest : Code)
  /-- `// …` up to the end of the line -/
  | comment (ws s : Str) (rest : Code)
  /-- `x, … := e` -/
  | define (ws x : Str) (xs : List Str) (e : Expr) (rest : Code)
  /-- `x = e` -/
  | assign (ws x : Str) (e : Expr) (rest : Code)
  /-- `var x t` -/
  | var (ws x t : Str) (rest : Code)
  /-- `var (…)`; its entries are `x = e` -/
  | group (ws : Str) (body rest : Code)
  | init (ws x : Str) (e : Expr) (rest : Code)
  /-- `{…}` -/
  | block (ws : Str) (body rest : Code)
  /-- `if err != nil {…}` -/
  | ifErr (ws : Str) (body rest : Code)
  /-- `_ = x` -/
  | discard (ws x : Str) (rest : Code)
  /-- `if err := json.Unmarshal(x.Data, &y); err != nil {…}` -/
  | unmarshal (ws x y : Str) (body rest : Code)
  /-- `return …` -/
  | ret (ws : Str) (vals : Args) (rest : Code)
end

/-! ## Text -/

def printParam : Str × Str → Str
  | ([], t) => t
  | (c :: x, t) => [c] ++ (x ++ (chars% " " ++ t))

def printParams : List (Str × Str) → Str
  | [] => []
  | [p] => printParam p
  | p :: q :: l => printParam p ++ (chars% ", " ++ printParams (q :: l))

/-- One result without a name needs no parentheses. -/
def printResults : List (Str × Str) → Str
  | [([], t)] => t
  | l => chars% "(" ++ (printParams l ++ chars% ")")

def printNames (x : Str) : List Str → Str
  | [] => x
  | y :: l => x ++ (chars% ", " ++ printNames y l)

mutual
def Expr.print : Expr → Str
  | .nil => chars% "nil"
  | .id x => x
  | .sel x f => x ++ (chars% "." ++ f)
  | .assert x t => x ++ (chars% ".(*" ++ (t ++ chars% ")"))
  | .text s => chars% "\"" ++ (s ++ chars% "\"")
  | .addr x => chars% "&" ++ x
  | .call f args => f ++ (chars% "(" ++ (args.print ++ chars% ")"))
  | .method x f args => x ++ (chars% "." ++ (f ++ (chars% "(" ++ (args.print ++ chars% ")"))))
  | .method2 x g f args => x ++ (chars% "." ++ (g ++ (chars% "." ++ (f ++ (chars% "(" ++ (args.print ++ chars% ")"))))))
  | .dot e f => e.print ++ (chars% "." ++ (f ++ chars% "()"))
  | .lit t args => t ++ (chars% "{" ++ (args.print ++ chars% "}"))
  | .ref t args => chars% "&" ++ (t ++ (chars% "{" ++ (args.print ++ chars% "}")))
  | .slice t args => chars% "[]" ++ (t ++ (chars% "{" ++ (args.print ++ chars% "}")))
  | .fn ps rs b => chars% "func(" ++ (printParams ps ++ (chars% ") " ++ (printResults rs ++ (chars% " {" ++ (b.print ++ chars% "}")))))

def Args.print : Args → Str
  | .done ws => ws
  | .blank ws r => ws ++ r.print
  | .arg ws e after r => ws ++ (e.print ++ (after ++ r.print))
  | .named ws name colon e after r => ws ++ (name ++ (colon ++ (e.print ++ (after ++ r.print))))
  | .comment ws s r => ws ++ (chars% "//" ++ (s ++ r.print))
  | .spread ws x after r => ws ++ (x ++ (chars% "..." ++ (after ++ r.print)))

def Code.print : Code → Str
  | .done ws => ws
  | .blank ws r => ws ++ r.print
  | .comment ws s r => ws ++ (chars% "//" ++ (s ++ r.print))
  | .define ws x xs e r => ws ++ (printNames x xs ++ (chars% " := " ++ (e.print ++ r.print)))
  | .assign ws x e r => ws ++ (x ++ (chars% " = " ++ (e.print ++ r.print)))
  | .var ws x t r => ws ++ (chars% "var " ++ (x ++ (chars% " " ++ (t ++ r.print))))
  | .group ws b r => ws ++ (chars% "var (" ++ (b.print ++ (chars% ")" ++ r.print)))
  | .init ws x e r => ws ++ (x ++ (chars% " = " ++ (e.print ++ r.print)))
  | .block ws b r => ws ++ (chars% "{" ++ (b.print ++ (chars% "}" ++ r.print)))
  | .ifErr ws b r => ws ++ (chars% "if err != nil {" ++ (b.print ++ (chars% "}" ++ r.print)))
  | .discard ws x r => ws ++ (chars% "_ = " ++ (x ++ r.print))
  | .unmarshal ws x y b r => ws ++ (chars% "if err := json.Unmarshal(" ++ (x ++ (chars% ".Data, &" ++ (y ++ (chars% "); err != nil {" ++ (b.print ++ (chars% "}" ++ r.print)))))))
  | .ret ws vs r => ws ++ (chars% "return" ++ (vs.print ++ r.print))
end

/-- A function, or a method if it has a receiver. `gap` is what is written before the body. -/
structure Func where
  pkg : Str
  recv : Option (Str × Str)
  name : Str
  params : List (Str × Str)
  results : List (Str × Str)
  gap : Str
  body : Code

def Func.print (f : Func) : Str :=
  chars% "func " ++ ((match f.recv with | some r => chars% "(" ++ (r.1 ++ (chars% " " ++ (r.2 ++ chars% ") "))) | none => []) ++
    (f.name ++ (chars% "(" ++ (printParams f.params ++ (chars% ") " ++ (printResults f.results ++ (f.gap ++ (chars% "{" ++ (f.body.print ++ chars% "}")))))))))

/-! ## Values -/

/-- Values: `M` are the contents of messages, `C` the contexts, `E` the errors. -/
inductive Val (M C E : Type) where
  | nil
  | ctx (c : C)
  | error (e : E)
  | text (s : Str)
  /-- a pointer to a message of that type; `none` is a nil pointer of that type -/
  | msg (t : Str) (m : Option M)
  | struct (t : Str) (fields : List (Str × Val M C E))
  | list (l : List (Val M C E))
  /-- a function declared in some package -/
  | func (f : Str)
  | closure (pkg : Str) (params results : List (Str × Str)) (body : Code) (env : List (Str × Val M C E))
  /-- what the function `f` of a library has built -/
  | lib (f : Str) (args : List (Val M C E))
  /-- the user's implementation of the service -/
  | service

/-- A call of the user's implementation. -/
structure Call (M C : Type) where
  rpc : Str
  ctx : C
  req : Option M
  deriving DecidableEq, Repr

/-- What happens outside of the generated functions. -/
inductive Event (M C E : Type) where
  /-- a call of the user's implementation -/
  | call (c : Call M C)
  /-- `QueueSubscribe`: a handler for the messages of a subject, in a queue group -/
  | subscribed (subject queue : Str) (handler : Val M C E)
  /-- the content of a message that is about to be sent is set -/
  | wrote (data : Str)
  /-- a message is sent to a subject -/
  | published (subject data : Str)

abbrev Hist (M C E : Type) := List (Event M C E)

/-- What an expression or statement comes to, with the calls of the implementation so far. -/
inductive Ans (M C E α : Type) where
  | ok (a : α) (h : Hist M C E)
  | panic (h : Hist M C E)
  | stuck

def Ans.bind {M C E α β : Type} (x : Ans M C E α) (f : α → Hist M C E → Ans M C E β) : Ans M C E β :=
  match x with
  | .ok a h => f a h
  | .panic h => .panic h
  | .stuck => .stuck

variable {M C E : Type}

/-- What is not determined by the generated code. -/
structure World (M C E : Type) where
  /-- the message without any field set -/
  empty : Str → M
  /-- the methods of the service's interface and the type of their responses -/
  responses : List (Str × Str)
  /-- the implementation: its answer to a call, after all the calls before -/
  impl : Hist M C E → Call M C → Option M × Option E
  /-- `GRPCMetadataToContext` -/
  metadata : C → C
  /-- what an option of a server or client does to the context -/
  option : Val M C E → C → C
  /-- the context in the server for the context of a call in the client -/
  network : C → C
  /-- what a nil pointer to a message of that type is sent as; some versions of protobuf send the empty message, some fail -/
  nilMessage : Str → Except E M
  /-- an error of a method, as it comes back to the client -/
  status : E → E
  /-- the error of a method that the server does not have -/
  unimplemented : E
  /-- the context of a message on a NATS server -/
  background : C
  /-- `json.Marshal` -/
  marshal : Val M C E → Except E Str
  /-- `json.Unmarshal` into a message of a type: what it contains afterwards -/
  unmarshal : Str → M → Str → M × Option E
  /-- what go-kit's NATS server sends for an error -/
  errorBody : E → Str
  /-- the error of a subscription to a subject -/
  refused : Hist M C E → Str → Option E
  /-- the subject for the reply to a request, the member of a queue group that gets it, and the error if there is no reply -/
  inbox : Hist M C E → Str
  chosen : Hist M C E → Nat
  noReply : E

/-! ## Meaning -/

/-- A name with its package. -/
def qual (pkg x : Str) : Str := if '.' ∈ x then x else pkg ++ '.' :: x

abbrev Env (M C E : Type) := List (Str × Val M C E)

def Env.get (env : Env M C E) (x : Str) : Option (Val M C E) := look env x

def setVar (x : Str) (v : Val M C E) : Env M C E → Env M C E
  | [] => [(x, v)]
  | p :: l => if p.1 = x then (x, v) :: l else p :: setVar x v l

/-- The variables on the left of `:=`. -/
def setVars : List Str → List (Val M C E) → Env M C E → Option (Env M C E)
  | [], [], env => some env
  | x :: xs, v :: vs, env => setVars xs vs (if x = chars% "_" then env else setVar x v env)
  | _, _, _ => none

/-- Functions and methods that can be called from here. -/
structure Calls (M C E : Type) where
  invoke : Val M C E → List (Val M C E) → Hist M C E → Ans M C E (List (Val M C E))
  method : Val M C E → Str → List (Val M C E) → Hist M C E → Ans M C E (List (Val M C E))

/-- A call of `v.f`: of the function in that field, or of the method. -/
def select (k : Calls M C E) (v : Val M C E) (f : Str) (args : List (Val M C E)) (h : Hist M C E) : Ans M C E (List (Val M C E)) :=
  match v with
  | .struct _ fields => match look fields f with
    | some g => k.invoke g args h
    | none => k.method v f args h
  | _ => k.method v f args h

def fieldOf (v : Val M C E) (f : Str) : Option (Val M C E) :=
  match v with
  | .struct _ fields => look fields f
  | _ => none

/-- The variable `x`. -/
def lookup (env : Env M C E) (x : Str) (h : Hist M C E) : Ans M C E (Val M C E) :=
  match env.get x with
  | some v => .ok v h
  | none => .stuck

/-- `v.(*t)`. -/
def asserted (t : Str) (v : Val M C E) (h : Hist M C E) : Ans M C E (List (Val M C E)) :=
  match v with
  | .msg u m => if u = t then .ok [.msg u m] h else .panic h
  | _ => .panic h

/-- `append(…)`. -/
def appended (vs : List (Val M C E)) (h : Hist M C E) : Ans M C E (List (Val M C E)) :=
  match vs with
  | .list l :: rest => .ok [.list (l ++ rest)] h
  | _ => .stuck

/-- A single value. -/
def one (vs : List (Val M C E)) (h : Hist M C E) : Ans M C E (Val M C E) :=
  match vs with
  | [v] => .ok v h
  | _ => .stuck

/-- The elements of a list. -/
def elements (v : Val M C E) (h : Hist M C E) : Ans M C E (List (Val M C E)) :=
  match v with
  | .list l => .ok l h
  | _ => .stuck

/-- The value of a variable that is declared without one. -/
def zeroOf (w : World M C E) (t : Str) : Val M C E :=
  if t = chars% "endpoint.Endpoint" then .nil else .msg t (some (w.empty t))

/-- A function of the package, unless it is a variable. -/
def identOf (pkg : Str) (env : Env M C E) (x : Str) : Val M C E := (env.get x).getD (.func (qual pkg x))

mutual
def Expr.eval (w : World M C E) (k : Calls M C E) (pkg : Str) (env : Env M C E) : Expr → Hist M C E → Ans M C E (List (Val M C E))
  | .nil, h => .ok [.nil] h
  | .id x, h => .ok [identOf pkg env x] h
  | .sel x f, h => (lookup env x h).bind fun v h => match fieldOf v f with
    | some u => .ok [u] h
    | none => .stuck
  | .assert x t, h => (lookup env x h).bind (asserted (qual pkg t))
  | .text s, h => match TT.literal (s ++ chars% "\"") with
    | some (v, []) => .ok [.text v] h
    | _ => .stuck
  | .addr x, h => (lookup env x h).bind fun v h => .ok [v] h
  | .call f args, h => (args.eval w k pkg env h).bind fun vs h =>
      if f = chars% "append" then appended (vs.map (·.2)) h else k.invoke (.func (qual pkg f)) (vs.map (·.2)) h
  | .method x f args, h => (lookup env x h).bind fun v h => (args.eval w k pkg env h).bind fun vs h => select k v f (vs.map (·.2)) h
  | .method2 x g f args, h => (lookup env x h).bind fun v h => (args.eval w k pkg env h).bind fun vs h => match fieldOf v g with
    | some u => select k u f (vs.map (·.2)) h
    | none => .stuck
  | .dot e f, h => (e.eval w k pkg env h).bind fun vs h => (one vs h).bind fun v h => select k v f [] h
  | .lit t args, h => (args.eval w k pkg env h).bind fun vs h => .ok [.struct (qual pkg t) vs] h
  | .ref t args, h => (args.eval w k pkg env h).bind fun vs h => .ok [.struct (qual pkg t) vs] h
  | .slice _ args, h => (args.eval w k pkg env h).bind fun vs h => .ok [.list (vs.map (·.2))] h
  | .fn ps rs b, h => .ok [.closure pkg ps rs b env] h

/-- The values, those of named entries with their names. -/
def Args.eval (w : World M C E) (k : Calls M C E) (pkg : Str) (env : Env M C E) : Args → Hist M C E → Ans M C E (List (Str × Val M C E))
  | .done _, h => .ok [] h
  | .blank _ r, h => r.eval w k pkg env h
  | .comment _ _ r, h => r.eval w k pkg env h
  | .arg _ e _ r, h => (e.eval w k pkg env h).bind fun vs h => (one vs h).bind fun v h => (r.eval w k pkg env h).bind fun us h => .ok (([], v) :: us) h
  | .named _ name _ e _ r, h => (e.eval w k pkg env h).bind fun vs h => (one vs h).bind fun v h =>
      (r.eval w k pkg env h).bind fun us h => .ok ((name, v) :: us) h
  | .spread _ x _ r, h => (lookup env x h).bind fun v h => (elements v h).bind fun l h =>
      (r.eval w k pkg env h).bind fun us h => .ok (l.map (fun v => ([], v)) ++ us) h
end

/-- Whether `err` is not nil. -/
def isErr (env : Env M C E) : Option Bool :=
  match env.get (chars% "err") with
  | some .nil => some false
  | some (.error _) => some true
  | _ => none

/-- `err := json.Unmarshal(x.Data, &y)`: the value of `y` afterwards, and the error. -/
def unmarshalled (w : World M C E) (env : Env M C E) (x y : Str) : Option (Val M C E × Option E) :=
  match (env.get x).bind (fieldOf · (chars% "Data")), env.get y with
  | some (.text d), some (.msg t (some m)) => some (.msg t (some (w.unmarshal t m d).1), (w.unmarshal t m d).2)
  | _, _ => none

/-- Statements: the variables afterwards, and the values returned if a `return` was reached. -/
def Code.exec (w : World M C E) (k : Calls M C E) (pkg : Str) : Code → Env M C E → Hist M C E → Ans M C E (Env M C E × Option (List (Val M C E)))
  | .done _, env, h => .ok (env, none) h
  | .blank _ r, env, h => r.exec w k pkg env h
  | .comment _ _ r, env, h => r.exec w k pkg env h
  | .define _ x xs e r, env, h => (e.eval w k pkg env h).bind fun vs h => match setVars (x :: xs) vs env with
    | some env => r.exec w k pkg env h
    | none => .stuck
  | .assign _ x e r, env, h => (e.eval w k pkg env h).bind fun vs h => (one vs h).bind fun v h =>
      if (env.get x).isSome then r.exec w k pkg (setVar x v env) h else .stuck
  | .var _ x t r, env, h => if (env.get x).isSome then .stuck else r.exec w k pkg (setVar x (zeroOf w (qual pkg t)) env) h
  | .group _ b r, env, h => (b.exec w k pkg env h).bind fun x h => r.exec w k pkg x.1 h
  | .init _ x e r, env, h => (e.eval w k pkg env h).bind fun vs h => (one vs h).bind fun v h =>
      if (env.get x).isSome then .stuck else r.exec w k pkg (setVar x v env) h
  | .block _ b r, env, h => (b.exec w k pkg env h).bind fun x h => match x.2 with
    | some vs => .ok (x.1, some vs) h
    | none => r.exec w k pkg x.1 h
  | .ifErr _ b r, env, h => match isErr env with
    | none => .stuck
    | some false => r.exec w k pkg env h
    | some true => (b.exec w k pkg env h).bind fun x h => match x.2 with
      | some vs => .ok (x.1, some vs) h
      | none => r.exec w k pkg x.1 h
  | .discard _ x r, env, h => if (env.get x).isSome then r.exec w k pkg env h else .stuck
  | .unmarshal _ x y b r, env, h => match unmarshalled w env x y with
    | none => .stuck
    | some (v, none) => r.exec w k pkg (setVar y v env) h
    | some (v, some e) => (b.exec w k pkg ((chars% "err", .error e) :: setVar y v env) h).bind fun z h => match z.2 with
      | some vs => .ok (setVar y v env, some vs) h
      | none => .stuck
  | .ret _ vs _, env, h => (vs.eval w k pkg env h).bind fun us h => .ok (env, some (us.map (·.2))) h

/-- Parameters and their values; the last one may be `...t`. -/
def bindParams : List (Str × Str) → List (Val M C E) → Option (Env M C E)
  | [], [] => some []
  | [(x, '.' :: _)], vs => some [(x, .list vs)]
  | p :: ps, v :: vs => (bindParams ps vs).map ((p.1, v) :: ·)
  | _, _ => none

/-- Named results are variables. -/
def bindResults (rs : List (Str × Str)) : Env M C E := (rs.filter fun r => r.1 ≠ []).map fun r => (r.1, .nil)

/-- A call of a function with that body. -/
def callBody (w : World M C E) (k : Calls M C E) (pkg : Str) (params results : List (Str × Str)) (body : Code) (outer : Env M C E)
    (args : List (Val M C E)) (h : Hist M C E) : Ans M C E (List (Val M C E)) :=
  match bindParams params args with
  | none => .stuck
  | some ps => (body.exec w k pkg (ps ++ bindResults results ++ outer) h).bind fun x h => match x.2 with
    | some vs => .ok vs h
    | none => .stuck

/-- `Endpoint()` of a gRPC client of go-kit. -/
def clientEndpoint : Str := chars% "grpctransport.Client.Endpoint"

/-- `grpctransport.NewServer` -/
def newServer : Str := chars% "grpctransport.NewServer"

/-- `grpctransport.NewClient` -/
def newClient : Str := chars% "grpctransport.NewClient"

/-- A connection to a process on which a server is registered under a name: `grpc.Dial`, and what protoc generates for the server. -/
def dialed : Str := chars% "grpc.ClientConn"

/-- A step `x, err := f(…)` in a library, given up with `nil` and the error if there is one. -/
def orFail (failed : Val M C E → List (Val M C E)) (x : Ans M C E (List (Val M C E))) (f : Val M C E → Hist M C E → Ans M C E (List (Val M C E))) : Ans M C E (List (Val M C E)) :=
  x.bind fun vs h => match vs with
    | [v, .nil] => f v h
    | [_, .error e] => .ok (failed (.error e)) h
    | _ => .stuck

/-- An option: `ServerBefore(GRPCMetadataToContext)`, or one of the user's. -/
def applyOption (w : World M C E) (o : Val M C E) (c : C) : C :=
  match o with
  | .lib f [.func g] => if f = chars% "grpctransport.ServerBefore" ∧ g = chars% "pb.GRPCMetadataToContext" then w.metadata c else w.option o c
  | o => w.option o c

/-- go-kit 0.10 transport/grpc/server.go `ServeGRPC`: the options, then decoder, endpoint and encoder. -/
def serveGRPC (w : World M C E) (k : Calls M C E) (e dec enc : Val M C E) (options : List (Val M C E)) (c : C) (req : Val M C E) (h : Hist M C E) :
    Ans M C E (List (Val M C E)) :=
  let c := options.foldl (fun c o => applyOption w o c) c
  let failed (x : Val M C E) : List (Val M C E) := [.ctx c, .nil, x]
  orFail failed (k.invoke dec [.ctx c, req] h) fun request h =>
    orFail failed (k.invoke e [.ctx c, request] h) fun response h =>
      orFail failed (k.invoke enc [.ctx c, response] h) fun reply h => .ok [.ctx c, reply, .nil] h

/-- What a pointer to a message is sent as. -/
def onWire (w : World M C E) (t : Str) : Option M → Except E M
  | some m => .ok m
  | none => w.nilMessage t

/-- A response on its way back; the server answers with the status of an error if it cannot be sent. -/
def sentBack (w : World M C E) (t : Str) (x : Except E M) : List (Val M C E) :=
  match x with
  | .ok m => [.msg t (some m), .nil]
  | .error e => [.nil, .error (w.status e)]

/-- A request is sent, or the client fails with the error. -/
def sending (x : Except E M) (h : Hist M C E) (f : M → Ans M C E (List (Val M C E))) : Ans M C E (List (Val M C E)) :=
  match x with
  | .ok m => f m
  | .error e => .ok [.nil, .error e] h

/-- The answer of a server's method, as it comes back: the response is read into a message of the type that the client expects, an error
is turned into a status. -/
def reply (w : World M C E) (t : Str) (x : Ans M C E (List (Val M C E))) : Ans M C E (List (Val M C E)) :=
  x.bind fun vs h => match vs with
    | [.msg u m, .nil] => if u = t then .ok (sentBack w t (onWire w t m)) h else .stuck
    | [_, .error e] => .ok [.nil, .error (w.status e)] h
    | _ => .stuck

/-- gRPC: a call of `/name/method` on a connection. -/
def overNetwork (w : World M C E) (k : Calls M C E) (conn : Val M C E) (name method : Str) (c : C) (req : Val M C E) (t : Str) (h : Hist M C E) :
    Ans M C E (List (Val M C E)) :=
  match conn, req with
  | .lib d [.text registered, srv], .msg u m =>
    if d = dialed then sending (onWire w u m) h fun q =>
      if name = registered ∧ (look w.responses method).isSome then reply w t (k.method srv method [.ctx (w.network c), .msg u (some q)] h)
      else .ok [.nil, .error w.unimplemented] h
    else .stuck
  | _, _ => .stuck

/-- go-kit 0.10 transport/grpc/client.go `Endpoint`: encoder, options, the call, decoder. The reply is of the type of the message given
to `NewClient`. -/
def callGRPC (w : World M C E) (k : Calls M C E) (conn : Val M C E) (name method : Str) (enc dec : Val M C E) (t : Str) (options : List (Val M C E)) (c : C)
    (request : Val M C E) (h : Hist M C E) : Ans M C E (List (Val M C E)) :=
  let failed (x : Val M C E) : List (Val M C E) := [.nil, x]
  orFail failed (k.invoke enc [.ctx c, request] h) fun req h =>
    let c := options.foldl (fun c o => w.option o c) c
    orFail failed (overNetwork w k conn name method c req t h) fun rep h =>
      orFail failed (k.invoke dec [.ctx c, rep] h) fun response h => .ok [response, .nil] h

def errorVal : Option E → Val M C E
  | none => .nil
  | some e => .error e

/-! ### NATS -/

/-- A connection to the NATS server; there is one NATS server. -/
def natsConn : Str := chars% "nats.Conn"
def newSubscriber : Str := chars% "natstransport.NewSubscriber"
def newPublisher : Str := chars% "natstransport.NewPublisher"
/-- `ServeMsg(conn)` of a subscriber, `Endpoint()` of a publisher. -/
def serveMsgHandler : Str := chars% "natstransport.Subscriber.ServeMsg"
def publisherEndpoint : Str := chars% "natstransport.Publisher.Endpoint"
def encodeJSONRequest : Str := chars% "natstransport.EncodeJSONRequest"
def encodeJSONResponse : Str := chars% "natstransport.EncodeJSONResponse"

/-- A message. -/
def natsMsg (data : Str) : Val M C E := .struct (chars% "nats.Msg") [(chars% "Data", .text data)]

/-- A function of a library: go-kit 0.10 transport/nats/encode_decode.go `EncodeJSONRequest` and `EncodeJSONResponse`, or one that only
builds a value. -/
def libCall (w : World M C E) (q : Str) (args : List (Val M C E)) (h : Hist M C E) : Ans M C E (List (Val M C E)) :=
  if q = encodeJSONRequest then match args with
    | [.ctx _, .struct _ _, v] => match w.marshal v with
      | .ok d => .ok [.nil] (h ++ [.wrote d])
      | .error e => .ok [.error e] h
    | _ => .stuck
  else if q = encodeJSONResponse then match args with
    | [.ctx _, .text reply, .lib _ _, v] => match w.marshal v with
      | .ok d => .ok [.nil] (h ++ [.published reply d])
      | .error e => .ok [.error e] h
    | _ => .stuck
  else .ok [.lib q args] h

/-- What a step of `ServeMsg` comes to: a value to go on with, or an error that is sent to the client. -/
def orSend (w : World M C E) (reply : Str) (x : Ans M C E (List (Val M C E))) (f : Val M C E → Hist M C E → Ans M C E Unit) : Ans M C E Unit :=
  x.bind fun vs h => match vs with
    | [v, .nil] => f v h
    | [_, .error e] => .ok () (h ++ [.published reply (w.errorBody e)])
    | _ => .stuck

/-- go-kit 0.10 transport/nats/subscriber.go `ServeMsg`, for a message that wants a reply: options, decoder, endpoint and encoder, with the
default error encoder. -/
def serveMsg (w : World M C E) (k : Calls M C E) (e dec enc : Val M C E) (options : List (Val M C E)) (conn : Val M C E) (data reply : Str) (h : Hist M C E) :
    Ans M C E Unit :=
  let c := options.foldl (fun c o => w.option o c) w.background
  orSend w reply (k.invoke dec [.ctx c, natsMsg data] h) fun request h =>
    orSend w reply (k.invoke e [.ctx c, request] h) fun response h =>
      (k.invoke enc [.ctx c, .text reply, conn, response] h).bind fun vs h => match vs with
        | [.nil] => .ok () h
        | [.error e] => .ok () (h ++ [.published reply (w.errorBody e)])
        | _ => .stuck

/-- The handler of a subscription gets a message. -/
def handle (w : World M C E) (k : Calls M C E) (handler : Val M C E) (data reply : Str) (h : Hist M C E) : Ans M C E Unit :=
  match handler with
  | .lib f [.lib g (e :: dec :: enc :: options), conn] =>
    if f = serveMsgHandler ∧ g = newSubscriber then serveMsg w k e dec enc options conn data reply h else .stuck
  | _ => .stuck

/-- The subscriptions to a subject: queue groups and handlers. -/
def subscriptions (subject : Str) (h : Hist M C E) : List (Str × Val M C E) :=
  h.filterMap fun
    | .subscribed s q f => if s = subject then some (q, f) else none
    | _ => none

/-- The first reply to an inbox in what has happened. -/
def replyTo (inbox : Str) (h : Hist M C E) : Option Str :=
  h.findSome? fun
    | .published s d => if s = inbox then some d else none
    | _ => none

/-- A request over NATS: one member of the queue group gets it; more than one group for a subject is not modelled. The first reply. -/
def natsRequest (w : World M C E) (k : Calls M C E) (subject data : Str) (h : Hist M C E) : Ans M C E (Option Str) :=
  match subscriptions subject h with
  | [] => .ok none h
  | (q, f) :: r =>
    if (r.all fun x => decide (x.1 = q)) = false then .stuck
    else match ((q, f) :: r)[w.chosen h % (r.length + 1)]? with
      | none => .stuck
      | some x => (handle w k x.2 data (w.inbox h) h).bind fun _ h' => .ok (replyTo (w.inbox h) (h'.drop h.length)) h'

/-- What has been written to the message: the last thing that happened. -/
def written (h : Hist M C E) : Str :=
  match h.getLast? with
  | some (.wrote d) => d
  | _ => []

/-- go-kit 0.10 transport/nats/publisher.go `Endpoint`: encoder, the request, decoder. Options that change the message are not modelled. -/
def callNATS (w : World M C E) (k : Calls M C E) (subject : Str) (enc dec : Val M C E) (c : C) (request : Val M C E) (h : Hist M C E) :
    Ans M C E (List (Val M C E)) :=
  (k.invoke enc [.ctx c, natsMsg [], request] h).bind fun vs h => match vs with
    | [.nil] => (natsRequest w k subject (written h) h).bind fun d h => match d with
      | none => .ok [.nil, .error w.noReply] h
      | some d => orFail (fun x => [.nil, x]) (k.invoke dec [.ctx c, natsMsg d] h) fun response h => .ok [response, .nil] h
    | [.error e] => .ok [.nil, .error e] h
    | _ => .stuck

/-- `QueueSubscribe`. -/
def queueSubscribe (w : World M C E) (args : List (Val M C E)) (h : Hist M C E) : Ans M C E (List (Val M C E)) :=
  match args with
  | [.text subject, .text queue, handler] => match w.refused h subject with
    | some e => .ok [.nil, .error e] h
    | none => .ok [.lib (chars% "nats.Subscription") [.text subject], .nil] (h ++ [.subscribed subject queue handler])
  | _ => .stuck

/-- A program: its functions and methods. -/
abbrev Prog := List Func

def Func.isFunction (f : Func) (q : Str) : Bool := f.recv.isNone && decide (f.pkg ++ '.' :: f.name = q)

/-- The type of a receiver, without the star. -/
def receiver (pkg t : Str) : Str := qual pkg (match t with | '*' :: t => t | t => t)

def Func.isMethod (f : Func) (t name : Str) : Bool :=
  match f.recv with
  | some r => decide (receiver f.pkg r.2 = t) && decide (f.name = name)
  | none => false

/-- A call of a function. -/
def invoke (w : World M C E) (p : Prog) (k : Calls M C E) (v : Val M C E) (args : List (Val M C E)) (h : Hist M C E) : Ans M C E (List (Val M C E)) :=
  match v with
  | .func q => match p.find? (·.isFunction q) with
    | some f => callBody w k f.pkg f.params f.results f.body [] args h
    | none => libCall w q args h
  | .closure pkg ps rs b env => callBody w k pkg ps rs b env args h
  | .lib f (.lib g (conn :: .text name :: .text method :: enc :: dec :: .struct t _ :: options) :: _) => match args with
    | [.ctx c, request] => if f = clientEndpoint ∧ g = newClient then callGRPC w k conn name method enc dec t options c request h else .stuck
    | _ => .stuck
  | .lib f (.lib g (_ :: .text subject :: .func enc :: dec :: _) :: _) => match args with
    | [.ctx c, request] => if f = publisherEndpoint ∧ g = newPublisher then callNATS w k subject (.func enc) dec c request h else .stuck
    | _ => .stuck
  | _ => .stuck

/-- A call of a method. -/
def method (w : World M C E) (p : Prog) (k : Calls M C E) (v : Val M C E) (name : Str) (args : List (Val M C E)) (h : Hist M C E) : Ans M C E (List (Val M C E)) :=
  match v with
  | .struct t _ => match p.find? (·.isMethod t name) with
    | some f => callBody w k f.pkg f.params f.results f.body [((f.recv.getD ([], [])).1, v)] args h
    | none => .stuck
  | .service => match look w.responses name, args with
    | some t, [.ctx c, .msg _ m] =>
      let call : Call M C := ⟨name, c, m⟩
      let a := w.impl h call
      .ok [.msg t a.1, errorVal a.2] (h ++ [.call call])
    | _, _ => .stuck
  | .lib f (e :: dec :: enc :: options) =>
    if f = newServer ∧ name = chars% "ServeGRPC" then match args with
      | [.ctx c, req] => serveGRPC w k e dec enc options c req h
      | _ => .stuck
    else if f = newClient ∧ name = chars% "Endpoint" then .ok [.lib clientEndpoint [v]] h
    else if f = newSubscriber ∧ name = chars% "ServeMsg" then match args with
      | [conn] => .ok [.lib serveMsgHandler [v, conn]] h
      | _ => .stuck
    else if f = newPublisher ∧ name = chars% "Endpoint" then .ok [.lib publisherEndpoint [v]] h
    else .stuck
  | .lib f _ => if f = natsConn ∧ name = chars% "QueueSubscribe" then queueSubscribe w args h else .stuck
  | _ => .stuck

/-- What can be called, up to that depth of calls. -/
def calls (w : World M C E) (p : Prog) : Nat → Calls M C E
  | 0 => ⟨fun _ _ _ => .stuck, fun _ _ _ _ => .stuck⟩
  | n + 1 => ⟨invoke w p (calls w p n), method w p (calls w p n)⟩

end Baron.GoFunc
