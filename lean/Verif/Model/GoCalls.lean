import Verif.Model.GoMain

/-!
# A fragment of Go: the example client of a generated service, its text and its meaning

Not a model of code in /repo but of the language and the libraries that the generated `cmd/NAME-client/main.go` uses: `flag` (with
`argument` of Model/GoMain), `log` (without dates; `Fatal` and `Fatalf` exit with status 1 and run no deferred call), `fmt`'s `%v`
and `%+v`, connections and clients of gRPC, HTTP and NATS. How a connection, a client or a call fares may depend on everything done
before. Go's rules that every variable of a function and every import is used, and that `:=` declares something new, are part of
the meaning; types are not checked beyond what is needed to run. The clients' methods and their types are C52 to C54 and C94.
-/

namespace Baron.GoCalls

open Baron.HTTP (look)
open Baron.GoMain (unquote argument)

/-! ## Syntax -/

inductive Expr where
  | id (x : Str)
  /-- a string literal, as it is written between the quotes -/
  | text (s : Str)
  /-- `&x` -/
  | addr (x : Str)
  /-- `*x` -/
  | deref (x : Str)
  /-- `f()` -/
  | call0 (f : Str)
  deriving Repr, DecidableEq

/-- What is called: a function, or a method of a variable. -/
inductive Callee where
  | fn (f : Str)
  | method (x f : Str)
  deriving Repr, DecidableEq

/-- A call: arguments, each with the separator before it, and what is before the closing parenthesis. -/
structure Call where
  fn : Callee
  args : List (Str × Expr)
  close : Str

/-- Statements. `ws` is the white space before a statement or a closing brace. -/
inductive Code where
  | done (ws : Str)
  | blank (ws : Str) (rest : Code)
  /-- `// …` up to the end of the line -/
  | comment (ws s : Str) (rest : Code)
  | call (ws : Str) (c : Call) (rest : Code)
  /-- `x := f(…)` -/
  | define (ws x : Str) (c : Call) (rest : Code)
  /-- `x, y := f(…)` -/
  | define2 (ws x y : Str) (c : Call) (rest : Code)
  /-- `var x ty` -/
  | declare (ws x ty : Str) (rest : Code)
  /-- `if x != nil {…}` -/
  | ifErr (ws x : Str) (body rest : Code)
  /-- `defer x.f()` -/
  | defer (ws x f : Str) (rest : Code)
  /-- `{…}` -/
  | block (ws : Str) (body rest : Code)

/-- An import: white space, the name given to it, if any, and the path. -/
structure Import where
  ws : Str
  alias : Option Str
  path : Str

/-- A command: its imports, its variables (of type `string`), `init`, `main`, and one more function. -/
structure Program where
  imports : List Import
  importsEnd : Str
  vars : List Str
  init : Code
  main : Code
  helper : Str
  helperBody : Code

/-! ## Text -/

def Expr.print : Expr → Str
  | .id x => x
  | .text s => chars% "\"" ++ (s ++ chars% "\"")
  | .addr x => chars% "&" ++ x
  | .deref x => chars% "*" ++ x
  | .call0 f => f ++ chars% "()"

def Callee.print : Callee → Str
  | .fn f => f
  | .method x f => x ++ (chars% "." ++ f)

def Call.print (c : Call) : Str :=
  c.fn.print ++ (chars% "(" ++ ((c.args.flatMap fun a => a.1 ++ a.2.print) ++ (c.close ++ chars% ")")))

def Code.print : Code → Str
  | .done ws => ws
  | .blank ws r => ws ++ r.print
  | .comment ws s r => ws ++ (chars% "//" ++ (s ++ r.print))
  | .call ws c r => ws ++ (c.print ++ r.print)
  | .define ws x c r => ws ++ (x ++ (chars% " := " ++ (c.print ++ r.print)))
  | .define2 ws x y c r => ws ++ (x ++ (chars% ", " ++ (y ++ (chars% " := " ++ (c.print ++ r.print)))))
  | .declare ws x ty r => ws ++ (chars% "var " ++ (x ++ (chars% " " ++ (ty ++ r.print))))
  | .ifErr ws x b r => ws ++ (chars% "if " ++ (x ++ (chars% " != nil {" ++ (b.print ++ (chars% "}" ++ r.print)))))
  | .defer ws x f r => ws ++ (chars% "defer " ++ (x ++ (chars% "." ++ (f ++ (chars% "()" ++ r.print)))))
  | .block ws b r => ws ++ (chars% "{" ++ (b.print ++ (chars% "}" ++ r.print)))

def Import.print (i : Import) : Str :=
  i.ws ++ ((match i.alias with | none => [] | some a => a ++ chars% " ") ++ (chars% "\"" ++ (i.path ++ chars% "\"")))

def Program.print (p : Program) : Str :=
  chars% "package main\n\nimport (" ++ (p.imports.flatMap Import.print ++ (p.importsEnd ++ (chars% ")\n\nvar (" ++
    ((p.vars.flatMap fun x => chars% "\n\t" ++ (x ++ chars% " string")) ++ (chars% "\n)\n\nfunc init() {" ++ (p.init.print ++
    (chars% "}\n\nfunc main() {" ++ (p.main.print ++ (chars% "}\nfunc " ++ (p.helper ++ (chars% "() {" ++ (p.helperBody.print ++ chars% "}\n"))))))))))))

/-! ## What the compiler checks -/

def Expr.mentions (x : Str) : Expr → Bool
  | .id y => y = x
  | .addr y => y = x
  | .deref y => y = x
  | .text _ => false
  | .call0 _ => false

def Call.mentions (x : Str) (c : Call) : Bool :=
  (match c.fn with | .fn _ => false | .method y _ => decide (y = x)) || c.args.any fun a => a.2.mentions x

/-- The variable `x` is used by statements; `same`: they are in the block that declares it (where `:=` assigns to it). -/
def Code.uses (same : Bool) (x : Str) : Code → Bool
  | .done _ => false
  | .blank _ r => r.uses same x
  | .comment _ _ r => r.uses same x
  | .call _ c r => c.mentions x || r.uses same x
  | .define _ y c r => c.mentions x || (if y = x ∧ same = false then false else r.uses same x)
  | .define2 _ y z c r => c.mentions x || (if (y = x ∨ z = x) ∧ same = false then false else r.uses same x)
  | .declare _ y _ r => if y = x then false else r.uses same x
  | .ifErr _ y b r => decide (y = x) || (b.uses false x || r.uses same x)
  | .defer _ y _ r => decide (y = x) || r.uses same x
  | .block _ b r => b.uses false x || r.uses same x

/-- Every variable is used, and every `:=` declares one; `here`: the variables of this block so far. -/
def Code.checked (here : List Str) : Code → Bool
  | .done _ => true
  | .blank _ r => r.checked here
  | .comment _ _ r => r.checked here
  | .call _ _ r => r.checked here
  | .define _ y _ r => decide (y ∉ here) && (r.uses true y && r.checked (y :: here))
  | .define2 _ y z _ r => (decide (y ∉ here) || decide (z ∉ here)) && ((decide (y ∈ here) || r.uses true y) &&
      ((decide (z ∈ here) || r.uses true z) && r.checked (y :: z :: here)))
  | .declare _ y _ r => decide (y ∉ here) && (r.uses true y && r.checked (y :: here))
  | .ifErr _ _ b r => b.checked [] && r.checked here
  | .defer _ _ _ r => r.checked here
  | .block _ b r => b.checked [] && r.checked here

/-- `p.` is the beginning of a name. -/
def ofPackage (p f : Str) : Bool := (p ++ ['.']).isPrefixOf f

def Call.needs (p : Str) (c : Call) : Bool :=
  (match c.fn with | .fn f => ofPackage p f | .method _ _ => false) || c.args.any fun a => match a.2 with | .call0 f => ofPackage p f | _ => false

/-- Statements mention the package `p`. -/
def Code.needs (p : Str) : Code → Bool
  | .done _ => false
  | .blank _ r => r.needs p
  | .comment _ _ r => r.needs p
  | .call _ c r => c.needs p || r.needs p
  | .define _ _ c r => c.needs p || r.needs p
  | .define2 _ _ _ c r => c.needs p || r.needs p
  | .declare _ _ ty r => ofPackage p ty || r.needs p
  | .ifErr _ _ b r => b.needs p || r.needs p
  | .defer _ _ _ r => r.needs p
  | .block _ b r => b.needs p || r.needs p

/-- The name of an imported package. -/
def Import.name (i : Import) : Str := match i.alias with
  | some a => a
  | none => if i.path = chars% "github.com/nats-io/nats.go" then chars% "nats"
    else if i.path = chars% "google.golang.org/grpc" then chars% "grpc" else i.path

def Program.compiles (p : Program) : Bool :=
  (p.imports.all fun i => p.init.needs i.name || (p.main.needs i.name || p.helperBody.needs i.name)) &&
    (p.init.checked [] && (p.main.checked [] && p.helperBody.checked []))

/-! ## Meaning -/

inductive Kind where
  | grpc
  | http
  | nats
  deriving Repr, DecidableEq

/-- What the client does with the network. -/
inductive Action where
  /-- `grpc.Dial`, with options -/
  | dial (addr : Str) (options : List Str)
  /-- `nats.Connect` -/
  | connect (addr : Str)
  /-- the constructor of a client, for a server at an address -/
  | client (k : Kind) (addr : Str)
  /-- the call of a method of a client with an empty message of a type -/
  | call (k : Kind) (addr method type : Str)
  deriving Repr, DecidableEq

inductive Event where
  | act (a : Action)
  /-- a line of the log -/
  | log (line : Str)
  | close (k : Kind) (addr : Str)
  deriving Repr, DecidableEq

/-- What the process is started with, and how the things it does fare, after what has happened. -/
structure World (V E : Type) where
  args : List Str
  fails : List Event → Action → Option E
  reply : List Event → Action → V
  errText : E → Str
  /-- `%+v` -/
  shown : V → Str

inductive GV (V E : Type) where
  | str (s : Str)
  /-- the result of a function without arguments of another package -/
  | obj (f : Str)
  /-- an empty message of a type, and a pointer to it -/
  | msg (ty : Str)
  | ptr (ty : Str)
  /-- a pointer to a variable of the package -/
  | ref (x : Str)
  | nil
  | error (e : Option E)
  | conn (k : Kind) (addr : Str)
  | client (k : Kind) (addr : Str)
  /-- a pointer to a response, and the response -/
  | out (v : V)
  | response (v : V)

structure State (V E : Type) where
  globals : List (Str × Str)
  /-- flags, with the variables they set -/
  flags : List (Str × Str)
  /-- variables of the innermost block, and of those around it -/
  inner : List (Str × GV V E)
  outer : List (Str × GV V E)
  trace : List Event
  /-- deferred calls of `Close`, the last one first -/
  deferred : List (Kind × Str)

/-- How the execution of statements ends early. -/
inductive Stop (V E : Type) where
  | stuck
  | exit (code : Nat) (st : State V E)

def variable? {V E} (st : State V E) (x : Str) : Option (GV V E) := match look st.inner x with
  | some v => some v
  | none => match look st.outer x with
    | some v => some v
    | none => (look st.globals x).map .str

def Expr.eval {V E} (st : State V E) : Expr → Option (GV V E)
  | .id x => variable? st x
  | .text s => (unquote s).map .str
  | .addr x => match look st.inner x with
    | some (.msg ty) => some (.ptr ty)
    | some _ => none
    | none => match look st.outer x with
      | some _ => none
      | none => (look st.globals x).map fun _ => .ref x
  | .deref x => match variable? st x with
    | some (.out v) => some (.response v)
    | _ => none
  | .call0 f => some (.obj f)

def evalArgs {V E} (st : State V E) : List (Str × Expr) → Option (List (GV V E))
  | [] => some []
  | a :: r => match a.2.eval st, evalArgs st r with
    | some v, some vs => some (v :: vs)
    | _, _ => none

/-- A text as the log package writes it. -/
def line (s : Str) : Str := if s.getLast? = some '\n' then s else s ++ ['\n']

/-- `fmt.Sprintf(f, v)` for a format with one verb, where `verb` says what the verb writes; `none` for other formats. -/
def format (verb : Str) (v : Str) : Str → Option Str
  | [] => none
  | '%' :: r => if verb.isPrefixOf r ∧ '%' ∉ r then some (v ++ r.drop verb.length) else none
  | c :: r => (format verb v r).map (c :: ·)

/-- `FlagSet.Parse` with `ExitOnError`, for flags with texts as values: `error` is the exit status. -/
def parseFlags (flags : List (Str × Str)) (g : List (Str × Str)) : List Str → Except Nat (List (Str × Str))
  | [] => .ok g
  | s :: r => match argument s with
    | .stop => .ok g
    | .bad => .error 2
    | .flag n value => match look flags n with
      | none => .error (if n = chars% "help" ∨ n = chars% "h" then 0 else 2)
      | some x => match value, r with
        | some v, r => parseFlags flags ((x, v) :: g) r
        | none, v :: r' => parseFlags flags ((x, v) :: g) r'
        | none, [] => .error 2

/-- The call of a function as a statement. -/
def callFn {V E} (w : World V E) (f : Str) (vs : List (GV V E)) (st : State V E) : Except (Stop V E) (State V E) :=
  if f = chars% "flag.StringVar" then match vs with
    | [.ref x, .str name, .str dflt, .str _] => match look st.flags name with
      | none => .ok { st with globals := (x, dflt) :: st.globals, flags := st.flags ++ [(name, x)] }
      | some _ => .error .stuck
    | _ => .error .stuck
  else if f = chars% "flag.Parse" then match vs with
    | [] => match parseFlags st.flags st.globals w.args with
      | .error n => .error (.exit n st)
      | .ok g => .ok { st with globals := g }
    | _ => .error .stuck
  else if f = chars% "log.Println" then match vs with
    | [.str s] => .ok { st with trace := st.trace ++ [.log (s ++ ['\n'])] }
    | _ => .error .stuck
  else if f = chars% "log.Fatal" then match vs with
    | [.error (some e)] => .error (.exit 1 { st with trace := st.trace ++ [.log (line (w.errText e))] })
    | _ => .error .stuck
  else if f = chars% "log.Fatalf" then match vs with
    | [.str s, .error (some e)] => match format (chars% "v") (w.errText e) s with
      | some t => .error (.exit 1 { st with trace := st.trace ++ [.log (line t)] })
      | none => .error .stuck
    | _ => .error .stuck
  else if f = chars% "log.Printf" then match vs with
    | [.str s, .response v] => match format (chars% "+v") (w.shown v) s with
      | some t => .ok { st with trace := st.trace ++ [.log (line t)] }
      | none => .error .stuck
    | _ => .error .stuck
  else .error .stuck

def options {V E} : List (GV V E) → Option (List Str)
  | [] => some []
  | .obj f :: r => (options r).map (f :: ·)
  | _ => none

/-- What the call of a function with two results does, and its first result if the second is nil. -/
def action {V E} (f : Str) (vs : List (GV V E)) : Option (Action × GV V E) :=
  if f = chars% "grpc.Dial" then match vs with
    | .str a :: r => (options r).map fun o => (.dial a o, .conn .grpc a)
    | _ => none
  else if f = chars% "nats.Connect" then match vs with
    | [.str a] => some (.connect a, .conn .nats a)
    | _ => none
  else if f = chars% "pb.NewGRPCClient" then match vs with
    | [.conn .grpc a] => some (.client .grpc a, .client .grpc a)
    | _ => none
  else if f = chars% "pb.NewHTTPClient" then match vs with
    | [.str a] => some (.client .http a, .client .http a)
    | _ => none
  else if f = chars% "pb.NewNATSClient" then match vs with
    | [.conn .nats a] => some (.client .nats a, .client .nats a)
    | _ => none
  else none

/-- A call with two results, the second an error. -/
def Call.two {V E} (w : World V E) (c : Call) (st : State V E) : Option (Action × GV V E × Option E) :=
  match c.fn, evalArgs st c.args with
  | .fn f, some vs => (action f vs).map fun p => match w.fails st.trace p.1 with
    | some e => (p.1, .nil, some e)
    | none => (p.1, p.2, none)
  | .method x f, some [.obj _, .ptr ty] => match variable? st x with
    | some (.client k a) => match w.fails st.trace (.call k a f ty) with
      | some e => some (.call k a f ty, .nil, some e)
      | none => some (.call k a f ty, .out (w.reply st.trace (.call k a f ty)), none)
    | _ => none
  | _, _ => none

/-- After a block. -/
def State.leave {V E} (st st' : State V E) : State V E := { st' with inner := st.inner, outer := st.outer }

def State.enter {V E} (st : State V E) : State V E := { st with inner := [], outer := st.inner ++ st.outer }

/-- The execution of statements; `own` runs the functions of the program. -/
def Code.exec {V E} (w : World V E) (own : Str → Option (State V E → Except (Stop V E) (State V E))) :
    Code → State V E → Except (Stop V E) (State V E)
  | .done _, st => .ok st
  | .blank _ r, st => r.exec w own st
  | .comment _ _ r, st => r.exec w own st
  | .call _ c r, st => match c.fn, evalArgs st c.args with
    | .fn f, some vs => match (match own f, vs with | some body, [] => body st | some _, _ => .error .stuck | none, vs => callFn w f vs st) with
      | .ok st' => r.exec w own st'
      | .error e => .error e
    | _, _ => .error .stuck
  | .define _ x c r, st => match c.fn, c.args with
    | .fn f, [] => r.exec w own { st with inner := (x, .obj f) :: st.inner }
    | _, _ => .error .stuck
  | .define2 _ x y c r, st => match c.two w st with
    | none => .error .stuck
    | some (a, v, e) => r.exec w own { st with inner := (x, v) :: (y, .error e) :: st.inner, trace := st.trace ++ [.act a] }
  | .declare _ x ty r, st => r.exec w own { st with inner := (x, .msg ty) :: st.inner }
  | .ifErr _ x b r, st => match variable? st x with
    | some (.error none) => r.exec w own st
    | some (.error (some _)) => match b.exec w own st.enter with
      | .error e => .error e
      | .ok st' => r.exec w own (st.leave st')
    | _ => .error .stuck
  | .defer _ x f r, st => match variable? st x with
    | some (.conn k a) => if f = chars% "Close" then r.exec w own { st with deferred := (k, a) :: st.deferred } else .error .stuck
    | _ => .error .stuck
  | .block _ b r, st => match b.exec w own st.enter with
    | .error e => .error e
    | .ok st' => r.exec w own (st.leave st')

/-- What a process did: its exit status, and what happened. -/
structure Outcome where
  code : Nat
  trace : List Event
  deriving Repr, DecidableEq

/-- The functions of a program that are called. -/
def Program.own {V E} (p : Program) (w : World V E) : Str → Option (State V E → Except (Stop V E) (State V E)) :=
  fun f => if f = p.helper then some fun st => match p.helperBody.exec w (fun _ => none) { st with inner := [], outer := [] } with
    | .ok st' => .ok (st.leave st')
    | .error e => .error e
  else none

/-- The process: `init`, then `main`, then the deferred calls; `none`: the program does not compile, or panics. -/
def Program.run {V E} (p : Program) (w : World V E) : Option Outcome :=
  if p.compiles = false then none
  else match p.init.exec w (p.own w) ⟨p.vars.map fun x => (x, []), [], [], [], [], []⟩ with
    | .error .stuck => none
    | .error (.exit n st) => some ⟨n, st.trace⟩
    | .ok st => match p.main.exec w (p.own w) { st with inner := [], outer := [] } with
      | .error .stuck => none
      | .error (.exit n st) => some ⟨n, st.trace⟩
      | .ok st => some ⟨0, st.trace ++ st.deferred.map fun d => .close d.1 d.2⟩

end Baron.GoCalls
