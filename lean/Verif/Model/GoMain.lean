import Verif.Model.HTTPCode
import Verif.Model.Server
import Verif.Spec.Texts

/-!
# A fragment of Go: the command of the generated server, its text and its meaning

Not a model of code in /repo but of the language and the libraries its generated `cmd/NAME/main.go` uses: `flag` (Go 1.15 and
later; the source of `FlagSet.parseOne`, `Parse`, `stringValue.Set` and `boolValue.Set`), `os.Getenv`, `fmt.Sprintf` with one `%s`,
`fmt.Println`, `strings.ToLower`. Programs that do not compile, or panic, get stuck. Simplifications: no imported package registers flags of
its own; what the flag package prints is left out; `server.Run` returns (what it does is C56).
-/

namespace Baron.GoMain

open Baron.Server (Config)
open Baron.HTTP (look)
open Baron.HTTPCode (parseBool)
open Baron.TT (literal)

/-! ## Syntax -/

inductive Expr where
  | id (x : Str)
  | bool (b : Bool)
  /-- a string literal, as it is written between the quotes -/
  | text (s : Str)
  /-- `config.F` -/
  | field (f : Str)
  | call1 (f : Str) (a : Expr)
  | call2 (f : Str) (a b : Expr)
  /-- `a op b` -/
  | bin (a : Expr) (op : Str) (b : Expr)
  deriving Repr, DecidableEq

/-- Statements. `ws` is the white space before a statement or a closing brace. -/
inductive Code where
  | done (ws : Str)
  /-- `fn(&config.F, name, dflt, usage)` -/
  | register (ws fn f : Str) (name dflt usage : Expr) (rest : Code)
  /-- `if x := e; c {…}` -/
  | condInit (ws x : Str) (e c : Expr) (body rest : Code)
  /-- `if c {…}` -/
  | cond (ws : Str) (c : Expr) (body rest : Code)
  /-- `config.F = e` -/
  | set (ws f : Str) (e : Expr) (rest : Code)
  /-- `f()` -/
  | call0 (ws f : Str) (rest : Code)
  /-- `f(a)` -/
  | call (ws f : Str) (a : Expr) (rest : Code)
  /-- `// …` up to the end of the line -/
  | comment (ws s : Str) (rest : Code)
  deriving Repr, DecidableEq

/-- A command: what comes before and after the path of the server package in the head of the file, and its two functions. -/
structure Program where
  importPath : Str
  init : Code
  main : Code

/-! ## Text -/

def Expr.print : Expr → Str
  | .id x => x
  | .bool b => if b then chars% "true" else chars% "false"
  | .text s => chars% "\"" ++ (s ++ ['"'])
  | .field f => chars% "config." ++ f
  | .call1 f a => f ++ (chars% "(" ++ (a.print ++ [')']))
  | .call2 f a b => f ++ (chars% "(" ++ (a.print ++ (chars% ", " ++ (b.print ++ [')']))))
  | .bin a op b => a.print ++ (chars% " " ++ (op ++ (chars% " " ++ b.print)))

def Code.print : Code → Str
  | .done ws => ws
  | .register ws fn f n d u r => ws ++ (fn ++ (chars% "(&config." ++ (f ++ (chars% ", " ++ (n.print ++ (chars% ", " ++ (d.print ++
      (chars% ", " ++ (u.print ++ (chars% ")" ++ r.print))))))))))
  | .condInit ws x e c b r => ws ++ (chars% "if " ++ (x ++ (chars% " := " ++ (e.print ++ (chars% "; " ++ (c.print ++ (chars% " {" ++
      (b.print ++ (chars% "}" ++ r.print)))))))))
  | .cond ws c b r => ws ++ (chars% "if " ++ (c.print ++ (chars% " {" ++ (b.print ++ (chars% "}" ++ r.print)))))
  | .set ws f e r => ws ++ (chars% "config." ++ (f ++ (chars% " = " ++ (e.print ++ r.print))))
  | .call0 ws f r => ws ++ (f ++ (chars% "()" ++ r.print))
  | .call ws f a r => ws ++ (f ++ (chars% "(" ++ (a.print ++ (chars% ")" ++ r.print))))
  | .comment ws s r => ws ++ (chars% "//" ++ (s ++ r.print))

def Program.print (p : Program) : Str :=
  chars% "package main\n\nimport (\n\t\"flag\"\n\t\"fmt\"\n\t\"os\"\n\t\"strings\"\n\n\t\"" ++ (p.importPath ++
    (chars% "\"\n)\n\nvar config server.Config\n\nfunc init() {" ++ (p.init.print ++ (chars% "}\n\nfunc main() {" ++ (p.main.print ++ chars% "}\n")))))

/-! ## Meaning -/

inductive GV where
  | str (s : Str)
  | bool (b : Bool)
  | config (c : Config)

/-- A field of `config`. -/
def get (c : Config) (f : Str) : Option GV :=
  if f = chars% "HTTPAddr" then some (.str c.httpAddr)
  else if f = chars% "DebugAddr" then some (.str c.debugAddr)
  else if f = chars% "GRPCAddr" then some (.str c.grpcAddr)
  else if f = chars% "NATSAddr" then some (.str c.natsAddr)
  else if f = chars% "Debug" then some (.bool c.debug)
  else none

/-- An assignment to a field of `config`; `none`: it does not compile. -/
def put (c : Config) (f : Str) : GV → Option Config
  | .str v =>
    if f = chars% "HTTPAddr" then some { c with httpAddr := v }
    else if f = chars% "DebugAddr" then some { c with debugAddr := v }
    else if f = chars% "GRPCAddr" then some { c with grpcAddr := v }
    else if f = chars% "NATSAddr" then some { c with natsAddr := v }
    else none
  | .bool b => if f = chars% "Debug" then some { c with debug := b } else none
  | .config _ => none

/-- What the process is started with: `os.Getenv` (empty for a variable that is not set), and `os.Args[1:]`. -/
structure World where
  env : Str → Str
  args : List Str

/-- `flags`: names of the registered flags, their fields, and whether they are switches. -/
structure State where
  config : Config
  flags : List (Str × Str × Bool)
  vars : List (Str × GV)
  printed : List Str
  /-- the configurations `server.Run` was called with -/
  ran : List Config

/-- How the execution of statements ends early. -/
inductive Stop where
  | stuck
  | exit (code : Nat) (st : State)

/-- The literal's value. -/
def unquote (s : Str) : Option Str := match literal (s ++ ['"']) with
  | some (v, []) => some v
  | _ => none

/-- `fmt.Sprintf(f, s)` for a format with one verb, `%s`; `none` for other formats. -/
def sprintf : Str → Str → Option Str
  | '%' :: 's' :: r, v => if '%' ∈ r then none else some (v ++ r)
  | '%' :: _, _ => none
  | c :: r, v => (sprintf r v).map (c :: ·)
  | [], _ => none

def Expr.eval (w : World) (st : State) : Expr → Option GV
  | .id x => if x = chars% "config" then some (.config st.config) else look st.vars x
  | .bool b => some (.bool b)
  | .text s => (unquote s).map .str
  | .field f => get st.config f
  | .call1 f a => match a.eval w st with
    | some (.str s) =>
      if f = chars% "os.Getenv" then some (.str (w.env s))
      else if f = chars% "strings.ToLower" then some (.str (toLower s))
      else none
    | _ => none
  | .call2 f a b => match a.eval w st, b.eval w st with
    | some (.str s), some (.str v) => if f = chars% "fmt.Sprintf" then (sprintf s v).map .str else none
    | _, _ => none
  | .bin a op b => match a.eval w st, b.eval w st with
    | some (.str s), some (.str v) =>
      if op = chars% "==" then some (.bool (decide (s = v))) else if op = chars% "!=" then some (.bool (decide (s ≠ v))) else none
    | some (.bool x), some (.bool y) => if op = chars% "&&" then some (.bool (x && y)) else none
    | _, _ => none

/-- How `parseOne` reads an argument. -/
inductive Arg where
  /-- not a flag: the flags end here -/
  | stop
  | bad
  | flag (name : Str) (value : Option Str)
  deriving Repr, DecidableEq

/-- The loop of `parseOne` that looks for `=`, from the second character on. -/
def cutEq : Str → Str × Option Str
  | [] => ([], none)
  | c :: r => if c = '=' then ([], some r) else (c :: (cutEq r).1, (cutEq r).2)

/-- flag.go `parseOne` up to the look-up of the flag, on the argument after its dashes. -/
def nameValue : Str → Arg
  | [] => .bad
  | c :: r => if c = '-' ∨ c = '=' then .bad else .flag (c :: (cutEq r).1) (cutEq r).2

def argument : Str → Arg
  | '-' :: '-' :: [] => .stop
  | '-' :: '-' :: r => nameValue r
  | '-' :: [] => .stop
  | '-' :: r => nameValue r
  | _ => .stop

/-- `FlagSet.Parse` with `ExitOnError`: `error` is the exit status. -/
def parseArgs (flags : List (Str × Str × Bool)) (c : Config) : List Str → Except Nat Config
  | [] => .ok c
  | s :: r => match argument s with
    | .stop => .ok c
    | .bad => .error 2
    | .flag n value => match look flags n with
      | none => .error (if n = chars% "help" ∨ n = chars% "h" then 0 else 2)
      | some (f, true) =>
        match (match value with | none => some true | some v => parseBool v) with
        | none => .error 2
        | some b => match put c f (.bool b) with
          | none => .error 2
          | some c' => parseArgs flags c' r
      | some (f, false) => match value, r with
        | some v, r => match put c f (.str v) with
          | none => .error 2
          | some c' => parseArgs flags c' r
        | none, v :: r' => match put c f (.str v) with
          | none => .error 2
          | some c' => parseArgs flags c' r'
        | none, [] => .error 2

/-- The execution of statements. -/
def Code.exec (w : World) : Code → State → Except Stop State
  | .done _, st => .ok st
  | .register _ fn f n d u r, st => match n.eval w st, d.eval w st, u.eval w st with
    | some (.str name), some dv, some (.str _) =>
      match look st.flags name, put st.config f dv, (if fn = chars% "flag.StringVar" then some false
          else if fn = chars% "flag.BoolVar" then some true else none), dv with
      | none, some c, some false, .str _ => r.exec w { st with config := c, flags := st.flags ++ [(name, f, false)] }
      | none, some c, some true, .bool _ => r.exec w { st with config := c, flags := st.flags ++ [(name, f, true)] }
      | _, _, _, _ => .error .stuck
    | _, _, _ => .error .stuck
  | .condInit _ x e c b r, st => match e.eval w st with
    | none => .error .stuck
    | some v => match c.eval w { st with vars := (x, v) :: st.vars } with
      | some (.bool true) => match b.exec w { st with vars := (x, v) :: st.vars } with
        | .error e => .error e
        | .ok st' => r.exec w { st' with vars := st.vars }
      | some (.bool false) => r.exec w st
      | _ => .error .stuck
  | .cond _ c b r, st => match c.eval w st with
    | some (.bool true) => match b.exec w st with
      | .error e => .error e
      | .ok st' => r.exec w { st' with vars := st.vars }
    | some (.bool false) => r.exec w st
    | _ => .error .stuck
  | .set _ f e r, st => match e.eval w st with
    | none => .error .stuck
    | some v => match put st.config f v with
      | none => .error .stuck
      | some c => r.exec w { st with config := c }
  | .call0 _ f r, st =>
    if f = chars% "flag.Parse" then
      match parseArgs st.flags st.config w.args with
      | .error n => .error (.exit n st)
      | .ok c => r.exec w { st with config := c }
    else .error .stuck
  | .call _ f a r, st => match a.eval w st with
    | some (.str s) => if f = chars% "fmt.Println" then r.exec w { st with printed := st.printed ++ [s] } else .error .stuck
    | some (.config c) => if f = chars% "server.Run" then r.exec w { st with ran := st.ran ++ [c] } else .error .stuck
    | _ => .error .stuck
  | .comment _ _ r, st => r.exec w st

/-- What a process did: its exit status, what it printed on standard output, and the configurations it ran the server with. -/
structure Outcome where
  code : Nat
  printed : List Str
  ran : List Config
  deriving Repr, DecidableEq

/-- The process: `init`, then `main`; `none`: the program does not compile, or panics. -/
def Program.run (p : Program) (w : World) : Option Outcome :=
  match p.init.exec w ⟨⟨[], [], [], [], false⟩, [], [], [], []⟩ with
  | .error .stuck => none
  | .error (.exit n st) => some ⟨n, st.printed, st.ran⟩
  | .ok st => match p.main.exec w { st with vars := [] } with
    | .error .stuck => none
    | .error (.exit n st) => some ⟨n, st.printed, st.ran⟩
    | .ok st => some ⟨0, st.printed, st.ran⟩

end Baron.GoMain
