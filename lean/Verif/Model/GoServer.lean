import Verif.Model.Server
import Verif.Model.HTTPNames
import Verif.Spec.Texts

/-!
# A fragment of Go with goroutines: `Run` of the generated server, its text and its meaning

Not a model of code in /repo but of the language that `Run` (template/NAME-service/server/server.go.tmpl) and `Interrupt`
(server/interrupt.go.tmpl) are written in: goroutines, one channel of errors without buffer, calls of other packages. Of the functions
called, those that only build values are taken to return, their value being the term of the call; those whose error is used
(`errc <- f(…)`, `x, err := f(…)`, `err = f(…)`) may never return or return with any error or none. A goroutine starts with the
variables of `Run` at that time: none of those is assigned to again. Blocks do not declare variables. The process ends when `Run` returns
(cmd/NAME/main.go.tmpl: `server.Run(config)` is the last statement of `main`).
-/

namespace Baron.GoServer

open Baron.Server (Config)
open Baron.TT (literal)

/-! ## Syntax -/

/-- Arguments of calls. Literals are as they are written between the quotes. -/
inductive Atom where
  | id (x : Str)
  | text (s : Str)
  /-- `cfg.f` -/
  | field (f : Str)
  /-- `f()...` -/
  | options (f : Str)
  /-- `f(g)` for a function `g` of another package -/
  | conv (f g : Str)
  /-- `syscall.X` and the like -/
  | const (c : Str)

/-- What is called: a function, or a method of a variable. -/
inductive Callee where
  | fn (f : Str)
  | method (x f : Str)

/-- Arguments, each with the separator before it. -/
abbrev Args := List (Str × Atom)

/-- Statements. `ws` is the white space before a statement or a closing brace. -/
inductive Code where
  | done (ws : Str)
  | comment (ws s : Str) (rest : Code)
  /-- `x := make(ty)` -/
  | makeChan (ws x ty : Str) (rest : Code)
  /-- `x := f(…)` -/
  | define (ws x : Str) (f : Callee) (args : Args) (rest : Code)
  /-- `x, err := f(…)` -/
  | define2 (ws x : Str) (f : Callee) (args : Args) (rest : Code)
  /-- `err = f(…)` -/
  | assign (ws : Str) (f : Callee) (args : Args) (rest : Code)
  /-- `x := f("s", <-c)` -/
  | receive (ws x f s c : Str) (rest : Code)
  /-- `x := func(param) {body}`, a function that is only passed on -/
  | closure (ws x param body : Str) (rest : Code)
  /-- `f(…)` -/
  | call (ws : Str) (f : Callee) (args : Args) (rest : Code)
  /-- `log.Println(…)` -/
  | log (ws : Str) (args : Args) (rest : Code)
  /-- `log.Println("s", <-ch)` -/
  | logReceived (ws s ch : Str) (rest : Code)
  /-- `ch <- x` -/
  | send (ws ch x : Str) (rest : Code)
  /-- `ch <- f(…)` -/
  | sendCall (ws ch : Str) (f : Callee) (args : Args) (rest : Code)
  /-- `if err != nil {…}` -/
  | ifErr (ws : Str) (body rest : Code)
  /-- `return` -/
  | ret (ws : Str) (rest : Code)
  /-- `go func() {…}()` -/
  | goFunc (ws : Str) (body rest : Code)
  /-- `go f(x)`, a function of this package with one parameter -/
  | goCall (ws f x : Str) (rest : Code)
  /-- `if cfg.f {…}` -/
  | ifSet (ws f : Str) (body rest : Code)
  /-- `if cfg.f != "" {…}` -/
  | ifNonempty (ws f : Str) (body rest : Code)

/-! ## Text -/

def Atom.print : Atom → Str
  | .id x => x
  | .text s => chars% "\"" ++ (s ++ chars% "\"")
  | .field f => chars% "cfg." ++ f
  | .options f => f ++ chars% "()..."
  | .conv f g => f ++ (chars% "(" ++ (g ++ chars% ")"))
  | .const c => c

def Callee.print : Callee → Str
  | .fn f => f
  | .method x f => x ++ (chars% "." ++ f)

def printArgs (args : Args) : Str := args.flatMap fun a => a.1 ++ a.2.print

def printCall (f : Callee) (args : Args) : Str := f.print ++ (chars% "(" ++ (printArgs args ++ chars% ")"))

def Code.print : Code → Str
  | .done ws => ws
  | .comment ws s r => ws ++ (chars% "//" ++ (s ++ r.print))
  | .makeChan ws x ty r => ws ++ (x ++ (chars% " := make(" ++ (ty ++ (chars% ")" ++ r.print))))
  | .define ws x f args r => ws ++ (x ++ (chars% " := " ++ (printCall f args ++ r.print)))
  | .define2 ws x f args r => ws ++ (x ++ (chars% ", err := " ++ (printCall f args ++ r.print)))
  | .assign ws f args r => ws ++ (chars% "err = " ++ (printCall f args ++ r.print))
  | .receive ws x f s c r => ws ++ (x ++ (chars% " := " ++ (f ++ (chars% "(\"" ++ (s ++ (chars% "\", <-" ++ (c ++ (chars% ")" ++ r.print))))))))
  | .closure ws x p b r => ws ++ (x ++ (chars% " := func(" ++ (p ++ (chars% ") {" ++ (b ++ (chars% "}" ++ r.print))))))
  | .call ws f args r => ws ++ (printCall f args ++ r.print)
  | .log ws args r => ws ++ (chars% "log.Println(" ++ (printArgs args ++ (chars% ")" ++ r.print)))
  | .logReceived ws s ch r => ws ++ (chars% "log.Println(\"" ++ (s ++ (chars% "\", <-" ++ (ch ++ (chars% ")" ++ r.print)))))
  | .send ws ch x r => ws ++ (ch ++ (chars% " <- " ++ (x ++ r.print)))
  | .sendCall ws ch f args r => ws ++ (ch ++ (chars% " <- " ++ (printCall f args ++ r.print)))
  | .ifErr ws b r => ws ++ (chars% "if err != nil {" ++ (b.print ++ (chars% "}" ++ r.print)))
  | .ret ws r => ws ++ (chars% "return" ++ r.print)
  | .goFunc ws b r => ws ++ (chars% "go func() {" ++ (b.print ++ (chars% "}()" ++ r.print)))
  | .goCall ws f x r => ws ++ (chars% "go " ++ (f ++ (chars% "(" ++ (x ++ (chars% ")" ++ r.print)))))
  | .ifSet ws f b r => ws ++ (chars% "if cfg." ++ (f ++ (chars% " {" ++ (b.print ++ (chars% "}" ++ r.print)))))
  | .ifNonempty ws f b r => ws ++ (chars% "if cfg." ++ (f ++ (chars% " != \"\" {" ++ (b.print ++ (chars% "}" ++ r.print)))))

/-- A function with one parameter. -/
structure Func where
  name : Str
  param : Str
  type : Str
  body : Code

def Func.print (f : Func) : Str := chars% "func " ++ (f.name ++ (chars% "(" ++ (f.param ++ (chars% " " ++ (f.type ++ (chars% ") {" ++ (f.body.print ++
  chars% "}\n")))))))

/-! ## Meaning -/

/-- Values. `obj f args` is what the call of `f` with `args` (a method's receiver first) has built. -/
inductive GV (E : Type) where
  | str (s : Str)
  | chan (x : Str)
  | error (e : Option E)
  | obj (f : Str) (args : List (GV E))
  | func (x : Str)

/-- The literal's value. -/
def unquote (s : Str) : Option Str := match literal (s ++ ['"']) with
  | some (v, []) => some v
  | _ => none

variable {E : Type}

abbrev Vars (E : Type) := List (Str × GV E)

/-- A field of `cfg` of type string. -/
def get (c : Config) (f : Str) : Option Str :=
  if f = chars% "HTTPAddr" then some c.httpAddr
  else if f = chars% "DebugAddr" then some c.debugAddr
  else if f = chars% "GRPCAddr" then some c.grpcAddr
  else if f = chars% "NATSAddr" then some c.natsAddr
  else none

def Atom.eval (c : Config) (vars : Vars E) : Atom → Option (GV E)
  | .id x => HTTP.look vars x
  | .text s => (unquote s).map .str
  | .field f => (get c f).map .str
  | .options f => some (.obj f [])
  | .conv f g => some (.obj f [.func g])
  | .const s => some (.func s)

/-- A call that is made: the function and the values of its arguments, a method's receiver first. -/
def evalCall (c : Config) (vars : Vars E) (f : Callee) (args : Args) : Option (Str × List (GV E)) :=
  match f, args.mapM (fun a => a.2.eval c vars) with
  | .fn f, some vs => some (f, vs)
  | .method x f, some vs => (HTTP.look vars x).map fun v => (f, v :: vs)
  | _, none => none

/-- What a goroutine does that others can see. -/
inductive Act (E : Type) where
  | log (vs : List (GV E))
  /-- a call that returns nothing that is used -/
  | does (f : Str) (vs : List (GV E))
  /-- a call whose error is used begins -/
  | calls (f : Str) (vs : List (GV E))
  /-- it returns -/
  | returns (e : Option E)
  /-- a value has been received from a channel of its own -/
  | receives (e : E)
  /-- nothing that can be seen -/
  | silent

/-- `waiting`: in a call whose error is used; `offering`: about to send the value such a call has returned. -/
inductive Phase (E : Type) where
  | ready
  | waiting (obj : GV E)
  | offering (e : Option E)

/-- A goroutine: what it is still to do (the innermost block first). -/
structure Thread (E : Type) where
  code : List Code
  vars : Vars E
  phase : Phase E

/-- A step of a goroutine on its own. -/
inductive TStep (c : Config) : Thread E → Act E → Thread E → Prop where
  | pop {ws : Str} {k : List Code} {vs : Vars E} : TStep c ⟨.done ws :: k, vs, .ready⟩ .silent ⟨k, vs, .ready⟩
  | comment {ws s : Str} {r : Code} {k : List Code} {vs : Vars E} : TStep c ⟨.comment ws s r :: k, vs, .ready⟩ .silent ⟨r :: k, vs, .ready⟩
  | makeChan {ws x ty : Str} {r : Code} {k : List Code} {vs : Vars E} :
    TStep c ⟨.makeChan ws x ty r :: k, vs, .ready⟩ .silent ⟨r :: k, (x, .chan x) :: vs, .ready⟩
  | define {ws x : Str} {f : Callee} {args : Args} {r : Code} {k : List Code} {vs : Vars E} {g : Str} {us : List (GV E)} :
    evalCall c vs f args = some (g, us) →
    TStep c ⟨.define ws x f args r :: k, vs, .ready⟩ .silent ⟨r :: k, (x, .obj g us) :: vs, .ready⟩
  | define2 {ws x : Str} {f : Callee} {args : Args} {r : Code} {k : List Code} {vs : Vars E} {g : Str} {us : List (GV E)} :
    evalCall c vs f args = some (g, us) →
    TStep c ⟨.define2 ws x f args r :: k, vs, .ready⟩ (.calls g us) ⟨.define2 ws x f args r :: k, vs, .waiting (.obj g us)⟩
  | defined2 {ws x : Str} {f : Callee} {args : Args} {r : Code} {k : List Code} {vs : Vars E} {o : GV E} {e : Option E} :
    TStep c ⟨.define2 ws x f args r :: k, vs, .waiting o⟩ (.returns e) ⟨r :: k, (x, o) :: (chars% "err", .error e) :: vs, .ready⟩
  | assign {ws : Str} {f : Callee} {args : Args} {r : Code} {k : List Code} {vs : Vars E} {g : Str} {us : List (GV E)} :
    evalCall c vs f args = some (g, us) →
    TStep c ⟨.assign ws f args r :: k, vs, .ready⟩ (.calls g us) ⟨.assign ws f args r :: k, vs, .waiting (.obj g us)⟩
  | assigned {ws : Str} {f : Callee} {args : Args} {r : Code} {k : List Code} {vs : Vars E} {o : GV E} {e : Option E} :
    TStep c ⟨.assign ws f args r :: k, vs, .waiting o⟩ (.returns e) ⟨r :: k, (chars% "err", .error e) :: vs, .ready⟩
  | receive {ws x f s ch : Str} {r : Code} {k : List Code} {vs : Vars E} {y : Str} {e : E} : HTTP.look vs ch = some (.chan y) →
    TStep c ⟨.receive ws x f s ch r :: k, vs, .ready⟩ (.receives e) ⟨r :: k, (x, .error (some e)) :: vs, .ready⟩
  | closure {ws x p b : Str} {r : Code} {k : List Code} {vs : Vars E} :
    TStep c ⟨.closure ws x p b r :: k, vs, .ready⟩ .silent ⟨r :: k, (x, .func x) :: vs, .ready⟩
  | call {ws : Str} {f : Callee} {args : Args} {r : Code} {k : List Code} {vs : Vars E} {g : Str} {us : List (GV E)} :
    evalCall c vs f args = some (g, us) →
    TStep c ⟨.call ws f args r :: k, vs, .ready⟩ (.does g us) ⟨r :: k, vs, .ready⟩
  | log {ws : Str} {args : Args} {r : Code} {k : List Code} {vs : Vars E} {us : List (GV E)} :
    args.mapM (fun a => a.2.eval c vs) = some us →
    TStep c ⟨.log ws args r :: k, vs, .ready⟩ (.log us) ⟨r :: k, vs, .ready⟩
  | sendCall {ws ch : Str} {f : Callee} {args : Args} {r : Code} {k : List Code} {vs : Vars E} {g : Str} {us : List (GV E)} :
    evalCall c vs f args = some (g, us) →
    TStep c ⟨.sendCall ws ch f args r :: k, vs, .ready⟩ (.calls g us) ⟨.sendCall ws ch f args r :: k, vs, .waiting (.obj g us)⟩
  | sendCalled {ws ch : Str} {f : Callee} {args : Args} {r : Code} {k : List Code} {vs : Vars E} {o : GV E} {e : Option E} :
    TStep c ⟨.sendCall ws ch f args r :: k, vs, .waiting o⟩ (.returns e) ⟨.sendCall ws ch f args r :: k, vs, .offering e⟩
  | isErr {ws : Str} {b r : Code} {k : List Code} {vs : Vars E} {e : E} : HTTP.look vs (chars% "err") = some (.error (some e)) →
    TStep c ⟨.ifErr ws b r :: k, vs, .ready⟩ .silent ⟨b :: r :: k, vs, .ready⟩
  | noErr {ws : Str} {b r : Code} {k : List Code} {vs : Vars E} : HTTP.look vs (chars% "err") = some (.error none) →
    TStep c ⟨.ifErr ws b r :: k, vs, .ready⟩ .silent ⟨r :: k, vs, .ready⟩
  | ret {ws : Str} {r : Code} {k : List Code} {vs : Vars E} : TStep c ⟨.ret ws r :: k, vs, .ready⟩ .silent ⟨[], vs, .ready⟩
  | ifSet {ws : Str} {b r : Code} {k : List Code} {vs : Vars E} :
    TStep c ⟨.ifSet ws (chars% "Debug") b r :: k, vs, .ready⟩ .silent ⟨if c.debug then b :: r :: k else r :: k, vs, .ready⟩
  | ifNonempty {ws f v : Str} {b r : Code} {k : List Code} {vs : Vars E} : get c f = some v →
    TStep c ⟨.ifNonempty ws f b r :: k, vs, .ready⟩ .silent ⟨if v ≠ [] then b :: r :: k else r :: k, vs, .ready⟩

/-- What a goroutine is ready to send, and on which channel. -/
inductive Offers : Thread E → Str → Option E → Prop where
  | value {ws ch x y : Str} {r : Code} {k : List Code} {vs : Vars E} {e : Option E} :
    HTTP.look vs ch = some (.chan y) → HTTP.look vs x = some (.error e) → Offers ⟨.send ws ch x r :: k, vs, .ready⟩ y e
  | result {ws ch y : Str} {f : Callee} {args : Args} {r : Code} {k : List Code} {vs : Vars E} {e : Option E} :
    HTTP.look vs ch = some (.chan y) → Offers ⟨.sendCall ws ch f args r :: k, vs, .offering e⟩ y e

/-- The process: `Run` itself, the goroutines by number, the senders waiting at the channel `errc` in the order in which they came, and the
number and value of the one that was received when `Run` returned. -/
structure State (E : Type) where
  main : Thread E
  threads : List (Thread E)
  queue : List (Nat × Option E)
  exited : Option (Nat × Option E)

/-- What happens: goroutine `i` (`none`: `Run`) does something on its own, a goroutine is started, one comes to the channel, `Run` receives. -/
inductive Event (E : Type) where
  | acts (i : Option Nat) (a : Act E)
  | starts
  | sends (i : Nat) (e : Option E)
  | exits (i : Nat) (e : Option E)

/-- A goroutine that has come to the channel: it goes on only when `Run` receives, and then the process ends. -/
def blocked (vars : Vars E) : Thread E := ⟨[], vars, .ready⟩

/-- A step of the process. `fs` are the functions of the package. A goroutine that waits at the channel is not resumed: what is received is
received by the last statement of `Run`. -/
inductive Step (fs : List Func) (c : Config) : State E → Event E → State E → Prop where
  | main {m m' : Thread E} {ts : List (Thread E)} {q : List (Nat × Option E)} {a : Act E} : TStep c m a m' →
    Step fs c ⟨m, ts, q, none⟩ (.acts none a) ⟨m', ts, q, none⟩
  | goFunc {ws : Str} {b r : Code} {k : List Code} {vs : Vars E} {ts : List (Thread E)} {q : List (Nat × Option E)} :
    Step fs c ⟨⟨.goFunc ws b r :: k, vs, .ready⟩, ts, q, none⟩ .starts ⟨⟨r :: k, vs, .ready⟩, ts ++ [⟨[b], vs, .ready⟩], q, none⟩
  | goCall {ws x : Str} {v : GV E} {fn : Func} {r : Code} {k : List Code} {vs : Vars E} {ts : List (Thread E)} {q : List (Nat × Option E)} :
    fn ∈ fs → HTTP.look vs x = some v →
    Step fs c ⟨⟨.goCall ws fn.name x r :: k, vs, .ready⟩, ts, q, none⟩ .starts
      ⟨⟨r :: k, vs, .ready⟩, ts ++ [⟨[fn.body], [(fn.param, v)], .ready⟩], q, none⟩
  | thread {m t t' : Thread E} {ts : List (Thread E)} {q : List (Nat × Option E)} {a : Act E} {i : Nat} : ts[i]? = some t → TStep c t a t' →
    Step fs c ⟨m, ts, q, none⟩ (.acts (some i) a) ⟨m, ts.set i t', q, none⟩
  | send {m t : Thread E} {ts : List (Thread E)} {q : List (Nat × Option E)} {e : Option E} {i : Nat} : ts[i]? = some t →
    Offers t (chars% "errc") e → Step fs c ⟨m, ts, q, none⟩ (.sends i e) ⟨m, ts.set i (blocked t.vars), q ++ [(i, e)], none⟩
  | receive {ws s ch : Str} {r : Code} {k : List Code} {vs : Vars E} {ts : List (Thread E)} {q : List (Nat × Option E)} {e : Option E} {i : Nat} :
    HTTP.look vs ch = some (.chan (chars% "errc")) →
    Step fs c ⟨⟨.logReceived ws s ch r :: k, vs, .ready⟩, ts, (i, e) :: q, none⟩ (.exits i e)
      ⟨⟨r :: k, vs, .ready⟩, ts, q, some (i, e)⟩

/-- Executions, with what happened, oldest first. -/
inductive Exec (fs : List Func) (c : Config) (s₀ : State E) : List (Event E) → State E → Prop where
  | nil : Exec fs c s₀ [] s₀
  | step {l : List (Event E)} {s s' : State E} {ev : Event E} : Exec fs c s₀ l s → Step fs c s ev s' → Exec fs c s₀ (l ++ [ev]) s'

/-- A call of `Run`. -/
def State.call (run : Func) : State E := ⟨⟨[run.body], [], .ready⟩, [], [], none⟩

end Baron.GoServer
