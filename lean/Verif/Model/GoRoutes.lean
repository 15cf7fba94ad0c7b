import Verif.Model.GoHTTP
import Verif.Model.Transport
import Verif.Spec.Texts

/-!
# A fragment of Go for the functions that connect a service to HTTP, and what go-kit and gorilla/mux do with what they build

Not a model of code in /repo but of the language that `MakeHTTPHandler` and `NewHTTPClient` are written in, and of what they use of
the standard library, go-kit 0.10 and gorilla/mux 1.8. A name that is no variable is a function of the package, known by its name. `E` are values
that come from outside: endpoints and options. A chain of calls that begins at a router adds a route when it gets its handler. An
expression without meaning is `stuck`, which the theorems exclude. At the end are the functions themselves.
-/

namespace Baron.GoRoutes

open Baron.HTTP (look)
open Baron.Runtime (Header Err headerSet)
open Baron.GoHTTP (printNames printParams URL Ctx)
open Baron.TT (literal httpRpcs numbered)
open Baron.Svcdef (Service ServiceMethod HTTPBinding)

/-! ## Syntax -/

mutual
inductive Expr where
  | nil
  /-- a string literal, with the text between its quotes -/
  | quoted (s : Str)
  | id (x : Str)
  /-- `x.f` -/
  | sel (x f : Str)
  /-- `!e` -/
  | not (e : Expr)
  /-- `x != nil` -/
  | isSet (x : Str)
  /-- `a + b` -/
  | plus (a b : Expr)
  | call (f : Str) (args : Args)
  | method (e : Expr) (f : Str) (args : Args)
  /-- `[]t{…}` -/
  | list (t : Str) (entries : Args)
  /-- `t{…}` -/
  | lit (t : Str) (entries : Args)

/-- Arguments, or the entries of a literal. -/
inductive Args where
  | done (ws : Str)
  | arg (ws : Str) (e : Expr) (after : Str) (rest : Args)
  /-- `name: e` -/
  | named (ws name colon : Str) (e : Expr) (after : Str) (rest : Args)
  /-- `x...` -/
  | spread (ws x after : Str) (rest : Args)
  /-- white space -/
  | space (ws : Str) (rest : Args)
end

/-- Statements. `ws` is the white space before a statement or a closing brace. -/
inductive Code where
  | done (ws : Str)
  /-- white space -/
  | space (ws : Str) (rest : Code)
  /-- `{…}` -/
  | block (ws : Str) (body rest : Code)
  /-- `x, … := e` -/
  | define (ws : Str) (xs : List Str) (e : Expr) (rest : Code)
  /-- `x = e` -/
  | assign (ws x : Str) (e : Expr) (rest : Code)
  /-- `var x t` -/
  | var (ws x t : Str) (rest : Code)
  /-- a call, for what it does -/
  | run (ws : Str) (e : Expr) (rest : Code)
  | ifThen (ws : Str) (c : Expr) (body rest : Code)
  /-- `return …` -/
  | ret (ws : Str) (vals : Args) (rest : Code)

/-! ## Text -/

mutual
def Expr.print : Expr → Str
  | .nil => chars% "nil"
  | .quoted s => '"' :: (s ++ ['"'])
  | .id x => x
  | .sel x f => x ++ ('.' :: f)
  | .not e => '!' :: e.print
  | .isSet x => x ++ chars% " != nil"
  | .plus a b => a.print ++ (chars% " + " ++ b.print)
  | .call f args => f ++ ('(' :: (args.print ++ [')']))
  | .method e f args => e.print ++ ('.' :: (f ++ ('(' :: (args.print ++ [')']))))
  | .list t es => chars% "[]" ++ (t ++ ('{' :: (es.print ++ ['}'])))
  | .lit t es => t ++ ('{' :: (es.print ++ ['}']))

def Args.print : Args → Str
  | .done ws => ws
  | .arg ws e after r => ws ++ (e.print ++ (after ++ r.print))
  | .named ws x colon e after r => ws ++ (x ++ (colon ++ (e.print ++ (after ++ r.print))))
  | .spread ws x after r => ws ++ (x ++ (chars% "..." ++ (after ++ r.print)))
  | .space ws r => ws ++ r.print
end

def Code.print : Code → Str
  | .done ws => ws
  | .space ws r => ws ++ r.print
  | .block ws b r => ws ++ ('{' :: (b.print ++ ('}' :: r.print)))
  | .define ws xs e r => ws ++ (printNames xs ++ (chars% " := " ++ (e.print ++ r.print)))
  | .assign ws x e r => ws ++ (x ++ (chars% " = " ++ (e.print ++ r.print)))
  | .var ws x t r => ws ++ (chars% "var " ++ (x ++ (' ' :: (t ++ r.print))))
  | .run ws e r => ws ++ (e.print ++ r.print)
  | .ifThen ws c b r => ws ++ (chars% "if " ++ (c.print ++ (chars% " {" ++ (b.print ++ ('}' :: r.print)))))
  | .ret ws vs r => ws ++ (chars% "return " ++ (vs.print ++ r.print))

/-- A function; `results` is everything between the parameters and the body. -/
structure Func where
  name : Str
  params : List (Str × Str)
  results : Str
  body : Code

def Func.print (f : Func) : Str :=
  chars% "func " ++ (f.name ++ ('(' :: (printParams f.params ++ (chars% ") " ++ (f.results ++ ('{' :: (f.body.print ++ ['}'])))))))

/-! ## Meaning -/

inductive Val (E : Type) where
  | nil
  | bool (b : Bool)
  | text (s : Str)
  | err (e : Err)
  | url (u : URL)
  /-- a function of the package -/
  | func (f : Str)
  | list (l : List (Val E))
  | struct (t : Str) (fields : List (Str × Val E))
  | router
  /-- what the function `f` of a library has built -/
  | lib (f : Str) (args : List (Val E))
  | ext (a : E)

abbrev Vars (E : Type) := List (Str × Val E)

/-- A route of the router: verb, template and handler. -/
abbrev Routes (E : Type) := List (Str × Str × Val E)

/-- What functions change: the variables, the latest first, and the routes. -/
structure St (E : Type) where
  vars : Vars E
  routes : Routes E

inductive Ans (E α : Type) where
  | ok (a : α) (st : St E)
  | panic
  | stuck

def Ans.bind {E α β : Type} (x : Ans E α) (f : α → St E → Ans E β) : Ans E β :=
  match x with
  | .ok a st => f a st
  | .panic => .panic
  | .stuck => .stuck

/-- What the functions call. -/
structure World where
  /-- `url.Parse` -/
  parseURL : Str → Except Err URL
  /-- `copyURL` of the package -/
  copyURL : URL → Str → Option URL

variable {E : Type}

def setVar (x : Str) (v : Val E) : Vars E → Option (Vars E)
  | [] => none
  | p :: l => if p.1 = x then some ((x, v) :: l) else (setVar x v l).map (p :: ·)

/-- The variables on the left of `:=`. -/
def defVars : List Str → List (Val E) → Vars E → Option (Vars E)
  | [], [], vars => some vars
  | x :: xs, v :: vs, vars => defVars xs vs ((x, v) :: vars)
  | _, _, _ => none

def some? {α : Type} (o : Option α) (st : St E) : Ans E α := match o with
  | some a => .ok a st
  | none => .stuck

def one (vs : List (Val E)) (st : St E) : Ans E (Val E) := match vs with
  | [v] => .ok v st
  | _ => .stuck

def ident (vars : Vars E) (x : Str) : Val E := match look vars x with
  | some v => v
  | none => if x = chars% "contentType" then .text Runtime.contentType else .func x

/-- The fields of a struct that is not set under a name are nil. -/
def fieldOf (v : Val E) (f : Str) : Option (Val E) := match v with
  | .struct _ fields => some ((look fields f).getD .nil)
  | _ => none

def notOf : Val E → Option (Val E)
  | .bool b => some (.bool !b)
  | _ => none

def isSetOf : Val E → Option (Val E)
  | .nil => some (.bool false)
  | .err _ => some (.bool true)
  | _ => none

def plusOf : Val E → Val E → Option (Val E)
  | .text a, .text b => some (.text (a ++ b))
  | _, _ => none

/-- What `x...` contributes to arguments. -/
def spreadOf : Val E → Option (List (Val E))
  | .list l => some l
  | _ => none

/-- Functions of other packages, builtin functions, and `copyURL`. -/
def callOf (w : World) (f : Str) (args : List (Val E)) (st : St E) : Ans E (List (Val E)) :=
  if f = chars% "panic" then .panic
  else if f = chars% "append" then match args with
    | .list l :: r => .ok [.list (l ++ r)] st
    | _ => .stuck
  else if f = chars% "strings.HasPrefix" then match args with
    | [.text s, .text p] => .ok [.bool (p.isPrefixOf s)] st
    | _ => .stuck
  else if f = chars% "url.Parse" then match args with
    | [.text s] => match w.parseURL s with
      | .ok u => .ok [.url u, .nil] st
      | .error e => .ok [.nil, .err e] st
    | _ => .stuck
  else if f = chars% "copyURL" then match args with
    | [.url u, .text p] => (some? (w.copyURL u p) st).bind fun u st => .ok [.url u] st
    | _ => .stuck
  else if f = chars% "mux.NewRouter" then match args with
    | [] => .ok [.router] st
    | _ => .stuck
  else if f ∈ [chars% "httptransport.ServerBefore", chars% "httptransport.ServerErrorEncoder", chars% "httptransport.ServerAfter",
      chars% "httptransport.SetContentType", chars% "httptransport.NewServer", chars% "httptransport.NewClient"] then .ok [.lib f args] st
  else .stuck

/-- `e.f(v)`: the chain that adds a route, and the endpoint of a client. -/
def methodOf (v : Val E) (f : Str) (args : List (Val E)) (st : St E) : Ans E (List (Val E)) := match v, args with
  | .router, [.text verb] => if f = chars% "Methods" then .ok [.lib f [.text (toUpper verb)]] st else .stuck
  | .lib g [.text verb], [.text path] => if g = chars% "Methods" ∧ f = chars% "Path" then .ok [.lib f [.text verb, .text path]] st else .stuck
  | .lib g [.text verb, .text path], [h] =>
    if g = chars% "Path" ∧ f = chars% "Handler" then .ok [.lib f [.text verb, .text path, h]] { st with routes := st.routes ++ [(verb, path, h)] } else .stuck
  | .lib g as, [] => if g = chars% "httptransport.NewClient" ∧ f = chars% "Endpoint" then .ok [.lib (g ++ chars% ".Endpoint") as] st else .stuck
  | _, _ => .stuck

mutual
def Expr.eval (w : World) : Expr → St E → Ans E (List (Val E))
  | .nil, st => .ok [.nil] st
  | .quoted s, st => (some? (literal (s ++ ['"'])) st).bind fun v st => if v.2 = [] then .ok [.text v.1] st else .stuck
  | .id x, st => .ok [ident st.vars x] st
  | .sel x f, st => (some? (fieldOf (ident st.vars x) f) st).bind fun v st => .ok [v] st
  | .not e, st => (e.eval w st).bind fun vs st => (one vs st).bind fun v st => (some? (notOf v) st).bind fun v st => .ok [v] st
  | .isSet x, st => (some? (isSetOf (ident st.vars x)) st).bind fun v st => .ok [v] st
  | .plus a b, st => (a.eval w st).bind fun vs st => (one vs st).bind fun u st => (b.eval w st).bind fun vs st => (one vs st).bind fun v st =>
      (some? (plusOf u v) st).bind fun v st => .ok [v] st
  | .call f args, st => (args.eval w st).bind fun vs st => callOf w f vs st
  | .method e f args, st => (e.eval w st).bind fun vs st => (one vs st).bind fun v st => (args.eval w st).bind fun vs st => methodOf v f vs st
  | .list _ es, st => (es.eval w st).bind fun vs st => .ok [.list vs] st
  | .lit t es, st => (es.fields w st).bind fun fs st => .ok [.struct t fs] st

def Args.eval (w : World) : Args → St E → Ans E (List (Val E))
  | .done _, st => .ok [] st
  | .arg _ e _ r, st => (e.eval w st).bind fun vs st => (one vs st).bind fun v st => (r.eval w st).bind fun vs st => .ok (v :: vs) st
  | .named _ _ _ _ _ _, _ => .stuck
  | .spread _ x _ r, st => (some? (spreadOf (ident st.vars x)) st).bind fun l st => (r.eval w st).bind fun vs st => .ok (l ++ vs) st
  | .space _ r, st => r.eval w st

def Args.fields (w : World) : Args → St E → Ans E (List (Str × Val E))
  | .done _, st => .ok [] st
  | .named _ x _ e _ r, st => (e.eval w st).bind fun vs st => (one vs st).bind fun v st => (r.fields w st).bind fun fs st => .ok ((x, v) :: fs) st
  | .arg _ _ _ _, _ => .stuck
  | .spread _ _ _ _, _ => .stuck
  | .space _ r, st => r.fields w st
end

/-- After a statement: the next one, unless it returned. -/
def Ans.next (x : Ans E (Option (List (Val E)))) (f : St E → Ans E (Option (List (Val E)))) : Ans E (Option (List (Val E))) :=
  x.bind fun r st => match r with
    | some vs => .ok (some vs) st
    | none => f st

/-- The end of a block: the variables declared in it are gone, `n` are left. -/
def leave (n : Nat) (x : Ans E (Option (List (Val E)))) : Ans E (Option (List (Val E))) :=
  x.bind fun r st => .ok r { st with vars := st.vars.drop (st.vars.length - n) }

def branch (vs : List (Val E)) (st : St E) (body : St E → Ans E (Option (List (Val E)))) : Ans E (Option (List (Val E))) := match vs with
  | [.bool true] => body st
  | [.bool false] => .ok none st
  | _ => .stuck

/-- Assigning to a name; `_` takes any value. -/
def setOf (x : Str) (v : Val E) (vars : Vars E) : Option (Vars E) := if x = chars% "_" then some vars else setVar x v vars

/-- Statements: `some` values if they return. -/
def Code.exec (w : World) : Code → St E → Ans E (Option (List (Val E)))
  | .done _, st => .ok none st
  | .space _ r, st => r.exec w st
  | .block _ b r, st => (leave st.vars.length (b.exec w st)).next (r.exec w)
  | .define _ xs e r, st => (e.eval w st).bind fun vs st => (some? (defVars xs vs st.vars) st).bind fun vars st => r.exec w { st with vars := vars }
  | .assign _ x e r, st => (e.eval w st).bind fun vs st => (one vs st).bind fun v st => (some? (setOf x v st.vars) st).bind fun vars st =>
      r.exec w { st with vars := vars }
  | .var _ x _ r, st => r.exec w { st with vars := (x, .nil) :: st.vars }
  | .run _ e r, st => (e.eval w st).bind fun _ st => r.exec w st
  | .ifThen _ c b r, st => ((c.eval w st).bind fun vs st' => branch vs st' fun st' => leave st.vars.length (b.exec w st')).next (r.exec w)
  | .ret _ vs _, st => (vs.eval w st).bind fun vs st => .ok (some vs) st

/-- A call, with the parameters as variables: what it returns, and the routes of the router it has made. -/
def Func.run (w : World) (f : Func) (args : List (Val E)) : Ans E (List (Val E)) :=
  match defVars (f.params.map (·.1)) args [] with
  | none => .stuck
  | some vars => (f.body.exec w ⟨vars, []⟩).bind fun r st => .ok (r.getD []) st

/-! ## go-kit and gorilla/mux -/

/-- go-kit transport/http `Server`: functions before, content types that are set after, and the error encoder. -/
structure Srv where
  before : List Str
  contentTypes : List Str
  onError : Str

/-- What is not determined by the generated code: options of the caller, the decoders of requests, and the endpoints, which
run in a state. Errors are values of the program. -/
structure Env (M E S : Type) where
  option : E → Srv → Srv
  /-- the decoder of this name, for the variables of the path, in a context -/
  decode : Str → List (Str × Str) → Ctx → Except (GoHTTP.Val M) (GoHTTP.Val M)
  endpoint : E → Ctx → GoHTTP.Val M → S → Except (GoHTTP.Val M) (GoHTTP.Val M) × S

variable {M S : Type}

/-- transport/http/server.go `ServerBefore`, `ServerErrorEncoder`, `ServerAfter`. -/
def optionOf (env : Env M E S) (v : Val E) (s : Srv) : Option Srv := match v with
  | .lib f [.func g] =>
    if f = chars% "httptransport.ServerBefore" then some { s with before := s.before ++ [g] }
    else if f = chars% "httptransport.ServerErrorEncoder" then some { s with onError := g }
    else none
  | .lib f [.lib g [.text t]] =>
    if f = chars% "httptransport.ServerAfter" ∧ g = chars% "httptransport.SetContentType" then some { s with contentTypes := s.contentTypes ++ [t] }
    else none
  | .ext a => some (env.option a s)
  | _ => none

def optionsOf (env : Env M E S) : List (Val E) → Srv → Option Srv
  | [], s => some s
  | v :: l, s => (optionOf env v s).bind (optionsOf env l)

/-- What a request comes to. -/
inductive Outcome (M S : Type) where
  | answered (st : GoHTTP.St M) (s : S)
  | panicked (st : GoHTTP.St M) (s : S)
  /-- by the router, with this status -/
  | refused (code : Nat) (s : S)
  | redirected (s : S)
  | stuck

/-- The functions before, one after the other. -/
def befores (k : GoHTTP.Calls M) : List Str → Ctx → GoHTTP.St M → GoHTTP.Ans M Ctx
  | [], c, st => .ok c st
  | f :: l, c, st => match k.call f [.ctx c, .request] st with
    | .ok [.ctx c'] st => befores k l c' st
    | .panic st => .panic st
    | _ => .stuck

/-- `s.errorEncoder(ctx, err, w)` -/
def failed (k : GoHTTP.Calls M) (srv : Srv) (c : Ctx) (v : GoHTTP.Val M) (st : GoHTTP.St M) (s : S) : Outcome M S :=
  match k.call srv.onError [.ctx c, v, .writer] st with
  | .ok _ st => .answered st s
  | .panic st => .panicked st s
  | .stuck => .stuck

/-- After encoding. -/
def encoded (k : GoHTTP.Calls M) (srv : Srv) (c : Ctx) (v : GoHTTP.Val M) (st : GoHTTP.St M) (s : S) : Outcome M S := match v with
  | .nil => .answered st s
  | .err e => failed k srv c (.err e) st s
  | _ => .stuck

/-- transport/http/server.go `ServeHTTP`. -/
def serveHTTP (env : Env M E S) (k : GoHTTP.Calls M) (e : E) (dec enc : Str) (srv : Srv) (vars : List (Str × Str)) (c : Ctx) (st : GoHTTP.St M) (s : S) :
    Outcome M S :=
  match befores k srv.before c st with
  | .ok c st => match env.decode dec vars c with
    | .error v => failed k srv c v st s
    | .ok req => match env.endpoint e c req s with
      | (.error v, s) => failed k srv c v st s
      | (.ok resp, s) => match k.call enc [.ctx c, .writer, resp]
            { st with header := srv.contentTypes.foldl (fun h t => headerSet h (chars% "Content-Type") t) st.header } with
        | .ok [v] st => encoded k srv c v st s
        | .panic st => .panicked st s
        | _ => .stuck
  | .panic st => .panicked st s
  | .stuck => .stuck

/-- A handler made by `NewServer`. -/
def handle (env : Env M E S) (k : GoHTTP.Calls M) (h : Val E) (vars : List (Str × Str)) (c : Ctx) (st : GoHTTP.St M) (s : S) : Outcome M S := match h with
  | .lib f (.ext e :: .func dec :: .func enc :: opts) =>
    if f = chars% "httptransport.NewServer" then
      match optionsOf env opts ⟨[], [], chars% "httptransport.DefaultErrorEncoder"⟩ with
      | some srv => serveHTTP env k e dec enc srv vars c st s
      | none => .stuck
    else .stuck
  | _ => .stuck

/-- gorilla/mux `Router.Match`: the first route that matches both the verb and the path. -/
def dispatch (verb : Str) (path : List Str) : Routes E → Option (Val E × List (Str × Str))
  | [] => none
  | r :: rs => match HTTP.muxGo (split '/' r.2.1) path with
    | some vars => if r.1 = verb then some (r.2.2, vars) else dispatch verb path rs
    | none => dispatch verb path rs

/-- gorilla/mux `Router.ServeHTTP`: 405 if a route matches the path, else 404. -/
def serve (env : Env M E S) (k : GoHTTP.Calls M) (rs : Routes E) (verb path : Str) (c : Ctx) (st : GoHTTP.St M) (s : S) : Outcome M S :=
  if HTTP.cleanSegs (split '/' path).tail then
    match dispatch verb (split '/' path) rs with
    | some (h, vars) => handle env k h vars c st s
    | none => .refused (if rs.any fun r => (HTTP.muxGo (split '/' r.2.1) (split '/' path)).isSome then 405 else 404) s
  else .redirected s

/-! ## The go-kit client -/

/-- What a client of go-kit does not determine: making a request with the encoder of this name, and the exchange. A request is
what is encoded and its headers; the answer is a status, a body, and how reading the body ends. -/
structure Net (M Q : Type) where
  encode : Str → Str → URL → Ctx → GoHTTP.Val M → Except (GoHTTP.Val M) (Q × Header)
  send : Q → Header → Except (GoHTTP.Val M) (Nat × (Str × GoHTTP.ReadEnd))

/-- transport/http/client.go `ClientBefore`: the functions of the options. -/
def beforesOf : List (Val (GoHTTP.Val M)) → Option (List (GoHTTP.Val M))
  | [] => some []
  | .ext (.lib f gs) :: l => if f = chars% "httptransport.ClientBefore" then (beforesOf l).map (gs ++ ·) else none
  | _ => none

def clientBefores (w : GoHTTP.World M) (k : GoHTTP.Calls M) : List (GoHTTP.Val M) → Ctx → GoHTTP.St M → GoHTTP.Ans M Ctx
  | [], c, st => .ok c st
  | f :: l, c, st => match GoHTTP.apply w k f [.ctx c, .request] st with
    | .ok [.ctx c'] st => clientBefores w k l c' st
    | .panic st => .panic st
    | _ => .stuck

/-- What a decoder returns: its response, unless there is an error. The body is closed. -/
def received (vs : List (GoHTTP.Val M)) (st : GoHTTP.St M) : GoHTTP.Ans M (List (GoHTTP.Val M)) := match vs with
  | [r, .nil] => .ok [r, .nil] { st with closed := true }
  | [_, v] => .ok [.nil, v] { st with closed := true }
  | _ => .stuck

/-- transport/http/client.go `Client.Endpoint`: a call of the endpoint. Functions of the package are called in the world with the answer. -/
def callClient {Q : Type} (net : Net M Q) (w : GoHTTP.World M) (k : GoHTTP.World M → GoHTTP.Calls M) (v : Val (GoHTTP.Val M)) (c : Ctx) (req : GoHTTP.Val M)
    (st : GoHTTP.St M) : GoHTTP.Ans M (List (GoHTTP.Val M)) := match v with
  | .lib f (.text verb :: .url u :: .func enc :: .func dec :: opts) =>
    if f = chars% "httptransport.NewClient.Endpoint" then
      match beforesOf opts with
      | none => .stuck
      | some bs => match net.encode enc verb u c req with
        | .error v => .ok [.nil, v] st
        | .ok (q, h) => match clientBefores w (k w) bs c { st with reqHeader := h } with
          | .ok c st => match net.send q st.reqHeader with
            | .error v => .ok [.nil, v] st
            | .ok (status, body) => match (k { w with status := status, body := body }).call dec [.ctx c, .response] st with
              | .ok vs st => received vs st
              | .panic st => .panic st
              | .stuck => .stuck
          | .panic st => .panic st
          | .stuck => .stuck
    else .stuck
  | _ => .stuck

/-! ## The functions -/

/-- `f(a, b, …)` on one line. -/
def args : List Expr → Args
  | [] => .done []
  | [e] => .arg [] e [] (.done [])
  | e :: l => .arg [] e (chars% ", ") (args l)

/-- NAME.pb.baron.go.tmpl:332-336: the first options. -/
def defaultOptions : Args :=
  .arg (chars% "\n\t\t\t") (.call (chars% "httptransport.ServerBefore") (args [.id (chars% "HTTPHeadersToContext")])) (chars% ",") <|
  .arg (chars% "\n\t\t\t") (.call (chars% "httptransport.ServerErrorEncoder") (args [.id (chars% "errorEncoder")])) (chars% ",") <|
  .arg (chars% "\n\t\t\t") (.call (chars% "httptransport.ServerAfter") (args [.call (chars% "httptransport.SetContentType") (args [.id (chars% "contentType")])])) (chars% ",") <|
  .done (chars% "\n\t\t")

/-- NAME.pb.baron.go.tmpl:331-338, which is written if there are bindings. -/
def optionsCode (s : Service) (rest : Code) : Code :=
  if (httpRpcs s).isEmpty then rest else
    .define (chars% "\n\t\t") [chars% "serverOptions"] (.list (chars% "httptransport.ServerOption") defaultOptions) <|
    .assign (chars% "\n\t\t") (chars% "serverOptions") (.call (chars% "append") (.arg [] (.id (chars% "serverOptions")) (chars% ", ") (.spread [] (chars% "options") [] (.done [])))) <|
    rest

/-- NAME.pb.baron.go.tmpl:343-348: the handler of a binding. -/
def newServer (rpc label : Str) : Expr :=
  .call (chars% "httptransport.NewServer") <|
    .arg (chars% "\n\t\t\t\t") (.sel (chars% "endpoints") (rpc ++ chars% "Endpoint")) (chars% ",") <|
    .arg (chars% "\n\t\t\t\t") (.id (chars% "DecodeHTTP" ++ (label ++ chars% "Request"))) (chars% ",") <|
    .arg (chars% "\n\t\t\t\t") (.id (chars% "EncodeHTTPGenericResponse")) (chars% ",") <|
    .spread (chars% "\n\t\t\t\t") (chars% "serverOptions") (chars% ",") <|
    .done (chars% "\n\t\t\t")

/-- NAME.pb.baron.go.tmpl:343-348: a binding. -/
def routeCode (m : ServiceMethod) (b : HTTPBinding × Nat) (rest : Code) : Code :=
  .run (chars% "\n\t\t\t") (.method (.method (.method (.id (chars% "m")) (chars% "Methods") (args [.quoted (toUpper b.1.verb)])) (chars% "Path") (args [.quoted b.1.path]))
    (chars% "Handler") (args [newServer m.name (m.name ++ HTTP.englishNumber b.2)])) rest

/-- NAME.pb.baron.go.tmpl:342-350: the bindings of an rpc. -/
def rpcCode (m : ServiceMethod) (rest : Code) : Code := .space (chars% "\n\t\t") ((numbered m).foldr (routeCode m) rest)

/-- NAME.pb.baron.go.tmpl:330-353 `MakeHTTPHandler`. -/
def makeHandler (s : Service) : Func where
  name := chars% "MakeHTTPHandler"
  params := [(chars% "endpoints", chars% "Endpoints"), (chars% "options", chars% "...httptransport.ServerOption")]
  results := chars% "http.Handler "
  body :=
    optionsCode s <|
    .define (chars% "\n\t") [chars% "m"] (.call (chars% "mux.NewRouter") (args [])) <|
    .space (chars% "\n\n\t") <|
    (httpRpcs s).foldr rpcCode <|
    .ret (chars% "\n\t") (args [.id (chars% "m")]) <|
    .done (chars% "\n")

/-- NAME.pb.baron.go.tmpl:526-532: the client of a binding. -/
def newClient (rpc label : Str) (b : HTTPBinding) : Expr :=
  .method (.call (chars% "httptransport.NewClient") <|
    .arg (chars% "\n\t\t\t\t\t\t") (.quoted (toUpper b.verb)) (chars% ",") <|
    .arg (chars% "\n\t\t\t\t\t\t") (.call (chars% "copyURL") (args [.id (chars% "u"), .quoted (b.path.takeWhile (· ≠ '{'))])) (chars% ",") <|
    .arg (chars% "\n\t\t\t\t\t\t") (.id (chars% "EncodeHTTP" ++ (label ++ chars% "Request"))) (chars% ",") <|
    .arg (chars% "\n\t\t\t\t\t\t") (.id (chars% "DecodeHTTP" ++ (rpc ++ chars% "Response"))) (chars% ",") <|
    .spread (chars% "\n\t\t\t\t\t\t") (chars% "options") (chars% ",") <|
    .done (chars% "\n\t\t\t\t\t")) (chars% "Endpoint") (args [])

/-- NAME.pb.baron.go.tmpl:521-536: the endpoint for the first binding of an rpc. -/
def clientCode (m : ServiceMethod) (rest : Code) : Code := match m.bindings with
  | [] => rest
  | b :: _ =>
    .var (chars% "\n\t\t") (m.name ++ chars% "ZeroEndpoint") (chars% "endpoint.Endpoint") <|
    .block (chars% "\n\t\t\t\t")
      (.assign (chars% "\n\t\t\t\t\t") (m.name ++ chars% "ZeroEndpoint") (newClient m.name (m.name ++ chars% "Zero") b) (.done (chars% "\n\t\t\t\t"))) rest

/-- NAME.pb.baron.go.tmpl:539-545: an entry of the result. -/
def clientEntry (m : ServiceMethod) (rest : Args) : Args := match m.bindings with
  | [] => rest
  | _ :: _ => .named [] (m.name ++ chars% "Endpoint") (chars% ":    ") (.id (m.name ++ chars% "ZeroEndpoint")) (chars% ",\n\t\t\t") rest

/-- NAME.pb.baron.go.tmpl:516-518, which is written if there are no bindings. -/
def panicCode (s : Service) (rest : Code) : Code :=
  if (httpRpcs s).isEmpty then
    .run [] (.call (chars% "panic") (args [.quoted (chars% "No HTTP Endpoints, this client will not work, define bindings in your proto definition")])) rest
  else rest

/-- NAME.pb.baron.go.tmpl:506-547 `NewHTTPClient`. -/
def newHTTPClient (s : Service) : Func where
  name := chars% "NewHTTPClient"
  params := [(chars% "instance", chars% "string"), (chars% "options", chars% "...httptransport.ClientOption")]
  results := '(' :: (s.name ++ chars% "Server, error) ")
  body :=
    .ifThen (chars% "\n\t") (.not (.call (chars% "strings.HasPrefix") (args [.id (chars% "instance"), .quoted (chars% "http")])))
      (.assign (chars% "\n\t\t") (chars% "instance") (.plus (.quoted (chars% "http://")) (.id (chars% "instance"))) <|
      .done (chars% "\n\t")) <|
    .define (chars% "\n\t") [chars% "u", chars% "err"] (.call (chars% "url.Parse") (args [.id (chars% "instance")])) <|
    .ifThen (chars% "\n\t") (.isSet (chars% "err"))
      (.ret (chars% "\n\t\t") (args [.nil, .id (chars% "err")]) <|
      .done (chars% "\n\t")) <|
    .assign (chars% "\n\t") (chars% "_") (.id (chars% "u")) <|
    .space (chars% "\n\n\t") <|
    panicCode s <|
    .space (chars% "\n\n\t") <|
    (httpRpcs s).foldr clientCode <|
    .ret (chars% "\n\n\t") (args [.lit (chars% "Endpoints") (.space (chars% "\n\t") ((httpRpcs s).foldr clientEntry (.done (chars% "\n\t")))), .nil]) <|
    .done (chars% "\n")

end Baron.GoRoutes
