import Verif.Model.Runtime
import Verif.Spec.Files

/-!
# A fragment of Go for the helpers of the HTTP and gRPC transports: their text and their meaning

Not a model of code in /repo but of the language that the error, header, metadata and response functions of the transport file are
written in, and of what they use of the standard library, go-kit 0.10, gRPC, protojson and github.com/pkg/errors 0.9. Strings and byte
slices are the same; a pointer to a message and the message are the same. There is one response writer, one request, one
response and one outgoing metadata, so these values are references into the state. Maps are lists in the order Go happens to range
over them. A context binds strings to strings or to values of other types. Texts in literals have no escapes. An
expression without meaning is `stuck`, which the theorems exclude. At the end are the functions themselves.
-/

namespace Baron.GoHTTP

open Baron.HTTP (look)
open Baron.Runtime (Header MD Err ErrJSON headerGet headerSet canonical)

/-! ## Syntax -/

mutual
inductive Expr where
  | nil
  | num (n : Nat)
  | text (s : Str)
  /-- a variable, or a constant -/
  | id (x : Str)
  /-- `e.f` -/
  | sel (e : Expr) (f : Str)
  | call (f : Str) (args : Args)
  | method (e : Expr) (f : Str) (args : Args)
  /-- `t{…}` -/
  | lit (t : Str) (args : Args)
  /-- `t{…}` with every field in order -/
  | build (t : Str) (args : Args)
  /-- `*x` -/
  | star (x : Str)
  /-- `&x` -/
  | addr (x : Str)
  /-- `x[0]` -/
  | first (x : Str)
  /-- `x[:y]` -/
  | cut (x y : Str)
  /-- `e.(t)` -/
  | assert (e : Expr) (t : Str)
  /-- `e.(t)` with two results -/
  | test (e : Expr) (t : Str)
  /-- `a op b` -/
  | bin (a : Expr) (op : Str) (b : Expr)
  /-- `r.Unmarshal(x, &y)` -/
  | into (r x y : Str)
  /-- `func(params) result {body}` -/
  | fn (params : List (Str × Str)) (result : Str) (body : Code)

/-- Arguments, or the entries of a literal. -/
inductive Args where
  | done (ws : Str)
  | arg (ws : Str) (e : Expr) (after : Str) (rest : Args)
  /-- `name: e` -/
  | named (ws name colon : Str) (e : Expr) (after : Str) (rest : Args)
  /-- `x...` -/
  | spread (ws x after : Str) (rest : Args)

/-- Statements. `ws` is the white space before a statement or a closing brace. -/
inductive Code where
  | done (ws : Str)
  /-- `// …` up to the end of the line -/
  | comment (ws s : Str) (rest : Code)
  /-- `x, … := e` -/
  | define (ws : Str) (xs : List Str) (e : Expr) (rest : Code)
  /-- `x, … = e` -/
  | assign (ws : Str) (xs : List Str) (e : Expr) (rest : Code)
  /-- `*x = e` -/
  | setStar (ws x : Str) (e : Expr) (rest : Code)
  /-- `x.f = e` -/
  | setField (ws x f : Str) (e : Expr) (rest : Code)
  /-- `var x t` -/
  | var (ws x t : Str) (rest : Code)
  /-- `const x = n` -/
  | const (ws x : Str) (n : Nat) (rest : Code)
  /-- a call, for what it does -/
  | run (ws : Str) (e : Expr) (rest : Code)
  | deferred (ws : Str) (e : Expr) (rest : Code)
  | ifThen (ws : Str) (c : Expr) (body rest : Code)
  /-- `if x, … := e; c {…}` -/
  | ifDefine (ws : Str) (xs : List Str) (e c : Expr) (body rest : Code)
  /-- `if x = e; c {…}` -/
  | ifAssign (ws x : Str) (e c : Expr) (body rest : Code)
  /-- `for x, … := range e {…}` -/
  | forRange (ws : Str) (xs : List Str) (e : Expr) (body rest : Code)
  /-- `return …` -/
  | ret (ws : Str) (vals : Args) (rest : Code)
end

/-! ## Text -/

def printParams : List (Str × Str) → Str
  | [] => []
  | [(x, t)] => x ++ (chars% " " ++ t)
  | (x, t) :: q :: l => x ++ (chars% " " ++ (t ++ (chars% ", " ++ printParams (q :: l))))

def printNames : List Str → Str
  | [] => []
  | [x] => x
  | x :: y :: l => x ++ (chars% ", " ++ printNames (y :: l))

mutual
def Expr.print : Expr → Str
  | .nil => chars% "nil"
  | .num n => HTTP.itoa n
  | .text s => chars% "\"" ++ (s ++ chars% "\"")
  | .id x => x
  | .sel e f => e.print ++ (chars% "." ++ f)
  | .call f args => f ++ (chars% "(" ++ (args.print ++ chars% ")"))
  | .method e f args => e.print ++ (chars% "." ++ (f ++ (chars% "(" ++ (args.print ++ chars% ")"))))
  | .lit t args => t ++ (chars% "{" ++ (args.print ++ chars% "}"))
  | .build t args => t ++ (chars% "{" ++ (args.print ++ chars% "}"))
  | .star x => chars% "*" ++ x
  | .addr x => chars% "&" ++ x
  | .first x => x ++ chars% "[0]"
  | .cut x y => x ++ (chars% "[:" ++ (y ++ chars% "]"))
  | .assert e t => e.print ++ (chars% ".(" ++ (t ++ chars% ")"))
  | .test e t => e.print ++ (chars% ".(" ++ (t ++ chars% ")"))
  | .bin a op b => a.print ++ (chars% " " ++ (op ++ (chars% " " ++ b.print)))
  | .into r x y => r ++ (chars% ".Unmarshal(" ++ (x ++ (chars% ", &" ++ (y ++ chars% ")"))))
  | .fn ps r b => chars% "func(" ++ (printParams ps ++ (chars% ") " ++ (r ++ (chars% " {" ++ (b.print ++ chars% "}")))))

def Args.print : Args → Str
  | .done ws => ws
  | .arg ws e after r => ws ++ (e.print ++ (after ++ r.print))
  | .named ws name colon e after r => ws ++ (name ++ (colon ++ (e.print ++ (after ++ r.print))))
  | .spread ws x after r => ws ++ (x ++ (chars% "..." ++ (after ++ r.print)))

def Code.print : Code → Str
  | .done ws => ws
  | .comment ws s r => ws ++ (chars% "//" ++ (s ++ r.print))
  | .define ws xs e r => ws ++ (printNames xs ++ (chars% " := " ++ (e.print ++ r.print)))
  | .assign ws xs e r => ws ++ (printNames xs ++ (chars% " = " ++ (e.print ++ r.print)))
  | .setStar ws x e r => ws ++ (chars% "*" ++ (x ++ (chars% " = " ++ (e.print ++ r.print))))
  | .setField ws x f e r => ws ++ (x ++ (chars% "." ++ (f ++ (chars% " = " ++ (e.print ++ r.print)))))
  | .var ws x t r => ws ++ (chars% "var " ++ (x ++ (chars% " " ++ (t ++ r.print))))
  | .const ws x n r => ws ++ (chars% "const " ++ (x ++ (chars% " = " ++ (HTTP.itoa n ++ r.print))))
  | .run ws e r => ws ++ (e.print ++ r.print)
  | .deferred ws e r => ws ++ (chars% "defer " ++ (e.print ++ r.print))
  | .ifThen ws c b r => ws ++ (chars% "if " ++ (c.print ++ (chars% " {" ++ (b.print ++ (chars% "}" ++ r.print)))))
  | .ifDefine ws xs e c b r => ws ++ (chars% "if " ++ (printNames xs ++ (chars% " := " ++ (e.print ++ (chars% "; " ++ (c.print ++ (chars% " {" ++ (b.print ++ (chars% "}" ++ r.print)))))))))
  | .ifAssign ws x e c b r => ws ++ (chars% "if " ++ (x ++ (chars% " = " ++ (e.print ++ (chars% "; " ++ (c.print ++ (chars% " {" ++ (b.print ++ (chars% "}" ++ r.print)))))))))
  | .forRange ws xs e b r => ws ++ (chars% "for " ++ (printNames xs ++ (chars% " := range " ++ (e.print ++ (chars% " {" ++ (b.print ++ (chars% "}" ++ r.print)))))))
  | .ret ws vs r => ws ++ (chars% "return " ++ (vs.print ++ r.print))
end

/-- A function, or a method if it has a receiver. `results` is everything between the parameters and the body. -/
structure Func where
  recv : Option (Str × Str)
  name : Str
  params : List (Str × Str)
  results : Str
  body : Code

def Func.print (f : Func) : Str :=
  chars% "func " ++ ((match f.recv with | some r => chars% "(" ++ (r.1 ++ (chars% " " ++ (r.2 ++ chars% ") "))) | none => []) ++
    (f.name ++ (chars% "(" ++ (printParams f.params ++ (chars% ") " ++ (f.results ++ (chars% "{" ++ (f.body.print ++ chars% "}"))))))))

/-! ## Values -/

/-- A `url.URL`; `rest` is everything but the path. -/
structure URL where
  path : Str
  rest : Str
  deriving DecidableEq, Repr

/-- A `context.Context`: the values under string keys, latest first; `none` is a value that is not a string. -/
abbrev Ctx := List (Str × Option Str)

/-- Values: `M` are the contents of messages. -/
inductive Val (M : Type) where
  | nil
  | bool (b : Bool)
  | num (n : Nat)
  | text (s : Str)
  | strs (l : List Str)
  | ctx (c : Ctx)
  /-- a value in a context that is not a string -/
  | other
  | err (e : Err)
  /-- `io.EOF` -/
  | eof
  | struct (t : Str) (fields : List (Str × Val M))
  | msg (t : Str) (m : M)
  | header (h : Header)
  | md (m : MD)
  /-- the outgoing metadata -/
  | mdPtr
  | writer
  | writerHeader
  | request
  | reqHeader
  | reqURL
  | response
  | respBody
  | url (u : URL)
  | urlPtr (n : Nat)
  | closure (params : List (Str × Str)) (body : Code) (vars : List (Str × Val M))
  /-- what the function `f` of a library has built -/
  | lib (f : Str) (args : List (Val M))

abbrev Vars (M : Type) := List (Str × Val M)

/-- What functions change. -/
structure St (M : Type) where
  /-- variables, the latest first -/
  vars : Vars M
  /-- the headers of the writer -/
  header : Header
  /-- the status and the headers, once they are sent -/
  sent : Option (Nat × Header)
  /-- the body written so far -/
  out : Str
  /-- the headers of the request that will be sent -/
  reqHeader : Header
  /-- the outgoing metadata -/
  md : MD
  urls : List URL
  /-- the body of the response has been closed -/
  closed : Bool

/-- What an expression or statement comes to. -/
inductive Ans (M α : Type) where
  | ok (a : α) (st : St M)
  | panic (st : St M)
  | stuck

def Ans.bind {M α β : Type} (x : Ans M α) (f : α → St M → Ans M β) : Ans M β :=
  match x with
  | .ok a st => f a st
  | .panic st => .panic st
  | .stuck => .stuck

/-- How reading a body ends. -/
inductive ReadEnd where
  | complete
  | eof
  | failed (e : Err)

/-- What is not determined by the generated code. -/
structure World (M : Type) where
  json : ErrJSON
  /-- the error of `json.Unmarshal`, and of a `MarshalJSON` that fails -/
  jsonErr : Str → Err
  empty : Str → M
  /-- protojson with these options, into a message of that type: what it contains afterwards -/
  readProto : List (Str × Bool) → Str → Str → M → M × Option Err
  writeProto : List (Str × Bool) → M → Except Err Str
  /-- the body of the response, or of the request that is served, and how reading it ends -/
  body : Str × ReadEnd
  /-- the status of the response -/
  status : Nat
  /-- the path of the request's URL -/
  path : Str
  /-- the error of writing to the connection -/
  writeErr : Str → Option Err

variable {M : Type}

/-! ## Meaning -/

/-- An error with nothing but a message. -/
def plain (s : Str) : Err := ⟨s, none, none, none⟩

def asErr : Val M → Option Err
  | .err e => some e
  | .eof => some (plain (chars% "EOF"))
  | _ => none

def ofErr : Option Err → Val M
  | some e => .err e
  | none => .nil

/-- What a verb makes of the next argument, and the other arguments: `%s` with a string and `%d` with a number. -/
def verb (c : Char) : List (Val M) → Option (Str × List (Val M))
  | .text s :: l => if c = 's' then some (s, l) else none
  | .num n :: l => if c = 'd' then some (HTTP.itoa n, l) else none
  | _ => none

/-- package fmt. -/
def format : Str → List (Val M) → Option Str
  | [], l => if l.isEmpty then some [] else none
  | [c], l => if c = '%' ∨ !l.isEmpty then none else some [c]
  | c :: d :: r, l => if c = '%' then match verb d l with
      | some (s, l) => (format r l).map (s ++ ·)
      | none => none
    else (format (d :: r) l).map (c :: ·)

/-- `metadata.Pairs`, on keys and values in turn: values under the lower-cased key. -/
def pairsGo : List Str → MD → Option MD
  | [], m => some m
  | [_], _ => none
  | k :: v :: r, m => pairsGo r (match look m (toLower k) with
    | some _ => m.map fun e => if e.1 = toLower k then (e.1, some (e.2.getD [] ++ [v])) else e
    | none => m ++ [(toLower k, some [v])])

/-- `append(a, b...)`; `none` is nil. -/
def appendAll (a b : Option (List Str)) : Option (List Str) := match a, b with
  | a, none => a
  | a, some [] => a
  | a, some (v :: l) => some (a.getD [] ++ v :: l)

/-- `metadata.Join` of two maps: the values of one key, in order. -/
def joinGo : MD → MD → MD
  | [], m => m
  | (k, vs) :: r, m => joinGo r (match look m k with
    | some _ => m.map fun e => if e.1 = k then (e.1, appendAll e.2 vs) else e
    | none => m ++ [(k, appendAll none vs)])

def join (a b : MD) : MD := joinGo b (joinGo a [])

def setVar (x : Str) (v : Val M) : Vars M → Option (Vars M)
  | [] => none
  | p :: l => if p.1 = x then some ((x, v) :: l) else (setVar x v l).map (p :: ·)

/-- The variables on the left of `=`. -/
def setVars : List Str → List (Val M) → Vars M → Option (Vars M)
  | [], [], vars => some vars
  | x :: xs, v :: vs, vars => if x = chars% "_" then setVars xs vs vars else (setVar x v vars).bind (setVars xs vs)
  | _, _, _ => none

/-- The variables on the left of `:=`, which are new. -/
def defVars : List Str → List (Val M) → Vars M → Option (Vars M)
  | [], [], vars => some vars
  | x :: xs, v :: vs, vars => defVars xs vs (if x = chars% "_" then vars else (x, v) :: vars)
  | _, _, _ => none

/-- Functions and methods of the package: whether there is one, and calling it. -/
structure Calls (M : Type) where
  has : Str → Bool
  call : Str → List (Val M) → St M → Ans M (List (Val M))

def St.put (st : St M) (vars : Option (Vars M)) : Ans M Unit := match vars with
  | some vars => .ok () { st with vars := vars }
  | none => .stuck

/-- The value of a name: a variable or a constant. -/
def ident (vars : Vars M) (x : Str) : Option (Val M) := match look vars x with
  | some v => some v
  | none =>
    if x = chars% "true" then some (.bool true)
    else if x = chars% "contentType" then some (.text Runtime.contentType)
    else if x = chars% "http.StatusOK" then some (.num 200)
    else if x = chars% "http.StatusInternalServerError" then some (.num 500)
    else if x = chars% "http.StatusBadRequest" then some (.num 400)
    else if x = chars% "io.EOF" then some .eof
    else none

/-- Whether a value is of a type or implements an interface. -/
def isA (k : Calls M) (v : Val M) (t : Str) : Bool := match v with
  | .text _ => t = chars% "string"
  | .msg _ _ => t = chars% "proto.Message"
  | .err e =>
    if t = chars% "json.Marshaler" then e.json.isSome
    else if t = chars% "httptransport.Headerer" then e.headers.isSome
    else if t = chars% "httptransport.StatusCoder" then e.status.isSome
    else false
  | .struct n _ =>
    if t = chars% "json.Marshaler" then k.has (n ++ chars% ".MarshalJSON")
    else if t = chars% "httptransport.Headerer" then k.has (n ++ chars% ".Headers")
    else if t = chars% "httptransport.StatusCoder" then k.has (n ++ chars% ".StatusCode")
    else false
  | _ => false

/-- The zero value of a type. -/
def zeroOf (w : World M) (t : Str) : Val M :=
  if t = chars% "[]string" then .nil
  else if t = chars% "errorWrapper" then .struct t [(chars% "Error", .text [])]
  else .msg t (w.empty t)

/-- `v.f` -/
def fieldOf (w : World M) (v : Val M) (f : Str) : Option (Val M) := match v with
  | .struct _ fields => look fields f
  | .request => if f = chars% "Header" then some .reqHeader else if f = chars% "URL" then some .reqURL else if f = chars% "Body" then some .respBody else none
  | .reqURL => if f = chars% "Path" then some (.text w.path) else none
  | .response => if f = chars% "Body" then some .respBody else if f = chars% "StatusCode" then some (.num w.status) else none
  | _ => none

/-- The options in a literal of booleans. -/
def optionsOf : List (Str × Val M) → Option (List (Str × Bool))
  | [] => some []
  | (x, .bool b) :: l => (optionsOf l).map ((x, b) :: ·)
  | _ => none

/-- Functions of other packages. -/
def libCall (w : World M) (f : Str) (args : List (Val M)) (st : St M) : Ans M (List (Val M)) :=
  if f = chars% "context.WithValue" then match args with
    | [.ctx c, .text x, .text v] => .ok [.ctx ((x, some v) :: c)] st
    | _ => .stuck
  else if f = chars% "http.CanonicalHeaderKey" then match args with
    | [.text x] => .ok [.text (canonical x)] st
    | _ => .stuck
  else if f = chars% "strings.ToLower" then match args with
    | [.text x] => .ok [.text (toLower x)] st
    | _ => .stuck
  else if f = chars% "json.Marshal" then match args with
    | [.struct t [(x, .text s)]] => if t = chars% "errorWrapper" ∧ x = chars% "Error" then .ok [.text (w.json.enc s), .nil] st else .stuck
    | _ => .stuck
  else if f = chars% "len" then match args with
    | [.text s] => .ok [.num s.length] st
    | _ => .stuck
  else if f = chars% "append" then match args with
    | [.nil, .text a, .text b] => .ok [.strs [a, b]] st
    | [.strs l, .text a, .text b] => .ok [.strs (l ++ [a, b])] st
    | _ => .stuck
  else if f = chars% "metadata.Pairs" then match args with
    | [.strs l] => match pairsGo l [] with
      | some m => .ok [.md m] st
      | none => .panic st
    | _ => .stuck
  else if f = chars% "metadata.Join" then match args with
    | [.md a, .md b] => .ok [.md (join a b)] st
    | _ => .stuck
  else if f = chars% "errors.New" then match args with
    | [.text s] => .ok [.err (plain s)] st
    | _ => .stuck
  else if f = chars% "fmt.Errorf" then match args with
    | .text s :: l => match format s l with
      | some t => .ok [.err (plain t)] st
      | none => .stuck
    | _ => .stuck
  else if f = chars% "errors.Wrap" then match args with
    | [v, .text s] => match asErr v with
      | some e => .ok [.err (plain (s ++ (chars% ": " ++ e.msg)))] st
      | none => .stuck
    | _ => .stuck
  else if f = chars% "errors.Wrapf" then match args with
    | v :: .text s :: l => match asErr v, format s l with
      | some e, some t => .ok [.err (plain (t ++ (chars% ": " ++ e.msg)))] st
      | _, _ => .stuck
    | _ => .stuck
  else if f = chars% "ioutil.ReadAll" then match args with
    | [.respBody] => .ok [.text w.body.1, match w.body.2 with | .complete => .nil | .eof => .eof | .failed e => .err e] st
    | _ => .stuck
  else if f = chars% "httptransport.ClientBefore" then .ok [.lib f args] st
  else if f = chars% "mux.Vars" then match args with
    | [.request] => .ok [.lib f []] st
    | _ => .stuck
  else .stuck

/-- Functions of this package, or of others. -/
def callOf (w : World M) (k : Calls M) (f : Str) (args : List (Val M)) (st : St M) : Ans M (List (Val M)) :=
  if k.has f then k.call f args st else libCall w f args st

/-- The methods of an error. -/
def errMethod (w : World M) (e : Err) (f : Str) (st : St M) : Ans M (List (Val M)) :=
  if f = chars% "Error" then .ok [.text e.msg] st
  else if f = chars% "MarshalJSON" then match e.json with
    | some (some b) => .ok [.text b, .nil] st
    | some none => .ok [.nil, .err (w.jsonErr e.msg)] st
    | none => .stuck
  else if f = chars% "Headers" then match e.headers with
    | some h => .ok [.header h] st
    | none => .stuck
  else if f = chars% "StatusCode" then match e.status with
    | some n => .ok [.num n] st
    | none => .stuck
  else .stuck

/-- The methods of a response writer. Status codes outside 100–999 panic, a second status is ignored, `Write` sends 200 if nothing was
sent. Simplification: a status below 200 counts as sent. -/
def writerMethod (w : World M) (f : Str) (args : List (Val M)) (st : St M) : Ans M (List (Val M)) :=
  if f = chars% "Header" then .ok [.writerHeader] st
  else if f = chars% "WriteHeader" then match args with
    | [.num c] => if c < 100 ∨ 999 < c then .panic st else .ok [] { st with sent := some (st.sent.getD (c, st.header)) }
    | _ => .stuck
  else if f = chars% "Write" then match args with
    | [.text b] => .ok [.num b.length, ofErr (w.writeErr b)] { st with sent := some (st.sent.getD (200, st.header)), out := st.out ++ b }
    | _ => .stuck
  else .stuck

def setHeader (v : Val M) (x y : Str) (st : St M) : Ans M (List (Val M)) := match v with
  | .writerHeader => .ok [] { st with header := headerSet st.header x y }
  | .reqHeader => .ok [] { st with reqHeader := headerSet st.reqHeader x y }
  | _ => .stuck

/-- The map of headers in a value. -/
def headersOf (st : St M) : Val M → Option Header
  | .header h => some h
  | .writerHeader => some st.header
  | .reqHeader => some st.reqHeader
  | _ => none

def headerMethod (v : Val M) (f : Str) (args : List (Val M)) (st : St M) : Ans M (List (Val M)) := match args with
  | [.text x] => if f = chars% "Get" then match headersOf st v with
      | some h => .ok [.text (headerGet h x)] st
      | none => .stuck
    else .stuck
  | [.text x, .text y] => if f = chars% "Set" then setHeader v x y st else .stuck
  | _ => .stuck

/-- The value of a context under a key. -/
def ctxValue (c : Ctx) (x : Str) : Val M := match look c x with
  | some (some s) => .text s
  | some none => .other
  | none => .nil

/-- The methods of a struct that are not declared here: of another package, or of an embedded error. -/
def libMethod (w : World M) (n : Str) (fields : List (Str × Val M)) (f : Str) (args : List (Val M)) (st : St M) : Ans M (List (Val M)) :=
  if n = chars% "protojson.MarshalOptions" then match optionsOf fields, args with
    | some o, [.msg _ m] => if f = chars% "Marshal" then match w.writeProto o m with
        | .ok s => .ok [.text s, .nil] st
        | .error e => .ok [.nil, .err e] st
      else .stuck
    | _, _ => .stuck
  else match look fields (chars% "error") with
    | some (.err e) => errMethod w e f st
    | _ => .stuck

def structMethod (w : World M) (k : Calls M) (n : Str) (fields : List (Str × Val M)) (f : Str) (args : List (Val M)) (st : St M) :
    Ans M (List (Val M)) :=
  if k.has (n ++ (chars% "." ++ f)) then k.call (n ++ (chars% "." ++ f)) (.struct n fields :: args) st
  else libMethod w n fields f args st

def methodOf (w : World M) (k : Calls M) (v : Val M) (f : Str) (args : List (Val M)) (st : St M) : Ans M (List (Val M)) := match v with
  | .err e => errMethod w e f st
  | .struct n fields => structMethod w k n fields f args st
  | .writer => writerMethod w f args st
  | .writerHeader => headerMethod v f args st
  | .reqHeader => headerMethod v f args st
  | .header _ => headerMethod v f args st
  | .ctx c => match args with
    | [.text x] => if f = chars% "Value" then .ok [ctxValue c x] st else .stuck
    | _ => .stuck
  | .reqURL => match args with
    | [] => if f = chars% "Query" then .ok [.lib (chars% "url.Query") []] st else .stuck
    | _ => .stuck
  | .respBody => if f = chars% "Close" then .ok [.nil] { st with closed := true } else .stuck
  | _ => .stuck

/-- What `range` goes over: keys and values. -/
def rangeOf (st : St M) (v : Val M) : Option (List (Val M × Val M)) := match v with
  | .md m => some (m.map fun e => (.text e.1, match e.2 with | some l => .strs l | none => .nil))
  | .strs l => some (l.zipIdx.map fun e => (.num e.2, .text e.1))
  | .nil => some []
  | v => (headersOf st v).map (·.map fun e => (.text e.1, .strs e.2))

def binOf (op : Str) (a b : Val M) : Option Bool := match a, b with
  | .num m, .num n =>
    if op = chars% "!=" then some (m != n) else if op = chars% ">" then some (decide (n < m)) else none
  | .err _, .nil => if op = chars% "==" then some false else if op = chars% "!=" then some true else none
  | .eof, .nil => if op = chars% "==" then some false else if op = chars% "!=" then some true else none
  | .strs _, .nil => if op = chars% "==" then some false else if op = chars% "!=" then some true else none
  | .nil, .nil => if op = chars% "==" then some true else if op = chars% "!=" then some false else none
  | .err _, .eof => if op = chars% "==" then some false else none
  | .nil, .eof => if op = chars% "==" then some false else none
  | .eof, .eof => if op = chars% "==" then some true else none
  | _, _ => none

/-- A single value. -/
def one (vs : List (Val M)) (st : St M) : Ans M (Val M) := match vs with
  | [v] => .ok v st
  | _ => .stuck

def some? {α : Type} (o : Option α) (st : St M) : Ans M α := match o with
  | some a => .ok a st
  | none => .stuck

def starOf (st : St M) : Val M → Option (Val M)
  | .mdPtr => some (.md st.md)
  | .urlPtr n => st.urls[n]?.map .url
  | _ => none

/-- `&x`: a struct that is used no more under its name. -/
def addrOf (st : St M) : Val M → Ans M (Val M)
  | .url u => .ok (.urlPtr st.urls.length) { st with urls := st.urls ++ [u] }
  | .msg t m => .ok (.msg t m) st
  | _ => .stuck

def firstOf (st : St M) : Val M → Ans M (Val M)
  | .strs (s :: _) => .ok (.text s) st
  | .strs [] => .panic st
  | .nil => .panic st
  | _ => .stuck

def cutOf (st : St M) : Val M → Val M → Ans M (Val M)
  | .text s, .num n => if n ≤ s.length then .ok (.text (s.take n)) st else .panic st
  | _, _ => .stuck

/-- `r.Unmarshal(x, &y)`: the value of `y` afterwards, and the error. `r` is a package or options. -/
def intoOf (w : World M) (r : Option (Val M)) (name : Str) (x y : Val M) : Option (Val M × Val M) := match r, x, y with
  | none, .text s, .struct t fields =>
    if name = chars% "json" ∧ t = chars% "errorWrapper" then match w.json.dec s with
      | some m => some (.struct t [(chars% "Error", .text m)], .nil)
      | none => some (.struct t fields, .err (w.jsonErr s))
    else none
  | some (.struct n fields), .text s, .msg t m =>
    if n = chars% "protojson.UnmarshalOptions" then (optionsOf fields).map fun o =>
      (.msg t (w.readProto o t s m).1, ofErr (w.readProto o t s m).2)
    else none
  | _, _, _ => none

/-- `t{…}` with every field in order: an `httpError`. A nil map of headers is an empty one. -/
def structOf (t : Str) : List (Val M) → Option (Val M)
  | [.err e, .num n, .nil] => if t = chars% "httpError" then
      some (.struct t [(chars% "error", .err e), (chars% "statusCode", .num n), (chars% "headers", .header [])]) else none
  | _ => none

mutual
def Expr.eval (w : World M) (k : Calls M) : Expr → St M → Ans M (List (Val M))
  | .nil, st => .ok [.nil] st
  | .num n, st => .ok [.num n] st
  | .text s, st => .ok [.text s] st
  | .id x, st => (some? (ident st.vars x) st).bind fun v st => .ok [v] st
  | .sel e f, st => (e.eval w k st).bind fun vs st => (one vs st).bind fun v st => (some? (fieldOf w v f) st).bind fun v st => .ok [v] st
  | .call f args, st => (args.eval w k st).bind fun vs st => callOf w k f vs st
  | .method e f args, st => (e.eval w k st).bind fun vs st => (one vs st).bind fun v st => (args.eval w k st).bind fun vs st =>
      methodOf w k v f vs st
  | .lit t args, st => (args.fields w k st).bind fun fs st => .ok [.struct t fs] st
  | .build t args, st => (args.eval w k st).bind fun vs st => (some? (structOf t vs) st).bind fun v st => .ok [v] st
  | .star x, st => (some? ((ident st.vars x).bind (starOf st)) st).bind fun v st => .ok [v] st
  | .addr x, st => (some? (ident st.vars x) st).bind fun v st => (addrOf st v).bind fun v st => .ok [v] st
  | .first x, st => (some? (ident st.vars x) st).bind fun v st => (firstOf st v).bind fun v st => .ok [v] st
  | .cut x y, st => (some? (ident st.vars x) st).bind fun v st => (some? (ident st.vars y) st).bind fun u st =>
      (cutOf st v u).bind fun v st => .ok [v] st
  | .assert e t, st => (e.eval w k st).bind fun vs st => (one vs st).bind fun v st => if isA k v t then .ok [v] st else .panic st
  | .test e t, st => (e.eval w k st).bind fun vs st => (one vs st).bind fun v st =>
      if isA k v t then .ok [v, .bool true] st else .ok [.nil, .bool false] st
  | .bin a op b, st => (a.eval w k st).bind fun vs st => (one vs st).bind fun u st => (b.eval w k st).bind fun vs st =>
      (one vs st).bind fun v st => (some? (binOf op u v) st).bind fun c st => .ok [.bool c] st
  | .into r x y, st => (some? (ident st.vars x) st).bind fun u st => (some? (ident st.vars y) st).bind fun v st =>
      (some? (intoOf w (look st.vars r) r u v) st).bind fun p st => (st.put (setVar y p.1 st.vars)).bind fun _ st => .ok [p.2] st
  | .fn ps _ b, st => .ok [.closure ps b st.vars] st

def Args.eval (w : World M) (k : Calls M) : Args → St M → Ans M (List (Val M))
  | .done _, st => .ok [] st
  | .arg _ e _ r, st => (e.eval w k st).bind fun vs st => (one vs st).bind fun v st => (r.eval w k st).bind fun vs st => .ok (v :: vs) st
  | .named _ _ _ _ _ _, _ => .stuck
  | .spread _ x _ r, st => (some? (ident st.vars x) st).bind fun v st => (r.eval w k st).bind fun vs st => .ok (v :: vs) st

def Args.fields (w : World M) (k : Calls M) : Args → St M → Ans M (List (Str × Val M))
  | .done _, st => .ok [] st
  | .named _ x _ e _ r, st => (e.eval w k st).bind fun vs st => (one vs st).bind fun v st => (r.fields w k st).bind fun fs st => .ok ((x, v) :: fs) st
  | .arg _ _ _ _, _ => .stuck
  | .spread _ _ _ _, _ => .stuck
end

/-- After a statement: the next one, unless it returned. -/
def Ans.next (x : Ans M (Option (List (Val M)))) (f : St M → Ans M (Option (List (Val M)))) : Ans M (Option (List (Val M))) :=
  x.bind fun r st => match r with
    | some vs => .ok (some vs) st
    | none => f st

/-- The end of a block: the variables declared in it are gone, `n` are left. -/
def leave (n : Nat) (x : Ans M (Option (List (Val M)))) : Ans M (Option (List (Val M))) :=
  x.bind fun r st => .ok r { st with vars := st.vars.drop (st.vars.length - n) }

/-- A deferred call, after returning or panicking. -/
def finish (e : St M → Ans M (List (Val M))) (x : Ans M (Option (List (Val M)))) : Ans M (Option (List (Val M))) := match x with
  | .ok r st => (e st).bind fun _ st => .ok r st
  | .panic st => (e st).bind fun _ st => .panic st
  | .stuck => .stuck

def each {α : Type} (f : α → St M → Ans M (Option (List (Val M)))) : List α → St M → Ans M (Option (List (Val M)))
  | [], st => .ok none st
  | a :: l, st => (f a st).next (each f l)

/-- `if`, on the value of the condition. -/
def branch (vs : List (Val M)) (st : St M) (body : St M → Ans M (Option (List (Val M)))) : Ans M (Option (List (Val M))) := match vs with
  | [.bool true] => body st
  | [.bool false] => .ok none st
  | _ => .stuck

/-- `x.f = v` -/
def setFieldOf (x : Val M) (f : Str) (v : Val M) : Option (Val M) := match x, v with
  | .url u, .text s => if f = chars% "Path" then some (.url { u with path := s }) else none
  | _, _ => none

/-- `*x = v` -/
def setStarOf (st : St M) (x v : Val M) : Ans M Unit := match x, v with
  | .mdPtr, .md m => .ok () { st with md := m }
  | _, _ => .stuck

/-- The values a loop binds to its variables. -/
def bound (xs : List Str) (p : Val M × Val M) : List (Val M) := match xs with
  | [_] => [p.1]
  | _ => [p.1, p.2]

/-- Statements: `some` values if they return. -/
def Code.exec (w : World M) (k : Calls M) : Code → St M → Ans M (Option (List (Val M)))
  | .done _, st => .ok none st
  | .comment _ _ r, st => r.exec w k st
  | .define _ xs e r, st => (e.eval w k st).bind fun vs st => (st.put (defVars xs vs st.vars)).bind fun _ st => r.exec w k st
  | .assign _ xs e r, st => (e.eval w k st).bind fun vs st => (st.put (setVars xs vs st.vars)).bind fun _ st => r.exec w k st
  | .setStar _ x e r, st => (e.eval w k st).bind fun vs st => (one vs st).bind fun v st => (some? (ident st.vars x) st).bind fun u st =>
      (setStarOf st u v).bind fun _ st => r.exec w k st
  | .setField _ x f e r, st => (e.eval w k st).bind fun vs st => (one vs st).bind fun v st => (some? (ident st.vars x) st).bind fun u st =>
      (some? (setFieldOf u f v) st).bind fun u st => (st.put (setVar x u st.vars)).bind fun _ st => r.exec w k st
  | .var _ x t r, st => r.exec w k { st with vars := (x, zeroOf w t) :: st.vars }
  | .const _ x n r, st => r.exec w k { st with vars := (x, .num n) :: st.vars }
  | .run _ e r, st => (e.eval w k st).bind fun _ st => r.exec w k st
  | .deferred _ e r, st => finish (e.eval w k) (r.exec w k st)
  | .ifThen _ c b r, st => ((c.eval w k st).bind fun vs st' => branch vs st' fun st' => leave st.vars.length (b.exec w k st')).next fun st => r.exec w k st
  | .ifDefine _ xs e c b r, st => (leave st.vars.length ((e.eval w k st).bind fun vs st => (st.put (defVars xs vs st.vars)).bind fun _ st =>
      (c.eval w k st).bind fun vs st => branch vs st (b.exec w k))).next fun st => r.exec w k st
  | .ifAssign _ x e c b r, st => (leave st.vars.length ((e.eval w k st).bind fun vs st => (st.put (setVars [x] vs st.vars)).bind fun _ st =>
      (c.eval w k st).bind fun vs st => branch vs st (b.exec w k))).next fun st => r.exec w k st
  | .forRange _ xs e b r, st => ((e.eval w k st).bind fun vs st => (one vs st).bind fun v st => (some? (rangeOf st v) st).bind fun l st =>
      each (fun p st' => leave st.vars.length ((st'.put (defVars xs (bound xs p) st'.vars)).bind fun _ st' => b.exec w k st')) l st).next
        fun st => r.exec w k st
  | .ret _ vs _, st => (vs.eval w k st).bind fun vs st => .ok (some vs) st

/-- A body with its parameters, in an environment; the caller's variables are as before. -/
def runBody (w : World M) (k : Calls M) (params : List (Str × Str)) (body : Code) (vars : Vars M) (args : List (Val M)) (st : St M) :
    Ans M (List (Val M)) :=
  match defVars (params.map (·.1)) args vars with
  | none => .stuck
  | some new => match body.exec w k { st with vars := new } with
    | .ok r st' => .ok (r.getD []) { st' with vars := st.vars }
    | .panic st' => .panic { st' with vars := st.vars }
    | .stuck => .stuck

/-- The name of a function, with the type of its receiver. -/
def Func.key (f : Func) : Str := match f.recv with
  | some r => r.2 ++ (chars% "." ++ f.name)
  | none => f.name

def Func.run (w : World M) (k : Calls M) (f : Func) (args : List (Val M)) (st : St M) : Ans M (List (Val M)) :=
  runBody w k ((f.recv.toList) ++ f.params) f.body [] args st

/-- Calls among the functions of a package, to a depth. -/
def calls (w : World M) (p : List Func) : Nat → Calls M
  | 0 => ⟨fun f => p.any (·.key = f), fun _ _ _ => .stuck⟩
  | n + 1 => ⟨fun f => p.any (·.key = f), fun f args st => match p.find? (·.key = f) with
    | some g => g.run w (calls w p n) args st
    | none => .stuck⟩

/-- A call of a value: what go-kit does with the functions that are returned to it. -/
def apply (w : World M) (k : Calls M) (v : Val M) (args : List (Val M)) (st : St M) : Ans M (List (Val M)) := match v with
  | .closure ps b vars => runBody w k ps b vars args st
  | _ => .stuck

/-! ## The functions -/

/-- `f(a, b, …)` on one line. -/
def args : List Expr → Args
  | [] => .done []
  | [e] => .arg [] e [] (.done [])
  | e :: l => .arg [] e (chars% ", ") (args l)

def var (x : Str) : Expr := .id x

/-- Options of protojson that are true. -/
def optionArgs : List (Str × Str) → Args
  | [] => .done (chars% "\n\t")
  | (x, colon) :: l => .named (chars% "\n\t\t") x colon (.id (chars% "true")) (chars% ",") (optionArgs l)

/-- NAME.pb.baron.go.tmpl:361-380 `errorEncoder`. -/
def errorEncoder : Func where
  recv := none
  name := chars% "errorEncoder"
  params := [(chars% "_", chars% "context.Context"), (chars% "err", chars% "error"), (chars% "w", chars% "http.ResponseWriter")]
  results := []
  body :=
    .define (chars% "\n\t") [chars% "body", chars% "_"] (.call (chars% "json.Marshal") (args [.lit (chars% "errorWrapper")
      (.named [] (chars% "Error") (chars% ": ") (.method (var (chars% "err")) (chars% "Error") (args [])) [] (.done []))])) <|
    .ifDefine (chars% "\n\t") [chars% "marshaler", chars% "ok"] (.test (var (chars% "err")) (chars% "json.Marshaler")) (var (chars% "ok"))
      (.ifDefine (chars% "\n\t\t") [chars% "jsonBody", chars% "marshalErr"] (.method (var (chars% "marshaler")) (chars% "MarshalJSON") (args []))
        (.bin (var (chars% "marshalErr")) (chars% "==") .nil)
        (.assign (chars% "\n\t\t\t") [chars% "body"] (var (chars% "jsonBody")) (.done (chars% "\n\t\t"))) <|
      .done (chars% "\n\t")) <|
    .run (chars% "\n\t") (.method (.method (var (chars% "w")) (chars% "Header") (args [])) (chars% "Set") (args [.text (chars% "Content-Type"), var (chars% "contentType")])) <|
    .ifDefine (chars% "\n\t") [chars% "headerer", chars% "ok"] (.test (var (chars% "err")) (chars% "httptransport.Headerer")) (var (chars% "ok"))
      (.forRange (chars% "\n\t\t") [chars% "k"] (.method (var (chars% "headerer")) (chars% "Headers") (args []))
        (.run (chars% "\n\t\t\t") (.method (.method (var (chars% "w")) (chars% "Header") (args [])) (chars% "Set")
          (args [var (chars% "k"), .method (.method (var (chars% "headerer")) (chars% "Headers") (args [])) (chars% "Get") (args [var (chars% "k")])])) <|
        .done (chars% "\n\t\t")) <|
      .done (chars% "\n\t")) <|
    .define (chars% "\n\t") [chars% "code"] (var (chars% "http.StatusInternalServerError")) <|
    .ifDefine (chars% "\n\t") [chars% "sc", chars% "ok"] (.test (var (chars% "err")) (chars% "httptransport.StatusCoder")) (var (chars% "ok"))
      (.assign (chars% "\n\t\t") [chars% "code"] (.method (var (chars% "sc")) (chars% "StatusCode") (args [])) <|
      .done (chars% "\n\t")) <|
    .run (chars% "\n\t") (.method (var (chars% "w")) (chars% "WriteHeader") (args [var (chars% "code")])) <|
    .run (chars% "\n\t") (.method (var (chars% "w")) (chars% "Write") (args [var (chars% "body")])) <|
    .done (chars% "\n")

/-- NAME.pb.baron.go.tmpl:382-393 `errorDecoder`. -/
def errorDecoder : Func where
  recv := none
  name := chars% "errorDecoder"
  params := [(chars% "buf", chars% "[]byte")]
  results := chars% "error "
  body :=
    .var (chars% "\n\t") (chars% "w") (chars% "errorWrapper") <|
    .ifDefine (chars% "\n\t") [chars% "err"] (.into (chars% "json") (chars% "buf") (chars% "w")) (.bin (var (chars% "err")) (chars% "!=") .nil)
      (.const (chars% "\n\t\t") (chars% "size") 8196 <|
      .ifThen (chars% "\n\t\t") (.bin (.call (chars% "len") (args [var (chars% "buf")])) (chars% ">") (var (chars% "size")))
        (.assign (chars% "\n\t\t\t") [chars% "buf"] (.cut (chars% "buf") (chars% "size")) <|
        .done (chars% "\n\t\t")) <|
      .ret (chars% "\n\t\t") (args [.call (chars% "fmt.Errorf") (args [.text (chars% "response body '%s': cannot parse non-json request body"), var (chars% "buf")])]) <|
      .done (chars% "\n\t")) <|
    .ret (chars% "\n\n\t") (args [.call (chars% "errors.New") (args [.sel (var (chars% "w")) (chars% "Error")])]) <|
    .done (chars% "\n")

/-- NAME.pb.baron.go.tmpl:407-409. -/
def statusCode : Func where
  recv := some (chars% "h", chars% "httpError")
  name := chars% "StatusCode"
  params := []
  results := chars% "int "
  body := .ret (chars% "\n\t") (args [.sel (var (chars% "h")) (chars% "statusCode")]) (.done (chars% "\n"))

/-- NAME.pb.baron.go.tmpl:411-413. -/
def headers : Func where
  recv := some (chars% "h", chars% "httpError")
  name := chars% "Headers"
  params := []
  results := chars% "http.Header "
  body := .ret (chars% "\n\t") (args [.sel (var (chars% "h")) (chars% "headers")]) (.done (chars% "\n"))

/-- NAME.pb.baron.go.tmpl:467-482 `EncodeHTTPGenericResponse`. -/
def encodeResponse : Func where
  recv := none
  name := chars% "EncodeHTTPGenericResponse"
  params := [(chars% "_", chars% "context.Context"), (chars% "w", chars% "http.ResponseWriter"), (chars% "response", chars% "interface{}")]
  results := chars% "error "
  body :=
    .define (chars% "\n\t") [chars% "marshaller"] (.lit (chars% "protojson.MarshalOptions") (optionArgs [(chars% "AllowPartial", chars% ":    "),
      (chars% "UseProtoNames", chars% ":   "), (chars% "UseEnumNumbers", chars% ":  "), (chars% "EmitUnpopulated", chars% ": ")])) <|
    .define (chars% "\n\t") [chars% "buf", chars% "err"] (.method (var (chars% "marshaller")) (chars% "Marshal") (args [.assert (var (chars% "response")) (chars% "proto.Message")])) <|
    .ifThen (chars% "\n\t") (.bin (var (chars% "err")) (chars% "!=") .nil)
      (.ret (chars% "\n\t\t") (args [var (chars% "err")]) <|
      .done (chars% "\n\t")) <|
    .assign (chars% "\n\t") [chars% "_", chars% "err"] (.method (var (chars% "w")) (chars% "Write") (args [var (chars% "buf")])) <|
    .ret (chars% "\n\t") (args [var (chars% "err")]) <|
    .done (chars% "\n")

/-- `ctx = context.WithValue(ctx, key, val)` -/
def withValue (ws : Str) (key val : Expr) (rest : Code) : Code :=
  .assign ws [chars% "ctx"] (.call (chars% "context.WithValue") (args [var (chars% "ctx"), key, val])) rest

/-- NAME.pb.baron.go.tmpl:486-502 `HTTPHeadersToContext`. -/
def headersToContext : Func where
  recv := none
  name := chars% "HTTPHeadersToContext"
  params := [(chars% "ctx", chars% "context.Context"), (chars% "r", chars% "*http.Request")]
  results := chars% "context.Context "
  body :=
    .forRange (chars% "\n\t") [chars% "k"] (.sel (var (chars% "r")) (chars% "Header"))
      (.comment (chars% "\n\t\t") (chars% " The key is added both in http format (k) which has had") <|
      .comment (chars% "\n\t\t") (chars% " http.CanonicalHeaderKey called on it in transport as well as the") <|
      .comment (chars% "\n\t\t") (chars% " strings.ToLower which is the grpc metadata format of the key so") <|
      .comment (chars% "\n\t\t") (chars% " that it can be accessed in either format") <|
      withValue (chars% "\n\t\t") (var (chars% "k")) (.method (.sel (var (chars% "r")) (chars% "Header")) (chars% "Get") (args [var (chars% "k")])) <|
      withValue (chars% "\n\t\t") (.call (chars% "strings.ToLower") (args [var (chars% "k")])) (.method (.sel (var (chars% "r")) (chars% "Header")) (chars% "Get") (args [var (chars% "k")])) <|
      .done (chars% "\n\t")) <|
    .comment (chars% "\n\n\t") (chars% " Tune specific change.") <|
    .comment (chars% "\n\t") (chars% " also add the request url") <|
    withValue (chars% "\n\t") (.text (chars% "request-url")) (.sel (.sel (var (chars% "r")) (chars% "URL")) (chars% "Path")) <|
    withValue (chars% "\n\t") (.text (chars% "transport")) (.text (chars% "HTTPJSON")) <|
    .ret (chars% "\n\n\t") (args [var (chars% "ctx")]) <|
    .done (chars% "\n")

/-- NAME.pb.baron.go.tmpl:549-553 `copyURL`. -/
def copyURL : Func where
  recv := none
  name := chars% "copyURL"
  params := [(chars% "base", chars% "*url.URL"), (chars% "path", chars% "string")]
  results := chars% "*url.URL "
  body :=
    .define (chars% "\n\t") [chars% "next"] (.star (chars% "base")) <|
    .setField (chars% "\n\t") (chars% "next") (chars% "Path") (var (chars% "path")) <|
    .ret (chars% "\n\t") (args [.addr (chars% "next")]) <|
    .done (chars% "\n")

/-- NAME.pb.baron.go.tmpl:562-569: the function that `CtxValuesToSend` registers. -/
def sendValues : Code :=
  .forRange (chars% "\n\t\t") [chars% "_", chars% "k"] (var (chars% "keys"))
    (.ifDefine (chars% "\n\t\t\t") [chars% "v", chars% "ok"] (.test (.method (var (chars% "ctx")) (chars% "Value") (args [var (chars% "k")])) (chars% "string")) (var (chars% "ok"))
      (.run (chars% "\n\t\t\t\t") (.method (.sel (var (chars% "r")) (chars% "Header")) (chars% "Set") (args [var (chars% "k"), var (chars% "v")])) <|
      .done (chars% "\n\t\t\t")) <|
    .done (chars% "\n\t\t")) <|
  .ret (chars% "\n\t\t") (args [var (chars% "ctx")]) <|
  .done (chars% "\n\t")

/-- NAME.pb.baron.go.tmpl:561-570 `CtxValuesToSend`. -/
def ctxValuesToSend : Func where
  recv := none
  name := chars% "CtxValuesToSend"
  params := [(chars% "keys", chars% "...string")]
  results := chars% "httptransport.ClientOption "
  body :=
    .ret (chars% "\n\t") (args [.call (chars% "httptransport.ClientBefore")
      (args [.fn [(chars% "ctx", chars% "context.Context"), (chars% "r", chars% "*http.Request")] (chars% "context.Context") sendValues])]) <|
    .done (chars% "\n")

/-- Options of protojson in the decoders of responses. -/
def readArgs : Args :=
  .named (chars% "\n\t\t\t") (chars% "AllowPartial") (chars% ":   ") (.id (chars% "true")) (chars% ",") <|
  .named (chars% "\n\t\t\t") (chars% "DiscardUnknown") (chars% ": ") (.id (chars% "true")) (chars% ",") <|
  .done (chars% "\n\t\t")

/-- NAME.pb.baron.go.tmpl:580-604 `DecodeHTTP…Response` of a method, whose response has the Go type `t`. -/
def decodeResponse (m t : Str) : Func where
  recv := none
  name := chars% "DecodeHTTP" ++ (m ++ chars% "Response")
  params := [(chars% "_", chars% "context.Context"), (chars% "r", chars% "*http.Response")]
  results := chars% "(interface{}, error) "
  body :=
    .deferred (chars% "\n\t\t") (.method (.sel (var (chars% "r")) (chars% "Body")) (chars% "Close") (args [])) <|
    .define (chars% "\n\t\t") [chars% "buf", chars% "err"] (.call (chars% "ioutil.ReadAll") (args [.sel (var (chars% "r")) (chars% "Body")])) <|
    .ifThen (chars% "\n\t\t") (.bin (var (chars% "err")) (chars% "==") (var (chars% "io.EOF")))
      (.ret (chars% "\n\t\t\t") (args [.nil, .call (chars% "errors.New") (args [.text (chars% "response http body empty")])]) <|
      .done (chars% "\n\t\t")) <|
    .ifThen (chars% "\n\t\t") (.bin (var (chars% "err")) (chars% "!=") .nil)
      (.ret (chars% "\n\t\t\t") (args [.nil, .call (chars% "errors.Wrap") (args [var (chars% "err"), .text (chars% "cannot read http body")])]) <|
      .done (chars% "\n\t\t")) <|
    .ifThen (chars% "\n\n\t\t") (.bin (.sel (var (chars% "r")) (chars% "StatusCode")) (chars% "!=") (var (chars% "http.StatusOK")))
      (.ret (chars% "\n\t\t\t") (args [.nil, .call (chars% "errors.Wrapf") (args [.call (chars% "errorDecoder") (args [var (chars% "buf")]), .text (chars% "status code: '%d'"), .sel (var (chars% "r")) (chars% "StatusCode")])]) <|
      .done (chars% "\n\t\t")) <|
    .var (chars% "\n\n\t\t") (chars% "resp") t <|
    .define (chars% "\n\t\t") [chars% "unmarshaller"] (.lit (chars% "protojson.UnmarshalOptions") readArgs) <|
    .ifAssign (chars% "\n\t\t") (chars% "err") (.into (chars% "unmarshaller") (chars% "buf") (chars% "resp")) (.bin (var (chars% "err")) (chars% "!=") .nil)
      (.ret (chars% "\n\t\t\t") (args [.nil, .call (chars% "errorDecoder") (args [var (chars% "buf")])]) <|
      .done (chars% "\n\t\t")) <|
    .ret (chars% "\n\n\t\t") (args [.addr (chars% "resp"), .nil]) <|
    .done (chars% "\n\t")

/-- NAME.pb.baron.go.tmpl:243-249: for one entry. -/
def metadataLoop : Code :=
  .ifThen (chars% "\n\t\t") (.bin (var (chars% "v")) (chars% "!=") .nil)
    (.comment (chars% "\n\t\t\t") (chars% " The key is added both in metadata format (k) which is all lower") <|
    .comment (chars% "\n\t\t\t") (chars% " and the http.CanonicalHeaderKey of the key so that it can be") <|
    .comment (chars% "\n\t\t\t") (chars% " accessed in either format") <|
    withValue (chars% "\n\t\t\t") (var (chars% "k")) (.first (chars% "v")) <|
    withValue (chars% "\n\t\t\t") (.call (chars% "http.CanonicalHeaderKey") (args [var (chars% "k")])) (.first (chars% "v")) <|
    .done (chars% "\n\t\t")) <|
  .done (chars% "\n\t")

/-- NAME.pb.baron.go.tmpl:241-253 `GRPCMetadataToContext`. -/
def metadataToContext : Func where
  recv := none
  name := chars% "GRPCMetadataToContext"
  params := [(chars% "ctx", chars% "context.Context"), (chars% "md", chars% "metadata.MD")]
  results := chars% "context.Context "
  body :=
    .forRange (chars% "\n\t") [chars% "k", chars% "v"] (var (chars% "md"))
      metadataLoop <|
    .ret (chars% "\n\n\t") (args [var (chars% "ctx")]) <|
    .done (chars% "\n")

/-- NAME.pb.baron.go.tmpl:308-321: the function that `ContextValuesToGRPCMetadata` returns. -/
def sendMetadata : Code :=
  .var (chars% "\n\t\t") (chars% "pairs") (chars% "[]string") <|
  .forRange (chars% "\n\t\t") [chars% "_", chars% "k"] (var (chars% "keys"))
    (.ifDefine (chars% "\n\t\t\t") [chars% "v", chars% "ok"] (.test (.method (var (chars% "ctx")) (chars% "Value") (args [var (chars% "k")])) (chars% "string")) (var (chars% "ok"))
      (.assign (chars% "\n\t\t\t\t") [chars% "pairs"] (.call (chars% "append") (args [var (chars% "pairs"), var (chars% "k"), var (chars% "v")])) <|
      .done (chars% "\n\t\t\t")) <|
    .done (chars% "\n\t\t")) <|
  .ifThen (chars% "\n\n\t\t") (.bin (var (chars% "pairs")) (chars% "!=") .nil)
    (.setStar (chars% "\n\t\t\t") (chars% "md") (.call (chars% "metadata.Join") (args [.star (chars% "md"), .call (chars% "metadata.Pairs") (.spread [] (chars% "pairs") [] (.done []))])) <|
    .done (chars% "\n\t\t")) <|
  .ret (chars% "\n\n\t\t") (args [var (chars% "ctx")]) <|
  .done (chars% "\n\t")

/-- NAME.pb.baron.go.tmpl:307-322 `ContextValuesToGRPCMetadata`. -/
def valuesToMetadata : Func where
  recv := none
  name := chars% "ContextValuesToGRPCMetadata"
  params := [(chars% "keys", chars% "[]string")]
  results := chars% "grpctransport.ClientRequestFunc "
  body :=
    .ret (chars% "\n\t") (args [.fn [(chars% "ctx", chars% "context.Context"), (chars% "md", chars% "*metadata.MD")] (chars% "context.Context") sendMetadata]) <|
    .done (chars% "\n")

/-- The functions that are in every transport file, and call each other. -/
def helpers : List Func := [errorEncoder, errorDecoder, statusCode, headers, encodeResponse, headersToContext, copyURL, ctxValuesToSend]

/-- The functions that are in a transport file with gRPC. -/
def grpcHelpers : List Func := [metadataToContext, valuesToMetadata]

/-- All of them, for the rpcs with bindings. -/
def program (s : Svcdef.Service) : List Func :=
  helpers ++ grpcHelpers ++ (s.methods.filter fun m => !m.bindings.isEmpty).map fun m => decodeResponse m.name (Strs.goCamelCase m.response.name)

end Baron.GoHTTP
