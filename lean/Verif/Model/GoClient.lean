import Verif.Model.GoLang
import Verif.Model.Runtime

/-!
# A fragment of Go: generated HTTP request encoders, their text and their meaning

Not a model of code in /repo but of the language the generated code is written in, as far as `EncodeHTTP…Request`
(NAME.pb.baron.go.tmpl:613-714) uses it. Programs that do not compile get stuck. Values are those of `Model/HTTPCode.lean`.
Simplifications: an error is nil or not; `r.URL.RawQuery` is given by the values it is the encoding of; a type assertion gives a pointer
to the one message there is; `json.Marshal` is only used for enums and for values given by their JSON text, and does not fail.
-/

namespace Baron.GoClient

open Baron.HTTPCode (Floats SVal FVal FullMsg Base baseOf addValue sprint itoaInt isZero)
open Baron.Runtime (Header headerSet)
open Baron.TT (literal)
open Baron.GoLang (Fault commas)

/-! ## Syntax -/

inductive Expr where
  | id (x : Str)
  | nil
  /-- `0` or `false` -/
  | lit (s : Str)
  /-- a string literal, as it is written between the quotes -/
  | text (s : Str)
  /-- `x.f` -/
  | field (x f : Str)
  /-- `*a` -/
  | deref (a : Expr)
  /-- `x.(*t)` -/
  | assert (x t : Str)
  /-- `req.Getf()` -/
  | getter (f : Str)
  /-- `[]string{a}`, where `a` is made of the next two -/
  | slice (a : Expr)
  | elem (a rest : Expr)
  | last
  /-- `a op b` for the operator `!=` -/
  | ne (a : Expr) (op : Str) (b : Expr)
  /-- `protojson.MarshalOptions{…}` -/
  | options
  | call0 (f : Str)
  | call1 (f : Str) (a : Expr)
  | call2 (f : Str) (a b : Expr)
  | call3 (f : Str) (a b c : Expr)
  deriving Repr, DecidableEq

/-- Statements. `ws` is the white space before a statement or a closing brace. -/
inductive Code where
  | done (ws : Str)
  /-- `x, … := e` -/
  | define (ws : Str) (xs : List Str) (e : Expr) (rest : Code)
  /-- `x, … = e` -/
  | assign (ws : Str) (xs : List Str) (e : Expr) (rest : Code)
  /-- `_ = x` -/
  | use (ws x : Str) (rest : Code)
  /-- `var x []byte` -/
  | bytes (ws x : Str) (rest : Code)
  /-- `x.f = e` -/
  | set (ws x f : Str) (e : Expr) (rest : Code)
  /-- `f(a, b)` -/
  | call (ws f : Str) (a b : Expr) (rest : Code)
  /-- `if c {…}` -/
  | cond (ws : Str) (c : Expr) (body rest : Code)
  /-- `if x := e; c {…}` -/
  | condInit (ws x : Str) (e c : Expr) (body rest : Code)
  /-- `for _, v := range e {…}` -/
  | range (ws v : Str) (e : Expr) (body rest : Code)
  /-- `return e` -/
  | ret (ws : Str) (e : Expr) (rest : Code)
  | comment (ws s : Str) (rest : Code)
  deriving Repr, DecidableEq

/-! ## Text -/

def Expr.print : Expr → Str
  | .id x => x
  | .nil => chars% "nil"
  | .lit s => s
  | .text s => chars% "\"" ++ (s ++ ['"'])
  | .field x f => x ++ (chars% "." ++ f)
  | .deref a => chars% "*" ++ a.print
  | .assert x t => x ++ (chars% ".(*" ++ (t ++ [')']))
  | .getter f => chars% "req.Get" ++ (f ++ ['(', ')'])
  | .slice a => chars% "[]string{" ++ (a.print ++ ['}'])
  | .elem a r => chars% "\n\t\t\t" ++ (a.print ++ (chars% "," ++ r.print))
  | .last => chars% "\n\t\t"
  | .ne a op b => a.print ++ (op ++ b.print)
  | .options => chars% "protojson.MarshalOptions{\n\t\t\tAllowPartial:    true,\n\t\t\tUseProtoNames:   true,\n\t\t\tUseEnumNumbers:  true,\n\t\t\tEmitUnpopulated: true,\n\t\t}"
  | .call0 f => f ++ ['(', ')']
  | .call1 f a => f ++ (chars% "(" ++ (a.print ++ [')']))
  | .call2 f a b => f ++ (chars% "(" ++ (a.print ++ (chars% ", " ++ (b.print ++ [')']))))
  | .call3 f a b c => f ++ (chars% "(" ++ (a.print ++ (chars% ", " ++ (b.print ++ (chars% ", " ++ (c.print ++ [')']))))))

def Code.print : Code → Str
  | .done ws => ws
  | .define ws xs e r => ws ++ (commas xs ++ (chars% " := " ++ (e.print ++ r.print)))
  | .assign ws xs e r => ws ++ (commas xs ++ (chars% " = " ++ (e.print ++ r.print)))
  | .use ws x r => ws ++ (chars% "_ = " ++ (x ++ r.print))
  | .bytes ws x r => ws ++ (chars% "var " ++ (x ++ (chars% " []byte" ++ r.print)))
  | .set ws x f e r => ws ++ (x ++ (chars% "." ++ (f ++ (chars% " = " ++ (e.print ++ r.print)))))
  | .call ws f a b r => ws ++ ((Expr.call2 f a b).print ++ r.print)
  | .cond ws c b r => ws ++ (chars% "if " ++ (c.print ++ (chars% " {" ++ (b.print ++ (chars% "}" ++ r.print)))))
  | .condInit ws x e c b r => ws ++ (chars% "if " ++ (x ++ (chars% " := " ++ (e.print ++ (chars% "; " ++
      (c.print ++ (chars% " {" ++ (b.print ++ (chars% "}" ++ r.print)))))))))
  | .range ws v e b r => ws ++ (chars% "for _, " ++ (v ++ (chars% " := range " ++ (e.print ++ (chars% " {" ++
      (b.print ++ (chars% "}" ++ r.print)))))))
  | .ret ws e r => ws ++ (chars% "return " ++ (e.print ++ r.print))
  | .comment ws s r => ws ++ (chars% "//" ++ (s ++ r.print))

/-! ## Meaning -/

/-- Values of variables and expressions. What `fmt.Sprint` makes of values that are not scalars is part of the value. -/
inductive GV (F : Type) where
  /-- a value of a base type, or of an enum type -/
  | scalar (t : Option Base) (v : SVal F)
  /-- the zero value of a base type -/
  | zero (t : Base)
  /-- a pointer to a scalar -/
  | ptr (t : Option Base) (v : Option (SVal F)) (text : Str)
  /-- a slice of scalars -/
  | list (t : Option Base) (l : List (SVal F)) (text : Str)
  /-- a value of another type, by its JSON text -/
  | other (json text : Str)
  | strs (l : List Str)
  | bool (b : Bool)
  | bytes (s : Str)
  /-- an error: nil or not -/
  | err (b : Bool)
  | url (path raw : Str)
  | query (q : List (Str × List Str))
  /-- a pointer to the request message -/
  | msg
  | marshaler
  /-- a value that is returned with an error and not used -/
  | junk

/-- The Go string `s`. -/
def GV.str {F : Type} (s : Str) : GV F := .scalar (some .string) (.str s)

/-- What the libraries do, and the message's type: its fields, with their base type if they have one, and the getters of the options of
its oneofs, with the name of the oneof. -/
structure Libs (F : Type) where
  fl : Floats F
  fzero : F → Bool
  /-- `fmt.Sprint` of pointers, slices and messages -/
  addr : Str → Str
  /-- `String` of an enum -/
  enumText : Int → Str
  /-- the `RawPath` of a parsed URL -/
  rawPath : Str → Str
  /-- protojson -/
  writeReq : FullMsg F → Option Str
  field : Str → Option (Option Base)
  option : Str → Option (Str × Base)

abbrev Scope (F : Type) := Str → Option (GV F)

/-- `*http.Request` -/
structure Http where
  header : Header
  path : Str
  rawPath : Str
  query : List (Str × List Str)
  body : Option Str

/-- The scopes, the innermost first, the request message and the HTTP request. -/
structure State (F : Type) where
  scopes : List (Scope F)
  msg : FullMsg F
  http : Http

variable {F : Type}

def Scope.set (s : Scope F) (x : Str) (v : GV F) : Scope F := fun y => if y = x then some v else s y

/-- The variable of the innermost scope that has it. -/
def find : List (Scope F) → Str → Option (GV F)
  | [], _ => none
  | s :: ss, x => match s x with
    | some v => some v
    | none => find ss x

/-- Assignment. -/
def store : List (Scope F) → Str → GV F → Option (List (Scope F))
  | [], _, _ => none
  | s :: ss, x, v => match s x with
    | some _ => some (s.set x v :: ss)
    | none => (store ss x v).map (s :: ·)

/-- Declaration in the innermost scope, or assignment if it has the variable. -/
def declare : List (Scope F) → Str → GV F → Option (List (Scope F))
  | [], _, _ => none
  | s :: ss, x, v => some (s.set x v :: ss)

/-- One after the other. -/
def storeAll (put : List (Scope F) → Str → GV F → Option (List (Scope F))) :
    List (Scope F) → List Str → List (GV F) → Option (List (Scope F))
  | ss, [], [] => some ss
  | ss, x :: xs, v :: vs => match put ss x v with
    | none => none
    | some ss' => storeAll put ss' xs vs
  | _, _, _ => none

/-- The value of a field. -/
def ofField (t : Option Base) (text : Str) : FVal F → GV F
  | .one v => .scalar t v
  | .opt o => .ptr t o text
  | .many l => .list t l text
  | .other j => .other j text

/-- A value as that of a field. -/
def toField : GV F → Option (FVal F)
  | .scalar _ v => some (.one v)
  | .ptr _ o _ => some (.opt o)
  | .list _ l _ => some (.many l)
  | .other j _ => some (.other j)
  | _ => none

/-- `fmt.Sprint`; an enum is printed by its name. -/
def sprintV (L : Libs F) : GV F → Except Fault (GV F)
  | .scalar (some b) v => .ok (.str (sprint L.fl b v))
  | .scalar none (.num i) => .ok (.str (L.enumText i))
  | .ptr _ none _ => .ok (.str (chars% "<nil>"))
  | .ptr _ (some _) t => .ok (.str t)
  | .list _ _ t => .ok (.str t)
  | .other _ t => .ok (.str t)
  | _ => .error .stuck

/-- `fmt.Sprintf("%d", …)` -/
def sprintD : GV F → Except Fault (GV F)
  | .scalar _ (.num i) => .ok (.str (itoaInt i))
  | .list _ _ t => .ok (.str t)
  | .other _ t => .ok (.str t)
  | _ => .error .stuck

/-- The zero value of a base type as it is written. -/
def zeroOf : Base → Expr
  | .bool => .lit (chars% "false")
  | .string => .text []
  | _ => .lit (chars% "0")

/-- `a != b`: an error or a pointer and nil, or a scalar and the zero of its type. -/
def differs (L : Libs F) : GV F → Expr → Except Fault (GV F)
  | .err e, .nil => .ok (.bool e)
  | .ptr _ o _, .nil => .ok (.bool o.isSome)
  | .scalar (some b) v, z => if z = zeroOf b then .ok (.bool !(isZero L.fzero v)) else .error .stuck
  | .zero b, z => if z = zeroOf b then .ok (.bool false) else .error .stuck
  | _, _ => .error .stuck

def Expr.eval (L : Libs F) (σ : State F) : Expr → Except Fault (GV F)
  | .id x => match find σ.scopes x with
    | some v => .ok v
    | none => .error .stuck
  | .nil => .ok (.err false)
  | .lit _ => .error .stuck
  | .text s => match literal (s ++ ['"']) with
    | some (v, []) => .ok (.str v)
    | _ => .error .stuck
  | .field x f =>
    if x = chars% "r.URL" then if f = chars% "Path" then .ok (.str σ.http.path) else .error .stuck
    else match find σ.scopes x with
      | some .msg => match L.field f with
        | some t => .ok (ofField t (L.addr f) (σ.msg.fields f))
        | none => .error .stuck
      | some (.url path raw) => if f = chars% "Path" then .ok (.str path) else if f = chars% "RawPath" then .ok (.str raw) else .error .stuck
      | _ => .error .stuck
  | .deref a => match a.eval L σ with
    | .ok (.ptr t (some v) _) => .ok (.scalar t v)
    | .ok (.ptr _ none _) => .error .panic
    | .error e => .error e
    | _ => .error .stuck
  | .assert x _ => match find σ.scopes x with
    | some .msg => .ok .msg
    | _ => .error .stuck
  | .getter f => match find σ.scopes (chars% "req"), L.option f with
    | some .msg, some (o, t) => match σ.msg.oneofs o with
      | some (n, v) => if n = f then .ok (.scalar (some t) v) else .ok (.zero t)
      | none => .ok (.zero t)
    | _, _ => .error .stuck
  | .slice a => a.eval L σ
  | .elem a r => match a.eval L σ, r.eval L σ with
    | .ok (.scalar (some .string) (.str s)), .ok (.strs l) => .ok (.strs (s :: l))
    | .error e, _ => .error e
    | _, .error e => .error e
    | _, _ => .error .stuck
  | .last => .ok (.strs [])
  | .ne a _ b => match a.eval L σ with
    | .ok v => differs L v b
    | .error e => .error e
  | .options => .ok .marshaler
  | .call0 f =>
    if f = chars% "r.URL.Query" then .ok (.query σ.http.query)
    else if f = chars% "values.Encode" then match find σ.scopes (chars% "values") with
      | some (.query q) => .ok (.query q)
      | _ => .error .stuck
    else .error .stuck
  | .call1 f a => match a.eval L σ with
    | .error e => .error e
    | .ok v =>
      if f = chars% "fmt.Sprint" then sprintV L v
      else if f = chars% "string" then match v with
        | .bytes s => .ok (.str s)
        | _ => .error .stuck
      else if f = chars% "ioutil.NopCloser" ∨ f = chars% "bytes.NewBuffer" then match v with
        | .bytes s => .ok (.bytes s)
        | _ => .error .stuck
      else .error .stuck
  | .call2 f a b =>
    if f = chars% "fmt.Sprintf" then match a, b.eval L σ with
      | .text t, .ok v => if t = chars% "%d" then sprintD v else .error .stuck
      | _, .error e => .error e
      | _, _ => .error .stuck
    else if f = chars% "strings.Join" then match a.eval L σ, b with
      | .ok (.strs l), .text t => if t = chars% "/" then .ok (.str (join '/' l)) else .error .stuck
      | .error e, _ => .error e
      | _, _ => .error .stuck
    else if f = chars% "errors.Wrap" then match a.eval L σ with
      | .ok (.err e) => .ok (.err e)
      | .error e => .error e
      | _ => .error .stuck
    else .error .stuck
  | .call3 f a _ _ =>
    if f = chars% "errors.Wrapf" then match a.eval L σ with
      | .ok (.err e) => .ok (.err e)
      | .error e => .error e
      | _ => .error .stuck
    else .error .stuck

/-- The values of an expression, as many as are asked for. -/
def Expr.evals (L : Libs F) (σ : State F) (n : Nat) (e : Expr) : Except Fault (List (GV F)) :=
  if n = 1 then match e.eval L σ with
    | .ok v => .ok [v]
    | .error f => .error f
  else match e with
    | .call1 f a => match a.eval L σ with
      | .error e => .error e
      | .ok v =>
        if f = chars% "url.Parse" then match v with
          | .scalar (some .string) (.str s) => match HTTP.urlParsePath s with
            | some p => .ok [.url p (L.rawPath s), .err false]
            | none => .ok [.junk, .err true]
          | _ => .error .stuck
        else if f = chars% "json.Marshal" then match v with
          | .scalar none (.num i) => .ok [.bytes (itoaInt i), .err false]
          | .other j _ => .ok [.bytes j, .err false]
          | _ => .error .stuck
        else if f = chars% "marshaler.Marshal" then match find σ.scopes (chars% "marshaler"), v with
          | some .marshaler, .msg => match L.writeReq σ.msg with
            | some s => .ok [.bytes s, .err false]
            | none => .ok [.junk, .err true]
          | _, _ => .error .stuck
        else .error .stuck
    | _ => .error .stuck

/-- `x.f = v` -/
def assignField (L : Libs F) (σ : State F) (x f : Str) (v : GV F) : Option (State F) :=
  if x = chars% "r.URL" then match v with
    | .scalar (some .string) (.str s) => if f = chars% "Path" then some { σ with http := { σ.http with path := s } }
      else if f = chars% "RawPath" then some { σ with http := { σ.http with rawPath := s } } else none
    | .query q => if f = chars% "RawQuery" then some { σ with http := { σ.http with query := q } } else none
    | _ => none
  else if x = chars% "r" then match v with
    | .bytes s => if f = chars% "Body" then some { σ with http := { σ.http with body := some s } } else none
    | _ => none
  else match find σ.scopes x, L.field f, toField v with
    | some .msg, some _, some w => some { σ with msg := ⟨fun g => if g = f then w else σ.msg.fields g, σ.msg.oneofs⟩ }
    | _, _, _ => none

/-- A call whose result is not used. -/
def perform (σ : State F) (f : Str) (a b : GV F) : Option (State F) :=
  match a, b with
  | .scalar (some .string) (.str k), .scalar (some .string) (.str v) =>
    if f = chars% "r.Header.Set" then some { σ with http := { σ.http with header := headerSet σ.http.header k v } }
    else if f = chars% "values.Add" then match find σ.scopes (chars% "values") with
      | some (.query q) => (store σ.scopes (chars% "values") (.query (addValue q k v))).map fun ss => { σ with scopes := ss }
      | _ => none
    else none
  | _, _ => none

inductive Out (F : Type) where
  | next (σ : State F)
  /-- returned, with an error or not -/
  | returned (err : Bool) (σ : State F)
  | fault (f : Fault)

/-- Go on with the next statement. -/
def Out.then (o : Out F) (k : State F → Out F) : Out F :=
  match o with
  | .next σ => k σ
  | o => o

/-- Leave a block. -/
def Out.pop (o : Out F) : Out F :=
  match o with
  | .next σ => .next { σ with scopes := σ.scopes.tail }
  | o => o

def State.push (σ : State F) : State F := { σ with scopes := (fun _ => none) :: σ.scopes }

/-- The iterations of a `range`. -/
def iterate (f : GV F → State F → Out F) : List (GV F) → State F → Out F
  | [], σ => .next σ
  | v :: l, σ => (f v σ).then (iterate f l)

/-- Execution. -/
def Code.exec (L : Libs F) : Code → State F → Out F
  | .done _, σ => .next σ
  | .define _ xs e r, σ => match e.evals L σ xs.length with
    | .error f => .fault f
    | .ok vs => match storeAll declare σ.scopes xs vs with
      | none => .fault .stuck
      | some ss => r.exec L { σ with scopes := ss }
  | .assign _ xs e r, σ => match e.evals L σ xs.length with
    | .error f => .fault f
    | .ok vs => match storeAll store σ.scopes xs vs with
      | none => .fault .stuck
      | some ss => r.exec L { σ with scopes := ss }
  | .use _ x r, σ => match find σ.scopes x with
    | some _ => r.exec L σ
    | none => .fault .stuck
  | .bytes _ x r, σ => match declare σ.scopes x (.bytes []) with
    | none => .fault .stuck
    | some ss => r.exec L { σ with scopes := ss }
  | .set _ x f e r, σ => match e.eval L σ with
    | .error f => .fault f
    | .ok v => match assignField L σ x f v with
      | none => .fault .stuck
      | some σ' => r.exec L σ'
  | .call _ f a b r, σ => match a.eval L σ, b.eval L σ with
    | .error f, _ => .fault f
    | _, .error f => .fault f
    | .ok v, .ok w => match perform σ f v w with
      | none => .fault .stuck
      | some σ' => r.exec L σ'
  | .cond _ c b r, σ => match c.eval L σ with
    | .ok (.bool true) => ((b.exec L σ.push).pop).then (r.exec L)
    | .ok (.bool false) => r.exec L σ
    | .error f => .fault f
    | _ => .fault .stuck
  | .condInit _ x e c b r, σ => match e.eval L σ with
    | .error f => .fault f
    | .ok v => match declare σ.push.scopes x v with
      | none => .fault .stuck
      | some ss => match c.eval L { σ with scopes := ss } with
        | .ok (.bool true) => (((b.exec L (State.push { σ with scopes := ss })).pop).pop).then (r.exec L)
        | .ok (.bool false) => r.exec L σ
        | .error f => .fault f
        | _ => .fault .stuck
  | .range _ v e b r, σ => match e.eval L σ with
    | .ok (.list t l _) => (iterate (fun w σ => match declare σ.push.scopes v w with
        | none => .fault .stuck
        | some ss => ((b.exec L (State.push { σ with scopes := ss })).pop).pop) (l.map (.scalar t)) σ).then (r.exec L)
    | .error f => .fault f
    | _ => .fault .stuck
  | .ret _ e _, σ => match e.eval L σ with
    | .ok (.err b) => .returned b σ
    | .error f => .fault f
    | _ => .fault .stuck
  | .comment _ _ r, σ => r.exec L σ

/-- Several pieces of code in the same block, one after the other. -/
def run (L : Libs F) : List Code → State F → Out F
  | [], σ => .next σ
  | c :: cs, σ => (c.exec L σ).then (run L cs)

end Baron.GoClient
