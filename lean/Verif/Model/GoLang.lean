import Verif.Model.Oneof
import Verif.Spec.Texts

/-!
# A fragment of Go: the statements of generated HTTP request decoders, their text and their meaning

Not a model of code in /repo but of the language the generated code is written in, as far as `GenQueryUnmarshaler`
(httptransport.go:289-358) uses it: nested scopes, `:=` (which declares a variable only if the innermost scope has none of that name),
`if` with an initialisation, `range`, `switch`, `return`, and the functions of the standard library that are called. Programs that
do not compile get stuck. Values are those of `Model/HTTPCode.lean`. Simplifications: an error is nil or not; what
`json.Unmarshal` makes of a text is that model's `jsonArray` and `JSONOk`; converting to `float32` keeps the number, as `ParseFloat`
gives one of that size.
-/

namespace Baron.GoLang

open Baron.HTTP (itoa look)
open Baron.HTTPCode (Floats SVal FVal FullMsg Base baseOf JSONOk parseInt parseUint parseBool jsonArray allSome)
open Baron.TT (literal)

/-! ## Syntax -/

inductive Expr where
  | id (x : Str)
  | nil
  | num (n : Nat)
  /-- a string literal, as it is written between the quotes -/
  | text (s : Str)
  /-- `a[b]` -/
  | index (a b : Expr)
  /-- `&a` -/
  | addr (a : Expr)
  /-- `T(a)` -/
  | conv (t : Str) (a : Expr)
  /-- `T{}` -/
  | empty (t : Str)
  /-- `T{f: a}` -/
  | keyed (t f : Str) (a : Expr)
  /-- `make([]T, a)` -/
  | make (t : Str) (a : Expr)
  /-- `a op b` -/
  | bin (a : Expr) (op : Str) (b : Expr)
  | call1 (f : Str) (a : Expr)
  | call2 (f : Str) (a b : Expr)
  | call3 (f : Str) (a b c : Expr)
  deriving Repr, DecidableEq

/-- The type of a declared variable: `[]*T`, `[]T`, `*T` or `T`. -/
structure Ty where
  slice : Bool
  star : Bool
  name : Str
  deriving Repr, DecidableEq

/-- Statements. `ws` is the white space before a statement or a closing brace. -/
inductive Code where
  | done (ws : Str)
  /-- `x, … := e` -/
  | define (ws : Str) (xs : List Str) (e : Expr) (rest : Code)
  /-- `var x T` -/
  | var (ws x : Str) (t : Ty) (rest : Code)
  /-- `x = e` -/
  | assign (ws x : Str) (e : Expr) (rest : Code)
  /-- `x[i] = e` -/
  | setAt (ws x i : Str) (e : Expr) (rest : Code)
  /-- `req.f = e` -/
  | setReq (ws f : Str) (e : Expr) (rest : Code)
  /-- `x++` -/
  | inc (ws x : Str) (rest : Code)
  /-- `err = json.Unmarshal([]byte(src), dst)`, or with `&dst` -/
  | unmarshal (ws src : Str) (amp : Bool) (dst : Str) (rest : Code)
  /-- `if c {…}` -/
  | cond (ws : Str) (c : Expr) (body rest : Code)
  /-- `if x, y := e; c {…}` -/
  | condInit (ws x y : Str) (e c : Expr) (body rest : Code)
  /-- `if c {…} else {…}` -/
  | condElse (ws : Str) (c : Expr) (a b rest : Code)
  /-- `for i, v := range e {…}` -/
  | range (ws i v : Str) (e : Expr) (body rest : Code)
  /-- `switch {…}`; the cases are `case`s one after the other -/
  | switch (ws : Str) (cases rest : Code)
  /-- `case c: …` -/
  | case (ws : Str) (c : Expr) (body rest : Code)
  /-- `return a, e` -/
  | ret (ws : Str) (a e : Expr) (rest : Code)
  /-- `// …` up to the end of the line -/
  | comment (ws s : Str) (rest : Code)
  deriving Repr, DecidableEq

/-! ## Text -/

def Expr.print : Expr → Str
  | .id x => x
  | .nil => chars% "nil"
  | .num n => itoa n
  | .text s => chars% "\"" ++ (s ++ ['"'])
  | .index a b => a.print ++ (chars% "[" ++ (b.print ++ [']']))
  | .addr a => chars% "&" ++ a.print
  | .conv t a => t ++ (chars% "(" ++ (a.print ++ [')']))
  | .empty t => t ++ ['{', '}']
  | .keyed t f a => t ++ (chars% "{" ++ (f ++ (chars% ": " ++ (a.print ++ ['}']))))
  | .make t a => chars% "make([]" ++ (t ++ (chars% ", " ++ (a.print ++ [')'])))
  | .bin a op b => a.print ++ (chars% " " ++ (op ++ (chars% " " ++ b.print)))
  | .call1 f a => f ++ (chars% "(" ++ (a.print ++ [')']))
  | .call2 f a b => f ++ (chars% "(" ++ (a.print ++ (chars% ", " ++ (b.print ++ [')']))))
  | .call3 f a b c => f ++ (chars% "(" ++ (a.print ++ (chars% ", " ++ (b.print ++ (chars% ", " ++ (c.print ++ [')']))))))

/-- Names separated by commas. -/
def commas : List Str → Str
  | [] => []
  | [x] => x
  | x :: xs => x ++ (chars% ", " ++ commas xs)

def Ty.print (t : Ty) : Str := (if t.slice then ['[', ']'] else []) ++ ((if t.star then ['*'] else []) ++ t.name)

def Code.print : Code → Str
  | .done ws => ws
  | .define ws xs e r => ws ++ (commas xs ++ (chars% " := " ++ (e.print ++ r.print)))
  | .var ws x t r => ws ++ (chars% "var " ++ (x ++ (chars% " " ++ (t.print ++ r.print))))
  | .assign ws x e r => ws ++ (x ++ (chars% " = " ++ (e.print ++ r.print)))
  | .setAt ws x i e r => ws ++ (x ++ (chars% "[" ++ (i ++ (chars% "] = " ++ (e.print ++ r.print)))))
  | .setReq ws f e r => ws ++ (chars% "req." ++ (f ++ (chars% " = " ++ (e.print ++ r.print))))
  | .inc ws x r => ws ++ (x ++ (chars% "++" ++ r.print))
  | .unmarshal ws src amp dst r => ws ++ (chars% "err = json.Unmarshal([]byte(" ++ (src ++ (chars% "), " ++
      ((if amp then ['&'] else []) ++ (dst ++ (chars% ")" ++ r.print))))))
  | .cond ws c b r => ws ++ (chars% "if " ++ (c.print ++ (chars% " {" ++ (b.print ++ (chars% "}" ++ r.print)))))
  | .condInit ws x y e c b r => ws ++ (chars% "if " ++ (x ++ (chars% ", " ++ (y ++ (chars% " := " ++ (e.print ++ (chars% "; " ++
      (c.print ++ (chars% " {" ++ (b.print ++ (chars% "}" ++ r.print)))))))))))
  | .condElse ws c a b r => ws ++ (chars% "if " ++ (c.print ++ (chars% " {" ++ (a.print ++ (chars% "} else {" ++
      (b.print ++ (chars% "}" ++ r.print)))))))
  | .range ws i v e b r => ws ++ (chars% "for " ++ (i ++ (chars% ", " ++ (v ++ (chars% " := range " ++ (e.print ++ (chars% " {" ++
      (b.print ++ (chars% "}" ++ r.print)))))))))
  | .switch ws cs r => ws ++ (chars% "switch {" ++ (cs.print ++ (chars% "}" ++ r.print)))
  | .case ws c b r => ws ++ (chars% "case " ++ (c.print ++ (chars% ":" ++ (b.print ++ r.print))))
  | .ret ws a e r => ws ++ (chars% "return " ++ (a.print ++ (chars% ", " ++ (e.print ++ r.print))))
  | .comment ws s r => ws ++ (chars% "//" ++ (s ++ r.print))

/-! ## Meaning -/

/-- Values of variables and expressions. -/
inductive GV (F : Type) where
  | str (s : Str)
  | strs (l : List Str)
  | bool (b : Bool)
  | int (n : Nat)
  /-- an error: nil or not -/
  | err (b : Bool)
  /-- a number or truth value -/
  | one (v : SVal F)
  /-- a pointer to a scalar -/
  | ptr (v : SVal F)
  /-- a slice of the base type `t`; `none` is a zero element -/
  | list (t : Base) (l : List (Option (SVal F)))
  /-- a slice of another type, by its JSON text -/
  | raw (json : Str)
  /-- a pointer to a message, by its JSON text -/
  | ref (json : Str)
  | nilptr
  /-- a struct -/
  | val
  /-- a pointer to the struct of a oneof's option -/
  | option (name : Str) (v : SVal F)
  /-- `mux.Vars(r)` -/
  | vars (m : List (Str × Str))
  /-- `r.URL.Query()` -/
  | query (m : List (Str × List Str))
  /-- a value that is returned with an error and not used -/
  | junk

/-- The program does not compile, or it panics. -/
inductive Fault where
  | stuck
  | panic
  deriving Repr, DecidableEq

/-- What the libraries do: floating point numbers, which texts `json.Unmarshal` accepts for other types, and what it leaves in a slice of
strings when it fails on a text. -/
structure Libs (F : Type) where
  fl : Floats F
  jok : JSONOk
  left : Str → List (Option (SVal F)) → List (Option (SVal F))

abbrev Scope (F : Type) := Str → Option (GV F)

/-- The scopes, the innermost first, and the request message. -/
structure State (F : Type) where
  scopes : List (Scope F)
  req : FullMsg F

variable {F : Type}

def Scope.set (s : Scope F) (x : Str) (v : GV F) : Scope F := fun y => if y = x then some v else s y

/-- The variable of the innermost scope that has it. -/
def find : List (Scope F) → Str → Option (GV F)
  | [], _ => none
  | s :: ss, x => match s x with
    | some v => some v
    | none => find ss x

/-- Assignment. -/
def store : List (Scope F) → Str → GV F → Option (List (Scope F))
  | [], _, _ => none
  | s :: ss, x, v => match s x with
    | some _ => some (s.set x v :: ss)
    | none => (store ss x v).map (s :: ·)

/-- Declaration in the innermost scope, or assignment if it has the variable. `_` is not a variable. -/
def declare : List (Scope F) → Str → GV F → Option (List (Scope F))
  | [], _, _ => none
  | s :: ss, x, v => some (s.set x v :: ss)

def declareAll : List (Scope F) → List Str → List (GV F) → Option (List (Scope F))
  | ss, [], [] => some ss
  | ss, x :: xs, v :: vs => match declare ss x v with
    | none => none
    | some ss' => declareAll ss' xs vs
  | _, _, _ => none

/-- Conversion of a number to an integer type wraps around. -/
def wrap (signed : Bool) (i : Int) : Int :=
  if signed then (i + 2 ^ 31) % 2 ^ 32 - 2 ^ 31 else i % 2 ^ 32

/-- `T(v)`: `T` is a number type of 32 bits, or the type of an enum. -/
def convert (t : Str) : GV F → Except Fault (GV F)
  | .one (.num i) => .ok (.one (.num (wrap (baseOf t ≠ some .uint32) i)))
  | .one (.flt x) => if baseOf t = some .float32 then .ok (.one (.flt x)) else .error .stuck
  | _ => .error .stuck

/-- A value as a scalar. -/
def GV.scalar : GV F → Option (SVal F)
  | .str s => some (.str s)
  | .one v => some v
  | _ => none

def isNil : GV F → Option Bool
  | .err b => some !b
  | _ => none

def Expr.eval (L : Libs F) (ss : List (Scope F)) : Expr → Except Fault (GV F)
  | .id x => match find ss x with
    | some v => .ok v
    | none => .error .stuck
  | .nil => .error .stuck
  | .num n => .ok (.int n)
  | .text s => match literal (s ++ ['"']) with
    | some (v, []) => .ok (.str v)
    | _ => .error .stuck
  | .index a b => match a.eval L ss, b.eval L ss with
    | .ok (.vars m), .ok (.str k) => .ok (.str ((look m k).getD []))
    | .ok (.query m), .ok (.str k) => .ok (.strs ((look m k).getD []))
    | .ok (.strs l), .ok (.int n) => match l[n]? with
      | some s => .ok (.str s)
      | none => .error .panic
    | .error e, _ => .error e
    | _, .error e => .error e
    | _, _ => .error .stuck
  | .addr a => match a with
    | .id x => match find ss x with
      | some v => match v.scalar with
        | some v => .ok (.ptr v)
        | none => .error .stuck
      | none => .error .stuck
    | .empty _ => .ok (.ref (chars% "{}"))
    | .keyed _ n b => match b.eval L ss with
      | .ok v => match v.scalar with
        | some v => .ok (.option n v)
        | none => .error .stuck
      | .error e => .error e
    | _ => .error .stuck
  | .conv t a => match a.eval L ss with
    | .ok v => convert t v
    | .error e => .error e
  | .empty _ => .ok .val
  | .keyed .. => .error .stuck
  | .make t a => match baseOf t, a.eval L ss with
    | some b, .ok (.int n) => .ok (.list b (List.replicate n none))
    | _, .error e => .error e
    | _, _ => .error .stuck
  | .bin a op b =>
    if op = chars% "!=" then match a.eval L ss, b with
      | .ok v, .nil => match isNil v with
        | some n => .ok (.bool !n)
        | none => .error .stuck
      | .error e, _ => .error e
      | _, _ => .error .stuck
    else match a.eval L ss, b.eval L ss with
      | .ok (.int n), .ok (.int k) => if op = chars% ">" then .ok (.bool (n > k)) else .error .stuck
      | .ok (.str s), .ok (.str t) => if op = chars% "+" then .ok (.str (s ++ t)) else .error .stuck
      | .error e, _ => .error e
      | _, .error e => .error e
      | _, _ => .error .stuck
  | .call1 f a =>
    if f = chars% "len" then match a.eval L ss with
      | .ok (.strs l) => .ok (.int l.length)
      | .error e => .error e
      | _ => .error .stuck
    else if f = chars% "errors.Errorf" then .ok (.err true)
    else .error .stuck
  | .call2 f a _ =>
    -- the wrapped error is nil if the error is; the message is not modelled
    if f = chars% "errors.Wrap" then a.eval L ss else .error .stuck
  | .call3 f a _ _ => if f = chars% "errors.Wrapf" then a.eval L ss else .error .stuck

/-- Expressions with two values: `m[k]` and the functions of strconv. -/
def Expr.eval2 (L : Libs F) (ss : List (Scope F)) : Expr → Except Fault (GV F × GV F)
  | .index a b => match a.eval L ss, b.eval L ss with
    | .ok (.query m), .ok (.str k) => .ok (.strs ((look m k).getD []), .bool (look m k).isSome)
    | .error e, _ => .error e
    | _, .error e => .error e
    | _, _ => .error .stuck
  | .call1 f a => match a.eval L ss with
    | .ok (.str s) =>
      if f = chars% "strconv.ParseBool" then match parseBool s with
        | some b => .ok (.one (.bool b), .err false)
        | none => .ok (.junk, .err true)
      else .error .stuck
    | .error e => .error e
    | _ => .error .stuck
  | .call2 f a b => match a.eval L ss, b with
    | .ok (.str s), .num bits =>
      if f = chars% "strconv.ParseFloat" then match L.fl.parse (bits = 32) s with
        | some x => .ok (.one (.flt x), .err false)
        | none => .ok (.junk, .err true)
      else .error .stuck
    | .error e, _ => .error e
    | _, _ => .error .stuck
  | .call3 f a (.num 10) (.num bits) => match a.eval L ss with
    | .ok (.str s) =>
      if f = chars% "strconv.ParseInt" then match parseInt bits s with
        | some i => .ok (.one (.num i), .err false)
        | none => .ok (.junk, .err true)
      else if f = chars% "strconv.ParseUint" then match parseUint bits s with
        | some i => .ok (.one (.num i), .err false)
        | none => .ok (.junk, .err true)
      else .error .stuck
    | .error e => .error e
    | _ => .error .stuck
  | _ => .error .stuck

/-- The values of the right-hand side of `:=`. -/
def Expr.evals (L : Libs F) (ss : List (Scope F)) (n : Nat) (e : Expr) : Except Fault (List (GV F)) :=
  if n = 1 then match e.eval L ss with
    | .ok v => .ok [v]
    | .error x => .error x
  else if n = 2 then match e.eval2 L ss with
    | .ok (v, w) => .ok [v, w]
    | .error x => .error x
  else .error .stuck

/-- The zero value of a type. -/
def Ty.zero (t : Ty) : GV F :=
  if t.slice then
    if t.star then .raw (chars% "null")
    else match baseOf t.name with
      | some b => .list b []
      | none => .raw (chars% "null")
  else if t.star then .nilptr
  else if t.name = chars% "string" then .str []
  else .val

/-- `json.Unmarshal(s, v)`: the new value behind the pointer, and whether there is an error. `amp`: the pointer is `&v`. -/
def unmarshal (L : Libs F) (s : Str) (amp : Bool) : GV F → Except Fault (GV F × Bool)
  | .list b l => if amp then match jsonArray L.fl b s with
      | some l' => .ok (.list b (l'.map some), false)
      | none => .ok (.list b (L.left s l), true)
    else .error .stuck
  | .raw j => if amp then (if L.jok s then .ok (.raw s, false) else .ok (.raw j, true)) else .error .stuck
  -- a null leaves the message as it is
  | .ref j => if amp then .error .stuck
    else if L.jok s then .ok (.ref (if s = chars% "null" then j else s), false) else .ok (.ref j, true)
  -- not a pointer: InvalidUnmarshalError
  | .val => if amp then .error .stuck else .ok (.val, true)
  | _ => .error .stuck

/-- What a field of the request is assigned. -/
def GV.field : GV F → Option (FVal F)
  | .str s => some (.one (.str s))
  | .one v => some (.one v)
  | .ptr v => some (.opt (some v))
  | .list _ l => (allSome l).map .many
  | .raw j => some (.other j)
  | .ref j => some (.other j)
  | _ => none

/-- `req.f = v`. -/
def assignReq (m : FullMsg F) (f : Str) : GV F → Option (FullMsg F)
  | .option n v => some { m with oneofs := fun k => if k = f then some (n, v) else m.oneofs k }
  | v => match v.field with
    | some x => some { m with fields := HTTPCode.setMsg m.fields f x }
    | none => none

/-- How statements end. -/
inductive Out (F : Type) where
  | next (σ : State F)
  /-- returned, with an error or not -/
  | returned (err : Bool) (σ : State F)
  | fault (f : Fault)

/-- Go on with the next statement. -/
def Out.then (o : Out F) (k : State F → Out F) : Out F :=
  match o with
  | .next σ => k σ
  | o => o

/-- Leave a block. -/
def Out.pop (o : Out F) : Out F :=
  match o with
  | .next σ => .next { σ with scopes := σ.scopes.tail }
  | o => o

def State.push (σ : State F) : State F := { σ with scopes := (fun _ => none) :: σ.scopes }

/-- The iterations of a `range` over `l`, from the index `n` on. -/
def iterate (f : Nat → Str → State F → Out F) : Nat → List Str → State F → Out F
  | _, [], σ => .next σ
  | n, s :: l, σ => (f n s σ).then (iterate f (n + 1) l)

/-- Execution. A list of cases runs the first one whose condition holds. -/
def Code.exec (L : Libs F) : Code → State F → Out F
  | .done _, σ => .next σ
  | .define _ xs e r, σ => match e.evals L σ.scopes xs.length with
    | .error f => .fault f
    | .ok vs => match declareAll σ.scopes xs vs with
      | none => .fault .stuck
      | some ss => r.exec L { σ with scopes := ss }
  | .var _ x t r, σ => match declare σ.scopes x t.zero with
    | none => .fault .stuck
    | some ss => r.exec L { σ with scopes := ss }
  | .assign _ x e r, σ => match e.eval L σ.scopes with
    | .error f => .fault f
    | .ok v => match store σ.scopes x v with
      | none => .fault .stuck
      | some ss => r.exec L { σ with scopes := ss }
  | .setAt _ x i e r, σ => match find σ.scopes x, find σ.scopes i, e.eval L σ.scopes with
    | _, _, .error f => .fault f
    | some (.list b l), some (.int n), .ok v => match v.scalar with
      | none => .fault .stuck
      | some v => if n < l.length then match store σ.scopes x (.list b (l.set n (some v))) with
          | none => .fault .stuck
          | some ss => r.exec L { σ with scopes := ss }
        else .fault .panic
    | _, _, _ => .fault .stuck
  | .setReq _ f e r, σ => match e.eval L σ.scopes with
    | .error f => .fault f
    | .ok v => match assignReq σ.req f v with
      | none => .fault .stuck
      | some m => r.exec L { σ with req := m }
  | .inc _ x r, σ => match find σ.scopes x with
    | some (.int n) => match store σ.scopes x (.int (n + 1)) with
      | none => .fault .stuck
      | some ss => r.exec L { σ with scopes := ss }
    | _ => .fault .stuck
  | .unmarshal _ src amp dst r, σ => match find σ.scopes src, find σ.scopes dst with
    | some (.str s), some v => match GoLang.unmarshal L s amp v with
      | .error f => .fault f
      | .ok (v', e) => match store σ.scopes dst v' with
        | none => .fault .stuck
        | some ss => match store ss (chars% "err") (.err e) with
          | none => .fault .stuck
          | some ss' => r.exec L { σ with scopes := ss' }
    | _, _ => .fault .stuck
  | .cond _ c b r, σ => match c.eval L σ.scopes with
    | .ok (.bool true) => ((b.exec L σ.push).pop).then (r.exec L)
    | .ok (.bool false) => r.exec L σ
    | .error f => .fault f
    | _ => .fault .stuck
  | .condInit _ x y e c b r, σ => match e.eval2 L σ.scopes with
    | .error f => .fault f
    | .ok (v, w) => match declareAll σ.push.scopes [x, y] [v, w] with
      | none => .fault .stuck
      | some ss => match c.eval L ss with
        | .ok (.bool true) => (((b.exec L (State.push ⟨ss, σ.req⟩)).pop).pop).then (r.exec L)
        | .ok (.bool false) => r.exec L σ
        | .error f => .fault f
        | _ => .fault .stuck
  | .condElse _ c a b r, σ => match c.eval L σ.scopes with
    | .ok (.bool true) => ((a.exec L σ.push).pop).then (r.exec L)
    | .ok (.bool false) => ((b.exec L σ.push).pop).then (r.exec L)
    | .error f => .fault f
    | _ => .fault .stuck
  | .range _ i v e b r, σ => match e.eval L σ.scopes with
    | .ok (.strs l) => (iterate (fun n s σ => match declareAll σ.push.scopes [i, v] [.int n, .str s] with
        | none => .fault .stuck
        | some ss => ((b.exec L (State.push ⟨ss, σ.req⟩)).pop).pop) 0 l σ).then (r.exec L)
    | .error f => .fault f
    | _ => .fault .stuck
  | .switch _ cs r, σ => (cs.exec L σ).then (r.exec L)
  | .case _ c b r, σ => match c.eval L σ.scopes with
    | .ok (.bool true) => (b.exec L σ.push).pop
    | .ok (.bool false) => r.exec L σ
    | .error f => .fault f
    | _ => .fault .stuck
  | .ret _ _ e _, σ => match e.eval L σ.scopes with
    | .ok (.err b) => .returned b σ
    | .error f => .fault f
    | _ => .fault .stuck
  | .comment _ _ r, σ => r.exec L σ

/-- Several pieces of code in the same block, one after the other. -/
def run (L : Libs F) : List Code → State F → Out F
  | [], σ => .next σ
  | c :: cs, σ => (c.exec L σ).then (run L cs)

end Baron.GoLang
