import Verif.Go.Str
import Verif.Model.Strs
import Verif.Model.HTTPNames
import Lean.Elab.Term

/-!
# Model of Go's `text/template`, as far as baron's templates use it

gengokit/gengokit.go:83-118, gengokit/httptransport/httptransport.go:575-604 and internal/start/start.go parse and execute
templates with the standard library. This is a model of that library (not of code in /repo): its lexer (trim markers, comments,
actions), its parser (`if`, `else`, `else if`, `range`, `with`, pipelines, variables), and its execution. Left out, because no
template of baron uses it: assignments, declarations outside of `range` and `with`, `define`, `template`, `block`, `break`,
`continue`, `else` in `range` and `with`, printing of anything but strings, escapes in string constants, method calls with
arguments. A template that uses such a thing is rejected by this parser, and an execution that would need it fails.
-/

namespace Baron.TT

open Lean Elab Term Meta in
/-- The characters of a string literal as an explicit list, so that the kernel need not decode UTF-8. -/
elab "chars% " s:str : term => return toExpr s.getString.toList

/-! ## Templates -/

inductive Expr where
  /-- `.`, `.A`, `.A.B` -/
  | dot (chain : List Str)
  /-- `$x`, `$x.A.B` -/
  | var (name : Str) (chain : List Str)
  | str (s : Str)
  | num (n : Nat)
  | call1 (f : Str) (a : Expr)
  | call2 (f : Str) (a b : Expr)
  | call3 (f : Str) (a b c : Expr)
  deriving Repr, DecidableEq

/-- A template: a list of nodes. -/
inductive Tmpl where
  | nil
  | text (s : Str) (rest : Tmpl)
  /-- `{{e}}` -/
  | action (e : Expr) (rest : Tmpl)
  /-- `{{if e}}a{{else}}b{{end}}` -/
  | cond (e : Expr) (a b rest : Tmpl)
  /-- `{{range $x := e}}body{{end}}` -/
  | range (x : Option Str) (e : Expr) (body rest : Tmpl)
  /-- `{{with $x := e}}body{{end}}` -/
  | within (x : Option Str) (e : Expr) (body rest : Tmpl)
  deriving Repr, DecidableEq

/-! ## Lexer -/

/-- `isSpace` of text/template/parse/lex.go, also the characters that trim markers trim. -/
def isSpace (c : Char) : Bool := c = ' ' || c = '\t' || c = '\r' || c = '\n'

/-- Tokens inside of an action. A term is a run of letters, digits, `_`, `$` and `.`. -/
inductive Tok where
  | term (s : Str)
  | str (s : Str)
  | declare
  | pipe
  | opn
  | cls
  deriving Repr, DecidableEq

inductive Item where
  | text (s : Str)
  | action (toks : List Tok)
  deriving Repr, DecidableEq

def isTerm (c : Char) : Bool := c.isAlphanum || c = '_' || c = '$' || c = '.'

/-- The text up to the next `{{`, reversed onto `acc`, and what follows the `{{`. -/
def untilOpen : Str → Str → Str × Option Str
  | acc, '{' :: '{' :: r => (acc, some r)
  | acc, c :: r => untilOpen (c :: acc) r
  | acc, [] => (acc, none)

/-- What follows the `*/` of a comment. -/
def afterComment : Str → Option Str
  | '*' :: '/' :: r => some r
  | _ :: r => afterComment r
  | [] => none

/-- The tokens up to the closing delimiter, whether it trims, and what follows it. -/
def lexAction : Nat → Str → Option (List Tok × Bool × Str)
  | 0, _ => none
  | n + 1, s => match s with
    | '}' :: '}' :: r => some ([], false, r)
    | ':' :: '=' :: r => (lexAction n r).map fun x => (.declare :: x.1, x.2)
    | '|' :: r => (lexAction n r).map fun x => (.pipe :: x.1, x.2)
    | '(' :: r => (lexAction n r).map fun x => (.opn :: x.1, x.2)
    | ')' :: r => (lexAction n r).map fun x => (.cls :: x.1, x.2)
    | '"' :: r =>
      let t := r.takeWhile (· ≠ '"')
      if t.any (fun c => c = '\\' || c = '\n') then none
      else match r.dropWhile (· ≠ '"') with
        | _ :: r' => (lexAction n r').map fun x => (.str t :: x.1, x.2)
        | [] => none
    | c :: r =>
      if isSpace c then match r with
        | '-' :: '}' :: '}' :: r' => some ([], true, r')
        | _ => lexAction n r
      else if isTerm c then
        (lexAction n (s.dropWhile isTerm)).map fun x => (.term (s.takeWhile isTerm) :: x.1, x.2)
      else none
    | [] => none

/-- Whether an action begins with a trim marker (`{{- `), and what follows. -/
def leftTrim : Str → Bool × Str
  | '-' :: c :: r => if isSpace c then (true, r) else (false, '-' :: c :: r)
  | r => (false, r)

/-- The closing delimiter after a comment. -/
def closeComment : Str → Option (Bool × Str)
  | '}' :: '}' :: r => some (false, r)
  | c :: '-' :: '}' :: '}' :: r => if isSpace c then some (true, r) else none
  | _ => none

def dropSpace (s : Str) : Str := s.dropWhile isSpace

/-- `trim`: the preceding action ended in ` -}}`. Empty texts are left out, comments too. -/
def lexItems : Nat → Bool → Str → Option (List Item)
  | 0, _, _ => none
  | n + 1, trim, s =>
    let s := if trim then dropSpace s else s
    match untilOpen [] s with
    | (t, none) => some (if t = [] then [] else [.text t.reverse])
    | (t, some r) =>
      let m := leftTrim r
      let t := (if m.1 then dropSpace t else t).reverse
      let cons (l : List Item) : List Item := if t = [] then l else .text t :: l
      match m.2 with
      | '/' :: '*' :: r' =>
        match afterComment r' with
        | none => none
        | some r'' => match closeComment r'' with
          | none => none
          | some (tr, rest) => (lexItems n tr rest).map cons
      | r' => match lexAction (r'.length + 1) r' with
        | none => none
        | some (toks, tr, rest) => (lexItems n tr rest).map fun l => cons (.action toks :: l)

/-! ## Parser -/

/-- An operand: a function name, or an expression. -/
inductive Operand where
  | fn (f : Str)
  | expr (e : Expr)
  deriving Repr, DecidableEq

def operandOf (s : Str) : Option Operand :=
  match s with
  | ['.'] => some (.expr (.dot []))
  | '.' :: r => some (.expr (.dot (split '.' r)))
  | '$' :: r => match split '.' r with
    | v :: ch => some (.expr (.var v ch))
    | [] => none
  | c :: r =>
    if c.isDigit then
      if r.all Char.isDigit then some (.expr (.num ((c :: r).foldl (fun n d => 10 * n + (d.toNat - 48)) 0))) else none
    else if '.' ∈ r ∨ '$' ∈ r then none else some (.fn (c :: r))
  | [] => none

/-- A command: a function with arguments, or one operand. `last` is the value piped into it. -/
def commandOf (os : List Operand) (last : Option Expr) : Option Expr :=
  match os, last with
  | [.expr e], none => some e
  | [.fn f, .expr a], none => some (.call1 f a)
  | [.fn f, .expr a, .expr b], none => some (.call2 f a b)
  | [.fn f, .expr a, .expr b, .expr c], none => some (.call3 f a b c)
  | [.fn f], some e => some (.call1 f e)
  | [.fn f, .expr a], some e => some (.call2 f a e)
  | [.fn f, .expr a, .expr b], some e => some (.call3 f a b e)
  | _, _ => none

/-- A pipeline up to the end or a closing parenthesis: `os` are the operands of the command being read, reversed, `last` the
value piped into it. -/
def pipeline : Nat → List Operand → Option Expr → List Tok → Option (Expr × List Tok)
  | 0, _, _, _ => none
  | n + 1, os, last, toks => match toks with
    | [] => (commandOf os.reverse last).map fun e => (e, [])
    | .cls :: _ => (commandOf os.reverse last).map fun e => (e, toks)
    | .pipe :: r => match commandOf os.reverse last with
      | none => none
      | some e => pipeline n [] (some e) r
    | .opn :: r => match pipeline n [] none r with
      | some (e, .cls :: r') => pipeline n (.expr e :: os) last r'
      | _ => none
    | .str s :: r => pipeline n (.expr (.str s) :: os) last r
    | .term s :: r => match operandOf s with
      | none => none
      | some o => pipeline n (o :: os) last r
    | .declare :: _ => none

/-- A whole pipeline. -/
def exprOf (toks : List Tok) : Option Expr :=
  match pipeline (toks.length + 1) [] none toks with
  | some (e, []) => some e
  | _ => none

/-- `$x := pipeline` or `pipeline`. -/
def declOf : List Tok → Option (Option Str × Expr)
  | .term ('$' :: x) :: .declare :: r => (exprOf r).map fun e => (some x, e)
  | r => (exprOf r).map fun e => (none, e)

def kwIf : Str := chars% "if"
def kwElse : Str := chars% "else"
def kwEnd : Str := chars% "end"
def kwRange : Str := chars% "range"
def kwWith : Str := chars% "with"

/-- How a list of nodes ends: the end of the text, `{{end}}`, `{{else}}`, or `{{else if e}}`. -/
inductive Stop where
  | eof
  | fin
  | els
  | elsif (e : Expr)
  deriving Repr, DecidableEq

mutual
/-- A list of nodes. -/
def nodes : Nat → List Item → Option (Tmpl × Stop × List Item)
  | 0, _ => none
  | n + 1, its => match its with
    | [] => some (.nil, .eof, [])
    | .text s :: r => (nodes n r).map fun x => (.text s x.1, x.2)
    | .action [] :: _ => none
    | .action (.term k :: toks) :: r =>
      if k = kwEnd then if toks = [] then some (.nil, .fin, r) else none
      else if k = kwElse then match toks with
        | [] => some (.nil, .els, r)
        | .term k' :: toks' => if k' = kwIf then (exprOf toks').map fun e => (.nil, .elsif e, r) else none
        | _ => none
      else if k = kwIf then match exprOf toks with
        | none => none
        | some e => match branches n e r with
          | none => none
          | some (a, b, r') => (nodes n r').map fun x => (.cond e a b x.1, x.2)
      else if k = kwRange then match declOf toks with
        | none => none
        | some (v, e) => match nodes n r with
          | some (body, .fin, r') => (nodes n r').map fun x => (.range v e body x.1, x.2)
          | _ => none
      else if k = kwWith then match declOf toks with
        | none => none
        | some (v, e) => match nodes n r with
          | some (body, .fin, r') => (nodes n r').map fun x => (.within v e body x.1, x.2)
          | _ => none
      else match exprOf (.term k :: toks) with
        | none => none
        | some e => (nodes n r).map fun x => (.action e x.1, x.2)
    | .action toks :: r => match exprOf toks with
      | none => none
      | some e => (nodes n r).map fun x => (.action e x.1, x.2)
/-- The two branches of an `if`, up to its `{{end}}`. -/
def branches : Nat → Expr → List Item → Option (Tmpl × Tmpl × List Item)
  | 0, _, _ => none
  | n + 1, _, its => match nodes n its with
    | some (a, .fin, r) => some (a, .nil, r)
    | some (a, .els, r) => match nodes n r with
      | some (b, .fin, r') => some (a, b, r')
      | _ => none
    | some (a, .elsif e', r) => match branches n e' r with
      | some (a', b', r') => some (a, .cond e' a' b' .nil, r')
      | none => none
    | _ => none
end

/-- `template.Parse`. -/
def parse (s : Str) : Option Tmpl :=
  match lexItems (s.length + 1) false s with
  | none => none
  | some its => match nodes (2 * its.length + 2) its with
    | some (t, .eof, []) => some t
    | _ => none

/-! ## Execution -/

/-- Data: what the fields and methods of Go values hold. A struct and a pointer to it are the same; a method without arguments is
like a field. -/
inductive Val where
  | str (s : Str)
  | bool (b : Bool)
  | num (n : Nat)
  | list (l : List Val)
  | struct (fs : List (Str × Val))

/-- `.A` of a value. -/
def Val.field : Val → Str → Option Val
  | .struct fs, n => HTTP.look fs n
  | _, _ => none

def Val.fields : Val → List Str → Option Val
  | v, [] => some v
  | v, n :: ns => match v.field n with
    | none => none
    | some w => w.fields ns

/-- text/template `IsTrue`; structs are true. -/
def Val.truth : Val → Bool
  | .str s => !s.isEmpty
  | .bool b => b
  | .num n => n != 0
  | .list l => !l.isEmpty
  | .struct _ => true

/-- Does `sub` occur in `s`? `strings.Contains`. -/
def contains (s sub : Str) : Bool :=
  match s with
  | [] => sub.isEmpty
  | _ :: r => sub.isPrefixOf s || contains r sub

/-- Functions of one argument: gengokit.go:44-50 and the built-in `not`. -/
def fun1 (f : Str) (a : Val) : Option Val :=
  if f = chars% "not" then some (.bool !a.truth)
  else match a with
    | .str s =>
      if f = chars% "ToLower" then some (.str (toLower s))
      else if f = chars% "ToUpper" then some (.str (toUpper s))
      else if f = chars% "Title" then some (.str (HTTP.title s))
      else if f = chars% "GoName" then some (.str (Strs.goCamelCase s))
      else none
    | _ => none

/-- Functions of two arguments: the built-in `eq`, `ne` (on strings), `and`, `or`, `index` (of a list), and `Contains`. -/
def fun2 (f : Str) (a b : Val) : Option Val :=
  if f = chars% "and" then some (if a.truth then b else a)
  else if f = chars% "or" then some (if a.truth then a else b)
  else match a, b with
    | .str s, .str t =>
      if f = chars% "eq" then some (.bool (s = t))
      else if f = chars% "ne" then some (.bool (s ≠ t))
      else if f = chars% "Contains" then some (.bool (contains s t))
      else none
    | .list l, .num n => if f = chars% "index" then l[n]? else none
    | _, _ => none

/-- Functions of three arguments: `eq a b c` compares `a` with both. -/
def fun3 (f : Str) (a b c : Val) : Option Val :=
  match a, b, c with
  | .str s, .str t, .str u => if f = chars% "eq" then some (.bool (s = t || s = u)) else none
  | _, _, _ => none

/-- The variables, the innermost first. -/
abbrev Vars := List (Str × Val)

def eval (vars : Vars) (dot : Val) : Expr → Option Val
  | .dot ch => dot.fields ch
  | .var x ch => match HTTP.look vars x with
    | none => none
    | some v => v.fields ch
  | .str s => some (.str s)
  | .num n => some (.num n)
  | .call1 f a => match eval vars dot a with
    | none => none
    | some x => fun1 f x
  | .call2 f a b => match eval vars dot a, eval vars dot b with
    | some x, some y => fun2 f x y
    | _, _ => none
  | .call3 f a b c => match eval vars dot a, eval vars dot b, eval vars dot c with
    | some x, some y, some z => fun3 f x y z
    | _, _, _ => none

/-- The variable of a `range` or `with`. -/
def bind (x : Option Str) (v : Val) (vars : Vars) : Vars :=
  match x with
  | none => vars
  | some x => (x, v) :: vars

/-- The outputs of all, one after the other. -/
def each (f : Val → Option Str) : List Val → Option Str
  | [] => some []
  | v :: vs => match f v, each f vs with
    | some a, some b => some (a ++ b)
    | _, _ => none

/-- The output, `none` if execution fails. -/
def exec : Tmpl → Vars → Val → Option Str
  | .nil, _, _ => some []
  | .text s rest, vars, dot => match exec rest vars dot with
    | none => none
    | some o => some (s ++ o)
  | .action e rest, vars, dot => match eval vars dot e, exec rest vars dot with
    | some (.str s), some o => some (s ++ o)
    | _, _ => none
  | .cond e a b rest, vars, dot => match eval vars dot e with
    | none => none
    | some v => match (if v.truth then exec a vars dot else exec b vars dot), exec rest vars dot with
      | some o, some o' => some (o ++ o')
      | _, _ => none
  | .range x e body rest, vars, dot => match eval vars dot e with
    | some (.list l) => match each (fun v => exec body (bind x v vars) v) l, exec rest vars dot with
      | some o, some o' => some (o ++ o')
      | _, _ => none
    | _ => none
  | .within x e body rest, vars, dot => match eval vars dot e with
    | none => none
    | some v => match (if v.truth then exec body (bind x v vars) v else some []), exec rest vars dot with
      | some o, some o' => some (o ++ o')
      | _, _ => none

/-- gengokit.go:104-118 `ApplyTemplate`, httptransport.go:593-603: parse and execute. -/
def apply (src : Str) (data : Val) : Option Str :=
  match parse src with
  | none => none
  | some t => exec t [([], data)] data

end Baron.TT
