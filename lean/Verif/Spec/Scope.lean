import Verif.Go.Str

/-!
# Go's rules for names in function bodies and files

From the Go specification: blocks and scopes, `:=` needs a new variable on its left-hand side, no name is declared twice in
one block; and the compiler's "declared and not used" for variables, "imported and not used" for packages, "undefined" for
names nobody declares and "is not a type" for types hidden by a variable.
-/

namespace Baron.Scope

/-- What a piece of code does with names, in the order of the text. Predeclared names (`len`, `error`, `int32` …) are left
out; of `x.y` only `x` counts. -/
inductive Ev where
  /-- a block (or function literal, `if` or `for` with a header) begins -/
  | opn
  /-- … and ends -/
  | cls
  /-- a parameter, a named result or a constant: need not be used -/
  | param (x : Str)
  /-- `x, y := …` without the blank ones -/
  | short (xs : List Str)
  /-- `var x …` -/
  | var (x : Str)
  /-- `x = …` -/
  | assign (x : Str)
  /-- `x` is read, called, or stands before a point -/
  | use (x : Str)
  /-- `x` is used as a type -/
  | type (x : Str)
  deriving Repr, DecidableEq

/-- The variables of a block, and whether they have been used. -/
abbrev Block := List (Str × Bool)

/-- What the package and the imports of the file declare. -/
structure Outer where
  value : Str → Bool
  type : Str → Bool

def declared (x : Str) (b : Block) : Bool := b.any fun e => e.1 = x

/-- `x` is a variable of one of the blocks around. -/
def captured (x : Str) (bs : List Block) : Bool := bs.any (declared x)

/-- Mark the variable as used. -/
def markB (x : Str) (b : Block) : Block := b.map fun e => if e.1 = x then (e.1, true) else e

/-- Mark the innermost variable of that name. -/
def mark (x : Str) : List Block → List Block
  | [] => []
  | b :: bs => if declared x b then markB x b :: bs else b :: mark x bs

/-- One step; `none` if the compiler complains. The innermost block comes first. -/
def step (g : Outer) (bs : List Block) : Ev → Option (List Block)
  | .opn => some ([] :: bs)
  | .cls =>
    match bs with
    | b :: bs => if b.all (·.2) then some bs else none
    | [] => none
  | .param x =>
    match bs with
    | b :: bs => if declared x b then none else some ((b ++ [(x, true)]) :: bs)
    | [] => none
  | .short xs =>
    match bs with
    | b :: bs =>
      let new := xs.filter fun x => !declared x b
      if new = [] ∨ ¬ new.Nodup then none else some ((b ++ new.map fun x => (x, false)) :: bs)
    | [] => none
  | .var x =>
    match bs with
    | b :: bs => if declared x b then none else some ((b ++ [(x, false)]) :: bs)
    | [] => none
  | .assign x => if captured x bs then some bs else none
  | .use x => if captured x bs then some (mark x bs) else if g.value x then some bs else none
  | .type x => if captured x bs then none else if g.type x then some bs else none

def run (g : Outer) : List Block → List Ev → Option (List Block)
  | bs, [] => some bs
  | bs, e :: es =>
    match step g bs e with
    | some bs' => run g bs' es
    | none => none

/-- A function (parameters and body are one block) is accepted. -/
def FuncOK (g : Outer) (f : List Ev) : Prop := run g [] (.opn :: f ++ [.cls]) = some []

/-- The function uses the package-level name `x`: somewhere, no variable hiding it. -/
def uses (g : Outer) (x : Str) : List Block → List Ev → Bool
  | _, [] => false
  | bs, e :: es => (e = .use x && !captured x bs) ||
    match step g bs e with
    | some bs' => uses g x bs' es
    | none => false

/-- A file: the names of its imports, the names used by its declarations outside of functions, and its functions. -/
structure File where
  imports : List Str
  values : List Str
  types : List Str
  funcs : List (List Ev)

/-- The names a file sees: those of the package and its imports. -/
def File.outer (f : File) (pkg : Outer) : Outer := ⟨fun x => pkg.value x || decide (x ∈ f.imports), pkg.type⟩

/-- The file is accepted in a package that declares `pkg`: its functions are, all names of the other declarations are
declared, and every import is used. -/
structure FileOK (pkg : Outer) (f : File) : Prop where
  funcs : ∀ fn ∈ f.funcs, FuncOK (f.outer pkg) fn
  values : ∀ x ∈ f.values, (f.outer pkg).value x = true
  types : ∀ x ∈ f.types, pkg.type x = true
  imports : ∀ i ∈ f.imports, i ∈ f.values ∨ ∃ fn ∈ f.funcs, uses (f.outer pkg) i [] (.opn :: fn ++ [.cls]) = true

end Baron.Scope
