import Verif.Model.HTTPNames
import Verif.Spec.Texts

/-!
# A fragment of Go: the generated functions that wrap endpoints, their text and their meaning

Not a model of code in /repo but of the language `WrapAllExcept` and `WrapAllLabeledExcept` are written in
(template/NAME-service/baron/NAME.pb.baron.go.tmpl 119-177): map literals, `delete`, `range` over slices and maps (a map in the order
`order`; its keys are not changed by the loops over it), `panic`. Programs that do not compile get stuck; a panic keeps the endpoints as
they are then. `E` are the endpoints; the fields of the struct are functions from names to endpoints, those there are being `fields`.
-/

namespace Baron.GoWrap

open Baron.TT (literal)

/-! ## Syntax -/

/-- Statements. `ws` is the white space before a statement or a closing brace; literals are as they are written between the quotes. -/
inductive Code where
  | done (ws : Str)
  /-- `m := map[string]struct{}{"k": {}, …}` -/
  | makeMap (ws m : Str) (keys : List Str) (rest : Code)
  /-- `for _, x := range xs {…}`, over a slice -/
  | forEach (ws x xs : Str) (body rest : Code)
  /-- `for k := range m {…}`, over a map -/
  | forKeys (ws k m : Str) (body rest : Code)
  /-- `if _, ok := m[x]; !ok {…}` -/
  | ifMissing (ws m x : Str) (body rest : Code)
  /-- `if x == "s" {…}` -/
  | ifIs (ws x s : Str) (body rest : Code)
  /-- `delete(m, x)` -/
  | delete (ws m x : Str) (rest : Code)
  /-- `panic(fmt.Sprintf("s", x))` -/
  | panic (ws s x : Str) (rest : Code)
  /-- `e.f = middleware(e.g)` -/
  | wrap (ws f g : Str) (rest : Code)
  /-- `e.f = middleware("s", e.g)` -/
  | wrapLabel (ws f s g : Str) (rest : Code)

/-! ## Text -/

def Code.print : Code → Str
  | .done ws => ws
  | .makeMap ws m ks r => ws ++ (m ++ (chars% " := map[string]struct{}{" ++ ((ks.flatMap fun k => chars% "\n\t\t\t\"" ++ (k ++ chars% "\": {},")) ++
      (chars% "\n\t}" ++ r.print))))
  | .forEach ws x xs b r => ws ++ (chars% "for _, " ++ (x ++ (chars% " := range " ++ (xs ++ (chars% " {" ++ (b.print ++ (chars% "}" ++ r.print)))))))
  | .forKeys ws k m b r => ws ++ (chars% "for " ++ (k ++ (chars% " := range " ++ (m ++ (chars% " {" ++ (b.print ++ (chars% "}" ++ r.print)))))))
  | .ifMissing ws m x b r => ws ++ (chars% "if _, ok := " ++ (m ++ (chars% "[" ++ (x ++ (chars% "]; !ok {" ++ (b.print ++ (chars% "}" ++ r.print)))))))
  | .ifIs ws x s b r => ws ++ (chars% "if " ++ (x ++ (chars% " == \"" ++ (s ++ (chars% "\" {" ++ (b.print ++ (chars% "}" ++ r.print)))))))
  | .delete ws m x r => ws ++ (chars% "delete(" ++ (m ++ (chars% ", " ++ (x ++ (chars% ")" ++ r.print)))))
  | .panic ws s x r => ws ++ (chars% "panic(fmt.Sprintf(\"" ++ (s ++ (chars% "\", " ++ (x ++ (chars% "))" ++ r.print)))))
  | .wrap ws f g r => ws ++ (chars% "e." ++ (f ++ (chars% " = middleware(e." ++ (g ++ (chars% ")" ++ r.print)))))
  | .wrapLabel ws f s g r => ws ++ (chars% "e." ++ (f ++ (chars% " = middleware(\"" ++ (s ++ (chars% "\", e." ++ (g ++ (chars% ")" ++ r.print)))))))

/-- A method of `*Endpoints`: its name, the type of its parameter `middleware`, its statements. -/
structure Func where
  name : Str
  type : Str
  body : Code

def Func.print (f : Func) : Str := chars% "func (e *Endpoints) " ++ (f.name ++ (chars% "(middleware " ++ (f.type ++
  (chars% ", excluded ...string) {" ++ (f.body.print ++ chars% "}\n")))))

/-! ## Meaning -/

/-- The literal's value. -/
def unquote (s : Str) : Option Str := match literal (s ++ ['"']) with
  | some (v, []) => some v
  | _ => none

/-- A variable: a string, a slice of strings, a map with its keys. -/
inductive GV where
  | str (s : Str)
  | strs (l : List Str)
  | keys (l : List Str)

/-- The endpoints, and the variables (the innermost first; assigning to one in an outer scope changes it there: there are no two variables
of one name in these functions, so scopes are not told apart except that a loop variable is dropped at the end of the body). -/
structure State (E : Type) where
  fields : Str → Option E
  vars : List (Str × GV)

/-- The middleware that is passed. -/
inductive Middleware (E : Type) where
  | plain (f : E → E)
  | labelled (f : Str → E → E)

/-- How execution ends early. -/
inductive Stop (E : Type) where
  | stuck
  /-- a panic with this text formatted with this value -/
  | panic (s x : Str) (fields : Str → Option E)

variable {E : Type}

def State.str (st : State E) (x : Str) : Option Str := match HTTP.look st.vars x with
  | some (.str s) => some s
  | _ => none

def State.keys (st : State E) (m : Str) : Option (List Str) := match HTTP.look st.vars m with
  | some (.keys l) => some l
  | _ => none

/-- Replaces the value of a variable. -/
def assign (x : Str) (v : GV) : List (Str × GV) → List (Str × GV)
  | [] => []
  | (y, u) :: r => if y = x then (y, v) :: r else (y, u) :: assign x v r

def State.setField (st : State E) (f : Str) (e : E) : State E := { st with fields := fun g => if g = f then some e else st.fields g }

/-- A loop: the body once for each value, with the loop variable. -/
def loop (x : Str) (body : State E → Except (Stop E) (State E)) : List Str → State E → Except (Stop E) (State E)
  | [], st => .ok st
  | v :: vs, st => match body { st with vars := (x, .str v) :: st.vars } with
    | .error e => .error e
    | .ok st' => loop x body vs { st' with vars := st'.vars.drop 1 }

/-- The values of literals, unless one is none or two are equal (a duplicate key does not compile). -/
def keysOf (ks : List Str) : Option (List Str) :=
  match ks.mapM unquote with
  | some l => if l.Nodup then some l else none
  | none => none

def Code.exec (order : List Str → List Str) (mw : Middleware E) : Code → State E → Except (Stop E) (State E)
  | .done _, st => .ok st
  | .makeMap _ m ks r, st => match keysOf ks with
    | some l => r.exec order mw { st with vars := (m, .keys l) :: st.vars }
    | none => .error .stuck
  | .forEach _ x xs b r, st => match HTTP.look st.vars xs with
    | some (.strs l) => match loop x (b.exec order mw) l st with
      | .error e => .error e
      | .ok st' => r.exec order mw st'
    | _ => .error .stuck
  | .forKeys _ k m b r, st => match st.keys m with
    | some l => match loop k (b.exec order mw) (order l) st with
      | .error e => .error e
      | .ok st' => r.exec order mw st'
    | none => .error .stuck
  | .ifMissing _ m x b r, st => match st.keys m, st.str x with
    | some l, some v =>
      if v ∈ l then r.exec order mw st
      else match b.exec order mw st with
        | .error e => .error e
        | .ok st' => r.exec order mw st'
    | _, _ => .error .stuck
  | .ifIs _ x s b r, st => match st.str x, unquote s with
    | some v, some w =>
      if v = w then
        match b.exec order mw st with
        | .error e => .error e
        | .ok st' => r.exec order mw st'
      else r.exec order mw st
    | _, _ => .error .stuck
  | .delete _ m x r, st => match st.keys m, st.str x with
    | some l, some v => r.exec order mw { st with vars := assign m (.keys (l.filter (· ≠ v))) st.vars }
    | _, _ => .error .stuck
  | .panic _ s x _, st => match unquote s, st.str x with
    | some t, some v => .error (.panic t v st.fields)
    | _, _ => .error .stuck
  | .wrap _ f g r, st => match st.fields f, st.fields g, mw with
    | some _, some e, .plain h => r.exec order mw (st.setField f (h e))
    | _, _, _ => .error .stuck
  | .wrapLabel _ f s g r, st => match st.fields f, unquote s, st.fields g, mw with
    | some _, some l, some e, .labelled h => r.exec order mw (st.setField f (h l e))
    | _, _, _, _ => .error .stuck

/-- What a call does: the endpoints afterwards and, if it panicked, the text and the value in it. `none`: it does not compile. -/
def Func.call (order : List Str → List Str) (f : Func) (mw : Middleware E) (excluded : List Str) (fields : Str → Option E) :
    Option ((Str → Option E) × Option (Str × Str)) :=
  match f.body.exec order mw ⟨fields, [(chars% "excluded", .strs excluded)]⟩ with
  | .ok st => some (st.fields, none)
  | .error (.panic s x fields) => some (fields, some (s, x))
  | .error .stuck => none

end Baron.GoWrap
