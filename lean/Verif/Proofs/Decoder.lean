import Verif.Proofs.ScopeSim
import Verif.Proofs.Locals
import Verif.Spec.Decoder

/-!
# The names in the generated HTTP decoders
-/

namespace Baron.Locals

open Baron.Scope Baron.HTTPCode Baron.Idents

/-- What the generated statements do depends on the kind of the field only. -/
inductive Kind where
  | enum | str | base | msg | rstr | rbase | rmsg
  deriving DecidableEq

def kindOf (f : HField) : Kind :=
  if f.isEnum && !f.repeated then .enum
  else if !f.repeated then
    match f.isBase, baseOf f.goType with
    | true, some .string => .str
    | true, some _ => .base
    | _, _ => .msg
  else
    match f.isBase, baseOf f.goType with
    | true, some .string => .rstr
    | true, some _ => .rbase
    | _, _ => .rmsg

def check (s : Str) : List Ev := [U "err", .opn, U "errors", U "err", .use s, .cls]

def pcheck (path : Bool) : List Ev :=
  [U "err", .opn, U "errors", U "err", U "fmt", U (if path then "pathParams" else "queryParams"), .cls]

def repeatedShape (p : List Ev) (c : List Ev) (l s a : Str) : List Ev :=
  [.var l, .use a, .opn, .use a, .assign l, .use a, .opn, S ["i", "v"], .opn] ++ p ++ check s ++ [.use l, U "i",
    U "converted", .cls, .cls, .cls, .opn, U "json", .use s, .use l, A "err", U "err", .opn, .use s, .assign s, .cls,
    U "json", .use s, .use l, A "err", .cls] ++ c

def convShape (path : Bool) (tev : List Ev) (l s a : Str) : Kind → List Ev
  | .enum => [U "strconv", .use s, .short [l, "err".toList]] ++ pcheck path
  | .str => [.use s, .short [l]]
  | .base => [U "strconv", .use s, .short [l, "err".toList]] ++ pcheck path
  | .msg => tev ++ [.var l] ++ tev ++ [.assign l, U "json", .use s, .use l, A "err"] ++ check s
  | .rstr => repeatedShape [U "v", S ["converted"]] [] l s a
  | .rbase => repeatedShape [U "strconv", U "v", S ["converted", "err"]] (check s) l s a
  | .rmsg => tev ++ [.var l, U "json", .use s, .use l, A "err"] ++ check s

def shape (path : Bool) (k : Kind) (tev : List Ev) (l s a : Str) : List Ev :=
  (if path then [U "pathParams", .short [s]]
    else [.opn, U "queryParams", .short [a, "ok".toList], U "ok", .opn, .use a, .short [s]]) ++
  convShape path tev l s a k ++ [U "req"] ++ (if k = .enum then tev else []) ++ [.use l] ++
  (if path then [] else [.cls, .cls])

/-- The local names of a field. -/
def lName (meth : Str) (f : HField) : Str := f.camelName ++ Strs.goCamelCase meth

theorem fieldEvs_eq {meth : Str} {f : HField} (h : f.location = "path".toList ∨ f.location = "query".toList) :
    fieldEvs meth f = shape (decide (f.location = "path".toList)) (kindOf f) (typeEvs f.goType) (lName meth f)
      (strN (lName meth f)) (arrN (lName meth f)) := by
  obtain ⟨q, c, loc, t, star, ib, ie, rep⟩ := f
  simp only at h
  have hp : ∀ l, convertEvs ⟨q, c, loc, t, star, ib, ie, rep⟩ l =
      convShape (decide (loc = "path".toList)) (typeEvs t) l (strN l) (arrN l) (kindOf ⟨q, c, loc, t, star, ib, ie, rep⟩) := by
    intro l
    have hc : paramCheck loc = pcheck (decide (loc = "path".toList)) := by
      rcases h with rfl | rfl <;> with_unfolding_all rfl
    unfold convertEvs kindOf
    simp only
    cases ie <;> cases rep <;> cases ib <;> simp only [Bool.and_true, Bool.and_false, Bool.not_true, Bool.not_false,
      if_true, if_false, Bool.false_eq_true, hc] <;> rcases baseOf t with _ | (_ | _) <;>
      with_unfolding_all rfl
  have ha : ∀ l, assignEvs ⟨q, c, loc, t, star, ib, ie, rep⟩ l = [U "req"] ++
      (if kindOf ⟨q, c, loc, t, star, ib, ie, rep⟩ = .enum then typeEvs t else []) ++ [.use l] := by
    intro l
    unfold assignEvs kindOf
    simp only
    cases ie <;> cases rep <;> cases ib <;> rcases baseOf t with _ | (_ | _) <;> rfl
  unfold fieldEvs shape
  simp only
  rw [hp, ha]
  rcases h with rfl | rfl
  · simp [lName]; with_unfolding_all rfl
  · simp [lName]; with_unfolding_all rfl

/-! ## The statements with short names -/

/-- The variables of the decoder that are always there. -/
def lows : List Str := ["r", "req", "buf", "err", "pathParams", "queryParams"].map String.toList

/-- The packages the statements use. -/
def pkgs : List Str := ["strconv", "errors", "fmt", "json"].map String.toList

/-- The mention of a type: none, a name of the package or an import; in the first case which one. -/
inductive Tev where
  | none | imp | own (x : Char)

def Tev.evs : Tev → List Ev
  | .none => []
  | .imp => [.use ['T']]
  | .own x => [.type [x]]

def shortBlock (mL mS mA mT : Bool) : Block :=
  lows.map (fun x => (x, true)) ++ (if mL then [(['L'], true)] else []) ++ (if mS then [(['S'], true)] else []) ++
    (if mA then [(['A'], true)] else []) ++ (if mT then [(['T'], true)] else [])

/-- The surroundings: whether the list of texts is declared, and the type. -/
def lowest (vA vT : Bool) (t : Tev) : Outer :=
  ⟨fun y => if y = ['A'] then vA else if y = ['T'] then (match t with
      | .imp => vT
      | _ => false) else decide (y ∈ pkgs),
    fun y => match t with
      | .own x => y = [x] && vT
      | _ => false⟩

def highest (vA vT : Bool) (t : Tev) : Outer :=
  ⟨fun y => if y = ['A'] then vA else if y = ['T'] then (match t with
      | .imp => vT
      | _ => true) else true,
    fun y => match t with
      | .own x => if y = [x] then vT else true
      | _ => true⟩

def typeCond (path : Bool) (k : Kind) (mL mA mT vT : Bool) : Tev → Bool
  | .none => true
  | .imp => (mT || vT)
  | .own x => vT && (if x = 'L' then !mL && k = .rmsg else if x = 'A' then !mA && path else if x = 'T' then !mT else false)

def cond (path : Bool) (k : Kind) (mL mS mA mT vA vT : Bool) (t : Tev) : Bool :=
  (!path || (!mS && !mL)) && (!path || (k ≠ .rstr && k ≠ .rbase) || mA || vA) &&
  ((k ≠ .enum && k ≠ .msg && k ≠ .rmsg) || typeCond path k mL mA mT vT t)

def result (path : Bool) (k : Kind) (mL mS mA mT vA vT : Bool) (t : Tev) : Option (List Block) :=
  if cond path k mL mS mA mT vA vT t then
    some [shortBlock mL mS mA mT ++ (if path then [(['S'], true), (['L'], true)] else [])]
  else none

def test (path : Bool) (k : Kind) (mL mS mA mT vA vT : Bool) (t : Tev) : Bool :=
  run (lowest vA vT t) [shortBlock mL mS mA mT] (shape path k t.evs ['L'] ['S'] ['A']) = result path k mL mS mA mT vA vT t &&
  run (highest vA vT t) [shortBlock mL mS mA mT] (shape path k t.evs ['L'] ['S'] ['A']) = result path k mL mS mA mT vA vT t

def bools : List Bool := [true, false]

theorem tests_typed : ([Kind.enum, .msg, .rmsg].all fun k => [Tev.none, .imp, .own 'L', .own 'S', .own 'A', .own 'T'].all fun t =>
    bools.all fun path => bools.all fun mL => bools.all fun mS => bools.all fun mA => bools.all fun mT => bools.all fun vA =>
    bools.all fun vT => test path k mL mS mA mT vA vT t) = true := by decide +kernel

theorem tests_base : ([Kind.str, .base, .rstr, .rbase].all fun k => bools.all fun path => bools.all fun mL =>
    bools.all fun mS => bools.all fun mA => bools.all fun vA => test path k mL mS mA false vA false .none) = true := by
  decide +kernel

theorem mem_bools (b : Bool) : b ∈ bools := by cases b <;> decide

/-! ## The names themselves -/

def inner : List Str := ["ok", "i", "v", "converted"].map String.toList
def lowers : List Str := lows ++ pkgs ++ inner

/-- The variables declared so far, all of them used; none but the first has a lower-case name. -/
structure Inv (c : Block) (vs : List Str) : Prop where
  look : ∀ x, Scope.look c x = if x ∈ lows ∨ x ∈ vs then some true else none
  upper : ∀ x ∈ vs, Locals.upper x = true

theorem look_true {b : Block} (h : b.all (·.2) = true) (x : Str) :
    Scope.look b x = if declared x b = true then some true else none := by
  have := (all_iff b).1 h x
  rw [← look_isSome]
  cases hl : Scope.look b x with
  | none => rfl
  | some v =>
    cases v with
    | true => rfl
    | false => exact absurd hl this

theorem look_short (mL mS mA mT : Bool) (y : Str) : Scope.look (shortBlock mL mS mA mT) y =
    if y ∈ lows ∨ (mL = true ∧ y = ['L']) ∨ (mS = true ∧ y = ['S']) ∨ (mA = true ∧ y = ['A']) ∨ (mT = true ∧ y = ['T'])
    then some true else none := by
  rw [look_true (by cases mL <;> cases mS <;> cases mA <;> cases mT <;> decide +kernel)]
  have h : declared y (shortBlock mL mS mA mT) = true ↔ y ∈ lows ∨ (mL = true ∧ y = ['L']) ∨ (mS = true ∧ y = ['S']) ∨
      (mA = true ∧ y = ['A']) ∨ (mT = true ∧ y = ['T']) := by
    unfold shortBlock
    simp only [declared_append, Bool.or_eq_true, declared_map]
    cases mL <;> cases mS <;> cases mA <;> cases mT <;> simp [declared, eq_comm, or_assoc]
  simp only [h]

section
variable (L S A T : Str)

def rho (x : Str) : Str := if x = L then ['L'] else if x = S then ['S'] else if x = A then ['A'] else if x = T then ['T'] else x
def inv (y : Str) : Str := if y = ['L'] then L else if y = ['S'] then S else if y = ['A'] then A else if y = ['T'] then T else y
def Mine (x : Str) : Prop := x ∈ lowers ∨ x = L ∨ x = S ∨ x = A ∨ x = T

structure Names : Prop where
  upL : upper L = true
  upS : upper S = true
  upA : upper A = true
  LS : L ≠ S
  LA : L ≠ A
  SA : S ≠ A
  T : T ∉ lowers

variable {L S A T}

theorem lower_of_mem {x : Str} (h : x ∈ lowers) : upper x = false := by
  have : lowers.all (fun x => !upper x) = true := by decide +kernel
  simpa using List.all_eq_true.1 this x h

theorem Names.low (h : Names L S A T) {x : Str} (hx : x ∈ lowers) : rho L S A T x = x := by
  have hu := lower_of_mem hx
  unfold rho
  rw [if_neg, if_neg, if_neg, if_neg]
  · rintro rfl; exact h.T hx
  · rintro rfl; rw [h.upA] at hu; cases hu
  · rintro rfl; rw [h.upS] at hu; cases hu
  · rintro rfl; rw [h.upL] at hu; cases hu

theorem Names.L' (_ : Names L S A T) : rho L S A T L = ['L'] := if_pos rfl
theorem Names.S' (h : Names L S A T) : rho L S A T S = ['S'] := by unfold rho; rw [if_neg (Ne.symm h.LS), if_pos rfl]
theorem Names.A' (h : Names L S A T) : rho L S A T A = ['A'] := by
  unfold rho; rw [if_neg (Ne.symm h.LA), if_neg (Ne.symm h.SA), if_pos rfl]

theorem Names.inv (h : Names L S A T) {x : Str} (hx : Mine L S A T x) : inv L S A T (rho L S A T x) = x := by
  have hT : T = L ∨ T = S ∨ T = A ∨ rho L S A T T = ['T'] := by
    unfold rho
    by_cases h1 : T = L
    · exact .inl h1
    · by_cases h2 : T = S
      · exact .inr (.inl h2)
      · by_cases h3 : T = A
        · exact .inr (.inr (.inl h3))
        · rw [if_neg h1, if_neg h2, if_neg h3, if_pos rfl]; exact .inr (.inr (.inr rfl))
  have hL : Locals.inv L S A T (rho L S A T L) = L := by rw [h.L']; rfl
  have hS : Locals.inv L S A T (rho L S A T S) = S := by rw [h.S']; rfl
  have hA : Locals.inv L S A T (rho L S A T A) = A := by rw [h.A']; rfl
  rcases hx with hx | rfl | rfl | rfl | rfl
  · rw [h.low hx]
    have hu := lower_of_mem hx
    unfold Locals.inv
    rw [if_neg, if_neg, if_neg, if_neg] <;> rintro rfl <;> cases hu
  · exact hL
  · exact hS
  · exact hA
  · rcases hT with rfl | rfl | rfl | h1
    · exact hL
    · exact hS
    · exact hA
    · rw [h1]; rfl

theorem Names.inj (h : Names L S A T) (x y : Str) (hx : Mine L S A T x) (hy : Mine L S A T y)
    (he : rho L S A T x = rho L S A T y) : x = y := by
  rw [← h.inv hx, he, h.inv hy]

end

section
variable {ρ : Str → Str} (h : ∀ x ∈ lowers, ρ x = x)
include h

theorem ren_U {x : String} (hx : x.toList ∈ lowers) : (U x).ren ρ = U x := by
  show Ev.use _ = Ev.use _
  rw [h _ hx]

theorem ren_A {x : String} (hx : x.toList ∈ lowers) : (A x).ren ρ = A x := by
  show Ev.assign _ = Ev.assign _
  rw [h _ hx]

theorem ren_S1 {x : String} (hx : x.toList ∈ lowers) : (S [x]).ren ρ = S [x] := by
  show Ev.short [_] = Ev.short [_]
  rw [h _ hx]

theorem ren_S2 {x y : String} (hx : x.toList ∈ lowers) (hy : y.toList ∈ lowers) : (S [x, y]).ren ρ = S [x, y] := by
  show Ev.short [_, _] = Ev.short [_, _]
  rw [h _ hx, h _ hy]

theorem ren_pair {l : Str} {x : String} (hx : x.toList ∈ lowers) : (Ev.short [l, x.toList]).ren ρ = .short [ρ l, x.toList] := by
  show Ev.short [_, _] = Ev.short [_, _]
  rw [h _ hx]

theorem shape_ren (path : Bool) (k : Kind) (tev : List Ev) (l s a : Str) :
    (shape path k tev l s a).map (Ev.ren ρ) = shape path k (tev.map (Ev.ren ρ)) (ρ l) (ρ s) (ρ a) := by
  have h3 : ∀ l, (Ev.short [l]).ren ρ = .short [ρ l] := fun _ => rfl
  have h5 : ∀ l, (Ev.use l).ren ρ = .use (ρ l) := fun _ => rfl
  have h8 : ∀ l, (Ev.var l).ren ρ = .var (ρ l) := fun _ => rfl
  have h9 : ∀ l, (Ev.assign l).ren ρ = .assign (ρ l) := fun _ => rfl
  have ho : Ev.opn.ren ρ = .opn := rfl
  have hc : Ev.cls.ren ρ = .cls := rfl
  cases path <;> cases k <;>
    simp (disch := decide +kernel) only [shape, convShape, repeatedShape, check, pcheck, if_true, if_false,
      Bool.false_eq_true, List.map_append, List.map_cons, List.map_nil, ren_U h, ren_A h, ren_S1 h, ren_S2 h, ren_pair h, h3,
      h5, h8, h9, ho, hc, reduceCtorEq]

end

section
variable {L S A T : Str}

theorem inv_low {x : Str} (hx : x ∈ lowers) : inv L S A T x = x := by
  have hu := lower_of_mem hx
  unfold inv
  rw [if_neg, if_neg, if_neg, if_neg] <;> rintro rfl <;> cases hu

/-- The mention of a type. -/
def mev (T : Str) : Option Bool → List Ev
  | none => []
  | some true => [.use T]
  | some false => [.type T]

theorem mev_ren (ρ : Str → Str) (T : Str) (m : Option Bool) : (mev T m).map (Ev.ren ρ) = mev (ρ T) m := by
  rcases m with _ | (_ | _) <;> rfl

theorem shape_nested (path : Bool) (k : Kind) (m : Option Bool) : nested 0 (shape path k (mev T m) L S A) = true := by
  cases path <;> cases k <;> rcases m with _ | (_ | _) <;> rfl

theorem shape_names (path : Bool) (k : Kind) (m : Option Bool) :
    ∀ e ∈ shape path k (mev T m) L S A, ∀ x ∈ e.names, Mine L S A T x := by
  have hs : shape path k (mev T m) L S A = (shape path k (mev ['T'] m) ['L'] ['S'] ['A']).map (Ev.ren (inv L S A T)) := by
    rw [shape_ren fun x hx => inv_low hx, mev_ren]
    rfl
  have hc : ∀ path : Bool, ∀ k : Kind, ∀ m : Option Bool, ((shape path k (mev ['T'] m) ['L'] ['S'] ['A']).all fun e =>
      e.names.all fun x => decide (x ∈ lowers ++ [['L'], ['S'], ['A'], ['T']])) = true := by
    intro path k m
    cases path <;> cases k <;> rcases m with _ | (_ | _) <;> decide +kernel
  rw [hs]
  intro e he x hx
  obtain ⟨e', he', rfl⟩ := List.mem_map.1 he
  have hn : ∀ e' : Ev, ∀ x ∈ (e'.ren (inv L S A T)).names, ∃ y ∈ e'.names, x = inv L S A T y := by
    intro e' x hx
    cases e' with
    | opn => cases hx
    | cls => cases hx
    | short xs => obtain ⟨y, hy, rfl⟩ := List.mem_map.1 hx; exact ⟨y, hy, rfl⟩
    | _ => exact ⟨_, List.mem_singleton_self _, List.mem_singleton.1 hx⟩
  obtain ⟨y, hy, rfl⟩ := hn e' x hx
  have := of_decide_eq_true (List.all_eq_true.1 (List.all_eq_true.1 (hc path k m) e' he') y hy)
  rw [List.mem_append] at this
  rcases this with h | h
  · rw [inv_low h]; exact .inl h
  · simp only [List.mem_cons, List.not_mem_nil, or_false] at h
    rcases h with rfl | rfl | rfl | rfl
    · exact .inr (.inl rfl)
    · exact .inr (.inr (.inl rfl))
    · exact .inr (.inr (.inr (.inl rfl)))
    · exact .inr (.inr (.inr (.inr rfl)))

theorem run_between {g0 g g1 : Outer} (h0 : g0.le g) (h1 : g.le g1) {bs : List Block} {es : List Ev} {r : Option (List Block)}
    (hr0 : run g0 bs es = r) (hr1 : run g1 bs es = r) : run g bs es = r := by
  cases r with
  | some r => exact run_mono h0 hr0
  | none =>
    cases hg : run g bs es with
    | none => rfl
    | some r => rw [run_mono h1 hg] at hr1; cases hr1

/-- The pattern of the type's name. -/
def tevOf (L S A T : Str) : Option Bool → Tev
  | none => .none
  | some true => .imp
  | some false => .own (if T = L then 'L' else if T = S then 'S' else if T = A then 'A' else 'T')

theorem tev_run (k : Kind) (path mL mS mA mT vA vT : Bool) (t : Tev) (ht : t = .none ∨ t = .imp ∨ t = .own 'L' ∨ t = .own 'S' ∨
    t = .own 'A' ∨ t = .own 'T') (hb : k = .str ∨ k = .base ∨ k = .rstr ∨ k = .rbase → t = .none ∧ mT = false ∧ vT = false) :
    test path k mL mS mA mT vA vT t = true := by
  have h1 := tests_typed
  have h2 := tests_base
  have b := mem_bools
  simp only [List.all_eq_true] at h1 h2
  by_cases hk : k = .str ∨ k = .base ∨ k = .rstr ∨ k = .rbase
  · obtain ⟨rfl, rfl, rfl⟩ := hb hk
    exact h2 k (by rcases hk with rfl | rfl | rfl | rfl <;> decide) path (b _) mL (b _) mS (b _) mA (b _) vA (b _)
  · refine h1 k ?_ t ?_ path (b _) mL (b _) mS (b _) mA (b _) mT (b _) vA (b _) vT (b _)
    · cases k <;> first | decide | exact absurd (by decide) hk
    · rcases ht with rfl | rfl | rfl | rfl | rfl | rfl <;> simp

end

end Baron.Locals
