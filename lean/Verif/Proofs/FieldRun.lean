import Verif.Proofs.Decoders
import Verif.Proofs.Literal
import Verif.Spec.DecoderRun

/-!
# Running the statements of a decoder
-/

namespace Baron.Decoders

open Baron.Svcdef hiding newField
open Baron.HTTP Baron.HTTPCode Baron.GoLang
open Baron.GoLang (Expr)
open Baron.TT (literal)
open Baron.Strs (goCamelCase)

variable {F : Type} {L : Libs F}

/-! ## Scopes -/

theorem set_same (s : Scope F) (x : Str) (v : GV F) : s.set x v x = some v := if_pos rfl

theorem set_ne (s : Scope F) {x y : Str} (v : GV F) (h : y ≠ x) : s.set x v y = s y := if_neg h

theorem find_here {s : Scope F} {ss : List (Scope F)} {x : Str} {v : GV F} (h : s x = some v) : find (s :: ss) x = some v := by
  unfold find
  rw [h]

theorem find_next {s : Scope F} {ss : List (Scope F)} {x : Str} (h : s x = none) : find (s :: ss) x = find ss x := by
  rw [find, h]

theorem find_push {σ : State F} {x : Str} : find σ.push.scopes x = find σ.scopes x := find_next rfl

theorem store_here {s : Scope F} {ss : List (Scope F)} {x : Str} {v w : GV F} (h : s x = some w) : store (s :: ss) x v = some (s.set x v :: ss) := by
  unfold store
  rw [h]

theorem store_next {s : Scope F} {ss : List (Scope F)} {x : Str} {v : GV F} (h : s x = none) :
    store (s :: ss) x v = (store ss x v).map (s :: ·) := by
  rw [store, h]

/-! ## Checks -/

theorem eval_id {ss : List (Scope F)} {x : Str} {v : GV F} (h : find ss x = some v) : (Expr.id x).eval L ss = .ok v := by
  unfold Expr.eval
  rw [h]

theorem eval_failed {ss : List (Scope F)} {e : Bool} (h : find ss (chars% "err") = some (.err e)) : failed.eval L ss = .ok (.bool e) := by
  unfold failed
  simp only [Expr.eval, h, if_true, isNil, Bool.not_not]

theorem eval_wrap {ss : List (Scope F)} {e : Bool} (h : find ss (chars% "err") = some (.err e)) (b : Expr) :
    (Expr.call2 (chars% "errors.Wrap") (.id (chars% "err")) b).eval L ss = .ok (.err e) := by
  rw [Expr.eval, if_pos rfl, eval_id h]

theorem eval_wrapf {ss : List (Scope F)} {e : Bool} (h : find ss (chars% "err") = some (.err e)) (b c : Expr) :
    (Expr.call3 (chars% "errors.Wrapf") (.id (chars% "err")) b c).eval L ss = .ok (.err e) := by
  rw [Expr.eval, if_pos rfl, eval_id h]

theorem exec_ret {ws : Str} {a e : Expr} {rest : Code} {σ : State F} {b : Bool} (h : e.eval L σ.scopes = .ok (.err b)) :
    (Code.ret ws a e rest).exec L σ = .returned b σ := by
  unfold Code.exec
  rw [h]

theorem exec_failed {ws : Str} {body rest : Code} {σ : State F} (h : find σ.scopes (chars% "err") = some (.err true)) :
    (Code.cond ws failed body rest).exec L σ = ((body.exec L σ.push).pop).then (rest.exec L) := by
  rw [Code.exec, eval_failed h]

theorem exec_passed {ws : Str} {body rest : Code} {σ : State F} (h : find σ.scopes (chars% "err") = some (.err false)) :
    (Code.cond ws failed body rest).exec L σ = rest.exec L σ := by
  rw [Code.exec, eval_failed h]

theorem checkDecoded_true {x : Str} {rest : Code} {σ : State F} (h : find σ.scopes (chars% "err") = some (.err true)) :
    (checkDecoded x rest).exec L σ = .returned true σ.push := by
  unfold checkDecoded
  rw [exec_failed h, exec_ret (eval_wrapf (find_push.trans h) _ _)]
  rfl

theorem checkDecoded_false {x : Str} {rest : Code} {σ : State F} (h : find σ.scopes (chars% "err") = some (.err false)) :
    (checkDecoded x rest).exec L σ = rest.exec L σ := exec_passed h

theorem checkParsed_true {ind x what loc : Str} {rest : Code} {σ : State F} (h : find σ.scopes (chars% "err") = some (.err true)) :
    (checkParsed ind x what loc rest).exec L σ = .returned true σ.push := by
  unfold checkParsed
  rw [exec_failed h, exec_ret (eval_wrap (find_push.trans h) _)]
  rfl

theorem checkParsed_false {ind x what loc : Str} {rest : Code} {σ : State F} (h : find σ.scopes (chars% "err") = some (.err false)) :
    (checkParsed ind x what loc rest).exec L σ = rest.exec L σ := exec_passed h

/-! ## Scalars -/

/-- The value of a variable that holds a scalar. -/
def gv : SVal F → GV F
  | .str s => .str s
  | v => .one v

theorem gv_scalar (v : SVal F) : (gv v).scalar = some v := by cases v <;> rfl

theorem gv_field (v : SVal F) : (gv v).field = some (.one v) := by cases v <;> rfl

theorem exec_define1 {ws x : Str} {e : Expr} {rest : Code} {s : Scope F} {ss : List (Scope F)} {m : FullMsg F} {v : GV F}
    (h : e.eval L (s :: ss) = .ok v) : (Code.define ws [x] e rest).exec L ⟨s :: ss, m⟩ = rest.exec L ⟨s.set x v :: ss, m⟩ := by
  have : e.evals L (s :: ss) 1 = .ok [v] := by
    unfold Expr.evals
    rw [if_pos rfl, h]
  rw [Code.exec]
  simp only [List.length_cons, List.length_nil]
  rw [this]
  rfl

theorem exec_define2 {ws x y : Str} {e : Expr} {rest : Code} {s : Scope F} {ss : List (Scope F)} {m : FullMsg F} {v w : GV F}
    (h : e.eval2 L (s :: ss) = .ok (v, w)) :
    (Code.define ws [x, y] e rest).exec L ⟨s :: ss, m⟩ = rest.exec L ⟨(s.set x v).set y w :: ss, m⟩ := by
  have : e.evals L (s :: ss) 2 = .ok [v, w] := by
    unfold Expr.evals
    rw [if_neg (by decide), if_pos rfl, h]
  rw [Code.exec]
  simp only [List.length_cons, List.length_nil]
  rw [this]
  rfl

/-- The call gives the value and no error, or an error. -/
theorem eval_parse {t y s : Str} {b : Base} (hb : baseOf t = some b) (hs : b ≠ .string) {ss : List (Scope F)} (h : find ss y = some (.str s)) :
    (parseCall t y).eval2 L ss = .ok (match parseBase L.fl b s with
      | some v => (gv v, .err false)
      | none => (.junk, .err true)) := by
  have := baseOf_name hb
  subst this
  have hi : (Expr.id y).eval L ss = .ok (.str s) := eval_id h
  cases b with
  | string => exact absurd rfl hs
  | uint32 =>
    show (Expr.call3 (chars% "strconv.ParseUint") (.id y) (.num 10) (.num 32)).eval2 L ss = _
    simp only [Expr.eval2, hi, parseBase]
    cases parseUint 32 s <;> rfl
  | uint64 =>
    show (Expr.call3 (chars% "strconv.ParseUint") (.id y) (.num 10) (.num 64)).eval2 L ss = _
    simp only [Expr.eval2, hi, parseBase]
    cases parseUint 64 s <;> rfl
  | int32 =>
    show (Expr.call3 (chars% "strconv.ParseInt") (.id y) (.num 10) (.num 32)).eval2 L ss = _
    simp only [Expr.eval2, hi, parseBase]
    cases parseInt 32 s <;> rfl
  | int64 =>
    show (Expr.call3 (chars% "strconv.ParseInt") (.id y) (.num 10) (.num 64)).eval2 L ss = _
    simp only [Expr.eval2, hi, parseBase]
    cases parseInt 64 s <;> rfl
  | bool =>
    show (Expr.call1 (chars% "strconv.ParseBool") (.id y)).eval2 L ss = _
    simp only [Expr.eval2, hi, parseBase]
    cases parseBool s <;> rfl
  | float32 =>
    show (Expr.call2 (chars% "strconv.ParseFloat") (.id y) (.num 32)).eval2 L ss = _
    simp only [Expr.eval2, hi, parseBase, decide_true]
    cases L.fl.parse true s <;> rfl
  | float64 =>
    show (Expr.call2 (chars% "strconv.ParseFloat") (.id y) (.num 64)).eval2 L ss = _
    simp only [Expr.eval2, hi, parseBase]
    rw [show decide (64 = 32) = false from rfl]
    cases L.fl.parse false s <;> rfl

/-- Reading a scalar that is not a string. -/
theorem readScalar_exec {ws t x y s : Str} {b : Base} (hb : baseOf t = some b) (hs : b ≠ .string) {c : Scope F} {ss : List (Scope F)} {m : FullMsg F}
    (h : find (c :: ss) y = some (.str s)) (rest : Code) :
    (readScalar ws t x y rest).exec L ⟨c :: ss, m⟩ = match parseBase L.fl b s with
      | some v => rest.exec L ⟨(c.set x (gv v)).set (chars% "err") (.err false) :: ss, m⟩
      | none => rest.exec L ⟨(c.set x .junk).set (chars% "err") (.err true) :: ss, m⟩ := by
  have hn : t ≠ chars% "string" := fun h' => hs (Option.some.inj (hb.symm.trans (baseOf_string.mpr h')))
  unfold readScalar
  rw [if_neg hn, exec_define2 (eval_parse hb hs h)]
  cases parseBase L.fl b s <;> rfl

/-- Reading a string. -/
theorem readScalar_string {ws x y s : Str} {c : Scope F} {ss : List (Scope F)} {m : FullMsg F}
    (h : find (c :: ss) y = some (.str s)) (rest : Code) :
    (readScalar ws (chars% "string") x y rest).exec L ⟨c :: ss, m⟩ = rest.exec L ⟨c.set x (.str s) :: ss, m⟩ := by
  unfold readScalar
  rw [if_pos rfl, exec_define1 (eval_id h)]

theorem parseNat_range {bits : Nat} {s : Str} {i : Int} (h : parseInt bits s = some i) : -(2 ^ (bits - 1) : Int) ≤ i ∧ i < 2 ^ (bits - 1) := by
  have h2 : (0 : Int) < 2 ^ (bits - 1) := Int.pow_pos (by decide)
  have key : ∀ n : Nat, n < 2 ^ (bits - 1) → (n : Int) < 2 ^ (bits - 1) := fun n hn => by exact_mod_cast hn
  have key' : ∀ n : Nat, n ≤ 2 ^ (bits - 1) → (n : Int) ≤ 2 ^ (bits - 1) := fun n hn => by exact_mod_cast hn
  unfold parseInt at h
  split at h
  · split at h
    · split at h
      · rename_i n _ hn
        have := key' n hn
        cases h; omega
      · cases h
    · cases h
  · split at h
    · split at h
      · rename_i n _ hn
        have := key n hn
        cases h; omega
      · cases h
    · cases h
  · split at h
    · split at h
      · rename_i n _ hn
        have := key n hn
        cases h; omega
      · cases h
    · cases h

theorem parseUint_range {bits : Nat} {s : Str} {i : Int} (h : parseUint bits s = some i) : 0 ≤ i ∧ i < 2 ^ bits := by
  unfold parseUint at h
  split at h
  · split at h
    · rename_i n _ hn
      have : (n : Int) < 2 ^ bits := by exact_mod_cast hn
      cases h; omega
    · cases h
  · cases h

theorem wrap_signed {i : Int} (h : -(2 ^ 31 : Int) ≤ i ∧ i < 2 ^ 31) : wrap true i = i := by
  unfold wrap
  rw [if_pos rfl]
  omega

theorem wrap_unsigned {i : Int} (h : 0 ≤ i ∧ i < 2 ^ 32) : wrap false i = i := by
  unfold wrap
  rw [if_neg Bool.false_ne_true]
  omega

/-- The value of a parsed scalar, narrowed to its type. -/
theorem eval_narrowed {t x s : Str} {b : Base} (hb : baseOf t = some b) {v : SVal F} (hv : parseBase L.fl b s = some v) {ss : List (Scope F)}
    (h : find ss x = some (gv v)) : (narrowed t x).eval L ss = .ok (gv v) := by
  have := baseOf_name hb
  subst this
  have hi : (Expr.id x).eval L ss = .ok (gv v) := eval_id h
  cases b with
  | uint32 =>
    show (Expr.conv _ _).eval L ss = _
    rw [Expr.eval, hi]
    simp only [parseBase, Option.map_eq_some_iff] at hv
    obtain ⟨i, hr, rfl⟩ := hv
    simp only [gv, GoLang.convert, baseOf_nameOf, ne_eq, not_true, decide_false]
    rw [wrap_unsigned (parseUint_range hr)]
  | int32 =>
    show (Expr.conv _ _).eval L ss = _
    rw [Expr.eval, hi]
    simp only [parseBase, Option.map_eq_some_iff] at hv
    obtain ⟨i, hr, rfl⟩ := hv
    have : decide (baseOf (nameOf .int32) ≠ some .uint32) = true := by decide +kernel
    simp only [gv, GoLang.convert]
    rw [this, wrap_signed (parseNat_range hr)]
  | float32 =>
    show (Expr.conv _ _).eval L ss = _
    rw [Expr.eval, hi]
    simp only [parseBase, Option.map_eq_some_iff] at hv
    obtain ⟨i, hr, rfl⟩ := hv
    simp only [gv, GoLang.convert, baseOf_nameOf, if_true]
  | uint64 => exact hi
  | int64 => exact hi
  | bool => exact hi
  | float64 => exact hi
  | string => exact hi

/-! ## The scopes of a decoder -/

/-- The scope of the decoder's body. -/
def Bottom (e : Bool) (vars : List (Str × Str)) (q : List (Str × List Str)) (s : Scope F) : Prop :=
  s (chars% "err") = some (.err e) ∧ s (chars% "pathParams") = some (.vars vars) ∧ s (chars% "queryParams") = some (.query q)

/-- The scopes where the statements of a field start: the decoder's body, or the block of an `if` with variables. -/
inductive Level (e : Bool) (vars : List (Str × Str)) (q : List (Str × List Str)) : Bool → List (Scope F) → Prop where
  | path {s : Scope F} (h : Bottom e vars q s) : Level e vars q true [s]
  | query {c d s : Scope F} (hc : c (chars% "err") = none) (hd : d (chars% "err") = none) (h : Bottom e vars q s) : Level e vars q false [c, d, s]

/-- And where they end. -/
inductive Left (e : Bool) (vars : List (Str × Str)) (q : List (Str × List Str)) : Bool → List (Scope F) → Prop where
  | path {s : Scope F} (h : Bottom e vars q s) : Left e vars q true [s]
  | query {c d s : Scope F} (h : Bottom e vars q s) : Left e vars q false [c, d, s]

/-- A name that is none of the decoder's. -/
def Safe (x : Str) : Prop := x ≠ chars% "err" ∧ x ≠ chars% "pathParams" ∧ x ≠ chars% "queryParams"

variable {e : Bool} {vars : List (Str × Str)} {q : List (Str × List Str)} {path : Bool}

theorem Bottom.set {s : Scope F} (h : Bottom e vars q s) {x : Str} (hx : Safe x) (v : GV F) : Bottom e vars q (s.set x v) :=
  ⟨(set_ne s v (Ne.symm hx.1)).trans h.1, (set_ne s v (Ne.symm hx.2.1)).trans h.2.1, (set_ne s v (Ne.symm hx.2.2)).trans h.2.2⟩

theorem Bottom.err {s : Scope F} (h : Bottom e vars q s) (e' : Bool) : Bottom e' vars q (s.set (chars% "err") (.err e')) :=
  ⟨set_same .., (set_ne s _ (by decide)).trans h.2.1, (set_ne s _ (by decide)).trans h.2.2⟩

theorem Level.left {ss : List (Scope F)} (h : Level e vars q path ss) : Left e vars q path ss := by
  cases h with
  | path h => exact .path h
  | query _ _ h => exact .query h

theorem Level.set {c : Scope F} {ss : List (Scope F)} (h : Level e vars q path (c :: ss)) {x : Str} (hx : Safe x) (v : GV F) :
    Level e vars q path (c.set x v :: ss) := by
  cases h with
  | path h => exact .path (h.set hx v)
  | query hc hd h => exact .query ((set_ne c v (Ne.symm hx.1)).trans hc) hd h

theorem Level.err {c : Scope F} {ss : List (Scope F)} (h : Level e vars q path (c :: ss)) (e' : Bool) :
    Left (if path then e' else e) vars q path (c.set (chars% "err") (.err e') :: ss) := by
  cases h with
  | path h => exact .path (h.err e')
  | query hc hd h => exact .query h

theorem Level.find {ss : List (Scope F)} (h : Level e vars q path ss) : find ss (chars% "err") = some (.err e) := by
  cases h with
  | path h => exact find_here h.1
  | query hc hd h => rw [find_next hc, find_next hd]; exact find_here h.1

theorem Level.store {c : Scope F} {ss : List (Scope F)} (h : Level e vars q path (c :: ss)) (e' : Bool) :
    ∃ c' ss', store (c :: ss) (chars% "err") (.err e') = some (c' :: ss') ∧ Level e' vars q path (c' :: ss') ∧
      ∀ y, y ≠ chars% "err" → c' y = c y ∧ GoLang.find (c' :: ss') y = GoLang.find (c :: ss) y := by
  cases h with
  | path h =>
    refine ⟨_, _, store_here h.1, .path (h.err e'), fun y hy => ⟨set_ne c _ hy, ?_⟩⟩
    unfold GoLang.find
    rw [set_ne c _ hy]
  | @query _ d s hc hd h =>
    refine ⟨c, [d, s.set (chars% "err") (.err e')], ?_, .query hc hd (h.err e'), fun y hy => ⟨rfl, ?_⟩⟩
    · rw [store_next hc, store_next hd, store_here h.1]
      rfl
    · have : GoLang.find [s.set (chars% "err") (.err e')] y = GoLang.find [s] y := by
        unfold GoLang.find
        rw [set_ne s _ hy]
      unfold GoLang.find
      rw [show GoLang.find [d, s.set (chars% "err") (.err e')] y = GoLang.find [d, s] y by
        unfold GoLang.find
        rw [this]]

/-- What the statements of a field do. -/
def Result (e : Bool) (vars : List (Str × Str)) (q : List (Str × List Str)) (path : Bool) (field : Str) (m : FullMsg F) (o : Out F) : Conv F → Prop
  | .fail => ∃ σ, o = .returned true σ
  | .ok v e' => ∃ ss, o = .next ⟨ss, { m with fields := setMsg m.fields field v }⟩ ∧ Left e' vars q path ss

theorem exec_setReq {ws f : Str} {a : Expr} {rest : Code} {ss : List (Scope F)} {m : FullMsg F} {v : GV F} {x : FVal F}
    (h : a.eval L ss = .ok v) (hv : v.field = some x) :
    (Code.setReq ws f a rest).exec L ⟨ss, m⟩ = rest.exec L ⟨ss, { m with fields := setMsg m.fields f x }⟩ := by
  rw [Code.exec]
  simp only [h]
  have : assignReq m f v = some { m with fields := setMsg m.fields f x } := by
    cases v with
    | option => cases hv
    | _ => simp only [assignReq, hv]
  rw [this]

/-! ### Single values -/

theorem enum_exec {x y s field loc t : Str} (hx : Safe x) {c : Scope F} {ss : List (Scope F)} {m : FullMsg F} (hl : Level e vars q path (c :: ss))
    (hy : find (c :: ss) y = some (.str s)) (ht : baseOf t ≠ some .uint32) :
    Result e vars q path field m ((Code.define (chars% "\n") [x, chars% "err"] (.call3 (chars% "strconv.ParseInt") (.id y) (.num 10) (.num 32))
      (checkParsed [] x loc loc (.setReq (chars% "\n") field (.conv t (.id x)) (.done (chars% "\n"))))).exec L ⟨c :: ss, m⟩)
      (match parseInt 32 s with
      | some i => .ok (.one (.num i)) (if path then false else e)
      | none => .fail) := by
  have hp := eval_parse (L := L) (t := chars% "int32") (b := .int32) (by decide +kernel) (by decide) hy
  rw [show parseCall (chars% "int32") y = .call3 (chars% "strconv.ParseInt") (.id y) (.num 10) (.num 32) from rfl] at hp
  rw [exec_define2 hp]
  cases hi : parseInt 32 s with
  | none =>
    simp only [parseBase, hi, Option.map_none]
    rw [checkParsed_true (find_here (set_same ..))]
    exact ⟨_, rfl⟩
  | some i =>
    simp only [parseBase, hi, Option.map_some]
    rw [checkParsed_false (find_here (set_same ..))]
    have hf : find ((c.set x (gv (.num i))).set (chars% "err") (.err false) :: ss) x = some (gv (.num i)) :=
      find_here ((set_ne _ _ hx.1).trans (set_same ..))
    refine ⟨_, exec_setReq (v := .one (.num i)) ?_ rfl, (hl.set hx _).err false⟩
    rw [Expr.eval, eval_id hf]
    simp only [gv, GoLang.convert]
    rw [decide_eq_true ht, wrap_signed (parseNat_range hi)]

theorem scalar_exec {x y s field loc : Str} {t : FieldType} {b : Base} (hb : baseOf t.name = some b) (hs : isScalar t = true) (hx : Safe x)
    (hn : t.star = true → needsCast b = false)
    {c : Scope F} {ss : List (Scope F)} {m : FullMsg F} (hl : Level e vars q path (c :: ss)) (hy : find (c :: ss) y = some (.str s)) :
    Result e vars q path field m ((readScalar (chars% "\n") t.name x y (if t.name = chars% "string" then
        .setReq (chars% "\n") field (valueOf t x) (.done (chars% "\n")) else
        checkParsed [] x loc loc (.setReq (chars% "\n") field (valueOf t x) (.done (chars% "\n"))))).exec L ⟨c :: ss, m⟩)
      (match parseBase L.fl b s with
      | none => .fail
      | some v => .ok (if t.star then .opt (some v) else .one v) (if b = .string then e else if path then false else e)) := by
  have hne : t.enum = none := by
    simp only [isScalar, Bool.and_eq_true, Option.isNone_iff_eq_none] at hs
    exact hs.1.1.2
  have key : ∀ {ss' : List (Scope F)} {v : SVal F}, parseBase L.fl b s = some v → find ss' x = some (gv v) →
      ∃ w : GV F, (valueOf t x).eval L ss' = .ok w ∧ w.field = some (if t.star then .opt (some v) else .one v) := by
    intro ss' v hv hf
    unfold valueOf
    simp only [hne, hs, Bool.true_and, Option.isSome_none, Bool.false_eq_true, if_false]
    cases hst : t.star with
    | false => exact ⟨gv v, eval_narrowed hb hv hf, gv_field v⟩
    | true =>
      have : narrowed t.name x = .id x := by
        have hc := hn hst
        have := baseOf_name hb
        unfold narrowed
        rw [this]
        cases b <;> first | rfl | cases hc
      rw [this]
      refine ⟨.ptr v, ?_, rfl⟩
      rw [if_pos rfl, Expr.eval]
      simp only [hf, gv_scalar]
  by_cases hbs : b = .string
  · subst hbs
    have ht := baseOf_string.mp hb
    rw [if_pos ht, ht, readScalar_string hy]
    obtain ⟨w, h1, h2⟩ := key (ss' := c.set x (.str s) :: ss) rfl (find_here (set_same ..))
    exact ⟨_, exec_setReq h1 h2, (hl.set hx _).left⟩
  · have ht : t.name ≠ chars% "string" := fun h => hbs (Option.some.inj (hb.symm.trans (baseOf_string.mpr h)))
    rw [if_neg ht, readScalar_exec hb hbs hy]
    cases hv : parseBase L.fl b s with
    | none =>
      simp only
      rw [checkParsed_true (find_here (set_same ..))]
      exact ⟨_, rfl⟩
    | some v =>
      simp only
      rw [checkParsed_false (find_here (set_same ..)), if_neg hbs]
      obtain ⟨w, h1, h2⟩ := key (ss' := (c.set x (gv v)).set (chars% "err") (.err false) :: ss) hv
        (find_here ((set_ne _ _ hx.1).trans (set_same ..)))
      exact ⟨_, exec_setReq h1 h2, (hl.set hx _).err false⟩

theorem exec_var {ws x : Str} {t : Ty} {rest : Code} {c : Scope F} {ss : List (Scope F)} {m : FullMsg F} :
    (Code.var ws x t rest).exec L ⟨c :: ss, m⟩ = rest.exec L ⟨c.set x t.zero :: ss, m⟩ := rfl

theorem exec_assign {ws x : Str} {a : Expr} {rest : Code} {ss ss' : List (Scope F)} {m : FullMsg F} {v : GV F} (h : a.eval L ss = .ok v)
    (hs : store ss x v = some ss') : (Code.assign ws x a rest).exec L ⟨ss, m⟩ = rest.exec L ⟨ss', m⟩ := by
  rw [Code.exec]
  simp only [h, hs]

theorem set_set (s : Scope F) (x : Str) (v w : GV F) : (s.set x v).set x w = s.set x w := by
  funext y
  unfold Scope.set
  split <;> rfl

theorem exec_unmarshal {ws src : Str} {amp : Bool} {dst s : Str} {rest : Code} {ss ss' ss'' : List (Scope F)} {m : FullMsg F} {v v' : GV F} {b : Bool}
    (h1 : find ss src = some (.str s)) (h2 : find ss dst = some v) (h3 : GoLang.unmarshal L s amp v = .ok (v', b))
    (h4 : store ss dst v' = some ss') (h5 : store ss' (chars% "err") (.err b) = some ss'') :
    (Code.unmarshal ws src amp dst rest).exec L ⟨ss, m⟩ = rest.exec L ⟨ss'', m⟩ := by
  rw [Code.exec]
  simp only [h1, h2, h3, h4, h5]

/-- Unmarshal into a variable of the innermost scope, which holds `v`. -/
theorem Level.unmarshal {c : Scope F} {ss : List (Scope F)} (hl : Level e vars q path (c :: ss)) {x y s : Str} (hx : Safe x) (hxy : y ≠ x)
    (hy : GoLang.find (c :: ss) y = some (.str s)) {v v' : GV F} {b amp : Bool} (hv : c x = some v) (hu : GoLang.unmarshal L s amp v = .ok (v', b))
    (ws : Str) (rest : Code) (m : FullMsg F) :
    ∃ c' ss', Level b vars q path (c' :: ss') ∧ c' x = some v' ∧
      (Code.unmarshal ws y amp x rest).exec L ⟨c :: ss, m⟩ = rest.exec L ⟨c' :: ss', m⟩ := by
  obtain ⟨c', ss', h1, h2, h3⟩ := (hl.set hx v').store b
  exact ⟨c', ss', h2, (h3 x hx.1).1.trans (set_same ..), exec_unmarshal hy (find_here hv) hu (store_here hv) h1⟩

theorem Level.checked {c : Scope F} {ss : List (Scope F)} (hl : Level e vars q path (c :: ss)) {x field : Str} {a : Expr} {w : GV F} {v : FVal F}
    (h : a.eval L (c :: ss) = .ok w) (hv : e = false → w.field = some v) (ws ws' : Str) (m : FullMsg F) :
    Result e' vars q path field m ((checkDecoded x (.setReq ws field a (.done ws'))).exec L ⟨c :: ss, m⟩) (if e then .fail else .ok v e) := by
  cases e with
  | true => rw [checkDecoded_true hl.find]; exact ⟨_, rfl⟩
  | false => rw [checkDecoded_false hl.find]; exact ⟨_, exec_setReq h (hv rfl), hl.left⟩

theorem other_exec {x y s field : Str} {t : FieldType} (hs : baseOf t.name = none) (he : t.enum = none) (hx : Safe x) (hxy : y ≠ x)
    {c : Scope F} {ss : List (Scope F)} {m : FullMsg F} (hl : Level e vars q path (c :: ss)) (hy : find (c :: ss) y = some (.str s)) :
    Result e vars q path field m ((Code.var (chars% "\n\n") x ⟨false, t.star, t.name⟩
      (.assign (chars% "\n") x (if t.star then .addr (.empty t.name) else .empty t.name)
      (.unmarshal (chars% "\n") y false x
      (checkDecoded x (.setReq (chars% "\n") field (valueOf t x) (.done (chars% "\n"))))))).exec L ⟨c :: ss, m⟩)
      (if t.star && L.jok s then .ok (.other (if s = chars% "null" then chars% "{}" else s)) false else .fail) := by
  have hsc : isScalar t = false := by
    unfold isScalar
    rw [scalar_iff, hs, Option.isSome_none, Bool.and_false]
  have hval : valueOf t x = .id x := by
    have : narrowed t.name x = .id x := by
      unfold narrowed
      refine if_neg fun h => ?_
      rcases h with h | h | h <;> (rw [h] at hs; revert hs; decide +kernel)
    unfold valueOf
    simp only [he, hsc, this, Bool.false_and, Option.isSome_none, Bool.false_eq_true, if_false]
  have hy' : ∀ v : GV F, find (c.set x v :: ss) y = some (.str s) := fun v => by
    rw [← hy]
    unfold find
    rw [set_ne c v hxy]
  rw [exec_var, hval]
  cases hst : t.star with
  | false =>
    rw [exec_assign (v := .val) rfl (store_here (set_same ..)), set_set]
    obtain ⟨c', ss', h1, h2, h3⟩ := Level.unmarshal (L := L) (v' := .val) (b := true) (amp := false) (hl.set hx .val) hx hxy (hy' .val) (set_same ..) rfl
      (chars% "\n") (checkDecoded x (.setReq (chars% "\n") field (.id x) (.done (chars% "\n")))) m
    rw [h3, checkDecoded_true h1.find]
    exact ⟨_, rfl⟩
  | true =>
    rw [exec_assign (v := .ref (chars% "{}")) rfl (store_here (set_same ..)), set_set]
    cases hj : L.jok s with
    | false =>
      obtain ⟨c', ss', h1, h2, h3⟩ := Level.unmarshal (L := L) (v' := .ref (chars% "{}")) (b := true) (amp := false) (hl.set hx (.ref (chars% "{}"))) hx hxy (hy' _) (set_same ..)
        (by simp [GoLang.unmarshal, hj])
        (chars% "\n") (checkDecoded x (.setReq (chars% "\n") field (.id x) (.done (chars% "\n")))) m
      rw [h3, checkDecoded_true h1.find]
      exact ⟨_, rfl⟩
    | true =>
      obtain ⟨c', ss', h1, h2, h3⟩ := Level.unmarshal (L := L) (v' := .ref (if s = chars% "null" then chars% "{}" else s)) (b := false) (amp := false)
        (hl.set hx (.ref (chars% "{}"))) hx hxy (hy' _) (set_same ..)
        (by simp [GoLang.unmarshal, hj])
        (chars% "\n") (checkDecoded x (.setReq (chars% "\n") field (.id x) (.done (chars% "\n")))) m
      rw [h3]
      exact h1.checked (eval_id (find_here h2)) (fun _ => rfl) _ _ m

theorem list_other_exec {x y s field : Str} {t : FieldType} (hs : baseOf t.name = none) (hx : Safe x) (hxy : y ≠ x)
    {c : Scope F} {ss : List (Scope F)} {m : FullMsg F} (hl : Level e vars q path (c :: ss)) (hy : find (c :: ss) y = some (.str s)) :
    Result e vars q path field m ((Code.var (chars% "\n\n") x ⟨true, t.star, t.name⟩
      (.unmarshal (chars% "\n\t") y true x
      (checkDecoded x (.setReq (chars% "\n") field (.id x) (.done (chars% "\n")))))).exec L ⟨c :: ss, m⟩)
      (if L.jok s then .ok (.other s) false else .fail) := by
  have hy' : ∀ v : GV F, find (c.set x v :: ss) y = some (.str s) := fun v => by
    rw [← hy]
    unfold find
    rw [set_ne c v hxy]
  have hz : (Ty.zero ⟨true, t.star, t.name⟩ : GV F) = .raw (chars% "null") := by
    unfold Ty.zero
    rw [hs]
    cases t.star <;> rfl
  rw [exec_var, hz]
  cases hj : L.jok s with
  | false =>
    obtain ⟨c', ss', h1, h2, h3⟩ := Level.unmarshal (L := L) (v' := .raw (chars% "null")) (b := true) (amp := true) (hl.set hx (.raw (chars% "null"))) hx hxy (hy' _) (set_same ..)
      (by simp [GoLang.unmarshal, hj])
      (chars% "\n\t") (checkDecoded x (.setReq (chars% "\n") field (.id x) (.done (chars% "\n")))) m
    rw [h3, checkDecoded_true h1.find]
    exact ⟨_, rfl⟩
  | true =>
    obtain ⟨c', ss', h1, h2, h3⟩ := Level.unmarshal (L := L) (v' := .raw s) (b := false) (amp := true) (hl.set hx (.raw (chars% "null"))) hx hxy (hy' _) (set_same ..)
      (by simp [GoLang.unmarshal, hj])
      (chars% "\n\t") (checkDecoded x (.setReq (chars% "\n") field (.id x) (.done (chars% "\n")))) m
    rw [h3]
    exact h1.checked (eval_id (find_here h2)) (fun _ => rfl) _ _ m

/-! ### Lists of scalars -/

/-- The body of the loop. -/
def loopBody (t x : Str) : Code :=
  readScalar (chars% "\n\t") t (chars% "converted") (chars% "v")
    (checkDecoded x
    (.setAt (chars% "\n\t\t") x (chars% "i") (narrowed t (chars% "converted"))
    (.done (chars% "\n\t"))))

theorem exec_setAt {ws x i : Str} {a : Expr} {rest : Code} {ss ss' : List (Scope F)} {m : FullMsg F} {b : Base} {l : List (Option (SVal F))} {n : Nat}
    {v : SVal F} (h1 : find ss x = some (.list b l)) (h2 : find ss i = some (.int n)) (h3 : a.eval L ss = .ok (gv v)) (hn : n < l.length)
    (h4 : store ss x (.list b (l.set n (some v))) = some ss') : (Code.setAt ws x i a rest).exec L ⟨ss, m⟩ = rest.exec L ⟨ss', m⟩ := by
  rw [Code.exec]
  simp only [h1, h2, h3, gv_scalar, if_pos hn, h4]

def none' : Scope F := fun _ => none

theorem loop_one {t x : Str} {b : Base} (hb : baseOf t = some b) (hx : Safe x) (hxi : x ≠ chars% "i") (hxv : x ≠ chars% "v") (hxc : x ≠ chars% "converted")
    {c d s : Scope F} (hc : c (chars% "err") = none) (hd : d (chars% "err") = none) (hs : Bottom e vars q s) (n : Nat) (w : Str)
    (l : List (Option (SVal F))) (hn : n < l.length) (m : FullMsg F) :
    match parseBase L.fl b w with
    | none => ∃ σ, (loopBody t x).exec L ⟨[none', (none'.set (chars% "i") (.int n)).set (chars% "v") (.str w), none', c.set x (.list b l), d, s], m⟩ = .returned true σ
    | some v => if b = .string ∧ e = true then
        ∃ σ, (loopBody t x).exec L ⟨[none', (none'.set (chars% "i") (.int n)).set (chars% "v") (.str w), none', c.set x (.list b l), d, s], m⟩ = .returned true σ
      else (((loopBody t x).exec L ⟨[none', (none'.set (chars% "i") (.int n)).set (chars% "v") (.str w), none', c.set x (.list b l), d, s], m⟩).pop).pop =
        .next ⟨[none', c.set x (.list b (l.set n (some v))), d, s], m⟩ := by
  have hv : find [none', (none'.set (chars% "i") (.int n)).set (chars% "v") (.str w), none', c.set x (.list b l), d, s] (chars% "v") = some (.str w) := rfl
  have hce : (c.set x (.list b l)) (chars% "err") = none := (set_ne _ _ (Ne.symm hx.1)).trans hc
  unfold loopBody
  by_cases hbs : b = .string
  · subst hbs
    have ht := baseOf_string.mp hb
    subst ht
    have hf : ∀ z : Scope F, z (chars% "err") = none → find [z, (none'.set (chars% "i") (.int n)).set (chars% "v") (.str w), none', c.set x (.list .string l), d, s] (chars% "err") = some (.err e) := by
      intro z hz
      rw [find_next hz, find_next rfl, find_next rfl, find_next hce, find_next hd, find_here hs.1]
    rw [readScalar_string hv]
    show ite _ _ _
    by_cases he : e = true
    · subst he
      rw [if_pos ⟨rfl, rfl⟩, checkDecoded_true (hf _ rfl)]
      exact ⟨_, rfl⟩
    · rw [if_neg fun h => he h.2]
      rw [Bool.not_eq_true] at he
      subst he
      rw [checkDecoded_false (hf _ rfl)]
      rw [exec_setAt (b := .string) (l := l) (n := n) (v := .str w) (ss' := [_, _, _, c.set x (.list .string (l.set n (some (.str w)))), d, s])]
      · rfl
      · rw [find_next (set_ne _ _ hxc), find_next ((set_ne _ _ hxv).trans (set_ne _ _ hxi)), find_next rfl]
        exact find_here (set_same ..)
      · rfl
      · exact eval_id rfl
      · exact hn
      · rw [store_next (set_ne _ _ hxc), store_next ((set_ne _ _ hxv).trans (set_ne _ _ hxi)), store_next rfl, store_here (set_same ..), set_set]
        rfl
  · rw [readScalar_exec hb hbs hv]
    cases hp : parseBase L.fl b w with
    | none =>
      simp only
      rw [checkDecoded_true (find_here (set_same ..))]
      exact ⟨_, rfl⟩
    | some v =>
      simp only
      rw [if_neg fun h => hbs h.1, checkDecoded_false (find_here (set_same ..))]
      rw [exec_setAt (b := b) (l := l) (n := n) (v := v) (ss' := [_, _, _, c.set x (.list b (l.set n (some v))), d, s])]
      · rfl
      · rw [find_next ((set_ne _ _ hx.1).trans (set_ne _ _ hxc)), find_next ((set_ne _ _ hxv).trans (set_ne _ _ hxi)), find_next rfl]
        exact find_here (set_same ..)
      · rfl
      · exact eval_narrowed hb hp rfl
      · exact hn
      · rw [store_next ((set_ne _ _ hx.1).trans (set_ne _ _ hxc)), store_next ((set_ne _ _ hxv).trans (set_ne _ _ hxi)), store_next rfl, store_here (set_same ..), set_set]
        rfl

theorem iterate_cons (f : Nat → Str → State F → Out F) (n : Nat) (w : Str) (l : List Str) (σ : State F) :
    iterate f n (w :: l) σ = (f n w σ).then (iterate f (n + 1) l) := rfl

/-- One iteration. -/
def step (L : Libs F) (i v : Str) (body : Code) (n : Nat) (w : Str) (σ : State F) : Out F :=
  match declareAll σ.push.scopes [i, v] [.int n, .str w] with
  | none => .fault .stuck
  | some ss => ((body.exec L (State.push ⟨ss, σ.req⟩)).pop).pop

theorem exec_loop {ws i v : Str} {a : Expr} {body rest : Code} {σ : State F} {l : List Str} (h : a.eval L σ.scopes = .ok (.strs l)) :
    (Code.range ws i v a body rest).exec L σ = (iterate (step L i v body) 0 l σ).then (rest.exec L) := by
  rw [Code.exec]
  simp only [h]
  rfl

/-- The whole loop. -/
theorem loop_all {t x : Str} {b : Base} (hb : baseOf t = some b) (hx : Safe x) (hxi : x ≠ chars% "i") (hxv : x ≠ chars% "v") (hxc : x ≠ chars% "converted")
    {c d s : Scope F} (hc : c (chars% "err") = none) (hd : d (chars% "err") = none) (hs : Bottom e vars q s) (m : FullMsg F) (l : List Str)
    (pre : List (SVal F)) :
    match allSome (l.map (parseBase L.fl b)) with
    | none => ∃ σ, iterate (step L (chars% "i") (chars% "v") (loopBody t x)) pre.length l
        ⟨[none', c.set x (.list b (pre.map some ++ List.replicate l.length none)), d, s], m⟩ = .returned true σ
    | some vs => if l ≠ [] ∧ b = .string ∧ e = true then ∃ σ, iterate (step L (chars% "i") (chars% "v") (loopBody t x)) pre.length l
        ⟨[none', c.set x (.list b (pre.map some ++ List.replicate l.length none)), d, s], m⟩ = .returned true σ
      else iterate (step L (chars% "i") (chars% "v") (loopBody t x)) pre.length l
        ⟨[none', c.set x (.list b (pre.map some ++ List.replicate l.length none)), d, s], m⟩ =
        .next ⟨[none', c.set x (.list b ((pre ++ vs).map some)), d, s], m⟩ := by
  induction l generalizing pre with
  | nil => 
    show ite _ _ _
    rw [if_neg fun h => h.1 rfl]
    simp only [List.length_nil, List.replicate_zero, List.append_nil]
    rfl
  | cons w l ih =>
    have h1 := loop_one (L := L) hb hx hxi hxv hxc hc hd hs pre.length w (pre.map some ++ List.replicate (w :: l).length none)
      (by rw [List.length_append, List.length_map, List.length_replicate, List.length_cons]; omega) m
    cases hp : parseBase L.fl b w with
    | none =>
      rw [hp] at h1
      obtain ⟨σ, h1⟩ := h1
      rw [List.map_cons, hp]
      refine ⟨σ, ?_⟩
      rw [iterate_cons]
      show (Out.pop (Out.pop (Code.exec L (loopBody t x) ⟨[none', (none'.set (chars% "i") (.int _)).set (chars% "v") (.str w), none', _, d, s], m⟩))).then _ = _
      rw [h1]
      rfl
    | some v =>
      rw [hp] at h1
      simp only at h1
      by_cases he : b = .string ∧ e = true
      · rw [if_pos he] at h1
        obtain ⟨σ, h1⟩ := h1
        have hall : allSome ((w :: l).map (parseBase L.fl b)) = some ((w :: l).map .str) := by
          rw [he.1]
          clear ih h1 hp
          induction w :: l with
          | nil => rfl
          | cons a l ih =>
            rw [List.map_cons]
            show ((allSome (l.map _)).map _) = _
            rw [ih]
            rfl
        rw [hall]
        show ite _ _ _
        rw [if_pos ⟨List.cons_ne_nil _ _, he⟩]
        refine ⟨σ, ?_⟩
        rw [iterate_cons]
        show (Out.pop (Out.pop (Code.exec L (loopBody t x) ⟨[none', (none'.set (chars% "i") (.int _)).set (chars% "v") (.str w), none', _, d, s], m⟩))).then _ = _
        rw [h1]
        rfl
      · rw [if_neg he] at h1
        have hstep : ∀ k : State F → Out F, (Out.pop (Out.pop (Code.exec L (loopBody t x) ⟨[none', (none'.set (chars% "i") (.int pre.length)).set (chars% "v") (.str w), none',
            c.set x (.list b (pre.map some ++ List.replicate (w :: l).length none)), d, s], m⟩))).then k =
            k ⟨[none', c.set x (.list b ((pre ++ [v]).map some ++ List.replicate l.length none)), d, s], m⟩ := by
          intro k
          rw [h1]
          have : (pre.map some ++ List.replicate (w :: l).length none).set pre.length (some v) = (pre ++ [v]).map some ++ List.replicate l.length none := by
            rw [List.length_cons, List.replicate_succ, List.set_append_right _ _ (by rw [List.length_map]; exact Nat.le_refl _), List.length_map, Nat.sub_self,
              List.set_cons_zero, List.map_append, List.append_assoc]
            rfl
          rw [this]
          rfl
        have ih' := ih (pre ++ [v])
        rw [List.map_cons, hp]
        rw [List.length_append, List.length_singleton] at ih'
        cases hall : allSome (l.map (parseBase L.fl b)) with
        | none =>
          rw [hall] at ih'
          obtain ⟨σ, ih'⟩ := ih'
          rw [show allSome (some v :: l.map (parseBase L.fl b)) = none by rw [allSome, hall]; rfl]
          refine ⟨σ, ?_⟩
          rw [iterate_cons]
          refine Eq.trans (hstep _) ih'
        | some vs =>
          rw [hall] at ih'
          rw [show allSome (some v :: l.map (parseBase L.fl b)) = some (v :: vs) by rw [allSome, hall]; rfl]
          show ite _ _ _
          rw [if_neg fun h => he h.2]
          simp only at ih'
          rw [if_neg fun h => he h.2] at ih'
          rw [iterate_cons]
          refine Eq.trans (hstep _) (ih'.trans ?_)
          rw [List.append_assoc]
          rfl

theorem allSome_some {α : Type} (l : List α) : allSome (l.map some) = some l := by
  induction l with
  | nil => rfl
  | cons a l ih =>
    show (allSome (l.map some)).map _ = _
    rw [ih]
    rfl

/-- What the statements after the `if … else` do with the list in `x`. -/
theorem list_end {x field : Str} {t : Str} {b : Base} (hb : baseOf t = some b) {c : Scope F} {ss : List (Scope F)} (hl : Level e vars q path (c :: ss))
    {l : List (Option (SVal F))} (hx : c x = some (.list b l)) {vs : List (SVal F)} (hv : (e = false ∨ b = .string) → l = vs.map some) (m : FullMsg F) :
    Result e' vars q path field m ((if t = chars% "string" then Code.setReq (chars% "\n") field (.id x) (.done (chars% "\n"))
      else checkDecoded x (.setReq (chars% "\n") field (.id x) (.done (chars% "\n")))).exec L ⟨c :: ss, m⟩)
      (if e = true ∧ b ≠ .string then .fail else .ok (.many vs) e) := by
  by_cases hbs : b = .string
  · rw [if_pos (baseOf_string.mp (hbs ▸ hb)), if_neg fun h => h.2 hbs]
    refine ⟨_, exec_setReq (eval_id (find_here hx)) ?_, hl.left⟩
    rw [hv (.inr hbs)]
    simp only [GV.field, allSome_some, Option.map_some]
  · rw [if_neg fun h => hbs (Option.some.inj (hb.symm.trans (baseOf_string.mpr h)))]
    have := hl.checked (e' := e') (L := L) (x := x) (field := field) (v := .many vs) (eval_id (find_here hx))
      (fun he => by rw [hv (.inl he)]; simp only [GV.field, allSome_some, Option.map_some]) (chars% "\n") (chars% "\n") m
    cases e with
    | true => rw [if_pos ⟨rfl, hbs⟩]; exact this
    | false => rw [if_neg fun h => Bool.noConfusion h.1]; exact this

theorem Level.pushed {c : Scope F} {ss : List (Scope F)} (hl : Level e vars q path (c :: ss)) {x y s : Str} (hx : Safe x) (hxy : y ≠ x)
    (hy : GoLang.find (c :: ss) y = some (.str s)) {v v' : GV F} {b : Bool} (hv : c x = some v) (hu : GoLang.unmarshal L s true v = .ok (v', b))
    (ws : Str) (rest : Code) (m : FullMsg F) :
    ∃ c' ss', Level b vars q path (c' :: ss') ∧ c' x = some v' ∧ (∀ z, z ≠ chars% "err" → z ≠ x → c' z = c z) ∧
      (∀ z, z ≠ chars% "err" → z ≠ x → GoLang.find (c' :: ss') z = GoLang.find (c :: ss) z) ∧
      (Code.unmarshal ws y true x rest).exec L ⟨none' :: c :: ss, m⟩ = rest.exec L ⟨none' :: c' :: ss', m⟩ := by
  obtain ⟨c', ss', h1, h2, h3⟩ := (hl.set hx v').store b
  refine ⟨c', ss', h2, (h3 x hx.1).1.trans (set_same ..), fun z hz hzx => (h3 z hz).1.trans (set_ne _ _ hzx),
    fun z hz hzx => (h3 z hz).2.trans ?_, ?_⟩
  · unfold GoLang.find
    rw [set_ne _ _ hzx]
  refine exec_unmarshal (ss' := none' :: c.set x v' :: ss) ((find_next rfl).trans hy) ((find_next rfl).trans (find_here hv)) hu ?_ ?_
  · rw [store_next rfl, store_here hv]
    rfl
  · rw [store_next rfl, h1]
    rfl

theorem eval_text {c : Str} (hc : literal (c ++ ['"']) = some (c, [])) (ss : List (Scope F)) :
    (Expr.text c).eval L ss = .ok (.str c) := by
  simp only [Expr.eval, hc]

theorem eval_plus {a b : Expr} {s t : Str} {ss : List (Scope F)} (ha : a.eval L ss = .ok (.str s)) (hb : b.eval L ss = .ok (.str t)) :
    (Expr.bin a (chars% "+") b).eval L ss = .ok (.str (s ++ t)) := by
  simp only [Expr.eval, ha, hb]
  rfl

theorem list_exec {x y ys w field t : Str} {more : List Str} {b : Base} (hb : baseOf t = some b) (hx : Safe x) (hsy : y ≠ chars% "err") (hxy : y ≠ x) (hxs : ys ≠ x)
    (hxi : x ≠ chars% "i") (hxv : x ≠ chars% "v") (hxc : x ≠ chars% "converted")
    (hj : jsonArray L.fl .string w = none → jsonArray L.fl .string ('[' :: w ++ [']']) = none →
      L.left ('[' :: w ++ [']']) (L.left w []) = (L.fl.junk w).map fun s => some (.str s))
    {c : Scope F} {ss : List (Scope F)} {m : FullMsg F} (hl : Level e vars q false (c :: ss))
    (hy : c y = some (.str w)) (hys : find (c :: ss) ys = some (.strs (w :: more))) :
    Result e vars q false field m ((Code.var (chars% "\n\n") x ⟨true, false, t⟩
      (.condElse (chars% "\n") (.bin (.call1 (chars% "len") (.id ys)) (chars% ">") (.num 1))
        (.assign (chars% "\n\t") x (.make t (.call1 (chars% "len") (.id ys)))
        (.range (chars% "\n\t") (chars% "i") (chars% "v") (.id ys) (loopBody t x)
        (.done (chars% "\n"))))
        (.unmarshal (chars% "\n\t") y true x
        (.cond (chars% "\n\t") failed
          (.assign (chars% "\n\t\t") y (.bin (.bin (.text (chars% "[")) (chars% "+") (.id y)) (chars% "+") (.text (chars% "]")))
          (.done (chars% "\n\t")))
        (.unmarshal (chars% "\n\t") y true x
        (.done (chars% "\n")))))
      (if t = chars% "string" then Code.setReq (chars% "\n") field (.id x) (.done (chars% "\n"))
      else checkDecoded x (.setReq (chars% "\n") field (.id x) (.done (chars% "\n")))))).exec L ⟨c :: ss, m⟩)
      (if more ≠ [] then
        if b = .string then
          if e then .fail else .ok (.many ((w :: more).map .str)) e
        else match allSome ((w :: more).map (parseBase L.fl b)) with
          | none => .fail
          | some l => if e then .fail else .ok (.many l) e
      else
        match (match jsonArray L.fl b w with
          | some l => some l
          | none => jsonArray L.fl b ('[' :: w ++ [']'])) with
        | some l => .ok (.many l) false
        | none => if b = .string then .ok (.many ((L.fl.junk w).map .str)) true else .fail) := by
  have hz : (Ty.zero ⟨true, false, t⟩ : GV F) = .list b [] := by
    unfold Ty.zero
    rw [hb]
    rfl
  have hf : ∀ (v : GV F) (z : Str), z ≠ x → find (c.set x v :: ss) z = find (c :: ss) z := fun v z hz => by
    unfold find
    rw [set_ne c v hz]
  rw [exec_var, hz]
  generalize hrest : (if t = chars% "string" then Code.setReq (chars% "\n") field (.id x) (.done (chars% "\n"))
      else checkDecoded x (.setReq (chars% "\n") field (.id x) (.done (chars% "\n")))) = rest
  have hlen : ∀ ss' : List (Scope F), find ss' ys = some (.strs (w :: more)) → (Expr.call1 (chars% "len") (.id ys)).eval L ss' = .ok (.int (more.length + 1)) := by
    intro ss' h
    rw [Expr.eval, if_pos rfl, eval_id h]
    rfl
  have hcond : (Expr.bin (.call1 (chars% "len") (.id ys)) (chars% ">") (.num 1)).eval L (c.set x (.list b []) :: ss) = .ok (.bool (decide (more.length + 1 > 1))) := by
    have := hlen _ ((hf (.list b []) _ hxs).trans hys)
    unfold Expr.eval
    rw [if_neg (by decide), this]
    rfl
  rw [Code.exec]
  simp only [hcond]
  by_cases hm : more = []
  · subst hm
    rw [if_neg (fun h => h rfl)]
    simp only [List.length_nil, Nat.zero_add, Nat.lt_irrefl, decide_false, gt_iff_lt]
    show Result _ _ _ _ _ _ (Out.then (Out.pop (Code.exec L _ ⟨none' :: c.set x (.list b []) :: ss, m⟩)) _) _
    have hl0 := hl.set hx (.list b [])
    have hy0 : find (c.set x (.list b []) :: ss) y = some (.str w) := (hf _ _ hxy).trans (find_here hy)
    cases hja : jsonArray L.fl b w with
    | some l =>
      have hu : ∀ l0, GoLang.unmarshal L w true (.list b l0) = .ok (.list b (l.map some), false) := fun l0 => by
        simp only [GoLang.unmarshal, if_true, hja]
      obtain ⟨c1, ss1, h1, h2, h3, h3', h4⟩ := Level.pushed (L := L) hl0 hx hxy hy0 (set_same ..) (hu []) (chars% "\n\t")
        (.cond (chars% "\n\t") failed
          (.assign (chars% "\n\t\t") y (.bin (.bin (.text (chars% "[")) (chars% "+") (.id y)) (chars% "+") (.text (chars% "]")))
          (.done (chars% "\n\t")))
        (.unmarshal (chars% "\n\t") y true x
        (.done (chars% "\n")))) m
      rw [h4, exec_passed ((find_next rfl).trans h1.find)]
      obtain ⟨c2, ss2, k1, k2, k3, k3', k4⟩ := Level.pushed (L := L) h1 hx hxy ((h3' y hsy hxy).trans hy0) h2 (hu _) (chars% "\n\t") (.done (chars% "\n")) m
      rw [k4, ← hrest]
      refine list_end hb k1 k2 (fun _ => rfl) m
    | none =>
      have hu : GoLang.unmarshal L w true (.list b []) = .ok (.list b (L.left w []), true) := by
        simp only [GoLang.unmarshal, if_true, hja]
      obtain ⟨c1, ss1, h1, h2, h3, h3', h4⟩ := Level.pushed (L := L) hl0 hx hxy hy0 (set_same ..) hu (chars% "\n\t")
        (.cond (chars% "\n\t") failed
          (.assign (chars% "\n\t\t") y (.bin (.bin (.text (chars% "[")) (chars% "+") (.id y)) (chars% "+") (.text (chars% "]")))
          (.done (chars% "\n\t")))
        (.unmarshal (chars% "\n\t") y true x
        (.done (chars% "\n")))) m
      rw [h4, exec_failed ((find_next rfl).trans h1.find)]
      have hc1 : c1 y = some (.str w) := (h3 y hsy hxy).trans ((set_ne _ _ hxy).trans hy)
      have hyy : find (State.push ⟨none' :: c1 :: ss1, m⟩).scopes y = some (.str w) := (find_next rfl).trans ((find_next rfl).trans (find_here hc1))
      rw [exec_assign (ss := (State.push ⟨none' :: c1 :: ss1, m⟩).scopes) (v := .str ((['['] ++ w) ++ [']'])) (ss' := none' :: none' :: c1.set y (.str ((['['] ++ w) ++ [']'])) :: ss1)
        (eval_plus (eval_plus (eval_text (c := ['[']) (by decide +kernel) _) (eval_id hyy)) (eval_text (c := [']']) (by decide +kernel) _))
        (by
          show store (none' :: none' :: c1 :: ss1) y _ = _
          rw [store_next rfl, store_next rfl, store_here hc1]
          rfl)]
      show Result _ _ _ _ _ _ (Out.then (Out.pop (Code.exec L _ ⟨none' :: c1.set y (.str ((['['] ++ w) ++ [']'])) :: ss1, m⟩)) _) _
      have hl1 : Level true vars q false (c1.set y (.str ((['['] ++ w) ++ [']'])) :: ss1) := by
        cases h1 with
        | query hc hd h => exact .query ((set_ne _ _ (Ne.symm hsy)).trans hc) hd h
      cases hja' : jsonArray L.fl b ('[' :: w ++ [']']) with
      | some l =>
        have hu' : GoLang.unmarshal L ((['['] ++ w) ++ [']']) true (.list b (L.left w [])) = .ok (.list b (l.map some), false) := by
          simp only [GoLang.unmarshal, if_true]
          rw [show (['['] ++ w) ++ [']'] = '[' :: w ++ [']'] from rfl, hja']
        obtain ⟨c2, ss2, k1, k2, k3, k3', k4⟩ := Level.pushed (L := L) hl1 hx hxy (find_here (set_same ..)) ((set_ne _ _ (Ne.symm hxy)).trans h2) hu' (chars% "\n\t") (.done (chars% "\n")) m
        rw [k4, ← hrest]
        refine list_end hb k1 k2 (fun _ => rfl) m
      | none =>
        have hu' : GoLang.unmarshal L ((['['] ++ w) ++ [']']) true (.list b (L.left w [])) = .ok (.list b (L.left ('[' :: w ++ [']']) (L.left w [])), true) := by
          simp only [GoLang.unmarshal, if_true]
          rw [show (['['] ++ w) ++ [']'] = '[' :: w ++ [']'] from rfl, hja']
        obtain ⟨c2, ss2, k1, k2, k3, k3', k4⟩ := Level.pushed (L := L) hl1 hx hxy (find_here (set_same ..)) ((set_ne _ _ (Ne.symm hxy)).trans h2) hu' (chars% "\n\t") (.done (chars% "\n")) m
        rw [k4, ← hrest]
        have hend := list_end (L := L) (x := x) (field := field) (e' := e) hb k1 k2 (vs := (L.fl.junk w).map .str) (fun h => by
          rcases h with h | h
          · cases h
          · subst h
            rw [hj hja hja', List.map_map]
            rfl) m
        by_cases hbs : b = .string
        · rw [if_pos hbs]
          rw [(if_neg fun h => h.2 hbs : (if true = true ∧ b ≠ .string then Conv.fail else .ok (.many ((L.fl.junk w).map .str)) true) = _)] at hend
          exact hend
        · rw [if_neg hbs]
          rw [(if_pos ⟨rfl, hbs⟩ : (if true = true ∧ b ≠ .string then Conv.fail else .ok (.many ((L.fl.junk w).map .str)) true) = _)] at hend
          exact hend
  · rw [if_pos hm]
    have hpos : more.length + 1 > 1 := by
      cases more with
      | nil => exact absurd rfl hm
      | cons a l => rw [List.length_cons]; omega
    simp only [decide_eq_true hpos]
    show Result _ _ _ _ _ _ (Out.then (Out.pop (Code.exec L _ ⟨none' :: c.set x (.list b []) :: ss, m⟩)) _) _
    have hmake : (Expr.make t (.call1 (chars% "len") (.id ys))).eval L (none' :: c.set x (.list b []) :: ss) = .ok (.list b (List.replicate (w :: more).length none)) := by
      rw [Expr.eval, hb, hlen _ ((find_next rfl).trans ((hf _ _ hxs).trans hys))]
      rfl
    rw [exec_assign hmake (ss' := none' :: c.set x (.list b (List.replicate (w :: more).length none)) :: ss) (by
      rw [store_next rfl, store_here (set_same ..), set_set]
      rfl)]
    have hys' : (Expr.id ys).eval L (none' :: c.set x (.list b (List.replicate (w :: more).length none)) :: ss) = .ok (.strs (w :: more)) :=
      eval_id ((find_next rfl).trans ((hf _ _ hxs).trans hys))
    rw [exec_loop hys']
    have hl0 := hl.set hx
    cases hl with
    | @query _ d s hc hd hs =>
      have hloop := loop_all (L := L) hb hx hxi hxv hxc hc hd hs m (w :: more) []
      simp only [List.map_nil, List.nil_append, List.length_nil] at hloop
      cases hall : allSome ((w :: more).map (parseBase L.fl b)) with
      | none =>
        rw [hall] at hloop
        obtain ⟨σ, hloop⟩ := hloop
        rw [hloop]
        have hbs : b ≠ .string := by
          rintro rfl
          rw [show (w :: more).map (parseBase L.fl .string) = ((w :: more).map SVal.str).map some by rw [List.map_map]; rfl, allSome_some] at hall
          cases hall
        rw [if_neg hbs]
        exact ⟨σ, rfl⟩
      | some vs =>
        rw [hall] at hloop
        simp only at hloop
        by_cases hbs : b = .string
        · subst hbs
          have hvs : vs = (w :: more).map .str := by
            rw [show (w :: more).map (parseBase L.fl .string) = ((w :: more).map SVal.str).map some by rw [List.map_map]; rfl, allSome_some] at hall
            exact (Option.some.inj hall).symm
          rw [if_pos rfl]
          by_cases he : e = true
          · subst he
            rw [if_pos ⟨List.cons_ne_nil _ _, rfl, rfl⟩] at hloop
            obtain ⟨σ, hloop⟩ := hloop
            rw [hloop]
            exact ⟨σ, rfl⟩
          · rw [if_neg fun h => he h.2.2] at hloop
            rw [hloop, ← hrest, ← hvs]
            rw [Bool.not_eq_true] at he
            subst he
            have hend := list_end (L := L) (x := x) (field := field) (e' := false) hb (hl0 (.list .string (vs.map some))) (set_same ..) (vs := vs) (fun _ => rfl) m
            exact hend
        · rw [if_neg hbs]
          rw [if_neg fun h => hbs h.2.1] at hloop
          rw [hloop, ← hrest]
          have hend := list_end (L := L) (x := x) (field := field) (e' := e) hb (hl0 (.list b (vs.map some))) (set_same ..) (vs := vs) (fun _ => rfl) m
          simp only
          cases e with
          | true =>
            rw [(if_pos ⟨rfl, hbs⟩ : (if true = true ∧ b ≠ .string then Conv.fail else .ok (.many vs) true) = _)] at hend
            exact hend
          | false =>
            rw [(if_neg fun h => Bool.noConfusion h.1 : (if false = true ∧ b ≠ .string then Conv.fail else .ok (.many vs) false) = _)] at hend
            exact hend

/-! ### Any field -/

/-- The name starts with an upper-case letter. -/
def Upper (x : Str) : Prop := ∃ c r, x = c :: r ∧ isAsciiUpper c = true

theorem Upper.ne {x : Str} (h : Upper x) {c : Char} {r : Str} (hc : isAsciiUpper c = false) : x ≠ c :: r := by
  obtain ⟨a, l, rfl, ha⟩ := h
  intro e
  cases e
  rw [ha] at hc
  cases hc

theorem Upper.safe {x : Str} (h : Upper x) : Safe x := ⟨h.ne rfl, h.ne rfl, h.ne rfl⟩

theorem Upper.append {x : Str} (h : Upper x) (y : Str) : Upper (x ++ y) := by
  obtain ⟨c, r, rfl, hc⟩ := h
  exact ⟨c, r ++ y, rfl, hc⟩

theorem append_ne {x y : Str} (h : y ≠ []) : x ++ y ≠ x := fun e => h (List.append_right_eq_self.mp e)

theorem mem_scalar {t : Str} : t ∈ scalarNames ↔ (baseOf t).isSome = true := by
  rw [← scalar_iff, List.contains_iff_mem]

theorem not_scalar {t : FieldType} (h : t.name ∈ scalarNames → isScalar t = true) (hs : isScalar t = false) : baseOf t.name = none := by
  cases hb : baseOf t.name with
  | none => rfl
  | some b => rw [h (mem_scalar.mpr (by rw [hb]; rfl))] at hs; cases hs

theorem isBase_eq (p : HTTPParameter) : (newField p).isBase = isScalar p.field.type := by
  unfold newField isScalar
  rw [scalar_iff]

theorem read_exec {p : HTTPParameter} (hp : Readable p) (hpath : path = decide (p.location = chars% "path")) {x w : Str} {more : List Str} (hx : Upper x) (hL : Leftovers L)
    {c : Scope F} {ss : List (Scope F)} {m : FullMsg F} (hl : Level e vars q path (c :: ss)) (hy : c (x ++ chars% "Str") = some (.str w))
    (hys : path = false → find (c :: ss) (x ++ chars% "StrArr") = some (.strs (w :: more))) (loc : Str) :
    Result e vars q path (goCamelCase p.field.name) m ((readField x (goCamelCase p.field.name) loc p.field.type).exec L ⟨c :: ss, m⟩)
      (convert L.fl L.jok (newField p) w more e) := by
  have hxy : x ++ chars% "Str" ≠ x := append_ne (by decide)
  have hyf := find_here (ss := ss) hy
  have hcomp := hp.compiles
  unfold compiles at hcomp
  rw [decide_eq_true_iff] at hcomp
  unfold readField HTTPCode.convert
  simp only
  rw [isBase_eq]
  have e1 : (newField p).isEnum = p.field.type.enum.isSome := rfl
  have e2 : (newField p).repeated = p.field.type.array := rfl
  have e3 : (newField p).goType = p.field.type.name := rfl
  have e4 : (newField p).star = p.field.type.star := rfl
  have e5 : (newField p).location = p.location := rfl
  unfold rhsTy fieldTy at hcomp
  simp only [isBase_eq] at hcomp
  rw [e1, e2, e3, e4, e5] at hcomp ⊢
  have hpt : (p.location = "path".toList) = (path = true) := by rw [hpath]; simp only [decide_eq_true_eq]; rfl
  simp only [hpt] at hcomp ⊢
  have hlist := hp.list
  have hsc := hp.scalar
  generalize ht : p.field.type = t at *
  cases harr : t.array with
  | true =>
    simp only [if_true, Bool.not_true, Bool.false_eq_true, and_false, if_false]
    rw [harr] at hcomp
    cases hs : isScalar t with
    | true =>
      rw [hs] at hcomp
      have hstar := hlist harr hs
      have hb : ∃ b, baseOf t.name = some b := by
        unfold isScalar at hs
        rw [scalar_iff] at hs
        simp only [Bool.and_eq_true] at hs
        exact Option.isSome_iff_exists.mp hs.2
      obtain ⟨b, hb⟩ := hb
      have hpf : path = false := by
        cases path with
        | false => rfl
        | true => simp only [if_true, and_self] at hcomp; cases hcomp
      subst hpf
      simp only [if_true, hb, hstar, Bool.false_eq_true, if_false, List.nil_append]
      exact list_exec hb hx.safe ((hx.append _).safe.1) hxy (append_ne (by decide)) (hx.ne rfl) (hx.ne rfl) (hx.ne rfl) (hL w) hl hy (hys rfl)
    | false =>
      have hb := not_scalar hsc hs
      have hstr : t.name ≠ chars% "string" := fun h => by rw [h] at hb; revert hb; decide +kernel
      simp only [Bool.false_eq_true, if_false, if_neg hstr]
      exact list_other_exec hb hx.safe hxy hl hyf
  | false =>
    rw [harr] at hcomp
    simp only [Bool.false_eq_true, if_false, Bool.not_false, and_true] at hcomp ⊢
    cases hen : t.enum with
    | some n =>
      have hs : isScalar t = false := by unfold isScalar; rw [hen, Option.isNone_some, Bool.and_false]; rfl
      have hb := not_scalar hsc hs
      have hv : valueOf t x = .conv t.name (.id x) := by
        unfold valueOf
        simp only [hen, hs, Option.isSome_some, if_true, Bool.false_and, Bool.false_eq_true, if_false]
      simp only [Option.isSome_some, if_true, hv]
      exact enum_exec hx.safe hl hyf (by rw [hb]; exact fun h => nomatch h)
    | none =>
      simp only [Option.isSome_none, Bool.false_eq_true, if_false]
      cases hs : isScalar t with
      | false =>
        have hb := not_scalar hsc hs
        simp only [Bool.false_eq_true, if_false, Bool.not_false, if_true]
        exact other_exec hb hen hx.safe hxy hl hyf
      | true =>
        simp only [if_true, Bool.not_true, Bool.false_eq_true, if_false]
        have hb : ∃ b, baseOf t.name = some b := by
          unfold isScalar at hs
          rw [scalar_iff] at hs
          simp only [Bool.and_eq_true] at hs
          exact Option.isSome_iff_exists.mp hs.2
        obtain ⟨b, hb⟩ := hb
        rw [hb]
        refine scalar_exec hb hs hx.safe (fun hst => ?_) hl hyf
        rw [hs, hb, hst, hen] at hcomp
        cases hnc : needsCast b with
        | false => rfl
        | true =>
          simp [hnc] at hcomp

theorem literal_plain {s : Str} (h : PlainText s) : literal (s ++ ['"']) = some (s, []) := by
  unfold literal
  exact TT.literalGo_clean h.1 h.2.1 h.2.2 _ (by rw [List.length_append, List.length_singleton]; omega)

/-- What the statements of a field do at the level of the decoder's body. -/
def Seen (vars : List (Str × Str)) (q : List (Str × List Str)) (m : FullMsg F) (o : Out F) : Except DErr (Msg F × Bool) → Prop
  | .ok (f, e) => ∃ s, o = .next ⟨[s], { m with fields := f }⟩ ∧ Bottom e vars q s
  | .error .emptyValues => o = .fault .panic
  | .error _ => ∃ σ, o = .returned true σ

/-- The result of a field's statements for the message. -/
def asField (field : Str) (m : Msg F) : Conv F → Except DErr (Msg F × Bool)
  | .fail => .error (.field field)
  | .ok v e' => .ok (setMsg m field v, e')

theorem seen_of {field : Str} {m : FullMsg F} {o : Out F} {v : Conv F} (h : Result e vars q true field m o v) :
    Seen vars q m o (asField field m.fields v) := by
  cases v with
  | fail => exact h
  | ok v e' =>
    obtain ⟨ss, rfl, hl⟩ := h
    cases hl with
    | path h => exact ⟨_, rfl, h⟩

theorem seen_pop {field : Str} {m : FullMsg F} {o : Out F} {v : Conv F} (h : Result e vars q false field m o v) :
    Seen vars q m (o.pop.pop) (asField field m.fields v) := by
  cases v with
  | fail => obtain ⟨σ, rfl⟩ := h; exact ⟨σ, rfl⟩
  | ok v e' =>
    obtain ⟨ss, rfl, hl⟩ := h
    cases hl with
    | query h => exact ⟨_, rfl, h⟩

theorem then_done (ws : Str) (o : Out F) : o.then ((Code.done ws).exec L) = o := by cases o <;> rfl

theorem exec_condInit {ws x y : Str} {a c : Expr} {b rest : Code} {ss : List (Scope F)} {m : FullMsg F} {v w : GV F} {t : Bool} (h : a.eval2 L ss = .ok (v, w))
    (hc : c.eval L ((none'.set x v).set y w :: ss) = .ok (.bool t)) :
    (Code.condInit ws x y a c b rest).exec L ⟨ss, m⟩ = if t then
      (((b.exec L ⟨none' :: (none'.set x v).set y w :: ss, m⟩).pop).pop).then (rest.exec L) else rest.exec L ⟨ss, m⟩ := by
  have hd : declareAll (State.push ⟨ss, m⟩).scopes [x, y] [v, w] = some ((none'.set x v).set y w :: ss) := rfl
  rw [Code.exec]
  simp only [h, hd, hc]
  cases t <;> rfl

theorem field_exec {p : HTTPParameter} (hp : Readable p) {meth : Str} (hx : Upper (localOf meth p.field.name)) (hL : Leftovers L) (r : Request F) {s : Scope F} {m : FullMsg F}
    (hs : Bottom e r.vars r.query s) :
    Seen r.vars r.query m ((fieldCode meth p).exec L ⟨[s], m⟩) (decodeField L.fl L.jok r (newField p) m.fields e) := by
  unfold fieldCode decodeField
  simp only
  have e5 : (newField p).location = p.location := rfl
  have e6 : (newField p).queryParamName = p.field.pbName := rfl
  have e7 : (newField p).camelName = goCamelCase p.field.name := rfl
  rw [e5, e6, e7]
  generalize localOf meth p.field.name = x at *
  have htext : ∀ ss : List (Scope F), (Expr.text p.field.pbName).eval L ss = .ok (.str p.field.pbName) := eval_text (literal_plain hp.text)
  rcases hp.location with hloc | hloc
  · rw [if_pos hloc, if_pos (show p.location = chars% "path" from hloc)]
    have hi : (Expr.index (.id (p.location ++ chars% "Params")) (.text p.field.pbName)).eval L [s] = .ok (.str ((look r.vars p.field.pbName).getD [])) := by
      have : (Expr.id (p.location ++ chars% "Params")).eval L [s] = .ok (.vars r.vars) := by
        rw [hloc]
        exact eval_id (find_here hs.2.1)
      unfold Expr.eval
      rw [this, htext]
    rw [exec_define1 hi]
    exact seen_of (read_exec hp (path := true) (more := []) (by rw [hloc]; decide +kernel) hx hL (.path (hs.set (hx.append _).safe _)) (set_same ..) (fun h => nomatch h) _)
  · have hnp : p.location ≠ "path".toList := by rw [hloc]; decide +kernel
    rw [if_neg hnp, if_neg (show p.location ≠ chars% "path" from hnp)]
    have hi : (Expr.index (.id (p.location ++ chars% "Params")) (.text p.field.pbName)).eval2 L [s] =
        .ok (.strs ((look r.query p.field.pbName).getD []), .bool (look r.query p.field.pbName).isSome) := by
      have : (Expr.id (p.location ++ chars% "Params")).eval L [s] = .ok (.query r.query) := by
        rw [hloc]
        exact eval_id (find_here hs.2.2)
      simp only [Expr.eval2, this, htext]
    rw [exec_condInit hi (eval_id (find_here (set_same ..)))]
    cases hq : look r.query p.field.pbName with
    | none =>
      refine ⟨s, ?_, hs⟩
      rfl
    | some l =>
      simp only [Option.isSome_some, if_true, Option.getD_some]
      rw [then_done]
      have hys : ∀ c : Scope F, c (x ++ chars% "StrArr") = none → find [c, ((none' : Scope F).set (x ++ chars% "StrArr") (.strs l)).set (chars% "ok") (.bool true), s] (x ++ chars% "StrArr") = some (.strs l) := by
        intro c hc
        rw [find_next hc]
        exact find_here ((set_ne _ _ ((hx.append _).ne rfl)).trans (set_same ..))
      cases l with
      | nil =>
        have : (Expr.index (.id (x ++ chars% "StrArr")) (.num 0)).eval L [none', ((none' : Scope F).set (x ++ chars% "StrArr") (.strs [])).set (chars% "ok") (.bool true), s] = .error .panic := by
          unfold Expr.eval
          rw [eval_id (hys none' rfl)]
          rfl
        rw [Code.exec]
        simp only [Expr.evals, List.length_cons, List.length_nil, Nat.zero_add, if_true, this]
        rfl
      | cons w more =>
        have : (Expr.index (.id (x ++ chars% "StrArr")) (.num 0)).eval L [none', ((none' : Scope F).set (x ++ chars% "StrArr") (.strs (w :: more))).set (chars% "ok") (.bool true), s] = .ok (.str w) := by
          unfold Expr.eval
          rw [eval_id (hys none' rfl)]
          rfl
        rw [exec_define1 this]
        refine seen_pop (read_exec hp (path := false) (more := more) (by rw [hloc]; decide +kernel) hx hL
          (.query ((set_ne _ _ (Ne.symm (hx.append _).safe.1)).trans rfl)
            ((set_ne _ _ (by decide)).trans ((set_ne _ _ (Ne.symm (hx.append _).safe.1)).trans rfl)) hs) (set_same ..) (fun _ => hys _ ((set_ne _ _ ?_).trans rfl)) _)
        exact fun h => absurd (List.append_cancel_left h) (by decide)

/-- The statements of all fields. -/
theorem fields_exec {meth : Str} (hL : Leftovers L) (r : Request F) (k : List Code) (ps : List HTTPParameter)
    (hp : ∀ p ∈ ps, p.location ≠ chars% "body" → Readable p ∧ Upper (localOf meth p.field.name)) {s : Scope F} {m : FullMsg F}
    (hs : Bottom e r.vars r.query s) :
    match decodeFields L.fl L.jok r (ps.map newField) m.fields e with
    | .error .emptyValues => GoLang.run L ((ps.filter fun p => p.location ≠ chars% "body").map (fieldCode meth) ++ k) ⟨[s], m⟩ = .fault .panic
    | .error _ => ∃ σ, GoLang.run L ((ps.filter fun p => p.location ≠ chars% "body").map (fieldCode meth) ++ k) ⟨[s], m⟩ = .returned true σ
    | .ok (f, e') => ∃ s', GoLang.run L ((ps.filter fun p => p.location ≠ chars% "body").map (fieldCode meth) ++ k) ⟨[s], m⟩ =
        GoLang.run L k ⟨[s'], { m with fields := f }⟩ ∧ Bottom e' r.vars r.query s' := by
  induction ps generalizing s m e with
  | nil => exact ⟨s, rfl, hs⟩
  | cons p ps ih =>
    have hp' := fun p' h' => hp p' (List.mem_cons_of_mem _ h')
    by_cases hb : p.location = chars% "body"
    · rw [List.filter_cons_of_neg (by simp [hb]), List.map_cons]
      unfold decodeFields
      rw [if_pos (show (newField p).location = "body".toList from hb)]
      exact ih hp' hs
    · rw [List.filter_cons_of_pos (by simpa using hb), List.map_cons, List.map_cons, List.cons_append]
      unfold decodeFields
      rw [if_neg (show (newField p).location ≠ "body".toList from hb)]
      obtain ⟨h1, h2⟩ := hp p (List.mem_cons_self ..) hb
      have hf := field_exec h1 h2 hL r (m := m) hs
      cases hd : decodeField L.fl L.jok r (newField p) m.fields e with
      | error x =>
        rw [hd] at hf
        cases x with
        | emptyValues =>
          show GoLang.run L _ _ = _
          unfold GoLang.run
          rw [show Code.exec L (fieldCode meth p) ⟨[s], m⟩ = _ from hf]
          rfl
        | badBody => obtain ⟨σ, hf⟩ := hf; refine ⟨σ, ?_⟩; unfold GoLang.run; rw [hf]; rfl
        | leftover => obtain ⟨σ, hf⟩ := hf; refine ⟨σ, ?_⟩; unfold GoLang.run; rw [hf]; rfl
        | field n => obtain ⟨σ, hf⟩ := hf; refine ⟨σ, ?_⟩; unfold GoLang.run; rw [hf]; rfl
      | ok v =>
        obtain ⟨f, e'⟩ := v
        rw [hd] at hf
        obtain ⟨s', hf, hs'⟩ := hf
        have := ih hp' (m := { m with fields := f }) hs'
        have hrun : GoLang.run L (fieldCode meth p :: ((ps.filter fun p => p.location ≠ chars% "body").map (fieldCode meth) ++ k)) ⟨[s], m⟩ =
            GoLang.run L ((ps.filter fun p => p.location ≠ chars% "body").map (fieldCode meth) ++ k) ⟨[s'], { m with fields := f }⟩ := by
          rw [GoLang.run, hf]
          rfl
        simp only
        rw [hrun]
        exact this

end Baron.Decoders
