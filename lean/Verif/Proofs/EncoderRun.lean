import Verif.Proofs.Decoders
import Verif.Proofs.Literal
import Verif.Spec.EncoderRun
import Verif.Proofs.HTTPPaths
import Verif.Proofs.FieldRun

/-!
# Running the statements of an encoder
-/

namespace Baron.Encoders

open Baron.Svcdef hiding newField
open Baron.HTTP Baron.HTTPCode Baron.GoClient
open Baron.GoClient (Expr)
open Baron.TT (literal EnumParam)
open Baron.Strs (goCamelCase)
open Baron.Decoders (isScalar scalarNames plainParams oneofParams PlainText scalar_iff nameOf baseOf_name baseOf_nameOf baseOf_string)

variable {F : Type} {L : Libs F}

/-! ## Scopes -/

theorem set_same (s : Scope F) (x : Str) (v : GV F) : s.set x v x = some v := if_pos rfl

theorem set_ne (s : Scope F) {x y : Str} (v : GV F) (h : y ≠ x) : s.set x v y = s y := if_neg h

theorem find_here {s : Scope F} {ss : List (Scope F)} {x : Str} {v : GV F} (h : s x = some v) : find (s :: ss) x = some v := by
  unfold find
  rw [h]

theorem find_next {s : Scope F} {ss : List (Scope F)} {x : Str} (h : s x = none) : find (s :: ss) x = find ss x := by
  rw [find, h]

theorem find_push {σ : State F} {x : Str} : find σ.push.scopes x = find σ.scopes x := find_next rfl

theorem store_here {s : Scope F} {ss : List (Scope F)} {x : Str} {v w : GV F} (h : s x = some w) : store (s :: ss) x v = some (s.set x v :: ss) := by
  unfold store
  rw [h]

theorem store_next {s : Scope F} {ss : List (Scope F)} {x : Str} {v : GV F} (h : s x = none) :
    store (s :: ss) x v = (store ss x v).map (s :: ·) := by
  rw [store, h]

/-! ## Expressions -/

theorem eval_id {σ : State F} {x : Str} {v : GV F} (h : find σ.scopes x = some v) : (Expr.id x).eval L σ = .ok v := by
  unfold Expr.eval
  rw [h]

theorem eval_text {s : Str} (h : PlainText s) (σ : State F) : (Expr.text s).eval L σ = .ok (.str s) := by
  unfold Expr.eval
  rw [Decoders.literal_plain h]

theorem eval_failed {σ : State F} {e : Bool} (h : find σ.scopes (chars% "err") = some (.err e)) : failed.eval L σ = .ok (.bool e) := by
  unfold failed
  rw [Expr.eval, eval_id h]
  rfl

theorem eval_field {σ : State F} {f : Str} {t : Option Base} (h : find σ.scopes (chars% "req") = some .msg) (hf : L.field f = some t) :
    (reqField f).eval L σ = .ok (ofField t (L.addr f) (σ.msg.fields f)) := by
  unfold reqField
  rw [Expr.eval, if_neg (by decide), h]
  simp only [hf]

theorem eval_sprint {σ : State F} {e : Expr} {v w : GV F} (h : e.eval L σ = .ok v) (hs : sprintV L v = .ok w) :
    (sprinted e).eval L σ = .ok w := by
  unfold sprinted
  rw [Expr.eval, h]
  exact hs

theorem eval_call3 {σ : State F} {e : Bool} (h : find σ.scopes (chars% "err") = some (.err e)) (b c : Expr) :
    (Expr.call3 (chars% "errors.Wrapf") (.id (chars% "err")) b c).eval L σ = .ok (.err e) := by
  rw [Expr.eval, if_pos rfl, eval_id h]

/-! ## Statements -/

theorem exec_define1 {ws x : Str} {e : Expr} {rest : Code} {s : Scope F} {ss : List (Scope F)} {m : FullMsg F} {h : Http} {v : GV F}
    (he : e.eval L ⟨s :: ss, m, h⟩ = .ok v) : (Code.define ws [x] e rest).exec L ⟨s :: ss, m, h⟩ = rest.exec L ⟨s.set x v :: ss, m, h⟩ := by
  have : e.evals L ⟨s :: ss, m, h⟩ 1 = .ok [v] := by
    unfold Expr.evals
    rw [if_pos rfl, he]
  rw [Code.exec]
  simp only [List.length_cons, List.length_nil]
  rw [this]
  rfl

theorem exec_define2 {ws x y : Str} {e : Expr} {rest : Code} {s : Scope F} {ss : List (Scope F)} {m : FullMsg F} {h : Http} {v w : GV F}
    (he : e.evals L ⟨s :: ss, m, h⟩ 2 = .ok [v, w]) :
    (Code.define ws [x, y] e rest).exec L ⟨s :: ss, m, h⟩ = rest.exec L ⟨(s.set x v).set y w :: ss, m, h⟩ := by
  rw [Code.exec]
  simp only [List.length_cons, List.length_nil]
  rw [he]
  rfl

theorem exec_use {ws x : Str} {rest : Code} {σ : State F} {v : GV F} (h : find σ.scopes x = some v) :
    (Code.use ws x rest).exec L σ = rest.exec L σ := by
  rw [Code.exec, h]

theorem exec_ret {ws : Str} {e : Expr} {rest : Code} {σ : State F} {b : Bool} (h : e.eval L σ = .ok (.err b)) :
    (Code.ret ws e rest).exec L σ = .returned b σ := by
  unfold Code.exec
  rw [h]

theorem exec_failed {ws : Str} {body rest : Code} {σ : State F} (h : find σ.scopes (chars% "err") = some (.err true)) :
    (Code.cond ws failed body rest).exec L σ = ((body.exec L σ.push).pop).then (rest.exec L) := by
  rw [Code.exec, eval_failed h]

theorem exec_passed {ws : Str} {body rest : Code} {σ : State F} (h : find σ.scopes (chars% "err") = some (.err false)) :
    (Code.cond ws failed body rest).exec L σ = rest.exec L σ := by
  rw [Code.exec, eval_failed h]

theorem exec_set {ws x f : Str} {e : Expr} {rest : Code} {σ σ' : State F} {v : GV F} (he : e.eval L σ = .ok v)
    (h : assignField L σ x f v = some σ') : (Code.set ws x f e rest).exec L σ = rest.exec L σ' := by
  rw [Code.exec, he]
  simp only
  rw [h]

theorem exec_call {ws f : Str} {a b : Expr} {rest : Code} {σ σ' : State F} {v w : GV F} (ha : a.eval L σ = .ok v) (hb : b.eval L σ = .ok w)
    (h : perform σ f v w = some σ') : (Code.call ws f a b rest).exec L σ = rest.exec L σ' := by
  rw [Code.exec, ha, hb]
  simp only
  rw [h]

theorem exec_add {ws name text : Str} {e : Expr} {rest : Code} {ss ss' : List (Scope F)} {m : FullMsg F} {h : Http} {q : List (Str × List Str)}
    (hn : PlainText name) (he : e.eval L ⟨ss, m, h⟩ = .ok (.str text)) (hq : find ss (chars% "values") = some (.query q))
    (hs : store ss (chars% "values") (.query (addValue q name text)) = some ss') :
    (add ws name e rest).exec L ⟨ss, m, h⟩ = rest.exec L ⟨ss', m, h⟩ := by
  refine exec_call (eval_text hn _) he ?_
  unfold perform GV.str
  simp only
  rw [if_neg (by decide), if_pos trivial, hq]
  simp only
  rw [hs]
  rfl

/-! ## The query -/

/-- The scope of the encoder's body. -/
structure Bottom (q : List (Str × List Str)) (s : Scope F) : Prop where
  values : s (chars% "values") = some (.query q)
  req : s (chars% "req") = some .msg
  request : s (chars% "request") = some .msg
  err : ∃ v, s (chars% "err") = some v
  tmp : ∃ v, s (chars% "tmp") = some v
  strval : ∃ v, s (chars% "strval") = some v

variable {q : List (Str × List Str)} {s : Scope F} {m : FullMsg F} {h : Http}

theorem Bottom.add (hs : Bottom q s) (q' : List (Str × List Str)) : Bottom q' (s.set (chars% "values") (.query q')) :=
  ⟨set_same .., (set_ne s _ (by decide)).trans hs.req, (set_ne s _ (by decide)).trans hs.request,
    hs.err.imp fun _ h => (set_ne s _ (by decide)).trans h, hs.tmp.imp fun _ h => (set_ne s _ (by decide)).trans h,
    hs.strval.imp fun _ h => (set_ne s _ (by decide)).trans h⟩

/-- Leaves the scope of the body with that query, and the rest as it was. -/
def Adds (o : Out F) (m : FullMsg F) (h : Http) (q : List (Str × List Str)) : Prop := ∃ s, o = .next ⟨[s], m, h⟩ ∧ Bottom q s

/-- A scope that hides nothing. -/
abbrev empty : Scope F := fun _ => none

theorem list_exec {v : Str} {t : Option Base} {b : Base} {name f : Str} (l : List (SVal F)) (hn : PlainText name) (hs : Bottom q s)
    (ht : t = some b) (hv : v = chars% "v") :
    Adds (iterate (fun w σ => match declare σ.push.scopes v w with
        | none => .fault .stuck
        | some ss => (((add (chars% "\n\t\t\t\t\t\t") name (sprinted (.id (chars% "v"))) (.done f)).exec L (State.push { σ with scopes := ss })).pop).pop)
      (l.map (.scalar t)) ⟨[s], m, h⟩) m h (l.foldl (fun q x => addValue q name (sprint L.fl b x)) q) := by
  subst ht
  subst hv
  induction l generalizing q s with
  | nil => exact ⟨s, rfl, hs⟩
  | cons x l ih =>
    rw [List.map_cons, iterate, List.foldl_cons]
    simp only [declare, State.push]
    rw [exec_add (q := q) hn (eval_sprint (eval_id (find_next rfl |>.trans (find_here (set_same ..)))) rfl)
      ((find_next rfl).trans ((find_next (set_ne _ _ (by decide))).trans (find_here hs.values)))
      (show store [empty, Scope.set empty (chars% "v") _, s] _ _ = some [empty, Scope.set empty (chars% "v") _, _] by
        rw [store_next rfl, store_next (set_ne _ _ (by decide)), store_here hs.values]; rfl)]
    exact ih (hs.add _)

theorem scalar_field {t : FieldType} (h : isScalar t = true) : ∃ b, baseOf t.name = some b := by
  unfold isScalar at h
  rw [scalar_iff, Bool.and_eq_true] at h
  exact Option.isSome_iff_exists.mp h.2

theorem exec_assign1 {ws x : Str} {e : Expr} {rest : Code} {ss : List (Scope F)} {v w : GV F}
    (he : e.eval L ⟨s :: ss, m, h⟩ = .ok v) (hx : s x = some w) :
    (Code.assign ws [x] e rest).exec L ⟨s :: ss, m, h⟩ = rest.exec L ⟨s.set x v :: ss, m, h⟩ := by
  have : e.evals L ⟨s :: ss, m, h⟩ 1 = .ok [v] := by
    unfold Expr.evals
    rw [if_pos rfl, he]
  rw [Code.exec]
  simp only [List.length_cons, List.length_nil]
  rw [this]
  simp only [storeAll, store_here hx]

theorem exec_assign2 {ws x y : Str} {e : Expr} {rest : Code} {ss : List (Scope F)} {v w v' w' : GV F}
    (he : e.evals L ⟨s :: ss, m, h⟩ 2 = .ok [v, w]) (hx : s x = some v') (hy : (s.set x v) y = some w') :
    (Code.assign ws [x, y] e rest).exec L ⟨s :: ss, m, h⟩ = rest.exec L ⟨(s.set x v).set y w :: ss, m, h⟩ := by
  rw [Code.exec]
  simp only [List.length_cons, List.length_nil]
  rw [he]
  simp only [storeAll, store_here hx, store_here hy]

theorem Bottom.set (hs : Bottom q s) {x : Str} (v : GV F) (h : x = chars% "tmp" ∨ x = chars% "err" ∨ x = chars% "strval") :
    Bottom q (s.set x v) := by
  have key : ∀ y, y ≠ chars% "tmp" → y ≠ chars% "err" → y ≠ chars% "strval" → (s.set x v) y = s y := by
    intro y h1 h2 h3
    refine set_ne s v ?_
    rcases h with rfl | rfl | rfl
    · exact h1
    · exact h2
    · exact h3
  have some : ∀ y, (∃ w, s y = some w) → ∃ w, (s.set x v) y = some w := by
    intro y hy
    by_cases hxy : y = x
    · exact ⟨v, by rw [hxy]; exact set_same ..⟩
    · rw [set_ne s v hxy]; exact hy
  exact ⟨(key _ (by decide) (by decide) (by decide)).trans hs.values, (key _ (by decide) (by decide) (by decide)).trans hs.req,
    (key _ (by decide) (by decide) (by decide)).trans hs.request, some _ hs.err, some _ hs.tmp, some _ hs.strval⟩

theorem add_exec {ws ws' name text : Str} {e : Expr} (hn : PlainText name) (hs : Bottom q s) (he : e.eval L ⟨[s], m, h⟩ = .ok (.str text)) :
    Adds ((add ws name e (.done ws')).exec L ⟨[s], m, h⟩) m h (addValue q name text) := by
  rw [exec_add hn he (find_here hs.values) (store_here hs.values)]
  exact ⟨_, rfl, hs.add _⟩

theorem marshalled_exec {name f j : Str} (hn : PlainText name) (hs : Bottom q s)
    (he : (Expr.call1 (chars% "json.Marshal") (reqField f)).evals L ⟨[s], m, h⟩ 2 = .ok [.bytes j, .err false]) :
    Adds ((marshalled name f).exec L ⟨[s], m, h⟩) m h (addValue q name j) := by
  obtain ⟨v1, e1⟩ := hs.tmp
  obtain ⟨v2, e2⟩ := hs.err
  obtain ⟨v3, e3⟩ := hs.strval
  unfold marshalled
  rw [exec_assign2 he e1 ((set_ne s _ (by decide)).trans e2)]
  rw [exec_passed (find_here (set_same ..))]
  rw [exec_assign1 (v := .str j) (w := v3) ?_ ?_]
  · exact add_exec hn (((hs.set _ (.inl rfl)).set _ (.inr (.inl rfl))).set _ (.inr (.inr rfl))) (eval_id (find_here (set_same ..)))
  · rw [Expr.eval, eval_id (find_here ((set_ne _ _ (by decide)).trans (set_same ..)))]
    rfl
  · rw [set_ne _ _ (by decide), set_ne _ _ (by decide), e3]

theorem optional_exec {ws ws' ws'' name f text : Str} {b : Base} {o : Option (SVal F)} (hn : PlainText name) (hs : Bottom q s)
    (he : ∀ σ : State F, find σ.scopes (chars% "req") = some .msg → σ.msg = m → (reqField f).eval L σ = .ok (.ptr (some b) o text)) :
    Adds ((Code.cond ws (.ne (reqField f) (chars% " !=") .nil) (add ws' name (sprinted (.deref (reqField f))) (.done ws'')) (.done ws'')).exec L ⟨[s], m, h⟩)
      m h (match o with
        | some x => addValue q name (sprint L.fl b x)
        | none => q) := by
  have hc : (Expr.ne (reqField f) (chars% " !=") .nil).eval L ⟨[s], m, h⟩ = .ok (.bool o.isSome) := by
    rw [Expr.eval, he _ (find_here hs.req) rfl]
    rfl
  rw [Code.exec, hc]
  cases o with
  | none => exact ⟨s, rfl, hs⟩
  | some x =>
    simp only [Option.isSome_some]
    have hd : (sprinted (.deref (reqField f))).eval L (State.push ⟨[s], m, h⟩) = .ok (.str (sprint L.fl b x)) := by
      refine eval_sprint (v := .scalar (some b) x) ?_ rfl
      rw [Expr.eval, he _ (find_push.trans (find_here hs.req)) rfl]
    rw [show State.push ⟨[s], m, h⟩ = ⟨[empty, s], m, h⟩ from rfl] at hd ⊢
    rw [exec_add (ss' := [empty, _]) hn hd ((find_next rfl).trans (find_here hs.values))
      (by rw [store_next rfl, store_here hs.values]; rfl)]
    exact ⟨_, rfl, hs.add _⟩

/-- The statements of a field in the query. -/
theorem field_exec {p : HTTPParameter} (hn : PlainText p.field.pbName)
    (ht : L.field (goCamelCase p.field.name) = some (if isScalar p.field.type then baseOf p.field.type.name else none))
    {sh : Shape} (hsh : HasShape (newField p) sh) (hv : Holds L.fl sh (m.fields (goCamelCase p.field.name))) (hs : Bottom q s) :
    Adds ((fieldCode p).exec L ⟨[s], m, h⟩) m h (encodeField L.fl (newField p) (m.fields (newField p).camelName) q) := by
  have hb : (newField p).isBase = isScalar p.field.type := by
    unfold newField isScalar
    simp only [scalar_iff]
  have hc : (newField p).camelName = goCamelCase p.field.name := rfl
  have hfield : ∀ σ : State F, find σ.scopes (chars% "req") = some .msg → σ.msg = m → (reqField (goCamelCase p.field.name)).eval L σ =
      .ok (ofField (if isScalar p.field.type then baseOf p.field.type.name else none) (L.addr (goCamelCase p.field.name)) (m.fields (goCamelCase p.field.name))) := by
    intro σ hr hm
    rw [eval_field hr ht, hm]
  unfold fieldCode encodeField
  simp only
  rw [hc, hb, show (newField p).repeated = p.field.type.array from rfl, show (newField p).star = p.field.type.star from rfl,
    show (newField p).goType = p.field.type.name from rfl, show (newField p).queryParamName = p.field.pbName from rfl]
  rw [← hb] at ht hfield ⊢
  generalize m.fields (goCamelCase p.field.name) = x at hv hfield ⊢
  cases sh with
  | single b =>
    obtain ⟨h1, h2, h3, h4, h5⟩ := hsh
    have h3 : baseOf p.field.type.name = some b := h3
    have h4 : p.field.type.star = false := h4
    have h5 : p.field.type.array = false := h5
    cases x with
    | one v =>
      simp only [h1, h3, h4, h5, if_true, Bool.false_and, Bool.false_eq_true, if_false, Bool.not_true, Bool.or_false, Option.getD_some] at hfield ⊢
      exact add_exec hn hs (eval_sprint (hfield _ (find_here hs.req) rfl) rfl)
    | _ => exact hv.elim
  | optional b =>
    obtain ⟨h1, h2, h3, h4, h5⟩ := hsh
    have h3 : baseOf p.field.type.name = some b := h3
    have h4 : p.field.type.star = true := h4
    have h5 : p.field.type.array = false := h5
    cases x with
    | opt v =>
      simp only [h1, h3, h4, h5, if_true, Bool.false_and, Bool.false_eq_true, if_false, Bool.not_true, Bool.or_false, Option.getD_some] at hfield ⊢
      cases v <;> exact optional_exec hn hs hfield
    | _ => exact hv.elim
  | repeated b =>
    obtain ⟨h1, h2, h3, h4, h5⟩ := hsh
    have h3 : baseOf p.field.type.name = some b := h3
    have h5 : p.field.type.array = true := h5
    cases x with
    | many l =>
      simp only [h1, h3, h5, if_true, Bool.and_self, Option.getD_some] at hfield ⊢
      rw [Code.exec, hfield _ (find_here hs.req) rfl]
      obtain ⟨s', e', hs'⟩ := list_exec (L := L) (m := m) (h := h) (f := chars% "\n\t\t\t\t\t") l hn hs (t := some b) rfl rfl
      refine ⟨s', ?_, hs'⟩
      exact congrArg (fun o : Out F => o.then (Code.exec L (.done (chars% "\n\t\t\t\t")))) e'
    | _ => exact hv.elim
  | enum =>
    obtain ⟨h1, h2, h3, h4, h5⟩ := hsh
    have h3 : baseOf p.field.type.name = none := h3
    have h5 : p.field.type.array = false := h5
    cases x with
    | one v =>
      cases v with
      | num i =>
        simp only [h2, h3, h5, Bool.false_and, Bool.false_eq_true, if_false, Bool.not_false, Bool.or_false, if_true, Option.getD_none] at hfield ⊢
        refine marshalled_exec hn hs ?_
        unfold Expr.evals
        rw [if_neg (by decide)]
        simp only
        rw [hfield _ (find_here hs.req) rfl]
        rfl
      | _ => exact hv.elim
    | _ => exact hv.elim
  | message =>
    obtain ⟨h1, h2, h3, h4⟩ := hsh
    cases x with
    | other j =>
      simp only [h2, Bool.and_false, Bool.false_eq_true, if_false, Bool.not_false, Bool.true_or, if_true] at hfield ⊢
      refine marshalled_exec hn hs ?_
      unfold Expr.evals
      rw [if_neg (by decide)]
      simp only
      rw [hfield _ (find_here hs.req) rfl]
      rfl
    | _ => exact hv.elim
  | messages =>
    obtain ⟨h2, h4⟩ := hsh
    cases x with
    | other j =>
      simp only [h2, Bool.and_false, Bool.false_eq_true, if_false, Bool.not_false, Bool.true_or, if_true] at hfield ⊢
      refine marshalled_exec hn hs ?_
      unfold Expr.evals
      rw [if_neg (by decide)]
      simp only
      rw [hfield _ (find_here hs.req) rfl]
      rfl
    | _ => exact hv.elim

theorem eval_getter {σ : State F} {f o : Str} {t : Base} (hr : find σ.scopes (chars% "req") = some .msg) (hf : L.option f = some (o, t)) :
    (Expr.getter f).eval L σ = .ok (match σ.msg.oneofs o with
      | some (n, v) => if n = f then .scalar (some t) v else .zero t
      | none => .zero t) := by
  rw [Expr.eval, hr]
  simp only [hf]
  cases σ.msg.oneofs o with
  | none => rfl
  | some x =>
    obtain ⟨n, v⟩ := x
    by_cases hn : n = f
    · simp only [if_pos hn]
    · simp only [if_neg hn]

theorem zeroText_base {t : Str} {b : Base} (h : baseOf t = some b) : zeroText t = zeroOf b := by
  have := baseOf_name h
  subst this
  cases b <;> decide +kernel

theorem exec_condInit {ws x : Str} {e c : Expr} {body rest : Code} {ss : List (Scope F)} {v : GV F} {r : Bool} (he : e.eval L ⟨ss, m, h⟩ = .ok v)
    (hc : c.eval L ⟨Scope.set empty x v :: ss, m, h⟩ = .ok (.bool r)) :
    (Code.condInit ws x e c body rest).exec L ⟨ss, m, h⟩ =
      if r then (((body.exec L ⟨empty :: Scope.set empty x v :: ss, m, h⟩).pop).pop).then (rest.exec L) else rest.exec L ⟨ss, m, h⟩ := by
  rw [Code.exec, he]
  simp only [declare, State.push]
  rw [hc]
  cases r <;> rfl

/-- The statement of an option of a oneof in the query. -/
theorem option_exec {o : OneofField} {name : Str} {b : Base} (hn : PlainText o.pbName) (hb : baseOf o.typeName = some b)
    (ht : L.option o.name = some (name, b)) (hs : Bottom q s) :
    Adds ((optionCode o).exec L ⟨[s], m, h⟩) m h (encodeOption L.fl L.fzero (m.oneofs name) q (newOption o)) := by
  have hg := eval_getter (L := L) (σ := ⟨[s], m, h⟩) (find_here hs.req) ht
  have he : ∀ (v : GV F) (r : Bool), differs L v (zeroOf b) = .ok (.bool r) →
      ((Expr.id (chars% "val")).ne (chars% " != ") (zeroOf b)).eval L ⟨[Scope.set empty (chars% "val") v, s], m, h⟩ = .ok (.bool r) := by
    intro v r hd
    rw [Expr.eval, eval_id (find_here (set_same ..))]
    exact hd
  have hz : differs L (.zero b) (zeroOf b) = .ok (.bool false) := by
    unfold differs
    simp only [if_true]
  have hsc : ∀ v, differs L (.scalar (some b) v) (zeroOf b) = .ok (.bool !(isZero L.fzero v)) := by
    intro v
    unfold differs
    simp only [if_true]
  unfold optionCode encodeOption
  rw [zeroText_base hb]
  simp only at hg
  generalize m.oneofs name = x at hg ⊢
  cases x with
  | none =>
    rw [exec_condInit hg (he _ _ hz)]
    exact ⟨s, rfl, hs⟩
  | some x =>
    obtain ⟨n, v⟩ := x
    by_cases hno : n = o.name
    · simp only [if_pos hno] at hg
      rw [exec_condInit hg (he _ _ (hsc v))]
      simp only
      cases hzv : isZero L.fzero v with
      | true =>
        rw [if_neg (c := n = (newOption o).name ∧ true = false) fun h' => absurd h'.2 (by decide)]
        exact ⟨s, rfl, hs⟩
      | false =>
        rw [if_pos (c := n = (newOption o).name ∧ false = false) ⟨hno, rfl⟩]
        rw [Bool.not_false, if_pos rfl, exec_add (ss' := [empty, Scope.set empty (chars% "val") _, _]) (q := q) hn
          (eval_sprint (eval_id ((find_next rfl).trans (find_here (set_same ..)))) rfl)
          ((find_next rfl).trans ((find_next (set_ne _ _ (by decide))).trans (find_here hs.values)))
          (by rw [store_next rfl, store_next (set_ne _ _ (by decide)), store_here hs.values]; rfl)]
        refine ⟨_, rfl, ?_⟩
        rw [show (baseOf (newOption o).goType).getD .int32 = b by
          show (baseOf o.typeName).getD .int32 = b
          rw [hb]; rfl]
        exact hs.add _
    · simp only [if_neg hno] at hg
      rw [exec_condInit hg (he _ _ hz)]
      simp only
      rw [if_neg (c := n = (newOption o).name ∧ _) fun h' => hno h'.1]
      exact ⟨s, rfl, hs⟩

/-! ## Several -/

theorem run_append {cs ds : List Code} {σ : State F} : run L (cs ++ ds) σ = (run L cs σ).then (run L ds) := by
  induction cs generalizing σ with
  | nil => rfl
  | cons c cs ih =>
    rw [List.cons_append, run, run]
    cases c.exec L σ with
    | next σ' => exact ih
    | returned => rfl
    | fault => rfl

theorem run_fold {α : Type} {code : α → Code} {f : List (Str × List Str) → α → List (Str × List Str)} {l : List α}
    (hf : ∀ x ∈ l, ∀ q (s : Scope F), Bottom q s → Adds ((code x).exec L ⟨[s], m, h⟩) m h (f q x)) (hs : Bottom q s) :
    Adds (run L (l.map code) ⟨[s], m, h⟩) m h (l.foldl f q) := by
  induction l generalizing q s with
  | nil => exact ⟨s, rfl, hs⟩
  | cons x l ih =>
    obtain ⟨s', e', hs'⟩ := hf x List.mem_cons_self q s hs
    rw [List.map_cons, run, e', List.foldl_cons]
    exact ih (fun y hy => hf y (List.mem_cons_of_mem _ hy)) hs'

theorem run_folds {α : Type} {code : α → List Code} {f : List (Str × List Str) → α → List (Str × List Str)} {l : List α}
    (hf : ∀ x ∈ l, ∀ q (s : Scope F), Bottom q s → Adds (run L (code x) ⟨[s], m, h⟩) m h (f q x)) (hs : Bottom q s) :
    Adds (run L (l.flatMap code) ⟨[s], m, h⟩) m h (l.foldl f q) := by
  induction l generalizing q s with
  | nil => exact ⟨s, rfl, hs⟩
  | cons x l ih =>
    obtain ⟨s', e', hs'⟩ := hf x List.mem_cons_self q s hs
    rw [List.flatMap_cons, run_append, e', List.foldl_cons]
    exact ih (fun y hy => hf y (List.mem_cons_of_mem _ hy)) hs'

/-- The statements of the query. -/
theorem query_exec {b : HTTPBinding} {ps : List Piece} (ht : Typed L b) (hw : Writable b ps) (hm : Sendable L.fl b m) (hs : Bottom q s) :
    Adds (run L (queryCode b) ⟨[s], m, h⟩) m h (encodeFrom L.fl L.fzero q (bindingFields b) (bindingOneofs b) m) := by
  unfold queryCode encodeFrom
  rw [run_append]
  have h1 : (bindingFields b).filter (fun f => f.location = "query".toList) =
      ((plainParams b).filter fun p => p.location = chars% "query").map newField := by
    rw [show bindingFields b = (plainParams b).map newField from rfl, List.filter_map]
    rfl
  have h2 : (bindingOneofs b).filter (fun o => o.location = "query".toList) = ((oneofParams b).filter fun p => p.location = chars% "query").map
      fun p => ⟨p.field.name, p.location, p.field.type.oneof.map newOption⟩ := by
    rw [show bindingOneofs b = (oneofParams b).map fun p => ⟨p.field.name, p.location, p.field.type.oneof.map newOption⟩ from rfl, List.filter_map]
    rfl
  rw [h1, h2, List.foldl_map, List.foldl_map]
  have hloc : ∀ p : HTTPParameter, p.location = "query".toList → p.location ≠ "body".toList := fun p h e => absurd (h.symm.trans e) (by decide)
  obtain ⟨s1, e1, b1⟩ := run_fold (L := L) (m := m) (h := h) (code := fieldCode) (f := fun q p => encodeField L.fl (newField p) (m.fields (newField p).camelName) q)
    (l := (plainParams b).filter fun p => p.location = chars% "query")
    (fun p hp q s hs => by
      obtain ⟨hp, hl⟩ := List.mem_filter.mp hp
      have hl : p.location = "query".toList := of_decide_eq_true hl
      obtain ⟨sh, hsh, hv⟩ := hm p hp (hloc p hl)
      exact field_exec (hw.query p hp hl) (ht.field p hp) hsh hv hs) hs
  rw [e1]
  refine run_folds (L := L) (m := m) (h := h) (l := (oneofParams b).filter fun p => p.location = chars% "query") (fun p hp q s hs => ?_) b1
  obtain ⟨hp, hl⟩ := List.mem_filter.mp hp
  have hl : p.location = "query".toList := of_decide_eq_true hl
  simp only [List.foldl_map]
  refine run_fold (fun o ho q s hs => ?_) hs
  obtain ⟨t, hb, hopt⟩ := ht.option p hp hl o ho
  exact option_exec (hw.option p hp hl o ho) hb hopt hs

/-! ## The path -/

theorem eval_elems {es : List Expr} {ts : List Str} {σ : State F} (h : es.map (Expr.eval L σ) = ts.map fun t => Except.ok (GV.str t)) :
    (es.foldr Expr.elem Expr.last).eval L σ = .ok (.strs ts) := by
  induction es generalizing ts with
  | nil =>
    cases ts with
    | nil => rfl
    | cons => cases h
  | cons e es ih =>
    cases ts with
    | nil => cases h
    | cons t ts =>
      rw [List.map_cons, List.map_cons, List.cons.injEq] at h
      rw [List.foldr_cons, Expr.eval, h.1, ih h.2]
      simp only [GV.str]

theorem eval_join {a : Expr} {l : List Str} {σ : State F} (ha : a.eval L σ = .ok (.strs l)) :
    (Expr.call2 (chars% "strings.Join") a (.text (chars% "/"))).eval L σ = .ok (.str (join '/' l)) := by
  unfold Expr.eval
  rw [if_neg (by decide), if_pos rfl, ha]
  rfl

theorem eval_sprintf {a : Expr} {v w : GV F} {σ : State F} (ha : a.eval L σ = .ok v) (hw : sprintD v = .ok w) :
    (Expr.call2 (chars% "fmt.Sprintf") (.text (chars% "%d")) a).eval L σ = .ok w := by
  unfold Expr.eval
  rw [if_pos rfl, ha]
  exact hw

theorem newField_base (p : HTTPParameter) : (newField p).isBase = isScalar p.field.type := by
  unfold newField isScalar
  simp only [scalar_iff]

theorem nodup_map_inj {α β : Type} {f : α → β} {l : List α} (h : (l.map f).Nodup) {x y : α} (hx : x ∈ l) (hy : y ∈ l) (e : f x = f y) : x = y := by
  induction l with
  | nil => cases hx
  | cons a l ih =>
    rw [List.map_cons, List.nodup_cons] at h
    rcases List.mem_cons.mp hx with hx | hx <;> rcases List.mem_cons.mp hy with hy | hy
    · rw [hx, hy]
    · exact absurd (List.mem_map.mpr ⟨y, hy, by rw [← e, hx]⟩) h.1
    · exact absurd (List.mem_map.mpr ⟨x, hx, by rw [e, hy]⟩) h.1
    · exact ih h.2 hx hy

theorem mem_plain {b : HTTPBinding} {p : HTTPParameter} : p ∈ plainParams b ↔ p ∈ b.params ∧ p.field.type.oneof = [] ∧ p.field.type.name ≠ [] := by
  unfold plainParams
  rw [List.mem_filter, Bool.and_eq_true, List.isEmpty_iff, decide_eq_true_eq]

/-- A variable of the path is printed as `pathEnv` says. -/
theorem var_exec {b : HTTPBinding} {ps : List Piece} (ht : Typed L b) (hw : Writable b ps) {σ : State F} (hm : Sendable L.fl b σ.msg)
    (hr : find σ.scopes (chars% "req") = some .msg) {n : Str} (hn : Piece.var n ∈ ps) :
    (pieceExpr b (.var n)).eval L σ = .ok (.str (pathEnv L.fl L.addr (bindingFields b) σ.msg.fields (goCamelCase n))) := by
  obtain ⟨p, hp, hl, hpn⟩ := hw.var n hn
  have henum : EnumParam b n ↔ p.field.type.enum.isSome = true := by
    constructor
    · rintro ⟨p', hp', h1, h2, h3, h4⟩
      have : p' = p := nodup_map_inj ht.names (mem_plain.mpr ⟨hp', h1, h2⟩) hp (h4.trans hpn.symm)
      exact this ▸ h3
    · intro he
      obtain ⟨h1, h2, h3⟩ := mem_plain.mp hp
      exact ⟨p, h1, h2, h3, he, hpn⟩
  have hfind : (bindingFields b).find? (fun f => f.camelName = goCamelCase n) = some (newField p) := by
    rw [show bindingFields b = (plainParams b).map newField from rfl, List.find?_map]
    have : (plainParams b).find? ((fun f => decide (f.camelName = goCamelCase n)) ∘ newField) = some p := by
      cases hf : (plainParams b).find? ((fun f => decide (f.camelName = goCamelCase n)) ∘ newField) with
      | none =>
        have := List.find?_eq_none.mp hf p hp
        exact absurd (decide_eq_true (p := goCamelCase p.field.name = goCamelCase n) hpn) this
      | some p' =>
        have h1 := List.mem_of_find?_eq_some hf
        have h2 : goCamelCase p'.field.name = goCamelCase n := by
          have := List.find?_some hf
          exact of_decide_eq_true this
        rw [nodup_map_inj ht.names h1 hp (h2.trans hpn.symm)]
    rw [this]
    rfl
  obtain ⟨sh, hsh, hv⟩ := hm p hp (fun e => absurd (hl.symm.trans e) (by decide))
  have hfield := eval_field (L := L) hr (ht.field p hp)
  rw [← newField_base, hpn] at hfield
  rw [hpn] at hv
  unfold pieceExpr pathEnv
  simp only [henum]
  rw [hfind]
  simp only
  rw [show p.field.type.enum.isSome = (newField p).isEnum from rfl]
  rw [show p.field.type.name = (newField p).goType from rfl] at hfield
  have hcam : (newField p).camelName = goCamelCase n := hpn
  generalize newField p = f at *
  generalize σ.msg.fields (goCamelCase n) = x at *
  have hs : f.isEnum = false → ∀ w, sprintV L (ofField (if f.isBase = true then baseOf f.goType else none) (L.addr (goCamelCase n)) x) = .ok w →
      (if f.isEnum = true then (Expr.call2 (chars% "fmt.Sprintf") (.text (chars% "%d")) (reqField (goCamelCase n))) else sprinted (reqField (goCamelCase n))).eval L σ = .ok w := by
    intro he w h
    rw [if_neg (by rw [he]; decide)]
    exact eval_sprint hfield h
  have hd : f.isEnum = true → ∀ w, sprintD (ofField (if f.isBase = true then baseOf f.goType else none) (L.addr (goCamelCase n)) x) = .ok w →
      (if f.isEnum = true then (Expr.call2 (chars% "fmt.Sprintf") (.text (chars% "%d")) (reqField (goCamelCase n))) else sprinted (reqField (goCamelCase n))).eval L σ = .ok w := by
    intro he w h
    rw [if_pos he]
    exact eval_sprintf hfield h
  unfold sprintField
  rw [hcam]
  cases sh with
  | single b =>
    obtain ⟨h1, h2, h3, h4, h5⟩ := hsh
    cases x with
    | one v =>
      refine hs h2 _ ?_
      simp only [h1, if_true, h3, ofField, sprintV, Option.getD_some]
    | _ => exact hv.elim
  | optional b =>
    obtain ⟨h1, h2, h3, h4, h5⟩ := hsh
    cases x with
    | opt v =>
      refine hs h2 _ ?_
      cases v <;> simp only [h1, if_true, h3, ofField, sprintV] <;> rfl
    | _ => exact hv.elim
  | repeated b =>
    obtain ⟨h1, h2, h3, h4, h5⟩ := hsh
    cases x with
    | many l =>
      refine hs h2 _ ?_
      simp only [h1, if_true, h3, ofField, sprintV]
    | _ => exact hv.elim
  | enum =>
    obtain ⟨h1, h2, h3, h4, h5⟩ := hsh
    cases x with
    | one v =>
      cases v with
      | num i =>
        refine hd h1 _ ?_
        simp only [h3, ofField, sprintD, sprint]
      | _ => exact hv.elim
    | _ => exact hv.elim
  | message =>
    obtain ⟨h1, h2, h3, h4⟩ := hsh
    cases x with
    | other j =>
      refine hs h1 _ ?_
      simp only [ofField, sprintV]
    | _ => exact hv.elim
  | messages =>
    obtain ⟨h2, h4⟩ := hsh
    cases x with
    | other j =>
      cases he : f.isEnum with
      | true =>
        rw [he] at hd
        refine hd rfl _ ?_
        simp only [ofField, sprintD]
      | false =>
        rw [he] at hs
        refine hs rfl _ ?_
        simp only [ofField, sprintV]
    | _ => exact hv.elim

theorem path_eval {b : HTTPBinding} {ps : List Piece} (ht : Typed L b) (hok : TemplateOK ps) (hw : Writable b ps) {σ : State F} (hm : Sendable L.fl b σ.msg)
    (hr : find σ.scopes (chars% "req") = some .msg) :
    (Expr.call2 (chars% "strings.Join") (pathExpr b ps) (.text (chars% "/"))).eval L σ =
      .ok (.str (clientPath (pathEnv L.fl L.addr (bindingFields b) σ.msg.fields) (templateOf ps))) := by
  have hps : (pathExpr b ps).eval L σ = .ok (.strs ([] :: ps.map fun
      | .lit l => l
      | .var n => pathEnv L.fl L.addr (bindingFields b) σ.msg.fields (goCamelCase n))) := by
    unfold pathExpr
    rw [Expr.eval]
    refine eval_elems (es := .text [] :: ps.map (pieceExpr b)) ?_
    rw [List.map_cons, List.map_cons, List.map_map, List.map_map]
    refine congr (congrArg List.cons (eval_text ⟨List.not_mem_nil, List.not_mem_nil, List.not_mem_nil⟩ σ)) (List.map_congr_left fun p hp => ?_)
    cases p with
    | lit l => exact eval_text (hw.lit l hp) σ
    | var n => exact var_exec ht hw hm hr hp
  rw [eval_join hps]
  unfold clientPath
  rw [split_template hok, List.map_cons, List.map_map]
  refine congrArg (fun l => Except.ok (GV.str (join '/' l))) (congr (congrArg List.cons ?_) (List.map_congr_left fun p hp => ?_))
  · rfl
  · cases p with
    | lit l =>
      have := isParam_lit (hok.lit l hp).2
      simp only [Function.comp_apply, Piece.text, this, Bool.false_eq_true, if_false]
    | var n =>
      have h1 := isParam_var (hok.var n hp).2.2
      have h2 := removeBraces_var (hok.var n hp).2.1
      simp only [Function.comp_apply]
      rw [h1, h2]
      rfl

/-! ## The beginning -/

/-- After the headers and the path. -/
theorem start_exec {b : HTTPBinding} {ps : List Piece} (ht : Typed L b) (hok : TemplateOK ps) (hw : Writable b ps) (hp : b.path = templateOf ps)
    (hm : Sendable L.fl b m) (request : Str) (hs : s (chars% "request") = some .msg) :
    match urlParsePath (clientPath (pathEnv L.fl L.addr (bindingFields b) m.fields) b.path) with
    | none => ∃ σ, (startCode request b ps).exec L ⟨[s], m, h⟩ = .returned true σ
    | some path => Adds ((startCode request b ps).exec L ⟨[s], m, h⟩) m
        ⟨Runtime.headerSet (Runtime.headerSet h.header "transport".toList "HTTPJSON".toList) "request-url".toList h.path, path,
          L.rawPath (clientPath (pathEnv L.fl L.addr (bindingFields b) m.fields) b.path), h.query, h.body⟩ h.query := by
  unfold startCode
  rw [exec_define1 (eval_text ⟨List.not_mem_nil, List.not_mem_nil, List.not_mem_nil⟩ _)]
  rw [exec_use (find_here (set_same ..))]
  generalize hs1 : s.set (chars% "strval") (.str []) = s1
  have r1 : s1 (chars% "request") = some .msg := by rw [← hs1]; exact (set_ne _ _ (by decide)).trans hs
  have v1 : s1 (chars% "strval") = some (.str []) := by rw [← hs1]; exact set_same ..
  rw [exec_define1 (v := .msg) (by rw [Expr.eval, find_here r1])]
  rw [exec_use (find_here (set_same ..))]
  generalize hs2 : s1.set (chars% "req") .msg = s2
  have r2 : s2 (chars% "request") = some .msg := by rw [← hs2]; exact (set_ne _ _ (by decide)).trans r1
  have v2 : s2 (chars% "strval") = some (.str []) := by rw [← hs2]; exact (set_ne _ _ (by decide)).trans v1
  have q2 : s2 (chars% "req") = some .msg := by rw [← hs2]; exact set_same ..
  rw [exec_call (σ' := ⟨[s2], m, { h with header := Runtime.headerSet h.header "transport".toList "HTTPJSON".toList }⟩)
    (eval_text (s := chars% "transport") ⟨by decide, by decide, by decide⟩ _) (eval_text (s := chars% "HTTPJSON") ⟨by decide, by decide, by decide⟩ _) rfl]
  rw [exec_call (σ' := ⟨[s2], m, { h with header := Runtime.headerSet (Runtime.headerSet h.header "transport".toList "HTTPJSON".toList) "request-url".toList h.path }⟩)
    (eval_text (s := chars% "request-url") ⟨by decide, by decide, by decide⟩ _) (w := .str h.path) (by rw [Expr.eval, if_pos rfl, if_pos rfl]) rfl]
  generalize Runtime.headerSet (Runtime.headerSet h.header "transport".toList "HTTPJSON".toList) "request-url".toList h.path = hd
  rw [Code.exec, exec_define1 (path_eval ht hok hw (σ := ⟨[s2], m, { h with header := hd }⟩) hm (find_here q2)), ← hp]
  simp only
  generalize clientPath (pathEnv L.fl L.addr (bindingFields b) m.fields) b.path = raw
  generalize hs3 : s2.set (chars% "path") (.str raw) = s3
  have r3 : s3 (chars% "request") = some .msg := by rw [← hs3]; exact (set_ne _ _ (by decide)).trans r2
  have v3 : s3 (chars% "strval") = some (.str []) := by rw [← hs3]; exact (set_ne _ _ (by decide)).trans v2
  have q3 : s3 (chars% "req") = some .msg := by rw [← hs3]; exact (set_ne _ _ (by decide)).trans q2
  have p3 : s3 (chars% "path") = some (.str raw) := by rw [← hs3]; exact set_same ..
  have hparse : (Expr.call1 (chars% "url.Parse") (.id (chars% "path"))).evals L ⟨[s3], m, { h with header := hd }⟩ 2 = .ok (match urlParsePath raw with
      | some p => [.url p (L.rawPath raw), .err false]
      | none => [.junk, .err true]) := by
    unfold Expr.evals
    rw [if_neg (by decide)]
    simp only
    rw [eval_id (find_here p3)]
    simp only [GV.str, if_true]
    cases urlParsePath raw <;> rfl
  cases hu : urlParsePath raw with
  | none =>
    rw [hu] at hparse
    rw [exec_define2 hparse, exec_failed (find_here (set_same ..)), exec_ret (eval_call3 (find_push.trans (find_here (set_same ..))) _ _)]
    exact ⟨_, rfl⟩
  | some path =>
    rw [hu] at hparse
    rw [exec_define2 hparse, exec_passed (find_here (set_same ..))]
    generalize hs4 : (s3.set (chars% "u") (.url path (L.rawPath raw))).set (chars% "err") (.err false) = s4
    have r4 : s4 (chars% "request") = some .msg := by rw [← hs4]; exact (set_ne _ _ (by decide)).trans ((set_ne _ _ (by decide)).trans r3)
    have v4 : s4 (chars% "strval") = some (.str []) := by rw [← hs4]; exact (set_ne _ _ (by decide)).trans ((set_ne _ _ (by decide)).trans v3)
    have q4 : s4 (chars% "req") = some .msg := by rw [← hs4]; exact (set_ne _ _ (by decide)).trans ((set_ne _ _ (by decide)).trans q3)
    have e4 : s4 (chars% "err") = some (.err false) := by rw [← hs4]; exact set_same ..
    have u4 : s4 (chars% "u") = some (.url path (L.rawPath raw)) := by rw [← hs4]; exact (set_ne _ _ (by decide)).trans (set_same ..)
    have hfu : ∀ h' : Http, (Expr.field (chars% "u") (chars% "RawPath")).eval L ⟨[s4], m, h'⟩ = .ok (.str (L.rawPath raw)) ∧
        (Expr.field (chars% "u") (chars% "Path")).eval L ⟨[s4], m, h'⟩ = .ok (.str path) := by
      intro h'
      constructor
      · rw [Expr.eval, if_neg (by decide), find_here u4]
        simp only
        rw [if_neg (by decide), if_pos trivial]
      · rw [Expr.eval, if_neg (by decide), find_here u4]
        simp only
        rw [if_pos trivial]
    rw [exec_set (hfu _).1 (σ' := ⟨[s4], m, { h with header := hd, rawPath := L.rawPath raw }⟩) rfl]
    rw [exec_set (hfu _).2 (σ' := ⟨[s4], m, { h with header := hd, rawPath := L.rawPath raw, path := path }⟩) rfl]
    rw [Code.exec, exec_define1 (v := .query h.query) (by rw [Expr.eval, if_pos rfl]), Code.exec]
    simp only [declare]
    rw [exec_use (find_here (set_same ..)), Code.exec]
    refine ⟨_, rfl, ?_⟩
    refine ⟨(set_ne _ _ (by decide)).trans (set_same ..), (set_ne _ _ (by decide)).trans ((set_ne _ _ (by decide)).trans q4),
      (set_ne _ _ (by decide)).trans ((set_ne _ _ (by decide)).trans r4), ⟨_, (set_ne _ _ (by decide)).trans ((set_ne _ _ (by decide)).trans e4)⟩,
      ⟨_, set_same ..⟩, ⟨_, (set_ne _ _ (by decide)).trans ((set_ne _ _ (by decide)).trans v4)⟩⟩

/-! ## The body -/

theorem toField_ofField (t : Option Base) (a : Str) (v : FVal F) : toField (ofField t a v) = some v := by cases v <;> rfl

/-- The copies of the fields change nothing. -/
theorem copy_exec {f : Str} {t : Option Base} (ht : L.field f = some t) (hr : s (chars% "req") = some .msg) (hc : s (chars% "toRet") = some .msg) (ws ws' : Str) :
    (Code.set ws (chars% "toRet") f (reqField f) (.done ws')).exec L ⟨[s], m, h⟩ = .next ⟨[s], m, h⟩ := by
  rw [exec_set (eval_field (find_here hr) ht) (σ' := ⟨[s], m, h⟩), Code.exec]
  unfold assignField
  rw [if_neg (by decide), if_neg (by decide), find_here hc, ht, toField_ofField]
  simp only [Option.some.injEq, State.mk.injEq, true_and, and_true]
  obtain ⟨fs, os⟩ := m
  simp only [FullMsg.mk.injEq, and_true]
  funext g
  by_cases hg : g = f
  · rw [if_pos hg, hg]
  · rw [if_neg hg]

theorem copies_exec {l : List HTTPParameter} (ht : ∀ p ∈ l, ∃ t, L.field (goCamelCase p.field.name) = some t) (hr : s (chars% "req") = some .msg)
    (hc : s (chars% "toRet") = some .msg) : run L (l.map copyCode) ⟨[s], m, h⟩ = .next ⟨[s], m, h⟩ := by
  induction l with
  | nil => rfl
  | cons p l ih =>
    obtain ⟨t, e⟩ := ht p List.mem_cons_self
    rw [List.map_cons, run, copyCode, copy_exec e hr hc]
    exact ih fun p hp => ht p (List.mem_cons_of_mem _ hp)

theorem body_exec {b : HTTPBinding} (ht : Typed L b) (request : Str) (hs : Bottom q s) :
    match L.writeReq m with
    | none => ∃ σ, run L (bodyCode request b) ⟨[s], m, h⟩ = .returned true σ
    | some body => ∃ s', run L (bodyCode request b) ⟨[s], m, h⟩ = .next ⟨[s'], m, { h with body := some body }⟩ := by
  unfold bodyCode
  rw [run, Code.exec, exec_define1 (v := .msg) (by rw [Expr.eval, find_here hs.request]), Code.exec]
  generalize hs1 : s.set (chars% "toRet") .msg = s1
  have q1 : s1 (chars% "req") = some .msg := by rw [← hs1]; exact (set_ne _ _ (by decide)).trans hs.req
  have t1 : s1 (chars% "toRet") = some .msg := by rw [← hs1]; exact set_same ..
  simp only [Out.then]
  rw [run_append, copies_exec (fun p hp => ⟨_, ht.field p (List.mem_filter.mp hp).1⟩) q1 t1]
  simp only [Out.then]
  rw [run, exec_define1 (v := .marshaler) rfl]
  generalize hs2 : s1.set (chars% "marshaler") .marshaler = s2
  have q2 : s2 (chars% "req") = some .msg := by rw [← hs2]; exact (set_ne _ _ (by decide)).trans q1
  have m2 : s2 (chars% "marshaler") = some .marshaler := by rw [← hs2]; exact set_same ..
  have hmar : (Expr.call1 (chars% "marshaler.Marshal") (.id (chars% "req"))).evals L ⟨[s2], m, h⟩ 2 = .ok (match L.writeReq m with
      | some d => [.bytes d, .err false]
      | none => [.junk, .err true]) := by
    unfold Expr.evals
    rw [if_neg (by decide)]
    simp only
    rw [eval_id (find_here q2)]
    simp only
    rw [if_neg (by decide), if_neg (by decide), if_pos trivial, find_here m2]
    simp only
    cases L.writeReq m <;> rfl
  cases hwr : L.writeReq m with
  | none =>
    rw [hwr] at hmar
    rw [exec_define2 hmar, exec_failed (find_here (set_same ..)), exec_ret (eval_call3 (find_push.trans (find_here (set_same ..))) _ _)]
    exact ⟨_, rfl⟩
  | some d =>
    rw [hwr] at hmar
    rw [exec_define2 hmar, exec_passed (find_here (set_same ..))]
    have hd : (Expr.call1 (chars% "ioutil.NopCloser") (.call1 (chars% "bytes.NewBuffer") (.id (chars% "data")))).eval L
        ⟨[(s2.set (chars% "data") (.bytes d)).set (chars% "err") (.err false)], m, h⟩ = .ok (.bytes d) := by
      have h1 : (Expr.call1 (chars% "bytes.NewBuffer") (.id (chars% "data"))).eval L
          ⟨[(s2.set (chars% "data") (.bytes d)).set (chars% "err") (.err false)], m, h⟩ = .ok (.bytes d) := by
        rw [Expr.eval, eval_id (find_here ((set_ne _ _ (by decide)).trans (set_same ..)))]
        rfl
      rw [Expr.eval, h1]
      rfl
    rw [exec_set hd (σ' := ⟨_, m, { h with body := some d }⟩) rfl, Code.exec]
    exact ⟨_, rfl⟩

end Baron.Encoders
