import Verif.Proofs.EncoderParts
import Verif.Proofs.Decoders
import Verif.Spec.Encoders

/-!
# The text of the encoders
-/

namespace Baron.Encoders

open Baron.Svcdef hiding newField
open Baron.HTTP Baron.HTTPCode Baron.TT Baron.GoClient
open Baron.GoClient (Expr)
open Baron.Strs (goCamelCase)
open Baron.Decoders (isScalar scalarNames plainParams oneofParams scalar_iff contains_not if_one)
open Baron.GoLang (commas)

/-- Flatten a printed text. -/
macro "flatten" : tactic => `(tactic| simp only [Code.print, Expr.print, commas, List.append_assoc, List.append_nil, List.nil_append])

/-- What the template sees of a field. -/
structure FieldData (p : HTTPParameter) (f : TField) : Prop where
  base : f.isBase = isScalar p.field.type
  goType : f.goType = p.field.type.name
  star : f.star = p.field.type.star
  repeated : f.repeated = p.field.type.array
  location : f.location = p.location
  camel : f.camelName = goCamelCase p.field.name
  query : f.queryParamName = p.field.pbName

theorem field_data {meth : Str} {p : HTTPParameter} {f : TField} (h : newTField meth p = some f) : FieldData p f := by
  have hb : (HTTPCode.newField p).isBase = isScalar p.field.type := by
    unfold HTTPCode.newField isScalar
    simp only [scalar_iff]
  unfold newTField at h
  simp only at h
  split at h
  · cases h
  · cases h; exact ⟨hb, rfl, rfl, rfl, rfl, rfl, rfl⟩

set_option maxRecDepth 8000 in
theorem field_print {fmt : Str → Str} {p : HTTPParameter} {f : TField} (h : FieldData p f) (hn : p.location = chars% "query" → '[' ∉ p.field.type.name)
    (vars : Vars) (dot : Val) : exec fieldQT ((chars% "field", fieldVal fmt f) :: vars) dot =
      some (if p.location = chars% "query" then (fieldCode p).print else []) := by
  obtain ⟨h1, h2, h3, h4, h5, h6, h7⟩ := h
  unfold fieldQT
  refine exec_cond_nil (v := .bool (decide (f.location = chars% "query"))) rfl ?_
  rw [h5]
  by_cases hq : p.location = chars% "query"
  · rw [decide_eq_true hq, if_pos hq]
    refine Eq.trans (if_pos rfl) ?_
    unfold fieldCode
    simp only []
    rw [← h1, ← h4, ← h3, ← h6, ← h7]
    have hc : contains f.goType (chars% "[]string") = false := contains_not (h2 ▸ hn hq)
    have e1 : eval ((chars% "field", fieldVal fmt f) :: vars) dot (.call2 (chars% "and") (.var (chars% "field") [chars% "Repeated"]) (.var (chars% "field") [chars% "IsBaseType"])) =
      some (.bool (f.repeated && f.isBase)) := by
      show some (if f.repeated = true then Val.bool f.isBase else .bool f.repeated) = _
      cases f.repeated <;> rfl
    have e2 : eval ((chars% "field", fieldVal fmt f) :: vars) dot (.call2 (chars% "or") (.call1 (chars% "not") (.var (chars% "field") [chars% "IsBaseType"])) (.var (chars% "field") [chars% "Repeated"])) =
      some (.bool (!f.isBase || f.repeated)) := by
      show some (if (Val.bool (!f.isBase)).truth = true then Val.bool (!f.isBase) else .bool f.repeated) = _
      cases f.isBase <;> rfl
    have e3 : eval ((chars% "field", fieldVal fmt f) :: vars) dot (.call2 (chars% "Contains") (.var (chars% "field") [chars% "GoType"]) (.str (chars% "[]string"))) =
      some (.bool false) := by
      show some (Val.bool (contains f.goType (chars% "[]string"))) = _
      rw [hc]
    have e4 : eval ((chars% "field", fieldVal fmt f) :: vars) dot (.var (chars% "field") [chars% "StarExpr"]) = some (.bool f.star) := rfl
    cases hb : f.isBase <;> cases hr : f.repeated <;> rw [hb, hr] at e1 e2
    · refine (exec_text (exec_cond_nil e1 (Eq.trans (if_neg (by decide)) (exec_cond_nil e2 (Eq.trans (if_pos rfl) (exec_text (exec_action rfl (exec_text (exec_action rfl
        (exec_text (exec_action rfl exec_text_nil))))))))))).trans ?_
      simp only [Bool.false_eq_true, if_false, marshalled, add, failed, reqField]
      flatten
      rfl
    · refine (exec_text (exec_cond_nil e1 (Eq.trans (if_neg (by decide)) (exec_cond_nil e2 (Eq.trans (if_pos rfl) (exec_text (exec_action rfl (exec_text (exec_action rfl
        (exec_text (exec_action rfl exec_text_nil))))))))))).trans ?_
      simp only [Bool.false_eq_true, if_false, marshalled, add, failed, reqField]
      flatten
      rfl
    · cases hs : f.star
      · rw [hs] at e4
        refine (exec_text (exec_cond_nil e1 (Eq.trans (if_neg (by decide)) (exec_cond_nil e2 (Eq.trans (if_neg (by decide)) (exec_text (exec_cond_nil e4 (Eq.trans (if_neg (by decide))
          (exec_text (exec_action rfl (exec_text (exec_action rfl exec_text_nil)))))))))))).trans ?_
        simp only [Bool.false_eq_true, if_false, if_true, add, sprinted, reqField]
        flatten
        rfl
      · rw [hs] at e4
        refine (exec_text (exec_cond_nil e1 (Eq.trans (if_neg (by decide)) (exec_cond_nil e2 (Eq.trans (if_neg (by decide)) (exec_text (exec_cond_nil e4 (Eq.trans (if_pos rfl)
          (exec_text (exec_action rfl (exec_text (exec_action rfl (exec_text (exec_action rfl exec_text_nil)))))))))))))).trans ?_
        simp only [Bool.false_eq_true, if_false, if_true, add, sprinted, reqField]
        flatten
        rfl
    · refine (exec_text (exec_cond_nil e1 (Eq.trans (if_pos rfl) (exec_cond e3 (Eq.trans (if_neg (by decide)) (exec_text (exec_action rfl (exec_text (exec_action rfl exec_text_nil)))))
        exec_text_nil)))).trans ?_
      simp only [if_true, add, sprinted, reqField]
      flatten
      rfl
  · rw [decide_eq_false hq, if_neg hq]
    rfl

theorem body_print {fmt : Str → Str} {p : HTTPParameter} {f : TField} (h : FieldData p f) (vars : Vars) (dot : Val) :
    exec fieldBT ((chars% "field", fieldVal fmt f) :: vars) dot = some (if p.location = chars% "body" then (copyCode p).print else []) := by
  obtain ⟨h1, h2, h3, h4, h5, h6, h7⟩ := h
  unfold fieldBT
  refine exec_cond_nil (v := .bool (decide (f.location = chars% "body"))) rfl ?_
  rw [h5]
  by_cases hq : p.location = chars% "body"
  · rw [decide_eq_true hq, if_pos hq]
    refine Eq.trans (if_pos rfl) ?_
    unfold copyCode reqField
    rw [← h6]
    refine (exec_text (exec_text (exec_action rfl (exec_text (exec_action rfl exec_text_nil))))).trans ?_
    flatten
    rfl
  · rw [decide_eq_false hq, if_neg hq]
    rfl

/-- What the template sees of an option. -/
structure OptData (o : OneofField) (f : TField) : Prop where
  base : f.isBase = true
  repeated : f.repeated = false
  name : f.name = o.name
  query : f.queryParamName = o.pbName
  zero : f.zeroValue = (zeroText o.typeName).print

theorem opt_data {meth oneof : Str} {o : OneofField} {f : TField} (h : newTOption meth oneof o = some f) (ha : o.array = false) : OptData o f := by
  unfold newTOption createDecodeConvertFunc at h
  simp only [ha, Bool.false_and, Bool.not_true, Bool.or_false, Bool.false_eq_true, if_false] at h
  simp only [Option.some.injEq] at h
  subst h
  refine ⟨rfl, rfl, rfl, rfl, ?_⟩
  unfold zeroText
  simp only [getZeroValue, Bool.not_true, Bool.or_false, Bool.false_eq_true, if_false]
  have hs : ∀ b n, Decoders.nameOf b = n → ((baseOf o.typeName = some b) ↔ o.typeName = n) := fun b n hn =>
    ⟨fun h => (Decoders.baseOf_name h).trans hn, fun h => by rw [h, ← hn]; exact Decoders.baseOf_nameOf b⟩
  simp only [hs .bool (chars% "bool") rfl, hs .string (chars% "string") rfl]
  by_cases h1 : o.typeName = chars% "bool"
  · rw [if_pos h1, if_pos h1]; rfl
  · rw [if_neg h1, if_neg h1]
    by_cases h2 : o.typeName = chars% "string"
    · rw [if_pos h2, if_pos h2]; rfl
    · rw [if_neg h2, if_neg h2]; rfl

theorem option_print {o : OneofField} {f : TField} (h : OptData o f) (vars : Vars) (dot : Val) :
    exec optionQT ((chars% "option", .struct (fieldData f)) :: vars) dot = some (optionCode o).print := by
  obtain ⟨h1, h2, h3, h4, h5⟩ := h
  unfold optionQT optionCode
  have e : eval ((chars% "option", Val.struct (fieldData f)) :: vars) dot (.call2 (chars% "or") (.call1 (chars% "not") (.var (chars% "option") [chars% "IsBaseType"])) (.var (chars% "option") [chars% "Repeated"])) =
      some (.bool false) := by
    show some (if (Val.bool (!f.isBase)).truth = true then Val.bool (!f.isBase) else .bool f.repeated) = _
    rw [h1, h2]
    rfl
  refine (exec_text (exec_cond_nil e (Eq.trans (if_neg (by decide)) (exec_text (exec_action rfl (exec_text (exec_action rfl (exec_text (exec_action rfl exec_text_nil))))))))).trans ?_
  rw [h3, h4, h5]
  unfold add sprinted
  flatten
  rfl

end Baron.Encoders
