import Verif.Spec.Transport
import Verif.Proofs.HTTPPaths

namespace Baron.Transport

open HTTP

/-- Matching the pieces of a template. -/
def fitVars : List Piece → List Str → Option (List (Str × Str))
  | [], [] => some []
  | .lit s :: ps, t :: ss => if s = t then fitVars ps ss else none
  | .var n :: ps, t :: ss => if t = [] then none else (fitVars ps ss).map ((n, t) :: ·)
  | _, _ => none

theorem muxGo_fitVars {ps : List Piece} (hl : ∀ s, Piece.lit s ∈ ps → ¬ Braced s)
    (hv : ∀ n, Piece.var n ∈ ps → ¬ Braced n ∧ n ≠ []) (segs : List Str) :
    muxGo (ps.map Piece.text) segs = fitVars ps segs := by
  induction ps generalizing segs with
  | nil => cases segs <;> simp [muxGo, fitVars]
  | cons p ps ih =>
    have ih := ih (fun s h => hl s (by simp [h])) (fun n h => hv n (by simp [h]))
    cases segs with
    | nil => cases p <;> simp [muxGo, fitVars]
    | cons s ss =>
      cases p with
      | lit t =>
        have := isParam_lit (hl t (by simp))
        simp only [List.map_cons, muxGo, fitVars, show (Piece.lit t).text = t from rfl, this, Bool.false_eq_true, if_false, ih]
      | var n =>
        have hn := hv n (by simp)
        simp only [List.map_cons, muxGo, fitVars, isParam_var hn.2, if_true, removeBraces_var hn.1, ih]

theorem fits_iff (ps : List Piece) (segs : List Str) : Fits ps segs ↔ (fitVars ps segs).isSome := by
  constructor
  · intro h
    induction h with
    | nil => rfl
    | lit s _ ih => simpa [fitVars] using ih
    | var n hs _ ih => simpa [fitVars, hs] using ih
  · intro h
    fun_induction fitVars ps segs with
    | case1 => exact .nil
    | case2 ps t ss ih => exact .lit t (ih h)
    | case3 => simp at h
    | case4 => simp at h
    | case5 n ps t ss ht ih => exact .var n ht (ih (by simpa using h))
    | case6 => simp at h

theorem look_fitVars {ps : List Piece} {segs : List Str} {vars : List (Str × Str)}
    (hnd : (ps.filterMap Piece.name?).Nodup) (h : fitVars ps segs = some vars) (n v : Str) :
    look vars n = some v ↔ Bound ps segs n v := by
  fun_induction fitVars ps segs generalizing vars with
  | case1 => cases h; simp [look, Bound]
  | case2 ps t ss ih =>
    rw [ih (by simpa [List.filterMap_cons, Piece.name?] using hnd) h]
    constructor
    · rintro ⟨i, h1, h2⟩; exact ⟨i + 1, by simpa using h1, by simpa using h2⟩
    · rintro ⟨i, h1, h2⟩
      cases i with
      | zero => simp at h1
      | succ i => exact ⟨i, by simpa using h1, by simpa using h2⟩
  | case3 => cases h
  | case4 => cases h
  | case5 k ps t ss ht ih =>
    cases hf : fitVars ps ss with
    | none => rw [hf] at h; simp at h
    | some w =>
      rw [hf] at h
      simp only [Option.map_some, Option.some.injEq] at h
      subst h
      simp only [List.filterMap_cons, Piece.name?, List.nodup_cons] at hnd
      have ih := ih hnd.2 hf
      by_cases hk : k = n
      · subst hk
        have hl : look ((k, t) :: w) k = some t := by simp [look]
        rw [hl]
        constructor
        · intro e; cases e; exact ⟨0, rfl, rfl⟩
        · rintro ⟨i, h1, h2⟩
          cases i with
          | zero => simpa using h2
          | succ i =>
            exfalso
            apply hnd.1
            rw [List.mem_filterMap]
            exact ⟨_, List.mem_of_getElem? (by simpa using h1), rfl⟩
      · have hl : look ((k, t) :: w) n = look w n := by simp [look, hk]
        rw [hl, ih]
        constructor
        · rintro ⟨i, h1, h2⟩; exact ⟨i + 1, by simpa using h1, by simpa using h2⟩
        · rintro ⟨i, h1, h2⟩
          cases i with
          | zero => simp at h1; exact absurd h1 hk
          | succ i => exact ⟨i, by simpa using h1, by simpa using h2⟩
  | case6 => cases h

theorem pathOf_eq (segs : List Str) : pathOf segs = join '/' ([] :: segs) := by
  have key : ∀ (ps : List Str) (x : Str), join '/' (x :: ps) = x ++ pathOf ps := by
    intro ps
    induction ps with
    | nil => intro x; simp [join, pathOf]
    | cons p ps ih =>
      intro x
      rw [join, ih p]
      simp [pathOf]
  rw [key]; rfl

theorem split_pathOf {segs : List Str} (h : PlainPath segs) : split '/' (pathOf segs) = [] :: segs := by
  rw [pathOf_eq segs, split_join _ _ (by simp)]
  intro t ht
  rcases List.mem_cons.1 ht with rfl | ht
  · simp
  · exact h.slash t ht

theorem split_inj_template {ps qs : List Piece} (h1 : TemplateOK ps) (h2 : TemplateOK qs)
    (h : templateOf ps = templateOf qs) : ps = qs := by
  have := split_template h1
  rw [h, split_template h2] at this
  simp only [List.cons.injEq, true_and] at this
  have a1 := h1.lit; have a2 := h2.lit; have b1 := h1.var; have b2 := h2.var
  clear h h1 h2
  induction ps generalizing qs with
  | nil => cases qs with
    | nil => rfl
    | cons => simp at this
  | cons p ps ih =>
    cases qs with
    | nil => simp at this
    | cons q qs =>
      simp only [List.map_cons, List.cons.injEq] at this
      have hps := ih this.2 (fun s h => a1 s (by simp [h])) (fun s h => a2 s (by simp [h]))
        (fun s h => b1 s (by simp [h])) (fun s h => b2 s (by simp [h]))
      subst hps
      congr 1
      have ht := this.1
      cases p with
      | lit s =>
        cases q with
        | lit t => simpa [Piece.text] using ht.symm
        | var n =>
          exfalso
          apply (a1 s (by simp)).2
          rw [show s = (Piece.var n).text from ht.symm]; left; simp [Piece.text]
      | var n =>
        cases q with
        | lit t =>
          exfalso
          apply (a2 t (by simp)).2
          rw [show t = (Piece.var n).text from ht]; left; simp [Piece.text]
        | var m => simp [Piece.text] at ht; rw [ht]

theorem muxGo_template {ps : List Piece} (h : TemplateOK ps) (segs : List Str) :
    muxGo (split '/' (templateOf ps)) ([] :: segs) = fitVars ps segs := by
  rw [split_template h, muxGo, show isParamPart ([] : Str) = false from rfl]
  simp only [Bool.false_eq_true, if_false, if_true]
  exact muxGo_fitVars (fun s hs => (h.lit s hs).2) (fun n hn => (h.var n hn).2) segs

/-- The first route with the verb whose template fits. -/
def hit (verb : Str) (segs : List Str) (r : Route) : Bool :=
  r.verb = verb && (muxGo (split '/' r.tmpl) ([] :: segs)).isSome

theorem firstMatch_eq (verb : Str) (segs : List Str) (rs : List Route) :
    firstMatch verb ([] :: segs) rs = match rs.find? (hit verb segs) with
      | none => .refused
      | some r => .handled r ((muxGo (split '/' r.tmpl) ([] :: segs)).getD []) := by
  induction rs with
  | nil => rfl
  | cons r rs ih =>
    rw [firstMatch, List.find?_cons]
    cases h : muxGo (split '/' r.tmpl) ([] :: segs) with
    | none =>
      have : hit verb segs r = false := by simp [hit, h]
      rw [this]; exact ih
    | some vars =>
      by_cases hv : r.verb = verb
      · have : hit verb segs r = true := by simp [hit, h, hv]
        rw [this]; simp [hv, h]
      · have : hit verb segs r = false := by simp [hit, hv]
        rw [this]; simp only [hv, if_false]; exact ih

theorem serve_plain (s : Svcdef.Service) (verb : Str) {segs : List Str} (h : PlainPath segs) :
    serve s verb (pathOf segs) = match (routes s).find? (hit verb segs) with
      | none => .refused
      | some r => .handled r ((muxGo (split '/' r.tmpl) ([] :: segs)).getD []) := by
  rw [serve, split_pathOf h, List.tail_cons, cleanSegs_ok _ h.dots h.empty, if_pos rfl, firstMatch_eq]

theorem routes_eq (s : Svcdef.Service) : routes s = s.methods.flatMap methodRoutes := by
  rw [routes]
  induction s.methods with
  | nil => rfl
  | cons m ms ih =>
    rw [List.filter_cons]
    by_cases hb : m.bindings = []
    · simp only [hb, List.isEmpty_nil, Bool.not_true, Bool.false_eq_true, if_false, List.flatMap_cons, ih]
      simp [methodRoutes, hb]
    · have : (!m.bindings.isEmpty) = true := by simpa using hb
      rw [if_pos this, List.flatMap_cons, List.flatMap_cons, ih]

theorem takes_iff {b : Svcdef.HTTPBinding} {n l : Str} {verb : Str} {segs : List Str}
    (hb : ∃ ps, b.path = templateOf ps ∧ TemplateOK ps) :
    hit verb segs ⟨toUpper b.verb, b.path, n, l⟩ = true ↔ Takes b verb segs := by
  obtain ⟨ps, hp, ho⟩ := hb
  simp only [hit, Takes, Bool.and_eq_true, decide_eq_true_eq]
  apply and_congr Iff.rfl
  rw [hp, muxGo_template ho, ← fits_iff]
  constructor
  · intro h; exact ⟨ps, rfl, ho, h⟩
  · rintro ⟨qs, hq, ho', h⟩
    rw [split_inj_template ho ho' hq]; exact h

theorem find_none (s : Svcdef.Service) (hw : Wellformed s) (verb : Str) (segs : List Str) :
    (routes s).find? (hit verb segs) = none ↔ ∀ m ∈ s.methods, ∀ b ∈ m.bindings, ¬ Takes b verb segs := by
  rw [routes_eq, List.find?_eq_none]
  constructor
  · intro h m hm b hb ht
    obtain ⟨i, hi, he⟩ := List.mem_iff_getElem.1 hb
    refine h ⟨toUpper b.verb, b.path, m.name, m.name ++ englishNumber i⟩ ?_ ((takes_iff (hw m hm b hb)).2 ht)
    rw [List.mem_flatMap]
    refine ⟨m, hm, ?_⟩
    rw [methodRoutes, List.mem_map]
    exact ⟨(b, i), by rw [List.mem_zipIdx_iff_getElem?]; simp [List.getElem?_eq_getElem hi, he], rfl⟩
  · intro h r hr hh
    obtain ⟨m, hm, hr⟩ := List.mem_flatMap.1 hr
    rw [methodRoutes, List.mem_map] at hr
    obtain ⟨⟨b, i⟩, hb, rfl⟩ := hr
    rw [List.mem_zipIdx_iff_getElem?] at hb
    have hb := List.mem_of_getElem? hb
    exact h m hm b hb ((takes_iff (hw m hm b hb)).1 hh)

theorem methodRoutes_get (m : Svcdef.ServiceMethod) (i : Nat) :
    (methodRoutes m)[i]? = m.bindings[i]?.map fun b => ⟨toUpper b.verb, b.path, m.name, m.name ++ englishNumber i⟩ := by
  simp [methodRoutes, List.getElem?_zipIdx]
  cases m.bindings[i]? <;> simp

theorem find_some (s : Svcdef.Service) (hw : Wellformed s) (verb : Str) (segs : List Str) (r : Route) :
    (routes s).find? (hit verb segs) = some r ↔ ∃ m k b, FirstWith s (Takes · verb segs) m k b ∧
      r = ⟨toUpper b.verb, b.path, m.name, m.name ++ englishNumber k⟩ := by
  rw [routes_eq]
  unfold Wellformed at hw
  unfold FirstWith
  generalize s.methods = ms at hw
  induction ms with
  | nil =>
    simp only [List.flatMap_nil, List.find?_nil]
    constructor
    · intro h; cases h
    · rintro ⟨m, k, b, ⟨-, ms₁, ms₂, -, -, h, -⟩, -⟩; simp at h
  | cons m ms ih =>
    have ih := ih (fun m' h => hw m' (by simp [h]))
    have hwm := hw m (by simp)
    rw [List.flatMap_cons, List.find?_append]
    have hmem : ∀ (i : Nat) (b : Svcdef.HTTPBinding), m.bindings[i]? = some b →
        (hit verb segs ⟨toUpper b.verb, b.path, m.name, m.name ++ englishNumber i⟩ = true ↔ Takes b verb segs) :=
      fun i b hb => takes_iff (hwm b (List.mem_of_getElem? hb))
    cases hf : (methodRoutes m).find? (hit verb segs) with
    | some r' =>
      have h2 := List.find?_eq_some_iff_getElem.1 hf
      obtain ⟨hh, i, hi, hr', hbefore⟩ := h2
      have hg := methodRoutes_get m i
      rw [List.getElem?_eq_getElem hi, hr'] at hg
      cases hb : m.bindings[i]? with
      | none => rw [hb] at hg; cases hg
      | some b =>
        rw [hb] at hg
        simp only [Option.map_some, Option.some.injEq] at hg
        subst hg
        have hilt : i < m.bindings.length := by
          rw [List.getElem?_eq_some_iff] at hb; exact hb.1
        have hpre : ∀ b' ∈ m.bindings.take i, ¬ Takes b' verb segs := by
          intro b' hb' ht
          obtain ⟨j, hj, he⟩ := List.mem_iff_getElem.1 hb'
          have hji : j < i := by rw [List.length_take] at hj; omega
          have hg : m.bindings[j]? = some b' := by
            rw [List.getElem?_eq_getElem (by omega)]; rw [List.getElem_take] at he; rw [he]
          have hx := hbefore j hji
          have hgj := methodRoutes_get m j
          rw [List.getElem?_eq_getElem (by omega), hg] at hgj
          simp only [Option.map_some, Option.some.injEq] at hgj
          rw [hgj, (hmem j b' hg).2 ht] at hx
          simp at hx
        simp only [Option.some_or, Option.some.injEq]
        constructor
        · intro e
          subst e
          refine ⟨m, i, b, ⟨(hmem i b hb).1 hh, [], ms, m.bindings.take i, m.bindings.drop (i + 1), rfl, ?_, by simp; omega, by simp, hpre⟩, rfl⟩
          have : m.bindings.drop i = b :: m.bindings.drop (i + 1) := by
            rw [List.drop_eq_getElem_cons hilt]
            rw [List.getElem?_eq_getElem hilt] at hb
            simp only [Option.some.injEq] at hb
            rw [hb]
          rw [← this, List.take_append_drop]
        · rintro ⟨m', k, b', ⟨ht', ms₁, ms₂, bs₁, bs₂, hms, hbs, hk, hm1, hb1⟩, rfl⟩
          cases ms₁ with
          | cons x xs =>
            exfalso
            simp only [List.cons_append, List.cons.injEq] at hms
            exact hm1 m (by simp [hms.1]) b (List.mem_of_getElem? hb) ((hmem i b hb).1 hh)
          | nil =>
            simp only [List.nil_append, List.cons.injEq] at hms
            obtain ⟨rfl, rfl⟩ := hms
            have hki : m.bindings[k]? = some b' := by rw [hbs, ← hk]; simp
            rcases Nat.lt_trichotomy i k with hlt | heq | hgt
            · exfalso
              have : b ∈ bs₁ := by
                rw [hbs, List.getElem?_append_left (by omega)] at hb
                exact List.mem_of_getElem? hb
              exact hb1 b this ((hmem i b hb).1 hh)
            · subst heq
              rw [hki] at hb
              simp only [Option.some.injEq] at hb
              subst hb; rfl
            · exfalso
              refine hpre b' ?_ ht'
              have hkl : k < m.bindings.length := by omega
              rw [List.mem_iff_getElem]
              refine ⟨k, by simp; omega, ?_⟩
              rw [List.getElem?_eq_getElem hkl] at hki
              simpa using hki
    | none =>
      have hnone : ∀ b ∈ m.bindings, ¬ Takes b verb segs := by
        intro b hb ht
        obtain ⟨i, hi, he⟩ := List.mem_iff_getElem.1 hb
        rw [List.find?_eq_none] at hf
        have hg : m.bindings[i]? = some b := by rw [List.getElem?_eq_getElem hi, he]
        have hr := methodRoutes_get m i
        rw [hg] at hr
        exact hf _ (List.mem_of_getElem? hr) ((hmem i b hg).2 ht)
      simp only [Option.none_or]
      rw [ih]
      constructor
      · rintro ⟨m', k, b', ⟨ht', ms₁, ms₂, bs₁, bs₂, hms, hbs, hk, hm1, hb1⟩, rfl⟩
        refine ⟨m', k, b', ⟨ht', m :: ms₁, ms₂, bs₁, bs₂, by rw [hms]; rfl, hbs, hk, ?_, hb1⟩, rfl⟩
        intro x hx b hb
        rcases List.mem_cons.1 hx with rfl | hx
        · exact hnone b hb
        · exact hm1 x hx b hb
      · rintro ⟨m', k, b', ⟨ht', ms₁, ms₂, bs₁, bs₂, hms, hbs, hk, hm1, hb1⟩, rfl⟩
        cases ms₁ with
        | nil =>
          exfalso
          simp only [List.nil_append, List.cons.injEq] at hms
          obtain ⟨rfl, rfl⟩ := hms
          exact hnone b' (by rw [hbs]; simp) ht'
        | cons x xs =>
          simp only [List.cons_append, List.cons.injEq] at hms
          obtain ⟨rfl, rfl⟩ := hms
          exact ⟨m', k, b', ⟨ht', xs, ms₂, bs₁, bs₂, rfl, hbs, hk, fun x hx => hm1 x (by simp [hx]), hb1⟩, rfl⟩

theorem apart_not_fits {ps qs : List Piece} (h : Apart ps qs) (segs : List Str) : ¬ (Fits ps segs ∧ Fits qs segs) := by
  rintro ⟨h1, h2⟩
  induction h1 generalizing qs with
  | nil => cases h2; exact h
  | lit s _ ih =>
    cases h2 with
    | lit => exact h.elim (fun h => h rfl) (fun h => ih h (by assumption))
    | var n hs => exact h.elim hs (fun h => ih h (by assumption))
  | var n hs _ ih =>
    cases h2 with
    | lit => exact h.elim hs (fun h => ih h (by assumption))
    | var => exact ih h (by assumption)

theorem common_of_not_apart {ps qs : List Piece} (h : ¬ Apart ps qs) :
    ∃ segs, Fits ps segs ∧ Fits qs segs := by
  fun_induction Apart ps qs with
  | case1 => exact ⟨[], .nil, .nil⟩
  | case2 => simp at h
  | case3 => simp at h
  | case4 s ps t qs ih =>
    simp only [not_or, Decidable.not_not] at h
    obtain ⟨segs, a, b⟩ := ih h.2
    exact ⟨s :: segs, .lit s a, by rw [h.1]; exact .lit t b⟩
  | case5 s ps n qs ih =>
    simp only [not_or] at h
    obtain ⟨segs, a, b⟩ := ih h.2
    exact ⟨s :: segs, .lit s a, .var n h.1 b⟩
  | case6 n ps t qs ih =>
    simp only [not_or] at h
    obtain ⟨segs, a, b⟩ := ih h.2
    exact ⟨t :: segs, .var n h.1 a, .lit t b⟩
  | case7 n ps k qs ih =>
    obtain ⟨segs, a, b⟩ := ih h
    exact ⟨['x'] :: segs, .var n (by simp) a, .var k (by simp) b⟩

end Baron.Transport
