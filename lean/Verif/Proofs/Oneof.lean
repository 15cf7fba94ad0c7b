import Verif.Model.Oneof
import Verif.Proofs.HTTPCode

namespace Baron.HTTPCode

open Baron.HTTP

variable {F : Type}

theorem decodeOneof_iff (fl : Floats F) (q : List (Str × List Str)) (o : HOneof) (old v : OVal F)
    (hwf : ∀ k, look q k ≠ some []) (hnd : (o.options.map (·.queryParamName)).Nodup) :
    decodeOneof fl q o old = .ok v ↔
      (∀ p ∈ o.options, ∀ p' ∈ o.options, look q p.queryParamName ≠ none → look q p'.queryParamName ≠ none → p = p') ∧
      (∀ p ∈ o.options, ∀ s ts, look q p.queryParamName = some (s :: ts) →
        ∃ b x, baseOf p.goType = some b ∧ parseBase fl b s = some x ∧ v = some (p.name, x)) ∧
      ((∀ p ∈ o.options, look q p.queryParamName = none) → v = old) := by
  unfold decodeOneof
  have hany : (o.options.filter fun p => (look q p.queryParamName).isSome).any
      (fun p => decide (look q p.queryParamName = some [])) = false := by
    rw [List.any_eq_false]
    intro p _
    simp [hwf]
  have hnd' : (o.options.filter fun p => (look q p.queryParamName).isSome).Nodup := by
    have : o.options.Nodup := (List.pairwise_map.1 hnd).imp fun hne e => hne (by rw [e])
    exact this.sublist List.filter_sublist
  have hmem : ∀ p, p ∈ o.options.filter (fun p => (look q p.queryParamName).isSome) ↔
      p ∈ o.options ∧ look q p.queryParamName ≠ none := by
    intro p
    rw [List.mem_filter, Option.isSome_iff_ne_none]
  generalize hpres : o.options.filter (fun p => (look q p.queryParamName).isSome) = pres at hany hnd' hmem
  simp only [hpres, hany, Bool.false_eq_true, if_false]
  match pres, hnd', hmem with
  | [], _, hmem =>
    have hnone : ∀ p ∈ o.options, look q p.queryParamName = none := by
      intro p hp
      cases h : look q p.queryParamName with
      | none => rfl
      | some x => exact absurd ((hmem p).2 ⟨hp, by rw [h]; simp⟩) (by simp)
    constructor
    · intro h
      injection h with h
      refine ⟨fun p hp p' hp' h1 => absurd (hnone p hp) h1, fun p hp s ts h1 => ?_, fun _ => h.symm⟩
      rw [hnone p hp] at h1; cases h1
    · rintro ⟨-, -, h⟩
      rw [h hnone]
  | [p], _, hmem =>
    have hp := (hmem p).1 (.head _)
    have honly : ∀ p', p' ∈ o.options → look q p'.queryParamName ≠ none → p' = p := by
      intro p' h1 h2
      have := (hmem p').2 ⟨h1, h2⟩
      simpa using this
    cases hl : look q p.queryParamName with
    | none => exact absurd hl hp.2
    | some l =>
      cases l with
      | nil => exact absurd hl (hwf _)
      | cons s ts =>
        have side : (∀ p₁ ∈ o.options, ∀ p' ∈ o.options, look q p₁.queryParamName ≠ none →
            look q p'.queryParamName ≠ none → p₁ = p') := by
          intro a ha b hb h1 h2
          rw [honly a ha h1, honly b hb h2]
        cases hb : baseOf p.goType with
        | none =>
          simp only [hl, hb]
          constructor
          · intro h; cases h
          · rintro ⟨-, h, -⟩
            obtain ⟨b, x, h1, -⟩ := h p hp.1 s ts hl
            rw [hb] at h1; cases h1
        | some b =>
          cases hx : parseBase fl b s with
          | none =>
            simp only [hl, hb, hx]
            constructor
            · intro h; cases h
            · rintro ⟨-, h, -⟩
              obtain ⟨b', x, h1, h2, -⟩ := h p hp.1 s ts hl
              rw [hb] at h1; injection h1 with h1; subst h1
              rw [hx] at h2; cases h2
          | some x =>
            simp only [hl, hb, hx]
            constructor
            · intro h
              injection h with h
              refine ⟨side, ?_, fun hall => absurd (hall p hp.1) hp.2⟩
              intro p' hp' s' ts' h'
              have := honly p' hp' (by rw [h']; simp)
              subst this
              rw [hl] at h'
              injection h' with h'
              injection h' with h1 h2
              subst h1
              exact ⟨b, x, hb, hx, h.symm⟩
            · rintro ⟨-, h, -⟩
              obtain ⟨b', x', h1, h2, h3⟩ := h p hp.1 s ts hl
              rw [hb] at h1; injection h1 with h1; subst h1
              rw [hx] at h2; injection h2 with h2; subst h2
              rw [h3]
  | p :: p' :: r, hnd', hmem =>
    have hp := (hmem p).1 (.head _)
    have hp' := (hmem p').1 (.tail _ (.head _))
    have hne : p ≠ p' := by
      rw [List.nodup_cons] at hnd'
      intro e
      exact hnd'.1 (e ▸ .head _)
    constructor
    · intro h; cases h
    · rintro ⟨h, -⟩
      exact absurd (h p hp.1 p' hp'.1 hp.2 hp'.2) hne

/-- The content of one oneof after decoding. -/
theorem decodeOneofs_iff (fl : Floats F) (q : List (Str × List Str)) :
    ∀ (os : List HOneof) (m m' : Str → OVal F), (os.map fun o => Strs.goCamelCase o.name).Nodup →
    (decodeOneofs fl q os m = .ok m' ↔
      (∀ o ∈ os, o.location = "query".toList →
        decodeOneof fl q o (m (Strs.goCamelCase o.name)) = .ok (m' (Strs.goCamelCase o.name))) ∧
      (∀ n, (∀ o ∈ os, o.location = "query".toList → Strs.goCamelCase o.name ≠ n) → m' n = m n)) := by
  intro os
  induction os with
  | nil =>
    intro m m' _
    simp only [decodeOneofs]
    constructor
    · intro h; injection h with h; subst h
      exact ⟨fun _ h => (nomatch h), fun _ _ => rfl⟩
    · rintro ⟨-, h⟩
      congr 1
      exact funext fun n => (h n (fun _ h => nomatch h)).symm
  | cons o os ih =>
    intro m m' hnd
    rw [List.map_cons, List.nodup_cons] at hnd
    have hdiff : ∀ o' ∈ os, Strs.goCamelCase o'.name ≠ Strs.goCamelCase o.name :=
      fun o' h e => hnd.1 (e ▸ List.mem_map_of_mem (f := fun o : HOneof => Strs.goCamelCase o.name) h)
    rw [decodeOneofs]
    split
    · rename_i hq
      cases hd : decodeOneof fl q o (m (Strs.goCamelCase o.name)) with
      | error e =>
        simp only
        constructor
        · intro h; cases h
        · rintro ⟨h, -⟩
          have := h o (.head _) hq
          rw [hd] at this; cases this
      | ok v =>
        simp only
        rw [ih _ _ hnd.2]
        constructor
        · rintro ⟨h1, h2⟩
          have hv : m' (Strs.goCamelCase o.name) = v := by
            rw [h2 _ (fun o' h' _ => hdiff o' h'), if_pos rfl]
          refine ⟨?_, ?_⟩
          · intro o' ho' hq'
            rcases List.mem_cons.1 ho' with rfl | ho'
            · rw [hd, hv]
            · rw [← h1 o' ho' hq', if_neg (hdiff o' ho')]
          · intro n hn
            rw [h2 n (fun o' h' => hn o' (.tail _ h')), if_neg]
            exact fun e => hn o (.head _) hq e.symm
        · rintro ⟨h1, h2⟩
          have hv := h1 o (.head _) hq
          rw [hd] at hv; injection hv with hv
          refine ⟨?_, ?_⟩
          · intro o' ho' hq'
            rw [if_neg (hdiff o' ho')]
            exact h1 o' (.tail _ ho') hq'
          · intro n hn
            split
            · rename_i e; rw [e, hv]
            · rename_i e
              refine h2 n ?_
              intro o' ho' hq'
              rcases List.mem_cons.1 ho' with rfl | ho'
              · exact fun e' => e e'.symm
              · exact hn o' ho' hq'
    · rename_i hq
      rw [ih _ _ hnd.2]
      constructor
      · rintro ⟨h1, h2⟩
        refine ⟨?_, ?_⟩
        · intro o' ho' hq'
          rcases List.mem_cons.1 ho' with rfl | ho'
          · exact absurd hq' hq
          · exact h1 o' ho' hq'
        · exact fun n hn => h2 n fun o' h' => hn o' (.tail _ h')
      · rintro ⟨h1, h2⟩
        refine ⟨fun o' h' => h1 o' (.tail _ h'), fun n hn => h2 n ?_⟩
        intro o' ho' hq'
        rcases List.mem_cons.1 ho' with rfl | ho'
        · exact absurd hq' hq
        · exact hn o' ho' hq'

/-- Decoding with oneofs is decoding the fields and decoding the oneofs. -/
theorem decodeFull_iff (fl : Floats F) (jok : JSONOk) (zero : FullMsg F) (fs : List HField) (os : List HOneof)
    (r : FullRequest F) (m : FullMsg F) :
    decodeFull fl jok zero fs os r = .ok m ↔
      decodeRequest fl jok zero.fields fs r.plain = .ok m.fields ∧
      decodeOneofs fl r.query os ((r.body.bind id).getD zero).oneofs = .ok m.oneofs := by
  obtain ⟨vars, query, body⟩ := r
  match body with
  | some none => simp [decodeFull, decodeRequest, FullRequest.plain]
  | none =>
    simp only [decodeFull, decodeRequest, FullRequest.plain, Option.map_none, Option.bind_none, Option.getD_none]
    cases decodeFields fl jok ⟨vars, query, none⟩ fs zero.fields false with
    | error x => simp
    | ok p =>
      obtain ⟨m', e⟩ := p
      simp only
      cases decodeOneofs fl query os zero.oneofs with
      | error x => simp
      | ok o =>
        cases e
        · obtain ⟨a, b⟩ := m
          simp
        · simp
  | some (some b) =>
    simp only [decodeFull, decodeRequest, FullRequest.plain, Option.map_some, Option.bind_some, Option.getD_some, id]
    cases decodeFields fl jok ⟨vars, query, some (some b.fields)⟩ fs b.fields false with
    | error x => simp
    | ok p =>
      obtain ⟨m', e⟩ := p
      simp only
      cases decodeOneofs fl query os b.oneofs with
      | error x => simp
      | ok o =>
        cases e
        · obtain ⟨a, b⟩ := m
          simp
        · simp

/-! ## Encoding -/

theorem look_encodeOptions (fl : Floats F) (fzero : F → Bool) (v : OVal F) (k : Str) :
    ∀ (ps : List HOption) (q : List (Str × List Str)), (∀ p ∈ ps, p.queryParamName ≠ k) →
    look (ps.foldl (encodeOption fl fzero v) q) k = look q k := by
  intro ps
  induction ps with
  | nil => intros; rfl
  | cons p ps ih =>
    intro q h
    rw [List.foldl_cons, ih _ (fun x hx => h x (.tail _ hx))]
    unfold encodeOption
    split
    · rfl
    · split
      · rw [look_addValue, if_neg (fun e => h p (.head _) e.symm)]
      · rfl

theorem look_encodeOption_self (fl : Floats F) (fzero : F → Bool) (v : OVal F) (p : HOption) (q : List (Str × List Str))
    (hq : look q p.queryParamName = none) :
    look (encodeOption fl fzero v q p) p.queryParamName =
      match v with
      | none => none
      | some (n, x) => if n = p.name ∧ isZero fzero x = false
        then some [sprint fl ((baseOf p.goType).getD .int32) x] else none := by
  unfold encodeOption
  split
  · exact hq
  · split
    · rename_i h
      simp only [if_pos h]
      rw [look_addValue, if_pos rfl, hq]; rfl
    · rename_i h
      simp only [if_neg h]
      exact hq

theorem look_encodeOptions_mem (fl : Floats F) (fzero : F → Bool) (v : OVal F) (p : HOption) :
    ∀ (ps : List HOption) (q : List (Str × List Str)), (ps.map (·.queryParamName)).Nodup → p ∈ ps →
    look q p.queryParamName = none →
    look (ps.foldl (encodeOption fl fzero v) q) p.queryParamName =
      match v with
      | none => none
      | some (n, x) => if n = p.name ∧ isZero fzero x = false
        then some [sprint fl ((baseOf p.goType).getD .int32) x] else none := by
  intro ps
  induction ps with
  | nil => intro q _ h; cases h
  | cons g ps ih =>
    intro q hnd hp hq
    rw [List.map_cons, List.nodup_cons] at hnd
    rw [List.foldl_cons]
    rcases List.mem_cons.1 hp with rfl | hp'
    · rw [look_encodeOptions]
      · exact look_encodeOption_self fl fzero v p q hq
      · intro g hg e
        exact hnd.1 (List.mem_map.2 ⟨g, hg, e⟩)
    · apply ih _ hnd.2 hp'
      have := look_encodeOptions fl fzero v p.queryParamName [g] q
        (by
          intro x hx e
          rw [List.mem_singleton] at hx; subst hx
          exact hnd.1 (List.mem_map.2 ⟨p, hp', e.symm⟩))
      rw [← hq, ← this]; rfl

/-- The oneofs' part of `encodeFull`. -/
def addOneofs (fl : Floats F) (fzero : F → Bool) (os : List HOneof) (m : Str → OVal F) (q : List (Str × List Str)) :
    List (Str × List Str) :=
  os.foldl (fun q o => o.options.foldl (encodeOption fl fzero (m (Strs.goCamelCase o.name))) q) q

theorem look_addOneofs_other (fl : Floats F) (fzero : F → Bool) (m : Str → OVal F) (k : Str) :
    ∀ (os : List HOneof) (q : List (Str × List Str)), (∀ o ∈ os, ∀ p ∈ o.options, p.queryParamName ≠ k) →
    look (addOneofs fl fzero os m q) k = look q k := by
  intro os
  induction os with
  | nil => intros; rfl
  | cons o os ih =>
    intro q h
    rw [addOneofs, List.foldl_cons]
    have := ih (o.options.foldl (encodeOption fl fzero (m (Strs.goCamelCase o.name))) q)
      (fun x hx => h x (.tail _ hx))
    rw [addOneofs] at this
    rw [this, look_encodeOptions]
    exact h o (.head _)

theorem look_addOneofs (fl : Floats F) (fzero : F → Bool) (m : Str → OVal F) (o : HOneof) (p : HOption)
    (hp : p ∈ o.options) :
    ∀ (os : List HOneof) (q : List (Str × List Str)),
    (os.flatMap fun o => o.options.map (·.queryParamName)).Nodup → o ∈ os → look q p.queryParamName = none →
    look (addOneofs fl fzero os m q) p.queryParamName =
      match m (Strs.goCamelCase o.name) with
      | none => none
      | some (n, x) => if n = p.name ∧ isZero fzero x = false
        then some [sprint fl ((baseOf p.goType).getD .int32) x] else none := by
  intro os
  induction os with
  | nil => intro q _ h; cases h
  | cons o' os ih =>
    intro q hnd ho hq
    rw [List.flatMap_cons, List.nodup_append] at hnd
    obtain ⟨hnd1, hnd2, hnd3⟩ := hnd
    have hothers : ∀ x ∈ os, ∀ y ∈ x.options, ∀ z ∈ o'.options, z.queryParamName ≠ y.queryParamName := by
      intro x hx y hy z hz
      exact hnd3 _ (List.mem_map_of_mem hz) _ (List.mem_flatMap.2 ⟨x, hx, List.mem_map_of_mem hy⟩)
    rw [addOneofs, List.foldl_cons]
    rcases List.mem_cons.1 ho with rfl | ho'
    · have := look_addOneofs_other fl fzero m p.queryParamName os
        (o.options.foldl (encodeOption fl fzero (m (Strs.goCamelCase o.name))) q)
        (fun x hx y hy => (hothers x hx y hy p hp).symm)
      rw [addOneofs] at this
      rw [this]
      exact look_encodeOptions_mem fl fzero _ p _ q hnd1 hp hq
    · have := ih (o'.options.foldl (encodeOption fl fzero (m (Strs.goCamelCase o'.name))) q) hnd2 ho'
        (by rw [look_encodeOptions _ _ _ _ _ _ (fun z hz => hothers o ho' p hp z hz)]; exact hq)
      rw [addOneofs] at this
      exact this

/-- Decoding the fields only looks at their own query parameters. -/
theorem decodeFields_congr (fl : Floats F) (jok : JSONOk) (r r' : Request F) (hv : r.vars = r'.vars) :
    ∀ (fs : List HField) (m : Msg F) (e : Bool),
    (∀ f ∈ fs, look r.query f.queryParamName = look r'.query f.queryParamName) →
    decodeFields fl jok r fs m e = decodeFields fl jok r' fs m e := by
  intro fs
  induction fs with
  | nil => intros; rfl
  | cons f fs ih =>
    intro m e h
    have hd : decodeField fl jok r f m e = decodeField fl jok r' f m e := by
      unfold decodeField
      rw [hv, h f (.head _)]
    rw [decodeFields, decodeFields, hd]
    split
    · exact ih _ _ fun g hg => h g (.tail _ hg)
    · split
      · rfl
      · exact ih _ _ fun g hg => h g (.tail _ hg)

theorem decodeRequest_congr (fl : Floats F) (jok : JSONOk) (zero : Msg F) (fs : List HField) (r r' : Request F)
    (hv : r.vars = r'.vars) (hb : r.body = r'.body)
    (h : ∀ f ∈ fs, look r.query f.queryParamName = look r'.query f.queryParamName) :
    decodeRequest fl jok zero fs r = decodeRequest fl jok zero fs r' := by
  unfold decodeRequest
  rw [hb]
  split
  · rfl
  · rw [decodeFields_congr fl jok r r' hv fs _ _ h]

end Baron.HTTPCode
