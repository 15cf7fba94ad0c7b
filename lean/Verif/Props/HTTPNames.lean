import Verif.Proofs.HTTPLabels
import Verif.Proofs.HTTPPaths

/-!
# C21–C24: path parameters and binding labels
-/

namespace Baron.HTTP

/-! ## C21 -/

/-- **C21.** For every URL and template: extraction fails exactly when the segment counts (trailing slashes ignored)
differ, with the error telling the counts; otherwise it succeeds, never indexing out of range, and the value found under
a name is the URL's segment at the position of the (last) braced template segment with that name. -/
theorem C21_path_params (url tmpl : Str) :
    (segCount url ≠ segCount tmpl →
      pathParams url tmpl = .error (.count (segCount tmpl) (segCount url))) ∧
    (segCount url = segCount tmpl → ∃ m, pathParams url tmpl = .ok m ∧
      ∀ k v, look m k = some v ↔ ∃ i p, SegAt tmpl i p ∧ Braced p ∧ removeBraces p = k ∧
        (∀ j q, SegAt tmpl j q → Braced q → removeBraces q = k → j ≤ i) ∧ SegAt url i v) := by
  constructor
  · intro h
    rw [pathParams]
    simp only [← segCount_eq]
    rw [if_pos (Ne.symm h)]
  · intro h
    obtain ⟨m, hm, hl⟩ := pathParams_ok url tmpl h
    refine ⟨m, hm, ?_⟩
    intro k v
    rw [hl, Option.bind_eq_some_iff]
    simp only [buildParamMap, buildGo_look, segAt_iff, ← hasBrace_iff]
    constructor
    · rintro ⟨i, ⟨j, p, hi, hp, hb, hk, hmax⟩ | ⟨-, h0⟩, hv⟩
      · refine ⟨j, p, hp, hb, hk, hmax, ?_⟩
        rw [hi] at hv; simpa using hv
      · simp [look] at h0
    · rintro ⟨i, p, hp, hb, hk, hmax, hv⟩
      exact ⟨i, .inl ⟨i, p, by omega, hp, hb, hk, hmax⟩, hv⟩

/-- **C21**, the panic-freedom clause on its own: no URL and template make extraction index out of range. -/
theorem C21_never_panics (url tmpl : Str) : pathParams url tmpl ≠ .error .panic := by
  obtain ⟨h1, h2⟩ := C21_path_params url tmpl
  by_cases h : segCount url = segCount tmpl
  · obtain ⟨m, hm, -⟩ := h2 h
    rw [hm]; simp
  · rw [h1 h]; simp

/-- Every braced template segment does get a value. -/
theorem C21_every_parameter (url tmpl : Str) (h : segCount url = segCount tmpl) (i : Nat) (p : Str)
    (hp : SegAt tmpl i p) (hb : Braced p) :
    ∃ m v, pathParams url tmpl = .ok m ∧ look m (removeBraces p) = some v := by
  obtain ⟨m, hm, hl⟩ := pathParams_ok url tmpl h
  rw [segAt_iff] at hp
  -- the latest position of the name
  have hlook : ∃ i', look (buildParamMap tmpl) (removeBraces p) = some i' := by
    cases hc : look (buildParamMap tmpl) (removeBraces p) with
    | some i' => exact ⟨i', rfl⟩
    | none =>
      exfalso
      -- the largest index at or above i with that name
      have key : ∀ d, ∀ i, i + d = (split '/' tmpl).length → ∀ p, (split '/' tmpl)[i]? = some p → hasBrace p = true →
          look (buildParamMap tmpl) (removeBraces p) = none → False := by
        intro d
        induction d using Nat.strongRecOn with
        | _ d ih =>
          intro i hi p hp hb hn
          by_cases hmax : ∀ (j : Nat) (q : Str), (split '/' tmpl)[j]? = some q → hasBrace q = true →
              removeBraces q = removeBraces p → j ≤ i
          · have := (buildGo_look (split '/' tmpl) 0 [] (removeBraces p) i).2
              (.inl ⟨i, p, by omega, hp, hb, rfl, hmax⟩)
            rw [buildParamMap] at hn
            rw [hn] at this; cases this
          · simp only [Classical.not_forall] at hmax
            obtain ⟨j, q, hq, hqb, hqk, hji⟩ := hmax
            have hj := (List.getElem?_eq_some_iff.1 hq).1
            exact ih ((split '/' tmpl).length - j) (by omega) j (by omega) q hq hqb (by rw [hqk]; exact hn)
      have hi := (List.getElem?_eq_some_iff.1 hp).1
      exact key ((split '/' tmpl).length - i) i (by omega) p hp ((hasBrace_iff p).2 hb) hc
  obtain ⟨i', hi'⟩ := hlook
  have hi'2 := hi'
  rw [buildParamMap, buildGo_look] at hi'
  rcases hi' with ⟨j, q, hj, hq, hqb, -⟩ | ⟨-, h0⟩
  · have h1 := nonempty_seg_lt tmpl q j hq (hasBrace_ne_nil hqb)
    rw [← segCount_eq, ← h, segCount_eq] at h1
    have h2 := trim_length_le url
    have h3 : i' < (split '/' url).length := by omega
    refine ⟨m, (split '/' url)[i'], hm, ?_⟩
    rw [hl, hi'2]; simp [List.getElem?_eq_getElem h3]
  · simp [look] at h0

example : segCount "/v1/5/x/".toList = segCount "/v1/{id}/x".toList ∧
    pathParams "/v1/5/x/".toList "/v1/{id}/x".toList = .ok [("id".toList, "5".toList)] := by decide +kernel

example : pathParams "/v1/5".toList "/v1/{id}/x".toList = .error (.count 4 3) := by decide +kernel

/-! ## C22 -/

/-- **C22**, first half: on the path string the client assembles, `PathParams` recovers every parameter, provided no value
contains a slash and the last one is not empty. -/
theorem C22_path_params_round_trip (ps : List Piece) (hw : TemplateOK ps) (env : Str → Str)
    (hslash : ∀ n, Piece.var n ∈ ps → '/' ∉ env (Strs.goCamelCase n))
    (hlast : ∀ pre n post, ps = pre ++ Piece.var n :: post → (∀ m, Piece.var m ∉ post) → env (Strs.goCamelCase n) ≠ []) :
    ∃ m, pathParams (clientPath env (templateOf ps)) (templateOf ps) = .ok m ∧
      ∀ n, look m n = if Piece.var n ∈ ps then some (env (Strs.goCamelCase n)) else none := by
  have hcount : segCount (clientPath env (templateOf ps)) = segCount (templateOf ps) := by
    rw [segCount_core, segCount_core, split_template hw, split_client hw env hslash]
    have := coreLen_pieces env ps (fun n hn => (hw.var n hn).2.2) hlast
    simp [coreLen, this]
  obtain ⟨m, hm, hl⟩ := pathParams_ok _ _ hcount
  refine ⟨m, hm, ?_⟩
  intro n
  rw [hl, split_client hw env hslash]
  by_cases hn : Piece.var n ∈ ps
  · rw [if_pos hn]
    obtain ⟨j, hj, hjv⟩ := List.getElem_of_mem hn
    have hj' : ps[j]? = some (Piece.var n) := by rw [List.getElem?_eq_getElem hj, hjv]
    rw [(param_pos hw n (j + 1)).2 ⟨j, rfl, hj'⟩]
    simp [hj', Piece.value]
  · rw [if_neg hn]
    cases hc : look (buildParamMap (templateOf ps)) n with
    | none => rfl
    | some i =>
      obtain ⟨j, -, hj⟩ := (param_pos hw n i).1 hc
      exact absurd (List.mem_of_getElem? hj) hn

theorem client_to_handler (ps : List Piece) (hw : TemplateOK ps) (env : Str → Str)
    (hsafe : ∀ p ∈ ps, UrlSafe (p.value env) ∧ p.value env ≠ ['.'] ∧ p.value env ≠ ['.', '.'])
    (hne : ∀ p ∈ ps.dropLast, p.value env ≠ []) (hvar : ∀ n, Piece.var n ∈ ps → env (Strs.goCamelCase n) ≠ []) :
    ∃ path m, urlParsePath (clientPath env (templateOf ps)) = some path ∧ muxVars (templateOf ps) path = some m ∧
      ∀ n, look m n = if Piece.var n ∈ ps then some (env (Strs.goCamelCase n)) else none := by
  have hslash : ∀ n, Piece.var n ∈ ps → '/' ∉ env (Strs.goCamelCase n) :=
    fun n hn hc => ((hsafe _ hn).1 '/' hc).1 rfl
  have hsplit := split_client hw env hslash
  refine ⟨clientPath env (templateOf ps), _, urlParse_safe _ ?_ ?_, ?_, look_vars (fun n => env (Strs.goCamelCase n)) ps⟩
  · intro c hc
    rw [clientPath_eq hw] at hc
    rcases mem_join hc with rfl | ⟨p, hp, hcp⟩
    · decide
    · rcases List.mem_cons.1 hp with rfl | hp
      · simp at hcp
      · obtain ⟨q, hq, rfl⟩ := List.mem_map.1 hp
        exact ((hsafe q hq).1 c hcp).2
  · intro r hr
    rw [hr] at hsplit
    simp only [split, if_true, List.cons.injEq, true_and] at hsplit
    cases ps with
    | nil => exact absurd rfl hw.some
    | cons p qs =>
      simp only [List.map_cons, List.cons.injEq] at hsplit
      cases qs with
      | nil => simp at hsplit; exact absurd hsplit.2 (split_ne_nil _ _)
      | cons q qs => exact hne p (by simp) hsplit.1.symm
  · rw [muxVars, hsplit, split_template hw]
    rw [if_pos]
    · rw [muxGo]
      rw [show isParamPart ([] : Str) = false from rfl]
      simp only [Bool.false_eq_true, if_false, if_true]
      exact muxGo_pieces env ps (fun s h => (hw.lit s h).2) (fun n h => (hw.var n h).2) hvar
    · rw [List.tail_cons]
      apply cleanSegs_ok
      · intro s hs
        obtain ⟨q, hq, rfl⟩ := List.mem_map.1 hs
        exact (hsafe q hq).2
      · intro s hs
        rw [← List.map_dropLast] at hs
        obtain ⟨q, hq, rfl⟩ := List.mem_map.1 hs
        exact hne q hq

/-- **C22**, exactly, through `url.Parse` on the client and mux on the server: the handler runs and sees exactly the client's
values if and only if the values and literals are not "." or "..", are not empty (the last literal may be), and are free of
slashes, control characters and the characters `url.Parse` interprets. -/
theorem C22_client_to_handler (ps : List Piece) (hw : TemplateOK ps) (env : Str → Str) :
    (∃ path m, urlParsePath (clientPath env (templateOf ps)) = some path ∧ muxVars (templateOf ps) path = some m ∧
      ∀ n, look m n = if Piece.var n ∈ ps then some (env (Strs.goCamelCase n)) else none) ↔
    (∀ p ∈ ps, UrlSafe (p.value env) ∧ p.value env ≠ ['.'] ∧ p.value env ≠ ['.', '.']) ∧
      (∀ p ∈ ps.dropLast, p.value env ≠ []) ∧ (∀ n, Piece.var n ∈ ps → env (Strs.goCamelCase n) ≠ []) := by
  constructor
  · rintro ⟨path, m, hurl, hmux, hlook⟩
    unfold muxVars at hmux
    split at hmux
    · rename_i hclean
      rw [split_template hw] at hmux
      cases hs : split '/' path with
      | nil => exact absurd hs (split_ne_nil _ _)
      | cons s0 segs =>
        rw [hs, muxGo, show isParamPart ([] : Str) = false from rfl] at hmux
        simp only [Bool.false_eq_true, if_false] at hmux
        split at hmux
        · rename_i he
          obtain ⟨h1, h2⟩ := muxGo_values env ps segs m (fun s h => (hw.lit s h).2) (fun n h => (hw.var n h).2) hw.nodup hmux
            (fun n hn => by rw [hlook, if_pos hn])
          have hpath : path = clientPath env (templateOf ps) := by
            rw [clientPath_eq hw, ← join_split '/' path, hs, ← he, h1]
          rw [← hpath] at hurl
          obtain ⟨h3, -⟩ := urlParse_fixed hurl
          rw [hs, List.tail_cons, h1] at hclean
          obtain ⟨h4, h5⟩ := cleanSegs_only _ hclean
          refine ⟨fun p hp => ⟨?_, h4 _ (List.mem_map.2 ⟨p, hp, rfl⟩)⟩, ?_, h2⟩
          · intro c hc
            have hmem : p.value env ∈ split '/' path := by
              rw [hs, h1]; exact List.mem_cons_of_mem _ (List.mem_map.2 ⟨p, hp, rfl⟩)
            refine ⟨?_, h3 c ?_⟩
            · rintro rfl
              exact split_mem _ _ _ hmem hc
            · rw [← join_split '/' path]
              exact mem_join_of hmem hc
          · intro p hp
            exact h5 _ (by rw [← List.map_dropLast]; exact List.mem_map.2 ⟨p, hp, rfl⟩)
        · cases hmux
    · cases hmux
  · rintro ⟨h1, h2, h3⟩
    exact client_to_handler ps hw env h1 h2 h3

/-- **C22** Values that are affected: values without a slash
are changed (`%41` arrives as `A`, `a?b` as `a`), refused (`100%`), or never reach the handler (`..`). -/
theorem C22_changed_values_witness :
    let ps := [Piece.lit "v1".toList, Piece.var "id".toList]
    let through := fun v : Str => (urlParsePath (clientPath (fun _ => v) (templateOf ps))).map
      fun path => (muxVars (templateOf ps) path).map fun m => look m "id".toList
    TemplateOK ps ∧
    through "x".toList = some (some (some "x".toList)) ∧
    through "%41".toList = some (some (some "A".toList)) ∧
    through "a?b".toList = some (some (some "a".toList)) ∧
    through "100%".toList = none ∧
    through "..".toList = some none := by
  refine ⟨⟨?_, ?_, by decide +kernel, by simp⟩, by decide +kernel⟩
  · intro s hs
    simp at hs; subst hs
    rw [not_braced_iff]; decide +kernel
  · intro n hn
    simp at hn; subst hn
    rw [not_braced_iff]; decide +kernel

/-- A template and values meeting the hypotheses of both C22 theorems. -/
example :
    let ps := [Piece.lit "v1".toList, Piece.var "user_id".toList, Piece.var "name".toList]
    let env := fun f : Str => if f = "UserId".toList then "7".toList else "bob".toList
    TemplateOK ps ∧ (∀ p ∈ ps, UrlSafe (p.value env) ∧ p.value env ≠ ['.'] ∧ p.value env ≠ ['.', '.']) ∧
    (∀ p ∈ ps.dropLast, p.value env ≠ []) ∧ clientPath env (templateOf ps) = "/v1/7/bob".toList := by
  refine ⟨⟨?_, ?_, by decide +kernel, by simp⟩, ?_, by decide +kernel, by decide +kernel⟩
  · intro s hs
    simp at hs; subst hs
    rw [not_braced_iff]; decide +kernel
  · intro n hn
    simp only [List.mem_cons, List.not_mem_nil, or_false, Piece.var.injEq, reduceCtorEq, false_or] at hn
    rcases hn with rfl | rfl <;> (rw [not_braced_iff]; decide +kernel)
  · unfold UrlSafe; decide +kernel

/-! ## C24 -/

/-- **C24.** Every binding index is spelled as the words of its decimal digits; distinct indices have distinct
spellings, and a spelling determines the index. -/
theorem C24_english_number (n : Nat) :
    Spells (englishNumber n) n ∧ (∀ m, englishNumber m = englishNumber n → m = n) ∧
      ∀ m, Spells (englishNumber n) m → m = n :=
  ⟨english_spells n, fun _ h => english_inj h, fun _ h => spells_unique h (english_spells n)⟩

example : englishNumber 480 = "FourEightZero".toList ∧ Spells "FourEightZero".toList 480 :=
  ⟨by decide +kernel, ⟨[4, 8, 0], by decide +kernel⟩⟩

/-! ## C23 -/

theorem label_eq {n n' : Str} {i j : Nat} (h : n ++ englishNumber i = n' ++ englishNumber j) :
    (n = n' ∧ i = j) ∨ (∃ k, 1 ≤ k ∧ n' = n ++ englishNumber k ∧ 10 * k ≤ i) ∨
      (∃ k, 1 ≤ k ∧ n = n' ++ englishNumber k ∧ 10 * k ≤ j) := by
  rcases List.append_eq_append_iff.1 h with ⟨t, h1, h2⟩ | ⟨t, h1, h2⟩
  · by_cases ht : t = []
    · subst ht
      exact .inl ⟨by simpa using h1.symm, english_inj (by simpa using h2)⟩
    · obtain ⟨k, hk, hk2, hk3⟩ := english_split ht h2
      exact .inr (.inl ⟨k, hk, by rw [h1, hk2], hk3⟩)
  · by_cases ht : t = []
    · subst ht
      exact .inl ⟨by simpa using h1, english_inj (by simpa using h2.symm)⟩
    · obtain ⟨k, hk, hk2, hk3⟩ := english_split ht h2
      exact .inr (.inr ⟨k, hk, by rw [h1, hk2], hk3⟩)

theorem mem_methodLabels (m : Svcdef.ServiceMethod) (l : Str) :
    l ∈ methodLabels m ↔ ∃ i, i < m.bindings.length ∧ l = m.name ++ englishNumber i := by
  simp only [methodLabels, List.mem_map, List.mem_range]
  constructor
  · rintro ⟨i, h, rfl⟩; exact ⟨i, h, rfl⟩
  · rintro ⟨i, h, rfl⟩; exact ⟨i, h, rfl⟩

theorem methodLabels_nodup (m : Svcdef.ServiceMethod) : (methodLabels m).Nodup := by
  rw [methodLabels, List.Nodup, List.pairwise_map]
  refine List.Pairwise.imp ?_ List.nodup_range
  intro a b hab h
  exact hab (english_inj (List.append_cancel_left h))

theorem serviceLabels_eq (s : Svcdef.Service) : serviceLabels s = s.methods.flatMap methodLabels := by
  rw [serviceLabels]
  induction s.methods with
  | nil => rfl
  | cons m ms ih =>
    rw [List.filter_cons]
    cases hb : m.bindings with
    | nil => simp [methodLabels, hb, ih]
    | cons b bs => simp [ih]

theorem nil_or_concat (ds : List Nat) : ds = [] ∨ ∃ r d, ds = r ++ [d] := by
  rcases List.eq_nil_or_concat ds with h | ⟨r, d, h⟩
  · exact .inl h
  · exact .inr ⟨r, d, by rw [h, List.concat_eq_append]⟩

theorem ofDigits_concat (ds : List Nat) (d : Nat) : ofDigits (ds ++ [d]) = 10 * ofDigits ds + d := by
  simp [ofDigits, List.foldl_append]

theorem ofDigits_pos : ∀ (k : Nat) (ds : List Nat), ds.length = k → ds ≠ [] → ds.head? ≠ some 0 → 0 < ofDigits ds := by
  intro k
  induction k with
  | zero => intro ds h hn _; exact absurd (List.eq_nil_of_length_eq_zero h) hn
  | succ k ih =>
    intro ds hl hn hh
    rcases nil_or_concat ds with rfl | ⟨r, d, rfl⟩
    · exact absurd rfl hn
    · rw [ofDigits_concat]
      cases r with
      | nil =>
        simp only [List.nil_append, List.head?_cons, ne_eq, Option.some.injEq] at hh
        omega
      | cons x r =>
        have := ih (x :: r) (by simpa using hl) (by simp) (by simpa using hh)
        omega

/-- A number has one decimal representation without leading zeros. -/
theorem digits_unique : ∀ (k : Nat) (ds es : List Nat), ds.length = k → (∀ d ∈ ds, d < 10) → (∀ d ∈ es, d < 10) →
    ds.head? ≠ some 0 → es.head? ≠ some 0 → ofDigits ds = ofDigits es → ds = es := by
  intro k
  induction k with
  | zero =>
    intro ds es hl _ _ _ hh h
    rw [List.eq_nil_of_length_eq_zero hl] at h ⊢
    cases es with
    | nil => rfl
    | cons x r =>
      have := ofDigits_pos _ (x :: r) rfl (by simp) hh
      rw [← h] at this
      exact absurd this (by simp [ofDigits])
  | succ k ih =>
    intro ds es hl h1 h2 hh1 hh2 h
    rcases nil_or_concat ds with rfl | ⟨r, d, rfl⟩
    · simp at hl
    · rcases nil_or_concat es with rfl | ⟨r', d', rfl⟩
      · have := ofDigits_pos _ (r ++ [d]) rfl (by simp) hh1
        rw [h] at this
        exact absurd this (by simp [ofDigits])
      · rw [ofDigits_concat, ofDigits_concat] at h
        have hd := h1 d (by simp)
        have hd' := h2 d' (by simp)
        have e1 : d = d' := by omega
        have e2 : ofDigits r = ofDigits r' := by omega
        have hr : ∀ (r : List Nat) (d : Nat), (r ++ [d]).head? ≠ some 0 → r.head? ≠ some 0 := by
          intro r d h
          cases r with
          | nil => simp
          | cons x r => simpa using h
        rw [ih r r' (by simpa using hl) (fun x hx => h1 x (by simp [hx])) (fun x hx => h2 x (by simp [hx]))
          (hr r d hh1) (hr r' d' hh2) e2, e1]

/-- A number has one spelling. -/
theorem spelling_unique {w w' : Str} {n : Nat} (h : Spells w n) (h' : Spells w' n) : w = w' := by
  obtain ⟨ds, rfl, k1, k2, k3, k4⟩ := h
  obtain ⟨es, rfl, l1, l2, l3, l4⟩ := h'
  have zero : ∀ fs : List Nat, fs.head? = some 0 → fs = [0] → ofDigits fs = 0 := by rintro _ _ rfl; rfl
  by_cases a : ds.head? = some 0
  · by_cases b : es.head? = some 0
    · rw [k4 a, l4 b]
    · have := ofDigits_pos _ es rfl l3 b
      have := zero ds a (k4 a)
      omega
  · by_cases b : es.head? = some 0
    · have := ofDigits_pos _ ds rfl k3 a
      have := zero es b (l4 b)
      omega
    · rw [digits_unique _ ds es rfl k1 l1 a b (by rw [k2, l2])]

/-- **C23**, what the labels are: for each method and each index of its bindings, counted from zero, the method name
followed by the spelling of the index. -/
theorem C23_labels (s : Svcdef.Service) (l : Str) :
    l ∈ serviceLabels s ↔ ∃ m ∈ s.methods, ∃ i, i < m.bindings.length ∧ ∃ w, Spells w i ∧ l = m.name ++ w := by
  rw [serviceLabels_eq, List.mem_flatMap]
  constructor
  · rintro ⟨m, hm, hl⟩
    obtain ⟨i, hi, rfl⟩ := (mem_methodLabels m l).1 hl
    exact ⟨m, hm, i, hi, _, english_spells i, rfl⟩
  · rintro ⟨m, hm, i, hi, w, hw, rfl⟩
    refine ⟨m, hm, (mem_methodLabels m _).2 ⟨i, hi, ?_⟩⟩
    rw [spelling_unique hw (english_spells i)]

/-- **C23**, exact form: for a service whose method names are distinct, the labels are pairwise distinct if and only if
no method name is another one's name followed by the spelling of some `k ≥ 1` while the latter has more than `10 * k`
bindings. -/
theorem C23_labels_unique_iff (s : Svcdef.Service) (hn : (s.methods.map (·.name)).Nodup) :
    (serviceLabels s).Nodup ↔
      ∀ m ∈ s.methods, ∀ m' ∈ s.methods, ∀ k, 1 ≤ k → m'.name = m.name ++ englishNumber k → m'.bindings ≠ [] →
        m.bindings.length ≤ 10 * k := by
  rw [serviceLabels_eq]
  constructor
  · intro h m hm m' hm' k hk hname hb
    apply Nat.le_of_not_lt
    intro hlt
    have h1 : m.name ++ englishNumber (10 * k) ∈ methodLabels m := (mem_methodLabels _ _).2 ⟨_, hlt, rfl⟩
    have h2 : m.name ++ englishNumber (10 * k) ∈ methodLabels m' :=
      (mem_methodLabels _ _).2 ⟨0, List.length_pos_iff.2 hb, by
        rw [hname, english_times_ten k hk, List.append_assoc]⟩
    have hne : m ≠ m' := by
      rintro rfl
      have := english_ne_nil k
      exact this (by simpa using hname)
    have key : ∀ (l : List Svcdef.ServiceMethod), m ∈ l → m' ∈ l → (l.flatMap methodLabels).Nodup → False := by
      intro l
      induction l with
      | nil => intro h; simp at h
      | cons a l ih =>
        intro ha hb' hnd
        rw [List.flatMap_cons, List.nodup_append] at hnd
        rcases List.mem_cons.1 ha with e1 | ha1
        · rcases List.mem_cons.1 hb' with e2 | hb1
          · exact hne (e1.trans e2.symm)
          · exact hnd.2.2 _ (e1 ▸ h1) _ (List.mem_flatMap.2 ⟨m', hb1, h2⟩) rfl
        · rcases List.mem_cons.1 hb' with e2 | hb1
          · exact hnd.2.2 _ (e2 ▸ h2) _ (List.mem_flatMap.2 ⟨m, ha1, h1⟩) rfl
          · exact ih ha1 hb1 hnd.2.1
    exact key _ hm hm' h
  · intro h
    have key : ∀ (l : List Svcdef.ServiceMethod), (∀ m ∈ l, m ∈ s.methods) → (l.map (·.name)).Nodup →
        (l.flatMap methodLabels).Nodup := by
      intro l
      induction l with
      | nil => intros; exact List.nodup_nil
      | cons a l ih =>
        intro hl hnd
        simp only [List.map_cons, List.nodup_cons] at hnd
        rw [List.flatMap_cons, List.nodup_append]
        refine ⟨methodLabels_nodup a, ih (fun m hm => hl m (by simp [hm])) hnd.2, ?_⟩
        intro x hx y hy hxy
        subst hxy
        obtain ⟨b, hb, hxb⟩ := List.mem_flatMap.1 hy
        obtain ⟨i, hi, hxi⟩ := (mem_methodLabels _ _).1 hx
        obtain ⟨j, hj, hxj⟩ := (mem_methodLabels _ _).1 hxb
        have ha' := hl a (by simp)
        have hb' := hl b (by simp [hb])
        rcases label_eq (hxi.symm.trans hxj) with ⟨h1, -⟩ | ⟨k, hk, hn', hki⟩ | ⟨k, hk, hn', hki⟩
        · exact hnd.1 (by rw [h1]; exact List.mem_map.2 ⟨b, hb, rfl⟩)
        · have := h a ha' b hb' k hk hn' (by rintro h0; simp [h0] at hj)
          omega
        · have := h b hb' a ha' k hk hn' (by rintro h0; simp [h0] at hi)
          omega
    exact key _ (fun _ hm => hm) hn

/-- **C23** for services without a method of more than ten bindings. -/
theorem C23_few_bindings (s : Svcdef.Service) (hn : (s.methods.map (·.name)).Nodup)
    (h : ∀ m ∈ s.methods, m.bindings.length ≤ 10) : (serviceLabels s).Nodup := by
  rw [C23_labels_unique_iff s hn]
  intro m hm m' _ k hk _ _
  have := h m hm
  omega

def c23Type : Svcdef.FieldType := ⟨"R".toList, none, [], none, none, true, false⟩
def c23Binding : Svcdef.HTTPBinding := ⟨"get".toList, "/x".toList, []⟩
def c23Method (n : String) (k : Nat) : Svcdef.ServiceMethod :=
  ⟨n.toList, c23Type, c23Type, List.replicate k c23Binding⟩

/-- The unrestricted claim is false: methods `Foo` with eleven bindings and `FooOne` with one binding share the label
`FooOneZero`, so the generated file declares `DecodeHTTPFooOneZeroRequest` twice. -/
theorem C23_collision :
    let s : Svcdef.Service := ⟨"S".toList, [c23Method "Foo" 11, c23Method "FooOne" 1]⟩
    (s.methods.map (·.name)).Nodup ∧ ¬ (serviceLabels s).Nodup := by decide +kernel

/-- A service meeting the hypotheses of C23. -/
example :
    let s : Svcdef.Service := ⟨"S".toList, [c23Method "Foo" 3, c23Method "FooOne" 2]⟩
    (s.methods.map (·.name)).Nodup ∧ (∀ m ∈ s.methods, m.bindings.length ≤ 10) ∧
      serviceLabels s = ["FooZero", "FooOne", "FooTwo", "FooOneZero", "FooOneOne"].map String.toList := by
  decide +kernel

end Baron.HTTP
