import Verif.Model.Runtime
import Verif.Proofs.HTTPNames

namespace Baron.Runtime

open Baron.HTTP (look look_cons)

/-! ## Middleware -/

theorem exclude_ok : ∀ (exs inc : List Str), exs.Nodup → (∀ x ∈ exs, x ∈ inc) →
    exclude inc exs = .ok (inc.filter (· ∉ exs)) := by
  intro exs
  induction exs with
  | nil =>
    intro inc _ _
    rw [exclude, List.filter_eq_self.2]
    simp
  | cons x r ih =>
    intro inc hnd hin
    rw [exclude, if_pos (hin x (by simp))]
    rw [ih _ (List.nodup_cons.1 hnd).2]
    · congr 1
      rw [List.filter_filter]
      congr 1
      funext y
      by_cases h : y = x <;> simp [h]
    · intro y hy
      rw [List.mem_filter]
      refine ⟨hin y (by simp [hy]), ?_⟩
      have : y ≠ x := by rintro rfl; exact (List.nodup_cons.1 hnd).1 hy
      simpa using this

theorem exclude_bad : ∀ (exs inc : List Str), ¬ (exs.Nodup ∧ ∀ x ∈ exs, x ∈ inc) →
    ∃ pre x post, exs = pre ++ x :: post ∧ (x ∉ inc ∨ x ∈ pre) ∧ (pre.Nodup ∧ ∀ y ∈ pre, y ∈ inc) ∧
      exclude inc exs = .error x := by
  intro exs
  induction exs with
  | nil => intro inc h; exact absurd ⟨List.nodup_nil, by simp⟩ h
  | cons x r ih =>
    intro inc h
    by_cases hx : x ∈ inc
    · by_cases hr : r.Nodup ∧ ∀ y ∈ r, y ∈ inc.filter (· ≠ x)
      · exfalso
        apply h
        refine ⟨List.nodup_cons.2 ⟨?_, hr.1⟩, ?_⟩
        · intro hxr
          have := (List.mem_filter.1 (hr.2 x hxr)).2
          simp at this
        · intro y hy
          rcases List.mem_cons.1 hy with rfl | hy
          · exact hx
          · exact (List.mem_filter.1 (hr.2 y hy)).1
      · obtain ⟨pre, z, post, he, hz, hpre, hex⟩ := ih _ hr
        refine ⟨x :: pre, z, post, by rw [he]; rfl, ?_, ⟨List.nodup_cons.2 ⟨?_, hpre.1⟩, ?_⟩, ?_⟩
        · rcases hz with hz | hz
          · by_cases h1 : z ∈ inc
            · right
              have : z = x := by
                apply Classical.byContradiction
                intro h2
                exact hz (List.mem_filter.2 ⟨h1, by simpa using h2⟩)
              simp [this]
            · exact .inl h1
          · exact .inr (by simp [hz])
        · intro hxp
          have := (List.mem_filter.1 (hpre.2 x hxp)).2
          simp at this
        · intro y hy
          rcases List.mem_cons.1 hy with rfl | hy
          · exact hx
          · exact (List.mem_filter.1 (hpre.2 y hy)).1
        · rw [exclude, if_pos hx, hex]
    · exact ⟨[], x, r, rfl, .inl hx, ⟨List.nodup_nil, by simp⟩, by rw [exclude, if_neg hx]⟩

theorem wrapOne_not {E : Type} (mw : Str → E → E) (inc : Str) : ∀ (methods : List Str) (e : Str → E), inc ∉ methods →
    wrapOne mw methods e inc = e := by
  intro methods
  induction methods with
  | nil => intro e _; rfl
  | cons m ms ih =>
    intro e h
    simp only [List.mem_cons, not_or] at h
    have := ih e h.2
    simp only [wrapOne, List.foldl_cons, if_neg h.1] at this ⊢
    exact this

theorem wrapOne_mem {E : Type} (mw : Str → E → E) (inc : Str) : ∀ (methods : List Str) (e : Str → E), methods.Nodup →
    inc ∈ methods → wrapOne mw methods e inc = setField e inc (mw inc (e inc)) := by
  intro methods
  induction methods with
  | nil => intro e _ h; simp at h
  | cons m ms ih =>
    intro e hnd h
    by_cases hm : inc = m
    · subst hm
      have := wrapOne_not mw inc ms (setField e inc (mw inc (e inc))) (List.nodup_cons.1 hnd).1
      simp only [wrapOne, List.foldl_cons, if_true] at this ⊢
      exact this
    · have h' : inc ∈ ms := by simpa [hm] using h
      have := ih e (List.nodup_cons.1 hnd).2 h'
      simp only [wrapOne, List.foldl_cons, if_neg hm] at this ⊢
      exact this

theorem wrap_fold {E : Type} (mw : Str → E → E) (methods : List Str) (hm : methods.Nodup) : ∀ (l : List Str)
    (e : Str → E), l.Nodup → (∀ x ∈ l, x ∈ methods) →
    l.foldl (wrapOne mw methods) e = fun n => if n ∈ l then mw n (e n) else e n := by
  intro l
  induction l with
  | nil => intro e _ _; simp
  | cons x l ih =>
    intro e hnd hin
    rw [List.foldl_cons, wrapOne_mem mw x methods e hm (hin x (by simp)),
      ih _ (List.nodup_cons.1 hnd).2 (fun y hy => hin y (by simp [hy]))]
    funext n
    by_cases h : n = x
    · subst h
      simp [(List.nodup_cons.1 hnd).1, setField]
    · simp [h, setField]

/-! ## Canonical keys -/

theorem lowerC_idem (c : Char) : lowerC (lowerC c) = lowerC c := by
  by_cases h : isAsciiUpper c = true
  · rw [Strs.lowerC_not (lowerC c) (Strs.lower_not_upper _ (Strs.lowerC_lower c h))]
  · rw [Strs.lowerC_not c (by simpa using h)]
    exact Strs.lowerC_not c (by simpa using h)

theorem toLower_idem (k : Str) : toLower (toLower k) = toLower k := by
  simp [toLower, lowerC_idem]

theorem upperC_lowerC (c : Char) : upperC (lowerC c) = upperC c := by
  by_cases h : isAsciiUpper c = true
  · rw [Strs.upper_lower c h, Strs.upperC_not c (Strs.upper_not_lower c h)]
  · rw [Strs.lowerC_not c (by simpa using h)]

theorem lowerC_upperC (c : Char) : lowerC (upperC c) = lowerC c := by
  by_cases h : isAsciiLower c = true
  · rw [Strs.lower_upper c h, Strs.lowerC_not c (Strs.lower_not_upper c h)]
  · rw [Strs.upperC_not c (by simpa using h)]

theorem lowerC_dash (c : Char) : lowerC c = '-' ↔ c = '-' := by
  constructor
  · intro h
    by_cases hu : isAsciiUpper c = true
    · have := Strs.lowerC_lower c hu
      rw [h] at this
      exact absurd this (by decide)
    · rw [Strs.lowerC_not c (by simpa using hu)] at h; exact h
  · rintro rfl; decide

theorem canonGo_lower (k : Str) : ∀ u, canonGo u (toLower k) = canonGo u k := by
  induction k with
  | nil => intro u; rfl
  | cons c r ih =>
    intro u
    simp only [toLower, List.map_cons, canonGo]
    rw [show List.map lowerC r = toLower r from rfl, ih, upperC_lowerC, lowerC_idem,
      show decide (lowerC c = '-') = decide (c = '-') from decide_eq_decide.2 (lowerC_dash c)]

theorem lower_canonGo (k : Str) : ∀ u, toLower (canonGo u k) = toLower k := by
  induction k with
  | nil => intro u; rfl
  | cons c r ih =>
    intro u
    simp only [toLower, canonGo, List.map_cons]
    rw [show List.map lowerC (canonGo (decide (c = '-')) r) = toLower (canonGo (decide (c = '-')) r) from rfl, ih]
    cases u
    · simp [lowerC_idem, toLower]
    · simp [lowerC_upperC, toLower]

/-- Canonical form of a valid key: depends only on its lower-case form. -/
theorem canonical_valid {k : Str} (h : k.all tokenChar = true) : canonical k = canonGo true k := by
  rw [canonical, if_pos h]

theorem lower_canonical (k : Str) : toLower (canonical k) = toLower k := by
  rw [canonical]; split
  · exact lower_canonGo k true
  · rfl

/-- Two valid canonical keys with the same lower-case form are equal. -/
theorem canonical_inj {k k' : Str} (h : k.all tokenChar = true) (h' : k'.all tokenChar = true)
    (hk : canonical k = k) (hk' : canonical k' = k') (he : toLower k = toLower k') : k = k' := by
  rw [← hk, ← hk', canonical_valid h, canonical_valid h', ← canonGo_lower k, ← canonGo_lower k', he]

theorem token_upperC (c : Char) (h : tokenChar c = true) : tokenChar (upperC c) = true := by
  by_cases hl : isAsciiLower c = true
  · have := Strs.upperC_upper c hl
    simp [tokenChar, isAsciiLetter, this]
  · rw [Strs.upperC_not c (by simpa using hl)]; exact h

theorem token_lowerC (c : Char) (h : tokenChar c = true) : tokenChar (lowerC c) = true := by
  by_cases hl : isAsciiUpper c = true
  · have := Strs.lowerC_lower c hl
    simp [tokenChar, isAsciiLetter, this]
  · rw [Strs.lowerC_not c (by simpa using hl)]; exact h

theorem canonGo_token (k : Str) : ∀ u, k.all tokenChar = true → (canonGo u k).all tokenChar = true := by
  induction k with
  | nil => intro u _; rfl
  | cons c r ih =>
    intro u h
    simp only [List.all_cons, Bool.and_eq_true] at h
    simp only [canonGo, List.all_cons, Bool.and_eq_true]
    refine ⟨?_, ih _ h.2⟩
    cases u
    · simpa using token_lowerC c h.1
    · simpa using token_upperC c h.1

theorem upperC_idem (c : Char) : upperC (upperC c) = upperC c := by
  rw [Strs.upperC_not _ (Strs.upperC_not_lower c)]

theorem upperC_dash (c : Char) : upperC c = '-' ↔ c = '-' := by
  constructor
  · intro h
    by_cases hu : isAsciiLower c = true
    · have := Strs.upperC_upper c hu
      rw [h] at this
      exact absurd this (by decide)
    · rw [Strs.upperC_not c (by simpa using hu)] at h; exact h
  · rintro rfl; decide

theorem canonGo_idem (k : Str) : ∀ u, canonGo u (canonGo u k) = canonGo u k := by
  induction k with
  | nil => intro u; rfl
  | cons c r ih =>
    intro u
    simp only [canonGo]
    cases u
    · simp only [Bool.false_eq_true, if_false, lowerC_idem]
      rw [show decide (lowerC c = '-') = decide (c = '-') from decide_eq_decide.2 (lowerC_dash c), ih]
    · simp only [if_true, upperC_idem]
      rw [show decide (upperC c = '-') = decide (c = '-') from decide_eq_decide.2 (upperC_dash c), ih]

theorem canonical_idem (k : Str) : canonical (canonical k) = canonical k := by
  by_cases h : k.all tokenChar = true
  · rw [canonical_valid h, canonical_valid (canonGo_token k true h), canonGo_idem]
  · rw [canonical, if_neg (by rw [canonical, if_neg h]; exact h), ]

theorem canonical_token {k : Str} (h : k.all tokenChar = true) : (canonical k).all tokenChar = true := by
  rw [canonical_valid h]; exact canonGo_token k true h

theorem canonical_lower {k : Str} (h : k.all tokenChar = true) (h' : (toLower k).all tokenChar = true) :
    canonical (toLower k) = canonical k := by
  rw [canonical_valid h, canonical_valid h', canonGo_lower]

theorem toLower_token {k : Str} (h : k.all tokenChar = true) : (toLower k).all tokenChar = true := by
  simp only [toLower, List.all_map, List.all_eq_true, Function.comp] at h ⊢
  intro c hc
  exact token_lowerC c (h c hc)

theorem canonical_head {k : Str} (h : k.all tokenChar = true) : ∀ c r, canonical k = c :: r → isAsciiLower c = false := by
  intro c r hc
  rw [canonical_valid h] at hc
  cases k with
  | nil => simp [canonGo] at hc
  | cons d k =>
    simp only [canonGo, if_true, List.cons.injEq] at hc
    rw [← hc.1]
    exact Strs.upperC_not_lower d

/-! ## Contexts -/

/-- A wire header map: valid canonical names, each once. -/
structure WireHeader (h : Header) : Prop where
  valid : ∀ k vs, (k, vs) ∈ h → k.all tokenChar = true ∧ canonical k = k
  nodup : (h.map (·.1)).Nodup

theorem look_mem {V : Type} {m : List (Str × V)} {k : Str} {v : V} (hnd : (m.map (·.1)).Nodup) (h : (k, v) ∈ m) :
    look m k = some v := by
  induction m with
  | nil => simp at h
  | cons a m ih =>
    obtain ⟨k', v'⟩ := a
    simp only [List.map_cons, List.nodup_cons] at hnd
    rw [look_cons]
    rcases List.mem_cons.1 h with h | h
    · cases h; simp
    · have : k' ≠ k := by
        rintro rfl
        exact hnd.1 (List.mem_map.2 ⟨_, h, rfl⟩)
      rw [if_neg this, ih hnd.2 h]

theorem look_none {V : Type} {m : List (Str × V)} {k : Str} (h : ∀ v, (k, v) ∉ m) : look m k = none := by
  induction m with
  | nil => rfl
  | cons a m ih =>
    obtain ⟨k', v'⟩ := a
    rw [look_cons]
    have : k' ≠ k := by rintro rfl; exact h v' (by simp)
    rw [if_neg this, ih (fun v hv => h v (by simp [hv]))]

theorem look_some_mem {V : Type} {m : List (Str × V)} {k : Str} {v : V} (h : look m k = some v) : (k, v) ∈ m := by
  induction m with
  | nil => simp [look] at h
  | cons a m ih =>
    obtain ⟨k', v'⟩ := a
    rw [look_cons] at h
    split at h
    · rename_i hk; simp at h; subst hk; subst h; simp
    · exact List.mem_cons_of_mem _ (ih h)

theorem headersLoop_look (all : Header) (key : Str) : ∀ (r : Header) (ctx : Ctx),
    (∀ k vs k' vs', (k, vs) ∈ r → (k', vs') ∈ r → (key = k ∨ key = toLower k) → (key = k' ∨ key = toLower k') → k = k') →
    (∀ k vs, (k, vs) ∈ r → (key = k ∨ key = toLower k) → look (headersLoop all r ctx) key = some (headerGet all k)) ∧
    ((∀ k vs, (k, vs) ∈ r → ¬ (key = k ∨ key = toLower k)) → look (headersLoop all r ctx) key = look ctx key) := by
  intro r
  induction r with
  | nil => intro ctx _; exact ⟨by simp, fun _ => rfl⟩
  | cons a r ih =>
    obtain ⟨k0, vs0⟩ := a
    intro ctx hco
    have ih' := ih ((toLower k0, headerGet all k0) :: (k0, headerGet all k0) :: ctx)
      (fun k vs k' vs' h h' => hco k vs k' vs' (by simp [h]) (by simp [h']))
    refine ⟨?_, ?_⟩
    · intro k vs hk hm
      rw [headersLoop]
      by_cases hex : ∃ k1 vs1, (k1, vs1) ∈ r ∧ (key = k1 ∨ key = toLower k1)
      · obtain ⟨k1, vs1, h1, hm1⟩ := hex
        rw [hco k vs k1 vs1 hk (by simp [h1]) hm hm1]
        exact ih'.1 k1 vs1 h1 hm1
      · rw [ih'.2 (fun k1 vs1 h1 hm1 => hex ⟨k1, vs1, h1, hm1⟩)]
        rcases List.mem_cons.1 hk with hk | hk
        · cases hk
          rw [look_cons, look_cons]
          rcases hm with rfl | rfl
          · split <;> simp
          · simp
        · exact absurd ⟨k, vs, hk, hm⟩ hex
    · intro hno
      rw [headersLoop, ih'.2 (fun k vs h => hno k vs (by simp [h]))]
      have := hno k0 vs0 (by simp)
      simp only [not_or] at this
      rw [look_cons, if_neg (Ne.symm this.2), look_cons, if_neg (Ne.symm this.1)]

theorem matches_unique {k k' key : Str} (h : k.all tokenChar = true) (h' : k'.all tokenChar = true)
    (hk : canonical k = k) (hk' : canonical k' = k') (hm : key = k ∨ key = toLower k)
    (hm' : key = k' ∨ key = toLower k') : k = k' := by
  apply canonical_inj h h' hk hk'
  have h1 : toLower key = toLower k := by rcases hm with h0 | h0 <;> rw [h0]; exact toLower_idem k
  have h2 : toLower key = toLower k' := by rcases hm' with h0 | h0 <;> rw [h0]; exact toLower_idem k'
  rw [← h1, h2]

theorem grpc_look (key : Str) : ∀ (r : MD) (ctx : Ctx), (∀ k, (k, some []) ∉ r) →
    (∀ k vs k' vs', (k, some vs) ∈ r → (k', some vs') ∈ r → (key = k ∨ key = canonical k) →
      (key = k' ∨ key = canonical k') → vs = vs') →
    ∃ ctx', grpcMetadataToContext r ctx = some ctx' ∧
      (∀ k v vs, (k, some (v :: vs)) ∈ r → (key = k ∨ key = canonical k) → look ctx' key = some v) ∧
      ((∀ k vs, (k, some vs) ∈ r → ¬ (key = k ∨ key = canonical k)) → look ctx' key = look ctx key) := by
  intro r
  induction r with
  | nil => intro ctx _ _; exact ⟨ctx, rfl, by simp, fun _ => rfl⟩
  | cons a r ih =>
    obtain ⟨k0, o⟩ := a
    intro ctx hne hco
    have hne' : ∀ k, (k, some []) ∉ r := fun k h => hne k (by simp [h])
    have hco' := fun k vs k' vs' (h : (k, some vs) ∈ r) (h' : (k', some vs') ∈ r) =>
      hco k vs k' vs' (by simp [h]) (by simp [h'])
    match o with
    | none =>
      obtain ⟨ctx', h1, h2, h3⟩ := ih ctx hne' hco'
      refine ⟨ctx', by rw [grpcMetadataToContext]; exact h1, ?_, ?_⟩
      · intro k v vs hk hm
        exact h2 k v vs (by simpa using hk) hm
      · intro hno
        exact h3 (fun k vs h => hno k vs (by simp [h]))
    | some [] => exact absurd (by simp) (hne k0)
    | some (v0 :: vs0) =>
      obtain ⟨ctx', h1, h2, h3⟩ := ih ((canonical k0, v0) :: (k0, v0) :: ctx) hne' hco'
      refine ⟨ctx', by rw [grpcMetadataToContext]; exact h1, ?_, ?_⟩
      · intro k v vs hk hm
        by_cases hex : ∃ k1 vs1, (k1, some vs1) ∈ r ∧ (key = k1 ∨ key = canonical k1)
        · obtain ⟨k1, vs1, hk1, hm1⟩ := hex
          have := hco k (v :: vs) k1 vs1 hk (by simp [hk1]) hm hm1
          subst this
          exact h2 k1 v vs hk1 hm1
        · rw [h3 (fun k1 vs1 h1 hm1 => hex ⟨k1, vs1, h1, hm1⟩)]
          rcases List.mem_cons.1 hk with hk | hk
          · cases hk
            rw [look_cons, look_cons]
            rcases hm with rfl | rfl
            · split <;> simp
            · simp
          · exact absurd ⟨k, _, hk, hm⟩ hex
      · intro hno
        rw [h3 (fun k vs h => hno k vs (by simp [h]))]
        have := hno k0 _ (List.mem_cons_self)
        simp only [not_or] at this
        rw [look_cons, if_neg (Ne.symm this.2), look_cons, if_neg (Ne.symm this.1)]

/-! ## Sending context values -/

theorem headerSet_wire {h : Header} (hw : WireHeader h) {k v : Str} (hk : k.all tokenChar = true) :
    WireHeader (headerSet h k v) := by
  constructor
  · intro k' vs hmem
    rcases List.mem_cons.1 hmem with he | hmem
    · cases he
      exact ⟨canonical_token hk, canonical_idem k⟩
    · exact hw.valid k' vs (List.mem_filter.1 hmem).1
  · rw [headerSet, List.map_cons, List.nodup_cons]
    refine ⟨?_, ?_⟩
    · intro hmem
      obtain ⟨e, he, hk'⟩ := List.mem_map.1 hmem
      have := (List.mem_filter.1 he).2
      simp at this
      exact this hk'
    · exact List.Nodup.sublist (List.Sublist.map _ List.filter_sublist) hw.nodup

theorem headerSet_mem {h : Header} {k v k' : Str} {vs : List Str} :
    (k', vs) ∈ headerSet h k v ↔ (k' = canonical k ∧ vs = [v]) ∨ (k' ≠ canonical k ∧ (k', vs) ∈ h) := by
  rw [headerSet, List.mem_cons, List.mem_filter, Prod.mk.injEq]
  simp only [decide_eq_true_eq, ne_eq]
  constructor
  · rintro (h | h)
    · exact .inl h
    · exact .inr ⟨h.2, h.1⟩
  · rintro (h | h)
    · exact .inl h
    · exact .inr ⟨h.2, h.1⟩

theorem ctxValuesToSend_wire (ctx : Ctx) : ∀ (ks : List Str) (h : Header), WireHeader h →
    (∀ k ∈ ks, k.all tokenChar = true) → WireHeader (ctxValuesToSend ctx ks h) := by
  intro ks
  induction ks with
  | nil => intro h hw _; exact hw
  | cons k ks ih =>
    intro h hw hk
    rw [ctxValuesToSend]
    split
    · exact ih _ (headerSet_wire hw (hk k (by simp))) (fun x hx => hk x (by simp [hx]))
    · exact ih _ hw (fun x hx => hk x (by simp [hx]))

theorem ctxValuesToSend_keep (ctx : Ctx) (k : Str) (vs : List Str) : ∀ (ks : List Str) (h : Header),
    (∀ k' ∈ ks, canonical k' ≠ k) → (k, vs) ∈ h → (k, vs) ∈ ctxValuesToSend ctx ks h := by
  intro ks
  induction ks with
  | nil => intro h _ hm; exact hm
  | cons k' ks ih =>
    intro h hne hm
    rw [ctxValuesToSend]
    split
    · exact ih _ (fun x hx => hne x (by simp [hx]))
        (headerSet_mem.2 (.inr ⟨Ne.symm (hne k' (by simp)), hm⟩))
    · exact ih _ (fun x hx => hne x (by simp [hx])) hm

theorem ctxValuesToSend_mem (ctx : Ctx) (v : Str) : ∀ (ks : List Str) (h : Header) (k : Str), k ∈ ks →
    look ctx k = some v → (ks.map canonical).Nodup → (canonical k, [v]) ∈ ctxValuesToSend ctx ks h := by
  intro ks
  induction ks with
  | nil => intro h k hk; simp at hk
  | cons k' ks ih =>
    intro h k hk hv hnd
    rw [List.map_cons, List.nodup_cons] at hnd
    rcases List.mem_cons.1 hk with he | hk
    · subst he
      rw [ctxValuesToSend, hv]
      apply ctxValuesToSend_keep
      · intro x hx he
        exact hnd.1 (List.mem_map.2 ⟨x, hx, he⟩)
      · exact headerSet_mem.2 (.inl ⟨rfl, rfl⟩)
    · rw [ctxValuesToSend]
      split
      · exact ih _ k hk hv hnd.2
      · exact ih _ k hk hv hnd.2

/-! ### gRPC metadata -/

/-- Outgoing metadata: valid lower-case names, each once, each with at least one value. -/
structure WireMD (md : Header) : Prop where
  valid : ∀ k vs, (k, vs) ∈ md → k.all tokenChar = true ∧ toLower k = k ∧ vs ≠ []
  nodup : (md.map (·.1)).Nodup

theorem mdAdd_names (md : Header) (k v : Str) :
    (mdAdd md k v).map (·.1) = if toLower k ∈ md.map (·.1) then md.map (·.1) else md.map (·.1) ++ [toLower k] := by
  rw [mdAdd]
  cases hl : look md (toLower k) with
  | some vs =>
    have : toLower k ∈ md.map (·.1) := List.mem_map.2 ⟨_, look_some_mem hl, rfl⟩
    rw [if_pos this]
    simp only [List.map_map]
    apply List.map_congr_left
    intro e _
    simp only [Function.comp]
    split <;> rfl
  | none =>
    have : toLower k ∉ md.map (·.1) := by
      intro hm
      obtain ⟨e, he, hk⟩ := List.mem_map.1 hm
      have : ∀ (m : Header), e ∈ m → look m (toLower k) ≠ none := by
        intro m
        induction m with
        | nil => simp
        | cons a m ih =>
          obtain ⟨ka, va⟩ := a
          intro h
          rw [look_cons]
          split
          · simp
          · rename_i hne
            rcases List.mem_cons.1 h with rfl | h
            · exact absurd hk hne
            · exact ih h
      exact this md he hl
    rw [if_neg this]
    simp

theorem mdAdd_wire {md : Header} (hw : WireMD md) {k v : Str} (hk : k.all tokenChar = true) : WireMD (mdAdd md k v) := by
  constructor
  · intro k' vs hmem
    rw [mdAdd] at hmem
    cases hl : look md (toLower k) with
    | some ws =>
      rw [hl] at hmem
      simp only [List.mem_map] at hmem
      obtain ⟨e, he, heq⟩ := hmem
      obtain ⟨ke, ve⟩ := e
      have := hw.valid ke ve he
      split at heq
      · cases heq; exact ⟨this.1, this.2.1, by simp⟩
      · cases heq; exact this
    | none =>
      rw [hl] at hmem
      simp only [List.mem_append, List.mem_singleton, Prod.mk.injEq] at hmem
      rcases hmem with hmem | ⟨rfl, rfl⟩
      · exact hw.valid k' vs hmem
      · exact ⟨toLower_token hk, toLower_idem k, by simp⟩
  · rw [mdAdd_names]
    split
    · exact hw.nodup
    · rename_i hn
      rw [List.nodup_append]
      refine ⟨hw.nodup, by simp, ?_⟩
      intro a ha b hb
      simp at hb; subst hb
      rintro rfl
      exact hn ha

theorem ctxValuesToMD_wire (ctx : Ctx) : ∀ (ks : List Str) (md : Header), WireMD md →
    (∀ k ∈ ks, k.all tokenChar = true) → WireMD (ctxValuesToMD ctx ks md) := by
  intro ks
  induction ks with
  | nil => intro h hw _; exact hw
  | cons k ks ih =>
    intro h hw hk
    rw [ctxValuesToMD]
    split
    · exact ih _ (mdAdd_wire hw (hk k (by simp))) (fun x hx => hk x (by simp [hx]))
    · exact ih _ hw (fun x hx => hk x (by simp [hx]))

/-- Adding keeps the first value of every key already present. -/
theorem mdAdd_first {md : Header} {k v k' v' : Str} {vs : List Str} (h : (k', v' :: vs) ∈ md) :
    ∃ ws, (k', v' :: ws) ∈ mdAdd md k v := by
  rw [mdAdd]
  cases hl : look md (toLower k) with
  | none => exact ⟨vs, by simp [h]⟩
  | some us =>
    by_cases he : k' = toLower k
    · exact ⟨vs ++ [v], List.mem_map.2 ⟨_, h, by simp [he]⟩⟩
    · exact ⟨vs, List.mem_map.2 ⟨_, h, by simp [he]⟩⟩

theorem ctxValuesToMD_first (ctx : Ctx) (k v : Str) : ∀ (ks : List Str) (md : Header) (vs : List Str),
    (k, v :: vs) ∈ md → ∃ ws, (k, v :: ws) ∈ ctxValuesToMD ctx ks md := by
  intro ks
  induction ks with
  | nil => intro md vs h; exact ⟨vs, h⟩
  | cons k' ks ih =>
    intro md vs h
    rw [ctxValuesToMD]
    split
    · obtain ⟨ws, hw⟩ := mdAdd_first (k := k') (v := ‹Str›) h
      exact ih _ ws hw
    · exact ih _ vs h

theorem ctxValuesToMD_mem (ctx : Ctx) (v : Str) : ∀ (ks : List Str) (md : Header) (k : Str), k ∈ ks →
    look ctx k = some v → (ks.map toLower).Nodup → toLower k ∉ md.map (·.1) →
    ∃ ws, (toLower k, v :: ws) ∈ ctxValuesToMD ctx ks md := by
  intro ks
  induction ks with
  | nil => intro h k hk; simp at hk
  | cons k' ks ih =>
    intro md k hk hv hnd hnew
    rw [List.map_cons, List.nodup_cons] at hnd
    rcases List.mem_cons.1 hk with he | hk
    · subst he
      rw [ctxValuesToMD, hv]
      apply ctxValuesToMD_first (vs := [])
      have hl : look md (toLower k) = none := look_none (fun w hw => hnew (List.mem_map.2 ⟨_, hw, rfl⟩))
      rw [mdAdd, hl]
      simp
    · rw [ctxValuesToMD]
      split
      · apply ih _ k hk hv hnd.2
        rw [mdAdd_names]
        have hne : toLower k ≠ toLower k' := fun he => hnd.1 (List.mem_map.2 ⟨k, hk, he⟩)
        split
        · exact hnew
        · simp only [List.mem_append, List.mem_singleton, not_or]
          exact ⟨hnew, hne⟩
      · exact ih _ k hk hv hnd.2 hnew

end Baron.Runtime
