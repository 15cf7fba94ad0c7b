import Verif.Spec.Service

namespace Baron.Service

/-! ## The method map -/

theorem mem_mapInsert (m : List Rpc) (r x : Rpc) : x ∈ mapInsert m r ↔ (x ∈ m ∧ x.name ≠ r.name) ∨ x = r := by
  simp [mapInsert]

theorem nodup_mapInsert (m : List Rpc) (r : Rpc) (h : (m.map (·.name)).Nodup) :
    ((mapInsert m r).map (·.name)).Nodup := by
  rw [mapInsert, List.map_append, List.nodup_append]
  refine ⟨(List.Sublist.map _ List.filter_sublist).nodup h, by simp, ?_⟩
  intro a ha b hb
  simp at ha hb
  obtain ⟨x, hx, rfl⟩ := ha
  rw [hb]; exact hx.2

theorem newMethodMap_aux (ms : List Rpc) : ∀ m : List Rpc, (m.map (·.name)).Nodup →
    ((ms.foldl mapInsert m).map (·.name)).Nodup ∧
    (∀ n, n ∈ (ms.foldl mapInsert m).map (·.name) ↔ n ∈ m.map (·.name) ∨ n ∈ ms.map (·.name)) ∧
    (∀ x ∈ ms.foldl mapInsert m, x ∈ m ∨ x ∈ ms) := by
  induction ms with
  | nil => intro m h; simpa using h
  | cons r ms ih =>
    intro m h
    obtain ⟨h1, h2, h3⟩ := ih _ (nodup_mapInsert m r h)
    refine ⟨h1, ?_, ?_⟩
    · intro n
      rw [List.foldl_cons, h2, List.map_cons, List.mem_cons]
      have : n ∈ (mapInsert m r).map (·.name) ↔ n ∈ m.map (·.name) ∨ n = r.name := by
        simp only [List.mem_map, mem_mapInsert]
        constructor
        · rintro ⟨x, ⟨hx, -⟩ | rfl, rfl⟩
          · exact Or.inl ⟨x, hx, rfl⟩
          · exact Or.inr rfl
        · rintro (⟨x, hx, rfl⟩ | rfl)
          · by_cases hn : x.name = r.name
            · exact ⟨r, Or.inr rfl, hn.symm⟩
            · exact ⟨x, Or.inl ⟨hx, hn⟩, rfl⟩
          · exact ⟨r, Or.inr rfl, rfl⟩
      rw [this]
      constructor
      · rintro ((h | h) | h)
        · exact Or.inl h
        · exact Or.inr (Or.inl h)
        · exact Or.inr (Or.inr h)
      · rintro (h | h | h)
        · exact Or.inl (Or.inl h)
        · exact Or.inl (Or.inr h)
        · exact Or.inr h
    · intro x hx
      rw [List.foldl_cons] at hx
      rcases h3 x hx with h | h
      · rcases (mem_mapInsert m r x).1 h with ⟨h, -⟩ | rfl
        · exact Or.inl h
        · exact Or.inr (by simp)
      · exact Or.inr (by simp [h])

theorem map_nodup (ms : List Rpc) : ((newMethodMap ms).map (·.name)).Nodup :=
  (newMethodMap_aux ms [] (by simp)).1

theorem map_names (ms : List Rpc) (n : Str) : n ∈ (newMethodMap ms).map (·.name) ↔ n ∈ ms.map (·.name) := by
  have := (newMethodMap_aux ms [] (by simp)).2.1 n
  simpa [newMethodMap] using this

theorem map_sub (ms : List Rpc) (x : Rpc) (h : x ∈ newMethodMap ms) : x ∈ ms := by
  have := (newMethodMap_aux ms [] (by simp)).2.2 x h
  simpa using this

theorem map_eq_aux (ms : List Rpc) : ∀ m : List Rpc, ((m ++ ms).map (·.name)).Nodup → ms.foldl mapInsert m = m ++ ms := by
  induction ms with
  | nil => intro m _; simp
  | cons r ms ih =>
    intro m h
    have hm : mapInsert m r = m ++ [r] := by
      rw [mapInsert, List.filter_eq_self.2]
      intro x hx
      rw [List.map_append, List.nodup_append] at h
      simp only [decide_eq_true_eq]
      exact h.2.2 x.name (List.mem_map.2 ⟨x, hx, rfl⟩) r.name (by simp)
    rw [List.foldl_cons, hm, ih]
    · simp
    · simpa using h

theorem map_eq (ms : List Rpc) (h : (ms.map (·.name)).Nodup) : newMethodMap ms = ms := by
  have := map_eq_aux ms [] (by simpa using h)
  simpa [newMethodMap] using this

theorem mapGet_name {m : List Rpc} {n : Str} {r : Rpc} (h : mapGet m n = some r) : r ∈ m ∧ r.name = n := by
  refine ⟨List.mem_of_find?_eq_some h, ?_⟩
  have := List.find?_some h
  simpa using this

theorem mapGet_none {m : List Rpc} {n : Str} : mapGet m n = none ↔ n ∉ m.map (·.name) := by
  rw [mapGet, List.find?_eq_none]
  simp

theorem mapGet_of_mem {m : List Rpc} (hnd : (m.map (·.name)).Nodup) {r : Rpc} (h : r ∈ m) : mapGet m r.name = some r := by
  induction m with
  | nil => simp at h
  | cons x m ih =>
    rw [List.map_cons, List.nodup_cons] at hnd
    rw [mapGet, List.find?_cons]
    rcases List.mem_cons.1 h with rfl | h
    · simp
    · have : x.name ≠ r.name := fun he => hnd.1 (List.mem_map.2 ⟨r, h, he.symm⟩)
      simp only [this, decide_false]
      exact ih hnd.2 h

theorem mapDelete_names (m : List Rpc) (n k : Str) :
    k ∈ (mapDelete m n).map (·.name) ↔ k ∈ m.map (·.name) ∧ k ≠ n := by
  simp only [mapDelete, List.mem_map, List.mem_filter, decide_eq_true_eq]
  constructor
  · rintro ⟨x, ⟨hx, hn⟩, rfl⟩; exact ⟨⟨x, hx, rfl⟩, hn⟩
  · rintro ⟨⟨x, hx, rfl⟩, hn⟩; exact ⟨x, ⟨hx, hn⟩, rfl⟩

theorem mapDelete_nodup {m : List Rpc} (n : Str) (h : (m.map (·.name)).Nodup) : ((mapDelete m n).map (·.name)).Nodup :=
  (List.Sublist.map _ List.filter_sublist).nodup h

theorem mapDelete_count (m : List Rpc) (n k : Str) :
    ((mapDelete m n).map (·.name)).count k = if k = n then 0 else (m.map (·.name)).count k := by
  induction m with
  | nil => simp [mapDelete]
  | cons x m ih =>
    rw [mapDelete] at *
    by_cases hx : x.name = n
    · rw [List.filter_cons_of_neg (by simp [hx]), ih, List.map_cons]
      by_cases hk : k = n
      · simp [hk]
      · simp only [if_neg hk]
        rw [List.count_cons, hx]
        simp [Ne.symm hk]
    · rw [List.filter_cons_of_pos (by simp [hx]), List.map_cons, List.count_cons, ih, List.map_cons, List.count_cons]
      by_cases hk : k = n
      · simp [hk, hx]
      · simp [hk]

/-! ## Receivers -/

theorem implements_func (svc n : Str) (f : Func) : Implements svc n (.func f) = true ↔
    (∃ r, f.recv = some (.star (.ident (svc ++ "Service".toList)) :: r)) ∧ f.name = n := by
  obtain ⟨recv, name, params, results, body⟩ := f
  unfold Implements
  split
  · rename_i s r nm h
    simp only [Decl.func.injEq, Func.mk.injEq] at h
    simp only [h.1, h.2.1, Bool.and_eq_true, decide_eq_true_eq]
    constructor
    · rintro ⟨rfl, rfl⟩; exact ⟨⟨_, rfl⟩, rfl⟩
    · rintro ⟨⟨r, hr⟩, rfl⟩
      simp at hr; exact ⟨hr.1, rfl⟩
  · rename_i h
    constructor
    · intro hc; cases hc
    · rintro ⟨⟨r, hr⟩, -⟩
      simp only at hr
      subst hr
      exact absurd rfl (h _ _ _ _ _ _)

theorem exprString_iff (svc : Str) (hdot : '.' ∉ svc) (t : Ty) (hid : ∀ s, t = .ident s → '*' ∉ s) :
    exprString t = '*' :: svc ++ "Service".toList ↔ t = .star (.ident (svc ++ "Service".toList)) := by
  have hnodot : '.' ∉ ('*' :: svc ++ "Service".toList) := by
    have : '.' ∉ "Service".toList := by decide +kernel
    simp [hdot] at this ⊢
  constructor
  · intro h
    cases t with
    | ident s =>
      simp only [exprString] at h
      exact absurd (by rw [h]; simp) (hid s rfl)
    | sel p s =>
      simp only [exprString] at h
      exact absurd (by rw [← h]; simp) hnodot
    | other x => simp [exprString] at h
    | star t =>
      cases t with
      | ident s => simp only [exprString, List.cons_append, List.cons.injEq, true_and] at h; rw [h]
      | sel p s =>
        simp only [exprString] at h
        exact absurd (by rw [← h]; simp) hnodot
      | other x => simp [exprString] at h
      | star t => simp [exprString] at h
  · rintro rfl; rfl

/-- What `isValidFunc` says, in terms of the specification. -/
theorem isValid_iff (svc : Str) (m : List Rpc) (f : Func) (hdot : '.' ∉ svc)
    (hid : ∀ s r, f.recv = some (.ident s :: r) → '*' ∉ s) (b : Bool) (h : isValidFunc svc m f = some b) :
    b = true ↔ (f.name ∈ m.map (·.name) ∧ Implements svc f.name (.func f) = true) := by
  unfold isValidFunc at h
  cases hg : mapGet m f.name with
  | none =>
    rw [hg] at h; simp at h; subst h
    have := mapGet_none.1 hg
    simp only [Bool.false_eq_true, false_iff]
    exact fun hc => this hc.1
  | some r =>
    rw [hg] at h
    have hmem : f.name ∈ m.map (·.name) := by
      have := mapGet_name hg
      exact List.mem_map.2 ⟨r, this.1, this.2⟩
    rw [implements_func]
    simp only [Option.map_eq_some_iff] at h
    obtain ⟨s, hs, rfl⟩ := h
    simp only [decide_eq_true_eq, hmem, true_and, and_true]
    cases hr : f.recv with
    | none =>
      rw [hr] at hs; simp [recvTypeToString] at hs; subst hs
      simp
    | some l =>
      cases l with
      | nil => rw [hr] at hs; simp [recvTypeToString] at hs
      | cons t l =>
        rw [hr] at hs; simp [recvTypeToString] at hs; subst hs
        rw [exprString_iff svc hdot t (fun s he => hid s l (by rw [hr, he]))]
        constructor
        · rintro rfl; exact ⟨l, rfl⟩
        · rintro ⟨r, h⟩; simp at h; exact h.1

/-! ## Updating types -/

theorem updateParams_spec {f f' : Func} {r : Rpc} (h : updateParams f r = some f') :
    f'.recv = f.recv ∧ f'.name = f.name ∧ f'.body = f.body ∧ f'.results = f.results ∧
    f'.params.map (·.names) = f.params.map (·.names) ∧ (∀ i, i ≠ 1 → f'.params[i]? = f.params[i]?) := by
  unfold updateParams at h
  split at h
  · simp at h; subst h; simp
  · split at h
    · rename_i a b rest heq
      simp at h; subst h
      refine ⟨rfl, rfl, rfl, rfl, by simp [heq], ?_⟩
      intro i hi
      rw [heq]
      match i, hi with
      | 0, _ => rfl
      | (i + 2), _ => rfl
    · cases h

theorem updateResults_spec (f : Func) (r : Rpc) :
    (updateResults f r).recv = f.recv ∧ (updateResults f r).name = f.name ∧ (updateResults f r).body = f.body ∧
    (updateResults f r).params = f.params ∧
    (updateResults f r).results.map (·.names) = f.results.map (·.names) ∧
    (∀ i, i ≠ 0 → (updateResults f r).results[i]? = f.results[i]?) := by
  unfold updateResults
  split
  · simp
  · split
    · rename_i a rest heq
      refine ⟨rfl, rfl, rfl, rfl, by simp [heq], ?_⟩
      intro i hi
      rw [heq]
      match i, hi with
      | (i + 1), _ => rfl
    · simp

theorem updatePB_idem (t : Ty) (n : Str) : updatePBFieldType (updatePBFieldType t n) n = updatePBFieldType t n := by
  match t with
  | .ident s => rfl
  | .sel p s => rfl
  | .other x => rfl
  | .star (.ident s) => rfl
  | .star (.sel p s) => rfl
  | .star (.other s) => rfl
  | .star (.star s) => rfl

theorem numFields_names (l l' : List Param) (h : l.map (·.names) = l'.map (·.names)) : numFields l = numFields l' := by
  have : ∀ l : List Param, numFields l = ((l.map (·.names)).map fun n => max 1 n.length).sum := by
    intro l; simp [numFields, Function.comp_def]
  rw [this, this, h]

theorem updateResults_idem (g : Func) (r : Rpc) : updateResults (updateResults g r) r = updateResults g r := by
  by_cases hn : numFields g.results ≠ 2
  · have : updateResults g r = g := by unfold updateResults; rw [if_pos hn]
    rw [this, this]
  · cases hr : g.results with
    | nil => rw [hr] at hn; exact absurd (by decide) hn
    | cons a rest =>
      have h1 : updateResults g r = { g with results := { a with type := updatePBFieldType a.type r.response } :: rest } := by
        unfold updateResults; rw [if_neg hn, hr]
      rw [h1]
      have h2 : ¬ numFields ({ a with type := updatePBFieldType a.type r.response } :: rest) ≠ 2 := by
        rw [numFields_names _ g.results (by simp [hr])]; exact hn
      conv => lhs; unfold updateResults
      rw [if_neg h2]
      simp only [updatePB_idem]

theorem update_idem {f f' : Func} {r : Rpc} (h : updateParams f r = some f') :
    updateParams (updateResults f' r) r = some (updateResults f' r) ∧
    updateResults (updateResults f' r) r = updateResults f' r := by
  constructor
  · have hp : ∀ g : Func, g.params = f'.params → updateParams g r = some g := by
      intro g hg
      unfold updateParams at h ⊢
      split at h
      · simp at h; subst h
        rename_i hn
        rw [hg, if_pos hn]
      · rename_i hn
        split at h
        · rename_i a b rest heq
          simp at h; subst h
          have : numFields g.params = numFields f.params := by
            rw [hg]; exact numFields_names _ _ (by simp [heq])
          rw [this, if_neg hn]
          simp only at hg
          rw [hg]
          simp only [updatePB_idem]
          obtain ⟨recv, name, params, results, body⟩ := g
          simp only at hg
          simp [hg]
        · cases h
    exact hp _ (updateResults_spec f' r).2.2.2.1
  · exact updateResults_idem f' r

theorem implements_congr {svc n : Str} {f f' : Func} (h1 : f'.recv = f.recv) (h2 : f'.name = f.name) :
    Implements svc n (.func f') = Implements svc n (.func f) := by
  rw [Bool.eq_iff_iff, implements_func, implements_func, h1, h2]

/-! ## Pruning -/

/-- One step of pruning on a declaration that is not the user's. -/
theorem prune_func {exp : Str → Bool} {svc : Str} {m : List Rpc} {f : Func} {ds kept : List Decl} {left : List Rpc}
    (hu : UserDecl exp (.func f) = false) (hdot : '.' ∉ svc) (hid : ∀ s r, f.recv = some (.ident s :: r) → '*' ∉ s)
    (h : pruneDecls exp svc m (.func f :: ds) = some (kept, left)) :
    (¬ (f.name ∈ m.map (·.name) ∧ Implements svc f.name (.func f) = true) ∧ pruneDecls exp svc m ds = some (kept, left)) ∨
    ((f.name ∈ m.map (·.name) ∧ Implements svc f.name (.func f) = true) ∧
      ∃ r f' kept', mapGet m f.name = some r ∧ updateParams f r = some f' ∧ kept = .func (updateResults f' r) :: kept' ∧
        pruneDecls exp svc (mapDelete m f.name) ds = some (kept', left)) := by
  have hu' : ¬ (f.name = ignoredFunc ∨ exp f.name = false) := by
    simp only [UserDecl, Bool.or_eq_false_iff, decide_eq_false_iff_not, Bool.not_eq_false'] at hu
    rintro (h | h)
    · exact hu.1 h
    · rw [h] at hu; exact absurd hu.2 (by simp)
  rw [pruneDecls, if_neg hu'] at h
  cases hv : isValidFunc svc m f with
  | none => rw [hv] at h; cases h
  | some b =>
    have hb := isValid_iff svc m f hdot hid b hv
    rw [hv] at h
    cases b with
    | false => left; exact ⟨fun hc => by simpa using hb.2 hc, h⟩
    | true =>
      right
      refine ⟨hb.1 rfl, ?_⟩
      simp only at h
      cases hg : mapGet m f.name with
      | none => rw [hg] at h; cases h
      | some r =>
        rw [hg] at h
        simp only at h
        cases hp : updateParams f r with
        | none => rw [hp] at h; cases h
        | some f' =>
          rw [hp] at h
          simp only [Option.map_eq_some_iff] at h
          obtain ⟨x, hx, he⟩ := h
          simp only [Prod.mk.injEq] at he
          exact ⟨r, f', x.1, rfl, hp, he.1.symm, by rw [hx, ← he.2]⟩

theorem prune_user {exp : Str → Bool} {svc : Str} {m : List Rpc} {d : Decl} {ds kept : List Decl} {left : List Rpc}
    (hu : UserDecl exp d = true) (h : pruneDecls exp svc m (d :: ds) = some (kept, left)) :
    ∃ kept', kept = d :: kept' ∧ pruneDecls exp svc m ds = some (kept', left) := by
  have key : (pruneDecls exp svc m ds).map (fun r => (d :: r.1, r.2)) = some (kept, left) := by
    cases d with
    | other t => rw [pruneDecls] at h; exact h
    | func f =>
      have hu' : f.name = ignoredFunc ∨ exp f.name = false := by
        simp only [UserDecl, Bool.or_eq_true, decide_eq_true_eq, Bool.not_eq_true'] at hu
        exact hu
      rw [pruneDecls, if_pos hu'] at h; exact h
  rw [Option.map_eq_some_iff] at key
  obtain ⟨x, hx, he⟩ := key
  simp only [Prod.mk.injEq] at he
  exact ⟨x.1, he.1.symm, by rw [hx, ← he.2]⟩

theorem idents_tail {svc : Str} {d : Decl} {ds : List Decl} (h : IdentsOK svc (d :: ds)) : IdentsOK svc ds :=
  ⟨h.1, fun f hf => h.2 f (by simp [hf])⟩

theorem sameButTypes_refl (d : Decl) : SameButTypes d d := by
  cases d with
  | other t => rfl
  | func f => exact ⟨rfl, rfl, rfl, rfl, rfl, fun _ _ => rfl, fun _ _ => rfl⟩

theorem updated_same {f f' : Func} {r : Rpc} (h : updateParams f r = some f') :
    SameButTypes (.func f) (.func (updateResults f' r)) := by
  obtain ⟨a1, a2, a3, a4, a5, a6⟩ := updateParams_spec h
  obtain ⟨b1, b2, b3, b4, b5, b6⟩ := updateResults_spec f' r
  refine ⟨b1.trans a1, b2.trans a2, b3.trans a3, by rw [b4, a5], by rw [b5, a4], ?_, ?_⟩
  · intro i hi; rw [b4, a6 i hi]
  · intro i hi; rw [b6 i hi, a4]

theorem updated_impl {svc n : Str} {f f' : Func} {r : Rpc} (h : updateParams f r = some f') :
    Implements svc n (.func (updateResults f' r)) = Implements svc n (.func f) := by
  obtain ⟨a1, a2, -⟩ := updateParams_spec h
  obtain ⟨b1, b2, -⟩ := updateResults_spec f' r
  exact implements_congr (b1.trans a1) (b2.trans a2)

theorem impl_name {svc n : Str} {f : Func} (h : Implements svc n (.func f) = true) : f.name = n :=
  ((implements_func svc n f).1 h).2

/-- The kept declarations, pointwise. -/
theorem prune_kept (exp : Str → Bool) (svc : Str) : ∀ (ds : List Decl) (m : List Rpc) (kept : List Decl) (left : List Rpc),
    IdentsOK svc ds → NoDuplicateMethods svc ds → pruneDecls exp svc m ds = some (kept, left) →
    Pointwise (fun d d' => SameButTypes d d' ∧ (UserDecl exp d = true → d' = d))
      (ds.filter (MustStay exp svc (m.map (·.name)))) kept := by
  intro ds
  induction ds with
  | nil =>
    intro m kept left _ _ h
    simp [pruneDecls] at h
    rw [h.1]; exact .nil
  | cons d ds ih =>
    intro m kept left hid hdup h
    rw [NoDuplicateMethods, List.pairwise_cons] at hdup
    cases hu : UserDecl exp d with
    | true =>
      obtain ⟨kept', rfl, h'⟩ := prune_user hu h
      rw [List.filter_cons_of_pos (by simp [MustStay, hu])]
      exact .cons ⟨sameButTypes_refl d, fun _ => rfl⟩ (ih m kept' left (idents_tail hid) hdup.2 h')
    | false =>
      cases d with
      | other t => simp [UserDecl] at hu
      | func f =>
        have hany : ∀ m : List Rpc, (m.map (·.name)).any (fun n => Implements svc n (.func f)) = true ↔
            (f.name ∈ m.map (·.name) ∧ Implements svc f.name (.func f) = true) := by
          intro m
          rw [List.any_eq_true]
          constructor
          · rintro ⟨n, hn, hi⟩
            have := impl_name hi
            subst this
            exact ⟨hn, hi⟩
          · rintro ⟨h1, h2⟩; exact ⟨_, h1, h2⟩
        rcases prune_func hu hid.1 (fun s r => hid.2 f (by simp) s r) h with ⟨hn, h'⟩ | ⟨hy, r, f', kept', hg, hp, rfl, h'⟩
        · rw [List.filter_cons_of_neg]
          · exact ih m kept left (idents_tail hid) hdup.2 h'
          · rw [MustStay, hu, Bool.false_or, hany]; exact hn
        · rw [List.filter_cons_of_pos]
          · refine .cons ⟨updated_same hp, fun hc => absurd hc (by simp [hu])⟩ ?_
            have := ih _ kept' left (idents_tail hid) hdup.2 h'
            have hfe : ds.filter (MustStay exp svc ((mapDelete m f.name).map (·.name))) =
                ds.filter (MustStay exp svc (m.map (·.name))) := by
              apply List.filter_congr
              intro d' hd'
              rw [MustStay, MustStay]
              congr 1
              rw [Bool.eq_iff_iff, List.any_eq_true, List.any_eq_true]
              constructor
              · rintro ⟨n, hn, hi⟩
                exact ⟨n, ((mapDelete_names m f.name n).1 hn).1, hi⟩
              · rintro ⟨n, hn, hi⟩
                refine ⟨n, (mapDelete_names m f.name n).2 ⟨hn, ?_⟩, hi⟩
                rintro rfl
                have := hdup.1 d' hd' f.name hy.2
                rw [this] at hi; cases hi
            rw [hfe] at this
            exact this
          · rw [MustStay, hu, Bool.false_or, hany]; exact hy

theorem count_one {l : List Str} (h : l.Nodup) {a : Str} (ha : a ∈ l) : l.count a = 1 := by
  have h1 := List.nodup_iff_count.1 h a
  have h2 := List.count_pos_iff.2 ha
  omega

/-- The methods left over are those without an implementation among the kept declarations. -/
theorem prune_count (exp : Str → Bool) (svc n : Str) (hexp : exp n = true) (hne : n ≠ "NewService".toList) :
    ∀ (ds : List Decl) (m : List Rpc) (kept : List Decl) (left : List Rpc), IdentsOK svc ds → (m.map (·.name)).Nodup →
    pruneDecls exp svc m ds = some (kept, left) →
    kept.countP (Implements svc n) + (left.map (·.name)).count n = (m.map (·.name)).count n ∧
    (∀ x ∈ left, x ∈ m) ∧ (left.map (·.name)).Nodup := by
  intro ds
  induction ds with
  | nil =>
    intro m kept left _ hm h
    simp [pruneDecls] at h
    rw [h.1, ← h.2]; exact ⟨by simp, fun x hx => hx, hm⟩
  | cons d ds ih =>
    intro m kept left hid hm h
    cases hu : UserDecl exp d with
    | true =>
      obtain ⟨kept', rfl, h'⟩ := prune_user hu h
      have hni : Implements svc n d = false := by
        cases d with
        | other t => rfl
        | func f =>
          cases hi : Implements svc n (.func f) with
          | false => rfl
          | true =>
            have := impl_name hi
            simp [UserDecl, this, hexp] at hu
            exact absurd (by simpa using hu) hne
      rw [List.countP_cons_of_neg (by simp [hni])]
      exact ih m kept' left (idents_tail hid) hm h'
    | false =>
      cases d with
      | other t => simp [UserDecl] at hu
      | func f =>
        rcases prune_func hu hid.1 (fun s r => hid.2 f (by simp) s r) h with ⟨hn, h'⟩ | ⟨hy, r, f', kept', hg, hp, rfl, h'⟩
        · exact ih m kept left (idents_tail hid) hm h'
        · obtain ⟨i1, i2, i3⟩ := ih _ kept' left (idents_tail hid) (mapDelete_nodup f.name hm) h'
          refine ⟨?_, fun x hx => (List.mem_filter.1 (i2 x hx)).1, i3⟩
          rw [List.countP_cons, updated_impl hp]
          rw [mapDelete_count] at i1
          by_cases hnf : n = f.name
          · subst hnf
            rw [if_pos rfl] at i1
            simp only [hy.2, if_true]
            have : (m.map (·.name)).count f.name = 1 := count_one hm hy.1
            omega
          · rw [if_neg hnf] at i1
            have : Implements svc n (.func f) = false := by
              cases hi : Implements svc n (.func f) with
              | false => rfl
              | true => exact absurd (impl_name hi).symm hnf
            rw [this]
            simp only [Bool.false_eq_true, if_false]
            omega

/-! ## Pruning again -/

theorem prune_user_eq {exp : Str → Bool} {svc : Str} {m : List Rpc} {d : Decl} {ds : List Decl}
    (hu : UserDecl exp d = true) :
    pruneDecls exp svc m (d :: ds) = (pruneDecls exp svc m ds).map (fun r => (d :: r.1, r.2)) := by
  cases d with
  | other t => rw [pruneDecls]
  | func f =>
    have hu' : f.name = ignoredFunc ∨ exp f.name = false := by
      simp only [UserDecl, Bool.or_eq_true, decide_eq_true_eq, Bool.not_eq_true'] at hu
      exact hu
    rw [pruneDecls, if_pos hu']

theorem isValid_of_impl {svc : Str} {m : List Rpc} {f : Func} {r : Rpc} (hg : mapGet m f.name = some r)
    (hi : Implements svc f.name (.func f) = true) : isValidFunc svc m f = some true := by
  obtain ⟨⟨l, hl⟩, -⟩ := (implements_func _ _ _).1 hi
  simp [isValidFunc, hg, hl, recvTypeToString, exprString]

theorem prune_impl_eq {exp : Str → Bool} {svc : Str} {m : List Rpc} {f f' : Func} {ds : List Decl} {r : Rpc}
    (hu : UserDecl exp (.func f) = false) (hg : mapGet m f.name = some r) (hi : Implements svc f.name (.func f) = true)
    (hp : updateParams f r = some f') :
    pruneDecls exp svc m (.func f :: ds) =
      (pruneDecls exp svc (mapDelete m f.name) ds).map fun x => (.func (updateResults f' r) :: x.1, x.2) := by
  have hu' : ¬ (f.name = ignoredFunc ∨ exp f.name = false) := by
    simp only [UserDecl, Bool.or_eq_false_iff, decide_eq_false_iff_not, Bool.not_eq_false'] at hu
    rintro (h | h)
    · exact hu.1 h
    · rw [h] at hu; exact absurd hu.2 (by simp)
  rw [pruneDecls, if_neg hu', isValid_of_impl hg hi]
  simp only [hg, hp]

theorem user_congr {exp : Str → Bool} {f g : Func} (h : g.name = f.name) :
    UserDecl exp (.func g) = UserDecl exp (.func f) := by
  simp only [UserDecl, h]

theorem prune_again (exp : Str → Bool) (svc : Str) (rest : List Decl) :
    ∀ (ds : List Decl) (m : List Rpc) (kept : List Decl) (left : List Rpc), IdentsOK svc ds →
    pruneDecls exp svc m ds = some (kept, left) →
    pruneDecls exp svc m (kept ++ rest) = (pruneDecls exp svc left rest).map fun x => (kept ++ x.1, x.2) := by
  intro ds
  induction ds with
  | nil =>
    intro m kept left _ h
    simp [pruneDecls] at h
    rw [h.1, ← h.2]; simp
  | cons d ds ih =>
    intro m kept left hid h
    cases hu : UserDecl exp d with
    | true =>
      obtain ⟨kept', rfl, h'⟩ := prune_user hu h
      rw [List.cons_append, prune_user_eq hu, ih m kept' left (idents_tail hid) h', Option.map_map]
      rfl
    | false =>
      cases d with
      | other t => simp [UserDecl] at hu
      | func f =>
        rcases prune_func hu hid.1 (fun s r => hid.2 f (by simp) s r) h with ⟨hn, h'⟩ | ⟨hy, r, f', kept', hg, hp, rfl, h'⟩
        · exact ih m kept left (idents_tail hid) h'
        · have hname : (updateResults f' r).name = f.name :=
            ((updateResults_spec f' r).2.1).trans (updateParams_spec hp).2.1
          have hidem := update_idem hp
          have hu2 : UserDecl exp (.func (updateResults f' r)) = false := by rw [user_congr hname, hu]
          have hg2 : mapGet m (updateResults f' r).name = some r := by rw [hname, hg]
          have hi2 : Implements svc (updateResults f' r).name (.func (updateResults f' r)) = true := by
            rw [updated_impl hp, hname]; exact hy.2
          rw [List.cons_append, prune_impl_eq hu2 hg2 hi2 hidem.1, hname,
            ih _ kept' left (idents_tail hid) h', hidem.2, Option.map_map]
          rfl

theorem prune_stubs (exp : Str → Bool) (svc : Str) : ∀ (l m : List Rpc), l.Perm m → (m.map (·.name)).Nodup →
    (∀ r ∈ m, GoodRpc exp r) → pruneDecls exp svc m (l.map (stub svc)) = some (l.map (stub svc), []) := by
  intro l
  induction l with
  | nil =>
    intro m h _ _
    rw [List.nil_perm.1 h]; rfl
  | cons r l ih =>
    intro m h hnd hgood
    have hr : r ∈ m := h.subset (by simp)
    obtain ⟨g1, g2, g3, g4⟩ := hgood r hr
    have hg := mapGet_of_mem hnd hr
    have hu : UserDecl exp (stub svc r) = false := by
      show (decide (r.name = "NewService".toList) || !exp r.name) = false
      rw [decide_eq_false g2, g1]; rfl
    have hi : Implements svc r.name (stub svc r) = true := (implements_func _ _ _).2 ⟨⟨[], rfl⟩, rfl⟩
    have hdel : l.Perm (mapDelete m r.name) := by
      have h1 : (r :: l).filter (fun x => x.name ≠ r.name) = l := by
        rw [List.filter_cons_of_neg (by simp), List.filter_eq_self.2]
        intro x hx
        have hnd' : ((r :: l).map (·.name)).Nodup := ((h.map (·.name)).nodup_iff).2 hnd
        rw [List.map_cons, List.nodup_cons] at hnd'
        simp only [decide_eq_true_eq]
        intro he
        exact hnd'.1 (List.mem_map.2 ⟨x, hx, he⟩)
      have := h.filter (fun x => x.name ≠ r.name)
      rw [h1] at this
      exact this
    rw [List.map_cons]
    have hstub : ∃ f, stub svc r = .func f ∧ f.name = r.name ∧ updateParams f r = some f ∧ updateResults f r = f := by
      refine ⟨_, rfl, rfl, ?_, ?_⟩
      · simp [updateParams, numFields, ptr, updatePBFieldType, g3]
      · simp [updateResults, numFields, ptr, updatePBFieldType, g4]
    obtain ⟨f, hf, hfn, hf1, hf2⟩ := hstub
    rw [hf] at hu hi ⊢
    rw [prune_impl_eq hu (by rw [hfn]; exact hg) (by rw [hfn]; exact hi) hf1, hf2, hfn,
      ih (mapDelete m r.name) hdel (mapDelete_nodup _ hnd) (fun x hx => hgood x (List.mem_filter.1 hx).1)]
    rfl

theorem prune_sub (exp : Str → Bool) (svc : Str) :
    ∀ (ds : List Decl) (m : List Rpc) (kept : List Decl) (left : List Rpc), IdentsOK svc ds →
    pruneDecls exp svc m ds = some (kept, left) → left.Sublist m := by
  intro ds
  induction ds with
  | nil =>
    intro m kept left _ h
    simp [pruneDecls] at h
    rw [← h.2]; exact List.Sublist.refl _
  | cons d ds ih =>
    intro m kept left hid h
    cases hu : UserDecl exp d with
    | true =>
      obtain ⟨kept', rfl, h'⟩ := prune_user hu h
      exact ih m kept' left (idents_tail hid) h'
    | false =>
      cases d with
      | other t => simp [UserDecl] at hu
      | func f =>
        rcases prune_func hu hid.1 (fun s r => hid.2 f (by simp) s r) h with ⟨hn, h'⟩ | ⟨hy, r, f', kept', hg, hp, rfl, h'⟩
        · exact ih m kept left (idents_tail hid) h'
        · exact (ih _ kept' left (idents_tail hid) h').trans List.filter_sublist

/-- Every implementation kept was updated with the rpc of its name. -/
theorem prune_types (exp : Str → Bool) (svc : Str) :
    ∀ (ds : List Decl) (m : List Rpc) (kept : List Decl) (left : List Rpc), IdentsOK svc ds →
    pruneDecls exp svc m ds = some (kept, left) →
    ∀ g, Decl.func g ∈ kept → UserDecl exp (.func g) = false →
      ∃ r ∈ m, r.name = g.name ∧ updateParams g r = some g ∧ updateResults g r = g := by
  intro ds
  induction ds with
  | nil =>
    intro m kept left _ h g hg
    simp [pruneDecls] at h
    rw [h.1] at hg; simp at hg
  | cons d ds ih =>
    intro m kept left hid h g hgk hgu
    cases hu : UserDecl exp d with
    | true =>
      obtain ⟨kept', rfl, h'⟩ := prune_user hu h
      rcases List.mem_cons.1 hgk with he | hgk
      · rw [he, hu] at hgu; cases hgu
      · exact ih m kept' left (idents_tail hid) h' g hgk hgu
    | false =>
      cases d with
      | other t => simp [UserDecl] at hu
      | func f =>
        rcases prune_func hu hid.1 (fun s r => hid.2 f (by simp) s r) h with ⟨hn, h'⟩ | ⟨hy, r, f', kept', hg, hp, rfl, h'⟩
        · exact ih m kept left (idents_tail hid) h' g hgk hgu
        · rcases List.mem_cons.1 hgk with he | hgk
          · simp only [Decl.func.injEq] at he
            subst he
            have := mapGet_name hg
            refine ⟨r, this.1, ?_, update_idem hp⟩
            rw [this.2]
            exact (((updateResults_spec f' r).2.1).trans (updateParams_spec hp).2.1).symm
          · obtain ⟨r', hr', h1⟩ := ih _ kept' left (idents_tail hid) h' g hgk hgu
            exact ⟨r', (List.mem_filter.1 hr').1, h1⟩

/-! ## What happens to one rpc -/

theorem arity_eq (l : List Param) : numFields l = arity l := by
  induction l with
  | nil => rfl
  | cons p l ih =>
    simp only [numFields, arity, List.map_cons, List.sum_cons, List.flatMap_cons, List.length_append] at ih ⊢
    rw [ih]
    congr 1
    by_cases h : p.names = []
    · rw [if_pos h, h]; rfl
    · rw [if_neg h]
      have : 0 < p.names.length := List.length_pos_iff.2 h
      omega

theorem retyped_update (t : Ty) (n : Str) : Retyped n t (updatePBFieldType t n) := by
  match t with
  | .ident s => exact .stays _ (by intros; intro h; cases h) (by intros; intro h; cases h)
  | .sel p s => exact .plain p s
  | .other x => exact .stays _ (by intros; intro h; cases h) (by intros; intro h; cases h)
  | .star (.ident s) => exact .stays _ (by intros; intro h; cases h) (by intros; intro h; cases h)
  | .star (.sel p s) => exact .ptr p s
  | .star (.other s) => exact .stays _ (by intros; intro h; cases h) (by intros; intro h; cases h)
  | .star (.star s) => exact .stays _ (by intros; intro h; cases h) (by intros; intro h; cases h)

theorem numFields_tail {l : List Param} (h : numFields l = 0) : l = [] := by
  cases l with
  | nil => rfl
  | cons p l => simp only [numFields, List.map_cons, List.sum_cons] at h; omega

theorem adapted {f f' : Func} {r : Rpc} (h : updateParams f r = some f') : AdaptedTo r f (updateResults f' r) := by
  obtain ⟨a1, a2, a3, a4, -⟩ := updateParams_spec h
  obtain ⟨b1, b2, b3, b4, -⟩ := updateResults_spec f' r
  refine ⟨b1.trans a1, b2.trans a2, b3.trans a3, ?_, ?_, ?_, ?_⟩
  · intro hn
    unfold updateParams at h
    rw [if_pos (by rw [arity_eq]; exact hn)] at h
    simp only [Option.some.injEq] at h
    rw [b4, ← h]
  · intro hn
    unfold updateParams at h
    rw [if_neg (by rw [arity_eq]; exact fun hc => hc hn)] at h
    split at h
    · rename_i a b rest heq
      simp only [Option.some.injEq] at h
      have hrest : rest = [] := by
        rw [← arity_eq, heq] at hn
        simp only [numFields, List.map_cons, List.sum_cons] at hn
        exact numFields_tail (by simp only [numFields]; omega)
      subst hrest
      exact ⟨a, b, _, heq, by rw [b4, ← h], retyped_update _ _⟩
    · cases h
  · intro hn
    unfold updateResults
    rw [a4, if_pos (by rw [arity_eq]; exact hn), a4]
  · intro hn
    cases hr : f.results with
    | nil => rw [hr] at hn; exact absurd hn (by decide)
    | cons a rest =>
      refine ⟨a, rest, _, rfl, ?_, retyped_update _ _⟩
      unfold updateResults
      rw [a4, if_neg (by rw [arity_eq]; exact fun hc => hc hn), hr]

/-- Functions whose names are left alone: all are kept and the map entry stays. -/
theorem prune_count_left (exp : Str → Bool) (svc n : Str) (hn : LeftAlone exp n) :
    ∀ (ds : List Decl) (m : List Rpc) (kept : List Decl) (left : List Rpc), IdentsOK svc ds →
    pruneDecls exp svc m ds = some (kept, left) →
    kept.countP (Implements svc n) = ds.countP (Implements svc n) ∧
    (left.map (·.name)).count n = (m.map (·.name)).count n := by
  intro ds
  induction ds with
  | nil =>
    intro m kept left _ h
    simp [pruneDecls] at h
    rw [h.1, ← h.2]; simp
  | cons d ds ih =>
    intro m kept left hid h
    cases hu : UserDecl exp d with
    | true =>
      obtain ⟨kept', rfl, h'⟩ := prune_user hu h
      obtain ⟨i1, i2⟩ := ih m kept' left (idents_tail hid) h'
      exact ⟨by rw [List.countP_cons, List.countP_cons, i1], i2⟩
    | false =>
      cases d with
      | other t => simp [UserDecl] at hu
      | func f =>
        have hne : n ≠ f.name := by
          rintro rfl
          simp only [UserDecl, Bool.or_eq_false_iff, decide_eq_false_iff_not, Bool.not_eq_false'] at hu
          rcases hn with hn | hn
          · rw [hn] at hu; exact absurd hu.2 (by simp)
          · exact hu.1 hn
        have hni : Implements svc n (.func f) = false := by
          cases hi : Implements svc n (.func f) with
          | false => rfl
          | true => exact absurd (impl_name hi).symm hne
        rcases prune_func hu hid.1 (fun s r => hid.2 f (by simp) s r) h with ⟨-, h'⟩ | ⟨-, r, f', kept', hg, hp, rfl, h'⟩
        · obtain ⟨i1, i2⟩ := ih m kept left (idents_tail hid) h'
          exact ⟨by rw [List.countP_cons_of_neg (by simp [hni])]; exact i1, i2⟩
        · obtain ⟨i1, i2⟩ := ih _ kept' left (idents_tail hid) h'
          rw [mapDelete_count, if_neg hne] at i2
          refine ⟨?_, i2⟩
          rw [List.countP_cons_of_neg (by rw [updated_impl hp]; simp [hni]), List.countP_cons_of_neg (by simp [hni])]
          exact i1

theorem mapGet_delete {m : List Rpc} {n k : Str} (h : n ≠ k) : mapGet (mapDelete m k) n = mapGet m n := by
  rw [mapGet, mapGet, mapDelete]
  induction m with
  | nil => rfl
  | cons x m ih =>
    by_cases hx : x.name = k
    · rw [List.filter_cons_of_neg (by simp [hx]), List.find?_cons_of_neg (by simp [hx, Ne.symm h]), ih]
    · rw [List.filter_cons_of_pos (by simp [hx]), List.find?_cons, List.find?_cons, ih]

/-- An exported rpc: its first implementation is kept and adapted, and without one the rpc is left over. -/
theorem prune_first (exp : Str → Bool) (svc : Str) (r : Rpc) (hn : ¬ LeftAlone exp r.name) :
    ∀ (ds : List Decl) (m : List Rpc) (kept : List Decl) (left : List Rpc), IdentsOK svc ds →
    pruneDecls exp svc m ds = some (kept, left) → mapGet m r.name = some r →
    ((∀ d ∈ ds, Implements svc r.name d = false) → r ∈ left) ∧
    (∀ pre f post, ds = pre ++ .func f :: post → (∀ d ∈ pre, Implements svc r.name d = false) →
      Implements svc r.name (.func f) = true → ∃ f', Decl.func f' ∈ kept ∧ AdaptedTo r f f') := by
  intro ds
  induction ds with
  | nil =>
    intro m kept left _ h hg
    simp [pruneDecls] at h
    rw [← h.2]
    refine ⟨fun _ => (mapGet_name hg).1, ?_⟩
    intro pre f post he
    simp at he
  | cons d ds ih =>
    intro m kept left hid h hg
    cases hu : UserDecl exp d with
    | true =>
      obtain ⟨kept', rfl, h'⟩ := prune_user hu h
      obtain ⟨i1, i2⟩ := ih m kept' left (idents_tail hid) h' hg
      refine ⟨fun hd => i1 fun d' hd' => hd d' (by simp [hd']), ?_⟩
      intro pre f post he hpre hi
      cases pre with
      | nil =>
        simp only [List.nil_append, List.cons.injEq] at he
        rw [he.1] at hu
        refine absurd ?_ hn
        have := impl_name hi
        simp only [UserDecl, Bool.or_eq_true, decide_eq_true_eq, Bool.not_eq_true', this] at hu
        exact hu.symm
      | cons p pre =>
        simp only [List.cons_append, List.cons.injEq] at he
        obtain ⟨f', hf', ha⟩ := i2 pre f post he.2 (fun d' hd' => hpre d' (by simp [hd'])) hi
        exact ⟨f', by simp [hf'], ha⟩
    | false =>
      cases d with
      | other t => simp [UserDecl] at hu
      | func g =>
        rcases prune_func hu hid.1 (fun s r => hid.2 g (by simp) s r) h with ⟨hno, h'⟩ | ⟨hy, r', g', kept', hg', hp, rfl, h'⟩
        · obtain ⟨i1, i2⟩ := ih m kept left (idents_tail hid) h' hg
          refine ⟨fun hd => i1 fun d' hd' => hd d' (by simp [hd']), ?_⟩
          intro pre f post he hpre hi
          cases pre with
          | nil =>
            simp only [List.nil_append, List.cons.injEq, Decl.func.injEq] at he
            obtain ⟨rfl, -⟩ := he
            have hnm := impl_name hi
            refine absurd ⟨?_, by rw [hnm]; exact hi⟩ hno
            rw [hnm]
            exact List.mem_map.2 ⟨r, (mapGet_name hg).1, rfl⟩
          | cons p pre =>
            simp only [List.cons_append, List.cons.injEq] at he
            exact i2 pre f post he.2 (fun d' hd' => hpre d' (by simp [hd'])) hi
        · by_cases hgn : r.name = g.name
          · have hrr : r' = r := by rw [← hgn, hg] at hg'; exact (Option.some.inj hg').symm
            subst hrr
            refine ⟨fun hd => ?_, ?_⟩
            · have := hd (.func g) (by simp)
              rw [hgn, hy.2] at this; cases this
            · intro pre f post he hpre hi
              cases pre with
              | nil =>
                simp only [List.nil_append, List.cons.injEq, Decl.func.injEq] at he
                obtain ⟨rfl, -⟩ := he
                exact ⟨_, by simp, adapted hp⟩
              | cons p pre =>
                simp only [List.cons_append, List.cons.injEq] at he
                have := hpre p (by simp)
                rw [← he.1, hgn, hy.2] at this; cases this
          · obtain ⟨i1, i2⟩ := ih _ kept' left (idents_tail hid) h' (by rw [mapGet_delete hgn]; exact hg)
            refine ⟨fun hd => i1 fun d' hd' => hd d' (by simp [hd']), ?_⟩
            intro pre f post he hpre hi
            cases pre with
            | nil =>
              simp only [List.nil_append, List.cons.injEq, Decl.func.injEq] at he
              obtain ⟨rfl, -⟩ := he
              exact absurd (impl_name hi).symm hgn
            | cons p pre =>
              simp only [List.cons_append, List.cons.injEq] at he
              obtain ⟨f', hf', ha⟩ := i2 pre f post he.2 (fun d' hd' => hpre d' (by simp [hd'])) hi
              exact ⟨f', by simp [hf'], ha⟩

theorem stubs_count (svc n : Str) (l : List Rpc) :
    (l.map (stub svc)).countP (Implements svc n) = (l.map (·.name)).count n := by
  induction l with
  | nil => rfl
  | cons r l ih =>
    rw [List.map_cons, List.countP_cons, ih, List.map_cons, List.count_cons]
    congr 1
    have : Implements svc n (stub svc r) = (r.name == n) := by
      rw [Bool.eq_iff_iff, stub, implements_func]
      simp
    rw [this]

end Baron.Service
