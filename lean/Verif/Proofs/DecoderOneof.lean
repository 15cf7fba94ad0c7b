import Verif.Proofs.DecoderFields

/-!
# The statements for the oneofs
-/

namespace Baron.Locals

open Baron.Scope Baron.HTTPCode Baron.Idents Baron.DecoderNames

/-- The variables declared so far; those of `us` have not been used. -/
structure Inv2 (c : Block) (vs us : List Str) : Prop where
  look : ∀ x, Scope.look c x = if x ∈ us then some false else if x ∈ lows ∨ x ∈ vs then some true else none
  upper : ∀ x ∈ vs, Locals.upper x = true
  upper' : ∀ x ∈ us, Locals.upper x = true

theorem Inv.two {c : Block} {vs : List Str} (h : Inv c vs) : Inv2 c vs [] :=
  ⟨fun x => by rw [h.look, if_neg (List.not_mem_nil (a := x))], h.upper, nofun⟩

theorem Inv2.one {c : Block} {vs : List Str} (h : Inv2 c vs []) : Inv c vs :=
  ⟨fun x => by rw [h.look, if_neg (List.not_mem_nil (a := x))], h.upper⟩

theorem Inv2.declared {c : Block} {vs us : List Str} (h : Inv2 c vs us) {x : Str} (hx : Locals.upper x = true) :
    Scope.declared x c = true ↔ x ∈ us ∨ x ∈ vs := by
  rw [← look_isSome, h.look]
  have := not_lows hx
  by_cases h1 : x ∈ us
  · rw [if_pos h1]; simp [h1]
  · rw [if_neg h1]
    by_cases h2 : x ∈ vs
    · rw [if_pos (.inr h2)]; simp [h2]
    · rw [if_neg]
      · simp [h1, h2]
      · rintro (h | h)
        · exact this h
        · exact h2 h

theorem Inv2.low {c : Block} {vs us : List Str} (h : Inv2 c vs us) {x : Str} (hx : x ∈ lows) : Scope.look c x = some true := by
  rw [h.look, if_neg, if_pos (.inl hx)]
  intro hu
  exact not_lows (h.upper' x hu) hx

theorem Inv2.not {c : Block} {vs us : List Str} (h : Inv2 c vs us) {x : Str} (hx : Locals.upper x = false) (hl : x ∉ lows) :
    Scope.declared x c = false := by
  rw [← look_none, h.look, if_neg, if_neg]
  · rintro (h' | h')
    · exact hl h'
    · rw [h.upper x h'] at hx; cases hx
  · intro h'
    rw [h.upper' x h'] at hx; cases hx

theorem markB_id {c : Block} {y : Str} (h : look c y = some true) : markB y c = c := by
  unfold look at h
  split at h
  · injection h with h
    unfold markB
    refine (List.map_congr_left (g := id) fun e he => ?_).trans (List.map_id _)
    have := List.all_eq_true.1 h e he
    split
    · rename_i hy
      rw [Bool.or_eq_true, decide_eq_true_eq] at this
      have : e.2 = true := this.resolve_left fun h => h hy
      show _ = e
      rw [← this]
    · rfl
  · cases h

theorem fine_last {g : Outer} {c : Block} {y : Str} (h : look c y = some true) : ∀ {pre : List Block},
    (∀ b ∈ pre, declared y b = false) → Fine g (pre ++ [c]) y := by
  have hd : declared y c = true := by rw [← look_isSome, h]; rfl
  intro pre
  induction pre with
  | nil =>
    intro _
    refine .inl ⟨by unfold captured; rw [List.nil_append, List.any_cons, hd, Bool.true_or], ?_⟩
    unfold mark
    rw [List.nil_append]
    simp only
    rw [if_pos hd, markB_id h]
  | cons b pre ih =>
    intro hp
    have hb := hp b List.mem_cons_self
    rcases ih fun b' hb' => hp b' (List.mem_cons_of_mem _ hb') with ⟨h1, h2⟩ | ⟨h1, _⟩
    · refine .inl ⟨?_, ?_⟩
      · unfold captured at h1 ⊢
        rw [List.cons_append, List.any_cons, h1, Bool.or_true]
      · rw [List.cons_append]
        unfold mark
        rw [if_neg (by rw [hb]; exact Bool.false_ne_true), h2]
    · unfold captured at h1
      rw [List.any_append, List.any_cons, hd, Bool.true_or, Bool.or_true] at h1
      cases h1

/-! ## Looking for an option -/

theorem okN_ne (l : Str) : strN l ≠ okN l ∧ arrN l ≠ okN l ∧ strN l ≠ arrN l :=
  ⟨append_ne (by decide), append_ne (by decide), append_ne (by decide)⟩

theorem optionSeen_run {g : Outer} {c : Block} {vs us : List Str} (hI : Inv2 c vs us) {meth count : Str} {o : HOption}
    (hup : upper (localName o.name meth) = true) (hc : count ∈ us)
    (hA : arrN (localName o.name meth) ∉ us) (hO : okN (localName o.name meth) ∉ us) :
    (¬(strN (localName o.name meth) ∉ vs ++ us ∧ (arrN (localName o.name meth) ∉ vs ∨ okN (localName o.name meth) ∉ vs)) ∧
      run g [c] (optionSeen meth count "query".toList o) = none) ∨
    ((strN (localName o.name meth) ∉ vs ++ us ∧ (arrN (localName o.name meth) ∉ vs ∨ okN (localName o.name meth) ∉ vs)) ∧
      ∃ c', run g [c] (optionSeen meth count "query".toList o) = some [c'] ∧
        Inv2 c' (vs ++ [arrN (localName o.name meth), okN (localName o.name meth)]) (us ++ [strN (localName o.name meth)])) := by
  unfold optionSeen
  simp only
  generalize localName o.name meth = l at hup hA hO ⊢
  obtain ⟨n1, n2, n3⟩ := okN_ne l
  have uS : upper (strN l) = true := upper_append hup
  have uA : upper (arrN l) = true := upper_append hup
  have uO : upper (okN l) = true := upper_append hup
  generalize strN l = S at uS n1 n3 ⊢
  generalize arrN l = A at uA n2 n3 hA ⊢
  generalize okN l = O at uO n1 n2 hO ⊢
  have dA : declared A c = true ↔ A ∈ vs := by rw [hI.declared uA]; exact ⟨fun h => h.resolve_left hA, .inr⟩
  have dO : declared O c = true ↔ O ∈ vs := by rw [hI.declared uO]; exact ⟨fun h => h.resolve_left hO, .inr⟩
  by_cases hS : S ∈ vs ++ us
  · have hd : declared S c = true := (hI.declared uS).2 ((List.mem_append.1 hS).symm)
    exact .inl ⟨fun h => h.1 hS, run_cons_none (by simp only [step]; rw [if_pos hd])⟩
  · have hd : declared S c = false := Bool.eq_false_iff.2 fun h => hS (List.mem_append.2 ((hI.declared uS).1 h).symm)
    rw [run_cons_some (bs' := [c ++ [(S, false)]]) (by simp only [step]; rw [if_neg (by rw [hd]; exact Bool.false_ne_true)])]
    generalize hc1 : c ++ [(S, false)] = c1
    have hl1 : ∀ x, look c1 x = if x = S then some false else look c x := fun x => by rw [← hc1, look_append_one hd]
    have d1 : ∀ x, x ≠ S → declared x c1 = declared x c := fun x hx => by
      rw [← look_isSome, ← look_isSome, hl1, if_neg hx]
    have hq : "query".toList ++ "Params".toList = "queryParams".toList := by decide
    have hfq : Fine g [c1] "queryParams".toList := by
      refine fine_last (pre := []) ?_ nofun
      rw [hl1, if_neg, hI.low (by decide +kernel)]
      intro h
      rw [← h] at uS
      revert uS
      decide +kernel
    rw [hq, run_fine hfq]
    by_cases hAO : A ∉ vs ∨ O ∉ vs
    · right
      refine ⟨⟨hS, hAO⟩, ?_⟩
      let new := [A, O].filter fun x => !declared x c1
      have hnew : ∀ x, x ∈ new ↔ (x = A ∨ x = O) ∧ x ∉ vs := by
        intro x
        simp only [new, List.mem_filter, List.mem_cons, List.not_mem_nil, or_false, Bool.not_eq_true']
        refine and_congr_right fun hx => ?_
        rcases hx with rfl | rfl
        · rw [d1 _ n3.symm, ← dA, Bool.not_eq_true]
        · rw [d1 _ n1.symm, ← dO, Bool.not_eq_true]
      have hne : new ≠ [] := by
        rcases hAO with h | h
        · exact List.ne_nil_of_mem ((hnew A).2 ⟨.inl rfl, h⟩)
        · exact List.ne_nil_of_mem ((hnew O).2 ⟨.inr rfl, h⟩)
      have hnd : new.Nodup := List.Nodup.sublist List.filter_sublist (by simp [n2])
      rw [run_cons_some (bs' := [c1 ++ new.map fun x => (x, false)]) (by
        simp only [step]
        rw [if_neg]
        rintro (h | h)
        · exact hne h
        · exact h hnd)]
      have hdn : ∀ y ∈ new, declared y c1 = false := fun y hy => by simpa using (List.mem_filter.1 hy).2
      generalize hc2 : (c1 ++ new.map fun x => (x, false)) = c2
      have hl2 : ∀ x, look c2 x = if x ∈ new then some false else look c1 x := fun x => by rw [← hc2, look_append hdn]
      have dec : ∀ x, x = A ∨ x = O → declared x c2 = true := by
        intro x hx
        rw [← look_isSome, hl2]
        by_cases hn : x ∈ new
        · rw [if_pos hn]; rfl
        · rw [if_neg hn, look_isSome]
          have : x ∈ vs := Classical.byContradiction fun h => hn ((hnew x).2 ⟨hx, h⟩)
          rcases hx with rfl | rfl
          · rw [d1 _ n3.symm]; exact dA.2 this
          · rw [d1 _ n1.symm]; exact dO.2 this
      have dO2 := dec O (.inr rfl)
      rw [run_cons_some (bs' := [markB O c2]) (by
        simp only [step]
        rw [if_pos (by unfold captured; rw [List.any_cons, dO2, Bool.true_or])]
        unfold mark
        rw [if_pos dO2])]
      generalize hc3 : markB O c2 = c3
      have hl3 : ∀ x, look c3 x = if x = O then some true else look c2 x := fun x => by rw [← hc3, look_markB dO2]
      have dA3 : declared A c3 = true := by rw [← hc3, declared_markB]; exact dec A (.inl rfl)
      rw [run_cons_some (bs' := [[], c3]) rfl]
      rw [run_cons_some (bs' := [[], markB A c3]) (by
        simp only [step]
        rw [if_pos (by unfold captured; rw [List.any_cons, List.any_cons, dA3, Bool.true_or, Bool.or_true])]
        unfold mark
        rw [if_neg (by exact Bool.false_ne_true)]
        unfold mark
        rw [if_pos dA3])]
      generalize hc4 : markB A c3 = c4
      have hl4 : ∀ x, look c4 x = if x = A then some true else look c3 x := fun x => by rw [← hc4, look_markB dA3]
      have hfin : ∀ x, look c4 x = if x = A ∨ x = O then some true else if x = S then some false else look c x := by
        intro x
        rw [hl4, hl3, hl2, hl1]
        by_cases h1 : x = A
        · rw [if_pos h1, if_pos (.inl h1)]
        · by_cases h2 : x = O
          · rw [if_neg h1, if_pos h2, if_pos (.inr h2)]
          · rw [if_neg h1, if_neg h2, if_neg (fun h => ((hnew x).1 h).1.elim h1 h2), if_neg (not_or.2 ⟨h1, h2⟩)]
      have cap : ∀ x, (look c4 x).isSome = true → captured x [[], c4] = true := by
        intro x hx
        rw [look_isSome] at hx
        unfold captured
        rw [List.any_cons, List.any_cons, hx, Bool.true_or, Bool.or_true]
      rw [run_cons_some (bs' := [[], c4]) (by
        simp only [step]
        rw [if_pos (cap S (by rw [hfin, if_neg (not_or.2 ⟨n3, n1⟩), if_pos rfl]; rfl))])]
      rw [run_cons_some (bs' := [[], c4]) (by
        simp only [step]
        refine if_pos (cap count ?_)
        rw [hfin]
        split
        · rfl
        · split
          · rfl
          · rw [hI.look, if_pos hc]; rfl)]
      refine ⟨c4, rfl, fun x => ?_, ?_, ?_⟩
      · rw [hfin, hI.look]
        simp only [List.mem_append, List.mem_cons, List.not_mem_nil, or_false]
        by_cases h1 : x = A ∨ x = O
        · rw [if_pos h1, if_neg, if_pos (.inr (.inr h1))]
          rintro (h | h)
          · rcases h1 with rfl | rfl
            · exact hA h
            · exact hO h
          · rcases h1 with h1 | h1
            · exact n3 (h.symm.trans h1)
            · exact n1 (h.symm.trans h1)
        · rw [if_neg h1]
          by_cases h2 : x = S
          · rw [if_pos h2, if_pos (.inr h2)]
          · rw [if_neg h2]
            simp only [h1, h2, or_false]
      · intro x hx
        simp only [List.mem_append, List.mem_cons, List.not_mem_nil, or_false] at hx
        rcases hx with h | rfl | rfl
        · exact hI.upper x h
        · exact uA
        · exact uO
      · intro x hx
        simp only [List.mem_append, List.mem_cons, List.not_mem_nil, or_false] at hx
        rcases hx with h | rfl
        · exact hI.upper' x h
        · exact uS
    · left
      refine ⟨fun h => hAO h.2, run_cons_none ?_⟩
      have hAO : A ∈ vs ∧ O ∈ vs := ⟨Classical.byContradiction fun h => hAO (.inl h), Classical.byContradiction fun h => hAO (.inr h)⟩
      simp only [step]
      rw [if_pos]
      left
      rw [List.filter_eq_nil_iff]
      intro x hx
      simp only [List.mem_cons, List.not_mem_nil, or_false] at hx
      rcases hx with rfl | rfl
      · rw [d1 _ n3.symm, dA.2 hAO.1]; exact Bool.false_ne_true
      · rw [d1 _ n1.symm, dO.2 hAO.2]; exact Bool.false_ne_true

/-! ## Converting an option -/

/-- What happens to a variable of the outermost block when it is used further inside. -/
theorem use_last {g : Outer} {c : Block} {y : Str} (h : declared y c = true) {pre : List Block}
    (hp : ∀ b ∈ pre, declared y b = false) : step g (pre ++ [c]) (.use y) = some (pre ++ [markB y c]) := by
  simp only [step]
  rw [if_pos (by unfold captured; rw [List.any_append, List.any_cons, h, Bool.true_or, Bool.or_true])]
  congr 1
  induction pre with
  | nil => unfold mark; rw [List.nil_append]; simp only; rw [if_pos h]; rfl
  | cons b pre ih =>
    rw [List.cons_append]
    unfold mark
    rw [if_neg (by rw [hp b List.mem_cons_self]; exact Bool.false_ne_true), ih fun b' hb' => hp b' (List.mem_cons_of_mem _ hb')]
    rfl

theorem Inv2.mark {c : Block} {vs us : List Str} (h : Inv2 c vs us) {y : Str} (hy : Scope.declared y c = true)
    (hu : Locals.upper y = true) : Inv2 (markB y c) (vs ++ [y]) (us.filter (· ≠ y)) := by
  refine ⟨fun x => ?_, fun x hx => ?_, fun x hx => h.upper' x (List.mem_filter.1 hx).1⟩
  · rw [look_markB hy, h.look]
    simp only [List.mem_filter, List.mem_append, List.mem_singleton, decide_eq_true_eq]
    by_cases hx : x = y
    · rw [if_pos hx, if_neg (fun h => h.2 hx), if_pos (.inr (.inr hx))]
    · rw [if_neg hx]
      simp only [hx, or_false, and_true, not_false_eq_true, ne_eq]
  · rcases List.mem_append.1 hx with hx | hx
    · exact h.upper x hx
    · rw [List.mem_singleton.1 hx]; exact hu

/-- The tail of an option's statements, from the declaration of its variable on. -/
def caseTail (simple : Bool) (l w : Str) : List Ev :=
  (if simple then [.short [l]] else [.short [l, "err".toList], U "err", .opn, U "errors", U "err", U "fmt", U "queryParams", .cls]) ++
    [U "req", .type w, .use l, .cls]

theorem caseTail_run {g : Outer} (hpk : ∀ x ∈ pkgs, g.value x = true) {c : Block} {vs us : List Str} (hI : Inv2 c vs us)
    (simple : Bool) {l w : Str} (hl : upper l = true) (hw : upper w = true) :
    run g [[], [], c] (caseTail simple l w) =
      if g.type w = true ∧ w ∉ vs ++ us ∧ w ≠ l then some [[], c] else none := by
  have fq : ∀ pre : List Block, (∀ b ∈ pre, declared "queryParams".toList b = false) → Fine g (pre ++ [c]) "queryParams".toList :=
    fun pre => fine_last (hI.low (by decide +kernel))
  have fr : ∀ pre : List Block, (∀ b ∈ pre, declared "req".toList b = false) → Fine g (pre ++ [c]) "req".toList :=
    fun pre => fine_last (hI.low (by decide +kernel))
  have le : l ≠ "err".toList := by rintro rfl; revert hl; decide +kernel
  have lq : ∀ x : Str, upper x = false → x ≠ l := by rintro x hx rfl; rw [hl] at hx; cases hx
  have fg : ∀ (x : Str) (pre : List Block), x ∈ pkgs → (∀ b ∈ pre, declared x b = false) → Fine g (pre ++ [c]) x := by
    intro x pre hx hp
    refine .inr ⟨?_, hpk x hx⟩
    unfold captured
    rw [List.any_append, Bool.or_eq_false_iff]
    refine ⟨List.any_eq_false.2 fun b hb => by rw [hp b hb]; exact Bool.false_ne_true, ?_⟩
    have : declared x c = false := by
      have hxl : x ∈ lowers := List.mem_append_left _ (List.mem_append_right _ hx)
      refine hI.not (lower_of_mem hxl) ?_
      have hp : ∀ x ∈ pkgs, x ∉ lows := by decide +kernel
      exact hp x hx
    rw [List.any_cons, this]
    rfl
  have hend : ∀ b : Block, (∀ e ∈ b, e.1 = "err".toList → e.2 = true) → (∀ e ∈ b, e.1 = "err".toList) →
      run g [(l, false) :: b, [], c] [U "req", .type w, .use l, .cls] =
        if g.type w = true ∧ w ∉ vs ++ us ∧ w ≠ l then some [[], c] else none := by
    intro b hb1 hb2
    have hdb : ∀ x, x ≠ "err".toList → declared x b = false := by
      intro x hx
      rw [Bool.eq_false_iff]
      intro h
      obtain ⟨e, he, rfl⟩ := List.mem_map.1 (declared_names.1 h)
      exact hx (hb2 e he)
    have hdl : ∀ x, x ≠ "err".toList → declared x ((l, false) :: b) = decide (l = x) := by
      intro x hx
      show (decide (l = x) || declared x b) = _
      rw [hdb x hx, Bool.or_false]
    rw [show U "req" = Ev.use "req".toList from rfl, run_fine (bs := [(l, false) :: b, [], c]) (fr [(l, false) :: b, []] (by
      intro b' hb'
      simp only [List.mem_cons, List.not_mem_nil, or_false] at hb'
      rcases hb' with rfl | rfl
      · rw [hdl _ (by decide), decide_eq_false (Ne.symm (lq _ (by decide +kernel)))]
      · rfl))]
    have hcap : captured w [(l, false) :: b, [], c] = true ↔ w = l ∨ w ∈ vs ++ us := by
      unfold captured
      rw [List.any_cons, List.any_cons, List.any_cons, List.any_nil, hdl w (by rintro rfl; revert hw; decide +kernel)]
      rw [show declared w [] = false from rfl, Bool.or_false, Bool.false_or, Bool.or_eq_true, decide_eq_true_eq, hI.declared hw,
        List.mem_append, or_comm (a := w ∈ us)]
      rw [eq_comm (a := l)]
    by_cases hcw : captured w [(l, false) :: b, [], c] = true
    · rw [run_cons_none (by simp only [step]; rw [if_pos hcw]), if_neg]
      rintro ⟨_, h2, h3⟩
      exact (hcap.1 hcw).elim h3 h2
    · by_cases ht : g.type w = true
      · rw [run_cons_some (bs' := [(l, false) :: b, [], c]) (by simp only [step]; rw [if_neg hcw, if_pos ht])]
        rw [if_pos ⟨ht, fun h => hcw (hcap.2 (.inr h)), fun h => hcw (hcap.2 (.inl h))⟩]
        have hd : declared l ((l, false) :: b) = true := by rw [hdl l le]; exact decide_eq_true rfl
        rw [run_cons_some (bs' := [markB l ((l, false) :: b), [], c]) (by
          simp only [step]
          rw [if_pos (by unfold captured; rw [List.any_cons, hd, Bool.true_or])]
          unfold mark
          rw [if_pos hd])]
        refine run_cons_some ?_
        simp only [step]
        rw [if_pos]
        rw [List.all_eq_true]
        intro e he
        rcases mem_markB he with h | ⟨h1, h2⟩
        · exact h
        · rcases List.mem_cons.1 h1 with rfl | h1
          · exact absurd rfl h2
          · exact hb1 e h1 (hb2 e h1)
      · rw [run_cons_none (by simp only [step]; rw [if_neg hcw, if_neg ht]), if_neg fun h => ht h.1]
  unfold caseTail
  cases simple with
  | true =>
    simp only [if_true, List.cons_append, List.nil_append]
    rw [run_cons_some (bs' := [[(l, false)], [], c]) (by simp [step, declared])]
    exact hend [] nofun nofun
  | false =>
    simp only [if_false, Bool.false_eq_true, List.cons_append, List.nil_append]
    rw [run_cons_some (bs' := [[(l, false), ("err".toList, false)], [], c]) (by simp [step, declared]; exact le)]
    have e1 : step g [[(l, false), ("err".toList, false)], [], c] (U "err") = some [[(l, false), ("err".toList, true)], [], c] := by
      refine step_use_last (b := [(l, false)]) ?_
      show (decide (l = _) || false) = false
      rw [decide_eq_false le]
      rfl
    rw [run_cons_some e1, run_cons_some (bs' := [[], [(l, false), ("err".toList, true)], [], c]) rfl]
    have hblk : ∀ x : Str, x ≠ "err".toList → upper x = false →
        ∀ b ∈ [[], [(l, false), ("err".toList, true)], []], declared x b = false := by
      intro x hx hu b hb
      simp only [List.mem_cons, List.not_mem_nil, or_false] at hb
      rcases hb with rfl | rfl | rfl
      · rfl
      · show (decide (l = x) || (decide ("err".toList = x) || false)) = false
        rw [decide_eq_false (Ne.symm (lq x hu)), decide_eq_false (Ne.symm hx)]
        rfl
      · rfl
    rw [show U "errors" = Ev.use "errors".toList from rfl, show U "err" = Ev.use "err".toList from rfl,
      show U "fmt" = Ev.use "fmt".toList from rfl, show U "queryParams" = Ev.use "queryParams".toList from rfl]
    rw [run_fine (bs := [[], [(l, false), ("err".toList, true)], [], c]) (fg "errors".toList [[], [(l, false), ("err".toList, true)], []] (by decide +kernel)
      (hblk _ (by decide) (by decide +kernel)))]
    have fe : Fine g ([[], [(l, false), ("err".toList, true)], []] ++ [c]) "err".toList := by
      have hd : declared "err".toList [(l, false), ("err".toList, true)] = true := by
        show (decide (l = _) || (decide (_ = _) || false)) = true
        rw [decide_eq_true rfl, Bool.true_or, Bool.or_true]
      refine .inl ⟨?_, ?_⟩
      · unfold captured
        rw [List.any_append, List.any_cons, List.any_cons, hd, Bool.true_or, Bool.or_true, Bool.true_or]
      · show mark _ ([] :: [(l, false), ("err".toList, true)] :: _) = _
        unfold mark
        rw [if_neg (by exact Bool.false_ne_true)]
        unfold mark
        rw [if_pos hd]
        unfold markB
        simp only [List.map_cons, List.map_nil, if_neg le, if_true]
        rfl
    rw [run_fine (bs := [[], [(l, false), ("err".toList, true)], [], c]) fe, run_fine (bs := [[], [(l, false), ("err".toList, true)], [], c]) (fg "fmt".toList [[], [(l, false), ("err".toList, true)], []] (by decide +kernel)
      (hblk _ (by decide) (by decide +kernel))), run_fine (bs := [[], [(l, false), ("err".toList, true)], [], c]) (fq [[], [(l, false), ("err".toList, true)], []]
      (hblk _ (by decide) (by decide +kernel)))]
    rw [run_cons_some (bs' := [[(l, false), ("err".toList, true)], [], c]) rfl]
    exact hend [("err".toList, true)] (by simp) (by simp)

/-- One option. -/
theorem optionCase_run {g : Outer} (hpk : ∀ x ∈ pkgs, g.value x = true) {c : Block} {vs us : List Str} (hI : Inv2 c vs us)
    {meth : Str} {o : HOption} (hup : upper (localName o.name meth) = true) (hw : upper o.wrapper = true)
    (hb : (baseOf o.goType).isSome = true) (hO : okN (localName o.name meth) ∈ vs) (hO' : okN (localName o.name meth) ∉ us)
    (hS : strN (localName o.name meth) ∈ vs ++ us) :
    run g [[], c] (optionCase meth "query".toList o) =
      if g.type o.wrapper = true ∧ o.wrapper ∉ vs ++ us ∧ o.wrapper ≠ localName o.name meth then
        some [[], markB (strN (localName o.name meth)) c] else none := by
  have hSd : declared (strN (localName o.name meth)) c = true :=
    (hI.declared (upper_append hup)).2 (List.mem_append.1 hS).symm
  have hOl : look c (okN (localName o.name meth)) = some true := by
    rw [hI.look, if_neg hO', if_pos (.inr hO)]
  have hI2 := hI.mark hSd (upper_append hup)
  have hev : ∃ simple pre, (pre = [] ∨ pre = [U "strconv"]) ∧ optionCase meth "query".toList o =
      [.use (okN (localName o.name meth)), .opn] ++ pre ++ [.use (strN (localName o.name meth))] ++
        caseTail simple (localName o.name meth) o.wrapper := by
    unfold optionCase
    simp only
    cases hbo : baseOf o.goType with
    | none => rw [hbo] at hb; cases hb
    | some b =>
      cases b with
      | string => exact ⟨true, [], .inl rfl, rfl⟩
      | _ => exact ⟨false, [U "strconv"], .inr rfl, by with_unfolding_all rfl⟩
  obtain ⟨simple, pre, hpre, he⟩ := hev
  rw [he]
  have h1 : run g [[], c] ([.use (okN (localName o.name meth)), .opn] ++ pre) = some [[], [], c] := by
    rw [List.cons_append, run_fine (bs := [[], c]) (fine_last (pre := [[]]) hOl (by simp [declared]))]
    rw [List.cons_append, run_cons_some (bs' := [[], [], c]) rfl]
    rcases hpre with rfl | rfl
    · rfl
    · rw [List.nil_append, show U "strconv" = Ev.use "strconv".toList from rfl, run_fine (.inr ⟨?_, hpk _ (by decide +kernel)⟩)]
      · rfl
      · have : declared "strconv".toList c = false := hI.not (by decide +kernel) (by decide +kernel)
        unfold captured
        rw [List.any_cons, List.any_cons, List.any_cons, this]
        rfl
  rw [List.append_assoc, run_append_some h1, List.cons_append, List.nil_append,
    run_cons_some (bs := [[], [], c]) (use_last (pre := [[], []]) hSd (by simp [declared]))]
  show run g [[], [], _] _ = _
  rw [caseTail_run hpk hI2 simple hup hw]
  have hiff : (g.type o.wrapper = true ∧ o.wrapper ∉ (vs ++ [strN (localName o.name meth)]) ++
      us.filter (· ≠ strN (localName o.name meth)) ∧ o.wrapper ≠ localName o.name meth) ↔
      (g.type o.wrapper = true ∧ o.wrapper ∉ vs ++ us ∧ o.wrapper ≠ localName o.name meth) := by
    refine and_congr_right fun _ => and_congr_left fun _ => not_congr ?_
    simp only [List.mem_append, List.mem_singleton, List.mem_filter, decide_eq_true_eq]
    rw [List.mem_append] at hS
    constructor
    · rintro ((h | h) | h)
      · exact .inl h
      · exact h ▸ hS
      · exact .inr h.1
    · rintro (h | h)
      · exact .inl (.inl h)
      · by_cases he : o.wrapper = strN (localName o.name meth)
        · exact .inl (.inr he)
        · exact .inr ⟨h, he⟩
  simp only [hiff]

end Baron.Locals
