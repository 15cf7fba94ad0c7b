import Verif.Proofs.LexRegion

namespace Baron.Lexer

open Baron.Scanner

/-- One step of a run with its effect on the state, when another unit follows. -/
theorem ScanRun.uncons {U : Uni} {g rd u us g' rd'} (h : ScanRun U g rd (u :: us) g' rd') :
    ∃ g1 rd1, ScanRun U g1 rd1 us g' rd' ∧ Inside u = insideG g1 ∧
      (us ≠ [] ∨ u.value ≠ "service".toList →
        g1 = if u.value = "service".toList then { g with withinDef := true }
             else if u.value = ['{'] then ⟨g.withinBody || g.withinDef, false, g.braceLev + 1⟩
             else if u.value = ['}'] then
               ⟨g.withinBody && !decide (g.braceLev - 1 = 0), g.withinDef, g.braceLev - 1⟩
             else g) := by
  cases h with
  | @step _ _ _ g1 rd1 _ _ _ hb hr =>
    refine ⟨g1, rd1, hr, ?_, ?_⟩
    · obtain ⟨k, -, -, -, hu, -⟩ := buildScanUnit_spec U _ _ _ _ _ hb
      rw [hu, Inside_setReturn]
    · intro hc
      have hg := buildScanUnit_glob U _ _ _ _ _ hb
      rw [hg]
      by_cases hs : u.value = "service".toList
      · rw [if_pos hs, if_pos hs]
        have hne : rd1.rest ≠ [] := by
          intro e
          rcases hc with hc | hc
          · cases hr with
            | stop => exact hc rfl
            | step hb' _ => simp [buildScanUnit, e] at hb'
          · exact hc hs
        rw [if_neg hne]
      · rw [if_neg hs, if_neg hs]

theorem lit_ne : ("service".toList ≠ ['{']) ∧ ("service".toList ≠ ['}']) ∧ ((['{'] : Str) ≠ ['}']) := by
  decide

theorem braceDelta_open : braceDelta ['{'] = 1 := by decide
theorem braceDelta_close : braceDelta ['}'] = -1 := by decide
theorem depthOf_cons (v : Str) (vs) : depthOf (v :: vs) = braceDelta v + depthOf vs := by simp [depthOf]

/-- Outside, without the word `service`: nothing is kept and the flags stay off. -/
theorem region_pre {U : Uni} : ∀ (pre : List Str) {g rd us g' rd'} (rest : List Str), ScanRun U g rd us g' rd' →
    g.withinDef = false → g.withinBody = false → us.map (·.value) = pre ++ rest → "service".toList ∉ pre →
    ∃ us' rd1, ScanRun U ⟨false, false, g.braceLev + depthOf pre⟩ rd1 us' g' rd' ∧
      us'.map (·.value) = rest ∧ region false us = region false us' := by
  intro pre
  induction pre with
  | nil =>
    intro g rd us g' rd' rest h h1 h2 e _
    refine ⟨us, rd, ?_, by simpa using e, rfl⟩
    have : (⟨false, false, g.braceLev + depthOf []⟩ : Glob) = g := by
      cases g; simp at h1 h2; simp [depthOf, h1, h2]
    rw [this]; exact h
  | cons v pre ih =>
    intro g rd us g' rd' rest h h1 h2 e hs
    match us with
    | [] => simp at e
    | u :: us =>
      simp only [List.map_cons, List.cons_append, List.cons.injEq] at e
      obtain ⟨rfl, e⟩ := e
      simp only [List.mem_cons, not_or] at hs
      obtain ⟨g1, rd1, hr, hI, hg⟩ := ScanRun.uncons h
      have hsv : ¬ u.value = "service".toList := fun e => hs.1 e.symm
      have hg := hg (.inr hsv)
      rw [if_neg hsv] at hg
      have hg1 : g1.withinDef = false ∧ g1.withinBody = false ∧
          g1.braceLev = g.braceLev + braceDelta u.value := by
        rw [hg]
        by_cases ho : u.value = ['{']
        · rw [if_pos ho, ho, braceDelta_open]; simp [h1, h2]
        · rw [if_neg ho]
          by_cases hc : u.value = ['}']
          · rw [if_pos hc, hc, braceDelta_close]; simp [h1, h2]; omega
          · rw [if_neg hc]; simp [h1, h2, braceDelta, ho, hc]
      obtain ⟨us', rd2, hr', e', hreg⟩ := ih rest hr hg1.1 hg1.2.1 e hs.2
      refine ⟨us', rd2, ?_, e', ?_⟩
      · rw [depthOf_cons]
        rw [hg1.2.2] at hr'
        have : g.braceLev + (braceDelta u.value + depthOf pre) = g.braceLev + braceDelta u.value + depthOf pre := by
          omega
        rw [this]; exact hr'
      · rw [region, if_neg hsv, hreg]

/-- Between the word `service` and its opening brace everything is kept. -/
theorem region_hdr {U : Uni} : ∀ (hdr : List Str) {g rd us g' rd'} (rest : List Str), ScanRun U g rd us g' rd' →
    g.withinDef = true → us.map (·.value) = hdr ++ rest →
    "service".toList ∉ hdr → ['{'] ∉ hdr → ['}'] ∉ hdr →
    ∃ us' rd1, ScanRun U g rd1 us' g' rd' ∧ us'.map (·.value) = rest ∧
      (region true us).map (·.value) = hdr ++ (region true us').map (·.value) := by
  intro hdr
  induction hdr with
  | nil => intro g rd us g' rd' rest h _ e _ _ _; exact ⟨us, rd, h, by simpa using e, rfl⟩
  | cons v hdr ih =>
    intro g rd us g' rd' rest h h1 e hs ho hc
    match us with
    | [] => simp at e
    | u :: us =>
      simp only [List.map_cons, List.cons_append, List.cons.injEq] at e
      obtain ⟨rfl, e⟩ := e
      simp only [List.mem_cons, not_or] at hs ho hc
      obtain ⟨g1, rd1, hr, hI, hg⟩ := ScanRun.uncons h
      have hsv : ¬ u.value = "service".toList := fun e => hs.1 e.symm
      have hov : ¬ u.value = ['{'] := fun e => ho.1 e.symm
      have hcv : ¬ u.value = ['}'] := fun e => hc.1 e.symm
      have hg := hg (.inr hsv)
      rw [if_neg hsv, if_neg hov, if_neg hcv] at hg
      subst hg
      obtain ⟨us', rd2, hr', e', hreg⟩ := ih rest hr h1 e hs.2 ho.2 hc.2
      refine ⟨us', rd2, hr', e', ?_⟩
      rw [region, hI]
      simp only [insideG, h1, Bool.true_or, List.map_cons, List.cons_append, List.cons.injEq, true_and]
      exact hreg

/-- Inside the body everything is kept as long as the depth stays positive. -/
theorem region_body {U : Uni} : ∀ (body : List Str) {g rd us g' rd'} (rest : List Str), ScanRun U g rd us g' rd' →
    g.withinDef = false → g.withinBody = true → us.map (·.value) = body ++ rest →
    "service".toList ∉ body → (∀ p q, body = p ++ q → 1 ≤ g.braceLev + depthOf p) →
    ∃ us' rd1, ScanRun U ⟨true, false, g.braceLev + depthOf body⟩ rd1 us' g' rd' ∧ us'.map (·.value) = rest ∧
      (region true us).map (·.value) = body ++ (region true us').map (·.value) := by
  intro body
  induction body with
  | nil =>
    intro g rd us g' rd' rest h h1 h2 e _ _
    refine ⟨us, rd, ?_, by simpa using e, rfl⟩
    have : (⟨true, false, g.braceLev + depthOf []⟩ : Glob) = g := by
      cases g; simp at h1 h2; simp [depthOf, h1, h2]
    rw [this]; exact h
  | cons v body ih =>
    intro g rd us g' rd' rest h h1 h2 e hs hd
    match us with
    | [] => simp at e
    | u :: us =>
      simp only [List.map_cons, List.cons_append, List.cons.injEq] at e
      obtain ⟨rfl, e⟩ := e
      simp only [List.mem_cons, not_or] at hs
      obtain ⟨g1, rd1, hr, hI, hg⟩ := ScanRun.uncons h
      have hsv : ¬ u.value = "service".toList := fun e => hs.1 e.symm
      have hg := hg (.inr hsv)
      rw [if_neg hsv] at hg
      have hd1 := hd [u.value] body rfl
      rw [depthOf_cons, show depthOf [] = 0 from rfl] at hd1
      have hg1 : g1.withinDef = false ∧ g1.withinBody = true ∧
          g1.braceLev = g.braceLev + braceDelta u.value := by
        rw [hg]
        by_cases ho : u.value = ['{']
        · rw [if_pos ho, ho, braceDelta_open]; simp [h1, h2]
        · rw [if_neg ho]
          by_cases hc : u.value = ['}']
          · rw [if_pos hc, hc, braceDelta_close]
            rw [hc, braceDelta_close] at hd1
            simp [h1, h2]; omega
          · rw [if_neg hc]; simp [h1, h2, braceDelta, ho, hc]
      have hdep : ∀ p, g1.braceLev + depthOf p = g.braceLev + depthOf (u.value :: p) := by
        intro p; rw [depthOf_cons, hg1.2.2]; omega
      obtain ⟨us', rd2, hr', e', hreg⟩ := ih rest hr hg1.1 hg1.2.1 e hs.2 (by
        intro p q epq
        rw [hdep]
        exact hd (u.value :: p) q (by rw [epq]; rfl))
      refine ⟨us', rd2, by rw [← hdep]; exact hr', e', ?_⟩
      rw [region, hI]
      simp only [insideG, hg1.2.1, Bool.true_or, Bool.or_true, List.map_cons, List.cons_append, List.cons.injEq,
        true_and]
      exact hreg

/-- The whole file: exactly the service definition is kept. -/
theorem region_file {U : Uni} {rd us g' rd'} (h : ScanRun U .init rd us g' rd') (pre hdr body post : List Str)
    (e : us.map (·.value) = pre ++ "service".toList :: (hdr ++ ['{'] :: (body ++ ['}'] :: post)))
    (hpre : "service".toList ∉ pre) (hhdr : "service".toList ∉ hdr) (hbody : "service".toList ∉ body)
    (hpost : "service".toList ∉ post) (hd : depthOf pre = 0) (ho : ['{'] ∉ hdr) (hc : ['}'] ∉ hdr)
    (hb : ∀ p q, body = p ++ q → 0 ≤ depthOf p) (hb0 : depthOf body = 0) :
    (region false us).map (·.value) = "service".toList :: (hdr ++ ['{'] :: (body ++ [['}']])) := by
  obtain ⟨us1, rd1, r1, e1, reg1⟩ := region_pre pre _ h rfl rfl e hpre
  rw [reg1]
  simp only [Glob.init, hd] at r1
  match us1 with
  | [] => simp at e1
  | u :: us1 =>
    simp only [List.map_cons, List.cons.injEq] at e1
    obtain ⟨eu, e1⟩ := e1
    obtain ⟨g2, rd2, r2, hI, hg⟩ := ScanRun.uncons r1
    have hg := hg (.inl (by intro e; subst e; simp at e1))
    rw [if_pos eu] at hg
    subst hg
    rw [region, if_pos eu]
    obtain ⟨us3, rd3, r3, e3, reg3⟩ := region_hdr hdr _ r2 rfl e1 hhdr ho hc
    have hIu : Inside u = true := by rw [hI]; rfl
    rw [hIu]
    simp only [List.map_cons, eu, List.cons.injEq, true_and]
    rw [reg3]
    congr 1
    match us3 with
    | [] => simp at e3
    | o :: us3 =>
      simp only [List.map_cons, List.cons.injEq] at e3
      obtain ⟨eo, e3⟩ := e3
      obtain ⟨g4, rd4, r4, hI4, hg4⟩ := ScanRun.uncons r3
      have hos : ¬ o.value = "service".toList := by rw [eo]; exact fun e => lit_ne.1 e.symm
      have hg4 := hg4 (.inr hos)
      rw [if_neg hos, if_pos eo] at hg4
      subst hg4
      have hIo : Inside o = true := by rw [hI4]; rfl
      rw [region, hIo]
      simp only [List.map_cons, eo, List.cons.injEq, true_and]
      obtain ⟨us5, rd5, r5, e5, reg5⟩ := region_body body _ r4 rfl rfl e3 hbody (by
        intro p q epq
        have := hb p q epq
        show (1 : Int) ≤ 0 + 0 + 1 + depthOf p
        omega)
      rw [reg5]
      congr 1
      match us5 with
      | [] => simp at e5
      | c :: us5 =>
        simp only [List.map_cons, List.cons.injEq] at e5
        obtain ⟨ec, e5⟩ := e5
        obtain ⟨g6, rd6, r6, hI6, hg6⟩ := ScanRun.uncons r5
        have hcs : ¬ c.value = "service".toList := by rw [ec]; exact fun e => lit_ne.2.1 e.symm
        have hco : ¬ c.value = ['{'] := by rw [ec]; exact fun e => lit_ne.2.2 e.symm
        have hg6 := hg6 (.inr hcs)
        rw [if_neg hcs, if_neg hco, if_pos ec] at hg6
        have hIc : Inside c = false := by
          rw [hI6, hg6, hb0]; decide
        rw [region, hIc]
        simp only [List.map_cons, ec, List.cons.injEq, true_and]
        have : g6.withinDef = false ∧ g6.withinBody = false := by
          rw [hg6, hb0]; decide
        obtain ⟨us7, rd7, r7, e7, reg7⟩ := region_pre post [] r6 this.1 this.2 (by simpa using e5) hpost
        rw [reg7]
        simp at e7
        subst e7
        rfl

/-- After the whole file the scanner's variables have their initial values again. -/
theorem file_glob {U : Uni} {rd us g' rd'} (h : ScanRun U .init rd us g' rd') (pre hdr body post : List Str)
    (e : us.map (·.value) = pre ++ "service".toList :: (hdr ++ ['{'] :: (body ++ ['}'] :: post)))
    (hpre : "service".toList ∉ pre) (hhdr : "service".toList ∉ hdr) (hbody : "service".toList ∉ body)
    (hpost : "service".toList ∉ post) (hd : depthOf pre = 0) (ho : ['{'] ∉ hdr) (hc : ['}'] ∉ hdr)
    (hb : ∀ p q, body = p ++ q → 0 ≤ depthOf p) (hb0 : depthOf body = 0) (hp0 : depthOf post = 0) :
    g' = .init := by
  obtain ⟨us1, rd1, r1, e1, -⟩ := region_pre pre _ h rfl rfl e hpre
  simp only [Glob.init, hd] at r1
  match us1 with
  | [] => simp at e1
  | u :: us1 =>
    simp only [List.map_cons, List.cons.injEq] at e1
    obtain ⟨eu, e1⟩ := e1
    obtain ⟨g2, rd2, r2, hI, hg⟩ := ScanRun.uncons r1
    have hg := hg (.inl (by intro e; subst e; simp at e1))
    rw [if_pos eu] at hg
    subst hg
    obtain ⟨us3, rd3, r3, e3, -⟩ := region_hdr hdr _ r2 rfl e1 hhdr ho hc
    match us3 with
    | [] => simp at e3
    | o :: us3 =>
      simp only [List.map_cons, List.cons.injEq] at e3
      obtain ⟨eo, e3⟩ := e3
      obtain ⟨g4, rd4, r4, hI4, hg4⟩ := ScanRun.uncons r3
      have hos : ¬ o.value = "service".toList := by rw [eo]; exact fun e => lit_ne.1 e.symm
      have hg4 := hg4 (.inr hos)
      rw [if_neg hos, if_pos eo] at hg4
      subst hg4
      obtain ⟨us5, rd5, r5, e5, -⟩ := region_body body _ r4 rfl rfl e3 hbody (by
        intro p q epq
        have := hb p q epq
        show (1 : Int) ≤ 0 + 0 + 1 + depthOf p
        omega)
      match us5 with
      | [] => simp at e5
      | c :: us5 =>
        simp only [List.map_cons, List.cons.injEq] at e5
        obtain ⟨ec, e5⟩ := e5
        obtain ⟨g6, rd6, r6, hI6, hg6⟩ := ScanRun.uncons r5
        have hcs : ¬ c.value = "service".toList := by rw [ec]; exact fun e => lit_ne.2.1 e.symm
        have hco : ¬ c.value = ['{'] := by rw [ec]; exact fun e => lit_ne.2.2 e.symm
        have hg6 := hg6 (.inr hcs)
        rw [if_neg hcs, if_neg hco, if_pos ec] at hg6
        have : g6.withinDef = false ∧ g6.withinBody = false ∧ g6.braceLev = 0 := by
          rw [hg6, hb0]; decide
        obtain ⟨us7, rd7, r7, e7, -⟩ := region_pre post [] r6 this.1 this.2.1 (by simpa using e5) hpost
        simp at e7
        subst e7
        cases r7
        rw [this.2.2, hp0]
        rfl

/-- After the whole file the scanner is outside again. -/
theorem file_outside {U : Uni} {rd us g' rd'} (h : ScanRun U .init rd us g' rd') (pre hdr body post : List Str)
    (e : us.map (·.value) = pre ++ "service".toList :: (hdr ++ ['{'] :: (body ++ ['}'] :: post)))
    (hpre : "service".toList ∉ pre) (hhdr : "service".toList ∉ hdr) (hbody : "service".toList ∉ body)
    (hpost : "service".toList ∉ post) (hd : depthOf pre = 0) (ho : ['{'] ∉ hdr) (hc : ['}'] ∉ hdr)
    (hb : ∀ p q, body = p ++ q → 0 ≤ depthOf p) (hb0 : depthOf body = 0) (hp0 : depthOf post = 0) :
    insideG g' = false := by
  rw [file_glob h pre hdr body post e hpre hhdr hbody hpost hd ho hc hb hb0 hp0]
  rfl

end Baron.Lexer
