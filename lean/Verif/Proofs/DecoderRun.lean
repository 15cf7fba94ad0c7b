import Verif.Proofs.Decoder

/-!
# When the compiler gets through the statements for a parameter
-/

namespace Baron.Locals

open Baron.Scope Baron.HTTPCode Baron.Idents

section
variable {L S A T : Str}

/-- The condition, in terms of the names. -/
structure FC (g : Outer) (vs : List Str) (L S A T : Str) (path : Bool) (k : Kind) (m : Option Bool) : Prop where
  fresh : path = true → S ∉ vs ∧ L ∉ vs
  texts : path = true → k = .rstr ∨ k = .rbase → A ∈ vs ∨ g.value A = true
  imp : m = some true → g.value T = true
  own : m = some false → g.type T = true ∧ T ∉ vs ++ ([S] ++ (if path then [] else [A]) ++ (if k = .rmsg then [] else [L]))

theorem rho_T (h1 : T ≠ L) (h2 : T ≠ S) (h3 : T ≠ A) : rho L S A T T = ['T'] := by
  unfold rho
  rw [if_neg h1, if_neg h2, if_neg h3, if_pos rfl]

theorem short_lower {y : Str} (h : y ∈ lowers) : y ≠ ['L'] ∧ y ≠ ['S'] ∧ y ≠ ['A'] ∧ y ≠ ['T'] := by
  have hu := lower_of_mem h
  refine ⟨?_, ?_, ?_, ?_⟩ <;> rintro rfl <;> cases hu

theorem lows_short : ['L'] ∉ lows ∧ ['S'] ∉ lows ∧ ['A'] ∉ lows ∧ ['T'] ∉ lows := by decide +kernel

theorem not_lows {x : Str} (h : upper x = true) : x ∉ lows := fun hx => by
  have := lower_of_mem (List.mem_append_left _ (List.mem_append_left _ hx) : x ∈ lowers)
  rw [h] at this
  cases this

/-- The variables correspond. -/
theorem short_sim {c : Block} {vs : List Str} (hI : Inv c vs) (hN : Names L S A T) :
    SimB (Mine L S A T) (rho L S A T) c (shortBlock (decide (L ∈ vs)) (decide (S ∈ vs)) (decide (A ∈ vs))
      (decide (T ∈ vs ∧ T ≠ L ∧ T ≠ S ∧ T ≠ A))) := by
  have hlow : ∀ x ∈ lowers, x ∉ vs := fun x hx hv => by
    have := lower_of_mem hx
    rw [hI.upper x hv] at this
    cases this
  obtain ⟨l1, l2, l3, l4⟩ := lows_short
  have hT : T ∉ lows := fun h => hN.T (List.mem_append_left _ (List.mem_append_left _ h))
  intro x hx
  rw [hI.look, look_short]
  have : (x ∈ lows ∨ x ∈ vs) ↔ rho L S A T x ∈ lows ∨ (decide (L ∈ vs) = true ∧ rho L S A T x = ['L']) ∨
      (decide (S ∈ vs) = true ∧ rho L S A T x = ['S']) ∨ (decide (A ∈ vs) = true ∧ rho L S A T x = ['A']) ∨
      (decide (T ∈ vs ∧ T ≠ L ∧ T ≠ S ∧ T ≠ A) = true ∧ rho L S A T x = ['T']) := by
    have hcL : (L ∈ lows ∨ L ∈ vs) ↔ L ∈ vs := ⟨fun h => h.resolve_left (not_lows hN.upL), .inr⟩
    have hcS : (S ∈ lows ∨ S ∈ vs) ↔ S ∈ vs := ⟨fun h => h.resolve_left (not_lows hN.upS), .inr⟩
    have hcA : (A ∈ lows ∨ A ∈ vs) ↔ A ∈ vs := ⟨fun h => h.resolve_left (not_lows hN.upA), .inr⟩
    have hL : (L ∈ lows ∨ L ∈ vs) ↔ rho L S A T L ∈ lows ∨ (decide (L ∈ vs) = true ∧ rho L S A T L = ['L']) ∨
      (decide (S ∈ vs) = true ∧ rho L S A T L = ['S']) ∨ (decide (A ∈ vs) = true ∧ rho L S A T L = ['A']) ∨
      (decide (T ∈ vs ∧ T ≠ L ∧ T ≠ S ∧ T ≠ A) = true ∧ rho L S A T L = ['T']) := by
      rw [hN.L', hcL]; simp [l1]
    have hS : (S ∈ lows ∨ S ∈ vs) ↔ rho L S A T S ∈ lows ∨ (decide (L ∈ vs) = true ∧ rho L S A T S = ['L']) ∨
      (decide (S ∈ vs) = true ∧ rho L S A T S = ['S']) ∨ (decide (A ∈ vs) = true ∧ rho L S A T S = ['A']) ∨
      (decide (T ∈ vs ∧ T ≠ L ∧ T ≠ S ∧ T ≠ A) = true ∧ rho L S A T S = ['T']) := by
      rw [hN.S', hcS]; simp [l2]
    have hA : (A ∈ lows ∨ A ∈ vs) ↔ rho L S A T A ∈ lows ∨ (decide (L ∈ vs) = true ∧ rho L S A T A = ['L']) ∨
      (decide (S ∈ vs) = true ∧ rho L S A T A = ['S']) ∨ (decide (A ∈ vs) = true ∧ rho L S A T A = ['A']) ∨
      (decide (T ∈ vs ∧ T ≠ L ∧ T ≠ S ∧ T ≠ A) = true ∧ rho L S A T A = ['T']) := by
      rw [hN.A', hcA]; simp [l3]
    rcases hx with hx | hx | hx | hx | hx
    · obtain ⟨s1, s2, s3, s4⟩ := short_lower hx
      rw [hN.low hx]
      simp [s1, s2, s3, s4, hlow x hx]
    · exact hx ▸ hL
    · exact hx ▸ hS
    · exact hx ▸ hA
    · by_cases h1 : T = L
      · exact (hx.trans h1) ▸ hL
      · by_cases h2 : T = S
        · exact (hx.trans h2) ▸ hS
        · by_cases h3 : T = A
          · exact (hx.trans h3) ▸ hA
          · rw [hx, rho_T h1 h2 h3]
            simp [l4, h1, h2, h3, hT]
  simp only [this]

theorem own_inv : inv L S A T [if T = L then 'L' else if T = S then 'S' else if T = A then 'A' else 'T'] = T := by
  split
  · rename_i h; exact h.symm
  · split
    · rename_i h; exact h.symm
    · split
      · rename_i h; exact h.symm
      · rfl

/-- Statements for a field, in terms of the names. -/
theorem field_run {g : Outer} (hpk : ∀ x ∈ pkgs, g.value x = true) {c : Block} {vs : List Str} (hI : Inv c vs)
    (hN : Names L S A T) (path : Bool) (k : Kind) (m : Option Bool) (hm : m ≠ some false → T ∉ vs ∧ T ≠ L ∧ T ≠ S ∧ T ≠ A)
    (hb : k = .str ∨ k = .base ∨ k = .rstr ∨ k = .rbase → m = none) :
    (¬FC g vs L S A T path k m ∧ run g [c] (shape path k (mev T m) L S A) = none) ∨
    (FC g vs L S A T path k m ∧
      ∃ c', run g [c] (shape path k (mev T m) L S A) = some [c'] ∧ Inv c' (vs ++ if path then [S, L] else [])) := by
  let mT : Bool := decide (T ∈ vs ∧ T ≠ L ∧ T ≠ S ∧ T ≠ A)
  obtain ⟨vT, hvT⟩ : ∃ vT : Bool, (m = none → vT = false) ∧ (m = some true → vT = g.value T) ∧ (m = some false → vT = g.type T) := by
    rcases m with _ | (_ | _)
    · exact ⟨false, fun _ => rfl, nofun, nofun⟩
    · exact ⟨_, nofun, nofun, fun _ => rfl⟩
    · exact ⟨_, nofun, fun _ => rfl, nofun⟩
  let c' := shortBlock (decide (L ∈ vs)) (decide (S ∈ vs)) (decide (A ∈ vs)) mT
  let g' : Outer := ⟨fun y => g.value (inv L S A T y), fun y => g.type (inv L S A T y)⟩
  have hsim : SimB (Mine L S A T) (rho L S A T) c c' := short_sim hI hN
  -- the pattern of the type's name
  have htv : (mev T m).map (Ev.ren (rho L S A T)) = (tevOf L S A T m).evs := by
    rw [mev_ren]
    rcases m with _ | (_ | _)
    · rfl
    · unfold tevOf mev rho Tev.evs
      simp only
      by_cases h1 : T = L
      · rw [if_pos h1, if_pos h1]
      · rw [if_neg h1, if_neg h1]
        by_cases h2 : T = S
        · rw [if_pos h2, if_pos h2]
        · rw [if_neg h2, if_neg h2]
          by_cases h3 : T = A
          · rw [if_pos h3, if_pos h3]
          · rw [if_neg h3, if_neg h3, if_pos trivial]
    · obtain ⟨_, h1, h2, h3⟩ := hm nofun
      rw [rho_T h1 h2 h3]
      rfl
  have htest : test path k (decide (L ∈ vs)) (decide (S ∈ vs)) (decide (A ∈ vs)) mT (g.value A) vT (tevOf L S A T m) = true := by
    refine tev_run _ _ _ _ _ _ _ _ _ ?_ ?_
    · rcases m with _ | (_ | _)
      · exact .inl rfl
      · unfold tevOf
        simp only
        split
        · simp
        · split
          · simp
          · split <;> simp
      · exact .inr (.inl rfl)
    · intro hk
      have hk := hb hk
      subst hk
      exact ⟨rfl, decide_eq_false fun h => (hm nofun).1 h.1, hvT.1 rfl⟩
  unfold test at htest
  rw [Bool.and_eq_true, decide_eq_true_eq, decide_eq_true_eq] at htest
  have hrun : run g' [c'] ((shape path k (mev T m) L S A).map (Ev.ren (rho L S A T))) =
      result path k (decide (L ∈ vs)) (decide (S ∈ vs)) (decide (A ∈ vs)) mT (g.value A) vT (tevOf L S A T m) := by
    rw [shape_ren fun x hx => hN.low hx, hN.L', hN.S', hN.A', htv]
    refine run_between ⟨fun y hy => ?_, fun y hy => ?_⟩ ⟨fun y hy => ?_, fun y hy => ?_⟩ htest.1 htest.2
    · show g.value (inv L S A T y) = true
      simp only [lowest] at hy
      split at hy
      · rename_i he; rw [he]; exact hy
      · split at hy
        · rename_i he
          rw [he]
          rcases m with _ | (_ | _)
          · cases hy
          · cases hy
          · show g.value T = true
            rw [← hvT.2.1 rfl]; exact hy
        · have hy := of_decide_eq_true hy
          rw [inv_low (List.mem_append_left _ (List.mem_append_right _ hy))]
          exact hpk y hy
    · show g.type (inv L S A T y) = true
      rcases m with _ | (_ | _)
      · cases hy
      · simp only [lowest, tevOf, Bool.and_eq_true, decide_eq_true_eq] at hy
        rw [hy.1, own_inv, ← hvT.2.2 rfl]
        exact hy.2
      · cases hy
    · have hy : g.value (inv L S A T y) = true := hy
      simp only [highest]
      split
      · rename_i he; rw [he] at hy; exact hy
      · split
        · rename_i he
          rw [he] at hy
          rcases m with _ | (_ | _)
          · rfl
          · rfl
          · show vT = true
            rw [hvT.2.1 rfl]
            exact hy
        · rfl
    · have hy : g.type (inv L S A T y) = true := hy
      rcases m with _ | (_ | _)
      · rfl
      · simp only [highest, tevOf]
        by_cases he : y = [if T = L then 'L' else if T = S then 'S' else if T = A then 'A' else 'T']
        · rw [if_pos he]
          rw [he, own_inv] at hy
          rw [hvT.2.2 rfl]
          exact hy
        · rw [if_neg he]
      · rfl
  have hcond : cond path k (decide (L ∈ vs)) (decide (S ∈ vs)) (decide (A ∈ vs)) mT (g.value A) vT (tevOf L S A T m) = true ↔
      FC g vs L S A T path k m := by
    have h12 : cond path k (decide (L ∈ vs)) (decide (S ∈ vs)) (decide (A ∈ vs)) mT (g.value A) vT (tevOf L S A T m) = true ↔
        (path = true → S ∉ vs ∧ L ∉ vs) ∧ (path = true → k = .rstr ∨ k = .rbase → A ∈ vs ∨ g.value A = true) ∧
        (k = .enum ∨ k = .msg ∨ k = .rmsg → typeCond path k (decide (L ∈ vs)) (decide (A ∈ vs)) mT vT (tevOf L S A T m) = true) := by
      unfold cond
      generalize typeCond path k _ _ _ _ _ = tc
      cases path <;> cases k <;> simp [and_assoc]
    have hk : m ≠ none → k = .enum ∨ k = .msg ∨ k = .rmsg := by
      intro hmn
      cases k with
      | enum => exact .inl rfl
      | msg => exact .inr (.inl rfl)
      | rmsg => exact .inr (.inr rfl)
      | str => exact absurd (hb (.inl rfl)) hmn
      | base => exact absurd (hb (.inr (.inl rfl))) hmn
      | rstr => exact absurd (hb (.inr (.inr (.inl rfl)))) hmn
      | rbase => exact absurd (hb (.inr (.inr (.inr rfl)))) hmn
    rw [h12]
    rcases m with _ | (_ | _)
    · exact ⟨fun ⟨h1, h2, _⟩ => ⟨h1, h2, nofun, nofun⟩, fun h => ⟨h.fresh, h.texts, fun _ => rfl⟩⟩
    · have ht : typeCond path k (decide (L ∈ vs)) (decide (A ∈ vs)) mT vT (tevOf L S A T (some false)) = true ↔
          g.type T = true ∧ T ∉ vs ++ ([S] ++ (if path then [] else [A]) ++ (if k = .rmsg then [] else [L])) := by
        rw [← hvT.2.2 rfl]
        simp only [tevOf, typeCond, Bool.and_eq_true, mT]
        refine and_congr Iff.rfl ?_
        by_cases h1 : T = L
        · have e1 : L ≠ S := hN.LS
          have e2 : L ≠ A := hN.LA
          subst h1
          cases path <;> by_cases hk : k = .rmsg <;> simp [e1, e2, hk]
        · by_cases h2 : T = S
          · subst h2
            simp [h1]
          · by_cases h3 : T = A
            · subst h3
              cases path <;> by_cases hk : k = .rmsg <;> simp [h1, h2, hk]
            · cases path <;> by_cases hk : k = .rmsg <;> simp [h1, h2, h3, hk]
      rw [ht]
      exact ⟨fun ⟨h1, h2, h3⟩ => ⟨h1, h2, nofun, fun _ => h3 (hk nofun)⟩, fun h => ⟨h.fresh, h.texts, fun _ => h.own rfl⟩⟩
    · have ht : typeCond path k (decide (L ∈ vs)) (decide (A ∈ vs)) mT vT (tevOf L S A T (some true)) = true ↔ g.value T = true := by
        rw [← hvT.2.1 rfl]
        have : mT = false := decide_eq_false fun h => (hm nofun).1 h.1
        rw [this]
        simp [tevOf, typeCond]
      rw [ht]
      exact ⟨fun ⟨h1, h2, h3⟩ => ⟨h1, h2, fun _ => h3 (hk nofun), nofun⟩, fun h => ⟨h.fresh, h.texts, fun _ => h.imp rfl⟩⟩
  have hmain := (Sim.last hsim).run hN.inj (g := g) (g' := g') (d := 0) rfl (shape_nested path k m) (shape_names path k m)
    (fun x hx => by
      have := shape_names path k m _ hx x (List.mem_singleton_self x)
      show _ = g.value _
      rw [hN.inv this])
    (fun x hx => by
      have := shape_names path k m _ hx x (List.mem_singleton_self x)
      show _ = g.type _
      rw [hN.inv this])
  rw [hrun] at hmain
  unfold result at hmain
  rcases hmain with ⟨h1, h2⟩ | ⟨r, r', h1, h2, h3, h4⟩
  · split at h2
    · cases h2
    · rename_i hc
      exact .inl ⟨fun h => hc (hcond.2 h), h1⟩
  · split at h2
    · rename_i hc
      have hFC := hcond.1 hc
      refine .inr ⟨hFC, ?_⟩
      obtain ⟨c1, rfl⟩ := List.length_eq_one_iff.1 h4
      injection h2 with h2
      subst h2
      refine ⟨c1, h1, fun x => ?_, ?_⟩
      · have h3 : SimB (Mine L S A T) (rho L S A T) c1 (c' ++ if path = true then [(['S'], true), (['L'], true)] else []) := by
          cases h3 with
          | last h3 => exact h3
          | cons _ _ _ h => nomatch h
        by_cases hx : Mine L S A T x
        · rw [h3 x hx]
          have hold : Scope.look c' (rho L S A T x) = if x ∈ lows ∨ x ∈ vs then some true else none := by
            rw [← hsim x hx, hI.look]
          cases path with
          | false => simpa using hold
          | true =>
            obtain ⟨f1, f2⟩ := hFC.fresh rfl
            have hd : ∀ y ∈ [['S'], ['L']], declared y c' = false := by
              intro y hy
              rw [← look_none, look_short]
              simp only [List.mem_cons, List.not_mem_nil, or_false] at hy
              obtain ⟨l1, l2, l3, l4⟩ := lows_short
              rcases hy with rfl | rfl
              · simp [l2, f1]
              · simp [l1, f2]
            have := look_append (u := true) hd (rho L S A T x)
            simp only [List.map_cons, List.map_nil] at this
            simp only [if_true]
            rw [this, hold]
            have hS : rho L S A T x = ['S'] ↔ x = S :=
              ⟨fun h => hN.inj x S hx (.inr (.inr (.inl rfl))) (h.trans hN.S'.symm), fun h => h ▸ hN.S'⟩
            have hL : rho L S A T x = ['L'] ↔ x = L :=
              ⟨fun h => hN.inj x L hx (.inr (.inl rfl)) (h.trans hN.L'.symm), fun h => h ▸ hN.L'⟩
            simp only [List.mem_cons, List.not_mem_nil, or_false, hS, hL, List.mem_append]
            by_cases hsl : x = S ∨ x = L
            · rw [if_pos hsl, if_pos (.inr (.inr hsl))]
            · rw [if_neg hsl]
              simp [hsl]
        · obtain ⟨c2, he, hl⟩ := look_run (x := x) (c := c) (d := 0) rfl rfl (shape_nested path k m)
            (fun e he hn => hx (shape_names path k m e he x hn)) h1
          injection he with he
          rw [he, hl, hI.look]
          have : x ∉ if path = true then [S, L] else [] := by
            intro hin
            split at hin
            · simp only [List.mem_cons, List.not_mem_nil, or_false] at hin
              rcases hin with rfl | rfl
              · exact hx (.inr (.inr (.inl rfl)))
              · exact hx (.inr (.inl rfl))
            · cases hin
          simp only [List.mem_append, this, or_false]
      · intro x hx
        rw [List.mem_append] at hx
        rcases hx with hx | hx
        · exact hI.upper x hx
        · split at hx
          · simp only [List.mem_cons, List.not_mem_nil, or_false] at hx
            rcases hx with rfl | rfl
            · exact hN.upS
            · exact hN.upL
          · cases hx
    · cases h2

end

end Baron.Locals
