import Verif.Proofs.Generator

namespace Baron.Gen

/-! ## Interrupted writes -/

theorem runSteps_append (fs : FS) (a b : List WriteStep) : runSteps fs (a ++ b) = runSteps (runSteps fs a) b := by
  unfold runSteps; exact List.foldl_append

theorem runSteps_pieces (fs : FS) (p : Str) (pieces : List Str) :
    runSteps fs (pieces.map (.append p)) p = (if pieces = [] then fs p else some ((fs p).getD [] ++ pieces.flatten)) ∧
    ∀ q, q ≠ p → runSteps fs (pieces.map (.append p)) q = fs q := by
  induction pieces generalizing fs with
  | nil => exact ⟨by rw [if_pos rfl]; rfl, fun q _ => rfl⟩
  | cons a l ih =>
    have step : runSteps fs ((a :: l).map (.append p)) = runSteps (WriteStep.apply fs (.append p a)) (l.map (.append p)) := rfl
    rw [step]
    obtain ⟨h1, h2⟩ := ih (WriteStep.apply fs (.append p a))
    have at_p : WriteStep.apply fs (.append p a) p = some ((fs p).getD [] ++ a) := by
      unfold WriteStep.apply; simp only; rw [if_pos trivial]
    refine ⟨?_, fun q hq => ?_⟩
    · rw [h1, at_p, if_neg (List.cons_ne_nil _ _)]
      by_cases hl : l = []
      · subst hl; rw [if_pos rfl]; simp
      · rw [if_neg hl]; simp
    · rw [h2 q hq]; unfold WriteStep.apply; simp only; rw [if_neg hq]

theorem runSteps_file (fs : FS) (p : Str) (pieces : List Str) :
    runSteps fs (fileSteps p pieces) = writeFile fs p pieces.flatten := by
  funext q
  have step : runSteps fs (fileSteps p pieces) = runSteps (WriteStep.apply fs (.create p)) (pieces.map (.append p)) := rfl
  rw [step]
  obtain ⟨h1, h2⟩ := runSteps_pieces (WriteStep.apply fs (.create p)) p pieces
  have at_p : WriteStep.apply fs (.create p) p = some [] := by unfold WriteStep.apply; simp only; rw [if_pos trivial]
  unfold writeFile
  by_cases hq : q = p
  · subst hq
    rw [h1, at_p, if_pos rfl]
    by_cases hl : pieces = []
    · subst hl; rw [if_pos rfl]; rfl
    · rw [if_neg hl]; rfl
  · rw [if_neg hq, h2 q hq]; unfold WriteStep.apply; simp only; rw [if_neg hq]

theorem runSteps_all (fs : FS) (files : List (Str × List Str)) :
    runSteps fs (allSteps files) = writeAll fs (files.map fun x => (x.1, x.2.flatten)) := by
  induction files generalizing fs with
  | nil => rfl
  | cons a l ih =>
    have : allSteps (a :: l) = fileSteps a.1 a.2 ++ allSteps l := rfl
    rw [this, runSteps_append, runSteps_file, ih]
    rfl

/-- A prefix of the steps writes some files completely and at most one in part. -/
theorem prefix_steps (files : List (Str × List Str)) {l : List WriteStep} (h : l <+: allSteps files) :
    (∃ done, done <+: files ∧ l = allSteps done) ∨
    ∃ done cur rest k, files = done ++ cur :: rest ∧ l = allSteps done ++ fileSteps cur.1 (cur.2.take k) := by
  induction files generalizing l with
  | nil =>
    have h' : l <+: [] := h
    rw [List.prefix_nil] at h'
    exact Or.inl ⟨[], List.prefix_rfl, h'⟩
  | cons a fs ih =>
    have e : allSteps (a :: fs) = fileSteps a.1 a.2 ++ allSteps fs := rfl
    rw [e] at h
    by_cases hl : l.length ≤ (fileSteps a.1 a.2).length
    · have hp : l <+: fileSteps a.1 a.2 := List.prefix_of_prefix_length_le h (List.prefix_append _ _) hl
      cases l with
      | nil => exact Or.inl ⟨[], List.nil_prefix, rfl⟩
      | cons s l =>
        right
        unfold fileSteps at hp
        rw [List.cons_prefix_cons] at hp
        refine ⟨[], a, fs, l.length, rfl, ?_⟩
        have : l = List.take l.length (a.2.map (.append a.1)) := List.prefix_iff_eq_take.mp hp.2
        show s :: l = fileSteps a.1 (a.2.take l.length)
        unfold fileSteps
        rw [hp.1, List.map_take, ← this]
    · have hp : fileSteps a.1 a.2 <+: l :=
        List.prefix_of_prefix_length_le (List.prefix_append _ _) h (by omega)
      obtain ⟨l', rfl⟩ := hp
      rw [List.prefix_append_right_inj] at h
      rcases ih h with ⟨d, hd, hl'⟩ | ⟨d, c, r, k, hd, hl'⟩
      · exact Or.inl ⟨a :: d, by rw [List.cons_prefix_cons]; exact ⟨rfl, hd⟩, by rw [hl']; rfl⟩
      · exact Or.inr ⟨a :: d, c, r, k, by rw [hd]; rfl, by rw [hl', ← List.append_assoc]; rfl⟩

theorem flatten_take_prefix (l : List Str) (k : Nat) : (l.take k).flatten <+: l.flatten := by
  conv => rhs; rw [← List.take_append_drop k l, List.flatten_append]
  exact List.prefix_append _ _

end Baron.Gen
