import Verif.Model.Assets
import Verif.Proofs.HTTPPaths
import Verif.Proofs.Runtime

/-! # Directory trees of embedded files -/

namespace Baron.Assets

open Baron.HTTP
open Baron.Runtime (look_some_mem)

/-- The file a node is. -/
def own : Option Str → List (List Str × Str)
  | some x => [([], x)]
  | none => []

/-- Files have no children, and directories are not empty. -/
def shape : Option Str → List (Str × Tree) → Bool
  | some _, cs => cs.isEmpty
  | none, cs => !cs.isEmpty

mutual
/-- The files below a tree with their paths. -/
def leaves : Tree → List (List Str × Str)
  | .node f cs => own f ++ leavesL cs
def leavesL : List (Str × Tree) → List (List Str × Str)
  | [] => []
  | (n, t) :: r => (leaves t).map (fun x => (n :: x.1, x.2)) ++ leavesL r
end

mutual
/-- Children have distinct names, files no children, and directories are not empty. -/
def wf : Tree → Bool
  | .node f cs => shape f cs && decide (cs.map (·.1)).Nodup && wfL cs
def wfL : List (Str × Tree) → Bool
  | [] => true
  | (_, t) :: r => wf t && wfL r
end

theorem mem_leavesL : ∀ {cs : List (Str × Tree)} {l : List Str} {x : Str},
    (l, x) ∈ leavesL cs ↔ ∃ n t r, l = n :: r ∧ (n, t) ∈ cs ∧ (r, x) ∈ leaves t := by
  intro cs
  induction cs with
  | nil => intro l x; simp [leavesL]
  | cons a cs ih =>
    obtain ⟨n, t⟩ := a
    intro l x
    rw [leavesL, List.mem_append, ih]
    constructor
    · rintro (h | ⟨n', t', r, h1, h2, h3⟩)
      · obtain ⟨⟨r, y⟩, hm, he⟩ := List.mem_map.mp h
        cases he
        exact ⟨n, t, r, rfl, .head _, hm⟩
      · exact ⟨n', t', r, h1, .tail _ h2, h3⟩
    · rintro ⟨n', t', r, h1, h2, h3⟩
      rcases List.mem_cons.mp h2 with e | h2
      · cases e
        exact .inl (List.mem_map.mpr ⟨(r, x), h3, by rw [h1]⟩)
      · exact .inr ⟨n', t', r, h1, h2, h3⟩

theorem wfL_mem : ∀ {cs : List (Str × Tree)}, wfL cs = true → ∀ {n t}, (n, t) ∈ cs → wf t = true := by
  intro cs
  induction cs with
  | nil => intro _ n t h; cases h
  | cons a cs ih =>
    obtain ⟨n, t⟩ := a
    intro h n' t' hm
    rw [wfL, Bool.and_eq_true] at h
    rcases List.mem_cons.mp hm with e | hm
    · cases e; exact h.1
    · exact ih h.2 hm

theorem wf_node {f : Option Str} {cs : List (Str × Tree)} (h : wf (.node f cs) = true) :
    (f.isSome = true → cs = []) ∧ (f = none → cs ≠ []) ∧ (cs.map (·.1)).Nodup ∧ wfL cs = true := by
  rw [wf, Bool.and_eq_true, Bool.and_eq_true, decide_eq_true_iff] at h
  refine ⟨?_, ?_, h.1.2, h.2⟩
  · intro hf
    cases f with
    | none => cases hf
    | some x => simpa [shape] using h.1.1
  · intro hf
    subst hf
    simpa [shape] using h.1.1

/-- A directory holds a file. -/
theorem leaves_ne : ∀ {t : Tree}, wf t = true → ∃ r x, (r, x) ∈ leaves t := by
  intro t
  induction t using leaves.induct (motive_2 := fun cs => cs ≠ [] → wfL cs = true → ∃ r x, (r, x) ∈ leavesL cs) with
  | case1 f cs ih =>
    intro h
    have h := wf_node h
    cases f with
    | some x => exact ⟨[], x, by rw [leaves]; exact .head _⟩
    | none =>
      obtain ⟨r, x, hr⟩ := ih (h.2.1 rfl) h.2.2.2
      exact ⟨r, x, by rw [leaves]; exact hr⟩
  | case2 h _ => exact absurd rfl h
  | case3 n t cs ih1 ih2 _ h =>
    rw [wfL, Bool.and_eq_true] at h
    obtain ⟨r, x, hr⟩ := ih1 h.1
    exact ⟨n :: r, x, by rw [leavesL]; exact List.mem_append.mpr (.inl (List.mem_map.mpr ⟨_, hr, rfl⟩))⟩

theorem look_of_mem {V : Type} : ∀ {m : List (Str × V)} {k : Str} {v : V}, (m.map (·.1)).Nodup → (k, v) ∈ m → look m k = some v := by
  intro m
  induction m with
  | nil => intro k v _ h; cases h
  | cons a m ih =>
    intro k v hn h
    obtain ⟨k', v'⟩ := a
    rw [List.map_cons, List.nodup_cons] at hn
    rw [look_cons]
    rcases List.mem_cons.mp h with e | h
    · cases e; simp
    · rw [if_neg]
      · exact ih hn.2 h
      · intro e
        subst e
        exact hn.1 (List.mem_map.mpr ⟨_, h, rfl⟩)

theorem walk_some : ∀ {l : List Str} {t t' : Tree}, wf t = true → walk t l = some t' →
    wf t' = true ∧ ∀ r x, (r, x) ∈ leaves t' ↔ (l ++ r, x) ∈ leaves t := by
  intro l
  induction l with
  | nil => intro t t' h e; cases e; exact ⟨h, fun r x => Iff.rfl⟩
  | cons p l ih =>
    intro t t' h e
    obtain ⟨f, cs⟩ := t
    have hw := wf_node h
    rw [walk] at e
    cases hl : look cs p with
    | none => rw [show (Tree.node f cs).children = cs from rfl, hl] at e; cases e
    | some t1 =>
      rw [show (Tree.node f cs).children = cs from rfl, hl] at e
      have hm := look_some_mem hl
      obtain ⟨a, b⟩ := ih (wfL_mem hw.2.2.2 hm) e
      refine ⟨a, fun r x => ?_⟩
      rw [b, leaves]
      have hf : f = none := by
        cases f with
        | none => rfl
        | some y => exact absurd (hw.1 rfl) (List.ne_nil_of_mem hm)
      subst hf
      rw [own, List.nil_append, mem_leavesL]
      constructor
      · intro hx; exact ⟨p, t1, l ++ r, rfl, hm, hx⟩
      · rintro ⟨n, t2, r', e1, h2, h3⟩
        cases e1
        have := look_of_mem hw.2.2.1 h2
        rw [hl] at this
        cases this
        exact h3

theorem walk_none : ∀ {l : List Str} {t : Tree}, wf t = true → walk t l = none → ∀ r x, (l ++ r, x) ∉ leaves t := by
  intro l
  induction l with
  | nil => intro t h e; cases e
  | cons p l ih =>
    intro t h e r x hx
    obtain ⟨f, cs⟩ := t
    have hw := wf_node h
    rw [walk] at e
    rw [leaves] at hx
    have hx : (p :: (l ++ r), x) ∈ leavesL cs := by
      rcases List.mem_append.mp hx with hx | hx
      · cases f with
        | none => cases hx
        | some y => rcases List.mem_singleton.mp hx with e; cases e
      · exact hx
    obtain ⟨n, t2, r', e1, h2, h3⟩ := mem_leavesL.mp hx
    cases e1
    have := look_of_mem hw.2.2.1 h2
    rw [show (Tree.node f cs).children = cs from rfl, this] at e
    exact ih (wfL_mem hw.2.2.2 h2) e r x h3

/-- What is at the end of a path: a file of that path, or a directory whose children begin the paths that go on. -/
theorem walk_file {l : List Str} {t t' : Tree} {x : Str} (h : wf t = true) (e : walk t l = some t') (hf : t'.file = some x) :
    (l, x) ∈ leaves t ∧ ∀ r y, (l ++ r, y) ∈ leaves t → r = [] := by
  obtain ⟨a, b⟩ := walk_some h e
  obtain ⟨f, cs⟩ := t'
  cases hf
  have hw := wf_node a
  have hc := hw.1 rfl
  subst hc
  have hl : leaves (.node (some x) []) = [([], x)] := by rw [leaves, leavesL]; rfl
  rw [hl] at b
  refine ⟨?_, fun r y hr => ?_⟩
  · have := (b [] x).mp (.head _)
    rwa [List.append_nil] at this
  · have := (b r y).mpr hr
    rcases List.mem_singleton.mp this with e
    cases e
    rfl

theorem walk_dir {l : List Str} {t t' : Tree} (h : wf t = true) (e : walk t l = some t') (hf : t'.file = none) :
    (t'.children.map (·.1)).Nodup ∧ (∃ r x, (l ++ r, x) ∈ leaves t) ∧ (∀ x, (l, x) ∉ leaves t) ∧
      ∀ n, n ∈ t'.children.map (·.1) ↔ ∃ r x, (l ++ n :: r, x) ∈ leaves t := by
  obtain ⟨a, b⟩ := walk_some h e
  obtain ⟨f, cs⟩ := t'
  cases hf
  have hw := wf_node a
  have hl : leaves (.node none cs) = leavesL cs := by rw [leaves]; rfl
  refine ⟨hw.2.2.1, ?_, ?_, ?_⟩
  · obtain ⟨r, x, hr⟩ := leaves_ne a
    exact ⟨r, x, (b r x).mp hr⟩
  · intro x hx
    have := (b [] x).mpr (by rwa [List.append_nil])
    rw [hl] at this
    obtain ⟨n, t, r, e, _⟩ := mem_leavesL.mp this
    cases e
  · intro n
    show n ∈ cs.map (·.1) ↔ _
    constructor
    · intro hn
      obtain ⟨⟨n', t⟩, hm, he⟩ := List.mem_map.mp hn
      cases he
      obtain ⟨r, x, hr⟩ := leaves_ne (wfL_mem hw.2.2.2 hm)
      refine ⟨r, x, (b (n' :: r) x).mp ?_⟩
      rw [hl]
      exact mem_leavesL.mpr ⟨n', t, r, rfl, hm, hr⟩
    · rintro ⟨r, x, hr⟩
      have := (b (n :: r) x).mpr hr
      rw [hl] at this
      obtain ⟨n', t, r', e, hm, _⟩ := mem_leavesL.mp this
      cases e
      exact List.mem_map.mpr ⟨_, hm, rfl⟩

end Baron.Assets
