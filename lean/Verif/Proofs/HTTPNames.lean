import Verif.Spec.HTTP
import Verif.Proofs.Strs

namespace Baron.HTTP

/-! ## split and join -/

theorem split_ne_nil (sep : Char) (s : Str) : split sep s ≠ [] := by
  cases s with
  | nil => simp [split]
  | cons c r =>
    simp only [split]
    split
    · simp
    · split <;> simp

theorem split_append (sep : Char) (a b : Str) : split sep (a ++ sep :: b) = split sep a ++ split sep b := by
  induction a with
  | nil => simp [split]
  | cons c r ih =>
    by_cases hc : c = sep
    · subst hc; simp [split, ih]
    · simp only [List.cons_append, split, if_neg hc, ih]
      cases h : split sep r with
      | nil => exact absurd h (split_ne_nil _ _)
      | cons p ps => simp

theorem split_none (sep : Char) (a : Str) (h : sep ∉ a) : split sep a = [a] := by
  induction a with
  | nil => simp [split]
  | cons c r ih =>
    simp only [List.mem_cons, not_or] at h
    simp [split, ih h.2, Ne.symm h.1]

theorem split_join (sep : Char) (l : List Str) (hn : l ≠ []) (h : ∀ p ∈ l, sep ∉ p) : split sep (join sep l) = l := by
  induction l with
  | nil => exact absurd rfl hn
  | cons p ps ih =>
    cases ps with
    | nil => simpa [join] using split_none sep p (h p (by simp))
    | cons q qs =>
      simp only [join]
      rw [split_append, split_none sep p (h p (by simp)), ih (by simp) (fun x hx => h x (List.mem_cons_of_mem _ hx))]
      rfl

theorem split_mem (sep : Char) (s : Str) : ∀ p ∈ split sep s, sep ∉ p := by
  induction s with
  | nil => simp [split]
  | cons c r ih =>
    simp only [split]
    split
    · intro p hp
      rcases List.mem_cons.1 hp with rfl | hp
      · simp
      · exact ih p hp
    · rename_i hc
      cases h : split sep r with
      | nil => exact absurd h (split_ne_nil _ _)
      | cons q qs =>
        rw [h] at ih
        intro p hp
        rcases List.mem_cons.1 hp with rfl | hp
        · have := ih q (by simp)
          simp [this, Ne.symm hc]
        · exact ih p (by simp [hp])

theorem join_split (sep : Char) (s : Str) : join sep (split sep s) = s := by
  induction s with
  | nil => simp [split, join]
  | cons c r ih =>
    simp only [split]
    cases h : split sep r with
    | nil => exact absurd h (split_ne_nil _ _)
    | cons q qs =>
      rw [h] at ih
      split
      · rename_i hc; subst hc; simp [join, ih]
      · cases qs with
        | nil => simp_all [join]
        | cons x xs => simp_all [join]

theorem split_length (sep : Char) (s : Str) : (split sep s).length = s.count sep + 1 := by
  induction s with
  | nil => simp [split]
  | cons c r ih =>
    simp only [split]
    split
    · rename_i hc; subst hc; simp [ih]
    · rename_i hc
      cases h : split sep r with
      | nil => exact absurd h (split_ne_nil _ _)
      | cons q qs =>
        rw [h] at ih
        simp only [List.length_cons, List.count_cons, beq_iff_eq, if_neg hc] at ih ⊢
        omega

/-! ## segments -/

theorem segCount_eq (s : Str) : segCount s = (split '/' (trimRight '/' s)).length := by
  rw [split_length, segCount, trimRight, List.count_reverse]

theorem trim_decomp (s : Str) : ∃ n, s = trimRight '/' s ++ List.replicate n '/' := by
  have h : s.reverse.takeWhile (· = '/') ++ s.reverse.dropWhile (· = '/') = s.reverse := List.takeWhile_append_dropWhile
  refine ⟨(s.reverse.takeWhile (· = '/')).length, ?_⟩
  have h2 := congrArg List.reverse h
  rw [List.reverse_append, List.reverse_reverse] at h2
  have h3 : s.reverse.takeWhile (· = '/') = List.replicate (s.reverse.takeWhile (· = '/')).length '/' := by
    apply List.eq_replicate_of_mem
    intro b hb
    simpa using Strs.mem_takeWhile_imp hb
  rw [trimRight]
  conv => lhs; rw [← h2, h3, List.reverse_replicate]

theorem split_replicate (sep : Char) (a : Str) (n : Nat) :
    split sep (a ++ List.replicate n sep) = split sep a ++ List.replicate n [] := by
  induction n generalizing a with
  | zero => simp
  | succ n ih =>
    rw [List.replicate_succ', ← List.append_assoc, List.replicate_succ', ← List.append_assoc, ← ih]
    rw [show a ++ List.replicate n sep ++ [sep] = (a ++ List.replicate n sep) ++ sep :: [] from rfl, split_append]
    simp [split]

/-- A non-empty segment keeps its place when trailing slashes are stripped. -/
theorem nonempty_seg_lt (s p : Str) (i : Nat) (h : (split '/' s)[i]? = some p) (hp : p ≠ []) :
    i < (split '/' (trimRight '/' s)).length := by
  obtain ⟨n, hn⟩ := trim_decomp s
  rw [hn, split_replicate] at h
  apply Nat.lt_of_not_le
  intro hle
  rw [List.getElem?_append_right hle] at h
  have := List.mem_of_getElem? h
  exact hp (List.eq_of_mem_replicate this)

theorem trim_length_le (s : Str) : (split '/' (trimRight '/' s)).length ≤ (split '/' s).length := by
  obtain ⟨n, hn⟩ := trim_decomp s
  conv => rhs; rw [hn, split_replicate]
  simp

theorem segAt_cons_ne {c : Char} {r p : Str} {i : Nat} (hc : c ≠ '/') :
    SegAt (c :: r) i p ↔ match i with
      | 0 => ∃ p', p = c :: p' ∧ SegAt r 0 p'
      | i + 1 => SegAt r (i + 1) p := by
  constructor
  · rintro ⟨a, b, hs, hp, ha, hal, hb⟩
    cases i with
    | zero =>
      have : a = [] := by
        rcases hal with rfl | ⟨a', rfl⟩
        · rfl
        · simp at ha
      subst this
      cases p with
      | nil =>
        rcases hb with rfl | ⟨b', rfl⟩
        · simp at hs
        · simp at hs; exact absurd hs.1 hc
      | cons d p' =>
        simp at hs
        obtain ⟨rfl, hs⟩ := hs
        simp only [List.mem_cons, not_or] at hp
        exact ⟨p', rfl, [], b, by simpa using hs, hp.2, by simp, .inl rfl, hb⟩
    | succ i =>
      cases a with
      | nil => simp at ha
      | cons d a =>
        simp at hs
        obtain ⟨rfl, hs⟩ := hs
        refine ⟨a, b, by simpa using hs, hp, ?_, ?_, hb⟩
        · simpa [List.count_cons, hc] using ha
        · rcases hal with h | ⟨a', h⟩
          · simp at h
          · cases a' with
            | nil => simp at h; exact absurd h.1 hc
            | cons x a' => simp at h; exact .inr ⟨a', h.2⟩
  · cases i with
    | zero =>
      rintro ⟨p', rfl, a, b, hs, hp, ha, hal, hb⟩
      have : a = [] := by
        rcases hal with rfl | ⟨a', rfl⟩
        · rfl
        · simp at ha
      subst this
      refine ⟨[], b, by simp at hs; simp [hs], ?_, by simp, .inl rfl, hb⟩
      simp [hp, Ne.symm hc]
    | succ i =>
      rintro ⟨a, b, hs, hp, ha, hal, hb⟩
      refine ⟨c :: a, b, by simp at hs; simp [hs], hp, by simpa [List.count_cons, hc] using ha, .inr ?_, hb⟩
      rcases hal with rfl | ⟨a', rfl⟩
      · simp at ha
      · exact ⟨c :: a', by simp⟩

theorem segAt_cons_sep {r p : Str} {i : Nat} :
    SegAt ('/' :: r) i p ↔ match i with
      | 0 => p = []
      | i + 1 => SegAt r i p := by
  constructor
  · rintro ⟨a, b, hs, hp, ha, hal, hb⟩
    cases i with
    | zero =>
      have : a = [] := by
        rcases hal with rfl | ⟨a', rfl⟩
        · rfl
        · simp at ha
      subst this
      cases p with
      | nil => rfl
      | cons d p' => simp at hs hp; exact absurd hs.1 hp.1
    | succ i =>
      cases a with
      | nil => simp at ha
      | cons d a =>
        simp at hs
        obtain ⟨rfl, hs⟩ := hs
        refine ⟨a, b, by simpa using hs, hp, by simpa using ha, ?_, hb⟩
        rcases hal with h | ⟨a', h⟩
        · simp at h
        · cases a' with
          | nil => simp at h; exact .inl h
          | cons x a' => simp at h; exact .inr ⟨a', h.2⟩
  · cases i with
    | zero => rintro rfl; exact ⟨[], '/' :: r, by simp, by simp, by simp, .inl rfl, .inr ⟨r, rfl⟩⟩
    | succ i =>
      rintro ⟨a, b, hs, hp, ha, hal, hb⟩
      refine ⟨'/' :: a, b, by simp at hs; simp [hs], hp, by simp [ha], .inr ?_, hb⟩
      rcases hal with rfl | ⟨a', rfl⟩
      · exact ⟨[], rfl⟩
      · exact ⟨'/' :: a', by simp⟩

theorem segAt_iff (s p : Str) (i : Nat) : SegAt s i p ↔ (split '/' s)[i]? = some p := by
  induction s generalizing i p with
  | nil =>
    constructor
    · rintro ⟨a, b, hs, hp, ha, -⟩
      simp at hs
      obtain ⟨rfl, rfl, rfl⟩ := hs
      simp at ha; subst ha; simp [split]
    · cases i with
      | zero => simp [split]; rintro rfl; exact ⟨[], [], by simp⟩
      | succ i => simp [split]
  | cons c r ih =>
    by_cases hc : c = '/'
    · subst hc
      rw [segAt_cons_sep]
      cases i with
      | zero => simp [split, eq_comm]
      | succ i => simp [split, ih]
    · rw [segAt_cons_ne hc]
      have hne := split_ne_nil '/' r
      cases h : split '/' r with
      | nil => exact absurd h hne
      | cons q qs =>
        rw [h] at ih
        simp only [split, if_neg hc, h]
        cases i with
        | zero =>
          simp only [ih]
          simp only [List.getElem?_cons_zero, Option.some.injEq]
          constructor
          · rintro ⟨p', rfl, rfl⟩; rfl
          · rintro rfl; exact ⟨q, rfl, rfl⟩
        | succ i => simp only [ih]; simp

theorem hasBrace_iff (p : Str) : hasBrace p = true ↔ Braced p := by
  simp only [hasBrace, Braced, List.any_eq_true, Bool.or_eq_true, decide_eq_true_eq]
  constructor
  · rintro ⟨c, hc, rfl | rfl⟩ <;> simp [hc]
  · rintro (h | h)
    · exact ⟨_, h, .inl rfl⟩
    · exact ⟨_, h, .inr rfl⟩

theorem look_cons {V : Type} (k k' : Str) (v : V) (m : List (Str × V)) :
    look ((k, v) :: m) k' = if k = k' then some v else look m k' := by
  simp only [look, List.find?_cons]
  by_cases h : k = k' <;> simp [h]

/-- What `BuildParamMap` holds: for each name its last position. -/
theorem buildGo_look (ps : List Str) : ∀ (idx : Nat) (m : List (Str × Nat)) (k : Str) (i : Nat),
    look (buildGo idx ps m) k = some i ↔
      (∃ (j : Nat) (p : Str), i = idx + j ∧ ps[j]? = some p ∧ hasBrace p = true ∧ removeBraces p = k ∧
        ∀ (j' : Nat) (q : Str), ps[j']? = some q → hasBrace q = true → removeBraces q = k → j' ≤ j) ∨
      ((∀ (j' : Nat) (q : Str), ps[j']? = some q → hasBrace q = true → removeBraces q ≠ k) ∧ look m k = some i) := by
  induction ps with
  | nil => intro idx m k i; simp [buildGo]
  | cons p ps ih =>
    intro idx m k i
    rw [buildGo, ih]
    constructor
    · rintro (⟨j, q, hi, hq, hb, hk, hmax⟩ | ⟨hno, hm⟩)
      · refine .inl ⟨j + 1, q, by omega, by simpa using hq, hb, hk, ?_⟩
        intro j' q' hq' hb' hk'
        cases j' with
        | zero => omega
        | succ j' => have := hmax j' q' (by simpa using hq') hb' hk'; omega
      · by_cases hb : hasBrace p = true
        · rw [if_pos hb, look_cons] at hm
          by_cases hk : removeBraces p = k
          · rw [if_pos hk] at hm
            refine .inl ⟨0, p, by simp at hm; omega, by simp, hb, hk, ?_⟩
            intro j' q' hq' hb' hk'
            cases j' with
            | zero => omega
            | succ j' => exact absurd hk' (hno j' q' (by simpa using hq') hb')
          · rw [if_neg hk] at hm
            refine .inr ⟨?_, hm⟩
            intro j' q' hq' hb'
            cases j' with
            | zero => simp at hq'; subst hq'; exact hk
            | succ j' => exact hno j' q' (by simpa using hq') hb'
        · rw [if_neg hb] at hm
          refine .inr ⟨?_, hm⟩
          intro j' q' hq' hb'
          cases j' with
          | zero => simp at hq'; subst hq'; exact absurd hb' hb
          | succ j' => exact hno j' q' (by simpa using hq') hb'
    · rintro (⟨j, q, hi, hq, hb, hk, hmax⟩ | ⟨hno, hm⟩)
      · cases j with
        | zero =>
          simp at hq; subst hq
          refine .inr ⟨?_, ?_⟩
          · intro j' q' hq' hb' hk'
            have := hmax (j' + 1) q' (by simpa using hq') hb' hk'
            omega
          · rw [if_pos hb, look_cons, if_pos hk]; simp [hi]
        | succ j =>
          refine .inl ⟨j, q, by omega, by simpa using hq, hb, hk, ?_⟩
          intro j' q' hq' hb' hk'
          have := hmax (j' + 1) q' (by simpa using hq') hb' hk'
          omega
      · refine .inr ⟨fun j' q' hq' hb' => hno (j' + 1) q' (by simpa using hq') hb', ?_⟩
        by_cases hb : hasBrace p = true
        · rw [if_pos hb, look_cons, if_neg (hno 0 p (by simp) hb), hm]
        · rw [if_neg hb, hm]

theorem buildGo_mem (ps : List Str) : ∀ (idx : Nat) (m : List (Str × Nat)) (k : Str) (i : Nat),
    (k, i) ∈ buildGo idx ps m → (∃ (j : Nat) (p : Str), i = idx + j ∧ ps[j]? = some p ∧ hasBrace p = true) ∨ (k, i) ∈ m := by
  induction ps with
  | nil => intro idx m k i h; exact .inr h
  | cons p ps ih =>
    intro idx m k i h
    rw [buildGo] at h
    rcases ih _ _ _ _ h with ⟨j, q, hi, hq, hb⟩ | h
    · exact .inl ⟨j + 1, q, by omega, by simpa using hq, hb⟩
    · by_cases hb : hasBrace p = true
      · rw [if_pos hb] at h
        rcases List.mem_cons.1 h with h | h
        · cases h; exact .inl ⟨0, p, by simp, by simp, hb⟩
        · exact .inr h
      · rw [if_neg hb] at h; exact .inr h

theorem fillGo_ok (parts : List Str) (m : List (Str × Nat)) (h : ∀ k i, (k, i) ∈ m → i < parts.length) :
    ∃ r, fillGo parts m = .ok r ∧ ∀ k, look r k = (look m k).bind (parts[·]?) := by
  induction m with
  | nil => exact ⟨[], rfl, fun k => by simp [look]⟩
  | cons kv m ih =>
    obtain ⟨k, v⟩ := kv
    obtain ⟨r, hr, hl⟩ := ih (fun k' i hk => h k' i (by simp [hk]))
    have hv := h k v (by simp)
    refine ⟨(k, parts[v]) :: r, ?_, ?_⟩
    · simp [fillGo, hr, List.getElem?_eq_getElem hv]
    · intro k'
      rw [look_cons, look_cons]
      split
      · simp [List.getElem?_eq_getElem hv]
      · exact hl k'

theorem hasBrace_ne_nil {p : Str} (h : hasBrace p = true) : p ≠ [] := by
  rintro rfl; simp [hasBrace] at h

theorem pathParams_ok (url tmpl : Str) (h : segCount url = segCount tmpl) :
    ∃ m, pathParams url tmpl = .ok m ∧
      ∀ k, look m k = (look (buildParamMap tmpl) k).bind ((split '/' url)[·]?) := by
  rw [segCount_eq, segCount_eq] at h
  have hin : ∀ k i, (k, i) ∈ buildParamMap tmpl → i < (split '/' url).length := by
    intro k i hk
    rcases buildGo_mem _ _ _ _ _ hk with ⟨j, p, hi, hp, hb⟩ | h'
    · have := nonempty_seg_lt tmpl p j hp (hasBrace_ne_nil hb)
      have := trim_length_le url
      omega
    · simp at h'
  obtain ⟨r, hr, hl⟩ := fillGo_ok _ _ hin
  refine ⟨r, ?_, hl⟩
  rw [pathParams]
  simp only [h, ne_eq, not_true_eq_false, if_false, hr]

end Baron.HTTP
