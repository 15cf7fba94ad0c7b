import Verif.Proofs.HTTPNames

namespace Baron.HTTP

theorem templateOf_eq (ps : List Piece) (h : ps ≠ []) : templateOf ps = join '/' ([] :: ps.map Piece.text) := by
  have key : ∀ (ps : List Piece) (x : Str), join '/' (x :: ps.map Piece.text) = x ++ templateOf ps := by
    intro ps
    induction ps with
    | nil => intro x; simp [join, templateOf]
    | cons p ps ih =>
      intro x
      rw [List.map_cons, join, ih]
      simp [templateOf]
  rw [key]; rfl

theorem not_braced_iff (s : Str) : ¬ Braced s ↔ '{' ∉ s ∧ '}' ∉ s := by simp [Braced]

theorem piece_text_slash {ps : List Piece} (h : TemplateOK ps) : ∀ t ∈ ([] : Str) :: ps.map Piece.text, '/' ∉ t := by
  intro t ht
  rcases List.mem_cons.1 ht with rfl | ht
  · simp
  · obtain ⟨p, hp, rfl⟩ := List.mem_map.1 ht
    cases p with
    | lit s => exact (h.lit s hp).1
    | var n =>
      have := (h.var n hp).1
      simp [Piece.text, this]

theorem split_template {ps : List Piece} (h : TemplateOK ps) :
    split '/' (templateOf ps) = [] :: ps.map Piece.text := by
  rw [templateOf_eq ps h.some, split_join _ _ (by simp) (piece_text_slash h)]

theorem removeBraces_not {s : Str} (h : ¬ Braced s) : removeBraces s = s := by
  rw [not_braced_iff] at h
  rw [removeBraces, List.filter_eq_self.2, List.filter_eq_self.2]
  · intro c hc; simp; rintro rfl; exact h.1 hc
  · intro c hc
    have hc' := (List.mem_filter.1 hc).1
    simp; rintro rfl; exact h.2 hc'

theorem removeBraces_var {n : Str} (h : ¬ Braced n) : removeBraces (Piece.var n).text = n := by
  have : removeBraces ('{' :: n ++ ['}']) = removeBraces n := by
    simp [removeBraces, List.filter_append]
  rw [Piece.text, this, removeBraces_not h]

theorem isParam_var {n : Str} (h : n ≠ []) : isParamPart (Piece.var n).text = true := by
  have : 0 < n.length := List.length_pos_iff.2 h
  simp [isParamPart, Piece.text, List.getLast?_cons]
  omega

theorem isParam_lit {s : Str} (h : ¬ Braced s) : isParamPart s = false := by
  rw [not_braced_iff] at h
  cases s with
  | nil => rfl
  | cons c r =>
    have : c ≠ '{' := by rintro rfl; simp at h
    simp [isParamPart, this]

theorem hasBrace_var (n : Str) : hasBrace (Piece.var n).text = true := by
  rw [hasBrace_iff]; simp [Braced, Piece.text]

theorem hasBrace_lit {s : Str} (h : ¬ Braced s) : hasBrace s = false := by
  rw [← hasBrace_iff] at h; simpa using h

/-- What a template part becomes on the client. -/
theorem section_eval {ps : List Piece} (h : TemplateOK ps) (env : Str → Str) (p : Piece) (hp : p ∈ ps) :
    (if isParamPart p.text then env (Strs.goCamelCase (removeBraces p.text)) else p.text) = p.value env := by
  cases p with
  | lit s => rw [show (Piece.lit s).text = s from rfl, isParam_lit (h.lit s hp).2]; rfl
  | var n =>
    obtain ⟨-, hb, hne⟩ := h.var n hp
    rw [isParam_var hne, removeBraces_var hb]; rfl

theorem clientPath_eq {ps : List Piece} (h : TemplateOK ps) (env : Str → Str) :
    clientPath env (templateOf ps) = join '/' ([] :: ps.map (Piece.value env)) := by
  rw [clientPath, split_template h, List.map_cons, List.map_map]
  congr 1
  rw [show isParamPart ([] : Str) = false from rfl]
  congr 1
  apply List.map_congr_left
  intro p hp
  exact section_eval h env p hp

theorem split_client {ps : List Piece} (h : TemplateOK ps) (env : Str → Str)
    (hv : ∀ n, Piece.var n ∈ ps → '/' ∉ env (Strs.goCamelCase n)) :
    split '/' (clientPath env (templateOf ps)) = [] :: ps.map (Piece.value env) := by
  rw [clientPath_eq h, split_join _ _ (by simp)]
  intro t ht
  rcases List.mem_cons.1 ht with rfl | ht
  · simp
  · obtain ⟨p, hp, rfl⟩ := List.mem_map.1 ht
    cases p with
    | lit s => exact (h.lit s hp).1
    | var n => exact hv n hp

/-- Number of segments left when trailing empty ones are dropped. -/
def coreLen : List Str → Nat
  | [] => 0
  | s :: r => if coreLen r = 0 then (if s = [] then 0 else 1) else coreLen r + 1

theorem coreLen_replicate (l : List Str) (n : Nat) : coreLen (l ++ List.replicate n []) = coreLen l := by
  have h0 : ∀ n : Nat, coreLen (List.replicate n ([] : Str)) = 0 := by
    intro n
    induction n with
    | zero => rfl
    | succ n ih => simp [List.replicate_succ, coreLen, ih]
  induction l with
  | nil => simpa [coreLen] using h0 n
  | cons s r ih => simp [coreLen, ih]

theorem coreLen_last {l : List Str} {s : Str} (h : s ≠ []) : coreLen (l ++ [s]) = l.length + 1 := by
  induction l with
  | nil => simp [coreLen, h]
  | cons a r ih => simp [coreLen, ih]

theorem split_last (s : Str) : (split '/' s).getLast? = some [] → s = [] ∨ ∃ r, s = r ++ ['/'] := by
  intro h
  have hj := join_split '/' s
  generalize split '/' s = l at h hj
  induction l generalizing s with
  | nil => simp at h
  | cons p ps ih =>
    cases ps with
    | nil => simp at h; subst h; left; simpa [join] using hj.symm
    | cons q qs =>
      simp only [join] at hj
      have := ih (join '/' (q :: qs)) (by simpa using h) rfl
      right
      rcases this with h0 | ⟨r, hr⟩
      · exact ⟨p, by rw [← hj, h0]⟩
      · exact ⟨p ++ '/' :: r, by rw [← hj, hr]; simp⟩

theorem trimRight_no_last (s : Str) : ∀ r, trimRight '/' s ≠ r ++ ['/'] := by
  intro r h
  have := congrArg List.reverse h
  rw [trimRight, List.reverse_reverse, List.reverse_append] at this
  have h2 := List.head_dropWhile_not (p := fun c : Char => decide (c = '/')) (l := s.reverse)
    (by rw [this]; simp)
  simp only [this] at h2
  simp at h2

theorem segCount_core (s : Str) : segCount s = if coreLen (split '/' s) = 0 then 1 else coreLen (split '/' s) := by
  obtain ⟨n, hn⟩ := trim_decomp s
  rw [segCount_eq]
  conv => rhs; rw [hn, split_replicate, coreLen_replicate]
  have hlast : (split '/' (trimRight '/' s)).getLast? = some [] → trimRight '/' s = [] := by
    intro h
    rcases split_last _ h with h | ⟨r, hr⟩
    · exact h
    · exact absurd hr (trimRight_no_last s r)
  by_cases h : trimRight '/' s = []
  · rw [h]; simp [split, coreLen]
  · have hne := split_ne_nil '/' (trimRight '/' s)
    generalize split '/' (trimRight '/' s) = l at hlast hne
    rcases List.eq_nil_or_concat l with rfl | ⟨l', x, rfl⟩
    · exact absurd rfl hne
    · have hx : x ≠ [] := by
        rintro rfl
        exact h (hlast (by simp))
      rw [List.concat_eq_append, coreLen_last hx]
      simp

/-- The core length only depends on which segments are empty at the end: if the last non-empty template segment also has
a non-empty value, both have the same core length. -/
theorem coreLen_pieces (env : Str → Str) : ∀ (ps : List Piece),
    (∀ n, Piece.var n ∈ ps → n ≠ []) →
    (∀ pre n post, ps = pre ++ Piece.var n :: post → (∀ m, Piece.var m ∉ post) → env (Strs.goCamelCase n) ≠ []) →
    coreLen (ps.map (Piece.value env)) = coreLen (ps.map Piece.text) := by
  intro ps
  induction ps with
  | nil => intros; rfl
  | cons p ps ih =>
    intro hn hlast
    have ih' := ih (fun n h => hn n (by simp [h])) (fun pre n post h hm => hlast (p :: pre) n post (by rw [h]; rfl) hm)
    simp only [List.map_cons, coreLen, ih']
    split
    · rename_i h0
      cases p with
      | lit s => rfl
      | var n =>
        have hnovar : ∀ m, Piece.var m ∉ ps := by
          intro m hm
          have : ∀ (qs : List Piece), Piece.var m ∈ qs → coreLen (qs.map Piece.text) ≠ 0 := by
            intro qs
            induction qs with
            | nil => simp
            | cons q qs ihq =>
              intro hq
              simp only [List.map_cons, coreLen]
              split
              · rename_i hz
                rcases List.mem_cons.1 hq with rfl | hq
                · simp [Piece.text]
                · exact absurd hz (ihq hq)
              · omega
          exact this ps hm h0
        have hv := hlast [] n ps rfl hnovar
        simp [Piece.value, Piece.text, hv]
    · rfl

theorem nodup_var_pos {ps : List Piece} (h : TemplateOK ps) {i j : Nat} {n : Str}
    (hi : ps[i]? = some (Piece.var n)) (hj : ps[j]? = some (Piece.var n)) : i = j := by
  have hnd := h.nodup
  clear h
  induction ps generalizing i j with
  | nil => simp at hi
  | cons p ps ih =>
    have mem : ∀ {k : Nat}, ps[k]? = some (Piece.var n) → n ∈ ps.filterMap Piece.name? := by
      intro k hk
      exact List.mem_filterMap.2 ⟨_, List.mem_of_getElem? hk, rfl⟩
    cases i with
    | zero =>
      cases j with
      | zero => rfl
      | succ j =>
        simp at hi hj; subst hi
        simp only [List.filterMap_cons, Piece.name?] at hnd
        exact absurd (mem hj) (List.nodup_cons.1 hnd).1
    | succ i =>
      have hnd' : (ps.filterMap Piece.name?).Nodup := by
        cases p with
        | lit s => simpa only [List.filterMap_cons, Piece.name?] using hnd
        | var m => simp only [List.filterMap_cons, Piece.name?] at hnd; exact (List.nodup_cons.1 hnd).2
      cases j with
      | zero =>
        simp at hi hj; subst hj
        simp only [List.filterMap_cons, Piece.name?] at hnd
        exact absurd (mem hi) (List.nodup_cons.1 hnd).1
      | succ j => simp at hi hj; rw [ih hi hj hnd']

/-- Position of a parameter in the parameter map of a well-formed template. -/
theorem param_pos {ps : List Piece} (h : TemplateOK ps) (n : Str) (i : Nat) :
    look (buildParamMap (templateOf ps)) n = some i ↔ ∃ j, i = j + 1 ∧ ps[j]? = some (Piece.var n) := by
  have seg : ∀ (j : Nat) (p : Str), ([] :: ps.map Piece.text)[j]? = some p → hasBrace p = true → removeBraces p = n →
      ∃ j', j = j' + 1 ∧ ps[j']? = some (Piece.var n) := by
    intro j p hj hb hr
    cases j with
    | zero => simp at hj; subst hj; simp [hasBrace] at hb
    | succ j =>
      simp at hj
      obtain ⟨q, hq, rfl⟩ := hj
      have hmem := List.mem_of_getElem? hq
      cases q with
      | lit s =>
        have := hasBrace_lit (h.lit s hmem).2
        rw [show (Piece.lit s).text = s from rfl] at hb
        rw [hb] at this; cases this
      | var m =>
        rw [removeBraces_var (h.var m hmem).2.1] at hr
        subst hr
        exact ⟨j, rfl, hq⟩
  rw [buildParamMap, buildGo_look, split_template h]
  constructor
  · rintro (⟨j, p, hi, hj, hb, hr, -⟩ | ⟨-, h0⟩)
    · obtain ⟨j', hj', hv⟩ := seg j p hj hb hr
      exact ⟨j', by omega, hv⟩
    · simp [look] at h0
  · rintro ⟨j, rfl, hj⟩
    have hmem := List.mem_of_getElem? hj
    refine .inl ⟨j + 1, (Piece.var n).text, by omega, by simp [hj], hasBrace_var n, removeBraces_var (h.var n hmem).2.1, ?_⟩
    intro j' q hq hb hr
    obtain ⟨k, hk, hv⟩ := seg j' q hq hb hr
    have := nodup_var_pos h hj hv
    omega

/-! ## url.Parse on safe paths -/

theorem takeWhile_all {p : Char → Bool} {s : Str} (h : ∀ c ∈ s, p c = true) : s.takeWhile p = s := by
  induction s with
  | nil => rfl
  | cons c r ih => simp [List.takeWhile_cons, h c (by simp), ih (fun x hx => h x (by simp [hx]))]

theorem unescape_plain : ∀ (s : Str), '%' ∉ s → unescape s = some s := by
  intro s
  fun_induction unescape s with
  | case1 => intro _; rfl
  | case2 a b r hab ih => intro h; simp at h
  | case3 a b r hab => intro h; simp at h
  | case4 r h1 => intro h; simp at h
  | case5 c r h1 h2 ih =>
    intro h
    simp only [List.mem_cons, not_or] at h
    rw [ih h.2]; rfl

theorem urlParse_safe (s : Str) (h : ∀ c ∈ s, c ≠ '?' ∧ c ≠ '#' ∧ c ≠ '%' ∧ 32 ≤ c.toNat ∧ c.toNat ≠ 127)
    (h2 : ∀ r, s ≠ '/' :: '/' :: r) : urlParsePath s = some s := by
  have e1 : s.takeWhile (· ≠ '#') = s := takeWhile_all (fun c hc => by simpa using (h c hc).2.1)
  have e2 : s.takeWhile (· ≠ '?') = s := takeWhile_all (fun c hc => by simpa using (h c hc).1)
  have e3 : hasCtl s = false := by
    rw [hasCtl, List.any_eq_false]
    intro c hc
    have := h c hc
    simp; omega
  rw [urlParsePath, e1]
  simp only [e3, Bool.false_eq_true, if_false, e2]
  have hu := unescape_plain s (fun hc => (h '%' hc).2.2.1 rfl)
  split
  · exact absurd rfl (h2 _)
  · exact absurd rfl (h2 _)
  · exact hu

theorem mem_join {c : Char} : ∀ {l : List Str}, c ∈ join '/' l → c = '/' ∨ ∃ p ∈ l, c ∈ p
  | [], h => by simp [join] at h
  | [p], h => .inr ⟨p, by simp, by simpa [join] using h⟩
  | p :: q :: ps, h => by
    simp only [join, List.mem_append, List.mem_cons] at h
    rcases h with h | h | h
    · exact .inr ⟨p, by simp, h⟩
    · exact .inl h
    · rcases mem_join h with h | ⟨x, hx, hc⟩
      · exact .inl h
      · exact .inr ⟨x, by simp at hx ⊢; exact .inr hx, hc⟩

theorem mem_join_of {c : Char} : ∀ {l : List Str} {p : Str}, p ∈ l → c ∈ p → c ∈ join '/' l
  | [a], p, hp, hc => by
    rw [List.mem_singleton] at hp; subst hp; exact hc
  | a :: b :: l, p, hp, hc => by
    rw [join]
    rcases List.mem_cons.1 hp with rfl | hp
    · exact List.mem_append_left _ hc
    · exact List.mem_append_right _ (List.mem_cons_of_mem _ (mem_join_of hp hc))

theorem cleanSegs_ok : ∀ (l : List Str), (∀ s ∈ l, s ≠ ['.'] ∧ s ≠ ['.', '.']) → (∀ s ∈ l.dropLast, s ≠ []) →
    cleanSegs l = true
  | [], _, _ => rfl
  | [s], h, _ => by simp [cleanSegs, h s (by simp)]
  | s :: t :: r, h, h2 => by
    have := cleanSegs_ok (t :: r) (fun x hx => h x (List.mem_cons_of_mem _ hx)) (fun x hx => h2 x (by
      simp only [List.dropLast_cons_cons, List.mem_cons]; exact .inr hx))
    simp [cleanSegs, h s (by simp), h2 s (by simp), this]

/-- mux on the segments of a well-formed template. -/
theorem muxGo_pieces (env : Str → Str) (ps : List Piece)
    (hl : ∀ s, Piece.lit s ∈ ps → ¬ Braced s) (hvar : ∀ n, Piece.var n ∈ ps → ¬ Braced n ∧ n ≠ [])
    (hv : ∀ n, Piece.var n ∈ ps → env (Strs.goCamelCase n) ≠ []) :
    muxGo (ps.map Piece.text) (ps.map (Piece.value env)) =
      some (ps.filterMap fun | .var n => some (n, env (Strs.goCamelCase n)) | .lit _ => none) := by
  induction ps with
  | nil => rfl
  | cons p ps ih =>
    have ih' := ih (fun s h => hl s (by simp [h])) (fun s h => hvar s (by simp [h])) (fun s h => hv s (by simp [h]))
    simp only [List.map_cons, muxGo, List.filterMap_cons]
    cases p with
    | lit s =>
      rw [show (Piece.lit s).text = s from rfl, isParam_lit (hl s (by simp))]
      simp [Piece.value, ih']
    | var n =>
      rw [isParam_var (hvar n (by simp)).2, removeBraces_var (hvar n (by simp)).1]
      simp [Piece.value, hv n (by simp), ih']

theorem look_vars (f : Str → Str) (ps : List Piece) (n : Str) :
    look (ps.filterMap fun | .var n => some (n, f n) | .lit _ => none) n =
      if Piece.var n ∈ ps then some (f n) else none := by
  induction ps with
  | nil => simp [look]
  | cons p ps ih =>
    cases p with
    | lit s => simp [ih]
    | var m =>
      simp only [List.filterMap_cons, look_cons, ih, List.mem_cons, Piece.var.injEq]
      by_cases h : m = n
      · subst h; simp
      · simp [h, Ne.symm h]

/-! ## What reaches the handler unchanged -/

theorem unescape_length : ∀ (s t : Str), unescape s = some t → t.length ≤ s.length ∧ (t.length = s.length → '%' ∉ s) := by
  intro s
  fun_induction unescape s with
  | case1 => intro t h; cases h; simp
  | case2 a b r hh ih =>
    intro t h
    cases hu : unescape r with
    | none => rw [hu] at h; cases h
    | some u =>
      rw [hu] at h
      cases h
      have := (ih u hu).1
      simp only [List.length_cons]
      exact ⟨by omega, by omega⟩
  | case3 => intro t h; cases h
  | case4 => intro t h; cases h
  | case5 c r h1 h2 ih =>
    intro t h
    cases hu : unescape r with
    | none => rw [hu] at h; cases h
    | some u =>
      rw [hu] at h
      cases h
      have := ih u hu
      simp only [List.length_cons, List.mem_cons, not_or]
      refine ⟨by omega, fun he => ⟨?_, this.2 (by omega)⟩⟩
      rintro rfl
      exact h2 rfl

theorem takeWhile_length_eq {p : Char → Bool} : ∀ {s : Str}, s.length ≤ (s.takeWhile p).length → ∀ c ∈ s, p c = true := by
  intro s
  induction s with
  | nil => intro _ c hc; cases hc
  | cons a s ih =>
    intro h c hc
    rw [List.takeWhile_cons] at h
    split at h
    · rename_i ha
      rcases List.mem_cons.1 hc with rfl | hc
      · exact ha
      · exact ih (by simpa using h) c hc
    · simp at h

theorem takeWhile_length_le {p : Char → Bool} : ∀ (s : Str), (s.takeWhile p).length ≤ s.length
  | [] => by simp
  | a :: s => by
    rw [List.takeWhile_cons]; split
    · simpa using takeWhile_length_le s
    · simp

theorem dropWhile_length_le {p : Char → Bool} : ∀ (s : Str), (s.dropWhile p).length ≤ s.length
  | [] => by simp
  | a :: s => by
    rw [List.dropWhile_cons]; split
    · have := dropWhile_length_le (p := p) s
      simp; omega
    · simp

/-- A text `url.Parse` takes as its own path has no character with a meaning. -/
theorem urlParse_fixed {s : Str} (h : urlParsePath s = some s) :
    (∀ c ∈ s, c ≠ '?' ∧ c ≠ '#' ∧ c ≠ '%' ∧ 32 ≤ c.toNat ∧ c.toNat ≠ 127) ∧
      ∀ r, s = '/' :: '/' :: r → ∃ r', r = '/' :: r' := by
  unfold urlParsePath at h
  simp only at h
  split at h
  · cases h
  · rename_i hctl
    generalize ha : s.takeWhile (· ≠ '#') = a at h hctl
    generalize hb : a.takeWhile (· ≠ '?') = b at h
    have hla : a.length ≤ s.length := by rw [← ha]; exact takeWhile_length_le s
    have hlb : b.length ≤ a.length := by rw [← hb]; exact takeWhile_length_le a
    have main : ∀ b', unescape b' = some s → b'.length ≤ b.length → (b'.length < b.length → False) ∧ (b' = b →
        (∀ c ∈ s, c ≠ '?' ∧ c ≠ '#' ∧ c ≠ '%' ∧ 32 ≤ c.toNat ∧ c.toNat ≠ 127) ∧ b = s) := by
      intro b' hu hl
      obtain ⟨h1, h2⟩ := unescape_length b' s hu
      refine ⟨fun hlt => by omega, ?_⟩
      rintro rfl
      have hpc := h2 (by omega)
      have has : ∀ c ∈ s, (c ≠ '#') := fun c hc => by
        simpa using takeWhile_length_eq (p := (· ≠ '#')) (s := s) (by rw [ha]; omega) c hc
      have hsa : a = s := by rw [← ha]; exact takeWhile_all fun c hc => by simpa using has c hc
      have hab : ∀ c ∈ a, (c ≠ '?') := fun c hc => by
        simpa using takeWhile_length_eq (p := (· ≠ '?')) (s := a) (by rw [hb]; omega) c hc
      have hba : b' = a := by rw [← hb]; exact takeWhile_all fun c hc => by simpa using hab c hc
      subst hba hsa
      refine ⟨fun c hc => ⟨hab c hc, has c hc, fun e => hpc (e ▸ hc), ?_⟩, rfl⟩
      simp only [hasCtl, Bool.not_eq_true, List.any_eq_false, Bool.or_eq_true, decide_eq_true_eq, beq_iff_eq, not_or] at hctl
      have := hctl c hc
      exact ⟨by omega, this.2⟩
    split at h
    · rename_i r
      obtain ⟨hc, he⟩ := (main _ h (Nat.le_refl _)).2 rfl
      refine ⟨hc, fun r' hr' => ?_⟩
      rw [← he] at hr'
      simp at hr'
      exact ⟨r, hr'.symm⟩
    · rename_i r _
      exfalso
      have hl := dropWhile_length_le (p := (· ≠ '/')) r
      have : (r.dropWhile (· ≠ '/')).length < ('/' :: '/' :: r).length := by simp only [List.length_cons]; omega
      exact (main _ h (by omega)).1 this
    · rename_i hn1 hn2
      obtain ⟨hc, he⟩ := (main _ h (Nat.le_refl _)).2 rfl
      refine ⟨hc, fun r' hr' => ?_⟩
      rw [he] at hn2
      exact absurd hr' (hn2 r')

theorem muxGo_values (env : Str → Str) : ∀ (ps : List Piece) (segs : List Str) (m : List (Str × Str)),
    (∀ s, Piece.lit s ∈ ps → ¬ Braced s) → (∀ n, Piece.var n ∈ ps → ¬ Braced n ∧ n ≠ []) →
    (ps.filterMap Piece.name?).Nodup → muxGo (ps.map Piece.text) segs = some m →
    (∀ n, Piece.var n ∈ ps → look m n = some (env (Strs.goCamelCase n))) →
    segs = ps.map (Piece.value env) ∧ ∀ n, Piece.var n ∈ ps → env (Strs.goCamelCase n) ≠ [] := by
  intro ps
  induction ps with
  | nil =>
    intro segs m _ _ _ h _
    cases segs with
    | nil => exact ⟨rfl, by simp⟩
    | cons s ss => cases h
  | cons p ps ih =>
    intro segs m hl hv hnd h hlook
    cases segs with
    | nil => cases h
    | cons s ss =>
      rw [List.map_cons, muxGo] at h
      cases p with
      | lit t =>
        rw [show (Piece.lit t).text = t from rfl, if_neg (by rw [isParam_lit (hl t (by simp))]; decide)] at h
        split at h
        · rename_i he
          obtain ⟨h1, h2⟩ := ih ss m (fun s hs => hl s (by simp [hs])) (fun n hn => hv n (by simp [hn])) hnd h
            (fun n hn => hlook n (by simp [hn]))
          refine ⟨by rw [h1, ← he]; rfl, fun n hn => h2 n (by simpa using hn)⟩
        · cases h
      | var n =>
        rw [if_pos (isParam_var (hv n (by simp)).2), removeBraces_var (hv n (by simp)).1] at h
        split at h
        · cases h
        · rename_i hs
          cases hm : muxGo (ps.map Piece.text) ss with
          | none => rw [hm] at h; cases h
          | some m' =>
            rw [hm] at h
            cases h
            have hnd' : n ∉ ps.filterMap Piece.name? ∧ (ps.filterMap Piece.name?).Nodup := by
              simpa [List.filterMap_cons, Piece.name?] using hnd
            have h0 := hlook n (by simp)
            rw [look_cons, if_pos rfl, Option.some.injEq] at h0
            obtain ⟨h1, h2⟩ := ih ss m' (fun s hs => hl s (by simp [hs])) (fun n hn => hv n (by simp [hn])) hnd'.2 hm
              (fun k hk => by
                have := hlook k (by simp [hk])
                rwa [look_cons, if_neg] at this
                rintro rfl
                exact hnd'.1 (List.mem_filterMap.2 ⟨_, hk, rfl⟩))
            refine ⟨by rw [h1, h0]; rfl, fun k hk => ?_⟩
            rcases List.mem_cons.1 hk with e | hk
            · cases e; rw [← h0]; exact hs
            · exact h2 k hk

theorem cleanSegs_only : ∀ (l : List Str), cleanSegs l = true →
    (∀ s ∈ l, s ≠ ['.'] ∧ s ≠ ['.', '.']) ∧ (∀ s ∈ l.dropLast, s ≠ []) := by
  intro l
  fun_induction cleanSegs l with
  | case1 => simp
  | case2 s => simp
  | case3 s r hr ih =>
    intro h
    simp only [Bool.and_eq_true, decide_eq_true_eq] at h
    obtain ⟨h1, h2⟩ := ih h.2
    cases r with
    | nil => exact absurd rfl hr
    | cons t r =>
      rw [List.dropLast_cons_cons]
      refine ⟨fun x hx => ?_, fun x hx => ?_⟩
      · rcases List.mem_cons.1 hx with rfl | hx
        · exact ⟨h.1.1.2, h.1.2⟩
        · exact h1 x hx
      · rcases List.mem_cons.1 hx with rfl | hx
        · exact h.1.1.1
        · exact h2 x hx

/-- The part of a text in front of fragment and query. -/
def cut (s : Str) : Str := (s.takeWhile (· ≠ '#')).takeWhile (· ≠ '?')

theorem cut_nil : cut [] = [] := rfl

theorem cut_cons (c : Char) (s : Str) : cut (c :: s) = if c ≠ '#' ∧ c ≠ '?' then c :: cut s else [] := by
  unfold cut
  rw [List.takeWhile_cons]
  by_cases h1 : c = '#'
  · subst h1; simp
  · by_cases h2 : c = '?'
    · subst h2; simp
    · simp [h1, h2]

theorem cut_append {a : Str} (h : ∀ c ∈ a, c ≠ '#' ∧ c ≠ '?') (b : Str) : cut (a ++ b) = a ++ cut b := by
  induction a with
  | nil => rfl
  | cons c a ih =>
    rw [List.cons_append, cut_cons, if_pos (h c (by simp)), ih fun x hx => h x (by simp [hx])]; rfl

theorem cut_length : ∀ (a b : Str), ¬ (∀ c ∈ a, c ≠ '#' ∧ c ≠ '?') → (cut (a ++ b)).length < a.length := by
  intro a b
  induction a with
  | nil => intro h; exact absurd (by simp) h
  | cons c a ih =>
    intro h
    rw [List.cons_append, cut_cons]
    split
    · rename_i hc
      have := ih fun h' => h fun x hx => by
        rcases List.mem_cons.1 hx with rfl | hx
        · exact hc
        · exact h' x hx
      simp only [List.length_cons]; omega
    · simp

theorem unescape_cons {c : Char} (h : c ≠ '%') (r : Str) : unescape (c :: r) = (unescape r).map (c :: ·) := by
  conv => lhs; unfold unescape
  split
  · rename_i e; cases e; 
  · rename_i e; simp at e; exact absurd e.1 h
  · rename_i e; simp at e; exact absurd e.1 h
  · rename_i e; cases e; rfl

theorem unescape_slash : ∀ (a b : Str), unescape (a ++ '/' :: b) = (unescape a).bind fun x => (unescape b).map (x ++ '/' :: ·) := by
  intro a b
  fun_induction unescape a with
  | case1 => rw [List.nil_append, unescape_cons (by decide)]; cases unescape b <;> rfl
  | case2 x y r hh ih =>
    rw [List.cons_append, List.cons_append, List.cons_append, unescape, if_pos hh, ih]
    cases unescape r <;> cases unescape b <;> rfl
  | case3 x y r hh =>
    rw [List.cons_append, List.cons_append, List.cons_append, unescape, if_neg hh]; rfl
  | case4 r hr =>
    rw [List.cons_append]
    match r, hr with
    | [], _ =>
      rw [List.nil_append]
      cases b with
      | nil => rfl
      | cons y b => rw [unescape, if_neg (by simp [isHex, isAsciiDigit])]; rfl
    | [x], _ =>
      rw [List.cons_append, List.nil_append, unescape, if_neg (by simp [isHex, isAsciiDigit])]; rfl
    | x :: y :: r, hr => exact absurd rfl (hr x y r)
  | case5 c r h1 h2 ih =>
    have hc : c ≠ '%' := fun e => h2 e
    rw [List.cons_append, unescape_cons hc, ih]
    cases unescape r <;> cases unescape b <;> rfl

theorem unescape_append_plain {a : Str} (h : '%' ∉ a) (b : Str) : unescape (a ++ b) = (unescape b).map (a ++ ·) := by
  induction a with
  | nil => simp
  | cons c a ih =>
    simp only [List.mem_cons, not_or] at h
    rw [List.cons_append, unescape_cons (Ne.symm h.1), ih h.2]
    cases unescape b <;> rfl

theorem split_head (s : Str) : ∃ l, split '/' s = s.takeWhile (· ≠ '/') :: l := by
  induction s with
  | nil => exact ⟨[], rfl⟩
  | cons c s ih =>
    rw [split]
    by_cases hc : c = '/'
    · subst hc; exact ⟨_, by simp; rfl⟩
    · obtain ⟨l, hl⟩ := ih
      rw [if_neg hc, hl]
      exact ⟨l, by simp [hc]⟩

/-- The text of the pieces behind the first slash of each. -/
def piecesText (env : Str → Str) (ps : List Piece) : Str := ps.flatMap fun p => '/' :: p.value env

/-- A piece that arrives as it was sent has no character `url.Parse` gives a meaning to. -/
theorem arrives {v R P : Str} (hR : R = [] ∨ ∃ R', R = '/' :: R') (hu : unescape (cut (v ++ R)) = some P)
    (hs : P.takeWhile (· ≠ '/') = v) : ∀ c ∈ v, c ≠ '#' ∧ c ≠ '?' ∧ c ≠ '%' := by
  by_cases hcut : ∀ c ∈ v, c ≠ '#' ∧ c ≠ '?'
  · have hpc : '%' ∉ v := by
      rw [cut_append hcut] at hu
      have hl : ∀ x : Str, unescape v = some x → v.length ≤ x.length → '%' ∉ v := fun x hx hle => by
        have := unescape_length v x hx
        exact this.2 (by omega)
      rcases hR with rfl | ⟨R', rfl⟩
      · rw [cut_nil, List.append_nil] at hu
        refine hl P hu ?_
        have := takeWhile_length_le (p := (· ≠ '/')) P
        rw [hs] at this; exact this
      · rw [cut_cons, if_pos (by decide), unescape_slash] at hu
        cases hx : unescape v with
        | none => rw [hx] at hu; cases hu
        | some x =>
          rw [hx] at hu
          cases hy : unescape (cut R') with
          | none => rw [hy] at hu; cases hu
          | some y =>
            rw [hy] at hu
            cases hu
            refine hl x hx ?_
            have h1 : ((x ++ '/' :: y).takeWhile (· ≠ '/')).length ≤ x.length := by
              rw [List.takeWhile_append]
              split
              · simp
              · exact takeWhile_length_le x
            rw [hs] at h1; exact h1
    exact fun c hc => ⟨(hcut c hc).1, (hcut c hc).2, fun e => hpc (e ▸ hc)⟩
  · exfalso
    have h1 := cut_length v R hcut
    have h2 := (unescape_length _ _ hu).1
    have h3 := takeWhile_length_le (p := (· ≠ '/')) P
    rw [hs] at h3
    omega

theorem pieces_arrive (env : Str → Str) (exact_ : Str → Prop) : ∀ (ps : List Piece) (P : Str) (m : List (Str × Str)),
    (∀ s, Piece.lit s ∈ ps → ¬ Braced s) → (∀ n, Piece.var n ∈ ps → ¬ Braced n ∧ n ≠ []) →
    (ps.filterMap Piece.name?).Nodup →
    (∀ p ∈ ps, '/' ∉ p.value env) →
    (∀ n, Piece.var n ∈ ps → ¬ exact_ n → ∀ c ∈ env (Strs.goCamelCase n), c ≠ '#' ∧ c ≠ '?' ∧ c ≠ '%') →
    unescape (cut (piecesText env ps)) = some P →
    muxGo (ps.map Piece.text) (split '/' P).tail = some m →
    (∀ n, Piece.var n ∈ ps → exact_ n → look m n = some (env (Strs.goCamelCase n))) →
    ∀ p ∈ ps, ∀ c ∈ p.value env, c ≠ '#' ∧ c ≠ '?' ∧ c ≠ '%' := by
  intro ps
  induction ps with
  | nil => intro P m _ _ _ _ _ _ _ _ p hp; cases hp
  | cons p qs ih =>
    intro P m hl hv hnd hsl hoth hu hm hlook
    have hR : piecesText env qs = [] ∨ ∃ R', piecesText env qs = '/' :: R' := by
      cases qs with
      | nil => exact .inl rfl
      | cons q qs => exact .inr ⟨_, rfl⟩
    have hpt : piecesText env (p :: qs) = '/' :: (p.value env ++ piecesText env qs) := by
      unfold piecesText; rw [List.flatMap_cons]; rfl
    rw [hpt, cut_cons, if_pos (by decide), unescape_cons (by decide)] at hu
    cases hP' : unescape (cut (p.value env ++ piecesText env qs)) with
    | none => rw [hP'] at hu; cases hu
    | some P' =>
      rw [hP', Option.map_some, Option.some.injEq] at hu
      subst hu
      rw [split, if_pos rfl, List.tail_cons] at hm
      obtain ⟨l, hsplit⟩ := split_head P'
      rw [hsplit, List.map_cons, muxGo] at hm
      -- the first piece
      have hfirst : (∀ c ∈ p.value env, c ≠ '#' ∧ c ≠ '?' ∧ c ≠ '%') ∧ ∃ m', muxGo (qs.map Piece.text) l = some m' ∧
          ∀ n, Piece.var n ∈ qs → exact_ n → look m' n = some (env (Strs.goCamelCase n)) := by
        cases p with
        | lit t =>
          rw [show (Piece.lit t).text = t from rfl, if_neg (by rw [isParam_lit (hl t (by simp))]; decide)] at hm
          split at hm
          · rename_i he
            exact ⟨arrives hR hP' he.symm, m, hm, fun n hn => hlook n (by simp [hn])⟩
          · cases hm
        | var n =>
          rw [if_pos (isParam_var (hv n (by simp)).2), removeBraces_var (hv n (by simp)).1] at hm
          split at hm
          · cases hm
          · cases hm' : muxGo (qs.map Piece.text) l with
            | none => rw [hm'] at hm; cases hm
            | some m' =>
              rw [hm'] at hm
              cases hm
              refine ⟨?_, m', rfl, fun k hk he => ?_⟩
              · by_cases he : exact_ n
                · have h0 := hlook n (by simp) he
                  rw [look_cons, if_pos rfl, Option.some.injEq] at h0
                  exact arrives hR hP' h0
                · exact hoth n (by simp) he
              · have h0 := hlook k (by simp [hk]) he
                rw [look_cons, if_neg] at h0
                · exact h0
                · rintro rfl
                  rw [List.filterMap_cons] at hnd
                  simp only [Piece.name?, List.nodup_cons] at hnd
                  exact hnd.1 (List.mem_filterMap.2 ⟨_, hk, rfl⟩)
      obtain ⟨hpc, m', hm', hlook'⟩ := hfirst
      intro q hq
      rcases List.mem_cons.1 hq with rfl | hq
      · exact hpc
      · cases hqs : qs with
        | nil => rw [hqs] at hq; cases hq
        | cons q0 qs0 =>
          obtain ⟨R', hR'⟩ : ∃ R', piecesText env qs = '/' :: R' := by rw [hqs]; exact ⟨_, rfl⟩
          rw [cut_append (fun c hc => ⟨(hpc c hc).1, (hpc c hc).2.1⟩),
            unescape_append_plain (fun hc => (hpc _ hc).2.2 rfl)] at hP'
          cases hP2 : unescape (cut (piecesText env qs)) with
          | none => rw [hP2] at hP'; cases hP'
          | some P2 =>
            rw [hP2, Option.map_some, Option.some.injEq] at hP'
            obtain ⟨P3, rfl⟩ : ∃ P3, P2 = '/' :: P3 := by
              rw [hR', cut_cons, if_pos (by decide), unescape_cons (by decide)] at hP2
              cases hz : unescape (cut R') with
              | none => rw [hz] at hP2; cases hP2
              | some z => rw [hz] at hP2; exact ⟨z, (Option.some.inj hP2).symm⟩
            have hl2 : l = (split '/' ('/' :: P3)).tail := by
              have : split '/' P' = p.value env :: split '/' P3 := by
                rw [← hP', split_append, split_none _ _ (hsl p (by simp))]; rfl
              rw [hsplit] at this
              rw [split, if_pos rfl, List.tail_cons]
              exact (List.cons.inj this).2
            have hnd' : (qs.filterMap Piece.name?).Nodup := by
              rw [List.filterMap_cons] at hnd
              split at hnd
              · exact hnd
              · exact (List.nodup_cons.1 hnd).2
            exact ih ('/' :: P3) m' (fun s hs => hl s (by simp [hs])) (fun n hn => hv n (by simp [hn])) hnd'
              (fun q hq => hsl q (by simp [hq])) (fun n hn => hoth n (by simp [hn])) hP2 (hl2 ▸ hm') hlook' q hq

theorem muxGo_nonempty : ∀ (ps : List Piece) (segs : List Str) (m : List (Str × Str)),
    (∀ s, Piece.lit s ∈ ps → ¬ Braced s) → (∀ n, Piece.var n ∈ ps → ¬ Braced n ∧ n ≠ []) →
    muxGo (ps.map Piece.text) segs = some m →
    ∀ n s, look m n = some s → s ≠ [] ∧ s ∈ segs := by
  intro ps
  induction ps with
  | nil =>
    intro segs m _ _ h n s hs
    cases segs with
    | nil => cases h; cases hs
    | cons _ _ => cases h
  | cons p ps ih =>
    intro segs m hl hv h n s hlk
    cases segs with
    | nil => cases h
    | cons x ss =>
      rw [List.map_cons, muxGo] at h
      have hl' := fun s hs => hl s (List.mem_cons_of_mem _ hs)
      have hv' := fun n hn => hv n (List.mem_cons_of_mem _ hn)
      cases p with
      | lit t =>
        rw [show (Piece.lit t).text = t from rfl, if_neg (by rw [isParam_lit (hl t (by simp))]; decide)] at h
        split at h
        · have := ih ss m hl' hv' h n s hlk
          exact ⟨this.1, List.mem_cons_of_mem _ this.2⟩
        · cases h
      | var k =>
        rw [if_pos (isParam_var (hv k (by simp)).2)] at h
        split at h
        · cases h
        · rename_i hx
          cases hm : muxGo (ps.map Piece.text) ss with
          | none => rw [hm] at h; cases h
          | some m' =>
            rw [hm] at h
            cases h
            rw [look_cons] at hlk
            split at hlk
            · cases hlk; exact ⟨hx, by simp⟩
            · have := ih ss m' hl' hv' hm n s hlk
              exact ⟨this.1, List.mem_cons_of_mem _ this.2⟩

theorem muxGo_all : ∀ (ps : List Piece) (segs : List Str) (m : List (Str × Str)),
    (∀ s, Piece.lit s ∈ ps → ¬ Braced s) → (∀ n, Piece.var n ∈ ps → ¬ Braced n ∧ n ≠ []) →
    muxGo (ps.map Piece.text) segs = some m → ∀ n, Piece.var n ∈ ps → ∃ s, look m n = some s := by
  intro ps
  induction ps with
  | nil => intro _ _ _ _ _ n hn; cases hn
  | cons p ps ih =>
    intro segs m hl hv h n hn
    cases segs with
    | nil => cases h
    | cons x ss =>
      rw [List.map_cons, muxGo] at h
      have hl' := fun s hs => hl s (List.mem_cons_of_mem _ hs)
      have hv' := fun n hn => hv n (List.mem_cons_of_mem _ hn)
      cases p with
      | lit t =>
        rw [show (Piece.lit t).text = t from rfl, if_neg (by rw [isParam_lit (hl t (by simp))]; decide)] at h
        split at h
        · exact ih ss m hl' hv' h n (by simpa using hn)
        · cases h
      | var k =>
        rw [if_pos (isParam_var (hv k (by simp)).2), removeBraces_var (hv k (by simp)).1] at h
        split at h
        · cases h
        · cases hm : muxGo (ps.map Piece.text) ss with
          | none => rw [hm] at h; cases h
          | some m' =>
            rw [hm] at h
            cases h
            rw [look_cons]
            split
            · exact ⟨_, rfl⟩
            · rename_i hk
              refine ih ss m' hl' hv' hm n ?_
              rcases List.mem_cons.1 hn with e | hn
              · cases e; exact absurd rfl hk
              · exact hn

theorem muxVars_all {ps : List Piece} (hw : TemplateOK ps) {path : Str} {m : List (Str × Str)}
    (h : muxVars (templateOf ps) path = some m) : ∀ n, Piece.var n ∈ ps → ∃ s, look m n = some s := by
  unfold muxVars at h
  split at h
  · rw [split_template hw] at h
    cases hs : split '/' path with
    | nil => exact absurd hs (split_ne_nil _ _)
    | cons s0 segs =>
      rw [hs, muxGo, show isParamPart ([] : Str) = false from rfl] at h
      simp only [Bool.false_eq_true, if_false] at h
      split at h
      · exact muxGo_all ps segs m (fun s h => (hw.lit s h).2) (fun n h => (hw.var n h).2) h
      · cases h
  · cases h

theorem clientPath_text {ps : List Piece} (h : TemplateOK ps) (env : Str → Str) :
    clientPath env (templateOf ps) = piecesText env ps := by
  rw [clientPath_eq h]
  have key : ∀ qs : List Piece, qs ≠ [] → join '/' ([] :: qs.map (Piece.value env)) = piecesText env qs := by
    intro qs
    induction qs with
    | nil => intro h; exact absurd rfl h
    | cons q qs ih =>
      intro _
      rw [List.map_cons, join, List.nil_append, piecesText, List.flatMap_cons]
      cases qs with
      | nil => simp [join]
      | cons q' qs =>
        have := ih (by simp)
        rw [List.map_cons, join, List.nil_append] at this
        rw [List.map_cons, join, this]; rfl
  exact key ps h.some

theorem needed_texts (ps : List Piece) (hw : TemplateOK ps) (env : Str → Str) (exact_ : Str → Prop)
    (hlit : ∀ s, Piece.lit s ∈ ps → PathText s)
    (hoth : ∀ n, Piece.var n ∈ ps → ¬ exact_ n → PathText (env (Strs.goCamelCase n))) {path : Str} {m : List (Str × Str)}
    (hurl : urlParsePath (clientPath env (templateOf ps)) = some path) (hmux : muxVars (templateOf ps) path = some m)
    (hlook : ∀ n, Piece.var n ∈ ps → exact_ n → look m n = some (env (Strs.goCamelCase n))) :
    ∀ n, Piece.var n ∈ ps → PathText (env (Strs.goCamelCase n)) := by
  unfold muxVars at hmux
  split at hmux
  · rename_i hclean
    rw [split_template hw] at hmux
    cases hs : split '/' path with
    | nil => exact absurd hs (split_ne_nil _ _)
    | cons s0 segs =>
      rw [hs, muxGo, show isParamPart ([] : Str) = false from rfl] at hmux
      simp only [Bool.false_eq_true, if_false] at hmux
      split at hmux
      · rename_i he
        have hlb := fun s h => (hw.lit s h).2
        have hvb := fun n h => (hw.var n h).2
        have hne := muxGo_nonempty ps segs m hlb hvb hmux
        -- no value has a slash or is empty
        have hval : ∀ p ∈ ps, '/' ∉ p.value env ∧ p.value env ≠ [] := by
          intro p hp
          cases p with
          | lit s => exact ⟨(hw.lit s hp).1, (hlit s hp).2.1⟩
          | var n =>
            by_cases hx : exact_ n
            · obtain ⟨h1, h2⟩ := hne n _ (hlook n hp hx)
              exact ⟨split_mem '/' path _ (by rw [hs]; exact List.mem_cons_of_mem _ h2), h1⟩
            · have := hoth n hp hx
              exact ⟨fun hc => (this.1 '/' hc).1 rfl, this.2.1⟩
        -- what url.Parse does
        rw [clientPath_text hw] at hurl
        have hparse : hasCtl ((piecesText env ps).takeWhile (· ≠ '#')) = false ∧ unescape (cut (piecesText env ps)) = some path := by
          unfold urlParsePath at hurl
          simp only at hurl
          split at hurl
          · cases hurl
          · rename_i hctl
            refine ⟨by simpa using hctl, ?_⟩
            have hno : ∀ r, cut (piecesText env ps) ≠ '/' :: '/' :: r := by
              intro r hr
              cases ps with
              | nil => exact absurd rfl hw.some
              | cons p qs =>
                obtain ⟨h1, h2⟩ := hval p (by simp)
                have hpt : piecesText env (p :: qs) = '/' :: (p.value env ++ piecesText env qs) := by
                  unfold piecesText; rw [List.flatMap_cons]; rfl
                rw [hpt, cut_cons, if_pos (by decide)] at hr
                cases hv : p.value env with
                | nil => exact h2 hv
                | cons c v =>
                  rw [hv] at h1
                  rw [hv, List.cons_append, cut_cons] at hr
                  split at hr
                  · simp at hr h1
                    exact h1.1 hr.1.symm
                  · simp at hr
            change (match cut (piecesText env ps) with
              | '/' :: '/' :: '/' :: r => unescape ('/' :: '/' :: '/' :: r)
              | '/' :: '/' :: r => unescape (r.dropWhile (· ≠ '/'))
              | s => unescape s) = some path at hurl
            split at hurl
            · rename_i r hr; exact absurd hr (hno _)
            · rename_i r _ hr; exact absurd hr (hno _)
            · exact hurl
        obtain ⟨hctl, hun⟩ := hparse
        have hsegs : (split '/' path).tail = segs := by rw [hs]; rfl
        have hchars := pieces_arrive env exact_ ps path m hlb hvb hw.nodup (fun p hp => (hval p hp).1)
          (fun n hn hx c hc => by
            have := (hoth n hn hx).1 c hc
            exact ⟨this.2.2.1, this.2.1, this.2.2.2.1⟩) hun (hsegs ▸ hmux) hlook
        -- no control characters
        have hmem : ∀ p ∈ ps, ∀ c ∈ p.value env, c ∈ piecesText env ps := fun p hp c hc =>
          List.mem_flatMap.2 ⟨p, hp, List.mem_cons_of_mem _ hc⟩
        have hnohash : ∀ c ∈ piecesText env ps, c ≠ '#' ∧ c ≠ '?' ∧ c ≠ '%' := by
          intro c hc
          obtain ⟨p, hp, hc⟩ := List.mem_flatMap.1 hc
          rcases List.mem_cons.1 hc with rfl | hc
          · decide
          · exact hchars p hp c hc
        rw [takeWhile_all (p := (· ≠ '#')) fun c hc => by simpa using (hnohash c hc).1] at hctl
        have hpath : path = piecesText env ps := by
          have : cut (piecesText env ps) = piecesText env ps := by
            have := cut_append (a := piecesText env ps) (fun c hc => ⟨(hnohash c hc).1, (hnohash c hc).2.1⟩) []
            simpa [cut_nil] using this
          rw [this, unescape_plain _ fun hc => (hnohash _ hc).2.2 rfl] at hun
          exact (Option.some.inj hun).symm
        have hsplit := split_client hw env fun n hn => (hval _ hn).1
        rw [clientPath_text hw, ← hpath] at hsplit
        rw [hsplit, List.tail_cons] at hclean
        obtain ⟨hdots, -⟩ := cleanSegs_only _ hclean
        intro n hn
        have hv := hval _ hn
        refine ⟨fun c hc => ⟨fun e => hv.1 (e ▸ hc), (hchars _ hn c hc).2.1, (hchars _ hn c hc).1, (hchars _ hn c hc).2.2, ?_⟩,
          hv.2, hdots _ (List.mem_map.2 ⟨_, hn, rfl⟩)⟩
        simp only [hasCtl, List.any_eq_false, Bool.or_eq_true, decide_eq_true_eq, beq_iff_eq, not_or] at hctl
        have := hctl c (hmem _ hn c hc)
        exact ⟨by omega, this.2⟩
      · cases hmux
  · cases hmux

end Baron.HTTP
