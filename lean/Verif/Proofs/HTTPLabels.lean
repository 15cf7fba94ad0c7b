import Verif.Proofs.HTTPNames

namespace Baron.HTTP

theorem digitWord_eq : ∀ d, d < 10 → (match digitEnglish (digitChar d) with
    | some engl => title engl
    | none => []) = digitWord d := by
  have : ∀ d : Fin 10, (match digitEnglish (digitChar d.val) with
    | some engl => title engl
    | none => []) = digitWord d.val := by decide +kernel
  intro d hd
  exact this ⟨d, hd⟩

theorem digitWord_inj : ∀ d e, d < 10 → e < 10 → digitWord d = digitWord e → d = e := by
  have : ∀ d e : Fin 10, digitWord d.val = digitWord e.val → d.val = e.val := by decide +kernel
  intro d e hd he
  exact this ⟨d, hd⟩ ⟨e, he⟩

/-- An upper-case letter followed by lower-case ones. -/
def IsWord (w : Str) : Prop := ∃ u l, w = u :: l ∧ isAsciiUpper u = true ∧ ∀ c ∈ l, isAsciiLower c = true

def isWordB : Str → Bool
  | [] => false
  | u :: l => isAsciiUpper u && l.all isAsciiLower

theorem digitWord_word (d : Nat) : IsWord (digitWord d) := by
  have h : ∀ w ∈ ["Zero", "One", "Two", "Three", "Four", "Five", "Six", "Seven", "Eight", "Nine"].map String.toList,
      isWordB w = true := by
    decide +kernel
  have hw : digitWord d ∈ ["Zero", "One", "Two", "Three", "Four", "Five", "Six", "Seven", "Eight", "Nine"].map String.toList := by
    unfold digitWord
    split <;> simp
  have := h _ hw
  cases hd : digitWord d with
  | nil => rw [hd] at this; cases this
  | cons u l =>
    rw [hd] at this
    simp only [isWordB, Bool.and_eq_true, List.all_eq_true] at this
    exact ⟨u, l, rfl, this.1, this.2⟩

theorem word_ne_nil {w : Str} (h : IsWord w) : w ≠ [] := by
  obtain ⟨u, l, rfl, -⟩ := h; simp

/-- Empty or starting with an upper-case letter. -/
def UpperStart (s : Str) : Prop := ∀ c r, s = c :: r → isAsciiUpper c = true

theorem words_upperStart (ds : List Nat) : UpperStart (ds.flatMap digitWord) := by
  cases ds with
  | nil => intro c r h; simp at h
  | cons d ds =>
    intro c r h
    obtain ⟨u, l, hw, hu, -⟩ := digitWord_word d
    rw [List.flatMap_cons, hw] at h
    simp at h
    rw [← h.1]; exact hu

theorem lower_run_inj : ∀ {l l' r r' : Str}, (∀ c ∈ l, isAsciiLower c = true) → (∀ c ∈ l', isAsciiLower c = true) →
    UpperStart r → UpperStart r' → l ++ r = l' ++ r' → l = l' ∧ r = r'
  | [], [], r, r', _, _, _, _, h => ⟨rfl, h⟩
  | [], c :: l', r, r', _, hl', hr, _, h => by
    have := hr c _ h
    rw [Strs.lower_not_upper c (hl' c (by simp))] at this
    cases this
  | c :: l, [], r, r', hl, _, _, hr', h => by
    have := hr' c _ h.symm
    rw [Strs.lower_not_upper c (hl c (by simp))] at this
    cases this
  | c :: l, d :: l', r, r', hl, hl', hr, hr', h => by
    simp at h
    have := lower_run_inj (fun x hx => hl x (by simp [hx])) (fun x hx => hl' x (by simp [hx])) hr hr' h.2
    rw [h.1, this.1, this.2]; simp

theorem word_inj {w w' r r' : Str} (hw : IsWord w) (hw' : IsWord w') (hr : UpperStart r) (hr' : UpperStart r')
    (h : w ++ r = w' ++ r') : w = w' ∧ r = r' := by
  obtain ⟨u, l, rfl, -, hl⟩ := hw
  obtain ⟨u', l', rfl, -, hl'⟩ := hw'
  simp at h
  obtain ⟨rfl, h⟩ := h
  obtain ⟨rfl, rfl⟩ := lower_run_inj hl hl' hr hr' h
  exact ⟨rfl, rfl⟩

theorem words_inj : ∀ {ds es : List Nat}, (∀ d ∈ ds, d < 10) → (∀ d ∈ es, d < 10) →
    ds.flatMap digitWord = es.flatMap digitWord → ds = es
  | [], [], _, _, _ => rfl
  | [], e :: es, _, _, h => by
    exfalso
    have := word_ne_nil (digitWord_word e)
    rw [List.flatMap_cons] at h
    simp at h
    exact this h.1
  | d :: ds, [], _, _, h => by
    exfalso
    have := word_ne_nil (digitWord_word d)
    rw [List.flatMap_cons] at h
    simp at h
    exact this h.1
  | d :: ds, e :: es, hd, he, h => by
    rw [List.flatMap_cons, List.flatMap_cons] at h
    obtain ⟨h1, h2⟩ := word_inj (digitWord_word d) (digitWord_word e) (words_upperStart _) (words_upperStart _) h
    rw [digitWord_inj d e (hd d (by simp)) (he e (by simp)) h1,
      words_inj (fun x hx => hd x (by simp [hx])) (fun x hx => he x (by simp [hx])) h2]

/-! ### Decimal digits -/

theorem digitsRev_lt (n : Nat) : ∀ d ∈ digitsRev n, d < 10 := by
  fun_induction digitsRev n with
  | case1 n h => intro d hd; simp at hd; omega
  | case2 n h ih =>
    intro d hd
    rcases List.mem_cons.1 hd with rfl | hd
    · omega
    · exact ih d hd

theorem ofDigits_append (a : List Nat) (d : Nat) : ofDigits (a ++ [d]) = 10 * ofDigits a + d := by
  simp [ofDigits, List.foldl_append]

theorem ofDigits_digits (n : Nat) : ofDigits (digitsRev n).reverse = n := by
  fun_induction digitsRev n with
  | case1 n h => simp [ofDigits]
  | case2 n h ih => rw [List.reverse_cons, ofDigits_append, ih]; omega

theorem digitsRev_ne (n : Nat) : digitsRev n ≠ [] := by
  rw [digitsRev]; split <;> simp

theorem digitsRev_last (n : Nat) : (digitsRev n).getLast? = some 0 → digitsRev n = [0] := by
  fun_induction digitsRev n with
  | case1 n h => simp
  | case2 n h ih =>
    intro hl
    rw [List.getLast?_cons_of_ne_nil (digitsRev_ne _)] at hl
    have := ih hl
    have h2 := ofDigits_digits (n / 10)
    rw [this] at h2
    simp [ofDigits] at h2
    omega

theorem english_eq (n : Nat) : englishNumber n = (digitsRev n).reverse.flatMap digitWord := by
  rw [englishNumber, itoa, List.flatMap_map]
  have : ∀ l : List Nat, (∀ d ∈ l, d < 10) → (l.flatMap fun d => match digitEnglish (digitChar d) with
    | some engl => title engl
    | none => []) = l.flatMap digitWord := by
    intro l
    induction l with
    | nil => simp
    | cons d l ih =>
      intro h
      rw [List.flatMap_cons, List.flatMap_cons, ih (fun x hx => h x (by simp [hx])), digitWord_eq d (h d (by simp))]
  exact this _ (fun d hd => digitsRev_lt n d (by simpa using hd))

theorem english_spells (n : Nat) : Spells (englishNumber n) n := by
  refine ⟨(digitsRev n).reverse, english_eq n, fun d hd => digitsRev_lt n d (by simpa using hd), ofDigits_digits n, ?_, ?_⟩
  · simpa using digitsRev_ne n
  · intro h
    rw [List.head?_reverse] at h
    rw [digitsRev_last n h]; rfl

theorem spells_unique {s : Str} {n m : Nat} (h : Spells s n) (h' : Spells s m) : n = m := by
  obtain ⟨ds, rfl, hd, rfl, -⟩ := h
  obtain ⟨es, he, hl, rfl, -⟩ := h'
  rw [words_inj hd hl he]

theorem english_inj {n m : Nat} (h : englishNumber n = englishNumber m) : n = m :=
  spells_unique (english_spells n) (h ▸ english_spells m)

/-! ### Labels -/

/-- What is left of a word sequence in front of a non-empty word sequence is a word sequence. -/
theorem words_prefix : ∀ (ds : List Nat) (t : Str) (es : List Nat), es ≠ [] →
    ds.flatMap digitWord = t ++ es.flatMap digitWord → ∃ fs, t = fs.flatMap digitWord ∧ ∃ gs, ds = fs ++ gs := by
  intro ds
  induction ds with
  | nil =>
    intro t es hes h
    simp only [List.flatMap_nil] at h
    exact ⟨[], by simpa using (List.append_eq_nil_iff.1 h.symm).1, [], rfl⟩
  | cons d ds ih =>
    intro t es hes h
    cases t with
    | nil => exact ⟨[], rfl, d :: ds, rfl⟩
    | cons c t =>
      rw [List.flatMap_cons] at h
      -- compare the first word with t
      rcases List.append_eq_append_iff.1 h with ⟨t', h1, h2⟩ | ⟨t', h1, h2⟩
      · obtain ⟨fs, hf, gs, hg⟩ := ih t' es hes h2
        exact ⟨d :: fs, by rw [h1, hf, List.flatMap_cons], gs, by rw [hg]; rfl⟩
      · cases t' with
        | nil =>
          refine ⟨[d], by simpa using h1.symm, ds, rfl⟩
        | cons x t' =>
          exfalso
          have hx := words_upperStart es x (t' ++ ds.flatMap digitWord) (by rw [h2]; rfl)
          obtain ⟨u, l, hw, hu, hl⟩ := digitWord_word d
          rw [hw] at h1
          simp at h1
          have hx' : x ∈ l := by rw [h1.2]; simp
          rw [Strs.lower_not_upper x (hl x hx')] at hx
          cases hx


/-- The decimal representation is unique. -/
theorem digitsRev_ofDigits : ∀ (rs : List Nat), (∀ d ∈ rs, d < 10) → rs ≠ [] → (rs.getLast? = some 0 → rs = [0]) →
    digitsRev (ofDigits rs.reverse) = rs := by
  intro rs
  induction rs with
  | nil => intro _ h; exact absurd rfl h
  | cons d rs ih =>
    intro hd _ hz
    have hd0 := hd d (by simp)
    cases rs with
    | nil => simp [ofDigits]; rw [digitsRev, if_pos hd0]
    | cons e rs =>
      have hne : e :: rs ≠ [] := by simp
      have hlast : (e :: rs).getLast? ≠ some 0 := by
        intro h
        have := hz (by rw [List.getLast?_cons_of_ne_nil hne]; exact h)
        simp at this
      have ih' := ih (fun x hx => hd x (by simp [hx])) hne (fun h => absurd h hlast)
      rw [List.reverse_cons, ofDigits_append]
      have hpos : ofDigits (e :: rs).reverse ≠ 0 := by
        intro h0
        rw [h0] at ih'
        rw [digitsRev, if_pos (by omega)] at ih'
        rw [← ih'] at hlast
        simp at hlast
      rw [digitsRev, if_neg (by omega)]
      rw [show (10 * ofDigits (e :: rs).reverse + d) % 10 = d by omega,
        show (10 * ofDigits (e :: rs).reverse + d) / 10 = ofDigits (e :: rs).reverse by omega, ih']

theorem english_ofDigits (ds : List Nat) (hd : ∀ d ∈ ds, d < 10) (hne : ds ≠ []) (hz : ds.head? = some 0 → ds = [0]) :
    englishNumber (ofDigits ds) = ds.flatMap digitWord := by
  rw [english_eq]
  have := digitsRev_ofDigits ds.reverse (fun d h => hd d (by simpa using h)) (by simpa using hne)
    (fun h => by rw [List.getLast?_reverse] at h; rw [hz h]; rfl)
  rw [List.reverse_reverse] at this
  rw [this, List.reverse_reverse]

theorem foldl_digits (es : List Nat) : ∀ a, 10 ^ es.length * a ≤ es.foldl (fun a d => 10 * a + d) a := by
  induction es with
  | nil => intro a; simp
  | cons e es ih =>
    intro a
    have := ih (10 * a + e)
    rw [List.foldl_cons]
    refine Nat.le_trans ?_ this
    rw [List.length_cons, Nat.pow_succ, Nat.mul_assoc]
    exact Nat.mul_le_mul_left _ (by omega)

theorem ofDigits_append_ge (fs es : List Nat) (h : es ≠ []) : 10 * ofDigits fs ≤ ofDigits (fs ++ es) := by
  rw [ofDigits, ofDigits, List.foldl_append]
  refine Nat.le_trans ?_ (foldl_digits es _)
  apply Nat.mul_le_mul_right
  cases es with
  | nil => exact absurd rfl h
  | cons e es =>
    rw [List.length_cons, Nat.pow_succ]
    have : 1 ≤ 10 ^ es.length := Nat.one_le_pow _ _ (by omega)
    omega

/-- Two spellings, one extending the other on the left: the extension spells a positive number and the longer index is
at least ten times as large. -/
theorem english_split {i j : Nat} {t : Str} (ht : t ≠ []) (h : englishNumber i = t ++ englishNumber j) :
    ∃ k, 1 ≤ k ∧ t = englishNumber k ∧ 10 * k ≤ i := by
  rw [english_eq, english_eq] at h
  have hj : (digitsRev j).reverse ≠ [] := by simpa using digitsRev_ne j
  obtain ⟨fs, hf, gs, hg⟩ := words_prefix _ _ _ hj h
  have hi : ∀ d ∈ (digitsRev i).reverse, d < 10 := fun d hd => digitsRev_lt i d (by simpa using hd)
  have hjd : ∀ d ∈ (digitsRev j).reverse, d < 10 := fun d hd => digitsRev_lt j d (by simpa using hd)
  have hfs : fs ≠ [] := by rintro rfl; exact ht (by simpa using hf)
  have hfd : ∀ d ∈ fs, d < 10 := fun d hd => hi d (by rw [hg]; simp [hd])
  have hgs : gs = (digitsRev j).reverse := by
    rw [hg, hf, List.flatMap_append] at h
    exact words_inj (fun d hd => hi d (by rw [hg]; simp [hd])) hjd (List.append_cancel_left h)
  have hlen : fs.head? ≠ some 0 := by
    intro h0
    have h1 : (digitsRev i).reverse.head? = some 0 := by
      rw [hg]; cases fs with
      | nil => exact absurd rfl hfs
      | cons a b => simpa using h0
    rw [List.head?_reverse] at h1
    have h2 := digitsRev_last i h1
    rw [h2] at hg
    have h3 := congrArg List.length hg
    simp only [List.reverse_cons, List.reverse_nil, List.nil_append, List.length_cons, List.length_nil, List.length_append] at h3
    have h4 : 0 < fs.length := List.length_pos_iff.2 hfs
    have h5 : 0 < gs.length := List.length_pos_iff.2 (hgs ▸ hj)
    omega
  refine ⟨ofDigits fs, ?_, ?_, ?_⟩
  · cases fs with
    | nil => exact absurd rfl hfs
    | cons a b =>
      have ha : a ≠ 0 := by rintro rfl; simp at hlen
      have := foldl_digits b (10 * 0 + a)
      rw [ofDigits, List.foldl_cons]
      have h1 : 1 ≤ 10 ^ b.length := Nat.one_le_pow _ _ (by omega)
      have h2 : 1 * 1 ≤ 10 ^ b.length * (10 * 0 + a) := Nat.mul_le_mul h1 (by omega)
      omega
  · rw [hf, english_ofDigits fs hfd hfs (fun h0 => absurd h0 hlen)]
  · have := ofDigits_append_ge fs gs (hgs ▸ hj)
    rw [← hg, ofDigits_digits] at this
    exact this

theorem english_ne_nil (n : Nat) : englishNumber n ≠ [] := by
  rw [english_eq]
  have h := digitsRev_ne n
  cases hd : (digitsRev n).reverse with
  | nil => simp at hd; exact absurd hd h
  | cons d ds =>
    rw [List.flatMap_cons]
    have := word_ne_nil (digitWord_word d)
    intro h2
    exact this (List.append_eq_nil_iff.1 h2).1

theorem english_times_ten (k : Nat) (hk : 1 ≤ k) : englishNumber (10 * k) = englishNumber k ++ englishNumber 0 := by
  rw [english_eq, english_eq k, english_eq 0]
  rw [digitsRev, if_neg (by omega), show 10 * k % 10 = 0 by omega, show 10 * k / 10 = k by omega]
  rw [List.reverse_cons, List.flatMap_append, show digitsRev 0 = [0] by rw [digitsRev, if_pos (by omega)]]
  simp

end Baron.HTTP
