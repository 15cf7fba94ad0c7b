import Verif.Spec.CommandLine

/-! # Proofs about command lines (C78) -/

namespace Baron.Main

open Baron.HTTPCode (parseBool)

/-- One setting after others. -/
def put (f : Flags) : Setting → Flags
  | .switch .verbose b => { f with verbose := b }
  | .switch .help b => { f with help := b }
  | .switch .start b => { f with start := b }
  | .switch .version b => { f with version := b }
  | .switch .client b => { f with client := b }
  | .switch .svcdef b => { f with svcdef := b }
  | .switch .debug b => { f with debug := b }
  | .switch _ _ => f
  | .text .svcout v => { f with svcOut := v }
  | .text .transport v => { f with transport := v }
  | .text _ _ => f

theorem isOn_concat_switch (ss : List Setting) (n m : FlagName) (b : Bool) :
    isOn (ss ++ [.switch m b]) n = if m = n then b else isOn ss n := by
  unfold isOn
  rw [List.filterMap_append]
  by_cases h : m = n
  · simp [h]
  · simp [h]

theorem isOn_concat_text (ss : List Setting) (n m : FlagName) (v : Str) :
    isOn (ss ++ [.text m v]) n = isOn ss n := by
  unfold isOn
  rw [List.filterMap_append]
  simp

theorem textOf_concat_switch (ss : List Setting) (n m : FlagName) (b : Bool) (d : Str) :
    textOf (ss ++ [.switch m b]) n d = textOf ss n d := by
  unfold textOf
  rw [List.filterMap_append]
  simp

theorem textOf_concat_text (ss : List Setting) (n m : FlagName) (v d : Str) :
    textOf (ss ++ [.text m v]) n d = if m = n then v else textOf ss n d := by
  unfold textOf
  rw [List.filterMap_append]
  by_cases h : m = n
  · simp [h]
  · simp [h]

theorem meaning_concat (ss : List Setting) (s : Setting) : meaning (ss ++ [s]) = put (meaning ss) s := by
  cases s with
  | switch m b =>
    unfold meaning
    simp only [isOn_concat_switch, textOf_concat_switch]
    cases m <;> rfl
  | text m v =>
    unfold meaning
    simp only [isOn_concat_text, textOf_concat_text]
    cases m <;> rfl

theorem meaning_foldl (ss : List Setting) : meaning ss = ss.foldl put {} := by
  have : ∀ l : List Setting, meaning l.reverse = l.reverse.foldl put {} := by
    intro l
    induction l with
    | nil => rfl
    | cons a l ih => rw [List.reverse_cons, meaning_concat, ih, List.foldl_append]; rfl
  rw [← List.reverse_reverse ss]; exact this _

theorem parseBool_iff (v : Str) (b : Bool) : parseBool v = some b ↔ Says b v := by
  unfold parseBool
  have e : ∀ l : List String, l.any (fun s => decide (s.toList = v)) = true ↔ v ∈ l.map String.toList := by
    intro l
    rw [List.any_eq_true, List.mem_map]
    simp only [decide_eq_true_eq]
  have h1 := e ["1", "t", "T", "true", "TRUE", "True"]
  have h2 := e ["0", "f", "F", "false", "FALSE", "False"]
  cases b with
  | true =>
    show _ ↔ v ∈ ["1", "t", "T", "true", "TRUE", "True"].map String.toList
    rw [← h1]
    constructor
    · intro h
      split at h
      · assumption
      · split at h <;> cases h
    · intro h; rw [if_pos h]
  | false =>
    show _ ↔ v ∈ ["0", "f", "F", "false", "FALSE", "False"].map String.toList
    rw [← h2]
    constructor
    · intro h
      split at h
      · cases h
      · split at h
        · assumption
        · cases h
    · intro h
      have hn : ¬ (["1", "t", "T", "true", "TRUE", "True"].any fun s => decide (s.toList = v)) = true := by
        rw [h1]
        rw [h2] at h
        simp only [List.map_cons, List.map_nil, List.mem_cons, List.not_mem_nil, or_false] at h ⊢
        rcases h with h | h | h | h | h | h <;> subst h <;> decide +kernel
      rw [if_neg hn, if_pos h]

theorem isBool_iff (n : FlagName) : isBool n = true ↔ ¬ n.Texts := by
  unfold FlagName.Texts
  cases n <;> simp [isBool]

theorem setFlag_iff (f : Flags) (n : FlagName) (v : Str) (f' : Flags) :
    setFlag f n v = some f' ↔ ∃ s, Given n v s ∧ f' = put f s := by
  constructor
  · intro h
    by_cases ht : n.Texts
    · rcases ht with rfl | rfl
      · exact ⟨_, .text (.inl rfl), (Option.some.inj h).symm⟩
      · exact ⟨_, .text (.inr rfl), (Option.some.inj h).symm⟩
    · have key : ∃ b, parseBool v = some b ∧ f' = put f (.switch n b) := by
        unfold setFlag at h
        cases n with
        | svcout => exact absurd (.inl rfl) ht
        | transport => exact absurd (.inr rfl) ht
        | _ =>
          simp only [Option.map_eq_some_iff] at h
          obtain ⟨b, hb, rfl⟩ := h
          exact ⟨b, hb, rfl⟩
      obtain ⟨b, hb, e⟩ := key
      exact ⟨_, .switch ht ((parseBool_iff v b).1 hb), e⟩
  · rintro ⟨s, hs, rfl⟩
    cases hs with
    | switch ht hb =>
      rename_i b
      have := (parseBool_iff v b).2 hb
      unfold setFlag
      cases n with
      | svcout => exact absurd (.inl rfl) ht
      | transport => exact absurd (.inr rfl) ht
      | _ => simp only [this]; rfl
    | text ht =>
      rcases ht with rfl | rfl <;> rfl

theorem setFlag_true (f : Flags) {n : FlagName} (h : ¬ n.Texts) :
    setFlag f n "true".toList = some (put f (.switch n true)) :=
  (setFlag_iff _ _ _ _).2 ⟨_, .switch h (by show "true".toList ∈ _; decide), rfl⟩

theorem setFlag_text (f : Flags) {n : FlagName} (h : n.Texts) (v : Str) :
    setFlag f n v = some (put f (.text n v)) :=
  (setFlag_iff _ _ _ _).2 ⟨_, .text h, rfl⟩

theorem lookupShort_iff (c : Char) (n : FlagName) : lookupShort c = some n ↔ n.Letter c := by
  unfold lookupShort
  constructor
  · intro h
    repeat' split at h
    all_goals (first | cases h | skip)
    all_goals (simp only [FlagName.Letter]; assumption)
  · intro h
    cases n <;> simp only [FlagName.Letter] at h
    all_goals (subst h; rfl)

theorem lookupLong_iff (s : Str) (n : FlagName) : lookupLong s = some n ↔ s = n.long := by
  constructor
  · intro h
    unfold lookupLong at h
    by_cases h0 : s = "svcout".toList
    · rw [if_pos h0] at h
      rw [← Option.some.inj h]
      exact h0
    rw [if_neg h0] at h
    by_cases h1 : s = "verbose".toList
    · rw [if_pos h1] at h
      rw [← Option.some.inj h]
      exact h1
    rw [if_neg h1] at h
    by_cases h2 : s = "help".toList
    · rw [if_pos h2] at h
      rw [← Option.some.inj h]
      exact h2
    rw [if_neg h2] at h
    by_cases h3 : s = "start".toList
    · rw [if_pos h3] at h
      rw [← Option.some.inj h]
      exact h3
    rw [if_neg h3] at h
    by_cases h4 : s = "version".toList
    · rw [if_pos h4] at h
      rw [← Option.some.inj h]
      exact h4
    rw [if_neg h4] at h
    by_cases h5 : s = "client".toList
    · rw [if_pos h5] at h
      rw [← Option.some.inj h]
      exact h5
    rw [if_neg h5] at h
    by_cases h6 : s = "transport".toList
    · rw [if_pos h6] at h
      rw [← Option.some.inj h]
      exact h6
    rw [if_neg h6] at h
    by_cases h7 : s = "svcdef".toList
    · rw [if_pos h7] at h
      rw [← Option.some.inj h]
      exact h7
    rw [if_neg h7] at h
    by_cases h8 : s = "debug".toList
    · rw [if_pos h8] at h
      rw [← Option.some.inj h]
      exact h8
    rw [if_neg h8] at h
    exact absurd h (by nofun)
  · intro h
    subst h
    cases n <;> decide +kernel

theorem letter_ne {n : FlagName} {c : Char} (h : n.Letter c) : c ≠ '=' ∧ c ≠ '-' := by
  cases n <;> simp only [FlagName.Letter] at h
  all_goals (subst h; decide)

/-! ## Letters -/

theorem hasPrefix_iff (s p : Str) : hasPrefix s p = true ↔ p <+: s := by
  unfold hasPrefix
  exact List.isPrefixOf_iff_prefix

theorem letters_head {s : Str} {l : List Setting} {o : Option FlagName} (h : Letters s l o) :
    ∃ c r, s = c :: r ∧ c ≠ '=' ∧ c ≠ '-' := by
  cases h with
  | last _ h => exact ⟨_, _, rfl, letter_ne h⟩
  | more _ h _ => exact ⟨_, _, rfl, letter_ne h⟩
  | value h _ _ => exact ⟨_, _, rfl, letter_ne h⟩
  | attached _ h _ _ _ => exact ⟨_, _, rfl, letter_ne h⟩
  | next _ h => exact ⟨_, _, rfl, letter_ne h⟩
  | test => exact ⟨'t', _, rfl, by decide, by decide⟩

/-- What a step of the parser says. -/
def Step.Is (f : Flags) (l : List Setting) : Option FlagName → Step → Prop
  | none, st => st = .done (l.foldl put f)
  | some n, st => st = .needs (l.foldl put f) n

theorem shortArg_complete {s : Str} {l : List Setting} {o : Option FlagName} (h : Letters s l o) :
    ∀ f, Step.Is f l o (shortArg f s) := by
  have notest : ∀ {n : FlagName} {c : Char} (r : Str), n.Letter c → ¬ n.Texts → hasPrefix (c :: r) "test.".toList ≠ true := by
    intro n c r hl ht e
    rw [hasPrefix_iff, show "test.".toList = 't' :: "est.".toList from rfl, List.cons_prefix_cons] at e
    have := (lookupShort_iff c n).2 hl
    rw [← e.1] at this
    cases this
    exact ht (.inr rfl)
  induction h with
  | @last n c ht hl =>
    intro f
    show shortArg f [c] = _
    unfold shortArg
    rw [if_neg (notest [] hl ht), (lookupShort_iff c n).2 hl]
    simp only [List.head?_nil, reduceCtorEq, false_and, if_false, (isBool_iff n).2 ht, if_true, setFlag_true f ht]
    rfl
  | @more n c cs ss o ht hl hr ih =>
    intro f
    have := ih (put f (.switch n true))
    obtain ⟨d, r, rfl, hd, -⟩ := letters_head hr
    have e : shortArg f (c :: d :: r) = shortArg (put f (.switch n true)) (d :: r) := by
      conv => lhs; unfold shortArg
      rw [if_neg (notest _ hl ht), (lookupShort_iff c n).2 hl]
      simp only [List.head?_cons, Option.some.injEq, hd, false_and, if_false, (isBool_iff n).2 ht, if_true, setFlag_true f ht]
    rw [e]
    cases o <;> exact this
  | @value n c v s hl hv hg =>
    intro f
    show shortArg f _ = _
    unfold shortArg
    have h1 : ¬ hasPrefix (c :: '=' :: v) "test.".toList = true := by
      rw [hasPrefix_iff, show "test.".toList = 't' :: 'e' :: "st.".toList from rfl, List.cons_prefix_cons, List.cons_prefix_cons]
      rintro ⟨-, e, -⟩
      exact absurd e (by decide)
    have h2 : ('=' :: v).head? = some '=' ∧ ('=' :: v).length ≥ 2 :=
      ⟨rfl, by cases v with | nil => exact absurd rfl hv | cons a r => simp⟩
    rw [if_neg h1, (lookupShort_iff c n).2 hl]
    simp only [if_pos h2, List.tail_cons, (setFlag_iff f n v _).2 ⟨s, hg, rfl⟩]
    rfl
  | @attached n c v ht hl hv he hn =>
    intro f
    show shortArg f _ = _
    unfold shortArg
    rw [if_neg (by rw [hasPrefix_iff]; exact hn), (lookupShort_iff c n).2 hl]
    have h2 : ¬ (v.head? = some '=' ∧ v.length ≥ 2) := by
      rintro ⟨a, b⟩
      rw [he a] at b
      exact absurd b (by decide)
    have h3 : ¬ isBool n = true := fun h => (isBool_iff n).1 h ht
    simp only [if_neg h2, if_neg h3, if_pos hv, setFlag_text f ht v]
    rfl
  | @next n c ht hl =>
    intro f
    show shortArg f _ = _
    unfold shortArg
    have h0 : ¬ hasPrefix [c] "test.".toList = true := by
      rw [hasPrefix_iff, show "test.".toList = 't' :: 'e' :: "st.".toList from rfl, List.cons_prefix_cons]
      rintro ⟨-, e⟩
      simp at e
    have h3 : ¬ isBool n = true := fun h => (isBool_iff n).1 h ht
    rw [if_neg h0, (lookupShort_iff c n).2 hl]
    simp only [List.head?_nil, reduceCtorEq, false_and, if_false, if_neg h3, ne_eq, not_true_eq_false]
    rfl
  | @test v =>
    intro f
    have : hasPrefix ('t' :: ("est.".toList ++ v)) "test.".toList = true := by
      rw [hasPrefix_iff]; exact List.prefix_append _ _
    show shortArg f ('t' :: ("est.".toList ++ v)) = _
    unfold shortArg
    rw [if_pos this]
    rfl

theorem shortArg_sound (s : Str) : s ≠ [] → ∀ f,
    (∀ f', shortArg f s = .done f' → ∃ l, Letters s l none ∧ f' = l.foldl put f) ∧
    (∀ f' n, shortArg f s = .needs f' n → ∃ l, Letters s l (some n) ∧ n.Texts ∧ f' = l.foldl put f) := by
  induction s with
  | nil => intro h; exact absurd rfl h
  | cons c cs ih =>
    intro _ f
    by_cases h0 : hasPrefix (c :: cs) "test.".toList = true
    · have e : shortArg f (c :: cs) = .done f := by unfold shortArg; rw [if_pos h0]
      rw [e]
      refine ⟨fun f' h => ⟨[], ?_, by cases h; rfl⟩, fun f' n h => by cases h⟩
      obtain ⟨r, hr⟩ := (hasPrefix_iff _ _).1 h0
      rw [← hr]
      exact .test
    · cases hl : lookupShort c with
      | none =>
        have e : shortArg f (c :: cs) = .fail := by unfold shortArg; rw [if_neg h0, hl]
        rw [e]
        exact ⟨nofun, nofun⟩
      | some n =>
        have hL := (lookupShort_iff c n).1 hl
        by_cases h1 : cs.head? = some '=' ∧ cs.length ≥ 2
        · have e : shortArg f (c :: cs) = match setFlag f n cs.tail with | some f' => .done f' | none => .fail := by
            conv => lhs; unfold shortArg
            rw [if_neg h0, hl]
            simp only [if_pos h1]
            cases setFlag f n cs.tail <;> rfl
          rw [e]
          cases cs with
          | nil => exact absurd h1.1 (by simp)
          | cons d v =>
            have hd : d = '=' := by simpa using h1.1
            subst hd
            have hv : v ≠ [] := by rintro rfl; exact absurd h1.2 (by simp)
            rw [List.tail_cons]
            cases hs : setFlag f n v with
            | none => exact ⟨nofun, nofun⟩
            | some f1 =>
              obtain ⟨st, hg, e1⟩ := (setFlag_iff f n v f1).1 hs
              refine ⟨fun f' h => ⟨[st], .value hL hv hg, ?_⟩, nofun⟩
              cases h
              exact e1
        · by_cases hb : n.Texts
          · have h3 : ¬ isBool n = true := fun h => (isBool_iff n).1 h hb
            by_cases hc : cs = []
            · subst hc
              have e : shortArg f [c] = .needs f n := by
                unfold shortArg
                rw [if_neg h0, hl]
                simp only [List.head?_nil, reduceCtorEq, false_and, if_false, if_neg h3, ne_eq, not_true_eq_false]
              rw [e]
              refine ⟨nofun, fun f' m h => ?_⟩
              cases h
              exact ⟨[], .next hb hL, hb, rfl⟩
            · have e : shortArg f (c :: cs) = .done (put f (.text n cs)) := by
                unfold shortArg
                rw [if_neg h0, hl]
                simp only [if_neg h1, if_neg h3, ne_eq, hc, not_false_eq_true, if_true, setFlag_text f hb cs]
              rw [e]
              refine ⟨fun f' h => ⟨[.text n cs], .attached hb hL hc ?_ ?_, by cases h; rfl⟩, nofun⟩
              · intro he
                cases cs with
                | nil => exact absurd rfl hc
                | cons d v =>
                  have hd : d = '=' := by simpa using he
                  subst hd
                  cases v with
                  | nil => rfl
                  | cons x y => exact absurd ⟨rfl, by simp⟩ h1
              · rw [← hasPrefix_iff]; exact h0
          · have e : shortArg f (c :: cs) = shortArg (put f (.switch n true)) cs := by
              conv => lhs; unfold shortArg
              rw [if_neg h0, hl]
              simp only [if_neg h1, (isBool_iff n).2 hb, if_true, setFlag_true f hb]
            rw [e]
            by_cases hc : cs = []
            · subst hc
              refine ⟨fun f' h => ⟨[.switch n true], .last hb hL, ?_⟩, fun f' m h => ?_⟩
              · unfold shortArg at h
                cases h; rfl
              · unfold shortArg at h
                cases h
            · obtain ⟨i1, i2⟩ := ih hc (put f (.switch n true))
              refine ⟨fun f' h => ?_, fun f' m h => ?_⟩
              · obtain ⟨l, hl, e⟩ := i1 f' h
                exact ⟨_, .more hb hL hl, e⟩
              · obtain ⟨l, hl, ht, e⟩ := i2 f' m h
                exact ⟨_, .more hb hL hl, ht, e⟩

/-! ## Long flags -/

theorem long_head (n : FlagName) : n.long.head? ≠ some '-' ∧ n.long.head? ≠ some '=' ∧ n.long ≠ [] ∧ '=' ∉ n.long := by
  cases n <;> decide +kernel

theorem takeWhile_sep (a v : Str) (h : '=' ∉ a) : (a ++ '=' :: v).takeWhile (· ≠ '=') = a ∧
    (a ++ '=' :: v).dropWhile (· ≠ '=') = '=' :: v := by
  induction a with
  | nil => simp
  | cons c a ih =>
    have hc : c ≠ '=' := fun e => h (by simp [e])
    have := ih (fun e => h (List.mem_cons_of_mem _ e))
    simp only [ne_eq, decide_not] at this
    simp [hc, this]

theorem takeWhile_none (a : Str) (h : '=' ∉ a) : a.takeWhile (· ≠ '=') = a ∧ a.dropWhile (· ≠ '=') = [] := by
  induction a with
  | nil => simp
  | cons c a ih =>
    have hc : c ≠ '=' := fun e => h (by simp [e])
    have := ih (fun e => h (List.mem_cons_of_mem _ e))
    simp only [ne_eq, decide_not] at this
    simp [hc, this]

theorem longArg_value (f : Flags) (n : FlagName) (v : Str) :
    longArg f (n.long ++ '=' :: v) = match setFlag f n v with | some f' => .done f' | none => .fail := by
  obtain ⟨h1, h2, h3, h4⟩ := long_head n
  unfold longArg
  have : ¬ ((n.long ++ '=' :: v).head? = some '-' ∨ (n.long ++ '=' :: v).head? = some '=') := by
    cases hl : n.long with
    | nil => exact absurd hl h3
    | cons a l => rw [hl] at h1 h2; exact fun h => h.elim h1 h2
  rw [if_neg this, (takeWhile_sep _ v h4).1, (lookupLong_iff _ n).2 rfl, (takeWhile_sep _ v h4).2]
  show (match setFlag f n v with | some f' => Step.done f' | none => .fail) = _
  cases setFlag f n v <;> rfl

theorem longArg_plain (f : Flags) (n : FlagName) :
    longArg f n.long = if isBool n then (match setFlag f n "true".toList with | some f' => .done f' | none => .fail)
      else .needs f n := by
  obtain ⟨h1, h2, h3, h4⟩ := long_head n
  unfold longArg
  rw [if_neg (fun h => h.elim h1 h2), (takeWhile_none _ h4).1, (lookupLong_iff _ n).2 rfl, (takeWhile_none _ h4).2]
  show (if isBool n then (match setFlag f n "true".toList with | some f' => Step.done f' | none => .fail) else .needs f n) = _
  cases setFlag f n "true".toList <;> rfl

theorem longArg_sound (f : Flags) (name : Str) (h : longArg f name ≠ .fail) :
    ∃ n : FlagName, name = n.long ∨ ∃ v, name = n.long ++ '=' :: v := by
  unfold longArg at h
  split at h
  · exact absurd rfl h
  · cases hl : lookupLong (name.takeWhile (· ≠ '=')) with
    | none => rw [hl] at h; exact absurd rfl h
    | some n =>
      refine ⟨n, ?_⟩
      have e := (lookupLong_iff _ n).1 hl
      have split := List.takeWhile_append_dropWhile (p := fun c : Char => decide (c ≠ '=')) (l := name)
      rw [e] at split
      cases hd : name.dropWhile (· ≠ '=') with
      | nil => rw [hd, List.append_nil] at split; exact .inl split.symm
      | cons c v =>
        have hc : c = '=' := by
          have := List.head?_dropWhile_not (fun c : Char => decide (c ≠ '=')) name
          rw [hd] at this
          simpa using this
        subst hc
        rw [hd] at split
        exact .inr ⟨v, split.symm⟩

/-! ## Command lines -/

theorem line_complete {argv : List Str} {ss : List Setting} {fs : List Str} (h : Line argv ss fs) :
    ∀ f, parseArgs none f argv = some (ss.foldl put f, fs) := by
  have pend : ∀ {n : FlagName} (ht : n.Texts) (f : Flags) (v : Str) (r : List Str),
      parseArgs (some n) f (v :: r) = parseArgs none (put f (.text n v)) r := by
    intro n ht f v r
    conv => lhs; unfold parseArgs
    rw [setFlag_text f ht v]
  have long : ∀ (f : Flags) (name : Str) (r : List Str), name ≠ [] →
      parseArgs none f (("--".toList ++ name) :: r) = match longArg f name with
        | .fail => none
        | .done f' => parseArgs none f' r
        | .needs f' n => parseArgs (some n) f' r := by
    intro f name r hn
    show parseArgs none f (('-' :: '-' :: name) :: r) = _
    conv => lhs; unfold parseArgs
    simp only [if_neg hn]
    cases longArg f name <;> rfl
  have short : ∀ (f : Flags) (s : Str) (r : List Str), (∃ c t, s = c :: t ∧ c ≠ '=' ∧ c ≠ '-') →
      parseArgs none f (('-' :: s) :: r) = match shortArg f s with
        | .fail => none
        | .done f' => parseArgs none f' r
        | .needs f' n => parseArgs (some n) f' r := by
    rintro f s r ⟨c, t, rfl, -, hc⟩
    conv => lhs; unfold parseArgs
    split
    · rename_i e
      cases e
      exact absurd rfl hc
    · rename_i e
      cases e
      cases shortArg f (c :: t) <;> rfl
    · rename_i h
      exact absurd rfl (h c t)
  have texts_of : ∀ {s : Str} {l : List Setting} {n : FlagName}, Letters s l (some n) → n.Texts := by
    intro s l n h
    generalize ho : some n = o at h
    induction h with
    | last _ _ => cases ho
    | more _ _ _ ih => exact ih ho
    | value _ _ _ => cases ho
    | attached _ _ _ _ _ => cases ho
    | next ht _ => cases ho; exact ht
    | test => cases ho
  induction h with
  | nil => intro f; rfl
  | dashes => intro f; rfl
  | @file s r ss fs hs _ ih =>
    intro f
    have e : parseArgs none f (s :: r) = (parseArgs none f r).map fun x => (x.1, s :: x.2) := by
      conv => lhs; unfold parseArgs
      split
      · exact absurd (hs rfl) (by simp)
      · exact absurd (hs rfl) (by simp)
      · rfl
    rw [e, ih f]
    rfl
  | @long n r ss fs ht _ ih =>
    intro f
    rw [long f _ r (long_head n).2.2.1, longArg_plain, if_pos ((isBool_iff n).2 ht), setFlag_true f ht]
    exact ih _
  | @longValue n v s r ss fs hg _ ih =>
    intro f
    rw [List.append_assoc, long f _ r (by simp), longArg_value, (setFlag_iff f n v _).2 ⟨s, hg, rfl⟩]
    exact ih _
  | @longNext n v r ss fs ht _ ih =>
    intro f
    have h3 : ¬ isBool n = true := fun h => (isBool_iff n).1 h ht
    rw [long f _ _ (long_head n).2.2.1, longArg_plain, if_neg h3]
    simp only
    rw [pend ht]
    exact ih _
  | @letters s l r ss fs hl _ ih =>
    intro f
    have := shortArg_complete hl f
    rw [short f s r (letters_head hl), show shortArg f s = _ from this, List.foldl_append]
    exact ih _
  | @lettersNext s l n v r ss fs hl _ ih =>
    intro f
    have := shortArg_complete hl f
    rw [short f s _ (letters_head hl), show shortArg f s = _ from this, List.foldl_append]
    simp only
    rw [pend (texts_of hl)]
    exact ih _

theorem line_sound (argv : List Str) : ∀ (f f' : Flags) (fs : List Str),
    (parseArgs none f argv = some (f', fs) → ∃ ss, Line argv ss fs ∧ f' = ss.foldl put f) ∧
    (∀ n : FlagName, n.Texts → parseArgs (some n) f argv = some (f', fs) → ∃ v r ss, argv = v :: r ∧ Line r ss fs ∧
      f' = ss.foldl put (put f (.text n v))) := by
  induction argv with
  | nil =>
    intro f f' fs
    refine ⟨fun h => ?_, fun n ht h => ?_⟩
    · unfold parseArgs at h
      cases h
      exact ⟨[], .nil, rfl⟩
    · unfold parseArgs at h
      cases h
  | cons s r ih =>
    intro f f' fs
    refine ⟨fun h => ?_, fun n ht h => ?_⟩
    · unfold parseArgs at h
      split at h
      · rename_i name
        by_cases hn : name = []
        · subst hn
          rw [if_pos rfl] at h
          cases h
          exact ⟨[], .dashes, rfl⟩
        · rw [if_neg hn] at h
          cases hr : longArg f name with
          | fail => rw [hr] at h; cases h
          | done f1 =>
            rw [hr] at h
            obtain ⟨ss, hL, e⟩ := (ih f1 f' fs).1 h
            obtain ⟨n, hcase⟩ := longArg_sound f name (by rw [hr]; nofun)
            rcases hcase with rfl | ⟨v, rfl⟩
            · rw [longArg_plain] at hr
              by_cases hb : n.Texts
              · rw [if_neg (fun h => (isBool_iff n).1 h hb)] at hr
                cases hr
              · rw [if_pos ((isBool_iff n).2 hb), setFlag_true f hb] at hr
                cases hr
                exact ⟨_, .long hb hL, e⟩
            · rw [longArg_value] at hr
              cases hs : setFlag f n v with
              | none => rw [hs] at hr; cases hr
              | some f2 =>
                rw [hs] at hr
                cases hr
                obtain ⟨st, hg, e1⟩ := (setFlag_iff f n v _).1 hs
                refine ⟨st :: ss, ?_, by rw [e, e1]; rfl⟩
                have := Line.longValue hg hL
                rw [List.append_assoc] at this
                exact this
          | needs f1 n =>
            rw [hr] at h
            obtain ⟨m, hcase⟩ := longArg_sound f name (by rw [hr]; nofun)
            rcases hcase with rfl | ⟨v, rfl⟩
            · rw [longArg_plain] at hr
              by_cases hb : m.Texts
              · rw [if_neg (fun h => (isBool_iff m).1 h hb)] at hr
                cases hr
                obtain ⟨v, r', ss, rfl, hL, e⟩ := (ih f f' fs).2 _ hb h
                exact ⟨_, .longNext hb hL, e⟩
              · rw [if_pos ((isBool_iff m).2 hb), setFlag_true f hb] at hr
                cases hr
            · rw [longArg_value] at hr
              cases hs : setFlag f m v with
              | none => rw [hs] at hr; cases hr
              | some f2 => rw [hs] at hr; cases hr
      · rename_i c cs hne
        obtain ⟨s1, s2⟩ := shortArg_sound (c :: cs) (by simp) f
        cases hr : shortArg f (c :: cs) with
        | fail => rw [hr] at h; cases h
        | done f1 =>
          rw [hr] at h
          obtain ⟨ss, hL, e⟩ := (ih f1 f' fs).1 h
          obtain ⟨l, hl, e1⟩ := s1 f1 hr
          exact ⟨_, .letters hl hL, by rw [e, e1, List.foldl_append]⟩
        | needs f1 n =>
          rw [hr] at h
          obtain ⟨l, hl, ht, e1⟩ := s2 f1 n hr
          obtain ⟨v, r', ss, rfl, hL, e⟩ := (ih f1 f' fs).2 n ht h
          exact ⟨_, .lettersNext hl hL, by rw [e, e1, List.foldl_append]; rfl⟩
      · rename_i h1 h2
        cases hp : parseArgs none f r with
        | none => rw [hp] at h; cases h
        | some x =>
          rw [hp] at h
          cases h
          obtain ⟨ss, hL, e⟩ := (ih f x.1 x.2).1 hp
          refine ⟨ss, .file ?_ hL, e⟩
          intro hh
          cases s with
          | nil => cases hh
          | cons a t =>
            have ha : a = '-' := by simpa using hh
            subst ha
            cases t with
            | nil => rfl
            | cons b t' => exact absurd rfl (h2 b t')
    · unfold parseArgs at h
      rw [setFlag_text f ht s] at h
      obtain ⟨ss, hL, e⟩ := (ih _ f' fs).1 h
      exact ⟨s, r, ss, rfl, hL, e⟩

theorem parseArgs_iff (argv : List Str) (f : Flags) (fs : List Str) :
    parseArgs none {} argv = some (f, fs) ↔ ∃ ss, Line argv ss fs ∧ f = meaning ss := by
  constructor
  · intro h
    obtain ⟨ss, hL, e⟩ := (line_sound argv {} f fs).1 h
    exact ⟨ss, hL, by rw [e, meaning_foldl]⟩
  · rintro ⟨ss, hL, rfl⟩
    rw [line_complete hL, meaning_foldl]

end Baron.Main
