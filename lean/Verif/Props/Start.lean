import Verif.Model.Start
import Verif.Spec.Strs
import Verif.Proofs.HTTPNames
import Verif.Proofs.Runtime
import Verif.Props.Strs
import Verif.Proofs.Paths

/-!
# The starter (C35, C36)
-/

namespace Baron.Start

open Baron.Gen (FS replaceAll replaceGo writeFile)
open Baron.HTTP (split_append split_none)
open Baron.Strs (goCamelCase ExportedIdent ProtoIdent IdentChar lettersOf C18_exported C18_keeps_letters)

/-! ## Replacing a single character -/

theorem replaceGo_char (c : Char) (new : Str) (n : Nat) (s : Str) (h : s.length ≤ n) :
    replaceGo [c] new n s = s.flatMap fun x => if x = c then new else [x] := by
  induction n generalizing s with
  | zero =>
    cases s with
    | nil => rfl
    | cons a s => simp at h
  | succ n ih =>
    cases s with
    | nil => rfl
    | cons a s =>
      unfold replaceGo
      simp only [List.length_cons, Nat.add_le_add_iff_right] at h
      rw [List.flatMap_cons]
      by_cases hac : a = c
      · subst hac
        rw [if_pos (by simp [List.isPrefixOf]), if_pos rfl]
        show new ++ replaceGo [a] new n s = _
        rw [ih s h]
      · rw [if_neg (by simp [List.isPrefixOf]; exact fun e => hac e.symm), if_neg hac, ih s h]
        rfl

theorem replaceAll_char (c : Char) (new : Str) (s : Str) :
    replaceAll [c] new s = s.flatMap fun x => if x = c then new else [x] :=
  replaceGo_char c new s.length s (Nat.le_refl _)

theorem replaceAll_remove (c : Char) (s : Str) : replaceAll [c] [] s = s.filter (· ≠ c) := by
  rw [replaceAll_char]
  induction s with
  | nil => rfl
  | cons a s ih =>
    rw [List.flatMap_cons, ih]
    by_cases h : a = c
    · rw [if_pos h, List.filter_cons_of_neg (by simp [h])]; rfl
    · rw [if_neg h, List.filter_cons_of_pos (by simp [h])]; rfl

theorem replaceAll_swap (c d : Char) (s : Str) : replaceAll [c] [d] s = s.map fun x => if x = c then d else x := by
  rw [replaceAll_char]
  induction s with
  | nil => rfl
  | cons a s ih =>
    rw [List.flatMap_cons, ih, List.map_cons]
    by_cases h : a = c
    · rw [if_pos h, if_pos h]; rfl
    · rw [if_neg h, if_neg h]; rfl

/-- The name a run uses: the argument or `start`, with every `.proto` removed. -/
def usedName (pkg : Str) : Str := removeDotProtoSuffix (if pkg = [] then "start".toList else pkg)

/-- The file a run writes. -/
def target (pkg outDir : Str) : Str := (ProtoInfo.mk (usedName pkg) outDir).fileName

theorem start_eq (sys : Sys) (pkg outDir : Str) (fs : FS) :
    start sys pkg outDir fs =
      if sys.stat (target pkg outDir) then (1, fs)
      else if outDir ≠ [] ∧ sys.mkdir = false then (1, fs)
      else if sys.create = false then (1, fs)
      else match sys.write with
        | some n => (1, writeFile fs (target pkg outDir) ((renderStart ⟨usedName pkg, outDir⟩).take n))
        | none => (0, writeFile fs (target pkg outDir) (renderStart ⟨usedName pkg, outDir⟩)) := rfl

/-! ## C35 The starter never overwrites an existing file -/

/-- Whatever system calls succeed: a single file, determined by the arguments alone, is written at most. -/
theorem C35_one_file (sys : Sys) (pkg outDir : Str) (fs : FS) :
    ∀ p, p ≠ target pkg outDir → (start sys pkg outDir fs).2 p = fs p := by
  intro p hp
  have wr : ∀ s, writeFile fs (target pkg outDir) s p = fs p := by
    intro s; unfold writeFile; rw [if_neg hp]
  rw [start_eq]
  repeat' split
  all_goals first | rfl | exact wr _

/-- If the file is there (`os.Stat` tells the truth about it) nothing at all is written and the code is not zero; hence
no existing file ever loses its contents. -/
theorem C35_existing_untouched (sys : Sys) (pkg outDir : Str) (fs : FS)
    (hstat : ∀ p s, fs p = some s → sys.stat p = true) :
    (∀ p s, fs p = some s → (start sys pkg outDir fs).2 p = some s) ∧
    (fs (target pkg outDir) ≠ none → start sys pkg outDir fs = (1, fs)) := by
  have ex : fs (target pkg outDir) ≠ none → start sys pkg outDir fs = (1, fs) := by
    intro h
    cases hf : fs (target pkg outDir) with
    | none => exact absurd hf h
    | some s => rw [start_eq, if_pos (hstat _ s hf)]
  refine ⟨?_, ex⟩
  intro p s hp
  by_cases hpt : p = target pkg outDir
  · have h := ex (by rw [← hpt, hp]; intro h; cases h)
    rw [h]; exact hp
  · rw [C35_one_file sys pkg outDir fs p hpt, hp]

/-- Code zero means that the complete file is there and was not there before; it is reached exactly when every system
call succeeds. -/
theorem C35_success (sys : Sys) (pkg outDir : Str) (fs : FS) :
    ((start sys pkg outDir fs).1 = 0 ↔
      sys.stat (target pkg outDir) = false ∧ (outDir ≠ [] → sys.mkdir = true) ∧ sys.create = true ∧ sys.write = none) ∧
    ((start sys pkg outDir fs).1 = 0 →
      (start sys pkg outDir fs).2 (target pkg outDir) = some (renderStart ⟨usedName pkg, outDir⟩)) := by
  rw [start_eq]
  by_cases h1 : sys.stat (target pkg outDir) = true
  · rw [if_pos h1]
    refine ⟨⟨fun h => (by cases h), ?_⟩, fun h => by cases h⟩
    rintro ⟨h, _⟩; rw [h1] at h; cases h
  rw [if_neg h1]
  have h1 : sys.stat (target pkg outDir) = false := by simpa using h1
  by_cases h2 : outDir ≠ [] ∧ sys.mkdir = false
  · rw [if_pos h2]
    refine ⟨⟨fun h => (by cases h), ?_⟩, fun h => by cases h⟩
    rintro ⟨_, h, _⟩; have := h h2.1; rw [h2.2] at this; cases this
  rw [if_neg h2]
  have h2 : outDir ≠ [] → sys.mkdir = true := fun h => by
    cases hm : sys.mkdir with
    | true => rfl
    | false => exact absurd ⟨h, hm⟩ h2
  by_cases h3 : sys.create = false
  · rw [if_pos h3]
    refine ⟨⟨fun h => (by cases h), ?_⟩, fun h => by cases h⟩
    rintro ⟨_, _, h, _⟩; rw [h3] at h; cases h
  rw [if_neg h3]
  have h3 : sys.create = true := by simpa using h3
  cases h4 : sys.write with
  | some n =>
    refine ⟨⟨fun h => (by cases h), ?_⟩, fun h => by cases h⟩
    rintro ⟨_, _, _, h⟩; cases h
  | none =>
    refine ⟨⟨fun _ => ⟨h1, h2, h3, rfl⟩, fun _ => rfl⟩, fun _ => ?_⟩
    show writeFile fs _ _ _ = _
    unfold writeFile
    rw [if_pos rfl]

theorem lowerC_slash {c : Char} (e : lowerC c = '/') : c = '/' := by
  unfold lowerC at e
  split at e
  · rename_i hu
    exfalso
    unfold isAsciiUpper at hu
    simp only [Bool.and_eq_true, decide_eq_true_eq, Char.le_def, UInt32.le_iff_toNat_le] at hu
    have e1 : ('A':Char).val.toNat = 65 := rfl
    have e2 : ('Z':Char).val.toNat = 90 := rfl
    rw [e1, e2] at hu
    have hv : (Char.ofNat (c.toNat + 32)).toNat = 47 := by rw [e]; rfl
    have hc : c.val.toNat = c.toNat := rfl
    rw [Strs.ofNat_toNat_small _ (by omega)] at hv
    omega
  · exact e

/-- A truthful file system in which `foo.proto` exists and every call succeeds: the hypotheses of the theorems above. -/
example : (fun p => if p = "foo.proto".toList then some "mine".toList else none : FS) (target "Foo".toList []) ≠ none ∧
    target "Foo.proto".toList "api/v1/".toList = "api/v1/foo.proto".toList ∧
    target "Foo".toList "../x".toList = "../x/foo.proto".toList := by decide +kernel

/-! ## C36 Starter names are well formed -/

/-- The package name is the name in lower case without spaces and dashes. -/
theorem C36_package (p : ProtoInfo) :
    p.packageName = (p.alias.filter fun c => c ≠ '-' ∧ c ≠ ' ').map lowerC ∧
    ∀ c ∈ p.packageName, c ≠ ' ' ∧ c ≠ '-' ∧ isAsciiUpper c = false := by
  have e : p.packageName = (p.alias.filter fun c => c ≠ '-' ∧ c ≠ ' ').map lowerC := by
    unfold ProtoInfo.packageName
    rw [replaceAll_remove, replaceAll_remove, List.filter_filter]
    unfold toLower
    congr 2
    funext c
    by_cases h1 : c = '-' <;> by_cases h2 : c = ' ' <;> simp [h1, h2]
  refine ⟨e, ?_⟩
  rw [e]
  intro c hc
  obtain ⟨d, hd, rfl⟩ := List.mem_map.mp hc
  have hdd := (List.mem_filter.mp hd).2
  simp only [ne_eq, decide_eq_true_eq] at hdd
  unfold lowerC
  split
  · rename_i hu
    unfold isAsciiUpper at hu
    simp only [Bool.and_eq_true, decide_eq_true_eq, Char.le_def, UInt32.le_iff_toNat_le] at hu
    have e1 : ('A':Char).val.toNat = 65 := rfl
    have e2 : ('Z':Char).val.toNat = 90 := rfl
    rw [e1, e2] at hu
    have hcv : d.val.toNat = d.toNat := rfl
    have hv : (Char.ofNat (d.toNat + 32)).toNat = d.toNat + 32 := by
      exact Strs.ofNat_toNat_small _ (by omega)
    refine ⟨?_, ?_, ?_⟩
    · intro h; rw [h] at hv; have : (' ' : Char).toNat = 32 := rfl; omega
    · intro h; rw [h] at hv; have : ('-' : Char).toNat = 45 := rfl; omega
    · unfold isAsciiUpper
      rw [Bool.and_eq_false_iff]
      right
      simp only [decide_eq_false_iff_not, Char.le_def, UInt32.le_iff_toNat_le]
      have : (Char.ofNat (d.toNat + 32)).val.toNat = d.toNat + 32 := hv
      rw [e2, this]
      omega
  · rename_i hu
    exact ⟨hdd.2, hdd.1, by simpa using hu⟩

/-- A reasonable service name: a letter, then letters, digits, underscores, dashes and spaces. -/
def ReasonableName (s : Str) : Prop :=
  ∃ c r, s = c :: r ∧ isAsciiLetter c = true ∧ ∀ x ∈ r, IdentChar x ∨ x = '-' ∨ x = ' '

/-- The name with dashes and spaces read as underscores. -/
def underscored (s : Str) : Str := s.map fun c => if c = '-' ∨ c = ' ' then '_' else c

theorem serviceName_eq (p : ProtoInfo) : p.serviceName = goCamelCase (underscored p.alias) := by
  unfold ProtoInfo.serviceName underscored
  rw [replaceAll_swap, replaceAll_swap, List.map_map]
  congr 2
  funext c
  by_cases h1 : c = '-'
  · subst h1; rfl
  · by_cases h2 : c = ' '
    · subst h2; rfl
    · simp [h1, h2]

/-- The service name of a reasonable name is an exported Go identifier that keeps all its letters and digits in order. -/
theorem C36_service (p : ProtoInfo) (h : ReasonableName p.alias) :
    ExportedIdent p.serviceName ∧ lettersOf p.serviceName = lettersOf (underscored p.alias) := by
  rw [serviceName_eq]
  obtain ⟨c, r, he, hc, hr⟩ := h
  have hcne : ¬ (c = '-' ∨ c = ' ') := by rintro (h | h) <;> subst h <;> exact absurd hc (by decide)
  have hund : underscored p.alias = c :: underscored r := by
    rw [he]; unfold underscored; rw [List.map_cons, if_neg hcne]
  have hall : ∀ x ∈ underscored r, IdentChar x := by
    intro x hx
    unfold underscored at hx
    obtain ⟨y, hy, rfl⟩ := List.mem_map.mp hx
    by_cases hy' : y = '-' ∨ y = ' '
    · rw [if_pos hy']; exact Or.inr (Or.inr rfl)
    · rw [if_neg hy']
      rcases hr y hy with h | h
      · exact h
      · exact absurd h hy'
  have hp : ProtoIdent (underscored p.alias) := ⟨c, underscored r, hund, Or.inl hc, hall⟩
  refine ⟨C18_exported _ hp, C18_keeps_letters _ ?_ ?_⟩
  · rw [hund, List.mem_cons, not_or]
    refine ⟨fun e => ?_, fun hm => ?_⟩
    · rw [← e] at hc; exact absurd hc (by decide)
    · rcases hall _ hm with h | h | h <;> exact absurd h (by decide)
  · rw [hund]
    simp only [List.head?_cons, ne_eq, Option.some.injEq]
    intro e; rw [e] at hc; exact absurd hc (by decide)

/-- The extension occurs nowhere in the text. -/
def NoExt (s : Str) : Prop := ∀ a b, s ≠ a ++ ".proto".toList ++ b

/-- The pieces, with the extension between them. -/
def withExt : List Str → Str
  | [] => []
  | [p] => p
  | p :: q :: r => p ++ ".proto".toList ++ withExt (q :: r)

theorem noExt_prefix {p rest : Str} (hp : p ≠ []) (h : NoExt p) (hr : rest = [] ∨ ∃ r, rest = ".proto".toList ++ r) :
    ".proto".toList.isPrefixOf (p ++ rest) = false := by
  cases hb : ".proto".toList.isPrefixOf (p ++ rest) with
  | false => rfl
  | true =>
    exfalso
    obtain ⟨t, ht⟩ := List.isPrefixOf_iff_prefix.mp hb
    rcases List.append_eq_append_iff.mp ht with ⟨a', e1, e2⟩ | ⟨c', e1, e2⟩
    · exact h [] a' (by rw [e1]; rfl)
    · have hdot : ∀ x : Str, ".proto".toList = p ++ '.' :: x → False := by
        intro x e
        cases p with
        | nil => exact hp rfl
        | cons y p =>
          have e' : "proto".toList = p ++ '.' :: x := by
            have := congrArg List.tail e
            exact this
          have : '.' ∈ "proto".toList := by rw [e']; simp
          exact absurd this (by decide)
      rcases hr with rfl | ⟨r, rfl⟩
      · have : c' = [] := by
          cases c' with
          | nil => rfl
          | cons => simp at e2
        rw [this, List.append_nil] at e1
        exact h [] [] (by rw [← e1]; rfl)
      · cases c' with
        | nil =>
          rw [List.append_nil] at e1
          exact h [] [] (by rw [← e1]; rfl)
        | cons x c' =>
          have hx : '.' = x := by
            have := congrArg List.head? e2
            simpa using this
          subst hx
          exact hdot _ e1

theorem replaceGo_piece (p rest : Str) (h : NoExt p) (hr : rest = [] ∨ ∃ r, rest = ".proto".toList ++ r) (n : Nat)
    (hl : p.length ≤ n) :
    replaceGo ".proto".toList [] n (p ++ rest) = p ++ replaceGo ".proto".toList [] (n - p.length) rest := by
  induction p generalizing n with
  | nil => rfl
  | cons a p ih =>
    cases n with
    | zero => simp at hl
    | succ n =>
      have hnp := noExt_prefix (p := a :: p) (by simp) h hr
      simp only [List.length_cons, Nat.add_le_add_iff_right] at hl
      show replaceGo ".proto".toList [] (n + 1) (a :: (p ++ rest)) = _
      conv => lhs; unfold replaceGo
      rw [if_neg (by rw [← List.cons_append, hnp]; decide), ih (fun x y e => h (a :: x) y (by rw [e]; rfl)) n hl,
        List.length_cons, Nat.add_sub_add_right]
      rfl

/-- **C36** However often the extension occurs in the argument, it is removed everywhere and nothing else is. -/
theorem C36_extension (ps : List Str) (h : ∀ p ∈ ps, NoExt p) : removeDotProtoSuffix (withExt ps) = ps.flatten := by
  unfold removeDotProtoSuffix replaceAll
  have key : ∀ (ps : List Str), (∀ p ∈ ps, NoExt p) → ∀ n, (withExt ps).length ≤ n →
      replaceGo ".proto".toList [] n (withExt ps) = ps.flatten := by
    intro ps
    induction ps with
    | nil => intro _ n _; cases n <;> rfl
    | cons p ps ih =>
      intro hp n hn
      cases ps with
      | nil =>
        have := replaceGo_piece p [] (hp p (by simp)) (.inl rfl) n hn
        rw [List.append_nil] at this
        show replaceGo _ _ n p = _
        rw [this]
        have : ∀ m, replaceGo ".proto".toList [] m [] = [] := by intro m; cases m <;> rfl
        rw [this]; rfl
      | cons q r =>
        simp only [withExt, List.length_append] at hn
        have hl : ".proto".toList.length = 6 := rfl
        rw [hl] at hn
        show replaceGo _ _ n (p ++ ".proto".toList ++ withExt (q :: r)) = _
        rw [List.append_assoc, replaceGo_piece p _ (hp p (by simp)) (.inr ⟨_, rfl⟩) n (by omega)]
        obtain ⟨m, hm⟩ : ∃ m, n - p.length = m + 1 := ⟨n - p.length - 1, by omega⟩
        rw [hm, List.flatten_cons]
        congr 1
        rw [← ih (fun p h => hp p (List.mem_cons_of_mem _ h)) m (by omega)]
        show replaceGo ".proto".toList [] (m + 1) ('.' :: ("proto".toList ++ withExt (q :: r))) = _
        conv => lhs; unfold replaceGo
        have hpre : ".proto".toList.isPrefixOf ('.' :: ("proto".toList ++ withExt (q :: r))) = true :=
          List.isPrefixOf_iff_prefix.mpr ⟨withExt (q :: r), rfl⟩
        rw [if_pos hpre]
        rfl
  exact key ps h _ (Nat.le_refl _)

/-- Every text can be cut in that way, so the previous theorem covers every argument. -/
theorem C36_extension_total (s : Str) : ∃ ps, (∀ p ∈ ps, NoExt p) ∧ withExt ps = s := by
  have key : ∀ (n : Nat) (s : Str), s.length ≤ n → ∃ ps, ps ≠ [] ∧ (∀ p ∈ ps, NoExt p) ∧ withExt ps = s := by
    intro n
    induction n with
    | zero =>
      intro s hs
      have : s = [] := List.eq_nil_of_length_eq_zero (by omega)
      subst this
      refine ⟨[[]], by simp, ?_, rfl⟩
      intro p hp
      simp only [List.mem_singleton] at hp
      subst hp
      intro a b e
      have := congrArg List.length e
      simp at this
    | succ n ih =>
      intro s hs
      by_cases hn : NoExt s
      · exact ⟨[s], by simp, by simpa using hn, rfl⟩
      · -- a shortest prefix before an occurrence
        have hex : ∃ k, ∃ a b, s = a ++ ".proto".toList ++ b ∧ a.length = k := by
          apply Classical.byContradiction
          intro hc
          apply hn
          intro a b e
          exact hc ⟨_, a, b, e, rfl⟩
        have hmin : ∀ k, (∃ a b, s = a ++ ".proto".toList ++ b ∧ a.length = k) →
            ∃ a b, s = a ++ ".proto".toList ++ b ∧ NoExt a := by
          intro k
          induction k using Nat.strongRecOn with
          | ind k ihk =>
            rintro ⟨a, b, e, hk⟩
            by_cases ha : NoExt a
            · exact ⟨a, b, e, ha⟩
            · have : ∃ x y, a = x ++ ".proto".toList ++ y := by
                apply Classical.byContradiction
                intro hc; apply ha; intro x y e; exact hc ⟨x, y, e⟩
              obtain ⟨x, y, e'⟩ := this
              refine ihk x.length ?_ ⟨x, y ++ ".proto".toList ++ b, ?_, rfl⟩
              · rw [← hk, e', List.length_append, List.length_append]
                have : ".proto".toList.length = 6 := rfl
                omega
              · rw [e, e']; simp only [List.append_assoc]
        obtain ⟨k, hk⟩ := hex
        obtain ⟨a, b, e, ha⟩ := hmin k hk
        obtain ⟨ps, hne, hps, hw⟩ := ih b (by
          rw [e, List.length_append, List.length_append] at hs
          have : ".proto".toList.length = 6 := rfl
          omega)
        refine ⟨a :: ps, by simp, ?_, ?_⟩
        · intro p hp
          rcases List.mem_cons.mp hp with rfl | hp
          · exact ha
          · exact hps p hp
        · cases ps with
          | nil => exact absurd rfl hne
          | cons q r => show a ++ ".proto".toList ++ withExt (q :: r) = s; rw [hw, e]
  obtain ⟨ps, -, h1, h2⟩ := key s.length s (Nat.le_refl _)
  exact ⟨ps, h1, h2⟩

/-- **C36** A name in which the extension does not occur is used as it is, with or without the extension given; and no
other name is used as it is. -/
theorem C36_extension_iff (n : Str) :
    (removeDotProtoSuffix n = n ↔ NoExt n) ∧
    (NoExt n → removeDotProtoSuffix (n ++ ".proto".toList) = n) := by
  have h1 : NoExt n → removeDotProtoSuffix n = n := by
    intro h
    have := C36_extension [n] (by simpa using h)
    rw [List.flatten_cons, List.flatten_nil, List.append_nil] at this
    exact this
  refine ⟨⟨?_, h1⟩, ?_⟩
  · intro h
    obtain ⟨ps, hps, rfl⟩ := C36_extension_total n
    rw [C36_extension ps hps] at h
    match ps with
    | [] => intro a b e; have := congrArg List.length e; simp [withExt] at this
    | [p] => exact hps p (by simp)
    | p :: q :: r =>
      exfalso
      have key : ∀ l : List Str, l.flatten.length ≤ (withExt l).length := by
        intro l
        fun_induction withExt l with
        | case1 => exact Nat.le_refl _
        | case2 p => simp
        | case3 p q r ih =>
          rw [List.flatten_cons, List.length_append, List.length_append, List.length_append]
          omega
      have h2 := key (q :: r)
      have h3 := congrArg List.length h
      rw [List.flatten_cons, List.length_append] at h3
      simp only [withExt, List.length_append] at h3 h2
      have : ".proto".toList.length = 6 := rfl
      omega
  · intro h
    have := C36_extension [n, []] (by
      intro p hp
      simp only [List.mem_cons, List.not_mem_nil, or_false] at hp
      rcases hp with rfl | rfl
      · exact h
      · intro a b e; have := congrArg List.length e; simp at this)
    simp only [withExt, List.append_nil, List.flatten_cons, List.flatten_nil] at this
    exact this

/-- So `my.protocol` becomes `mycol`, and what is left can end in `.proto` again. -/
theorem C36_extension_witness : removeDotProtoSuffix "my.protocol".toList = "mycol".toList ∧
    removeDotProtoSuffix ".pro.prototo".toList = ".proto".toList := by
  refine ⟨?_, ?_⟩ <;> decide +kernel

example : ReasonableName "my-first service2".toList ∧
    (ProtoInfo.mk "my-first service2".toList []).serviceName = "MyFirstService2".toList ∧
    (ProtoInfo.mk "my-first service2".toList []).packageName = "myfirstservice2".toList := by
  refine ⟨⟨'m', "y-first service2".toList, rfl, by decide, ?_⟩, by decide +kernel, by decide +kernel⟩
  unfold IdentChar
  decide +kernel

/-! ## C35 Where the file is -/

/-- **C35** Where the file is, whatever the working directory and the output directory (relative, absolute, with `.`, `..`
or doubled slashes in it): in the output directory, named after the argument without the extension, in lower case, without
dashes and blanks, with the extension `.proto`. -/
theorem C35_target (cwd : Cli.Place) (ps : List Str) (hps : ∀ p ∈ ps, NoExt p) (hne : withExt ps ≠ [])
    (hs : '/' ∉ ps.flatten) (outDir : Str) :
    Cli.resolve cwd (target (withExt ps) outDir) =
      Cli.resolve cwd outDir ++ [((ps.flatten.filter fun c => c ≠ '-' ∧ c ≠ ' ').map lowerC) ++ ".proto".toList] := by
  have hu : usedName (withExt ps) = ps.flatten := by
    unfold usedName
    rw [if_neg hne]
    exact C36_extension ps hps
  have hp := (C36_package ⟨usedName (withExt ps), outDir⟩).1
  simp only [hu] at hp
  have hn : '/' ∉ (ps.flatten.filter fun c => c ≠ '-' ∧ c ≠ ' ').map lowerC := by
    intro hm
    obtain ⟨c, hc, e⟩ := List.mem_map.mp hm
    have : c = '/' := lowerC_slash e
    subst this
    exact hs (List.mem_filter.mp hc).1
  have hname := Cli.isName_long (e := ".proto".toList) hn (by decide +kernel) (by decide +kernel)
  unfold target ProtoInfo.fileName
  simp only [hu]
  rw [hp]
  generalize (ps.flatten.filter fun c => c ≠ '-' ∧ c ≠ ' ').map lowerC ++ ".proto".toList = n at hname
  have hh : n.head? ≠ some '/' := by
    intro e
    exact hname.2.2.2 (List.mem_of_mem_head? e)
  unfold joinPath
  split
  · rename_i ho
    subst ho
    rw [Cli.resolve_clean]
    unfold Cli.resolve
    rw [if_neg hh, if_neg (by simp), Cli.walk_name hname, Cli.walk_nil]
  · rename_i ho
    rw [Cli.resolve_clean]
    have e : (outDir ++ '/' :: n).head? = outDir.head? := by
      cases outDir with
      | nil => exact absurd rfl ho
      | cons a r => rfl
    unfold Cli.resolve
    rw [e]
    split
    · rw [Cli.walk_append, Cli.walk_name hname]
    · rw [Cli.walk_append, Cli.walk_name hname]

/-- Three output directories, seen from `/home/u`. -/
example : Cli.resolve ["home".toList, "u".toList] "../x//./y/".toList = ["home".toList, "x".toList, "y".toList] ∧
    Cli.resolve ["home".toList, "u".toList] "/api".toList = ["api".toList] ∧
    Cli.resolve ["home".toList, "u".toList] [] = ["home".toList, "u".toList] ∧
    withExt ["My-Svc".toList, []] = "My-Svc.proto".toList ∧
    Cli.resolve ["home".toList, "u".toList] (target "My-Svc.proto".toList "../x//./y/".toList) =
      ["home".toList, "x".toList, "y".toList, "mysvc.proto".toList] := by decide +kernel

end Baron.Start
