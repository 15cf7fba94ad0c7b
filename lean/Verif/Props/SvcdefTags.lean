import Verif.Spec.Svcdef
import Verif.Proofs.HTTPNames

/-!
# Struct tags (C39)
-/

namespace Baron.Svcdef

open Baron.HTTP (split_append split_none)

theorem takeQuoted_quotable (r : Str) : ∀ (n : Nat) (v : Str), v.length ≤ n → Quotable v = true →
    takeQuoted (v ++ '"' :: r) = some (v, r) := by
  intro n
  induction n with
  | zero =>
    intro v hl _
    have : v = [] := List.length_eq_zero_iff.1 (by omega)
    subst this
    show takeQuoted ('"' :: r) = _
    cases r <;> rfl
  | succ n ih =>
    intro v hl h
    cases v with
    | nil =>
      show takeQuoted ('"' :: r) = _
      cases r <;> rfl
    | cons c v =>
      unfold Quotable at h
      split at h
      · rename_i hc
        subst hc
        cases v with
        | nil => cases h
        | cons d v =>
          simp only at h
          have := ih v (by simp only [List.length_cons] at hl; omega) h
          show takeQuoted ('\\' :: d :: (v ++ '"' :: r)) = _
          rw [takeQuoted, this]
          rfl
      · rename_i hc
        simp only [Bool.and_eq_true, bne_iff_ne, ne_eq] at h
        have := ih v (by simp only [List.length_cons] at hl; omega) h.2
        show takeQuoted (c :: (v ++ '"' :: r)) = _
        rw [takeQuoted, if_neg h.1, this]
        · rfl
        · rintro rfl _; exact hc rfl
        · rintro _ _ rfl _; exact hc rfl

theorem trimLeft_none (s : Str) (h : s.head? ≠ some ' ') : trimLeft ' ' s = s := by
  cases s with
  | nil => rfl
  | cons c s =>
    unfold trimLeft
    rw [List.dropWhile_cons_of_neg]
    simp only [List.head?_cons, ne_eq, Option.some.injEq] at h
    simpa using h

theorem keyChars {k rest : Str} (h : ∀ c ∈ k, tagKeyChar c = true) :
    (k ++ ':' :: rest).takeWhile tagKeyChar = k ∧ (k ++ ':' :: rest).dropWhile tagKeyChar = ':' :: rest := by
  have hc : tagKeyChar ':' = false := by decide
  induction k with
  | nil => constructor
           · rw [List.nil_append, List.takeWhile_cons_of_neg (by rw [hc]; exact Bool.false_ne_true)]
           · rw [List.nil_append, List.dropWhile_cons_of_neg (by rw [hc]; exact Bool.false_ne_true)]
  | cons a k ih =>
    have ha := h a (by simp)
    obtain ⟨i1, i2⟩ := ih fun c hc => h c (by simp [hc])
    constructor
    · rw [List.cons_append, List.takeWhile_cons_of_pos ha, i1]
    · rw [List.cons_append, List.dropWhile_cons_of_pos ha, i2]

/-- One entry read. -/
theorem tagGetN_entry (unq : Str → Option Str) (key : Str) (n : Nat) (e : TagEntry) (hw : e.WF) (rest : Str) :
    tagGetN unq key (n + 1) (e.print ++ rest) =
      if key = e.key then (unq ('"' :: (e.val ++ ['"']))).getD [] else tagGetN unq key n rest := by
  obtain ⟨h0, hk, h1⟩ := hw
  obtain ⟨k, v⟩ := e
  simp only at h0 hk h1
  have he : (TagEntry.print ⟨k, v⟩ ++ rest) = k ++ ':' :: '"' :: (v ++ '"' :: rest) := by
    simp [TagEntry.print]
  rw [he]
  obtain ⟨t1, t2⟩ := keyChars (rest := '"' :: (v ++ '"' :: rest)) hk
  have htl : trimLeft ' ' (k ++ ':' :: '"' :: (v ++ '"' :: rest)) = k ++ ':' :: '"' :: (v ++ '"' :: rest) := by
    apply trimLeft_none
    cases k with
    | nil => exact absurd rfl h0
    | cons c k =>
      simp only [List.cons_append, List.head?_cons, ne_eq, Option.some.injEq]
      intro e
      subst e
      exact absurd (hk ' ' (by simp)) (by decide)
  conv => lhs; unfold tagGetN
  simp only [htl, t1, t2]
  cases k with
  | nil => exact absurd rfl h0
  | cons c k =>
    simp only [takeQuoted_quotable rest _ v (Nat.le_refl _) h1]

theorem tagGetN_blank (unq : Str → Option Str) (key : Str) (n : Nat) (s : Str) :
    tagGetN unq key n (' ' :: s) = tagGetN unq key n s := by
  cases n with
  | zero => rfl
  | succ n =>
    unfold tagGetN
    have : trimLeft ' ' (' ' :: s) = trimLeft ' ' s := by
      unfold trimLeft
      rw [List.dropWhile_cons_of_pos (by simp)]
    rw [this]

/-- The entry with the key is found, whatever entries come before and after it. -/
theorem tagGet_found (unq : Str → Option Str) (pre post : List TagEntry) (e : TagEntry)
    (hpre : ∀ x ∈ pre, x.WF ∧ x.key ≠ e.key) (he : e.WF) :
    tagGet unq e.key (join ' ' ((pre ++ e :: post).map TagEntry.print)) = (unq ('"' :: (e.val ++ ['"']))).getD [] := by
  unfold tagGet
  have key : ∀ n, pre.length < n →
      tagGetN unq e.key n (join ' ' ((pre ++ e :: post).map TagEntry.print)) = (unq ('"' :: (e.val ++ ['"']))).getD [] := by
    induction pre with
    | nil =>
      intro n hn
      cases n with
      | zero => omega
      | succ n =>
        have : ∃ r, join ' ' (([] ++ e :: post).map TagEntry.print) = e.print ++ r := by
          cases post with
          | nil => exact ⟨[], by simp [join]⟩
          | cons p ps => exact ⟨' ' :: join ' ' ((p :: ps).map TagEntry.print), by simp [join]⟩
        obtain ⟨r, hr⟩ := this
        rw [hr, tagGetN_entry unq e.key n e he, if_pos rfl]
    | cons x pre ih =>
      intro n hn
      cases n with
      | zero => omega
      | succ n =>
        obtain ⟨hx1, hx2⟩ := hpre x (by simp)
        have hj : join ' ' ((x :: pre ++ e :: post).map TagEntry.print) =
            x.print ++ (' ' :: join ' ' ((pre ++ e :: post).map TagEntry.print)) := by
          cases hl : (pre ++ e :: post).map TagEntry.print with
          | nil => simp at hl
          | cons a l => rw [List.cons_append, List.map_cons, hl]; rfl
        rw [hj, tagGetN_entry unq e.key n x hx1, if_neg (fun h => hx2 h.symm), tagGetN_blank]
        exact ih (fun y hy => hpre y (by simp [hy])) n (by simp at hn; omega)
  apply key
  have hlen : ∀ (l : List TagEntry), (∀ x ∈ l, x.print ≠ []) → l.length ≤ (join ' ' (l.map TagEntry.print)).length := by
    intro l
    induction l with
    | nil => intro _; simp
    | cons x l ih =>
      intro h
      have hx : 1 ≤ x.print.length := by
        have := h x (by simp)
        cases hp : x.print with
        | nil => exact absurd hp this
        | cons => simp
      have := ih fun y hy => h y (by simp [hy])
      cases l with
      | nil => simp [join]; omega
      | cons y l =>
        simp only [List.map_cons, join, List.length_append, List.length_cons] at this ⊢
        omega
  have := hlen (pre ++ e :: post) (fun x _ => by unfold TagEntry.print; simp)
  simp only [List.length_append, List.length_cons] at this
  omega

theorem split_join_commas (l : List Str) (hl : l ≠ []) (h : ∀ x ∈ l, ',' ∉ x) : split ',' (join ',' l) = l := by
  induction l with
  | nil => exact absurd rfl hl
  | cons a l ih =>
    cases l with
    | nil => exact split_none ',' a (h a (by simp))
    | cons b l =>
      show split ',' (a ++ ',' :: join ',' (b :: l)) = _
      rw [split_append ',' a, split_none ',' a (h a (by simp)), ih (by simp) (fun x hx => h x (by simp [hx]))]
      rfl

theorem afterEq_name (n : Str) : afterEq ("name=".toList ++ n) = some n := by
  unfold afterEq
  rfl

/-- **C39** For every wire type, number, cardinality, packing, further options and further tag entries: the protobuf name
of the field is the one in its tag. `v` is the literal in the tag (escapes and all), `hq` says that `strconv.Unquote` reads
it as the value protoc-gen-go writes. Options with commas (`def=a,b`) are several elements of `more`. -/
theorem C39_name (unq : Str → Option Str) (pre post : List TagEntry) (v wire num card name : Str) (packed : Bool)
    (more : List Str)
    (hw : ',' ∉ wire ∧ ',' ∉ num ∧ ',' ∉ card ∧ ',' ∉ name) (hm : ∀ x ∈ more, ',' ∉ x)
    (hpre : ∀ x ∈ pre, x.WF ∧ x.key ≠ "protobuf".toList)
    (he : TagEntry.WF ⟨"protobuf".toList, v⟩)
    (hq : unq ('"' :: (v ++ ['"'])) = some (pbValue wire num card packed name more)) :
    pbNameOf unq (some (tagLiteral (pre ++ ⟨"protobuf".toList, v⟩ :: post))) =
      .ok name := by
  unfold pbNameOf tagLiteral
  simp only
  rw [List.drop_one, List.tail_cons, List.dropLast_concat]
  have hg := tagGet_found unq pre post ⟨"protobuf".toList, v⟩ hpre he
  simp only at hg
  rw [hg, hq]
  simp only [Option.getD_some]
  have hs : split ',' (pbValue wire num card packed name more) =
      [wire, num, card] ++ (if packed then ["packed".toList] else []) ++ ("name=".toList ++ name) :: more := by
    unfold pbValue
    refine split_join_commas _ (by simp) ?_
    intro x hx
    have hn : ',' ∉ "name=".toList ++ name := by
      rw [List.mem_append, not_or]; exact ⟨by decide, hw.2.2.2⟩
    have hp : ',' ∉ "packed".toList := by decide
    cases packed with
    | true =>
      simp only [if_true, List.mem_append, List.mem_cons, List.not_mem_nil, or_false] at hx
      rcases hx with ((h | h | h) | h) | h | h
      · rw [h]; exact hw.1
      · rw [h]; exact hw.2.1
      · rw [h]; exact hw.2.2.1
      · rw [h]; exact hp
      · rw [h]; exact hn
      · exact hm x h
    | false =>
      simp only [Bool.false_eq_true, if_false, List.append_nil, List.mem_append, List.mem_cons, List.not_mem_nil,
        or_false] at hx
      rcases hx with (h | h | h) | h | h
      · rw [h]; exact hw.1
      · rw [h]; exact hw.2.1
      · rw [h]; exact hw.2.2.1
      · rw [h]; exact hn
      · exact hm x h
  rw [hs]
  cases packed with
  | true =>
    have hl : 4 ≤ ([wire, num, card] ++ (if true = true then ["packed".toList] else []) ++
        ("name=".toList ++ name) :: more).length := by simp
    rw [if_pos hl]
    rfl
  | false =>
    have hl : 4 ≤ ([wire, num, card] ++ (if false = true then ["packed".toList] else []) ++
        ("name=".toList ++ name) :: more).length := by simp
    rw [if_pos hl]
    rfl

/-- **C39** The field built from such a declaration carries that name. -/
theorem C39_field (unq : Str → Option Str) (g : Oneofs) (pre post : List TagEntry) (goName v wire num card name : Str)
    (packed : Bool) (more : List Str) (t : GoType) (f : Field)
    (hw : ',' ∉ wire ∧ ',' ∉ num ∧ ',' ∉ card ∧ ',' ∉ name) (hm : ∀ x ∈ more, ',' ∉ x)
    (hpre : ∀ x ∈ pre, x.WF ∧ x.key ≠ "protobuf".toList)
    (he : TagEntry.WF ⟨"protobuf".toList, v⟩)
    (hq : unq ('"' :: (v ++ ['"'])) = some (pbValue wire num card packed name more))
    (hf : newField unq g goName ⟨[goName], some (tagLiteral (pre ++
      ⟨"protobuf".toList, v⟩ :: post)), t⟩ = .ok f) :
    f.name = goName ∧ f.pbName = name := by
  unfold newField at hf
  simp only [C39_name unq pre post v wire num card name packed more hw hm hpre he hq] at hf
  cases ht : follow g t emptyType with
  | error e => rw [ht] at hf; cases hf
  | ok ft =>
    rw [ht] at hf
    simp only [bind, Except.bind, Except.ok.injEq] at hf
    subst hf
    exact ⟨rfl, rfl⟩

/-- A literal without escapes is unquoted to its contents. -/
def plainUnquote (s : Str) : Option Str := some (s.drop 1).dropLast

/-- `protobuf:"bytes,3,rep,packed,name=user_ids,json=userIds,proto3" json:"user_ids,omitempty"` meets the hypotheses. -/
example : pbNameOf plainUnquote (some
    "`json:\"user_ids\" protobuf:\"varint,3,rep,packed,name=user_ids,json=userIds,proto3\" x:\"y\"`".toList) =
      .ok "user_ids".toList ∧
    tagLiteral [⟨"json".toList, "user_ids".toList⟩, ⟨"protobuf".toList, pbValue "varint".toList "3".toList "rep".toList true
      "user_ids".toList ["json=userIds".toList, "proto3".toList]⟩, ⟨"x".toList, "y".toList⟩] =
      "`json:\"user_ids\" protobuf:\"varint,3,rep,packed,name=user_ids,json=userIds,proto3\" x:\"y\"`".toList := by
  decide +kernel

example : TagEntry.WF ⟨"protobuf".toList, pbValue "varint".toList "3".toList "rep".toList true
      "user_ids".toList ["json=userIds".toList, "proto3".toList]⟩ := by
  unfold TagEntry.WF; decide +kernel

/-- A proto2 default value with quotes and a comma, `def=say "a,b"`, in front of and under the key: hypotheses met with the
escapes in the literal. -/
example : TagEntry.WF ⟨"x".toList, "\\\"k\\\\".toList⟩ ∧ TagEntry.WF ⟨"protobuf".toList,
      "bytes,1,opt,name=id,def=say \\\"a,b\\\"".toList⟩ ∧
    pbValue "bytes".toList "1".toList "opt".toList false "id".toList ["def=say \"a".toList, "b\"".toList] =
      "bytes,1,opt,name=id,def=say \"a,b\"".toList := by
  refine ⟨?_, ?_, ?_⟩
  · unfold TagEntry.WF; decide +kernel
  · unfold TagEntry.WF; decide +kernel
  · decide +kernel

/-- Tags of another shape: a tag with exactly four parts and no `=` crashes the command; the field of a oneof has no
protobuf name at all. -/
theorem C39_other_tags : pbNameOf plainUnquote (some "`protobuf:\"a,b,c,d\"`".toList) = .error .panic ∧
    pbNameOf plainUnquote (some "`protobuf_oneof:\"choice\"`".toList) = .ok [] ∧
    pbNameOf plainUnquote none = .ok [] := by decide +kernel

end Baron.Svcdef
