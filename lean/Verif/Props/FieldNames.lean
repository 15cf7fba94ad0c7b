import Verif.Props.Strs
import Verif.Spec.FieldNames
import Verif.Proofs.HTTPPaths

/-!
# C68, C69: lower camel-case field names and the static part of a path
-/

namespace Baron.Strs

theorem camelChar_len (p n : Option Char) (c : Char) (h : c ≠ '_') (hd : c ≠ '.') : (camelChar p n c).length = 1 := by
  unfold camelChar
  rw [if_neg hd, if_neg (fun hc => h hc.1), if_neg (fun hc => h hc.1)]
  split <;> rfl

theorem camel_longer (r : Str) (hd : '.' ∉ r) : ∀ (p : Option Char) (b : Bool),
    (jsonCamelGo b r).length ≤ (camelText p r).length := by
  induction r with
  | nil => intro p b; simp [jsonCamelGo]
  | cons c r ih =>
    intro p b
    have ih := ih (fun h => hd (by simp [h]))
    rw [jsonCamelGo, camelText, List.length_append]
    by_cases hc : c = '_'
    · rw [if_neg (fun h => h hc)]
      exact Nat.le_trans (ih (some c) true) (Nat.le_add_left _ _)
    · rw [if_pos hc, camelChar_len p r.head? c hc (fun h => hd (by simp [h])), List.length_cons]
      have := ih (some c) false
      omega

/-- The rest of a name after the character `p`. -/
theorem camel_json (r : Str) : ∀ (p : Char), (∀ c ∈ r, IdentChar c) → p ≠ '.' →
    (camelText (some p) r = jsonCamelGo (p == '_') r ↔
      (∀ a b, r = a ++ '_' :: b → ∃ c r', b = c :: r' ∧ isAsciiLower c = true) ∧
      (∀ a d c b, p :: r = a ++ d :: c :: b → isAsciiDigit d = true → isAsciiLower c = false)) := by
  induction r with
  | nil =>
    intro p _ _
    constructor
    · intro _
      refine ⟨fun a b h => by simp at h, fun a d c b h => ?_⟩
      have := congrArg List.length h
      simp at this
      omega
    · intro _; rfl
  | cons c r ih =>
    intro p hi hp
    have hic : IdentChar c := hi c (by simp)
    have hir : ∀ x ∈ r, IdentChar x := fun x hx => hi x (by simp [hx])
    have hcd : c ≠ '.' := by
      rintro rfl
      revert hic; unfold IdentChar; decide
    have hrd : '.' ∉ r := by
      intro h
      have := hir _ h
      revert this; unfold IdentChar; decide
    have ih := ih c hir hcd
    by_cases hc : c = '_'
    · subst hc
      have hj : jsonCamelGo (p == '_') ('_' :: r) = jsonCamelGo true r := by rw [jsonCamelGo, if_neg (by simp)]
      have hpn : ¬ (('_' : Char) = '_' ∧ (some p = none ∨ some p = some '.')) := by
        rintro ⟨-, h | h⟩
        · cases h
        · exact hp (Option.some.inj h)
      have hch : camelChar (some p) r.head? '_' = if lowerNext r.head? then [] else ['_'] := by
        unfold camelChar
        rw [if_neg (by decide), if_neg hpn]
        cases lowerNext r.head? with
        | true => rfl
        | false => rw [if_neg (by simp), if_neg (by simp [isAsciiLower])]; rfl
      rw [hj, camelText, hch]
      cases hn : lowerNext r.head? with
      | true =>
        simp only [if_true, List.nil_append]
        have hb : ('_' == '_') = true := rfl
        rw [hb] at ih
        rw [ih]
        obtain ⟨x, r', hr, hx⟩ : ∃ x r', r = x :: r' ∧ isAsciiLower x = true := by
          cases r with
          | nil => simp [lowerNext] at hn
          | cons x r' => exact ⟨x, r', rfl, by simpa [lowerNext] using hn⟩
        constructor
        · rintro ⟨h1, h2⟩
          refine ⟨?_, ?_⟩
          · intro a b h
            cases a with
            | nil =>
              simp only [List.nil_append, List.cons.injEq, true_and] at h
              exact ⟨x, r', by rw [← h, hr], hx⟩
            | cons y a =>
              simp only [List.cons_append, List.cons.injEq] at h
              exact h1 a b h.2
          · intro a d e b h hd
            cases a with
            | nil =>
              simp only [List.nil_append, List.cons.injEq] at h
              rw [← h.2.1]; decide
            | cons y a =>
              simp only [List.cons_append, List.cons.injEq] at h
              exact h2 a d e b h.2 hd
        · rintro ⟨h1, h2⟩
          refine ⟨fun a b h => h1 ('_' :: a) b (by rw [h]; rfl), fun a d e b h hd => h2 (p :: a) d e b (by rw [h]; rfl) hd⟩
      | false =>
        simp only [Bool.false_eq_true, if_false]
        constructor
        · intro h
          have h1 := congrArg List.length h
          have h2 := camel_longer r hrd (some '_') true
          simp only [List.cons_append, List.nil_append, List.length_cons] at h1
          omega
        · rintro ⟨h1, -⟩
          obtain ⟨x, r', hr, hx⟩ := h1 [] r rfl
          rw [hr] at hn
          simp [lowerNext, hx] at hn
    · have hcb : (c == '_') = false := by simp [hc]
      rw [hcb] at ih
      have hch : camelChar (some p) r.head? c = [if isAsciiLower c && (p == '_' || isAsciiDigit p) then upperC c else c] := by
        unfold camelChar
        rw [if_neg hcd, if_neg (fun h => hc h.1), if_neg (fun h => hc h.1)]
        have : wordStart (some p) = (p == '_' || isAsciiDigit p) := by
          have : (p == '.') = false := by simp [hp]
          rw [wordStart, this, Bool.false_or]
        rw [this]
        cases isAsciiLower c <;> cases (p == '_' || isAsciiDigit p) <;> rfl
      have hj : jsonCamelGo (p == '_') (c :: r) = (if p == '_' && isAsciiLower c then upperC c else c) :: jsonCamelGo false r := by
        rw [jsonCamelGo, if_pos hc]
      rw [hj, camelText, hch, List.singleton_append, List.cons.injEq, ih]
      have hup : isAsciiLower c = true → upperC c ≠ c := by
        intro hl he
        have h1 : c.toNat ≥ 97 ∧ c.toNat ≤ 122 := by
          simp only [isAsciiLower, Bool.and_eq_true, decide_eq_true_eq] at hl
          exact ⟨by have := hl.1; exact this, by have := hl.2; exact this⟩
        rw [upperC, if_pos hl] at he
        have h2 := congrArg Char.toNat he
        rw [ofNat_toNat_small _ (by omega)] at h2
        omega
      have hhead : ((if isAsciiLower c && (p == '_' || isAsciiDigit p) then upperC c else c) =
          if p == '_' && isAsciiLower c then upperC c else c) ↔ (isAsciiDigit p = true → isAsciiLower c = false) := by
        cases hl : isAsciiLower c with
        | false => simp
        | true =>
          by_cases hpu : p = '_'
          · subst hpu
            simp [isAsciiDigit]
          · have : (p == '_') = false := by simp [hpu]
            rw [this]
            cases hdg : isAsciiDigit p with
            | false => simp
            | true => simp [hup hl]
      rw [hhead]
      constructor
      · rintro ⟨h0, h1, h2⟩
        refine ⟨?_, ?_⟩
        · intro a b h
          cases a with
          | nil =>
            simp only [List.nil_append, List.cons.injEq] at h
            exact absurd h.1 hc
          | cons y a =>
            simp only [List.cons_append, List.cons.injEq] at h
            exact h1 a b h.2
        · intro a d e b h hd
          cases a with
          | nil =>
            simp only [List.nil_append, List.cons.injEq] at h
            obtain ⟨rfl, rfl, -⟩ := h
            exact h0 hd
          | cons y a =>
            simp only [List.cons_append, List.cons.injEq] at h
            exact h2 a d e b h.2 hd
      · rintro ⟨h1, h2⟩
        exact ⟨fun hd => h2 [] p c r rfl hd, fun a b h => h1 (c :: a) b (by rw [h]; rfl),
          fun a d e b h hd => h2 (p :: a) d e b (by rw [h]; rfl) hd⟩

open HTTP in
/-- **C68.** For a protobuf field name the lower camel-case name is the JSON name exactly for the names described by
`JSONLike`. -/
theorem C68_low_camel_iff (s : Str) (h : ProtoIdent s) : lowCamelName s = jsonCamelCase s ↔ JSONLike s := by
  obtain ⟨c, r, rfl, hc, hr⟩ := h
  have hcd : c ≠ '.' := by
    rintro rfl
    rcases hc with hc | hc
    · revert hc; decide
    · cases hc
  have hrd : '.' ∉ r := by
    intro h
    have := hr _ h
    revert this; unfold IdentChar; decide
  have hcn : isAsciiDigit c = false := by
    rcases hc with hc | rfl
    · simp only [isAsciiLetter, isAsciiLower, isAsciiUpper, Bool.or_eq_true, Bool.and_eq_true, decide_eq_true_eq] at hc
      simp only [isAsciiDigit, Bool.and_eq_false_iff, decide_eq_false_iff_not]
      right
      intro h9
      have h9' : c.toNat ≤ 57 := h9
      rcases hc with ⟨h1, -⟩ | ⟨h1, -⟩
      · have : 97 ≤ c.toNat := h1
        omega
      · have : 65 ≤ c.toNat := h1
        omega
    · decide
  by_cases hu : c = '_'
  · subst hu
    constructor
    · intro he
      exfalso
      have h1 := congrArg List.length he
      have h2 := camel_longer r hrd (some '_') true
      have h3 : lowCamelName ('_' :: r) = 'x' :: camelText (some '_') r := by
        rw [lowCamelName, C18_exact, camelText]
        have : camelChar none r.head? '_' = ['X'] := by unfold camelChar; simp
        rw [this]
        rfl
      have h4 : jsonCamelCase ('_' :: r) = jsonCamelGo true r := by rw [jsonCamelCase, jsonCamelGo, if_neg (by simp)]
      rw [h3, h4, List.length_cons] at h1
      omega
    · rintro ⟨⟨c, r', he, -, hne⟩, -⟩
      simp only [List.cons.injEq] at he
      exact absurd he.1.symm hne
  · have hch : camelChar none r.head? c = [if isAsciiLower c then upperC c else c] := by
      unfold camelChar
      rw [if_neg hcd, if_neg (fun h => hu h.1), if_neg (fun h => hu h.1)]
      cases isAsciiLower c <;> rfl
    have h1 : lowCamelName (c :: r) = lowerC (if isAsciiLower c then upperC c else c) :: camelText (some c) r := by
      rw [lowCamelName, C18_exact, camelText, hch]; rfl
    have h2 : jsonCamelCase (c :: r) = c :: jsonCamelGo false r := by
      rw [jsonCamelCase, jsonCamelGo, if_pos hu]; rfl
    have hcb : (c == '_') = false := by simp [hu]
    have hcj := camel_json r c hr hcd
    rw [hcb] at hcj
    have hhead : lowerC (if isAsciiLower c then upperC c else c) = c ↔ isAsciiUpper c = false := by
      cases hl : isAsciiLower c with
      | true =>
        have hb : 97 ≤ c.toNat ∧ c.toNat ≤ 122 := by
          simp only [isAsciiLower, Bool.and_eq_true, decide_eq_true_eq] at hl
          exact ⟨hl.1, hl.2⟩
        have hcu : isAsciiUpper c = false := by
          simp only [isAsciiUpper, Bool.and_eq_false_iff, decide_eq_false_iff_not]
          right
          intro h
          have : c.toNat ≤ 90 := h
          omega
        simp only [if_true, hcu, iff_true]
        rw [upperC, if_pos hl]
        have h3 : (Char.ofNat (c.toNat - 32)).toNat = c.toNat - 32 := ofNat_toNat_small _ (by omega)
        have h4 : isAsciiUpper (Char.ofNat (c.toNat - 32)) = true := by
          simp only [isAsciiUpper, Bool.and_eq_true, decide_eq_true_eq]
          refine ⟨?_, ?_⟩
          · show 65 ≤ (Char.ofNat (c.toNat - 32)).toNat
            omega
          · show (Char.ofNat (c.toNat - 32)).toNat ≤ 90
            omega
        rw [lowerC, if_pos h4, h3]
        have : c.toNat - 32 + 32 = c.toNat := by omega
        rw [this]
        exact Char.ofNat_toNat c
      | false =>
        simp only [Bool.false_eq_true, if_false]
        cases hcu : isAsciiUpper c with
        | false => simp [lowerC, hcu]
        | true =>
          simp only [Bool.true_eq_false, iff_false]
          intro he
          have hb : 65 ≤ c.toNat ∧ c.toNat ≤ 90 := by
            simp only [isAsciiUpper, Bool.and_eq_true, decide_eq_true_eq] at hcu
            exact ⟨hcu.1, hcu.2⟩
          rw [lowerC, if_pos hcu] at he
          have := congrArg Char.toNat he
          rw [ofNat_toNat_small _ (by omega)] at this
          omega
    rw [h1, h2, List.cons.injEq, hhead, hcj]
    constructor
    · rintro ⟨k0, k1, k2⟩
      refine ⟨⟨c, r, rfl, k0, hu⟩, ?_, k2⟩
      intro a b h
      cases a with
      | nil =>
        simp only [List.nil_append, List.cons.injEq] at h
        exact absurd h.1 hu
      | cons y a =>
        simp only [List.cons_append, List.cons.injEq] at h
        exact k1 a b h.2
    · rintro ⟨⟨c', r', he, k0, -⟩, k1, k2⟩
      simp only [List.cons.injEq] at he
      obtain ⟨rfl, rfl⟩ := he
      exact ⟨k0, fun a b h => k1 (c :: a) b (by rw [h]; rfl), k2⟩

/-- A name on each side, and names on which the two conversions differ. -/
example : HTTP.lowCamelName "my_field_name2".toList = "myFieldName2".toList ∧
    jsonCamelCase "my_field_name2".toList = "myFieldName2".toList ∧
    HTTP.lowCamelName "a_1b".toList = "a_1B".toList ∧ jsonCamelCase "a_1b".toList = "a1b".toList ∧
    HTTP.lowCamelName "_id".toList = "xId".toList ∧ jsonCamelCase "_id".toList = "Id".toList := by
  refine ⟨?_, ?_, ?_, ?_, ?_, ?_⟩ <;> (try rw [HTTP.lowCamelName, C18_exact]) <;> decide +kernel

/-- **C69.** The base path of a binding is the longest beginning of its path template without an opening brace. -/
theorem C69_base_path (p : Str) : LongestWithout '{' (HTTP.basePath p) p := by
  unfold HTTP.basePath
  induction p with
  | nil => exact ⟨⟨[], rfl⟩, by simp, fun b' rest h _ => by simp at h; simp [h.1]⟩
  | cons c p ih =>
    obtain ⟨⟨rest, h1⟩, h2, h3⟩ := ih
    by_cases hc : c = '{'
    · rw [List.takeWhile_cons_of_neg (by simp [hc])]
      refine ⟨⟨c :: p, rfl⟩, by simp, ?_⟩
      intro b' rest' h hn
      cases b' with
      | nil => simp
      | cons x b' =>
        simp only [List.cons_append, List.cons.injEq] at h
        exact absurd (by rw [← h.1, hc]; simp) hn
    · rw [List.takeWhile_cons_of_pos (by simp [hc])]
      refine ⟨⟨rest, by rw [List.cons_append, ← h1]⟩, ?_, ?_⟩
      · simp only [List.mem_cons, not_or]
        exact ⟨fun h => hc h.symm, h2⟩
      · intro b' rest' h hn
        cases b' with
        | nil => simp
        | cons x b' =>
          simp only [List.cons_append, List.cons.injEq] at h
          have := h3 b' rest' h.2 (fun hm => hn (by simp [hm]))
          simp only [List.length_cons]
          omega

/-- **C69.** For a template without parameters the base path is the whole template, and it is the path the client
requests. -/
theorem C69_static (env : Str → Str) (p : Str) (h : '{' ∉ p) :
    HTTP.basePath p = p ∧ HTTP.clientPath env p = HTTP.basePath p := by
  have h1 : HTTP.basePath p = p := by
    obtain ⟨⟨rest, hp⟩, -, hmax⟩ := C69_base_path p
    have := hmax p [] (by simp) h
    have hl := congrArg List.length hp
    rw [List.length_append] at hl
    have : rest = [] := List.eq_nil_of_length_eq_zero (by omega)
    rw [this, List.append_nil] at hp
    exact hp.symm
  refine ⟨h1, ?_⟩
  rw [h1]
  unfold HTTP.clientPath
  have hmap : ((split '/' p).map fun part =>
      if HTTP.isParamPart part then env (goCamelCase (HTTP.removeBraces part)) else part) = split '/' p := by
    conv => rhs; rw [← List.map_id (split '/' p)]
    apply List.map_congr_left
    intro part hpart
    have : HTTP.isParamPart part = false := by
      cases part with
      | nil => rfl
      | cons c r =>
        have hc : c ≠ '{' := by
          rintro rfl
          refine h ?_
          have := HTTP.join_split '/' p
          rw [← this]
          exact HTTP.mem_join_of hpart (by simp)
        simp [HTTP.isParamPart, hc]
    simp [this]
  rw [hmap, HTTP.join_split]

example : HTTP.basePath "/v1/users/{id}/x".toList = "/v1/users/".toList ∧ '{' ∉ "/v1/users".toList := by
  constructor <;> decide +kernel

end Baron.Strs
