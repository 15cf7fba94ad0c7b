import Verif.Spec.Svcdef

/-!
# Type resolution (C38)
-/

namespace Baron.Svcdef

/-! ## C38 -/

theorem lastIndex_some (x : Str) (i j : Nat) (l : List Str) (h : lastIndex x i l = some j) :
    i ≤ j ∧ l[j - i]? = some x := by
  induction l generalizing i with
  | nil => simp [lastIndex] at h
  | cons y ys ih =>
    unfold lastIndex at h
    split at h
    · rename_i k hk
      simp only [Option.some.injEq] at h
      subst h
      obtain ⟨h1, h2⟩ := ih (i + 1) hk
      refine ⟨by omega, ?_⟩
      rw [show k - i = (k - (i + 1)) + 1 by omega, List.getElem?_cons_succ]
      exact h2
    · split at h
      · rename_i hy
        simp only [Option.some.injEq] at h
        subst h
        simp [hy]
      · cases h

theorem lastIndex_none (x : Str) (i : Nat) (l : List Str) (h : lastIndex x i l = none) : x ∉ l := by
  induction l generalizing i with
  | nil => simp
  | cons y ys ih =>
    unfold lastIndex at h
    split at h
    · cases h
    · rename_i hk
      split at h
      · cases h
      · rename_i hy
        rw [List.mem_cons, not_or]
        exact ⟨fun e => hy e.symm, ih _ hk⟩

theorem lastIndex_nodup (x : Str) (l : List Str) (hn : l.Nodup) (j : Nat) :
    lastIndex x 0 l = some j ↔ l[j]? = some x := by
  constructor
  · intro h
    have := (lastIndex_some x 0 j l h).2
    simpa using this
  · intro h
    cases hl : lastIndex x 0 l with
    | none => exact absurd (List.mem_of_getElem? h) (lastIndex_none x 0 l hl)
    | some k =>
      have hk := (lastIndex_some x 0 k l hl).2
      rw [Nat.sub_zero] at hk
      obtain ⟨hk1, hk2⟩ := List.getElem?_eq_some_iff.mp hk
      have : k = j := (List.getElem?_inj hk1 hn).mp (by rw [hk, h])
      rw [this]

/-- The references the type map gives are the right ones. -/
theorem typeMap_nodup (sd : Svcdef) (hn : (sd.enums ++ sd.messages.map Message.name).Nodup) (n : Str) :
    (∀ i, typeMap sd n = some (.enum i) ↔ sd.enums[i]? = some n) ∧
    (∀ j, typeMap sd n = some (.message j) ↔ (sd.messages.map Message.name)[j]? = some n) := by
  obtain ⟨h1, h2, h3⟩ := List.nodup_append.mp hn
  have e1 := lastIndex_nodup n sd.enums h1
  have e2 := lastIndex_nodup n (sd.messages.map Message.name) h2
  unfold typeMap
  cases hl : lastIndex n 0 sd.enums with
  | some i =>
    refine ⟨fun k => ?_, fun j => ?_⟩
    · rw [← e1 k, hl]; simp
    · simp only [Option.some.injEq, reduceCtorEq, false_iff]
      intro h
      exact h3 n (List.mem_of_getElem? ((e1 i).mp hl)) n (List.mem_of_getElem? h) rfl
  | none =>
    refine ⟨fun k => ?_, fun j => ?_⟩
    · rw [← e1 k, hl]; simp
    · rw [← e2 j]; simp

theorem typeMap_refers (sd : Svcdef) (hd : DistinctNames sd) (n : Str) :
    (∀ i, typeMap sd n = some (.enum i) ↔ sd.enums[i]? = some n) ∧
    (∀ j, typeMap sd n = some (.message j) ↔ (sd.messages.map Message.name)[j]? = some n) := typeMap_nodup sd hd.1 n

theorem setType_ok (sd : Svcdef) (hd : DistinctNames sd) (t : FieldType) (hu : Unresolved t) :
    TypeOK sd t (setType (typeMap sd) t) := by
  have hr := typeMap_refers sd hd
  have none_refers : ∀ n, typeMap sd n = none → Refers sd n none none := by
    intro n hn
    refine ⟨fun i => ?_, fun j => ?_⟩
    · rw [← (hr n).1 i, hn]; simp
    · rw [← (hr n).2 j, hn]; simp
  have enum_refers : ∀ n i, typeMap sd n = some (.enum i) → Refers sd n (some i) none := by
    intro n i hn
    refine ⟨fun k => ?_, fun j => ?_⟩
    · rw [← (hr n).1 k, hn]; simp
    · rw [← (hr n).2 j, hn]; simp
  have msg_refers : ∀ n i, typeMap sd n = some (.message i) → Refers sd n none (some i) := by
    intro n i hn
    refine ⟨fun k => ?_, fun j => ?_⟩
    · rw [← (hr n).1 k, hn]; simp
    · rw [← (hr n).2 j, hn]; simp
  obtain ⟨name, enum, oneof, message, map, star, array⟩ := t
  obtain ⟨u1, u2, u3⟩ := hu
  simp only at u1 u2
  subst u1; subst u2
  cases map with
  | none =>
    simp only [TypeOK, setType]
    cases ht : typeMap sd name with
    | none => exact ⟨_, _, rfl, none_refers _ ht⟩
    | some b =>
      cases b with
      | enum i => exact ⟨_, _, rfl, enum_refers _ _ ht⟩
      | message i => exact ⟨_, _, rfl, msg_refers _ _ ht⟩
  | some mp =>
    obtain ⟨key, vn, vs, ve, vm⟩ := mp
    obtain ⟨w1, w2, w3⟩ := u3 _ rfl
    simp only at w1 w2 w3
    subst w1; subst w2; subst w3
    simp only [TypeOK, setType]
    cases vs with
    | true =>
      simp only [if_true]
      cases ht : typeMap sd vn with
      | none => exact ⟨_, _, rfl, none_refers _ ht⟩
      | some b =>
        cases b with
        | enum i => exact ⟨_, _, rfl, enum_refers _ _ ht⟩
        | message i => exact ⟨_, _, rfl, msg_refers _ _ ht⟩
    | false =>
      simp only [Bool.false_eq_true, if_false]
      have he : typeMap sd [] = none := by
        cases ht : typeMap sd [] with
        | none => rfl
        | some b =>
          exfalso
          apply hd.2
          cases b with
          | enum i => exact List.mem_append_left _ (List.mem_of_getElem? (((hr []).1 i).mp ht))
          | message i => exact List.mem_append_right _ (List.mem_of_getElem? (((hr []).2 i).mp ht))
      rw [he]

theorem all2_map {α β : Type} (R : α → β → Prop) (f : α → β) (l : List α) (h : ∀ x ∈ l, R x (f x)) :
    All2 R l (l.map f) := by
  induction l with
  | nil => exact .nil
  | cons a l ih => exact .cons (h a (by simp)) (ih fun x hx => h x (by simp [hx]))

/-- **C38** In every definition with distinct names whose types are not resolved yet, resolution sets exactly the right
references everywhere, and leaves the values of a map alone that are no messages. -/
theorem C38_resolved (sd : Svcdef) (hd : DistinctNames sd) (hu : ∀ t ∈ typesOf sd, Unresolved t) :
    Resolved sd (resolveTypes sd) := by
  have key : ∀ t ∈ typesOf sd, TypeOK sd t (setType (typeMap sd) t) := fun t ht => setType_ok sd hd t (hu t ht)
  refine ⟨rfl, rfl, ?_, ?_⟩
  · refine all2_map _ _ _ ?_
    intro m hmm
    refine ⟨rfl, all2_map _ _ _ ?_⟩
    intro f hf
    refine ⟨rfl, rfl, key _ ?_⟩
    unfold typesOf
    exact List.mem_append_left _ (List.mem_flatMap.mpr ⟨m, hmm, List.mem_map.mpr ⟨f, hf, rfl⟩⟩)
  · unfold resolveTypes
    cases hs : sd.service with
    | none => exact trivial
    | some s =>
      refine ⟨rfl, all2_map _ _ _ ?_⟩
      intro m hmm
      have mem : ∀ t, t = m.request ∨ t = m.response → t ∈ typesOf sd := by
        intro t ht
        unfold typesOf
        rw [hs]
        refine List.mem_append_right _ (List.mem_flatMap.mpr ⟨m, hmm, ?_⟩)
        rcases ht with h | h <;> simp [h]
      exact ⟨rfl, rfl, key _ (mem _ (.inl rfl)), key _ (mem _ (.inr rfl))⟩

theorem setType_idem (tm : Str → Option TypeBox) (t : FieldType) : setType tm (setType tm t) = setType tm t := by
  obtain ⟨name, enum, oneof, message, map, star, array⟩ := t
  cases map with
  | none =>
    simp only [setType]
    cases ht : tm name with
    | none => simp only [ht]
    | some b => cases b <;> simp only [ht]
  | some mp =>
    obtain ⟨key, vn, vs, ve, vm⟩ := mp
    simp only [setType]
    cases vs with
    | true =>
      simp only [if_true]
      cases ht : tm vn with
      | none => simp [ht]
      | some b => cases b <;> simp [ht]
    | false =>
      simp only [Bool.false_eq_true, if_false]
      cases ht : tm name with
      | none => simp [ht]
      | some b => cases b <;> simp [ht]

/-- **C38** Resolving again changes nothing, whatever the definition. -/
theorem C38_idempotent (sd : Svcdef) : resolveTypes (resolveTypes sd) = resolveTypes sd := by
  have htm : typeMap (resolveTypes sd) = typeMap sd := by
    funext n
    unfold typeMap resolveTypes
    simp only [List.map_map]
    rfl
  have hun : ∀ x : Svcdef, resolveTypes x = { x with
      messages := x.messages.map fun m => { m with fields := m.fields.map fun f => { f with type := setType (typeMap x) f.type } }
      service := x.service.map fun s => { s with methods := s.methods.map fun m =>
        { m with request := setType (typeMap x) m.request, response := setType (typeMap x) m.response } } } := fun _ => rfl
  rw [hun (resolveTypes sd), htm, hun sd]
  simp only [List.map_map, Option.map_map]
  congr 1
  · apply List.map_congr_left
    intro m _
    simp only [Function.comp, List.map_map]
    congr 1
    apply List.map_congr_left
    intro f _
    simp only [Function.comp, setType_idem]
  · congr 1
    funext s
    simp only [Function.comp, List.map_map]
    congr 1
    apply List.map_congr_left
    intro m _
    simp only [Function.comp, setType_idem]

namespace Example

def ty (n : String) (star array : Bool) : FieldType := ⟨n.toList, none, [], none, none, star, array⟩

def fld (n : String) (t : FieldType) : Field := ⟨n.toList, (n.toList.map lowerC), t⟩

/-- `message M { N n; E e; map<string, N> m; string s; }`, `message N {}`, `enum E`. -/
def sd : Svcdef where
  pkgName := "pb".toList
  messages := [⟨"M".toList, [fld "N" (ty "N" true false), fld "E" (ty "E" false false), fld "S" (ty "string" false false),
      fld "Mp" { ty "" false false with map := some ⟨"string".toList, "N".toList, true, none, none⟩ }]⟩,
    ⟨"N".toList, []⟩]
  enums := ["E".toList]
  service := some ⟨"Svc".toList, [⟨"Get".toList, ty "M" true false, ty "N" true false, []⟩]⟩

/-- The definition meets the hypotheses of `C38_resolved`. -/
example : DistinctNames sd ∧ (∀ t ∈ typesOf sd, Unresolved t) := by
  have h : (∀ t ∈ typesOf sd, t.enum = none ∧ t.message = none) ∧
      (∀ t ∈ typesOf sd, ∀ mp ∈ t.map.toList, t.name = [] ∧ mp.valEnum = none ∧ mp.valMessage = none) := by decide +kernel
  exact ⟨⟨by decide +kernel, by decide +kernel⟩, fun t ht => ⟨(h.1 t ht).1, (h.1 t ht).2, fun mp hmp =>
    h.2 t ht mp (by rw [hmp]; exact List.mem_singleton_self _)⟩⟩

/-- The references found. -/
example : ((resolveTypes sd).messages.head?.map fun m => m.fields.map fun f =>
      (f.type.enum, f.type.message, f.type.map.map (·.valMessage))) =
    some [(none, some 1, none), (some 0, none, none), (none, none, none), (none, none, some (some 1))] := by decide +kernel

end Example

/-- `message M { map<string, E> m; }`, `enum E`. -/
def enumMap : Svcdef where
  pkgName := "pb".toList
  messages := [⟨"M".toList, [⟨"Mp".toList, "mp".toList, ⟨[], none, [], none,
    some ⟨"string".toList, "E".toList, false, none, none⟩, false, false⟩⟩]⟩]
  enums := ["E".toList]
  service := none

/-- **C38** In particular an enum as the value type of a map is never resolved: this definition, whose only reference is
such an enum, stays as it is. -/
theorem C38_enum_map : resolveTypes enumMap = enumMap ∧ Refers enumMap "E".toList (some 0) none := by
  refine ⟨by decide +kernel, fun i => ?_, fun j => ?_⟩
  · cases i with
    | zero => exact ⟨fun _ => rfl, fun _ => rfl⟩
    | succ i => exact ⟨fun h => (by cases h), fun h => (by cases h)⟩
  · cases j with
    | zero => exact ⟨fun h => (by cases h), fun h => absurd h (by decide +kernel)⟩
    | succ j => exact ⟨fun h => (by cases h), fun h => (by cases h)⟩

end Baron.Svcdef
