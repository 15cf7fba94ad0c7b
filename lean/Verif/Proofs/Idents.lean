import Verif.Model.Idents
import Verif.Spec.Idents
import Verif.Proofs.Strs

namespace Baron.Idents

/-- Contains an upper-case letter. -/
def hasUpper (x : Str) : Prop := ∃ c ∈ x, isAsciiUpper c = true

theorem keywords_lower : ∀ k ∈ Strs.keywords, k.all (fun c => !isAsciiUpper c) = true := by decide +kernel

theorem notKeyword {x : Str} (h : hasUpper x) : x ∉ Strs.keywords := by
  intro hk
  obtain ⟨c, hc, hu⟩ := h
  have := List.all_eq_true.1 (keywords_lower x hk) c hc
  simp [hu] at this

theorem upper_of_exported {n : Str} (h : Exported n) : hasUpper n := by
  obtain ⟨c, r, rfl, hc⟩ := h
  exact ⟨c, List.mem_cons_self, hc⟩

theorem hasUpper_append_left {x : Str} (h : hasUpper x) (y : Str) : hasUpper (x ++ y) := by
  obtain ⟨c, hc, hu⟩ := h; exact ⟨c, List.mem_append_left _ hc, hu⟩

theorem hasUpper_append_right {y : Str} (h : hasUpper y) (x : Str) : hasUpper (x ++ y) := by
  obtain ⟨c, hc, hu⟩ := h; exact ⟨c, List.mem_append_right _ hc, hu⟩

theorem isAsciiUpper_lowerC (c : Char) : isAsciiUpper (lowerC c) = false := by
  cases h : isAsciiUpper c with
  | false => rw [Strs.lowerC_not c h]; exact h
  | true => exact Strs.lower_not_upper _ (Strs.lowerC_lower c h)

theorem toLower_noUpper (x : Str) : ¬ hasUpper (toLower x) := by
  rintro ⟨c, hc, hu⟩
  simp only [toLower, List.mem_map] at hc
  obtain ⟨d, -, rfl⟩ := hc
  rw [isAsciiUpper_lowerC] at hu; cases hu

/-! ## Affixing -/

/-- Two groups of names can share a member only if one prefix begins the other and one suffix ends the other. -/
def compat (p q p' q' : Str) : Bool :=
  (p.isPrefixOf p' || p'.isPrefixOf p) && (q.reverse.isPrefixOf q'.reverse || q'.reverse.isPrefixOf q.reverse)

theorem prefixes_compare {α : Type} [BEq α] [LawfulBEq α] {a b x y : List α} (h : a ++ x = b ++ y) :
    (a.isPrefixOf b || b.isPrefixOf a) = true := by
  rcases List.append_eq_append_iff.1 h with ⟨c, rfl, -⟩ | ⟨c, rfl, -⟩ <;> simp

theorem compat_of_eq {p q p' q' n n' : Str} (h : p ++ n ++ q = p' ++ n' ++ q') : compat p q p' q' = true := by
  unfold compat
  have h1 : p ++ (n ++ q) = p' ++ (n' ++ q') := by simpa using h
  have h2 : q.reverse ++ (p ++ n).reverse = q'.reverse ++ (p' ++ n').reverse := by
    simpa using congrArg List.reverse h
  rw [prefixes_compare h1, prefixes_compare h2]; rfl

/-- A fixed name can be in a group only if it begins with the prefix and ends with the suffix. -/
def fits (x p q : Str) : Bool := p.isPrefixOf x && q.reverse.isPrefixOf x.reverse

theorem fits_of_eq {x p q n : Str} (h : x = p ++ n ++ q) : fits x p q = true := by
  subst h; simp [fits]

theorem affix_inj {p q : Str} : Function.Injective fun n : Str => p ++ n ++ q := by
  intro a b h
  exact List.append_cancel_left (List.append_cancel_right h)

theorem declared_nodup (f : Family) : f.declared.Nodup ↔ f.names.Nodup := by
  unfold Family.declared
  constructor
  · exact fun h => (List.pairwise_map.1 h).imp fun hne e => hne (by rw [e])
  · exact fun h => List.Pairwise.map _ (fun a b hne e => hne (affix_inj e)) h

theorem mem_declared {f : Family} {x : Str} : x ∈ f.declared ↔ ∃ n ∈ f.names, f.pre ++ n ++ f.suf = x := by
  simp [Family.declared]

theorem pairwise_append {α : Type} {R : α → α → Prop} {a b : List α} :
    (a ++ b).Pairwise R ↔ a.Pairwise R ∧ b.Pairwise R ∧ ∀ x ∈ a, ∀ y ∈ b, R x y := List.pairwise_append

theorem flat_nodup (fs : List Family) (h : fs.Pairwise fun f g => compat f.pre f.suf g.pre g.suf = false) :
    (fs.flatMap Family.declared).Nodup ↔ ∀ f ∈ fs, f.names.Nodup := by
  induction fs with
  | nil => simp
  | cons f r ih =>
    rw [List.pairwise_cons] at h
    rw [List.flatMap_cons, List.nodup_append, ih h.2, declared_nodup]
    simp only [List.forall_mem_cons]
    constructor
    · rintro ⟨a, b, -⟩; exact ⟨a, b⟩
    · rintro ⟨a, b⟩
      refine ⟨a, b, ?_⟩
      intro x hx y hy hxy
      subst hxy
      obtain ⟨g, hg, hxg⟩ := List.mem_flatMap.1 hy
      obtain ⟨n, -, e⟩ := mem_declared.1 hx
      obtain ⟨n', -, e'⟩ := mem_declared.1 hxg
      have := compat_of_eq (e.trans e'.symm)
      rw [h.1 g hg] at this; cases this

theorem families_shape (g n : Bool) (s : Svcdef.Service) :
    (families g n s).map (fun f => (f.pre, f.suf)) =
      (families g n { s with methods := [] }).map (fun f => (f.pre, f.suf)) := by
  cases g <;> cases n <;> rfl

/-- The affixes of all groups. -/
def affixes (g n : Bool) : List (Str × Str) :=
  (families g n ⟨[], []⟩).map fun f => (f.pre, f.suf)

theorem families_affixes (g n : Bool) (s : Svcdef.Service) :
    (families g n s).map (fun f => (f.pre, f.suf)) = affixes g n := by
  cases g <;> cases n <;> rfl

theorem affixes_distinct (g n : Bool) :
    (affixes g n).Pairwise fun a b => compat a.1 a.2 b.1 b.2 = false := by
  cases g <;> cases n <;> decide +kernel

theorem families_distinct (g n : Bool) (s : Svcdef.Service) :
    (families g n s).Pairwise fun f h => compat f.pre f.suf h.pre h.suf = false := by
  have := affixes_distinct g n
  rw [← families_affixes g n s, List.pairwise_map] at this
  exact this

theorem fixed_nodup (g n : Bool) : (fixed g n).Nodup := by cases g <;> cases n <;> decide +kernel

theorem fixed_fits (g n : Bool) : ∀ x ∈ fixed g n, ∀ a ∈ affixes g n, fits x a.1 a.2 = false := by
  cases g <;> cases n <;> decide +kernel

theorem fixed_notKeyword (g n : Bool) : ∀ x ∈ fixed g n, x ∉ Strs.keywords := by
  cases g <;> cases n <;> decide +kernel

theorem mem_affixes {g n : Bool} {s : Svcdef.Service} {f : Family} (h : f ∈ families g n s) :
    (f.pre, f.suf) ∈ affixes g n := by
  rw [← families_affixes g n s]; exact List.mem_map_of_mem h

theorem affixes_upper (g n : Bool) : ∀ a ∈ affixes g n, a.1.any isAsciiUpper = true := by
  cases g <;> cases n <;> decide +kernel

theorem family_upper {g n : Bool} {s : Svcdef.Service} {f : Family} (h : f ∈ families g n s) {x : Str}
    (hx : x ∈ f.declared) : hasUpper x := by
  obtain ⟨m, -, rfl⟩ := mem_declared.1 hx
  obtain ⟨c, hc, hu⟩ := List.any_eq_true.1 (affixes_upper g n _ (mem_affixes h))
  exact hasUpper_append_left (hasUpper_append_left ⟨c, hc, hu⟩ _) _

theorem topLevel_nodup (t : Str) (s : Svcdef.Service) :
    (topLevel t s).Nodup ↔ ∀ f ∈ families (grpcOn t) (natsOn t) s, f.names.Nodup := by
  unfold topLevel
  rw [List.nodup_append, flat_nodup _ (families_distinct _ _ s)]
  constructor
  · exact fun h => h.2.1
  · intro h
    refine ⟨fixed_nodup _ _, h, ?_⟩
    intro x hx y hy hxy
    subst hxy
    obtain ⟨f, hf, hxf⟩ := List.mem_flatMap.1 hy
    obtain ⟨m, -, e⟩ := mem_declared.1 hxf
    have := fixed_fits _ _ x hx _ (mem_affixes hf)
    rw [fits_of_eq e.symm] at this; cases this

theorem topLevel_keyword (t : Str) (s : Svcdef.Service) : ∀ x ∈ topLevel t s, x ∉ Strs.keywords := by
  intro x hx
  rcases List.mem_append.1 hx with h | h
  · exact fixed_notKeyword _ _ x h
  · obtain ⟨f, hf, hxf⟩ := List.mem_flatMap.1 h
    exact notKeyword (family_upper hf hxf)

theorem families_names (g n : Bool) (s : Svcdef.Service) (hn : (names s).Nodup) :
    (∀ f ∈ families g n s, f.names.Nodup) ↔ (HTTP.serviceLabels s).Nodup := by
  have hh : ((httpMethods s).map (·.name)).Nodup :=
    hn.sublist (List.Sublist.map _ List.filter_sublist)
  constructor
  · intro h
    exact h ⟨"DecodeHTTP".toList, "Request".toList, HTTP.serviceLabels s⟩
      (List.mem_append_left _ (List.mem_append_left _ (.tail _ (.head _))))
  · intro h f hf
    have : f.names = names s ∨ f.names = HTTP.serviceLabels s ∨ f.names = (httpMethods s).map (·.name) := by
      unfold families at hf
      rcases List.mem_append.1 hf with hf | hf
      · rcases List.mem_append.1 hf with hf | hf
        · simp only [List.mem_cons, List.not_mem_nil, or_false] at hf
          rcases hf with rfl | rfl | rfl | rfl <;> simp
        · split at hf
          · simp only [List.mem_cons, List.not_mem_nil, or_false] at hf
            rcases hf with rfl | rfl | rfl | rfl <;> simp
          · cases hf
      · split at hf
        · simp only [List.mem_cons, List.not_mem_nil, or_false] at hf
          rcases hf with rfl | rfl <;> simp
        · cases hf
    rcases this with e | e | e <;> rw [e] <;> assumption

theorem topLevel_legal (t : Str) (s : Svcdef.Service) (hn : (names s).Nodup) :
    Legal (topLevel t s) ↔ (HTTP.serviceLabels s).Nodup := by
  unfold Legal
  rw [topLevel_nodup, families_names _ _ _ hn]
  exact ⟨And.left, fun h => ⟨h, topLevel_keyword t s⟩⟩

end Baron.Idents
