import Verif.Spec.Generator
import Verif.Proofs.HTTPNames
import Verif.Proofs.Runtime

namespace Baron.Gen

open Baron.HTTP (split_append split_none)
open Baron.Runtime (toLower_idem)

theorem trimSuffix_append (s t : Str) : trimSuffix (s ++ t) t = s := by
  unfold trimSuffix hasSuffix
  rw [List.reverse_append, if_pos (by rw [List.isPrefixOf_iff_prefix]; exact List.prefix_append _ _)]
  simp

/-- The path a template is written to, per template. -/
theorem actual_cmdServer (x : Str) :
    templatePathToActual cmdServerPath x = "cmd/".toList ++ (toLower x ++ "/main.go".toList) := by
  unfold templatePathToActual
  rw [show replaceAll "NAME".toList (toLower x) cmdServerPath
      = ("cmd/".toList ++ (toLower x ++ "/main.go".toList)) ++ ".tmpl".toList by
    simp only [List.append_assoc]; with_unfolding_all rfl]
  exact trimSuffix_append _ _

theorem actual_cmdClient (x : Str) :
    templatePathToActual cmdClientPath x = "cmd/".toList ++ (toLower x ++ "-client/main.go".toList) := by
  unfold templatePathToActual
  rw [show replaceAll "NAME".toList (toLower x) cmdClientPath
      = ("cmd/".toList ++ (toLower x ++ "-client/main.go".toList)) ++ ".tmpl".toList by
    simp only [List.append_assoc]; with_unfolding_all rfl]
  exact trimSuffix_append _ _

theorem actual_baron (x : Str) :
    templatePathToActual baronPath x = "baron/".toList ++ (toLower x ++ ".pb.baron.go".toList) := by
  unfold templatePathToActual
  rw [show replaceAll "NAME".toList (toLower x) baronPath
      = ("baron/".toList ++ (toLower x ++ ".pb.baron.go".toList)) ++ ".tmpl".toList by
    simp only [List.append_assoc]; with_unfolding_all rfl]
  exact trimSuffix_append _ _

theorem actual_service (x : Str) : templatePathToActual servicePath x = "service/service.go".toList := by
  with_unfolding_all rfl
theorem actual_serviceMethods (x : Str) :
    templatePathToActual serviceMethodsPath x = "service/service_methods.go".toList := by
  with_unfolding_all rfl
theorem actual_serviceWrapper (x : Str) : templatePathToActual serviceWrapperPath x = "service/wrapper.go".toList := by
  with_unfolding_all rfl
theorem actual_server (x : Str) : templatePathToActual serverPath x = "server/server.go".toList := by
  with_unfolding_all rfl
theorem actual_endpoints (x : Str) : templatePathToActual serverEndpointsPath x = "server/endpoints.go".toList := by
  with_unfolding_all rfl
theorem actual_interrupt (x : Str) : templatePathToActual serverInterruptPath x = "server/interrupt.go".toList := by
  with_unfolding_all rfl
theorem actual_serverWrapper (x : Str) : templatePathToActual serverWrapperPath x = "server/wrapper.go".toList := by
  with_unfolding_all rfl

/-! ## Distinct paths -/

theorem app_ne {a b r : Str} (h : a.isPrefixOf b = false) : a ++ r ≠ b := by
  intro e
  rw [← e, List.isPrefixOf_iff_prefix.mpr (List.prefix_append a r)] at h
  cases h

theorem app_ne_app {a b r r' : Str} (h : a.isPrefixOf b = false) (hl : b.length ≤ a.length) (hb : 0 < b.length)
    (h' : b.isPrefixOf a = false) : a ++ r ≠ b ++ r' := by
  intro e
  have : b <+: a ++ r := e ▸ List.prefix_append b r'
  have : b <+: a := List.prefix_of_prefix_length_le this (List.prefix_append a r) hl
  rw [List.isPrefixOf_iff_prefix.mpr this] at h'
  cases h'

/-- All paths, by template. -/
def allActual (x : Str) : List Str :=
  ["baron/".toList ++ (x ++ ".pb.baron.go".toList), "cmd/".toList ++ (x ++ "/main.go".toList),
   "cmd/".toList ++ (x ++ "-client/main.go".toList), "server/endpoints.go".toList, "server/interrupt.go".toList,
   "server/server.go".toList, "server/wrapper.go".toList, "service/service.go".toList,
   "service/service_methods.go".toList, "service/wrapper.go".toList]

theorem map_actual (x : Str) : assetNames.map (templatePathToActual · x) = allActual (toLower x) := by
  simp only [assetNames, List.map_cons, List.map_nil, actual_cmdServer, actual_cmdClient, actual_baron, actual_service,
    actual_serviceMethods, actual_serviceWrapper, actual_server, actual_endpoints, actual_interrupt, actual_serverWrapper]
  rfl

theorem cmd_ne_client (x : Str) :
    "cmd/".toList ++ (x ++ "/main.go".toList) ≠ "cmd/".toList ++ (x ++ "-client/main.go".toList) := by
  intro h
  have := List.append_cancel_left (List.append_cancel_left h)
  revert this
  decide +kernel

theorem nodup_allActual (x : Str) : (allActual x).Nodup := by
  unfold allActual
  refine List.nodup_cons.mpr ⟨?_, List.nodup_cons.mpr ⟨?_, List.nodup_cons.mpr ⟨?_, by decide +kernel⟩⟩⟩
  · intro h
    rcases List.mem_cons.mp h with h | h
    · exact app_ne_app (by decide +kernel) (by decide +kernel) (by decide +kernel) (by decide +kernel) h
    rcases List.mem_cons.mp h with h | h
    · exact app_ne_app (by decide +kernel) (by decide +kernel) (by decide +kernel) (by decide +kernel) h
    simp only [List.mem_cons, List.not_mem_nil, or_false] at h
    rcases h with h | h | h | h | h | h | h <;> exact app_ne (by decide +kernel) h
  · intro h
    rcases List.mem_cons.mp h with h | h
    · exact cmd_ne_client x h
    simp only [List.mem_cons, List.not_mem_nil, or_false] at h
    rcases h with h | h | h | h | h | h | h <;> exact app_ne (by decide +kernel) h
  · intro h
    simp only [List.mem_cons, List.not_mem_nil, or_false] at h
    rcases h with h | h | h | h | h | h | h <;> exact app_ne (by decide +kernel) h

theorem inj_of_nodup_map {α β : Type} {f : α → β} {l : List α} (h : (l.map f).Nodup) {a b : α} (ha : a ∈ l) (hb : b ∈ l)
    (e : f a = f b) : a = b := by
  induction l with
  | nil => cases ha
  | cons c cs ih =>
    rw [List.map_cons, List.nodup_cons] at h
    rcases List.mem_cons.mp ha with h1 | h1 <;> rcases List.mem_cons.mp hb with h2 | h2
    · rw [h1, h2]
    · exact absurd (List.mem_map.mpr ⟨b, h2, by rw [← e, h1]⟩) h.1
    · exact absurd (List.mem_map.mpr ⟨a, h1, by rw [e, h2]⟩) h.1
    · exact ih h.2 h1 h2

theorem actual_inj (x : Str) {t t' : Str} (h : t ∈ assetNames) (h' : t' ∈ assetNames)
    (e : templatePathToActual t x = templatePathToActual t' x) : t = t' :=
  inj_of_nodup_map (f := (templatePathToActual · x)) (by rw [map_actual]; exact nodup_allActual _) h h' e

/-! ## The generated files -/

theorem gokit_keys {e : Env} {prev : FS} {assets : List Str} {files : List (Str × Str)}
    (h : generateGokit e prev assets = some files) :
    ∀ x ∈ files, ∃ t ∈ assets, isExcludedPath t = false ∧ x.1 = templatePathToActual t (toLower e.name) ∧
      generateResponseFile e t (prev x.1) = .file x.2 := by
  induction assets generalizing files with
  | nil => simp only [generateGokit, Option.some.injEq] at h; subst h; intro x hx; cases hx
  | cons t ts ih =>
    unfold generateGokit at h
    have sub : ∀ {l : List (Str × Str)}, generateGokit e prev ts = some l → ∀ x ∈ l, ∃ t' ∈ t :: ts,
        isExcludedPath t' = false ∧ x.1 = templatePathToActual t' (toLower e.name) ∧
        generateResponseFile e t' (prev x.1) = .file x.2 := by
      intro l hl x hx
      obtain ⟨t', ht', r⟩ := ih hl x hx
      exact ⟨t', List.mem_cons_of_mem _ ht', r⟩
    by_cases hex : isExcludedPath t
    · rw [if_pos hex] at h; exact sub h
    rw [if_neg hex] at h
    simp only at h
    split at h
    · cases h
    · exact sub h
    · rename_i s hs
      cases hg : generateGokit e prev ts with
      | none => rw [hg] at h; cases h
      | some l =>
        rw [hg] at h
        simp only [Option.map_some, Option.some.injEq] at h
        subst h
        intro x hx
        rcases List.mem_cons.mp hx with hx | hx
        · subst hx; exact ⟨t, List.mem_cons_self, by simpa using hex, rfl, hs⟩
        · exact sub hg x hx

theorem gokit_mem {e : Env} {prev : FS} {assets : List Str} {files : List (Str × Str)}
    (h : generateGokit e prev assets = some files) {t : Str} (ht : t ∈ assets) (hex : isExcludedPath t = false) :
    (generateResponseFile e t (prev (templatePathToActual t (toLower e.name))) = .ignored) ∨
    ∃ s, generateResponseFile e t (prev (templatePathToActual t (toLower e.name))) = .file s ∧
      (templatePathToActual t (toLower e.name), s) ∈ files := by
  induction assets generalizing files with
  | nil => cases ht
  | cons u us ih =>
    unfold generateGokit at h
    by_cases hu : isExcludedPath u
    · rw [if_pos hu] at h
      rcases List.mem_cons.mp ht with ht | ht
      · subst ht; rw [hex] at hu; cases hu
      · exact ih h ht
    rw [if_neg hu] at h
    simp only at h
    split at h
    · cases h
    · rename_i hi
      rcases List.mem_cons.mp ht with ht | ht
      · subst ht; exact Or.inl hi
      · exact ih h ht
    · rename_i s hs
      cases hg : generateGokit e prev us with
      | none => rw [hg] at h; cases h
      | some l =>
        rw [hg] at h
        simp only [Option.map_some, Option.some.injEq] at h
        subst h
        rcases List.mem_cons.mp ht with ht | ht
        · subst ht; exact Or.inr ⟨s, hs, List.mem_cons_self⟩
        · rcases ih hg ht with h1 | ⟨s', h1, h2⟩
          · exact Or.inl h1
          · exact Or.inr ⟨s', h1, List.mem_cons_of_mem _ h2⟩

theorem gokit_some {e : Env} {prev : FS} {assets : List Str}
    (h : ∀ t ∈ assets, isExcludedPath t = false →
      generateResponseFile e t (prev (templatePathToActual t (toLower e.name))) ≠ .error) :
    ∃ files, generateGokit e prev assets = some files := by
  induction assets with
  | nil => exact ⟨[], rfl⟩
  | cons t ts ih =>
    obtain ⟨fs, hfs⟩ := ih (fun u hu => h u (List.mem_cons_of_mem _ hu))
    unfold generateGokit
    by_cases hex : isExcludedPath t
    · rw [if_pos hex]; exact ⟨fs, hfs⟩
    rw [if_neg hex]
    simp only
    have := h t List.mem_cons_self (by simpa using hex)
    split
    · rename_i he; exact absurd he this
    · exact ⟨fs, hfs⟩
    · rw [hfs]; exact ⟨_, rfl⟩

theorem gokit_noError {e : Env} {prev : FS} {assets : List Str} {files : List (Str × Str)}
    (h : generateGokit e prev assets = some files) {t : Str} (ht : t ∈ assets) (hex : isExcludedPath t = false) :
    generateResponseFile e t (prev (templatePathToActual t (toLower e.name))) ≠ .error := by
  rcases gokit_mem h ht hex with h | ⟨s, h, _⟩ <;> rw [h] <;> intro h <;> cases h

theorem gokit_nodup {e : Env} {prev : FS} {assets : List Str} {files : List (Str × Str)} (hn : assets.Nodup)
    (ha : ∀ t ∈ assets, t ∈ assetNames)
    (h : generateGokit e prev assets = some files) : (files.map (·.1)).Nodup := by
  induction assets generalizing files with
  | nil => simp only [generateGokit, Option.some.injEq] at h; subst h; exact List.nodup_nil
  | cons t ts ih =>
    have hn' := List.nodup_cons.mp hn
    have ih' := fun {l : List (Str × Str)} => ih (files := l) hn'.2 (fun u hu => ha u (List.mem_cons_of_mem _ hu))
    unfold generateGokit at h
    by_cases hex : isExcludedPath t
    · rw [if_pos hex] at h; exact ih' h
    rw [if_neg hex] at h
    simp only at h
    split at h
    · cases h
    · exact ih' h
    · rename_i s hs
      cases hg : generateGokit e prev ts with
      | none => rw [hg] at h; cases h
      | some l =>
        rw [hg] at h
        simp only [Option.map_some, Option.some.injEq] at h
        subst h
        rw [List.map_cons, List.nodup_cons]
        refine ⟨?_, ih' hg⟩
        intro hm
        obtain ⟨y, hy, e'⟩ := List.mem_map.mp hm
        obtain ⟨u, hu, _, hk, _⟩ := gokit_keys hg y hy
        have : t = u := actual_inj (toLower e.name) (ha t List.mem_cons_self) (ha u (List.mem_cons_of_mem _ hu))
          (by rw [← hk, e'])
        subst this
        exact hn'.1 hu

/-! ## Writing -/

theorem writeAll_notMem {fs : FS} {l : List (Str × Str)} {p : Str} (h : p ∉ l.map (·.1)) : writeAll fs l p = fs p := by
  unfold writeAll
  induction l generalizing fs with
  | nil => rfl
  | cons a l ih =>
    rw [List.map_cons, List.mem_cons, not_or] at h
    rw [List.foldl_cons, ih h.2]
    unfold writeFile
    rw [if_neg h.1]

theorem writeAll_mem {fs : FS} {l : List (Str × Str)} (hn : (l.map (·.1)).Nodup) {x : Str × Str} (h : x ∈ l) :
    writeAll fs l x.1 = some x.2 := by
  induction l generalizing fs with
  | nil => cases h
  | cons a l ih =>
    rw [List.map_cons, List.nodup_cons] at hn
    rcases List.mem_cons.mp h with h | h
    · subst h
      show writeAll (writeFile fs x.1 x.2) l x.1 = _
      rw [writeAll_notMem hn.1]
      unfold writeFile
      rw [if_pos rfl]
    · exact ih (fs := writeFile fs a.1 a.2) hn.2 h

theorem below_iff (d p : Str) : below d p = true ↔ p = d ∨ ∃ r, p = d ++ '/' :: r := by
  unfold below
  rw [Bool.or_eq_true, decide_eq_true_eq, List.isPrefixOf_iff_prefix]
  constructor
  · rintro (h | ⟨r, h⟩)
    · exact Or.inl h
    · exact Or.inr ⟨r, by rw [← h, List.append_assoc]; rfl⟩
  · rintro (h | ⟨r, h⟩)
    · exact Or.inl h
    · exact Or.inr ⟨r, by rw [h, List.append_assoc]; rfl⟩

theorem cleanup_eq (x : Str) (fs : FS) (p : Str) :
    (Obsolete x p → cleanupOldFiles x fs p = none) ∧ (¬ Obsolete x p → cleanupOldFiles x fs p = fs p) := by
  have rem : ∀ (d : Str) (fs : FS), ((p = d ∨ ∃ r, p = d ++ '/' :: r) → removeAll d fs p = none) ∧
      (¬ (p = d ∨ ∃ r, p = d ++ '/' :: r) → removeAll d fs p = fs p) := by
    intro d fs
    unfold removeAll
    exact ⟨fun h => if_pos ((below_iff d p).mpr h), fun h => if_neg (fun h' => h ((below_iff d p).mp h'))⟩
  have keep : ∀ (d : Str) (fs : FS), fs p = none → removeAll d fs p = none := by
    intro d fs h
    unfold removeAll
    split
    · rfl
    · exact h
  unfold cleanupOldFiles
  constructor
  · rintro ⟨d, hd | hd | hd, h⟩
    · subst hd; exact keep _ _ (keep _ _ ((rem _ _).1 h))
    · subst hd; exact keep _ _ ((rem _ _).1 h)
    · subst hd; exact (rem _ _).1 h
  · intro h
    rw [(rem _ _).2, (rem _ _).2, (rem _ _).2]
    · exact fun h' => h ⟨_, Or.inl rfl, h'⟩
    · exact fun h' => h ⟨_, Or.inr (Or.inl rfl), h'⟩
    · exact fun h' => h ⟨_, Or.inr (Or.inr rfl), h'⟩

/-- None of the output files is in an obsolete place. -/
theorem not_obsolete_output {x : Str} {c : Bool} {o : Output} (ho : o ∈ outputs x c) : ¬ Obsolete x o.path := by
  rintro ⟨d, hd, h⟩
  have key : d <+: o.path := by
    rcases h with h | ⟨r, h⟩
    · rw [h]; exact List.prefix_rfl
    · rw [h]; exact List.prefix_append _ _
  have svcNo : ∀ (d' : Str), "svc".toList <+: d' → ¬ d' <+: o.path := by
    intro d' h1 h2
    have h3 := h1.trans h2
    revert h3
    rw [← List.isPrefixOf_iff_prefix]
    unfold outputs at ho
    rcases List.mem_append.mp ho with ho | ho
    · simp only [List.mem_cons, List.not_mem_nil, or_false] at ho
      rcases ho with h | h | h | h | h | h | h <;> subst h <;> with_unfolding_all exact fun h => nomatch h
    · cases c
      · cases ho
      · rw [if_pos rfl, List.mem_singleton] at ho
        subst ho
        with_unfolding_all exact fun h => nomatch h
  rcases hd with hd | hd | hd
  · subst hd; exact svcNo _ (by rw [← List.isPrefixOf_iff_prefix]; decide +kernel) key
  · subst hd; exact svcNo _ (by rw [← List.isPrefixOf_iff_prefix]; decide +kernel) key
  · have cut : ∀ {r : Str}, d <+: "cmd/".toList ++ x ++ r → "-server".toList <+: r := by
      intro r h
      rw [hd, List.prefix_append_right_inj] at h
      exact h
    have noC : ∀ {q : Str}, "cmd/".toList.isPrefixOf q = false → ¬ d <+: q := by
      intro q hq h
      have : "cmd/".toList <+: q := by
        refine List.IsPrefix.trans ?_ h
        rw [hd, List.append_assoc]
        exact List.prefix_append _ _
      rw [List.isPrefixOf_iff_prefix.mpr this] at hq
      cases hq
    unfold outputs at ho
    rcases List.mem_append.mp ho with ho | ho
    · simp only [List.mem_cons, List.not_mem_nil, or_false] at ho
      rcases ho with e | e | e | e | e | e | e
      iterate 6 (subst e; exact noC (by decide +kernel) key)
      subst e
      have := cut key
      rw [← List.isPrefixOf_iff_prefix] at this
      revert this
      decide +kernel
    · cases c
      · cases ho
      · rw [if_pos rfl, List.mem_singleton] at ho
        subst ho
        have := cut key
        rw [← List.isPrefixOf_iff_prefix] at this
        revert this
        decide +kernel

/-! ## The dispatch agrees with the table of outputs -/

theorem readPrevious_of {base x : Str} {fs : FS} {p : Str} (h : (split '/' p).dropLast.all (dirAllowed base x) = true)
    (hp : p ≠ "server/server.go".toList) : readPrevious base x fs p = fs p := by
  unfold readPrevious
  rw [if_pos ⟨h, hp⟩]

theorem allowed_lit (base x : Str) {d : Str} (h : d = "service".toList ∨ d = "cmd".toList ∨ d = "server".toList) :
    dirAllowed base x d = true := by
  unfold dirAllowed
  simp only [Bool.or_eq_true, decide_eq_true_eq]
  rcases h with h | h | h
  · exact Or.inl (Or.inl (Or.inr h))
  · exact Or.inl (Or.inr h)
  · exact Or.inr h

theorem allowed_svc (base x : Str) : dirAllowed base x x = true := by
  unfold dirAllowed
  simp only [Bool.or_eq_true, decide_eq_true_eq]
  exact Or.inl (Or.inl (Or.inl (Or.inl (Or.inr trivial))))

theorem allowed_client (base x : Str) : dirAllowed base x (x ++ "-client".toList) = true := by
  unfold dirAllowed
  simp only [Bool.or_eq_true, decide_eq_true_eq]
  exact Or.inl (Or.inl (Or.inl (Or.inr trivial)))

theorem dirs_cmd {x : Str} (h : '/' ∉ x) (m : Str) (hm : '/' ∉ m) :
    (split '/' ("cmd/".toList ++ (x ++ '/' :: m))).dropLast = ["cmd".toList, x] := by
  rw [show "cmd/".toList ++ (x ++ '/' :: m) = "cmd".toList ++ '/' :: (x ++ '/' :: m) from rfl]
  rw [split_append, split_append, split_none _ _ h, split_none _ _ hm, split_none _ _ (by decide +kernel)]
  rfl

theorem prev_cmdServer (base : Str) {x : Str} (h : '/' ∉ x) (fs : FS) :
    readPrevious base x fs ("cmd/".toList ++ (x ++ "/main.go".toList)) = fs ("cmd/".toList ++ (x ++ "/main.go".toList)) := by
  refine readPrevious_of ?_ (app_ne (by decide +kernel))
  rw [show "cmd/".toList ++ (x ++ "/main.go".toList) = "cmd/".toList ++ (x ++ '/' :: "main.go".toList) from rfl]
  rw [dirs_cmd h _ (by decide +kernel)]
  rw [List.all_cons, List.all_cons, List.all_nil, allowed_svc, allowed_lit base x (Or.inr (Or.inl rfl))]
  rfl

theorem prev_cmdClient (base : Str) {x : Str} (h : '/' ∉ x) (fs : FS) :
    readPrevious base x fs ("cmd/".toList ++ (x ++ "-client/main.go".toList))
      = fs ("cmd/".toList ++ (x ++ "-client/main.go".toList)) := by
  refine readPrevious_of ?_ (app_ne (by decide +kernel))
  have h' : '/' ∉ x ++ "-client".toList := by
    rw [List.mem_append, not_or]
    exact ⟨h, by decide +kernel⟩
  rw [show "cmd/".toList ++ (x ++ "-client/main.go".toList)
      = "cmd/".toList ++ ((x ++ "-client".toList) ++ '/' :: "main.go".toList) by
    rw [List.append_assoc x]; rfl]
  rw [dirs_cmd h' _ (by decide +kernel)]
  rw [List.all_cons, List.all_cons, List.all_nil, allowed_client, allowed_lit base x (Or.inr (Or.inl rfl))]
  rfl

theorem prev_lit (base x : Str) (fs : FS) {p d : Str} (hd : (split '/' p).dropLast = [d])
    (h : d = "service".toList ∨ d = "cmd".toList ∨ d = "server".toList) (hp : p ≠ "server/server.go".toList) :
    readPrevious base x fs p = fs p := by
  refine readPrevious_of ?_ hp
  rw [hd, List.all_cons, List.all_nil, allowed_lit base x h]
  rfl

/-- How `generateResponseFile` ends, in terms of the specification. -/
def outcomeOf (fmt : Str → Str) : Option Str → Outcome
  | some s => .file (fmt s)
  | none => .error

theorem resp_service (e : Env) (prev : Option Str) :
    generateResponseFile e servicePath prev = outcomeOf e.fmt (e.regen prev) := by
  unfold generateResponseFile
  rw [if_pos rfl]; rfl

/-- The templates whose previous text is kept. -/
theorem resp_keep (e : Env) (prev : Option Str) {t : Str}
    (h : t = serviceWrapperPath ∨ t = cmdServerPath ∨ t = serverEndpointsPath ∨ t = serverInterruptPath ∨
      t = serverWrapperPath ∨ (t = cmdClientPath ∧ e.client = true)) :
    generateResponseFile e t prev = outcomeOf e.fmt (passThrough e t prev) := by
  unfold generateResponseFile
  rcases h with h | h | h | h | h | ⟨h, hc⟩ <;> subst h
  · rw [if_neg (by decide +kernel), if_pos rfl]; rfl
  · rw [if_neg (by decide +kernel), if_neg (by decide +kernel), if_pos rfl]; rfl
  · rw [if_neg (by decide +kernel), if_neg (by decide +kernel), if_neg (by decide +kernel), if_neg (by decide +kernel),
      if_neg (by decide +kernel), if_pos rfl]; rfl
  · rw [if_neg (by decide +kernel), if_neg (by decide +kernel), if_neg (by decide +kernel), if_neg (by decide +kernel),
      if_neg (by decide +kernel), if_neg (by decide +kernel), if_pos rfl]; rfl
  · rw [if_neg (by decide +kernel), if_neg (by decide +kernel), if_neg (by decide +kernel), if_neg (by decide +kernel),
      if_neg (by decide +kernel), if_neg (by decide +kernel), if_neg (by decide +kernel), if_pos rfl]; rfl
  · rw [if_neg (by decide +kernel), if_neg (by decide +kernel), if_neg (by decide +kernel), if_pos rfl, if_pos hc]; rfl

theorem resp_client_off (e : Env) (prev : Option Str) (h : e.client = false) :
    generateResponseFile e cmdClientPath prev = .ignored := by
  unfold generateResponseFile
  rw [if_neg (by decide +kernel), if_neg (by decide +kernel), if_neg (by decide +kernel), if_pos rfl,
    if_neg (by rw [h]; exact Bool.false_ne_true)]

theorem resp_server (e : Env) (prev : Option Str) :
    generateResponseFile e serverPath prev = outcomeOf e.fmt (e.tmpl serverPath) := by
  unfold generateResponseFile
  rw [if_neg (by decide +kernel), if_neg (by decide +kernel), if_neg (by decide +kernel), if_neg (by decide +kernel),
      if_pos rfl]; rfl

theorem resp_baron (e : Env) (prev : Option Str) :
    generateResponseFile e baronPath prev = outcomeOf e.fmt (e.tmpl baronPath) := by
  unfold generateResponseFile
  rw [if_neg (by decide +kernel), if_neg (by decide +kernel), if_neg (by decide +kernel), if_neg (by decide +kernel),
      if_neg (by decide +kernel), if_neg (by decide +kernel), if_neg (by decide +kernel), if_neg (by decide +kernel)]; rfl

theorem wanted_keep (e : Env) (now : Option Str) (p t : Str) :
    wanted e.tmpl e.regen now ⟨p, t, .keep⟩ = passThrough e t now := by
  cases now <;> rfl

/-- Every output of the table is a template that is generated, to the path and with the text the table says. -/
theorem output_spec (e : Env) (base : Str) (fs : FS) (hx : '/' ∉ toLower e.name) {o : Output}
    (ho : o ∈ outputs (toLower e.name) e.client) :
    o.template ∈ assetNames ∧ isExcludedPath o.template = false ∧
    templatePathToActual o.template (toLower e.name) = o.path ∧
    generateResponseFile e o.template (readPrevious base (toLower e.name) fs o.path)
      = outcomeOf e.fmt (wanted e.tmpl e.regen (fs o.path) o) := by
  unfold outputs at ho
  rcases List.mem_append.mp ho with ho | ho
  · simp only [List.mem_cons, List.not_mem_nil, or_false] at ho
    rcases ho with h | h | h | h | h | h | h <;> subst h
    · refine ⟨by decide +kernel, by decide +kernel, actual_service _, ?_⟩
      rw [prev_lit base _ fs (d := "service".toList) (by decide +kernel) (Or.inl rfl) (by decide +kernel)]
      exact resp_service e _
    · refine ⟨by decide +kernel, by decide +kernel, actual_serviceWrapper _, ?_⟩
      rw [prev_lit base _ fs (d := "service".toList) (by decide +kernel) (Or.inl rfl) (by decide +kernel), wanted_keep]
      exact resp_keep e _ (Or.inl rfl)
    · exact ⟨by decide +kernel, by decide +kernel, actual_server _, resp_server e _⟩
    · refine ⟨by decide +kernel, by decide +kernel, actual_endpoints _, ?_⟩
      rw [prev_lit base _ fs (d := "server".toList) (by decide +kernel) (Or.inr (Or.inr rfl)) (by decide +kernel),
        wanted_keep]
      exact resp_keep e _ (Or.inr (Or.inr (Or.inl rfl)))
    · refine ⟨by decide +kernel, by decide +kernel, actual_interrupt _, ?_⟩
      rw [prev_lit base _ fs (d := "server".toList) (by decide +kernel) (Or.inr (Or.inr rfl)) (by decide +kernel),
        wanted_keep]
      exact resp_keep e _ (Or.inr (Or.inr (Or.inr (Or.inl rfl))))
    · refine ⟨by decide +kernel, by decide +kernel, actual_serverWrapper _, ?_⟩
      rw [prev_lit base _ fs (d := "server".toList) (by decide +kernel) (Or.inr (Or.inr rfl)) (by decide +kernel),
        wanted_keep]
      exact resp_keep e _ (Or.inr (Or.inr (Or.inr (Or.inr (Or.inl rfl)))))
    · refine ⟨(by decide +kernel : cmdServerPath ∈ assetNames), (by decide +kernel : isExcludedPath cmdServerPath = false), ?_, ?_⟩
      · rw [List.append_assoc]
        refine (actual_cmdServer _).trans ?_
        rw [toLower_idem]
      · rw [List.append_assoc, prev_cmdServer base hx, wanted_keep]
        exact resp_keep e _ (Or.inr (Or.inl rfl))
  · cases hc : e.client
    · rw [hc] at ho; cases ho
    · rw [hc, if_pos rfl, List.mem_singleton] at ho
      subst ho
      refine ⟨(by decide +kernel : cmdClientPath ∈ assetNames), (by decide +kernel : isExcludedPath cmdClientPath = false), ?_, ?_⟩
      · rw [List.append_assoc]
        refine (actual_cmdClient _).trans ?_
        rw [toLower_idem]
      · rw [List.append_assoc, prev_cmdClient base hx, wanted_keep]
        exact resp_keep e _ (Or.inr (Or.inr (Or.inr (Or.inr (Or.inr ⟨rfl, hc⟩)))))

/-- Every generated template is one of the table, except the client command when it is not asked for. -/
theorem template_output (e : Env) {t : Str} (ht : t ∈ assetNames) (hex : isExcludedPath t = false) :
    (∃ o ∈ outputs (toLower e.name) e.client, o.template = t) ∨ (t = cmdClientPath ∧ e.client = false) := by
  have mem : ∀ {o : Output}, o ∈ (outputs (toLower e.name) false) → o ∈ outputs (toLower e.name) e.client := by
    intro o h
    unfold outputs at h ⊢
    rcases List.mem_append.mp h with h | h
    · exact List.mem_append_left _ h
    · cases h
  have lit : ∀ t, (t = servicePath ∨ t = serviceWrapperPath ∨ t = serverPath ∨ t = serverEndpointsPath ∨
      t = serverInterruptPath ∨ t = serverWrapperPath ∨ t = cmdServerPath) →
      ∃ o ∈ outputs (toLower e.name) e.client, o.template = t := by
    intro t h
    unfold outputs
    rcases h with h | h | h | h | h | h | h <;> subst h
    · exact ⟨_, List.mem_append_left _ (.head _), rfl⟩
    · exact ⟨_, List.mem_append_left _ (.tail _ (.head _)), rfl⟩
    · exact ⟨_, List.mem_append_left _ (.tail _ (.tail _ (.head _))), rfl⟩
    · exact ⟨_, List.mem_append_left _ (.tail _ (.tail _ (.tail _ (.head _)))), rfl⟩
    · exact ⟨_, List.mem_append_left _ (.tail _ (.tail _ (.tail _ (.tail _ (.head _))))), rfl⟩
    · exact ⟨_, List.mem_append_left _ (.tail _ (.tail _ (.tail _ (.tail _ (.tail _ (.head _)))))), rfl⟩
    · exact ⟨_, List.mem_append_left _ (.tail _ (.tail _ (.tail _ (.tail _ (.tail _ (.tail _ (.head _))))))), rfl⟩
  unfold assetNames at ht
  simp only [List.mem_cons, List.not_mem_nil, or_false] at ht
  rcases ht with h | h | h | h | h | h | h | h | h | h
  · subst h; exact absurd hex (by decide +kernel)
  · exact Or.inl (lit t (by simp only [h, or_true]))
  · cases hc : e.client
    · exact Or.inr ⟨h, rfl⟩
    · refine Or.inl ⟨_, List.mem_append_right _ (by rw [if_pos rfl]; exact List.mem_singleton.mpr rfl), h.symm⟩
  · exact Or.inl (lit t (Or.inr (Or.inr (Or.inr (Or.inl h)))))
  · exact Or.inl (lit t (Or.inr (Or.inr (Or.inr (Or.inr (Or.inl h))))))
  · exact Or.inl (lit t (Or.inr (Or.inr (Or.inl h))))
  · exact Or.inl (lit t (Or.inr (Or.inr (Or.inr (Or.inr (Or.inr (Or.inl h)))))))
  · exact Or.inl (lit t (Or.inl h))
  · subst h; exact absurd hex (by decide +kernel)
  · exact Or.inl (lit t (Or.inr (Or.inl h)))

/-! ## A whole run -/

section
variable {e : Env} {base : Str} {assets : List Str} {worder : List (Str × Str) → List (Str × Str)} {fs fs' : FS}

theorem outcomeOf_file {fmt : Str → Str} {o : Option Str} {s : Str} (h : outcomeOf fmt o = .file s) :
    ∃ t, o = some t ∧ s = fmt t := by
  cases o with
  | none => cases h
  | some t => cases h; exact ⟨t, rfl, rfl⟩

theorem run_output (hx : '/' ∉ toLower e.name) (ha : assets.Perm assetNames) (hw : ∀ l, (worder l).Perm l)
    (h : run e base assets worder fs = some fs') {o : Output} (ho : o ∈ outputs (toLower e.name) e.client) :
    ∃ s, wanted e.tmpl e.regen (fs o.path) o = some s ∧ fs' o.path = some (e.fmt s) := by
  unfold run at h
  split at h
  · cases h
  rename_i files hf
  simp only [Option.some.injEq] at h
  subst h
  obtain ⟨h1, h2, h3, h4⟩ := output_spec e base fs hx ho
  rw [(cleanup_eq _ _ _).2 (not_obsolete_output ho)]
  have hnd := gokit_nodup (ha.nodup_iff.mpr (by decide +kernel)) (fun t ht => ha.mem_iff.mp ht) hf
  have hnd' : ((worder files).map (·.1)).Nodup := ((hw files).map _).nodup_iff.mpr hnd
  rcases gokit_mem hf (ha.mem_iff.mpr h1) h2 with h | ⟨s, h, hm⟩
  · rw [h3, h4] at h
    cases hwn : wanted e.tmpl e.regen (fs o.path) o <;> rw [hwn] at h <;> cases h
  · rw [h3, h4] at h
    obtain ⟨t, ht, hs⟩ := outcomeOf_file h
    refine ⟨t, ht, ?_⟩
    rw [h3] at hm
    rw [writeAll_mem hnd' ((hw files).mem_iff.mpr hm), hs]

theorem run_other (hx : '/' ∉ toLower e.name) (ha : assets.Perm assetNames) (hw : ∀ l, (worder l).Perm l)
    (h : run e base assets worder fs = some fs') {p : Str} (hp : ∀ o ∈ outputs (toLower e.name) e.client, o.path ≠ p) :
    (Obsolete (toLower e.name) p → fs' p = none) ∧ (¬ Obsolete (toLower e.name) p → fs' p = fs p) := by
  unfold run at h
  split at h
  · cases h
  rename_i files hf
  simp only [Option.some.injEq] at h
  subst h
  refine ⟨(cleanup_eq _ _ _).1, fun ho => ?_⟩
  rw [(cleanup_eq _ _ _).2 ho]
  refine writeAll_notMem ?_
  intro hm
  obtain ⟨y, hy, hyp⟩ := List.mem_map.mp hm
  obtain ⟨t, ht, hex, hk, hr⟩ := gokit_keys hf y ((hw files).mem_iff.mp hy)
  rcases template_output e (ha.mem_iff.mp ht) hex with ⟨o, ho, hot⟩ | ⟨hc, hcl⟩
  · have := (output_spec e base fs hx ho).2.2.1
    exact hp o ho (by rw [← this, hot, ← hk, hyp])
  · rw [hc, resp_client_off e _ hcl] at hr
    cases hr

theorem run_succeeds (hx : '/' ∉ toLower e.name) (ha : assets.Perm assetNames) :
    (∃ fs', run e base assets worder fs = some fs') ↔
      ∀ o ∈ outputs (toLower e.name) e.client, wanted e.tmpl e.regen (fs o.path) o ≠ none := by
  constructor
  · rintro ⟨fs', h⟩ o ho hn
    unfold run at h
    split at h
    · cases h
    rename_i files hf
    obtain ⟨h1, h2, h3, h4⟩ := output_spec e base fs hx ho
    refine gokit_noError hf (ha.mem_iff.mpr h1) h2 ?_
    rw [h3, h4, hn]; rfl
  · intro h
    obtain ⟨files, hf⟩ := gokit_some (e := e) (prev := readPrevious base (toLower e.name) fs) (assets := assets)
      (fun t ht hex => by
        rcases template_output e (ha.mem_iff.mp ht) hex with ⟨o, ho, hot⟩ | ⟨hc, hcl⟩
        · obtain ⟨h1, h2, h3, h4⟩ := output_spec e base fs hx ho
          rw [← hot, h3, h4]
          have := h o ho
          cases hwn : wanted e.tmpl e.regen (fs o.path) o
          · exact absurd hwn this
          · intro hh; cases hh
        · rw [hc, resp_client_off e _ hcl]; intro hh; cases hh)
    unfold run
    rw [hf]
    exact ⟨_, rfl⟩

end

end Baron.Gen
