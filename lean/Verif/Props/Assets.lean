import Verif.Proofs.Assets
import Verif.Proofs.Generator
import Verif.Spec.Svcdef

/-!
# C94: the embedded templates

`files` below is the listing of gengokit/template/NAME-service; the statements speak of that listing only.
-/

namespace Baron.Assets

open Baron.HTTP
open Baron.TT
open Baron.Svcdef (All2)

/-- The listing of gengokit/template/NAME-service: every file and its text. -/
def files : List (Str × Str) := [
  ("baron/NAME.pb.baron.go.tmpl".toList, baronSrc), ("cmd/NAME/main.go.tmpl".toList, cmdServerSrc),
  ("cmd/NAME-client/main.go.tmpl".toList, cmdClientSrc), ("server/endpoints.go.tmpl".toList, endpointsSrc),
  ("server/interrupt.go.tmpl".toList, interruptSrc), ("server/server.go.tmpl".toList, serverSrc),
  ("server/wrapper.go.tmpl".toList, wrapperSrc), ("service/service.go.tmpl".toList, serviceSrc),
  ("service/service_methods.go.tmpl".toList, serviceMethodsSrc), ("service/wrapper.go.tmpl".toList, serviceWrapperSrc)]

/-- `name` is written as `path`, except that it may have backslashes for slashes. -/
def Reads (name path : Str) : Prop := All2 (fun c d => c = d ∧ c ≠ '\\' ∨ c = '\\' ∧ d = '/') name path

theorem reads_iff {name path : Str} : Reads name path ↔ canonical name = path := by
  induction name generalizing path with
  | nil =>
    constructor
    · intro h; cases h; rfl
    · intro h; subst h; exact .nil
  | cons c cs ih =>
    constructor
    · intro h
      cases h with
      | cons h1 h2 =>
        show (if c = '\\' then '/' else c) :: canonical cs = _
        rw [ih.mp h2]
        rcases h1 with ⟨rfl, h⟩ | ⟨rfl, rfl⟩
        · rw [if_neg h]
        · rfl
    · intro h
      subst h
      refine .cons ?_ (ih.mpr rfl)
      by_cases hc : c = '\\'
      · exact .inr ⟨hc, by simp [hc]⟩
      · exact .inl ⟨by simp [hc], hc⟩

theorem files_eq : files = assets := rfl

theorem files_nodup : (files.map (·.1)).Nodup := by decide +kernel

/-- C94: a text is returned under exactly the names of the files, with slashes or backslashes, and it is the text of that file. -/
theorem C94_asset (name txt : Str) : asset name = some txt ↔ ∃ path, Reads name path ∧ (path, txt) ∈ files := by
  constructor
  · intro h
    exact ⟨canonical name, reads_iff.mpr rfl, Runtime.look_some_mem h⟩
  · rintro ⟨path, h1, h2⟩
    have := reads_iff.mp h1
    subst this
    exact look_of_mem files_nodup h2

/-- C94: the names that are listed, in whatever order, are the names of the files, each once; they are the names the generator
goes through. -/
theorem C94_names {order : List Str → List Str} (ho : ∀ l, (order l).Perm l) :
    (assetNames order).Nodup ∧ (∀ n, n ∈ assetNames order ↔ n ∈ files.map (·.1)) ∧ (assetNames order).Perm Gen.assetNames := by
  have hp := ho (assets.map (·.1))
  refine ⟨hp.nodup_iff.mpr files_nodup, fun n => hp.mem_iff, hp.trans ?_⟩
  rw [show assets.map (·.1) = Gen.assetNames by decide +kernel]

theorem tree_wf : wf bintree = true := by
  simp only [bintree, leaf, wf, wfL, shape, List.map]
  decide +kernel

theorem tree_leaves : leaves bintree = files.map fun x => (split '/' x.1, x.2) := rfl

theorem mem_tree {l : List Str} {x : Str} : (l, x) ∈ leaves bintree ↔ ∃ p, (p, x) ∈ files ∧ l = split '/' p := by
  rw [tree_leaves]
  constructor
  · intro h
    obtain ⟨⟨p, y⟩, h1, h2⟩ := List.mem_map.mp h
    cases h2
    exact ⟨p, h1, rfl⟩
  · rintro ⟨p, h1, rfl⟩
    exact List.mem_map.mpr ⟨_, h1, rfl⟩

/-- What the paths of the files in the directory `name` begin with. -/
def Below (name pre : Str) : Prop := name = [] ∧ pre = [] ∨ name ≠ [] ∧ ∃ path, Reads name path ∧ pre = path ++ ['/']

/-- The segments `AssetDir` goes through. -/
def steps (name : Str) : List Str := if name.length ≠ 0 then split '/' (canonical name) else []

theorem assetDir_eq (order : List Str → List Str) (name : Str) :
    assetDir order name = match walk bintree (steps name) with
      | none => none
      | some t => if t.file.isSome then none else some (order (t.children.map (·.1))) := by
  unfold assetDir steps
  by_cases h : name.length ≠ 0
  · rw [if_pos h, if_pos h]; rfl
  · rw [if_neg h, if_neg h]; rfl

theorem split_ne (s : Str) : split '/' s ≠ [] := by
  intro h
  have := congrArg (join '/') h
  rw [join_split] at this
  subst this
  cases h

theorem join_app : ∀ {a b : List Str}, a ≠ [] → b ≠ [] → join '/' (a ++ b) = join '/' a ++ '/' :: join '/' b
  | [x], y :: ys, _, _ => rfl
  | x :: y :: a, b, _, hb => by
    have := join_app (a := y :: a) (List.cons_ne_nil _ _) hb
    simp only [List.cons_append] at this ⊢
    rw [join, join, this]
    simp
  | [_], [], _, hb => absurd rfl hb
  | [], _, ha, _ => absurd rfl ha

theorem below_steps {name pre : Str} (h : Below name pre) (p : Str) (r : List Str) (hr : r ≠ []) (hs : ∀ s ∈ r, '/' ∉ s) :
    split '/' p = steps name ++ r ↔ p = pre ++ join '/' r := by
  rcases h with ⟨rfl, rfl⟩ | ⟨hn, path, h1, rfl⟩
  · show split '/' p = r ↔ p = join '/' r
    constructor
    · intro e; rw [← e, join_split]
    · intro e; rw [e, split_join '/' r hr hs]
  · have hl : steps name = split '/' path := by
      unfold steps
      rw [if_pos (by simpa using hn), reads_iff.mp h1]
    rw [hl]
    constructor
    · intro e
      rw [← join_split '/' p, e, join_app (split_ne _) hr, join_split]
      simp
    · intro e
      rw [e, List.append_assoc, List.singleton_append, split_append, split_join '/' r hr hs]

/-- Every name has its prefix. -/
theorem below_exists (name : Str) : ∃ pre, Below name pre := by
  by_cases h : name = []
  · exact ⟨[], .inl ⟨h, rfl⟩⟩
  · exact ⟨canonical name ++ ['/'], .inr ⟨h, _, reads_iff.mpr rfl, rfl⟩⟩

theorem file_below {name pre : Str} (h : Below name pre) (r : List Str) (hr : r ≠ []) (x : Str) :
    (steps name ++ r, x) ∈ leaves bintree ↔ (∀ s ∈ r, '/' ∉ s) ∧ (pre ++ join '/' r, x) ∈ files := by
  rw [mem_tree]
  constructor
  · rintro ⟨p, h1, h2⟩
    have hs : ∀ s ∈ r, '/' ∉ s := fun s hm => split_mem '/' p s (by rw [← h2]; exact List.mem_append.mpr (.inr hm))
    exact ⟨hs, by rw [← (below_steps h p r hr hs).mp h2.symm]; exact h1⟩
  · rintro ⟨hs, h1⟩
    exact ⟨_, h1, ((below_steps h _ r hr hs).mpr rfl).symm⟩

/-- C94: a directory can be listed exactly when it is the root or a file lies below it. -/
theorem C94_dir_when (order : List Str → List Str) (name : Str) :
    assetDir order name ≠ none ↔ name = [] ∨ ∃ path rest, Reads name path ∧ path ++ '/' :: rest ∈ files.map (·.1) := by
  obtain ⟨pre, hp⟩ := below_exists name
  have key : assetDir order name ≠ none ↔ ∃ r x, r ≠ [] ∧ (steps name ++ r, x) ∈ leaves bintree := by
    rw [assetDir_eq]
    cases hw : walk bintree (steps name) with
    | none =>
      refine ⟨fun h => absurd rfl h, ?_⟩
      rintro ⟨r, x, _, hx⟩
      exact absurd hx (walk_none tree_wf hw r x)
    | some t =>
      cases hf : t.file with
      | some x =>
        refine ⟨fun h => absurd (by simp [hf]) h, ?_⟩
        rintro ⟨r, y, hr, hy⟩
        exact absurd ((walk_file tree_wf hw hf).2 r y hy) hr
      | none =>
        obtain ⟨_, ⟨r, x, hx⟩, h3, _⟩ := walk_dir tree_wf hw hf
        refine ⟨fun _ => ⟨r, x, ?_, hx⟩, fun _ h => ?_⟩
        · intro e
          subst e
          exact h3 x (by rwa [List.append_nil] at hx)
        · simp [hf] at h
  rw [key]
  constructor
  · rintro ⟨r, x, hr, hx⟩
    have hm := ((file_below hp r hr x).mp hx).2
    rcases hp with ⟨h, _⟩ | ⟨_, path, h1, rfl⟩
    · exact .inl h
    · refine .inr ⟨path, join '/' r, h1, List.mem_map.mpr ⟨_, hm, by simp⟩⟩
  · rintro (rfl | ⟨path, rest, h1, h2⟩)
    · exact ⟨["service".toList, "wrapper.go.tmpl".toList], serviceWrapperSrc, by simp, mem_tree.mpr ⟨"service/wrapper.go.tmpl".toList, by
        simp [files], by decide +kernel⟩⟩
    · obtain ⟨⟨p, x⟩, h3, h4⟩ := List.mem_map.mp h2
      have h4 : p = path ++ '/' :: rest := h4
      have hn : name ≠ [] := by
        intro e
        subst e
        have := reads_iff.mp h1
        subst this
        have h5 := h2
        simp [files, canonical] at h5
      refine ⟨split '/' rest, x, split_ne _, mem_tree.mpr ⟨p, h3, ?_⟩⟩
      unfold steps
      rw [if_pos (by simpa using hn), reads_iff.mp h1, h4, split_append]

/-- C94: what is listed are the first components, after the directory, of the files below it, each once. -/
theorem C94_dir {order : List Str → List Str} (ho : ∀ l, (order l).Perm l) {name : Str} {l : List Str}
    (h : assetDir order name = some l) : l.Nodup ∧ ∀ pre, Below name pre → ∀ n, n ∈ l ↔ '/' ∉ n ∧
      (pre ++ n ∈ files.map (·.1) ∨ ∃ rest, pre ++ n ++ '/' :: rest ∈ files.map (·.1)) := by
  rw [assetDir_eq] at h
  cases hw : walk bintree (steps name) with
  | none => rw [hw] at h; cases h
  | some t =>
    rw [hw] at h
    cases hf : t.file with
    | some x => simp [hf] at h
    | none =>
      simp only [hf, Option.isSome_none, Bool.false_eq_true, if_false, Option.some.injEq] at h
      subst h
      obtain ⟨h1, _, _, h4⟩ := walk_dir tree_wf hw hf
      refine ⟨(ho _).nodup_iff.mpr h1, fun pre hp n => ?_⟩
      rw [(ho _).mem_iff, h4]
      constructor
      · rintro ⟨r, x, hx⟩
        obtain ⟨hs, hm⟩ := (file_below hp _ (List.cons_ne_nil _ _) x).mp hx
        refine ⟨hs n (.head _), ?_⟩
        cases r with
        | nil => exact .inl (List.mem_map.mpr ⟨_, hm, rfl⟩)
        | cons a r => exact .inr ⟨join '/' (a :: r), List.mem_map.mpr ⟨_, hm, by simp [join]⟩⟩
      · rintro ⟨hn, h5 | ⟨rest, h5⟩⟩
        · obtain ⟨⟨p, x⟩, h6, h7⟩ := List.mem_map.mp h5
          cases h7
          refine ⟨[], x, (file_below hp _ (List.cons_ne_nil _ _) x).mpr ⟨?_, h6⟩⟩
          intro s hs
          rcases List.mem_singleton.mp hs with rfl
          exact hn
        · obtain ⟨⟨p, x⟩, h6, h7⟩ := List.mem_map.mp h5
          have h7 : p = _ := h7
          refine ⟨split '/' rest, x, (file_below hp _ (List.cons_ne_nil _ _) x).mpr ⟨?_, ?_⟩⟩
          · intro s hs
            rcases List.mem_cons.mp hs with rfl | hs
            · exact hn
            · exact split_mem '/' rest s hs
          · have e : n :: split '/' rest = [n] ++ split '/' rest := rfl
            rw [e, join_app (by simp) (split_ne _), join_split]
            rw [h7] at h6
            simpa [join] using h6

/-- C94: no name is both a file and a directory. -/
theorem C94_disjoint (order : List Str → List Str) {name : Str} (h : asset name ≠ none) : assetDir order name = none := by
  cases ha : asset name with
  | none => exact absurd ha h
  | some txt =>
    obtain ⟨path, h1, h2⟩ := (C94_asset name txt).mp ha
    have hn : name ≠ [] := by
      intro e
      subst e
      have := reads_iff.mp h1
      subst this
      simp [files, canonical] at h2
    rw [assetDir_eq]
    cases hw : walk bintree (steps name) with
    | none => rfl
    | some t =>
      cases hf : t.file with
      | some x => simp [hf]
      | none =>
        refine absurd (mem_tree.mpr ⟨path, h2, ?_⟩) ((walk_dir tree_wf hw hf).2.2.1 txt)
        unfold steps
        rw [if_pos (by simpa using hn), reads_iff.mp h1]

/-- C94: the templates baron asks for by name are there: `MustAsset` in services.go does not panic, and `ApplyTemplateFromPath`
finds every name it is called with. -/
theorem C94_present : ∀ n ∈ Gen.assetNames, mustAsset n ≠ none := by decide +kernel

/-! ## Examples -/

namespace Example

example : assetDir id "cmd\\NAME".toList = some ["main.go.tmpl".toList] := by decide +kernel
example : assetDir id "cmd".toList = some ["NAME".toList, "NAME-client".toList] := by decide +kernel
example : assetDir id "cmd/".toList = none := by decide +kernel
example : asset "server\\server.go.tmpl".toList = some serverSrc := rfl
example : Reads "server\\server.go.tmpl".toList "server/server.go.tmpl".toList := reads_iff.mpr (by decide +kernel)

end Example

end Baron.Assets
