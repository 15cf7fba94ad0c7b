import Verif.Proofs.GeneratorSteps

/-!
# Generator runs (C32–C34, C45–C47)

`tmpl`, `regen` and `fmt` of the environment are arbitrary: the theorems hold for every template set, every regeneration
of service.go and every formatter.
-/

namespace Baron.Gen

/-- A small concrete environment: service `Echo`, templates that contain their own name. -/
def exEnv (client : Bool) : Env where
  name := "Echo".toList
  client := client
  tmpl := some
  regen := fun o => some (match o with | some s => s | none => "new service".toList)
  fmt := fun s => s

/-- A service directory with an edited wrapper, an own file, and a historical directory. -/
def exFS : FS := fun p =>
  if p = "service/wrapper.go".toList then some "my wrapper".toList
  else if p = "server/server.go".toList then some "my server".toList
  else if p = "service/mine.go".toList then some "mine".toList
  else if p = "cmd/echo-server/main.go".toList then some "old".toList
  else none

theorem exEnv_noSlash (c : Bool) : '/' ∉ toLower (exEnv c).name := by
  cases c <;> decide +kernel

/-! ## C32 Hand-edited support files are kept, generated ones refreshed -/

/-- After a run every output file of the table holds the formatted text the table prescribes: the user's own text where
the file belongs to the user and exists, the template where it does not exist or always is refreshed, the merge for the
service implementation. For every order in which the templates are visited and the files are written. -/
theorem C32_outputs {e : Env} {base : Str} {assets : List Str} {worder : List (Str × Str) → List (Str × Str)}
    {fs fs' : FS} (hx : '/' ∉ toLower e.name) (ha : assets.Perm assetNames) (hw : ∀ l, (worder l).Perm l)
    (h : run e base assets worder fs = some fs') :
    ∀ o ∈ outputs (toLower e.name) e.client,
      ∃ s, wanted e.tmpl e.regen (fs o.path) o = some s ∧ fs' o.path = some (e.fmt s) :=
  fun _ ho => run_output hx ha hw h ho

/-- Spelled out for a user-editable file: an existing one is written back, changed by the formatter only. -/
theorem C32_edited_files_kept {e : Env} {base : Str} {assets : List Str} {worder : List (Str × Str) → List (Str × Str)}
    {fs fs' : FS} (hx : '/' ∉ toLower e.name) (ha : assets.Perm assetNames) (hw : ∀ l, (worder l).Perm l)
    (h : run e base assets worder fs = some fs') {p s : Str}
    (hp : p = "service/wrapper.go".toList ∨ p = "server/endpoints.go".toList ∨ p = "server/interrupt.go".toList ∨
      p = "server/wrapper.go".toList ∨ p = "cmd/".toList ++ toLower e.name ++ "/main.go".toList ∨
      (e.client = true ∧ p = "cmd/".toList ++ toLower e.name ++ "-client/main.go".toList))
    (hs : fs p = some s) : fs' p = some (e.fmt s) := by
  have get : ∀ t, (⟨p, t, .keep⟩ : Output) ∈ outputs (toLower e.name) e.client → fs' p = some (e.fmt s) := by
    intro t ho
    obtain ⟨s', h1, h2⟩ := run_output hx ha hw h ho
    have hs' : wanted e.tmpl e.regen (some s) ⟨p, t, .keep⟩ = some s' := hs ▸ h1
    have h3 : some s = some s' := hs'
    cases h3
    exact h2
  rcases hp with hp | hp | hp | hp | hp | ⟨hc, hp⟩
  · subst hp; exact get _ (List.mem_append_left _ (.tail _ (.head _)))
  · subst hp; exact get _ (List.mem_append_left _ (.tail _ (.tail _ (.tail _ (.head _)))))
  · subst hp; exact get _ (List.mem_append_left _ (.tail _ (.tail _ (.tail _ (.tail _ (.head _))))))
  · subst hp; exact get _ (List.mem_append_left _ (.tail _ (.tail _ (.tail _ (.tail _ (.tail _ (.head _)))))))
  · subst hp; exact get _ (List.mem_append_left _ (.tail _ (.tail _ (.tail _ (.tail _ (.tail _ (.tail _ (.head _))))))))
  · subst hp; exact get _ (List.mem_append_right _ (by rw [hc, if_pos rfl]; exact List.mem_singleton.mpr rfl))

/-- Everything that is not an output file (the user's other files, and the client command when it is not asked for) is
left alone, unless it lies in one of the historical locations. -/
theorem C32_other_files_untouched {e : Env} {base : Str} {assets : List Str}
    {worder : List (Str × Str) → List (Str × Str)} {fs fs' : FS} (hx : '/' ∉ toLower e.name)
    (ha : assets.Perm assetNames) (hw : ∀ l, (worder l).Perm l) (h : run e base assets worder fs = some fs') {p : Str}
    (hp : ∀ o ∈ outputs (toLower e.name) e.client, o.path ≠ p) (ho : ¬ Obsolete (toLower e.name) p) : fs' p = fs p :=
  (run_other hx ha hw h hp).2 ho

/-- The run succeeds exactly when every output can be produced, and its result does not depend on any map order. -/
theorem C32_succeeds {e : Env} {base : Str} {assets : List Str} {worder : List (Str × Str) → List (Str × Str)} {fs : FS}
    (hx : '/' ∉ toLower e.name) (ha : assets.Perm assetNames) :
    (∃ fs', run e base assets worder fs = some fs') ↔
      ∀ o ∈ outputs (toLower e.name) e.client, wanted e.tmpl e.regen (fs o.path) o ≠ none :=
  run_succeeds hx ha

theorem C32_order_independent {e : Env} {base : Str} {assets assets' : List Str}
    {worder worder' : List (Str × Str) → List (Str × Str)} {fs : FS} (hx : '/' ∉ toLower e.name)
    (ha : assets.Perm assetNames) (ha' : assets'.Perm assetNames) (hw : ∀ l, (worder l).Perm l)
    (hw' : ∀ l, (worder' l).Perm l) : run e base assets worder fs = run e base assets' worder' fs := by
  cases h : run e base assets worder fs with
  | none =>
    cases h' : run e base assets' worder' fs with
    | none => rfl
    | some f =>
      have := (run_succeeds (worder := worder) (base := base) hx ha).mpr ((run_succeeds hx ha').mp ⟨f, h'⟩)
      obtain ⟨g, hg⟩ := this
      rw [h] at hg; cases hg
  | some f =>
    obtain ⟨g, hg⟩ := (run_succeeds (worder := worder') (base := base) hx ha').mpr ((run_succeeds hx ha).mp ⟨f, h⟩)
    rw [hg]
    congr 1
    funext p
    by_cases hp : ∀ o ∈ outputs (toLower e.name) e.client, o.path ≠ p
    · by_cases ho : Obsolete (toLower e.name) p
      · rw [(run_other hx ha hw h hp).1 ho, (run_other hx ha' hw' hg hp).1 ho]
      · rw [(run_other hx ha hw h hp).2 ho, (run_other hx ha' hw' hg hp).2 ho]
    · have : ∃ o, o ∈ outputs (toLower e.name) e.client ∧ o.path = p :=
        Classical.byContradiction fun hn => hp fun o ho hop => hn ⟨o, ho, hop⟩
      obtain ⟨o, ho, hop⟩ := this
      subst hop
      obtain ⟨s, h1, h2⟩ := run_output hx ha hw h ho
      obtain ⟨s', h1', h2'⟩ := run_output hx ha' hw' hg ho
      rw [h1] at h1'
      cases h1'
      rw [h2, h2']

/-- The transport file next to the .proto file is always rewritten from its template. -/
theorem C32_transport_refreshed {e : Env} {protoBase base : Str} {assets : List Str}
    {worder : List (Str × Str) → List (Str × Str)} {w w' : World}
    (h : main e protoBase base assets worder w = (.success, w')) :
    ∃ s, e.tmpl "baron/NAME.pb.baron.go.tmpl".toList = some s ∧ w'.pb (baronFile protoBase) = some (e.fmt s) := by
  unfold main at h
  split at h
  · rename_i s hs
    rw [resp_baron] at hs
    obtain ⟨t, ht, hst⟩ := outcomeOf_file hs
    refine ⟨t, ht, ?_⟩
    simp only at h
    split at h
    · cases h
    · cases h
      show writeFile w.pb (baronFile protoBase) s (baronFile protoBase) = _
      unfold writeFile
      rw [if_pos rfl, hst]
  · cases h

example : baronFile "echo.proto".toList = "echo.pb.baron.go".toList := by decide +kernel

/-- The hypotheses are met by a run that keeps the wrapper, refreshes server.go, creates the rest, leaves the user's own
file and the client command alone and removes the historical directory. -/
example : (run (exEnv false) "echo-service".toList assetNames List.reverse exFS).map (fun fs' =>
      ["service/wrapper.go", "server/server.go", "service/mine.go", "cmd/echo/main.go", "cmd/echo-client/main.go",
        "cmd/echo-server/main.go"].map fun p => fs' p.toList)
    = some [some "my wrapper".toList, some "server/server.go.tmpl".toList, some "mine".toList,
      some "cmd/NAME/main.go.tmpl".toList, none, none] := by decide +kernel

/-! ## C33 Output paths are distinct -/

/-- No two templates are written to the same file, whatever the service is called. -/
theorem C33_paths_distinct (name : Str) {t t' : Str} (h : t ∈ assetNames) (h' : t' ∈ assetNames)
    (e : templatePathToActual t name = templatePathToActual t' name) : t = t' :=
  actual_inj name h h' e

/-- The list of generated files contains no path twice. -/
theorem C33_files_distinct {e : Env} {prev : FS} {assets : List Str} {files : List (Str × Str)}
    (ha : assets.Perm assetNames) (h : generateGokit e prev assets = some files) : (files.map (·.1)).Nodup :=
  gokit_nodup (ha.nodup_iff.mpr (by decide +kernel)) (fun _ ht => ha.mem_iff.mp ht) h

example : assetNames.map (templatePathToActual · "ECHO".toList) =
    ["baron/echo.pb.baron.go", "cmd/echo/main.go", "cmd/echo-client/main.go", "server/endpoints.go",
     "server/interrupt.go", "server/server.go", "server/wrapper.go", "service/service.go", "service/service_methods.go",
     "service/wrapper.go"].map String.toList := by decide +kernel

/-! ## C34 Cleanup removes only obsolete files -/

/-- Cleaning up empties exactly the three historical locations. -/
theorem C34_only_obsolete (x : Str) (fs : FS) (p : Str) :
    (Obsolete x p → cleanupOldFiles x fs p = none) ∧ (¬ Obsolete x p → cleanupOldFiles x fs p = fs p) :=
  cleanup_eq x fs p

/-- No output file lies in a historical location, whatever the service is called. -/
theorem C34_outputs_survive (x : Str) (client : Bool) (fs : FS) {o : Output} (ho : o ∈ outputs x client) :
    ¬ Obsolete x o.path ∧ cleanupOldFiles x fs o.path = fs o.path :=
  ⟨not_obsolete_output ho, (cleanup_eq x fs o.path).2 (not_obsolete_output ho)⟩

example : Obsolete "echo".toList "cmd/echo-server/main.go".toList ∧ ¬ Obsolete "echo".toList "cmd/echo-serverless/x".toList := by
  constructor
  · exact ⟨_, Or.inr (Or.inr rfl), Or.inr ⟨"main.go".toList, by decide +kernel⟩⟩
  · intro h
    have := (cleanup_eq "echo".toList (fun _ => some []) _).1 h
    revert this
    decide +kernel

/-! ## C45 A failing generation leaves the service directory alone -/

/-- If the run fails while generating, the service directory is exactly what it was and next to the .proto file at most the
transport file has changed. -/
theorem C45_failure_leaves_service {e : Env} {protoBase base : Str} {assets : List Str}
    {worder : List (Str × Str) → List (Str × Str)} {w w' : World}
    (h : main e protoBase base assets worder w = (.failure, w')) :
    w'.svc = w.svc ∧ ∀ p, p ≠ baronFile protoBase → w'.pb p = w.pb p := by
  unfold main at h
  split at h
  · simp only at h
    split at h
    · cases h
      refine ⟨rfl, fun p hp => ?_⟩
      show writeFile w.pb _ _ p = _
      unfold writeFile
      rw [if_neg hp]
    · cases h
  · cases h
    exact ⟨rfl, fun _ _ => rfl⟩

/-- A run fails exactly when a template fails or the previous service file cannot be merged. -/
theorem C45_when_failing {e : Env} {protoBase base : Str} {assets : List Str}
    {worder : List (Str × Str) → List (Str × Str)} {w : World} (hx : '/' ∉ toLower e.name) (ha : assets.Perm assetNames) :
    (main e protoBase base assets worder w).1 = .failure ↔
      e.tmpl "baron/NAME.pb.baron.go.tmpl".toList = none ∨
      ∃ o ∈ outputs (toLower e.name) e.client, wanted e.tmpl e.regen (w.svc o.path) o = none := by
  have key := run_succeeds (e := e) (base := base) (worder := worder) (fs := w.svc) hx ha
  unfold main
  rw [resp_baron]
  have hb : "baron/NAME.pb.baron.go.tmpl".toList = baronPath := rfl
  rw [hb]
  cases e.tmpl baronPath with
  | none => exact ⟨fun _ => Or.inl rfl, fun _ => rfl⟩
  | some s =>
    show (match run e base assets worder w.svc with
      | none => (Exit.failure, (⟨_, w.svc⟩ : World)) | some svc => (Exit.success, ⟨_, svc⟩)).1 = _ ↔ _
    cases hr : run e base assets worder w.svc with
    | none =>
      refine ⟨fun _ => Or.inr ?_, fun _ => rfl⟩
      refine Classical.byContradiction fun hn => ?_
      obtain ⟨f, hf⟩ := key.mpr (fun o ho hw => hn ⟨o, ho, hw⟩)
      rw [hr] at hf; cases hf
    | some f =>
      refine ⟨fun h => (nomatch h), ?_⟩
      rintro (h | ⟨o, ho, hw⟩)
      · cases h
      · exact absurd hw (key.mp ⟨f, hr⟩ o ho)

/-- The hypothesis is met: an unparsable service.go makes the run fail, with the transport file already replaced. -/
example :
    let e := { exEnv false with regen := fun _ => none }
    let r := main e "echo.proto".toList "echo-service".toList assetNames id ⟨fun _ => none, exFS⟩
    r.1 = .failure ∧ r.2.pb "echo.pb.baron.go".toList = some "baron/NAME.pb.baron.go.tmpl".toList := by decide +kernel

/-! ## C46 Interrupted runs -/

/-- How the files can look when the process is stopped while it writes: the files in front of some place of the list are
complete, the next one is untouched or holds some of the pieces of its new text (perhaps none, then it is empty), and
everything else is as it was. -/
def StoppedAt (files : List (Str × List Str)) (fs st : FS) : Prop :=
  ∃ done rest, files = done ++ rest ∧ (∀ x ∈ done, st x.1 = some x.2.flatten) ∧
    (∀ cur ∈ rest.head?, st cur.1 = fs cur.1 ∨ ∃ k, st cur.1 = some (cur.2.take k).flatten) ∧
    ∀ p, p ∉ done.map (·.1) → (∀ cur ∈ rest.head?, p ≠ cur.1) → st p = fs p

/-- **C46** Exactly these states are the possible ones: whenever the process is stopped the files look like this, and each
such state occurs. -/
theorem C46_interrupted {files : List (Str × List Str)} (hn : (files.map (·.1)).Nodup) (fs st : FS) :
    (∃ l, l <+: allSteps files ∧ runSteps fs l = st) ↔ StoppedAt files fs st := by
  have hall : ∀ done, done <+: files → (∀ x ∈ done, runSteps fs (allSteps done) x.1 = some x.2.flatten) ∧
      ∀ p, p ∉ done.map (·.1) → runSteps fs (allSteps done) p = fs p := by
    intro done hd
    have hnd : ((done.map fun x => (x.1, x.2.flatten)).map (·.1)).Nodup := by
      rw [List.map_map]
      exact List.Nodup.sublist ((hd.sublist).map _) hn
    rw [runSteps_all]
    refine ⟨fun x hx => ?_, fun p hp => ?_⟩
    · exact writeAll_mem hnd (x := (x.1, x.2.flatten)) (List.mem_map.2 ⟨x, hx, rfl⟩)
    · exact writeAll_notMem (by rw [List.map_map]; exact hp)
  have hcur : ∀ done cur rest k, files = done ++ cur :: rest →
      (∀ x ∈ done, runSteps fs (allSteps done ++ fileSteps cur.1 (cur.2.take k)) x.1 = some x.2.flatten) ∧
      runSteps fs (allSteps done ++ fileSteps cur.1 (cur.2.take k)) cur.1 = some (cur.2.take k).flatten ∧
      ∀ p, p ∉ done.map (·.1) → p ≠ cur.1 → runSteps fs (allSteps done ++ fileSteps cur.1 (cur.2.take k)) p = fs p := by
    intro done cur rest k hf
    obtain ⟨h1, h2⟩ := hall done (by rw [hf]; exact List.prefix_append _ _)
    rw [runSteps_append, runSteps_file]
    unfold writeFile
    refine ⟨fun x hx => ?_, if_pos rfl, fun p hp hpc => ?_⟩
    · rw [if_neg]
      · exact h1 x hx
      · intro e
        rw [hf, List.map_append, List.nodup_append] at hn
        exact hn.2.2 x.1 (List.mem_map.2 ⟨x, hx, rfl⟩) cur.1 (by simp) e
    · rw [if_neg hpc]; exact h2 p hp
  constructor
  · rintro ⟨l, h, rfl⟩
    rcases prefix_steps files h with ⟨done, ⟨rest, hd⟩, hl⟩ | ⟨done, cur, rest, k, hf, hl⟩
    · subst hl
      obtain ⟨h1, h2⟩ := hall done ⟨rest, hd⟩
      refine ⟨done, rest, hd.symm, h1, fun cur hc => .inl (h2 _ ?_), fun p hp _ => h2 p hp⟩
      intro hm
      rw [← hd, List.map_append, List.nodup_append] at hn
      exact hn.2.2 cur.1 hm cur.1 (List.mem_map.2 ⟨cur, List.mem_of_mem_head? hc, rfl⟩) rfl
    · subst hl
      obtain ⟨h1, h2, h3⟩ := hcur done cur rest k hf
      refine ⟨done, cur :: rest, hf, h1, fun c hc => ?_, fun p hp hpc => h3 p hp (hpc cur (by simp))⟩
      simp only [List.head?_cons, Option.mem_def, Option.some.injEq] at hc
      subst hc
      exact .inr ⟨k, h2⟩
  · rintro ⟨done, rest, hf, h1, h2, h3⟩
    have untouched : (∀ cur ∈ rest.head?, st cur.1 = fs cur.1) → ∃ l, l <+: allSteps files ∧ runSteps fs l = st := by
      intro hu
      obtain ⟨g1, g2⟩ := hall done (by rw [hf]; exact List.prefix_append _ _)
      refine ⟨allSteps done, ?_, ?_⟩
      · rw [hf]; unfold allSteps; rw [List.flatMap_append]; exact List.prefix_append _ _
      · funext p
        by_cases hp : p ∈ done.map (·.1)
        · obtain ⟨x, hx, rfl⟩ := List.mem_map.1 hp
          rw [g1 x hx, h1 x hx]
        · rw [g2 p hp]
          by_cases hc : ∀ cur ∈ rest.head?, p ≠ cur.1
          · exact (h3 p hp hc).symm
          · simp only [Classical.not_forall] at hc
            obtain ⟨cur, hcu, hne⟩ := hc
            rw [Decidable.not_not.1 hne]
            exact (hu cur hcu).symm
    cases rest with
    | nil => exact untouched (by simp)
    | cons cur rest =>
      rcases h2 cur (by simp) with hu | ⟨k, hk⟩
      · exact untouched (by intro c hc; simp at hc; subst hc; exact hu)
      · obtain ⟨g1, g2, g3⟩ := hcur done cur rest k hf
        refine ⟨allSteps done ++ fileSteps cur.1 (cur.2.take k), ?_, ?_⟩
        · rw [hf]; unfold allSteps; rw [List.flatMap_append, List.flatMap_cons]
          refine (List.prefix_append_right_inj _).2 (List.IsPrefix.trans ?_ (List.prefix_append _ _))
          unfold fileSteps
          rw [List.map_take]
          exact List.cons_prefix_cons.2 ⟨rfl, List.take_prefix _ _⟩
        · funext p
          by_cases hp : p ∈ done.map (·.1)
          · obtain ⟨x, hx, rfl⟩ := List.mem_map.1 hp
            rw [g1 x hx, h1 x hx]
          · by_cases hc : p = cur.1
            · rw [hc, g2, hk]
            · rw [g3 p hp hc, h3 p hp (by intro c hcc; simp at hcc; subst hcc; exact hc)]

/-- **C46** So stopping right after a file was created loses its text, including a user's edited file, for the files of an
actual run. -/
theorem C46_emptied_witness :
    ∃ files, generateGokit (exEnv false) (readPrevious "echo-service".toList "echo".toList exFS) assetNames = some files ∧
      ∃ l, l <+: allSteps (files.map fun x => (x.1, [x.2])) ∧
        exFS "service/wrapper.go".toList = some "my wrapper".toList ∧
        runSteps exFS l "service/wrapper.go".toList = some [] := by
  refine ⟨(generateGokit (exEnv false) (readPrevious "echo-service".toList "echo".toList exFS) assetNames).getD [], ?_, ?_⟩
  · decide +kernel
  · refine ⟨(allSteps (((generateGokit (exEnv false) (readPrevious "echo-service".toList "echo".toList exFS)
      assetNames).getD []).map fun x => (x.1, [x.2]))).take 13, List.take_prefix _ _, by decide +kernel, by decide +kernel⟩

/-- Uninterrupted, the small steps are the writes used in the theorems above. -/
theorem C46_complete (files : List (Str × List Str)) (fs : FS) :
    runSteps fs (allSteps files) = writeAll fs (files.map fun x => (x.1, x.2.flatten)) :=
  runSteps_all fs files

/-! ## C47 A second run changes nothing -/

/-- With an idempotent formatter and a regeneration of service.go that is stable under formatting (C31), running baron
again with the same definition and nothing else changed leaves both directories as they are. -/
theorem C47_second_run {e : Env} {protoBase base : Str} {assets assets' : List Str}
    {worder worder' : List (Str × Str) → List (Str × Str)} {w w' : World} (hx : '/' ∉ toLower e.name)
    (ha : assets.Perm assetNames) (ha' : assets'.Perm assetNames) (hw : ∀ l, (worder l).Perm l)
    (hw' : ∀ l, (worder' l).Perm l) (hfmt : ∀ s, e.fmt (e.fmt s) = e.fmt s)
    (hregen : ∀ o s, e.regen o = some s → ∃ s', e.regen (some (e.fmt s)) = some s' ∧ e.fmt s' = e.fmt s)
    (h : main e protoBase base assets worder w = (.success, w')) :
    main e protoBase base assets' worder' w' = (.success, w') := by
  unfold main at h
  rw [resp_baron] at h
  unfold main
  rw [resp_baron]
  cases hb : e.tmpl baronPath with
  | none => rw [hb] at h; cases h
  | some s =>
    rw [hb] at h
    simp only [outcomeOf] at h ⊢
    cases hr : run e base assets worder w.svc with
    | none => rw [hr] at h; cases h
    | some svc =>
      rw [hr] at h
      cases h
      have hsvc : run e base assets' worder' svc = some svc := by
        have ok : ∀ o ∈ outputs (toLower e.name) e.client,
            ∃ t, wanted e.tmpl e.regen (svc o.path) o = some t ∧ some (e.fmt t) = svc o.path := by
          intro o ho
          obtain ⟨t, h1, h2⟩ := run_output hx ha hw hr ho
          obtain ⟨path, template, policy⟩ := o
          simp only at h2
          simp only [h2]
          cases policy with
          | keep => exact ⟨e.fmt t, rfl, by rw [hfmt]⟩
          | refresh => exact ⟨t, h1, rfl⟩
          | merge =>
            obtain ⟨t', h3, h4⟩ := hregen (w.svc path) t h1
            exact ⟨t', h3, by rw [h4]⟩
        obtain ⟨f, hf⟩ := (run_succeeds (e := e) (base := base) (worder := worder') (fs := svc) hx ha').mpr (fun o ho => by
          obtain ⟨t, ht, _⟩ := ok o ho
          rw [ht]; intro hh; cases hh)
        rw [hf]
        congr 1
        funext p
        by_cases hp : ∀ o ∈ outputs (toLower e.name) e.client, o.path ≠ p
        · by_cases ho : Obsolete (toLower e.name) p
          · rw [(run_other hx ha' hw' hf hp).1 ho, (run_other hx ha hw hr hp).1 ho]
          · exact (run_other hx ha' hw' hf hp).2 ho
        · have : ∃ o, o ∈ outputs (toLower e.name) e.client ∧ o.path = p :=
            Classical.byContradiction fun hn => hp fun o ho hop => hn ⟨o, ho, hop⟩
          obtain ⟨o, ho, hop⟩ := this
          subst hop
          obtain ⟨t, h1, h2⟩ := run_output hx ha' hw' hf ho
          obtain ⟨t', h1', h2'⟩ := ok o ho
          rw [h1] at h1'
          cases h1'
          rw [h2, h2']
      rw [hsvc]
      simp only
      congr 2
      funext p
      unfold writeFile
      split <;> rfl

/-- The hypotheses are met by the example environment (its formatter is the identity). -/
example : (∀ s, (exEnv true).fmt ((exEnv true).fmt s) = (exEnv true).fmt s) ∧
    (∀ o s, (exEnv true).regen o = some s → ∃ s', (exEnv true).regen (some ((exEnv true).fmt s)) = some s' ∧
      (exEnv true).fmt s' = (exEnv true).fmt s) ∧
    (main (exEnv true) "echo.proto".toList "echo-service".toList assetNames id ⟨fun _ => none, exFS⟩).1 = .success :=
  ⟨fun _ => rfl, fun _ s _ => ⟨s, rfl, rfl⟩, by decide +kernel⟩

end Baron.Gen
