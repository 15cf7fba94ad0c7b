import Verif.Model.Restore
import Verif.Props.Assets

/-!
# C105 Restoring the embedded templates
-/

namespace Baron.Assets

open Baron.Start (clean joinPath)

/-- The directory of a file of the listing. -/
def parent (path : Str) : Str := (path.reverse.dropWhile (· ≠ '/')).reverse.dropLast

/-- What restoring one file of the listing below `dir` asks of the operating system. -/
def copying (dir : Str) (f : Str × Str) : List Op :=
  [.mkdirAll (joinPath dir (parent f.1)), .writeFile (joinPath dir f.1) f.2, .chtimes (joinPath dir f.1)]

/-- Operations are asked for one after the other, until one is refused. -/
def perform (os : OS) : List Op → List Op → Result
  | done, [] => (done, none)
  | done, a :: rest => match os done a with
    | some e => (done ++ [a], some (.os e))
    | none => perform os (done ++ [a]) rest

/-- The files of the listing whose paths begin with `pre`. -/
def filesBelow (pre : Str) : List (Str × Str) := files.filter fun f => pre.isPrefixOf f.1

/-- What the paths of the files in the directory begin with. -/
def pre (path : Str) : Str := if path = [] then [] else path ++ ['/']

/-- The directories of the listing. -/
def directories : List Str := ["".toList, "baron".toList, "cmd".toList, "cmd/NAME".toList, "cmd/NAME-client".toList, "server".toList, "service".toList]

theorem perform_append (os : OS) (done a b : List Op) : perform os done (a ++ b) = match perform os done a with
    | (done, none) => perform os done b
    | r => r := by
  induction a generalizing done with
  | nil => rfl
  | cons x a ih =>
    show (match os done x with
      | some e => (done ++ [x], some (Failure.os e))
      | none => perform os (done ++ [x]) (a ++ b)) = match (match os done x with
      | some e => (done ++ [x], some (Failure.os e))
      | none => perform os (done ++ [x]) a) with
      | (done, none) => perform os done b
      | r => r
    cases os done x with
    | some e => rfl
    | none => exact ih _

theorem joinAll_split (dir n : Str) (h : n.head? ≠ some '/') (hn : n ≠ []) : joinAll (dir :: split '/' n) = joinPath dir n := by
  have hj := HTTP.join_split '/' n
  have hne := split_ne n
  unfold joinAll joinPath
  by_cases hd : dir = []
  · subst hd
    rw [if_pos rfl]
    cases hs : split '/' n with
    | nil => exact absurd hs hne
    | cons x l =>
      rw [hs] at hj
      have hx : x ≠ [] := by
        rintro rfl
        cases l with
        | nil => exact hn hj.symm
        | cons y l => rw [← hj] at h; exact h rfl
      simp only [List.dropWhile, decide_true, decide_eq_false hx, hj]
  · rw [if_neg hd]
    simp only [List.dropWhile, decide_eq_false hd]
    cases hs : split '/' n with
    | nil => exact absurd hs hne
    | cons x l =>
      rw [hs] at hj
      show clean (dir ++ '/' :: join '/' (x :: l)) = _
      rw [hj]

theorem restoreAsset_eq (os : OS) (dir name : Str) (done : List Op) {txt : Str} (h : asset name = some txt) :
    restoreAsset os dir name done = perform os done [.mkdirAll (filePath dir (Cli.dir name)), .writeFile (filePath dir name) txt, .chtimes (filePath dir name)] := by
  unfold restoreAsset
  rw [h]
  simp only [perform]
  cases os done _ with
  | some e => rfl
  | none =>
    simp only
    cases os (done ++ [_]) _ with
    | some e => rfl
    | none =>
      simp only
      cases os (done ++ [_] ++ [_]) _ <;> rfl

/-- **C105** Restoring one template: a file's directory is made, its text is written and its time is set, until the operating system refuses; a name of no file
is an error, with nothing asked. (Under a name with backslashes it is not always the file's directory that is made.) -/
theorem C105_one (os : OS) (dir name : Str) (done : List Op) :
    (∀ txt, (name, txt) ∈ files → restoreAsset os dir name done = perform os done (copying dir (name, txt))) ∧
    ((∀ path txt, Reads name path → (path, txt) ∉ files) → restoreAsset os dir name done = (done, some (.notFound name))) := by
  refine ⟨fun txt h => ?_, fun h => ?_⟩
  · have hc : canonical name = name := by
      have : ∀ f ∈ files, canonical f.1 = f.1 := by decide +kernel
      exact this _ h
    have ha : asset name = some txt := (C94_asset name txt).2 ⟨name, reads_iff.2 hc, h⟩
    rw [restoreAsset_eq os dir name done ha]
    have h1 : ∀ f ∈ files, f.1.head? ≠ some '/' ∧ f.1 ≠ [] ∧ canonical (Cli.dir f.1) = parent f.1 ∧ (parent f.1).head? ≠ some '/' ∧ parent f.1 ≠ [] := by decide +kernel
    obtain ⟨p1, p2, p3, p4, p5⟩ := h1 _ h
    unfold filePath copying
    rw [hc, p3, joinAll_split _ _ p1 p2, joinAll_split _ _ p4 p5]
  · unfold restoreAsset
    cases ha : asset name with
    | none => rfl
    | some txt =>
      obtain ⟨path, h1, h2⟩ := (C94_asset name txt).1 ha
      exact absurd h2 (h path txt h1)

/-- `RestoreAssets` of `name` copies these files, in some order. -/
def Restores (order : List Str → List Str) (dir : Str) (fuel : Nat) (name : Str) (fs : List (Str × Str)) : Prop :=
  ∃ l : List (Str × Str), l.Perm fs ∧ ∀ os done, restoreAssets order os dir fuel name done = some (perform os done (l.flatMap (copying dir)))

theorem dir_order {name : Str} {cs : List Str} (h : assetDir id name = some cs) (order : List Str → List Str) : assetDir order name = some (order cs) := by
  rw [assetDir_eq] at h ⊢
  cases hw : walk bintree (steps name) with
  | none => rw [hw] at h; cases h
  | some t =>
    rw [hw] at h
    simp only at h ⊢
    by_cases hf : t.file.isSome = true
    · rw [if_pos hf] at h; cases h
    · rw [if_neg hf] at h ⊢
      cases h
      rfl

theorem restores_children {order : List Str → List Str} {dir : Str} {fuel : Nat} {name : Str} {L : Str → List (Str × Str)} :
    ∀ ds : List Str, (∀ c ∈ ds, Restores order dir fuel (joinPath name c) (L c)) → ∃ l : List (Str × Str), l.Perm (ds.flatMap L) ∧
      ∀ os done, restoreChildren order os dir fuel name ds done = some (perform os done (l.flatMap (copying dir)))
  | [], _ => ⟨[], .refl _, fun os done => by rw [restoreChildren]; rfl⟩
  | c :: ds, h => by
    obtain ⟨l1, p1, h1⟩ := h c List.mem_cons_self
    obtain ⟨l2, p2, h2⟩ := restores_children ds fun c hc => h c (List.mem_cons_of_mem _ hc)
    refine ⟨l1 ++ l2, by rw [List.flatMap_cons]; exact p1.append p2, fun os done => ?_⟩
    rw [restoreChildren, h1, List.flatMap_append, perform_append]
    cases hp : perform os done (l1.flatMap (copying dir)) with
    | mk d e =>
      cases e with
      | none => exact h2 os d
      | some e => rfl

theorem restores_dir {order : List Str → List Str} (ho : ∀ l, (order l).Perm l) {dir : Str} {fuel : Nat} {name : Str} {cs : List Str} (h : assetDir id name = some cs)
    (L : Str → List (Str × Str)) (hc : ∀ c ∈ cs, Restores order dir fuel (joinPath name c) (L c)) {fs : List (Str × Str)} (hfs : (cs.flatMap L).Perm fs) :
    Restores order dir (fuel + 1) name fs := by
  obtain ⟨l, h1, h2⟩ := restores_children (order cs) fun c hm => hc c ((ho cs).mem_iff.1 hm)
  refine ⟨l, (h1.trans ((ho cs).flatMap_right L)).trans hfs, fun os done => ?_⟩
  rw [restoreAssets, dir_order h]
  exact h2 os done

/-- Names under which a file is restored into its directory. -/
def fileNames : List (Str × Str) := (files.map fun f => (f.1, f.1)) ++
  [("cmd\\NAME/main.go.tmpl".toList, "cmd/NAME/main.go.tmpl".toList), ("cmd\\NAME-client/main.go.tmpl".toList, "cmd/NAME-client/main.go.tmpl".toList)]

theorem restores_file {name path txt : Str} (hn : (name, path) ∈ fileNames) (hf : (path, txt) ∈ files) (order : List Str → List Str) (dir : Str) (fuel : Nat) :
    Restores order dir (fuel + 1) name [(path, txt)] := by
  have h1 : ∀ f ∈ fileNames, canonical f.1 = f.2 ∧ f.2.head? ≠ some '/' ∧ f.2 ≠ [] ∧ canonical (Cli.dir f.1) = parent f.2 ∧ (parent f.2).head? ≠ some '/' ∧ parent f.2 ≠ [] := by
    decide +kernel
  obtain ⟨p0, p1, p2, p3, p4, p5⟩ := h1 _ hn
  have ha : asset name = some txt := (C94_asset name txt).2 ⟨path, reads_iff.2 p0, hf⟩
  refine ⟨_, .refl _, fun os done => ?_⟩
  rw [restoreAssets, C94_disjoint order (by rw [ha]; nofun)]
  simp only
  rw [restoreAsset_eq os dir name done ha]
  unfold filePath
  rw [p0, p3, joinAll_split _ _ p1 p2, joinAll_split _ _ p4 p5]
  rfl

/-- The files that are restored for a name: itself, or those below it. -/
def filesAt (path : Str) : List (Str × Str) := files.filter fun f => f.1 = path ∨ (pre path).isPrefixOf f.1

theorem restores_at {name path : Str} (hn : (name, path) ∈ fileNames) (order : List Str → List Str) (dir : Str) (fuel : Nat) :
    Restores order dir (fuel + 1) name (filesAt path) := by
  have h1 : ∀ f ∈ fileNames, ∃ x ∈ files, x.1 = f.2 := by decide +kernel
  obtain ⟨x, h2, h3⟩ := h1 _ hn
  have h4 : ∀ f ∈ files, filesAt f.1 = [f] := by
    intro f hf
    simp only [files, List.mem_cons, List.not_mem_nil, or_false] at hf
    rcases hf with rfl | rfl | rfl | rfl | rfl | rfl | rfl | rfl | rfl | rfl <;> rfl
  have h5 := h4 x h2
  subst h3
  rw [h5]
  exact restores_file hn h2 order dir fuel

/-- Names under which a directory is restored. -/
def directoryNames : List (Str × Str) := (directories.map fun d => (d, d)) ++ [("cmd\\NAME".toList, "cmd/NAME".toList), ("cmd\\NAME-client".toList, "cmd/NAME-client".toList)]

/-- The names in a directory of the listing. -/
def entries (path : Str) : List Str := (assetDir id path).getD []

theorem restores_entries {order : List Str → List Str} (ho : ∀ l, (order l).Perm l) {dir : Str} {fuel : Nat} {name path : Str} (hn : (name, path) ∈ directoryNames)
    (h : ∀ c ∈ entries name, Restores order dir fuel (joinPath name c) (filesAt (if path = [] then c else path ++ '/' :: c)))
    (hf : (entries name).flatMap (fun c => filesAt (if path = [] then c else path ++ '/' :: c)) = filesAt path) : Restores order dir (fuel + 1) name (filesAt path) := by
  have h1 : ∀ f ∈ directoryNames, assetDir id f.1 = some (entries f.1) := by decide +kernel
  exact restores_dir ho (h1 _ hn) (fun c => filesAt (if path = [] then c else path ++ '/' :: c)) h (by rw [hf])

theorem restores_shallow {order : List Str → List Str} (ho : ∀ l, (order l).Perm l) (dir : Str) (fuel : Nat) {name path : Str} (hn : (name, path) ∈ directoryNames)
    (hp : path ≠ [] ∧ path ≠ "cmd".toList) : Restores order dir (fuel + 2) name (filesAt path) := by
  refine restores_entries ho hn (fun c hc => ?_) ?_
  · have h1 : ∀ f ∈ directoryNames, f.2 ≠ [] ∧ f.2 ≠ "cmd".toList → ∀ c ∈ entries f.1, (joinPath f.1 c, f.2 ++ '/' :: c) ∈ fileNames := by decide +kernel
    rw [if_neg hp.1]
    exact restores_at (h1 _ hn hp c hc) order dir fuel
  · simp only [directoryNames, directories, List.map, List.cons_append, List.nil_append, List.mem_cons, List.not_mem_nil, or_false, Prod.mk.injEq] at hn
    rcases hn with ⟨rfl, rfl⟩ | ⟨rfl, rfl⟩ | ⟨rfl, rfl⟩ | ⟨rfl, rfl⟩ | ⟨rfl, rfl⟩ | ⟨rfl, rfl⟩ | ⟨rfl, rfl⟩ | ⟨rfl, rfl⟩ | ⟨rfl, rfl⟩ <;>
      first
      | rfl
      | exact absurd rfl hp.1
      | exact absurd rfl hp.2

theorem restores_cmd {order : List Str → List Str} (ho : ∀ l, (order l).Perm l) (dir : Str) (fuel : Nat) :
    Restores order dir (fuel + 3) "cmd".toList (filesAt "cmd".toList) := by
  refine restores_entries ho (by decide +kernel) (fun c hc => ?_) rfl
  have h1 : ∀ c ∈ entries "cmd".toList, (joinPath "cmd".toList c, "cmd".toList ++ '/' :: c) ∈ directoryNames ∧ "cmd".toList ++ '/' :: c ≠ [] ∧ "cmd".toList ++ '/' :: c ≠ "cmd".toList := by
    decide +kernel
  rw [if_neg (by decide)]
  exact restores_shallow ho dir fuel (h1 c hc).1 (h1 c hc).2

theorem restores_root {order : List Str → List Str} (ho : ∀ l, (order l).Perm l) (dir : Str) (fuel : Nat) : Restores order dir (fuel + 4) [] (filesAt []) := by
  refine restores_entries ho (by decide +kernel) (fun c hc => ?_) rfl
  have h1 : ∀ c ∈ entries [], joinPath [] c = c ∧ (c, c) ∈ directoryNames ∧ c ≠ [] := by decide +kernel
  obtain ⟨h2, h3, h4⟩ := h1 c hc
  rw [if_pos rfl, h2]
  by_cases h : c = "cmd".toList
  · rw [h]
    exact restores_cmd ho dir fuel
  · exact restores_shallow ho dir (fuel + 1) h3 ⟨h4, h⟩

/-- What can be read as a path: with a backslash for any slash. -/
def variants : Str → List Str
  | [] => [[]]
  | c :: cs => (variants cs).flatMap fun r => if c = '/' then ['/' :: r, '\\' :: r] else [c :: r]

theorem mem_variants {name path : Str} (h : Reads name path) : name ∈ variants path := by
  induction h with
  | nil => exact List.mem_singleton.2 rfl
  | @cons c d cs ds h1 _ ih =>
    refine List.mem_flatMap.2 ⟨_, ih, ?_⟩
    rcases h1 with ⟨rfl, -⟩ | ⟨rfl, rfl⟩
    · by_cases hc : c = '/'
      · rw [if_pos hc, hc]; simp
      · rw [if_neg hc]; simp
    · simp

/-- The root, or a path that a file lies below. -/
def IsDirectory (path : Str) : Prop := path = [] ∨ ∃ rest, path ++ '/' :: rest ∈ files.map (·.1)

theorem directory_mem {path : Str} (h : IsDirectory path) : path ∈ directories := by
  rcases h with rfl | ⟨rest, h⟩
  · decide +kernel
  · have h1 : ∀ f ∈ files.map (·.1), ∀ i ∈ List.range f.length, f[i]? = some '/' → f.take i ∈ directories := by decide +kernel
    have := h1 _ h path.length (List.mem_range.2 (by simp)) (by simp)
    rwa [List.take_left'] at this
    rfl

/-- **C105** Restoring a directory: every file below it, each once and no other, is copied below `dir`, in an order that depends only on the order in which
directories are listed, until the operating system refuses something. -/
theorem C105_directory {order : List Str → List Str} (ho : ∀ l, (order l).Perm l) (dir : Str) (n : Nat) {name path : Str} (hr : Reads name path) (hd : IsDirectory path) :
    ∃ l : List (Str × Str), l.Perm (filesBelow (pre path)) ∧ ∀ os done, restoreAssets order os dir (n + 4) name done = some (perform os done (l.flatMap (copying dir))) := by
  have h1 : ∀ d ∈ directories, ∀ v ∈ variants d, (v, d) ∈ directoryNames := by decide +kernel
  have hm := directory_mem hd
  have h2 := h1 _ hm _ (mem_variants hr)
  have h3 : filesAt path = filesBelow (pre path) := by
    simp only [directories, List.mem_cons, List.not_mem_nil, or_false] at hm
    rcases hm with rfl | rfl | rfl | rfl | rfl | rfl | rfl <;> rfl
  rw [← h3]
  by_cases he : path = []
  · subst he
    cases hr
    exact restores_root ho dir n
  · by_cases hc : path = "cmd".toList
    · subst hc
      have h4 : variants "cmd".toList = ["cmd".toList] := by decide +kernel
      have h5 := mem_variants hr
      rw [h4] at h5
      rw [List.mem_singleton.1 h5]
      exact restores_cmd ho dir (n + 1)
    · exact restores_shallow ho dir (n + 2) h2 ⟨he, hc⟩

/-- **C105** Restoring a file, under its name with slashes, does what `RestoreAsset` does; a name of no file and no directory is an error, with nothing asked. -/
theorem C105_file (order : List Str → List Str) (os : OS) (dir : Str) (n : Nat) (name : Str) (done : List Op) :
    (∀ txt, (name, txt) ∈ files → restoreAssets order os dir (n + 1) name done = some (perform os done (copying dir (name, txt)))) ∧
    ((∀ path, Reads name path → path ∉ files.map (·.1) ∧ ¬ IsDirectory path) → restoreAssets order os dir (n + 1) name done = some (done, some (.notFound name))) := by
  refine ⟨fun txt h => ?_, fun h => ?_⟩
  · have hc : canonical name = name := by
      have : ∀ f ∈ files, canonical f.1 = f.1 := by decide +kernel
      exact this _ h
    have ha : asset name = some txt := (C94_asset name txt).2 ⟨name, reads_iff.2 hc, h⟩
    rw [restoreAssets, C94_disjoint order (by rw [ha]; nofun)]
    simp only
    rw [(C105_one os dir name done).1 txt h]
  · obtain ⟨h1, h2⟩ := h _ (reads_iff.2 rfl)
    have hdir : assetDir order name = none := by
      refine Classical.byContradiction fun hn => ?_
      rcases (C94_dir_when order name).1 hn with rfl | ⟨path, rest, hr, hm⟩
      · exact h2 (.inl rfl)
      · exact (h _ hr).2 (.inr ⟨rest, hm⟩)
    rw [restoreAssets, hdir]
    simp only
    rw [(C105_one os dir name done).2 fun path txt hr hm => (h path hr).1 (List.mem_map.2 ⟨_, hm, rfl⟩)]

/-- No part of the path is empty, a dot or two dots. -/
def Plain (path : Str) : Prop := ∀ x ∈ split '/' path, x ≠ [] ∧ x ≠ ['.'] ∧ x ≠ ['.', '.']

theorem foldl_plain (r : Bool) : ∀ (l st : List Str), (∀ x ∈ l, x ≠ [] ∧ x ≠ ['.'] ∧ x ≠ ['.', '.']) → l.foldl (Start.cleanStep r) st = l.reverse ++ st
  | [], _, _ => rfl
  | x :: l, st, h => by
    obtain ⟨h1, h2, h3⟩ := h x List.mem_cons_self
    have hx : Start.cleanStep r st x = x :: st := by
      unfold Start.cleanStep
      rw [if_neg (by simp [h1, h2]), if_neg h3]
    rw [List.foldl_cons, hx, foldl_plain r l (x :: st) fun y hy => h y (List.mem_cons_of_mem _ hy)]
    simp

theorem stack_no_slash (r : Bool) : ∀ (l st : List Str), (∀ x ∈ l, '/' ∉ x) → (∀ x ∈ st, '/' ∉ x) → ∀ x ∈ l.foldl (Start.cleanStep r) st, '/' ∉ x
  | [], _, _, h => h
  | x :: l, st, hl, hs => by
    refine stack_no_slash r l _ (fun y hy => hl y (List.mem_cons_of_mem _ hy)) ?_
    intro y hy
    unfold Start.cleanStep at hy
    split at hy
    · exact hs y hy
    · split at hy
      · cases st with
        | nil =>
          by_cases hr : r = true
          · simp only [hr, if_true] at hy; cases hy
          · simp only [if_neg hr] at hy
            rw [List.mem_singleton.1 hy]
            exact hl x List.mem_cons_self
        | cons t rest =>
          simp only at hy
          split at hy
          · rcases List.mem_cons.1 hy with rfl | hy
            · exact hl _ List.mem_cons_self
            · exact hs y hy
          · exact hs y (List.mem_cons_of_mem _ hy)
      · rcases List.mem_cons.1 hy with rfl | hy
        · exact hl _ List.mem_cons_self
        · exact hs y hy

/-- `filepath.Join` keeps plain paths apart. -/
theorem joinPath_apart {dir a b : Str} (ha : Plain a) (hb : Plain b) (h : joinPath dir a = joinPath dir b) : a = b := by
  have key : ∃ (st : List Str) (r : Bool), (∀ x ∈ st, '/' ∉ x) ∧ ∀ c, Plain c → joinPath dir c = (if r then ['/'] else []) ++ join '/' (st.reverse ++ split '/' c) := by
    by_cases hd : dir = []
    · refine ⟨[], false, nofun, fun c hc => ?_⟩
      have hne := split_ne c
      have hrd : (c.head? = some '/') = False := by
        refine eq_false fun hh => ?_
        cases c with
        | nil => cases hh
        | cons x c =>
          cases hh
          exact (hc [] (by rw [show '/' :: c = [] ++ '/' :: c from rfl, HTTP.split_append]; exact List.mem_append_left _ (List.mem_singleton.2 rfl))).1 rfl
      rw [joinPath, if_pos hd, Start.clean, foldl_plain _ _ _ hc]
      simp only [hrd, Bool.false_eq_true, if_false, List.append_nil, List.reverse_reverse, List.nil_append, List.reverse_nil, HTTP.join_split]
      rw [if_neg]
      rintro rfl
      exact (hc [] (List.mem_singleton.2 rfl)).1 rfl
    · refine ⟨(split '/' dir).foldl (Start.cleanStep (dir.head? = some '/')) [], decide (dir.head? = some '/'), ?_, fun c hc => ?_⟩
      · exact stack_no_slash _ _ _ (HTTP.split_mem '/' dir) nofun
      · have hh : (dir ++ '/' :: c).head? = dir.head? := by
          cases dir with
          | nil => exact absurd rfl hd
          | cons x d => rfl
        rw [joinPath, if_neg hd, Start.clean, HTTP.split_append, List.foldl_append, hh, foldl_plain _ _ _ hc]
        simp only [List.reverse_append, List.reverse_reverse]
        by_cases hr : dir.head? = some '/'
        · simp only [hr, decide_true, if_true, List.cons_append, List.nil_append]
        · simp only [hr, decide_false, Bool.false_eq_true, if_false, List.nil_append]
          rw [if_neg]
          intro hn
          have hs : split '/' (join '/' ((List.foldl (Start.cleanStep false) [] (split '/' dir)).reverse ++ split '/' c)) = _ :=
            HTTP.split_join '/' _ (fun hn => split_ne c (List.append_eq_nil_iff.1 hn).2) fun p hp => by
              rcases List.mem_append.1 hp with hp | hp
              · exact stack_no_slash _ (split '/' dir) [] (HTTP.split_mem '/' dir) (fun _ h => absurd h List.not_mem_nil) p (List.mem_reverse.1 hp)
              · exact HTTP.split_mem '/' c p hp
          rw [hn] at hs
          have hl := congrArg List.getLast? hs
          rw [List.getLast?_append] at hl
          cases hg : (split '/' c).getLast? with
          | none => exact split_ne c (List.getLast?_eq_none_iff.1 hg)
          | some x =>
            rw [hg] at hl
            have hx : some [] = some x := hl
            cases hx
            exact (hc [] (List.mem_of_getLast? hg)).1 rfl
  obtain ⟨st, r, hst, hc⟩ := key
  rw [hc a ha, hc b hb] at h
  have h1 := List.append_cancel_left h
  have h2 : ∀ c, split '/' (join '/' (st.reverse ++ split '/' c)) = st.reverse ++ split '/' c := by
    intro c
    refine HTTP.split_join '/' _ (by intro hn; exact split_ne c (List.append_eq_nil_iff.1 hn).2) fun p hp => ?_
    rcases List.mem_append.1 hp with hp | hp
    · exact hst p (List.mem_reverse.1 hp)
    · exact HTTP.split_mem '/' c p hp
  have h3 := h2 a
  rw [h1, h2 b] at h3
  have h4 := List.append_cancel_left h3
  rw [← HTTP.join_split '/' a, ← h4, HTTP.join_split]

/-- The contents of files after these operations: writing a file replaces its content. -/
def after (fs : Str → Option Str) : List Op → Str → Option Str
  | [] => fs
  | .writeFile p t :: ops => after (fun q => if q = p then some t else fs q) ops
  | _ :: ops => after fs ops

theorem after_append (a b : List Op) : ∀ fs, after fs (a ++ b) = after (after fs a) b := by
  induction a with
  | nil => intro fs; rfl
  | cons x a ih =>
    intro fs
    cases x <;> exact ih _

theorem after_copying (dir : Str) (fs : Str → Option Str) (f : Str × Str) : after fs (copying dir f) = fun q => if q = joinPath dir f.1 then some f.2 else fs q := rfl

theorem after_copies (dir : Str) : ∀ (l : List (Str × Str)) (fs : Str → Option Str), (∀ f ∈ l, f ∈ files) →
    (∀ f ∈ l, after fs (l.flatMap (copying dir)) (joinPath dir f.1) = some f.2) ∧ ∀ q, (∀ f ∈ l, q ≠ joinPath dir f.1) → after fs (l.flatMap (copying dir)) q = fs q
  | [], fs, _ => ⟨nofun, fun q _ => rfl⟩
  | f :: l, fs, h => by
    have hplain : ∀ f ∈ files, ∀ x ∈ split '/' f.1, x ≠ [] ∧ x ≠ ['.'] ∧ x ≠ ['.', '.'] := by decide +kernel
    have hone : ∀ a ∈ files, ∀ b ∈ files, a.1 = b.1 → a.2 = b.2 := by
      intro a ha b hb hab
      have h1 := (C94_asset a.1 a.2).2 ⟨a.1, reads_iff.2 ((by decide +kernel : ∀ f ∈ files, canonical f.1 = f.1) _ ha), ha⟩
      have h2 := (C94_asset b.1 b.2).2 ⟨b.1, reads_iff.2 ((by decide +kernel : ∀ f ∈ files, canonical f.1 = f.1) _ hb), hb⟩
      rw [hab, h2] at h1
      exact (Option.some.inj h1).symm
    obtain ⟨h1, h2⟩ := after_copies dir l (fun q => if q = joinPath dir f.1 then some f.2 else fs q) fun g hg => h g (List.mem_cons_of_mem _ hg)
    rw [List.flatMap_cons, after_append, after_copying]
    have hf := h f List.mem_cons_self
    refine ⟨fun g hg => ?_, fun q hq => ?_⟩
    · by_cases hm : ∃ k ∈ l, k.1 = g.1
      · obtain ⟨k, hk, hkg⟩ := hm
        rw [← hkg, h1 k hk, hone k (h k (List.mem_cons_of_mem _ hk)) g (h g hg) hkg]
      · rcases List.mem_cons.1 hg with rfl | hg
        · rw [h2 _ fun k hk he => hm ⟨k, hk, (joinPath_apart (hplain _ hf) (hplain _ (h k (List.mem_cons_of_mem _ hk))) he).symm⟩]
          exact if_pos rfl
        · exact absurd ⟨g, hg, rfl⟩ hm
    · rw [h2 q fun k hk => hq k (List.mem_cons_of_mem _ hk)]
      exact if_neg (hq f List.mem_cons_self)

/-- **C105** If the operating system refuses nothing, restoring a directory returns no error, the directory of every file is made before the file is written, and then every
file below the directory is there with its text, below `dir`, while all other files are as they were. -/
theorem C105_tree {order : List Str → List Str} (ho : ∀ l, (order l).Perm l) (dir : Str) (n : Nat) {name path : Str} (hr : Reads name path) (hd : IsDirectory path) :
    ∃ ops, restoreAssets order (fun _ _ => none) dir (n + 4) name [] = some (ops, none) ∧ ∀ fs,
      (∀ f ∈ filesBelow (pre path), after fs ops (joinPath dir f.1) = some f.2) ∧
      (∀ q, (∀ f ∈ filesBelow (pre path), q ≠ joinPath dir f.1) → after fs ops q = fs q) ∧
      ∀ q txt, Op.writeFile q txt ∈ ops → ∃ f ∈ filesBelow (pre path), q = joinPath dir f.1 ∧ txt = f.2 ∧
        ∃ a b, ops = a ++ .mkdirAll (joinPath dir (parent f.1)) :: .writeFile q txt :: b := by
  obtain ⟨l, hl, h⟩ := C105_directory ho dir n hr hd
  have hp : ∀ ops done, perform (fun _ _ => none) done ops = (done ++ ops, none) := by
    intro ops
    induction ops with
    | nil => intro done; rw [List.append_nil]; rfl
    | cons x ops ih =>
      intro done
      show perform _ (done ++ [x]) ops = _
      rw [ih, List.append_assoc]
      rfl
  refine ⟨l.flatMap (copying dir), by rw [h, hp]; rfl, fun fs => ?_⟩
  obtain ⟨h1, h2⟩ := after_copies dir l fs fun f hf => (List.mem_filter.1 (hl.mem_iff.1 hf)).1
  refine ⟨fun f hf => h1 f (hl.mem_iff.2 hf), fun q hq => h2 q fun f hf => hq f (hl.mem_iff.1 hf), fun q txt hq => ?_⟩
  obtain ⟨f, hf, hm⟩ := List.mem_flatMap.1 hq
  refine ⟨f, hl.mem_iff.1 hf, ?_⟩
  simp only [copying, List.mem_cons, List.not_mem_nil, or_false, reduceCtorEq, false_or, Op.writeFile.injEq] at hm
  obtain ⟨rfl, rfl⟩ := hm
  obtain ⟨x, y, rfl⟩ := List.append_of_mem hf
  refine ⟨rfl, rfl, x.flatMap (copying dir), .chtimes (joinPath dir f.1) :: y.flatMap (copying dir), ?_⟩
  rw [List.flatMap_append, List.flatMap_cons]
  rfl

/-! ## Examples -/

namespace Example

example : IsDirectory "cmd/NAME".toList := .inr ⟨"main.go.tmpl".toList, by decide +kernel⟩

/-- Every file is restored from the root. -/
example : filesBelow (pre []) = files := rfl

theorem server_paths : joinPath "out".toList "cmd/NAME/main.go.tmpl".toList = "out/cmd/NAME/main.go.tmpl".toList ∧
    joinPath "out".toList (parent "cmd/NAME/main.go.tmpl".toList) = "out/cmd/NAME".toList := by decide +kernel

/-- Below `out`, where nothing can be written: the directory is made, the file is refused, and nothing else is asked. -/
example : restoreAssets id (fun _ o => match o with | .writeFile _ _ => some "denied".toList | _ => none) "out".toList 4 "cmd\\NAME".toList [] =
    some ([.mkdirAll "out/cmd/NAME".toList, .writeFile "out/cmd/NAME/main.go.tmpl".toList TT.cmdServerSrc], some (.os "denied".toList)) := by
  obtain ⟨l, h1, h2⟩ := C105_directory (order := id) (fun l => .refl l) "out".toList 0 (name := "cmd\\NAME".toList) (path := "cmd/NAME".toList)
    (reads_iff.2 (by decide +kernel)) (.inr ⟨"main.go.tmpl".toList, by decide +kernel⟩)
  have h3 : filesBelow (pre "cmd/NAME".toList) = [("cmd/NAME/main.go.tmpl".toList, TT.cmdServerSrc)] := rfl
  rw [h3] at h1
  rw [List.perm_singleton.1 h1] at h2
  rw [h2]
  simp only [List.flatMap_cons, List.flatMap_nil, List.append_nil, copying, server_paths, perform, List.nil_append, List.cons_append]

/-- With backslashes the directory of the file is not made. -/
example : restoreAsset (fun _ _ => none) "out".toList "cmd\\NAME\\main.go.tmpl".toList [] =
    ([.mkdirAll "out".toList, .writeFile "out/cmd/NAME/main.go.tmpl".toList TT.cmdServerSrc, .chtimes "out/cmd/NAME/main.go.tmpl".toList], none) := by
  have ha : asset "cmd\\NAME\\main.go.tmpl".toList = some TT.cmdServerSrc := (C94_asset _ _).2 ⟨"cmd/NAME/main.go.tmpl".toList, reads_iff.2 (by decide +kernel), by
    simp [files]⟩
  rw [restoreAsset_eq _ _ _ _ ha, show filePath "out".toList (Cli.dir "cmd\\NAME\\main.go.tmpl".toList) = "out".toList by decide +kernel,
    show filePath "out".toList "cmd\\NAME\\main.go.tmpl".toList = "out/cmd/NAME/main.go.tmpl".toList by decide +kernel]
  rfl

end Example

end Baron.Assets
