import Verif.Proofs.Paths
import Verif.Proofs.GeneratorSteps

/-!
# The command: arguments and file names (C59), the service directory (C60)
-/

namespace Baron.Cli

open Baron.Gen Baron.Start Baron.HTTP

/-! ## C59 The .proto files and the files named after them -/

theorem cleanGo_eq {cwd : Place} (h : cwd.WF) (raw : List Str) (first : Option Place) (hf : ∀ q, first = some q → q.WF) :
    ∀ l, cleanGo cwd.text (first.map Place.text) raw = some l ↔
      l = raw.map (fun p => (resolve cwd p).text) ∧
      ∃ d : Place, (∀ q, first = some q → q.dropLast = d) ∧ ∀ p ∈ raw, (resolve cwd p).dropLast = d := by
  induction raw generalizing first with
  | nil =>
    intro l
    simp only [cleanGo, List.map_nil, List.not_mem_nil, false_implies, implies_true, and_true, Option.some.injEq]
    refine ⟨fun e => ⟨e.symm, ?_⟩, fun e => e.1.symm⟩
    cases first with
    | none => exact ⟨[], fun q hq => by cases hq⟩
    | some q => exact ⟨q.dropLast, fun q' hq => by cases hq; rfl⟩
  | cons a raw ih =>
    intro l
    unfold cleanGo
    have hw := resolve_wf h a
    simp only [abs_text h]
    have e : (first.map Place.text).getD (resolve cwd a).text = (first.getD (resolve cwd a)).text := by
      cases first <;> rfl
    have hfw : (first.getD (resolve cwd a)).WF := by
      cases first with
      | none => exact hw
      | some q => exact hf q rfl
    have hdw : ∀ {q : Place}, q.WF → Place.WF q.dropLast := fun {q} hq n hn => hq n ((List.dropLast_sublist q).subset hn)
    rw [e, dir_text hfw, dir_text hw]
    by_cases hd : (first.getD (resolve cwd a)).dropLast = (resolve cwd a).dropLast
    · rw [if_neg (by rw [hd]; exact fun h => h rfl)]
      have := ih (some (first.getD (resolve cwd a))) (fun q hq => by cases hq; exact hfw)
      simp only [Option.map_some] at this
      constructor
      · intro hl
        cases hg : cleanGo cwd.text (some (first.getD (resolve cwd a)).text) raw with
        | none => rw [hg] at hl; cases hl
        | some l' =>
          rw [hg] at hl
          obtain ⟨h1, d, h2, h3⟩ := (this l').mp hg
          cases hl
          subst h1
          refine ⟨rfl, d, fun q hq => ?_, fun p hp => ?_⟩
          · have := h2 _ rfl
            rw [hq] at this
            exact this
          · rcases List.mem_cons.mp hp with rfl | hp
            · rw [← hd]; exact h2 _ rfl
            · exact h3 p hp
      · rintro ⟨rfl, d, h1, h2⟩
        have hg := (this _).mpr ⟨rfl, d, fun q hq => by
          cases hq
          rw [hd]; exact h2 a List.mem_cons_self, fun p hp => h2 p (List.mem_cons_of_mem _ hp)⟩
        rw [hg]
        rfl
    · rw [if_pos (by intro h; exact hd (text_inj (hdw hfw) (hdw hw) h))]
      constructor
      · intro h; cases h
      · rintro ⟨-, d, h1, h2⟩
        exfalso
        apply hd
        have ha := h2 a List.mem_cons_self
        cases first with
        | none => rfl
        | some q => exact (h1 q rfl).trans ha.symm

/-- **C59** The arguments are accepted exactly if they all lie in one directory, however they are written; what the run
works with are then the plain absolute paths of the arguments, in order. -/
theorem C59_arguments {cwd : Place} (h : cwd.WF) (raw l : List Str) :
    cleanProtofilePath cwd.text raw = some l ↔
      l = raw.map (fun p => (resolve cwd p).text) ∧ ∃ d : Place, ∀ p ∈ raw, (resolve cwd p).dropLast = d := by
  have := cleanGo_eq h raw none (fun q hq => by cases hq) l
  unfold cleanProtofilePath
  refine this.trans ⟨fun ⟨h1, d, _, h2⟩ => ⟨h1, d, h2⟩, fun ⟨h1, d, h2⟩ => ⟨h1, d, fun q hq => (nomatch hq), h2⟩⟩

/-- **C59** The files that belong to `x.proto` are `x.pb.go`, `x_grpc.pb.go` and `x.pb.baron.go` in the output directory,
whatever dots `x` contains and wherever `x.proto` is. -/
theorem C59_files {q d : Place} (hd : d.WF) {x : Str} (hx : '/' ∉ x) :
    pbFile (q ++ [x ++ ".proto".toList] : Place).text d.text = (d ++ [x ++ ".pb.go".toList] : Place).text ∧
    grpcFile (q ++ [x ++ ".proto".toList] : Place).text d.text = (d ++ [x ++ "_grpc.pb.go".toList] : Place).text ∧
    transportFile (q ++ [x ++ ".proto".toList] : Place).text d.text = (d ++ [x ++ ".pb.baron.go".toList] : Place).text := by
  have hn : IsName (x ++ ".proto".toList) := isName_long hx (by decide +kernel) (by decide +kernel)
  have e : ext (x ++ ".proto".toList) = ".proto".toList := ext_of (s := x) (e := "proto".toList) (by decide +kernel)
  unfold pbFile grpcFile transportFile
  rw [base_concat hn, pathExt_concat hn, e, trimSuffix_append, joinPath_text hd, joinPath_text hd, joinPath_text hd,
    walk_name (isName_long hx (by decide +kernel) (by decide +kernel)),
    walk_name (isName_long hx (by decide +kernel) (by decide +kernel)),
    walk_name (isName_long hx (by decide +kernel) (by decide +kernel))]
  exact ⟨rfl, rfl, rfl⟩

/-- **C59** The names under which the run refers to these files inside the directory of the .proto files are the same. -/
theorem C59_names (q : Place) {x : Str} (hx : '/' ∉ x) :
    stem (q ++ [x ++ ".proto".toList] : Place).text = x ∧
    baronFile (base (q ++ [x ++ ".proto".toList] : Place).text) = x ++ ".pb.baron.go".toList := by
  have hn : IsName (x ++ ".proto".toList) := isName_long hx (by decide +kernel) (by decide +kernel)
  have e : ext (x ++ ".proto".toList) = ".proto".toList := ext_of (s := x) (e := "proto".toList) (by decide +kernel)
  unfold stem baronFile
  rw [base_concat hn, pathExt_concat hn, e, trimSuffix_append]
  exact ⟨rfl, rfl⟩

theorem text_name_inj {d : Place} (hd : d.WF) {a b : Str} (ha : IsName a) (hb : IsName b)
    (h : (d ++ [a] : Place).text = (d ++ [b] : Place).text) : a = b := by
  have wf : ∀ {n}, IsName n → (d ++ [n] : Place).WF := fun hn x hx => by
    rcases List.mem_append.mp hx with h | h
    · exact hd x h
    · rw [List.mem_singleton] at h; subst h; exact hn
  have := text_inj (wf ha) (wf hb) h
  simpa using this

/-- **C59** The files of different .proto files of one directory are different files, except that `x.pb.go` for
`x = y_grpc` is the file that belongs to the service in `y.proto`; the transport file is never one of protoc's files. -/
theorem C59_distinct {q d : Place} (hd : d.WF) {x y : Str} (hx : '/' ∉ x) (hy : '/' ∉ y) :
    let proto := fun n : Str => (q ++ [n ++ ".proto".toList] : Place).text
    (pbFile (proto x) d.text = pbFile (proto y) d.text ↔ x = y) ∧
    (grpcFile (proto x) d.text = grpcFile (proto y) d.text ↔ x = y) ∧
    (transportFile (proto x) d.text = transportFile (proto y) d.text ↔ x = y) ∧
    (pbFile (proto x) d.text = grpcFile (proto y) d.text ↔ x = y ++ "_grpc".toList) ∧
    transportFile (proto x) d.text ≠ pbFile (proto y) d.text ∧
    transportFile (proto x) d.text ≠ grpcFile (proto y) d.text := by
  intro proto
  have name : ∀ {n : Str} (e : Str), '/' ∉ n → '/' ∉ e → 3 ≤ e.length → IsName (n ++ e) := fun e h1 h2 h3 => isName_long h1 h2 h3
  have s1 : '/' ∉ ".pb.go".toList ∧ 3 ≤ ".pb.go".toList.length := by decide +kernel
  have s2 : '/' ∉ "_grpc.pb.go".toList ∧ 3 ≤ "_grpc.pb.go".toList.length := by decide +kernel
  have s3 : '/' ∉ ".pb.baron.go".toList ∧ 3 ≤ ".pb.baron.go".toList.length := by decide +kernel
  obtain ⟨a1, a2, a3⟩ := C59_files (q := q) hd hx
  obtain ⟨b1, b2, b3⟩ := C59_files (q := q) hd hy
  simp only [proto]
  rw [a1, a2, a3, b1, b2, b3]
  have inj : ∀ {e e' : Str}, ('/' ∉ e ∧ 3 ≤ e.length) → ('/' ∉ e' ∧ 3 ≤ e'.length) →
      ((d ++ [x ++ e] : Place).text = (d ++ [y ++ e'] : Place).text ↔ x ++ e = y ++ e') := by
    intro e e' h1 h2
    exact ⟨text_name_inj hd (name _ hx h1.1 h1.2) (name _ hy h2.1 h2.2), fun h => by rw [h]⟩
  refine ⟨?_, ?_, ?_, ?_, ?_, ?_⟩
  · rw [inj s1 s1, List.append_left_inj]
  · rw [inj s2 s2, List.append_left_inj]
  · rw [inj s3 s3, List.append_left_inj]
  · rw [inj s1 s2, show "_grpc.pb.go".toList = "_grpc".toList ++ ".pb.go".toList by decide +kernel, ← List.append_assoc,
      List.append_left_inj]
  · rw [ne_eq, inj s3 s1]
    intro h
    have := congrArg (fun s : Str => s.reverse[3]?) h
    simp only [List.reverse_append] at this
    revert this
    have r3 : ".pb.baron.go".toList.reverse = ['o', 'g', '.', 'n', 'o', 'r', 'a', 'b', '.', 'b', 'p', '.'] := by decide +kernel
    have r1 : ".pb.go".toList.reverse = ['o', 'g', '.', 'b', 'p', '.'] := by decide +kernel
    rw [r3, r1]
    simp
  · rw [ne_eq, inj s3 s2]
    intro h
    have := congrArg (fun s : Str => s.reverse[3]?) h
    simp only [List.reverse_append] at this
    revert this
    have r3 : ".pb.baron.go".toList.reverse = ['o', 'g', '.', 'n', 'o', 'r', 'a', 'b', '.', 'b', 'p', '.'] := by decide +kernel
    have r2 : "_grpc.pb.go".toList.reverse = ['o', 'g', '.', 'b', 'p', '.', 'c', 'p', 'r', 'g', '_'] := by decide +kernel
    rw [r3, r2]
    simp

/-- A working directory and arguments that are accepted, and some that are not. -/
example :
    let cwd : Place := ["home".toList, "me".toList]
    cwd.WF ∧
    cleanProtofilePath cwd.text ["api/./a.proto".toList, "../me/api//b.v1.proto".toList] =
      some ["/home/me/api/a.proto".toList, "/home/me/api/b.v1.proto".toList] ∧
    cleanProtofilePath cwd.text ["api/a.proto".toList, "b.proto".toList] = none ∧
    pbFile "/home/me/api/b.v1.proto".toList "/home/me/api".toList = "/home/me/api/b.v1.pb.go".toList ∧
    pbFile "/x/a_grpc.proto".toList "/x".toList = grpcFile "/x/a.proto".toList "/x".toList := by
  refine ⟨fun n hn => ?_, by decide +kernel, by decide +kernel, by decide +kernel, by decide +kernel⟩
  simp only [List.mem_cons, List.not_mem_nil, or_false] at hn
  rcases hn with rfl | rfl <;> unfold IsName <;> decide +kernel

/-! ## C60 The service directory -/

/-- A path is local if its first element is `.` or `..`. -/
def Local (p : Str) : Prop := (split '/' p).head? = some ".".toList ∨ (split '/' p).head? = some "..".toList

theorem split_head (p : Str) : (split '/' p).head? = some (p.takeWhile (· ≠ '/')) := by
  induction p with
  | nil => rfl
  | cons c p ih =>
    unfold split
    by_cases hc : c = '/'
    · subst hc
      rw [if_pos rfl]
      rfl
    · rw [if_neg hc, List.takeWhile_cons, if_pos (by simpa using hc)]
      cases hs : split '/' p with
      | nil => rw [hs] at ih; cases ih
      | cons a l =>
        rw [hs] at ih
        simp only [List.head?_cons, Option.some.injEq] at ih
        simp only [List.head?_cons, ih]

theorem takeWhile_iff (p e : Str) (he : '/' ∉ e) :
    p.takeWhile (· ≠ '/') = e ↔ p = e ∨ (e ++ ['/']) <+: p := by
  constructor
  · intro h
    have := List.takeWhile_append_dropWhile (p := fun c => decide (c ≠ '/')) (l := p)
    rw [h] at this
    cases hd : p.dropWhile (fun c => decide (c ≠ '/')) with
    | nil => rw [hd, List.append_nil] at this; exact .inl this.symm
    | cons c r =>
      have hc : c = '/' := by
        have := List.head?_dropWhile_not (fun c => decide (c ≠ '/')) p
        rw [hd] at this
        simpa using this
      subst hc
      rw [hd] at this
      exact .inr ⟨r, by rw [← this]; simp⟩
  · have all : ∀ x ∈ e, decide (x ≠ '/') = true := fun x hx => by
      simp only [decide_eq_true_eq]; rintro rfl; exact he hx
    rintro (rfl | ⟨r, rfl⟩)
    · exact takeWhile_all all
    · rw [List.append_assoc, List.takeWhile_append_of_pos all]
      simp

theorem isLocal_iff (p : Str) : isLocalImport p = true ↔ Local p := by
  unfold isLocalImport Local hasPrefix
  rw [split_head]
  simp only [Option.some.injEq, Bool.or_eq_true, decide_eq_true_eq, List.isPrefixOf_iff_prefix]
  rw [takeWhile_iff p _ (by decide +kernel), takeWhile_iff p _ (by decide +kernel)]
  have e1 : ".".toList ++ ['/'] = "./".toList := by decide +kernel
  have e2 : "..".toList ++ ['/'] = "../".toList := by decide +kernel
  rw [e1, e2]
  constructor
  · rintro (((h | h) | h) | h)
    · exact .inl (.inl h)
    · exact .inr (.inl h)
    · exact .inl (.inr h)
    · exact .inr (.inr h)
  · rintro ((h | h) | (h | h))
    · exact .inl (.inl (.inl h))
    · exact .inl (.inr h)
    · exact .inl (.inl (.inr h))
    · exact .inr h

theorem lastPart_nil (p : Str) : lastPart p = [] ↔ p = [] ∨ p.getLast? = some '/' := by
  unfold lastPart
  rcases List.eq_nil_or_concat p with rfl | ⟨l, c, rfl⟩
  · simp
  · rw [List.concat_eq_append, List.reverse_append]
    show (List.takeWhile _ (c :: l.reverse)).reverse = [] ↔ _
    rw [List.takeWhile_cons, List.getLast?_concat]
    by_cases hc : c = '/' <;> simp [hc]

theorem lowerC_slash {c : Char} (h : lowerC c = '/') : c = '/' := by
  by_cases hu : isAsciiUpper c = true
  · exfalso
    have h1 := Strs.lowerC_lower c hu
    rw [h] at h1
    exact absurd h1 (by decide)
  · rw [Strs.lowerC_not c (by simpa using hu)] at h
    exact h

theorem toLower_slash {s : Str} (h : '/' ∉ s) : '/' ∉ toLower s := by
  intro hm
  obtain ⟨c, hc, e⟩ := List.mem_map.mp hm
  rw [lowerC_slash e] at hc
  exact h hc

/-- **C60** Where the service goes. With a local `-o` (`.`, `..`, `./…`, `../…`) it is that place seen from the working
directory; with any other `-o`, also one that begins with a slash, it is that place seen from `src` below the first entry
of GOPATH; in both cases a trailing slash adds the directory `<name>-service`, in lower case. With an empty `-o` it is the
directory `<name>-service` of the working directory. -/
theorem C60_directory {cwd gopath : Place} (hc : cwd.WF) (hg : gopath.WF) {name svcOut : Str} (hn : '/' ∉ name) :
    resolve cwd (serviceDir cwd.text gopath.text name svcOut) =
      let own := toLower name ++ "-service".toList
      if svcOut = [] then cwd ++ [own]
      else (if (split '/' svcOut).head? = some ".".toList ∨ (split '/' svcOut).head? = some "..".toList
          then walk cwd svcOut else walk (gopath ++ ["src".toList]) svcOut) ++
        if svcOut.getLast? = some '/' then [own] else [] := by
  have own : IsName (toLower name ++ "-service".toList) := isName_long (toLower_slash hn) (by decide +kernel) (by decide +kernel)
  have src : IsName "src".toList := by unfold IsName; decide +kernel
  have hgs : (gopath ++ ["src".toList] : Place).WF := fun x hx => by
    rcases List.mem_append.mp hx with h | h
    · exact hg x h
    · rw [List.mem_singleton] at h; subst h; exact src
  have back : ∀ {q : Place}, q.WF → resolve cwd q.text = q := fun {q} hq => by
    unfold resolve
    rw [if_pos (show List.head? q.text = some '/' from rfl), walk_text hq, List.nil_append]
  unfold serviceDir
  simp only
  by_cases h0 : svcOut = []
  · rw [if_pos h0, if_pos h0]
    have : joinPath ".".toList (toLower name ++ "-service".toList) = toLower name ++ "-service".toList := by
      have hne : (toLower name ++ "-service".toList).head? ≠ some '/' := by
        intro h
        apply own.2.2.2
        exact List.mem_of_mem_head? (by rw [h]; rfl)
      unfold joinPath
      rw [if_neg (by decide)]
      unfold clean
      have hs : split '/' (".".toList ++ '/' :: (toLower name ++ "-service".toList)) = [".".toList, toLower name ++ "-service".toList] := by
        rw [split_append, split_none _ _ own.2.2.2]
        rfl
      have hh : (".".toList ++ '/' :: (toLower name ++ "-service".toList)).head? = some '.' := rfl
      rw [hs, hh]
      generalize toLower name ++ "-service".toList = n at own
      have hf : ∀ b, List.foldl (cleanStep b) [] [".".toList, n] = [n] := by
        intro b
        show cleanStep b (cleanStep b [] ".".toList) n = _
        have : cleanStep b [] ".".toList = [] := by
          unfold cleanStep
          rw [if_pos (.inr rfl)]
        rw [this]
        unfold cleanStep
        rw [if_neg (fun e => e.elim own.1 own.2.1), if_neg (show ¬ n = ['.', '.'] from own.2.2.1)]
      simp only [hf, List.reverse_cons, List.reverse_nil, List.nil_append, join]
      rw [if_neg (by decide), if_neg own.1]
    rw [this]
    unfold resolve
    rw [if_neg, walk_name own]
    intro h
    exact own.2.2.2 (List.mem_of_mem_head? (by rw [h]; rfl))
  · rw [if_neg h0, if_neg h0]
    have hp : ∃ q : Place, q.WF ∧ parseSVCOut cwd.text gopath.text svcOut = q.text ∧
        q = if (split '/' svcOut).head? = some ".".toList ∨ (split '/' svcOut).head? = some "..".toList
          then walk cwd svcOut else walk (gopath ++ ["src".toList]) svcOut := by
      unfold parseSVCOut
      by_cases hl : isLocalImport svcOut = true
      · rw [if_pos hl]
        have hl' := (isLocal_iff svcOut).mp hl
        unfold Local at hl'
        rw [if_pos hl', abs_text hc]
        refine ⟨_, resolve_wf hc svcOut, rfl, ?_⟩
        unfold resolve
        rw [if_neg]
        intro hh
        cases svcOut with
        | nil => cases hh
        | cons c r =>
          simp only [List.head?_cons, Option.some.injEq] at hh
          subst hh
          rcases hl' with h | h <;> (unfold split at h; rw [if_pos rfl] at h; cases h)
      · rw [if_neg hl]
        have hl' := fun h => hl ((isLocal_iff svcOut).mpr h)
        unfold Local at hl'
        rw [if_neg hl']
        refine ⟨_, walk_wf hgs svcOut, ?_, rfl⟩
        have : gopath.text ++ "/src/".toList ++ svcOut = gopath.text ++ '/' :: ("src".toList ++ '/' :: svcOut) := by
          rw [List.append_assoc]
          rfl
        rw [this, clean_text_join hg, walk_append, walk_name src]
    obtain ⟨q, hq, e, hv⟩ := hp
    rw [e, ← hv]
    by_cases hs : svcOut.getLast? = some '/'
    · rw [if_pos ((lastPart_nil svcOut).mpr (.inr hs)), if_pos hs, joinPath_text hq, walk_name own]
      refine back fun x hx => ?_
      rcases List.mem_append.mp hx with h | h
      · exact hq x h
      · rw [List.mem_singleton] at h; subst h; exact own
    · rw [if_neg, if_neg hs, List.append_nil, back hq]
      intro h
      rcases (lastPart_nil svcOut).mp h with h | h
      · exact h0 h
      · exact hs h

/-- The default `./`, a name below GOPATH, a parent directory, and an absolute path, which does not lead where it says. -/
example :
    serviceDir "/home/me".toList "/go".toList "Echo".toList "./".toList = "/home/me/echo-service".toList ∧
    serviceDir "/home/me".toList "/go".toList "Echo".toList "github.com/me/x".toList = "/go/src/github.com/me/x".toList ∧
    serviceDir "/home/me".toList "/go".toList "Echo".toList "../svc/".toList = "/home/svc/echo-service".toList ∧
    serviceDir "/home/me".toList "/go".toList "Echo".toList "/tmp/x".toList = "/go/src/tmp/x".toList ∧
    serviceDir "/home/me".toList "/go".toList "Echo".toList [] = "echo-service".toList := by decide +kernel

end Baron.Cli
