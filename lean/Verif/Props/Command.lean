import Verif.Props.Cli
import Verif.Props.New
import Verif.Props.Generator

/-!
# The command: exit status (C61), a whole run (C62), leftover files (C63)
-/

namespace Baron.Cli

open Baron.Gen Baron.Start Baron.New Baron.Svcdef Baron.Scanner Baron.Lexer Baron.Consolidate Baron.Text Baron.Strs
  Baron.Parser.Grammar

/-! ## C61 What the exit status means -/

/-- What holds of the operating system and the generator's environment in every run: the maps are visited in some order and
service names contain no slash. -/
structure Sane (sys : Sys) : Prop where
  assets : sys.assets.Perm assetNames
  worder : ∀ l, (sys.worder l).Perm l
  name : ∀ sd, '/' ∉ toLower (sys.env sd).name

theorem command_eq {sys : Sys} {svcOut : Str} {args : List Str} {w : World} {protos : List Str} {files : List (Str × Str)}
    (h0 : args ≠ []) (h1 : cleanProtofilePath sys.cwd args = some protos) (h2 : sys.loadPB = true)
    (h3 : sys.protoc protos = some files) :
    command sys svcOut args w =
      match fromPaths sys protos with
      | .error .error => (.success, ⟨writeAll w.pb files, w.svc⟩)
      | .error .panic => (.failure, ⟨writeAll w.pb files, w.svc⟩)
      | .ok (p, name) =>
        if sys.mkdir = false ∨ sys.loadSvc = false then (.failure, ⟨writeAll w.pb files, w.svc⟩)
        else match define sys p (writeAll w.pb files) protos with
          | .error _ => (.failure, ⟨writeAll w.pb files, w.svc⟩)
          | .ok (_, sd) =>
            if sd.service = none then (.failure, ⟨writeAll w.pb files, w.svc⟩)
            else Gen.main (sys.env sd) (base (protos.headD [])) (base (serviceDir sys.cwd sys.gopath name svcOut))
              sys.assets sys.worder ⟨writeAll w.pb files, w.svc⟩ := by
  unfold command
  rw [if_neg h0, h1]
  simp only
  rw [if_neg (by rw [h2]; decide), h3]
  rfl

theorem command_cases (sys : Sys) (svcOut : Str) (args : List Str) (w : World) :
    command sys svcOut args w = (.failure, w) ∨
    ∃ protos files, args ≠ [] ∧ cleanProtofilePath sys.cwd args = some protos ∧ sys.loadPB = true ∧
      sys.protoc protos = some files := by
  by_cases h0 : args = []
  · left; unfold command; rw [if_pos h0]
  cases h1 : cleanProtofilePath sys.cwd args with
  | none => left; unfold command; rw [if_neg h0, h1]
  | some protos =>
    cases h2 : sys.loadPB with
    | false => left; unfold command; rw [if_neg h0, h1]; simp only; rw [if_pos h2]
    | true =>
      cases h3 : sys.protoc protos with
      | none => left; unfold command; rw [if_neg h0, h1]; simp only; rw [if_neg (by rw [h2]; decide), h3]
      | some files => exact .inr ⟨protos, files, h0, rfl, rfl, h3⟩

theorem writeAll_mem (files : List (Str × Str)) (fs fs' : FS) (p : Str) (h : p ∈ files.map (·.1)) :
    writeAll fs files p = writeAll fs' files p := by
  induction files generalizing fs fs' with
  | nil => cases h
  | cons x l ih =>
    show writeAll (writeFile fs x.1 x.2) l p = writeAll (writeFile fs' x.1 x.2) l p
    by_cases hm : p ∈ l.map (·.1)
    · exact ih _ _ hm
    · have hx : p = x.1 := by
        rcases List.mem_cons.mp h with h | h
        · exact h
        · exact absurd h hm
      have other : ∀ (l : List (Str × Str)) (fs : FS), p ∉ l.map (·.1) → writeAll fs l p = fs p := by
        intro l
        induction l with
        | nil => intro fs _; rfl
        | cons y l ih =>
          intro fs h
          show writeAll (writeFile fs y.1 y.2) l p = _
          rw [ih _ (fun h' => h (List.mem_cons_of_mem _ h'))]
          unfold writeFile
          rw [if_neg]
          rintro rfl
          exact h List.mem_cons_self
      rw [other l _ hm, other l _ hm]
      unfold writeFile
      rw [if_pos hx, if_pos hx]

theorem writeAll_other (files : List (Str × Str)) (fs : FS) (p : Str) (h : p ∉ files.map (·.1)) :
    writeAll fs files p = fs p := by
  induction files generalizing fs with
  | nil => rfl
  | cons y l ih =>
    show writeAll (writeFile fs y.1 y.2) l p = _
    rw [ih _ (fun h' => h (List.mem_cons_of_mem _ h'))]
    unfold writeFile
    rw [if_neg]
    rintro rfl
    exact h List.mem_cons_self

/-- **C61** Status 0: protoc succeeded, and either looking for a service in the .proto files ended with an error, not a panic
(because there is none or because their definition could not be read), and nothing was written apart from protoc's own files, or the transport file
and every file of the service are there with the contents they are meant to have. -/
theorem C61_success {sys : Sys} (hs : Sane sys) {svcOut : Str} {args : List Str} {w w' : World}
    (h : command sys svcOut args w = (.success, w')) :
    ∃ protos files, cleanProtofilePath sys.cwd args = some protos ∧ sys.protoc protos = some files ∧
      ((fromPaths sys protos = .error .error ∧ w'.svc = w.svc ∧ w'.pb = writeAll w.pb files) ∨
       ∃ p name p' sd, fromPaths sys protos = .ok (p, name) ∧ define sys p (writeAll w.pb files) protos = .ok (p', sd) ∧
        sd.service ≠ none ∧
        (∃ s, (sys.env sd).tmpl "baron/NAME.pb.baron.go.tmpl".toList = some s ∧
          w'.pb (baronFile (base (protos.headD []))) = some ((sys.env sd).fmt s)) ∧
        ∀ o ∈ outputs (toLower (sys.env sd).name) (sys.env sd).client,
          ∃ s, wanted (sys.env sd).tmpl (sys.env sd).regen (w.svc o.path) o = some s ∧
            w'.svc o.path = some ((sys.env sd).fmt s)) := by
  rcases command_cases sys svcOut args w with hf | ⟨protos, files, h0, h1, h2, h3⟩
  · rw [hf] at h; cases h
  refine ⟨protos, files, h1, h3, ?_⟩
  rw [command_eq h0 h1 h2 h3] at h
  cases hp : fromPaths sys protos with
  | error e =>
    rw [hp] at h
    cases e with
    | error => cases h; exact .inl ⟨rfl, rfl, rfl⟩
    | panic => cases h
  | ok r =>
    obtain ⟨p, name⟩ := r
    rw [hp] at h
    simp only at h
    split at h
    · cases h
    · cases hd : define sys p (writeAll w.pb files) protos with
      | error e => rw [hd] at h; cases h
      | ok r =>
        obtain ⟨p', sd⟩ := r
        rw [hd] at h
        simp only at h
        by_cases hsv : sd.service = none
        · rw [if_pos hsv] at h; cases h
        rw [if_neg hsv] at h
        refine .inr ⟨p, name, p', sd, rfl, hd, hsv, C32_transport_refreshed h, ?_⟩
        intro o ho
        unfold Gen.main at h
        split at h
        · simp only at h
          split at h
          · cases h
          · rename_i svc hr
            cases h
            exact run_output (hs.name sd) hs.assets hs.worder hr ho
        · cases h

/-- **C61** A status other than 0: the service directory is exactly what it was, and next to the .proto files nothing but
protoc's files and the transport file can have changed. -/
theorem C61_failure {sys : Sys} {svcOut : Str} {args : List Str} {w w' : World}
    (h : command sys svcOut args w = (.failure, w')) :
    w'.svc = w.svc ∧ ∀ n, w'.pb n = w.pb n ∨ ∃ protos, cleanProtofilePath sys.cwd args = some protos ∧
      (n = baronFile (base (protos.headD [])) ∨ ∃ files, sys.protoc protos = some files ∧ n ∈ files.map (·.1)) := by
  rcases command_cases sys svcOut args w with hf | ⟨protos, files, h0, h1, h2, h3⟩
  · rw [hf] at h; cases h; exact ⟨rfl, fun _ => .inl rfl⟩
  have w1 : ∀ n, writeAll w.pb files n = w.pb n ∨ ∃ protos, cleanProtofilePath sys.cwd args = some protos ∧
      (n = baronFile (base (protos.headD [])) ∨ ∃ files, sys.protoc protos = some files ∧ n ∈ files.map (·.1)) := by
    intro n
    by_cases hm : n ∈ files.map (·.1)
    · exact .inr ⟨protos, h1, .inr ⟨files, h3, hm⟩⟩
    · exact .inl (writeAll_other files w.pb n hm)
  rw [command_eq h0 h1 h2 h3] at h
  cases hp : fromPaths sys protos with
  | error e =>
    rw [hp] at h
    cases e with
    | error => cases h
    | panic => cases h; exact ⟨rfl, w1⟩
  | ok r =>
    obtain ⟨p, name⟩ := r
    rw [hp] at h
    simp only at h
    split at h
    · cases h; exact ⟨rfl, w1⟩
    · cases hd : define sys p (writeAll w.pb files) protos with
      | error e => rw [hd] at h; cases h; exact ⟨rfl, w1⟩
      | ok r =>
        obtain ⟨p', sd⟩ := r
        rw [hd] at h
        simp only at h
        by_cases hsv : sd.service = none
        · rw [if_pos hsv] at h; cases h; exact ⟨rfl, w1⟩
        rw [if_neg hsv] at h
        obtain ⟨e1, e2⟩ := C45_failure_leaves_service h
        refine ⟨e1, fun n => ?_⟩
        by_cases hn : n = baronFile (base (protos.headD []))
        · exact .inr ⟨protos, h1, .inl hn⟩
        · rw [e2 n hn]; exact w1 n

/-! ## C62 A whole run -/

/-- A complete set of input files: what protoc writes for them are the Go files `fs`, of the kind protoc writes and with one
service, whose interface is `t`; their texts are written in the supported grammar and mean `docs`. -/
structure Project (sys : Sys) (protos : List Str) (files : List (Str × Str)) (fs : List GoFile) (t : GoTypeSpec)
    (docs : List (Option ASvc)) : Prop where
  protoc : sys.protoc protos = some files
  gos : ∃ gos, openFiles sys.order (writeAll (fun _ => none) files) (goNames (writeAll (fun _ => none) files) protos) = some gos ∧
    gos.map sys.parseGo = fs.map some
  good : ∀ f ∈ fs, GoodFile sys.unq f
  one : OneService fs t
  texts : ∃ texts, openFiles sys.order sys.read protos = some texts ∧ All2 (Written sys.uni sys.unq) texts docs

/-- The annotated rpcs are methods of the service and their requests are declared in the Go files. -/
def Known (fs : List GoFile) (t : GoTypeSpec) (docs : List (Option ASvc)) : Prop := ∀ n ∈ annotated docs, Usable fs t n

/-- No `_grpc.pb.go` file is left over from a .proto file that had a service in former times. -/
def NoLeftover (pb : FS) (files : List (Str × Str)) (protos : List Str) : Prop :=
  ∀ p ∈ protos, pb (stem p ++ "_grpc.pb.go".toList) = none ∨ stem p ++ "_grpc.pb.go".toList ∈ files.map (·.1)

theorem mapM_some {fs : FS} : ∀ {l r : List Str}, l.mapM fs = some r → ∀ x ∈ l, (fs x).isSome := by
  intro l
  induction l with
  | nil => intro r _ x h; cases h
  | cons a l ih =>
    intro r h x hx
    rw [List.mapM_cons] at h
    cases ha : fs a with
    | none => rw [ha] at h; cases h
    | some s =>
      rw [ha] at h
      cases hl : l.mapM fs with
      | none => rw [hl] at h; cases h
      | some r' =>
        rcases List.mem_cons.mp hx with rfl | hx
        · rw [ha]; rfl
        · exact ih hl x hx

theorem mapM_agree {fs fs' : FS} : ∀ {l : List Str}, (∀ x ∈ l, fs x = fs' x) → l.mapM fs = l.mapM fs' := by
  intro l
  induction l with
  | nil => intro _; rfl
  | cons a l ih =>
    intro h
    rw [List.mapM_cons, List.mapM_cons, h a List.mem_cons_self, ih fun x hx => h x (List.mem_cons_of_mem _ hx)]

theorem written_isSome {files : List (Str × Str)} {n : Str} (h : (writeAll (fun _ => none) files n).isSome) :
    n ∈ files.map (·.1) := by
  refine Classical.byContradiction fun hn => ?_
  rw [writeAll_other files _ n hn] at h
  cases h

theorem goNames_agree {files : List (Str × Str)} {pb : FS} {protos : List Str} (h : NoLeftover pb files protos) :
    goNames (writeAll pb files) protos = goNames (writeAll (fun _ => none) files) protos := by
  unfold goNames
  induction protos with
  | nil => rfl
  | cons a l ih =>
    rw [List.flatMap_cons, List.flatMap_cons, ih fun p hp => h p (List.mem_cons_of_mem _ hp)]
    congr 2
    have : writeAll pb files (stem a ++ "_grpc.pb.go".toList) =
        writeAll (fun _ => none) files (stem a ++ "_grpc.pb.go".toList) := by
      by_cases hm : stem a ++ "_grpc.pb.go".toList ∈ files.map (·.1)
      · exact writeAll_mem files _ _ _ hm
      · rw [writeAll_other files _ _ hm, writeAll_other files _ _ hm]
        rcases h a List.mem_cons_self with h | h
        · exact h
        · exact absurd h hm
    rw [this]

/-- Without leftovers, the directory of the .proto files gives the same Go files as the fresh one. -/
theorem open_agree {files : List (Str × Str)} {pb : FS} {protos gos : List Str} {order : List Str → List Str}
    (h : NoLeftover pb files protos)
    (ho : openFiles order (writeAll (fun _ => none) files) (goNames (writeAll (fun _ => none) files) protos) = some gos) :
    openFiles order (writeAll pb files) (goNames (writeAll pb files) protos) = some gos := by
  rw [goNames_agree h, ← ho]
  unfold openFiles at ho ⊢
  refine mapM_agree fun x hx => ?_
  exact writeAll_mem files _ _ x (written_isSome (mapM_some ho x hx))

theorem define_project {sys : Sys} {protos : List Str} {files : List (Str × Str)} {fs : List GoFile} {t : GoTypeSpec}
    {docs : List (Option ASvc)} (hp : Project sys protos files fs t docs) (hk : Known fs t docs) {pb : FS}
    (hl : NoLeftover pb files protos) {p : Process} (hg : p.glob = .init) :
    ∃ p' sd s, define sys p (writeAll pb files) protos = .ok (p', sd) ∧ p'.glob = .init ∧ sd.service = some s ∧
      s.name ++ "Server".toList = t.name ∧ All2 (MethodOf fs docs sd) (exportedMembers t) s.methods := by
  obtain ⟨gos, g1, g2⟩ := hp.gos
  obtain ⟨texts, t1, t2⟩ := hp.texts
  obtain ⟨p', sd, s, h1, h2⟩ := C57_new sys.uni sys.unq p hg fs t hp.good hp.one texts docs t2 hk
  refine ⟨p', sd, s, ?_, h2⟩
  unfold define
  rw [open_agree hl g1, t1]
  simp only
  rw [g2, h1]

/-- **C62** A run on a complete project in a directory without leftovers, with everything else in order: it ends with
status 0; the definition it works with has the service's name, its methods in order, each with the request, response and
bindings written for it; the transport file and every file of the service are there, in the directories named after the
service, with the contents they are meant to have for that definition. -/
theorem C62_run {sys : Sys} (hs : Sane sys) {svcOut : Str} {args protos : List Str} {w : World} {files : List (Str × Str)}
    {fs : List GoFile} {t : GoTypeSpec} {docs : List (Option ASvc)} (h0 : args ≠ [])
    (h1 : cleanProtofilePath sys.cwd args = some protos) (hp : Project sys protos files fs t docs) (hk : Known fs t docs)
    (hl : NoLeftover w.pb files protos) (hok : sys.loadPB = true ∧ sys.mkdir = true ∧ sys.loadSvc = true)
    (ht : '/' ∉ t.name)
    (hname : ∀ sd s, sd.service = some s → '/' ∉ s.name → (sys.env sd).name = s.name)
    (htmpl : ∀ sd s, sd.service = some s → '/' ∉ s.name → ∀ n ∈ assetNames, n ≠ "service/service_methods.go.tmpl".toList →
      (sys.env sd).tmpl n ≠ none)
    (hregen : ∀ sd s, sd.service = some s → '/' ∉ s.name → (sys.env sd).regen (w.svc "service/service.go".toList) ≠ none) :
    ∃ w' sd s, command sys svcOut args w = (.success, w') ∧ sd.service = some s ∧ s.name ++ "Server".toList = t.name ∧
      All2 (MethodOf fs docs sd) (exportedMembers t) s.methods ∧
      (∃ txt, (sys.env sd).tmpl "baron/NAME.pb.baron.go.tmpl".toList = some txt ∧
        w'.pb (baronFile (base (protos.headD []))) = some ((sys.env sd).fmt txt)) ∧
      ∀ o ∈ outputs (toLower s.name) (sys.env sd).client,
        ∃ txt, wanted (sys.env sd).tmpl (sys.env sd).regen (w.svc o.path) o = some txt ∧
          w'.svc o.path = some ((sys.env sd).fmt txt) := by
  have hempty : NoLeftover (fun _ => none) files protos := fun _ _ => .inl rfl
  obtain ⟨p1, sd1, s1, a1, a2, a3, -⟩ := define_project hp hk hempty (p := .fresh) rfl
  obtain ⟨p2, sd, s, b1, b2, b3, b4, b5⟩ := define_project hp hk hl (p := p1) a2
  have hfrom : fromPaths sys protos = .ok (p1, s1.name) := by
    unfold fromPaths
    rw [hp.protoc]
    simp only
    rw [a1]
    simp only [a3]
  have hcmd := command_eq (svcOut := svcOut) (w := w) h0 h1 hok.1 hp.protoc
  rw [hfrom] at hcmd
  simp only at hcmd
  rw [if_neg (by rw [hok.2.1, hok.2.2]; simp), b1] at hcmd
  simp only at hcmd
  rw [if_neg (by rw [b3]; intro h; cases h)] at hcmd
  have hsucc : (Gen.main (sys.env sd) (base (protos.headD [])) (base (serviceDir sys.cwd sys.gopath s1.name svcOut))
      sys.assets sys.worder ⟨writeAll w.pb files, w.svc⟩).1 = .success := by
    cases hm : (Gen.main (sys.env sd) (base (protos.headD [])) (base (serviceDir sys.cwd sys.gopath s1.name svcOut))
      sys.assets sys.worder ⟨writeAll w.pb files, w.svc⟩).1 with
    | success => rfl
    | failure =>
      exfalso
      have hsl : '/' ∉ s.name := fun h => ht (by rw [← b4]; exact List.mem_append_left _ h)
      rcases (C45_when_failing (hs.name sd) hs.assets).mp hm with h | ⟨o, ho, hw⟩
      · exact htmpl sd s b3 hsl _ (List.Mem.head _) (by decide +kernel) h
      · unfold outputs at ho
        have hne : ∀ t ∈ assetNames, t ≠ "service/service_methods.go.tmpl".toList → (sys.env sd).tmpl t ≠ none := htmpl sd s b3 hsl
        have keep : ∀ path t, t ∈ assetNames → t ≠ "service/service_methods.go.tmpl".toList → ∀ now, wanted (sys.env sd).tmpl (sys.env sd).regen now ⟨path, t, .keep⟩ ≠ none := by
          intro path t ht hn now
          cases now with
          | none => exact hne t ht hn
          | some s => intro h; cases h
        have mem : ∀ {t}, assetNames.contains t = true → t ∈ assetNames := fun h => List.contains_iff_mem.mp h
        rcases List.mem_append.mp ho with ho | ho
        · simp only [List.mem_cons, List.not_mem_nil, or_false] at ho
          rcases ho with rfl | rfl | rfl | rfl | rfl | rfl | rfl
          · exact hregen sd s b3 hsl hw
          · exact keep _ _ (mem (by decide +kernel)) (by decide +kernel) _ hw
          · exact hne _ (mem (t := "server/server.go.tmpl".toList) (by decide +kernel)) (by decide +kernel) hw
          · exact keep _ _ (mem (by decide +kernel)) (by decide +kernel) _ hw
          · exact keep _ _ (mem (by decide +kernel)) (by decide +kernel) _ hw
          · exact keep _ _ (mem (by decide +kernel)) (by decide +kernel) _ hw
          · exact keep _ _ (mem (by decide +kernel)) (by decide +kernel) _ hw
        · split at ho
          · rw [List.mem_singleton] at ho
            subst ho
            exact keep _ _ (mem (by decide +kernel)) (by decide +kernel) _ hw
          · cases ho
  rw [← hcmd] at hsucc
  cases hc : command sys svcOut args w with
  | mk e w' =>
    rw [hc] at hsucc
    simp only at hsucc
    subst hsucc
    refine ⟨w', sd, s, rfl, b3, b4, b5, ?_⟩
    obtain ⟨protos', files', k1, k2, k3⟩ := C61_success hs hc
    rw [h1] at k1
    cases k1
    rw [hp.protoc] at k2
    cases k2
    rcases k3 with ⟨k, -⟩ | ⟨p, name, p', sd', k4, k5, -, k6, k7⟩
    · rw [hfrom] at k; cases k
    · rw [hfrom] at k4
      cases k4
      rw [b1] at k5
      cases k5
      rw [hname sd s b3 (fun h => ht (by rw [← b4]; exact List.mem_append_left _ h))] at k7
      exact ⟨k6, k7⟩

/-- **C61** In particular, an http option on an rpc that is not a method of the service ends the run with status 0 and
without a service (if the rpcs annotated before it can be used). -/
theorem C61_unknown_rpc {sys : Sys} {svcOut : Str} {args protos : List Str} {w : World} {files : List (Str × Str)}
    {fs : List GoFile} {t : GoTypeSpec} {docs : List (Option ASvc)} (h0 : args ≠ [])
    (h1 : cleanProtofilePath sys.cwd args = some protos) (hp : Project sys protos files fs t docs)
    {a b : List Str} {n : Str} (he : annotated docs = a ++ n :: b) (ha : ∀ n ∈ a, Usable fs t n) (hn : ¬ IsMethod t n)
    (hok : sys.loadPB = true) : command sys svcOut args w = (.success, ⟨writeAll w.pb files, w.svc⟩) := by
  obtain ⟨gos, g1, g2⟩ := hp.gos
  obtain ⟨texts, t1, t2⟩ := hp.texts
  have hnew := C57_unknown_rpc sys.uni sys.unq .fresh rfl fs t hp.good hp.one texts docs t2 a b n he ha hn
  rw [command_eq h0 h1 hok hp.protoc]
  have : fromPaths sys protos = .error .error := by
    unfold fromPaths define
    rw [hp.protoc]
    simp only
    rw [g1, t1]
    simp only
    rw [g2, hnew]
    rfl
  rw [this]

/-- **C61** An http option on an rpc whose request is declared in another package crashes the run (if the rpcs annotated
before it can be used): status not 0, and nothing but protoc's files is written. -/
theorem C61_foreign_request {sys : Sys} {svcOut : Str} {args protos : List Str} {w : World} {files : List (Str × Str)}
    {fs : List GoFile} {t : GoTypeSpec} {docs : List (Option ASvc)} (h0 : args ≠ [])
    (h1 : cleanProtofilePath sys.cwd args = some protos) (hp : Project sys protos files fs t docs)
    {a b : List Str} {n : Str} (he : annotated docs = a ++ n :: b) (ha : ∀ n ∈ a, Usable fs t n) (hn : ForeignRequest fs t n)
    (hok : sys.loadPB = true) : command sys svcOut args w = (.failure, ⟨writeAll w.pb files, w.svc⟩) := by
  obtain ⟨gos, g1, g2⟩ := hp.gos
  obtain ⟨texts, t1, t2⟩ := hp.texts
  have hnew := C57_foreign_request sys.uni sys.unq .fresh rfl fs t hp.good hp.one texts docs t2 a b n he ha hn
  rw [command_eq h0 h1 hok hp.protoc]
  have : fromPaths sys protos = .error .panic := by
    unfold fromPaths define
    rw [hp.protoc]
    simp only
    rw [g1, t1]
    simp only
    rw [g2, hnew]
    rfl
  rw [this]

/-! ## C63 Leftover files -/

/-- The two directories agree on the `_grpc.pb.go` files that are named after one of the .proto files and that protoc does not
write in this run. -/
def SameLeftovers (pb pb' : FS) (files : List (Str × Str)) (protos : List Str) : Prop :=
  ∀ p ∈ protos, stem p ++ "_grpc.pb.go".toList ∉ files.map (·.1) →
    pb (stem p ++ "_grpc.pb.go".toList) = pb' (stem p ++ "_grpc.pb.go".toList)

theorem define_agree {sys : Sys} (hord : ∀ l, (sys.order l).Perm l) {protos gos : List Str} {files : List (Str × Str)}
    {pb pb' : FS} {p : Process} (h : SameLeftovers pb pb' files protos)
    (ho : openFiles sys.order (writeAll (fun _ => none) files) (goNames (writeAll (fun _ => none) files) protos) = some gos) :
    define sys p (writeAll pb files) protos = define sys p (writeAll pb' files) protos := by
  have hgrpc : ∀ q ∈ protos, writeAll pb files (stem q ++ "_grpc.pb.go".toList) =
      writeAll pb' files (stem q ++ "_grpc.pb.go".toList) := by
    intro q hq
    by_cases hm : stem q ++ "_grpc.pb.go".toList ∈ files.map (·.1)
    · exact writeAll_mem files _ _ _ hm
    · rw [writeAll_other files _ _ hm, writeAll_other files _ _ hm, h q hq hm]
  have hnames : goNames (writeAll pb files) protos = goNames (writeAll pb' files) protos := by
    unfold goNames
    clear h ho
    induction protos with
    | nil => rfl
    | cons a l ih =>
      rw [List.flatMap_cons, List.flatMap_cons, ih fun q hq => hgrpc q (List.mem_cons_of_mem _ hq),
        hgrpc a List.mem_cons_self]
  have hopen : openFiles sys.order (writeAll pb files) (goNames (writeAll pb files) protos) =
      openFiles sys.order (writeAll pb' files) (goNames (writeAll pb' files) protos) := by
    rw [← hnames]
    unfold openFiles at ho ⊢
    refine mapM_agree fun x hx => ?_
    have hx' := List.mem_eraseDups.1 ((hord _).mem_iff.1 hx)
    unfold goNames at hx'
    obtain ⟨q, hq, hx'⟩ := List.mem_flatMap.1 hx'
    rcases List.mem_cons.1 hx' with rfl | hx'
    · refine writeAll_mem files _ _ _ (written_isSome (mapM_some ho _ ((hord _).mem_iff.2 (List.mem_eraseDups.2 ?_))))
      exact List.mem_flatMap.2 ⟨q, hq, List.mem_cons_self⟩
    · split at hx'
      · rw [List.mem_singleton.1 hx']; exact hgrpc q hq
      · cases hx'
  unfold define
  rw [hopen]

theorem main_pb {e : Env} {b base : Str} {assets : List Str} {worder : List (Str × Str) → List (Str × Str)} {pb pb' svc : FS} :
    (Gen.main e b base assets worder ⟨pb, svc⟩).1 = (Gen.main e b base assets worder ⟨pb', svc⟩).1 ∧
    (Gen.main e b base assets worder ⟨pb, svc⟩).2.svc = (Gen.main e b base assets worder ⟨pb', svc⟩).2.svc ∧
    ∀ n, n = baronFile b ∨ pb n = pb' n → pb (baronFile b) = pb' (baronFile b) ∨
        (Gen.main e b base assets worder ⟨pb, svc⟩).1 = .success →
      (Gen.main e b base assets worder ⟨pb, svc⟩).2.pb n = (Gen.main e b base assets worder ⟨pb', svc⟩).2.pb n := by
  unfold Gen.main
  rw [resp_baron]
  cases e.tmpl baronPath with
  | none =>
    refine ⟨rfl, rfl, ?_⟩
    rintro n (rfl | h) (h' | h')
    · exact h'
    · cases h'
    · exact h
    · cases h'
  | some s =>
    have wr : ∀ n t, n = baronFile b ∨ pb n = pb' n → writeFile pb (baronFile b) t n = writeFile pb' (baronFile b) t n := by
      intro n t hn
      unfold writeFile
      split
      · rfl
      · rename_i hne
        exact hn.resolve_left hne
    simp only [outcomeOf]
    cases run e base assets worder svc with
    | none => exact ⟨rfl, rfl, fun n hn _ => wr n _ hn⟩
    | some svc' => exact ⟨rfl, rfl, fun n hn _ => wr n _ hn⟩

/-- **C63** The only other files in the directory of the .proto files that have an influence are `_grpc.pb.go` files named
after one of the .proto files that protoc did not write in this run: whatever else differs, exit status, service directory,
and all files protoc or baron write are the same. -/
theorem C63_other_files {sys : Sys} (hord : ∀ l, (sys.order l).Perm l) {svcOut : Str} {args protos : List Str} {pb pb' svc : FS}
    {files : List (Str × Str)} (h1 : cleanProtofilePath sys.cwd args = some protos) (hp : sys.protoc protos = some files)
    (hl : SameLeftovers pb pb' files protos) (hpb : sys.loadPB = true) (h0 : args ≠ []) :
    (command sys svcOut args ⟨pb, svc⟩).1 = (command sys svcOut args ⟨pb', svc⟩).1 ∧
    (command sys svcOut args ⟨pb, svc⟩).2.svc = (command sys svcOut args ⟨pb', svc⟩).2.svc ∧
    ((∀ n ∈ files.map (·.1), n ≠ baronFile (base (protos.headD [])) →
      (command sys svcOut args ⟨pb, svc⟩).2.pb n = (command sys svcOut args ⟨pb', svc⟩).2.pb n) ∧
     ((∃ r, fromPaths sys protos = .ok r) → (command sys svcOut args ⟨pb, svc⟩).1 = .success →
      (command sys svcOut args ⟨pb, svc⟩).2.pb (baronFile (base (protos.headD []))) =
        (command sys svcOut args ⟨pb', svc⟩).2.pb (baronFile (base (protos.headD []))))) := by
  rw [command_eq h0 h1 hpb hp, command_eq h0 h1 hpb hp]
  have w1 : ∀ n ∈ files.map (·.1), writeAll pb files n = writeAll pb' files n := fun n hn => writeAll_mem files _ _ n hn
  cases hf : fromPaths sys protos with
  | error e => cases e <;> exact ⟨rfl, rfl, fun n hn _ => w1 n hn, fun ⟨r, h⟩ => by cases h⟩
  | ok r =>
    obtain ⟨p, name⟩ := r
    simp only
    have hg : ∃ gos, openFiles sys.order (writeAll (fun _ => none) files)
        (goNames (writeAll (fun _ => none) files) protos) = some gos := by
      unfold fromPaths define at hf
      rw [hp] at hf
      simp only at hf
      cases ho : openFiles sys.order (writeAll (fun _ => none) files) (goNames (writeAll (fun _ => none) files) protos) with
      | none => rw [ho] at hf; cases hf
      | some gos => exact ⟨gos, rfl⟩
    obtain ⟨gos, hg⟩ := hg
    rw [define_agree hord (p := p) hl hg]
    by_cases hm : sys.mkdir = false ∨ sys.loadSvc = false
    · simp only [if_pos hm]
      exact ⟨trivial, trivial, fun n hn _ => w1 n hn, fun _ h => by cases h⟩
    · simp only [if_neg hm]
      cases define sys p (writeAll pb' files) protos with
      | error e => exact ⟨rfl, rfl, fun n hn _ => w1 n hn, fun _ h => by cases h⟩
      | ok r =>
        obtain ⟨p', sd⟩ := r
        simp only
        by_cases hsv : sd.service = none
        · simp only [if_pos hsv]
          exact ⟨trivial, trivial, fun n hn _ => w1 n hn, fun _ h => by cases h⟩
        simp only [if_neg hsv]
        obtain ⟨m1, m2, m3⟩ := main_pb (e := sys.env sd) (b := base (protos.headD []))
          (base := base (serviceDir sys.cwd sys.gopath name svcOut)) (assets := sys.assets) (worder := sys.worder)
          (pb := writeAll pb files) (pb' := writeAll pb' files) (svc := svc)
        refine ⟨m1, m2, fun n hn hne => ?_, fun _ h => m3 _ (.inl rfl) (.inr h)⟩
        have e1 := w1 n hn
        unfold Gen.main
        rw [resp_baron]
        cases (sys.env sd).tmpl baronPath with
        | none => exact e1
        | some s =>
          simp only [outcomeOf]
          have : ∀ t, writeFile (writeAll pb files) (baronFile (base (protos.headD []))) t n =
              writeFile (writeAll pb' files) (baronFile (base (protos.headD []))) t n := by
            intro t
            unfold writeFile
            rw [if_neg hne, if_neg hne, e1]
          cases run (sys.env sd) (base (serviceDir sys.cwd sys.gopath name svcOut)) sys.assets sys.worder svc with
          | none => exact this _
          | some svc' => exact this _

/-! ## The hypotheses are met -/

namespace Example

open Baron.New.Example Baron.Text.Example
open Baron.Parser (plainUnq)

/-- `a.pb.go` and `a_grpc.pb.go` of the example for C57. -/
def goMessages : GoFile := { goFile with types := goFile.types.take 1 }
def goGrpc : GoFile := { goFile with types := goFile.types.drop 1 }

/-- A `_grpc.pb.go` file with a service `Old`. -/
def goOld : GoFile where
  pkg := "pb".toList
  types := [⟨"OldServer".toList, .iface [⟨["N".toList], some ([.sel (some "context".toList) "Context".toList,
    .star (.ident "A".toList)], some [.star (.ident "A".toList), .ident "error".toList])⟩]⟩]
  funcs := []

def goEmpty : GoFile := ⟨"pb".toList, [], []⟩

def textA : Str := ("message A { } // a service\nservice S {\n  // doc\n  rpc M(A) returns (A) {\n  " ++
      "option (google.api.http) = { get: \"/a\" }; }\n}\n").toList

/-- Two .proto files `/w/a.proto`, with the service `S`, and `/w/b.proto`, without. -/
def sys (order : List Str → List Str) : Sys where
  cwd := "/w".toList
  gopath := "/go".toList
  read := fun p => if p = "/w/a.proto".toList then some textA else if p = "/w/b.proto".toList then some other.flatten else none
  protoc := fun _ => some [("a.pb.go".toList, "A".toList), ("a_grpc.pb.go".toList, "S".toList), ("b.pb.go".toList, "B".toList)]
  loadPB := true
  loadSvc := true
  mkdir := true
  parseGo := fun s =>
    if s = "A".toList then some goMessages else if s = "S".toList then some goGrpc else if s = "Old".toList then some goOld
    else some goEmpty
  uni := asciiUni
  unq := plainUnq
  env := fun sd => { exEnv false with name := ((sd.service.map Service.name).getD []).filter (· ≠ '/') }
  order := order
  assets := assetNames
  worder := id

def args : List Str := ["a.proto".toList, "./b.proto".toList]
def protos : List Str := ["/w/a.proto".toList, "/w/b.proto".toList]
def files : List (Str × Str) := [("a.pb.go".toList, "A".toList), ("a_grpc.pb.go".toList, "S".toList), ("b.pb.go".toList, "B".toList)]

/-- `b_grpc.pb.go` is left over from the time when `b.proto` had the service `Old`. -/
def leftover : FS := fun p => if p = "b_grpc.pb.go".toList then some "Old".toList else none

theorem sane : Sane (sys id) where
  assets := List.Perm.refl _
  worder := fun l => List.Perm.refl l
  name := fun sd => toLower_slash (by
    simp only [sys, List.mem_filter, not_and, decide_eq_true_eq, ne_eq, not_true, not_false_eq_true, implies_true])

theorem good_sub {f : GoFile} (hf : f.funcs = []) (h : ∀ t ∈ f.types, t ∈ goFile.types) : GoodFile plainUnq f where
  fields := fun t ht => good.fields t (h t ht)
  service := fun t ht => good.service t (h t ht)
  markers := fun fn h => by rw [hf] at h; cases h
  options := fun t _ _ h => by unfold wrappers at h; rw [hf] at h; cases h

theorem project : Project (sys id) protos files [goMessages, goGrpc, goEmpty] iface [some svc, none] where
  protoc := rfl
  gos := ⟨["A".toList, "S".toList, "B".toList], by decide +kernel, by decide +kernel⟩
  good := by
    intro f hf
    simp only [List.mem_cons, List.not_mem_nil, or_false] at hf
    rcases hf with rfl | rfl | rfl
    · exact good_sub rfl fun t ht => List.mem_of_mem_take ht
    · exact good_sub rfl fun t ht => List.mem_of_mem_drop ht
    · exact good_sub rfl fun t ht => by cases ht
  one :=
    have e : [goMessages, goGrpc, goEmpty].flatMap GoFile.types = [goFile].flatMap GoFile.types := rfl
    { service := by rw [e]; exact one.service
      types := by decide +kernel
      methods := one.methods }
  texts := by
    refine ⟨[textA, other.flatten], by decide +kernel, .cons ⟨pre, hdr, body, post, file asciiUni, svc_wf, svc_tokens asciiUni⟩
      (.cons ⟨other, laidA_sound asciiUni (by decide +kernel), rfl, by decide +kernel, by decide +kernel⟩ .nil)⟩

theorem known : Known [goMessages, goGrpc, goEmpty] iface [some svc, none] := by
  intro n hn
  have : n = "M".toList := by simpa [annotated, svc] using hn
  subst this
  obtain ⟨m, h1, h2, h3⟩ := usable
  have e : [goMessages, goGrpc, goEmpty].flatMap specMessages = [goFile].flatMap specMessages := by decide +kernel
  exact ⟨m, h1, h2, by rw [e]; exact h3⟩

theorem args_ok : cleanProtofilePath (sys id).cwd args = some protos := by decide +kernel

theorem env_name : ∀ sd s, sd.service = some s → '/' ∉ s.name → ((sys id).env sd).name = s.name := by
  intro sd s h hn
  simp only [sys, h, Option.map_some, Option.getD_some]
  exact List.filter_eq_self.mpr fun a ha => by simp only [ne_eq, decide_eq_true_eq]; rintro rfl; exact hn ha

/-- All hypotheses of `C62_run` are met by this project in an empty directory. -/
theorem run_ok : ∃ (w' : World) (sd : Svcdef) (s : Svcdef.Service),
    command (sys id) "./".toList args ⟨fun _ => none, fun _ => none⟩ = (.success, w') ∧
    sd.service = some s ∧ s.name = "S".toList ∧ w'.svc "cmd/s/main.go".toList = some "cmd/NAME/main.go.tmpl".toList := by
  obtain ⟨w', sd, s, h1, h2, h3, -, -, h4⟩ := C62_run (svcOut := "./".toList) (w := ⟨fun _ => none, fun _ => none⟩) sane
    (by decide) args_ok project known (fun _ _ => .inl rfl) ⟨rfl, rfl, rfl⟩ (by decide +kernel) env_name
    (fun _ _ _ _ _ _ _ h => by cases h) (fun _ _ _ _ h => by cases h)
  have hs : s.name = "S".toList := by
    have : s.name ++ "Server".toList = "S".toList ++ "Server".toList := h3.trans (by decide +kernel)
    exact List.append_cancel_right this
  refine ⟨w', sd, s, h1, h2, hs, ?_⟩
  have ho : (⟨"cmd/s/main.go".toList, "cmd/NAME/main.go.tmpl".toList, .keep⟩ : Output) ∈
      outputs (toLower s.name) ((sys id).env sd).client := by
    rw [hs]
    exact List.mem_append_left _ (.tail _ (.tail _ (.tail _ (.tail _ (.tail _ (.tail _ (.head _)))))))
  obtain ⟨txt, k1, k2⟩ := h4 _ ho
  cases k1
  exact k2

/-- Success and failure (a bad package directory) both occur, so the hypotheses of `C61_success` and `C61_failure` are met. -/
example : (command (sys id) "./".toList args ⟨fun _ => none, fun _ => none⟩).1 = .success ∧
    (command { sys id with loadSvc := false } "./".toList args ⟨fun _ => none, fun _ => none⟩).1 = .failure := by
  decide +kernel

/-- A Go file with a service `S` whose only method is `N`. -/
def goN : GoFile := { goOld with types := goOld.types.map fun t => { t with name := "SServer".toList } }

def ifaceN : GoTypeSpec := goN.types[0]

def sysN : Sys := { sys id with
  parseGo := fun s => if s = "A".toList then some goMessages else if s = "S".toList then some goN else some goEmpty }

theorem goodN : GoodFile plainUnq goN where
  fields := by
    intro t ht fs hs
    simp only [goN, goOld, List.map_cons, List.map_nil, List.mem_singleton] at ht
    subst ht
    cases hs
  service := by
    intro t ht _ m hm
    simp only [goN, goOld, List.map_cons, List.map_nil, List.mem_singleton] at ht
    subst ht
    simp only [members, List.mem_singleton] at hm
    subst hm
    exact ⟨by decide, fun _ => ⟨_, _, _, _, _, _, _, rfl, .inl rfl, .inl rfl⟩⟩
  markers := by intro fn h; cases h
  options := by intro t _ _ h; cases h

/-- The hypotheses of `C61_unknown_rpc` are met: `a.proto` annotates the rpc `M`, which is not a method of the service. -/
example : Project sysN protos files [goMessages, goN, goEmpty] ifaceN [some svc, none] ∧
    annotated [some svc, none] = [] ++ "M".toList :: [] ∧ ¬ IsMethod ifaceN "M".toList ∧
    cleanProtofilePath sysN.cwd args = some protos ∧ sysN.loadPB = true := by
  refine ⟨⟨rfl, ⟨["A".toList, "S".toList, "B".toList], by decide +kernel, by decide +kernel⟩, ?_, ⟨by decide +kernel,
    by decide +kernel, by decide +kernel⟩, project.texts⟩, by decide +kernel, ?_, args_ok, rfl⟩
  · intro f hf
    simp only [List.mem_cons, List.not_mem_nil, or_false] at hf
    rcases hf with rfl | rfl | rfl
    · exact good_sub rfl fun t ht => List.mem_of_mem_take ht
    · exact goodN
    · exact good_sub rfl fun t ht => by cases ht
  · rintro ⟨m, h1, h2⟩
    have e : exportedMembers ifaceN = [⟨["N".toList], some ([.sel (some "context".toList) "Context".toList,
        .star (.ident "A".toList)], some [.star (.ident "A".toList), .ident "error".toList])⟩] := by decide +kernel
    rw [e, List.mem_singleton] at h1
    subst h1
    revert h2
    decide +kernel

/-- The hypotheses of `C61_foreign_request` are met: the request of `M` is `*emptypb.Empty`. -/
def sysF : Sys := { sys id with
  parseGo := fun s => if s = "A".toList then some goMessages else if s = "S".toList then some goForeign else some goEmpty }

example : Project sysF protos files [goMessages, goForeign, goEmpty] ifaceF [some svc, none] ∧
    annotated [some svc, none] = [] ++ "M".toList :: [] ∧ ForeignRequest [goMessages, goForeign, goEmpty] ifaceF "M".toList ∧
    cleanProtofilePath sysF.cwd args = some protos ∧ sysF.loadPB = true := by
  refine ⟨⟨rfl, ⟨["A".toList, "S".toList, "B".toList], by decide +kernel, by decide +kernel⟩, ?_, ⟨by decide +kernel,
    by decide +kernel, by decide +kernel⟩, project.texts⟩, by decide +kernel, foreignF _ (by decide +kernel), args_ok, rfl⟩
  intro f hf
  simp only [List.mem_cons, List.not_mem_nil, or_false] at hf
  rcases hf with rfl | rfl | rfl
  · exact good_sub rfl fun t ht => List.mem_of_mem_take ht
  · exact goodF
  · exact good_sub rfl fun t ht => by cases ht

/-- The same leftover file, next to an old `a_grpc.pb.go`, which protoc writes again, and a file that is not named after a .proto file. -/
def crowded : FS := fun p => if p = "b_grpc.pb.go".toList then some "Old".toList else if p = "a_grpc.pb.go".toList then some "Old".toList
  else if p = "x_grpc.pb.go".toList then some "A".toList else none

/-- The hypotheses of `C63_other_files` are met by two directories that differ: in both runs the leftover `b_grpc.pb.go` decides, and nothing else. -/
example : SameLeftovers leftover crowded files protos ∧ leftover ≠ crowded ∧
    (command (sys id) "./".toList args ⟨leftover, fun _ => none⟩).1 = (command (sys id) "./".toList args ⟨crowded, fun _ => none⟩).1 := by
  have hl : SameLeftovers leftover crowded files protos := by unfold SameLeftovers; decide +kernel
  refine ⟨hl, fun h => ?_, (C63_other_files (fun l => List.Perm.refl l) args_ok rfl hl rfl (by decide)).1⟩
  have := congrFun h "x_grpc.pb.go".toList
  revert this
  decide +kernel

end Example

/-- **C63** Such a file does have an influence: with a leftover `b_grpc.pb.go` the run of the example fails when that file is
read last, and it succeeds when it is read first, as the order of a map decides; without it, it succeeds. -/
theorem C63_leftover_witness :
    (command (Example.sys id) "./".toList Example.args ⟨fun _ => none, fun _ => none⟩).1 = .success ∧
    (command (Example.sys id) "./".toList Example.args ⟨Example.leftover, fun _ => none⟩).1 = .failure ∧
    (command (Example.sys List.reverse) "./".toList Example.args ⟨Example.leftover, fun _ => none⟩).1 = .success := by
  refine ⟨?_, ?_, ?_⟩ <;> decide +kernel

end Baron.Cli
