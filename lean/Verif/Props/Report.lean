import Verif.Spec.Report
import Verif.Proofs.Service
import Verif.Proofs.Generator
import Verif.Props.Service
import Verif.Props.Generator

/-!
# C71: the messages about written files
-/

namespace Baron.Gen

theorem mark_spec (e : Env) (changed : Option Str → Bool) (base : Str) (fs : FS) (hx : '/' ∉ toLower e.name) {o : Output}
    (ho : o ∈ outputs (toLower e.name) e.client) :
    markOf changed o.template (readPrevious base (toLower e.name) fs o.path) (fs o.path).isSome =
      ExpectedMark changed (fs o.path) o := by
  unfold outputs at ho
  have keep : ∀ (p : Option Str) (o : Output), o.policy = .keep →
      responseInfo (some (p.isNone, false)) p.isSome = ExpectedMark changed p o := by
    intro p o ho
    obtain ⟨_, _, _⟩ := o
    simp only at ho
    subst ho
    cases p <;> rfl
  rcases List.mem_append.mp ho with ho | ho
  · simp only [List.mem_cons, List.not_mem_nil, or_false] at ho
    rcases ho with h | h | h | h | h | h | h <;> subst h
    · rw [prev_lit base _ fs (d := "service".toList) (by decide +kernel) (Or.inl rfl) (by decide +kernel)]
      show responseInfo (some (_, changed _)) _ = _
      generalize fs _ = p
      cases p with
      | none => rfl
      | some s => simp only [ExpectedMark]; cases changed (some s) <;> rfl
    · rw [prev_lit base _ fs (d := "service".toList) (by decide +kernel) (Or.inl rfl) (by decide +kernel)]
      show responseInfo (some (_, false)) _ = _
      exact keep _ _ rfl
    · show responseInfo none _ = _
      simp only [ExpectedMark]; generalize fs _ = p; cases p <;> rfl
    · rw [prev_lit base _ fs (d := "server".toList) (by decide +kernel) (Or.inr (Or.inr rfl)) (by decide +kernel)]
      show responseInfo (some (_, false)) _ = _
      exact keep _ _ rfl
    · rw [prev_lit base _ fs (d := "server".toList) (by decide +kernel) (Or.inr (Or.inr rfl)) (by decide +kernel)]
      show responseInfo (some (_, false)) _ = _
      exact keep _ _ rfl
    · rw [prev_lit base _ fs (d := "server".toList) (by decide +kernel) (Or.inr (Or.inr rfl)) (by decide +kernel)]
      show responseInfo (some (_, false)) _ = _
      exact keep _ _ rfl
    · rw [List.append_assoc, prev_cmdServer base hx]
      show responseInfo (some (_, false)) _ = _
      exact keep _ _ rfl
  · cases hc : e.client
    · rw [hc] at ho; cases ho
    · rw [hc, if_pos rfl, List.mem_singleton] at ho
      subst ho
      rw [List.append_assoc, prev_cmdClient base hx]
      show responseInfo (some (_, false)) _ = _
      exact keep _ _ rfl

theorem em_keep {changed : Option Str → Bool} {s : Str} {o : Output} (h : o.policy = .keep) :
    ExpectedMark changed (some s) o = .same := by
  obtain ⟨_, _, _⟩ := o; simp only at h; subst h; rfl

theorem em_refresh {changed : Option Str → Bool} {s : Str} {o : Output} (h : o.policy = .refresh) :
    ExpectedMark changed (some s) o = .override := by
  obtain ⟨_, _, _⟩ := o; simp only at h; subst h; rfl

theorem em_merge {changed : Option Str → Bool} {s : Str} {o : Output} (h : o.policy = .merge) :
    ExpectedMark changed (some s) o = if changed (some s) then .modified else .same := by
  obtain ⟨_, _, _⟩ := o; simp only at h; subst h; rfl

/-- The reported paths are the generated files', in the same order. -/
theorem reports_paths {e : Env} {changed : Option Str → Bool} {base : Str} {fs : FS} : ∀ {assets : List Str}
    {files : List (Str × Str)}, generateGokit e (readPrevious base (toLower e.name) fs) assets = some files →
    (reports e changed base fs assets).map (·.1) = files.map (·.1) := by
  intro assets
  induction assets with
  | nil => intro files h; simp only [generateGokit, Option.some.injEq] at h; subst h; rfl
  | cons t ts ih =>
    intro files h
    unfold generateGokit at h
    unfold reports
    by_cases hex : isExcludedPath t
    · rw [if_pos hex] at h ⊢; exact ih h
    rw [if_neg hex] at h ⊢
    simp only at h ⊢
    generalize generateResponseFile e t _ = z at h ⊢
    cases z with
    | error => cases h
    | ignored => exact ih h
    | file s =>
      simp only at h ⊢
      cases hg : generateGokit e (readPrevious base (toLower e.name) fs) ts with
      | none => rw [hg] at h; cases h
      | some l =>
        rw [hg] at h
        simp only [Option.map_some, Option.some.injEq] at h
        subst h
        rw [List.map_cons, List.map_cons, ih hg]

theorem reports_mem {e : Env} {changed : Option Str → Bool} {base : Str} {fs : FS} : ∀ {assets : List Str} {x : Str × Mark},
    x ∈ reports e changed base fs assets → ∃ t ∈ assets, isExcludedPath t = false ∧
      x.1 = templatePathToActual t (toLower e.name) ∧
      x.2 = markOf changed t (readPrevious base (toLower e.name) fs x.1) (fs x.1).isSome ∧
      generateResponseFile e t (readPrevious base (toLower e.name) fs x.1) ≠ .ignored := by
  intro assets
  induction assets with
  | nil => intro x h; cases h
  | cons t ts ih =>
    intro x h
    unfold reports at h
    have sub : x ∈ reports e changed base fs ts → ∃ t' ∈ t :: ts, isExcludedPath t' = false ∧
      x.1 = templatePathToActual t' (toLower e.name) ∧
      x.2 = markOf changed t' (readPrevious base (toLower e.name) fs x.1) (fs x.1).isSome ∧
      generateResponseFile e t' (readPrevious base (toLower e.name) fs x.1) ≠ .ignored := by
      intro hx
      obtain ⟨t', h1, h2⟩ := ih hx
      exact ⟨t', List.mem_cons_of_mem _ h1, h2⟩
    by_cases hex : isExcludedPath t
    · rw [if_pos hex] at h; exact sub h
    rw [if_neg hex] at h
    simp only at h
    generalize hz : generateResponseFile e t _ = z at h
    cases z with
    | error => cases h
    | ignored => exact sub h
    | file s =>
      simp only at h
      rcases List.mem_cons.1 h with h | h
      · subst h
        refine ⟨t, List.mem_cons_self, by simpa using hex, rfl, rfl, ?_⟩
        rw [hz]; intro h; cases h
      · exact sub h

/-- **C71**, which messages: a successful run reports every output file exactly once and nothing else, with the mark its
state before the run calls for: `->` if it did not exist, `*>` for server.go, `=>` for files that belong to the user, and
for service.go `>>` or `=>`. -/
theorem C71_messages {e : Env} (changed : Option Str → Bool) {base : Str} {assets : List Str}
    {worder : List (Str × Str) → List (Str × Str)} {fs fs' : FS} (hx : '/' ∉ toLower e.name) (ha : assets.Perm assetNames)
    (h : run e base assets worder fs = some fs') :
    ((reports e changed base fs assets).map (·.1)).Nodup ∧
    ∀ p m, (p, m) ∈ reports e changed base fs assets ↔
      ∃ o ∈ outputs (toLower e.name) e.client, o.path = p ∧ m = ExpectedMark changed (fs p) o := by
  unfold run at h
  split at h
  · cases h
  rename_i files hf
  have hp := reports_paths (changed := changed) hf
  have hnd := gokit_nodup (ha.nodup_iff.mpr (by decide +kernel)) (fun t ht => ha.mem_iff.mp ht) hf
  refine ⟨hp ▸ hnd, fun p m => ⟨fun hm => ?_, ?_⟩⟩
  · obtain ⟨t, ht, hex, h1, h2, h3⟩ := reports_mem hm
    simp only at h1 h2 h3
    rcases template_output e (ha.mem_iff.mp ht) hex with ⟨o, ho, hot⟩ | ⟨hc, hcl⟩
    · have hpath := (output_spec e base fs hx ho).2.2.1
      rw [hot, ← h1] at hpath
      refine ⟨o, ho, hpath.symm, ?_⟩
      rw [h2, hpath, ← hot, mark_spec e changed base fs hx ho]
    · rw [hc, resp_client_off e _ hcl] at h3
      exact absurd rfl h3
  · rintro ⟨o, ho, rfl, rfl⟩
    obtain ⟨h1, h2, h3, h4⟩ := output_spec e base fs hx ho
    have hin : o.path ∈ (reports e changed base fs assets).map (·.1) := by
      rw [hp]
      rcases gokit_mem hf (ha.mem_iff.mpr h1) h2 with h | ⟨s, h, hm⟩
      · rw [h3, h4] at h
        cases hwn : wanted e.tmpl e.regen (fs o.path) o <;> rw [hwn] at h <;> cases h
      · rw [h3] at hm; exact List.mem_map.2 ⟨_, hm, rfl⟩
    obtain ⟨⟨p, m⟩, hm, he⟩ := List.mem_map.1 hin
    simp only at he
    subst he
    obtain ⟨t, ht, hex, k1, k2, k3⟩ := reports_mem hm
    simp only at k1 k2
    have : t = o.template := actual_inj _ (ha.mem_iff.1 ht) h1 (by rw [h3, ← k1])
    subst this
    rw [mark_spec e changed base fs hx ho] at k2
    rw [← k2]; exact hm

/-- A run over an existing service directory: three of the files are there before. -/
example : ∃ fs', run (exEnv false) "echo-service".toList assetNames id exFS = some fs' ∧
    reports (exEnv false) (fun _ => false) "echo-service".toList exFS assetNames =
      [("cmd/echo/main.go".toList, .first), ("server/endpoints.go".toList, .first), ("server/interrupt.go".toList, .first),
       ("server/server.go".toList, .override), ("server/wrapper.go".toList, .first), ("service/service.go".toList, .first),
       ("service/wrapper.go".toList, .same)] := ⟨_, rfl, by decide +kernel⟩

/-- **C71**, what the marks promise: `->` is a file that was not there and is now; `=>` on a file that belongs to the user is
the user's text up to formatting; `*>` is a file that was there and holds the freshly formatted template. -/
theorem C71_true {e : Env} (changed : Option Str → Bool) {base : Str} {assets : List Str}
    {worder : List (Str × Str) → List (Str × Str)} {fs fs' : FS} (hx : '/' ∉ toLower e.name) (ha : assets.Perm assetNames)
    (hw : ∀ l, (worder l).Perm l) (h : run e base assets worder fs = some fs') (p : Str) :
    ((p, .first) ∈ reports e changed base fs assets → fs p = none ∧ fs' p ≠ none) ∧
    ((p, .same) ∈ reports e changed base fs assets → p ≠ "service/service.go".toList →
      ∃ s, fs p = some s ∧ fs' p = some (e.fmt s)) ∧
    ((p, .override) ∈ reports e changed base fs assets → p = "server/server.go".toList ∧ fs p ≠ none ∧
      ∃ s, e.tmpl "server/server.go.tmpl".toList = some s ∧ fs' p = some (e.fmt s)) ∧
    ((p, .modified) ∈ reports e changed base fs assets → p = "service/service.go".toList ∧ fs p ≠ none) := by
  have hm := (C71_messages changed hx ha h).2 p
  have pol : ∀ o ∈ outputs (toLower e.name) e.client,
      (o.policy = .refresh → o.path = "server/server.go".toList ∧ o.template = "server/server.go.tmpl".toList) ∧
      (o.policy = .merge → o.path = "service/service.go".toList) := by
    intro o ho
    unfold outputs at ho
    rcases List.mem_append.mp ho with ho | ho
    · simp only [List.mem_cons, List.not_mem_nil, or_false] at ho
      rcases ho with h | h | h | h | h | h | h <;> subst h
      · exact ⟨nofun, fun _ => rfl⟩
      · exact ⟨nofun, nofun⟩
      · exact ⟨fun _ => ⟨rfl, rfl⟩, nofun⟩
      all_goals exact ⟨nofun, nofun⟩
    · cases hc : e.client
      · rw [hc] at ho; cases ho
      · rw [hc, if_pos rfl, List.mem_singleton] at ho
        subst ho
        exact ⟨nofun, nofun⟩
  refine ⟨fun hr => ?_, fun hr hp => ?_, fun hr => ?_, fun hr => ?_⟩
  all_goals
    obtain ⟨o, ho, hop, he⟩ := (hm _).1 hr
    subst hop
    obtain ⟨s, h1, h2⟩ := run_output hx ha hw h ho
    generalize hb : fs o.path = b at *
  · refine ⟨?_, by rw [h2]; intro h; cases h⟩
    cases b with
    | none => rfl
    | some s =>
      cases hpol : o.policy with
      | keep => rw [em_keep hpol] at he; cases he
      | refresh => rw [em_refresh hpol] at he; cases he
      | merge => rw [em_merge hpol] at he; split at he <;> cases he
  · cases b with
    | none => simp only [ExpectedMark] at he; cases he
    | some s' =>
      refine ⟨s', rfl, ?_⟩
      cases hpol : o.policy with
      | keep =>
        unfold wanted at h1
        rw [hpol] at h1
        simp only [Option.some.injEq] at h1
        rw [h2, h1]
      | refresh => rw [em_refresh hpol] at he; cases he
      | merge => exact absurd ((pol o ho).2 hpol) hp
  · cases b with
    | none => simp only [ExpectedMark] at he; cases he
    | some s' =>
      cases hpol : o.policy with
      | keep => rw [em_keep hpol] at he; cases he
      | refresh =>
        obtain ⟨q1, q2⟩ := (pol o ho).1 hpol
        refine ⟨q1, (fun h => by cases h), s, ?_, h2⟩
        rw [← q2, ← h1]
        obtain ⟨_, _, _⟩ := o; simp only at hpol; subst hpol; rfl
      | merge => rw [em_merge hpol] at he; split at he <;> cases he
  · cases b with
    | none => simp only [ExpectedMark] at he; cases he
    | some s' =>
      cases hpol : o.policy with
      | keep => rw [em_keep hpol] at he; cases he
      | refresh => rw [em_refresh hpol] at he; cases he
      | merge => exact ⟨(pol o ho).2 hpol, fun h => by cases h⟩

/-- **C71**, the transport file: it is reported under the lower-cased service name but written under the name of the .proto
file, so the message names the written file exactly when the two agree. -/
theorem C71_transport_path (e : Env) (pb : FS) (protoBase : Str) :
    (transportReport e pb).1 = toLower e.name ++ ".pb.baron.go".toList ∧
    ((transportReport e pb).1 = baronFile protoBase ↔ toLower e.name = trimSuffix protoBase (ext protoBase)) ∧
    ((transportReport e pb).2 = .first ↔ pb (toLower e.name ++ ".pb.baron.go".toList) = none) ∧
    ((transportReport e pb).2 = .override ↔ pb (toLower e.name ++ ".pb.baron.go".toList) ≠ none) := by
  have h1 : reportedTransport e.name = toLower e.name ++ ".pb.baron.go".toList := by
    unfold reportedTransport
    rw [actual_baron]; rfl
  have h2 : (transportReport e pb).1 = toLower e.name ++ ".pb.baron.go".toList := h1
  refine ⟨h2, ?_, ?_⟩
  · rw [h2, baronFile]
    exact ⟨fun h => List.append_cancel_right h, fun h => by rw [h]⟩
  · have h3 : (transportReport e pb).2 = if (pb (toLower e.name ++ ".pb.baron.go".toList)).isSome then .override else .first := by
      show responseInfo none _ = _
      rw [h1]; rfl
    rw [h3]
    generalize pb _ = z
    cases z <;> simp

/-- Service `Echo` in echo_service.proto: the message says echo.pb.baron.go, the file is echo_service.pb.baron.go. -/
example : (transportReport (exEnv false) (fun _ => none)).1 = "echo.pb.baron.go".toList ∧
    baronFile "echo_service.proto".toList = "echo_service.pb.baron.go".toList := by
  refine ⟨?_, ?_⟩ <;> decide +kernel

end Baron.Gen

namespace Baron.Service

theorem retyped_unique {n : Str} {t a b : Ty} (ha : Retyped n t a) (hb : Retyped n t b) : a = b := by
  cases ha <;> cases hb <;> first | rfl | (rename_i h1 h2; first | exact absurd rfl (h1 _ _) | exact absurd rfl (h2 _ _))

theorem adapted_unique {r : Rpc} {f a b : Func} (ha : AdaptedTo r f a) (hb : AdaptedTo r f b) : a = b := by
  obtain ⟨a1, a2, a3, a4, a5, a6, a7⟩ := ha
  obtain ⟨b1, b2, b3, b4, b5, b6, b7⟩ := hb
  have hp : a.params = b.params := by
    by_cases h : arity f.params = 2
    · obtain ⟨x, y, t, e1, e2, e3⟩ := a5 h
      obtain ⟨x', y', t', e1', e2', e3'⟩ := b5 h
      rw [e1] at e1'
      simp only [List.cons.injEq, and_true] at e1'
      obtain ⟨rfl, rfl⟩ := e1'
      rw [e2, e2', retyped_unique e3 e3']
    · rw [a4 h, b4 h]
  have hr : a.results = b.results := by
    by_cases h : arity f.results = 2
    · obtain ⟨x, y, t, e1, e2, e3⟩ := a7 h
      obtain ⟨x', y', t', e1', e2', e3'⟩ := b7 h
      rw [e1] at e1'
      simp only [List.cons.injEq] at e1'
      obtain ⟨rfl, rfl⟩ := e1'
      rw [e2, e2', retyped_unique e3 e3']
    · rw [a6 h, b6 h]
  cases a; cases b
  simp only at *
  subst hp hr
  rw [a1, a2, a3, b1, b2, b3]

theorem prune_length (exp : Str → Bool) (svc : Str) : ∀ (ds : List Decl) (m : List Rpc) (kept : List Decl) (left : List Rpc),
    pruneDecls exp svc m ds = some (kept, left) → kept.length ≤ ds.length := by
  intro ds m
  fun_induction pruneDecls exp svc m ds <;> intro kept left h
  all_goals simp_all
  all_goals grind

/-- When nothing changes. -/
theorem prune_same (exp : Str → Bool) (svc : Str) : ∀ (ds : List Decl) (m : List Rpc) (kept : List Decl) (left : List Rpc),
    IdentsOK svc ds → NoDuplicateMethods svc ds → (m.map (·.name)).Nodup → pruneDecls exp svc m ds = some (kept, left) →
    (kept = ds ↔ UpToDate exp svc m ds) := by
  intro ds
  induction ds with
  | nil =>
    intro m kept left _ _ _ h
    simp [pruneDecls] at h
    rw [h.1]; simp [UpToDate]
  | cons d ds ih =>
    intro m kept left hid hdup hnd h
    have hdup' : NoDuplicateMethods svc ds := (List.pairwise_cons.1 hdup).2
    cases hu : UserDecl exp d with
    | true =>
      obtain ⟨kept', rfl, h'⟩ := prune_user hu h
      rw [List.cons.injEq, ih m kept' left (idents_tail hid) hdup' hnd h']
      simp only [UpToDate, List.mem_cons, forall_eq_or_imp, hu, true_or, true_and]
    | false =>
      cases d with
      | other t => simp [UserDecl] at hu
      | func g =>
        rcases prune_func hu hid.1 (fun s r => hid.2 g (by simp) s r) h with ⟨hno, h'⟩ | ⟨hy, r', g', kept', hg', hp, rfl, h'⟩
        · have hl := prune_length exp svc _ _ _ _ h'
          constructor
          · intro he; rw [he] at hl; simp at hl; omega
          · intro hup
            rcases hup (.func g) (by simp) with h1 | ⟨f, r, h1, h2, h3, h4⟩
            · rw [hu] at h1; cases h1
            · cases h1
              have := impl_name h3
              exact absurd ⟨List.mem_map.2 ⟨r, h2, this.symm⟩, by rw [this]; exact h3⟩ hno
        · have hr' := mapGet_name hg'
          have hhead : Decl.func (updateResults g' r') = .func g ↔
              ∃ f r, Decl.func g = .func f ∧ r ∈ m ∧ Implements svc r.name (.func g) = true ∧ AdaptedTo r f f := by
            constructor
            · intro he
              simp only [Decl.func.injEq] at he
              refine ⟨g, r', rfl, hr'.1, ?_, ?_⟩
              · rw [hr'.2]; exact hy.2
              · have := adapted hp; rw [he] at this; exact this
            · rintro ⟨f, r, h1, h2, h3, h4⟩
              cases h1
              have hrr : r = r' := by
                have := mapGet_of_mem hnd h2
                rw [← impl_name h3, hg'] at this
                exact (Option.some.inj this).symm
              subst hrr
              rw [adapted_unique (adapted hp) h4]
          have htail : UpToDate exp svc (mapDelete m g.name) ds ↔ UpToDate exp svc m ds := by
            unfold UpToDate
            refine forall_congr' fun d => imp_congr_right fun hd => or_congr_right ?_
            constructor
            · rintro ⟨f, r, h1, h2, h3⟩
              exact ⟨f, r, h1, (List.mem_filter.1 h2).1, h3⟩
            · rintro ⟨f, r, h1, h2, h3, h4⟩
              refine ⟨f, r, h1, List.mem_filter.2 ⟨h2, ?_⟩, h3, h4⟩
              simp only [ne_eq, decide_not, Bool.not_eq_eq_eq_not, Bool.not_true, decide_eq_false_iff_not]
              intro hc
              have := (List.pairwise_cons.1 hdup).1 d hd r.name (by rw [hc]; exact hy.2)
              rw [h3] at this; cases this
          rw [List.cons.injEq, ih _ kept' left (idents_tail hid) hdup' (mapDelete_nodup _ hnd) h', hhead, htail]
          simp only [UpToDate, List.mem_cons, forall_eq_or_imp, hu, Bool.false_eq_true, false_or]

/-- **C71**, when service.go is reported as modified: exactly when a method is appended, that is when there is an rpc without
a method in the previous file, or an rpc whose name the generator leaves alone. -/
theorem C71_modified_iff (exp : Str → Bool) (svc : Str) (order : List Rpc → List Rpc) (ms : List Rpc)
    (prev out : List Decl) (hid : IdentsOK svc prev) (h : render exp svc order ms (some prev) = some out) :
    isModified exp svc ms prev = true ↔ ∃ r ∈ ms, Appended exp svc prev r := by
  rw [render] at h
  cases hp : pruneDecls exp svc (newMethodMap ms) prev with
  | none => rw [hp] at h; cases h
  | some x =>
    obtain ⟨kept, left⟩ := x
    rw [isModified, hp]
    simp only [Bool.not_eq_true', List.isEmpty_eq_false_iff]
    constructor
    · intro hl
      obtain ⟨r, hr⟩ := List.exists_mem_of_ne_nil left hl
      have hsub : r ∈ newMethodMap ms := (prune_sub exp svc prev _ kept left hid hp).subset hr
      refine ⟨r, map_sub ms r hsub, ?_⟩
      by_cases hla : LeftAlone exp r.name
      · exact Or.inl hla
      · refine Or.inr ?_
        have hla' : exp r.name = true ∧ r.name ≠ "NewService".toList := by
          simp only [LeftAlone, not_or, Bool.not_eq_false] at hla; exact hla
        obtain ⟨hc, -, -⟩ := prune_count exp svc r.name hla'.1 hla'.2 prev _ kept left hid (map_nodup ms) hp
        rw [count_one (map_nodup ms) (List.mem_map.2 ⟨r, hsub, rfl⟩)] at hc
        have h1 : 0 < (left.map (·.name)).count r.name := List.count_pos_iff.2 (List.mem_map.2 ⟨r, hr, rfl⟩)
        have h0 : kept.countP (Implements svc r.name) = 0 := by omega
        rw [List.countP_eq_zero] at h0
        cases hf : prev.find? (Implements svc r.name) with
        | none => intro d hd; simpa using List.find?_eq_none.1 hf d hd
        | some d =>
          obtain ⟨hi, pre, post, he, hpre⟩ := List.find?_eq_some_iff_append.1 hf
          cases d with
          | other t => simp [Implements] at hi
          | func f =>
            obtain ⟨f', hf', ha⟩ := (prune_first exp svc r hla prev _ kept left hid hp
              (mapGet_of_mem (map_nodup ms) hsub)).2 pre f post he (fun d hd => by simpa using hpre d hd) hi
            refine absurd ?_ (h0 _ hf')
            rw [implements_congr ha.1 ha.2.1]; exact hi
    · rintro ⟨r, hr, ha⟩ hl
      have hn : r.name ∈ (newMethodMap ms).map (·.name) := (map_names ms r.name).2 (List.mem_map.2 ⟨r, hr, rfl⟩)
      by_cases hla : LeftAlone exp r.name
      · have := (prune_count_left exp svc r.name hla prev _ kept left hid hp).2
        rw [hl, count_one (map_nodup ms) hn] at this
        simp at this
      · obtain ⟨r', hr', he⟩ := List.mem_map.1 hn
        have := (prune_first exp svc r' (by rw [he]; exact hla) prev _ kept left hid hp
          (mapGet_of_mem (map_nodup ms) hr')).1 (by rw [he]; exact ha.resolve_left hla)
        rw [hl] at this; cases this

/-- **C71**, `>>` is never said of an unchanged file. -/
theorem C71_modified_differs (exp : Str → Bool) (svc : Str) (order : List Rpc → List Rpc)
    (horder : ∀ l, (order l).Perm l) (ms : List Rpc) (prev out : List Decl) (hid : IdentsOK svc prev)
    (h : render exp svc order ms (some prev) = some out) (hm : isModified exp svc ms prev = true) : out ≠ prev := by
  obtain ⟨r, hr, ha⟩ := (C71_modified_iff exp svc order ms prev out hid h).1 hm
  have hn : r.name ∈ ms.map (·.name) := List.mem_map.2 ⟨r, hr, rfl⟩
  obtain ⟨c1, c2⟩ := C30_count exp svc order horder ms prev out hid h r.name
  rw [if_pos hn] at c1 c2
  rintro rfl
  by_cases hla : LeftAlone exp r.name
  · have := c2 hla; omega
  · have := c1 hla
    rw [List.countP_eq_zero.2 (fun d hd => by simpa using ha.resolve_left hla d hd)] at this
    cases this

/-- **C71**, when `=>` is true of service.go: the file really is unchanged exactly when it was up to date, so removed methods
and adapted message names go unreported. -/
theorem C71_same_iff (exp : Str → Bool) (svc : Str) (order : List Rpc → List Rpc)
    (horder : ∀ l, (order l).Perm l) (ms : List Rpc) (hms : (ms.map (·.name)).Nodup) (prev out : List Decl)
    (hid : IdentsOK svc prev) (hdup : NoDuplicateMethods svc prev)
    (h : render exp svc order ms (some prev) = some out) (hm : isModified exp svc ms prev = false) :
    out = prev ↔ UpToDate exp svc ms prev := by
  rw [render, map_eq ms hms] at h
  rw [isModified, map_eq ms hms] at hm
  cases hp : pruneDecls exp svc ms prev with
  | none => rw [hp] at h; cases h
  | some x =>
    obtain ⟨kept, left⟩ := x
    rw [hp] at h hm
    simp only [Bool.not_eq_false', List.isEmpty_iff, Option.some.injEq] at h hm
    subst hm
    rw [(horder []).eq_nil, List.map_nil, List.append_nil] at h
    subst h
    exact prune_same exp svc prev ms kept [] hid hdup hms hp

/-- The demo file of C29 with both rpcs implemented: reported as unchanged although an outdated request type was replaced
and a method and an exported function were removed. -/
theorem C71_same_witness :
    let prev := demo ++ [stub "foo".toList ⟨"Put".toList, "PutRequest".toList, "PutReply".toList⟩]
    isModified upperFirst "foo".toList demoRpcs prev = false ∧
    prev.any (Implements "foo".toList "Gone".toList) = true ∧
    (render upperFirst "foo".toList id demoRpcs (some prev)).map (·.any (Implements "foo".toList "Gone".toList)) =
      some false := by
  refine ⟨?_, ?_, ?_⟩ <;> decide +kernel

/-- The demo file itself lacks one rpc and is reported as modified. -/
example : isModified upperFirst "foo".toList demoRpcs demo = true := by decide +kernel

def fGet : Func := match stub "foo".toList ⟨"Get".toList, "GetRequest".toList, "GetReply".toList⟩ with
  | .func f => f
  | _ => ⟨none, [], [], [], []⟩

def fPut : Func := match stub "foo".toList ⟨"Put".toList, "PutRequest".toList, "PutReply".toList⟩ with
  | .func f => f
  | _ => ⟨none, [], [], [], []⟩

/-- A file that is up to date: the output of the first generation, for rpcs with Go names. -/
example : UpToDate upperFirst "foo".toList demoRpcs (freshFile "foo".toList demoRpcs) ∧
    isModified upperFirst "foo".toList demoRpcs (freshFile "foo".toList demoRpcs) = false ∧
    NoDuplicateMethods "foo".toList (freshFile "foo".toList demoRpcs) ∧
    IdentsOK "foo".toList (freshFile "foo".toList demoRpcs) := by
  refine ⟨?_, by decide +kernel, ?_, fresh_idents (by decide +kernel) _⟩
  · intro d hd
    simp only [freshFile, demoRpcs, List.map_cons, List.map_nil, List.mem_cons, List.not_mem_nil, or_false] at hd
    rcases hd with rfl | rfl | rfl | rfl | rfl
    · exact Or.inl (by decide +kernel)
    · exact Or.inl (by decide +kernel)
    · exact Or.inl (by decide +kernel)
    · refine Or.inr ⟨fGet, ⟨"Get".toList, "GetRequest".toList, "GetReply".toList⟩, rfl, by decide +kernel, by decide +kernel, ?_⟩
      have := adapted (r := ⟨"Get".toList, "GetRequest".toList, "GetReply".toList⟩) (f := fGet) (f' := fGet) (by decide +kernel)
      rwa [show updateResults fGet ⟨"Get".toList, "GetRequest".toList, "GetReply".toList⟩ = fGet by decide +kernel] at this
    · refine Or.inr ⟨fPut, ⟨"Put".toList, "PutRequest".toList, "PutReply".toList⟩, rfl, by decide +kernel, by decide +kernel, ?_⟩
      have := adapted (r := ⟨"Put".toList, "PutRequest".toList, "PutReply".toList⟩) (f := fPut) (f' := fPut) (by decide +kernel)
      rwa [show updateResults fPut ⟨"Put".toList, "PutRequest".toList, "PutReply".toList⟩ = fPut by decide +kernel] at this
  · rw [NoDuplicateMethods]
    simp only [freshFile, demoRpcs, List.map_cons, List.map_nil, List.pairwise_cons, List.mem_cons, List.not_mem_nil,
      or_false, forall_eq_or_imp, forall_eq, stub]
    simp [Implements]

end Baron.Service
