import Verif.Props.Command

/-!
# C70: services with streaming rpcs are refused
-/

namespace Baron.New

open Baron.Scanner Baron.Lexer Baron.Svcdef Baron.Consolidate Baron.Strs

/-- The errors for methods that are not unary. -/
def Refusal (e : NErr) : Prop := e = .notSupported ∨ e = .notStar

/-- A result, or one of these errors. -/
def ReadOrRefused {α : Type} (r : Except NErr α) : Prop := (∃ a, r = .ok a) ∨ ∃ e, Refusal e ∧ r = .error e

theorem makeFieldType_notStar {t : GoType} (h : ∀ x, t ≠ .star x) : makeFieldType t = .error .notStar := by
  cases t with
  | star x => exact absurd rfl (h x)
  | _ => rfl

theorem newServiceMethod_streaming {m : GoMember} (n : Str) (h : Streaming m) :
    ∃ e, Refusal e ∧ newServiceMethod n m.func = .error e := by
  rcases h with ⟨s, out, h⟩ | ⟨rq, s, out, more, h, hs⟩
  · rw [h]; exact ⟨_, .inl rfl, rfl⟩
  · rw [h]
    unfold newServiceMethod
    simp only
    rw [makeFieldType_notStar hs]
    exact ⟨_, .inr rfl, rfl⟩

theorem newMethods_read (ms : List GoMember)
    (h : ∀ m ∈ ms, m.names ≠ [] ∧ (m.names.head?.any exported = true → Unary m ∨ Streaming m)) : ReadOrRefused (newMethods ms) := by
  induction ms with
  | nil => exact .inl ⟨[], rfl⟩
  | cons m ms ih =>
    obtain ⟨h1, h2⟩ := h m (by simp)
    have ih := ih fun z hz => h z (List.mem_cons_of_mem _ hz)
    unfold newMethods
    cases hn : m.names with
    | nil => exact absurd hn h1
    | cons n ns =>
      simp only
      split
      · exact ih
      · rename_i he
        rcases h2 (by rw [hn]; simpa using he) with ⟨ctx, rq, more, rs, more', a, b, hf, ha, hb⟩ | hst
        · obtain ⟨ra, hra⟩ := makeFieldType_total ha
          obtain ⟨rb, hrb⟩ := makeFieldType_total hb
          rw [hf]
          unfold newServiceMethod
          simp only
          rw [hra, hrb]
          rcases ih with ⟨l, hl⟩ | ⟨e, h1, h2⟩
          · rw [hl]; exact .inl ⟨_, rfl⟩
          · rw [h2]; exact .inr ⟨e, h1, rfl⟩
        · obtain ⟨e, h1, h2⟩ := newServiceMethod_streaming n hst
          rw [h2]
          exact .inr ⟨e, h1, rfl⟩

theorem services_read (ts : List GoTypeSpec) (s : Option Service)
    (h : ∀ t ∈ ts, IsServer t = true → ∀ m ∈ members t, m.names ≠ [] ∧
      (m.names.head?.any exported = true → Unary m ∨ Streaming m)) : ReadOrRefused (services ts s) := by
  induction ts generalizing s with
  | nil => exact .inl ⟨s, rfl⟩
  | cons t ts ih =>
    unfold services
    rw [serverIface_eq]
    have ih := fun s => ih s fun z hz => h z (List.mem_cons_of_mem _ hz)
    by_cases ht : IsServer t = true
    · rw [if_pos ht]
      simp only
      unfold newService
      rcases newMethods_read (members t) (h t (by simp) ht) with ⟨rs, hrs⟩ | ⟨e, h1, h2⟩
      · rw [hrs]; exact ih _
      · rw [h2]; exact .inr ⟨e, h1, rfl⟩
    · rw [if_neg ht]
      exact ih s

theorem newFiles_read (unq) (g : Oneofs) (acc : Found) (fs : List GoFile)
    (h : ∀ f ∈ fs, ProtocFile unq (fun m => Unary m ∨ Streaming m) f) : ReadOrRefused (newFiles unq g acc (fs.map some)) := by
  induction fs generalizing g acc with
  | nil => exact .inl ⟨_, rfl⟩
  | cons f fs ih =>
    rw [List.map_cons]
    unfold newFiles
    have hf := h f (by simp)
    rcases services_read f.types acc.service hf.service with ⟨s, hs⟩ | ⟨e, h1, h2⟩
    · obtain ⟨r, hr⟩ := newFile_rest unq g acc f hf hs
      rw [hr]
      exact ih _ _ fun z hz => h z (List.mem_cons_of_mem _ hz)
    · have : newFile unq g acc f = .error e := by
        unfold newFile
        rw [h2]
        rfl
      rw [this]
      exact .inr ⟨e, h1, rfl⟩

theorem newMethods_unary {ms : List GoMember} {rs : List ServiceMethod} (h : newMethods ms = .ok rs) :
    ∀ m ∈ ms, m.names ≠ [] ∧ (m.names.head?.any exported = true → Unary m) := by
  induction ms generalizing rs with
  | nil => intro m hm; cases hm
  | cons m ms ih =>
    unfold newMethods at h
    cases hn : m.names with
    | nil => rw [hn] at h; cases h
    | cons n ns =>
      rw [hn] at h
      simp only at h
      split at h
      · rename_i he
        intro x hx
        rcases List.mem_cons.mp hx with rfl | hx
        · refine ⟨by rw [hn]; simp, fun hx => ?_⟩
          rw [hn] at hx
          simp only [List.head?_cons, Option.any_some] at hx
          rw [hx] at he
          cases he
        · exact ih h x hx
      · cases h1 : newServiceMethod n m.func with
        | error e => rw [h1] at h; cases h
        | ok y =>
          cases h2 : newMethods ms with
          | error e => rw [h1, h2] at h; cases h
          | ok xs =>
            intro x hx
            rcases List.mem_cons.mp hx with rfl | hx
            · refine ⟨by rw [hn]; simp, fun _ => ?_⟩
              obtain ⟨-, -, ctx, rq, more, rs, more', f1, f2, f3⟩ := newServiceMethod_ok h1
              exact ⟨ctx, rq, more, rs, more', _, _, f1, f2, f3⟩
            · exact ih h2 x hx

theorem services_unary {ts : List GoTypeSpec} {s s' : Option Service} (h : services ts s = .ok s') :
    ∀ t ∈ ts, IsServer t = true → ∀ m ∈ members t, m.names ≠ [] ∧ (m.names.head?.any exported = true → Unary m) := by
  induction ts generalizing s with
  | nil => intro t ht; cases ht
  | cons t ts ih =>
    unfold services at h
    rw [serverIface_eq] at h
    by_cases ht : IsServer t = true
    · rw [if_pos ht] at h
      simp only at h
      unfold newService at h
      cases hm : newMethods (members t) with
      | error e => rw [hm] at h; cases h
      | ok rs =>
        rw [hm] at h
        intro t' ht' hs
        rcases List.mem_cons.mp ht' with rfl | ht'
        · exact newMethods_unary hm
        · exact ih h t' ht' hs
    · rw [if_neg ht] at h
      intro t' ht' hs
      rcases List.mem_cons.mp ht' with rfl | ht'
      · exact absurd hs ht
      · exact ih h t' ht' hs

theorem newFiles_unary {unq g acc} {fs : List GoFile} {r} (h : newFiles unq g acc (fs.map some) = .ok r) :
    ∀ f ∈ fs, ∀ t ∈ f.types, IsServer t = true → ∀ m ∈ members t, m.names ≠ [] ∧
      (m.names.head?.any exported = true → Unary m) := by
  induction fs generalizing g acc with
  | nil => intro f hf; cases hf
  | cons f fs ih =>
    rw [List.map_cons] at h
    unfold newFiles at h
    cases hf : newFile unq g acc f with
    | error e => rw [hf] at h; cases h
    | ok r1 =>
      rw [hf] at h
      simp only [bind, Except.bind] at h
      intro f' hf'
      rcases List.mem_cons.mp hf' with rfl | hf'
      · unfold newFile at hf
        cases hs : services f'.types acc.service with
        | error e => rw [hs] at hf; cases hf
        | ok s => exact services_unary hs
      · exact ih h f' hf'

/-- **C70** If `New` succeeds, every exported method of every service interface in the Go files is unary: it takes at least
two parameters, the second a pointer, and its first result is a pointer. -/
theorem C70_only_unary (U : Uni) (unq : Str → Option Str) (p : Process) (fs : List GoFile) (texts : List Str) {r}
    (h : newSvcdef U unq p (fs.map some) texts = .ok r) :
    ∀ f ∈ fs, ∀ t ∈ f.types, IsServer t = true → ∀ m ∈ members t, m.names.head?.any exported = true → Unary m := by
  unfold newSvcdef at h
  cases hd : newDefs unq p.oneofs (fs.map some) with
  | error e => rw [hd] at h; cases h
  | ok x =>
    obtain ⟨fs', r', he, hr, -⟩ := newDefs_ok hd
    obtain rfl := sameFiles he
    exact fun f hf t ht hs m hm => (newFiles_unary hr f hf t ht hs m hm).2

/-- **C70** Go files protoc writes for services among whose rpcs there are streaming ones: `New` returns an error about the
method (it does not panic), whatever the rest of the files and the .proto texts say. -/
theorem C70_streaming_refused (U : Uni) (unq : Str → Option Str) (p : Process) (fs : List GoFile) (texts : List Str)
    (hg : ∀ f ∈ fs, ProtocFile unq (fun m => Unary m ∨ Streaming m) f)
    (hs : ∃ f ∈ fs, ∃ t ∈ f.types, IsServer t = true ∧ ∃ m ∈ members t, m.names.head?.any exported = true ∧ Streaming m) :
    newSvcdef U unq p (fs.map some) texts = .error (.defs .notSupported) ∨
    newSvcdef U unq p (fs.map some) texts = .error (.defs .notStar) := by
  have hno : ∀ m, Streaming m → ¬ Unary m := by
    rintro m (⟨s, out, h⟩ | ⟨rq, s, out, more, h, hs⟩) ⟨ctx, rq', more', rs, more'', a, b, e, ha, -⟩
    · rw [h] at e; cases e
    · rw [h] at e
      simp only [Option.some.injEq, Prod.mk.injEq, List.cons.injEq] at e
      obtain ⟨⟨-, rfl, -⟩, -⟩ := e
      rcases ha with rfl | ⟨q, rfl⟩ <;> exact hs _ rfl
  obtain ⟨f, hf, t, ht, his, m, hm, hex, hst⟩ := hs
  unfold newSvcdef newDefs
  rcases newFiles_read unq p.oneofs ⟨[], [], [], none⟩ fs hg with ⟨r, hr⟩ | ⟨e, h1, h2⟩
  · exact absurd ((newFiles_unary hr f hf t ht his m hm).2 hex) (hno m hst)
  · rw [h2]
    rcases h1 with rfl | rfl
    · exact .inl rfl
    · exact .inr rfl

end Baron.New

namespace Baron.Cli

open Baron.Gen Baron.New Baron.Svcdef Baron.Text

/-- **C70** The command on such a project: it ends with status 0, and nothing is written but protoc's files. -/
theorem C70_command {sys : Sys} {svcOut : Str} {args protos : List Str} {w : World} {files : List (Str × Str)}
    {fs : List GoFile} {gos : List Str} (h0 : args ≠ []) (h1 : cleanProtofilePath sys.cwd args = some protos)
    (hpb : sys.loadPB = true) (hp : sys.protoc protos = some files)
    (ho : openFiles sys.order (writeAll (fun _ => none) files) (goNames (writeAll (fun _ => none) files) protos) = some gos)
    (hgo : gos.map sys.parseGo = fs.map some)
    (hg : ∀ f ∈ fs, ProtocFile sys.unq (fun m => Unary m ∨ Streaming m) f)
    (hs : ∃ f ∈ fs, ∃ t ∈ f.types, IsServer t = true ∧ ∃ m ∈ members t, m.names.head?.any exported = true ∧ Streaming m) :
    command sys svcOut args w = (.success, ⟨writeAll w.pb files, w.svc⟩) := by
  rw [command_eq h0 h1 hpb hp]
  have : fromPaths sys protos = .error .error := by
    unfold fromPaths define
    rw [hp]
    simp only
    rw [ho]
    cases openFiles sys.order sys.read protos with
    | none => rfl
    | some texts =>
      simp only
      rw [hgo]
      rcases C70_streaming_refused sys.uni sys.unq .fresh fs texts hg hs with h | h <;> rw [h] <;> rfl
  rw [this]

/-! ## The hypotheses are met -/

namespace Example

open Baron.New.Example Baron.Text.Example
open Baron.Parser (plainUnq)

/-- A service with a unary rpc `M` and rpcs `Up`, from whose client comes a stream, and `Down`, whose server answers with one. -/
def goStream : GoFile where
  pkg := "pb".toList
  types := [⟨"SServer".toList, .iface [
    ⟨["M".toList], some ([.sel (some "context".toList) "Context".toList, .star (.ident "A".toList)],
      some [.star (.ident "A".toList), .ident "error".toList])⟩,
    ⟨["Up".toList], some ([.ident "S_UpServer".toList], some [.ident "error".toList])⟩,
    ⟨["Down".toList], some ([.star (.ident "A".toList), .ident "S_DownServer".toList], some [.ident "error".toList])⟩]⟩]
  funcs := []

def sysS : Sys := { sys id with
  parseGo := fun s => if s = "A".toList then some goMessages else if s = "S".toList then some goStream else some goEmpty }

theorem goodS : ProtocFile plainUnq (fun m => Unary m ∨ Streaming m) goStream where
  fields := by
    intro t ht fs hs
    simp only [goStream, List.mem_singleton] at ht
    subst ht
    cases hs
  service := by
    intro t ht _ m hm
    simp only [goStream, List.mem_singleton] at ht
    subst ht
    simp only [members, List.mem_cons, List.not_mem_nil, or_false] at hm
    rcases hm with rfl | rfl | rfl
    · exact ⟨by decide, fun _ => .inl ⟨_, _, _, _, _, _, _, rfl, .inl rfl, .inl rfl⟩⟩
    · exact ⟨by decide, fun _ => .inr (.inl ⟨_, _, rfl⟩)⟩
    · exact ⟨by decide, fun _ => .inr (.inr ⟨_, _, _, _, rfl, fun t h => by cases h⟩)⟩
  markers := by intro fn h; cases h
  options := by intro t _ _ h; cases h

/-- All hypotheses of `C70_command` and `C70_streaming_refused` are met. -/
example (svcOut : Str) (w : World) : command sysS svcOut args w = (.success, ⟨writeAll w.pb files, w.svc⟩) := by
  refine C70_command (protos := protos) (fs := [goMessages, goStream, goEmpty]) (gos := ["A".toList, "S".toList, "B".toList])
    (by decide) args_ok rfl rfl (by decide +kernel) (by decide +kernel) ?_ ?_
  · intro f hf
    simp only [List.mem_cons, List.not_mem_nil, or_false] at hf
    have lift : ∀ {f}, GoodFile plainUnq f → ProtocFile plainUnq (fun m => Unary m ∨ Streaming m) f := fun h =>
      ⟨h.fields, fun t ht hs m hm => ⟨(h.service t ht hs m hm).1, fun hx => .inl ((h.service t ht hs m hm).2 hx)⟩, h.markers,
        h.options⟩
    rcases hf with rfl | rfl | rfl
    · exact lift (good_sub rfl fun t ht => List.mem_of_mem_take ht)
    · exact goodS
    · exact lift (good_sub rfl fun t ht => by cases ht)
  · exact ⟨goStream, .tail _ (.head _), _, List.mem_cons_self, by decide +kernel, _, .tail _ (.head _), by decide +kernel,
      .inl ⟨_, _, rfl⟩⟩

end Example

end Baron.Cli
