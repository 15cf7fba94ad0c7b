import Verif.Props.Command
import Verif.Model.FromString

/-!
# C83: definitions without a service
-/

namespace Baron.New

open Baron.Scanner Baron.Lexer Baron.Svcdef Baron.Consolidate Baron.Text Baron.Strs Baron.Parser.Grammar

/-- The definition of files without a service, before the annotations are read. -/
theorem defs_none {unq : Str → Option Str} (g : Oneofs) {fs : List GoFile} (hg : ∀ f ∈ fs, GoodFile unq f)
    (hn : (fs.flatMap GoFile.types).filter IsServer = []) :
    ∃ g' sd, newDefs unq g (fs.map some) = .ok (g', sd) ∧ sd.service = none ∧ methodNames sd = [] := by
  obtain ⟨⟨g', sd⟩, h⟩ := C58_accepted unq g fs hg
  have hserv := C37_service unq g g' fs sd h
  rw [hn] at hserv
  simp only [List.getLast?_nil] at hserv
  exact ⟨g', sd, h, hserv, by simp only [methodNames, hserv, Option.map_none, Option.getD_none]⟩

/-- **C83** Go files without a service and .proto texts in the supported grammar, none of whose rpcs has an http option: `New`
succeeds, and the definition has no service. -/
theorem C83_no_service (U : Uni) (unq : Str → Option Str) (p : Process) (hp : p.glob = .init) (fs : List GoFile)
    (hg : ∀ f ∈ fs, GoodFile unq f) (hn : (fs.flatMap GoFile.types).filter IsServer = []) (texts : List Str)
    (docs : List (Option ASvc)) (hw : All2 (Written U unq) texts docs) (ha : annotated docs = []) :
    ∃ p' sd, newSvcdef U unq p (fs.map some) texts = .ok (p', sd) ∧ p'.glob = .init ∧ sd.service = none := by
  obtain ⟨g', sd, h1, h2, h3⟩ := defs_none p.oneofs hg hn
  rw [← rpcs_names, List.map_eq_nil_iff] at ha
  refine ⟨⟨.init, g'⟩, addRpcs sd (rpcs docs), ?_, rfl, ?_⟩
  · unfold newSvcdef
    rw [h1]
    simp only [hp]
    rw [consolidateTexts_written hw sd (by unfold Distinct; rw [h3]; exact List.nodup_nil)
      (by rw [ha]; exact fun _ h => absurd h List.not_mem_nil)]
  · unfold addRpcs
    simp only [h2, Option.map_none]

/-- **C83** If some rpc has an http option, `New` fails, naming the first one. -/
theorem C83_rpc_without_service (U : Uni) (unq : Str → Option Str) (p : Process) (hp : p.glob = .init) (fs : List GoFile)
    (hg : ∀ f ∈ fs, GoodFile unq f) (hn : (fs.flatMap GoFile.types).filter IsServer = []) (texts : List Str)
    (docs : List (Option ASvc)) (hw : All2 (Written U unq) texts docs) (n : Str) (more : List Str)
    (ha : annotated docs = n :: more) :
    newSvcdef U unq p (fs.map some) texts = .error (.http (.noMethod n)) := by
  obtain ⟨g', sd, h1, h2, h3⟩ := defs_none p.oneofs hg hn
  rw [← rpcs_names, List.map_eq_cons_iff] at ha
  obtain ⟨r, rb, e1, rfl, -⟩ := ha
  unfold newSvcdef
  rw [h1]
  simp only [hp]
  rw [consolidateTexts_unknown hw sd (by unfold Distinct; rw [h3]; exact List.nodup_nil) [] rb r e1
    (fun _ h => absurd h List.not_mem_nil) (by rw [h3]; exact List.not_mem_nil)]

/-- **C83** `NewFromString` on a .proto text in the supported grammar: protoc-gen-go's file has the messages, the service is in
protoc-gen-go-grpc's, which is not read. Whatever service the text has, the definition that comes back has none; if one of its
rpcs has an http option there is no definition, but an error naming the first such rpc. -/
theorem C83_new_from_string (U : Uni) (unq : Str → Option Str) (protoc : Str → Option Written2) (p : Process)
    (hp : p.glob = .init) (text : Str) (s : ASvc) (hw : Written U unq text (some s)) (f : GoFile) (grpc : Option (Option GoFile))
    (hr : protoc text = some ⟨some f, grpc⟩) (hg : GoodFile unq f) (hn : f.types.filter IsServer = []) :
    (annotated [some s] = [] → ∃ p' sd, newFromString U unq protoc p text = .ok (p', sd) ∧ p'.glob = .init ∧
      sd.service = none) ∧
    ∀ n more, annotated [some s] = n :: more → newFromString U unq protoc p text = .error (.new (.http (.noMethod n))) := by
  have hg' : ∀ x ∈ [f], GoodFile unq x := by
    intro x hx
    rw [List.mem_singleton] at hx
    subst hx
    exact hg
  have hn' : (([f] : List GoFile).flatMap GoFile.types).filter IsServer = [] := by simpa using hn
  unfold newFromString
  rw [hr]
  constructor
  · intro ha
    obtain ⟨p', sd, h1, h2, h3⟩ := C83_no_service U unq p hp [f] hg' hn' [text] [some s] (.cons hw .nil) ha
    rw [List.map_singleton] at h1
    exact ⟨p', sd, by simp only [h1], h2, h3⟩
  · intro n more ha
    have h1 := C83_rpc_without_service U unq p hp [f] hg' hn' [text] [some s] (.cons hw .nil) n more ha
    rw [List.map_singleton] at h1
    simp only [h1]

namespace Example

open Baron.Parser (plainUnq)
open Baron.Text.Example

/-- What protoc-gen-go writes for the messages of the example of C57, without the service. -/
def goMessages : GoFile := { goFile with types := goFile.types.filter fun t => !IsServer t }

/-- All hypotheses of `C83_new_from_string` are met by the text of the example of C11: an error, although the text has a service
`S` with the rpc `M` that it names. -/
example (U : Uni) : newFromString U plainUnq (fun _ => some ⟨some goMessages, none⟩) .fresh
    ("message A { } // a service\nservice S {\n  // doc\n  rpc M(A) returns (A) {\n  " ++
      "option (google.api.http) = { get: \"/a\" }; }\n}\n").toList = .error (.new (.http (.noMethod "M".toList))) := by
  refine (C83_new_from_string U plainUnq (fun _ => some ⟨some goMessages, none⟩) .fresh rfl _ svc
    ⟨pre, hdr, body, post, file U, svc_wf, svc_tokens U⟩ goMessages none rfl ?_ (by decide +kernel)).2 "M".toList [] (by decide +kernel)
  have h := good
  have hsub : ∀ t ∈ goMessages.types, t ∈ goFile.types := fun t ht => (List.mem_filter.mp ht).1
  refine ⟨fun t ht => h.fields t (hsub t ht), fun t ht => h.service t (hsub t ht), ?_, ?_⟩
  · intro fn hfn
    exact absurd hfn (by rw [show goMessages.funcs = [] by decide +kernel]; exact List.not_mem_nil)
  · intro t ht he hx
    exact absurd hx (by rw [show wrappers goMessages = [] by decide +kernel]; exact List.not_mem_nil)

end Example

end Baron.New

namespace Baron.Cli

open Baron.Gen Baron.Start Baron.New Baron.Svcdef Baron.Scanner Baron.Lexer Baron.Consolidate Baron.Text Baron.Strs
  Baron.Parser.Grammar

/-- **C83** Running the command on .proto files without any service (or whose services protoc wrote nothing for) ends with status
0 and nothing but protoc's files written, whether or not some rpc has an http option, and whatever `_grpc.pb.go` files are left
over. -/
theorem C83_command {sys : Sys} {svcOut : Str} {args protos : List Str} {w : World} {files : List (Str × Str)}
    {fs : List GoFile} {docs : List (Option ASvc)} (h0 : args ≠ []) (h1 : cleanProtofilePath sys.cwd args = some protos)
    (hload : sys.loadPB = true) (hp : sys.protoc protos = some files)
    (hgos : ∃ gos, openFiles sys.order (writeAll (fun _ => none) files) (goNames (writeAll (fun _ => none) files) protos) =
      some gos ∧ gos.map sys.parseGo = fs.map some)
    (hg : ∀ f ∈ fs, GoodFile sys.unq f) (hn : (fs.flatMap GoFile.types).filter IsServer = [])
    (htexts : ∃ texts, openFiles sys.order sys.read protos = some texts ∧ All2 (Written sys.uni sys.unq) texts docs) :
    command sys svcOut args w = (.success, ⟨writeAll w.pb files, w.svc⟩) := by
  obtain ⟨gos, g1, g2⟩ := hgos
  obtain ⟨texts, t1, t2⟩ := htexts
  rw [command_eq h0 h1 hload hp]
  have : fromPaths sys protos = .error .error := by
    unfold fromPaths define
    rw [hp]
    simp only
    rw [g1, t1]
    simp only
    rw [g2]
    cases ha : annotated docs with
    | nil =>
      obtain ⟨p', sd, h, -, hs⟩ := C83_no_service sys.uni sys.unq .fresh rfl fs hg hn texts docs t2 ha
      rw [h]
      simp only [hs]
    | cons n more =>
      rw [C83_rpc_without_service sys.uni sys.unq .fresh rfl fs hg hn texts docs t2 n more ha]
      rfl
  rw [this]

namespace Example

open Baron.New.Example Baron.Text.Example
open Baron.Parser (plainUnq)

/-- `b.proto` of the example of C62, run on its own, meets the hypotheses of `C83_command`, even if `b_grpc.pb.go` with a service
is left over from former times. -/
example : command { sys id with protoc := fun _ => some [("b.pb.go".toList, "B".toList)] } [] ["b.proto".toList] ⟨leftover, fun _ => none⟩ =
    (.success, ⟨writeAll leftover [("b.pb.go".toList, "B".toList)], fun _ => none⟩) := by
  refine C83_command (fs := [goEmpty]) (docs := [none]) (protos := ["/w/b.proto".toList]) (by simp) (by decide +kernel) rfl rfl
    ⟨["B".toList], by decide +kernel, by decide +kernel⟩ ?_ rfl ⟨[other.flatten], by decide +kernel, .cons ?_ .nil⟩
  · intro f hf
    rw [List.mem_singleton] at hf
    subst hf
    exact good_sub rfl (fun t h => absurd h List.not_mem_nil)
  · exact ⟨other, laidA_sound asciiUni (by decide +kernel), rfl, by decide +kernel, by decide +kernel⟩

end Example

end Baron.Cli
