import Verif.Proofs.Render
import Verif.Props.Command

/-!
# C84 Every template can be executed on every definition
-/

namespace Baron.TT

open Baron.Svcdef Baron.Gen Baron.Cli Baron.New Baron.Text
open Baron.Parser.Grammar (ASvc)

/-- The templates that become files. -/
def fileTemplates : List Str := [
  "baron/NAME.pb.baron.go.tmpl".toList, "cmd/NAME/main.go.tmpl".toList, "cmd/NAME-client/main.go.tmpl".toList,
  "server/endpoints.go.tmpl".toList, "server/interrupt.go.tmpl".toList, "server/server.go.tmpl".toList,
  "server/wrapper.go.tmpl".toList, "service/service.go.tmpl".toList, "service/wrapper.go.tmpl".toList]

theorem render_eq {fmt : Str → Str} {pkg : Str} {s : Service} {c : Config} {n src : Str} (hn : HTTP.look assets n = some src)
    {d : Val} (hd : newData fmt pkg s c = some d) : render fmt pkg s c n = apply src d := by
  unfold render
  rw [hn, hd]

/-- **C84** Whatever gofmt does, whatever the definition's package name, its service (its rpcs, requests, bindings, fields and oneofs) and
the configuration (import paths, version, transport): each of the nine templates that become files is executed without an error,
and nothing panics on the way. -/
theorem C84_render (fmt : Str → Str) (pkg : Str) (s : Service) (c : Config) (n : Str) (hn : n ∈ fileTemplates) :
    ∃ txt, render fmt pkg s c n = some txt := by
  obtain ⟨d, hd, hhas⟩ := data_some fmt pkg s c
  have go : ∀ {m src}, HTTP.look assets m = some src → checkSrc src dataTy = true → ∃ txt, render fmt pkg s c m = some txt := by
    intro m src hl hc
    rw [render_eq hl hd]
    exact apply_has hc hhas
  unfold fileTemplates at hn
  simp only [List.mem_cons, List.not_mem_nil, or_false] at hn
  rcases hn with rfl | rfl | rfl | rfl | rfl | rfl | rfl | rfl | rfl
  · exact go rfl check_baron
  · exact go rfl check_cmdServer
  · exact go rfl check_cmdClient
  · exact go rfl check_endpoints
  · exact go rfl check_interrupt
  · exact go rfl check_server
  · exact go rfl check_wrapper
  · exact go rfl check_service
  · exact go rfl check_serviceWrapper

/-- **C84** The methods added to an existing service.go can always be rendered, whatever rpcs they are. -/
theorem C84_methods (name : Str) (ms : List ServiceMethod) : ∃ txt, renderMethods name ms = some txt := by
  refine apply_has check_serviceMethods ?_
  fld; exact has_str _
  fld; exact has_list fun m _ => has_method m
  exact has_struct _

theorem not_methods {n : Str} (hn : n ∈ assetNames) (h : n ≠ "service/service_methods.go.tmpl".toList) : n ∈ fileTemplates := by
  have : ∀ n ∈ assetNames, n ≠ "service/service_methods.go.tmpl".toList → n ∈ fileTemplates := by decide +kernel
  exact this n hn h

/-- **C84** A run on a complete project in a directory without leftovers, with the templates being what they are: it ends with status 0 if
there is no service.go yet; and the transport file and the files of the service are there, formatted, with the previous text where
there is one that is kept, and with the text of their template otherwise. -/
theorem C84_run {sys : Sys} (hs : Sane sys) {svcOut : Str} {args protos : List Str} {w : World} {files : List (Str × Str)}
    {fs : List GoFile} {t : GoTypeSpec} {docs : List (Option ASvc)} (h0 : args ≠ [])
    (h1 : cleanProtofilePath sys.cwd args = some protos) (hp : Project sys protos files fs t docs) (hk : Known fs t docs)
    (hl : NoLeftover w.pb files protos) (hok : sys.loadPB = true ∧ sys.mkdir = true ∧ sys.loadSvc = true)
    (ht : '/' ∉ t.name) (hnew : w.svc "service/service.go".toList = none)
    {fmt : Str → Str} {old : Service → Str → Option Str} {client : Bool} {c : Config}
    (henv : ∀ sd s, sd.service = some s → '/' ∉ s.name → sys.env sd = environment fmt (old s) client sd.pkgName s c) :
    ∃ w' sd s, command sys svcOut args w = (.success, w') ∧ sd.service = some s ∧ s.name ++ "Server".toList = t.name ∧
      All2 (MethodOf fs docs sd) (exportedMembers t) s.methods ∧
      (∃ txt, render fmt sd.pkgName s c "baron/NAME.pb.baron.go.tmpl".toList = some txt ∧
        w'.pb (baronFile (base (protos.headD []))) = some (fmt txt)) ∧
      ∀ o ∈ outputs (toLower s.name) client,
        ∃ txt, w'.svc o.path = some (fmt txt) ∧
          if o.policy = .keep ∧ (w.svc o.path).isSome then w.svc o.path = some txt
          else render fmt sd.pkgName s c o.template = some txt := by
  obtain ⟨w', sd, s, k1, k2, k3, k4, ⟨txt, k5, k6⟩, k7⟩ := C62_run hs (svcOut := svcOut) h0 h1 hp hk hl hok ht
    (fun sd s h h' => by rw [henv sd s h h']; rfl)
    (fun sd s h h' n hn hne hnone => by
      rw [henv sd s h h'] at hnone
      obtain ⟨txt, ht⟩ := C84_render fmt sd.pkgName s c n (not_methods hn hne)
      exact absurd (ht.symm.trans hnone) nofun)
    (fun sd s h h' hnone => by
      rw [henv sd s h h', hnew] at hnone
      obtain ⟨txt, ht⟩ := C84_render fmt sd.pkgName s c servicePath
        (List.contains_iff_mem.mp (by decide +kernel))
      exact absurd (ht.symm.trans hnone) nofun)
  have he := henv sd s k2 (fun h => ht (by rw [← k3]; exact List.mem_append_left _ h))
  rw [he] at k5 k6 k7
  refine ⟨w', sd, s, k1, k2, k3, k4, ⟨txt, k5, k6⟩, fun o ho => ?_⟩
  obtain ⟨txt, l1, l2⟩ := k7 o ho
  refine ⟨txt, l2, ?_⟩
  by_cases hc : o.policy = .keep ∧ (w.svc o.path).isSome
  · rw [if_pos hc]
    obtain ⟨p, hp⟩ := Option.isSome_iff_exists.mp hc.2
    unfold wanted at l1
    rw [hc.1, hp] at l1
    rw [hp]; exact l1
  · rw [if_neg hc]
    unfold wanted at l1
    cases hpol : o.policy with
    | keep =>
      cases hw : w.svc o.path with
      | none => rw [hpol, hw] at l1; exact l1
      | some p => exact absurd ⟨hpol, by rw [hw]; rfl⟩ hc
    | refresh => rw [hpol] at l1; exact l1
    | merge =>
      rw [hpol] at l1
      have hm : ∀ o ∈ outputs (toLower s.name) client, o.policy = .merge →
          o.path = "service/service.go".toList ∧ o.template = servicePath := by
        intro o ho hm
        unfold outputs at ho
        rcases List.mem_append.mp ho with ho | ho
        · simp only [List.mem_cons, List.not_mem_nil, or_false] at ho
          rcases ho with rfl | rfl | rfl | rfl | rfl | rfl | rfl
          · exact ⟨rfl, rfl⟩
          all_goals cases hm
        · split at ho
          · rw [List.mem_singleton] at ho
            subst ho
            cases hm
          · cases ho
      obtain ⟨m1, m2⟩ := hm o ho hpol
      rw [m1, hnew] at l1
      rw [m2]
      exact l1

namespace Example

open Baron.Cli.Example

def conf : Config := ⟨"x/s-service".toList, "x/pb".toList, "v1".toList, "today".toList, "grpc".toList⟩

/-- The example of C62, with the real templates. -/
def sys : Sys := { Cli.Example.sys id with
  env := fun sd => match sd.service with
    | none => exEnv false
    | some s => if '/' ∈ s.name then exEnv false else environment id (fun _ => none) true sd.pkgName s conf }

theorem env_eq {sd : Svcdef} {s : Service} (h : sd.service = some s) (h' : '/' ∉ s.name) :
    sys.env sd = environment id (fun _ => none) true sd.pkgName s conf := by
  unfold sys
  simp only [h]
  rw [if_neg h']

theorem sane : Sane sys where
  assets := Cli.Example.sane.assets
  worder := Cli.Example.sane.worder
  name := fun sd => by
    cases h : sd.service with
    | none => unfold sys; simp only [h]; decide
    | some s =>
      by_cases h' : '/' ∈ s.name
      · unfold sys; simp only [h]; rw [if_pos h']; decide
      · rw [env_eq h h']; exact toLower_slash h'

theorem project : Project sys protos files [goMessages, goGrpc, goEmpty] New.Example.iface [some Text.Example.svc, none] :=
  { Cli.Example.project with }

/-- All hypotheses of `C84_run` are met by this project in an empty directory. -/
example : ∃ w', command sys "./".toList args ⟨fun _ => none, fun _ => none⟩ = (.success, w') := by
  obtain ⟨w', -, -, h, -⟩ := C84_run (svcOut := "./".toList) (w := ⟨fun _ => none, fun _ => none⟩) sane
    (by decide) args_ok project known (fun _ _ => .inl rfl) ⟨rfl, rfl, rfl⟩ (by decide +kernel) rfl
    (old := fun _ _ => none) fun sd s h h' => env_eq h h'
  exact ⟨w', h⟩

end Example

end Baron.TT
