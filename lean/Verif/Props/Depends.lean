import Verif.Props.Render

/-!
# C85 What each generated file depends on
-/

namespace Baron.TT

open Baron.Svcdef Baron.Gen

/-! ## Shapes: what each template reads -/

def transportsTy : Ty := .choice [chars% "all", chars% "grpc", chars% "nats"]

def importTy : Ty := record [(chars% "ImportPath", .str)]

def importsTy : Ty := record [(chars% "ImportPath", .str), (chars% "PBImportPath", .str)]

def serviceWrapperTy : Ty := record [(chars% "PBImportPath", .str), (chars% "Service", record [(chars% "Name", .str)])]

def serverTy : Ty := record [(chars% "ImportPath", .str), (chars% "PBImportPath", .str),
  (chars% "Service", record [(chars% "Name", .str), (chars% "Methods", .list false (record [(chars% "Name", .str)]))]),
  (chars% "HTTPHelper", record [(chars% "Methods", .tested)]),
  (chars% "Version", .str), (chars% "VersionDate", .str), (chars% "Config", record [(chars% "Transport", transportsTy)])]

def serviceTy : Ty := record [(chars% "PBImportPath", .str),
  (chars% "Service", record [(chars% "Name", .str), (chars% "Methods", .list false methodTy)])]

def clientTy : Ty := record [(chars% "PBImportPath", .str),
  (chars% "Service", record [(chars% "Name", .str), (chars% "Methods", .list false (record [(chars% "Name", .str),
    (chars% "RequestType", record [(chars% "Name", .str)])]))]),
  (chars% "HTTPHelper", record [(chars% "Methods", .list false (record [(chars% "Name", .str), (chars% "RequestType", .str)]))]),
  (chars% "Config", record [(chars% "Transport", transportsTy)])]

def transportTy : Ty := record [(chars% "PackageName", .str),
  (chars% "Service", record [(chars% "Name", .str), (chars% "Methods", .list false methodTy)]),
  (chars% "HTTPHelper", record [(chars% "Methods", .list false helperMethodTy)]),
  (chars% "Version", .str), (chars% "VersionDate", .str), (chars% "Config", record [(chars% "Transport", transportsTy)])]

theorem reads_endpoints : checkSrc endpointsSrc importsTy = true := by decide +kernel
theorem reads_cmdServer : checkSrc cmdServerSrc importTy = true := by decide +kernel
theorem reads_interrupt : checkSrc interruptSrc .struct = true := by decide +kernel
theorem reads_wrapper : checkSrc wrapperSrc .struct = true := by decide +kernel
theorem reads_serviceWrapper : checkSrc serviceWrapperSrc serviceWrapperTy = true := by decide +kernel
theorem reads_server : checkSrc serverSrc serverTy = true := by decide +kernel
theorem reads_service : checkSrc serviceSrc serviceTy = true := by decide +kernel
theorem reads_client : checkSrc cmdClientSrc clientTy = true := by decide +kernel
theorem reads_transport : checkSrc baronSrc transportTy = true := by decide +kernel

/-! ## Data that agree -/

theorem agree_str {s t : Str} (h : s = t) : Agree .str (.str s) (.str t) := ⟨s, rfl, by rw [h]⟩
theorem agree_struct (s t : List (Str × Val)) : Agree .struct (.struct s) (.struct t) := ⟨⟨s, rfl⟩, t, rfl⟩

theorem render_agree {fmt fmt' : Str → Str} {pkg pkg' : Str} {s s' : Service} {c c' : Config} {n src : Str} {t : Ty}
    (hn : HTTP.look assets n = some src) (hc : checkSrc src t = true) {d d' : Val} (hd : newData fmt pkg s c = some d)
    (hd' : newData fmt' pkg' s' c' = some d') (h : Agree t d d') : render fmt pkg s c n = render fmt' pkg' s' c' n := by
  rw [render_eq hn hd, render_eq hn hd']
  obtain ⟨o, h1, h2⟩ := apply_agree hc h
  rw [h1, h2]

/-- The same `-t`, as far as the templates tell them apart. -/
def SameTransport (a b : Str) : Prop :=
  (a = "all".toList ↔ b = "all".toList) ∧ (a = "grpc".toList ↔ b = "grpc".toList) ∧ (a = "nats".toList ↔ b = "nats".toList)

theorem agree_transport {a b : Str} (h : SameTransport a b) : Agree transportsTy (.str a) (.str b) := by
  refine ⟨a, b, rfl, rfl, ?_⟩
  intro k hk
  simp only [List.mem_cons, List.not_mem_nil, or_false] at hk
  rcases hk with rfl | rfl | rfl
  · exact h.1
  · exact h.2.1
  · exact h.2.2

theorem newData_eq (fmt : Str → Str) (pkg : Str) (s : Service) (c : Config) {h : Val} (hh : helperVal fmt s = some h) :
    newData fmt pkg s c = some (.struct [(chars% "ImportPath", .str c.goPackage), (chars% "PBImportPath", .str c.pbPackage),
      (chars% "PackageName", .str pkg), (chars% "Service", serviceVal s), (chars% "HTTPHelper", h),
      (chars% "Version", .str c.version), (chars% "VersionDate", .str c.versionDate),
      (chars% "Config", .struct [(chars% "Transport", .str c.transport)])]) := by
  unfold newData
  rw [hh]

theorem all2_map {α β γ : Type} {R : β → β → Prop} {f : α → β} {key : α → γ} (h : ∀ a b, key a = key b → R (f a) (f b)) :
    ∀ {l l' : List α}, l.map key = l'.map key → All2 R (l.map f) (l'.map f)
  | [], [], _ => .nil
  | a :: l, b :: l', e => by
    rw [List.map_cons, List.map_cons, List.cons.injEq] at e
    exact .cons (h a b e.1) (all2_map h e.2)
  | [], _ :: _, e => by cases e
  | _ :: _, [], e => by cases e

/-- Has the method HTTP bindings? -/
def annotated (m : ServiceMethod) : Bool := !m.bindings.isEmpty

theorem helper_eq {fmt : Str → Str} {s : Service} {h : Val} (hh : helperVal fmt s = some h) :
    ∃ ms, sequence ((s.methods.filter annotated).map (helperMethod fmt)) = some ms ∧
      h = .struct [(chars% "Methods", .list ms)] ∧ ms.length = (s.methods.filter annotated).length := by
  obtain ⟨ms, hm, hl, -⟩ := sequence_some (f := helperMethod fmt) (P := Has helperMethodTy)
    (l := s.methods.filter annotated) fun m hm => helperMethod_some fmt m fun h => by
      have := (List.mem_filter.mp hm).2
      unfold annotated at this
      rw [h] at this
      exact absurd this (by decide)
  refine ⟨ms, hm, ?_, hl⟩
  have : helperVal fmt s = some (.struct [(chars% "Methods", .list ms)]) := by
    unfold helperVal
    have : (fun m : ServiceMethod => !m.bindings.isEmpty) = annotated := rfl
    rw [this, hm]
  rw [hh] at this
  exact Option.some.inj this

theorem sequence_cons {α : Type} {a : Option α} {l : List (Option α)} {r : List α} (h : sequence (a :: l) = some r) :
    ∃ x r', a = some x ∧ sequence l = some r' ∧ r = x :: r' := by
  cases a with
  | none => cases h
  | some x =>
    unfold sequence at h
    cases hs : sequence l with
    | none => rw [hs] at h; cases h
    | some r' => rw [hs] at h; cases h; exact ⟨x, r', rfl, rfl, rfl⟩

theorem helperMethod_eq {fmt : Str → Str} {m : ServiceMethod} {v : Val} (h : helperMethod fmt m = some v) :
    ∃ bs, v = .struct [(chars% "Name", .str m.name), (chars% "RequestType", .str m.request.name),
      (chars% "ResponseType", .str m.response.name), (chars% "Bindings", .list bs)] := by
  unfold helperMethod at h
  cases hs : sequence (m.bindings.zipIdx.map fun b => bindingVal fmt m b.2 b.1) with
  | none => rw [hs] at h; cases h
  | some bs => rw [hs] at h; cases h; exact ⟨bs, rfl⟩

theorem helper_agree {fmt fmt' : Str → Str} : ∀ {l l' : List ServiceMethod} {ms ms' : List Val},
    l.map (fun m => (m.name, m.request.name, annotated m)) = l'.map (fun m => (m.name, m.request.name, annotated m)) →
    sequence ((l.filter annotated).map (helperMethod fmt)) = some ms →
    sequence ((l'.filter annotated).map (helperMethod fmt')) = some ms' →
    All2 (Agree (record [(chars% "Name", .str), (chars% "RequestType", .str)])) ms ms'
  | [], [], _, _, _, h, h' => by cases h; cases h'; exact .nil
  | a :: l, b :: l', _, _, e, h, h' => by
    rw [List.map_cons, List.map_cons, List.cons.injEq, Prod.mk.injEq, Prod.mk.injEq] at e
    obtain ⟨⟨e1, e2, e3⟩, e⟩ := e
    by_cases ha : annotated a = true
    · rw [List.filter_cons_of_pos ha] at h
      rw [List.filter_cons_of_pos (e3 ▸ ha)] at h'
      obtain ⟨x, r, h1, h2, rfl⟩ := sequence_cons h
      obtain ⟨x', r', h1', h2', rfl⟩ := sequence_cons h'
      obtain ⟨bs, rfl⟩ := helperMethod_eq h1
      obtain ⟨bs', rfl⟩ := helperMethod_eq h1'
      refine .cons ?_ (helper_agree e h2 h2')
      fld; exact agree_str e1
      fld; exact agree_str e2
      exact agree_struct _ _
    · rw [List.filter_cons_of_neg ha] at h
      rw [List.filter_cons_of_neg (e3 ▸ ha)] at h'
      exact helper_agree e h h'
  | [], _ :: _, _, _, e, _, _ => by cases e
  | _ :: _, [], _, _, e, _, _ => by cases e

/-! ## C85 -/

section
variable (fmt fmt' : Str → Str) (pkg pkg' : Str) (s s' : Service) (c c' : Config)

/-- **C85** server/interrupt.go and server/wrapper.go are the same for all definitions and configurations. -/
theorem C85_fixed (n : Str) (hn : n = "server/interrupt.go.tmpl".toList ∨ n = "server/wrapper.go.tmpl".toList) :
    render fmt pkg s c n = render fmt' pkg' s' c' n := by
  obtain ⟨h, hh, -⟩ := helper_some fmt s
  obtain ⟨h', hh', -⟩ := helper_some fmt' s'
  rcases hn with rfl | rfl
  · exact render_agree rfl reads_interrupt (newData_eq fmt pkg s c hh) (newData_eq fmt' pkg' s' c' hh') (agree_struct _ _)
  · exact render_agree rfl reads_wrapper (newData_eq fmt pkg s c hh) (newData_eq fmt' pkg' s' c' hh') (agree_struct _ _)

/-- **C85** cmd/NAME/main.go depends on nothing but the import path of the service. -/
theorem C85_main (hi : c.goPackage = c'.goPackage) :
    render fmt pkg s c "cmd/NAME/main.go.tmpl".toList = render fmt' pkg' s' c' "cmd/NAME/main.go.tmpl".toList := by
  obtain ⟨h, hh, -⟩ := helper_some fmt s
  obtain ⟨h', hh', -⟩ := helper_some fmt' s'
  refine render_agree rfl reads_cmdServer (newData_eq fmt pkg s c hh) (newData_eq fmt' pkg' s' c' hh') ?_
  fld; exact agree_str hi
  exact agree_struct _ _

/-- **C85** server/endpoints.go depends on nothing but the two import paths. -/
theorem C85_endpoints (hi : c.goPackage = c'.goPackage) (hp : c.pbPackage = c'.pbPackage) :
    render fmt pkg s c "server/endpoints.go.tmpl".toList = render fmt' pkg' s' c' "server/endpoints.go.tmpl".toList := by
  obtain ⟨h, hh, -⟩ := helper_some fmt s
  obtain ⟨h', hh', -⟩ := helper_some fmt' s'
  refine render_agree rfl reads_endpoints (newData_eq fmt pkg s c hh) (newData_eq fmt' pkg' s' c' hh') ?_
  fld; exact agree_str hi
  fld; exact agree_str hp
  exact agree_struct _ _

/-- **C85** service/wrapper.go depends on nothing but the import path of the .pb.go files and the name of the service. -/
theorem C85_wrapper (hp : c.pbPackage = c'.pbPackage) (hs : s.name = s'.name) :
    render fmt pkg s c "service/wrapper.go.tmpl".toList = render fmt' pkg' s' c' "service/wrapper.go.tmpl".toList := by
  obtain ⟨h, hh, -⟩ := helper_some fmt s
  obtain ⟨h', hh', -⟩ := helper_some fmt' s'
  refine render_agree rfl reads_serviceWrapper (newData_eq fmt pkg s c hh) (newData_eq fmt' pkg' s' c' hh') ?_
  fld; exact agree_str hp
  fld
  · fld; exact agree_str hs
    exact agree_struct _ _
  exact agree_struct _ _

/-- **C85** A fresh service.go depends on nothing but that import path, the name of the service, and the names of the rpcs, their requests
and their responses, in order: not on the HTTP bindings, nor on `-t`. -/
theorem C85_service (hp : c.pbPackage = c'.pbPackage) (hs : s.name = s'.name)
    (hm : s.methods.map (fun m => (m.name, m.request.name, m.response.name)) =
      s'.methods.map (fun m => (m.name, m.request.name, m.response.name))) :
    render fmt pkg s c "service/service.go.tmpl".toList = render fmt' pkg' s' c' "service/service.go.tmpl".toList := by
  obtain ⟨h, hh, -⟩ := helper_some fmt s
  obtain ⟨h', hh', -⟩ := helper_some fmt' s'
  refine render_agree rfl reads_service (newData_eq fmt pkg s c hh) (newData_eq fmt' pkg' s' c' hh') ?_
  fld; exact agree_str hp
  fld
  · fld; exact agree_str hs
    fld
    · refine ⟨_, _, rfl, rfl, nofun, all2_map (fun a b e => ?_) hm⟩
      rw [Prod.mk.injEq, Prod.mk.injEq] at e
      fld; exact agree_str e.1
      fld
      · fld; exact agree_str e.2.1
        exact agree_struct _ _
      fld
      · fld; exact agree_str e.2.2
        exact agree_struct _ _
      exact agree_struct _ _
    exact agree_struct _ _
  exact agree_struct _ _

/-- **C85** server.go depends on nothing but the import paths, the version, the name of the service, the names of its rpcs in order, whether
`-t` selects gRPC and NATS, and whether any rpc has an HTTP binding. -/
theorem C85_server (hi : c.goPackage = c'.goPackage) (hp : c.pbPackage = c'.pbPackage) (hv : c.version = c'.version)
    (hd : c.versionDate = c'.versionDate) (ht : SameTransport c.transport c'.transport) (hs : s.name = s'.name)
    (hm : s.methods.map (·.name) = s'.methods.map (·.name))
    (hb : (∃ m ∈ s.methods, m.bindings ≠ []) ↔ ∃ m ∈ s'.methods, m.bindings ≠ []) :
    render fmt pkg s c "server/server.go.tmpl".toList = render fmt' pkg' s' c' "server/server.go.tmpl".toList := by
  obtain ⟨h, hh, -⟩ := helper_some fmt s
  obtain ⟨h', hh', -⟩ := helper_some fmt' s'
  refine render_agree rfl reads_server (newData_eq fmt pkg s c hh) (newData_eq fmt' pkg' s' c' hh') ?_
  obtain ⟨ms, -, rfl, hl⟩ := helper_eq hh
  obtain ⟨ms', -, rfl, hl'⟩ := helper_eq hh'
  have any : ∀ (ms : List Val) (s : Service), ms.length = (s.methods.filter annotated).length →
      (ms.isEmpty = false ↔ ∃ m ∈ s.methods, m.bindings ≠ []) := by
    intro ms s hl
    constructor
    · intro h
      have : s.methods.filter annotated ≠ [] := by
        intro e
        rw [e] at hl
        rw [List.length_eq_zero_iff.mp hl] at h
        cases h
      obtain ⟨m, hm⟩ := List.exists_mem_of_ne_nil _ this
      obtain ⟨h1, h2⟩ := List.mem_filter.mp hm
      refine ⟨m, h1, fun e => ?_⟩
      unfold annotated at h2
      rw [e] at h2
      cases h2
    · rintro ⟨m, h1, h2⟩
      have hm : m ∈ s.methods.filter annotated := List.mem_filter.mpr ⟨h1, by
        unfold annotated
        cases hb : m.bindings with
        | nil => exact absurd hb h2
        | cons _ _ => rfl⟩
      cases ms with
      | nil => rw [List.length_nil] at hl; rw [List.length_eq_zero_iff.mp hl.symm] at hm; cases hm
      | cons _ _ => rfl
  fld; exact agree_str hi
  fld; exact agree_str hp
  fld
  · fld; exact agree_str hs
    fld
    · refine ⟨_, _, rfl, rfl, nofun, all2_map (fun a b e => ?_) hm⟩
      fld; exact agree_str e
      exact agree_struct _ _
    exact agree_struct _ _
  fld
  · fld
    · show (!ms.isEmpty) = !ms'.isEmpty
      have := (any ms s hl).trans (hb.trans (any ms' s' hl').symm)
      cases h1 : ms.isEmpty <;> cases h2 : ms'.isEmpty <;> simp_all
    exact agree_struct _ _
  fld; exact agree_str hv
  fld; exact agree_str hd
  fld
  · fld; exact agree_transport ht
    exact agree_struct _ _
  exact agree_struct _ _

/-- **C85** The client's main.go depends on nothing but the import path of the .pb.go files, the names of the service, of its rpcs and of
their requests, which rpcs have HTTP bindings, and whether `-t` selects gRPC and NATS. -/
theorem C85_client (hp : c.pbPackage = c'.pbPackage) (hs : s.name = s'.name) (ht : SameTransport c.transport c'.transport)
    (hm : s.methods.map (fun m => (m.name, m.request.name, !m.bindings.isEmpty)) =
      s'.methods.map (fun m => (m.name, m.request.name, !m.bindings.isEmpty))) :
    render fmt pkg s c "cmd/NAME-client/main.go.tmpl".toList = render fmt' pkg' s' c' "cmd/NAME-client/main.go.tmpl".toList := by
  obtain ⟨h, hh, -⟩ := helper_some fmt s
  obtain ⟨h', hh', -⟩ := helper_some fmt' s'
  refine render_agree rfl reads_client (newData_eq fmt pkg s c hh) (newData_eq fmt' pkg' s' c' hh') ?_
  obtain ⟨ms, hms, rfl, -⟩ := helper_eq hh
  obtain ⟨ms', hms', rfl, -⟩ := helper_eq hh'
  fld; exact agree_str hp
  fld
  · fld; exact agree_str hs
    fld
    · refine ⟨_, _, rfl, rfl, nofun, all2_map (fun a b e => ?_) hm⟩
      rw [Prod.mk.injEq, Prod.mk.injEq] at e
      fld; exact agree_str e.1
      fld
      · fld; exact agree_str e.2.1
        exact agree_struct _ _
      exact agree_struct _ _
    exact agree_struct _ _
  fld
  · fld; exact ⟨_, _, rfl, rfl, nofun, helper_agree hm hms hms'⟩
    exact agree_struct _ _
  fld
  · fld; exact agree_transport ht
    exact agree_struct _ _
  exact agree_struct _ _

/-- **C85** The transport file of a definition does not depend on the import paths, and on `-t` only by whether it selects gRPC and NATS. -/
theorem C85_transport (hv : c.version = c'.version) (hd : c.versionDate = c'.versionDate)
    (ht : SameTransport c.transport c'.transport) :
    render fmt pkg s c "baron/NAME.pb.baron.go.tmpl".toList = render fmt pkg s c' "baron/NAME.pb.baron.go.tmpl".toList := by
  obtain ⟨h, hh, hhas⟩ := helper_some fmt s
  refine render_agree rfl reads_transport (newData_eq fmt pkg s c hh) (newData_eq fmt pkg s c' hh) ?_
  fld; exact has_str _
  fld
  · fld; exact has_str _
    fld; exact has_list fun m _ => has_method m
    exact has_struct _
  fld; exact hhas
  fld; exact agree_str hv
  fld; exact agree_str hd
  fld
  · fld; exact agree_transport ht
    exact agree_struct _ _
  exact agree_struct _ _

/-- **C85** `-t` is not checked: with any two values that are none of the three documented ones, all files are the same. -/
theorem C85_unknown_transport (c : Config) (a b : Str)
    (ha : a ∉ ["all".toList, "grpc".toList, "nats".toList]) (hb : b ∉ ["all".toList, "grpc".toList, "nats".toList])
    (n : Str) (hn : n ∈ fileTemplates) :
    render fmt pkg s { c with transport := a } n = render fmt pkg s { c with transport := b } n := by
  have ht : SameTransport a b := by
    simp only [List.mem_cons, List.not_mem_nil, or_false, not_or] at ha hb
    exact ⟨⟨fun h => absurd h ha.1, fun h => absurd h hb.1⟩, ⟨fun h => absurd h ha.2.1, fun h => absurd h hb.2.1⟩,
      fun h => absurd h ha.2.2, fun h => absurd h hb.2.2⟩
  unfold fileTemplates at hn
  simp only [List.mem_cons, List.not_mem_nil, or_false] at hn
  rcases hn with rfl | rfl | rfl | rfl | rfl | rfl | rfl | rfl | rfl
  · exact C85_transport _ _ _ _ _ rfl rfl ht
  · exact C85_main _ _ _ _ _ _ _ _ rfl
  · exact C85_client _ _ _ _ _ _ _ _ rfl rfl ht rfl
  · exact C85_endpoints _ _ _ _ _ _ _ _ rfl rfl
  · exact C85_fixed _ _ _ _ _ _ _ _ _ (.inl rfl)
  · exact C85_server _ _ _ _ _ _ _ _ rfl rfl rfl rfl ht rfl rfl Iff.rfl
  · exact C85_fixed _ _ _ _ _ _ _ _ _ (.inr rfl)
  · exact C85_service _ _ _ _ _ _ _ _ rfl rfl rfl
  · exact C85_wrapper _ _ _ _ _ _ _ _ rfl rfl

end

/-- The files that are kept, and that depend on no rpc: their paths for the lower-cased service name `x`, and their templates. -/
def keptFiles (x : Str) : List (Str × Str) := [
  ("service/wrapper.go".toList, "service/wrapper.go.tmpl".toList),
  ("server/endpoints.go".toList, "server/endpoints.go.tmpl".toList),
  ("server/interrupt.go".toList, "server/interrupt.go.tmpl".toList),
  ("server/wrapper.go".toList, "server/wrapper.go.tmpl".toList),
  ("cmd/".toList ++ x ++ "/main.go".toList, "cmd/NAME/main.go.tmpl".toList)]

/-- **C85** So these files do not go stale. A run creates the files that do not exist; then the definition changes in any way that leaves
the name of the service and the import paths alone, and another run is made: the files, which that run keeps, are what it would
have made from its own definition (gofmt being idempotent). -/
theorem C85_not_stale {fmt : Str → Str} (hf : ∀ x, fmt (fmt x) = fmt x) {old old' : Str → Option Str} {client client' : Bool}
    {pkg pkg' : Str} {s s' : Service} {c c' : Config} (hs : s.name = s'.name) (hsl : '/' ∉ s.name)
    (hi : c.goPackage = c'.goPackage) (hp : c.pbPackage = c'.pbPackage)
    {base base' : Str} {assets assets' : List Str} {worder worder' : List (Str × Str) → List (Str × Str)}
    (ha : assets.Perm assetNames) (ha' : assets'.Perm assetNames) (hw : ∀ l, (worder l).Perm l) (hw' : ∀ l, (worder' l).Perm l)
    {fs fs1 fs2 : FS} (h1 : run (environment fmt old client pkg s c) base assets worder fs = some fs1)
    (h2 : run (environment fmt old' client' pkg' s' c') base' assets' worder' fs1 = some fs2)
    {p t : Str} (hpt : (p, t) ∈ keptFiles (toLower s.name)) (hnew : fs p = none) :
    ∃ txt, render fmt pkg' s' c' t = some txt ∧ fs2 p = some (fmt txt) := by
  have hx : '/' ∉ toLower (environment fmt old client pkg s c).name := Cli.toLower_slash hsl
  have hx' : '/' ∉ toLower (environment fmt old' client' pkg' s' c').name := by
    show '/' ∉ toLower s'.name
    rw [← hs]; exact Cli.toLower_slash hsl
  have key : ∀ o ∈ outputs (toLower s.name) client, o ∈ outputs (toLower s'.name) client' → o.policy = .keep → fs o.path = none →
      render fmt pkg s c o.template = render fmt pkg' s' c' o.template →
      ∃ txt, render fmt pkg' s' c' o.template = some txt ∧ fs2 o.path = some (fmt txt) := by
    intro o ho ho' hpol hnone heq
    obtain ⟨txt, k1, k2⟩ := C32_outputs hx ha hw h1 o ho
    obtain ⟨txt', l1, l2⟩ := C32_outputs hx' ha' hw' h2 o ho'
    unfold wanted at k1 l1
    rw [hpol, hnone] at k1
    rw [hpol, k2] at l1
    have e1 : render fmt pkg s c o.template = some txt := k1
    have e2 : fmt txt = txt' := Option.some.inj l1
    refine ⟨txt, by rw [← heq]; exact e1, ?_⟩
    rw [l2, ← e2]
    exact congrArg some (hf txt)
  have e : toLower s'.name = toLower s.name := by rw [hs]
  unfold keptFiles at hpt
  simp only [List.mem_cons, List.not_mem_nil, or_false, Prod.mk.injEq] at hpt
  have mem : ∀ {o : Output} {l l' : List Output}, o ∈ l → o ∈ l ++ l' := fun h => List.mem_append_left _ h
  rcases hpt with ⟨rfl, rfl⟩ | ⟨rfl, rfl⟩ | ⟨rfl, rfl⟩ | ⟨rfl, rfl⟩ | ⟨rfl, rfl⟩
  · exact key ⟨_, _, .keep⟩ (mem (.tail _ (.head _))) (mem (.tail _ (.head _))) rfl hnew (C85_wrapper _ _ _ _ _ _ _ _ hp hs)
  · exact key ⟨_, _, .keep⟩ (mem (.tail _ (.tail _ (.tail _ (.head _))))) (mem (.tail _ (.tail _ (.tail _ (.head _))))) rfl hnew
      (C85_endpoints _ _ _ _ _ _ _ _ hi hp)
  · exact key ⟨_, _, .keep⟩ (mem (.tail _ (.tail _ (.tail _ (.tail _ (.head _))))))
      (mem (.tail _ (.tail _ (.tail _ (.tail _ (.head _)))))) rfl hnew (C85_fixed _ _ _ _ _ _ _ _ _ (.inl rfl))
  · exact key ⟨_, _, .keep⟩ (mem (.tail _ (.tail _ (.tail _ (.tail _ (.tail _ (.head _)))))))
      (mem (.tail _ (.tail _ (.tail _ (.tail _ (.tail _ (.head _))))))) rfl hnew (C85_fixed _ _ _ _ _ _ _ _ _ (.inr rfl))
  · exact key ⟨_, _, .keep⟩ (mem (.tail _ (.tail _ (.tail _ (.tail _ (.tail _ (.tail _ (.head _))))))))
      (by rw [e]; exact mem (.tail _ (.tail _ (.tail _ (.tail _ (.tail _ (.tail _ (.head _)))))))) rfl hnew
      (C85_main _ _ _ _ _ _ _ _ hi)

/-- **C85** The client's main.go is kept in the same way, so after the second run it has the text made from the first definition. -/
theorem C85_client_kept {fmt : Str → Str} (hf : ∀ x, fmt (fmt x) = fmt x) {old old' : Str → Option Str}
    {pkg pkg' : Str} {s s' : Service} {c c' : Config} (hs : s.name = s'.name) (hsl : '/' ∉ s.name)
    {base base' : Str} {assets assets' : List Str} {worder worder' : List (Str × Str) → List (Str × Str)}
    (ha : assets.Perm assetNames) (ha' : assets'.Perm assetNames) (hw : ∀ l, (worder l).Perm l) (hw' : ∀ l, (worder' l).Perm l)
    {fs fs1 fs2 : FS} (h1 : run (environment fmt old true pkg s c) base assets worder fs = some fs1)
    (h2 : run (environment fmt old' true pkg' s' c') base' assets' worder' fs1 = some fs2)
    (hnew : fs ("cmd/".toList ++ toLower s.name ++ "-client/main.go".toList) = none) :
    ∃ txt, render fmt pkg s c "cmd/NAME-client/main.go.tmpl".toList = some txt ∧
      fs2 ("cmd/".toList ++ toLower s.name ++ "-client/main.go".toList) = some (fmt txt) := by
  have hx : '/' ∉ toLower (environment fmt old true pkg s c).name := Cli.toLower_slash hsl
  have hx' : '/' ∉ toLower (environment fmt old' true pkg' s' c').name := by
    show '/' ∉ toLower s'.name
    rw [← hs]; exact Cli.toLower_slash hsl
  have ho : (⟨"cmd/".toList ++ toLower s.name ++ "-client/main.go".toList, "cmd/NAME-client/main.go.tmpl".toList, .keep⟩ : Output) ∈
      outputs (toLower s.name) true := List.mem_append_right _ (.head _)
  obtain ⟨txt, k1, k2⟩ := C32_outputs hx ha hw h1 _ ho
  unfold wanted at k1
  simp only [hnew] at k1
  refine ⟨txt, k1, ?_⟩
  have e : fs2 ("cmd/".toList ++ toLower s.name ++ "-client/main.go".toList) = some (fmt (fmt txt)) :=
    C32_edited_files_kept hx' ha' hw' h2 (.inr (.inr (.inr (.inr (.inr ⟨rfl, by
      show _ = "cmd/".toList ++ toLower s'.name ++ _
      rw [hs]⟩))))) k2
  rw [e, hf]

namespace Example

def ty (n : String) : FieldType := ⟨n.toList, none, [], none, none, true, false⟩

def rpcA : ServiceMethod := ⟨"A".toList, ty "In", ty "Out", []⟩
def rpcB : ServiceMethod := ⟨"B".toList, ty "In", ty "Out", [⟨"get".toList, "/b".toList, []⟩]⟩

def first : Service := ⟨"S".toList, [rpcA]⟩
def second : Service := ⟨"S".toList, [rpcA, rpcB]⟩

theorem regen_none (fmt : Str → Str) (old : Str → Option Str) (client : Bool) (pkg : Str) (s : Service) (c : Config) :
    (environment fmt old client pkg s c).regen none = render fmt pkg s c servicePath := rfl

theorem first_run (fs : FS) (hfs : fs "service/service.go".toList = none) :
    ∃ fs', run (environment id some true "pb".toList first conf) "s-service".toList assetNames id fs = some fs' := by
  refine (C32_succeeds (by decide +kernel) (List.Perm.refl _)).mpr fun o ho hnone => ?_
  have hr : ∀ n ∈ fileTemplates, render id "pb".toList first conf n ≠ none := by
    intro n hn h
    obtain ⟨t, ht⟩ := C84_render id "pb".toList first conf n hn
    rw [ht] at h; cases h
  have hall : ∀ o ∈ outputs "s".toList true, o.template ∈ fileTemplates ∧
      (o.policy = .merge → o.path = "service/service.go".toList) := by decide +kernel
  have ho : o ∈ outputs "s".toList true := by
    rw [← show toLower "S".toList = "s".toList by decide +kernel]
    exact ho
  unfold wanted at hnone
  cases hp : o.policy with
  | keep =>
    cases hw : fs o.path with
    | none => rw [hp, hw] at hnone; exact hr _ (hall o ho).1 hnone
    | some p => rw [hp, hw] at hnone; cases hnone
  | refresh => rw [hp] at hnone; exact hr _ (hall o ho).1 hnone
  | merge =>
    rw [hp, (hall o ho).2 hp, hfs] at hnone
    have hm : servicePath ∈ fileTemplates := List.contains_iff_mem.mp (by decide +kernel)
    simp only [regen_none] at hnone
    exact hr servicePath hm hnone

/-- The hypotheses of `C85_not_stale` and `C85_client_kept` about the first run are met in an empty directory. -/
example : ∃ fs', run (environment id some true "pb".toList first conf) "s-service".toList assetNames id (fun _ => none) = some fs' :=
  first_run _ rfl

/-- The values `http` and `rest` of `-t` are the same to baron, and `all` is not one of them. -/
example : SameTransport "http".toList "rest".toList ∧ ¬ SameTransport "http".toList "all".toList := by
  unfold SameTransport
  decide +kernel

end Example

/-- **C85** And that text can differ from the one made from the second definition: here, by the calls of an rpc that was added. -/
theorem C85_client_stale_witness :
    render id "pb".toList Example.first Example.conf "cmd/NAME-client/main.go.tmpl".toList ≠
      render id "pb".toList Example.second Example.conf "cmd/NAME-client/main.go.tmpl".toList := by
  decide +kernel

/-- **C85** What the theorems name does matter: server.go changes with the first HTTP binding and with `-t`, service.go with
an rpc. -/
theorem C85_matters_witness :
    render id "pb".toList ⟨"S".toList, [Example.rpcA]⟩ Example.conf "server/server.go.tmpl".toList ≠
      render id "pb".toList ⟨"S".toList, [{ Example.rpcA with bindings := Example.rpcB.bindings }]⟩ Example.conf
        "server/server.go.tmpl".toList ∧
    render id "pb".toList Example.first Example.conf "server/server.go.tmpl".toList ≠
      render id "pb".toList Example.first { Example.conf with transport := "http".toList } "server/server.go.tmpl".toList ∧
    render id "pb".toList Example.first Example.conf "service/service.go.tmpl".toList ≠
      render id "pb".toList Example.second Example.conf "service/service.go.tmpl".toList := by
  refine ⟨?_, ?_, ?_⟩ <;> decide +kernel

end Baron.TT
