import Verif.Model.Locals
import Verif.Proofs.Locals

/-!
# C73: no unused, undefined or hidden names in the generated files
-/

namespace Baron.Locals

open Baron.Scope Baron.HTTPCode Baron.Idents

/-! ## service.go -/

theorem serviceMethod_ok {g : Outer} (s : Svcdef.Service) (hv : g.value "context".toList = true) (hp : g.value "pb".toList = true)
    (ht : g.type (toLower s.name ++ "Service".toList) = true) : FuncOK g (serviceMethod s) := by
  unfold FuncOK serviceMethod
  rw [List.cons_append, run_cons_some (bs' := [[]]) rfl, List.cons_append, run_cons_some (bs' := [[]])]
  · refine run_mono (g := lists ["context".toList, "pb".toList] []) (lists_le ?_ (by simp)) ?_
    · intro x hx
      simp only [List.mem_cons, List.not_mem_nil, or_false] at hx
      rcases hx with rfl | rfl
      · exact hv
      · exact hp
    · decide +kernel
  · simp only [step]
    rw [if_neg (c := captured _ [[]] = true) nofun, if_pos ht]

/-- **C73** service.go is accepted exactly if the service has an rpc: without one the import of `context` is not used. -/
theorem C73_service (pkg : Outer) (s : Svcdef.Service) (ht : pkg.type (toLower s.name ++ "Service".toList) = true) :
    FileOK pkg (serviceFile s) ↔ s.methods ≠ [] := by
  have hout : ∀ x ∈ ["context".toList, "pb".toList], ((serviceFile s).outer pkg).value x = true := by
    intro x hx
    show (_ || decide (x ∈ ["context".toList, "pb".toList])) = true
    rw [decide_eq_true hx, Bool.or_true]
  constructor
  · intro h hm
    rcases h.imports "context".toList (by unfold serviceFile; simp) with h | ⟨fn, hf, hu⟩
    · exact absurd (List.mem_singleton.1 h) (by decide)
    · simp only [serviceFile, hm, List.map_nil, List.mem_singleton] at hf
      subst hf
      rw [uses_none (by
        simp only [List.cons_append, List.nil_append, List.mem_cons, List.not_mem_nil, or_false, reduceCtorEq, not_false_eq_true])] at hu
      cases hu
  · intro hm
    have h1 : FuncOK ((serviceFile s).outer pkg) (serviceMethod s) :=
      serviceMethod_ok s (hout _ (by simp)) (hout _ (by simp)) ht
    refine ⟨?_, ?_, nofun, ?_⟩
    · intro fn hf
      simp only [serviceFile, List.mem_cons, List.mem_map] at hf
      rcases hf with rfl | ⟨m, _, rfl⟩
      · unfold FuncOK
        rw [List.cons_append, run_cons_some (bs' := [[]]) rfl, List.cons_append, run_cons_some (bs' := [[]])]
        · rfl
        · simp only [step]
          rw [if_neg (c := captured _ [[]] = true) nofun]
          exact if_pos ht
      · exact h1
    · intro x hx
      simp only [serviceFile, List.mem_singleton] at hx
      subst hx
      exact hout _ (by simp)
    · intro i hi
      simp only [serviceFile, List.mem_cons, List.not_mem_nil, or_false] at hi
      rcases hi with rfl | rfl
      · right
        refine ⟨serviceMethod s, ?_, ?_⟩
        · obtain ⟨m, hm⟩ := List.exists_mem_of_ne_nil _ hm
          exact List.mem_cons_of_mem _ (List.mem_map.2 ⟨m, hm, rfl⟩)
        · unfold serviceMethod
          rw [List.cons_append, uses_cons]
          simp only [step, Bool.false_and, decide_false, reduceCtorEq, Bool.false_or]
          rw [List.cons_append, uses_cons]
          have : step ((serviceFile s).outer pkg) [[]] (.type (toLower s.name ++ "Service".toList)) = some [[]] := by
            simp only [step]
            rw [if_neg (c := captured _ [[]] = true) nofun]
            exact if_pos ht
          rw [this]
          simp only [List.cons_append]
          rw [uses_cons]
          have h2 : (decide (U "context" = .use "context".toList) && !captured "context".toList [[]]) = true := by decide
          rw [h2, Bool.true_or, Bool.or_true]
      · left
        simp [serviceFile]

/-! ## The client's main.go -/

/-- What the client's main.go needs of the package and its imports. -/
def clientNames (g n : Bool) : List Str :=
  (["grpcAddr", "httpAddr", "natsAddr", "pln", "context", "flag", "log", "pb"] ++ (if n then ["nats"] else []) ++
    (if g then ["grpc"] else [])).map String.toList

def grpcBlock : Block := [("conn".toList, true), ("err".toList, true), ("baronGRPCClient".toList, true)]
def natsBlock : Block := [("nc".toList, true), ("err".toList, true), ("baronNATSClient".toList, true)]
def bothBlock : Block := grpcBlock ++ [("nc".toList, true), ("baronNATSClient".toList, true)]

def grpcHead : List Ev :=
  [U "log", U "pln", U "grpc", U "grpcAddr", U "grpc", U "grpc", S ["conn", "err"], U "err", .opn, U "log",
    U "err", .cls, U "conn", U "pb", U "conn", S ["baronGRPCClient", "err"], U "err", .opn, U "log", U "err", .cls]

def natsHead : List Ev :=
  [U "log", U "pln", U "nats", U "natsAddr", S ["nc", "err"], U "err", .opn, U "log", U "err", .cls,
    U "nc", U "pb", U "nc", S ["baronNATSClient", "err"], U "err", .opn, U "log", U "err", .cls]

/-- The same with what is repeated split off. -/
theorem clientMain_eq (t : Str) (s : Svcdef.Service) : clientMain t s = [U "flag"] ++
    (if grpcOn t then grpcHead ++ s.methods.flatMap (fun _ => clientCall "baronGRPCClient") else []) ++
    (if httpMethods s = [] then [] else [U "log", U "pln"] ++ (httpMethods s).flatMap fun _ => httpCall) ++
    (if natsOn t then natsHead ++ s.methods.flatMap (fun _ => clientCall "baronNATSClient") else []) := rfl

theorem run_http {g n : Bool} {b : Block} (hb : b = [] ∨ (g = true ∧ b = grpcBlock)) (s : Svcdef.Service) :
    run (lists (clientNames g n) []) [b]
      (if httpMethods s = [] then [] else [U "log", U "pln"] ++ (httpMethods s).flatMap fun _ => httpCall) = some [b] := by
  split
  · rfl
  · rename_i hm
    have h : run (lists (clientNames g n) []) [b] [U "log", U "pln"] = some [b] := by
      rcases hb with rfl | ⟨rfl, rfl⟩
      · cases g <;> cases n <;> decide +kernel
      · cases n <;> decide +kernel
    rw [run_append_some h]
    refine run_flatMap_id fun _ _ => ?_
    rcases hb with rfl | ⟨rfl, rfl⟩
    · cases g <;> cases n <;> decide +kernel
    · cases n <;> decide +kernel

theorem run_grpc {n : Bool} (s : Svcdef.Service) (hm : s.methods ≠ []) :
    run (lists (clientNames true n) []) [[]] (grpcHead ++ s.methods.flatMap fun _ => clientCall "baronGRPCClient") =
      some [grpcBlock] := by
  have h1 : run (lists (clientNames true n) []) [[]] grpcHead =
      some [[("conn".toList, true), ("err".toList, true), ("baronGRPCClient".toList, false)]] := by
    cases n <;> decide +kernel
  rw [run_append_some h1]
  exact run_repeat (by cases n <;> decide +kernel) (by cases n <;> decide +kernel) hm

theorem run_nats {g : Bool} (s : Svcdef.Service) (hm : s.methods ≠ []) :
    run (lists (clientNames g true) []) [if g then grpcBlock else []]
      (natsHead ++ s.methods.flatMap fun _ => clientCall "baronNATSClient") =
      some [if g then bothBlock else natsBlock] := by
  have h1 : run (lists (clientNames g true) []) [if g then grpcBlock else []] natsHead =
      some [if g then grpcBlock ++ [("nc".toList, true), ("baronNATSClient".toList, false)] else
        [("nc".toList, true), ("err".toList, true), ("baronNATSClient".toList, false)]] := by
    cases g <;> decide +kernel
  rw [run_append_some h1]
  exact run_repeat (by cases g <;> decide +kernel) (by cases g <;> decide +kernel) hm

theorem clientMain_ok {t : Str} {s : Svcdef.Service} (h : grpcOn t ∨ natsOn t → s.methods ≠ []) :
    FuncOK (lists (clientNames (grpcOn t) (natsOn t)) []) (clientMain t s) := by
  unfold FuncOK
  rw [clientMain_eq]
  generalize grpcOn t = g at h ⊢
  generalize natsOn t = n at h ⊢
  rw [List.cons_append, run_cons_some (bs' := [[]]) rfl]
  simp only [List.append_assoc]
  rw [run_append_some (bs' := [[]]) (by cases g <;> cases n <;> decide +kernel)]
  rw [run_append_some (bs' := [if g then grpcBlock else []]) (by
    cases g
    · rfl
    · exact run_grpc s (h (.inl rfl)))]
  rw [run_append_some (run_http (by cases g; exact .inl rfl; exact .inr ⟨rfl, rfl⟩) s)]
  cases n
  · rw [if_neg Bool.false_ne_true, List.nil_append]
    cases g <;> decide +kernel
  · rw [if_pos rfl, run_append_some (run_nats s (h (.inr rfl)))]
    cases g <;> decide +kernel

theorem mem_clientNames {pkg : Outer} {t : Str} {s : Svcdef.Service}
    (hp : ∀ x ∈ ["grpcAddr", "httpAddr", "natsAddr", "pln"], pkg.value x.toList = true) :
    ∀ x ∈ clientNames (grpcOn t) (natsOn t), ((clientFile t s).outer pkg).value x = true := by
  intro x hx
  show (_ || decide (x ∈ (clientFile t s).imports)) = true
  rw [Bool.or_eq_true, decide_eq_true_eq]
  simp only [clientNames, clientFile, List.map_append, List.mem_append] at hx ⊢
  rcases hx with (hx | hx) | hx
  · rw [List.map_cons, List.map_cons, List.map_cons, List.map_cons] at hx
    simp only [List.mem_cons] at hx
    rcases hx with rfl | rfl | rfl | rfl | hx
    · exact .inl (hp _ (by simp))
    · exact .inl (hp _ (by simp))
    · exact .inl (hp _ (by simp))
    · exact .inl (hp _ (by simp))
    · right; left; left; exact hx
  · exact .inr (.inl (.inr hx))
  · exact .inr (.inr hx)

theorem clientMain_decls {t : Str} {s : Svcdef.Service} {x : Str}
    (hx : x ∈ (["grpc", "nats", "context", "pb"].map String.toList)) :
    ∀ e ∈ .opn :: clientMain t s ++ [.cls], x ∉ e.decls := by
  have h1 : ∀ x ∈ (["grpc", "nats", "context", "pb"].map String.toList), ∀ e ∈ [Ev.opn, U "flag", .cls] ++ grpcHead ++
      clientCall "baronGRPCClient" ++ [U "log", U "pln"] ++ httpCall ++ natsHead ++ clientCall "baronNATSClient",
      x ∉ e.decls := by decide +kernel
  intro e he
  refine h1 x hx e ?_
  rw [clientMain_eq] at he
  simp only [List.cons_append, List.nil_append, List.mem_cons, List.mem_append, List.not_mem_nil, or_false] at he ⊢
  rcases he with rfl | rfl | ((he | he) | he) | rfl
  · simp
  · simp
  · split at he
    · simp only [List.mem_append, List.mem_flatMap] at he
      rcases he with he | ⟨_, _, he⟩ <;> simp [he]
    · cases he
  · split at he
    · cases he
    · simp only [List.mem_cons, List.mem_flatMap] at he
      rcases he with he | he | ⟨_, _, he⟩ <;> simp [he]
  · split at he
    · simp only [List.mem_append, List.mem_flatMap] at he
      rcases he with he | ⟨_, _, he⟩ <;> simp [he]
    · cases he
  · simp

theorem http_sub {s : Svcdef.Service} (h : httpMethods s ≠ []) : s.methods ≠ [] := by
  intro hm
  unfold httpMethods at h
  rw [hm] at h
  exact h rfl

/-- The client's `main` fails if a client is made and never called. -/
theorem clientMain_bad {t : Str} {s : Svcdef.Service} (h : grpcOn t ∨ natsOn t) (hm : s.methods = []) (g : Outer) :
    ¬ FuncOK g (clientMain t s) := by
  intro hok
  have hh : httpMethods s = [] := Decidable.byContradiction fun hc => http_sub hc hm
  have hok := run_mono (le_all g) hok
  rw [clientMain_eq, hh, hm] at hok
  generalize grpcOn t = g1 at h hok
  generalize natsOn t = n1 at h hok
  have hx : run all [] (.opn :: ([U "flag"] ++ (if g1 then grpcHead ++ [] else []) ++ [] ++
      (if n1 then natsHead ++ [] else [])) ++ [.cls]) = none := by
    cases g1 <;> cases n1
    · exact absurd h (by decide)
    · decide +kernel
    · decide +kernel
    · decide +kernel
  rw [if_pos rfl] at hok
  exact absurd (hx.symm.trans hok) nofun

/-- **C73** The client's main.go is accepted exactly if it calls something through every client it makes: with gRPC or NATS the
service must have an rpc, with neither it must have an rpc with an HTTP binding (else `context` and `pb` are imported and
not used). -/
theorem C73_client (pkg : Outer) (t : Str) (s : Svcdef.Service)
    (hp : ∀ x ∈ ["grpcAddr", "httpAddr", "natsAddr", "pln"], pkg.value x.toList = true) :
    FileOK pkg (clientFile t s) ↔ if grpcOn t ∨ natsOn t then s.methods ≠ [] else httpMethods s ≠ [] := by
  constructor
  · intro h
    split
    · rename_i hgn
      intro hm
      exact clientMain_bad hgn hm _ (h.funcs _ (by simp [clientFile]))
    · rename_i hgn
      rw [not_or] at hgn
      intro hm
      rcases h.imports "pb".toList (by simp [clientFile]) with hi | ⟨fn, hf, hu⟩
      · cases hi
      · rw [uses_none] at hu
        · cases hu
        · simp only [clientFile, List.mem_cons, List.not_mem_nil, or_false] at hf
          rcases hf with rfl | rfl | rfl
          · decide +kernel
          · rw [clientMain_eq, hm, if_neg hgn.1, if_neg hgn.2, if_pos rfl]
            decide +kernel
          · decide +kernel
  · intro h
    have hle : (lists (clientNames (grpcOn t) (natsOn t)) []).le ((clientFile t s).outer pkg) :=
      lists_le (mem_clientNames hp) nofun
    have hmain := run_mono hle (clientMain_ok (t := t) (s := s) fun hgn => by rw [if_pos hgn] at h; exact h)
    have hflag := run_mono hle (es := .opn :: [U "flag", U "grpcAddr", U "flag", U "httpAddr", U "flag", U "natsAddr"] ++ [.cls])
      (bs := []) (bs' := []) (by cases grpcOn t <;> cases natsOn t <;> decide +kernel)
    have hlog := run_mono hle (es := .opn :: [U "log"] ++ [.cls])
      (bs := []) (bs' := []) (by cases grpcOn t <;> cases natsOn t <;> decide +kernel)
    refine ⟨?_, nofun, nofun, ?_⟩
    · intro fn hf
      simp only [clientFile, List.mem_cons, List.not_mem_nil, or_false] at hf
      rcases hf with rfl | rfl | rfl
      · exact hflag
      · exact hmain
      · exact hlog
    · intro i hi
      right
      have hmm : clientMain t s ∈ (clientFile t s).funcs := by simp [clientFile]
      have hmention : ∀ x ∈ (["grpc", "nats", "context", "pb"].map String.toList),
          Ev.use x ∈ clientMain t s → ∃ fn ∈ (clientFile t s).funcs, uses ((clientFile t s).outer pkg) x []
            (.opn :: fn ++ [.cls]) = true := fun x hx hu =>
        ⟨_, hmm, uses_of_mem hmain (List.mem_append_left _ (List.mem_cons_of_mem _ hu)) nofun (clientMain_decls hx)⟩
      have hcall : ∀ x ∈ (["context", "pb"].map String.toList), Ev.use x ∈ clientMain t s := by
        intro x hx
        rw [clientMain_eq]
        simp only [List.mem_append]
        by_cases hg : grpcOn t = true
        · rw [if_pos (.inl hg)] at h
          obtain ⟨m, hm⟩ := List.exists_mem_of_ne_nil _ h
          left; left; right
          rw [if_pos hg]
          refine List.mem_append_right _ (List.mem_flatMap.2 ⟨m, hm, ?_⟩)
          revert x; decide +kernel
        · by_cases hn : natsOn t = true
          · rw [if_pos (.inr hn)] at h
            obtain ⟨m, hm⟩ := List.exists_mem_of_ne_nil _ h
            right
            rw [if_pos hn]
            refine List.mem_append_right _ (List.mem_flatMap.2 ⟨m, hm, ?_⟩)
            revert x; decide +kernel
          · rw [if_neg (not_or.2 ⟨hg, hn⟩)] at h
            obtain ⟨m, hm⟩ := List.exists_mem_of_ne_nil _ h
            left; right
            rw [if_neg h]
            refine List.mem_append_right _ (List.mem_flatMap.2 ⟨m, hm, ?_⟩)
            revert x; decide +kernel
      simp only [clientFile, List.map_append, List.mem_append] at hi
      rcases hi with (hi | hi) | hi
      · simp only [List.map_cons, List.map_nil, List.mem_cons, List.not_mem_nil, or_false] at hi
        rcases hi with rfl | rfl | rfl | rfl
        · exact hmention _ (by simp) (hcall _ (by simp))
        · exact ⟨_, by simp only [clientFile]; exact List.mem_cons_self, uses_of_mem hflag (by simp [U]) nofun (by decide +kernel)⟩
        · exact ⟨_, by simp only [clientFile]; exact List.mem_cons_of_mem _ (List.mem_cons_of_mem _ List.mem_cons_self),
            uses_of_mem hlog (by simp [U]) nofun (by decide +kernel)⟩
        · exact hmention _ (by simp) (hcall _ (by simp))
      · by_cases hn : natsOn t = true
        · rw [if_pos hn] at hi
          obtain rfl : i = "nats".toList := by simpa using hi
          refine hmention _ (by simp) ?_
          rw [clientMain_eq, if_pos hn]
          refine List.mem_append_right _ (List.mem_append_left _ ?_)
          decide +kernel
        · rw [if_neg hn] at hi; cases hi
      · by_cases hg : grpcOn t = true
        · rw [if_pos hg] at hi
          obtain rfl : i = "grpc".toList := by simpa using hi
          refine hmention _ (by simp) ?_
          rw [clientMain_eq, if_pos hg]
          refine List.mem_append_left _ (List.mem_append_left _ (List.mem_append_right _ (List.mem_append_left _ ?_)))
          decide +kernel
        · rw [if_neg hg] at hi; cases hi

/-! ## server.go -/

def serverNames (g n : Bool) : List Str :=
  (["Endpoints", "Interrupt", "HTTPServerOptions", "GRPCServerOptions", "NATSSubscriberOptions", "log", "net", "http",
    "pprof", "runtime", "pb", "service"] ++ (if n then ["nats"] else []) ++ (if g then ["grpc"] else [])).map String.toList

theorem run_ok {t : Str} {s : Svcdef.Service} (h : grpcOn t ∨ natsOn t ∨ httpMethods s ≠ []) :
    FuncOK (lists (serverNames (grpcOn t) (natsOn t)) ["Config".toList]) (runEvs t s) := by
  unfold FuncOK runEvs
  generalize grpcOn t = g at h ⊢
  generalize natsOn t = n at h ⊢
  by_cases hm : httpMethods s = []
  · simp only [hm, if_true]
    cases g <;> cases n
    · rcases h with h | h | h
      · cases h
      · cases h
      · exact absurd hm h
    all_goals decide +kernel
  · simp only [if_neg hm]
    cases g <;> cases n <;> decide +kernel

theorem run_bad {t : Str} {s : Svcdef.Service} (h : ¬ (grpcOn t ∨ natsOn t ∨ httpMethods s ≠ [])) (g : Outer) :
    ¬ FuncOK g (runEvs t s) := by
  intro hok
  have hok := run_mono (le_all g) hok
  rw [not_or, not_or, Decidable.not_not] at h
  unfold runEvs at hok
  rw [if_neg h.1, if_neg h.2.1, if_pos h.2.2] at hok
  revert hok
  decide +kernel

def svcBlock : Block := [("svc".toList, true)]

theorem newEndpoints_ok {s : Svcdef.Service} (hn : ((names s).map toLower).Nodup) {g : Outer} (hpb : g.value "pb".toList = true)
    (hsv : g.value "service".toList = true) : FuncOK g (newEndpoints s) := by
  have hle : (lists ["pb".toList, "service".toList] []).le g := lists_le (by
    intro x hx
    simp only [List.mem_cons, List.not_mem_nil, or_false] at hx
    rcases hx with rfl | rfl
    · exact hpb
    · exact hsv) nofun
  have hnd := (localEndpoint_nodup s).2 hn
  unfold FuncOK newEndpoints
  rw [List.cons_append, run_cons_some (bs' := [[]]) rfl]
  simp only [List.append_assoc]
  rw [run_append_some (bs' := [svcBlock]) (run_mono hle (by decide +kernel))]
  have hfree : ∀ (xs : List Svcdef.ServiceMethod) x, x.getLast? ≠ some 't' →
      x ∉ xs.map fun m => Transport.localEndpoint m.name := by
    intro xs x hx hm
    obtain ⟨m, _, he⟩ := List.mem_map.1 hm
    exact ne_local hx he.symm
  have hvars := run_vars (g := g) (b := svcBlock) (bs := []) (f := fun m : Svcdef.ServiceMethod => Transport.localEndpoint m.name)
    (F := fun m => [U "pb", U "svc", .var (Transport.localEndpoint m.name)]) (l := s.methods) (ys := []) (by
      intro m _ zs hz hzm hd
      have hq : ∀ x : Str, x.getLast? ≠ some 't' → x ∉ zs := fun x hx hm => by
        rcases hz x hm with h | ⟨m, _, h⟩
        · cases h
        · exact ne_local hx h
      rw [U, run_fine (Fine.more (.inr ⟨rfl, hpb⟩) (hq _ (by decide))), U,
        run_fine (Fine.more (.inl ⟨rfl, rfl⟩) (hq _ (by decide)))]
      rw [run_cons_some (bs' := [svcBlock ++ (zs ++ [Transport.localEndpoint m.name]).map fun x => (x, false)])]
      · rfl
      · have : declared (Transport.localEndpoint m.name) (svcBlock ++ zs.map fun x => (x, false)) = false := by
          rw [declared_append, hd, Bool.false_or, Bool.eq_false_iff]
          exact fun h => hzm ((declared_map _ _ _).1 h)
        simp only [step]
        rw [if_neg (by rw [this]; exact Bool.false_ne_true), List.map_append, List.append_assoc]
        rfl)
    (by
      intro m _
      rw [Bool.eq_false_iff]
      intro h
      exact ne_local (n := m.name) (x := "svc".toList) (by decide) (by simpa [svcBlock, declared] using h))
    (by simpa using hnd)
  rw [List.map_nil, List.append_nil, List.nil_append] at hvars
  rw [run_append_some hvars]
  have hfine : ∀ (u : Bool) (x : Str), x.getLast? ≠ some 't' → Fine g [svcBlock] x →
      Fine g [svcBlock ++ (s.methods.map fun m => Transport.localEndpoint m.name).map fun x => (x, u)] x :=
    fun u x hx h => h.more (hfree _ x hx)
  rw [List.cons_append, U, run_fine (hfine _ _ (by decide) (.inr ⟨rfl, hpb⟩)), List.nil_append]
  have huse := run_uses (g := g) (b := svcBlock ++ (s.methods.map fun m => Transport.localEndpoint m.name).map fun x => (x, false))
    (bs := []) (xs := s.methods.map fun m => Transport.localEndpoint m.name) (by
      intro x hx
      rw [declared_append, (declared_map x false _).2 hx, Bool.or_true])
  rw [show (s.methods.map fun m => Ev.use (Transport.localEndpoint m.name)) =
    (s.methods.map fun m => Transport.localEndpoint m.name).map .use by rw [List.map_map]; rfl, run_append_some huse]
  have hend : (svcBlock ++ (s.methods.map fun m => Transport.localEndpoint m.name).map fun x => (x, false)).map
      (fun e => if e.1 ∈ s.methods.map (fun m => Transport.localEndpoint m.name) then (e.1, true) else e) =
      svcBlock ++ (s.methods.map fun m => Transport.localEndpoint m.name).map fun x => (x, true) := by
    rw [List.map_append]
    congr 1
    · refine List.map_congr_left (g := id) ?_ |>.trans (List.map_id _)
      intro e he
      rw [List.mem_singleton.1 he]
      exact if_neg (hfree _ _ (by decide))
    · rw [List.map_map]
      refine List.map_congr_left fun x hx => ?_
      simp only [Function.comp_def]
      rw [if_pos hx]
  rw [hend]
  have hnew : declared "endpoints".toList
      (svcBlock ++ (s.methods.map fun m => Transport.localEndpoint m.name).map fun x => (x, true)) = false := by
    rw [declared_append, Bool.or_eq_false_iff]
    exact ⟨by decide, Bool.eq_false_iff.2 fun h => hfree _ _ (by decide) ((declared_map _ _ _).1 h)⟩
  generalize hB : svcBlock ++ (s.methods.map fun m => Transport.localEndpoint m.name).map (fun x => (x, true)) = B at *
  have hall : B.all (·.2) = true := by
    rw [← hB, List.all_append, List.all_map, Bool.and_eq_true]
    exact ⟨rfl, List.all_eq_true.2 fun _ _ => rfl⟩
  have hsvc : Fine g [B ++ [("endpoints".toList, false)]] "service".toList := by
    refine Fine.more (xs := ["endpoints".toList]) ?_ (by decide)
    rw [← hB]
    exact hfine _ _ (by decide) (.inr ⟨rfl, hsv⟩)
  rw [S, List.cons_append, List.map_cons, List.map_nil, run_cons_some (step_short_one hnew), U, List.cons_append, run_fine hsvc, U,
    List.cons_append, run_cons_some (step_use_last hnew), A, List.cons_append]
  rw [run_cons_some (bs' := [B ++ [("endpoints".toList, true)]])]
  · rw [List.cons_append, run_cons_some (step_use_last hnew), List.nil_append]
    rw [run_cons_some (bs' := [])]
    · rfl
    · simp only [step]
      rw [if_pos]
      rw [List.all_append, hall]; rfl
  · simp only [step]
    rw [if_pos]
    unfold captured
    rw [List.any_cons, declared_append]
    simp [declared]

theorem newEndpoints_nodup {s : Svcdef.Service} {g : Outer} (h : FuncOK g (newEndpoints s)) :
    ((names s).map toLower).Nodup := by
  unfold FuncOK newEndpoints at h
  rw [List.cons_append, run_cons_some (bs' := [[]]) rfl] at h
  have := (run_tops (k := []) (inner := []) nofun h).1
  simp only [List.append_assoc] at this
  have h1 : ∀ r, tops [] 0 ([U "pb", U "pb", P "svc", U "service", U "svc", A "svc"] ++ r) = tops [] 0 r := fun r => rfl
  rw [List.length_nil, h1, tops_flatMap (f := fun m => Transport.localEndpoint m.name) (fun a r => rfl), List.nodup_append] at this
  have := this.1
  exact (localEndpoint_nodup s).1 this

theorem newEndpoints_decls {s : Svcdef.Service} {x : Str} (hx : x ∈ ["pb".toList, "service".toList]) :
    ∀ e ∈ .opn :: newEndpoints s ++ [.cls], x ∉ e.decls := by
  have h1 : ∀ x ∈ ["pb".toList, "service".toList], x.getLast? ≠ some 't' ∧ ∀ e ∈ [Ev.opn, U "pb", U "svc", P "svc", U "service", A "svc", S ["endpoints"],
      U "endpoints", A "endpoints", .cls], x ∉ e.decls := by decide +kernel
  intro e he
  obtain ⟨h2, h3⟩ := h1 x hx
  unfold newEndpoints at he
  simp only [List.cons_append, List.nil_append, List.mem_cons, List.mem_append, List.not_mem_nil, or_false, List.mem_flatMap,
    List.mem_map] at he h3
  rcases he with rfl | rfl | rfl | rfl | rfl | rfl | rfl | (((⟨m, _, he⟩ | rfl) | ⟨m, _, rfl⟩) | rfl | rfl | rfl | rfl | rfl) | rfl
  · exact h3 _ (by simp)
  · exact h3 _ (by simp)
  · exact h3 _ (by simp)
  · exact h3 _ (by simp)
  · exact h3 _ (by simp)
  · exact h3 _ (by simp)
  · exact h3 _ (by simp)
  · rcases he with rfl | rfl | rfl
    · exact h3 _ (by simp)
    · exact h3 _ (by simp)
    · exact fun h => ne_local h2 (List.mem_singleton.1 h)
  · exact h3 _ (by simp)
  · nofun
  · exact h3 _ (by simp)
  · exact h3 _ (by simp)
  · exact h3 _ (by simp)
  · exact h3 _ (by simp)
  · exact h3 _ (by simp)
  · exact h3 _ (by simp)

theorem run_decls {t : Str} {s : Svcdef.Service} {x : Str} (hx : x ∈ (["log", "http", "pprof", "grpc", "nats"].map String.toList)) :
    ∀ e ∈ .opn :: runEvs t s ++ [.cls], x ∉ e.decls := by
  unfold runEvs
  generalize grpcOn t = g
  generalize natsOn t = n
  by_cases hm : httpMethods s = []
  · simp only [hm, if_true]
    revert x
    cases g <;> cases n <;> decide +kernel
  · simp only [if_neg hm]
    revert x
    cases g <;> cases n <;> decide +kernel

/-- **C73** server.go is accepted exactly if it serves something (else `Run`'s variable `endpoints` is not used) and no two rpcs
differ in case only. -/
theorem C73_server (pkg : Outer) (t : Str) (s : Svcdef.Service)
    (hp : ∀ x ∈ ["Endpoints", "Interrupt", "HTTPServerOptions", "GRPCServerOptions", "NATSSubscriberOptions"],
      pkg.value x.toList = true) (hc : pkg.type "Config".toList = true) :
    FileOK pkg (serverFile t s) ↔ (grpcOn t ∨ natsOn t ∨ httpMethods s ≠ []) ∧ ((names s).map toLower).Nodup := by
  constructor
  · intro h
    refine ⟨Classical.byContradiction fun hc => run_bad hc _ (h.funcs _ (by simp [serverFile])), ?_⟩
    exact newEndpoints_nodup (h.funcs (newEndpoints s) (by simp [serverFile]))
  · rintro ⟨h, hn⟩
    have hv : ∀ x ∈ serverNames (grpcOn t) (natsOn t), ((serverFile t s).outer pkg).value x = true := by
      intro x hx
      show (_ || decide (x ∈ (serverFile t s).imports)) = true
      rw [Bool.or_eq_true, decide_eq_true_eq]
      simp only [serverNames, serverFile, List.map_append, List.mem_append] at hx ⊢
      rcases hx with (hx | hx) | hx
      · rw [List.map_cons, List.map_cons, List.map_cons, List.map_cons, List.map_cons] at hx
        simp only [List.mem_cons] at hx
        rcases hx with rfl | rfl | rfl | rfl | rfl | hx
        · exact .inl (hp _ (by simp))
        · exact .inl (hp _ (by simp))
        · exact .inl (hp _ (by simp))
        · exact .inl (hp _ (by simp))
        · exact .inl (hp _ (by simp))
        · right; left; left; exact hx
      · exact .inr (.inl (.inr hx))
      · exact .inr (.inr hx)
    have hle : (lists (serverNames (grpcOn t) (natsOn t)) ["Config".toList]).le ((serverFile t s).outer pkg) :=
      lists_le hv (by intro x hx; rw [List.mem_singleton.1 hx]; exact hc)
    have hrun := run_mono hle (run_ok h)
    have hmem : ∀ x ∈ (["log", "net", "http", "pprof", "runtime", "pb", "service"].map String.toList),
        x ∈ serverNames (grpcOn t) (natsOn t) := by
      cases grpcOn t <;> cases natsOn t <;> decide +kernel
    have hend := newEndpoints_ok hn (hv _ (hmem "pb".toList (by simp))) (hv _ (hmem "service".toList (by simp)))
    refine ⟨?_, ?_, nofun, ?_⟩
    · intro fn hf
      simp only [serverFile, List.mem_cons, List.not_mem_nil, or_false] at hf
      rcases hf with rfl | rfl
      · exact hrun
      · exact hend
    · intro x hx
      simp only [serverFile, List.mem_cons, List.not_mem_nil, or_false] at hx
      rcases hx with rfl | rfl
      · exact hv _ (hmem _ (by simp))
      · exact hv _ (hmem _ (by simp))
    · intro i hi
      have huse : ∀ x ∈ (["log", "http", "pprof", "grpc", "nats"].map String.toList),
          Ev.use x ∈ runEvs t s → ∃ fn ∈ (serverFile t s).funcs, uses ((serverFile t s).outer pkg) x []
            (.opn :: fn ++ [.cls]) = true := fun x hx hu =>
        ⟨_, by simp only [serverFile]; exact List.mem_cons_self,
          uses_of_mem hrun (List.mem_append_left _ (List.mem_cons_of_mem _ hu)) nofun (run_decls hx)⟩
      have huse' : ∀ x ∈ ["pb".toList, "service".toList],
          Ev.use x ∈ newEndpoints s → ∃ fn ∈ (serverFile t s).funcs, uses ((serverFile t s).outer pkg) x []
            (.opn :: fn ++ [.cls]) = true := fun x hx hu =>
        ⟨_, by simp only [serverFile]; exact List.mem_cons_of_mem _ List.mem_cons_self,
          uses_of_mem hend (List.mem_append_left _ (List.mem_cons_of_mem _ hu)) nofun (newEndpoints_decls hx)⟩
      have hfix : ∀ x ∈ (["log", "http", "pprof"].map String.toList), Ev.use x ∈ runEvs t s := by
        intro x hx
        unfold runEvs
        refine List.mem_append_left _ (List.mem_append_left _ (List.mem_append_left _ (List.mem_append_left _ ?_)))
        revert x
        decide +kernel
      simp only [serverFile, List.map_append, List.mem_append] at hi
      rcases hi with (hi | hi) | hi
      · simp only [List.map_cons, List.map_nil, List.mem_cons, List.not_mem_nil, or_false] at hi
        rcases hi with rfl | rfl | rfl | rfl | rfl | rfl | rfl
        · exact .inr (huse _ (by simp) (hfix _ (by simp)))
        · left; simp [serverFile]
        · exact .inr (huse _ (by simp) (hfix _ (by simp)))
        · exact .inr (huse _ (by simp) (hfix _ (by simp)))
        · left; simp [serverFile]
        · exact .inr (huse' _ (by simp) (by unfold newEndpoints; simp [U]))
        · exact .inr (huse' _ (by simp) (by unfold newEndpoints; simp [U]))
      · by_cases hn : natsOn t = true
        · rw [if_pos hn] at hi
          obtain rfl : i = "nats".toList := by simpa using hi
          refine .inr (huse _ (by simp) ?_)
          unfold runEvs
          rw [if_pos hn]
          refine List.mem_append_left _ (List.mem_append_right _ ?_)
          decide +kernel
        · rw [if_neg hn] at hi; cases hi
      · by_cases hg : grpcOn t = true
        · rw [if_pos hg] at hi
          obtain rfl : i = "grpc".toList := by simpa using hi
          refine .inr (huse _ (by simp) ?_)
          unfold runEvs
          rw [if_pos hg]
          refine List.mem_append_left _ (List.mem_append_left _ (List.mem_append_right _ ?_))
          decide +kernel
        · rw [if_neg hg] at hi; cases hi

/-! ## Examples -/

/-- A service with one rpc per name; `true`: with an HTTP binding. -/
def exSvc (ms : List (String × Bool)) : Svcdef.Service := ⟨"Users".toList, ms.map fun m =>
  ⟨m.1.toList, ⟨"Q".toList, none, [], none, none, true, false⟩, ⟨"R".toList, none, [], none, none, true, false⟩,
    if m.2 then [⟨"get".toList, "/a".toList, []⟩] else []⟩⟩

def exPkg : Outer := lists (["grpcAddr", "httpAddr", "natsAddr", "pln", "Endpoints", "Interrupt", "HTTPServerOptions",
  "GRPCServerOptions", "NATSSubscriberOptions"].map String.toList) ["Config".toList, "usersService".toList]

/-- Two rpcs, one of them without HTTP: all three files are accepted for every transport. -/
example (t : Str) : FileOK exPkg (serverFile t (exSvc [("Get", true), ("Ping", false)])) ∧
    FileOK exPkg (clientFile t (exSvc [("Get", true), ("Ping", false)])) ∧
    FileOK exPkg (serviceFile (exSvc [("Get", true), ("Ping", false)])) := by
  refine ⟨(C73_server _ _ _ (by decide) (by decide)).2 ⟨.inr (.inr (by decide)), by decide⟩,
    (C73_client _ _ _ (by decide)).2 ?_, (C73_service _ _ (by decide)).2 (by decide)⟩
  split <;> decide

/-- An rpc without HTTP binding, generated for HTTP only: neither the server nor the client compiles. -/
theorem C73_no_binding_witness : ¬ FileOK exPkg (serverFile "http".toList (exSvc [("Ping", false)])) ∧
    ¬ FileOK exPkg (clientFile "http".toList (exSvc [("Ping", false)])) := by
  rw [C73_server _ _ _ (by decide) (by decide), C73_client _ _ _ (by decide)]
  decide

/-- Two rpcs that differ in case only. -/
theorem C73_case_witness : ¬ FileOK exPkg (serverFile "all".toList (exSvc [("GetID", true), ("GetId", true)])) := by
  rw [C73_server _ _ _ (by decide) (by decide)]
  decide

/-- A service without rpcs, as `baron -s` could be edited to: no file compiles. -/
theorem C73_empty_witness : ¬ FileOK exPkg (serviceFile (exSvc [])) ∧ ¬ FileOK exPkg (clientFile "all".toList (exSvc [])) := by
  rw [C73_service _ _ (by decide), C73_client _ _ _ (by decide)]
  decide

end Baron.Locals
