import Verif.Proofs.GoServer
import Verif.Proofs.RunParts
import Verif.Props.Files

/-!
# C97 `Run` of the generated server: its text, and what it does under every schedule
-/

namespace Baron.GoServer

open Baron.Server (Config Proc Gen Wanted)
open Baron.TT hiding Config
open Baron.Svcdef (Service ServiceMethod)

/-! ## The text -/

theorem after_print (ws comment f : Str) (b r : Code) : ((serve comment f b r).after ws).print = ws ++ (serve comment f b r).print := by
  unfold serve Code.after
  simp only [Code.print, List.append_assoc]

macro "prints" : tactic => `(tactic| simp only [Code.print, printCall, printArgs, List.flatMap_cons, List.flatMap_nil, Atom.print, Callee.print, List.append_assoc])

set_option maxRecDepth 16000 in
theorem http_print (r : Code) (x : Str) (h : r.print = chars% "\n\t" ++ x) :
    (serve (chars% " HTTP transport") (chars% "HTTPAddr") httpBody r).print = httpRun ++ x := by
  unfold serve httpBody
  prints
  rw [h]
  rfl

set_option maxRecDepth 16000 in
theorem grpc_print (service : Str) (r : Code) (x : Str) (h : r.print = chars% "\n\t" ++ x) :
    (serve (chars% " gRPC transport") (chars% "GRPCAddr") (grpcBody service) r).print = grpcRun service ++ x := by
  unfold serve grpcBody giveUp grpcRun
  prints
  rw [h]
  rfl

set_option maxRecDepth 16000 in
theorem nats_print (r : Code) (x : Str) (h : r.print = chars% "\n\t" ++ x) :
    (serve (chars% " NATS transport") (chars% "NATSAddr") natsBody r).print = natsRun ++ x := by
  unfold serve natsBody giveUp
  prints
  rw [h]
  rfl

/-- The end of `Run` and the brace. -/
def exitText : Str := chars% "\n\n\t// Exit\n\tlog.Println(\"exit\", <-errc)\n"

theorem exit_print (ws : Str) : (run.exit ws).print = ws ++ exitText := by
  unfold run.exit exitText
  prints
  rfl

theorem withNATS_print (g : Gen) (ws : Str) : (run.withNATS g ws).print = ws ++ ((if g.nats = true then natsRun else []) ++ exitText) := by
  unfold run.withNATS
  cases g.nats with
  | true => rw [if_pos rfl, if_pos rfl, after_print, nats_print _ _ (exit_print _)]
  | false => rw [if_neg nofun, if_neg nofun, exit_print]; rfl

theorem withGRPC_print (service : Str) (g : Gen) (ws : Str) : (run.withGRPC service g ws).print =
    ws ++ ((if g.grpc = true then grpcRun service else []) ++ (chars% "\n\t" ++ ((if g.nats = true then natsRun else []) ++ exitText))) := by
  unfold run.withGRPC
  cases g.grpc with
  | true => rw [if_pos rfl, if_pos rfl, after_print, grpc_print service _ (chars% "\n\t" ++ ((if g.nats = true then natsRun else []) ++ exitText)) (withNATS_print g (chars% "\n\t\n\t"))]
  | false => rw [if_neg nofun, if_neg nofun, withNATS_print, List.append_assoc]; rfl

theorem withHTTP_print (service : Str) (g : Gen) (ws : Str) : (run.withHTTP service g ws).print =
    ws ++ ((if g.hasHTTP = true then httpRun else []) ++ (chars% "\n\t" ++ ((if g.grpc = true then grpcRun service else []) ++
      (chars% "\n\t" ++ ((if g.nats = true then natsRun else []) ++ exitText))))) := by
  unfold run.withHTTP
  cases g.hasHTTP with
  | true => rw [if_pos rfl, if_pos rfl, after_print, http_print _ (chars% "\n\t" ++ ((if g.grpc = true then grpcRun service else []) ++ (chars% "\n\t" ++ ((if g.nats = true then natsRun else []) ++ exitText)))) (withGRPC_print service g (chars% "\n\t\n\t"))]
  | false => rw [if_neg nofun, if_neg nofun, withGRPC_print, List.append_assoc]; rfl

/-- The beginning of `Run`. -/
def headText : Str :=
  chars% "func Run(cfg Config) {\n\t// Application domain\n\tendpoints := Endpoints()\n\n\t// Port domain\n\terrc := make(chan error)\n\n\t// Server Interrupt \n\tgo Interrupt(errc)\n\n\t// Debug listener\n\tif cfg.Debug {\n\t\tgo func() {\n\t\t\tlog.Println(\"transport\", \"debug\", \"addr\", cfg.DebugAddr)\n\n\t\t\tm := http.NewServeMux()\n\t\t\tm.Handle(\"/debug/pprof/\", http.HandlerFunc(pprof.Index))\n\t\t\tm.Handle(\"/debug/pprof/cmdline\", http.HandlerFunc(pprof.Cmdline))\n\t\t\tm.Handle(\"/debug/pprof/profile\", http.HandlerFunc(pprof.Profile))\n\t\t\tm.Handle(\"/debug/pprof/symbol\", http.HandlerFunc(pprof.Symbol))\n\t\t\tm.Handle(\"/debug/pprof/trace\", http.HandlerFunc(pprof.Trace))\n\n\t\t\terrc <- http.ListenAndServe(cfg.DebugAddr, m)\n\t\t}()\n\t}\n\t"

set_option maxRecDepth 16000 in
theorem run_print (service : Str) (g : Gen) : (run service g).print =
    headText ++ ((if g.hasHTTP = true then httpRun else []) ++ (chars% "\n\t" ++ ((if g.grpc = true then grpcRun service else []) ++
      (chars% "\n\t" ++ ((if g.nats = true then natsRun else []) ++ (exitText ++ chars% "}\n")))))) := by
  unfold Func.print
  have hb : (run service g).body.print = chars% "\n\t// Application domain\n\tendpoints := Endpoints()\n\n\t// Port domain\n\terrc := make(chan error)\n\n\t// Server Interrupt \n\tgo Interrupt(errc)\n\n\t// Debug listener\n\tif cfg.Debug {\n\t\tgo func() {" ++ (debugBody.print ++ (chars% "}()\n\t}" ++ (run.withHTTP service g (chars% "\n\t")).print)) := by
    unfold run
    prints
    rfl
  have hd : debugBody.print = chars% "\n\t\t\tlog.Println(\"transport\", \"debug\", \"addr\", cfg.DebugAddr)\n\n\t\t\tm := http.NewServeMux()\n\t\t\tm.Handle(\"/debug/pprof/\", http.HandlerFunc(pprof.Index))\n\t\t\tm.Handle(\"/debug/pprof/cmdline\", http.HandlerFunc(pprof.Cmdline))\n\t\t\tm.Handle(\"/debug/pprof/profile\", http.HandlerFunc(pprof.Profile))\n\t\t\tm.Handle(\"/debug/pprof/symbol\", http.HandlerFunc(pprof.Symbol))\n\t\t\tm.Handle(\"/debug/pprof/trace\", http.HandlerFunc(pprof.Trace))\n\n\t\t\terrc <- http.ListenAndServe(cfg.DebugAddr, m)\n\t\t" := by
    decide +kernel
  rw [hb, hd, withHTTP_print]
  unfold headText
  simp only [List.append_assoc]
  rfl

/-- What a service is generated with. -/
def generated (s : Service) (c : TT.Config) : Gen :=
  ⟨decide (∃ m ∈ s.methods, m.bindings ≠ []), decide (c.transport = "all".toList ∨ c.transport = "grpc".toList),
    decide (c.transport = "all".toList ∨ c.transport = "nats".toList)⟩

theorem hasHTTP_iff (s : Service) (c : TT.Config) : (generated s c).hasHTTP = true ↔ httpRpcs s ≠ [] := by
  unfold generated httpRpcs
  rw [decide_eq_true_iff, ne_eq, List.filter_eq_nil_iff]
  constructor
  · rintro ⟨m, hm, hb⟩ h
    exact h m hm (by cases hc : m.bindings with | nil => exact absurd hc hb | cons => rfl)
  · intro h
    refine Classical.byContradiction fun hn => h fun m hm hb => hn ⟨m, hm, fun e => ?_⟩
    rw [e] at hb
    cases hb

set_option maxRecDepth 16000 in
theorem exec_serverRunT {pkg : Str} {s : Service} {c : TT.Config} {ms : List Val} (hms : ms.isEmpty = (httpRpcs s).isEmpty) :
    exec serverRunT [([], dataWith pkg s c ms)] (dataWith pkg s c ms) = some (run s.name (generated s c)).print := by
  rw [run_print]
  have h1 : (if (generated s c).hasHTTP = true then httpRun else []) = if httpRpcs s = [] then [] else httpRun := by
    by_cases h : httpRpcs s = []
    · rw [if_pos h, if_neg fun e => (hasHTTP_iff s c).mp e h]
    · rw [if_neg h, if_pos ((hasHTTP_iff s c).mpr h)]
  have h2 : (generated s c).grpc = selected (chars% "grpc") c := by
    show decide _ = _
    unfold selected
    by_cases ha : c.transport = chars% "all" <;> by_cases hb : c.transport = chars% "grpc" <;> simp [ha, hb]
  have h3 : (generated s c).nats = selected (chars% "nats") c := by
    show decide _ = _
    unfold selected
    by_cases ha : c.transport = chars% "all" <;> by_cases hb : c.transport = chars% "nats" <;> simp [ha, hb]
  rw [h1, h2, h3]
  unfold serverRunT
  refine Eq.trans (exec_text (exec_cond (v := .list ms) rfl (truth_list hms exec_text_nil) (exec_text (exec_cond (selected_eval _)
    (if_some (exec_text (exec_action rfl exec_text_nil))) (exec_text (exec_cond (selected_eval _) (if_some exec_text_nil)
    exec_text_nil)))))) ?_
  rfl

set_option maxRecDepth 16000 in
theorem exec_interruptT {vars : TT.Vars} {v : Val} : exec interruptT vars v = some interrupt.print := by
  unfold interruptT
  refine exec_text_nil.trans (congrArg some ?_)
  decide +kernel

/-! ## What it does -/

/-- What is claimed of an execution of `Run` whose goroutines are `procs`, in the order in which they are started. -/
structure Served {E : Type} (fs : List Func) (run : Func) (service : Str) (cfg : Config) (procs : List Proc) (l : List (Event E)) (s : State E) : Prop where
  /-- they are started one after the other, and all of them before `Run` returns -/
  started : starts l ≤ procs.length ∧ (s.exited ≠ none → starts l = procs.length)
  /-- what has been done by one that has been started is the beginning of something complete, and complete if it has come to the channel -/
  does : ∀ i p, i < starts l → procs[i]? = some p → (∃ acts e, Complete service cfg p (deeds i l ++ acts) e) ∧
    ∀ e, (i, e) ∈ sent l → Complete service cfg p (deeds i l) (.sends e)
  /-- nobody else does anything -/
  others : ∀ i, starts l ≤ i → deeds i l = [] ∧ ∀ e, (i, e) ∉ sent l
  /-- no goroutine comes to the channel twice -/
  once : ((sent l).map (·.1)).Nodup
  /-- `Run` returns with the first error (or signal) that came -/
  first : ∀ x, s.exited = some x → (sent l).head? = some x
  /-- and when one has come it can return, whatever the others do -/
  returns : s.exited = none → sent l ≠ [] → ∃ l' s', Exec fs cfg (State.call run) (l ++ l') s' ∧ s'.exited = (sent l).head? ∧
    sent l' = [] ∧ ∀ i, deeds i l' = []

theorem served {E : Type} [Inhabited E] (service : Str) (g : Gen) (cfg : Config) {l : List (Event E)} {s : State E}
    (h : Exec [interrupt] cfg (State.call (run service g)) l s) :
    Served [interrupt] (run service g) service cfg (Server.program g cfg) l s := by
  obtain ⟨T, hi⟩ := inv_exec h
  have hg := good_run (E := E) (c := cfg) service g
  have hT : ∃ m, MRun [interrupt] cfg ⟨[(run service g).body], [], .ready⟩ T m := by
    cases hx : s.exited with
    | none => exact ⟨_, hi.main hx⟩
    | some x =>
      obtain ⟨m, hm, _⟩ := hi.exited (by rw [hx]; nofun)
      exact ⟨m, hm⟩
  have hpre : T <+: (Server.program g cfg).map (initial service) := by
    obtain ⟨m, hm⟩ := hT
    exact (hg _ _ hm).pre
  have hlen : T.length ≤ (Server.program g cfg).length := by
    have := hpre.length_le
    rwa [List.length_map] at this
  have hat : ∀ i p, i < T.length → (Server.program g cfg)[i]? = some p → T[i]? = some (initial service p) := by
    intro i p hlt hp
    obtain ⟨r, hr⟩ := hpre
    have : ((Server.program g cfg).map (initial (E := E) service))[i]? = some (initial service p) := by rw [List.getElem?_map, hp]; rfl
    rw [← hr, List.getElem?_append_left hlt] at this
    exact this
  constructor
  · refine ⟨hi.count ▸ hlen, fun hx => ?_⟩
    obtain ⟨m, hm, ws, sx, ch, r, k, vs, rfl, hc⟩ := hi.exited hx
    have := (hg _ _ hm).all ws sx ch r k vs rfl
    rw [hi.count]
    have := congrArg List.length this
    rwa [List.nil_append, List.length_map] at this
  · intro i p hlt hp
    rw [hi.count] at hlt
    have ht := hat i p hlt hp
    obtain ⟨t, hth⟩ : ∃ t, s.threads[i]? = some t := ⟨_, List.getElem?_eq_getElem (by rw [hi.length]; exact hlt)⟩
    have hgood := good_initial (E := E) (c := cfg) service p
    rcases hi.each i _ t ht hth with ⟨h3, h4⟩ | ⟨u, e, h3, h4, h5, h6⟩
    · have := hgood _ _ h3
      rw [List.nil_append] at this
      exact ⟨this.pre, fun e he => absurd he (h4 e)⟩
    · have := hgood _ _ h3
      rw [List.nil_append] at this
      refine ⟨this.pre, fun e' he => ?_⟩
      cases (h5 e').mp he
      exact (this.send _ _ h4).2
  · intro i hle
    rw [hi.count] at hle
    exact ⟨hi.later i hle, fun e he => absurd (hi.known i e he) (by omega)⟩
  · exact hi.once
  · intro x hx
    rw [← hi.first x hx]
    rfl
  · intro hx hne
    obtain ⟨m, ts, q, x⟩ := s
    cases hx
    have hm := hi.main rfl
    obtain ⟨M, m', h1, ws, sx, ch, r, k, vs, rfl, hc⟩ := (hg _ _ hm).can
    obtain ⟨l', ts', h2, h3, h4⟩ := exec_main h1 h
    have hq : q = sent l := hi.queue rfl
    cases hs : sent l with
    | nil => exact absurd hs hne
    | cons y q' =>
      obtain ⟨i, e⟩ := y
      rw [hq, hs] at h2
      refine ⟨l' ++ [.exits i e], _, by rw [← List.append_assoc]; exact h2.step (.receive hc), rfl, ?_, fun j => ?_⟩
      · rw [sent_snoc, h3]; rfl
      · rw [deeds_snoc, h4]; rfl

/-- **C97** server.go and interrupt.go have functions `Run` and `Interrupt` such that, for every configuration the server is run with and every execution
(every schedule, every way the servers and connections fail or do not): `Run` starts one goroutine for the signals, one for each server that
is wanted, and no other; each serves at its address with the handler made from the service's endpoints, and ends with the error of the
server; and `Run` returns exactly after the first error or signal has come, with that. -/
theorem C97_run {fmt : Str → Str} {pkg : Str} {s : Service} {c : TT.Config} {txt itxt : Str}
    (h : render fmt pkg s c "server/server.go.tmpl".toList = some txt) (hi : render fmt pkg s c "server/interrupt.go.tmpl".toList = some itxt) :
    ∃ run int : Func, (run.name = "Run".toList ∧ run.param = "cfg".toList ∧ run.type = "Config".toList ∧ int.name = "Interrupt".toList) ∧
      Occurs run.print txt ∧ Occurs int.print itxt ∧
      ∀ cfg : Config, ∃ procs : List Proc, procs.Nodup ∧ (∀ p, p ∈ procs ↔ Wanted (generated s c) cfg p) ∧
        ∀ (E : Type) [Inhabited E] (l : List (Event E)) (st : State E), Exec [int] cfg (State.call run) l st → Served [int] run s.name cfg procs l st := by
  refine ⟨run s.name (generated s c), interrupt, ⟨rfl, rfl, rfl, rfl⟩, ?_, ?_, fun cfg => ⟨Server.program (generated s c) cfg,
    Server.program_nodup _ _, Server.mem_program _ _, fun E _ l st he => served s.name _ cfg he⟩⟩
  · obtain ⟨ms, hms, t, hp, he⟩ := render_data (src := serverSrc) rfl h
    obtain ⟨a, h1, h2⟩ := exec_part 12 319 6 42 he
    rw [map_some serverRunT_eq hp, exec_serverRunT (all2_isEmpty hms)] at h1
    cases h1
    exact h2
  · obtain ⟨ms, hms, t, hp, he⟩ := render_data (src := interruptSrc) rfl hi
    obtain ⟨a, h1, h2⟩ := exec_part 0 95 0 1000 he
    rw [map_some interruptT_eq hp, exec_interruptT] at h1
    cases h1
    exact h2

namespace Example

/-- A server of HTTP and gRPC run with an HTTP address. -/
def cfg : Config := ⟨":80".toList, [], [], [], false⟩

def gen : Gen := ⟨true, true, false⟩

/-- An execution in which the HTTP server fails with the error 7, before `Run` receives. -/
example : ∃ (l : List (Event Nat)) (s : State Nat), Exec [interrupt] cfg (State.call (run "S".toList gen)) l s ∧ s.exited = some (1, some 7) ∧
    sent l = [(1, some 7)] ∧ starts l = 2 := by
  have h : Exec (E := Nat) [interrupt] cfg (State.call (run "S".toList gen)) _ _ :=
    ((((((Exec.nil.step (.main .comment)).step (.main (.define rfl))).step (.main .comment)).step (.main .makeChan)).step (.main .comment)).step
      (.goCall (fn := interrupt) (.head _) rfl)).step (.main .comment)
  have h := ((h.step (.main .ifSet)).step (.main .comment)).step (.main (.ifNonempty rfl))
  have h := (((h.step .goFunc).step (.main .pop)).step (.main .comment)).step (.main (.ifNonempty rfl))
  have h := h.step (.thread (i := 1) rfl (.log (log_eval (by unfold Plain; decide) rfl)))
  have h := h.step (.thread (i := 1) rfl (.define rfl))
  have h := h.step (.thread (i := 1) rfl (.sendCall rfl))
  have h := h.step (.thread (i := 1) rfl (.sendCalled (e := some 7)))
  have h := h.step (.send (i := 1) rfl (.result rfl))
  have h := (h.step (.main .comment)).step (.receive rfl)
  exact ⟨_, _, h, rfl, rfl, rfl⟩

open Baron.TT.Example (second conf)

/-- The hypotheses of `C97_run` are met by every service; this one is generated with gRPC. -/
example : (∃ txt itxt, render id "pb".toList second conf "server/server.go.tmpl".toList = some txt ∧
    render id "pb".toList second conf "server/interrupt.go.tmpl".toList = some itxt) ∧ (generated second conf).grpc = true := by
  obtain ⟨txt, h⟩ := C84_render id "pb".toList second conf "server/server.go.tmpl".toList (by decide +kernel)
  obtain ⟨itxt, hi⟩ := C84_render id "pb".toList second conf "server/interrupt.go.tmpl".toList (by decide +kernel)
  exact ⟨⟨txt, itxt, h, hi⟩, by decide +kernel⟩

end Example

end Baron.GoServer
