import Verif.Model.Server

/-!
# C55, C56: configuration and running of the generated server

The specification is below: which value a setting has, what an execution reports.
-/

namespace Baron.Server

/-! ## C55: configuration -/

/-- The first of some sources that says something. -/
def firstOf {α : Type} (l : List (Option α)) (default : α) : α := (l.findSome? id).getD default

/-- A variable that is set to something. -/
def var (env : Str → Str) (name : String) : Option Str := if env name.toList = [] then none else some (env name.toList)

/-- The last value a flag was given, if any; `get` says which flag. -/
def lastFlag {α : Type} (get : Flag → Option α) (flags : List Flag) : Option α := (flags.filterMap get).getLast?

def isHTTP : Flag → Option Str | .httpAddr v => some v | _ => none
def isDebugAddr : Flag → Option Str | .debugAddr v => some v | _ => none
def isGRPC : Flag → Option Str | .grpcAddr v => some v | _ => none
def isNATS : Flag → Option Str | .natsAddr v => some v | _ => none
def isDebug : Flag → Option Bool | .debug v => some v | _ => none

theorem foldl_last {α : Type} (get : Flag → Option α) (field : Config → α)
    (h : ∀ c f, field (setFlag c f) = (get f).getD (field c)) (flags : List Flag) (c : Config) :
    field (flags.foldl setFlag c) = (lastFlag get flags).getD (field c) := by
  induction flags generalizing c with
  | nil => rfl
  | cons f fs ih =>
    rw [List.foldl_cons, ih, h]
    simp only [lastFlag, List.filterMap_cons]
    cases hf : get f with
    | none => rfl
    | some v =>
      simp only [Option.getD_some]
      cases hl : fs.filterMap get with
      | nil => rfl
      | cons x xs => simp [List.getLast?_cons]

/-- **C55.** For every environment and command line: a flag (its last occurrence) beats the environment, which beats the
default; the HTTP address in the environment is `HTTP_ADDR`, or `:` and `PORT`; debugging is on in the environment exactly
when `DEBUG` is `true` in any case. No setting influences another one. -/
theorem C55_configuration (env : Str → Str) (flags : List Flag) :
    (configure env flags).httpAddr =
      firstOf [lastFlag isHTTP flags, var env "HTTP_ADDR", (var env "PORT").map (':' :: ·)] [] ∧
    (configure env flags).debugAddr = firstOf [lastFlag isDebugAddr flags, var env "DEBUG_ADDR"] ":5060".toList ∧
    (configure env flags).grpcAddr = firstOf [lastFlag isGRPC flags, var env "GRPC_ADDR"] [] ∧
    (configure env flags).natsAddr = firstOf [lastFlag isNATS flags, var env "NATS_ADDR"] [] ∧
    (configure env flags).debug =
      firstOf [lastFlag isDebug flags, (var env "DEBUG").map fun v => decide (toLower v = "true".toList)] false := by
  have key : ∀ {α : Type} (o : Option α) (l : List (Option α)) (d : α), firstOf (o :: l) d = o.getD (firstOf l d) := by
    intro α o l d; cases o <;> simp [firstOf]
  have hnil : ∀ {α : Type} (d : α), firstOf [] d = d := fun d => rfl
  simp only [configure]
  rw [foldl_last isHTTP Config.httpAddr (by intro c f; cases f <;> rfl),
    foldl_last isDebugAddr Config.debugAddr (by intro c f; cases f <;> rfl),
    foldl_last isGRPC Config.grpcAddr (by intro c f; cases f <;> rfl),
    foldl_last isNATS Config.natsAddr (by intro c f; cases f <;> rfl),
    foldl_last isDebug Config.debug (by intro c f; cases f <;> rfl)]
  simp only [key, hnil]
  have e1 : (fromEnv env defaults).httpAddr =
      (var env "HTTP_ADDR").getD (((var env "PORT").map (':' :: ·)).getD []) := by
    simp only [fromEnv, var, defaults]
    by_cases h1 : env "DEBUG".toList = [] <;> by_cases h2 : env "DEBUG_ADDR".toList = [] <;>
    by_cases h3 : env "PORT".toList = [] <;> by_cases h4 : env "HTTP_ADDR".toList = [] <;>
    by_cases h5 : env "GRPC_ADDR".toList = [] <;> by_cases h6 : env "NATS_ADDR".toList = [] <;>
    simp only [h1, h2, h3, h4, h5, h6, ne_eq, not_true_eq_false, not_false_eq_true, if_true, if_false, Option.getD_some,
      Option.getD_none, Option.map_some, Option.map_none]
  have e2 : (fromEnv env defaults).debugAddr = (var env "DEBUG_ADDR").getD ":5060".toList := by
    simp only [fromEnv, var, defaults]
    by_cases h1 : env "DEBUG".toList = [] <;> by_cases h2 : env "DEBUG_ADDR".toList = [] <;>
    by_cases h3 : env "PORT".toList = [] <;> by_cases h4 : env "HTTP_ADDR".toList = [] <;>
    by_cases h5 : env "GRPC_ADDR".toList = [] <;> by_cases h6 : env "NATS_ADDR".toList = [] <;>
    simp only [h1, h2, h3, h4, h5, h6, ne_eq, not_true_eq_false, not_false_eq_true, if_true, if_false, Option.getD_some,
      Option.getD_none]
  have e3 : (fromEnv env defaults).grpcAddr = (var env "GRPC_ADDR").getD [] := by
    simp only [fromEnv, var, defaults]
    by_cases h1 : env "DEBUG".toList = [] <;> by_cases h2 : env "DEBUG_ADDR".toList = [] <;>
    by_cases h3 : env "PORT".toList = [] <;> by_cases h4 : env "HTTP_ADDR".toList = [] <;>
    by_cases h5 : env "GRPC_ADDR".toList = [] <;> by_cases h6 : env "NATS_ADDR".toList = [] <;>
    simp only [h1, h2, h3, h4, h5, h6, ne_eq, not_true_eq_false, not_false_eq_true, if_true, if_false, Option.getD_some,
      Option.getD_none]
  have e4 : (fromEnv env defaults).natsAddr = (var env "NATS_ADDR").getD [] := by
    simp only [fromEnv, var, defaults]
    by_cases h1 : env "DEBUG".toList = [] <;> by_cases h2 : env "DEBUG_ADDR".toList = [] <;>
    by_cases h3 : env "PORT".toList = [] <;> by_cases h4 : env "HTTP_ADDR".toList = [] <;>
    by_cases h5 : env "GRPC_ADDR".toList = [] <;> by_cases h6 : env "NATS_ADDR".toList = [] <;>
    simp only [h1, h2, h3, h4, h5, h6, ne_eq, not_true_eq_false, not_false_eq_true, if_true, if_false, Option.getD_some,
      Option.getD_none]
  have e5 : (fromEnv env defaults).debug =
      ((var env "DEBUG").map fun v => decide (toLower v = "true".toList)).getD false := by
    simp only [fromEnv, var, defaults]
    by_cases h1 : env "DEBUG".toList = [] <;> by_cases h2 : env "DEBUG_ADDR".toList = [] <;>
    by_cases h3 : env "PORT".toList = [] <;> by_cases h4 : env "HTTP_ADDR".toList = [] <;>
    by_cases h5 : env "GRPC_ADDR".toList = [] <;> by_cases h6 : env "NATS_ADDR".toList = [] <;>
    simp only [h1, h2, h3, h4, h5, h6, ne_eq, not_true_eq_false, not_false_eq_true, if_true, if_false, Option.getD_some,
      Option.getD_none, Option.map_some, Option.map_none] <;>
    (rw [Bool.eq_iff_iff, decide_eq_true_eq, decide_eq_true_eq]; exact eq_comm)
  rw [e1, e2, e3, e4, e5]
  exact ⟨rfl, rfl, rfl, rfl, rfl⟩

example : configure (fun n => if n = "PORT".toList then "80".toList else if n = "DEBUG".toList then "True".toList else [])
    [.grpcAddr ":1".toList, .grpcAddr ":2".toList] = ⟨":80".toList, ":5060".toList, ":2".toList, [], true⟩ := by
  decide +kernel

/-! ## C56: running -/

/-- Which goroutines a configuration asks for. -/
def Wanted (g : Gen) (c : Config) : Proc → Prop
  | .interrupt => True
  | .debug => c.debug = true
  | .http => g.hasHTTP = true ∧ c.httpAddr ≠ []
  | .grpc => g.grpc = true ∧ c.grpcAddr ≠ []
  | .nats => g.nats = true ∧ c.natsAddr ≠ []

/-- The failures (signals included) that happened, oldest first. -/
def failures {E : Type} (l : List (Event E)) : List (Proc × E) :=
  l.filterMap fun | .fails p e => some (p, e) | _ => none

theorem mem_program (g : Gen) (c : Config) (p : Proc) : p ∈ program g c ↔ Wanted g c p := by
  cases p <;> simp only [program, Wanted, List.mem_append] <;>
    by_cases h1 : c.debug = true <;> by_cases h2 : g.hasHTTP = true ∧ c.httpAddr ≠ [] <;>
    by_cases h3 : g.grpc = true ∧ c.grpcAddr ≠ [] <;> by_cases h4 : g.nats = true ∧ c.natsAddr ≠ [] <;>
    simp only [h1, h2, h3, h4, if_true, if_false] <;> simp [h1]

theorem program_nodup (g : Gen) (c : Config) : (program g c).Nodup := by
  simp only [program]
  split <;> split <;> split <;> split <;> decide

/-- The goroutines started, oldest first. -/
def started {E : Type} (l : List (Event E)) : List Proc :=
  l.filterMap fun | .launch p => some p | _ => none

structure Inv {E : Type} (g : Gen) (c : Config) (l : List (Event E)) (s : State E) : Prop where
  prog : started l ++ s.todo = program g c
  queue : s.returned.toList ++ s.queue = failures l
  ret : s.returned.isSome → s.todo = []
  procs : ∀ p, p ∈ s.running → p ∈ started l
  nodup : s.running.Nodup
  once : (failures l).map (·.1) ++ s.running ⊆ started l ∧ ((failures l).map (·.1) ++ s.running).Nodup
  alive : ∀ p ∈ started l, p ≠ .nats → p ∈ s.running ∨ p ∈ (failures l).map (·.1)

theorem inv_exec {E : Type} (g : Gen) (c : Config) {l : List (Event E)} {s : State E} (h : Exec (start g c) l s) :
    Inv g c l s := by
  induction h with
  | nil => exact ⟨by simp [started, start], by simp [failures, start], by simp [start], by simp [start], by simp [start],
      by simp [failures, start], by simp [started]⟩
  | @step l s s' ev _ hs ih =>
    have hst : ∀ ev : Event E, started (l ++ [ev]) = started l ++ started [ev] := by
      intro ev; simp [started, List.filterMap_append]
    have hfa : ∀ ev : Event E, failures (l ++ [ev]) = failures l ++ failures [ev] := by
      intro ev; simp [failures, List.filterMap_append]
    have hnd : (started l ++ s.todo).Nodup := by rw [ih.prog]; exact program_nodup g c
    cases hs with
    | @launch p ps run q =>
      have h1 := ih.prog; have h2 := ih.queue; have h3 := ih.procs; have h4 := ih.nodup; have h5 := ih.once
      have h6 := ih.alive
      simp only at h1 h2 h3 h4 h5 h6 hnd
      have hp : p ∉ started l := by
        intro hm
        have := (List.nodup_append.1 hnd).2.2 p hm p (by simp)
        exact this rfl
      have e1 : started (l ++ [Event.launch p]) = started l ++ [p] := by rw [hst]; rfl
      have e2 : failures (l ++ [(Event.launch p : Event E)]) = failures l := by rw [hfa]; simp [failures]
      refine ⟨by rw [e1]; simpa using h1, by rw [e2]; exact h2, by simp, ?_, ?_, ?_, ?_⟩
      · intro x hx
        rw [e1]
        rcases List.mem_append.1 hx with hx | hx
        · exact List.mem_append_left _ (h3 x hx)
        · exact List.mem_append_right _ hx
      · rw [List.nodup_append]
        refine ⟨h4, by simp, ?_⟩
        intro a ha b hb
        simp only [List.mem_singleton] at hb
        subst hb
        rintro rfl
        exact hp (h3 a ha)
      · rw [e1, e2]
        constructor
        · intro x hx
          rw [← List.append_assoc] at hx
          rcases List.mem_append.1 hx with hx | hx
          · exact List.mem_append_left _ (h5.1 hx)
          · exact List.mem_append_right _ hx
        · rw [← List.append_assoc, List.nodup_append]
          refine ⟨h5.2, by simp, ?_⟩
          intro a ha b hb
          simp only [List.mem_singleton] at hb
          subst hb
          rintro rfl
          exact hp (h5.1 ha)
      · intro x hx hn
        rw [e1] at hx
        rw [e2]
        rcases List.mem_append.1 hx with hx | hx
        · rcases h6 x hx hn with h | h
          · exact .inl (List.mem_append_left _ h)
          · exact .inr h
        · exact .inl (List.mem_append_right _ hx)
    | @fails p todo run q e hp =>
      have h1 := ih.prog; have h2 := ih.queue; have h3 := ih.procs; have h4 := ih.nodup; have h5 := ih.once
      have h6 := ih.alive
      simp only at h1 h2 h3 h4 h5 h6
      have e1 : started (l ++ [(Event.fails p e : Event E)]) = started l := by rw [hst]; simp [started]
      have e2 : failures (l ++ [Event.fails p e]) = failures l ++ [(p, e)] := by rw [hfa]; rfl
      refine ⟨by rw [e1]; exact h1, by rw [e2, ← h2]; simp, by simp, ?_, h4.erase p, ?_, ?_⟩
      · intro x hx; rw [e1]; exact h3 x (List.mem_of_mem_erase hx)
      · rw [e1, e2]
        have hperm : ((failures l ++ [(p, e)]).map (·.1) ++ run.erase p).Perm ((failures l).map (·.1) ++ run) := by
          rw [List.map_append, List.append_assoc]
          apply List.Perm.append_left
          exact (List.perm_cons_erase hp).symm
        exact ⟨fun x hx => h5.1 (hperm.subset hx), hperm.nodup_iff.2 h5.2⟩
      · intro x hx hn
        rw [e1] at hx
        rw [e2]
        by_cases hxp : x = p
        · exact .inr (by rw [hxp]; simp)
        · rcases h6 x hx hn with h | h
          · exact .inl ((List.mem_erase_of_ne hxp).2 h)
          · exact .inr (by rw [List.map_append]; exact List.mem_append_left _ h)
    | @subscribed todo run q hp =>
      have h1 := ih.prog; have h2 := ih.queue; have h3 := ih.procs; have h4 := ih.nodup; have h5 := ih.once
      have h6 := ih.alive
      simp only at h1 h2 h3 h4 h5 h6
      have e1 : started (l ++ [(Event.subscribed : Event E)]) = started l := by rw [hst]; simp [started]
      have e2 : failures (l ++ [(Event.subscribed : Event E)]) = failures l := by rw [hfa]; simp [failures]
      refine ⟨by rw [e1]; exact h1, by rw [e2]; exact h2, by simp, ?_, h4.erase _, ?_, ?_⟩
      · intro x hx; rw [e1]; exact h3 x (List.mem_of_mem_erase hx)
      · rw [e1, e2]
        have hsub : ((failures l).map (·.1) ++ run.erase .nats).Sublist ((failures l).map (·.1) ++ run) :=
          (List.Sublist.refl _).append List.erase_sublist
        exact ⟨fun x hx => h5.1 (hsub.subset hx), hsub.nodup h5.2⟩
      · intro x hx hn
        rw [e1] at hx
        rw [e2]
        rcases h6 x hx hn with h | h
        · exact .inl ((List.mem_erase_of_ne hn).2 h)
        · exact .inr h
    | @receives run x q =>
      have h1 := ih.prog; have h2 := ih.queue; have h3 := ih.procs; have h4 := ih.nodup; have h5 := ih.once
      have h6 := ih.alive
      simp only at h1 h2 h3 h4 h5 h6
      have e1 : started (l ++ [(Event.receives : Event E)]) = started l := by rw [hst]; simp [started]
      have e2 : failures (l ++ [(Event.receives : Event E)]) = failures l := by rw [hfa]; simp [failures]
      exact ⟨by rw [e1]; exact h1, by rw [e2]; simpa using h2, by simp, by rw [e1]; exact h3, h4, by rw [e1, e2]; exact h5,
        by rw [e1, e2]; exact h6⟩

/-- **C56.** In every execution, under every schedule: `Run` has returned only if a signal arrived or a server failed, and
what it reports is the first such event. -/
theorem C56_reports_first_failure {E : Type} (g : Gen) (c : Config) {l : List (Event E)} {s : State E}
    (h : Exec (start g c) l s) (x : Proc × E) (hx : s.returned = some x) : (failures l).head? = some x := by
  have := (inv_exec g c h).queue
  rw [hx] at this
  rw [← this]; rfl

/-- **C56.** `Run` never returns on its own: as long as no signal arrived and no server failed it has not returned. -/
theorem C56_keeps_running {E : Type} (g : Gen) (c : Config) {l : List (Event E)} {s : State E}
    (h : Exec (start g c) l s) (hf : failures l = []) : s.returned = none := by
  have := (inv_exec g c h).queue
  rw [hf] at this
  cases hr : s.returned with
  | none => rfl
  | some x => rw [hr] at this; simp at this

/-- **C56.** A signal or failure does end the server: from every reachable state in which one has happened, `Run` returns
after at most its remaining `go` statements and one receive, whatever the other goroutines do or do not do. -/
theorem C56_returns {E : Type} (g : Gen) (c : Config) {l : List (Event E)} {s : State E}
    (h : Exec (start g c) l s) (hf : failures l ≠ []) (hr : s.returned = none) :
    ∃ s', Exec (start g c) (l ++ s.todo.map .launch ++ [.receives]) s' ∧ s'.returned = (failures l).head? := by
  have hq : s.queue = failures l := by
    have := (inv_exec g c h).queue
    rw [hr] at this; simpa using this
  have launchAll : ∀ (todo run : List Proc) (l : List (Event E)),
      Exec (start g c) l ⟨todo, run, s.queue, none⟩ →
      Exec (start g c) (l ++ todo.map .launch) ⟨[], run ++ todo, s.queue, none⟩ := by
    intro todo
    induction todo with
    | nil => intro run l h; simpa using h
    | cons p ps ih =>
      intro run l h
      have := ih (run ++ [p]) _ (h.step .launch)
      simpa using this
  obtain ⟨todo, run, q, ret⟩ := s
  simp only at hr hq launchAll
  subst hr
  have h1 := launchAll todo run l h
  cases q with
  | nil => exact absurd hq.symm hf
  | cons x xs =>
    refine ⟨_, h1.step .receives, ?_⟩
    rw [← hq]; rfl

/-- **C56.** What is started: only goroutines the configuration asks for, each at most once, and all of them once `Run` waits
(before it can return). A started one keeps running until it fails, except that the NATS one may end after
subscribing. -/
theorem C56_started {E : Type} (g : Gen) (c : Config) {l : List (Event E)} {s : State E} (h : Exec (start g c) l s) :
    (∀ p ∈ started l, Wanted g c p) ∧ (started l).Nodup ∧
    (s.todo = [] ∨ s.returned.isSome → ∀ p, Wanted g c p → p ∈ started l) ∧
    (∀ p ∈ started l, p ≠ .nats → p ∈ s.running ∨ ∃ e, (p, e) ∈ failures l) := by
  have hi := inv_exec g c h
  refine ⟨?_, ?_, ?_, ?_⟩
  · intro p hp
    rw [← mem_program, ← hi.prog]
    exact List.mem_append_left _ hp
  · have := program_nodup g c
    rw [← hi.prog] at this
    exact (List.nodup_append.1 this).1
  · intro ht p hp
    have ht : s.todo = [] := ht.elim id hi.ret
    have := (mem_program g c p).2 hp
    rw [← hi.prog, ht, List.append_nil] at this
    exact this
  · intro p hp hn
    rcases hi.alive p hp hn with h | h
    · exact .inl h
    · obtain ⟨⟨p', e⟩, hm, rfl⟩ := List.mem_map.1 h
      exact .inr ⟨e, hm⟩

/-- **C56**, no address configured: the server still runs until a signal arrives, serving nothing. -/
theorem C56_no_address {E : Type} (g : Gen) (c : Config) (hd : c.debug = false) (h1 : c.httpAddr = []) (h2 : c.grpcAddr = [])
    (h3 : c.natsAddr = []) {l : List (Event E)} {s : State E} (h : Exec (start g c) l s) (x : Proc × E)
    (hx : s.returned = some x) : x.1 = .interrupt ∧ started l = [.interrupt] := by
  have hs := C56_started g c h
  have hi := inv_exec g c h
  have hp : program g c = [.interrupt] := by simp [program, hd, h1, h2, h3]
  have ht : s.todo = [] := hi.ret (by rw [hx]; rfl)
  have hst : started l = [.interrupt] := by
    have := hi.prog; rw [ht, List.append_nil] at this; rw [this, hp]
  refine ⟨?_, hst⟩
  have hf := C56_reports_first_failure g c h x hx
  have hm : x ∈ failures l := List.mem_of_mem_head? hf
  have := hi.once.1 (List.mem_append_left _ (List.mem_map_of_mem (f := (·.1)) hm))
  rw [hst] at this
  simpa using this

/-- An execution of a server with HTTP and gRPC in which both fail before `Run` gets to receive. -/
example : ∃ s : State Nat, Exec (start ⟨true, true, true⟩ ⟨":80".toList, [], ":81".toList, [], false⟩)
    [.launch .interrupt, .launch .http, .fails .http 1, .launch .grpc, .fails .grpc 2, .receives] s ∧
    s.returned = some (.http, 1) := by
  refine ⟨⟨[], [.interrupt], [(.grpc, 2)], some (.http, 1)⟩, ?_, rfl⟩
  exact (((((Exec.nil.step .launch).step .launch).step (.fails (by decide))).step .launch).step (.fails (by decide))).step
    .receives

end Baron.Server
