import Verif.Proofs.GoCallsRun
import Verif.Proofs.ClientParts
import Verif.Props.Files

/-!
# C98 The example client: its text, and what it does
-/

namespace Baron.GoCalls

open Baron.TT hiding Config call httpCall Plain
open Baron.Svcdef (Service ServiceMethod)
open Baron.HTTP (look)

/-! ## The compiler's checks -/

section
variable {k : Kind} {service end_ : Str} {m : ServiceMethod} {rest : Code}

theorem rpc_checked (here : List Str) : (rpcCode k service end_ id m rest).checked here = rest.checked here := by
  cases k <;> rfl

theorem http_checked (here : List Str) : (rpcCode .http service end_ makeHTTP m rest).checked here = rest.checked here := rfl

theorem rpc_uses (same : Bool) : (rpcCode k service end_ id m rest).uses same k.client = true := by
  cases k <;> cases same <;> rfl

theorem pb_prefix (t : Str) : ofPackage (chars% "pb") (chars% "pb." ++ t) = true := by
  unfold ofPackage
  simp

theorem rpc_needs (make : Code → Code) : (rpcCode k service end_ make m rest).needs (chars% "context") = true ∧
    (rpcCode k service end_ make m rest).needs (chars% "pb") = true := by
  refine ⟨rfl, ?_⟩
  unfold rpcCode
  simp only [Code.needs, pb_prefix, Bool.true_or, Bool.or_true]

theorem rpc_needs_rest (make : Code → Code) {p : Str} (h : rest.needs p = true) : (rpcCode k service end_ make m rest).needs p = true := by
  unfold rpcCode
  rw [Code.needs, Code.needs, Code.needs, h, Bool.or_true]
end

theorem foldr_rest {P : Code → Prop} {f : ServiceMethod → Code → Code} (hf : ∀ m r, P r → P (f m r)) {rest : Code} (h : P rest) (l : List ServiceMethod) : P (l.foldr f rest) := by
  induction l with
  | nil => exact h
  | cons m l ih => exact hf m _ ih

theorem foldr_one {P : Code → Prop} {f : ServiceMethod → Code → Code} (hf : ∀ m r, P (f m r)) {rest : Code} {l : List ServiceMethod} (h : l ≠ []) : P (l.foldr f rest) := by
  cases l with
  | nil => exact absurd rfl h
  | cons m l => exact hf m _

theorem foldr_checked {f : ServiceMethod → Code → Code} {here : List Str} (hf : ∀ m r, (f m r).checked here = r.checked here) (rest : Code) (l : List ServiceMethod) :
    (l.foldr f rest).checked here = rest.checked here := by
  induction l with
  | nil => rfl
  | cons m l ih => rw [List.foldr_cons, hf, ih]

/-- The variables of `main` after a connection. -/
def after (k : Kind) (x : Str) (here : List Str) : List Str := k.client :: chars% "err" :: x :: chars% "err" :: here

theorem connected_checked {k : Kind} {x : Str} {c : Call} {rest : Code} {here : List Str} (hx : x ∉ here) (hk : k.client ∉ x :: chars% "err" :: here) (hn : x ≠ chars% "err")
    (hu : rest.uses true k.client = true) : (connected k x c rest).checked here = rest.checked (after k x here) := by
  have hk' : chars% "err" ≠ k.client := (client_ne k).2.2
  have e1 : decide ((chars% "err") ∉ here) = !decide ((chars% "err") ∈ here) := by simp
  unfold connected failing
  simp only [Code.checked, Code.uses, hu, hx, hk, not_false_eq_true, decide_true, decide_false, Bool.true_or, Bool.false_or, Bool.or_true, Bool.true_and,
    Call.mentions, fn1, Expr.mentions, after, List.any_cons, List.any_nil, hn.symm]

theorem heading_checked {k : Kind} {t : Str} {rest : Code} {here : List Str} : (heading k t rest).checked here = rest.checked here := rfl

theorem grpc_checked {s : Service} {rest : Code} (hm : s.methods ≠ []) : (grpcCode s rest).checked [] = rest.checked (after .grpc (chars% "conn") []) := by
  unfold grpcCode
  rw [heading_checked, connected_checked (by decide) (by decide) (by decide) (foldr_one (P := fun c => c.uses true (Kind.client .grpc) = true) (fun m r => rpc_uses true) hm),
    foldr_checked (fun m r => rpc_checked _)]
  rfl

theorem nats_checked {s : Service} {rest : Code} {here : List Str} (hm : s.methods ≠ []) (h1 : chars% "nc" ∉ here) (h2 : Kind.client .nats ∉ here) :
    (natsCode s rest).checked here = rest.checked (after .nats (chars% "nc") here) := by
  have h3 : Kind.client .nats ∉ (chars% "nc") :: (chars% "err") :: here := by
    rw [List.mem_cons, List.mem_cons]
    rintro (h | h | h)
    · exact absurd h (by decide)
    · exact absurd h (by decide)
    · exact h2 h
  unfold natsCode
  rw [heading_checked, connected_checked h1 h3 (by decide) (foldr_one (P := fun c => c.uses true (Kind.client .nats) = true) (fun m r => rpc_uses true) hm),
    foldr_checked (fun m r => rpc_checked _)]
  rfl

theorem httpPart_checked {s : Service} {rest : Code} {here : List Str} : (httpCode s rest).checked here = rest.checked here := by
  unfold httpCode
  rw [heading_checked, Code.checked, foldr_checked (fun m r => http_checked _)]
  rfl

theorem main_checked {s : Service} {c : TT.Config} (hm : s.methods ≠ []) : (client s c).main.checked [] = true := by
  unfold client
  show Code.checked [] (if selected (chars% "grpc") c = true then grpcCode s _ else _) = true
  have p3 : ∀ here, chars% "nc" ∉ here → Kind.client .nats ∉ here →
      (Code.blank (chars% "\n\n\t") (if selected (chars% "nats") c then natsCode s (.done (chars% "\n\n\t\n")) else .done (chars% "\n\n\t\n"))).checked here = true := by
    intro here h1 h2
    rw [Code.checked]
    by_cases hc : selected (chars% "nats") c = true
    · rw [if_pos hc, nats_checked hm h1 h2]; rfl
    · rw [if_neg hc]; rfl
  have p2 : ∀ here, chars% "nc" ∉ here → Kind.client .nats ∉ here →
      ((Code.blank (chars% "\n\n\t") ((fun rest => if httpRpcs s = [] then rest else httpCode s rest)
          (Code.blank (chars% "\n\n\t") (if selected (chars% "nats") c then natsCode s (.done (chars% "\n\n\t\n")) else .done (chars% "\n\n\t\n")))))).checked here = true := by
    intro here h1 h2
    rw [Code.checked]
    show Code.checked here (if httpRpcs s = [] then _ else httpCode s _) = true
    by_cases hc : httpRpcs s = []
    · rw [if_pos hc]; exact p3 here h1 h2
    · rw [if_neg hc, httpPart_checked]; exact p3 here h1 h2
  by_cases hc : selected (chars% "grpc") c = true
  · rw [if_pos hc, grpc_checked hm]
    exact p2 _ (by decide) (by decide)
  · rw [if_neg hc]
    exact p2 _ (by decide) (by decide)

theorem connected_needs_rest {k : Kind} {x : Str} {c : Call} {rest : Code} {p : Str} (h : rest.needs p = true) : (connected k x c rest).needs p = true := by
  unfold connected failing
  simp only [Code.needs, h, Bool.or_true]

theorem heading_needs_rest {k : Kind} {t : Str} {rest : Code} {p : Str} (h : rest.needs p = true) : (heading k t rest).needs p = true := by
  unfold heading pln
  simp only [Code.needs, h, Bool.or_true]

theorem grpc_needs_rest {s : Service} {rest : Code} {p : Str} (h : rest.needs p = true) : (grpcCode s rest).needs p = true :=
  heading_needs_rest (connected_needs_rest (foldr_rest (P := fun c => c.needs p = true) (fun _ _ h => rpc_needs_rest _ h) (by rw [Code.needs]; exact h) _))

theorem nats_needs_rest {s : Service} {rest : Code} {p : Str} (h : rest.needs p = true) : (natsCode s rest).needs p = true :=
  heading_needs_rest (connected_needs_rest (foldr_rest (P := fun c => c.needs p = true) (fun _ _ h => rpc_needs_rest _ h) (by rw [Code.needs]; exact h) _))

theorem http_needs_rest {s : Service} {rest : Code} {p : Str} (h : rest.needs p = true) : (httpCode s rest).needs p = true :=
  heading_needs_rest (by rw [Code.needs]; exact foldr_rest (P := fun c => c.needs p = true) (fun _ _ h => rpc_needs_rest _ h) (by rw [Code.needs]; exact h) _)

/-- A package that one of the parts mentions. -/
theorem main_needs {s : Service} {c : TT.Config} {p : Str}
    (h : (selected (chars% "grpc") c = true ∧ ∀ rest, (grpcCode s rest).needs p = true) ∨ (httpRpcs s ≠ [] ∧ ∀ rest, (httpCode s rest).needs p = true) ∨
      (selected (chars% "nats") c = true ∧ ∀ rest, (natsCode s rest).needs p = true)) : (client s c).main.needs p = true := by
  unfold client
  simp only [Code.needs, Bool.or_eq_true]
  refine .inr ?_
  have g : ∀ rest : Code, rest.needs p = true → (if selected (chars% "grpc") c = true then grpcCode s rest else rest).needs p = true := by
    intro rest h
    by_cases hc : selected (chars% "grpc") c = true
    · rw [if_pos hc]; exact grpc_needs_rest h
    · rw [if_neg hc]; exact h
  have g2 : ∀ rest : Code, rest.needs p = true → (if httpRpcs s = [] then rest else httpCode s rest).needs p = true := by
    intro rest h
    by_cases hc : httpRpcs s = []
    · rw [if_pos hc]; exact h
    · rw [if_neg hc]; exact http_needs_rest h
  rcases h with ⟨hc, h⟩ | ⟨hc, h⟩ | ⟨hc, h⟩
  · rw [if_pos hc]; exact h _
  · refine g _ ?_
    rw [Code.needs, if_neg hc]; exact h _
  · refine g _ ?_
    rw [Code.needs]
    refine g2 _ ?_
    rw [Code.needs, if_pos hc]; exact h _

theorem rpcs_need {k : Kind} {service end_ : Str} {make : Code → Code} {l : List ServiceMethod} {rest : Code} (h : l ≠ []) :
    (l.foldr (rpcCode k service end_ make) rest).needs (chars% "context") = true ∧ (l.foldr (rpcCode k service end_ make) rest).needs (chars% "pb") = true :=
  ⟨foldr_one (P := fun c => c.needs (chars% "context") = true) (fun _ _ => (rpc_needs make).1) h,
    foldr_one (P := fun c => c.needs (chars% "pb") = true) (fun _ _ => (rpc_needs make).2) h⟩

theorem compiles {s : Service} {c : TT.Config} (h : Callable s c) : (client s c).compiles = true := by
  have hm := h.1
  have hn : ∀ p, p = chars% "context" ∨ p = chars% "pb" → (client s c).main.needs p = true := by
    intro p hp
    have one : ∀ {k : Kind} {service end_ : Str} {make : Code → Code} {l : List ServiceMethod} {rest : Code}, l ≠ [] →
        (l.foldr (rpcCode k service end_ make) rest).needs p = true := by
      intro _ _ _ _ _ _ hl
      rcases hp with rfl | rfl
      · exact (rpcs_need hl).1
      · exact (rpcs_need hl).2
    refine main_needs ?_
    rcases h.2 with h | h | h
    · exact .inl ⟨h, fun rest => heading_needs_rest (connected_needs_rest (one hm))⟩
    · exact .inr (.inr ⟨h, fun rest => heading_needs_rest (connected_needs_rest (one hm))⟩)
    · exact .inr (.inl ⟨h, fun rest => heading_needs_rest (by rw [Code.needs]; exact one h)⟩)
  have hg : selected (chars% "grpc") c = true → (client s c).main.needs (chars% "grpc") = true := fun hc => main_needs (.inl ⟨hc, fun _ => rfl⟩)
  have hna : selected (chars% "nats") c = true → (client s c).main.needs (chars% "nats") = true := fun hc => main_needs (.inr (.inr ⟨hc, fun _ => rfl⟩))
  have hf : (client s c).init.needs (chars% "flag") = true := rfl
  have hl : (client s c).helperBody.needs (chars% "log") = true := rfl
  have key : ∀ i ∈ (client s c).imports, ((client s c).init.needs i.name || ((client s c).main.needs i.name || (client s c).helperBody.needs i.name)) = true := by
    intro i hi
    have hi : i ∈ [⟨chars% "\n\t", none, chars% "context"⟩, ⟨chars% "\n\t", none, chars% "flag"⟩, ⟨chars% "\n\t", none, chars% "log"⟩] ++
      (if selected (chars% "nats") c then [⟨chars% "\n\t\n\t", none, chars% "github.com/nats-io/nats.go"⟩, ⟨chars% "\n\t\n\n\t", some (chars% "pb"), c.pbPackage⟩]
        else [⟨chars% "\n\t\n\n\t", some (chars% "pb"), c.pbPackage⟩]) ++
      (if selected (chars% "grpc") c then [(⟨chars% "\n\t\n\t", none, chars% "google.golang.org/grpc"⟩ : Import)] else []) := hi
    rw [List.mem_append, List.mem_append] at hi
    rcases hi with (hi | hi) | hi
    · simp only [List.mem_cons, List.not_mem_nil, or_false] at hi
      rcases hi with rfl | rfl | rfl
      · rw [show Import.name _ = chars% "context" from rfl, hn _ (.inl rfl)]; simp
      · rw [show Import.name _ = chars% "flag" from rfl, hf]; simp
      · rw [show Import.name _ = chars% "log" from rfl, hl]; simp
    · by_cases hc : selected (chars% "nats") c = true
      · rw [if_pos hc] at hi
        simp only [List.mem_cons, List.not_mem_nil, or_false] at hi
        rcases hi with rfl | rfl
        · rw [show Import.name _ = chars% "nats" from rfl, hna hc]; simp
        · rw [show Import.name _ = chars% "pb" from rfl, hn _ (.inr rfl)]; simp
      · rw [if_neg hc] at hi
        simp only [List.mem_cons, List.not_mem_nil, or_false] at hi
        rw [hi, show Import.name _ = chars% "pb" from rfl, hn _ (.inr rfl)]; simp
    · by_cases hc : selected (chars% "grpc") c = true
      · rw [if_pos hc] at hi
        simp only [List.mem_cons, List.not_mem_nil, or_false] at hi
        rw [hi, show Import.name _ = chars% "grpc" from rfl, hg hc]; simp
      · rw [if_neg hc] at hi
        cases hi
  unfold Program.compiles
  rw [List.all_eq_true.mpr key, main_checked hm]
  rfl

theorem not_compiles {s : Service} {c : TT.Config} (h : ¬ Callable s c) : (client s c).compiles = false := by
  obtain ⟨name, ms⟩ := s
  by_cases hm : ms = []
  · subst hm
    have hr : httpRpcs ⟨name, []⟩ = [] := rfl
    unfold client
    cases hg : selected (chars% "grpc") c <;> cases hn : selected (chars% "nats") c <;> rfl
  · have h' : ¬ selected (chars% "grpc") c = true ∧ ¬ selected (chars% "nats") c = true ∧ httpRpcs ⟨name, ms⟩ = [] := by
      refine ⟨fun e => h ⟨hm, .inl e⟩, fun e => h ⟨hm, .inr (.inl e)⟩, Classical.byContradiction fun e => h ⟨hm, .inr (.inr e)⟩⟩
    obtain ⟨h1, h2, h3⟩ := h'
    unfold client
    simp only [if_neg h1, if_neg h2, if_pos h3]
    rfl

/-! ## The process -/

theorem own_pln {V E : Type} (s : Service) (c : TT.Config) (w : World V E) : Own ((client s c).own w) := by
  have ho : Own (V := V) (E := E) (fun f => if f = chars% "pln" then some (fun st => .ok { st with trace := st.trace ++ [.log ruleLine] }) else none) :=
    ⟨⟨_, if_pos rfl, fun st => rfl⟩, fun x hx => if_neg hx⟩
  refine ⟨⟨_, if_pos rfl, fun st => ?_⟩, fun x hx => if_neg hx⟩
  have hu : GoMain.unquote (chars% "---------------------------------------------------------------------------------") =
      some (chars% "---------------------------------------------------------------------------------") := by decide +kernel
  unfold client
  simp only [fn1, Code.exec, evalArgs, Expr.eval, hu]
  rfl

theorem exec_reg {V E : Type} {w : World V E} {own} (ho : Own own) {x : Str} {k : Kind} {usage : Str} {rest : Code} {st : State V E} (hi : st.inner = []) (ho' : st.outer = [])
    (hx : (look st.globals x).isSome = true) (hf : look st.flags k.flag = none) (hu : GoMain.unquote usage = some usage) :
    (reg x k usage rest).exec w own st = rest.exec w own { st with globals := (x, k.dflt) :: st.globals, flags := st.flags ++ [(k.flag, x)] } := by
  unfold reg
  refine exec_call ho (vs := [.ref x, .str k.flag, .str k.dflt, .str usage]) (by decide) ?_ ?_
  · obtain ⟨v, hv⟩ := Option.isSome_iff_exists.mp hx
    have h1 : GoMain.unquote k.flag = some k.flag := by cases k <;> decide +kernel
    have h2 : GoMain.unquote k.dflt = some k.dflt := by cases k <;> decide +kernel
    simp only [evalArgs, Expr.eval, hi, ho', h1, h2, hu, hv]
    rfl
  · show (match look st.flags k.flag with | none => _ | some _ => _) = _
    rw [hf]

/-- The variables after `init`. -/
def start : List (Str × Str) := [(Kind.var .nats, Kind.dflt .nats), (Kind.var .http, Kind.dflt .http), (Kind.var .grpc, Kind.dflt .grpc),
  (chars% "grpcAddr", []), (chars% "httpAddr", []), (chars% "natsAddr", [])]

theorem init_exec {V E : Type} (s : Service) (c : TT.Config) (w : World V E) :
    (client s c).init.exec w ((client s c).own w) ⟨(client s c).vars.map fun x => (x, []), [], [], [], [], []⟩ = .ok ⟨start, table, [], [], [], []⟩ := by
  have ho := own_pln s c w
  generalize (client s c).own w = own at ho
  unfold client
  simp only
  rw [exec_reg ho rfl rfl rfl rfl (by decide +kernel), exec_reg ho rfl rfl rfl rfl (by decide +kernel), exec_reg ho rfl rfl rfl rfl (by decide +kernel)]
  rfl

theorem start_addr (fs : List (Kind × Str)) (k : Kind) : look (globals fs start) k.var = some (address fs k) := by
  refine look_globals k fs start k.dflt ?_
  cases k <;> decide +kernel

theorem run_error {V E : Type} {s : Service} {c : TT.Config} {w : World V E} (hc : Callable s c) {n : Nat} (h : parseFlags table start w.args = .error n) :
    (client s c).run w = some ⟨n, []⟩ := by
  have hm : ∀ own, Own own → (client s c).main.exec w own ⟨start, table, [], [], [], []⟩ = .error (.exit n ⟨start, table, [], [], [], []⟩) := by
    intro own ho
    refine exec_call_err ho (vs := []) (by decide) rfl ?_
    show (match parseFlags table start w.args with | .error n => _ | .ok g => _) = _
    rw [h]
  unfold Program.run
  rw [compiles hc, if_neg (by decide), init_exec]
  simp only [hm _ (own_pln s c w)]

theorem run_ok {V E : Type} {s : Service} {c : TT.Config} {w : World V E} (hc : Callable s c) (hn : Names s) {fs : List (Kind × Str)}
    (h : parseFlags table start w.args = .ok (globals fs start)) : (client s c).run w = some (outcome w s c (address fs)) := by
  have hd := parts_does (w := w) (own_pln s c w) (s := s) (c := c) (addr := address fs) (st := ⟨globals fs start, table, [], [], [], []⟩) hn
    ⟨rfl, fun _ => rfl, start_addr fs⟩ rfl []
  have hm : ∀ own, Own own → (client s c).main.exec w own ⟨start, table, [], [], [], []⟩ = Code.exec w own ((Code.blank (chars% "\n\t\n\t") <|
      (fun rest => if selected (chars% "grpc") c then grpcCode s rest else rest) <| .blank (chars% "\n\n\t") <|
      (fun rest => if httpRpcs s = [] then rest else httpCode s rest) <| .blank (chars% "\n\n\t") <|
      (fun rest => if selected (chars% "nats") c then natsCode s rest else rest) <|
      .done (chars% "\n\n\t\n"))) ⟨globals fs start, table, [], [], [], []⟩ := by
    intro own ho
    refine exec_call ho (vs := []) (by decide) rfl ?_
    show (match parseFlags table start w.args with | .error n => _ | .ok g => _) = _
    rw [h]
  unfold Program.run
  rw [compiles hc, if_neg (by decide), init_exec]
  simp only
  rw [hm _ (own_pln s c w)]
  unfold outcome
  cases hf : (follow w (plan s c (address fs)) []).1 with
  | true =>
    obtain ⟨st', h1, h2, h3⟩ := hd.1 hf
    rw [h1]
    simp only [hf, if_true, h2, h3]
  | false =>
    obtain ⟨st', h1, h2⟩ := hd.2 hf
    rw [h1]
    simp only [hf, Bool.false_eq_true, if_false, h2]

set_option maxRecDepth 4000 in
theorem client_text {fmt : Str → Str} {pkg : Str} {s : Service} {c : TT.Config} {txt : Str}
    (h : render fmt pkg s c "cmd/NAME-client/main.go.tmpl".toList = some txt) : txt = headText c ++ callsText s c := by
  obtain ⟨ms, hms, t, hp, he⟩ := render_data (src := cmdClientSrc) rfl h
  have := map_some clientT_eq hp
  subst this
  refine Option.some.inj (he.symm.trans ?_)
  unfold clientT headText callsText
  refine Eq.trans (exec_text (exec_cond (selected_eval _) (if_some exec_text_nil) (exec_text (exec_action rfl (exec_text (exec_cond (selected_eval _)
    (if_some exec_text_nil) (exec_text (exec_within (v := dataWith pkg s c ms) rfl rfl (exec_text (exec_cond (v := .bool (selected (chars% "grpc") c)) rfl
      (if_some (y := grpcCalls s) (exec_text (exec_action rfl (exec_text (exec_range (l := s.methods.map methodVal) rfl (each_methods fun _ => rfl)
      exec_text_nil)))))
      (exec_text (exec_cond (v := .list ms) rfl (truth_list (all2_isEmpty hms) (y := httpCalls s) (exec_text (exec_action rfl
      (exec_text (exec_range (l := ms) rfl (each_all2 hms ?_) exec_text_nil)))))
      (exec_text (exec_cond (v := .bool (selected (chars% "nats") c)) rfl
      (if_some (y := natsCalls s) (exec_text (exec_action rfl (exec_text (exec_range (l := s.methods.map methodVal) rfl (each_methods fun _ => rfl)
      exec_text_nil)))))
      exec_text_nil)))))) exec_text_nil)))))))) ?_
  · intro m v hv
    obtain ⟨bs, -, rfl⟩ := helperMethod_bindings hv
    rfl
  · simp only [List.flatten_cons, List.flatten_nil, List.append_assoc, List.append_nil]
    rfl

/-- **C98** main.go of the example client is a program that does this, for every list of arguments and every behaviour of the servers, the
outcome of each step depending in any way on what happened before. If the arguments are understood, the client goes through the steps of
`plan` for the addresses given (the last one for each server, or the default): over gRPC, if generated, it connects, makes a client and calls every rpc once with an
empty request, in the order of the rpcs; then over HTTP, for the rpcs that have bindings, with a new client each; then over NATS, if generated. Each
result is written to the log. At the first failure the error is written and the exit status is 1, with nothing done after it; otherwise the
connections are closed and the status is 0. If help is asked for the status is 0, in all other cases it is 2, and nothing is done. The program does not
compile exactly if there is no rpc, or none that it would call. -/
theorem C98_client (fmt : Str → Str) (pkg : Str) (s : Service) (c : TT.Config) (hs : Plain s.name) (hm : ∀ m ∈ s.methods, Plain (Strs.goCamelCase m.name)) :
    ∃ p : Program, render fmt pkg s c "cmd/NAME-client/main.go.tmpl".toList = some p.print ∧
      ∀ (V E : Type) (w : World V E),
        (Callable s c →
          (∀ fs, Understood w.args fs → p.run w = some (outcome w s c (address fs))) ∧
          (Help w.args → p.run w = some ⟨0, []⟩) ∧
          ((¬ ∃ fs, Understood w.args fs) → ¬ Help w.args → p.run w = some ⟨2, []⟩)) ∧
        (¬ Callable s c → p.run w = none) := by
  refine ⟨client s c, ?_, fun V E w => ⟨fun hc => ⟨fun fs h => ?_, fun h => ?_, fun h1 h2 => ?_⟩, fun hc => ?_⟩⟩
  · obtain ⟨txt, h⟩ := C84_render fmt pkg s c "cmd/NAME-client/main.go.tmpl".toList (by decide +kernel)
    rw [h, client_print, client_text h]
  · exact run_ok hc ⟨hs, hm⟩ (understood_parse h start)
  · exact run_error hc (help_parse h start)
  · rcases parse_cases w.args.length w.args start (Nat.le_refl _) with h | h | h
    · exact absurd h h1
    · exact absurd h h2
    · exact run_error hc h
  · unfold Program.run
    rw [not_compiles hc]
    rfl

namespace Example

open Baron.TT.Example

/-- Names that go into texts, and a service that is called: over gRPC, and over HTTP not all rpcs. -/
example : Plain third.name ∧ (∀ m ∈ third.methods, Plain (Strs.goCamelCase m.name)) ∧ Callable third conf := by
  refine ⟨?_, ?_, ?_, ?_⟩
  · show ∀ ch ∈ third.name, ch ≠ '"' ∧ ch ≠ '\\' ∧ ch ≠ '\n' ∧ ch ≠ '%'
    decide +kernel
  · show ∀ m ∈ third.methods, ∀ ch ∈ Strs.goCamelCase m.name, ch ≠ '"' ∧ ch ≠ '\\' ∧ ch ≠ '\n' ∧ ch ≠ '%'
    decide +kernel
  · exact fun e => absurd (congrArg List.length e) (by decide +kernel)
  · exact .inl (by decide +kernel)

/-- Servers of which a call fails at a certain time. -/
def world (n : Nat) (args : List Str) : World Nat Unit where
  args := args
  fails h _ := if h.length = n then some () else none
  reply h _ := h.length
  errText _ := chars% "unavailable"
  shown n := [Char.ofNat (48 + n % 10)]

/-- What is done, without the log. -/
def actions (o : Option Outcome) : List (Nat × List (Action ⊕ Kind)) :=
  (o.toList.map fun o => (o.code, o.trace.filterMap fun | .act a => some (.inl a) | .close k _ => some (.inr k) | .log _ => none))

/-- The second call fails: nothing is done after it, and the connection is not closed. -/
example : actions ((client third conf).run (world 7 ["-grpc.addr=a".toList, "--grpc.addr".toList, "b".toList, "-".toList, "-x".toList])) =
    [(1, [.inl (.dial "b".toList ["grpc.WithInsecure".toList, "grpc.WithBlock".toList]), .inl (.client .grpc "b".toList),
      .inl (.call .grpc "b".toList "A".toList "pb.In".toList), .inl (.call .grpc "b".toList "C".toList "pb.GetIn".toList)])] := by
  decide +kernel

/-- Nothing fails: three rpcs over gRPC, two over HTTP. -/
example : actions ((client third conf).run (world 100 [])) =
    [(0, [.inl (.dial ":5040".toList ["grpc.WithInsecure".toList, "grpc.WithBlock".toList]), .inl (.client .grpc ":5040".toList),
      .inl (.call .grpc ":5040".toList "A".toList "pb.In".toList), .inl (.call .grpc ":5040".toList "C".toList "pb.GetIn".toList),
      .inl (.call .grpc ":5040".toList "B".toList "pb.In".toList), .inl (.client .http ":5050".toList),
      .inl (.call .http ":5050".toList "C".toList "pb.GetIn".toList), .inl (.client .http ":5050".toList),
      .inl (.call .http ":5050".toList "B".toList "pb.In".toList), .inr .grpc])] := by
  decide +kernel

/-- Command lines that are not understood, and a service without rpcs. -/
example : ((client third conf).run (world 100 ["-grpc.addr".toList]), (client third conf).run (world 100 ["-x=1".toList, "-h".toList]),
    (client third conf).run (world 100 ["-nats.addr=".toList, "--help=".toList]), (client ⟨"S".toList, []⟩ conf).run (world 100 [])) =
    (some ⟨2, []⟩, some ⟨2, []⟩, some ⟨0, []⟩, none) := by
  decide +kernel

end Example

end Baron.GoCalls
