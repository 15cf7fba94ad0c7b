import Verif.Proofs.GoCalls

/-! # Proofs about the example client (C98): what it does -/

namespace Baron.GoCalls

open Baron.TT (selected httpRpcs goType)
open Baron.Svcdef (Service ServiceMethod)
open Baron.GoMain (unquote)
open Baron.HTTP (look)

variable {V E : Type} {w : World V E} {own : Str → Option (State V E → Except (Stop V E) (State V E))}

/-! ## Literals and formats -/

theorem literalGo_plain {p : Str} (hp : Plain p) (r : Str) : ∀ n, TT.literalGo (n + p.length) (p ++ r) = (TT.literalGo n r).map fun x => (p ++ x.1, x.2) := by
  induction p with
  | nil => intro n; cases h : TT.literalGo n r <;> simp [h]
  | cons c p ih =>
    intro n
    obtain ⟨h1, h2, h3, -⟩ := hp c List.mem_cons_self
    have := ih (fun x hx => hp x (List.mem_cons_of_mem _ hx)) n
    show TT.literalGo (n + p.length + 1) (c :: (p ++ r)) = _
    rw [TT.literalGo]
    · rw [this]
      cases TT.literalGo n r <;> rfl
    · exact h1
    · exact h3
    · exact h2

theorem unquote_app {p r v : Str} (hp : Plain p) (h : unquote r = some v) : unquote (p ++ r) = some (p ++ v) := by
  unfold unquote TT.literal at *
  have e : (p ++ r ++ ['"']).length + 1 = ((r ++ ['"']).length + 1) + p.length := by simp; omega
  rw [e, List.append_assoc, literalGo_plain hp]
  cases hl : TT.literalGo ((r ++ ['"']).length + 1) (r ++ ['"']) with
  | none => rw [hl] at h; cases h
  | some x =>
    obtain ⟨a, b⟩ := x
    rw [hl] at h
    cases b with
    | nil => cases h; rfl
    | cons c b => cases h

theorem format_plain {p t : Str} (hp : '%' ∉ p) (verb v : Str) (ht : '%' ∉ verb ++ t) :
    format verb v (p ++ '%' :: (verb ++ t)) = some (p ++ v ++ t) := by
  induction p with
  | nil =>
    show format verb v ('%' :: (verb ++ t)) = _
    rw [format, if_pos ⟨by simp, ht⟩]
    simp
  | cons c p ih =>
    simp only [List.mem_cons, not_or] at hp
    show format verb v (c :: (p ++ '%' :: (verb ++ t))) = _
    rw [format]
    · rw [ih hp.2]; rfl
    · exact fun e => hp.1 e.symm

theorem line_newline (s : Str) : line (s ++ chars% "\n") = s ++ chars% "\n" := by
  unfold line
  rw [if_pos (by simp)]

theorem plain_title {k : Kind} {service method : Str} (h1 : Plain service) (h2 : Plain method) : Plain (title k service method) := by
  intro ch hc
  unfold title at hc
  simp only [List.mem_append] at hc
  rcases hc with ((((hc | hc) | hc) | hc) | hc) | hc
  · exact (show ∀ ch ∈ (chars% "[Baron."), ch ≠ '"' ∧ ch ≠ '\\' ∧ ch ≠ '\n' ∧ ch ≠ '%' by decide) ch hc
  · cases k
    · exact (show ∀ ch ∈ Kind.label .grpc, ch ≠ '"' ∧ ch ≠ '\\' ∧ ch ≠ '\n' ∧ ch ≠ '%' by decide) ch hc
    · exact (show ∀ ch ∈ Kind.label .http, ch ≠ '"' ∧ ch ≠ '\\' ∧ ch ≠ '\n' ∧ ch ≠ '%' by decide) ch hc
    · exact (show ∀ ch ∈ Kind.label .nats, ch ≠ '"' ∧ ch ≠ '\\' ∧ ch ≠ '\n' ∧ ch ≠ '%' by decide) ch hc
  · exact (show ∀ ch ∈ (chars% "Client] "), ch ≠ '"' ∧ ch ≠ '\\' ∧ ch ≠ '\n' ∧ ch ≠ '%' by decide) ch hc
  · exact h1 ch hc
  · exact (show ∀ ch ∈ (chars% "."), ch ≠ '"' ∧ ch ≠ '\\' ∧ ch ≠ '\n' ∧ ch ≠ '%' by decide) ch hc
  · exact h2 ch hc

theorem Plain.percent {p : Str} (h : Plain p) : '%' ∉ p := fun hc => (h _ hc).2.2.2 rfl

theorem unquote_err {p : Str} (h : Plain p) : unquote (p ++ chars% " err=%v\\n") = some (p ++ chars% " err=%v\n") :=
  unquote_app h (by decide +kernel)

theorem unquote_result {p : Str} (h : Plain p) : unquote (p ++ chars% " result=%+v\\n") = some (p ++ chars% " result=%+v\n") :=
  unquote_app h (by decide +kernel)

theorem format_err {p v : Str} (h : Plain p) : format (chars% "v") v (p ++ chars% " err=%v\n") = some (p ++ chars% " err=" ++ v ++ chars% "\n") := by
  have := format_plain (p := p ++ chars% " err=") (t := chars% "\n") (by
    rw [List.mem_append]; rintro (h' | h')
    · exact h.percent h'
    · exact absurd h' (by decide)) (chars% "v") v (by decide)
  rw [List.append_assoc p] at this
  exact this

theorem format_result {p v : Str} (h : Plain p) :
    format (chars% "+v") v (p ++ chars% " result=%+v\n") = some (p ++ chars% " result=" ++ v ++ chars% "\n") := by
  have := format_plain (p := p ++ chars% " result=") (t := chars% "\n") (by
    rw [List.mem_append]; rintro (h' | h')
    · exact h.percent h'
    · exact absurd h' (by decide)) (chars% "+v") v (by decide)
  rw [List.append_assoc p] at this
  exact this

/-! ## Following steps -/

/-- The result `r` is that of the steps after `h`, and then as `K` says. -/
def Does (w : World V E) (steps : List Step) (h : List Event) (r : Except (Stop V E) (State V E)) (K : List Event → Except (Stop V E) (State V E) → Prop) : Prop :=
  ((follow w steps h).1 = true → K (follow w steps h).2 r) ∧
  ((follow w steps h).1 = false → ∃ st', r = .error (.exit 1 st') ∧ st'.trace = (follow w steps h).2)

theorem does_nil {h : List Event} {r : Except (Stop V E) (State V E)} {K} (hk : K h r) : Does w [] h r K := ⟨fun _ => hk, nofun⟩

theorem does_say {t : Str} {steps : List Step} {h : List Event} {r : Except (Stop V E) (State V E)} {K} (hd : Does w steps (h ++ [.log t]) r K) :
    Does w (.say t :: steps) h r K := hd

theorem does_must {a : Action} {steps : List Step} {h : List Event} {r : Except (Stop V E) (State V E)} {K}
    (h1 : ∀ e, w.fails h a = some e → ∃ st', r = .error (.exit 1 st') ∧ st'.trace = h ++ [.act a, .log (line (w.errText e))])
    (h2 : w.fails h a = none → Does w steps (h ++ [.act a]) r K) : Does w (.must a :: steps) h r K := by
  unfold Does
  rw [follow]
  cases hf : w.fails h a with
  | some e => exact ⟨nofun, fun _ => h1 e hf⟩
  | none => exact h2 hf

theorem does_call {k : Kind} {a service m ty : Str} {steps : List Step} {h : List Event} {r : Except (Stop V E) (State V E)} {K}
    (h1 : ∀ e, w.fails h (.call k a m ty) = some e → ∃ st', r = .error (.exit 1 st') ∧
      st'.trace = h ++ [.act (.call k a m ty), .log (title k service m ++ chars% " err=" ++ w.errText e ++ chars% "\n")])
    (h2 : w.fails h (.call k a m ty) = none → Does w steps (h ++ [.act (.call k a m ty),
        .log (title k service m ++ chars% " result=" ++ w.shown (w.reply h (.call k a m ty)) ++ chars% "\n")]) r K) :
    Does w (.call k a service m ty :: steps) h r K := by
  unfold Does
  rw [follow]
  cases hf : w.fails h (.call k a m ty) with
  | some e => exact ⟨nofun, fun _ => h1 e hf⟩
  | none => exact h2 hf

/-! ## Statements -/

def ruleLine : Str := chars% "---------------------------------------------------------------------------------\n"

/-- `pln` is the only function of the program. -/
structure Own (own : Str → Option (State V E → Except (Stop V E) (State V E))) : Prop where
  pln : ∃ f, own (chars% "pln") = some f ∧ ∀ st, f st = .ok { st with trace := st.trace ++ [.log ruleLine] }
  other : ∀ x, x ≠ chars% "pln" → own x = none

theorem exec_pln (ho : Own own) {ws : Str} {rest : Code} {st : State V E} :
    (pln ws rest).exec w own st = rest.exec w own { st with trace := st.trace ++ [.log ruleLine] } := by
  obtain ⟨f, h1, h2⟩ := ho.pln
  unfold pln fn0
  rw [Code.exec]
  simp only [evalArgs, h1, h2]

theorem exec_call (ho : Own own) {ws f : Str} {args : List (Str × Expr)} {close : Str} {rest : Code} {st st' : State V E} {vs : List (GV V E)}
    (hf : f ≠ chars% "pln") (ha : evalArgs st args = some vs) (hr : callFn w f vs st = .ok st') :
    (Code.call ws ⟨.fn f, args, close⟩ rest).exec w own st = rest.exec w own st' := by
  rw [Code.exec]
  simp only [ha, ho.other f hf, hr]

theorem exec_call_err (ho : Own own) {ws f : Str} {args : List (Str × Expr)} {close : Str} {rest : Code} {st : State V E} {vs : List (GV V E)}
    {e : Stop V E} (hf : f ≠ chars% "pln") (ha : evalArgs st args = some vs) (hr : callFn w f vs st = .error e) :
    (Code.call ws ⟨.fn f, args, close⟩ rest).exec w own st = .error e := by
  rw [Code.exec]
  simp only [ha, ho.other f hf, hr]

theorem var_head {st : State V E} {x : Str} {v : GV V E} {l : List (Str × GV V E)} (h : st.inner = (x, v) :: l) : variable? st x = some v := by
  unfold variable?
  rw [h, HTTP.look_cons, if_pos rfl]

theorem var_skip {st : State V E} {x y : Str} {v : GV V E} (hxy : y ≠ x) :
    variable? { st with inner := (y, v) :: st.inner } x = variable? st x := by
  unfold variable?
  simp only [HTTP.look_cons, if_neg hxy]

theorem look_app {α : Type} (a b : List (Str × α)) (x : Str) : look (a ++ b) x = match look a x with | some v => some v | none => look b x := by
  induction a with
  | nil => rfl
  | cons p a ih =>
    obtain ⟨y, v⟩ := p
    rw [List.cons_append, HTTP.look_cons, HTTP.look_cons, ih]
    by_cases h : y = x
    · rw [if_pos h, if_pos h]
    · rw [if_neg h, if_neg h]

theorem var_enter (st : State V E) (x : Str) : variable? st.enter x = variable? st x := by
  unfold variable? State.enter
  show (match look (st.inner ++ st.outer) x with | some v => some v | none => (look st.globals x).map .str) = _
  rw [look_app]
  cases look st.inner x with
  | some v => rfl
  | none => rfl

theorem exec_failing_ok {ws1 ws2 : Str} {c : Call} {rest : Code} {st : State V E} (h : variable? st (chars% "err") = some (.error none)) :
    (failing ws1 ws2 c rest).exec w own st = rest.exec w own st := by
  unfold failing
  rw [Code.exec]
  simp only [h]

theorem exec_failing_err {ws1 ws2 : Str} {c : Call} {rest : Code} {st : State V E} {e : E} {x : Stop V E} (h : variable? st (chars% "err") = some (.error (some e)))
    (hc : (Code.call ws2 c (.done ws1)).exec w own st.enter = .error x) :
    (failing ws1 ws2 c rest).exec w own st = .error x := by
  unfold failing
  rw [Code.exec]
  simp only [h, hc]

theorem exec_fatal (ho : Own own) {ws1 ws2 : Str} {rest : Code} {st : State V E} {e : E} (h : variable? st (chars% "err") = some (.error (some e))) :
    ∃ st', (failing ws1 ws2 (fn1 (chars% "log.Fatal") (.id (chars% "err"))) rest).exec w own st = .error (.exit 1 st') ∧
      st'.trace = st.trace ++ [.log (line (w.errText e))] := by
  refine ⟨_, exec_failing_err h (exec_call_err ho (vs := [.error (some e)]) (by decide) ?_ rfl), rfl⟩
  simp only [evalArgs, Expr.eval, var_enter, h]

theorem exec_fatalf (ho : Own own) {ws1 ws2 p : Str} {rest : Code} {st : State V E} {e : E} (hp : Plain p) (h : variable? st (chars% "err") = some (.error (some e))) :
    ∃ st', (failing ws1 ws2 (fn2 (chars% "log.Fatalf") (.text (p ++ chars% " err=%v\\n")) (.id (chars% "err"))) rest).exec w own st = .error (.exit 1 st') ∧
      st'.trace = st.trace ++ [.log (p ++ chars% " err=" ++ w.errText e ++ chars% "\n")] := by
  refine ⟨{ st.enter with trace := st.trace ++ [.log (p ++ chars% " err=" ++ w.errText e ++ chars% "\n")] }, exec_failing_err h
    (exec_call_err ho (vs := [.str (p ++ chars% " err=%v\n"), .error (some e)]) (by decide) ?_ ?_), rfl⟩
  · simp only [evalArgs, Expr.eval, var_enter, h, unquote_err hp]
    rfl
  · have hf := format_err (v := w.errText e) hp
    show (match format (chars% "v") (w.errText e) (p ++ chars% " err=%v\n") with
      | some t => Except.error (Stop.exit 1 { st.enter with trace := st.enter.trace ++ [Event.log (line t)] })
      | none => Except.error Stop.stuck) = _
    simp only [hf, line_newline]
    rfl

theorem exec_printf (ho : Own own) {ws p : Str} {rest : Code} {st : State V E} {v : V} (hp : Plain p) (h : variable? st (chars% "out") = some (.out v)) :
    (Code.call ws (fn2 (chars% "log.Printf") (.text (p ++ chars% " result=%+v\\n")) (.deref (chars% "out"))) rest).exec w own st =
      rest.exec w own { st with trace := st.trace ++ [.log (p ++ chars% " result=" ++ w.shown v ++ chars% "\n")] } := by
  refine exec_call ho (vs := [.str (p ++ chars% " result=%+v\n"), .response v]) (by decide) ?_ ?_
  · simp only [evalArgs, Expr.eval, h, unquote_result hp]
    rfl
  · have hf := format_result (v := w.shown v) hp
    show (match format (chars% "+v") (w.shown v) (p ++ chars% " result=%+v\n") with
      | some t => Except.ok { st with trace := st.trace ++ [Event.log (line t)] }
      | none => Except.error Stop.stuck) = _
    simp only [hf, line_newline]

theorem exec_println (ho : Own own) {ws t t' : Str} {rest : Code} {st : State V E} (h : unquote t = some t') :
    (Code.call ws (fn1 (chars% "log.Println") (.text t)) rest).exec w own st = rest.exec w own { st with trace := st.trace ++ [.log (t' ++ chars% "\n")] } := by
  refine exec_call ho (vs := [.str t']) (by decide) ?_ rfl
  simp only [evalArgs, Expr.eval, h]
  rfl

/-- `x, err := f(…)` when it goes well, and when it does not. -/
theorem exec_define2 {ws x : Str} {f : Str} {args : List (Str × Expr)} {close : Str} {rest : Code} {st : State V E} {vs : List (GV V E)} {a : Action} {v : GV V E}
    (ha : evalArgs st args = some vs) (hc : action f vs = some (a, v)) :
    (Code.define2 ws x (chars% "err") ⟨.fn f, args, close⟩ rest).exec w own st =
      match w.fails st.trace a with
      | none => rest.exec w own { st with inner := (x, v) :: (chars% "err", .error none) :: st.inner, trace := st.trace ++ [.act a] }
      | some e => rest.exec w own { st with inner := (x, .nil) :: (chars% "err", .error (some e)) :: st.inner, trace := st.trace ++ [.act a] } := by
  rw [Code.exec]
  simp only [Call.two, ha, hc, Option.map_some]
  cases w.fails st.trace a <;> rfl

theorem exec_method {ws x f : Str} {args : List (Str × Expr)} {close : Str} {rest : Code} {st : State V E} {o k a ty}
    (ha : evalArgs st args = some [.obj o, .ptr ty]) (hx : variable? st x = some (.client k a)) :
    (Code.define2 ws (chars% "out") (chars% "err") ⟨.method x f, args, close⟩ rest).exec w own st =
      match w.fails st.trace (.call k a f ty) with
      | none => rest.exec w own { st with inner := (chars% "out", .out (w.reply st.trace (.call k a f ty))) :: (chars% "err", .error none) :: st.inner, trace := st.trace ++ [.act (.call k a f ty)] }
      | some e => rest.exec w own { st with inner := (chars% "out", .nil) :: (chars% "err", .error (some e)) :: st.inner, trace := st.trace ++ [.act (.call k a f ty)] } := by
  rw [Code.exec]
  simp only [Call.two, ha, hx]
  cases w.fails st.trace (.call k a f ty) <;> rfl

theorem var_err {st : State V E} {x : Str} {v u : GV V E} {l : List (Str × GV V E)} {h : List Event} (hx : x ≠ chars% "err") :
    variable? { st with inner := (x, v) :: (chars% "err", u) :: l, trace := h } (chars% "err") = some u := by
  unfold variable?
  simp only [HTTP.look_cons, if_neg hx, if_pos]

/-- The second half of the block of an rpc: the call, and what is written about it. -/
theorem exec_report (ho : Own own) {k : Kind} {a service end_ f ty : Str} {st : State V E} {m : ServiceMethod} (hp : Plain (title k service (Strs.goCamelCase m.name)))
    (h1 : look st.inner (chars% "ctx") = some (.obj f)) (h2 : look st.inner (chars% "in") = some (.msg ty)) (h3 : variable? st k.client = some (.client k a)) :
    let r := (Code.define2 (chars% "\n\t\t") (chars% "out") (chars% "err") ⟨.method k.client (Strs.goCamelCase m.name),
      [([], .id (chars% "ctx")), (chars% ", ", .addr (chars% "in"))], []⟩ (report k service m (.done end_))).exec w own st
    (∀ e, w.fails st.trace (.call k a (Strs.goCamelCase m.name) ty) = some e → ∃ st', r = .error (.exit 1 st') ∧
      st'.trace = st.trace ++ [.act (.call k a (Strs.goCamelCase m.name) ty), .log (title k service (Strs.goCamelCase m.name) ++ chars% " err=" ++ w.errText e ++ chars% "\n")]) ∧
    (w.fails st.trace (.call k a (Strs.goCamelCase m.name) ty) = none → ∃ inner, r = .ok { st with inner := inner, trace := st.trace ++
      [.act (.call k a (Strs.goCamelCase m.name) ty), .log (title k service (Strs.goCamelCase m.name) ++ chars% " result=" ++
        w.shown (w.reply st.trace (.call k a (Strs.goCamelCase m.name) ty)) ++ chars% "\n")] ++ [.log ruleLine] }) := by
  have hv : variable? st (chars% "ctx") = some (.obj f) := by unfold variable?; rw [h1]
  intro r
  have hr : r = _ := exec_method (w := w) (own := own) (o := f) (k := k) (a := a) (ty := ty) (by simp only [evalArgs, Expr.eval, hv, h2]) h3
  constructor
  · intro e he
    rw [he] at hr
    rw [hr]
    unfold report
    obtain ⟨st', h, ht⟩ := exec_fatalf (w := w) ho (ws1 := chars% "\n\t\t") (ws2 := chars% "\n\t\t\t") (rest := Code.call (chars% "\n\t\t") (fn2 (chars% "log.Printf") (.text (title k service (Strs.goCamelCase m.name) ++ chars% " result=%+v\\n")) (.deref (chars% "out"))) (pln (chars% "\n\t\t") (.done end_))) hp
      (var_err (st := st) (x := chars% "out") (v := .nil) (u := .error (some e)) (l := st.inner) (h := st.trace ++ [.act (.call k a (Strs.goCamelCase m.name) ty)]) (by decide))
    exact ⟨st', h, by rw [ht]; simp⟩
  · intro he
    rw [he] at hr
    rw [hr]
    unfold report
    refine ⟨(chars% "out", .out (w.reply st.trace (.call k a (Strs.goCamelCase m.name) ty))) :: (chars% "err", .error none) :: st.inner, ?_⟩
    rw [exec_failing_ok (var_err (by decide)), exec_printf ho hp (var_head rfl), exec_pln ho]
    rw [Code.exec]
    simp

theorem exec_block_err {ws : Str} {b rest : Code} {st : State V E} {x : Stop V E} (h : b.exec w own st.enter = .error x) :
    (Code.block ws b rest).exec w own st = .error x := by
  rw [Code.exec]
  simp only [h]

theorem exec_block_ok {ws : Str} {b rest : Code} {st st' : State V E} (h : b.exec w own st.enter = .ok st') :
    (Code.block ws b rest).exec w own st = rest.exec w own (st.leave st') := by
  rw [Code.exec]
  simp only [h]

theorem client_ne (k : Kind) : chars% "ctx" ≠ k.client ∧ chars% "in" ≠ k.client ∧ chars% "err" ≠ k.client := by
  cases k <;> decide

theorem rpc_does (ho : Own own) {k : Kind} {a : Str} {s : Service} {end_ : Str} {m : ServiceMethod} {rest : Code} {st : State V E} {steps : List Step} {K}
    (hp : Plain (title k s.name (Strs.goCamelCase m.name))) (hc : variable? st k.client = some (.client k a))
    (hd : ∀ h, Does w steps h (rest.exec w own { st with trace := h }) K) (h : List Event) :
    Does w (rpcStep k a s m ++ steps) h ((rpcCode k s.name end_ id m rest).exec w own { st with trace := h }) K := by
  have key := exec_report (w := w) ho (a := a) (service := s.name) (end_ := end_) (f := chars% "context.Background") (ty := chars% "pb." ++ goType m.request) (m := m)
    (st := { (State.enter { st with trace := h }) with inner := [(chars% "in", .msg (chars% "pb." ++ goType m.request)), (chars% "ctx", .obj (chars% "context.Background"))] })
    hp (by rw [HTTP.look_cons, if_neg (by decide), HTTP.look_cons, if_pos rfl]) (by rw [HTTP.look_cons, if_pos rfl]) (by
      obtain ⟨h1, h2, _⟩ := client_ne k
      unfold variable?
      simp only [HTTP.look_cons, if_neg h1, if_neg h2]
      have := (var_enter { st with trace := h } k.client).trans hc
      exact this)
  obtain ⟨k1, k2⟩ := key
  unfold rpcCode
  rw [Code.exec]
  refine does_call (fun e he => ?_) (fun he => ?_)
  · obtain ⟨st', h1, h2⟩ := k1 e he
    exact ⟨st', exec_block_err (by rw [Code.exec]; simp only [fn0]; rw [Code.exec]; exact h1), h2⟩
  · obtain ⟨inner, h1⟩ := k2 he
    rw [exec_block_ok (by rw [Code.exec]; simp only [fn0]; rw [Code.exec]; exact h1), Code.exec]
    exact does_say (hd _)

theorem http_does (ho : Own own) {a : Str} {s : Service} {end_ : Str} {m : ServiceMethod} {rest : Code} {st : State V E} {steps : List Step} {K}
    (hp : Plain (title .http s.name (Strs.goCamelCase m.name))) (hc : variable? st (chars% "httpAddr") = some (.str a))
    (hd : ∀ h, Does w steps h (rest.exec w own { st with trace := h }) K) (h : List Event) :
    Does w (.must (.client .http a) :: rpcStep .http a s m ++ steps) h ((rpcCode .http s.name end_ makeHTTP m rest).exec w own { st with trace := h }) K := by
  let st1 : State V E := { (State.enter { st with trace := h }) with inner := [(chars% "in", .msg (chars% "pb." ++ goType m.request)), (chars% "ctx", .obj (chars% "context.Background"))] }
  have hv : variable? st1 (chars% "httpAddr") = some (.str a) := by
    unfold variable?
    simp only [st1, HTTP.look_cons, if_neg (show ¬ (chars% "in") = (chars% "httpAddr") by decide), if_neg (show ¬ (chars% "ctx") = (chars% "httpAddr") by decide)]
    exact (var_enter { st with trace := h } (chars% "httpAddr")).trans hc
  let call : Code := (Code.define2 (chars% "\n\t\t") (chars% "out") (chars% "err") ⟨.method (Kind.client .http) (Strs.goCamelCase m.name),
      [([], .id (chars% "ctx")), (chars% ", ", .addr (chars% "in"))], []⟩ (report .http s.name m (.done end_)))
  have hb : ∀ st' : State V E, st' = { st with trace := h } → (rpcCode .http s.name end_ makeHTTP m rest).exec w own st' =
      match (makeHTTP call).exec w own st1 with | .error e => .error e | .ok st'' => (Code.blank (chars% "\n\t") rest).exec w own (st'.leave st'') := by
    intro st' e
    subst e
    unfold rpcCode
    rw [Code.exec, Code.exec, Code.exec]
    simp only [fn0]
    rw [Code.exec]
    rfl
  rw [hb _ rfl]
  have h2 := exec_define2 (w := w) (own := own) (ws := chars% "\n\t\t") (x := chars% "baronHTTPClient") (close := [])
    (rest := failing (chars% "\n\t\t") (chars% "\n\t\t\t") (fn1 (chars% "log.Fatal") (.id (chars% "err"))) call)
    (f := chars% "pb.NewHTTPClient") (st := st1) (vs := [.str a]) (a := .client .http a) (v := .client .http a)
    (args := [([], .id (chars% "httpAddr"))]) (by simp only [evalArgs, Expr.eval, hv]) rfl
  rw [show (makeHTTP call).exec w own st1 = _ from h2]
  refine does_must (fun e he => ?_) (fun he => ?_)
  · rw [show w.fails st1.trace (.client .http a) = _ from he]
    obtain ⟨st', h3, h4⟩ := exec_fatal (w := w) ho (ws1 := chars% "\n\t\t") (ws2 := chars% "\n\t\t\t") (rest := call)
      (var_err (st := st1) (x := chars% "baronHTTPClient") (v := .nil) (u := .error (some e)) (l := st1.inner) (h := st1.trace ++ [.act (.client .http a)]) (by decide))
    refine ⟨st', by simp only [h3], by rw [h4]; simp [st1, State.enter]⟩
  · rw [show w.fails st1.trace (.client .http a) = _ from he]
    simp only
    rw [exec_failing_ok (var_err (by decide))]
    have key := exec_report (w := w) ho (k := .http) (a := a) (service := s.name) (end_ := end_) (f := chars% "context.Background") (ty := chars% "pb." ++ goType m.request) (m := m)
      (st := { st1 with inner := (chars% "baronHTTPClient", .client .http a) :: (chars% "err", .error none) :: st1.inner, trace := st1.trace ++ [.act (.client .http a)] })
      hp rfl rfl (var_head rfl)
    obtain ⟨k1, k2⟩ := key
    refine does_call (fun e he => ?_) (fun he => ?_)
    · obtain ⟨st', h1, h2⟩ := k1 e he
      exact ⟨st', by rw [h1], h2⟩
    · obtain ⟨inner, h1⟩ := k2 he
      rw [h1]
      simp only
      rw [Code.exec]
      exact does_say (hd _)

theorem heading_does (ho : Own own) {k : Kind} {t t' : Str} {rest : Code} {st : State V E} {steps : List Step} {K} (ht : unquote t = some t')
    (hd : ∀ h, Does w steps h (rest.exec w own { st with trace := h }) K) (h : List Event) :
    Does w (.say (t' ++ chars% "\n") :: rule :: steps) h ((heading k t rest).exec w own { st with trace := h }) K := by
  unfold heading
  rw [Code.exec, exec_println ho ht, exec_pln ho]
  exact does_say (does_say (hd _))

theorem foldr_does {f : ServiceMethod → Code → Code} {g : ServiceMethod → List Step} {steps : List Step} {rest : Code} {st : State V E} {K} {l : List ServiceMethod}
    (hf : ∀ m ∈ l, ∀ rest steps, (∀ h, Does w steps h (rest.exec w own { st with trace := h }) K) →
      ∀ h, Does w (g m ++ steps) h ((f m rest).exec w own { st with trace := h }) K)
    (hd : ∀ h, Does w steps h (rest.exec w own { st with trace := h }) K) :
    ∀ h, Does w (l.flatMap g ++ steps) h ((l.foldr f rest).exec w own { st with trace := h }) K := by
  induction l with
  | nil => exact hd
  | cons m l ih =>
    rw [List.flatMap_cons, List.append_assoc, List.foldr_cons]
    exact hf m List.mem_cons_self _ _ (ih fun m hm => hf m (List.mem_cons_of_mem _ hm))

/-- The variables of `main` after a connection. -/
def joined (k : Kind) (x addr : Str) (l : List (Str × GV V E)) : List (Str × GV V E) :=
  (k.client, .client k addr) :: (chars% "err", .error none) :: (x, .conn k addr) :: (chars% "err", .error none) :: l

theorem connected_does (ho : Own own) {k : Kind} {x f addr : Str} {args : List (Str × Expr)} {close : Str} {a : Action} {vs : List (GV V E)} {rest : Code} {st : State V E}
    {steps : List Step} {K} (hx : x ≠ chars% "err") (ha : ∀ h, evalArgs { st with trace := h } args = some vs) (hf : action f vs = some (a, .conn k addr))
    (hc : action (V := V) (E := E) (chars% "pb.New" ++ k.label ++ chars% "Client") [.conn k addr] = some (.client k addr, .client k addr))
    (hd : ∀ h, Does w steps h (rest.exec w own { st with trace := h, inner := joined k x addr st.inner, deferred := (k, addr) :: st.deferred }) K) (h : List Event) :
    Does w (.must a :: .must (.client k addr) :: steps) h ((connected k x ⟨.fn f, args, close⟩ rest).exec w own { st with trace := h }) K := by
  unfold connected
  rw [exec_define2 (ha h) hf]
  refine does_must (fun e he => ?_) (fun he => ?_)
  · simp only [he]
    obtain ⟨st', h3, h4⟩ := exec_fatal (w := w) ho (ws1 := chars% "\n\t") (ws2 := chars% "\n\t\t") (rest := Code.defer (chars% "\n\t") x (chars% "Close") <|
        .define2 (chars% "\n\t") k.client (chars% "err") (fn1 (chars% "pb.New" ++ k.label ++ chars% "Client") (.id x)) <|
        failing (chars% "\n\t") (chars% "\n\t\t") (fn1 (chars% "log.Fatal") (.id (chars% "err"))) <|
        .blank (chars% "\n\t") rest)
      (var_err (st := st) (x := x) (v := .nil) (u := .error (some e)) (l := st.inner) (h := h ++ [.act a]) hx)
    exact ⟨st', h3, by rw [h4]; simp⟩
  · simp only [he]
    rw [exec_failing_ok (var_err hx), Code.exec]
    have hv : ∀ h d, variable? { st with inner := (x, .conn k addr) :: (chars% "err", .error none) :: st.inner, trace := h, deferred := d } x = some (.conn k addr) :=
      fun h d => var_head rfl
    simp only [show variable? { st with inner := (x, .conn k addr) :: (chars% "err", .error none) :: st.inner, trace := h ++ [.act a] } x = some (.conn k addr) from var_head rfl,
      if_true]
    have h2 := exec_define2 (w := w) (own := own) (ws := chars% "\n\t") (x := k.client) (close := [])
      (rest := failing (chars% "\n\t") (chars% "\n\t\t") (fn1 (chars% "log.Fatal") (.id (chars% "err"))) (.blank (chars% "\n\t") rest))
      (f := chars% "pb.New" ++ k.label ++ chars% "Client")
      (st := { st with inner := (x, .conn k addr) :: (chars% "err", .error none) :: st.inner, trace := h ++ [.act a], deferred := (k, addr) :: st.deferred })
      (args := [([], .id x)]) (by simp only [evalArgs, Expr.eval, hv]) hc
    rw [show (Code.exec w own (Code.define2 (chars% "\n\t") k.client (chars% "err") (fn1 (chars% "pb.New" ++ k.label ++ chars% "Client") (.id x)) _) _) = _ from h2]
    have hk : k.client ≠ chars% "err" := fun e => (client_ne k).2.2 e.symm
    refine does_must (fun e he => ?_) (fun he => ?_)
    · rw [show w.fails (h ++ [.act a]) (.client k addr) = _ from he]
      obtain ⟨st', h3, h4⟩ := exec_fatal (w := w) ho (ws1 := chars% "\n\t") (ws2 := chars% "\n\t\t") (rest := Code.blank (chars% "\n\t") rest)
        (var_err (st := { st with deferred := (k, addr) :: st.deferred }) (x := k.client) (v := .nil) (u := .error (some e))
          (l := (x, .conn k addr) :: (chars% "err", .error none) :: st.inner) (h := h ++ [.act a] ++ [.act (.client k addr)]) hk)
      exact ⟨st', h3, by rw [h4]; simp⟩
    · rw [show w.fails (h ++ [.act a]) (.client k addr) = _ from he]
      simp only
      rw [exec_failing_ok (var_err (st := { st with deferred := (k, addr) :: st.deferred }) hk), Code.exec]
      exact hd _

/-! ## `main` -/

/-- The state in `main`, between its parts. -/
structure Between (addr : Kind → Str) (st : State V E) : Prop where
  outer : st.outer = []
  inner : ∀ k : Kind, look st.inner k.var = none
  globals : ∀ k : Kind, look st.globals k.var = some (addr k)

theorem Between.var {addr : Kind → Str} {st : State V E} (hb : Between addr st) (k : Kind) (h : List Event) : variable? { st with trace := h } k.var = some (.str (addr k)) := by
  unfold variable?
  simp only [hb.outer, hb.inner, hb.globals]
  rfl

theorem Between.joined {addr : Kind → Str} {st : State V E} (hb : Between addr st) {k : Kind} {x a : Str} (hx : ∀ k : Kind, x ≠ k.var) (d : List (Kind × Str)) :
    Between addr { st with inner := joined k x a st.inner, deferred := d } := by
  refine ⟨hb.outer, fun l => ?_, hb.globals⟩
  unfold GoCalls.joined
  rw [HTTP.look_cons, if_neg (by cases k <;> cases l <;> decide), HTTP.look_cons, if_neg (by cases l <;> decide), HTTP.look_cons, if_neg (hx l),
    HTTP.look_cons, if_neg (by cases l <;> decide)]
  exact hb.inner l

/-- The names that go into texts. -/
structure Names (s : Service) : Prop where
  service : Plain s.name
  methods : ∀ m ∈ s.methods, Plain (Strs.goCamelCase m.name)

theorem unquote_heading {s : Service} (hs : Plain s.name) (a b : Str) (ha : Plain a) (hb : unquote b = some b) : unquote (a ++ s.name ++ b) = some (a ++ s.name ++ b) := by
  refine unquote_app (fun ch hc => ?_) hb
  rcases List.mem_append.mp hc with hc | hc
  · exact ha ch hc
  · exact hs ch hc

theorem grpc_does (ho : Own own) {s : Service} {addr : Kind → Str} {st : State V E} {rest : Code} {steps : List Step} {K} (hn : Names s) (hb : Between addr st)
    (hd : ∀ h, Does w steps h (rest.exec w own { st with trace := h, inner := joined .grpc (chars% "conn") (addr .grpc) st.inner, deferred := (.grpc, addr .grpc) :: st.deferred }) K)
    (h : List Event) :
    Does w (([.say (chars% "[GRPC." ++ s.name ++ chars% "]\n"), rule, .must (.dial (addr .grpc) [chars% "grpc.WithInsecure", chars% "grpc.WithBlock"]),
      .must (.client .grpc (addr .grpc))] ++ s.methods.flatMap (rpcStep .grpc (addr .grpc) s)) ++ steps) h ((grpcCode s rest).exec w own { st with trace := h }) K := by
  have e : chars% "[GRPC." ++ s.name ++ chars% "]\n" = chars% "[GRPC." ++ s.name ++ chars% "]" ++ chars% "\n" := by simp only [List.append_assoc]; rfl
  rw [e, List.append_assoc]
  unfold grpcCode
  refine heading_does ho (unquote_heading hn.service _ _ (show ∀ ch ∈ (chars% "[GRPC."), ch ≠ '"' ∧ ch ≠ '\\' ∧ ch ≠ '\n' ∧ ch ≠ '%' by decide) (by decide +kernel)) (fun h => ?_) h
  refine connected_does ho (vs := [.str (addr .grpc), .obj (chars% "grpc.WithInsecure"), .obj (chars% "grpc.WithBlock")]) (by decide) (fun h => ?_) rfl rfl (fun h => ?_) h
  · simp only [evalArgs, Expr.eval, show variable? { st with trace := h } (chars% "grpcAddr") = _ from hb.var .grpc h]
  · exact foldr_does (st := { st with inner := joined .grpc (chars% "conn") (addr .grpc) st.inner, deferred := (.grpc, addr .grpc) :: st.deferred })
      (fun m hm rest steps hd h => rpc_does ho (plain_title hn.service (hn.methods m hm)) (var_head rfl) hd h)
      (fun h => by rw [Code.exec]; exact hd h) h

theorem nats_does (ho : Own own) {s : Service} {addr : Kind → Str} {st : State V E} {rest : Code} {steps : List Step} {K} (hn : Names s) (hb : Between addr st)
    (hd : ∀ h, Does w steps h (rest.exec w own { st with trace := h, inner := joined .nats (chars% "nc") (addr .nats) st.inner, deferred := (.nats, addr .nats) :: st.deferred }) K)
    (h : List Event) :
    Does w (([.say (chars% "[NATS." ++ s.name ++ chars% "]\n"), rule, .must (.connect (addr .nats)),
      .must (.client .nats (addr .nats))] ++ s.methods.flatMap (rpcStep .nats (addr .nats) s)) ++ steps) h ((natsCode s rest).exec w own { st with trace := h }) K := by
  have e : chars% "[NATS." ++ s.name ++ chars% "]\n" = chars% "[NATS." ++ s.name ++ chars% "]" ++ chars% "\n" := by simp only [List.append_assoc]; rfl
  rw [e, List.append_assoc]
  unfold natsCode
  refine heading_does ho (unquote_heading hn.service _ _ (show ∀ ch ∈ (chars% "[NATS."), ch ≠ '"' ∧ ch ≠ '\\' ∧ ch ≠ '\n' ∧ ch ≠ '%' by decide) (by decide +kernel)) (fun h => ?_) h
  refine connected_does ho (vs := [.str (addr .nats)]) (by decide) (fun h => ?_) rfl rfl (fun h => ?_) h
  · simp only [evalArgs, Expr.eval, show variable? { st with trace := h } (chars% "natsAddr") = _ from hb.var .nats h]
  · exact foldr_does (st := { st with inner := joined .nats (chars% "nc") (addr .nats) st.inner, deferred := (.nats, addr .nats) :: st.deferred })
      (fun m hm rest steps hd h => rpc_does ho (plain_title hn.service (hn.methods m hm)) (var_head rfl) hd h)
      (fun h => by rw [Code.exec]; exact hd h) h

theorem httpPart_does (ho : Own own) {s : Service} {addr : Kind → Str} {st : State V E} {rest : Code} {steps : List Step} {K} (hn : Names s) (hb : Between addr st)
    (hd : ∀ h, Does w steps h (rest.exec w own { st with trace := h }) K) (h : List Event) :
    Does w (([.say (chars% "[HTTP][" ++ s.name ++ chars% "]\n"), rule] ++
      (httpRpcs s).flatMap fun m => .must (.client .http (addr .http)) :: rpcStep .http (addr .http) s m) ++ steps) h ((httpCode s rest).exec w own { st with trace := h }) K := by
  have e : chars% "[HTTP][" ++ s.name ++ chars% "]\n" = chars% "[HTTP][" ++ s.name ++ chars% "]" ++ chars% "\n" := by simp only [List.append_assoc]; rfl
  rw [e, List.append_assoc]
  unfold httpCode
  refine heading_does ho (unquote_heading hn.service _ _ (show ∀ ch ∈ (chars% "[HTTP]["), ch ≠ '"' ∧ ch ≠ '\\' ∧ ch ≠ '\n' ∧ ch ≠ '%' by decide) (by decide +kernel)) (fun h => ?_) h
  rw [Code.exec]
  exact foldr_does (g := fun m => .must (.client .http (addr .http)) :: rpcStep .http (addr .http) s m)
    (fun m hm rest steps hd h => http_does ho (plain_title hn.service (hn.methods m (List.mem_filter.mp hm).1)) (hb.var .http st.trace) hd h)
    (fun h => by rw [Code.exec]; exact hd h) h

/-- The three parts. -/
theorem parts_does (ho : Own own) {s : Service} {c : TT.Config} {addr : Kind → Str} {st : State V E} (hn : Names s) (hb : Between addr st) (hs : st.deferred = []) (h : List Event) :
    Does w (plan s c addr) h ((Code.blank (chars% "\n\t\n\t") <|
      (fun rest => if selected (chars% "grpc") c then grpcCode s rest else rest) <| .blank (chars% "\n\n\t") <|
      (fun rest => if httpRpcs s = [] then rest else httpCode s rest) <| .blank (chars% "\n\n\t") <|
      (fun rest => if selected (chars% "nats") c then natsCode s rest else rest) <|
      .done (chars% "\n\n\t\n")).exec w own { st with trace := h })
      (fun h r => ∃ st', r = .ok st' ∧ st'.trace = h ∧ st'.deferred.map (fun d => Event.close d.1 d.2) = closing c addr) := by
  have hg : chars% "conn" ≠ Kind.var .grpc := by decide
  have p3 : ∀ (d : List (Kind × Str)) (st : State V E), Between addr st → st.deferred = d → ∀ h,
      Does w (if selected (chars% "nats") c then
        [.say (chars% "[NATS." ++ s.name ++ chars% "]\n"), rule, .must (.connect (addr .nats)), .must (.client .nats (addr .nats))] ++
          s.methods.flatMap (rpcStep .nats (addr .nats) s) else []) h
        ((Code.blank (chars% "\n\n\t") (if selected (chars% "nats") c then natsCode s (.done (chars% "\n\n\t\n")) else .done (chars% "\n\n\t\n"))).exec w own { st with trace := h })
        (fun h r => ∃ st', r = .ok st' ∧ st'.trace = h ∧ st'.deferred = (if selected (chars% "nats") c then [(.nats, addr .nats)] else []) ++ d) := by
    intro d st hb hd h
    rw [Code.exec]
    by_cases hc : selected (chars% "nats") c = true
    · rw [if_pos hc, if_pos hc, if_pos hc]
      rw [← List.append_nil (_ ++ _ : List Step)]
      refine nats_does ho hn hb (fun h => does_nil ?_) h
      rw [Code.exec]
      exact ⟨_, rfl, rfl, by rw [← hd]; rfl⟩
    · rw [if_neg hc, if_neg hc, if_neg hc]
      refine does_nil ?_
      rw [Code.exec]
      exact ⟨_, rfl, rfl, hd⟩
  have p2 : ∀ (d : List (Kind × Str)) (st : State V E), Between addr st → st.deferred = d → ∀ h,
      Does w ((if httpRpcs s = [] then [] else [.say (chars% "[HTTP][" ++ s.name ++ chars% "]\n"), rule] ++
          (httpRpcs s).flatMap fun m => .must (.client .http (addr .http)) :: rpcStep .http (addr .http) s m) ++
        (if selected (chars% "nats") c then
        [.say (chars% "[NATS." ++ s.name ++ chars% "]\n"), rule, .must (.connect (addr .nats)), .must (.client .nats (addr .nats))] ++
          s.methods.flatMap (rpcStep .nats (addr .nats) s) else [])) h
        ((Code.blank (chars% "\n\n\t") ((fun rest => if httpRpcs s = [] then rest else httpCode s rest)
          (Code.blank (chars% "\n\n\t") (if selected (chars% "nats") c then natsCode s (.done (chars% "\n\n\t\n")) else .done (chars% "\n\n\t\n"))))).exec w own { st with trace := h })
        (fun h r => ∃ st', r = .ok st' ∧ st'.trace = h ∧ st'.deferred = (if selected (chars% "nats") c then [(.nats, addr .nats)] else []) ++ d) := by
    intro d st hb hd h
    rw [Code.exec]
    show Does w _ h (Code.exec w own (if httpRpcs s = [] then _ else httpCode s _) _) _
    by_cases hc : httpRpcs s = []
    · rw [if_pos hc, if_pos hc]
      exact p3 d st hb hd h
    · rw [if_neg hc, if_neg hc]
      exact httpPart_does ho hn hb (p3 d st hb hd) h
  unfold plan
  rw [Code.exec, List.append_assoc]
  show Does w _ h (Code.exec w own (if selected (chars% "grpc") c = true then grpcCode s _ else _) _) _
  have fin : ∀ d, (∀ h r, (∃ st' : State V E, r = Except.ok (ε := Stop V E) st' ∧ st'.trace = h ∧ st'.deferred = (if selected (chars% "nats") c then [(.nats, addr .nats)] else []) ++ d) →
      d = (if selected (chars% "grpc") c then [(.grpc, addr .grpc)] else []) →
      ∃ st' : State V E, r = Except.ok (ε := Stop V E) st' ∧ st'.trace = h ∧ st'.deferred.map (fun d => Event.close d.1 d.2) = closing c addr) := by
    rintro d h r ⟨st', h1, h2, h3⟩ rfl
    refine ⟨st', h1, h2, ?_⟩
    rw [h3]
    unfold closing
    cases selected (chars% "nats") c <;> cases selected (chars% "grpc") c <;> rfl
  have mono : ∀ {steps h r} {K K' : List Event → Except (Stop V E) (State V E) → Prop}, Does w steps h r K → (∀ h r, K h r → K' h r) → Does w steps h r K' :=
    fun hd hk => ⟨fun e => hk _ _ (hd.1 e), hd.2⟩
  by_cases hc : selected (chars% "grpc") c = true
  · rw [if_pos hc, if_pos hc]
    refine grpc_does ho hn hb (fun h => ?_) h
    refine mono (p2 _ { st with inner := joined .grpc (chars% "conn") (addr .grpc) st.inner, deferred := (.grpc, addr .grpc) :: st.deferred }
      (hb.joined (by intro k; cases k <;> decide) _) rfl h) (fun h r hr => fin _ h r hr ?_)
    rw [if_pos hc, hs]
  · rw [if_neg hc, if_neg hc]
    refine mono (p2 [] st hb hs h) (fun h r hr => fin _ h r hr ?_)
    rw [if_neg hc]

end Baron.GoCalls
