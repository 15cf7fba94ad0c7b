import Verif.Spec.GoServer
import Verif.Proofs.Literal
import Verif.Props.Server

/-! # Proofs about `Run` (C97) -/

namespace Baron.GoServer

open Baron.Server (Config Proc Gen)
open Baron.HTTP (look)

variable {E : Type}

/-! ## A goroutine on its own -/

/-- What can be seen of an act. -/
def seen (a : Act E) : List (Act E) := match a with
  | .silent => []
  | a => [a]

/-- Steps of a goroutine, with what can be seen of them. -/
inductive TRun (c : Config) : Thread E → List (Act E) → Thread E → Prop where
  | nil {t : Thread E} : TRun c t [] t
  | cons {t t' t'' : Thread E} {a : Act E} {l : List (Act E)} : TStep c t a t' → TRun c t' l t'' → TRun c t (seen a ++ l) t''

theorem TRun.snoc {c : Config} {t t' t'' : Thread E} {a : Act E} {l : List (Act E)} (h : TRun c t l t') (h' : TStep c t' a t'') :
    TRun c t (l ++ seen a) t'' := by
  induction h with
  | nil => simpa using TRun.cons h' .nil
  | cons h1 _ ih => rw [List.append_assoc]; exact .cons h1 (ih h')

/-- What is shown of a goroutine at all times: the prefix of a complete behaviour, complete when it sends or ends. -/
structure Fine (C : List (Act E) → End E → Prop) (l : List (Act E)) (t : Thread E) : Prop where
  pre : ∃ l' e, C (l ++ l') e
  send : ∀ ch e, Offers t ch e → ch = chars% "errc" ∧ C l (.sends e)
  fin : t.code = [] → C l .finishes

/-- From now on everything is fine. -/
def Good (c : Config) (C : List (Act E) → End E → Prop) (t : Thread E) (l : List (Act E)) : Prop :=
  ∀ l' t', TRun c t l' t' → Fine C (l ++ l') t'

variable {c : Config} {C : List (Act E) → End E → Prop} {l : List (Act E)} {k : List Code} {vs : Vars E} {r : Code}

theorem Good.now {t : Thread E} (h : Good c C t l) : Fine C l t := by simpa using h [] t .nil

/-- A statement with one successor. -/
theorem good_step {t t' : Thread E} {a : Act E} (h1 : ∀ a' u, TStep c t a' u → a' = a ∧ u = t') (h2 : ∀ ch e, ¬ Offers t ch e) (h3 : t.code ≠ [])
    (h : Good c C t' (l ++ seen a)) : Good c C t l := by
  intro l' u hu
  cases hu with
  | nil =>
    obtain ⟨m, e, hm⟩ := h.now.pre
    rw [List.append_nil]
    exact ⟨⟨seen a ++ m, e, by rw [← List.append_assoc]; exact hm⟩, fun ch e he => absurd he (h2 ch e), fun he => absurd he h3⟩
  | cons hs hr =>
    obtain ⟨rfl, rfl⟩ := h1 _ _ hs
    rw [← List.append_assoc]
    exact h _ _ hr

theorem good_pop {ws : Str} (h : Good c C ⟨k, vs, .ready⟩ l) : Good c C ⟨.done ws :: k, vs, .ready⟩ l :=
  good_step (t' := ⟨k, vs, .ready⟩) (a := .silent) (fun a u h => by cases h; exact ⟨rfl, rfl⟩) (fun _ _ h => by cases h) nofun (by simpa [seen] using h)

theorem good_comment {ws s : Str} (h : Good c C ⟨r :: k, vs, .ready⟩ l) : Good c C ⟨.comment ws s r :: k, vs, .ready⟩ l :=
  good_step (t' := ⟨r :: k, vs, .ready⟩) (a := .silent) (fun a u h => by cases h; exact ⟨rfl, rfl⟩) (fun _ _ h => by cases h) nofun (by simpa [seen] using h)

theorem good_makeChan {ws x ty : Str} (h : Good c C ⟨r :: k, (x, .chan x) :: vs, .ready⟩ l) : Good c C ⟨.makeChan ws x ty r :: k, vs, .ready⟩ l :=
  good_step (t' := ⟨r :: k, (x, .chan x) :: vs, .ready⟩) (a := .silent) (fun a u h => by cases h; exact ⟨rfl, rfl⟩) (fun _ _ h => by cases h) nofun (by simpa [seen] using h)

theorem good_closure {ws x p b : Str} (h : Good c C ⟨r :: k, (x, .func x) :: vs, .ready⟩ l) : Good c C ⟨.closure ws x p b r :: k, vs, .ready⟩ l :=
  good_step (t' := ⟨r :: k, (x, .func x) :: vs, .ready⟩) (a := .silent) (fun a u h => by cases h; exact ⟨rfl, rfl⟩) (fun _ _ h => by cases h) nofun (by simpa [seen] using h)

theorem good_define {ws x : Str} {f : Callee} {args : Args} {g : Str} {us : List (GV E)} (he : evalCall c vs f args = some (g, us))
    (h : Good c C ⟨r :: k, (x, .obj g us) :: vs, .ready⟩ l) : Good c C ⟨.define ws x f args r :: k, vs, .ready⟩ l :=
  good_step (t' := ⟨r :: k, (x, .obj g us) :: vs, .ready⟩) (a := .silent)
    (fun a u h => by cases h with | define h => rw [he] at h; cases h; exact ⟨rfl, rfl⟩) (fun _ _ h => by cases h) nofun (by simpa [seen] using h)

theorem good_call {ws : Str} {f : Callee} {args : Args} {g : Str} {us : List (GV E)} (he : evalCall c vs f args = some (g, us))
    (h : Good c C ⟨r :: k, vs, .ready⟩ (l ++ [.does g us])) : Good c C ⟨.call ws f args r :: k, vs, .ready⟩ l :=
  good_step (t' := ⟨r :: k, vs, .ready⟩) (a := .does g us)
    (fun a u h => by cases h with | call h => rw [he] at h; cases h; exact ⟨rfl, rfl⟩) (fun _ _ h => by cases h) nofun h

theorem good_log {ws : Str} {args : Args} {us : List (GV E)} (he : args.mapM (fun a => a.2.eval c vs) = some us)
    (h : Good c C ⟨r :: k, vs, .ready⟩ (l ++ [.log us])) : Good c C ⟨.log ws args r :: k, vs, .ready⟩ l :=
  good_step (t' := ⟨r :: k, vs, .ready⟩) (a := .log us)
    (fun a u h => by cases h with | log h => rw [he] at h; cases h; exact ⟨rfl, rfl⟩) (fun _ _ h => by cases h) nofun h

/-- A statement with a successor for each value. -/
theorem good_choice {V : Type} {t : Thread E} {t' : V → Thread E} {a : V → Act E} (v₀ : V) (h1 : ∀ a' u, TStep c t a' u → ∃ v, a' = a v ∧ u = t' v)
    (h2 : ∀ ch e, ¬ Offers t ch e) (h3 : t.code ≠ []) (h : ∀ v, Good c C (t' v) (l ++ seen (a v))) : Good c C t l := by
  intro l' u hu
  cases hu with
  | nil =>
    obtain ⟨m, e, hm⟩ := (h v₀).now.pre
    rw [List.append_nil]
    exact ⟨⟨seen (a v₀) ++ m, e, by rw [← List.append_assoc]; exact hm⟩, fun ch e he => absurd he (h2 ch e), fun he => absurd he h3⟩
  | cons hs hr =>
    obtain ⟨v, rfl, rfl⟩ := h1 _ _ hs
    rw [← List.append_assoc]
    exact h v _ _ hr

theorem good_receive [Inhabited E] {ws x f s ch y : Str} (he : look vs ch = some (.chan y))
    (h : ∀ e, Good c C ⟨r :: k, (x, .error (some e)) :: vs, .ready⟩ (l ++ [.receives e])) : Good c C ⟨.receive ws x f s ch r :: k, vs, .ready⟩ l :=
  good_choice (V := E) (t' := fun e => ⟨r :: k, (x, .error (some e)) :: vs, .ready⟩) (a := .receives) default
    (fun a u h => by cases h with | receive _ => exact ⟨_, rfl, rfl⟩) (fun _ _ h => by cases h) nofun h

theorem good_define2 {ws x : Str} {f : Callee} {args : Args} {g : Str} {us : List (GV E)} (he : evalCall c vs f args = some (g, us))
    (h : ∀ e, Good c C ⟨r :: k, (x, .obj g us) :: (chars% "err", .error e) :: vs, .ready⟩ (l ++ [.calls g us] ++ [.returns e])) :
    Good c C ⟨.define2 ws x f args r :: k, vs, .ready⟩ l :=
  good_step (t' := ⟨.define2 ws x f args r :: k, vs, .waiting (.obj g us)⟩) (a := .calls g us)
    (fun a u h => by cases h with | define2 h => rw [he] at h; cases h; exact ⟨rfl, rfl⟩) (fun _ _ h => by cases h) nofun
    (good_choice (V := Option E) (t' := fun e => ⟨r :: k, (x, .obj g us) :: (chars% "err", .error e) :: vs, .ready⟩) (a := .returns) none
      (fun a u h => by cases h; exact ⟨_, rfl, rfl⟩) (fun _ _ h => by cases h) nofun h)

theorem good_assign {ws : Str} {f : Callee} {args : Args} {g : Str} {us : List (GV E)} (he : evalCall c vs f args = some (g, us))
    (h : ∀ e, Good c C ⟨r :: k, (chars% "err", .error e) :: vs, .ready⟩ (l ++ [.calls g us] ++ [.returns e])) :
    Good c C ⟨.assign ws f args r :: k, vs, .ready⟩ l :=
  good_step (t' := ⟨.assign ws f args r :: k, vs, .waiting (.obj g us)⟩) (a := .calls g us)
    (fun a u h => by cases h with | assign h => rw [he] at h; cases h; exact ⟨rfl, rfl⟩) (fun _ _ h => by cases h) nofun
    (good_choice (V := Option E) (t' := fun e => ⟨r :: k, (chars% "err", .error e) :: vs, .ready⟩) (a := .returns) none
      (fun a u h => by cases h; exact ⟨_, rfl, rfl⟩) (fun _ _ h => by cases h) nofun h)

/-- A goroutine that waits at the channel. -/
theorem good_wait {t : Thread E} (h1 : ∀ a' u, ¬ TStep c t a' u) (h2 : ∃ e, C l e) (h3 : t.code ≠ [])
    (h : ∀ ch e, Offers t ch e → ch = chars% "errc" ∧ C l (.sends e)) : Good c C t l := by
  intro l' u hu
  cases hu with
  | nil =>
    rw [List.append_nil]
    obtain ⟨e, he⟩ := h2
    exact ⟨⟨[], e, by rwa [List.append_nil]⟩, h, fun he => absurd he h3⟩
  | cons hs hr => exact absurd hs (h1 _ _)

theorem good_sendCall {ws ch : Str} {f : Callee} {args : Args} {g : Str} {us : List (GV E)} (he : evalCall c vs f args = some (g, us))
    (hc : look vs ch = some (.chan (chars% "errc"))) (h : ∀ e, C (l ++ [.calls g us] ++ [.returns e]) (.sends e)) :
    Good c C ⟨.sendCall ws ch f args r :: k, vs, .ready⟩ l :=
  good_step (t' := ⟨.sendCall ws ch f args r :: k, vs, .waiting (.obj g us)⟩) (a := .calls g us)
    (fun a u h => by cases h with | sendCall h => rw [he] at h; cases h; exact ⟨rfl, rfl⟩) (fun _ _ h => by cases h) nofun
    (good_choice (V := Option E) (t' := fun e => ⟨.sendCall ws ch f args r :: k, vs, .offering e⟩) (a := .returns) none
      (fun a u h => by cases h; exact ⟨_, rfl, rfl⟩) (fun _ _ h => by cases h) nofun
      (fun e => good_wait (fun _ _ h => by cases h) ⟨_, h e⟩ nofun fun ch' e' ho => by
        cases ho with | result ho => rw [hc] at ho; cases ho; exact ⟨rfl, h e⟩))

theorem good_send {ws ch x : Str} {e : Option E} (hc : look vs ch = some (.chan (chars% "errc"))) (hx : look vs x = some (.error e))
    (h : C l (.sends e)) : Good c C ⟨.send ws ch x r :: k, vs, .ready⟩ l :=
  good_wait (fun _ _ h => by cases h) ⟨_, h⟩ nofun fun ch' e' ho => by
    cases ho with | value h1 h2 => rw [hc] at h1; rw [hx] at h2; cases h1; cases h2; exact ⟨rfl, h⟩

theorem good_end (h : C l .finishes) : Good c C ⟨[], vs, .ready⟩ l := by
  intro l' u hu
  cases hu with
  | nil =>
    rw [List.append_nil]
    exact ⟨⟨[], _, by rwa [List.append_nil]⟩, (fun ch e h => by cases h), fun _ => h⟩
  | cons hs hr => cases hs

theorem good_giveUp {e : Option E} (hc : look vs (chars% "errc") = some (.chan (chars% "errc"))) (he : look vs (chars% "err") = some (.error e))
    (h1 : ∀ x, e = some x → C l (.sends (some x))) (h2 : e = none → Good c C ⟨r :: k, vs, .ready⟩ l) : Good c C ⟨giveUp r :: k, vs, .ready⟩ l := by
  unfold giveUp
  cases e with
  | some x =>
    refine good_step (a := .silent) (t' := ⟨.send (chars% "\n\t\t\t\t") (chars% "errc") (chars% "err") (.ret (chars% "\n\t\t\t\t") (.done (chars% "\n\t\t\t"))) :: r :: k, vs, .ready⟩) (fun a u h => ?_) (fun _ _ h => by cases h) nofun ?_
    · cases h with
      | isErr _ => exact ⟨rfl, rfl⟩
      | noErr h => rw [he] at h; cases h
    · rw [show seen (E := E) .silent = [] from rfl, List.append_nil]
      exact good_send hc he (h1 x rfl)
  | none =>
    refine good_step (a := .silent) (t' := ⟨r :: k, vs, .ready⟩) (fun a u h => ?_) (fun _ _ h => by cases h) nofun ?_
    · cases h with
      | isErr h => rw [he] at h; cases h
      | noErr _ => exact ⟨rfl, rfl⟩
    · rw [show seen (E := E) .silent = [] from rfl, List.append_nil]
      exact h2 rfl

/-! ## The goroutines of `Run` -/

/-- The variables of `Run` when a goroutine is started. -/
def runVars : Vars E := [(chars% "errc", .chan (chars% "errc")), (chars% "endpoints", endpoints)]

/-- The goroutines as they are started. -/
def initial (service : Str) : Proc → Thread E
  | .interrupt => ⟨[interrupt.body], [(chars% "errc", .chan (chars% "errc"))], .ready⟩
  | .debug => ⟨[debugBody], runVars, .ready⟩
  | .http => ⟨[httpBody], runVars, .ready⟩
  | .grpc => ⟨[grpcBody service], runVars, .ready⟩
  | .nats => ⟨[natsBody], runVars, .ready⟩

theorem unquote_plain {s : Str} (h : TT.Plain s) : unquote s = some s := by
  unfold unquote
  have : TT.literal (s ++ ['"']) = some (s, []) := by
    unfold TT.literal
    exact TT.literalGo_clean h.1 h.2.1 h.2.2 _ (by rw [List.length_append, List.length_singleton]; omega)
  rw [this]

theorem good_interrupt [Inhabited E] (service : Str) : Good (E := E) c (Complete service c .interrupt) (initial service .interrupt) [] := by
  unfold initial interrupt
  refine good_makeChan ?_
  refine good_call rfl ?_
  refine good_receive (y := chars% "c") rfl fun e => ?_
  refine good_comment ?_
  exact good_send rfl rfl .interrupted

theorem text_eval {s : Str} (h : TT.Plain s) : Atom.eval (E := E) c vs (.text s) = some (.str s) := by
  show (unquote s).map GV.str = _
  rw [unquote_plain h]
  rfl

/-- The log line of a goroutine. -/
theorem log_eval {kind f v s1 s2 s3 s4 : Str} (hk : TT.Plain kind) (hf : get c f = some v) :
    ([(s1, .text (chars% "transport")), (s2, .text kind), (s3, .text (chars% "addr")), (s4, .field f)] : Args).mapM
      (fun a => Atom.eval (E := E) c vs a.2) = some [.str (chars% "transport"), .str kind, .str (chars% "addr"), .str v] := by
  have h1 : Atom.eval (E := E) c vs (.text (chars% "transport")) = some (.str (chars% "transport")) := text_eval (by unfold TT.Plain; decide)
  have h2 : Atom.eval (E := E) c vs (.text (chars% "addr")) = some (.str (chars% "addr")) := text_eval (by unfold TT.Plain; decide)
  have h3 : Atom.eval (E := E) c vs (.field f) = some (.str v) := by show (get c f).map GV.str = _; rw [hf]; rfl
  simp only [List.mapM_cons, List.mapM_nil, h1, h2, h3, text_eval hk]
  rfl

theorem good_handle {path f : Str} (hp : TT.Plain path) (hm : look vs (chars% "m") = some mux)
    (h : Good c C ⟨r :: k, vs, .ready⟩ (l ++ [handles path f])) : Good c C ⟨handle path f r :: k, vs, .ready⟩ l := by
  refine good_call (g := chars% "Handle") (us := [mux, .str path, .obj (chars% "http.HandlerFunc") [.func (chars% "pprof." ++ f)]]) ?_ h
  have h1 : ([([], .text path), (chars% ", ", .conv (chars% "http.HandlerFunc") (chars% "pprof." ++ f))] : Args).mapM
      (fun a => Atom.eval (E := E) c vs a.2) = some [.str path, .obj (chars% "http.HandlerFunc") [.func (chars% "pprof." ++ f)]] := by
    simp only [List.mapM_cons, List.mapM_nil, text_eval hp]
    rfl
  unfold evalCall
  simp only [h1]
  rw [hm]
  rfl

theorem good_debug (service : Str) : Good (E := E) c (Complete service c .debug) (initial service .debug) [] := by
  unfold initial debugBody
  refine good_log (log_eval (by unfold TT.Plain; decide) rfl) ?_
  refine good_define rfl ?_
  refine good_handle (by unfold TT.Plain; decide) rfl ?_
  refine good_handle (by unfold TT.Plain; decide) rfl ?_
  refine good_handle (by unfold TT.Plain; decide) rfl ?_
  refine good_handle (by unfold TT.Plain; decide) rfl ?_
  refine good_handle (by unfold TT.Plain; decide) rfl ?_
  exact good_sendCall rfl rfl fun e => .debug

theorem good_http (service : Str) : Good (E := E) c (Complete service c .http) (initial service .http) [] := by
  unfold initial httpBody
  refine good_log (log_eval (by unfold TT.Plain; decide) rfl) ?_
  refine good_define rfl ?_
  exact good_sendCall rfl rfl fun e => .http

theorem good_grpc (service : Str) : Good (E := E) c (Complete service c .grpc) (initial service .grpc) [] := by
  unfold initial grpcBody
  refine good_log (log_eval (by unfold TT.Plain; decide) rfl) ?_
  refine good_define2 (g := chars% "net.Listen") (us := [.str (chars% "tcp"), .str c.grpcAddr]) ?_ fun e => ?_
  · unfold evalCall
    have h1 : Atom.eval (E := E) c runVars (.text (chars% "tcp")) = some (.str (chars% "tcp")) := text_eval (by unfold TT.Plain; decide)
    simp only [List.mapM_cons, List.mapM_nil, h1]
    rfl
  refine good_giveUp rfl rfl ?_ ?_
  · rintro x rfl
    exact .noListener
  rintro rfl
  refine good_define rfl ?_
  refine good_define rfl ?_
  refine good_call rfl ?_
  exact good_sendCall rfl rfl fun e => .grpc

theorem good_nats (service : Str) : Good (E := E) c (Complete service c .nats) (initial service .nats) [] := by
  unfold initial natsBody
  refine good_log (log_eval (by unfold TT.Plain; decide) rfl) ?_
  refine good_define2 rfl fun e => ?_
  refine good_giveUp rfl rfl ?_ ?_
  · rintro x rfl
    exact .noConnection
  rintro rfl
  refine good_closure ?_
  refine good_call rfl ?_
  refine good_define rfl ?_
  refine good_assign rfl fun e => ?_
  refine good_giveUp rfl rfl ?_ ?_
  · rintro x rfl
    exact .notSubscribed
  rintro rfl
  exact good_pop (good_end .subscribed)

theorem good_initial [Inhabited E] (service : Str) : ∀ p, Good (E := E) c (Complete service c p) (initial service p) []
  | .interrupt => good_interrupt service
  | .debug => good_debug service
  | .http => good_http service
  | .grpc => good_grpc service
  | .nats => good_nats service

/-! ## `Run` on its own -/

/-- Steps of `Run`, with the goroutines it starts. -/
inductive MRun (fs : List Func) (c : Config) : Thread E → List (Thread E) → Thread E → Prop where
  | nil {t : Thread E} : MRun fs c t [] t
  | step {t t' t'' : Thread E} {a : Act E} {l : List (Thread E)} : TStep c t a t' → MRun fs c t' l t'' → MRun fs c t l t''
  | goFunc {ws : Str} {b r : Code} {k : List Code} {vs : Vars E} {l : List (Thread E)} {t : Thread E} :
    MRun fs c ⟨r :: k, vs, .ready⟩ l t → MRun fs c ⟨.goFunc ws b r :: k, vs, .ready⟩ (⟨[b], vs, .ready⟩ :: l) t
  | goCall {ws x : Str} {v : GV E} {fn : Func} {r : Code} {k : List Code} {vs : Vars E} {l : List (Thread E)} {t : Thread E} :
    fn ∈ fs → look vs x = some v → MRun fs c ⟨r :: k, vs, .ready⟩ l t →
    MRun fs c ⟨.goCall ws fn.name x r :: k, vs, .ready⟩ (⟨[fn.body], [(fn.param, v)], .ready⟩ :: l) t

variable {fs : List Func}

theorem MRun.trans {t t' t'' : Thread E} {l l' : List (Thread E)} (h : MRun fs c t l t') (h' : MRun fs c t' l' t'') : MRun fs c t (l ++ l') t'' := by
  induction h with
  | nil => exact h'
  | step h1 _ ih => exact .step h1 (ih h')
  | goFunc _ ih => exact .goFunc (ih h')
  | goCall h1 h2 _ ih => exact .goCall h1 h2 (ih h')

/-- Waiting for the first error. -/
def Waits (t : Thread E) : Prop := ∃ ws s ch r k vs, t = ⟨.logReceived ws s ch r :: k, vs, .ready⟩ ∧ look vs ch = some (.chan (chars% "errc"))

/-- What is shown of `Run` at all times: it has started the first ones of `L`, all of them when it receives, and it can come to that. -/
structure FineM (fs : List Func) (c : Config) (L acc : List (Thread E)) (t : Thread E) : Prop where
  pre : acc <+: L
  all : ∀ ws s ch r k vs, t = ⟨.logReceived ws s ch r :: k, vs, .ready⟩ → acc = L
  can : ∃ l t', MRun fs c t l t' ∧ Waits t'

def GoodM (fs : List Func) (c : Config) (L : List (Thread E)) (t : Thread E) (acc : List (Thread E)) : Prop :=
  ∀ l t', MRun fs c t l t' → FineM fs c L (acc ++ l) t'

variable {L acc : List (Thread E)}

theorem GoodM.now {t : Thread E} (h : GoodM fs c L t acc) : FineM fs c L acc t := by simpa using h [] t .nil

theorem goodM_step {t t' : Thread E} {a : Act E} (h1 : TStep c t a t') (h2 : ∀ a' u, TStep c t a' u → u = t')
    (h3 : ∀ ws b r k vs, t ≠ ⟨.goFunc ws b r :: k, vs, .ready⟩) (h4 : ∀ ws f x r k vs, t ≠ ⟨.goCall ws f x r :: k, vs, .ready⟩)
    (h5 : ∀ ws s ch r k vs, t ≠ ⟨.logReceived ws s ch r :: k, vs, .ready⟩) (h : GoodM fs c L t' acc) : GoodM fs c L t acc := by
  intro l u hu
  cases hu with
  | nil =>
    rw [List.append_nil]
    obtain ⟨m, t'', hm, hw⟩ := h.now.can
    exact ⟨h.now.pre, fun ws s ch r k vs e => absurd e (h5 ws s ch r k vs), m, t'', .step h1 hm, hw⟩
  | step hs hr =>
    cases h2 _ _ hs
    exact h _ _ hr
  | goFunc _ => exact (h3 _ _ _ _ _ rfl).elim
  | goCall _ _ _ => exact (h4 _ _ _ _ _ _ rfl).elim

theorem goodM_pop {ws : Str} (h : GoodM fs c L ⟨k, vs, .ready⟩ acc) : GoodM fs c L ⟨.done ws :: k, vs, .ready⟩ acc :=
  goodM_step .pop (fun _ _ h => by cases h; rfl) nofun nofun nofun h

theorem goodM_comment {ws s : Str} (h : GoodM fs c L ⟨r :: k, vs, .ready⟩ acc) : GoodM fs c L ⟨.comment ws s r :: k, vs, .ready⟩ acc :=
  goodM_step .comment (fun _ _ h => by cases h; rfl) nofun nofun nofun h

theorem goodM_makeChan {ws x ty : Str} (h : GoodM fs c L ⟨r :: k, (x, .chan x) :: vs, .ready⟩ acc) : GoodM fs c L ⟨.makeChan ws x ty r :: k, vs, .ready⟩ acc :=
  goodM_step .makeChan (fun _ _ h => by cases h; rfl) nofun nofun nofun h

theorem goodM_define {ws x : Str} {f : Callee} {args : Args} {g : Str} {us : List (GV E)} (he : evalCall c vs f args = some (g, us))
    (h : GoodM fs c L ⟨r :: k, (x, .obj g us) :: vs, .ready⟩ acc) : GoodM fs c L ⟨.define ws x f args r :: k, vs, .ready⟩ acc :=
  goodM_step (.define he) (fun _ _ h => by cases h with | define h => rw [he] at h; cases h; rfl) nofun nofun nofun h

theorem goodM_ifSet {ws : Str} {b : Code} (h1 : c.debug = true → GoodM fs c L ⟨b :: r :: k, vs, .ready⟩ acc)
    (h2 : c.debug = false → GoodM fs c L ⟨r :: k, vs, .ready⟩ acc) : GoodM fs c L ⟨.ifSet ws (chars% "Debug") b r :: k, vs, .ready⟩ acc := by
  refine goodM_step .ifSet (fun _ _ h => by cases h; rfl) nofun nofun nofun ?_
  cases hd : c.debug with
  | true => rw [if_pos rfl]; exact h1 hd
  | false => rw [if_neg nofun]; exact h2 hd

theorem goodM_ifNonempty {ws f v : Str} {b : Code} (hv : get c f = some v) (h1 : v ≠ [] → GoodM fs c L ⟨b :: r :: k, vs, .ready⟩ acc)
    (h2 : v = [] → GoodM fs c L ⟨r :: k, vs, .ready⟩ acc) : GoodM fs c L ⟨.ifNonempty ws f b r :: k, vs, .ready⟩ acc := by
  refine goodM_step (.ifNonempty hv) (fun _ _ h => by cases h with | ifNonempty h => rw [hv] at h; cases h; rfl) nofun nofun nofun ?_
  by_cases hd : v = []
  · rw [if_neg (fun h => h hd)]; exact h2 hd
  · rw [if_pos hd]; exact h1 hd

theorem goodM_goFunc {ws : Str} {b : Code} (h : GoodM fs c L ⟨r :: k, vs, .ready⟩ (acc ++ [⟨[b], vs, .ready⟩])) :
    GoodM fs c L ⟨.goFunc ws b r :: k, vs, .ready⟩ acc := by
  intro l u hu
  cases hu with
  | nil =>
    rw [List.append_nil]
    obtain ⟨m, t'', hm, hw⟩ := h.now.can
    exact ⟨(List.prefix_append _ _).trans h.now.pre, nofun, _, t'', .goFunc hm, hw⟩
  | step hs hr => cases hs
  | goFunc hr =>
    have := h _ _ hr
    rwa [List.append_assoc] at this

theorem goodM_goCall {ws x : Str} {v : GV E} {fn : Func} (hf : fn ∈ fs) (hu : ∀ fn' ∈ fs, fn'.name = fn.name → fn' = fn) (hx : look vs x = some v)
    (h : GoodM fs c L ⟨r :: k, vs, .ready⟩ (acc ++ [⟨[fn.body], [(fn.param, v)], .ready⟩])) :
    GoodM fs c L ⟨.goCall ws fn.name x r :: k, vs, .ready⟩ acc := by
  intro l u hu'
  generalize ht : (⟨.goCall ws fn.name x r :: k, vs, .ready⟩ : Thread E) = t at hu'
  cases hu' with
  | nil =>
    subst ht
    rw [List.append_nil]
    obtain ⟨m, t'', hm, hw⟩ := h.now.can
    exact ⟨(List.prefix_append _ _).trans h.now.pre, nofun, _, t'', .goCall hf hx hm, hw⟩
  | step hs hr => subst ht; cases hs
  | goFunc hr => cases ht
  | @goCall ws' x' v' fn' r' k' vs' l' _ h1 h2 hr =>
    injection ht with e1 e2
    injection e1 with e1 e3
    injection e1 with e4 e5 e6 e7
    subst e2 e3 e6 e7
    have := hu fn' h1 e5.symm
    subst this
    rw [hx] at h2
    cases h2
    have := h _ _ hr
    rwa [List.append_assoc] at this

theorem goodM_exit {ws s ch : Str} (hc : look vs ch = some (.chan (chars% "errc"))) (h : acc = L) :
    GoodM fs c L ⟨.logReceived ws s ch r :: k, vs, .ready⟩ acc := by
  intro l u hu
  cases hu with
  | nil =>
    rw [List.append_nil]
    exact ⟨h ▸ List.prefix_rfl, fun _ _ _ _ _ _ _ => h, _, _, .nil, ws, s, ch, r, k, vs, rfl, hc⟩
  | step hs hr => cases hs

theorem goodM_served {service comment f v ws : Str} {p : Proc} {body rest : Code} (hv : get c f = some v)
    (hp : initial (E := E) service p = ⟨[body], runVars, .ready⟩)
    (h : ∀ acc', acc' = acc ++ (if v ≠ [] then [initial service p] else []) → GoodM fs c L ⟨[rest], runVars, .ready⟩ acc') :
    GoodM fs c L ⟨[(serve comment f body rest).after ws], runVars, .ready⟩ acc := by
  refine goodM_comment (goodM_ifNonempty hv (fun h1 => ?_) (fun h1 => ?_))
  · refine goodM_goFunc (goodM_pop (h _ ?_))
    rw [if_pos h1, hp]
  · refine h _ ?_
    rw [if_neg (fun h => h h1), List.append_nil]

theorem good_exit {ws : Str} (h : acc = L) : GoodM fs c L ⟨[run.exit ws], runVars, .ready⟩ acc :=
  goodM_comment (goodM_exit rfl h)

theorem good_withNATS {service ws : Str} {g : Gen} (h : acc ++ (if g.nats ∧ c.natsAddr ≠ [] then [initial service .nats] else []) = L) :
    GoodM fs c L ⟨[run.withNATS g ws], runVars, .ready⟩ acc := by
  unfold run.withNATS
  cases hg : g.nats with
  | true =>
    rw [if_pos rfl]
    refine goodM_served (service := service) (p := .nats) rfl rfl fun acc' ha => good_exit ?_
    subst ha
    rw [← h]
    simp only [hg, true_and]
  | false =>
    rw [if_neg nofun]
    refine good_exit ?_
    rw [← h]
    simp only [hg, Bool.false_eq_true, false_and, if_false, List.append_nil]

theorem good_withGRPC {service ws : Str} {g : Gen} (h : acc ++ ((if g.grpc ∧ c.grpcAddr ≠ [] then [initial service .grpc] else []) ++
    (if g.nats ∧ c.natsAddr ≠ [] then [initial service .nats] else [])) = L) :
    GoodM fs c L ⟨[run.withGRPC service g ws], runVars, .ready⟩ acc := by
  unfold run.withGRPC
  cases hg : g.grpc with
  | true =>
    rw [if_pos rfl]
    refine goodM_served (service := service) (p := .grpc) rfl rfl fun acc' ha => good_withNATS (service := service) ?_
    subst ha
    rw [← h, List.append_assoc]
    simp only [hg, true_and]
  | false =>
    rw [if_neg nofun]
    refine good_withNATS (service := service) ?_
    rw [← h]
    simp only [hg, Bool.false_eq_true, false_and, if_false, List.nil_append]

theorem good_withHTTP {service ws : Str} {g : Gen} (h : acc ++ ((if g.hasHTTP ∧ c.httpAddr ≠ [] then [initial service .http] else []) ++
    ((if g.grpc ∧ c.grpcAddr ≠ [] then [initial service .grpc] else []) ++
    (if g.nats ∧ c.natsAddr ≠ [] then [initial service .nats] else []))) = L) :
    GoodM fs c L ⟨[run.withHTTP service g ws], runVars, .ready⟩ acc := by
  unfold run.withHTTP
  cases hg : g.hasHTTP with
  | true =>
    rw [if_pos rfl]
    refine goodM_served (service := service) (p := .http) rfl rfl fun acc' ha => good_withGRPC (service := service) ?_
    subst ha
    rw [← h, List.append_assoc]
    simp only [hg, true_and]
  | false =>
    rw [if_neg nofun]
    refine good_withGRPC (service := service) ?_
    rw [← h]
    simp only [hg, Bool.false_eq_true, false_and, if_false, List.nil_append]

theorem map_if {α β : Type} {b : Prop} [Decidable b] {x : α} (f : α → β) : (if b then [x] else []).map f = if b then [f x] else [] := by
  by_cases h : b <;> simp [h]

theorem good_run (service : Str) (g : Gen) :
    GoodM (E := E) [interrupt] c ((Server.program g c).map (initial service)) ⟨[(run service g).body], [], .ready⟩ [] := by
  unfold run
  refine goodM_comment (goodM_define rfl (goodM_comment (goodM_makeChan (goodM_comment ?_))))
  refine goodM_goCall (fn := interrupt) (.head _) (fun f hf _ => by simpa using hf) (v := .chan (chars% "errc")) rfl ?_
  refine goodM_comment (goodM_ifSet (fun hd => ?_) (fun hd => ?_))
  · refine goodM_goFunc (goodM_pop (good_withHTTP (service := service) ?_))
    unfold Server.program
    simp only [List.map_append, map_if, List.map_cons, List.map_nil, hd, if_true, List.append_assoc]
    rfl
  · refine good_withHTTP (service := service) ?_
    unfold Server.program
    simp only [List.map_append, map_if, List.map_cons, List.map_nil, hd, Bool.false_eq_true, if_false, List.append_assoc]
    rfl

/-! ## The process -/

/-- What holds in every state that is reached. `T` are the goroutines as they were started. -/
structure Inv (fs : List Func) (c : Config) (m₀ : Thread E) (l : List (Event E)) (s : State E) (T : List (Thread E)) : Prop where
  main : s.exited = none → MRun fs c m₀ T s.main
  exited : s.exited ≠ none → ∃ m, MRun fs c m₀ T m ∧ Waits m
  length : s.threads.length = T.length
  count : starts l = T.length
  later : ∀ i, T.length ≤ i → deeds i l = []
  each : ∀ i t₀ t, T[i]? = some t₀ → s.threads[i]? = some t →
    (TRun c t₀ (deeds i l) t ∧ ∀ e, (i, e) ∉ sent l) ∨
    ∃ u e, TRun c t₀ (deeds i l) u ∧ Offers u (chars% "errc") e ∧ (∀ e', (i, e') ∈ sent l ↔ e' = e) ∧ t = blocked u.vars
  known : ∀ i e, (i, e) ∈ sent l → i < T.length
  once : ((sent l).map (·.1)).Nodup
  queue : s.exited = none → s.queue = sent l
  first : ∀ x, s.exited = some x → x :: s.queue = sent l

theorem deeds_snoc (i : Nat) (l : List (Event E)) (ev : Event E) : deeds i (l ++ [ev]) = deeds i l ++ deeds i [ev] := by
  unfold deeds
  rw [List.filterMap_append]

theorem sent_snoc (l : List (Event E)) (ev : Event E) : sent (l ++ [ev]) = sent l ++ sent [ev] := by
  unfold sent
  rw [List.filterMap_append]

theorem starts_snoc (l : List (Event E)) (ev : Event E) : starts (l ++ [ev]) = starts l + starts [ev] := by
  unfold starts
  rw [List.filter_append, List.length_append]

theorem deeds_acts (i j : Nat) (a : Act E) : deeds i [.acts (some j) a] = if j = i then seen a else [] := by
  unfold deeds
  by_cases h : j = i
  · rw [if_pos h]
    cases a <;> simp [h, seen]
  · rw [if_neg h]
    simp [h]

theorem no_step_blocked {vs : Vars E} {a : Act E} {t : Thread E} : ¬ TStep c (blocked vs) a t := fun h => by cases h

theorem no_offer_blocked {vs : Vars E} {ch : Str} {e : Option E} : ¬ Offers (blocked vs) ch e := fun h => by cases h

theorem inv_start {m₀ m m' t : Thread E} {l : List (Event E)} {s : State E} {T ts : List (Thread E)} {q : List (Nat × Option E)} (ih : Inv fs c m₀ l s T)
    (hs : s = ⟨m, ts, q, none⟩) {s' : State E} (hs' : s' = ⟨m', ts ++ [t], q, none⟩) (hm : MRun fs c m [t] m') :
    ∃ T, Inv fs c m₀ (l ++ [.starts]) s' T := by
  subst hs hs'
  have e1 : ∀ j, deeds j (l ++ [.starts]) = deeds j l := fun j => by rw [deeds_snoc]; exact List.append_nil _
  have e2 : sent (l ++ [.starts]) = sent l := by rw [sent_snoc]; exact List.append_nil _
  have e3 : starts (l ++ [.starts]) = starts l + 1 := by rw [starts_snoc]; rfl
  have hl : ts.length = T.length := ih.length
  refine ⟨T ++ [t], ?_⟩
  constructor
  · intro _; exact (ih.main rfl).trans hm
  · intro h; exact absurd rfl h
  · show (ts ++ [t]).length = _
    rw [List.length_append, List.length_append, hl]
  · rw [e3, List.length_append, ih.count]; rfl
  · intro j hj
    rw [List.length_append] at hj
    rw [e1]
    exact ih.later j (by omega)
  · intro j t₀ u h1 h2
    have h2 : (ts ++ [t])[j]? = some u := h2
    rw [e1, e2]
    by_cases hj : j < T.length
    · rw [List.getElem?_append_left hj] at h1
      rw [List.getElem?_append_left (by omega)] at h2
      exact ih.each j t₀ u h1 h2
    · have hj' : j = T.length := by
        have := (List.getElem?_eq_some_iff.mp h1).1
        rw [List.length_append, List.length_singleton] at this
        omega
      subst hj'
      rw [List.getElem?_append_right (by omega), Nat.sub_self] at h1
      rw [List.getElem?_append_right (by omega), hl, Nat.sub_self] at h2
      cases h1
      cases h2
      refine .inl ⟨?_, fun e he => ?_⟩
      · rw [ih.later _ (Nat.le_refl _)]; exact .nil
      · exact absurd (ih.known _ _ he) (Nat.lt_irrefl _)
  · intro j e hj
    rw [e2] at hj
    rw [List.length_append]
    have := ih.known j e hj
    omega
  · rw [e2]; exact ih.once
  · intro _; rw [e2]; exact ih.queue rfl
  · nofun

theorem inv_exec {m₀ : Thread E} {l : List (Event E)} {s : State E} (h : Exec fs c ⟨m₀, [], [], none⟩ l s) : ∃ T, Inv fs c m₀ l s T := by
  induction h with
  | nil => exact ⟨[], ⟨fun _ => .nil, fun h => absurd rfl h, rfl, rfl, fun _ _ => rfl, fun i t₀ t h => by simp at h, fun i e h => by simp [sent] at h,
      List.nodup_nil, fun _ => rfl, nofun⟩⟩
  | @step l s s' ev _ hs ih =>
    obtain ⟨T, ih⟩ := ih
    cases hs with
    | @main m m' ts q a ht =>
      have e1 : ∀ i, deeds i (l ++ [.acts none a]) = deeds i l := fun i => by rw [deeds_snoc]; exact List.append_nil _
      have e2 : sent (l ++ [.acts none a]) = sent l := by rw [sent_snoc]; exact List.append_nil _
      have e3 : starts (l ++ [.acts none a]) = starts l := by rw [starts_snoc]; rfl
      refine ⟨T, ?_⟩
      constructor
      · intro _
        have := (ih.main rfl).trans (.step ht .nil)
        rwa [List.append_nil] at this
      · intro h; exact absurd rfl h
      · exact ih.length
      · rw [e3]; exact ih.count
      · intro i hi; rw [e1]; exact ih.later i hi
      · intro i t₀ t h1 h2; rw [e1, e2]; exact ih.each i t₀ t h1 h2
      · rw [e2]; exact ih.known
      · rw [e2]; exact ih.once
      · intro _; rw [e2]; exact ih.queue rfl
      · nofun
    | @thread m t t' ts q a i hi ht =>
      have e2 : sent (l ++ [.acts (some i) a]) = sent l := by rw [sent_snoc]; exact List.append_nil _
      have e3 : starts (l ++ [.acts (some i) a]) = starts l := by rw [starts_snoc]; rfl
      have hlt : i < T.length := by
        rw [← ih.length]
        exact (List.getElem?_eq_some_iff.mp hi).1
      refine ⟨T, ?_⟩
      constructor
      · exact ih.main
      · intro h; exact absurd rfl h
      · show (ts.set i t').length = _
        rw [List.length_set]; exact ih.length
      · rw [e3]; exact ih.count
      · intro j hj
        rw [deeds_snoc, deeds_acts, if_neg (by omega), List.append_nil]
        exact ih.later j hj
      · intro j t₀ u h1 h2
        have h2 : (ts.set i t')[j]? = some u := h2
        rw [e2, deeds_snoc, deeds_acts]
        by_cases hj : i = j
        · subst hj
          rw [if_pos rfl]
          rw [List.getElem?_set_self (List.getElem?_eq_some_iff.mp hi).1] at h2
          cases h2
          rcases ih.each i t₀ t h1 hi with ⟨h3, h4⟩ | ⟨v, e, h3, h4, h5, h6⟩
          · exact .inl ⟨h3.snoc ht, h4⟩
          · subst h6
            exact absurd ht no_step_blocked
        · rw [if_neg hj, List.append_nil]
          rw [List.getElem?_set_ne hj] at h2
          exact ih.each j t₀ u h1 h2
      · rw [e2]; exact ih.known
      · rw [e2]; exact ih.once
      · intro _; rw [e2]; exact ih.queue rfl
      · nofun
    | @send m t ts q e i hi ho =>
      have e1 : ∀ j, deeds j (l ++ [.sends i e]) = deeds j l := fun j => by rw [deeds_snoc]; exact List.append_nil _
      have e2 : sent (l ++ [.sends i e]) = sent l ++ [(i, e)] := by rw [sent_snoc]; rfl
      have e3 : starts (l ++ [.sends i e]) = starts l := by rw [starts_snoc]; rfl
      have hlt : i < T.length := by
        rw [← ih.length]
        exact (List.getElem?_eq_some_iff.mp hi).1
      obtain ⟨t₀, ht₀⟩ : ∃ t₀, T[i]? = some t₀ := ⟨T[i], List.getElem?_eq_getElem hlt⟩
      have hno : ∀ e', (i, e') ∉ sent l := by
        rcases ih.each i t₀ t ht₀ hi with ⟨h3, h4⟩ | ⟨v, e', h3, h4, h5, h6⟩
        · exact h4
        · subst h6
          exact absurd ho no_offer_blocked
      refine ⟨T, ?_⟩
      constructor
      · exact ih.main
      · intro h; exact absurd rfl h
      · show (ts.set i _).length = _
        rw [List.length_set]; exact ih.length
      · rw [e3]; exact ih.count
      · intro j hj; rw [e1]; exact ih.later j hj
      · intro j t₁ u h1 h2
        have h2 : (ts.set i (blocked t.vars))[j]? = some u := h2
        rw [e1, e2]
        by_cases hj : i = j
        · subst hj
          rw [ht₀] at h1
          cases h1
          rw [List.getElem?_set_self (List.getElem?_eq_some_iff.mp hi).1] at h2
          cases h2
          rcases ih.each i t₀ t ht₀ hi with ⟨h3, h4⟩ | ⟨v, e', h3, h4, h5, h6⟩
          · refine .inr ⟨t, e, h3, ho, fun e' => ?_, rfl⟩
            rw [List.mem_append, List.mem_singleton]
            constructor
            · rintro (h | h)
              · exact absurd h (h4 e')
              · cases h; rfl
            · rintro rfl; exact .inr rfl
          · subst h6
            exact absurd ho no_offer_blocked
        · rw [List.getElem?_set_ne hj] at h2
          have hm : ∀ e', (j, e') ∈ sent l ++ [(i, e)] ↔ (j, e') ∈ sent l := fun e' => by
            rw [List.mem_append, List.mem_singleton]
            exact ⟨fun h => h.elim id fun h => by cases h; exact absurd rfl hj, .inl⟩
          simp only [hm]
          exact ih.each j t₁ u h1 h2
      · intro j e' hj
        rw [e2, List.mem_append, List.mem_singleton] at hj
        rcases hj with hj | hj
        · exact ih.known j e' hj
        · cases hj; exact hlt
      · rw [e2, List.map_append, List.nodup_append]
        refine ⟨ih.once, by simp, ?_⟩
        intro a ha b hb
        simp only [List.map_cons, List.map_nil, List.mem_singleton] at hb
        subst hb
        rintro rfl
        obtain ⟨⟨j, e'⟩, h1, h2⟩ := List.mem_map.mp ha
        cases h2
        exact hno e' h1
      · intro _
        rw [e2]
        exact congrArg (· ++ [(i, e)]) (ih.queue rfl)
      · nofun
    | @receive ws sx ch r k vs ts q e i hc =>
      have e1 : ∀ j, deeds j (l ++ [.exits i e]) = deeds j l := fun j => by rw [deeds_snoc]; exact List.append_nil _
      have e2 : sent (l ++ [.exits i e]) = sent l := by rw [sent_snoc]; exact List.append_nil _
      have e3 : starts (l ++ [.exits i e]) = starts l := by rw [starts_snoc]; rfl
      refine ⟨T, ?_⟩
      constructor
      · nofun
      · intro _; exact ⟨_, ih.main rfl, ws, sx, ch, r, k, vs, rfl, hc⟩
      · exact ih.length
      · rw [e3]; exact ih.count
      · intro j hj; rw [e1]; exact ih.later j hj
      · intro j t₀ t h1 h2; rw [e1, e2]; exact ih.each j t₀ t h1 h2
      · rw [e2]; exact ih.known
      · rw [e2]; exact ih.once
      · nofun
      · intro x hx
        cases hx
        rw [e2]
        exact ih.queue rfl
    | @goFunc ws b r k vs ts q =>
      exact inv_start ih rfl rfl (.goFunc .nil)
    | @goCall ws x v fn r k vs ts q hf hx =>
      exact inv_start ih rfl rfl (.goCall hf hx .nil)

/-- `Run` may go on alone. -/
theorem exec_main {s₀ : State E} {m m' : Thread E} {M : List (Thread E)} (h : MRun fs c m M m') : ∀ {l : List (Event E)} {ts : List (Thread E)}
    {q : List (Nat × Option E)}, Exec fs c s₀ l ⟨m, ts, q, none⟩ →
    ∃ l' ts', Exec fs c s₀ (l ++ l') ⟨m', ts', q, none⟩ ∧ sent l' = [] ∧ ∀ i, deeds i l' = [] := by
  induction h with
  | nil => intro l ts q he; exact ⟨[], ts, by rwa [List.append_nil], rfl, fun _ => rfl⟩
  | @step t t' t'' a L hs _ ih =>
    intro l ts q he
    obtain ⟨l', ts', h1, h2, h3⟩ := ih (he.step (.main hs))
    exact ⟨.acts none a :: l', ts', by rwa [List.append_assoc] at h1, h2, h3⟩
  | goFunc _ ih =>
    intro l ts q he
    obtain ⟨l', ts', h1, h2, h3⟩ := ih (he.step .goFunc)
    exact ⟨.starts :: l', ts', by rwa [List.append_assoc] at h1, h2, h3⟩
  | goCall h1 h2 _ ih =>
    intro l ts q he
    obtain ⟨l', ts', h1, h2, h3⟩ := ih (he.step (.goCall h1 h2))
    exact ⟨.starts :: l', ts', by rwa [List.append_assoc] at h1, h2, h3⟩

end Baron.GoServer
