import Verif.Spec.EndToEnd
import Verif.Props.New
import Verif.Props.Consolidate
import Verif.Props.HTTPCall

/-!
# C80: from the text of a .proto file to what the generated server does
-/

namespace Baron.EndToEnd

open Baron.Scanner Baron.Lexer Baron.Svcdef Baron.Consolidate Baron.Text Baron.Strs Baron.Parser.Grammar Baron.New
open Baron.HTTP (look Piece templateOf TemplateOK)
open Baron.Transport (Fits FirstWith Takes PlainPath pathOf Bound Wellformed)
open Baron.HTTPCode (FullMsg FullRequest DErr OErr Floats JSONOk bindingFields bindingOneofs decodeFull)
open Baron.HTTPCall
open Baron.Runtime (Ctx Err Response)

/-! ## The bindings of the definition are those that are written -/

/-- All bindings of a service with the names of their methods, in order. -/
def declared (s : Svcdef.Service) : List (Str × Svcdef.HTTPBinding) :=
  s.methods.flatMap fun m => m.bindings.map fun b => (m.name, b)

theorem all2_append {α β : Type} {R : α → β → Prop} {a : List α} {b : List β} {c : List α} {d : List β} (h : All2 R a b)
    (h' : All2 R c d) : All2 R (a ++ c) (b ++ d) := by
  induction h with
  | nil => exact h'
  | cons hab _ ih => exact .cons hab ih

theorem all2_split {α β : Type} {R : α → β → Prop} {pre post : List α} {x : α} {l : List β} (h : All2 R (pre ++ x :: post) l) :
    ∃ pre' y post', l = pre' ++ y :: post' ∧ All2 R pre pre' ∧ R x y ∧ All2 R post post' := by
  induction pre generalizing l with
  | nil =>
    cases h with
    | cons h1 h2 => exact ⟨[], _, _, rfl, .nil, h1, h2⟩
  | cons a pre ih =>
    cases h with
    | cons h1 h2 =>
      obtain ⟨p, y, q, e, k1, k2, k3⟩ := ih h2
      exact ⟨_ :: p, y, q, by rw [e]; rfl, .cons h1 k1, k2, k3⟩

theorem all2_right {α β : Type} {R : α → β → Prop} {a : List α} {b : List β} (h : All2 R a b) {y : β} (hy : y ∈ b) :
    ∃ x ∈ a, R x y := by
  induction h with
  | nil => cases hy
  | cons hab _ ih =>
    rcases List.mem_cons.1 hy with rfl | hy
    · exact ⟨_, List.mem_cons_self, hab⟩
    · obtain ⟨x, hx, hr⟩ := ih hy
      exact ⟨x, List.mem_cons_of_mem _ hx, hr⟩

theorem all2_left {α β : Type} {R : α → β → Prop} {a : List α} {b : List β} (h : All2 R a b) {x : α} (hx : x ∈ a) :
    ∃ y ∈ b, R x y := by
  induction h with
  | nil => cases hx
  | cons hab _ ih =>
    rcases List.mem_cons.1 hx with rfl | hx
    · exact ⟨_, List.mem_cons_self, hab⟩
    · obtain ⟨y, hy, hr⟩ := ih hx
      exact ⟨y, List.mem_cons_of_mem _ hy, hr⟩

theorem all2_map2 {α β γ δ : Type} {R : α → β → Prop} {Q : γ → δ → Prop} (f : α → γ) (g : β → δ)
    (hf : ∀ a b, R a b → Q (f a) (g b)) {a : List α} {b : List β} (h : All2 R a b) : All2 Q (a.map f) (b.map g) := by
  induction h with
  | nil => exact .nil
  | cons hab _ ih => exact .cons (hf _ _ hab) ih

theorem annotations_annotated {docs : List (Option ASvc)} {n : Str} (h : annotations docs n ≠ []) :
    ∃ r ∈ annotated docs, goCamelCase r = n := by
  obtain ⟨a, ha⟩ := List.exists_mem_of_ne_nil _ h
  unfold annotations at ha
  obtain ⟨d, hd, ha⟩ := List.mem_flatMap.1 ha
  cases d with
  | none => cases ha
  | some s =>
    simp only at ha
    obtain ⟨r, hr, ha⟩ := List.mem_flatMap.1 ha
    split at ha
    · rename_i o ho
      split at ha
      · rename_i hn
        refine ⟨r.name, ?_, hn⟩
        unfold annotated
        refine List.mem_flatMap.2 ⟨some s, hd, List.mem_flatMap.2 ⟨r, hr, ?_⟩⟩
        rw [ho]
        exact List.mem_singleton.2 rfl
      · cases ha
    · cases ha

/-- A written annotation and the binding of the definition it leads to. -/
def Leads (fs : List GoFile) (t : GoTypeSpec) (x : Str × Parser.HTTPBinding) (y : Str × Svcdef.HTTPBinding) : Prop :=
  y.1 = x.1 ∧ ∃ fields, RequestFields fs t x.1 fields ∧ BindingOf fields x.2 y.2

theorem nodup_head {ms : List GoMember} (h : (ms.map fun m => m.names.head?).Nodup) {m m' : GoMember} (hm : m ∈ ms)
    (hm' : m' ∈ ms) (e : m.names.head? = m'.names.head?) : m = m' := by
  induction ms with
  | nil => cases hm
  | cons a ms ih =>
    rw [List.map_cons, List.nodup_cons] at h
    rcases List.mem_cons.1 hm with h1 | h1 <;> rcases List.mem_cons.1 hm' with h2 | h2
    · rw [h1, h2]
    · exact absurd (by rw [← h1, e]; exact List.mem_map_of_mem (f := fun m : GoMember => m.names.head?) h2) h.1
    · exact absurd (by rw [← h2, ← e]; exact List.mem_map_of_mem (f := fun m : GoMember => m.names.head?) h1) h.1
    · exact ih h.2 h1 h2

/-- The annotations of some members of the interface. -/
def annotatedFor (docs : List (Option ASvc)) (ms : List GoMember) : List (Str × Parser.HTTPBinding) :=
  ms.flatMap fun m => match m.names.head? with
    | none => []
    | some n => (annotations docs n).map fun a => (n, a)

theorem leads_of {fs : List GoFile} {t : GoTypeSpec} {docs : List (Option ASvc)} {sd : Svcdef}
    (ho : OneService fs t) (hk : ∀ n ∈ annotated docs, Usable fs t n) {ms : List GoMember} {rs : List ServiceMethod}
    (hin : ∀ m ∈ ms, m ∈ exportedMembers t) (h : All2 (MethodOf fs docs sd) ms rs) :
    All2 (Leads fs t) (annotatedFor docs ms) (rs.flatMap fun m => m.bindings.map fun b => (m.name, b)) := by
  induction h with
  | nil => exact .nil
  | @cons m r ms rs hab _ ih =>
    unfold annotatedFor
    rw [List.flatMap_cons, List.flatMap_cons]
    refine all2_append ?_ (ih fun x hx => hin x (List.mem_cons_of_mem _ hx))
    obtain ⟨hn, ⟨ctx, rq, more, rs', more', hf, hp, -⟩, hb, hb0⟩ := hab
    rw [hn]
    simp only
    by_cases h0 : annotations docs r.name = []
    · rw [h0, hb0 h0]; exact .nil
    · obtain ⟨x, hx, hxn⟩ := annotations_annotated h0
      obtain ⟨m', hm', hn', hreq⟩ := hk x hx
      have hmm : m' = m := nodup_head ho.methods hm' (hin m List.mem_cons_self) (by rw [hn', hn, hxn])
      subst hmm
      have hin' := hreq ctx rq more _ _ hf hp
      obtain ⟨st, hst, e1, e2, -, e4⟩ := hb hin'
      refine all2_map2 (fun a => (r.name, a)) (fun b => (r.name, b)) ?_ e4
      intro a b hab
      exact ⟨rfl, _, ⟨m', hm', hn, ctx, rq, more, _, _, hf, hp, st, hst, e1, e2, rfl⟩, hab⟩

theorem declared_written {fs : List GoFile} {t : GoTypeSpec} {docs : List (Option ASvc)} {sd : Svcdef} {s : Svcdef.Service}
    (ho : OneService fs t) (hk : ∀ n ∈ annotated docs, Usable fs t n)
    (h : All2 (MethodOf fs docs sd) (exportedMembers t) s.methods) : All2 (Leads fs t) (written t docs) (declared s) :=
  leads_of ho hk (fun _ h => h) h

theorem verbPath_unique {b : Parser.HTTPBinding} {v p v' p' : Str} (h : VerbPath b v p) (h' : VerbPath b v' p') :
    v = v' ∧ p = p' := by
  obtain ⟨e1, e2⟩ := (C15_binding [] b v p).1 h
  obtain ⟨e3, e4⟩ := (C15_binding [] b v' p').1 h'
  exact ⟨e1.symm.trans e3, e2.symm.trans e4⟩

theorem takes_for {a : Parser.HTTPBinding} {b : Svcdef.HTTPBinding} (h : VerbPath a b.verb b.path) (verb : Str) (segs : List Str) :
    Takes b verb segs ↔ For a verb segs := by
  constructor
  · rintro ⟨h1, ps, h2, h3, h4⟩
    exact ⟨_, _, ps, h, h1, h2, h3, h4⟩
  · rintro ⟨v, p, ps, hv, h1, h2, h3, h4⟩
    obtain ⟨e1, e2⟩ := verbPath_unique h hv
    exact ⟨by rw [e1]; exact h1, ps, by rw [e2]; exact h2, h3, h4⟩

theorem flat_split {s : Svcdef.Service} {pre post : List (Str × Svcdef.HTTPBinding)} {y : Str × Svcdef.HTTPBinding}
    (h : declared s = pre ++ y :: post) : ∃ ms₁ m ms₂ bs₁ bs₂, s.methods = ms₁ ++ m :: ms₂ ∧ m.bindings = bs₁ ++ y.2 :: bs₂ ∧
      m.name = y.1 ∧ (∀ m' ∈ ms₁, ∀ b' ∈ m'.bindings, (m'.name, b') ∈ pre) ∧ ∀ b' ∈ bs₁, (m.name, b') ∈ pre := by
  unfold declared at h
  generalize s.methods = ms at h
  induction ms generalizing pre with
  | nil => exact absurd h (by simp)
  | cons m ms ih =>
    rw [List.flatMap_cons, List.append_eq_append_iff] at h
    have later : ∀ as, pre = m.bindings.map (fun b => (m.name, b)) ++ as →
        (ms.flatMap fun m => m.bindings.map fun b => (m.name, b)) = as ++ y :: post →
        ∃ ms₁ m' ms₂ bs₁ bs₂, m :: ms = ms₁ ++ m' :: ms₂ ∧ m'.bindings = bs₁ ++ y.2 :: bs₂ ∧
          m'.name = y.1 ∧ (∀ x ∈ ms₁, ∀ b' ∈ x.bindings, (x.name, b') ∈ pre) ∧ ∀ b' ∈ bs₁, (m'.name, b') ∈ pre := by
      intro as e1 e2
      obtain ⟨ms₁, m', ms₂, bs₁, bs₂, k1, k2, k3, k4, k5⟩ := ih e2
      refine ⟨m :: ms₁, m', ms₂, bs₁, bs₂, by rw [k1]; rfl, k2, k3, ?_, ?_⟩
      · intro x hx b' hb'
        rw [e1]
        rcases List.mem_cons.1 hx with rfl | hx
        · exact List.mem_append_left _ (List.mem_map.2 ⟨b', hb', rfl⟩)
        · exact List.mem_append_right _ (k4 x hx b' hb')
      · intro b' hb'
        rw [e1]; exact List.mem_append_right _ (k5 b' hb')
    rcases h with ⟨as, e1, e2⟩ | ⟨cs, e1, e2⟩
    · exact later as e1 e2
    · cases cs with
      | nil =>
        refine later [] (by rw [e1]; simp) (by simpa using e2.symm)
      | cons c cs =>
        simp only [List.cons_append, List.cons.injEq] at e2
        obtain ⟨rfl, -⟩ := e2
        rw [List.map_eq_append_iff] at e1
        obtain ⟨l₁, l₂, f1, f2, f3⟩ := e1
        rw [List.map_eq_cons_iff] at f3
        obtain ⟨b, l₃, rfl, rfl, -⟩ := f3
        exact ⟨[], m, ms, l₁, l₃, rfl, f1, rfl, fun _ h => absurd h List.not_mem_nil, fun b' hb' => by
          rw [← f2]; exact List.mem_map.2 ⟨b', hb', rfl⟩⟩

theorem first_of {fs : List GoFile} {t : GoTypeSpec} {docs : List (Option ASvc)} {s : Svcdef.Service}
    (h : All2 (Leads fs t) (written t docs) (declared s)) {verb : Str} {segs : List Str}
    {pre post : List (Str × Parser.HTTPBinding)} {x : Str × Parser.HTTPBinding} (he : written t docs = pre ++ x :: post)
    (hx : For x.2 verb segs) (hpre : ∀ y ∈ pre, ¬ For y.2 verb segs) :
    ∃ m k b fields, FirstWith s (Takes · verb segs) m k b ∧ m.name = x.1 ∧ RequestFields fs t x.1 fields ∧
      BindingOf fields x.2 b := by
  rw [he] at h
  obtain ⟨pre', y, post', e, h1, h2, -⟩ := all2_split h
  obtain ⟨ms₁, m, ms₂, bs₁, bs₂, k1, k2, k3, k4, k5⟩ := flat_split e
  have hno : ∀ y' ∈ pre', ¬ Takes y'.2 verb segs := by
    intro y' hy'
    obtain ⟨x', hx', -, f, -, hb⟩ := all2_right h1 hy'
    rw [takes_for hb.1]
    exact hpre x' hx'
  obtain ⟨e1, f, hf, hb⟩ := h2
  exact ⟨m, bs₁.length, y.2, f, ⟨(takes_for hb.1 _ _).2 hx, ms₁, ms₂, bs₁, bs₂, k1, k2, rfl,
    fun m' hm' b' hb' => hno _ (k4 m' hm' b' hb'), fun b' hb' => hno _ (k5 b' hb')⟩, by rw [k3, e1], hf, hb⟩

/-! ## The server -/

variable {F S R : Type}

/-- What the server does with a request for the method `n`, which the path's segments fit: with the parameters in the path,
in the query and in the body, in this order of precedence (C26, C76), it makes a message; if the body is malformed it answers
400, if a parameter is not what its field needs 500, and the service is not run; otherwise the service's method `n` is run
once, with that message, and the answer is its response or its error. -/
def Answered (L : Lib F R) (s : Svcdef.Service) (svc : HTTPCall.Service F S R) (sctx : Ctx) (q : Req) (st : S) (n : Str)
    (b : Svcdef.HTTPBinding) (segs : List Str) : Prop :=
  ∃ vars, (∀ ps, b.path = templateOf ps → TemplateOK ps → ∀ k v, look vars k = some v ↔ Bound ps segs k v) ∧
    (q.body ≠ [] ∧ L.readReq n q.body = none → ∃ r, serveHTTP L s svc sctx q st = (.response r, st) ∧ r.code = 400) ∧
    (¬ (q.body ≠ [] ∧ L.readReq n q.body = none) →
      (∀ x, decodeFull L.fl L.jok (L.zero n) (bindingFields b) (bindingOneofs b)
          ⟨vars, q.query, bodyOf L n q.body⟩ = .error x →
        ∃ r, serveHTTP L s svc sctx q st = (.response r, st) ∧ r.code = 500) ∧
      (∀ msg, decodeFull L.fl L.jok (L.zero n) (bindingFields b) (bindingOneofs b)
          ⟨vars, q.query, bodyOf L n q.body⟩ = .ok msg →
        (∀ r st' t, svc n (contextOf sctx q, st) msg = .ok (r, st') → L.writeResp r = some t →
          serveHTTP L s svc sctx q st = (.response ⟨200, [("Content-Type".toList, [Runtime.contentType])], t⟩, st')) ∧
        (∀ r st', svc n (contextOf sctx q, st) msg = .ok (r, st') → L.writeResp r = none →
          ∃ a, serveHTTP L s svc sctx q st = (.response a, st') ∧ a.code = 500) ∧
        (∀ e st', svc n (contextOf sctx q, st) msg = .error (e, st') →
          ∃ a, serveHTTP L s svc sctx q st = (.response a, st') ∧ a.code = e.status.getD 500 ∧
            a.body = Runtime.errorText L.J e)))

/-- What has to hold of what is written for the generated file to compile: the Go names of the methods differ in more than
case, no method has more than ten annotations (C23), and paths are written from literals and parameters. -/
structure Sound (t : GoTypeSpec) (docs : List (Option ASvc)) : Prop where
  lower : ((exportedMembers t).map fun m => toLower (m.names.headD [])).Nodup
  few : ∀ n, (annotations docs n).length ≤ 10
  plain : ∀ x ∈ written t docs, Plain x.2

theorem all2_length {α β : Type} {R : α → β → Prop} {a : List α} {b : List β} (h : All2 R a b) : a.length = b.length := by
  induction h with
  | nil => rfl
  | cons _ _ ih => rw [List.length_cons, List.length_cons, ih]

theorem names_of {fs : List GoFile} {docs : List (Option ASvc)} {sd : Svcdef} {ms : List GoMember} {rs : List ServiceMethod}
    (h : All2 (MethodOf fs docs sd) ms rs) : rs.map (·.name) = ms.map fun m => m.names.headD [] := by
  induction h with
  | nil => rfl
  | @cons m r _ _ hab _ ih =>
    rw [List.map_cons, List.map_cons, ih]
    have := hab.1
    cases hm : m.names with
    | nil => rw [hm] at this; cases this
    | cons a l => rw [hm] at this; simp only [List.head?_cons, Option.some.injEq] at this; rw [← this]; rfl

theorem compiles {fs : List GoFile} {t : GoTypeSpec} {docs : List (Option ASvc)} {sd : Svcdef} {s : Svcdef.Service}
    (ho : OneService fs t) (hk : ∀ n ∈ annotated docs, Usable fs t n) (hsound : Sound t docs)
    (h : All2 (MethodOf fs docs sd) (exportedMembers t) s.methods) : Compiles s := by
  have hdw := declared_written ho hk h
  have hnames := names_of h
  have hlower : ((s.methods.map (·.name)).map toLower).Nodup := by
    rw [hnames, List.map_map]; exact hsound.lower
  refine ⟨?_, ?_, hlower⟩
  · intro m hm b hb
    have hin : (m.name, b) ∈ declared s := List.mem_flatMap.2 ⟨m, hm, List.mem_map.2 ⟨b, hb, rfl⟩⟩
    obtain ⟨x, hx, -, f, -, hbo⟩ := all2_right hdw hin
    obtain ⟨v, p, ps, h1, h2, h3⟩ := hsound.plain x hx
    exact ⟨ps, by rw [(verbPath_unique hbo.1 h1).2]; exact h2, h3⟩
  · refine HTTP.C23_few_bindings s ?_ ?_
    · exact (List.pairwise_map.1 hlower).imp fun h e => h (congrArg toLower e)
    · intro m hm
      obtain ⟨g, hg, hn, hf, hb, hb0⟩ := all2_right h hm
      by_cases h0 : annotations docs m.name = []
      · rw [hb0 h0]; exact Nat.zero_le _
      · obtain ⟨x, hx, hxn⟩ := annotations_annotated h0
        obtain ⟨m', hm', hn', hreq⟩ := hk x hx
        have hmm : m' = g := nodup_head ho.methods hm' hg (by rw [hn', hn, hxn])
        subst hmm
        obtain ⟨ctx, rq, more, rs', more', hf, hp, -⟩ := hf
        obtain ⟨st, -, -, -, -, e4⟩ := hb (hreq ctx rq more _ _ hf hp)
        rw [← all2_length e4]
        exact hsound.few _

/-- **C80** From Go files with one service and .proto files in the supported grammar, in any layout, whose annotated rpcs are
methods of that service with requests declared in these files, baron makes a definition whose server does with every
request with a plain path what is written: it goes to the first annotation (methods in the order of the service, for each
method its annotations in order) that asks for its verb and path, and runs the method that annotation is written for; if no
annotation asks for it, the answer is 405 if one asks for the path with another verb, 404 otherwise, and the service is not
run. -/
theorem C80_served (U : Uni) (unq : Str → Option Str) (p : Process) (hp : p.glob = .init) (fs : List GoFile) (t : GoTypeSpec)
    (hg : ∀ f ∈ fs, GoodFile unq f) (ho : OneService fs t) (texts : List Str) (docs : List (Option ASvc))
    (hw : All2 (Written U unq) texts docs) (hk : ∀ n ∈ annotated docs, Usable fs t n) (hsound : Sound t docs) :
    ∃ p' sd s, newSvcdef U unq p (fs.map some) texts = .ok (p', sd) ∧ sd.service = some s ∧
      ∀ (L : Lib F R) (svc : HTTPCall.Service F S R) (sctx : Ctx) (q : Req) (st : S) (segs : List Str), PlainPath segs →
        q.path = pathOf segs → (∀ k, look q.query k ≠ some []) →
        (∀ pre n a post, written t docs = pre ++ (n, a) :: post → For a q.verb segs →
          (∀ y ∈ pre, ¬ For y.2 q.verb segs) →
          ∃ b fields, RequestFields fs t n fields ∧ BindingOf fields a b ∧ Answered L s svc sctx q st n b segs) ∧
        ((∀ y ∈ written t docs, ¬ For y.2 q.verb segs) → ∃ r, serveHTTP L s svc sctx q st = (.response r, st) ∧
          ((∃ y ∈ written t docs, ∃ v, For y.2 v segs) → r.code = 405) ∧
          ((∀ y ∈ written t docs, ∀ v, ¬ For y.2 v segs) → r.code = 404)) := by
  obtain ⟨p', sd, s, h1, -, h2, -, h3⟩ := C57_new U unq p hp fs t hg ho texts docs hw hk
  have hdw := declared_written ho hk h3
  have hcomp := compiles ho hk hsound h3
  refine ⟨p', sd, s, h1, h2, ?_⟩
  intro L svc sctx q st segs hplain hpath hquery
  obtain ⟨hnone, hfirst⟩ := C79_serve L s hcomp svc sctx q st segs hplain hpath hquery
  refine ⟨?_, ?_⟩
  · intro pre n a post he hfor hpre
    obtain ⟨m, k, b, fields, hfw, hmn, hf, hb⟩ := first_of hdw he hfor hpre
    refine ⟨b, fields, hf, hb, ?_⟩
    have := hfirst m k b hfw
    rw [hmn] at this
    exact this
  · intro hno
    obtain ⟨r, hr, h405, h404⟩ := hnone (by
      intro m hm b hb ht
      obtain ⟨x, hx, -, f, -, hbo⟩ := all2_right hdw (y := (m.name, b)) (List.mem_flatMap.2 ⟨m, hm, List.mem_map.2 ⟨b, hb, rfl⟩⟩)
      exact hno x hx ((takes_for hbo.1 _ _).1 ht))
    refine ⟨r, hr, ?_, ?_⟩
    · rintro ⟨y, hy, v, hf⟩
      obtain ⟨z, hz, -, f, -, hbo⟩ := all2_left hdw hy
      obtain ⟨m, hm, hz⟩ := List.mem_flatMap.1 hz
      obtain ⟨b, hb, rfl⟩ := List.mem_map.1 hz
      have ht := (takes_for hbo.1 _ _).2 hf
      have hv : toUpper b.verb = v := ht.1
      exact h405 ⟨m, hm, b, hb, by rw [hv]; exact ht⟩
    · intro hall
      refine h404 ?_
      intro m hm b hb ht
      obtain ⟨x, hx, -, f, -, hbo⟩ := all2_right hdw (y := (m.name, b)) (List.mem_flatMap.2 ⟨m, hm, List.mem_map.2 ⟨b, hb, rfl⟩⟩)
      exact hall x hx _ ((takes_for hbo.1 _ _).1 ht)

/-- **C80**, from the client: let `a` be the first annotation of a method and let the annotations of the methods before it be
apart from it or ask for other verbs. Then a call of the method through the generated client, with a message that makes the
way (C79), runs the service's method once with the caller's message and the context values the caller selected, and gives the
caller its response, or its error. -/
theorem C80_called (U : Uni) (unq : Str → Option Str) (p : Process) (hp : p.glob = .init) (fs : List GoFile) (t : GoTypeSpec)
    (hg : ∀ f ∈ fs, GoodFile unq f) (ho : OneService fs t) (texts : List Str) (docs : List (Option ASvc))
    (hw : All2 (Written U unq) texts docs) (hk : ∀ n ∈ annotated docs, Usable fs t n) (hsound : Sound t docs)
    (gs₁ gs₂ : List GoMember) (g : GoMember) (hgs : exportedMembers t = gs₁ ++ g :: gs₂) (n : Str)
    (hn : g.names.head? = some n) (a : Parser.HTTPBinding) (as : List Parser.HTTPBinding) (ha : annotations docs n = a :: as)
    (v : Str) (ps : List Piece) (hv : VerbPath a v (templateOf ps)) (hps : TemplateOK ps)
    (hapart : ∀ g' ∈ gs₁, ∀ n', g'.names.head? = some n' → ∀ a' ∈ annotations docs n', ∀ v' qs, VerbPath a' v' (templateOf qs) →
      TemplateOK qs → toUpper v' = toUpper v → Transport.Apart qs ps) :
    ∃ p' sd s, newSvcdef U unq p (fs.map some) texts = .ok (p', sd) ∧ sd.service = some s ∧
      ∃ m ∈ s.methods, m.name = n ∧ ∃ b bs fields, m.bindings = b :: bs ∧ RequestFields fs t n fields ∧ BindingOf fields a b ∧
      ∀ (L : Lib F R), Runtime.WireHeader L.added → ∀ (svc : HTTPCall.Service F S R) (ctx : Ctx) (keys : List Str) (sctx : Ctx)
        (msg : FullMsg F) (st : S), (∀ k ∈ keys, k.all Runtime.tokenChar = true) → (keys.map Runtime.canonical).Nodup →
        Survives L b n msg → BodyTravels L b n msg →
        ∃ path c, Arrives L b ctx keys sctx path c ∧
          (∀ r st' x, svc n (c, st) msg = .ok (r, st') → L.writeResp r = some x → L.readResp n x = some r →
            call L s svc ctx keys sctx m msg st = (.returned (.ok r), st')) ∧
          (∀ e st', svc n (c, st) msg = .error (e, st') → e.status.getD 500 ≠ 200 →
            call L s svc ctx keys sctx m msg st = (.returned (.error (Runtime.withStatus (e.status.getD 500)
              (Runtime.clientMessage L.J (Runtime.arriving L.J e)))), st')) := by
  obtain ⟨p', sd, s, h1, -, h2, -, h3⟩ := C57_new U unq p hp fs t hg ho texts docs hw hk
  have hcomp := compiles ho hk hsound h3
  rw [hgs] at h3
  obtain ⟨ms₁, m, ms₂, e, k1, k2, -⟩ := all2_split h3
  have hmn : m.name = n := by
    have := k2.1
    rw [hn, Option.some.injEq] at this
    exact this.symm
  have hlead := leads_of ho hk (ms := [g]) (rs := [m]) (fun x hx => by
    rw [List.mem_singleton.1 hx, hgs]; exact List.mem_append_right _ List.mem_cons_self) (.cons k2 .nil)
  simp only [annotatedFor, List.flatMap_cons, List.flatMap_nil, List.append_nil, hn, ha, List.map_cons] at hlead
  cases hb : m.bindings with
  | nil => rw [hb] at hlead; cases hlead
  | cons b bs =>
    rw [hb] at hlead
    simp only [List.map_cons] at hlead
    cases hlead with
    | cons hab _ =>
      obtain ⟨-, fields, hf, hbo⟩ := hab
      obtain ⟨ev, ep⟩ := verbPath_unique hbo.1 hv
      refine ⟨p', sd, s, h1, h2, m, by rw [e]; exact List.mem_append_right _ List.mem_cons_self, hmn, b, bs, fields, hb, hf, hbo, ?_⟩
      intro L hadd svc ctx keys sctx msg st hkeys hkd hsurv hbody
      have hearlier : ∀ m' ∈ ms₁, ∀ b' ∈ m'.bindings, toUpper b'.verb = toUpper b.verb →
          ∀ qs, b'.path = templateOf qs → TemplateOK qs → Transport.Apart qs ps := by
        intro m' hm' b' hb' hvv qs hq hqo
        have hl := leads_of ho hk (fun x hx => by rw [hgs]; exact List.mem_append_left _ hx) k1
        obtain ⟨x, hx, -, f', -, hbo'⟩ := all2_right hl (y := (m'.name, b'))
          (List.mem_flatMap.2 ⟨m', hm', List.mem_map.2 ⟨b', hb', rfl⟩⟩)
        obtain ⟨g', hg', hx⟩ := List.mem_flatMap.1 hx
        split at hx
        · cases hx
        · rename_i n' hn'
          obtain ⟨a', ha', rfl⟩ := List.mem_map.1 hx
          refine hapart g' hg' n' hn' a' ha' b'.verb qs (by rw [← hq]; exact hbo'.1) hqo ?_
          rw [hvv, ev]
      obtain ⟨path, c, -, har, r1, -, r3⟩ := C79_call L hadd s hcomp svc ctx keys hkeys hkd sctx ms₁ ms₂ m b bs e hb ps ep hps hearlier msg (by rw [hmn]; exact hsurv) (by rw [hmn]; exact hbody) st
      rw [hmn] at r1 r3
      exact ⟨path, c, har, r1, r3⟩

/-! ## The hypotheses are met -/

namespace Example

open Baron.New.Example Baron.Text.Example Baron.Parser

/-- The only annotation of the example: `get: "/a"`. -/
def ann : Parser.HTTPBinding := (annotations [none, some svc] "M".toList).headD ⟨[], [], []⟩

theorem ann_only : written iface [none, some svc] = [("M".toList, ann)] := by decide +kernel

theorem ann_get : VerbPath ann "get".toList (templateOf [.lit "a".toList]) := by
  rw [C15_binding []]
  constructor <;> decide +kernel

theorem tmpl_ok : TemplateOK [.lit "a".toList] := by
  refine ⟨?_, ?_, by decide +kernel, by simp⟩
  · intro s hs
    simp only [List.mem_singleton, Piece.lit.injEq] at hs
    subst hs
    unfold HTTP.Braced
    decide +kernel
  · intro s hs
    simp at hs

theorem sound : Sound iface [none, some svc] := by
  refine ⟨by decide +kernel, ?_, ?_⟩
  · intro n
    have : annotations [none, some svc] n = if "M".toList = n then [ann] else [] := by
      by_cases h : "M".toList = n
      · subst h; decide +kernel
      · rw [if_neg h]
        simp only [annotations, svc, List.flatMap_cons, List.flatMap_nil, List.append_nil, List.nil_append]
        rw [if_neg (by rw [show goCamelCase "M".toList = "M".toList by decide +kernel]; exact h)]
    rw [this]
    split <;> simp
  · intro x hx
    rw [ann_only, List.mem_singleton] at hx
    subst hx
    exact ⟨_, _, _, ann_get, rfl, tmpl_ok⟩

/-- `GET /a` is for that annotation. -/
example : For ann "GET".toList ["a".toList] ∧ PlainPath ["a".toList] :=
  ⟨⟨_, _, _, ann_get, by decide +kernel, rfl, tmpl_ok, .lit _ .nil⟩, by simp, by decide, by decide, by simp⟩

/-- With the files of the example for C57, `C80_served` applies: baron accepts them and `GET /a` runs `M` once. -/
example : ∃ p' sd s, newSvcdef asciiUni plainUnq .fresh ([goFile].map some)
      [other.flatten, ("message A { } // a service\nservice S {\n  // doc\n  rpc M(A) returns (A) {\n  " ++
        "option (google.api.http) = { get: \"/a\" }; }\n}\n").toList] = .ok (p', sd) ∧ sd.service = some s ∧
    ∃ b, Answered c79Lib s c79Impl [] ⟨"GET".toList, "/a".toList, [], [], []⟩ 0 "M".toList b ["a".toList] := by
  obtain ⟨p', sd, s, h1, h2, h3⟩ := C80_served (F := Empty) (S := Nat) (R := Str) asciiUni plainUnq .fresh rfl [goFile] iface
    (by intro f hf; rw [List.mem_singleton.1 hf]; exact good) one
    [other.flatten, ("message A { } // a service\nservice S {\n  // doc\n  rpc M(A) returns (A) {\n  " ++
        "option (google.api.http) = { get: \"/a\" }; }\n}\n").toList] [none, some svc]
    (.cons ⟨other, laidA_sound asciiUni (by decide +kernel), rfl, by decide +kernel, by decide +kernel⟩
      (.cons ⟨pre, hdr, body, post, file asciiUni, svc_wf, svc_tokens asciiUni⟩ .nil))
    (by
      intro n hn
      have : n = "M".toList := by simpa [annotated, svc] using hn
      subst this
      exact usable) sound
  refine ⟨p', sd, s, h1, h2, ?_⟩
  obtain ⟨h4, -⟩ := h3 c79Lib c79Impl [] ⟨"GET".toList, "/a".toList, [], [], []⟩ 0 ["a".toList]
    ⟨by simp, by decide, by decide, by simp⟩ (by decide) (fun _ h => by cases h)
  obtain ⟨b, -, -, -, hb⟩ := h4 [] _ _ [] ann_only ⟨_, _, _, ann_get, by decide +kernel, rfl, tmpl_ok, .lit _ .nil⟩
    (fun _ h => absurd h List.not_mem_nil)
  exact ⟨b, hb⟩

end Example

end Baron.EndToEnd
