import Verif.Spec.ParserErrors

/-! Lemmas for C50: where the parser's error messages point. -/

namespace Baron.Parser

open Baron.Lexer

structure Inv (ts : List TokenGroup) (c : Cur) : Prop where
  buf : c.prev.reverse ++ c.rest = ts
  fin : c.rest = [] → c.line = lastLine ts

theorem inv_new (ts : List TokenGroup) : Inv ts (Cur.new ts) :=
  ⟨rfl, by intro h; simp only [Cur.new] at h ⊢; subst h; rfl⟩

theorem lastLine_concat (p : List TokenGroup) (g : TokenGroup) : lastLine (p ++ [g]) = g.line := by
  simp [lastLine]

/-- Reading moved past one token `g` that is not ignored, or hit the end. -/
structure Read (ts : List TokenGroup) (tk : Tok) (val : Str) (c : Cur) : Prop where
  inv : Inv ts c
  what : (∃ g ∈ ts, g.token = tk ∧ g.value = val ∧ g.line = c.line ∧ tk ≠ .whitespace) ∨
    (tk = .eof ∧ val = [] ∧ c.rest = [] ∧ c.line = lastLine ts)

theorem Read.located {ts tk val c} (h : Read ts tk val c) : Located ts c.line val := by
  rcases h.what with ⟨g, hg, h1, h2, h3, h4⟩ | ⟨-, h2, -, h4⟩
  · exact .inl ⟨g, hg, by rw [h1]; exact h4, h3, h2⟩
  · exact .inr ⟨h4, h2⟩

theorem Read.token {ts tk val c} (h : Read ts tk val c) (ht : tk ≠ .eof) :
    ∃ g ∈ ts, g.token = tk ∧ g.value = val ∧ g.line = c.line ∧ tk ≠ .whitespace := by
  rcases h.what with h | ⟨h, -⟩
  · exact h
  · exact absurd h ht

theorem inv_step {ts prev line g r} (h : Inv ts ⟨prev, g :: r, line⟩) : Inv ts ⟨g :: prev, r, g.line⟩ := by
  refine ⟨?_, ?_⟩
  · have := h.buf; simp only at this ⊢; rw [← this]; simp
  · intro hr
    simp only at hr ⊢
    subst hr
    rw [← h.buf]; simp [lastLine]

theorem inv_mem {ts prev line g r} (h : Inv ts ⟨prev, g :: r, line⟩) : g ∈ ts := by
  rw [← h.buf]; simp

theorem skipGo_read {ts} (ign : Tok → Bool) (hw : ign .whitespace = true) (rest : List TokenGroup) :
    ∀ prev line, Inv ts ⟨prev, rest, line⟩ →
      Read ts (skipGo ign prev line rest).1 (skipGo ign prev line rest).2.1 (skipGo ign prev line rest).2.2 := by
  induction rest with
  | nil => intro prev line h; exact ⟨h, .inr ⟨rfl, rfl, rfl, h.fin rfl⟩⟩
  | cons g r ih =>
    intro prev line h
    unfold skipGo
    by_cases hi : ign g.token = true
    · rw [if_pos hi]; exact ih _ _ (inv_step h)
    · rw [if_neg hi]
      refine ⟨inv_step h, .inl ⟨g, inv_mem h, rfl, rfl, rfl, ?_⟩⟩
      intro e; simp only at e; rw [e] at hi; exact hi hw

theorem getWS_read {ts c} (h : Inv ts c) : Read ts c.getWS.1 c.getWS.2.1 c.getWS.2.2 :=
  skipGo_read ignWS rfl c.rest c.prev c.line h

theorem getWSC_read {ts c} (h : Inv ts c) : Read ts c.getWSC.1 c.getWSC.2.1 c.getWSC.2.2 :=
  skipGo_read ignWSC rfl c.rest c.prev c.line h

theorem commentsGo_read {ts} (rest : List TokenGroup) :
    ∀ desc prev line, Inv ts ⟨prev, rest, line⟩ →
      Read ts (commentsGo desc prev line rest).2.1 (commentsGo desc prev line rest).2.2.1
        (commentsGo desc prev line rest).2.2.2 := by
  induction rest with
  | nil => intro desc prev line h; exact ⟨h, .inr ⟨rfl, rfl, rfl, h.fin rfl⟩⟩
  | cons g r ih =>
    intro desc prev line h
    unfold commentsGo
    by_cases h1 : g.token = .whitespace
    · rw [if_pos h1]; exact ih _ _ _ (inv_step h)
    · rw [if_neg h1]
      by_cases h2 : g.token = .comment
      · rw [if_pos h2]; exact ih _ _ _ (inv_step h)
      · rw [if_neg h2]
        exact ⟨inv_step h, .inl ⟨g, inv_mem h, rfl, rfl, rfl, h1⟩⟩

theorem getDesc_read {ts c} (desc : Str) (h : Inv ts c) :
    Read ts (c.getDesc desc).2.1 (c.getDesc desc).2.2.1 (c.getDesc desc).2.2.2 :=
  commentsGo_read c.rest desc c.prev c.line h

theorem unGet_inv {ts c} (h : Inv ts c) : Inv ts c.unGet := by
  unfold Cur.unGet
  split
  · exact h
  · rename_i g p hp
    refine ⟨?_, by intro hr; simp at hr⟩
    have := h.buf; rw [hp] at this; rw [← this]; simp

theorem unGetToGo_inv {ts} (target : Nat) (prev : List TokenGroup) :
    ∀ rest line, Inv ts ⟨prev, rest, line⟩ → Inv ts (unGetToGo target prev rest line) := by
  induction prev with
  | nil => intro rest line h; exact h
  | cons g p ih =>
    intro rest line h
    unfold unGetToGo
    split
    · exact h
    · refine ih _ _ ⟨?_, by intro hr; simp at hr⟩
      have := h.buf; simp only at this ⊢; rw [← this]; simp

theorem unGetTo_inv {ts c} (target : Nat) (h : Inv ts c) : Inv ts (c.unGetTo target) :=
  unGetToGo_inv target c.prev c.rest c.line h

/-- An outcome whose errors are as claimed and whose cursor is in order. -/
def Good {α : Type} (unq : Str → Option Str) (ts : List TokenGroup) (cur : α → Cur) (r : Except PErr α) : Prop :=
  match r with
  | .ok a => Inv ts (cur a)
  | .error e => e = .svcDefEnd ∨ e = .fuel ∨ ErrorOK unq ts e

theorem Good.bind {α β : Type} {unq ts} {ca : α → Cur} {cb : β → Cur} {r : Except PErr α} {f : α → Except PErr β}
    (h : Good unq ts ca r) (hf : ∀ a, Inv ts (ca a) → Good unq ts cb (f a)) : Good unq ts cb (r >>= f) := by
  cases r with
  | error e => exact h
  | ok a => exact hf a h

theorem ffTillGo_good {unq : Str → Option Str} {ts} (hp : Proper ts) (delim : Str) (rest : List TokenGroup) :
    ∀ prev line, Inv ts ⟨prev, rest, line⟩ → Good unq ts id (ffTillGo delim prev rest) := by
  induction rest with
  | nil => intro prev line _; exact .inr (.inr ⟨rfl, rfl⟩)
  | cons g r ih =>
    intro prev line h
    have hg := hp g (inv_mem h)
    unfold ffTillGo
    by_cases h1 : g.token = .whitespace
    · rw [if_pos h1]; exact ih _ _ (inv_step h)
    · rw [if_neg h1, if_neg (by rintro (e | e); exact hg.1 e; exact hg.2 e)]
      by_cases h3 : g.value = delim
      · rw [if_pos h3]; exact inv_step h
      · rw [if_neg h3]; exact ih _ _ (inv_step h)

theorem fastForwardTill_good {unq : Str → Option Str} {ts c} (hp : Proper ts) (delim : Str) (h : Inv ts c) :
    Good unq ts id (fastForwardTill c delim) := ffTillGo_good hp delim c.rest c.prev c.line h

theorem bindingFields_good {unq : Str → Option Str} {ts} (hp : Proper ts) (n : Nat) :
    ∀ c desc fs cs, Inv ts c → Good unq ts (·.2.2) (bindingFields unq n c desc fs cs) := by
  induction n with
  | zero => intro c desc fs cs _; exact .inr (.inl rfl)
  | succ n ih =>
    intro c desc fs cs h
    have h1 := getDesc_read desc h
    unfold bindingFields
    rcases e1 : c.getDesc desc with ⟨desc1, tk, val, c1⟩
    rw [e1] at h1
    simp only at h1 ⊢
    split
    · exact .inr (.inr h1.located)
    · split
      · exact unGet_inv h1.inv
      · split
        · exact unGet_inv h1.inv
        · split
          · refine Good.bind (fastForwardTill_good hp _ h1.inv) fun c2 h2 => ?_
            refine Good.bind (ih _ _ _ _ h2) fun x h3 => ?_
            refine Good.bind (fastForwardTill_good hp _ h3) fun c4 h4 => ?_
            exact ih _ _ _ _ h4
          · have h2 := getWS_read h1.inv
            rcases e2 : c1.getWS with ⟨tk2, val2, c2⟩
            rw [e2] at h2
            simp only at h2 ⊢
            split
            · exact .inr (.inr h2.located)
            · have h3 := getWS_read h2.inv
              rcases e3 : c2.getWS with ⟨tk3, val3, c3⟩
              rw [e3] at h3
              simp only at h3 ⊢
              split
              · exact .inr (.inr h3.located)
              · rename_i hs
                have hs : tk3 = .stringLit := Classical.byContradiction hs
                split
                · rename_i hu
                  obtain ⟨g, hg, a, b, -⟩ := h3.token (by rw [hs]; simp)
                  exact .inr (.inr ⟨hu, g, hg, by rw [a, hs], b⟩)
                · exact ih _ _ _ _ h3.inv

theorem bindings_good {unq : Str → Option Str} {ts} (hp : Proper ts) (n : Nat) :
    (∀ c, Inv ts c → Good unq ts (·.2) (httpBindings unq n c)) ∧
    (∀ c good rv opt, Inv ts c → Good unq ts (·.2) (optionLoop unq n c good rv opt)) := by
  induction n with
  | zero => exact ⟨fun _ _ => .inr (.inl rfl), fun _ _ _ _ _ => .inr (.inl rfl)⟩
  | succ n ih =>
    refine ⟨?_, ?_⟩
    · intro c h
      have h1 := getDesc_read [] h
      unfold httpBindings
      rcases e1 : c.getDesc [] with ⟨desc, tk, val, c1⟩
      rw [e1] at h1
      simp only at h1 ⊢
      split
      · rename_i ht
        rcases h1.what with ⟨g, hg, a, -⟩ | ⟨-, -, -, b⟩
        · exfalso; have := hp g hg; rw [a] at this; rcases ht with e | e
          · exact this.1 e
          · exact this.2 e
        · exact .inr (.inr (.inr ⟨b, rfl⟩))
      · rename_i ht
        split
        · refine Good.bind (fastForwardTill_good hp _ h1.inv) fun c2 h2 => ?_
          refine Good.bind (bindingFields_good hp n _ _ _ _ h2) fun x h3 => ?_
          exact ih.2 _ _ _ _ h3
        · split
          · refine Good.bind (fastForwardTill_good hp _ h1.inv) fun c2 h2 => ?_
            refine Good.bind (bindingFields_good hp n _ _ _ _ h2) fun x h3 => ?_
            refine Good.bind (fastForwardTill_good hp _ h3) fun c4 h4 => ?_
            exact h4
          · split
            · exact h1.inv
            · obtain ⟨g, hg, a, b, d, w⟩ := h1.token (fun e => ht (.inl e))
              exact .inr (.inr ⟨g, hg, by rw [a]; exact w, d, b⟩)
    · intro c good rv opt h
      have h1 := getWS_read h
      unfold optionLoop
      rcases e1 : c.getWS with ⟨tk, val, c1⟩
      rw [e1] at h1
      simp only at h1 ⊢
      split
      · exact h1.inv
      · split
        · exact ih.2 _ _ _ _ h1.inv
        · split
          · refine Good.bind (ih.1 _ (unGetTo_inv good h1.inv)) fun x h2 => ?_
            exact ih.2 _ _ _ _ h2
          · split
            · exact .inr (.inr h1.located)
            · exact .inr (.inr h1.located)

theorem typeLoop_good {unq : Str → Option Str} {ts} (site : Site) (n : Nat) :
    ∀ tk val c acc, Read ts tk val c → Good unq ts (·.2) (typeLoop site n tk val c acc) := by
  induction n with
  | zero => intro _ _ _ _ _; exact .inr (.inl rfl)
  | succ n ih =>
    intro tk val c acc h
    have h1 := getWS_read h.inv
    unfold typeLoop
    split
    · exact h.inv
    · split
      · exact ih _ _ _ _ h1
      · split
        · exact ih _ _ _ _ h1
        · exact .inr (.inr h.located)

theorem typeRef_good {unq : Str → Option Str} {ts c} (s1 s2 s3 : Site) (n : Nat) (h : Inv ts c) :
    Good unq ts (·.2) (typeRef s1 s2 s3 n c) := by
  have h1 := getWS_read h
  unfold typeRef
  rcases e1 : c.getWS with ⟨tk, val, c1⟩
  rw [e1] at h1
  simp only at h1 ⊢
  split
  · exact .inr (.inr h1.located)
  · have h2 := getWS_read h1.inv
    rcases e2 : c1.getWS with ⟨tk2, val2, c2⟩
    rw [e2] at h2
    simp only at h2 ⊢
    have h3 : Read ts (if val2 = "stream".toList then c2.getWS else (tk2, val2, c2)).1
        (if val2 = "stream".toList then c2.getWS else (tk2, val2, c2)).2.1
        (if val2 = "stream".toList then c2.getWS else (tk2, val2, c2)).2.2 := by
      split
      · exact getWS_read h2.inv
      · exact h2
    rcases e3 : (if val2 = "stream".toList then c2.getWS else (tk2, val2, c2)) with ⟨tk3, val3, c3⟩
    rw [e3] at h3
    simp only at h3 ⊢
    split
    · exact .inr (.inr h3.located)
    · exact typeLoop_good s3 n _ _ _ _ h3

theorem methodTail_good {unq : Str → Option Str} {ts c} (hp : Proper ts) (n : Nat) (m : Method) (h : Inv ts c) :
    Good unq ts (·.2) (methodTail unq n c m) := by
  have h1 := getWS_read h
  unfold methodTail
  rcases e1 : c.getWS with ⟨tk, val, c1⟩
  rw [e1] at h1
  simp only at h1 ⊢
  split
  · exact h1.inv
  · split
    · exact .inr (.inr h1.located)
    · refine Good.bind ((bindings_good hp n).1 _ h1.inv) fun x h2 => ?_
      rcases x with ⟨bs, c2⟩
      simp only at h2 ⊢
      split
      · exact h2
      · have h3 := getWSC_read h2
        rcases e3 : c2.getWSC with ⟨tk3, val3, c3⟩
        rw [e3] at h3
        simp only at h3 ⊢
        split
        · exact .inr (.inr h3.located)
        · have h4 := getWSC_read h3.inv
          rcases e4 : c3.getWSC with ⟨tk4, val4, c4⟩
          rw [e4] at h4
          simp only at h4 ⊢
          split
          · exact .inr (.inr h4.located)
          · exact h4.inv

theorem parseMethod_good {unq : Str → Option Str} {ts c} (hp : Proper ts) (n : Nat) (h : Inv ts c) :
    Good unq ts (·.2) (parseMethod unq n c) := by
  have h1 := getDesc_read [] h
  unfold parseMethod
  rcases e1 : c.getDesc [] with ⟨desc, tk, val, c1⟩
  rw [e1] at h1
  simp only at h1 ⊢
  split
  · exact .inl rfl
  · split
    · exact .inr (.inr h1.located)
    · have h2 := getWS_read h1.inv
      rcases e2 : c1.getWS with ⟨tk2, name, c2⟩
      rw [e2] at h2
      simp only at h2 ⊢
      split
      · exact .inr (.inr h2.located)
      · refine Good.bind (typeRef_good _ _ _ n h2.inv) fun x h3 => ?_
        rcases x with ⟨rq, c3⟩
        simp only at h3 ⊢
        have h4 := getWS_read h3
        rcases e4 : c3.getWS with ⟨tk4, val4, c4⟩
        rw [e4] at h4
        simp only at h4 ⊢
        split
        · exact .inr (.inr h4.located)
        · refine Good.bind (typeRef_good _ _ _ n h4.inv) fun x h5 => ?_
          exact methodTail_good hp n _ h5

theorem methodsLoop_good {unq : Str → Option Str} {ts} (hp : Proper ts) (fuel n : Nat) :
    ∀ c ms e, Inv ts c → methodsLoop unq fuel n c ms = .error e → e = .fuel ∨ ErrorOK unq ts e := by
  induction n with
  | zero => intro c ms e _ he; cases he; exact .inl rfl
  | succ n ih =>
    intro c ms e h he
    have hm := parseMethod_good (unq := unq) hp fuel h
    unfold methodsLoop at he
    split at he
    · cases he
    · rename_i e' hne heq
      cases he
      rw [heq] at hm
      rcases hm with h | h
      · exact absurd h hne
      · exact h
    · rename_i c' heq
      rw [heq] at hm
      exact ih _ _ _ hm he
    · rename_i m c' heq
      rw [heq] at hm
      exact ih _ _ _ hm he

theorem parseServiceN_good {unq : Str → Option Str} {ts} (hp : Proper ts) (fuel : Nat) (e : PErr)
    (he : parseServiceN unq fuel (Cur.new ts) = .error e) : e = .fuel ∨ ErrorOK unq ts e := by
  have h1 := getWS_read (inv_new ts)
  unfold parseServiceN at he
  rcases e1 : (Cur.new ts).getWS with ⟨tk, val, c1⟩
  rw [e1] at h1 he
  simp only at h1 he
  split at he
  · rename_i ht
    cases he
    refine .inr ?_
    have : ∀ (l prev : List TokenGroup) (line : Nat), (∀ g ∈ l, g ∈ ts) →
        (skipGo ignWS prev line l).1 = .eof → ∀ g ∈ l, g.token = .whitespace := by
      intro l
      induction l with
      | nil => intro _ _ _ _ g hg; simp at hg
      | cons a l ih =>
        intro prev line hsub hs g hg
        unfold skipGo at hs
        by_cases hi : ignWS a.token = true
        · rw [if_pos hi] at hs
          rcases List.mem_cons.mp hg with rfl | hg
          · revert hi; cases g.token <;> simp [ignWS]
          · exact ih _ _ (fun x hx => hsub x (List.mem_cons_of_mem _ hx)) hs g hg
        · rw [if_neg hi] at hs
          exact absurd hs (hp a (hsub a (List.mem_cons_self))).1
    have h2 : (Cur.new ts).getWS.1 = .eof := by rw [e1]; exact ht
    exact this ts [] 0 (fun _ h => h) h2
  · split at he
    · cases he; exact .inr h1.located
    · have h2 := getWS_read h1.inv
      rcases e2 : c1.getWS with ⟨tk2, name, c2⟩
      rw [e2] at h2 he
      simp only at h2 he
      split at he
      · cases he; exact .inr h2.located
      · have h3 := getWS_read h2.inv
        rcases e3 : c2.getWS with ⟨tk3, val3, c3⟩
        rw [e3] at h3 he
        simp only at h3 he
        split at he
        · cases he; exact .inr h3.located
        · cases hm : methodsLoop unq fuel fuel c3 [] with
          | ok ms => rw [hm] at he; cases he
          | error e' =>
            rw [hm] at he
            cases he
            exact methodsLoop_good hp _ _ _ _ _ h3.inv hm

end Baron.Parser
