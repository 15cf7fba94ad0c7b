import Verif.Proofs.Scope

/-!
# Only the pattern of names matters

Two pieces of code that differ by an injective renaming are accepted or refused together, whatever else the outermost block
contains.
-/

namespace Baron.Scope

/-- Is `x` a variable of the block, and has it been used? -/
def look (b : Block) (x : Str) : Option Bool :=
  if declared x b = true then some (b.all fun e => decide (e.1 ≠ x) || e.2) else none

theorem look_isSome (b : Block) (x : Str) : (look b x).isSome = declared x b := by
  unfold look
  cases declared x b <;> rfl

theorem look_none {b : Block} {x : Str} : look b x = none ↔ declared x b = false := by
  unfold look
  cases declared x b <;> simp

theorem all_iff (b : Block) : b.all (·.2) = true ↔ ∀ x, look b x ≠ some false := by
  constructor
  · intro h x hx
    unfold look at hx
    split at hx
    · injection hx with hx
      rw [List.all_eq_false] at hx
      obtain ⟨e, he, hn⟩ := hx
      rw [List.all_eq_true.1 h e he, Bool.or_true] at hn
      exact hn rfl
    · cases hx
  · intro h
    rw [List.all_eq_true]
    intro e he
    have hd : declared e.1 b = true := declared_names.2 (List.mem_map.2 ⟨e, he, rfl⟩)
    have := h e.1
    unfold look at this
    rw [if_pos hd] at this
    cases hall : b.all fun e' => decide (e'.1 ≠ e.1) || e'.2 with
    | false => rw [hall] at this; exact absurd rfl this
    | true =>
      have := List.all_eq_true.1 hall e he
      simpa using this

theorem all_neq {b : Block} {x : Str} (h : declared x b = false) : (b.all fun e => decide (e.1 ≠ x) || e.2) = true := by
  rw [List.all_eq_true]
  intro e he
  rw [Bool.or_eq_true, decide_eq_true_eq]
  left
  intro hx
  rw [Bool.eq_false_iff] at h
  exact h (declared_names.2 (hx ▸ List.mem_map.2 ⟨e, he, rfl⟩))

theorem look_append {b : Block} {new : List Str} {u : Bool} (h : ∀ y ∈ new, declared y b = false) (x : Str) :
    look (b ++ new.map fun y => (y, u)) x = if x ∈ new then some u else look b x := by
  unfold look
  rw [declared_append, List.all_append]
  by_cases hx : x ∈ new
  · rw [if_pos hx]
    rw [(declared_map x u new).2 hx, Bool.or_true, if_pos rfl, all_neq (h x hx), Bool.true_and, List.all_map]
    congr 1
    cases u with
    | true => exact List.all_eq_true.2 fun y _ => by simp
    | false =>
      rw [Bool.eq_false_iff]
      intro ha
      have := List.all_eq_true.1 ha x hx
      simp at this
  · rw [if_neg hx]
    have hd : declared x (new.map fun y => (y, u)) = false := by
      rw [Bool.eq_false_iff]; exact fun h => hx ((declared_map x u new).1 h)
    rw [hd, Bool.or_false, all_neq hd, Bool.and_true]

theorem look_append_one {b : Block} {y : Str} {u : Bool} (h : declared y b = false) (x : Str) :
    look (b ++ [(y, u)]) x = if x = y then some u else look b x := by
  rw [show [(y, u)] = [y].map fun z => (z, u) from rfl, look_append (by intro z hz; rw [List.mem_singleton.1 hz]; exact h)]
  simp only [List.mem_singleton]

theorem look_markB {b : Block} {y : Str} (h : declared y b = true) (x : Str) :
    look (markB y b) x = if x = y then some true else look b x := by
  unfold look
  rw [declared_markB]
  by_cases hx : x = y
  · subst hx
    rw [if_pos rfl, if_pos h]
    congr 1
    rw [List.all_eq_true]
    intro e he
    rcases mem_markB' he with h | h
    · rw [h, Bool.or_true]
    · rw [decide_eq_true h, Bool.true_or]
  · rw [if_neg hx]
    congr 2
    unfold markB
    rw [List.all_map]
    congr 1
    funext e
    simp only [Function.comp_def]
    split
    · rename_i he
      simp [he, Ne.symm hx]
    · rfl
where
  mem_markB' {x : Str} {b : Block} {e : Str × Bool} (h : e ∈ markB x b) : e.2 = true ∨ e.1 ≠ x := by
    unfold markB at h
    obtain ⟨e', he', rfl⟩ := List.mem_map.1 h
    split
    · exact .inl rfl
    · rename_i hn; exact .inr hn

/-- The names of an event. -/
def Ev.names : Ev → List Str
  | .opn => []
  | .cls => []
  | .param x => [x]
  | .short xs => xs
  | .var x => [x]
  | .assign x => [x]
  | .use x => [x]
  | .type x => [x]

def Ev.ren (ρ : Str → Str) : Ev → Ev
  | .opn => .opn
  | .cls => .cls
  | .param x => .param (ρ x)
  | .short xs => .short (xs.map ρ)
  | .var x => .var (ρ x)
  | .assign x => .assign (ρ x)
  | .use x => .use (ρ x)
  | .type x => .type (ρ x)

/-- The code never closes more blocks than it opens and the `d` given. -/
def nested : Nat → List Ev → Bool
  | d, [] => d == 0
  | d, .opn :: es => nested (d + 1) es
  | 0, .cls :: _ => false
  | d + 1, .cls :: es => nested d es
  | d, _ :: es => nested d es

/-- How many blocks there are. -/
theorem step_length {g : Outer} {bs bs' : List Block} {e : Ev} (h : step g bs e = some bs') :
    bs'.length = match e with
      | .opn => bs.length + 1
      | .cls => bs.length - 1
      | _ => bs.length := by
  cases e with
  | opn => cases h; rfl
  | cls =>
    cases bs with
    | nil => cases h
    | cons b bs =>
      simp only [step] at h
      split at h
      · cases h; rfl
      · cases h
  | assign y =>
    simp only [step] at h
    split at h
    · cases h; rfl
    · cases h
  | type y =>
    simp only [step] at h
    split at h
    · cases h
    · split at h
      · cases h; rfl
      · cases h
  | use y =>
    simp only [step] at h
    split at h
    · cases h; exact mark_length y bs
    · split at h
      · cases h; rfl
      · cases h
  | _ =>
    cases bs with
    | nil => cases h
    | cons b bs =>
      simp only [step] at h
      split at h
      · cases h
      · cases h; rfl
where
  mark_length (x : Str) : ∀ bs : List Block, (mark x bs).length = bs.length := by
    intro bs
    induction bs with
    | nil => rfl
    | cons b bs ih =>
      unfold mark
      split
      · rfl
      · rw [List.length_cons, ih, List.length_cons]

section
variable {M : Str → Prop} {ρ : Str → Str}

/-- The blocks agree on the names of the code. -/
def SimB (M : Str → Prop) (ρ : Str → Str) (b b' : Block) : Prop := ∀ x, M x → look b x = look b' (ρ x)

/-- … and those it opened contain nothing else. -/
inductive Sim (M : Str → Prop) (ρ : Str → Str) : List Block → List Block → Prop where
  | last {c c' : Block} : SimB M ρ c c' → Sim M ρ [c] [c']
  | cons {b b' : Block} {bs bs' : List Block} : SimB M ρ b b' → (∀ x, declared x b = true → M x) →
      (∀ y, declared y b' = true → ∃ x, M x ∧ y = ρ x) → Sim M ρ bs bs' → Sim M ρ (b :: bs) (b' :: bs')

theorem SimB.declared {b b' : Block} (h : SimB M ρ b b') {x : Str} (hx : M x) :
    Scope.declared x b = Scope.declared (ρ x) b' := by
  rw [← look_isSome, ← look_isSome, h x hx]

theorem Sim.captured {bs bs' : List Block} (h : Sim M ρ bs bs') {x : Str} (hx : M x) :
    Scope.captured x bs = Scope.captured (ρ x) bs' := by
  induction h with
  | last h => unfold Scope.captured; rw [List.any_cons, List.any_cons, h.declared hx]; rfl
  | cons h _ _ _ ih =>
    unfold Scope.captured at ih ⊢
    rw [List.any_cons, List.any_cons, h.declared hx, ih]

variable (hinj : ∀ x y, M x → M y → ρ x = ρ y → x = y)
include hinj

theorem SimB.markB {b b' : Block} (h : SimB M ρ b b') {x : Str} (hx : M x) (hd : Scope.declared x b = true) :
    SimB M ρ (Scope.markB x b) (Scope.markB (ρ x) b') := by
  intro y hy
  rw [look_markB hd, look_markB (h.declared hx ▸ hd)]
  by_cases he : y = x
  · rw [if_pos he, if_pos (he ▸ rfl)]
  · rw [if_neg he, if_neg fun h' => he (hinj y x hy hx h')]
    exact h y hy

theorem Sim.mark {bs bs' : List Block} (h : Sim M ρ bs bs') {x : Str} (hx : M x) :
    Sim M ρ (Scope.mark x bs) (Scope.mark (ρ x) bs') := by
  induction h with
  | last h =>
    unfold Scope.mark
    rw [← h.declared hx]
    split
    · rename_i hd; exact .last (h.markB hinj hx hd)
    · exact .last h
  | cons h h1 h2 hs ih =>
    unfold Scope.mark
    rw [← h.declared hx]
    split
    · rename_i hd
      exact .cons (h.markB hinj hx hd) (fun y hy => h1 y (by rwa [declared_markB] at hy))
        (fun y hy => h2 y (by rwa [declared_markB] at hy)) hs
    · exact .cons h h1 h2 ih

theorem SimB.append {b b' : Block} (h : SimB M ρ b b') {new : List Str} {u : Bool} (hm : ∀ y ∈ new, M y)
    (hd : ∀ y ∈ new, Scope.declared y b = false) :
    SimB M ρ (b ++ new.map fun y => (y, u)) (b' ++ (new.map ρ).map fun y => (y, u)) := by
  intro x hx
  rw [look_append hd, look_append]
  · by_cases hn : x ∈ new
    · rw [if_pos hn, if_pos (List.mem_map.2 ⟨x, hn, rfl⟩)]
    · rw [if_neg hn, if_neg]
      · exact h x hx
      · intro hc
        obtain ⟨y, hy, he⟩ := List.mem_map.1 hc
        exact hn (hinj y x (hm y hy) hx he ▸ hy)
  · intro y hy
    obtain ⟨z, hz, rfl⟩ := List.mem_map.1 hy
    rw [← h.declared (hm z hz)]
    exact hd z hz

theorem Sim.append {b b' : Block} {bs bs' : List Block} (h : Sim M ρ (b :: bs) (b' :: bs')) {new : List Str} {u : Bool}
    (hm : ∀ y ∈ new, M y) (hd : ∀ y ∈ new, Scope.declared y b = false) :
    Sim M ρ ((b ++ new.map fun y => (y, u)) :: bs) ((b' ++ (new.map ρ).map fun y => (y, u)) :: bs') := by
  cases h with
  | last h => exact .last (h.append hinj hm hd)
  | cons h h1 h2 hs =>
    refine .cons (h.append hinj hm hd) (fun x hx => ?_) (fun y hy => ?_) hs
    · rw [declared_append, Bool.or_eq_true, declared_map] at hx
      exact hx.elim (h1 x) (hm x)
    · rw [declared_append, Bool.or_eq_true, declared_map] at hy
      rcases hy with hy | hy
      · exact h2 y hy
      · obtain ⟨z, hz, rfl⟩ := List.mem_map.1 hy
        exact ⟨z, hm z hz, rfl⟩

theorem Sim.step {g g' : Outer} {bs bs' : List Block} (h : Sim M ρ bs bs') {e : Ev} (hm : ∀ x ∈ e.names, M x)
    (hcls : e = .cls → 2 ≤ bs.length)
    (hv : ∀ x, e = .use x → g.value x = g'.value (ρ x)) (ht : ∀ x, e = .type x → g.type x = g'.type (ρ x)) :
    (Scope.step g bs e = none ∧ Scope.step g' bs' (e.ren ρ) = none) ∨
    ∃ r r', Scope.step g bs e = some r ∧ Scope.step g' bs' (e.ren ρ) = some r' ∧ Sim M ρ r r' := by
  have hhead : ∃ b bs1 b' bs1', bs = b :: bs1 ∧ bs' = b' :: bs1' ∧ SimB M ρ b b' := by
    cases h with
    | last h => exact ⟨_, _, _, _, rfl, rfl, h⟩
    | cons h _ _ _ => exact ⟨_, _, _, _, rfl, rfl, h⟩
  obtain ⟨b, bs1, b', bs1', rfl, rfl, hb⟩ := hhead
  have hone : ∀ (x : Str) (u : Bool), M x →
      ((if Scope.declared x b = true then none else some ((b ++ [(x, u)]) :: bs1)) = none ∧
        (if Scope.declared (ρ x) b' = true then none else some ((b' ++ [(ρ x, u)]) :: bs1')) = none) ∨
      ∃ r r', (if Scope.declared x b = true then none else some ((b ++ [(x, u)]) :: bs1)) = some r ∧
        (if Scope.declared (ρ x) b' = true then none else some ((b' ++ [(ρ x, u)]) :: bs1')) = some r' ∧ Sim M ρ r r' := by
    intro x u hx
    rw [← hb.declared hx]
    split
    · exact .inl ⟨rfl, rfl⟩
    · rename_i hd
      exact .inr ⟨_, _, rfl, rfl, h.append hinj (new := [x]) (u := u) (by intro y hy; rw [List.mem_singleton.1 hy]; exact hx)
        (by intro y hy; rw [List.mem_singleton.1 hy]; exact Bool.eq_false_iff.2 hd)⟩
  cases e with
  | opn =>
    refine .inr ⟨_, _, rfl, rfl, .cons (fun _ _ => rfl) nofun nofun h⟩
  | cls =>
    cases h with
    | last => exact absurd (hcls rfl) (by simp)
    | cons _ h1 h2 hs =>
      have : b.all (·.2) = b'.all (·.2) := by
        rw [Bool.eq_iff_iff, all_iff, all_iff]
        constructor
        · intro ha y hy
          have hd : Scope.declared y b' = true := by rw [← look_isSome, hy]; rfl
          obtain ⟨x, hx, rfl⟩ := h2 y hd
          exact ha x (by rw [hb x hx]; exact hy)
        · intro ha x hx
          have hd : Scope.declared x b = true := by rw [← look_isSome, hx]; rfl
          exact ha (ρ x) (by rw [← hb x (h1 x hd)]; exact hx)
      simp only [Scope.step, Ev.ren]
      rw [← this]
      split
      · exact .inr ⟨_, _, rfl, rfl, hs⟩
      · exact .inl ⟨rfl, rfl⟩
  | param x => exact hone x true (hm x (List.mem_singleton_self x))
  | var x => exact hone x false (hm x (List.mem_singleton_self x))
  | short xs =>
    have hfil : (xs.map ρ).filter (fun x => !Scope.declared x b') = (xs.filter fun x => !Scope.declared x b).map ρ := by
      rw [List.filter_map]
      congr 1
      refine List.filter_congr fun x hx => ?_
      simp only [Function.comp_def]
      rw [hb.declared (hm x hx)]
    have hnew : ∀ y ∈ xs.filter fun x => !Scope.declared x b, M y := fun y hy => hm y (List.mem_filter.1 hy).1
    simp only [Scope.step, Ev.ren]
    rw [hfil]
    generalize hn : xs.filter (fun x => !Scope.declared x b) = new at hnew
    have hnd : (new.map ρ).Nodup ↔ new.Nodup := by
      rw [List.Nodup, List.pairwise_map]
      constructor
      · exact List.Pairwise.imp fun {a b} h (h' : a = b) => h (h' ▸ rfl)
      · exact fun h' => List.Pairwise.imp_of_mem (fun {a b} ha hb' h hc => h (hinj a b (hnew a ha) (hnew b hb') hc)) h'
    simp only [hnd, List.map_eq_nil_iff]
    split
    · exact .inl ⟨rfl, rfl⟩
    · refine .inr ⟨_, _, rfl, rfl, h.append hinj hnew fun y hy => ?_⟩
      rw [← hn] at hy
      simpa using (List.mem_filter.1 hy).2
  | assign x =>
    simp only [Scope.step, Ev.ren]
    rw [← h.captured (hm x (List.mem_singleton_self x))]
    split
    · exact .inr ⟨_, _, rfl, rfl, h⟩
    · exact .inl ⟨rfl, rfl⟩
  | use x =>
    simp only [Scope.step, Ev.ren]
    rw [← h.captured (hm x (List.mem_singleton_self x)), ← hv x rfl]
    split
    · exact .inr ⟨_, _, rfl, rfl, h.mark hinj (hm x (List.mem_singleton_self x))⟩
    · split
      · exact .inr ⟨_, _, rfl, rfl, h⟩
      · exact .inl ⟨rfl, rfl⟩
  | type x =>
    simp only [Scope.step, Ev.ren]
    rw [← h.captured (hm x (List.mem_singleton_self x)), ← ht x rfl]
    split
    · exact .inl ⟨rfl, rfl⟩
    · split
      · exact .inr ⟨_, _, rfl, rfl, h⟩
      · exact .inl ⟨rfl, rfl⟩

/-- The code as a whole; what it opens it closes, and names not its own are left alone. -/
theorem Sim.run {g g' : Outer} : ∀ {es : List Ev} {bs bs' : List Block}, Sim M ρ bs bs' → ∀ {d : Nat}, bs.length = d + 1 →
    nested d es = true → (∀ e ∈ es, ∀ x ∈ e.names, M x) → (∀ x, .use x ∈ es → g.value x = g'.value (ρ x)) →
    (∀ x, .type x ∈ es → g.type x = g'.type (ρ x)) →
    (Scope.run g bs es = none ∧ Scope.run g' bs' (es.map (Ev.ren ρ)) = none) ∨
    ∃ r r', Scope.run g bs es = some r ∧ Scope.run g' bs' (es.map (Ev.ren ρ)) = some r' ∧ Sim M ρ r r' ∧ r.length = 1 := by
  intro es
  induction es with
  | nil =>
    intro bs bs' h d hl hn _ _ _
    have hd : d = 0 := of_decide_eq_true hn
    exact .inr ⟨_, _, rfl, rfl, h, by rw [hl, hd]⟩
  | cons e es ih =>
    intro bs bs' h d hl hn hm hv ht
    have hcls : e = .cls → 2 ≤ bs.length := by
      rintro rfl
      cases d with
      | zero => cases hn
      | succ d => omega
    rw [List.map_cons]
    rcases h.step hinj (hm e List.mem_cons_self) hcls (fun x hx => hv x (hx ▸ List.mem_cons_self))
      (fun x hx => ht x (hx ▸ List.mem_cons_self)) with ⟨h1, h2⟩ | ⟨r, r', h1, h2, h3⟩
    · exact .inl ⟨run_cons_none h1, run_cons_none h2⟩
    · rw [run_cons_some h1, run_cons_some h2]
      have hlen := step_length h1
      obtain ⟨d', hd', hn'⟩ : ∃ d', r.length = d' + 1 ∧ nested d' es = true := by
        cases e with
        | opn => exact ⟨d + 1, by rw [hlen]; show bs.length + 1 = _; omega, hn⟩
        | cls =>
          cases d with
          | zero => cases hn
          | succ d => exact ⟨d, by rw [hlen]; show bs.length - 1 = _; omega, hn⟩
        | _ => exact ⟨d, hlen.trans hl, by cases d <;> exact hn⟩
      exact ih h3 hd' hn' (fun e' he => hm e' (List.mem_cons_of_mem _ he)) (fun x hx => hv x (List.mem_cons_of_mem _ hx))
        (fun x hx => ht x (List.mem_cons_of_mem _ hx))

end

/-! Names the code does not mention -/

theorem look_append_ne {b : Block} {new : List Str} {u : Bool} {x : Str} (hx : x ∉ new) :
    look (b ++ new.map fun y => (y, u)) x = look b x := by
  unfold look
  have hd : declared x (new.map fun y => (y, u)) = false := by
    rw [Bool.eq_false_iff]; exact fun h => hx ((declared_map x u new).1 h)
  rw [declared_append, List.all_append, hd, Bool.or_false, all_neq hd, Bool.and_true]

theorem look_markB_ne {b : Block} {x y : Str} (hx : x ≠ y) : look (markB y b) x = look b x := by
  unfold look
  rw [declared_markB]
  congr 2
  unfold markB
  rw [List.all_map]
  congr 1
  funext e
  simp only [Function.comp_def]
  split
  · rename_i he
    simp [he, Ne.symm hx]
  · rfl

theorem last_change {x : Str} {b b2 : Block} {bs : List Block} {c : Block} (h : (b :: bs).getLast? = some c)
    (hl : look b2 x = look b x) : ∃ c', (b2 :: bs).getLast? = some c' ∧ look c' x = look c x := by
  cases bs with
  | nil => injection h with h; exact ⟨b2, rfl, h ▸ hl⟩
  | cons b3 bs => exact ⟨c, h, rfl⟩

theorem look_mark {x y : Str} (hx : x ≠ y) : ∀ {bs : List Block} {c : Block}, bs.getLast? = some c →
    ∃ c', (mark y bs).getLast? = some c' ∧ look c' x = look c x := by
  intro bs
  induction bs with
  | nil => intro c h; cases h
  | cons b bs ih =>
    intro c h
    unfold mark
    split
    · exact last_change h (look_markB_ne hx)
    · cases bs with
      | nil => exact ⟨c, h, rfl⟩
      | cons b3 bs =>
        obtain ⟨c', h1, h2⟩ := ih (c := c) h
        have hne : mark y (b3 :: bs) ≠ [] := by unfold mark; split <;> nofun
        obtain ⟨b4, bs4, he⟩ := List.exists_cons_of_ne_nil hne
        rw [he] at h1 ⊢
        exact ⟨c', h1, h2⟩

theorem look_step {g : Outer} {bs bs' : List Block} {e : Ev} {x : Str} (hx : x ∉ e.names) (h : Scope.step g bs e = some bs')
    {c : Block} (hb : bs.getLast? = some c) (hl : e = .cls → 2 ≤ bs.length) :
    ∃ c', bs'.getLast? = some c' ∧ look c' x = look c x := by
  cases bs with
  | nil => cases hb
  | cons b bs =>
  cases e with
  | opn => cases h; exact ⟨c, hb, rfl⟩
  | cls =>
    simp only [step] at h
    split at h
    · cases h
      cases bs' with
      | nil => exact absurd (hl rfl) (by simp)
      | cons b3 bs => exact ⟨c, hb, rfl⟩
    · cases h
  | assign y =>
    simp only [step] at h
    split at h
    · cases h; exact ⟨c, hb, rfl⟩
    · cases h
  | type y =>
    simp only [step] at h
    split at h
    · cases h
    · split at h
      · cases h; exact ⟨c, hb, rfl⟩
      · cases h
  | use y =>
    simp only [step] at h
    split at h
    · cases h; exact look_mark (fun h => hx (List.mem_singleton.2 h)) hb
    · split at h
      · cases h; exact ⟨c, hb, rfl⟩
      · cases h
  | param y =>
    simp only [step] at h
    split at h
    · cases h
    · cases h; exact last_change hb (look_append_ne (new := [y]) (u := true) hx)
  | var y =>
    simp only [step] at h
    split at h
    · cases h
    · cases h; exact last_change hb (look_append_ne (new := [y]) (u := false) hx)
  | short ys =>
    simp only [step] at h
    split at h
    · cases h
    · cases h; exact last_change hb (look_append_ne fun h => hx (List.mem_filter.1 h).1)

theorem look_run {g : Outer} {x : Str} : ∀ {es : List Ev} {bs bs' : List Block} {d : Nat} {c : Block},
    bs.getLast? = some c → bs.length = d + 1 → nested d es = true → (∀ e ∈ es, x ∉ e.names) → run g bs es = some bs' →
    ∃ c', bs' = [c'] ∧ look c' x = look c x := by
  intro es
  induction es with
  | nil =>
    intro bs bs' d c hb hl hn _ hr
    have hd : d = 0 := of_decide_eq_true hn
    injection hr with hr
    subst hr hd
    obtain ⟨b, rfl⟩ := List.length_eq_one_iff.1 hl
    injection hb with hb
    exact ⟨b, rfl, hb ▸ rfl⟩
  | cons e es ih =>
    intro bs bs' d c hb hl hn hm hr
    rw [run_cons] at hr
    split at hr
    · rename_i r hs
      have hcls : e = .cls → 2 ≤ bs.length := by
        rintro rfl
        cases d with
        | zero => cases hn
        | succ d => omega
      obtain ⟨c1, h1, h2⟩ := look_step (hm e List.mem_cons_self) hs hb hcls
      have hlen := step_length hs
      obtain ⟨d', hd', hn'⟩ : ∃ d', r.length = d' + 1 ∧ nested d' es = true := by
        cases e with
        | opn => exact ⟨d + 1, by rw [hlen]; show bs.length + 1 = _; omega, hn⟩
        | cls =>
          cases d with
          | zero => cases hn
          | succ d => exact ⟨d, by rw [hlen]; show bs.length - 1 = _; omega, hn⟩
        | _ => exact ⟨d, hlen.trans hl, by cases d <;> exact hn⟩
      obtain ⟨c', h3, h4⟩ := ih h1 hd' hn' (fun e' he => hm e' (List.mem_cons_of_mem _ he)) hr
      exact ⟨c', h3, h4.trans h2⟩
    · cases hr

end Baron.Scope
