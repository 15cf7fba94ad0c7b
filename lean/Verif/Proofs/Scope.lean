import Verif.Spec.Scope
import Verif.Spec.Idents

/-!
# Lemmas about Go's scoping rules
-/

namespace Baron.Scope

theorem run_cons (g : Outer) (bs : List Block) (e : Ev) (es : List Ev) :
    run g bs (e :: es) = match step g bs e with
      | some bs' => run g bs' es
      | none => none := rfl

theorem uses_cons (g : Outer) (x : Str) (bs : List Block) (e : Ev) (es : List Ev) :
    uses g x bs (e :: es) = ((decide (e = .use x) && !captured x bs) || match step g bs e with
      | some bs' => uses g x bs' es
      | none => false) := rfl

theorem run_append (g : Outer) : ∀ (a b : List Ev) (bs : List Block),
    run g bs (a ++ b) = (run g bs a).bind fun bs' => run g bs' b := by
  intro a
  induction a with
  | nil => intro b bs; rfl
  | cons e a ih =>
    intro b bs
    rw [List.cons_append, run_cons, run_cons]
    cases step g bs e with
    | none => rfl
    | some bs' => exact ih b bs'

theorem run_append_some {g : Outer} {a b : List Ev} {bs bs' : List Block} (h : run g bs a = some bs') :
    run g bs (a ++ b) = run g bs' b := by rw [run_append, h]; rfl

theorem run_append_none {g : Outer} {a b : List Ev} {bs : List Block} (h : run g bs a = none) :
    run g bs (a ++ b) = none := by rw [run_append, h]; rfl

theorem run_cons_some {g : Outer} {e : Ev} {b : List Ev} {bs bs' : List Block} (h : step g bs e = some bs') :
    run g bs (e :: b) = run g bs' b := by
  conv => lhs; unfold run
  rw [h]

theorem run_cons_none {g : Outer} {e : Ev} {b : List Ev} {bs : List Block} (h : step g bs e = none) :
    run g bs (e :: b) = none := by
  conv => lhs; unfold run
  rw [h]

/-- More is declared. -/
def Outer.le (g g' : Outer) : Prop := (∀ x, g.value x = true → g'.value x = true) ∧ ∀ x, g.type x = true → g'.type x = true

theorem step_mono {g g' : Outer} (h : g.le g') {bs bs' : List Block} {e : Ev} (hs : step g bs e = some bs') :
    step g' bs e = some bs' := by
  cases e with
  | use x =>
    simp only [step] at hs ⊢
    split at hs
    · rename_i hc; rw [if_pos hc]; exact hs
    · rename_i hc
      rw [if_neg hc]
      split at hs
      · rename_i hv; rw [if_pos (h.1 x hv)]; exact hs
      · cases hs
  | type x =>
    simp only [step] at hs ⊢
    split at hs
    · cases hs
    · rename_i hc
      rw [if_neg hc]
      split at hs
      · rename_i hv; rw [if_pos (h.2 x hv)]; exact hs
      · cases hs
  | _ => exact hs

theorem run_mono {g g' : Outer} (h : g.le g') : ∀ {es : List Ev} {bs bs' : List Block}, run g bs es = some bs' →
    run g' bs es = some bs' := by
  intro es
  induction es with
  | nil => intro bs bs' hr; exact hr
  | cons e es ih =>
    intro bs bs' hr
    unfold run at hr
    split at hr
    · rename_i b1 hb
      rw [run_cons_some (step_mono h hb)]
      exact ih hr
    · cases hr

theorem uses_mono {g g' : Outer} (h : g.le g') {x : Str} : ∀ {es : List Ev} {bs : List Block}, uses g x bs es = true →
    uses g' x bs es = true := by
  intro es
  induction es with
  | nil => intro bs hr; exact hr
  | cons e es ih =>
    intro bs hr
    unfold uses at hr ⊢
    rw [Bool.or_eq_true] at hr ⊢
    rcases hr with hr | hr
    · exact .inl hr
    · split at hr
      · rename_i b1 hb
        rw [step_mono h hb]
        exact .inr (ih hr)
      · cases hr

/-- Everything is declared. -/
def all : Outer := ⟨fun _ => true, fun _ => true⟩

theorem le_all (g : Outer) : g.le all := ⟨fun _ _ => rfl, fun _ _ => rfl⟩

/-- What these lists declare. -/
def lists (vs ts : List Str) : Outer := ⟨fun x => decide (x ∈ vs), fun x => decide (x ∈ ts)⟩

theorem lists_le {vs ts : List Str} {g : Outer} (hv : ∀ x ∈ vs, g.value x = true) (ht : ∀ x ∈ ts, g.type x = true) :
    (lists vs ts).le g := ⟨fun x hx => hv x (of_decide_eq_true hx), fun x hx => ht x (of_decide_eq_true hx)⟩

theorem uses_append (g : Outer) (x : Str) : ∀ (a b : List Ev) (bs : List Block),
    uses g x bs (a ++ b) = (uses g x bs a || match run g bs a with
      | some bs' => uses g x bs' b
      | none => false) := by
  intro a
  induction a with
  | nil => intro b bs; simp [uses, run]
  | cons e a ih =>
    intro b bs
    rw [List.cons_append, uses_cons, uses_cons, run_cons]
    cases hs : step g bs e with
    | none => simp
    | some bs' => simp only [ih b bs', Bool.or_assoc]

theorem uses_none {g : Outer} {x : Str} : ∀ {es : List Ev} {bs : List Block}, Ev.use x ∉ es → uses g x bs es = false := by
  intro es
  induction es with
  | nil => intro bs _; rfl
  | cons e es ih =>
    intro bs h
    rw [List.mem_cons, not_or] at h
    unfold uses
    have h1 : (decide (e = Ev.use x)) = false := decide_eq_false fun he => h.1 he.symm
    rw [h1, Bool.false_and, Bool.false_or]
    split
    · exact ih h.2
    · rfl

/-! ## Names of two kinds -/

/-- The name a declaration declares. -/
def Ev.decls : Ev → List Str
  | .param x => [x]
  | .var x => [x]
  | .short xs => xs
  | _ => []

/-- The name something mentions. -/
def Ev.mention : Ev → Option (Bool × Str)
  | .use x => some (true, x)
  | .type x => some (false, x)
  | _ => none

def blockNames (bs : List Block) : List Str := bs.flatMap fun b => b.map (·.1)

theorem captured_iff {x : Str} {bs : List Block} : captured x bs = true ↔ x ∈ blockNames bs := by
  unfold captured blockNames declared
  simp only [List.any_eq_true, decide_eq_true_eq, List.mem_flatMap, List.mem_map]

theorem mark_names (x : Str) : ∀ bs : List Block, blockNames (mark x bs) = blockNames bs := by
  intro bs
  induction bs with
  | nil => rfl
  | cons b bs ih =>
    unfold mark
    split
    · unfold blockNames
      rw [List.flatMap_cons, List.flatMap_cons]
      congr 1
      unfold markB
      rw [List.map_map]
      refine List.map_congr_left fun e _ => ?_
      simp only [Function.comp_def]
      split <;> rfl
    · unfold blockNames at ih ⊢
      rw [List.flatMap_cons, List.flatMap_cons, ih]

theorem step_names {g : Outer} {bs bs' : List Block} {e : Ev} (h : step g bs e = some bs') :
    ∀ x ∈ blockNames bs', x ∈ blockNames bs ∨ x ∈ e.decls := by
  intro x hx
  cases e with
  | opn => cases h; left; simpa [blockNames] using hx
  | cls =>
    cases bs with
    | nil => cases h
    | cons b bs =>
      simp only [step] at h
      split at h
      · cases h; left; unfold blockNames at hx ⊢; rw [List.flatMap_cons]; exact List.mem_append_right _ hx
      · cases h
  | param y =>
    cases bs with
    | nil => cases h
    | cons b bs =>
      simp only [step] at h
      split at h
      · cases h
      · cases h
        unfold blockNames at hx ⊢
        simp only [List.flatMap_cons, List.map_append, List.mem_append, Ev.decls, List.map_cons, List.map_nil] at hx ⊢
        rcases hx with (hx | hx) | hx
        · exact .inl (.inl hx)
        · exact .inr hx
        · exact .inl (.inr hx)
  | var y =>
    cases bs with
    | nil => cases h
    | cons b bs =>
      simp only [step] at h
      split at h
      · cases h
      · cases h
        unfold blockNames at hx ⊢
        simp only [List.flatMap_cons, List.map_append, List.mem_append, Ev.decls, List.map_cons, List.map_nil] at hx ⊢
        rcases hx with (hx | hx) | hx
        · exact .inl (.inl hx)
        · exact .inr hx
        · exact .inl (.inr hx)
  | short xs =>
    cases bs with
    | nil => cases h
    | cons b bs =>
      simp only [step] at h
      split at h
      · cases h
      · cases h
        unfold blockNames at hx ⊢
        simp only [List.flatMap_cons, List.map_append, List.mem_append, Ev.decls, List.map_map] at hx ⊢
        rcases hx with (hx | hx) | hx
        · exact .inl (.inl hx)
        · obtain ⟨y, hy, rfl⟩ := List.mem_map.1 hx
          exact .inr (List.mem_filter.1 hy).1
        · exact .inl (.inr hx)
  | assign y =>
    simp only [step] at h
    split at h
    · cases h; exact .inl hx
    · cases h
  | use y =>
    simp only [step] at h
    split at h
    · cases h; rw [mark_names] at hx; exact .inl hx
    · split at h
      · cases h; exact .inl hx
      · cases h
  | type y =>
    simp only [step] at h
    split at h
    · cases h
    · split at h
      · cases h; exact .inl hx
      · cases h

/-- Package-level names that are declared and that no variable can hide do not matter. -/
theorem run_erase {g : Outer} {far : Str → Bool} : ∀ (es : List Ev) (bs : List Block),
    (∀ x ∈ blockNames bs, far x = false) → (∀ e ∈ es, ∀ x ∈ e.decls, far x = false) →
    (∀ x, .use x ∈ es → far x = true → g.value x = true) → (∀ x, .type x ∈ es → far x = true → g.type x = true) →
    run g bs es = run g bs (es.filter fun e => !(e.mention.any fun m => far m.2)) := by
  intro es
  induction es with
  | nil => intros; rfl
  | cons e es ih =>
    intro bs hb hd hv ht
    have hd' : ∀ e' ∈ es, ∀ x ∈ e'.decls, far x = false := fun e' he => hd e' (List.mem_cons_of_mem _ he)
    have hv' : ∀ x, .use x ∈ es → far x = true → g.value x = true := fun x hx => hv x (List.mem_cons_of_mem _ hx)
    have ht' : ∀ x, .type x ∈ es → far x = true → g.type x = true := fun x hx => ht x (List.mem_cons_of_mem _ hx)
    by_cases hm : (e.mention.any fun m => far m.2) = true
    · rw [List.filter_cons_of_neg (by rw [hm]; exact Bool.false_ne_true)]
      rw [← ih bs hb hd' hv' ht']
      cases e with
      | use x =>
        have hf : far x = true := hm
        have hc : ¬ captured x bs = true := fun h => by rw [hb x (captured_iff.1 h)] at hf; cases hf
        exact run_cons_some (by simp only [step]; rw [if_neg hc, if_pos (hv x List.mem_cons_self hf)])
      | type x =>
        have hf : far x = true := hm
        have hc : ¬ captured x bs = true := fun h => by rw [hb x (captured_iff.1 h)] at hf; cases hf
        exact run_cons_some (by simp only [step]; rw [if_neg hc, if_pos (ht x List.mem_cons_self hf)])
      | _ => cases hm
    · rw [List.filter_cons_of_pos (by rw [Bool.not_eq_true] at hm; rw [hm]; rfl)]
      cases hs : step g bs e with
      | none => rw [run_cons_none hs, run_cons_none hs]
      | some bs' =>
        rw [run_cons_some hs, run_cons_some hs]
        refine ih bs' (fun x hx => ?_) hd' hv' ht'
        rcases step_names hs x hx with h | h
        · exact hb x h
        · exact hd e List.mem_cons_self x h

/-- A name that the code mentions and never declares is used, if the compiler gets through. -/
theorem uses_of_mem {g : Outer} {x : Str} : ∀ {es : List Ev} {bs bs' : List Block}, run g bs es = some bs' →
    .use x ∈ es → x ∉ blockNames bs → (∀ e ∈ es, x ∉ e.decls) → uses g x bs es = true := by
  intro es
  induction es with
  | nil => intro bs bs' _ h; cases h
  | cons e es ih =>
    intro bs bs' hr hm hb hd
    rw [uses_cons]
    rcases List.mem_cons.1 hm with he | hm
    · have hc : captured x bs = false := by
        cases h : captured x bs with
        | false => rfl
        | true => exact absurd (captured_iff.1 h) hb
      rw [hc, decide_eq_true he.symm]
      rfl
    · rw [run_cons] at hr
      cases hs : step g bs e with
      | none => rw [hs] at hr; cases hr
      | some b1 =>
        rw [hs] at hr
        simp only
        rw [ih hr hm (fun h => (step_names hs x h).elim hb (hd e List.mem_cons_self))
          (fun e' he' => hd e' (List.mem_cons_of_mem _ he')), Bool.or_true]

/-- Repeated code that leaves the blocks as they are. -/
theorem run_flatMap_id {α : Type} {g : Outer} {bs : List Block} {f : α → List Ev} : ∀ {l : List α},
    (∀ x ∈ l, run g bs (f x) = some bs) → run g bs (l.flatMap f) = some bs := by
  intro l
  induction l with
  | nil => intro _; rfl
  | cons a l ih =>
    intro h
    rw [List.flatMap_cons, run_append_some (h a List.mem_cons_self)]
    exact ih fun x hx => h x (List.mem_cons_of_mem _ hx)

/-! ## Variables whose names are only known when the code is generated -/

/-- Using `y` here changes nothing: it is a variable used before, or a package-level name. -/
def Fine (g : Outer) (bs : List Block) (y : Str) : Prop :=
  (captured y bs = true ∧ mark y bs = bs) ∨ (captured y bs = false ∧ g.value y = true)

theorem run_fine {g : Outer} {bs : List Block} {y : Str} (h : Fine g bs y) (es : List Ev) :
    run g bs (.use y :: es) = run g bs es := by
  refine run_cons_some ?_
  simp only [step]
  rcases h with ⟨h1, h2⟩ | ⟨h1, h2⟩
  · rw [if_pos h1, h2]
  · rw [if_neg (by rw [h1]; exact Bool.false_ne_true), if_pos h2]

theorem Fine.nil {g : Outer} {bs : List Block} {y : Str} (h : Fine g bs y) : Fine g ([] :: bs) y := h.imp
  (fun ⟨h1, h2⟩ => ⟨h1, by show [] :: mark y bs = _; rw [h2]⟩) id

theorem Fine.mono {g g' : Outer} (hg : g.le g') {bs : List Block} {y : Str} (h : Fine g bs y) : Fine g' bs y :=
  h.imp id fun h => ⟨h.1, hg.1 y h.2⟩

theorem declared_names {x : Str} {b : Block} : declared x b = true ↔ x ∈ b.map (·.1) := by
  unfold declared
  simp only [List.any_eq_true, decide_eq_true_eq, List.mem_map]

theorem declared_append (x : Str) (a b : Block) : declared x (a ++ b) = (declared x a || declared x b) := List.any_append

theorem declared_map (x : Str) (u : Bool) (xs : List Str) : declared x (xs.map fun y => (y, u)) = true ↔ x ∈ xs := by
  unfold declared
  simp only [List.any_map, List.any_eq_true, Function.comp_def, decide_eq_true_eq, exists_eq_right]

/-- … and stays so when variables of other names are declared after it. -/
theorem Fine.more {g : Outer} {b : Block} {bs : List Block} {y : Str} (h : Fine g (b :: bs) y) {u : Bool} {xs : List Str}
    (hx : y ∉ xs) : Fine g ((b ++ xs.map fun x => (x, u)) :: bs) y := by
  have hd : declared y (xs.map fun x => (x, u)) = false := by
    cases hc : declared y (xs.map fun x => (x, u)) with
    | false => rfl
    | true => exact absurd ((declared_map y u xs).1 hc) hx
  have hc : captured y ((b ++ xs.map fun x => (x, u)) :: bs) = captured y (b :: bs) := by
    unfold captured
    rw [List.any_cons, List.any_cons, declared_append, hd, Bool.or_false]
  have hmk : markB y (xs.map fun x => (x, u)) = xs.map fun x => (x, u) := by
    unfold markB
    rw [List.map_map]
    refine List.map_congr_left fun x hm => ?_
    simp only [Function.comp_def]
    rw [if_neg fun (h : x = y) => hx (h ▸ hm)]
  rcases h with ⟨h1, h2⟩ | ⟨h1, h2⟩
  · refine .inl ⟨hc.trans h1, ?_⟩
    unfold mark at h2 ⊢
    rw [declared_append, hd, Bool.or_false]
    split
    · rename_i hb
      rw [if_pos hb] at h2
      injection h2 with h3 h4
      unfold markB at h3 hmk ⊢
      rw [List.map_append, h3, hmk]
    · rename_i hb
      rw [if_neg hb] at h2
      injection h2 with h3 h4
      rw [h4]
  · exact .inr ⟨hc.trans h1, h2⟩

/-- The last variable of a block is used. -/
theorem step_use_last {g : Outer} {b : Block} {bs : List Block} {x : Str} {u : Bool} (h : declared x b = false) :
    step g ((b ++ [(x, u)]) :: bs) (.use x) = some ((b ++ [(x, true)]) :: bs) := by
  have hd : declared x (b ++ [(x, u)]) = true := by rw [declared_append]; simp [declared]
  simp only [step]
  rw [if_pos (by unfold captured; rw [List.any_cons, hd, Bool.true_or])]
  unfold mark
  rw [if_pos hd]
  unfold markB
  rw [List.map_append]
  congr 3
  · refine List.map_congr_left (g := id) ?_ |>.trans (List.map_id _)
    intro e he
    refine if_neg fun hx => ?_
    rw [Bool.eq_false_iff] at h
    exact h (declared_names.2 (hx ▸ List.mem_map.2 ⟨e, he, rfl⟩))
  · simp

theorem step_use_here {g : Outer} {b : Block} {bs : List Block} {x : Str} (h : declared x b = true) :
    step g (b :: bs) (.use x) = some (markB x b :: bs) := by
  simp only [step]
  rw [if_pos (by unfold captured; rw [List.any_cons, h, Bool.true_or])]
  unfold mark
  rw [if_pos h]

theorem declared_markB (x y : Str) (b : Block) : declared y (markB x b) = declared y b := by
  unfold declared markB
  rw [List.any_map]
  congr 1
  funext e
  simp only [Function.comp_def]
  split <;> rfl

theorem step_short_one {g : Outer} {b : Block} {bs : List Block} {x : Str} (h : declared x b = false) :
    step g (b :: bs) (.short [x]) = some ((b ++ [(x, false)]) :: bs) := by
  simp [step, h]

/-- All of these variables are used. -/
theorem run_uses {g : Outer} {b : Block} {bs : List Block} {xs : List Str} (h : ∀ x ∈ xs, declared x b = true) :
    run g (b :: bs) (xs.map .use) = some ((b.map fun e => if e.1 ∈ xs then (e.1, true) else e) :: bs) := by
  induction xs generalizing b with
  | nil =>
    show some (b :: bs) = some _
    congr 2
    conv => lhs; rw [← List.map_id b]
    refine List.map_congr_left fun e _ => ?_
    rw [if_neg nofun]; rfl
  | cons x xs ih =>
    have hx := h x List.mem_cons_self
    have hs : step g (b :: bs) (.use x) = some (markB x b :: bs) := by
      simp only [step]
      rw [if_pos (by unfold captured; rw [List.any_cons, hx, Bool.true_or])]
      unfold mark
      rw [if_pos hx]
    rw [List.map_cons, run_cons_some hs, ih]
    · congr 2
      unfold markB
      rw [List.map_map]
      refine List.map_congr_left fun e _ => ?_
      simp only [Function.comp_def, List.mem_cons]
      by_cases he : e.1 = x
      · simp only [if_pos he, if_pos (Or.inl (b := e.1 ∈ xs) he)]
        split <;> rfl
      · simp only [he, false_or, if_false]
    · intro y hy
      have := h y (List.mem_cons_of_mem _ hy)
      unfold declared markB at *
      rw [List.any_map]
      rw [List.any_eq_true] at this ⊢
      obtain ⟨e, he, hd⟩ := this
      refine ⟨e, he, ?_⟩
      simp only [Function.comp_def]
      split <;> exact hd

/-- Code that declares variables `f a`, each with code around it that changes nothing. -/
theorem run_vars {α : Type} {g : Outer} {b : Block} {bs : List Block} {f : α → Str} {F : α → List Ev} :
    ∀ {l : List α} {ys : List Str},
    (∀ a ∈ l, ∀ zs, (∀ z ∈ zs, z ∈ ys ∨ ∃ a ∈ l, z = f a) → f a ∉ zs → declared (f a) b = false →
      run g ((b ++ zs.map fun x => (x, false)) :: bs) (F a) =
        some ((b ++ (zs ++ [f a]).map fun x => (x, false)) :: bs)) →
    (∀ a ∈ l, declared (f a) b = false) → (ys ++ l.map f).Nodup →
    run g ((b ++ ys.map fun x => (x, false)) :: bs) (l.flatMap F) =
      some ((b ++ (ys ++ l.map f).map fun x => (x, false)) :: bs) := by
  intro l
  induction l with
  | nil => intro ys _ _ _; rw [List.map_nil, List.append_nil]; rfl
  | cons a l ih =>
    intro ys h hb hn
    have hna : f a ∉ ys := fun hm => by
      rw [List.nodup_append] at hn
      exact hn.2.2 _ hm _ List.mem_cons_self rfl
    rw [List.flatMap_cons, run_append_some (h a List.mem_cons_self ys (fun z hz => .inl hz) hna (hb a List.mem_cons_self)), ih]
    · rw [List.map_cons, List.append_assoc]; rfl
    · intro a' ha' zs hz
      refine h a' (List.mem_cons_of_mem _ ha') zs fun z hm => ?_
      rcases hz z hm with h1 | ⟨a2, h2, h3⟩
      · rcases List.mem_append.1 h1 with h1 | h1
        · exact .inl h1
        · exact .inr ⟨a, List.mem_cons_self, List.mem_singleton.1 h1⟩
      · exact .inr ⟨a2, List.mem_cons_of_mem _ h2, h3⟩
    · exact fun a' ha' => hb a' (List.mem_cons_of_mem _ ha')
    · rw [List.append_assoc]; exact hn

/-- The variables that code declares in its outermost block: by `var`, or by `:=` with one name on its left that is not among
the known variables `k`. `d` blocks are open. -/
def tops (k : List Str) : Nat → List Ev → List Str
  | _, [] => []
  | d, .opn :: es => tops k (d + 1) es
  | 0, .cls :: _ => []
  | d + 1, .cls :: es => tops k d es
  | 0, .var x :: es => x :: tops k 0 es
  | 0, .short xs :: es =>
    match xs.filter fun x => x ∉ k with
    | [x] => x :: tops k 0 es
    | _ => tops k 0 es
  | d, _ :: es => tops k d es

theorem mark_split (x : Str) : ∀ (inner : List Block) (c : Block) (bs : List Block), ∃ inner' c' bs',
    mark x (inner ++ c :: bs) = inner' ++ c' :: bs' ∧ inner'.length = inner.length ∧ c'.map (·.1) = c.map (·.1) := by
  intro inner
  have hmk : ∀ b : Block, (markB x b).map (·.1) = b.map (·.1) := by
    intro b
    unfold markB
    rw [List.map_map]
    refine List.map_congr_left fun e _ => ?_
    simp only [Function.comp_def]
    split <;> rfl
  induction inner with
  | nil =>
    intro c bs
    unfold mark
    rw [List.nil_append]
    simp only
    split
    · exact ⟨[], markB x c, bs, rfl, rfl, hmk c⟩
    · exact ⟨[], c, mark x bs, rfl, rfl, rfl⟩
  | cons b inner ih =>
    intro c bs
    rw [List.cons_append]
    unfold mark
    split
    · exact ⟨markB x b :: inner, c, bs, rfl, rfl, rfl⟩
    · obtain ⟨i, c', bs', h1, h2, h3⟩ := ih c bs
      exact ⟨b :: i, c', bs', by rw [h1]; rfl, by simp [h2], h3⟩

/-- A step that does not leave the block: its variables stay, and a new one was not there. -/
theorem step_split {g : Outer} {inner : List Block} {c : Block} {bs r : List Block} {e : Ev}
    (h : step g (inner ++ c :: bs) e = some r) :
    (e = .cls ∧ inner = []) ∨ ∃ inner' c' bs', r = inner' ++ c' :: bs' ∧ (∀ x, declared x c = true → declared x c' = true) ∧
      (e = .opn → inner'.length = inner.length + 1) ∧ (e = .cls → inner'.length + 1 = inner.length) ∧
      (e ≠ .opn → e ≠ .cls → inner'.length = inner.length) ∧
      ∀ x, inner = [] → (e = .var x ∨ ∃ xs, e = .short xs ∧ x ∈ xs ∧ ∀ y ∈ xs, y = x ∨ declared y c = true) →
        declared x c = false ∧ declared x c' = true := by
  have hgrow : ∀ (c : Block) (xs : List Str) (u : Bool) (x : Str), declared x c = true →
      declared x (c ++ xs.map fun y => (y, u)) = true := by
    intro c xs u x hx
    rw [declared_append, hx, Bool.true_or]
  cases e with
  | opn =>
    cases h
    exact .inr ⟨[] :: inner, c, bs, rfl, fun _ h => h, fun _ => rfl, nofun, fun h => absurd rfl h, nofun⟩
  | cls =>
    cases inner with
    | nil => exact .inl ⟨rfl, rfl⟩
    | cons b inner =>
      simp only [step, List.cons_append] at h
      split at h
      · cases h
        exact .inr ⟨inner, c, bs, rfl, fun _ h => h, nofun, fun _ => rfl, fun _ h => absurd rfl h, nofun⟩
      · cases h
  | param x =>
    right
    cases inner with
    | nil =>
      simp only [step, List.nil_append] at h
      split at h
      · cases h
      · cases h
        exact ⟨[], _, bs, rfl, hgrow c [x] true, nofun, nofun, fun _ _ => rfl, fun _ _ h => h.elim nofun fun ⟨_, h, _⟩ => nomatch h⟩
    | cons b inner =>
      simp only [step, List.cons_append] at h
      split at h
      · cases h
      · cases h
        exact ⟨_ :: inner, c, bs, rfl, fun _ h => h, nofun, nofun, fun _ _ => rfl, nofun⟩
  | var x =>
    right
    cases inner with
    | nil =>
      simp only [step, List.nil_append] at h
      split at h
      · cases h
      · rename_i hd
        cases h
        refine ⟨[], _, bs, rfl, hgrow c [x] false, nofun, nofun, fun _ _ => rfl, ?_⟩
        rintro y _ (hy | ⟨_, hy, _⟩)
        · cases hy
          exact ⟨Bool.eq_false_iff.2 hd, by rw [declared_append]; simp [declared]⟩
        · cases hy
    | cons b inner =>
      simp only [step, List.cons_append] at h
      split at h
      · cases h
      · cases h
        exact ⟨_ :: inner, c, bs, rfl, fun _ h => h, nofun, nofun, fun _ _ => rfl, nofun⟩
  | short xs =>
    right
    cases inner with
    | nil =>
      simp only [step, List.nil_append] at h
      split at h
      · cases h
      · rename_i hd
        cases h
        refine ⟨[], _, bs, rfl, hgrow c _ false, nofun, nofun, fun _ _ => rfl, ?_⟩
        rintro y _ (hy | ⟨ys, hy, hm, hall⟩)
        · cases hy
        · cases hy
          have hf : declared y c = false := by
            cases hc : declared y c with
            | false => rfl
            | true =>
              refine absurd (.inl (List.filter_eq_nil_iff.2 fun z hz => ?_)) hd
              rcases hall z hz with rfl | h
              · simp [hc]
              · simp [h]
          refine ⟨hf, ?_⟩
          rw [declared_append, (declared_map y false _).2, Bool.or_true]
          exact List.mem_filter.2 ⟨hm, by simp [hf]⟩
    | cons b inner =>
      simp only [step, List.cons_append] at h
      split at h
      · cases h
      · cases h
        exact ⟨_ :: inner, c, bs, rfl, fun _ h => h, nofun, nofun, fun _ _ => rfl, nofun⟩
  | assign x =>
    right
    simp only [step] at h
    split at h
    · cases h
      exact ⟨inner, c, bs, rfl, fun _ h => h, nofun, nofun, fun _ _ => rfl, fun _ _ h => h.elim nofun fun ⟨_, h, _⟩ => nomatch h⟩
    · cases h
  | use x =>
    right
    simp only [step] at h
    split at h
    · cases h
      obtain ⟨i, c', bs', h1, h2, h3⟩ := mark_split x inner c bs
      exact ⟨i, c', bs', h1, fun y hy => declared_names.2 (h3 ▸ declared_names.1 hy), nofun, nofun, fun _ _ => h2,
        fun _ _ h => h.elim nofun fun ⟨_, h, _⟩ => nomatch h⟩
    · split at h
      · cases h
        exact ⟨inner, c, bs, rfl, fun _ h => h, nofun, nofun, fun _ _ => rfl, fun _ _ h => h.elim nofun fun ⟨_, h, _⟩ => nomatch h⟩
      · cases h
  | type x =>
    right
    simp only [step] at h
    split at h
    · cases h
    · split at h
      · cases h
        exact ⟨inner, c, bs, rfl, fun _ h => h, nofun, nofun, fun _ _ => rfl, fun _ _ h => h.elim nofun fun ⟨_, h, _⟩ => nomatch h⟩
      · cases h

/-- Code the compiler accepts declares no name twice in its outermost block. -/
theorem run_tops {g : Outer} {k : List Str} : ∀ {es : List Ev} {inner : List Block} {c : Block} {bs r : List Block},
    (∀ x ∈ k, declared x c = true) → run g (inner ++ c :: bs) es = some r →
    (tops k inner.length es).Nodup ∧ ∀ x ∈ tops k inner.length es, declared x c = false := by
  intro es
  induction es with
  | nil => intro inner c bs r _ _; unfold tops; exact ⟨List.nodup_nil, nofun⟩
  | cons e es ih =>
    intro inner c bs r hk h
    rw [run_cons] at h
    cases hs : step g (inner ++ c :: bs) e with
    | none => rw [hs] at h; cases h
    | some r1 =>
      rw [hs] at h
      simp only at h
      rcases step_split hs with ⟨rfl, rfl⟩ | ⟨i, c', bs', rfl, hgrow, hopn, hcls, hstay, hnew⟩
      · exact ⟨List.nodup_nil, nofun⟩
      · have hr := ih (fun x hx => hgrow x (hk x hx)) h
        have hback : ∀ x ∈ tops k i.length es, declared x c = false := fun x hx => by
          cases hc : declared x c with
          | false => rfl
          | true => exact absurd (hgrow x hc) (by rw [hr.2 x hx]; exact Bool.false_ne_true)
        have hsame : tops k inner.length (e :: es) = tops k i.length es →
            (tops k inner.length (e :: es)).Nodup ∧ ∀ x ∈ tops k inner.length (e :: es), declared x c = false := fun he => by
          rw [he]; exact ⟨hr.1, hback⟩
        have hadd : ∀ x, (e = .var x ∨ ∃ xs, e = .short xs ∧ x ∈ xs ∧ ∀ y ∈ xs, y = x ∨ declared y c = true) → inner = [] → tops k inner.length (e :: es) = x :: tops k i.length es →
            (tops k inner.length (e :: es)).Nodup ∧ ∀ x ∈ tops k inner.length (e :: es), declared x c = false := by
          intro x he hi ht
          rw [ht]
          obtain ⟨h1, h2⟩ := hnew x hi he
          refine ⟨List.nodup_cons.2 ⟨fun hm => ?_, hr.1⟩, fun y hy => ?_⟩
          · rw [hr.2 x hm] at h2; cases h2
          · rcases List.mem_cons.1 hy with rfl | hy
            · exact h1
            · exact hback y hy
        cases e with
        | opn => refine hsame ?_; rw [hopn rfl]; cases inner <;> rfl
        | cls =>
          refine hsame ?_
          rw [← hcls rfl]; rfl
        | param x => refine hsame ?_; rw [hstay nofun nofun]; cases inner <;> rfl
        | assign x => refine hsame ?_; rw [hstay nofun nofun]; cases inner <;> rfl
        | use x => refine hsame ?_; rw [hstay nofun nofun]; cases inner <;> rfl
        | type x => refine hsame ?_; rw [hstay nofun nofun]; cases inner <;> rfl
        | var x =>
          cases inner with
          | nil => refine hadd x (.inl rfl) rfl ?_; rw [hstay nofun nofun]; rfl
          | cons b inner => refine hsame ?_; rw [hstay nofun nofun]; rfl
        | short xs =>
          cases inner with
          | nil =>
            have ht : tops k 0 (.short xs :: es) = match xs.filter fun x => x ∉ k with
              | [x] => x :: tops k 0 es
              | _ => tops k 0 es := rfl
            rw [List.length_nil] at hsame hadd ⊢
            rw [hstay nofun nofun, List.length_nil] at hsame hadd
            match hf : xs.filter fun x => x ∉ k with
            | [] => refine hsame ?_; rw [ht, hf]
            | [x] =>
              refine hadd x (.inr ⟨xs, rfl, ?_, ?_⟩) rfl ?_
              · exact (List.mem_filter.1 (hf ▸ List.mem_singleton_self x)).1
              · intro y hy
                by_cases hyk : y ∈ k
                · exact .inr (hk y hyk)
                · have : y ∈ xs.filter fun x => x ∉ k := List.mem_filter.2 ⟨hy, by simp [hyk]⟩
                  rw [hf] at this
                  exact .inl (List.mem_singleton.1 this)
              · rw [ht, hf]
            | _ :: _ :: _ => refine hsame ?_; rw [ht, hf]
          | cons b inner =>
            refine hsame ?_
            rw [hstay nofun nofun]
            rfl

/-! ## Leaving out package-level names that no variable hides -/

/-- `es'` is `es` without some mentions of declared package-level names that are `far` from all variables. -/
inductive Erases (g : Outer) (far : Str → Bool) : List Ev → List Ev → Prop where
  | nil : Erases g far [] []
  | type {y : Str} {es es' : List Ev} : far y = true → g.type y = true → Erases g far es es' → Erases g far (.type y :: es) es'
  | use {y : Str} {es es' : List Ev} : far y = true → g.value y = true → Erases g far es es' → Erases g far (.use y :: es) es'
  | keep {e : Ev} {es es' : List Ev} : (e.decls.all fun x => !far x) = true → Erases g far es es' →
      Erases g far (e :: es) (e :: es')

theorem Erases.append {g : Outer} {far : Str → Bool} {a a' b b' : List Ev} (ha : Erases g far a a')
    (hb : Erases g far b b') : Erases g far (a ++ b) (a' ++ b') := by
  induction ha with
  | nil => exact hb
  | type h1 h2 _ ih => exact .type h1 h2 ih
  | use h1 h2 _ ih => exact .use h1 h2 ih
  | keep h1 _ ih => exact .keep h1 ih

theorem Erases.flatMap {α : Type} {g : Outer} {far : Str → Bool} {F F' : α → List Ev} : ∀ {l : List α},
    (∀ a ∈ l, Erases g far (F a) (F' a)) → Erases g far (l.flatMap F) (l.flatMap F') := by
  intro l
  induction l with
  | nil => intro _; exact .nil
  | cons a l ih =>
    intro h
    rw [List.flatMap_cons, List.flatMap_cons]
    exact (h a List.mem_cons_self).append (ih fun x hx => h x (List.mem_cons_of_mem _ hx))

theorem Erases.run {g : Outer} {far : Str → Bool} {es es' : List Ev} (h : Erases g far es es') : ∀ {bs : List Block},
    (∀ x ∈ blockNames bs, far x = false) → Scope.run g bs es = Scope.run g bs es' := by
  induction h with
  | nil => intros; rfl
  | type h1 h2 _ ih =>
    rename_i y es es' _
    intro bs hb
    rw [run_cons_some (bs' := bs), ih hb]
    have hc : ¬ captured y bs = true := fun h => by rw [hb y (captured_iff.1 h)] at h1; cases h1
    simp only [step]
    rw [if_neg hc, if_pos h2]
  | use h1 h2 _ ih =>
    rename_i y es es' _
    intro bs hb
    rw [run_cons_some (bs' := bs), ih hb]
    have hc : ¬ captured y bs = true := fun h => by rw [hb y (captured_iff.1 h)] at h1; cases h1
    simp only [step]
    rw [if_neg hc, if_pos h2]
  | keep h1 _ ih =>
    rename_i e es es' _
    intro bs hb
    cases hs : step g bs e with
    | none => rw [run_cons_none hs, run_cons_none hs]
    | some bs' =>
      rw [run_cons_some hs, run_cons_some hs]
      refine ih fun x hx => ?_
      rcases step_names hs x hx with h | h
      · exact hb x h
      · have := List.all_eq_true.1 h1 x h
        cases hf : far x with
        | false => rfl
        | true => rw [hf] at this; cases this

/-- A function without them. -/
theorem Erases.funcOK {g : Outer} {far : Str → Bool} {es es' : List Ev} (h : Erases g far es es') :
    FuncOK g es ↔ FuncOK g es' := by
  unfold FuncOK
  rw [List.cons_append, List.cons_append, run_cons_some (bs' := [[]]) rfl, run_cons_some (bs' := [[]]) rfl,
    (h.append (.keep (e := .cls) rfl .nil)).run (bs := [[]]) fun x hx => by cases hx]

end Baron.Scope
