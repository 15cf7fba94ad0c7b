import Verif.Spec.TextTemplate

/-!
# A template that only reads what a shape lists can be executed, and its output depends on nothing else
-/

namespace Baron.TT

open Baron.Svcdef (All2)

/-! ## Checking a template against a shape -/

def Ty.field : Ty → Str → Option Ty
  | .fld n t rest, m => if n = m then some t else rest.field m
  | _, _ => none

def Ty.fields : Ty → List Str → Option Ty
  | t, [] => some t
  | t, n :: ns => match t.field n with
    | none => none
    | some u => u.fields ns

/-- May it be a condition? -/
def Ty.plain : Ty → Bool
  | .choice _ => false
  | _ => true

/-- Is it a string constant among these? -/
def constIn (ks : List Str) : Expr → Bool
  | .str s => ks.contains s
  | _ => false

/-- Shape of a function's value. -/
def ty1 (f : Str) (a : Ty) : Option Ty :=
  if f = chars% "not" then (if a.plain then some .bool else none)
  else if a = .str ∧ (f = chars% "ToLower" ∨ f = chars% "ToUpper" ∨ f = chars% "Title" ∨ f = chars% "GoName") then some .str
  else none

def ty2 (f : Str) (a b : Ty) : Option Ty :=
  if (f = chars% "and" ∨ f = chars% "or") ∧ a = .bool ∧ b = .bool then some .bool
  else if (f = chars% "eq" ∨ f = chars% "ne" ∨ f = chars% "Contains") ∧ a = .str ∧ b = .str then some .bool
  else none

/-- The elements of a list that is never empty. -/
def Ty.elem : Ty → Option Ty
  | .list true u => some u
  | _ => none

def typeOf (Γ : List (Str × Ty)) (dot : Ty) : Expr → Option Ty
  | .dot ch => dot.fields ch
  | .var x ch => match HTTP.look Γ x with
    | none => none
    | some t => t.fields ch
  | .str _ => some .str
  | .num _ => none
  | .call1 f a => match typeOf Γ dot a with
    | none => none
    | some t => ty1 f t
  | .call2 f a b => match typeOf Γ dot a with
    | none => none
    | some t => if b = .num 0 then (if f = chars% "index" then t.elem else none)
      else match typeOf Γ dot b with
        | none => none
        | some u => ty2 f t u
  | .call3 f a b c =>
    if f = chars% "eq" then match typeOf Γ dot a with
      | some .str => if typeOf Γ dot b = some .str ∧ typeOf Γ dot c = some .str then some .bool else none
      | some (.choice ks) => if constIn ks b ∧ constIn ks c then some .bool else none
      | _ => none
    else none

def bindTy (x : Option Str) (t : Ty) (Γ : List (Str × Ty)) : List (Str × Ty) :=
  match x with
  | none => Γ
  | some x => (x, t) :: Γ

/-- Does the template read only what the shapes of the variables and of the dot list? -/
def check : Tmpl → List (Str × Ty) → Ty → Bool
  | .nil, _, _ => true
  | .text _ rest, Γ, dot => check rest Γ dot
  | .action e rest, Γ, dot => typeOf Γ dot e = some .str && check rest Γ dot
  | .cond e a b rest, Γ, dot => (match typeOf Γ dot e with
    | some t => t.plain
    | none => false) && check a Γ dot && check b Γ dot && check rest Γ dot
  | .range x e body rest, Γ, dot => (match typeOf Γ dot e with
    | some (.list _ t) => check body (bindTy x t Γ) t
    | _ => false) && check rest Γ dot
  | .within x e body rest, Γ, dot => (match typeOf Γ dot e with
    | some t => t.plain && check body (bindTy x t Γ) t
    | _ => false) && check rest Γ dot

/-- The same for a text. -/
def checkSrc (src : Str) (t : Ty) : Bool :=
  match parse src with
  | none => false
  | some m => check m [([], t)] t

/-! ## Soundness -/

theorem agree_field {t u : Ty} {v w : Val} {n : Str} (h : Agree t v w) (hn : t.field n = some u) :
    ∃ a b, v.field n = some a ∧ w.field n = some b ∧ Agree u a b := by
  induction t with
  | fld m t' rest _ ih =>
    unfold Ty.field at hn
    by_cases e : m = n
    · rw [if_pos e] at hn
      cases hn
      subst e
      exact h.1
    · rw [if_neg e] at hn
      exact ih h.2 hn
  | _ => cases hn

theorem agree_fields {ch : List Str} {t u : Ty} {v w : Val} (h : Agree t v w) (hn : t.fields ch = some u) :
    ∃ a b, v.fields ch = some a ∧ w.fields ch = some b ∧ Agree u a b := by
  induction ch generalizing t v w with
  | nil => cases hn; exact ⟨v, w, rfl, rfl, h⟩
  | cons n ns ih =>
    unfold Ty.fields at hn
    cases hf : t.field n with
    | none => rw [hf] at hn; cases hn
    | some t' =>
      rw [hf] at hn
      obtain ⟨a, b, h1, h2, h3⟩ := agree_field h hf
      obtain ⟨a', b', k1, k2, k3⟩ := ih h3 hn
      refine ⟨a', b', ?_, ?_, k3⟩
      · unfold Val.fields; rw [h1]; exact k1
      · unfold Val.fields; rw [h2]; exact k2

theorem all2_nil_iff {α β : Type} {R : α → β → Prop} {l : List α} {l' : List β} (h : All2 R l l') : l.isEmpty = l'.isEmpty := by
  cases h <;> rfl

theorem field_struct {v : Val} {n : Str} {a : Val} (h : v.field n = some a) : v.truth = true := by
  cases v with
  | struct fs => rfl
  | _ => cases h

theorem agree_truth {t : Ty} {v w : Val} (ht : t.plain = true) (h : Agree t v w) : v.truth = w.truth := by
  cases t with
  | choice ks => cases ht
  | tested => exact h
  | str => obtain ⟨s, rfl, rfl⟩ := h; rfl
  | bool => obtain ⟨s, rfl, rfl⟩ := h; rfl
  | list ne t =>
    obtain ⟨l, l', rfl, rfl, -, h⟩ := h
    show (!l.isEmpty) = !l'.isEmpty
    rw [all2_nil_iff h]
  | struct => obtain ⟨⟨a, rfl⟩, b, rfl⟩ := h; rfl
  | fld n t rest =>
    obtain ⟨⟨a, b, h1, h2, -⟩, -⟩ := h
    rw [field_struct h1, field_struct h2]

/-- The variables have the shapes and agree. -/
inductive AgreeVars : List (Str × Ty) → Vars → Vars → Prop where
  | nil : AgreeVars [] [] []
  | cons {x t v w Γ vs ws} : Agree t v w → AgreeVars Γ vs ws → AgreeVars ((x, t) :: Γ) ((x, v) :: vs) ((x, w) :: ws)

theorem look_cons' {V : Type} (k : Str) (v : V) (m : List (Str × V)) (x : Str) :
    HTTP.look ((k, v) :: m) x = if k = x then some v else HTTP.look m x := by
  unfold HTTP.look
  by_cases h : k = x
  · rw [if_pos h, List.find?_cons_of_pos (by simpa using h)]; rfl
  · rw [if_neg h, List.find?_cons_of_neg (by simpa using h)]

theorem agree_look {Γ vs ws} (h : AgreeVars Γ vs ws) {x t} (hx : HTTP.look Γ x = some t) :
    ∃ a b, HTTP.look vs x = some a ∧ HTTP.look ws x = some b ∧ Agree t a b := by
  induction h with
  | nil => cases hx
  | @cons y u v w Γ vs ws h1 _ ih =>
    rw [look_cons'] at hx
    rw [look_cons', look_cons']
    by_cases e : y = x
    · rw [if_pos e] at hx ⊢
      rw [if_pos e]
      cases hx
      exact ⟨v, w, rfl, rfl, h1⟩
    · rw [if_neg e] at hx ⊢
      rw [if_neg e]
      exact ih hx

theorem fun1_agree {f : Str} {t u : Ty} {v w : Val} (h : Agree t v w) (hf : ty1 f t = some u) :
    ∃ a b, fun1 f v = some a ∧ fun1 f w = some b ∧ Agree u a b := by
  unfold ty1 at hf
  unfold fun1
  by_cases e : f = chars% "not"
  · rw [if_pos e] at hf ⊢
    rw [if_pos e]
    by_cases hp : t.plain = true
    · rw [if_pos hp] at hf
      cases hf
      exact ⟨_, _, rfl, rfl, ⟨!v.truth, rfl, by rw [agree_truth hp h]⟩⟩
    · rw [if_neg hp] at hf; cases hf
  · rw [if_neg e] at hf ⊢
    rw [if_neg e]
    by_cases k : t = .str ∧ (f = chars% "ToLower" ∨ f = chars% "ToUpper" ∨ f = chars% "Title" ∨ f = chars% "GoName")
    · rw [if_pos k] at hf
      cases hf
      obtain ⟨rfl, k⟩ := k
      obtain ⟨s, rfl, rfl⟩ := h
      simp only
      by_cases e1 : f = chars% "ToLower"
      · rw [if_pos e1]; exact ⟨_, _, rfl, rfl, _, rfl, rfl⟩
      rw [if_neg e1]
      by_cases e2 : f = chars% "ToUpper"
      · rw [if_pos e2]; exact ⟨_, _, rfl, rfl, _, rfl, rfl⟩
      rw [if_neg e2]
      by_cases e3 : f = chars% "Title"
      · rw [if_pos e3]; exact ⟨_, _, rfl, rfl, _, rfl, rfl⟩
      rw [if_neg e3]
      have e4 : f = chars% "GoName" := by
        rcases k with k | k | k | k
        · exact absurd k e1
        · exact absurd k e2
        · exact absurd k e3
        · exact k
      rw [if_pos e4]; exact ⟨_, _, rfl, rfl, _, rfl, rfl⟩
    · rw [if_neg k] at hf; cases hf

theorem fun2_agree {f : Str} {t t' u : Ty} {v w v' w' : Val} (h : Agree t v w) (h' : Agree t' v' w') (hf : ty2 f t t' = some u) :
    ∃ a b, fun2 f v v' = some a ∧ fun2 f w w' = some b ∧ Agree u a b := by
  unfold ty2 at hf
  by_cases k : (f = chars% "and" ∨ f = chars% "or") ∧ t = .bool ∧ t' = .bool
  · rw [if_pos k] at hf
    cases hf
    obtain ⟨k, rfl, rfl⟩ := k
    obtain ⟨s, rfl, rfl⟩ := h
    obtain ⟨s', rfl, rfl⟩ := h'
    unfold fun2
    rcases k with rfl | rfl
    · rw [if_pos rfl]
      cases s
      · exact ⟨_, _, rfl, rfl, _, rfl, rfl⟩
      · exact ⟨_, _, rfl, rfl, _, rfl, rfl⟩
    · rw [if_neg (by decide), if_pos rfl]
      cases s
      · exact ⟨_, _, rfl, rfl, _, rfl, rfl⟩
      · exact ⟨_, _, rfl, rfl, _, rfl, rfl⟩
  · rw [if_neg k] at hf
    by_cases k' : (f = chars% "eq" ∨ f = chars% "ne" ∨ f = chars% "Contains") ∧ t = .str ∧ t' = .str
    · rw [if_pos k'] at hf
      cases hf
      obtain ⟨k', rfl, rfl⟩ := k'
      obtain ⟨s, rfl, rfl⟩ := h
      obtain ⟨s', rfl, rfl⟩ := h'
      unfold fun2
      rcases k' with rfl | rfl | rfl
      · exact ⟨.bool (decide (s = s')), .bool (decide (s = s')), rfl, rfl, _, rfl, rfl⟩
      · exact ⟨.bool (decide (s ≠ s')), .bool (decide (s ≠ s')), rfl, rfl, _, rfl, rfl⟩
      · exact ⟨.bool (contains s s'), .bool (contains s s'), rfl, rfl, _, rfl, rfl⟩
    · rw [if_neg k'] at hf; cases hf

theorem eval_agree {Γ vs ws dot v w} (hv : AgreeVars Γ vs ws) (hd : Agree dot v w) (e : Expr) {u : Ty}
    (h : typeOf Γ dot e = some u) : ∃ a b, eval vs v e = some a ∧ eval ws w e = some b ∧ Agree u a b := by
  induction e generalizing u with
  | dot ch => exact agree_fields hd h
  | var x ch =>
    unfold typeOf at h
    cases hx : HTTP.look Γ x with
    | none => rw [hx] at h; cases h
    | some t =>
      rw [hx] at h
      obtain ⟨a, b, h1, h2, h3⟩ := agree_look hv hx
      obtain ⟨a', b', k1, k2, k3⟩ := agree_fields h3 h
      refine ⟨a', b', ?_, ?_, k3⟩
      · unfold eval; rw [h1]; exact k1
      · unfold eval; rw [h2]; exact k2
  | str s => cases h; exact ⟨_, _, rfl, rfl, s, rfl, rfl⟩
  | num n => cases h
  | call1 f a iha =>
    unfold typeOf at h
    cases ha : typeOf Γ dot a with
    | none => rw [ha] at h; cases h
    | some t =>
      rw [ha] at h
      obtain ⟨x, y, h1, h2, h3⟩ := iha ha
      obtain ⟨x', y', k1, k2, k3⟩ := fun1_agree h3 h
      refine ⟨x', y', ?_, ?_, k3⟩
      · unfold eval; rw [h1]; exact k1
      · unfold eval; rw [h2]; exact k2
  | call2 f a b iha ihb =>
    unfold typeOf at h
    cases ha : typeOf Γ dot a with
    | none => rw [ha] at h; cases h
    | some t =>
      rw [ha] at h
      simp only at h
      obtain ⟨x, y, h1, h2, h3⟩ := iha ha
      by_cases hb0 : b = .num 0
      · subst hb0
        rw [if_pos rfl] at h
        by_cases hi : f = chars% "index"
        · rw [if_pos hi] at h
          cases t with
          | list ne u' =>
            cases ne with
            | false => cases h
            | true =>
              cases h
              obtain ⟨l, l', rfl, rfl, hne, hall⟩ := h3
              cases hall with
              | nil => exact absurd rfl (hne rfl)
              | @cons p q l l' hpq _ =>
                refine ⟨p, q, ?_, ?_, hpq⟩
                · simp only [eval, h1]
                  subst hi
                  rfl
                · simp only [eval, h2]
                  subst hi
                  rfl
          | _ => cases h
        · rw [if_neg hi] at h; cases h
      · rw [if_neg hb0] at h
        cases hb : typeOf Γ dot b with
        | none => rw [hb] at h; cases h
        | some t' =>
          rw [hb] at h
          obtain ⟨x', y', k1, k2, k3⟩ := ihb hb
          obtain ⟨p, q, l1, l2, l3⟩ := fun2_agree h3 k3 h
          refine ⟨p, q, ?_, ?_, l3⟩
          · simp only [eval, h1, k1]; exact l1
          · simp only [eval, h2, k2]; exact l2
  | call3 f a b c iha ihb ihc =>
    unfold typeOf at h
    by_cases k : f = chars% "eq"
    · rw [if_pos k] at h
      subst k
      cases ha : typeOf Γ dot a with
      | none => rw [ha] at h; cases h
      | some t =>
        rw [ha] at h
        cases t with
        | str =>
          simp only at h
          by_cases k : typeOf Γ dot b = some .str ∧ typeOf Γ dot c = some .str
          · rw [if_pos k] at h
            cases h
            obtain ⟨hb, hc⟩ := k
            obtain ⟨_, _, h1, h2, s1, rfl, rfl⟩ := iha ha
            obtain ⟨_, _, k1, k2, s2, rfl, rfl⟩ := ihb hb
            obtain ⟨_, _, l1, l2, s3, rfl, rfl⟩ := ihc hc
            refine ⟨.bool (s1 = s2 || s1 = s3), .bool (s1 = s2 || s1 = s3), ?_, ?_, _, rfl, rfl⟩
            · simp only [eval, h1, k1, l1, fun3, if_true]
            · simp only [eval, h2, k2, l2, fun3, if_true]
          · rw [if_neg k] at h; cases h
        | choice ks =>
          simp only at h
          by_cases k : constIn ks b = true ∧ constIn ks c = true
          · rw [if_pos k] at h
            cases h
            obtain ⟨hb, hc⟩ := k
            obtain ⟨_, _, h1, h2, s1, s1', rfl, rfl, hk⟩ := iha ha
            cases b with
            | str s2 =>
              cases c with
              | str s3 =>
                have e2 := hk s2 (List.contains_iff_mem.mp hb)
                have e3 := hk s3 (List.contains_iff_mem.mp hc)
                refine ⟨.bool (s1 = s2 || s1 = s3), .bool (s1' = s2 || s1' = s3), ?_, ?_, (s1 = s2 || s1 = s3), rfl, ?_⟩
                · simp only [eval, h1, fun3, if_true]
                · simp only [eval, h2, fun3, if_true]
                · rw [decide_eq_decide.mpr e2, decide_eq_decide.mpr e3]
              | _ => cases hc
            | _ => cases hb
          · rw [if_neg k] at h; cases h
        | _ => cases h
    · rw [if_neg k] at h; cases h

theorem bind_agree {Γ vs ws t v w} (h : AgreeVars Γ vs ws) (ht : Agree t v w) (x : Option Str) :
    AgreeVars (bindTy x t Γ) (bind x v vs) (bind x w ws) := by
  cases x with
  | none => exact h
  | some x => exact .cons ht h

theorem each_agree {t : Ty} {f g : Val → Option Str} (h : ∀ v w, Agree t v w → ∃ o, f v = some o ∧ g w = some o)
    {l l' : List Val} (hl : All2 (Agree t) l l') : ∃ o, each f l = some o ∧ each g l' = some o := by
  induction hl with
  | nil => exact ⟨[], rfl, rfl⟩
  | cons hab _ ih =>
    obtain ⟨o, h1, h2⟩ := h _ _ hab
    obtain ⟨o', k1, k2⟩ := ih
    refine ⟨o ++ o', ?_, ?_⟩
    · simp only [each, h1, k1]
    · simp only [each, h2, k2]

/-- A template that passes the check can be executed on data of that shape, and gives the same output on data that agree. -/
theorem exec_agree (m : Tmpl) {Γ vs ws dot v w} (hc : check m Γ dot = true) (hv : AgreeVars Γ vs ws) (hd : Agree dot v w) :
    ∃ o, exec m vs v = some o ∧ exec m ws w = some o := by
  induction m generalizing Γ vs ws dot v w with
  | nil => exact ⟨[], rfl, rfl⟩
  | text s rest ih =>
    obtain ⟨o, h1, h2⟩ := ih hc hv hd
    exact ⟨s ++ o, by simp only [exec, h1], by simp only [exec, h2]⟩
  | action e rest ih =>
    simp only [check, Bool.and_eq_true, decide_eq_true_eq] at hc
    obtain ⟨o, h1, h2⟩ := ih hc.2 hv hd
    obtain ⟨_, _, k1, k2, s, rfl, rfl⟩ := eval_agree hv hd e hc.1
    exact ⟨s ++ o, by simp only [exec, h1, k1], by simp only [exec, h2, k2]⟩
  | cond e a b rest iha ihb ih =>
    simp only [check, Bool.and_eq_true] at hc
    obtain ⟨⟨⟨he, ha⟩, hb⟩, hr⟩ := hc
    cases ht : typeOf Γ dot e with
    | none => rw [ht] at he; cases he
    | some t =>
    rw [ht] at he
    obtain ⟨x, y, k1, k2, k3⟩ := eval_agree hv hd e ht
    obtain ⟨o, h1, h2⟩ := ih hr hv hd
    have htr := agree_truth he k3
    cases hx : y.truth with
    | true =>
      rw [hx] at htr
      obtain ⟨o', l1, l2⟩ := iha ha hv hd
      exact ⟨o' ++ o, by simp only [exec, k1, htr, if_true, l1, h1], by simp only [exec, k2, hx, if_true, l2, h2]⟩
    | false =>
      rw [hx] at htr
      obtain ⟨o', l1, l2⟩ := ihb hb hv hd
      exact ⟨o' ++ o, by simp only [exec, k1, htr, l1, h1]; rfl, by simp only [exec, k2, hx, l2, h2]; rfl⟩
  | range x e body rest ihb ih =>
    simp only [check, Bool.and_eq_true] at hc
    obtain ⟨hb, hr⟩ := hc
    obtain ⟨o, h1, h2⟩ := ih hr hv hd
    cases he : typeOf Γ dot e with
    | none => rw [he] at hb; cases hb
    | some t =>
      rw [he] at hb
      cases t with
      | list ne t =>
        simp only at hb
        obtain ⟨_, _, k1, k2, l, l', rfl, rfl, -, hall⟩ := eval_agree hv hd e he
        obtain ⟨o', l1, l2⟩ := each_agree (f := fun v => exec body (bind x v vs) v) (g := fun v => exec body (bind x v ws) v)
          (fun v w hvw => ihb hb (bind_agree hv hvw x) hvw) hall
        exact ⟨o' ++ o, by simp only [exec, k1, l1, h1], by simp only [exec, k2, l2, h2]⟩
      | _ => cases hb
  | within x e body rest ihb ih =>
    simp only [check, Bool.and_eq_true] at hc
    obtain ⟨hb, hr⟩ := hc
    obtain ⟨o, h1, h2⟩ := ih hr hv hd
    cases he : typeOf Γ dot e with
    | none => rw [he] at hb; cases hb
    | some t =>
      rw [he] at hb
      simp only [Bool.and_eq_true] at hb
      obtain ⟨hpl, hb⟩ := hb
      obtain ⟨p, q, k1, k2, k3⟩ := eval_agree hv hd e he
      have htr := agree_truth hpl k3
      cases hx : q.truth with
      | true =>
        rw [hx] at htr
        obtain ⟨o', l1, l2⟩ := ihb hb (bind_agree hv k3 x) k3
        exact ⟨o' ++ o, by simp only [exec, k1, htr, if_true, l1, h1], by simp only [exec, k2, hx, if_true, l2, h2]⟩
      | false =>
        rw [hx] at htr
        exact ⟨[] ++ o, by simp only [exec, k1, htr, h1]; rfl, by simp only [exec, k2, hx, h2]; rfl⟩

/-- The same for a text. -/
theorem apply_agree {src : Str} {t : Ty} (hc : checkSrc src t = true) {v w : Val} (h : Agree t v w) :
    ∃ o, apply src v = some o ∧ apply src w = some o := by
  unfold checkSrc at hc
  unfold apply
  cases hp : parse src with
  | none => rw [hp] at hc; cases hc
  | some m =>
    rw [hp] at hc
    exact exec_agree m hc (.cons h .nil) h

theorem apply_has {src : Str} {t : Ty} (hc : checkSrc src t = true) {v : Val} (h : Has t v) : ∃ o, apply src v = some o := by
  obtain ⟨o, ho, -⟩ := apply_agree hc h
  exact ⟨o, ho⟩

end Baron.TT
