import Verif.Spec.GoWrap
import Verif.Model.Runtime
import Verif.Proofs.Runtime
import Verif.Proofs.Literal

/-! # Proofs about wrapping functions (C96) -/

namespace Baron.GoWrap

open Baron.HTTP (look)
open Baron.TT (Plain literal)

variable {E : Type} {order : List Str → List Str} {mw : Middleware E}

theorem unquote_plain {s : Str} (h : Plain s) : unquote s = some s := by
  unfold unquote
  have : literal (s ++ ['"']) = some (s, []) := by
    unfold literal
    exact TT.literalGo_clean h.1 h.2.1 h.2.2 _ (by rw [List.length_append, List.length_singleton]; omega)
  rw [this]

theorem field_inj {a b : Str} (h : field a = field b) : a = b := List.append_cancel_right h

theorem mapM_unquote : ∀ {l : List Str}, (∀ n ∈ l, Plain n) → l.mapM unquote = some l := by
  intro l
  induction l with
  | nil => intro _; rfl
  | cons a l ih =>
    intro h
    rw [List.mapM_cons, unquote_plain (h a (.head _)), ih fun n hn => h n (.tail _ hn)]
    rfl

theorem keysOf_plain {l : List Str} (h : ∀ n ∈ l, Plain n) (hn : l.Nodup) : keysOf l = some l := by
  unfold keysOf
  rw [mapM_unquote h]
  exact if_pos hn

/-- The body of the first loop. -/
def excludeBody : Code :=
  .ifMissing (chars% "\n\t\t") (chars% "included") (chars% "ex") (.panic (chars% "\n\t\t\t") message (chars% "ex") (.done (chars% "\n\t\t"))) <|
  .delete (chars% "\n\t\t") (chars% "included") (chars% "ex") (.done (chars% "\n\t"))

theorem message_plain : Plain message := by unfold Plain; decide

theorem exclude_loop (fs : Str → Option E) (v : GV) : ∀ (exs l : List Str),
    loop (chars% "ex") (excludeBody.exec order mw) exs ⟨fs, [(chars% "included", .keys l), (chars% "excluded", v)]⟩ =
    match Runtime.exclude l exs with
    | .ok l' => .ok ⟨fs, [(chars% "included", .keys l'), (chars% "excluded", v)]⟩
    | .error x => .error (.panic message x fs) := by
  intro exs
  induction exs with
  | nil => intro l; rfl
  | cons x r ih =>
    intro l
    have h1 : ∀ l : List Str, State.keys (E := E) ⟨fs, [(chars% "ex", .str x), (chars% "included", .keys l), (chars% "excluded", v)]⟩
        (chars% "included") = some l := fun _ => rfl
    have h2 : ∀ l : List Str, State.str (E := E) ⟨fs, [(chars% "ex", .str x), (chars% "included", .keys l), (chars% "excluded", v)]⟩
        (chars% "ex") = some x := fun _ => rfl
    rw [loop]
    by_cases hx : x ∈ l
    · have : excludeBody.exec order mw ⟨fs, [(chars% "ex", .str x), (chars% "included", .keys l), (chars% "excluded", v)]⟩ =
          .ok ⟨fs, [(chars% "ex", .str x), (chars% "included", .keys (l.filter (· ≠ x))), (chars% "excluded", v)]⟩ := by
        simp only [excludeBody, Code.exec, h1, h2, if_pos hx]
        rfl
      rw [this]
      show loop _ _ r ⟨fs, [(chars% "included", .keys (l.filter (· ≠ x))), (chars% "excluded", v)]⟩ = _
      rw [ih, Runtime.exclude, if_pos hx]
    · have : excludeBody.exec order mw ⟨fs, [(chars% "ex", .str x), (chars% "included", .keys l), (chars% "excluded", v)]⟩ =
          .error (.panic message x fs) := by
        simp only [excludeBody, Code.exec, h1, h2, if_neg hx, unquote_plain message_plain]
      rw [this, Runtime.exclude, if_neg hx]

/-- What the middleware does with the endpoint of an rpc. -/
def OneOK (order : List Str → List Str) (mw : Middleware E) (one : Str → Code) (f : Str → E → E) (names : List Str) : Prop :=
  ∀ n ∈ names, ∀ st e, st.fields (field n) = some e → (one n).exec order mw st = .ok (st.setField (field n) (f n e))

theorem chain_exec {one : Str → Code} {f : Str → E → E} {vars : List (Str × GV)} {k : Str} (hk : look vars (chars% "inc") = some (.str k)) :
    ∀ (names : List Str), OneOK order mw one f names → (∀ n ∈ names, Plain n) → names.Nodup → ∀ (fs : Str → Option E),
      (∀ n ∈ names, fs (field n) ≠ none) →
      (chain one names).exec order mw ⟨fs, vars⟩ =
        .ok ⟨fun g => if k ∈ names ∧ g = field k then (fs g).map (f k) else fs g, vars⟩ := by
  intro names
  induction names with
  | nil =>
    intro _ _ _ fs _
    show Except.ok _ = _
    simp
  | cons n ns ih =>
    intro h1 h2 h3 fs h4
    have hs : ∀ fs : Str → Option E, State.str (E := E) ⟨fs, vars⟩ (chars% "inc") = some k := fun fs => by
      unfold State.str
      rw [hk]
    rw [List.nodup_cons] at h3
    have ih := ih (fun m hm => h1 m (.tail _ hm)) (fun m hm => h2 m (.tail _ hm)) h3.2
    rw [chain, Code.exec, hs, unquote_plain (h2 n (.head _))]
    simp only
    by_cases hkn : k = n
    · subst hkn
      rw [if_pos rfl]
      obtain ⟨e, he⟩ := Option.ne_none_iff_exists'.mp (h4 k (.head _))
      rw [h1 k (.head _) ⟨fs, vars⟩ e he]
      show (chain one ns).exec order mw ⟨fun g => if g = field k then some (f k e) else fs g, vars⟩ = _
      rw [ih]
      · refine congrArg Except.ok (congrArg (fun x => State.mk x vars) (funext fun g => ?_))
        rw [if_neg (fun h => h3.1 h.1)]
        by_cases hg : g = field k
        · subst hg
          rw [if_pos rfl, if_pos ⟨.head _, rfl⟩, he]
          rfl
        · rw [if_neg hg, if_neg (fun h => hg h.2)]
      · intro m hm
        by_cases hg : field m = field k
        · rw [if_pos hg]; nofun
        · rw [if_neg hg]; exact h4 m (.tail _ hm)
    · rw [if_neg hkn, ih fs fun m hm => h4 m (.tail _ hm)]
      refine congrArg Except.ok (congrArg (fun x => State.mk x vars) (funext fun g => ?_))
      have : (k ∈ n :: ns ∧ g = field k) ↔ (k ∈ ns ∧ g = field k) := by
        simp only [List.mem_cons, hkn, false_or]
      simp only [this]

theorem keys_loop {one : Str → Code} {f : Str → E → E} {names : List Str} (h1 : OneOK order mw one f names) (h2 : ∀ n ∈ names, Plain n)
    (h3 : names.Nodup) (vars : List (Str × GV)) : ∀ (ks : List Str), ks.Nodup → (∀ k ∈ ks, k ∈ names) → ∀ (fs : Str → Option E),
    (∀ n ∈ names, fs (field n) ≠ none) →
    ∃ fs', loop (chars% "inc") ((chain one names).exec order mw) ks ⟨fs, vars⟩ = .ok ⟨fs', vars⟩ ∧
      (∀ k ∈ ks, fs' (field k) = (fs (field k)).map (f k)) ∧ ∀ g, (∀ k ∈ ks, g ≠ field k) → fs' g = fs g := by
  intro ks
  induction ks with
  | nil => intro _ _ fs _; exact ⟨fs, rfl, fun k hk => absurd hk List.not_mem_nil, fun _ _ => rfl⟩
  | cons k ks ih =>
    intro h4 h5 fs h6
    rw [List.nodup_cons] at h4
    have hk := chain_exec (order := order) (mw := mw) (f := f) (vars := (chars% "inc", .str k) :: vars) (k := k)
      (by rw [HTTP.look_cons, if_pos rfl]) names h1 h2 h3 fs h6
    rw [loop]
    rw [hk]
    have hkn := h5 k (.head _)
    obtain ⟨fs', h7, h8, h9⟩ := ih h4.2 (fun x hx => h5 x (.tail _ hx))
      (fun g => if k ∈ names ∧ g = field k then (fs g).map (f k) else fs g) (by
        intro n hn
        by_cases hg : k ∈ names ∧ field n = field k
        · rw [if_pos hg]
          obtain ⟨e, he⟩ := Option.ne_none_iff_exists'.mp (h6 n hn)
          rw [he]
          nofun
        · rw [if_neg hg]; exact h6 n hn)
    refine ⟨fs', h7, ?_, ?_⟩
    · intro x hx
      rcases List.mem_cons.mp hx with rfl | hx
      · rw [h9 (field x) (fun y hy e => h4.1 (field_inj e ▸ hy)), if_pos ⟨hkn, rfl⟩]
      · rw [h8 x hx, if_neg (c := k ∈ names ∧ field x = field k) (fun h => h4.1 ((field_inj h.2) ▸ hx))]
    · intro g hg
      rw [h9 g (fun y hy => hg y (.tail _ hy)), if_neg (c := k ∈ names ∧ g = field k) (fun h => hg k (.head _) h.2)]

/-- Both functions, for proper exclusions. -/
theorem call_proper {one : Str → Code} {f : Str → E → E} {names excluded : List Str} {fn : Func} (hb : fn.body = wrapping names one)
    (ho : ∀ l, (order l).Perm l) (h1 : OneOK order mw one f names) (h2 : ∀ n ∈ names, Plain n) (h3 : names.Nodup)
    (fs : Str → Option E) (h4 : ∀ n ∈ names, fs (field n) ≠ none) (he : Proper names excluded) :
    ∃ fs', fn.call order mw excluded fs = some (fs', none) ∧ WrappedBy f names excluded fs fs' := by
  have hx := exclude_loop (order := order) (mw := mw) fs (.strs excluded) excluded names
  rw [Runtime.exclude_ok _ _ he.1 he.2] at hx
  obtain ⟨fs', h5, h6, h7⟩ := keys_loop h1 h2 h3 [(chars% "included", .keys (names.filter (· ∉ excluded))), (chars% "excluded", .strs excluded)]
    (order (names.filter (· ∉ excluded))) ((ho _).nodup_iff.mpr (h3.sublist List.filter_sublist))
    (fun k hk => (List.mem_filter.mp ((ho _).mem_iff.mp hk)).1) fs h4
  have hm : ∀ n, n ∈ order (names.filter (· ∉ excluded)) ↔ n ∈ names ∧ n ∉ excluded := fun n => by
    rw [(ho _).mem_iff, List.mem_filter]
    simp
  refine ⟨fs', ?_, fun n hn hne => h6 n ((hm n).mpr ⟨hn, hne⟩), fun g hg => h7 g fun k hk => hg k ((hm k).mp hk).1 ((hm k).mp hk).2⟩
  unfold Func.call
  rw [hb, wrapping, Code.exec, keysOf_plain h2 h3]
  simp only
  rw [Code.exec]
  have hl : look [(chars% "included", GV.keys names), (chars% "excluded", .strs excluded)] (chars% "excluded") = some (.strs excluded) := rfl
  simp only [hl]
  have hx : loop (chars% "ex") (excludeBody.exec order mw) excluded ⟨fs, [(chars% "included", .keys names), (chars% "excluded", .strs excluded)]⟩ = _ := hx
  unfold excludeBody at hx
  simp only [hx]
  rw [Code.exec]
  have hk : State.keys (E := E) ⟨fs, [(chars% "included", .keys (names.filter (· ∉ excluded))), (chars% "excluded", .strs excluded)]⟩ (chars% "included") =
    some (names.filter (· ∉ excluded)) := rfl
  simp only [hk, h5]
  rfl

/-- Both functions, for other exclusions. -/
theorem call_improper {one : Str → Code} {names excluded : List Str} {fn : Func} (hb : fn.body = wrapping names one)
    (h2 : ∀ n ∈ names, Plain n) (h3 : names.Nodup) (fs : Str → Option E) (he : ¬ Proper names excluded) :
    ∃ pre x post, excluded = pre ++ x :: post ∧ (x ∉ names ∨ x ∈ pre) ∧ Proper names pre ∧
      fn.call order mw excluded fs = some (fs, some (message, x)) := by
  obtain ⟨pre, x, post, e1, e2, e3, e4⟩ := Runtime.exclude_bad excluded names he
  refine ⟨pre, x, post, e1, e2, e3, ?_⟩
  have hx := exclude_loop (order := order) (mw := mw) fs (.strs excluded) excluded names
  rw [e4] at hx
  unfold Func.call
  rw [hb, wrapping, Code.exec, keysOf_plain h2 h3]
  simp only
  rw [Code.exec]
  have hl : look [(chars% "included", GV.keys names), (chars% "excluded", .strs excluded)] (chars% "excluded") = some (.strs excluded) := rfl
  simp only [hl]
  unfold excludeBody at hx
  simp only [hx]

end Baron.GoWrap
