import Verif.Model.Cli
import Verif.Spec.Paths
import Verif.Proofs.HTTPNames
import Verif.Proofs.Runtime

/-!
# Paths: the functions of path/filepath in terms of places
-/

namespace Baron.Cli

open Baron.Gen Baron.Start Baron.HTTP

theorem go_wf {p : Place} {seg : Str} (h : p.WF) (hs : '/' ∉ seg) : (go p seg).WF := by
  unfold go
  split
  · exact h
  · rename_i h1
    split
    · exact fun n hn => h n ((List.dropLast_sublist p).subset hn)
    · rename_i h2
      intro n hn
      rcases List.mem_append.mp hn with hn | hn
      · exact h n hn
      · rw [List.mem_singleton] at hn
        subst hn
        exact ⟨fun e => h1 (.inl e), fun e => h1 (.inr e), h2, hs⟩

theorem foldl_go_wf {segs : List Str} : ∀ {p : Place}, p.WF → (∀ s ∈ segs, '/' ∉ s) → (segs.foldl go p).WF := by
  induction segs with
  | nil => intro p h _; exact h
  | cons a l ih => intro p h hs; exact ih (go_wf h (hs a List.mem_cons_self)) fun s h => hs s (List.mem_cons_of_mem _ h)

theorem walk_wf {p : Place} (h : p.WF) (path : Str) : (walk p path).WF := foldl_go_wf h (split_mem '/' path)

theorem resolve_wf {cwd : Place} (h : cwd.WF) (path : Str) : (resolve cwd path).WF := by
  unfold resolve
  split
  · exact walk_wf (fun n hn => by cases hn) path
  · exact walk_wf h path

theorem cleanStep_go {st : List Str} (h : Place.WF st.reverse) (seg : Str) :
    (cleanStep true st seg).reverse = go st.reverse seg := by
  unfold cleanStep go
  rw [show ".".toList = ['.'] from rfl, show "..".toList = ['.', '.'] from rfl]
  by_cases h1 : seg = [] ∨ seg = ['.']
  · rw [if_pos h1, if_pos h1]
  · rw [if_neg h1, if_neg h1]
    by_cases h2 : seg = ['.', '.']
    · rw [if_pos h2, if_pos h2]
      cases st with
      | nil => rfl
      | cons t r =>
        have : t ≠ ['.', '.'] := (h t (by simp)).2.2.1
        simp only [if_neg this, List.reverse_cons, List.dropLast_concat]
    · rw [if_neg h2, if_neg h2, List.reverse_cons]

theorem cleanFold_go (segs : List Str) : ∀ {st : List Str}, Place.WF st.reverse → (∀ s ∈ segs, '/' ∉ s) →
    (segs.foldl (cleanStep true) st).reverse = segs.foldl go st.reverse := by
  induction segs with
  | nil => intro st _ _; rfl
  | cons a l ih =>
    intro st h hs
    have e := cleanStep_go h a
    have := ih (st := cleanStep true st a) (by rw [e]; exact go_wf h (hs a List.mem_cons_self))
      (fun s h => hs s (List.mem_cons_of_mem _ h))
    rw [List.foldl_cons, this, e, List.foldl_cons]

theorem clean_rooted {s : Str} (h : s.head? = some '/') : clean s = (walk [] s).text := by
  have := cleanFold_go (split '/' s) (st := []) (fun n hn => by cases hn) (split_mem '/' s)
  unfold clean Place.text walk
  simp only [h, decide_true, if_true]
  rw [this]
  rfl

theorem walk_append (p : Place) (a b : Str) : walk p (a ++ '/' :: b) = walk (walk p a) b := by
  unfold walk
  rw [split_append, List.foldl_append]

theorem walk_nil (p : Place) : walk p [] = p := by
  unfold walk
  rfl

theorem walk_cons_slash (p : Place) (b : Str) : walk p ('/' :: b) = walk p b := by
  have := walk_append p [] b
  rw [walk_nil] at this
  exact this

theorem walk_name {p : Place} {n : Str} (h : IsName n) : walk p n = p ++ [n] := by
  unfold walk
  rw [split_none _ _ h.2.2.2]
  show go p n = _
  unfold go
  rw [if_neg (fun e => e.elim h.1 h.2.1), if_neg h.2.2.1]

theorem walk_join {q : Place} (h : q.WF) : ∀ p : Place, walk p (join '/' q) = p ++ q := by
  induction q with
  | nil => intro p; rw [List.append_nil]; exact walk_nil p
  | cons a l ih =>
    intro p
    have ha := h a List.mem_cons_self
    have hl : Place.WF l := fun n hn => h n (List.mem_cons_of_mem _ hn)
    cases l with
    | nil => exact walk_name ha
    | cons b l =>
      show walk p (a ++ '/' :: join '/' (b :: l)) = _
      rw [walk_append, walk_name ha, ih hl, List.append_assoc]
      rfl

theorem walk_text {q : Place} (h : q.WF) (p : Place) : walk p q.text = p ++ q := by
  unfold Place.text
  rw [walk_cons_slash, walk_join h]

theorem text_inj {p q : Place} (hp : p.WF) (hq : q.WF) (h : p.text = q.text) : p = q := by
  have := walk_text hp []
  rw [h, walk_text hq] at this
  exact this.symm

theorem head_text (p : Place) (b : Str) : (p.text ++ b).head? = some '/' := rfl

theorem clean_text_join {p : Place} (h : p.WF) (b : Str) : clean (p.text ++ '/' :: b) = (walk p b).text := by
  rw [clean_rooted (head_text p _), walk_append, walk_text h, List.nil_append]

theorem joinPath_text {p : Place} (h : p.WF) (b : Str) : joinPath p.text b = (walk p b).text := by
  unfold joinPath
  rw [if_neg (by unfold Place.text; intro e; cases e), clean_text_join h]

theorem abs_text {cwd : Place} (h : cwd.WF) (p : Str) : abs cwd.text p = (resolve cwd p).text := by
  unfold abs resolve
  split
  · rename_i hr
    exact clean_rooted hr
  · exact clean_text_join h p

theorem clean_text {p : Place} (h : p.WF) : clean p.text = p.text := by
  have := clean_rooted (s := p.text) rfl
  rw [walk_text h, List.nil_append] at this
  exact this

theorem takeWhile_all {α : Type} {f : α → Bool} {l : List α} (h : ∀ x ∈ l, f x = true) : l.takeWhile f = l := by
  induction l with
  | nil => rfl
  | cons a l ih => rw [List.takeWhile_cons, if_pos (h a List.mem_cons_self), ih fun x hx => h x (List.mem_cons_of_mem _ hx)]

theorem dropWhile_all {α : Type} {f : α → Bool} {l : List α} (h : ∀ x ∈ l, f x = true) : l.dropWhile f = [] := by
  induction l with
  | nil => rfl
  | cons a l ih => rw [List.dropWhile_cons, if_pos (h a List.mem_cons_self), ih fun x hx => h x (List.mem_cons_of_mem _ hx)]

theorem lastPart_append {a b : Str} (hb : '/' ∉ b) : lastPart (a ++ '/' :: b) = b := by
  unfold lastPart
  have : ∀ x ∈ b.reverse, decide (x ≠ '/') = true := fun x hx => by
    simp only [decide_eq_true_eq]; rintro rfl; exact hb (List.mem_reverse.mp hx)
  rw [List.reverse_append, List.reverse_cons, List.append_assoc, List.takeWhile_append_of_pos this]
  simp

theorem dirPart_append {a b : Str} (hb : '/' ∉ b) : dirPart (a ++ '/' :: b) = a ++ ['/'] := by
  unfold dirPart
  have : ∀ x ∈ b.reverse, decide (x ≠ '/') = true := fun x hx => by
    simp only [decide_eq_true_eq]; rintro rfl; exact hb (List.mem_reverse.mp hx)
  rw [List.reverse_append, List.reverse_cons, List.append_assoc, List.dropWhile_append_of_pos this]
  simp

theorem join_concat (d : Place) (n : Str) (hd : d ≠ []) : join '/' (d ++ [n]) = join '/' d ++ '/' :: n := by
  induction d with
  | nil => exact absurd rfl hd
  | cons a l ih =>
    cases l with
    | nil => rfl
    | cons b l =>
      show a ++ '/' :: join '/' (b :: l ++ [n]) = _
      rw [ih (by simp)]
      show _ = (a ++ '/' :: join '/' (b :: l)) ++ _
      rw [List.append_assoc]
      rfl

/-- The text of a place in a directory: what `filepath.Split` cuts. -/
theorem text_concat (d : Place) (n : Str) : ∃ a, (d ++ [n] : Place).text = a ++ '/' :: n ∧
    ∀ b, clean ((a ++ ['/']) ++ b) = clean (d.text ++ '/' :: b) := by
  by_cases hd : d = []
  · subst hd
    refine ⟨[], rfl, fun b => ?_⟩
    rw [clean_rooted (s := ([] ++ ['/']) ++ b) rfl, clean_rooted (head_text _ _), walk_append]
    show Place.text (walk [] ('/' :: b)) = Place.text (walk [] b)
    rw [walk_cons_slash]
  · refine ⟨d.text, ?_, fun b => by rw [List.append_assoc]; rfl⟩
    unfold Place.text
    rw [join_concat d n hd]
    rfl

theorem dir_text {p : Place} (h : p.WF) : dir p.text = Place.text p.dropLast := by
  rcases List.eq_nil_or_concat p with rfl | ⟨d, n, rfl⟩
  · decide +kernel
  · have hn := h n (by simp)
    have hd : Place.WF d := fun x hx => h x (by simp [hx])
    obtain ⟨a, e1, e2⟩ := text_concat d n
    rw [List.concat_eq_append]
    unfold dir
    rw [e1, dirPart_append hn.2.2.2, List.dropLast_concat]
    have := e2 []
    rw [List.append_nil] at this
    rw [this, clean_text_join hd, walk_nil]

theorem trimRight_not {s : Str} (h : s.getLast? ≠ some '/') : trimRight '/' s = s := by
  unfold trimRight
  cases hr : s.reverse with
  | nil => rw [List.reverse_eq_nil_iff.mp hr]; rfl
  | cons a l =>
    have : s = (a :: l).reverse := by rw [← hr, List.reverse_reverse]
    have ha : a ≠ '/' := by
      rintro rfl
      apply h
      rw [this]; simp
    rw [List.dropWhile_cons, if_neg (by simpa using ha), this]

theorem base_concat {d : Place} {n : Str} (hn : IsName n) : base (d ++ [n] : Place).text = n := by
  obtain ⟨a, e1, -⟩ := text_concat d n
  unfold base
  rw [e1]
  have : (a ++ '/' :: n).getLast? ≠ some '/' := by
    rcases List.eq_nil_or_concat n with rfl | ⟨l, c, rfl⟩
    · exact absurd rfl hn.1
    · rw [List.concat_eq_append, ← List.cons_append, ← List.append_assoc, List.getLast?_concat]
      intro e
      simp only [Option.some.injEq] at e
      exact hn.2.2.2 (by simp [e])
  rw [if_neg (by simp), trimRight_not this, lastPart_append hn.2.2.2, if_neg hn.1]

theorem pathExt_concat {d : Place} {n : Str} (hn : IsName n) : pathExt (d ++ [n] : Place).text = ext n := by
  obtain ⟨a, e1, -⟩ := text_concat d n
  unfold pathExt
  rw [e1, lastPart_append hn.2.2.2]

theorem ext_of {s e : Str} (h : '.' ∉ e) : ext (s ++ '.' :: e) = '.' :: e := by
  unfold ext
  have : ∀ x ∈ e.reverse, decide (x ≠ '.') = true := fun x hx => by
    simp only [decide_eq_true_eq]; rintro rfl; exact h (List.mem_reverse.mp hx)
  rw [if_pos (by simp), List.reverse_append, List.reverse_cons, List.append_assoc, List.takeWhile_append_of_pos this]
  simp

theorem trimSuffix_append (s p : Str) : trimSuffix (s ++ p) p = s := by
  unfold trimSuffix hasSuffix
  rw [if_pos (by rw [List.reverse_append, List.isPrefixOf_iff_prefix]; exact List.prefix_append _ _)]
  simp

theorem isName_long {s e : Str} (hs : '/' ∉ s) (he : '/' ∉ e) (hl : 3 ≤ e.length) : IsName (s ++ e) := by
  have len : (s ++ e).length = s.length + e.length := List.length_append
  refine ⟨?_, ?_, ?_, ?_⟩
  · intro h; rw [h] at len; simp at len; omega
  · intro h; rw [h] at len; simp at len; omega
  · intro h; rw [h] at len; simp at len; omega
  · rw [List.mem_append, not_or]; exact ⟨hs, he⟩

theorem cleanStep_walk (cwd : Place) {st : List Str} (h : ∀ s ∈ st, s ≠ [] ∧ s ≠ ".".toList ∧ '/' ∉ s) {seg : Str}
    (hs : '/' ∉ seg) :
    (∀ s ∈ cleanStep false st seg, s ≠ [] ∧ s ≠ ".".toList ∧ '/' ∉ s) ∧
    (cleanStep false st seg).reverse.foldl go cwd = go (st.reverse.foldl go cwd) seg := by
  rw [show ".".toList = ['.'] from rfl] at *
  unfold cleanStep
  by_cases h1 : seg = [] ∨ seg = ['.']
  · rw [if_pos h1]
    refine ⟨h, ?_⟩
    generalize List.foldl go cwd st.reverse = q
    unfold go
    rw [show ".".toList = ['.'] from rfl, if_pos h1]
  · rw [if_neg h1]
    have hseg : seg ≠ [] ∧ seg ≠ ['.'] ∧ '/' ∉ seg := ⟨fun e => h1 (.inl e), fun e => h1 (.inr e), hs⟩
    have push : (∀ s ∈ seg :: st, s ≠ [] ∧ s ≠ ['.'] ∧ '/' ∉ s) ∧
        (seg :: st).reverse.foldl go cwd = go (st.reverse.foldl go cwd) seg := by
      refine ⟨?_, by rw [List.reverse_cons, List.foldl_append]; rfl⟩
      intro s hm
      rcases List.mem_cons.mp hm with rfl | hm
      · exact hseg
      · exact h s hm
    by_cases h2 : seg = ['.', '.']
    · rw [if_pos h2]
      cases st with
      | nil => exact push
      | cons t r =>
        simp only
        by_cases h3 : t = ['.', '.']
        · rw [if_pos h3]; exact push
        · rw [if_neg h3]
          refine ⟨fun s hm => h s (List.mem_cons_of_mem _ hm), ?_⟩
          have ht := h t List.mem_cons_self
          rw [List.reverse_cons, List.foldl_append, List.foldl_cons, List.foldl_nil]
          generalize List.foldl go cwd r.reverse = q
          subst h2
          have e : go q t = q ++ [t] := by
            unfold go
            rw [show ".".toList = ['.'] from rfl, show "..".toList = ['.', '.'] from rfl,
              if_neg (fun e => e.elim ht.1 ht.2.1), if_neg h3]
          rw [e]
          unfold go
          rw [show ".".toList = ['.'] from rfl, show "..".toList = ['.', '.'] from rfl, if_neg h1, if_pos rfl,
            List.dropLast_concat]
    · rw [if_neg h2]; exact push

theorem cleanFold_walk (cwd : Place) (segs : List Str) : ∀ {st : List Str},
    (∀ s ∈ st, s ≠ [] ∧ s ≠ ".".toList ∧ '/' ∉ s) → (∀ s ∈ segs, '/' ∉ s) →
    (∀ s ∈ segs.foldl (cleanStep false) st, s ≠ [] ∧ s ≠ ".".toList ∧ '/' ∉ s) ∧
    (segs.foldl (cleanStep false) st).reverse.foldl go cwd = segs.foldl go (st.reverse.foldl go cwd) := by
  induction segs with
  | nil => intro st h _; exact ⟨h, rfl⟩
  | cons a l ih =>
    intro st h hs
    have e := cleanStep_walk cwd h (hs a List.mem_cons_self)
    have := ih e.1 (fun s h => hs s (List.mem_cons_of_mem _ h))
    rw [List.foldl_cons, List.foldl_cons]
    exact ⟨this.1, by rw [this.2, e.2]⟩

/-- Cleaning a path does not change where it leads. -/
theorem resolve_clean (cwd : Place) (s : Str) : resolve cwd (clean s) = resolve cwd s := by
  by_cases hr : s.head? = some '/'
  · rw [clean_rooted hr]
    unfold resolve
    rw [if_pos hr, if_pos (show (walk [] s).text.head? = some '/' from rfl), walk_text (walk_wf (fun n hn => by cases hn) s), List.nil_append]
  · obtain ⟨h1, h2⟩ := cleanFold_walk cwd (split '/' s) (st := []) (fun s hs => by cases hs) (split_mem '/' s)
    unfold clean
    simp only [hr, decide_false]
    rw [if_neg (by decide)]
    generalize List.foldl (cleanStep false) [] (split '/' s) = st at h1 h2
    have e : resolve cwd s = walk cwd s := by unfold resolve; rw [if_neg hr]
    have e2 : st.reverse.foldl go cwd = walk cwd s := h2
    rw [e, ← e2]
    by_cases hst : st = []
    · subst hst
      rfl
    · have hne : st.reverse ≠ [] := by simpa using hst
      have hj : split '/' (join '/' st.reverse) = st.reverse :=
        split_join '/' _ hne fun s hs => (h1 s (List.mem_reverse.mp hs)).2.2
      have hnil : join '/' st.reverse ≠ [] := by
        intro e
        rw [e] at hj
        have : [([] : Str)] = st.reverse := hj
        exact (h1 [] (List.mem_reverse.mp (by rw [← this]; exact List.mem_singleton_self _))).1 rfl
      rw [if_neg hnil]
      have hhd : ¬ (join '/' st.reverse).head? = some '/' := by
        cases hj2 : join '/' st.reverse with
        | nil => exact absurd hj2 hnil
        | cons c r =>
          rw [List.head?_cons, Option.some.injEq]
          rintro rfl
          rw [hj2] at hj
          have e3 : split '/' ('/' :: r) = [] :: split '/' r := by
            have := split_append '/' [] r
            exact this
          rw [e3] at hj
          exact (h1 [] (List.mem_reverse.mp (by rw [← hj]; exact List.mem_cons_self))).1 rfl
      unfold resolve
      rw [if_neg hhd]
      unfold walk
      rw [hj]

end Baron.Cli
