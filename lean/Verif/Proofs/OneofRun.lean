import Verif.Proofs.FieldRun

/-!
# Running the statements of a oneof, and a whole decoder
-/

namespace Baron.Decoders

open Baron.Svcdef hiding newField
open Baron.HTTP Baron.HTTPCode Baron.GoLang
open Baron.GoLang (Expr)
open Baron.Strs (goCamelCase)

variable {F : Type} {L : Libs F} {e : Bool} {vars : List (Str × Str)} {q : List (Str × List Str)}

/-! ## Names -/

/-- A variable of the option with the local name `x`. -/
def Own (x z : Str) : Prop := z = x ++ chars% "Str" ∨ z = x ++ chars% "StrArr" ∨ z = x ++ chars% "OK"

theorem Own.disjoint {x y z : Str} (h : Own x z) (h' : Own y z) : x = y := by
  rcases h with rfl | rfl | rfl <;> rcases h' with h | h | h <;>
    first
    | exact List.append_cancel_right h
    | (have := congrArg List.reverse h; simp at this)

theorem Own.count {x z n : Str} (h : Own x z) : z ≠ n ++ chars% "CountSet" := by
  rcases h with rfl | rfl | rfl <;> (intro h; have := congrArg List.reverse h; simp at this)

theorem count_safe (n : Str) : Safe (n ++ chars% "CountSet") := by
  refine ⟨?_, ?_, ?_⟩ <;> (intro h; have := congrArg List.reverse h; simp at this)

theorem Own.safe {x z : Str} (hx : Upper x) (h : Own x z) : Safe z := by
  rcases h with rfl | rfl | rfl <;> exact (hx.append _).safe

/-! ## Which options are there -/

/-- The text of an option in the query, empty if it is not there. -/
def firstText (q : List (Str × List Str)) (o : OneofField) : Str := ((look q o.pbName).getD []).headD []

theorem push_eq (ss : List (Scope F)) (m : FullMsg F) : State.push ⟨ss, m⟩ = ⟨none' :: ss, m⟩ := rfl

theorem presence_one {meth n : Str} {o : OneofField} (hx : Upper (localOf meth o.name)) (ht : PlainText o.pbName) {k : Nat} {s : Scope F} {m : FullMsg F}
    (hs : Bottom e vars q s) (hk : s (n ++ chars% "CountSet") = some (.int k)) (rest : Code) :
    if look q o.pbName = some [] then (presenceCode meth n o rest).exec L ⟨[s], m⟩ = .fault .panic
    else ∃ s', (presenceCode meth n o rest).exec L ⟨[s], m⟩ = rest.exec L ⟨[s'], m⟩ ∧ Bottom e vars q s' ∧
      s' (n ++ chars% "CountSet") = some (.int (k + if (look q o.pbName).isSome then 1 else 0)) ∧
      s' (localOf meth o.name ++ chars% "Str") = some (.str (firstText q o)) ∧
      s' (localOf meth o.name ++ chars% "OK") = some (.bool (look q o.pbName).isSome) ∧
      ∀ z, z ≠ n ++ chars% "CountSet" → ¬ Own (localOf meth o.name) z → s' z = s z := by
  unfold presenceCode firstText
  simp only
  generalize localOf meth o.name = x at *
  have o1 : Own x (x ++ chars% "Str") := .inl rfl
  have o2 : Own x (x ++ chars% "StrArr") := .inr (.inl rfl)
  have o3 : Own x (x ++ chars% "OK") := .inr (.inr rfl)
  have n12 : x ++ chars% "Str" ≠ x ++ chars% "StrArr" := fun h => absurd (List.append_cancel_left h) (by decide)
  have n13 : x ++ chars% "Str" ≠ x ++ chars% "OK" := fun h => absurd (List.append_cancel_left h) (by decide)
  have n23 : x ++ chars% "StrArr" ≠ x ++ chars% "OK" := fun h => absurd (List.append_cancel_left h) (by decide)
  have hc := count_safe n
  have c1 := o1.count (n := n)
  have c2 := o2.count (n := n)
  have c3 := o3.count (n := n)
  generalize hcn : n ++ chars% "CountSet" = cnt at *
  have s1 := o1.safe hx
  have s2 := o2.safe hx
  have s3 := o3.safe hx
  have hown : ∀ z, ¬ Own x z → z ≠ x ++ chars% "Str" ∧ z ≠ x ++ chars% "StrArr" ∧ z ≠ x ++ chars% "OK" :=
    fun z h => ⟨fun e => h (.inl e), fun e => h (.inr (.inl e)), fun e => h (.inr (.inr e))⟩
  clear o1 o2 o3
  generalize x ++ chars% "Str" = xs at *
  generalize x ++ chars% "StrArr" = xa at *
  generalize x ++ chars% "OK" = xo at *
  rw [exec_var, show (Ty.zero ⟨false, false, chars% "string"⟩ : GV F) = .str [] from rfl]
  have b1 := hs.set s1 (.str [])
  have hi : (Expr.index (.id (chars% "queryParams")) (.text o.pbName)).eval2 L [s.set xs (.str [])] =
      .ok (.strs ((look q o.pbName).getD []), .bool (look q o.pbName).isSome) := by
    have : (Expr.id (chars% "queryParams")).eval L [s.set xs (.str [])] = .ok (.query q) := eval_id (find_here b1.2.2)
    have h2 := eval_text (L := L) (literal_plain ht) [s.set xs (.str [])]
    simp only [Expr.eval2, this, h2]
  rw [exec_define2 hi]
  have b3 := (b1.set s2 (.strs ((look q o.pbName).getD []))).set s3 (.bool (look q o.pbName).isSome)
  have hcond := eval_id (L := L) (find_here (ss := []) (set_same ((s.set xs (.str [])).set xa (.strs ((look q o.pbName).getD []))) xo (.bool (look q o.pbName).isSome)))
  rw [Code.exec]
  simp only [hcond]
  cases hq : look q o.pbName with
  | none =>
    rw [if_neg (fun h => nomatch h)]
    rw [hq] at b3
    refine ⟨_, rfl, b3, ?_, ?_, set_same .., fun z hz ho => ?_⟩
    · rw [set_ne _ _ (Ne.symm c3), set_ne _ _ (Ne.symm c2), set_ne _ _ (Ne.symm c1), hk]
      rfl
    · rw [set_ne _ _ n13, set_ne _ _ n12, set_same]
      rfl
    · obtain ⟨z1, z2, z3⟩ := hown z ho
      rw [set_ne _ _ z3, set_ne _ _ z2, set_ne _ _ z1]
  | some l =>
    rw [hq] at b3
    simp only [Option.isSome_some, Option.getD_some, if_true, push_eq] at b3 ⊢
    have hxa : find (none' :: [((s.set xs (.str [])).set xa (.strs l)).set xo (.bool true)]) xa = some (.strs l) :=
      (find_next rfl).trans (find_here ((set_ne _ _ n23).trans (set_same ..)))
    cases l with
    | nil =>
      rw [if_pos rfl]
      have : (Expr.index (.id xa) (.num 0)).eval L (none' :: [((s.set xs (.str [])).set xa (.strs [])).set xo (.bool true)]) = .error .panic := by
        unfold Expr.eval
        rw [eval_id hxa]
        rfl
      rw [Code.exec]
      simp only [this]
      rfl
    | cons w more =>
      rw [if_neg (fun h => nomatch h)]
      have : (Expr.index (.id xa) (.num 0)).eval L (none' :: [((s.set xs (.str [])).set xa (.strs (w :: more))).set xo (.bool true)]) = .ok (.str w) := by
        unfold Expr.eval
        rw [eval_id hxa]
        rfl
      have hst : store (none' :: [((s.set xs (.str [])).set xa (.strs (w :: more))).set xo (.bool true)]) xs (.str w) =
          some (none' :: [(((s.set xs (.str [])).set xa (.strs (w :: more))).set xo (.bool true)).set xs (.str w)]) := by
        rw [store_next rfl, store_here (w := .str []) ((set_ne _ _ n13).trans ((set_ne _ _ n12).trans (set_same ..)))]
        rfl
      rw [exec_assign this hst]
      have b4 := b3.set s1 (.str w)
      have hcnt : ((((s.set xs (.str [])).set xa (.strs (w :: more))).set xo (.bool true)).set xs (.str w)) cnt = some (.int k) := by
        rw [set_ne _ _ (Ne.symm c1), set_ne _ _ (Ne.symm c3), set_ne _ _ (Ne.symm c2), set_ne _ _ (Ne.symm c1), hk]
      have hinc : ∀ (ws : Str) (rest : Code), (Code.inc ws cnt rest).exec L ⟨none' :: [(((s.set xs (.str [])).set xa (.strs (w :: more))).set xo (.bool true)).set xs (.str w)], m⟩ =
          rest.exec L ⟨none' :: [((((s.set xs (.str [])).set xa (.strs (w :: more))).set xo (.bool true)).set xs (.str w)).set cnt (.int (k + 1))], m⟩ := by
        intro ws rest
        rw [Code.exec]
        rw [find_next rfl, find_here hcnt]
        simp only
        rw [store_next rfl, store_here hcnt]
        rfl
      rw [hinc]
      refine ⟨_, rfl, b4.set hc _, set_same .., ?_, ?_, fun z hz ho => ?_⟩
      · rw [set_ne _ _ c1, set_same]
        rfl
      · rw [set_ne _ _ c3, set_ne _ _ (Ne.symm n13), set_same]
      · obtain ⟨z1, z2, z3⟩ := hown z ho
        rw [set_ne _ _ hz, set_ne _ _ z1, set_ne _ _ z3, set_ne _ _ z2, set_ne _ _ z1]

theorem presence_all {meth n : Str} (rest : Code) {m : FullMsg F} (os : List OneofField) (ho : ∀ o ∈ os, Upper (localOf meth o.name) ∧ PlainText o.pbName)
    (hn : (os.map fun o => localOf meth o.name).Nodup) {k : Nat} {s : Scope F} (hs : Bottom e vars q s) (hk : s (n ++ chars% "CountSet") = some (.int k)) :
    if os.any (fun o => look q o.pbName = some []) then (os.foldr (presenceCode meth n) rest).exec L ⟨[s], m⟩ = .fault .panic
    else ∃ s', (os.foldr (presenceCode meth n) rest).exec L ⟨[s], m⟩ = rest.exec L ⟨[s'], m⟩ ∧ Bottom e vars q s' ∧
      s' (n ++ chars% "CountSet") = some (.int (k + (os.filter fun o => (look q o.pbName).isSome).length)) ∧
      (∀ o ∈ os, s' (localOf meth o.name ++ chars% "Str") = some (.str (firstText q o)) ∧
        s' (localOf meth o.name ++ chars% "OK") = some (.bool (look q o.pbName).isSome)) ∧
      ∀ z, z ≠ n ++ chars% "CountSet" → (∀ o ∈ os, ¬ Own (localOf meth o.name) z) → s' z = s z := by
  induction os generalizing s k with
  | nil => exact ⟨s, rfl, hs, by simpa using hk, fun o h => absurd h List.not_mem_nil, fun _ _ _ => rfl⟩
  | cons o os ih =>
    obtain ⟨h1, h2⟩ := ho o (List.mem_cons_self ..)
    rw [List.map_cons, List.nodup_cons] at hn
    have hp := presence_one (L := L) (m := m) (n := n) h1 h2 hs hk (os.foldr (presenceCode meth n) rest)
    rw [List.foldr_cons, List.any_cons]
    by_cases hq : look q o.pbName = some []
    · rw [if_pos hq] at hp
      rw [if_pos (by rw [decide_eq_true hq, Bool.true_or])]
      exact hp
    · rw [if_neg hq] at hp
      rw [decide_eq_false hq, Bool.false_or]
      obtain ⟨s1, e1, b1, k1, x1, y1, f1⟩ := hp
      have := ih (fun o' h => ho o' (List.mem_cons_of_mem _ h)) hn.2 b1 k1
      by_cases ha : os.any (fun o => look q o.pbName = some []) = true
      · rw [if_pos ha] at this ⊢
        exact e1.trans this
      · rw [if_neg ha] at this ⊢
        obtain ⟨s2, e2, b2, k2, x2, f2⟩ := this
        have hoth : ∀ z, Own (localOf meth o.name) z → ∀ o' ∈ os, ¬ Own (localOf meth o'.name) z := fun z hz o' ho' hz' =>
          hn.1 (hz.disjoint hz' ▸ List.mem_map_of_mem ho')
        refine ⟨s2, e1.trans e2, b2, ?_, fun o' ho' => ?_, fun z hz hown => ?_⟩
        · rw [k2]
          cases h : (look q o.pbName).isSome with
          | true =>
            rw [List.filter_cons, h, if_pos rfl, if_pos rfl, List.length_cons, Nat.add_assoc, Nat.add_comm 1]
          | false =>
            rw [List.filter_cons, h, if_neg Bool.false_ne_true, if_neg Bool.false_ne_true, Nat.add_zero]
        · rcases List.mem_cons.mp ho' with rfl | ho'
          · have w1 : Own (localOf meth o'.name) (localOf meth o'.name ++ chars% "Str") := .inl rfl
            have w3 : Own (localOf meth o'.name) (localOf meth o'.name ++ chars% "OK") := .inr (.inr rfl)
            exact ⟨(f2 _ w1.count (hoth _ w1)).trans x1, (f2 _ w3.count (hoth _ w3)).trans y1⟩
          · exact x2 o' ho'
        · rw [f2 z hz fun o' ho' => hown o' (List.mem_cons_of_mem _ ho'), f1 z hz (hown o (List.mem_cons_self ..))]

/-! ## Reading the one -/

theorem option_exec {meth n : Str} {o : OneofField} (hx : Upper (localOf meth o.name)) (hstar : o.star = false) (ht : o.typeName ∈ scalarNames)
    (hname : goCamelCase o.name = o.name) {s : Scope F} {m : FullMsg F} (hv : s (localOf meth o.name ++ chars% "Str") = some (.str (firstText q o)))
    (hok : s (localOf meth o.name ++ chars% "OK") = some (.bool true)) (rest : Code) :
    match (baseOf o.typeName).bind fun b => parseBase L.fl b (firstText q o) with
    | none => ∃ σ, (optionCode meth n o rest).exec L ⟨[s], m⟩ = .returned true σ
    | some v => (optionCode meth n o rest).exec L ⟨[s], m⟩ = .next ⟨[s], { m with oneofs := fun k => if k = goCamelCase n then some (o.name, v) else m.oneofs k }⟩ := by
  obtain ⟨b, hb⟩ := Option.isSome_iff_exists.mp (mem_scalar.mp ht)
  rw [hb, Option.bind_some]
  unfold optionCode
  simp only
  generalize localOf meth o.name = x at *
  rw [hstar, hname, Code.exec]
  simp only [eval_id (L := L) (find_here (ss := []) hok), Bool.false_eq_true, if_false]
  have hy : find (none' :: [s]) (x ++ chars% "Str") = some (.str (firstText q o)) := (find_next rfl).trans (find_here hv)
  have hset : ∀ (ws ws' : Str) (v : SVal F) (c : Scope F), parseBase L.fl b (firstText q o) = some v → c x = some (gv v) →
      (Code.setReq ws (goCamelCase n) (.addr (.keyed o.wrapper o.name (narrowed o.typeName x))) (.done ws')).exec L ⟨[c, s], m⟩ =
        .next ⟨[c, s], { m with oneofs := fun k => if k = goCamelCase n then some (o.name, v) else m.oneofs k }⟩ := by
    intro ws ws' v c hp hc
    have h1 : (Expr.addr (.keyed o.wrapper o.name (narrowed o.typeName x))).eval L [c, s] = .ok (.option o.name v) := by
      simp only [Expr.eval, eval_narrowed hb hp (find_here hc), gv_scalar]
    rw [Code.exec]
    simp only [h1]
    rfl
  show match parseBase L.fl b (firstText q o) with
    | none => ∃ σ, (Code.exec L _ ⟨[none', s], m⟩).pop = _
    | some v => (Code.exec L _ ⟨[none', s], m⟩).pop = _
  by_cases hbs : b = .string
  · subst hbs
    have := baseOf_string.mp hb
    rw [if_pos this, this, readScalar_string hy, ← this]
    show Out.pop _ = _
    rw [hset _ _ (.str (firstText q o)) (none'.set x (.str (firstText q o))) rfl (set_same none' x (.str (firstText q o)))]
    rfl
  · rw [if_neg fun h => hbs (Option.some.inj (hb.symm.trans (baseOf_string.mpr h))), readScalar_exec hb hbs hy]
    cases hp : parseBase L.fl b (firstText q o) with
    | none =>
      simp only
      rw [checkParsed_true (find_here (set_same ..))]
      exact ⟨_, rfl⟩
    | some v =>
      simp only
      rw [checkParsed_false (find_here (set_same ..)), hset _ _ v _ hp ((set_ne _ _ hx.safe.1).trans (set_same ..))]
      rfl

theorem option_skip {meth n : Str} {o : OneofField} {s : Scope F} {m : FullMsg F}
    (hok : s (localOf meth o.name ++ chars% "OK") = some (.bool false)) (rest : Code) :
    (optionCode meth n o rest).exec L ⟨[s], m⟩ = rest.exec L ⟨[s], m⟩ := by
  unfold optionCode
  simp only
  rw [Code.exec]
  simp only [eval_id (L := L) (find_here (ss := []) hok)]

theorem cases_none {meth n : Str} {s : Scope F} {m : FullMsg F} (ws : Str) (os : List OneofField)
    (h : ∀ o ∈ os, s (localOf meth o.name ++ chars% "OK") = some (.bool false)) :
    (os.foldr (optionCode meth n) (.done ws)).exec L ⟨[s], m⟩ = .next ⟨[s], m⟩ := by
  induction os with
  | nil => rfl
  | cons o os ih =>
    rw [List.foldr_cons, option_skip (h o (List.mem_cons_self ..))]
    exact ih fun o' ho => h o' (List.mem_cons_of_mem _ ho)

theorem cases_one {meth n : Str} {s : Scope F} {m : FullMsg F} (ws : Str) {p : OneofField} (os : List OneofField)
    (h : ∀ o ∈ os, s (localOf meth o.name ++ chars% "OK") = some (.bool (look q o.pbName).isSome))
    (hf : os.filter (fun o => (look q o.pbName).isSome) = [p]) :
    ∃ rest, (os.foldr (optionCode meth n) (.done ws)).exec L ⟨[s], m⟩ = (optionCode meth n p rest).exec L ⟨[s], m⟩ := by
  induction os with
  | nil => cases hf
  | cons o os ih =>
    cases hq : (look q o.pbName).isSome with
    | true =>
      rw [List.filter_cons, hq, if_pos rfl, List.cons.injEq] at hf
      exact ⟨_, by rw [List.foldr_cons, hf.1]⟩
    | false =>
      rw [List.filter_cons, hq, if_neg Bool.false_ne_true] at hf
      rw [List.foldr_cons, option_skip ((h o (List.mem_cons_self ..)).trans (by rw [hq]))]
      exact ih (fun o' ho => h o' (List.mem_cons_of_mem _ ho)) hf

/-- What the statements of a oneof do. -/
def SeenOneof (e : Bool) (vars : List (Str × Str)) (q : List (Str × List Str)) (n : Str) (m : FullMsg F) (o : Out F) : Except OErr (OVal F) → Prop
  | .ok v => ∃ s, o = .next ⟨[s], { m with oneofs := fun k => if k = goCamelCase n then v else m.oneofs k }⟩ ∧ Bottom e vars q s
  | .error .emptyValues => o = .fault .panic
  | .error _ => ∃ σ, o = .returned true σ

theorem local_nodup {meth : Str} {os : List OneofField} (h : (os.map fun o => goCamelCase o.name).Nodup) : (os.map fun o => localOf meth o.name).Nodup := by
  induction os with
  | nil => exact List.nodup_nil
  | cons o os ih =>
    rw [List.map_cons, List.nodup_cons] at h ⊢
    refine ⟨fun hm => h.1 ?_, ih h.2⟩
    obtain ⟨o', ho', he⟩ := List.mem_map.mp hm
    rw [← List.append_cancel_right (show goCamelCase o'.name ++ goCamelCase meth = goCamelCase o.name ++ goCamelCase meth from he)]
    exact List.mem_map_of_mem ho'

theorem oneof_exec {meth : Str} {p : HTTPParameter} (hp : ReadableOneof p) (hx : ∀ o ∈ p.field.type.oneof, Upper (localOf meth o.name)) {s : Scope F} {m : FullMsg F}
    (hs : Bottom e vars q s) :
    SeenOneof e vars q p.field.name m ((oneofCode meth p.field.name p.field.type.oneof).exec L ⟨[s], m⟩)
      (decodeOneof L.fl q ⟨p.field.name, p.location, p.field.type.oneof.map newOption⟩ (m.oneofs (goCamelCase p.field.name))) := by
  obtain ⟨hopt, hnames⟩ := hp
  generalize p.field.type.oneof = os at *
  generalize p.field.name = n at *
  unfold oneofCode
  rw [Code.exec, exec_define1 (v := .int 0) rfl]
  have hp := presence_all (L := L) (meth := meth) (n := n) (m := m) (.cond (chars% "\n\t\n\n") (.bin (.id (n ++ chars% "CountSet")) (chars% ">") (.num 1))
    (.ret (chars% "\n\t") .nil (.call1 (chars% "errors.Errorf") (.text (chars% "only one of (" ++
      (os.flatMap (fun o => chars% "\\\"" ++ (o.pbName ++ chars% "\\\",")) ++ chars% ") allowed")))) (.done (chars% "\n")))
  (.switch (chars% "\n\n") (os.foldr (optionCode meth n) (.done (chars% "\n\n")))
  (.done []))) os (fun o ho => ⟨hx o ho, (hopt o ho).2.2.2.2.2⟩) (local_nodup hnames) (hs.set (count_safe n) (.int 0)) (set_same ..)
  unfold decodeOneof
  simp only
  rw [show (os.map newOption).filter (fun p => (look q p.queryParamName).isSome) = (os.filter fun o => (look q o.pbName).isSome).map newOption from
    (List.filter_map ..)]
  have hany : (List.map newOption (os.filter fun o => (look q o.pbName).isSome)).any (fun p => look q p.queryParamName = some []) =
      os.any (fun o => look q o.pbName = some []) := by
    rw [List.any_map, List.any_filter]
    congr 1
    funext o
    show ((look q o.pbName).isSome && decide (look q o.pbName = some [])) = _
    cases look q o.pbName <;> simp
  rw [hany]
  by_cases ha : os.any (fun o => look q o.pbName = some []) = true
  · rw [if_pos ha] at hp ⊢
    exact hp
  · rw [if_neg ha] at hp ⊢
    obtain ⟨s', he, hb, hc, hv, -⟩ := hp
    rw [he]
    rw [Nat.zero_add] at hc
    have hcond : (Expr.bin (.id (n ++ chars% "CountSet")) (chars% ">") (.num 1)).eval L [s'] =
        .ok (.bool (decide ((os.filter fun o => (look q o.pbName).isSome).length > 1))) := by
      have := eval_id (L := L) (find_here (ss := []) hc)
      unfold Expr.eval
      rw [if_neg (by decide), this]
      rfl
    rw [Code.exec]
    simp only [hcond]
    cases hf : os.filter fun o => (look q o.pbName).isSome with
    | nil =>
      simp only [List.length_nil, gt_iff_lt, Nat.not_lt_zero, decide_false, List.map_nil]
      rw [Code.exec, cases_none _ os fun o ho => ?_]
      · refine ⟨s', ?_, hb⟩
        have : (fun k => if k = goCamelCase n then m.oneofs (goCamelCase n) else m.oneofs k) = m.oneofs := by
          funext k
          split
          · rename_i h; rw [h]
          · rfl
        rw [this]
        rfl
      · rw [(hv o ho).2]
        have := List.filter_eq_nil_iff.mp hf o ho
        rw [Bool.not_eq_true] at this
        rw [this]
    | cons p l =>
      cases l with
      | nil =>
        simp only [List.length_cons, List.length_nil, gt_iff_lt, Nat.lt_irrefl, Nat.zero_add, decide_false, List.map_cons, List.map_nil]
        have hpm : p ∈ os ∧ (look q p.pbName).isSome = true := List.mem_filter.mp (by rw [hf]; exact List.mem_singleton.mpr rfl)
        obtain ⟨rest, hr⟩ := cases_one (L := L) (meth := meth) (n := n) (m := m) (chars% "\n\n") os (fun o ho => (hv o ho).2) hf
        rw [Code.exec, hr]
        obtain ⟨h1, h2, h3, h4, h5, h6⟩ := hopt p hpm.1
        have ho := option_exec (L := L) (n := n) (m := m) (hx p hpm.1) h1 h3 h5 (hv p hpm.1).1 ((hv p hpm.1).2.trans (by rw [hpm.2])) rest
        obtain ⟨b, hb'⟩ := Option.isSome_iff_exists.mp (mem_scalar.mp h3)
        obtain ⟨l, hl⟩ := Option.isSome_iff_exists.mp hpm.2
        rw [hb', Option.bind_some] at ho
        cases l with
        | nil => exact absurd (List.any_eq_true.mpr ⟨p, hpm.1, decide_eq_true hl⟩) ha
        | cons w more =>
          have hft : firstText q p = w := by unfold firstText; rw [hl]; rfl
          rw [hft] at ho
          rw [show look q (newOption p).queryParamName = some (w :: more) from hl, show baseOf (newOption p).goType = some b from hb']
          simp only
          cases hpb : parseBase L.fl b w with
          | none =>
            rw [hpb] at ho
            obtain ⟨σ, ho⟩ := ho
            rw [ho]
            exact ⟨σ, rfl⟩
          | some v =>
            rw [hpb] at ho
            simp only at ho
            rw [ho]
            exact ⟨s', rfl, hb⟩
      | cons p' l =>
        have : decide ((p :: p' :: l).length > 1) = true := by simp
        simp only [this, List.map_cons]
        exact ⟨_, rfl⟩

theorem oneofs_exec {meth : Str} (k : List Code) (ps : List HTTPParameter)
    (hp : ∀ p ∈ ps, p.location = chars% "query" → ReadableOneof p ∧ ∀ o ∈ p.field.type.oneof, Upper (localOf meth o.name)) {s : Scope F} {m : FullMsg F}
    (hs : Bottom e vars q s) :
    match decodeOneofs L.fl q (ps.map fun p => ⟨p.field.name, p.location, p.field.type.oneof.map newOption⟩) m.oneofs with
    | .error .emptyValues => GoLang.run L ((ps.filter fun p => p.location = chars% "query").map (fun p => oneofCode meth p.field.name p.field.type.oneof) ++ k) ⟨[s], m⟩ = .fault .panic
    | .error _ => ∃ σ, GoLang.run L ((ps.filter fun p => p.location = chars% "query").map (fun p => oneofCode meth p.field.name p.field.type.oneof) ++ k) ⟨[s], m⟩ = .returned true σ
    | .ok f => ∃ s', GoLang.run L ((ps.filter fun p => p.location = chars% "query").map (fun p => oneofCode meth p.field.name p.field.type.oneof) ++ k) ⟨[s], m⟩ =
        GoLang.run L k ⟨[s'], { m with oneofs := f }⟩ ∧ Bottom e vars q s' := by
  induction ps generalizing s m with
  | nil => exact ⟨s, rfl, hs⟩
  | cons p ps ih =>
    have hp' := fun p' h' => hp p' (List.mem_cons_of_mem _ h')
    rw [List.map_cons]
    unfold decodeOneofs
    by_cases hb : p.location = chars% "query"
    · rw [List.filter_cons_of_pos (by simpa using hb), List.map_cons, List.cons_append, if_pos (show p.location = "query".toList from hb)]
      obtain ⟨h1, h2⟩ := hp p (List.mem_cons_self ..) hb
      have hf := oneof_exec (L := L) h1 h2 (m := m) hs
      simp only
      cases hd : decodeOneof L.fl q ⟨p.field.name, p.location, p.field.type.oneof.map newOption⟩ (m.oneofs (goCamelCase p.field.name)) with
      | error x =>
        rw [hd] at hf
        cases x with
        | emptyValues =>
          show GoLang.run L _ _ = _
          unfold GoLang.run
          rw [show Code.exec L (oneofCode meth p.field.name p.field.type.oneof) ⟨[s], m⟩ = _ from hf]
          rfl
        | tooMany n => obtain ⟨σ, hf⟩ := hf; refine ⟨σ, ?_⟩; unfold GoLang.run; rw [hf]; rfl
        | option n => obtain ⟨σ, hf⟩ := hf; refine ⟨σ, ?_⟩; unfold GoLang.run; rw [hf]; rfl
      | ok v =>
        rw [hd] at hf
        obtain ⟨s', hf, hs'⟩ := hf
        have := ih hp' (m := { m with oneofs := fun k => if k = goCamelCase p.field.name then v else m.oneofs k }) hs'
        have hrun : GoLang.run L (oneofCode meth p.field.name p.field.type.oneof ::
            ((ps.filter fun p => p.location = chars% "query").map (fun p => oneofCode meth p.field.name p.field.type.oneof) ++ k)) ⟨[s], m⟩ =
            GoLang.run L ((ps.filter fun p => p.location = chars% "query").map (fun p => oneofCode meth p.field.name p.field.type.oneof) ++ k)
              ⟨[s'], { m with oneofs := fun k => if k = goCamelCase p.field.name then v else m.oneofs k }⟩ := by
          rw [GoLang.run, hf]
          rfl
        simp only
        rw [hrun]
        exact this
    · rw [List.filter_cons_of_neg (by simp [hb]), if_neg (show p.location ≠ "query".toList from hb)]
      exact ih hp' hs

end Baron.Decoders
