import Verif.Proofs.DecoderOneof

/-!
# The decoder as a whole
-/

namespace Baron.Locals

open Baron.Scope Baron.HTTPCode Baron.Idents Baron.DecoderNames

theorem OptionsOK_congr {rpc : Str} : ∀ {os : List HOption} {vs vs' : List Str}, (∀ x, x ∈ vs ↔ x ∈ vs') →
    (OptionsOK rpc vs os ↔ OptionsOK rpc vs' os) := by
  intro os
  induction os with
  | nil => intros; exact Iff.rfl
  | cons o os ih =>
    intro vs vs' h
    unfold OptionsOK
    rw [h, h, h, ih (vs' := vs' ++ optionVars rpc o) (fun x => by rw [List.mem_append, List.mem_append, h])]

theorem Inv2.congr {c : Block} {vs us vs' us' : List Str} (h : Inv2 c vs us) (hv : ∀ x, x ∈ vs ↔ x ∈ vs')
    (hu : ∀ x, x ∈ us ↔ x ∈ us') : Inv2 c vs' us' :=
  ⟨fun x => by rw [h.look]; simp only [hv, hu], fun x hx => h.upper x ((hv x).2 hx), fun x hx => h.upper' x ((hu x).2 hx)⟩

/-- The last three letters, from the end. -/
def tail3 (x : Str) : Str := x.reverse.take 3

theorem tail3_append (x : Str) {y : Str} (h : 3 ≤ y.length) : tail3 (x ++ y) = tail3 y := by
  unfold tail3
  rw [List.reverse_append, List.take_append_of_le_length (by rw [List.length_reverse]; exact h)]

theorem tail_str (l : Str) : tail3 (strN l) = "rtS".toList := by
  unfold strN; rw [tail3_append _ (by decide)]; decide

theorem tail_arr (l : Str) : tail3 (arrN l) = "rrA".toList := by
  unfold arrN; rw [tail3_append _ (by decide)]; decide

theorem tail_count (n : Str) : tail3 (n ++ "CountSet".toList) = "teS".toList := by
  rw [tail3_append _ (by decide)]; decide

theorem tail_ok (l : Str) : (tail3 (okN l)).head? = some 'K' := by
  unfold tail3 okN
  rw [List.reverse_append]
  rfl

/-- The names not used yet. -/
def Texts (us : List Str) : Prop := ∀ x ∈ us, tail3 x = "rtS".toList ∨ tail3 x = "teS".toList

theorem Texts.arr {us : List Str} (h : Texts us) (l : Str) : arrN l ∉ us := fun hx => by
  have := h _ hx
  rw [tail_arr] at this
  revert this
  decide

theorem Texts.ok {us : List Str} (h : Texts us) (l : Str) : okN l ∉ us := fun hx => by
  have h1 := tail_ok l
  rcases h _ hx with h2 | h2 <;> rw [h2] at h1 <;> revert h1 <;> decide

/-- Options as `protoc` makes them, of a base type. -/
structure PlainOption (o : HOption) : Prop where
  camel : upper (Strs.goCamelCase o.name) = true
  wrapper : upper o.wrapper = true
  base : (baseOf o.goType).isSome = true

theorem seen_run {g : Outer} {meth count : Str} : ∀ {os : List HOption} {c : Block} {vs us vars : List Str}, Inv2 c vs us →
    (∀ o ∈ os, PlainOption o) → count ∈ us → Texts us → (∀ x, x ∈ vars ↔ x ∈ vs ++ us) →
    (¬OptionsOK (Strs.goCamelCase meth) vars os ∧ run g [c] (os.flatMap (optionSeen meth count "query".toList)) = none) ∨
    (OptionsOK (Strs.goCamelCase meth) vars os ∧ ∃ c', run g [c] (os.flatMap (optionSeen meth count "query".toList)) = some [c'] ∧
      Inv2 c' (vs ++ os.flatMap fun o => [arrN (localName o.name meth), okN (localName o.name meth)])
        (us ++ os.map fun o => strN (localName o.name meth))) := by
  intro os
  induction os with
  | nil => intro c vs us vars hI _ _ _ _; exact .inr ⟨trivial, c, rfl, by simpa using hI⟩
  | cons o os ih =>
    intro c vs us vars hI ho hc ht hv
    rw [List.flatMap_cons]
    have hup : upper (localName o.name meth) = true := upper_append (ho o List.mem_cons_self).camel
    have hhere : (text (Strs.goCamelCase o.name) (Strs.goCamelCase meth) ∉ vars ∧
        (texts (Strs.goCamelCase o.name) (Strs.goCamelCase meth) ∉ vars ∨ found (Strs.goCamelCase o.name) (Strs.goCamelCase meth) ∉ vars)) ↔
        (strN (localName o.name meth) ∉ vs ++ us ∧ (arrN (localName o.name meth) ∉ vs ∨ okN (localName o.name meth) ∉ vs)) := by
      have e1 : text (Strs.goCamelCase o.name) (Strs.goCamelCase meth) = strN (localName o.name meth) := rfl
      have e2 : texts (Strs.goCamelCase o.name) (Strs.goCamelCase meth) = arrN (localName o.name meth) := rfl
      have e3 : found (Strs.goCamelCase o.name) (Strs.goCamelCase meth) = okN (localName o.name meth) := rfl
      rw [e1, e2, e3, hv, hv, hv]
      simp only [List.mem_append, ht.arr, ht.ok, or_false]
    unfold OptionsOK
    rw [← and_assoc, hhere]
    rcases optionSeen_run (g := g) hI hup hc (ht.arr _) (ht.ok _) with ⟨h1, h2⟩ | ⟨h1, c', h2, h3⟩
    · exact .inl ⟨fun h => h1 h.1, run_append_none h2⟩
    · rw [run_append_some h2]
      have ht' : Texts (us ++ [strN (localName o.name meth)]) := by
        intro x hx
        rcases List.mem_append.1 hx with hx | hx
        · exact ht x hx
        · rw [List.mem_singleton.1 hx, tail_str]; exact .inl rfl
      rcases ih (vars := vars ++ optionVars (Strs.goCamelCase meth) o) h3 (fun o' ho' => ho o' (List.mem_cons_of_mem _ ho'))
        (List.mem_append_left _ hc) ht' (fun x => by
          show x ∈ vars ++ [strN (localName o.name meth), arrN (localName o.name meth), okN (localName o.name meth)] ↔ _
          simp only [List.mem_append, hv, List.mem_cons, List.not_mem_nil, or_false]
          constructor
          · rintro ((h | h) | h | h | h)
            · exact .inl (.inl h)
            · exact .inr (.inl h)
            · exact .inr (.inr h)
            · exact .inl (.inr (.inl h))
            · exact .inl (.inr (.inr h))
          · rintro ((h | h | h) | h | h)
            · exact .inl (.inl h)
            · exact .inr (.inr (.inl h))
            · exact .inr (.inr (.inr h))
            · exact .inl (.inr h)
            · exact .inr (.inl h)) with ⟨h4, h5⟩ | ⟨h4, c'', h5, h6⟩
      · exact .inl ⟨fun h => h4 h.2, h5⟩
      · refine .inr ⟨⟨h1, h4⟩, c'', h5, ?_⟩
        rw [List.flatMap_cons, List.map_cons]
        rw [List.append_assoc, List.append_assoc] at h6
        exact h6

theorem cases_run {g : Outer} (hpk : ∀ x ∈ pkgs, g.value x = true) {meth : Str} : ∀ {os : List HOption} {c : Block}
    {vs us all : List Str}, Inv2 c vs us → (∀ o ∈ os, PlainOption o) → Texts us →
    (∀ o ∈ os, okN (localName o.name meth) ∈ vs ∧ strN (localName o.name meth) ∈ vs ++ us) → (∀ x, x ∈ all ↔ x ∈ vs ++ us) →
    (¬(∀ o ∈ os, g.type o.wrapper = true ∧ o.wrapper ∉ all ∧ o.wrapper ≠ localName o.name meth) ∧
      run g [[], c] (os.flatMap (optionCase meth "query".toList)) = none) ∨
    ((∀ o ∈ os, g.type o.wrapper = true ∧ o.wrapper ∉ all ∧ o.wrapper ≠ localName o.name meth) ∧
      ∃ c' vs' us', run g [[], c] (os.flatMap (optionCase meth "query".toList)) = some [[], c'] ∧ Inv2 c' vs' us' ∧
        (∀ x, x ∈ vs' ++ us' ↔ x ∈ vs ++ us) ∧ ∀ x ∈ us', x ∈ us ∧ ∀ o ∈ os, x ≠ strN (localName o.name meth)) := by
  intro os
  induction os with
  | nil => intro c vs us all hI _ _ _ _; exact .inr ⟨nofun, c, vs, us, rfl, hI, fun _ => Iff.rfl, fun x hx => ⟨hx, nofun⟩⟩
  | cons o os ih =>
    intro c vs us all hI ho ht hin hall
    rw [List.flatMap_cons]
    have hp := ho o List.mem_cons_self
    have hup : upper (localName o.name meth) = true := upper_append hp.camel
    obtain ⟨i1, i2⟩ := hin o List.mem_cons_self
    have hrun := optionCase_run hpk hI hup hp.wrapper hp.base i1 (ht.ok _) i2
    by_cases hw : g.type o.wrapper = true ∧ o.wrapper ∉ vs ++ us ∧ o.wrapper ≠ localName o.name meth
    · rw [if_pos hw] at hrun
      rw [run_append_some hrun]
      have hd : declared (strN (localName o.name meth)) c = true :=
        (hI.declared (upper_append hup)).2 (List.mem_append.1 i2).symm
      have hset : ∀ x, x ∈ (vs ++ [strN (localName o.name meth)]) ++ us.filter (· ≠ strN (localName o.name meth)) ↔ x ∈ vs ++ us := by
        intro x
        rw [List.mem_append] at i2
        simp only [List.mem_append, List.mem_singleton, List.mem_filter, decide_eq_true_eq]
        constructor
        · rintro ((h | h) | h)
          · exact .inl h
          · exact h ▸ i2
          · exact .inr h.1
        · rintro (h | h)
          · exact .inl (.inl h)
          · by_cases he : x = strN (localName o.name meth)
            · exact .inl (.inr he)
            · exact .inr ⟨h, he⟩
      rcases ih (all := all) (hI.mark hd (upper_append hup)) (fun o' ho' => ho o' (List.mem_cons_of_mem _ ho'))
        (fun x hx => ht x (List.mem_filter.1 hx).1)
        (fun o' ho' => ⟨List.mem_append_left _ (hin o' (List.mem_cons_of_mem _ ho')).1,
          (hset _).2 (hin o' (List.mem_cons_of_mem _ ho')).2⟩) (fun x => by rw [hall, hset]) with
        ⟨h1, h2⟩ | ⟨h1, c', vs', us', h2, h3, h4, h5⟩
      · exact .inl ⟨fun h => h1 fun o' ho' => h o' (List.mem_cons_of_mem _ ho'), h2⟩
      · refine .inr ⟨fun o' ho' => ?_, c', vs', us', h2, h3, fun x => (h4 x).trans (hset x), fun x hx => ?_⟩
        · rcases List.mem_cons.1 ho' with rfl | ho'
          · exact ⟨hw.1, fun h => hw.2.1 ((hall _).1 h), hw.2.2⟩
          · exact h1 o' ho'
        · obtain ⟨a, b⟩ := h5 x hx
          have := List.mem_filter.1 a
          refine ⟨this.1, fun o' ho' => ?_⟩
          rcases List.mem_cons.1 ho' with rfl | ho'
          · exact of_decide_eq_true this.2
          · exact b o' ho'
    · rw [if_neg hw] at hrun
      refine .inl ⟨fun h => hw ?_, run_append_none hrun⟩
      obtain ⟨h1, h2, h3⟩ := h o List.mem_cons_self
      exact ⟨h1, fun h => h2 ((hall _).2 h), h3⟩

/-- Oneofs as `protoc` makes them, in the query, with options of base types. -/
structure PlainOneof (o : HOneof) : Prop where
  location : o.location = "query".toList
  name : upper o.name = true
  options : ∀ p ∈ o.options, PlainOption p

theorem oneofEvs_run {g : Outer} (hpk : ∀ x ∈ pkgs, g.value x = true) {c : Block} {vs : List Str} (hI : Inv c vs) {meth : Str}
    {o : HOneof} (ho : PlainOneof o) :
    (¬OneofOK g (Strs.goCamelCase meth) vs o ∧ run g [c] (oneofEvs meth o) = none) ∨
    (OneofOK g (Strs.goCamelCase meth) vs o ∧ ∃ c', run g [c] (oneofEvs meth o) = some [c'] ∧
      Inv c' (vs ++ oneofVars (Strs.goCamelCase meth) o)) := by
  have hcu : upper (o.name ++ "CountSet".toList) = true := upper_append ho.name
  unfold oneofEvs
  simp only
  rw [ho.location]
  generalize hcn : o.name ++ "CountSet".toList = count at hcu
  have htc : tail3 count = "teS".toList := hcn ▸ tail_count o.name
  have hcS : ∀ l : Str, strN l ≠ count := by
    rintro l rfl
    rw [tail_str] at htc
    revert htc
    decide
  by_cases hc : count ∈ vs
  · refine .inl ⟨fun h => h.count (hcn ▸ hc), ?_⟩
    rw [List.append_assoc, List.append_assoc, List.append_assoc]
    refine run_append_none (run_cons_none ?_)
    have hd : declared count c = true := (hI.two.declared hcu).2 (.inr hc)
    simp [step, hd]
  · have hd : declared count c = false := Bool.eq_false_iff.2 fun h => by
      rcases (hI.two.declared hcu).1 h with h | h
      · cases h
      · exact hc h
    have h0 : run g [c] [.short [count]] = some [c ++ [(count, false)]] := by
      refine run_cons_some ?_
      simp [step, hd]
    have hI1 : Inv2 (c ++ [(count, false)]) vs [count] := by
      refine ⟨fun x => ?_, hI.upper, fun x hx => by rw [List.mem_singleton.1 hx]; exact hcu⟩
      rw [look_append_one hd, hI.look]
      simp only [List.mem_singleton]
    have ht1 : Texts [count] := fun x hx => by rw [List.mem_singleton.1 hx]; exact .inr htc
    rw [List.append_assoc, List.append_assoc, List.append_assoc, run_append_some h0]
    rcases seen_run (g := g) (meth := meth) (count := count) (vars := vs ++ [count]) hI1 ho.options (List.mem_singleton_self _) ht1
      (fun _ => Iff.rfl) with ⟨h1, h2⟩ | ⟨h1, c2, h2, h3⟩
    · exact .inl ⟨fun h => h1 (hcn ▸ h.options), run_append_none h2⟩
    · rw [run_append_some h2]
      have hd2 : declared count c2 = true := (h3.declared hcu).2 (.inl (List.mem_append_left _ (List.mem_singleton_self _)))
      have h4 := h3.mark hd2 hcu
      have hmid : run g [c2] [.use count, .opn, U "errors", .cls, .opn] = some [[], markB count c2] := by
        rw [run_cons_some (bs := [c2]) (use_last (pre := []) hd2 nofun)]
        show run g [markB count c2] _ = _
        rw [run_cons_some (bs' := [[], markB count c2]) rfl]
        rw [show U "errors" = Ev.use "errors".toList from rfl, run_fine (.inr ⟨?_, hpk _ (by decide +kernel)⟩)]
        · rfl
        · have : declared "errors".toList (markB count c2) = false := h4.not (by decide +kernel) (by decide +kernel)
          unfold captured
          rw [List.any_cons, List.any_cons, this]
          rfl
      rw [run_append_some hmid]
      have hall : ∀ x, x ∈ vs ++ oneofVars (Strs.goCamelCase meth) o ↔
          x ∈ (vs ++ o.options.flatMap (fun o => [arrN (localName o.name meth), okN (localName o.name meth)]) ++ [count]) ++
            ([count] ++ o.options.map fun o => strN (localName o.name meth)).filter (· ≠ count) := by
        intro x
        have e : oneofVars (Strs.goCamelCase meth) o = count :: o.options.flatMap (fun o => [strN (localName o.name meth),
            arrN (localName o.name meth), okN (localName o.name meth)]) := by rw [← hcn]; rfl
        rw [e]
        simp only [List.mem_append, List.mem_cons, List.mem_flatMap, List.not_mem_nil, or_false, List.mem_filter, List.mem_map,
          decide_eq_true_eq]
        constructor
        · rintro (h | h | ⟨p, hp, h | h | h⟩)
          · exact .inl (.inl (.inl h))
          · exact .inl (.inr h)
          · exact .inr ⟨.inr ⟨p, hp, h.symm⟩, h ▸ hcS _⟩
          · exact .inl (.inl (.inr ⟨p, hp, .inl h⟩))
          · exact .inl (.inl (.inr ⟨p, hp, .inr h⟩))
        · rintro (((h | ⟨p, hp, h | h⟩) | h) | ⟨h | ⟨p, hp, h⟩, hn⟩)
          · exact .inl h
          · exact .inr (.inr ⟨p, hp, .inr (.inl h)⟩)
          · exact .inr (.inr ⟨p, hp, .inr (.inr h)⟩)
          · exact .inr (.inl h)
          · exact absurd h hn
          · exact .inr (.inr ⟨p, hp, .inl h.symm⟩)
      have htx : Texts (([count] ++ o.options.map fun o => strN (localName o.name meth)).filter (· ≠ count)) := by
        intro x hx
        rcases List.mem_append.1 (List.mem_filter.1 hx).1 with h | h
        · exact ht1 x h
        · obtain ⟨p, _, rfl⟩ := List.mem_map.1 h
          rw [tail_str]
          exact .inl rfl
      have hin : ∀ p ∈ o.options, okN (localName p.name meth) ∈ (vs ++ o.options.flatMap fun o => [arrN (localName o.name meth),
          okN (localName o.name meth)]) ++ [count] ∧ strN (localName p.name meth) ∈ ((vs ++ o.options.flatMap fun o =>
          [arrN (localName o.name meth), okN (localName o.name meth)]) ++ [count]) ++
          ([count] ++ o.options.map fun o => strN (localName o.name meth)).filter (· ≠ count) := by
        intro p hp
        refine ⟨List.mem_append_left _ (List.mem_append_right _ (List.mem_flatMap.2 ⟨p, hp, by simp⟩)), ?_⟩
        exact List.mem_append_right _ (List.mem_filter.2 ⟨List.mem_append_right _ (List.mem_map.2 ⟨p, hp, rfl⟩),
          decide_eq_true (hcS _)⟩)
      rcases cases_run hpk (meth := meth) h4 ho.options htx hin hall with ⟨h5, h6⟩ | ⟨h5, c', vs', us', h6, h7, h8, h9⟩
      · exact .inl ⟨fun h => h5 h.wrappers, run_append_none h6⟩
      · refine .inr ⟨⟨hcn ▸ hc, hcn ▸ h1, h5⟩, c', ?_, ?_⟩
        · rw [run_append_some h6]; rfl
        · have hus : us' = [] := by
            refine List.eq_nil_iff_forall_not_mem.2 fun x hx => ?_
            obtain ⟨a, b⟩ := h9 x hx
            have := List.mem_filter.1 a
            rcases List.mem_append.1 this.1 with h | h
            · exact of_decide_eq_true this.2 (List.mem_singleton.1 h)
            · obtain ⟨p, hp, he⟩ := List.mem_map.1 h
              exact b p hp he.symm
          subst hus
          refine (h7.congr (fun x => ?_) (fun _ => Iff.rfl)).one
          rw [hall, ← h8, List.append_nil]

theorem oneofs_run {g : Outer} (hpk : ∀ x ∈ pkgs, g.value x = true) {meth : Str} : ∀ {os : List HOneof} {c : Block}
    {vs : List Str}, Inv c vs → (∀ o ∈ os, PlainOneof o) →
    (¬OneofsOK g (Strs.goCamelCase meth) vs os ∧ run g [c] (os.flatMap (oneofEvs meth)) = none) ∨
    (OneofsOK g (Strs.goCamelCase meth) vs os ∧ ∃ c' vs', run g [c] (os.flatMap (oneofEvs meth)) = some [c'] ∧ Inv c' vs') := by
  intro os
  induction os with
  | nil => intro c vs hI _; exact .inr ⟨trivial, c, vs, rfl, hI⟩
  | cons o os ih =>
    intro c vs hI hf
    rw [List.flatMap_cons]
    unfold OneofsOK
    rcases oneofEvs_run hpk hI (meth := meth) (hf o List.mem_cons_self) with ⟨h1, h2⟩ | ⟨h1, c', h2, h3⟩
    · exact .inl ⟨fun h => h1 h.1, run_append_none h2⟩
    · rw [run_append_some h2]
      rcases ih h3 (fun f' hf' => hf f' (List.mem_cons_of_mem _ hf')) with ⟨h4, h5⟩ | ⟨h4, c'', vs', h5, h6⟩
      · exact .inl ⟨fun h => h4 h.2, h5⟩
      · exact .inr ⟨⟨h1, h4⟩, c'', vs', h5, h6⟩

def pre1 : List Ev := [U "context", U "http", P "r", U "r"]
def pre2 : List Ev :=
  [V "req", U "ioutil", U "r", S ["buf", "err"]] ++ errReturn [U "errors"] ++
  [U "buf", .opn, U "protojson", S ["unmarshaller"], .opn, U "unmarshaller", U "buf", U "req", A "err", U "err", .opn,
    P "size", U "buf", U "size", .opn, U "buf", U "size", A "buf", .cls, T "httpError", U "errors", U "err", U "buf",
    U "http", .cls, .cls, .cls,
    U "mux", U "r", S ["pathParams"], U "pathParams", U "r", S ["queryParams"], U "queryParams"]

theorem decoderPre_eq (req : Str) : decoderPre req = pre1 ++ ([.type req] ++ pre2) := rfl

def lowBlock : Block := lows.map fun x => (x, true)

theorem lowBlock_inv : Inv lowBlock [] where
  look := fun x => by
    rw [look_true (by decide +kernel)]
    unfold lowBlock
    simp only [declared_map, List.not_mem_nil, or_false]
  upper := nofun

/-- What the decoder needs besides the fields. -/
abbrev decoderSees : Outer := lists (transportImports false false) ["httpError".toList]

theorem decoderPre_run {g : Outer} (hle : (decoderSees).le g) {req : Str} (h1 : upper req = true) (h2 : g.type req = true) :
    run g [[]] (decoderPre req) = some [lowBlock] := by
  have e1 : run (decoderSees) [[]] pre1 = some [[("r".toList, true)]] := by decide +kernel
  have e2 : run (decoderSees) [[("r".toList, true)]] pre2 = some [lowBlock] := by decide +kernel
  rw [decoderPre_eq, run_append_some (run_mono hle e1), List.cons_append, List.nil_append]
  rw [run_cons_some (bs' := [[("r".toList, true)]])]
  · exact run_mono hle e2
  · simp only [step]
    rw [if_neg, if_pos h2]
    intro h
    rw [captured_iff] at h
    have hr : req = "r".toList := List.mem_singleton.1 h
    rw [hr] at h1
    revert h1
    decide +kernel

theorem pkgs_seen : ∀ x ∈ pkgs, (decoderSees).value x = true := by decide +kernel

/-- The decoder is accepted under the stated conditions. -/
theorem decoder_iff {g : Outer} (hle : (decoderSees).le g) {req meth : Str} (h1 : upper req = true) (h2 : g.type req = true)
    {fs : List HField} {os : List HOneof} (hf : ∀ f ∈ fs, f.location ≠ "body".toList → Plain f)
    (ho : ∀ o ∈ os, o.location = "query".toList → PlainOneof o) :
    FuncOK g (decoder req meth fs os) ↔ DecoderOK g (Strs.goCamelCase meth) (fs.filter fun f => f.location ≠ "body".toList)
      (os.filter fun o => o.location = "query".toList) := by
  have hpk : ∀ x ∈ pkgs, g.value x = true := fun x hx => hle.1 x (pkgs_seen x hx)
  unfold FuncOK decoder DecoderOK
  have hf' : ∀ f ∈ fs.filter fun f => f.location ≠ "body".toList, Plain f := fun f hm =>
    hf f (List.mem_filter.1 hm).1 (of_decide_eq_true (List.mem_filter.1 hm).2)
  have ho' : ∀ o ∈ os.filter fun o => o.location = "query".toList, PlainOneof o := fun o hm =>
    ho o (List.mem_filter.1 hm).1 (of_decide_eq_true (List.mem_filter.1 hm).2)
  generalize (fs.filter fun f => decide (f.location ≠ "body".toList)) = fs at hf' ⊢
  generalize (os.filter fun o => decide (o.location = "query".toList)) = os at ho' ⊢
  rw [List.cons_append, run_cons_some (bs' := [[]]) rfl, List.append_assoc, List.append_assoc, List.append_assoc,
    run_append_some (decoderPre_run hle h1 h2)]
  rcases fields_run hpk (meth := meth) lowBlock_inv hf' with ⟨a, b⟩ | ⟨a, c, b, hI⟩
  · rw [run_append_none b]
    exact ⟨nofun, fun h => absurd h.1 a⟩
  · rw [run_append_some b]
    rw [List.nil_append] at hI
    rcases oneofs_run hpk (meth := meth) hI ho' with ⟨a', b'⟩ | ⟨a', c', vs', b', hI'⟩
    · rw [run_append_none b']
      exact ⟨nofun, fun h => absurd h.2 a'⟩
    · rw [run_append_some b']
      refine ⟨fun _ => ⟨a, a'⟩, fun _ => ?_⟩
      rw [show U "req" = Ev.use "req".toList from rfl, show U "err" = Ev.use "err".toList from rfl]
      rw [List.cons_append, run_fine (bs := [c']) (fine_last (y := "req".toList) (pre := []) (hI'.two.low (by decide +kernel)) nofun)]
      rw [List.cons_append, run_fine (bs := [c']) (fine_last (y := "err".toList) (pre := []) (hI'.two.low (by decide +kernel)) nofun)]
      refine run_cons_some ?_
      simp only [step]
      rw [if_pos]
      rw [all_iff]
      intro x hx
      rw [hI'.look] at hx
      split at hx <;> cases hx

end Baron.Locals
