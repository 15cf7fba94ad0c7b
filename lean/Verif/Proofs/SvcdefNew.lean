import Verif.Spec.Svcdef

namespace Baron.Svcdef

theorem isOneofIface_eq (t : GoTypeSpec) : isOneofIface t = IsOneof t := by
  unfold isOneofIface IsOneof
  cases t.spec <;> simp only
  cases hasPrefix t.name "Unsafe".toList <;> cases hasSuffix t.name "Server".toList <;>
    cases hasPrefix t.name "is".toList <;> rfl

theorem serverIface_eq (t : GoTypeSpec) : serverIface t = if IsServer t then some (members t) else none := by
  unfold serverIface IsServer members
  cases t.spec <;> simp only [Bool.false_eq_true, if_false]
  cases hasPrefix t.name "Unsafe".toList <;> cases hasSuffix t.name "Server".toList <;> rfl

/-! ## Services -/

theorem trimSuffix_append {s p : Str} (h : hasSuffix s p = true) : trimSuffix s p ++ p = s := by
  unfold trimSuffix
  rw [if_pos h]
  unfold hasSuffix at h
  rw [List.isPrefixOf_iff_prefix] at h
  obtain ⟨t, ht⟩ := h
  have : s = t.reverse ++ p := by
    have := congrArg List.reverse ht
    simp at this
    exact this.symm
  rw [this]
  simp

theorem makeFieldType_ok {t : GoType} {ft : FieldType} (h : makeFieldType t = .ok ft) :
    PointerTo t ft.name ∧ ft.enum = none ∧ ft.message = none ∧ ft.map = none ∧ ft.oneof = [] := by
  unfold makeFieldType at h
  split at h
  · simp only [Except.ok.injEq] at h; subst h; exact ⟨.inr ⟨_, rfl⟩, rfl, rfl, rfl, rfl⟩
  · simp only [Except.ok.injEq] at h; subst h; exact ⟨.inl rfl, rfl, rfl, rfl, rfl⟩
  · cases h
  · cases h

theorem newServiceMethod_ok {n : Str} {fn} {r : ServiceMethod} (h : newServiceMethod n fn = .ok r) :
    r.name = n ∧ r.bindings = [] ∧ ∃ ctx rq more rs more', fn = some (ctx :: rq :: more, some (rs :: more')) ∧
      PointerTo rq r.request.name ∧ PointerTo rs r.response.name := by
  match fn, h with
  | none, h => cases h
  | some (_, none), h => cases h
  | some ([], some _), h => cases h
  | some ([_], some _), h => cases h
  | some (_ :: _ :: _, some []), h => cases h
  | some (ctx :: rq :: more, some (rs :: more')), h =>
    unfold newServiceMethod at h
    simp only at h
    cases ha : makeFieldType rq with
    | error e => rw [ha] at h; cases h
    | ok a =>
      cases hb : makeFieldType rs with
      | error e => rw [ha, hb] at h; cases h
      | ok b =>
        rw [ha, hb] at h
        simp only [bind, Except.bind, Except.ok.injEq] at h
        subst h
        exact ⟨rfl, rfl, _, _, _, _, _, rfl, (makeFieldType_ok ha).1, (makeFieldType_ok hb).1⟩

theorem newMethods_ok {ms : List GoMember} {rs : List ServiceMethod} (h : newMethods ms = .ok rs) :
    All2 (fun (m : GoMember) (r : ServiceMethod) => m.names.head? = some r.name ∧
      ∃ ctx rq more rs more', m.func = some (ctx :: rq :: more, some (rs :: more')) ∧
        PointerTo rq r.request.name ∧ PointerTo rs r.response.name)
    (ms.filter fun m => m.names.head?.any exported) rs := by
  induction ms generalizing rs with
  | nil =>
    simp only [newMethods, Except.ok.injEq] at h
    subst h
    exact .nil
  | cons m ms ih =>
    unfold newMethods at h
    cases hn : m.names with
    | nil => rw [hn] at h; cases h
    | cons n ns =>
      rw [hn] at h
      simp only at h
      by_cases he : exported n = true
      · rw [if_neg (by rw [he]; decide)] at h
        cases h1 : newServiceMethod n m.func with
        | error e => rw [h1] at h; cases h
        | ok x =>
          cases h2 : newMethods ms with
          | error e => rw [h1, h2] at h; cases h
          | ok xs =>
            rw [h1, h2] at h
            simp only [bind, Except.bind, Except.ok.injEq] at h
            subst h
            rw [List.filter_cons_of_pos (by rw [hn]; exact he)]
            obtain ⟨a, -, b⟩ := newServiceMethod_ok h1
            exact .cons ⟨by rw [hn, a]; rfl, b⟩ (ih h2)
      · rw [if_pos (by simpa using he)] at h
        rw [List.filter_cons_of_neg (by rw [hn]; exact he)]
        exact ih h

theorem newService_ok {t : GoTypeSpec} (ht : IsServer t = true) {s : Service}
    (h : newService t.name (members t) = .ok s) : ServiceOf t s := by
  unfold newService at h
  cases hm : newMethods (members t) with
  | error e => rw [hm] at h; cases h
  | ok ms =>
    rw [hm] at h
    simp only [Except.map, Except.ok.injEq] at h
    subst h
    refine ⟨?_, newMethods_ok hm⟩
    have : hasSuffix t.name "Server".toList = true := by
      unfold IsServer at ht
      cases hs : t.spec <;> rw [hs] at ht <;> simp only [Bool.and_eq_true, Bool.false_eq_true] at ht
      exact ht.1
    exact trimSuffix_append this

/-- The service a list of type declarations leads to. -/
def LastService (ts : List GoTypeSpec) (s0 s : Option Service) : Prop :=
  match (ts.filter IsServer).getLast? with
  | none => s = s0
  | some t => ∃ x, s = some x ∧ newService t.name (members t) = .ok x

theorem services_ok {ts : List GoTypeSpec} {s0 s : Option Service} (h : services ts s0 = .ok s) : LastService ts s0 s := by
  unfold LastService
  induction ts generalizing s0 with
  | nil => simp only [services, Except.ok.injEq] at h; exact h.symm
  | cons t ts ih =>
    unfold services at h
    rw [serverIface_eq] at h
    by_cases ht : IsServer t = true
    · rw [if_pos ht] at h
      simp only at h
      cases hn : newService t.name (members t) with
      | error e => rw [hn] at h; cases h
      | ok x =>
        rw [hn] at h
        simp only [bind, Except.bind] at h
        have := ih h
        rw [List.filter_cons_of_pos ht]
        cases hl : ts.filter IsServer with
        | nil =>
          rw [hl] at this
          simp only [List.getLast?_singleton]
          exact ⟨x, this, hn⟩
        | cons a l =>
          rw [hl] at this
          rw [List.getLast?_cons_cons]
          exact this
    · rw [if_neg ht] at h
      rw [List.filter_cons_of_neg ht]
      exact ih h

/-! ## Messages and enums -/

theorem newMessage_name {unq g n fs m} (h : newMessage unq g n fs = .ok m) : m.name = n := by
  unfold newMessage at h
  cases hf : newFields unq g fs with
  | error e => rw [hf] at h; cases h
  | ok l => rw [hf] at h; simp only [Except.map, Except.ok.injEq] at h; subst h; rfl

theorem newField_name {unq g n f x} (h : newField unq g n f = .ok x) : x.name = n := by
  unfold newField at h
  cases h1 : pbNameOf unq f.tag with
  | error e => rw [h1] at h; cases h
  | ok a =>
    cases h2 : follow g f.type emptyType with
    | error e => rw [h1, h2] at h; cases h
    | ok b =>
      rw [h1, h2] at h
      simp only [bind, Except.bind, Except.ok.injEq] at h
      subst h; rfl

theorem newFields_names {unq g fs xs} (h : newFields unq g fs = .ok xs) :
    xs.map Field.name = (fs.filter keptField).map fun f => f.names.headD [] := by
  induction fs generalizing xs with
  | nil => simp only [newFields, Except.ok.injEq] at h; subst h; rfl
  | cons f fs ih =>
    unfold newFields at h
    cases hn : f.names with
    | nil => rw [hn] at h; cases h
    | cons n ns =>
      rw [hn] at h
      simp only at h
      by_cases hk : (hasPrefix n "XXX_".toList || !exported n) = true
      · rw [if_pos hk] at h
        have : keptField f = false := by
          unfold keptField
          rw [hn]
          simp only [List.head?_cons, Option.any_some]
          revert hk
          cases hasPrefix n "XXX_".toList <;> cases exported n <;> decide
        rw [List.filter_cons_of_neg (by rw [this]; decide)]
        exact ih h
      · rw [if_neg hk] at h
        have : keptField f = true := by
          unfold keptField
          rw [hn]
          simp only [List.head?_cons, Option.any_some]
          revert hk
          cases hasPrefix n "XXX_".toList <;> cases exported n <;> decide
        rw [List.filter_cons_of_pos this, List.map_cons, hn]
        cases h1 : newField unq g n f with
        | error e => rw [h1] at h; cases h
        | ok x =>
          cases h2 : newFields unq g fs with
          | error e => rw [h1, h2] at h; cases h
          | ok xs' =>
            rw [h1, h2] at h
            simp only [bind, Except.bind, Except.ok.injEq] at h
            subst h
            rw [List.map_cons, newField_name h1, ih h2]
            rfl

theorem declared_ok {unq g types ts r} (h : declared unq g types ts = .ok r) :
    r.2 = (ts.filter IsEnum).map GoTypeSpec.name ∧
    r.1.map Message.name = ((ts.filter IsExportedStruct).map GoTypeSpec.name).filter fun n => (lastEntry types n).isNone := by
  induction ts generalizing r with
  | nil => simp only [declared, Except.ok.injEq] at h; subst h; exact ⟨rfl, rfl⟩
  | cons t ts ih =>
    unfold declared at h
    cases hs : t.spec with
    | ident n =>
      rw [hs] at h
      simp only at h
      have hst : IsExportedStruct t = false := by unfold IsExportedStruct; rw [hs]
      rw [List.filter_cons_of_neg (p := IsExportedStruct) (by rw [hst]; decide)]
      by_cases hn : n = "int32".toList
      · have he : IsEnum t = true := by unfold IsEnum; rw [hs, hn]; exact decide_eq_true rfl
        rw [if_pos hn] at h
        cases h1 : declared unq g types ts with
        | error e => rw [h1] at h; cases h
        | ok r' =>
          rw [h1] at h
          simp only [bind, Except.bind, Except.ok.injEq] at h
          subst h
          rw [List.filter_cons_of_pos he]
          exact ⟨by rw [List.map_cons, (ih h1).1], (ih h1).2⟩
      · have he : IsEnum t = false := by
          unfold IsEnum; rw [hs]
          apply decide_eq_false
          intro e; injection e with e; exact hn e
        rw [if_neg hn] at h
        rw [List.filter_cons_of_neg (by rw [he]; decide)]
        exact ih h
    | struct fs =>
      rw [hs] at h
      simp only at h
      have he : IsEnum t = false := by
        unfold IsEnum; rw [hs]
        apply decide_eq_false
        intro e; cases e
      rw [List.filter_cons_of_neg (by rw [he]; decide)]
      by_cases hx : exported t.name = true
      · have hst : IsExportedStruct t = true := by unfold IsExportedStruct; rw [hs]; exact hx
        rw [List.filter_cons_of_pos (p := IsExportedStruct) hst, List.map_cons]
        cases hl : (lastEntry types t.name).isNone with
        | true =>
          rw [hx, hl] at h
          simp only [Bool.and_self, if_true] at h
          cases hm : newMessage unq g t.name fs with
          | error e => rw [hm] at h; cases h
          | ok m =>
            cases h1 : declared unq g types ts with
            | error e => rw [hm, h1] at h; cases h
            | ok r' =>
              rw [hm, h1] at h
              simp only [bind, Except.bind, Except.ok.injEq] at h
              subst h
              rw [List.filter_cons_of_pos (by rw [hl])]
              exact ⟨(ih h1).1, by rw [List.map_cons, (ih h1).2, newMessage_name hm]⟩
        | false =>
          rw [hx, hl] at h
          simp only [Bool.and_false, Bool.false_eq_true, if_false] at h
          rw [List.filter_cons_of_neg (by rw [hl]; decide)]
          exact ih h
      · have hst : IsExportedStruct t = false := by
          unfold IsExportedStruct; rw [hs]; simpa using hx
        have hx : exported t.name = false := by simpa using hx
        rw [hx] at h
        simp only [Bool.false_and, Bool.false_eq_true, if_false] at h
        rw [List.filter_cons_of_neg (p := IsExportedStruct) (by rw [hst]; decide)]
        exact ih h
    | iface ms =>
      rw [hs] at h
      have he : IsEnum t = false := by
        unfold IsEnum; rw [hs]
        apply decide_eq_false
        intro e; cases e
      have hst : IsExportedStruct t = false := by unfold IsExportedStruct; rw [hs]
      rw [List.filter_cons_of_neg (by rw [he]; decide), List.filter_cons_of_neg (p := IsExportedStruct) (by rw [hst]; decide)]
      exact ih h
    | other =>
      rw [hs] at h
      have he : IsEnum t = false := by
        unfold IsEnum; rw [hs]
        apply decide_eq_false
        intro e; cases e
      have hst : IsExportedStruct t = false := by unfold IsExportedStruct; rw [hs]
      rw [List.filter_cons_of_neg (by rw [he]; decide), List.filter_cons_of_neg (p := IsExportedStruct) (by rw [hst]; decide)]
      exact ih h

/-! ## Oneofs -/

theorem oneofTypes_ok {ifaces : List Str} {fns r} (h : oneofTypes ifaces fns = .ok r) :
    r.map (·.1) = (fns.filterMap fun fn => match fn.recv with
      | some (.star (.ident n)) => if fn.name ∈ ifaces then some n else none
      | _ => none) ∧ ∀ e ∈ r, e.2 ∈ ifaces := by
  induction fns generalizing r with
  | nil => simp only [oneofTypes, Except.ok.injEq] at h; subst h; exact ⟨rfl, by simp⟩
  | cons f fs ih =>
    unfold oneofTypes at h
    by_cases hc : ifaces.contains f.name = true
    · rw [if_pos hc] at h
      have hm : f.name ∈ ifaces := by simpa using hc
      split at h
      · rename_i n hr
        cases h1 : oneofTypes ifaces fs with
        | error e => rw [h1] at h; cases h
        | ok r' =>
          rw [h1] at h
          simp only [bind, Except.bind, Except.ok.injEq] at h
          subst h
          refine ⟨?_, ?_⟩
          · rw [List.filterMap_cons, hr]
            simp only [hm, if_true, List.map_cons, (ih h1).1]
          · intro e he
            rcases List.mem_cons.mp he with rfl | he
            · exact hm
            · exact (ih h1).2 e he
      · cases h
    · rw [if_neg hc] at h
      have hm : f.name ∉ ifaces := by simpa using hc
      refine ⟨?_, (ih h).2⟩
      rw [List.filterMap_cons]
      have : (match f.recv with
        | some (.star (.ident n)) => if f.name ∈ ifaces then some n else none
        | _ => none) = none := by
        split
        · rw [if_neg hm]
        · rfl
      rw [this]
      exact (ih h).1

theorem lastEntry_none (m : List (Str × Str)) (n : Str) : lastEntry m n = none ↔ n ∉ m.map (·.1) := by
  unfold lastEntry
  rw [Option.map_eq_none_iff, List.find?_eq_none]
  simp only [List.mem_reverse, decide_eq_true_eq, List.mem_map, not_exists, not_and]

theorem lastEntry_mem {m : List (Str × Str)} {n i : Str} (h : lastEntry m n = some i) : ∃ e ∈ m, e.2 = i := by
  unfold lastEntry at h
  obtain ⟨e, he, rfl⟩ := Option.map_eq_some_iff.mp h
  exact ⟨e, List.mem_reverse.mp (List.mem_of_find?_eq_some he), rfl⟩

theorem oneofTypes_nil (fns) : oneofTypes [] fns = .ok [] := by
  induction fns with
  | nil => rfl
  | cons f fs ih => unfold oneofTypes; rw [if_neg (by simp)]; exact ih

theorem collectOneofs_nil (unq) (ts g) : collectOneofs unq [] ts g = .ok g := by
  induction ts with
  | nil => rfl
  | cons t ts ih =>
    unfold collectOneofs
    have : lastEntry [] t.name = none := rfl
    split
    · split
      · rw [this]; exact ih
      · exact ih
    · exact ih

/-- The interfaces of `oneofs` after the second loop. -/
theorem add_keys (g : Oneofs) (k : Str) (f : OneofField) : ∀ n, (g.add k f).get n ≠ none → g.get n ≠ none ∨ n = k := by
  intro n
  induction g with
  | nil =>
    intro h
    right
    unfold Oneofs.add Oneofs.get at h
    rw [ne_eq, Option.map_eq_none_iff, List.find?_eq_none] at h
    simp only [List.mem_singleton, forall_eq, decide_eq_true_eq, Classical.not_not] at h
    exact h.symm
  | cons e g ih =>
    intro h
    unfold Oneofs.add at h
    by_cases he : e.1 = k
    · rw [if_pos he] at h
      by_cases hn : e.1 = n
      · right; rw [← hn, he]
      · left
        unfold Oneofs.get at h ⊢
        rw [List.find?_cons_of_neg (by simpa using hn)] at h
        rw [List.find?_cons_of_neg (by simpa using hn)]
        exact h
    · rw [if_neg he] at h
      by_cases hn : e.1 = n
      · left
        unfold Oneofs.get
        rw [List.find?_cons_of_pos (by simpa using hn)]
        simp
      · have h' : (Oneofs.add g k f).get n ≠ none := by
          unfold Oneofs.get at h ⊢
          rw [List.find?_cons_of_neg (by simpa using hn)] at h
          exact h
        rcases ih h' with h | h
        · left
          unfold Oneofs.get at h ⊢
          rw [List.find?_cons_of_neg (by simpa using hn)]
          exact h
        · exact .inr h

theorem collectOneofs_keys {unq types ts} {g g' : Oneofs} (h : collectOneofs unq types ts g = .ok g') :
    ∀ n, g'.get n ≠ none → g.get n ≠ none ∨ ∃ e ∈ types, e.2 = n := by
  induction ts generalizing g with
  | nil => simp only [collectOneofs, Except.ok.injEq] at h; subst h; exact fun n hn => .inl hn
  | cons t ts ih =>
    unfold collectOneofs at h
    split at h
    · split at h
      · cases hl : lastEntry types t.name with
        | none => rw [hl] at h; exact ih h
        | some iface =>
          rw [hl] at h
          simp only at h
          rename_i fs _ _
          cases hm : newMessage unq g t.name fs with
          | error e => rw [hm] at h; cases h
          | ok m =>
            rw [hm] at h
            simp only [bind, Except.bind] at h
            split at h
            · cases h
            · intro n hn
              rcases ih h n hn with h' | h'
              · rcases add_keys _ _ _ n h' with h'' | h''
                · exact .inl h''
                · right; rw [h'']; exact lastEntry_mem hl
              · exact .inr h'
      · exact ih h
    · exact ih h

/-! ## Independence of unrelated oneofs -/

theorem follow_congr (g g' : Oneofs) (t : GoType) (acc : FieldType) (h : ∀ n ∈ identsOf t, g.get n = g'.get n) :
    follow g t acc = follow g' t acc := by
  induction t generalizing acc with
  | ident n => unfold follow; rw [h n (by simp [identsOf])]
  | star t ih => unfold follow; exact ih _ h
  | array t ih => unfold follow; exact ih _ h
  | map k v _ _ => rfl
  | sel p n => rfl
  | other => rfl

theorem newFields_congr (unq) (g g' : Oneofs) (fs : List GoField)
    (h : ∀ n ∈ fs.flatMap fun x => identsOf x.type, g.get n = g'.get n) : newFields unq g fs = newFields unq g' fs := by
  induction fs with
  | nil => rfl
  | cons f fs ih =>
    have hf : ∀ n, newField unq g n f = newField unq g' n f := by
      intro n
      unfold newField
      rw [follow_congr g g' f.type emptyType fun x hx => h x (by rw [List.flatMap_cons]; exact List.mem_append_left _ hx)]
    unfold newFields
    rw [ih fun n hn => h n (by rw [List.flatMap_cons]; exact List.mem_append_right _ hn)]
    split
    · rfl
    · rename_i n ns _
      rw [hf n]

theorem declared_congr (unq) (g g' : Oneofs) (types) (ts : List GoTypeSpec)
    (h : ∀ n ∈ (ts.flatMap fun t => match t.spec with
      | .struct fs => fs.flatMap fun x => identsOf x.type
      | _ => []), g.get n = g'.get n) : declared unq g types ts = declared unq g' types ts := by
  induction ts with
  | nil => rfl
  | cons t ts ih =>
    have ih := ih fun n hn => h n (by rw [List.flatMap_cons]; exact List.mem_append_right _ hn)
    unfold declared
    rw [ih]
    cases hs : t.spec with
    | struct fs =>
      have : newMessage unq g t.name fs = newMessage unq g' t.name fs := by
        unfold newMessage
        rw [newFields_congr unq g g' fs fun n hn => h n (by
          rw [List.flatMap_cons, hs]; exact List.mem_append_left _ hn)]
      simp only [this]
    | _ => rfl

end Baron.Svcdef
