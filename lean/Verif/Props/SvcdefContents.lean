import Verif.Props.SvcdefNew
import Verif.Props.SvcdefTags

/-!
# C37, contents: the messages found are the exported structs with their fields, types and oneof options
-/

namespace Baron.Svcdef

theorem TagName.ok {unq tag n a} (h : TagName unq tag n) (hp : pbNameOf unq tag = .ok a) : a = n := by
  cases h with
  | none => simp only [pbNameOf, Except.ok.injEq] at hp; exact hp.symm
  | pb hw hm hpre he hq =>
    rw [C39_name unq _ _ _ _ _ _ _ _ _ hw hm hpre he hq] at hp
    simpa using hp.symm

theorem newField_split {unq g n f x} (h : newField unq g n f = .ok x) :
    ∃ pb t, pbNameOf unq f.tag = .ok pb ∧ follow g f.type emptyType = .ok t ∧ x = ⟨n, pb, t⟩ := by
  unfold newField at h
  cases h1 : pbNameOf unq f.tag with
  | error e => rw [h1] at h; cases h
  | ok a =>
    cases h2 : follow g f.type emptyType with
    | error e => rw [h1, h2] at h; cases h
    | ok b =>
      rw [h1, h2] at h
      simp only [bind, Except.bind, Except.ok.injEq] at h
      exact ⟨a, b, rfl, rfl, h.symm⟩

/-- The options a type gets. -/
def optionsIn (g : Oneofs) (ty : GoType) : List OneofField := (identsOf ty).flatMap fun n => (g.get n).getD []

theorem follow_oneof (g : Oneofs) : ∀ (ty : GoType) (acc t : FieldType), acc.oneof = [] →
    follow g ty acc = .ok t → t.oneof = optionsIn g ty
  | .ident n, acc, t, ha, h => by
    simp only [follow, Except.ok.injEq] at h
    subst h
    simp [optionsIn, identsOf, ha]
  | .star x, acc, t, ha, h => by
    simp only [follow] at h
    exact follow_oneof g x { acc with star := true } t ha h
  | .array x, acc, t, ha, h => by
    simp only [follow] at h
    exact follow_oneof g x { acc with name := if acc.array then '[' :: ']' :: acc.name else acc.name, array := true } t ha h
  | .map k v, acc, t, ha, h => by
    simp only [follow] at h
    cases hm : newMap k v with
    | error e => rw [hm] at h; cases h
    | ok m =>
      rw [hm] at h
      simp only [Except.map, Except.ok.injEq] at h
      subst h
      simp [optionsIn, identsOf, ha]
  | .sel p n, acc, t, ha, h => by
    simp only [follow, Except.ok.injEq] at h
    subst h
    simp [optionsIn, identsOf, ha]
  | .other, acc, t, ha, h => by
    simp only [follow, Except.ok.injEq] at h
    subst h
    simp [optionsIn, identsOf, ha]

/-- One field, relative to the options known. -/
def FieldIn (unq : Str → Option Str) (g : Oneofs) (y : GoField) (x : Field) : Prop :=
  y.names.head? = some x.name ∧ (∀ n, TagName unq y.tag n → x.pbName = n) ∧
  ((∃ t, TypeShape y.type t) → TypeShape y.type x.type) ∧ x.type.oneof = optionsIn g y.type

theorem newFields_all {unq g fs xs} (h : newFields unq g fs = .ok xs) : All2 (FieldIn unq g) (fs.filter keptField) xs := by
  induction fs generalizing xs with
  | nil => simp only [newFields, Except.ok.injEq] at h; subst h; exact .nil
  | cons f fs ih =>
    unfold newFields at h
    cases hn : f.names with
    | nil => rw [hn] at h; cases h
    | cons n ns =>
      rw [hn] at h
      simp only at h
      by_cases hk : (hasPrefix n "XXX_".toList || !exported n) = true
      · rw [if_pos hk] at h
        have : keptField f = false := by
          unfold keptField
          rw [hn]
          simp only [List.head?_cons, Option.any_some]
          revert hk
          cases hasPrefix n "XXX_".toList <;> cases exported n <;> decide
        rw [List.filter_cons_of_neg (by rw [this]; decide)]
        exact ih h
      · rw [if_neg hk] at h
        have : keptField f = true := by
          unfold keptField
          rw [hn]
          simp only [List.head?_cons, Option.any_some]
          revert hk
          cases hasPrefix n "XXX_".toList <;> cases exported n <;> decide
        rw [List.filter_cons_of_pos this]
        cases h1 : newField unq g n f with
        | error e => rw [h1] at h; cases h
        | ok x =>
          cases h2 : newFields unq g fs with
          | error e => rw [h1, h2] at h; cases h
          | ok xs' =>
            rw [h1, h2] at h
            simp only [bind, Except.bind, Except.ok.injEq] at h
            subst h
            refine .cons ⟨?_, ?_, fun ht => C37_field_type unq g n f x ht h1, ?_⟩ (ih h2)
            · rw [hn, newField_name h1]; rfl
            · obtain ⟨pb, t, hp, _, rfl⟩ := newField_split h1
              exact fun m hm => TagName.ok hm hp
            · obtain ⟨pb, t, _, ht, rfl⟩ := newField_split h1
              exact follow_oneof g _ _ _ rfl ht

theorem newMessage_all {unq g n fs m} (h : newMessage unq g n fs = .ok m) :
    m.name = n ∧ All2 (FieldIn unq g) (fs.filter keptField) m.fields := by
  refine ⟨newMessage_name h, ?_⟩
  unfold newMessage at h
  cases hf : newFields unq g fs with
  | error e => rw [hf] at h; cases h
  | ok l => rw [hf] at h; simp only [Except.map, Except.ok.injEq] at h; subst h; exact newFields_all hf

theorem declared_all {unq g types ts r} (h : declared unq g types ts = .ok r) :
    All2 (fun t m => m.name = t.name ∧ All2 (FieldIn unq g) (structFields t) m.fields)
      ((ts.filter IsExportedStruct).filter fun t => (lastEntry types t.name).isNone) r.1 := by
  induction ts generalizing r with
  | nil => simp only [declared, Except.ok.injEq] at h; subst h; exact .nil
  | cons t ts ih =>
    unfold declared at h
    cases hs : t.spec with
    | ident n =>
      rw [hs] at h
      simp only at h
      have hst : IsExportedStruct t = false := by unfold IsExportedStruct; rw [hs]
      rw [List.filter_cons_of_neg (p := IsExportedStruct) (by rw [hst]; decide)]
      by_cases hn : n = "int32".toList
      · rw [if_pos hn] at h
        cases h1 : declared unq g types ts with
        | error e => rw [h1] at h; cases h
        | ok r' =>
          rw [h1] at h
          simp only [bind, Except.bind, Except.ok.injEq] at h
          subst h
          exact ih (r := r') h1
      · rw [if_neg hn] at h
        exact ih h
    | struct fs =>
      rw [hs] at h
      simp only at h
      by_cases hx : exported t.name = true
      · have hst : IsExportedStruct t = true := by unfold IsExportedStruct; rw [hs]; exact hx
        rw [List.filter_cons_of_pos (p := IsExportedStruct) hst]
        cases hl : (lastEntry types t.name).isNone with
        | true =>
          rw [hx, hl] at h
          simp only [Bool.and_self, if_true] at h
          cases hm : newMessage unq g t.name fs with
          | error e => rw [hm] at h; cases h
          | ok m =>
            cases h1 : declared unq g types ts with
            | error e => rw [hm, h1] at h; cases h
            | ok r' =>
              rw [hm, h1] at h
              simp only [bind, Except.bind, Except.ok.injEq] at h
              subst h
              rw [List.filter_cons_of_pos (by rw [hl])]
              refine .cons ⟨(newMessage_all hm).1, ?_⟩ (ih h1)
              unfold structFields; rw [hs]; exact (newMessage_all hm).2
        | false =>
          rw [hx, hl] at h
          simp only [Bool.and_false, Bool.false_eq_true, if_false] at h
          rw [List.filter_cons_of_neg (by rw [hl]; decide)]
          exact ih h
      · have hst : IsExportedStruct t = false := by
          unfold IsExportedStruct; rw [hs]; simpa using hx
        have hx : exported t.name = false := by simpa using hx
        rw [hx] at h
        simp only [Bool.false_and, Bool.false_eq_true, if_false] at h
        rw [List.filter_cons_of_neg (p := IsExportedStruct) (by rw [hst]; decide)]
        exact ih h
    | iface ms =>
      rw [hs] at h
      have hst : IsExportedStruct t = false := by unfold IsExportedStruct; rw [hs]
      rw [List.filter_cons_of_neg (p := IsExportedStruct) (by rw [hst]; decide)]
      exact ih h
    | other =>
      rw [hs] at h
      have hst : IsExportedStruct t = false := by unfold IsExportedStruct; rw [hs]
      rw [List.filter_cons_of_neg (p := IsExportedStruct) (by rw [hst]; decide)]
      exact ih h

theorem get_add (g : Oneofs) (k : Str) (o : OneofField) (n : Str) :
    ((g.add k o).get n).getD [] = (g.get n).getD [] ++ (if n = k then [o] else []) := by
  induction g with
  | nil =>
    by_cases h : n = k
    · subst h; simp [Oneofs.add, Oneofs.get]
    · simp [Oneofs.add, Oneofs.get, h, Ne.symm h]
  | cons e g ih =>
    unfold Oneofs.add
    by_cases he : e.1 = k
    · rw [if_pos he]
      by_cases hn : e.1 = n
      · have : n = k := by rw [← hn, he]
        simp [Oneofs.get, hn, this]
      · have : n ≠ k := by rw [← he]; exact Ne.symm hn
        simp [Oneofs.get, hn, this]
    · rw [if_neg he]
      by_cases hn : e.1 = n
      · have : n ≠ k := by rw [← hn]; exact he
        simp [Oneofs.get, hn, this]
      · have h1 : ∀ (g' : Oneofs), Oneofs.get (e :: g') n = Oneofs.get g' n := by
          intro g'; unfold Oneofs.get; rw [List.find?_cons_of_neg (by simpa using hn)]
        rw [h1, h1]; exact ih

theorem All2.append {α β : Type} {R : α → β → Prop} {a b : List α} {c d : List β} (h1 : All2 R a c) (h2 : All2 R b d) :
    All2 R (a ++ b) (c ++ d) := by
  induction h1 with
  | nil => exact h2
  | cons h _ ih => exact .cons h ih

theorem All2.imp {α β : Type} {R S : α → β → Prop} (h : ∀ a b, R a b → S a b) {l : List α} {l' : List β}
    (hl : All2 R l l') : All2 S l l' := by
  induction hl with
  | nil => exact .nil
  | cons hh _ ih => exact .cons (h _ _ hh) ih

theorem collectOneofs_all {unq types ts} {g g' : Oneofs} (h : collectOneofs unq types ts g = .ok g') (n : Str) :
    ∃ os, (g'.get n).getD [] = (g.get n).getD [] ++ os ∧
      All2 (OptionOf unq) ((ts.filter IsExportedStruct).filter fun t => lastEntry types t.name = some n) os := by
  induction ts generalizing g with
  | nil => simp only [collectOneofs, Except.ok.injEq] at h; subst h; exact ⟨[], by simp, .nil⟩
  | cons t ts ih =>
    unfold collectOneofs at h
    cases hs : t.spec with
    | struct fs =>
      rw [hs] at h
      simp only at h
      by_cases hx : exported t.name = true
      · rw [if_pos hx] at h
        have hst : IsExportedStruct t = true := by unfold IsExportedStruct; rw [hs]; exact hx
        rw [List.filter_cons_of_pos (p := IsExportedStruct) hst]
        cases hl : lastEntry types t.name with
        | none =>
          rw [hl] at h
          rw [List.filter_cons_of_neg (by rw [hl]; simp)]
          exact ih h
        | some iface =>
          rw [hl] at h
          simp only at h
          cases hm : newMessage unq g t.name fs with
          | error e => rw [hm] at h; cases h
          | ok m =>
            rw [hm] at h
            simp only [bind, Except.bind] at h
            have hall := (newMessage_all hm).2
            cases hf : m.fields with
            | nil => rw [hf] at h; cases h
            | cons x xs =>
              rw [hf] at h hall
              simp only at h
              obtain ⟨os, ho, ha⟩ := ih h
              rw [get_add] at ho
              generalize hk : fs.filter keptField = ys at hall
              cases hall with
              | @cons y _ ys' _ hxy _ =>
                have hopt : OptionOf unq t (wrapperField t.name x) := by
                  refine ⟨rfl, y, ?_, hxy.1, hxy.2.1, fun hsh => ⟨_, hxy.2.2.1 hsh, rfl, rfl, rfl⟩⟩
                  unfold structFields; rw [hs]; simp only [hk, List.head?_cons]
                by_cases hn : n = iface
                · subst hn
                  refine ⟨wrapperField t.name x :: os, ?_, ?_⟩
                  · rw [ho, if_pos rfl]; simp
                  · rw [List.filter_cons_of_pos (by rw [hl]; simp)]
                    exact .cons hopt ha
                · refine ⟨os, ?_, ?_⟩
                  · rw [ho, if_neg hn]; simp
                  · rw [List.filter_cons_of_neg (by rw [hl]; simpa using Ne.symm hn)]
                    exact ha
      · rw [if_neg hx] at h
        have hst : IsExportedStruct t = false := by unfold IsExportedStruct; rw [hs]; simpa using hx
        rw [List.filter_cons_of_neg (p := IsExportedStruct) (by rw [hst]; decide)]
        exact ih h
    | iface ms =>
      rw [hs] at h
      have hst : IsExportedStruct t = false := by unfold IsExportedStruct; rw [hs]
      rw [List.filter_cons_of_neg (p := IsExportedStruct) (by rw [hst]; decide)]
      exact ih h
    | ident ms =>
      rw [hs] at h
      have hst : IsExportedStruct t = false := by unfold IsExportedStruct; rw [hs]
      rw [List.filter_cons_of_neg (p := IsExportedStruct) (by rw [hst]; decide)]
      exact ih h
    | other =>
      rw [hs] at h
      have hst : IsExportedStruct t = false := by unfold IsExportedStruct; rw [hs]
      rw [List.filter_cons_of_neg (p := IsExportedStruct) (by rw [hst]; decide)]
      exact ih h

theorem oneofTypes_last {ifaces : List Str} {fns : List GoFunc} {r} (h : oneofTypes ifaces fns = .ok r) (s : Str) :
    lastEntry r s = (fns.filterMap fun fn =>
      if fn.recv = some (.star (.ident s)) ∧ fn.name ∈ ifaces then some fn.name else none).getLast? := by
  have key : ((r.filter fun e => e.1 = s).map (·.2)) = fns.filterMap fun fn =>
      if fn.recv = some (.star (.ident s)) ∧ fn.name ∈ ifaces then some fn.name else none := by
    induction fns generalizing r with
    | nil => simp only [oneofTypes, Except.ok.injEq] at h; subst h; rfl
    | cons f fns ih =>
      unfold oneofTypes at h
      by_cases hc : ifaces.contains f.name = true
      · rw [if_pos hc] at h
        have hc' : f.name ∈ ifaces := by simpa using hc
        split at h
        · rename_i n hr
          cases h1 : oneofTypes ifaces fns with
          | error e => rw [h1] at h; cases h
          | ok r' =>
            rw [h1] at h
            simp only [bind, Except.bind, Except.ok.injEq] at h
            subst h
            by_cases hn : n = s
            · subst hn
              rw [List.filter_cons_of_pos (by simp), List.map_cons, ih h1,
                List.filterMap_cons_some (b := f.name)]
              rw [if_pos ⟨hr, hc'⟩]
            · rw [List.filter_cons_of_neg (by simpa using hn), ih h1, List.filterMap_cons_none]
              rw [if_neg]
              rintro ⟨h2, _⟩
              rw [hr] at h2
              injection h2 with h2; injection h2 with h2; injection h2 with h2
              exact hn h2
        · cases h
      · rw [if_neg hc] at h
        have hc' : f.name ∉ ifaces := by simpa using hc
        rw [ih h, List.filterMap_cons_none]
        rw [if_neg]
        exact fun hh => hc' hh.2
  rw [← key]
  unfold lastEntry
  rw [← List.head?_filter, ← List.head?_reverse, ← List.map_reverse, List.head?_map, List.filter_reverse]

theorem lastEntry_implements {f : GoFile} {r} (h : oneofTypes ((f.types.filter isOneofIface).map GoTypeSpec.name) f.funcs = .ok r)
    (s : Str) : lastEntry r s = implements f s := by
  rw [oneofTypes_last h s, filter_iface]
  rfl

theorem identsOf_cases (ty : GoType) : identsOf ty = [] ∨ ∃ n, identsOf ty = [n] := by
  induction ty with
  | ident n => exact .inr ⟨n, rfl⟩
  | star t ih => exact ih
  | array t ih => exact ih
  | map k v => exact .inl rfl
  | sel p n => exact .inl rfl
  | other => exact .inl rfl

theorem TableOf.options {unq g f} (h : TableOf unq g f) (ty : GoType) :
    All2 (OptionOf unq) (optionStructs f ty) (optionsIn g ty) := by
  unfold optionsIn optionStructs
  rcases identsOf_cases ty with h0 | ⟨n, h0⟩
  · rw [h0]
    simp only [List.any_nil, List.flatMap_nil]
    rw [List.filter_eq_nil_iff.2 (fun a _ => by simp)]
    exact .nil
  · rw [h0]
    simp only [List.flatMap_cons, List.flatMap_nil, List.append_nil, List.any_cons, List.any_nil, Bool.or_false]
    exact h n

theorem declared_table {unq g types ts r f} (h : declared unq g types ts = .ok r) (ht : TableOf unq g f) :
    All2 (MessageOf unq f) ((ts.filter IsExportedStruct).filter fun t => (lastEntry types t.name).isNone) r.1 := by
  refine All2.imp (fun t m hm => ⟨hm.1, All2.imp (fun y z hz => ⟨hz.1, hz.2.1, hz.2.2.1, ?_⟩) hm.2⟩) (declared_all h)
  rw [hz.2.2.2]
  exact ht.options y.type

theorem add_ne (g : Oneofs) (k : Str) (o : OneofField) : g.add k o ≠ [] := by
  cases g with
  | nil => simp [Oneofs.add]
  | cons e g => unfold Oneofs.add; split <;> simp

theorem collectOneofs_ne {unq types ts} {g g' : Oneofs} (h : collectOneofs unq types ts g = .ok g') :
    g' ≠ [] ↔ g ≠ [] ∨ ∃ t ∈ ts, IsExportedStruct t = true ∧ (lastEntry types t.name).isSome = true := by
  induction ts generalizing g with
  | nil => simp only [collectOneofs, Except.ok.injEq] at h; subst h; simp
  | cons t ts ih =>
    have skip : (IsExportedStruct t = true → lastEntry types t.name = none) → collectOneofs unq types ts g = .ok g' →
        (g' ≠ [] ↔ g ≠ [] ∨ ∃ x ∈ t :: ts, IsExportedStruct x = true ∧ (lastEntry types x.name).isSome = true) := by
      intro h0 hc
      rw [ih hc]
      constructor
      · rintro (h | ⟨x, hx, h⟩)
        · exact .inl h
        · exact .inr ⟨x, List.mem_cons_of_mem _ hx, h⟩
      · rintro (h | ⟨x, hx, h1, h2⟩)
        · exact .inl h
        · rcases List.mem_cons.1 hx with rfl | hx
          · rw [h0 h1] at h2; cases h2
          · exact .inr ⟨x, hx, h1, h2⟩
    unfold collectOneofs at h
    split at h
    · rename_i fs hs
      split at h
      · rename_i he
        split at h
        · rename_i hl
          exact skip (fun _ => hl) h
        · rename_i iface hl
          cases hm : newMessage unq g t.name fs with
          | error e => rw [hm] at h; cases h
          | ok m =>
            rw [hm] at h
            simp only [bind, Except.bind] at h
            split at h
            · cases h
            · rw [ih h]
              constructor
              · intro _
                refine .inr ⟨t, List.mem_cons_self, ?_, by rw [hl]; rfl⟩
                unfold IsExportedStruct; rw [hs]; exact he
              · intro _
                exact .inl (add_ne _ _ _)
      · rename_i he
        refine skip (fun h' => ?_) h
        unfold IsExportedStruct at h'; rw [hs] at h'; exact absurd h' he
    · rename_i hs
      refine skip (fun h' => ?_) h
      unfold IsExportedStruct at h'
      split at h'
      · rename_i fs hs'; exact absurd hs' (hs fs)
      · cases h'

/-- One file in a process whose table is empty. -/
theorem newFile_empty {unq acc f r} (h : newFile unq [] acc f = .ok r) :
    (∃ x, r.2.messages = acc.messages ++ x ∧
      All2 (MessageOf unq f) ((structs f).filter fun t => (implements f t.name).isNone) x) ∧
    TableOf unq r.1 f ∧ (r.1 ≠ [] ↔ HasWrapper f = true) := by
  obtain ⟨types, x, h1, h2, h3, _, h5, _⟩ := newFile_ok h
  simp only [fileTypes, if_true] at h1
  simp only [fileOneofs, if_true] at h2
  have hl := fun s => lastEntry_implements h1 s
  have ht : TableOf unq r.1 f := by
    intro n
    obtain ⟨os, ho, ha⟩ := collectOneofs_all h2 n
    simp only [hl] at ha
    rw [ho, show ((Oneofs.get [] n).getD []) = [] from rfl, List.nil_append]
    exact ha
  have hd := declared_table h3 ht
  simp only [hl] at hd
  refine ⟨⟨x.1, h5, hd⟩, ht, ?_⟩
  rw [collectOneofs_ne h2]
  simp only [hl]
  simp [HasWrapper]

theorem newFile_full {unq g acc f r} (hg : g ≠ []) (h : newFile unq g acc f = .ok r) :
    r.1 = g ∧ ∀ F, TableOf unq g F → ∃ x, r.2.messages = acc.messages ++ x ∧ All2 (MessageOf unq F) (structs f) x := by
  obtain ⟨types, x, h1, h2, h3, _, h5, _⟩ := newFile_ok h
  simp only [fileTypes, if_neg hg, Except.ok.injEq] at h1
  simp only [fileOneofs, if_neg hg, Except.ok.injEq] at h2
  refine ⟨h2.symm, fun F hF => ⟨x.1, h5, ?_⟩⟩
  rw [← h2] at h3
  have := declared_table h3 hF
  subst h1
  rw [List.filter_eq_self.2 (by intro a _; rfl)] at this
  exact this

theorem All2.map_left {α β γ : Type} {R : γ → β → Prop} (f : α → γ) {l : List α} {l' : List β}
    (h : All2 (fun a b => R (f a) b) l l') : All2 R (l.map f) l' := by
  induction h with
  | nil => exact .nil
  | cons hh _ ih => exact .cons hh ih

theorem newFiles_full {unq g acc F} (hg : g ≠ []) (hF : TableOf unq g F) {fs : List GoFile} {r}
    (h : newFiles unq g acc (fs.map some) = .ok r) :
    r.1 = g ∧ ∃ x, r.2.messages = acc.messages ++ x ∧
      All2 (fun p m => MessageOf unq p.1 p.2 m) (fs.flatMap fun f => (structs f).map fun t => (F, t)) x := by
  induction fs generalizing acc with
  | nil => simp only [List.map_nil, newFiles, Except.ok.injEq] at h; subst h; exact ⟨rfl, [], by simp, .nil⟩
  | cons f fs ih =>
    rw [List.map_cons] at h
    unfold newFiles at h
    cases hf : newFile unq g acc f with
    | error e => rw [hf] at h; cases h
    | ok r1 =>
      rw [hf] at h
      simp only [bind, Except.bind] at h
      obtain ⟨e1, e2⟩ := newFile_full hg hf
      obtain ⟨x, e3, e4⟩ := e2 F hF
      rw [e1] at h
      obtain ⟨i1, y, i2, i3⟩ := ih h
      refine ⟨i1, x ++ y, by rw [i2, e3]; simp, ?_⟩
      rw [List.flatMap_cons]
      exact .append (.map_left _ e4) i3

theorem newFiles_empty {unq acc} {fs : List GoFile} {r} (h : newFiles unq [] acc (fs.map some) = .ok r) :
    (∃ x, r.2.messages = acc.messages ++ x ∧ All2 (fun p m => MessageOf unq p.1 p.2 m) (freshMessages fs) x) ∧
    (r.1 ≠ [] ↔ ∃ f ∈ fs, HasWrapper f = true) ∧
    (∀ a f b, fs = a ++ f :: b → (∀ x ∈ a, HasWrapper x = false) → HasWrapper f = true → TableOf unq r.1 f) := by
  induction fs generalizing acc with
  | nil =>
    simp only [List.map_nil, newFiles, Except.ok.injEq] at h; subst h
    exact ⟨⟨[], by simp, .nil⟩, by simp, by simp⟩
  | cons f fs ih =>
    rw [List.map_cons] at h
    unfold newFiles at h
    cases hf : newFile unq [] acc f with
    | error e => rw [hf] at h; cases h
    | ok r1 =>
      rw [hf] at h
      simp only [bind, Except.bind] at h
      obtain ⟨⟨x, e1, e2⟩, e3, e4⟩ := newFile_empty hf
      by_cases hw : HasWrapper f = true
      · have hne := e4.2 hw
        obtain ⟨i1, y, i2, i3⟩ := newFiles_full hne e3 h
        refine ⟨⟨x ++ y, by rw [i2, e1]; simp, ?_⟩, ⟨fun _ => ⟨f, List.mem_cons_self, hw⟩, fun _ => by rw [i1]; exact hne⟩, ?_⟩
        · rw [freshMessages, if_pos hw]
          exact .append (.map_left _ e2) i3
        · intro a f' b e ha hf'
          cases a with
          | nil =>
            simp only [List.nil_append, List.cons.injEq] at e
            rw [i1, ← e.1]; exact e3
          | cons z a =>
            simp only [List.cons_append, List.cons.injEq] at e
            rw [← e.1] at ha
            rw [ha f List.mem_cons_self] at hw; cases hw
      · have h0 : r1.1 = [] := Classical.byContradiction fun hc => hw (e4.1 hc)
        rw [h0] at h
        obtain ⟨⟨y, i1, i2⟩, i3, i4⟩ := ih h
        refine ⟨⟨x ++ y, by rw [i1, e1]; simp, ?_⟩, ?_, ?_⟩
        · rw [freshMessages, if_neg hw]
          exact .append (.map_left _ e2) i2
        · rw [i3]
          constructor
          · rintro ⟨z, hz, h⟩; exact ⟨z, List.mem_cons_of_mem _ hz, h⟩
          · rintro ⟨z, hz, h⟩
            rcases List.mem_cons.1 hz with rfl | hz
            · exact absurd h hw
            · exact ⟨z, hz, h⟩
        · intro a f' b e ha hf'
          cases a with
          | nil =>
            simp only [List.nil_append, List.cons.injEq] at e
            rw [← e.1] at hf'; exact absurd hf' hw
          | cons z a =>
            simp only [List.cons_append, List.cons.injEq] at e
            exact i4 a f' b e.2 (fun x hx => ha x (List.mem_cons_of_mem _ hx)) hf'

theorem mem_wrappers (f : GoFile) (n : Str) : n ∈ wrappers f ↔ (implements f n).isSome = true := by
  unfold wrappers implements
  rw [List.getLast?_isSome, Ne, List.filterMap_eq_nil_iff]
  simp only [List.mem_filterMap]
  constructor
  · rintro ⟨fn, h1, h2⟩ hc
    have := hc fn h1
    split at h2
    · rename_i m hm
      split at h2
      · rename_i hi
        simp only [Option.some.injEq] at h2
        subst h2
        rw [if_pos ⟨hm, hi⟩] at this; cases this
      · cases h2
    · cases h2
  · intro h
    refine Classical.byContradiction fun hc => h fun fn hfn => ?_
    rw [if_neg]
    rintro ⟨h1, h2⟩
    exact hc ⟨fn, hfn, by rw [h1]; simp only; rw [if_pos h2]⟩

theorem spec_structs (f : GoFile) :
    specMessages f = ((structs f).filter fun t => (implements f t.name).isNone).map GoTypeSpec.name := by
  unfold specMessages structs
  rw [List.filter_map]
  congr 1
  apply List.filter_congr
  intro t _
  simp only [Function.comp]
  rw [decide_not, ← Option.not_isSome]
  congr 1
  rw [Bool.eq_iff_iff, decide_eq_true_iff]
  exact mem_wrappers f t.name

theorem All2.names {unq} {l : List (GoFile × GoTypeSpec)} {l' : List Message}
    (h : All2 (fun p m => MessageOf unq p.1 p.2 m) l l') : l'.map Message.name = l.map fun p => p.2.name := by
  induction h with
  | nil => rfl
  | cons hh _ ih => rw [List.map_cons, List.map_cons, ih, hh.1]

/-- Names of all exported structs. -/
theorem spec_len (f : GoFile) : (specMessages f).length ≤ ((structs f).map GoTypeSpec.name).length ∧
    ((specMessages f).length = ((structs f).map GoTypeSpec.name).length ↔ HasWrapper f = false) ∧
    (HasWrapper f = false → specMessages f = (structs f).map GoTypeSpec.name) := by
  rw [spec_structs]
  simp only [List.length_map]
  have hw : HasWrapper f = false ↔ ∀ t ∈ structs f, (implements f t.name).isNone = true := by
    unfold HasWrapper structs
    rw [List.any_eq_false]
    simp only [List.mem_filter, Bool.and_eq_true, not_and, Bool.not_eq_true, Option.isSome_eq_false_iff, and_imp]
  refine ⟨List.length_filter_le _ _, ?_, ?_⟩
  · rw [hw, List.length_filter_eq_length_iff]
  · rw [hw]; intro h; rw [List.filter_eq_self.2 h]

theorem flatMap_len_eq {α β : Type} (f g : α → List β) (l : List α) (hle : ∀ x ∈ l, (f x).length ≤ (g x).length)
    (h : (l.flatMap f).length = (l.flatMap g).length) : ∀ x ∈ l, (f x).length = (g x).length := by
  induction l with
  | nil => simp
  | cons a l ih =>
    have h1 := hle a List.mem_cons_self
    have h2 : (l.flatMap f).length ≤ (l.flatMap g).length := by
      have : ∀ m : List α, (∀ x ∈ m, (f x).length ≤ (g x).length) → (m.flatMap f).length ≤ (m.flatMap g).length := by
        intro m
        induction m with
        | nil => simp
        | cons b m ih' =>
          intro hm
          have := ih' fun x hx => hm x (List.mem_cons_of_mem _ hx)
          have := hm b List.mem_cons_self
          simp only [List.flatMap_cons, List.length_append]; omega
      exact this l fun x hx => hle x (List.mem_cons_of_mem _ hx)
    simp only [List.flatMap_cons, List.length_append] at h
    intro x hx
    rcases List.mem_cons.1 hx with rfl | hx
    · omega
    · exact ih (fun x hx => hle x (List.mem_cons_of_mem _ hx)) (by omega) x hx

theorem flatMap_spec_iff (fs : List GoFile) :
    (fs.flatMap fun f => (structs f).map GoTypeSpec.name) = fs.flatMap specMessages ↔ ∀ f ∈ fs, HasWrapper f = false := by
  constructor
  · intro h f hf
    have := flatMap_len_eq specMessages (fun f => (structs f).map GoTypeSpec.name) fs (fun x _ => (spec_len x).1)
      (by rw [h]) f hf
    exact (spec_len f).2.1.1 this
  · intro h
    induction fs with
    | nil => rfl
    | cons f fs ih =>
      rw [List.flatMap_cons, List.flatMap_cons, ih fun x hx => h x (List.mem_cons_of_mem _ hx),
        (spec_len f).2.2 (h f List.mem_cons_self)]

theorem fresh_names_iff (fs : List GoFile) :
    (freshMessages fs).map (fun p => p.2.name) = fs.flatMap specMessages ↔ (fs.filter HasWrapper).length ≤ 1 := by
  induction fs with
  | nil => simp [freshMessages]
  | cons f fs ih =>
    rw [freshMessages, List.map_append, List.map_map, List.flatMap_cons]
    have : ((structs f).filter fun t => (implements f t.name).isNone).map ((fun p : GoFile × GoTypeSpec => p.2.name) ∘ fun t => (f, t)) =
        specMessages f := by rw [spec_structs]; rfl
    rw [this, List.append_cancel_left_eq]
    by_cases hw : HasWrapper f = true
    · rw [if_pos hw, List.filter_cons_of_pos hw, List.length_cons]
      have e : (fs.flatMap fun x => (structs x).map fun t => (f, t)).map (fun p : GoFile × GoTypeSpec => p.2.name) =
          fs.flatMap fun f => (structs f).map GoTypeSpec.name := by
        rw [List.map_flatMap]
        congr 1
        funext x
        rw [List.map_map]; rfl
      rw [e, flatMap_spec_iff]
      constructor
      · intro h
        have : fs.filter HasWrapper = [] := List.filter_eq_nil_iff.2 fun x hx => by rw [h x hx]; simp
        rw [this]; simp
      · intro h x hx
        have : fs.filter HasWrapper = [] := List.length_eq_zero_iff.1 (by omega)
        have := List.filter_eq_nil_iff.1 this x hx
        simpa using this
    · rw [if_neg hw, ih, List.filter_cons_of_neg hw]

/-- **C37** In a fresh process, for any files in any order: the messages found are, one for one and in order, those of
`freshMessages`; each has the exported fields of its struct in order, each with its name, its protobuf name, the shape of
its type and, if it is a oneof known at that point, the options of that oneof in order, described by their wrapper
structs. Afterwards the table is empty exactly when no file had a wrapper, and otherwise holds the oneofs of the first
such file. -/
theorem C37_contents (unq : Str → Option Str) (fs : List GoFile) (g' : Oneofs) (r : Found)
    (h : newFiles unq [] nothing (fs.map some) = .ok (g', r)) :
    All2 (fun p m => MessageOf unq p.1 p.2 m) (freshMessages fs) r.messages ∧
    (g' ≠ [] ↔ ∃ f ∈ fs, HasWrapper f = true) ∧
    (∀ a f b, fs = a ++ f :: b → (∀ x ∈ a, HasWrapper x = false) → HasWrapper f = true → TableOf unq g' f) := by
  obtain ⟨⟨x, h1, h2⟩, h3, h4⟩ := newFiles_empty h
  simp only [nothing, List.nil_append] at h1
  rw [h1]
  exact ⟨h2, h3, h4⟩

/-- **C37** In a process whose table holds the oneofs of a file `F` (every run of `baron` builds two definitions, so this
is the one the code is generated from when there are oneofs): all exported structs are messages, oneof wrappers included,
and fields get their options from `F`; the table stays as it is. -/
theorem C37_contents_later (unq : Str → Option Str) (g : Oneofs) (F : GoFile) (hg : g ≠ []) (hF : TableOf unq g F)
    (fs : List GoFile) (g' : Oneofs) (r : Found) (h : newFiles unq g nothing (fs.map some) = .ok (g', r)) :
    All2 (fun p m => MessageOf unq p.1 p.2 m) (fs.flatMap fun f => (structs f).map fun t => (F, t)) r.messages ∧
    g' = g := by
  obtain ⟨h0, x, h1, h2⟩ := newFiles_full hg hF h
  simp only [nothing, List.nil_append] at h1
  rw [h1]
  exact ⟨h2, h0⟩

/-- **C37** The messages are exactly the exported structs that are not oneof wrappers, in the order the files are visited,
if and only if: no file has wrappers, or the table was empty before and only one file has wrappers. -/
theorem C37_messages_iff (unq : Str → Option Str) (g g' : Oneofs) (fs : List GoFile) (sd : Svcdef)
    (h : newDefs unq g (fs.map some) = .ok (g', sd)) :
    sd.messages.map Message.name = fs.flatMap specMessages ↔
      (fs.filter HasWrapper).length ≤ if g = [] then 1 else 0 := by
  by_cases hg : g = []
  · subst hg
    rw [if_pos rfl]
    obtain ⟨fs', r, he, hr, -, rfl⟩ := newDefs_ok h
    have : fs = fs' := by
      have := congrArg (List.filterMap id) he
      simpa using this
    subst this
    rw [resolve_names]
    obtain ⟨⟨x, h1, h2⟩, -, -⟩ := newFiles_empty hr
    simp only [nothing, List.nil_append] at h1
    rw [← fresh_names_iff, ← h2.names, h1]
  · rw [C37_second_call unq g g' fs sd hg h, if_neg hg]
    have := flatMap_spec_iff fs
    unfold structs at this
    rw [this, Nat.le_zero, List.length_eq_zero_iff, List.filter_eq_nil_iff]
    simp

/-- **C37** If no two structs share a name and no order of the files makes the extraction fail: every order finds the same
messages if and only if the table was not empty before or at most one file has oneof wrappers. -/
theorem C37_order_iff (unq : Str → Option Str) (g : Oneofs) (fs : List GoFile)
    (hn : (fs.flatMap fun f => (structs f).map GoTypeSpec.name).Nodup)
    (hall : ∀ fs', fs.Perm fs' → ∃ r, newDefs unq g (fs'.map some) = .ok r) :
    (∀ fs' r r', fs.Perm fs' → newDefs unq g (fs.map some) = .ok r → newDefs unq g (fs'.map some) = .ok r' →
      (r.2.messages.map Message.name).Perm (r'.2.messages.map Message.name)) ↔
    g ≠ [] ∨ (fs.filter HasWrapper).length ≤ 1 := by
  by_cases hg : g = []
  · subst hg
    simp only [ne_eq, not_true_eq_false, false_or]
    constructor
    · intro h
      refine Classical.byContradiction fun hc => ?_
      have h2 : 2 ≤ (fs.filter HasWrapper).length := by omega
      -- two different positions with wrappers
      have hsplit : ∃ f1 f2 rest, fs.Perm (f1 :: f2 :: rest) ∧ HasWrapper f1 = true ∧ HasWrapper f2 = true := by
        match hf : fs.filter HasWrapper, h2 with
        | f1 :: f2 :: l, _ =>
          refine ⟨f1, f2, l ++ fs.filter (fun x => !HasWrapper x), ?_, ?_, ?_⟩
          · have := List.filter_append_perm HasWrapper fs
            rw [hf] at this
            exact this.symm
          · have : f1 ∈ fs.filter HasWrapper := by rw [hf]; simp
            exact (List.mem_filter.1 this).2
          · have : f2 ∈ fs.filter HasWrapper := by rw [hf]; simp
            exact (List.mem_filter.1 this).2
        | [], h2 => simp at h2
        | [_], h2 => simp at h2
      obtain ⟨f1, f2, rest, hp, w1, w2⟩ := hsplit
      have names : ∀ fs' r', newDefs unq [] (fs'.map some) = .ok r' →
          r'.2.messages.map Message.name = (freshMessages fs').map fun p => p.2.name := by
        intro fs' r' hr
        obtain ⟨fs'', r, he, hr, -, hsd⟩ := newDefs_ok (g' := r'.1) (sd := r'.2) hr
        have : fs' = fs'' := by
          have := congrArg (List.filterMap id) he
          simpa using this
        subst this
        obtain ⟨⟨x, h1, h2⟩, -, -⟩ := newFiles_empty hr
        simp only [nothing, List.nil_append] at h1
        rw [hsd, resolve_names, ← h2.names, h1]
      obtain ⟨r0, hr0⟩ := hall fs (.refl _)
      obtain ⟨r1, hr1⟩ := hall _ hp
      have hp2 := hp.trans (List.Perm.swap f2 f1 rest)
      obtain ⟨r2, hr2⟩ := hall _ hp2
      have p1 := h _ _ _ hp hr0 hr1
      have p2 := h _ _ _ hp2 hr0 hr2
      have p := p1.symm.trans p2
      rw [names _ _ hr1, names _ _ hr2] at p
      -- a wrapper of `f1` is found in the second order only
      obtain ⟨t, ht1, ht2⟩ := List.any_eq_true.1 w1
      rw [Bool.and_eq_true] at ht2
      have hts : t ∈ structs f1 := List.mem_filter.2 ⟨ht1, ht2.1⟩
      have hin : t.name ∈ (freshMessages (f2 :: f1 :: rest)).map fun p => p.2.name := by
        rw [freshMessages, if_pos w2]
        simp only [List.flatMap_cons, List.map_append, List.mem_append]
        refine .inr (.inl ?_)
        rw [List.map_map]
        exact List.mem_map.2 ⟨t, hts, rfl⟩
      have hout := (p.mem_iff).2 hin
      have hnd : ((f1 :: f2 :: rest).flatMap fun f => (structs f).map GoTypeSpec.name).Nodup :=
        (hp.flatMap_right _).nodup_iff.1 hn
      rw [List.flatMap_cons, List.nodup_append] at hnd
      rw [freshMessages, if_pos w1, List.map_append, List.mem_append] at hout
      rcases hout with ho | ho
      · simp only [List.map_map, List.mem_map, List.mem_filter, Function.comp] at ho
        obtain ⟨t', ⟨h1, h2⟩, e⟩ := ho
        rw [e] at h2
        rw [Option.isNone_iff_eq_none] at h2
        rw [h2] at ht2
        exact absurd ht2.2 (by simp)
      · rw [List.map_flatMap] at ho
        refine hnd.2.2 t.name (List.mem_map_of_mem hts) t.name ?_ rfl
        obtain ⟨f, hf, hm⟩ := List.mem_flatMap.1 ho
        refine List.mem_flatMap.2 ⟨f, hf, ?_⟩
        rw [List.map_map] at hm
        exact hm
    · intro h1 fs' r r' hp hr hr'
      have h1' : (fs'.filter HasWrapper).length ≤ 1 := by rw [← (hp.filter _).length_eq]; exact h1
      rw [(C37_messages_iff unq [] r.1 fs r.2 hr).2 (by simpa using h1),
        (C37_messages_iff unq [] r'.1 fs' r'.2 hr').2 (by simpa using h1')]
      exact hp.flatMap_right _
  · refine ⟨fun _ => .inl hg, fun _ fs' r r' hp hr hr' => ?_⟩
    rw [C37_second_call unq g r.1 fs r.2 hg hr, C37_second_call unq g r'.1 fs' r'.2 hg hr']
    exact hp.flatMap_right _

open Example in
/-- A concrete case: `file1` above has the message `M` with the oneof `Choice` whose only option is `A`. -/
example : (match newFiles unq [] nothing [some file1] with
    | .ok (_, r) => r.messages.map fun m => (m.name, m.fields.map fun x => (x.name, x.type.name, x.type.oneof))
    | .error _ => []) =
    [(s "M", [(s "Choice", s "isM_Choice", [⟨s "A", s "a", s "string", false, false, s "M_A"⟩])])] := by decide +kernel

open Example in
/-- The table after a first definition of `file1` holds its oneofs, and a second definition succeeds with it. -/
example : ∃ g r, newFiles unq [] nothing [some file1] = .ok (g, r) ∧ g ≠ [] ∧ TableOf unq g file1 ∧
    ∃ r', newFiles unq g nothing [some file1] = .ok (g, r') ∧ r'.messages.map Message.name = [s "M", s "M_A"] := by
  have h : ∃ x, newFiles unq [] nothing [some file1] = .ok x :=
    ⟨_, by with_unfolding_all rfl⟩
  obtain ⟨⟨g, r⟩, h⟩ := h
  have hw : HasWrapper file1 = true := by decide +kernel
  have hc := C37_contents unq [file1] g r h
  have hg : g ≠ [] := hc.2.1.2 ⟨file1, by simp, hw⟩
  have ht := hc.2.2 [] file1 [] rfl (by simp) hw
  have e : (match newFiles unq [] nothing [some file1] with
      | .ok x => (newFiles unq x.1 nothing [some file1]).toOption.map fun y => y.2.messages.map Message.name
      | .error _ => none) = some [s "M", s "M_A"] := by decide +kernel
  rw [h] at e
  simp only at e
  cases h2 : newFiles unq g nothing [some file1] with
  | error e' => rw [h2] at e; cases e
  | ok y =>
    obtain ⟨g2, r2⟩ := y
    rw [h2] at e
    obtain ⟨-, rfl⟩ := C37_contents_later unq g file1 hg ht [file1] g2 r2 h2
    refine ⟨g2, r, h, hg, ht, r2, h2, ?_⟩
    simpa [Except.toOption] using e

open Example in
/-- Two files with oneofs: the order matters, and the hypotheses of `C37_order_iff` are met. -/
example : ([file1, file3].flatMap fun f => (structs f).map GoTypeSpec.name).Nodup ∧
    ([file1, file3].filter HasWrapper).length = 2 ∧
    (newDefs unq [] ([file1, file3].map some)).toOption.isSome = true ∧
    (newDefs unq [] ([file3, file1].map some)).toOption.isSome = true := by
  refine ⟨?_, ?_, ?_, ?_⟩ <;> decide +kernel

end Baron.Svcdef
