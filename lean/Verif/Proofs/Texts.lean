import Verif.Props.Depends
import Verif.Spec.Texts
import Verif.Proofs.HTTPPaths

/-!
# Parts of a template and their output
-/

namespace Baron.TT

open Baron.Svcdef Baron.HTTP

/-! ## Occurrence -/

theorem Occurs.refl (a : Str) : Occurs a a := ⟨[], [], by simp⟩

theorem Occurs.trans {a b c : Str} (h : Occurs a b) (h' : Occurs b c) : Occurs a c := by
  obtain ⟨A, B, rfl⟩ := h
  obtain ⟨C, D, rfl⟩ := h'
  exact ⟨C ++ A, B ++ D, by simp [List.append_assoc]⟩

theorem Occurs.left {a b : Str} (h : Occurs a b) (c : Str) : Occurs a (b ++ c) := h.trans ⟨[], c, by simp⟩
theorem Occurs.right {a b : Str} (h : Occurs a b) (c : Str) : Occurs a (c ++ b) := h.trans ⟨c, [], by simp⟩

theorem occurs_flatMap {α : Type} {f : α → Str} {l : List α} {a : α} (h : a ∈ l) : Occurs (f a) (l.flatMap f) := by
  obtain ⟨l1, l2, rfl⟩ := List.append_of_mem h
  refine ⟨l1.flatMap f, l2.flatMap f, ?_⟩
  rw [List.flatMap_append, List.flatMap_cons]

/-! ## Parts -/

/-- Without the first `k` nodes. -/
def Tmpl.skip : Nat → Tmpl → Tmpl
  | 0, t => t
  | k + 1, t => match t with
    | .nil => .nil
    | .text _ r => r.skip k
    | .action _ r => r.skip k
    | .cond _ _ _ r => r.skip k
    | .range _ _ _ r => r.skip k
    | .within _ _ _ r => r.skip k

/-- The first `k` nodes, and `n` characters of the next one if it is text. -/
def Tmpl.take : Nat → Nat → Tmpl → Tmpl
  | 0, n, t => match t with
    | .text s _ => .text (s.take n) .nil
    | _ => .nil
  | k + 1, n, t => match t with
    | .nil => .nil
    | .text s r => .text s (r.take k n)
    | .action e r => .action e (r.take k n)
    | .cond e a b r => .cond e a b (r.take k n)
    | .range x e b r => .range x e b (r.take k n)
    | .within x e b r => .within x e b (r.take k n)

/-- Without the first `n` characters of the first node, a text. -/
def Tmpl.chop (n : Nat) : Tmpl → Tmpl
  | .text s r => .text (s.drop n) r
  | t => t

/-- What is inside of the first node. -/
def Tmpl.body : Tmpl → Tmpl
  | .cond _ a _ _ => a
  | .range _ _ b _ => b
  | .within _ _ b _ => b
  | t => t

theorem exec_skip {k : Nat} {t : Tmpl} {vars : Vars} {dot : Val} {o : Str} (h : exec t vars dot = some o) :
    ∃ a b, exec (t.skip k) vars dot = some b ∧ o = a ++ b := by
  induction k generalizing t o with
  | zero => exact ⟨[], o, h, rfl⟩
  | succ k ih =>
    cases t with
    | nil => exact ⟨[], o, h, rfl⟩
    | text s r =>
      unfold exec at h
      cases hr : exec r vars dot with
      | none => rw [hr] at h; cases h
      | some o' =>
        rw [hr] at h; cases h
        obtain ⟨a, b, h1, rfl⟩ := ih hr
        exact ⟨s ++ a, b, h1, by simp [List.append_assoc]⟩
    | action e r =>
      unfold exec at h
      split at h
      · rename_i s o' h1 h2
        cases h
        obtain ⟨a, b, h1, rfl⟩ := ih h2
        exact ⟨s ++ a, b, h1, by simp [List.append_assoc]⟩
      · cases h
    | cond e x y r =>
      unfold exec at h
      split at h
      · cases h
      · split at h
        · rename_i s o' h1 h2
          cases h
          obtain ⟨a, b, h1, rfl⟩ := ih h2
          exact ⟨s ++ a, b, h1, by simp [List.append_assoc]⟩
        · cases h
    | range x e y r =>
      unfold exec at h
      split at h
      · split at h
        · rename_i s o' h1 h2
          cases h
          obtain ⟨a, b, h1, rfl⟩ := ih h2
          exact ⟨s ++ a, b, h1, by simp [List.append_assoc]⟩
        · cases h
      · cases h
    | within x e y r =>
      unfold exec at h
      split at h
      · cases h
      · split at h
        · rename_i s o' h1 h2
          cases h
          obtain ⟨a, b, h1, rfl⟩ := ih h2
          exact ⟨s ++ a, b, h1, by simp [List.append_assoc]⟩
        · cases h

theorem exec_take {k n : Nat} {t : Tmpl} {vars : Vars} {dot : Val} {o : Str} (h : exec t vars dot = some o) :
    ∃ a b, exec (t.take k n) vars dot = some a ∧ o = a ++ b := by
  induction k generalizing t o with
  | zero =>
    cases t with
    | text s r =>
      unfold exec at h
      cases hr : exec r vars dot with
      | none => rw [hr] at h; cases h
      | some o' =>
        rw [hr] at h; cases h
        refine ⟨s.take n, s.drop n ++ o', ?_, ?_⟩
        · unfold Tmpl.take; simp [exec]
        · rw [← List.append_assoc, List.take_append_drop]
    | _ => exact ⟨[], o, rfl, rfl⟩
  | succ k ih =>
    cases t with
    | nil => exact ⟨[], o, rfl, rfl⟩
    | text s r =>
      unfold exec at h
      cases hr : exec r vars dot with
      | none => rw [hr] at h; cases h
      | some o' =>
        rw [hr] at h; cases h
        obtain ⟨a, b, h1, rfl⟩ := ih hr
        exact ⟨s ++ a, b, by simp only [Tmpl.take, exec, h1], by simp [List.append_assoc]⟩
    | action e r =>
      unfold exec at h
      split at h
      · rename_i s o' h1 h2
        cases h
        obtain ⟨a, b, h3, rfl⟩ := ih h2
        exact ⟨s ++ a, b, by simp only [Tmpl.take, exec, h1, h3], by simp [List.append_assoc]⟩
      · cases h
    | cond e x y r =>
      unfold exec at h
      split at h
      · cases h
      · rename_i v hv
        split at h
        · rename_i s o' h1 h2
          cases h
          obtain ⟨a, b, h3, rfl⟩ := ih h2
          exact ⟨s ++ a, b, by simp only [Tmpl.take, exec, hv, h1, h3], by simp [List.append_assoc]⟩
        · cases h
    | range x e y r =>
      unfold exec at h
      split at h
      · rename_i l hv
        split at h
        · rename_i s o' h1 h2
          cases h
          obtain ⟨a, b, h3, rfl⟩ := ih h2
          exact ⟨s ++ a, b, by simp only [Tmpl.take, exec, hv, h1, h3], by simp [List.append_assoc]⟩
        · cases h
      · cases h
    | within x e y r =>
      unfold exec at h
      split at h
      · cases h
      · rename_i v hv
        split at h
        · rename_i s o' h1 h2
          cases h
          obtain ⟨a, b, h3, rfl⟩ := ih h2
          exact ⟨s ++ a, b, by simp only [Tmpl.take, exec, hv, h1, h3], by simp [List.append_assoc]⟩
        · cases h

theorem exec_chop {n : Nat} {t : Tmpl} {vars : Vars} {dot : Val} {o : Str} (h : exec t vars dot = some o) :
    ∃ a b, exec (t.chop n) vars dot = some b ∧ o = a ++ b := by
  cases t with
  | text s r =>
    unfold exec at h
    cases hr : exec r vars dot with
    | none => rw [hr] at h; cases h
    | some o' =>
      rw [hr] at h; cases h
      exact ⟨s.take n, s.drop n ++ o', by simp only [Tmpl.chop, exec, hr], by rw [← List.append_assoc, List.take_append_drop]⟩
  | _ => exact ⟨[], o, h, rfl⟩

/-- A part of a template: from the node `k` without `c` characters, `j` nodes and `n` characters. -/
def Tmpl.part (k c j n : Nat) (t : Tmpl) : Tmpl := (((t.skip k).chop c).take j n)

theorem exec_part (k c j n : Nat) {t : Tmpl} {vars : Vars} {dot : Val} {o : Str} (h : exec t vars dot = some o) :
    ∃ a, exec (t.part k c j n) vars dot = some a ∧ Occurs a o := by
  obtain ⟨a1, b1, h1, rfl⟩ := exec_skip (k := k) h
  obtain ⟨a2, b2, h2, rfl⟩ := exec_chop (n := c) h1
  obtain ⟨a3, b3, h3, rfl⟩ := exec_take (k := j) (n := n) h2
  exact ⟨a3, h3, a1 ++ a2, b3, by simp [List.append_assoc]⟩

/-! ## Output, node by node -/

theorem exec_text {s o : Str} {r : Tmpl} {vars : Vars} {dot : Val} (h : exec r vars dot = some o) :
    exec (.text s r) vars dot = some (s ++ o) := by rw [exec, h]

theorem exec_text_nil {s : Str} {vars : Vars} {dot : Val} : exec (.text s .nil) vars dot = some s := by
  rw [exec, exec]; simp only [List.append_nil]

theorem exec_action {e : Expr} {s o : Str} {r : Tmpl} {vars : Vars} {dot : Val} (he : eval vars dot e = some (.str s))
    (h : exec r vars dot = some o) : exec (.action e r) vars dot = some (s ++ o) := by rw [exec, he, h]

theorem exec_cond {e : Expr} {a b r : Tmpl} {o o' : Str} {vars : Vars} {dot v : Val} (he : eval vars dot e = some v)
    (ha : (if v.truth then exec a vars dot else exec b vars dot) = some o) (h : exec r vars dot = some o') :
    exec (.cond e a b r) vars dot = some (o ++ o') := by rw [exec, he]; simp only [ha, h]

theorem exec_cond_nil {e : Expr} {a b : Tmpl} {o : Str} {vars : Vars} {dot v : Val} (he : eval vars dot e = some v)
    (ha : (if v.truth then exec a vars dot else exec b vars dot) = some o) :
    exec (.cond e a b .nil) vars dot = some o := by rw [exec, he]; simp only [ha, exec, List.append_nil]

theorem exec_cond_true {e : Expr} {a b r : Tmpl} {o o' : Str} {vars : Vars} {dot v : Val} (he : eval vars dot e = some v)
    (ht : v.truth = true) (ha : exec a vars dot = some o) (h : exec r vars dot = some o') :
    exec (.cond e a b r) vars dot = some (o ++ o') := exec_cond he (by rw [if_pos ht]; exact ha) h

theorem exec_cond_true_nil {e : Expr} {a b : Tmpl} {o : Str} {vars : Vars} {dot v : Val} (he : eval vars dot e = some v)
    (ht : v.truth = true) (ha : exec a vars dot = some o) : exec (.cond e a b .nil) vars dot = some o :=
  exec_cond_nil he (by rw [if_pos ht]; exact ha)

theorem exec_range {x : Option Str} {e : Expr} {b r : Tmpl} {o o' : Str} {vars : Vars} {dot : Val} {l : List Val}
    (he : eval vars dot e = some (.list l)) (hb : each (fun v => exec b (bind x v vars) v) l = some o)
    (h : exec r vars dot = some o') : exec (.range x e b r) vars dot = some (o ++ o') := by rw [exec, he]; simp only [hb, h]

theorem exec_range_nil {x : Option Str} {e : Expr} {b : Tmpl} {o : Str} {vars : Vars} {dot : Val} {l : List Val}
    (he : eval vars dot e = some (.list l)) (hb : each (fun v => exec b (bind x v vars) v) l = some o) :
    exec (.range x e b .nil) vars dot = some o := by rw [exec, he]; simp only [hb, exec, List.append_nil]

theorem exec_within {x : Option Str} {e : Expr} {b r : Tmpl} {o o' : Str} {vars : Vars} {dot v : Val}
    (he : eval vars dot e = some v) (ht : v.truth = true) (hb : exec b (bind x v vars) v = some o)
    (h : exec r vars dot = some o') : exec (.within x e b r) vars dot = some (o ++ o') := by
  rw [exec, he]; simp only [ht, hb, h, if_true]

theorem exec_within_nil {x : Option Str} {e : Expr} {b : Tmpl} {o : Str} {vars : Vars} {dot v : Val}
    (he : eval vars dot e = some v) (ht : v.truth = true) (hb : exec b (bind x v vars) v = some o) :
    exec (.within x e b .nil) vars dot = some o := by
  rw [exec, he]; simp only [ht, hb, exec, if_true, List.append_nil]

/-! ## Inside of a node -/

/-- The first node is a `range` with that variable and expression. -/
def Tmpl.ranges : Tmpl → Option (Option Str × Expr)
  | .range x e _ _ => some (x, e)
  | _ => none

/-- The first node is a `with`. -/
def Tmpl.withs : Tmpl → Option (Option Str × Expr)
  | .within x e _ _ => some (x, e)
  | _ => none

/-- The first node is an `if`. -/
def Tmpl.conds : Tmpl → Option Expr
  | .cond e _ _ _ => some e
  | _ => none

theorem each_mem {f : Val → Option Str} {l : List Val} {o : Str} (h : each f l = some o) {v : Val} (hv : v ∈ l) :
    ∃ a, f v = some a ∧ Occurs a o := by
  induction l generalizing o with
  | nil => cases hv
  | cons x l ih =>
    unfold each at h
    split at h
    · rename_i a b h1 h2
      cases h
      rcases List.mem_cons.mp hv with rfl | hv
      · exact ⟨a, h1, (Occurs.refl a).left b⟩
      · obtain ⟨c, h3, h4⟩ := ih h2 hv
        exact ⟨c, h3, h4.right a⟩
    · cases h

theorem exec_ranges {t : Tmpl} {x : Option Str} {e : Expr} (ht : t.ranges = some (x, e)) {vars : Vars} {dot : Val} {o : Str}
    (h : exec t vars dot = some o) {l : List Val} (he : eval vars dot e = some (.list l)) {v : Val} (hv : v ∈ l) :
    ∃ a, exec t.body (bind x v vars) v = some a ∧ Occurs a o := by
  cases t with
  | range y e' b r =>
    cases ht
    unfold exec at h
    rw [he] at h
    simp only at h
    split at h
    · rename_i o1 o2 h1 h2
      cases h
      obtain ⟨a, h3, h4⟩ := each_mem h1 hv
      exact ⟨a, h3, h4.left _⟩
    · cases h
  | _ => cases ht

theorem exec_withs {t : Tmpl} {x : Option Str} {e : Expr} (ht : t.withs = some (x, e)) {vars : Vars} {dot : Val} {o : Str}
    (h : exec t vars dot = some o) {v : Val} (he : eval vars dot e = some v) (hv : v.truth = true) :
    ∃ a, exec t.body (bind x v vars) v = some a ∧ Occurs a o := by
  cases t with
  | within y e' b r =>
    cases ht
    unfold exec at h
    rw [he] at h
    simp only [hv, if_true] at h
    split at h
    · rename_i o1 o2 h1 h2
      cases h
      exact ⟨o1, h1, (Occurs.refl o1).left _⟩
    · cases h
  | _ => cases ht

theorem exec_conds {t : Tmpl} {e : Expr} (ht : t.conds = some e) {vars : Vars} {dot : Val} {o : Str}
    (h : exec t vars dot = some o) {v : Val} (he : eval vars dot e = some v) (hv : v.truth = true) :
    ∃ a, exec t.body vars dot = some a ∧ Occurs a o := by
  cases t with
  | cond e' b c r =>
    cases ht
    unfold exec at h
    rw [he] at h
    simp only [hv, if_true] at h
    split at h
    · rename_i o1 o2 h1 h2
      cases h
      exact ⟨o1, h1, (Occurs.refl o1).left _⟩
    · cases h
  | _ => cases ht

/-! ## Lists -/

theorem sequence_all2 {α β : Type} {f : α → Option β} : ∀ {l : List α} {r : List β}, sequence (l.map f) = some r →
    All2 (fun a b => f a = some b) l r
  | [], _, h => by cases h; exact .nil
  | a :: l, _, h => by
    obtain ⟨x, r', h1, h2, rfl⟩ := sequence_cons h
    exact .cons h1 (sequence_all2 h2)

theorem each_all2 {α : Type} {R : α → Val → Prop} {f : Val → Option Str} {g : α → Str} {l : List α} {vs : List Val}
    (hl : All2 R l vs) (h : ∀ a v, R a v → f v = some (g a)) : each f vs = some (l.flatMap g) := by
  induction hl with
  | nil => rfl
  | cons hab _ ih => simp only [each, h _ _ hab, ih, List.flatMap_cons]

theorem take_one {α : Type} (a : α) (l : List α) (f : α → Str) : ((a :: l).take 1).flatMap f = f a := by
  rw [List.take_succ_cons, List.take_zero, List.flatMap_cons, List.flatMap_nil, List.append_nil]

theorem each_all2_mem {α : Type} {R : α → Val → Prop} {f : Val → Option Str} {g : α → Str} {l : List α} {vs : List Val}
    (hl : All2 R l vs) (h : ∀ a v, a ∈ l → R a v → f v = some (g a)) : each f vs = some (l.flatMap g) := by
  induction hl with
  | nil => rfl
  | cons hab _ ih =>
    simp only [each, h _ _ List.mem_cons_self hab, ih fun a v ha => h a v (List.mem_cons_of_mem _ ha), List.flatMap_cons]

theorem each_map {α : Type} {f : Val → Option Str} {v : α → Val} {g : α → Str} {l : List α}
    (h : ∀ a ∈ l, f (v a) = some (g a)) : each f (l.map v) = some (l.flatMap g) := by
  induction l with
  | nil => rfl
  | cons a l ih =>
    simp only [List.map_cons, each, h a List.mem_cons_self, ih fun b hb => h b (List.mem_cons_of_mem _ hb), List.flatMap_cons]

theorem all2_mem {α β : Type} {R : α → β → Prop} {l : List α} {l' : List β} (h : All2 R l l') {a : α} (ha : a ∈ l) :
    ∃ b ∈ l', R a b := by
  induction h with
  | nil => cases ha
  | cons hab _ ih =>
    rcases List.mem_cons.mp ha with rfl | ha
    · exact ⟨_, List.mem_cons_self, hab⟩
    · obtain ⟨b, hb, hR⟩ := ih ha
      exact ⟨b, List.mem_cons_of_mem _ hb, hR⟩

theorem all2_isEmpty {α β : Type} {R : α → β → Prop} {l : List α} {l' : List β} (h : All2 R l l') : l'.isEmpty = l.isEmpty := by
  cases h <;> rfl

/-! ## The data again -/

theorem binding_eq {fmt : Str → Str} {m : ServiceMethod} {i : Nat} {b : HTTPBinding} {v : Val} (h : bindingVal fmt m i b = some v) :
    ∃ (oneofs : List TOneof) (fields : List TField), sequence ((b.params.filter fun p => p.field.type.oneof.isEmpty && p.field.type.name ≠ []).map
        (newTField m.name)) = some fields ∧
      v = .struct [
      (chars% "Label", .str (m.name ++ HTTP.englishNumber i)), (chars% "PathTemplate", .str b.path),
      (chars% "BasePath", .str (HTTP.basePath b.path)), (chars% "Verb", .str b.verb),
      (chars% "Fields", .list (fields.map (fieldVal fmt))), (chars% "OneofFields", .list (oneofs.map (oneofVal fmt))),
      (chars% "Parent", .struct [(chars% "Name", .str m.name), (chars% "RequestType", .str m.request.name)]),
      (chars% "PathSections", .list ((pathSections b.path fields).map .str))] := by
  unfold bindingVal at h
  simp only at h
  split at h
  · rename_i oneofs fields h1 h2
    cases h
    exact ⟨oneofs, fields, h2, rfl⟩
  · cases h

/-- The value of a method in the HTTP helper. -/
def methodWith (m : ServiceMethod) (bs : List Val) : Val := .struct [(chars% "Name", .str m.name),
  (chars% "RequestType", .str m.request.name), (chars% "ResponseType", .str m.response.name), (chars% "Bindings", .list bs)]

theorem helperMethod_bindings {fmt : Str → Str} {m : ServiceMethod} {v : Val} (h : helperMethod fmt m = some v) :
    ∃ bs, All2 (fun (b : HTTPBinding × Nat) w => bindingVal fmt m b.2 b.1 = some w) m.bindings.zipIdx bs ∧ v = methodWith m bs := by
  unfold helperMethod at h
  cases hs : sequence (m.bindings.zipIdx.map fun b => bindingVal fmt m b.2 b.1) with
  | none => rw [hs] at h; cases h
  | some bs =>
    rw [hs] at h; cases h
    exact ⟨bs, sequence_all2 hs, rfl⟩

theorem helperMethod_first {fmt : Str → Str} {s : Service} {m : ServiceMethod} {v : Val} (hm : m ∈ httpRpcs s)
    (h : helperMethod fmt m = some v) :
    ∃ b l w ws, m.bindings = b :: l ∧ bindingVal fmt m 0 b = some w ∧ v = methodWith m (w :: ws) := by
  obtain ⟨bs, hbs, rfl⟩ := helperMethod_bindings h
  have hne := (List.mem_filter.mp hm).2
  cases hb : m.bindings with
  | nil => rw [hb] at hne; cases hne
  | cons b l =>
    rw [hb, List.zipIdx_cons] at hbs
    cases hbs with
    | cons h1 h2 => exact ⟨b, l, _, _, rfl, h1, rfl⟩

/-- The data of a definition, with the HTTP helper `ms`. -/
def dataWith (pkg : Str) (s : Service) (c : Config) (ms : List Val) : Val := .struct [(chars% "ImportPath", .str c.goPackage),
  (chars% "PBImportPath", .str c.pbPackage), (chars% "PackageName", .str pkg), (chars% "Service", serviceVal s),
  (chars% "HTTPHelper", .struct [(chars% "Methods", .list ms)]), (chars% "Version", .str c.version),
  (chars% "VersionDate", .str c.versionDate), (chars% "Config", .struct [(chars% "Transport", .str c.transport)])]

theorem render_data {fmt : Str → Str} {pkg : Str} {s : Service} {c : Config} {n src : Str} (hn : HTTP.look assets n = some src) {txt : Str}
    (h : render fmt pkg s c n = some txt) :
    ∃ ms, All2 (fun m v => helperMethod fmt m = some v) (httpRpcs s) ms ∧ ∃ t, parse src = some t ∧
      exec t [([], dataWith pkg s c ms)] (dataWith pkg s c ms) = some txt := by
  obtain ⟨hv, hh, -⟩ := helper_some fmt s
  obtain ⟨ms, h1, rfl, -⟩ := helper_eq hh
  rw [render_eq hn (newData_eq fmt pkg s c hh)] at h
  refine ⟨ms, sequence_all2 h1, ?_⟩
  unfold apply at h
  cases hp : parse src with
  | none => rw [hp] at h; cases h
  | some t => rw [hp] at h; exact ⟨t, rfl, h⟩

/-! ## Paths -/

theorem newTField_enum {meth : Str} {p : HTTPParameter} {f : TField} (h : newTField meth p = some f) :
    f.isEnum = p.field.type.enum.isSome ∧ f.camelName = Strs.goCamelCase p.field.name := by
  unfold newTField at h
  simp only at h
  split at h
  · cases h
  · cases h; exact ⟨rfl, rfl⟩

theorem all2_exists {α β : Type} {R : α → β → Prop} {l : List α} {l' : List β} (h : All2 R l l') {b : β} (hb : b ∈ l') :
    ∃ a ∈ l, R a b := by
  induction h with
  | nil => cases hb
  | cons hab _ ih =>
    rcases List.mem_cons.mp hb with rfl | hb
    · exact ⟨_, List.mem_cons_self, hab⟩
    · obtain ⟨a, ha, hR⟩ := ih hb
      exact ⟨a, List.mem_cons_of_mem _ ha, hR⟩

theorem enumParam_iff {m : ServiceMethod} {b : HTTPBinding} {fields : List TField}
    (h : sequence ((b.params.filter fun p => p.field.type.oneof.isEmpty && p.field.type.name ≠ []).map (newTField m.name)) = some fields)
    (n : Str) : (fields.any fun f => f.isEnum && f.camelName = Strs.goCamelCase n) = true ↔ EnumParam b n := by
  have h := sequence_all2 h
  rw [List.any_eq_true]
  constructor
  · rintro ⟨f, hf, h1⟩
    obtain ⟨p, hp, hfp⟩ := all2_exists h hf
    obtain ⟨e1, e2⟩ := newTField_enum hfp
    simp only [Bool.and_eq_true, decide_eq_true_eq] at h1
    rw [List.mem_filter, Bool.and_eq_true, decide_eq_true_eq, List.isEmpty_iff] at hp
    exact ⟨p, hp.1, hp.2.1, hp.2.2, e1 ▸ h1.1, e2 ▸ h1.2⟩
  · rintro ⟨p, hp, h1, h2, h3, h4⟩
    obtain ⟨f, hf, hfp⟩ := all2_mem h (a := p) (by
      rw [List.mem_filter, Bool.and_eq_true, decide_eq_true_eq, List.isEmpty_iff]
      exact ⟨hp, h1, h2⟩)
    obtain ⟨e1, e2⟩ := newTField_enum hfp
    refine ⟨f, hf, ?_⟩
    simp only [Bool.and_eq_true, decide_eq_true_eq]
    exact ⟨e1 ▸ h3, e2 ▸ h4⟩

theorem sections_eq {m : ServiceMethod} {b : HTTPBinding} {fields : List TField}
    (h : sequence ((b.params.filter fun p => p.field.type.oneof.isEmpty && p.field.type.name ≠ []).map (newTField m.name)) = some fields)
    {ps : List Piece} (ht : TemplateOK ps) (hb : b.path = templateOf ps) :
    pathSections b.path fields = (chars% "\"\"") :: ps.map (pieceText b) := by
  unfold pathSections
  rw [hb, split_template ht, List.map_cons, List.map_map]
  congr 1
  refine List.map_congr_left fun p hp => ?_
  cases p with
  | lit l =>
    have := isParam_lit (ht.lit l hp).2
    show (if isParamPart l = true then _ else _) = _
    rw [this]
    rfl
  | var n =>
    obtain ⟨-, h2, h3⟩ := ht.var n hp
    simp only [Function.comp_apply]
    rw [if_pos (isParam_var h3), removeBraces_var h2]
    unfold pieceText
    by_cases he : EnumParam b n
    · rw [if_pos ((enumParam_iff h n).mpr he)]
      simp only [if_pos he, List.append_assoc]
    · rw [if_neg (fun hc => he ((enumParam_iff h n).mp hc))]
      simp only [if_neg he, List.append_assoc]

end Baron.TT
