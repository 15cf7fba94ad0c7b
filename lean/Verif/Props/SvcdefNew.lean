import Verif.Proofs.SvcdefNew

/-!
# Service definition extraction (C37)
-/

namespace Baron.Svcdef

def nothing : Found := ⟨[], [], [], none⟩

/-- The file on its own in a fresh process. -/
def alone (unq : Str → Option Str) (f : GoFile) : Except NErr (Oneofs × Found) := newFile unq [] nothing f

def NoOneof (f : GoFile) : Prop := f.types.filter IsOneof = []

theorem filter_iface (f : GoFile) : f.types.filter isOneofIface = f.types.filter IsOneof :=
  List.filter_congr fun t _ => isOneofIface_eq t

theorem services_acc (ts : List GoTypeSpec) (s0 : Option Service) :
    services ts s0 = (services ts none).map fun s => s.or s0 := by
  induction ts generalizing s0 with
  | nil => simp [services, Except.map]
  | cons t ts ih =>
    unfold services
    cases hs : serverIface t with
    | none => exact ih s0
    | some ms =>
      simp only
      cases hn : newService t.name ms with
      | error e => rfl
      | ok x =>
        simp only [bind, Except.bind]
        rw [ih (some x)]
        cases services ts none with
        | error e => rfl
        | ok s =>
          simp only [Except.map]
          cases s <;> rfl

/-- A file without oneofs, none of whose fields has the type of a known oneof, gives the same whatever came before. -/
theorem newFile_plain (unq) (g : Oneofs) (acc : Found) (f : GoFile) (hf : NoOneof f)
    (hg : ∀ n ∈ fieldIdents f, g.get n = none) :
    newFile unq g acc f = (alone unq f).map fun r =>
      (g, ⟨f.pkg, acc.messages ++ r.2.messages, acc.enums ++ r.2.enums, r.2.service.or acc.service⟩) := by
  have hd : declared unq g [] f.types = declared unq [] [] f.types :=
    declared_congr unq g [] [] f.types fun n hn => by rw [hg n hn]; rfl
  have ho : ∀ g, fileTypes g f = .ok [] := by
    intro g
    unfold fileTypes
    split
    · rw [filter_iface, hf]; exact oneofTypes_nil _
    · rfl
  have hc : ∀ g, fileOneofs unq g [] f = .ok g := by
    intro g
    unfold fileOneofs
    split
    · exact collectOneofs_nil _ _ _
    · rfl
  unfold alone newFile
  rw [services_acc f.types acc.service, ho, ho]
  simp only [nothing]
  cases services f.types none with
  | error e => rfl
  | ok s =>
    simp only [Except.map, bind, Except.bind]
    rw [hc, hc]
    simp only
    rw [hd]
    cases declared unq [] [] f.types with
    | error e => rfl
    | ok r => rfl

/-- The first file with oneofs in a fresh process. -/
theorem newFile_fresh (unq) (acc : Found) (f : GoFile) :
    newFile unq [] acc f = (alone unq f).map fun r =>
      (r.1, ⟨f.pkg, acc.messages ++ r.2.messages, acc.enums ++ r.2.enums, r.2.service.or acc.service⟩) := by
  unfold alone newFile
  rw [services_acc f.types acc.service]
  simp only [nothing]
  cases services f.types none with
  | error e => rfl
  | ok s =>
    simp only [Except.map, bind, Except.bind]
    cases fileTypes [] f with
    | error e => rfl
    | ok types =>
      simp only
      cases fileOneofs unq [] types f with
      | error e => rfl
      | ok g' =>
        simp only
        cases declared unq g' types f.types with
        | error e => rfl
        | ok r => rfl

theorem alone_keys {unq f r} (h : alone unq f = .ok r) :
    ∀ n, r.1.get n ≠ none → n ∈ (f.types.filter IsOneof).map GoTypeSpec.name := by
  unfold alone newFile at h
  cases hs : services f.types nothing.service with
  | error e => rw [hs] at h; cases h
  | ok s =>
    rw [hs] at h
    simp only [bind, Except.bind] at h
    cases ho : fileTypes [] f with
    | error e => rw [ho] at h; cases h
    | ok types =>
      rw [ho] at h
      simp only at h
      cases hc : fileOneofs unq [] types f with
      | error e => rw [hc] at h; cases h
      | ok g' =>
        rw [hc] at h
        simp only at h
        cases hd : declared unq g' types f.types with
        | error e => rw [hd] at h; cases h
        | ok x =>
          rw [hd] at h
          simp only [Except.ok.injEq] at h
          subst h
          intro n hn
          unfold fileTypes at ho
          unfold fileOneofs at hc
          rw [if_pos rfl] at ho hc
          rw [filter_iface] at ho
          rcases collectOneofs_keys hc n hn with h1 | ⟨e, he, h1⟩
          · exact absurd rfl h1
          · rw [← h1]; exact (oneofTypes_ok ho).2 e he

/-- What a file contributes. -/
def msgsOf (unq : Str → Option Str) (f : GoFile) : List Message :=
  match alone unq f with
  | .ok r => r.2.messages
  | .error _ => []

def enumsOf (unq : Str → Option Str) (f : GoFile) : List Str :=
  match alone unq f with
  | .ok r => r.2.enums
  | .error _ => []

def aloneOK (unq : Str → Option Str) (f : GoFile) : Prop := ∃ r, alone unq f = .ok r

/-- At most one file declares oneofs, and only that file uses them. -/
structure OneFile (fs : List GoFile) : Prop where
  one : (fs.filter fun f => !(f.types.filter IsOneof).isEmpty).length ≤ 1
  closed : ∀ f ∈ fs, ∀ n ∈ fieldIdents f, ∀ F ∈ fs, n ∈ (F.types.filter IsOneof).map GoTypeSpec.name →
    n ∈ (f.types.filter IsOneof).map GoTypeSpec.name

theorem newFiles_plain (unq) (fs : List GoFile) (g : Oneofs) (acc : Found) (hn : ∀ f ∈ fs, NoOneof f)
    (hg : ∀ f ∈ fs, ∀ n ∈ fieldIdents f, g.get n = none) :
    ((∀ f ∈ fs, aloneOK unq f) → ∃ r, newFiles unq g acc (fs.map some) = .ok r) ∧
    (∀ r, newFiles unq g acc (fs.map some) = .ok r → (∀ f ∈ fs, aloneOK unq f) ∧
      r.2.messages = acc.messages ++ fs.flatMap (msgsOf unq) ∧ r.2.enums = acc.enums ++ fs.flatMap (enumsOf unq)) := by
  induction fs generalizing acc with
  | nil =>
    refine ⟨fun _ => ⟨_, rfl⟩, fun r h => ?_⟩
    simp only [List.map_nil, newFiles, Except.ok.injEq] at h
    subst h
    exact ⟨by simp, by simp, by simp⟩
  | cons f fs ih =>
    have hn' : ∀ f ∈ fs, NoOneof f := fun x hx => hn x (by simp [hx])
    have hg' : ∀ f ∈ fs, ∀ n ∈ fieldIdents f, g.get n = none := fun x hx => hg x (by simp [hx])
    rw [List.map_cons, newFiles, newFile_plain unq g acc f (hn f (by simp)) (hg f (by simp))]
    refine ⟨fun hok => ?_, fun r h => ?_⟩
    · obtain ⟨r, hr⟩ := hok f (by simp)
      rw [hr]
      simp only [Except.map, bind, Except.bind]
      exact (ih _ hn' hg').1 fun x hx => hok x (by simp [hx])
    · cases hr : alone unq f with
      | error e => rw [hr] at h; cases h
      | ok r1 =>
        rw [hr] at h
        simp only [Except.map, bind, Except.bind] at h
        obtain ⟨h1, h2, h3⟩ := (ih _ hn' hg').2 r h
        refine ⟨?_, ?_, ?_⟩
        · intro x hx
          rcases List.mem_cons.mp hx with rfl | hx
          · exact ⟨r1, hr⟩
          · exact h1 x hx
        · rw [h2, List.flatMap_cons, List.append_assoc]
          simp [msgsOf, hr]
        · rw [h3, List.flatMap_cons, List.append_assoc]
          simp [enumsOf, hr]

theorem newFiles_fresh (unq) (fs : List GoFile) (acc : Found) (h1 : OneFile fs) :
    ((∀ f ∈ fs, aloneOK unq f) → ∃ r, newFiles unq [] acc (fs.map some) = .ok r) ∧
    (∀ r, newFiles unq [] acc (fs.map some) = .ok r → (∀ f ∈ fs, aloneOK unq f) ∧
      r.2.messages = acc.messages ++ fs.flatMap (msgsOf unq) ∧ r.2.enums = acc.enums ++ fs.flatMap (enumsOf unq)) := by
  induction fs generalizing acc with
  | nil => exact newFiles_plain unq [] [] acc (by simp) (by simp)
  | cons f fs ih =>
    have closed' : ∀ x ∈ fs, ∀ n ∈ fieldIdents x, ∀ F ∈ fs, n ∈ (F.types.filter IsOneof).map GoTypeSpec.name →
        n ∈ (x.types.filter IsOneof).map GoTypeSpec.name :=
      fun x hx n hn F hF => h1.closed x (by simp [hx]) n hn F (by simp [hF])
    rw [List.map_cons, newFiles, newFile_fresh unq acc f]
    cases hr : alone unq f with
    | error e =>
      refine ⟨fun hok => ?_, fun r h => by cases h⟩
      obtain ⟨r, hr'⟩ := hok f (by simp)
      rw [hr] at hr'; cases hr'
    | ok r1 =>
      simp only [Except.map, bind, Except.bind]
      have key : ((∀ x ∈ fs, aloneOK unq x) → ∃ r, newFiles unq r1.1
            ⟨f.pkg, acc.messages ++ r1.2.messages, acc.enums ++ r1.2.enums, r1.2.service.or acc.service⟩ (fs.map some) = .ok r) ∧
          (∀ r, newFiles unq r1.1
            ⟨f.pkg, acc.messages ++ r1.2.messages, acc.enums ++ r1.2.enums, r1.2.service.or acc.service⟩ (fs.map some) = .ok r →
            (∀ x ∈ fs, aloneOK unq x) ∧
            r.2.messages = (acc.messages ++ r1.2.messages) ++ fs.flatMap (msgsOf unq) ∧
            r.2.enums = (acc.enums ++ r1.2.enums) ++ fs.flatMap (enumsOf unq)) := by
        by_cases hno : NoOneof f
        · have hg : r1.1 = [] := by
            have := newFile_plain unq [] nothing f hno (by intro n _; rfl)
            rw [show newFile unq [] nothing f = alone unq f from rfl, hr] at this
            simp only [Except.map, Except.ok.injEq] at this
            rw [this]
          rw [hg]
          refine ih _ ⟨?_, closed'⟩
          have := h1.one
          rw [List.filter_cons_of_neg (by unfold NoOneof at hno; rw [hno]; decide)] at this
          exact this
        · have hrest : ∀ x ∈ fs, NoOneof x := by
            have := h1.one
            rw [List.filter_cons_of_pos (by
              unfold NoOneof at hno
              cases hl : f.types.filter IsOneof with
              | nil => exact absurd hl hno
              | cons a b => rfl), List.length_cons] at this
            have hnil : fs.filter (fun f => !(f.types.filter IsOneof).isEmpty) = [] := by
              apply List.length_eq_zero_iff.mp; omega
            rw [List.filter_eq_nil_iff] at hnil
            intro x hx
            have := hnil x hx
            unfold NoOneof
            cases hl : x.types.filter IsOneof with
            | nil => rfl
            | cons a b => rw [hl] at this; exact absurd rfl this
          refine newFiles_plain unq fs r1.1 _ hrest ?_
          intro x hx n hn
          cases hgn : r1.1.get n with
          | none => rfl
          | some o =>
            exfalso
            have h2 := alone_keys hr n (by rw [hgn]; exact Option.some_ne_none o)
            have h3 := h1.closed x (by simp [hx]) n hn f (by simp) h2
            have h4 : x.types.filter IsOneof = [] := hrest x hx
            rw [h4] at h3
            cases h3
      refine ⟨fun hok => key.1 fun x hx => hok x (by simp [hx]), fun r h => ?_⟩
      obtain ⟨k1, k2, k3⟩ := key.2 r h
      refine ⟨?_, ?_, ?_⟩
      · intro x hx
        rcases List.mem_cons.mp hx with rfl | hx
        · exact ⟨r1, hr⟩
        · exact k1 x hx
      · rw [k2, List.flatMap_cons, List.append_assoc]; simp [msgsOf, hr]
      · rw [k3, List.flatMap_cons, List.append_assoc]; simp [enumsOf, hr]

/-! ## One file, in any state of the process -/

theorem newFile_ok {unq g acc f r} (h : newFile unq g acc f = .ok r) :
    ∃ types x, fileTypes g f = .ok types ∧ fileOneofs unq g types f = .ok r.1 ∧ declared unq r.1 types f.types = .ok x ∧
      services f.types acc.service = .ok r.2.service ∧ r.2.messages = acc.messages ++ x.1 ∧ r.2.enums = acc.enums ++ x.2 := by
  unfold newFile at h
  cases hs : services f.types acc.service with
  | error e => rw [hs] at h; cases h
  | ok s =>
    rw [hs] at h
    simp only [bind, Except.bind] at h
    cases ho : fileTypes g f with
    | error e => rw [ho] at h; cases h
    | ok types =>
      rw [ho] at h
      simp only at h
      cases hc : fileOneofs unq g types f with
      | error e => rw [hc] at h; cases h
      | ok g' =>
        rw [hc] at h
        simp only at h
        cases hd : declared unq g' types f.types with
        | error e => rw [hd] at h; cases h
        | ok x =>
          rw [hd] at h
          simp only [Except.ok.injEq] at h
          subst h
          exact ⟨types, x, rfl, hc, hd, rfl, rfl, rfl⟩

theorem LastService.append {a b : List GoTypeSpec} {s0 s1 s2 : Option Service} (h1 : LastService a s0 s1)
    (h2 : LastService b s1 s2) : LastService (a ++ b) s0 s2 := by
  unfold LastService at *
  rw [List.filter_append, List.getLast?_append]
  cases hb : (b.filter IsServer).getLast? with
  | none => rw [hb] at h2; rw [h2]; exact h1
  | some t => rw [hb] at h2; exact h2

/-- The wrappers are left out while `oneofs` is empty, and only then. -/
theorem newFile_names {unq g acc f r} (h : newFile unq g acc f = .ok r) :
    r.2.enums = acc.enums ++ specEnums f ∧
    (g = [] → r.2.messages.map Message.name = acc.messages.map Message.name ++ specMessages f) ∧
    (g ≠ [] → r.1 = g ∧ r.2.messages.map Message.name =
      acc.messages.map Message.name ++ (f.types.filter IsExportedStruct).map GoTypeSpec.name) := by
  obtain ⟨types, x, h1, h2, h3, -, h5, h6⟩ := newFile_ok h
  obtain ⟨d1, d2⟩ := declared_ok h3
  refine ⟨by rw [h6, d1]; rfl, fun hg => ?_, fun hg => ?_⟩
  · unfold fileTypes at h1
    rw [if_pos hg, filter_iface] at h1
    rw [h5, List.map_append, d2]
    congr 1
    unfold specMessages
    apply List.filter_congr
    intro n _
    have hw : wrappers f = types.map (·.1) := (oneofTypes_ok h1).1.symm
    rw [hw]
    cases hl : lastEntry types n with
    | none => simp only [Option.isNone_none]; exact (decide_eq_true ((lastEntry_none _ _).mp hl)).symm
    | some i =>
      simp only [Option.isNone_some]
      symm
      apply decide_eq_false
      intro hn
      rw [(lastEntry_none _ _).mpr hn] at hl
      cases hl
  · unfold fileTypes at h1
    unfold fileOneofs at h2
    rw [if_neg hg] at h1 h2
    simp only [Except.ok.injEq] at h1 h2
    subst h1
    refine ⟨h2.symm, ?_⟩
    rw [h5, List.map_append, d2]
    congr 1
    rw [List.filter_eq_self]
    intro n _; rfl

theorem newFiles_some {unq g acc files r} (h : newFiles unq g acc files = .ok r) : ∃ fs : List GoFile, files = fs.map some := by
  induction files generalizing g acc with
  | nil => exact ⟨[], rfl⟩
  | cons o files ih =>
    cases o with
    | none => cases h
    | some f =>
      unfold newFiles at h
      cases hf : newFile unq g acc f with
      | error e => rw [hf] at h; cases h
      | ok r1 =>
        rw [hf] at h
        obtain ⟨fs, rfl⟩ := ih h
        exact ⟨f :: fs, rfl⟩

theorem newFiles_general {unq g acc} {fs : List GoFile} {r} (h : newFiles unq g acc (fs.map some) = .ok r) :
    r.2.enums = acc.enums ++ fs.flatMap specEnums ∧ LastService (fs.flatMap GoFile.types) acc.service r.2.service ∧
    (g ≠ [] → r.1 = g ∧ r.2.messages.map Message.name = acc.messages.map Message.name ++
      fs.flatMap fun f => (f.types.filter IsExportedStruct).map GoTypeSpec.name) := by
  induction fs generalizing g acc with
  | nil =>
    simp only [List.map_nil, newFiles, Except.ok.injEq] at h
    subst h
    exact ⟨by simp, rfl, fun _ => ⟨rfl, by simp⟩⟩
  | cons f fs ih =>
    rw [List.map_cons] at h
    unfold newFiles at h
    cases hf : newFile unq g acc f with
    | error e => rw [hf] at h; cases h
    | ok r1 =>
      rw [hf] at h
      simp only [bind, Except.bind] at h
      obtain ⟨i1, i2, i3⟩ := ih h
      obtain ⟨n1, -, n3⟩ := newFile_names hf
      obtain ⟨-, -, -, -, -, hs, -⟩ := newFile_ok hf
      refine ⟨by rw [i1, n1, List.flatMap_cons, List.append_assoc], ?_, fun hg => ?_⟩
      · rw [List.flatMap_cons]; exact (services_ok hs).append i2
      · obtain ⟨k1, k2⟩ := n3 hg
        obtain ⟨j1, j2⟩ := i3 (by rw [k1]; exact hg)
        exact ⟨by rw [j1, k1], by rw [j2, k2, List.flatMap_cons, List.append_assoc]⟩

theorem newDefs_ok {unq g files g' sd} (h : newDefs unq g files = .ok (g', sd)) :
    ∃ (fs : List GoFile) (r : Oneofs × Found), files = fs.map some ∧ newFiles unq g nothing (fs.map some) = .ok r ∧ g' = r.1 ∧
      sd = resolveTypes ⟨r.2.pkg, r.2.messages, r.2.enums, r.2.service⟩ := by
  unfold newDefs at h
  cases hr : newFiles unq g nothing files with
  | error e => rw [show (⟨[], [], [], none⟩ : Found) = nothing from rfl, hr] at h; cases h
  | ok r =>
    rw [show (⟨[], [], [], none⟩ : Found) = nothing from rfl, hr] at h
    simp only [bind, Except.bind, Except.ok.injEq, Prod.mk.injEq] at h
    obtain ⟨fs, rfl⟩ := newFiles_some hr
    exact ⟨fs, r, rfl, hr, h.1.symm, h.2.symm⟩

theorem resolve_names (sd : Svcdef) : (resolveTypes sd).messages.map Message.name = sd.messages.map Message.name := by
  unfold resolveTypes
  simp only [List.map_map]
  rfl

/-! ## C37 -/

/-- **C37** Whatever was built before in the process: the enums are exactly the named int32 types, in the order the files
are visited. -/
theorem C37_enums (unq : Str → Option Str) (g g' : Oneofs) (fs : List GoFile) (sd : Svcdef)
    (h : newDefs unq g (fs.map some) = .ok (g', sd)) : sd.enums = fs.flatMap specEnums := by
  obtain ⟨fs', r, he, hr, -, rfl⟩ := newDefs_ok h
  have : fs = fs' := by
    have := congrArg (List.filterMap id) he
    simpa using this
  subst this
  have := (newFiles_general hr).1
  simpa [nothing, resolveTypes] using this

theorem setType_name (tm) (t : FieldType) : (setType tm t).name = t.name := by
  unfold setType
  simp only
  repeat' split
  all_goals rfl

/-- **C37** Whatever was built before: the service is read from the last service interface: its name, and for every
exported method, in order, its name and the names of its request and response types. There is none if there is no such
interface. -/
theorem C37_service (unq : Str → Option Str) (g g' : Oneofs) (fs : List GoFile) (sd : Svcdef)
    (h : newDefs unq g (fs.map some) = .ok (g', sd)) :
    match ((fs.flatMap GoFile.types).filter IsServer).getLast? with
    | none => sd.service = none
    | some t => ∃ s, sd.service = some s ∧ ServiceOf t s := by
  obtain ⟨fs', r, he, hr, -, rfl⟩ := newDefs_ok h
  have : fs = fs' := by
    have := congrArg (List.filterMap id) he
    simpa using this
  subst this
  have := (newFiles_general hr).2.1
  unfold LastService at this
  cases hl : ((fs.flatMap GoFile.types).filter IsServer).getLast? with
  | none =>
    rw [hl] at this
    simp only at this ⊢
    unfold resolveTypes
    simp only [this]
    rfl
  | some t =>
    rw [hl] at this
    obtain ⟨x, hx, hn⟩ := this
    have ht : IsServer t = true := by
      have := List.mem_of_getLast? hl
      exact (List.mem_filter.mp this).2
    obtain ⟨s1, s2⟩ := newService_ok ht hn
    simp only
    unfold resolveTypes
    simp only [hx]
    refine ⟨_, rfl, s1, ?_⟩
    simp only
    generalize ((members t).filter fun m => m.names.head?.any exported) = ms at s2
    generalize x.methods = rs at s2
    induction s2 with
    | nil => exact .nil
    | cons hab _ ih =>
      obtain ⟨a1, c, rq, more, rs, more', a2, a3, a4⟩ := hab
      refine .cons ⟨a1, c, rq, more, rs, more', a2, ?_, ?_⟩ ih
      · rw [setType_name]; exact a3
      · rw [setType_name]; exact a4

/-- **C37** In a fresh process, if at most one file declares oneofs: whatever order the files are visited in, the same
messages (with the same fields and types) and the same enums are found, the same service if there is only one, and a run
that succeeds in one order succeeds in all. -/
theorem C37_order (unq : Str → Option Str) (fs fs' : List GoFile) (hp : fs.Perm fs') (h1 : OneFile fs)
    (r : Oneofs × Found) (h : newFiles unq [] nothing (fs.map some) = .ok r) :
    ∃ r', newFiles unq [] nothing (fs'.map some) = .ok r' ∧ r.2.messages.Perm r'.2.messages ∧
      r.2.enums.Perm r'.2.enums ∧
      (((fs.flatMap GoFile.types).filter IsServer).length ≤ 1 → r'.2.service = r.2.service) := by
  have h1' : OneFile fs' := by
    refine ⟨?_, ?_⟩
    · rw [← (hp.filter _).length_eq]; exact h1.one
    · intro f hf n hn F hF
      exact h1.closed f (hp.mem_iff.mpr hf) n hn F (hp.mem_iff.mpr hF)
  obtain ⟨a1, a2, a3⟩ := (newFiles_fresh unq fs nothing h1).2 r h
  obtain ⟨r', hr'⟩ := (newFiles_fresh unq fs' nothing h1').1 fun f hf => a1 f (hp.mem_iff.mpr hf)
  obtain ⟨b1, b2, b3⟩ := (newFiles_fresh unq fs' nothing h1').2 r' hr'
  refine ⟨r', hr', ?_, ?_, ?_⟩
  · rw [a2, b2]; exact List.Perm.append_left _ (hp.flatMap_right _)
  · rw [a3, b3]; exact List.Perm.append_left _ (hp.flatMap_right _)
  · intro hl
    have s1 := (newFiles_general h).2.1
    have s2 := (newFiles_general hr').2.1
    have hperm : ((fs.flatMap GoFile.types).filter IsServer).Perm ((fs'.flatMap GoFile.types).filter IsServer) :=
      (hp.flatMap_right _).filter _
    have heq : (fs.flatMap GoFile.types).filter IsServer = (fs'.flatMap GoFile.types).filter IsServer := by
      generalize (fs.flatMap GoFile.types).filter IsServer = x at hperm hl
      generalize (fs'.flatMap GoFile.types).filter IsServer = y at hperm
      match x, hl with
      | [], _ => exact (List.nil_perm.mp hperm).symm
      | [t], _ => exact List.singleton_perm.mp hperm
      | _ :: _ :: _, hl => simp at hl
    unfold LastService at s1 s2
    rw [heq] at s1
    cases hg : ((fs'.flatMap GoFile.types).filter IsServer).getLast? with
    | none => rw [hg] at s1 s2; rw [s1, s2]
    | some t =>
      rw [hg] at s1 s2
      obtain ⟨x, e1, e2⟩ := s1
      obtain ⟨y, e3, e4⟩ := s2
      rw [e2] at e4
      simp only [Except.ok.injEq] at e4
      rw [e1, e3, e4]

/-- **C37** The fields of a message are the exported fields of the struct (other than `XXX_…`), in order. -/
theorem C37_fields (unq : Str → Option Str) (g : Oneofs) (n : Str) (fs : List GoField) (m : Message)
    (h : newMessage unq g n fs = .ok m) :
    m.name = n ∧ m.fields.map Field.name = (fs.filter keptField).map fun f => f.names.headD [] := by
  refine ⟨newMessage_name h, ?_⟩
  unfold newMessage at h
  cases hf : newFields unq g fs with
  | error e => rw [hf] at h; cases h
  | ok l => rw [hf] at h; simp only [Except.map, Except.ok.injEq] at h; subst h; exact newFields_names hf

/-- **C37** For every field type protoc-gen-go writes, the description has the name and the shape of that type. -/
theorem C37_field_type (unq : Str → Option Str) (g : Oneofs) (n : Str) (f : GoField) (x : Field)
    (ht : ∃ t, TypeShape f.type t) (h : newField unq g n f = .ok x) : TypeShape f.type x.type := by
  unfold newField at h
  cases h1 : pbNameOf unq f.tag with
  | error e => rw [h1] at h; cases h
  | ok a =>
    rw [h1] at h
    simp only [bind, Except.bind] at h
    obtain ⟨t, ht⟩ := ht
    generalize f.type = ty at ht h
    cases ht
    all_goals
      simp only [follow, newMap, valueOf, Except.map, Except.ok.injEq] at h
      subst h
      simp [emptyType]
      constructor

/-- **C37** What a second definition in the same process finds once a first one has met oneofs (and `baron` always builds
two: one to find the service name, one to generate code): oneof wrappers count as messages. -/
theorem C37_second_call (unq : Str → Option Str) (g g' : Oneofs) (fs : List GoFile) (sd : Svcdef) (hg : g ≠ [])
    (h : newDefs unq g (fs.map some) = .ok (g', sd)) :
    sd.messages.map Message.name = (fs.flatMap fun f => (f.types.filter IsExportedStruct).map GoTypeSpec.name) := by
  obtain ⟨fs', r, he, hr, -, rfl⟩ := newDefs_ok h
  have : fs = fs' := by
    have := congrArg (List.filterMap id) he
    simpa using this
  subst this
  rw [resolve_names]
  have := ((newFiles_general hr).2.2 hg).2
  simpa [nothing] using this

namespace Example

def s (x : String) : Str := x.toList

/-- `message M { oneof choice { string a = 1; } }` and a service, as protoc-gen-go writes them. -/
def file1 : GoFile where
  pkg := s "pb"
  types := [⟨s "M", .struct [⟨[s "state"], none, .sel (some (s "protoimpl")) (s "MessageState")⟩,
      ⟨[s "Choice"], some (s "`protobuf_oneof:\"choice\"`"), .ident (s "isM_Choice")⟩]⟩,
    ⟨s "isM_Choice", .iface [⟨[s "isM_Choice"], some ([], none)⟩]⟩,
    ⟨s "M_A", .struct [⟨[s "A"], some (s "`protobuf:\"bytes,1,opt,name=a,proto3,oneof\"`"), .ident (s "string")⟩]⟩,
    ⟨s "E", .ident (s "int32")⟩]
  funcs := [⟨s "isM_Choice", some (.star (.ident (s "M_A")))⟩]

def file2 : GoFile where
  pkg := s "pb"
  types := [⟨s "SvcClient", .iface []⟩,
    ⟨s "SvcServer", .iface [⟨[s "Get"], some ([.sel (some (s "context")) (s "Context"), .star (.ident (s "M"))],
        some [.star (.ident (s "M")), .ident (s "error")])⟩,
      ⟨[s "mustEmbedUnimplementedSvcServer"], some ([], none)⟩]⟩,
    ⟨s "UnsafeSvcServer", .iface [⟨[s "mustEmbedUnimplementedSvcServer"], some ([], none)⟩]⟩]
  funcs := []

/-- Another message with a oneof, in another file. -/
def file3 : GoFile where
  pkg := s "pb"
  types := [⟨s "N", .struct [⟨[s "Kind"], some (s "`protobuf_oneof:\"kind\"`"), .ident (s "isN_Kind")⟩]⟩,
    ⟨s "isN_Kind", .iface [⟨[s "isN_Kind"], some ([], none)⟩]⟩,
    ⟨s "N_B", .struct [⟨[s "B"], some (s "`protobuf:\"varint,1,opt,name=b,proto3,oneof\"`"), .ident (s "bool")⟩]⟩]
  funcs := [⟨s "isN_Kind", some (.star (.ident (s "N_B")))⟩]

def unq (x : Str) : Option Str := some (x.drop 1).dropLast

/-- Names of the messages found. -/
def found (g : Oneofs) (fs : List GoFile) : Option (List Str × List Str × Option Str) :=
  match newDefs unq g (fs.map some) with
  | .ok (_, sd) => some (sd.messages.map Message.name, sd.enums, sd.service.map Service.name)
  | .error _ => none

def stateAfter (g : Oneofs) (fs : List GoFile) : Option Oneofs :=
  match newDefs unq g (fs.map some) with
  | .ok (g', _) => some g'
  | .error _ => none

/-- A fresh process finds the message, the enum and the service; the two files meet the hypotheses above. -/
example : found [] [file1, file2] = some ([s "M"], [s "E"], some (s "Svc")) ∧
    found [] [file2, file1] = some ([s "M"], [s "E"], some (s "Svc")) ∧
    specMessages file1 = [s "M"] ∧ file2.types.filter IsOneof = [] := by decide +kernel

example : OneFile [file1, file2] := by
  refine ⟨by decide +kernel, ?_⟩
  have h : ∀ f ∈ [file1, file2], ∀ n ∈ fieldIdents f, ∀ F ∈ [file1, file2],
    n ∈ (F.types.filter IsOneof).map GoTypeSpec.name → n ∈ (f.types.filter IsOneof).map GoTypeSpec.name := by decide +kernel
  exact h

end Example

open Example in
/-- **C37** (witness) Both exceptions are real: the second definition of the same files also finds the oneof's wrapper as
a message (process-wide state), and with oneofs in two files the messages depend on the order in which a Go map is
visited. -/
theorem C37_witness :
    ((stateAfter [] [file1]).bind fun g => found g [file1]) = some ([s "M", s "M_A"], [s "E"], none) ∧
    found [] [file1, file3] = some ([s "M", s "N", s "N_B"], [s "E"], none) ∧
    found [] [file3, file1] = some ([s "N", s "M", s "M_A"], [s "E"], none) := by
  refine ⟨?_, ?_, ?_⟩ <;> decide +kernel

end Baron.Svcdef
