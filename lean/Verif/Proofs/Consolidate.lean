import Verif.Spec.Consolidate

namespace Baron.Consolidate

open Baron.Strs Baron.Svcdef

theorem split_head (sep : Char) (s : Str) :
    ((split sep s).headD [] = s ∧ sep ∉ s) ∨
    ∃ a b, s = a ++ sep :: b ∧ sep ∉ a ∧ (split sep s).headD [] = a := by
  induction s with
  | nil => left; exact ⟨rfl, by simp⟩
  | cons c s ih =>
    rw [split]
    by_cases hc : c = sep
    · right
      exact ⟨[], s, by rw [hc]; rfl, by simp, by rw [if_pos hc]; rfl⟩
    · rw [if_neg hc]
      cases hs : split sep s with
      | nil =>
        exfalso
        cases s with
        | nil => cases hs
        | cons x s =>
          rw [split] at hs
          split at hs
          · cases hs
          · split at hs <;> cases hs
      | cons p ps =>
        rw [hs] at ih
        simp only [List.headD_cons] at ih ⊢
        rcases ih with ⟨e, hn⟩ | ⟨a, b, e, hn, hp⟩
        · left
          exact ⟨by rw [e], by simp [hn, Ne.symm hc]⟩
        · right
          exact ⟨c :: a, b, by rw [e]; rfl, by simp [hn, Ne.symm hc], by rw [hp]⟩

theorem append_sep_inj {sep : Char} : ∀ {a b c d : Str}, a ++ sep :: b = c ++ sep :: d → sep ∉ a → sep ∉ c → a = c ∧ b = d
  | [], _, [], _, h, _, _ => ⟨rfl, (List.cons.inj h).2⟩
  | [], _, x :: _, _, h, _, hc => absurd (by rw [(List.cons.inj h).1]; simp) hc
  | x :: _, _, [], _, h, ha, _ => absurd (by rw [← (List.cons.inj h).1]; simp) ha
  | x :: a, b, y :: c, d, h, ha, hc => by
    have h1 := List.cons.inj h
    have := append_sep_inj (a := a) (b := b) (c := c) (d := d) h1.2 (fun e => ha (List.mem_cons_of_mem _ e))
      (fun e => hc (List.mem_cons_of_mem _ e))
    exact ⟨by rw [h1.1, this.1], this.2⟩

theorem names_iff (p : Str) (f : Field) : Names p f ↔ goCamelCase (firstSeg p) = f.name := by
  unfold firstSeg
  constructor
  · rintro ⟨rest, ⟨rfl, hn, e⟩ | ⟨more, rfl, hn, e⟩⟩
    · rcases split_head '.' p with ⟨h, -⟩ | ⟨a, b, h, ha, -⟩
      · rw [h]; exact e
      · exact absurd (by rw [h]; simp) hn
    · rcases split_head '.' (rest ++ '.' :: more) with ⟨-, h⟩ | ⟨a, b, h, ha, hh⟩
      · exact absurd (by simp) h
      · rw [hh, ← (append_sep_inj h hn ha).1]; exact e
  · intro e
    rcases split_head '.' p with ⟨h, hn⟩ | ⟨a, b, h, ha, hh⟩
    · exact ⟨p, .inl ⟨rfl, hn, by rw [h] at e; exact e⟩⟩
    · exact ⟨a, .inr ⟨b, h, ha, by rw [hh] at e; exact e⟩⟩

theorem closeBrace_eq (p r : Str) (h1 : '}' ∉ p) (h2 : '\n' ∉ p) : closeBrace (p ++ '}' :: r) = some (p, r) := by
  induction p with
  | nil => simp [closeBrace]
  | cons c p ih =>
    rw [List.cons_append, closeBrace, if_neg (fun e => h1 (by rw [e]; simp)), if_neg (fun e => h2 (by rw [e]; simp)),
      ih (fun e => h1 (List.mem_cons_of_mem _ e)) (fun e => h2 (List.mem_cons_of_mem _ e))]
    rfl

theorem findBraced_lit (a r : Str) (h : '{' ∉ a) : findBraced (a ++ r) = findBraced r := by
  induction a with
  | nil => rfl
  | cons c a ih =>
    rw [List.cons_append, findBraced, if_neg (fun e => h (by rw [e]; simp)), ih (fun e => h (List.mem_cons_of_mem _ e))]

theorem findBraced_param (p r : Str) (h1 : '}' ∉ p) (h2 : '\n' ∉ p) :
    findBraced ('{' :: (p ++ '}' :: r)) = p :: findBraced r := by
  rw [findBraced, if_pos rfl]
  split
  · rename_i p' rest h
    rw [closeBrace_eq p r h1 h2] at h
    cases h
    rfl
  · rename_i h
    rw [closeBrace_eq p r h1 h2] at h
    cases h

theorem findBraced_template (pieces : List (Str × Str)) (last : Str) (h : TemplateWF pieces last) :
    findBraced (templateText pieces last) = pieces.map Prod.snd := by
  obtain ⟨h, hl⟩ := h
  unfold templateText
  induction pieces with
  | nil =>
    have := findBraced_lit last [] hl
    rw [List.append_nil] at this
    simp only [List.flatMap_nil, List.nil_append, this, List.map_nil]
    rw [findBraced]
  | cons x xs ih =>
    obtain ⟨a, b, c, d⟩ := h x List.mem_cons_self
    have ih := ih (fun y hy => h y (List.mem_cons_of_mem _ hy))
    simp only [List.flatMap_cons, List.append_assoc, List.map_cons]
    rw [findBraced_lit _ _ a]
    rw [show (['{'] ++ (x.2 ++ (['}'] ++ (xs.flatMap (fun x => x.1 ++ (['{'] ++ (x.2 ++ ['}']))) ++ last)))) =
      '{' :: (x.2 ++ '}' :: (xs.flatMap (fun x => x.1 ++ (['{'] ++ (x.2 ++ ['}']))) ++ last)) from rfl]
    rw [findBraced_param _ _ c d]
    simp only [List.append_assoc] at ih
    rw [ih]

theorem closeBrace_clean {s p r : Str} (h : closeBrace s = some (p, r)) : '}' ∉ p ∧ '\n' ∉ p ∧ s = p ++ '}' :: r := by
  induction s generalizing p r with
  | nil => cases h
  | cons c s ih =>
    rw [closeBrace] at h
    split at h
    · rename_i hc; cases h; exact ⟨by simp, by simp, by rw [hc]; rfl⟩
    · rename_i hc
      split at h
      · cases h
      · rename_i hn
        cases hx : closeBrace s with
        | none => rw [hx] at h; cases h
        | some x =>
          rw [hx] at h
          cases h
          obtain ⟨a, b, e⟩ := ih (p := x.1) (r := x.2) (by rw [hx])
          exact ⟨by simp [a, Ne.symm hc], by simp [b, Ne.symm hn], by rw [e]; rfl⟩

theorem findBraced_clean (s : Str) : ∀ p ∈ findBraced s, '}' ∉ p ∧ '\n' ∉ p ∧
    ∃ a b, s = a ++ '{' :: (p ++ '}' :: b) := by
  fun_induction findBraced s with
  | case1 => simp
  | case2 r p rest h ih =>
    intro q hq
    obtain ⟨h1, h2, e⟩ := closeBrace_clean h
    rcases List.mem_cons.mp hq with rfl | hq
    · exact ⟨h1, h2, [], rest, by rw [e]; rfl⟩
    · obtain ⟨x, y, a, b, e'⟩ := ih q hq
      exact ⟨x, y, '{' :: (p ++ '}' :: a), b, by rw [e, e']; simp⟩
  | case3 r h ih =>
    intro q hq
    obtain ⟨x, y, a, b, e'⟩ := ih q hq
    exact ⟨x, y, '{' :: a, b, by rw [e']; rfl⟩
  | case4 c r hc ih =>
    intro q hq
    obtain ⟨x, y, a, b, e'⟩ := ih q hq
    exact ⟨x, y, c :: a, b, by rw [e']; rfl⟩

/-! ### assembling -/

theorem addBindings_some (messages : List Message) (i : Nat) (msg : Message) (hmsg : messages[i]? = some msg) :
    ∀ (bs : List Parser.HTTPBinding) (m : ServiceMethod), m.request.message = some i →
    addBindings messages m bs = .ok { m with bindings := m.bindings ++ bs.map (mkBinding msg.fields) } := by
  intro bs
  induction bs with
  | nil => intro m _; simp [addBindings]
  | cons b bs ih =>
    intro m hm
    rw [addBindings, hm]
    simp only [hmsg]
    rw [ih _ (by simpa using hm)]
    simp

/-- Method `m` with the bindings of those parsed rpcs that name it appended. -/
def withRpcs (messages : List Message) (rpcs : List Parser.Method) (m : ServiceMethod) : ServiceMethod :=
  { m with bindings := m.bindings ++
      (rpcs.filter fun r => goCamelCase r.name = m.name).flatMap fun r => r.bindings.map (mkBinding (reqFields messages m)) }

theorem addBindings_resolved (messages : List Message) (m : ServiceMethod) (h : Resolved messages m)
    (bs : List Parser.HTTPBinding) :
    addBindings messages m bs = .ok { m with bindings := m.bindings ++ bs.map (mkBinding (reqFields messages m)) } := by
  obtain ⟨i, msg, h1, h2⟩ := h
  rw [addBindings_some messages i msg h2 bs m h1]
  simp [reqFields, h1, h2]

theorem withRpcs_nil (messages : List Message) (m : ServiceMethod) : withRpcs messages [] m = m := by
  simp [withRpcs]

theorem withRpcs_other (messages : List Message) (r : Parser.Method) (m : ServiceMethod)
    (h : m.name ≠ goCamelCase r.name) : withRpcs messages [r] m = m := by
  simp [withRpcs, Ne.symm h]

theorem withRpcs_name (messages : List Message) (rs : List Parser.Method) (m : ServiceMethod) :
    (withRpcs messages rs m).name = m.name := rfl

theorem withRpcs_resolved (messages : List Message) (rs : List Parser.Method) (m : ServiceMethod)
    (h : Resolved messages m) : Resolved messages (withRpcs messages rs m) := h

theorem withRpcs_append (messages : List Message) (a b : List Parser.Method) (m : ServiceMethod) :
    withRpcs messages b (withRpcs messages a m) = withRpcs messages (a ++ b) m := by
  simp [withRpcs, reqFields]

/-- Among the methods there is the one the rpc stands for, and its request is a known message. -/
def Takes (messages : List Message) (ms : List ServiceMethod) (r : Parser.Method) : Prop :=
  ∃ m ∈ ms, m.name = goCamelCase r.name ∧ Resolved messages m

theorem takes_of {messages : List Message} {ms : List ServiceMethod} {r : Parser.Method} (hr : ∀ m ∈ ms, Resolved messages m)
    (hk : goCamelCase r.name ∈ ms.map ServiceMethod.name) : Takes messages ms r := by
  obtain ⟨m, hm, e⟩ := List.mem_map.mp hk
  exact ⟨m, hm, e, hr m hm⟩

theorem takes_with {messages : List Message} {ms : List ServiceMethod} {r : Parser.Method} (rs : List Parser.Method)
    (h : Takes messages ms r) : Takes messages (ms.map (withRpcs messages rs)) r := by
  obtain ⟨m, hm, e, h⟩ := h
  exact ⟨_, List.mem_map_of_mem hm, e, h⟩

theorem updateMethod_known (messages : List Message) (r : Parser.Method) : ∀ (ms : List ServiceMethod),
    (ms.map ServiceMethod.name).Nodup → Takes messages ms r →
    updateMethod messages r ms = .ok (ms.map (withRpcs messages [r])) := by
  intro ms
  induction ms with
  | nil => rintro _ ⟨_, h, _⟩; cases h
  | cons m ms ih =>
    intro hn hk
    rw [updateMethod]
    rw [List.map_cons, List.nodup_cons] at hn
    obtain ⟨m', hm', e, hres⟩ := hk
    by_cases hm : m.name = goCamelCase r.name
    · have hmm : m' = m := by
        rcases List.mem_cons.mp hm' with h | h
        · exact h
        · exact absurd (by rw [hm, ← e]; exact List.mem_map_of_mem h) hn.1
      subst hmm
      rw [if_pos hm, addBindings_resolved messages m' hres]
      have hrest : ms.map (withRpcs messages [r]) = ms := by
        have : ∀ x ∈ ms, withRpcs messages [r] x = x := by
          intro x hx
          apply withRpcs_other
          intro e
          exact hn.1 (by rw [hm, ← e]; exact List.mem_map_of_mem hx)
        rw [List.map_congr_left this]
        exact List.map_id' ms
      simp only [bind, Except.bind, List.map_cons, hrest]
      congr 2
      simp [withRpcs, hm]
    · rw [if_neg hm, ih hn.2]
      · simp only [bind, Except.bind, List.map_cons, withRpcs_other messages r m hm]
      · rcases List.mem_cons.mp hm' with rfl | h
        · exact absurd e hm
        · exact ⟨m', h, e, hres⟩

/-- The method's request is not a known message: the Go program dereferences nil. -/
theorem updateMethod_foreign (messages : List Message) (r : Parser.Method) (hb : r.bindings ≠ []) : ∀ (ms : List ServiceMethod),
    (∀ m ∈ ms, m.name = goCamelCase r.name → ¬ Resolved messages m) → goCamelCase r.name ∈ ms.map ServiceMethod.name →
    updateMethod messages r ms = .error .nilMessage := by
  intro ms
  induction ms with
  | nil => intro _ h; cases h
  | cons m ms ih =>
    intro hf hk
    rw [updateMethod]
    by_cases hm : m.name = goCamelCase r.name
    · rw [if_pos hm]
      have hf := hf m List.mem_cons_self hm
      cases hbs : r.bindings with
      | nil => exact absurd hbs hb
      | cons b bs =>
        unfold addBindings
        cases hi : m.request.message with
        | none => rfl
        | some i =>
          cases hg : messages[i]? with
          | none => simp only [hg]; rfl
          | some msg => exact absurd ⟨i, msg, hi, hg⟩ hf
    · rw [if_neg hm, ih (fun x hx => hf x (List.mem_cons_of_mem _ hx))]
      · rfl
      · rcases List.mem_cons.mp hk with h | h
        · exact absurd h.symm hm
        · exact h

theorem updateMethod_unknown (messages : List Message) (r : Parser.Method) : ∀ (ms : List ServiceMethod),
    goCamelCase r.name ∉ ms.map ServiceMethod.name → updateMethod messages r ms = .error (.noMethod r.name) := by
  intro ms
  induction ms with
  | nil => intro _; rfl
  | cons m ms ih =>
    intro h
    rw [List.map_cons, List.mem_cons, not_or] at h
    rw [updateMethod, if_neg (fun e => h.1 e.symm), ih h.2]
    rfl

theorem assembleLoop_takes (messages : List Message) : ∀ (rs : List Parser.Method) (ms : List ServiceMethod),
    (ms.map ServiceMethod.name).Nodup → (∀ r ∈ rs, Takes messages ms r) →
    assembleLoop messages rs ms = .ok (ms.map (withRpcs messages rs)) := by
  intro rs
  induction rs with
  | nil =>
    intro ms _ _
    rw [assembleLoop, List.map_congr_left (fun m _ => withRpcs_nil messages m)]
    rw [List.map_id']
  | cons r rs ih =>
    intro ms hn hk
    rw [assembleLoop, updateMethod_known messages r ms hn (hk r List.mem_cons_self)]
    simp only [bind, Except.bind]
    have hnames : (ms.map (withRpcs messages [r])).map ServiceMethod.name = ms.map ServiceMethod.name := by
      simp [withRpcs_name, Function.comp_def]
    rw [ih]
    · rw [List.map_map]
      congr 1
      apply List.map_congr_left
      intro m _
      exact withRpcs_append messages [r] rs m
    · rw [hnames]; exact hn
    · exact fun x hx => takes_with _ (hk x (List.mem_cons_of_mem _ hx))

theorem assembleLoop_stops (messages : List Message) (err : CErr) : ∀ (rs : List Parser.Method) (ms : List ServiceMethod),
    (ms.map ServiceMethod.name).Nodup →
    ∀ (a b : List Parser.Method) (r : Parser.Method), rs = a ++ r :: b →
    (∀ x ∈ a, Takes messages ms x) →
    (∀ pre, updateMethod messages r (ms.map (withRpcs messages pre)) = .error err) →
    assembleLoop messages rs ms = .error err := by
  intro rs
  induction rs with
  | nil => intro ms _ a b r h; cases a <;> cases h
  | cons x rs ih =>
    intro ms hn a b r h ha hnot
    cases a with
    | nil =>
      cases h
      have := hnot []
      rw [List.map_congr_left (fun m _ => withRpcs_nil messages m), List.map_id'] at this
      rw [assembleLoop, this]
      rfl
    | cons y a =>
      cases h
      rw [assembleLoop, updateMethod_known messages x ms hn (ha x List.mem_cons_self)]
      simp only [bind, Except.bind]
      have hnames : (ms.map (withRpcs messages [x])).map ServiceMethod.name = ms.map ServiceMethod.name := by
        simp [withRpcs_name, Function.comp_def]
      refine ih _ (by rw [hnames]; exact hn) a b r rfl (fun z hz => takes_with _ (ha z (List.mem_cons_of_mem _ hz))) ?_
      intro pre
      rw [List.map_map, ← hnot ([x] ++ pre)]
      congr 1
      apply List.map_congr_left
      intro m _
      exact withRpcs_append messages [x] pre m

theorem assembleLoop_unknown' (messages : List Message) (rs : List Parser.Method) (ms : List ServiceMethod)
    (hn : (ms.map ServiceMethod.name).Nodup) (a b : List Parser.Method) (r : Parser.Method) (he : rs = a ++ r :: b)
    (ha : ∀ x ∈ a, Takes messages ms x) (hr : goCamelCase r.name ∉ ms.map ServiceMethod.name) :
    assembleLoop messages rs ms = .error (.noMethod r.name) := by
  refine assembleLoop_stops messages _ rs ms hn a b r he ha fun pre => updateMethod_unknown messages r _ ?_
  simpa [withRpcs_name, Function.comp_def] using hr

theorem assembleLoop_foreign (messages : List Message) (rs : List Parser.Method) (ms : List ServiceMethod)
    (hn : (ms.map ServiceMethod.name).Nodup) (a b : List Parser.Method) (r : Parser.Method) (he : rs = a ++ r :: b)
    (ha : ∀ x ∈ a, Takes messages ms x) (hr : goCamelCase r.name ∈ ms.map ServiceMethod.name) (hb : r.bindings ≠ [])
    (hf : ∀ m ∈ ms, m.name = goCamelCase r.name → ¬ Resolved messages m) :
    assembleLoop messages rs ms = .error .nilMessage := by
  refine assembleLoop_stops messages _ rs ms hn a b r he ha fun pre => updateMethod_foreign messages r hb _ ?_ ?_
  · intro m hm
    obtain ⟨m0, hm0, rfl⟩ := List.mem_map.mp hm
    exact hf m0 hm0
  · simpa [withRpcs_name, Function.comp_def] using hr

theorem assembleLoop_known (messages : List Message) (rs : List Parser.Method) (ms : List ServiceMethod)
    (hn : (ms.map ServiceMethod.name).Nodup) (hr : ∀ m ∈ ms, Resolved messages m)
    (hk : ∀ r ∈ rs, goCamelCase r.name ∈ ms.map ServiceMethod.name) :
    assembleLoop messages rs ms = .ok (ms.map (withRpcs messages rs)) :=
  assembleLoop_takes messages rs ms hn fun r h => takes_of hr (hk r h)

theorem assembleLoop_unknown (messages : List Message) (rs : List Parser.Method) (ms : List ServiceMethod)
    (hn : (ms.map ServiceMethod.name).Nodup) (hr : ∀ m ∈ ms, Resolved messages m) (a b : List Parser.Method)
    (r : Parser.Method) (he : rs = a ++ r :: b) (ha : ∀ x ∈ a, goCamelCase x.name ∈ ms.map ServiceMethod.name)
    (hnot : goCamelCase r.name ∉ ms.map ServiceMethod.name) : assembleLoop messages rs ms = .error (.noMethod r.name) :=
  assembleLoop_unknown' messages rs ms hn a b r he (fun x hx => takes_of hr (ha x hx)) hnot

/-! ### several files -/

/-- The rpcs of a parsed file (none if parsing failed). -/
def rpcsOf : Except Parser.PErr Parser.Service → List Parser.Method
  | .ok p => p.methods
  | .error _ => []

/-- Parsed, or no service in the file. -/
def fine : Except Parser.PErr Parser.Service → Bool
  | .ok _ => true
  | .error e => isEOF e

def methodNames (sd : Svcdef) : List Str := (sd.service.map fun s => s.methods.map ServiceMethod.name).getD []

/-- All rpcs added to a definition. -/
def addRpcs (sd : Svcdef) (rs : List Parser.Method) : Svcdef :=
  { sd with service := sd.service.map fun s => { s with methods := s.methods.map (withRpcs sd.messages rs) } }

theorem addRpcs_nil (sd : Svcdef) : addRpcs sd [] = sd := by
  obtain ⟨p, m, e, s⟩ := sd
  cases s with
  | none => rfl
  | some s => simp [addRpcs, show withRpcs m [] = id from funext (withRpcs_nil m)]

theorem addRpcs_append (sd : Svcdef) (a b : List Parser.Method) :
    addRpcs (addRpcs sd a) b = addRpcs sd (a ++ b) := by
  obtain ⟨p, m, e, s⟩ := sd
  cases s with
  | none => rfl
  | some s => simp [addRpcs, withRpcs_append]

theorem addRpcs_names (sd : Svcdef) (a : List Parser.Method) : methodNames (addRpcs sd a) = methodNames sd := by
  obtain ⟨p, m, e, s⟩ := sd
  cases s with
  | none => rfl
  | some s => simp [addRpcs, methodNames, Function.comp_def, withRpcs_name]

theorem addRpcs_wellNamed (sd : Svcdef) (a : List Parser.Method) (h : WellNamed sd) : WellNamed (addRpcs sd a) := by
  obtain ⟨p, m, e, s⟩ := sd
  cases s with
  | none => intro s hs; cases hs
  | some s =>
    intro s' hs
    cases hs
    obtain ⟨h1, h2⟩ := h s rfl
    refine ⟨by simpa [Function.comp_def, withRpcs_name] using h1, ?_⟩
    intro x hx
    obtain ⟨m0, hm0, rfl⟩ := List.mem_map.mp hx
    exact h2 m0 hm0

theorem assemble_known (sd : Svcdef) (h : WellNamed sd) (p : Parser.Service)
    (hk : ∀ r ∈ p.methods, goCamelCase r.name ∈ methodNames sd) : assemble sd p = .ok (addRpcs sd p.methods) := by
  unfold assemble
  obtain ⟨pk, m, e, s⟩ := sd
  cases s with
  | none =>
    cases hp : p.methods with
    | nil => simp [addRpcs]
    | cons x xs =>
      have := hk x (by rw [hp]; simp)
      simp [methodNames] at this
  | some s =>
    obtain ⟨h1, h2⟩ := h s rfl
    simp only
    rw [assembleLoop_known _ _ _ h1 h2 hk]
    rfl

theorem assemble_unknown (sd : Svcdef) (h : WellNamed sd) (p : Parser.Service)
    (a b : List Parser.Method) (r : Parser.Method) (hp : p.methods = a ++ r :: b)
    (ha : ∀ x ∈ a, goCamelCase x.name ∈ methodNames sd) (hr : goCamelCase r.name ∉ methodNames sd) :
    assemble sd p = .error (.noMethod r.name) := by
  unfold assemble
  obtain ⟨pk, m, e, s⟩ := sd
  cases s with
  | none =>
    cases a with
    | nil => rw [hp]; rfl
    | cons x a =>
      have := ha x (by simp)
      simp [methodNames] at this
  | some s =>
    obtain ⟨h1, h2⟩ := h s rfl
    simp only
    rw [assembleLoop_unknown _ _ _ h1 h2 a b r hp ha hr]
    rfl

/-- The methods of a definition have distinct names. -/
def Distinct (sd : Svcdef) : Prop := (methodNames sd).Nodup

/-- The definition has the method the rpc stands for, with a known request. -/
def Has (sd : Svcdef) (r : Parser.Method) : Prop := ∃ s, sd.service = some s ∧ Takes sd.messages s.methods r

theorem addRpcs_has {sd : Svcdef} {r : Parser.Method} (a : List Parser.Method) (h : Has sd r) : Has (addRpcs sd a) r := by
  obtain ⟨s, hs, h⟩ := h
  exact ⟨{ s with methods := s.methods.map (withRpcs sd.messages a) }, by simp only [addRpcs, hs, Option.map_some],
    takes_with a h⟩

/-- The rpc's method is there, but its request is not a known message. -/
def Foreign (sd : Svcdef) (r : Parser.Method) : Prop :=
  goCamelCase r.name ∈ methodNames sd ∧ r.bindings ≠ [] ∧
    ∀ s, sd.service = some s → ∀ m ∈ s.methods, m.name = goCamelCase r.name → ¬ Resolved sd.messages m

theorem addRpcs_foreign {sd : Svcdef} {r : Parser.Method} (a : List Parser.Method) (h : Foreign sd r) :
    Foreign (addRpcs sd a) r := by
  obtain ⟨h1, h2, h3⟩ := h
  refine ⟨by rw [addRpcs_names]; exact h1, h2, ?_⟩
  intro s hs m hm
  cases hsd : sd.service with
  | none => simp only [addRpcs, hsd, Option.map_none] at hs; cases hs
  | some s0 =>
    simp only [addRpcs, hsd, Option.map_some, Option.some.injEq] at hs
    subst hs
    obtain ⟨m0, hm0, rfl⟩ := List.mem_map.mp hm
    exact h3 s0 hsd m0 hm0

theorem assemble_has (sd : Svcdef) (h : Distinct sd) (p : Parser.Service) (hk : ∀ r ∈ p.methods, Has sd r) :
    assemble sd p = .ok (addRpcs sd p.methods) := by
  unfold assemble
  cases hs : sd.service with
  | none =>
    cases hp : p.methods with
    | nil => simp only [addRpcs_nil]
    | cons x xs =>
      obtain ⟨s, e, -⟩ := hk x (by rw [hp]; simp)
      rw [hs] at e; cases e
  | some s =>
    have h1 : (s.methods.map ServiceMethod.name).Nodup := by
      unfold Distinct methodNames at h; rw [hs] at h; exact h
    simp only
    rw [assembleLoop_takes _ _ _ h1 (fun r hr => by
      obtain ⟨s', e, h'⟩ := hk r hr
      rw [hs] at e; cases e; exact h')]
    simp only [addRpcs, hs, Option.map_some]
    rfl

theorem assemble_unknown' (sd : Svcdef) (h : Distinct sd) (p : Parser.Service)
    (a b : List Parser.Method) (r : Parser.Method) (hp : p.methods = a ++ r :: b)
    (ha : ∀ x ∈ a, Has sd x) (hr : goCamelCase r.name ∉ methodNames sd) : assemble sd p = .error (.noMethod r.name) := by
  unfold assemble
  cases hs : sd.service with
  | none =>
    cases a with
    | nil => rw [hp]; rfl
    | cons x a =>
      obtain ⟨s, e, -⟩ := ha x (by simp)
      rw [hs] at e; cases e
  | some s =>
    unfold Distinct methodNames at h
    unfold methodNames at hr
    rw [hs] at h hr
    simp only
    rw [assembleLoop_unknown' _ _ _ h a b r hp (fun r hr => by
      obtain ⟨s', e, h'⟩ := ha r hr
      rw [hs] at e; cases e; exact h') hr]
    rfl

theorem assemble_foreign (sd : Svcdef) (h : Distinct sd) (p : Parser.Service)
    (a b : List Parser.Method) (r : Parser.Method) (hp : p.methods = a ++ r :: b)
    (ha : ∀ x ∈ a, Has sd x) (hr : Foreign sd r) : assemble sd p = .error .nilMessage := by
  obtain ⟨h1, h2, h3⟩ := hr
  unfold assemble
  cases hs : sd.service with
  | none => unfold methodNames at h1; rw [hs] at h1; cases h1
  | some s =>
    unfold Distinct methodNames at h
    unfold methodNames at h1
    rw [hs] at h h1
    simp only
    rw [assembleLoop_foreign _ _ _ h a b r hp (fun r hr => by
      obtain ⟨s', e, h'⟩ := ha r hr
      rw [hs] at e; cases e; exact h') h1 h2 (h3 s hs)]
    rfl

theorem first_bad (P : Parser.Method → Prop) (l : List Parser.Method) (h : ¬ ∀ r ∈ l, P r) :
    ∃ a r b, l = a ++ r :: b ∧ (∀ x ∈ a, P x) ∧ ¬ P r := by
  induction l with
  | nil => exact absurd (by simp) h
  | cons x l ih =>
    by_cases hx : P x
    · have : ¬ ∀ r ∈ l, P r := fun hh => h (by
        intro r hr
        rcases List.mem_cons.mp hr with rfl | hr
        · exact hx
        · exact hh r hr)
      obtain ⟨a, r, b, e, h1, h2⟩ := ih this
      refine ⟨x :: a, r, b, by rw [e]; rfl, ?_, h2⟩
      intro y hy
      rcases List.mem_cons.mp hy with rfl | hy
      · exact hx
      · exact h1 y hy
    · exact ⟨[], x, l, rfl, by simp, hx⟩

/-- What consolidating files without "optional" errors returns. -/
theorem consolidate_closed : ∀ (l : List (Except Parser.PErr Parser.Service)) (sd : Svcdef), WellNamed sd →
    (∀ r ∈ l, ∀ e, r = .error e → isOptional e = false) →
    (consolidate sd l).toOption =
      if (∀ r ∈ l, fine r = true) ∧ (∀ r ∈ l.flatMap rpcsOf, goCamelCase r.name ∈ methodNames sd)
      then some (addRpcs sd (l.flatMap rpcsOf)) else none := by
  intro l
  induction l with
  | nil =>
    intro sd _ _
    simp [consolidate, addRpcs_nil, Except.toOption]
  | cons r l ih =>
    intro sd hw hopt
    have hopt' : ∀ r ∈ l, ∀ e, r = .error e → isOptional e = false :=
      fun x hx => hopt x (List.mem_cons_of_mem _ hx)
    cases r with
    | error e =>
      rw [consolidate, hopt _ List.mem_cons_self e rfl, if_neg (by decide)]
      cases he : isEOF e with
      | true =>
        rw [if_pos rfl, ih sd hw hopt']
        simp only [List.flatMap_cons, rpcsOf, List.nil_append]
        congr 1
        rw [eq_iff_iff]
        constructor
        · rintro ⟨h1, h2⟩
          refine ⟨?_, h2⟩
          intro r hr
          rcases List.mem_cons.mp hr with rfl | hr
          · exact he
          · exact h1 r hr
        · rintro ⟨h1, h2⟩
          exact ⟨fun r hr => h1 r (List.mem_cons_of_mem _ hr), h2⟩
      | false =>
        rw [if_neg (by decide), if_neg]
        · rfl
        · intro h
          have := h.1 _ List.mem_cons_self
          simp [fine, he] at this
    | ok p =>
      rw [consolidate]
      by_cases hk : ∀ r ∈ p.methods, goCamelCase r.name ∈ methodNames sd
      · rw [assemble_known sd hw p hk]
        simp only [bind, Except.bind]
        rw [ih _ (addRpcs_wellNamed sd _ hw) hopt', addRpcs_names, addRpcs_append]
        congr 1
        simp only [List.mem_cons, List.flatMap_cons, rpcsOf, List.mem_append, eq_iff_iff]
        constructor
        · rintro ⟨h1, h2⟩
          refine ⟨?_, ?_⟩
          · rintro r (rfl | hr)
            · rfl
            · exact h1 r hr
          · rintro r (hr | hr)
            · exact hk r hr
            · exact h2 r hr
        · rintro ⟨h1, h2⟩
          exact ⟨fun r hr => h1 r (.inr hr), fun r hr => h2 r (.inr hr)⟩
      · obtain ⟨a, r, b, e, h1, h2⟩ := first_bad _ _ hk
        rw [assemble_unknown sd hw p a b r e h1 h2, if_neg]
        · rfl
        · rintro ⟨-, h⟩
          exact h2 (h r (by simp [rpcsOf, e]))

/-- Lists of which at most one is non-empty concatenate to the same in any order. -/
theorem flatten_perm {α β : Type} {l l' : List α} (hp : l.Perm l') (f : α → List β)
    (h : (l.filter fun x => !(f x).isEmpty).length ≤ 1) : l.flatMap f = l'.flatMap f := by
  have key : ∀ l : List α, l.flatMap f = (l.filter fun x => !(f x).isEmpty).flatMap f := by
    intro l
    induction l with
    | nil => rfl
    | cons x l ih =>
      rw [List.flatMap_cons, List.filter_cons, ih]
      cases hx : f x with
      | nil => simp
      | cons y ys => simp [hx]
  rw [key l, key l']
  have hp' := hp.filter (fun x => !(f x).isEmpty)
  have heq : (l.filter fun x => !(f x).isEmpty) = (l'.filter fun x => !(f x).isEmpty) := by
    generalize (l.filter fun x => !(f x).isEmpty) = a at hp' h ⊢
    generalize (l'.filter fun x => !(f x).isEmpty) = b at hp' ⊢
    match a, h with
    | [], _ => exact (List.nil_perm.mp hp').symm
    | [x], _ => exact (List.singleton_perm.mp hp').symm ▸ rfl
  rw [heq]

theorem Stops.head (sd : Svcdef) {r : Parsed} (h : Stops r) (l : List Parsed) : (consolidate sd (r :: l)).toOption = some sd := by
  obtain ⟨line, v, rfl⟩ := h
  simp [consolidate, isOptional, Except.toOption]

theorem mem_methodNames (sd : Svcdef) (n : Str) :
    n ∈ methodNames sd ↔ ∃ s, sd.service = some s ∧ ∃ m ∈ s.methods, m.name = n := by
  unfold methodNames
  cases sd.service with
  | none => simp
  | some s => simp

theorem not_breaks (sd : Svcdef) (r : Parsed) :
    ¬ Breaks sd r ↔ (Stops r ∨ fine r = true) ∧ ∀ hm ∈ rpcsOf r, goCamelCase hm.name ∈ methodNames sd := by
  unfold Breaks Stops
  cases r with
  | error e =>
    cases e <;> simp [fine, rpcsOf, isEOF, isOptional]
  | ok p =>
    simp only [fine, rpcsOf, mem_methodNames]
    constructor
    · intro h
      refine ⟨.inr trivial, fun hm hh => ?_⟩
      refine Classical.byContradiction fun hc => h (.inr ⟨p, hm, rfl, hh, ?_⟩)
      intro s hs m hm' e
      exact hc ⟨s, hs, m, hm', e⟩
    · rintro ⟨-, h⟩ (⟨e, he, -⟩ | ⟨p', hm, he, hh, hc⟩)
      · cases he
      · cases he
        obtain ⟨s, hs, m, hm', e⟩ := h hm hh
        exact hc s hs m hm' e

theorem fine_not_stops {r : Parsed} (h : fine r = true) : ¬ Stops r := by
  rintro ⟨line, v, rfl⟩
  simp [fine, isEOF] at h

theorem fine_head (sd : Svcdef) (hw : WellNamed sd) {r : Parsed} (h : fine r = true)
    (hk : ∀ hm ∈ rpcsOf r, goCamelCase hm.name ∈ methodNames sd) (l : List Parsed) :
    consolidate sd (r :: l) = consolidate (addRpcs sd (rpcsOf r)) l := by
  cases r with
  | error e =>
    have ho : isOptional e = false := by cases e <;> simp [fine, isEOF, isOptional] at h ⊢
    simp only [fine] at h
    rw [consolidate]
    simp [ho, h, rpcsOf, addRpcs_nil]
  | ok p =>
    rw [consolidate, assemble_known sd hw p hk]
    rfl

theorem Breaks.head (sd : Svcdef) (hw : WellNamed sd) {r : Parsed} (h : Breaks sd r) (l : List Parsed) :
    (consolidate sd (r :: l)).toOption = none := by
  rcases h with ⟨e, rfl, h1, h2⟩ | ⟨p, hm, rfl, hh, hc⟩
  · simp [consolidate, h1, h2, Except.toOption]
  · have hb : ¬ ∀ r ∈ p.methods, goCamelCase r.name ∈ methodNames sd := by
      intro h
      obtain ⟨s, hs, m, hm', e⟩ := (mem_methodNames _ _).1 (h hm hh)
      exact hc s hs m hm' e
    obtain ⟨a, r, b, e, h1, h2⟩ := first_bad _ _ hb
    rw [consolidate, assemble_unknown sd hw p a b r e h1 h2]
    rfl

/-- Adding rpcs changes nothing exactly when they carry no bindings for any method. -/
theorem addRpcs_eq_iff (sd : Svcdef) (a b : List Parser.Method) :
    addRpcs sd a = addRpcs sd b ↔ ∀ s, sd.service = some s → ∀ m ∈ s.methods,
      adds sd m (.ok ⟨[], a⟩) = adds sd m (.ok ⟨[], b⟩) := by
  obtain ⟨p, ms, e, s⟩ := sd
  cases s with
  | none => simp [addRpcs]
  | some s =>
    simp only [addRpcs, Option.map_some, Svcdef.mk.injEq, Option.some.injEq, Service.mk.injEq, true_and,
      List.map_inj_left]
    constructor
    · intro h s' hs m hm
      cases hs
      have := h m hm
      simp only [withRpcs, ServiceMethod.mk.injEq, List.append_cancel_left_eq, true_and] at this
      exact this
    · intro h m hm
      have := h s rfl m hm
      simp only [adds] at this
      simp only [withRpcs, this]

theorem adds_rpcs (sd : Svcdef) (m : ServiceMethod) (r : Parsed) (n : Str) : adds sd m (.ok ⟨n, rpcsOf r⟩) = adds sd m r := by
  cases r <;> rfl

theorem adds_flatMap (sd : Svcdef) (m : ServiceMethod) (l : List Parsed) (n : Str) :
    adds sd m (.ok ⟨n, l.flatMap rpcsOf⟩) = l.flatMap (adds sd m) := by
  induction l with
  | nil => rfl
  | cons r l ih =>
    rw [List.flatMap_cons, List.flatMap_cons, ← ih, ← adds_rpcs sd m r n]
    simp [adds]

theorem flatMap_perm_commute {α β : Type} (f : α → List β) {l l' : List α} (hp : l.Perm l')
    (h : ∀ x ∈ l, ∀ y ∈ l, f x ++ f y = f y ++ f x) : l.flatMap f = l'.flatMap f := by
  induction hp with
  | nil => rfl
  | cons x hp ih =>
    rw [List.flatMap_cons, List.flatMap_cons, ih fun y hy z hz => h y (List.mem_cons_of_mem _ hy) z (List.mem_cons_of_mem _ hz)]
  | swap x y l =>
    simp only [List.flatMap_cons, ← List.append_assoc]
    rw [h y (by simp) x (by simp)]
  | trans h1 h2 ih1 ih2 =>
    rw [ih1 h, ih2 fun x hx y hy => h x (h1.mem_iff.2 hx) y (h1.mem_iff.2 hy)]

theorem perm_first {α} {l : List α} {x : α} (h : x ∈ l) : ∃ r, l.Perm (x :: r) ∧ ∀ y ∈ l, y ≠ x → y ∈ r := by
  obtain ⟨a, b, rfl⟩ := List.append_of_mem h
  refine ⟨a ++ b, List.perm_middle, ?_⟩
  intro y hy hne
  simp only [List.mem_append, List.mem_cons] at hy ⊢
  rcases hy with h | h | h
  · exact .inl h
  · exact absurd h hne
  · exact .inr h

theorem consolidate_quiet (sd : Svcdef) (hw : WellNamed sd) (l : List Parsed) 
    (h : ∀ r ∈ l, ¬ Breaks sd r ∧ ∀ s, sd.service = some s → ∀ m ∈ s.methods, adds sd m r = []) :
    (consolidate sd l).toOption = some sd := by
  induction l with
  | nil => rfl
  | cons r l ih =>
    obtain ⟨h1, h2⟩ := h r List.mem_cons_self
    obtain ⟨h3, h4⟩ := (not_breaks sd r).1 h1
    rcases h3 with h3 | h3
    · exact h3.head sd l
    · rw [fine_head sd hw h3 h4]
      have : addRpcs sd (rpcsOf r) = sd := by
        conv => rhs; rw [← addRpcs_nil sd]
        rw [addRpcs_eq_iff]
        intro s hs m hm
        rw [adds_rpcs, h2 s hs m hm]; rfl
      rw [this]
      exact ih fun r hr => h r (List.mem_cons_of_mem _ hr)

end Baron.Consolidate
