import Verif.Spec.Race
import Verif.Proofs.HTTPPaths

/-!
# C82: a client call leaves the caller's message as it is, but may write to it
-/

namespace Baron.Race

open Baron.HTTP (Piece templateOf TemplateOK)
open Baron.HTTPCode (bindingFields bindingOneofs)

variable {V : Type}

/-- Every write is of the field just read. -/
def Paired : List Op → Prop
  | [] => True
  | .load f :: .store g :: r => f = g ∧ Paired r
  | .load _ :: r => Paired r
  | .store _ :: _ => False

theorem paired_load (f : Str) (r : List Op) (h : Paired r) : Paired (.load f :: r) := by
  cases r with
  | nil => trivial
  | cons o r => cases o with
    | load g => exact h
    | store g => exact h.elim

theorem paired_append {a b : List Op} (ha : Paired a) (hb : Paired b) : Paired (a ++ b) := by
  fun_induction Paired a with
  | case1 => exact hb
  | case2 f g r ih => exact ⟨ha.1, ih ha.2⟩
  | case3 f r hne ih => exact paired_load f _ (ih ha)
  | case4 => exact ha.elim

theorem paired_loads (l : List Str) : Paired (l.map .load) := by
  induction l with
  | nil => trivial
  | cons f l ih => exact paired_load f _ ih

theorem paired_encoder (all : List Str) (b : Svcdef.HTTPBinding) : Paired (encoderOps all b) := by
  have h1 : Paired (pathOps b) := by
    have := paired_loads (((split '/' b.path).filter HTTP.isParamPart).map fun part => Strs.goCamelCase (HTTP.removeBraces part))
    rwa [List.map_map] at this
  have h2 : Paired (queryOps b) := by
    have := paired_loads (((bindingFields b).filter fun f => f.location = "query".toList).map (·.camelName))
    rwa [List.map_map] at this
  have h3 : Paired (oneofOps b) := by
    have := paired_loads (((bindingOneofs b).filter fun o => o.location = "query".toList).flatMap fun o =>
      o.options.map fun _ => Strs.goCamelCase o.name)
    rw [List.map_flatMap] at this
    simp only [List.map_map] at this
    exact this
  have h4 : Paired (bodyOps b) := by
    unfold bodyOps
    induction (bindingFields b).filter fun f => f.location = "body".toList with
    | nil => trivial
    | cons f l ih => exact ⟨rfl, ih⟩
  unfold encoderOps
  refine paired_append (paired_append (paired_append h1 h2) h3) ?_
  split
  · exact paired_append h4 (paired_loads all)
  · trivial

/-- What holds of every call at every time: it only has pairs to do, or is about to write back what it just read. -/
def Good (m : Str → V) (t : Thread V) : Prop :=
  Paired t.ops ∨ ∃ f r, t.ops = .store f :: r ∧ t.reg = some (m f) ∧ Paired r

theorem step_good (m : Str → V) {σ σ' : State V} {i : Nat} (hm : σ.mem = m) (hg : ∀ t ∈ σ.threads, Good m t)
    (h : step σ i = some σ') : σ'.mem = m ∧ ∀ t ∈ σ'.threads, Good m t := by
  unfold step at h
  split at h
  · rename_i f r v ht
    cases h
    refine ⟨hm, fun t hmem => ?_⟩
    rcases List.mem_or_eq_of_mem_set hmem with hmem | rfl
    · exact hg t hmem
    · rcases hg _ (List.mem_of_getElem? ht) with hp | ⟨g, r', hp, _⟩
      · cases r with
        | nil => exact .inl trivial
        | cons o r => cases o with
          | load g => exact .inl hp
          | store g => exact .inr ⟨g, r, rfl, by rw [hm, hp.1], hp.2⟩
      · cases hp
  · rename_i f r v ht
    cases h
    rcases hg _ (List.mem_of_getElem? ht) with hp | ⟨g, r', hp, hr, hp'⟩
    · exact hp.elim
    · cases hp
      cases hr
      refine ⟨?_, fun t hmem => ?_⟩
      · funext g
        by_cases hgf : g = f
        · simp [hgf]
        · simp [hgf, hm]
      · rcases List.mem_or_eq_of_mem_set hmem with hmem | rfl
        · exact hg t hmem
        · exact .inl hp'
  · cases h

theorem run_append (σ : State V) (a b : List Nat) : run σ (a ++ b) = (run σ a).bind fun σ' => run σ' b := by
  induction a generalizing σ with
  | nil => rfl
  | cons i a ih =>
    simp only [List.cons_append, run]
    cases step σ i with
    | none => rfl
    | some σ' => exact ih σ'

theorem run_good (m : Str → V) {σ σ' : State V} (is : List Nat) (hm : σ.mem = m) (hg : ∀ t ∈ σ.threads, Good m t)
    (h : run σ is = some σ') : σ'.mem = m ∧ ∀ t ∈ σ'.threads, Good m t := by
  induction is generalizing σ with
  | nil => cases h; exact ⟨hm, hg⟩
  | cons i is ih =>
    simp only [run] at h
    cases hs : step σ i with
    | none => rw [hs] at h; cases h
    | some σ₁ =>
      rw [hs] at h
      obtain ⟨h1, h2⟩ := step_good m hm hg hs
      exact ih h1 h2 h

/-- **C82** However many client calls share a request message, and however their accesses to it interleave, every field has
at every time the value the caller gave it. -/
theorem C82_unchanged (m : Str → V) (all : List Str) (bs : List Svcdef.HTTPBinding) (is : List Nat) (σ : State V)
    (h : run (calls m all bs) is = some σ) : σ.mem = m := by
  refine (run_good m is rfl ?_ h).1
  intro t ht
  simp only [calls, List.mem_map] at ht
  obtain ⟨b, _, rfl⟩ := ht
  exact .inl (paired_encoder all b)

theorem mem_encoder (all : List Str) (b : Svcdef.HTTPBinding) (ps : List Piece) (hb : b.path = templateOf ps)
    (hps : TemplateOK ps) (F : Str) :
    (.store F ∈ encoderOps all b ↔ Writes b F) ∧ (.load F ∈ encoderOps all b ↔ Reads all b ps F ∨ Writes b F) := by
  have hpath : .load F ∈ pathOps b ↔ ∃ n, Piece.var n ∈ ps ∧ Strs.goCamelCase n = F := by
    simp only [pathOps, hb, HTTP.split_template hps, List.mem_map, List.mem_filter, List.mem_cons, Op.load.injEq]
    constructor
    · rintro ⟨p, ⟨rfl | ⟨q, hq, rfl⟩, hp⟩, rfl⟩
      · simp [HTTP.isParamPart] at hp
      · cases q with
        | lit s => rw [show (Piece.lit s).text = s from rfl, HTTP.isParam_lit (hps.lit s hq).2] at hp; cases hp
        | var n => exact ⟨n, hq, by rw [HTTP.removeBraces_var (hps.var n hq).2.1]⟩
    · rintro ⟨n, hn, rfl⟩
      exact ⟨(Piece.var n).text, ⟨.inr ⟨_, hn, rfl⟩, HTTP.isParam_var (hps.var n hn).2.2⟩,
        by rw [HTTP.removeBraces_var (hps.var n hn).2.1]⟩
  have hquery : .load F ∈ queryOps b ↔ ∃ f ∈ bindingFields b, f.location = "query".toList ∧ f.camelName = F := by
    simp only [queryOps, List.mem_map, List.mem_filter, Op.load.injEq, decide_eq_true_eq]
    exact ⟨fun ⟨f, h, e⟩ => ⟨f, h.1, h.2, e⟩, fun ⟨f, h, h', e⟩ => ⟨f, ⟨h, h'⟩, e⟩⟩
  have honeof : .load F ∈ oneofOps b ↔ ∃ o ∈ bindingOneofs b, o.location = "query".toList ∧ o.options ≠ [] ∧
      Strs.goCamelCase o.name = F := by
    simp only [oneofOps, List.mem_flatMap, List.mem_map, List.mem_filter, Op.load.injEq, decide_eq_true_eq]
    constructor
    · rintro ⟨o, ⟨h, h'⟩, p, hp, e⟩
      exact ⟨o, h, h', List.ne_nil_of_mem hp, e⟩
    · rintro ⟨o, h, h', hn, e⟩
      obtain ⟨p, hp⟩ := List.exists_mem_of_ne_nil _ hn
      exact ⟨o, ⟨h, h'⟩, p, hp, e⟩
  have hbody : .load F ∈ bodyOps b ↔ ∃ f ∈ bindingFields b, f.location = "body".toList ∧ f.camelName = F := by
    simp only [bodyOps, List.mem_flatMap, List.mem_filter, decide_eq_true_eq, List.mem_cons, Op.load.injEq, reduceCtorEq,
      List.not_mem_nil, or_false]
    exact ⟨fun ⟨f, h, e⟩ => ⟨f, h.1, h.2, e.symm⟩, fun ⟨f, h, h', e⟩ => ⟨f, ⟨h, h'⟩, e.symm⟩⟩
  have hstore : .store F ∈ bodyOps b ↔ ∃ f ∈ bindingFields b, f.location = "body".toList ∧ f.camelName = F := by
    simp only [bodyOps, List.mem_flatMap, List.mem_filter, decide_eq_true_eq, List.mem_cons, Op.store.injEq, reduceCtorEq,
      List.not_mem_nil, or_false, false_or]
    exact ⟨fun ⟨f, h, e⟩ => ⟨f, h.1, h.2, e.symm⟩, fun ⟨f, h, h', e⟩ => ⟨f, ⟨h, h'⟩, e.symm⟩⟩
  have h1 : .store F ∉ pathOps b := by simp [pathOps]
  have h2 : .store F ∉ queryOps b := by simp [queryOps]
  have h3 : .store F ∉ oneofOps b := by simp [oneofOps]
  unfold encoderOps
  by_cases hv : b.verb = "get".toList
  · rw [if_neg (fun h => h hv)]
    simp only [List.append_nil, List.mem_append, h1, h2, h3, hpath, hquery, honeof, Writes, Reads, hv, ne_eq, not_true,
      false_and, or_false]
    refine ⟨trivial, ?_⟩
    rw [or_assoc]
  · rw [if_pos hv]
    simp only [List.mem_append, h1, h2, h3, hpath, hquery, honeof, hbody, hstore, Writes, Reads, ne_eq, hv, not_false_eq_true,
      true_and, false_or, List.mem_map, reduceCtorEq, and_false, exists_false, or_false, Op.load.injEq, exists_eq_right]
    grind

/-- All calls keep doing what they started with. -/
theorem run_suffix {σ σ' : State V} (is : List Nat) (h : run σ is = some σ') (i : Nat) (t : Thread V)
    (ht : σ'.threads[i]? = some t) : ∃ t₀, σ.threads[i]? = some t₀ ∧ t.ops <:+ t₀.ops := by
  induction is generalizing σ with
  | nil => cases h; exact ⟨t, ht, List.suffix_refl _⟩
  | cons k is ih =>
    simp only [run] at h
    cases hs : step σ k with
    | none => rw [hs] at h; cases h
    | some σ₁ =>
      rw [hs] at h
      obtain ⟨t₁, h1, hsuf⟩ := ih h
      unfold step at hs
      split at hs
      · rename_i f r v hk
        cases hs
        by_cases hki : k = i
        · subst hki
          rw [List.getElem?_set_self (List.getElem?_eq_some_iff.mp hk).1] at h1
          cases h1
          exact ⟨_, hk, hsuf.trans (List.suffix_cons _ _)⟩
        · rw [List.getElem?_set_ne hki] at h1
          exact ⟨t₁, h1, hsuf⟩
      · rename_i f r v hk
        cases hs
        by_cases hki : k = i
        · subst hki
          rw [List.getElem?_set_self (List.getElem?_eq_some_iff.mp hk).1] at h1
          cases h1
          exact ⟨_, hk, hsuf.trans (List.suffix_cons _ _)⟩
        · rw [List.getElem?_set_ne hki] at h1
          exact ⟨t₁, h1, hsuf⟩
      · cases hs

/-- A call can always go on alone, up to any of its accesses. -/
theorem advance (m : Str → V) (i : Nat) (pre post : List Op) : ∀ (σ : State V), σ.mem = m → (∀ t ∈ σ.threads, Good m t) →
    ∀ t, σ.threads[i]? = some t → t.ops = pre ++ post →
    ∃ is σ' t', run σ is = some σ' ∧ σ'.mem = m ∧ (∀ t ∈ σ'.threads, Good m t) ∧ σ'.threads[i]? = some t' ∧ t'.ops = post ∧
      ∀ j, j ≠ i → σ'.threads[j]? = σ.threads[j]? := by
  induction pre with
  | nil => intro σ hm hg t ht ho; exact ⟨[], σ, t, rfl, hm, hg, ht, ho, fun _ _ => rfl⟩
  | cons o pre ih =>
    intro σ hm hg t ht ho
    have hlt := (List.getElem?_eq_some_iff.mp ht).1
    obtain ⟨ops, reg⟩ := t
    simp only [List.cons_append] at ho
    subst ho
    have hgood := hg _ (List.mem_of_getElem? ht)
    have : ∃ σ₁ reg₁, step σ i = some σ₁ ∧ σ₁.threads = σ.threads.set i ⟨pre ++ post, reg₁⟩ := by
      cases o with
      | load f => exact ⟨{ σ with threads := σ.threads.set i ⟨pre ++ post, some (σ.mem f)⟩ }, _, by simp only [step, ht], rfl⟩
      | store f =>
        rcases hgood with hp | ⟨g, r, h1, h2, _⟩
        · exact hp.elim
        · simp only at h2
          subst h2
          exact ⟨⟨fun g => if g = f then m f else σ.mem g, σ.threads.set i ⟨pre ++ post, some (m f)⟩⟩, _,
            by cases h1; simp only [step, ht], rfl⟩
    obtain ⟨σ₁, reg₁, hs, hth⟩ := this
    obtain ⟨hm₁, hg₁⟩ := step_good m hm hg hs
    obtain ⟨is, σ', t', h1, h2, h3, h4, h5, h6⟩ := ih σ₁ hm₁ hg₁ ⟨pre ++ post, reg₁⟩
      (by rw [hth]; exact List.getElem?_set_self hlt) rfl
    refine ⟨i :: is, σ', t', by simp only [run, hs]; exact h1, h2, h3, h4, h5, fun j hj => ?_⟩
    rw [h6 j hj, hth, List.getElem?_set_ne (Ne.symm hj)]

/-- **C82** Which calls that share a message race: exactly those where one writes a field that another reads or writes, that is,
where one is made with a verb other than `get` and has a field in the body which the other uses too. -/
theorem C82_race_iff (m : Str → V) (all : List Str) (bs : List (Svcdef.HTTPBinding × List Piece))
    (hbs : ∀ b ∈ bs, b.1.path = templateOf b.2 ∧ TemplateOK b.2) :
    Races (calls m all (bs.map (·.1))) ↔ ∃ (i j : Nat) (b c : Svcdef.HTTPBinding × List Piece) (F : Str), i ≠ j ∧ bs[i]? = some b ∧
      bs[j]? = some c ∧ Writes b.1 F ∧ (Reads all c.1 c.2 F ∨ Writes c.1 F) := by
  have hat : ∀ (i : Nat) (t : Thread V), (calls m all (bs.map (·.1))).threads[i]? = some t ↔
      ∃ b, bs[i]? = some b ∧ t = ⟨encoderOps all b.1, none⟩ := by
    intro i t
    simp only [calls, List.map_map, List.getElem?_map, Option.map_eq_some_iff, Function.comp]
    constructor
    · rintro ⟨b, h, e⟩
      exact ⟨b, h, e.symm⟩
    · rintro ⟨b, h, e⟩
      exact ⟨b, h, e.symm⟩
  constructor
  · rintro ⟨is, σ', hrun, i, j, s, t, o, p, os, qs, hij, hs, ht, hso, hto, hf, F, rfl⟩
    obtain ⟨s₀, hs₀, hss⟩ := run_suffix is hrun i s hs
    obtain ⟨t₀, ht₀, hts⟩ := run_suffix is hrun j t ht
    obtain ⟨b, hb, rfl⟩ := (hat i s₀).mp hs₀
    obtain ⟨c, hc, rfl⟩ := (hat j t₀).mp ht₀
    have hmb : .store F ∈ encoderOps all b.1 := hss.subset (by rw [hso]; simp)
    have hmc : p ∈ encoderOps all c.1 := hts.subset (by rw [hto]; simp)
    have hob := hbs b (List.mem_of_getElem? hb)
    have hoc := hbs c (List.mem_of_getElem? hc)
    refine ⟨i, j, b, c, F, hij, hb, hc, (mem_encoder all b.1 b.2 hob.1 hob.2 F).1.mp hmb, ?_⟩
    cases p with
    | load G =>
      have : F = G := hf
      subst this
      exact (mem_encoder all c.1 c.2 hoc.1 hoc.2 F).2.mp hmc
    | store G =>
      have : F = G := hf
      subst this
      exact .inr ((mem_encoder all c.1 c.2 hoc.1 hoc.2 F).1.mp hmc)
  · rintro ⟨i, j, b, c, F, hij, hb, hc, hw, hr⟩
    have hob := hbs b (List.mem_of_getElem? hb)
    have hoc := hbs c (List.mem_of_getElem? hc)
    obtain ⟨pre, post, h1⟩ := List.append_of_mem ((mem_encoder all b.1 b.2 hob.1 hob.2 F).1.mpr hw)
    obtain ⟨pre', post', h2⟩ := List.append_of_mem ((mem_encoder all c.1 c.2 hoc.1 hoc.2 F).2.mpr hr)
    have hgood : ∀ t ∈ (calls m all (bs.map (·.1))).threads, Good m t := by
      intro t ht
      simp only [calls, List.mem_map] at ht
      obtain ⟨b, _, rfl⟩ := ht
      exact .inl (paired_encoder all b)
    obtain ⟨is, σ₁, t₁, hr₁, hm₁, hg₁, ht₁, ho₁, he₁⟩ := advance m i pre (.store F :: post) _ rfl hgood _
      ((hat i _).mpr ⟨b, hb, rfl⟩) h1
    obtain ⟨is', σ₂, t₂, hr₂, _, _, ht₂, ho₂, he₂⟩ := advance m j pre' (.load F :: post') σ₁ hm₁ hg₁ _
      (by rw [he₁ j (Ne.symm hij)]; exact (hat j _).mpr ⟨c, hc, rfl⟩) h2
    refine ⟨is ++ is', σ₂, ?_, i, j, t₁, t₂, _, _, post, post', hij, by rw [he₂ i hij]; exact ht₁, ht₂, ho₁, ho₂, rfl, F, rfl⟩
    rw [run_append, hr₁]
    exact hr₂

/-- **C82** In particular `get` calls never race, and a method called twice at the same time with the same message races
exactly if its verb is not `get` and it has a field in the body. -/
theorem C82_same_method (m : Str → V) (all : List Str) (b : Svcdef.HTTPBinding) (ps : List Piece) (hb : b.path = templateOf ps)
    (hps : TemplateOK ps) :
    Races (calls m all [b, b]) ↔ b.verb ≠ "get".toList ∧ ∃ f ∈ bindingFields b, f.location = "body".toList := by
  have h := C82_race_iff m all [(b, ps), (b, ps)] (by
    intro c hc
    simp at hc
    subst hc
    exact ⟨hb, hps⟩)
  rw [show ([(b, ps), (b, ps)].map (·.1)) = [b, b] from rfl] at h
  rw [h]
  constructor
  · rintro ⟨i, j, c, d, F, _, hc, _, hw, _⟩
    have : c = (b, ps) := by simpa using List.mem_of_getElem? hc
    subst this
    obtain ⟨hv, f, hf, hl, _⟩ := hw
    exact ⟨hv, f, hf, hl⟩
  · rintro ⟨hv, f, hf, hl⟩
    exact ⟨0, 1, _, _, f.camelName, by simp, rfl, rfl, ⟨hv, f, hf, hl, rfl⟩, .inr ⟨hv, f, hf, hl, rfl⟩⟩

theorem C82_get (m : Str → V) (all : List Str) (bs : List (Svcdef.HTTPBinding × List Piece))
    (hbs : ∀ b ∈ bs, b.1.path = templateOf b.2 ∧ TemplateOK b.2) (hget : ∀ b ∈ bs, b.1.verb = "get".toList) :
    ¬ Races (calls m all (bs.map (·.1))) := by
  rw [C82_race_iff m all bs hbs]
  rintro ⟨i, _, b, _, _, _, hb, _, hw, _⟩
  exact hw.1 (hget b (List.mem_of_getElem? hb))

/-! ## Two examples: `GET /v1/{id}?n=…` and `POST /v1/{id}` with `Note` in the body -/

def c82Ty (n : String) : Svcdef.FieldType := ⟨n.toList, none, [], none, none, false, false⟩
def c82Id : Svcdef.HTTPParameter := ⟨⟨"Id".toList, "id".toList, c82Ty "int64"⟩, "path".toList⟩
def c82N : Svcdef.HTTPParameter := ⟨⟨"N".toList, "n".toList, c82Ty "int64"⟩, "query".toList⟩
def c82Note : Svcdef.HTTPParameter := ⟨⟨"Note".toList, "note".toList, c82Ty "string"⟩, "body".toList⟩
def c82Get : Svcdef.HTTPBinding := ⟨"get".toList, "/v1/{id}".toList, [c82Id, c82N]⟩
def c82Post : Svcdef.HTTPBinding := ⟨"post".toList, "/v1/{id}".toList, [c82Id, c82Note]⟩

example : encoderOps ["Id".toList, "N".toList, "Note".toList] c82Get = [.load "Id".toList, .load "N".toList] ∧
    encoderOps ["Id".toList, "N".toList, "Note".toList] c82Post =
      [.load "Id".toList, .load "Note".toList, .store "Note".toList, .load "Id".toList, .load "N".toList, .load "Note".toList] := by
  decide +kernel

example : c82Get.path = templateOf [.lit "v1".toList, .var "id".toList] ∧
    TemplateOK [.lit "v1".toList, .var "id".toList] ∧ Races (calls (fun _ => 0) [] [c82Post, c82Post]) ∧
    ¬ Races (calls (fun _ => 0) [] [c82Get, c82Get]) := by
  have ho : TemplateOK [.lit "v1".toList, .var "id".toList] := by
    refine ⟨?_, ?_, by decide +kernel, by decide +kernel⟩
    · intro s hs
      simp only [List.mem_cons, Piece.lit.injEq, reduceCtorEq, List.not_mem_nil, or_false] at hs
      subst hs
      exact ⟨by decide +kernel, by rw [HTTP.not_braced_iff]; decide +kernel⟩
    · intro s hs
      simp only [List.mem_cons, Piece.var.injEq, reduceCtorEq, List.not_mem_nil, or_false, false_or] at hs
      subst hs
      exact ⟨by decide +kernel, by rw [HTTP.not_braced_iff]; decide +kernel, by decide +kernel⟩
  refine ⟨by decide +kernel, ho, ?_, ?_⟩
  · rw [C82_same_method _ _ c82Post _ (show _ = templateOf [.lit "v1".toList, .var "id".toList] by decide +kernel) ho]
    exact ⟨by decide +kernel, HTTPCode.newField c82Note, by decide +kernel, by decide +kernel⟩
  · rw [C82_same_method _ _ c82Get _ (show _ = templateOf [.lit "v1".toList, .var "id".toList] by decide +kernel) ho]
    exact fun h => h.1 rfl

end Baron.Race
