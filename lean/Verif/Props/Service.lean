import Verif.Proofs.Service

/-!
# C29–C31: regenerating the service file
-/

namespace Baron.Service

/-! ## C29 -/

/-- **C29.** A regeneration that finishes writes the previous file's surviving declarations, in order and position by
position the same — the user's own declarations literally, rpc implementations up to the types of the second parameter and
the first result — followed by nothing but generated methods for rpcs. The survivors are exactly: every declaration that is
not a function, unexported functions, `NewService`, and methods of the service type named like an rpc. -/
theorem C29_user_code_preserved (exp : Str → Bool) (svc : Str) (order : List Rpc → List Rpc)
    (horder : ∀ l, (order l).Perm l) (ms : List Rpc) (prev out : List Decl)
    (hid : IdentsOK svc prev) (hdup : NoDuplicateMethods svc prev)
    (h : render exp svc order ms (some prev) = some out) :
    ∃ kept new, out = kept ++ new ∧
      Pointwise (fun d d' => SameButTypes d d' ∧ (UserDecl exp d = true → d' = d))
        (prev.filter (MustStay exp svc (ms.map (·.name)))) kept ∧
      ∀ d ∈ new, ∃ r ∈ ms, d = stub svc r := by
  rw [render] at h
  cases hp : pruneDecls exp svc (newMethodMap ms) prev with
  | none => rw [hp] at h; cases h
  | some x =>
    obtain ⟨kept, left⟩ := x
    rw [hp] at h
    simp only [Option.some.injEq] at h
    refine ⟨kept, (order left).map (stub svc), h.symm, ?_, ?_⟩
    · have := prune_kept exp svc prev _ kept left hid hdup hp
      have hf : MustStay exp svc ((newMethodMap ms).map (·.name)) = MustStay exp svc (ms.map (·.name)) := by
        funext d
        rw [MustStay, MustStay]
        congr 1
        rw [Bool.eq_iff_iff, List.any_eq_true, List.any_eq_true]
        constructor
        · rintro ⟨n, hn, hi⟩; exact ⟨n, (map_names ms n).1 hn, hi⟩
        · rintro ⟨n, hn, hi⟩; exact ⟨n, (map_names ms n).2 hn, hi⟩
      rw [hf] at this
      exact this
    · intro d hd
      obtain ⟨r, hr, rfl⟩ := List.mem_map.1 hd
      exact ⟨r, map_sub ms r ((prune_sub exp svc prev _ kept left hid hp).subset ((horder left).subset hr)), rfl⟩

/-- A file with a type, a helper, an exported function that is no rpc, a hand-written rpc on an outdated request type,
and an rpc that disappeared from the definition. -/
def demo : List Decl := [
  .other "type fooService struct{ db *DB }".toList,
  .func ⟨none, "helper".toList, [], [], "{ … }".toList⟩,
  .func ⟨none, "Exported".toList, [], [], "{ … }".toList⟩,
  .func ⟨some [.star (.ident "fooService".toList)], "Get".toList,
    [⟨["c".toList], .sel "context".toList "Context".toList⟩, ⟨["q".toList], .star (.sel "pb".toList "Old".toList)⟩],
    [⟨[], .star (.sel "pb".toList "GetReply".toList)⟩, ⟨[], .ident "error".toList⟩], "{ my code }".toList⟩,
  .func ⟨some [.star (.ident "fooService".toList)], "Gone".toList, [], [], "{ … }".toList⟩]

/-- Exported names in the concrete cases: ASCII upper-case first letter. -/
def upperFirst : Str → Bool
  | c :: _ => isAsciiUpper c
  | [] => false

def demoRpcs : List Rpc := [⟨"Get".toList, "GetRequest".toList, "GetReply".toList⟩,
  ⟨"Put".toList, "PutRequest".toList, "PutReply".toList⟩]

theorem demo_idents : IdentsOK "foo".toList demo := by
  refine ⟨by decide +kernel, ?_⟩
  intro f hf s r hr
  simp only [demo, List.mem_cons, List.not_mem_nil, or_false, Decl.func.injEq, reduceCtorEq, false_or] at hf
  rcases hf with rfl | rfl | rfl | rfl <;> simp at hr

example : IdentsOK "foo".toList demo ∧ NoDuplicateMethods "foo".toList demo ∧
    render upperFirst "foo".toList id demoRpcs (some demo) = some [
      .other "type fooService struct{ db *DB }".toList,
      .func ⟨none, "helper".toList, [], [], "{ … }".toList⟩,
      .func ⟨some [.star (.ident "fooService".toList)], "Get".toList,
        [⟨["c".toList], .sel "context".toList "Context".toList⟩, ⟨["q".toList], .star (.sel "pb".toList "GetRequest".toList)⟩],
        [⟨[], .star (.sel "pb".toList "GetReply".toList)⟩, ⟨[], .ident "error".toList⟩], "{ my code }".toList⟩,
      stub "foo".toList ⟨"Put".toList, "PutRequest".toList, "PutReply".toList⟩] := by
  refine ⟨demo_idents, ?_, by decide +kernel⟩
  rw [NoDuplicateMethods]
  simp only [demo, List.pairwise_cons, List.mem_cons, List.not_mem_nil, or_false, forall_eq_or_imp, forall_eq]
  simp [Implements]

/-- A hand-written implementation that groups its parameters, `Get(c, q *pb.X)`, makes the generator panic. -/
theorem C29_grouped_parameters_panic :
    render upperFirst "foo".toList id demoRpcs (some [
      .func ⟨some [.star (.ident "fooService".toList)], "Get".toList,
        [⟨["c".toList, "q".toList], .star (.sel "pb".toList "X".toList)⟩], [], "{ my code }".toList⟩]) = none := by
  decide +kernel

/-- The regeneration finishes whenever every implementation of an rpc lists its parameters one by one and no function has
an empty receiver list. -/
theorem C29_finishes (exp : Str → Bool) (svc : Str) (order : List Rpc → List Rpc) (ms : List Rpc) (prev : List Decl)
    (hrecv : ∀ f, Decl.func f ∈ prev → f.recv ≠ some [])
    (hpar : ∀ f, Decl.func f ∈ prev → ∀ p ∈ f.params, p.names.length ≤ 1) :
    ∃ out, render exp svc order ms (some prev) = some out := by
  have key : ∀ (ds : List Decl) (m : List Rpc), (∀ f, Decl.func f ∈ ds → f.recv ≠ some []) →
      (∀ f, Decl.func f ∈ ds → ∀ p ∈ f.params, p.names.length ≤ 1) → ∃ x, pruneDecls exp svc m ds = some x := by
    intro ds
    induction ds with
    | nil => intro m _ _; exact ⟨_, rfl⟩
    | cons d ds ih =>
      intro m h1 h2
      have ih' := fun m => ih m (fun f hf => h1 f (by simp [hf])) (fun f hf => h2 f (by simp [hf]))
      cases d with
      | other t =>
        obtain ⟨x, hx⟩ := ih' m
        exact ⟨_, by rw [pruneDecls, hx]; rfl⟩
      | func f =>
        rw [pruneDecls]
        split
        · obtain ⟨x, hx⟩ := ih' m
          exact ⟨_, by rw [hx]; rfl⟩
        · have hr : ∃ s, recvTypeToString f.recv = some s := by
            cases hr : f.recv with
            | none => exact ⟨_, rfl⟩
            | some l =>
              cases l with
              | nil => exact absurd hr (h1 f (by simp))
              | cons t l => exact ⟨_, rfl⟩
          obtain ⟨s, hs⟩ := hr
          cases hv : isValidFunc svc m f with
          | none =>
            unfold isValidFunc at hv
            split at hv
            · cases hv
            · rw [hs] at hv; cases hv
          | some b =>
            cases b with
            | false => exact ih' m
            | true =>
              simp only
              cases hg : mapGet m f.name with
              | none => unfold isValidFunc at hv; rw [hg] at hv; simp at hv
              | some r =>
                simp only
                have hup : ∃ f', updateParams f r = some f' := by
                  unfold updateParams
                  split
                  · exact ⟨_, rfl⟩
                  · rename_i hn
                    have hlen : numFields f.params = f.params.length := by
                      have : ∀ l : List Param, (∀ p ∈ l, p.names.length ≤ 1) → numFields l = l.length := by
                        intro l
                        induction l with
                        | nil => intro _; rfl
                        | cons p l ih =>
                          intro h
                          have hp := h p (by simp)
                          have := ih (fun q hq => h q (by simp [hq]))
                          simp only [numFields, List.map_cons, List.sum_cons, List.length_cons] at this ⊢
                          omega
                      exact this _ (h2 f (by simp))
                    rw [hlen] at hn
                    match hps : f.params with
                    | [] => rw [hps] at hn; simp at hn
                    | [a] => rw [hps] at hn; simp at hn
                    | a :: b :: r => exact ⟨_, rfl⟩
                obtain ⟨f', hf'⟩ := hup
                rw [hf']
                obtain ⟨x, hx⟩ := ih' (mapDelete m f.name)
                exact ⟨_, by simp only [hx]; rfl⟩
  obtain ⟨⟨kept, left⟩, hx⟩ := key prev (newMethodMap ms) hrecv hpar
  exact ⟨_, by rw [render, hx]⟩

/-! ## C30 -/

/-- **C30**, counting: after a regeneration every exported rpc other than one called `NewService` has exactly one method on
the service type, and an exported name that is no rpc has none — whatever the previous file contained; names that are left
alone keep the methods they had, and rpcs with such names get one more each time. -/
theorem C30_count (exp : Str → Bool) (svc : Str) (order : List Rpc → List Rpc)
    (horder : ∀ l, (order l).Perm l) (ms : List Rpc) (prev : List Decl) (out : List Decl)
    (hid : IdentsOK svc prev) (h : render exp svc order ms (some prev) = some out) (n : Str) :
    (¬ LeftAlone exp n → out.countP (Implements svc n) = if n ∈ ms.map (·.name) then 1 else 0) ∧
    (LeftAlone exp n → out.countP (Implements svc n) =
      prev.countP (Implements svc n) + if n ∈ ms.map (·.name) then 1 else 0) := by
  rw [render] at h
  cases hp : pruneDecls exp svc (newMethodMap ms) prev with
  | none => rw [hp] at h; cases h
  | some x =>
    obtain ⟨kept, left⟩ := x
    rw [hp] at h
    simp only [Option.some.injEq] at h
    rw [← h, List.countP_append, stubs_count, ((horder left).map _).count_eq]
    have hm : ((newMethodMap ms).map (·.name)).count n = if n ∈ ms.map (·.name) then 1 else 0 := by
      by_cases hn : n ∈ ms.map (·.name)
      · rw [if_pos hn]; exact count_one (map_nodup ms) ((map_names ms n).2 hn)
      · rw [if_neg hn]; exact List.count_eq_zero.2 fun hc => hn ((map_names ms n).1 hc)
    constructor
    · intro hn
      rw [(prune_count exp svc n (Bool.not_eq_false _ ▸ fun hc => hn (Or.inl hc)) (fun hc => hn (Or.inr hc)) prev _ kept left hid
        (map_nodup ms) hp).1, hm]
    · intro hn
      obtain ⟨h1, h2⟩ := prune_count_left exp svc n hn prev _ kept left hid hp
      rw [h1, h2, hm]

/-- **C30**, exactly when every rpc has exactly one method: the previous file has none for rpcs with unexported names or
called `NewService`. -/
theorem C30_exactly_one_iff (exp : Str → Bool) (svc : Str) (order : List Rpc → List Rpc)
    (horder : ∀ l, (order l).Perm l) (ms : List Rpc) (prev : List Decl) (out : List Decl)
    (hid : IdentsOK svc prev) (h : render exp svc order ms (some prev) = some out) :
    (∀ r ∈ ms, out.countP (Implements svc r.name) = 1) ↔
      ∀ r ∈ ms, LeftAlone exp r.name → ∀ d ∈ prev, Implements svc r.name d = false := by
  have hc := C30_count exp svc order horder ms prev out hid h
  have hz : ∀ n, prev.countP (Implements svc n) = 0 ↔ ∀ d ∈ prev, Implements svc n d = false := by
    intro n
    rw [List.countP_eq_zero]
    simp only [Bool.not_eq_true]
  constructor
  · intro ha r hr hl
    have h1 := ha r hr
    rw [(hc r.name).2 hl, if_pos (List.mem_map_of_mem hr)] at h1
    exact (hz r.name).1 (by omega)
  · intro ha r hr
    cases Classical.em (LeftAlone exp r.name) with
    | inl hl =>
      rw [(hc r.name).2 hl, if_pos (List.mem_map_of_mem hr), (hz r.name).2 (ha r hr hl)]
    | inr hl => rw [(hc r.name).1 hl, if_pos (List.mem_map_of_mem hr)]

/-- **C30**, for rpcs the generator handles. -/
theorem C30_exactly_one (exp : Str → Bool) (svc : Str) (order : List Rpc → List Rpc)
    (horder : ∀ l, (order l).Perm l) (ms : List Rpc) (prev : List Decl) (out : List Decl)
    (hid : IdentsOK svc prev) (h : render exp svc order ms (some prev) = some out)
    (n : Str) (hn : n ∈ ms.map (·.name)) (hexp : exp n = true) (hne : n ≠ "NewService".toList) :
    out.countP (Implements svc n) = 1 := by
  rw [(C30_count exp svc order horder ms prev out hid h n).1, if_pos hn]
  rintro (hc | hc)
  · rw [hexp] at hc; cases hc
  · exact hne hc

/-- **C30**, which method it is: without a method in the previous file the generated one, otherwise the first of the
previous file adapted to the rpc's message names. -/
theorem C30_method (exp : Str → Bool) (svc : Str) (order : List Rpc → List Rpc)
    (horder : ∀ l, (order l).Perm l) (ms : List Rpc) (hms : (ms.map (·.name)).Nodup) (prev : List Decl) (out : List Decl)
    (hid : IdentsOK svc prev) (h : render exp svc order ms (some prev) = some out)
    (r : Rpc) (hr : r ∈ ms) (hn : ¬ LeftAlone exp r.name) :
    ((∀ d ∈ prev, Implements svc r.name d = false) → stub svc r ∈ out) ∧
    (∀ pre f post, prev = pre ++ .func f :: post → (∀ d ∈ pre, Implements svc r.name d = false) →
      Implements svc r.name (.func f) = true → ∃ f', Decl.func f' ∈ out ∧ AdaptedTo r f f') := by
  rw [render, map_eq ms hms] at h
  cases hp : pruneDecls exp svc ms prev with
  | none => rw [hp] at h; cases h
  | some x =>
    obtain ⟨kept, left⟩ := x
    rw [hp] at h
    simp only [Option.some.injEq] at h
    obtain ⟨h1, h2⟩ := prune_first exp svc r hn prev ms kept left hid hp (mapGet_of_mem hms hr)
    rw [← h]
    constructor
    · intro hd
      exact List.mem_append_right _ (List.mem_map_of_mem ((horder left).mem_iff.2 (h1 hd)))
    · intro pre f post he hpre hi
      obtain ⟨f', hf', ha⟩ := h2 pre f post he hpre hi
      exact ⟨f', List.mem_append_left _ hf', ha⟩

/-- **C30**, types: every such method has the rpc's message types wherever its signature has the generated form — two
parameters, two results, `*p.T` in the second parameter and the first result. -/
theorem C30_types (exp : Str → Bool) (svc : Str) (order : List Rpc → List Rpc)
    (horder : ∀ l, (order l).Perm l) (ms : List Rpc) (hms : (ms.map (·.name)).Nodup) (hgood : ∀ r ∈ ms, GoodRpc exp r)
    (prev : List Decl) (out : List Decl)
    (hid : IdentsOK svc prev) (h : render exp svc order ms (some prev) = some out)
    (r : Rpc) (hr : r ∈ ms) (f : Func) (hf : Decl.func f ∈ out) (hi : Implements svc r.name (.func f) = true) :
    (∀ a b p t, f.params = [a, ⟨b, .star (.sel p t)⟩] → a.names.length ≤ 1 → b.length ≤ 1 → t = r.request) ∧
    (∀ a b p t, f.results = [⟨a, .star (.sel p t)⟩, b] → a.length ≤ 1 → b.names.length ≤ 1 → t = r.response) := by
  rw [render, map_eq ms hms] at h
  cases hp : pruneDecls exp svc ms prev with
  | none => rw [hp] at h; cases h
  | some x =>
    obtain ⟨kept, left⟩ := x
    rw [hp] at h
    simp only [Option.some.injEq] at h
    have hfix : updateParams f r = some f ∧ updateResults f r = f := by
      rw [← h, List.mem_append] at hf
      have hname := impl_name hi
      rcases hf with hf | hf
      · obtain ⟨g1, g2, -⟩ := hgood r hr
        have hu : UserDecl exp (.func f) = false := by
          show (decide (f.name = "NewService".toList) || !exp f.name) = false
          rw [hname, decide_eq_false g2, g1]; rfl
        obtain ⟨r', hr', hn', h1, h2⟩ := prune_types exp svc prev ms kept left hid hp f hf hu
        have h3 := mapGet_of_mem hms hr
        have h4 := mapGet_of_mem hms hr'
        rw [hn', hname, h3] at h4
        simp at h4
        subst h4
        exact ⟨h1, h2⟩
      · obtain ⟨r', hr', he⟩ := List.mem_map.1 hf
        have hr'm : r' ∈ ms := (prune_sub exp svc prev _ kept left hid hp).subset ((horder left).subset hr')
        obtain ⟨-, -, g3, g4⟩ := hgood r' hr'm
        simp only [stub, Decl.func.injEq] at he
        have hn' : r'.name = r.name := by rw [← hname, ← he]
        have h3 := mapGet_of_mem hms hr
        have h4 := mapGet_of_mem hms hr'm
        rw [hn', h3] at h4
        simp at h4
        subst h4
        rw [← he]
        constructor
        · simp [updateParams, numFields, ptr, updatePBFieldType, g3]
        · simp [updateResults, numFields, ptr, updatePBFieldType, g4]
    obtain ⟨hf1, hf2⟩ := hfix
    refine ⟨?_, ?_⟩
    · intro a b p t hps ha hb
      have hn : numFields f.params = 2 := by
        rw [hps]; simp only [numFields, List.map_cons, List.map_nil, List.sum_cons, List.sum_nil]; omega
      unfold updateParams at hf1
      rw [if_neg (by simp [hn]), hps] at hf1
      simp only [Option.some.injEq, updatePBFieldType] at hf1
      have := congrArg Func.params hf1
      rw [hps] at this
      simp at this
      exact this.symm
    · intro a b p t hps ha hb
      have hn : numFields f.results = 2 := by
        rw [hps]; simp only [numFields, List.map_cons, List.map_nil, List.sum_cons, List.sum_nil]; omega
      unfold updateResults at hf2
      rw [if_neg (by simp [hn]), hps] at hf2
      simp only [updatePBFieldType] at hf2
      have := congrArg Func.results hf2
      rw [hps] at this
      simp at this
      exact this.symm

/-- The stub of an rpc with Go message names has the right signature. -/
theorem stub_generated {exp : Str → Bool} {svc : Str} {r : Rpc} (h : GoodRpc exp r) :
    ∃ f, stub svc r = .func f ∧ GeneratedFor svc r f := by
  refine ⟨_, rfl, rfl, rfl, ?_, ?_, ?_, ?_⟩
  · simp only [List.map_cons, List.map_nil, ptr, h.2.2.1]
  · simp only [List.map_cons, List.map_nil, ptr, h.2.2.2]
  · intro p hp
    rcases List.mem_cons.1 hp with rfl | hp
    · rfl
    · rcases List.mem_cons.1 hp with rfl | hp
      · rfl
      · cases hp
  · show ["ctx".toList, "in".toList].Nodup
    decide +kernel

/-- **C30**, new rpcs: an rpc the previous file has no method for gets one with the signature of the gRPC interface. -/
theorem C30_new_rpc (exp : Str → Bool) (svc : Str) (order : List Rpc → List Rpc)
    (horder : ∀ l, (order l).Perm l) (ms : List Rpc) (hms : (ms.map (·.name)).Nodup) (hgood : ∀ r ∈ ms, GoodRpc exp r)
    (prev : List Decl) (out : List Decl) (hid : IdentsOK svc prev) (hdup : NoDuplicateMethods svc prev)
    (h : render exp svc order ms (some prev) = some out)
    (r : Rpc) (hr : r ∈ ms) (hnew : ∀ d ∈ prev, Implements svc r.name d = false) :
    ∃ f, Decl.func f ∈ out ∧ GeneratedFor svc r f := by
  obtain ⟨kept, new, ho, hk, hn⟩ := C29_user_code_preserved exp svc order horder ms prev out hid hdup h
  have hc := C30_exactly_one exp svc order horder ms prev out hid h r.name (List.mem_map_of_mem hr)
    (hgood r hr).1 (hgood r hr).2.1
  obtain ⟨d, hd, hi⟩ := List.countP_pos_iff.1 (by rw [hc]; exact Nat.one_pos)
  have hkept : ∀ (l l' : List Decl), Pointwise (fun d d' => SameButTypes d d' ∧ (UserDecl exp d = true → d' = d)) l l' →
      (∀ x ∈ l, Implements svc r.name x = false) → ∀ x ∈ l', Implements svc r.name x = false := by
    intro l l' hp
    induction hp with
    | nil => intro _ x hx; cases hx
    | @cons a b as bs hab _ ih =>
      intro ha x hx
      rcases List.mem_cons.1 hx with rfl | hx
      · have h1 := ha a (by simp)
        cases a with
        | other t => cases x with
          | other t' => rfl
          | func f => exact absurd hab.1 (by simp [SameButTypes])
        | func f => cases x with
          | other t' => rfl
          | func f' =>
            obtain ⟨⟨h2, h3, -⟩, -⟩ := hab
            rw [Bool.eq_false_iff] at h1 ⊢
            intro h4
            apply h1
            rw [implements_func] at h4 ⊢
            rw [← h2, ← h3]; exact h4
      · exact ih (fun y hy => ha y (by simp [hy])) x hx
  rw [ho, List.mem_append] at hd
  rcases hd with hd | hd
  · have := hkept _ _ hk (fun x hx => hnew x (List.mem_filter.1 hx).1) d hd
    rw [this] at hi; cases hi
  · obtain ⟨r', hr', rfl⟩ := hn d hd
    obtain ⟨f, hf, hg⟩ := stub_generated (svc := svc) (hgood r' hr')
    have hname : r'.name = r.name := by
      rw [hf, implements_func] at hi
      rw [← hg.2.1]; exact hi.2
    have h3 := mapGet_of_mem hms hr
    have h4 := mapGet_of_mem hms hr'
    rw [hname, h3] at h4
    simp at h4
    subst h4
    exact ⟨f, by rw [ho, ← hf]; exact List.mem_append_right _ hd, hg⟩

/-- **C30**, first generation: every rpc has exactly one method, with the signature of the gRPC interface. -/
theorem C30_first (exp : Str → Bool) (svc : Str) (order : List Rpc → List Rpc)
    (ms : List Rpc) (hms : (ms.map (·.name)).Nodup) (hgood : ∀ r ∈ ms, GoodRpc exp r)
    (out : List Decl) (h : render exp svc order ms none = some out) (r : Rpc) (hr : r ∈ ms) :
    out.countP (Implements svc r.name) = 1 ∧ ∃ f, Decl.func f ∈ out ∧ GeneratedFor svc r f := by
  simp only [render, Option.some.injEq] at h
  subst h
  constructor
  · have hs : ∀ l : List Rpc, (l.map (stub svc)).countP (Implements svc r.name) = (l.map (·.name)).count r.name := by
      intro l
      induction l with
      | nil => rfl
      | cons r' l ih =>
        rw [List.map_cons, List.countP_cons, ih, List.map_cons, List.count_cons]
        congr 1
        have : Implements svc r.name (stub svc r') = (r'.name == r.name) := by
          rw [Bool.eq_iff_iff, stub, implements_func]
          simp
        rw [this]
    unfold freshFile
    rw [List.countP_cons, List.countP_cons, List.countP_cons, hs, count_one hms (List.mem_map_of_mem hr)]
    rfl
  · obtain ⟨f, hf, hg⟩ := stub_generated (svc := svc) (hgood r hr)
    refine ⟨f, ?_, hg⟩
    rw [← hf]
    unfold freshFile
    exact List.mem_cons_of_mem _ (List.mem_cons_of_mem _ (List.mem_cons_of_mem _ (List.mem_map_of_mem hr)))

/-- `Put` is new in the concrete case above. -/
example : ∀ d ∈ demo, Implements "foo".toList "Put".toList d = false := by decide +kernel

/-- The claim is false without these restrictions: an rpc called `NewService` gets another implementation on every
regeneration, and an implementation with an unqualified request type keeps its outdated type. -/
theorem C30_witness :
    (let ms := [⟨"NewService".toList, "A".toList, "B".toList⟩]
     (render upperFirst "foo".toList id ms (some (freshFile "foo".toList ms))).map
       (fun out => out.countP (Implements "foo".toList "NewService".toList)) = some 2) ∧
    (let f : Func := ⟨some [.star (.ident "fooService".toList)], "Get".toList,
        [⟨["c".toList], .sel "context".toList "Context".toList⟩, ⟨["q".toList], .star (.ident "Old".toList)⟩],
        [⟨[], .star (.ident "Old".toList)⟩, ⟨[], .ident "error".toList⟩], "{ my code }".toList⟩
     render upperFirst "foo".toList id [⟨"Get".toList, "GetRequest".toList, "GetReply".toList⟩] (some [.func f]) =
       some [.func f]) := by
  constructor <;> decide +kernel

example : IdentsOK "foo".toList demo ∧ (∀ r ∈ demoRpcs, GoodRpc upperFirst r) ∧ (demoRpcs.map (·.name)).Nodup ∧
    (render upperFirst "foo".toList id demoRpcs (some demo)).map (fun out =>
      (out.countP (Implements "foo".toList "Get".toList), out.countP (Implements "foo".toList "Put".toList))) =
      some (1, 1) := by
  refine ⟨demo_idents, ?_, by decide +kernel, by decide +kernel⟩
  unfold GoodRpc; decide +kernel

/-! ## C31 -/

/-- Two declarations implementing a name that is implemented once are the same. -/
theorem unique_impl {svc n : Str} {out : List Decl} (h : out.countP (Implements svc n) = 1) {d d' : Decl}
    (hd : d ∈ out) (hd' : d' ∈ out) (hi : Implements svc n d = true) (hi' : Implements svc n d' = true) : d = d' := by
  rw [List.countP_eq_length_filter] at h
  have h1 : d ∈ out.filter (Implements svc n) := List.mem_filter.2 ⟨hd, hi⟩
  have h2 : d' ∈ out.filter (Implements svc n) := List.mem_filter.2 ⟨hd', hi'⟩
  match hl : out.filter (Implements svc n) with
  | [] => rw [hl] at h1; cases h1
  | [x] => rw [hl] at h1 h2; rw [List.mem_singleton.1 h1, List.mem_singleton.1 h2]
  | x :: y :: l => rw [hl] at h; simp at h

/-- The first implementation in a list that has one. -/
theorem first_impl {svc n : Str} {l : List Decl} (h : ∃ d ∈ l, Implements svc n d = true) :
    ∃ pre f post, l = pre ++ .func f :: post ∧ (∀ d ∈ pre, Implements svc n d = false) ∧
      Implements svc n (.func f) = true := by
  induction l with
  | nil => obtain ⟨d, hd, -⟩ := h; cases hd
  | cons x l ih =>
    cases hx : Implements svc n x with
    | true =>
      cases x with
      | other t => simp [Implements] at hx
      | func f => exact ⟨[], f, l, rfl, by simp, hx⟩
    | false =>
      obtain ⟨d, hd, hi⟩ := h
      rcases List.mem_cons.1 hd with rfl | hd
      · rw [hx] at hi; cases hi
      · obtain ⟨pre, f, post, he, h1, h2⟩ := ih ⟨d, hd, hi⟩
        refine ⟨x :: pre, f, post, by rw [he]; rfl, ?_, h2⟩
        intro d' hd'
        rcases List.mem_cons.1 hd' with rfl | hd'
        · exact hx
        · exact h1 d' hd'

/-- A generated method that survives a regeneration unchanged has Go message names. -/
theorem stub_fixed {exp : Str → Bool} {svc : Str} {order : List Rpc → List Rpc}
    (horder : ∀ l, (order l).Perm l) {ms : List Rpc} (hms : (ms.map (·.name)).Nodup) {out : List Decl}
    (hid : IdentsOK svc out) (h : render exp svc order ms (some out) = some out) {r : Rpc} (hr : r ∈ ms)
    (hn : ¬ LeftAlone exp r.name) (hs : stub svc r ∈ out) :
    Strs.goCamelCase r.request = r.request ∧ Strs.goCamelCase r.response = r.response := by
  have hc : out.countP (Implements svc r.name) = 1 := by
    rw [(C30_count exp svc order horder ms out out hid h r.name).1 hn, if_pos (List.mem_map_of_mem hr)]
  have hsi : Implements svc r.name (stub svc r) = true := (implements_func _ _ _).2 ⟨⟨[], rfl⟩, rfl⟩
  obtain ⟨pre, f, post, he, h1, h2⟩ := first_impl ⟨_, hs, hsi⟩
  obtain ⟨f', hf', ha⟩ := (C30_method exp svc order horder ms hms out out hid h r hr hn).2 pre f post he h1 h2
  have hff : Decl.func f = stub svc r := unique_impl hc (by rw [he]; simp) hs h2 hsi
  have hi' : Implements svc r.name (.func f') = true := by rw [implements_congr ha.1 ha.2.1]; exact h2
  have hff' : Decl.func f' = stub svc r := unique_impl hc hf' hs hi' hsi
  simp only [stub, Decl.func.injEq] at hff hff'
  obtain ⟨-, -, -, -, hp, -, hq⟩ := ha
  obtain ⟨a, b, t, e1, e2, e3⟩ := hp (by rw [hff]; rfl)
  obtain ⟨a', rest, t', e4, e5, e6⟩ := hq (by rw [hff]; rfl)
  rw [hff] at e1 e4
  rw [hff'] at e2 e5
  simp only [List.cons.injEq, and_true, Param.mk.injEq] at e1 e2 e4 e5
  constructor
  · rw [← e1.2, ← e2.2.2] at e3
    simp only [ptr] at e3
    generalize Strs.goCamelCase r.request = c at e3
    generalize hty : Ty.star (.sel "pb".toList c) = ty at e3
    cases e3 with
    | ptr p s => injection hty with hty; injection hty
    | plain p s => cases hty
    | stays _ k1 _ => exact absurd hty.symm (k1 _ _)
  · rw [← e4.1, ← e5.1.2] at e6
    simp only [ptr] at e6
    generalize Strs.goCamelCase r.response = c at e6
    generalize hty : Ty.star (.sel "pb".toList c) = ty at e6
    cases e6 with
    | ptr p s => injection hty with hty; injection hty
    | plain p s => cases hty
    | stays _ k1 _ => exact absurd hty.symm (k1 _ _)

/-- Receivers stay identifiers across a regeneration. -/
theorem idents_kept (exp : Str → Bool) (svc : Str) : ∀ (ds : List Decl) (m : List Rpc) (kept : List Decl) (left : List Rpc),
    IdentsOK svc ds → pruneDecls exp svc m ds = some (kept, left) → IdentsOK svc kept := by
  intro ds
  induction ds with
  | nil =>
    intro m kept left hid h
    simp [pruneDecls] at h
    rw [h.1]; exact hid
  | cons d ds ih =>
    intro m kept left hid h
    cases hu : UserDecl exp d with
    | true =>
      obtain ⟨kept', rfl, h'⟩ := prune_user hu h
      have := ih m kept' left (idents_tail hid) h'
      refine ⟨hid.1, fun f hf => ?_⟩
      rcases List.mem_cons.1 hf with rfl | hf
      · exact hid.2 f (by simp)
      · exact this.2 f hf
    | false =>
      cases d with
      | other t => simp [UserDecl] at hu
      | func f =>
        rcases prune_func hu hid.1 (fun s r => hid.2 f (by simp) s r) h with ⟨hn, h'⟩ | ⟨hy, r, f', kept', hg, hp, rfl, h'⟩
        · exact ih m kept left (idents_tail hid) h'
        · have := ih _ kept' left (idents_tail hid) h'
          refine ⟨hid.1, fun g hg => ?_⟩
          rcases List.mem_cons.1 hg with he | hg
          · simp only [Decl.func.injEq] at he
            subst he
            rw [(adapted hp).1]
            exact hid.2 f (by simp)
          · exact this.2 g hg

theorem idents_render {exp : Str → Bool} {svc : Str} {order : List Rpc → List Rpc} {ms : List Rpc} {prev out : List Decl}
    (hid : IdentsOK svc prev) (h : render exp svc order ms (some prev) = some out) : IdentsOK svc out := by
  rw [render] at h
  cases hp : pruneDecls exp svc (newMethodMap ms) prev with
  | none => rw [hp] at h; cases h
  | some x =>
    obtain ⟨kept, left⟩ := x
    rw [hp] at h
    simp only [Option.some.injEq] at h
    have hk := idents_kept exp svc prev _ kept left hid hp
    refine ⟨hid.1, fun f hf => ?_⟩
    rw [← h, List.mem_append] at hf
    rcases hf with hf | hf
    · exact hk.2 f hf
    · obtain ⟨r, -, he⟩ := List.mem_map.1 hf
      simp only [stub, Decl.func.injEq] at he
      rw [← he]
      intro s r hr
      simp at hr

/-- **C31**, exactly: regenerating from the output of a regeneration, with the same definition, changes nothing — whatever
the map iteration orders are — if and only if every rpc has an exported name other than `NewService` and, unless the first
file had a method for it, message names that are Go names already. -/
theorem C31_idempotent_iff (exp : Str → Bool) (svc : Str) (order order' : List Rpc → List Rpc)
    (horder : ∀ l, (order l).Perm l) (horder' : ∀ l, (order' l).Perm l) (ms : List Rpc) (hms : (ms.map (·.name)).Nodup)
    (prev out : List Decl) (hid : IdentsOK svc prev)
    (h : render exp svc order ms (some prev) = some out) :
    render exp svc order' ms (some out) = some out ↔
      ∀ r ∈ ms, exp r.name = true ∧ r.name ≠ "NewService".toList ∧
        ((∃ d ∈ prev, Implements svc r.name d = true) ∨
          (Strs.goCamelCase r.request = r.request ∧ Strs.goCamelCase r.response = r.response)) := by
  have hid' := idents_render hid h
  constructor
  · intro h2 r hr
    have hn : ¬ LeftAlone exp r.name := by
      intro hl
      have := (C30_count exp svc order' horder' ms out out hid' h2 r.name).2 hl
      rw [if_pos (List.mem_map_of_mem hr)] at this
      omega
    refine ⟨?_, fun hc => hn (Or.inr hc), ?_⟩
    · cases he : exp r.name with
      | true => rfl
      | false => exact absurd (Or.inl he) hn
    · cases Classical.em (∃ d ∈ prev, Implements svc r.name d = true) with
      | inl hex => exact Or.inl hex
      | inr hex =>
        refine Or.inr (stub_fixed horder' hms hid' h2 hr hn ?_)
        refine (C30_method exp svc order horder ms hms prev out hid h r hr hn).1 fun d hd => ?_
        cases hi : Implements svc r.name d with
        | false => rfl
        | true => exact absurd ⟨d, hd, hi⟩ hex
  · intro hgood
    rw [render, map_eq ms hms] at h
    cases hp : pruneDecls exp svc ms prev with
    | none => rw [hp] at h; cases h
    | some x =>
      obtain ⟨kept, left⟩ := x
      rw [hp] at h
      simp only [Option.some.injEq] at h
      have hsub := prune_sub exp svc prev _ kept left hid hp
      have hnd : (left.map (·.name)).Nodup := (hsub.map _).nodup hms
      have h1 := prune_again exp svc ((order left).map (stub svc)) prev _ kept left hid hp
      have hleft : ∀ r ∈ left, GoodRpc exp r := by
        intro r hr
        have hrm := hsub.subset hr
        obtain ⟨g1, g2, g3⟩ := hgood r hrm
        have hla : ¬ LeftAlone exp r.name := by
          rintro (hc | hc)
          · rw [g1] at hc; cases hc
          · exact g2 hc
        refine ⟨g1, g2, g3.resolve_left ?_⟩
        intro hex
        obtain ⟨pre, f, post, he, k1, k2⟩ := first_impl hex
        obtain ⟨f', hf', ha⟩ := (prune_first exp svc r hla prev ms kept left hid hp (mapGet_of_mem hms hrm)).2 pre f post he k1 k2
        have hc := (prune_count exp svc r.name g1 g2 prev ms kept left hid hms hp).1
        have h3 : 0 < kept.countP (Implements svc r.name) :=
          List.countP_pos_iff.2 ⟨_, hf', by rw [implements_congr ha.1 ha.2.1]; exact k2⟩
        have h4 : 0 < (left.map (·.name)).count r.name := List.count_pos_iff.2 (List.mem_map_of_mem hr)
        have h5 := List.nodup_iff_count.1 hms r.name
        omega
      rw [prune_stubs exp svc (order left) left (horder left) hnd hleft, h] at h1
      rw [render, map_eq ms hms, h1]
      simp only [Option.map_some]
      rw [List.perm_nil.1 (horder' [])]
      simp [h]

/-- **C31** for rpcs with Go names. -/
theorem C31_idempotent (exp : Str → Bool) (svc : Str) (order order' : List Rpc → List Rpc)
    (horder : ∀ l, (order l).Perm l) (horder' : ∀ l, (order' l).Perm l) (ms : List Rpc) (hms : (ms.map (·.name)).Nodup)
    (hgood : ∀ r ∈ ms, GoodRpc exp r) (prev out : List Decl) (hid : IdentsOK svc prev)
    (h : render exp svc order ms (some prev) = some out) :
    render exp svc order' ms (some out) = some out :=
  (C31_idempotent_iff exp svc order order' horder horder' ms hms prev out hid h).2 fun r hr =>
    ⟨(hgood r hr).1, (hgood r hr).2.1, Or.inr (hgood r hr).2.2⟩

theorem fresh_idents {svc : Str} (hdot : '.' ∉ svc) (ms : List Rpc) : IdentsOK svc (freshFile svc ms) := by
  refine ⟨hdot, fun f hf s r hr => ?_⟩
  unfold freshFile at hf
  simp only [List.mem_cons, List.mem_map, reduceCtorEq, false_or, Decl.func.injEq] at hf
  rcases hf with rfl | ⟨x, -, he⟩
  · simp at hr
  · simp only [stub, Decl.func.injEq] at he
    rw [← he] at hr
    simp at hr

/-- **C31**, exactly, after the first generation: regenerating right away changes nothing if and only if every rpc has an
exported name other than `NewService` and Go message names. -/
theorem C31_after_first_iff (exp : Str → Bool) (svc : Str) (hdot : '.' ∉ svc) (order order' : List Rpc → List Rpc)
    (horder' : ∀ l, (order' l).Perm l) (ms : List Rpc) (hms : (ms.map (·.name)).Nodup)
    (out : List Decl) (h : render exp svc order ms none = some out) :
    render exp svc order' ms (some out) = some out ↔ ∀ r ∈ ms, GoodRpc exp r := by
  simp only [render, Option.some.injEq] at h
  constructor
  · intro h2 r hr
    have hid : IdentsOK svc out := h ▸ fresh_idents hdot ms
    have hn : ¬ LeftAlone exp r.name := by
      intro hl
      have := (C30_count exp svc order' horder' ms out out hid h2 r.name).2 hl
      rw [if_pos (List.mem_map_of_mem hr)] at this
      omega
    refine ⟨?_, fun hc => hn (Or.inr hc), stub_fixed horder' hms hid h2 hr hn ?_⟩
    · cases he : exp r.name with
      | true => rfl
      | false => exact absurd (Or.inl he) hn
    · rw [← h]
      unfold freshFile
      exact List.mem_cons_of_mem _ (List.mem_cons_of_mem _ (List.mem_cons_of_mem _ (List.mem_map_of_mem hr)))
  · intro hgood
    rw [render, map_eq ms hms]
    have hp : pruneDecls exp svc ms out = some (out, []) := by
      rw [← h, freshFile]
      rw [prune_user_eq (by rfl), prune_user_eq (by
        show (decide (ignoredFunc = "NewService".toList) || !exp ignoredFunc) = true
        rw [decide_eq_true (show ignoredFunc = "NewService".toList from rfl)]; rfl), prune_user_eq (by rfl),
        prune_stubs exp svc ms ms (List.Perm.refl _) hms hgood]
      rfl
    rw [hp]
    simp only
    rw [List.perm_nil.1 (horder' [])]
    simp

/-- The hypotheses on a concrete case: a message name that is no Go name matters only while the method is generated. -/
example :
    let ms : List Rpc := [⟨"Get".toList, "get_request".toList, "GetReply".toList⟩]
    (∃ d ∈ demo, Implements "foo".toList "Get".toList d = true) ∧
    (let out := render upperFirst "foo".toList id ms (some demo)
     render upperFirst "foo".toList id ms out = out) ∧
    (let out := render upperFirst "foo".toList id ms none
     render upperFirst "foo".toList id ms out ≠ out) := by
  refine ⟨?_, ?_, ?_⟩ <;> decide +kernel

/-- An rpc called `NewService` is appended again on every run, and an unexported one too. -/
theorem C31_witness :
    (let ms : List Rpc := [⟨"NewService".toList, "A".toList, "B".toList⟩]
     let out := render upperFirst "foo".toList id ms (some (freshFile "foo".toList ms))
     render upperFirst "foo".toList id ms out ≠ out) ∧
    (let ms : List Rpc := [⟨"get".toList, "A".toList, "B".toList⟩]
     let out := render upperFirst "foo".toList id ms (some (freshFile "foo".toList ms))
     render upperFirst "foo".toList id ms out ≠ out) := by
  constructor <;> decide +kernel

end Baron.Service
