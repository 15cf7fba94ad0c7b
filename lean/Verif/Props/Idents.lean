import Verif.Proofs.Idents
import Verif.Props.HTTPNames

/-!
# C64: the generated files declare no identifier twice
-/

namespace Baron.Idents
open Strs

theorem suffix_upper_E : hasUpper "Endpoint".toList := ⟨'E', by decide, by decide⟩
theorem suffix_upper_S : hasUpper "Sub".toList := ⟨'S', by decide, by decide⟩

theorem lit_nodup_append {a b : List Str} : (a ++ b).Nodup ↔ a.Nodup ∧ b.Nodup ∧ ∀ x ∈ a, x ∉ b := by
  rw [List.nodup_append]
  constructor
  · exact fun ⟨h1, h2, h3⟩ => ⟨h1, h2, fun x hx hb => h3 x hx x hb rfl⟩
  · exact fun ⟨h1, h2, h3⟩ => ⟨h1, h2, fun x hx y hy e => h3 x hx (e ▸ hy)⟩

theorem map_suffix_nodup (f : Str → Str) (q : Str) (ns : List Str) :
    (ns.map fun n => f n ++ q).Nodup ↔ (ns.map f).Nodup := by
  unfold List.Nodup
  rw [List.pairwise_map, List.pairwise_map]
  constructor
  · exact fun h => h.imp fun hne e => hne (by rw [e])
  · exact fun h => h.imp fun hne e => hne (List.append_cancel_right e)

/-- Two names with suffixes ending in different letters differ. -/
theorem ne_of_suffix {x y q q' : Str} (h : (q.reverse.isPrefixOf q'.reverse || q'.reverse.isPrefixOf q.reverse) = false) :
    x ++ q ≠ y ++ q' := by
  intro e
  have h2 : q.reverse ++ x.reverse = q'.reverse ++ y.reverse := by simpa using congrArg List.reverse e
  rw [prefixes_compare h2] at h; cases h

theorem ne_of_suffix' {y l q : Str} (h : q.reverse.isPrefixOf l.reverse = false) : y ++ q ≠ l := by
  intro e
  subst e
  rw [List.reverse_append] at h
  have : q.reverse.isPrefixOf (q.reverse ++ y.reverse) = true := List.isPrefixOf_iff_prefix.2 (List.prefix_append _ _)
  rw [this] at h; cases h

theorem localEndpoints_legal (ns : List Str) (fixedNames : List Str) (hf : Legal fixedNames)
    (hs : ∀ l ∈ fixedNames, "Endpoint".toList.reverse.isPrefixOf l.reverse = false) :
    Legal (fixedNames ++ ns.map Transport.localEndpoint) ↔ (ns.map toLower).Nodup := by
  unfold Legal
  rw [lit_nodup_append]
  have e : (ns.map Transport.localEndpoint).Nodup ↔ (ns.map toLower).Nodup := map_suffix_nodup toLower _ ns
  rw [e]
  constructor
  · exact fun h => h.1.2.1
  · intro h
    refine ⟨⟨hf.1, h, ?_⟩, ?_⟩
    · intro x hx hm
      obtain ⟨n, -, e⟩ := List.mem_map.1 hm
      exact ne_of_suffix' (hs x hx) e
    · intro x hx
      rcases List.mem_append.1 hx with hx | hx
      · exact hf.2 x hx
      · obtain ⟨n, -, rfl⟩ := List.mem_map.1 hx
        exact notKeyword (hasUpper_append_right suffix_upper_E _)

theorem newGRPCClient_legal (s : Svcdef.Service) :
    Legal (newGRPCClientLocals s) ↔ ((names s).map toLower).Nodup :=
  localEndpoints_legal (names s) ["conn".toList, "options".toList] ⟨by decide, by decide⟩ (by decide)

theorem newEndpoints_legal (s : Svcdef.Service) :
    Legal (newEndpointsLocals s) ↔ ((names s).map toLower).Nodup := by
  have h := localEndpoints_legal (names s) ["svc".toList, "endpoints".toList] ⟨by decide, by decide⟩ (by decide)
  rw [← h]
  have hp : (newEndpointsLocals s).Perm (["svc".toList, "endpoints".toList] ++ (names s).map Transport.localEndpoint) := by
    unfold newEndpointsLocals
    exact List.Perm.cons _ (List.perm_append_comm)
  unfold Legal
  rw [hp.nodup_iff]
  exact and_congr_right fun _ => forall_congr' fun x => by rw [hp.mem_iff]

theorem serveNATS_legal (s : Svcdef.Service) :
    Legal (serveNATSLocals s) ↔ ((names s).map toLower).Nodup := by
  have key : ∀ fx : List Str, Legal fx → (∀ l ∈ fx, "Sub".toList.reverse.isPrefixOf l.reverse = false) →
      (Legal (fx ++ (names s).map fun n => toLower n ++ "Sub".toList) ↔ ((names s).map toLower).Nodup) := by
    intro fx hf hs
    unfold Legal
    rw [lit_nodup_append, map_suffix_nodup toLower]
    constructor
    · exact fun h => h.1.2.1
    · intro h
      refine ⟨⟨hf.1, h, ?_⟩, ?_⟩
      · intro x hx hm
        obtain ⟨n, -, e⟩ := List.mem_map.1 hm
        exact ne_of_suffix' (hs x hx) e
      · intro x hx
        rcases List.mem_append.1 hx with hx | hx
        · exact hf.2 x hx
        · obtain ⟨n, -, rfl⟩ := List.mem_map.1 hx
          exact notKeyword (hasUpper_append_right suffix_upper_S _)
  unfold serveNATSLocals
  split
  · exact key ["conn".toList, "srv".toList] ⟨by decide, by decide⟩ (by decide)
  · exact key ["conn".toList, "srv".toList, "err".toList] ⟨by decide, by decide⟩ (by decide)

theorem firstLabel {m : Svcdef.ServiceMethod} (h : m.bindings.isEmpty = false) :
    (HTTP.methodLabels m).head? = some (m.name ++ "Zero".toList) := by
  unfold HTTP.methodLabels
  cases hb : m.bindings with
  | nil => rw [hb] at h; cases h
  | cons b r =>
    have : List.range (b :: r).length = 0 :: (List.range r.length).map Nat.succ := by
      simp [List.range_succ_eq_map]
    rw [this]
    simp only [List.map_cons, List.head?_cons, Option.some.injEq, List.append_cancel_left_eq]
    decide +kernel

theorem newHTTPClient_names (s : Svcdef.Service) :
    newHTTPClientLocals s = ["instance".toList, "options".toList, "u".toList, "err".toList] ++
      ((httpMethods s).map (·.name)).map fun n => (fun n => n ++ "Zero".toList) n ++ "Endpoint".toList := by
  unfold newHTTPClientLocals
  have : (httpMethods s).filterMap (fun m => (HTTP.methodLabels m).head?.map Transport.endpointField) =
      (httpMethods s).map fun m => (m.name ++ "Zero".toList) ++ "Endpoint".toList := by
    have gen : ∀ l : List Svcdef.ServiceMethod, (∀ m ∈ l, m.bindings.isEmpty = false) →
        l.filterMap (fun m => (HTTP.methodLabels m).head?.map Transport.endpointField) =
          l.map fun m => (m.name ++ "Zero".toList) ++ "Endpoint".toList := by
      intro l
      induction l with
      | nil => intro _; rfl
      | cons m r ih =>
        intro h
        rw [List.filterMap_cons, firstLabel (h m (.head _))]
        show _ :: _ = _
        rw [ih fun m' h' => h m' (.tail _ h')]; rfl
    apply gen
    intro m hm
    have hb : m.bindings.isEmpty = false := by
      have := (List.mem_filter.1 hm).2
      simpa using this
    exact hb
  rw [this, List.map_map]
  rfl

theorem newHTTPClient_legal (s : Svcdef.Service) (hn : (names s).Nodup) : Legal (newHTTPClientLocals s) := by
  rw [newHTTPClient_names]
  unfold Legal
  have hh : ((httpMethods s).map (·.name)).Nodup :=
    hn.sublist (List.Sublist.map _ List.filter_sublist)
  constructor
  · rw [lit_nodup_append, map_suffix_nodup (fun n => n ++ "Zero".toList), map_suffix_nodup (fun n => n), List.map_id']
    refine ⟨by decide, hh, ?_⟩
    intro x hx hm
    obtain ⟨n, -, e⟩ := List.mem_map.1 hm
    have : ∀ l ∈ (["instance".toList, "options".toList, "u".toList, "err".toList] : List Str),
        "Endpoint".toList.reverse.isPrefixOf l.reverse = false := by decide
    exact ne_of_suffix' (this x hx) e
  · intro x hx
    rcases List.mem_append.1 hx with hx | hx
    · have : ∀ l ∈ (["instance".toList, "options".toList, "u".toList, "err".toList] : List Str),
        l ∉ keywords := by decide
      exact this x hx
    · obtain ⟨n, -, rfl⟩ := List.mem_map.1 hx
      exact notKeyword (hasUpper_append_right suffix_upper_E _)

theorem embedded_upper (s : Svcdef.Service) : hasUpper (embedded s) :=
  hasUpper_append_left (hasUpper_append_left ⟨'U', by decide, by decide⟩ _) _

theorem endpointsMembers_legal (s : Svcdef.Service) (hn : (names s).Nodup) (he : ∀ n ∈ names s, Exported n) :
    Legal (endpointsMembers s) ↔
      (∀ n ∈ names s, ∀ m ∈ names s, n ≠ m ++ "Endpoint".toList) ∧
      ∀ n ∈ names s, n ≠ "WrapAllExcept".toList ∧ n ≠ "WrapAllLabeledExcept".toList ∧
        n ≠ "Unimplemented".toList ++ s.name ++ "Server".toList := by
  have hw : hasUpper "WrapAllExcept".toList := ⟨'W', by decide, by decide⟩
  have hw' : hasUpper "WrapAllLabeledExcept".toList := ⟨'W', by decide, by decide⟩
  have hfield : ∀ x ∈ (names s).map Transport.endpointField, ∃ n ∈ names s, x = n ++ "Endpoint".toList := by
    intro x hx
    obtain ⟨n, h, e⟩ := List.mem_map.1 hx
    exact ⟨n, h, e.symm⟩
  unfold Legal endpointsMembers
  constructor
  · rintro ⟨h, -⟩
    rw [show embedded s :: (names s).map Transport.endpointField ++ names s ++
        ["WrapAllExcept".toList, "WrapAllLabeledExcept".toList] =
        (embedded s :: (names s).map Transport.endpointField) ++ names s ++
        ["WrapAllExcept".toList, "WrapAllLabeledExcept".toList] from rfl] at h
    rw [lit_nodup_append, lit_nodup_append] at h
    obtain ⟨⟨-, -, h1⟩, -, h2⟩ := h
    refine ⟨?_, ?_⟩
    · intro n hnm m hm e
      exact h1 (m ++ "Endpoint".toList) (List.mem_cons_of_mem _ (List.mem_map.2 ⟨m, hm, rfl⟩)) (e ▸ hnm)
    · intro n hnm
      refine ⟨?_, ?_, ?_⟩
      · intro e; exact h2 n (List.mem_append_right _ hnm) (e ▸ .head _)
      · intro e; exact h2 n (List.mem_append_right _ hnm) (e ▸ .tail _ (.head _))
      · intro e; exact h1 n (e ▸ .head _) hnm
  · rintro ⟨h1, h2⟩
    constructor
    · rw [show embedded s :: (names s).map Transport.endpointField ++ names s ++
          ["WrapAllExcept".toList, "WrapAllLabeledExcept".toList] =
          (embedded s :: (names s).map Transport.endpointField) ++ names s ++
          ["WrapAllExcept".toList, "WrapAllLabeledExcept".toList] from rfl]
      rw [lit_nodup_append, lit_nodup_append]
      refine ⟨⟨?_, hn, ?_⟩, by decide, ?_⟩
      · rw [List.nodup_cons]
        constructor
        · intro hx
          obtain ⟨n, -, e⟩ := hfield _ hx
          exact ne_of_suffix (by decide) e
        · exact (map_suffix_nodup (fun n => n) "Endpoint".toList (names s)).2 (by simpa using hn)
      · intro x hx hxn
        rcases List.mem_cons.1 hx with rfl | hx
        · exact (h2 _ hxn).2.2 rfl
        · obtain ⟨m, hm, e⟩ := hfield _ hx
          exact h1 x hxn m hm e
      · intro x hx hxw
        have hxw : x = "WrapAllExcept".toList ∨ x = "WrapAllLabeledExcept".toList := by
          rcases List.mem_cons.1 hxw with h | h
          · exact .inl h
          · rcases List.mem_cons.1 h with h | h
            · exact .inr h
            · cases h
        rcases List.mem_append.1 hx with hx | hx
        · rcases List.mem_cons.1 hx with e | hx
          · rcases hxw with h | h
            · exact ne_of_suffix' (by decide) (e.symm.trans h)
            · exact ne_of_suffix' (by decide) (e.symm.trans h)
          · obtain ⟨m, hm, e⟩ := hfield _ hx
            rcases hxw with h | h
            · exact ne_of_suffix' (by decide) (e.symm.trans h)
            · exact ne_of_suffix' (by decide) (e.symm.trans h)
        · rcases hxw with h | h
          · exact (h2 x hx).1 h
          · exact (h2 x hx).2.1 h
    · intro x hx
      apply notKeyword
      rcases List.mem_append.1 hx with hx | hx
      · rcases List.mem_append.1 hx with hx | hx
        · rcases List.mem_cons.1 hx with rfl | hx
          · exact embedded_upper s
          · obtain ⟨m, hm, rfl⟩ := hfield _ hx
            exact hasUpper_append_right suffix_upper_E _
        · exact upper_of_exported (he x hx)
      · rcases List.mem_cons.1 hx with rfl | hx
        · exact hw
        · rcases List.mem_cons.1 hx with rfl | hx
          · exact hw'
          · cases hx

theorem grpcServer_legal (s : Svcdef.Service) (hn : (names s).Nodup) (he : ∀ n ∈ names s, Exported n)
    (hc : ∀ n ∈ names s, goCamelCase n = n) (hu : ∀ n ∈ names s, n ≠ embedded s) :
    Legal (grpcServerMembers s) ↔
      ((names s).map toLower).Nodup ∧ ∀ n ∈ names s, toLower n ∉ keywords := by
  have hmap : (names s).map goCamelCase = names s := by
    conv => rhs; rw [← List.map_id (names s)]
    exact List.map_congr_left fun n h => hc n h
  unfold Legal grpcServerMembers
  rw [hmap]
  have hlow : ∀ x, x ∈ (names s).map toLower → ¬ hasUpper x := by
    intro x hx
    obtain ⟨n, -, rfl⟩ := List.mem_map.1 hx
    exact toLower_noUpper n
  constructor
  · rintro ⟨h, hk⟩
    rw [List.cons_append, List.nodup_cons, lit_nodup_append] at h
    refine ⟨h.2.1, fun n hnm => hk _ (.tail _ (List.mem_append_left _ (List.mem_map_of_mem hnm)))⟩
  · rintro ⟨h, hk⟩
    constructor
    · rw [List.cons_append, List.nodup_cons, lit_nodup_append]
      refine ⟨?_, h, hn, ?_⟩
      · intro hm
        rcases List.mem_append.1 hm with hm | hm
        · exact hlow _ hm (embedded_upper s)
        · exact hu _ hm rfl
      · intro x hx hxn
        exact hlow x hx (upper_of_exported (he x hxn))
    · intro x hx
      rcases List.mem_append.1 hx with hx | hx
      · rcases List.mem_cons.1 hx with rfl | hx
        · exact notKeyword (embedded_upper s)
        · obtain ⟨n, hnm, rfl⟩ := List.mem_map.1 hx
          exact hk n hnm
      · exact notKeyword (upper_of_exported (he x hx))

/-- **C64**, exact form. For a service whose method names are those of a Go interface made by protoc (distinct, exported,
already in Go camel case), every scope of the generated transport and server files can be declared — no name twice, no
keyword — if and only if

* the binding labels are distinct (when they are is `C23_labels_unique_iff`);
* the method names are distinct even without regard to case;
* no method name is another one followed by `Endpoint`, or `WrapAllExcept`, `WrapAllLabeledExcept`, `Unimplemented…Server`;
* and, when the gRPC transport is generated, no method name is a Go keyword up to case. -/
theorem C64_declarations (t : Str) (s : Svcdef.Service) (hn : (names s).Nodup) (he : ∀ n ∈ names s, Exported n)
    (hc : ∀ n ∈ names s, goCamelCase n = n) :
    (∀ sc ∈ scopes t s, Legal sc) ↔
      (HTTP.serviceLabels s).Nodup ∧
      ((names s).map toLower).Nodup ∧
      (∀ n ∈ names s, ∀ m ∈ names s, n ≠ m ++ "Endpoint".toList) ∧
      (∀ n ∈ names s, n ≠ "WrapAllExcept".toList ∧ n ≠ "WrapAllLabeledExcept".toList ∧
        n ≠ "Unimplemented".toList ++ s.name ++ "Server".toList) ∧
      (t = "all".toList ∨ t = "grpc".toList → ∀ n ∈ names s, toLower n ∉ keywords) := by
  have hg : grpcOn t = true ↔ t = "all".toList ∨ t = "grpc".toList := by
    simp only [grpcOn, Bool.or_eq_true, decide_eq_true_eq]
  rw [← hg]
  constructor
  · intro h
    have hsub : ∀ sc ∈ [topLevel t s, endpointsMembers s, newHTTPClientLocals s, newEndpointsLocals s], Legal sc :=
      fun sc hm => h sc (List.mem_append_left _ (List.mem_append_left _ hm))
    have h1 := (topLevel_legal t s hn).1 (hsub _ (.head _))
    have h2 := (endpointsMembers_legal s hn he).1 (hsub _ (.tail _ (.head _)))
    have h3 := (newEndpoints_legal s).1 (hsub _ (.tail _ (.tail _ (.tail _ (.head _)))))
    refine ⟨h1, h3, h2.1, h2.2, ?_⟩
    intro ht
    have h4 : Legal (grpcServerMembers s) := by
      refine h _ (List.mem_append_left _ (List.mem_append_right _ ?_))
      rw [if_pos ht]; exact .head _
    exact ((grpcServer_legal s hn he hc (fun n h => (h2.2 n h).2.2)).1 h4).2
  · rintro ⟨h1, h3, h2, h2', h4⟩ sc hsc
    have notkw : ∀ n ∈ names s, n ∉ keywords := fun n h => notKeyword (upper_of_exported (he n h))
    rcases List.mem_append.1 hsc with hsc | hsc
    · rcases List.mem_append.1 hsc with hsc | hsc
      · rcases List.mem_cons.1 hsc with rfl | hsc
        · exact (topLevel_legal t s hn).2 h1
        rcases List.mem_cons.1 hsc with rfl | hsc
        · exact (endpointsMembers_legal s hn he).2 ⟨h2, h2'⟩
        rcases List.mem_cons.1 hsc with rfl | hsc
        · exact newHTTPClient_legal s hn
        rcases List.mem_cons.1 hsc with rfl | hsc
        · exact (newEndpoints_legal s).2 h3
        · cases hsc
      · split at hsc
        · rename_i ht
          rcases List.mem_cons.1 hsc with rfl | hsc
          · exact (grpcServer_legal s hn he hc (fun n h => (h2' n h).2.2)).2 ⟨h3, h4 ht⟩
          rcases List.mem_cons.1 hsc with rfl | hsc
          · exact (newGRPCClient_legal s).2 h3
          · cases hsc
        · cases hsc
    · split at hsc
      · rcases List.mem_cons.1 hsc with rfl | hsc
        · exact ⟨hn, notkw⟩
        rcases List.mem_cons.1 hsc with rfl | hsc
        · exact (serveNATS_legal s).2 h3
        rcases List.mem_cons.1 hsc with rfl | hsc
        · exact (newGRPCClient_legal s).2 h3
        · cases hsc
      · cases hsc

/-! ## The service's name -/

/-- What protoc-gen-go-grpc declares at package level for a service `S` (part of the trusted base: it is not in /repo). -/
def protocDecls (S : Str) : List Str :=
  [S ++ "Client".toList, "New".toList ++ S ++ "Client".toList, S ++ "Server".toList,
   "Unimplemented".toList ++ S ++ "Server".toList, "Unsafe".toList ++ S ++ "Server".toList,
   "Register".toList ++ S ++ "Server".toList, S ++ "_ServiceDesc".toList]

/-- The affixes of `protocDecls`. -/
def protocAffixes : List (Str × Str) :=
  [([], "Client".toList), ("New".toList, "Client".toList), ([], "Server".toList),
   ("Unimplemented".toList, "Server".toList), ("Unsafe".toList, "Server".toList), ("Register".toList, "Server".toList),
   ([], "_ServiceDesc".toList)]

theorem protocDecls_affixes (S : Str) : protocDecls S = protocAffixes.map fun a => a.1 ++ S ++ a.2 := rfl

/-- The part of a name between two affixes. -/
def strip (x : Str) (a : Str × Str) : Str := (x.drop a.1.length).take (x.length - a.1.length - a.2.length)

theorem strip_eq (S : Str) (a : Str × Str) : strip (a.1 ++ S ++ a.2) a = S := by
  unfold strip
  rw [List.append_assoc, List.drop_left]
  have : (a.1 ++ (S ++ a.2)).length - a.1.length - a.2.length = S.length := by simp
  rw [this, List.take_left]

/-- The service names for which a fixed name is one of protoc's. -/
def badNames (g n : Bool) : List Str :=
  protocAffixes.flatMap fun a => ((fixed g n).filter fun x => fits x a.1 a.2).map fun x => strip x a

theorem mem_badNames (g n : Bool) (S : Str) :
    S ∈ badNames g n ↔ ∃ x ∈ protocDecls S, x ∈ fixed g n := by
  constructor
  · intro h
    obtain ⟨a, ha, h⟩ := List.mem_flatMap.1 h
    obtain ⟨x, hx, rfl⟩ := List.mem_map.1 h
    obtain ⟨hx, hf⟩ := List.mem_filter.1 hx
    have hall : ∀ g n, ∀ a ∈ protocAffixes, ∀ x ∈ fixed g n, fits x a.1 a.2 = true → a.1 ++ strip x a ++ a.2 = x := by
      intro g n; cases g <;> cases n <;> decide +kernel
    refine ⟨x, ?_, hx⟩
    rw [protocDecls_affixes]
    exact List.mem_map.2 ⟨a, ha, hall g n a ha x hx hf⟩
  · rintro ⟨x, hx, hfx⟩
    rw [protocDecls_affixes] at hx
    obtain ⟨a, ha, rfl⟩ := List.mem_map.1 hx
    refine List.mem_flatMap.2 ⟨a, ha, List.mem_map.2 ⟨_, List.mem_filter.2 ⟨hfx, fits_of_eq rfl⟩, strip_eq S a⟩⟩

theorem protoc_family (g n : Bool) (s : Svcdef.Service) (S : Str) :
    ∀ x ∈ protocDecls S, ∀ f ∈ families g n s, x ∉ f.declared := by
  intro x hx f hf hd
  rw [protocDecls_affixes] at hx
  obtain ⟨a, ha, rfl⟩ := List.mem_map.1 hx
  obtain ⟨m, -, e⟩ := mem_declared.1 hd
  have hall : ∀ g n, ∀ a ∈ affixes g n, ∀ b ∈ protocAffixes, compat a.1 a.2 b.1 b.2 = false := by
    intro g n; cases g <;> cases n <;> decide +kernel
  have := hall g n _ (mem_affixes hf) a ha
  rw [compat_of_eq e] at this; cases this

/-- **C64**, the service's name, exact form: what the transport file declares at package level is disjoint from what protoc
declares for a service with the (exported) name `S` if and only if `S` is none of eight names. -/
theorem C64_service_name (t : Str) (s : Svcdef.Service) (S : Str) (hS : Exported S) :
    (∀ x ∈ protocDecls S, x ∉ topLevel t s) ↔
      S ≠ "HTTP".toList ∧ S ≠ "NewHTTP".toList ∧
      (t = "all".toList ∨ t = "grpc".toList → S ≠ "GRPC".toList ∧ S ≠ "NewGRPC".toList ∧ S ≠ "MakeGRPC".toList) ∧
      (t = "all".toList ∨ t = "nats".toList → S ≠ "NATS".toList ∧ S ≠ "NewNATS".toList ∧ S ≠ "MakeNATS".toList) := by
  have hg : grpcOn t = true ↔ t = "all".toList ∨ t = "grpc".toList := by
    simp only [grpcOn, Bool.or_eq_true, decide_eq_true_eq]
  have hna : natsOn t = true ↔ t = "all".toList ∨ t = "nats".toList := by
    simp only [natsOn, Bool.or_eq_true, decide_eq_true_eq]
  rw [← hg, ← hna]
  have h1 : (∀ x ∈ protocDecls S, x ∉ topLevel t s) ↔ S ∉ badNames (grpcOn t) (natsOn t) := by
    rw [mem_badNames]
    constructor
    · rintro h ⟨x, hx, hf⟩
      exact h x hx (List.mem_append_left _ hf)
    · intro h x hx htop
      rcases List.mem_append.1 htop with hf | hf
      · exact h ⟨x, hx, hf⟩
      · obtain ⟨f, hf, hd⟩ := List.mem_flatMap.1 hf
        exact protoc_family _ _ s S x hx f hf hd
  rw [h1]
  have hlow : S ≠ "grpc".toList ∧ S ≠ "nats".toList := by
    obtain ⟨c, r, rfl, hc⟩ := hS
    constructor
    · intro e
      have : c = 'g' := (List.cons.inj e).1
      rw [this] at hc; revert hc; decide
    · intro e
      have : c = 'n' := (List.cons.inj e).1
      rw [this] at hc; revert hc; decide
  have hb : badNames false false = ["NewHTTP".toList, "HTTP".toList] := by decide +kernel
  have hb1 : badNames true false =
      ["NewHTTP".toList, "NewGRPC".toList, "HTTP".toList, "GRPC".toList, "MakeGRPC".toList, "grpc".toList] := by
    decide +kernel
  have hb2 : badNames false true =
      ["NewHTTP".toList, "NewNATS".toList, "HTTP".toList, "NATS".toList, "MakeNATS".toList, "nats".toList] := by
    decide +kernel
  have hb3 : badNames true true =
      ["NewHTTP".toList, "NewGRPC".toList, "NewNATS".toList, "HTTP".toList, "GRPC".toList, "NATS".toList,
       "MakeGRPC".toList, "grpc".toList, "MakeNATS".toList, "nats".toList] := by
    decide +kernel
  cases grpcOn t <;> cases natsOn t
  · rw [hb]; simp only [List.mem_cons, List.not_mem_nil, or_false, not_or]
    exact ⟨fun ⟨a, b⟩ => ⟨b, a, (nomatch ·), (nomatch ·)⟩, fun ⟨b, a, _, _⟩ => ⟨a, b⟩⟩
  · rw [hb2]; simp only [List.mem_cons, List.not_mem_nil, or_false, not_or]
    exact ⟨fun ⟨a, b, c, d, e, _⟩ => ⟨c, a, (nomatch ·), fun _ => ⟨d, b, e⟩⟩,
      fun ⟨c, a, _, h⟩ => ⟨a, (h trivial).2.1, c, (h trivial).1, (h trivial).2.2, hlow.2⟩⟩
  · rw [hb1]; simp only [List.mem_cons, List.not_mem_nil, or_false, not_or]
    exact ⟨fun ⟨a, b, c, d, e, _⟩ => ⟨c, a, fun _ => ⟨d, b, e⟩, (nomatch ·)⟩,
      fun ⟨c, a, h, _⟩ => ⟨a, (h trivial).2.1, c, (h trivial).1, (h trivial).2.2, hlow.1⟩⟩
  · rw [hb3]; simp only [List.mem_cons, List.not_mem_nil, or_false, not_or]
    exact ⟨fun ⟨a, b, c, d, e, f, i, _, j, _⟩ => ⟨d, a, fun _ => ⟨e, b, i⟩, fun _ => ⟨f, c, j⟩⟩,
      fun ⟨d, a, h, h'⟩ => ⟨a, (h trivial).2.1, (h' trivial).2.1, d, (h trivial).1, (h' trivial).1, (h trivial).2.2, hlow.1,
        (h' trivial).2.2, hlow.2⟩⟩

/-! ## Examples -/

namespace Example

def ft : Svcdef.FieldType := ⟨"Q".toList, none, [], none, none, true, false⟩
def method (n : String) (k : Nat) : Svcdef.ServiceMethod :=
  ⟨n.toList, ft, ft, List.replicate k ⟨"get".toList, "/a".toList, []⟩⟩
def svc (name : String) (ms : List (String × Nat)) : Svcdef.Service := ⟨name.toList, ms.map fun m => method m.1 m.2⟩

def good : Svcdef.Service := svc "Users" [("Get", 1), ("List_1", 2), ("Ping", 0)]

theorem good_hyps : (names good).Nodup ∧ (∀ n ∈ names good, Exported n) ∧ ∀ n ∈ names good, goCamelCase n = n := by
  refine ⟨by decide +kernel, ?_, by decide +kernel⟩
  intro n hn
  have : n = "Get".toList ∨ n = "List_1".toList ∨ n = "Ping".toList := by
    have e : names good = ["Get".toList, "List_1".toList, "Ping".toList] := by decide +kernel
    rw [e] at hn
    rcases List.mem_cons.1 hn with h | hn
    · exact .inl h
    rcases List.mem_cons.1 hn with h | hn
    · exact .inr (.inl h)
    rcases List.mem_cons.1 hn with h | hn
    · exact .inr (.inr h)
    · cases hn
  rcases this with rfl | rfl | rfl
  · exact ⟨'G', "et".toList, rfl, by decide⟩
  · exact ⟨'L', "ist_1".toList, rfl, by decide⟩
  · exact ⟨'P', "ing".toList, rfl, by decide⟩

/-- A service (three methods: one binding, two bindings, none) all of whose generated declarations are legal. -/
example : ∀ sc ∈ scopes "all".toList good, Legal sc := by
  rw [C64_declarations _ _ good_hyps.1 good_hyps.2.1 good_hyps.2.2]
  refine ⟨by decide +kernel, by decide +kernel, by decide +kernel, ?_, ?_⟩
  · decide +kernel
  · intro _; decide +kernel

/-- And it declares plenty: 24 fixed names and 29 functions. -/
example : (topLevel "all".toList good).length = 53 := by decide +kernel

/-- An rpc called `Import`: `grpcServer` gets a field called `import`. -/
theorem C64_keyword_clash : ¬ ∀ sc ∈ scopes "grpc".toList (svc "Users" [("Import", 1)]), Legal sc := by
  intro h
  have h4 := h (grpcServerMembers (svc "Users" [("Import", 1)])) (by decide +kernel)
  exact h4.2 "import".toList (by decide +kernel) (by decide +kernel)

/-- Two rpcs `GetID` and `GetId`. -/
theorem C64_case_clash : ¬ ∀ sc ∈ scopes "http".toList (svc "Users" [("GetID", 1), ("GetId", 1)]), Legal sc := by
  intro h
  have h4 := h (newEndpointsLocals (svc "Users" [("GetID", 1), ("GetId", 1)])) (by decide +kernel)
  exact absurd h4.1 (by decide +kernel)

/-- Two rpcs `Create` and `CreateEndpoint`. -/
theorem C64_endpoint_clash :
    ¬ ∀ sc ∈ scopes "http".toList (svc "Users" [("Create", 1), ("CreateEndpoint", 1)]), Legal sc := by
  intro h
  have h4 := h (endpointsMembers (svc "Users" [("Create", 1), ("CreateEndpoint", 1)])) (by decide +kernel)
  exact absurd h4.1 (by decide +kernel)

/-- A service called `HTTP`: both files declare `NewHTTPClient`. -/
theorem C64_http_clash : ¬ ∀ x ∈ protocDecls "HTTP".toList, x ∉ topLevel "grpc".toList (svc "HTTP" [("Get", 1)]) := by
  intro h
  exact h "NewHTTPClient".toList (by decide +kernel) (by decide +kernel)

/-- An ordinary service name. -/
example : ∀ x ∈ protocDecls "Users".toList, x ∉ topLevel "all".toList good := by
  exact (C64_service_name _ _ "Users".toList ⟨'U', "sers".toList, rfl, by decide⟩).2 <|
    ⟨by decide, by decide, fun _ => ⟨by decide, by decide, by decide⟩, fun _ => ⟨by decide, by decide, by decide⟩⟩

end Example

end Baron.Idents
