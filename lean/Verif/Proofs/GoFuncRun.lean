import Verif.Spec.GoFunc
import Verif.Props.Wiring

/-!
# C99: finding functions
-/

namespace Baron.GoFunc

open Baron.Svcdef (Service ServiceMethod)
open Baron.TT (goType)
open Baron.HTTP (look)

variable {pkg : Str} {s : Service} {cfg : TT.Config}

theorem forall_program {P : Func → Prop} (h1 : P (newEndpoints s)) (h2 : P endpoints) (h3 : P (wrapService s)) (h4 : P wrapEndpoints) (h5 : P (newService s))
    (h6 : P (makeGRPCServer s)) (h7 : P (newGRPCClient pkg s)) (h8 : P (serveNATS s)) (h9 : P (makeNATSServer s)) (h10 : P (newNATSClient s))
    (h11 : P encodeNATSResponse) (h12 : P encodeNATSRequest) (hm : ∀ m ∈ s.methods, P (endpointFunc m) ∧ P (makeEndpoint s.name m) ∧ P (grpcMethod m) ∧
      P (decodeRequest m) ∧ P (encodeResponse m) ∧ P (decodeResponse m) ∧ P (encodeRequest m) ∧ P (decodeNATSRequest m) ∧ P (decodeNATSResponse m) ∧ P (stubFunc s m)) :
    ∀ f ∈ program pkg s cfg, P f := by
  intro f hf
  obtain ⟨x, hx, rfl⟩ := List.mem_map.mp hf
  rw [sources, List.mem_append] at hx
  rcases hx with hx | hx
  · rw [commonFuncs, List.mem_append] at hx
    rcases hx with hx | hx
    · simp only [List.mem_cons, List.not_mem_nil, or_false] at hx
      rcases hx with rfl | rfl | rfl | rfl | rfl <;> assumption
    · obtain ⟨m, hm', hx⟩ := List.mem_flatMap.mp hx
      obtain ⟨a, b, c, d, e, f, g, i, j, k⟩ := hm m hm'
      simp only [List.mem_cons, List.not_mem_nil, or_false] at hx
      rcases hx with rfl | rfl | rfl <;> assumption
  · obtain ⟨y, hy, rfl⟩ := List.mem_map.mp hx
    rw [List.mem_append] at hy
    rcases hy with hy | hy
    · by_cases hg : TT.selected (chars% "grpc") cfg = true
      · rw [if_pos hg, grpcFuncs, List.mem_append] at hy
        rcases hy with hy | hy
        · simp only [List.mem_cons, List.not_mem_nil, or_false] at hy
          rcases hy with rfl | rfl <;> assumption
        · obtain ⟨m, hm', hy⟩ := List.mem_flatMap.mp hy
          obtain ⟨a, b, c, d, e, f, g, i, j, k⟩ := hm m hm'
          simp only [List.mem_cons, List.not_mem_nil, or_false] at hy
          rcases hy with rfl | rfl | rfl | rfl | rfl <;> assumption
      · rw [if_neg hg] at hy
        exact absurd hy List.not_mem_nil
    · by_cases hg : TT.selected (chars% "nats") cfg = true
      · rw [if_pos hg, natsFuncs, List.mem_append] at hy
        rcases hy with hy | hy
        · simp only [List.mem_cons, List.not_mem_nil, or_false] at hy
          rcases hy with rfl | rfl | rfl | rfl | rfl <;> assumption
        · obtain ⟨m, hm', hy⟩ := List.mem_flatMap.mp hy
          obtain ⟨a, b, c, d, e, f, g, i, j, k⟩ := hm m hm'
          simp only [List.mem_cons, List.not_mem_nil, or_false] at hy
          rcases hy with rfl | rfl <;> assumption
      · rw [if_neg hg] at hy
        exact absurd hy List.not_mem_nil

theorem mem_fixed : newEndpoints s ∈ program pkg s cfg ∧ endpoints ∈ program pkg s cfg ∧ wrapService s ∈ program pkg s cfg ∧ wrapEndpoints ∈ program pkg s cfg ∧
    newService s ∈ program pkg s cfg := by
  unfold program sources commonFuncs
  simp

theorem mem_grpc (hg : TT.selected (chars% "grpc") cfg = true) {f : Func} (hf : f ∈ grpcFuncs pkg s) : f ∈ program pkg s cfg := by
  unfold program sources
  rw [List.map_append, List.mem_append, if_pos hg, List.map_map]
  exact .inr (List.mem_map.mpr ⟨f, List.mem_append.mpr (.inl hf), rfl⟩)

theorem mem_nats (hg : TT.selected (chars% "nats") cfg = true) {f : Func} (hf : f ∈ natsFuncs s) : f ∈ program pkg s cfg := by
  unfold program sources
  rw [List.map_append, List.mem_append, if_pos hg, List.map_map]
  exact .inr (List.mem_map.mpr ⟨f, List.mem_append.mpr (.inr hf), rfl⟩)

theorem mem_rpc {m : ServiceMethod} (hm : m ∈ s.methods) : ∀ f ∈ [endpointFunc m, makeEndpoint s.name m, stubFunc s m], f ∈ program pkg s cfg := by
  intro f hf
  unfold program sources commonFuncs
  rw [List.map_append, List.mem_append, List.map_append, List.mem_append, List.map_flatMap]
  refine .inl (.inr (List.mem_flatMap.mpr ⟨m, hm, ?_⟩))
  exact hf

theorem mem_grpc_rpc (hg : TT.selected (chars% "grpc") cfg = true) {m : ServiceMethod} (hm : m ∈ s.methods) :
    ∀ f ∈ [grpcMethod m, decodeRequest m, encodeResponse m, decodeResponse m, encodeRequest m], f ∈ program pkg s cfg := fun f hf => by
  refine mem_grpc hg ?_
  rw [grpcFuncs, List.mem_append]
  exact .inr (List.mem_flatMap.mpr ⟨m, hm, hf⟩)

theorem mem_nats_rpc (hg : TT.selected (chars% "nats") cfg = true) {m : ServiceMethod} (hm : m ∈ s.methods) :
    ∀ f ∈ [decodeNATSRequest m, decodeNATSResponse m], f ∈ program pkg s cfg := fun f hf => by
  refine mem_nats hg ?_
  rw [natsFuncs, List.mem_append]
  exact .inr (List.mem_flatMap.mpr ⟨m, hm, hf⟩)

theorem find_unique {α : Type} {p : α → Bool} {l : List α} {a : α} (ha : a ∈ l) (hp : p a = true) (hu : ∀ b ∈ l, p b = true → b = a) : l.find? p = some a := by
  cases h : l.find? p with
  | none => exact absurd hp (by simpa using List.find?_eq_none.mp h a ha)
  | some b => rw [hu b (List.mem_of_find?_eq_some h) (List.find?_some h)]

theorem isFunction_iff {f : Func} {q : Str} : f.isFunction q = true ↔ f.recv = none ∧ f.pkg ++ '.' :: f.name = q := by
  unfold Func.isFunction
  simp

/-- Names that begin differently or end differently. -/
theorem ne_of_head {a b : Str} (h : a.head? ≠ b.head?) : a ≠ b := fun e => h (by rw [e])

def isLib (q : Str) : Bool := q.head? = some 'g' || q.head? = some 'n'

theorem lib_none {q : Str} (h : isLib q = true) : (program pkg s cfg).find? (·.isFunction q) = none := by
  refine List.find?_eq_none.mpr ?_
  have hq : q.head? = some 'g' ∨ q.head? = some 'n' := by simpa [isLib] using h
  have key : ∀ f : Func, f.pkg.head? = some 'p' ∨ f.pkg.head? = some 's' → ¬ f.isFunction q = true := by
    intro f hf e
    have := (isFunction_iff.mp e).2
    have := congrArg List.head? this
    rw [List.head?_append] at this
    rcases hq with hq | hq <;> rcases hf with hf | hf <;> rw [hf, hq] at this <;> simp at this
  refine forall_program ?_ ?_ ?_ ?_ ?_ ?_ ?_ ?_ ?_ ?_ ?_ ?_ (fun m _ => ⟨?_, ?_, ?_, ?_, ?_, ?_, ?_, ?_, ?_, ?_⟩) <;> refine key _ ?_ <;>
    first | exact Or.inl rfl | exact Or.inr rfl

theorem rpc_inj (ho : Ordinary pkg s) {m m' : ServiceMethod} (hm : m ∈ s.methods) (hm' : m' ∈ s.methods) (h : m.name = m'.name) : m = m' := by
  have := ho.lower
  obtain ⟨i, hi, rfl⟩ := List.getElem_of_mem hm
  obtain ⟨j, hj, rfl⟩ := List.getElem_of_mem hm'
  have e := (List.getElem_inj (i := i) (j := j) (h₀ := by simpa using hi) (h₁ := by simpa using hj) this).mp (by simp [h])
  subst e
  rfl

/-- A function with another name. -/
macro "other" : tactic => `(tactic| (
  intro h
  first
  | exact absurd (isFunction_iff.mp h).1 (Option.some_ne_none _)
  | (exfalso
     replace h := (isFunction_iff.mp h).2
     first
     | (have := congrArg (fun l : Str => (l.take 5).drop 3) h; simp [newEndpoints, endpoints, wrapService, wrapEndpoints, newService, makeGRPCServer, newGRPCClient, makeEndpoint,
         decodeRequest, encodeResponse, decodeResponse, encodeRequest, codec, serveNATS, makeNATSServer, newNATSClient, encodeNATSResponse, encodeNATSRequest,
         decodeNATSRequest, decodeNATSResponse] at this; done)
     | (have := congrArg (List.reverse) h; simp [newEndpoints, endpoints, wrapService, wrapEndpoints, newService, makeGRPCServer, newGRPCClient, makeEndpoint,
         decodeRequest, encodeResponse, decodeResponse, encodeRequest, codec, serveNATS, makeNATSServer, newNATSClient, encodeNATSResponse, encodeNATSRequest,
         decodeNATSRequest, decodeNATSResponse] at this; done)
     | (have := congrArg (fun l : Str => (l.take 10).drop 9) h; simp [newEndpoints, endpoints, wrapService, wrapEndpoints, newService, makeGRPCServer, newGRPCClient, makeEndpoint,
         decodeRequest, encodeResponse, decodeResponse, encodeRequest, codec, serveNATS, makeNATSServer, newNATSClient, encodeNATSResponse, encodeNATSRequest,
         decodeNATSRequest, decodeNATSResponse] at this; done)
     | (have := congrArg (fun l : Str => (l.take 7).drop 6) h; simp [newEndpoints, endpoints, wrapService, wrapEndpoints, newService, makeGRPCServer, newGRPCClient, makeEndpoint,
         decodeRequest, encodeResponse, decodeResponse, encodeRequest, codec, serveNATS, makeNATSServer, newNATSClient, encodeNATSResponse, encodeNATSRequest,
         decodeNATSRequest, decodeNATSResponse] at this; done))))

theorem find_newEndpoints : (program pkg s cfg).find? (·.isFunction (chars% "server.NewEndpoints")) = some (newEndpoints s) := by
  refine find_unique mem_fixed.1 (isFunction_iff.mpr ⟨rfl, rfl⟩) ?_
  refine forall_program (fun _ => rfl) ?_ ?_ ?_ ?_ ?_ ?_ ?_ ?_ ?_ ?_ ?_ (fun m _ => ⟨?_, ?_, ?_, ?_, ?_, ?_, ?_, ?_, ?_, ?_⟩) <;> other

theorem find_endpoints : (program pkg s cfg).find? (·.isFunction (chars% "server.Endpoints")) = some endpoints := by
  refine find_unique mem_fixed.2.1 (isFunction_iff.mpr ⟨rfl, rfl⟩) ?_
  refine forall_program ?_ (fun _ => rfl) ?_ ?_ ?_ ?_ ?_ ?_ ?_ ?_ ?_ ?_ (fun m _ => ⟨?_, ?_, ?_, ?_, ?_, ?_, ?_, ?_, ?_, ?_⟩) <;> other

theorem find_wrapService : (program pkg s cfg).find? (·.isFunction (chars% "service.WrapService")) = some (wrapService s) := by
  refine find_unique mem_fixed.2.2.1 (isFunction_iff.mpr ⟨rfl, rfl⟩) ?_
  refine forall_program ?_ ?_ (fun _ => rfl) ?_ ?_ ?_ ?_ ?_ ?_ ?_ ?_ ?_ (fun m _ => ⟨?_, ?_, ?_, ?_, ?_, ?_, ?_, ?_, ?_, ?_⟩) <;> other

theorem find_wrapEndpoints : (program pkg s cfg).find? (·.isFunction (chars% "service.WrapEndpoints")) = some wrapEndpoints := by
  refine find_unique mem_fixed.2.2.2.1 (isFunction_iff.mpr ⟨rfl, rfl⟩) ?_
  refine forall_program ?_ ?_ ?_ (fun _ => rfl) ?_ ?_ ?_ ?_ ?_ ?_ ?_ ?_ (fun m _ => ⟨?_, ?_, ?_, ?_, ?_, ?_, ?_, ?_, ?_, ?_⟩) <;> other

theorem find_newService : (program pkg s cfg).find? (·.isFunction (chars% "service.NewService")) = some (newService s) := by
  refine find_unique mem_fixed.2.2.2.2 (isFunction_iff.mpr ⟨rfl, rfl⟩) ?_
  refine forall_program ?_ ?_ ?_ ?_ (fun _ => rfl) ?_ ?_ ?_ ?_ ?_ ?_ ?_ (fun m _ => ⟨?_, ?_, ?_, ?_, ?_, ?_, ?_, ?_, ?_, ?_⟩) <;> other

theorem find_makeGRPCServer (hg : TT.selected (chars% "grpc") cfg = true) : (program pkg s cfg).find? (·.isFunction (chars% "pb.MakeGRPCServer")) = some (makeGRPCServer s) := by
  refine find_unique (mem_grpc hg (by simp [grpcFuncs])) (isFunction_iff.mpr ⟨rfl, rfl⟩) ?_
  refine forall_program ?_ ?_ ?_ ?_ ?_ (fun _ => rfl) ?_ ?_ ?_ ?_ ?_ ?_ (fun m _ => ⟨?_, ?_, ?_, ?_, ?_, ?_, ?_, ?_, ?_, ?_⟩) <;> other

theorem find_newGRPCClient (hg : TT.selected (chars% "grpc") cfg = true) : (program pkg s cfg).find? (·.isFunction (chars% "pb.NewGRPCClient")) = some (newGRPCClient pkg s) := by
  refine find_unique (mem_grpc hg (by simp [grpcFuncs])) (isFunction_iff.mpr ⟨rfl, rfl⟩) ?_
  refine forall_program ?_ ?_ ?_ ?_ ?_ ?_ (fun _ => rfl) ?_ ?_ ?_ ?_ ?_ (fun m _ => ⟨?_, ?_, ?_, ?_, ?_, ?_, ?_, ?_, ?_, ?_⟩) <;> other

theorem find_serveNATS (hn : TT.selected (chars% "nats") cfg = true) : (program pkg s cfg).find? (·.isFunction (chars% "pb.ServeNATS")) = some (serveNATS s) := by
  refine find_unique (mem_nats hn (by simp [natsFuncs])) (isFunction_iff.mpr ⟨rfl, rfl⟩) ?_
  refine forall_program ?_ ?_ ?_ ?_ ?_ ?_ ?_ (fun _ => rfl) ?_ ?_ ?_ ?_ (fun m _ => ⟨?_, ?_, ?_, ?_, ?_, ?_, ?_, ?_, ?_, ?_⟩) <;> other

theorem find_makeNATSServer (hn : TT.selected (chars% "nats") cfg = true) : (program pkg s cfg).find? (·.isFunction (chars% "pb.MakeNATSServer")) = some (makeNATSServer s) := by
  refine find_unique (mem_nats hn (by simp [natsFuncs])) (isFunction_iff.mpr ⟨rfl, rfl⟩) ?_
  refine forall_program ?_ ?_ ?_ ?_ ?_ ?_ ?_ ?_ (fun _ => rfl) ?_ ?_ ?_ (fun m _ => ⟨?_, ?_, ?_, ?_, ?_, ?_, ?_, ?_, ?_, ?_⟩) <;> other

theorem find_newNATSClient (hn : TT.selected (chars% "nats") cfg = true) : (program pkg s cfg).find? (·.isFunction (chars% "pb.NewNATSClient")) = some (newNATSClient s) := by
  refine find_unique (mem_nats hn (by simp [natsFuncs])) (isFunction_iff.mpr ⟨rfl, rfl⟩) ?_
  refine forall_program ?_ ?_ ?_ ?_ ?_ ?_ ?_ ?_ ?_ (fun _ => rfl) ?_ ?_ (fun m _ => ⟨?_, ?_, ?_, ?_, ?_, ?_, ?_, ?_, ?_, ?_⟩) <;> other

theorem find_encodeNATSResponse (hn : TT.selected (chars% "nats") cfg = true) : (program pkg s cfg).find? (·.isFunction (chars% "pb.EncodeNATSGenericResponse")) = some encodeNATSResponse := by
  refine find_unique (mem_nats hn (by simp [natsFuncs])) (isFunction_iff.mpr ⟨rfl, rfl⟩) ?_
  refine forall_program ?_ ?_ ?_ ?_ ?_ ?_ ?_ ?_ ?_ ?_ (fun _ => rfl) ?_ (fun m _ => ⟨?_, ?_, ?_, ?_, ?_, ?_, ?_, ?_, ?_, ?_⟩) <;> other

theorem find_encodeNATSRequest (hn : TT.selected (chars% "nats") cfg = true) : (program pkg s cfg).find? (·.isFunction (chars% "pb.EncodeNATSGenericRequest")) = some encodeNATSRequest := by
  refine find_unique (mem_nats hn (by simp [natsFuncs])) (isFunction_iff.mpr ⟨rfl, rfl⟩) ?_
  refine forall_program ?_ ?_ ?_ ?_ ?_ ?_ ?_ ?_ ?_ ?_ ?_ (fun _ => rfl) (fun m _ => ⟨?_, ?_, ?_, ?_, ?_, ?_, ?_, ?_, ?_, ?_⟩) <;> other

theorem isMethod_iff {f : Func} {t n : Str} : f.isMethod t n = true ↔ ∃ r, f.recv = some r ∧ receiver f.pkg r.2 = t ∧ f.name = n := by
  unfold Func.isMethod
  cases f.recv <;> simp

theorem serviceType_last (p : Str) : (qual p (serviceType s)).getLast? = some 'e' := by
  unfold qual serviceType
  split <;> simp [List.getLast?_append, List.getLast?_cons]

/-- No method, or of another type. -/
macro "unmethod" : tactic => `(tactic| (
  intro h
  obtain ⟨r, h1, h2, h3⟩ := isMethod_iff.mp h
  cases h1 <;> first
  | (exfalso; have e := congrArg List.getLast? h2; first | (rw [serviceType_last] at e; cases e; done) | (rw [show receiver (stubFunc s _).pkg (star (serviceType s)) = qual (chars% "service") (serviceType s) from rfl, serviceType_last] at e; cases e; done))
  | (cases h2; done)))

section
variable (ho : Ordinary pkg s) {m : ServiceMethod} (hm : m ∈ s.methods)
include ho hm

theorem find_endpointFunc : (program pkg s cfg).find? (·.isMethod (chars% "pb.Endpoints") m.name) = some (endpointFunc m) := by
  refine find_unique (mem_rpc hm _ (by simp)) (isMethod_iff.mpr ⟨_, rfl, rfl, rfl⟩) ?_
  refine forall_program ?_ ?_ ?_ ?_ ?_ ?_ ?_ ?_ ?_ ?_ ?_ ?_ (fun m' hm' => ⟨(fun h => by
      obtain ⟨_, _, _, h⟩ := isMethod_iff.mp h
      rw [rpc_inj ho hm' hm h]), ?_, ?_, ?_, ?_, ?_, ?_, ?_, ?_, ?_⟩) <;> unmethod

theorem find_makeEndpoint : (program pkg s cfg).find? (·.isFunction (chars% "pb.Make" ++ (m.name ++ chars% "Endpoint"))) = some (makeEndpoint s.name m) := by
  refine find_unique (mem_rpc hm _ (by simp)) (isFunction_iff.mpr ⟨rfl, rfl⟩) ?_
  refine forall_program ?_ ?_ ?_ ?_ ?_ ?_ ?_ ?_ ?_ ?_ ?_ ?_ (fun m' hm' => ⟨?_, (fun h => by
      have h := (isFunction_iff.mp h).2
      simp [makeEndpoint] at h
      rw [rpc_inj ho hm' hm h]), ?_, ?_, ?_, ?_, ?_, ?_, ?_, ?_⟩) <;> other

theorem find_grpcMethod (hg : TT.selected (chars% "grpc") cfg = true) : (program pkg s cfg).find? (·.isMethod (chars% "pb.grpcServer") m.name) = some (grpcMethod m) := by
  refine find_unique (mem_grpc_rpc hg hm _ (by simp)) (isMethod_iff.mpr ⟨_, rfl, rfl, ho.camel m hm⟩) ?_
  refine forall_program ?_ ?_ ?_ ?_ ?_ ?_ ?_ ?_ ?_ ?_ ?_ ?_ (fun m' hm' => ⟨?_, ?_, (fun h => by
      obtain ⟨_, _, _, h⟩ := isMethod_iff.mp h
      rw [show (grpcMethod m').name = m'.name from ho.camel m' hm'] at h
      rw [rpc_inj ho hm' hm h]), ?_, ?_, ?_, ?_, ?_, ?_, ?_⟩) <;> unmethod

theorem find_decodeRequest (hg : TT.selected (chars% "grpc") cfg = true) : (program pkg s cfg).find? (·.isFunction (chars% "pb.DecodeGRPC" ++ (m.name ++ chars% "Request"))) = some (decodeRequest m) := by
  refine find_unique (mem_grpc_rpc hg hm _ (by simp)) (isFunction_iff.mpr ⟨rfl, rfl⟩) ?_
  refine forall_program ?_ ?_ ?_ ?_ ?_ ?_ ?_ ?_ ?_ ?_ ?_ ?_ (fun m' hm' => ⟨?_, ?_, ?_, (fun h => by
      have h := (isFunction_iff.mp h).2
      simp [decodeRequest, codec] at h
      rw [rpc_inj ho hm' hm h]), ?_, ?_, ?_, ?_, ?_, ?_⟩) <;> other

theorem find_encodeResponse (hg : TT.selected (chars% "grpc") cfg = true) : (program pkg s cfg).find? (·.isFunction (chars% "pb.EncodeGRPC" ++ (m.name ++ chars% "Response"))) = some (encodeResponse m) := by
  refine find_unique (mem_grpc_rpc hg hm _ (by simp)) (isFunction_iff.mpr ⟨rfl, rfl⟩) ?_
  refine forall_program ?_ ?_ ?_ ?_ ?_ ?_ ?_ ?_ ?_ ?_ ?_ ?_ (fun m' hm' => ⟨?_, ?_, ?_, ?_, (fun h => by
      have h := (isFunction_iff.mp h).2
      simp [encodeResponse, codec] at h
      rw [rpc_inj ho hm' hm h]), ?_, ?_, ?_, ?_, ?_⟩) <;> other

theorem find_decodeResponse (hg : TT.selected (chars% "grpc") cfg = true) : (program pkg s cfg).find? (·.isFunction (chars% "pb.DecodeGRPC" ++ (m.name ++ chars% "Response"))) = some (decodeResponse m) := by
  refine find_unique (mem_grpc_rpc hg hm _ (by simp)) (isFunction_iff.mpr ⟨rfl, rfl⟩) ?_
  refine forall_program ?_ ?_ ?_ ?_ ?_ ?_ ?_ ?_ ?_ ?_ ?_ ?_ (fun m' hm' => ⟨?_, ?_, ?_, ?_, ?_, (fun h => by
      have h := (isFunction_iff.mp h).2
      simp [decodeResponse, codec] at h
      rw [rpc_inj ho hm' hm h]), ?_, ?_, ?_, ?_⟩) <;> other

theorem find_encodeRequest (hg : TT.selected (chars% "grpc") cfg = true) : (program pkg s cfg).find? (·.isFunction (chars% "pb.EncodeGRPC" ++ (m.name ++ chars% "Request"))) = some (encodeRequest m) := by
  refine find_unique (mem_grpc_rpc hg hm _ (by simp)) (isFunction_iff.mpr ⟨rfl, rfl⟩) ?_
  refine forall_program ?_ ?_ ?_ ?_ ?_ ?_ ?_ ?_ ?_ ?_ ?_ ?_ (fun m' hm' => ⟨?_, ?_, ?_, ?_, ?_, ?_, (fun h => by
      have h := (isFunction_iff.mp h).2
      simp [encodeRequest, codec] at h
      rw [rpc_inj ho hm' hm h]), ?_, ?_, ?_⟩) <;> other

theorem find_decodeNATSRequest (hn : TT.selected (chars% "nats") cfg = true) : (program pkg s cfg).find? (·.isFunction (chars% "pb.DecodeNATS" ++ (m.name ++ chars% "Request"))) = some (decodeNATSRequest m) := by
  refine find_unique (mem_nats_rpc hn hm _ (by simp)) (isFunction_iff.mpr ⟨rfl, rfl⟩) ?_
  refine forall_program ?_ ?_ ?_ ?_ ?_ ?_ ?_ ?_ ?_ ?_ ?_ ?_ (fun m' hm' => ⟨?_, ?_, ?_, ?_, ?_, ?_, ?_, (fun h => by
      have h := (isFunction_iff.mp h).2
      simp [decodeNATSRequest] at h
      rw [rpc_inj ho hm' hm h]), ?_, ?_⟩) <;> other

theorem find_decodeNATSResponse (hn : TT.selected (chars% "nats") cfg = true) : (program pkg s cfg).find? (·.isFunction (chars% "pb.DecodeNATS" ++ (m.name ++ chars% "Response"))) = some (decodeNATSResponse m) := by
  refine find_unique (mem_nats_rpc hn hm _ (by simp)) (isFunction_iff.mpr ⟨rfl, rfl⟩) ?_
  refine forall_program ?_ ?_ ?_ ?_ ?_ ?_ ?_ ?_ ?_ ?_ ?_ ?_ (fun m' hm' => ⟨?_, ?_, ?_, ?_, ?_, ?_, ?_, ?_, (fun h => by
      have h := (isFunction_iff.mp h).2
      simp [decodeNATSResponse] at h
      rw [rpc_inj ho hm' hm h]), ?_⟩) <;> other

theorem find_stubFunc : (program pkg s cfg).find? (·.isMethod (qual (chars% "service") (serviceType s)) m.name) = some (stubFunc s m) := by
  refine find_unique (mem_rpc hm _ (by simp)) (isMethod_iff.mpr ⟨_, rfl, rfl, rfl⟩) ?_
  refine forall_program ?_ ?_ ?_ ?_ ?_ ?_ ?_ ?_ ?_ ?_ ?_ ?_ (fun m' hm' => ⟨?_, ?_, ?_, ?_, ?_, ?_, ?_, ?_, ?_, (fun h => by
      obtain ⟨_, _, _, h⟩ := isMethod_iff.mp h
      rw [rpc_inj ho hm' hm h])⟩) <;> unmethod

end

end Baron.GoFunc
