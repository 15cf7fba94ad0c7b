import Verif.Proofs.Concurrent
import Verif.Props.HTTPCall

/-!
# C81: requests that are handled at the same time are answered as if one by one
-/

namespace Baron.Concurrent

open Baron.HTTPCode (FullMsg)
open Baron.Runtime (Ctx Err)

variable {F S R : Type}

/-- **C81** However many requests, over HTTP, gRPC and NATS, are under way at the same time, and however their goroutines
take turns: there is an order of the requests in which the implementation's state and all replies are what they would be if the
requests had been handled one after the other, and in which a request answered before another arrived comes first. In
particular every request runs the implementation at most once, and no reply is made from another request. (That the
lower-cased names of the methods differ is needed for the generated code to compile.) -/
theorem C81_serializable (u : Setup F S R) (hlow : ((u.s.methods.map (·.name)).map toLower).Nodup) (st₀ : S)
    (evs : List (Event F)) (σ : State F S R) (h : run u ⟨[], st₀⟩ evs = some σ) :
    ∃ order, Serializes u st₀ evs σ order := by
  obtain ⟨order, xs, rs, hi, ht⟩ := run_inv u hlow [] evs (inv_init u st₀) rfl
    (fun pre post x hs => by simp at hs) h
  simp only [List.nil_append] at hi ht
  refine ⟨order, hi.nodup, fun i x r h => hi.answered h, ⟨xs, rs, hi.serial, hi.len, ?_⟩, ht⟩
  intro k i hk
  obtain ⟨ph, h₁, h₂, _, h₄⟩ := hi.at_ k i hk
  refine ⟨ph, h₁, h₂, ?_, h₄⟩
  rw [← hi.arrived, List.getElem?_map, h₁]
  rfl

/-- The next step of a request that was not answered yet. -/
def next (i : Nat) : Phase F S R → Option (Event F)
  | .arrived => some (.starts i)
  | .calling .. => some (.calls i)
  | .returned _ => some (.answers i)
  | .answered _ => none

/-- **C81**, no request waits for another: whatever the other requests are doing, the next step of a request that was not
answered yet is possible, leaves the other requests where they are, and after at most three of them the request is answered. -/
theorem C81_wait_free (u : Setup F S R) (hlow : ((u.s.methods.map (·.name)).map toLower).Nodup) (σ : State F S R) (i : Nat)
    (x : Incoming F) (ph : Phase F S R) (hi : σ.threads[i]? = some (x, ph)) :
    ∃ evs σ' r, evs.length ≤ 3 ∧ (∀ e ∈ evs, e = .starts i ∨ e = .calls i ∨ e = .answers i) ∧ run u σ evs = some σ' ∧
      σ'.threads[i]? = some (x, .answered r) ∧ ∀ j, j ≠ i → σ'.threads[j]? = σ.threads[j]? := by
  have hlt := (List.getElem?_eq_some_iff.mp hi).1
  have hans : ∀ (τ : State F S R) r, τ.threads[i]? = some (x, .returned r) →
      step u τ (.answers i) = some { τ with threads := τ.threads.set i (x, .answered (finish u x r)) } := by
    intro τ r h
    simp only [step, h]
  have hcall : ∀ (τ : State F S R) e c msg, τ.threads[i]? = some (x, .calling e c msg) →
      step u τ (.calls i) = some ⟨τ.threads.set i (x, .returned (runEp e c msg τ.st).1), (runEp e c msg τ.st).2⟩ := by
    intro τ e c msg h
    simp only [step, h]
  have h1 : ∀ (τ : State F S R) r, τ.threads[i]? = some (x, .returned r) → i < τ.threads.length →
      ∃ τ' r', run u τ [.answers i] = some τ' ∧ τ'.threads[i]? = some (x, .answered r') ∧
        ∀ j, j ≠ i → τ'.threads[j]? = τ.threads[j]? := by
    intro τ r h hl
    refine ⟨{ τ with threads := τ.threads.set i (x, .answered (finish u x r)) }, finish u x r, ?_, List.getElem?_set_self hl,
      fun j hj => List.getElem?_set_ne (Ne.symm hj)⟩
    simp only [run, hans τ r h]
  have h2 : ∀ (τ : State F S R) e c msg, τ.threads[i]? = some (x, .calling e c msg) → i < τ.threads.length →
      ∃ τ' r', run u τ [.calls i, .answers i] = some τ' ∧ τ'.threads[i]? = some (x, .answered r') ∧
        ∀ j, j ≠ i → τ'.threads[j]? = τ.threads[j]? := by
    intro τ e c msg h hl
    have hs := hcall τ e c msg h
    obtain ⟨τ', r', hr, ha, ho⟩ := h1 ⟨τ.threads.set i (x, .returned (runEp e c msg τ.st).1), (runEp e c msg τ.st).2⟩ _
      (List.getElem?_set_self hl) (by simpa using hl)
    refine ⟨τ', r', ?_, ha, fun j hj => by rw [ho j hj]; exact List.getElem?_set_ne (Ne.symm hj)⟩
    rw [show ([.calls i, .answers i] : List (Event F)) = [.calls i] ++ [.answers i] from rfl, run_append]
    simp only [run, hs]
    exact hr
  cases ph with
  | answered r => exact ⟨[], σ, r, by simp, by simp, rfl, hi, fun _ _ => rfl⟩
  | returned r =>
    obtain ⟨τ', r', hr, ha, ho⟩ := h1 σ r hi hlt
    exact ⟨_, τ', r', by simp, by simp, hr, ha, ho⟩
  | calling e c msg =>
    obtain ⟨τ', r', hr, ha, ho⟩ := h2 σ e c msg hi hlt
    exact ⟨_, τ', r', by simp, by simp, hr, ha, ho⟩
  | arrived =>
    have hs : step u σ (.starts i) = some { σ with threads := σ.threads.set i (x, start u x) } := by simp only [step, hi]
    have hrest := rest_start u hlow x σ.st
    cases hst : start u x with
    | arrived => rw [hst] at hrest; cases hrest
    | returned r => exact absurd hst (start_not_returned u x r)
    | answered r =>
      refine ⟨[.starts i], _, r, by simp, by simp, by simp only [run, hs]; rfl, ?_, fun j hj => ?_⟩
      · rw [hst]; exact List.getElem?_set_self hlt
      · exact List.getElem?_set_ne (Ne.symm hj)
    | calling e c msg =>
      rw [hst] at hs
      obtain ⟨τ', r', hr, ha, ho⟩ := h2 { σ with threads := σ.threads.set i (x, .calling e c msg) } e c msg
        (List.getElem?_set_self hlt) (by simpa using hlt)
      refine ⟨[.starts i] ++ [.calls i, .answers i], τ', r', by simp, by simp, ?_, ha,
        fun j hj => by rw [ho j hj]; exact List.getElem?_set_ne (Ne.symm hj)⟩
      rw [run_append]
      simp only [run, hs]
      exact hr

/-! ## What it is good for: a counter -/

/-- A service that answers every call with the number of calls before it. -/
def Counts (u : Setup F Nat Nat) : Prop := ∀ n c msg, u.svc n c msg = .ok (c.2, c.2 + 1)

theorem endpoint_mem {C Q R E : Type} (svc : Transport.Impl C Q R E) (methods : List Str) (k : Str)
    (e : Transport.Endpoint C Q R E) (h : HTTP.look (Transport.newEndpoints svc methods) k = some e) : ∃ n, e = svc n := by
  have hm := Runtime.look_some_mem h
  rw [Transport.newEndpoints, List.mem_filterMap] at hm
  obtain ⟨a, _, hm⟩ := hm
  rw [Option.map_eq_some_iff] at hm
  obtain ⟨e', hl, he⟩ := hm
  have := Runtime.look_some_mem hl
  rw [List.mem_map] at this
  obtain ⟨b, _, hb⟩ := this
  refine ⟨b, ?_⟩
  rw [← (Prod.mk.inj he).2, ← (Prod.mk.inj hb).2]
  rfl

theorem start_calls (u : Setup F S R) (x : Incoming F) (e : Ep F S R) (c : Ctx) (msg : FullMsg F)
    (h : start u x = .calling e c msg) : ∃ n, e = u.svc n := by
  cases x with
  | http q =>
    simp only [start, startHTTP] at h
    repeat (split at h <;> try cases h)
    first
    | (rename_i he _ _ ; exact endpoint_mem _ _ _ _ he)
    | (rename_i he _ ; exact endpoint_mem _ _ _ _ he)
    | (rename_i he _ _ _ _; exact endpoint_mem _ _ _ _ he)
    | (rename_i he; exact endpoint_mem _ _ _ _ he)
  | grpc =>
    simp only [start, startGRPC] at h
    repeat (split at h <;> try cases h)
    rename_i he
    exact endpoint_mem _ _ _ _ he
  | nats =>
    simp only [start, startNATS] at h
    repeat (split at h <;> try cases h)
    first
    | (rename_i he _ _ ; exact endpoint_mem _ _ _ _ he)
    | (rename_i he _ ; exact endpoint_mem _ _ _ _ he)
    | (rename_i he _ _ _ _; exact endpoint_mem _ _ _ _ he)
    | (rename_i he; exact endpoint_mem _ _ _ _ he)

/-- Alone, a request either leaves the counter, or gets its value and increments it. -/
theorem alone_counts (u : Setup F Nat Nat) (hlow : ((u.s.methods.map (·.name)).map toLower).Nodup) (hc : Counts u)
    (x : Incoming F) (st : Nat) :
    (alone u x st).2 = st ∧ (∃ r, start u x = .answered r ∧ (alone u x st).1 = r) ∨
      alone u x st = (finish u x (.ok st), st + 1) := by
  have h := rest_start u hlow x st
  cases hs : start u x with
  | arrived => rw [hs] at h; cases h
  | returned r => exact absurd hs (start_not_returned u x r)
  | answered r =>
    rw [hs] at h
    simp only [rest, Option.some.injEq] at h
    rw [← h]
    exact .inl ⟨rfl, r, rfl, rfl⟩
  | calling e c msg =>
    obtain ⟨n, rfl⟩ := start_calls u x e c msg hs
    rw [hs] at h
    simp only [rest, runEp, hc n, Option.some.injEq] at h
    exact .inr h.symm

/-- A gRPC call that is not refused. -/
theorem grpc_counts (u : Setup F Nat Nat) (hlow : ((u.s.methods.map (·.name)).map toLower).Nodup) (hc : Counts u)
    (path : Str) (ctx md : Ctx) (msg : FullMsg F) (st a : Nat)
    (h : (alone u (.grpc path ctx md msg) st).1 = .grpc (.ok a)) : a = st ∧ (alone u (.grpc path ctx md msg) st).2 = st + 1 := by
  rcases alone_counts u hlow hc (.grpc path ctx md msg) st with ⟨_, r, hs, hr⟩ | hr
  · exfalso
    rw [hr] at h
    subst h
    simp only [start, startGRPC] at hs
    repeat (split at hs <;> try cases hs)
  · rw [hr] at h ⊢
    simp only [finish, Reply.grpc.injEq, Except.ok.injEq] at h
    exact ⟨h.symm, rfl⟩

theorem oneByOne_counts (u : Setup F Nat Nat) (hlow : ((u.s.methods.map (·.name)).map toLower).Nodup) (hc : Counts u)
    {st st' : Nat} {xs : List (Incoming F)} {rs : List (Reply Nat)} (h : OneByOne u st xs rs st') :
    (∀ (k : Nat) path ctx md msg a, xs[k]? = some (.grpc path ctx md msg) → rs[k]? = some (.grpc (.ok a)) → st ≤ a) ∧
    ∀ (k l : Nat) path ctx md msg path' ctx' md' msg' a b, k < l → xs[k]? = some (.grpc path ctx md msg) →
      xs[l]? = some (.grpc path' ctx' md' msg') → rs[k]? = some (.grpc (.ok a)) → rs[l]? = some (.grpc (.ok b)) → a < b := by
  induction h with
  | nil => simp
  | @cons st st₁ st₂ x r xs rs ha _ ih =>
    have hle : st ≤ st₁ := by
      rcases alone_counts u hlow hc x st with ⟨h, _⟩ | h
      · rw [ha] at h
        exact Nat.le_of_eq h.symm
      · rw [ha] at h
        have := (Prod.mk.inj h).2
        omega
    constructor
    · intro k path ctx md msg a hx hr
      cases k with
      | zero =>
        simp only [List.getElem?_cons_zero, Option.some.injEq] at hx hr
        subst hx hr
        have := grpc_counts u hlow hc path ctx md msg st a (by rw [ha])
        omega
      | succ k =>
        have := ih.1 k path ctx md msg a hx hr
        omega
    · intro k l path ctx md msg path' ctx' md' msg' a b hkl hx hy hr hs
      cases l with
      | zero => omega
      | succ l =>
        cases k with
        | zero =>
          simp only [List.getElem?_cons_zero, Option.some.injEq] at hx hr
          subst hx hr
          have h1 := grpc_counts u hlow hc path ctx md msg st a (by rw [ha])
          rw [ha] at h1
          have h2 := ih.1 l path' ctx' md' msg' b hy hs
          simp only at h1
          omega
        | succ k => exact ih.2 k l path ctx md msg path' ctx' md' msg' a b (by omega) hx hy hr hs

/-- **C81**, an application: on a service that answers with the number of calls so far, no two gRPC calls ever get the same
number, however they and any HTTP requests and NATS messages interleave; and one that arrived after another was answered gets
the greater one. -/
theorem C81_tickets (u : Setup F Nat Nat) (hlow : ((u.s.methods.map (·.name)).map toLower).Nodup) (hc : Counts u)
    (evs : List (Event F)) (σ : State F Nat Nat) (h : run u ⟨[], 0⟩ evs = some σ) (i j : Nat) (hij : i ≠ j)
    (path path' : Str) (ctx md ctx' md' : Ctx) (msg msg' : FullMsg F) (a b : Nat)
    (hi : σ.threads[i]? = some (.grpc path ctx md msg, .answered (.grpc (.ok a))))
    (hj : σ.threads[j]? = some (.grpc path' ctx' md' msg', .answered (.grpc (.ok b)))) :
    a ≠ b ∧ ∀ pre post x, evs = pre ++ .arrives x :: post → ∀ σ', run u ⟨[], 0⟩ pre = some σ' →
      (∃ y r, σ'.threads[i]? = some (y, .answered r)) → j = (arrivals pre).length → a < b := by
  obtain ⟨order, hs⟩ := C81_serializable u hlow 0 evs σ h
  obtain ⟨xs, rs, hone, _, hat⟩ := hs.serial
  have hcount := (oneByOne_counts u hlow hc hone).2
  obtain ⟨k, hk⟩ := List.mem_iff_getElem?.mp (hs.all i _ _ hi)
  obtain ⟨l, hl⟩ := List.mem_iff_getElem?.mp (hs.all j _ _ hj)
  obtain ⟨p, hp, hpx, _, hpr⟩ := hat k i hk
  obtain ⟨q, hq, hqx, _, hqr⟩ := hat l j hl
  rw [hi] at hp
  rw [hj] at hq
  cases hp
  cases hq
  have hra := hpr _ rfl
  have hrb := hqr _ rfl
  have hkl : k ≠ l := by
    intro e
    subst e
    rw [hk] at hl
    exact hij (Option.some.inj hl)
  constructor
  · intro e
    rcases Nat.lt_or_gt_of_ne hkl with h | h
    · have := hcount k l _ _ _ _ _ _ _ _ a b h hpx hqx hra hrb
      omega
    · have := hcount l k _ _ _ _ _ _ _ _ b a h hqx hpx hrb hra
      omega
  · intro pre post x hsplit σ' hpre ⟨y, r, hy⟩ hjl
    obtain ⟨c, d, e, ho⟩ := hs.time pre post x hsplit σ' hpre i y r hy j (hs.all j _ _ hj) hjl
    have hki : order[c.length]? = some i := by rw [ho]; simp
    have hlj : order[c.length + 1 + d.length]? = some j := by
      rw [ho, List.append_assoc, List.getElem?_append_right (by omega)]
      rw [show c.length + 1 + d.length - c.length = d.length + 1 by omega]
      simp
    have hk' : k = c.length := by
      have h1 := (List.getElem?_eq_some_iff.mp hk)
      have h2 := (List.getElem?_eq_some_iff.mp hki)
      exact (List.getElem_inj hs.nodup).mp (h1.2.trans h2.2.symm)
    have hl' : l = c.length + 1 + d.length := by
      have h1 := (List.getElem?_eq_some_iff.mp hl)
      have h2 := (List.getElem?_eq_some_iff.mp hlj)
      exact (List.getElem_inj hs.nodup).mp (h1.2.trans h2.2.symm)
    exact hcount k l _ _ _ _ _ _ _ _ a b (by omega) hpx hqx hra hrb

/-! ## An execution -/

/-- The service of C79 with a counter, over all three transports. -/
def c81 : Setup Empty Nat Nat where
  L := { HTTPCall.c79Lib with writeResp := fun n => some (HTTP.itoa n), writeText := fun _ => [], readResp := fun _ _ => none }
  proto := ⟨"p".toList, "S".toList, ["Get".toList, "Put".toList]⟩
  s := HTTPCall.c79Svc
  svc := fun _ c _ => .ok (c.2, c.2 + 1)
  sctx := []
  nats := ⟨fun _ => [], fun t => if t = "{}".toList then some HTTPCall.c79Zero else none, HTTP.itoa, fun _ => none,
    fun _ => "{err}".toList⟩

/-- Four requests: three calls and one for a path nobody asked for. -/
def c81Events : List (Event Empty) :=
  [.arrives (.http ⟨"GET".toList, "/v1/7".toList, [], [], []⟩), .arrives (.grpc "/p.S/Put".toList [] [] HTTPCall.c79Zero),
   .starts 0, .starts 1, .arrives (.nats "S.Get".toList "{}".toList), .calls 1, .starts 2, .calls 2,
   .arrives (.http ⟨"GET".toList, "/v2".toList, [], [], []⟩), .starts 3, .answers 2, .calls 0, .answers 0, .answers 1]

/-- The execution is possible; the calls got 2, 0 and 1. -/
example : Counts c81 ∧ ((c81.s.methods.map (·.name)).map toLower).Nodup ∧
    ((run c81 ⟨[], 0⟩ c81Events).map fun σ => (σ.st, σ.threads.map fun t => match t.2 with
      | .answered (.http (.response r)) => some (r.code, r.body)
      | .answered (.grpc (.ok n)) => some (0, HTTP.itoa n)
      | .answered (.nats (some t)) => some (0, t)
      | _ => none)) =
    some (3, [some (200, "2".toList), some (0, "0".toList), some (0, "1".toList),
      some (404, "404 page not found\n".toList)]) := by
  refine ⟨fun _ _ _ => rfl, by decide +kernel, by decide +kernel⟩

end Baron.Concurrent
