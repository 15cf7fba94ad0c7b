import Verif.Model.Concurrent

/-!
# Specification for C81: requests under way at the same time

A server that handles one request at a time, from the models of the single transports, and what it means that requests that
are handled at the same time are answered as if they had been handled one after the other.
-/

namespace Baron.Concurrent

open Baron.HTTPCode (FullMsg)
open Baron.Runtime (Ctx Err)
open Baron.HTTPCall (serveHTTP)
open Baron.Transport (newEndpoints grpcServer grpcServe CallErr)

variable {F S R : Type}

/-- The gRPC server alone, with the implementation's state: C52's model, on endpoints that carry the state along. -/
def grpcAlone (u : Setup F S R) (path : Str) (ctx md : Ctx) (msg : FullMsg F) (st : S) : Reply R × S :=
  let methods := u.s.methods.map (·.name)
  match grpcServe u.proto (grpcServer (fun c => (md ++ c.1, c.2)) (newEndpoints u.svc methods) methods) path (ctx, st) msg with
  | .ok (r, st') => (.grpc (.ok r), st')
  | .error (.app (e, st')) => (.grpc (.error (.app e)), st')
  | .error .unimplemented => (.grpc (.error .unimplemented), st)
  | .error .noEndpoint => (.grpc (.error .noEndpoint), st)

/-- A NATS subscriber alone (C53): a message on the subject `SERVICE.METHOD` of a method is decoded, the method is run, and
its response or error is the reply. -/
def natsAlone (u : Setup F S R) (subject text : Str) (st : S) : Reply R × S :=
  match u.s.methods.find? fun m => subject = u.s.name ++ ".".toList ++ m.name with
  | none => (.nats none, st)
  | some m => match u.nats.decQ text with
    | none => (.nats (some (u.nats.errBody none)), st)
    | some msg => match u.svc m.name (u.sctx, st) msg with
      | .ok (r, st') => (.nats (some (u.nats.encR r)), st')
      | .error (e, st') => (.nats (some (u.nats.errBody (some e))), st')

/-- One request, alone: the reply and the implementation's state afterwards. -/
def alone (u : Setup F S R) (x : Incoming F) (st : S) : Reply R × S := match x with
  | .http q => ((serveHTTP u.L u.s u.svc u.sctx q st).1 |> .http, (serveHTTP u.L u.s u.svc u.sctx q st).2)
  | .grpc path ctx md msg => grpcAlone u path ctx md msg st
  | .nats subject text => natsAlone u subject text st

/-- Requests handled one after the other: each is answered as if alone, in the state its predecessors left. -/
inductive OneByOne (u : Setup F S R) : S → List (Incoming F) → List (Reply R) → S → Prop where
  | nil (st : S) : OneByOne u st [] [] st
  | cons {st st' st'' : S} {x : Incoming F} {r : Reply R} {xs : List (Incoming F)} {rs : List (Reply R)} :
    alone u x st = (r, st') → OneByOne u st' xs rs st'' → OneByOne u st (x :: xs) (r :: rs) st''

/-- `i` comes before `j` in a list. -/
def Before (l : List Nat) (i j : Nat) : Prop := ∃ a b c, l = a ++ i :: b ++ j :: c

/-- The requests of an execution, in the order of their arrival. -/
def arrivals : List (Event F) → List (Incoming F)
  | [] => []
  | .arrives x :: es => x :: arrivals es
  | _ :: es => arrivals es

/-- An execution is as if its requests had been handled one by one in this order: those that were answered are all among
them, none twice, they got the replies they would have got, and a request that was answered before another arrived is handled
before it. A request in the order that was not yet answered was already given to the implementation. -/
structure Serializes (u : Setup F S R) (st₀ : S) (evs : List (Event F)) (σ : State F S R) (order : List Nat) : Prop where
  nodup : order.Nodup
  all : ∀ (i : Nat) (x : Incoming F) (r : Reply R), σ.threads[i]? = some (x, .answered r) → i ∈ order
  serial : ∃ xs rs, OneByOne u st₀ xs rs σ.st ∧ xs.length = order.length ∧ ∀ (k i : Nat), order[k]? = some i →
    ∃ ph, σ.threads[i]? = some (ph) ∧ xs[k]? = some ph.1 ∧ (arrivals evs)[i]? = some ph.1 ∧
      ∀ r, ph.2 = .answered r → rs[k]? = some r
  time : ∀ (pre post : List (Event F)) (x : Incoming F), evs = pre ++ .arrives x :: post → ∀ σ', run u ⟨[], st₀⟩ pre = some σ' →
    ∀ (i : Nat) (y : Incoming F) (r : Reply R), σ'.threads[i]? = some (y, .answered r) →
      ∀ j ∈ order, j = (arrivals pre).length → Before order i j

end Baron.Concurrent
