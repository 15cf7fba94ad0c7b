import Verif.Model.GoDecode
import Verif.Proofs.GoHTTPErr

/-!
# Running the decoders of requests (C103)
-/

namespace Baron.GoDecode

open Baron.HTTP (look)
open Baron.GoHTTP
open Baron.HTTPCode (FullMsg)
open Baron.Runtime (Err)

variable {M : Type}

theorem lib_vars {w : World M} {s : Svcdef.Service} {n : Nat} {st : St M} :
    callOf w (calls w (program s) n) (chars% "mux.Vars") [.request] st = .ok [.lib (chars% "mux.Vars") []] st :=
  lib_call (by decide) (by decide +kernel)

theorem format_body (x : Str) : format (chars% "request body '%s': cannot parse non-json request body") [(.text x : Val M)] =
    some (chars% "request body '" ++ (x ++ chars% "': cannot parse non-json request body")) := by
  simp only [format, verb, Char.reduceEq, if_false, Option.map_some, reduceIte, Option.some.injEq, List.isEmpty_nil, Bool.not_true, Bool.false_eq_true, or_self]
  rfl

theorem format_read : format (chars% "cannot read body of http request") ([] : List (Val M)) = some (chars% "cannot read body of http request") := rfl

/-- The error for a body that is not read. -/
def refusal (body : Str) (e : Err) : Val M :=
  .struct (chars% "httpError") [(chars% "error", .err (plain ((chars% "request body '" ++ (body.take 8196 ++ chars% "': cannot parse non-json request body")) ++ (chars% ": " ++ e.msg)))),
    (chars% "statusCode", .num 400), (chars% "headers", .header [])]

/-- The variables after the body has been read into `x`. -/
def readVars (t : Str) (body : Str) (x : M) : Vars M :=
  [(chars% "queryParams", .lib (chars% "url.Query") []), (chars% "pathParams", .lib (chars% "mux.Vars") []), (chars% "err", .nil), (chars% "buf", .text body),
    (chars% "req", .msg t x), (chars% "r", .request)]

theorem run_readRequest (w : World M) (s : Svcdef.Service) (n : Nat) (st : St M) (t : Str) (ht : MessageType t) (h : st.vars = [(chars% "r", .request)]) :
    (∀ e, w.body.2 = .failed e → ∃ vars, (readRequest t).exec w (calls w (program s) (n + 1)) st =
      .ok (some [.nil, .err (plain (chars% "cannot read body of http request" ++ (chars% ": " ++ e.msg)))]) { st with vars := vars, closed := true }) ∧
    (w.body.2 = .complete → w.body.1 = [] → (readRequest t).exec w (calls w (program s) (n + 1)) st =
      .ok none { st with vars := readVars t w.body.1 (w.empty t), closed := true }) ∧
    (w.body.2 = .complete → w.body.1 ≠ [] → match (w.readProto readOptions t w.body.1 (w.empty t)).2 with
      | some e => ∃ vars, (readRequest t).exec w (calls w (program s) (n + 1)) st = .ok (some [.nil, refusal w.body.1 e]) { st with vars := vars, closed := true }
      | none => (readRequest t).exec w (calls w (program s) (n + 1)) st =
          .ok none { st with vars := readVars t w.body.1 (w.readProto readOptions t w.body.1 (w.empty t)).1, closed := true }) := by
  obtain ⟨v, hd, se, o, rh, md, us, cl⟩ := st
  simp only at h
  subst h
  unfold readRequest readVars
  refine ⟨fun e hb => ⟨[(chars% "err", .err e), (chars% "buf", .text w.body.1), (chars% "req", .msg t (w.empty t)), (chars% "r", .request)], ?_⟩, fun hb he => ?_, fun hb he => ?_⟩
  · go [finish, methodOf, fieldOf, hb, binOf, zeroOf, ht.1, ht.2, lib_wrapf format_read]
  · have h0 : decide (0 < w.body.1.length) = false := by rw [he]; rfl
    go [finish, methodOf, fieldOf, hb, binOf, zeroOf, ht.1, ht.2, h0, lib_vars]
  · have h0 : decide (0 < w.body.1.length) = true := decide_eq_true (List.length_pos_iff.mpr he)
    cases hr : (w.readProto readOptions t w.body.1 (w.empty t)).2 with
    | none =>
      unfold readOptions at hr
      go [finish, methodOf, fieldOf, hb, binOf, zeroOf, ht.1, ht.2, h0, lib_vars, readArgs, intoOf, optionsOf, readOptions, hr, ofErr]
    | some e =>
      unfold readOptions at hr
      unfold badRequest
      by_cases hl : 8196 < w.body.1.length
      · go [finish, methodOf, fieldOf, hb, binOf, zeroOf, ht.1, ht.2, h0, lib_vars, readArgs, intoOf, optionsOf, readOptions, hr, ofErr, hl, decide_true, cutOf, Nat.le_of_lt hl, lib_wrapf (format_body _), structOf]
        exact ⟨_, rfl⟩
      · go [finish, methodOf, fieldOf, hb, binOf, zeroOf, ht.1, ht.2, h0, lib_vars, readArgs, intoOf, optionsOf, readOptions, hr, ofErr, hl, decide_false, cutOf, lib_wrapf (format_body _), structOf]
        unfold refusal
        rw [List.take_of_length_le (Nat.le_of_not_lt hl)]
        exact ⟨_, rfl⟩

end Baron.GoDecode
