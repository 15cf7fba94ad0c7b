import Verif.Proofs.GoHTTP

/-!
# Errors over HTTP: running the encoder and the decoders (C101)
-/

namespace Baron.GoHTTP

open Baron.HTTP (look)
open Baron.Runtime (Header MD Err ErrJSON headerGet headerSet canonical)

variable {M : Type}

/-- A value that answers like the error `e`. -/
structure Acts (w : World M) (k : Calls M) (v : Val M) (e : Err) : Prop where
  error : ∀ st, methodOf w k v (chars% "Error") [] st = .ok [.text e.msg] st
  marshaler : isA k v (chars% "json.Marshaler") = e.json.isSome
  json : ∀ b st, e.json = some (some b) → methodOf w k v (chars% "MarshalJSON") [] st = .ok [.text b, .nil] st
  bad : e.json = some none → ∃ e', ∀ st, methodOf w k v (chars% "MarshalJSON") [] st = .ok [.nil, .err e'] st
  headerer : isA k v (chars% "httptransport.Headerer") = e.headers.isSome
  headers : ∀ h st, e.headers = some h → methodOf w k v (chars% "Headers") [] st = .ok [.header h] st
  coder : isA k v (chars% "httptransport.StatusCoder") = e.status.isSome
  code : ∀ c st, e.status = some c → methodOf w k v (chars% "StatusCode") [] st = .ok [.num c] st

theorem acts_err (w : World M) (k : Calls M) (e : Err) : Acts w k (.err e) e where
  error st := rfl
  marshaler := rfl
  json b st h := by simp only [methodOf, errMethod, h]; rfl
  bad h := ⟨w.jsonErr e.msg, fun st => by simp only [methodOf, errMethod, h]; rfl⟩
  headerer := rfl
  headers h st hh := by simp only [methodOf, errMethod, hh]; rfl
  coder := rfl
  code c st h := by simp only [methodOf, errMethod, h]; rfl

theorem acts_http (w : World M) (s : Svcdef.Service) (n : Nat) (e : Err) (c : Nat) (h : Header) :
    Acts w (calls w (program s) (n + 1)) (httpErr e c h) ⟨e.msg, none, some h, some c⟩ where
  error st := by
    show structMethod _ _ _ _ _ _ _ = _
    rw [structMethod, has_false (by decide) (by decide +kernel)]
    rfl
  marshaler := by
    show Calls.has _ _ = _
    rw [has_false (by decide) (by decide +kernel)]
    rfl
  json b st := nofun
  bad := nofun
  headerer := by
    show Calls.has _ _ = _
    rw [has_true (by decide +kernel)]
    rfl
  headers h' st hh := by
    cases hh
    show structMethod _ _ _ _ _ _ _ = _
    rw [structMethod, has_true (by decide +kernel), if_pos rfl, call_helper (g := headers) (by rfl)]
    exact run_headers _ _ _ _ _ _
  coder := by
    show Calls.has _ _ = _
    rw [has_true (by decide +kernel)]
    rfl
  code c' st hc := by
    cases hc
    show structMethod _ _ _ _ _ _ _ = _
    rw [structMethod, has_true (by decide +kernel), if_pos rfl, call_helper (g := statusCode) (by rfl)]
    exact run_statusCode _ _ _ _ _ _

theorem method_writer (w : World M) (k : Calls M) (f : Str) (args : List (Val M)) (st : St M) : methodOf w k .writer f args st = writerMethod w f args st := rfl

theorem method_writerHeader (w : World M) (k : Calls M) (f : Str) (args : List (Val M)) (st : St M) :
    methodOf w k .writerHeader f args st = headerMethod .writerHeader f args st := rfl

theorem method_header (w : World M) (k : Calls M) (h : Header) (f : Str) (args : List (Val M)) (st : St M) :
    methodOf w k (.header h) f args st = headerMethod (.header h) f args st := rfl

/-- Copying one header. -/
def copyOne (all : Header) (h : Header) (p : Val M × Val M) : Header := match p.1 with
  | .text k => headerSet h k (headerGet all k)
  | _ => h

theorem copy_fold (all l : Header) (h : Header) :
    (l.map fun e => ((Val.text e.1 : Val M), (Val.strs e.2 : Val M))).foldl (copyOne all) h = Runtime.copyHeaders all l h := by
  induction l generalizing h with
  | nil => rfl
  | cons e l ih => exact ih _

/-- The end of the encoder. -/
def lastPart : Code :=
    .define (chars% "\n\t") [chars% "code"] (var (chars% "http.StatusInternalServerError")) <|
    .ifDefine (chars% "\n\t") [chars% "sc", chars% "ok"] (.test (var (chars% "err")) (chars% "httptransport.StatusCoder")) (var (chars% "ok"))
      (.assign (chars% "\n\t\t") [chars% "code"] (.method (var (chars% "sc")) (chars% "StatusCode") (args [])) <|
      .done (chars% "\n\t")) <|
    .run (chars% "\n\t") (.method (var (chars% "w")) (chars% "WriteHeader") (args [var (chars% "code")])) <|
    .run (chars% "\n\t") (.method (var (chars% "w")) (chars% "Write") (args [var (chars% "body")])) <|
    .done (chars% "\n")

/-- The loop over the headers of the error. -/
def copyPart : Code :=
  .run (chars% "\n\t\t\t") (.method (.method (var (chars% "w")) (chars% "Header") (args [])) (chars% "Set")
    (args [var (chars% "k"), .method (.method (var (chars% "headerer")) (chars% "Headers") (args [])) (chars% "Get") (args [var (chars% "k")])])) <|
  .done (chars% "\n\t\t")

def middlePart : Code :=
    .run (chars% "\n\t") (.method (.method (var (chars% "w")) (chars% "Header") (args [])) (chars% "Set") (args [.text (chars% "Content-Type"), var (chars% "contentType")])) <|
    .ifDefine (chars% "\n\t") [chars% "headerer", chars% "ok"] (.test (var (chars% "err")) (chars% "httptransport.Headerer")) (var (chars% "ok"))
      (.forRange (chars% "\n\t\t") [chars% "k"] (.method (var (chars% "headerer")) (chars% "Headers") (args [])) copyPart <|
      .done (chars% "\n\t")) <|
    lastPart

/-- The status the encoder sends. -/
def codeOf (e : Err) : Nat := match e.status with
  | some c => c
  | none => 500

/-- The body the encoder writes. -/
def bodyOf (w : World M) (e : Err) : Str := match e.json with
  | some (some b) => b
  | _ => w.json.enc e.msg

/-- The headers the encoder sends. -/
def headerOf (e : Err) (h0 : Header) : Header := match e.headers with
  | some hs => Runtime.copyHeaders hs hs (headerSet h0 (chars% "Content-Type") Runtime.contentType)
  | none => headerSet h0 (chars% "Content-Type") Runtime.contentType

section
variable {w : World M} {k : Calls M} {v : Val M} {e : Err} (A : Acts w k v e)
include A

theorem run_last (st : St M) (b : Str) (hs : st.sent = none)
    (hv : st.vars = [(chars% "body", .text b), (chars% "w", .writer), (chars% "err", v)]) :
    (¬ (codeOf e < 100 ∨ 999 < codeOf e) → ∃ vs, lastPart.exec w k st = .ok none { st with vars := vs, sent := some (codeOf e, st.header), out := st.out ++ b }) ∧
    ((codeOf e < 100 ∨ 999 < codeOf e) → ∃ vs, lastPart.exec w k st = .panic { st with vars := vs }) := by
  obtain ⟨vars, hd, sent, out, rh, md, urls, closed⟩ := st
  simp only at hv hs
  subst hv hs
  unfold lastPart codeOf
  have hA := A.coder
  have hc := A.code
  cases hst : e.status with
  | none =>
    rw [hst] at hA
    simp only [Option.isSome_none] at hA
    refine ⟨fun _ => ?_, fun h => by simp only at h; omega⟩
    refine ⟨[(chars% "code", .num 500), (chars% "body", .text b), (chars% "w", .writer), (chars% "err", v)], ?_⟩
    go [hA, Bool.false_eq_true, methodOf, writerMethod]
    rfl
  | some c =>
    rw [hst] at hA
    simp only [Option.isSome_some] at hA
    refine ⟨fun h => ⟨[(chars% "code", .num c), (chars% "body", .text b), (chars% "w", .writer), (chars% "err", v)], ?_⟩,
      fun h => ⟨[(chars% "code", .num c), (chars% "body", .text b), (chars% "w", .writer), (chars% "err", v)], ?_⟩⟩
    · go [hA, hc c _ hst]
      go [methodOf, writerMethod, h]
    · go [hA, hc c _ hst]
      go [methodOf, writerMethod, h]

theorem run_middle (st : St M) (b : Str) (hs : st.sent = none)
    (hv : st.vars = [(chars% "body", .text b), (chars% "w", .writer), (chars% "err", v)]) :
    middlePart.exec w k st = lastPart.exec w k { st with header := headerOf e st.header } := by
  obtain ⟨vars, hd, sent, out, rh, md, urls, closed⟩ := st
  simp only at hv hs
  subst hv hs
  unfold middlePart headerOf
  have hA := A.headerer
  have hc := A.headers
  cases hst : e.headers with
  | none =>
    rw [hst] at hA
    simp only [Option.isSome_none] at hA
    go [hA, Bool.false_eq_true, methodOf, writerMethod, headerMethod, setHeader]
  | some hs =>
    rw [hst] at hA
    simp only [Option.isSome_some] at hA
    go [hA, hc hs _ hst, rangeOf, headersOf, method_writer, method_writerHeader, writerMethod, headerMethod, setHeader]
    rw [each_fold (fun x : Header => { vars := [(chars% "ok", .bool true), (chars% "headerer", v), (chars% "body", .text b), (chars% "w", .writer), (chars% "err", v)], header := x, sent := none, out := out, reqHeader := rh, md := md, urls := urls, closed := closed })
      (copyOne hs), copy_fold]
    · go []
    · intro p hp x
      obtain ⟨e, -, rfl⟩ := List.mem_map.mp hp
      go [bound, copyPart, hc hs _ hst, method_writer, method_writerHeader, method_header, writerMethod, headerMethod, setHeader, headersOf, copyOne]

end

theorem run_errorEncoder {w : World M} {s : Svcdef.Service} {n : Nat} {v : Val M} {e : Err} (A : Acts w (calls w (program s) n) v e) (st : St M) (c : Val M)
    (hs : st.sent = none) :
    (¬ (codeOf e < 100 ∨ 999 < codeOf e) → errorEncoder.run w (calls w (program s) n) [c, v, .writer] st =
      .ok [] { st with header := headerOf e st.header, sent := some (codeOf e, headerOf e st.header), out := st.out ++ bodyOf w e }) ∧
    ((codeOf e < 100 ∨ 999 < codeOf e) → errorEncoder.run w (calls w (program s) n) [c, v, .writer] st =
      .panic { st with header := headerOf e st.header }) := by
  have start : errorEncoder.body.exec w (calls w (program s) n) { st with vars := [(chars% "w", .writer), (chars% "err", v)] } =
      middlePart.exec w (calls w (program s) n) { st with vars := [(chars% "body", .text (bodyOf w e)), (chars% "w", .writer), (chars% "err", v)] } := by
    have hE := A.error
    have hA := A.marshaler
    unfold errorEncoder bodyOf
    match hj : e.json with
    | none =>
      rw [hj] at hA
      simp only [Option.isSome_none] at hA
      go [hE, hA, Bool.false_eq_true]
      rfl
    | some none =>
      rw [hj] at hA
      simp only [Option.isSome_some] at hA
      obtain ⟨e', hb⟩ := A.bad hj
      go [hE, hA, hb, binOf]
      rfl
    | some (some b) =>
      rw [hj] at hA
      simp only [Option.isSome_some] at hA
      go [hE, hA, A.json b _ hj, binOf]
      rfl
  have run : errorEncoder.run w (calls w (program s) n) [c, v, .writer] st = match errorEncoder.body.exec w (calls w (program s) n)
      { st with vars := [(chars% "w", .writer), (chars% "err", v)] } with
    | .ok r st' => .ok (r.getD []) { st' with vars := st.vars }
    | .panic st' => .panic { st' with vars := st.vars }
    | .stuck => .stuck := rfl
  rw [run, start, run_middle A { st with vars := [(chars% "body", .text (bodyOf w e)), (chars% "w", .writer), (chars% "err", v)] } (bodyOf w e) hs rfl]
  obtain ⟨h1, h2⟩ := run_last A { st with vars := [(chars% "body", .text (bodyOf w e)), (chars% "w", .writer), (chars% "err", v)], header := headerOf e st.header } (bodyOf w e) hs rfl
  refine ⟨fun h => ?_, fun h => ?_⟩
  · obtain ⟨vs, h1⟩ := h1 h
    rw [h1]
    rfl
  · obtain ⟨vs, h2⟩ := h2 h
    rw [h2]

/-! ## Responses -/

theorem call_decoder {w : World M} {s : Svcdef.Service} {n : Nat} {st : St M} {buf : Str} :
    callOf w (calls w (program s) (n + 1)) (chars% "errorDecoder") [.text buf] st = .ok [.err (plain (Runtime.errorDecoder w.json buf))] st := by
  rw [callOf, has_true (by decide +kernel), if_pos rfl, call_helper (g := errorDecoder) (by rfl)]
  exact run_errorDecoder _ _ _ _ _

theorem format_status (c : Nat) : format (chars% "status code: '%d'") [(.num c : Val M)] = some (chars% "status code: '" ++ (HTTP.itoa c ++ chars% "'")) := by
  simp only [format, verb, Char.reduceEq, if_false, Option.map_some, reduceIte, Option.some.injEq, List.isEmpty_nil, Bool.not_true, Bool.false_eq_true, or_self]
  rfl

/-- What the decoder of a response returns. -/
def answerOf (w : World M) (t : Str) : List (Val M) := match w.body.2 with
  | .eof => [.nil, .err (plain (chars% "response http body empty"))]
  | .failed e => [.nil, .err (plain (chars% "cannot read http body" ++ (chars% ": " ++ e.msg)))]
  | .complete =>
    if w.status = 200 then match (w.readProto readOptions t w.body.1 (w.empty t)).2 with
      | none => [.msg t (w.readProto readOptions t w.body.1 (w.empty t)).1, .nil]
      | some _ => [.nil, .err (plain (Runtime.errorDecoder w.json w.body.1))]
    else [.nil, .err (plain ((chars% "status code: '" ++ (HTTP.itoa w.status ++ chars% "'")) ++ (chars% ": " ++ Runtime.errorDecoder w.json w.body.1)))]

/-- A type that is not one of the others. -/
def MessageType (t : Str) : Prop := t ≠ chars% "[]string" ∧ t ≠ chars% "errorWrapper"

theorem run_decodeResponse (w : World M) (s : Svcdef.Service) (n : Nat) (st : St M) (m t : Str) (c : Val M) (ht : MessageType t) :
    (decodeResponse m t).run w (calls w (program s) (n + 1)) [c, .response] st = .ok (answerOf w t) { st with closed := true } := by
  unfold Func.run runBody decodeResponse answerOf
  cases hb : w.body.2 with
  | eof => go [finish, methodOf, fieldOf, hb, binOf]
  | failed e => go [finish, methodOf, fieldOf, hb, binOf]
  | complete =>
    by_cases hs : w.status = 200
    · cases hr : (w.readProto readOptions t w.body.1 (w.empty t)).2 with
      | none =>
        unfold readOptions at hr
        go [finish, methodOf, fieldOf, hb, binOf, hs, bne_self_eq_false, zeroOf, ht.1, ht.2, readArgs, intoOf, optionsOf, readOptions, hr, ofErr, addrOf]
      | some e =>
        unfold readOptions at hr
        go [finish, methodOf, fieldOf, hb, binOf, hs, bne_self_eq_false, zeroOf, ht.1, ht.2, readArgs, intoOf, optionsOf, readOptions, hr, ofErr, call_decoder]
    · have hne : (w.status != 200) = true := by simp [hs]
      go [finish, methodOf, fieldOf, hb, binOf, hs, hne, call_decoder, lib_wrapf (format_status _), plain, List.append_assoc]

end Baron.GoHTTP
