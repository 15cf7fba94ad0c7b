import Verif.Spec.GoHTTP

/-!
# Running the helpers for HTTP and gRPC (C101)
-/

namespace Baron.GoHTTP

open Baron.HTTP (look)
open Baron.Runtime (Header MD Err ErrJSON headerGet headerSet canonical)

variable {M : Type}

/-! ## Calls -/

theorem any_false {s : Svcdef.Service} {f : Str} (hf : f.head? ≠ some 'D') (h : (helpers ++ grpcHelpers).any (·.key = f) = false) :
    (program s).any (·.key = f) = false := by
  rw [program, List.any_append, h, Bool.false_or, List.any_eq_false]
  intro g hg
  obtain ⟨m, -, rfl⟩ := List.mem_map.mp hg
  rw [decide_eq_true_eq]
  rintro rfl
  exact hf rfl

theorem any_true {s : Svcdef.Service} {f : Str} (h : (helpers ++ grpcHelpers).any (·.key = f) = true) :
    (program s).any (·.key = f) = true := by
  rw [program, List.any_append, h, Bool.true_or]

theorem has_eq (w : World M) (p : List Func) (n : Nat) (f : Str) : (calls w p n).has f = p.any (·.key = f) := by
  cases n <;> rfl

theorem has_false {w : World M} {s : Svcdef.Service} {n : Nat} {f : Str} (hf : f.head? ≠ some 'D')
    (h : (helpers ++ grpcHelpers).any (·.key = f) = false) : (calls w (program s) n).has f = false := by
  rw [has_eq]
  exact any_false hf h

theorem has_true {w : World M} {s : Svcdef.Service} {n : Nat} {f : Str}
    (h : (helpers ++ grpcHelpers).any (·.key = f) = true) : (calls w (program s) n).has f = true := by
  rw [has_eq]
  exact any_true h

theorem lib_call {w : World M} {s : Svcdef.Service} {n : Nat} {f : Str} {args : List (Val M)} {st : St M} (hf : f.head? ≠ some 'D')
    (h : (helpers ++ grpcHelpers).any (·.key = f) = false) : callOf w (calls w (program s) n) f args st = libCall w f args st := by
  rw [callOf, has_false hf h]
  rfl

theorem find_helper {s : Svcdef.Service} {f : Str} {g : Func} (h : (helpers ++ grpcHelpers).find? (·.key = f) = some g) :
    (program s).find? (·.key = f) = some g := by
  rw [program, List.find?_append, h]
  rfl

theorem call_helper {w : World M} {s : Svcdef.Service} {n : Nat} {f : Str} {g : Func} {args : List (Val M)} {st : St M}
    (h : (helpers ++ grpcHelpers).find? (·.key = f) = some g) : (calls w (program s) (n + 1)).call f args st = g.run w (calls w (program s) n) args st := by
  simp only [calls]
  rw [find_helper h]

/-! ## Evaluation -/

theorem look_cons_eq {α : Type} (x : Str) (v : α) (l : List (Str × α)) : look ((x, v) :: l) x = some v := by simp [look]

theorem look_cons_ne {α : Type} {x y : Str} (v : α) (l : List (Str × α)) (h : (y = x) = False) : look ((y, v) :: l) x = look l x := by
  simp [look, h]

theorem look_nil {α : Type} (x : Str) : look ([] : List (Str × α)) x = none := rfl

section
variable {w : World M} {s : Svcdef.Service} {n : Nat} {st : St M}

local notation "k!" => calls w (program s) n

theorem lib_withValue {c : Ctx} {x v : Str} : callOf w k! (chars% "context.WithValue") [.ctx c, .text x, .text v] st = .ok [.ctx ((x, some v) :: c)] st :=
  lib_call (by decide) (by decide +kernel)

theorem lib_canonical {x : Str} : callOf w k! (chars% "http.CanonicalHeaderKey") [.text x] st = .ok [.text (canonical x)] st :=
  lib_call (by decide) (by decide +kernel)

theorem lib_toLower {x : Str} : callOf w k! (chars% "strings.ToLower") [.text x] st = .ok [.text (toLower x)] st :=
  lib_call (by decide) (by decide +kernel)

theorem lib_marshal {x : Str} : callOf w k! (chars% "json.Marshal") [.struct (chars% "errorWrapper") [(chars% "Error", .text x)]] st = .ok [.text (w.json.enc x), .nil] st :=
  lib_call (by decide) (by decide +kernel)

theorem lib_len {x : Str} : callOf w k! (chars% "len") [.text x] st = .ok [.num x.length] st :=
  lib_call (by decide) (by decide +kernel)

theorem lib_append_nil {x y : Str} : callOf w k! (chars% "append") [.nil, .text x, .text y] st = .ok [.strs [x, y]] st :=
  lib_call (by decide) (by decide +kernel)

theorem lib_append {l : List Str} {x y : Str} : callOf w k! (chars% "append") [.strs l, .text x, .text y] st = .ok [.strs (l ++ [x, y])] st :=
  lib_call (by decide) (by decide +kernel)

theorem lib_pairs {l : List Str} {m : MD} (h : pairsGo l [] = some m) : callOf w k! (chars% "metadata.Pairs") [.strs l] st = .ok [.md m] st := by
  rw [lib_call (by decide) (by decide +kernel)]
  show (match pairsGo l [] with | some m => Ans.ok [Val.md m] st | none => Ans.panic st) = _
  rw [h]

theorem lib_join {a b : MD} : callOf w k! (chars% "metadata.Join") [.md a, .md b] st = .ok [.md (join a b)] st :=
  lib_call (by decide) (by decide +kernel)

theorem lib_new {x : Str} : callOf w k! (chars% "errors.New") [.text x] st = .ok [.err (plain x)] st :=
  lib_call (by decide) (by decide +kernel)

theorem lib_wrap {e : Err} {x : Str} : callOf w k! (chars% "errors.Wrap") [.err e, .text x] st = .ok [.err (plain (x ++ (chars% ": " ++ e.msg)))] st :=
  lib_call (by decide) (by decide +kernel)

theorem lib_errorf {x y : Str} {l : List (Val M)} (h : format x l = some y) : callOf w k! (chars% "fmt.Errorf") (.text x :: l) st = .ok [.err (plain y)] st := by
  rw [lib_call (by decide) (by decide +kernel)]
  show (match format x l with | some t => Ans.ok [Val.err (plain t)] st | none => Ans.stuck) = _
  rw [h]

theorem lib_wrapf {e : Err} {x y : Str} {l : List (Val M)} (h : format x l = some y) :
    callOf w k! (chars% "errors.Wrapf") (.err e :: .text x :: l) st = .ok [.err (plain (y ++ (chars% ": " ++ e.msg)))] st := by
  rw [lib_call (by decide) (by decide +kernel)]
  show (match asErr (Val.err (M := M) e), format x l with | some e, some t => Ans.ok [Val.err (plain (t ++ (chars% ": " ++ e.msg)))] st | _, _ => Ans.stuck) = _
  rw [h]
  rfl

theorem lib_readAll : callOf w k! (chars% "ioutil.ReadAll") [.respBody] st =
    .ok [.text w.body.1, match w.body.2 with | .complete => .nil | .eof => .eof | .failed e => .err e] st :=
  lib_call (by decide) (by decide +kernel)

theorem lib_before {v : Val M} : callOf w k! (chars% "httptransport.ClientBefore") [v] st = .ok [.lib (chars% "httptransport.ClientBefore") [v]] st :=
  lib_call (by decide) (by decide +kernel)

end

/-- Evaluates. -/
macro "go" "[" ls:Lean.Parser.Tactic.simpLemma,* "]" : tactic =>
  `(tactic| simp only [List.map_cons, List.map_nil, Option.toList, List.nil_append, List.cons_append, defVars, setVars, Code.exec, Expr.eval, Args.eval, Args.fields, args, var, ident, look_cons_eq, look_cons_ne, look_nil,
      Option.bind, some?, Ans.bind, Ans.next, St.put, setVar, one, branch, leave, List.cons.injEq, Char.reduceEq, reduceCtorEq, false_and, and_false, and_true, true_and, if_false, if_true, reduceIte, ite_true, ite_false,
      Option.map_some, Option.map_none, Option.getD_some, Option.getD_none, List.length_cons, List.length_nil, List.drop_succ_cons, List.drop_zero, Nat.reduceAdd, Nat.reduceSub, Option.some.injEq,
      lib_withValue, lib_canonical, lib_toLower, lib_marshal, lib_len, lib_append_nil, lib_append, lib_join, lib_new, lib_wrap, lib_readAll, lib_before, $ls,*])

/-- Evaluates in a hypothesis. -/
macro "go_at" h:ident "[" ls:Lean.Parser.Tactic.simpLemma,* "]" : tactic =>
  `(tactic| simp only [List.map_cons, List.map_nil, Option.toList, List.nil_append, List.cons_append, defVars, setVars, Code.exec, Expr.eval, Args.eval, Args.fields, args, var, ident, look_cons_eq, look_cons_ne, look_nil,
      Option.bind, some?, Ans.bind, Ans.next, St.put, setVar, one, branch, leave, List.cons.injEq, Char.reduceEq, reduceCtorEq, false_and, and_false, and_true, true_and, if_false, if_true, reduceIte, ite_true, ite_false,
      Option.map_some, Option.map_none, Option.getD_some, Option.getD_none, List.length_cons, List.length_nil, List.drop_succ_cons, List.drop_zero, Nat.reduceAdd, Nat.reduceSub, Option.some.injEq,
      lib_withValue, lib_canonical, lib_toLower, lib_marshal, lib_len, lib_append_nil, lib_append, lib_join, lib_new, lib_wrap, lib_readAll, lib_before, $ls,*] at $h:ident)

/-! ## Loops -/

theorem each_fold {α σ : Type} {F : α → St M → Ans M (Option (List (Val M)))} (mk : σ → St M) (step : σ → α → σ) {l : List α}
    (h : ∀ a ∈ l, ∀ x, F a (mk x) = .ok none (mk (step x a))) (x : σ) : each F l (mk x) = .ok none (mk (l.foldl step x)) := by
  induction l generalizing x with
  | nil => rfl
  | cons a l ih =>
    rw [each, h a List.mem_cons_self]
    exact ih (fun b hb => h b (List.mem_cons_of_mem _ hb)) _

/-- One round of a loop. -/
def round (w : World M) (k : Calls M) (xs : List Str) (b : Code) (n : Nat) (p : Val M × Val M) (st : St M) : Ans M (Option (List (Val M))) :=
  leave n ((st.put (defVars xs (bound xs p) st.vars)).bind fun _ st => b.exec w k st)

theorem exec_range {w : World M} {k : Calls M} {ws : Str} {xs : List Str} {e : Expr} {b r : Code} {st : St M} {v : Val M} {l : List (Val M × Val M)}
    (he : e.eval w k st = .ok [v] st) (hl : rangeOf st v = some l) :
    (Code.forRange ws xs e b r).exec w k st = (each (round w k xs b st.vars.length) l st).next (r.exec w k) := by
  simp only [Code.exec, he, Ans.bind, one, some?, hl]
  rfl

/-! ## The functions -/

theorem run_copyURL (w : World M) (k : Calls M) (st : St M) (i : Nat) (u : URL) (p : Str) (h : st.urls[i]? = some u) :
    copyURL.run w k [.urlPtr i, .text p] st = .ok [.urlPtr st.urls.length] { st with urls := st.urls ++ [{ u with path := p }] } := by
  unfold Func.run runBody copyURL
  go [starOf, setFieldOf, addrOf, h]

theorem format_decoder (buf : Str) : format (chars% "response body '%s': cannot parse non-json request body") [(.text buf : Val M)] =
    some ("response body '".toList ++ buf ++ "': cannot parse non-json request body".toList) := by
  simp only [format, verb, Char.reduceEq, if_false, Option.map_some, reduceIte, Option.some.injEq, List.isEmpty_nil, Bool.not_true, Bool.false_eq_true, or_self]
  rfl

theorem run_errorDecoder (w : World M) (s : Svcdef.Service) (n : Nat) (st : St M) (buf : Str) :
    errorDecoder.run w (calls w (program s) n) [.text buf] st = .ok [.err (plain (Runtime.errorDecoder w.json buf))] st := by
  unfold Func.run runBody errorDecoder Runtime.errorDecoder
  cases hd : w.json.dec buf with
  | some m => go [zeroOf, intoOf, hd, binOf, fieldOf]
  | none =>
    by_cases hl : 8196 < buf.length
    · go [zeroOf, intoOf, hd, binOf, hl, decide_true, cutOf, Nat.le_of_lt hl, lib_errorf (format_decoder _)]
    · rw [List.take_of_length_le (Nat.le_of_not_lt hl)]
      go [zeroOf, intoOf, hd, binOf, hl, decide_false, cutOf, lib_errorf (format_decoder _)]

theorem run_statusCode (w : World M) (k : Calls M) (st : St M) (e : Val M) (c : Nat) (h : Val M) :
    statusCode.run w k [.struct (chars% "httpError") [(chars% "error", e), (chars% "statusCode", .num c), (chars% "headers", h)]] st = .ok [.num c] st := by
  unfold Func.run runBody statusCode
  go [fieldOf]

theorem run_headers (w : World M) (k : Calls M) (st : St M) (e : Val M) (c : Nat) (h : Val M) :
    headers.run w k [.struct (chars% "httpError") [(chars% "error", e), (chars% "statusCode", .num c), (chars% "headers", h)]] st = .ok [h] st := by
  unfold Func.run runBody headers
  go [fieldOf]

/-- A context of strings only. -/
def lift (c : Runtime.Ctx) : Ctx := c.map fun e => (e.1, some e.2)

/-- The strings in a context: a value that is not a string hides the older ones under its key. -/
def strings : Ctx → Runtime.Ctx
  | [] => []
  | (x, some v) :: c => (x, v) :: strings c
  | (x, none) :: c => (strings c).filter (·.1 ≠ x)

theorem look_filter_ne {α : Type} {x y : Str} (h : x ≠ y) (l : List (Str × α)) : look (l.filter (·.1 ≠ y)) x = look l x := by
  induction l with
  | nil => rfl
  | cons e l ih =>
    obtain ⟨z, v⟩ := e
    by_cases hz : z = x
    · subst hz
      rw [List.filter_cons_of_pos (by simpa using h), look_cons_eq, look_cons_eq]
    · rw [look_cons_ne _ _ (eq_false hz)]
      by_cases hy : z = y
      · rw [List.filter_cons_of_neg (by simpa using hy), ih]
      · rw [List.filter_cons_of_pos (by simpa using hy), look_cons_ne _ _ (eq_false hz), ih]

theorem look_filter_self {α : Type} (y : Str) (l : List (Str × α)) : look (l.filter (·.1 ≠ y)) y = none := by
  induction l with
  | nil => rfl
  | cons e l ih =>
    obtain ⟨z, v⟩ := e
    by_cases hy : z = y
    · rw [List.filter_cons_of_neg (by simpa using hy), ih]
    · rw [List.filter_cons_of_pos (by simpa using hy), look_cons_ne _ _ (eq_false hy), ih]

theorem look_strings (c : Ctx) (x : Str) : look (strings c) x = (look c x).bind id := by
  induction c with
  | nil => rfl
  | cons e c ih =>
    obtain ⟨y, v⟩ := e
    by_cases hy : y = x
    · subst hy
      cases v with
      | none => rw [strings, look_filter_self, look_cons_eq]; rfl
      | some v => rw [strings, look_cons_eq, look_cons_eq]; rfl
    · cases v with
      | none => rw [strings, look_filter_ne (Ne.symm hy), look_cons_ne _ _ (eq_false hy), ih]
      | some v => rw [strings, look_cons_ne _ _ (eq_false hy), look_cons_ne _ _ (eq_false hy), ih]

theorem has_marshal {w : World M} {s : Svcdef.Service} {n : Nat} : (calls w (program s) n).has (chars% "protojson.MarshalOptions.Marshal") = false :=
  has_false (by decide) (by decide +kernel)

theorem run_encodeResponse_err (w : World M) (s : Svcdef.Service) (n : Nat) (st : St M) (c : Val M) (t : Str) (m : M) (e : Err)
    (h : w.writeProto [(chars% "AllowPartial", true), (chars% "UseProtoNames", true), (chars% "UseEnumNumbers", true), (chars% "EmitUnpopulated", true)] m = .error e) :
    encodeResponse.run w (calls w (program s) n) [c, .writer, .msg t m] st = .ok [.err e] st := by
  unfold Func.run runBody encodeResponse
  go [optionArgs, isA, decide_true, methodOf, structMethod, has_marshal, libMethod, optionsOf, h, binOf, Bool.false_eq_true]

theorem run_encodeResponse_ok (w : World M) (s : Svcdef.Service) (n : Nat) (st : St M) (c : Val M) (t : Str) (m : M) (b : Str)
    (h : w.writeProto [(chars% "AllowPartial", true), (chars% "UseProtoNames", true), (chars% "UseEnumNumbers", true), (chars% "EmitUnpopulated", true)] m = .ok b) :
    encodeResponse.run w (calls w (program s) n) [c, .writer, .msg t m] st =
      .ok [ofErr (w.writeErr b)] { st with sent := some (st.sent.getD (200, st.header)), out := st.out ++ b } := by
  unfold Func.run runBody encodeResponse
  go [optionArgs, isA, decide_true, methodOf, structMethod, has_marshal, libMethod, optionsOf, h, binOf, Bool.false_eq_true, writerMethod]

theorem run_headersToContext (w : World M) (s : Svcdef.Service) (n : Nat) (st : St M) (c : Ctx) :
    headersToContext.run w (calls w (program s) n) [.ctx c, .request] st =
      .ok [.ctx (lift (Runtime.httpHeadersToContext [] st.reqHeader w.path) ++ c)] st := by
  have loop : ∀ (all l : Header) (d : Runtime.Ctx), lift (Runtime.headersLoop all l d) ++ c =
      (l.map fun e => ((Val.text e.1 : Val M), (Val.strs e.2 : Val M))).foldl (fun x p => match p.1 with | .text k => (toLower k, some (headerGet all k)) :: (k, some (headerGet all k)) :: x | _ => x) (lift d ++ c) := by
    intro all l
    induction l with
    | nil => intro d; rfl
    | cons e l ih => intro d; exact ih _
  unfold Func.run runBody headersToContext
  go [fieldOf, rangeOf, headersOf]
  rw [each_fold (fun x : Ctx => { st with vars := [(chars% "r", .request), (chars% "ctx", .ctx x)] })
    (fun x p => match p.1 with | .text k => (toLower k, some (headerGet st.reqHeader k)) :: (k, some (headerGet st.reqHeader k)) :: x | _ => x)]
  · go [fieldOf, withValue]
    rw [show c = lift [] ++ c from rfl, ← loop st.reqHeader st.reqHeader []]
    rfl
  · intro p hp x
    obtain ⟨e, -, rfl⟩ := List.mem_map.mp hp
    go [bound, withValue, fieldOf, methodOf, headerMethod, headersOf]

/-- What a client does with one key. -/
def sendOne (c : Ctx) (h : Header) (k : Str) : Header := match look c k with
  | some (some v) => headerSet h k v
  | _ => h

theorem send_fold (c : Ctx) (keys : List Str) (h : Header) : Runtime.ctxValuesToSend (strings c) keys h = keys.foldl (sendOne c) h := by
  induction keys generalizing h with
  | nil => rfl
  | cons k keys ih =>
    rw [Runtime.ctxValuesToSend, look_strings, List.foldl_cons, sendOne]
    cases look c k with
    | none => exact ih _
    | some v => cases v <;> exact ih _

theorem run_ctxValuesToSend (w : World M) (s : Svcdef.Service) (n : Nat) (st : St M) (keys : List Str) :
    ctxValuesToSend.run w (calls w (program s) n) [.strs keys] st = .ok [.lib (chars% "httptransport.ClientBefore")
      [.closure [(chars% "ctx", chars% "context.Context"), (chars% "r", chars% "*http.Request")] sendValues [(chars% "keys", .strs keys)]]] st := by
  unfold Func.run runBody ctxValuesToSend
  go []

/-- For a loop over a list of strings. -/
def onText {σ : Type} (f : σ → Str → σ) (x : σ) (p : Val M × Val M) : σ := match p.2 with
  | .text k => f x k
  | _ => x

theorem foldl_pairs {σ : Type} (f : σ → Str → σ) (l : List (Str × Nat)) (x : σ) :
    (l.map fun e => ((Val.num e.2 : Val M), (Val.text e.1 : Val M))).foldl (onText f) x = (l.map (·.1)).foldl f x := by
  induction l generalizing x with
  | nil => rfl
  | cons e l ih => exact ih _

theorem zipIdx_fst {α : Type} (l : List α) (i : Nat) : (l.zipIdx i).map (·.1) = l := by
  induction l generalizing i with
  | nil => rfl
  | cons a l ih => rw [List.zipIdx_cons, List.map_cons, ih]

theorem run_sendValues (w : World M) (k : Calls M) (st : St M) (keys : List Str) (c : Ctx) :
    runBody w k [(chars% "ctx", chars% "context.Context"), (chars% "r", chars% "*http.Request")] sendValues [(chars% "keys", .strs keys)] [.ctx c, .request] st =
      .ok [.ctx c] { st with reqHeader := Runtime.ctxValuesToSend (strings c) keys st.reqHeader } := by
  unfold runBody sendValues
  go [rangeOf]
  rw [each_fold (fun x : Header => { st with vars := [(chars% "r", .request), (chars% "ctx", .ctx c), (chars% "keys", .strs keys)], reqHeader := x })
    (onText (sendOne c)), foldl_pairs, zipIdx_fst]
  · go []
    rw [send_fold]
  · intro p hp x
    obtain ⟨e, -, rfl⟩ := List.mem_map.mp hp
    cases hl : look c e.1 with
    | none => go [bound, methodOf, ctxValue, hl, isA, onText, sendOne, Bool.false_eq_true]
    | some v =>
      cases v with
      | none => go [bound, methodOf, ctxValue, hl, isA, onText, sendOne, Bool.false_eq_true]
      | some v => go [bound, methodOf, ctxValue, hl, isA, onText, sendOne, decide_true, fieldOf, headerMethod, setHeader]

theorem each_try {α σ : Type} {F : α → St M → Ans M (Option (List (Val M)))} (mk : σ → St M) (bad : σ → α → St M) (step : σ → α → Option σ) {l : List α}
    (h : ∀ a ∈ l, ∀ x, F a (mk x) = match step x a with | some y => .ok none (mk y) | none => .panic (bad x a)) (x : σ) :
    (∀ y, l.foldlM step x = some y → each F l (mk x) = .ok none (mk y)) ∧ (l.foldlM step x = none → ∃ y a, each F l (mk x) = .panic (bad y a)) := by
  induction l generalizing x with
  | nil => exact ⟨fun y hy => by cases hy; rfl, nofun⟩
  | cons a l ih =>
    have h1 := h a List.mem_cons_self x
    rw [List.foldlM_cons, each]
    cases hs : step x a with
    | none =>
      rw [hs] at h1
      rw [h1]
      exact ⟨nofun, fun _ => ⟨x, a, rfl⟩⟩
    | some y =>
      rw [hs] at h1
      rw [h1]
      exact ih (fun b hb => h b (List.mem_cons_of_mem _ hb)) y

/-- The loop over metadata, one entry. -/
def mdOne (c : Ctx) (p : Str × Option (List Str)) : Option Ctx := match p.2 with
  | none => some c
  | some [] => none
  | some (v :: _) => some ((canonical p.1, some v) :: (p.1, some v) :: c)

theorem md_fold (c : Ctx) (l : MD) (d : Runtime.Ctx) : l.foldlM mdOne (lift d ++ c) = (Runtime.grpcMetadataToContext l d).map fun d => lift d ++ c := by
  induction l generalizing d with
  | nil => rfl
  | cons e l ih =>
    obtain ⟨k, vs⟩ := e
    rw [List.foldlM_cons]
    match vs with
    | none => exact ih d
    | some [] => rfl
    | some (v :: _) => exact ih ((canonical k, v) :: (k, v) :: d)

theorem run_metadataToContext (w : World M) (s : Svcdef.Service) (n : Nat) (st : St M) (c : Ctx) (md : MD) :
    metadataToContext.run w (calls w (program s) n) [.ctx c, .md md] st = match Runtime.grpcMetadataToContext md [] with
      | some d => .ok [.ctx (lift d ++ c)] st
      | none => .panic st := by
  have hf : (md.map fun e => ((Val.text e.1 : Val M), (match e.2 with | some l => Val.strs l | none => Val.nil : Val M))).foldlM
      (fun x p => match p.1, p.2 with | .text k, .strs l => mdOne x (k, some l) | _, _ => some x) c = md.foldlM mdOne c := by
    generalize c = c
    induction md generalizing c with
    | nil => rfl
    | cons e l ih =>
      obtain ⟨k, vs⟩ := e
      cases vs with
      | none => exact ih c
      | some vs =>
        rw [List.map_cons, List.foldlM_cons, List.foldlM_cons]
        show (mdOne c (k, some vs)).bind _ = (mdOne c (k, some vs)).bind _
        cases mdOne c (k, some vs) with
        | none => rfl
        | some y => exact ih y
  rw [show c = lift [] ++ c from rfl, md_fold] at hf
  obtain ⟨h1, h2⟩ := each_try (F := round w (calls w (program s) n) [chars% "k", chars% "v"] metadataLoop 2)
    (l := md.map fun e => ((Val.text e.1 : Val M), (match e.2 with | some l => Val.strs l | none => Val.nil : Val M)))
    (fun x : Ctx => { st with vars := [(chars% "md", .md md), (chars% "ctx", .ctx x)] })
    (fun x p => { st with vars := [(chars% "v", p.2), (chars% "k", p.1), (chars% "md", .md md), (chars% "ctx", .ctx x)] })
    (fun x p => match p.1, p.2 with | .text k, .strs l => mdOne x (k, some l) | _, _ => some x) (by
      intro p hp x
      obtain ⟨⟨k, vs⟩, -, rfl⟩ := List.mem_map.mp hp
      match vs with
      | none => go [round, metadataLoop, bound, binOf]
      | some [] => go [round, metadataLoop, bound, binOf, withValue, firstOf, mdOne]
      | some (v :: l) => go [round, metadataLoop, bound, binOf, withValue, firstOf, mdOne]) c
  rw [show lift [] ++ c = c from rfl] at hf
  rw [hf] at h1 h2
  unfold Func.run runBody metadataToContext
  simp only [Option.toList, List.nil_append, List.map_cons, List.map_nil, defVars, List.cons.injEq, Char.reduceEq, false_and, if_false]
  rw [exec_range (v := .md md) (l := md.map fun e => ((Val.text e.1 : Val M), (match e.2 with | some l => Val.strs l | none => Val.nil : Val M))) rfl rfl]
  simp only [List.length_cons, List.length_nil, Nat.reduceAdd]
  cases hg : Runtime.grpcMetadataToContext md [] with
  | some d =>
    rw [h1 _ (congrArg _ hg)]
    go []
  | none =>
    obtain ⟨y, a, e⟩ := h2 (congrArg _ hg)
    rw [e]
    rfl

/-! ## Metadata -/

/-- The keys that have a string in the context, with that string. -/
def selected (c : Ctx) (keys : List Str) : List (Str × Str) := keys.filterMap fun k => ((look c k).bind id).map fun v => (k, v)

theorem look_update {m : MD} {k x : Str} {f : Option (List Str) → Option (List Str)} :
    look (m.map fun e => if e.1 = k then (e.1, f e.2) else e) x = if x = k then (look m x).map f else look m x := by
  induction m with
  | nil => split <;> rfl
  | cons e m ih =>
    obtain ⟨y, vs⟩ := e
    rw [List.map_cons]
    by_cases hy : y = k
    · rw [if_pos hy]
      by_cases hx : y = x
      · subst hx
        rw [if_pos hy, look_cons_eq, look_cons_eq]
        rfl
      · rw [look_cons_ne _ _ (eq_false hx), look_cons_ne _ _ (eq_false hx), ih]
    · rw [if_neg hy]
      by_cases hx : y = x
      · subst hx
        rw [if_neg hy, look_cons_eq, look_cons_eq]
      · rw [look_cons_ne _ _ (eq_false hx), look_cons_ne _ _ (eq_false hx), ih]

theorem look_snoc {m : MD} {k x : Str} {v : Option (List Str)} (h : look m k = none) :
    look (m ++ [(k, v)]) x = if x = k then some v else look m x := by
  induction m with
  | nil =>
    by_cases hx : x = k
    · subst hx
      rw [if_pos rfl]
      exact look_cons_eq _ _ _
    · rw [if_neg hx]
      exact look_cons_ne _ _ (eq_false (Ne.symm hx))
  | cons e m ih =>
    obtain ⟨y, vs⟩ := e
    by_cases hy : y = k
    · subst hy
      rw [look_cons_eq] at h
      cases h
    · rw [look_cons_ne _ _ (eq_false hy)] at h
      rw [List.cons_append]
      by_cases hx : y = x
      · subst hx
        rw [look_cons_eq, if_neg hy, look_cons_eq]
      · rw [look_cons_ne _ _ (eq_false hx), look_cons_ne _ _ (eq_false hx), ih h]

/-- `metadata.Pairs`, one pair. -/
def pairOne (m : MD) (p : Str × Str) : MD := match look m (toLower p.1) with
  | some _ => m.map fun e => if e.1 = toLower p.1 then (e.1, some (e.2.getD [] ++ [p.2])) else e
  | none => m ++ [(toLower p.1, some [p.2])]

theorem pairOne_vals (m : MD) (p : Str × Str) (x : Str) : vals (pairOne m p) x = vals m x ++ if toLower p.1 = x then [p.2] else [] := by
  unfold pairOne vals
  cases h : look m (toLower p.1) with
  | some o =>
    simp only
    rw [look_update (f := fun o => some (o.getD [] ++ [p.2]))]
    by_cases hx : x = toLower p.1
    · subst hx
      rw [if_pos rfl, if_pos rfl, h]
      cases o <;> rfl
    · rw [if_neg hx, if_neg (Ne.symm hx), List.append_nil]
  | none =>
    simp only
    rw [look_snoc h]
    by_cases hx : x = toLower p.1
    · subst hx
      rw [if_pos rfl, if_pos rfl, h]
      rfl
    · rw [if_neg hx, if_neg (Ne.symm hx), List.append_nil]

theorem look_none_mem {m : MD} {k : Str} (h : look m k = none) : k ∉ m.map (·.1) := by
  induction m with
  | nil => exact List.not_mem_nil
  | cons e m ih =>
    obtain ⟨y, vs⟩ := e
    by_cases hy : y = k
    · subst hy
      rw [look_cons_eq] at h
      cases h
    · rw [look_cons_ne _ _ (eq_false hy)] at h
      intro hk
      rcases List.mem_cons.mp hk with rfl | hk
      · exact hy rfl
      · exact ih h hk

theorem pairOne_nodup {m : MD} {p : Str × Str} (h : (m.map (·.1)).Nodup) : ((pairOne m p).map (·.1)).Nodup := by
  unfold pairOne
  cases hl : look m (toLower p.1) with
  | some o =>
    simp only
    rw [List.map_map, show (m.map ((·.1) ∘ fun e => if e.1 = toLower p.1 then (e.1, some (e.2.getD [] ++ [p.2])) else e)) = m.map (·.1) from
      List.map_congr_left fun e _ => by simp only [Function.comp_apply]; split <;> rfl]
    exact h
  | none =>
    simp only
    rw [List.map_append, List.nodup_append]
    refine ⟨h, List.nodup_cons.mpr ⟨List.not_mem_nil, List.nodup_nil⟩, ?_⟩
    intro a ha b hb
    rcases List.mem_cons.mp hb with rfl | hb
    · rintro rfl
      exact look_none_mem hl ha
    · exact absurd hb List.not_mem_nil

theorem pairsGo_eq (ps : List (Str × Str)) (m : MD) : pairsGo (ps.flatMap fun p => [p.1, p.2]) m = some (ps.foldl pairOne m) := by
  induction ps generalizing m with
  | nil => rfl
  | cons p ps ih => exact ih _

theorem pairs_vals (ps : List (Str × Str)) (m : MD) (x : Str) :
    vals (ps.foldl pairOne m) x = vals m x ++ ps.filterMap fun p => if toLower p.1 = x then some p.2 else none := by
  induction ps generalizing m with
  | nil => exact (List.append_nil _).symm
  | cons p ps ih =>
    rw [List.foldl_cons, ih, pairOne_vals, List.append_assoc, List.filterMap_cons]
    by_cases hx : toLower p.1 = x
    · rw [if_pos hx, if_pos hx]; rfl
    · rw [if_neg hx, if_neg hx]; rfl

theorem pairs_nodup (ps : List (Str × Str)) {m : MD} (h : (m.map (·.1)).Nodup) : ((ps.foldl pairOne m).map (·.1)).Nodup := by
  induction ps generalizing m with
  | nil => exact h
  | cons p ps ih => exact ih (pairOne_nodup h)

theorem appendAll_vals (a b : Option (List Str)) : (appendAll a b).getD [] = a.getD [] ++ b.getD [] := by
  match a, b with
  | none, none => rfl
  | some _, none => exact (List.append_nil _).symm
  | none, some [] => rfl
  | some _, some [] => exact (List.append_nil _).symm
  | none, some (_ :: _) => rfl
  | some _, some (_ :: _) => rfl

theorem joinGo_vals (l m : MD) (h : (l.map (·.1)).Nodup) (x : Str) : vals (joinGo l m) x = vals m x ++ vals l x := by
  induction l generalizing m with
  | nil => exact (List.append_nil _).symm
  | cons e l ih =>
    obtain ⟨k, vs⟩ := e
    rw [List.map_cons, List.nodup_cons] at h
    rw [joinGo, ih _ h.2]
    by_cases hx : k = x
    · subst hx
      have hl : vals l k = [] := by
        unfold vals
        cases hk : look l k with
        | none => rfl
        | some v =>
          refine absurd ?_ h.1
          refine Classical.byContradiction fun hn => ?_
          have : look l k = none := by
            clear hk ih h
            induction l with
            | nil => rfl
            | cons e l ih =>
              obtain ⟨y, z⟩ := e
              rw [List.map_cons, List.mem_cons, not_or] at hn
              rw [look_cons_ne _ _ (eq_false (Ne.symm hn.1))]
              exact ih hn.2
          rw [this] at hk
          cases hk
      rw [hl, List.append_nil]
      unfold vals
      rw [look_cons_eq]
      cases hm : look m k with
      | some o =>
        simp only
        rw [look_update (f := fun o => appendAll o vs), if_pos rfl, hm]
        exact appendAll_vals _ _
      | none =>
        simp only
        rw [look_snoc hm, if_pos rfl]
        exact appendAll_vals _ _
    · congr 1
      · unfold vals
        cases hm : look m k with
        | some o =>
          simp only
          rw [look_update (f := fun o => appendAll o vs), if_neg (Ne.symm hx)]
        | none =>
          simp only
          rw [look_snoc hm, if_neg (Ne.symm hx)]
      · unfold vals
        rw [look_cons_ne _ _ (eq_false hx)]

/-- A list of strings that is nil when it is empty. -/
abbrev pairsVal (l : List (Str × Str)) : Val M := match l with
  | [] => .nil
  | _ => .strs (l.flatMap fun p => [p.1, p.2])

theorem run_valuesToMetadata (w : World M) (s : Svcdef.Service) (n : Nat) (st : St M) (keys : List Str) :
    valuesToMetadata.run w (calls w (program s) n) [.strs keys] st = .ok [.closure [(chars% "ctx", chars% "context.Context"), (chars% "md", chars% "*metadata.MD")]
      sendMetadata [(chars% "keys", .strs keys)]] st := by
  unfold Func.run runBody valuesToMetadata
  go []

/-- One key. -/
def pickOne (c : Ctx) (x : List (Str × Str)) (k : Str) : List (Str × Str) := match look c k with
  | some (some v) => x ++ [(k, v)]
  | _ => x

theorem pick_fold (c : Ctx) (keys : List Str) (x : List (Str × Str)) : keys.foldl (pickOne c) x = x ++ selected c keys := by
  induction keys generalizing x with
  | nil => exact (List.append_nil _).symm
  | cons k keys ih =>
    rw [List.foldl_cons, ih, pickOne, selected, selected, List.filterMap_cons]
    match look c k with
    | none => rfl
    | some none => rfl
    | some (some v) => exact List.append_assoc _ _ _

theorem run_sendMetadata (w : World M) (s : Svcdef.Service) (n : Nat) (st : St M) (keys : List Str) (c : Ctx) :
    runBody w (calls w (program s) n) [(chars% "ctx", chars% "context.Context"), (chars% "md", chars% "*metadata.MD")] sendMetadata [(chars% "keys", .strs keys)] [.ctx c, .mdPtr] st =
      .ok [.ctx c] { st with md := if selected c keys = [] then st.md else join st.md ((selected c keys).foldl pairOne []) } := by
  unfold runBody sendMetadata
  go [rangeOf, zeroOf]
  rw [each_fold (fun x : List (Str × Str) => { st with vars := [(chars% "pairs", pairsVal x), (chars% "md", .mdPtr), (chars% "ctx", .ctx c), (chars% "keys", .strs keys)] })
    (onText (pickOne c)) (x := []), foldl_pairs (pickOne c), zipIdx_fst, pick_fold, List.nil_append]
  · cases hs : selected c keys with
    | nil => go [pairsVal, binOf]
    | cons p ps => go [pairsVal, binOf, starOf, lib_pairs (pairsGo_eq (p :: ps) []), setStarOf]
  · intro p hp x
    obtain ⟨e, -, rfl⟩ := List.mem_map.mp hp
    cases hl : look c e.1 with
    | none => go [bound, methodOf, ctxValue, hl, isA, onText, pickOne, Bool.false_eq_true]
    | some v =>
      cases v with
      | none => go [bound, methodOf, ctxValue, hl, isA, onText, pickOne, Bool.false_eq_true]
      | some v =>
        cases x with
        | nil => go [bound, methodOf, ctxValue, hl, isA, onText, pickOne, decide_true, pairsVal, List.flatMap_cons, List.flatMap_nil]
        | cons p ps => go [bound, methodOf, ctxValue, hl, isA, onText, pickOne, decide_true, pairsVal, List.flatMap_cons, List.flatMap_append, List.flatMap_nil]

end Baron.GoHTTP
