import Verif.Proofs.EncoderRun
import Verif.Props.Encoders
import Verif.Props.HTTPCode
import Verif.Props.HTTPCall

/-!
# C92 What the generated request encoders do
-/

namespace Baron.Encoders

open Baron.Svcdef hiding newField
open Baron.HTTP Baron.HTTPCode Baron.GoClient
open Baron.GoClient (Expr)
open Baron.Strs (goCamelCase)
open Baron.Decoders (isScalar scalarNames plainParams oneofParams PlainText)

/-- **C92** Run as a Go program, the statements of an encoder make the request `sent` says from the request of the instance, leave the message
as it was and return without an error, or return an error if there is no such request. The program never panics, and never fails to compile
or to find a variable. -/
theorem C92_run {F : Type} {L : Libs F} {b : HTTPBinding} {ps : List Piece} (request : Str) (hok : TemplateOK ps) (hp : b.path = templateOf ps)
    (ht : Typed L b) (hw : Writable b ps) {m : FullMsg F} (hm : Sendable L.fl b m) {h : Http} {σ : State F} (hσ : Called m h σ) :
    match sent L b h m with
    | some h' => ∃ σ', run L (encoderCode request b ps) σ = .returned false σ' ∧ σ'.http = h' ∧ σ'.msg = m
    | none => ∃ σ', run L (encoderCode request b ps) σ = .returned true σ' := by
  obtain ⟨⟨s, e1, e2⟩, e3, e4⟩ := hσ
  have hσ : σ = ⟨[s], m, h⟩ := by cases σ; cases e1; cases e3; cases e4; rfl
  rw [hσ]
  have hstart := start_exec (h := h) ht hok hw hp hm request e2
  unfold sent encoderCode
  rw [run]
  simp only
  cases hu : urlParsePath (clientPath (pathEnv L.fl L.addr (bindingFields b) m.fields) b.path) with
  | none =>
    rw [hu] at hstart
    obtain ⟨σ', e⟩ := hstart
    rw [e]
    exact ⟨σ', rfl⟩
  | some path =>
    rw [hu] at hstart
    obtain ⟨s1, e1, b1⟩ := hstart
    rw [e1]
    simp only
    generalize Runtime.headerSet (Runtime.headerSet h.header "transport".toList "HTTPJSON".toList) "request-url".toList h.path = hd
    generalize L.rawPath (clientPath (pathEnv L.fl L.addr (bindingFields b) m.fields) b.path) = raw
    obtain ⟨s2, e2, b2⟩ := query_exec (h := ⟨hd, path, raw, h.query, h.body⟩) ht hw hm b1
    rw [show ∀ k, Out.then (.next ⟨[s1], m, ⟨hd, path, raw, h.query, h.body⟩⟩ : Out F) k = k ⟨[s1], m, ⟨hd, path, raw, h.query, h.body⟩⟩ from fun _ => rfl,
      run_append, e2]
    generalize encodeFrom L.fl L.fzero h.query (bindingFields b) (bindingOneofs b) m = q at *
    simp only [Out.then]
    have henc : (Expr.call0 (chars% "values.Encode")).eval L ⟨[s2], m, ⟨hd, path, raw, h.query, h.body⟩⟩ = .ok (.query q) := by
      rw [Expr.eval, if_neg (by decide), if_pos rfl, find_here b2.values]
    rw [run, exec_set henc (σ' := ⟨[s2], m, ⟨hd, path, raw, q, h.body⟩⟩) rfl, Code.exec]
    simp only [Out.then]
    have hret : ∀ (s : Scope F) (h : Http), run L [Code.ret (chars% "\n\t\t") .nil (.done (chars% "\n\t"))] ⟨[s], m, h⟩ = .returned false ⟨[s], m, h⟩ := by
      intro s h
      rw [run, exec_ret rfl]
      rfl
    by_cases hv : b.verb = "get".toList
    · rw [if_pos hv, if_pos (c := b.verb = chars% "get") hv, List.nil_append, hret]
      exact ⟨_, rfl, rfl, rfl⟩
    · rw [if_neg hv, if_neg (c := b.verb = chars% "get") hv, run_append]
      have hb := body_exec (L := L) (m := m) (h := ⟨hd, path, raw, q, h.body⟩) ht request b2
      cases hwr : L.writeReq m with
      | none =>
        rw [hwr] at hb
        obtain ⟨σ', e⟩ := hb
        rw [e]
        exact ⟨σ', rfl⟩
      | some body =>
        rw [hwr] at hb
        obtain ⟨s3, e⟩ := hb
        rw [e]
        exact ⟨_, hret _ _, rfl, rfl⟩

/-- **C92** So for an instance without a query, the request of a client as the server sees it (C79, C82) is the one the encoder's program makes
from the request of the instance, with the verb of the binding, the headers for the caller's context and those net/http adds. -/
theorem C92_client {F R : Type} {L : Libs F} {lib : HTTPCall.Lib F R} (h1 : L.fl = lib.fl) (h2 : L.fzero = lib.fzero) (h3 : L.addr = lib.addr)
    (h4 : L.writeReq = lib.writeReq) {b : HTTPBinding} {ps : List Piece} (request : Str) (hok : TemplateOK ps) (hp : b.path = templateOf ps)
    (ht : Typed L b) (hw : Writable b ps) {m : FullMsg F} (hm : Sendable L.fl b m) (raw : Str) (ctx : Runtime.Ctx) (keys : List Str)
    {σ : State F} (hσ : Called m ⟨[], basePath b.path, raw, [], none⟩ σ) :
    match HTTPCall.clientRequest lib ctx keys b m with
    | some r => ∃ σ', run L (encoderCode request b ps) σ = .returned false σ' ∧ r = ⟨toUpper b.verb, σ'.http.path,
        HTTPCall.arrive lib (Runtime.ctxValuesToSend ctx keys σ'.http.header), σ'.http.query, σ'.http.body.getD []⟩
    | none => ∃ σ', run L (encoderCode request b ps) σ = .returned true σ' := by
  have h := C92_run request hok hp ht hw hm hσ
  unfold sent at h
  unfold HTTPCall.clientRequest HTTPCall.encoderHeader
  rw [h1, h2, h3, h4] at h
  simp only at h ⊢
  cases hu : urlParsePath (clientPath (pathEnv lib.fl lib.addr (bindingFields b) m.fields) b.path) with
  | none => rw [hu] at h; exact h
  | some path =>
    rw [hu] at h
    simp only [encodeFrom_nil] at h ⊢
    by_cases hv : b.verb = "get".toList
    · rw [if_pos hv] at h ⊢
      obtain ⟨σ', e1, e2, -⟩ := h
      refine ⟨σ', e1, ?_⟩
      rw [e2]
      rfl
    · rw [if_neg hv] at h ⊢
      cases hwr : lib.writeReq m with
      | none => rw [hwr] at h; exact h
      | some body =>
        rw [hwr] at h
        obtain ⟨σ', e1, e2, -⟩ := h
        refine ⟨σ', e1, ?_⟩
        rw [e2]
        rfl

namespace Example

open Baron.Decoders.Example (binding)

/-- The types of the fields of the message, and its getters. -/
def fieldTypes : List (Str × Option Base) := [("MyId".toList, some .int32), ("Blob".toList, none), ("Size".toList, some .uint64),
  ("Ids".toList, some .int64), ("Note".toList, some .string), ("Kind".toList, none), ("Sub".toList, none)]

def getters : List (Str × (Str × Base)) := [("Red".toList, "Pick".toList, .bool), ("Blue".toList, "Pick".toList, .string)]

def libs : Libs Empty where
  fl := noFloats
  fzero := fun _ => true
  addr := fun _ => "0xc0000".toList
  enumText := fun _ => "NAME".toList
  rawPath := fun _ => []
  writeReq := fun _ => none
  field := look fieldTypes
  option := look getters

theorem typed : Typed libs binding := by
  refine ⟨by decide +kernel, by decide +kernel, ?_⟩
  have h : ∀ p ∈ oneofParams binding, p.location = "query".toList → ∀ o ∈ p.field.type.oneof, (baseOf o.typeName).isSome = true ∧
    look getters o.name = (baseOf o.typeName).map fun t => (goCamelCase p.field.name, t) := by decide +kernel
  intro p hp hl o ho
  obtain ⟨h1, h2⟩ := h p hp hl o ho
  obtain ⟨t, e⟩ := Option.isSome_iff_exists.mp h1
  rw [e] at h2
  exact ⟨t, e, h2⟩

theorem writable : Writable binding pieces := by
  refine ⟨fun n hn => ?_, fun l hl => ?_, fun p hp hl => ?_, fun p hp hl o ho => ?_⟩
  · have h : ∀ x ∈ pieces, ∀ n ∈ x.name?.toList, ∃ p ∈ plainParams binding, p.location = "path".toList ∧ goCamelCase p.field.name = goCamelCase n := by
      decide +kernel
    exact h _ hn n (List.mem_singleton.mpr rfl)
  · have h : ∀ x ∈ pieces, x.name? = none → '"' ∉ x.text ∧ '\\' ∉ x.text ∧ '\n' ∉ x.text := by decide +kernel
    exact h _ hl rfl
  · have h : ∀ p ∈ plainParams binding, '"' ∉ p.field.pbName ∧ '\\' ∉ p.field.pbName ∧ '\n' ∉ p.field.pbName := by decide +kernel
    exact h p hp
  · have h : ∀ p ∈ oneofParams binding, ∀ o ∈ p.field.type.oneof, '"' ∉ o.pbName ∧ '\\' ∉ o.pbName ∧ '\n' ∉ o.pbName := by decide +kernel
    exact h p hp o ho

def values : Msg Empty := fun f => (look [("MyId".toList, FVal.one (.num (-7))), ("Size".toList, .one (.num 12)),
  ("Ids".toList, .many [.num 1, .num (-2)]), ("Note".toList, .opt (some (.str "hi".toList))), ("Kind".toList, .one (.num 3)),
  ("Sub".toList, .other "{}".toList)] f).getD (.other [])

def message (blue : String) : FullMsg Empty := ⟨values, fun _ => some ("Blue".toList, .str blue.toList)⟩

theorem sendable (blue : String) : Sendable libs.fl binding (message blue) := by
  have hb : plainParams binding = binding.params.take 7 := by decide +kernel
  intro p hp hl
  rw [hb] at hp
  simp only [binding, List.take_succ_cons, List.take_zero, List.mem_cons, List.not_mem_nil, or_false] at hp
  show ∃ sh, HasShape (HTTPCode.newField p) sh ∧ Holds noFloats sh (values (goCamelCase p.field.name))
  rcases hp with rfl | rfl | rfl | rfl | rfl | rfl | rfl
  · refine ⟨.single .int32, by unfold HasShape; decide +kernel, ?_⟩
    rw [show values (goCamelCase _) = .one (.num (-7)) by decide +kernel]
    show -(2 ^ 31) ≤ (-7 : Int) ∧ _; decide
  · exact absurd rfl hl
  · refine ⟨.single .uint64, by unfold HasShape; decide +kernel, ?_⟩
    rw [show values (goCamelCase _) = .one (.num 12) by decide +kernel]
    show (0 : Int) ≤ 12 ∧ _; decide
  · refine ⟨.repeated .int64, by unfold HasShape; decide +kernel, ?_⟩
    rw [show values (goCamelCase _) = .many [.num 1, .num (-2)] by decide +kernel]
    intro v hv
    rcases List.mem_cons.mp hv with rfl | hv
    · show -(2 ^ 63) ≤ (1 : Int) ∧ _; decide
    · rcases List.mem_cons.mp hv with rfl | hv
      · show -(2 ^ 63) ≤ (-2 : Int) ∧ _; decide
      · cases hv
  · refine ⟨.optional .string, by unfold HasShape; decide +kernel, ?_⟩
    rw [show values (goCamelCase _) = .opt (some (.str "hi".toList)) by decide +kernel]
    rintro v ⟨⟩
    trivial
  · refine ⟨.enum, by unfold HasShape; decide +kernel, ?_⟩
    rw [show values (goCamelCase _) = .one (.num 3) by decide +kernel]
    show -(2 ^ 31) ≤ (3 : Int) ∧ _; decide
  · refine ⟨.message, by unfold HasShape; decide +kernel, ?_⟩
    rw [show values (goCamelCase _) = .other "{}".toList by decide +kernel]
    trivial

/-- The request of an instance with a query of its own. -/
def before : Http := ⟨[], "/d/".toList, [], [("key".toList, ["k".toList])], none⟩

def start (blue : String) : State Empty := ⟨[fun x => if x = "request".toList then some .msg else none], message blue, before⟩

theorem called (blue : String) : Called (message blue) before (start blue) := ⟨⟨_, rfl, rfl⟩, rfl, rfl⟩

/-- The hypotheses of `C92_run` are met by it. -/
example : ∃ σ, run libs (encoderCode "In".toList binding pieces) (start "sky") = .returned false σ ∧ σ.http.path = "/d/-7".toList ∧
    σ.http.query = [("key".toList, ["k".toList]), ("size".toList, ["12".toList]), ("ids".toList, ["1".toList, "-2".toList]),
      ("note".toList, ["hi".toList]), ("kind".toList, ["3".toList]), ("sub".toList, ["{}".toList]), ("blue".toList, ["sky".toList])] ∧
    σ.http.header = [("Request-Url".toList, ["/d/".toList]), ("Transport".toList, ["HTTPJSON".toList])] ∧ σ.http.body = none := by
  have h := C92_run "In".toList pieces_ok rfl typed writable (sendable "sky") (called "sky")
  have h1 : (sent libs binding before (message "sky")).map Http.path = some "/d/-7".toList := by decide +kernel
  have h2 : (sent libs binding before (message "sky")).map Http.query = some [("key".toList, ["k".toList]), ("size".toList, ["12".toList]),
    ("ids".toList, ["1".toList, "-2".toList]), ("note".toList, ["hi".toList]), ("kind".toList, ["3".toList]), ("sub".toList, ["{}".toList]),
    ("blue".toList, ["sky".toList])] := by decide +kernel
  have h3 : (sent libs binding before (message "sky")).map Http.header =
    some [("Request-Url".toList, ["/d/".toList]), ("Transport".toList, ["HTTPJSON".toList])] := by decide +kernel
  have h4 : (sent libs binding before (message "sky")).map Http.body = some none := by decide +kernel
  cases hs : sent libs binding before (message "sky") with
  | none => rw [hs] at h1; cases h1
  | some h' =>
    rw [hs] at h h1 h2 h3 h4
    obtain ⟨σ, e1, e2, -⟩ := h
    cases e2
    exact ⟨σ, e1, Option.some.inj h1, Option.some.inj h2, Option.some.inj h3, Option.some.inj h4⟩

/-- The hypotheses of `C92_client` are met by a library with these functions. -/
example : (HTTPCall.clientRequest { HTTPCall.c79Lib with addr := libs.addr, writeReq := libs.writeReq, fzero := libs.fzero } [] [] binding (message "sky")).isSome = true ∧
    ∃ σ, run libs (encoderCode "In".toList binding pieces) ⟨[fun x => if x = "request".toList then some .msg else none], message "sky",
      ⟨[], basePath binding.path, [], [], none⟩⟩ = .returned false σ ∧ σ.http.path = "/d/-7".toList := by
  have h := C92_client (lib := { HTTPCall.c79Lib with addr := libs.addr, writeReq := libs.writeReq, fzero := libs.fzero }) (L := libs) rfl rfl rfl rfl
    "In".toList pieces_ok rfl typed writable (sendable "sky") [] [] []
    (σ := ⟨[fun x => if x = "request".toList then some .msg else none], message "sky", ⟨[], basePath binding.path, [], [], none⟩⟩) ⟨⟨_, rfl, rfl⟩, rfl, rfl⟩
  have h1 : (HTTPCall.clientRequest { HTTPCall.c79Lib with addr := libs.addr, writeReq := libs.writeReq, fzero := libs.fzero } [] [] binding (message "sky")).map
    HTTPCall.Req.path = some "/d/-7".toList := by decide +kernel
  cases hc : HTTPCall.clientRequest { HTTPCall.c79Lib with addr := libs.addr, writeReq := libs.writeReq, fzero := libs.fzero } [] [] binding (message "sky") with
  | none => rw [hc] at h1; cases h1
  | some r =>
    rw [hc] at h h1
    obtain ⟨σ, e1, e2⟩ := h
    refine ⟨rfl, σ, e1, ?_⟩
    rw [e2] at h1
    exact Option.some.inj h1

end Example

end Baron.Encoders
