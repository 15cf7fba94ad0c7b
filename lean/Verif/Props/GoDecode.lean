import Verif.Proofs.GoDecode
import Verif.Props.DecoderRun
import Verif.Props.GoRoutes

/-!
# C103 The generated decoders of requests as whole programs
-/

namespace Baron.GoDecode

open Baron.Svcdef hiding newField
open Baron.HTTP (look englishNumber)
open Baron.HTTPCode (FullMsg bindingFields bindingOneofs decodeFull)
open Baron.Runtime (Err)
open Baron.GoHTTP (World Val St Ans Represents Begins readOptions program calls plain)
open Baron.Decoders (Readable ReadableOneof Leftovers plainParams oneofParams fieldCode oneofCode piece decoderText bodyText)
open Baron.Strs (goCamelCase)
open Baron.TT (Occurs render)

/-- The text of a decoder: the statements that read the body, then those of the parameters. -/
def wholeText (fmt : Str → Str) (label meth request : Str) (b : HTTPBinding) : Str :=
  chars% "func DecodeHTTP" ++ (label ++ (chars% "Request(_ context.Context, r *http.Request) (interface{}, error) {" ++
  ((readRequest (goCamelCase request)).print ++
  ((plainParams b).flatMap (fun p => piece (p.location ≠ chars% "body") (fmt (fieldCode meth p).print)) ++
  (chars% "\n\n\t\t" ++
  ((oneofParams b).flatMap (fun p => piece (p.location = chars% "query") (fmt (oneofCode meth p.field.name p.field.type.oneof).print)) ++
  chars% "\n\t\treturn &req, err\n\t}"))))))

set_option maxRecDepth 16000 in
theorem read_print (t : Str) : (readRequest t).print = chars% "\n\t\tdefer r.Body.Close()\n\t\tvar req " ++ (t ++ bodyText) := by
  unfold readRequest badRequest readArgs bodyText
  have h1 : HTTP.itoa 8196 = chars% "8196" := by decide +kernel
  have h0 : HTTP.itoa 0 = chars% "0" := by decide +kernel
  simp only [h1, h0, GoHTTP.Code.print, GoHTTP.Expr.print, GoHTTP.Args.print, GoHTTP.printNames, GoHTTP.var, GoHTTP.args, List.cons_append, List.nil_append]

theorem decoderText_eq (fmt : Str → Str) (label meth request : Str) (b : HTTPBinding) : decoderText fmt label meth request b = wholeText fmt label meth request b := by
  unfold decoderText wholeText
  rw [read_print]
  simp only [List.append_assoc, List.cons_append, List.nil_append]

/-- **C103** The text of a decoder in the transport file is that of the program that is run. -/
theorem C103_text {fmt : Str → Str} {pkg : Str} {s : Service} {c : TT.Config} {txt : Str}
    (h : render fmt pkg s c "baron/NAME.pb.baron.go.tmpl".toList = some txt) {m : ServiceMethod} (hm : m ∈ s.methods)
    {b : HTTPBinding} {i : Nat} (hb : m.bindings[i]? = some b)
    (hf : ∀ p ∈ plainParams b, p.location ≠ "body".toList → '[' ∉ p.field.type.name)
    (ho : ∀ p ∈ oneofParams b, p.location = "query".toList → ∀ o ∈ p.field.type.oneof, o.array = false ∧ o.typeName ∈ Decoders.scalarNames) :
    Occurs (wholeText fmt (m.name ++ englishNumber i) m.name m.request.name b) txt :=
  decoderText_eq .. ▸ Decoders.C89_decoders h hm hb hf ho

variable {F : Type}

/-- What the request is when the parameters have been read, starting from what the body left of it; `conv` is the error of a
conversion that failed. -/
def Parameters (L : GoLang.Libs F) (conv : GoLang.State F → Err) (b : HTTPBinding) (t : Str) (vars : List (Str × Str)) (query : List (Str × List Str)) (st : St (FullMsg F)) (x : FullMsg F)
    (a : Ans (FullMsg F) (List (Val (FullMsg F)))) : Prop :=
  match decodeFull L.fl L.jok x (bindingFields b) (bindingOneofs b) ⟨vars, query, none⟩ with
  | .ok m => a = .ok [.msg t m, .nil] st
  | .error (.inl .emptyValues) | .error (.inr .emptyValues) => a = .panic st
  | .error _ => ∃ m σ, a = .ok [.msg t m, .err (conv σ)] st

theorem run_parameters {L : GoLang.Libs F} (hL : Leftovers L) {b : HTTPBinding} (meth : Str)
    (hp : ∀ p ∈ plainParams b, p.location ≠ "body".toList → Readable p)
    (ho : ∀ p ∈ oneofParams b, p.location = "query".toList → ReadableOneof p)
    (conv : GoLang.State F → Err) (t : Str) (vars : List (Str × Str)) (query : List (Str × List Str)) (body : Str) (x : FullMsg F) (st : St (FullMsg F)) :
    Parameters L conv b t vars query st x
      (results conv t (GoLang.run L (Decoders.decoderCode meth b) ⟨[fun y => (look (readVars t body x) y).bind (toGV vars query)], x⟩) st) := by
  have h := Decoders.C90_run hL meth hp ho x ⟨vars, query, none⟩ nofun
    (σ := ⟨[fun y => (look (readVars t body x) y).bind (toGV vars query)], x⟩) ⟨⟨_, rfl, rfl, rfl, rfl⟩, rfl⟩
  unfold Parameters
  cases hd : decodeFull L.fl L.jok x (bindingFields b) (bindingOneofs b) ⟨vars, query, none⟩ with
  | ok m =>
    rw [hd] at h
    obtain ⟨σ, h1, h2⟩ := h
    rw [h1, ← h2]
    rfl
  | error e =>
    rw [hd] at h
    rcases e with e | e <;> cases e <;> first
      | (simp only at h ⊢; rw [h]; rfl)
      | (simp only at h ⊢; obtain ⟨σ, h1⟩ := h; rw [h1]; exact ⟨_, _, rfl⟩)

/-- **C103** A decoder of requests, run as a program. If the body cannot be read, it returns no request and an error with that of the reader. If the body is not
empty and protojson does not take it, it returns no request and an error with status 400 and no headers, with the first 8196 bytes of the body in its message. Otherwise it
reads the parameters of the path and of the query into the empty request, or into what protojson read, which discards unknown fields: then it returns the request `decodeFull` gives
without error, panics if a parameter is there without a value, and returns an error otherwise. The body is closed in every case. -/
theorem C103_decoder {L : GoLang.Libs F} (hL : Leftovers L) {b : HTTPBinding} (meth : Str)
    (hp : ∀ p ∈ plainParams b, p.location ≠ "body".toList → Readable p)
    (ho : ∀ p ∈ oneofParams b, p.location = "query".toList → ReadableOneof p)
    (w : World (FullMsg F)) (s : Service) (n : Nat) (conv : GoLang.State F → Err) {request : Str} (hr : Begins request)
    (vars : List (Str × Str)) (query : List (Str × List Str)) (st : St (FullMsg F)) :
    let t := goCamelCase request
    let answer := decode w (calls w (program s) (n + 1)) L conv t meth b vars query st
    let after := { st with closed := true }
    (∀ e, w.body.2 = .failed e → answer = .ok [.nil, .err (plain ("cannot read body of http request: ".toList ++ e.msg))] after) ∧
    (w.body.2 = .complete → w.body.1 = [] → Parameters L conv b t vars query after (w.empty t) answer) ∧
    (w.body.2 = .complete → w.body.1 ≠ [] →
      (∀ e, (w.readProto readOptions t w.body.1 (w.empty t)).2 = some e → ∃ v, answer = .ok [.nil, v] after ∧
        Represents v ⟨"request body '".toList ++ w.body.1.take 8196 ++ "': cannot parse non-json request body: ".toList ++ e.msg, none, some [], some 400⟩) ∧
      ((w.readProto readOptions t w.body.1 (w.empty t)).2 = none →
        Parameters L conv b t vars query after (w.readProto readOptions t w.body.1 (w.empty t)).1 answer)) := by
  intro t answer after
  obtain ⟨h1, h2, h3⟩ := run_readRequest w s n { st with vars := [(chars% "r", .request)] } t (GoHTTP.messageType_of hr) rfl
  have ha : answer = decode w (calls w (program s) (n + 1)) L conv t meth b vars query st := rfl
  unfold decode at ha
  refine ⟨fun e he => ?_, fun hc he => ?_, fun hc he => ?_⟩
  · obtain ⟨vs, hv⟩ := h1 e he
    rw [hv] at ha
    rw [ha]
    simp only
    rfl
  · rw [h2 hc he] at ha
    rw [ha]
    exact run_parameters hL meth hp ho conv t vars query w.body.1 (w.empty t) after
  · have h3 := h3 hc he
    refine ⟨fun e hf => ?_, fun hf => ?_⟩
    · rw [hf] at h3
      obtain ⟨vs, hv⟩ := h3
      rw [hv] at ha
      refine ⟨_, ha, ?_⟩
      have := Represents.http (M := FullMsg F) (plain ((chars% "request body '" ++ (w.body.1.take 8196 ++ chars% "': cannot parse non-json request body")) ++ (chars% ": " ++ e.msg))) 400 []
      have he : "request body '".toList ++ w.body.1.take 8196 ++ "': cannot parse non-json request body: ".toList ++ e.msg =
          (plain ((chars% "request body '" ++ (w.body.1.take 8196 ++ chars% "': cannot parse non-json request body")) ++ (chars% ": " ++ e.msg))).msg := by
        show _ = (chars% "request body '" ++ (w.body.1.take 8196 ++ chars% "': cannot parse non-json request body")) ++ (chars% ": " ++ e.msg)
        rw [show "': cannot parse non-json request body: ".toList = chars% "': cannot parse non-json request body" ++ chars% ": " from by decide +kernel,
          show "request body '".toList = chars% "request body '" from by decide +kernel]
        simp only [List.append_assoc]
      rw [he]
      exact this
    · rw [hf] at h3
      rw [h3] at ha
      rw [ha]
      exact run_parameters hL meth hp ho conv t vars query w.body.1 _ after

/-- What a decoder returns does not depend on what has happened, and neither does it do anything but close the body. -/
theorem decode_again {L : GoLang.Libs F} {b : HTTPBinding} (meth : Str) (w : World (FullMsg F)) (s : Service) (n : Nat) (conv : GoLang.State F → Err) {request : Str} (hr : Begins request)
    (vars : List (Str × Str)) (query : List (Str × List Str)) (hc : w.body.2 = .complete) {st st₁ : St (FullMsg F)} {vs : List (Val (FullMsg F))}
    (h : decode w (calls w (program s) (n + 1)) L conv (goCamelCase request) meth b vars query st = .ok vs st₁) (st' : St (FullMsg F)) :
    decode w (calls w (program s) (n + 1)) L conv (goCamelCase request) meth b vars query st' = .ok vs { st' with closed := true } := by
  obtain ⟨-, a2, a3⟩ := run_readRequest w s n { st with vars := [(chars% "r", .request)] } _ (GoHTTP.messageType_of hr) rfl
  obtain ⟨-, b2, b3⟩ := run_readRequest w s n { st' with vars := [(chars% "r", .request)] } _ (GoHTTP.messageType_of hr) rfl
  have key : ∀ (o : GoLang.Out F) (s₁ s₂ : St (FullMsg F)), results conv (goCamelCase request) o s₁ = .ok vs st₁ → results conv (goCamelCase request) o s₂ = .ok vs s₂ := by
    intro o s₁ s₂ h
    unfold results at h ⊢
    split at h <;> first
      | (injection h with h1 _; rw [← h1])
      | cases h
  unfold decode at h ⊢
  by_cases he : w.body.1 = []
  · rw [a2 hc he] at h
    rw [b2 hc he]
    exact key _ _ _ h
  · have a3 := a3 hc he
    have b3 := b3 hc he
    cases hf : (w.readProto readOptions (goCamelCase request) w.body.1 (w.empty (goCamelCase request))).2 with
    | none =>
      rw [hf] at a3 b3
      rw [a3] at h
      rw [b3]
      exact key _ _ _ h
    | some e =>
      rw [hf] at a3 b3
      obtain ⟨v1, a3⟩ := a3
      obtain ⟨v2, b3⟩ := b3
      rw [a3] at h
      rw [b3]
      injection h with h1 _
      rw [← h1]

/-! ## Served -/

/-- The body of a request gives `x`: it is empty and `x` is the empty request, or protojson reads it into `x`. -/
def Gives (w : World (FullMsg F)) (t : Str) (x : FullMsg F) : Prop :=
  w.body.2 = .complete ∧ ((w.body.1 = [] ∧ x = w.empty t) ∨ (w.body.1 ≠ [] ∧ w.readProto readOptions t w.body.1 (w.empty t) = (x, none)))

/-- `env` decodes requests for a binding as its decoder's program does. -/
def Decodes {E S : Type} (env : GoRoutes.Env (FullMsg F) E S) (w : World (FullMsg F)) (s : Service) (n : Nat) (L : GoLang.Libs F) (conv : GoLang.State F → Err)
    (query : List (Str × List Str)) (st : St (FullMsg F)) (m : ServiceMethod) (b : HTTPBinding) (i : Nat) : Prop :=
  ∀ vars c v er st', decode w (calls w (program s) (n + 1)) L conv (goCamelCase m.request.name) m.name b vars query st = .ok [v, er] st' →
    (er = .nil → env.decode (GoRoutes.requestDecoder m i) vars c = .ok v) ∧ (er ≠ .nil → env.decode (GoRoutes.requestDecoder m i) vars c = .error er)

open GoRoutes (serve makeHandler standard ErrorSent ContextOf Sendable typed) in
open Baron.Transport (PlainPath pathOf Wellformed Takes FirstWith Bound) in
open Baron.HTTP (templateOf TemplateOK) in
open Baron.GoHTTP (writeOptions) in
open Baron.TT (Plain) in
open Baron.Runtime (WireHeader) in
/-- **C103** The handler of C102 with the decoders' programs. A request whose body protojson does not take is answered with status 400 and the error of `C103_decoder`, and no endpoint is
called. If a parameter is refused, the answer is an error with status 500, and no endpoint is called. If the request is decoded, the endpoint gets what `decodeFull`
gives, once, and its response or error is answered, or the error of protojson if it does not write the response. -/
theorem C103_served {E S : Type} (w : GoRoutes.World) (hw : World (FullMsg F)) (env : GoRoutes.Env (FullMsg F) E S) (s : Service) (n : Nat) (hwf : Wellformed s)
    (hlit : ∀ m ∈ s.methods, ∀ b ∈ m.bindings, Plain (toUpper b.verb) ∧ Plain b.path) (fields : List (Str × GoRoutes.Val E)) (opts : List (GoRoutes.Val E))
    (hopts : ∀ o ∈ opts, ∃ a, o = .ext a ∧ env.option a standard = standard)
    {L : GoLang.Libs F} (hL : Leftovers L) (conv : GoLang.State F → Err) (hconv : ∀ σ, (conv σ).status = none) (query : List (Str × List Str)) : ∃ h,
    (makeHandler s).run w [.struct (chars% "Endpoints") fields, .list opts] = .ok [.router] h ∧
    ∀ (verb : Str) (segs : List Str), PlainPath segs → hw.path = pathOf segs → ∀ (c : GoHTTP.Ctx) (st : St (FullMsg F)) (σ : S), st.sent = none → WireHeader st.reqHeader →
      ∀ m i b e, FirstWith s (Takes · verb segs) m i b → look fields (m.name ++ chars% "Endpoint") = some (.ext e) →
      Begins m.request.name → (∀ p ∈ plainParams b, p.location ≠ "body".toList → Readable p) → (∀ p ∈ oneofParams b, p.location = "query".toList → ReadableOneof p) →
      Decodes env hw s n L conv query st m b i → ∃ vars c',
        (∀ ps, b.path = templateOf ps → TemplateOK ps → ∀ x v, look vars x = some v ↔ Bound ps segs x v) ∧
        ContextOf (pathOf segs) st.reqHeader c c' ∧
        (∀ er, hw.body.2 = .complete → hw.body.1 ≠ [] → (hw.readProto readOptions (goCamelCase m.request.name) hw.body.1 (hw.empty (goCamelCase m.request.name))).2 = some er →
          ∃ st', ErrorSent hw.json ⟨"request body '".toList ++ hw.body.1.take 8196 ++ "': cannot parse non-json request body: ".toList ++ er.msg, none, some [], some 400⟩ st st' ∧
            serve env (calls hw (program s) (n + 2)) h.routes verb (pathOf segs) c st σ = .answered st' σ) ∧
        ∀ x, Gives hw (goCamelCase m.request.name) x →
          (∀ er, decodeFull L.fl L.jok x (bindingFields b) (bindingOneofs b) ⟨vars, query, none⟩ = .error er → er ≠ .inl .emptyValues → er ≠ .inr .emptyValues →
            ∃ st' er', er'.status = none ∧ ErrorSent hw.json er' st st' ∧
              serve env (calls hw (program s) (n + 2)) h.routes verb (pathOf segs) c st σ = .answered st' σ) ∧
          ∀ req, decodeFull L.fl L.jok x (bindingFields b) (bindingOneofs b) ⟨vars, query, none⟩ = .ok req →
            (∀ v er σ', env.endpoint e c' (.msg (goCamelCase m.request.name) req) σ = (.error v, σ') → Represents v er → Sendable er → ∃ st', ErrorSent hw.json er st st' ∧
              serve env (calls hw (program s) (n + 2)) h.routes verb (pathOf segs) c st σ = .answered st' σ') ∧
            (∀ t y body σ', env.endpoint e c' (.msg (goCamelCase m.request.name) req) σ = (.ok (.msg t y), σ') → hw.writeProto writeOptions y = .ok body → hw.writeErr body = none →
              serve env (calls hw (program s) (n + 2)) h.routes verb (pathOf segs) c st σ =
                .answered { typed st with sent := some (200, (typed st).header), out := st.out ++ body } σ') ∧
            (∀ t y er σ', env.endpoint e c' (.msg (goCamelCase m.request.name) req) σ = (.ok (.msg t y), σ') → hw.writeProto writeOptions y = .error er → Sendable er →
              ∃ st', ErrorSent hw.json er (typed st) st' ∧
                serve env (calls hw (program s) (n + 2)) h.routes verb (pathOf segs) c st σ = .answered st' σ') := by
  obtain ⟨h, hrun, hs⟩ := GoRoutes.C102_served w hw env s n hwf hlit fields opts hopts
  refine ⟨h, hrun, fun verb segs hp hpath c st σ hsent hwire m i b e hf he hbeg hpl hon hdec => ?_⟩
  obtain ⟨vars, c', hvars, hctx, herr, hok⟩ := (hs verb segs hp hpath c st σ hsent hwire).2 m i b e hf he
  obtain ⟨-, d2, d3⟩ := C103_decoder hL m.name hpl hon hw s n conv hbeg vars query st
  refine ⟨vars, c', hvars, hctx, fun er hc hne hr => ?_, fun x hx => ?_⟩
  · obtain ⟨v, ha, hv⟩ := (d3 hc hne).1 er hr
    have hv0 : v ≠ .nil := by rintro rfl; cases hv
    obtain ⟨st', h1, h2⟩ := herr v _ ((hdec vars c' _ _ _ ha).2 hv0) hv (by unfold Sendable; simp)
    exact ⟨st', h1, h2⟩
  · have hpar : Parameters L conv b (goCamelCase m.request.name) vars query { st with closed := true } x
        (decode hw (calls hw (program s) (n + 1)) L conv (goCamelCase m.request.name) m.name b vars query st) := by
      obtain ⟨hc, ⟨h0, rfl⟩ | ⟨h0, hr⟩⟩ := hx
      · exact d2 hc h0
      · have := (d3 hc h0).2 (by rw [hr])
        rw [hr] at this
        exact this
    unfold Parameters at hpar
    refine ⟨fun er hd n1 n2 => ?_, fun req hd => ?_⟩
    · have hpar : ∃ m' σ', decode hw (calls hw (program s) (n + 1)) L conv (goCamelCase m.request.name) m.name b vars query st =
          .ok [.msg (goCamelCase m.request.name) m', .err (conv σ')] { st with closed := true } := by
        rw [hd] at hpar
        rcases er with er | er <;> cases er <;> first
          | exact hpar
          | exact absurd rfl n1
          | exact absurd rfl n2
      obtain ⟨m', σ', ha⟩ := hpar
      obtain ⟨st', h1, h2⟩ := herr _ _ ((hdec vars c' _ _ _ ha).2 nofun) (.err (conv σ')) (by unfold Sendable; rw [hconv]; simp)
      exact ⟨st', _, hconv σ', h1, h2⟩
    · rw [hd] at hpar
      exact hok _ ((hdec vars c' _ _ _ hpar).1 rfl)

namespace Example

open Baron.TT.Example
open Baron.Decoders.Example (libs libs_leftovers readable readable_oneof)

/-- protojson reads `{"note":"n"}` and nothing else. -/
def world (body : String) : World (FullMsg Empty) where
  json := Runtime.demoJSON
  jsonErr s := plain s
  empty _ := Decoders.Example.zero
  readProto _ _ s m := if s = "{note:n}".toList then ({ m with fields := fun x => if x = "Note".toList then .opt (some (.str "n".toList)) else m.fields x }, none)
    else (m, some (plain "syntax".toList))
  writeProto _ _ := .ok []
  body := (body.toList, .complete)
  status := 200
  path := "/d/-7".toList
  writeErr _ := none

def start : St (FullMsg Empty) := ⟨[], [], none, [], [], [], [], false⟩

/-- The decoder of a request with these parts. -/
def run (body size : String) (note : Option String) : Ans (FullMsg Empty) (List (Val (FullMsg Empty))) :=
  decode (world body) (calls (world body) (program third) 1) libs (fun _ => plain "conv".toList) "In".toList "D".toList Decoders.Example.binding
    [("my_id".toList, "-7".toList)] ([("size".toList, [size.toList])] ++ note.toList.map fun n => ("note".toList, [n.toList])) start

/-- Two fields of the request, or the text and the status of the error; and whether the body was closed. -/
structure Seen where
  fields : Option (HTTPCode.FVal Empty × HTTPCode.FVal Empty)
  error : Option Str
  status : Option Nat
  closed : Bool
deriving DecidableEq

def seen : Ans (FullMsg Empty) (List (Val (FullMsg Empty))) → Option Seen
  | .ok [.msg _ m, .nil] st => some ⟨some (m.fields "Size".toList, m.fields "Note".toList), none, none, st.closed⟩
  | .ok [_, .err e] st => some ⟨none, some e.msg, e.status, st.closed⟩
  | .ok [.nil, .struct _ [(_, .err e), (_, .num c), _]] st => some ⟨none, some e.msg, some c, st.closed⟩
  | _ => none

example : seen (run "" "12" (some "hi")) = some ⟨some (.one (.num 12), .opt (some (.str "hi".toList))), none, none, true⟩ := by decide +kernel
example : seen (run "{note:n}" "12" none) = some ⟨some (.one (.num 12), .opt (some (.str "n".toList))), none, none, true⟩ := by decide +kernel
example : seen (run "{note:n}" "12" (some "hi")) = some ⟨some (.one (.num 12), .opt (some (.str "hi".toList))), none, none, true⟩ := by decide +kernel
example : seen (run "[" "12" none) = some ⟨none, some "request body '[': cannot parse non-json request body: syntax".toList, some 400, true⟩ := by decide +kernel
example : seen (run "" "-12" none) = some ⟨none, some "conv".toList, none, true⟩ := by decide +kernel

/-- The premises about the binding and the libraries. -/
example : Leftovers libs ∧ (∀ p ∈ plainParams Decoders.Example.binding, p.location ≠ "body".toList → Readable p) ∧
    (∀ p ∈ oneofParams Decoders.Example.binding, p.location = "query".toList → ReadableOneof p) ∧ Begins "In".toList :=
  ⟨libs_leftovers, readable, readable_oneof, 'I', "n".toList, rfl, by decide⟩

/-- An environment that decodes as the program does. -/
example (st : St (FullMsg Empty)) : ∃ env : GoRoutes.Env (FullMsg Empty) Nat (List Nat),
    Decodes env (world "[") third 1 libs (fun _ => plain "conv".toList) [] st Decoders.Example.rpcD Decoders.Example.binding 0 := by
  let d := fun vars => decode (world "[") (calls (world "[") (program third) 2) libs (fun _ => plain "conv".toList) (goCamelCase Decoders.Example.rpcD.request.name) Decoders.Example.rpcD.name Decoders.Example.binding vars [] st
  refine ⟨⟨fun _ s => s, fun _ vars _ => match d vars with
    | .ok [v, .nil] _ => .ok v
    | .ok [_, v] _ => .error v
    | _ => .error .nil, fun _ _ v s => (.ok v, s)⟩, fun vars c v er st' h => ⟨fun he => ?_, fun he => ?_⟩⟩
  · have hd : d vars = .ok [v, er] st' := h
    subst he
    simp only [hd]
  · have hd : d vars = .ok [v, er] st' := h
    simp only [hd]

end Example

end Baron.GoDecode
