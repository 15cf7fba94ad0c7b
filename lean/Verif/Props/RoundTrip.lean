import Verif.Props.EncoderRun
import Verif.Props.DecoderRun

/-!
# C93 The generated encoder and the generated decoder, one after the other
-/

namespace Baron.Encoders

open Baron.Svcdef hiding newField
open Baron.HTTP Baron.HTTPCode
open Baron.Decoders (plainParams oneofParams Readable ReadableOneof Leftovers Ready decoderCode)
open Baron.GoClient (Http)

/-- The message that the decoder's parameters are read into: what the body is read as, or an empty one. -/
def fromBody {F R : Type} (lib : HTTPCall.Lib F R) (n : Str) : Option Str → FullMsg F
  | none => lib.zero n
  | some t => (lib.readReq n t).getD (lib.zero n)

/-- **C93** The program of the client, and the program of the server on what the client sends: for every message that C79 lets through (see
`C79_survives`), the encoder's program succeeds, the path it makes is one of the binding's template, and the decoder's program, run on the
template's variables in that path, the query and what it read from the body, returns that message, without an error. -/
theorem C93_round_trip {F R : Type} {lib : HTTPCall.Lib F R} {C : GoClient.Libs F} {S : GoLang.Libs F}
    (c1 : C.fl = lib.fl) (c2 : C.fzero = lib.fzero) (c3 : C.addr = lib.addr) (c4 : C.writeReq = lib.writeReq)
    (s1 : S.fl = lib.fl) (s2 : S.jok = lib.jok) (hL : Leftovers S)
    {b : HTTPBinding} {ps : List Piece} (hok : TemplateOK ps) (hp : b.path = templateOf ps)
    (ht : Typed C b) (hw : Writable b ps)
    (hr : ∀ p ∈ plainParams b, p.location ≠ "body".toList → Readable p)
    (ho : ∀ p ∈ oneofParams b, p.location = "query".toList → ReadableOneof p)
    {m : FullMsg F} (hm : Sendable C.fl b m) {n : Str} (hs : HTTPCall.Survives lib b n m) (hb : HTTPCall.BodyTravels lib b n m)
    (request meth raw : Str) {σ : GoClient.State F} (hσ : Called m ⟨[], basePath b.path, raw, [], none⟩ σ) :
    ∃ σ₁ vars, GoClient.run C (encoderCode request b ps) σ = .returned false σ₁ ∧ muxVars b.path σ₁.http.path = some vars ∧
      (σ₁.http.body = none ↔ b.verb = "get".toList) ∧
      ∀ σ₂, Ready vars σ₁.http.query (fromBody lib n σ₁.http.body) σ₂ →
        ∃ σ₃, GoLang.run S (decoderCode meth b) σ₂ = .returned false σ₃ ∧ σ₃.req = m := by
  have henc := C92_run request hok hp ht hw hm hσ
  obtain ⟨r, h1, h2⟩ := hs
  unfold transmitFull at h1
  unfold sent at henc
  rw [c1, c2, c3, c4] at henc
  simp only at henc
  cases hu : urlParsePath (clientPath (pathEnv lib.fl lib.addr (bindingFields b) m.fields) b.path) with
  | none => rw [hu] at h1; cases h1
  | some path =>
    rw [hu] at h1 henc
    simp only at h1 henc
    cases hv : muxVars b.path path with
    | none => rw [hv] at h1; cases h1
    | some vars =>
      rw [hv] at h1
      simp only [Option.some.injEq] at h1
      have hbr : r.body ≠ some none := by
        rw [← h1]
        by_cases hg : b.verb = "get".toList
        · simp only [if_pos hg]; nofun
        · simp only [if_neg hg]; nofun
      have hdec : ∀ σ₂, Ready r.vars r.query ((r.body.bind id).getD (lib.zero n)) σ₂ →
          ∃ σ₃, GoLang.run S (decoderCode meth b) σ₂ = .returned false σ₃ ∧ σ₃.req = m := by
        intro σ₂ hσ₂
        have := Decoders.C90_run hL meth hr ho (lib.zero n) r hbr hσ₂
        rw [s1, s2, h2] at this
        exact this
      by_cases hg : b.verb = "get".toList
      · rw [if_pos hg] at henc
        obtain ⟨σ₁, e1, e2, -⟩ := henc
        refine ⟨σ₁, vars, e1, by rw [e2]; exact hv, by rw [e2]; exact ⟨fun _ => hg, fun _ => rfl⟩, fun σ₂ hσ₂ => hdec σ₂ ?_⟩
        rw [e2] at hσ₂
        rw [← h1, if_pos hg]
        exact hσ₂
      · rw [if_neg hg] at henc
        obtain ⟨t, t1, -, t3⟩ := hb hg
        rw [t1] at henc
        obtain ⟨σ₁, e1, e2, -⟩ := henc
        refine ⟨σ₁, vars, e1, by rw [e2]; exact hv, by rw [e2]; exact ⟨nofun, fun h => absurd h hg⟩, fun σ₂ hσ₂ => hdec σ₂ ?_⟩
        rw [e2] at hσ₂
        rw [← h1, if_neg hg]
        have : fromBody lib n (some t) = m := by
          show (lib.readReq n t).getD (lib.zero n) = m
          rw [t3]
          rfl
        rw [this] at hσ₂
        exact hσ₂

namespace Example

open Baron.HTTPCall (c79Lib c79Get c79Msg c79_survives)

/-- The libraries of that client and that server. -/
def client : GoClient.Libs Empty where
  fl := c79Lib.fl
  fzero := c79Lib.fzero
  addr := c79Lib.addr
  enumText := fun _ => []
  rawPath := fun _ => []
  writeReq := c79Lib.writeReq
  field := look [("UserId".toList, some .int64), ("Nums".toList, some .int64)]
  option := fun _ => none

def server : GoLang.Libs Empty := ⟨c79Lib.fl, c79Lib.jok, fun _ _ => []⟩

def getPieces : List Piece := [.lit "v1".toList, .var "user_id".toList]

theorem getPieces_ok : TemplateOK getPieces := by
  refine ⟨fun s hs => ?_, fun n hn => ?_, by decide +kernel, by decide⟩
  · have : ∀ p ∈ getPieces, ∀ s ∈ [p.text], p.name? = none → '/' ∉ s ∧ '{' ∉ s ∧ '}' ∉ s := by decide +kernel
    rw [not_braced_iff]
    exact this _ hs s (List.mem_singleton.mpr rfl) rfl
  · have : ∀ p ∈ getPieces, ∀ s ∈ p.name?.toList, '/' ∉ s ∧ ('{' ∉ s ∧ '}' ∉ s) ∧ s ≠ [] := by decide +kernel
    rw [not_braced_iff]
    exact this _ hn n (List.mem_singleton.mpr rfl)

theorem noOneofs : oneofParams c79Get = [] := by decide +kernel

theorem get_writable : Writable c79Get getPieces := by
  refine ⟨fun n hn => ?_, fun l hl => ?_, fun p hp _ => ?_, fun p hp => by rw [noOneofs] at hp; cases hp⟩
  · have h : ∀ x ∈ getPieces, ∀ n ∈ x.name?.toList, ∃ p ∈ plainParams c79Get, p.location = "path".toList ∧
      Strs.goCamelCase p.field.name = Strs.goCamelCase n := by decide +kernel
    exact h _ hn n (List.mem_singleton.mpr rfl)
  · have h : ∀ x ∈ getPieces, x.name? = none → '"' ∉ x.text ∧ '\\' ∉ x.text ∧ '\n' ∉ x.text := by decide +kernel
    exact h _ hl rfl
  · have h : ∀ p ∈ plainParams c79Get, '"' ∉ p.field.pbName ∧ '\\' ∉ p.field.pbName ∧ '\n' ∉ p.field.pbName := by decide +kernel
    exact h p hp

theorem get_readable : ∀ p ∈ plainParams c79Get, p.location ≠ "body".toList → Readable p := by
  have h : ∀ p ∈ plainParams c79Get, p.location ≠ "body".toList → (p.location = "path".toList ∨ p.location = "query".toList) ∧
      compiles (HTTPCode.newField p) = true ∧ (p.field.type.name ∈ Decoders.scalarNames → Decoders.isScalar p.field.type = true) ∧
      (p.field.type.array = true → Decoders.isScalar p.field.type = true → p.field.type.star = false) ∧
      Locals.upper p.field.name = true ∧ '"' ∉ p.field.pbName ∧ '\\' ∉ p.field.pbName ∧ '\n' ∉ p.field.pbName := by decide +kernel
  intro p hp hl
  obtain ⟨h1, h2, h3, h4, h5, h6⟩ := h p hp hl
  exact ⟨h1, h2, h3, h4, Locals.exported_iff.mpr h5, h6⟩

theorem get_sendable : Sendable client.fl c79Get (c79Msg [1, 2, 3] "") := by
  have hb : plainParams c79Get = [HTTPCall.c79Id, HTTPCall.c79Nums] := by decide +kernel
  intro p hp _
  rw [hb] at hp
  simp only [List.mem_cons, List.not_mem_nil, or_false] at hp
  rcases hp with rfl | rfl
  · refine ⟨.single .int64, by unfold HasShape; decide +kernel, ?_⟩
    rw [show (c79Msg [1, 2, 3] "").fields (Strs.goCamelCase _) = .one (.num 7) by decide +kernel]
    show -(2 ^ 63) ≤ (7 : Int) ∧ _; decide
  · refine ⟨.repeated .int64, by unfold HasShape; decide +kernel, ?_⟩
    rw [show (c79Msg [1, 2, 3] "").fields (Strs.goCamelCase _) = .many [.num 1, .num 2, .num 3] by decide +kernel]
    intro v hv
    rcases List.mem_cons.mp hv with rfl | hv
    · show -(2 ^ 63) ≤ (1 : Int) ∧ _; decide
    · rcases List.mem_cons.mp hv with rfl | hv
      · show -(2 ^ 63) ≤ (2 : Int) ∧ _; decide
      · rcases List.mem_cons.mp hv with rfl | hv
        · show -(2 ^ 63) ≤ (3 : Int) ∧ _; decide
        · cases hv

def call : GoClient.State Empty := ⟨[fun x => if x = "request".toList then some .msg else none], c79Msg [1, 2, 3] "",
  ⟨[], basePath c79Get.path, [], [], none⟩⟩

/-- The hypotheses of `C93_round_trip` are met by a call of `Get` with three numbers. -/
example : ∃ σ₁ vars, GoClient.run client (encoderCode "Req".toList c79Get getPieces) call = .returned false σ₁ ∧
    muxVars c79Get.path σ₁.http.path = some vars ∧ ∃ σ₂ σ₃, Ready vars σ₁.http.query (fromBody c79Lib "Get".toList σ₁.http.body) σ₂ ∧
      GoLang.run server (decoderCode "Get".toList c79Get) σ₂ = .returned false σ₃ ∧ σ₃.req = c79Msg [1, 2, 3] "" := by
  obtain ⟨σ₁, vars, h1, h2, -, h3⟩ := C93_round_trip (lib := c79Lib) (C := client) (S := server) rfl rfl rfl rfl rfl rfl (fun _ _ _ => rfl)
    getPieces_ok (by decide +kernel) ⟨by decide +kernel, by decide +kernel, fun p hp => by rw [noOneofs] at hp; cases hp⟩ get_writable get_readable
    (fun p hp => by rw [noOneofs] at hp; cases hp) get_sendable c79_survives (fun h => absurd rfl h) "Req".toList "Get".toList []
    (σ := call) ⟨⟨_, rfl, rfl⟩, rfl, rfl⟩
  let σ₂ : GoLang.State Empty := ⟨[fun x => if x = "err".toList then some (.err false) else if x = "pathParams".toList then some (.vars vars)
    else if x = "queryParams".toList then some (.query σ₁.http.query) else none], fromBody c79Lib "Get".toList σ₁.http.body⟩
  have hσ₂ : Ready vars σ₁.http.query (fromBody c79Lib "Get".toList σ₁.http.body) σ₂ := ⟨⟨_, rfl, rfl, rfl, rfl⟩, rfl⟩
  obtain ⟨σ₃, h4, h5⟩ := h3 σ₂ hσ₂
  exact ⟨σ₁, vars, h1, h2, σ₂, σ₃, hσ₂, h4, h5⟩

end Example

end Baron.Encoders
