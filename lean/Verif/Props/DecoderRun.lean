import Verif.Proofs.OneofRun
import Verif.Props.Decoder
import Verif.Props.Decoders
import Verif.Props.HTTPCode

/-!
# C90 What the generated request decoders do
-/

namespace Baron.Decoders

open Baron.Svcdef hiding newField
open Baron.HTTP Baron.HTTPCode Baron.GoLang
open Baron.GoLang (Expr)
open Baron.Strs (goCamelCase)
open Baron.Idents (Exported)

theorem upper_local {meth n : Str} (h : Exported n) : Upper (localOf meth n) :=
  Upper.append (Locals.exported_iff.mpr (Locals.upper_camel h)) _

/-- **C90** Run as a Go program, the statements of a decoder do what `decodeFull` says: they return the request it gives without an error,
panic if a parameter is there without a value, and return an error otherwise. The program never fails to compile or to find a variable. -/
theorem C90_run {F : Type} {L : Libs F} (hL : Leftovers L) {b : HTTPBinding} (meth : Str)
    (hp : ∀ p ∈ plainParams b, p.location ≠ "body".toList → Readable p)
    (ho : ∀ p ∈ oneofParams b, p.location = "query".toList → ReadableOneof p)
    (zero : FullMsg F) (r : FullRequest F) (hr : r.body ≠ some none) {σ : State F} (hσ : Ready r.vars r.query ((r.body.bind id).getD zero) σ) :
    match decodeFull L.fl L.jok zero (bindingFields b) (bindingOneofs b) r with
    | .ok m => ∃ σ', run L (decoderCode meth b) σ = .returned false σ' ∧ σ'.req = m
    | .error (.inl .emptyValues) => run L (decoderCode meth b) σ = .fault .panic
    | .error (.inr .emptyValues) => run L (decoderCode meth b) σ = .fault .panic
    | .error _ => ∃ σ', run L (decoderCode meth b) σ = .returned true σ' := by
  obtain ⟨⟨s, hss, h1, h2, h3⟩, hreq⟩ := hσ
  have hs : Bottom false r.plain.vars r.plain.query s := ⟨h1, h2, h3⟩
  have hσ : σ = ⟨[s], (r.body.bind id).getD zero⟩ := by cases σ; cases hss; cases hreq; rfl
  rw [hσ]
  generalize hm : (r.body.bind id).getD zero = m
  have hd : decodeFull L.fl L.jok zero (bindingFields b) (bindingOneofs b) r =
      match decodeFields L.fl L.jok r.plain (bindingFields b) m.fields false with
      | .error x => .error (.inl x)
      | .ok (m', e) => match decodeOneofs L.fl r.query (bindingOneofs b) m.oneofs with
        | .error x => .error (.inr x)
        | .ok o => if e then .error (.inl .leftover) else .ok ⟨m', o⟩ := by
    unfold decodeFull
    cases hb : r.body with
    | none => rw [hb] at hm; simp only; rw [hm]; rfl
    | some x =>
      cases x with
      | none => exact absurd hb hr
      | some x => rw [hb] at hm; simp only; rw [hm]; rfl
  rw [hd]
  have hf := fields_exec (L := L) (meth := meth) hL r.plain
    (((oneofParams b).filter fun p => p.location = chars% "query").map (fun p => oneofCode meth p.field.name p.field.type.oneof) ++
      [.ret (chars% "\n\t\t") (.addr (.id (chars% "req"))) (.id (chars% "err")) (.done [])])
    (plainParams b) (fun p h hl => ⟨hp p h hl, upper_local (hp p h hl).name⟩) (m := m) hs
  rw [show bindingFields b = (plainParams b).map newField from rfl]
  unfold decoderCode
  cases hdf : decodeFields L.fl L.jok r.plain ((plainParams b).map newField) m.fields false with
  | error x =>
    rw [hdf] at hf
    cases x <;> exact hf
  | ok v =>
    obtain ⟨f, e⟩ := v
    rw [hdf] at hf
    obtain ⟨s1, e1, b1⟩ := hf
    rw [e1]
    have hon := oneofs_exec (L := L) (meth := meth) (vars := r.plain.vars) (q := r.plain.query) [.ret (chars% "\n\t\t") (.addr (.id (chars% "req"))) (.id (chars% "err")) (.done [])]
      (oneofParams b) (fun p h hl => ⟨ho p h hl, fun o hmem => upper_local ((ho p h hl).options o hmem).2.2.2.1⟩) (m := { m with fields := f }) b1
    simp only
    rw [show bindingOneofs b = (oneofParams b).map fun p => ⟨p.field.name, p.location, p.field.type.oneof.map newOption⟩ from rfl]
    rw [show r.plain.query = r.query from rfl] at hon
    cases hdo : decodeOneofs L.fl r.query ((oneofParams b).map fun p => ⟨p.field.name, p.location, p.field.type.oneof.map newOption⟩) m.oneofs with
    | error x =>
      rw [show ({ m with fields := f } : FullMsg F).oneofs = m.oneofs from rfl, hdo] at hon
      cases x <;> exact hon
    | ok o =>
      rw [show ({ m with fields := f } : FullMsg F).oneofs = m.oneofs from rfl, hdo] at hon
      obtain ⟨s2, e2, b2⟩ := hon
      rw [e2]
      have hret : run L [Code.ret (chars% "\n\t\t") (.addr (.id (chars% "req"))) (.id (chars% "err")) (.done [])] ⟨[s2], ⟨f, o⟩⟩ = .returned e ⟨[s2], ⟨f, o⟩⟩ := by
        unfold run
        rw [exec_ret (eval_id (find_here b2.1))]
        rfl
      cases e with
      | true => exact ⟨_, hret⟩
      | false => exact ⟨_, hret, rfl⟩

namespace Example

open Baron.TT.Example

/-- Libraries without floating point numbers, in which a failed `json.Unmarshal` leaves nothing. -/
def libs : Libs Empty := ⟨noFloats, fun _ => true, fun _ _ => []⟩

theorem libs_leftovers : Leftovers libs := fun _ _ _ => rfl

theorem readable : ∀ p ∈ plainParams binding, p.location ≠ "body".toList → Readable p := by
  have h : ∀ p ∈ plainParams binding, p.location ≠ "body".toList → (p.location = "path".toList ∨ p.location = "query".toList) ∧
      compiles (newField p) = true ∧ (p.field.type.name ∈ scalarNames → isScalar p.field.type = true) ∧
      (p.field.type.array = true → isScalar p.field.type = true → p.field.type.star = false) ∧
      Locals.upper p.field.name = true ∧ '"' ∉ p.field.pbName ∧ '\\' ∉ p.field.pbName ∧ '\n' ∉ p.field.pbName := by decide +kernel
  intro p hp hl
  obtain ⟨h1, h2, h3, h4, h5, h6⟩ := h p hp hl
  exact ⟨h1, h2, h3, h4, Locals.exported_iff.mpr h5, h6⟩

theorem readable_oneof : ∀ p ∈ oneofParams binding, p.location = "query".toList → ReadableOneof p := by
  have h : ∀ p ∈ oneofParams binding, p.location = "query".toList → (∀ o ∈ p.field.type.oneof, o.star = false ∧ o.array = false ∧
      o.typeName ∈ scalarNames ∧ Locals.upper o.name = true ∧ goCamelCase o.name = o.name ∧
      '"' ∉ o.pbName ∧ '\\' ∉ o.pbName ∧ '\n' ∉ o.pbName) ∧ (p.field.type.oneof.map fun o => goCamelCase o.name).Nodup := by decide +kernel
  intro p hp hl
  obtain ⟨h1, h2⟩ := h p hp hl
  refine ⟨fun o ho => ?_, h2⟩
  obtain ⟨a, b, c, d, e, f⟩ := h1 o ho
  exact ⟨a, b, c, Locals.exported_iff.mpr d, e, f⟩

def zero : FullMsg Empty := ⟨fun _ => .one (.num 0), fun _ => none⟩

def request (size : String) : FullRequest Empty := ⟨[("my_id".toList, "-7".toList)],
  [("size".toList, [size.toList]), ("ids".toList, ["1".toList, "-2".toList]), ("note".toList, ["hi".toList]), ("blue".toList, ["sky".toList])], none⟩

def start (size : String) : State Empty := ⟨[fun x => if x = "err".toList then some (.err false)
  else if x = "pathParams".toList then some (.vars (request size).vars)
  else if x = "queryParams".toList then some (.query (request size).query) else none], zero⟩

theorem ready (size : String) : Ready (request size).vars (request size).query ((((request size).body).bind id).getD zero) (start size) :=
  ⟨⟨_, rfl, rfl, rfl, rfl⟩, rfl⟩

/-- The hypotheses of `C90_run` are met by it: a request that is decoded. -/
example : ∃ σ, run libs (decoderCode "D".toList binding) (start "12") = .returned false σ ∧ σ.req.fields "MyId".toList = .one (.num (-7)) ∧
    σ.req.fields "Size".toList = .one (.num 12) ∧ σ.req.fields "Ids".toList = .many [.num 1, .num (-2)] ∧
    σ.req.fields "Note".toList = .opt (some (.str "hi".toList)) ∧ σ.req.oneofs "Pick".toList = some ("Blue".toList, .str "sky".toList) := by
  have h := C90_run libs_leftovers "D".toList readable readable_oneof zero (request "12") nofun (ready "12")
  have hd : (match decodeFull libs.fl libs.jok zero (bindingFields binding) (bindingOneofs binding) (request "12") with
    | .ok m => some ([m.fields "MyId".toList, m.fields "Size".toList, m.fields "Ids".toList, m.fields "Note".toList], m.oneofs "Pick".toList)
    | .error _ => none) = some ([.one (.num (-7)), .one (.num 12), .many [.num 1, .num (-2)], .opt (some (.str "hi".toList))],
      some ("Blue".toList, .str "sky".toList)) := by decide +kernel
  cases he : decodeFull libs.fl libs.jok zero (bindingFields binding) (bindingOneofs binding) (request "12") with
  | error x => rw [he] at hd; cases hd
  | ok m =>
    rw [he] at h hd
    obtain ⟨σ, h1, h2⟩ := h
    cases h2
    simp only [Option.some.injEq, Prod.mk.injEq, List.cons.injEq, and_true, and_assoc] at hd
    exact ⟨σ, h1, hd⟩

/-- A request whose parameter is no number. -/
example : ∃ σ, run libs (decoderCode "D".toList binding) (start "-12") = .returned true σ := by
  have h := C90_run libs_leftovers "D".toList readable readable_oneof zero (request "-12") nofun (ready "-12")
  have hd : (match decodeFull libs.fl libs.jok zero (bindingFields binding) (bindingOneofs binding) (request "-12") with
    | .ok _ | .error (.inl .emptyValues) | .error (.inr .emptyValues) => false
    | .error _ => true) = true := by decide +kernel
  cases he : decodeFull libs.fl libs.jok zero (bindingFields binding) (bindingOneofs binding) (request "-12") with
  | ok m => rw [he] at hd; cases hd
  | error x =>
    rw [he] at h hd
    rcases x with x | x <;> cases x <;> first | exact h | cases hd

end Example

end Baron.Decoders
