import Verif.Model.HTTPCall
import Verif.Proofs.HTTPLabels
import Verif.Props.Transport
import Verif.Props.Runtime
import Verif.Props.Oneof

/-!
# Lemmas for C79
-/

namespace Baron.HTTPCall

open Baron.HTTP (look Piece templateOf TemplateOK muxGo englishNumber cleanSegs)
open Baron.HTTPCode (FullMsg FullRequest DErr OErr Floats JSONOk HField HOneof)
open Baron.Runtime (Ctx Header Err Response ErrJSON)
open Baron.Transport

variable {F S R : Type}

theorem labels_eq (m : Svcdef.ServiceMethod) :
    (m.bindings.zipIdx.map fun b => (m.name ++ englishNumber b.2, b.1)).map (·.1) = HTTP.methodLabels m := by
  rw [HTTP.methodLabels, List.map_map, List.range_eq_range', ← List.zipIdx_map_snd 0 m.bindings, List.map_map]
  rfl

theorem decoders_labels (s : Svcdef.Service) : (decoders s).map (·.1) = HTTP.serviceLabels s := by
  rw [decoders, HTTP.serviceLabels, List.map_flatMap]
  congr 1
  funext m
  exact labels_eq m

theorem decoders_look (s : Svcdef.Service) (hlab : (HTTP.serviceLabels s).Nodup) (m : Svcdef.ServiceMethod)
    (hm : m ∈ s.methods) (k : Nat) (b : Svcdef.HTTPBinding) (hb : m.bindings[k]? = some b) :
    look (decoders s) (m.name ++ englishNumber k) = some b := by
  apply Runtime.look_mem
  · rw [decoders_labels]; exact hlab
  · rw [decoders, List.mem_flatMap]
    refine ⟨m, ?_, ?_⟩
    · rw [List.mem_filter]
      refine ⟨hm, ?_⟩
      cases hbs : m.bindings with
      | nil => rw [hbs] at hb; simp at hb
      | cons => rfl
    · rw [List.mem_map]
      exact ⟨(b, k), by rw [List.mem_zipIdx_iff_getElem?]; exact hb, rfl⟩

theorem firstWith_get {s : Svcdef.Service} {P : Svcdef.HTTPBinding → Prop} {m : Svcdef.ServiceMethod} {k : Nat}
    {b : Svcdef.HTTPBinding} (h : FirstWith s P m k b) : m ∈ s.methods ∧ m.bindings[k]? = some b := by
  obtain ⟨-, ms₁, ms₂, bs₁, bs₂, hs, hb, hk, -, -⟩ := h
  refine ⟨by rw [hs]; simp, ?_⟩
  rw [hb, ← hk]
  simp

theorem serve_segs (s : Svcdef.Service) (verb path : Str) {segs : List Str} (h : split '/' path = [] :: segs)
    (hc : cleanSegs segs = true) :
    serve s verb path = match (routes s).find? (hit verb segs) with
      | none => .refused
      | some r => .handled r ((muxGo (split '/' r.tmpl) ([] :: segs)).getD []) := by
  rw [serve, h, List.tail_cons, hc, if_pos rfl, firstMatch_eq]
  cases List.find? (hit verb segs) (routes s) <;> rfl

/-- The handler of the first binding that takes the request is run. -/
theorem serveHTTP_first (L : Lib F R) (s : Svcdef.Service) (hw : Wellformed s) (hlab : (HTTP.serviceLabels s).Nodup)
    (hlow : ((s.methods.map (·.name)).map toLower).Nodup) (svc : Service F S R) (sctx : Ctx) (q : Req) (st : S)
    {segs : List Str} (hsp : split '/' q.path = [] :: segs) (hc : cleanSegs segs = true)
    (m : Svcdef.ServiceMethod) (k : Nat) (b : Svcdef.HTTPBinding) (h : FirstWith s (Takes · q.verb segs) m k b) :
    serveHTTP L s svc sctx q st =
      handle L b m.name (svc m.name) ((muxGo (split '/' b.path) ([] :: segs)).getD []) q sctx st := by
  rw [serveHTTP, serve_segs s q.verb q.path hsp hc, (find_some s hw q.verb segs _).2 ⟨m, k, b, h, rfl⟩]
  obtain ⟨h1, h2⟩ := firstWith_get h
  simp only [decoders_look s hlab m h1 k b h2,
    newEndpoints_look svc _ hlow m.name (List.mem_map.2 ⟨m, h1, rfl⟩)]

theorem decodeFields_err (fl : Floats F) (jok : JSONOk) (r : HTTPCode.Request F)
    (hq : ∀ k, look r.query k ≠ some []) (fs : List HField) (m : HTTPCode.Msg F) (e : Bool) (x : DErr)
    (h : HTTPCode.decodeFields fl jok r fs m e = .error x) : ∃ n, x = .field n := by
  induction fs generalizing m e with
  | nil => simp [HTTPCode.decodeFields] at h
  | cons f fs ih =>
    rw [HTTPCode.decodeFields] at h
    split at h
    · exact ih _ _ h
    · split at h
      · rename_i y hy
        cases h
        rw [HTTPCode.decodeField] at hy
        split at hy
        · split at hy
          · cases hy; exact ⟨_, rfl⟩
          · cases hy
        · split at hy
          · cases hy
          · rename_i hk; exact absurd hk (hq _)
          · split at hy
            · cases hy; exact ⟨_, rfl⟩
            · cases hy
      · exact ih _ _ h

theorem decodeOneofs_err (fl : Floats F) (query : List (Str × List Str)) (hq : ∀ k, look query k ≠ some [])
    (os : List HOneof) (m : Str → HTTPCode.OVal F) (x : OErr) (h : HTTPCode.decodeOneofs fl query os m = .error x) :
    x ≠ .emptyValues := by
  induction os generalizing m with
  | nil => simp [HTTPCode.decodeOneofs] at h
  | cons o os ih =>
    rw [HTTPCode.decodeOneofs] at h
    split at h
    · split at h
      · rename_i y hy
        cases h
        unfold HTTPCode.decodeOneof at hy
        simp only at hy
        split at hy
        · rename_i ha
          obtain ⟨p, -, hp⟩ := List.any_eq_true.1 ha
          exact absurd (of_decide_eq_true hp) (hq _)
        · split at hy
          · cases hy
          · split at hy
            · split at hy
              · cases hy
              · cases hy; nofun
            · cases hy; nofun
          · cases hy; nofun
      · exact ih _ h
    · exact ih _ h

theorem decodeFull_bad (fl : Floats F) (jok : JSONOk) (zero : FullMsg F) (fs : List HField) (os : List HOneof)
    (vars : List (Str × Str)) (query : List (Str × List Str)) :
    HTTPCode.decodeFull fl jok zero fs os ⟨vars, query, some none⟩ = .error (.inl .badBody) := rfl

/-- Which errors decoding gives when there is no empty list of query values. -/
theorem decodeFull_err (fl : Floats F) (jok : JSONOk) (zero : FullMsg F) (fs : List HField) (os : List HOneof)
    (r : FullRequest F) (hq : ∀ k, look r.query k ≠ some []) (hb : r.body ≠ some none) (x : DErr ⊕ OErr)
    (h : HTTPCode.decodeFull fl jok zero fs os r = .error x) :
    x ≠ .inl .badBody ∧ x ≠ .inl .emptyValues ∧ x ≠ .inr .emptyValues := by
  unfold HTTPCode.decodeFull at h
  split at h
  · rename_i hr; exact absurd hr hb
  · simp only at h
    split at h
    · rename_i y hy
      cases h
      obtain ⟨n, rfl⟩ := decodeFields_err fl jok r.plain hq _ _ _ _ hy
      exact ⟨nofun, nofun, nofun⟩
    · split at h
      · rename_i y hy
        cases h
        exact ⟨nofun, nofun, fun he => decodeOneofs_err fl r.query hq _ _ _ hy (by cases he; rfl)⟩
      · split at h
        · cases h; exact ⟨nofun, nofun, nofun⟩
        · cases h

end Baron.HTTPCall
