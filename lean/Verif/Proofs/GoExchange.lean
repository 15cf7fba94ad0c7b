import Verif.Model.GoExchange
import Verif.Proofs.Transport
import Verif.Props.HTTPCall

/-!
# Lemmas for C104
-/

namespace Baron.GoExchange

open Baron.HTTP (look Piece TemplateOK templateOf cleanSegs)
open Baron.HTTPCode
open Baron.Transport (PlainPath pathOf)

theorem join_split (c : Char) (s : Str) : join c (split c s) = s := by
  induction s with
  | nil => rfl
  | cons x s ih =>
    unfold split
    by_cases h : x = c
    · rw [if_pos h]
      cases hs : split c s with
      | nil => exact absurd hs (HTTP.split_ne_nil _ _)
      | cons p ps =>
        rw [hs] at ih
        show [] ++ c :: join c (p :: ps) = _
        rw [ih, h]
        rfl
    · rw [if_neg h]
      cases hs : split c s with
      | nil => exact absurd hs (HTTP.split_ne_nil _ _)
      | cons p ps =>
        rw [hs] at ih
        simp only
        cases ps with
        | nil => rw [← ih]; rfl
        | cons q qs => rw [← ih]; rfl

theorem split_mem (c : Char) (s : Str) : ∀ p ∈ split c s, c ∉ p := by
  induction s with
  | nil => intro p hp; cases List.mem_singleton.1 hp; exact List.not_mem_nil
  | cons x s ih =>
    intro p hp
    unfold split at hp
    by_cases h : x = c
    · rw [if_pos h] at hp
      rcases List.mem_cons.1 hp with e | hp'
      · rw [e]; exact List.not_mem_nil
      · exact ih p hp'
    · rw [if_neg h] at hp
      cases hs : split c s with
      | nil => exact absurd hs (HTTP.split_ne_nil _ _)
      | cons y ys =>
        rw [hs] at hp ih
        simp only at hp
        rcases List.mem_cons.1 hp with e | hp'
        · rw [e]
          intro hc
          rcases List.mem_cons.1 hc with e' | hc'
          · exact h e'.symm
          · exact ih y List.mem_cons_self hc'
        · exact ih p (List.mem_cons_of_mem _ hp')

theorem cleanSegs_conv : ∀ (l : List Str), cleanSegs l = true → (∀ s ∈ l, s ≠ ['.'] ∧ s ≠ ['.', '.']) ∧ ∀ s ∈ l.dropLast, s ≠ []
  | [], _ => ⟨nofun, nofun⟩
  | [s], h => by
    simp [cleanSegs] at h
    exact ⟨fun t ht => by cases List.mem_singleton.1 ht; exact h, nofun⟩
  | s :: t :: r, h => by
    simp only [cleanSegs, Bool.and_eq_true, decide_eq_true_eq, ne_eq] at h
    obtain ⟨⟨⟨h1, h2⟩, h3⟩, h4⟩ := h
    obtain ⟨i1, i2⟩ := cleanSegs_conv (t :: r) h4
    refine ⟨fun x hx => ?_, fun x hx => ?_⟩
    · rcases List.mem_cons.1 hx with e | hx'
      · rw [e]; exact ⟨h2, h3⟩
      · exact i1 x hx'
    · rw [List.dropLast_cons_cons] at hx
      rcases List.mem_cons.1 hx with e | hx'
      · rw [e]; exact h1
      · exact i2 x hx'

/-- A path that a template matches is a plain one. -/
theorem matched_plain {ps : List Piece} (ho : TemplateOK ps) {path : Str} {vars : List (Str × Str)} (h : HTTP.muxVars (templateOf ps) path = some vars) :
    ∃ segs, PlainPath segs ∧ path = pathOf segs ∧ Transport.fitVars ps segs = some vars := by
  rw [HTTP.muxVars] at h
  split at h
  rotate_left
  · cases h
  rename_i hclean
  obtain ⟨segs, hsp⟩ : ∃ segs, split '/' path = [] :: segs := by
    rw [HTTP.split_template ho] at h
    cases hsplit : split '/' path with
    | nil => exact absurd hsplit (HTTP.split_ne_nil _ _)
    | cons x segs =>
      rw [hsplit, HTTP.muxGo, show HTTP.isParamPart ([] : Str) = false from rfl] at h
      simp only [Bool.false_eq_true, if_false] at h
      by_cases hx : ([] : Str) = x
      · exact ⟨segs, by rw [← hx]⟩
      · rw [if_neg hx] at h; cases h
  rw [hsp] at h hclean
  rw [Transport.muxGo_template ho] at h
  obtain ⟨d, e⟩ := cleanSegs_conv segs hclean
  refine ⟨segs, ⟨?_, fun s hs => ?_, d, e⟩, ?_, h⟩
  · rintro rfl
    cases ps with
    | nil => exact ho.some rfl
    | cons p ps => cases p <;> cases h
  · exact split_mem '/' path s (by rw [hsp]; exact List.mem_cons_of_mem _ hs)
  · rw [Transport.pathOf_eq, ← hsp, join_split]

variable {F : Type}

theorem decodeFields_look (fl : Floats F) (jok : JSONOk) {r r' : Request F} (hv : ∀ x, look r.vars x = look r'.vars x) (hq : r.query = r'.query) (fs : List HField) (m : Msg F) (e : Bool) :
    decodeFields fl jok r fs m e = decodeFields fl jok r' fs m e := by
  induction fs generalizing m e with
  | nil => rfl
  | cons f fs ih =>
    have hf : decodeField fl jok r f m e = decodeField fl jok r' f m e := by
      unfold decodeField
      rw [hv, hq]
    unfold decodeFields
    rw [hf]
    by_cases h : f.location = "body".toList
    · rw [if_pos h, if_pos h, ih]
    · rw [if_neg h, if_neg h]
      cases decodeField fl jok r' f m e with
      | error x => rfl
      | ok v => exact ih ..

/-- Decoding depends on what is found under the names of the variables, and on what the body is read as. -/
theorem decodeFull_look (fl : Floats F) (jok : JSONOk) (fs : List HField) (os : List HOneof) {zero zero' : FullMsg F} {r r' : FullRequest F}
    (hv : ∀ x, look r.vars x = look r'.vars x) (hq : r.query = r'.query) (h : r.body ≠ some none) (h' : r'.body ≠ some none)
    (hb : (r.body.bind id).getD zero = (r'.body.bind id).getD zero') :
    decodeFull fl jok zero fs os r = decodeFull fl jok zero' fs os r' := by
  have key : ∀ (z : FullMsg F) (q : FullRequest F), q.body ≠ some none → decodeFull fl jok z fs os q =
      match decodeFields fl jok q.plain fs ((q.body.bind id).getD z).fields false with
      | .error x => .error (.inl x)
      | .ok (m', e) => match decodeOneofs fl q.query os ((q.body.bind id).getD z).oneofs with
        | .error x => .error (.inr x)
        | .ok o => if e then .error (.inl .leftover) else .ok ⟨m', o⟩ := by
    intro z q hq
    unfold decodeFull
    cases hb : q.body with
    | none => rfl
    | some x => cases x with
      | none => exact absurd hb hq
      | some x => rfl
  rw [key _ _ h, key _ _ h', hb, hq, decodeFields_look fl jok (r := r.plain) (r' := r'.plain) hv hq]

end Baron.GoExchange
