import Verif.Proofs.HTTPCode
import Verif.Props.HTTPNames

/-!
# C25, C26, C44: the generated HTTP request encoder and decoder
-/

namespace Baron.HTTPCode

open Baron.HTTP

variable {F : Type}

/-- The message a request's body holds: the zero message when there is no body. -/
def bodyOr (zero : Msg F) : Option (Option (Msg F)) → Msg F
  | some (some m) => m
  | _ => zero

/-! ## C26 -/

/-- **C26**, exactly: decoding succeeds with message `m` when and only when the body is not malformed, every field of `m`
with a parameter in path or query holds what the decoder stores for its texts, every other field has its value from the
body, or zero, and no error left behind by a repeated string is noticed. -/
theorem C26_decode_iff (fl : Floats F) (jok : JSONOk) (zero : Msg F) (fs : List HField) (r : Request F)
    (hloc : ∀ f ∈ fs, InPath f ∨ InQuery f ∨ InBody f) (hnd : (fs.map (·.camelName)).Nodup)
    (hshape : ∀ f ∈ fs, ¬ InBody f → ∃ sh, HasShape f sh)
    (hwf : ∀ k, look r.query k ≠ some []) (m : Msg F) :
    decodeRequest fl jok zero fs r = .ok m ↔
      r.body ≠ some none ∧
      (∀ f ∈ fs, ∀ ts, carried r f = some ts → ∀ sh, HasShape f sh → Stores fl jok sh ts (m f.camelName)) ∧
      (∀ n, (∀ f ∈ fs, f.camelName = n → carried r f = none) → m n = bodyOr zero r.body n) ∧
      NoErrorNoticed (effects fl r fs) := by
  have hne : ∀ f ∈ fs, carried r f ≠ some [] := by
    intro f _ h
    unfold carried at h
    split at h
    · simp at h
    · split at h
      · exact hwf _ h
      · cases h
  unfold decodeRequest
  split
  · rename_i hb
    rw [hb]
    simp
  · rename_i hb
    have hm : (r.body.bind id).getD zero = bodyOr zero r.body := by
      rcases hbd : r.body with _ | _ | m' <;> rfl
    rw [hm, ← (flags_iff (effects fl r fs)).1]
    have hex := fun m' e => decodeFields_exact fl jok r fs (bodyOr zero r.body) m' false e hloc hshape hne hnd
    constructor
    · intro h
      cases hd : decodeFields fl jok r fs (bodyOr zero r.body) false with
      | error x => rw [hd] at h; cases h
      | ok p =>
        obtain ⟨m', e⟩ := p
        rw [hd] at h
        cases e with
        | true => simp at h
        | false =>
          simp only [Bool.false_eq_true, if_false, Except.ok.injEq] at h
          subst h
          exact ⟨hb, (hex _ _).1 hd⟩
    · rintro ⟨-, h⟩
      rw [(hex m false).2 h]; rfl

/-- **C26.** If every single text for a repeated string is a list (in particular if there is none): decoding succeeds with
message `m` exactly when the body is not malformed, every path field of `m` is its path text read as the field's type, every
query field present in the query is its query texts read as the field's type, and every other field has its value from the
body, or zero. -/
theorem C26_path_query_override (fl : Floats F) (jok : JSONOk) (zero : Msg F) (fs : List HField) (r : Request F)
    (hloc : ∀ f ∈ fs, InPath f ∨ InQuery f ∨ InBody f) (hnd : (fs.map (·.camelName)).Nodup)
    (hshape : ∀ f ∈ fs, ¬ InBody f → ∃ sh, HasShape f sh)
    (hwf : ∀ k, look r.query k ≠ some [])
    (hlone : ∀ f ∈ fs, HasShape f (.repeated .string) → ∀ s, carried r f = some [s] → ¬ NoList fl s) (m : Msg F) :
    decodeRequest fl jok zero fs r = .ok m ↔
      r.body ≠ some none ∧
      (∀ f ∈ fs, ∀ ts, carried r f = some ts → ∀ sh, HasShape f sh → Reads fl jok sh ts (m f.camelName)) ∧
      (∀ n, (∀ f ∈ fs, f.camelName = n → carried r f = none) → m n = bodyOr zero r.body n) := by
  rw [C26_decode_iff fl jok zero fs r hloc hnd hshape hwf]
  have hno : NoErrorNoticed (effects fl r fs) := by
    intro b a h
    exfalso
    have hmem : Effect.leaves ∈ effects fl r fs := by rw [h]; simp
    obtain ⟨f, hf, he⟩ := List.mem_filterMap.1 hmem
    cases hc : carried r f with
    | none => rw [hc] at he; cases he
    | some ts =>
      rw [hc, Option.map_some, Option.some.injEq] at he
      have hb : ¬ InBody f := by
        intro hb; rw [carried_body hb] at hc; cases hc
      obtain ⟨sh, hs⟩ := hshape f hf hb
      unfold effect at he
      split at he
      · rename_i hrb
        split at he
        · split at he
          · rename_i hst
            refine hlone f hf ?_ _ hc hst.2
            have hsh : sh = .repeated .string := by
              have hbs := (baseOf_string _).2 hst.1
              cases sh with
              | repeated b =>
                obtain ⟨h1, h2, h3, h4, h5⟩ := hs
                rw [hbs] at h3; cases h3; rfl
              | single b => exact absurd hrb.1 (by rw [hs.2.2.2.2]; decide)
              | optional b => exact absurd hrb.1 (by rw [hs.2.2.2.2]; decide)
              | enum => exact absurd hrb.2 (by rw [hs.2.1]; decide)
              | message => exact absurd hrb.2 (by rw [hs.2.1]; decide)
              | messages => exact absurd hrb.2 (by rw [hs.1]; decide)
            rw [← hsh]; exact hs
          · cases he
        · cases he
      · split at he
        · cases he
        · split at he <;> cases he
  have hst : ∀ f ∈ fs, ∀ ts, carried r f = some ts → ∀ sh, HasShape f sh → ∀ v,
      (Stores fl jok sh ts v ↔ Reads fl jok sh ts v) := by
    intro f hf ts hc sh hs v
    unfold Stores
    split
    · exact ⟨fun h => h.resolve_right fun h' => hlone f hf hs _ hc h'.1, .inl⟩
    · rfl
  constructor
  · rintro ⟨h1, h2, h3, -⟩
    exact ⟨h1, fun f hf ts hc sh hs => (hst f hf ts hc sh hs _).1 (h2 f hf ts hc sh hs), h3⟩
  · rintro ⟨h1, h2, h3⟩
    exact ⟨h1, fun f hf ts hc sh hs => (hst f hf ts hc sh hs _).2 (h2 f hf ts hc sh hs), h3, hno⟩

/-- A malformed body is always refused. -/
theorem C26_malformed_body (fl : Floats F) (jok : JSONOk) (zero : Msg F) (fs : List HField) (r : Request F)
    (h : r.body = some none) : decodeRequest fl jok zero fs r = .error .badBody := by
  rw [decodeRequest, h]

/-! ## C25 -/

theorem round_trip (fl : Floats F) (jok : JSONOk) (addr : Str → Str) (zero : Msg F) (verb : Str)
    (ps : List Piece) (fs : List HField) (m : Msg F)
    (hloc : ∀ f ∈ fs, InPath f ∨ InQuery f ∨ InBody f)
    (hcamel : (fs.map (·.camelName)).Nodup) (hname : (fs.map (·.queryParamName)).Nodup)
    (htmpl : TemplateOK ps)
    (hlit : ∀ s, Piece.lit s ∈ ps → PathText s)
    (hvar : ∀ n, Piece.var n ∈ ps → ∃ f ∈ fs, InPath f ∧ f.queryParamName = n)
    (hpath : ∀ f ∈ fs, InPath f → Piece.var f.queryParamName ∈ ps ∧
      Strs.goCamelCase f.queryParamName = f.camelName ∧
      ∃ sh, HasShape f sh ∧ Holds fl sh (m f.camelName) ∧ PathShape sh ∧ PathOK sh (m f.camelName))
    (hquery : ∀ f ∈ fs, InQuery f →
      ∃ sh, HasShape f sh ∧ Holds fl sh (m f.camelName) ∧ QueryOK fl jok sh (m f.camelName))
    (hzero : ∀ f ∈ fs, ∀ sh, HasShape f sh → ∀ v, absent sh v → zero f.camelName = v)
    (hget : verb = "get".toList → ∀ n, m n = zero n ∨ ∃ f ∈ fs, f.camelName = n ∧ (InPath f ∨ InQuery f)) :
    ∃ r, transmit fl addr verb (templateOf ps) fs m = some r ∧ decodeRequest fl jok zero fs r = .ok m := by
  -- the path
  have henv : ∀ f ∈ fs, InPath f → ∃ s sh, pathEnv fl addr fs m (Strs.goCamelCase f.queryParamName) = s ∧
      HasShape f sh ∧ Reads fl jok sh [s] (m f.camelName) ∧ ¬ LoneString sh [s] ∧
      UrlSafe s ∧ s ≠ [] ∧ s ≠ ['.'] ∧ s ≠ ['.', '.'] := by
    intro f hf hp
    obtain ⟨-, hgc, sh, hs, hh, hps, hpo⟩ := hpath f hf hp
    obtain ⟨s, hse, hrest⟩ := reads_path fl jok addr f sh hs _ hh hps hpo
    refine ⟨s, sh, ?_, hs, hrest⟩
    rw [hgc, pathEnv_field fl addr fs m f hf hcamel, hse]
  have hvals : ∀ p ∈ ps, UrlSafe (p.value (pathEnv fl addr fs m)) ∧ p.value (pathEnv fl addr fs m) ≠ [] ∧
      p.value (pathEnv fl addr fs m) ≠ ['.'] ∧ p.value (pathEnv fl addr fs m) ≠ ['.', '.'] := by
    intro p hp
    cases p with
    | lit s => exact hlit s hp
    | var n =>
      obtain ⟨f, hf, hfp, rfl⟩ := hvar n hp
      obtain ⟨s, sh, he, -, -, -, h⟩ := henv f hf hfp
      simp only [Piece.value, he]
      exact h
  obtain ⟨path, vars, hurl, hmux, hlook⟩ := client_to_handler ps htmpl (pathEnv fl addr fs m)
    (fun p hp => ⟨(hvals p hp).1, (hvals p hp).2.2⟩) (fun p hp => (hvals p (List.dropLast_subset _ hp)).2.1)
    (fun n hn => (hvals _ hn).2.1)
  let r : Request F := {
    vars := vars, query := encodeQuery fl fs m, body := if verb = "get".toList then none else some (some m) }
  refine ⟨r, by simp only [transmit, hurl, hmux]; rfl, ?_⟩
  -- the query
  have hq : ∀ f ∈ fs, InQuery f → look r.query f.queryParamName =
      if texts fl f (m f.camelName) = [] then none else some (texts fl f (m f.camelName)) := by
    intro f hf hfq
    apply look_encode
    · exact (List.Sublist.map _ List.filter_sublist).nodup hname
    · exact List.mem_filter.2 ⟨hf, decide_eq_true hfq⟩
    · rfl
  have hpq : ∀ f, InPath f → ¬ InQuery f := by
    intro f h h'
    unfold InPath InQuery at *
    rw [h] at h'; exact absurd h' (by decide +kernel)
  have hbad : ∀ f, InBody f → ¬ InPath f ∧ ¬ InQuery f := by
    intro f h
    unfold InBody InPath InQuery at *
    rw [h]; decide +kernel
  have hparam : ∀ f ∈ fs, ¬ InBody f → ∃ sh, HasShape f sh ∧
      ((paramTexts r f = none ∧ absent sh (m f.camelName)) ∨
       ∃ ts, paramTexts r f = some ts ∧ ts ≠ [] ∧ ¬ LoneString sh ts ∧ Reads fl jok sh ts (m f.camelName)) := by
    intro f hf hb
    rcases hloc f hf with h | h | h
    · obtain ⟨s, sh, he, hs, hr, hl, hsafe⟩ := henv f hf h
      refine ⟨sh, hs, Or.inr ⟨[s], ?_, by simp, hl, hr⟩⟩
      have : look vars f.queryParamName = some s := by
        rw [hlook, if_pos (hpath f hf h).1, he]
      unfold paramTexts
      rw [if_pos (show f.location = "path".toList from h)]
      show some [(look vars f.queryParamName).getD []] = _
      rw [this]; rfl
    · obtain ⟨sh, hs, hh, hqo⟩ := hquery f hf h
      have hnp : f.location ≠ "path".toList := fun hp => hpq f hp h
      refine ⟨sh, hs, ?_⟩
      unfold paramTexts
      rw [if_neg hnp, hq f hf h]
      rcases reads_texts fl jok f sh hs _ hh hqo with ⟨h1, h2⟩ | ⟨h1, h2, h3⟩
      · left; rw [if_pos h1]; exact ⟨rfl, h2⟩
      · right; rw [if_neg h1]; exact ⟨_, rfl, h1, h2, h3⟩
    · exact absurd h hb
  -- decoding
  have hdec := decodeFields_iff fl jok r fs ((r.body.bind id).getD zero) m (by
    intro f hf hb
    obtain ⟨sh, hs, h⟩ := hparam f hf hb
    refine ⟨sh, hs, ?_⟩
    intro ts ht
    rcases h with ⟨h, -⟩ | ⟨ts', h, h1, h2, -⟩
    · rw [h] at ht; cases ht
    · rw [h] at ht; cases ht; exact ⟨h1, h2⟩) hcamel
  have hok : ∃ e, decodeFields fl jok r fs ((r.body.bind id).getD zero) false = .ok (m, e) := by
    rw [hdec.1]
    refine ⟨?_, ?_⟩
    · intro f hf hb ts ht sh' hs'
      obtain ⟨sh, hs, h⟩ := hparam f hf hb
      rw [shape_unique hs' hs]
      rcases h with ⟨h, -⟩ | ⟨ts', h, -, -, h3⟩
      · rw [h] at ht; cases ht
      · rw [h] at ht; cases ht; exact h3
    · intro n hn
      by_cases hv : verb = "get".toList
      · have hbody : (r.body.bind id).getD zero = zero := by
          show ((if verb = "get".toList then none else some (some m) : Option (Option (Msg F))).bind id).getD zero = zero
          rw [if_pos hv]; rfl
        rw [hbody]
        rcases hget hv n with h | ⟨f, hf, rfl, hl⟩
        · exact h
        · have hb : ¬ InBody f := by
            intro hb
            rcases hl with h | h
            · exact (hbad f hb).1 h
            · exact (hbad f hb).2 h
          obtain ⟨sh, hs, h⟩ := hparam f hf hb
          rcases h with ⟨-, h⟩ | ⟨ts', h, -⟩
          · exact (hzero f hf sh hs _ h).symm
          · rw [hn f hf hb rfl] at h; cases h
      · have hbody : (r.body.bind id).getD zero = m := by
          show ((if verb = "get".toList then none else some (some m) : Option (Option (Msg F))).bind id).getD zero = m
          rw [if_neg hv]; rfl
        rw [hbody]
  obtain ⟨e, he⟩ := hok
  have hef := hdec.2 m e he
  subst hef
  unfold decodeRequest
  split
  · rename_i hb
    exfalso
    have : r.body = if verb = "get".toList then none else some (some m) := rfl
    rw [this] at hb
    split at hb <;> simp at hb
  · rw [he]; rfl

/-- A list of one string is never read as itself: its text is read as JSON. -/
theorem lone_string_lost (fl : Floats F) (jok : JSONOk) (s : Str) :
    ¬ Stores fl jok (.repeated .string) [s] (.many [.str s]) := by
  have scalar : ∀ e x, jsonScalar fl .string e = some (.str x) → x.length < e.length := by
    intro e x h
    unfold jsonScalar at h
    simp only at h
    split at h
    · rename_i q
      split at h
      · cases h
        simp only [List.length_dropLast, List.length_cons]; omega
      · cases h
    · cases h
  have arr : ∀ t x, jsonArray fl .string t = some [.str x] → ∃ q, t = '[' :: q ∧ x.length < q.length - 1 := by
    intro t x h
    unfold jsonArray at h
    split at h
    · cases h
    · split at h
      · rename_i q _
        split at h
        · cases h
        · split at h
          · refine ⟨q, rfl, ?_⟩
            have h' := (allSome_iff _ _).1 h
            cases hs : split ',' q.dropLast with
            | nil => rw [hs] at h'; cases h'
            | cons e l =>
              rw [hs] at h'
              cases l with
              | cons _ _ => simp at h'
              | nil =>
                simp only [List.map_cons, List.map_nil, List.cons.injEq, and_true] at h'
                have h1 := scalar e x h'
                have h2 : e.length = q.dropLast.length := by
                  have := join_split ',' q.dropLast
                  rw [hs, join] at this
                  rw [this]
                rw [List.length_dropLast] at h2
                omega
          · cases h
      · cases h
  rintro (⟨l, hl, h⟩ | ⟨-, h⟩)
  · cases hl
    rcases h with h | ⟨-, h⟩
    · obtain ⟨q, rfl, hlt⟩ := arr _ _ h
      simp only [List.length_cons] at hlt; omega
    · obtain ⟨q, hq, hlt⟩ := arr _ _ h
      simp only [List.cons_append, List.cons.injEq, true_and] at hq
      rw [← hq] at hlt
      simp only [List.length_append, List.length_cons, List.length_nil] at hlt; omega
  · simp only [FVal.many.injEq] at h
    have : (fl.junk s).map SVal.str = [s].map (SVal.str (F := F)) := by rw [← h]; rfl
    exact fl.junk_ne s ((List.map_inj_right (fun a b (e : SVal.str (F := F) a = .str b) => by cases e; rfl)).1 this)

/-- A list of one float that is read back has a text that is a JSON number. -/
theorem lone_float (fl : Floats F) (b : Base) (hb : b = .float32 ∨ b = .float64) (x : F)
    (h : Reads fl jok (.repeated b) [fl.fmt (b = .float32) x] (.many [.flt x])) : JsonFloat fl (b = .float32) x := by
  have hplain := fl.fmt_plain (b = .float32) x
  have hpt := floatText_path fl (b = .float32) x
  generalize hs : fl.fmt (b = .float32) x = s at h hplain hpt
  obtain ⟨l, hl, h⟩ := h
  cases hl
  have hnc : ',' ∉ s := by
    intro hc
    rcases hplain.2 _ hc with h | h | h | h <;> revert h <;> decide
  have hnb : s.head? ≠ some '[' := by
    intro hh
    cases s with
    | nil => cases hh
    | cons c r =>
      cases hh
      rcases hplain.2 '[' (by simp) with h | h | h | h <;> revert h <;> decide
  have hsc : jsonScalar fl b s = some (.flt x) := by
    rcases h with h | ⟨-, h⟩
    · exfalso
      unfold jsonArray at h
      split at h
      · cases h
      · split at h
        · exact hnb rfl
        · cases h
    · unfold jsonArray at h
      split at h
      · cases h
      · rw [List.cons_append] at h
        simp only at h
        split at h
        · rename_i he
          have : s = [] := by simpa using he
          exact absurd this hpt.2.1
        · rw [if_pos (by simp), List.dropLast_concat, split_none _ _ hnc] at h
          have := (allSome_iff _ _).1 h
          simpa using this
  have key : s.head? ≠ some '+' ∧ noLeadingZero s = true ∧ s.all jsonNumChar = true := by
    rcases hb with rfl | rfl
    · unfold jsonScalar at hsc
      simp only at hsc
      split at hsc
      · rename_i hc; exact ⟨hc.1, by simpa using hc.2.1, hc.2.2⟩
      · cases hsc
    · unfold jsonScalar at hsc
      simp only at hsc
      split at hsc
      · rename_i hc; exact ⟨hc.1, by simpa using hc.2.1, hc.2.2⟩
      · cases hsc
  unfold JsonFloat
  rw [hs]
  exact ⟨key.1, key.2.1, key.2.2, hpt.2.1⟩

/-- What is stored back from a field's own texts was one the query can carry. -/
theorem stored_queryOK (fl : Floats F) (jok : JSONOk) (f : HField) (sh : Shape) (hs : HasShape f sh) (v : FVal F)
    (hh : Holds fl sh v) (h : texts fl f v ≠ [] → Stores fl jok sh (texts fl f v) v) : QueryOK fl jok sh v := by
  cases sh with
  | single b => trivial
  | optional b => trivial
  | enum => trivial
  | message =>
    obtain ⟨h1, h2, h3, h4⟩ := hs
    cases v with
    | other j =>
      have ht : texts fl f (.other j) = [j] := by simp [texts, h2, h4]
      rw [ht] at h
      obtain ⟨h5, h6⟩ := h (by simp)
      refine ⟨h5, ?_⟩
      intro e
      rw [if_pos e, e] at h6
      simp only [FVal.other.injEq] at h6
      revert h6; decide
    | _ => simp [Holds] at hh
  | messages =>
    obtain ⟨h1, h2⟩ := hs
    cases v with
    | other j =>
      have ht : texts fl f (.other j) = [j] := by simp [texts, h1, h2]
      rw [ht] at h
      exact (h (by simp)).1
    | _ => simp [Holds] at hh
  | repeated b =>
    obtain ⟨h1, h2, h3, h4, h5⟩ := hs
    cases v with
    | many l =>
      have ht : texts fl f (.many l) = l.map (sprint fl b) := by
        simp [texts, h1, h5, h3]
      rw [ht] at h
      cases b with
      | string =>
        simp only [QueryOK]
        intro hlen
        obtain ⟨x, rfl⟩ : ∃ x, l = [x] := by
          cases l with
          | nil => cases hlen
          | cons x l => cases l with
            | nil => exact ⟨x, rfl⟩
            | cons _ _ => simp at hlen
        cases x with
        | str s => exact lone_string_lost fl jok s (h (by simp))
        | num i => exact (hh (.num i) (.head _)).elim
        | bool i => exact (hh (.bool i) (.head _)).elim
        | flt i => exact (hh (.flt i) (.head _)).elim
      | float32 =>
        simp only [QueryOK]
        rintro x rfl
        have := h (by simp)
        exact lone_float (jok := jok) fl .float32 (.inl rfl) x this
      | float64 =>
        simp only [QueryOK]
        rintro x rfl
        have := h (by simp)
        exact lone_float (jok := jok) fl .float64 (.inr rfl) x this
      | _ => trivial
    | _ => simp [Holds] at hh

/-- **C25**, exactly. For every template and fields whose path fields are single scalars or enums named like the template's
parameters and whose query fields are scalars, optionals, lists, enums or messages: the server's decoder gives back the
client's message if and only if each string in the path is one a path segment carries unchanged, each query field carries
its value (no list of exactly one string, no nil message, no infinite or undefined number as the only element of a list),
and, for a GET, the fields of the body are zero. -/
theorem C25_round_trip (fl : Floats F) (jok : JSONOk) (addr : Str → Str) (zero : Msg F) (verb : Str)
    (ps : List Piece) (fs : List HField) (m : Msg F)
    (hloc : ∀ f ∈ fs, InPath f ∨ InQuery f ∨ InBody f)
    (hcamel : (fs.map (·.camelName)).Nodup) (hname : (fs.map (·.queryParamName)).Nodup)
    (htmpl : TemplateOK ps)
    (hlit : ∀ s, Piece.lit s ∈ ps → PathText s)
    (hvar : ∀ n, Piece.var n ∈ ps → ∃ f ∈ fs, InPath f ∧ f.queryParamName = n)
    (hpath : ∀ f ∈ fs, InPath f → Piece.var f.queryParamName ∈ ps ∧
      Strs.goCamelCase f.queryParamName = f.camelName ∧
      ∃ sh, HasShape f sh ∧ Holds fl sh (m f.camelName) ∧ PathShape sh)
    (hquery : ∀ f ∈ fs, InQuery f → ∃ sh, HasShape f sh ∧ Holds fl sh (m f.camelName))
    (hzero : ∀ f ∈ fs, ∀ sh, HasShape f sh → ∀ v, absent sh v → zero f.camelName = v) :
    (∃ r, transmit fl addr verb (templateOf ps) fs m = some r ∧ decodeRequest fl jok zero fs r = .ok m) ↔
      (∀ f ∈ fs, InPath f → ∀ sh, HasShape f sh → PathOK sh (m f.camelName)) ∧
      (∀ f ∈ fs, InQuery f → ∀ sh, HasShape f sh → QueryOK fl jok sh (m f.camelName)) ∧
      (verb = "get".toList → ∀ n, m n = zero n ∨ ∃ f ∈ fs, f.camelName = n ∧ (InPath f ∨ InQuery f)) := by
  constructor
  · rintro ⟨r, ht, hd⟩
    unfold transmit at ht
    split at ht
    · cases ht
    · rename_i path hurl
      split at ht
      · cases ht
      · rename_i vars hmux
        cases ht
        have hq : ∀ f ∈ fs, InQuery f → look (encodeQuery fl fs m) f.queryParamName =
            if texts fl f (m f.camelName) = [] then none else some (texts fl f (m f.camelName)) := by
          intro f hf hfq
          apply look_encode
          · exact (List.Sublist.map _ List.filter_sublist).nodup hname
          · exact List.mem_filter.2 ⟨hf, decide_eq_true hfq⟩
          · rfl
        have hwf : ∀ k, look (encodeQuery fl fs m) k ≠ some [] := by
          intro k
          unfold encodeQuery
          suffices H : ∀ (gs : List HField) (q : List (Str × List Str)), look q k ≠ some [] →
              look (gs.foldl (fun q f => encodeField fl f (m f.camelName) q) q) k ≠ some [] from
            H _ _ (by simp [look])
          intro gs
          induction gs with
          | nil => exact fun q h => h
          | cons g gs ih =>
            intro q h
            rw [List.foldl_cons]
            apply ih
            rw [encodeField_eq, look_addValues]
            split
            · rename_i hc
              intro he
              simp only [Option.some.injEq, List.append_eq_nil_iff] at he
              exact hc.2 he.2
            · exact h
        have hshape : ∀ f ∈ fs, ¬ InBody f → ∃ sh, HasShape f sh := by
          intro f hf hb
          rcases hloc f hf with h | h | h
          · obtain ⟨-, -, sh, hs, -⟩ := hpath f hf h; exact ⟨sh, hs⟩
          · obtain ⟨sh, hs, -⟩ := hquery f hf h; exact ⟨sh, hs⟩
          · exact absurd h hb
        obtain ⟨-, hst, hrest, -⟩ := (C26_decode_iff fl jok zero fs _ hloc hcamel hshape hwf m).1 hd
        have hcpath : ∀ f ∈ fs, InPath f → carried (F := F) ⟨vars, encodeQuery fl fs m,
            if verb = "get".toList then none else some (some m)⟩ f = some [(look vars f.queryParamName).getD []] := by
          intro f _ h
          unfold carried
          rw [if_pos (show f.location = "path".toList from h)]
        have hcquery : ∀ f ∈ fs, InQuery f → carried (F := F) ⟨vars, encodeQuery fl fs m,
            if verb = "get".toList then none else some (some m)⟩ f =
              if texts fl f (m f.camelName) = [] then none else some (texts fl f (m f.camelName)) := by
          intro f hf h
          rw [← hq f hf h]
          unfold carried
          have h' : f.location = "query".toList := h
          rw [if_neg (by rw [h']; decide +kernel), if_pos h']
        refine ⟨?_, ?_, ?_⟩
        · -- the path
          have hneed := needed_texts ps htmpl (pathEnv fl addr fs m)
            (fun n => ∃ f ∈ fs, InPath f ∧ f.queryParamName = n ∧ HasShape f (.single .string)) hlit (by
              intro n hn hx
              obtain ⟨f, hf, hp, rfl⟩ := hvar n hn
              obtain ⟨-, hgc, sh, hs, hh, hps⟩ := hpath f hf hp
              have hpo : PathOK sh (m f.camelName) := by
                unfold PathOK
                split
                · exact absurd ⟨f, hf, hp, rfl, hs⟩ hx
                · trivial
              obtain ⟨s, hse, -, -, h⟩ := reads_path fl jok addr f sh hs _ hh hps hpo
              rw [hgc, pathEnv_field fl addr fs m f hf hcamel, hse]
              exact h) hurl hmux (by
              rintro n hn ⟨f, hf, hp, rfl, hs⟩
              obtain ⟨-, hgc, sh, hs', hh, hps⟩ := hpath f hf hp
              have he := shape_unique hs' hs
              subst he
              have h := hst f hf _ (hcpath f hf hp) _ hs
              obtain ⟨t, ht⟩ := muxVars_all htmpl hmux _ hn
              simp only [ht, Option.getD_some] at h
              obtain ⟨x, hx, hv⟩ := h
              cases hx
              rw [ht, hgc, pathEnv_field fl addr fs m f hf hcamel, hv]; rfl)
          intro f hf hp sh hs
          unfold PathOK
          split
          · rename_i s hv
            obtain ⟨hin, hgc, -⟩ := hpath f hf hp
            have := hneed _ hin
            rw [hgc, pathEnv_field fl addr fs m f hf hcamel, hv] at this
            exact this
          · trivial
        · -- the query
          intro f hf hfq sh hs
          obtain ⟨sh', hs', hh⟩ := hquery f hf hfq
          have he := shape_unique hs' hs
          subst he
          refine stored_queryOK fl jok f sh' hs' _ hh fun hne => ?_
          exact hst f hf _ (by rw [hcquery f hf hfq, if_neg hne]) _ hs'
        · intro hv n
          by_cases hc : ∃ f ∈ fs, f.camelName = n ∧ (InPath f ∨ InQuery f)
          · exact .inr hc
          · left
            have := hrest n (by
              intro f hf he
              rcases hloc f hf with h | h | h
              · exact absurd ⟨f, hf, he, .inl h⟩ hc
              · exact absurd ⟨f, hf, he, .inr h⟩ hc
              · exact carried_body h)
            rw [this]
            simp only [if_pos hv, bodyOr]
  · rintro ⟨h1, h2, h3⟩
    refine round_trip fl jok addr zero verb ps fs m hloc hcamel hname htmpl hlit hvar ?_ ?_ hzero h3
    · intro f hf hp
      obtain ⟨a, b, sh, hs, hh, hps⟩ := hpath f hf hp
      exact ⟨a, b, sh, hs, hh, hps, h1 f hf hp sh hs⟩
    · intro f hf hq
      obtain ⟨sh, hs, hh⟩ := hquery f hf hq
      exact ⟨sh, hs, hh, h2 f hf hq sh hs⟩

/-- No floating point values: enough for the concrete cases below. -/
def noFloats : Floats Empty where
  fits32 := nofun
  fmt _ := nofun
  parse _ _ := none
  fmt_plain _ := nofun
  junk _ := []
  junk_ne _ := by simp
  parse_empty _ := rfl
  parse_fmt _ := nofun

/-- The fields of the concrete cases: `id` in the path, `tags` (strings) and `nums` and `limit` (optional) in the query,
`note` in the body. -/
def idF : HField := ⟨"user_id".toList, "UserId".toList, "path".toList, "int64".toList, false, true, false, false⟩
def tagsF : HField := ⟨"tags".toList, "Tags".toList, "query".toList, "string".toList, false, true, false, true⟩
def numsF : HField := ⟨"nums".toList, "Nums".toList, "query".toList, "int64".toList, false, true, false, true⟩
def limitF : HField := ⟨"limit".toList, "Limit".toList, "query".toList, "int64".toList, true, true, false, false⟩
def noteF : HField := ⟨"note".toList, "Note".toList, "body".toList, "string".toList, false, true, false, false⟩
def pageF : HField := ⟨"page".toList, "Page".toList, "query".toList, "Page".toList, true, false, false, false⟩

def caseTmpl : List Piece := [.lit "v1".toList, .var "user_id".toList]
def caseFields : List HField := [idF, tagsF, numsF, limitF, noteF]

def caseZero : Msg Empty := fun n =>
  if n = "UserId".toList then .one (.num 0) else if n = "Note".toList then .one (.str [])
  else if n = "Limit".toList then .opt none else if n = "Page".toList then .other "null".toList else .many []

/-- The message with the given parts. -/
def caseMsg (uid : Int) (tags : List Str) (nums : List Int) (limit : Option Int) (note : Str) : Msg Empty := fun n =>
  if n = "UserId".toList then .one (.num uid)
  else if n = "Tags".toList then .many (tags.map .str)
  else if n = "Nums".toList then .many (nums.map .num)
  else if n = "Limit".toList then .opt (limit.map .num)
  else if n = "Note".toList then .one (.str note)
  else caseZero n

/-- The client's message as the server's handler gets it, field by field. -/
def through (verb : String) (ps : List Piece) (fs : List HField) (m : Msg Empty) : Option (List (FVal Empty)) :=
  match transmit noFloats (fun _ => "0xc0".toList) verb.toList (templateOf ps) fs m with
  | none => none
  | some r => match decodeRequest noFloats (fun _ => true) caseZero fs r with
    | .error _ => none
    | .ok m => some (fs.map fun f => m f.camelName)

theorem caseTmpl_ok : TemplateOK caseTmpl := by
  refine ⟨?_, ?_, by decide +kernel, by simp [caseTmpl]⟩
  · intro s hs
    simp only [caseTmpl, List.mem_cons, List.not_mem_nil, or_false, Piece.lit.injEq, reduceCtorEq] at hs
    subst hs
    rw [not_braced_iff]; decide +kernel
  · intro n hn
    simp only [caseTmpl, List.mem_cons, List.not_mem_nil, or_false, Piece.var.injEq, reduceCtorEq, false_or] at hn
    subst hn
    rw [not_braced_iff]; decide +kernel

/-- The hypotheses of C25 are met by a POST with a negative id, two tags, one number, no limit and a note. -/
example : ∃ r, transmit noFloats (fun _ => []) "post".toList (templateOf caseTmpl) caseFields
      (caseMsg (-7) ["a b".toList, "c".toList] [5] none "hi".toList) = some r ∧
    decodeRequest noFloats (fun _ => true) caseZero caseFields r =
      .ok (caseMsg (-7) ["a b".toList, "c".toList] [5] none "hi".toList) := by
  have hmem : ∀ f ∈ caseFields, f = idF ∨ f = tagsF ∨ f = numsF ∨ f = limitF ∨ f = noteF := by
    intro f hf; simpa [caseFields] using hf
  refine (C25_round_trip noFloats _ _ caseZero _ caseTmpl caseFields _ ?_ ?_ ?_ ?_ ?_ ?_ ?_ ?_ ?_).2 ⟨?_, ?_, ?_⟩
  · intro f hf
    rcases hmem f hf with rfl | rfl | rfl | rfl | rfl
    · exact Or.inl rfl
    · exact Or.inr (Or.inl rfl)
    · exact Or.inr (Or.inl rfl)
    · exact Or.inr (Or.inl rfl)
    · exact Or.inr (Or.inr rfl)
  · decide +kernel
  · decide +kernel
  · exact caseTmpl_ok
  · intro s hs
    simp only [caseTmpl, List.mem_cons, List.not_mem_nil, or_false, Piece.lit.injEq, reduceCtorEq] at hs
    subst hs
    unfold PathText UrlSafe; decide +kernel
  · intro n hn
    simp only [caseTmpl, List.mem_cons, List.not_mem_nil, or_false, Piece.var.injEq, reduceCtorEq, false_or] at hn
    subst hn
    exact ⟨idF, by simp [caseFields], rfl, rfl⟩
  · intro f hf hp
    rcases hmem f hf with rfl | rfl | rfl | rfl | rfl <;> unfold InPath at hp <;> first
      | exact absurd hp (by decide +kernel)
      | skip
    refine ⟨by simp [caseTmpl, idF], by decide +kernel, .single .int64, ?_, ?_, ?_⟩
    · unfold HasShape; decide +kernel
    · show FitsBase noFloats .int64 (.num (-7))
      unfold FitsBase; decide
    · trivial
  · intro f hf hp
    rcases hmem f hf with rfl | rfl | rfl | rfl | rfl <;> unfold InQuery at hp <;> first
      | exact absurd hp (by decide +kernel)
      | skip
    · refine ⟨.repeated .string, by unfold HasShape; decide +kernel, ?_⟩
      show ∀ v ∈ [SVal.str "a b".toList, .str "c".toList], FitsBase noFloats .string v
      intro v hv
      simp at hv
      rcases hv with rfl | rfl <;> trivial
    · refine ⟨.repeated .int64, by unfold HasShape; decide +kernel, ?_⟩
      show ∀ v ∈ [SVal.num 5], FitsBase noFloats .int64 v
      intro v hv
      simp at hv; subst hv
      unfold FitsBase; decide
    · refine ⟨.optional .int64, by unfold HasShape; decide +kernel, ?_⟩
      show ∀ v, none = some v → _
      nofun
  · intro f hf sh hs v hv
    cases sh with
    | optional b =>
      have : f = limitF := by
        rcases hmem f hf with rfl | rfl | rfl | rfl | rfl <;> first
          | rfl
          | exact absurd hs.2.2.2.1 (by decide)
      subst this
      rw [show v = .opt none from hv]; rfl
    | repeated b =>
      have : f = tagsF ∨ f = numsF := by
        rcases hmem f hf with rfl | rfl | rfl | rfl | rfl <;> first
          | exact Or.inl rfl
          | exact Or.inr rfl
          | exact absurd hs.2.2.2.2 (by decide)
      rw [show v = .many [] from hv]
      rcases this with rfl | rfl <;> rfl
    | _ => exact absurd hv (by simp [absent])
  · intro f hf hp sh hs
    rcases hmem f hf with rfl | rfl | rfl | rfl | rfl <;> unfold InPath at hp <;> first
      | exact absurd hp (by decide +kernel)
      | skip
    rw [shape_unique hs (show HasShape idF (.single .int64) by unfold HasShape; decide +kernel)]
    trivial
  · intro f hf hp sh hs
    rcases hmem f hf with rfl | rfl | rfl | rfl | rfl <;> unfold InQuery at hp <;> first
      | exact absurd hp (by decide +kernel)
      | skip
    · rw [shape_unique hs (show HasShape tagsF (.repeated .string) by unfold HasShape; decide +kernel)]
      show [SVal.str "a b".toList, SVal.str "c".toList].length ≠ 1
      decide
    · rw [shape_unique hs (show HasShape numsF (.repeated .int64) by unfold HasShape; decide +kernel)]
      trivial
    · rw [shape_unique hs (show HasShape limitF (.optional .int64) by unfold HasShape; decide +kernel)]
      trivial
  · intro h
    exact absurd h (by decide +kernel)

/-- **C25** What does not come back. A message that does, then: a repeated string with one element
is refused, lost (`null`) or emptied (`""`); a GET loses its body field; a template parameter written in camel case is read
as the empty text; an optional in the path is sent as an address; a nil message in the query arrives as an empty one. -/
theorem C25_lost_values_witness :
    through "post" caseTmpl caseFields (caseMsg 3 ["x".toList, "y".toList] [5] (some 0) "hi".toList) =
      some [.one (.num 3), .many [.str "x".toList, .str "y".toList], .many [.num 5], .opt (some (.num 0)),
        .one (.str "hi".toList)] ∧
    through "post" caseTmpl caseFields (caseMsg 3 ["x".toList, "y".toList] [5] (some 0) "hi".toList) ≠
      through "get" caseTmpl caseFields (caseMsg 3 ["x".toList, "y".toList] [5] (some 0) "hi".toList) ∧
    through "post" caseTmpl [idF, tagsF] (caseMsg 3 ["x".toList] [] none []) = none ∧
    through "post" caseTmpl [idF, tagsF] (caseMsg 3 ["null".toList] [] none []) = some [.one (.num 3), .many []] ∧
    through "post" caseTmpl [idF, tagsF] (caseMsg 3 [[]] [] none []) = some [.one (.num 3), .many []] ∧
    through "post" [.lit "v1".toList, .var "UserId".toList] [idF] (caseMsg 3 [] [] none []) = none ∧
    through "post" [.lit "v1".toList, .var "limit".toList] [{ limitF with location := "path".toList }]
      (caseMsg 3 [] [] (some 4) []) = none ∧
    through "post" [.lit "v1".toList] [pageF] caseZero = some [.other "{}".toList] := by
  refine ⟨by decide +kernel, by decide +kernel, by decide +kernel, by decide +kernel, by decide +kernel,
    by decide +kernel, by decide +kernel, by decide +kernel⟩

/-- What decoding a request gives, field by field. -/
def decoded (fs : List HField) (r : Request Empty) : DErr ⊕ List (FVal Empty) :=
  match decodeRequest noFloats (fun _ => true) caseZero fs r with
  | .ok m => .inr (fs.map fun f => m f.camelName)
  | .error e => .inl e

/-- **C26** A single text of a repeated string is not taken as its one element: with `?tags=x&nums=5` the decoder reports success and an empty tag list although
the query carries a tag (the error of `tags` is overwritten by `nums`); without the second parameter it fails. -/
theorem C26_lone_string_witness :
    decoded [tagsF, numsF] ⟨[], [("tags".toList, ["x".toList]), ("nums".toList, ["5".toList])], none⟩ =
      .inr [.many [], .many [.num 5]] ∧
    decoded [tagsF, numsF] ⟨[], [("tags".toList, ["x".toList])], none⟩ = .inl .leftover := by
  constructor <;> decide +kernel

/-- A request meeting the hypotheses of C26 and decoding as it says: the path and query win over the body, the rest of the
body stays. -/
example : decoded caseFields
      ⟨[("user_id".toList, "9".toList)], [("nums".toList, ["1".toList, "2".toList])],
        some (some (caseMsg 3 ["x".toList] [5] (some 0) "hi".toList))⟩ =
      .inr [.one (.num 9), .many [.str "x".toList], .many [.num 1, .num 2], .opt (some (.num 0)),
        .one (.str "hi".toList)] := by decide +kernel

/-! ## C44 -/

/-- The base types with 32 bits. -/
def is32 (t : Str) : Prop := t = "uint32".toList ∨ t = "int32".toList ∨ t = "float32".toList

open Baron.Svcdef in
/-- **C44**, exactly: the statements generated for a field are well typed unless the field is an optional enum, an optional
32-bit number, or a list of a base type in the path. -/
theorem C44_well_typed_iff (p : HTTPParameter) :
    compiles (newField p) = true ↔
      ¬ (p.field.type.array = true ∧ p.location = "path".toList ∧ (newField p).isBase = true) ∧
      ¬ (p.field.type.array = false ∧ p.field.type.star = true ∧ p.field.type.enum.isSome = true) ∧
      ¬ (p.field.type.array = false ∧ p.field.type.star = true ∧ (newField p).isBase = true ∧ is32 p.field.type.name) := by
  have hbase : (newField p).isBase = true → ∃ b, baseOf p.field.type.name = some b := by
    intro h
    simp only [newField, Bool.and_eq_true] at h
    exact Option.isSome_iff_exists.1 h.2
  have henum : p.field.type.enum.isSome = true → (newField p).isBase = false := by
    intro h
    cases he : p.field.type.enum with
    | none => simp [he] at h
    | some e => simp [newField, he]
  have h32 : ∀ b, baseOf p.field.type.name = some b →
      (is32 p.field.type.name ↔ needsCast b = true) ∧ (needsCast b = false → parsedTy b = p.field.type.name) := by
    intro b hb
    unfold baseOf at hb
    unfold is32
    repeat' split at hb
    all_goals first
      | (rename_i h; rw [h]; cases hb; decide +kernel)
      | cases hb
  have hg : (newField p).goType = p.field.type.name := rfl
  have hst : (newField p).star = p.field.type.star := rfl
  have hre : (newField p).repeated = p.field.type.array := rfl
  have hlo : (newField p).location = p.location := rfl
  have hen : (newField p).isEnum = p.field.type.enum.isSome := rfl
  simp only [compiles, decide_eq_true_eq, rhsTy, fieldTy, hg, hst, hre, hlo, hen]
  cases ha : p.field.type.array
  · cases he : p.field.type.enum.isSome
    · cases hb : (newField p).isBase
      · simp
      · obtain ⟨b, hb'⟩ := hbase hb
        obtain ⟨h1, h2⟩ := h32 b hb'
        simp only [hb', h1]
        cases hs : p.field.type.star <;> cases hc : needsCast b <;> simp
        · exact h2 hc
        · exact h2 hc
    · rw [henum he]
      cases hs : p.field.type.star <;> simp
  · by_cases hl : p.location = "path".toList
    · cases hb : (newField p).isBase <;> simp [hl]
    · rw [if_pos rfl, if_neg (fun h => hl h.2)]
      simp only [if_true, hl, Bool.true_eq_false]
      simp

open Baron.Svcdef in
/-- The claim itself is false: an optional int32 query parameter generates `&int32(x)`. A field that is well typed and
three that are not. -/
theorem C44_ill_typed :
    let ty := fun (n : String) (star array : Bool) (enum : Option Nat) =>
      FieldType.mk n.toList enum [] none none star array
    let par := fun (loc : String) (t : FieldType) => HTTPParameter.mk ⟨"Limit".toList, "limit".toList, t⟩ loc.toList
    compiles (newField (par "query" (ty "int64" true false none))) = true ∧
    compiles (newField (par "query" (ty "int32" true false none))) = false ∧
    compiles (newField (par "query" (ty "Color" true false (some 0)))) = false ∧
    compiles (newField (par "path" (ty "string" false true none))) = false := by
  decide +kernel

end Baron.HTTPCode
