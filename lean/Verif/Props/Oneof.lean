import Verif.Proofs.Oneof
import Verif.Spec.Wire
import Verif.Props.HTTPCode

/-!
# C65: oneofs in the query
-/

namespace Baron.HTTPCode

open Baron.HTTP

variable {F : Type}

/-- The content the body gives a oneof. -/
def bodyOneof (zero : FullMsg F) (r : FullRequest F) (n : Str) : OVal F :=
  match r.body with
  | some (some m) => m.oneofs n
  | _ => zero.oneofs n

theorem bodyOneof_eq (zero : FullMsg F) (r : FullRequest F) :
    ((r.body.bind id).getD zero).oneofs = bodyOneof zero r := by
  funext n
  unfold bodyOneof
  obtain ⟨v, q, b⟩ := r
  match b with
  | none => rfl
  | some none => rfl
  | some (some m) => rfl

/-- **C65**, the server. Decoding succeeds with message `m` exactly when the other fields decode to those of `m` (C26) and
for every oneof carried in the query: at most one of its options is present; the one present is what `m`'s oneof holds, its
first text read as the option's type; if none is present, or the oneof is not carried in the query, it is what the body
says. -/
theorem C65_decode (fl : Floats F) (jok : JSONOk) (zero : FullMsg F) (fs : List HField) (os : List HOneof)
    (r : FullRequest F) (hnd : (os.map fun o => Strs.goCamelCase o.name).Nodup)
    (hopt : ∀ o ∈ os, (o.options.map (·.queryParamName)).Nodup) (hwf : ∀ k, look r.query k ≠ some []) (m : FullMsg F) :
    decodeFull fl jok zero fs os r = .ok m ↔
      decodeRequest fl jok zero.fields fs r.plain = .ok m.fields ∧
      (∀ o ∈ os, o.location = "query".toList →
        (∀ p ∈ o.options, ∀ p' ∈ o.options,
          look r.query p.queryParamName ≠ none → look r.query p'.queryParamName ≠ none → p = p') ∧
        (∀ p ∈ o.options, ∀ s ts, look r.query p.queryParamName = some (s :: ts) →
          ∃ b x, baseOf p.goType = some b ∧ parseBase fl b s = some x ∧
            m.oneofs (Strs.goCamelCase o.name) = some (p.name, x)) ∧
        ((∀ p ∈ o.options, look r.query p.queryParamName = none) →
          m.oneofs (Strs.goCamelCase o.name) = bodyOneof zero r (Strs.goCamelCase o.name))) ∧
      (∀ n, (∀ o ∈ os, o.location = "query".toList → Strs.goCamelCase o.name ≠ n) →
        m.oneofs n = bodyOneof zero r n) := by
  rw [decodeFull_iff, decodeOneofs_iff fl r.query os _ _ hnd, bodyOneof_eq]
  refine and_congr_right fun _ => and_congr_left fun _ => ?_
  refine forall_congr' fun o => forall_congr' fun ho => forall_congr' fun hq => ?_
  exact decodeOneof_iff fl r.query o _ _ hwf (hopt o ho)

/-- **C65**: a request with two options of one oneof in its query is always refused. -/
theorem C65_two_options (fl : Floats F) (jok : JSONOk) (zero : FullMsg F) (fs : List HField) (os : List HOneof)
    (r : FullRequest F) (hnd : (os.map fun o => Strs.goCamelCase o.name).Nodup)
    (hopt : ∀ o ∈ os, (o.options.map (·.queryParamName)).Nodup) (hwf : ∀ k, look r.query k ≠ some [])
    (o : HOneof) (ho : o ∈ os) (hq : o.location = "query".toList) (p p' : HOption) (hp : p ∈ o.options)
    (hp' : p' ∈ o.options) (hne : p ≠ p') (h : look r.query p.queryParamName ≠ none)
    (h' : look r.query p'.queryParamName ≠ none) (m : FullMsg F) : decodeFull fl jok zero fs os r ≠ .ok m := by
  intro hd
  exact hne (((C65_decode fl jok zero fs os r hnd hopt hwf m).1 hd).2.1 o ho hq |>.1 p hp p' hp' h h')

/-! ## Round trip -/

theorem addValue_wf (q : List (Str × List Str)) (k v : Str) (h : ∀ k, look q k ≠ some []) :
    ∀ k', look (addValue q k v) k' ≠ some [] := by
  intro k'
  rw [look_addValue]
  split
  · simp
  · exact h k'

theorem encodeField_wf (fl : Floats F) (f : HField) (v : FVal F) (q : List (Str × List Str))
    (h : ∀ k, look q k ≠ some []) : ∀ k', look (encodeField fl f v q) k' ≠ some [] := by
  rw [encodeField_eq]
  generalize texts fl f v = ts
  induction ts generalizing q with
  | nil => exact h
  | cons t ts ih => exact ih _ (addValue_wf q _ _ h)

theorem encodeQuery_wf (fl : Floats F) (fs : List HField) (m : Msg F) : ∀ k, look (encodeQuery fl fs m) k ≠ some [] := by
  unfold encodeQuery
  have : ∀ (l : List HField) (q : List (Str × List Str)), (∀ k, look q k ≠ some []) →
      ∀ k, look (l.foldl (fun q f => encodeField fl f (m f.camelName) q) q) k ≠ some [] := by
    intro l
    induction l with
    | nil => intro q h; exact h
    | cons f l ih => intro q h; exact ih _ (encodeField_wf fl f _ q h)
  exact this _ _ (by intro k; simp [look])

theorem encodeFull_wf (fl : Floats F) (fzero : F → Bool) (fs : List HField) (os : List HOneof) (m : FullMsg F) :
    ∀ k, look (encodeFull fl fzero fs os m) k ≠ some [] := by
  unfold encodeFull
  have hopts : ∀ (v : OVal F) (l : List HOption) (q : List (Str × List Str)), (∀ k, look q k ≠ some []) →
      ∀ k, look (l.foldl (encodeOption fl fzero v) q) k ≠ some [] := by
    intro v l
    induction l with
    | nil => intro q h; exact h
    | cons p l ih =>
      intro q h
      refine ih _ ?_
      unfold encodeOption
      split
      · exact h
      · split
        · exact addValue_wf q _ _ h
        · exact h
  have : ∀ (l : List HOneof) (q : List (Str × List Str)), (∀ k, look q k ≠ some []) →
      ∀ k, look (l.foldl (fun q o => o.options.foldl (encodeOption fl fzero (m.oneofs (Strs.goCamelCase o.name))) q) q) k
        ≠ some [] := by
    intro l
    induction l with
    | nil => intro q h; exact h
    | cons o l ih => intro q h; exact ih _ (hopts _ _ q h)
  exact this _ _ (encodeQuery_wf fl fs m.fields)

theorem flatMap_sublist {α β : Type} (f : α → List β) {l l' : List α} (h : l.Sublist l') :
    (l.flatMap f).Sublist (l'.flatMap f) := by
  induction h with
  | slnil => exact .slnil
  | cons a _ ih => rw [List.flatMap_cons]; exact ih.trans (List.sublist_append_right _ _)
  | cons_cons a _ ih => rw [List.flatMap_cons, List.flatMap_cons]; exact (List.Sublist.refl _).append ih

theorem round_trip_full (fl : Floats F) (fzero : F → Bool) (jok : JSONOk) (addr : Str → Str) (zero : FullMsg F)
    (verb tmpl : Str) (fs : List HField) (os : List HOneof) (m : FullMsg F)
    (hzero : ∀ n, zero.oneofs n = none)
    (hnd : (os.map fun o => Strs.goCamelCase o.name).Nodup)
    (hparams : (fs.map (·.queryParamName) ++ os.flatMap fun o => o.options.map (·.queryParamName)).Nodup)
    (hnames : ∀ o ∈ os, (o.options.map (·.name)).Nodup)
    (hholds : ∀ o ∈ os, ∀ n x, m.oneofs (Strs.goCamelCase o.name) = some (n, x) →
      ∃ p ∈ o.options, p.name = n ∧ ∃ b, baseOf p.goType = some b ∧ FitsBase fl b x)
    (hfields : ∃ r, transmit fl addr verb tmpl fs m.fields = some r ∧
      decodeRequest fl jok zero.fields fs r = .ok m.fields) :
    ∃ r, transmitFull fl fzero addr verb tmpl fs os m = some r ∧
      (decodeFull fl jok zero fs os r = .ok m ↔
        verb ≠ "get".toList ∨
        ((∀ o ∈ os, o.location = "query".toList → ∀ n x, m.oneofs (Strs.goCamelCase o.name) = some (n, x) →
            isZero fzero x = false) ∧
          ∀ n, (∀ o ∈ os, o.location = "query".toList → Strs.goCamelCase o.name ≠ n) → m.oneofs n = none)) := by
  obtain ⟨r0, ht, hd0⟩ := hfields
  rw [List.nodup_append] at hparams
  obtain ⟨hp1, hp2, hp3⟩ := hparams
  have hopt : ∀ o ∈ os, (o.options.map (·.queryParamName)).Nodup := by
    intro o ho
    have : (o.options.map (·.queryParamName)).Sublist (os.flatMap fun o => o.options.map (·.queryParamName)) := by
      rw [List.flatMap_def]
      exact List.sublist_flatten_of_mem (List.mem_map_of_mem (f := fun o : HOneof => o.options.map (·.queryParamName)) ho)
    exact hp2.sublist this
  -- the request
  have hreq : ∃ vars, r0.vars = vars ∧ r0.query = encodeQuery fl fs m.fields ∧
      r0.body = (if verb = "get".toList then none else some (some m.fields)) ∧
      transmitFull fl fzero addr verb tmpl fs os m =
        some ⟨vars, encodeFull fl fzero fs os m, if verb = "get".toList then none else some (some m)⟩ := by
    unfold transmit at ht
    unfold transmitFull
    split at ht
    · cases ht
    · rename_i path hpath
      split at ht
      · cases ht
      · rename_i vars hvars
        injection ht with ht
        subst ht
        refine ⟨vars, rfl, rfl, rfl, ?_⟩
        rw [hpath]
        simp only [hvars]
  obtain ⟨vars, hv0, hq0, hb0, hfull⟩ := hreq
  refine ⟨_, hfull, ?_⟩
  -- the query
  have hqs : (os.filter fun o => decide (o.location = "query".toList)).Sublist os := List.filter_sublist
  have hp2' : ((os.filter fun o => decide (o.location = "query".toList)).flatMap
      fun o => o.options.map (·.queryParamName)).Nodup := by
    refine hp2.sublist ?_
    exact flatMap_sublist _ hqs
  have hdisj : ∀ o ∈ os, ∀ p ∈ o.options, ∀ f ∈ fs, f.queryParamName ≠ p.queryParamName := by
    intro o ho p hp f hf
    exact hp3 _ (List.mem_map_of_mem hf) _ (List.mem_flatMap.2 ⟨o, ho, List.mem_map_of_mem hp⟩)
  have hlookF : ∀ f ∈ fs, look (encodeFull fl fzero fs os m) f.queryParamName =
      look (encodeQuery fl fs m.fields) f.queryParamName := by
    intro f hf
    exact look_addOneofs_other fl fzero m.oneofs f.queryParamName _ _
      (fun o ho p hp => (hdisj o (hqs.subset ho) p hp f hf).symm)
  have hlookO : ∀ o ∈ os, o.location = "query".toList → ∀ p ∈ o.options,
      look (encodeFull fl fzero fs os m) p.queryParamName =
      match m.oneofs (Strs.goCamelCase o.name) with
      | none => none
      | some (n, x) => if n = p.name ∧ isZero fzero x = false
        then some [sprint fl ((baseOf p.goType).getD .int32) x] else none := by
    intro o ho hq p hp
    refine look_addOneofs fl fzero m.oneofs o p hp _ _ hp2' (List.mem_filter.2 ⟨ho, by simp [hq]⟩) ?_
    unfold encodeQuery
    rw [look_encode_other]
    · simp [look]
    · intro f hf
      exact hdisj o ho p hp f (List.mem_filter.1 hf).1
  -- the fields
  have hdF : decodeRequest fl jok zero.fields fs
      (FullRequest.plain ⟨vars, encodeFull fl fzero fs os m, if verb = "get".toList then none else some (some m)⟩) =
      .ok m.fields := by
    rw [← hd0]
    apply decodeRequest_congr
    · exact hv0.symm
    · rw [hb0]
      show Option.map _ _ = _
      split <;> rfl
    · intro f hf
      rw [hq0]
      exact hlookF f hf
  rw [C65_decode fl jok zero fs os _ hnd hopt (encodeFull_wf fl fzero fs os m) m]
  have hbody : ∀ n, bodyOneof zero ⟨vars, encodeFull fl fzero fs os m,
      if verb = "get".toList then none else some (some m)⟩ n =
      if verb = "get".toList then none else m.oneofs n := by
    intro n
    unfold bodyOneof
    split
    · rename_i h
      by_cases hv : verb = "get".toList
      · rw [if_pos hv] at h; cases h
      · rw [if_neg hv] at h ⊢; injection h with h; injection h with h; rw [h]
    · rename_i h
      by_cases hv : verb = "get".toList
      · rw [if_pos hv]; exact hzero n
      · exact absurd (if_neg hv) (h m)
  have uniq : ∀ o ∈ os, ∀ p ∈ o.options, ∀ p' ∈ o.options, p.name = p'.name → p = p' := by
    intro o ho p hp p' hp' e
    have := hnames o ho
    have hinj := List.pairwise_map.1 this
    exact Classical.byContradiction fun hne => by
      rcases List.mem_iff_getElem.1 hp with ⟨i, hi, rfl⟩
      rcases List.mem_iff_getElem.1 hp' with ⟨j, hj, rfl⟩
      rcases Nat.lt_trichotomy i j with h | h | h
      · exact List.pairwise_iff_getElem.1 hinj i j hi hj h e
      · subst h; exact hne rfl
      · exact List.pairwise_iff_getElem.1 hinj j i hj hi h e.symm
  constructor
  · rintro ⟨-, h1, h2⟩
    by_cases hv : verb = "get".toList
    · refine .inr ⟨?_, ?_⟩
      · intro o ho hq n x hx
        cases hz : isZero fzero x with
        | false => rfl
        | true =>
          have hnone := (h1 o ho hq).2.2 (by
            intro p hp
            rw [hlookO o ho hq p hp, hx]
            simp only
            rw [if_neg]
            intro h; rw [hz] at h; cases h.2)
          rw [hbody, if_pos hv, hx] at hnone
          cases hnone
      · intro n hn
        rw [h2 n hn, hbody, if_pos hv]
    · exact .inl hv
  · intro h
    refine ⟨hdF, ?_, ?_⟩
    · intro o ho hq
      refine ⟨?_, ?_, ?_⟩
      · intro p hp p' hp' hl hl'
        rw [hlookO o ho hq p hp] at hl
        rw [hlookO o ho hq p' hp'] at hl'
        cases hx : m.oneofs (Strs.goCamelCase o.name) with
        | none => rw [hx] at hl; exact absurd rfl hl
        | some nx =>
          obtain ⟨n, x⟩ := nx
          rw [hx] at hl hl'
          simp only at hl hl'
          have e : n = p.name := Classical.byContradiction fun hne => hl (if_neg fun h => hne h.1)
          have e' : n = p'.name := Classical.byContradiction fun hne => hl' (if_neg fun h => hne h.1)
          exact uniq o ho p hp p' hp' (e.symm.trans e')
      · intro p hp s ts hs
        rw [hlookO o ho hq p hp] at hs
        cases hx : m.oneofs (Strs.goCamelCase o.name) with
        | none => rw [hx] at hs; cases hs
        | some nx =>
          obtain ⟨n, x⟩ := nx
          rw [hx] at hs
          simp only at hs
          split at hs
          · rename_i hc
            injection hs with hs
            injection hs with hs1 hs2
            obtain ⟨p', hp', hn', b, hb, hfit⟩ := hholds o ho n x hx
            have hpp : p' = p := uniq o ho p' hp' p hp (hn'.trans hc.1)
            subst hpp
            refine ⟨b, x, hb, ?_, by rw [hc.1]⟩
            rw [← hs1, hb]
            exact parse_sprint fl b x hfit
          · cases hs
      · intro hall
        rw [hbody]
        split
        · rename_i hv
          cases hx : m.oneofs (Strs.goCamelCase o.name) with
          | none => rfl
          | some nx =>
            obtain ⟨n, x⟩ := nx
            obtain ⟨p, hp, hn, -⟩ := hholds o ho n x hx
            have hz := (h.resolve_left (fun hc => hc hv)).1 o ho hq n x hx
            have := hall p hp
            rw [hlookO o ho hq p hp, hx] at this
            simp only at this
            rw [if_pos ⟨hn.symm, hz⟩] at this
            cases this
        · rfl
    · intro n hn
      rw [hbody]
      split
      · rename_i hv
        exact (h.resolve_left (fun hc => hc hv)).2 n hn
      · rfl

theorem isZero_iff (fzero : F → Bool) (x : SVal F) : isZero fzero x = false ↔ ¬ Wire.Zero fzero x := by
  cases x with
  | num i => simp [isZero, Wire.Zero]
  | bool b => cases b <;> simp [isZero, Wire.Zero]
  | flt x => simp [isZero, Wire.Zero]
  | str s => cases s <;> simp [isZero, Wire.Zero]

/-- **C65**, the round trip, exact form. Let the message's oneofs hold options they have, with values of the options' types,
and let the other fields make the round trip (C25). Then the whole message arrives if and only if the request has a body
(the verb is not `get`) or else every oneof that is set travels in the query and holds a value other than zero: a client
does not send zero-valued options. -/
theorem C65_round_trip (fl : Floats F) (fzero : F → Bool) (jok : JSONOk) (addr : Str → Str) (zero : FullMsg F)
    (verb tmpl : Str) (fs : List HField) (os : List HOneof) (m : FullMsg F)
    (hzero : ∀ n, zero.oneofs n = none)
    (hnd : (os.map fun o => Strs.goCamelCase o.name).Nodup)
    (hparams : (fs.map (·.queryParamName) ++ os.flatMap fun o => o.options.map (·.queryParamName)).Nodup)
    (hnames : ∀ o ∈ os, (o.options.map (·.name)).Nodup)
    (hholds : ∀ o ∈ os, ∀ n x, m.oneofs (Strs.goCamelCase o.name) = some (n, x) →
      ∃ p ∈ o.options, p.name = n ∧ ∃ b, baseOf p.goType = some b ∧ FitsBase fl b x)
    (hfields : ∃ r, transmit fl addr verb tmpl fs m.fields = some r ∧
      decodeRequest fl jok zero.fields fs r = .ok m.fields) :
    ∃ r, transmitFull fl fzero addr verb tmpl fs os m = some r ∧
      (decodeFull fl jok zero fs os r = .ok m ↔
        verb ≠ "get".toList ∨
        ((∀ o ∈ os, o.location = "query".toList → ∀ n x, m.oneofs (Strs.goCamelCase o.name) = some (n, x) →
            ¬ Wire.Zero fzero x) ∧
          ∀ n, (∀ o ∈ os, o.location = "query".toList → Strs.goCamelCase o.name ≠ n) → m.oneofs n = none)) := by
  simp only [← isZero_iff]
  exact round_trip_full fl fzero jok addr zero verb tmpl fs os m hzero hnd hparams hnames hholds hfields

/-- **C65**, which options the generated code supports (protoc's only repeated option type is `[]byte`): exactly the
scalars. A oneof in the query with an option of a message, enum or bytes type makes the generated file uncompilable. -/
theorem C65_compiles (o : HOption) (hrep : o.repeated = true → o.goType = "byte".toList) :
    optionCompiles o = true ↔ o.star = false ∧ o.repeated = false ∧ ∃ b, baseOf o.goType = some b := by
  have hty : ∀ b, baseOf o.goType = some b → needsCast b = false → parsedTy b = o.goType := by
    intro b h
    unfold baseOf at h
    split at h; · rename_i e; injection h with h; subst h; rw [e]; decide
    split at h; · rename_i e; injection h with h; subst h; rw [e]; decide
    split at h; · rename_i e; injection h with h; subst h; rw [e]; decide
    split at h; · rename_i e; injection h with h; subst h; rw [e]; decide
    split at h; · rename_i e; injection h with h; subst h; rw [e]; decide
    split at h; · rename_i e; injection h with h; subst h; rw [e]; decide
    split at h; · rename_i e; injection h with h; subst h; rw [e]; decide
    split at h; · rename_i e; injection h with h; subst h; rw [e]; decide
    cases h
  unfold optionCompiles optionRhs optionTy
  cases hs : o.star with
  | true => simp
  | false =>
    cases hr : o.repeated with
    | true =>
      have : baseOf o.goType = none := by rw [hrep hr]; decide
      rw [this]; simp
    | false =>
      cases hb : baseOf o.goType with
      | none => simp
      | some b =>
        cases hc : needsCast b with
        | true => simp [hc]
        | false => simp [hty b hb hc]

/-! ## A concrete oneof -/

namespace OneofExample

/-- `oneof key { int64 id = 1; string e_mail = 2; }` in the query of a GET. -/
def key : HOneof := ⟨"Key".toList, "query".toList,
  [⟨"Id".toList, "id".toList, "int64".toList, false, false, "Q_Id".toList⟩,
   ⟨"EMail".toList, "e_mail".toList, "string".toList, false, false, "Q_EMail".toList⟩]⟩

def noZero : Empty → Bool := nofun
def msg (v : OVal Empty) : FullMsg Empty := ⟨caseMsg 3 ["x".toList, "y".toList] [5] (some 0) [], fun n => if n = "Key".toList then v else none⟩
def zeroMsg : FullMsg Empty := ⟨caseZero, fun _ => none⟩

/-- What a call carries of the oneof: the server's `Key`, `none` when the request is refused or not routed. -/
def arrives (verb : String) (v : OVal Empty) : Option (OVal Empty) :=
  match transmitFull noFloats noZero (fun _ => []) verb.toList (templateOf caseTmpl) caseFields [key] (msg v) with
  | none => none
  | some r => match decodeFull noFloats (fun _ => true) zeroMsg caseFields [key] r with
    | .ok m => some (m.oneofs "Key".toList)
    | .error _ => none

/-- A non-zero option arrives with GET, a zero one does not, and does with POST. -/
example : arrives "get" (some ("Id".toList, .num (-7))) = some (some ("Id".toList, .num (-7))) ∧
    arrives "get" (some ("EMail".toList, .str "a@b".toList)) = some (some ("EMail".toList, .str "a@b".toList)) ∧
    arrives "get" none = some none ∧
    arrives "get" (some ("Id".toList, .num 0)) = some none ∧
    arrives "post" (some ("Id".toList, .num 0)) = some (some ("Id".toList, .num 0)) := by
  refine ⟨?_, ?_, ?_, ?_, ?_⟩ <;> decide +kernel

/-- The other fields make the round trip, as `C65_round_trip` asks. -/
example : (match transmit noFloats (fun _ => []) "get".toList (templateOf caseTmpl) caseFields (msg none).fields with
    | none => none
    | some r => match decodeRequest noFloats (fun _ => true) caseZero caseFields r with
      | .ok m => some (caseFields.map fun f => (m f.camelName))
      | .error _ => none) = some (caseFields.map fun f => (msg none).fields f.camelName) := by decide +kernel

/-- The hypotheses of `C65_round_trip` about the oneofs hold here. -/
example (v : OVal Empty) (hv : v = none ∨ (∃ i : Int, v = some ("Id".toList, .num i) ∧ -(2 ^ 63) ≤ i ∧ i < 2 ^ 63) ∨
      ∃ s, v = some ("EMail".toList, .str s)) :
    ([key].map fun o => Strs.goCamelCase o.name).Nodup ∧
    (caseFields.map (·.queryParamName) ++ [key].flatMap fun o => o.options.map (·.queryParamName)).Nodup ∧
    (∀ o ∈ [key], (o.options.map (·.name)).Nodup) ∧
    (∀ o ∈ [key], ∀ n x, (msg v).oneofs (Strs.goCamelCase o.name) = some (n, x) →
      ∃ p ∈ o.options, p.name = n ∧ ∃ b, baseOf p.goType = some b ∧ FitsBase noFloats b x) := by
  refine ⟨by decide +kernel, by decide +kernel, by decide +kernel, ?_⟩
  intro o ho n x hx
  rw [List.mem_singleton] at ho
  subst ho
  have e : (msg v).oneofs (Strs.goCamelCase key.name) = v := if_pos (by decide +kernel)
  rw [e] at hx
  rcases hv with rfl | ⟨i, rfl, h1, h2⟩ | ⟨s, rfl⟩
  · cases hx
  · injection hx with hx; injection hx with hn hx; subst hn; subst hx
    exact ⟨_, .head _, rfl, .int64, by decide +kernel, h1, h2⟩
  · injection hx with hx; injection hx with hn hx; subst hn; subst hx
    exact ⟨_, .tail _ (.head _), rfl, .string, by decide +kernel, trivial⟩

/-- Both options in one query: refused. -/
example : ∀ m, decodeFull noFloats (fun _ => true) zeroMsg [] [key]
    ⟨[], [("id".toList, ["1".toList]), ("e_mail".toList, ["x".toList])], none⟩ ≠ .ok m := by
  refine C65_two_options noFloats _ zeroMsg [] [key] _ (by decide +kernel) (by decide +kernel) ?_ key (.head _) rfl _ _
    (.head _) (.tail _ (.head _)) (by decide +kernel) (by decide +kernel) (by decide +kernel)
  intro k
  simp only [look, List.find?]
  split
  · simp
  · split <;> simp

/-- A scalar option compiles, a message option does not. -/
example : optionCompiles ⟨"Id".toList, "id".toList, "int64".toList, false, false, "Q_Id".toList⟩ = true ∧
    optionCompiles ⟨"Who".toList, "who".toList, "Person".toList, true, false, "Q_Who".toList⟩ = false ∧
    optionCompiles ⟨"Kind".toList, "kind".toList, "Kind".toList, false, false, "Q_Kind".toList⟩ = false ∧
    optionCompiles ⟨"Raw".toList, "raw".toList, "byte".toList, false, true, "Q_Raw".toList⟩ = false := by decide +kernel

end OneofExample

end Baron.HTTPCode
