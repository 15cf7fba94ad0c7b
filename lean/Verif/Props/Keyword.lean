import Verif.Proofs.TextCheck
import Verif.Props.Text

/-!
# The word `service` is reserved (C66)
-/

namespace Baron.Text

open Baron.Scanner Baron.Lexer Baron.Parser

/-- The text after the word `service` begins the way a service definition does: a name, then an opening brace, with
nothing but white space around them. -/
def BeginsService (U : Uni) (rest : List Str) : Prop :=
  ∃ sp1 name sp2 r, rest = sp1 ++ name :: (sp2 ++ ['{'] :: r) ∧
    (∀ v ∈ sp1, KindOf U v .whitespace) ∧ KindOf U name .ident ∧ (∀ v ∈ sp2, KindOf U v .whitespace)

theorem skip_found (prev : List TokenGroup) (line : Nat) (l : List TokenGroup) :
    (skipGo ignWS prev line l).1 = .eof ∨
    ∃ sp g r, l = sp ++ g :: r ∧ (∀ x ∈ sp, x.token = .whitespace) ∧
      (skipGo ignWS prev line l).1 = g.token ∧ (skipGo ignWS prev line l).2.1 = g.value ∧
      (skipGo ignWS prev line l).2.2.rest = r ∧ g.token ≠ .whitespace := by
  induction l generalizing prev line with
  | nil => left; rfl
  | cons g r ih =>
    rw [skipGo]
    by_cases h : ignWS g.token = true
    · rw [if_pos h]
      have hw : g.token = .whitespace := by
        revert h; cases g.token <;> simp [ignWS]
      rcases ih (g :: prev) g.line with h1 | ⟨sp, g1, r1, e, h1, h2, h3, h4, h5⟩
      · left; exact h1
      · right
        refine ⟨g :: sp, g1, r1, by rw [e]; rfl, ?_, h2, h3, h4, h5⟩
        intro x hx
        rcases List.mem_cons.mp hx with rfl | hx
        · exact hw
        · exact h1 x hx
    · rw [if_neg h]
      right
      exact ⟨[], g, r, rfl, by simp, rfl, rfl, rfl, fun e => h (by rw [e]; rfl)⟩

/-- A successful parse has read the keyword, a name and a brace. -/
theorem parse_begins (unq : Str → Option Str) (ts : List TokenGroup) (s : Service)
    (h : parseService unq ts = .ok s) :
    ∃ sp0 k sp1 n sp2 o r, ts = sp0 ++ k :: (sp1 ++ n :: (sp2 ++ o :: r)) ∧
      (∀ x ∈ sp0 ++ sp1 ++ sp2, x.token = .whitespace) ∧ k.token ≠ .whitespace ∧ n.token = .ident ∧
      o.token = .openBrace := by
  unfold parseService parseServiceN at h
  revert h
  rcases skip_found (Cur.new ts).prev (Cur.new ts).line (Cur.new ts).rest with a | ⟨sp0, k, r0, e0, w0, a1, a2, a3, a4⟩
  · unfold Cur.getWS
    intro h
    simp only [a, if_true] at h
    cases h
  · unfold Cur.getWS
    generalize skipGo ignWS (Cur.new ts).prev (Cur.new ts).line (Cur.new ts).rest = z0 at a1 a2 a3 ⊢
    obtain ⟨tk, val, c1⟩ := z0
    simp only at a1 a2 a3 ⊢
    subst a1; subst a2
    split
    · intro h; cases h
    · rename_i hk
      split
      · intro h; cases h
      · rename_i hks
        rcases skip_found c1.prev c1.line c1.rest with a | ⟨sp1, n, r1, e1, w1, b1, b2, b3, -⟩
        · generalize skipGo ignWS c1.prev c1.line c1.rest = z at a ⊢
          obtain ⟨tk, val, c2⟩ := z
          simp only at a ⊢
          subst a
          intro h; cases h
        · generalize skipGo ignWS c1.prev c1.line c1.rest = z at b1 b2 b3 ⊢
          obtain ⟨tk, val, c2⟩ := z
          simp only at b1 b2 b3 ⊢
          subst b1; subst b2
          split
          · intro h; cases h
          · rename_i hn
            rcases skip_found c2.prev c2.line c2.rest with a | ⟨sp2, o, r2, e2, w2, d1, d2, d3, -⟩
            · generalize skipGo ignWS c2.prev c2.line c2.rest = z at a ⊢
              obtain ⟨tk, val, c2⟩ := z
              simp only at a ⊢
              subst a
              intro h; cases h
            · generalize skipGo ignWS c2.prev c2.line c2.rest = z at d1 d2 d3 ⊢
              obtain ⟨tk, val, c3⟩ := z
              simp only at d1 d2 d3 ⊢
              subst d1; subst d2
              split
              · intro h; cases h
              · rename_i ho
                intro _
                refine ⟨sp0, k, sp1, n, sp2, o, r2, ?_, ?_, a4, Decidable.not_not.mp hn, Decidable.not_not.mp ho⟩
                · have : (Cur.new ts).rest = ts := rfl
                  rw [this] at e0
                  rw [e0, ← a3, e1, ← b3, e2]
                · intro x hx
                  simp only [List.mem_append] at hx
                  rcases hx with (hx | hx) | hx
                  · exact w0 x hx
                  · exact w1 x hx
                  · exact w2 x hx

/-- A token that is not a comment stands for itself. -/
theorem tokenTexts_head {U : Uni} {X : List Str} {v : Str} {r : List Str} {t : Tok} (h : tokenTexts X = v :: r)
    (hk : KindOf U v t) (ht : t ≠ .comment) : ∃ X', X = v :: X' ∧ tokenTexts X' = r := by
  cases X with
  | nil => rw [tokenTexts] at h; cases h
  | cons x X =>
    rw [tokenTexts] at h
    by_cases hc : isComment x = true
    · exfalso
      rw [if_pos hc] at h
      have hx : ∃ c y, x = '/' :: c :: y := by
        unfold isComment at hc
        split at hc
        · exact ⟨_, _, rfl⟩
        · cases hc
      obtain ⟨c, y, rfl⟩ := hx
      have hab : ∀ (l : List Str) (acc : Str), ∃ z, (absorb acc l).1 = acc ++ z := by
        intro l acc
        fun_induction absorb acc l with
        | case1 => exact ⟨[], by simp⟩
        | case2 acc v => exact ⟨v, rfl⟩
        | case3 => exact ⟨[], by simp⟩
        | case4 acc v w r h ih => obtain ⟨z, e⟩ := ih; exact ⟨v ++ z, by rw [e, List.append_assoc]⟩
        | case5 acc v w r h1 h2 ih =>
          obtain ⟨z, e⟩ := ih; exact ⟨v ++ (w ++ z), by rw [e]; simp only [List.append_assoc]⟩
        | case6 => exact ⟨[], by simp⟩
      obtain ⟨z, e⟩ := hab X ('/' :: c :: y)
      rw [e] at h
      simp only [List.cons.injEq, List.cons_append] at h
      have : KindOf U v .comment := ⟨c, y ++ z, h.1.symm⟩
      exact ht (C07_kind_unique U v _ _ hk this)
    · rw [if_neg hc] at h
      simp only [List.cons.injEq] at h
      exact ⟨X, by rw [h.1], h.2⟩

theorem tokenTexts_run {U : Uni} (ks : List Str) : ∀ {X r : List Str}, tokenTexts X = ks ++ r →
    (∀ v ∈ ks, ∃ t, KindOf U v t ∧ t ≠ .comment) → ∃ X', X = ks ++ X' ∧ tokenTexts X' = r := by
  induction ks with
  | nil => intro X r h _; exact ⟨X, rfl, h⟩
  | cons v ks ih =>
    intro X r h hk
    obtain ⟨t, h1, h2⟩ := hk v (by simp)
    obtain ⟨X1, e1, h3⟩ := tokenTexts_head h h1 h2
    obtain ⟨X2, e2, h4⟩ := ih h3 (fun v hv => hk v (List.mem_cons_of_mem _ hv))
    exact ⟨X2, by rw [e1, e2]; rfl, h4⟩

/-- Up to the first brace after `service` nothing is dropped. -/
theorem region_keep {U : Uni} (w : Str) (b : List Str) : ∀ (a : List Str) {g rd us g' rd'}, ScanRun U g rd us g' rd' →
    g.withinDef = true → (region true us).map (·.value) = a ++ w :: b → ['{'] ∉ a → ['}'] ∉ a →
    ∃ b', us.map (·.value) = a ++ w :: b' := by
  intro a
  induction a with
  | nil =>
    intro g rd us g' rd' h h1 e _ _
    cases us with
    | nil => simp [region] at e
    | cons u us =>
      simp only [region, List.map_cons, List.nil_append, List.cons.injEq] at e
      exact ⟨us.map (·.value), by rw [List.map_cons, e.1]; rfl⟩
  | cons v a ih =>
    intro g rd us g' rd' h h1 e ho hc
    cases us with
    | nil => simp [region] at e
    | cons u us =>
      simp only [region, List.map_cons, List.cons_append, List.cons.injEq] at e
      obtain ⟨ev, e⟩ := e
      simp only [List.mem_cons, not_or] at ho hc
      obtain ⟨g1, rd1, hr, hI, hg⟩ := ScanRun.uncons h
      have hne : us ≠ [] := by rintro rfl; simp [region] at e
      have hg := hg (.inl hne)
      have hov : ¬ u.value = ['{'] := fun e => ho.1 (by rw [← ev, e])
      have hcv : ¬ u.value = ['}'] := fun e => hc.1 (by rw [← ev, e])
      rw [if_neg hov, if_neg hcv] at hg
      have hd : g1.withinDef = true := by
        rw [hg]; split
        · rfl
        · exact h1
      have hin : Inside u = true := by rw [hI]; simp [insideG, hd]
      rw [hin] at e
      obtain ⟨b', e'⟩ := ih hr hd e ho.2 hc.2
      exact ⟨b', by rw [List.map_cons, ev, e']; rfl⟩

theorem kind_not_brace {U : Uni} {v : Str} {t : Tok} (h : KindOf U v t) (ht : t = .whitespace ∨ t = .ident) :
    v ≠ ['{'] ∧ v ≠ ['}'] := by
  refine ⟨?_, ?_⟩
  · rintro rfl
    have := C07_kind_unique U _ _ .openBrace h rfl
    rcases ht with rfl | rfl <;> cases this
  · rintro rfl
    have := C07_kind_unique U _ _ .closeBrace h rfl
    rcases ht with rfl | rfl <;> cases this

theorem service_kind (U : Uni) : KindOf U "service".toList .ident := by
  refine ⟨'s', "ervice".toList, rfl, .inl ?_⟩
  rw [U.letter_ascii 's' (by decide)]; decide

/-- **C66** In a file that baron accepts, the first word `service` outside comments and strings is the keyword: what
follows is a name and an opening brace, with only white space between them. -/
theorem C66_first_service (U : Uni) (unq : Str → Option Str) (pre rest : List Str)
    (hl : Laid U (pre ++ "service".toList :: rest)) (hpre : "service".toList ∉ pre)
    (ts : List TokenGroup) (hlex : lexText U .init (pre ++ "service".toList :: rest).flatten = .ok ts)
    (s : Service) (hp : parseService unq ts = .ok s) : BeginsService U rest := by
  have hv := scan_laid hl .init
  have hrun := scan_run U .init (pre ++ "service".toList :: rest).flatten
  obtain ⟨htok, hkind⟩ := C07_tokens_exact U .init _ ts hlex
  obtain ⟨us1, rd1, r1, e1, reg1⟩ := region_pre pre _ hrun rfl rfl hv hpre
  rw [reg1] at htok
  obtain ⟨sp0, k, sp1, n, sp2, o, r, rfl, hw, hkw, hn, ho⟩ := parse_begins unq ts s hp
  cases us1 with
  | nil => simp at e1
  | cons u us =>
    simp only [List.map_cons, List.cons.injEq] at e1
    obtain ⟨eu, e1⟩ := e1
    rw [region, if_pos eu, List.map_cons, eu] at htok
    have hsk := service_kind U
    rw [tokenTexts, if_neg (by decide)] at htok
    cases sp0 with
    | cons x sp0 =>
      exfalso
      simp only [List.cons_append, List.map_cons, List.cons.injEq] at htok
      have h1 := hkind x (by simp)
      rw [hw x (by simp), htok.1] at h1
      cases C07_kind_unique U _ _ _ hsk h1
    | nil =>
      simp only [List.nil_append, List.map_cons, List.cons.injEq, List.map_append] at htok hw
      obtain ⟨-, htok⟩ := htok
      have hw1 : ∀ v ∈ sp1.map (·.value), KindOf U v .whitespace := by
        intro v hv
        obtain ⟨x, hx, rfl⟩ := List.mem_map.mp hv
        have := hkind x (by simp [hx])
        rwa [hw x (by simp [hx])] at this
      have hw2 : ∀ v ∈ sp2.map (·.value), KindOf U v .whitespace := by
        intro v hv
        obtain ⟨x, hx, rfl⟩ := List.mem_map.mp hv
        have := hkind x (by simp [hx])
        rwa [hw x (by simp [hx])] at this
      have hnk : KindOf U n.value .ident := by
        have := hkind n (by simp)
        rwa [hn] at this
      have hok : o.value = ['{'] := by
        have := hkind o (by simp)
        rwa [ho] at this
      obtain ⟨X', eX, -⟩ := tokenTexts_run (U := U) (sp1.map (·.value) ++ n.value :: (sp2.map (·.value) ++ [o.value]))
        (r := r.map (·.value)) (by rw [← htok]; simp) (by
          intro v hv
          simp only [List.mem_append, List.mem_cons, List.not_mem_nil, or_false] at hv
          rcases hv with hv | rfl | hv | rfl
          · exact ⟨_, hw1 v hv, by decide⟩
          · exact ⟨_, hnk, by decide⟩
          · exact ⟨_, hw2 v hv, by decide⟩
          · exact ⟨.openBrace, hok, by decide⟩)
      obtain ⟨g1, rd2, hr, hI, hg⟩ := ScanRun.uncons r1
      have hne : us ≠ [] := by
        rintro rfl
        have := congrArg List.length eX
        simp [region] at this
      have hg := hg (.inl hne)
      rw [if_pos eu] at hg
      have hd : g1.withinDef = true := by rw [hg]
      have hin : Inside u = true := by rw [hI]; simp [insideG, hd]
      rw [hin] at eX
      have hbr : ∀ v ∈ sp1.map (·.value) ++ n.value :: sp2.map (·.value), v ≠ ['{'] ∧ v ≠ ['}'] := by
        intro v hv
        simp only [List.mem_append, List.mem_cons] at hv
        rcases hv with hv | rfl | hv
        · exact kind_not_brace (hw1 v hv) (.inl rfl)
        · exact kind_not_brace hnk (.inr rfl)
        · exact kind_not_brace (hw2 v hv) (.inl rfl)
      obtain ⟨b', eb⟩ := region_keep (U := U) o.value X' (sp1.map (·.value) ++ n.value :: sp2.map (·.value)) hr hd
        (by rw [eX]; simp) (fun hm => (hbr _ hm).1 rfl) (fun hm => (hbr _ hm).2 rfl)
      refine ⟨sp1.map (·.value), n.value, sp2.map (·.value), b', ?_, hw1, hnk, hw2⟩
      rw [← e1, eb, hok]
      simp

/-- **C66** So a package, message, field, enum value or rpc that is called `service` and comes before the service makes
the file unreadable: after the word there is a character that neither begins a name nor is white space. -/
theorem C66_other_use (U : Uni) (unq : Str → Option Str) (pre sp rest : List Str) (v : Str)
    (hl : Laid U (pre ++ "service".toList :: (sp ++ v :: rest))) (hpre : "service".toList ∉ pre)
    (hsp : ∀ w ∈ sp, KindOf U w .whitespace) (t : Tok) (hv : KindOf U v t) (hw : t ≠ .whitespace) (ht : t ≠ .ident)
    (ts : List TokenGroup) (hlex : lexText U .init (pre ++ "service".toList :: (sp ++ v :: rest)).flatten = .ok ts) :
    ∃ e, parseService unq ts = .error e := by
  cases hp : parseService unq ts with
  | error e => exact ⟨e, rfl⟩
  | ok s =>
    exfalso
    obtain ⟨sp1, name, sp2, r, e, h1, h2, -⟩ := C66_first_service U unq pre _ hl hpre ts hlex s hp
    clear hl hpre hlex hp
    induction sp generalizing sp1 with
    | nil =>
      cases sp1 with
      | nil =>
        simp only [List.nil_append, List.cons.injEq] at e
        rw [← e.1] at h2
        exact ht (C07_kind_unique U _ _ _ hv h2)
      | cons x sp1 =>
        simp only [List.nil_append, List.cons_append, List.cons.injEq] at e
        have := h1 x (by simp)
        rw [← e.1] at this
        exact hw (C07_kind_unique U _ _ _ hv this)
    | cons y sp ih =>
      cases sp1 with
      | nil =>
        simp only [List.nil_append, List.cons_append, List.cons.injEq] at e
        have := hsp y (by simp)
        rw [e.1] at this
        cases C07_kind_unique U _ _ _ this h2
      | cons x sp1 =>
        simp only [List.cons_append, List.cons.injEq] at e
        exact ih (fun w hw => hsp w (List.mem_cons_of_mem _ hw)) sp1 e.2 (fun v hv => h1 v (List.mem_cons_of_mem _ hv))

/-- A comment between the keyword and the name is such a case: a legal proto file that baron rejects. -/
theorem C66_comment_before_name (U : Uni) (unq : Str → Option Str) (pre sp rest : List Str) (c : Str)
    (hl : Laid U (pre ++ "service".toList :: (sp ++ c :: rest))) (hpre : "service".toList ∉ pre)
    (hsp : ∀ w ∈ sp, KindOf U w .whitespace) (hc : isComment c = true)
    (ts : List TokenGroup) (hlex : lexText U .init (pre ++ "service".toList :: (sp ++ c :: rest)).flatten = .ok ts) :
    ∃ e, parseService unq ts = .error e := by
  refine C66_other_use U unq pre sp rest c hl hpre hsp .comment ?_ (by decide) (by decide) ts hlex
  unfold isComment at hc
  split at hc
  · exact ⟨_, _, rfl⟩
  · cases hc

namespace KeywordExample

/-- A message with a field called `service` before the service. -/
def pre : List Str := ["message", " ", "A", " ", "{", " ", "string", " "].map String.toList
def rest : List Str := ["=", " ", "1", ";", " ", "}", "\n", "service", " ", "S", " ", "{", " ",
    "rpc", " ", "M", "(", "A", ")", " ", "returns", " ", "(", "A", ")", " ", "{", "}", " ", "}", "\n"].map String.toList

/-- The hypotheses of `C66_other_use` are met, and the text is really tokenised. -/
example (U : Uni) : Laid U (pre ++ "service".toList :: ([[' ']] ++ "=".toList :: rest.tail)) ∧
    "service".toList ∉ pre ∧ KindOf U [' '] .whitespace :=
  ⟨laidA_sound U (by decide +kernel), by decide +kernel, ⟨' ', [], rfl, by decide⟩⟩

example : (match lexText asciiUni .init (pre ++ "service".toList :: ([[' ']] ++ "=".toList :: rest.tail)).flatten with
    | .ok ts => parseService plainUnq ts
    | _ => .error .fuel) = .error (.expected .svcName 1 "=".toList) := by decide +kernel

/-- Without that field the same file is read. -/
example : (match lexText asciiUni .init ((["message", " ", "A", " ", "{", " ", "string", " ", "x"].map String.toList) ++
      ([[' ']] ++ "=".toList :: rest.tail)).flatten with
    | .ok ts => parseService plainUnq ts
    | _ => .error .fuel) = .ok ⟨"S".toList, []⟩ := by decide +kernel

end KeywordExample

end Baron.Text
