import Verif.Proofs.ParserMono
import Verif.Proofs.Grammar

/-!
# Properties of the service parser: C09-C12
-/

namespace Baron.Parser

open Baron.Lexer

theorem significant_eq_sig (ts : List TokenGroup) : significant ts = sig ts := by
  unfold significant sig
  congr 1
  apply List.filter_congr
  intro x _
  cases x.token <;> simp [ignWS]

theorem noLine_sameError {a b : PErr} (h : a.noLine = b.noLine) : SameError a b := by
  cases a <;> cases b <;> simp_all [PErr.noLine, SameError]

theorem evS_sameOutcome {a b : Except PErr Service} (h : evS a = evS b) : SameOutcome a b := by
  cases a <;> cases b <;> simp_all [evS, SameOutcome]
  exact noLine_sameError h

theorem evS_ok {a : Except PErr Service} {s : Service} (h : evS a = .ok s) : a = .ok s := by
  cases a <;> simp_all [evS]

theorem evS_fuel {a : Except PErr Service} (h : a = .error .fuel) : evS a = .error .fuel := by
  rw [h]; rfl

/-! ## C09 -/

/-- **C09** For every token stream the parser finishes with a service or an error: no chain of loop iterations and
nested calls gets longer than the stream plus two (`.fuel`, the outcome "bound reached", never occurs), and every
larger bound gives the very same outcome. -/
theorem C09_terminates (unq : Str → Option Str) (ts : List TokenGroup) (n : Nat) (hn : ts.length + 2 ≤ n) :
    parseServiceN unq n (Cur.new ts) ≠ .error .fuel ∧
    parseServiceN unq n (Cur.new ts) = parseService unq ts := by
  have key : ∀ m, ts.length + 2 ≤ m → parseServiceN unq m (Cur.new ts) ≠ .error .fuel := by
    intro m hm e
    have h1 := parseServiceN_abs unq m (Cur.new ts)
    rw [evS_fuel e] at h1
    have hl := sig_length ts
    exact (aService_fuel unq m m (sig ts) (by omega) (by omega)).2 h1.symm
  exact ⟨key n hn, parseServiceN_mono unq _ n hn _ (key _ (Nat.le_refl _))⟩

/-! ## C10 -/

/-- **C10** Two token streams with the same tokens apart from white space parse to the same service, or fail for the
same reason (line numbers aside). -/
theorem C10_whitespace_irrelevant (unq : Str → Option Str) (ts ts' : List TokenGroup)
    (h : significant ts = significant ts') : SameOutcome (parseService unq ts) (parseService unq ts') := by
  rw [significant_eq_sig, significant_eq_sig] at h
  apply evS_sameOutcome
  have h1 := parseServiceN_abs unq (ts.length + 2) (Cur.new ts)
  have h2 := parseServiceN_abs unq (ts'.length + 2) (Cur.new ts')
  show evS (parseServiceN unq _ _) = evS (parseServiceN unq _ _)
  rw [h1, h2]
  have hl := sig_length ts
  have hl' := sig_length ts'
  show aService unq _ (sig ts) = aService unq _ (sig ts')
  rw [← h]
  exact (aService_fuel unq _ _ (sig ts) (by omega) (by rw [h]; omega)).1

/-- **C10** In particular, inserting any white-space tokens at any one place changes nothing. -/
theorem C10_insert_whitespace (unq : Str → Option Str) (a b ws : List TokenGroup)
    (hws : ∀ g ∈ ws, g.token = .whitespace) :
    SameOutcome (parseService unq (a ++ b)) (parseService unq (a ++ ws ++ b)) := by
  apply C10_whitespace_irrelevant
  have : ws.filter (fun g => g.token ≠ .whitespace) = [] := by
    rw [List.filter_eq_nil_iff]
    intro g hg
    simp [hws g hg]
  simp only [significant, List.filter_append, this, List.append_nil]

/-! ## C11 -/

/-- **C11** Every service written in the supported grammar, with comments wherever the grammar has them, any white
space between the tokens and anything after its closing brace, parses to exactly its meaning. -/
theorem C11_roundtrip (unq : Str → Option Str) (s : Grammar.ASvc) (hs : s.WF unq) (ts : List TokenGroup)
    (rest : Grammar.Toks) (h : significant ts = s.print ++ rest) :
    parseService unq ts = .ok s.meaning := by
  rw [significant_eq_sig] at h
  apply evS_ok
  show evS (parseServiceN unq _ _) = _
  rw [parseServiceN_abs]
  show aService unq _ (sig ts) = _
  have hl := sig_length ts
  rw [h] at hl ⊢
  exact aService_print unq s hs rest _ (by omega)

/-! ## C12 -/

/-- `StripRpcs original modified kept`: `modified` is `original` with some rpcs' bodies replaced by one without http
options (`;` or braces holding only comments); `kept` are the others. -/
inductive StripRpcs : List Grammar.ARpc → List Grammar.ARpc → List Grammar.ARpc → Prop where
  | nil : StripRpcs [] [] []
  | keep (r) {o m k} : StripRpcs o m k → StripRpcs (r :: o) (r :: m) (r :: k)
  | semi (r) {o m k} : StripRpcs o m k → StripRpcs (r :: o) ({ r with tail := .semi } :: m) k
  | empty (r) (cs : List Str) {o m k} : StripRpcs o m k → StripRpcs (r :: o) ({ r with tail := .empty cs } :: m) k

/-- **C12** Taking the http options away from any subset of the rpcs gives the same parse result as deleting those
rpcs from the file: everything else is unchanged and parsing still succeeds. -/
theorem C12_no_http_ignored (unq : Str → Option Str) (s : Grammar.ASvc) (hs : s.WF unq)
    (modified kept : List Grammar.ARpc) (hstrip : StripRpcs s.rpcs modified kept)
    (ts tsKept : List TokenGroup) (rest : Grammar.Toks)
    (h : significant ts = Grammar.ASvc.print { s with rpcs := modified } ++ rest)
    (hk : significant tsKept = Grammar.ASvc.print { s with rpcs := kept } ++ rest) :
    parseService unq ts = parseService unq tsKept ∧
    parseService unq tsKept = .ok ⟨s.name, kept.filterMap Grammar.ARpc.meaning⟩ := by
  have key : ∀ {o m k}, StripRpcs o m k → (∀ r ∈ o, r.WF unq) →
      (∀ r ∈ m, r.WF unq) ∧ (∀ r ∈ k, r.WF unq) ∧
      m.filterMap Grammar.ARpc.meaning = k.filterMap Grammar.ARpc.meaning := by
    intro o m k hst
    induction hst with
    | nil => intro _; exact ⟨by simp, by simp, rfl⟩
    | keep r _ ih =>
      intro hw
      obtain ⟨a, b, c⟩ := ih (fun x hx => hw x (List.mem_cons_of_mem _ hx))
      have hr := hw r List.mem_cons_self
      refine ⟨?_, ?_, ?_⟩
      · intro x hx
        rcases List.mem_cons.mp hx with rfl | hx
        · exact hr
        · exact a x hx
      · intro x hx
        rcases List.mem_cons.mp hx with rfl | hx
        · exact hr
        · exact b x hx
      · rw [List.filterMap_cons, List.filterMap_cons, c]
    | semi r _ ih =>
      intro hw
      obtain ⟨a, b, c⟩ := ih (fun x hx => hw x (List.mem_cons_of_mem _ hx))
      have hr := hw r List.mem_cons_self
      refine ⟨?_, b, ?_⟩
      · intro x hx
        rcases List.mem_cons.mp hx with rfl | hx
        · exact ⟨hr.1, hr.2.1, trivial⟩
        · exact a x hx
      · rw [List.filterMap_cons]; exact c
    | empty r cs _ ih =>
      intro hw
      obtain ⟨a, b, c⟩ := ih (fun x hx => hw x (List.mem_cons_of_mem _ hx))
      have hr := hw r List.mem_cons_self
      refine ⟨?_, b, ?_⟩
      · intro x hx
        rcases List.mem_cons.mp hx with rfl | hx
        · exact ⟨hr.1, hr.2.1, trivial⟩
        · exact a x hx
      · rw [List.filterMap_cons]; exact c
  obtain ⟨hm, hkk, he⟩ := key hstrip hs
  have e1 := C11_roundtrip unq { s with rpcs := modified } hm ts rest h
  have e2 := C11_roundtrip unq { s with rpcs := kept } hkk tsKept rest hk
  refine ⟨?_, e2⟩
  rw [e1, e2]
  unfold Grammar.ASvc.meaning
  rw [he]

/-! ## Examples: the hypotheses are met by real services -/

/-- `strconv.Unquote` on double-quoted strings without escapes. -/
def plainUnq : Str → Option Str
  | '"' :: r => if r.getLast? = some '"' then some r.dropLast else none
  | _ => none

namespace Example

def fld (k v : String) : Grammar.AItem := .field ⟨[], k.toList, ("\"" ++ v ++ "\"").toList, v.toList⟩

def getSum : Grammar.ARpc :=
  { pre := ["// old".toList, "// Sum".toList], name := "Sum".toList
    req := ⟨false, ["pb".toList], "SumRequest".toList⟩, resp := ⟨true, [], "SumReply".toList⟩
    tail := .http
      { pre := ["// main".toList], skip := [(.symbol, "(".toList), (.ident, "http".toList), (.symbol, "=".toList)]
        body := ⟨[fld "get" "/sum/{a}", .custom [] [(.symbol, ":".toList)]
          [⟨[], "kind".toList, "\"HEAD\"".toList, "HEAD".toList⟩] []], ["// tail".toList]⟩
        adds := [⟨["// other".toList], [], ⟨[fld "post" "/sum", fld "body" "*"], []⟩⟩]
        post := [], preSemi := [], preEnd := [] } }

def ping : Grammar.ARpc :=
  { pre := [], name := "Ping".toList, req := ⟨false, [], "E".toList⟩, resp := ⟨false, [], "E".toList⟩, tail := .semi }

def svc : Grammar.ASvc := ⟨"Calc".toList, [getSum, ping], []⟩

theorem svc_wf : svc.WF plainUnq := by
  intro r hr
  simp only [svc, List.mem_cons, List.not_mem_nil, or_false] at hr
  rcases hr with rfl | rfl
  · refine ⟨fun _ => by decide, fun h => by simp [getSum] at h, ⟨?_, ?_, ?_⟩⟩
    · intro x hx
      simp only [List.mem_cons, List.not_mem_nil, or_false] at hx
      rcases hx with rfl | rfl | rfl <;> decide
    · intro i hi
      simp only [List.mem_cons, List.not_mem_nil, or_false] at hi
      rcases hi with rfl | rfl
      · exact ⟨by decide, by decide, by decide⟩
      · refine ⟨?_, ?_⟩
        · intro x hx
          simp only [List.mem_cons, List.not_mem_nil, or_false] at hx
          rcases hx with rfl; decide
        · intro f hf
          simp only [List.mem_cons, List.not_mem_nil, or_false] at hf
          rcases hf with rfl
          exact ⟨by decide, by decide, by decide⟩
    · intro a ha
      simp only [List.mem_cons, List.not_mem_nil, or_false] at ha
      rcases ha with rfl
      refine ⟨fun x hx => by simp at hx, ?_⟩
      intro i hi
      simp only [List.mem_cons, List.not_mem_nil, or_false] at hi
      rcases hi with rfl | rfl <;> exact ⟨by decide, by decide, by decide⟩
  · exact ⟨fun _ => by decide, fun _ => by decide, trivial⟩

/-- Tokens for it, with white space after every one. -/
def spaced (l : Grammar.Toks) : List TokenGroup := l.flatMap fun x => [⟨x.1, x.2, 7⟩, ⟨.whitespace, [' '], 7⟩]

theorem spaced_significant (l : Grammar.Toks) (h : ∀ x ∈ l, x.1 ≠ .whitespace) : significant (spaced l) = l := by
  induction l with
  | nil => rfl
  | cons x l ih =>
    have := ih (fun y hy => h y (List.mem_cons_of_mem _ hy))
    unfold spaced significant at this ⊢
    rw [List.flatMap_cons, List.filter_append, List.map_append, this]
    simp [h x List.mem_cons_self]

example : parseService plainUnq (spaced svc.print) = .ok svc.meaning :=
  C11_roundtrip plainUnq svc svc_wf _ [] (by
    rw [List.append_nil]
    exact spaced_significant _ (by decide +kernel))

/-- What the meaning is, spelled out. -/
example : svc.meaning = ⟨"Calc".toList, [⟨"Sum".toList, "// Sum".toList, "SumRequest".toList, "SumReply".toList,
    [⟨[], [⟨[], "post".toList, "/sum".toList⟩, ⟨[], "body".toList, "*".toList⟩], []⟩,
     ⟨"// main".toList, [⟨[], "get".toList, "/sum/{a}".toList⟩], [⟨[], "kind".toList, "HEAD".toList⟩]⟩]⟩]⟩ := by
  rfl

example : StripRpcs svc.rpcs [{ getSum with tail := .empty [] }, ping] [ping] :=
  .empty getSum [] (.keep ping .nil)

/-- A malformed stream: parsing ends, with an error. -/
example : parseService plainUnq [⟨.ident, "service".toList, 1⟩, ⟨.ident, "A".toList, 1⟩, ⟨.openBrace, "{".toList, 1⟩,
    ⟨.ident, "rpc".toList, 2⟩] = .error (.expected .rpcName 2 []) := by rfl

end Example

/-! ## C41 -/

/-- The rpc with other tokens between the word `option` and the block of its option. -/
def withLeadIn (lead : Grammar.Toks) (r : Grammar.ARpc) : Grammar.ARpc :=
  match r.tail with
  | .http o => { r with tail := .http { o with skip := lead } }
  | _ => r

/-- **C41** What stands between the first word `option` of an rpc and the first `{` after it is immaterial, for all rpcs of a
well-formed service at once: the name of the option, further brace-free options, anything. -/
theorem C41_lead_in (unq : Str → Option Str) (s : Grammar.ASvc) (hs : s.WF unq)
    (lead : Grammar.ARpc → Option Grammar.Toks) (hx : ∀ r ex, lead r = some ex → Grammar.SkipOK ex)
    (ts : List TokenGroup) (rest : Grammar.Toks)
    (h : significant ts = Grammar.ASvc.print { s with rpcs := s.rpcs.map fun r =>
      ((lead r).elim r fun ex => withLeadIn ex r) } ++ rest) :
    parseService unq ts = .ok s.meaning := by
  have hmean : ∀ r : Grammar.ARpc, Grammar.ARpc.meaning ((lead r).elim r fun ex => withLeadIn ex r) = r.meaning := by
    intro r
    cases lead r with
    | none => rfl
    | some ex =>
      simp only [withLeadIn, Option.elim]
      cases ht : r.tail with
      | http o => simp [Grammar.ARpc.meaning, ht, Grammar.AOpt.meaning]
      | semi => rfl
      | empty _ => rfl
  rw [C11_roundtrip unq _ ?_ ts rest h]
  · simp only [Grammar.ASvc.meaning, List.filterMap_map]
    congr 2
    apply congrArg (fun f => List.filterMap f s.rpcs)
    funext r
    exact hmean r
  · intro r hr
    simp only [List.mem_map] at hr
    obtain ⟨r0, hr0, rfl⟩ := hr
    have hw := hs r0 hr0
    cases hex : lead r0 with
    | none => exact hw
    | some ex =>
      simp only [withLeadIn, Option.elim]
      cases ht : r0.tail with
      | http o =>
        obtain ⟨a, b, c⟩ := hw
        rw [ht] at c
        exact ⟨a, b, hx r0 ex hex, c.2⟩
      | semi => exact hw
      | empty _ => exact hw

/-- `option extra… ` (e.g. `option deprecated = true;`, brace-free) written before the http option of an rpc. -/
def withEarlierOption (extra : Grammar.Toks) (r : Grammar.ARpc) : Grammar.ARpc :=
  match r.tail with
  | .http o => { r with tail := .http { o with skip := extra ++ [Grammar.kw "option"] ++ o.skip } }
  | _ => r

/-- **C41** In particular, brace-free options written before the http option, in any rpcs of a well-formed service, do not
change the parse result. -/
theorem C41_options_before_http (unq : Str → Option Str) (s : Grammar.ASvc) (hs : s.WF unq)
    (extra : Grammar.ARpc → Option Grammar.Toks) (hx : ∀ r ex, extra r = some ex → Grammar.SkipOK ex)
    (ts : List TokenGroup) (rest : Grammar.Toks)
    (h : significant ts = Grammar.ASvc.print { s with rpcs := s.rpcs.map fun r =>
      ((extra r).elim r fun ex => withEarlierOption ex r) } ++ rest) :
    parseService unq ts = .ok s.meaning := by
  classical
  let skipOf : Grammar.ARpc → Grammar.Toks := fun r => match r.tail with | .http o => o.skip | _ => []
  refine C41_lead_in unq s hs (fun r => if r ∈ s.rpcs then (extra r).map fun ex => ex ++ [Grammar.kw "option"] ++ skipOf r else none)
    ?_ ts rest ?_
  · intro r ex he
    split at he
    · rename_i hr
      cases hex : extra r with
      | none => rw [hex] at he; cases he
      | some e0 =>
        rw [hex] at he
        simp only [Option.map_some, Option.some.injEq] at he
        subst he
        intro x hxm
        simp only [List.mem_append, List.mem_cons, List.not_mem_nil, or_false] at hxm
        rcases hxm with (hxm | rfl) | hxm
        · exact hx r e0 hex x hxm
        · exact ⟨by decide, by decide, by decide⟩
        · have hw := (hs r hr).2.2
          simp only [skipOf] at hxm
          cases ht : r.tail with
          | http o => rw [ht] at hw hxm; exact hw.1 x hxm
          | semi => rw [ht] at hxm; cases hxm
          | empty _ => rw [ht] at hxm; cases hxm
    · cases he
  · rw [h]
    congr 3
    apply List.map_congr_left
    intro r hr
    simp only [hr, if_true]
    cases extra r with
    | none => rfl
    | some ex =>
      simp only [Option.map_some, Option.elim, withEarlierOption, withLeadIn, skipOf]
      cases ht : r.tail <;> rfl

/-- The tokens of `service A { rpc B (C) returns (D) { option (google.api.http) = { get: "/" };
option deprecated = true; } }`, a valid proto service, and the same without the second option. -/
def deprecatedTokens (extra : Grammar.Toks) : Grammar.Toks :=
  [Grammar.kw "service", (.ident, "A".toList), (.openBrace, "{".toList), Grammar.kw "rpc", (.ident, "B".toList),
   (.openParen, "(".toList), (.ident, "C".toList), (.closeParen, ")".toList), Grammar.kw "returns",
   (.openParen, "(".toList), (.ident, "D".toList), (.closeParen, ")".toList), (.openBrace, "{".toList),
   Grammar.kw "option", (.openParen, "(".toList), (.ident, "google".toList), (.symbol, ".".toList),
   (.ident, "api".toList), (.symbol, ".".toList), (.ident, "http".toList), (.closeParen, ")".toList),
   (.symbol, "=".toList), (.openBrace, "{".toList), (.ident, "get".toList), (.symbol, ":".toList),
   (.stringLit, "\"/\"".toList), (.closeBrace, "}".toList), (.symbol, ";".toList)] ++ extra ++
  [(.closeBrace, "}".toList), (.closeBrace, "}".toList)]

/-- **C41** So a second option after the http option is a parse error, although the service without it parses
(`C41_nothing_after` in `Props/Accepts.lean` is the general statement). -/
theorem C41_after_witness :
    (parseService plainUnq (Example.spaced (deprecatedTokens []))).toOption.isSome = true ∧
    parseService plainUnq (Example.spaced (deprecatedTokens [Grammar.kw "option", (.ident, "deprecated".toList),
      (.symbol, "=".toList), (.ident, "true".toList), (.symbol, ";".toList)])) =
      .error (.expected .rpcClose 7 "option".toList) := by
  constructor
  · decide +kernel
  · rfl

/-- The extra tokens of `option deprecated = true;` before the http option meet the hypothesis. -/
example : Grammar.SkipOK [(.ident, "deprecated".toList), (.symbol, "=".toList), (.ident, "true".toList),
    (.symbol, ";".toList)] := by
  intro x hx
  simp only [List.mem_cons, List.not_mem_nil, or_false] at hx
  rcases hx with rfl | rfl | rfl | rfl <;> decide

end Baron.Parser
