import Verif.Proofs.TextCheck
import Verif.Props.Lexer
import Verif.Props.Parser

/-!
# From text to service (C07, C11)
-/

namespace Baron.Text

open Baron.Scanner Baron.Lexer Baron.Parser

/-! ## C07 -/

/-- **C07** The tokens are exactly the units of the service region, in order, except that a comment takes in the comments
that follow it on the same or the next line; each token's kind is determined by its text. -/
theorem C07_tokens_exact (U : Uni) (g : Glob) (s : Str) (ts : List TokenGroup) (h : lexText U g s = .ok ts) :
    ts.map (·.value) = tokenTexts ((region false (scan U g s).1).map (·.value)) ∧
    ∀ t ∈ ts, KindOf U t.value t.token := by
  obtain ⟨gs, -, -, -, hk⟩ := C07_tokens_lossless U g s ts h
  refine ⟨?_, hk⟩
  unfold lexText at h
  rw [lexUnits_eq] at h
  have hrun := scan_run U g s
  exact lexL_exact U _ false _ _ ts (by omega) (ScanRun.flags hrun) (by simp) (ScanRun.shape hrun) h

/-- **C07** Such a file is always tokenised, and the tokens are those of the service. -/
theorem C07_file_tokens (U : Uni) (text : Str) (pre hdr body post : List Str) (hf : File U text pre hdr body post) :
    ∃ ts, lexText U .init text = .ok ts ∧ ts.map (·.value) = tokenTexts (serviceUnits hdr body) ∧
      ∀ t ∈ ts, KindOf U t.value t.token := by
  have hv := scan_laid hf.laid .init
  rw [← hf.text] at hv
  have hrun := scan_run U .init text
  have hout := file_outside hrun pre hdr body post hv hf.pre_word hf.hdr_word hf.body_word hf.post_word hf.pre_depth
    hf.hdr_open hf.hdr_close hf.body_nonneg hf.body_depth hf.post_depth
  have hreg := region_file hrun pre hdr body post hv hf.pre_word hf.hdr_word hf.body_word hf.post_word hf.pre_depth
    hf.hdr_open hf.hdr_close hf.body_nonneg hf.body_depth
  cases h : lexText U .init text with
  | ok ts =>
    refine ⟨ts, rfl, ?_⟩
    have := C07_tokens_exact U .init text ts h
    rw [hreg] at this
    exact this
  | panic =>
    obtain ⟨u, h1, h2⟩ := C07_panic_only_unfinished U .init text h
    have := ScanRun.last_inside hrun u h1
    rw [hout, h2] at this
    exact absurd this (by decide)
  | err =>
    exfalso
    unfold lexText at h
    rw [lexUnits_eq] at h
    revert h
    unfold lexL
    repeat' split
    all_goals simp

/-! ## C11 -/

/-- **C11** From the text of the file: a service written in the supported grammar, laid out with any white space and
comments, preceded and followed by any other definitions, is read back as exactly the service that was written. -/
theorem C11_text (U : Uni) (unq : Str → Option Str) (text : Str) (pre hdr body post : List Str)
    (hf : File U text pre hdr body post) (s : Grammar.ASvc) (hs : s.WF unq)
    (ht : Tokens U (serviceUnits hdr body) s.print) :
    ∃ ts, lexText U .init text = .ok ts ∧ parseService unq ts = .ok s.meaning := by
  obtain ⟨ts, h1, h2, h3⟩ := C07_file_tokens U text pre hdr body post hf
  refine ⟨ts, h1, C11_roundtrip unq s hs ts [] ?_⟩
  obtain ⟨ks, k1, k2, k3⟩ := ht
  have : ts.map (fun t => (t.token, t.value)) = ks := by
    have key : ∀ (ts : List TokenGroup) (ks : List (Tok × Str)), (∀ t ∈ ts, KindOf U t.value t.token) →
        (∀ k ∈ ks, KindOf U k.2 k.1) → ts.map (·.value) = ks.map (·.2) → ts.map (fun t => (t.token, t.value)) = ks := by
      intro ts
      induction ts with
      | nil => intro ks _ _ e; cases ks with | nil => rfl | cons => simp at e
      | cons t ts ih =>
        intro ks ht hk e
        cases ks with
        | nil => simp at e
        | cons k ks =>
          simp only [List.map_cons, List.cons.injEq] at e
          rw [List.map_cons, ih ks (fun t h => ht t (List.mem_cons_of_mem _ h))
            (fun k h => hk k (List.mem_cons_of_mem _ h)) e.2]
          congr 1
          have a := ht t List.mem_cons_self
          have b := hk k List.mem_cons_self
          rw [e.1] at a
          rw [C07_kind_unique U _ _ _ a b, e.1]
    exact key ts ks h3 k2 (by rw [h2, k1])
  rw [List.append_nil, k3, ← this]
  unfold significant
  rw [List.filter_map]
  rfl

/-! ## The hypotheses are met -/

namespace Example

def pre : List Str := ["message", " ", "A", " ", "{", " ", "}", " ", "// a service\n"].map String.toList
def hdr : List Str := [" ", "S", " "].map String.toList
def body : List Str :=
  ["\n  ", "// doc\n", "  ", "rpc", " ", "M", "(", "A", ")", " ",
    "returns", " ", "(", "A", ")", " ", "{", "\n  ",
    "option", " ", "(", "google", ".", "api", ".", "http", ")", " ", "=", " ", "{", " ", "get", ":", " ", "\"/a\"", " ", "}", ";", " ", "}", "\n"].map String.toList
def post : List Str := ["\n"].map String.toList

def svc : Grammar.ASvc :=
  { name := "S".toList
    rpcs := [{ pre := ["// doc\n".toList], name := "M".toList, req := ⟨false, [], "A".toList⟩, resp := ⟨false, [], "A".toList⟩,
               tail := .http { pre := []
                               skip := [(.openParen, "(".toList), (.ident, "google".toList), (.symbol, ".".toList),
                                 (.ident, "api".toList), (.symbol, ".".toList), (.ident, "http".toList),
                                 (.closeParen, ")".toList), (.symbol, "=".toList)]
                               body := ⟨[.field ⟨[], "get".toList, "\"/a\"".toList, "/a".toList⟩], []⟩
                               adds := [], post := [], preSemi := [], preEnd := [] } }]
    post := [] }

/-- A file with a message, a comment mentioning `service`, and a service with a comment. -/
theorem file (U : Uni) : File U ("message A { } // a service\nservice S {\n  // doc\n  rpc M(A) returns (A) {\n  " ++
    "option (google.api.http) = { get: \"/a\" }; }\n}\n").toList pre hdr body post where
  laid := laidA_sound U (by decide +kernel)
  text := by decide +kernel
  pre_word := by decide +kernel
  hdr_word := by decide +kernel
  body_word := by decide +kernel
  post_word := by decide +kernel
  pre_depth := by decide +kernel
  hdr_open := by decide +kernel
  hdr_close := by decide +kernel
  body_nonneg := by
    have key : ∀ n ∈ List.range (body.length + 1), 0 ≤ depthOf (body.take n) := by decide +kernel
    intro a b e
    have := key a.length (by rw [List.mem_range, e, List.length_append]; omega)
    rw [e, List.take_left] at this
    exact this
  body_depth := by decide +kernel
  post_depth := by decide +kernel

theorem svc_wf : svc.WF plainUnq := by
  intro r hr
  simp only [svc, List.mem_singleton] at hr
  subst hr
  refine ⟨by intro _; decide +kernel, by intro _; decide +kernel, ?_, ?_, ?_⟩
  · unfold Grammar.SkipOK; decide +kernel
  · intro i hi
    simp only [List.mem_singleton] at hi
    subst hi
    exact ⟨by decide +kernel, by decide +kernel, by decide +kernel⟩
  · intro a ha; cases ha

theorem svc_tokens (U : Uni) : Tokens U (serviceUnits hdr body) svc.print := by
  have := tokens_checked U (vs := serviceUnits hdr body) (serviceUnits hdr body) (by decide +kernel) (by decide +kernel)
  have e : ((serviceUnits hdr body).map fun v => (kindA v, v)).filter (fun k => k.1 ≠ .whitespace) = svc.print := by
    decide +kernel
  rw [e] at this
  exact this

/-- The hypotheses of `C11_text` are met. -/
example (U : Uni) : (∃ text, File U text pre hdr body post) ∧ svc.WF plainUnq ∧ Tokens U (serviceUnits hdr body) svc.print :=
  ⟨⟨_, file U⟩, svc_wf, svc_tokens U⟩

end Example

end Baron.Text
