import Verif.Proofs.ParserErrors
import Verif.Props.Parser
import Verif.Props.Lexer
import Verif.Props.Lexeme

/-!
# C50: parse errors point at the text that caused them
-/

namespace Baron.Parser

open Baron.Lexer Baron.Scanner

/-- `line` is the line number (counting from 1) of a place in the text, and `val` is what is written just before that
place. For comments and slashes, which may be merged or shortened, only the line is claimed. -/
def PointsAt (text : Str) (line : Nat) (val : Str) : Prop :=
  ∃ k r, text = k ++ r ∧ line = 1 + k.count '\n' ∧ (val.head? ≠ some '/' → val <:+ k)

/-- What an error message about a file may say. -/
def ErrorAbout (unq : Str → Option Str) (text : Str) (ts : List TokenGroup) : PErr → Prop
  | .unexpectedEOF => ts = []
  | .expected _ line val => PointsAt text line val
  | .optional line val => PointsAt text line val
  | .fastForward tk val => tk = .eof ∧ val = []
  | .unquote val => unq val = none
  | .svcDefEnd => False
  | .fuel => False

/-- **C50** For every token stream the lexer can produce, a parse error reports the line and the text of a token of the
stream, or the line of the last token at the end of the stream. -/
theorem C50_error_tokens (unq : Str → Option Str) (ts : List TokenGroup) (hp : Proper ts) (e : PErr)
    (h : parseService unq ts = .error e) : ErrorOK unq ts e := by
  rcases parseServiceN_good hp _ e h with rfl | h'
  · exact absurd h (C09_terminates unq ts (ts.length + 2) (Nat.le_refl _)).1
  · exact h'

theorem region_subset (b : Bool) (us : List ScanUnit) : ∀ u ∈ region b us, u ∈ us := by
  fun_induction region b us with
  | case1 => intro u h; exact h
  | case2 u r hu ih =>
    intro x hx
    rcases List.mem_cons.mp hx with rfl | hx
    · exact List.mem_cons_self
    · exact List.mem_cons_of_mem _ (ih x hx)
  | case3 u r hu ih => intro x hx; exact List.mem_cons_of_mem _ (ih x hx)
  | case4 u r ih =>
    intro x hx
    rcases List.mem_cons.mp hx with rfl | hx
    · exact List.mem_cons_self
    · exact List.mem_cons_of_mem _ (ih x hx)

theorem token_points (U : Uni) (g : Glob) (text : Str) (ts : List TokenGroup) (h : lexText U g text = .ok ts)
    (t : TokenGroup) (ht : t ∈ ts) : ∃ k r, text = k ++ r ∧ t.line = 1 + k.count '\n' ∧
      (t.token ≠ .whitespace → t.value.head? ≠ some '/' → t.value <:+ k) := by
  obtain ⟨gs, ⟨hg, hgr⟩, hv, hl, hk⟩ := C07_tokens_lossless U g text ts h
  obtain ⟨i, hi, rfl⟩ := List.getElem_of_mem ht
  have hlen : ts.length = gs.length := by simpa using congrArg List.length hv
  have e1 : ts[i].value = textOf gs[i] := by
    have := congrArg (·[i]?) hv
    simpa [List.getElem?_eq_getElem, hi, hlen ▸ hi] using this
  have e2 : ts[i].line = (gs[i].getLast?.map (·.lineNo)).getD 0 := by
    have := congrArg (·[i]?) hl
    simpa [List.getElem?_eq_getElem, hi, hlen ▸ hi] using this
  have hne := (hgr gs[i] (List.getElem_mem _)).1
  have hsh := (hgr gs[i] (List.getElem_mem _)).2
  rw [List.getLast?_eq_some_getLast hne] at e2
  simp only [Option.map_some, Option.getD_some] at e2
  have hu : gs[i].getLast hne ∈ (scan U g text).1 := by
    apply region_subset false
    rw [← hg]
    exact List.mem_flatten.mpr ⟨gs[i], List.getElem_mem _, List.getLast_mem hne⟩
  obtain ⟨cs, c0, c1, -, c2⟩ := C49_lexemes U g text
  rw [← c0] at hu
  obtain ⟨x, hx, hxe⟩ := List.mem_map.mp hu
  obtain ⟨pre, post, hcs⟩ := List.append_of_mem hx
  obtain ⟨a, b, -⟩ := c2 pre x post hcs
  refine ⟨((pre ++ [x]).map (·.1)).flatten, (post.map (·.1)).flatten ++ (scan U g text).2.2.rest, ?_, ?_, ?_⟩
  · conv => lhs; rw [c1, hcs]
    simp
  · rw [e2, ← hxe, b]
  · intro hw hs
    have hone : gs[i] = [gs[i].getLast hne] := by
      rcases hsh with h1 | h1
      · obtain ⟨u, hgi⟩ := List.length_eq_one_iff.mp h1
        have : gs[i].getLast hne = u := by simp [hgi]
        rw [this, hgi]
      · exfalso
        match hgi : gs[i], hne with
        | u :: r, _ =>
          rw [hgi] at e1
          have hkk := hk ts[i] (List.getElem_mem _)
          rcases h1 u (by rw [hgi]; exact List.mem_cons_self) with ⟨c, t, hu1⟩ | ⟨hu1, -⟩
          · rw [e1] at hs; simp [textOf, hu1] at hs
          · cases hvv : u.value with
            | nil => rw [hvv] at hu1; simp at hu1
            | cons c tl =>
              rw [hvv] at hu1
              simp only [List.head?_cons, Option.any_some] at hu1
              have : KindOf U ts[i].value .whitespace := ⟨c, tl ++ textOf r, by rw [e1]; simp [textOf, hvv], hu1⟩
              exact hw (C07_kind_unique U _ _ _ hkk this)
    have hval : ts[i].value = x.2.value := by
      rw [e1, hone, hxe]; simp [textOf]
    have hsame : x.2.value = x.1 := by
      revert hs
      rw [hval]
      generalize (post.map (·.1)).flatten ++ (scan U g text).2.2.rest = rr at a
      generalize x.2.value = vv at a ⊢
      generalize x.1 = kk at a ⊢
      cases a <;> intro hs
      all_goals first
        | rfl
        | (exfalso; exact hs rfl)
    rw [hval, hsame]
    simp only [List.map_append, List.flatten_append, List.map_cons, List.map_nil, List.flatten_cons,
      List.flatten_nil, List.append_nil]
    exact List.suffix_append _ _

/-- **C50** When a proto file does not parse, the error names a place of that file: the reported line is the line at
which the offending text ends, and that text stands there. -/
theorem C50_error_place (U : Uni) (unq : Str → Option Str) (g : Glob) (text : Str) (ts : List TokenGroup)
    (h : lexText U g text = .ok ts) (e : PErr) (he : parseService unq ts = .error e) :
    ErrorAbout unq text ts e := by
  have hk : ∀ t ∈ ts, KindOf U t.value t.token := (C07_tokens_lossless U g text ts h).choose_spec.2.2.2
  have hp : Proper ts := by
    intro t ht
    have := hk t ht
    constructor
    · intro e; rw [e] at this; exact this
    · intro e; rw [e] at this; exact this
  have hok := C50_error_tokens unq ts hp e he
  have hloc : ∀ line val, Located ts line val → ts ≠ [] → PointsAt text line val := by
    rintro line val (⟨t, ht, hw, rfl, rfl⟩ | ⟨rfl, rfl⟩) hne
    · obtain ⟨k, r, a, b, c⟩ := token_points U g text ts h t ht
      exact ⟨k, r, a, b, c hw⟩
    · obtain ⟨k, r, a, b, -⟩ := token_points U g text ts h (ts.getLast hne) (List.getLast_mem hne)
      refine ⟨k, r, a, ?_, fun _ => List.nil_suffix⟩
      rw [← b, lastLine, List.getLast?_eq_some_getLast hne]; rfl
  have hne : ∀ s l v, parseService unq ts = .error (.expected s l v) → ts ≠ [] := by
    intro s l v h2 h3
    subst h3
    have : parseService unq [] = .error .unexpectedEOF := rfl
    rw [this] at h2; cases h2
  cases e with
  | unexpectedEOF =>
    rcases C06_starts_with_service U g text ts h with h1 | ⟨t, r, rfl, h2, -⟩
    · exact h1
    · have := hok t (List.mem_cons_self)
      rw [h2] at this; cases this
  | svcDefEnd => exact hok
  | expected s line val => exact hloc _ _ hok (hne _ _ _ he)
  | optional line val =>
    obtain ⟨t, ht, hw, rfl, rfl⟩ := hok
    obtain ⟨k, r, a, b, c⟩ := token_points U g text ts h t ht
    exact ⟨k, r, a, b, c hw⟩
  | fastForward tk val => exact hok
  | unquote val => exact hok.1
  | fuel => exact hok

-- a missing parenthesis: the error names line 2 and the text there
example : (match lexText asciiUni .init "service S {\n rpc A B\n}".toList with
    | .ok ts => match parseService plainUnq ts with
      | .error (.expected s l v) => some (s, l, v) | _ => none
    | _ => none) = some (.rpcOpenArg, 2, "B".toList) := by decide +kernel

-- end of the text inside a binding
example : (match lexText asciiUni .init "service S {\n rpc A(B) returns(C) {\n option x = {".toList with
    | .ok ts => match parseService plainUnq ts with
      | .error (.expected s l v) => some (s, l, v) | _ => none
    | _ => none) = some (.fieldLegal, 3, []) := by decide +kernel

end Baron.Parser
