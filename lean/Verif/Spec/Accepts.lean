import Verif.Spec.Grammar

/-!
# Exactly what baron accepts as a service (C67)

`Spec/Grammar.lean` is the grammar a user writes in. This is the larger grammar of everything that the parser accepts, with
what it makes of it, as a derivation system over the significant tokens (kind and text; white space dropped). Each relation
reads `R input … result … rest`.
-/

namespace Baron.Parser.Accepts

open Baron.Lexer
open Baron.Parser.Grammar (Toks comments)

/-- A token that stands for some text. -/
def Real (t : Tok) : Prop := t ≠ .eof ∧ t ≠ .illegal

/-- Neither that nor a comment. -/
def Word (t : Tok) : Prop := Real t ∧ t ≠ .comment

/-- `r` is what follows the first token of `l` with the text `d`. -/
def SkipTo (d : Str) (l r : Toks) : Prop :=
  ∃ s t, l = s ++ (t, d) :: r ∧ Real t ∧ ∀ x ∈ s, Real x.1 ∧ x.2 ≠ d

/-- The last of the comments, or `d` if there is none. -/
def lastOr (d : Str) (cs : List Str) : Str := cs.getLast?.getD d

/-- `key: "literal"` lines and `custom { … }` entries, up to but not including a closing brace or the word
`additional_bindings`. `d` is a comment already read. Result: the fields, and those of the last `custom` if there is one. -/
inductive Fields (unq : Str → Option Str) : Toks → Str → List Field → Option (List Field) → Toks → Prop where
  | close {cs d l} :
      Fields unq (comments cs ++ (.closeBrace, "}".toList) :: l) d [] none ((.closeBrace, "}".toList) :: l)
  | more {cs d t l} : Word t →
      Fields unq (comments cs ++ (t, "additional_bindings".toList) :: l) d [] none ((t, "additional_bindings".toList) :: l)
  | custom {cs d t l l2 l3 l4 r cf cu' fs cu} : Word t → SkipTo "{".toList l l2 → Fields unq l2 [] cf cu' l3 →
      SkipTo "}".toList l3 l4 → Fields unq l4 (lastOr d cs) fs cu r →
      Fields unq (comments cs ++ (t, "custom".toList) :: l) d fs (some (cu.getD cf)) r
  | field {cs d t k lit v l fs cu r} : Word t → ¬ (t = .closeBrace ∧ k = "}".toList) → k ≠ "additional_bindings".toList →
      k ≠ "custom".toList → unq lit = some v → Fields unq l [] fs cu r →
      Fields unq (comments cs ++ (t, k) :: (.symbol, ":".toList) :: (.stringLit, lit) :: l) d
        (⟨lastOr d cs, k, v⟩ :: fs) cu r

/-- `additional_bindings { … }` entries and the closing brace of the option. -/
inductive Adds (unq : Str → Option Str) : Toks → List HTTPBinding → Toks → Prop where
  | close {cs v l} : Adds unq (comments cs ++ (.closeBrace, v) :: l) [] l
  | add {cs t l l2 l3 l4 fs cu bs r} : Word t → t ≠ .closeBrace → SkipTo "{".toList l l2 → Fields unq l2 [] fs cu l3 →
      SkipTo "}".toList l3 l4 → Adds unq l4 bs r →
      Adds unq (comments cs ++ (t, "additional_bindings".toList) :: l) (⟨[], fs, cu.getD []⟩ :: bs) r

/-- The body of an rpc after its opening brace, up to the end of its first option; nothing if it is empty. -/
inductive Body (unq : Str → Option Str) : Toks → Option (List HTTPBinding) → Toks → Prop where
  | empty {cs t l} : Word t → Body unq (comments cs ++ (t, "}".toList) :: l) none l
  | option {cs t l l2 l3 fs cu bs r} : Word t → SkipTo "{".toList l l2 → Fields unq l2 [] fs cu l3 → Adds unq l3 bs r →
      Body unq (comments cs ++ (t, "option".toList) :: l) (some (bs ++ [⟨lastOr [] cs, fs, cu.getD []⟩])) r
  | additional {cs t l l2 l3 r fs cu} : Word t → SkipTo "{".toList l l2 → Fields unq l2 [] fs cu l3 →
      SkipTo "}".toList l3 r →
      Body unq (comments cs ++ (t, "additional_bindings".toList) :: l) (some [⟨lastOr [] cs, fs, cu.getD []⟩]) r

/-- `( [stream] name )`, where the name is the last identifier of a run of identifiers and symbols. -/
def TypeRef (l : Toks) (name : Str) (r : Toks) : Prop :=
  ∃ p st n ws c, l = (.openParen, p) :: (st ++ (.ident, n) :: (ws ++ (.closeParen, c) :: r)) ∧
    ((st = [] ∧ n ≠ "stream".toList) ∨ ∃ t, st = [(t, "stream".toList)]) ∧
    (∀ w ∈ ws, w.1 = .ident ∨ w.1 = .symbol) ∧
    name = lastOr n ((ws.filter fun w => w.1 = .ident).map (·.2))

/-- After the signature: a semicolon, an empty body, or a body with one option, a semicolon and the closing brace. -/
inductive Tail (unq : Str → Option Str) : Toks → Option (List HTTPBinding) → Toks → Prop where
  | semi {t r} : Tail unq ((t, ";".toList) :: r) none r
  | empty {v l r} : v ≠ ";".toList → Body unq l none r → Tail unq ((.openBrace, v) :: l) none r
  | http {v l bs cs1 cs2 v2 r} : v ≠ ";".toList →
      Body unq l (some bs) (comments cs1 ++ (.symbol, ";".toList) :: (comments cs2 ++ (.closeBrace, v2) :: r)) →
      Tail unq ((.openBrace, v) :: l) (some bs) r

/-- The rpcs up to the closing brace of the service. -/
inductive Rpcs (unq : Str → Option Str) : Toks → List Method → Prop where
  | close {cs v r} : Rpcs unq (comments cs ++ (.closeBrace, v) :: r) []
  | rpc {cs name l rq l2 rs l3 bs r ms} : TypeRef l rq ((.ident, "returns".toList) :: l2) → TypeRef l2 rs l3 →
      Tail unq l3 bs r → Rpcs unq r ms →
      Rpcs unq (comments cs ++ (.ident, "rpc".toList) :: (.ident, name) :: l)
        ((bs.map fun b => ⟨name, lastOr [] cs, rq, rs, b⟩).toList ++ ms)

/-- A service. The first token is the keyword: it is `service` or (what the lexer never delivers) another identifier. -/
def Service (unq : Str → Option Str) (l : Toks) (s : Parser.Service) : Prop :=
  ∃ t v name o l', l = (t, v) :: (.ident, name) :: (.openBrace, o) :: l' ∧ t ≠ .eof ∧ (t = .ident ∨ v = "service".toList) ∧
    s.name = name ∧ Rpcs unq l' s.methods

end Baron.Parser.Accepts
