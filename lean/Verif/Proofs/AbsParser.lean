import Verif.Proofs.Cursor

/-!
# The parser over plain lists of significant tokens

A proof device: the same parser without cursor, white space and line numbers, and the theorem that the cursor-based
parser computes the same thing.
-/

namespace Baron.Parser

open Baron.Lexer

abbrev Sig := List (Tok × Str)

/-- The significant tokens: white space dropped, lines forgotten. -/
def sig (ts : List TokenGroup) : Sig := (ts.filter (fun g => !ignWS g.token)).map fun g => (g.token, g.value)

theorem sig_nil : sig [] = [] := rfl
theorem sig_ws (g : TokenGroup) (r) (h : g.token = .whitespace) : sig (g :: r) = sig r := by
  simp [sig, ignWS, h]
theorem sig_cons (g : TokenGroup) (r) (h : g.token ≠ .whitespace) : sig (g :: r) = (g.token, g.value) :: sig r := by
  have : ignWS g.token = false := by
    unfold ignWS; split
    · rename_i e; exact absurd e h
    · rfl
  simp [sig, this]

def PErr.noLine : PErr → PErr
  | .expected s _ v => .expected s 0 v
  | .optional _ v => .optional 0 v
  | e => e

/-! ### Abstract parser -/

def aget : Sig → Tok × Str × Sig
  | [] => (.eof, [], [])
  | (t, v) :: r => (t, v, r)

def agetC : Sig → Tok × Str × Sig
  | [] => (.eof, [], [])
  | (t, v) :: r => if t = .comment then agetC r else (t, v, r)

def adesc (desc : Str) : Sig → Str × Tok × Str × Sig
  | [] => (desc, .eof, [], [])
  | (t, v) :: r => if t = .comment then adesc v r else (desc, t, v, r)

def aff (delim : Str) : Sig → Except PErr Sig
  | [] => .error (.fastForward .eof [])
  | (t, v) :: r =>
    if t = .eof ∨ t = .illegal then .error (.fastForward t v)
    else if v = delim then .ok r
    else aff delim r

def aFields (unq : Str → Option Str) :
    Nat → Sig → Str → List Field → List Field → Except PErr (List Field × List Field × Sig)
  | 0, _, _, _, _ => .error .fuel
  | n + 1, l, desc, fields, custom =>
    match adesc desc l with
    | (desc, tk, val, l1) =>
      if tk = .eof ∨ tk = .illegal then .error (.expected .fieldLegal 0 val)
      else if tk = .closeBrace ∧ val = "}".toList then .ok (fields, custom, (tk, val) :: l1)
      else if val = "additional_bindings".toList then .ok (fields, custom, (tk, val) :: l1)
      else if val = "custom".toList then
        match aff "{".toList l1 with
        | .error e => .error e
        | .ok l2 =>
          match aFields unq n l2 [] [] [] with
          | .error e => .error e
          | .ok (cf, _, l3) =>
            match aff "}".toList l3 with
            | .error e => .error e
            | .ok l4 => aFields unq n l4 desc fields cf
      else
        match aget l1 with
        | (tk2, val2, l2) =>
          if tk2 ≠ .symbol ∨ val2 ≠ ":".toList then .error (.expected .fieldColon 0 val2)
          else match aget l2 with
            | (tk3, val3, l3) =>
              if tk3 ≠ .stringLit then .error (.expected .fieldValue 0 val3)
              else match unq val3 with
                | none => .error (.unquote val3)
                | some v => aFields unq n l3 [] (fields ++ [⟨desc, val, v⟩]) custom

mutual
def aHttp (unq : Str → Option Str) : Nat → Sig → Except PErr (Option (List HTTPBinding) × Sig)
  | 0, _ => .error .fuel
  | n + 1, l =>
    match adesc [] l with
    | (desc, tk, val, l1) =>
      if tk = .eof ∨ tk = .illegal then .error (.expected .bindStart 0 [])
      else if val = "option".toList then
        match aff "{".toList l1 with
        | .error e => .error e
        | .ok l2 =>
          match aFields unq n l2 [] [] [] with
          | .error e => .error e
          | .ok (fs, cs, l3) => aOption unq n l3 [] ⟨desc, fs, cs⟩
      else if val = "additional_bindings".toList then
        match aff "{".toList l1 with
        | .error e => .error e
        | .ok l2 =>
          match aFields unq n l2 [] [] [] with
          | .error e => .error e
          | .ok (fs, cs, l3) =>
            match aff "}".toList l3 with
            | .error e => .error e
            | .ok l4 => .ok (some [⟨desc, fs, cs⟩], l4)
      else if val = "}".toList then .ok (none, l1)
      else .error (.optional 0 val)

def aOption (unq : Str → Option Str) :
    Nat → Sig → List HTTPBinding → HTTPBinding → Except PErr (Option (List HTTPBinding) × Sig)
  | 0, _, _, _ => .error .fuel
  | n + 1, l, rv, opt =>
    match aget l with
    | (tk, val, l1) =>
      if tk = .closeBrace then .ok (some (rv ++ [opt]), l1)
      else if tk = .comment then aOption unq n l1 rv opt
      else if val = "additional_bindings".toList then
        match aHttp unq n l with
        | .error e => .error e
        | .ok (more, l2) => aOption unq n l2 (rv ++ more.getD []) opt
      else if tk = .eof ∨ tk = .illegal then .error (.expected .bindLegal 0 val)
      else .error (.expected .bindClose 0 val)
end

def aTypeLoop (site : Site) : Nat → Tok → Str → Sig → Str → Except PErr (Str × Sig)
  | 0, _, _, _, _ => .error .fuel
  | n + 1, tk, val, l, acc =>
    if tk = .closeParen then .ok (acc, l)
    else if tk = .symbol then
      match aget l with
      | (tk', val', l') => aTypeLoop site n tk' val' l' acc
    else if tk = .ident then
      match aget l with
      | (tk', val', l') => aTypeLoop site n tk' val' l' val
    else .error (.expected site 0 val)

def aType (openSite identSite loopSite : Site) (n : Nat) (l : Sig) : Except PErr (Str × Sig) :=
  match aget l with
  | (tk, val, l1) =>
    if tk ≠ .openParen then .error (.expected openSite 0 val)
    else
      match aget l1 with
      | (tk2, val2, l2) =>
        match (if val2 = "stream".toList then aget l2 else (tk2, val2, l2)) with
        | (tk3, val3, l3) =>
          if tk3 ≠ .ident then .error (.expected identSite 0 val3)
          else aTypeLoop loopSite n tk3 val3 l3 []

def aTail (unq : Str → Option Str) (n : Nat) (l : Sig) (m : Method) : Except PErr (Option Method × Sig) :=
  match aget l with
  | (tk, val, l1) =>
    if val = ";".toList then .ok (none, l1)
    else if tk ≠ .openBrace then .error (.expected .rpcOpenBody 0 val)
    else
      match aHttp unq n l1 with
      | .error e => .error e
      | .ok (none, l2) => .ok (none, l2)
      | .ok (some bs, l2) =>
        match agetC l2 with
        | (tk3, val3, l3) =>
          if tk3 ≠ .symbol ∨ val3 ≠ ";".toList then .error (.expected .rpcSemi 0 val3)
          else match agetC l3 with
            | (tk4, val4, l4) =>
              if tk4 ≠ .closeBrace then .error (.expected .rpcClose 0 val4)
              else .ok (some { m with bindings := bs }, l4)

def aMethod (unq : Str → Option Str) (n : Nat) (l : Sig) : Except PErr (Option Method × Sig) :=
  match adesc [] l with
  | (desc, tk, val, l1) =>
    if tk = .closeBrace then .error .svcDefEnd
    else if tk ≠ .ident ∨ val ≠ "rpc".toList then .error (.expected .rpcKeyword 0 val)
    else
      match aget l1 with
      | (tk2, name, l2) =>
        if tk2 ≠ .ident then .error (.expected .rpcName 0 name)
        else
          match aType .rpcOpenArg .rpcArgIdent .rpcArg n l2 with
          | .error e => .error e
          | .ok (rq, l3) =>
            match aget l3 with
            | (tk4, val4, l4) =>
              if tk4 ≠ .ident ∨ val4 ≠ "returns".toList then .error (.expected .rpcReturns 0 val4)
              else
                match aType .rpcOpenRet .rpcRetIdent .rpcRet n l4 with
                | .error e => .error e
                | .ok (rs, l5) => aTail unq n l5 ⟨name, desc, rq, rs, []⟩

def aMethods (unq : Str → Option Str) (fuel : Nat) : Nat → Sig → List Method → Except PErr (List Method)
  | 0, _, _ => .error .fuel
  | n + 1, l, ms =>
    match aMethod unq fuel l with
    | .error .svcDefEnd => .ok ms
    | .error e => .error e
    | .ok (none, l') => aMethods unq fuel n l' ms
    | .ok (some m, l') => aMethods unq fuel n l' (ms ++ [m])

def aService (unq : Str → Option Str) (fuel : Nat) (l : Sig) : Except PErr Service :=
  match aget l with
  | (tk, val, l1) =>
    if tk = .eof then .error .unexpectedEOF
    else if tk ≠ .ident ∧ val ≠ "service".toList then .error (.expected .svcKeyword 0 val)
    else
      match aget l1 with
      | (tk2, name, l2) =>
        if tk2 ≠ .ident then .error (.expected .svcName 0 name)
        else
          match aget l2 with
          | (tk3, val3, l3) =>
            if tk3 ≠ .openBrace then .error (.expected .svcOpen 0 val3)
            else
              match aMethods unq fuel fuel l3 [] with
              | .error e => .error e
              | .ok ms => .ok ⟨name, ms⟩

/-! ### Simulation of the cursor operations -/

theorem getWS_abs (c : Cur) : ∃ c1, c.getWS = ((aget (sig c.rest)).1, (aget (sig c.rest)).2.1, c1) ∧
    sig c1.rest = (aget (sig c.rest)).2.2 ∧
    (c1.unGetTo c.pos).rest = c.rest ∧ (c1.unGetTo c.pos).pos = c.pos := by
  obtain ⟨p, r, l⟩ := c
  unfold Cur.getWS Cur.pos
  simp only
  -- consumed tokens `k` on top of `p`
  have key : ∀ (r k : List TokenGroup) (l : Nat) (r0 : List TokenGroup), k.reverse ++ r = r0 →
      ∃ c1, skipGo ignWS (k ++ p) l r = ((aget (sig r)).1, (aget (sig r)).2.1, c1) ∧
        sig c1.rest = (aget (sig r)).2.2 ∧
        (c1.unGetTo p.length).rest = r0 ∧ (c1.unGetTo p.length).prev.length = p.length := by
    have hun : ∀ (k r : List TokenGroup) (l : Nat), (unGetToGo p.length (k ++ p) r l).rest = k.reverse ++ r ∧
        (unGetToGo p.length (k ++ p) r l).prev.length = p.length := by
      intro k
      induction k with
      | nil =>
        intro r l
        cases p with
        | nil => simp [unGetToGo]
        | cons x xs => simp [unGetToGo]
      | cons g k ih =>
        intro r l
        simp only [List.cons_append]
        unfold unGetToGo
        rw [if_neg (by simp; omega)]
        have := ih (g :: r) g.line
        simpa using this
    intro r
    induction r with
    | nil =>
      intro k l r0 h
      refine ⟨⟨k ++ p, [], l⟩, by simp [skipGo, sig_nil, aget], by simp [sig_nil, aget], ?_⟩
      rw [← h]
      exact hun k [] l
    | cons g r ih =>
      intro k l r0 h
      unfold skipGo
      by_cases hg : g.token = .whitespace
      · rw [if_pos (by simp [ignWS, hg]), sig_ws _ _ hg]
        obtain ⟨c1, a, b, d⟩ := ih (g :: k) g.line r0 (by rw [← h]; simp)
        exact ⟨c1, a, b, d⟩
      · have : ¬ ignWS g.token = true := by
          unfold ignWS; split
          · rename_i e; exact absurd e hg
          · simp
        rw [if_neg this, sig_cons _ _ hg]
        refine ⟨⟨g :: (k ++ p), r, g.line⟩, rfl, rfl, ?_⟩
        rw [← h]
        have := hun (g :: k) r g.line
        simpa [Cur.unGetTo] using this
  exact key r [] l r rfl

theorem getWSC_abs (c : Cur) : ∃ c1, c.getWSC = ((agetC (sig c.rest)).1, (agetC (sig c.rest)).2.1, c1) ∧
    sig c1.rest = (agetC (sig c.rest)).2.2 := by
  obtain ⟨p, r, l⟩ := c
  unfold Cur.getWSC
  simp only
  induction r generalizing p l with
  | nil => exact ⟨⟨p, [], l⟩, rfl, rfl⟩
  | cons g r ih =>
    unfold skipGo
    by_cases hg : g.token = .whitespace
    · rw [if_pos (by simp [ignWSC, hg]), sig_ws _ _ hg]; exact ih _ _
    · rw [sig_cons _ _ hg]
      by_cases hc : g.token = .comment
      · rw [if_pos (by simp [ignWSC, hc])]
        simp only [agetC, hc, if_true]
        exact ih _ _
      · have : ¬ ignWSC g.token = true := by
          unfold ignWSC; split
          · rename_i e; exact absurd e hg
          · rename_i e; exact absurd e hc
          · simp
        rw [if_neg this]
        simp only [agetC, hc, if_false]
        exact ⟨_, rfl, rfl⟩

theorem getDesc_abs (c : Cur) (desc : Str) : ∃ c1, c.getDesc desc =
      ((adesc desc (sig c.rest)).1, (adesc desc (sig c.rest)).2.1, (adesc desc (sig c.rest)).2.2.1, c1) ∧
    sig c1.rest = (adesc desc (sig c.rest)).2.2.2 ∧
    ((adesc desc (sig c.rest)).2.1 ≠ .eof →
      sig c1.unGet.rest = ((adesc desc (sig c.rest)).2.1, (adesc desc (sig c.rest)).2.2.1) ::
        (adesc desc (sig c.rest)).2.2.2) := by
  obtain ⟨p, r, l⟩ := c
  unfold Cur.getDesc
  simp only
  induction r generalizing p l desc with
  | nil => exact ⟨⟨p, [], l⟩, rfl, rfl, fun h => absurd rfl h⟩
  | cons g r ih =>
    unfold commentsGo
    by_cases hg : g.token = .whitespace
    · rw [if_pos hg, sig_ws _ _ hg]; exact ih _ _ _
    · rw [if_neg hg, sig_cons _ _ hg]
      by_cases hc : g.token = .comment
      · rw [if_pos hc]
        simp only [adesc, hc, if_true]
        exact ih _ _ _
      · rw [if_neg hc]
        simp only [adesc, hc, if_false]
        refine ⟨_, rfl, rfl, fun _ => ?_⟩
        simp only [Cur.unGet]
        rw [sig_cons _ _ hg]

theorem ff_abs (c : Cur) (delim : Str) :
    (∃ e, fastForwardTill c delim = .error e ∧ aff delim (sig c.rest) = .error e ∧ e.noLine = e) ∨
    (∃ c1, fastForwardTill c delim = .ok c1 ∧ aff delim (sig c.rest) = .ok (sig c1.rest)) := by
  obtain ⟨p, r, l⟩ := c
  unfold fastForwardTill
  simp only
  induction r generalizing p with
  | nil => exact .inl ⟨_, rfl, rfl, rfl⟩
  | cons g r ih =>
    unfold ffTillGo
    by_cases hg : g.token = .whitespace
    · rw [if_pos hg, sig_ws _ _ hg]; exact ih _
    · rw [if_neg hg, sig_cons _ _ hg]
      simp only [aff]
      by_cases he : g.token = .eof ∨ g.token = .illegal
      · rw [if_pos he, if_pos he]; exact .inl ⟨_, rfl, rfl, rfl⟩
      · rw [if_neg he, if_neg he]
        by_cases hd : g.value = delim
        · rw [if_pos hd, if_pos hd]; exact .inr ⟨_, rfl, rfl⟩
        · rw [if_neg hd, if_neg hd]; exact ih _

/-! ### Simulation of the parser -/

/-- Forget cursor and lines in a result. -/
def ev {α : Type} : Except PErr (α × Cur) → Except PErr (α × Sig)
  | .error e => .error e.noLine
  | .ok (a, c) => .ok (a, sig c.rest)

def evF : Except PErr (List Field × List Field × Cur) → Except PErr (List Field × List Field × Sig)
  | .error e => .error e.noLine
  | .ok (a, b, c) => .ok (a, b, sig c.rest)

def evS {α : Type} : Except PErr α → Except PErr α
  | .error e => .error e.noLine
  | .ok a => .ok a

theorem noLine_expected (s l v) : (PErr.expected s l v).noLine = .expected s 0 v := rfl

theorem bindingFields_abs (unq : Str → Option Str) (n : Nat) (c : Cur) (desc : Str) (fs cs : List Field) :
    evF (bindingFields unq n c desc fs cs) = aFields unq n (sig c.rest) desc fs cs := by
  induction n generalizing c desc fs cs with
  | zero => rfl
  | succ n ih =>
    unfold bindingFields aFields
    obtain ⟨c1, h1, h2, h3⟩ := getDesc_abs c desc
    rw [h1]
    generalize adesc desc (sig c.rest) = x at h1 h2 h3 ⊢
    obtain ⟨d, tk, val, l1⟩ := x
    simp only at h2 h3 ⊢
    by_cases k1 : tk = .eof ∨ tk = .illegal
    · rw [if_pos k1, if_pos k1]; rfl
    · rw [if_neg k1, if_neg k1]
      simp only [not_or] at k1
      by_cases k2 : tk = .closeBrace ∧ val = "}".toList
      · rw [if_pos k2, if_pos k2]; simp only [evF]; rw [h3 k1.1]
      · rw [if_neg k2, if_neg k2]
        by_cases k3 : val = "additional_bindings".toList
        · rw [if_pos k3, if_pos k3]; simp only [evF]; rw [h3 k1.1]
        · rw [if_neg k3, if_neg k3]
          by_cases k4 : val = "custom".toList
          · rw [if_pos k4, if_pos k4, ← h2]
            rcases ff_abs c1 "{".toList with ⟨e, a, b, ne⟩ | ⟨c2, a, b⟩
            · rw [a, b]
              simp only [bind, Except.bind, evF, ne]
            · rw [a, b]
              simp only [bind, Except.bind]
              have ih2 := ih c2 [] [] []
              cases hb : bindingFields unq n c2 [] [] [] with
              | error e => rw [hb] at ih2; rw [← ih2]; simp only [evF]
              | ok y =>
                obtain ⟨cf, cf2, c3⟩ := y
                rw [hb] at ih2
                rw [← ih2]
                simp only [evF]
                rcases ff_abs c3 "}".toList with ⟨e, a, b, ne⟩ | ⟨c4, a, b⟩
                · rw [a, b]; simp only [ne]
                · rw [a, b]; exact ih c4 d fs cf
          · rw [if_neg k4, if_neg k4]
            obtain ⟨c2, g1, g2, -⟩ := getWS_abs c1
            rw [g1, ← h2]
            generalize aget (sig c1.rest) = x2 at g1 g2 ⊢
            obtain ⟨tk2, val2, l2⟩ := x2
            simp only at g2 ⊢
            by_cases k5 : tk2 ≠ .symbol ∨ val2 ≠ ":".toList
            · rw [if_pos k5, if_pos k5]; rfl
            · rw [if_neg k5, if_neg k5]
              obtain ⟨c3, g3, g4, -⟩ := getWS_abs c2
              rw [g3, ← g2]
              generalize aget (sig c2.rest) = x3 at g3 g4 ⊢
              obtain ⟨tk3, val3, l3⟩ := x3
              simp only at g4 ⊢
              by_cases k6 : tk3 ≠ .stringLit
              · rw [if_pos k6, if_pos k6]; rfl
              · rw [if_neg k6, if_neg k6]
                cases unq val3 with
                | none => rfl
                | some v => simp only; rw [← g4]; exact ih c3 [] _ _

theorem httpBindings_abs (unq : Str → Option Str) (n : Nat) :
    (∀ c : Cur, ev (httpBindings unq n c) = aHttp unq n (sig c.rest)) ∧
    (∀ (c : Cur) rv opt, ev (optionLoop unq n c c.pos rv opt) = aOption unq n (sig c.rest) rv opt) := by
  induction n with
  | zero => exact ⟨fun _ => rfl, fun _ _ _ => rfl⟩
  | succ n ih =>
    obtain ⟨ihH, ihO⟩ := ih
    constructor
    · intro c
      unfold httpBindings aHttp
      obtain ⟨c1, h1, h2, -⟩ := getDesc_abs c []
      rw [h1]
      generalize adesc [] (sig c.rest) = x at h1 h2 ⊢
      obtain ⟨d, tk, val, l1⟩ := x
      simp only at h2 ⊢
      by_cases k1 : tk = .eof ∨ tk = .illegal
      · rw [if_pos k1, if_pos k1]; rfl
      · rw [if_neg k1, if_neg k1]
        by_cases k2 : val = "option".toList
        · rw [if_pos k2, if_pos k2, ← h2]
          rcases ff_abs c1 "{".toList with ⟨e, a, b, ne⟩ | ⟨c2, a, b⟩
          · rw [a, b]; simp only [bind, Except.bind, ev, ne]
          · rw [a, b]
            simp only [bind, Except.bind]
            have hb' := bindingFields_abs unq n c2 [] [] []
            cases hb : bindingFields unq n c2 [] [] [] with
            | error e => rw [hb] at hb'; rw [← hb']; simp only [evF, ev]
            | ok y =>
              obtain ⟨cf, cf2, c3⟩ := y
              rw [hb] at hb'
              rw [← hb']
              simp only [evF]
              exact ihO c3 [] _
        · rw [if_neg k2, if_neg k2]
          by_cases k3 : val = "additional_bindings".toList
          · rw [if_pos k3, if_pos k3, ← h2]
            rcases ff_abs c1 "{".toList with ⟨e, a, b, ne⟩ | ⟨c2, a, b⟩
            · rw [a, b]; simp only [bind, Except.bind, ev, ne]
            · rw [a, b]
              simp only [bind, Except.bind]
              have hb' := bindingFields_abs unq n c2 [] [] []
              cases hb : bindingFields unq n c2 [] [] [] with
              | error e => rw [hb] at hb'; rw [← hb']; simp only [evF, ev]
              | ok y =>
                obtain ⟨cf, cf2, c3⟩ := y
                rw [hb] at hb'
                rw [← hb']
                simp only [evF]
                rcases ff_abs c3 "}".toList with ⟨e, a, b, ne⟩ | ⟨c4, a, b⟩
                · rw [a, b]; simp only [ev, ne]
                · rw [a, b]; rfl
          · rw [if_neg k3, if_neg k3]
            by_cases k4 : val = "}".toList
            · rw [if_pos k4, if_pos k4]; simp only [ev, h2]
            · rw [if_neg k4, if_neg k4]; rfl
    · intro c rv opt
      unfold optionLoop aOption
      obtain ⟨c1, h1, h2, h3, h4⟩ := getWS_abs c
      rw [h1]
      generalize hx : aget (sig c.rest) = x at h1 h2 ⊢
      obtain ⟨tk, val, l1⟩ := x
      simp only at h2 ⊢
      by_cases k1 : tk = .closeBrace
      · rw [if_pos k1, if_pos k1]; simp only [ev, h2]
      · rw [if_neg k1, if_neg k1]
        by_cases k2 : tk = .comment
        · rw [if_pos k2, if_pos k2, ← h2]; exact ihO c1 rv opt
        · rw [if_neg k2, if_neg k2]
          by_cases k3 : val = "additional_bindings".toList
          · rw [if_pos k3, if_pos k3]
            have hh := ihH (c1.unGetTo c.pos)
            rw [h3] at hh
            rw [← hh]
            cases hb : httpBindings unq n (c1.unGetTo c.pos) with
            | error e => simp only [bind, Except.bind, ev]
            | ok y =>
              obtain ⟨more, c2⟩ := y
              simp only [bind, Except.bind, ev]
              exact ihO c2 _ opt
          · rw [if_neg k3, if_neg k3]
            by_cases k4 : tk = .eof ∨ tk = .illegal
            · rw [if_pos k4, if_pos k4]; rfl
            · rw [if_neg k4, if_neg k4]; rfl

theorem typeLoop_abs (site : Site) (n : Nat) (tk : Tok) (val : Str) (c : Cur) (acc : Str) :
    ev (typeLoop site n tk val c acc) = aTypeLoop site n tk val (sig c.rest) acc := by
  induction n generalizing tk val c acc with
  | zero => rfl
  | succ n ih =>
    unfold typeLoop aTypeLoop
    obtain ⟨c1, h1, h2, -⟩ := getWS_abs c
    by_cases k1 : tk = .closeParen
    · rw [if_pos k1, if_pos k1]; rfl
    · rw [if_neg k1, if_neg k1]
      by_cases k2 : tk = .symbol
      · rw [if_pos k2, if_pos k2, h1]; simp only; rw [ih, h2]
      · rw [if_neg k2, if_neg k2]
        by_cases k3 : tk = .ident
        · rw [if_pos k3, if_pos k3, h1]; simp only; rw [ih, h2]
        · rw [if_neg k3, if_neg k3]; rfl

theorem typeRef_abs (s1 s2 s3 : Site) (n : Nat) (c : Cur) :
    ev (typeRef s1 s2 s3 n c) = aType s1 s2 s3 n (sig c.rest) := by
  unfold typeRef aType
  obtain ⟨c1, h1, h2, -⟩ := getWS_abs c
  rw [h1]
  generalize aget (sig c.rest) = x at h1 h2 ⊢
  obtain ⟨tk, val, l1⟩ := x
  simp only at h2 ⊢
  by_cases k1 : tk ≠ .openParen
  · rw [if_pos k1, if_pos k1]; rfl
  · rw [if_neg k1, if_neg k1]
    obtain ⟨c2, g1, g2, -⟩ := getWS_abs c1
    rw [g1, ← h2]
    generalize aget (sig c1.rest) = x at g1 g2 ⊢
    obtain ⟨tk2, val2, l2⟩ := x
    simp only at g2 ⊢
    by_cases k2 : val2 = "stream".toList
    · rw [if_pos k2, if_pos k2]
      obtain ⟨c3, g3, g4, -⟩ := getWS_abs c2
      rw [g3, ← g2]
      generalize aget (sig c2.rest) = x at g3 g4 ⊢
      obtain ⟨tk3, val3, l3⟩ := x
      simp only at g4 ⊢
      by_cases k3 : tk3 ≠ .ident
      · rw [if_pos k3, if_pos k3]; rfl
      · rw [if_neg k3, if_neg k3, ← g4]; exact typeLoop_abs _ _ _ _ _ _
    · rw [if_neg k2, if_neg k2]
      simp only
      by_cases k3 : tk2 ≠ .ident
      · rw [if_pos k3, if_pos k3]; rfl
      · rw [if_neg k3, if_neg k3, ← g2]; exact typeLoop_abs _ _ _ _ _ _

theorem methodTail_abs (unq : Str → Option Str) (n : Nat) (c : Cur) (m : Method) :
    ev (methodTail unq n c m) = aTail unq n (sig c.rest) m := by
  unfold methodTail aTail
  obtain ⟨c1, h1, h2, -⟩ := getWS_abs c
  rw [h1]
  generalize aget (sig c.rest) = x at h1 h2 ⊢
  obtain ⟨tk, val, l1⟩ := x
  simp only at h2 ⊢
  by_cases k1 : val = ";".toList
  · rw [if_pos k1, if_pos k1]; simp only [ev, h2]
  · rw [if_neg k1, if_neg k1]
    by_cases k2 : tk ≠ .openBrace
    · rw [if_pos k2, if_pos k2]; rfl
    · rw [if_neg k2, if_neg k2, ← h2]
      have hh := (httpBindings_abs unq n).1 c1
      rw [← hh]
      cases hb : httpBindings unq n c1 with
      | error e => rfl
      | ok y =>
        obtain ⟨bs, c2⟩ := y
        simp only [bind, Except.bind, ev]
        cases bs with
        | none => rfl
        | some bs =>
          simp only
          obtain ⟨c3, g3, g4⟩ := getWSC_abs c2
          rw [g3]
          generalize agetC (sig c2.rest) = x at g3 g4 ⊢
          obtain ⟨tk3, val3, l3⟩ := x
          simp only at g4 ⊢
          by_cases k3 : tk3 ≠ .symbol ∨ val3 ≠ ";".toList
          · rw [if_pos k3, if_pos k3]; rfl
          · rw [if_neg k3, if_neg k3]
            obtain ⟨c4, g5, g6⟩ := getWSC_abs c3
            rw [g5, ← g4]
            generalize agetC (sig c3.rest) = x at g5 g6 ⊢
            obtain ⟨tk4, val4, l4⟩ := x
            simp only at g6 ⊢
            by_cases k4 : tk4 ≠ .closeBrace
            · rw [if_pos k4, if_pos k4]; rfl
            · rw [if_neg k4, if_neg k4]; simp only [g6]

theorem parseMethod_abs (unq : Str → Option Str) (n : Nat) (c : Cur) :
    ev (parseMethod unq n c) = aMethod unq n (sig c.rest) := by
  unfold parseMethod aMethod
  obtain ⟨c1, h1, h2, -⟩ := getDesc_abs c []
  rw [h1]
  generalize adesc [] (sig c.rest) = x at h1 h2 ⊢
  obtain ⟨d, tk, val, l1⟩ := x
  simp only at h2 ⊢
  by_cases k1 : tk = .closeBrace
  · rw [if_pos k1, if_pos k1]; rfl
  · rw [if_neg k1, if_neg k1]
    by_cases k2 : tk ≠ .ident ∨ val ≠ "rpc".toList
    · rw [if_pos k2, if_pos k2]; rfl
    · rw [if_neg k2, if_neg k2]
      obtain ⟨c2, g1, g2, -⟩ := getWS_abs c1
      rw [g1, ← h2]
      generalize aget (sig c1.rest) = x at g1 g2 ⊢
      obtain ⟨tk2, name, l2⟩ := x
      simp only at g2 ⊢
      by_cases k3 : tk2 ≠ .ident
      · rw [if_pos k3, if_pos k3]; rfl
      · rw [if_neg k3, if_neg k3, ← g2]
        have ht := typeRef_abs .rpcOpenArg .rpcArgIdent .rpcArg n c2
        rw [← ht]
        cases hb : typeRef .rpcOpenArg .rpcArgIdent .rpcArg n c2 with
        | error e => rfl
        | ok y =>
          obtain ⟨rq, c3⟩ := y
          simp only [bind, Except.bind, ev]
          obtain ⟨c4, g3, g4, -⟩ := getWS_abs c3
          rw [g3]
          generalize aget (sig c3.rest) = x at g3 g4 ⊢
          obtain ⟨tk4, val4, l4⟩ := x
          simp only at g4 ⊢
          by_cases k4 : tk4 ≠ .ident ∨ val4 ≠ "returns".toList
          · rw [if_pos k4, if_pos k4]; rfl
          · rw [if_neg k4, if_neg k4, ← g4]
            have ht := typeRef_abs .rpcOpenRet .rpcRetIdent .rpcRet n c4
            rw [← ht]
            cases hb : typeRef .rpcOpenRet .rpcRetIdent .rpcRet n c4 with
            | error e => rfl
            | ok y =>
              obtain ⟨rs, c5⟩ := y
              exact methodTail_abs unq n c5 _

theorem methodsLoop_abs (unq : Str → Option Str) (fuel n : Nat) (c : Cur) (ms : List Method) :
    evS (methodsLoop unq fuel n c ms) = aMethods unq fuel n (sig c.rest) ms := by
  induction n generalizing c ms with
  | zero => rfl
  | succ n ih =>
    unfold methodsLoop aMethods
    have hm := parseMethod_abs unq fuel c
    rw [← hm]
    cases hp : parseMethod unq fuel c with
    | error e => cases e <;> rfl
    | ok y =>
      obtain ⟨m, c'⟩ := y
      cases m with
      | none => exact ih c' ms
      | some m => exact ih c' _

theorem parseServiceN_abs (unq : Str → Option Str) (fuel : Nat) (c : Cur) :
    evS (parseServiceN unq fuel c) = aService unq fuel (sig c.rest) := by
  unfold parseServiceN aService
  obtain ⟨c1, h1, h2, -⟩ := getWS_abs c
  rw [h1]
  generalize aget (sig c.rest) = x at h1 h2 ⊢
  obtain ⟨tk, val, l1⟩ := x
  simp only at h2 ⊢
  by_cases k1 : tk = .eof
  · rw [if_pos k1, if_pos k1]; rfl
  · rw [if_neg k1, if_neg k1]
    by_cases k2 : tk ≠ .ident ∧ val ≠ "service".toList
    · rw [if_pos k2, if_pos k2]; rfl
    · rw [if_neg k2, if_neg k2]
      obtain ⟨c2, g1, g2, -⟩ := getWS_abs c1
      rw [g1, ← h2]
      generalize aget (sig c1.rest) = x at g1 g2 ⊢
      obtain ⟨tk2, name, l2⟩ := x
      simp only at g2 ⊢
      by_cases k3 : tk2 ≠ .ident
      · rw [if_pos k3, if_pos k3]; rfl
      · rw [if_neg k3, if_neg k3]
        obtain ⟨c3, g3, g4, -⟩ := getWS_abs c2
        rw [g3, ← g2]
        generalize aget (sig c2.rest) = x at g3 g4 ⊢
        obtain ⟨tk3, val3, l3⟩ := x
        simp only at g4 ⊢
        by_cases k4 : tk3 ≠ .openBrace
        · rw [if_pos k4, if_pos k4]; rfl
        · rw [if_neg k4, if_neg k4, ← g4]
          have hm := methodsLoop_abs unq fuel fuel c3 []
          rw [← hm]
          cases methodsLoop unq fuel fuel c3 [] with
          | error e => rfl
          | ok ms => rfl

end Baron.Parser
