import Verif.Spec.GoMain
import Verif.Proofs.CommandLine
import Verif.Proofs.HTTPNames

/-! # Proofs about the command of the generated server (C95) -/

namespace Baron.GoMain

open Baron.Server (Config Flag setFlag)
open Baron.HTTP (look)
open Baron.HTTPCode (parseBool)

/-! ## Arguments -/

/-- What can be the name of a flag. -/
def Named (n : Str) : Prop := ∃ c r, n = c :: r ∧ c ≠ '-' ∧ c ≠ '=' ∧ '=' ∉ r

theorem cutEq_some : ∀ {s a v : Str}, cutEq s = (a, some v) ↔ s = a ++ '=' :: v ∧ '=' ∉ a := by
  intro s
  induction s with
  | nil => intro a v; simp [cutEq]
  | cons c r ih =>
    intro a v
    by_cases hc : c = '='
    · subst hc
      show ([], some r) = (a, some v) ↔ _
      constructor
      · intro h; cases h; simp
      · rintro ⟨h, hn⟩
        cases a with
        | nil => cases h; rfl
        | cons x a => cases h; simp at hn
    · have e : cutEq (c :: r) = (c :: (cutEq r).1, (cutEq r).2) := by
        rw [cutEq, if_neg hc]
      rw [e]
      constructor
      · intro h
        cases h2 : cutEq r with
        | mk x o =>
          rw [h2] at h
          cases h
          obtain ⟨h3, h4⟩ := ih.mp h2
          exact ⟨by rw [h3]; rfl, by simp only [List.mem_cons, not_or]; exact ⟨fun e => hc e.symm, h4⟩⟩
      · rintro ⟨h, hn⟩
        cases a with
        | nil => cases h; exact absurd rfl hc
        | cons x a =>
          cases h
          simp only [List.mem_cons, not_or] at hn
          rw [ih.mpr ⟨rfl, hn.2⟩]

theorem cutEq_none : ∀ {s a : Str}, cutEq s = (a, none) ↔ s = a ∧ '=' ∉ a := by
  intro s
  induction s with
  | nil =>
    intro a
    constructor
    · intro h; cases h; simp
    · rintro ⟨rfl, _⟩; rfl
  | cons c r ih =>
    intro a
    by_cases hc : c = '='
    · subst hc
      show ([], some r) = (a, none) ↔ _
      constructor
      · intro h; cases h
      · rintro ⟨h, hn⟩
        subst h
        simp at hn
    · have e : cutEq (c :: r) = (c :: (cutEq r).1, (cutEq r).2) := by
        rw [cutEq, if_neg hc]
      rw [e]
      constructor
      · intro h
        cases h2 : cutEq r with
        | mk x o =>
          rw [h2] at h
          cases h
          obtain ⟨h3, h4⟩ := ih.mp h2
          exact ⟨by rw [h3], by simp only [List.mem_cons, not_or]; exact ⟨fun e => hc e.symm, h4⟩⟩
      · rintro ⟨h, hn⟩
        subst h
        simp only [List.mem_cons, not_or] at hn
        rw [ih.mpr ⟨rfl, hn.2⟩]

theorem nameValue_none {s n : Str} : nameValue s = .flag n none ↔ s = n ∧ Named n := by
  cases s with
  | nil => constructor
           · intro h; cases h
           · rintro ⟨rfl, _, _, h, _⟩; cases h
  | cons c r =>
    rw [nameValue]
    by_cases hc : c = '-' ∨ c = '='
    · rw [if_pos hc]
      constructor
      · intro h; cases h
      · rintro ⟨rfl, _, _, h, h1, h2, _⟩
        cases h
        rcases hc with h | h
        · exact absurd h h1
        · exact absurd h h2
    · rw [if_neg hc]
      simp only [not_or] at hc
      constructor
      · intro h
        cases h2 : cutEq r with
        | mk x o =>
          rw [h2] at h
          cases h
          obtain ⟨h3, h4⟩ := cutEq_none.mp h2
          exact ⟨by rw [h3], c, x, rfl, hc.1, hc.2, h4⟩
      · rintro ⟨rfl, _, _, h, _, _, h3⟩
        cases h
        rw [cutEq_none.mpr ⟨rfl, h3⟩]

theorem nameValue_some {s n v : Str} : nameValue s = .flag n (some v) ↔ s = n ++ '=' :: v ∧ Named n := by
  cases s with
  | nil => constructor
           · intro h; cases h
           · rintro ⟨h, _⟩
             have := congrArg List.length h
             simp at this
  | cons c r =>
    rw [nameValue]
    by_cases hc : c = '-' ∨ c = '='
    · rw [if_pos hc]
      constructor
      · intro h; cases h
      · rintro ⟨h, _, _, rfl, h1, h2, _⟩
        cases h
        rcases hc with h | h
        · exact absurd h h1
        · exact absurd h h2
    · rw [if_neg hc]
      simp only [not_or] at hc
      constructor
      · intro h
        cases h2 : cutEq r with
        | mk x o =>
          rw [h2] at h
          cases h
          obtain ⟨h3, h4⟩ := cutEq_some.mp h2
          exact ⟨by rw [h3]; rfl, c, x, rfl, hc.1, hc.2, h4⟩
      · rintro ⟨h, _, _, rfl, _, _, h3⟩
        cases h
        show Arg.flag (_ :: (cutEq (_ ++ '=' :: v)).1) (cutEq (_ ++ '=' :: v)).2 = _
        rw [cutEq_some.mpr ⟨rfl, h3⟩]

/-- An argument after its dashes. -/
theorem argument_cases (s : Str) :
    ((s = "--".toList ∨ s = "-".toList ∨ s.head? ≠ some '-') ∧ argument s = .stop) ∨
    (∃ d r, Dashes d ∧ s = d ++ r ∧ r ≠ [] ∧ (d = "-".toList → r.head? ≠ some '-') ∧ argument s = nameValue r) := by
  unfold argument
  split
  · exact .inl ⟨.inl rfl, rfl⟩
  · rename_i r h
    refine .inr ⟨"--".toList, r, .inr rfl, rfl, ?_, ?_, rfl⟩
    · intro e; subst e; exact h rfl
    · intro e; exact absurd (congrArg List.length e) (by decide)
  · exact .inl ⟨.inr (.inl rfl), rfl⟩
  · rename_i r h1 h2 h3
    refine .inr ⟨"-".toList, r, .inl rfl, rfl, fun e => h3 (by rw [e]), fun _ e => ?_, rfl⟩
    cases r with
    | nil => cases e
    | cons c r =>
      cases e
      cases r with
      | nil => exact h1 rfl
      | cons x r => exact h2 _ rfl
  · rename_i h1 h2 h3 h4
    refine .inl ⟨.inr (.inr fun e => ?_), rfl⟩
    cases s with
    | nil => cases e
    | cons c r => cases e; exact h4 _ rfl

theorem argument_dashes {d r : Str} (hd : Dashes d) (hr : r ≠ []) (h : r.head? ≠ some '-') : argument (d ++ r) = nameValue r := by
  cases r with
  | nil => exact absurd rfl hr
  | cons c r =>
    have hc : c ≠ '-' := fun e => h (by rw [e]; rfl)
    rcases hd with rfl | rfl
    · show argument ('-' :: c :: r) = _
      unfold argument
      split
      · rename_i h; cases h; exact absurd rfl hc
      · rename_i h; cases h; exact absurd rfl hc
      · rename_i h; cases h
      · rename_i h; cases h; rfl
      · rename_i h4; exact absurd rfl (h4 _)
    · show argument ('-' :: '-' :: c :: r) = _
      unfold argument
      split
      · rename_i h; cases h
      · rename_i h; cases h; rfl
      · rename_i h; cases h
      · rename_i h2 _ h; cases h; exact absurd rfl (h2 _)
      · rename_i h4; exact absurd rfl (h4 _)

theorem Named.head {n : Str} (h : Named n) : n ≠ [] ∧ n.head? ≠ some '-' := by
  obtain ⟨c, r, rfl, h1, _⟩ := h
  exact ⟨nofun, fun e => h1 (Option.some.inj e)⟩

theorem argument_none {d n : Str} (hd : Dashes d) (hn : Named n) : argument (d ++ n) = .flag n none := by
  rw [argument_dashes hd hn.head.1 hn.head.2]
  exact nameValue_none.mpr ⟨rfl, hn⟩

theorem argument_some {d n v : Str} (hd : Dashes d) (hn : Named n) : argument (d ++ n ++ '=' :: v) = .flag n (some v) := by
  rw [List.append_assoc, argument_dashes hd]
  · exact nameValue_some.mpr ⟨rfl, hn⟩
  · obtain ⟨c, r, rfl, _⟩ := hn; nofun
  · obtain ⟨c, r, rfl, h1, _⟩ := hn; exact fun e => h1 (Option.some.inj e)

/-! ## Flags -/

/-- The flags that are registered. -/
def table : List (Str × Str × Bool) := [(chars% "debug.addr", chars% "DebugAddr", false), (chars% "http.addr", chars% "HTTPAddr", false),
  (chars% "grpc.addr", chars% "GRPCAddr", false), (chars% "nats.addr", chars% "NATSAddr", false), (chars% "debug", chars% "Debug", true)]

theorem spells_named {n v : Str} {f : Flag} (h : Spells n v f) : Named n := by
  cases h <;> exact ⟨_, _, rfl, by decide, by decide, by decide⟩

/-- A flag with a text as its value. -/
theorem spells_text {n v : Str} {f : Flag} (h : Spells n v f) (hn : n ≠ "debug".toList) (c : Config) :
    ∃ g, look table n = some (g, false) ∧ put c g (.str v) = some (setFlag c f) := by
  cases h with
  | http => exact ⟨chars% "HTTPAddr", by decide +kernel, rfl⟩
  | debugAddr => exact ⟨chars% "DebugAddr", by decide +kernel, rfl⟩
  | grpc => exact ⟨chars% "GRPCAddr", by decide +kernel, rfl⟩
  | nats => exact ⟨chars% "NATSAddr", by decide +kernel, rfl⟩
  | debug => exact absurd rfl hn

theorem look_debug : look table "debug".toList = some (chars% "Debug", true) := by decide +kernel

theorem put_debug (c : Config) (b : Bool) : put c (chars% "Debug") (.bool b) = some (setFlag c (.debug b)) := rfl

theorem table_cases {n g : Str} {b : Bool} (h : look table n = some (g, b)) :
    (n = "debug".toList ∧ g = chars% "Debug" ∧ b = true) ∨ (n ≠ "debug".toList ∧ b = false ∧ ∀ v, ∃ f, Spells n v f) := by
  simp only [table, HTTP.look_cons] at h
  by_cases h1 : n = "debug.addr".toList
  · subst h1
    refine .inr ⟨by decide, ?_, fun v => ⟨_, .debugAddr⟩⟩
    rw [if_pos (by decide)] at h
    cases h; rfl
  by_cases h2 : n = "http.addr".toList
  · subst h2
    refine .inr ⟨by decide, ?_, fun v => ⟨_, .http⟩⟩
    rw [if_neg (by decide), if_pos (by decide)] at h
    cases h; rfl
  by_cases h3 : n = "grpc.addr".toList
  · subst h3
    refine .inr ⟨by decide, ?_, fun v => ⟨_, .grpc⟩⟩
    rw [if_neg (by decide), if_neg (by decide), if_pos (by decide)] at h
    cases h; rfl
  by_cases h4 : n = "nats.addr".toList
  · subst h4
    refine .inr ⟨by decide, ?_, fun v => ⟨_, .nats⟩⟩
    rw [if_neg (by decide), if_neg (by decide), if_neg (by decide), if_pos (by decide)] at h
    cases h; rfl
  by_cases h5 : n = "debug".toList
  · subst h5
    rw [if_neg (by decide), if_neg (by decide), if_neg (by decide), if_neg (by decide), if_pos (by decide)] at h
    cases h
    exact .inl ⟨rfl, rfl, rfl⟩
  · have e : ∀ {a : Str}, n ≠ a → a ≠ n := fun h e => h e.symm
    rw [if_neg (c := (chars% "debug.addr") = n) (e h1), if_neg (c := (chars% "http.addr") = n) (e h2),
      if_neg (c := (chars% "grpc.addr") = n) (e h3), if_neg (c := (chars% "nats.addr") = n) (e h4),
      if_neg (c := (chars% "debug") = n) (e h5)] at h
    cases h

/-! ## Command lines -/

theorem parse_value {d n v : Str} {f : Flag} (hd : Dashes d) (hs : Spells n v f) (c : Config) (r : List Str) :
    parseArgs table c ((d ++ n ++ '=' :: v) :: r) = parseArgs table (setFlag c f) r := by
  rw [parseArgs, argument_some hd (spells_named hs)]
  by_cases hn : n = "debug".toList
  · cases hs with
    | debug hb =>
      simp only [look_debug, (Main.parseBool_iff _ _).mpr hb, put_debug]
    | http => exact absurd hn (by decide)
    | debugAddr => exact absurd hn (by decide)
    | grpc => exact absurd hn (by decide)
    | nats => exact absurd hn (by decide)
  · obtain ⟨g, h1, h2⟩ := spells_text hs hn c
    simp only [h1, h2]

theorem parse_next {d n v : Str} {f : Flag} (hd : Dashes d) (hn : n ≠ "debug".toList) (hs : Spells n v f) (c : Config) (r : List Str) :
    parseArgs table c ((d ++ n) :: v :: r) = parseArgs table (setFlag c f) r := by
  rw [parseArgs, argument_none hd (spells_named hs)]
  obtain ⟨g, h1, h2⟩ := spells_text hs hn c
  simp only [h1, h2]

theorem named_debug : Named "debug".toList := ⟨_, _, rfl, by decide, by decide, by decide⟩

theorem parse_on {d : Str} (hd : Dashes d) (c : Config) (r : List Str) :
    parseArgs table c ((d ++ "debug".toList) :: r) = parseArgs table (setFlag c (.debug true)) r := by
  rw [parseArgs, argument_none hd named_debug]
  simp only [look_debug, put_debug]

theorem parse_reads {l : List Str} {fs : List Flag} (h : Reads l fs) (rest : List Str) (c : Config) :
    parseArgs table c (l ++ rest) = parseArgs table (fs.foldl setFlag c) rest := by
  induction h generalizing c with
  | nil => rfl
  | value hd hs _ ih => rw [List.cons_append, parse_value hd hs, ih]; rfl
  | next hd hn hs _ ih => rw [List.cons_append, List.cons_append, parse_next hd hn hs, ih]; rfl
  | on hd _ ih => rw [List.cons_append, parse_on hd, ih]; rfl

theorem parse_ends {rest : List Str} (h : Ends rest) (c : Config) : parseArgs table c rest = .ok c := by
  rcases h with rfl | ⟨s, r, rfl, h⟩
  · rfl
  · have : argument s = .stop := by
      rcases argument_cases s with ⟨_, h⟩ | ⟨d, r, hd, rfl, hr, h1, h2⟩
      · exact h
      · exfalso
        rcases h with h | h | h
        · rcases hd with rfl | rfl
          · cases h; exact h1 rfl rfl
          · exact hr (List.append_cancel_left (show "--".toList ++ r = "--".toList ++ [] from h))
        · rcases hd with rfl | rfl
          · exact hr (List.append_cancel_left (show "-".toList ++ r = "-".toList ++ [] from h))
          · exact absurd (congrArg List.length h) (by simp)
        · rcases hd with rfl | rfl <;> exact h rfl
    rw [parseArgs, this]

theorem understood_parse {args : List Str} {fs : List Flag} (h : Understood args fs) (c : Config) :
    parseArgs table c args = .ok (fs.foldl setFlag c) := by
  obtain ⟨l, rest, rfl, h1, h2⟩ := h
  rw [parse_reads h1, parse_ends h2]

theorem help_parse {args : List Str} (h : Help args) (c : Config) : parseArgs table c args = .error 0 := by
  obtain ⟨l, fs, s, r, d, n, rfl, h1, hd, hn, hs⟩ := h
  rw [parse_reads h1, parseArgs]
  have hnm : Named n := by rcases hn with rfl | rfl <;> exact ⟨_, _, rfl, by decide, by decide, by decide⟩
  have hl : look table n = none := by rcases hn with rfl | rfl <;> decide +kernel
  have he : (if n = chars% "help" ∨ n = chars% "h" then 0 else 2) = 0 := if_pos (hn.symm.imp id id)
  rcases hs with rfl | ⟨v, rfl⟩
  · rw [argument_none hd hnm]
    simp only [hl]
    exact congrArg Except.error he
  · rw [argument_some hd hnm]
    simp only [hl]
    exact congrArg Except.error he

/-- What is before the arguments that are read from `args`. -/
theorem understood_cons {pre args : List Str} {gs fs : List Flag} (hp : Reads pre gs) (h : Understood args fs)
    (happ : ∀ l, Reads l fs → Reads (pre ++ l) (gs ++ fs)) : Understood (pre ++ args) (gs ++ fs) := by
  obtain ⟨l, rest, rfl, h1, h2⟩ := h
  exact ⟨pre ++ l, rest, by rw [List.append_assoc], happ l h1, h2⟩

theorem parse_cases : ∀ (k : Nat) (args : List Str) (c : Config), args.length ≤ k →
    (∃ fs, Understood args fs) ∨ Help args ∨ parseArgs table c args = .error 2 := by
  intro k
  induction k with
  | zero =>
    intro args c h
    have : args = [] := List.length_eq_zero_iff.mp (Nat.le_zero.mp h)
    subst this
    exact .inl ⟨[], [], [], rfl, .nil, .inl rfl⟩
  | succ k ih =>
    intro args c hk
    cases args with
    | nil => exact .inl ⟨[], [], [], rfl, .nil, .inl rfl⟩
    | cons s r =>
      have hr : r.length ≤ k := Nat.le_of_succ_le_succ hk
      -- reading `pre` first
      have step : ∀ {pre args : List Str} {f : Flag}, (∀ l fs, Reads l fs → Reads (pre ++ l) (f :: fs)) →
          (∃ fs, Understood args fs) ∨ Help args ∨ parseArgs table (setFlag c f) args = .error 2 →
          (∃ fs, Understood (pre ++ args) fs) ∨ Help (pre ++ args) ∨ parseArgs table c (pre ++ args) = .error 2 := by
        intro pre args f hp h
        rcases h with ⟨fs, l, rest, rfl, h1, h2⟩ | ⟨l, fs, s, r, d, n, rfl, h1, h2⟩ | h
        · exact .inl ⟨f :: fs, pre ++ l, rest, by rw [List.append_assoc], hp l fs h1, h2⟩
        · exact .inr (.inl ⟨pre ++ l, f :: fs, s, r, d, n, by rw [List.append_assoc], hp l fs h1, h2⟩)
        · refine .inr (.inr ?_)
          have := parse_reads (hp [] [] .nil) args c
          rw [List.append_nil] at this
          rw [this]
          exact h
      rcases argument_cases s with ⟨h, _⟩ | ⟨d, x, hd, rfl, hx, _, ha⟩
      · exact .inl ⟨[], [], s :: r, rfl, .nil, .inr ⟨s, r, rfl, h⟩⟩
      · cases hv : nameValue x with
        | stop =>
          exfalso
          cases x with
          | nil => exact hx rfl
          | cons a x =>
            rw [nameValue] at hv
            by_cases hc : a = '-' ∨ a = '='
            · rw [if_pos hc] at hv; cases hv
            · rw [if_neg hc] at hv; cases hv
        | bad =>
          refine .inr (.inr ?_)
          rw [parseArgs, ha, hv]
        | flag n value =>
          cases hl : look table n with
          | none =>
            by_cases hh : n = chars% "help" ∨ n = chars% "h"
            · refine .inr (.inl ⟨[], [], d ++ x, r, d, n, rfl, .nil, hd, hh.symm.imp id id, ?_⟩)
              cases value with
              | none => exact .inl (by rw [(nameValue_none.mp hv).1])
              | some v => exact .inr ⟨v, by rw [(nameValue_some.mp hv).1, List.append_assoc]⟩
            · refine .inr (.inr ?_)
              rw [parseArgs, ha, hv]
              simp only [hl]
              exact congrArg Except.error (if_neg hh)
          | some gb =>
            obtain ⟨g, b⟩ := gb
            rcases table_cases hl with ⟨rfl, rfl, rfl⟩ | ⟨hn, rfl, hs⟩
            · cases value with
              | none =>
                rw [(nameValue_none.mp hv).1]
                exact step (pre := [d ++ "debug".toList]) (fun l fs h => .on hd h) (ih r _ hr)
              | some v =>
                rw [(nameValue_some.mp hv).1, ← List.append_assoc]
                cases hb : parseBool v with
                | some b =>
                  exact step (pre := [d ++ "debug".toList ++ '=' :: v]) (fun l fs h => .value hd (.debug ((Main.parseBool_iff v b).mp hb)) h)
                    (ih r _ hr)
                | none =>
                  refine .inr (.inr ?_)
                  rw [parseArgs, argument_some hd named_debug]
                  simp only [look_debug, hb]
            · cases value with
              | some v =>
                obtain ⟨f, hf⟩ := hs v
                rw [(nameValue_some.mp hv).1, ← List.append_assoc]
                exact step (pre := [d ++ n ++ '=' :: v]) (fun l fs h => .value hd hf h) (ih r _ hr)
              | none =>
                rw [(nameValue_none.mp hv).1]
                cases r with
                | nil =>
                  refine .inr (.inr ?_)
                  rw [parseArgs, argument_none hd (nameValue_none.mp hv).2]
                  simp only [hl]
                | cons v r' =>
                  obtain ⟨f, hf⟩ := hs v
                  exact step (pre := [d ++ n, v]) (fun l fs h => .next hd hn hf h)
                    (ih r' _ (Nat.le_of_succ_le hr))

/-! ## Statements -/

theorem unquote_nil : unquote [] = some [] := by decide +kernel

theorem exec_reg_text {w : World} {st : State} {f n d u : Str} {r : Code} {n' d' u' : Str} {c : Config} (hn : unquote n = some n')
    (hd : unquote d = some d') (hu : unquote u = some u') (hl : look st.flags n' = none) (hp : put st.config f (.str d') = some c) :
    (reg (chars% "flag.StringVar") f n (.text d) u r).exec w st = r.exec w { st with config := c, flags := st.flags ++ [(n', f, false)] } := by
  simp only [reg, Code.exec, Expr.eval, hn, hd, hu, Option.map_some, hl, hp]
  rfl

theorem exec_reg_bool {w : World} {st : State} {f n u : Str} {b : Bool} {r : Code} {n' u' : Str} {c : Config} (hn : unquote n = some n')
    (hu : unquote u = some u') (hl : look st.flags n' = none) (hp : put st.config f (.bool b) = some c) :
    (reg (chars% "flag.BoolVar") f n (.bool b) u r).exec w st = r.exec w { st with config := c, flags := st.flags ++ [(n', f, true)] } := by
  simp only [reg, Code.exec, Expr.eval, hn, hu, Option.map_some, hl, hp]
  rfl

theorem exec_fromVar {w : World} {st : State} {ws x n f : Str} {e : Expr} {r : Code} {n' : Str} {v : GV} {c : Config}
    (hx : x ≠ chars% "config") (hn : unquote n = some n')
    (he : e.eval w { st with vars := (x, .str (w.env n')) :: st.vars } = some v) (hp : put st.config f v = some c) :
    (fromVar ws x n f e r).exec w st = r.exec w { st with config := if w.env n' ≠ [] then c else st.config } := by
  have e1 : (Expr.call1 (chars% "os.Getenv") (.text n)).eval w st = some (.str (w.env n')) := by
    simp only [Expr.eval, hn, Option.map_some]
    rfl
  have e2 : (Expr.bin (.id x) (chars% "!=") (.text [])).eval w { st with vars := (x, .str (w.env n')) :: st.vars } =
      some (.bool (decide (w.env n' ≠ []))) := by
    simp only [Expr.eval, if_neg hx, HTTP.look_cons, if_true, unquote_nil, Option.map_some]
    rfl
  simp only [fromVar, Code.exec, e1, e2]
  by_cases h : w.env n' = []
  · rw [show decide (w.env n' ≠ []) = false by simp [h]]
    simp only [h, ne_eq, not_true_eq_false, if_false]
  · rw [show decide (w.env n' ≠ []) = true by simp [h]]
    simp only [he, hp, h, ne_eq, not_false_eq_true, if_true]

end Baron.GoMain
