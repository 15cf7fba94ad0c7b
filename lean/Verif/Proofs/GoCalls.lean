import Verif.Spec.GoCalls
import Verif.Proofs.GoMain
import Verif.Proofs.Literal

/-! # Proofs about the example client (C98) -/

namespace Baron.GoCalls

open Baron.TT (selected httpRpcs goType)
open Baron.Svcdef (Service ServiceMethod)
open Baron.GoMain (Dashes Ends Named argument_some argument_none argument_cases unquote)
open Baron.HTTP (look)

/-! ## Text -/

set_option maxRecDepth 4000 in
theorem rpcCode_print (k : Kind) (hk : k ≠ .http) (service : Str) (m : ServiceMethod) (rest : Code) :
    (rpcCode k service (chars% "\n\t") id m rest).print = TT.call k.label service m ++ rest.print := by
  cases k
  · simp only [rpcCode, report, failing, pln, fn0, fn2, Kind.client, Kind.label, title, id, Code.print, Call.print, Callee.print, Expr.print, TT.call,
      List.flatMap_cons, List.flatMap_nil, List.append_assoc, List.nil_append, List.append_nil, List.flatten_cons, List.flatten_nil]
    rfl
  · exact absurd rfl hk
  · simp only [rpcCode, report, failing, pln, fn0, fn2, Kind.client, Kind.label, title, id, Code.print, Call.print, Callee.print, Expr.print, TT.call,
      List.flatMap_cons, List.flatMap_nil, List.append_assoc, List.nil_append, List.append_nil, List.flatten_cons, List.flatten_nil]
    rfl

set_option maxRecDepth 4000 in
theorem httpCode_print (service : Str) (m : ServiceMethod) (rest : Code) :
    (rpcCode .http service (chars% "\n\t\t") makeHTTP m rest).print = TT.httpCall service m ++ rest.print := by
  simp only [rpcCode, makeHTTP, report, failing, pln, fn0, fn1, fn2, Kind.client, Kind.label, title, Code.print, Call.print, Callee.print, Expr.print, TT.httpCall,
      List.flatMap_cons, List.flatMap_nil, List.append_assoc, List.nil_append, List.append_nil, List.flatten_cons, List.flatten_nil]
  rfl

theorem foldr_print {f : ServiceMethod → Code → Code} {g : ServiceMethod → Str} (h : ∀ m r, (f m r).print = g m ++ r.print) (l : List ServiceMethod) (rest : Code) :
    (l.foldr f rest).print = l.flatMap g ++ rest.print := by
  induction l with
  | nil => rfl
  | cons m l ih => rw [List.foldr_cons, h, ih, List.flatMap_cons, List.append_assoc]

set_option maxRecDepth 4000 in
theorem grpcCode_print (s : Service) (rest : Code) : (grpcCode s rest).print = TT.grpcCalls s ++ rest.print := by
  simp only [grpcCode, heading, connected, failing, pln, fn0, fn1, Kind.client, Kind.label, Code.print, Call.print, Callee.print, Expr.print, TT.grpcCalls,
      List.flatMap_cons, List.flatMap_nil, List.append_assoc, List.nil_append, List.append_nil, List.flatten_cons, List.flatten_nil,
      foldr_print (rpcCode_print .grpc nofun s.name)]
  rfl

set_option maxRecDepth 4000 in
theorem natsCode_print (s : Service) (rest : Code) : (natsCode s rest).print = TT.natsCalls s ++ rest.print := by
  simp only [natsCode, heading, connected, failing, pln, fn0, fn1, Kind.client, Kind.label, Code.print, Call.print, Callee.print, Expr.print, TT.natsCalls,
      List.flatMap_cons, List.flatMap_nil, List.append_assoc, List.nil_append, List.append_nil, List.flatten_cons, List.flatten_nil,
      foldr_print (rpcCode_print .nats nofun s.name)]
  rfl

theorem httpPart_print (s : Service) (rest : Code) : (httpCode s rest).print = TT.httpCalls s ++ rest.print := by
  simp only [httpCode, heading, pln, fn0, fn1, Kind.label, Code.print, Call.print, Callee.print, Expr.print, TT.httpCalls,
      List.flatMap_cons, List.flatMap_nil, List.append_assoc, List.nil_append, List.append_nil, List.flatten_cons, List.flatten_nil,
      foldr_print (httpCode_print s.name)]
  rfl

theorem if_print {p : Prop} [Decidable p] {a : Code} {t : Str} (b : Code) (h : a.print = t ++ b.print) :
    (if p then a else b).print = (if p then t else []) ++ b.print := by
  by_cases hp : p
  · rw [if_pos hp, if_pos hp, h]
  · rw [if_neg hp, if_neg hp]; rfl

theorem if_print' {p : Prop} [Decidable p] {a : Code} {t : Str} (b : Code) (h : a.print = t ++ b.print) :
    (if p then b else a).print = (if p then [] else t) ++ b.print := by
  by_cases hp : p
  · rw [if_pos hp, if_pos hp]; rfl
  · rw [if_neg hp, if_neg hp, h]

/-- What comes before `main`. -/
def headText (c : TT.Config) : Str := [
  chars% "package main\n\nimport (\n\t\"context\"\n\t\"flag\"\n\t\"log\"\n\t",
  if selected (chars% "nats") c then chars% "\n\t\"github.com/nats-io/nats.go\"\n\t" else [], chars% "\n\n\tpb \"", c.pbPackage, chars% "\"\n\t",
  if selected (chars% "grpc") c then chars% "\n\t\"google.golang.org/grpc\"\n\t" else [],
  chars% "\n)\n\nvar (\n\tgrpcAddr string\n\thttpAddr string\n\tnatsAddr string\n)\n\nfunc init() {\n\tflag.StringVar(&grpcAddr, \"grpc.addr\", \":5040\", \"gRPC (HTTP) listen address\")\n\tflag.StringVar(&httpAddr, \"http.addr\", \":5050\", \"HTTP listen address\")\n\tflag.StringVar(&natsAddr, \"nats.addr\", \":4222\", \"NATS listen address\")\n}\n"].flatten

theorem imports_print (c : TT.Config) : ((client s c).imports.flatMap Import.print ++ (client s c).importsEnd) = [
  chars% "\n\t\"context\"\n\t\"flag\"\n\t\"log\"\n\t",
  if selected (chars% "nats") c then chars% "\n\t\"github.com/nats-io/nats.go\"\n\t" else [], chars% "\n\n\tpb \"", c.pbPackage, chars% "\"\n\t",
  if selected (chars% "grpc") c then chars% "\n\t\"google.golang.org/grpc\"\n\t" else [], chars% "\n"].flatten := by
  unfold client
  cases selected (chars% "nats") c <;> cases selected (chars% "grpc") c <;>
    (simp only [if_true, Bool.false_eq_true, if_false, Import.print, List.flatMap_cons, List.flatMap_nil, List.flatMap_append, List.append_assoc,
      List.nil_append, List.append_nil, List.flatten_cons, List.flatten_nil]; rfl)

set_option maxRecDepth 4000 in
theorem client_print (s : Service) (c : TT.Config) : (client s c).print = headText c ++ TT.callsText s c := by
  unfold Program.print
  rw [← List.append_assoc (List.flatMap _ _), imports_print]
  generalize hm : (client s c).main.print = mp
  unfold client at hm
  simp only [Code.print] at hm
  rw [if_print _ (grpcCode_print s _)] at hm
  simp only [Code.print] at hm
  rw [if_print' _ (httpPart_print s _)] at hm
  simp only [Code.print] at hm
  rw [if_print _ (natsCode_print s _)] at hm
  simp only [Code.print] at hm
  subst hm
  unfold headText TT.callsText
  simp only [client, reg, Kind.flag, Kind.dflt, fn0, fn1, Code.print, Call.print, Callee.print, Expr.print, List.flatMap_cons, List.flatMap_nil, List.append_assoc,
      List.nil_append, List.append_nil, List.flatten_cons, List.flatten_nil]
  rfl

/-! ## Flags -/

/-- The flags that are registered. -/
def Kind.var : Kind → Str
  | .grpc => chars% "grpcAddr"
  | .http => chars% "httpAddr"
  | .nats => chars% "natsAddr"

def table : List (Str × Str) := [(Kind.flag .grpc, Kind.var .grpc), (Kind.flag .http, Kind.var .http), (Kind.flag .nats, Kind.var .nats)]

theorem flag_named (k : Kind) : Named k.flag := by
  cases k <;> exact ⟨_, _, rfl, by decide, by decide, by decide⟩

theorem look_flag (k : Kind) : look table k.flag = some k.var := by
  cases k <;> decide +kernel

theorem look_table {n x : Str} (h : look table n = some x) : ∃ k : Kind, n = k.flag := by
  simp only [table, HTTP.look_cons] at h
  by_cases h1 : Kind.flag .grpc = n
  · exact ⟨_, h1.symm⟩
  by_cases h2 : Kind.flag .http = n
  · exact ⟨_, h2.symm⟩
  by_cases h3 : Kind.flag .nats = n
  · exact ⟨_, h3.symm⟩
  rw [if_neg h1, if_neg h2, if_neg h3] at h
  cases h

/-- The variables after flags. -/
def globals (fs : List (Kind × Str)) (g : List (Str × Str)) : List (Str × Str) := fs.foldl (fun g f => (f.1.var, f.2) :: g) g

theorem var_inj {k l : Kind} (h : k.var = l.var) : k = l := by
  cases k <;> cases l <;> first | rfl | exact absurd h (by decide)

theorem parse_reads {l : List Str} {fs : List (Kind × Str)} (h : Reads l fs) (rest : List Str) (g : List (Str × Str)) :
    parseFlags table g (l ++ rest) = parseFlags table (globals fs g) rest := by
  induction h generalizing g with
  | nil => rfl
  | value hd _ ih =>
    rw [List.cons_append, parseFlags, argument_some hd (flag_named _)]
    simp only [look_flag, ih]
    rfl
  | next hd _ ih =>
    rw [List.cons_append, List.cons_append, parseFlags, argument_none hd (flag_named _)]
    simp only [look_flag, ih]
    rfl

theorem argument_ends {s : Str} (h : s = "--".toList ∨ s = "-".toList ∨ s.head? ≠ some '-') : GoMain.argument s = .stop := by
  rcases argument_cases s with ⟨_, h⟩ | ⟨d, r, hd, rfl, hr, h1, h2⟩
  · exact h
  · exfalso
    rcases h with h | h | h
    · rcases hd with rfl | rfl
      · cases h; exact h1 rfl rfl
      · exact hr (List.append_cancel_left (show "--".toList ++ r = "--".toList ++ [] from h))
    · rcases hd with rfl | rfl
      · exact hr (List.append_cancel_left (show "-".toList ++ r = "-".toList ++ [] from h))
      · exact absurd (congrArg List.length h) (by simp)
    · rcases hd with rfl | rfl <;> exact h rfl

theorem understood_parse {args : List Str} {fs : List (Kind × Str)} (h : Understood args fs) (g : List (Str × Str)) :
    parseFlags table g args = .ok (globals fs g) := by
  obtain ⟨l, rest, rfl, h1, h2⟩ := h
  rw [parse_reads h1]
  rcases h2 with rfl | ⟨s, r, rfl, h⟩
  · rfl
  · rw [parseFlags, argument_ends h]

theorem look_help {n : Str} (hn : n = "h".toList ∨ n = "help".toList) : look table n = none := by
  rcases hn with rfl | rfl <;> decide +kernel

theorem help_parse {args : List Str} (h : Help args) (g : List (Str × Str)) : parseFlags table g args = .error 0 := by
  obtain ⟨l, fs, s, r, d, n, rfl, h1, hd, hn, hs⟩ := h
  have hnn : Named n := by rcases hn with rfl | rfl <;> exact ⟨_, _, rfl, by decide, by decide, by decide⟩
  have hif : (if n = chars% "help" ∨ n = chars% "h" then 0 else 2) = 0 := if_pos hn.symm
  rw [parse_reads h1]
  rcases hs with rfl | ⟨v, rfl⟩
  · rw [parseFlags, argument_none hd hnn]
    simp only [look_help hn, hif]
  · rw [parseFlags, argument_some hd hnn]
    simp only [look_help hn, hif]

theorem parse_cases (n : Nat) : ∀ (args : List Str) (g : List (Str × Str)), args.length ≤ n →
    (∃ fs, Understood args fs) ∨ Help args ∨ parseFlags table g args = .error 2 := by
  induction n with
  | zero =>
    intro args g h
    cases args with
    | nil => exact .inl ⟨[], [], [], rfl, .nil, .inl rfl⟩
    | cons _ _ => cases h
  | succ n ih =>
    intro args g h
    cases args with
    | nil => exact .inl ⟨[], [], [], rfl, .nil, .inl rfl⟩
    | cons s r =>
      rw [List.length_cons] at h
      rcases argument_cases s with ⟨hs, _⟩ | ⟨d, t, hd, rfl, ht, h1, h2⟩
      · exact .inl ⟨[], [], s :: r, rfl, .nil, .inr ⟨s, r, rfl, hs⟩⟩
      rw [parseFlags, h2]
      cases hv : GoMain.nameValue t with
      | stop => exfalso; cases t with
                | nil => cases hv
                | cons c t => rw [GoMain.nameValue] at hv; split at hv <;> cases hv
      | bad => exact .inr (.inr rfl)
      | flag name value =>
        have help (hn : look table name = none) : Help ((d ++ t) :: r) ∨ parseFlags table g ((d ++ t) :: r) = .error 2 := by
          by_cases hh : name = "help".toList ∨ name = "h".toList
          · refine .inl ⟨[], [], d ++ t, r, d, name, rfl, .nil, hd, hh.symm, ?_⟩
            cases value with
            | none => exact .inl (by rw [(GoMain.nameValue_none.mp hv).1])
            | some v => exact .inr ⟨v, by rw [(GoMain.nameValue_some.mp hv).1, List.append_assoc]⟩
          · refine .inr ?_
            rw [parseFlags, h2, hv]
            have hif : (if name = chars% "help" ∨ name = chars% "h" then 0 else 2) = 2 := if_neg hh
            simp only [hn, hif]
        cases hl : look table name with
        | none =>
          rcases help hl with h | h
          · exact .inr (.inl h)
          · refine .inr (.inr ?_)
            rw [parseFlags, h2, hv] at h
            simp only [hl] at h ⊢
            exact h
        | some x =>
          obtain ⟨k, rfl⟩ := look_table hl
          simp only [hl]
          cases value with
          | some v =>
            have e := (GoMain.nameValue_some.mp hv).1
            subst e
            rw [← List.append_assoc]
            rcases ih r ((x, v) :: g) (by omega) with ⟨fs, l, rest, rfl, hr, he⟩ | ⟨l, fs, s', r', d', n', rfl, hr, hh⟩ | h
            · exact .inl ⟨(k, v) :: fs, (d ++ k.flag ++ '=' :: v) :: l, rest, rfl, .value hd hr, he⟩
            · exact .inr (.inl ⟨(d ++ k.flag ++ '=' :: v) :: l, (k, v) :: fs, s', r', d', n', rfl, .value hd hr, hh⟩)
            · exact .inr (.inr h)
          | none =>
            have e := (GoMain.nameValue_none.mp hv).1
            subst e
            cases r with
            | nil => exact .inr (.inr rfl)
            | cons v r =>
              simp only
              rcases ih r ((x, v) :: g) (by rw [List.length_cons] at h; omega) with ⟨fs, l, rest, rfl, hr, he⟩ | ⟨l, fs, s', r', d', n', rfl, hr, hh⟩ | h
              · exact .inl ⟨(k, v) :: fs, (d ++ k.flag) :: v :: l, rest, rfl, .next hd hr, he⟩
              · exact .inr (.inl ⟨(d ++ k.flag) :: v :: l, (k, v) :: fs, s', r', d', n', rfl, .next hd hr, hh⟩)
              · exact .inr (.inr h)

/-- The variable of a flag holds its last value. -/
theorem look_globals (k : Kind) : ∀ (fs : List (Kind × Str)) (g : List (Str × Str)) (d : Str), look g k.var = some d →
    look (globals fs g) k.var = some (match (fs.filter fun f => f.1 = k).getLast? with | some f => f.2 | none => d) := by
  intro fs
  induction fs with
  | nil => intro g d h; exact h
  | cons f fs ih =>
    intro g d h
    show look (globals fs ((f.1.var, f.2) :: g)) k.var = _
    by_cases hf : f.1 = k
    · rw [ih _ f.2 (by rw [HTTP.look_cons, if_pos (by rw [hf])])]
      rw [List.filter_cons_of_pos (by simp [hf])]
      cases fs.filter (fun f => decide (f.1 = k)) with
      | nil => rfl
      | cons a l => rw [List.getLast?_cons_cons, List.getLast?_cons]
    · rw [ih _ d (by rw [HTTP.look_cons, if_neg (fun e => hf (var_inj e)), h])]
      rw [List.filter_cons_of_neg (by simp [hf])]

end Baron.GoCalls
