import Verif.Proofs.GoMain
import Verif.Props.Server
import Verif.Props.Files
import Verif.Proofs.MainParts

/-!
# C95 The command of the generated server: its text, and what it does with its arguments and environment
-/

namespace Baron.GoMain

open Baron.Server (Config Flag setFlag firstOf var lastFlag isHTTP isDebugAddr isGRPC isNATS isDebug)
open Baron.TT hiding Config
open Baron.Svcdef (Service)

theorem init_exec (path : Str) (w : World) : (command path).init.exec w ⟨⟨[], [], [], [], false⟩, [], [], [], []⟩ =
    .ok ⟨Server.fromEnv w.env Server.defaults, table, [], [], []⟩ := by
  unfold command
  refine (exec_reg_text (n' := chars% "debug.addr") (d' := chars% ":5060") (by decide +kernel) (by decide +kernel)
    (u' := chars% "Debug and metrics listen address") (by decide +kernel) rfl rfl).trans ?_
  refine (exec_reg_text (n' := chars% "http.addr") (d' := []) (by decide +kernel) unquote_nil
    (u' := chars% "HTTP listen address") (by decide +kernel) (by decide +kernel) rfl).trans ?_
  refine (exec_reg_text (n' := chars% "grpc.addr") (d' := []) (by decide +kernel) unquote_nil
    (u' := chars% "gRPC (HTTP) listen address") (by decide +kernel) (by decide +kernel) rfl).trans ?_
  refine (exec_reg_text (n' := chars% "nats.addr") (d' := []) (by decide +kernel) unquote_nil
    (u' := chars% "NATS listen address") (by decide +kernel) (by decide +kernel) rfl).trans ?_
  refine (exec_reg_bool (n' := chars% "debug") (by decide +kernel)
    (u' := chars% "Debug mode") (by decide +kernel) (by decide +kernel) rfl).trans ?_
  rw [Code.exec]
  refine (exec_fromVar (n' := chars% "DEBUG") (v := .bool (decide ((chars% "true") = toLower (w.env (chars% "DEBUG"))))) (by decide) (by decide +kernel) ?_ rfl).trans ?_
  · simp only [Expr.eval, show unquote (chars% "true") = some (chars% "true") by decide +kernel]
    rfl
  refine (exec_fromVar (n' := chars% "DEBUG_ADDR") (v := .str (w.env (chars% "DEBUG_ADDR"))) (by decide) (by decide +kernel) rfl rfl).trans ?_
  refine (exec_fromVar (n' := chars% "PORT") (v := .str (':' :: w.env (chars% "PORT"))) (by decide) (by decide +kernel) ?_ rfl).trans ?_
  · simp only [Expr.eval, show unquote (chars% ":%s") = some (chars% ":%s") by decide +kernel]
    simp [HTTP.look_cons, sprintf]
  refine (exec_fromVar (n' := chars% "HTTP_ADDR") (v := .str (w.env (chars% "HTTP_ADDR"))) (by decide) (by decide +kernel) rfl rfl).trans ?_
  refine (exec_fromVar (n' := chars% "GRPC_ADDR") (v := .str (w.env (chars% "GRPC_ADDR"))) (by decide) (by decide +kernel) rfl rfl).trans ?_
  refine (exec_fromVar (n' := chars% "NATS_ADDR") (v := .str (w.env (chars% "NATS_ADDR"))) (by decide) (by decide +kernel) rfl rfl).trans ?_
  rfl

/-- The settings that flags and environment make together: a flag (its last occurrence) before the environment before the default. -/
structure Configured (env : Str → Str) (fs : List Flag) (c : Config) : Prop where
  http : c.httpAddr = firstOf [lastFlag isHTTP fs, var env "HTTP_ADDR", (var env "PORT").map (':' :: ·)] []
  debugAddr : c.debugAddr = firstOf [lastFlag isDebugAddr fs, var env "DEBUG_ADDR"] ":5060".toList
  grpc : c.grpcAddr = firstOf [lastFlag isGRPC fs, var env "GRPC_ADDR"] []
  nats : c.natsAddr = firstOf [lastFlag isNATS fs, var env "NATS_ADDR"] []
  debug : c.debug = firstOf [lastFlag isDebug fs, (var env "DEBUG").map fun v => decide (toLower v = "true".toList)] false

/-- What is printed before the server runs. -/
def notice (c : Config) : List Str := if c.httpAddr = [] ∧ c.grpcAddr = [] ∧ c.natsAddr = [] then [noServer] else []

theorem unquote_noServer : unquote noServer = some noServer := by decide +kernel

theorem run_eq (path : Str) (w : World) : (command path).run w =
    match parseArgs table (Server.fromEnv w.env Server.defaults) w.args with
    | .error n => some ⟨n, [], []⟩
    | .ok c => some ⟨0, notice c, [c]⟩ := by
  unfold Program.run
  rw [init_exec]
  generalize hm : (command path).main = code
  unfold command at hm
  subst hm
  simp only [Code.exec, if_true]
  cases parseArgs table (Server.fromEnv w.env Server.defaults) w.args with
  | error n => rfl
  | ok c =>
    simp only [Expr.eval, unquote_nil, unquote_noServer]
    obtain ⟨a, b, d, e, f⟩ := c
    unfold notice
    cases a <;> cases d <;> cases e <;> rfl

/-- What follows the path of the import in the text. -/
def tail : Str := chars% "/server" ++ (chars% "\"\n)\n\nvar config server.Config\n\nfunc init() {" ++ ((command []).init.print ++ (chars% "}\n\nfunc main() {" ++
  ((command []).main.print ++ chars% "}\n"))))

theorem command_print (path : Str) : (command path).print =
    chars% "package main\n\nimport (\n\t\"flag\"\n\t\"fmt\"\n\t\"os\"\n\t\"strings\"\n\n\t\"" ++ (path ++ tail) := by
  have : (command path).importPath = path ++ chars% "/server" := rfl
  unfold Program.print tail
  rw [this, List.append_assoc]
  rfl

theorem commandT_shape : ∃ b, commandT = .text (chars% "package main\n\nimport (\n\t\"flag\"\n\t\"fmt\"\n\t\"os\"\n\t\"strings\"\n\n\t\"")
    (.action (.dot [chars% "ImportPath"]) (.text b .nil)) ∧ b = tail := by
  refine ⟨_, rfl, ?_⟩
  decide +kernel

/-- **C95** main.go of the generated server is a program that imports the package `server` below the service's import path and does this, for every
environment and every list of arguments: if the arguments are understood (flags `-name=value`, `-name value` or `-debug`, with one dash or
two, up to the first argument that is not one), the server is run once with the configuration they make together with the environment, a
notice being printed before exactly when no address is set; if they ask for help before anything that is not understood, the server is
not run and the exit status is 0; in all other cases the server is not run and the status is 2. -/
theorem C95_server (fmt : Str → Str) (pkg : Str) (s : Service) (c : TT.Config) :
    ∃ p : Program, render fmt pkg s c "cmd/NAME/main.go.tmpl".toList = some p.print ∧ p.importPath = c.goPackage ++ "/server".toList ∧
      ∀ w : World,
        (∀ fs, Understood w.args fs → ∃ cfg, Configured w.env fs cfg ∧ p.run w = some ⟨0, notice cfg, [cfg]⟩) ∧
        (Help w.args → p.run w = some ⟨0, [], []⟩) ∧
        ((¬ ∃ fs, Understood w.args fs) → ¬ Help w.args → p.run w = some ⟨2, [], []⟩) := by
  refine ⟨command c.goPackage, ?_, rfl, fun w => ⟨?_, ?_, ?_⟩⟩
  · obtain ⟨txt, h⟩ := C84_render fmt pkg s c "cmd/NAME/main.go.tmpl".toList (by decide +kernel)
    obtain ⟨ms, -, t, hp, he⟩ := render_data (src := cmdServerSrc) rfl h
    rw [h, ← he]
    have := map_some commandT_eq hp
    subst this
    obtain ⟨b, h1, h2⟩ := commandT_shape
    rw [h1]
    refine Eq.trans (exec_text (exec_action rfl exec_text_nil)) ?_
    rw [h2]
    exact congrArg some (command_print _).symm
  · intro fs h
    rw [run_eq, understood_parse h]
    refine ⟨_, ?_, rfl⟩
    obtain ⟨h1, h2, h3, h4, h5⟩ := Server.C55_configuration w.env fs
    exact ⟨h1, h2, h3, h4, h5⟩
  · intro h
    rw [run_eq, help_parse h]
  · intro h1 h2
    rcases parse_cases w.args.length w.args (Server.fromEnv w.env Server.defaults) (Nat.le_refl _) with h | h | h
    · exact absurd h h1
    · exact absurd h h2
    · rw [run_eq, h]

namespace Example

/-- A command line that is understood: a value of its own, a switch, an argument that ends the flags. -/
example : Understood ["--grpc.addr".toList, "-x".toList, "-debug=F".toList, "-http.addr=:80=".toList, "stop".toList, "-bad".toList]
    [.grpcAddr "-x".toList, .debug false, .httpAddr ":80=".toList] :=
  ⟨["--grpc.addr".toList, "-x".toList, "-debug=F".toList, "-http.addr=:80=".toList], ["stop".toList, "-bad".toList], rfl,
    .next (.inr rfl) (by decide) .grpc (.value (v := "F".toList) (.inl rfl) (.debug (by unfold Main.Says; decide)) (.value (.inl rfl) .http .nil)),
    .inr ⟨_, _, rfl, .inr (.inr (by decide))⟩⟩

/-- One that asks for help, and one that is neither. -/
example : Help ["-debug".toList, "--help".toList, "---".toList] :=
  ⟨["-debug".toList], [.debug true], "--help".toList, ["---".toList], "--".toList, "help".toList, rfl, .on (.inl rfl) .nil, .inr rfl, .inr rfl, .inl rfl⟩

example : ((command []).run ⟨fun _ => [], ["-debug".toList, "maybe".toList, "-http.addr".toList]⟩,
    (command []).run ⟨fun _ => [], ["-http.addr".toList]⟩) =
    (some ⟨0, [noServer], [⟨[], ":5060".toList, [], [], true⟩]⟩, some ⟨2, [], []⟩) := by
  decide +kernel

end Example

end Baron.GoMain
