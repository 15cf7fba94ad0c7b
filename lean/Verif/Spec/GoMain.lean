import Verif.Model.GoMain
import Verif.Spec.CommandLine

/-!
# The command line of the generated server, and the program in its main.go (C95)

`Server.Flag` (a setting) and `Server.Config` are shared with the model; how settings are spelled and what they mean together is said here.
-/

namespace Baron.GoMain

open Baron.Server (Config Flag)

/-- One dash or two. -/
def Dashes (d : Str) : Prop := d = "-".toList ∨ d = "--".toList

/-- The name of a flag, a value as it is written, and what it says. -/
inductive Spells : Str → Str → Flag → Prop where
  | http {v : Str} : Spells "http.addr".toList v (.httpAddr v)
  | debugAddr {v : Str} : Spells "debug.addr".toList v (.debugAddr v)
  | grpc {v : Str} : Spells "grpc.addr".toList v (.grpcAddr v)
  | nats {v : Str} : Spells "nats.addr".toList v (.natsAddr v)
  | debug {v : Str} {b : Bool} : Main.Says b v → Spells "debug".toList v (.debug b)

/-- Arguments that are flags, with what they say, in their order: `-name=value`, `-name value` (not for the switch), and `-debug`. -/
inductive Reads : List Str → List Flag → Prop where
  | nil : Reads [] []
  | value {d n v f r fs} : Dashes d → Spells n v f → Reads r fs → Reads ((d ++ n ++ '=' :: v) :: r) (f :: fs)
  | next {d n v f r fs} : Dashes d → n ≠ "debug".toList → Spells n v f → Reads r fs → Reads ((d ++ n) :: v :: r) (f :: fs)
  | on {d r fs} : Dashes d → Reads r fs → Reads ((d ++ "debug".toList) :: r) (.debug true :: fs)

/-- The flags end at the end, at two dashes, and at an argument that is not a flag. -/
def Ends (rest : List Str) : Prop :=
  rest = [] ∨ ∃ s r, rest = s :: r ∧ (s = "--".toList ∨ s = "-".toList ∨ s.head? ≠ some '-')

/-- A command line that is understood. -/
def Understood (args : List Str) (fs : List Flag) : Prop := ∃ l rest, args = l ++ rest ∧ Reads l fs ∧ Ends rest

/-- A command line that asks for help, before anything that is not understood. -/
def Help (args : List Str) : Prop := ∃ l fs s r d n, args = l ++ s :: r ∧ Reads l fs ∧ Dashes d ∧
  (n = "h".toList ∨ n = "help".toList) ∧ (s = d ++ n ∨ ∃ v, s = d ++ n ++ '=' :: v)

/-- The statement that registers a flag. -/
def reg (fn f name : Str) (dflt : Expr) (usage : Str) (rest : Code) : Code :=
  .register (chars% "\n\t") fn f (.text name) dflt (.text usage) rest

/-- The statement that takes a field from the environment. -/
def fromVar (ws x name f : Str) (e : Expr) (rest : Code) : Code :=
  .condInit ws x (.call1 (chars% "os.Getenv") (.text name)) (.bin (.id x) (chars% "!=") (.text []))
    (.set (chars% "\n\t\t") f e (.done (chars% "\n\t"))) rest

/-- What is printed when no address is given. -/
def noServer : Str := chars% "no server to run, serve addr must be set one of [http.addr|grpc.addr|nats.addr]"

/-- template/NAME-service/cmd/NAME/main.go.tmpl, as a program. -/
def command (path : Str) : Program where
  importPath := path ++ chars% "/server"
  init :=
    reg (chars% "flag.StringVar") (chars% "DebugAddr") (chars% "debug.addr") (.text (chars% ":5060")) (chars% "Debug and metrics listen address") <|
    reg (chars% "flag.StringVar") (chars% "HTTPAddr") (chars% "http.addr") (.text []) (chars% "HTTP listen address") <|
    reg (chars% "flag.StringVar") (chars% "GRPCAddr") (chars% "grpc.addr") (.text []) (chars% "gRPC (HTTP) listen address") <|
    reg (chars% "flag.StringVar") (chars% "NATSAddr") (chars% "nats.addr") (.text []) (chars% "NATS listen address") <|
    reg (chars% "flag.BoolVar") (chars% "Debug") (chars% "debug") (.bool false) (chars% "Debug mode") <|
    .comment (chars% "\n\n\t") (chars% " Use environment variables, if set. Flags have priority over Env vars.") <|
    fromVar (chars% "\n\t") (chars% "debug") (chars% "DEBUG") (chars% "Debug")
      (.bin (.text (chars% "true")) (chars% "==") (.call1 (chars% "strings.ToLower") (.id (chars% "debug")))) <|
    fromVar (chars% "\n\t") (chars% "addr") (chars% "DEBUG_ADDR") (chars% "DebugAddr") (.id (chars% "addr")) <|
    fromVar (chars% "\n\t") (chars% "port") (chars% "PORT") (chars% "HTTPAddr")
      (.call2 (chars% "fmt.Sprintf") (.text (chars% ":%s")) (.id (chars% "port"))) <|
    fromVar (chars% "\n\t") (chars% "addr") (chars% "HTTP_ADDR") (chars% "HTTPAddr") (.id (chars% "addr")) <|
    fromVar (chars% "\n\t") (chars% "addr") (chars% "GRPC_ADDR") (chars% "GRPCAddr") (.id (chars% "addr")) <|
    fromVar (chars% "\n\t") (chars% "addr") (chars% "NATS_ADDR") (chars% "NATSAddr") (.id (chars% "addr")) <|
    .done (chars% "\n")
  main :=
    .comment (chars% "\n\t") (chars% " Update addresses if they have been overwritten by flags") <|
    .call0 (chars% "\n\t") (chars% "flag.Parse") <|
    .cond (chars% "\n\n\t") (.bin (.bin (.bin (.field (chars% "HTTPAddr")) (chars% "==") (.text [])) (chars% "&&")
        (.bin (.field (chars% "GRPCAddr")) (chars% "==") (.text []))) (chars% "&&") (.bin (.field (chars% "NATSAddr")) (chars% "==") (.text [])))
      (.call (chars% "\n\t\t") (chars% "fmt.Println") (.text noServer) (.done (chars% "\t\t\n\t"))) <|
    .call (chars% "\n\t") (chars% "server.Run") (.id (chars% "config")) <|
    .done (chars% "\n")

end Baron.GoMain
