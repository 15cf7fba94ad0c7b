import Verif.Model.GoCalls
import Verif.Spec.Files
import Verif.Spec.GoMain

/-!
# The example client: its command line, what it does, and the program in its main.go (C98)
-/

namespace Baron.GoCalls

open Baron.TT (selected httpRpcs goType)
open Baron.Svcdef (Service ServiceMethod)
open Baron.GoMain (Dashes Ends)

/-! ## Command lines -/

/-- The name of the flag for the address of a server. -/
def Kind.flag : Kind → Str
  | .grpc => chars% "grpc.addr"
  | .http => chars% "http.addr"
  | .nats => chars% "nats.addr"

/-- The address if it is not given. -/
def Kind.dflt : Kind → Str
  | .grpc => chars% ":5040"
  | .http => chars% ":5050"
  | .nats => chars% ":4222"

/-- Arguments that are flags, with what they say, in their order: `-name=value` and `-name value`. -/
inductive Reads : List Str → List (Kind × Str) → Prop where
  | nil : Reads [] []
  | value {d k v r fs} : Dashes d → Reads r fs → Reads ((d ++ Kind.flag k ++ '=' :: v) :: r) ((k, v) :: fs)
  | next {d k v r fs} : Dashes d → Reads r fs → Reads ((d ++ Kind.flag k) :: v :: r) ((k, v) :: fs)

/-- A command line that is understood. -/
def Understood (args : List Str) (fs : List (Kind × Str)) : Prop := ∃ l rest, args = l ++ rest ∧ Reads l fs ∧ Ends rest

/-- A command line that asks for help, before anything that is not understood. -/
def Help (args : List Str) : Prop := ∃ l fs s r d n, args = l ++ s :: r ∧ Reads l fs ∧ Dashes d ∧
  (n = "h".toList ∨ n = "help".toList) ∧ (s = d ++ n ∨ ∃ v, s = d ++ n ++ '=' :: v)

/-- The address of a server: the last one that is given. -/
def address (fs : List (Kind × Str)) (k : Kind) : Str := match (fs.filter fun f => f.1 = k).getLast? with
  | some f => f.2
  | none => k.dflt

/-! ## What is done -/

def Kind.label : Kind → Str
  | .grpc => chars% "GRPC"
  | .http => chars% "HTTP"
  | .nats => chars% "NATS"

/-- The client writes a line; it does something without which it cannot go on; or it makes a call, writing the result. -/
inductive Step where
  | say (line : Str)
  | must (a : Action)
  | call (k : Kind) (addr service method type : Str)

def rule : Step := .say (chars% "---------------------------------------------------------------------------------\n")

/-- The name of an rpc in messages. -/
def title (k : Kind) (service method : Str) : Str := chars% "[Baron." ++ k.label ++ chars% "Client] " ++ service ++ chars% "." ++ method

/-- The step for an rpc with a client. -/
def rpcStep (k : Kind) (addr : Str) (s : Service) (m : ServiceMethod) : List Step :=
  [.call k addr s.name (Strs.goCamelCase m.name) (chars% "pb." ++ goType m.request), rule]

/-- All steps, in their order: gRPC, if selected; HTTP, for the rpcs that have bindings; NATS, if selected. -/
def plan (s : Service) (c : TT.Config) (addr : Kind → Str) : List Step :=
  (if selected (chars% "grpc") c then
    [.say (chars% "[GRPC." ++ s.name ++ chars% "]\n"), rule, .must (.dial (addr .grpc) [chars% "grpc.WithInsecure", chars% "grpc.WithBlock"]),
      .must (.client .grpc (addr .grpc))] ++ s.methods.flatMap (rpcStep .grpc (addr .grpc) s) else []) ++
  (if httpRpcs s = [] then [] else
    [.say (chars% "[HTTP][" ++ s.name ++ chars% "]\n"), rule] ++
      (httpRpcs s).flatMap fun m => .must (.client .http (addr .http)) :: rpcStep .http (addr .http) s m) ++
  (if selected (chars% "nats") c then
    [.say (chars% "[NATS." ++ s.name ++ chars% "]\n"), rule, .must (.connect (addr .nats)), .must (.client .nats (addr .nats))] ++
      s.methods.flatMap (rpcStep .nats (addr .nats) s) else [])

/-- What happens when steps are followed from a point in time on: up to the first failure, which is written to the log, or (`true`) to the end. -/
def follow {V E : Type} (w : World V E) : List Step → List Event → Bool × List Event
  | [], h => (true, h)
  | .say t :: r, h => follow w r (h ++ [.log t])
  | .must a :: r, h => match w.fails h a with
    | some e => (false, h ++ [.act a, .log (line (w.errText e))])
    | none => follow w r (h ++ [.act a])
  | .call k addr service m ty :: r, h => match w.fails h (.call k addr m ty) with
    | some e => (false, h ++ [.act (.call k addr m ty), .log (title k service m ++ chars% " err=" ++ w.errText e ++ chars% "\n")])
    | none => follow w r (h ++ [.act (.call k addr m ty),
        .log (title k service m ++ chars% " result=" ++ w.shown (w.reply h (.call k addr m ty)) ++ chars% "\n")])

/-- The connections that are closed at the end, the last one first. -/
def closing (c : TT.Config) (addr : Kind → Str) : List Event :=
  (if selected (chars% "nats") c then [.close .nats (addr .nats)] else []) ++ (if selected (chars% "grpc") c then [.close .grpc (addr .grpc)] else [])

/-- The whole process, for servers at addresses. -/
def outcome {V E : Type} (w : World V E) (s : Service) (c : TT.Config) (addr : Kind → Str) : Outcome :=
  let f := follow w (plan s c addr) []
  if f.1 then ⟨0, f.2 ++ closing c addr⟩ else ⟨1, f.2⟩

/-- Something is called, with every client there is. -/
def Callable (s : Service) (c : TT.Config) : Prop :=
  s.methods ≠ [] ∧ (selected (chars% "grpc") c = true ∨ selected (chars% "nats") c = true ∨ httpRpcs s ≠ [])

/-- A text that can be put between quotes and into a format. -/
def Plain (s : Str) : Prop := ∀ ch ∈ s, ch ≠ '"' ∧ ch ≠ '\\' ∧ ch ≠ '\n' ∧ ch ≠ '%'

/-! ## The program -/

/-- A call with all arguments on one line. -/
def fn1 (f : Str) (a : Expr) : Call := ⟨.fn f, [([], a)], []⟩
def fn2 (f : Str) (a b : Expr) : Call := ⟨.fn f, [([], a), (chars% ", ", b)], []⟩
def fn0 (f : Str) : Call := ⟨.fn f, [], []⟩

def failing (ws1 ws2 : Str) (c : Call) (rest : Code) : Code := .ifErr ws1 (chars% "err") (.call ws2 c (.done ws1)) rest

def pln (ws : Str) (rest : Code) : Code := .call ws (fn0 (chars% "pln")) rest

/-- The statements that follow a call. -/
def report (k : Kind) (service : Str) (m : ServiceMethod) (rest : Code) : Code :=
  failing (chars% "\n\t\t") (chars% "\n\t\t\t") (fn2 (chars% "log.Fatalf")
    (.text (title k service (Strs.goCamelCase m.name) ++ chars% " err=%v\\n")) (.id (chars% "err"))) <|
  .call (chars% "\n\t\t") (fn2 (chars% "log.Printf") (.text (title k service (Strs.goCamelCase m.name) ++ chars% " result=%+v\\n")) (.deref (chars% "out"))) <|
  pln (chars% "\n\t\t") rest

/-- The variable that holds a client. -/
def Kind.client (k : Kind) : Str := chars% "baron" ++ k.label ++ chars% "Client"

/-- The call of an rpc, in a block; `make` makes a client first. -/
def rpcCode (k : Kind) (service end_ : Str) (make : Code → Code) (m : ServiceMethod) (rest : Code) : Code :=
  .comment (chars% "\n\t") (chars% " " ++ k.label ++ chars% "." ++ service ++ chars% "." ++ m.name) <|
  .block (chars% "\n\t") (
    .define (chars% "\n\t\t") (chars% "ctx") (fn0 (chars% "context.Background")) <|
    .declare (chars% "\n\t\t") (chars% "in") (chars% "pb." ++ goType m.request) <|
    make <|
    .define2 (chars% "\n\t\t") (chars% "out") (chars% "err") ⟨.method k.client (Strs.goCamelCase m.name),
      [([], .id (chars% "ctx")), (chars% ", ", .addr (chars% "in"))], []⟩ <|
    report k service m <|
    .done end_) <|
  .blank (chars% "\n\t") rest

/-- The HTTP client is made in the block. -/
def makeHTTP (rest : Code) : Code :=
  .define2 (chars% "\n\t\t") (chars% "baronHTTPClient") (chars% "err") (fn1 (chars% "pb.NewHTTPClient") (.id (chars% "httpAddr"))) <|
  failing (chars% "\n\t\t") (chars% "\n\t\t\t") (fn1 (chars% "log.Fatal") (.id (chars% "err"))) rest

/-- A heading. -/
def heading (k : Kind) (text : Str) (rest : Code) : Code :=
  .comment (chars% "\n\t") (chars% " Baron " ++ k.label ++ chars% " Client") <|
  .call (chars% "\n\t") (fn1 (chars% "log.Println") (.text text)) <|
  pln (chars% "\n\t") rest

/-- A connection, and its client. -/
def connected (k : Kind) (x : Str) (c : Call) (rest : Code) : Code :=
  .define2 (chars% "\n\t") x (chars% "err") c <|
  failing (chars% "\n\t") (chars% "\n\t\t") (fn1 (chars% "log.Fatal") (.id (chars% "err"))) <|
  .defer (chars% "\n\t") x (chars% "Close") <|
  .define2 (chars% "\n\t") k.client (chars% "err") (fn1 (chars% "pb.New" ++ k.label ++ chars% "Client") (.id x)) <|
  failing (chars% "\n\t") (chars% "\n\t\t") (fn1 (chars% "log.Fatal") (.id (chars% "err"))) <|
  .blank (chars% "\n\t") rest

def grpcCode (s : Service) (rest : Code) : Code :=
  heading .grpc (chars% "[GRPC." ++ s.name ++ chars% "]") <|
  connected .grpc (chars% "conn") ⟨.fn (chars% "grpc.Dial"), [(chars% "\n\t\t", .id (chars% "grpcAddr")),
    (chars% ",\n\t\t", .call0 (chars% "grpc.WithInsecure")), (chars% ",\n\t\t", .call0 (chars% "grpc.WithBlock"))], chars% ",\n\t"⟩ <|
  s.methods.foldr (rpcCode .grpc s.name (chars% "\n\t") id) <|
  .blank (chars% "\n\t") rest

def httpCode (s : Service) (rest : Code) : Code :=
  heading .http (chars% "[HTTP][" ++ s.name ++ chars% "]") <|
  .blank (chars% "\n\t") <|
  (httpRpcs s).foldr (rpcCode .http s.name (chars% "\n\t\t") makeHTTP) <|
  .blank (chars% "\n\t") rest

def natsCode (s : Service) (rest : Code) : Code :=
  heading .nats (chars% "[NATS." ++ s.name ++ chars% "]") <|
  connected .nats (chars% "nc") (fn1 (chars% "nats.Connect") (.id (chars% "natsAddr"))) <|
  s.methods.foldr (rpcCode .nats s.name (chars% "\n\t") id) <|
  .blank (chars% "\n\t") rest

/-- The registration of a flag. -/
def reg (x : Str) (k : Kind) (usage : Str) (rest : Code) : Code :=
  .call (chars% "\n\t") ⟨.fn (chars% "flag.StringVar"), [([], .addr x), (chars% ", ", .text k.flag), (chars% ", ", .text k.dflt),
    (chars% ", ", .text usage)], []⟩ rest

/-- template/NAME-service/cmd/NAME-client/main.go.tmpl, as a program. -/
def client (s : Service) (c : TT.Config) : Program where
  imports := [⟨chars% "\n\t", none, chars% "context"⟩, ⟨chars% "\n\t", none, chars% "flag"⟩, ⟨chars% "\n\t", none, chars% "log"⟩] ++
    (if selected (chars% "nats") c then [⟨chars% "\n\t\n\t", none, chars% "github.com/nats-io/nats.go"⟩, ⟨chars% "\n\t\n\n\t", some (chars% "pb"), c.pbPackage⟩]
      else [⟨chars% "\n\t\n\n\t", some (chars% "pb"), c.pbPackage⟩]) ++
    (if selected (chars% "grpc") c then [⟨chars% "\n\t\n\t", none, chars% "google.golang.org/grpc"⟩] else [])
  importsEnd := chars% "\n\t\n"
  vars := [chars% "grpcAddr", chars% "httpAddr", chars% "natsAddr"]
  init := reg (chars% "grpcAddr") .grpc (chars% "gRPC (HTTP) listen address") <| reg (chars% "httpAddr") .http (chars% "HTTP listen address") <|
    reg (chars% "natsAddr") .nats (chars% "NATS listen address") <| .done (chars% "\n")
  main :=
    .call (chars% "\n\t") (fn0 (chars% "flag.Parse")) <| .blank (chars% "\n\t\n\t") <|
    (fun rest => if selected (chars% "grpc") c then grpcCode s rest else rest) <| .blank (chars% "\n\n\t") <|
    (fun rest => if httpRpcs s = [] then rest else httpCode s rest) <| .blank (chars% "\n\n\t") <|
    (fun rest => if selected (chars% "nats") c then natsCode s rest else rest) <|
    .done (chars% "\n\n\t\n")
  helper := chars% "pln"
  helperBody := .call (chars% "\n\t") (fn1 (chars% "log.Println")
    (.text (chars% "---------------------------------------------------------------------------------"))) (.done (chars% "\n"))

end Baron.GoCalls
