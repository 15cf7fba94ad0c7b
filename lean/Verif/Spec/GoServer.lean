import Verif.Model.GoServer

/-!
# `Run` and `Interrupt` of the generated server as programs, and what their goroutines do (C97)
-/

namespace Baron.GoServer

open Baron.Server (Config Proc Gen)

/-! ## The programs -/

/-- template/NAME-service/server/interrupt.go.tmpl 11-19. -/
def interrupt : Func where
  name := chars% "Interrupt"
  param := chars% "errc"
  type := chars% "chan<- error"
  body :=
    .makeChan (chars% "\n\t") (chars% "c") (chars% "chan os.Signal, 1") <|
    .call (chars% "\n\t") (.fn (chars% "signal.Notify")) [([], .id (chars% "c")), (chars% ", ", .const (chars% "syscall.SIGINT")),
      (chars% ", ", .const (chars% "syscall.SIGTERM"))] <|
    .receive (chars% "\n\t") (chars% "terminateError") (chars% "fmt.Errorf") (chars% "%s") (chars% "c") <|
    .comment (chars% "\n\n\t") (chars% " Place whatever shutdown handling you want here") <|
    .send (chars% "\n\n\t") (chars% "errc") (chars% "terminateError") <|
    .done (chars% "\n")

/-- `m.Handle("path", http.HandlerFunc(pprof.f))` -/
def handle (path f : Str) (rest : Code) : Code :=
  .call (chars% "\n\t\t\t") (.method (chars% "m") (chars% "Handle")) [([], .text path), (chars% ", ", .conv (chars% "http.HandlerFunc") (chars% "pprof." ++ f))] rest

/-- server.go.tmpl 54-65. -/
def debugBody : Code :=
  .log (chars% "\n\t\t\t") [([], .text (chars% "transport")), (chars% ", ", .text (chars% "debug")), (chars% ", ", .text (chars% "addr")),
    (chars% ", ", .field (chars% "DebugAddr"))] <|
  .define (chars% "\n\n\t\t\t") (chars% "m") (.fn (chars% "http.NewServeMux")) [] <|
  handle (chars% "/debug/pprof/") (chars% "Index") <|
  handle (chars% "/debug/pprof/cmdline") (chars% "Cmdline") <|
  handle (chars% "/debug/pprof/profile") (chars% "Profile") <|
  handle (chars% "/debug/pprof/symbol") (chars% "Symbol") <|
  handle (chars% "/debug/pprof/trace") (chars% "Trace") <|
  .sendCall (chars% "\n\n\t\t\t") (chars% "errc") (.fn (chars% "http.ListenAndServe")) [([], .field (chars% "DebugAddr")), (chars% ", ", .id (chars% "m"))] <|
  .done (chars% "\n\t\t")

/-- server.go.tmpl 70-74. -/
def httpBody : Code :=
  .log (chars% "\n\t\t\t") [([], .text (chars% "transport")), (chars% ", ", .text (chars% "HTTP")), (chars% ", ", .text (chars% "addr")),
    (chars% ", ", .field (chars% "HTTPAddr"))] <|
  .define (chars% "\n\t\t\t") (chars% "h") (.fn (chars% "pb.MakeHTTPHandler")) [([], .id (chars% "endpoints")), (chars% ", ", .options (chars% "HTTPServerOptions"))] <|
  .sendCall (chars% "\n\t\t\t") (chars% "errc") (.fn (chars% "http.ListenAndServe")) [([], .field (chars% "HTTPAddr")), (chars% ", ", .id (chars% "h"))] <|
  .done (chars% "\n\t\t")

/-- `if err != nil { errc <- err; return }` -/
def giveUp (rest : Code) : Code :=
  .ifErr (chars% "\n\t\t\t") (.send (chars% "\n\t\t\t\t") (chars% "errc") (chars% "err") (.ret (chars% "\n\t\t\t\t") (.done (chars% "\n\t\t\t")))) rest

/-- server.go.tmpl 80-93. -/
def grpcBody (service : Str) : Code :=
  .log (chars% "\n\t\t\t") [([], .text (chars% "transport")), (chars% ", ", .text (chars% "gRPC")), (chars% ",", .text (chars% "addr")),
    (chars% ", ", .field (chars% "GRPCAddr"))] <|
  .define2 (chars% "\n\t\t\t") (chars% "ln") (.fn (chars% "net.Listen")) [([], .text (chars% "tcp")), (chars% ", ", .field (chars% "GRPCAddr"))] <|
  giveUp <|
  .define (chars% "\n\n\t\t\t") (chars% "srv") (.fn (chars% "pb.MakeGRPCServer")) [([], .id (chars% "endpoints")), (chars% ", ", .options (chars% "GRPCServerOptions"))] <|
  .define (chars% "\n\t\t\t") (chars% "s") (.fn (chars% "grpc.NewServer")) [] <|
  .call (chars% "\n\t\t\t") (.fn (chars% "pb.Register" ++ (service ++ chars% "Server"))) [([], .id (chars% "s")), (chars% ", ", .id (chars% "srv"))] <|
  .sendCall (chars% "\n\n\t\t\t") (chars% "errc") (.method (chars% "s") (chars% "Serve")) [([], .id (chars% "ln"))] <|
  .done (chars% "\n\t\t")

/-- server.go.tmpl 99-117. -/
def natsBody : Code :=
  .log (chars% "\n\t\t\t") [([], .text (chars% "transport")), (chars% ", ", .text (chars% "NATS")), (chars% ",", .text (chars% "addr")),
    (chars% ", ", .field (chars% "NATSAddr"))] <|
  .define2 (chars% "\n\t\t\t") (chars% "conn") (.fn (chars% "nats.Connect")) [([], .field (chars% "NATSAddr"))] <|
  giveUp <|
  .closure (chars% "\n\t\t\t") (chars% "closeConn") (chars% "c *nats.Conn") (chars% "\n\t\t\t\tc.Close()\n\t\t\t") <|
  .call (chars% "\n\t\t\t") (.fn (chars% "runtime.SetFinalizer")) [([], .id (chars% "conn")), (chars% ", ", .id (chars% "closeConn"))] <|
  .define (chars% "\n\n\t\t\t") (chars% "srv") (.fn (chars% "pb.MakeNATSServer")) [([], .id (chars% "endpoints")), (chars% ", ", .options (chars% "NATSSubscriberOptions"))] <|
  .assign (chars% "\n\t\t\t") (.fn (chars% "pb.ServeNATS")) [([], .id (chars% "conn")), (chars% ", ", .id (chars% "srv"))] <|
  giveUp <|
  .done (chars% "\n\t\t")

/-- `if cfg.f != "" { go func() {…}() }`, with the comment before it and the white space the template leaves after it. -/
def serve (comment f : Str) (body rest : Code) : Code :=
  .comment (chars% "\n\t") comment <| .ifNonempty (chars% "\n\t") f (.goFunc (chars% "\n\t\t") body (.done (chars% "\n\t"))) rest

/-- What `rest` prints, after more white space. -/
def Code.after (ws : Str) : Code → Code
  | .comment w s r => .comment (ws ++ w) s r
  | c => c

/-- server.go.tmpl 42-123: `Run` of a service, by what it has been generated with. -/
def run (service : Str) (g : Gen) : Func where
  name := chars% "Run"
  param := chars% "cfg"
  type := chars% "Config"
  body :=
    .comment (chars% "\n\t") (chars% " Application domain") <|
    .define (chars% "\n\t") (chars% "endpoints") (.fn (chars% "Endpoints")) [] <|
    .comment (chars% "\n\n\t") (chars% " Port domain") <|
    .makeChan (chars% "\n\t") (chars% "errc") (chars% "chan error") <|
    .comment (chars% "\n\n\t") (chars% " Server Interrupt ") <|
    .goCall (chars% "\n\t") (chars% "Interrupt") (chars% "errc") <|
    .comment (chars% "\n\n\t") (chars% " Debug listener") <|
    .ifSet (chars% "\n\t") (chars% "Debug") (.goFunc (chars% "\n\t\t") debugBody (.done (chars% "\n\t"))) <|
    withHTTP (chars% "\n\t")
where
  exit (ws : Str) : Code := .comment (ws ++ chars% "\n\n\t") (chars% " Exit") <| .logReceived (chars% "\n\t") (chars% "exit") (chars% "errc") <| .done (chars% "\n")
  withNATS (ws : Str) : Code :=
    if g.nats then (serve (chars% " NATS transport") (chars% "NATSAddr") natsBody (exit (chars% "\n\t"))).after ws else exit ws
  withGRPC (ws : Str) : Code :=
    if g.grpc then (serve (chars% " gRPC transport") (chars% "GRPCAddr") (grpcBody service) (withNATS (chars% "\n\t\n\t"))).after ws
    else withNATS (ws ++ chars% "\n\t")
  withHTTP (ws : Str) : Code :=
    if g.hasHTTP then (serve (chars% " HTTP transport") (chars% "HTTPAddr") httpBody (withGRPC (chars% "\n\t\n\t"))).after ws
    else withGRPC (ws ++ chars% "\n\t")

/-! ## What goroutines do -/

variable {E : Type}

/-- The values passed. -/
def endpoints : GV E := .obj (chars% "Endpoints") []

def started (kind addr : Str) : Act E := .log [.str (chars% "transport"), .str kind, .str (chars% "addr"), .str addr]

/-- The debug server's table of handlers, and an entry of it. -/
def mux : GV E := .obj (chars% "http.NewServeMux") []

def handles (path f : Str) : Act E := .does (chars% "Handle") [mux, .str path, .obj (chars% "http.HandlerFunc") [.func (chars% "pprof." ++ f)]]

/-- The gRPC server and what is registered with it. -/
def grpcServer : GV E := .obj (chars% "grpc.NewServer") []

def listener (addr : Str) : GV E := .obj (chars% "net.Listen") [.str (chars% "tcp"), .str addr]

def connection (addr : Str) : GV E := .obj (chars% "nats.Connect") [.str addr]

/-- How a goroutine ends. -/
inductive End (E : Type) where
  /-- it comes to the channel with this value -/
  | sends (e : Option E)
  | finishes

/-- Everything that the goroutines of `Run` may do, from beginning to end, `silent` steps left out. -/
inductive Complete (service : Str) (c : Config) : Proc → List (Act E) → End E → Prop where
  /-- a signal -/
  | interrupted {e : E} : Complete service c .interrupt
      [.does (chars% "signal.Notify") [.chan (chars% "c"), .func (chars% "syscall.SIGINT"), .func (chars% "syscall.SIGTERM")], .receives e]
      (.sends (some e))
  /-- the debug server returned -/
  | debug {e : Option E} : Complete service c .debug
      [started (chars% "debug") c.debugAddr, handles (chars% "/debug/pprof/") (chars% "Index"), handles (chars% "/debug/pprof/cmdline") (chars% "Cmdline"),
        handles (chars% "/debug/pprof/profile") (chars% "Profile"), handles (chars% "/debug/pprof/symbol") (chars% "Symbol"),
        handles (chars% "/debug/pprof/trace") (chars% "Trace"), .calls (chars% "http.ListenAndServe") [.str c.debugAddr, mux], .returns e]
      (.sends e)
  /-- the HTTP server returned -/
  | http {e : Option E} : Complete service c .http
      [started (chars% "HTTP") c.httpAddr,
        .calls (chars% "http.ListenAndServe") [.str c.httpAddr, .obj (chars% "pb.MakeHTTPHandler") [endpoints, .obj (chars% "HTTPServerOptions") []]], .returns e]
      (.sends e)
  /-- the address of the gRPC server could not be listened at -/
  | noListener {e : E} : Complete service c .grpc
      [started (chars% "gRPC") c.grpcAddr, .calls (chars% "net.Listen") [.str (chars% "tcp"), .str c.grpcAddr], .returns (some e)] (.sends (some e))
  /-- the gRPC server returned -/
  | grpc {e : Option E} : Complete service c .grpc
      [started (chars% "gRPC") c.grpcAddr, .calls (chars% "net.Listen") [.str (chars% "tcp"), .str c.grpcAddr], .returns none,
        .does (chars% "pb.Register" ++ (service ++ chars% "Server")) [grpcServer, .obj (chars% "pb.MakeGRPCServer") [endpoints, .obj (chars% "GRPCServerOptions") []]],
        .calls (chars% "Serve") [grpcServer, listener c.grpcAddr], .returns e]
      (.sends e)
  /-- no connection to NATS -/
  | noConnection {e : E} : Complete service c .nats
      [started (chars% "NATS") c.natsAddr, .calls (chars% "nats.Connect") [.str c.natsAddr], .returns (some e)] (.sends (some e))
  /-- a subscription failed -/
  | notSubscribed {e : E} : Complete service c .nats
      [started (chars% "NATS") c.natsAddr, .calls (chars% "nats.Connect") [.str c.natsAddr], .returns none,
        .does (chars% "runtime.SetFinalizer") [connection c.natsAddr, .func (chars% "closeConn")],
        .calls (chars% "pb.ServeNATS") [connection c.natsAddr, .obj (chars% "pb.MakeNATSServer") [endpoints, .obj (chars% "NATSSubscriberOptions") []]],
        .returns (some e)] (.sends (some e))
  /-- subscribed -/
  | subscribed : Complete service c .nats
      [started (chars% "NATS") c.natsAddr, .calls (chars% "nats.Connect") [.str c.natsAddr], .returns none,
        .does (chars% "runtime.SetFinalizer") [connection c.natsAddr, .func (chars% "closeConn")],
        .calls (chars% "pb.ServeNATS") [connection c.natsAddr, .obj (chars% "pb.MakeNATSServer") [endpoints, .obj (chars% "NATSSubscriberOptions") []]],
        .returns none] .finishes

/-- What goroutine `i` has done, `silent` steps left out. -/
def deeds (i : Nat) (l : List (Event E)) : List (Act E) :=
  l.filterMap fun
    | .acts (some j) a => if j = i then (match a with | .silent => none | a => some a) else none
    | _ => none

/-- The goroutines that have come to the channel, with what they send, oldest first. -/
def sent (l : List (Event E)) : List (Nat × Option E) :=
  l.filterMap fun
    | .sends i e => some (i, e)
    | _ => none

/-- How many goroutines have been started. -/
def starts (l : List (Event E)) : Nat := (l.filter fun | .starts => true | _ => false).length

end Baron.GoServer
