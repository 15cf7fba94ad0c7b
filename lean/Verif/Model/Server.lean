import Verif.Go.Str

/-!
# Model of the generated server command: its configuration and `Run`

`template/NAME-service/cmd/NAME/main.go.tmpl` (TC below), `template/NAME-service/server/server.go.tmpl` (TS) and
`template/NAME-service/server/interrupt.go.tmpl` (TI).
-/

namespace Baron.Server

/-- TS:32-38 `Config`. -/
structure Config where
  httpAddr : Str
  debugAddr : Str
  grpcAddr : Str
  natsAddr : Str
  debug : Bool
  deriving Repr, DecidableEq

/-- TC:15-19: the defaults the flags are registered with. -/
def defaults : Config := ⟨[], ":5060".toList, [], [], false⟩

/-- TC:22-39: the environment, an unset variable being the empty string (`os.Getenv`). -/
def fromEnv (env : Str → Str) (c : Config) : Config :=
  let c := if env "DEBUG".toList ≠ [] then { c with debug := decide ("true".toList = toLower (env "DEBUG".toList)) } else c
  let c := if env "DEBUG_ADDR".toList ≠ [] then { c with debugAddr := env "DEBUG_ADDR".toList } else c
  let c := if env "PORT".toList ≠ [] then { c with httpAddr := ':' :: env "PORT".toList } else c
  let c := if env "HTTP_ADDR".toList ≠ [] then { c with httpAddr := env "HTTP_ADDR".toList } else c
  let c := if env "GRPC_ADDR".toList ≠ [] then { c with grpcAddr := env "GRPC_ADDR".toList } else c
  if env "NATS_ADDR".toList ≠ [] then { c with natsAddr := env "NATS_ADDR".toList } else c

/-- One flag on the command line, already split by the flag package into its name and value. -/
inductive Flag where
  | httpAddr (v : Str)
  | debugAddr (v : Str)
  | grpcAddr (v : Str)
  | natsAddr (v : Str)
  | debug (v : Bool)
  deriving Repr, DecidableEq

/-- `flag.Parse` writes each flag's variable as it meets it. -/
def setFlag (c : Config) : Flag → Config
  | .httpAddr v => { c with httpAddr := v }
  | .debugAddr v => { c with debugAddr := v }
  | .grpcAddr v => { c with grpcAddr := v }
  | .natsAddr v => { c with natsAddr := v }
  | .debug v => { c with debug := v }

/-- TC:14-44: `init`, then `flag.Parse`. -/
def configure (env : Str → Str) (flags : List Flag) : Config :=
  flags.foldl setFlag (fromEnv env defaults)

/-! ## Run -/

/-- The goroutines `Run` starts. -/
inductive Proc where
  | interrupt
  | debug
  | http
  | grpc
  | nats
  deriving Repr, DecidableEq

/-- What the service was generated with: TS:67, 77, 96. -/
structure Gen where
  hasHTTP : Bool
  grpc : Bool
  nats : Bool

/-- TS:43-119: the goroutines in the order `Run` starts them. -/
def program (g : Gen) (c : Config) : List Proc :=
  [.interrupt] ++ (if c.debug then [.debug] else []) ++ (if g.hasHTTP ∧ c.httpAddr ≠ [] then [.http] else []) ++
    (if g.grpc ∧ c.grpcAddr ≠ [] then [.grpc] else []) ++ (if g.nats ∧ c.natsAddr ≠ [] then [.nats] else [])

/-- A state of the process. `queue` holds the senders blocked on the unbuffered channel `errc`, in the order they arrived
(Go's channels are first in, first out); `returned` is set once `Run` has returned, which ends the process. -/
structure State (E : Type) where
  todo : List Proc
  running : List Proc
  queue : List (Proc × E)
  returned : Option (Proc × E)

/-- The state in which `Run` is entered. -/
def start {E : Type} (g : Gen) (c : Config) : State E := ⟨program g c, [], [], none⟩

/-- What can happen next. -/
inductive Event (E : Type) where
  /-- `Run` executes its next `go` statement -/
  | launch (p : Proc)
  /-- TI:13-18 a signal arrived, or (TS:64, 73, 84, 92, 103, 114) a listener or connection failed; the goroutine sends -/
  | fails (p : Proc) (e : E)
  /-- TS:98-118 the NATS goroutine has subscribed and ends without sending -/
  | subscribed
  /-- TS:122 `Run` receives and returns -/
  | receives
  deriving Repr, DecidableEq

/-- One step of some goroutine. -/
inductive Step {E : Type} : State E → Event E → State E → Prop where
  | launch {p : Proc} {ps run : List Proc} {q : List (Proc × E)} :
    Step ⟨p :: ps, run, q, none⟩ (.launch p) ⟨ps, run ++ [p], q, none⟩
  | fails {p : Proc} {todo run : List Proc} {q : List (Proc × E)} {e : E} : p ∈ run →
    Step ⟨todo, run, q, none⟩ (.fails p e) ⟨todo, run.erase p, q ++ [(p, e)], none⟩
  | subscribed {todo run : List Proc} {q : List (Proc × E)} : Proc.nats ∈ run →
    Step ⟨todo, run, q, none⟩ .subscribed ⟨todo, run.erase .nats, q, none⟩
  | receives {run : List Proc} {x : Proc × E} {q : List (Proc × E)} :
    Step ⟨[], run, x :: q, none⟩ .receives ⟨[], run, q, some x⟩

/-- Executions, with the events that happened, oldest first. -/
inductive Exec {E : Type} (s₀ : State E) : List (Event E) → State E → Prop where
  | nil : Exec s₀ [] s₀
  | step {l : List (Event E)} {s s' : State E} {ev : Event E} : Exec s₀ l s → Step s ev s' → Exec s₀ (l ++ [ev]) s'

end Baron.Server
