import Verif.Proofs.Texts

/-!
# The functions `Run` and `Interrupt` in the templates
-/

namespace Baron.TT

/-- `Run`. -/
def serverRunT : Tmpl :=
  .text (chars% "func Run(cfg Config) {\n\t// Application domain\n\tendpoints := Endpoints()\n\n\t// Port domain\n\terrc := make(chan error)\n\n\t// Server Interrupt \n\tgo Interrupt(errc)\n\n\t// Debug listener\n\tif cfg.Debug {\n\t\tgo func() {\n\t\t\tlog.Println(\"transport\", \"debug\", \"addr\", cfg.DebugAddr)\n\n\t\t\tm := http.NewServeMux()\n\t\t\tm.Handle(\"/debug/pprof/\", http.HandlerFunc(pprof.Index))\n\t\t\tm.Handle(\"/debug/pprof/cmdline\", http.HandlerFunc(pprof.Cmdline))\n\t\t\tm.Handle(\"/debug/pprof/profile\", http.HandlerFunc(pprof.Profile))\n\t\t\tm.Handle(\"/debug/pprof/symbol\", http.HandlerFunc(pprof.Symbol))\n\t\t\tm.Handle(\"/debug/pprof/trace\", http.HandlerFunc(pprof.Trace))\n\n\t\t\terrc <- http.ListenAndServe(cfg.DebugAddr, m)\n\t\t}()\n\t}\n\t")
  (.cond (.dot [chars% "HTTPHelper", chars% "Methods"])
    (.text (chars% "\n\t// HTTP transport\n\tif cfg.HTTPAddr != \"\" {\n\t\tgo func() {\n\t\t\tlog.Println(\"transport\", \"HTTP\", \"addr\", cfg.HTTPAddr)\n\t\t\th := pb.MakeHTTPHandler(endpoints, HTTPServerOptions()...)\n\t\t\terrc <- http.ListenAndServe(cfg.HTTPAddr, h)\n\t\t}()\n\t}\n\t")
    .nil)
    .nil
  (.text (chars% "\n\t")
  (.cond (.call3 (chars% "eq") (.dot [chars% "Config", chars% "Transport"]) (.str (chars% "all")) (.str (chars% "grpc")))
    (.text (chars% "\n\t// gRPC transport\n\tif cfg.GRPCAddr != \"\" {\n\t\tgo func() {\n\t\t\tlog.Println(\"transport\", \"gRPC\",\"addr\", cfg.GRPCAddr)\n\t\t\tln, err := net.Listen(\"tcp\", cfg.GRPCAddr)\n\t\t\tif err != nil {\n\t\t\t\terrc <- err\n\t\t\t\treturn\n\t\t\t}\n\n\t\t\tsrv := pb.MakeGRPCServer(endpoints, GRPCServerOptions()...)\n\t\t\ts := grpc.NewServer()\n\t\t\tpb.Register")
    (.action (.dot [chars% "Service", chars% "Name"])
    (.text (chars% "Server(s, srv)\n\n\t\t\terrc <- s.Serve(ln)\n\t\t}()\n\t}\n\t")
    .nil)))
    .nil
  (.text (chars% "\n\t")
  (.cond (.call3 (chars% "eq") (.dot [chars% "Config", chars% "Transport"]) (.str (chars% "all")) (.str (chars% "nats")))
    (.text (chars% "\n\t// NATS transport\n\tif cfg.NATSAddr != \"\" {\n\t\tgo func() {\n\t\t\tlog.Println(\"transport\", \"NATS\",\"addr\", cfg.NATSAddr)\n\t\t\tconn, err := nats.Connect(cfg.NATSAddr)\n\t\t\tif err != nil {\n\t\t\t\terrc <- err\n\t\t\t\treturn\n\t\t\t}\n\t\t\tcloseConn := func(c *nats.Conn) {\n\t\t\t\tc.Close()\n\t\t\t}\n\t\t\truntime.SetFinalizer(conn, closeConn)\n\n\t\t\tsrv := pb.MakeNATSServer(endpoints, NATSSubscriberOptions()...)\n\t\t\terr = pb.ServeNATS(conn, srv)\n\t\t\tif err != nil {\n\t\t\t\terrc <- err\n\t\t\t\treturn\n\t\t\t}\n\t\t}()\n\t}\n\t")
    .nil)
    .nil
  (.text (chars% "\n\n\t// Exit\n\tlog.Println(\"exit\", <-errc)\n}\n")
  .nil))))))

theorem serverRunT_eq : (parse serverSrc).map (fun t => t.part 12 319 6 42) = some serverRunT := by
  decide +kernel

/-- `Interrupt`. -/
def interruptT : Tmpl :=
  .text (chars% "func Interrupt(errc chan<- error) {\n\tc := make(chan os.Signal, 1)\n\tsignal.Notify(c, syscall.SIGINT, syscall.SIGTERM)\n\tterminateError := fmt.Errorf(\"%s\", <-c)\n\n\t// Place whatever shutdown handling you want here\n\n\terrc <- terminateError\n}\n")
  .nil

theorem interruptT_eq : (parse interruptSrc).map (fun t => t.part 0 95 0 1000) = some interruptT := by
  decide +kernel

end Baron.TT
