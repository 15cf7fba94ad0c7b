import Verif.Proofs.Texts

/-!
# The template of the command of the server
-/

namespace Baron.TT

/-- The template of the command of the server. -/
def commandT : Tmpl :=
  .text (chars% "package main\n\nimport (\n\t\"flag\"\n\t\"fmt\"\n\t\"os\"\n\t\"strings\"\n\n\t\"")
  (.action (.dot [chars% "ImportPath"])
  (.text (chars% "/server\"\n)\n\nvar config server.Config\n\nfunc init() {\n\tflag.StringVar(&config.DebugAddr, \"debug.addr\", \":5060\", \"Debug and metrics listen address\")\n\tflag.StringVar(&config.HTTPAddr, \"http.addr\", \"\", \"HTTP listen address\")\n\tflag.StringVar(&config.GRPCAddr, \"grpc.addr\", \"\", \"gRPC (HTTP) listen address\")\n\tflag.StringVar(&config.NATSAddr, \"nats.addr\", \"\", \"NATS listen address\")\n\tflag.BoolVar(&config.Debug, \"debug\", false, \"Debug mode\")\n\n\t// Use environment variables, if set. Flags have priority over Env vars.\n\tif debug := os.Getenv(\"DEBUG\"); debug != \"\" {\n\t\tconfig.Debug = \"true\" == strings.ToLower(debug)\n\t}\n\tif addr := os.Getenv(\"DEBUG_ADDR\"); addr != \"\" {\n\t\tconfig.DebugAddr = addr\n\t}\n\tif port := os.Getenv(\"PORT\"); port != \"\" {\n\t\tconfig.HTTPAddr = fmt.Sprintf(\":%s\", port)\n\t}\n\tif addr := os.Getenv(\"HTTP_ADDR\"); addr != \"\" {\n\t\tconfig.HTTPAddr = addr\n\t}\n\tif addr := os.Getenv(\"GRPC_ADDR\"); addr != \"\" {\n\t\tconfig.GRPCAddr = addr\n\t}\n\tif addr := os.Getenv(\"NATS_ADDR\"); addr != \"\" {\n\t\tconfig.NATSAddr = addr\n\t}\n}\n\nfunc main() {\n\t// Update addresses if they have been overwritten by flags\n\tflag.Parse()\n\n\tif config.HTTPAddr == \"\" && config.GRPCAddr == \"\" && config.NATSAddr == \"\" {\n\t\tfmt.Println(\"no server to run, serve addr must be set one of [http.addr|grpc.addr|nats.addr]\")\t\t\n\t}\n\tserver.Run(config)\n}\n")
  .nil))

theorem commandT_eq : (parse cmdServerSrc).map (fun t => t) = some commandT := by
  decide +kernel

end Baron.TT
