import Verif.Model.TextTemplate

/-!
# The texts of the templates

gengokit/template/NAME-service, line by line (template.go holds the same texts, compressed).
-/

namespace Baron.TT

/-- A text from its lines: the last one is what follows the last newline. -/
def unlines : List Str → Str
  | [] => []
  | [l] => l
  | l :: ls => l ++ '\n' :: unlines ls

/-- gengokit/template/NAME-service/server/wrapper.go.tmpl:1-40 -/
def wrapperSrcLines : List Str := [
  chars% "package server",
  chars% "",
  chars% "import (",
  chars% "\tgrpctransport \"github.com/go-kit/kit/transport/grpc\"",
  chars% "\thttptransport \"github.com/go-kit/kit/transport/http\"",
  chars% "\tnatstransport \"github.com/go-kit/kit/transport/nats\"",
  chars% ")",
  chars% "",
  chars% "var (",
  chars% "\t_ grpctransport.Server",
  chars% "\t_ httptransport.Server",
  chars% "\t_ natstransport.Subscriber",
  chars% ")",
  chars% "",
  chars% "// GRPCServerOptions GRPC 服务传输选项",
  chars% "func GRPCServerOptions() []grpctransport.ServerOption {",
  chars% "\t// default",
  chars% "\t// serverOptions := []grpctransport.ServerOption{",
  chars% "\t// \tgrpctransport.ServerBefore(GRPCMetadataToContext),",
  chars% "\t// }",
  chars% "\treturn nil",
  chars% "}",
  chars% "",
  chars% "// HTTPServerOptions GRPC 服务传输选项",
  chars% "func HTTPServerOptions() []httptransport.ServerOption {",
  chars% "\t// default",
  chars% "\t// serverOptions := []httptransport.ServerOption{",
  chars% "\t// \thttptransport.ServerBefore(pb.HTTPHeadersToContext),",
  chars% "\t// \thttptransport.ServerErrorEncoder(errorEncoder),",
  chars% "\t// \thttptransport.ServerAfter(httptransport.SetContentType(contentType)),",
  chars% "\t// }",
  chars% "\treturn nil",
  chars% "}",
  chars% "",
  chars% "// NATSSubscriberOptions NATS 订阅器选项",
  chars% "func NATSSubscriberOptions() []natstransport.SubscriberOption {",
  chars% "\t// default none",
  chars% "\t// options := []natstransport.SubscriberOption{}",
  chars% "\treturn nil",
  chars% "}",
  chars% ""]

/-- The text of server/wrapper.go.tmpl. -/
def wrapperSrc : Str := unlines wrapperSrcLines

/-- gengokit/template/NAME-service/server/endpoints.go.tmpl:1-15 -/
def endpointsSrcLines : List Str := [
  chars% "package server",
  chars% "",
  chars% "import (",
  chars% "\tpb \"{{.PBImportPath -}}\"",
  chars% "\t\"{{.ImportPath -}}/service\"",
  chars% ")",
  chars% "",
  chars% "// Endpoints application domain",
  chars% "func Endpoints() pb.Endpoints {",
  chars% "\tsvc := service.NewService()",
  chars% "\tendpoints := NewEndpoints(svc)",
  chars% "",
  chars% "\treturn endpoints",
  chars% "}",
  chars% "",
  chars% ""]

/-- The text of server/endpoints.go.tmpl. -/
def endpointsSrc : Str := unlines endpointsSrcLines

/-- gengokit/template/NAME-service/server/server.go.tmpl:1-120 -/
def serverSrcLines0 : List Str := [
  chars% "// Code generated by baron. DO NOT EDIT.",
  chars% "// Rerunning baron will overwrite this file.",
  chars% "// Version: {{.Version}}",
  chars% "// Version Date: {{.VersionDate}}",
  chars% "",
  chars% "package server",
  chars% "",
  chars% "import (",
  chars% "\t\"log\"",
  chars% "\t\"net\"",
  chars% "\t\"net/http\"",
  chars% "\t\"net/http/pprof\"",
  chars% "\t\"runtime\"",
  chars% "",
  chars% "\t{{if eq .Config.Transport \"all\" \"nats\" }}",
  chars% "\t\"github.com/nats-io/nats.go\"",
  chars% "\t{{end}}",
  chars% "\t{{if eq .Config.Transport \"all\" \"grpc\" }}",
  chars% "\t\"google.golang.org/grpc\"",
  chars% "\t{{end}}",
  chars% "",
  chars% "\tpb \"{{.PBImportPath -}}\"",
  chars% "\t\"{{.ImportPath -}}/service\"",
  chars% ")",
  chars% "",
  chars% "var (",
  chars% "\t_ runtime.Error",
  chars% "\t_ net.Error",
  chars% ")",
  chars% "",
  chars% "// Config contains the required fields for running a server",
  chars% "type Config struct {",
  chars% "\tHTTPAddr string",
  chars% "\tDebugAddr string",
  chars% "\tGRPCAddr string",
  chars% "\tNATSAddr string",
  chars% "\tDebug bool",
  chars% "}",
  chars% "",
  chars% "// Run starts a new http server, gRPC server, and a debug server with the",
  chars% "// passed config and logger",
  chars% "func Run(cfg Config) {",
  chars% "\t// Application domain",
  chars% "\tendpoints := Endpoints()",
  chars% "",
  chars% "\t// Port domain",
  chars% "\terrc := make(chan error)",
  chars% "",
  chars% "\t// Server Interrupt ",
  chars% "\tgo Interrupt(errc)",
  chars% "",
  chars% "\t// Debug listener",
  chars% "\tif cfg.Debug {",
  chars% "\t\tgo func() {",
  chars% "\t\t\tlog.Println(\"transport\", \"debug\", \"addr\", cfg.DebugAddr)",
  chars% "",
  chars% "\t\t\tm := http.NewServeMux()",
  chars% "\t\t\tm.Handle(\"/debug/pprof/\", http.HandlerFunc(pprof.Index))",
  chars% "\t\t\tm.Handle(\"/debug/pprof/cmdline\", http.HandlerFunc(pprof.Cmdline))",
  chars% "\t\t\tm.Handle(\"/debug/pprof/profile\", http.HandlerFunc(pprof.Profile))",
  chars% "\t\t\tm.Handle(\"/debug/pprof/symbol\", http.HandlerFunc(pprof.Symbol))",
  chars% "\t\t\tm.Handle(\"/debug/pprof/trace\", http.HandlerFunc(pprof.Trace))",
  chars% "",
  chars% "\t\t\terrc <- http.ListenAndServe(cfg.DebugAddr, m)",
  chars% "\t\t}()",
  chars% "\t}",
  chars% "\t{{if .HTTPHelper.Methods}}",
  chars% "\t// HTTP transport",
  chars% "\tif cfg.HTTPAddr != \"\" {",
  chars% "\t\tgo func() {",
  chars% "\t\t\tlog.Println(\"transport\", \"HTTP\", \"addr\", cfg.HTTPAddr)",
  chars% "\t\t\th := pb.MakeHTTPHandler(endpoints, HTTPServerOptions()...)",
  chars% "\t\t\terrc <- http.ListenAndServe(cfg.HTTPAddr, h)",
  chars% "\t\t}()",
  chars% "\t}",
  chars% "\t{{end}}",
  chars% "\t{{if eq .Config.Transport \"all\" \"grpc\" }}",
  chars% "\t// gRPC transport",
  chars% "\tif cfg.GRPCAddr != \"\" {",
  chars% "\t\tgo func() {",
  chars% "\t\t\tlog.Println(\"transport\", \"gRPC\",\"addr\", cfg.GRPCAddr)",
  chars% "\t\t\tln, err := net.Listen(\"tcp\", cfg.GRPCAddr)",
  chars% "\t\t\tif err != nil {",
  chars% "\t\t\t\terrc <- err",
  chars% "\t\t\t\treturn",
  chars% "\t\t\t}",
  chars% "",
  chars% "\t\t\tsrv := pb.MakeGRPCServer(endpoints, GRPCServerOptions()...)",
  chars% "\t\t\ts := grpc.NewServer()",
  chars% "\t\t\tpb.Register{{.Service.Name}}Server(s, srv)",
  chars% "",
  chars% "\t\t\terrc <- s.Serve(ln)",
  chars% "\t\t}()",
  chars% "\t}",
  chars% "\t{{end}}",
  chars% "\t{{if eq .Config.Transport \"all\" \"nats\" }}",
  chars% "\t// NATS transport",
  chars% "\tif cfg.NATSAddr != \"\" {",
  chars% "\t\tgo func() {",
  chars% "\t\t\tlog.Println(\"transport\", \"NATS\",\"addr\", cfg.NATSAddr)",
  chars% "\t\t\tconn, err := nats.Connect(cfg.NATSAddr)",
  chars% "\t\t\tif err != nil {",
  chars% "\t\t\t\terrc <- err",
  chars% "\t\t\t\treturn",
  chars% "\t\t\t}",
  chars% "\t\t\tcloseConn := func(c *nats.Conn) {",
  chars% "\t\t\t\tc.Close()",
  chars% "\t\t\t}",
  chars% "\t\t\truntime.SetFinalizer(conn, closeConn)",
  chars% "",
  chars% "\t\t\tsrv := pb.MakeNATSServer(endpoints, NATSSubscriberOptions()...)",
  chars% "\t\t\terr = pb.ServeNATS(conn, srv)",
  chars% "\t\t\tif err != nil {",
  chars% "\t\t\t\terrc <- err",
  chars% "\t\t\t\treturn",
  chars% "\t\t\t}",
  chars% "\t\t}()",
  chars% "\t}",
  chars% "\t{{end}}",
  chars% ""]

/-- gengokit/template/NAME-service/server/server.go.tmpl:121-145 -/
def serverSrcLines1 : List Str := [
  chars% "\t// Exit",
  chars% "\tlog.Println(\"exit\", <-errc)",
  chars% "}",
  chars% "",
  chars% "func NewEndpoints(svc pb.{{.Service.Name}}Server) pb.Endpoints {",
  chars% "\t// Business domain",
  chars% "\tsvc = service.WrapService(svc)",
  chars% "\t// Endpoint domain",
  chars% "\tvar (",
  chars% "\t{{range $i := .Service.Methods -}}",
  chars% "\t\t{{ToLower $i.Name}}Endpoint = pb.Make{{$i.Name}}Endpoint(svc)",
  chars% "\t{{end}}",
  chars% "\t)",
  chars% "",
  chars% "\tendpoints := pb.Endpoints{",
  chars% "\t{{range $i := .Service.Methods -}}",
  chars% "\t\t{{$i.Name}}Endpoint:    {{ToLower $i.Name}}Endpoint,",
  chars% "\t{{end}}",
  chars% "\t}",
  chars% "\t// Wrap selected Endpoints with middlewares",
  chars% "\tendpoints = service.WrapEndpoints(endpoints)",
  chars% "",
  chars% "\treturn endpoints",
  chars% "}",
  chars% ""]

/-- The lines of server/server.go.tmpl. -/
def serverSrcLines : List Str := serverSrcLines0 ++ serverSrcLines1

/-- The text of server/server.go.tmpl. -/
def serverSrc : Str := unlines serverSrcLines

/-- gengokit/template/NAME-service/server/interrupt.go.tmpl:1-19 -/
def interruptSrcLines : List Str := [
  chars% "package server",
  chars% "",
  chars% "import (",
  chars% "\t\"fmt\"",
  chars% "\t\"os\"",
  chars% "\t\"os/signal\"",
  chars% "\t\"syscall\"",
  chars% ")",
  chars% "",
  chars% "// Interrupt server interrupt",
  chars% "func Interrupt(errc chan<- error) {",
  chars% "\tc := make(chan os.Signal, 1)",
  chars% "\tsignal.Notify(c, syscall.SIGINT, syscall.SIGTERM)",
  chars% "\tterminateError := fmt.Errorf(\"%s\", <-c)",
  chars% "",
  chars% "\t// Place whatever shutdown handling you want here",
  chars% "",
  chars% "\terrc <- terminateError",
  chars% "}",
  chars% ""]

/-- The text of server/interrupt.go.tmpl. -/
def interruptSrc : Str := unlines interruptSrcLines

/-- gengokit/template/NAME-service/baron/NAME.pb.baron.go.tmpl:1-120 -/
def baronSrcLines0 : List Str := [
  chars% "// Code generated by baron. DO NOT EDIT.",
  chars% "// Rerunning baron will overwrite this file.",
  chars% "// Version: {{.Version}}",
  chars% "// Version Date: {{.VersionDate}}",
  chars% "",
  chars% "package {{.PackageName}}",
  chars% "",
  chars% "// This file contains methods to make individual endpoints from services,",
  chars% "// request and response types to serve those endpoints, as well as encoders and",
  chars% "// decoders for those types, for all of our supported transport serialization",
  chars% "// formats.",
  chars% "",
  chars% "import (",
  chars% "\t\"bytes\"",
  chars% "\t\"context\"",
  chars% "\t\"encoding/json\"",
  chars% "\t\"fmt\"",
  chars% "\t\"io\"",
  chars% "\t\"io/ioutil\"",
  chars% "\t\"net/http\"",
  chars% "\t\"net/url\"",
  chars% "\t\"strconv\"",
  chars% "\t\"strings\"",
  chars% "",
  chars% "\t\"github.com/go-kit/kit/endpoint\"",
  chars% "\tanypb \"google.golang.org/protobuf/types/known/anypb\"",
  chars% "\tdurationpb \"google.golang.org/protobuf/types/known/durationpb\"",
  chars% "\temptypb \"google.golang.org/protobuf/types/known/emptypb\"",
  chars% "\tfieldmaskpb \"google.golang.org/protobuf/types/known/fieldmaskpb\"",
  chars% "\tstructpb \"google.golang.org/protobuf/types/known/structpb\"",
  chars% "\ttimestamppb \"google.golang.org/protobuf/types/known/timestamppb\"",
  chars% "\twrapperspb \"google.golang.org/protobuf/types/known/wrapperspb\"",
  chars% "",
  chars% "\t\"github.com/gorilla/mux\"",
  chars% "\t\"github.com/pkg/errors\"",
  chars% "\t\"google.golang.org/protobuf/encoding/protojson\"",
  chars% "\t\"google.golang.org/protobuf/proto\"",
  chars% "",
  chars% "\t{{- if eq .Config.Transport \"all\" \"nats\" }}",
  chars% "\t\"github.com/nats-io/nats.go\"",
  chars% "\t{{- end}}",
  chars% "\t{{- if eq .Config.Transport \"all\" \"grpc\" }}",
  chars% "\t\"google.golang.org/grpc\"",
  chars% "\t\"google.golang.org/grpc/metadata\"",
  chars% "\t{{- end}}",
  chars% "\t{{if eq .Config.Transport \"all\" \"grpc\" }}",
  chars% "\tgrpctransport \"github.com/go-kit/kit/transport/grpc\"",
  chars% "\t{{- end}}",
  chars% "\thttptransport \"github.com/go-kit/kit/transport/http\"",
  chars% "\t{{- if eq .Config.Transport \"all\" \"nats\" }}",
  chars% "\tnatstransport \"github.com/go-kit/kit/transport/nats\"",
  chars% "\t{{- end}}",
  chars% ")",
  chars% "",
  chars% "",
  chars% "var (",
  chars% "\t_ = fmt.Sprint",
  chars% "\t_ = bytes.Compare",
  chars% "\t_ = strconv.Atoi",
  chars% "\t_ = httptransport.NewServer",
  chars% "\t_ = ioutil.NopCloser",
  chars% "\t_ = io.Copy",
  chars% "\t_ = errors.Wrap",
  chars% "\t// google.protobuf types",
  chars% "\t_ anypb.Any",
  chars% "\t_ durationpb.Duration",
  chars% "\t_ emptypb.Empty",
  chars% "\t_ structpb.Struct",
  chars% "\t_ timestamppb.Timestamp",
  chars% "\t_ wrapperspb.StringValue",
  chars% "\t_ fieldmaskpb.FieldMask",
  chars% ")",
  chars% "",
  chars% "/************************************** Endpoints ******************************************/",
  chars% "",
  chars% "// In a server, it's useful for functions that need to operate on a per-endpoint",
  chars% "// basis. For example, you might pass an Endpoints to a function that produces",
  chars% "// an http.Handler, with each method (endpoint) wired up to a specific path. (It",
  chars% "// is probably a mistake in design to invoke the Service methods on the",
  chars% "// Endpoints struct in a server.)",
  chars% "//",
  chars% "// In a client, it's useful to collect individually constructed endpoints into a",
  chars% "// single type that implements the Service interface. For example, you might",
  chars% "// construct individual endpoints using transport/http.NewClient, combine them into an Endpoints, and return it to the caller as a Service.",
  chars% "type Endpoints struct {",
  chars% "\tUnimplemented{{.Service.Name}}Server",
  chars% "{{range $i := .Service.Methods}}",
  chars% "\t{{$i.Name}}Endpoint    endpoint.Endpoint",
  chars% "{{end}}",
  chars% "}",
  chars% "",
  chars% "// Endpoints",
  chars% "{{range $i := .Service.Methods}}",
  chars% "func (e Endpoints) {{$i.Name}}(ctx context.Context, in *{{GoName $i.RequestType.Name}}) (*{{GoName $i.ResponseType.Name}}, error) {",
  chars% "\tresponse, err := e.{{$i.Name}}Endpoint(ctx, in)",
  chars% "\tif err != nil {",
  chars% "\t\treturn nil, err",
  chars% "\t}",
  chars% "\treturn response.(*{{GoName $i.ResponseType.Name}}), nil",
  chars% "}",
  chars% "{{end}}",
  chars% "",
  chars% "// Make Endpoints",
  chars% "{{with $te := .}}",
  chars% "{{- range $i := $te.Service.Methods}}",
  chars% "func Make{{$i.Name}}Endpoint(s {{$te.Service.Name}}Server) endpoint.Endpoint {",
  chars% "\treturn func(ctx context.Context, request interface{}) (response interface{}, err error) {",
  chars% "\t\treq := request.(*{{GoName $i.RequestType.Name}})",
  chars% "\t\tv, err := s.{{$i.Name}}(ctx, req)",
  chars% "\t\tif err != nil {",
  chars% "\t\t\treturn nil, err",
  chars% "\t\t}",
  chars% "\t\treturn v, nil",
  chars% "\t}",
  chars% "}",
  chars% "{{- end}}",
  chars% "{{end}}",
  chars% "",
  chars% "// WrapAllExcept wraps each Endpoint field of struct Endpoints with a",
  chars% "// go-kit/kit/endpoint.Middleware."]

/-- gengokit/template/NAME-service/baron/NAME.pb.baron.go.tmpl:121-240 -/
def baronSrcLines1 : List Str := [
  chars% "// Use this for applying a set of middlewares to every endpoint in the service.",
  chars% "// Optionally, endpoints can be passed in by name to be excluded from being wrapped.",
  chars% "// WrapAllExcept(middleware, \"Status\", \"Ping\")",
  chars% "func (e *Endpoints) WrapAllExcept(middleware endpoint.Middleware, excluded ...string) {",
  chars% "\tincluded := map[string]struct{}{",
  chars% "\t\t{{- range $i := .Service.Methods}}",
  chars% "\t\t\t\"{{$i.Name}}\": {},",
  chars% "\t\t{{- end}}",
  chars% "\t}",
  chars% "",
  chars% "\tfor _, ex := range excluded {",
  chars% "\t\tif _, ok := included[ex]; !ok {",
  chars% "\t\t\tpanic(fmt.Sprintf(\"Excluded endpoint '%s' does not exist; see middlewares/endpoints.go\", ex))",
  chars% "\t\t}",
  chars% "\t\tdelete(included, ex)",
  chars% "\t}",
  chars% "",
  chars% "\tfor inc := range included {",
  chars% "\t\t{{- range $i := .Service.Methods}}",
  chars% "\t\t\tif inc == \"{{$i.Name}}\" {",
  chars% "\t\t\t\te.{{$i.Name}}Endpoint = middleware(e.{{$i.Name}}Endpoint)",
  chars% "\t\t\t}",
  chars% "\t\t{{- end}}",
  chars% "\t}",
  chars% "}",
  chars% "",
  chars% "// LabeledMiddleware will get passed the endpoint name when passed to",
  chars% "// WrapAllLabeledExcept, this can be used to write a generic metrics",
  chars% "// middleware which can send the endpoint name to the metrics collector.",
  chars% "type LabeledMiddleware func(string, endpoint.Endpoint) endpoint.Endpoint",
  chars% "",
  chars% "// WrapAllLabeledExcept wraps each Endpoint field of struct Endpoints with a",
  chars% "// LabeledMiddleware, which will receive the name of the endpoint. See",
  chars% "// LabeldMiddleware. See method WrapAllExept for details on excluded",
  chars% "// functionality.",
  chars% "func (e *Endpoints) WrapAllLabeledExcept(middleware func(string, endpoint.Endpoint) endpoint.Endpoint, excluded ...string) {",
  chars% "\tincluded := map[string]struct{}{",
  chars% "\t\t{{- range $i := .Service.Methods}}",
  chars% "\t\t\t\"{{$i.Name}}\": {},",
  chars% "\t\t{{- end}}",
  chars% "\t}",
  chars% "",
  chars% "\tfor _, ex := range excluded {",
  chars% "\t\tif _, ok := included[ex]; !ok {",
  chars% "\t\t\tpanic(fmt.Sprintf(\"Excluded endpoint '%s' does not exist; see middlewares/endpoints.go\", ex))",
  chars% "\t\t}",
  chars% "\t\tdelete(included, ex)",
  chars% "\t}",
  chars% "",
  chars% "\tfor inc := range included {",
  chars% "\t\t{{- range $i := .Service.Methods}}",
  chars% "\t\t\tif inc == \"{{$i.Name}}\" {",
  chars% "\t\t\t\te.{{$i.Name}}Endpoint = middleware(\"{{$i.Name}}\", e.{{$i.Name}}Endpoint)",
  chars% "\t\t\t}",
  chars% "\t\t{{- end}}",
  chars% "\t}",
  chars% "}",
  chars% "{{if eq .Config.Transport \"all\" \"grpc\" }}",
  chars% "/************************************** GRPCServer ******************************************/",
  chars% "",
  chars% "// MakeGRPCServer makes a set of endpoints available as a gRPC {{.Service.Name}}Server.",
  chars% "func MakeGRPCServer(endpoints Endpoints, options ...grpctransport.ServerOption) {{.Service.Name}}Server {",
  chars% "\tserverOptions := []grpctransport.ServerOption{",
  chars% "\t\tgrpctransport.ServerBefore(GRPCMetadataToContext),",
  chars% "\t}",
  chars% "\tserverOptions = append(serverOptions, options...)",
  chars% "\t// {{ ToLower .Service.Name }}",
  chars% "\treturn &grpcServer{",
  chars% "\t{{range $i := .Service.Methods}}",
  chars% "\t\t{{ToLower $i.Name}}: grpctransport.NewServer(",
  chars% "\t\t\tendpoints.{{$i.Name}}Endpoint,",
  chars% "\t\t\tDecodeGRPC{{$i.Name}}Request,",
  chars% "\t\t\tEncodeGRPC{{$i.Name}}Response,",
  chars% "\t\t\tserverOptions...,",
  chars% "\t\t),",
  chars% "\t{{- end}}",
  chars% "\t}",
  chars% "}",
  chars% "",
  chars% "// grpcServer implements the {{GoName .Service.Name}}Server interface",
  chars% "type grpcServer struct {",
  chars% "\tUnimplemented{{.Service.Name}}Server",
  chars% "{{range $i := .Service.Methods}}",
  chars% "\t{{ToLower $i.Name}}   grpctransport.Handler",
  chars% "{{- end}}",
  chars% "}",
  chars% "",
  chars% "// Methods for grpcServer to implement {{GoName .Service.Name}}Server interface",
  chars% "{{range $i := .Service.Methods}}",
  chars% "func (s *grpcServer) {{GoName $i.Name}}(ctx context.Context, req *{{GoName $i.RequestType.Name}}) (*{{GoName $i.ResponseType.Name}}, error) {",
  chars% "\t_, rep, err := s.{{ToLower $i.Name}}.ServeGRPC(ctx, req)",
  chars% "\tif err != nil {",
  chars% "\t\treturn nil, err",
  chars% "\t}",
  chars% "\treturn rep.(*{{GoName $i.ResponseType.Name}}), nil",
  chars% "}",
  chars% "{{end}}",
  chars% "",
  chars% "// Server Decode",
  chars% "{{range $i := .Service.Methods}}",
  chars% "// DecodeGRPC{{$i.Name}}Request is a transport/grpc.DecodeRequestFunc that converts a",
  chars% "// gRPC {{ToLower $i.Name}} request to a user-domain {{ToLower $i.Name}} request. Primarily useful in a server.",
  chars% "func DecodeGRPC{{$i.Name}}Request(_ context.Context, grpcReq interface{}) (interface{}, error) {",
  chars% "\treq := grpcReq.(*{{GoName $i.RequestType.Name}})",
  chars% "\treturn req, nil",
  chars% "}",
  chars% "{{end}}",
  chars% "",
  chars% "// Server Encode",
  chars% "{{range $i := .Service.Methods}}",
  chars% "// EncodeGRPC{{$i.Name}}Response is a transport/grpc.EncodeResponseFunc that converts a",
  chars% "// user-domain {{ToLower $i.Name}} response to a gRPC {{ToLower $i.Name}} reply. Primarily useful in a server.",
  chars% "func EncodeGRPC{{$i.Name}}Response(_ context.Context, response interface{}) (interface{}, error) {",
  chars% "\tresp := response.(*{{GoName $i.ResponseType.Name}})",
  chars% "\treturn resp, nil",
  chars% "}",
  chars% "{{end}}",
  chars% "",
  chars% "// Helpers",
  chars% ""]

/-- gengokit/template/NAME-service/baron/NAME.pb.baron.go.tmpl:241-360 -/
def baronSrcLines2 : List Str := [
  chars% "func GRPCMetadataToContext(ctx context.Context, md metadata.MD) context.Context {",
  chars% "\tfor k, v := range md {",
  chars% "\t\tif v != nil {",
  chars% "\t\t\t// The key is added both in metadata format (k) which is all lower",
  chars% "\t\t\t// and the http.CanonicalHeaderKey of the key so that it can be",
  chars% "\t\t\t// accessed in either format",
  chars% "\t\t\tctx = context.WithValue(ctx, k, v[0])",
  chars% "\t\t\tctx = context.WithValue(ctx, http.CanonicalHeaderKey(k), v[0])",
  chars% "\t\t}",
  chars% "\t}",
  chars% "",
  chars% "\treturn ctx",
  chars% "}",
  chars% "",
  chars% "/************************************** GRPCClient ******************************************/",
  chars% "",
  chars% "// NewGRPCClient returns an service backed by a gRPC client connection. It is the",
  chars% "// responsibility of the caller to dial, and later close, the connection.",
  chars% "func NewGRPCClient(conn *grpc.ClientConn, options ...grpctransport.ClientOption) ({{.Service.Name}}Server, error) {",
  chars% "\t{{- with $te := .}}",
  chars% "\t\t{{- with $pkgName := $te.PackageName}}",
  chars% "\t\t\t{{- range $i := $te.Service.Methods}}",
  chars% "\tvar {{ToLower $i.Name}}Endpoint endpoint.Endpoint",
  chars% "\t{",
  chars% "\t\t{{ToLower $i.Name}}Endpoint = grpctransport.NewClient(",
  chars% "\t\t\tconn,",
  chars% "\t\t\t\"{{$pkgName}}.{{$te.Service.Name}}\",",
  chars% "\t\t\t\"{{$i.Name}}\",",
  chars% "\t\t\tEncodeGRPC{{$i.Name}}Request,",
  chars% "\t\t\tDecodeGRPC{{$i.Name}}Response,",
  chars% "\t\t\t{{GoName $i.ResponseType.Name}}{},",
  chars% "\t\t\toptions...,",
  chars% "\t\t).Endpoint()",
  chars% "\t}",
  chars% "\t\t\t{{end}}",
  chars% "\t\t{{end}}",
  chars% "\t{{end}}",
  chars% "",
  chars% "\treturn Endpoints{",
  chars% "\t{{range $i := .Service.Methods -}}",
  chars% "\t\t{{$i.Name}}Endpoint:    {{ToLower $i.Name}}Endpoint,",
  chars% "\t{{end}}",
  chars% "\t}, nil",
  chars% "}",
  chars% "",
  chars% "// GRPC Client Decode",
  chars% "{{range $i := .Service.Methods}}",
  chars% "// DecodeGRPC{{$i.Name}}Response is a transport/grpc.DecodeResponseFunc that converts a",
  chars% "// gRPC {{ToLower $i.Name}} reply to a user-domain {{ToLower $i.Name}} response. Primarily useful in a client.",
  chars% "func DecodeGRPC{{$i.Name}}Response(_ context.Context, grpcReply interface{}) (interface{}, error) {",
  chars% "\treply := grpcReply.(*{{GoName $i.ResponseType.Name}})",
  chars% "\treturn reply, nil",
  chars% "}",
  chars% "{{end}}",
  chars% "",
  chars% "// GRPC Client Encode",
  chars% "{{range $i := .Service.Methods}}",
  chars% "// EncodeGRPC{{$i.Name}}Request is a transport/grpc.EncodeRequestFunc that converts a",
  chars% "// user-domain {{ToLower $i.Name}} request to a gRPC {{ToLower $i.Name}} request. Primarily useful in a client.",
  chars% "func EncodeGRPC{{$i.Name}}Request(_ context.Context, request interface{}) (interface{}, error) {",
  chars% "\treq := request.(*{{GoName $i.RequestType.Name}})",
  chars% "\treturn req, nil",
  chars% "}",
  chars% "{{end}}",
  chars% "",
  chars% "// ContextValuesToGRPCMetadata is a grpctransport.ClientRequestFunc",
  chars% "func ContextValuesToGRPCMetadata(keys []string) grpctransport.ClientRequestFunc {",
  chars% "\treturn func(ctx context.Context, md *metadata.MD) context.Context {",
  chars% "\t\tvar pairs []string",
  chars% "\t\tfor _, k := range keys {",
  chars% "\t\t\tif v, ok := ctx.Value(k).(string); ok {",
  chars% "\t\t\t\tpairs = append(pairs, k, v)",
  chars% "\t\t\t}",
  chars% "\t\t}",
  chars% "",
  chars% "\t\tif pairs != nil {",
  chars% "\t\t\t*md = metadata.Join(*md, metadata.Pairs(pairs...))",
  chars% "\t\t}",
  chars% "",
  chars% "\t\treturn ctx",
  chars% "\t}",
  chars% "}",
  chars% "{{end}}",
  chars% "/************************************** HTTPServer ******************************************/",
  chars% "",
  chars% "const contentType = \"application/json; charset=utf-8\"",
  chars% "",
  chars% "// MakeHTTPHandler returns a handler that makes a set of endpoints available",
  chars% "// on predefined paths.",
  chars% "func MakeHTTPHandler(endpoints Endpoints, options ...httptransport.ServerOption) http.Handler {",
  chars% "\t{{- if .HTTPHelper.Methods}}",
  chars% "\t\tserverOptions := []httptransport.ServerOption{",
  chars% "\t\t\thttptransport.ServerBefore(HTTPHeadersToContext),",
  chars% "\t\t\thttptransport.ServerErrorEncoder(errorEncoder),",
  chars% "\t\t\thttptransport.ServerAfter(httptransport.SetContentType(contentType)),",
  chars% "\t\t}",
  chars% "\t\tserverOptions = append(serverOptions, options...)",
  chars% "\t{{- end }}",
  chars% "\tm := mux.NewRouter()",
  chars% "",
  chars% "\t{{range $method := .HTTPHelper.Methods}}",
  chars% "\t\t{{range $binding := $method.Bindings}}",
  chars% "\t\t\tm.Methods(\"{{$binding.Verb | ToUpper}}\").Path(\"{{$binding.PathTemplate}}\").Handler(httptransport.NewServer(",
  chars% "\t\t\t\tendpoints.{{$method.Name}}Endpoint,",
  chars% "\t\t\t\tDecodeHTTP{{$binding.Label}}Request,",
  chars% "\t\t\t\tEncodeHTTPGenericResponse,",
  chars% "\t\t\t\tserverOptions...,",
  chars% "\t\t\t))",
  chars% "\t\t{{- end}}",
  chars% "\t{{- end}}",
  chars% "\treturn m",
  chars% "}",
  chars% "",
  chars% "// ErrorEncoder writes the error to the ResponseWriter, by default a content",
  chars% "// type of application/json, a body of json with key \"error\" and the value",
  chars% "// error.Error(), and a status code of 500. If the error implements Headerer,",
  chars% "// the provided headers will be applied to the response. If the error",
  chars% "// implements json.Marshaler, and the marshaling succeeds, the JSON encoded",
  chars% "// form of the error will be used. If the error implements StatusCoder, the",
  chars% "// provided StatusCode will be used instead of 500."]

/-- gengokit/template/NAME-service/baron/NAME.pb.baron.go.tmpl:361-480 -/
def baronSrcLines3 : List Str := [
  chars% "func errorEncoder(_ context.Context, err error, w http.ResponseWriter) {",
  chars% "\tbody, _ := json.Marshal(errorWrapper{Error: err.Error()})",
  chars% "\tif marshaler, ok := err.(json.Marshaler); ok {",
  chars% "\t\tif jsonBody, marshalErr := marshaler.MarshalJSON(); marshalErr == nil {",
  chars% "\t\t\tbody = jsonBody",
  chars% "\t\t}",
  chars% "\t}",
  chars% "\tw.Header().Set(\"Content-Type\", contentType)",
  chars% "\tif headerer, ok := err.(httptransport.Headerer); ok {",
  chars% "\t\tfor k := range headerer.Headers() {",
  chars% "\t\t\tw.Header().Set(k, headerer.Headers().Get(k))",
  chars% "\t\t}",
  chars% "\t}",
  chars% "\tcode := http.StatusInternalServerError",
  chars% "\tif sc, ok := err.(httptransport.StatusCoder); ok {",
  chars% "\t\tcode = sc.StatusCode()",
  chars% "\t}",
  chars% "\tw.WriteHeader(code)",
  chars% "\tw.Write(body)",
  chars% "}",
  chars% "",
  chars% "func errorDecoder(buf []byte) error {",
  chars% "\tvar w errorWrapper",
  chars% "\tif err := json.Unmarshal(buf, &w); err != nil {",
  chars% "\t\tconst size = 8196",
  chars% "\t\tif len(buf) > size {",
  chars% "\t\t\tbuf = buf[:size]",
  chars% "\t\t}",
  chars% "\t\treturn fmt.Errorf(\"response body '%s': cannot parse non-json request body\", buf)",
  chars% "\t}",
  chars% "",
  chars% "\treturn errors.New(w.Error)",
  chars% "}",
  chars% "",
  chars% "type errorWrapper struct {",
  chars% "\tError string `json:\"error\"`",
  chars% "}",
  chars% "",
  chars% "// httpError satisfies the Headerer and StatusCoder interfaces in",
  chars% "// package github.com/go-kit/kit/transport/http.",
  chars% "type httpError struct {",
  chars% "\terror",
  chars% "\tstatusCode int",
  chars% "\theaders    map[string][]string",
  chars% "}",
  chars% "",
  chars% "func (h httpError) StatusCode() int {",
  chars% "\treturn h.statusCode",
  chars% "}",
  chars% "",
  chars% "func (h httpError) Headers() http.Header {",
  chars% "\treturn h.headers",
  chars% "}",
  chars% "",
  chars% "// Server Decode",
  chars% "{{range $method := .HTTPHelper.Methods}}",
  chars% "\t{{- range $binding := $method.Bindings}}",
  chars% "\t// DecodeHTTP{{$binding.Label}}Request is a transport/http.DecodeRequestFunc that",
  chars% "\t// decodes a JSON-encoded {{ToLower $binding.Parent.Name}} request from the HTTP request",
  chars% "\t// body. Primarily useful in a server.",
  chars% "\tfunc DecodeHTTP{{$binding.Label}}Request(_ context.Context, r *http.Request) (interface{}, error) {",
  chars% "\t\tdefer r.Body.Close()",
  chars% "\t\tvar req {{GoName $binding.Parent.RequestType}}",
  chars% "\t\tbuf, err := ioutil.ReadAll(r.Body)",
  chars% "\t\tif err != nil {",
  chars% "\t\t\treturn nil, errors.Wrapf(err, \"cannot read body of http request\")",
  chars% "\t\t}",
  chars% "\t\tif len(buf) > 0 {",
  chars% "\t\t\tunmarshaller := protojson.UnmarshalOptions{",
  chars% "\t\t\t\tAllowPartial:   true,",
  chars% "\t\t\t\tDiscardUnknown: true,",
  chars% "\t\t\t}",
  chars% "\t\t\tif err = unmarshaller.Unmarshal(buf, &req); err != nil {",
  chars% "\t\t\t\tconst size = 8196",
  chars% "\t\t\t\tif len(buf) > size {",
  chars% "\t\t\t\t\tbuf = buf[:size]",
  chars% "\t\t\t\t}",
  chars% "\t\t\t\treturn nil, httpError{errors.Wrapf(err, \"request body '%s': cannot parse non-json request body\", buf),",
  chars% "\t\t\t\t\thttp.StatusBadRequest,",
  chars% "\t\t\t\t\tnil,",
  chars% "\t\t\t\t}",
  chars% "\t\t\t}",
  chars% "\t\t}",
  chars% "",
  chars% "\t\tpathParams := mux.Vars(r)",
  chars% "\t\t_ = pathParams",
  chars% "",
  chars% "\t\tqueryParams := r.URL.Query()",
  chars% "\t\t_ = queryParams",
  chars% "",
  chars% "\t\t{{range $field := $binding.Fields}}",
  chars% "\t\t\t{{if ne $field.Location \"body\"}}",
  chars% "\t\t\t\t{{$field.GenQueryUnmarshaler}}",
  chars% "\t\t\t{{end}}",
  chars% "\t\t{{end}}",
  chars% "",
  chars% "\t\t{{range $field := $binding.OneofFields}}",
  chars% "\t\t\t{{if eq $field.Location \"query\"}}",
  chars% "\t\t\t\t{{$field.GenQueryUnmarshaler}}",
  chars% "\t\t\t{{end}}",
  chars% "\t\t{{end}}",
  chars% "\t\treturn &req, err",
  chars% "\t}",
  chars% "\t{{- end -}}",
  chars% "{{end}}",
  chars% "",
  chars% "// EncodeHTTPGenericResponse is a transport/http.EncodeResponseFunc that encodes",
  chars% "// the response as JSON to the response writer. Primarily useful in a server.",
  chars% "func EncodeHTTPGenericResponse(_ context.Context, w http.ResponseWriter, response interface{}) error {",
  chars% "\tmarshaller := protojson.MarshalOptions{",
  chars% "\t\tAllowPartial:    true,",
  chars% "\t\tUseProtoNames:   true,",
  chars% "\t\tUseEnumNumbers:  true,",
  chars% "\t\tEmitUnpopulated: true,",
  chars% "\t}",
  chars% "\tbuf, err := marshaller.Marshal(response.(proto.Message))",
  chars% "\tif err != nil {",
  chars% "\t\treturn err",
  chars% "\t}",
  chars% "\t_, err = w.Write(buf)"]

/-- gengokit/template/NAME-service/baron/NAME.pb.baron.go.tmpl:481-600 -/
def baronSrcLines4 : List Str := [
  chars% "\treturn err",
  chars% "}",
  chars% "",
  chars% "// Helper functions",
  chars% "",
  chars% "func HTTPHeadersToContext(ctx context.Context, r *http.Request) context.Context {",
  chars% "\tfor k := range r.Header {",
  chars% "\t\t// The key is added both in http format (k) which has had",
  chars% "\t\t// http.CanonicalHeaderKey called on it in transport as well as the",
  chars% "\t\t// strings.ToLower which is the grpc metadata format of the key so",
  chars% "\t\t// that it can be accessed in either format",
  chars% "\t\tctx = context.WithValue(ctx, k, r.Header.Get(k))",
  chars% "\t\tctx = context.WithValue(ctx, strings.ToLower(k), r.Header.Get(k))",
  chars% "\t}",
  chars% "",
  chars% "\t// Tune specific change.",
  chars% "\t// also add the request url",
  chars% "\tctx = context.WithValue(ctx, \"request-url\", r.URL.Path)",
  chars% "\tctx = context.WithValue(ctx, \"transport\", \"HTTPJSON\")",
  chars% "",
  chars% "\treturn ctx",
  chars% "}",
  chars% "",
  chars% "/************************************** HTTPClient ******************************************/",
  chars% "",
  chars% "// NewHTTPClient returns a service backed by an HTTP server living at the remote",
  chars% "// instance. We expect instance to come from a service discovery system, so",
  chars% "// likely of the form \"host:port\".",
  chars% "func NewHTTPClient(instance string, options ...httptransport.ClientOption) ({{.Service.Name}}Server, error) {",
  chars% "\tif !strings.HasPrefix(instance, \"http\") {",
  chars% "\t\tinstance = \"http://\" + instance",
  chars% "\t}",
  chars% "\tu, err := url.Parse(instance)",
  chars% "\tif err != nil {",
  chars% "\t\treturn nil, err",
  chars% "\t}",
  chars% "\t_ = u",
  chars% "",
  chars% "\t{{if not .HTTPHelper.Methods -}}",
  chars% "\t\tpanic(\"No HTTP Endpoints, this client will not work, define bindings in your proto definition\")",
  chars% "\t{{- end}}",
  chars% "",
  chars% "\t{{range $method := .HTTPHelper.Methods}}",
  chars% "\t\t{{ if $method.Bindings -}}",
  chars% "\t\t\t{{ with $binding := index $method.Bindings 0 -}}",
  chars% "\t\t\t\tvar {{$binding.Label}}Endpoint endpoint.Endpoint",
  chars% "\t\t\t\t{",
  chars% "\t\t\t\t\t{{$binding.Label}}Endpoint = httptransport.NewClient(",
  chars% "\t\t\t\t\t\t\"{{$binding.Verb | ToUpper}}\",",
  chars% "\t\t\t\t\t\tcopyURL(u, \"{{$binding.BasePath}}\"),",
  chars% "\t\t\t\t\t\tEncodeHTTP{{$binding.Label}}Request,",
  chars% "\t\t\t\t\t\tDecodeHTTP{{$method.Name}}Response,",
  chars% "\t\t\t\t\t\toptions...,",
  chars% "\t\t\t\t\t).Endpoint()",
  chars% "\t\t\t\t}",
  chars% "\t\t\t{{- end}}",
  chars% "\t\t{{- end}}",
  chars% "\t{{- end}}",
  chars% "",
  chars% "\treturn Endpoints{",
  chars% "\t{{range $method := .HTTPHelper.Methods -}}",
  chars% "\t\t{{ if $method.Bindings -}}",
  chars% "\t\t\t{{ with $binding := index $method.Bindings 0 -}}",
  chars% "\t\t\t\t{{$method.Name}}Endpoint:    {{$binding.Label}}Endpoint,",
  chars% "\t\t\t{{end}}",
  chars% "\t\t{{- end}}",
  chars% "\t{{- end}}",
  chars% "\t}, nil",
  chars% "}",
  chars% "",
  chars% "func copyURL(base *url.URL, path string) *url.URL {",
  chars% "\tnext := *base",
  chars% "\tnext.Path = path",
  chars% "\treturn &next",
  chars% "}",
  chars% "",
  chars% "// CtxValuesToSend configures the http client to pull the specified keys out of",
  chars% "// the context and add them to the http request as headers.  Note that keys",
  chars% "// will have net/http.CanonicalHeaderKey called on them before being send over",
  chars% "// the wire and that is the form they will be available in the server context.",
  chars% "func CtxValuesToSend(keys ...string) httptransport.ClientOption {",
  chars% "\treturn httptransport.ClientBefore(func(ctx context.Context, r *http.Request) context.Context {",
  chars% "\t\tfor _, k := range keys {",
  chars% "\t\t\tif v, ok := ctx.Value(k).(string); ok {",
  chars% "\t\t\t\tr.Header.Set(k, v)",
  chars% "\t\t\t}",
  chars% "\t\t}",
  chars% "\t\treturn ctx",
  chars% "\t})",
  chars% "}",
  chars% "",
  chars% "",
  chars% "// HTTP Client Decode",
  chars% "{{range $method := .HTTPHelper.Methods}}",
  chars% "\t// DecodeHTTP{{$method.Name}}Response is a transport/http.DecodeResponseFunc that decodes",
  chars% "\t// a JSON-encoded {{GoName $method.ResponseType}} response from the HTTP response body.",
  chars% "\t// If the response has a non-200 status code, we will interpret that as an",
  chars% "\t// error and attempt to decode the specific error message from the response",
  chars% "\t// body. Primarily useful in a client.",
  chars% "\tfunc DecodeHTTP{{$method.Name}}Response(_ context.Context, r *http.Response) (interface{}, error) {",
  chars% "\t\tdefer r.Body.Close()",
  chars% "\t\tbuf, err := ioutil.ReadAll(r.Body)",
  chars% "\t\tif err == io.EOF {",
  chars% "\t\t\treturn nil, errors.New(\"response http body empty\")",
  chars% "\t\t}",
  chars% "\t\tif err != nil {",
  chars% "\t\t\treturn nil, errors.Wrap(err, \"cannot read http body\")",
  chars% "\t\t}",
  chars% "",
  chars% "\t\tif r.StatusCode != http.StatusOK {",
  chars% "\t\t\treturn nil, errors.Wrapf(errorDecoder(buf), \"status code: '%d'\", r.StatusCode)",
  chars% "\t\t}",
  chars% "",
  chars% "\t\tvar resp {{GoName $method.ResponseType}}",
  chars% "\t\tunmarshaller := protojson.UnmarshalOptions{",
  chars% "\t\t\tAllowPartial:   true,",
  chars% "\t\t\tDiscardUnknown: true,",
  chars% "\t\t}",
  chars% "\t\tif err = unmarshaller.Unmarshal(buf, &resp); err != nil {",
  chars% "\t\t\treturn nil, errorDecoder(buf)"]

/-- gengokit/template/NAME-service/baron/NAME.pb.baron.go.tmpl:601-720 -/
def baronSrcLines5 : List Str := [
  chars% "\t\t}",
  chars% "",
  chars% "\t\treturn &resp, nil",
  chars% "\t}",
  chars% "{{end}}",
  chars% "",
  chars% "// HTTP Client Encode",
  chars% "{{range $method := .HTTPHelper.Methods}}",
  chars% "\t{{range $binding := $method.Bindings -}}",
  chars% "\t// EncodeHTTP{{$binding.Label}}Request is a transport/http.EncodeRequestFunc",
  chars% "\t// that encodes a {{ToLower $binding.Parent.Name}} request into the various portions of",
  chars% "\t// the http request (path, query, and body).",
  chars% "\tfunc EncodeHTTP{{$binding.Label}}Request(_ context.Context, r *http.Request, request interface{}) error {",
  chars% "\t\tstrval := \"\"",
  chars% "\t\t_ = strval",
  chars% "\t\treq := request.(*{{GoName $binding.Parent.RequestType}})",
  chars% "\t\t_ = req",
  chars% "",
  chars% "\t\tr.Header.Set(\"transport\", \"HTTPJSON\")",
  chars% "\t\tr.Header.Set(\"request-url\", r.URL.Path)",
  chars% "",
  chars% "\t\t// Set the path parameters",
  chars% "\t\tpath := strings.Join([]string{",
  chars% "\t\t{{- range $section := $binding.PathSections}}",
  chars% "\t\t\t{{$section}},",
  chars% "\t\t{{- end}}",
  chars% "\t\t}, \"/\")",
  chars% "\t\tu, err := url.Parse(path)",
  chars% "\t\tif err != nil {",
  chars% "\t\t\treturn errors.Wrapf(err, \"couldn't unmarshal path %q\", path)",
  chars% "\t\t}",
  chars% "\t\tr.URL.RawPath = u.RawPath",
  chars% "\t\tr.URL.Path = u.Path",
  chars% "",
  chars% "\t\t// Set the query parameters",
  chars% "\t\tvalues := r.URL.Query()",
  chars% "\t\tvar tmp []byte",
  chars% "\t\t_ = tmp",
  chars% "\t\t{{- range $field := $binding.Fields }}",
  chars% "\t\t\t{{- if eq $field.Location \"query\"}}",
  chars% "\t\t\t\t{{if and $field.Repeated $field.IsBaseType}}",
  chars% "\t\t\t\t\t{{- if (Contains $field.GoType \"[]string\")}}",
  chars% "\t\t\t\t\tvalues[\"{{$field.QueryParamName}}\"] = req.{{$field.CamelName}}",
  chars% "\t\t\t\t\t{{- else}}",
  chars% "\t\t\t\t\tfor _, v := range req.{{$field.CamelName}} {",
  chars% "\t\t\t\t\t\tvalues.Add(\"{{$field.QueryParamName}}\", fmt.Sprint(v))",
  chars% "\t\t\t\t\t}",
  chars% "\t\t\t\t\t{{- end}}",
  chars% "\t\t\t\t{{else if or (not $field.IsBaseType) $field.Repeated}}",
  chars% "\t\t\t\t\ttmp, err = json.Marshal(req.{{$field.CamelName}})",
  chars% "\t\t\t\t\tif err != nil {",
  chars% "\t\t\t\t\t\treturn errors.Wrap(err, \"failed to marshal req.{{$field.CamelName}}\")",
  chars% "\t\t\t\t\t}",
  chars% "\t\t\t\t\tstrval = string(tmp)",
  chars% "\t\t\t\t\tvalues.Add(\"{{$field.QueryParamName}}\", strval)",
  chars% "\t\t\t\t{{else}}",
  chars% "\t\t\t\t\t{{/*如果是指针类型标量*/ -}}",
  chars% "\t\t\t\t\t{{if $field.StarExpr}}",
  chars% "\t\t\t\t\tif req.{{$field.CamelName}} !=nil {",
  chars% "\t\t\t\t\t\tvalues.Add(\"{{$field.QueryParamName}}\", fmt.Sprint(*req.{{$field.CamelName}}))",
  chars% "\t\t\t\t\t}",
  chars% "\t\t\t\t\t{{else}}",
  chars% "\t\t\t\t\tvalues.Add(\"{{$field.QueryParamName}}\", fmt.Sprint(req.{{$field.CamelName}}))",
  chars% "\t\t\t\t\t{{end}}",
  chars% "\t\t\t\t{{- end }}",
  chars% "\t\t\t{{- end }}",
  chars% "\t\t{{- end}}",
  chars% "\t\t{{- range $oneof := $binding.OneofFields }}",
  chars% "\t\t\t{{- if eq $oneof.Location \"query\"}}",
  chars% "\t\t\t\t{{- range $option := $oneof.Options }}",
  chars% "\t\t\t\t\t{{if or (not $option.IsBaseType) $option.Repeated}}",
  chars% "\t\t\t\t\t\tif val := req.Get{{$option.Name}}(); val != {{$option.ZeroValue}} {",
  chars% "\t\t\t\t\t\t\ttmp, err = json.Marshal(req.Get{{$option.Name}}())",
  chars% "\t\t\t\t\t\t\tif err != nil {",
  chars% "\t\t\t\t\t\t\t\treturn errors.Wrap(err, \"failed to marshal req.Get{{$option.Name}}()\")",
  chars% "\t\t\t\t\t\t\t}",
  chars% "\t\t\t\t\t\t\tstrval = string(tmp)",
  chars% "\t\t\t\t\t\t\tvalues.Add(\"{{$option.QueryParamName}}\", strval)",
  chars% "\t\t\t\t\t\t}",
  chars% "\t\t\t\t\t{{else}}",
  chars% "\t\t\t\t\t\tif val := req.Get{{$option.Name}}(); val != {{$option.ZeroValue}} {",
  chars% "\t\t\t\t\t\t\tvalues.Add(\"{{$option.QueryParamName}}\", fmt.Sprint(val))",
  chars% "\t\t\t\t\t\t}",
  chars% "\t\t\t\t\t{{- end }}",
  chars% "\t\t\t\t{{- end }}",
  chars% "\t\t\t{{- end }}",
  chars% "\t\t{{- end}}",
  chars% "",
  chars% "\t\tr.URL.RawQuery = values.Encode()",
  chars% "",
  chars% "\t\t{{- if ne $binding.Verb \"get\" }}",
  chars% "\t\t// Set the body parameters",
  chars% "\t\ttoRet := request.(*{{GoName $binding.Parent.RequestType}})",
  chars% "\t\t{{- range $field := $binding.Fields -}}",
  chars% "\t\t\t{{if eq $field.Location \"body\"}}",
  chars% "\t\t\t\t{{/* Only set the fields which should be in the body, so all",
  chars% "\t\t\t\tothers will be omitted due to emptiness */}}",
  chars% "\t\t\t\ttoRet.{{$field.CamelName}} = req.{{$field.CamelName}}",
  chars% "\t\t\t{{end}}",
  chars% "\t\t{{- end }}",
  chars% "\t\tmarshaler := protojson.MarshalOptions{",
  chars% "\t\t\tAllowPartial:    true,",
  chars% "\t\t\tUseProtoNames:   true,",
  chars% "\t\t\tUseEnumNumbers:  true,",
  chars% "\t\t\tEmitUnpopulated: true,",
  chars% "\t\t}",
  chars% "\t\tdata, err := marshaler.Marshal(req)",
  chars% "\t\tif err != nil {",
  chars% "\t\t\treturn errors.Wrapf(err, \"couldn't encode body as json %v\", toRet)",
  chars% "\t\t}",
  chars% "\t\tr.Body = ioutil.NopCloser(bytes.NewBuffer(data))",
  chars% "\t\t{{- end }}",
  chars% "\t\treturn nil",
  chars% "\t}",
  chars% "\t{{- end}}",
  chars% "{{end}}",
  chars% "{{if eq .Config.Transport \"all\" \"nats\" }}",
  chars% "/************************************** NATSServer ******************************************/",
  chars% "",
  chars% "// ServeNATS "]

/-- gengokit/template/NAME-service/baron/NAME.pb.baron.go.tmpl:721-835 -/
def baronSrcLines6 : List Str := [
  chars% "func ServeNATS(conn *nats.Conn, srv *natsServer) error {",
  chars% "{{with $te := .}}",
  chars% "\t{{- range $i := $te.Service.Methods}}",
  chars% "\t\t{{ToLower $i.Name}}Sub, err := conn.QueueSubscribe(\"{{$te.Service.Name}}.{{$i.Name}}\", \"{{$te.Service.Name}}\", srv.{{$i.Name}}.ServeMsg(conn))",
  chars% "\t\tif err != nil {",
  chars% "\t\t\treturn err",
  chars% "\t\t}",
  chars% "\t\t_ = {{ToLower $i.Name}}Sub",
  chars% "\t{{end}}",
  chars% "\treturn nil",
  chars% "{{end}}",
  chars% "}",
  chars% "",
  chars% "// MakeNATSServer makes a set of endpoints available as a NATS {{.Service.Name}}Server.",
  chars% "func MakeNATSServer(endpoints Endpoints, options ...natstransport.SubscriberOption) *natsServer {",
  chars% "\tserverOptions := []natstransport.SubscriberOption{",
  chars% "\t\t// grpctransport.ServerBefore(GRPCMetadataToContext),",
  chars% "\t}",
  chars% "\tserverOptions = append(serverOptions, options...)",
  chars% "\t// {{ ToLower .Service.Name }}",
  chars% "\treturn &natsServer{",
  chars% "\t{{range $i := .Service.Methods}}",
  chars% "\t\t{{$i.Name}}: natstransport.NewSubscriber(",
  chars% "\t\t\tendpoints.{{$i.Name}}Endpoint,",
  chars% "\t\t\tDecodeNATS{{$i.Name}}Request,",
  chars% "\t\t\t// EncodeNATS{{$i.Name}}Response,",
  chars% "\t\t\tEncodeNATSGenericResponse,",
  chars% "\t\t\tserverOptions...,",
  chars% "\t\t),",
  chars% "\t{{- end}}",
  chars% "\t}",
  chars% "}",
  chars% "",
  chars% "// natsServer implements the {{GoName .Service.Name}}Server interface",
  chars% "type natsServer struct {",
  chars% "{{range $i := .Service.Methods}}",
  chars% "\t{{$i.Name}}   *natstransport.Subscriber",
  chars% "{{- end}}",
  chars% "}",
  chars% "",
  chars% "// Server Decode",
  chars% "{{range $i := .Service.Methods}}",
  chars% "func DecodeNATS{{.Name}}Request(ctx context.Context, msg *nats.Msg) (interface{}, error) {",
  chars% "\tvar req {{GoName $i.RequestType.Name}}",
  chars% "\tif err := json.Unmarshal(msg.Data, &req); err != nil {",
  chars% "\t\treturn nil, err",
  chars% "\t}",
  chars% "\treturn &req, nil",
  chars% "}",
  chars% "{{end}}",
  chars% "",
  chars% "// Server Encode",
  chars% "",
  chars% "// EncodeNATSGenericResponse is a transport/nats.EncodeResponseFunc that encodes",
  chars% "// JSON object to the subscriber reply. Many JSON-over services can use it as",
  chars% "// a sensible default.",
  chars% "func EncodeNATSGenericResponse(ctx context.Context, reply string, nc *nats.Conn, response interface{}) error {",
  chars% "\treturn natstransport.EncodeJSONResponse(ctx, reply, nc, response)",
  chars% "}",
  chars% "",
  chars% "/************************************** NATSClient ******************************************/",
  chars% "",
  chars% "// NewNATSClient returns an service backed by a nats client connection. It is the",
  chars% "// responsibility of the caller to dial, and later close, the connection.",
  chars% "func NewNATSClient(conn *nats.Conn, options ...natstransport.PublisherOption) ({{.Service.Name}}Server, error) {",
  chars% "\t{{- with $te := .}}",
  chars% "\t\t{{- range $i := $te.Service.Methods}}",
  chars% "\t\t\tvar {{ToLower $i.Name}}Endpoint endpoint.Endpoint",
  chars% "\t\t\t{",
  chars% "\t\t\t\t{{ToLower $i.Name}}Endpoint = natstransport.NewPublisher(",
  chars% "\t\t\t\t\tconn,",
  chars% "\t\t\t\t\t\"{{$te.Service.Name}}.{{$i.Name}}\",",
  chars% "\t\t\t\t\tEncodeNATSGenericRequest,",
  chars% "\t\t\t\t\tDecodeNATS{{$i.Name}}Response,",
  chars% "\t\t\t\t\toptions...,",
  chars% "\t\t\t\t).Endpoint()",
  chars% "\t\t\t}",
  chars% "\t\t{{end}}",
  chars% "\t{{end}}",
  chars% "",
  chars% "\treturn Endpoints{",
  chars% "\t{{range $i := .Service.Methods -}}",
  chars% "\t\t{{$i.Name}}Endpoint:    {{ToLower $i.Name}}Endpoint,",
  chars% "\t{{end}}",
  chars% "\t}, nil",
  chars% "}",
  chars% "",
  chars% "// NATS Client Decode",
  chars% "{{range $i := .Service.Methods}}",
  chars% "// DecodeNATS{{$i.Name}}Response is a transport/nats.DecodeResponseFunc that converts a",
  chars% "// nats.Msg to a user-domain {{ToLower $i.Name}} response. Primarily useful in a client.",
  chars% "func DecodeNATS{{$i.Name}}Response(ctx context.Context, msg *nats.Msg ) (interface{}, error) {",
  chars% "\t// if err := json.Unmarshal(msg.Data, &errResponse); err != nil {",
  chars% "\t// \treturn nil, err",
  chars% "\t// }",
  chars% "\t// if errResponse.Error != nil && errResponse.Error.Code == \"_internal_\" {",
  chars% "\t// \treturn nil, errors.New(errResponse.Error.Message)",
  chars% "\t// }",
  chars% "\tvar resp {{GoName $i.ResponseType.Name}}",
  chars% "\tif err := json.Unmarshal(msg.Data, &resp); err != nil {",
  chars% "\t\treturn nil, err",
  chars% "\t}",
  chars% "\treturn &resp, nil",
  chars% "}",
  chars% "{{end}}",
  chars% "",
  chars% "// NATS Client Encode",
  chars% "// EncodeNATSGenericRequest is a transport/nats.EncodeRequestFunc that serializes the request as a",
  chars% "// JSON object to the Data of the Msg. Many JSON-over-NATS services can use it as",
  chars% "// a sensible default.",
  chars% "func EncodeNATSGenericRequest(ctx context.Context, msg *nats.Msg, request interface{}) error {",
  chars% "\treturn natstransport.EncodeJSONRequest(ctx, msg, request)",
  chars% "}",
  chars% "{{end}}",
  chars% ""]

/-- The lines of baron/NAME.pb.baron.go.tmpl. -/
def baronSrcLines : List Str := baronSrcLines0 ++ baronSrcLines1 ++ baronSrcLines2 ++ baronSrcLines3 ++ baronSrcLines4 ++ baronSrcLines5 ++ baronSrcLines6

/-- The text of baron/NAME.pb.baron.go.tmpl. -/
def baronSrc : Str := unlines baronSrcLines

/-- gengokit/template/NAME-service/service/wrapper.go.tmpl:1-35 -/
def serviceWrapperSrcLines : List Str := [
  chars% "package service",
  chars% "",
  chars% "import (",
  chars% "\tpb \"{{.PBImportPath -}}\"",
  chars% ")",
  chars% "",
  chars% "// WrapEndpoints accepts the service's entire collection of endpoints, so that a",
  chars% "// set of middlewares can be wrapped around every middleware (e.g., access",
  chars% "// logging and instrumentation), and others wrapped selectively around some",
  chars% "// endpoints and not others (e.g., endpoints requiring authenticated access).",
  chars% "// Note that the final middleware wrapped will be the outermost middleware",
  chars% "// (i.e. applied first)",
  chars% "func WrapEndpoints(in pb.Endpoints) pb.Endpoints {",
  chars% "",
  chars% "\t// Pass a middleware you want applied to every endpoint.",
  chars% "\t// optionally pass in endpoints by name that you want to be excluded",
  chars% "\t// e.g.",
  chars% "\t// in.WrapAllExcept(authMiddleware, \"Status\", \"Ping\")",
  chars% "",
  chars% "\t// Pass in a svc.LabeledMiddleware you want applied to every endpoint.",
  chars% "\t// These middlewares get passed the endpoints name as their first argument when applied.",
  chars% "\t// This can be used to write generic metric gathering middlewares that can",
  chars% "\t// report the endpoint name for free.",
  chars% "\t// github.com/teamlint/baron/_example/middlewares/labeledmiddlewares.go for examples.",
  chars% "\t// in.WrapAllLabeledExcept(errorCounter(statsdCounter), \"Status\", \"Ping\")",
  chars% "",
  chars% "\t// How to apply a middleware to a single endpoint.",
  chars% "\t// in.ExampleEndpoint = authMiddleware(in.ExampleEndpoint)",
  chars% "",
  chars% "\treturn in",
  chars% "}",
  chars% "",
  chars% "func WrapService(in pb.{{.Service.Name}}Server) pb.{{.Service.Name}}Server {",
  chars% "\treturn in",
  chars% "}",
  chars% ""]

/-- The text of service/wrapper.go.tmpl. -/
def serviceWrapperSrc : Str := unlines serviceWrapperSrcLines

/-- gengokit/template/NAME-service/service/service.go.tmpl:1-24 -/
def serviceSrcLines : List Str := [
  chars% "package service",
  chars% "",
  chars% "import (",
  chars% "\t\"context\"",
  chars% "",
  chars% "\tpb \"{{.PBImportPath -}}\"",
  chars% ")",
  chars% "",
  chars% "func NewService() *{{ToLower .Service.Name}}Service {",
  chars% "\treturn &{{ToLower .Service.Name}}Service{}",
  chars% "}",
  chars% "",
  chars% "type {{ToLower .Service.Name}}Service struct {",
  chars% "\tpb.Unimplemented{{.Service.Name}}Server",
  chars% "}",
  chars% "",
  chars% "{{with $te := . }}",
  chars% "\t{{range $i := $te.Service.Methods}}",
  chars% "\t\tfunc (s *{{ToLower $te.Service.Name}}Service) {{$i.Name}}(ctx context.Context, in *pb.{{GoName $i.RequestType.Name}}) (*pb.{{GoName $i.ResponseType.Name}}, error){",
  chars% "\t\t\tvar resp pb.{{GoName $i.ResponseType.Name}}",
  chars% "\t\t\treturn &resp, nil",
  chars% "\t\t}",
  chars% "\t{{end}}",
  chars% "{{- end}}",
  chars% ""]

/-- The text of service/service.go.tmpl. -/
def serviceSrc : Str := unlines serviceSrcLines

/-- gengokit/template/NAME-service/service/service_methods.go.tmpl:1-8 -/
def serviceMethodsSrcLines : List Str := [
  chars% "{{ with $t := .}}",
  chars% "\t{{range $i := .Methods}}",
  chars% "\t\tfunc (s *{{ToLower $t.ServiceName}}Service) {{.Name}}(ctx context.Context, in *pb.{{GoName .RequestType.Name}}) (*pb.{{GoName .ResponseType.Name}}, error){",
  chars% "\t\t\tvar resp pb.{{GoName .ResponseType.Name}}",
  chars% "\t\t\treturn &resp, nil",
  chars% "\t\t}",
  chars% "\t{{end}}",
  chars% "{{- end}}",
  chars% ""]

/-- The text of service/service_methods.go.tmpl. -/
def serviceMethodsSrc : Str := unlines serviceMethodsSrcLines

/-- gengokit/template/NAME-service/cmd/NAME/main.go.tmpl:1-50 -/
def cmdServerSrcLines : List Str := [
  chars% "package main",
  chars% "",
  chars% "import (",
  chars% "\t\"flag\"",
  chars% "\t\"fmt\"",
  chars% "\t\"os\"",
  chars% "\t\"strings\"",
  chars% "",
  chars% "\t\"{{.ImportPath -}} /server\"",
  chars% ")",
  chars% "",
  chars% "var config server.Config",
  chars% "",
  chars% "func init() {",
  chars% "\tflag.StringVar(&config.DebugAddr, \"debug.addr\", \":5060\", \"Debug and metrics listen address\")",
  chars% "\tflag.StringVar(&config.HTTPAddr, \"http.addr\", \"\", \"HTTP listen address\")",
  chars% "\tflag.StringVar(&config.GRPCAddr, \"grpc.addr\", \"\", \"gRPC (HTTP) listen address\")",
  chars% "\tflag.StringVar(&config.NATSAddr, \"nats.addr\", \"\", \"NATS listen address\")",
  chars% "\tflag.BoolVar(&config.Debug, \"debug\", false, \"Debug mode\")",
  chars% "",
  chars% "\t// Use environment variables, if set. Flags have priority over Env vars.",
  chars% "\tif debug := os.Getenv(\"DEBUG\"); debug != \"\" {",
  chars% "\t\tconfig.Debug = \"true\" == strings.ToLower(debug)",
  chars% "\t}",
  chars% "\tif addr := os.Getenv(\"DEBUG_ADDR\"); addr != \"\" {",
  chars% "\t\tconfig.DebugAddr = addr",
  chars% "\t}",
  chars% "\tif port := os.Getenv(\"PORT\"); port != \"\" {",
  chars% "\t\tconfig.HTTPAddr = fmt.Sprintf(\":%s\", port)",
  chars% "\t}",
  chars% "\tif addr := os.Getenv(\"HTTP_ADDR\"); addr != \"\" {",
  chars% "\t\tconfig.HTTPAddr = addr",
  chars% "\t}",
  chars% "\tif addr := os.Getenv(\"GRPC_ADDR\"); addr != \"\" {",
  chars% "\t\tconfig.GRPCAddr = addr",
  chars% "\t}",
  chars% "\tif addr := os.Getenv(\"NATS_ADDR\"); addr != \"\" {",
  chars% "\t\tconfig.NATSAddr = addr",
  chars% "\t}",
  chars% "}",
  chars% "",
  chars% "func main() {",
  chars% "\t// Update addresses if they have been overwritten by flags",
  chars% "\tflag.Parse()",
  chars% "",
  chars% "\tif config.HTTPAddr == \"\" && config.GRPCAddr == \"\" && config.NATSAddr == \"\" {",
  chars% "\t\tfmt.Println(\"no server to run, serve addr must be set one of [http.addr|grpc.addr|nats.addr]\")\t\t",
  chars% "\t}",
  chars% "\tserver.Run(config)",
  chars% "}",
  chars% ""]

/-- The text of cmd/NAME/main.go.tmpl. -/
def cmdServerSrc : Str := unlines cmdServerSrcLines

/-- gengokit/template/NAME-service/cmd/NAME-client/main.go.tmpl:1-119 -/
def cmdClientSrcLines : List Str := [
  chars% "package main",
  chars% "",
  chars% "import (",
  chars% "\t\"context\"",
  chars% "\t\"flag\"",
  chars% "\t\"log\"",
  chars% "\t{{if eq .Config.Transport \"all\" \"nats\" }}",
  chars% "\t\"github.com/nats-io/nats.go\"",
  chars% "\t{{end}}",
  chars% "",
  chars% "\tpb \"{{.PBImportPath -}}\"",
  chars% "\t{{if eq .Config.Transport \"all\" \"grpc\" }}",
  chars% "\t\"google.golang.org/grpc\"",
  chars% "\t{{end}}",
  chars% ")",
  chars% "",
  chars% "var (",
  chars% "\tgrpcAddr string",
  chars% "\thttpAddr string",
  chars% "\tnatsAddr string",
  chars% ")",
  chars% "",
  chars% "func init() {",
  chars% "\tflag.StringVar(&grpcAddr, \"grpc.addr\", \":5040\", \"gRPC (HTTP) listen address\")",
  chars% "\tflag.StringVar(&httpAddr, \"http.addr\", \":5050\", \"HTTP listen address\")",
  chars% "\tflag.StringVar(&natsAddr, \"nats.addr\", \":4222\", \"NATS listen address\")",
  chars% "}",
  chars% "",
  chars% "func main() {",
  chars% "\tflag.Parse()",
  chars% "\t{{with $te := . }}",
  chars% "\t{{if eq $te.Config.Transport \"all\" \"grpc\" }}",
  chars% "\t// Baron GRPC Client",
  chars% "\tlog.Println(\"[GRPC.{{$te.Service.Name}}]\")",
  chars% "\tpln()",
  chars% "\tconn, err := grpc.Dial(",
  chars% "\t\tgrpcAddr,",
  chars% "\t\tgrpc.WithInsecure(),",
  chars% "\t\tgrpc.WithBlock(),",
  chars% "\t)",
  chars% "\tif err != nil {",
  chars% "\t\tlog.Fatal(err)",
  chars% "\t}",
  chars% "\tdefer conn.Close()",
  chars% "\tbaronGRPCClient, err := pb.NewGRPCClient(conn)",
  chars% "\tif err != nil {",
  chars% "\t\tlog.Fatal(err)",
  chars% "\t}",
  chars% "\t{{range $i := $te.Service.Methods}}",
  chars% "\t// GRPC.{{$te.Service.Name}}.{{$i.Name}}",
  chars% "\t{",
  chars% "\t\tctx := context.Background()",
  chars% "\t\tvar in pb.{{GoName $i.RequestType.Name}}",
  chars% "\t\tout, err := baronGRPCClient.{{GoName $i.Name}}(ctx, &in)",
  chars% "\t\tif err != nil {",
  chars% "\t\t\tlog.Fatalf(\"[Baron.GRPCClient] {{$te.Service.Name}}.{{GoName $i.Name}} err=%v\\n\", err)",
  chars% "\t\t}",
  chars% "\t\tlog.Printf(\"[Baron.GRPCClient] {{$te.Service.Name}}.{{GoName $i.Name}} result=%+v\\n\", *out)",
  chars% "\t\tpln()",
  chars% "\t}",
  chars% "\t{{end}}",
  chars% "\t{{end}}",
  chars% "",
  chars% "\t{{if $te.HTTPHelper.Methods}}",
  chars% "\t// Baron HTTP Client",
  chars% "\tlog.Println(\"[HTTP][{{$te.Service.Name}}]\")",
  chars% "\tpln()",
  chars% "\t{{range $method := $te.HTTPHelper.Methods}}",
  chars% "\t// HTTP.{{$te.Service.Name}}.{{$method.Name}}",
  chars% "\t{",
  chars% "\t\tctx := context.Background()",
  chars% "\t\tvar in pb.{{GoName $method.RequestType}}",
  chars% "\t\tbaronHTTPClient, err := pb.NewHTTPClient(httpAddr)",
  chars% "\t\tif err != nil {",
  chars% "\t\t\tlog.Fatal(err)",
  chars% "\t\t}",
  chars% "\t\tout, err := baronHTTPClient.{{GoName $method.Name}}(ctx, &in)",
  chars% "\t\tif err != nil {",
  chars% "\t\t\tlog.Fatalf(\"[Baron.HTTPClient] {{$te.Service.Name}}.{{GoName $method.Name}} err=%v\\n\", err)",
  chars% "\t\t}",
  chars% "\t\tlog.Printf(\"[Baron.HTTPClient] {{$te.Service.Name}}.{{GoName $method.Name}} result=%+v\\n\", *out)",
  chars% "\t\tpln()",
  chars% "\t\t}",
  chars% "\t{{end}}",
  chars% "\t{{end}}",
  chars% "",
  chars% "\t{{if eq $te.Config.Transport \"all\" \"nats\"}}",
  chars% "\t// Baron NATS Client",
  chars% "\tlog.Println(\"[NATS.{{$te.Service.Name}}]\")",
  chars% "\tpln()",
  chars% "\tnc, err := nats.Connect(natsAddr)",
  chars% "\tif err != nil {",
  chars% "\t\tlog.Fatal(err)",
  chars% "\t}",
  chars% "\tdefer nc.Close()",
  chars% "\tbaronNATSClient, err := pb.NewNATSClient(nc)",
  chars% "\tif err != nil {",
  chars% "\t\tlog.Fatal(err)",
  chars% "\t}",
  chars% "\t{{range $i := $te.Service.Methods}}",
  chars% "\t// NATS.{{$te.Service.Name}}.{{$i.Name}}",
  chars% "\t{",
  chars% "\t\tctx := context.Background()",
  chars% "\t\tvar in pb.{{GoName $i.RequestType.Name}}",
  chars% "\t\tout, err := baronNATSClient.{{GoName $i.Name}}(ctx, &in)",
  chars% "\t\tif err != nil {",
  chars% "\t\t\tlog.Fatalf(\"[Baron.NATSClient] {{$te.Service.Name}}.{{GoName $i.Name}} err=%v\\n\", err)",
  chars% "\t\t}",
  chars% "\t\tlog.Printf(\"[Baron.NATSClient] {{$te.Service.Name}}.{{GoName $i.Name}} result=%+v\\n\", *out)",
  chars% "\t\tpln()",
  chars% "\t}",
  chars% "\t{{end}}",
  chars% "\t{{end}}",
  chars% "",
  chars% "\t{{end}}",
  chars% "}",
  chars% "func pln() {",
  chars% "\tlog.Println(\"---------------------------------------------------------------------------------\")",
  chars% "}",
  chars% ""]

/-- The text of cmd/NAME-client/main.go.tmpl. -/
def cmdClientSrc : Str := unlines cmdClientSrcLines

end Baron.TT
