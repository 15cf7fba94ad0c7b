import Verif.Spec.Scope
import Verif.Model.Idents
import Verif.Model.Oneof

/-!
# What the generated Go files do with names

Every function of the generated files as the sequence of what it does with names (`Spec/Scope`): which variables it declares,
assigns and uses, block by block, and which package-level names and types it mentions. Predeclared names (`len`, `nil`,
`error`, `int32` …) are left out: no generated name is one. TB = gengokit/template/NAME-service/baron/NAME.pb.baron.go.tmpl,
TS = …/server/server.go.tmpl, TC = …/cmd/NAME-client/main.go.tmpl, TV = …/service/service.go.tmpl.
-/

namespace Baron.Locals

open Baron.Scope Baron.HTTPCode Baron.Idents

def U (x : String) : Ev := .use x.toList
def T (x : String) : Ev := .type x.toList
def P (x : String) : Ev := .param x.toList
def V (x : String) : Ev := .var x.toList
def A (x : String) : Ev := .assign x.toList
def S (xs : List String) : Ev := .short (xs.map String.toList)

/-- `if err != nil { return … err … }`; `more` is what else the return statement uses. -/
def errReturn (more : List Ev) : List Ev := [U "err", .opn] ++ more ++ [U "err", .cls]

/-- The Go names of an rpc's request and response (`GoName`). -/
def reqT (m : Svcdef.ServiceMethod) : Str := Strs.goCamelCase m.request.name
def respT (m : Svcdef.ServiceMethod) : Str := Strs.goCamelCase m.response.name
def serverT (s : Svcdef.Service) : Str := s.name ++ "Server".toList
/-- A package-level function named after an rpc or a binding. -/
def fn (pre : String) (n : Str) (suf : String) : Ev := .use (pre.toList ++ n ++ suf.toList)

/-! ## The HTTP decoders -/

/-- httptransport.go:94, 152: the local name of a field. -/
def localName (name meth : Str) : Str := Strs.goCamelCase name ++ Strs.goCamelCase meth

def strN (l : Str) : Str := l ++ "Str".toList
def arrN (l : Str) : Str := l ++ "StrArr".toList
def okN (l : Str) : Str := l ++ "OK".toList

/-- Mention of a Go type as recorded in a field: nothing for predeclared types, the package for imported ones, `[]` in front
dropped. -/
def typeEvs (t : Str) : List Ev :=
  let t := t.dropWhile fun c => c = '[' || c = ']'
  if '.' ∈ t then [.use (t.takeWhile (· ≠ '.'))]
  else if (baseOf t).isSome || t = "byte".toList then [] else [.type t]

/-- httptransport.go:372-391: `x, err := strconv.Parse…(y)`, or `x := y` for texts. -/
def parseEvs (b : Base) (x y : Str) : List Ev :=
  match b with
  | .string => [.use y, .short [x]]
  | _ => [U "strconv", .use y, .short [x, "err".toList]]

/-- httptransport.go:422-425. -/
def errorCheck (l : Str) : List Ev := [U "err", .opn, U "errors", U "err", .use (strN l), .cls]

/-- httptransport.go:361-482 `createDecodeConvertFunc` for a single value of a base type. -/
def convertBase (b : Base) (l : Str) : List Ev := parseEvs b l (strN l)

/-- httptransport.go:300-303: the check after a conversion with `strconv`. -/
def paramCheck (loc : Str) : List Ev :=
  [U "err", .opn, U "errors", U "err", U "fmt", .use (loc ++ "Params".toList), .cls]

/-- httptransport.go:361-482 with 299-303: conversion and check. Fields of a base type are never enums; a type that
contains the text `[]string` does not come from protoc. -/
def convertEvs (f : HField) (l : Str) : List Ev :=
  if f.isEnum && !f.repeated then
    [U "strconv", .use (strN l), .short [l, "err".toList]] ++ paramCheck f.location
  else if !f.repeated then
    match f.isBase, baseOf f.goType with
    | true, some .string => convertBase .string l
    | true, some b => convertBase b l ++ paramCheck f.location
    | _, _ =>
      -- 413-416, 422-425
      typeEvs f.goType ++ [.var l] ++ typeEvs f.goType ++ [.assign l, U "json", .use (strN l), .use l, A "err"] ++
        errorCheck l
  else
    match f.isBase, baseOf f.goType with
    | true, some b =>
      -- 442-470, 476-479
      [.var l, .use (arrN l), .opn, .use (arrN l), .assign l, .use (arrN l), .opn, S ["i", "v"], .opn] ++
        parseEvs b "converted".toList "v".toList ++ errorCheck l ++ [.use l, U "i", U "converted", .cls, .cls, .cls,
        .opn, U "json", .use (strN l), .use l, A "err", U "err", .opn, .use (strN l), .assign (strN l), .cls,
        U "json", .use (strN l), .use l, A "err", .cls] ++ (if b = .string then [] else errorCheck l)
    | _, _ =>
      -- 443, 466, 476-479
      typeEvs f.goType ++ [.var l, U "json", .use (strN l), .use l, A "err"] ++ errorCheck l

/-- httptransport.go:488-512 `createDecodeTypeConversion`: `req.X = …`. -/
def assignEvs (f : HField) (l : Str) : List Ev :=
  [U "req"] ++ (if f.isEnum && !f.repeated then typeEvs f.goType else []) ++ [.use l]

/-- httptransport.go:287-318 `GenQueryUnmarshaler`. -/
def fieldEvs (meth : Str) (f : HField) : List Ev :=
  let l := f.camelName ++ Strs.goCamelCase meth
  let params := f.location ++ "Params".toList
  if f.location = "path".toList then
    [.use params, .short [strN l]] ++ convertEvs f l ++ assignEvs f l
  else
    [.opn, .use params, .short [arrN l, "ok".toList], U "ok", .opn, .use (arrN l), .short [strN l]] ++ convertEvs f l ++
      assignEvs f l ++ [.cls, .cls]

/-- httptransport.go:325-334: an option is looked up. -/
def optionSeen (meth count : Str) (loc : Str) (o : HOption) : List Ev :=
  let l := localName o.name meth
  [.var (strN l), .use (loc ++ "Params".toList), .short [arrN l, okN l], .use (okN l), .opn, .use (arrN l),
    .assign (strN l), .assign count, .cls]

/-- httptransport.go:341-348: an option is converted; every option counts as a base type (Model/Oneof). -/
def optionCase (meth : Str) (loc : Str) (o : HOption) : List Ev :=
  let l := localName o.name meth
  [.use (okN l), .opn] ++
    (match baseOf o.goType with
      | some .string => convertBase .string l
      | some b => convertBase b l ++ [U "err", .opn, U "errors", U "err", U "fmt", .use (loc ++ "Params".toList), .cls]
      | none => []) ++
    [U "req", .type o.wrapper, .use l, .cls]

/-- httptransport.go:320-357. -/
def oneofEvs (meth : Str) (o : HOneof) : List Ev :=
  let count := o.name ++ "CountSet".toList
  [.short [count]] ++ o.options.flatMap (optionSeen meth count o.location) ++
    [.use count, .opn, U "errors", .cls, .opn] ++ o.options.flatMap (optionCase meth o.location) ++ [.cls]

/-- TB:421-447: what comes before the fields. -/
def decoderPre (req : Str) : List Ev :=
  [U "context", U "http", P "r", U "r", .type req, V "req", U "ioutil", U "r", S ["buf", "err"]] ++
  errReturn [U "errors"] ++
  [U "buf", .opn, U "protojson", S ["unmarshaller"], .opn, U "unmarshaller", U "buf", U "req", A "err", U "err", .opn,
    P "size", U "buf", U "size", .opn, U "buf", U "size", A "buf", .cls, T "httpError", U "errors", U "err", U "buf",
    U "http", .cls, .cls, .cls,
    U "mux", U "r", S ["pathParams"], U "pathParams", U "r", S ["queryParams"], U "queryParams"]

/-- TB:421-464 `DecodeHTTP…Request`. -/
def decoder (req meth : Str) (fs : List HField) (os : List HOneof) : List Ev :=
  decoderPre req ++ (fs.filter fun f => f.location ≠ "body".toList).flatMap (fieldEvs meth) ++
    (os.filter fun o => o.location = "query".toList).flatMap (oneofEvs meth) ++ [U "req", U "err"]

/-! ## The HTTP encoders -/

/-- TB:621-624 with httptransport.go:240-262 `PathSections`: only `fmt.Sprint(req.X)` uses names. -/
def sectionEvs (path : Str) : List Ev :=
  (split '/' path).flatMap fun p =>
    if 2 < p.length ∧ p.head? = some '{' ∧ p.getLast? = some '}' then [U "fmt", U "req"] else []

/-- TB:638-666. -/
def encodeField (f : HField) : List Ev :=
  if f.location = "query".toList then
    if f.repeated && f.isBase then [U "req", .opn, S ["v"], .opn, U "values", U "fmt", U "v", .cls, .cls]
    else if !f.isBase || f.repeated then
      [U "json", U "req", A "tmp", A "err"] ++ errReturn [U "errors"] ++ [U "tmp", A "strval", U "values", U "strval"]
    else if f.star then [U "req", .opn, U "values", U "fmt", U "req", .cls]
    else [U "values", U "fmt", U "req"]
  else []

/-- TB:668-687; every option counts as a base type, the first branch is for repeated ones. -/
def encodeOneofEvs (o : HOneof) : List Ev :=
  if o.location = "query".toList then
    o.options.flatMap fun p =>
      if p.repeated then
        [.opn, U "req", S ["val"], U "val", .opn, U "json", U "req", A "tmp", A "err"] ++ errReturn [U "errors"] ++
          [U "tmp", A "strval", U "values", U "strval", .cls, .cls]
      else [.opn, U "req", S ["val"], U "val", .opn, U "values", U "fmt", U "val", .cls, .cls]
  else []

/-- TB:613-714 `EncodeHTTP…Request`. -/
def encoder (req : Str) (verb path : Str) (fs : List HField) (os : List HOneof) : List Ev :=
  [U "context", U "http", P "r", P "request", S ["strval"], U "strval", U "request", .type req, S ["req"], U "req",
    U "r", U "r", U "r", U "strings"] ++ sectionEvs path ++ [S ["path"], U "url", U "path", S ["u", "err"]] ++
  [U "err", .opn, U "errors", U "err", U "path", .cls, U "r", U "u", U "r", U "u", U "r", S ["values"], V "tmp", U "tmp"] ++
  fs.flatMap encodeField ++ os.flatMap encodeOneofEvs ++ [U "r", U "values"] ++
  (if verb ≠ "get".toList then
    [U "request", .type req, S ["toRet"]] ++
    (fs.filter fun f => f.location = "body".toList).flatMap (fun _ => [U "toRet", U "req"]) ++
    [U "protojson", S ["marshaler"], U "marshaler", U "req", S ["data", "err"], U "err", .opn, U "errors", U "err", U "toRet",
      .cls, U "r", U "ioutil", U "bytes", U "data"]
  else [])

/-! ## The other functions of the transport file -/

/-- TB:94-100 -/
def endpointMethod (m : Svcdef.ServiceMethod) : List Ev :=
  [T "Endpoints", U "context", .type (reqT m), .type (respT m), P "e", P "ctx", P "in", U "e", U "ctx", U "in",
    S ["response", "err"]] ++ errReturn [] ++ [U "response", .type (respT m)]

/-- TB:106-117 -/
def makeEndpoint (s : Svcdef.Service) (m : Svcdef.ServiceMethod) : List Ev :=
  [.type (serverT s), U "endpoint", P "s", U "context", .opn, P "ctx", P "request", P "response", P "err", U "request",
    .type (reqT m), S ["req"], U "s", U "ctx", U "req", S ["v", "err"]] ++ errReturn [] ++ [U "v", .cls]

/-- TB:124-145, 156-176: `WrapAllExcept` and `WrapAllLabeledExcept`. -/
def wrapAll (s : Svcdef.Service) : List Ev :=
  [T "Endpoints", U "endpoint", P "e", P "middleware", P "excluded", S ["included"], U "excluded", .opn, S ["ex"], .opn,
    .opn, U "included", U "ex", S ["ok"], U "ok", .opn, U "fmt", U "ex", .cls, .cls, U "included", U "ex", .cls, .cls,
    U "included", .opn, S ["inc"], .opn] ++
  s.methods.flatMap (fun _ => [U "inc", .opn, U "e", U "middleware", U "e", .cls]) ++ [.cls, .cls]

/-- TB:182-198 -/
def makeGRPCServer (s : Svcdef.Service) : List Ev :=
  [T "Endpoints", U "grpctransport", .type (serverT s), P "endpoints", P "options", U "grpctransport",
    U "GRPCMetadataToContext", S ["serverOptions"], U "serverOptions", U "options", A "serverOptions", T "grpcServer"] ++
  s.methods.flatMap fun m => [U "grpctransport", U "endpoints", fn "DecodeGRPC" m.name "Request",
    fn "EncodeGRPC" m.name "Response", U "serverOptions"]

/-- TB:210-216 -/
def grpcMethod (m : Svcdef.ServiceMethod) : List Ev :=
  [T "grpcServer", U "context", .type (reqT m), .type (respT m), P "s", P "ctx", P "req", U "s", U "ctx", U "req",
    S ["rep", "err"]] ++ errReturn [] ++ [U "rep", .type (respT m)]

/-- TB:223-226, 233-236, 290-293, 300-303: the four gRPC conversion functions; `p` is the parameter, `x` the variable. -/
def grpcConvert (p x : String) (t : Str) : List Ev := [U "context", P p, U p, .type t, S [x], U x]

/-- TB:241-253 -/
def metadataToContext : List Ev :=
  [U "context", U "metadata", P "ctx", P "md", U "md", .opn, S ["k", "v"], .opn, U "v", .opn, U "context", U "ctx", U "k",
    U "v", A "ctx", U "context", U "ctx", U "http", U "k", U "v", A "ctx", .cls, .cls, .cls, U "ctx"]

/-- TB:259-285 -/
def newGRPCClient (s : Svcdef.Service) : List Ev :=
  [U "grpc", U "grpctransport", .type (serverT s), P "conn", P "options"] ++
  s.methods.flatMap (fun m => [U "endpoint", .var (Transport.localEndpoint m.name), .opn, U "grpctransport", U "conn",
    fn "EncodeGRPC" m.name "Request", fn "DecodeGRPC" m.name "Response", .type (respT m), U "options",
    .assign (Transport.localEndpoint m.name), .cls]) ++ [T "Endpoints"] ++
  s.methods.map fun m => .use (Transport.localEndpoint m.name)

/-- TB:307-322 -/
def valuesToMetadata : List Ev :=
  [U "grpctransport", P "keys", U "context", U "metadata", .opn, P "ctx", P "md", V "pairs", U "keys", .opn, S ["k"], .opn,
    .opn, U "ctx", U "k", S ["v", "ok"], U "ok", .opn, U "pairs", U "k", U "v", A "pairs", .cls, .cls, .cls, .cls, U "pairs",
    .opn, U "md", U "metadata", U "md", U "metadata", U "pairs", .cls, U "ctx", .cls]

/-- TB:330-352 -/
def makeHTTPHandler (s : Svcdef.Service) : List Ev :=
  [T "Endpoints", U "httptransport", U "http", P "endpoints", P "options"] ++
  (if httpMethods s = [] then [] else [U "httptransport", U "httptransport", U "HTTPHeadersToContext", U "httptransport",
    U "errorEncoder", U "httptransport", U "httptransport", U "contentType", S ["serverOptions"], U "serverOptions",
    U "options", A "serverOptions"]) ++ [U "mux", S ["m"]] ++
  (httpMethods s).flatMap (fun m => (HTTP.methodLabels m).flatMap fun l =>
    [U "m", U "httptransport", U "endpoints", fn "DecodeHTTP" l "Request", U "EncodeHTTPGenericResponse",
      U "serverOptions"]) ++ [U "m"]

/-- TB:361-380 -/
def errorEncoderEvs : List Ev :=
  [U "context", U "http", P "err", P "w", U "json", T "errorWrapper", U "err", S ["body"], .opn, U "err", U "json",
    S ["marshaler", "ok"], U "ok", .opn, .opn, U "marshaler", S ["jsonBody", "marshalErr"], U "marshalErr", .opn,
    U "jsonBody", A "body", .cls, .cls, .cls, .cls, U "w", U "contentType", .opn, U "err", U "httptransport",
    S ["headerer", "ok"], U "ok", .opn, U "headerer", .opn, S ["k"], .opn, U "w", U "k", U "headerer", U "k", .cls, .cls,
    .cls, .cls, U "http", S ["code"], .opn, U "err", U "httptransport", S ["sc", "ok"], U "ok", .opn, U "sc", A "code", .cls,
    .cls, U "w", U "code", U "w", U "body"]

/-- TB:382-393 -/
def errorDecoderEvs : List Ev :=
  [P "buf", T "errorWrapper", V "w", .opn, U "json", U "buf", U "w", S ["err"], U "err", .opn, P "size", U "buf", U "size",
    .opn, U "buf", U "size", A "buf", .cls, U "fmt", U "buf", .cls, .cls, U "errors", U "w"]

/-- TB:407-413: `StatusCode` and `Headers`. -/
def httpErrorMethods : List (List Ev) :=
  [[T "httpError", P "h", U "h"], [T "httpError", U "http", P "h", U "h"]]

/-- TB:469-482 -/
def genericResponse : List Ev :=
  [U "context", U "http", P "w", P "response", U "protojson", S ["marshaller"], U "marshaller", U "response", U "proto",
    S ["buf", "err"]] ++ errReturn [] ++ [U "w", U "buf", A "err", U "err"]

/-- TB:486-502 -/
def headersToContext : List Ev :=
  [U "context", U "http", P "ctx", P "r", U "r", .opn, S ["k"], .opn, U "context", U "ctx", U "k", U "r", U "k", A "ctx",
    U "context", U "ctx", U "strings", U "k", U "r", U "k", A "ctx", .cls, .cls, U "context", U "ctx", U "r", A "ctx",
    U "context", U "ctx", A "ctx", U "ctx"]

/-- TB:521-547: the label of a method's first binding. -/
def firstLabels (s : Svcdef.Service) : List (Svcdef.ServiceMethod × Str) :=
  (httpMethods s).filterMap fun m => (HTTP.methodLabels m).head?.map fun l => (m, l)

/-- TB:509-549 -/
def newHTTPClient (s : Svcdef.Service) : List Ev :=
  [U "httptransport", .type (serverT s), P "instance", P "options", U "strings", U "instance", .opn, U "instance",
    A "instance", .cls, U "url", U "instance", S ["u", "err"]] ++ errReturn [] ++ [U "u"] ++
  (firstLabels s).flatMap (fun x => [U "endpoint", .var (Transport.endpointField x.2), .opn, U "httptransport", U "copyURL",
    U "u", fn "EncodeHTTP" x.2 "Request", fn "DecodeHTTP" x.1.name "Response", U "options",
    .assign (Transport.endpointField x.2), .cls]) ++ [T "Endpoints"] ++
  (firstLabels s).map fun x => .use (Transport.endpointField x.2)

/-- TB:551-555 -/
def copyURLEvs : List Ev := [U "url", U "url", P "base", P "path", U "base", S ["next"], U "path", U "next", U "next"]

/-- TB:561-570 -/
def ctxValuesToSend : List Ev :=
  [U "httptransport", P "keys", U "httptransport", U "context", U "http", .opn, P "ctx", P "r", U "keys", .opn, S ["k"],
    .opn, .opn, U "ctx", U "k", S ["v", "ok"], U "ok", .opn, U "r", U "k", U "v", .cls, .cls, .cls, .cls, U "ctx", .cls]

/-- TB:580-606 `DecodeHTTP…Response` -/
def decodeResponse (m : Svcdef.ServiceMethod) : List Ev :=
  [U "context", U "http", P "r", U "r", U "ioutil", U "r", S ["buf", "err"], U "err", U "io", .opn, U "errors", .cls] ++
  errReturn [U "errors"] ++ [U "r", U "http", .opn, U "errors", U "errorDecoder", U "buf", U "r", .cls, .type (respT m),
    V "resp", U "protojson", S ["unmarshaller"], .opn, U "unmarshaller", U "buf", U "resp", A "err", U "err", .opn,
    U "errorDecoder", U "buf", .cls, .cls, U "resp"]

/-- TB:721-732 -/
def serveNATS (s : Svcdef.Service) : List Ev :=
  [U "nats", T "natsServer", P "conn", P "srv"] ++
  s.methods.flatMap fun m => [U "conn", U "srv", U "conn", .short [toLower m.name ++ "Sub".toList, "err".toList]] ++
    errReturn [] ++ [.use (toLower m.name ++ "Sub".toList)]

/-- TB:735-752 -/
def makeNATSServer (s : Svcdef.Service) : List Ev :=
  [T "Endpoints", U "natstransport", T "natsServer", P "endpoints", P "options", U "natstransport", S ["serverOptions"],
    U "serverOptions", U "options", A "serverOptions", T "natsServer"] ++
  s.methods.flatMap fun m => [U "natstransport", U "endpoints", fn "DecodeNATS" m.name "Request",
    U "EncodeNATSGenericResponse", U "serverOptions"]

/-- TB:763-769, 812-824: `DecodeNATS…Request` and `…Response`. -/
def natsDecode (x : String) (t : Str) : List Ev :=
  [U "context", U "nats", P "ctx", P "msg", .type t, V x, .opn, U "json", U "msg", U x, S ["err"], U "err", .opn, U "err",
    .cls, .cls, U x]

/-- TB:777-779 -/
def natsGenericResponse : List Ev :=
  [U "context", U "nats", P "ctx", P "reply", P "nc", P "response", U "natstransport", U "ctx", U "reply", U "nc",
    U "response"]

/-- TB:785-806 -/
def newNATSClient (s : Svcdef.Service) : List Ev :=
  [U "nats", U "natstransport", .type (serverT s), P "conn", P "options"] ++
  s.methods.flatMap (fun m => [U "endpoint", .var (Transport.localEndpoint m.name), .opn, U "natstransport", U "conn",
    U "EncodeNATSGenericRequest", fn "DecodeNATS" m.name "Response", U "options",
    .assign (Transport.localEndpoint m.name), .cls]) ++ [T "Endpoints"] ++
  s.methods.map fun m => .use (Transport.localEndpoint m.name)

/-- TB:831-833 -/
def natsGenericRequest : List Ev :=
  [U "context", U "nats", P "ctx", P "msg", P "request", U "natstransport", U "ctx", U "msg", U "request"]

/-- The decoders and encoders of all bindings (TB:416-466, 608-716), with the fields `NewBinding` distils. -/
def bindingFuncs (m : Svcdef.ServiceMethod) : List (List Ev) := m.bindings.flatMap fun b =>
  [decoder (reqT m) m.name (bindingFields b) (bindingOneofs b),
    encoder (reqT m) b.verb b.path (bindingFields b) (bindingOneofs b)]

/-- TB:13-52: the names of the imports. -/
def transportImports (g n : Bool) : List Str :=
  (["bytes", "context", "json", "fmt", "io", "ioutil", "http", "url", "strconv", "strings", "endpoint", "anypb", "durationpb",
    "emptypb", "fieldmaskpb", "structpb", "timestamppb", "wrapperspb", "mux", "errors", "protojson", "proto",
    "httptransport"] ++ (if g then ["grpc", "metadata", "grpctransport"] else []) ++
    (if n then ["nats", "natstransport"] else [])).map String.toList

/-- The transport file. Its declarations outside of functions: TB:55-72 (the blank variables), 85-90, 150, 200-206, 326,
395-405, 754-759. -/
def transportFile (t : Str) (s : Svcdef.Service) : File where
  imports := transportImports (grpcOn t) (natsOn t)
  values := (["fmt", "bytes", "strconv", "httptransport", "ioutil", "io", "errors", "anypb", "durationpb", "emptypb",
    "structpb", "timestamppb", "wrapperspb", "fieldmaskpb", "endpoint"] ++
    (if grpcOn t ∧ s.methods ≠ [] then ["grpctransport"] else []) ++
    (if natsOn t ∧ s.methods ≠ [] then ["natstransport"] else [])).map String.toList
  types := [embedded s]
  funcs := s.methods.map endpointMethod ++ s.methods.map (makeEndpoint s) ++ [wrapAll s, wrapAll s] ++
    (if grpcOn t then [makeGRPCServer s] ++ s.methods.map grpcMethod ++
      s.methods.flatMap (fun m => [grpcConvert "grpcReq" "req" (reqT m), grpcConvert "response" "resp" (respT m)]) ++
      [metadataToContext, newGRPCClient s] ++
      s.methods.flatMap (fun m => [grpcConvert "grpcReply" "reply" (respT m), grpcConvert "request" "req" (reqT m)]) ++
      [valuesToMetadata] else []) ++
    [makeHTTPHandler s, errorEncoderEvs, errorDecoderEvs] ++ httpErrorMethods ++ [genericResponse, headersToContext,
      newHTTPClient s, copyURLEvs, ctxValuesToSend] ++ (httpMethods s).map decodeResponse ++
    (httpMethods s).flatMap bindingFuncs ++
    (if natsOn t then [serveNATS s, makeNATSServer s] ++ s.methods.map (fun m => natsDecode "req" (reqT m)) ++
      [natsGenericResponse, newNATSClient s] ++ s.methods.map (fun m => natsDecode "resp" (respT m)) ++
      [natsGenericRequest] else [])

/-! ## server.go -/

/-- TS:38-121 `Run` -/
def runEvs (t : Str) (s : Svcdef.Service) : List Ev :=
  [T "Config", P "cfg", U "Endpoints", S ["endpoints"], S ["errc"], U "Interrupt", U "errc", U "cfg", .opn, .opn, U "log",
    U "cfg", U "http", S ["m"]] ++ ["Index", "Cmdline", "Profile", "Symbol", "Trace"].flatMap (fun _ => [U "m", U "http",
    U "pprof"]) ++ [U "http", U "cfg", U "m", U "errc", .cls, .cls] ++
  (if httpMethods s = [] then [] else [U "cfg", .opn, .opn, U "log", U "cfg", U "pb", U "endpoints", U "HTTPServerOptions",
    S ["h"], U "http", U "cfg", U "h", U "errc", .cls, .cls]) ++
  (if grpcOn t then [U "cfg", .opn, .opn, U "log", U "cfg", U "net", U "cfg", S ["ln", "err"], U "err", .opn, U "errc",
    U "err", .cls, U "pb", U "endpoints", U "GRPCServerOptions", S ["srv"], U "grpc", S ["s"], U "pb", U "s", U "srv",
    U "s", U "ln", U "errc", .cls, .cls] else []) ++
  (if natsOn t then [U "cfg", .opn, .opn, U "log", U "cfg", U "nats", U "cfg", S ["conn", "err"], U "err", .opn, U "errc",
    U "err", .cls, U "nats", .opn, P "c", U "c", .cls, S ["closeConn"], U "runtime", U "conn", U "closeConn", U "pb",
    U "endpoints", U "NATSSubscriberOptions", S ["srv"], U "pb", U "conn", U "srv", A "err", U "err", .opn, U "errc",
    U "err", .cls, .cls, .cls] else []) ++
  [U "log", U "errc"]

/-- TS:123-144 `NewEndpoints` -/
def newEndpoints (s : Svcdef.Service) : List Ev :=
  [U "pb", U "pb", P "svc", U "service", U "svc", A "svc"] ++
  s.methods.flatMap (fun m => [U "pb", U "svc", .var (Transport.localEndpoint m.name)]) ++ [U "pb"] ++
  s.methods.map (fun m => .use (Transport.localEndpoint m.name)) ++ [S ["endpoints"], U "service", U "endpoints",
    A "endpoints", U "endpoints"]

/-- TS:8-30 -/
def serverFile (t : Str) (s : Svcdef.Service) : File where
  imports := (["log", "net", "http", "pprof", "runtime", "pb", "service"] ++ (if natsOn t then ["nats"] else []) ++
    (if grpcOn t then ["grpc"] else [])).map String.toList
  values := ["runtime".toList, "net".toList]
  types := []
  funcs := [runEvs t s, newEndpoints s]

/-! ## The client's main.go -/

/-- TC:56-66, 104-114: one call; the client is `c`. -/
def clientCall (c : String) : List Ev :=
  [.opn, U "context", S ["ctx"], U "pb", V "in", U c, U "ctx", U "in", S ["out", "err"], U "err", .opn, U "log", U "err",
    .cls, U "log", U "out", U "pln", .cls]

/-- TC:76-89: one call over HTTP. -/
def httpCall : List Ev :=
  [.opn, U "context", S ["ctx"], U "pb", V "in", U "pb", U "httpAddr", S ["baronHTTPClient", "err"], U "err", .opn, U "log",
    U "err", .cls, U "baronHTTPClient", U "ctx", U "in", S ["out", "err"], U "err", .opn, U "log", U "err", .cls, U "log",
    U "out", U "pln", .cls]

/-- TC:31-118 `main` -/
def clientMain (t : Str) (s : Svcdef.Service) : List Ev :=
  [U "flag"] ++
  (if grpcOn t then [U "log", U "pln", U "grpc", U "grpcAddr", U "grpc", U "grpc", S ["conn", "err"], U "err", .opn, U "log",
    U "err", .cls, U "conn", U "pb", U "conn", S ["baronGRPCClient", "err"], U "err", .opn, U "log", U "err", .cls] ++
    s.methods.flatMap (fun _ => clientCall "baronGRPCClient") else []) ++
  (if httpMethods s = [] then [] else [U "log", U "pln"] ++ (httpMethods s).flatMap fun _ => httpCall) ++
  (if natsOn t then [U "log", U "pln", U "nats", U "natsAddr", S ["nc", "err"], U "err", .opn, U "log", U "err", .cls,
    U "nc", U "pb", U "nc", S ["baronNATSClient", "err"], U "err", .opn, U "log", U "err", .cls] ++
    s.methods.flatMap (fun _ => clientCall "baronNATSClient") else [])

/-- TC:1-29, 119-122 (`init` and `pln`). -/
def clientFile (t : Str) (s : Svcdef.Service) : File where
  imports := (["context", "flag", "log", "pb"] ++ (if natsOn t then ["nats"] else []) ++
    (if grpcOn t then ["grpc"] else [])).map String.toList
  values := []
  types := []
  funcs := [[U "flag", U "grpcAddr", U "flag", U "httpAddr", U "flag", U "natsAddr"], clientMain t s, [U "log"]]

/-! ## service.go -/

/-- TV:17-24; the receiver and the embedded struct are of type `<service>Service`. -/
def serviceMethod (s : Svcdef.Service) : List Ev :=
  [.type (toLower s.name ++ "Service".toList), U "context", U "pb", U "pb", P "s", P "ctx", P "in", U "pb", V "resp",
    U "resp"]

/-- TV:1-25 -/
def serviceFile (s : Svcdef.Service) : File where
  imports := ["context".toList, "pb".toList]
  values := ["pb".toList]
  types := []
  funcs := [.type (toLower s.name ++ "Service".toList)] :: s.methods.map fun _ => serviceMethod s

end Baron.Locals
