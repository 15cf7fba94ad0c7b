import Verif.Model.HTTPNames
import Verif.Model.Transport

/-!
# The identifiers declared by the generated Go files

Models which identifiers `gengokit/template/NAME-service/baron/NAME.pb.baron.go.tmpl` (cited as TB) and
`gengokit/template/NAME-service/server/server.go.tmpl` (cited as TS) declare, scope by scope, once the template has been
executed for a service. Only the declared names are modelled, not what the declarations contain; imports (file scope) are
not listed, they are all lower-case words none of which the templates declare at package level.
-/

namespace Baron.Idents

/-- A group of declarations made by one `range` over the methods (or bindings): the template text before and after the
name, and the names ranged over. -/
structure Family where
  pre : Str
  suf : Str
  names : List Str

/-- The names a group declares. -/
def Family.declared (f : Family) : List Str := f.names.map fun n => f.pre ++ n ++ f.suf

/-- TB:42, 178: `eq .Config.Transport "all" "grpc"`. -/
def grpcOn (transport : Str) : Bool := transport = "all".toList || transport = "grpc".toList
/-- TB:39, 717: `eq .Config.Transport "all" "nats"`. -/
def natsOn (transport : Str) : Bool := transport = "all".toList || transport = "nats".toList

/-- TB:178-323: the fixed package-level names of the gRPC part. -/
def fixedGRPC : List Str :=
  ["MakeGRPCServer".toList,          -- TB:182
   "grpcServer".toList,              -- TB:201
   "GRPCMetadataToContext".toList,   -- TB:241
   "NewGRPCClient".toList,           -- TB:259
   "ContextValuesToGRPCMetadata".toList] -- TB:307

/-- TB:717-834: the fixed package-level names of the NATS part. -/
def fixedNATS : List Str :=
  ["ServeNATS".toList,               -- TB:721
   "MakeNATSServer".toList,          -- TB:735
   "natsServer".toList,              -- TB:755
   "EncodeNATSGenericResponse".toList, -- TB:777
   "NewNATSClient".toList,           -- TB:785
   "EncodeNATSGenericRequest".toList]  -- TB:831

/-- The other fixed package-level names of TB. -/
def fixedHTTP : List Str :=
  ["Endpoints".toList,               -- TB:85
   "LabeledMiddleware".toList,       -- TB:150
   "contentType".toList,             -- TB:326
   "MakeHTTPHandler".toList,         -- TB:330
   "errorEncoder".toList,            -- TB:361
   "errorDecoder".toList,            -- TB:382
   "errorWrapper".toList,            -- TB:395
   "httpError".toList,               -- TB:401
   "EncodeHTTPGenericResponse".toList, -- TB:469
   "HTTPHeadersToContext".toList,    -- TB:486
   "NewHTTPClient".toList,           -- TB:509
   "copyURL".toList,                 -- TB:551
   "CtxValuesToSend".toList]         -- TB:561

def fixed (g n : Bool) : List Str :=
  fixedHTTP ++ (if g then fixedGRPC else []) ++ (if n then fixedNATS else [])

/-- httptransport.go:33-47 `NewHelper`: the methods with at least one binding. -/
def httpMethods (s : Svcdef.Service) : List Svcdef.ServiceMethod := s.methods.filter fun m => !m.bindings.isEmpty

def names (s : Svcdef.Service) : List Str := s.methods.map (·.name)

/-- The package-level functions TB declares for every method or binding. -/
def families (g n : Bool) (s : Svcdef.Service) : List Family :=
  [⟨"Make".toList, "Endpoint".toList, names s⟩,                                    -- TB:106
   ⟨"DecodeHTTP".toList, "Request".toList, HTTP.serviceLabels s⟩,                  -- TB:421
   ⟨"DecodeHTTP".toList, "Response".toList, (httpMethods s).map (·.name)⟩,         -- TB:580
   ⟨"EncodeHTTP".toList, "Request".toList, HTTP.serviceLabels s⟩]                  -- TB:613
  ++ (if g then
    [⟨"DecodeGRPC".toList, "Request".toList, names s⟩,                             -- TB:223
     ⟨"EncodeGRPC".toList, "Response".toList, names s⟩,                            -- TB:233
     ⟨"DecodeGRPC".toList, "Response".toList, names s⟩,                            -- TB:290
     ⟨"EncodeGRPC".toList, "Request".toList, names s⟩] else [])                    -- TB:300
  ++ (if n then
    [⟨"DecodeNATS".toList, "Request".toList, names s⟩,                             -- TB:763
     ⟨"DecodeNATS".toList, "Response".toList, names s⟩] else [])                   -- TB:812

/-- All package-level identifiers of the transport file. -/
def topLevel (transport : Str) (s : Svcdef.Service) : List Str :=
  fixed (grpcOn transport) (natsOn transport) ++
    (families (grpcOn transport) (natsOn transport) s).flatMap Family.declared

/-- TB:86, 202: the embedded field. -/
def embedded (s : Svcdef.Service) : Str := "Unimplemented".toList ++ s.name ++ "Server".toList

/-- TB:85-101, 124, 156: fields and methods of `Endpoints` (one name space in Go). -/
def endpointsMembers (s : Svcdef.Service) : List Str :=
  embedded s :: (names s).map Transport.endpointField ++ names s ++
    ["WrapAllExcept".toList, "WrapAllLabeledExcept".toList]

/-- TB:201-217: fields and methods of `grpcServer`. -/
def grpcServerMembers (s : Svcdef.Service) : List Str :=
  embedded s :: (names s).map toLower ++ (names s).map Strs.goCamelCase

/-- TB:755-759: fields of `natsServer`. -/
def natsServerMembers (s : Svcdef.Service) : List Str := names s

/-- TB:259-284: parameters and variables of `NewGRPCClient`. -/
def newGRPCClientLocals (s : Svcdef.Service) : List Str :=
  "conn".toList :: "options".toList :: (names s).map Transport.localEndpoint

/-- TB:721-732: parameters and variables of `ServeNATS` (`err` is declared by the first `:=` and then only assigned). -/
def serveNATSLocals (s : Svcdef.Service) : List Str :=
  "conn".toList :: "srv".toList :: (if (names s).isEmpty then [] else ["err".toList]) ++
    (names s).map fun n => toLower n ++ "Sub".toList

/-- TB:785-806: parameters and variables of `NewNATSClient`. -/
def newNATSClientLocals (s : Svcdef.Service) : List Str :=
  "conn".toList :: "options".toList :: (names s).map Transport.localEndpoint

/-- TB:509-549: parameters and variables of `NewHTTPClient`; `index $method.Bindings 0` is the first binding. -/
def newHTTPClientLocals (s : Svcdef.Service) : List Str :=
  "instance".toList :: "options".toList :: "u".toList :: "err".toList ::
    (httpMethods s).filterMap fun m => (HTTP.methodLabels m).head?.map Transport.endpointField

/-- TS:125-144: parameters and variables of `NewEndpoints`. -/
def newEndpointsLocals (s : Svcdef.Service) : List Str :=
  "svc".toList :: (names s).map Transport.localEndpoint ++ ["endpoints".toList]

/-- The scopes in which the generated files declare identifiers that depend on the service. -/
def scopes (transport : Str) (s : Svcdef.Service) : List (List Str) :=
  [topLevel transport s, endpointsMembers s, newHTTPClientLocals s, newEndpointsLocals s]
  ++ (if grpcOn transport then [grpcServerMembers s, newGRPCClientLocals s] else [])
  ++ (if natsOn transport then [natsServerMembers s, serveNATSLocals s, newNATSClientLocals s] else [])

end Baron.Idents
