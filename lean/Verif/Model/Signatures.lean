import Verif.Model.SvcdefNew
import Verif.Model.Strs

/-!
# Model of the signatures of the generated methods

The methods the templates write on `Endpoints`, `*grpcServer` and the service type, as names and types; their bodies are
modelled in `Model/Transport.lean` and `Model/Service.lean`. All three types embed `Unimplemented<Service>Server`.
-/

namespace Baron.Sigs

open Baron.Svcdef

/-- A method's name and the types of its parameters and results, as they are written in a file. -/
structure Method where
  name : Str
  params : List GoType
  results : List GoType
  deriving Repr, DecidableEq

/-- `context.Context` -/
def ctxType : GoType := .sel (some "context".toList) "Context".toList

/-- NAME.pb.baron.go.tmpl:93-101: the methods of `Endpoints`. -/
def endpointsMethods (s : Service) : List Method := s.methods.map fun m =>
  ⟨m.name, [ctxType, .star (.ident (Strs.goCamelCase m.request.name))],
    [.star (.ident (Strs.goCamelCase m.response.name)), .ident "error".toList]⟩

/-- NAME.pb.baron.go.tmpl:210-217: the methods of `*grpcServer`; only here the method's name goes through `GoName`. -/
def grpcServerMethods (s : Service) : List Method := s.methods.map fun m =>
  ⟨Strs.goCamelCase m.name, [ctxType, .star (.ident (Strs.goCamelCase m.request.name))],
    [.star (.ident (Strs.goCamelCase m.response.name)), .ident "error".toList]⟩

/-- service.go.tmpl:17-24 and service_methods.go.tmpl:2-7: the methods of the service type, in a file that imports the
package of the transport file as `pb`. -/
def serviceMethods (s : Service) : List Method := s.methods.map fun m =>
  ⟨m.name, [ctxType, .star (.sel (some "pb".toList) (Strs.goCamelCase m.request.name))],
    [.star (.sel (some "pb".toList) (Strs.goCamelCase m.response.name)), .ident "error".toList]⟩

end Baron.Sigs
