import Verif.Spec.GoFunc
import Verif.Proofs.FuncParts
import Verif.Props.Files

/-!
# The texts of the functions of C99
-/

namespace Baron.GoFunc

open Baron.TT hiding Config grpcMethod Val
open Baron.Svcdef (Service ServiceMethod)

/-! ## The functions' texts, as the templates write them -/

set_option maxRecDepth 16000 in
theorem endpointFunc_print (m : ServiceMethod) : chars% "\n" ++ ((endpointFunc m).print ++ chars% "\n") = endpointMethod m := by
  unfold endpointFunc endpointMethod Func.print failing pair methodParams methodResults star
  simp only [Code.print, Expr.print, Args.print, printNames, printParams, printParam, printResults, List.append_assoc]
  rfl

set_option maxRecDepth 16000 in
theorem makeEndpoint_print (service : Str) (m : ServiceMethod) : chars% "\n" ++ (makeEndpoint service m).print = endpointMaker service m := by
  unfold makeEndpoint endpointMaker Func.print endpointBody failing pair single endpointParams endpointResults
  simp only [Code.print, Expr.print, Args.print, printNames, printParams, printParam, printResults, List.append_assoc]
  rfl

set_option maxRecDepth 16000 in
theorem grpcMethod_print (m : ServiceMethod) : chars% "\n" ++ ((grpcMethod m).print ++ chars% "\n") = TT.grpcMethod m := by
  unfold grpcMethod TT.grpcMethod Func.print failing pair methodParams methodResults star
  simp only [Code.print, Expr.print, Args.print, printNames, printParams, printParam, printResults, List.append_assoc]
  rfl

set_option maxRecDepth 16000 in
theorem handlers_print (l : List ServiceMethod) : (handlers l).print = l.flatMap grpcHandler ++ chars% "\n\t" := by
  induction l with
  | nil => rfl
  | cons m l ih =>
    rw [handlers, List.flatMap_cons]
    simp only [Args.print, ih, handlerArgs, Expr.print, List.append_assoc]
    simp only [grpcHandler, List.flatten_cons, List.flatten_nil, List.append_nil, List.append_assoc]
    rfl

set_option maxRecDepth 16000 in
theorem namedEndpoints_print (last : Str) (l : List ServiceMethod) : (namedEndpoints last l).print = l.flatMap namedEndpoint ++ last := by
  induction l with
  | nil => rfl
  | cons m l ih =>
    rw [namedEndpoints, List.flatMap_cons]
    simp only [Args.print, ih, Expr.print, endpointVar, List.append_assoc, List.nil_append]
    simp only [namedEndpoint, List.flatten_cons, List.flatten_nil, List.append_nil, List.append_assoc]
    rfl

set_option maxRecDepth 16000 in
theorem clientEndpoints_print (pkg service : Str) (rest : Code) (l : List ServiceMethod) :
    (clientEndpoints pkg service rest l).print = l.flatMap (grpcEndpoint pkg service) ++ rest.print := by
  induction l with
  | nil => rfl
  | cons m l ih =>
    rw [clientEndpoints, List.flatMap_cons]
    simp only [Code.print, Args.print, ih, Expr.print, endpointVar, clientArgs, List.append_assoc, List.nil_append]
    simp only [grpcEndpoint, List.flatten_cons, List.flatten_nil, List.append_nil, List.append_assoc]
    rfl

set_option maxRecDepth 16000 in
theorem madeEndpoints_print (l : List ServiceMethod) : (madeEndpoints l).print =
    l.flatMap (fun m => [toLower m.name, chars% "Endpoint = pb.Make", m.name, chars% "Endpoint(svc)\n\t"].flatten) ++ chars% "\n\t" := by
  induction l with
  | nil => rfl
  | cons m l ih =>
    rw [madeEndpoints, List.flatMap_cons]
    simp only [Code.print, Args.print, ih, Expr.print, endpointVar, single, List.append_assoc, List.nil_append]
    simp only [List.flatten_cons, List.flatten_nil, List.append_nil, List.append_assoc]
    rfl

set_option maxRecDepth 16000 in
theorem stubFunc_print (s : Service) (m : ServiceMethod) : chars% "\n\t\t" ++ ((stubFunc s m).print ++ chars% "\n\t") = stub s.name m := by
  unfold stubFunc stub Func.print pair methodParams methodResults star serviceType
  simp only [Code.print, Expr.print, Args.print, printNames, printParams, printParam, printResults, List.append_assoc]
  rfl

end Baron.GoFunc
