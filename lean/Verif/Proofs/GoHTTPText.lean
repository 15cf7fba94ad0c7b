import Verif.Proofs.HTTPParts
import Verif.Props.Wiring

/-!
# The texts of the helpers for HTTP and gRPC (C101)
-/

namespace Baron.GoHTTP

open Baron.TT hiding Config Val Expr Vars apply
open Baron.TT (dataWith)
open Baron.Svcdef (Service ServiceMethod)

/-- What is written for the decoder of the responses of an rpc. -/
def responseText (m : ServiceMethod) : Str := [
  chars% "\n\t// DecodeHTTP", m.name, chars% "Response is a transport/http.DecodeResponseFunc that decodes\n\t// a JSON-encoded ", Strs.goCamelCase m.response.name,
  chars% " response from the HTTP response body.\n\t// If the response has a non-200 status code, we will interpret that as an\n\t// error and attempt to decode the specific error message from the response\n\t// body. Primarily useful in a client.\n\tfunc DecodeHTTP", m.name,
  chars% "Response(_ context.Context, r *http.Response) (interface{}, error) {\n\t\tdefer r.Body.Close()\n\t\tbuf, err := ioutil.ReadAll(r.Body)\n\t\tif err == io.EOF {\n\t\t\treturn nil, errors.New(\"response http body empty\")\n\t\t}\n\t\tif err != nil {\n\t\t\treturn nil, errors.Wrap(err, \"cannot read http body\")\n\t\t}\n\n\t\tif r.StatusCode != http.StatusOK {\n\t\t\treturn nil, errors.Wrapf(errorDecoder(buf), \"status code: '%d'\", r.StatusCode)\n\t\t}\n\n\t\tvar resp ",
  Strs.goCamelCase m.response.name, chars% "\n\t\tunmarshaller := protojson.UnmarshalOptions{\n\t\t\tAllowPartial:   true,\n\t\t\tDiscardUnknown: true,\n\t\t}\n\t\tif err = unmarshaller.Unmarshal(buf, &resp); err != nil {\n\t\t\treturn nil, errorDecoder(buf)\n\t\t}\n\n\t\treturn &resp, nil\n\t}\n"].flatten

set_option maxRecDepth 16000 in
theorem decodeResponse_text (m : ServiceMethod) : Occurs (decodeResponse m.name (Strs.goCamelCase m.response.name)).print (responseText m) := by
  refine ⟨chars% "\n\t// DecodeHTTP" ++ (m.name ++ (chars% "Response is a transport/http.DecodeResponseFunc that decodes\n\t// a JSON-encoded " ++ (Strs.goCamelCase m.response.name ++
    chars% " response from the HTTP response body.\n\t// If the response has a non-200 status code, we will interpret that as an\n\t// error and attempt to decode the specific error message from the response\n\t// body. Primarily useful in a client.\n\t"))), chars% "\n", ?_⟩
  unfold responseText decodeResponse Func.print readArgs
  simp only [Code.print, Expr.print, Args.print, args, var, printNames, printParams, List.append_assoc, List.flatten_cons, List.flatten_nil]
  rfl

section
variable {fmt : Str → Str} {pkg : Str} {s : Service} {c : TT.Config} {txt : Str}

theorem helpers_occur (h : render fmt pkg s c "baron/NAME.pb.baron.go.tmpl".toList = some txt) :
    (∀ f ∈ helpers, Occurs f.print txt) ∧ Occurs wrapperType txt ∧ Occurs httpErrorType txt ∧ Occurs contentTypeConst txt := by
  obtain ⟨ms, hms, t, hp, he⟩ := render_data (src := baronSrc) rfl h
  have H := httpParts_of hp
  have go : ∀ {k c' n : Nat} {x : Str}, t.part k c' 0 n = .text x .nil → Occurs x txt := by
    intro k c' n x hx
    obtain ⟨a, h1, h2⟩ := exec_part k c' 0 n he
    rw [hx, exec_text_nil] at h1
    cases h1
    exact h2
  refine ⟨?_, go H.wrapperType, go H.httpErrorType, go H.contentTypeConst⟩
  intro f hf
  simp only [helpers, List.mem_cons, List.not_mem_nil, or_false] at hf
  rcases hf with rfl | rfl | rfl | rfl | rfl | rfl | rfl | rfl
  · exact go H.errorEncoder
  · exact go H.errorDecoder
  · exact go H.statusCode
  · exact go H.headers
  · exact go H.encodeResponse
  · exact go H.headersToContext
  · exact go H.copyURL
  · exact go H.ctxValuesToSend

theorem grpc_helpers_occur (h : render fmt pkg s c "baron/NAME.pb.baron.go.tmpl".toList = some txt)
    (hc : c.transport = "all".toList ∨ c.transport = "grpc".toList) : ∀ f ∈ grpcHelpers, Occurs f.print txt := by
  obtain ⟨ms, hms, t, hp, he⟩ := render_data (src := baronSrc) rfl h
  have H := httpParts_of hp
  obtain ⟨b, hb, ho⟩ := grpc_inside hp he hc
  have go : ∀ {k c' n : Nat} {x : Str}, (t.skip 30).body.part k c' 0 n = .text x .nil → Occurs x txt := by
    intro k c' n x hx
    obtain ⟨a, h1, h2⟩ := exec_part k c' 0 n hb
    rw [hx, exec_text_nil] at h1
    cases h1
    exact h2.trans ho
  intro f hf
  simp only [grpcHelpers, List.mem_cons, List.not_mem_nil, or_false] at hf
  rcases hf with rfl | rfl
  · exact go H.metadataToContext
  · exact go H.valuesToMetadata

theorem responses_occur (h : render fmt pkg s c "baron/NAME.pb.baron.go.tmpl".toList = some txt) {m : ServiceMethod} (hm : m ∈ s.methods)
    (hb : m.bindings ≠ []) : Occurs (decodeResponse m.name (Strs.goCamelCase m.response.name)).print txt := by
  obtain ⟨ms, hms, t, hp, he⟩ := render_data (src := baronSrc) rfl h
  obtain ⟨a, h1, h2⟩ := exec_part 46 0 1 0 he
  rw [(httpParts_of hp).responseT] at h1
  have hr : exec responseT [([], dataWith pkg s c ms)] (dataWith pkg s c ms) = some ((httpRpcs s).flatMap responseText ++ []) := by
    unfold responseT
    refine exec_range (l := ms) rfl (each_all2 hms ?_) exec_text_nil
    intro m v hv
    obtain ⟨bs, hbs, rfl⟩ := helperMethod_bindings hv
    rfl
  rw [hr, Option.some.injEq] at h1
  subst h1
  have hm' : m ∈ httpRpcs s := by
    refine List.mem_filter.mpr ⟨hm, ?_⟩
    cases hbs : m.bindings with
    | nil => exact absurd hbs hb
    | cons _ _ => rfl
  exact (((decodeResponse_text m).trans (occurs_flatMap hm')).left _).trans h2

end

end Baron.GoHTTP
