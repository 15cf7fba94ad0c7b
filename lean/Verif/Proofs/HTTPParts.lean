import Verif.Model.GoHTTP
import Verif.Proofs.Texts

/-!
# The parts of the transport template with the helpers for HTTP and gRPC (C101)
-/

namespace Baron.GoHTTP

open Baron.TT (Tmpl parse baronSrc)

/-- The decoders of responses, NAME.pb.baron.go.tmpl:574-605. -/
def responseT : Tmpl :=
  .range (some (chars% "method")) (.dot [chars% "HTTPHelper", chars% "Methods"])
    (.text (chars% "\n\t// DecodeHTTP")
    (.action (.var (chars% "method") [chars% "Name"])
    (.text (chars% "Response is a transport/http.DecodeResponseFunc that decodes\n\t// a JSON-encoded ")
    (.action (.call1 (chars% "GoName") (.var (chars% "method") [chars% "ResponseType"]))
    (.text (chars% " response from the HTTP response body.\n\t// If the response has a non-200 status code, we will interpret that as an\n\t// error and attempt to decode the specific error message from the response\n\t// body. Primarily useful in a client.\n\tfunc DecodeHTTP")
    (.action (.var (chars% "method") [chars% "Name"])
    (.text (chars% "Response(_ context.Context, r *http.Response) (interface{}, error) {\n\t\tdefer r.Body.Close()\n\t\tbuf, err := ioutil.ReadAll(r.Body)\n\t\tif err == io.EOF {\n\t\t\treturn nil, errors.New(\"response http body empty\")\n\t\t}\n\t\tif err != nil {\n\t\t\treturn nil, errors.Wrap(err, \"cannot read http body\")\n\t\t}\n\n\t\tif r.StatusCode != http.StatusOK {\n\t\t\treturn nil, errors.Wrapf(errorDecoder(buf), \"status code: '%d'\", r.StatusCode)\n\t\t}\n\n\t\tvar resp ")
    (.action (.call1 (chars% "GoName") (.var (chars% "method") [chars% "ResponseType"]))
    (.text (chars% "\n\t\tunmarshaller := protojson.UnmarshalOptions{\n\t\t\tAllowPartial:   true,\n\t\t\tDiscardUnknown: true,\n\t\t}\n\t\tif err = unmarshaller.Unmarshal(buf, &resp); err != nil {\n\t\t\treturn nil, errorDecoder(buf)\n\t\t}\n\n\t\treturn &resp, nil\n\t}\n")
    .nil)))))))))
  (.text (chars% "")
  .nil)

/-- NAME.pb.baron.go.tmpl:395-397. -/
def wrapperType : Str := chars% "type errorWrapper struct {\n\tError string `json:\"error\"`\n}"

/-- NAME.pb.baron.go.tmpl:401-405. -/
def httpErrorType : Str := chars% "type httpError struct {\n\terror\n\tstatusCode int\n\theaders    map[string][]string\n}"

/-- NAME.pb.baron.go.tmpl:326. -/
def contentTypeConst : Str := chars% "const contentType = \"application/json; charset=utf-8\""

/-- These are parts of the template. -/
theorem httpParts : (parse baronSrc).map (fun t => [
  t.part 35 518 0 630,
  t.part 35 1150 0 290,
  t.part 35 1698 0 60,
  t.part 35 1760 0 62,
  t.part 37 161 0 374,
  t.part 37 558 0 658,
  t.part 45 12 0 100,
  t.part 45 428 0 282,
  (t.skip 30).body.part 22 14 0 419,
  (t.skip 30).body.part 32 70 0 380,
  t.part 35 1442 0 57,
  t.part 35 1616 0 80,
  t.part 31 97 0 53,
  t.part 46 0 1 0]) = some [
  .text errorEncoder.print .nil,
  .text errorDecoder.print .nil,
  .text statusCode.print .nil,
  .text headers.print .nil,
  .text encodeResponse.print .nil,
  .text headersToContext.print .nil,
  .text copyURL.print .nil,
  .text ctxValuesToSend.print .nil,
  .text metadataToContext.print .nil,
  .text valuesToMetadata.print .nil,
  .text wrapperType .nil,
  .text httpErrorType .nil,
  .text contentTypeConst .nil,
  responseT] := by
  decide +kernel

structure HTTPParts (t : Tmpl) : Prop where
  errorEncoder : t.part 35 518 0 630 = .text GoHTTP.errorEncoder.print .nil
  errorDecoder : t.part 35 1150 0 290 = .text GoHTTP.errorDecoder.print .nil
  statusCode : t.part 35 1698 0 60 = .text GoHTTP.statusCode.print .nil
  headers : t.part 35 1760 0 62 = .text GoHTTP.headers.print .nil
  encodeResponse : t.part 37 161 0 374 = .text GoHTTP.encodeResponse.print .nil
  headersToContext : t.part 37 558 0 658 = .text GoHTTP.headersToContext.print .nil
  copyURL : t.part 45 12 0 100 = .text GoHTTP.copyURL.print .nil
  ctxValuesToSend : t.part 45 428 0 282 = .text GoHTTP.ctxValuesToSend.print .nil
  metadataToContext : (t.skip 30).body.part 22 14 0 419 = .text GoHTTP.metadataToContext.print .nil
  valuesToMetadata : (t.skip 30).body.part 32 70 0 380 = .text GoHTTP.valuesToMetadata.print .nil
  wrapperType : t.part 35 1442 0 57 = .text GoHTTP.wrapperType .nil
  httpErrorType : t.part 35 1616 0 80 = .text GoHTTP.httpErrorType .nil
  contentTypeConst : t.part 31 97 0 53 = .text GoHTTP.contentTypeConst .nil
  responseT : t.part 46 0 1 0 = GoHTTP.responseT

theorem httpParts_of {t : Tmpl} (h : parse baronSrc = some t) : HTTPParts t := by
  have := httpParts
  rw [h, Option.map_some, Option.some.injEq] at this
  simp only [List.cons.injEq, and_true] at this
  obtain ⟨h0, h1, h2, h3, h4, h5, h6, h7, h8, h9, h10, h11, h12, h13⟩ := this
  exact ⟨h0, h1, h2, h3, h4, h5, h6, h7, h8, h9, h10, h11, h12, h13⟩

end Baron.GoHTTP
