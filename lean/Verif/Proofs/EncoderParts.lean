import Verif.Proofs.Texts

/-!
# The part of the transport template that the texts of C91 come from
-/

namespace Baron.TT

/-- An option of a oneof in the query. -/
def optionQT : Tmpl :=
  .text (chars% "\n\t\t\t\t\t")
        (.cond (.call2 (chars% "or") (.call1 (chars% "not") (.var (chars% "option") [chars% "IsBaseType"])) (.var (chars% "option") [chars% "Repeated"]))
          (.text (chars% "\n\t\t\t\t\t\tif val := req.Get")
          (.action (.var (chars% "option") [chars% "Name"])
          (.text (chars% "(); val != ")
          (.action (.var (chars% "option") [chars% "ZeroValue"])
          (.text (chars% " {\n\t\t\t\t\t\t\ttmp, err = json.Marshal(req.Get")
          (.action (.var (chars% "option") [chars% "Name"])
          (.text (chars% "())\n\t\t\t\t\t\t\tif err != nil {\n\t\t\t\t\t\t\t\treturn errors.Wrap(err, \"failed to marshal req.Get")
          (.action (.var (chars% "option") [chars% "Name"])
          (.text (chars% "()\")\n\t\t\t\t\t\t\t}\n\t\t\t\t\t\t\tstrval = string(tmp)\n\t\t\t\t\t\t\tvalues.Add(\"")
          (.action (.var (chars% "option") [chars% "QueryParamName"])
          (.text (chars% "\", strval)\n\t\t\t\t\t\t}\n\t\t\t\t\t")
          .nil)))))))))))
          (.text (chars% "\n\t\t\t\t\t\tif val := req.Get")
          (.action (.var (chars% "option") [chars% "Name"])
          (.text (chars% "(); val != ")
          (.action (.var (chars% "option") [chars% "ZeroValue"])
          (.text (chars% " {\n\t\t\t\t\t\t\tvalues.Add(\"")
          (.action (.var (chars% "option") [chars% "QueryParamName"])
          (.text (chars% "\", fmt.Sprint(val))\n\t\t\t\t\t\t}")
          .nil)))))))
        .nil)

/-- A oneof. -/
def oneofQT : Tmpl :=
  .cond (.call2 (chars% "eq") (.var (chars% "oneof") [chars% "Location"]) (.str (chars% "query")))
      (.range (some (chars% "option")) (.var (chars% "oneof") [chars% "Options"])
        optionQT
      .nil)
      .nil
    .nil

/-- A field in the query. -/
def fieldQT : Tmpl :=
  .cond (.call2 (chars% "eq") (.var (chars% "field") [chars% "Location"]) (.str (chars% "query")))
      (.text (chars% "\n\t\t\t\t")
      (.cond (.call2 (chars% "and") (.var (chars% "field") [chars% "Repeated"]) (.var (chars% "field") [chars% "IsBaseType"]))
        (.cond (.call2 (chars% "Contains") (.var (chars% "field") [chars% "GoType"]) (.str (chars% "[]string")))
          (.text (chars% "\n\t\t\t\t\tvalues[\"")
          (.action (.var (chars% "field") [chars% "QueryParamName"])
          (.text (chars% "\"] = req.")
          (.action (.var (chars% "field") [chars% "CamelName"])
          .nil))))
          (.text (chars% "\n\t\t\t\t\tfor _, v := range req.")
          (.action (.var (chars% "field") [chars% "CamelName"])
          (.text (chars% " {\n\t\t\t\t\t\tvalues.Add(\"")
          (.action (.var (chars% "field") [chars% "QueryParamName"])
          (.text (chars% "\", fmt.Sprint(v))\n\t\t\t\t\t}")
          .nil)))))
        (.text (chars% "\n\t\t\t\t")
        .nil))
        (.cond (.call2 (chars% "or") (.call1 (chars% "not") (.var (chars% "field") [chars% "IsBaseType"])) (.var (chars% "field") [chars% "Repeated"]))
          (.text (chars% "\n\t\t\t\t\ttmp, err = json.Marshal(req.")
          (.action (.var (chars% "field") [chars% "CamelName"])
          (.text (chars% ")\n\t\t\t\t\tif err != nil {\n\t\t\t\t\t\treturn errors.Wrap(err, \"failed to marshal req.")
          (.action (.var (chars% "field") [chars% "CamelName"])
          (.text (chars% "\")\n\t\t\t\t\t}\n\t\t\t\t\tstrval = string(tmp)\n\t\t\t\t\tvalues.Add(\"")
          (.action (.var (chars% "field") [chars% "QueryParamName"])
          (.text (chars% "\", strval)\n\t\t\t\t")
          .nil)))))))
          (.text (chars% "\n\t\t\t\t\t")
          (.cond (.var (chars% "field") [chars% "StarExpr"])
            (.text (chars% "\n\t\t\t\t\tif req.")
            (.action (.var (chars% "field") [chars% "CamelName"])
            (.text (chars% " !=nil {\n\t\t\t\t\t\tvalues.Add(\"")
            (.action (.var (chars% "field") [chars% "QueryParamName"])
            (.text (chars% "\", fmt.Sprint(*req.")
            (.action (.var (chars% "field") [chars% "CamelName"])
            (.text (chars% "))\n\t\t\t\t\t}\n\t\t\t\t\t")
            .nil)))))))
            (.text (chars% "\n\t\t\t\t\tvalues.Add(\"")
            (.action (.var (chars% "field") [chars% "QueryParamName"])
            (.text (chars% "\", fmt.Sprint(req.")
            (.action (.var (chars% "field") [chars% "CamelName"])
            (.text (chars% "))\n\t\t\t\t\t")
            .nil)))))
          .nil))
        .nil)
      .nil))
      .nil
    .nil

/-- A field in the body. -/
def fieldBT : Tmpl :=
  .cond (.call2 (chars% "eq") (.var (chars% "field") [chars% "Location"]) (.str (chars% "body")))
        (.text (chars% "\n\t\t\t\t")
        (.text (chars% "\n\t\t\t\ttoRet.")
        (.action (.var (chars% "field") [chars% "CamelName"])
        (.text (chars% " = req.")
        (.action (.var (chars% "field") [chars% "CamelName"])
        (.text (chars% "\n\t\t\t")
        .nil))))))
        .nil
      .nil

/-- The encoder of a binding. -/
def encoderFullT : Tmpl :=
  .text (chars% "func EncodeHTTP")
  (.action (.var (chars% "binding") [chars% "Label"])
  (.text (chars% "Request(_ context.Context, r *http.Request, request interface{}) error {\n\t\tstrval := \"\"\n\t\t_ = strval\n\t\treq := request.(*")
  (.action (.call1 (chars% "GoName") (.var (chars% "binding") [chars% "Parent", chars% "RequestType"]))
  (.text (chars% ")\n\t\t_ = req\n\n\t\tr.Header.Set(\"transport\", \"HTTPJSON\")\n\t\tr.Header.Set(\"request-url\", r.URL.Path)\n\n\t\t// Set the path parameters\n\t\tpath := strings.Join([]string{")
  (.range (some (chars% "section")) (.var (chars% "binding") [chars% "PathSections"])
    (.text (chars% "\n\t\t\t")
    (.action (.var (chars% "section") [])
    (.text (chars% ",")
    .nil)))
  (.text (chars% "\n\t\t}, \"/\")\n\t\tu, err := url.Parse(path)\n\t\tif err != nil {\n\t\t\treturn errors.Wrapf(err, \"couldn't unmarshal path %q\", path)\n\t\t}\n\t\tr.URL.RawPath = u.RawPath\n\t\tr.URL.Path = u.Path\n\n\t\t// Set the query parameters\n\t\tvalues := r.URL.Query()\n\t\tvar tmp []byte\n\t\t_ = tmp")
  (.range (some (chars% "field")) (.var (chars% "binding") [chars% "Fields"])
    fieldQT
  (.range (some (chars% "oneof")) (.var (chars% "binding") [chars% "OneofFields"])
    oneofQT
  (.text (chars% "\n\n\t\tr.URL.RawQuery = values.Encode()")
  (.cond (.call2 (chars% "ne") (.var (chars% "binding") [chars% "Verb"]) (.str (chars% "get")))
    (.text (chars% "\n\t\t// Set the body parameters\n\t\ttoRet := request.(*")
    (.action (.call1 (chars% "GoName") (.var (chars% "binding") [chars% "Parent", chars% "RequestType"]))
    (.text (chars% ")")
    (.range (some (chars% "field")) (.var (chars% "binding") [chars% "Fields"])
      fieldBT
    (.text (chars% "\n\t\tmarshaler := protojson.MarshalOptions{\n\t\t\tAllowPartial:    true,\n\t\t\tUseProtoNames:   true,\n\t\t\tUseEnumNumbers:  true,\n\t\t\tEmitUnpopulated: true,\n\t\t}\n\t\tdata, err := marshaler.Marshal(req)\n\t\tif err != nil {\n\t\t\treturn errors.Wrapf(err, \"couldn't encode body as json %v\", toRet)\n\t\t}\n\t\tr.Body = ioutil.NopCloser(bytes.NewBuffer(data))")
    .nil)))))
    .nil
  (.text (chars% "\n\t\treturn nil\n\t}")
  .nil)))))))))))

theorem encoderFullT_eq : (parse baronSrc).map (fun t => (((t.skip 48).body.skip 1).body.skip 4).chop 85) = some encoderFullT := by
  decide +kernel

theorem encoder_heads : (parse baronSrc).map (fun t => ((t.skip 48).ranges, ((t.skip 48).body.skip 1).ranges)) =
    some (some (some (chars% "method"), .dot [chars% "HTTPHelper", chars% "Methods"]), some (some (chars% "binding"), .var (chars% "method") [chars% "Bindings"])) := by
  decide +kernel

end Baron.TT
