import Verif.Proofs.Texts

/-!
# The parts of the templates that the texts of C89 come from
-/

namespace Baron.TT

open Baron.HTTPCode

/-- The decoder of a binding. -/
def decoderT : Tmpl :=
  .text (chars% "func DecodeHTTP")
  (.action (.var (chars% "binding") [chars% "Label"])
  (.text (chars% "Request(_ context.Context, r *http.Request) (interface{}, error) {\n\t\tdefer r.Body.Close()\n\t\tvar req ")
  (.action (.call1 (chars% "GoName") (.var (chars% "binding") [chars% "Parent", chars% "RequestType"]))
  (.text (chars% "\n\t\tbuf, err := ioutil.ReadAll(r.Body)\n\t\tif err != nil {\n\t\t\treturn nil, errors.Wrapf(err, \"cannot read body of http request\")\n\t\t}\n\t\tif len(buf) > 0 {\n\t\t\tunmarshaller := protojson.UnmarshalOptions{\n\t\t\t\tAllowPartial:   true,\n\t\t\t\tDiscardUnknown: true,\n\t\t\t}\n\t\t\tif err = unmarshaller.Unmarshal(buf, &req); err != nil {\n\t\t\t\tconst size = 8196\n\t\t\t\tif len(buf) > size {\n\t\t\t\t\tbuf = buf[:size]\n\t\t\t\t}\n\t\t\t\treturn nil, httpError{errors.Wrapf(err, \"request body '%s': cannot parse non-json request body\", buf),\n\t\t\t\t\thttp.StatusBadRequest,\n\t\t\t\t\tnil,\n\t\t\t\t}\n\t\t\t}\n\t\t}\n\n\t\tpathParams := mux.Vars(r)\n\t\t_ = pathParams\n\n\t\tqueryParams := r.URL.Query()\n\t\t_ = queryParams\n\n\t\t")
  (.range (some (chars% "field")) (.var (chars% "binding") [chars% "Fields"])
    (.text (chars% "\n\t\t\t")
    (.cond (.call2 (chars% "ne") (.var (chars% "field") [chars% "Location"]) (.str (chars% "body")))
      (.text (chars% "\n\t\t\t\t")
      (.action (.var (chars% "field") [chars% "GenQueryUnmarshaler"])
      (.text (chars% "\n\t\t\t")
      .nil)))
      .nil
    (.text (chars% "\n\t\t")
    .nil)))
  (.text (chars% "\n\n\t\t")
  (.range (some (chars% "field")) (.var (chars% "binding") [chars% "OneofFields"])
    (.text (chars% "\n\t\t\t")
    (.cond (.call2 (chars% "eq") (.var (chars% "field") [chars% "Location"]) (.str (chars% "query")))
      (.text (chars% "\n\t\t\t\t")
      (.action (.var (chars% "field") [chars% "GenQueryUnmarshaler"])
      (.text (chars% "\n\t\t\t")
      .nil)))
      .nil
    (.text (chars% "\n\t\t")
    .nil)))
  (.text (chars% "\n\t\treturn &req, err\n\t}")
  .nil))))))))

theorem decoderT_eq : (parse baronSrc).map (fun t => ((t.skip 36).body.body.skip 4).chop 72) = some decoderT := by
  decide +kernel

/-- The statements for a parameter in the path. -/
def pathT : Tmpl :=
  .text (chars% "\n")
  (.action (.dot [chars% "LocalName"])
  (.text (chars% "Str := ")
  (.action (.dot [chars% "Location"])
  (.text (chars% "Params[\"")
  (.action (.dot [chars% "QueryParamName"])
  (.text (chars% "\"]\n")
  (.action (.dot [chars% "ConvertFunc"])
  (.cond (.dot [chars% "ConvertFuncNeedsErrorCheck"])
    (.text (chars% "\nif err != nil {\n\treturn nil, errors.Wrap(err, fmt.Sprintf(\"Error while extracting ")
    (.action (.dot [chars% "LocalName"])
    (.text (chars% " from ")
    (.action (.dot [chars% "Location"])
    (.text (chars% ", ")
    (.action (.dot [chars% "Location"])
    (.text (chars% "Params: %v\", ")
    (.action (.dot [chars% "Location"])
    (.text (chars% "Params))\n}")
    .nil)))))))))
    .nil
  (.text (chars% "\nreq.")
  (.action (.dot [chars% "CamelName"])
  (.text (chars% " = ")
  (.action (.dot [chars% "TypeConversion"])
  (.text (chars% "\n")
  .nil)))))))))))))

theorem pathT_eq : (parse (pathParamLogic ++ genericLogic)).map (fun t => t) = some pathT := by
  decide +kernel

/-- The statements for a parameter in the query. -/
def queryT : Tmpl :=
  .text (chars% "\nif ")
  (.action (.dot [chars% "LocalName"])
  (.text (chars% "StrArr, ok := ")
  (.action (.dot [chars% "Location"])
  (.text (chars% "Params[\"")
  (.action (.dot [chars% "QueryParamName"])
  (.text (chars% "\"]; ok {\n")
  (.action (.dot [chars% "LocalName"])
  (.text (chars% "Str := ")
  (.action (.dot [chars% "LocalName"])
  (.text (chars% "StrArr[0]\n")
  (.action (.dot [chars% "ConvertFunc"])
  (.cond (.dot [chars% "ConvertFuncNeedsErrorCheck"])
    (.text (chars% "\nif err != nil {\n\treturn nil, errors.Wrap(err, fmt.Sprintf(\"Error while extracting ")
    (.action (.dot [chars% "LocalName"])
    (.text (chars% " from ")
    (.action (.dot [chars% "Location"])
    (.text (chars% ", ")
    (.action (.dot [chars% "Location"])
    (.text (chars% "Params: %v\", ")
    (.action (.dot [chars% "Location"])
    (.text (chars% "Params))\n}")
    .nil)))))))))
    .nil
  (.text (chars% "\nreq.")
  (.action (.dot [chars% "CamelName"])
  (.text (chars% " = ")
  (.action (.dot [chars% "TypeConversion"])
  (.text (chars% "\n}")
  .nil)))))))))))))))))

theorem queryT_eq : (parse (queryParamLogic ++ genericLogic ++ chars% "}")).map (fun t => t) = some queryT := by
  decide +kernel

/-- Reading JSON into a message. -/
def singleT : Tmpl :=
  .text (chars% "\nvar ")
  (.action (.dot [chars% "LocalName"])
  (.text (chars% " ")
  (.cond (.dot [chars% "StarExpr"])
    (.text (chars% "*")
    .nil)
    .nil
  (.action (.dot [chars% "GoType"])
  (.text (chars% "\n")
  (.action (.dot [chars% "LocalName"])
  (.text (chars% " = ")
  (.cond (.dot [chars% "StarExpr"])
    (.text (chars% "&")
    .nil)
    .nil
  (.action (.dot [chars% "GoType"])
  (.text (chars% "{}\nerr = json.Unmarshal([]byte(")
  (.action (.dot [chars% "LocalName"])
  (.text (chars% "Str), ")
  (.action (.dot [chars% "LocalName"])
  (.text (chars% ")\nif err != nil {\n\treturn nil, errors.Wrapf(err, \"couldn't decode ")
  (.action (.dot [chars% "LocalName"])
  (.text (chars% " from %v\", ")
  (.action (.dot [chars% "LocalName"])
  (.text (chars% "Str)\n}")
  .nil))))))))))))))))))

theorem singleT_eq : (parse (singleTmpl ++ errorCheckingTmpl)).map (fun t => t) = some singleT := by
  decide +kernel

/-- The statements for a oneof in the query. -/
def oneofT : Tmpl :=
  .within (some (chars% "oneof")) (.dot [])
    (.text (chars% "// ")
    (.action (.dot [chars% "Name"])
    (.text (chars% " oneof\n\t")
    (.action (.dot [chars% "Name"])
    (.text (chars% "CountSet := 0\n\t")
    (.range (some (chars% "option")) (.var (chars% "oneof") [chars% "Options"])
      (.text (chars% "\n\n\t\tvar ")
      (.action (.var (chars% "option") [chars% "LocalName"])
      (.text (chars% "Str string\n\t\t")
      (.action (.var (chars% "option") [chars% "LocalName"])
      (.text (chars% "StrArr, ")
      (.action (.var (chars% "option") [chars% "LocalName"])
      (.text (chars% "OK := ")
      (.action (.var (chars% "oneof") [chars% "Location"])
      (.text (chars% "Params[\"")
      (.action (.var (chars% "option") [chars% "QueryParamName"])
      (.text (chars% "\"]\n\t\tif ")
      (.action (.var (chars% "option") [chars% "LocalName"])
      (.text (chars% "OK {\n\t\t\t")
      (.action (.var (chars% "option") [chars% "LocalName"])
      (.text (chars% "Str = ")
      (.action (.var (chars% "option") [chars% "LocalName"])
      (.text (chars% "StrArr[0]\n\t\t\t")
      (.action (.var (chars% "oneof") [chars% "Name"])
      (.text (chars% "CountSet++\n\t\t}\n\t")
      .nil)))))))))))))))))))
    (.text (chars% "\n\nif ")
    (.action (.dot [chars% "Name"])
    (.text (chars% "CountSet > 1 {\n\treturn nil, errors.Errorf(\"only one of (")
    (.range (some (chars% "option")) (.var (chars% "oneof") [chars% "Options"])
      (.text (chars% "\\\"")
      (.action (.var (chars% "option") [chars% "QueryParamName"])
      (.text (chars% "\\\",")
      .nil)))
    (.text (chars% ") allowed\")\n}\n\nswitch {\n")
    (.range (some (chars% "option")) (.var (chars% "oneof") [chars% "Options"])
      (.text (chars% "\ncase ")
      (.action (.var (chars% "option") [chars% "LocalName"])
      (.text (chars% "OK:\n\t")
      (.action (.var (chars% "option") [chars% "ConvertFunc"])
      (.cond (.var (chars% "option") [chars% "ConvertFuncNeedsErrorCheck"])
        (.text (chars% "\n\tif err != nil {\n\t\treturn nil, errors.Wrap(err, fmt.Sprintf(\"Error while extracting ")
        (.action (.dot [chars% "LocalName"])
        (.text (chars% " from ")
        (.action (.var (chars% "option") [chars% "Location"])
        (.text (chars% ", ")
        (.action (.var (chars% "oneof") [chars% "Location"])
        (.text (chars% "Params: %v\", ")
        (.action (.var (chars% "oneof") [chars% "Location"])
        (.text (chars% "Params))\n\t}")
        .nil)))))))))
        .nil
      (.text (chars% "\n\treq.")
      (.action (.var (chars% "option") [chars% "CamelName"])
      (.text (chars% " = ")
      (.action (.var (chars% "option") [chars% "TypeConversion"])
      (.text (chars% "\n")
      .nil))))))))))
    (.text (chars% "\n}")
    .nil)))))))))))))
  .nil

theorem oneofT_eq : (parse oneofEnclosure).map (fun t => t) = some oneofT := by
  decide +kernel

/-- Returning after an error. -/
def checkT : Tmpl :=
  .text (chars% "\nif err != nil {\n\treturn nil, errors.Wrapf(err, \"couldn't decode ")
  (.action (.dot [chars% "LocalName"])
  (.text (chars% " from %v\", ")
  (.action (.dot [chars% "LocalName"])
  (.text (chars% "Str)\n}")
  .nil))))

/-- Reading a list; the conversion of an element is part of the texts `loop` and `set`. -/
def repeatedT (loop set : Str) (tail : Tmpl) : Tmpl :=
  .text (chars% "\nvar ")
  (.action (.dot [chars% "LocalName"])
  (.text (chars% " []")
  (.cond (.dot [chars% "StarExpr"])
    (.text (chars% "*")
    .nil)
    .nil
  (.action (.dot [chars% "GoType"])
  (.cond (.call2 (chars% "and") (.dot [chars% "IsBaseType"]) (.call1 (chars% "not") (.call2 (chars% "Contains") (.dot [chars% "GoType"]) (.str (chars% "[]byte")))))
    (.text (chars% "\nif len(")
    (.action (.dot [chars% "LocalName"])
    (.text (chars% "StrArr) > 1 {")
    (.cond (.call2 (chars% "Contains") (.dot [chars% "GoType"]) (.str (chars% "[]string")))
      (.text (chars% "\n\t")
      (.action (.dot [chars% "LocalName"])
      (.text (chars% " = ")
      (.action (.dot [chars% "LocalName"])
      (.text (chars% "StrArr")
      .nil)))))
      (.text (chars% "\n\t")
      (.action (.dot [chars% "LocalName"])
      (.text (chars% " = make([]")
      (.cond (.dot [chars% "StarExpr"])
        (.text (chars% "*")
        .nil)
        .nil
      (.action (.dot [chars% "GoType"])
      (.text (chars% ", len(")
      (.action (.dot [chars% "LocalName"])
      (.text (chars% "StrArr))\n\tfor i, v := range ")
      (.action (.dot [chars% "LocalName"])
      (.text loop
      (.action (.dot [chars% "LocalName"])
      (.text (chars% " from %v\", ")
      (.action (.dot [chars% "LocalName"])
      (.text (chars% "Str)\n}\n\t\t")
      (.action (.dot [chars% "LocalName"])
      (.text set
      .nil))))))))))))))))
    (.text (chars% "\n} else {")
    .nil)))))
    .nil
  (.cond (.call2 (chars% "Contains") (.dot [chars% "GoType"]) (.str (chars% "[]string")))
    (.text (chars% "\n\t\t")
    (.action (.dot [chars% "LocalName"])
    (.text (chars% " = strings.Split(")
    (.action (.dot [chars% "LocalName"])
    (.text (chars% "Str, \",\")")
    .nil)))))
    (.cond (.call2 (chars% "and") (.call2 (chars% "and") (.dot [chars% "IsBaseType"]) (.dot [chars% "Repeated"])) (.call1 (chars% "not") (.call2 (chars% "Contains") (.dot [chars% "GoType"]) (.str (chars% "[]byte")))))
      (.text (chars% "\n\terr = json.Unmarshal([]byte(")
      (.action (.dot [chars% "LocalName"])
      (.text (chars% "Str), &")
      (.action (.dot [chars% "LocalName"])
      (.text (chars% ")\n\tif err != nil {\n\t\t")
      (.action (.dot [chars% "LocalName"])
      (.text (chars% "Str = \"[\" + ")
      (.action (.dot [chars% "LocalName"])
      (.text (chars% "Str + \"]\"\n\t}\n\terr = json.Unmarshal([]byte(")
      (.action (.dot [chars% "LocalName"])
      (.text (chars% "Str), &")
      (.action (.dot [chars% "LocalName"])
      (.text (chars% ")")
      .nil)))))))))))))
      (.text (chars% "\n\terr = json.Unmarshal([]byte(")
      (.action (.dot [chars% "LocalName"])
      (.text (chars% "Str), &")
      (.action (.dot [chars% "LocalName"])
      (.text (chars% ")")
      .nil)))))
    .nil)
  (.cond (.call2 (chars% "and") (.dot [chars% "IsBaseType"]) (.call1 (chars% "not") (.call2 (chars% "Contains") (.dot [chars% "GoType"]) (.str (chars% "[]byte")))))
    (.text (chars% "\n}")
    .nil)
    .nil
  tail)))))))

theorem repeatedT_eq (g : Str) :
    parse (repeatedTmpl g) = some (repeatedT (chars% "StrArr {\n\t" ++ (parseText g (chars% "converted") (chars% "v") ++
      chars% "\nif err != nil {\n\treturn nil, errors.Wrapf(err, \"couldn't decode ")) (chars% "[i] = " ++ (convertedVar g ++ chars% "\n\t}")) .nil) ∧
    parse (repeatedTmpl g ++ errorCheckingTmpl) = some (repeatedT (chars% "StrArr {\n\t" ++ (parseText g (chars% "converted") (chars% "v") ++
      chars% "\nif err != nil {\n\treturn nil, errors.Wrapf(err, \"couldn't decode ")) (chars% "[i] = " ++ (convertedVar g ++ chars% "\n\t}")) checkT) := by
  unfold repeatedTmpl parseText convertedVar
  generalize baseOf g = b
  cases b with
  | none => constructor <;> decide +kernel
  | some b => cases b <;> constructor <;> decide +kernel

theorem decoder_heads : (parse baronSrc).map (fun t => ((t.skip 36).ranges, (t.skip 36).body.ranges)) =
    some (some (some (chars% "method"), .dot [chars% "HTTPHelper", chars% "Methods"]), some (some (chars% "binding"), .var (chars% "method") [chars% "Bindings"])) := by
  decide +kernel

end Baron.TT
