import Verif.Model.GoLang

/-!
# The program that decodes a request, and its text

For every binding: the statements that read the parameters of the path and of the query into the request.
-/

namespace Baron.Decoders

open Baron.Svcdef Baron.HTTP Baron.GoLang
open Baron.Strs (goCamelCase)

/-! ## Scalars -/

/-- The Go types of protobuf's scalars. -/
def scalarNames : List Str := [chars% "uint32", chars% "uint64", chars% "int32", chars% "int64", chars% "bool", chars% "float32",
  chars% "float64", chars% "string"]

/-- The call that reads the text `y` as a scalar that is not a string. -/
def parseCall (t y : Str) : Expr :=
  if t = chars% "uint32" then .call3 (chars% "strconv.ParseUint") (.id y) (.num 10) (.num 32)
  else if t = chars% "uint64" then .call3 (chars% "strconv.ParseUint") (.id y) (.num 10) (.num 64)
  else if t = chars% "int32" then .call3 (chars% "strconv.ParseInt") (.id y) (.num 10) (.num 32)
  else if t = chars% "int64" then .call3 (chars% "strconv.ParseInt") (.id y) (.num 10) (.num 64)
  else if t = chars% "bool" then .call1 (chars% "strconv.ParseBool") (.id y)
  else if t = chars% "float32" then .call2 (chars% "strconv.ParseFloat") (.id y) (.num 32)
  else .call2 (chars% "strconv.ParseFloat") (.id y) (.num 64)

/-- `x, err := strconv.…(y)`, or `x := y` for a string. -/
def readScalar (ws t x y : Str) (rest : Code) : Code :=
  if t = chars% "string" then .define ws [x] (.id y) rest else .define ws [x, chars% "err"] (parseCall t y) rest

/-- The functions of strconv give 64 bits; a number of 32 bits is converted. -/
def narrowed (t x : Str) : Expr :=
  if t = chars% "uint32" ∨ t = chars% "int32" ∨ t = chars% "float32" then .conv t (.id x) else .id x

/-- `err != nil` -/
def failed : Expr := .bin (.id (chars% "err")) (chars% "!=") .nil

/-- Return if parsing failed. -/
def checkParsed (ind x what loc : Str) (rest : Code) : Code :=
  .cond (chars% "\n" ++ ind) failed (.ret (chars% "\n" ++ (ind ++ ['\t'])) .nil (.call2 (chars% "errors.Wrap") (.id (chars% "err"))
    (.call2 (chars% "fmt.Sprintf") (.text (chars% "Error while extracting " ++ (x ++ (chars% " from " ++ (what ++ (chars% ", " ++ (loc ++
      chars% "Params: %v")))))))
      (.id (loc ++ chars% "Params")))) (.done (chars% "\n" ++ ind))) rest

/-- Return if there was an error while reading the variable `x`. -/
def checkDecoded (x : Str) (rest : Code) : Code :=
  .cond (chars% "\n") failed (.ret (chars% "\n\t") .nil (.call3 (chars% "errors.Wrapf") (.id (chars% "err"))
    (.text (chars% "couldn't decode " ++ (x ++ chars% " from %v"))) (.id (x ++ chars% "Str"))) (.done (chars% "\n"))) rest

/-! ## A field -/

/-- A scalar or a list of scalars. -/
def isScalar (t : FieldType) : Bool := t.message.isNone && t.enum.isNone && t.map.isNone && scalarNames.contains t.name

/-- The variable for a field in the decoder of an rpc. -/
def localOf (meth field : Str) : Str := goCamelCase field ++ goCamelCase meth

/-- What a field that is not a list is assigned. -/
def valueOf (t : FieldType) (x : Str) : Expr :=
  let e := if t.enum.isSome then .conv t.name (.id x) else narrowed t.name x
  if isScalar t && t.star then .addr e else e

/-- The statements that read the text in `xStr`, or the texts in `xStrArr`, into the field. -/
def readField (x field loc : Str) (t : FieldType) : Code :=
  let y := x ++ chars% "Str"
  let ys := x ++ chars% "StrArr"
  let elem := (if t.star then ['*'] else []) ++ t.name
  if t.array then
    let rest := Code.setReq (chars% "\n") field (.id x) (.done (chars% "\n"))
    let rest := if t.name = chars% "string" then rest else checkDecoded x rest
    .var (chars% "\n\n") x ⟨true, t.star, t.name⟩ <|
    if isScalar t then
      .condElse (chars% "\n") (.bin (.call1 (chars% "len") (.id ys)) (chars% ">") (.num 1))
        (.assign (chars% "\n\t") x (.make elem (.call1 (chars% "len") (.id ys)))
        (.range (chars% "\n\t") (chars% "i") (chars% "v") (.id ys)
          (readScalar (chars% "\n\t") t.name (chars% "converted") (chars% "v")
          (checkDecoded x
          (.setAt (chars% "\n\t\t") x (chars% "i") (narrowed t.name (chars% "converted"))
          (.done (chars% "\n\t")))))
        (.done (chars% "\n"))))
        (.unmarshal (chars% "\n\t") y true x
        (.cond (chars% "\n\t") failed
          (.assign (chars% "\n\t\t") y (.bin (.bin (.text (chars% "[")) (chars% "+") (.id y)) (chars% "+") (.text (chars% "]")))
          (.done (chars% "\n\t")))
        (.unmarshal (chars% "\n\t") y true x
        (.done (chars% "\n")))))
      rest
    else .unmarshal (chars% "\n\t") y true x rest
  else
    let rest := Code.setReq (chars% "\n") field (valueOf t x) (.done (chars% "\n"))
    if t.enum.isSome then
      .define (chars% "\n") [x, chars% "err"] (.call3 (chars% "strconv.ParseInt") (.id y) (.num 10) (.num 32)) (checkParsed [] x loc loc rest)
    else if isScalar t then
      readScalar (chars% "\n") t.name x y (if t.name = chars% "string" then rest else checkParsed [] x loc loc rest)
    else
      .var (chars% "\n\n") x ⟨false, t.star, t.name⟩
      (.assign (chars% "\n") x (if t.star then .addr (.empty t.name) else .empty t.name)
      (.unmarshal (chars% "\n") y false x
      (checkDecoded x rest)))

/-- The statements for a parameter: one in the path is always read, one in the query if it is there. -/
def fieldCode (meth : Str) (p : HTTPParameter) : Code :=
  let x := localOf meth p.field.name
  let params := Expr.id (p.location ++ chars% "Params")
  let read := readField x (goCamelCase p.field.name) p.location p.field.type
  if p.location = chars% "path" then .define (chars% "\n") [x ++ chars% "Str"] (.index params (.text p.field.pbName)) read
  else .condInit (chars% "\n") (x ++ chars% "StrArr") (chars% "ok") (.index params (.text p.field.pbName)) (.id (chars% "ok"))
    (.define (chars% "\n") [x ++ chars% "Str"] (.index (.id (x ++ chars% "StrArr")) (.num 0)) read) (.done [])

/-! ## A oneof -/

/-- Is the option there? -/
def presenceCode (meth oneof : Str) (o : OneofField) (rest : Code) : Code :=
  let x := localOf meth o.name
  .var (chars% "\n\t\n\n\t\t") (x ++ chars% "Str") ⟨false, false, chars% "string"⟩
  (.define (chars% "\n\t\t") [x ++ chars% "StrArr", x ++ chars% "OK"] (.index (.id (chars% "queryParams")) (.text o.pbName))
  (.cond (chars% "\n\t\t") (.id (x ++ chars% "OK"))
    (.assign (chars% "\n\t\t\t") (x ++ chars% "Str") (.index (.id (x ++ chars% "StrArr")) (.num 0))
    (.inc (chars% "\n\t\t\t") (oneof ++ chars% "CountSet")
    (.done (chars% "\n\t\t"))))
  rest))

/-- The case of an option, a single scalar. -/
def optionCode (meth oneof : Str) (o : OneofField) (rest : Code) : Code :=
  let x := localOf meth o.name
  let value := Expr.keyed o.wrapper (goCamelCase o.name) (narrowed o.typeName x)
  let set := Code.setReq (chars% "\n\t") (goCamelCase oneof) (if o.star then value else .addr value) (.done [])
  .case (chars% "\n\n") (.id (x ++ chars% "OK"))
    (readScalar (chars% "\n\t") o.typeName x (x ++ chars% "Str")
      (if o.typeName = chars% "string" then set else checkParsed (chars% "\t") x [] (chars% "query") set))
    rest

/-- The statements for a oneof in the query: count the options that are there, refuse more than one, read the one. -/
def oneofCode (meth oneof : Str) (os : List OneofField) : Code :=
  .comment [] (chars% " " ++ (oneof ++ chars% " oneof"))
  (.define (chars% "\n\t") [oneof ++ chars% "CountSet"] (.num 0)
  (os.foldr (presenceCode meth oneof)
  (.cond (chars% "\n\t\n\n") (.bin (.id (oneof ++ chars% "CountSet")) (chars% ">") (.num 1))
    (.ret (chars% "\n\t") .nil (.call1 (chars% "errors.Errorf") (.text (chars% "only one of (" ++
      (os.flatMap (fun o => chars% "\\\"" ++ (o.pbName ++ chars% "\\\",")) ++ chars% ") allowed")))) (.done (chars% "\n")))
  (.switch (chars% "\n\n") (os.foldr (optionCode meth oneof) (.done (chars% "\n\n")))
  (.done [])))))

/-! ## The decoder -/

/-- The parameters that are not oneofs; one without a type name is a map and left out. -/
def plainParams (b : HTTPBinding) : List HTTPParameter := b.params.filter fun p => p.field.type.oneof.isEmpty && p.field.type.name ≠ []

def oneofParams (b : HTTPBinding) : List HTTPParameter := b.params.filter fun p => !p.field.type.oneof.isEmpty

/-- The statements of a decoder after the request has been read from the body. -/
def decoderCode (meth : Str) (b : HTTPBinding) : List Code :=
  ((plainParams b).filter fun p => p.location ≠ chars% "body").map (fieldCode meth) ++
  (((oneofParams b).filter fun p => p.location = chars% "query").map (fun p => oneofCode meth p.field.name p.field.type.oneof) ++
  [.ret (chars% "\n\t\t") (.addr (.id (chars% "req"))) (.id (chars% "err")) (.done [])])

/-- The text around the statements of a field or oneof, which are there if `here` holds. -/
def piece (here : Bool) (text : Str) : Str :=
  chars% "\n\t\t\t" ++ ((if here then chars% "\n\t\t\t\t" ++ (text ++ chars% "\n\t\t\t") else []) ++ chars% "\n\t\t")

/-- What a decoder does before the parameters: it reads the request from the body. -/
def bodyText : Str := chars% "\n\t\tbuf, err := ioutil.ReadAll(r.Body)\n\t\tif err != nil {\n\t\t\treturn nil, errors.Wrapf(err, \"cannot read body of http request\")\n\t\t}\n\t\tif len(buf) > 0 {\n\t\t\tunmarshaller := protojson.UnmarshalOptions{\n\t\t\t\tAllowPartial:   true,\n\t\t\t\tDiscardUnknown: true,\n\t\t\t}\n\t\t\tif err = unmarshaller.Unmarshal(buf, &req); err != nil {\n\t\t\t\tconst size = 8196\n\t\t\t\tif len(buf) > size {\n\t\t\t\t\tbuf = buf[:size]\n\t\t\t\t}\n\t\t\t\treturn nil, httpError{errors.Wrapf(err, \"request body '%s': cannot parse non-json request body\", buf),\n\t\t\t\t\thttp.StatusBadRequest,\n\t\t\t\t\tnil,\n\t\t\t\t}\n\t\t\t}\n\t\t}\n\n\t\tpathParams := mux.Vars(r)\n\t\t_ = pathParams\n\n\t\tqueryParams := r.URL.Query()\n\t\t_ = queryParams\n\n\t\t"

/-- The decoder of a binding; `fmt` formats the statements of each field. -/
def decoderText (fmt : Str → Str) (label meth request : Str) (b : HTTPBinding) : Str :=
  chars% "func DecodeHTTP" ++ (label ++
  (chars% "Request(_ context.Context, r *http.Request) (interface{}, error) {\n\t\tdefer r.Body.Close()\n\t\tvar req " ++ (goCamelCase request ++
  (bodyText ++
  ((plainParams b).flatMap (fun p => piece (p.location ≠ chars% "body") (fmt (fieldCode meth p).print)) ++
  (chars% "\n\n\t\t" ++
  ((oneofParams b).flatMap (fun p => piece (p.location = chars% "query") (fmt (oneofCode meth p.field.name p.field.type.oneof).print)) ++
  chars% "\n\t\treturn &req, err\n\t}")))))))

end Baron.Decoders
