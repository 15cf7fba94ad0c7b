import Verif.Model.TemplateSrc
import Verif.Model.Oneof
import Verif.Model.Generator

/-!
# Model of the data the templates are executed on, and of their execution

gengokit/gengokit.go:69-118, gengokit/httptransport/httptransport.go:33-616 (all of it that is executed), types.go. Fields that no
template reads are left out of the data (the types of requests and responses beyond their names, the configuration's paths, the
previous files); the parent of a binding is its method without the bindings.
-/

namespace Baron.TT

open Baron.HTTP Baron.HTTPCode Baron.Svcdef Baron.Strs

/-! ## The templates inside of httptransport.go -/

/-- httptransport.go:290-292 `queryParamLogic` -/
def queryParamLogic : Str := unlines [
  chars% "",
  chars% "if {{.LocalName}}StrArr, ok := {{.Location}}Params[\"{{.QueryParamName}}\"]; ok {",
  chars% "{{.LocalName}}Str := {{.LocalName}}StrArr[0]"]

/-- httptransport.go:294-295 `pathParamLogic` -/
def pathParamLogic : Str := unlines [
  chars% "",
  chars% "{{.LocalName}}Str := {{.Location}}Params[\"{{.QueryParamName}}\"]"]

/-- httptransport.go:297-303 `genericLogic` -/
def genericLogic : Str := unlines [
  chars% "",
  chars% "{{.ConvertFunc}}{{if .ConvertFuncNeedsErrorCheck}}",
  chars% "if err != nil {",
  chars% "\treturn nil, errors.Wrap(err, fmt.Sprintf(\"Error while extracting {{.LocalName}} from {{.Location}}, {{.Location}}Params: %v\", {{.Location}}Params))",
  chars% "}{{end}}",
  chars% "req.{{.CamelName}} = {{.TypeConversion}}",
  chars% ""]

/-- httptransport.go:320-349 `oneofEnclosure` -/
def oneofEnclosure : Str := unlines [
  chars% "",
  chars% "{{- with $oneof := . -}}",
  chars% "\t// {{.Name}} oneof",
  chars% "\t{{.Name}}CountSet := 0",
  chars% "\t{{range $option := $oneof.Options}}",
  chars% "",
  chars% "\t\tvar {{$option.LocalName}}Str string",
  chars% "\t\t{{$option.LocalName}}StrArr, {{$option.LocalName}}OK := {{$oneof.Location}}Params[\"{{$option.QueryParamName}}\"]",
  chars% "\t\tif {{$option.LocalName}}OK {",
  chars% "\t\t\t{{$option.LocalName}}Str = {{$option.LocalName}}StrArr[0]",
  chars% "\t\t\t{{$oneof.Name}}CountSet++",
  chars% "\t\t}",
  chars% "\t{{end}}",
  chars% "",
  chars% "if {{.Name}}CountSet > 1 {",
  chars% "\treturn nil, errors.Errorf(\"only one of ({{range $option := $oneof.Options}}\\\"{{$option.QueryParamName}}\\\",{{end}}) allowed\")",
  chars% "}",
  chars% "",
  chars% "switch {",
  chars% "{{range $option := $oneof.Options}}",
  chars% "case {{$option.LocalName}}OK:",
  chars% "\t{{$option.ConvertFunc}}{{if $option.ConvertFuncNeedsErrorCheck}}",
  chars% "\tif err != nil {",
  chars% "\t\treturn nil, errors.Wrap(err, fmt.Sprintf(\"Error while extracting {{.LocalName}} from {{$option.Location}}, {{$oneof.Location}}Params: %v\", {{$oneof.Location}}Params))",
  chars% "\t}{{end}}",
  chars% "\treq.{{$option.CamelName}} = {{$option.TypeConversion}}",
  chars% "{{end}}",
  chars% "}",
  chars% "{{- end -}}",
  chars% ""]

/-- httptransport.go:410-413 `singleCustomTypeUnmarshalTmpl` -/
def singleTmpl : Str := unlines [
  chars% "",
  chars% "var {{.LocalName}} {{if .StarExpr -}}*{{- end -}}{{.GoType}}",
  chars% "{{.LocalName}} = {{if .StarExpr -}}&{{- end -}}{{.GoType}}{}",
  chars% "err = json.Unmarshal([]byte({{.LocalName}}Str), {{.LocalName}})"]

/-- httptransport.go:415-418 `errorCheckingTmpl` -/
def errorCheckingTmpl : Str := unlines [
  chars% "",
  chars% "if err != nil {",
  chars% "\treturn nil, errors.Wrapf(err, \"couldn't decode {{.LocalName}} from %v\", {{.LocalName}}Str)",
  chars% "}"]

/-- httptransport.go:435-444 `repeatedUnmarshalTmpl`, up to the inserted conversion -/
def repeatedTmpl1 : Str := unlines [
  chars% "",
  chars% "var {{.LocalName}} []{{if .StarExpr -}}*{{- end -}}{{.GoType}}",
  chars% "{{- if and (.IsBaseType) (not (Contains .GoType \"[]byte\"))}}",
  chars% "if len({{.LocalName}}StrArr) > 1 {",
  chars% "\t{{- if (Contains .GoType \"[]string\")}}",
  chars% "\t{{.LocalName}} = {{.LocalName}}StrArr",
  chars% "\t{{- else}}",
  chars% "\t{{.LocalName}} = make([]{{if .StarExpr -}}*{{- end -}}{{.GoType}}, len({{.LocalName}}StrArr))",
  chars% "\tfor i, v := range {{.LocalName}}StrArr {",
  chars% "\t"]

/-- httptransport.go:444-445 the same, up to the inserted variable -/
def repeatedTmpl2 : Str := unlines [
  chars% "",
  chars% "\t\t{{.LocalName}}[i] = "]

/-- httptransport.go:445-463 the same, the rest -/
def repeatedTmpl3 : Str := unlines [
  chars% "",
  chars% "\t}",
  chars% "\t{{- end}}",
  chars% "} else {",
  chars% "{{- end}}",
  chars% "\t{{- if (Contains .GoType \"[]string\")}}",
  chars% "\t\t{{.LocalName}} = strings.Split({{.LocalName}}Str, \",\")",
  chars% "\t{{- else if and (and .IsBaseType .Repeated) (not (Contains .GoType \"[]byte\"))}}",
  chars% "\terr = json.Unmarshal([]byte({{.LocalName}}Str), &{{.LocalName}})",
  chars% "\tif err != nil {",
  chars% "\t\t{{.LocalName}}Str = \"[\" + {{.LocalName}}Str + \"]\"",
  chars% "\t}",
  chars% "\terr = json.Unmarshal([]byte({{.LocalName}}Str), &{{.LocalName}})",
  chars% "\t{{- else}}",
  chars% "\terr = json.Unmarshal([]byte({{.LocalName}}Str), &{{.LocalName}})",
  chars% "\t{{- end}}",
  chars% "{{- if and (.IsBaseType) (not (Contains .GoType \"[]byte\"))}}",
  chars% "}",
  chars% "{{- end}}"]

/-! ## Fields -/

/-- types.go:38-78 `Field`. -/
structure TField where
  name : Str
  queryParamName : Str
  camelName : Str
  lowCamelName : Str
  localName : Str
  location : Str
  goType : Str
  star : Bool
  convertFunc : Str
  needsErrorCheck : Bool
  typeConversion : Str
  isBase : Bool
  isEnum : Bool
  repeated : Bool
  zeroValue : Str

/-- The `Field` as `ConvertFunc`'s templates see it, and the ones of `GenQueryUnmarshaler`. -/
def fieldData (f : TField) : List (Str × Val) := [
  (chars% "Name", .str f.name), (chars% "QueryParamName", .str f.queryParamName), (chars% "CamelName", .str f.camelName),
  (chars% "LowCamelName", .str f.lowCamelName), (chars% "LocalName", .str f.localName), (chars% "Location", .str f.location),
  (chars% "GoType", .str f.goType), (chars% "StarExpr", .bool f.star), (chars% "ConvertFunc", .str f.convertFunc),
  (chars% "ConvertFuncNeedsErrorCheck", .bool f.needsErrorCheck), (chars% "TypeConversion", .str f.typeConversion),
  (chars% "IsBaseType", .bool f.isBase), (chars% "IsEnum", .bool f.isEnum), (chars% "Repeated", .bool f.repeated),
  (chars% "ZeroValue", .str f.zeroValue)]

/-- httptransport.go:371-391: the text that reads `y` into `x`, for a type of that name. A type without a case leaves an empty
format, for which `fmt.Sprintf` reports its arguments. -/
def parseText (goType x y : Str) : Str :=
  match baseOf goType with
  | some .uint32 => x ++ chars% ", err := strconv.ParseUint(" ++ y ++ chars% ", 10, 32)"
  | some .uint64 => x ++ chars% ", err := strconv.ParseUint(" ++ y ++ chars% ", 10, 64)"
  | some .int32 => x ++ chars% ", err := strconv.ParseInt(" ++ y ++ chars% ", 10, 32)"
  | some .int64 => x ++ chars% ", err := strconv.ParseInt(" ++ y ++ chars% ", 10, 64)"
  | some .bool => x ++ chars% ", err := strconv.ParseBool(" ++ y ++ chars% ")"
  | some .float32 => x ++ chars% ", err := strconv.ParseFloat(" ++ y ++ chars% ", 32)"
  | some .float64 => x ++ chars% ", err := strconv.ParseFloat(" ++ y ++ chars% ", 64)"
  | some .string => x ++ chars% " := " ++ y
  | none => chars% "%!(EXTRA string=" ++ x ++ chars% ", string=" ++ y ++ chars% ")"

/-- httptransport.go:425-430. -/
def convertedVar (goType : Str) : Str :=
  match baseOf goType with
  | some .uint32 => chars% "uint32(converted)"
  | some .int32 => chars% "int32(converted)"
  | some .float32 => chars% "float32(converted)"
  | _ => chars% "converted"

/-- httptransport.go:431-463. -/
def repeatedTmpl (goType : Str) : Str :=
  repeatedTmpl1 ++ (parseText goType (chars% "converted") (chars% "v") ++ (errorCheckingTmpl ++
    (repeatedTmpl2 ++ (convertedVar goType ++ repeatedTmpl3))))

/-- httptransport.go:465-473 `jsonConvTmpl`. -/
def jsonConvTmpl (f : TField) : Str :=
  if !f.repeated then singleTmpl ++ errorCheckingTmpl
  else if baseOf f.goType = some .string then repeatedTmpl f.goType
  else repeatedTmpl f.goType ++ errorCheckingTmpl

/-- httptransport.go:361-482 `createDecodeConvertFunc`; `none`: it panics (477). -/
def createDecodeConvertFunc (f : TField) : Option (Str × Bool) :=
  if f.isEnum && !f.repeated then
    some (f.localName ++ chars% ", err := strconv.ParseInt(" ++ (f.localName ++ chars% "Str") ++ chars% ", 10, 32)", true)
  else if !f.isBase || f.repeated then
    match apply (jsonConvTmpl f) (.struct (fieldData f)) with
    | none => none
    | some code => some (code, false)
  else some (parseText f.goType f.localName (f.localName ++ chars% "Str"), baseOf f.goType ≠ some .string)

/-- httptransport.go:488-512 `createDecodeTypeConversion`. -/
def createDecodeTypeConversion (f : TField) : Str :=
  if f.repeated then f.localName
  else
    let cast := f.isEnum || baseOf f.goType = some .uint32 || baseOf f.goType = some .int32 || baseOf f.goType = some .float32
    let t := if cast then f.goType ++ chars% "(" ++ f.localName ++ chars% ")" else f.localName
    if f.isBase && f.star then chars% "&" ++ t else t

/-- httptransport.go:514-526 `getZeroValue`. -/
def getZeroValue (f : TField) : Str :=
  if !f.isBase || f.repeated || f.star then chars% "nil"
  else if baseOf f.goType = some .bool then chars% "false"
  else if baseOf f.goType = some .string then chars% "\"\""
  else chars% "0"

/-- httptransport.go:137-172: a field of a binding. -/
def newTField (meth : Str) (p : HTTPParameter) : Option TField :=
  let f : TField := {
    name := p.field.name, queryParamName := p.field.pbName, camelName := goCamelCase p.field.name
    lowCamelName := lowCamelName p.field.name, location := p.location, repeated := p.field.type.array
    goType := p.field.type.name, star := p.field.type.star, localName := goCamelCase p.field.name ++ goCamelCase meth
    isBase := (newField p).isBase, isEnum := p.field.type.enum.isSome
    convertFunc := [], needsErrorCheck := false, typeConversion := [], zeroValue := [] }
  match createDecodeConvertFunc f with
  | none => none
  | some (c, n) =>
    let f := { f with convertFunc := c, needsErrorCheck := n }
    some { f with typeConversion := createDecodeTypeConversion f }

/-- httptransport.go:85-122: an option of the oneof `oneof`. Its `Location` and `StarExpr` are never set. -/
def newTOption (meth oneof : Str) (o : OneofField) : Option TField :=
  let f : TField := {
    name := o.name, queryParamName := o.pbName, camelName := goCamelCase oneof, lowCamelName := lowCamelName o.name
    repeated := o.array, goType := o.typeName, localName := goCamelCase o.name ++ goCamelCase meth, isBase := true
    isEnum := false, location := [], star := false, convertFunc := [], needsErrorCheck := false, typeConversion := []
    zeroValue := [] }
  match createDecodeConvertFunc f with
  | none => none
  | some (c, n) =>
    let f := { f with convertFunc := c, needsErrorCheck := n }
    let inner := createDecodeTypeConversion f
    let f := { f with typeConversion := (if o.star then [] else chars% "&") ++ o.wrapper ++ chars% "{" ++ goCamelCase o.name ++
      chars% ": " ++ inner ++ chars% "}" }
    some { f with zeroValue := getZeroValue f }

/-- All of them, or `none`. -/
def sequence {α : Type} : List (Option α) → Option (List α)
  | [] => some []
  | none :: _ => none
  | some a :: l => match sequence l with
    | none => none
    | some r => some (a :: r)

/-- httptransport.go:287-318 `Field.GenQueryUnmarshaler`; `fmt` is `FormatCode`. -/
def genField (fmt : Str → Str) (f : TField) : Option Str :=
  let src := if f.location = chars% "path" then pathParamLogic ++ genericLogic
    else queryParamLogic ++ genericLogic ++ chars% "}"
  match apply src (.struct (fieldData f)) with
  | none => none
  | some c => some (fmt c)

/-- types.go:83-87 `OneofField`. -/
structure TOneof where
  name : Str
  location : Str
  options : List TField

def oneofData (o : TOneof) : List (Str × Val) := [
  (chars% "Name", .str o.name), (chars% "Location", .str o.location),
  (chars% "Options", .list (o.options.map fun f => .struct (fieldData f)))]

/-- httptransport.go:320-358 `OneofField.GenQueryUnmarshaler`. -/
def genOneof (fmt : Str → Str) (o : TOneof) : Option Str :=
  match apply oneofEnclosure (.struct (oneofData o)) with
  | none => none
  | some c => some (fmt c)

/-- A method that can fail is a field that can be missing: execution fails either way. -/
def gen (r : Option Str) : List (Str × Val) :=
  match r with
  | none => []
  | some s => [(chars% "GenQueryUnmarshaler", .str s)]

/-- A field as the transport template sees it. -/
def fieldVal (fmt : Str → Str) (f : TField) : Val := .struct (fieldData f ++ gen (genField fmt f))

def oneofVal (fmt : Str → Str) (o : TOneof) : Val := .struct (oneofData o ++ gen (genOneof fmt o))

/-! ## Bindings, methods, the whole -/

/-- httptransport.go:257-285 `PathSections`: the Go expressions whose values are joined to the path. -/
def pathSections (path : Str) (fields : List TField) : List Str :=
  (split '/' path).map fun part =>
    if isParamPart part then
      let n := goCamelCase (removeBraces part)
      if fields.any fun f => f.isEnum && f.camelName = n then chars% "fmt.Sprintf(\"%d\", req." ++ n ++ chars% ")"
      else chars% "fmt.Sprint(req." ++ n ++ chars% ")"
    else chars% "\"" ++ part ++ chars% "\""

/-- httptransport.go:65-197 `NewBinding` and 57: `none` if it panics. -/
def bindingVal (fmt : Str → Str) (m : ServiceMethod) (i : Nat) (b : HTTPBinding) : Option Val :=
  let os := b.params.filter fun p => !p.field.type.oneof.isEmpty
  let fs := b.params.filter fun p => p.field.type.oneof.isEmpty && p.field.type.name ≠ []
  match sequence (os.map fun p => (sequence (p.field.type.oneof.map (newTOption m.name p.field.name))).map fun l =>
      (⟨p.field.name, p.location, l⟩ : TOneof)), sequence (fs.map (newTField m.name)) with
  | some oneofs, some fields => some (.struct [
      (chars% "Label", .str (m.name ++ englishNumber i)), (chars% "PathTemplate", .str b.path),
      (chars% "BasePath", .str (basePath b.path)), (chars% "Verb", .str b.verb),
      (chars% "Fields", .list (fields.map (fieldVal fmt))), (chars% "OneofFields", .list (oneofs.map (oneofVal fmt))),
      (chars% "Parent", .struct [(chars% "Name", .str m.name), (chars% "RequestType", .str m.request.name)]),
      (chars% "PathSections", .list ((pathSections b.path fields).map .str))])
  | _, _ => none

/-- httptransport.go:49-62 `NewMethod`. -/
def helperMethod (fmt : Str → Str) (m : ServiceMethod) : Option Val :=
  match sequence (m.bindings.zipIdx.map fun b => bindingVal fmt m b.2 b.1) with
  | none => none
  | some bs => some (.struct [(chars% "Name", .str m.name), (chars% "RequestType", .str m.request.name),
      (chars% "ResponseType", .str m.response.name), (chars% "Bindings", .list bs)])

/-- httptransport.go:31-46 `NewHelper`. -/
def helperVal (fmt : Str → Str) (s : Service) : Option Val :=
  match sequence ((s.methods.filter fun m => !m.bindings.isEmpty).map (helperMethod fmt)) with
  | none => none
  | some ms => some (.struct [(chars% "Methods", .list ms)])

/-- svcdef.go:71-78 `ServiceMethod` as the templates see it. -/
def methodVal (m : ServiceMethod) : Val := .struct [(chars% "Name", .str m.name),
  (chars% "RequestType", .struct [(chars% "Name", .str m.request.name)]),
  (chars% "ResponseType", .struct [(chars% "Name", .str m.response.name)])]

def serviceVal (s : Service) : Val := .struct [(chars% "Name", .str s.name), (chars% "Methods", .list (s.methods.map methodVal))]

/-- gengokit.go:27-41 `Config`, what the templates see of it. -/
structure Config where
  goPackage : Str
  pbPackage : Str
  version : Str
  versionDate : Str
  transport : Str

/-- gengokit.go:69-84 `NewData` for a definition whose service is `s`; `none`: a panic. -/
def newData (fmt : Str → Str) (pkg : Str) (s : Service) (c : Config) : Option Val :=
  match helperVal fmt s with
  | none => none
  | some h => some (.struct [(chars% "ImportPath", .str c.goPackage), (chars% "PBImportPath", .str c.pbPackage),
      (chars% "PackageName", .str pkg), (chars% "Service", serviceVal s), (chars% "HTTPHelper", h),
      (chars% "Version", .str c.version), (chars% "VersionDate", .str c.versionDate),
      (chars% "Config", .struct [(chars% "Transport", .str c.transport)])])

/-- template/template.go: the templates and their names. -/
def assets : List (Str × Str) := [
  (chars% "baron/NAME.pb.baron.go.tmpl", baronSrc), (chars% "cmd/NAME/main.go.tmpl", cmdServerSrc),
  (chars% "cmd/NAME-client/main.go.tmpl", cmdClientSrc), (chars% "server/endpoints.go.tmpl", endpointsSrc),
  (chars% "server/interrupt.go.tmpl", interruptSrc), (chars% "server/server.go.tmpl", serverSrc),
  (chars% "server/wrapper.go.tmpl", wrapperSrc), (chars% "service/service.go.tmpl", serviceSrc),
  (chars% "service/service_methods.go.tmpl", serviceMethodsSrc), (chars% "service/wrapper.go.tmpl", serviceWrapperSrc)]

/-- gengokit.go:87-98 `NewData` and `ApplyTemplateFromPath`. -/
def render (fmt : Str → Str) (pkg : Str) (s : Service) (c : Config) (templ : Str) : Option Str :=
  match look assets templ, newData fmt pkg s c with
  | some src, some d => apply src d
  | _, _ => none

/-- What `generateResponseFile` (gen.go:91-178) depends on, for a definition whose service is `s`: the templates are executed on its
data; services.go:73-80 a service.go that does not exist yet is the executed template, one that exists is updated (`old`, modelled
in `Model/Service.lean`); `formatCode` is the same function as `FormatCode`. -/
def environment (fmt : Str → Str) (old : Str → Option Str) (client : Bool) (pkg : Str) (s : Service) (c : Config) : Gen.Env where
  name := s.name
  client := client
  tmpl := render fmt pkg s c
  regen prev := match prev with
    | none => render fmt pkg s c Gen.servicePath
    | some p => old p
  fmt := fmt

/-- services.go:67-70, 299-303 `applyServiceMethodsTempl`: the methods missing in an existing service.go. -/
def renderMethods (serviceName : Str) (ms : List ServiceMethod) : Option Str :=
  apply serviceMethodsSrc (.struct [(chars% "ServiceName", .str serviceName), (chars% "Methods", .list (ms.map methodVal))])

end Baron.TT
