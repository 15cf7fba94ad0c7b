import Verif.Model.GoClient
import Verif.Spec.Decoders
import Verif.Spec.DecoderRun

/-!
# The program that encodes a request, and its text

For every binding: the statements that make the HTTP request of a client from the request message.
-/

namespace Baron.Encoders

open Baron.Svcdef Baron.HTTP Baron.GoClient
open Baron.Strs (goCamelCase)
open Baron.Decoders (isScalar scalarNames plainParams oneofParams)
open Baron.TT (EnumParam)

/-- `req.F` -/
def reqField (f : Str) : Expr := .field (chars% "req") f

/-- `fmt.Sprint(e)` -/
def sprinted (e : Expr) : Expr := .call1 (chars% "fmt.Sprint") e

/-- `values.Add("name", e)` -/
def add (ws name : Str) (e : Expr) (rest : Code) : Code := .call ws (chars% "values.Add") (.text name) e rest

/-- `err != nil` -/
def failed : Expr := .ne (.id (chars% "err")) (chars% " != ") .nil

/-! ## The path -/

open Classical in
/-- A part of the path: a literal part between quotes, the field for a parameter, enums as numbers. -/
noncomputable def pieceExpr (b : HTTPBinding) : Piece → Expr
  | .lit l => .text l
  | .var n => if EnumParam b n then .call2 (chars% "fmt.Sprintf") (.text (chars% "%d")) (reqField (goCamelCase n))
    else sprinted (reqField (goCamelCase n))

/-- The parts, after an empty one. -/
noncomputable def pathExpr (b : HTTPBinding) (ps : List Piece) : Expr :=
  .slice (.elem (.text []) ((ps.map (pieceExpr b)).foldr .elem .last))

/-- The headers, the path, and the query of the instance. -/
noncomputable def startCode (request : Str) (b : HTTPBinding) (ps : List Piece) : Code :=
  .define (chars% "\n\t\t") [chars% "strval"] (.text []) (.use (chars% "\n\t\t") (chars% "strval") (
  .define (chars% "\n\t\t") [chars% "req"] (.assert (chars% "request") (goCamelCase request)) (.use (chars% "\n\t\t") (chars% "req") (
  .call (chars% "\n\n\t\t") (chars% "r.Header.Set") (.text (chars% "transport")) (.text (chars% "HTTPJSON")) (
  .call (chars% "\n\t\t") (chars% "r.Header.Set") (.text (chars% "request-url")) (.field (chars% "r.URL") (chars% "Path")) (
  .comment (chars% "\n\n\t\t") (chars% " Set the path parameters") (
  .define (chars% "\n\t\t") [chars% "path"] (.call2 (chars% "strings.Join") (pathExpr b ps) (.text (chars% "/"))) (
  .define (chars% "\n\t\t") [chars% "u", chars% "err"] (.call1 (chars% "url.Parse") (.id (chars% "path"))) (
  .cond (chars% "\n\t\t") failed (.ret (chars% "\n\t\t\t") (.call3 (chars% "errors.Wrapf") (.id (chars% "err"))
    (.text (chars% "couldn't unmarshal path %q")) (.id (chars% "path"))) (.done (chars% "\n\t\t"))) (
  .set (chars% "\n\t\t") (chars% "r.URL") (chars% "RawPath") (.field (chars% "u") (chars% "RawPath")) (
  .set (chars% "\n\t\t") (chars% "r.URL") (chars% "Path") (.field (chars% "u") (chars% "Path")) (
  .comment (chars% "\n\n\t\t") (chars% " Set the query parameters") (
  .define (chars% "\n\t\t") [chars% "values"] (.call0 (chars% "r.URL.Query")) (
  .bytes (chars% "\n\t\t") (chars% "tmp") (.use (chars% "\n\t\t") (chars% "tmp") (.done []))))))))))))))))

/-! ## The query -/

/-- `tmp, err = json.Marshal(e)`, and its text as a value of the query. -/
def marshalled (name f : Str) : Code :=
  .assign (chars% "\n\t\t\t\t\n\t\t\t\t\t") [chars% "tmp", chars% "err"] (.call1 (chars% "json.Marshal") (reqField f)) (
  .cond (chars% "\n\t\t\t\t\t") failed (.ret (chars% "\n\t\t\t\t\t\t") (.call2 (chars% "errors.Wrap") (.id (chars% "err"))
    (.text (chars% "failed to marshal req." ++ f))) (.done (chars% "\n\t\t\t\t\t"))) (
  .assign (chars% "\n\t\t\t\t\t") [chars% "strval"] (.call1 (chars% "string") (.id (chars% "tmp"))) (
  add (chars% "\n\t\t\t\t\t") name (.id (chars% "strval")) (.done (chars% "\n\t\t\t\t")))))

/-- The statements for a field in the query. -/
def fieldCode (p : HTTPParameter) : Code :=
  let f := goCamelCase p.field.name
  if isScalar p.field.type then
    if p.field.type.array then
      .range (chars% "\n\t\t\t\t\n\t\t\t\t\t") (chars% "v") (reqField f)
        (add (chars% "\n\t\t\t\t\t\t") p.field.pbName (sprinted (.id (chars% "v"))) (.done (chars% "\n\t\t\t\t\t"))) (.done (chars% "\n\t\t\t\t"))
    else if p.field.type.star then
      .cond (chars% "\n\t\t\t\t\n\t\t\t\t\t\n\t\t\t\t\t") (.ne (reqField f) (chars% " !=") .nil)
        (add (chars% "\n\t\t\t\t\t\t") p.field.pbName (sprinted (.deref (reqField f))) (.done (chars% "\n\t\t\t\t\t"))) (.done (chars% "\n\t\t\t\t\t"))
    else add (chars% "\n\t\t\t\t\n\t\t\t\t\t\n\t\t\t\t\t") p.field.pbName (sprinted (reqField f)) (.done (chars% "\n\t\t\t\t\t"))
  else marshalled p.field.pbName f

/-- The zero value of a scalar type. -/
def zeroText (t : Str) : Expr :=
  if t = chars% "bool" then .lit (chars% "false") else if t = chars% "string" then .text [] else .lit (chars% "0")

/-- The statements for an option of a oneof in the query. -/
def optionCode (o : OneofField) : Code :=
  .condInit (chars% "\n\t\t\t\t\t\n\t\t\t\t\t\t") (chars% "val") (.getter o.name) (.ne (.id (chars% "val")) (chars% " != ") (zeroText o.typeName))
    (add (chars% "\n\t\t\t\t\t\t\t") o.pbName (sprinted (.id (chars% "val"))) (.done (chars% "\n\t\t\t\t\t\t"))) (.done [])

/-! ## The body -/

/-- `toRet.F = req.F` -/
def copyCode (p : HTTPParameter) : Code :=
  .set (chars% "\n\t\t\t\t\n\t\t\t\t") (chars% "toRet") (goCamelCase p.field.name) (reqField (goCamelCase p.field.name)) (.done (chars% "\n\t\t\t"))

/-- The body: the whole message. -/
def bodyCode (request : Str) (b : HTTPBinding) : List Code :=
  .comment (chars% "\n\t\t") (chars% " Set the body parameters")
    (.define (chars% "\n\t\t") [chars% "toRet"] (.assert (chars% "request") (goCamelCase request)) (.done [])) ::
  (((plainParams b).filter fun p => p.location = chars% "body").map copyCode ++ [
  .define (chars% "\n\t\t") [chars% "marshaler"] .options (
  .define (chars% "\n\t\t") [chars% "data", chars% "err"] (.call1 (chars% "marshaler.Marshal") (.id (chars% "req"))) (
  .cond (chars% "\n\t\t") failed (.ret (chars% "\n\t\t\t") (.call3 (chars% "errors.Wrapf") (.id (chars% "err"))
    (.text (chars% "couldn't encode body as json %v")) (.id (chars% "toRet"))) (.done (chars% "\n\t\t"))) (
  .set (chars% "\n\t\t") (chars% "r") (chars% "Body") (.call1 (chars% "ioutil.NopCloser") (.call1 (chars% "bytes.NewBuffer") (.id (chars% "data"))))
  (.done []))))])

/-- The statements for the query. -/
def queryCode (b : HTTPBinding) : List Code :=
  ((plainParams b).filter fun p => p.location = chars% "query").map fieldCode ++
  ((oneofParams b).filter fun p => p.location = chars% "query").flatMap fun p => p.field.type.oneof.map optionCode

/-- The statements of an encoder. -/
noncomputable def encoderCode (request : Str) (b : HTTPBinding) (ps : List Piece) : List Code :=
  startCode request b ps :: (queryCode b ++
  (.set (chars% "\n\n\t\t") (chars% "r.URL") (chars% "RawQuery") (.call0 (chars% "values.Encode")) (.done []) ::
  ((if b.verb = chars% "get" then [] else bodyCode request b) ++ [.ret (chars% "\n\t\t") .nil (.done (chars% "\n\t"))])))

/-- The encoder of a binding. -/
noncomputable def encoderText (label request : Str) (b : HTTPBinding) (ps : List Piece) : Str :=
  chars% "func EncodeHTTP" ++ (label ++ (chars% "Request(_ context.Context, r *http.Request, request interface{}) error {" ++
  ((encoderCode request b ps).flatMap Code.print ++ ['}'])))

end Baron.Encoders
