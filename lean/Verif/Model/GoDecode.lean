import Verif.Model.GoHTTP
import Verif.Spec.Decoders

/-!
# The decoders of requests as whole programs

A decoder reads the request from the body, with statements in the language of `Model/GoHTTP`, and then the parameters, with
statements in the language of `Model/GoLang`. A message is what both make of one, fields and oneofs.
-/

namespace Baron.GoDecode

open Baron.HTTP (look)
open Baron.HTTPCode (FullMsg)
open Baron.Runtime (Err)
open Baron.GoHTTP (Expr Args Code Val St Ans World Calls args var)
open Baron.Svcdef (HTTPBinding)

/-- Options of protojson in the decoders of requests. -/
def readArgs : Args :=
  .named (chars% "\n\t\t\t\t") (chars% "AllowPartial") (chars% ":   ") (.id (chars% "true")) (chars% ",") <|
  .named (chars% "\n\t\t\t\t") (chars% "DiscardUnknown") (chars% ": ") (.id (chars% "true")) (chars% ",") <|
  .done (chars% "\n\t\t\t")

/-- NAME.pb.baron.go.tmpl:434-441: the error for a body that is not read. -/
def badRequest : Expr :=
  .build (chars% "httpError") <|
    .arg [] (.call (chars% "errors.Wrapf") (args [var (chars% "err"), .text (chars% "request body '%s': cannot parse non-json request body"), var (chars% "buf")])) (chars% ",") <|
    .arg (chars% "\n\t\t\t\t\t") (var (chars% "http.StatusBadRequest")) (chars% ",") <|
    .arg (chars% "\n\t\t\t\t\t") .nil (chars% ",") <|
    .done (chars% "\n\t\t\t\t")

/-- NAME.pb.baron.go.tmpl:422-449: what a decoder does before the parameters, for requests of the Go type `t`. Simplification: the
body is closed at the end of these statements; those that follow do not read it. -/
def readRequest (t : Str) : Code :=
  .deferred (chars% "\n\t\t") (.method (.sel (var (chars% "r")) (chars% "Body")) (chars% "Close") (args [])) <|
  .var (chars% "\n\t\t") (chars% "req") t <|
  .define (chars% "\n\t\t") [chars% "buf", chars% "err"] (.call (chars% "ioutil.ReadAll") (args [.sel (var (chars% "r")) (chars% "Body")])) <|
  .ifThen (chars% "\n\t\t") (.bin (var (chars% "err")) (chars% "!=") .nil)
    (.ret (chars% "\n\t\t\t") (args [.nil, .call (chars% "errors.Wrapf") (args [var (chars% "err"), .text (chars% "cannot read body of http request")])]) <|
    .done (chars% "\n\t\t")) <|
  .ifThen (chars% "\n\t\t") (.bin (.call (chars% "len") (args [var (chars% "buf")])) (chars% ">") (.num 0))
    (.define (chars% "\n\t\t\t") [chars% "unmarshaller"] (.lit (chars% "protojson.UnmarshalOptions") readArgs) <|
    .ifAssign (chars% "\n\t\t\t") (chars% "err") (.into (chars% "unmarshaller") (chars% "buf") (chars% "req")) (.bin (var (chars% "err")) (chars% "!=") .nil)
      (.const (chars% "\n\t\t\t\t") (chars% "size") 8196 <|
      .ifThen (chars% "\n\t\t\t\t") (.bin (.call (chars% "len") (args [var (chars% "buf")])) (chars% ">") (var (chars% "size")))
        (.assign (chars% "\n\t\t\t\t\t") [chars% "buf"] (.cut (chars% "buf") (chars% "size")) <|
        .done (chars% "\n\t\t\t\t")) <|
      .ret (chars% "\n\t\t\t\t") (args [.nil, badRequest]) <|
      .done (chars% "\n\t\t\t")) <|
    .done (chars% "\n\t\t")) <|
  .define (chars% "\n\n\t\t") [chars% "pathParams"] (.call (chars% "mux.Vars") (args [var (chars% "r")])) <|
  .assign (chars% "\n\t\t") [chars% "_"] (var (chars% "pathParams")) <|
  .define (chars% "\n\n\t\t") [chars% "queryParams"] (.method (.sel (var (chars% "r")) (chars% "URL")) (chars% "Query") (args [])) <|
  .assign (chars% "\n\t\t") [chars% "_"] (var (chars% "queryParams")) <|
  .done (chars% "\n\n\t\t")

variable {F : Type}

/-- A value for the statements that follow, which see the parameters of the path and the query. -/
def toGV (vars : List (Str × Str)) (query : List (Str × List Str)) (v : Val (FullMsg F)) : Option (GoLang.GV F) := match v with
  | .nil => some (.err false)
  | .err _ => some (.err true)
  | .lib f [] => if f = chars% "mux.Vars" then some (.vars vars) else if f = chars% "url.Query" then some (.query query) else none
  | _ => none

/-- The end of the parameters: what the last statement returns. `conv` is the error of a conversion that failed. -/
def results (conv : GoLang.State F → Err) (t : Str) (o : GoLang.Out F) (st : St (FullMsg F)) : Ans (FullMsg F) (List (Val (FullMsg F))) := match o with
  | .returned false σ => .ok [.msg t σ.req, .nil] st
  | .returned true σ => .ok [.msg t σ.req, .err (conv σ)] st
  | .fault .panic => .panic st
  | _ => .stuck

/-- NAME.pb.baron.go.tmpl:421-463 `DecodeHTTP…Request`, called with a request with these parameters. -/
def decode (w : World (FullMsg F)) (k : Calls (FullMsg F)) (L : GoLang.Libs F) (conv : GoLang.State F → Err) (t meth : Str) (b : HTTPBinding)
    (vars : List (Str × Str)) (query : List (Str × List Str)) (st : St (FullMsg F)) : Ans (FullMsg F) (List (Val (FullMsg F))) :=
  match (readRequest t).exec w k { st with vars := [(chars% "r", .request)] } with
  | .ok (some vs) st' => .ok vs { st' with vars := st.vars }
  | .ok none st' => match look st'.vars (chars% "req") with
    | some (.msg t x) => results conv t (GoLang.run L (Decoders.decoderCode meth b) ⟨[fun y => (look st'.vars y).bind (toGV vars query)], x⟩) { st' with vars := st.vars }
    | _ => .stuck
  | .panic st' => .panic { st' with vars := st.vars }
  | .stuck => .stuck

end Baron.GoDecode
