import Verif.Model.Render
import Verif.Spec.HTTP

/-!
# Texts that are expected in the generated files, and Go string literals
-/

namespace Baron.TT

open Baron.Svcdef Baron.HTTP

/-- The text `a` occurs in `txt`. -/
def Occurs (a txt : Str) : Prop := ∃ A B, txt = A ++ (a ++ B)

/-! ## Go string literals -/

def hexDigit (c : Char) : Option Nat :=
  if '0' ≤ c ∧ c ≤ '9' then some (c.toNat - 48)
  else if 'a' ≤ c ∧ c ≤ 'f' then some (c.toNat - 87)
  else if 'A' ≤ c ∧ c ≤ 'F' then some (c.toNat - 55)
  else none

/-- The number written with the first `n` characters, in base `b`, and what follows. -/
def digits (b : Nat) : Nat → Nat → Str → Option (Nat × Str)
  | 0, acc, s => some (acc, s)
  | n + 1, acc, c :: s => match hexDigit c with
    | some d => if d < b then digits b n (b * acc + d) s else none
    | none => none
  | _ + 1, _, [] => none

/-- The character an escape sequence of an interpreted string literal stands for, given what follows the backslash, and the rest (Go
specification, "String literals"; a byte from 128 on is not told from the character of that number). -/
def escape : Str → Option (Char × Str)
  | 'a' :: r => some ('\x07', r)
  | 'b' :: r => some ('\x08', r)
  | 'f' :: r => some ('\x0c', r)
  | 'n' :: r => some ('\n', r)
  | 'r' :: r => some ('\r', r)
  | 't' :: r => some ('\t', r)
  | 'v' :: r => some ('\x0b', r)
  | '\\' :: r => some ('\\', r)
  | '"' :: r => some ('"', r)
  | 'x' :: r => (digits 16 2 0 r).map fun x => (Char.ofNat x.1, x.2)
  | 'u' :: r => (digits 16 4 0 r).map fun x => (Char.ofNat x.1, x.2)
  | 'U' :: r => (digits 16 8 0 r).map fun x => (Char.ofNat x.1, x.2)
  | r => (digits 8 3 0 r).map fun x => (Char.ofNat x.1, x.2)

/-- The value of an interpreted string literal, given the text after its opening quote, and what follows the closing quote; `none`: it is
not a literal. `n` bounds the recursion; the length of the text suffices. -/
def literalGo : Nat → Str → Option (Str × Str)
  | 0, _ => none
  | n + 1, s => match s with
    | [] => none
    | '"' :: r => some ([], r)
    | '\n' :: _ => none
    | '\\' :: r => match escape r with
      | none => none
      | some (c, r') => (literalGo n r').map fun x => (c :: x.1, x.2)
    | c :: r => (literalGo n r).map fun x => (c :: x.1, x.2)

def literal (s : Str) : Option (Str × Str) := literalGo (s.length + 1) s

/-- A text that means itself in an interpreted string literal. -/
def Plain (p : Str) : Prop := '"' ∉ p ∧ '\\' ∉ p ∧ '\n' ∉ p

/-! ## HTTP server -/

/-- The rpcs with HTTP bindings. -/
def httpRpcs (s : Service) : List ServiceMethod := s.methods.filter fun m => !m.bindings.isEmpty

/-- The bindings of an rpc, numbered from 0. -/
def numbered (m : ServiceMethod) : List (HTTPBinding × Nat) := m.bindings.zipIdx

/-- What follows the path in the statement that registers a binding. -/
def routeRest (rpc label : Str) : Str :=
  chars% ").Handler(httptransport.NewServer(\n\t\t\t\tendpoints." ++ (rpc ++ (chars% "Endpoint,\n\t\t\t\tDecodeHTTP" ++ (label ++
    chars% "Request,\n\t\t\t\tEncodeHTTPGenericResponse,\n\t\t\t\tserverOptions...,\n\t\t\t))")))

/-- The statement that registers a binding. -/
def routeText (verb path rpc label : Str) : Str :=
  chars% "\n\t\t\tm.Methods(\"" ++ (toUpper verb ++ (chars% "\").Path(\"" ++ (path ++ ('"' :: routeRest rpc label))))

/-- The statements of `MakeHTTPHandler` from the creation of the router to its end. -/
def handlerText (s : Service) : Str :=
  chars% "\n\tm := mux.NewRouter()\n\n\t" ++
  ((httpRpcs s).flatMap (fun m => chars% "\n\t\t" ++
    (numbered m).flatMap fun b => routeText b.1.verb b.1.path m.name (m.name ++ englishNumber b.2)) ++
  chars% "\n\treturn m\n}\n")

/-! ## HTTP client -/

/-- What follows the base path in the statement that makes the endpoint of an rpc. -/
def clientRest (rpc label : Str) : Str :=
  chars% "),\n\t\t\t\t\t\tEncodeHTTP" ++ (label ++ (chars% "Request,\n\t\t\t\t\t\tDecodeHTTP" ++ (rpc ++
    chars% "Response,\n\t\t\t\t\t\toptions...,\n\t\t\t\t\t).Endpoint()\n\t\t\t\t}")))

/-- The endpoint of an rpc in `NewHTTPClient`: it uses the first binding. -/
def clientText (verb base rpc label : Str) : Str :=
  chars% "\n\t\tvar " ++ (label ++ (chars% "Endpoint endpoint.Endpoint\n\t\t\t\t{\n\t\t\t\t\t" ++ (label ++
  (chars% "Endpoint = httptransport.NewClient(\n\t\t\t\t\t\t\"" ++ (toUpper verb ++ (chars% "\",\n\t\t\t\t\t\tcopyURL(u, \"" ++
  (base ++ ('"' :: clientRest rpc label))))))))

/-- An endpoint in the value that `NewHTTPClient` returns. -/
def clientField (rpc label : Str) : Str := rpc ++ (chars% "Endpoint:    " ++ (label ++ chars% "Endpoint,\n\t\t\t"))

/-- `NewHTTPClient` after the instance has been read: an endpoint for the first binding of every rpc that has one. -/
def newClientText (s : Service) : Str :=
  chars% "\n\t_ = u\n\n\t" ++ ((if httpRpcs s = [] then
    chars% "panic(\"No HTTP Endpoints, this client will not work, define bindings in your proto definition\")" else []) ++
  (chars% "\n\n\t" ++ ((httpRpcs s).flatMap (fun m => (m.bindings.take 1).flatMap fun b =>
    clientText b.verb (b.path.takeWhile (· ≠ '{')) m.name (m.name ++ englishNumber 0)) ++
  (chars% "\n\n\treturn Endpoints{\n\t" ++ ((httpRpcs s).flatMap (fun m => (m.bindings.take 1).flatMap fun _ =>
    clientField m.name (m.name ++ englishNumber 0)) ++
  chars% "\n\t}, nil\n}\n")))))

/-- The parameter `n` of the path is for a field of an enum type. -/
def EnumParam (b : HTTPBinding) (n : Str) : Prop := ∃ p ∈ b.params, p.field.type.oneof = [] ∧ p.field.type.name ≠ [] ∧
  p.field.type.enum.isSome ∧ Strs.goCamelCase p.field.name = Strs.goCamelCase n

open Classical in
/-- The Go expression for a part of the path: a literal part between quotes, the field for a parameter. -/
noncomputable def pieceText (b : HTTPBinding) : Piece → Str
  | .lit l => '"' :: (l ++ ['"'])
  | .var n => if EnumParam b n then chars% "fmt.Sprintf(\"%d\", req." ++ (Strs.goCamelCase n ++ [')'])
    else chars% "fmt.Sprint(req." ++ (Strs.goCamelCase n ++ [')'])

/-- An element of the list that is joined with slashes. -/
def element (e : Str) : Str := chars% "\n\t\t\t" ++ (e ++ [','])

/-- The beginning of the encoder of a binding with that path, up to the end of the path. -/
noncomputable def encoderText (label request : Str) (b : HTTPBinding) (ps : List Piece) : Str :=
  chars% "func EncodeHTTP" ++ (label ++
  (chars% "Request(_ context.Context, r *http.Request, request interface{}) error {\n\t\tstrval := \"\"\n\t\t_ = strval\n\t\treq := request.(*" ++
  (Strs.goCamelCase request ++
  (chars% ")\n\t\t_ = req\n\n\t\tr.Header.Set(\"transport\", \"HTTPJSON\")\n\t\tr.Header.Set(\"request-url\", r.URL.Path)\n\n\t\t// Set the path parameters\n\t\tpath := strings.Join([]string{" ++
  (element (chars% "\"\"") ++ (ps.flatMap (fun p => element (pieceText b p)) ++ chars% "\n\t\t}, \"/\")\n"))))))

end Baron.TT
