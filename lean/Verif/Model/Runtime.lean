import Verif.Model.HTTPNames

/-!
# Model of the generated runtime code: middleware wrapping, contexts, errors

All from gengokit/template/NAME-service/baron/NAME.pb.baron.go.tmpl.
-/

namespace Baron.Runtime

open Baron.HTTP (look)

/-! ## Endpoints and middleware -/

/-- NAME.pb.baron.go.tmpl:131-136 and 163-168: removing the exclusions from the set of names; `error ex` is the panic
naming `ex`. -/
def exclude (included : List Str) : List Str → Except Str (List Str)
  | [] => .ok included
  | ex :: r => if ex ∈ included then exclude (included.filter (· ≠ ex)) r else .error ex

/-- Assignment to one field of the `Endpoints` struct. The struct has one field per method name. -/
def setField {E : Type} (e : Str → E) (n : Str) (v : E) : Str → E := fun m => if m = n then v else e m

/-- NAME.pb.baron.go.tmpl:139-143 / 171-175: the `if` chain run for one included name. -/
def wrapOne {E : Type} (mw : Str → E → E) (methods : List Str) (e : Str → E) (inc : Str) : Str → E :=
  methods.foldl (fun e i => if inc = i then setField e i (mw i (e i)) else e) e

/-- NAME.pb.baron.go.tmpl:156-177 `WrapAllLabeledExcept`: the endpoints afterwards and, if it panicked, the name in the
panic. `order` is the order in which Go happens to range over the map of remaining names. -/
def wrapAllLabeledExcept {E : Type} (order : List Str → List Str) (methods : List Str) (e : Str → E)
    (mw : Str → E → E) (excluded : List Str) : (Str → E) × Option Str :=
  match exclude methods excluded with
  | .error ex => (e, some ex)
  | .ok included => ((order included).foldl (wrapOne mw methods) e, none)

/-- NAME.pb.baron.go.tmpl:124-145 `WrapAllExcept`. -/
def wrapAllExcept {E : Type} (order : List Str → List Str) (methods : List Str) (e : Str → E)
    (mw : E → E) (excluded : List Str) : (Str → E) × Option Str :=
  match exclude methods excluded with
  | .error ex => (e, some ex)
  | .ok included => ((order included).foldl (wrapOne (fun _ => mw) methods) e, none)

/-! ## Headers, metadata and contexts -/

/-- net/textproto `validHeaderFieldByte`: the token characters. -/
def tokenChar (c : Char) : Bool :=
  isAsciiLetter c || isAsciiDigit c || "!#$%&'*+-.^_`|~".toList.contains c

/-- net/textproto `canonicalMIMEHeaderKey`: upper-case at the start and after '-', lower-case elsewhere. -/
def canonGo (upper : Bool) : Str → Str
  | [] => []
  | c :: r => (if upper then upperC c else lowerC c) :: canonGo (c = '-') r

/-- `http.CanonicalHeaderKey`: keys with characters outside the token set are returned unchanged. -/
def canonical (k : Str) : Str := if k.all tokenChar then canonGo true k else k

/-- A `context.Context`, restricted to string keys and values: the chain of `WithValue` calls, latest first. -/
abbrev Ctx := List (Str × Str)

/-- An `http.Header` or `metadata.MD`: keys in the order Go happens to range over them. -/
abbrev Header := List (Str × List Str)

/-- `http.Header.Get`: first value under the canonical key, "" if none. -/
def headerGet (h : Header) (k : Str) : Str := match look h (canonical k) with
  | some (v :: _) => v
  | _ => []

/-- NAME.pb.baron.go.tmpl:487-494: the loop of `HTTPHeadersToContext` (`all` is the whole header map). -/
def headersLoop (all : Header) : Header → Ctx → Ctx
  | [], ctx => ctx
  | (k, _) :: r, ctx => headersLoop all r ((toLower k, headerGet all k) :: (k, headerGet all k) :: ctx)

/-- NAME.pb.baron.go.tmpl:486-502 `HTTPHeadersToContext`. -/
def httpHeadersToContext (ctx : Ctx) (h : Header) (urlPath : Str) : Ctx :=
  ("transport".toList, "HTTPJSON".toList) :: ("request-url".toList, urlPath) :: headersLoop h h ctx

/-- A metadata entry: `none` is a nil slice. -/
abbrev MD := List (Str × Option (List Str))

/-- NAME.pb.baron.go.tmpl:241-253 `GRPCMetadataToContext`; `none` is the panic of `v[0]` on an empty non-nil slice. -/
def grpcMetadataToContext : MD → Ctx → Option Ctx
  | [], ctx => some ctx
  | (_, none) :: r, ctx => grpcMetadataToContext r ctx
  | (_, some []) :: _, _ => none
  | (k, some (v :: _)) :: r, ctx => grpcMetadataToContext r ((canonical k, v) :: (k, v) :: ctx)

/-- `http.Header.Set`. -/
def headerSet (h : Header) (k v : Str) : Header := (canonical k, [v]) :: h.filter (·.1 ≠ canonical k)

/-- NAME.pb.baron.go.tmpl:561-570 `CtxValuesToSend`: the headers after the request function ran. -/
def ctxValuesToSend (ctx : Ctx) : List Str → Header → Header
  | [], h => h
  | k :: ks, h => match look ctx k with
    | some v => ctxValuesToSend ctx ks (headerSet h k v)
    | none => ctxValuesToSend ctx ks h

/-- `metadata.Pairs`/`metadata.Join`: append one value under the lower-cased key. -/
def mdAdd (md : Header) (k v : Str) : Header :=
  let k := toLower k
  match look md k with
  | some _ => md.map fun e => if e.1 = k then (e.1, e.2 ++ [v]) else e
  | none => md ++ [(k, [v])]

/-- NAME.pb.baron.go.tmpl:307-322 `ContextValuesToGRPCMetadata`: collecting the pairs, then joining them to the outgoing
metadata. Joining pair by pair gives the same result as `metadata.Join(*md, metadata.Pairs(pairs...))`. -/
def ctxValuesToMD (ctx : Ctx) : List Str → Header → Header
  | [], md => md
  | k :: ks, md => match look ctx k with
    | some v => ctxValuesToMD ctx ks (mdAdd md k v)
    | none => ctxValuesToMD ctx ks md

/-! ## Errors over HTTP -/

/-- What `errorEncoder` can observe of an error value: its message; the result of `MarshalJSON` when it implements
`json.Marshaler` (`some none` when marshalling fails); `Headers()` when it is a `Headerer`; `StatusCode()` when it is a
`StatusCoder`. -/
structure Err where
  msg : Str
  json : Option (Option Str)
  headers : Option Header
  status : Option Nat
  deriving Repr, DecidableEq

/-- An HTTP response: status code, headers, body. -/
structure Response where
  code : Nat
  headers : Header
  body : Str
  deriving Repr, DecidableEq

/-- `encoding/json` on the one-field struct `errorWrapper` (NAME.pb.baron.go.tmpl:395-397), as a parameter: `enc` writes
`{"error": msg}`, `dec` reads an arbitrary body (`none` is a JSON error; a body without the key gives ""). The only
assumed fact is that reading back what was written gives the message. -/
structure ErrJSON where
  enc : Str → Str
  dec : Str → Option Str
  dec_enc : ∀ m, dec (enc m) = some m

/-- `const contentType`, NAME.pb.baron.go.tmpl:326. -/
def contentType : Str := "application/json; charset=utf-8".toList

/-- NAME.pb.baron.go.tmpl:370-372: copying the declared headers, in Go's map order. -/
def copyHeaders (all : Header) : Header → Header → Header
  | [], h => h
  | (k, _) :: r, h => copyHeaders all r (headerSet h k (headerGet all k))

/-- NAME.pb.baron.go.tmpl:361-380 `errorEncoder`; `h0` are the headers already present on the writer. Status codes
outside 100–999 make `WriteHeader` panic and are outside the model. -/
def errorEncoder (J : ErrJSON) (err : Err) (h0 : Header) : Response where
  body := match err.json with
    | some (some b) => b
    | _ => J.enc err.msg
  headers :=
    let h := headerSet h0 "Content-Type".toList contentType
    match err.headers with
    | some hs => copyHeaders hs hs h
    | none => h
  code := match err.status with
    | some c => c
    | none => 500

/-- net/http: responses with these codes carry no body. -/
def bodyAllowed (code : Nat) : Bool := !(code < 200) && code ≠ 204 && code ≠ 304

/-- The body the client reads. -/
def Response.received (r : Response) : Str := if bodyAllowed r.code then r.body else []

/-- NAME.pb.baron.go.tmpl:382-393 `errorDecoder`: the message of the returned error. Simplification: the body is cut after 8196
characters, not bytes. -/
def errorDecoder (J : ErrJSON) (buf : Str) : Str := match J.dec buf with
  | none => "response body '".toList ++ buf.take 8196 ++ "': cannot parse non-json request body".toList
  | some m => m

/-- NAME.pb.baron.go.tmpl:580-604 `DecodeHTTP…Response`: `unmarshal` is protojson on the response message. The error of a
non-200 response is `errorDecoder`'s wrapped with `status code: '%d'` (pkg/errors puts the wrapping text first). -/
def decodeResponse {R : Type} (J : ErrJSON) (unmarshal : Str → Option R) (r : Response) : Except Str R :=
  if r.code ≠ 200 then
    .error ("status code: '".toList ++ HTTP.itoa r.code ++ "': ".toList ++ errorDecoder J r.received)
  else match unmarshal r.received with
    | some v => .ok v
    | none => .error (errorDecoder J r.received)

end Baron.Runtime
