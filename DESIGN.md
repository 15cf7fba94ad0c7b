# Formal model of teamlint/baron in Lean 4

## Method

`/repo` is read as text; nothing is built or run. Every Go function of interest is transcribed to a small total
Lean function (`lean/Verif/Model/*.lean`), each definition citing the file and lines it models. Specifications that
state a property without using the model's helpers are in `lean/Verif/Spec/*.lean`; helper lemmas in
`lean/Verif/Proofs/*.lean`; the property theorems, with a concrete satisfying case (`example`) beside each, in
`lean/Verif/Props/*.lean`. Where the code violates a property the negation is proved with a concrete witness
(`*_witness`), and the exact condition under which it holds is proved as an equivalence.

Conventions: a Go `string`/`[]rune` is `List Char` (`Str`). Errors are values, `nil` is `none`, a run-time panic is
an explicit outcome. A `for` loop is structural recursion, a fold, or fuel-indexed recursion together with a
theorem that the fuel used never runs out. A Go `map` that is iterated is an association list, and order
independence is stated over every permutation. Process-wide Go variables are explicit state threaded through calls.

## Trusted base

* Lean 4.33's kernel. Axioms: at most `propext`, `Classical.choice`, `Quot.sound` (checked by `vcheck`).
  No own axioms, no compiled-code decision procedures.
* The transcription from Go to Lean (human reading; cited line by line).
* Standard library and third-party behaviour, modelled concretely from its documentation (part of the transcription, not
  of /repo): `strings.*`, `filepath.Clean/Abs/Dir/Base/Ext/Join/Split`, `build.IsLocalImport`, `path.Clean`-style URL
  resolution, `strconv` integer parsing and formatting, `url.QueryEscape/Parse` for the forms used, HTTP header
  canonicalisation, `reflect.StructTag.Get`, gorilla/mux 1.8.0 matching of `{name}` segments and methods, first-match
  routing, gRPC dispatch by full method name, NATS request/reply on a subject, Go channels (FIFO) and goroutine
  interleaving for `Run`, `flag` defaults and last-one-wins.
* Parameters of the model, with only the laws stated in the theorems: Unicode letter/digit tables (exact on ASCII, false on
  white space), `strconv.Unquote` (plus an exact model for escape-free literals), floating-point formatting and parsing,
  protojson/JSON codecs, `gofmt`, executed templates (for the file-level theorems; C84 and after execute them, on the model of text/template in `Model/TextTemplate`, whose faithfulness to Go's library is trusted), `go/parser` (Go files are syntax
  trees), protoc (which files it writes), `packages.Load`, the success of system calls, map iteration orders.
* Not modelled: invalid UTF-8 (`[]rune` conversion replaces it first), overflow of line and brace counters, logging (except the messages about
  written files, C71),
  symbolic links and permissions, concurrent changes of the file system, TLS, go-kit middleware internals, code below
  `third_party`, `deftree`, examples and tests.

## What is modelled, by module

| model | code in /repo |
|-------|---------------|
| `Model/Scanner` | svcdef/svcparse/scanner.go: `RuneReader`, `SvcScanner`, `BuildScanUnit`, comment and string reading, process-wide variables |
| `Model/Lexer` | svcdef/svcparse/lexer.go: `NewTokenGroup`, `SvcLexer`, get/unget |
| `Model/Parser` | svcdef/svcparse/parser.go, all of it |
| `Model/Consolidate` | svcdef/consolidate_http.go: verbs, locations, path parameters, merging |
| `Model/Svcdef`, `Model/SvcdefNew` | svcdef/svcdef.go, svcdef/resolvetypes.go: declarations to messages, enums, services, oneofs, type resolution, tags |
| `Model/New` | `svcdef.New` end to end, two calls in one process |
| `Model/Strs` | pkg/strs.go |
| `Model/HTTPNames`, `Model/HTTPCode` | gengokit/httptransport/*.go: labels, bindings, path templates, query/path/body code and its meaning |
| `Model/Runtime` | functions of the generated transport file: path parameters, context headers, endpoint wrapping, errors |
| `Model/Service` | gengokit/service/services.go: merging service.go (declarations, imports, stubs) |
| `Model/Generator` | gengokit/generator/gen.go, renderers, writing and cleaning up in cmd/baron/main.go, interrupted writes |
| `Model/Report` | gen.go `responseInfo` and its calls; `IsModified` of services.go |
| `Model/Signatures` | names and types of the methods the templates write on `Endpoints`, `*grpcServer` and the service type |
| `Model/Locals` | every function of the generated Go files as the sequence of what it does with names: variables declared, assigned, used, package-level names and types mentioned (templates and httptransport.go: `GenQueryUnmarshaler`, `createDecodeConvertFunc`, `createDecodeTypeConversion`) |
| `Model/Wire` | the query of a call, starting from the query of the instance address (NAME.pb.baron.go.tmpl 509-555, 634-690) |
| `Model/Main` | flags, GOPATH, the call of protoc, `main` (cmd/baron/main.go 36-162, internal/execprotoc/execprotoc.go 13-128; pflag 1.0.5 from its source) |
| `Model/HTTPCall` | a whole HTTP call (NAME.pb.baron.go.tmpl 93-100, 330-353, 421-547, 561-714 and go-kit's http transport, mux's 404/405); not modelled: cancelled contexts, user options and middleware, HEAD responses, following redirects |
| `Model/Concurrent` | template/NAME-service/server/server.go.tmpl `Run`, `NewEndpoints`; NAME.pb.baron.go.tmpl servers: many requests at once; a call of the implementation is one step |
| `Model/Race` | NAME.pb.baron.go.tmpl 613-714 as accesses to the caller's message; one access per statement |
| `Model/FromString` | `svcdef/newfromstring.go`: `NewFromString`; what protoc writes is a parameter (two files, of which the first is read) |
| `Model/TextTemplate` | Go's text/template as far as the templates use it: lexer, parser, execution (a model of the standard library, not of code in /repo) |
| `Model/TemplateSrc` | the ten templates of gengokit/template, character by character (generated from the files; the bindata in template.go was compared with them) |
| `Model/Render` | gengokit.go `Config`, `Data`, `NewData`, `ApplyTemplate`; httptransport.go `NewHelper`, `NewMethod`, `NewBinding`, `GenQueryUnmarshaler`, `createDecodeConvertFunc`, `PathSections` with their inner templates: the data the templates are executed on, and the resulting texts |
| `Model/Start` | internal/start |
| `Model/Transport` | gRPC, NATS and HTTP transports and clients of the templates |
| `Model/Server` | server.go template: configuration, `Run` |
| `Model/Cli` | cmd/baron/main.go: arguments, output directory, order of the steps; internal/parsesvcname |
| `Model/Idents` | identifiers declared by the transport template and server.go, by scope |
| `Model/Oneof` | httptransport.go: oneofs (`OneofField`), and their statements in the transport template |
| `Model/GoLang` | not code of baron: the fragment of Go in which generated decoders are written, its text and its meaning (scopes, `:=`, `if`, `range`, `switch`, strconv, json) |
| `Model/GoClient` | not code of baron: the fragment of Go in which generated encoders are written, its text and its meaning (scopes, `fmt.Sprint`, json, `url.Parse`, the fields of the HTTP request) |
| `Model/Assets` | gengokit/template/template.go 284-450: `Asset`, `MustAsset`, `AssetNames`, `AssetDir`, `_bindata`, `_bintree` |
| `Model/Restore` | gengokit/template/template.go 453-493: `RestoreAsset`, `RestoreAssets`, `_filePath`, with `filepath.Join`, `Dir`, `Clean`; an operating system that may refuse anything; permissions and times are not modelled; the recursion has fuel, which four levels never use up |
| `Model/GoMain` | not code of baron: the fragment of Go, and the flag package, that cmd/NAME/main.go of the generated server uses |
| `Model/GoWrap` | not code of baron: the fragment of Go that `WrapAllExcept` and `WrapAllLabeledExcept` use (map literals, delete, range in any order, panic) |
| `Model/GoServer` | not code of baron: the fragment of Go with goroutines and an unbuffered channel that `Run` and `Interrupt` of the generated server are written in; functions of other packages that only build values return, those whose error is used behave in any way |
| `Model/GoCalls` | not code of baron: the fragment of Go, and of the flag and log packages, that cmd/NAME-client/main.go uses; connections, clients and calls behave in any way |
| `Model/GoFunc` | not code of baron: a fragment of Go with closures, structs and methods, and the part of go-kit 0.10's transport/grpc (`NewServer`, `ServeGRPC`, `NewClient`, `Endpoint`) and of gRPC that the generated functions use, and of transport/nats (`NewSubscriber`, `ServeMsg`, `NewPublisher`, `Endpoint`, the JSON encoders) and the NATS queue groups (one group per subject, no publish errors, no timeouts of a reply that is sent, options that change messages are not modelled); a pointer and its struct are the same; the implementation, contexts, options, the network and what a nil message is sent as are any |
| `Model/GoHTTP` | not code of baron: a fragment of Go with errors, maps, type tests, deferred calls and closures, and what the helpers use of net/http, context, encoding/json (as a parameter), protojson (as a parameter), gRPC metadata, ioutil and pkg/errors; then the helper functions of `NAME.pb.baron.go.tmpl` (241-253, 307-322, 361-413, 467-502, 549-570, 580-604) themselves, as programs. One writer, request, response and outgoing metadata at a time; a string is a list of characters, so the 8196 limit counts characters |
| `Model/GoRoutes` | not code of baron: a fragment of Go with chains of calls, composite literals and variadic calls; go-kit 0.10 `NewServer`/`ServeHTTP`, `ServerBefore`, `ServerAfter`, `SetContentType`, `ServerErrorEncoder`, `NewClient`/`Endpoint`, `ClientBefore`; gorilla/mux 1.8 matching by verb and path with 404, 405 and the redirect of an unclean path (the same matching as `Model/Transport`); then `MakeHTTPHandler` and `NewHTTPClient` (NAME.pb.baron.go.tmpl:330-353, 506-547) as programs. A custom pattern in a route (`{id:…}`) is outside the premises. Finalizers, error handlers and buffered streams of go-kit are not modelled |
| `Model/GoDecode` | NAME.pb.baron.go.tmpl:421–463 (the decoder of a binding's requests: its first statements as a program of `Model/GoHTTP`, then those of the parameters as the program of `Model/GoLang` that C89 reads off the text). The variables pass from one language to the other: `err`, `pathParams`, `queryParams` and `req`. The body counts as closed when the first part ends, the second does not read it. What error a failed conversion gives is a parameter |
| `Model/GoExchange` | what net/http carries between a client's program and a handler's program: the path and the body of the request, and of an answer its status and its body (none for a status without one). `libOf` reads the libraries of the two languages as those of `Model/HTTPCall`, so that the conditions on a message are the ones of C79 |
| `Model/GoImpl` | not code of baron: go-kit's server calling an endpoint, whose program is one of `GoFunc`, with the values of `GoHTTP` |

Not modelled: interrupt.go/wrapper.go templates' user code, what protoc
and the plugins do beyond reading their arguments and naming their files, the question `init` asks when baron was not built
with make, config structs (plain data), third_party, tests.

## Plan per property

| id | model | proof |
|----|-------|-------|
| C01 | `RuneReader` state machine | invariant by induction over op lists; inverse law |
| C02 | `buildScanUnit`, `scan` over explicit global state | lexeme lemma for each unit; exact description of what is missing, equivalence for losslessness, witnesses |
| C03 | same | invariant over unit list: line = 1 + newlines, depth = running brace sum |
| C04 | same, history = list of earlier texts | the process state as a fold over unit texts; equivalence on the elements of all earlier files; witness for an unbalanced file |
| C05 | same | progress lemma: each unit consumes at least one rune; fuel independence |
| C06 | `SvcScanner`, `newTokenGroup`, `svcLexer` | induction on scanner position |
| C07 | same | token text = concatenation of a segment of units |
| C08 | `Lexer` get/unget state machine | invariants over op lists |
| C09 | parser with fuel | fuel > remaining tokens never runs out |
| C10 | parser | simulation between stream and whitespace-filtered stream |
| C11 | parser, AST printer to tokens (spec) | induction over AST, arbitrary layout |
| C12 | same | corollary of C11 over ASTs with option-less rpcs |
| C13 | `paramLocation`, `createParams` | case analysis against declarative spec |
| C14 | `getPathParams` (regex semantics as a function) | induction over template |
| C15 | `getVerb` | against declarative spec |
| C16 | `assembleHTTPParams` | fold invariant |
| C17 | `consolidateHTTP` over a list of files | equivalence over all permutations (adjacent swaps; moving files to the front); witnesses |
| C18 | `goCamelCase` | induction on words |
| C19 | `goSanitized` | case analysis |
| C20 | `jsonCamelCase`, `jsonSnakeCase` | induction |
| C21 | `pathParams`, `buildParamMap` | split/trim lemmas |
| C22 | `pathSections`, `pathParams`, mux | split/join lemmas; iff: a text `url.Parse` maps to itself has no special character |
| C23 | `newMethod`, labels | injectivity; witness for collision with > 10 bindings |
| C24 | `englishNumber` | prefix-code decoding |
| C25 | semantics of generated encode/decode | exact iff: per-location round trip, first segment that does not arrive |
| C26 | semantics of generated decode, with the shared error variable | exact iff: fold over fields, effect per field |
| C27 | `wrapAllExcept` over an endpoint map | fold lemmas, every map order |
| C28 | `headersToContext` | fold lemmas, every map order |
| C29-C31 | `services.go` over abstract declarations | list lemmas; C30 and C31 as exact counts and as an iff |
| C32 | renderers and `generateResponseFile` | case analysis per template |
| C33 | `templatePathToActual` | injectivity over the template list for all names |
| C34 | `cleanupOldFiles` over a path set | set reasoning |
| C35-C36 | `start.Do` over an abstract file system | case analysis |
| C37 | `svcdef.New` over abstract Go files with explicit `oneofs` state | per-file lemmas for empty and filled table, induction over files; equivalences for messages and order; witnesses |
| C38 | `resolveTypes` | map lookups, exact (enum-valued maps stay unresolved) |
| C39 | `NewField` tag parsing | split lemmas |
| C40 | `errorEncoder`/`errorDecoder` | exact: case analysis with JSON parameter, iff for the message |
| C41 | parser on option blocks | options before the first block are immaterial; anything after it, and no block at all, is an error |
| C42 | `trimEnumPrefix`, map-entry and enum-value names | induction over letters |
| C43 | client header writing, server context reading | composition of folds, every map order |
| C44 | generated conversion statements with a type system for the Go expressions used | case analysis over field types, iff |
| C45 | `Gen.main` | case analysis; failure criterion as iff |
| C46 | small-step writes | prefixes of the step list against the set of possible states, iff |
| C47 | `Gen.main` twice | per-path reasoning over every order |
| C48 | starter text through scanner, lexer, parser | symbolic text; iff, the exception being the package name `service` |
| C49 | scanner against a declarative lexeme grammar | existence and uniqueness of the cut |
| C50 | parser errors | error carries a token of the stream; position from C49 |
| C51 | mux router over declared bindings | first-match, overlap criterion |
| C52, C53 | gRPC and NATS dispatch | lookup by name; NATS failures arrive as success |
| C54 | HTTP client URL | string lemmas, exact iff |
| C55 | server configuration | fold over environment and flags |
| C56 | `Run` as a transition system | invariants over all schedules |
| C57, C58 | `svcdef.New` from texts and syntax trees | composition of C11, C16, C37, C49; totality |
| C59, C60 | `Cli` path functions against places (lists of names) | clean/walk correspondence |
| C61, C62 | `Cli.command` | composition of C32, C45, C57 |
| C63 | same, two initial directories | non-interference for directories that agree on leftovers; witness that leftovers matter |
| C64 | declared names of TB and server.go, scope by scope | groups told apart by affixes; exact iff |
| C65 | `Oneof`: generated statements of oneofs | exact iff for decoding, round trip and compilation |
| C66 | scanner, lexer, parser on text | first `service` word of an accepted text is the keyword; rejections of other uses |
| C67 | parser against a derivation system (`Spec/Accepts`) | soundness and completeness of the abstract parser, locality of derivations |
| C68 | `LowCamelName` against `JSONCamelCase` | character-wise description of both, length argument |
| C69 | `basePath`, `PathSections` | list lemmas |
| C70 | `svcdef.New`, `Cli.command` on streaming method shapes | inversion of success; error propagation by induction over members, interfaces, files |
| C71 | `responseInfo` for every renderer; `IsModified` of the merge | table of output files with their marks; pruning by induction, counting (C30) for `>>`, uniqueness of the adaptation for `=>` |
| C72 | `newSvcdef` to `Signatures`; Go's rule for implementing an interface as specification (`Spec/Signatures`: types compared across packages, promotion from embedded structs) | signatures survive the consolidation (induction over texts, rpcs, bindings), C37 for what is read, C18 for names; equivalence for each of the three types |
| C73 | the functions of server.go, client main.go and service.go as sequences of declarations, assignments and uses (`Model/Locals`); Go's scoping rules as specification (`Spec/Scope`) | fixed parts evaluated by the kernel, repeated parts by induction over the rpcs, monotonicity in what the package declares; exact form, both directions |
| C74 | the decoder of a binding as a sequence of declarations, assignments and uses (`Model/Locals`: `decoder`); conditions on names spelled out per parameter and oneof in `Spec/Decoder` | equivalence: simulation of blocks by the set of names in them, one lemma per kind of parameter, induction over parameters, options and oneofs; corollary without oneofs; witnesses for each kind of collision |
| C75 | all functions of the transport file (`Model/Locals`: `transportFile`) | one lemma per function, those depending on rpcs by induction; every import traced to a use; equivalence with three conditions |
| C76 | the client's query starting from the instance's (`Model/Wire`), fields and options at the level of declared types; digits, numbers, truth values, JSON lists and zero spelled out in `Spec/Wire` | lookups in folds with distinct names; corollaries of C26 and C65 for the server; `C26_texts` and `C26_lists` tie the conversions to their specification |
| C77 | the arguments of protoc, GOPATH, the files read afterwards; protoc's own reading of a command line, the name it gives a file and the plugins' naming rule in `Spec/Protoc`; relative and empty GOPATH entries included | reading of each argument, folds; paths as in C59; witnesses for a colon, an equals sign and another extension |
| C78 | pflag's parser and `main`; a grammar of command lines in `Spec/CommandLine` | soundness and completeness of the parser for the grammar by induction over the arguments and the letters; the last setting counts by induction from the right |
| C79 | Model/HTTPCall: go-kit's server and client around the generated functions: routes, decoders by label, endpoints by field, contexts, status codes; the service reads and changes a state of any type | `C79_serve` (any request with a plain path), `C79_call` (through the client), `C79_survives` (when a message makes the way, from C25 and C65), concrete calls evaluated |
| C80 | composition of the models of C57 (New on texts), C51 (routes), C79 (server and client); Spec/EndToEnd says what is written: `written`, `For`, `RequestFields` | `C80_served`, `C80_called`: the bindings of the definition correspond one by one, in order, to the written annotations (`declared_written`), so the first route that takes a request is that of the first annotation asking for it |
| C81 | Model/Concurrent: goroutines of any number of HTTP, gRPC and NATS requests over one `endpoints` value, each in the phases before, in and after the endpoint's call; Spec/Concurrent: the servers of C79, C52, C53 run alone, `OneByOne`, `Serializes` | invariant over executions: the requests whose effect took place, in that order, explain state and replies (`run_inv`); `C81_serializable`, `C81_wait_free`, `C81_tickets`, a concrete interleaving evaluated |
| C82 | Model/Race: the client's request encoder as its reads and writes of the message's fields (`toRet` and `req` are the same pointer), any number of calls interleaved; Spec/Race: `Writes`, `Reads`, `Races` | invariant: a pending write writes what the field holds; `C82_unchanged`, `C82_race_iff` (both directions, any number of calls), `C82_same_method`, `C82_get` |
| C83 | `Model/FromString`, `New`, `Cli` | without a server interface the definition has no methods (C37), so the first annotated rpc is unknown to consolidation (C57's lemmas); the command's first definition then fails or has no service |
| C84 | `Model/TextTemplate`, `Model/TemplateSrc`, `Model/Render`: `render` of every template for every definition | a checker of templates against shapes of data, proved sound by induction on the template (`exec_agree`); the kernel evaluates the checker on each parsed template; the data has the shape, by induction over its parts; with C62 for a whole run |
| C85 | the same; `Model/Generator` for the two runs | the checker on smaller shapes: a template checked against a shape gives the same output on data that agree on it (`apply_agree`); agreement of the data of two definitions; with C32 for two runs; witness for the client's main.go |
| C86 | the same; `Spec/Texts` has the expected texts and a reader of Go string literals | parts of the parsed template as literal terms (kernel evaluation of the parser on the template, `Proofs/Parts`), execution of a part gives a text that occurs in the output, execution node by node for arbitrary lists of rpcs and bindings; `literal_iff` for the quotes |
| C87 | the same; `Spec/Wiring` has the expected texts | as C86, through the `if` on the transport; `literal_clean` for the names on the wire |
| C88 | the same; `Spec/Files` has the expected texts | as C86, the whole parsed templates or their ends as literal terms (`Proofs/FileParts`) |
| C89 | `Model/GoLang`: syntax and text of the statements of a decoder; `Spec/Decoders`: the program for each type and location | the inner templates of `GenQueryUnmarshaler` and the decoder part of the transport template as literal terms (`Proofs/CodecParts`), executed symbolically for every type (`Proofs/Decoders`) |
| C90 | `Model/GoLang`: the meaning of these statements (scopes, `:=`, `err`, slices, faults); `Spec/DecoderRun`: which parameters, and the state after the body was read | simulation, statement by statement, of `decodeFull` by the program: `Proofs/FieldRun` for a field of each shape and for all fields, `Proofs/OneofRun` for oneofs; induction over parameters, list elements and options |
| C91 | `Model/GoClient`: syntax and text of the statements of an encoder; `Spec/Encoders`: the program for each type and location | the encoder part of the transport template as literal terms (`Proofs/EncoderParts`), executed symbolically for every type of field and option and every verb (`Proofs/Encoders`) |
| C92 | `Model/GoClient`: the meaning of these statements; `Spec/EncoderRun`: the request that is expected, made of `pathEnv`, `encodeFrom` and the headers | simulation, statement by statement (`Proofs/EncoderRun`): each shape of field, options, then folds over the parameters; the copies into the body are identities |
| C93 | the programs of `Spec/Encoders` and `Spec/Decoders` | C90 and C92 with C79/C25/C65 |
| C94 | `Model/Assets`: the table of names and the directory tree of template.go, lookups with backslashes; the specification is the listing of the template files | general theorem on trees (walking a path against the list of files of the tree), evaluated once for the tree of the code; every name by splitting and joining |
| C95 | `Model/GoMain`: the fragment of Go and of its flag package that main.go of the server uses, with texts and meaning; `Spec/GoMain`: the program, the grammar of command lines | the template is parsed in the kernel and its execution compared with the text of the program; statements executed one by one for every environment; command lines by induction on the arguments, both directions; with C55 |
| C96 | `Model/GoWrap`: the fragment of Go the two wrapping functions use, with texts and meaning; `Spec/GoWrap`: the two programs, what wrapping is | the parts of the template are parsed in the kernel, executed for every service and compared with the programs' texts; loops by induction on the exclusions and on the keys in any order |
| C97 | `Model/GoServer`: small-step semantics of goroutines, channel and calls, with texts; `Spec/GoServer`: the programs `Run` and `Interrupt`, all complete behaviours of each goroutine | the template parts are parsed in the kernel, executed for every service and compared with the programs' texts; symbolic execution of each goroutine for all futures; an invariant over all executions that projects them to the goroutines and relates channel, queue and return value |
| C98 | text of the client's main.go as a program (`Model/GoCalls`): flags, log, connections, clients, deferred calls, Go's unused checks | text by execution of the template; follow the steps of a plan by one lemma per statement, induction over the rpcs; parse of the arguments by induction |
| C99 | texts of the functions of a service as programs (`Model/GoFunc`), with an evaluator of bounded depth; the implementation may depend on the history of calls | text by execution of the templates; each function found by its name in the program (names are pairwise apart), executed symbolically, lists of rpcs by induction; the results hold at every sufficient depth |
| C100 | the NATS functions as programs of the same language; histories of subscriptions, messages and calls; JSON, refusals, inboxes and the choice of a queue member are arbitrary (`World`) | text by execution of the templates; `ServeNATS` by induction on the rpcs; a call through publisher, queue, subscriber, endpoint and back by symbolic execution at every sufficient depth |
| C101 | texts of the helpers as programs (`Model/GoHTTP`) with an evaluator; response writers, requests, responses and outgoing metadata are state; protojson, the JSON codec, reading a body and writing to a connection are arbitrary (`World`) | text by execution of the templates (an induction over the rpcs for the response decoders); every function by symbolic execution, loops by induction on the list they range over; then the specifications of C28, C40 and C43 |
| C102 | texts of `MakeHTTPHandler` and `NewHTTPClient` as programs (`Model/GoRoutes`) with an evaluator that builds routes, servers and clients; go-kit's `ServeHTTP`, its client call and gorilla/mux's matching run on what they build; decoders of requests, encoders of requests, endpoints, options, url.Parse and the exchange are arbitrary; `copyURL` is the program of C101 | text by execution of the templates; both functions by induction over the rpcs and their bindings; which route gets a request by the specification of C51; the helpers by C101 |
| C103 | the whole decoder (`Model/GoDecode`) | `C103_text`: C89 with the reading of the body printed from the program that is run; `C103_decoder`: symbolic execution of the first part in its three cases, then C90 for the parameters; `C103_served`: C102 for an environment that decodes as the program does |
| C104 | all programs of a call, connected by `Model/GoExchange` | C92 for the encoder, C102 for the client and the handler, C103 for the decoder, C101 for the encoders of responses and errors and the decoder of responses: the request's headers by `encoderHeader_look` and C102's selection, the variables mux finds by C10, the decoded message by C90 and C93 (`decodeFull_look`). The network is a premise (`Wired`, `Serving`, both built in the examples): requests arrive as the encoder's program leaves them, decoders run the decoder's program; `C104_refused` by the same way with the third case of `C103_decoder` |
| C105 | `Model/Restore` over the tree of C94 | `C105_one`, `C105_file`: C94 and evaluation of the paths of the ten templates, symbolic in the target; `C105_directory`: refinement to the specification `perform` of a list of copies, by induction over the children in any order, for the directories by the finite listing (a directory's name has at most two spellings); `C105_tree`: `filepath.Join` is injective on plain paths (invariant of the stack of `Clean`), so no copy overwrites another |
| C106 | the programs of C104 and of C99, connected by `Model/GoImpl`: what a value of the one fragment of Go is in the other; calls of endpoints are related to what their programs come to (`Runs`), which `running_runs` shows to be possible for every implementation; nil responses and panics of an implementation are left open | C104 with the history of the implementation as state and with the fields of the struct that `NewEndpoints` comes to; each field, called, is one call of the implementation (C99's evaluation of the endpoint's closure); `C106_calls`: induction over the calls, where each call finds the history that the one before left |
