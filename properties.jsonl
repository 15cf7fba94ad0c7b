{"id": "C01", "title": "Rune cursor and line number stay consistent", "statement": "After any sequence of rune reads and rune un-reads on a proto file, the cursor lies within the file, the reported line number is exactly one plus the number of newline characters before the cursor, and an un-read after a successful read restores the cursor and line number exactly.", "quantifier": "every file content and every finite sequence of ReadRune/UnreadRune calls", "why_tests_cant": "Tests run a handful of fixed call sequences; the claim is an invariant over all interleavings of two operations on all inputs.", "anchors": ["svcdef/svcparse/scanner.go: RuneReader.ReadRune, RuneReader.UnreadRune, NewRuneReader"]}
{"id": "C02", "title": "Scanning a proto file loses no text except after an interior star of a block comment", "statement": "A proto file's text is cut into consecutive non-empty chunks, one per scan unit, followed by an unterminated rest. Each unit is its chunk verbatim, except that a block comment with stars in its interior is reported without the character following each interior star. Concatenating units and rest gives back the file exactly when no unit is such a comment.", "quantifier": "every text (any sequence of runes)", "why_tests_cant": "The set of texts is infinite; existing tests compare a few literals. The property is in fact false inside block comments, which no shipped test covers.", "anchors": ["svcdef/svcparse/scanner.go: BuildScanUnit, NewSvcScanner"]}
{"id": "C03", "title": "Scan unit line numbers and brace depths are exact", "statement": "Each scan unit carries the line number reached at its end (one plus the number of newlines consumed so far) and the brace depth reached at its end (opening minus closing brace units so far); braces inside comments and string literals do not count.", "quantifier": "every text and every unit position", "why_tests_cant": "A counter that drifts only after rare combinations of comments, strings and nested braces is not excluded by samples.", "anchors": ["svcdef/svcparse/scanner.go: BuildScanUnit, ScanUnit"]}
{"id": "C04", "title": "When scanning one file influences scanning another", "statement": "Unit texts, line numbers and the stopping point never depend on files scanned earlier in the process. Depths and in-definition/in-body flags are unaffected for every later file exactly when, over all earlier files together, braces cancel out, every word service is followed by an opening brace and that brace by a closing brace at net depth zero; in particular after any sequence of balanced files.", "quantifier": "every sequence of earlier scanned texts and every text", "why_tests_cant": "Requires quantifying over all histories of the process-wide scanner state; tests each start from whatever state the previous test left.", "anchors": ["svcdef/svcparse/scanner.go: withinBody, withinDef, braceLev, BuildScanUnit, NewSvcScanner"]}
{"id": "C05", "title": "Scanning always terminates", "statement": "Building the scanner for any input stops: every scan step either consumes at least one rune or reports end of input, so the number of units never exceeds the number of runes.", "quantifier": "every text", "why_tests_cant": "Non-termination is not observable by a finite test; the property needs a progress argument for all inputs.", "anchors": ["svcdef/svcparse/scanner.go: BuildScanUnit, NewSvcScanner"]}
{"id": "C06", "title": "Tokens come only from the service definition", "statement": "Everything before the service keyword (syntax line, imports, messages, comments) yields no tokens: the token stream of any file is empty or begins with the identifier 'service', even if comments or string literals before it contain that word.", "quantifier": "every text", "why_tests_cant": "Files may contain the word service in arbitrary comments, strings and identifiers; only a proof covers all placements.", "anchors": ["svcdef/svcparse/scanner.go: SvcScanner.FastForward", "svcdef/svcparse/lexer.go: NewTokenGroup, NewSvcLexer"]}
{"id": "C07", "title": "Tokenising a service definition loses no text", "statement": "Within a service definition the token values concatenated in order equal the scanned text, with adjacent comments merged but nothing lost, and each token's kind is determined by its text.", "quantifier": "every text and every position in the definition", "why_tests_cant": "Comment merging with look-ahead and push-back has many paths; tests cover a few layouts.", "anchors": ["svcdef/svcparse/lexer.go: NewTokenGroup, NewSvcLexer", "svcdef/svcparse/scanner.go: SvcScanner.UnReadToPosition"]}
{"id": "C08", "title": "Lexer cursor push-back is exact", "statement": "For any token list, reading a token and pushing it back restores the position so that the next read returns the same token; pushing back to an earlier position succeeds and replays the same tokens; skipping reads never skip a significant token.", "quantifier": "every token list and every sequence of get/unget operations", "why_tests_cant": "The space of operation histories is unbounded.", "anchors": ["svcdef/svcparse/lexer.go: SvcLexer.GetToken, SvcLexer.UnGetToken, SvcLexer.UnGetToPosition, SvcLexer.GetTokenIgnoreWhitespace, SvcLexer.GetTokenIgnoreCommentAndWhitespace"]}
{"id": "C09", "title": "The service parser always terminates", "statement": "Parsing the service out of any token stream, well-formed or not, finishes with a service or an error, and no chain of loop iterations and nested calls is longer than the stream plus two; no malformed proto file makes the generator hang.", "quantifier": "every token stream", "why_tests_cant": "Termination with push-back and mutual recursion cannot be tested; it needs a measure over all inputs.", "anchors": ["svcdef/svcparse/parser.go: ParseService, ParseMethod, ParseHttpBindings, ParseBindingFields, fastForwardTill"]}
{"id": "C10", "title": "Whitespace never changes what is parsed", "statement": "Inserting or removing whitespace tokens between other tokens does not change the parsed service, nor whether parsing fails and why (line numbers aside).", "quantifier": "every token stream, well-formed or not", "why_tests_cant": "Any number of whitespace tokens may be inserted anywhere in any stream.", "anchors": ["svcdef/svcparse/parser.go: ParseService, ParseMethod, ParseHttpBindings, ParseBindingFields", "svcdef/svcparse/lexer.go: SvcLexer.GetTokenIgnoreWhitespace"]}
{"id": "C11", "title": "Well-formed service definitions parse to exactly what was written", "statement": "For every service written in the supported grammar (rpcs with request and response types, http options with fields, custom patterns and additional bindings), with arbitrary comments and whitespace, the parser succeeds and returns the service name and, in source order, exactly the rpcs that carry http options, each with its names, types, comment description and bindings (additional bindings first, then the primary one) and unquoted field values.", "quantifier": "every well-formed service of any size", "why_tests_cant": "A round trip over all abstract syntax trees and layouts; tests check about a dozen literals.", "anchors": ["svcdef/svcparse/parser.go: ParseService, ParseMethod, ParseHttpBindings, ParseBindingFields"]}
{"id": "C12", "title": "Rpcs without http options are ignored, not errors", "statement": "Replacing any rpc in a well-formed service by one without http options (ending in ';' or with an empty body) removes exactly that rpc from the parse result and changes nothing else.", "quantifier": "every well-formed service and every subset of its rpcs", "why_tests_cant": "Quantifies over all services and all positions of option-less rpcs.", "anchors": ["svcdef/svcparse/parser.go: ParseService, ParseMethod, ParseHttpBindings"]}
{"id": "C13", "title": "Every request field gets exactly one HTTP location, path before body before query", "statement": "For each binding, every field of the request message yields exactly one HTTP parameter, in field order; its location is 'path' if and only if some braced path parameter's first segment camel-cases to the field name, otherwise 'body' if and only if a body option is '*' or names the field, otherwise 'query'.", "quantifier": "every request message, every binding and every path template", "why_tests_cant": "All path templates and field names are needed; a missed precedence shows only on overlapping inputs.", "anchors": ["svcdef/consolidate_http.go: assembleHTTPParams, paramLocation, getPathParams"]}
{"id": "C14", "title": "Path parameters are extracted exactly from the path template", "statement": "For every path built from literal text without braces and braced parameter names without braces or newlines, the extracted parameter list is exactly the parameter names in order.", "quantifier": "every path template of any length", "why_tests_cant": "Non-greedy regular-expression matching over arbitrary text.", "anchors": ["svcdef/consolidate_http.go: getPathParams"]}
{"id": "C15", "title": "HTTP verb and path selection", "statement": "The verb and path of a binding come from the custom pattern when there is one (last kind and path win), otherwise from the first get/put/post/delete/patch field, otherwise both are empty.", "quantifier": "every parsed binding", "why_tests_cant": "Bindings may have any number of fields in any order, with duplicates.", "anchors": ["svcdef/consolidate_http.go: getVerb"]}
{"id": "C16", "title": "HTTP bindings are attached to the right rpc, completely and in order", "statement": "After consolidation each service method has exactly the bindings written on the rpc whose camel-cased name equals its name, appended in parsed order, no other method changes, and an rpc that names no method of the service is reported as an error.", "quantifier": "every service definition and every parsed service", "why_tests_cant": "All combinations of method names, orders and binding counts.", "anchors": ["svcdef/consolidate_http.go: assembleHTTPParams"]}
{"id": "C17", "title": "When the order in which proto files are visited does not matter", "statement": "Consolidating a set of proto files gives the same service definition, or an error, in every visiting order exactly when: either some file has an rpc without http annotations, no file makes consolidation fail and none adds a binding; or no file has such an rpc, and either some file makes consolidation fail, or the bindings any two files add to a method commute. In particular this holds when no file has such an rpc and no two files annotate one method.", "quantifier": "every set of proto files and every visiting order", "why_tests_cant": "Go randomises map iteration; a test observes one order per run.", "anchors": ["svcdef/consolidate_http.go: consolidateHTTP, isOptionalError, isEOF"]}
{"id": "C18", "title": "Go names produced by camel-casing are well formed and stable", "statement": "Camel-casing a protobuf identifier yields an exported Go identifier (starts with an upper-case letter, only letters, digits and underscores), leaves no underscore before a lower-case letter, and camel-casing the result again changes nothing.", "quantifier": "every protobuf identifier", "why_tests_cant": "All strings over the identifier alphabet.", "anchors": ["pkg/strs.go: GoCamelCase"]}
{"id": "C19", "title": "Sanitised names are valid Go identifiers", "statement": "Sanitising any string yields a valid Go identifier that is not a Go keyword, a string that already is such an identifier starting with a letter is unchanged, and otherwise only invalid characters are replaced by underscores and at most one underscore is put in front.", "quantifier": "every string", "why_tests_cant": "All strings; keywords and non-letter starts are corner cases.", "anchors": ["pkg/strs.go: GoSanitized"]}
{"id": "C20", "title": "JSON snake/camel name conversions are inverse", "statement": "Converting a lower camel-case JSON name to snake case and back yields the same name, and converting a well-formed lower snake-case field name to camel case and back yields the same name.", "quantifier": "every name of the stated form", "why_tests_cant": "All names of any length.", "anchors": ["pkg/strs.go: JSONCamelCase, JSONSnakeCase"]}
{"id": "C21", "title": "Server path matching never panics and rejects only on segment count", "statement": "Given any URL path and any URL template, path parameter extraction either returns an error exactly when the numbers of path segments (ignoring trailing slashes) differ, or returns a value for every braced segment, taken from the same segment position; it never indexes out of range.", "quantifier": "every URL and every template", "why_tests_cant": "A panic in a server for one crafted URL cannot be excluded by samples.", "anchors": ["gengokit/httptransport/embeddable_funcs.go: PathParams, BuildParamMap, RemoveBraces"]}
{"id": "C22", "title": "Which path parameters survive the client/server round trip", "statement": "For a path template with distinct parameter names, the path the generated client builds reaches the handler of that template with exactly the values the client wrote, if and only if values and literals are free of '/', '?', '#', '%' and control characters, are not '.' or '..', and are not empty (the last literal may be). PathParams alone recovers every value without '/', if the last one is not empty.", "quantifier": "every template with segment parameters and every assignment of values", "why_tests_cant": "All templates and values of any length.", "anchors": ["gengokit/httptransport/httptransport.go: Binding.PathSections", "gengokit/httptransport/embeddable_funcs.go: PathParams"]}
{"id": "C23", "title": "Binding labels are unique", "statement": "All labels (method name plus English binding index) generated for one service, which become Go function names, are pairwise distinct exactly when no method (with a binding) is named like another one followed by the spelling of some k >= 1 while that other one has more than 10k bindings; in particular they always are when no method has more than ten bindings.", "quantifier": "every service with distinct method names and any number of bindings per method", "why_tests_cant": "A collision needs specific method names with more than ten bindings; tests never reach it.", "anchors": ["gengokit/httptransport/httptransport.go: NewMethod, NewBinding, EnglishNumber"]}
{"id": "C24", "title": "English numbers are unambiguous", "statement": "Distinct binding indices have distinct English spellings, every spelling is a sequence of the ten capitalised digit words, and the index can be recovered from it.", "quantifier": "all natural numbers", "why_tests_cant": "Infinite domain.", "anchors": ["gengokit/httptransport/httptransport.go: EnglishNumber, DigitEnglish"]}
{"id": "C25", "title": "When the server gets the client's message over HTTP", "statement": "For a binding whose path fields are single scalars or enums named like the template's parameters and whose query fields are scalars, optionals, lists, enums or messages: decoding on the server the request encoded by the client yields the original message, if and only if every string in the path is one a path segment carries unchanged, no query field is a list of exactly one string, a nil message or a list of one number without JSON text, and, for GET, the body fields are zero.", "quantifier": "every binding shape and every message value", "why_tests_cant": "Combines every location, type and value.", "anchors": ["gengokit/template/NAME-service/baron/NAME.pb.baron.go.tmpl: DecodeHTTP, EncodeHTTP", "gengokit/httptransport/httptransport.go: Field.GenQueryUnmarshaler, createDecodeConvertFunc, createDecodeTypeConversion"]}
{"id": "C26", "title": "Path and query parameters override the body", "statement": "When a server decodes an HTTP request, each field located in the path takes the path value, each field located in the query takes the query value when present, and every other field keeps the value from the JSON body (or zero when the body is empty); decoding fails exactly when the body is malformed, a text cannot be read as its field's type, or the error a single non-list text leaves for a repeated string is noticed.", "quantifier": "every request and every binding", "why_tests_cant": "All combinations of present and absent parameters and bodies.", "anchors": ["gengokit/template/NAME-service/baron/NAME.pb.baron.go.tmpl: DecodeHTTP"]}
{"id": "C27", "title": "Middleware wrapping touches each endpoint exactly once", "statement": "Wrapping all endpoints except an exclusion list applies the middleware exactly once to every endpoint not excluded and leaves excluded endpoints untouched; an exclusion that names no endpoint (or is repeated) is reported by panicking before anything is wrapped; wrapping twice composes in call order.", "quantifier": "every service, middleware and exclusion list", "why_tests_cant": "All services and exclusion lists.", "anchors": ["gengokit/template/NAME-service/baron/NAME.pb.baron.go.tmpl: WrapAllExcept, WrapAllLabeledExcept"]}
{"id": "C28", "title": "HTTP headers reach the service context", "statement": "After header-to-context conversion, looking up a header under its canonical name or its lower-case name returns its first value, 'request-url', 'transport' hold the request's URI and transport, and everything else in the context is unchanged.", "quantifier": "every header map and every context", "why_tests_cant": "All header maps, in every map iteration order.", "anchors": ["gengokit/template/NAME-service/baron/NAME.pb.baron.go.tmpl: HTTPHeadersToContext, GRPCMetadataToContext"]}
{"id": "C29", "title": "Regeneration preserves user code", "statement": "Re-running the generator on an edited service file keeps every import, type, variable, constant, unexported function and every implementation of an rpc that still exists (body verbatim), in order; the only declarations removed are exported functions that are not an rpc of the service on the service's receiver.", "quantifier": "every previous service file and every new service definition", "why_tests_cant": "All user-edited files.", "anchors": ["gengokit/service/services.go: NewService, handler.Render, methodMap.pruneDecls, isValidFunc"]}
{"id": "C30", "title": "How often and how each rpc is implemented after regeneration", "statement": "After a regeneration every rpc with an exported name other than NewService has exactly one method on the service type, and exported methods that are no rpc have none, whatever the previous file contained. That method is the generated one if the previous file had none, and otherwise the first one of the previous file, with nothing changed but the message name in the type of the second of two parameters and of the first of two results, where that type is p.T or *p.T. Methods whose name is unexported or NewService are left alone, and an rpc with such a name gets one more method on every run; so every rpc is implemented exactly once exactly when the previous file has no method for rpcs with such names.", "quantifier": "every previous service file and every new service definition", "why_tests_cant": "All files and definitions.", "anchors": ["gengokit/service/services.go: NewService, handler.Render, methodMap.pruneDecls, updateParams, updateResults"]}
{"id": "C31", "title": "When regeneration is idempotent", "statement": "Re-running the generator on its own output with the same definition changes nothing exactly when every rpc has an exported name other than NewService and, unless the file before the first run already had a method for it, request and response message names that are Go names already; right after a first generation: exactly when all rpcs have such names. The order in which the map of missing methods is iterated does not matter.", "quantifier": "every previous service file and every definition", "why_tests_cant": "All files and definitions.", "anchors": ["gengokit/service/services.go: handler.Render, methodMap.pruneDecls"]}
{"id": "C32", "title": "Hand-edited support files are never overwritten, generated ones always refreshed", "statement": "For each generated file: the user-editable files present from a previous generation are written back unchanged apart from gofmt formatting, missing ones are created from the template, the transport and server.go files are always regenerated, and the client command file is produced only when asked for.", "quantifier": "every set of previous files and every configuration", "why_tests_cant": "All subsets of existing files.", "anchors": ["gengokit/generator/gen.go: GenerateGokit, generateResponseFile", "gengokit/service/cmd_client.go", "gengokit/service/cmd_server.go", "gengokit/service/server.go", "gengokit/service/server_endpoints.go", "gengokit/service/server_interrupt.go", "gengokit/service/service_wrapper.go", "gengokit/service/server_wrapper.go"]}
{"id": "C33", "title": "Output paths are distinct", "statement": "No two templates are written to the same output file, for any service name, so no generated file silently replaces another.", "quantifier": "every service name", "why_tests_cant": "All names.", "anchors": ["gengokit/generator/gen.go: templatePathToActual"]}
{"id": "C34", "title": "Cleanup removes only obsolete files", "statement": "Cleaning up old files after generation removes nothing but the three historical locations and never a file that was just generated.", "quantifier": "every service name and directory content", "why_tests_cant": "All names and directory trees.", "anchors": ["cmd/baron/main.go: cleanupOldFiles"]}
{"id": "C35", "title": "The starter never overwrites an existing file", "statement": "Starting a new service writes at most one file: in the given output directory (the working directory if none is given), named after the given name without the extension, in lower case, without dashes and blanks, with the extension .proto. If that file exists nothing is written and a non-zero code is returned; the code is zero exactly when every system call succeeds, and then the complete file is there.", "quantifier": "every name without a slash, every output directory and working directory, every file system state and every failing system call", "why_tests_cant": "All names and file systems.", "anchors": ["internal/start/start.go: Do, newDataService"]}
{"id": "C36", "title": "Starter names are well formed", "statement": "The package name written by the starter contains no space, dash or upper-case letter and the service name is camel-cased, for every service name argument. From the name every occurrence of the extension `.proto` is removed and nothing else, so giving the name with or without the extension makes no difference, and a name without `.proto` in it is used as it is.", "quantifier": "every name", "why_tests_cant": "All strings.", "anchors": ["internal/start/start.go: newDataService, PackageName, ServiceName, removeDotProtoSuffix"]}
{"id": "C37", "title": "What service definition extraction finds, for every file order and process history", "statement": "The enums are the named int32 types and the service is the last …Server interface, whatever was built before. In a fresh process the messages are, in visiting order and with all their fields, types and oneof options, the exported structs that are not oneof wrappers, up to the first file with wrappers; in files after it, and in every later definition of a process that met oneofs, all exported structs count. So the messages are exactly the non-wrapper structs iff no file has wrappers, or the table was empty and only one file has; and every order finds the same messages iff the table was not empty or at most one file has wrappers.", "quantifier": "every set of parsed Go files, every order, every history", "why_tests_cant": "Random map order and process-wide state.", "anchors": ["svcdef/svcdef.go: New, NewMessage, NewEnum, NewService, oneofs"]}
{"id": "C38", "title": "Type resolution links names to declarations", "statement": "After type resolution every field, message-valued map value, rpc request and response whose type name is declared refers to that message or enum; undeclared names and map values that are not messages (an enum-valued map) stay unresolved; resolving again changes nothing.", "quantifier": "every service definition", "why_tests_cant": "All definitions.", "anchors": ["svcdef/resolvetypes.go: resolveTypes, newTypeMap, setType"]}
{"id": "C39", "title": "Protobuf field names are recovered from struct tags", "statement": "For every struct tag as written by protoc-gen-go, the field's protobuf name is the value of the name= entry.", "quantifier": "every field name, number, wire type and option list", "why_tests_cant": "All tags.", "anchors": ["svcdef/svcdef.go: NewField"]}
{"id": "C40", "title": "What a client gets for a service error over HTTP", "statement": "An error returned by a service and encoded by the HTTP error encoder is sent with the status code it declares (500 if none) and, under each declared header name, the first value declared under it. The client gets an error with that status and the message, exactly when the status is not 200 and allows a body; with status 200 the client takes the error text for a response, and a status without a body loses the message.", "quantifier": "every error value, every header map, every response type", "why_tests_cant": "All errors.", "anchors": ["gengokit/template/NAME-service/baron/NAME.pb.baron.go.tmpl: errorEncoder, errorDecoder"]}
{"id": "C41", "title": "An rpc may carry other options besides the http one", "statement": "The first option of an rpc whose value is a block is read as the http rule, whatever its name and whatever brace-free options precede it, which do not change the result; anything but comments between its semicolon and the closing brace of the rpc is an error naming that token; and an rpc whose options have no block value makes parsing fail if no block follows in the file.", "quantifier": "every well-formed service, every rpc of it, every further options", "why_tests_cant": "All services, positions and option texts.", "anchors": ["svcdef/svcparse/parser.go: ParseHttpBindings, ParseMethod, fastForwardTill"]}
{"id": "C42", "title": "Enum and map-entry name derivation loses no letters", "statement": "Trimming an enum prefix returns the name itself or a non-empty suffix whose cut-off part spells the prefix ignoring case and underscores; map-entry and enum-value names keep every letter and digit in order and contain no underscore.", "quantifier": "every ASCII name and prefix", "why_tests_cant": "All names.", "anchors": ["pkg/strs.go: TrimEnumPrefix, MapEntryName, EnumValueName"]}
{"id": "C43", "title": "Context values chosen for sending reach the server", "statement": "Every string value that the client's context holds under a key chosen for sending is available under that key in the server's request context, over HTTP and over gRPC, and nothing that was not sent appears; the remaining ways values get lost (non-string values, keys colliding after canonicalisation) are exactly characterised.", "quantifier": "every context, key list and prior header or metadata", "why_tests_cant": "All contexts and key lists.", "anchors": ["gengokit/template/NAME-service/baron/NAME.pb.baron.go.tmpl: CtxValuesToSend, ContextValuesToHTTPHeaders, ContextValuesToGRPCMetadata, HTTPHeadersToContext, GRPCMetadataToContext"]}
{"id": "C44", "title": "Generated decoding assignments are well typed", "statement": "For every request field outside the body, the statements generated to decode it assign a value of exactly the field's declared Go type, unless the field is an optional enum, an optional 32-bit number or a list of base type in the path, and in those three cases they never do.", "quantifier": "every field description", "why_tests_cant": "All field types, optionality, repetition and locations.", "anchors": ["gengokit/httptransport/httptransport.go: createDecodeConvertFunc, createDecodeTypeConversion, NewBinding"]}
{"id": "C45", "title": "A failing generation leaves the service directory alone", "statement": "If generation fails (a template fails or the existing service.go cannot be parsed) the command exits with failure and the service directory is byte for byte what it was; only the transport file next to the .proto file may have been rewritten.", "quantifier": "every definition, configuration and previous directory content", "why_tests_cant": "All failure points and directory contents.", "anchors": ["cmd/baron/main.go: main, generateBaronCode, generateGoKitCode", "gengokit/generator/gen.go: GenerateGokit, GenerateBaronFile"]}
{"id": "C46", "title": "What an interrupted run leaves behind", "statement": "If the process is stopped at any point while it writes its output, the files in front of some place of the write order hold their complete new text, the file at that place holds its old text or an initial part of the new one (perhaps nothing), and every other file is untouched; every such state can occur.", "quantifier": "every list of files, every crash point", "why_tests_cant": "All crash points between system calls.", "anchors": ["gengokit/generator/gen.go: WriteGenFile", "cmd/baron/main.go: main"]}
{"id": "C47", "title": "Running the command twice changes nothing", "statement": "Running the command again with the same definition and unchanged files leaves both output directories exactly as they are, in whatever order files are generated and written.", "quantifier": "every definition, directory content and map order for which the first run succeeds", "why_tests_cant": "All directory contents and map orders.", "anchors": ["cmd/baron/main.go: main, readPreviousGeneration, cleanupOldFiles", "gengokit/generator/gen.go: GenerateGokit"]}
{"id": "C48", "title": "The starter's file is accepted by baron itself", "statement": "The .proto file written by the starter is read by baron's own parser as one service, named after the argument, with one rpc Status bound to GET /status, unless the package is called `service`, in which case it is rejected.", "quantifier": "every reasonable service name", "why_tests_cant": "All names.", "anchors": ["internal/start/template.go: startProto", "internal/start/start.go: Do", "svcdef/svcparse: scanner, lexer, parser"]}
{"id": "C49", "title": "The scanner cuts a file into its lexical elements", "statement": "Every proto text is cut, left to right, into maximal runs of white space, maximal words, complete string literals (an escaped quote does not end one), complete comments and single other characters; each unit reports that element, the line and the brace depth at its end, braces inside comments and strings never count, and this way of cutting the text is the only possible one.", "quantifier": "every text and every process history", "why_tests_cant": "All texts; includes arbitrary nesting of quotes, escapes, slashes and stars.", "anchors": ["svcdef/svcparse/scanner.go: BuildScanUnit, NewSvcScanner"]}
{"id": "C50", "title": "Parse errors point at the offending text", "statement": "When the service in a proto file does not parse, the reported line is the line at which the offending token ends and the reported text is what is written there (or the end of the token stream); an 'unexpected EOF' is reported only for files without a service.", "quantifier": "every text for which tokenising succeeds and parsing fails", "why_tests_cant": "All malformed files.", "anchors": ["svcdef/svcparse/parser.go: ParseService, ParseMethod, ParseHttpBindings, ParseBindingFields, parserErr", "svcdef/svcparse/lexer.go: GetToken, GetLineNumber"]}
{"id": "C51", "title": "HTTP requests are routed to the first declared binding that fits", "statement": "For every service definition and every request with a plain path, the generated HTTP server runs the handler of the first declared binding whose verb is the request's and whose template the path fits, with the path's segments under the template's parameter names, and refuses the request if there is none. Consequently a client's call of a method reaches that method whenever no earlier binding with the same verb can match the same path.", "quantifier": "all service definitions with well-formed templates, all verbs, all paths without empty, '.' or '..' segments; for clients, all parameter values of C22", "why_tests_cant": "The router's answer depends on all bindings of the service and their order; tests try a few services and paths, not every pair of overlapping templates.", "anchors": ["gengokit/template/NAME-service/baron/NAME.pb.baron.go.tmpl:MakeHTTPHandler", "gengokit/httptransport/httptransport.go:NewHelper", "gengokit/httptransport/httptransport.go:NewBinding"]}
{"id": "C52", "title": "A gRPC client call runs the method of the same name", "statement": "A call through the generated gRPC client reaches the generated gRPC server exactly when the proto package is the Go package's name and the service and the rpc keep their names in Go; then it runs the implementation's method of that name, and no other, once, with the caller's request, and returns its response or its error. Otherwise it fails with Unimplemented.", "quantifier": "all service declarations, methods, implementations, requests", "why_tests_cant": "Whether the client's path agrees with the path the server registers depends on the names of package, service and methods; a test covers the names it uses.", "anchors": ["gengokit/template/NAME-service/baron/NAME.pb.baron.go.tmpl:NewGRPCClient", "gengokit/template/NAME-service/baron/NAME.pb.baron.go.tmpl:MakeGRPCServer", "gengokit/template/NAME-service/server/server.go.tmpl:NewEndpoints", "svcdef/svcdef.go:New"]}
{"id": "C53", "title": "What a NATS client call returns", "statement": "For every service, the generated NATS server answers on the subjects SERVICE.METHOD of its methods and no others, which for services and methods with Go names never coincide; it answers a request with the response of the implementation's method of that name, a method's error and an undecodable message with an error body. A call through the generated NATS client runs that method with the caller's request and returns its response; if the method fails, the caller gets success with the empty response, whatever the error.", "quantifier": "all services, methods, implementations, requests, JSON codecs that decode what they encode", "why_tests_cant": "The reply's meaning must be recoverable for every response and every error, not for sampled ones.", "anchors": ["gengokit/template/NAME-service/baron/NAME.pb.baron.go.tmpl:ServeNATS", "gengokit/template/NAME-service/baron/NAME.pb.baron.go.tmpl:NewNATSClient"]}
{"id": "C54", "title": "Which host the HTTP client contacts", "statement": "For every instance of the form host:port, optionally followed by a path: with http:// or https:// in front, requests go to that host and port with that scheme; without, they go there over http exactly when the text does not begin with http, and otherwise no request can be sent. A path in the instance is never used.", "quantifier": "all instance strings of this form", "why_tests_cant": "Host names and paths are unbounded; a test uses localhost.", "anchors": ["gengokit/template/NAME-service/baron/NAME.pb.baron.go.tmpl:NewHTTPClient", "gengokit/template/NAME-service/baron/NAME.pb.baron.go.tmpl:copyURL"]}
{"id": "C55", "title": "The generated server's configuration", "statement": "The generated server listens where it is told: for each setting the last command-line flag beats the environment variable, which beats the default; HTTP_ADDR beats PORT; DEBUG switches debugging on exactly when it is 'true' in any case; and no setting influences another.", "quantifier": "all environments and all sequences of flags", "why_tests_cant": "The space of environments and command lines is unbounded; a test fixes a few combinations.", "anchors": ["template/NAME-service/cmd/NAME/main.go.tmpl: init, main", "template/NAME-service/server/server.go.tmpl: Config"]}
{"id": "C56", "title": "The generated server runs until its first failure and reports it", "statement": "The generated server's Run starts exactly the transports that were generated and given an address; it returns only after a signal arrived or a transport failed, then reports the first of these events, and it does return whatever the other transports do.", "quantifier": "all configurations, all sets of generated transports and all interleavings of the goroutines", "why_tests_cant": "A test runs one schedule; which event is reported and whether Run returns depend on all interleavings.", "anchors": ["template/NAME-service/server/server.go.tmpl: Run", "template/NAME-service/server/interrupt.go.tmpl: InterruptHandler"]}
{"id": "C57", "title": "The service definition is the one that was written", "statement": "From the Go files protoc wrote and the texts of the .proto files, svcdef.New returns the service with its name and its methods in order, each with its request and response, and (if its request is declared in these files) its request's fields and exactly the HTTP bindings annotated for it in the .proto text, in order, with their verb, path and parameter locations; a method without annotations has no bindings; also when it is called a second time in the same process. An annotated rpc that is no method of the service is reported by name; an annotated rpc whose request is declared in another package makes svcdef.New dereference a nil pointer. Whatever the files are, each is scanned in the state the files before it left the scanner in, up to the first one for which the parser misses an optional part; an earlier file with an unbalanced brace in a single-quoted string makes a well-formed later one fail.", "quantifier": "all Go files of the shape protoc-gen-go writes with one unary service, all .proto texts in the supported grammar with any layout, all file orders, all earlier process states in which the scanner was left outside of any definition; for the scanner state: all files and all process states", "why_tests_cant": "It composes scanner, lexer, parser, extraction, resolution and consolidation over unbounded texts and definitions; tests check a handful of files.", "anchors": ["svcdef/svcdef.go: New", "svcdef/consolidate_http.go: consolidateHTTP", "svcdef/svcparse/parser.go: ParseService"]}
{"id": "C58", "title": "Everything protoc generates is accepted", "statement": "For every set of Go files of the shape protoc-gen-go and protoc-gen-go-grpc write for .proto files without streaming rpcs, extracting the definition succeeds (no error, no panic), whatever the process did before.", "quantifier": "all such Go files and all earlier process states", "why_tests_cant": "The set of generated files is unbounded; a crash may hide in a tag or field shape no test has.", "anchors": ["svcdef/svcdef.go: New, NewMessage, NewField, NewService, NewServiceMethod, NewMap"]}
{"id": "C59", "title": "Arguments and generated file names", "statement": "The .proto arguments are accepted exactly if they all lie in one directory, however their paths are written; the files that belong to x.proto are x.pb.go, x_grpc.pb.go and x.pb.baron.go in the output directory, and the files of different .proto files are different, with one exception: y_grpc.proto and the service of y.proto share y_grpc.pb.go.", "quantifier": "all working directories, argument lists and file names", "why_tests_cant": "path spellings and names with dots or suffixes are unbounded", "anchors": ["cmd/baron/main.go:cleanProtofilePath", "cmd/baron/main.go:generateBaronCode", "internal/parsesvcname/parsesvcname.go:GetPBFileName", "internal/parsesvcname/parsesvcname.go:GetGRPCPBFileName"]}
{"id": "C60", "title": "Where the service is written", "statement": "A local -o (., .., ./..., ../...) is taken from the working directory; every other -o, also an absolute path, is taken below src of the first GOPATH entry; a trailing slash adds the directory <name>-service in lower case; an empty -o is the directory <name>-service of the working directory.", "quantifier": "all working directories, GOPATHs, service names and values of -o", "why_tests_cant": "the set of paths is unbounded; tests use a few spellings", "anchors": ["cmd/baron/main.go:parseInput", "cmd/baron/main.go:parseSVCOut"]}
{"id": "C61", "title": "What the exit status of the command means", "statement": "Status 0 means that protoc succeeded and either that looking for a service definition in the .proto files ended with an error (and not a panic), in which case nothing but protoc's files was written, or that the transport file and every file of the service have the contents they are meant to have. Any other status means that the service directory is unchanged and that at most protoc's files and the transport file changed. An http option on an rpc that is not a method of the service ends the run with status 0 and without a service; an http option on an rpc whose request is declared in another package crashes it.", "quantifier": "all command lines, file systems, .proto texts and outcomes of the external steps", "why_tests_cant": "the combinations of failing steps and previous files cannot be enumerated", "anchors": ["cmd/baron/main.go:main", "cmd/baron/main.go:parseInput", "internal/parsesvcname/parsesvcname.go:FromPaths"]}
{"id": "C62", "title": "A whole run generates the service that was written", "statement": "On a complete project (protoc's Go files with one unary service, .proto texts in the supported grammar, annotated rpcs that are methods of the service with requests declared in these files, no leftover _grpc.pb.go), with all external steps succeeding, the run ends with status 0 and generates the transport file and all files of the service from a definition with that service's name, its methods in order, and for each method the request, response and bindings written for it; rpcs without annotations may use requests from other packages.", "quantifier": "all projects, layouts of the .proto texts, orders of maps, previous contents of the directories", "why_tests_cant": "ranges over all .proto texts and all map orders", "anchors": ["cmd/baron/main.go:main", "cmd/baron/main.go:parseServiceDefinition", "svcdef/svcdef.go:New", "gengokit/generator/gen.go:GenerateGokit"]}
{"id": "C63", "title": "Only leftover _grpc.pb.go files influence a run", "statement": "Exit status, service directory and generated files of a run depend on other files in the directory of the .proto files only through _grpc.pb.go files that are named after one of the .proto files and that protoc did not write in this run.", "quantifier": "all directories, .proto files and map orders", "why_tests_cant": "depends on the history of the directory and on map order", "anchors": ["cmd/baron/main.go:parseServiceDefinition", "pkg/file.go:FileExists"]}
{"id": "C64", "title": "The generated files declare no identifier twice", "statement": "The generated transport file and server file compile as far as declared names go — in the package, in the Endpoints, gRPC server and NATS server types, and in the functions that build clients, servers and endpoints no identifier is declared twice and none is a Go keyword — exactly when the binding labels are distinct, the method names differ in more than case, no method name is another one followed by 'Endpoint' or one of WrapAllExcept, WrapAllLabeledExcept, Unimplemented<Service>Server, and (with gRPC) no method name is a Go keyword up to case; and the file's package-level names collide with those protoc declares for the service exactly for eight service names (HTTP, GRPC, NATS, and these prefixed with New or Make, depending on the transport).", "quantifier": "all services, i.e. all lists of method names and numbers of bindings, all service names and all transport settings", "why_tests_cant": "whether two generated identifiers coincide depends on all pairs of method names; a test generates code for a few services with well-chosen names", "anchors": ["gengokit/template/NAME-service/baron/NAME.pb.baron.go.tmpl", "gengokit/template/NAME-service/server/server.go.tmpl: NewEndpoints", "gengokit/httptransport/httptransport.go: NewBinding, EnglishNumber"]}
{"id": "C65", "title": "Oneofs in the query", "statement": "The generated server accepts a request whose query carries at most one option of each oneof, sets exactly that option to its first text read as the option's type, keeps what the body said when none is present, and always refuses two options of one oneof; a oneof a client sets arrives exactly when the request has a body, or the oneof travels in the query and its value is not the zero value; the generated code compiles exactly for oneofs whose options are all scalars.", "quantifier": "all request messages with any number of oneofs and options, all values, all queries and bodies, all verbs", "why_tests_cant": "round trips depend on every combination of set option, value and transport; the client's zero-value test loses exactly the values a test is least likely to pick", "anchors": ["gengokit/httptransport/httptransport.go: NewBinding, OneofField.GenQueryUnmarshaler, getZeroValue", "gengokit/template/NAME-service/baron/NAME.pb.baron.go.tmpl: DecodeHTTP…Request, EncodeHTTP…Request"]}
{"id": "C66", "title": "The word service is reserved before the definition", "statement": "In a file baron accepts, the first word `service` outside comments and string literals is the one that begins the service definition: it is followed by a name and an opening brace with nothing but white space between. A file that uses the word earlier for something else (a package, an option or field of that name), or that puts a comment between the keyword and the name, is rejected.", "quantifier": "every text", "why_tests_cant": "The word may occur anywhere in an arbitrary file; only a proof covers every placement.", "anchors": ["svcdef/svcparse/scanner.go: SvcScanner.FastForward", "svcdef/svcparse/lexer.go: NewSvcLexer", "svcdef/svcparse/parser.go: ParseService"]}
{"id": "C67", "title": "Exactly what is accepted as a service", "statement": "The parser accepts exactly the token streams described by an explicit grammar, larger than the one users write in (any brace-free text between a keyword and its block, rpcs without options, any word for a key), gives each the single meaning stated there, and ignores whatever follows the closing brace of the service.", "quantifier": "every token stream", "why_tests_cant": "An iff over an infinite language: tests can show neither that nothing else is accepted nor that the meaning is unique.", "anchors": ["svcdef/svcparse/parser.go: ParseService, ParseMethod, ParseHttpBindings, ParseBindingFields, fastForwardTill"]}
{"id": "C68", "title": "When the lower camel-case name of a field is its JSON name", "statement": "For a protobuf field name, the lower camel-case conversion (Go camel case with a small first letter) and the JSON name conversion give the same name exactly when the name starts with neither an upper-case letter nor an underscore, every underscore is followed by a lower-case letter, and no lower-case letter follows a digit.", "quantifier": "every protobuf identifier", "why_tests_cant": "All identifiers; the two conversions are independent loops.", "anchors": ["gengokit/httptransport/httptransport.go: LowCamelName", "pkg/strs.go: GoCamelCase, JSONCamelCase"]}
{"id": "C69", "title": "The static part of a path template", "statement": "The base path of a binding is the longest beginning of its path template without an opening brace; for a template without parameters it is the whole template and the very path the generated client requests.", "quantifier": "every path template and every request", "why_tests_cant": "All templates.", "anchors": ["gengokit/httptransport/httptransport.go: basePath, PathSections", "gengokit/template/NAME-service/baron/NAME.pb.baron.go.tmpl: copyURL"]}
{"id": "C70", "title": "Services with streaming rpcs are refused", "statement": "If svcdef.New succeeds, every exported method of every service interface in the Go files is unary. On the Go files protoc writes for services with streaming rpcs (client, server or bidirectional) it returns an error about the method and does not panic, whatever the rest of the files and the .proto texts say; the command then ends with status 0, having written nothing but protoc's files.", "quantifier": "all Go files of the shape protoc writes, with any mixture of unary and streaming rpcs, all .proto texts, all process states and directories", "why_tests_cant": "the position of the streaming rpc among all services and files, and everything read before it, is unbounded", "anchors": ["svcdef/svcdef.go: NewService, NewServiceMethod, makeFieldType", "cmd/baron/main.go: parseInput", "internal/parsesvcname/parsesvcname.go: FromPaths"]}
{"id": "C71", "title": "Progress messages tell what happened to every generated file", "statement": "A successful run prints exactly one message for every file it generates below the service directory and none for any other, each with the mark explained in the usage text: '->' exactly for files that did not exist (and now do), '*>' exactly for an existing server/server.go (which now holds the formatted template), '=>' for existing files that belong to the user (whose text is changed by the formatter only), and for an existing service/service.go '>>' exactly when a method is appended, i.e. some rpc has no method in the file or has a name the generator leaves alone. '>>' is never printed for an unchanged file. '=>' on service/service.go is true exactly when every declaration is the user's own or implements an rpc with up-to-date message names: removed methods and adapted types are not reported. The transport file is reported under the lower-cased service name, which is the written file exactly when it equals the base name of the first .proto file.", "quantifier": "all service names without a slash, template contents, previous service directories, template and write orders; all previous service files and rpc lists", "why_tests_cant": "whether a message is true depends on the whole history of the directory and of service.go; a test checks single histories, not that no other combination prints a false mark", "anchors": ["gengokit/generator/gen.go: responseInfo, generateResponseFile, GenerateGokit", "gengokit/service/services.go: IsFirst, IsModified, pruneDecls", "pkg/file.go: FileExists", "cmd/baron/main.go: usage text"]}
{"id": "C72", "title": "The generated types implement the service interface", "statement": "Whenever a service definition is accepted, the Endpoints type, the gRPC server and the service type the user fills in implement the service interface protoc wrote, exactly when every rpc takes and returns messages of the service's own package: an rpc whose request or response comes from another package (google.protobuf.Empty) is accepted but the generated methods get other types. And no rpc ever falls through to the 'not implemented' method of the embedded struct: the method called is always the generated one.", "quantifier": "all sequences of Go files with a protoc-style service interface (any number of rpcs, any types), all proto texts and process states for which the definition is accepted, all import paths", "why_tests_cant": "the templates are only ever run on the example services; whether a Go type implements an interface is decided by a compiler the tests do not run on generated code", "anchors": ["gengokit/template/NAME-service/baron/NAME.pb.baron.go.tmpl: Endpoints, grpcServer", "gengokit/template/NAME-service/service/service.go.tmpl", "gengokit/template/NAME-service/service/service_methods.go.tmpl", "svcdef/svcdef.go: NewServiceMethod, makeFieldType", "svcdef/consolidate_http.go: ConsolidateHTTP"]}
{"id": "C73", "title": "Generated server, client and service files use every name they declare", "statement": "The Go compiler's rules for names hold in the generated server.go, client main.go and service.go - every variable and import is used, every name is declared, none is declared twice in a block or hidden where a type is meant - exactly under these conditions. server.go: gRPC or NATS is generated or some rpc has an HTTP binding, and no two rpcs differ in case only. Client main.go: the service has an rpc if gRPC or NATS is generated, and an rpc with an HTTP binding if neither is. service.go: the service has an rpc.", "quantifier": "all services (any number of rpcs and bindings, any names), all transport settings, all packages that declare the fixed names these files use", "why_tests_cant": "a template is tested by rendering it for the example services and never compiled for the others; whether a variable is used depends on which parts of the template are left out", "anchors": ["gengokit/template/NAME-service/server/server.go.tmpl", "gengokit/template/NAME-service/cmd/NAME-client/main.go.tmpl", "gengokit/template/NAME-service/service/service.go.tmpl", "gengokit/httptransport/httptransport.go: NewHelper"]}
{"id": "C74", "title": "Names in generated HTTP request decoders", "statement": "The Go compiler's rules for names hold in the decoder generated for an HTTP binding exactly if: each path parameter's two variables (Go name plus rpc name, and the same with Str) are not those of an earlier path parameter; every type the decoder has to name is declared and not hidden by one of these variables or by the parameter's own; no path parameter is a repeated base type (its code refers to a list only query parameters have); and for every oneof in the query the counter (oneof name plus CountSet), the three variables of each option and the wrapper structs do not collide in the ways spelled out. For an rpc whose name does not end in Str or Arr, without oneofs in the query and with no type named like a variable, this means: path parameters differ in their Go names and none is a repeated base type.", "quantifier": "all bindings with any number of path, query and body parameters and oneofs of any names, all rpc names, all packages declaring the request type and the file's imports", "why_tests_cant": "the templates build variable names from field and rpc names; collisions depend on pairs of names in the user's proto file and their order, which no set of example services covers", "anchors": ["gengokit/httptransport/httptransport.go: NewBinding, GenQueryUnmarshaler, createDecodeConvertFunc, createDecodeTypeConversion, LocalName", "gengokit/template/NAME-service/baron/NAME.pb.baron.go.tmpl: DecodeHTTP...Request"]}
{"id": "C75", "title": "The transport file uses every name it declares", "statement": "The Go compiler's rules for names (every variable and import used, every name declared, none twice in a block, no type hidden by a variable) hold in the whole generated transport file exactly if the service has an rpc; with gRPC or NATS generated no two rpcs differ in case only; and the HTTP decoders of all bindings can name their fields and oneofs (C74).", "quantifier": "all services (any number of rpcs, bindings and parameters, any names protoc produces), all transport settings, all packages declaring what protoc and the file itself declare", "why_tests_cant": "the file consists of some forty functions, half of them repeated per rpc or binding and a third of them present only for some transports; example services exercise a few combinations only", "anchors": ["gengokit/template/NAME-service/baron/NAME.pb.baron.go.tmpl", "gengokit/httptransport/httptransport.go"]}
{"id": "C76", "title": "What a client writes into path and query, and what the server reads there", "statement": "A call's query has, after the texts the instance address's own query has for a name: for each field carried in the query exactly the texts of its value under the field's proto name (one per list element, none for an unset optional field), for each set non-zero option of a oneof carried in the query its text under the option's proto name, and for every other name nothing. The path has each value as written in the query, but for an unset optional field the text <nil>, and for a set one an address. The server stores for each of these names the value its text denotes; so a text in the instance address's query is what single and optional fields are read as, in every call.", "quantifier": "every binding, every message value, every query of the instance address", "why_tests_cant": "Every combination of types, values and address queries; an address with a query is accepted silently.", "anchors": ["gengokit/template/NAME-service/baron/NAME.pb.baron.go.tmpl: EncodeHTTP…Request, DecodeHTTP…Request, copyURL", "gengokit/httptransport/httptransport.go: NewBinding, GenQueryUnmarshaler, createDecodeConvertFunc, PathSections"]}
{"id": "C77", "title": "protoc is called so that its files land where baron reads them", "statement": "When baron generates, it runs protoc exactly if both plugins (protoc-gen-go and protoc-gen-go-grpc) are found. As protoc reads that command line, the inputs are the given .proto files under their absolute paths and in the order given (also when a name looks like a flag); imports are looked up first in the directory of these files, then for each directory of GOPATH, in order, in its src and in the googleapis shipped with baron below it; both plugins write to the directory asked for, with paths=source_relative. protoc therefore knows every file by its bare name, whatever GOPATH is, and the files the plugins write are the ones baron opens if and only if the .proto file's name has no dot or ends with .proto or .protodevel. Directories with a colon or an equals sign in their names are not supported: protoc splits there.", "quantifier": "all working directories, all command-line file arguments accepted by C59, all values of GOPATH and of its default, all output directories, all file names", "why_tests_cant": "Tests run in one checkout with one GOPATH; file names that look like flags, relative or several GOPATH entries, other extensions and separators in directory names are each one point of an infinite set.", "anchors": ["internal/execprotoc/execprotoc.go: GeneratePBDotGo, protoc", "cmd/baron/main.go: parseInput, cleanProtofilePath", "internal/parsesvcname/parsesvcname.go: GetPBFileName, GetGRPCPBFileName"]}
{"id": "C78", "title": "What a command line means", "statement": "Flags and file names may be mixed. A command line is accepted if and only if it consists of: file names (no leading dash, or a single dash), --name for switches, --name=value, --name value and -l value for -o and -t, and letters of switches behind one dash, the last one perhaps with =value or, for -o and -t, with the value attached; after -- everything is a file name. The last setting of each flag counts; -o is ./ and -t is all without one; files keep their order. Anything else ends with an error before anything is written. -h and -V end well and write nothing whatever else is given; then -s writes only a start file, from the first two file names; otherwise a service is generated from the file names with the first directory of GOPATH (or of the default) as the root for -o, and without a file name it is an error. -v, -d and --debug never change what is written or how the run ends. Without any GOPATH a run that finds a service fails after protoc's files have been written, unless -o is empty.", "quantifier": "all lists of arguments, all environments, all states of the directories", "why_tests_cant": "The set of command lines is infinite, and the interplay of repeated, grouped and attached flags with file names is not covered by the few combinations a test tries.", "anchors": ["cmd/baron/main.go: svcOutFlag .. debugFlag, init, main, parseInput, initLog"]}
{"id": "C79", "title": "A call through the generated HTTP client runs the service's method once and brings back its answer", "statement": "If every binding declared before a method's with the same verb differs from the method's first binding's template in length or in a literal segment, and the request message is one that path, query and body carry unchanged, then calling the method through the generated HTTP client against the generated server runs the service's method of that name exactly once, with the caller's message and a context that holds transport = HTTPJSON, request-url = the request's path, the context values chosen with CtxValuesToSend and nothing else of the caller's; a response comes back unchanged, and an error comes back with its status code and message. For requests from any other client with a plain path: the first declared binding that fits decides; a malformed body is answered with 400 and undecodable parameters with 500, without running the service; otherwise its method is run exactly once with the decoded message; when no binding fits, the answer is 405 if another verb would fit and 404 if none does, and the service is not run.", "quantifier": "all services whose generated file compiles, all implementations with state, all requests and messages, all contexts and header selections", "why_tests_cant": "it composes routing, encoding, decoding, dispatch and error handling over every service, message and implementation; tests call a few methods of one service", "anchors": ["gengokit/template/NAME-service/baron/NAME.pb.baron.go.tmpl: MakeHTTPHandler, NewHTTPClient, HTTPHeadersToContext, CtxValuesToSend, errorEncoder, EncodeHTTPGenericResponse", "gengokit/template/NAME-service/server/server.go.tmpl: NewEndpoints", "gengokit/httptransport/httptransport.go: NewBinding, GenQueryUnmarshaler"]}
{"id": "C80", "title": "What is annotated in the .proto file is what the generated HTTP server does", "statement": "From Go files that declare one service and .proto files in the supported grammar, in any layout, whose annotated rpcs are methods of that service with requests declared in these files, baron makes a definition, and the HTTP server generated from it does with every request with a plain path (and with no query key without values) what is written in the .proto file: the request goes to the first annotation (methods in the order of the service's interface, for each method its annotations in order) that asks for the request's verb and whose path template the request's path fits, and the method that annotation is written for is run once, with the message made from the path, the query and the body, unless the body is malformed (400) or a parameter is not what its field needs (500); the answer is the method's response or its error. If no annotation asks for the request, the answer is 405 if one asks for its path with another verb and 404 otherwise, and no method is run. From the client: if no annotation of an earlier method can take its request, a call of an annotated method through the generated client, with a message that makes the way, runs that method once with the caller's message and gives the caller its response or its error. The Go names of the methods must differ in more than case, no method may have more than ten annotations, and paths are written from literals and parameters.", "quantifier": "every set of Go files with one service; every .proto text in the supported grammar and every layout; every request with a plain path; every service, state, context and message", "why_tests_cant": "The claim composes lexer, parser, consolidation, templates and routing and holds for every text and every request; a test fixes one .proto file and a few requests.", "anchors": ["svcdef/svcdef.go:New", "svcdef/consolidate_http.go:ConsolidateHTTP", "svcdef/svcparse/parser.go", "gengokit/httptransport/httptransport.go", "gengokit/httptransport/templates/server.go"]}
{"id": "C81", "title": "Requests served at the same time are answered as if one by one", "statement": "However many requests, over HTTP, gRPC and NATS, a generated server has under way at the same time, and however their goroutines take turns, there is an order of the requests such that the state of the service implementation and every reply are what they would be if the requests had been handled one after the other in that order; a request that was answered before another arrived comes before it in the order. So every request runs the implementation's method at most once, with its own message, and no reply is made from another request's data. No request waits for another: from every state a request that was not answered yet can be answered by its own steps alone, at most three of them. In particular, on a service that answers with the number of calls so far no two calls get the same number. A call of an implementation's method counts as one step (the implementation guards its own state).", "quantifier": "every service whose method names differ in more than case; every implementation and state; every sequence of requests over the three transports; every interleaving of their handlers, finished or not", "why_tests_cant": "Tests see a few interleavings of a few requests; the claim quantifies over all schedules of any number of concurrent requests.", "anchors": ["gengokit/template/NAME-service/server/server.go.tmpl:Run", "gengokit/template/NAME-service/server/server.go.tmpl:NewEndpoints", "gengokit/template/NAME-service/baron/NAME.pb.baron.go.tmpl:MakeHTTPHandler", "gengokit/template/NAME-service/baron/NAME.pb.baron.go.tmpl:MakeGRPCServer", "gengokit/template/NAME-service/baron/NAME.pb.baron.go.tmpl:ServeNATS"]}
{"id": "C82", "title": "HTTP client calls that share a request message leave it as it is, and race exactly when a body field is involved", "statement": "However many calls through the generated HTTP client share one request message, and however their accesses to it interleave, every field of the message has at all times the value the caller gave it. But a call made with a verb other than get writes every field that is in the body (with the value it just read). So calls that share a message are a data race exactly when one of them has a verb other than get and a field in the body which another call at the same time also writes or reads (because it is in its path or query, or because it sends a body, which is made from the whole message). Calls over get bindings never race; calling one method twice at the same time with the same message races exactly if its verb is not get and it has a field in the body.", "quantifier": "every set of bindings with well-formed path templates called at the same time with one message; every interleaving of their accesses, complete or not", "why_tests_cant": "A race shows only under particular schedules (and never in the result); the claim is about all of them.", "anchors": ["gengokit/template/NAME-service/baron/NAME.pb.baron.go.tmpl:EncodeHTTP{{$binding.Label}}Request", "gengokit/httptransport/httptransport.go:NewBinding"]}
{"id": "C83", "title": "Definitions without a service", "statement": "From Go files without a service interface and .proto files in the supported grammar, svcdef.New returns a definition without a service if no rpc in the texts has an http option, and otherwise an error naming the first such rpc. svcdef.NewFromString reads only protoc-gen-go's file, which never holds the service: whatever service the text defines, the definition it returns has none, and if an rpc of the text has an http option it returns an error naming the first one. The command run on files without a service ends with status 0, with nothing but protoc's files written.", "quantifier": "every set of Go files protoc writes without a service interface; every list of .proto texts in the supported grammar, in any layout; every state of the process in which the scanner is outside of any definition; every leftover file", "why_tests_cant": "All .proto texts, layouts and process histories.", "anchors": ["svcdef/newfromstring.go: NewFromString", "svcdef/svcdef.go: New", "svcdef/consolidate_http.go: consolidateHTTP, getMethNamed", "internal/parsesvcname/parsesvcname.go: FromPaths", "cmd/baron/main.go: parseInput"]}
{"id": "C84", "title": "Every template renders for every definition", "statement": "Whatever definition with a service baron is given (any rpcs, requests, HTTP bindings, fields, oneofs, any characters in their names and paths), whatever import paths, version and `-t` value, and whatever gofmt does to the pieces: executing each of the nine templates that become files ends without a template error and without a panic, and so do the inner templates of the HTTP decoders and the template of the methods added to an existing service.go. So a run on a complete project in a directory without leftovers and without a service.go ends with status 0 and every file has the text of its template for that definition, or the text it had where it is kept.", "quantifier": "all definitions with a service, all configurations, all templates", "why_tests_cant": "the templates read fields of data whose shape varies with the definition (optional bindings, lists that may be empty, `index … 0`); a test executes them on a few definitions", "anchors": ["gengokit/gengokit.go: NewData, ApplyTemplate", "gengokit/httptransport/httptransport.go: NewHelper, NewBinding, GenQueryUnmarshaler, createDecodeConvertFunc", "gengokit/template/NAME-service", "gengokit/generator/gen.go: GenerateGokit"]}
{"id": "C85", "title": "What each generated file depends on, and which kept files cannot go stale", "statement": "interrupt.go and server/wrapper.go are the same for every definition and configuration; cmd/NAME/main.go depends on nothing but the import path of the service, endpoints.go on the two import paths, service/wrapper.go on the import path of the .pb.go files and the service's name, a fresh service.go also on the names of the rpcs, requests and responses but not on HTTP bindings or `-t`, server.go on the import paths, version, names of service and rpcs, the selected transports and whether any rpc has a binding, the transport file not on import paths. So the files baron keeps (wrapper.go, endpoints.go, interrupt.go, cmd/NAME/main.go) are after any later run, with whatever rpcs, messages, bindings, version or `-t`, what that run would have generated. The client's main.go is kept too but depends on the rpcs: after an rpc is added it still has the text of the first definition. A `-t` value is not checked: all values other than all, grpc and nats give the same files.", "quantifier": "all pairs of definitions and configurations, all templates, all sequences of two runs", "why_tests_cant": "a dependency on nothing else is a statement about all pairs of inputs", "anchors": ["gengokit/template/NAME-service", "gengokit/generator/gen.go: generateResponseFile", "gengokit/gengokit.go: NewData, ApplyTemplate"]}
{"id": "C86", "title": "The generated transport file registers and calls every binding under its own verb and path", "statement": "For every definition, `-t` and version, the text of the generated transport file contains the complete body of MakeHTTPHandler from the creation of the router on, and it registers exactly the bindings of the definition, in order, each with its verb in upper case, its path, the endpoint of its rpc and its own decoder; the complete part of NewHTTPClient that makes the endpoints, one for the first binding of each rpc with bindings, with its verb and the path up to the first parameter (and the panic if there is none); and for every binding an encoder that joins the parts of its path in order, parameters replaced by the text of the field they name. Paths are written between quotes as they are: the Go literal there has the path as its value exactly if the path has no quote, backslash or newline; a pattern such as {id:\\d+} gives a file that is not Go.", "quantifier": "every service definition, configuration, package name, rpc, binding and path", "why_tests_cant": "the text depends on a whole definition through a template of over 700 lines; tests compare a few generated files", "anchors": ["gengokit/template/NAME-service/baron/NAME.pb.baron.go.tmpl MakeHTTPHandler, NewHTTPClient", "gengokit/httptransport/httptransport.go PathSections, NewBinding", "gengokit/gengokit.go ApplyTemplate"]}
{"id": "C87", "title": "The generated transport file wires every rpc to its own endpoint over gRPC and NATS", "statement": "For every definition, the text of the generated transport file contains one field, one method and one maker function of Endpoints per rpc, in order; with gRPC selected, one handler per rpc built from the endpoint, decoder and encoder of that rpc, server methods that hand each request to the handler of their rpc, and a client with one endpoint per rpc for the gRPC method of that rpc's name in the service <Go package>.<service>; with NATS selected, one subscription per rpc to the subject <service>.<rpc> with the service's name as queue group, served by the subscriber built from the endpoint and decoder of that rpc, and a client that publishes to the same subject: the string literals on both sides have the same value.", "quantifier": "every service definition, configuration, package name and rpc", "why_tests_cant": "the text depends on a whole definition through the template; a swapped name in one of the repeated blocks still compiles and shows only when that rpc is called over that transport", "anchors": ["gengokit/template/NAME-service/baron/NAME.pb.baron.go.tmpl MakeGRPCServer, NewGRPCClient, ServeNATS, MakeNATSServer, NewNATSClient, Endpoints", "gengokit/gengokit.go ApplyTemplate"]}
{"id": "C88", "title": "The generated service, server and example client mention every rpc exactly once per place", "statement": "For every definition and configuration: a fresh service.go has exactly the expected text, one method per rpc in order with the rpc's name, request and response; the text added to an existing service.go has one method for each missing rpc, identical to the one in a fresh file; server.go starts the HTTP server exactly if some rpc has an HTTP binding and the gRPC and NATS servers exactly if selected, and makes one endpoint per rpc from the wrapped service; the example client calls every rpc over gRPC if selected, then every rpc with a binding over HTTP, then every rpc over NATS if selected.", "quantifier": "every service definition, configuration and list of missing methods", "why_tests_cant": "these are statements about all definitions; tests compare a few generated files", "anchors": ["gengokit/template/NAME-service/service/service.go.tmpl", "gengokit/template/NAME-service/service/service_methods.go.tmpl", "gengokit/template/NAME-service/server/server.go.tmpl", "gengokit/template/NAME-service/cmd/NAME-client/main.go.tmpl", "gengokit/service/services.go applyServiceMethodsTempl"]}
{"id": "C89", "title": "The text of generated request decoders", "statement": "For every binding, the transport file contains, letter for letter, a decoder DecodeHTTP<rpc><number>Request that reads the body into the request as JSON, and then has for each parameter of the path or query the statements for its type: a path parameter is looked up in mux.Vars and always read, a query parameter is read only if it is present; scalars are parsed with the strconv function and size of their type and narrowed to it, lists of scalars are read from several values or from JSON with or without brackets, enums are parsed as 32-bit integers, messages from JSON; for a oneof it counts the options that are present, refuses more than one, and reads the one; parameters of the body and maps have no statements; and it returns the request with the error of the last conversion. Every text is written under the rpc's and the field's own names.", "quantifier": "all services, rpcs, bindings and numbers of bindings; all parameters outside the body whose type name has no bracket, and query oneofs whose options are single scalars; all formatting functions", "why_tests_cant": "The decoder's text is produced by nested templates for every combination of location, type, list, pointer and option count; tests see a few.", "anchors": ["gengokit/httptransport/httptransport.go GenQueryUnmarshaler, createDecodeConvertFunc, createDecodeTypeConversion", "gengokit/template/NAME-service/baron/NAME.pb.baron.go.tmpl"]}
{"id": "C90", "title": "What the statements of a generated request decoder do when they are run", "statement": "For every binding whose path and query parameters have types the generated code compiles for (see C44), exported Go names and proto names without quotes, backslashes and line breaks, and whose oneofs carried in the query have single scalar options with different names: run as a Go program, with Go's scopes, := that redeclares or shadows, and err shared or hidden between blocks, the statements that C89 shows to be in the transport file behave as the decoder of C25 to C27, C50 and C79: from a request whose body was read they return, without an error, exactly the message that decoder gives; they panic where that decoder meets a parameter carried in the query with an empty list of values (which net/http never produces); in every other case they return an error. They never use a variable that is not declared, never assign a value of the wrong kind and never run past their end.", "quantifier": "every binding with readable parameters, in any number and order; every request path, query and body; every floating point library; every content of the request message from the body", "why_tests_cant": "The program text depends on the binding, and its behaviour on how scopes and the shared err variable interact across all the parameters before; tests run a few generated decoders.", "anchors": ["gengokit/httptransport/httptransport.go: GenQueryUnmarshaler, createDecodeConvertFunc, createDecodeTypeConversion", "gengokit/template/NAME-service/baron/NAME.pb.baron.go.tmpl: DecodeHTTP{{$binding.Label}}Request"]}
{"id": "C91", "title": "The text of generated request encoders", "statement": "For every binding, the transport file contains, letter for letter, an encoder EncodeHTTP<rpc><number>Request that sets the transport and request-url headers, sets the request's path from the binding's path with every variable replaced by the field of the request printed in the way of its type, and then adds to the query the instance already had: for each field carried in the query the statements for its type (strings and other scalars printed, lists of scalars one value per element, everything else as JSON), for each oneof carried in the query the statement for each option, sent when it differs from the zero value of its type; unless the verb is get, the whole message is written to the body as JSON. Fields of the path and the body and maps have no query statements. Every text is written under the rpc's and the field's own names.", "quantifier": "all services, rpcs, bindings and numbers of bindings; all well-formed path templates; all parameters in the query whose type name has no bracket, and query oneofs whose options are single; all formatting functions", "why_tests_cant": "The encoder's text is produced by nested templates for every combination of location, type, list and option; tests see a few.", "anchors": ["gengokit/httptransport/httptransport.go: NewBinding, PathSections, getZeroValue", "gengokit/template/NAME-service/baron/NAME.pb.baron.go.tmpl: EncodeHTTP{{$binding.Label}}Request"]}
{"id": "C92", "title": "What the statements of a generated request encoder do when they are run", "statement": "For every binding with a well-formed path whose variables are fields and whose literals and parameter names need no escapes between quotes, and every request message whose fields have values of their types: run as a Go program, with Go's scopes and shared err, tmp and strval variables, the statements that C91 shows to be in the transport file set on the instance's request the headers Transport: HTTPJSON and Request-Url: the path it had before, the path of the binding with the fields printed in it, and the query the instance had plus one value for each single scalar, element of a list, present optional, enum number or JSON text of a message, and each option of a oneof that is set and not zero; unless the verb is get, the JSON of the whole message is the body. They return an error exactly if that path cannot be parsed as a URL or the message cannot be written, never panic, never use an undeclared variable, and never change the message. For an instance without a query this is the request of the client in C79 and C82.", "quantifier": "every binding, in any number and order of parameters and oneofs; every message with values of its types; every instance path, header and query; every floating point library and JSON library", "why_tests_cant": "The program text depends on the binding, and what it sends on all of the message; tests run a few generated encoders with a few values.", "anchors": ["gengokit/httptransport/httptransport.go: NewBinding, PathSections, getZeroValue", "gengokit/template/NAME-service/baron/NAME.pb.baron.go.tmpl: EncodeHTTP{{$binding.Label}}Request"]}
{"id": "C93", "title": "The generated encoder and decoder of a binding, run one after the other, restore the message", "statement": "For every binding that meets the conditions of C90 and C92, and every message that C79 lets through (its texts in the path and query survive there, and for get nothing is left for a body): running the program text of the generated client encoder succeeds, the path it leaves matches the binding's own template, and running the program text of the generated server decoder on the variables of that match, the query, and what the body is read as, returns without an error exactly the message the client was given.", "quantifier": "all bindings, messages and libraries as in C79, C90 and C92", "why_tests_cant": "The two texts are generated by different templates and agree only if every type, name and location is treated alike in both; no test can run all pairs.", "anchors": ["gengokit/httptransport/httptransport.go: NewBinding, GenQueryUnmarshaler, PathSections", "gengokit/template/NAME-service/baron/NAME.pb.baron.go.tmpl: EncodeHTTP{{$binding.Label}}Request, DecodeHTTP{{$binding.Label}}Request"]}
{"id": "C94", "title": "The embedded templates can be found under their names", "statement": "Asset(name), AssetString(name) and MustAsset(name) return the text of the template file whose path below NAME-service is name, reading backslashes as slashes, and fail for every other name. AssetNames lists exactly these paths, each once, in whatever order the map is visited, and they are the names the generator goes through. AssetDir(name) succeeds exactly for the empty name and for directories that hold a template at some depth (a trailing slash makes it fail), and lists, each once, the next path components. No name is both a file and a directory. Every template baron asks for by name exists, so MustAsset never panics there.", "quantifier": "every name (any string) and every order in which the maps are visited", "why_tests_cant": "Names are arbitrary strings; the table of names and the directory tree are two separate literals that have to agree for every one of them.", "anchors": ["gengokit/template/template.go: Asset, AssetString, MustAsset, AssetNames, AssetDir, _bindata, _bintree", "gengokit/generator/gen.go: GenerateGokit", "gengokit/service/services.go: applyServiceTempl, applyServiceMethodsTempl"]}
{"id": "C95", "title": "What the generated server command does with its arguments and environment", "statement": "The generated cmd/NAME/main.go is, character by character before formatting, a program importing the server package below the service's import path. For every environment and every list of arguments: if the arguments are understood (flags written -name=value, -name value, or -debug alone, with one or two dashes, up to the end, to --, to a single - or to the first argument without dash; switch values as strconv.ParseBool takes them), server.Run is called exactly once with the configuration in which the last occurrence of a flag beats the environment, which beats the default, and a notice is printed before exactly when no HTTP, gRPC or NATS address is set; if help is asked for before anything that is not understood, the server is not run and the status is 0; otherwise the server is not run and the status is 2.", "quantifier": "every service definition and configuration of baron, every environment, every list of arguments", "why_tests_cant": "Argument lists and environments are unbounded; the claim is about the whole text of the generated program, run on all of them.", "anchors": ["gengokit/template/NAME-service/cmd/NAME/main.go.tmpl: init, main", "gengokit/gengokit.go: NewData, ApplyTemplateFromPath"]}
{"id": "C96", "title": "The methods that wrap endpoints are the programs their text says, for every exclusion list", "statement": "The generated transport file has methods WrapAllExcept and WrapAllLabeledExcept of *Endpoints whose text, run as Go, does this: if every excluded name is the name of an rpc and none is given twice, the endpoint of every other rpc is wrapped exactly once in the middleware (which for WrapAllLabeledExcept is given that rpc's name as its label), and no other endpoint changes, in whatever order Go visits the map; otherwise it panics with the documented message and the first offending name, before any endpoint has been changed.", "quantifier": "every service whose rpcs have distinct names that need no escaping in a Go string, every transport, package and import path, every middleware and type of endpoints, every list of exclusions, every state of the endpoints, every order of map iteration", "why_tests_cant": "Exclusion lists, services and map orders are unbounded; a test runs one generated file under one of Go's random orders.", "anchors": ["gengokit/template/NAME-service/baron/NAME.pb.baron.go.tmpl: WrapAllExcept, WrapAllLabeledExcept"]}
{"id": "C97", "title": "The text of the generated server's Run, as concurrent Go, under every schedule", "statement": "The generated server.go has a function Run(cfg Config), and interrupt.go a function Interrupt, whose texts, run as Go with goroutines and an unbuffered error channel, do this for every configuration and in every execution: Run starts one goroutine for signals and one for each server that is wanted (debug if asked for; HTTP if an address is set and some rpc has an HTTP binding; gRPC and NATS if an address is set and the transport was generated), each once and no other; each goroutine does exactly what it should in order (listens or connects at its own address, with the handler made from the service's endpoints and its options) and comes to the channel at most once, with the error its server, listener, connection or subscription returned (the NATS one ends silently once subscribed); Run returns only after such an error or a signal has come, with the first one that came, after all goroutines have been started, and once one has come it can always return whatever the others do.", "quantifier": "every service definition and transport selection, every configuration of the server, every interleaving of the goroutines, every behaviour of the servers and connections (never returning, returning any error or none), every execution length", "why_tests_cant": "Interleavings and failure points are unbounded; tests cannot force the scheduler or exhaust the ways servers fail.", "anchors": ["gengokit/template/NAME-service/server/server.go.tmpl: Run", "gengokit/template/NAME-service/server/interrupt.go.tmpl: Interrupt"]}
{"id": "C98", "title": "The example client calls every rpc once per transport, in order, and stops at the first failure", "statement": "For every service whose service and method names contain no quote, backslash, newline or percent sign, the generated cmd/NAME-client/main.go is a program that does the following, for every list of arguments and every behaviour of the servers. Arguments are understood if they are flags -grpc.addr, -http.addr, -nats.addr (one dash or two, -name=value or -name value) up to the end, `--`, `-` or the first argument that is no flag; the address of a server is the last one given, otherwise :5040, :5050 and :4222. Then, if gRPC is generated, the client connects to the gRPC address and calls every rpc once, in the order of the rpcs, with an empty message of its request type; then, for the rpcs that have HTTP bindings, it makes an HTTP client and calls the rpc with an empty message; then, if NATS is generated, the same as for gRPC over NATS. Every result is written to the log. At the first connection, client or call that fails the error is written, nothing more is done, connections are not closed and the exit status is 1; otherwise the connections are closed, the NATS connection first, and the status is 0. If help is asked for before anything not understood the status is 0 and nothing is done; otherwise the status is 2 and nothing is done. The program does not compile (an unused variable or import) exactly if the service has no rpc, or neither gRPC nor NATS is generated and no rpc has an HTTP binding.", "quantifier": "all services (with plain names), configurations, command lines, and behaviours of the servers, in which the outcome of every step may depend on everything that happened before", "why_tests_cant": "a test runs the client against one server that answers; the order, the stop at any of the failures and the choice of addresses range over all histories and argument lists", "anchors": ["gengokit/template/NAME-service/cmd/NAME-client/main.go.tmpl: main, init, pln", "gengokit/gengokit.go: Data"]}
{"id": "C99", "title": "A call of an rpc through generated endpoints, directly or over gRPC, is one call of the implementation", "statement": "The generated functions Endpoints, NewEndpoints, WrapService, WrapEndpoints, NewService, MakeXEndpoint, the methods of Endpoints and of the service, MakeGRPCServer, the methods of the gRPC server, NewGRPCClient and the gRPC codecs are written, for every service with plain names of which no two differ only in case, as programs that behave as follows for every implementation (whose answers may depend on all earlier calls), every context and every request. NewEndpoints, MakeGRPCServer and NewGRPCClient call nothing of the implementation. The method of an rpc on the endpoints calls the implementation's method of that rpc and no other, exactly once, with the same context and request, and returns its response and a nil error, or nil and its error; anything but a pointer to the rpc's request type panics before the implementation is called. The same method on the client of NewGRPCClient, connected to a server of MakeGRPCServer registered under package.Service, calls the implementation's method exactly once, with the request, in the context that the client's options, the network, the incoming metadata and then the server's options make; its response comes back, or nil and the status of its error. If the server is registered under another name every call fails as unimplemented and nothing is called. Before anything is written into service.go every rpc answers with an empty response and no error.", "quantifier": "all services with plain rpc names, all implementations with any memory, all contexts, requests, options and earlier calls", "why_tests_cant": "a test calls a few rpcs of one service and cannot see that the wiring by name (endpoint, decoder, encoder, field, lower-case variable) is right for every rpc of every definition, nor that nothing else is called", "anchors": ["gengokit/template/NAME-service/baron/NAME.pb.baron.go.tmpl: MakeXEndpoint, Endpoints, MakeGRPCServer, NewGRPCClient", "gengokit/template/NAME-service/server/server.go.tmpl: NewEndpoints", "gengokit/template/NAME-service/server/endpoints.go.tmpl: Endpoints", "gengokit/template/NAME-service/service/service.go.tmpl", "gengokit/template/NAME-service/service/wrapper.go.tmpl"]}
{"id": "C100", "title": "A service over NATS: what ServeNATS subscribes and what a call comes to", "statement": "For every service with plain names generated with NATS, the generated functions ServeNATS, MakeNATSServer, NewNATSClient and the NATS codecs are written as programs that behave as follows, for every implementation (whose answers may depend on everything before), every context, request, history and every behaviour of JSON and of the NATS server. MakeNATSServer and NewNATSClient have no effect. ServeNATS subscribes for the rpcs in their order, each to the subject Service.Rpc in the queue Service, up to the first subscription that is refused, whose error it returns; otherwise it returns nil. A call of an rpc on the client: if the request cannot be marshalled that error is returned and nothing is sent; if nobody has subscribed the error is that there is no reply; if the subscriptions to the rpc's subject come from ServeNATS (of any number of servers with any options), exactly one of them gets the data. If that cannot be read as a request, its error is sent back and nothing is called; otherwise the implementation's method of this rpc and no other is called exactly once, with the request that was read and a context made from the background context by that server's options, whatever the caller's context was, and exactly one reply is sent, with the marshalled response or the text of the error. In every case the caller gets what reading the reply as a response gives, even if it is the text of an error. If nothing is refused and messages survive JSON, after ServeNATS every rpc's response reaches its caller.", "quantifier": "all services with plain rpc names, all implementations with any memory, all contexts, requests, histories of subscriptions and calls, JSON behaviours, refusals and choices of the queue member", "why_tests_cant": "a test subscribes one service on one connection; it cannot see that subjects, handlers and decoders of all rpcs of every service match, nor which replies are sent in every history and for every failure of marshalling", "anchors": ["gengokit/template/NAME-service/baron/NAME.pb.baron.go.tmpl: ServeNATS, MakeNATSServer, NewNATSClient, DecodeNATSXRequest, DecodeNATSXResponse, EncodeNATSGenericRequest, EncodeNATSGenericResponse"]}
{"id": "C101", "title": "The error, header, metadata and response helpers of the transport file as programs", "statement": "In every generated transport file the functions errorEncoder, errorDecoder, the methods of httpError, EncodeHTTPGenericResponse, HTTPHeadersToContext, copyURL, CtxValuesToSend, the DecodeHTTP…Response function of every rpc with a binding and, with gRPC, GRPCMetadataToContext and ContextValuesToGRPCMetadata are written as programs which, when called, do the following. errorEncoder, given an error or an httpError while nothing has been sent, sends the declared status (500 by default), the declared headers under their canonical names with their first values, the JSON content type unless declared otherwise, and the error's own JSON or an object with its message; for a status outside 100–999 it panics before sending. errorDecoder returns the message in the JSON text, or a fixed sentence with at most 8196 characters of the body. The response encoder writes the marshalled message with the status that was sent or 200, returns a marshalling error without writing, and panics for something that is not a message. A response decoder closes the body in every case; it returns an error for an unreadable body, the status with the message for a status other than 200, the message read from the body for 200, and the message of the body as an error if that cannot be read; so an error sent by one process reaches the caller of another with its status and message. HTTPHeadersToContext and GRPCMetadataToContext add the first value of each header or entry under both forms of its name and leave the rest of the context as it is; the functions that CtxValuesToSend and ContextValuesToGRPCMetadata give to go-kit set the headers, or add to the metadata, exactly the selected keys that hold a string; a selected string therefore reaches the server's context under both forms of its key. copyURL leaves the URL it copies from as it was.", "quantifier": "every Go package name, service, configuration, error and httpError, response writer, message type and protojson behaviour, response body, status and read failure, context (with values of any type), header map and metadata in any map order, list of keys, and the JSON codec (assumed only to read back what it wrote)", "why_tests_cant": "The helpers are text in a template: tests of a generated service see one error, one status, one map order; they cannot show what every error, header map, context and body comes to, nor that the text of every generated file is this program.", "anchors": ["gengokit/template/NAME-service/baron/NAME.pb.baron.go.tmpl: errorEncoder, errorDecoder, httpError, EncodeHTTPGenericResponse, HTTPHeadersToContext, copyURL, CtxValuesToSend, DecodeHTTP…Response, GRPCMetadataToContext, ContextValuesToGRPCMetadata"]}
{"id": "C102", "title": "The HTTP handler and the HTTP client as programs", "statement": "In every generated transport file MakeHTTPHandler and NewHTTPClient are written as programs which, when called, do the following. A handler gets requests with a plain path: one that no binding takes is refused, with 405 if some binding would take it with another verb and with 404 otherwise, and no endpoint is called. Otherwise the first binding in the order of declaration that takes it decides: its decoder gets the path parameters and a context with the request's headers; a decoding error is sent, without a call of an endpoint; otherwise the endpoint of that binding's rpc is called exactly once, with that context and what was decoded, and its error, or the error of marshalling its response, is sent with its status, headers and text, or else the response is sent with status 200 and the JSON content type. A client gets an address, with http:// put before it unless it begins with http: if that does not parse, the error is returned; for a service without bindings it panics; otherwise every rpc with bindings, and no other, has an endpoint made of the verb and the path (up to its first parameter) of its first binding, that binding's encoder, the rpc's decoder and the options. A call of such an endpoint returns the error of making the request without sending anything; otherwise it sends it once, with the selected context values as headers; it returns the error of the exchange, or what the response decoder makes of the answer, and the body is closed.", "quantifier": "every Go package name, service whose verbs and paths have no quotes, backslashes or line breaks and (for the handler) whose paths are templates of pieces, endpoints and decoders with any effect and result, caller's options that keep the standard functions, verb, plain path, context, header map; every instance address, URL parser, encoder, exchange, list of keys and response", "why_tests_cant": "Which of several bindings gets a request, what happens on each failure and which endpoint is called are decided by text in a template, repeated for every binding; tests send single requests to one generated service.", "anchors": ["gengokit/template/NAME-service/baron/NAME.pb.baron.go.tmpl: MakeHTTPHandler, NewHTTPClient"]}
{"id": "C103", "title": "The decoders of requests as whole programs", "statement": "In every generated transport file the decoder of each binding's requests is written as a program which, when called, does the following, and closes the request's body in every case. If the body cannot be read it returns no request and an error with that of the reader. If the body is not empty and protojson, allowing partial messages and discarding unknown fields, does not take it, the decoder returns no request and an error whose status is 400 and whose message has at most the first 8196 bytes of the body. Otherwise it reads the parameters of the path and of the query into the empty request or into what protojson made of the body: it returns the request with every parameter in it and no error, or panics if a parameter is there without a value, or returns an error. Served by the generated handler, a body that is not taken is answered with status 400 and a parameter that is refused with status 500, without a call of an endpoint, and otherwise the endpoint gets what was decoded.", "quantifier": "every package name, service, rpc and binding whose parameters compile, formatter, variables of the path, query, body, way the body ends, and behaviour of protojson and of the conversions; served: every service as in C102", "why_tests_cant": "The statements of a decoder are produced by a template and by code generating code per field, and what they do depends on the body, the path and the query together; tests compile a few and send single requests.", "anchors": ["gengokit/template/NAME-service/baron/NAME.pb.baron.go.tmpl: DecodeHTTP...Request", "gengokit/httptransport/httptransport.go: Field, GenQueryUnmarshaler, OneofField"]}
{"id": "C104", "title": "A call through the programs of the generated client and server", "statement": "Take a call of an rpc through the endpoint that the generated HTTP client makes for it, where each part on the way is run as the program that is generated: the encoder of the request, the selection of context values, the registration of routes and the handler, the decoder of the request, the encoder of the response or of the error, and the decoder of the response. For every message that survives the transmission by the parameters of its binding and the body, the request has the verb and the path of the binding, the endpoint of that rpc, and no other, is called once, with a message of exactly the content sent, in a context holding what arrived of the headers; the headers sent are the selected values of the caller's context and those of the encoder; the service is left in the state the endpoint left it in. If the endpoint returns a response, the caller gets what protojson reads back of it, and no error; if it fails, or protojson does not write its response, with a status other than 200, the caller gets no response and an error with that status and the text of the error. An error with status 200 is taken for a response: if protojson at the client reads its text, the caller gets what it read, and no error. If protojson at the server does not take the body of the request, no endpoint is called, the service keeps its state, and the caller gets an error with status 400, the first 8196 bytes of the body and what protojson reported. In all cases the body of the response is closed.", "quantifier": "every service whose templates and names compile, rpc with a binding that is not shadowed by an earlier one, message, context and keys, state of the service, endpoint, behaviour of protojson and of the JSON library, and way net/http changes headers", "why_tests_cant": "The parts are generated by different templates and only meet at run time, for one schema at a time; a test sends one message through one generated service.", "anchors": ["gengokit/template/NAME-service/baron/NAME.pb.baron.go.tmpl: NewHTTPClient, MakeHTTPHandler, EncodeHTTP...Request, DecodeHTTP...Request, EncodeHTTPGenericResponse, ErrorEncoder, DecodeHTTP...Response", "gengokit/httptransport/httptransport.go: Field.GenQueryUnmarshaler, OneofField.GenQueryUnmarshaler, PathSections, basePath"]}
{"id": "C105", "title": "Restoring the embedded templates", "statement": "Restoring an embedded template under a directory asks the operating system to make the template's directory below it, to write the template's text at its path below it, and to set its time, in this order, until something is refused, whose error is returned; a name of no template and no directory is an error, with nothing asked. Restoring a directory of templates, named with slashes or backslashes, does this for every template below it, each once and no other, and stops at the first refusal with its error. If nothing is refused no error is returned, and every template below the directory is at its path below the target with its text, while all other files are as they were.", "quantifier": "every target directory, name, operating system (which may refuse any operation, depending on those before), order in which Go visits the maps of children, and content of the file system", "why_tests_cant": "The order of a map changes from run to run and any operation may fail; a test sees one order, one target directory and usually no failure.", "anchors": ["gengokit/template/template.go: RestoreAsset, RestoreAssets, _filePath, AssetDir, Asset"]}
{"id": "C106", "title": "An HTTP call is one call of the implementation", "statement": "Take a call of an rpc over HTTP where every part on the way is run as the program that is generated: those of the client, of the handler, of the decoder and the encoders, and those of the endpoints, which the generated server makes of the user's implementation of the service. For every message that survives the transmission by the parameters of its binding and the body, what happens to the implementation, after whatever happened before, is exactly one call of its method for that rpc, with a message of exactly the content sent, in a context holding what arrived of the caller's selected values. If the implementation returns a response, the caller gets what protojson reads back of it, and no error; if it fails, or protojson does not write its response, with a status other than 200, the caller gets no response and an error with that status and the text of the error. If it fails with status 200, and protojson at the client reads the text of the error, the caller gets what it read, and no error. For any number of calls of any rpcs, one after the other, what happens to the implementation is, in this order, one call for each, of the method of its rpc and with exactly the message that was sent, and nothing else.", "quantifier": "every service whose templates and names compile, rpc with a binding that is not shadowed by an earlier one, message, context and keys, history of the implementation, implementation (whose answers may depend on all earlier calls), behaviour of protojson and of the JSON library, and way net/http changes headers; sequences of calls of any length", "why_tests_cant": "The client, the handler, the coders and the endpoints come from different templates and code and meet at run time only, and the implementation may answer differently each time; tests call one method of one generated service a few times.", "anchors": ["gengokit/template/NAME-service/baron/NAME.pb.baron.go.tmpl: NewHTTPClient, MakeHTTPHandler, EncodeHTTP...Request, DecodeHTTP...Request, Make...Endpoint, Endpoints", "gengokit/template/NAME-service/server/server.go.tmpl: NewEndpoints", "gengokit/httptransport/httptransport.go: Field.GenQueryUnmarshaler, OneofField.GenQueryUnmarshaler, PathSections, basePath"]}
