{
 "claims": [
  {
   "property": "C01",
   "status": "proved",
   "theorems": [
    "Baron.Scanner.C01_cursor_invariant",
    "Baron.Scanner.C01_unread_read",
    "Baron.Scanner.C01_read_unread"
   ],
   "note": "Invariant over every sequence of reads and un-reads; both inverse laws."
  },
  {
   "property": "C02",
   "status": "proved",
   "theorems": [
    "Baron.Scanner.C02_chunks",
    "Baron.Scanner.C02_lossless_iff",
    "Baron.Scanner.C02_lossless_witness",
    "Baron.Scanner.C02_doubleStar_witness",
    "Baron.Scanner.C02_lossless_noStar"
   ],
   "note": "Exact. Witnesses that the exception is real: C02_lossless_witness, C02_doubleStar_witness."
  },
  {
   "property": "C03",
   "status": "proved",
   "theorems": [
    "Baron.Scanner.C03_line_and_depth",
    "Baron.Scanner.C03_depth_counts_braces"
   ],
   "note": ""
  },
  {
   "property": "C04",
   "status": "proved",
   "theorems": [
    "Baron.Scanner.C04_isolated_iff",
    "Baron.Scanner.C04_isolated_witness",
    "Baron.Scanner.C04_isolated_balanced",
    "Baron.Scanner.C04_texts_isolated"
   ],
   "note": "Exact: C04_isolated_iff is an equivalence; C04_isolated_witness shows that an unbalanced file does leak."
  },
  {
   "property": "C05",
   "status": "proved",
   "theorems": [
    "Baron.Scanner.C05_scanning_terminates",
    "Baron.Scanner.C05_progress"
   ],
   "note": "The unbounded loop is an inductive execution; the model's bound is shown not to matter."
  },
  {
   "property": "C06",
   "status": "proved",
   "theorems": [
    "Baron.Lexer.C06_starts_with_service",
    "Baron.Lexer.C06_no_service_no_tokens",
    "Baron.Lexer.C06_tokens_are_the_service"
   ],
   "note": "A preceding word `service` outside the declaration is not distinguished; see the theorem statements."
  },
  {
   "property": "C07",
   "status": "proved",
   "theorems": [
    "Baron.Lexer.C07_tokens_lossless",
    "Baron.Lexer.C07_kind_unique",
    "Baron.Lexer.C07_panic_only_unfinished",
    "Baron.Lexer.C07_no_panic_balanced",
    "Baron.Lexer.C07_panics_on_unfinished",
    "Baron.Text.C07_tokens_exact",
    "Baron.Text.C07_file_tokens"
   ],
   "note": ""
  },
  {
   "property": "C08",
   "status": "proved",
   "theorems": [
    "Baron.Lexer.C08_position_valid",
    "Baron.Lexer.C08_unget_get",
    "Baron.Lexer.C08_unget_to",
    "Baron.Lexer.C08_unget_to_later",
    "Baron.Lexer.C08_skip_exact"
   ],
   "note": ""
  },
  {
   "property": "C09",
   "status": "proved",
   "theorems": [
    "Baron.Parser.C09_terminates"
   ],
   "note": "Bounded recursion, outcome independent of the bound."
  },
  {
   "property": "C10",
   "status": "proved",
   "theorems": [
    "Baron.Parser.C10_whitespace_irrelevant",
    "Baron.Parser.C10_insert_whitespace"
   ],
   "note": "Via refinement of the cursor parser to a parser over significant tokens."
  },
  {
   "property": "C11",
   "status": "proved",
   "theorems": [
    "Baron.Parser.C11_roundtrip",
    "Baron.Text.C11_text"
   ],
   "note": "Round trip for an abstract syntax of services (Spec/Grammar.lean), from the tokens and, C11_text, from the text of the whole file."
  },
  {
   "property": "C12",
   "status": "proved",
   "theorems": [
    "Baron.Parser.C12_no_http_ignored"
   ],
   "note": ""
  },
  {
   "property": "C13",
   "status": "proved",
   "theorems": [
    "Baron.Consolidate.C13_one_param_per_field",
    "Baron.Consolidate.C13_path",
    "Baron.Consolidate.C13_body_query",
    "Baron.Consolidate.C13_total",
    "Baron.Consolidate.C13_locations"
   ],
   "note": "paramLocation/createParams; the path side is stated on path templates."
  },
  {
   "property": "C14",
   "status": "proved",
   "theorems": [
    "Baron.Consolidate.C14_path_params",
    "Baron.Consolidate.C14_any_path"
   ],
   "note": ""
  },
  {
   "property": "C15",
   "status": "proved",
   "theorems": [
    "Baron.Consolidate.C15_custom",
    "Baron.Consolidate.C15_standard",
    "Baron.Consolidate.C15_none",
    "Baron.Consolidate.C15_binding"
   ],
   "note": ""
  },
  {
   "property": "C16",
   "status": "proved",
   "theorems": [
    "Baron.Consolidate.C16_attached",
    "Baron.Consolidate.C16_unknown_rpc"
   ],
   "note": "Method names distinct and request messages resolved (Go's type checker and resolveTypes give both)."
  },
  {
   "property": "C17",
   "status": "proved",
   "theorems": [
    "Baron.Consolidate.C17_order_iff",
    "Baron.Consolidate.C17_order",
    "Baron.Consolidate.C17_stop_witness",
    "Baron.Consolidate.C17_shared_witness"
   ],
   "note": "Exact: C17_order_iff is an equivalence over all permutations; the two witnesses show both ways in which order matters."
  },
  {
   "property": "C18",
   "status": "proved",
   "theorems": [
    "Baron.Strs.C18_exported",
    "Baron.Strs.C18_no_underscore_lower",
    "Baron.Strs.C18_idempotent",
    "Baron.Strs.C18_keeps_letters",
    "Baron.Strs.C18_exact",
    "Baron.Strs.C18_words"
   ],
   "note": "Idempotence fails for names starting with '.' (example next to it); proto identifiers never do."
  },
  {
   "property": "C19",
   "status": "proved",
   "theorems": [
    "Baron.Strs.C19_valid",
    "Baron.Strs.C19_unchanged",
    "Baron.Strs.C19_shape",
    "Baron.Strs.C19_prefix_needed"
   ],
   "note": ""
  },
  {
   "property": "C20",
   "status": "proved",
   "theorems": [
    "Baron.Strs.C20_camel_of_snake",
    "Baron.Strs.C20_snake_of_camel"
   ],
   "note": ""
  },
  {
   "property": "C21",
   "status": "proved",
   "theorems": [
    "Baron.HTTP.C21_path_params",
    "Baron.HTTP.C21_never_panics",
    "Baron.HTTP.C21_every_parameter"
   ],
   "note": "Exact characterisation of the extracted map, for every url and template."
  },
  {
   "property": "C22",
   "status": "proved",
   "theorems": [
    "Baron.HTTP.C22_path_params_round_trip",
    "Baron.HTTP.C22_client_to_handler",
    "Baron.HTTP.C22_changed_values_witness"
   ],
   "note": "Exact iff through the models of url.Parse and mux (C22_client_to_handler); the values that are changed or refused are concrete in C22_changed_values_witness."
  },
  {
   "property": "C23",
   "status": "proved",
   "theorems": [
    "Baron.HTTP.C23_labels",
    "Baron.HTTP.C23_labels_unique_iff",
    "Baron.HTTP.C23_few_bindings",
    "Baron.HTTP.C23_collision"
   ],
   "note": "Exact characterisation; C23_collision shows that eleven bindings suffice to violate uniqueness."
  },
  {
   "property": "C24",
   "status": "proved",
   "theorems": [
    "Baron.HTTP.C24_english_number"
   ],
   "note": ""
  },
  {
   "property": "C25",
   "status": "proved",
   "theorems": [
    "Baron.HTTPCode.C25_round_trip",
    "Baron.HTTPCode.C25_lost_values_witness",
    "Baron.Wire.C25_optional_in_path"
   ],
   "note": "exact round trip; optional fields in the path never arrive unset (C25_optional_in_path)"
  },
  {
   "property": "C26",
   "status": "proved",
   "theorems": [
    "Baron.HTTPCode.C26_decode_iff",
    "Baron.HTTPCode.C26_path_query_override",
    "Baron.HTTPCode.C26_malformed_body",
    "Baron.HTTPCode.C26_lone_string_witness",
    "Baron.Wire.C26_texts",
    "Baron.Wire.C26_lists"
   ],
   "note": "exact form per field (C26_decode_iff), the texts read as each base type spelled out (C26_texts) and the texts read as lists (C26_lists)"
  },
  {
   "property": "C27",
   "status": "proved",
   "theorems": [
    "Baron.Runtime.C27_wrap_labeled",
    "Baron.Runtime.C27_wrap",
    "Baron.Runtime.C27_bad_exclusion",
    "Baron.Runtime.C27_wrap_twice"
   ],
   "note": "Every visiting order of the label map; excluded labels untouched, unknown labels rejected."
  },
  {
   "property": "C28",
   "status": "proved",
   "theorems": [
    "Baron.Runtime.C28_http_headers_to_context",
    "Baron.Runtime.C28_grpc_metadata_to_context",
    "Baron.Runtime.C28_grpc_empty_value_panics"
   ],
   "note": "Random map order and the loop's early overwrite included."
  },
  {
   "property": "C29",
   "status": "proved",
   "theorems": [
    "Baron.Service.C29_user_code_preserved",
    "Baron.Service.C29_grouped_parameters_panic",
    "Baron.Service.C29_finishes"
   ],
   "note": "Bodies verbatim and in order. The parser's panic on grouped parameters (`Get(c, q *pb.X)`) is stated as C29_grouped_parameters_panic."
  },
  {
   "property": "C30",
   "status": "proved",
   "theorems": [
    "Baron.Service.C30_count",
    "Baron.Service.C30_exactly_one_iff",
    "Baron.Service.C30_exactly_one",
    "Baron.Service.C30_method",
    "Baron.Service.C30_types",
    "Baron.Service.C30_new_rpc",
    "Baron.Service.C30_first",
    "Baron.Service.C30_witness"
   ],
   "note": "Exact: C30_count, C30_exactly_one_iff (counting) and C30_method (which method, with which types). The hoped-for unconditional claim is false: C30_witness."
  },
  {
   "property": "C31",
   "status": "proved",
   "theorems": [
    "Baron.Service.C31_idempotent_iff",
    "Baron.Service.C31_idempotent",
    "Baron.Service.C31_after_first_iff",
    "Baron.Service.C31_witness"
   ],
   "note": "Exact: C31_idempotent_iff, C31_after_first_iff. The hoped-for unconditional claim is false: C31_witness."
  },
  {
   "property": "C32",
   "status": "proved",
   "theorems": [
    "Baron.Gen.C32_outputs",
    "Baron.Gen.C32_edited_files_kept",
    "Baron.Gen.C32_other_files_untouched",
    "Baron.Gen.C32_succeeds",
    "Baron.Gen.C32_order_independent",
    "Baron.Gen.C32_transport_refreshed"
   ],
   "note": "Templates, regeneration and gofmt are arbitrary parameters; every visiting and writing order."
  },
  {
   "property": "C33",
   "status": "proved",
   "theorems": [
    "Baron.Gen.C33_paths_distinct",
    "Baron.Gen.C33_files_distinct"
   ],
   "note": ""
  },
  {
   "property": "C34",
   "status": "proved",
   "theorems": [
    "Baron.Gen.C34_only_obsolete",
    "Baron.Gen.C34_outputs_survive"
   ],
   "note": ""
  },
  {
   "property": "C35",
   "status": "proved",
   "theorems": [
    "Baron.Start.C35_one_file",
    "Baron.Start.C35_existing_untouched",
    "Baron.Start.C35_success",
    "Baron.Start.C35_target"
   ],
   "note": "For any outcome of the system calls; existing files are safe as long as os.Stat reports them."
  },
  {
   "property": "C36",
   "status": "proved",
   "theorems": [
    "Baron.Start.C36_package",
    "Baron.Start.C36_service",
    "Baron.Start.C36_extension",
    "Baron.Start.C36_extension_total",
    "Baron.Start.C36_extension_iff",
    "Baron.Start.C36_extension_witness"
   ],
   "note": "Exact: the result is the name without any occurrence of .proto, unchanged iff there is none (C36_extension_iff); so my.protocol becomes mycol (C36_extension_witness)."
  },
  {
   "property": "C37",
   "status": "proved",
   "theorems": [
    "Baron.Svcdef.C37_contents",
    "Baron.Svcdef.C37_contents_later",
    "Baron.Svcdef.C37_messages_iff",
    "Baron.Svcdef.C37_order_iff",
    "Baron.Svcdef.C37_enums",
    "Baron.Svcdef.C37_service",
    "Baron.Svcdef.C37_order",
    "Baron.Svcdef.C37_fields",
    "Baron.Svcdef.C37_field_type",
    "Baron.Svcdef.C37_second_call",
    "Baron.Svcdef.C37_witness"
   ],
   "note": "Exact: C37_contents / C37_contents_later describe every case, C37_messages_iff and C37_order_iff are equivalences; C37_witness shows both exceptions."
  },
  {
   "property": "C38",
   "status": "proved",
   "theorems": [
    "Baron.Svcdef.C38_resolved",
    "Baron.Svcdef.C38_idempotent",
    "Baron.Svcdef.C38_enum_map"
   ],
   "note": "Exact, for every definition. Enum-valued maps are left unresolved by the code (C38_enum_map), contrary to what one would expect."
  },
  {
   "property": "C39",
   "status": "proved",
   "theorems": [
    "Baron.Svcdef.C39_name",
    "Baron.Svcdef.C39_field",
    "Baron.Svcdef.C39_other_tags"
   ],
   "note": "strconv.Unquote of an escape-free string is a hypothesis of the theorem; four-part tags without '=' panic and are outside it."
  },
  {
   "property": "C40",
   "status": "proved",
   "theorems": [
    "Baron.Runtime.C40_status_and_headers",
    "Baron.Runtime.C40_any_headers",
    "Baron.Runtime.C40_client_gets",
    "Baron.Runtime.C40_message_iff"
   ],
   "note": "Exact: C40_status_and_headers and C40_any_headers (server), C40_client_gets and C40_message_iff (client). The naive claim that every error arrives with its message is false; the exceptions are part of the statement."
  },
  {
   "property": "C41",
   "status": "proved",
   "theorems": [
    "Baron.Parser.C41_nothing_after",
    "Baron.Parser.C41_no_block",
    "Baron.Parser.C41_lead_in",
    "Baron.Parser.C41_options_before_http",
    "Baron.Parser.C41_after_witness"
   ],
   "note": "Exact in both directions. The natural wish (further options never matter) is false: options after the http option are rejected (C41_nothing_after, C41_after_witness)."
  },
  {
   "property": "C42",
   "status": "proved",
   "theorems": [
    "Baron.Strs.C42_trim_prefix",
    "Baron.Strs.C42_map_entry",
    "Baron.Strs.C42_enum_value",
    "Baron.Strs.C42_trims",
    "Baron.Strs.C42_map_entry_words",
    "Baron.Strs.C42_enum_value_words"
   ],
   "note": ""
  },
  {
   "property": "C43",
   "status": "proved",
   "theorems": [
    "Baron.Runtime.C43_http_context_propagation",
    "Baron.Runtime.C43_grpc_context_propagation"
   ],
   "note": "HTTP and gRPC."
  },
  {
   "property": "C44",
   "status": "proved",
   "theorems": [
    "Baron.HTTPCode.C44_well_typed_iff",
    "Baron.HTTPCode.C44_ill_typed"
   ],
   "note": "Exact characterisation; C44_ill_typed gives concrete fields whose generated code does not compile."
  },
  {
   "property": "C45",
   "status": "proved",
   "theorems": [
    "Baron.Gen.C45_failure_leaves_service",
    "Baron.Gen.C45_when_failing"
   ],
   "note": ""
  },
  {
   "property": "C46",
   "status": "proved",
   "theorems": [
    "Baron.Gen.C46_interrupted",
    "Baron.Gen.C46_emptied_witness",
    "Baron.Gen.C46_complete"
   ],
   "note": "Exact (iff). Stronger safety (old or new text for every file) is false: os.Create truncates first (C46_emptied_witness)."
  },
  {
   "property": "C47",
   "status": "proved",
   "theorems": [
    "Baron.Gen.C47_second_run"
   ],
   "note": "For an idempotent formatter and a format-stable regeneration of service.go (C31)."
  },
  {
   "property": "C48",
   "status": "proved",
   "theorems": [
    "Baron.Start.C48_starter_parses",
    "Baron.Start.C48_package_service",
    "Baron.Start.C48_iff",
    "Baron.Start.C48_package_service_witness"
   ],
   "note": "Exact (C48_iff), from the text of the file: accepted iff the package name is not `service` (C48_package_service_witness)."
  },
  {
   "property": "C49",
   "status": "proved",
   "theorems": [
    "Baron.Scanner.C49_lexemes",
    "Baron.Scanner.C49_unique"
   ],
   "note": ""
  },
  {
   "property": "C50",
   "status": "proved",
   "theorems": [
    "Baron.Parser.C50_error_tokens",
    "Baron.Parser.C50_error_place"
   ],
   "note": ""
  },
  {
   "property": "C51",
   "status": "proved",
   "theorems": [
    "Baron.Transport.C51_first_declared_wins",
    "Baron.Transport.C51_apart",
    "Baron.Transport.C51_client",
    "Baron.Transport.C51_shadowed"
   ],
   "note": "Exact routing semantics (first declared wins, parameters, refusal), exact criterion for two templates to overlap, client-to-method theorem for bindings apart from earlier ones; C51_shadowed shows the condition is needed (GET /v1/{id} before GET /v1/status). mux modelled segment by segment."
  },
  {
   "property": "C52",
   "status": "proved",
   "theorems": [
    "Baron.Transport.C52_grpc_call",
    "Baron.Transport.C52_reached_iff",
    "Baron.Transport.C52_unreached"
   ],
   "note": "Both halves proved; C52_unreached: a package foo.v1 or an rpc get_it makes every client call fail."
  },
  {
   "property": "C53",
   "status": "proved",
   "theorems": [
    "Baron.Transport.C53_success",
    "Baron.Transport.C53_failure",
    "Baron.Transport.C53_server",
    "Baron.Transport.C53_subjects"
   ],
   "note": "Exact for success (C53_success) and failure (C53_failure). That failures are reported as success is a finding: the server marshals the response and drops the error."
  },
  {
   "property": "C54",
   "status": "proved",
   "theorems": [
    "Baron.Transport.C54_address",
    "Baron.Transport.C54_path_dropped"
   ],
   "note": "Exact (C54_address, C54_path_dropped). A host such as httpbin:8080 cannot be contacted without a scheme."
  },
  {
   "property": "C55",
   "status": "proved",
   "theorems": [
    "Baron.Server.C55_configuration"
   ],
   "note": "Exact configuration for every environment and flag sequence; flag.Parse's splitting of the command line is not modelled."
  },
  {
   "property": "C56",
   "status": "proved",
   "theorems": [
    "Baron.Server.C56_reports_first_failure",
    "Baron.Server.C56_keeps_running",
    "Baron.Server.C56_returns",
    "Baron.Server.C56_started",
    "Baron.Server.C56_no_address"
   ],
   "note": "Transition system of Run and its goroutines over every schedule; listeners, signals and NATS are arbitrary environment events; Go channels are FIFO (trusted)."
  },
  {
   "property": "C57",
   "status": "proved",
   "theorems": [
    "Baron.New.C57_new",
    "Baron.New.C57_twice",
    "Baron.New.C57_unknown_rpc",
    "Baron.New.C57_foreign_request",
    "Baron.New.C57_scanner_state",
    "Baron.New.Example.C57_earlier_file_witness"
   ],
   "note": "End to end from proto text (any layout) and Go syntax trees; go/parser is trusted; .proto strings in double quotes, block comments without inner stars."
  },
  {
   "property": "C58",
   "status": "proved",
   "theorems": [
    "Baron.New.C58_accepted"
   ],
   "note": "Totality of extraction for files of the stated shape."
  },
  {
   "property": "C59",
   "status": "proved",
   "theorems": [
    "Baron.Cli.C59_arguments",
    "Baron.Cli.C59_files",
    "Baron.Cli.C59_names",
    "Baron.Cli.C59_distinct"
   ],
   "note": ""
  },
  {
   "property": "C60",
   "status": "proved",
   "theorems": [
    "Baron.Cli.C60_directory"
   ],
   "note": ""
  },
  {
   "property": "C61",
   "status": "proved",
   "theorems": [
    "Baron.Cli.C61_success",
    "Baron.Cli.C61_failure",
    "Baron.Cli.C61_unknown_rpc",
    "Baron.Cli.C61_foreign_request"
   ],
   "note": ""
  },
  {
   "property": "C62",
   "status": "proved",
   "theorems": [
    "Baron.Cli.C62_run"
   ],
   "note": ""
  },
  {
   "property": "C63",
   "status": "proved",
   "theorems": [
    "Baron.Cli.C63_other_files",
    "Baron.Cli.C63_leftover_witness"
   ],
   "note": "C63_other_files; that such files do have an influence, and that it depends on map order, is C63_leftover_witness."
  },
  {
   "property": "C64",
   "status": "proved",
   "theorems": [
    "Baron.Idents.C64_declarations",
    "Baron.Idents.C64_service_name",
    "Baron.Idents.Example.C64_keyword_clash",
    "Baron.Idents.Example.C64_case_clash",
    "Baron.Idents.Example.C64_endpoint_clash",
    "Baron.Idents.Example.C64_http_clash"
   ],
   "note": ""
  },
  {
   "property": "C65",
   "status": "proved",
   "theorems": [
    "Baron.HTTPCode.C65_decode",
    "Baron.HTTPCode.C65_two_options",
    "Baron.HTTPCode.C65_round_trip",
    "Baron.HTTPCode.C65_compiles"
   ],
   "note": ""
  },
  {
   "property": "C66",
   "status": "proved",
   "theorems": [
    "Baron.Text.C66_first_service",
    "Baron.Text.C66_other_use",
    "Baron.Text.C66_comment_before_name"
   ],
   "note": "C66_first_service for every accepted file; C66_other_use and C66_comment_before_name are the rejections."
  },
  {
   "property": "C67",
   "status": "proved",
   "theorems": [
    "Baron.Parser.C67_accepts",
    "Baron.Parser.C67_unambiguous",
    "Baron.Parser.C67_rest"
   ],
   "note": "Iff, for every token stream and every result, against a separate derivation system (Spec/Accepts.lean); unambiguous; independent of what follows."
  },
  {
   "property": "C68",
   "status": "proved",
   "theorems": [
    "Baron.Strs.C68_low_camel_iff"
   ],
   "note": ""
  },
  {
   "property": "C69",
   "status": "proved",
   "theorems": [
    "Baron.Strs.C69_base_path",
    "Baron.Strs.C69_static"
   ],
   "note": ""
  },
  {
   "property": "C70",
   "status": "proved",
   "theorems": [
    "Baron.New.C70_only_unary",
    "Baron.New.C70_streaming_refused",
    "Baron.Cli.C70_command"
   ],
   "note": ""
  },
  {
   "property": "C71",
   "status": "proved",
   "theorems": [
    "Baron.Gen.C71_messages",
    "Baron.Gen.C71_true",
    "Baron.Gen.C71_transport_path",
    "Baron.Service.C71_modified_iff",
    "Baron.Service.C71_modified_differs",
    "Baron.Service.C71_same_iff",
    "Baron.Service.C71_same_witness"
   ],
   "note": ""
  },
  {
   "property": "C72",
   "status": "proved",
   "theorems": [
    "Baron.Sigs.C72_endpoints_iff",
    "Baron.Sigs.C72_grpcServer_iff",
    "Baron.Sigs.C72_service_iff",
    "Baron.Sigs.C72_never_unimplemented",
    "Baron.Sigs.C72_protoc"
   ],
   "note": ""
  },
  {
   "property": "C73",
   "status": "proved",
   "theorems": [
    "Baron.Locals.C73_service",
    "Baron.Locals.C73_client",
    "Baron.Locals.C73_server",
    "Baron.Locals.C73_no_binding_witness",
    "Baron.Locals.C73_case_witness",
    "Baron.Locals.C73_empty_witness"
   ],
   "note": ""
  },
  {
   "property": "C74",
   "status": "proved",
   "theorems": [
    "Baron.Locals.C74_decoder",
    "Baron.Locals.C74_without_oneofs",
    "Baron.Locals.DecoderExample.C74_repeated_path_witness",
    "Baron.Locals.DecoderExample.C74_rpc_named_str_witness",
    "Baron.Locals.DecoderExample.C74_hidden_type_witness",
    "Baron.Locals.DecoderExample.C74_oneof_count_witness"
   ],
   "note": ""
  },
  {
   "property": "C75",
   "status": "proved",
   "theorems": [
    "Baron.Locals.C75_transport",
    "Baron.Locals.TransportExample.C75_case_witness",
    "Baron.Locals.TransportExample.C75_no_rpc_witness"
   ],
   "note": ""
  },
  {
   "property": "C76",
   "status": "proved",
   "theorems": [
    "Baron.Wire.C76_client_query",
    "Baron.Wire.C76_server",
    "Baron.Wire.C76_instance_query_wins",
    "Baron.Wire.C76_path"
   ],
   "note": "the address of a set optional path field is any text; float texts are parameters of the model"
  },
  {
   "property": "C77",
   "status": "proved",
   "theorems": [
    "Baron.Main.C77_call",
    "Baron.Main.C77_names",
    "Baron.Main.C77_found",
    "Baron.Main.C77_colon_witness",
    "Baron.Main.C77_extension_witness"
   ],
   "note": ""
  },
  {
   "property": "C78",
   "status": "proved",
   "theorems": [
    "Baron.Main.C78_reading",
    "Baron.Main.C78_rejected",
    "Baron.Main.C78_info",
    "Baron.Main.C78_start",
    "Baron.Main.C78_run",
    "Baron.Main.C78_no_files",
    "Baron.Main.C78_verbosity",
    "Baron.Main.C78_no_gopath"
   ],
   "note": ""
  },
  {
   "property": "C79",
   "status": "proved",
   "theorems": [
    "Baron.HTTPCall.C79_serve",
    "Baron.HTTPCall.C79_call",
    "Baron.HTTPCall.C79_survives"
   ],
   "note": ""
  },
  {
   "property": "C80",
   "status": "proved",
   "theorems": [
    "Baron.EndToEnd.C80_served",
    "Baron.EndToEnd.C80_called"
   ],
   "note": ""
  },
  {
   "property": "C81",
   "status": "proved",
   "theorems": [
    "Baron.Concurrent.C81_serializable",
    "Baron.Concurrent.C81_wait_free",
    "Baron.Concurrent.C81_tickets"
   ],
   "note": ""
  },
  {
   "property": "C82",
   "status": "proved",
   "theorems": [
    "Baron.Race.C82_unchanged",
    "Baron.Race.C82_race_iff",
    "Baron.Race.C82_same_method",
    "Baron.Race.C82_get"
   ],
   "note": ""
  },
  {
   "property": "C83",
   "status": "proved",
   "theorems": [
    "Baron.New.C83_no_service",
    "Baron.New.C83_rpc_without_service",
    "Baron.New.C83_new_from_string",
    "Baron.Cli.C83_command"
   ],
   "note": ""
  },
  {
   "property": "C84",
   "status": "proved",
   "theorems": [
    "Baron.TT.C84_render",
    "Baron.TT.C84_methods",
    "Baron.TT.C84_run"
   ],
   "note": ""
  },
  {
   "property": "C85",
   "status": "proved",
   "theorems": [
    "Baron.TT.C85_fixed",
    "Baron.TT.C85_main",
    "Baron.TT.C85_endpoints",
    "Baron.TT.C85_wrapper",
    "Baron.TT.C85_service",
    "Baron.TT.C85_server",
    "Baron.TT.C85_client",
    "Baron.TT.C85_transport",
    "Baron.TT.C85_unknown_transport",
    "Baron.TT.C85_not_stale",
    "Baron.TT.C85_client_kept",
    "Baron.TT.C85_client_stale_witness",
    "Baron.TT.C85_matters_witness"
   ],
   "note": ""
  },
  {
   "property": "C86",
   "status": "proved",
   "theorems": [
    "Baron.TT.C86_routes",
    "Baron.TT.C86_clients",
    "Baron.TT.C86_encoders",
    "Baron.TT.C86_path_literal",
    "Baron.TT.C86_base_literal",
    "Baron.TT.C86_pattern_witness"
   ],
   "note": ""
  },
  {
   "property": "C87",
   "status": "proved",
   "theorems": [
    "Baron.TT.C87_endpoints",
    "Baron.TT.C87_grpc_server",
    "Baron.TT.C87_grpc_client",
    "Baron.TT.C87_nats_server",
    "Baron.TT.C87_nats_client",
    "Baron.TT.C87_subjects",
    "Baron.TT.C87_grpc_names"
   ],
   "note": ""
  },
  {
   "property": "C88",
   "status": "proved",
   "theorems": [
    "Baron.TT.C88_service",
    "Baron.TT.C88_added",
    "Baron.TT.C88_same_method",
    "Baron.TT.C88_server",
    "Baron.TT.C88_client"
   ],
   "note": ""
  },
  {
   "property": "C89",
   "status": "proved",
   "theorems": [
    "Baron.Decoders.C89_decoders"
   ],
   "note": ""
  },
  {
   "property": "C90",
   "status": "proved",
   "theorems": [
    "Baron.Decoders.C90_run"
   ],
   "note": ""
  },
  {
   "property": "C91",
   "status": "proved",
   "theorems": [
    "Baron.Encoders.C91_encoders"
   ],
   "note": ""
  },
  {
   "property": "C92",
   "status": "proved",
   "theorems": [
    "Baron.Encoders.C92_run",
    "Baron.Encoders.C92_client"
   ],
   "note": ""
  },
  {
   "property": "C93",
   "status": "proved",
   "theorems": [
    "Baron.Encoders.C93_round_trip"
   ],
   "note": ""
  },
  {
   "property": "C94",
   "status": "proved",
   "theorems": [
    "Baron.Assets.C94_asset",
    "Baron.Assets.C94_names",
    "Baron.Assets.C94_dir_when",
    "Baron.Assets.C94_dir",
    "Baron.Assets.C94_disjoint",
    "Baron.Assets.C94_present"
   ],
   "note": ""
  },
  {
   "property": "C95",
   "status": "proved",
   "theorems": [
    "Baron.GoMain.C95_server"
   ],
   "note": ""
  },
  {
   "property": "C96",
   "status": "proved",
   "theorems": [
    "Baron.GoWrap.C96_wrap_all",
    "Baron.GoWrap.C96_wrap_all_labeled"
   ],
   "note": ""
  },
  {
   "property": "C97",
   "status": "proved",
   "theorems": [
    "Baron.GoServer.C97_run"
   ],
   "note": ""
  },
  {
   "property": "C98",
   "status": "proved",
   "theorems": [
    "Baron.GoCalls.C98_client"
   ],
   "note": ""
  },
  {
   "property": "C99",
   "status": "proved",
   "theorems": [
    "Baron.GoFunc.C99_text",
    "Baron.GoFunc.C99_endpoints",
    "Baron.GoFunc.C99_grpc",
    "Baron.GoFunc.C99_grpc_name",
    "Baron.GoFunc.C99_fresh"
   ],
   "note": ""
  },
  {
   "property": "C100",
   "status": "proved",
   "theorems": [
    "Baron.GoFunc.C100_text",
    "Baron.GoFunc.C100_serve",
    "Baron.GoFunc.C100_call",
    "Baron.GoFunc.C100_served"
   ],
   "note": ""
  },
  {
   "property": "C101",
   "status": "proved",
   "theorems": [
    "Baron.GoHTTP.C101_text",
    "Baron.GoHTTP.C101_error_encoder",
    "Baron.GoHTTP.C101_error_decoder",
    "Baron.GoHTTP.C101_http_error",
    "Baron.GoHTTP.C101_response_encoder",
    "Baron.GoHTTP.C101_decode_response",
    "Baron.GoHTTP.C101_roundtrip",
    "Baron.GoHTTP.C101_headers",
    "Baron.GoHTTP.C101_send",
    "Baron.GoHTTP.C101_http_propagation",
    "Baron.GoHTTP.C101_copy_url",
    "Baron.GoHTTP.C101_grpc_context",
    "Baron.GoHTTP.C101_grpc_send",
    "Baron.GoHTTP.C101_grpc_propagation"
   ],
   "note": ""
  },
  {
   "property": "C102",
   "status": "proved",
   "theorems": [
    "Baron.GoRoutes.C102_text",
    "Baron.GoRoutes.C102_served",
    "Baron.GoRoutes.C102_client",
    "Baron.GoRoutes.C102_client_call"
   ],
   "note": ""
  },
  {
   "property": "C103",
   "status": "proved",
   "theorems": [
    "Baron.GoDecode.C103_text",
    "Baron.GoDecode.C103_decoder",
    "Baron.GoDecode.C103_served"
   ],
   "note": ""
  },
  {
   "property": "C104",
   "status": "proved",
   "theorems": [
    "Baron.GoExchange.C104_call",
    "Baron.GoExchange.C104_refused"
   ],
   "note": ""
  },
  {
   "property": "C105",
   "status": "proved",
   "theorems": [
    "Baron.Assets.C105_one",
    "Baron.Assets.C105_directory",
    "Baron.Assets.C105_file",
    "Baron.Assets.C105_tree"
   ],
   "note": ""
  },
  {
   "property": "C106",
   "status": "proved",
   "theorems": [
    "Baron.GoExchange.C106_call",
    "Baron.GoExchange.C106_calls"
   ],
   "note": ""
  }
 ]
}