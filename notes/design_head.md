# Formal model of pact-reference (Lean 4): design

Source modelled: `/repo` (rust workspace of pact-foundation/pact-reference at the pinned
commit).  All line numbers in Lean comments refer to that checkout.  The Lean project is
`/verif/lean` (library `Verif`).  This file is generated by `notes/gen_design.py` from
`notes/design_head.md`, `notes/design_methods.py`, `notes/design_tail.md` and the manifest.

## 1. Trusted base

* Lean 4.33.0 kernel.  Theorems depend at most on `propext`, `Classical.choice`,
  `Quot.sound` (checked by `vcheck` / `#print axioms`); no axiom is added, no compiled-code
  decision procedures are used.
* The hand translation Rust -> Lean.  Every definition carries a comment with file and lines,
  and says where it simplifies.
* External behaviour is a *parameter* of the model, never an axiom:
  - Unicode tables (`char::is_alphabetic`, `is_numeric`, `str::to_lowercase`): record `UC`
    whose fields carry only the ASCII laws that are used (an instance is constructed, so the
    laws are satisfiable);
  - regex engine, semver parser, date/time validation, content-type sniffing, plugins, XML in the
    general matching theorems, splitting a multipart body into parts: fields of an environment record (arbitrary functions), so a theorem holds
    whatever they answer;
  - floating point arithmetic (`F64`, `Params`), the random number generator (`Rng`, with the
    range laws of the crate `rand`), provider and state handlers (`World`), detection of content
    types, JSON text parsing.
* Conventions: a Rust `String` is `List Char` (`Str`); `Result` is data; a panic is an explicit
  outcome (`Res.panic`); `usize`/`u64` are `Nat` with explicit `2^64` bound wherever overflow is
  observable; hash maps are association lists in an *arbitrary* order (theorems quantify over
  every order); `BTreeMap` iteration order is modelled where it is observable.
* Not modelled: HTTP transport, tokio scheduling, plugin gRPC drivers, logging, FFI pointer marshalling, metrics, CLI argument parsing.

## 2. Modules

| Lean module (model) | Rust source |
|---|---|
| `Verif.Base` | string/number helpers (`usize::from_str`, integer `Display`), `Res` |
| `Verif.Maps` | ordered maps (`BTreeMap`, `serde_json::Map`) |
| `Verif.Path`, `Verif.PathLemmas` | `pact_models/src/path_exp.rs` |
| `Verif.Rules` | `pact_models/src/matchingrules/mod.rs` (rules, categories, selection) |
| `Verif.Json` | `serde_json::Value`, its text form |
| `Verif.JsonUtils` | `pact_models/src/json_utils.rs`, `generators/mod.rs` (`JsonHandler`) |
| `Verif.Matchers` | `pact_matching/src/matchers.rs`, value matching of `json.rs` |
| `Verif.Compare`, `Verif.CompareLemmas` | `pact_matching/src/json.rs`, `matchingrules.rs`, `lib.rs` (context) |
| `Verif.QueryHeaders` | `pact_matching/src/query.rs`, `headers.rs` |
| `Verif.QueryStrings` | `pact_models/src/query_strings.rs`, `headers.rs`, `http_parts.rs` (JSON forms) |
| `Verif.MatchResult` | `pact_matching/src/lib.rs` (results, body table, status, method, messages), `content_types.rs` |
| `Verif.Merge` | `sync_pact.rs`, `message_pact.rs`, `v4/pact.rs`, `iterator_utils.rs`, itertools `merge_join_by` |
| `Verif.WritePact` | `pact.rs` (`write_pact`), `file_utils.rs`, as a transition system |
| `Verif.Expr` | `expression_parser.rs` |
| `Verif.RuleJson` | JSON form of rules and generators (`matchingrules/mod.rs`, `generators/mod.rs`, `lib.rs` HttpStatus) |
| `Verif.Generate` | `generators/mod.rs` (tables of generators, random values) |
| `Verif.Patterns` | consumer patterns (`pact_consumer/src/patterns/*`, `builders/http_part_builder.rs` json_body) |
| `Verif.Base64` | base64 codec of the standard alphabet, as used by `bodies.rs` and `v4/http_parts.rs` |
| `Verif.PactFile` | V4 pact files: `bodies.rs`, `provider_states.rs`, `v4/*.rs`, `plugins.rs`, V2 rules of `matchingrules/mod.rs` |
| `Verif.PactFileV3` | V1-V3 pact files and conversions: `sync_pact.rs`, `sync_interaction.rs`, `message_pact.rs`, `message.rs`, `request.rs`, `response.rs`, `http_parts.rs`, `pact.rs`, `query_strings.rs` (dispatch), conversions of `v4/pact.rs`, `v4/*.rs` |
| `Verif.DefExpr` | `matchingrules/expressions.rs` (lexer, parser, merge of definition expressions) |
| `Verif.Integration` | `pact_ffi/src/mock_server/bodies.rs` (process_json and matchers_from_integration_json), `mod.rs` (generator_category) |
| `Verif.Time` | `pact_models/src/time_utils.rs` (all), `pact_models/src/generators/mod.rs` (Date, Time, DateTime without expression); chrono formatting from its documentation |
| `Verif.DateExpr` | `pact_models/src/generators/{date_expression_parser,time_expression_parser,datetime_expressions}.rs` (all), `generators/mod.rs` (Date, Time, DateTime with expression); chrono's calendar |
| `Verif.Form` | `pact_models/src/generators/form_urlencoded.rs`, `pact_ffi/src/mock_server/form_urlencoded.rs` (all), `pact_matching/src/generators/bodies.rs` (forms); `serde_urlencoded` from its documentation |
| `Verif.Engine` | `pact_matching/src/engine/interpreter.rs`, `engine/mod.rs` (values, nodes, resolving); messages, annotations and the texts of values other than JSON are not modelled |
| `Verif.EnginePlan` | `pact_matching/src/engine/mod.rs` (build_request_plan and below), `engine/bodies.rs` (JSON, text), `engine/value_resolvers.rs` (requests), `lib.rs` (result of a plan) |
| `Verif.Multipart` | `pact_matching/src/binary_utils.rs` (multipart bodies; splitting a body into parts is a parameter) |
| `Verif.Detect` | `pact_models/src/content_types.rs` (detection), `pact_matching/src/binary_utils.rs` (match_content_type); the regular expressions by hand |
| `Verif.XmlBuild` | `pact_ffi/src/mock_server/xml.rs`, `handles.rs` (process_xml); trees instead of the DOM, whether text nodes are moved is a parameter |
| `Verif.BodyBuild` | `pact_ffi/src/mock_server/handles.rs` (pactffi_with_body, process_body), `bodies.rs` (process_json), `form_urlencoded.rs`; without the handles, parsing JSON and content types and writing XML are parameters |
| `Verif.Broker` | `pact_verifier/src/pact_broker.rs`, `utils.rs` (with_retries), `lib.rs` (fetch_pact, publish_to_broker); the broker is the environment, the URL library and loading pacts are parameters; without headers, authentication and waiting |
| `Verif.Provider` | `pact_verifier/src/provider_client.rs`, `messages.rs`, `callback_executors.rs` (HttpRequestProviderStateExecutor), `lib.rs` (transports, custom headers, verify_response_from_provider, verify_v3_interaction), `utils.rs`; the provider and the handler are the environment, the HTTP library a parameter |
| `Verif.ApplyGen` | `pact_matching/src/lib.rs` (generate_request, generate_response), `generators/mod.rs`, `generators/bodies.rs`, `pact_models/src/generators/mod.rs` (applying generators, values as text, JSON and status), `http_parts.rs` (build_generators), `expression_parser.rs` (data types); dates, regular expressions and random numbers are parameters, without plugins and logging |
| `Verif.Parts` | `pact_ffi/src/mock_server/handles.rs` (with_request, response_status_v2, with_query_parameter_v2, with_header_v2, set_header, from_integration_json_v2), `pact_models/src/v4/http_parts.rs` (set_header) |
| `Verif.InteractionOps` | `pact_ffi/src/mock_server/handles.rs` (upon_receiving, given, given_with_param(s), interaction_test_name, set_key, set_pending, set_comment, add_text_comment, with_pact_metadata, with_metadata, with_binary_body, with_binary_file, with_matching_rules, with_generators), `pact_models/src/generators/mod.rs` (add_generators); pointers are missing, invalid or texts |
| `Verif.Builders` | `pact_consumer/src/builders/` (request_builder.rs, response_builder.rs, http_part_builder.rs, interaction_builder.rs), `pact_consumer/src/patterns/string_pattern.rs`, `pact_consumer/src/util.rs` (strip_null_fields); without plugins |
| `Verif.PactBuilder` | `pact_consumer/src/builders/pact_builder.rs`, `pact_builder_async.rs`, `message_iter.rs`; `add_interaction` and `add_md_version` of the pacts; whether the task that applies generators finishes is a parameter; without plugins, mock server and metrics |
| `Verif.MatchInteraction` | `pact_matching/src/lib.rs`: `match_interaction`, `match_interaction_request`, `match_interaction_response`, `match_message` for interactions of any type; without plugins |
| `Verif.MessageBuilders` | `pact_consumer/src/builders/message_builder.rs`, `sync_message_builder.rs`; without plugins |
| `Verif.Xml` | `pact_matching/src/xml.rs` |
| `Verif.Handles` | `pact_ffi/src/mock_server/handles.rs` |
| `Verif.Verifier` | `pact_verifier/src/lib.rs`, `pact_ffi/src/verifier/handle.rs` |
@@MODULES@@
| `Verif.Props.*` | specifications and property theorems, one file per area |
| `Verif.Report` | `pact_matching/src/lib.rs` 776-1190 (`Mismatch`, `CommonMismatch`), `pact_verifier/src/verification_result.rs` (JSON), `pact_verifier_cli/src/reports.rs` (JSON), `pact_verifier/src/lib.rs` 1164-1210 (output of failures) |

Models, helper lemmas and property theorems live in separate files; specifications used in
property statements are small definitions in the `Props` files, independent of the model's helpers.

## 3. Per property: what is modelled and how it is proved

A property which is false of the code is proved false by a concrete witness theorem (`_fails` or a
descriptive name), and the strongest true version is kept with suffix `_partial`.

