# Formal model of pact-reference (Lean 4): design

Source modelled: `/repo` (rust workspace of pact-foundation/pact-reference at the pinned
commit).  All line numbers in Lean comments refer to that checkout.  The Lean project is
`/verif/lean` (library `Verif`).  This file is generated by `notes/gen_design.py` from
`notes/design_head.md`, `notes/design_methods.py`, `notes/design_tail.md` and the manifest.

## 1. Trusted base

* Lean 4.33.0 kernel.  Theorems depend at most on `propext`, `Classical.choice`,
  `Quot.sound` (checked by `vcheck` / `#print axioms`); no axiom is added, no compiled-code
  decision procedures are used.
* The hand translation Rust -> Lean.  Every definition carries a comment with file and lines,
  and says where it simplifies.
* External behaviour is a *parameter* of the model, never an axiom:
  - Unicode tables (`char::is_alphabetic`, `is_numeric`, `str::to_lowercase`): record `UC`
    whose fields carry only the ASCII laws that are used (an instance is constructed, so the
    laws are satisfiable);
  - regex engine, semver parser, date/time validation, content-type sniffing, plugins, XML in the
    general matching theorems, splitting a multipart body into parts: fields of an environment record (arbitrary functions), so a theorem holds
    whatever they answer;
  - floating point arithmetic (`F64`, `Params`), the random number generator (`Rng`, with the
    range laws of the crate `rand`), provider and state handlers (`World`), detection of content
    types, JSON text parsing.
* Conventions: a Rust `String` is `List Char` (`Str`); `Result` is data; a panic is an explicit
  outcome (`Res.panic`); `usize`/`u64` are `Nat` with explicit `2^64` bound wherever overflow is
  observable; hash maps are association lists in an *arbitrary* order (theorems quantify over
  every order); `BTreeMap` iteration order is modelled where it is observable.
* Not modelled: HTTP transport, tokio scheduling, plugin gRPC drivers, logging, FFI pointer marshalling, metrics, CLI argument parsing.

## 2. Modules

| Lean module (model) | Rust source |
|---|---|
| `Verif.Base` | string/number helpers (`usize::from_str`, integer `Display`), `Res` |
| `Verif.Maps` | ordered maps (`BTreeMap`, `serde_json::Map`) |
| `Verif.Path`, `Verif.PathLemmas` | `pact_models/src/path_exp.rs` |
| `Verif.Rules` | `pact_models/src/matchingrules/mod.rs` (rules, categories, selection) |
| `Verif.Json` | `serde_json::Value`, its text form |
| `Verif.JsonUtils` | `pact_models/src/json_utils.rs`, `generators/mod.rs` (`JsonHandler`) |
| `Verif.Matchers` | `pact_matching/src/matchers.rs`, value matching of `json.rs` |
| `Verif.Compare`, `Verif.CompareLemmas` | `pact_matching/src/json.rs`, `matchingrules.rs`, `lib.rs` (context) |
| `Verif.QueryHeaders` | `pact_matching/src/query.rs`, `headers.rs` |
| `Verif.QueryStrings` | `pact_models/src/query_strings.rs`, `headers.rs`, `http_parts.rs` (JSON forms) |
| `Verif.MatchResult` | `pact_matching/src/lib.rs` (results, body table, status, method, messages), `content_types.rs` |
| `Verif.Merge` | `sync_pact.rs`, `message_pact.rs`, `v4/pact.rs`, `iterator_utils.rs`, itertools `merge_join_by` |
| `Verif.WritePact` | `pact.rs` (`write_pact`), `file_utils.rs`, as a transition system |
| `Verif.Expr` | `expression_parser.rs` |
| `Verif.RuleJson` | JSON form of rules and generators (`matchingrules/mod.rs`, `generators/mod.rs`, `lib.rs` HttpStatus) |
| `Verif.Generate` | `generators/mod.rs` (tables of generators, random values) |
| `Verif.Patterns` | consumer patterns (`pact_consumer/src/patterns/*`, `builders/http_part_builder.rs` json_body) |
| `Verif.Base64` | base64 codec of the standard alphabet, as used by `bodies.rs` and `v4/http_parts.rs` |
| `Verif.PactFile` | V4 pact files: `bodies.rs`, `provider_states.rs`, `v4/*.rs`, `plugins.rs`, V2 rules of `matchingrules/mod.rs` |
| `Verif.PactFileV3` | V1-V3 pact files and conversions: `sync_pact.rs`, `sync_interaction.rs`, `message_pact.rs`, `message.rs`, `request.rs`, `response.rs`, `http_parts.rs`, `pact.rs`, `query_strings.rs` (dispatch), conversions of `v4/pact.rs`, `v4/*.rs` |
| `Verif.DefExpr` | `matchingrules/expressions.rs` (lexer, parser, merge of definition expressions) |
| `Verif.Integration` | `pact_ffi/src/mock_server/bodies.rs` (process_json and matchers_from_integration_json), `mod.rs` (generator_category) |
| `Verif.Time` | `pact_models/src/time_utils.rs` (all), `pact_models/src/generators/mod.rs` (Date, Time, DateTime without expression); chrono formatting from its documentation |
| `Verif.DateExpr` | `pact_models/src/generators/{date_expression_parser,time_expression_parser,datetime_expressions}.rs` (all), `generators/mod.rs` (Date, Time, DateTime with expression); chrono's calendar |
| `Verif.Form` | `pact_models/src/generators/form_urlencoded.rs`, `pact_ffi/src/mock_server/form_urlencoded.rs` (all), `pact_matching/src/generators/bodies.rs` (forms); `serde_urlencoded` from its documentation |
| `Verif.Engine` | `pact_matching/src/engine/interpreter.rs`, `engine/mod.rs` (values, nodes, resolving); messages, annotations and the texts of values other than JSON are not modelled |
| `Verif.EnginePlan` | `pact_matching/src/engine/mod.rs` (build_request_plan and below), `engine/bodies.rs` (JSON, text), `engine/value_resolvers.rs` (requests), `lib.rs` (result of a plan) |
| `Verif.Multipart` | `pact_matching/src/binary_utils.rs` (multipart bodies; splitting a body into parts is a parameter) |
| `Verif.Detect` | `pact_models/src/content_types.rs` (detection), `pact_matching/src/binary_utils.rs` (match_content_type); the regular expressions by hand |
| `Verif.XmlBuild` | `pact_ffi/src/mock_server/xml.rs`, `handles.rs` (process_xml); trees instead of the DOM, whether text nodes are moved is a parameter |
| `Verif.BodyBuild` | `pact_ffi/src/mock_server/handles.rs` (pactffi_with_body, process_body), `bodies.rs` (process_json), `form_urlencoded.rs`; without the handles, parsing JSON and content types and writing XML are parameters |
| `Verif.Broker` | `pact_verifier/src/pact_broker.rs`, `utils.rs` (with_retries), `lib.rs` (fetch_pact, publish_to_broker); the broker is the environment, the URL library and loading pacts are parameters; without headers, authentication and waiting |
| `Verif.Provider` | `pact_verifier/src/provider_client.rs`, `messages.rs`, `callback_executors.rs` (HttpRequestProviderStateExecutor), `lib.rs` (transports, custom headers, verify_response_from_provider, verify_v3_interaction), `utils.rs`; the provider and the handler are the environment, the HTTP library a parameter |
| `Verif.ApplyGen` | `pact_matching/src/lib.rs` (generate_request, generate_response), `generators/mod.rs`, `generators/bodies.rs`, `pact_models/src/generators/mod.rs` (applying generators, values as text, JSON and status), `http_parts.rs` (build_generators), `expression_parser.rs` (data types); dates, regular expressions and random numbers are parameters, without plugins and logging |
| `Verif.Parts` | `pact_ffi/src/mock_server/handles.rs` (with_request, response_status_v2, with_query_parameter_v2, with_header_v2, set_header, from_integration_json_v2), `pact_models/src/v4/http_parts.rs` (set_header) |
| `Verif.InteractionOps` | `pact_ffi/src/mock_server/handles.rs` (upon_receiving, given, given_with_param(s), interaction_test_name, set_key, set_pending, set_comment, add_text_comment, with_pact_metadata, with_metadata, with_binary_body, with_binary_file, with_matching_rules, with_generators), `pact_models/src/generators/mod.rs` (add_generators); pointers are missing, invalid or texts |
| `Verif.Builders` | `pact_consumer/src/builders/` (request_builder.rs, response_builder.rs, http_part_builder.rs, interaction_builder.rs), `pact_consumer/src/patterns/string_pattern.rs`, `pact_consumer/src/util.rs` (strip_null_fields); without plugins |
| `Verif.PactBuilder` | `pact_consumer/src/builders/pact_builder.rs`, `pact_builder_async.rs`, `message_iter.rs`; `add_interaction` and `add_md_version` of the pacts; whether the task that applies generators finishes is a parameter; without plugins, mock server and metrics |
| `Verif.MatchInteraction` | `pact_matching/src/lib.rs`: `match_interaction`, `match_interaction_request`, `match_interaction_response`, `match_message` for interactions of any type; without plugins |
| `Verif.MessageBuilders` | `pact_consumer/src/builders/message_builder.rs`, `sync_message_builder.rs`; without plugins |
| `Verif.Xml` | `pact_matching/src/xml.rs` |
| `Verif.Handles` | `pact_ffi/src/mock_server/handles.rs` |
| `Verif.Verifier` | `pact_verifier/src/lib.rs`, `pact_ffi/src/verifier/handle.rs` |
| `Verif.Props.*` | specifications and property theorems, one file per area |
| `Verif.Report` | `pact_matching/src/lib.rs` 776-1190 (`Mismatch`, `CommonMismatch`), `pact_verifier/src/verification_result.rs` (JSON), `pact_verifier_cli/src/reports.rs` (JSON), `pact_verifier/src/lib.rs` 1164-1210 (output of failures) |

Models, helper lemmas and property theorems live in separate files; specifications used in
property statements are small definitions in the `Props` files, independent of the model's helpers.

## 3. Per property: what is modelled and how it is proved

A property which is false of the code is proved false by a concrete witness theorem (`_fails` or a
descriptive name), and the strongest true version is kept with suffix `_partial`.

| property | modelled / method | status | remarks |
|---|---|---|---|
| **C01** Path expression print/parse round-trip | tokens, printer (`build_expr`) and the character-level parser; induction over the token list with a lemma per token kind; exact characterisation of the keys that survive (`PathProps`) | partial | full claim false of the code (quotes, backslashes, empty keys): refuted; exact iff characterisation and the true part proved |
| **C02** Parsing a path expression never panics | parser with explicit panic outcome for `parse().unwrap()`; exact condition for panic (`PathProps`) | partial | false of the code (index overflow, non-ASCII numerals); exact panic condition proved |
| **C03** Distinct paths have distinct expression strings | printer on token lists; the escaped printer has a left inverse (a spec parser with unescape) (`PathProps`) | proved | for programmatically built paths; aliasing of parsed paths shown |
| **C04** Path matching is token-wise prefix matching | weight product modulo 2^64, proved equal to the token-wise spec below the overflow bound (`PathProps`) | partial | false with 64 or more non-wildcard segments (usize overflow); exact iff proved |
| **C05** The selected matching rule is a maximal-weight rule and is independent of table order | rule tables as lists in arbitrary order; `max_by_path` is a last-maximum fold; induction on the fold, permutation invariance when the maximum is unique (`RuleProps`) | partial | maximality and order independence proved for paths of at most 58 segments (64-bit weight); ties shown order dependent |
| **C06** An exact rule beats every wildcard rule | arithmetic on weights of exact and wildcard paths (`RuleProps`) | partial | false for paths whose weight overflows 64 bits: refuted; proved below the bound |
| **C07** Inherited (cascaded) rules are flagged as such | case analysis of the selected rule and its length (`RuleProps`) | proved |  |
| **C08** Path algebra and JSON pointer conversion | algebra on tokens/expressions; pointer unescape left-inverse (`PathProps`) | partial | join law false for non-canonical numerals (007, +7); rest proved in full |
| **C09** 'Is a matcher defined' agrees with the rule actually selected | selection vs. existence over arbitrary tables (`RuleProps`) | partial | an explicitly empty rule list counts as defined: refuted; rest proved |
| **C10** AND/OR combination of rules | `match_values` over an arbitrary list (`MatcherProps`) | proved |  |
| **C11** Type matching is an equivalence on JSON kinds | case analysis on JSON kinds (`MatcherProps`) | proved |  |
| **C12** min/max type matchers bound the collection size | case analysis, linear arithmetic (`MatcherProps`) | proved | single rule level; the comparator skips the check when the expected list is empty (see C15 group) |
| **C13** Status-code classes partition the codes | `u16` domain by arithmetic (not enumeration) (`MatcherProps`) | proved | for 16 bit status codes; truncation of larger numbers and vacuity in JSON bodies shown |
| **C14** Integer, decimal and number matchers | case analysis on values; integer texts by induction on digits (`MatcherProps`) | partial | negative integer strings are rejected by the code: refuted; exact set proved |
| **C15** Rule-free JSON comparison decides equality / containment | the recursive comparator as a total function (termination on the sum of sizes), mutual induction over JSON (`CompareProps`) | proved | for all well-formed JSON values (keys sorted, as in a BTreeMap) |
| **C16** Reflexivity: the example always satisfies its own contract | mutual induction over JSON (`CompareProps`) | proved |  |
| **C17** Leniency is monotone | mutual induction, simulation between the two configurations (`CompareProps`) | proved | for every rule table |
| **C18** arrayContains means each variant occurs | list comparator with the array-contains rule, parametric in the callback (`CompareProps`) | partial | proved for non-empty expected lists; false for an empty expected list (everything accepted): refuted |
| **C19** A failed comparison always reports at least one mismatch | induction: every error list is non-empty (`CompareProps`) | proved |  |
| **C20** Mismatches point inside the compared value | induction: every reported path extends the path of the comparison (`CompareProps`) | proved |  |
| **C21** eachKey constrains every key of the actual map | map comparator with each-key rules, parametric in the callback (`CompareProps`) | proved |  |
| **C22** values/eachValue ignore keys | map comparator with values/each-value rules (`CompareProps, MessageProps`) | partial | false for an empty expected object in strict mode: refuted; proved otherwise |
| **C23** Query parameter matching without rules is equality | query map comparator, both directions (`QueryProps`) | proved | a valueless parameter is the same as an empty value |
| **C24** Header matching is insensitive to header-name case | header comparator; case folding as parameter; permutation invariance (`HeaderProps`) | partial | order dependence shown for actual names differing only in case; extra blank actual values are accepted |
| **C25** Verdict agrees with the reported mismatches | result records of all three kinds, case analysis over all fields (`MessageProps, ResultProps`) | proved | for every result of comparing requests, bodies and messages; a hand-built record with an empty path error list is an exception |
| **C26** The ranking score does not overflow | score as i8 arithmetic (overflow witness + bound) (`ResultProps`) | partial | false: i8 overflow for 126 or more matching query parameters; proved below the bound |
| **C27** Body comparison decision table | decision table of `compare_bodies`, case analysis (`ResultProps`) | partial | false for an empty expected body with a different content type (any body accepted): refuted; rest proved |
| **C28** Methods compare case-insensitively | case folding as parameter (`ResultProps`) | proved |  |
| **C29** Query string round-trip | encoder/decoder at byte level; round trip on the exact subset; witnesses outside (`QueryStringProps`) | partial | V3/V4 files: proved for all maps; V2 query strings: refuted (unencoded names, non-ASCII, panics), proved under the exact value condition |
| **C30** Header JSON round-trip | header values to JSON and back; exact condition per header (`QueryStringProps`) | partial | V4 files: proved for all maps; V1-V3 files: exact condition per header, refuted outside it |
| **C31** Merging pacts keeps every interaction, or reports a conflict | merge-join as in itertools, induction over both lists; sorted inputs: exactly once; witnesses outside (`MergeProps`) | partial | every interaction of both inputs is represented (all lists); exactly once proved for sorted lists without ambiguous states, refuted outside; merge with itself proved |
| **C32** Writing a pact file never loses recorded interactions | transition system of writers with the in-process mutex and file locks; arbitrary interleavings; inductive invariant; crash and multi-process witnesses (`WritePactProps`) | partial | all interleavings of any number of writers of one process proved; writers in several processes lose updates and a crash can leave a truncated file: refuted |
| **C33** The conflict check looks at every pair | the iterator's state machine; induction over its positions (`MergeProps`) | proved | polling again after the end panics |
| **C34** Matching rules survive a write/read cycle | JSON printer/parser of rules; mutual induction over nested rules and rule tables (`RuleJsonProps`) | partial | every rule of any nesting is read back up to what is not written (empty lists, value type and expression of each-key/each-value definitions), and every table of rules with well-formed keys; refuted: lost information, keys of header/query/path rules, headers called matchers, panic on references |
| **C35** Adding rules only adds | table operations over arbitrary tables (`RuleProps`) | partial | rules are appended; the AND/OR logic of the added list is lost |
| **C36** Rule equality distinguishes rules with different behaviour | equality as implemented vs. behaviour of the matchers (`MatcherProps, MatcherTableProps`) | partial | false for status-code rules: refuted; proved for all others |
| **C37** Generators only touch what they address | JSON update at resolved pointers; induction over path tokens and documents (`BodyGeneratorProps`) | partial | false for keys that contain '/' or '~' or are empty (pointers are not escaped): refuted; proved for all other documents |
| **C38** Provider-state expression substitution | expression scanner with explicit panic outcome; induction on the text (`ExprProps`) | partial | false: a closing brace before an expression panics; every other string proved, with the exact panic condition |
| **C39** Verification result classification | verification loop as a fold over outcomes of an arbitrary environment (`VerifierProps`) | partial | verdict, order of calls and results proved for every environment; teardown after a failed setup: refuted |
| **C40** FFI handles address what they were created for | bit-level packing on `Nat` < 2^32 and histories of calls (induction over the history) (`HandleProps`) | partial | packing proved for all values; every history with at most 65535 interactions per pact proved; beyond that handles repeat or cross into another pact: refuted; a handle of a failed creation panics |
| **C41** JSON deep merge | mutual induction over JSON (`JsonUtilsProps`) | partial | keys, overriding, concatenation proved; associativity refuted, and proved when no value of the middle document masks a container |
| **C42** Numbers read from JSON keep their value | integer arithmetic modulo 2^16 / 2^32 (`JsonUtilsProps`) | partial | false: 16 and 32 bit attributes are truncated; exact condition proved |
| **C43** Interaction filters | filters as Boolean functions, regular expressions a parameter (`VerifierProps`) | proved | regular expressions are a parameter; an invalid pattern panics |
| **C44** Type rules are inherited by everything below ('like'), size rules are not | comparator with inherited rules, induction over documents (`CompareProps`) | partial | proved for non-empty example lists; with an empty example list the size bound is not enforced: refuted |
| **C45** A text rule on a query parameter or header applies to every value | query/header comparators with rules (`FormProps, HeaderProps, QueryProps`) | partial | tables with any number of rules for queries in C45_query_table; an empty example list accepts anything: refuted; rest proved |
| **C46** Content-Type / Accept headers are compared by main value and expected parameters | parameterised header comparison as finite maps (`HeaderProps`) | proved |  |
| **C47** A request without rules is accepted iff it is the expected one | composition of C15, C23, C24, C27, C28 for whole requests (`EndToEndProps`) | proved | XML bodies excluded; multipart bodies are in C112 |
| **C48** A response without rules is accepted iff status, headers and body agree | the same for responses (`EndToEndProps`) | proved | XML bodies excluded; multipart bodies are in C112 |
| **C49** Synchronous messages are compared response by response | loop over expected responses (`EndToEndProps`) | partial | false when no response is expected: refuted |
| **C50** Content type equivalence | content types as records (`ResultProps`) | partial | false for suffixes: refuted; exact characterisation proved |
| **C51** Form bodies are compared parameter by parameter | form bodies through the query parser and comparator (`EndToEndProps`) | proved |  |
| **C52** The language of path expressions | generated language of the parser: every accepted text is an instance of the grammar and vice versa (`PathGrammarProps`) | proved |  |
| **C53** Path navigation | path navigation functions on token lists (`PathGrammarProps`) | proved |  |
| **C54** The demand of each matching rule | table: one theorem per rule and value kind (`MatcherTableProps`) | proved | regular expressions, dates, versions and content type detection are parameters; type, size and number rules on JSON are C11, C12, C14 |
| **C55** Merging matching rules keeps the rules of both | merge of rule tables (`MatcherTableProps`) | proved | the AND/OR logic of the first set wins (see C35) |
| **C56** Messages without rules | composition for messages (`MessageProps`) | proved | XML and multipart bodies excluded (not modelled) |
| **C57** Rules act only on their own part | non-interference: replacing the table of one category (`MessageProps`) | proved | the rules of the category for contents of messages are not used (proved) |
| **C58** Path and status rules | path/status matchers with arbitrary rule lists (`MessageProps`) | proved |  |
| **C59** Text and binary bodies with rules | text/binary bodies with arbitrary rule lists (`MessageProps`) | proved | byte level rule matching is a parameter |
| **C60** Which content type decides | content type look-up (`MessageProps`) | proved |  |
| **C61** Provider state values take the requested data type | conversion table; integer texts by induction on digits (`ExprProps`) | partial | floating point arithmetic is a parameter; a text with a negative integer is rejected: refuted |
| **C62** Modification functions of the C interface report whether they modified | state before and after each call, for every table of handles (`HandleProps`) | partial | false: a call that returns false because the server was started has modified the interaction |
| **C63** Verification notices match the outcome | stages of notices in the run of the verifier (`VerifierProps`) | partial | false without publishing (a fully successful run shows the failure notices) and after an earlier failed pact: refuted; proved for a single pact with publishing |
| **C64** Context of a verification request | context as ordered fold of map inserts; characterised by look-ups (`VerifierProps`) | proved |  |
| **C65** Published verification result | results sent to the broker, induction over the pacts (`VerifierProps`) | proved | includes: a success is published for a pact of which the filter selects nothing |
| **C66** Rules handed to the matching engine keep their meaning | `name`/`values`/`create` on all rules (`RuleJsonProps`) | partial | false for min-max-type (always an error) and array-contains (variants lost) rules; all other rules proved |
| **C67** Generators survive a write/read cycle | table of generators to JSON and back; induction over categories and keys (`GenerateProps`) | partial | tables with names (header, query), empty paths (path, method, status) or parsed paths as keys are read back equal; other keys refuted; recreation fails for the size of random strings and the data type of provider state generators |
| **C68** Random values have the requested form | draws are an arbitrary function within the range laws; list arithmetic (`GenerateProps`) | partial | false: the largest i32 is never drawn, status code limits are truncated to 16 bits, more than 16 hexadecimal digits are never made, negative integer texts do not satisfy the integer rule; random texts of regular expressions are not modelled |
| **C69** The comparison of a JSON value depends only on the rules that match at or below it | the rules found at every path below the value are a function of the agreeing part of the table; induction on the expected document (`LocalityProps`) | proved | body rules, JSON comparison |
| **C70** The example of a consumer pattern satisfies its own rules | the extracted table is computed (one entry per path, rules in order); every rule at or below a location accepts the value there compared with itself; mutual induction over patterns (`PatternProps`) | partial | false for ObjectMatching (the rules of one key are applied to all keys) and for keys that read as the same index (007 and 7): refuted; every other pattern proved |
| **C71** A consumer pattern means what it says | invariant describing the table as seen from the location of a sub-pattern (own rules, inherited type rules, specificity); mutual induction over patterns, specification `Accepts` (`PatternProps`) | partial | exact characterisation for every pattern without ObjectMatching, without an each_like directly in an each_like whose elements have rules of their own (refuted: the result depends on the hash order), with rule paths of at most 58 segments |
| **C72** Bodies survive a write/read cycle of a V4 pact file | `to_v4_json` and `body_from_json` with a concrete base64 codec and UTF-8; parsers of JSON and content types are parameters; case analysis (`PactFileProps`) | partial | exact characterisation of what is kept, for every body and content type that is parsed from its own text; the property itself is false for the JSON values null and "" (read back as null and empty body), null bodies (lost), bodies without content type (get */*) and other spellings of JSON: refuted by example |
| **C73** HTTP requests and responses survive a write/read cycle of a V4 pact file | attribute look-up in the written object, then C72, C34, C67, C29 and C30 for the parts (`PactFileProps`) | partial | bodies as in C72, rules and generators as in C34 and C67; refuted: a content type header without value panics |
| **C74** Interactions and messages survive a write/read cycle of a V4 pact file | attribute look-up; induction over provider states, responses and plugin entries (`PactFileProps`) | partial | the id, comments with an empty value and markup without text are not written (stated in SameCommon); bodies as in C72 |
| **C75** A V4 pact survives a write/read cycle | stable insertion sort characterised by permutation, order and stability; induction over the interactions; look-ups in the metadata (`PactFileProps`) | partial | for pacts whose interactions satisfy the conditions of C72-C74 and whose metadata has no entry called plugins |
| **C76** Which bodies a V1 to V3 file keeps | writing and reading as functions; the JSON and content type readers are parameters with laws; exact condition by case analysis (`PactV3Props`) | proved | the bytes are read back exactly iff the stated condition holds (proved both ways, for every body); not kept: JSON strings with escapes or with JSON in them, undecodable text, base64-looking binary text (by example) |
| **C77** V3 request/response pacts survive a write/read cycle | attribute look-up in the written object; induction over interactions; generic in the version and the relation between interactions (`PactV3Props`) | partial | bodies as in C76, rules and generators as in C34 and C67; the id is not written |
| **C78** V3 message pacts survive a write/read cycle | as C77, with the content type of the metadata (`PactV3Props`) | partial | contents as in C76; refuted: the generators of messages are written and never read; messages are read from V3 files only |
| **C79** V1 and V2 pacts survive a write/read cycle | rule keys written and parsed again (path grammar, C52), query strings (C29); induction over the table (`PactV2Props`) | partial | for pacts within the V2 form (one rule per path, names starting with a letter or digit and without dots, no dollar in body paths except the root); what becomes of others is shown in C79_limits; only the name of the first provider state is kept |
| **C80** A file is loaded with the version it declares | look-ups in the metadata after renaming; specification `FileSpec` on the document (`PactLoadProps`) | proved | the reader of version numbers (lenient_semver) is a parameter |
| **C81** Conversion between specification versions keeps the interactions | filterMap/map over interactions, then C75, C77, C78 (`PactConvertProps`) | proved | a message gets the content type of its contents as metadata; bodies, rules and generators as in C72 and C76; fields V3 does not have (key, comments, pending, plugins, markup, transport) are lost and metadata that is not an object |
| **C82** Matching rule definition expressions mean what they say | grammar as syntax trees with a printing relation `Laid` and a meaning relation; induction over trees against the recursive descent parser; lexer lemmas for each kind of word (`DefExprProps`) | partial | every definition of any nesting and layout whose strings have quotes only after a backslash and do not end in a backslash or quote, with numbers in range; refuted: strings ending in an escaped backslash swallow what follows, \' keeps its backslash, quotes at the ends of a string are lost; the logos lexer is modelled by the meaning of its patterns |
| **C83** Only definition expressions are accepted | inversion of every parser function, induction on the nesting; regular languages of the tokens as `Matches`, longest match by induction on the text (`DefExprProps`) | partial | what is accepted is a laid-out definition, up to an illegal token at the end, anything after the point of a number and any word starting with fromProviderState in dates (all three shown to be accepted); what an illegal token covers is a parameter that is nothing more than one character for white space the lexer does not skip |
| **C84** The example of an integration JSON document | relations `Means` (a matcher object), `Example` (the replaced document), `Found` (matchers and their paths); induction on the document against the threaded rule table (`IntegrationProps`) | proved | parsing the text of the document and writing the result are left out; the program is aborted exactly for an index that does not fit in the paths of nested variants; shown by example: the documented forms without value give null, the documented combination of definitions gives no rules, an unknown matcher loses the value but keeps the generator |
| **C85** The rules and generators of an integration JSON document | the run is a sequence of additions relative to the path, determined by `Found`; look-ups in the table after a sequence of additions (`IntegrationProps`) | proved | when several items of a matched list have generators the theorem says that one of them is there; keys that are numbers or * become indices and wildcards, and the wildcard of a rule for all values leaks into lists nested in it (shown) |
| **C86** Path, status and query set through the C interface | relation `Stands` (what a text stands for) on top of `Example` of C84; look-ups in the updated map; induction over the sequence of calls (`PartProps`) | proved | whether a text is JSON is a parameter; several values as first value are appended to the values there are (shown); an object as value becomes its JSON text (shown); a status that is no number below 65536 becomes 0 |
| **C87** Rules and generators set with the parts of a message | relations `Means`, `Inner`, `GenFor`; look-ups in the re-keyed table; invariant `Table` by induction over the sequence of calls (`PartProps`) | proved | for the history the first value of a name must be set first, once, and all values by matchers: the examples show that otherwise the rule of the first value is applied to all values; when several items in an array of values have generators at one path, one of them is there |
| **C88** Headers set through the C interface | relation `HeaderSet` between the header maps before and after; names compared through the case mapping (`PartProps`) | proved | the name of headers set before the call may differ in case if they were read from a file; Unicode case mapping is a parameter |
| **C89** XML bodies without rules | trees of elements; relation `Covers`; the comparison reports nothing iff `Accepts` by induction on the nesting, which without rules is `Covers` (`XmlProps`) | proved | the XML parser is a parameter |
| **C90** XML bodies with rules | inductive relation `Accepts` over the selected rules; exactness by induction on the nesting, with lemmas on the grouped children and sorted attribute maps (`XmlProps`) | proved | shown by example: a type rule makes lenient comparison reject unexpected children below it; an example with different children of one name under a type rule is rejected for itself; minimum and maximum count texts and comments; rules for namespace prefixes do not apply |
| **C91** Which dates and times a format accepts | languages of the fields as predicates on texts, `Split` relates a value to its fields; each nom parser is inverted (sound) and shown to take exactly the text when what follows cannot extend it (complete); calendar as `InMonth` (`TimeProps`) | proved | soundness for all formats; exactness for formats in which no field can run into the next, otherwise for values in which each field ends where the next begins; the tables of time zones are a parameter; shown: days of the year above 356 and offsets of 12 hours and more are rejected, several signs and one-digit fields accepted |
| **C92** What a date/time format is | inductive relation `Pattern` between texts and fields; induction on the text against the `alt` loop (`TimePatternProps`) | proved | for every text |
| **C93** Generated dates and times satisfy their format | every piece `chrono` writes is in the language of its field (padded numbers, names), then C91_complete; induction over the fields (`TimeGenProps`) | partial | without an expression; chrono's formatting is modelled from its documentation; refuted for the formats and moments not in Safe (C93_limits), and for the default DateTime generator, which the default timestamp rule never accepts (C93_default_timestamp) |
| **C94** Checking a date never aborts | only two places can panic; inversion of the reader (`TimeProps`) | proved | debug builds (overflow checks) |
| **C95** Which date and time expressions there are | relations between lists of words and expressions (`DateHead`, `TimeHead`, `Ops`), `Laid` for the blanks; longest match inverted for the tables of words; induction over the durations (`DateExprProps`) | partial | every documented expression is read; conversely a text that is read is an expression followed by an ignored end (shown to exist), so that the converse is refuted as stated; what the lexer takes for an illegal token is a parameter |
| **C96** What date expressions stand for | relation `Moves` for one step on numbered days and months (`C96_calendar`: the numbers count days); the day-by-day loops of the code are inverted to least solutions; induction over the steps (`DateExprProps`) | partial | numbers up to 2·10^9 (larger ones wrap, shown); the zone has a constant offset (no daylight saving); chrono's calendar is modelled |
| **C97** What time expressions stand for | relation `Shifts` on instants; `baseAt` for the first words; induction over the durations (`DateExprProps`) | partial | numbers up to 2·10^9; constant offset; shown: 12 o'clock pm leaves the time as it is and 12 o'clock am is noon |
| **C98** Generators with an expression | inversion of every place that can panic; existence of the next moment within a bound on years by induction; C93 for the clock reading of a moment (`DateExprProps`) | partial | numbers up to 2·10^9; acceptance for the formats and moments of C93, years 0 to 9999 |
| **C99** Forms are written and read without loss | inductive relations `Spells`, `Piece`, `Spelled` between bytes and parameters; the decoder is inverted; all bytes by kernel computation over 256 cases, texts by induction (`FormProps`) | proved | serde_urlencoded is modelled from its documentation; what bytes that are not UTF-8 become is a parameter |
| **C100** Matching forms with rules | specification `Accepted` over a table; which rows match which location and which has the best score is computed symbolically; then the loops over values by induction (`FormProps`) | partial | rules that do not refer to the example (all but equality, values, null, status code, arrayContains, eachKey, eachValue), one for each path, names that are neither wildcards nor numbers; for queries no parameter with rules of both kinds (order dependent, shown) |
| **C101** Form bodies given as JSON | relations `FormOf` and `Unsupported` on documents on top of C84/C85; removal of rules as filters on path texts, by induction over the unsupported values (`FormProps`) | proved | for documents that are JSON (others abort); the text of the document between the two steps is not modelled |
| **C102** Generators for forms | `ValueAt` counts values of a name; the loop with its counters is inverted by induction; several generators by induction over their list, permutations from it (`FormProps`) | proved | names that are neither wildcards nor numbers; the two paths of the first value clash (order dependent, shown) |
| **C103** The V2 matching engine always returns a result | a plan is made for every input (induction over the expected document); the interpreter is run symbolically: relation `Runs` between a node, a stack and the executed node for each kind of node, then induction over the plan; heights bound the fuel (`EngineProps`) | partial | not for XML bodies, names that are wildcards or numbers, keys with / or ~ or quotes, rules with references (values() is not implemented for them and panics), and actual headers without values (the header index panics, shown) |
| **C104** The verdict of the V2 engine, method and path | each executed part is shown to have an error below it exactly if the specification rejects; the five parts of the plan are then read back (`EngineProps`) | partial | for the requests of C103 |
| **C105** Query parameters in the V2 engine | `QueryAccepts`; per parameter from the executed containers, the two checks of names as set differences (`EngineProps`) | partial | for the requests of C103; V1 rejects copies of a single value (shown) |
| **C106** Headers in the V2 engine | `HeadersAccept`; parsed headers as JSON documents read by pointers (`EngineProps`) | partial | for the requests of C103; of several expected values of a header with parameters only the first is compared (shown) |
| **C107** JSON bodies in the V2 engine | `Accepts`, recursive in the expected document; for-each by induction over the actual items with paths into which the index was injected; `Loose` and equality by induction (`EngineProps`) | partial | for the requests of C103; rules are those recreated from their name and values (C66): the rule itself except for min-max-type, array-contains, each-key and each-value |
| **C108** Other bodies in the V2 engine | the body part is run for both results of the content type check; the error of a failed check is shown to be dropped (`EngineProps`) | partial | for the requests of C103; that a body of another type is rejected, as one would expect, is refuted |
| **C109** Combining rules in the V2 engine | the specification depends on a table only through which rule lists are selected, not on their logic (`EngineProps`) | partial | for the requests of C103; that one matching rule is enough for an `or` list, as in V1, is refuted |
| **C110** Rules for the items of arrays in the V2 engine | rules match prefixes of paths, so that the items have a rule; such items are skipped (`EngineProps`) | partial | for the requests of C103; that the items are checked, as in V1, is refuted |
| **C111** A request accepts itself in the V2 engine | each part of the specification is reflexive (`EngineProps`) | partial | for the requests of C103; keys with a slash are shown not to be accepted |
| **C112** Multipart bodies without rules | `PartsFit`: the first counterpart by `find?`, headers and texts by equality, files by the body specification of C47; then the request and response as in C47/C48 (`MultipartProps`) | proved | splitting the body into parts is a parameter; files that are XML or multipart bodies excluded (the latter never match) |
| **C113** Which parts of a multipart body are compared | from C112; a permutation up to the positions of parts keeps the counterparts of named parts (`MultipartProps`) | partial | self: for parts with different names; that every body accepts itself is refuted for two fields of the same name; order: for named parts with different names |
| **C114** Matching rules for the parts of a multipart body | the table for a part is the filtered table with shortened paths (`relative`), by induction over the table; a path without wildcards is the most specific one (`MultipartProps`) | partial | for part names that are not numbers or wildcards; fields: one rule list for the name, without wildcards |
| **C115** Matching rules for the headers of parts | the table in lower case compared with the path of the header, in which the name of the part is kept as it is (`MultipartProps`) | partial | one rule list without wildcards for each header; refuted for parts whose names have upper case letters |
| **C116** Detecting the content type of a text | each pattern is equivalent to a statement on the beginning of the text; the texts of JSON values by their first characters (`DetectProps`) | partial | the regular expressions are modelled by hand; that every JSON document is detected is refuted: exactly negative numbers and objects whose first key is empty or does not begin with a letter, digit or underscore are taken for text |
| **C117** Detecting the content type of bytes | prefixes of UTF-8 texts by induction; 32 bytes are enough for the first characters of every JSON text (`DetectProps`) | partial | refuted for texts with a character across byte 32, for which nothing is detected (exact condition proved) |
| **C118** Bodies without a declared content type | from C116, C117 and the body specification of C47 (`DetectProps`) | partial | for documents that are detected; the others reject every actual body declared as JSON (proved); without rules |
| **C119** XML bodies given as JSON | the state is threaded through a recursion over the description; it is shown that it does not influence the tree and that the sites are handled one after another, by strong induction on the size of the description (`XmlBuildProps`) | proved | the DOM is replaced by trees (whether the library moves text nodes is a parameter), writing the document as text is left out; names are not split into prefix and local part |
| **C120** Matchers in XML descriptions | the list of sites in order; adding rules and generators as folds over it (`XmlBuildProps`) | proved |  |
| **C121** Matchers of XML descriptions are used for what they are written at | path expressions of sites are parsed by the grammar of C52 and compared with the paths the comparison builds; the longest exact path wins by C05 (`XmlPathProps`) | partial | for element names of letters, digits, `_`, `-` and `:`, attribute names without quotes and at most 56 levels; refuted for names with a full stop or characters outside path expressions (`C121_full_stop`, `C121_everywhere`); accepted for itself: type and equality rules, children of the same name equal |
| **C122** The content type of a body set through the C interface | case analysis on the lookup of the content type, before and after the body is set, against relations for declared and found types (`BodyBuildProps`) | proved | parsing JSON and content types, detecting content types and writing XML are parameters; the handles are left out; that a header in another case counts as set is refuted (`C122_spelling`) |
| **C123** The contents of a body set through the C interface | case analysis on content type and shape of the text; the parts by C84, C85, C101 and C119, the comparison by C47 as an empty table of body rules is like none (`BodyBuildProps`) | proved | the example of a document that was read is assumed to be readable again (for forms: as the same document) |
| **C124** When setting a body aborts the process | every way the processing can abort is one of the listed ones, by C84 and C119, and conversely (`BodyBuildProps`) | proved | the example of a document that was read is assumed to be readable again |
| **C125** Links of a Pact Broker | the replacement with a bound is compared with a relation for templates; encoding byte by byte, checked for all 256 bytes by the kernel and lifted by induction (`BrokerProps`) | proved | word characters are a parameter; `}` is assumed not to be one |
| **C126** Published verification results | the groups are runs of results with the same identifier, by induction; attributes of objects by lookup; with different identifiers every run has one member (`BrokerProps`) | partial | an entry for each interaction: for different identifiers and failures with at least one mismatch; refuted in general, as neighbouring results without identifiers share an entry and those without one have none if everything passed (the exact entries are proved); a pact without results is published as a success |
| **C127** The order of publishing | every computation is a list of requests answered one after another and then a failure or a result; uniqueness of the course of a request gives the converse (`BrokerProps`) | proved | the URL library is a parameter; the branch and the tags are published even if there is no link for results |
| **C128** Fetching pacts from a Pact Broker | case analysis of one fetch, induction over the links; composition with the model of the verifier (C39) (`BrokerProps`) | partial | that every other failure fails the verification is refuted: with selected pacts, a pact that is answered with 404, and an answer that cannot be read as a list of pacts, count as no pacts; that the results are independent of each other is for brokers without state |
| **C129** Retries | induction on the number of attempts, against a relation for repeated requests to a broker with state (`BrokerProps`) | proved | waiting between attempts is left out |
| **C130** Where requests to a Pact Broker go | case analysis of the URL handling for any URL library whose operations keep the host; links of a pact by lookup in the object made from them (`BrokerProps`) | partial | for links whose path starts with one slash; refuted for two slashes (for an URL library with the usual rules) |
| **C131** The request that is sent to the provider | the encoding of queries byte by byte (all 256 by the kernel), then taken apart by the parser of C29; headers by induction with a specification of the values of each name; replay through the specification of C47 (`ProviderProps`) | proved | the HTTP client and the rules for names and values of headers are parameters; parameters without a value are not sent and a `null` body is not accepted by its own pact (shown), replay is for the others |
| **C132** Custom headers | from the values of each name (C131) (`ProviderProps`) | partial | refuted if the pact spells the header in another case (exact condition proved) |
| **C133** How answers of the provider are read | case analysis; values that are text are never an empty list (`ProviderProps`) | partial | that reading never aborts is refuted: exactly for a body with a content type header none of whose values is text |
| **C134** When an interaction is verified | a relation for what can become of a request, and the specification of C48 (`ProviderProps`) | proved | without rules, not for XML and multipart bodies; names of the headers of an answer are different (as in HTTP libraries) |
| **C135** When a message is verified | as C134 with the specification of C56; metadata as a fold over the headers, of which at most one counts; Base64 text is one header value (`ProviderMessageProps`) | partial | without rules, not for XML and multipart bodies; synchronous messages with two or more responses are never verified and those without responses always (proved) |
| **C136** State change requests | induction on the number of attempts against a relation for repeated requests to a handler with state; the query by C131 (`ProviderMessageProps`) | proved | if no attempts are allowed there is a panic; a parameter named `state` or `action` takes the place of the name or action in a query (shown) |
| **C137** All requests of an interaction | the steps of the verifier (C39) run in a world that logs what is sent; every event is related to its requests, by induction over the states (`ProviderMessageProps`) | proved | unless there is a panic; the interactions themselves as in C39 |
| **C138** Where the requests go | `find?` on a list split at the first match (`ProviderMessageProps`) | proved |  |
| **C139** Generated requests | each part is a fold over the table in an unknown order; the last generator that gives a value wins, for one name by uniqueness (`ApplyGenBodyProps, ApplyGenProps`) | partial | plugins are left out; that the name of a header is found in any case is refuted: a second header is added |
| **C140** Generated bodies | the update of a document at a path (C37) for each generator in turn; separate places commute, so the result is described place by place; induction over the table; forms by C102 (`ApplyGenBodyProps, ApplyGenValueProps`) | partial | for generators at separate places whose paths have no wildcards, without rules with variants; XML bodies are not changed by the model (nor by the code without plugins) |
| **C141** Values from provider states | expressions by C38; case analysis of data types and kinds of values; a panic in one step is a panic of the fold (`ApplyGenProps`) | partial | that a value that cannot be converted only fails the interaction is refuted: it is a panic, with the exact condition |
| **C142** Generated responses | as C139; the saturating arithmetic of the random number by linear arithmetic (`ApplyGenProps`) | proved | the status within its limits: for limits from 0 to 65534; names of headers as in C139 |
| **C143** Generated messages | as C139 and C140 (`ApplyGenBodyProps`) | partial | contents as in C140; that the content type in the metadata decides is refuted: it is ignored when it is a text |
| **C144** Generators for the variants of arrays | case analysis of the choice of a variant, induction over the items; the generators of the variant by C140 (`ApplyGenBodyProps`) | partial | generators in variants as in C140; in V4 messages the variants are never used (proved) |
| **C145** The values generators produce | case analysis over generators, data types and kinds of values; the forms of random values by C68, conversions by linear arithmetic (`ApplyGenValueProps`) | partial | at most 16 hexadecimal digits (C68); limits that are not empty; a status from a provider state is taken modulo 2^16 (shown); floating point numbers, regular expressions and parsing of moments are parameters |
| **C146** Values of provider states reach the provider | composition of C64 (the context), C137 (what is sent while an interaction is verified), C141 (expressions) and C131 (the request that is sent) (`StateValueProps`) | proved | for verifiers without request filters, when nothing panics (C141); the path for contexts without an object `providerState` (which would take precedence) |
| **C147** Provider states given by a test | each call has an effect on the shared fields that does not depend on the rest; induction over the calls (`SessionProps`) | proved | the calls change the interaction even when they answer `false` because the mock server was started (C147_result) |
| **C148** Comments, key and description given by a test | as C147, with association lists (`SessionProps`) | proved |  |
| **C149** Bodies given as bytes | case analysis of the call, then the end-to-end specifications of C47 and C48; the rule for the content type by evaluating a table with one entry (`SessionBodyProps`) | partial | accepted requests for content types that are not JSON, XML, form or multipart; that an interaction accepts its own example is refuted when a header with another content type was set before (C149_conflict) |
| **C150** Rules and generators given as JSON | tables that were read have each category and path once (induction over the JSON object); merging by C55 and a fold over the generators; sequences by induction over the calls; round trip by C34 and C67 (`SessionRuleProps`) | proved | the last two for tables as in C34 and C67 |
| **C151** Message metadata given by a test | the rules table is exactly the rules given so far (invariant over the calls), so the rules that apply to a key are those given for it; the comparison of one value by cases (`SessionMetaProps`) | partial | the history for matchers with a scalar example and a key that is a bare name; for other keys refuted: with dots the matcher is lost, with spaces the call aborts; rules of earlier calls for a key stay in force (shown) |
| **C152** The pact file has what a test set | the shared fields stay maps (induction over the calls); written and read again by C74; last values by C147 and C148 (`SessionFileProps`) | proved | for interactions as in C74; parsed objects have each key once |
| **C153** Metadata of the pact given by a test | sorted maps; induction over the calls; the file by C75 (`SessionFileProps`) | partial | that the file has the entries is refuted for the namespaces pact-specification, pact-rust and plugins, which are accepted (C153_bypass) |
| **C154** What the consumer builders build | an invariant over the calls (induction from the end): what each field is in terms of the calls of its kind; headers by the lemmas of C118 (`BuilderProps`) | proved | without `contents` of plugins; a header value with commas is several values (unless it is a date or the like) |
| **C155** The rules and generators the consumer builders add | as C154: the table is a fold of additions, which is described entry by entry as in C70 (`BuilderProps`) | partial | that the rules are those of the contents is refuted: rules (and the generator of the path or a header) of values that a later call replaced stay, and rules of a header are kept by spelling; the table is given exactly for every history; of the body for patterns without object_matching! |
| **C157** The interaction of a consumer test | an invariant over the calls (`BuilderProps`) | proved | without plugins; parameters that are not an object are none |
| **C158** Removing null fields | values reached through arrays; structural induction; a counterexample for nested objects (`BuilderProps`) | partial | null fields of objects in fields of objects stay (C158_not_recursive, contrary to the documentation); exact description of what is removed, and the property where no field contains an object with a null field |
| **C156** What an interaction built by a consumer test accepts | the exact tables of C155 give the rules found for each name (also after lowering header names); the comparisons of C23, C45 and C46 with those rules; the body by C71; the own example as an instance, with counterexamples (`BuilderMatchProps`) | partial | for names of parameters and headers that are no numbers or wildcards, ASCII header names with one spelling each; bodies: none, or one JSON pattern as in C71.  Refuted in general: when a path, parameter or header is given twice, or a header pattern has a comma, the interaction can reject its own example (C156_own_example_fails), and a literal beside a pattern is not asked for |
| **C159** Asynchronous messages of a consumer test | an invariant over the calls since the last reset; rule tables merged path by path with C35; the keys of extracted tables by structural induction on patterns (`MessageBuilderMatchProps, MessageBuilderProps`) | proved | without plugins; the content type in the metadata is that of the first body with one, not of the last (shown); rules of JSON patterns whose body was replaced stay |
| **C160** Synchronous messages of a consumer test | as C159, with a list of responses that grows by the answers each call asks for (`MessageBuilderMatchProps, MessageBuilderProps`) | partial | without plugins; that a response has the generators given for it is refuted: it has those of the request; its content type is stored under a key with a leading blank |
| **C161** What a message built by a consumer test accepts | the contents of C159 and C160 with one JSON body have exactly the table of the pattern; C71 for the body, C56 for the metadata; C70 for the own example (`MessageBuilderMatchProps`) | partial | for one JSON pattern as in C71 and metadata; a response given as bytes with a content type only accepts messages with a metadata key ` contentType` (with a blank) |
| **C162** The pact of a consumer test | an invariant over the calls, with a relation between each call and the interaction it adds (`PactBuilderProps`) | proved | without plugins; the closures given to the builder are the calls they make |
| **C163** The messages a consumer test gets | the results of repeated `next` by induction; the task as a result that may not be received; C143 for each message (`PactBuilderProps`) | proved | what is generated is that of C143; outside a Tokio runtime the task may be dropped before it ends: then the synchronous messages are not generated (C163_depends_on_schedule) and asking for V3 messages aborts |
| **C164** Comparing whole interactions | cases on the kinds of both interactions; the comparison of the parts is that of C25, C47 to C49 and C56 (`MatchInterProps`) | partial | refuted for synchronous messages: `match_interaction` reports a mismatch for any two of them (C164_sync_never); a V4 message has the type of its body as metadata, a V3 message has not; for the V1 engine, without plugins |
| **C165** What an interaction without rules matches | C47, C48 and C56 composed with C164; reflexivity of the relations of the specification (`MatchInterProps`) | partial | not for XML and multipart bodies; an interaction whose JSON body cannot be parsed does not match itself (C165_unreadable) |
| **C166** The pact file of a consumer test | an invariant over the calls (every table of rules and generators has paths that can be read, every content type can be read) which gives the hypotheses of C75 (`BuilderFileProps`) | partial | refuted for names of fields with a quote or backslash: the builder writes a file that cannot be read (C166_limit); rules of a header or query parameter called `matchers` are lost; otherwise for every sequence of calls, what is read being that of C75; assumes that content types can be read from the text they are written as |
| **C167** Rules read from a pact file mean the same | the tables read are permutations of those written; the rule chosen for each path is then the same (C05), and the comparison depends on nothing else (C69_selection); C71 holds for every order of the table of a pattern; C162 and C166 for the whole cycle (`ReadMessageProps, ReadRulesProps, RuleJsonProps`) | partial | refuted where two rules of a table are equally specific for a path: which of them is used depends on the order of the table, and a file does not keep it (C167_limit); for rules without rules inside, V4 pacts and JSON bodies; patterns as in C71 |
| **C168** What the matching rules of a file say | a row is a rule with its place; loading adds the rows of each entry to the table (C35), and a table is determined by the rows that were added (`ReadDocProps`) | proved | path expressions as C52 describes them (Path.new); what one rule object says: C169 and RuleJson.fromJson |
| **C169** What one matching rule of a file says | an inductive relation with one case for each type; both directions by cases on the type, whose names are a table checked by the kernel; the bound on the recursion is not visible (fromJson_fix) (`ReadRuleProps`) | proved | the rules and generators inside array-contains variants and each-key/each-value definitions are those read by the same functions (RuleJson.addRulesFromJson, gensFromJson, genOfObj) |
| **C170** What the generators of a file say | as C168 and C169: an inductive relation for one generator, rows for the document, the last row for a path counts (`ReadGenProps`) | proved | numbers as JsonUtils.jsonToI32/jsonToU16 read them (C34); data types of provider state generators as dataTypeFromJson |
| **C171** What the requests, responses and messages of a V4 file say | an inductive relation for each attribute, shown equivalent to the reader attribute by attribute; rules and generators by C168 and C170 (`ReadPartProps`) | proved | query strings as parseQueryString reads them (C35), rules as in C168, generators as in C170; detection of content types and the MIME parser are parameters |
| **C172** What a V4 pact file says | as C171, attribute by attribute; the list of interactions by induction with the index (`ReadFileProps`) | proved | the model keeps the first of several errors; which error it is plays no part |
| **C173** What a V1, V2 or V3 pact file says | as C171 and C172, for the forms of older files; an attribute of rules of an older file is read as if it were the new one (`ReadOldProps`) | proved | rules as C168, generators as C170, the version of a file as C80; detection of content types and the MIME parser are parameters |
| **C174** The JSON report of a verification says what failed | attribute by attribute, per kind of mismatch; lists by induction with a relation for their elements (`ReportProps`) | proved | notices are maps; the parser of the written file is a parameter; the results of single interactions are not in this report |
| **C175** When mismatches are equal | case analysis over pairs of kinds; two concrete pairs for the order (`ReportProps`) | proved | from_utf8_lossy is a parameter that keeps texts |
| **C176** What is printed for failed interactions | a relation for the lines of runs and failures; the runs by induction over the mismatches, the order from an insertion sort (`ReportOutputProps`) | proved | without colours; the text of the difference of two bodies is a parameter; the order of status, method, path and content type mismatches of one run is not stated |

## 4. Findings: where the code differs from the natural property

Each entry is proved as a theorem (the witness is in the model) unless marked (r), which is from reading
the source only.

*Path expressions.* Keys with `'` or `\`, and the empty key, do not survive print/parse (C01).  Index
overflow and non-ASCII numerals panic the parser (C02).  `matches_path` overflows at 64 segments (C04),
`max_by_path` weights at 59 exact tokens (C06).  `join("007")`, `join("+7")` make an index (C08).

*Rule selection.* Ties between rules of equal weight depend on hash order; header, query and contents
categories take the first rule in hash order; a shorter path can outweigh an exact wildcard path (`$.a`
over `$.*.*`) (C05).  An empty rule list counts as defined (C09).  `add_rules` keeps the logic of the
receiver (C35, C55).  Rule equality ignores the payload of status-code rules (C36); the hash of a rule
set depends on hash map order (r).

*Comparing.* With an empty expected list any rule accepts any list, also min-type and array-contains
(C18, C44, C45).  An empty expected object in strict mode rejects extra keys even with a values rule
(C22).  Status-code, array-contains, each-key and each-value rules accept every JSON scalar (C54); an
each-value rule inherited by a list does nothing.  Texts: the integer rule rejects "-5", number and
decimal rules accept "NaN" and "inf" (C14).  A status rule truncates 64 bit numbers (C13).  `compare_maps`
combines rules with AND whatever the logic says.  A binary rule error on a short body panics in
`split_at(10)` (r).  The ranking score overflows an `i8` from 126 matching query parameters (C26).  An
empty expected body with a different content type accepts every body (C27).  Content type equivalence
ignores suffixes and is asymmetric (C50).  A synchronous message without expected responses accepts any
responses (C49).  Header names that differ only in case, blank extra header values (C24).

*JSON forms.* Query strings: names are written unencoded, empty names and value lists are dropped,
encoding panics on code points with an odd number of hexadecimal digits and writes code points instead of
UTF-8, decoding truncates (C29).  Headers of V1-V3: values are split at commas, `set-cookie` is merged
(C30).  Rules: a header or path called "matchers" is lost, header keys without `$` change, multi-token
header/query paths collapse, empty rule lists are lost, each-key/each-value lose value type and
expression, a reference panics on write (C34).  Min-max-type rules always fail and array-contains rules
lose their variants in the V2 matching engine (C66).  Generators: the attribute names of `values` and
`create` differ (C67).  16 and 32 bit attributes are truncated (C42), also status codes of rules.

*Generators.* Pointers are not escaped: keys with `/` or `~` address other values, empty keys none (C37).
At most 16, all different, hexadecimal digits; the largest `i32` is never drawn; limits out of order
panic; status code limits are truncated (C68).  A `}` before `${` panics (C38).  Negative integer texts
are not converted (C61).

*Pact files.* V3 merges keep the existing interaction on equality (updates are lost), V4 the new one; a
stateless interaction with the description of a stateful one is dropped (V3) or replaces it (V4);
parameters of provider states are ignored; unsorted pacts get duplicates; plugin configuration arrays
double with every merge (C31).  A crash between truncation and writing leaves a broken file that later
calls do not repair; writers of several processes lose updates (C32).  The product iterator panics if
polled after the end (C33).  Deep merge of JSON is not associative (C41).

*V4 files.* A JSON body `null` is read back as a null body, which the next write drops; a JSON body `""` becomes
an empty body (C72).  A body without content type is written as `*/*` and base64 in responses and asynchronous
messages, but with the detected type in requests and synchronous messages (C73, C74).  A content type header
with an empty list of values, and a status that is not a number, panic (C73).  The interaction ID is not
written, nor are comments with empty values and markup without text (C74).

*V1-V3 files.* A JSON string body with escapes is read back as text that is not JSON; a JSON string that holds JSON
changes its type; UTF-8 text under a binary type that looks like base64 is decoded (HTTP only); unparsable JSON and
undecodable text become base64 without a marker (C76).  The generators of a V3 message are written, but not read (C78).
V1/V2: only the name of the first provider state and the first rule of a path are kept; `$` in body paths is replaced
everywhere; header and query names that do not start with a letter or digit, status rules and empty rule lists make the
file unreadable, and names with dots are read as another name; a body path without `$` makes all rules be read in the V3
form (C79).  A file with an unknown version is announced to be read as V3, but its queries are dropped and messages are
an error (C78, C80).  `rename("body", "content")` changes nothing, as both names mean the body category (C81).

*Definition expressions.* A string that ends with an escaped backslash swallows the text up to the next quote; `\\'` keeps
its backslash, and quotes at the ends of a string are lost; escapes are not processed in the examples of `type`,
`equalTo` and `notEmpty` (C82).  An illegal character at the end, anything after the point of a number and any word that
starts with `fromProviderState` (in dates) are accepted; `atLeast(1)` is not recognised as a definition (C83).  A decimal
from a provider state gets the number rule (C82).

*Integration JSON.* The documented form of several matchers and the documented definitions without `value` give a null
example; the documented `atLeast(1), atMost(10), eachValue(…)` gives no rules and no error; an unknown matcher gives null
without rules, but with its generator; an index that is too large aborts the program (C84).  Keys that are numbers or `*`
become indices and wildcards; the wildcard of a rule for all values leaks into lists nested in it (C85).

*XML.* A type rule on an element makes every unexpected child below it a mismatch, even in lenient mode, where it is
accepted without the rule; under a type rule all children of one name are compared with the first expected one, so that
an example can be rejected for itself; minimum and maximum rules count the texts and comments between the children; rules
are looked up by namespace URI, so that the rule paths the C interface makes from prefixed names never apply to documents
with namespaces (C90).

*Parts set through the C interface.* The rule of the first value of a query parameter or header is applied to all
values unless a later value has a matcher too, although the documentation says it is for the first; the same when the
second value is set before the first, or the first again after the second (C87).  An unknown matcher type stores the value
without a rule and without an error (C87).  An object as value of a matcher is not processed, its JSON text is the value;
an array as first value is appended to the values of a query parameter, but replaces those of a header; a status that
cannot be read becomes 0 (C86).  A text with a comma as first header value drops the other values (C88).

*Dates and times.* Days of the year above 356 and offsets of 12 hours or more are rejected (`+12:00`, also in the default
timestamp format); several signs are accepted (`+-+05:00`); `y` reads one digit; the month of `L` is not used in the
check of the day (C91).  Runs of quotes in quoted text become one quote (C92).  The default `DateTime` generator is
never accepted by the default timestamp rule; two letters of fraction generate three digits; `K` at noon, `k` at
midnight, `X`, zone names, quarters, 29 February without a year generate texts their own format rejects; fractions of 4,
5, 7, 8 or more letters and time fields in a `Date` generator panic (C93).  Years above 32767 and 20 letters of fraction
make the check panic (C94).

*C interface.* From the 65536th interaction on handles repeat or refer to another pact; a handle of a
failed creation panics in debug builds; numbers of freed pacts are reused (C40).  Functions return false
after the server was started, but have modified the interaction (C62).

*Verifier.* A failed setup skips teardown (C39).  The condition for the notices is wrong without
publishing, and uses errors of earlier pacts (C63).  A filter that selects nothing publishes a success
(C65).  An invalid filter pattern panics (C43).

*Consumer patterns.* `ObjectMatching` moves the rules of one key to all keys, so that the example itself can
be rejected (C70).  The rule of a key `7` is also applied to a key `007` (C70).  The element rule of an
`each_like` inside an `each_like` ties with the `[*].*` rule of the outer one: the result depends on the
iteration order of a hash map (C71).  `each_like` with minimum 0 accepts any array (C71).

*Date and time expressions.* What follows the last duration is ignored (`+ 1 day tomorrow`), as is a word that
is none (`now x`) and a number that is too large (C95).  `12 o'clock pm`, and `12 o'clock` before noon, leave the
time unchanged and `12 o'clock am` is noon; `3 o'clock` after noon is in the past (C97).  29 February ± 1 year is
unchanged; 31 January + 1 month is the first, but 31 March - 1 month the last of a month (C96).  Numbers from 2^63
wrap, years wrap at 2^32, and large numbers abort (C96, C98).  ` @ noon` and `today @ ` are errors (C97).

*Forms.* Removing the rules of an unsupported value removes those of every path that contains its text
(`a` and `ab`), rules behind a left-out array item stay at the old index, and a generator without a rule stays
(C101).  `$.b` and `$.b[0]` generators clash in hash order, `$['b']` and wildcards are not applied (C102).  A query
parameter with rules at `$.q` and `$.q[0]` is matched with the one that comes first in hash order (C100).

*V2 matching engine.* A body whose content type differs is accepted whatever it is: the error of the check is
dropped (C108).  `or` lists act like `and` lists (C109).  Scalar items of arrays with a rule are not checked, and arrays
and objects in arrays without a rule are not compared at all (C110, C107).  `a=1` accepts `a=1&a=1` (C105).  Of several
expected values of a header with parameters only the first is compared, and an actual header without values makes the
engine panic (C106, C103).  JSON bodies with a key that is empty or contains `/` or `~` do not match themselves
(C111).  min-max-type rules always fail and array-contains rules lose their variants (C66).  A query parameter or header
named `*` stands for the whole map and numbers for indices; rules for headers are case sensitive, and values are not
trimmed (C105, C106).  Each-key and each-value rules do not lift the requirement that the keys of the example are there (C107).

Multipart bodies: every expected part is compared with the first actual part of its name, so that a body with two fields
of the same name and different values does not accept itself (C113).  An actual part without a name at the position of
an expected one stands for it, whatever its name.  Rules for the headers of a part are looked up with the table in lower
case and the name of the part as it is: they are ignored for parts with an upper case letter in the name, and the
header falls back to equality (C115).  The paths of the mismatches in a file part are relative to the part (shown by an
example), and a file that is itself a multipart body never matches.

Content types: a JSON document that is a negative number, or an object whose first key is empty or begins with a
character such as `@` or `$`, is not detected as JSON (C116).  An expected body of this kind without a declared content
type, for example a JSON-LD document, is taken for plain text and rejects every actual body declared as JSON, even the
same one (C118).  Detection from bytes cuts the body at 32 bytes and finds nothing if this splits a character (C117).

XML descriptions: a matcher on an element with a full stop in its name has its rule at a path of two names, where it is
never used; if the name has a character that is not allowed in path expressions, such as a middle dot, the rule silently
goes to the root and is used for the whole document (C121).  Missing names, children that are not objects and numbers of
examples that are negative or fractions abort the process (C119).  If the XML library moves text nodes, only the first of
several examples of an element has its texts.

Bodies through the C interface (C122-C124): a form given as text that begins with a digit, `true` or `null` looks like JSON
and aborts the process, as do a content type that cannot be parsed (documented to become text) and a content type header
without values, even if a content type is given.  A header `content-type` is used, but a second header `Content-Type` is
added all the same.  With an XML content type a text that looks like JSON but is no object gives an empty body without any
error.  The second body set on a part keeps the content type of the first.  The metadata of messages is not used.

Pact Broker (C125-C130): with selected pacts, an answer that is JSON but not a list of pacts, and a single pact that is
answered with 404, count as "no pacts found", so the verification succeeds without having verified anything (C128).  A pact
of which nothing was verified is published as a success; interactions without identifiers share one entry, so that one that
passed is published as failed (C126).  Branch and tags are published before it is known that there is a link for results
(C127).  Query parameters of links are lost, and a link with two slashes at the beginning of its path sends the request, with
the credentials for the broker, to another host (C130).

Provider client (C131-C138): a custom header does not replace the header of the pact if that is spelled in another case
(C132).  Query parameters without a value are not sent, and a request with a `null` JSON body is sent with a body its own pact
rejects (C131).  An answer with a body whose content type is not text aborts the verification (C133).  The status of the
answer for a message is ignored, so that an error with the right body is verified; synchronous messages with two or more
responses can never be verified, those without responses always are if the status is less than 400 (C135).  A state parameter
named `state` or `action` takes the place of the name of the state or the action in the query, and no allowed attempts abort
the verification (C136).  Rules for messages in the category `contents` are not used (C57).

Generators (C139-C144): the name of a header generator is compared in its own case, so a generator for `x-id` adds a second
header beside `X-Id`; the index in the path of a header or query generator is ignored, the generator replaces the whole header
or every value of the parameter (C139).  Any generator for the body of a JSON request, even one of the other mode, makes the
body be written again, with the content type `application/json` (C140).  A value of a provider state that cannot be converted
to the type of the generator aborts the verification in paths, headers, queries and forms and is silently ignored in JSON
bodies; an object named `providerState` among the values hides all others (C141).  The content type in the metadata of a
message is ignored if it is a text, which it always is (C143).  In the variants of an array the example is not compared, a
variant without rules takes every item, nested generators ignore the mode, and V4 messages have no variants at all (C144).

Calls of the C interface on an interaction (provider states, description, comments, bodies as bytes) change it even when they
answer `false` because the mock server was started; a state given twice with `given` is there twice, and parameters go to the
first (C147).  A body given as bytes keeps a content type header that was set before, so the interaction does not accept its own
example if they differ (C149).  In metadata of messages a matcher under a key with a dot (`user.id`), or inside an object, is
never applied, a JSON object under a key that is not a path expression (`a b`) aborts, and the rules of an earlier call for the
same key stay in force even if it was removed (C151).  The namespaces `pact-specification`, `pact-rust` and `plugins` can be set as
metadata of the pact but are replaced, moved to the protected name, or lost on reading (C153).

In the builders of the consumer crate the rules of a path or body that a later call replaces stay, and so does a generator
(`path(term!("^/a$", "/a"))` followed by `path("/b")` expects the path `/b` to match `^/a$`), and the rules of a header are kept
per spelling while its values are joined (C155).  `strip_null_fields` does not look into the fields of objects, although it is
documented as recursive (C158).  An interaction can therefore reject its own example: when a path is replaced, when two patterns
are given for one query parameter (both are asked of each value), and when the example of a header pattern has a comma (the parts
are compared one by one with the pattern for the whole); and a literal value beside a pattern for the same parameter is not
asked for (C156).

`SyncMessageInteractionBuilder::build` gives every response the generators of the request, so those given with
`response_contents` are lost (C160); `response_body` stores the content type under the key ` contentType`, with a leading blank,
so that the response only accepts messages with such a key (C161).  A second `body` with another content type keeps the first
content type in the metadata of a message (C159).

**Message iterators.**  Outside a Tokio runtime `synchronous_messages` and `v3_messages` start a runtime that is dropped before the
result is received; a task dropped this way leaves synchronous messages without generated values, and makes `v3_messages` abort
(C163).  `messages` never applies generators, and on a V3 message pact it writes a V4 pact file (C163_v4_not_generated).

`match_interaction` says that a synchronous message does not match itself: neither branch compares synchronous messages, and
`match_message` takes them for something that is not a message (C164_sync_never).  An interaction with a JSON body that cannot be
parsed does not match itself (C165_unreadable).

A V4 pact that the consumer builders build can be read from its file unless a JSON pattern has a field with a quote or backslash in
its name: then the file is written but cannot be read (C166_limit).  The rule of a header or query parameter with the name
`matchers` is written but read as none (C166_limit_matchers).

Of two rules that are equally specific for a path (`$.b.*` and `$.*.a` for `$.b.a`) the last one of the table is used; the
order of the table is that of a hash map and is not kept by a pact file, so a value that was accepted can be rejected after
writing and reading (C167_limit).

`Mismatch` has a hand-written `==` that ignores the message and a derived order that does not: two mismatches can be equal
and still be ordered (C175_order), which Rust's `PartialOrd` and `Ord` forbid.

In the output, the first mismatch of a run is not sorted with the others (C176_first), and the difference of bodies is shown
for its path only.

## 5. Tests against wrong programs

`seeded/LOG.jsonl` records every seeded bug: the definition edited, the edit, the claim it breaks, the
theorems that failed, and the theorems tightened when none did.
