{"id": "C01", "title": "Path expression print/parse round-trip", "statement": "A document path assembled programmatically (root, then field keys, indices and wildcards) prints to an expression string which, when parsed again, yields exactly the same sequence of path segments; so a matching rule written to a pact file addresses the same value when the file is read back.", "quantifier": "every list of path segments with every possible field-name string (including quotes, backslashes, dots, unicode) and every index", "why_tests_cant": "field names are arbitrary strings; tests pick a few names, and the failing ones (quote, backslash) are not in the suite", "anchors": ["rust/pact_models/src/path_exp.rs: DocPath::push_field, build_expr, write_obj_key_for_path, parse_path_exp, DocPath::new"]}
{"id": "C02", "title": "Parsing a path expression never panics", "statement": "Parsing any string as a path expression returns either a path or an error value; it never aborts the process. (Where the code violates it, the exact set of offending inputs is characterised.)", "quantifier": "every input string", "why_tests_cant": "needs all strings; index overflow and non-ASCII digits are not sampled", "anchors": ["rust/pact_models/src/path_exp.rs: parse_path_exp, path_exp, path_identifier, bracket_path, index_path, string_path"]}
{"id": "C03", "title": "Distinct paths have distinct expression strings", "statement": "Paths are compared, ordered and hashed by their expression string only; two programmatically built paths with different segments never have the same expression string, so no rule table ever confuses two different paths.", "quantifier": "all pairs of segment lists over arbitrary field names and indices", "why_tests_cant": "injectivity is a statement about all pairs", "anchors": ["rust/pact_models/src/path_exp.rs: impl PartialEq/Hash/Ord for DocPath, build_expr, write_obj_key_for_path"]}
{"id": "C04", "title": "Path matching is token-wise prefix matching", "statement": "A rule path matches a concrete document path iff it has no more segments than the path and every rule segment matches the corresponding path segment (a field matches its own name, an index its own number, [*] any number, * anything); it matches 'exactly' iff in addition the lengths agree.", "quantifier": "every rule path (any length) and every concrete path", "why_tests_cant": "the implementation multiplies weights in machine integers; long paths can overflow, far outside test sizes", "anchors": ["rust/pact_models/src/path_exp.rs: DocPath::path_weight, matches_path, matches_path_exactly, matches_token"]}
{"id": "C05", "title": "The selected matching rule is a maximal-weight rule and is independent of table order", "statement": "For bodies and metadata, the rule list selected for a path is one whose path matches the value's path and no other matching rule path is more specific (weight x length); when the maximum is unique the selection is independent of the (hash-)order of the rule table.", "quantifier": "every rule table in every iteration order, every path", "why_tests_cant": "rule tables are hash maps with per-process random iteration order; a test run sees one order", "anchors": ["rust/pact_models/src/matchingrules/mod.rs: MatchingRuleCategory::max_by_path, select_best_matcher"]}
{"id": "C06", "title": "An exact rule beats every wildcard rule", "statement": "If the rule table has a rule for exactly the value's concrete path (no wildcards) then that rule is selected for the value, whatever other wildcard or parent rules are in the table.", "quantifier": "every rule table, every order, every concrete path", "why_tests_cant": "quantifies over all tables and orders", "anchors": ["rust/pact_models/src/matchingrules/mod.rs: max_by_path, calc_path_weight; path_exp.rs: path_weight"]}
{"id": "C07", "title": "Inherited (cascaded) rules are flagged as such", "statement": "The selected rule list is marked as cascaded iff the path it was defined on is shorter than the path of the value being compared.", "quantifier": "every rule table and path", "why_tests_cant": "all tables", "anchors": ["rust/pact_models/src/matchingrules/mod.rs: RuleList::as_cascaded, max_by_path"]}
{"id": "C08", "title": "Path algebra and JSON pointer conversion", "statement": "parent undoes push_field/push_index; appending a path to the root gives it back; join and push_* agree with the segment they add; the JSON pointer of a wildcard-free path, split on '/' and unescaped, gives back the path segments; wildcard paths give an error rather than a wrong pointer.", "quantifier": "all paths, all field names, all indices", "why_tests_cant": "algebraic laws over all strings, including ~ and / in keys", "anchors": ["rust/pact_models/src/path_exp.rs: parent, join, push_path, push_field, push_index, as_json_pointer, to_vec, drop"]}
{"id": "C09", "title": "'Is a matcher defined' agrees with the rule actually selected", "statement": "matcher_is_defined for a path answers true iff selecting the best matcher for that path yields a non-empty rule list.", "quantifier": "every rule table (no empty rule lists) and path", "why_tests_cant": "two separate code paths must agree for all inputs", "anchors": ["rust/pact_matching/src/lib.rs: CoreMatchingContext::matcher_is_defined, select_best_matcher", "rust/pact_models/src/matchingrules/mod.rs: resolve_matchers_for_path"]}
{"id": "C10", "title": "AND/OR combination of rules", "statement": "With AND a value matches iff it matches every rule of the list; with OR iff it matches at least one; an empty rule list never matches silently; on failure the error list is non-empty.", "quantifier": "every rule list, every combination mode, every value", "why_tests_cant": "all rule lists", "anchors": ["rust/pact_matching/src/matchers.rs: match_values"]}
{"id": "C11", "title": "Type matching is an equivalence on JSON kinds", "statement": "The type matcher accepts a scalar JSON value iff it is of the same JSON kind as the example (string, number, boolean, null, array, object); therefore acceptance is reflexive, symmetric and transitive on the kinds and independent of the concrete example value.", "quantifier": "every pair of JSON values", "why_tests_cant": "all pairs of values", "anchors": ["rust/pact_matching/src/json.rs: impl Matches<&Value> for Value (Type arm)"]}
{"id": "C12", "title": "min/max type matchers bound the collection size", "statement": "minType(n)/maxType(n)/minmaxType(n,m) accept a list iff its length lies within the bounds, inclusive, when the rule is defined on the list itself; an inherited rule does not constrain nested list sizes.", "quantifier": "every list length and every pair of bounds", "why_tests_cant": "boundary for all n", "anchors": ["rust/pact_matching/src/json.rs: Matches for Value MinType/MaxType/MinMaxType", "rust/pact_matching/src/matchingrules.rs: impl Matches<&[T]> for &[T]"]}
{"id": "C13", "title": "Status-code classes partition the codes", "statement": "Every class rule (information, success, redirect, clientError, serverError) accepts exactly its century of codes; nonError accepts exactly codes below 400, error exactly codes 400 and above; explicit lists accept exactly their members.", "quantifier": "all 65536 u16 status codes, every explicit list", "why_tests_cant": "whole domain and all lists", "anchors": ["rust/pact_matching/src/matchers.rs: match_status_code", "rust/pact_models/src/lib.rs: HttpStatus"]}
{"id": "C14", "title": "Integer, decimal and number matchers", "statement": "On JSON numbers: number accepts every number; integer accepts exactly integral representations; decimal exactly non-integral representations; so every number is accepted by exactly one of integer/decimal. On strings: integer accepts exactly the strings denoting integers, including negative ones.", "quantifier": "every JSON number and every string", "why_tests_cant": "all strings; negative integers as strings are rejected by the code", "anchors": ["rust/pact_matching/src/json.rs: Matches for Value", "rust/pact_matching/src/matchers.rs: Matches<&str> for &str"]}
{"id": "C15", "title": "Rule-free JSON comparison decides equality / containment", "statement": "With no matching rules, comparing an expected and an actual JSON body in strict mode (no unexpected keys) succeeds iff they are equal as JSON values (object key order ignored); in lenient mode iff actual equals expected except for additional object keys in the actual body at any depth.", "quantifier": "every pair of JSON documents of any depth and size", "why_tests_cant": "unbounded recursive documents", "anchors": ["rust/pact_matching/src/json.rs: match_json, compare, compare_maps, compare_lists, compare_values", "rust/pact_matching/src/lib.rs: match_keys"]}
{"id": "C16", "title": "Reflexivity: the example always satisfies its own contract", "statement": "A body always matches itself when no rules are defined, in both modes.", "quantifier": "every JSON document", "why_tests_cant": "unbounded documents", "anchors": ["rust/pact_matching/src/json.rs: match_json"]}
{"id": "C17", "title": "Leniency is monotone", "statement": "Any actual body accepted in strict mode (no unexpected keys) is accepted in lenient mode too, with the same rules.", "quantifier": "every expected/actual pair, every rule table", "why_tests_cant": "relates two executions on all inputs and rule tables", "anchors": ["rust/pact_matching/src/json.rs: compare_maps", "rust/pact_matching/src/lib.rs: CoreMatchingContext::match_keys", "rust/pact_matching/src/matchingrules.rs: compare_maps_with_matchingrule"]}
{"id": "C18", "title": "arrayContains means each variant occurs", "statement": "An array-contains rule accepts an actual list iff for every variant some element of the actual list matches it under the variant's rules; hence acceptance does not depend on the order of the elements and is preserved by adding elements.", "quantifier": "every list, permutation, extension and set of variants", "why_tests_cant": "all permutations of all lists", "anchors": ["rust/pact_matching/src/matchingrules.rs: compare_lists_with_matchingrule (ArrayContains)"]}
{"id": "C19", "title": "A failed comparison always reports at least one mismatch", "statement": "Whenever the comparison of two documents fails, the list of mismatches it returns is non-empty (otherwise the aggregated result would count as a match).", "quantifier": "every comparison input", "why_tests_cant": "invariant of the whole recursive comparator", "anchors": ["rust/pact_matching/src/json.rs: compare*", "rust/pact_matching/src/matchingrules.rs", "rust/pact_matching/src/lib.rs: merge_result"]}
{"id": "C20", "title": "Mismatches point inside the compared value", "statement": "Each mismatch reported while comparing the value at a path carries a path equal to or below that path.", "quantifier": "every comparison of any depth", "why_tests_cant": "invariant over recursion depth", "anchors": ["rust/pact_matching/src/json.rs", "rust/pact_matching/src/matchingrules.rs: compare_lists_with_matchingrule"]}
{"id": "C21", "title": "eachKey constrains every key of the actual map", "statement": "With an each-key rule on a map, the comparison succeeds only if every key of the actual map satisfies every key rule.", "quantifier": "every map of any size", "why_tests_cant": "all maps and rules", "anchors": ["rust/pact_matching/src/matchingrules.rs: compare_maps_with_matchingrule, Matches for BTreeSet<String>", "rust/pact_matching/src/json.rs"]}
{"id": "C22", "title": "values/eachValue ignore keys", "statement": "With a values or each-value rule on a map, missing and unexpected keys are never reported, only value mismatches.", "quantifier": "every pair of maps", "why_tests_cant": "all maps", "anchors": ["rust/pact_matching/src/matchingrules.rs: compare_maps_with_matchingrule"]}
{"id": "C23", "title": "Query parameter matching without rules is equality", "statement": "With no matching rules, request query comparison succeeds iff expected and actual have the same parameters with the same value lists; missing and unexpected parameters are each reported.", "quantifier": "every pair of query maps", "why_tests_cant": "all maps", "anchors": ["rust/pact_matching/src/query.rs: match_query_maps, compare_query_parameter_values", "rust/pact_matching/src/lib.rs: match_query"]}
{"id": "C24", "title": "Header matching is insensitive to header-name case", "statement": "Header comparison gives the same verdict if the names of expected or actual headers change case; additional actual headers are ignored; each missing expected header is reported.", "quantifier": "every pair of header maps and every re-casing", "why_tests_cant": "all re-casings of all maps", "anchors": ["rust/pact_matching/src/headers.rs: match_headers, match_header_maps, find_entry"]}
{"id": "C25", "title": "Verdict agrees with the reported mismatches", "statement": "A request (response, message) match result says 'all matched' iff its flattened list of mismatches is empty.", "quantifier": "every match result", "why_tests_cant": "consistency of two independently coded observations", "anchors": ["rust/pact_matching/src/lib.rs: RequestMatchResult::{mismatches,all_matched}, BodyMatchResult"]}
{"id": "C26", "title": "The ranking score does not overflow", "statement": "The score used by a mock server to pick the closest interaction increases with fewer mismatches and never overflows or panics.", "quantifier": "every number of parameters, headers and body mismatches", "why_tests_cant": "overflow beyond i8 needs >127 parameters", "anchors": ["rust/pact_matching/src/lib.rs: RequestMatchResult::score"]}
{"id": "C27", "title": "Body comparison decision table", "statement": "An expected body that is missing accepts anything; an empty expected body accepts only empty actual bodies; a present expected body rejects missing/empty actual bodies; differing content types give a content-type mismatch unless a content-type rule is defined.", "quantifier": "every combination of body states and content types", "why_tests_cant": "all combinations with arbitrary content types", "anchors": ["rust/pact_matching/src/lib.rs: match_body, match_body_content, compare_bodies"]}
{"id": "C28", "title": "Methods compare case-insensitively", "statement": "HTTP method comparison succeeds iff the methods are equal ignoring case; this is an equivalence relation.", "quantifier": "all pairs of method strings", "why_tests_cant": "all strings", "anchors": ["rust/pact_matching/src/lib.rs: match_method"]}
{"id": "C29", "title": "Query string round-trip", "statement": "Rendering a query parameter map to a query string and parsing it back gives the same map, so a V2 pact file preserves the query.", "quantifier": "every map of string keys to value lists", "why_tests_cant": "arbitrary strings; the code violates it outside ASCII", "anchors": ["rust/pact_models/src/query_strings.rs: parse_query_string, build_query_string, encode_query, decode_query"]}
{"id": "C30", "title": "Header JSON round-trip", "statement": "Headers written to a pact file and read back give the same header values.", "quantifier": "every header map", "why_tests_cant": "values containing commas", "anchors": ["rust/pact_models/src/headers.rs: parse_header", "rust/pact_models/src/json_utils.rs: headers_to_json, headers_from_json"]}
{"id": "C31", "title": "Merging pacts keeps every interaction, or reports a conflict", "statement": "Merging two pacts for the same consumer/provider either reports a conflict or gives a pact in which every interaction of both inputs (identified by description and provider states, or by key) is present exactly once; merging a pact with itself changes nothing.", "quantifier": "all pairs of pacts with any number of interactions, sorted or not", "why_tests_cant": "quantifies over pairs of interaction lists and their orders", "anchors": ["rust/pact_models/src/sync_pact.rs: RequestResponsePact::merge", "rust/pact_models/src/message_pact.rs: merge", "rust/pact_models/src/v4/pact.rs: V4Pact::merge", "rust/pact_models/src/sync_interaction.rs: conflicts_with"]}
{"id": "C32", "title": "Writing a pact file never loses recorded interactions", "statement": "When several writers add interactions to the same pact file, the final file contains the interactions of all of them; a crash at any point leaves the old or the new contents.", "quantifier": "all interleavings of any number of writers and all crash points", "why_tests_cant": "schedules and crash points", "anchors": ["rust/pact_models/src/pact.rs: write_pact", "rust/pact_models/src/file_utils.rs"]}
{"id": "C33", "title": "The conflict check looks at every pair", "statement": "The Cartesian product used for conflict detection yields each pair of elements of the two lists exactly once.", "quantifier": "all pairs of lists", "why_tests_cant": "all lists", "anchors": ["rust/pact_models/src/iterator_utils.rs: CartesianProductIterator"]}
{"id": "C34", "title": "Matching rules survive a write/read cycle", "statement": "Each matching rule, rule list, category and rules table written to V3/V4 JSON and read back is equal to the original.", "quantifier": "every rule, with arbitrary nested array-contains / each-key rules", "why_tests_cant": "nested recursive structures of unbounded size", "anchors": ["rust/pact_models/src/matchingrules/mod.rs: MatchingRule::to_json, from_json, create, RuleList::to_v3_json, add_v3_rules_from_json"]}
{"id": "C35", "title": "Adding rules only adds", "statement": "Adding rules to a category never removes or alters previously present rules for other paths and appends to the rules of the same path.", "quantifier": "all tables and added rules", "why_tests_cant": "all tables", "anchors": ["rust/pact_models/src/matchingrules/mod.rs: MatchingRuleCategory::add_rule, add_rules, RuleList::add_rules, merge"]}
{"id": "C36", "title": "Rule equality distinguishes rules with different behaviour", "statement": "Two rules that compare equal accept the same values, so deduplicating a rule list does not change its meaning.", "quantifier": "all pairs of rules and all values", "why_tests_cant": "all pairs", "anchors": ["rust/pact_models/src/matchingrules/mod.rs: impl PartialEq for MatchingRule, RuleList::remove_duplicates"]}
{"id": "C37", "title": "Generators only touch what they address", "statement": "Applying a generator at a path of a JSON body changes only values addressed by that path; object keys and array lengths elsewhere are unchanged; an absent path changes nothing.", "quantifier": "every document, path and generator value", "why_tests_cant": "unbounded documents", "anchors": ["rust/pact_models/src/generators/mod.rs: JsonHandler::apply_key, query_object_graph", "rust/pact_models/src/json_utils.rs"]}
{"id": "C38", "title": "Provider-state expression substitution", "statement": "Substituting ${...} expressions in a string never panics; text outside expressions is unchanged and each expression is replaced by the value of its name.", "quantifier": "every string and every value map", "why_tests_cant": "all strings, including stray braces", "anchors": ["rust/pact_models/src/expression_parser.rs: replace_expressions, parse_expression, contains_expressions"]}
{"id": "C39", "title": "Verification result classification", "statement": "Provider verification reports success iff no non-pending interaction failed; failures of pending interactions never fail the run; provider-state teardown runs whenever setup was attempted.", "quantifier": "every list of interactions, pending flags and outcomes", "why_tests_cant": "all sequences of outcomes", "anchors": ["rust/pact_verifier/src/lib.rs: verify_provider_async, verify_pact_internal, verify_interaction, execute_provider_states"]}
{"id": "C40", "title": "FFI handles address what they were created for", "statement": "The interaction handle packs the pact index and the interaction index; unpacking returns both for every value, and distinct pairs give distinct handles.", "quantifier": "all u16 pairs and more interactions than fit", "why_tests_cant": "whole 32-bit domain; overflow after 65535", "anchors": ["rust/pact_ffi/src/mock_server/handles.rs: PactHandle, InteractionHandle"]}
{"id": "C41", "title": "JSON deep merge", "statement": "Deep-merging configuration documents keeps all keys of both; keys in the second override scalars; arrays are concatenated; merging is associative.", "quantifier": "all JSON triples", "why_tests_cant": "recursive documents", "anchors": ["rust/pact_models/src/json_utils.rs: json_deep_merge"]}
{"id": "C42", "title": "Numbers read from JSON keep their value", "statement": "A status code or numeric attribute read from JSON has the same value as in the document or is rejected.", "quantifier": "all JSON numbers", "why_tests_cant": "truncation above 65535", "anchors": ["rust/pact_models/src/json_utils.rs: json_to_num", "rust/pact_models/src/expression_parser.rs: TryFrom<DataValue> for u16"]}
{"id": "C43", "title": "Interaction filters", "statement": "An interaction is verified iff it satisfies the description and provider-state filter; the no-state filter selects exactly the interactions without provider states.", "quantifier": "all filters and interactions", "why_tests_cant": "all lists of states and patterns", "anchors": ["rust/pact_verifier/src/lib.rs: FilterInfo, filter_interaction"]}
{"id": "C44", "title": "Type rules are inherited by everything below ('like'), size rules are not", "statement": "With one type rule (or a min/max type rule) on a value, everything below the rule's path is accepted iff it has the same shape as the example: same JSON kinds, each list item like the corresponding example item (the first one beyond the examples), the object keys required by the mode; the size bounds apply to the list the rule is defined on and to nothing below it.", "quantifier": "every example and actual document of any depth, every path the rule matches, every bound", "why_tests_cant": "recursion of unbounded depth with inherited rules", "anchors": ["rust/pact_matching/src/json.rs: compare, compare_lists, compare_maps, compare_list_content", "rust/pact_matching/src/matchingrules.rs: match_list_contents (compare_lists_with_matchingrule)", "rust/pact_models/src/matchingrules/mod.rs: max_by_path"]}
{"id": "C45", "title": "A text rule on a query parameter or header applies to every value", "statement": "With one text rule (regex, date/time/timestamp, boolean, semver, content type ...) on a query parameter or header and at least one example value, the entry is accepted iff every actual value satisfies the rule, however many values there are, whatever the example values are.", "quantifier": "every rule of that family, every list of example and actual values, every name, whatever the regex/date engines answer", "why_tests_cant": "unbounded value lists and arbitrary external engines", "anchors": ["rust/pact_matching/src/query.rs: match_query_values, compare_query_parameter_values", "rust/pact_matching/src/headers.rs: match_header_maps, match_header_value"]}
{"id": "C46", "title": "Content-Type / Accept headers are compared by main value and expected parameters", "statement": "Without a rule, an Accept or Content-Type value is accepted iff its main value equals the expected one and every expected parameter is present with the same value ignoring ASCII case; parameter order, whitespace around separators and additional parameters are irrelevant.", "quantifier": "every expected and actual header value (arbitrary text)", "why_tests_cant": "unbounded texts and parameter lists; parsing of arbitrary strings", "anchors": ["rust/pact_matching/src/headers.rs: match_parameter_header, parse_charset_parameters, strip_whitespace"]}
{"id": "C47", "title": "A request without rules is accepted iff it is the expected one", "statement": "An expected request without matching rules accepts exactly the requests with the same method (ignoring case), the same path, the same query parameters, all expected headers with matching values, and an agreeing body (equal JSON, same form parameters, or same bytes); extra headers are ignored.", "quantifier": "every pair of requests (any number of parameters, headers, any JSON document), every content type but XML and multipart", "why_tests_cant": "composition of five unbounded comparisons", "anchors": ["rust/pact_matching/src/lib.rs: match_request, match_path, match_body, match_query, match_headers"]}
{"id": "C48", "title": "A response without rules is accepted iff status, headers and body agree", "statement": "An expected response without matching rules accepts exactly the responses with the same status, all expected headers with matching values and an agreeing body, where JSON objects may have additional entries.", "quantifier": "every pair of responses, every content type but XML and multipart", "why_tests_cant": "composition of unbounded comparisons", "anchors": ["rust/pact_matching/src/lib.rs: match_response, match_status"]}
{"id": "C49", "title": "Synchronous messages are compared response by response", "statement": "A synchronous message is accepted iff the request matches, the number of responses is the expected one and each response matches the expected one at the same position.", "quantifier": "every request, every list of expected and actual responses, every rule table", "why_tests_cant": "unbounded lists", "anchors": ["rust/pact_matching/src/lib.rs: match_sync_message, match_sync_message_response, match_message_contents, match_message_metadata"]}
{"id": "C50", "title": "Content type equivalence", "statement": "Two content types are equivalent iff they denote the same media type, ignoring parameters that are not expected; every type is equivalent to itself, and types with different structured syntax suffixes are not equivalent.", "quantifier": "every pair of content types", "why_tests_cant": "arbitrary types, parameters and suffixes", "anchors": ["rust/pact_models/src/content_types.rs: ContentType::is_equivalent_to, base_type"]}
{"id": "C51", "title": "Form bodies are compared parameter by parameter", "statement": "Without rules two form-urlencoded bodies match iff both are valid and each parameter has the same values in the same order in both; the order between different parameters is irrelevant.", "quantifier": "every pair of bodies, whatever the form parser returns", "why_tests_cant": "unbounded bodies", "anchors": ["rust/pact_matching/src/form_urlencoded.rs: match_form_urlencoded", "rust/pact_matching/src/lib.rs: group_by"]}
{"id": "C52", "title": "The language of path expressions", "statement": "A text is accepted as a path expression iff it is empty, or `$` (or a bare name) followed by segments `.name`, `.*`, `['key']`, `[n]` or `[*]`, and the segments are those written; no text denotes two different paths.", "quantifier": "every text, over every Unicode table", "why_tests_cant": "unbounded texts; acceptance and rejection of all of them", "anchors": ["rust/pact_models/src/path_exp.rs: DocPath::new, parse_path_exp"]}
{"id": "C53", "title": "Path navigation", "statement": "The parent of a path is the path without its last segment (none for a single segment); dropping n segments keeps the others (the root if none are left); joining an index or field replaces a trailing wildcard and otherwise appends; the shape queries and lower-casing look only at the segments.", "quantifier": "every path, index, name and count", "why_tests_cant": "unbounded paths", "anchors": ["rust/pact_models/src/path_exp.rs: parent, drop, join_index, join_field, to_lower_case, is_root, is_wildcard, first_field"]}
{"id": "C54", "title": "The demand of each matching rule", "statement": "A rule attached to a text, a status code or a JSON scalar accepts it iff the value meets the documented demand of the rule (equality, contained text, regular expression, boolean, not empty, null, version, date formats with their defaults).", "quantifier": "every rule, every expected and actual value, every regular expression engine and date validator", "why_tests_cant": "all values and rules", "anchors": ["rust/pact_matching/src/matchers.rs: impl Matches for &str, u64", "rust/pact_matching/src/json.rs: impl Matches for Value"]}
{"id": "C55", "title": "Merging matching rules keeps the rules of both", "statement": "After merging the matching rules of one interaction part into another, every category and path has the rules of the first followed by those of the second.", "quantifier": "all rule sets, any number of categories and paths, in any hash order", "why_tests_cant": "unbounded tables", "anchors": ["rust/pact_models/src/matchingrules/mod.rs: MatchingRules::merge, add_rules"]}
{"id": "C56", "title": "Messages without rules", "statement": "A message without matching rules is accepted iff its contents agree (an expected body needs an equivalent content type and equal contents; JSON objects may have additional entries) and every expected metadata entry is present with the expected value.", "quantifier": "every expected and actual message, every JSON parser and Unicode table", "why_tests_cant": "unbounded bodies and metadata", "anchors": ["rust/pact_matching/src/lib.rs: match_message_contents, match_message_metadata, match_metadata_value"]}
{"id": "C57", "title": "Rules act only on their own part", "statement": "Changing the rules of one category changes only the comparison of that part: path rules only the path, query rules only the query, header rules only headers and the content type check of the body, body rules only the body; the method is never affected.", "quantifier": "every pair of requests, responses or messages and all rule sets", "why_tests_cant": "all rule tables", "anchors": ["rust/pact_matching/src/lib.rs: match_request, match_response, match_message"]}
{"id": "C58", "title": "Path and status rules", "statement": "With rules for the path (or status), the actual path (status) is accepted iff it satisfies them, all or any as the combination says, whatever the example.", "quantifier": "every path, status, rule list and combination", "why_tests_cant": "all values and rules", "anchors": ["rust/pact_matching/src/lib.rs: match_path, match_status"]}
{"id": "C59", "title": "Text and binary bodies with rules", "statement": "A text body under rules is accepted iff both bodies are UTF-8 and the text satisfies the rules; a binary body iff the bytes satisfy them, all or any as the combination says.", "quantifier": "every body, rule list and combination", "why_tests_cant": "all byte strings and rules", "anchors": ["rust/pact_matching/src/lib.rs: compare_bodies_core, match_text", "rust/pact_matching/src/binary_utils.rs: match_octet_stream"]}
{"id": "C60", "title": "Which content type decides", "statement": "The content type attached to a body decides how it is compared; without one the Content-Type header in any letter case; without either the type detected from the contents.", "quantifier": "every body and header set", "why_tests_cant": "all header maps and bodies", "anchors": ["rust/pact_models/src/http_parts.rs: content_type, detect_content_type"]}
{"id": "C61", "title": "Provider state values take the requested data type", "statement": "A value converted to a data type has that type; a value of that type already is unchanged; conversion never panics and is defined for every null, boolean and number; every integer written as text converts to that integer.", "quantifier": "every value and data type", "why_tests_cant": "all JSON values", "anchors": ["rust/pact_models/src/expression_parser.rs: DataValue::as_json"]}
{"id": "C62", "title": "Modification functions of the C interface report whether they modified", "statement": "A function that modifies an interaction through a handle returns true exactly when the interaction exists and the mock server was not started, and changes nothing when it returns false.", "quantifier": "every handle and every state of the handle table", "why_tests_cant": "all histories of calls", "anchors": ["rust/pact_ffi/src/mock_server/handles.rs: pactffi_given, pactffi_upon_receiving, with_interaction"]}
{"id": "C63", "title": "Verification notices match the outcome", "statement": "After a pact from a broker has been verified, the notices for a successful verification are shown exactly when all its interactions passed, otherwise those for a failed one; with or without publishing.", "quantifier": "every list of pacts, interactions, pending flags and outcomes", "why_tests_cant": "all sequences of outcomes", "anchors": ["rust/pact_verifier/src/lib.rs: verify_provider_async, process_notices"]}
{"id": "C64", "title": "Context of a verification request", "statement": "The context with which the request of an interaction is made contains exactly the parameters of its provider states and the values returned by the setup handlers; handler values override parameters and later states override earlier ones.", "quantifier": "every interaction and every sequence of handler answers", "why_tests_cant": "all histories of handler answers", "anchors": ["rust/pact_verifier/src/lib.rs: verify_interaction, execute_provider_states"]}
{"id": "C65", "title": "Published verification result", "statement": "With publishing enabled one result is published for each verified pact from a broker: success exactly when every verified interaction of that pact passed, whether or not it is pending; otherwise nothing is published.", "quantifier": "every list of pacts and outcomes", "why_tests_cant": "all sequences of outcomes", "anchors": ["rust/pact_verifier/src/lib.rs: publish_result, publish_to_broker"]}
{"id": "C66", "title": "Rules handed to the matching engine keep their meaning", "statement": "The matching engine passes a rule on as its type name and attributes; the rule made from these is equal to the original.", "quantifier": "every matching rule", "why_tests_cant": "all rules with arbitrary nesting", "anchors": ["rust/pact_models/src/matchingrules/mod.rs: MatchingRule::name, values, create", "rust/pact_matching/src/engine/mod.rs", "rust/pact_matching/src/engine/interpreter.rs"]}
{"id": "C67", "title": "Generators survive a write/read cycle", "statement": "Generators written to JSON and read back are equal to the original; a generator made from the name and values of another one is equal to it.", "quantifier": "every table of generators, every generator", "why_tests_cant": "all tables, categories and keys", "anchors": ["rust/pact_models/src/generators/mod.rs: Generators::to_json, load_from_map, Generator::name, values, create"]}
{"id": "C68", "title": "Random values have the requested form", "statement": "Whatever is drawn: a random integer lies between its limits, and every integer between them can be drawn; a decimal, hexadecimal text, string or UUID has the requested number and kind of characters; generation never panics for limits in order.", "quantifier": "every random generator, every sequence of draws", "why_tests_cant": "randomness: all draws", "anchors": ["rust/pact_models/src/generators/mod.rs: generate_decimal, generate_hexadecimal, generate_ascii_string, strip_anchors, GenerateValue"]}
{"id": "C69", "title": "The comparison of a JSON value depends only on the rules that match at or below it", "statement": "Two rule tables that have the same rules (in the same order) at every path at or below a value give the same result and mismatches for that value; adding, removing or moving a rule of another branch changes nothing.", "quantifier": "every JSON value, path, pair of rule tables and comparison mode", "why_tests_cant": "all documents, tables and paths", "anchors": ["rust/pact_matching/src/json.rs: compare_json", "rust/pact_matching/src/lib.rs: CoreMatchingContext", "rust/pact_models/src/matchingrules/mod.rs: MatchingRuleCategory::select_best_matcher, resolve_matchers"]}
{"id": "C70", "title": "The example of a consumer pattern satisfies its own rules", "statement": "The body a consumer test generates from a pattern is accepted when compared with itself under the matching rules extracted from the pattern, in both comparison modes and for every iteration order of the rule table.", "quantifier": "every pattern (like, each_like, term, date, literals, arrays, objects, at any nesting), every regex and date engine", "why_tests_cant": "unbounded nesting; hash order", "anchors": ["rust/pact_consumer/src/patterns/json_pattern.rs: JsonPattern", "rust/pact_consumer/src/patterns/special_rules.rs: Like, EachLike, Term, ObjectMatching", "rust/pact_consumer/src/patterns/date_time.rs: DateTime", "rust/pact_consumer/src/builders/http_part_builder.rs: json_body", "rust/pact_matching/src/json.rs: compare_json"]}
{"id": "C71", "title": "A consumer pattern means what it says", "statement": "A document is accepted under the body and rules generated from a pattern exactly if the pattern describes it: literals are equal (or extended, or of the same shape below like/each_like), like fixes the kind, each_like the minimum length and the pattern of every element, term and date the text, arrays the items, objects the keys and values; for every iteration order of the rule table.", "quantifier": "every pattern at any nesting and every document, both comparison modes", "why_tests_cant": "unbounded nesting of patterns and documents; hash order", "anchors": ["rust/pact_consumer/src/patterns/json_pattern.rs: extract_matching_rules, to_example", "rust/pact_consumer/src/patterns/special_rules.rs: Like, EachLike, Term", "rust/pact_consumer/src/patterns/date_time.rs: DateTime", "rust/pact_matching/src/json.rs: compare_json", "rust/pact_models/src/matchingrules/mod.rs: MatchingRuleCategory::select_best_matcher"]}
{"id": "C72", "title": "Bodies survive a write/read cycle of a V4 pact file", "statement": "A body read from the V4 file it was written to has the same state (missing, empty, present), bytes, content type and hint; text is kept as text, other bytes via base64, JSON as a value.", "quantifier": "every body (any bytes, any content type, any hint), every set of headers", "why_tests_cant": "all byte strings", "anchors": ["rust/pact_models/src/bodies.rs: OptionalBody::to_v4_json", "rust/pact_models/src/v4/http_parts.rs: body_from_json, content_type_from_json"]}
{"id": "C73", "title": "HTTP requests and responses survive a write/read cycle of a V4 pact file", "statement": "Writing a request or response succeeds and reading it gives the same method (in upper case), path, status, query, headers, body, matching rules and generators.", "quantifier": "every request and response with distinct names", "why_tests_cant": "all values of all fields", "anchors": ["rust/pact_models/src/v4/http_parts.rs: HttpRequest, HttpResponse, to_json, from_json", "rust/pact_models/src/v4/mod.rs: calc_content_type"]}
{"id": "C74", "title": "Interactions and messages survive a write/read cycle of a V4 pact file", "statement": "Writing an HTTP interaction, an asynchronous or a synchronous message succeeds, and reading it gives an interaction of the same type with the same key, description, provider states, comments, pending flag, plugin configuration, markup, transport, contents, metadata, rules and generators.", "quantifier": "every interaction of each type", "why_tests_cant": "all values of all fields", "anchors": ["rust/pact_models/src/v4/synch_http.rs: SynchronousHttp", "rust/pact_models/src/v4/async_message.rs: AsynchronousMessage", "rust/pact_models/src/v4/sync_message.rs: SynchronousMessage", "rust/pact_models/src/v4/message_parts.rs: MessageContents", "rust/pact_models/src/provider_states.rs: ProviderState"]}
{"id": "C75", "title": "A V4 pact survives a write/read cycle", "statement": "Writing a V4 pact succeeds and reading the file gives the same consumer, provider, plugins, metadata (with the specification version set and the library version recorded) and interactions, ordered by description and otherwise in their own order.", "quantifier": "every V4 pact", "why_tests_cant": "all lists of interactions, all metadata", "anchors": ["rust/pact_models/src/v4/pact.rs: V4Pact::to_json, pact_from_json, metadata_to_json, extract_plugin_data", "rust/pact_models/src/plugins.rs: PluginData"]}
{"id": "C76", "title": "Which bodies a V1 to V3 file keeps", "statement": "The bytes of a body written to a V1-V3 file are read back exactly for a stated class of bodies: text that is not a JSON string, JSON up to spelling, binary data via base64; for every other body the outcome is characterised.", "quantifier": "every body (any bytes), content type in the header or detected, HTTP bodies and message contents", "why_tests_cant": "all byte strings", "anchors": ["rust/pact_models/src/http_parts.rs: body_from_json", "rust/pact_models/src/bodies.rs: OptionalBody", "rust/pact_models/src/request.rs: Request::to_json", "rust/pact_models/src/message.rs: Message::to_json, from_json"]}
{"id": "C77", "title": "V3 request/response pacts survive a write/read cycle", "statement": "Writing a request/response pact for V3 succeeds, and loading the file gives a request/response pact with the same consumer, provider, metadata and interactions in their order, each with the same description, provider states, method, path, query, headers, status, body, rules and generators.", "quantifier": "every request/response pact", "why_tests_cant": "all lists of interactions and values", "anchors": ["rust/pact_models/src/sync_pact.rs: RequestResponsePact::to_json, from_json", "rust/pact_models/src/sync_interaction.rs", "rust/pact_models/src/request.rs", "rust/pact_models/src/response.rs"]}
{"id": "C78", "title": "V3 message pacts survive a write/read cycle", "statement": "Writing a message pact for V3 succeeds, and loading the file gives a message pact with the same messages: description, provider states, contents, metadata, rules and generators.", "quantifier": "every message pact", "why_tests_cant": "all lists of messages", "anchors": ["rust/pact_models/src/message_pact.rs: MessagePact::to_json, from_json", "rust/pact_models/src/message.rs: Message::to_json, from_json"]}
{"id": "C79", "title": "V1 and V2 pacts survive a write/read cycle", "statement": "A request/response pact within the V2 form (one rule for each path, query strings, one provider state without parameters) is written for V1, V1.1 or V2 and read back as the same pact.", "quantifier": "every request/response pact, the versions 1, 1.1 and 2", "why_tests_cant": "all rule tables, queries and interactions", "anchors": ["rust/pact_models/src/matchingrules/mod.rs: to_v2_json, load_from_v2_map, matchers_from_json", "rust/pact_models/src/query_strings.rs: build_query_string, parse_query_string", "rust/pact_models/src/sync_interaction.rs: to_json"]}
{"id": "C80", "title": "A file is loaded with the version it declares", "statement": "The version of a file is the one in its pactSpecification (or pact-specification) metadata, V3 if there is none; a V4 file is loaded as a V4 pact, another one with messages as a message pact, every other one as a request/response pact; what is not a JSON object is refused.", "quantifier": "every JSON document", "why_tests_cant": "all documents", "anchors": ["rust/pact_models/src/pact.rs: load_pact_from_json, determine_spec_version, parse_meta_data"]}
{"id": "C81", "title": "Conversion between specification versions keeps the interactions", "statement": "Converting a V3 pact to V4 and back gives the same pact. A V4 pact written for an older version is either refused (mixed kinds, synchronous messages, messages before V3) or the file holds all its interactions; V3 pacts written for V4 are loaded as V4 pacts with all their interactions.", "quantifier": "every pact and target version", "why_tests_cant": "all lists of interactions of all kinds", "anchors": ["rust/pact_models/src/v4/pact.rs: V4Pact::to_json, as_request_response_pact, as_message_pact", "rust/pact_models/src/sync_pact.rs: as_v4_pact", "rust/pact_models/src/message_pact.rs: as_v4_pact", "rust/pact_models/src/message.rs: as_v4_async_message", "rust/pact_models/src/v4/async_message.rs: as_message"]}
{"id": "C82", "title": "Matching rule definition expressions mean what they say", "statement": "A definition expression written by the documented grammar (`matching(…)`, `notEmpty`, `eachKey`, `eachValue`, `atLeast`, `atMost`, separated by commas, with any white space between the words) is parsed without an error or a panic, and gives the documented rules in order, the example value and its type, and the generator; every string can be written in one.", "quantifier": "every definition expression of the grammar, all nestings, strings and layouts", "why_tests_cant": "all expressions and white space", "anchors": ["rust/pact_models/src/matchingrules/expressions.rs: parse_matcher_def, matching_definition, MatchingRuleDefinition::merge, process_raw_string"]}
{"id": "C83", "title": "Only definition expressions are accepted", "statement": "Whatever text is accepted as a matching rule definition is, word for word, a definition of the grammar and gives the rules it says; no text makes the parser panic; the text is recognised as a definition exactly when it starts like one; tokens are the longest matches of the documented patterns.", "quantifier": "every text", "why_tests_cant": "all texts, also malformed ones", "anchors": ["rust/pact_models/src/matchingrules/expressions.rs: parse_matcher_def, is_matcher_def, MatcherDefinitionToken"]}
{"id": "C84", "title": "The example of an integration JSON document", "statement": "The body built from a JSON document with embedded matchers is the document with every matcher replaced by its value (a list of the variants for arrayContains, null without value or for an unreadable matcher) and the other `pact:` attributes left out, whatever was in the pact before; a document without `pact:` attributes is kept and adds nothing, and processing the result again changes nothing.", "quantifier": "every JSON document, every state of the rules and generators", "why_tests_cant": "unbounded nesting of matchers, objects and arrays", "anchors": ["rust/pact_ffi/src/mock_server/bodies.rs: process_json, process_object, process_array, process_matcher, matchers_from_integration_json"]}
{"id": "C85", "title": "The rules and generators of an integration JSON document", "statement": "At every path the rules after are the rules before followed by those of the matchers of the document at this path (list items of a matched list share the wildcard path, as do the fields of a value with a rule for all values), each matcher with the rules its definition, name or list says, in order; nothing else changes; a matcher with a generator gives a generator at its path, its own before that of its definition and before those in its value.", "quantifier": "every JSON document, every state of the rules and generators", "why_tests_cant": "unbounded nesting", "anchors": ["rust/pact_ffi/src/mock_server/bodies.rs: process_object, process_array, process_matcher, matchers_from_integration_json", "rust/pact_ffi/src/mock_server/mod.rs: generator_category"]}
{"id": "C86", "title": "Path, status and query set through the C interface", "statement": "`pactffi_with_request`, `pactffi_response_status_v2` and `pactffi_with_query_parameter_v2` store the value their text stands for: the text itself unless it is a JSON object, else its `value` (an array gives several values).  A query value is set at its index, gaps are filled with missing values and every other value and parameter is left alone, so that after any sequence of single-value calls, in any order of names and indices, each value is the last one set for it.  The calls abort the program only for matchers with out-of-range numbers.", "quantifier": "every text, name, index, request and every sequence of calls", "why_tests_cant": "all histories of calls and all values and indices", "anchors": ["rust/pact_ffi/src/mock_server/handles.rs: with_request, response_status_v2, with_query_parameter_v2, from_integration_json_v2, update_query_map", "rust/pact_ffi/src/mock_server/bodies.rs: matchers_from_integration_json"]}
{"id": "C87", "title": "Rules and generators set with the parts of a message", "statement": "A value that is a matcher adds exactly its rules to the category of the part and, if it has one, its generator; other categories and paths are unchanged and a text without a matcher changes no rule and no generator.  The first value of a query parameter or header has the rule path `$.name`; setting a later value moves it to `$.name[0]` and uses `$.name[i]` for the later one, so that after any sequence of matcher calls in which the first value of each name comes first the table has each rule at its own value.", "quantifier": "every text, name, index, category, state of the rules and generators, and every sequence of calls in this order", "why_tests_cant": "all histories of calls", "anchors": ["rust/pact_ffi/src/mock_server/handles.rs: from_integration_json_v2, with_query_parameter_v2, with_header_v2, with_request, response_status_v2"]}
{"id": "C88", "title": "Headers set through the C interface", "statement": "`pactffi_with_header_v2` sets the value its text stands for at the index, in the header with that name in any case, keeping the spelling first used, filling gaps with empty values and leaving all other headers, values and parts alone; a text with commas as first value sets them all.  No sequence of calls produces two headers whose names differ only in case.  `pactffi_set_header` overwrites the header and changes no rule.", "quantifier": "every name, index, text and every request or response", "why_tests_cant": "all names, header maps and histories", "anchors": ["rust/pact_ffi/src/mock_server/handles.rs: with_header_v2, set_header", "rust/pact_models/src/v4/http_parts.rs: set_header, HttpRequest, HttpResponse"]}
{"id": "C89", "title": "XML bodies without rules", "statement": "Without matching rules an XML body is accepted exactly if its root element has the name (namespace and local part) of the expected one, every expected attribute with its value, for each child name at least the expected children of that name, the i-th one accepted for the i-th expected, and the same text; in strict mode nothing else.  The order of children with different names, of attributes, comments and white space at the ends of texts do not matter; acceptance is reflexive and transitive, in strict mode symmetric.", "quantifier": "all documents, both modes", "why_tests_cant": "unbounded nesting and numbers of children and attributes", "anchors": ["rust/pact_matching/src/xml.rs: match_xml, compare_element, compare_attributes, compare_children, compare_text"]}
{"id": "C90", "title": "XML bodies with rules", "statement": "With matching rules an XML body is accepted exactly if at every element, attribute and text the selected rule accepts it (or it is equal when there is none), children of one name are compared pairwise, or, under a type rule, each with the first expected one, at least one being there.  Strict acceptance implies lenient acceptance; an example that satisfies its own rules is accepted; mismatches point into the compared element; only rules that match a path in the element matter.", "quantifier": "all documents, rule tables and both modes", "why_tests_cant": "unbounded nesting, any rules", "anchors": ["rust/pact_matching/src/xml.rs: compare_element, compare_attributes, compare_children, compare_text, Matches for Element", "rust/pact_matching/src/lib.rs: type_matcher_defined"]}
{"id": "C91", "title": "Which dates and times a format accepts", "statement": "A value is accepted for a date/time format exactly if it is made of one text for each field of the format, in order, each in the range of its field (names in any case), and the day exists in the month and year; the default formats of the date, time and timestamp rules accept exactly the dates, times and timestamps described.", "quantifier": "every value and every format in which no field can run into the next one (soundness for every format)", "why_tests_cant": "all values and formats", "anchors": ["rust/pact_models/src/time_utils.rs: validate_datetime, validate_datetime_string, validate_matched_values and the field parsers", "rust/pact_matching/src/json.rs: Matches (Date, Time, Timestamp)"]}
{"id": "C92", "title": "What a date/time format is", "statement": "A text is a date/time format exactly if it is a non-empty sequence of runs of pattern letters within their limits, quoted texts, doubled quotes and other characters, and its reading is unique.", "quantifier": "every text", "why_tests_cant": "all texts", "anchors": ["rust/pact_models/src/time_utils.rs: parse_pattern and the letter patterns"]}
{"id": "C93", "title": "Generated dates and times satisfy their format", "statement": "At every moment the value generated with a format is accepted by the date, time or timestamp rule with the same format, for formats whose fields can be generated; the default date and time generators satisfy the default rules; the generation panics exactly for the stated formats.", "quantifier": "every moment of the years 0 to 9999, every offset, every format", "why_tests_cant": "all moments and formats", "anchors": ["rust/pact_models/src/time_utils.rs: generate_string, to_chrono_pattern", "rust/pact_models/src/generators/mod.rs: Generator::Date, Time, DateTime"]}
{"id": "C94", "title": "Checking a date never aborts", "statement": "Checking any value against any format with at most four year letters and fewer than 20 fraction letters in a row returns a result; for other formats the values on which it panics are stated.", "quantifier": "every value and format", "why_tests_cant": "all values and formats", "anchors": ["rust/pact_models/src/time_utils.rs: validate_datetime, validate_matched_values, second_fraction"]}
{"id": "C95", "title": "Which date and time expressions there are", "statement": "Every documented date expression (`now`, `today`, `yesterday`, `tomorrow`, `next`/`last` with a unit, day or month, followed by any number of `+`/`-` durations) and time expression (`now`, `midnight`, `noon`, `N o'clock` with `am`/`pm`, `next`/`last`, durations), laid out with any blanks between its words, is read as what it says; what is read is, up to an ignored end, such an expression.", "quantifier": "every text", "why_tests_cant": "all sentences, numbers and layouts", "anchors": ["rust/pact_models/src/generators/date_expression_parser.rs: expression, adjustments, duration, offset, DateExpressionToken", "rust/pact_models/src/generators/time_expression_parser.rs: expression, oclock, adjustments, TimeExpressionToken"]}
{"id": "C96", "title": "What date expressions stand for", "statement": "At every moment a date expression gives the date reached by its steps in order: days and weeks count days of the calendar, a month is the same day of the month that many months later (the first, or going back the last, of that month when it has no such day), a year the same day of that year (unchanged when there is none), `next`/`last` with a day or a month the nearest such day or first of such month after or before; the time of day is kept.", "quantifier": "every date expression (numbers up to 2·10^9), every moment of the years of chrono", "why_tests_cant": "all moments, numbers and lengths of expressions", "anchors": ["rust/pact_models/src/generators/datetime_expressions.rs: execute_date_expression, forward_date_by, reverse_date_by, roll_month, adjust_date_up_to, adjust_date_down_to"]}
{"id": "C97", "title": "What time expressions stand for", "statement": "A time expression gives its base (now, midnight, noon, an hour) moved by its durations, carried over to other days; the total of the durations counts, in any order; an expression with `@` is the date before it and then the time after it.", "quantifier": "every time and date-time expression (numbers up to 2·10^9), every moment", "why_tests_cant": "all moments, numbers and lengths of expressions", "anchors": ["rust/pact_models/src/generators/datetime_expressions.rs: execute_time_expression, execute_datetime_expression, TimeBase::of"]}
{"id": "C98", "title": "Generators with an expression", "statement": "An expression that is read never gives an error; it panics exactly if a step leaves the years of chrono, and gives a result whenever the numbers in it do not add up to that many years; no text makes the reader panic. A date, time or date-time generator with an expression formats the moment the expression stands for, and the rule with the same format accepts it.", "quantifier": "every expression, moment, format", "why_tests_cant": "all expressions and moments", "anchors": ["rust/pact_models/src/generators/datetime_expressions.rs: execute_date_expression, execute_time_expression, execute_datetime_expression", "rust/pact_models/src/generators/mod.rs: Generator::Date, Time, DateTime"]}
{"id": "C99", "title": "Forms are written and read without loss", "statement": "Writing any list of parameters as a form and reading it gives the same list, different lists are written differently, and only letters, digits and `* - . _ + % & =` are used; reading gives the parameters a form spells: pieces between `&`, name and value separated by the first `=`, `+` for a space, `%` with two digits for a byte.", "quantifier": "every list of names and values (any Unicode text), every form", "why_tests_cant": "all texts and all spellings", "anchors": ["rust/pact_models/src/generators/form_urlencoded.rs: process_body", "rust/pact_matching/src/form_urlencoded.rs: match_form_urlencoded", "rust/pact_matching/src/generators/bodies.rs: generators_process_body"]}
{"id": "C100", "title": "Matching forms with rules", "statement": "With rules for parameters (`$.name`) and for single values (`$.name[i]`) a form is accepted exactly if it has the same parameters as the expected one and every value satisfies its rule (its own before that of the parameter) or, without a rule, equals the expected one; the number of values must satisfy the rule of the parameter or, without one, be that of the example.  The order of different parameters does not matter.", "quantifier": "every form, every table of such rules, the same for queries", "why_tests_cant": "all numbers of parameters and values", "anchors": ["rust/pact_matching/src/form_urlencoded.rs: match_form_urlencoded", "rust/pact_matching/src/query.rs: match_query_maps, match_query_values, compare_query_parameter_values, compare_query_parameter_value"]}
{"id": "C101", "title": "Form bodies given as JSON", "statement": "A form body given as JSON with embedded matchers to the C interface is the form with the numbers and strings of the example document, attribute by attribute, arrays as repeated parameters; when nothing else is in the document the rules and generators are those of the JSON document, otherwise exactly the rules whose path contains the path of an unsupported value are removed, with their body generators.", "quantifier": "every JSON document, every state of the rules and generators", "why_tests_cant": "unbounded documents", "anchors": ["rust/pact_ffi/src/mock_server/form_urlencoded.rs: process_form_urlencoded_json, convert_json_value_to_query_params, handle_form_urlencoded_invalid_value"]}
{"id": "C102", "title": "Generators for forms", "statement": "The generator at `$.name` replaces the first value of the parameter, the one at `$.name[i]` value number i, and nothing else: no name or value is added, removed or moved.  Generators for different values do not influence each other and their order does not matter; the generated body is a form with exactly these parameters.", "quantifier": "every form and every table of generators, any random outcome", "why_tests_cant": "all numbers of parameters, all orders", "anchors": ["rust/pact_models/src/generators/form_urlencoded.rs: FormUrlEncodedHandler", "rust/pact_matching/src/generators/bodies.rs: generators_process_body"]}
{"id": "C103", "title": "The V2 matching engine always returns a result", "statement": "Matching a request with the V2 matching engine builds a plan from the expected request, executes it against the actual request and always returns a result, never panics, and returns an error exactly if the expected body has a JSON content type and is not JSON.", "quantifier": "every expected and actual request (not XML, plain names, rules without references)", "why_tests_cant": "unbounded plans: every body, rule table, query and header map", "anchors": ["rust/pact_matching/src/engine/mod.rs: build_request_plan, execute_request_plan", "rust/pact_matching/src/engine/interpreter.rs: ExecutionPlanInterpreter (walk_tree, execute_action, execute_match, resolve_stack_value)", "rust/pact_matching/src/engine/bodies.rs: JsonPlanBuilder, PlainTextBuilder", "rust/pact_matching/src/engine/value_resolvers.rs: HttpRequestValueResolver"]}
{"id": "C104", "title": "The verdict of the V2 engine, method and path", "statement": "With the V2 engine a request is accepted exactly if its method (ignoring case), path, query, headers and body are each accepted as the specification says, with no influence of one part on another; a method or path mismatch is reported exactly if the method differs, or a rule for the path does not match (without rules, the path differs).", "quantifier": "every expected and actual request", "why_tests_cant": "unbounded plans; errors in one part could be lost or leak into another", "anchors": ["rust/pact_matching/src/engine/mod.rs: setup_method_plan, setup_path_plan, build_matching_rule_node", "rust/pact_matching/src/engine/interpreter.rs: ExecutionPlanInterpreter (walk_tree, execute_action, execute_match, resolve_stack_value)", "rust/pact_matching/src/lib.rs: match_request, impl From<ExecutionPlan> for RequestMatchResult"]}
{"id": "C105", "title": "Query parameters in the V2 engine", "statement": "With the V2 engine a query mismatch is reported exactly if the names of the parameters differ or the values of one are not accepted: by its rules or, without rules, being the same values in the same order, where a single expected value also stands for any number of copies of it.", "quantifier": "every query map, rule table, number of values", "why_tests_cant": "all maps and rule tables", "anchors": ["rust/pact_matching/src/engine/mod.rs: setup_query_plan", "rust/pact_matching/src/engine/value_resolvers.rs: HttpRequestValueResolver", "rust/pact_matching/src/lib.rs: match_request, impl From<ExecutionPlan> for RequestMatchResult", "rust/pact_matching/src/engine/interpreter.rs: ExecutionPlanInterpreter (walk_tree, execute_action, execute_match, resolve_stack_value)"]}
{"id": "C106", "title": "Headers in the V2 engine", "statement": "With the V2 engine a header mismatch is reported exactly if an expected header (in any case) is missing or its values are not accepted: by its rules, or for headers with parameters by their main value and the expected parameters in any order, or by equality.", "quantifier": "every header map, rule table, number of values", "why_tests_cant": "all maps and rule tables", "anchors": ["rust/pact_matching/src/engine/mod.rs: setup_header_plan, build_parameterised_header_plan", "rust/pact_matching/src/engine/value_resolvers.rs: HttpRequestValueResolver", "rust/pact_matching/src/lib.rs: match_request, impl From<ExecutionPlan> for RequestMatchResult", "rust/pact_matching/src/engine/interpreter.rs: ExecutionPlanInterpreter (walk_tree, execute_action, execute_match, resolve_stack_value)"]}
{"id": "C107", "title": "JSON bodies in the V2 engine", "statement": "With the V2 engine a JSON body with the expected content type is accepted exactly if the recursive specification accepts it; without rules this is equality of scalars, of the keys of objects and of the lengths of arrays, at every depth, but items of arrays are compared only if the expected item is a scalar; documents without nested values in arrays are accepted exactly if they are equal.", "quantifier": "every JSON document, rule table and actual document", "why_tests_cant": "unbounded nesting", "anchors": ["rust/pact_matching/src/engine/bodies.rs: JsonPlanBuilder, PlainTextBuilder", "rust/pact_matching/src/engine/interpreter.rs: ExecutionPlanInterpreter (walk_tree, execute_action, execute_match, resolve_stack_value)", "rust/pact_matching/src/lib.rs: match_request, impl From<ExecutionPlan> for RequestMatchResult", "rust/pact_matching/src/engine/interpreter.rs: inject_index, execute_for_each, resolve_stack_value"]}
{"id": "C108", "title": "Other bodies in the V2 engine", "statement": "With the V2 engine a body that is neither JSON nor XML is accepted exactly if its text is that of the expected body; a missing expected body accepts everything, an empty one only bodies without contents.  A body with another content type than expected is accepted, whatever its contents.", "quantifier": "every body and content type", "why_tests_cant": "all bodies", "anchors": ["rust/pact_matching/src/engine/mod.rs: setup_body_plan", "rust/pact_matching/src/engine/bodies.rs: JsonPlanBuilder, PlainTextBuilder", "rust/pact_matching/src/engine/interpreter.rs: ExecutionPlanInterpreter (walk_tree, execute_action, execute_match, resolve_stack_value)", "rust/pact_matching/src/lib.rs: match_request, impl From<ExecutionPlan> for RequestMatchResult"]}
{"id": "C109", "title": "Combining rules in the V2 engine", "statement": "With the V2 engine all rules of a list must match, whatever the logic of the list: changing `and` to `or` in any or all of the lists of the expected request changes no verdict.", "quantifier": "every request, every rule table and change of logic", "why_tests_cant": "all rule tables and requests", "anchors": ["rust/pact_matching/src/engine/mod.rs: build_matching_rule_node", "rust/pact_matching/src/engine/interpreter.rs: ExecutionPlanInterpreter (walk_tree, execute_action, execute_match, resolve_stack_value)"]}
{"id": "C110", "title": "Rules for the items of arrays in the V2 engine", "statement": "With the V2 engine an array with a rule and a scalar first item accepts an actual array exactly if the rules for the array itself accept it; the items are not checked, so that with a type rule every array is accepted.", "quantifier": "every rule table, array and actual array", "why_tests_cant": "all arrays", "anchors": ["rust/pact_matching/src/engine/bodies.rs: JsonPlanBuilder, PlainTextBuilder", "rust/pact_matching/src/engine/interpreter.rs: ExecutionPlanInterpreter (walk_tree, execute_action, execute_match, resolve_stack_value)"]}
{"id": "C111", "title": "A request accepts itself in the V2 engine", "statement": "With the V2 engine every expected request without rules, with plain names and keys, accepts itself.", "quantifier": "every request", "why_tests_cant": "all requests", "anchors": ["rust/pact_matching/src/engine/mod.rs: build_request_plan, execute_request_plan", "rust/pact_matching/src/engine/interpreter.rs: ExecutionPlanInterpreter (walk_tree, execute_action, execute_match, resolve_stack_value)", "rust/pact_matching/src/engine/bodies.rs: JsonPlanBuilder, PlainTextBuilder", "rust/pact_matching/src/engine/value_resolvers.rs: HttpRequestValueResolver", "rust/pact_matching/src/lib.rs: match_request, impl From<ExecutionPlan> for RequestMatchResult"]}
{"id": "C112", "title": "Multipart bodies without rules", "statement": "A request (or response) without rules and with a multipart body is accepted exactly if the method, path, query and headers agree (the status and headers), both bodies are multipart bodies, and every expected part has a counterpart, the first actual part with its name, or without a name at its position, of the same kind (field or file), with the expected headers, and with the same text (fields) or with contents that are accepted as bodies of the content type of the part (files), after base64 decoding.", "quantifier": "every pair of requests or responses, every number of parts, header, encoding and content", "why_tests_cant": "any number of parts; each file is a whole body comparison", "anchors": ["rust/pact_matching/src/binary_utils.rs: match_mime_multipart, match_mime_multipart_inner, match_mime_part", "rust/pact_matching/src/binary_utils.rs: match_field, match_headers", "rust/pact_matching/src/binary_utils.rs: match_file_part, MimeFile::decode_data"]}
{"id": "C113", "title": "Which parts of a multipart body are compared", "statement": "A multipart body accepts itself; parts that are not expected are accepted and the order of the parts does not matter.", "quantifier": "every multipart body, every list of additional parts, every permutation, every rule table (the last two)", "why_tests_cant": "all lists of parts", "anchors": ["rust/pact_matching/src/binary_utils.rs: match_mime_multipart, match_mime_multipart_inner, match_mime_part"]}
{"id": "C114", "title": "Matching rules for the parts of a multipart body", "statement": "A rule list for the name of a field decides on the text of the field; the contents of a file are compared exactly as a body of their own with the rules below the name of the part, with paths relative to it, and rules of other parts have no influence.", "quantifier": "every part, rule table, contents", "why_tests_cant": "all rule tables and contents", "anchors": ["rust/pact_matching/src/binary_utils.rs: match_field, match_headers", "rust/pact_matching/src/binary_utils.rs: match_file_part, MimeFile::decode_data"]}
{"id": "C115", "title": "Matching rules for the headers of parts", "statement": "A rule list for a header of a part decides whether its value is accepted; the others must be equal, `content-disposition` is not compared and the three headers about the content may be missing.", "quantifier": "every part, header map and rule table", "why_tests_cant": "all header maps and rule tables", "anchors": ["rust/pact_matching/src/binary_utils.rs: match_field, match_headers"]}
{"id": "C116", "title": "Detecting the content type of a text", "statement": "Without a declared content type a body is taken for XML, HTML, JSON or text by the beginning of its text only; every JSON document, after any white space, is detected as JSON.", "quantifier": "every text and JSON document", "why_tests_cant": "all texts and documents of any size", "anchors": ["rust/pact_models/src/content_types.rs: detect_content_type_from_string, detect_content_type_from_bytes"]}
{"id": "C117", "title": "Detecting the content type of bytes", "statement": "From the bytes of a text the same content type is detected as from the text, for JSON documents of any length.", "quantifier": "every text and JSON document", "why_tests_cant": "the first 32 bytes of every text", "anchors": ["rust/pact_models/src/content_types.rs: detect_content_type_from_string, detect_content_type_from_bytes"]}
{"id": "C118", "title": "Bodies without a declared content type", "statement": "An expected JSON body without content type accepts an actual body declared as JSON exactly if the documents agree; the content type rule accepts exactly the bytes whose type is found by the libraries or, for plain text, detected from the first bytes.", "quantifier": "every document, actual body and library result", "why_tests_cant": "all documents and bodies", "anchors": ["rust/pact_models/src/content_types.rs: detect_content_type_from_string, detect_content_type_from_bytes", "rust/pact_models/src/http_parts.rs: HttpPart::content_type, detect_content_type", "rust/pact_matching/src/binary_utils.rs: match_content_type"]}
{"id": "C119", "title": "XML bodies given as JSON", "statement": "From an XML description in JSON the C interface builds the described document: every element with its name, attributes and children in order, repeated as often as it has examples, and every text; it aborts exactly for descriptions that are not of this form, and for matchers whose rules cannot be read without aborting.", "quantifier": "every JSON description, every state of the rules and generators", "why_tests_cant": "unbounded nesting, any number of children, attributes and examples", "anchors": ["rust/pact_ffi/src/mock_server/xml.rs: generate_xml_body, create_element_from_json, add_attributes, duplicate_element"]}
{"id": "C120", "title": "Matchers in XML descriptions", "statement": "The rules of the matchers in an XML description are added, in order and to the ones before, exactly at the paths of the elements, attributes and texts they are written at, and nothing else of the table changes; at every path the generator is that of a matcher written there, else the one before.", "quantifier": "every JSON description, every state of the rules and generators", "why_tests_cant": "unbounded nesting, any table before", "anchors": ["rust/pact_ffi/src/mock_server/xml.rs: generate_xml_body, create_element_from_json, add_attributes, duplicate_element"]}
{"id": "C121", "title": "Matchers of XML descriptions are used for what they are written at", "statement": "The comparison of XML bodies uses, for every element, attribute and text, the rules written at it, otherwise those of the nearest element around it that has some, otherwise none; the document built from a description is accepted for itself.", "quantifier": "every description with plain names, every element, attribute and text", "why_tests_cant": "unbounded nesting; paths are written as text and parsed again", "anchors": ["rust/pact_ffi/src/mock_server/xml.rs: generate_xml_body, create_element_from_json, add_attributes, duplicate_element", "rust/pact_matching/src/xml.rs: compare_element, compare_attributes, compare_children, compare_text", "rust/pact_models/src/path_exp.rs: DocPath::new, DocPath::join", "rust/pact_models/src/matchingrules/mod.rs: MatchingRuleCategory::select_best_matcher"]}
{"id": "C122", "title": "The content type of a body set through the C interface", "statement": "A body set with `pactffi_with_body` has the given content type, else that of the request or response (its body or content type header), else the one detected from the text; a `Content-Type` header (for messages the `contentType` metadata) is added unless there is one; an empty text gives an empty body; nothing else but the body, its rules and the generators changes; a response of a synchronous message is appended to the others.", "quantifier": "every text, content type, request, response and message, with any headers, body, rules and generators", "why_tests_cant": "any number of headers, rules and calls in any order", "anchors": ["rust/pact_ffi/src/mock_server/handles.rs: pactffi_with_body, process_body, process_xml", "rust/pact_models/src/http_parts.rs: HttpPart::content_type; v4/mod.rs: calc_content_type"]}
{"id": "C123", "title": "The contents of a body set through the C interface", "statement": "The contents of the body are the example of a JSON text, with the rules and generators of its matchers added, the XML document or form that is described, and otherwise the text as it is; rules of other parts never change.  A request set up with JSON without matchers accepts exactly the requests with the same document in any layout, the same method, path and query and the expected headers.", "quantifier": "every text, content type, request and actual request", "why_tests_cant": "unbounded documents; composition of building and comparing", "anchors": ["rust/pact_ffi/src/mock_server/handles.rs: pactffi_with_body, process_body, process_xml", "rust/pact_ffi/src/mock_server/bodies.rs: process_json", "rust/pact_ffi/src/mock_server/form_urlencoded.rs: process_form_urlencoded_json", "rust/pact_ffi/src/mock_server/xml.rs: generate_xml_body, create_element_from_json, add_attributes, duplicate_element", "rust/pact_matching/src/lib.rs: match_request"]}
{"id": "C124", "title": "When setting a body aborts the process", "statement": "Setting a body aborts the process only for a content type that cannot be parsed, a content type header without values, a description in which a matcher or an XML node cannot be built, or a form that looks like JSON and is not; in all other cases it succeeds.", "quantifier": "every text, content type, request, response and message", "why_tests_cant": "unbounded documents; a panic across the C interface aborts the process", "anchors": ["rust/pact_ffi/src/mock_server/handles.rs: pactffi_with_body, process_body, process_xml", "rust/pact_ffi/src/mock_server/bodies.rs: process_json", "rust/pact_ffi/src/mock_server/form_urlencoded.rs: process_form_urlencoded_json"]}
{"id": "C125", "title": "Links of a Pact Broker", "statement": "The URL of a link with variables is its text with every variable replaced by its percent-encoded value (variables without a value stay as they are); values cannot add path segments, parameters or anything else of the structure of the URL, and different values give different text.", "quantifier": "every template, every set of values", "why_tests_cant": "all texts, including any Unicode in provider names, tags and branches", "anchors": ["rust/pact_verifier/src/pact_broker.rs: HALClient::parse_link_url, Link"]}
{"id": "C126", "title": "Published verification results", "statement": "The results published to a Pact Broker say success exactly if every interaction passed, and have an entry for every interaction that says whether it passed, with its mismatches or its error.", "quantifier": "every list of results, with any identifiers", "why_tests_cant": "any number of interactions, any order of identifiers", "anchors": ["rust/pact_verifier/src/pact_broker.rs: build_payload", "rust/pact_verifier/src/lib.rs: publish_to_broker"]}
{"id": "C127", "title": "The order of publishing", "statement": "Results are sent to a Pact Broker only after the branch and then every tag, in order, was accepted; then they are sent to the link of the pact for results, and if any of this fails nothing more is sent.", "quantifier": "every broker (any state and answers, which may depend on everything before), every list of tags, branch and links", "why_tests_cant": "every schedule of failures of a remote system", "anchors": ["rust/pact_verifier/src/pact_broker.rs: publish_verification_results, publish_provider_tags, publish_provider_branch"]}
{"id": "C128", "title": "Fetching pacts from a Pact Broker", "statement": "Every pact the broker names has one result, in order: the pact at its link or an error; an error of one does not keep the others from being fetched.  If the broker has no pacts this only fails the verification on demand; every other failure to get the pacts does.", "quantifier": "every broker (any state and answers), every number of pacts", "why_tests_cant": "every schedule of failures of a remote system", "anchors": ["rust/pact_verifier/src/pact_broker.rs: fetch_pacts_from_broker, fetch_pacts_dynamically_from_broker", "rust/pact_verifier/src/lib.rs: fetch_pact, verify_provider_async"]}
{"id": "C129", "title": "Retries", "statement": "A request to a Pact Broker is sent at least once and at most three times, and again only after a server error; its result is that of the last answer.", "quantifier": "every broker, every sequence of answers", "why_tests_cant": "every schedule of failures", "anchors": ["rust/pact_verifier/src/utils.rs: with_retries", "rust/pact_verifier/src/pact_broker.rs: HALClient::fetch, send_document, parse_broker_response"]}
{"id": "C130", "title": "Where requests to a Pact Broker go", "statement": "Documents are fetched from the host of the broker, with its credentials, whatever host the links have.", "quantifier": "every link and every URL library with the named properties", "why_tests_cant": "all links a broker may answer with", "anchors": ["rust/pact_verifier/src/pact_broker.rs: HALClient::fetch_url, resolve_path, with_doc_context, find_link"]}
{"id": "C131", "title": "The request that is sent to the provider", "statement": "The verifier sends the provider the request of the pact: its method, the URL made of the base URL and its path, its query, its headers and the bytes of its body; a pact without rules accepts the request it was sent.  A request is refused exactly if a header cannot be sent.", "quantifier": "every request, base URL, header library", "why_tests_cant": "all texts, any number of parameters and headers", "anchors": ["rust/pact_verifier/src/provider_client.rs: create_native_request, join_paths"]}
{"id": "C132", "title": "Custom headers", "statement": "A custom header given to the verifier is what the provider gets, whatever the pact has for that header.", "quantifier": "every request, every list of custom headers", "why_tests_cant": "all names in all spellings", "anchors": ["rust/pact_verifier/src/provider_client.rs: create_native_request", "rust/pact_verifier/src/lib.rs: setup_custom_headers, configure_http_client"]}
{"id": "C133", "title": "How answers of the provider are read", "statement": "The answer of the provider is taken with its status, for each header the values that are text, split at commas, and the bytes of its body; it is an error exactly if the body cannot be read, and reading it never aborts.", "quantifier": "every answer", "why_tests_cant": "all headers, values that are not text, all bodies", "anchors": ["rust/pact_verifier/src/provider_client.rs: native_response_to_pact_response, extract_headers, extract_body"]}
{"id": "C134", "title": "When an interaction is verified", "statement": "An interaction without rules is verified exactly if its request was sent, once, and answered with the expected status, all expected headers and an agreeing body, where JSON objects may have more entries.", "quantifier": "every provider (any state and answers), interaction, options", "why_tests_cant": "every behaviour of a remote system, all bodies", "anchors": ["rust/pact_verifier/src/provider_client.rs: make_provider_request", "rust/pact_verifier/src/lib.rs: verify_response_from_provider, verify_v3_interaction"]}
{"id": "C135", "title": "When a message is verified", "statement": "A message is asked for with one POST of its description and provider states; without rules it is verified exactly if the answer has an agreeing body and the expected metadata, taken from the header with metadata (Base64 of a JSON object) and the content type; for synchronous messages the status must also not be an error.", "quantifier": "every provider, message, metadata, options", "why_tests_cant": "every behaviour of a remote system, all bodies and metadata", "anchors": ["rust/pact_verifier/src/messages.rs: verify_message_from_provider, verify_sync_message_from_provider, extract_metadata", "rust/pact_matching/src/lib.rs: match_message, match_sync_message_response"]}
{"id": "C136", "title": "State change requests", "statement": "A state change sends a POST with the name of the state, its parameters and the action in the body or in the query; it is sent again only after a server error, at most as often as allowed; it succeeds exactly if the last answer has a status from 200 to 299, with the entries of its JSON object as values.", "quantifier": "every handler (any state and answers), state, parameters, number of attempts", "why_tests_cant": "every schedule of failures", "anchors": ["rust/pact_verifier/src/callback_executors.rs: HttpRequestProviderStateExecutor::call", "rust/pact_verifier/src/provider_client.rs: make_state_change_request", "rust/pact_verifier/src/utils.rs: with_retries"]}
{"id": "C137", "title": "All requests of an interaction", "statement": "While an interaction is verified the setup of its states, its request and the teardown of its states are sent in this order, and nothing else.", "quantifier": "every provider and handler (any state and answers), interaction, states", "why_tests_cant": "every schedule of failures of two remote systems", "anchors": ["rust/pact_verifier/src/lib.rs: verify_interaction, execute_provider_states", "rust/pact_verifier/src/provider_client.rs: make_provider_request, make_state_change_request"]}
{"id": "C138", "title": "Where the requests go", "statement": "The request of an interaction goes to the first transport with the name the interaction gives, without one to the first of those with a default name, with `http` if it has no scheme, and if there is none to the provider itself.", "quantifier": "every list of transports and every interaction", "why_tests_cant": "all lists", "anchors": ["rust/pact_verifier/src/provider_client.rs: make_provider_request", "rust/pact_verifier/src/lib.rs: ProviderTransport::base_url, verify_response_from_provider", "rust/pact_verifier/src/messages.rs: verify_message_from_provider"]}
{"id": "C139", "title": "Generated requests", "statement": "Applying the generators of a request changes its path, the headers and the query parameters the generators are named after, and nothing else: a header or parameter without a generator keeps its values, a header with one has its text as its only value (missing ones are added), every value of a parameter is replaced.  Generators of the other mode have no effect, failures are never errors, and the order of the generators does not matter when they are named after different things.", "quantifier": "every request, table of generators, mode, context, any random outcome", "why_tests_cant": "any number of headers, parameters and generators, every order of a hash map", "anchors": ["rust/pact_matching/src/lib.rs: generate_request, generate_response", "rust/pact_models/src/generators/mod.rs: apply_generators, Generators::generators_for_matching_rules, GenerateValue<String>, GenerateValue<Value>, GenerateValue<u16>, Generator::corresponds_to_mode"]}
{"id": "C140", "title": "Generated bodies", "statement": "In a generated JSON body exactly the values the generators address are replaced, each by a value of its generator from the value before, and every other value, at every depth, is as before; in a form the values addressed; generators for separate places do not influence each other, whatever their order.", "quantifier": "every document, every table of generators, mode, context, any random outcome", "why_tests_cant": "unbounded documents and tables, every order of a hash map", "anchors": ["rust/pact_matching/src/lib.rs: generate_request, generate_response", "rust/pact_matching/src/generators/bodies.rs: generators_process_body", "rust/pact_models/src/generators/mod.rs: apply_generators, Generators::generators_for_matching_rules, GenerateValue<String>, GenerateValue<Value>, GenerateValue<u16>, Generator::corresponds_to_mode"]}
{"id": "C141", "title": "Values from provider states", "statement": "A provider state generator gives the value of its expression with the names replaced by the values of the provider state, only for a provider; if a value is missing the request is unchanged, and if it cannot be converted to the required type the interaction fails.", "quantifier": "every expression, context and data type", "why_tests_cant": "all expressions and values", "anchors": ["rust/pact_matching/src/generators/mod.rs: DefaultVariantMatcher, generate_value_from_context, apply_generators_to_sync_message, apply_generators_to_async_message, ArrayContainsVariants", "rust/pact_models/src/expression_parser.rs: DataType::wrap, DataValue, MapValueResolver", "rust/pact_models/src/generators/mod.rs: generate_value_from_context", "rust/pact_matching/src/lib.rs: generate_request, generate_response"]}
{"id": "C142", "title": "Generated responses", "statement": "Applying the generators of a response changes its status to a number given by a generator for it (within its limits), the headers as for a request, and apart from the body (C140) nothing else; a body without generators, or that is neither JSON nor a form, stays the same.", "quantifier": "every response, table of generators, mode, context, any random outcome", "why_tests_cant": "any number of headers and generators, every order of a hash map", "anchors": ["rust/pact_matching/src/lib.rs: generate_request, generate_response", "rust/pact_models/src/generators/mod.rs: apply_generators, Generators::generators_for_matching_rules, GenerateValue<String>, GenerateValue<Value>, GenerateValue<u16>, Generator::corresponds_to_mode"]}
{"id": "C143", "title": "Generated messages", "statement": "Applying the generators of a message changes exactly the metadata the generators are named after, to JSON values of the generators, and the addressed values of JSON contents, for synchronous messages in the request and in each response with its own generators; the content type of the message, given by its contents or its metadata, decides how the contents are read.", "quantifier": "every message, table of generators, mode, context, any random outcome", "why_tests_cant": "any number of metadata, responses and generators", "anchors": ["rust/pact_matching/src/generators/mod.rs: DefaultVariantMatcher, generate_value_from_context, apply_generators_to_sync_message, apply_generators_to_async_message, ArrayContainsVariants", "rust/pact_matching/src/generators/bodies.rs: generators_process_body"]}
{"id": "C144", "title": "Generators for the variants of arrays", "statement": "Of an array with an `arrayContains` rule each item is generated with the generators of the variant whose rules accept it, and items accepted by none are unchanged; other values are unchanged, and the number and order of the items stay the same.", "quantifier": "every array, list of variants, rules and generators", "why_tests_cant": "any number of items and variants, nested", "anchors": ["rust/pact_matching/src/generators/mod.rs: DefaultVariantMatcher, generate_value_from_context, apply_generators_to_sync_message, apply_generators_to_async_message, ArrayContainsVariants"]}
{"id": "C145", "title": "The values generators produce", "statement": "A random generator always gives a value of its form (integers within their limits, UUIDs in their format, decimals, hexadecimal texts and texts of their length, booleans), as a text in paths, headers, queries and forms and as a value of the right kind in JSON; dates and times are made from the base moment of the context or from now; a value of a provider state is converted to its data type; the URL of the mock server replaces that of the example.", "quantifier": "every generator, context, data type and value, any random outcome", "why_tests_cant": "all values, limits and random outcomes", "anchors": ["rust/pact_models/src/generators/mod.rs: apply_generators, Generators::generators_for_matching_rules, GenerateValue<String>, GenerateValue<Value>, GenerateValue<u16>, Generator::corresponds_to_mode", "rust/pact_models/src/expression_parser.rs: impl TryFrom<DataValue> for u16, i64, f64, bool; Display for DataValue", "rust/pact_models/src/generators/mod.rs: replace_with_regex"]}
{"id": "C146", "title": "Values of provider states reach the provider", "statement": "The request that is sent to a provider is made with the values its state change handlers answered with: it is sent after the setup of the states, at most once, and it is the request of the pact with its generators applied to the values of the handlers, else to the parameters of the states; a path given by an expression has the values in it.", "quantifier": "every provider and handler (any state and answers), interaction, states, generators", "why_tests_cant": "every behaviour of two remote systems; composition of state changes, generators and sending", "anchors": ["rust/pact_verifier/src/lib.rs: verify_interaction, verify_response_from_provider, execute_provider_states", "rust/pact_matching/src/lib.rs: generate_request, generate_response", "rust/pact_verifier/src/callback_executors.rs: HttpRequestProviderStateExecutor::call"]}
{"id": "C147", "title": "Provider states given by a test", "statement": "After any sequence of calls an interaction has the provider states it was given, in order, and each parameter of a state has the value it was given last (what the text is as JSON, else the text itself); no other call changes them.", "quantifier": "every sequence of calls, all texts, mock server started or not", "why_tests_cant": "unbounded histories of calls with mutable state", "anchors": ["rust/pact_ffi/src/mock_server/handles.rs: pactffi_given, pactffi_given_with_param, pactffi_given_with_params, pactffi_upon_receiving"]}
{"id": "C148", "title": "Comments, key and description given by a test", "statement": "After any sequence of calls the comments, key, pending flag and description of an interaction are those given last, text comments are appended in order, NULL removes, and calls about these fields never change the request, response or contents, nor the other way round.", "quantifier": "every sequence of calls, all texts, mock server started or not", "why_tests_cant": "unbounded histories of calls with mutable state", "anchors": ["rust/pact_ffi/src/mock_server/handles.rs: pactffi_set_comment, pactffi_add_text_comment, pactffi_set_key, pactffi_set_pending, pactffi_interaction_test_name, pactffi_upon_receiving"]}
{"id": "C149", "title": "Bodies given as bytes", "statement": "A body given as bytes is exactly these bytes with the given content type (NULL is a null body, no bytes an empty one), a content type header or metadata is set, and the interaction without rules accepts exactly requests and responses with the same bytes and a comparable content type; a body given as a file is compared by its content type only, from V3 on.", "quantifier": "every interaction, part, content type, bytes, and every request and response compared", "why_tests_cant": "all byte strings and states of the interaction; composition of setting up and comparing", "anchors": ["rust/pact_ffi/src/mock_server/handles.rs: pactffi_with_binary_body, pactffi_with_binary_file, convert_ptr_to_body, add_content_type_matching_rule_to_body", "rust/pact_matching/src/lib.rs: match_body, compare_bodies_core"]}
{"id": "C150", "title": "Rules and generators given as JSON", "statement": "Rules given as JSON are added, path by path, after those that are there, in the order of the calls; generators replace those at the same path; of a synchronous message those of all responses are changed, nothing else changes, and a text that cannot be read changes nothing.  The JSON form of a table in a pact file adds an equal table.", "quantifier": "every sequence of calls, every JSON text, every table", "why_tests_cant": "unbounded tables and histories", "anchors": ["rust/pact_ffi/src/mock_server/handles.rs: pactffi_with_matching_rules, pactffi_with_generators", "rust/pact_models/src/matchingrules/mod.rs: matchers_from_json, MatchingRules::merge", "rust/pact_models/src/generators/mod.rs: add_generators, generators_from_json"]}
{"id": "C151", "title": "Message metadata given by a test", "statement": "After any sequence of calls the metadata of a message has, for each key, the value given last (NULL removes), and messages are accepted exactly if they have an equal value for each key, or, for keys that were given as a matcher, one that its rules accept; the rest of the interaction does not change; HTTP interactions and a started mock server refuse.", "quantifier": "every sequence of calls, keys, values, and every message compared", "why_tests_cant": "unbounded histories; composition of setting up and comparing", "anchors": ["rust/pact_ffi/src/mock_server/handles.rs: pactffi_with_metadata", "rust/pact_matching/src/lib.rs: match_message_metadata, match_metadata_value"]}
{"id": "C152", "title": "The pact file has what a test set", "statement": "An interaction set up by any sequence of calls for provider states, comments, test name, key, pending flag and description can be written whenever the one before could, and reading the file gives these fields with the values given last (empty comments are left out).", "quantifier": "every sequence of calls, all texts, every interaction that can be written", "why_tests_cant": "unbounded histories; composition of setting up, writing and reading", "anchors": ["rust/pact_ffi/src/mock_server/handles.rs: pactffi_given_with_param, pactffi_set_comment, pactffi_set_key", "rust/pact_models/src/v4/interaction.rs, v4/synch_http.rs: to_json, from_json"]}
{"id": "C153", "title": "Metadata of the pact given by a test", "statement": "Each entry of the metadata of a pact has the text it was given last, other entries and the rest of the pact are kept, the namespaces of the library and the empty one are refused, and the pact file has the entries.", "quantifier": "every sequence of calls, all texts, every pact that can be written", "why_tests_cant": "unbounded histories", "anchors": ["rust/pact_ffi/src/mock_server/handles.rs: pactffi_with_pact_metadata", "rust/pact_models/src/v4/pact.rs: metadata_to_json, from_json"]}
{"id": "C154", "title": "What the consumer builders build", "statement": "After any sequence of builder calls a request has the method, path and body given last, for each query parameter all values given for it in order, and for each header, whatever the case of its name, all values given for it in order, once, under the spelling used first; a response likewise has the last status, its headers and the last body; what was never given has its default (GET, /, 200, no query, no headers, no body).", "quantifier": "every sequence of builder calls, all texts and patterns", "why_tests_cant": "unbounded histories of calls on a mutable builder", "anchors": ["rust/pact_consumer/src/builders/request_builder.rs: RequestBuilder", "rust/pact_consumer/src/builders/response_builder.rs: ResponseBuilder", "rust/pact_consumer/src/builders/http_part_builder.rs: HttpPartBuilder", "rust/pact_consumer/src/patterns/string_pattern.rs: StringPattern"]}
{"id": "C155", "title": "The rules and generators the consumer builders add", "statement": "After any sequence of builder calls the matching rules of a query parameter, a header, the path and the body are those of the patterns the contents come from, all of which must hold, the generators those given for the values that are there, and nothing else has rules.", "quantifier": "every sequence of builder calls, all patterns", "why_tests_cant": "unbounded histories of calls on a mutable builder", "anchors": ["rust/pact_consumer/src/builders/request_builder.rs: path, path_from_provider_state, query_param", "rust/pact_consumer/src/builders/http_part_builder.rs: header, header_from_provider_state, json_body, body_matching", "rust/pact_consumer/src/patterns/string_pattern.rs, special_rules.rs, date_time.rs: extract_matching_rules"]}
{"id": "C157", "title": "The interaction of a consumer test", "statement": "After any sequence of calls an interaction has its description, the provider states in order with the entries of their parameter objects, all comments in order, the last test name, key, pending flag and transport, and the request and response of the calls made on their builders, whatever the order of these calls.", "quantifier": "every sequence of calls on an interaction builder and on the builders of its request and response", "why_tests_cant": "unbounded histories of calls on a mutable builder", "anchors": ["rust/pact_consumer/src/builders/interaction_builder.rs: InteractionBuilder"]}
{"id": "C158", "title": "Removing null fields", "statement": "`strip_null_fields` removes the null fields of objects at every depth and nothing else; nulls in arrays stay.", "quantifier": "every JSON value", "why_tests_cant": "unbounded depth", "anchors": ["rust/pact_consumer/src/util.rs: strip_null_fields"]}
{"id": "C156", "title": "What an interaction built by a consumer test accepts", "statement": "The request built by any sequence of builder calls accepts exactly the requests with the last method, a path, query parameters and headers that are those given, or that match the patterns they were given as, and a body that its JSON pattern describes (any body if none was given); the response likewise with the last status, where objects may have more entries.  It accepts its own example.", "quantifier": "every sequence of builder calls, every request and response compared, every iteration order", "why_tests_cant": "unbounded histories; composition of building and comparing", "anchors": ["rust/pact_consumer/src/builders/request_builder.rs, response_builder.rs, http_part_builder.rs", "rust/pact_matching/src/lib.rs: match_request, match_response", "rust/pact_matching/src/query.rs, headers.rs, json.rs"]}
{"id": "C159", "title": "Asynchronous messages of a consumer test", "statement": "After any sequence of calls a message has its description, the provider states and comments in order, the key, test name and pending flag given last, and, since the last `contents_from`, the body given last, for each metadata key the value given last (`contentType` without one is that of a body), and the rules of its JSON patterns; building aborts exactly if `contents_from` names a content type that cannot be parsed; the V3 message has the same contents.", "quantifier": "every sequence of calls on a message builder", "why_tests_cant": "unbounded histories of calls on a mutable builder", "anchors": ["rust/pact_consumer/src/builders/message_builder.rs: MessageInteractionBuilder"]}
{"id": "C160", "title": "Synchronous messages of a consumer test", "statement": "After any sequence of calls a synchronous message has the fields given as in C159, as its request the contents given for it (body and metadata given last, the rules and generators of all contents), and as its responses those given, in order, each with its own body, metadata, rules and generators.", "quantifier": "every sequence of calls on a synchronous message builder", "why_tests_cant": "unbounded histories of calls on a mutable builder", "anchors": ["rust/pact_consumer/src/builders/sync_message_builder.rs: SyncMessageInteractionBuilder"]}
{"id": "C161", "title": "What a message built by a consumer test accepts", "statement": "A message built by any sequence of calls accepts exactly the messages whose contents have an equivalent content type and are described by its pattern and that have all the metadata given; the responses of a synchronous message accept exactly as many messages, each described by the pattern at its position.  A message accepts itself.", "quantifier": "every sequence of calls, every message compared, every iteration order", "why_tests_cant": "unbounded histories; composition of building and comparing", "anchors": ["rust/pact_consumer/src/builders/message_builder.rs, sync_message_builder.rs", "rust/pact_matching/src/lib.rs: match_message_contents, match_message_metadata, match_sync_message_response"]}
{"id": "C162", "title": "The pact of a consumer test", "statement": "After any sequence of calls on the pact builder the pact has the consumer, provider and version asked for and exactly one interaction for each call, in the order of the calls, with everything asked for that a pact of its version can have; building aborts exactly if an interaction of a type the pact cannot have is added (or a message cannot be built, C159).  The calls do not change the metadata.", "quantifier": "every kind of pact, all names, every sequence of calls", "why_tests_cant": "unbounded histories of calls on a mutable builder", "anchors": ["rust/pact_consumer/src/builders/pact_builder.rs: PactBuilder", "rust/pact_consumer/src/builders/pact_builder_async.rs: PactBuilderAsync", "rust/pact_models/src/sync_pact.rs, message_pact.rs, v4/pact.rs: add_interaction, add_md_version"]}
{"id": "C163", "title": "The messages a consumer test gets", "statement": "The message iterators of a pact builder give exactly the messages of the pact, in order, then nothing: V3 and synchronous messages with the values of their generators and otherwise as defined, asynchronous messages as defined.  Whatever was taken from it, a dropped iterator writes the pact itself, without generated values.  For synchronous messages the generators are applied to all messages or, if the task that applies them does not finish, to none.", "quantifier": "every pact, all values drawn, every schedule of the task, any number of calls of next", "why_tests_cant": "schedules and random outcomes", "anchors": ["rust/pact_consumer/src/builders/message_iter.rs: MessageIterator, asynchronous_messages_iter, synchronous_messages_iter, messages_iter", "rust/pact_consumer/src/builders/pact_builder.rs: messages, v3_messages, synchronous_messages"]}
{"id": "C164", "title": "Comparing whole interactions", "statement": "Comparing two interactions, of any version, never aborts; HTTP interactions have the mismatches of their requests followed by those of their responses (and match iff both do), messages those of their contents; interactions of different kinds never match: it is an error if an HTTP interaction is expected, a mismatch otherwise.  The version and everything but the request and response, or the contents, plays no part.", "quantifier": "all pairs of interactions of all kinds and versions, all rules", "why_tests_cant": "a case distinction over all pairs of types with unbounded contents", "anchors": ["rust/pact_matching/src/lib.rs: match_interaction, match_interaction_request, match_interaction_response, match_message"]}
{"id": "C165", "title": "What an interaction without rules matches", "statement": "An interaction without rules matches exactly the interactions with the same method (ignoring case), path, query and status, all its headers and agreeing bodies; a message exactly the messages with agreeing contents and all its metadata.  In particular it matches itself.", "quantifier": "all pairs of interactions of any version without rules, all iteration orders of the maps", "why_tests_cant": "composition of all comparisons over unbounded contents", "anchors": ["rust/pact_matching/src/lib.rs: match_interaction, match_request, match_response, match_message"]}
{"id": "C166", "title": "The pact file of a consumer test", "statement": "Whatever calls built a V4 pact, its file can be written and read, and what is read has the same consumer, provider, interactions (in the order of their descriptions), contents, matching rules, generators, provider states and metadata.", "quantifier": "every sequence of builder calls on interactions, messages and synchronous messages, all texts and patterns", "why_tests_cant": "unbounded histories; composition of building, writing and reading", "anchors": ["rust/pact_consumer/src/builders/pact_builder.rs, interaction_builder.rs, request_builder.rs, response_builder.rs, http_part_builder.rs, message_builder.rs, sync_message_builder.rs", "rust/pact_models/src/v4/pact.rs: to_json, from_json"]}
{"id": "C167", "title": "Rules read from a pact file mean the same", "statement": "Comparing a JSON value under the matching rules that were read from a pact file has the same result as under the rules that were written; in particular, after building, writing and reading a pact, the body of a request, response or message that was given as a pattern accepts exactly the documents that the pattern describes.", "quantifier": "all tables of rules, all expected and actual documents, every sequence of builder calls", "why_tests_cant": "unbounded tables and documents; composition of building, writing, reading and comparing", "anchors": ["rust/pact_consumer/src/builders/http_part_builder.rs: json_body", "rust/pact_models/src/matchingrules/mod.rs: matchers_to_json, matchers_from_json", "rust/pact_matching/src/json.rs: compare_json", "rust/pact_models/src/v4/pact.rs: to_json, from_json"]}
{"id": "C168", "title": "What the matching rules of a file say", "statement": "Whatever document of matching rules is read, in V3/V4 or V2 form, the rules for each category and path are exactly those that the entries for that category and path state, in the order of the document and combined as the first of them says; category names are read in upper or lower case, header and headers are the same, an unknown name is the body; if any key or rule cannot be read, the whole document is refused.", "quantifier": "all JSON documents", "why_tests_cant": "unbounded documents, written by other implementations too", "anchors": ["rust/pact_models/src/matchingrules/mod.rs: matchers_from_json, load_from_v2_map, load_from_v3_map, add_v3_rules_from_json, add_rule_list"]}
{"id": "C169", "title": "What one matching rule of a file says", "statement": "Whatever JSON object is read as a matching rule, the result is the rule of the type it names (all spellings of it) with the attributes that the type needs, or, without a type, that of the first of the attributes regex, min, max, timestamp, time and date that it has; if the type is unknown or an attribute is missing it is refused.  Only these attributes play a part: further attributes and their order do not.", "quantifier": "all JSON objects, nested to any depth", "why_tests_cant": "unbounded recursive documents, written by other implementations too", "anchors": ["rust/pact_models/src/matchingrules/mod.rs: MatchingRule::from_json, MatchingRule::create, rules_from_json"]}
{"id": "C170", "title": "What the generators of a file say", "statement": "Whatever document of generators is read, the generator for each category and path is that of the last entry for it that names a known type and has what that type needs; everything that is no generator, no object or in an unknown category is left out, and the document is refused only if a key in the body or the metadata is no path expression.", "quantifier": "all JSON documents", "why_tests_cant": "unbounded documents, written by other implementations too", "anchors": ["rust/pact_models/src/generators/mod.rs: generators_from_json, Generators::load_from_map, parse_generator_from_map, Generator::from_map"]}
{"id": "C171", "title": "What the requests, responses and messages of a V4 file say", "statement": "Whatever JSON document is read as a request, response or message of a V4 file, the result is the one that the document stands for: method (GET by default, in upper case), path (/ by default), the status (200 by default), the query as an object or a query string, headers as arrays or as texts with values separated by commas, the metadata, and the body: missing or null as written, the text or JSON value or decoded Base64 of its content, with the content type of the attribute, else of the headers, else detected.  Nothing else is refused, except that a status that is no natural number makes the reader panic.", "quantifier": "all JSON documents", "why_tests_cant": "unbounded documents with any mix of missing, null and mistyped attributes, written by other implementations too", "anchors": ["rust/pact_models/src/v4/http_parts.rs: HttpRequest::from_json, HttpResponse::from_json, body_from_json, content_type_from_json", "rust/pact_models/src/v4/message_parts.rs: MessageContents::from_json", "rust/pact_models/src/json_utils.rs: headers_from_json", "rust/pact_models/src/query_strings.rs: v3_query_from_json"]}
{"id": "C172", "title": "What a V4 pact file says", "statement": "Whatever JSON document is read as a V4 pact, the result is the pact that the document stands for: names of consumer and provider (with defaults), one interaction for each entry in the same order, of the type that the entry names, with its identifiers, description, provider states (also as in older files), comments, pending flag, plugin configuration, markup, transport, and its request, response or messages as C171; the metadata without the plugins, and those plugins that have a name and a version.  Every document that stands for a pact is read, and a file with an entry that stands for no interaction is not.", "quantifier": "all JSON documents", "why_tests_cant": "unbounded documents with any mix of missing, null and mistyped attributes, written by other implementations too", "anchors": ["rust/pact_models/src/v4/interaction.rs: interactions_from_json, interaction_from_json", "rust/pact_models/src/v4/pact.rs: from_json", "rust/pact_models/src/v4/synch_http.rs: SynchronousHttp::from_json", "rust/pact_models/src/v4/async_message.rs: AsynchronousMessage::from_json", "rust/pact_models/src/v4/sync_message.rs: SynchronousMessage::from_json", "rust/pact_models/src/provider_states.rs: ProviderState::from_json"]}
{"id": "C173", "title": "What a V1, V2 or V3 pact file says", "statement": "Whatever JSON document is read as a request/response pact or message pact of an older version, the result is the pact that the document stands for, attribute by attribute: the query (an object only in V3), matching rules (also under the names of older files), bodies as JSON values or as texts, which are taken as JSON (in quotes, if they are no JSON text of a string or object), text or Base64 depending on the content type of the headers or on what they look like, missing requests and responses, the metadata and contents of messages, whose generators are not read, and the metadata of the pact with its older spellings.  Only V3 files can have messages, and messages that are no array are refused.", "quantifier": "all JSON documents, and all specification versions", "why_tests_cant": "unbounded documents with any mix of missing, null and mistyped attributes, written by other implementations too", "anchors": ["rust/pact_models/src/request.rs: Request::from_json", "rust/pact_models/src/response.rs: Response::from_json", "rust/pact_models/src/json_utils.rs: body_from_json", "rust/pact_models/src/sync_interaction.rs: RequestResponseInteraction::from_json", "rust/pact_models/src/sync_pact.rs: RequestResponsePact::from_json", "rust/pact_models/src/message.rs: Message::from_json", "rust/pact_models/src/message_pact.rs: MessagePact::from_json", "rust/pact_models/src/pact.rs: parse_meta_data"]}
{"id": "C174", "title": "The JSON report of a verification says what failed", "statement": "The JSON report has the overall outcome, the notices, the output, and the failures of interactions — pending ones apart — as many as there are and in order, each with the name of the interaction, its kind, its ID and the message or the mismatches with all their attributes.  Two results have the same report (and, for a parser that reads back what is written, the same file) exactly if they agree in all that; only a missing ID and an empty one, and values that are not UTF-8, cannot be told apart.", "quantifier": "all results of a verification run: any number of notices, lines and failures, and mismatches with any attributes", "why_tests_cant": "a dropped, swapped or merged attribute can hide in any of the eight kinds of mismatches and at any place of an unbounded list", "anchors": ["rust/pact_verifier/src/verification_result.rs: VerificationExecutionResult, VerificationMismatchResult, Into<Value>", "rust/pact_matching/src/lib.rs: Mismatch::to_json", "rust/pact_verifier_cli/src/reports.rs: write_json_report"]}
{"id": "C175", "title": "When mismatches are equal", "statement": "`==` on mismatches is an equivalence that compares the kind, the place and the two values, but not the message nor the bodies of a mismatch of content types; mismatches with the same report are equal unless values are not UTF-8.  Conversion to a common mismatch and back keeps those of query parameters and headers, and those of bodies with text values; a missing value becomes an empty one.  The derived order compares the messages as well, so it does not agree with `==`.", "quantifier": "all mismatches and all texts and bytes in them", "why_tests_cant": "laws over all pairs and triples of mismatches", "anchors": ["rust/pact_matching/src/lib.rs: Mismatch, PartialEq, PartialOrd, CommonMismatch, From<Mismatch>, description"]}
{"id": "C176", "title": "What is printed for failed interactions", "statement": "The output of a verification lists the failures in order, numbered from one: an error with its message in one line; mismatches under a title, in runs of the same kind, each run with a number and a summary of its first mismatch, then one line for that mismatch and one for each other of the run, in the order of their parameter, header, path or key, and, for bodies, the difference at the path of the first.  No mismatch and no error is left out, and the first mismatch of a run stays first whatever its place.", "quantifier": "all lists of failures with any number of mismatches of any kinds in any order", "why_tests_cant": "runs of any number and length, interleaved in any way", "anchors": ["rust/pact_verifier/src/lib.rs: process_errors, interaction_mismatch_output, display_body_mismatch", "rust/pact_matching/src/lib.rs: Mismatch::summary, description"]}
