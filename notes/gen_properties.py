#!/usr/bin/env python3
# Generates properties.jsonl (one JSON object per line).
import json, os
P=[]
def p(id,title,statement,quantifier,why,anchors):
    P.append(dict(id=id,title=title,statement=statement,quantifier=quantifier,why_tests_cant=why,anchors=anchors))
M="rust/pact_models/src/"; T="rust/pact_matching/src/"; V="rust/pact_verifier/src/"
p("C01","Path expression print/parse round-trip",
 "A document path assembled programmatically (root, then field keys, indices and wildcards) prints to an expression string which, when parsed again, yields exactly the same sequence of path segments; so a matching rule written to a pact file addresses the same value when the file is read back.",
 "every list of path segments with every possible field-name string (including quotes, backslashes, dots, unicode) and every index",
 "field names are arbitrary strings; tests pick a few names, and the failing ones (quote, backslash) are not in the suite",
 [M+"path_exp.rs: DocPath::push_field, build_expr, write_obj_key_for_path, parse_path_exp, DocPath::new"])
p("C02","Parsing a path expression never panics",
 "Parsing any string as a path expression returns either a path or an error value; it never aborts the process. (Where the code violates it, the exact set of offending inputs is characterised.)",
 "every input string",
 "needs all strings; index overflow and non-ASCII digits are not sampled",
 [M+"path_exp.rs: parse_path_exp, path_exp, path_identifier, bracket_path, index_path, string_path"])
p("C03","Distinct paths have distinct expression strings",
 "Paths are compared, ordered and hashed by their expression string only; two programmatically built paths with different segments never have the same expression string, so no rule table ever confuses two different paths.",
 "all pairs of segment lists over arbitrary field names and indices",
 "injectivity is a statement about all pairs",
 [M+"path_exp.rs: impl PartialEq/Hash/Ord for DocPath, build_expr, write_obj_key_for_path"])
p("C04","Path matching is token-wise prefix matching",
 "A rule path matches a concrete document path iff it has no more segments than the path and every rule segment matches the corresponding path segment (a field matches its own name, an index its own number, [*] any number, * anything); it matches 'exactly' iff in addition the lengths agree.",
 "every rule path (any length) and every concrete path",
 "the implementation multiplies weights in machine integers; long paths can overflow, far outside test sizes",
 [M+"path_exp.rs: DocPath::path_weight, matches_path, matches_path_exactly, matches_token"])
p("C05","The selected matching rule is a maximal-weight rule and is independent of table order",
 "For bodies and metadata, the rule list selected for a path is one whose path matches the value's path and no other matching rule path is more specific (weight x length); when the maximum is unique the selection is independent of the (hash-)order of the rule table.",
 "every rule table in every iteration order, every path",
 "rule tables are hash maps with per-process random iteration order; a test run sees one order",
 [M+"matchingrules/mod.rs: MatchingRuleCategory::max_by_path, select_best_matcher"])
p("C06","An exact rule beats every wildcard rule",
 "If the rule table has a rule for exactly the value's concrete path (no wildcards) then that rule is selected for the value, whatever other wildcard or parent rules are in the table.",
 "every rule table, every order, every concrete path",
 "quantifies over all tables and orders",
 [M+"matchingrules/mod.rs: max_by_path, calc_path_weight; path_exp.rs: path_weight"])
p("C07","Inherited (cascaded) rules are flagged as such",
 "The selected rule list is marked as cascaded iff the path it was defined on is shorter than the path of the value being compared.",
 "every rule table and path",
 "all tables",
 [M+"matchingrules/mod.rs: RuleList::as_cascaded, max_by_path"])
p("C08","Path algebra and JSON pointer conversion",
 "parent undoes push_field/push_index; appending a path to the root gives it back; join and push_* agree with the segment they add; the JSON pointer of a wildcard-free path, split on '/' and unescaped, gives back the path segments; wildcard paths give an error rather than a wrong pointer.",
 "all paths, all field names, all indices",
 "algebraic laws over all strings, including ~ and / in keys",
 [M+"path_exp.rs: parent, join, push_path, push_field, push_index, as_json_pointer, to_vec, drop"])
p("C09","'Is a matcher defined' agrees with the rule actually selected",
 "matcher_is_defined for a path answers true iff selecting the best matcher for that path yields a non-empty rule list.",
 "every rule table (no empty rule lists) and path",
 "two separate code paths must agree for all inputs",
 [T+"lib.rs: CoreMatchingContext::matcher_is_defined, select_best_matcher", M+"matchingrules/mod.rs: resolve_matchers_for_path"])
p("C10","AND/OR combination of rules",
 "With AND a value matches iff it matches every rule of the list; with OR iff it matches at least one; an empty rule list never matches silently; on failure the error list is non-empty.",
 "every rule list, every combination mode, every value",
 "all rule lists",
 [T+"matchers.rs: match_values"])
p("C11","Type matching is an equivalence on JSON kinds",
 "The type matcher accepts a scalar JSON value iff it is of the same JSON kind as the example (string, number, boolean, null, array, object); therefore acceptance is reflexive, symmetric and transitive on the kinds and independent of the concrete example value.",
 "every pair of JSON values",
 "all pairs of values",
 [T+"json.rs: impl Matches<&Value> for Value (Type arm)"])
p("C12","min/max type matchers bound the collection size",
 "minType(n)/maxType(n)/minmaxType(n,m) accept a list iff its length lies within the bounds, inclusive, when the rule is defined on the list itself; an inherited rule does not constrain nested list sizes.",
 "every list length and every pair of bounds",
 "boundary for all n",
 [T+"json.rs: Matches for Value MinType/MaxType/MinMaxType", T+"matchingrules.rs: impl Matches<&[T]> for &[T]"])
p("C13","Status-code classes partition the codes",
 "Every class rule (information, success, redirect, clientError, serverError) accepts exactly its century of codes; nonError accepts exactly codes below 400, error exactly codes 400 and above; explicit lists accept exactly their members.",
 "all 65536 u16 status codes, every explicit list",
 "whole domain and all lists",
 [T+"matchers.rs: match_status_code", M+"lib.rs: HttpStatus"])
p("C14","Integer, decimal and number matchers",
 "On JSON numbers: number accepts every number; integer accepts exactly integral representations; decimal exactly non-integral representations; so every number is accepted by exactly one of integer/decimal. On strings: integer accepts exactly the strings denoting integers, including negative ones.",
 "every JSON number and every string",
 "all strings; negative integers as strings are rejected by the code",
 [T+"json.rs: Matches for Value", T+"matchers.rs: Matches<&str> for &str"])
p("C15","Rule-free JSON comparison decides equality / containment",
 "With no matching rules, comparing an expected and an actual JSON body in strict mode (no unexpected keys) succeeds iff they are equal as JSON values (object key order ignored); in lenient mode iff actual equals expected except for additional object keys in the actual body at any depth.",
 "every pair of JSON documents of any depth and size",
 "unbounded recursive documents",
 [T+"json.rs: match_json, compare, compare_maps, compare_lists, compare_values", T+"lib.rs: match_keys"])
p("C16","Reflexivity: the example always satisfies its own contract",
 "A body always matches itself when no rules are defined, in both modes.",
 "every JSON document",
 "unbounded documents",
 [T+"json.rs: match_json"])
p("C17","Leniency is monotone",
 "Any actual body accepted in strict mode (no unexpected keys) is accepted in lenient mode too, with the same rules.",
 "every expected/actual pair, every rule table",
 "relates two executions on all inputs and rule tables",
 [T+"json.rs: compare_maps", T+"lib.rs: CoreMatchingContext::match_keys", T+"matchingrules.rs: compare_maps_with_matchingrule"])
p("C18","arrayContains means each variant occurs",
 "An array-contains rule accepts an actual list iff for every variant some element of the actual list matches it under the variant's rules; hence acceptance does not depend on the order of the elements and is preserved by adding elements.",
 "every list, permutation, extension and set of variants",
 "all permutations of all lists",
 [T+"matchingrules.rs: compare_lists_with_matchingrule (ArrayContains)"])
p("C19","A failed comparison always reports at least one mismatch",
 "Whenever the comparison of two documents fails, the list of mismatches it returns is non-empty (otherwise the aggregated result would count as a match).",
 "every comparison input",
 "invariant of the whole recursive comparator",
 [T+"json.rs: compare*", T+"matchingrules.rs", T+"lib.rs: merge_result"])
p("C20","Mismatches point inside the compared value",
 "Each mismatch reported while comparing the value at a path carries a path equal to or below that path.",
 "every comparison of any depth",
 "invariant over recursion depth",
 [T+"json.rs", T+"matchingrules.rs: compare_lists_with_matchingrule"])
p("C21","eachKey constrains every key of the actual map",
 "With an each-key rule on a map, the comparison succeeds only if every key of the actual map satisfies every key rule.",
 "every map of any size",
 "all maps and rules",
 [T+"matchingrules.rs: compare_maps_with_matchingrule, Matches for BTreeSet<String>", T+"json.rs"])
p("C22","values/eachValue ignore keys",
 "With a values or each-value rule on a map, missing and unexpected keys are never reported, only value mismatches.",
 "every pair of maps",
 "all maps",
 [T+"matchingrules.rs: compare_maps_with_matchingrule"])
p("C23","Query parameter matching without rules is equality",
 "With no matching rules, request query comparison succeeds iff expected and actual have the same parameters with the same value lists; missing and unexpected parameters are each reported.",
 "every pair of query maps",
 "all maps",
 [T+"query.rs: match_query_maps, compare_query_parameter_values", T+"lib.rs: match_query"])
p("C24","Header matching is insensitive to header-name case",
 "Header comparison gives the same verdict if the names of expected or actual headers change case; additional actual headers are ignored; each missing expected header is reported.",
 "every pair of header maps and every re-casing",
 "all re-casings of all maps",
 [T+"headers.rs: match_headers, match_header_maps, find_entry"])
p("C25","Verdict agrees with the reported mismatches",
 "A request (response, message) match result says 'all matched' iff its flattened list of mismatches is empty.",
 "every match result",
 "consistency of two independently coded observations",
 [T+"lib.rs: RequestMatchResult::{mismatches,all_matched}, BodyMatchResult"])
p("C26","The ranking score does not overflow",
 "The score used by a mock server to pick the closest interaction increases with fewer mismatches and never overflows or panics.",
 "every number of parameters, headers and body mismatches",
 "overflow beyond i8 needs >127 parameters",
 [T+"lib.rs: RequestMatchResult::score"])
p("C27","Body comparison decision table",
 "An expected body that is missing accepts anything; an empty expected body accepts only empty actual bodies; a present expected body rejects missing/empty actual bodies; differing content types give a content-type mismatch unless a content-type rule is defined.",
 "every combination of body states and content types",
 "all combinations with arbitrary content types",
 [T+"lib.rs: match_body, match_body_content, compare_bodies"])
p("C28","Methods compare case-insensitively",
 "HTTP method comparison succeeds iff the methods are equal ignoring case; this is an equivalence relation.",
 "all pairs of method strings",
 "all strings",
 [T+"lib.rs: match_method"])
p("C29","Query string round-trip",
 "Rendering a query parameter map to a query string and parsing it back gives the same map, so a V2 pact file preserves the query.",
 "every map of string keys to value lists",
 "arbitrary strings; the code violates it outside ASCII",
 [M+"query_strings.rs: parse_query_string, build_query_string, encode_query, decode_query"])
p("C30","Header JSON round-trip",
 "Headers written to a pact file and read back give the same header values.",
 "every header map",
 "values containing commas",
 [M+"headers.rs: parse_header", M+"json_utils.rs: headers_to_json, headers_from_json"])
p("C31","Merging pacts keeps every interaction, or reports a conflict",
 "Merging two pacts for the same consumer/provider either reports a conflict or gives a pact in which every interaction of both inputs (identified by description and provider states, or by key) is present exactly once; merging a pact with itself changes nothing.",
 "all pairs of pacts with any number of interactions, sorted or not",
 "quantifies over pairs of interaction lists and their orders",
 [M+"sync_pact.rs: RequestResponsePact::merge", M+"message_pact.rs: merge", M+"v4/pact.rs: V4Pact::merge", M+"sync_interaction.rs: conflicts_with"])
p("C32","Writing a pact file never loses recorded interactions",
 "When several writers add interactions to the same pact file, the final file contains the interactions of all of them; a crash at any point leaves the old or the new contents.",
 "all interleavings of any number of writers and all crash points",
 "schedules and crash points",
 [M+"pact.rs: write_pact", M+"file_utils.rs"])
p("C33","The conflict check looks at every pair",
 "The Cartesian product used for conflict detection yields each pair of elements of the two lists exactly once.",
 "all pairs of lists",
 "all lists",
 [M+"iterator_utils.rs: CartesianProductIterator"])
p("C34","Matching rules survive a write/read cycle",
 "Each matching rule, rule list, category and rules table written to V3/V4 JSON and read back is equal to the original.",
 "every rule, with arbitrary nested array-contains / each-key rules",
 "nested recursive structures of unbounded size",
 [M+"matchingrules/mod.rs: MatchingRule::to_json, from_json, create, RuleList::to_v3_json, add_v3_rules_from_json"])
p("C35","Adding rules only adds",
 "Adding rules to a category never removes or alters previously present rules for other paths and appends to the rules of the same path.",
 "all tables and added rules",
 "all tables",
 [M+"matchingrules/mod.rs: MatchingRuleCategory::add_rule, add_rules, RuleList::add_rules, merge"])
p("C36","Rule equality distinguishes rules with different behaviour",
 "Two rules that compare equal accept the same values, so deduplicating a rule list does not change its meaning.",
 "all pairs of rules and all values",
 "all pairs",
 [M+"matchingrules/mod.rs: impl PartialEq for MatchingRule, RuleList::remove_duplicates"])
p("C37","Generators only touch what they address",
 "Applying a generator at a path of a JSON body changes only values addressed by that path; object keys and array lengths elsewhere are unchanged; an absent path changes nothing.",
 "every document, path and generator value",
 "unbounded documents",
 [M+"generators/mod.rs: JsonHandler::apply_key, query_object_graph", M+"json_utils.rs"])
p("C38","Provider-state expression substitution",
 "Substituting ${...} expressions in a string never panics; text outside expressions is unchanged and each expression is replaced by the value of its name.",
 "every string and every value map",
 "all strings, including stray braces",
 [M+"expression_parser.rs: replace_expressions, parse_expression, contains_expressions"])
p("C39","Verification result classification",
 "Provider verification reports success iff no non-pending interaction failed; failures of pending interactions never fail the run; provider-state teardown runs whenever setup was attempted.",
 "every list of interactions, pending flags and outcomes",
 "all sequences of outcomes",
 [V+"lib.rs: verify_provider_async, verify_pact_internal, verify_interaction, execute_provider_states"])
p("C40","FFI handles address what they were created for",
 "The interaction handle packs the pact index and the interaction index; unpacking returns both for every value, and distinct pairs give distinct handles.",
 "all u16 pairs and more interactions than fit",
 "whole 32-bit domain; overflow after 65535",
 ["rust/pact_ffi/src/mock_server/handles.rs: PactHandle, InteractionHandle"])
p("C41","JSON deep merge",
 "Deep-merging configuration documents keeps all keys of both; keys in the second override scalars; arrays are concatenated; merging is associative.",
 "all JSON triples",
 "recursive documents",
 [M+"json_utils.rs: json_deep_merge"])
p("C42","Numbers read from JSON keep their value",
 "A status code or numeric attribute read from JSON has the same value as in the document or is rejected.",
 "all JSON numbers",
 "truncation above 65535",
 [M+"json_utils.rs: json_to_num", M+"expression_parser.rs: TryFrom<DataValue> for u16"])
p("C43","Interaction filters",
 "An interaction is verified iff it satisfies the description and provider-state filter; the no-state filter selects exactly the interactions without provider states.",
 "all filters and interactions",
 "all lists of states and patterns",
 [V+"lib.rs: FilterInfo, filter_interaction"])
out=os.path.join(os.path.dirname(__file__),"..","properties.jsonl")
extra=os.path.join(os.path.dirname(__file__),"properties_extra.py")
if os.path.exists(extra): exec(open(extra).read())
with open(out,"w") as f:
    for x in P: f.write(json.dumps(x,ensure_ascii=False)+"\n")
print(len(P))
