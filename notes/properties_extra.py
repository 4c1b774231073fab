p("C44","Type rules are inherited by everything below ('like'), size rules are not",
 "With one type rule (or a min/max type rule) on a value, everything below the rule's path is accepted iff it has the same shape as the example: same JSON kinds, each list item like the corresponding example item (the first one beyond the examples), the object keys required by the mode; the size bounds apply to the list the rule is defined on and to nothing below it.",
 "every example and actual document of any depth, every path the rule matches, every bound",
 "recursion of unbounded depth with inherited rules",
 [T+"json.rs: compare, compare_lists, compare_maps, compare_list_content", T+"matchingrules.rs: match_list_contents (compare_lists_with_matchingrule)", M+"matchingrules/mod.rs: max_by_path"])
p("C45","A text rule on a query parameter or header applies to every value",
 "With one text rule (regex, date/time/timestamp, boolean, semver, content type ...) on a query parameter or header and at least one example value, the entry is accepted iff every actual value satisfies the rule, however many values there are, whatever the example values are.",
 "every rule of that family, every list of example and actual values, every name, whatever the regex/date engines answer",
 "unbounded value lists and arbitrary external engines",
 [T+"query.rs: match_query_values, compare_query_parameter_values", T+"headers.rs: match_header_maps, match_header_value"])
p("C46","Content-Type / Accept headers are compared by main value and expected parameters",
 "Without a rule, an Accept or Content-Type value is accepted iff its main value equals the expected one and every expected parameter is present with the same value ignoring ASCII case; parameter order, whitespace around separators and additional parameters are irrelevant.",
 "every expected and actual header value (arbitrary text)",
 "unbounded texts and parameter lists; parsing of arbitrary strings",
 [T+"headers.rs: match_parameter_header, parse_charset_parameters, strip_whitespace"])
p("C47","A request without rules is accepted iff it is the expected one",
 "An expected request without matching rules accepts exactly the requests with the same method (ignoring case), the same path, the same query parameters, all expected headers with matching values, and an agreeing body (equal JSON, same form parameters, or same bytes); extra headers are ignored.",
 "every pair of requests (any number of parameters, headers, any JSON document), every content type but XML and multipart",
 "composition of five unbounded comparisons",
 [T+"lib.rs: match_request, match_path, match_body, match_query, match_headers"])
p("C48","A response without rules is accepted iff status, headers and body agree",
 "An expected response without matching rules accepts exactly the responses with the same status, all expected headers with matching values and an agreeing body, where JSON objects may have additional entries.",
 "every pair of responses, every content type but XML and multipart",
 "composition of unbounded comparisons",
 [T+"lib.rs: match_response, match_status"])
p("C49","Synchronous messages are compared response by response",
 "A synchronous message is accepted iff the request matches, the number of responses is the expected one and each response matches the expected one at the same position.",
 "every request, every list of expected and actual responses, every rule table",
 "unbounded lists",
 [T+"lib.rs: match_sync_message, match_sync_message_response, match_message_contents, match_message_metadata"])
p("C50","Content type equivalence",
 "Two content types are equivalent iff they denote the same media type, ignoring parameters that are not expected; every type is equivalent to itself, and types with different structured syntax suffixes are not equivalent.",
 "every pair of content types",
 "arbitrary types, parameters and suffixes",
 [M+"content_types.rs: ContentType::is_equivalent_to, base_type"])
p("C51","Form bodies are compared parameter by parameter",
 "Without rules two form-urlencoded bodies match iff both are valid and each parameter has the same values in the same order in both; the order between different parameters is irrelevant.",
 "every pair of bodies, whatever the form parser returns",
 "unbounded bodies",
 [T+"form_urlencoded.rs: match_form_urlencoded", T+"lib.rs: group_by"])
p("C52","The language of path expressions",
 "A text is accepted as a path expression iff it is empty, or `$` (or a bare name) followed by segments `.name`, `.*`, `['key']`, `[n]` or `[*]`, and the segments are those written; no text denotes two different paths.",
 "every text, over every Unicode table",
 "unbounded texts; acceptance and rejection of all of them",
 [M+"path_exp.rs: DocPath::new, parse_path_exp"])
p("C53","Path navigation",
 "The parent of a path is the path without its last segment (none for a single segment); dropping n segments keeps the others (the root if none are left); joining an index or field replaces a trailing wildcard and otherwise appends; the shape queries and lower-casing look only at the segments.",
 "every path, index, name and count",
 "unbounded paths",
 [M+"path_exp.rs: parent, drop, join_index, join_field, to_lower_case, is_root, is_wildcard, first_field"])
p("C54","The demand of each matching rule",
 "A rule attached to a text, a status code or a JSON scalar accepts it iff the value meets the documented demand of the rule (equality, contained text, regular expression, boolean, not empty, null, version, date formats with their defaults).",
 "every rule, every expected and actual value, every regular expression engine and date validator",
 "all values and rules",
 [T+"matchers.rs: impl Matches for &str, u64", T+"json.rs: impl Matches for Value"])
p("C55","Merging matching rules keeps the rules of both",
 "After merging the matching rules of one interaction part into another, every category and path has the rules of the first followed by those of the second.",
 "all rule sets, any number of categories and paths, in any hash order",
 "unbounded tables",
 [M+"matchingrules/mod.rs: MatchingRules::merge, add_rules"])
p("C56","Messages without rules",
 "A message without matching rules is accepted iff its contents agree (an expected body needs an equivalent content type and equal contents; JSON objects may have additional entries) and every expected metadata entry is present with the expected value.",
 "every expected and actual message, every JSON parser and Unicode table",
 "unbounded bodies and metadata",
 [T+"lib.rs: match_message_contents, match_message_metadata, match_metadata_value"])
p("C57","Rules act only on their own part",
 "Changing the rules of one category changes only the comparison of that part: path rules only the path, query rules only the query, header rules only headers and the content type check of the body, body rules only the body; the method is never affected.",
 "every pair of requests, responses or messages and all rule sets",
 "all rule tables",
 [T+"lib.rs: match_request, match_response, match_message"])
p("C58","Path and status rules",
 "With rules for the path (or status), the actual path (status) is accepted iff it satisfies them, all or any as the combination says, whatever the example.",
 "every path, status, rule list and combination",
 "all values and rules",
 [T+"lib.rs: match_path, match_status"])
p("C59","Text and binary bodies with rules",
 "A text body under rules is accepted iff both bodies are UTF-8 and the text satisfies the rules; a binary body iff the bytes satisfy them, all or any as the combination says.",
 "every body, rule list and combination",
 "all byte strings and rules",
 [T+"lib.rs: compare_bodies_core, match_text", T+"binary_utils.rs: match_octet_stream"])
p("C60","Which content type decides",
 "The content type attached to a body decides how it is compared; without one the Content-Type header in any letter case; without either the type detected from the contents.",
 "every body and header set",
 "all header maps and bodies",
 [M+"http_parts.rs: content_type, detect_content_type"])
p("C61","Provider state values take the requested data type","A value converted to a data type has that type; a value of that type already is unchanged; conversion never panics and is defined for every null, boolean and number; every integer written as text converts to that integer.","every value and data type","all JSON values",[M+"expression_parser.rs: DataValue::as_json"])
p("C62","Modification functions of the C interface report whether they modified","A function that modifies an interaction through a handle returns true exactly when the interaction exists and the mock server was not started, and changes nothing when it returns false.","every handle and every state of the handle table","all histories of calls",["rust/pact_ffi/src/mock_server/handles.rs: pactffi_given, pactffi_upon_receiving, with_interaction"])
LV="rust/pact_verifier/src/lib.rs"
p("C63","Verification notices match the outcome","After a pact from a broker has been verified, the notices for a successful verification are shown exactly when all its interactions passed, otherwise those for a failed one; with or without publishing.","every list of pacts, interactions, pending flags and outcomes","all sequences of outcomes",[LV+": verify_provider_async, process_notices"])
p("C64","Context of a verification request","The context with which the request of an interaction is made contains exactly the parameters of its provider states and the values returned by the setup handlers; handler values override parameters and later states override earlier ones.","every interaction and every sequence of handler answers","all histories of handler answers",[LV+": verify_interaction, execute_provider_states"])
p("C65","Published verification result","With publishing enabled one result is published for each verified pact from a broker: success exactly when every verified interaction of that pact passed, whether or not it is pending; otherwise nothing is published.","every list of pacts and outcomes","all sequences of outcomes",[LV+": publish_result, publish_to_broker"])
p("C66","Rules handed to the matching engine keep their meaning","The matching engine passes a rule on as its type name and attributes; the rule made from these is equal to the original.","every matching rule","all rules with arbitrary nesting",[M+"matchingrules/mod.rs: MatchingRule::name, values, create","rust/pact_matching/src/engine/mod.rs","rust/pact_matching/src/engine/interpreter.rs"])
p("C67","Generators survive a write/read cycle","Generators written to JSON and read back are equal to the original; a generator made from the name and values of another one is equal to it.","every table of generators, every generator","all tables, categories and keys",[M+"generators/mod.rs: Generators::to_json, load_from_map, Generator::name, values, create"])
p("C68","Random values have the requested form","Whatever is drawn: a random integer lies between its limits, and every integer between them can be drawn; a decimal, hexadecimal text, string or UUID has the requested number and kind of characters; generation never panics for limits in order.","every random generator, every sequence of draws","randomness: all draws",[M+"generators/mod.rs: generate_decimal, generate_hexadecimal, generate_ascii_string, strip_anchors, GenerateValue"])
P_="rust/pact_consumer/src/"
p("C69","The comparison of a JSON value depends only on the rules that match at or below it","Two rule tables that have the same rules (in the same order) at every path at or below a value give the same result and mismatches for that value; adding, removing or moving a rule of another branch changes nothing.","every JSON value, path, pair of rule tables and comparison mode","all documents, tables and paths",[T+"json.rs: compare_json",T+"lib.rs: CoreMatchingContext",M+"matchingrules/mod.rs: MatchingRuleCategory::select_best_matcher, resolve_matchers"])
p("C70","The example of a consumer pattern satisfies its own rules","The body a consumer test generates from a pattern is accepted when compared with itself under the matching rules extracted from the pattern, in both comparison modes and for every iteration order of the rule table.","every pattern (like, each_like, term, date, literals, arrays, objects, at any nesting), every regex and date engine","unbounded nesting; hash order",[P_+"patterns/json_pattern.rs: JsonPattern",P_+"patterns/special_rules.rs: Like, EachLike, Term, ObjectMatching",P_+"patterns/date_time.rs: DateTime",P_+"builders/http_part_builder.rs: json_body",T+"json.rs: compare_json"])
p("C71","A consumer pattern means what it says","A document is accepted under the body and rules generated from a pattern exactly if the pattern describes it: literals are equal (or extended, or of the same shape below like/each_like), like fixes the kind, each_like the minimum length and the pattern of every element, term and date the text, arrays the items, objects the keys and values; for every iteration order of the rule table.","every pattern at any nesting and every document, both comparison modes","unbounded nesting of patterns and documents; hash order",[P_+"patterns/json_pattern.rs: extract_matching_rules, to_example",P_+"patterns/special_rules.rs: Like, EachLike, Term",P_+"patterns/date_time.rs: DateTime",T+"json.rs: compare_json",M+"matchingrules/mod.rs: MatchingRuleCategory::select_best_matcher"])
p("C72","Bodies survive a write/read cycle of a V4 pact file","A body read from the V4 file it was written to has the same state (missing, empty, present), bytes, content type and hint; text is kept as text, other bytes via base64, JSON as a value.","every body (any bytes, any content type, any hint), every set of headers","all byte strings",[M+"bodies.rs: OptionalBody::to_v4_json",M+"v4/http_parts.rs: body_from_json, content_type_from_json"])
p("C73","HTTP requests and responses survive a write/read cycle of a V4 pact file","Writing a request or response succeeds and reading it gives the same method (in upper case), path, status, query, headers, body, matching rules and generators.","every request and response with distinct names","all values of all fields",[M+"v4/http_parts.rs: HttpRequest, HttpResponse, to_json, from_json",M+"v4/mod.rs: calc_content_type"])
p("C74","Interactions and messages survive a write/read cycle of a V4 pact file","Writing an HTTP interaction, an asynchronous or a synchronous message succeeds, and reading it gives an interaction of the same type with the same key, description, provider states, comments, pending flag, plugin configuration, markup, transport, contents, metadata, rules and generators.","every interaction of each type","all values of all fields",[M+"v4/synch_http.rs: SynchronousHttp",M+"v4/async_message.rs: AsynchronousMessage",M+"v4/sync_message.rs: SynchronousMessage",M+"v4/message_parts.rs: MessageContents",M+"provider_states.rs: ProviderState"])
p("C75","A V4 pact survives a write/read cycle","Writing a V4 pact succeeds and reading the file gives the same consumer, provider, plugins, metadata (with the specification version set and the library version recorded) and interactions, ordered by description and otherwise in their own order.","every V4 pact","all lists of interactions, all metadata",[M+"v4/pact.rs: V4Pact::to_json, pact_from_json, metadata_to_json, extract_plugin_data",M+"plugins.rs: PluginData"])
p("C76","Which bodies a V1 to V3 file keeps","The bytes of a body written to a V1-V3 file are read back exactly for a stated class of bodies: text that is not a JSON string, JSON up to spelling, binary data via base64; for every other body the outcome is characterised.","every body (any bytes), content type in the header or detected, HTTP bodies and message contents","all byte strings",[M+"http_parts.rs: body_from_json",M+"bodies.rs: OptionalBody",M+"request.rs: Request::to_json",M+"message.rs: Message::to_json, from_json"])
p("C77","V3 request/response pacts survive a write/read cycle","Writing a request/response pact for V3 succeeds, and loading the file gives a request/response pact with the same consumer, provider, metadata and interactions in their order, each with the same description, provider states, method, path, query, headers, status, body, rules and generators.","every request/response pact","all lists of interactions and values",[M+"sync_pact.rs: RequestResponsePact::to_json, from_json",M+"sync_interaction.rs",M+"request.rs",M+"response.rs"])
p("C78","V3 message pacts survive a write/read cycle","Writing a message pact for V3 succeeds, and loading the file gives a message pact with the same messages: description, provider states, contents, metadata, rules and generators.","every message pact","all lists of messages",[M+"message_pact.rs: MessagePact::to_json, from_json",M+"message.rs: Message::to_json, from_json"])
p("C79","V1 and V2 pacts survive a write/read cycle","A request/response pact within the V2 form (one rule for each path, query strings, one provider state without parameters) is written for V1, V1.1 or V2 and read back as the same pact.","every request/response pact, the versions 1, 1.1 and 2","all rule tables, queries and interactions",[M+"matchingrules/mod.rs: to_v2_json, load_from_v2_map, matchers_from_json",M+"query_strings.rs: build_query_string, parse_query_string",M+"sync_interaction.rs: to_json"])
p("C80","A file is loaded with the version it declares","The version of a file is the one in its pactSpecification (or pact-specification) metadata, V3 if there is none; a V4 file is loaded as a V4 pact, another one with messages as a message pact, every other one as a request/response pact; what is not a JSON object is refused.","every JSON document","all documents",[M+"pact.rs: load_pact_from_json, determine_spec_version, parse_meta_data"])
p("C81","Conversion between specification versions keeps the interactions","Converting a V3 pact to V4 and back gives the same pact. A V4 pact written for an older version is either refused (mixed kinds, synchronous messages, messages before V3) or the file holds all its interactions; V3 pacts written for V4 are loaded as V4 pacts with all their interactions.","every pact and target version","all lists of interactions of all kinds",[M+"v4/pact.rs: V4Pact::to_json, as_request_response_pact, as_message_pact",M+"sync_pact.rs: as_v4_pact",M+"message_pact.rs: as_v4_pact",M+"message.rs: as_v4_async_message",M+"v4/async_message.rs: as_message"])
p("C82","Matching rule definition expressions mean what they say","A definition expression written by the documented grammar (`matching(…)`, `notEmpty`, `eachKey`, `eachValue`, `atLeast`, `atMost`, separated by commas, with any white space between the words) is parsed without an error or a panic, and gives the documented rules in order, the example value and its type, and the generator; every string can be written in one.","every definition expression of the grammar, all nestings, strings and layouts","all expressions and white space",[M+"matchingrules/expressions.rs: parse_matcher_def, matching_definition, MatchingRuleDefinition::merge, process_raw_string"])
p("C83","Only definition expressions are accepted","Whatever text is accepted as a matching rule definition is, word for word, a definition of the grammar and gives the rules it says; no text makes the parser panic; the text is recognised as a definition exactly when it starts like one; tokens are the longest matches of the documented patterns.","every text","all texts, also malformed ones",[M+"matchingrules/expressions.rs: parse_matcher_def, is_matcher_def, MatcherDefinitionToken"])
FB="rust/pact_ffi/src/mock_server/bodies.rs"
p("C84","The example of an integration JSON document","The body built from a JSON document with embedded matchers is the document with every matcher replaced by its value (a list of the variants for arrayContains, null without value or for an unreadable matcher) and the other `pact:` attributes left out, whatever was in the pact before; a document without `pact:` attributes is kept and adds nothing, and processing the result again changes nothing.","every JSON document, every state of the rules and generators","unbounded nesting of matchers, objects and arrays",[FB+": process_json, process_object, process_array, process_matcher, matchers_from_integration_json"])
p("C85","The rules and generators of an integration JSON document","At every path the rules after are the rules before followed by those of the matchers of the document at this path (list items of a matched list share the wildcard path, as do the fields of a value with a rule for all values), each matcher with the rules its definition, name or list says, in order; nothing else changes; a matcher with a generator gives a generator at its path, its own before that of its definition and before those in its value.","every JSON document, every state of the rules and generators","unbounded nesting",[FB+": process_object, process_array, process_matcher, matchers_from_integration_json","rust/pact_ffi/src/mock_server/mod.rs: generator_category"])
FH="rust/pact_ffi/src/mock_server/handles.rs"
p("C86","Path, status and query set through the C interface","`pactffi_with_request`, `pactffi_response_status_v2` and `pactffi_with_query_parameter_v2` store the value their text stands for: the text itself unless it is a JSON object, else its `value` (an array gives several values).  A query value is set at its index, gaps are filled with missing values and every other value and parameter is left alone, so that after any sequence of single-value calls, in any order of names and indices, each value is the last one set for it.  The calls abort the program only for matchers with out-of-range numbers.","every text, name, index, request and every sequence of calls","all histories of calls and all values and indices",[FH+": with_request, response_status_v2, with_query_parameter_v2, from_integration_json_v2, update_query_map","rust/pact_ffi/src/mock_server/bodies.rs: matchers_from_integration_json"])
p("C87","Rules and generators set with the parts of a message","A value that is a matcher adds exactly its rules to the category of the part and, if it has one, its generator; other categories and paths are unchanged and a text without a matcher changes no rule and no generator.  The first value of a query parameter or header has the rule path `$.name`; setting a later value moves it to `$.name[0]` and uses `$.name[i]` for the later one, so that after any sequence of matcher calls in which the first value of each name comes first the table has each rule at its own value.","every text, name, index, category, state of the rules and generators, and every sequence of calls in this order","all histories of calls",[FH+": from_integration_json_v2, with_query_parameter_v2, with_header_v2, with_request, response_status_v2"])
p("C88","Headers set through the C interface","`pactffi_with_header_v2` sets the value its text stands for at the index, in the header with that name in any case, keeping the spelling first used, filling gaps with empty values and leaving all other headers, values and parts alone; a text with commas as first value sets them all.  No sequence of calls produces two headers whose names differ only in case.  `pactffi_set_header` overwrites the header and changes no rule.","every name, index, text and every request or response","all names, header maps and histories",[FH+": with_header_v2, set_header",M+"v4/http_parts.rs: set_header, HttpRequest, HttpResponse"])
p("C89","XML bodies without rules","Without matching rules an XML body is accepted exactly if its root element has the name (namespace and local part) of the expected one, every expected attribute with its value, for each child name at least the expected children of that name, the i-th one accepted for the i-th expected, and the same text; in strict mode nothing else.  The order of children with different names, of attributes, comments and white space at the ends of texts do not matter; acceptance is reflexive and transitive, in strict mode symmetric.","all documents, both modes","unbounded nesting and numbers of children and attributes",[T+"xml.rs: match_xml, compare_element, compare_attributes, compare_children, compare_text"])
p("C90","XML bodies with rules","With matching rules an XML body is accepted exactly if at every element, attribute and text the selected rule accepts it (or it is equal when there is none), children of one name are compared pairwise, or, under a type rule, each with the first expected one, at least one being there.  Strict acceptance implies lenient acceptance; an example that satisfies its own rules is accepted; mismatches point into the compared element; only rules that match a path in the element matter.","all documents, rule tables and both modes","unbounded nesting, any rules",[T+"xml.rs: compare_element, compare_attributes, compare_children, compare_text, Matches for Element",T+"lib.rs: type_matcher_defined"])
TU=M+"time_utils.rs: "
p("C91","Which dates and times a format accepts","A value is accepted for a date/time format exactly if it is made of one text for each field of the format, in order, each in the range of its field (names in any case), and the day exists in the month and year; the default formats of the date, time and timestamp rules accept exactly the dates, times and timestamps described.","every value and every format in which no field can run into the next one (soundness for every format)","all values and formats",[TU+"validate_datetime, validate_datetime_string, validate_matched_values and the field parsers",T+"json.rs: Matches (Date, Time, Timestamp)"])
p("C92","What a date/time format is","A text is a date/time format exactly if it is a non-empty sequence of runs of pattern letters within their limits, quoted texts, doubled quotes and other characters, and its reading is unique.","every text","all texts",[TU+"parse_pattern and the letter patterns"])
p("C93","Generated dates and times satisfy their format","At every moment the value generated with a format is accepted by the date, time or timestamp rule with the same format, for formats whose fields can be generated; the default date and time generators satisfy the default rules; the generation panics exactly for the stated formats.","every moment of the years 0 to 9999, every offset, every format","all moments and formats",[TU+"generate_string, to_chrono_pattern",M+"generators/mod.rs: Generator::Date, Time, DateTime"])
p("C94","Checking a date never aborts","Checking any value against any format with at most four year letters and fewer than 20 fraction letters in a row returns a result; for other formats the values on which it panics are stated.","every value and format","all values and formats",[TU+"validate_datetime, validate_matched_values, second_fraction"])
GD=M+"generators/date_expression_parser.rs: "
GT=M+"generators/time_expression_parser.rs: "
GX=M+"generators/datetime_expressions.rs: "
p("C95","Which date and time expressions there are","Every documented date expression (`now`, `today`, `yesterday`, `tomorrow`, `next`/`last` with a unit, day or month, followed by any number of `+`/`-` durations) and time expression (`now`, `midnight`, `noon`, `N o'clock` with `am`/`pm`, `next`/`last`, durations), laid out with any blanks between its words, is read as what it says; what is read is, up to an ignored end, such an expression.","every text","all sentences, numbers and layouts",[GD+"expression, adjustments, duration, offset, DateExpressionToken",GT+"expression, oclock, adjustments, TimeExpressionToken"])
p("C96","What date expressions stand for","At every moment a date expression gives the date reached by its steps in order: days and weeks count days of the calendar, a month is the same day of the month that many months later (the first, or going back the last, of that month when it has no such day), a year the same day of that year (unchanged when there is none), `next`/`last` with a day or a month the nearest such day or first of such month after or before; the time of day is kept.","every date expression (numbers up to 2·10^9), every moment of the years of chrono","all moments, numbers and lengths of expressions",[GX+"execute_date_expression, forward_date_by, reverse_date_by, roll_month, adjust_date_up_to, adjust_date_down_to"])
p("C97","What time expressions stand for","A time expression gives its base (now, midnight, noon, an hour) moved by its durations, carried over to other days; the total of the durations counts, in any order; an expression with `@` is the date before it and then the time after it.","every time and date-time expression (numbers up to 2·10^9), every moment","all moments, numbers and lengths of expressions",[GX+"execute_time_expression, execute_datetime_expression, TimeBase::of"])
p("C98","Generators with an expression","An expression that is read never gives an error; it panics exactly if a step leaves the years of chrono, and gives a result whenever the numbers in it do not add up to that many years; no text makes the reader panic. A date, time or date-time generator with an expression formats the moment the expression stands for, and the rule with the same format accepts it.","every expression, moment, format","all expressions and moments",[GX+"execute_date_expression, execute_time_expression, execute_datetime_expression",M+"generators/mod.rs: Generator::Date, Time, DateTime"])
p("C99","Forms are written and read without loss","Writing any list of parameters as a form and reading it gives the same list, different lists are written differently, and only letters, digits and `* - . _ + % & =` are used; reading gives the parameters a form spells: pieces between `&`, name and value separated by the first `=`, `+` for a space, `%` with two digits for a byte.","every list of names and values (any Unicode text), every form","all texts and all spellings",[M+"generators/form_urlencoded.rs: process_body",T+"form_urlencoded.rs: match_form_urlencoded",T+"generators/bodies.rs: generators_process_body"])
p("C100","Matching forms with rules","With rules for parameters (`$.name`) and for single values (`$.name[i]`) a form is accepted exactly if it has the same parameters as the expected one and every value satisfies its rule (its own before that of the parameter) or, without a rule, equals the expected one; the number of values must satisfy the rule of the parameter or, without one, be that of the example.  The order of different parameters does not matter.","every form, every table of such rules, the same for queries","all numbers of parameters and values",[T+"form_urlencoded.rs: match_form_urlencoded",T+"query.rs: match_query_maps, match_query_values, compare_query_parameter_values, compare_query_parameter_value"])
FF="rust/pact_ffi/src/mock_server/form_urlencoded.rs: "
p("C101","Form bodies given as JSON","A form body given as JSON with embedded matchers to the C interface is the form with the numbers and strings of the example document, attribute by attribute, arrays as repeated parameters; when nothing else is in the document the rules and generators are those of the JSON document, otherwise exactly the rules whose path contains the path of an unsupported value are removed, with their body generators.","every JSON document, every state of the rules and generators","unbounded documents",[FF+"process_form_urlencoded_json, convert_json_value_to_query_params, handle_form_urlencoded_invalid_value"])
p("C102","Generators for forms","The generator at `$.name` replaces the first value of the parameter, the one at `$.name[i]` value number i, and nothing else: no name or value is added, removed or moved.  Generators for different values do not influence each other and their order does not matter; the generated body is a form with exactly these parameters.","every form and every table of generators, any random outcome","all numbers of parameters, all orders",[M+"generators/form_urlencoded.rs: FormUrlEncodedHandler",T+"generators/bodies.rs: generators_process_body"])
EN=T+"engine/mod.rs: "
EI=T+"engine/interpreter.rs: ExecutionPlanInterpreter (walk_tree, execute_action, execute_match, resolve_stack_value)"
EB=T+"engine/bodies.rs: JsonPlanBuilder, PlainTextBuilder"
EV=T+"engine/value_resolvers.rs: HttpRequestValueResolver"
EL=T+"lib.rs: match_request, impl From<ExecutionPlan> for RequestMatchResult"
p("C103","The V2 matching engine always returns a result","Matching a request with the V2 matching engine builds a plan from the expected request, executes it against the actual request and always returns a result, never panics, and returns an error exactly if the expected body has a JSON content type and is not JSON.","every expected and actual request (not XML, plain names, rules without references)","unbounded plans: every body, rule table, query and header map",[EN+"build_request_plan, execute_request_plan",EI,EB,EV])
p("C104","The verdict of the V2 engine, method and path","With the V2 engine a request is accepted exactly if its method (ignoring case), path, query, headers and body are each accepted as the specification says, with no influence of one part on another; a method or path mismatch is reported exactly if the method differs, or a rule for the path does not match (without rules, the path differs).","every expected and actual request","unbounded plans; errors in one part could be lost or leak into another",[EN+"setup_method_plan, setup_path_plan, build_matching_rule_node",EI,EL])
p("C105","Query parameters in the V2 engine","With the V2 engine a query mismatch is reported exactly if the names of the parameters differ or the values of one are not accepted: by its rules or, without rules, being the same values in the same order, where a single expected value also stands for any number of copies of it.","every query map, rule table, number of values","all maps and rule tables",[EN+"setup_query_plan",EV,EL,EI])
p("C106","Headers in the V2 engine","With the V2 engine a header mismatch is reported exactly if an expected header (in any case) is missing or its values are not accepted: by its rules, or for headers with parameters by their main value and the expected parameters in any order, or by equality.","every header map, rule table, number of values","all maps and rule tables",[EN+"setup_header_plan, build_parameterised_header_plan",EV,EL,EI])
p("C107","JSON bodies in the V2 engine","With the V2 engine a JSON body with the expected content type is accepted exactly if the recursive specification accepts it; without rules this is equality of scalars, of the keys of objects and of the lengths of arrays, at every depth, but items of arrays are compared only if the expected item is a scalar; documents without nested values in arrays are accepted exactly if they are equal.","every JSON document, rule table and actual document","unbounded nesting",[EB,EI,EL,T+"engine/interpreter.rs: inject_index, execute_for_each, resolve_stack_value"])
p("C108","Other bodies in the V2 engine","With the V2 engine a body that is neither JSON nor XML is accepted exactly if its text is that of the expected body; a missing expected body accepts everything, an empty one only bodies without contents.  A body with another content type than expected is accepted, whatever its contents.","every body and content type","all bodies",[EN+"setup_body_plan",EB,EI,EL])
p("C109","Combining rules in the V2 engine","With the V2 engine all rules of a list must match, whatever the logic of the list: changing `and` to `or` in any or all of the lists of the expected request changes no verdict.","every request, every rule table and change of logic","all rule tables and requests",[EN+"build_matching_rule_node",EI])
p("C110","Rules for the items of arrays in the V2 engine","With the V2 engine an array with a rule and a scalar first item accepts an actual array exactly if the rules for the array itself accept it; the items are not checked, so that with a type rule every array is accepted.","every rule table, array and actual array","all arrays",[EB,EI])
p("C111","A request accepts itself in the V2 engine","With the V2 engine every expected request without rules, with plain names and keys, accepts itself.","every request","all requests",[EN+"build_request_plan, execute_request_plan",EI,EB,EV,EL])

MB=T+"binary_utils.rs: match_mime_multipart, match_mime_multipart_inner, match_mime_part"
MH=T+"binary_utils.rs: match_field, match_headers"
MF=T+"binary_utils.rs: match_file_part, MimeFile::decode_data"
p("C112","Multipart bodies without rules","A request (or response) without rules and with a multipart body is accepted exactly if the method, path, query and headers agree (the status and headers), both bodies are multipart bodies, and every expected part has a counterpart, the first actual part with its name, or without a name at its position, of the same kind (field or file), with the expected headers, and with the same text (fields) or with contents that are accepted as bodies of the content type of the part (files), after base64 decoding.","every pair of requests or responses, every number of parts, header, encoding and content","any number of parts; each file is a whole body comparison",[MB,MH,MF])
p("C113","Which parts of a multipart body are compared","A multipart body accepts itself; parts that are not expected are accepted and the order of the parts does not matter.","every multipart body, every list of additional parts, every permutation, every rule table (the last two)","all lists of parts",[MB])
p("C114","Matching rules for the parts of a multipart body","A rule list for the name of a field decides on the text of the field; the contents of a file are compared exactly as a body of their own with the rules below the name of the part, with paths relative to it, and rules of other parts have no influence.","every part, rule table, contents","all rule tables and contents",[MH,MF])
p("C115","Matching rules for the headers of parts","A rule list for a header of a part decides whether its value is accepted; the others must be equal, `content-disposition` is not compared and the three headers about the content may be missing.","every part, header map and rule table","all header maps and rule tables",[MH])

CT=M+"content_types.rs: detect_content_type_from_string, detect_content_type_from_bytes"
p("C116","Detecting the content type of a text","Without a declared content type a body is taken for XML, HTML, JSON or text by the beginning of its text only; every JSON document, after any white space, is detected as JSON.","every text and JSON document","all texts and documents of any size",[CT])
p("C117","Detecting the content type of bytes","From the bytes of a text the same content type is detected as from the text, for JSON documents of any length.","every text and JSON document","the first 32 bytes of every text",[CT])
p("C118","Bodies without a declared content type","An expected JSON body without content type accepts an actual body declared as JSON exactly if the documents agree; the content type rule accepts exactly the bytes whose type is found by the libraries or, for plain text, detected from the first bytes.","every document, actual body and library result","all documents and bodies",[CT,M+"http_parts.rs: HttpPart::content_type, detect_content_type",T+"binary_utils.rs: match_content_type"])
XB="rust/pact_ffi/src/mock_server/xml.rs: generate_xml_body, create_element_from_json, add_attributes, duplicate_element"
p("C119","XML bodies given as JSON","From an XML description in JSON the C interface builds the described document: every element with its name, attributes and children in order, repeated as often as it has examples, and every text; it aborts exactly for descriptions that are not of this form, and for matchers whose rules cannot be read without aborting.","every JSON description, every state of the rules and generators","unbounded nesting, any number of children, attributes and examples",[XB])
p("C120","Matchers in XML descriptions","The rules of the matchers in an XML description are added, in order and to the ones before, exactly at the paths of the elements, attributes and texts they are written at, and nothing else of the table changes; at every path the generator is that of a matcher written there, else the one before.","every JSON description, every state of the rules and generators","unbounded nesting, any table before",[XB])
p("C121","Matchers of XML descriptions are used for what they are written at","The comparison of XML bodies uses, for every element, attribute and text, the rules written at it, otherwise those of the nearest element around it that has some, otherwise none; the document built from a description is accepted for itself.","every description with plain names, every element, attribute and text","unbounded nesting; paths are written as text and parsed again",[XB,T+"xml.rs: compare_element, compare_attributes, compare_children, compare_text",M+"path_exp.rs: DocPath::new, DocPath::join",M+"matchingrules/mod.rs: MatchingRuleCategory::select_best_matcher"])
BF="rust/pact_ffi/src/mock_server/handles.rs: pactffi_with_body, process_body, process_xml"
BJ="rust/pact_ffi/src/mock_server/bodies.rs: process_json"
BG="rust/pact_ffi/src/mock_server/form_urlencoded.rs: process_form_urlencoded_json"
BH=M+"http_parts.rs: HttpPart::content_type; v4/mod.rs: calc_content_type"
p("C122","The content type of a body set through the C interface","A body set with `pactffi_with_body` has the given content type, else that of the request or response (its body or content type header), else the one detected from the text; a `Content-Type` header (for messages the `contentType` metadata) is added unless there is one; an empty text gives an empty body; nothing else but the body, its rules and the generators changes; a response of a synchronous message is appended to the others.","every text, content type, request, response and message, with any headers, body, rules and generators","any number of headers, rules and calls in any order",[BF,BH])
p("C123","The contents of a body set through the C interface","The contents of the body are the example of a JSON text, with the rules and generators of its matchers added, the XML document or form that is described, and otherwise the text as it is; rules of other parts never change.  A request set up with JSON without matchers accepts exactly the requests with the same document in any layout, the same method, path and query and the expected headers.","every text, content type, request and actual request","unbounded documents; composition of building and comparing",[BF,BJ,BG,XB,T+"lib.rs: match_request"])
p("C124","When setting a body aborts the process","Setting a body aborts the process only for a content type that cannot be parsed, a content type header without values, a description in which a matcher or an XML node cannot be built, or a form that looks like JSON and is not; in all other cases it succeeds.","every text, content type, request, response and message","unbounded documents; a panic across the C interface aborts the process",[BF,BJ,BG])
BK="rust/pact_verifier/src/pact_broker.rs: "
p("C125","Links of a Pact Broker","The URL of a link with variables is its text with every variable replaced by its percent-encoded value (variables without a value stay as they are); values cannot add path segments, parameters or anything else of the structure of the URL, and different values give different text.","every template, every set of values","all texts, including any Unicode in provider names, tags and branches",[BK+"HALClient::parse_link_url, Link"])
p("C126","Published verification results","The results published to a Pact Broker say success exactly if every interaction passed, and have an entry for every interaction that says whether it passed, with its mismatches or its error.","every list of results, with any identifiers","any number of interactions, any order of identifiers",[BK+"build_payload","rust/pact_verifier/src/lib.rs: publish_to_broker"])
p("C127","The order of publishing","Results are sent to a Pact Broker only after the branch and then every tag, in order, was accepted; then they are sent to the link of the pact for results, and if any of this fails nothing more is sent.","every broker (any state and answers, which may depend on everything before), every list of tags, branch and links","every schedule of failures of a remote system",[BK+"publish_verification_results, publish_provider_tags, publish_provider_branch"])
p("C128","Fetching pacts from a Pact Broker","Every pact the broker names has one result, in order: the pact at its link or an error; an error of one does not keep the others from being fetched.  If the broker has no pacts this only fails the verification on demand; every other failure to get the pacts does.","every broker (any state and answers), every number of pacts","every schedule of failures of a remote system",[BK+"fetch_pacts_from_broker, fetch_pacts_dynamically_from_broker","rust/pact_verifier/src/lib.rs: fetch_pact, verify_provider_async"])
p("C129","Retries","A request to a Pact Broker is sent at least once and at most three times, and again only after a server error; its result is that of the last answer.","every broker, every sequence of answers","every schedule of failures",["rust/pact_verifier/src/utils.rs: with_retries",BK+"HALClient::fetch, send_document, parse_broker_response"])
p("C130","Where requests to a Pact Broker go","Documents are fetched from the host of the broker, with its credentials, whatever host the links have.","every link and every URL library with the named properties","all links a broker may answer with",[BK+"HALClient::fetch_url, resolve_path, with_doc_context, find_link"])
PC="rust/pact_verifier/src/provider_client.rs: "
PM="rust/pact_verifier/src/messages.rs: "
p("C131","The request that is sent to the provider","The verifier sends the provider the request of the pact: its method, the URL made of the base URL and its path, its query, its headers and the bytes of its body; a pact without rules accepts the request it was sent.  A request is refused exactly if a header cannot be sent.","every request, base URL, header library","all texts, any number of parameters and headers",[PC+"create_native_request, join_paths"])
p("C132","Custom headers","A custom header given to the verifier is what the provider gets, whatever the pact has for that header.","every request, every list of custom headers","all names in all spellings",[PC+"create_native_request","rust/pact_verifier/src/lib.rs: setup_custom_headers, configure_http_client"])
p("C133","How answers of the provider are read","The answer of the provider is taken with its status, for each header the values that are text, split at commas, and the bytes of its body; it is an error exactly if the body cannot be read, and reading it never aborts.","every answer","all headers, values that are not text, all bodies",[PC+"native_response_to_pact_response, extract_headers, extract_body"])
p("C134","When an interaction is verified","An interaction without rules is verified exactly if its request was sent, once, and answered with the expected status, all expected headers and an agreeing body, where JSON objects may have more entries.","every provider (any state and answers), interaction, options","every behaviour of a remote system, all bodies",[PC+"make_provider_request","rust/pact_verifier/src/lib.rs: verify_response_from_provider, verify_v3_interaction"])
p("C135","When a message is verified","A message is asked for with one POST of its description and provider states; without rules it is verified exactly if the answer has an agreeing body and the expected metadata, taken from the header with metadata (Base64 of a JSON object) and the content type; for synchronous messages the status must also not be an error.","every provider, message, metadata, options","every behaviour of a remote system, all bodies and metadata",[PM+"verify_message_from_provider, verify_sync_message_from_provider, extract_metadata",T+"lib.rs: match_message, match_sync_message_response"])
p("C136","State change requests","A state change sends a POST with the name of the state, its parameters and the action in the body or in the query; it is sent again only after a server error, at most as often as allowed; it succeeds exactly if the last answer has a status from 200 to 299, with the entries of its JSON object as values.","every handler (any state and answers), state, parameters, number of attempts","every schedule of failures",["rust/pact_verifier/src/callback_executors.rs: HttpRequestProviderStateExecutor::call",PC+"make_state_change_request","rust/pact_verifier/src/utils.rs: with_retries"])
p("C137","All requests of an interaction","While an interaction is verified the setup of its states, its request and the teardown of its states are sent in this order, and nothing else.","every provider and handler (any state and answers), interaction, states","every schedule of failures of two remote systems",["rust/pact_verifier/src/lib.rs: verify_interaction, execute_provider_states",PC+"make_provider_request, make_state_change_request"])
p("C138","Where the requests go","The request of an interaction goes to the first transport with the name the interaction gives, without one to the first of those with a default name, with `http` if it has no scheme, and if there is none to the provider itself.","every list of transports and every interaction","all lists",[PC+"make_provider_request","rust/pact_verifier/src/lib.rs: ProviderTransport::base_url, verify_response_from_provider",PM+"verify_message_from_provider"])
AG=T+"lib.rs: generate_request, generate_response"
AM=M+"generators/mod.rs: apply_generators, Generators::generators_for_matching_rules, GenerateValue<String>, GenerateValue<Value>, GenerateValue<u16>, Generator::corresponds_to_mode"
AB=T+"generators/bodies.rs: generators_process_body"
AV=T+"generators/mod.rs: DefaultVariantMatcher, generate_value_from_context, apply_generators_to_sync_message, apply_generators_to_async_message, ArrayContainsVariants"
p("C139","Generated requests","Applying the generators of a request changes its path, the headers and the query parameters the generators are named after, and nothing else: a header or parameter without a generator keeps its values, a header with one has its text as its only value (missing ones are added), every value of a parameter is replaced.  Generators of the other mode have no effect, failures are never errors, and the order of the generators does not matter when they are named after different things.","every request, table of generators, mode, context, any random outcome","any number of headers, parameters and generators, every order of a hash map",[AG,AM])
p("C140","Generated bodies","In a generated JSON body exactly the values the generators address are replaced, each by a value of its generator from the value before, and every other value, at every depth, is as before; in a form the values addressed; generators for separate places do not influence each other, whatever their order.","every document, every table of generators, mode, context, any random outcome","unbounded documents and tables, every order of a hash map",[AG,AB,AM])
p("C141","Values from provider states","A provider state generator gives the value of its expression with the names replaced by the values of the provider state, only for a provider; if a value is missing the request is unchanged, and if it cannot be converted to the required type the interaction fails.","every expression, context and data type","all expressions and values",[AV,M+"expression_parser.rs: DataType::wrap, DataValue, MapValueResolver",M+"generators/mod.rs: generate_value_from_context",AG])
p("C142","Generated responses","Applying the generators of a response changes its status to a number given by a generator for it (within its limits), the headers as for a request, and apart from the body (C140) nothing else; a body without generators, or that is neither JSON nor a form, stays the same.","every response, table of generators, mode, context, any random outcome","any number of headers and generators, every order of a hash map",[AG,AM])
p("C143","Generated messages","Applying the generators of a message changes exactly the metadata the generators are named after, to JSON values of the generators, and the addressed values of JSON contents, for synchronous messages in the request and in each response with its own generators; the content type of the message, given by its contents or its metadata, decides how the contents are read.","every message, table of generators, mode, context, any random outcome","any number of metadata, responses and generators",[AV,AB])
p("C144","Generators for the variants of arrays","Of an array with an `arrayContains` rule each item is generated with the generators of the variant whose rules accept it, and items accepted by none are unchanged; other values are unchanged, and the number and order of the items stay the same.","every array, list of variants, rules and generators","any number of items and variants, nested",[AV])
p("C145","The values generators produce","A random generator always gives a value of its form (integers within their limits, UUIDs in their format, decimals, hexadecimal texts and texts of their length, booleans), as a text in paths, headers, queries and forms and as a value of the right kind in JSON; dates and times are made from the base moment of the context or from now; a value of a provider state is converted to its data type; the URL of the mock server replaces that of the example.","every generator, context, data type and value, any random outcome","all values, limits and random outcomes",[AM,M+"expression_parser.rs: impl TryFrom<DataValue> for u16, i64, f64, bool; Display for DataValue",M+"generators/mod.rs: replace_with_regex"])
VI="rust/pact_verifier/src/lib.rs: verify_interaction, verify_response_from_provider, execute_provider_states"
p("C146","Values of provider states reach the provider","The request that is sent to a provider is made with the values its state change handlers answered with: it is sent after the setup of the states, at most once, and it is the request of the pact with its generators applied to the values of the handlers, else to the parameters of the states; a path given by an expression has the values in it.","every provider and handler (any state and answers), interaction, states, generators","every behaviour of two remote systems; composition of state changes, generators and sending",[VI,AG,"rust/pact_verifier/src/callback_executors.rs: HttpRequestProviderStateExecutor::call"])
HS="rust/pact_ffi/src/mock_server/handles.rs: "
p("C147","Provider states given by a test","After any sequence of calls an interaction has the provider states it was given, in order, and each parameter of a state has the value it was given last (what the text is as JSON, else the text itself); no other call changes them.","every sequence of calls, all texts, mock server started or not","unbounded histories of calls with mutable state",[HS+"pactffi_given, pactffi_given_with_param, pactffi_given_with_params, pactffi_upon_receiving"])
p("C148","Comments, key and description given by a test","After any sequence of calls the comments, key, pending flag and description of an interaction are those given last, text comments are appended in order, NULL removes, and calls about these fields never change the request, response or contents, nor the other way round.","every sequence of calls, all texts, mock server started or not","unbounded histories of calls with mutable state",[HS+"pactffi_set_comment, pactffi_add_text_comment, pactffi_set_key, pactffi_set_pending, pactffi_interaction_test_name, pactffi_upon_receiving"])
p("C149","Bodies given as bytes","A body given as bytes is exactly these bytes with the given content type (NULL is a null body, no bytes an empty one), a content type header or metadata is set, and the interaction without rules accepts exactly requests and responses with the same bytes and a comparable content type; a body given as a file is compared by its content type only, from V3 on.","every interaction, part, content type, bytes, and every request and response compared","all byte strings and states of the interaction; composition of setting up and comparing",[HS+"pactffi_with_binary_body, pactffi_with_binary_file, convert_ptr_to_body, add_content_type_matching_rule_to_body",T+"lib.rs: match_body, compare_bodies_core"])
p("C150","Rules and generators given as JSON","Rules given as JSON are added, path by path, after those that are there, in the order of the calls; generators replace those at the same path; of a synchronous message those of all responses are changed, nothing else changes, and a text that cannot be read changes nothing.  The JSON form of a table in a pact file adds an equal table.","every sequence of calls, every JSON text, every table","unbounded tables and histories",[HS+"pactffi_with_matching_rules, pactffi_with_generators",M+"matchingrules/mod.rs: matchers_from_json, MatchingRules::merge",M+"generators/mod.rs: add_generators, generators_from_json"])
p("C151","Message metadata given by a test","After any sequence of calls the metadata of a message has, for each key, the value given last (NULL removes), and messages are accepted exactly if they have an equal value for each key, or, for keys that were given as a matcher, one that its rules accept; the rest of the interaction does not change; HTTP interactions and a started mock server refuse.","every sequence of calls, keys, values, and every message compared","unbounded histories; composition of setting up and comparing",[HS+"pactffi_with_metadata",T+"lib.rs: match_message_metadata, match_metadata_value"])
p("C152","The pact file has what a test set","An interaction set up by any sequence of calls for provider states, comments, test name, key, pending flag and description can be written whenever the one before could, and reading the file gives these fields with the values given last (empty comments are left out).","every sequence of calls, all texts, every interaction that can be written","unbounded histories; composition of setting up, writing and reading",[HS+"pactffi_given_with_param, pactffi_set_comment, pactffi_set_key",M+"v4/interaction.rs, v4/synch_http.rs: to_json, from_json"])
p("C153","Metadata of the pact given by a test","Each entry of the metadata of a pact has the text it was given last, other entries and the rest of the pact are kept, the namespaces of the library and the empty one are refused, and the pact file has the entries.","every sequence of calls, all texts, every pact that can be written","unbounded histories",[HS+"pactffi_with_pact_metadata",M+"v4/pact.rs: metadata_to_json, from_json"])
CB="rust/pact_consumer/src/builders/"
CP="rust/pact_consumer/src/patterns/"
p("C154","What the consumer builders build","After any sequence of builder calls a request has the method, path and body given last, for each query parameter all values given for it in order, and for each header, whatever the case of its name, all values given for it in order, once, under the spelling used first; a response likewise has the last status, its headers and the last body; what was never given has its default (GET, /, 200, no query, no headers, no body).","every sequence of builder calls, all texts and patterns","unbounded histories of calls on a mutable builder",[CB+"request_builder.rs: RequestBuilder",CB+"response_builder.rs: ResponseBuilder",CB+"http_part_builder.rs: HttpPartBuilder",CP+"string_pattern.rs: StringPattern"])
p("C155","The rules and generators the consumer builders add","After any sequence of builder calls the matching rules of a query parameter, a header, the path and the body are those of the patterns the contents come from, all of which must hold, the generators those given for the values that are there, and nothing else has rules.","every sequence of builder calls, all patterns","unbounded histories of calls on a mutable builder",[CB+"request_builder.rs: path, path_from_provider_state, query_param",CB+"http_part_builder.rs: header, header_from_provider_state, json_body, body_matching",CP+"string_pattern.rs, special_rules.rs, date_time.rs: extract_matching_rules"])
p("C157","The interaction of a consumer test","After any sequence of calls an interaction has its description, the provider states in order with the entries of their parameter objects, all comments in order, the last test name, key, pending flag and transport, and the request and response of the calls made on their builders, whatever the order of these calls.","every sequence of calls on an interaction builder and on the builders of its request and response","unbounded histories of calls on a mutable builder",[CB+"interaction_builder.rs: InteractionBuilder"])
p("C158","Removing null fields","`strip_null_fields` removes the null fields of objects at every depth and nothing else; nulls in arrays stay.","every JSON value","unbounded depth",["rust/pact_consumer/src/util.rs: strip_null_fields"])
p("C156","What an interaction built by a consumer test accepts","The request built by any sequence of builder calls accepts exactly the requests with the last method, a path, query parameters and headers that are those given, or that match the patterns they were given as, and a body that its JSON pattern describes (any body if none was given); the response likewise with the last status, where objects may have more entries.  It accepts its own example.","every sequence of builder calls, every request and response compared, every iteration order","unbounded histories; composition of building and comparing",[CB+"request_builder.rs, response_builder.rs, http_part_builder.rs",T+"lib.rs: match_request, match_response",T+"query.rs, headers.rs, json.rs"])
p("C159","Asynchronous messages of a consumer test","After any sequence of calls a message has its description, the provider states and comments in order, the key, test name and pending flag given last, and, since the last `contents_from`, the body given last, for each metadata key the value given last (`contentType` without one is that of a body), and the rules of its JSON patterns; building aborts exactly if `contents_from` names a content type that cannot be parsed; the V3 message has the same contents.","every sequence of calls on a message builder","unbounded histories of calls on a mutable builder",[CB+"message_builder.rs: MessageInteractionBuilder"])
p("C160","Synchronous messages of a consumer test","After any sequence of calls a synchronous message has the fields given as in C159, as its request the contents given for it (body and metadata given last, the rules and generators of all contents), and as its responses those given, in order, each with its own body, metadata, rules and generators.","every sequence of calls on a synchronous message builder","unbounded histories of calls on a mutable builder",[CB+"sync_message_builder.rs: SyncMessageInteractionBuilder"])
p("C161","What a message built by a consumer test accepts","A message built by any sequence of calls accepts exactly the messages whose contents have an equivalent content type and are described by its pattern and that have all the metadata given; the responses of a synchronous message accept exactly as many messages, each described by the pattern at its position.  A message accepts itself.","every sequence of calls, every message compared, every iteration order","unbounded histories; composition of building and comparing",[CB+"message_builder.rs, sync_message_builder.rs",T+"lib.rs: match_message_contents, match_message_metadata, match_sync_message_response"])
p("C162","The pact of a consumer test","After any sequence of calls on the pact builder the pact has the consumer, provider and version asked for and exactly one interaction for each call, in the order of the calls, with everything asked for that a pact of its version can have; building aborts exactly if an interaction of a type the pact cannot have is added (or a message cannot be built, C159).  The calls do not change the metadata.","every kind of pact, all names, every sequence of calls","unbounded histories of calls on a mutable builder",[CB+"pact_builder.rs: PactBuilder",CB+"pact_builder_async.rs: PactBuilderAsync",M+"sync_pact.rs, message_pact.rs, v4/pact.rs: add_interaction, add_md_version"])
p("C163","The messages a consumer test gets","The message iterators of a pact builder give exactly the messages of the pact, in order, then nothing: V3 and synchronous messages with the values of their generators and otherwise as defined, asynchronous messages as defined.  Whatever was taken from it, a dropped iterator writes the pact itself, without generated values.  For synchronous messages the generators are applied to all messages or, if the task that applies them does not finish, to none.","every pact, all values drawn, every schedule of the task, any number of calls of next","schedules and random outcomes",[CB+"message_iter.rs: MessageIterator, asynchronous_messages_iter, synchronous_messages_iter, messages_iter",CB+"pact_builder.rs: messages, v3_messages, synchronous_messages"])
p("C164","Comparing whole interactions","Comparing two interactions, of any version, never aborts; HTTP interactions have the mismatches of their requests followed by those of their responses (and match iff both do), messages those of their contents; interactions of different kinds never match: it is an error if an HTTP interaction is expected, a mismatch otherwise.  The version and everything but the request and response, or the contents, plays no part.","all pairs of interactions of all kinds and versions, all rules","a case distinction over all pairs of types with unbounded contents",[T+"lib.rs: match_interaction, match_interaction_request, match_interaction_response, match_message"])
p("C165","What an interaction without rules matches","An interaction without rules matches exactly the interactions with the same method (ignoring case), path, query and status, all its headers and agreeing bodies; a message exactly the messages with agreeing contents and all its metadata.  In particular it matches itself.","all pairs of interactions of any version without rules, all iteration orders of the maps","composition of all comparisons over unbounded contents",[T+"lib.rs: match_interaction, match_request, match_response, match_message"])
p("C166","The pact file of a consumer test","Whatever calls built a V4 pact, its file can be written and read, and what is read has the same consumer, provider, interactions (in the order of their descriptions), contents, matching rules, generators, provider states and metadata.","every sequence of builder calls on interactions, messages and synchronous messages, all texts and patterns","unbounded histories; composition of building, writing and reading",[CB+"pact_builder.rs, interaction_builder.rs, request_builder.rs, response_builder.rs, http_part_builder.rs, message_builder.rs, sync_message_builder.rs",M+"v4/pact.rs: to_json, from_json"])
p("C167","Rules read from a pact file mean the same","Comparing a JSON value under the matching rules that were read from a pact file has the same result as under the rules that were written; in particular, after building, writing and reading a pact, the body of a request, response or message that was given as a pattern accepts exactly the documents that the pattern describes.","all tables of rules, all expected and actual documents, every sequence of builder calls","unbounded tables and documents; composition of building, writing, reading and comparing",[CB+"http_part_builder.rs: json_body",M+"matchingrules/mod.rs: matchers_to_json, matchers_from_json",T+"json.rs: compare_json",M+"v4/pact.rs: to_json, from_json"])
p("C168","What the matching rules of a file say","Whatever document of matching rules is read, in V3/V4 or V2 form, the rules for each category and path are exactly those that the entries for that category and path state, in the order of the document and combined as the first of them says; category names are read in upper or lower case, header and headers are the same, an unknown name is the body; if any key or rule cannot be read, the whole document is refused.","all JSON documents","unbounded documents, written by other implementations too",[M+"matchingrules/mod.rs: matchers_from_json, load_from_v2_map, load_from_v3_map, add_v3_rules_from_json, add_rule_list"])
p("C169","What one matching rule of a file says","Whatever JSON object is read as a matching rule, the result is the rule of the type it names (all spellings of it) with the attributes that the type needs, or, without a type, that of the first of the attributes regex, min, max, timestamp, time and date that it has; if the type is unknown or an attribute is missing it is refused.  Only these attributes play a part: further attributes and their order do not.","all JSON objects, nested to any depth","unbounded recursive documents, written by other implementations too",[M+"matchingrules/mod.rs: MatchingRule::from_json, MatchingRule::create, rules_from_json"])
p("C170","What the generators of a file say","Whatever document of generators is read, the generator for each category and path is that of the last entry for it that names a known type and has what that type needs; everything that is no generator, no object or in an unknown category is left out, and the document is refused only if a key in the body or the metadata is no path expression.","all JSON documents","unbounded documents, written by other implementations too",[M+"generators/mod.rs: generators_from_json, Generators::load_from_map, parse_generator_from_map, Generator::from_map"])
p("C171","What the requests, responses and messages of a V4 file say","Whatever JSON document is read as a request, response or message of a V4 file, the result is the one that the document stands for: method (GET by default, in upper case), path (/ by default), the status (200 by default), the query as an object or a query string, headers as arrays or as texts with values separated by commas, the metadata, and the body: missing or null as written, the text or JSON value or decoded Base64 of its content, with the content type of the attribute, else of the headers, else detected.  Nothing else is refused, except that a status that is no natural number makes the reader panic.","all JSON documents","unbounded documents with any mix of missing, null and mistyped attributes, written by other implementations too",[M+"v4/http_parts.rs: HttpRequest::from_json, HttpResponse::from_json, body_from_json, content_type_from_json",M+"v4/message_parts.rs: MessageContents::from_json",M+"json_utils.rs: headers_from_json",M+"query_strings.rs: v3_query_from_json"])
p("C172","What a V4 pact file says","Whatever JSON document is read as a V4 pact, the result is the pact that the document stands for: names of consumer and provider (with defaults), one interaction for each entry in the same order, of the type that the entry names, with its identifiers, description, provider states (also as in older files), comments, pending flag, plugin configuration, markup, transport, and its request, response or messages as C171; the metadata without the plugins, and those plugins that have a name and a version.  Every document that stands for a pact is read, and a file with an entry that stands for no interaction is not.","all JSON documents","unbounded documents with any mix of missing, null and mistyped attributes, written by other implementations too",[M+"v4/interaction.rs: interactions_from_json, interaction_from_json",M+"v4/pact.rs: from_json",M+"v4/synch_http.rs: SynchronousHttp::from_json",M+"v4/async_message.rs: AsynchronousMessage::from_json",M+"v4/sync_message.rs: SynchronousMessage::from_json",M+"provider_states.rs: ProviderState::from_json"])
p("C173","What a V1, V2 or V3 pact file says","Whatever JSON document is read as a request/response pact or message pact of an older version, the result is the pact that the document stands for, attribute by attribute: the query (an object only in V3), matching rules (also under the names of older files), bodies as JSON values or as texts, which are taken as JSON (in quotes, if they are no JSON text of a string or object), text or Base64 depending on the content type of the headers or on what they look like, missing requests and responses, the metadata and contents of messages, whose generators are not read, and the metadata of the pact with its older spellings.  Only V3 files can have messages, and messages that are no array are refused.","all JSON documents, and all specification versions","unbounded documents with any mix of missing, null and mistyped attributes, written by other implementations too",[M+"request.rs: Request::from_json",M+"response.rs: Response::from_json",M+"json_utils.rs: body_from_json",M+"sync_interaction.rs: RequestResponseInteraction::from_json",M+"sync_pact.rs: RequestResponsePact::from_json",M+"message.rs: Message::from_json",M+"message_pact.rs: MessagePact::from_json",M+"pact.rs: parse_meta_data"])
p("C174","The JSON report of a verification says what failed","The JSON report has the overall outcome, the notices, the output, and the failures of interactions — pending ones apart — as many as there are and in order, each with the name of the interaction, its kind, its ID and the message or the mismatches with all their attributes.  Two results have the same report (and, for a parser that reads back what is written, the same file) exactly if they agree in all that; only a missing ID and an empty one, and values that are not UTF-8, cannot be told apart.","all results of a verification run: any number of notices, lines and failures, and mismatches with any attributes","a dropped, swapped or merged attribute can hide in any of the eight kinds of mismatches and at any place of an unbounded list",[V+"verification_result.rs: VerificationExecutionResult, VerificationMismatchResult, Into<Value>","rust/pact_matching/src/lib.rs: Mismatch::to_json","rust/pact_verifier_cli/src/reports.rs: write_json_report"])
p("C175","When mismatches are equal","`==` on mismatches is an equivalence that compares the kind, the place and the two values, but not the message nor the bodies of a mismatch of content types; mismatches with the same report are equal unless values are not UTF-8.  Conversion to a common mismatch and back keeps those of query parameters and headers, and those of bodies with text values; a missing value becomes an empty one.  The derived order compares the messages as well, so it does not agree with `==`.","all mismatches and all texts and bytes in them","laws over all pairs and triples of mismatches",["rust/pact_matching/src/lib.rs: Mismatch, PartialEq, PartialOrd, CommonMismatch, From<Mismatch>, description"])
p("C176","What is printed for failed interactions","The output of a verification lists the failures in order, numbered from one: an error with its message in one line; mismatches under a title, in runs of the same kind, each run with a number and a summary of its first mismatch, then one line for that mismatch and one for each other of the run, in the order of their parameter, header, path or key, and, for bodies, the difference at the path of the first.  No mismatch and no error is left out, and the first mismatch of a run stays first whatever its place.","all lists of failures with any number of mismatches of any kinds in any order","runs of any number and length, interleaved in any way",[V+"lib.rs: process_errors, interaction_mismatch_output, display_body_mismatch","rust/pact_matching/src/lib.rs: Mismatch::summary, description"])
