C=[]
def c(p,st,ns,th,note): C.append((p,st,[("Verif."+ns+"."+t) if "." not in t else "Verif."+t for t in th],note))
c("C01","partial","PathProps",["C01_roundtrip_iff","C01_roundtrip_partial","C01_roundtrip_fails","C01_api_paths"],"full claim false of the code (quotes, backslashes, empty keys): refuted; exact iff characterisation and the true part proved")
c("C02","partial","PathProps",["C02_panics_iff","C02_no_panic_fails","C02_no_panic_partial"],"false of the code (index overflow, non-ASCII numerals); exact panic condition proved")
c("C03","proved","PathProps",["C03_expr_injective","C03_parsed_paths_alias"],"for programmatically built paths; aliasing of parsed paths shown")
c("C04","partial","PathProps",["C04_matches_path_iff","C04_matches_path_partial","C04_overflow","C04_self_match"],"false with 64 or more non-wildcard segments (usize overflow); exact iff proved")
c("C08","partial","PathProps",["C08_parent_push","C08_push_path","C08_join_part_partial","C08_join_numeral_key","C08_json_pointer","C08_json_pointer_wildcard"],"join law false for non-canonical numerals (007, +7); rest proved in full")
c("C05","partial","RuleProps",["C05_selection_maximal_partial","C05_order_independent_partial","C05_ties_depend_on_order","C05_other_categories_take_first"],"maximality and order independence proved for paths of at most 58 segments (64-bit weight); ties shown order dependent")
c("C06","partial","RuleProps",["C06_exact_rule_wins_partial","C06_overflow"],"false for paths whose weight overflows 64 bits: refuted; proved below the bound")
c("C07","proved","RuleProps",["C07_cascaded_flag"],"")
c("C09","partial","RuleProps",["C09_defined_iff_selected_partial","C09_empty_list_counts_as_defined"],"an explicitly empty rule list counts as defined: refuted; rest proved")
c("C10","proved","MatcherProps",["C10_and","C10_or","C10_empty","C10_errors"],"")
c("C11","proved","MatcherProps",["C11_type_iff","C11_type_equivalence","C11_example_independent"],"")
c("C12","proved","MatcherProps",["C12_json_arrays","C12_json_others","C12_lists","C12_maps"],"single rule level; the comparator skips the check when the expected list is empty (see C15 group)")
c("C13","proved","MatcherProps",["C13_status","C13_partition","C13_status_text","C13_truncation","C13_json_vacuous"],"for 16 bit status codes; truncation of larger numbers and vacuity in JSON bodies shown")
c("C14","partial","MatcherProps",["C14_json","C14_json_exclusive","C14_string_integer_fails","C14_string_integer_partial"],"negative integer strings are rejected by the code: refuted; exact set proved")
c("C35","partial","RuleProps",["C35_add_rule","C35_add_rules_partial","C35_added_logic_lost"],"rules are appended; the AND/OR logic of the added list is lost")
c("C36","partial","MatcherProps",["MatcherTableProps.C36_no_duplicates","C36_status_rules_confused","C36_dedup_changes_meaning","C36_equal_rules_agree_partial","C36_dedup_preserves_partial","C36_scalar_equality_exact"],"false for status-code rules: refuted; proved for all others")
c("C15","proved","CompareProps",["C15_strict","C15_lenient"],"for all well-formed JSON values (keys sorted, as in a BTreeMap)")
c("C16","proved","CompareProps",["C16_reflexive"],"")
c("C17","proved","CompareProps",["C17_lenient_monotone"],"for every rule table")
c("C18","partial","CompareProps",["C18_array_contains_partial","C18_order_irrelevant","C18_superset","C18_empty_expected_accepts"],"proved for non-empty expected lists; false for an empty expected list (everything accepted): refuted")
c("C19","proved","CompareProps",["C19_failure_reports","C19_body_failure_reports"],"")
c("C20","proved","CompareProps",["C20_mismatch_paths"],"")
c("C21","proved","CompareProps",["C21_each_key","C21_each_key_body"],"")
c("C22","partial","CompareProps",["C22_values_partial","C22_each_value_partial","C22_keys_never_reported","C22_empty_expected","MessageProps.C22_inherited"],"false for an empty expected object in strict mode: refuted; proved otherwise")
c("C44","partial","CompareProps",["C44_like_inherited","C44_each_like_partial","C44_min_ignored_for_empty_example"],"proved for non-empty example lists; with an empty example list the size bound is not enforced: refuted")
c("C23","proved","QueryProps",["C23_no_rules","C23_missing_reported","C23_unexpected_reported","C23_reported_differs"],"a valueless parameter is the same as an empty value")
c("C24","partial","HeaderProps",["C24_case_insensitive","C24_missing_reported","C24_extra_ignored","C24_order_independent_partial","C24_ambiguous_names","C24_no_rules"],"order dependence shown for actual names differing only in case; extra blank actual values are accepted")
c("C45","partial","QueryProps",["C45_query_rule_partial","C45_empty_example_accepts","HeaderProps.C45_header_rule_partial","FormProps.C45_query_table"],"tables with any number of rules for queries in C45_query_table; an empty example list accepts anything: refuted; rest proved")
c("C46","proved","HeaderProps",["C46_parameter_header","C46_extra_parameters"],"")
c("C25","proved","ResultProps",["C25_match_request","C25_body_verdict","C25_body_content","C25_grouping","C25_verdict_partial","C25_record_fails","MessageProps.C25_method_or_path"],"for every result of comparing requests, bodies and messages; a hand-built record with an empty path error list is an exception")
c("C26","partial","ResultProps",["C26_overflow","C26_score_partial","C26_score_release_partial","C26_monotone_partial","C26_perfect"],"false: i8 overflow for 126 or more matching query parameters; proved below the bound")
c("C27","partial","ResultProps",["C27_missing_accepts","C27_empty_partial","C27_empty_fails","C27_present_rejects","C27_type_mismatch","C27_comparable_no_rule"],"false for an empty expected body with a different content type (any body accepted): refuted; rest proved")
c("C28","proved","ResultProps",["C28_method","C28_equivalence","C28_ascii"],"")
c("C47","proved","EndToEndProps",["C47_request"],"XML bodies excluded; multipart bodies are in C112")
c("C48","proved","EndToEndProps",["C48_response"],"XML bodies excluded; multipart bodies are in C112")
c("C49","partial","EndToEndProps",["C49_sync_message_partial","C49_unexpected_responses_accepted"],"false when no response is expected: refuted")
c("C50","partial","ResultProps",["C50_equivalence_iff_partial","C50_reflexive","C50_actual_attributes_ignored","C50_asymmetric","C50_suffix_ignored"],"false for suffixes: refuted; exact characterisation proved")
c("C51","proved","EndToEndProps",["C51_form"],"")
c("C52","proved","PathGrammarProps",["C52_grammar","C52_unambiguous"],"")
c("C53","proved","PathGrammarProps",["C53_parent","C53_drop","C53_drop_all","C53_join_index","C53_join_field","C53_shape","C53_to_lower_case"],"")
c("C54","proved","MatcherTableProps",["C54_text","C54_text_cascaded","C54_status","C54_json"],"regular expressions, dates, versions and content type detection are parameters; type, size and number rules on JSON are C11, C12, C14")
c("C55","proved","MatcherTableProps",["C55_merge","C55_combined"],"the AND/OR logic of the first set wins (see C35)")
c("C29","partial","QueryStringProps",["C29_encode_panics_iff","C29_value_iff","C29_roundtrip_partial","C29_roundtrip_fails","C29_decode_truncates","C29_v3_roundtrip","C29_v3_number_item"],"V3/V4 files: proved for all maps; V2 query strings: refuted (unencoded names, non-ASCII, panics), proved under the exact value condition")
c("C30","partial","QueryStringProps",["C30_header_iff","C30_headers_partial","C30_header_fails","C30_v4_roundtrip"],"V4 files: proved for all maps; V1-V3 files: exact condition per header, refuted outside it")
c("C56","proved","MessageProps",["C56_message"],"XML and multipart bodies excluded (not modelled)")
c("C57","proved","MessageProps",["C57_rules_local","C57_response_rules_local","C57_message_rules_local","C57_contents_rules_ignored"],"the rules of the category for contents of messages are not used (proved)")
c("C58","proved","MessageProps",["C58_path_rules","C58_path_regex","C58_status_rules","C58_status_success"],"")
c("C59","proved","MessageProps",["C59_text","C59_binary"],"byte level rule matching is a parameter")
c("C60","proved","MessageProps",["C60_attached_type","C60_header_type","C60_detected_type"],"")
c("C37","partial","BodyGeneratorProps",["C37_applied_partial","C37_untouched_partial","C37_absent_partial","C37_body_partial","C37_slash_key","C37_tilde_key","C37_empty_key","C37_escaped_pointer"],"false for keys that contain '/' or '~' or are empty (pointers are not escaped): refuted; proved for all other documents")
c("C41","partial","JsonUtilsProps",["C41_objects","C41_keys","C41_arrays","C41_override","C41_wf","C41_identity","C41_assoc_partial","C41_not_associative"],"keys, overriding, concatenation proved; associativity refuted, and proved when no value of the middle document masks a container")
c("C42","partial","JsonUtilsProps",["C42_u16_partial","C42_u16_default","C42_i32_partial","C42_truncated","C42_num"],"false: 16 and 32 bit attributes are truncated; exact condition proved")
c("C31","partial","MergeProps",["C31_parties","C31_conflict_iff","C31_http_keeps","C31_messages_keeps","C31_http_exactly_once_partial","C31_messages_exactly_once_partial","C31_http_self","C31_messages_self","C31_v4_keeps","C31_v4_keys_exactly_once_partial","C31_v4_exactly_once_partial","C31_v4_self_partial","C31_v4_converted","C31_v4_plugins","C31_stateless_lost_v3","C31_stateless_lost_v4","C31_update_lost_v3","C31_unsorted_duplicates","C31_plugin_arrays_double"],"every interaction of both inputs is represented (all lists); exactly once proved for sorted lists without ambiguous states, refuted outside; merge with itself proved")
c("C32","partial","WritePactProps",["C32_one_process_partial","C32_log","C32_nothing_lost_partial","C32_v3_nothing_lost_partial","C32_v4_nothing_lost_partial","C32_crash","C32_broken_stays","C32_window","C32_lost_update","C32_lost_create"],"all interleavings of any number of writers of one process proved; writers in several processes lose updates and a crash can leave a truncated file: refuted")
c("C33","proved","MergeProps",["C33_product","C33_mem","C33_once","C33_after_end"],"polling again after the end panics")
c("C38","partial","ExprProps",["C38_substitution","C38_undefined","C38_unclosed","C38_stray_brace_panics","C38_cases","C38_panic_iff","C38_no_brace_partial","C38_plain"],"false: a closing brace before an expression panics; every other string proved, with the exact panic condition")
c("C61","partial","ExprProps",["C61_has_type","C61_unchanged","C61_total","C61_integer_text_partial","C61_negative_text_rejected","C61_boolean_number","C61_integer_boolean"],"floating point arithmetic is a parameter; a text with a negative integer is rejected: refuted")
c("C40","partial","HandleProps",["C40_unpack","C40_bits","C40_injective","C40_history_partial","C40_history_messages_partial","C40_distinct_partial","C40_freed","C40_failed_creation","C40_alias","C40_v4_other_pact","C40_reuse"],"packing proved for all values; every history with at most 65535 interactions per pact proved; beyond that handles repeat or cross into another pact: refuted; a handle of a failed creation panics")
c("C62","partial","HandleProps",["C62_flag_partial","C62_modified_after_start","C62_not_found"],"false: a call that returns false because the server was started has modified the interaction")
c("C39","partial","VerifierProps",["C39_run","C39_pact","C39_interaction","C39_pending","C39_total","C39_teardown_partial","C39_setup_failure_no_teardown"],"verdict, order of calls and results proved for every environment; teardown after a failed setup: refuted")
c("C43","proved","VerifierProps",["C43_filter","C43_total","C43_options","C43_no_state","C43_consumers","C43_invalid_panics"],"regular expressions are a parameter; an invalid pattern panics")
c("C63","partial","VerifierProps",["C63_published_partial","C63_unpublished","C63_earlier_pact"],"false without publishing (a fully successful run shows the failure notices) and after an earlier failed pact: refuted; proved for a single pact with publishing")
c("C64","proved","VerifierProps",["C64_context"],"")
c("C65","proved","VerifierProps",["C65_published","C65_not_published","C65_vacuous_success"],"includes: a success is published for a pact of which the filter selects nothing")
c("C34","partial","RuleJsonProps",["C34_flat_rule","C34_rule_kept","C34_rule_partial","C34_rules_partial","C34_rule_fails","C34_rules_fails","C34_header_spellings","gen_roundtrip","fromJson_fix"],"every rule of any nesting is read back up to what is not written (empty lists, value type and expression of each-key/each-value definitions), and every table of rules with well-formed keys; refuted: lost information, keys of header/query/path rules, headers called matchers, panic on references")
c("C66","partial","RuleJsonProps",["C66_recreate_partial","C66_min_max_fails","C66_array_contains_fails"],"false for min-max-type (always an error) and array-contains (variants lost) rules; all other rules proved")
c("C67","partial","GenerateProps",["C67_tables_partial","C67_header_key_fails","C67_root_key_fails","C67_recreate_partial","C67_recreate_string_fails","C67_recreate_dataType_fails"],"tables with names (header, query), empty paths (path, method, status) or parsed paths as keys are read back equal; other keys refuted; recreation fails for the size of random strings and the data type of provider state generators")
c("C68","partial","GenerateProps",["C68_int_range","C68_int_reachable","C68_int_max_fails","C68_int_panic","C68_status_range","C68_status_fails","C68_int_rule","C68_int_text","C68_decimal","C68_decimal_small","C68_hexadecimal_partial","C68_hexadecimal_fails","C68_string","C68_uuid","C68_anchors","C68_anchors_fails"],"false: the largest i32 is never drawn, status code limits are truncated to 16 bits, more than 16 hexadecimal digits are never made, negative integer texts do not satisfy the integer rule; random texts of regular expressions are not modelled")
c("C69","proved","LocalityProps",["C69_locality","C69_selection","C69_other_branch"],"body rules, JSON comparison")
c("C70","partial","PatternProps",["C70_example_satisfies_partial","C70_object_matching_fails","C70_same_index_fails"],"false for ObjectMatching (the rules of one key are applied to all keys) and for keys that read as the same index (007 and 7): refuted; every other pattern proved")
c("C71","partial","PatternProps",["C71_rules_denote_pattern_partial","C71_nested_each_like_ambiguous","C71_each_like_zero"],"exact characterisation for every pattern without ObjectMatching, without an each_like directly in an each_like whose elements have rules of their own (refuted: the result depends on the hash order), with rule paths of at most 58 segments")
c("C72","partial","PactFileProps",["C72_body_partial","C72_kept_iff","C72_limits"],"exact characterisation of what is kept, for every body and content type that is parsed from its own text; the property itself is false for the JSON values null and \"\" (read back as null and empty body), null bodies (lost), bodies without content type (get */*) and other spellings of JSON: refuted by example")
c("C73","partial","PactFileProps",["C73_request_partial","C73_response_partial","C73_defaults","C73_panics"],"bodies as in C72, rules and generators as in C34 and C67; refuted: a content type header without value panics")
c("C74","partial","PactFileProps",["C74_interaction_partial"],"the id, comments with an empty value and markup without text are not written (stated in SameCommon); bodies as in C72")
c("C75","partial","PactFileProps",["C75_pact_partial","C75_defaults"],"for pacts whose interactions satisfy the conditions of C72-C74 and whose metadata has no entry called plugins")
c("C76","proved","PactV3Props",["C76_http_iff","C76_message_iff","C76_states","C76_text","C76_binary","C76_json","C76_limits"],"the bytes are read back exactly iff the stated condition holds (proved both ways, for every body); not kept: JSON strings with escapes or with JSON in them, undecodable text, base64-looking binary text (by example)")
c("C77","partial","PactV3Props",["C77_written_type","C77_request_partial","C77_response_partial","C77_interaction_partial","C77_pact_partial"],"bodies as in C76, rules and generators as in C34 and C67; the id is not written")
c("C78","partial","PactV3Props",["C78_message_partial","C78_pact_partial","C78_limits"],"contents as in C76; refuted: the generators of messages are written and never read; messages are read from V3 files only")
c("C79","partial","PactV2Props",["C79_rules_partial","C79_name_iff","C79_request_partial","C79_response_partial","C79_interaction_partial","C79_pact_partial","C79_query_form","C79_limits"],"for pacts within the V2 form (one rule per path, names starting with a letter or digit and without dots, no dollar in body paths except the root); what becomes of others is shown in C79_limits; only the name of the first provider state is kept")
c("C80","proved","PactLoadProps",["C80_version","C80_one_version","C80_load","C80_refused"],"the reader of version numbers (lenient_semver) is a parameter")
c("C81","proved","PactConvertProps",["C81_http","C81_message","C81_all_written","C81_v3_writable","C81_old_refused","C81_downgrade_http","C81_downgrade_messages","C81_v4_file","C81_upgrade_http","C81_upgrade_messages"],"a message gets the content type of its contents as metadata; bodies, rules and generators as in C72 and C76; fields V3 does not have (key, comments, pending, plugins, markup, transport) are lost and metadata that is not an object")
c("C82","partial","DefExprProps",["C82_documented_partial","unescape_iff","combines_unique","C82_any_string","C82_example_verbatim","C82_witness","finding_backslash_at_end","finding_quote_escape","finding_outer_quotes","finding_example_escapes","finding_decimal_state","finding_large"],"every definition of any nesting and layout whose strings have quotes only after a backslash and do not end in a backslash or quote, with numbers in range; refuted: strings ending in an escaped backslash swallow what follows, \\' keeps its backslash, quotes at the ends of a string are lost; the logos lexer is modelled by the meaning of its patterns")
c("C83","partial","DefExprProps",["C83_only_partial","C82_no_panic","C83_recognised","C83_tokens","finding_trailing","finding_point","finding_prefix","finding_length","finding_sign"],"what is accepted is a laid-out definition, up to an illegal token at the end, anything after the point of a number and any word starting with fromProviderState in dates (all three shown to be accepted); what an illegal token covers is a parameter that is nothing more than one character for white space the lexer does not skip")
c("C84","proved","IntegrationProps",["C84_example","C84_unique","C84_aborts","C84_clean","C84_unchanged","C84_again","matchersFrom_iff","C84_witness","C84_documented_many","C84_documented_definition","C84_documented_combination","C84_unknown_matcher","C84_abort_witness"],"parsing the text of the document and writing the result are left out; the program is aborted exactly for an index that does not fit in the paths of nested variants; shown by example: the documented forms without value give null, the documented combination of definitions gives no rules, an unknown matcher loses the value but keeps the generator")
c("C85","proved","IntegrationProps",["C85_rules","C85_entries","C85_generators","C85_outermost","C85_witness","C85_special_keys","C85_leak"],"when several items of a matched list have generators the theorem says that one of them is there; keys that are numbers or * become indices and wildcards, and the wildcard of a rule for all values leaks into lists nested in it (shown)")
c("C86","proved","PartProps",["C86_unique","C86_query","C86_query_total","C86_history","C86_request","C86_status","C86_witness","C86_path_witness","C86_nested","C86_added"],"whether a text is JSON is a parameter; several values as first value are appended to the values there are (shown); an object as value becomes its JSON text (shown); a status that is no number below 65536 becomes 0")
c("C87","proved","PartProps",["C87_plain","C87_other","C87_first","C87_later","C87_unreadable","C87_generators","C87_path_status","C87_history","C87_witness","C87_witness_others","C87_spreads","C87_other_order","C87_twice","C87_unknown"],"for the history the first value of a name must be set first, once, and all values by matchers: the examples show that otherwise the rule of the first value is applied to all values; when several items in an array of values have generators at one path, one of them is there")
c("C88","proved","PartProps",["C88_request","C88_response","C88_set","C88_one_spelling","C88_next","C88_single","C88_witness"],"the name of headers set before the call may differ in case if they were read from a file; Unicode case mapping is a parameter")
c("C89","proved","XmlProps",["C89_containment","C89_refl","C89_trans","C89_symm","C89_same","C89_body","C89_content","C89_witness"],"the XML parser is a parameter")
c("C90","proved","XmlProps",["C90_accepts","C90_lenient","C90_self","C90_self_type","C90_repeated","C90_paths","C90_locality","C90_demand","C90_type_rule","C90_names","C90_witness","C90_self_witness","C90_type_rejects","C90_not_itself","C90_counts_white_space","C90_prefix"],"shown by example: a type rule makes lenient comparison reject unexpected children below it; an example with different children of one name under a type rule is rejected for itself; minimum and maximum count texts and comments; rules for namespace prefixes do not apply")
c("C91","proved","TimeProps",["C91_sound","C91_complete","C91_separated","C91_iso_date","C91_iso_time","C91_iso_timestamp","C91_examples"],"soundness for all formats; exactness for formats in which no field can run into the next, otherwise for values in which each field ends where the next begins; the tables of time zones are a parameter; shown: days of the year above 356 and offsets of 12 hours and more are rejected, several signs and one-digit fields accepted")
c("C92","proved","TimePatternProps",["C92_grammar","C92_unique","merge_id","C92_examples"],"for every text")
c("C93","partial","TimeGenProps",["C93_generated_accepted_partial","C93_rule","C93_defaults","C93_panic_iff","C93_date_panic_iff","C93_witness","C93_limits","C93_default_timestamp"],"without an expression; chrono's formatting is modelled from its documentation; refuted for the formats and moments not in Safe (C93_limits), and for the default DateTime generator, which the default timestamp rule never accepts (C93_default_timestamp)")
c("C94","proved","TimeProps",["C94_panic_iff","C94_panic_separated","C94_no_panic","C94_panics"],"debug builds (overflow checks)")
c("C95","partial","DateExprProps",["C95_date_read","C95_time_read","C95_date_sound_partial","C95_time_sound_partial","C96_witness","finding_tail","finding_spelling"],"every documented expression is read; conversely a text that is read is an expression followed by an ignored end (shown to exist), so that the converse is refuted as stated; what the lexer takes for an illegal token is a parameter")
c("C96","partial","DateExprProps",["C96_step","C96_date_partial","C96_text","C96_unique","C96_calendar","C96_witness","finding_month_ends","finding_numbers"],"numbers up to 2·10^9 (larger ones wrap, shown); the zone has a constant offset (no daylight saving); chrono's calendar is modelled")
c("C97","partial","DateExprProps",["C97_time_partial","C97_text","C97_total","C97_datetime","C97_witness","finding_twelve"],"numbers up to 2·10^9; constant offset; shown: 12 o'clock pm leaves the time as it is and 12 o'clock am is noon")
c("C98","partial","DateExprProps",["C98_parse_total","C98_panic_iff","C98_time_panic_iff","C98_no_panic","C98_generator","C98_accepted_partial","clock_ok","C97_witness","finding_numbers"],"numbers up to 2·10^9; acceptance for the formats and moments of C93, years 0 to 9999")
c("C99","proved","FormProps",["C99_read","C99_roundtrip","C99_injective","C99_plain","spells_total","spells_iff"],"serde_urlencoded is modelled from its documentation; what bytes that are not UTF-8 become is a parameter")
c("C100","partial","FormProps",["C100_exact_partial","C100_bytes_partial","C45_query_table","C100_witness","C100_query_order"],"rules that do not refer to the example (all but equality, values, null, status code, arrayContains, eachKey, eachValue), one for each path, names that are neither wildcards nor numbers; for queries no parameter with rules of both kinds (order dependent, shown)")
c("C101","proved","FormProps",["C101_body","C101_unique","C101_rules","C101_supported","C101_witness","C101_supported_witness","C101_prefix","C101_shift"],"for documents that are JSON (others abort); the text of the document between the two steps is not modelled")
c("C102","proved","FormProps",["C102_names","C102_one","C102_all","C102_order","C102_body","C102_literal","C102_clash","C102_bracket","C102_wildcard"],"names that are neither wildcards nor numbers; the two paths of the first value clash (order dependent, shown)")
c("C103","partial","EngineProps",["C103_total_partial"],"not for XML bodies, names that are wildcards or numbers, keys with / or ~ or quotes, rules with references (values() is not implemented for them and panics), and actual headers without values (the header index panics, shown)")
c("C104","partial","EngineProps",["C104_verdict_partial","C104_method_partial","C104_path_partial","C104_path_plain_partial"],"for the requests of C103")
c("C105","partial","EngineProps",["C105_query_partial","C105_query_plain_partial"],"for the requests of C103; V1 rejects copies of a single value (shown)")
c("C106","partial","EngineProps",["C106_headers_partial"],"for the requests of C103; of several expected values of a header with parameters only the first is compared (shown)")
c("C107","partial","EngineProps",["C107_body_partial","C107_json_partial","C107_json_plain_partial","C107_json_equal_partial","C107_rules_partial"],"for the requests of C103; rules are those recreated from their name and values (C66): the rule itself except for min-max-type, array-contains, each-key and each-value")
c("C108","partial","EngineProps",["C108_other_type_partial","C108_text_partial","C108_no_body_partial"],"for the requests of C103; that a body of another type is rejected, as one would expect, is refuted")
c("C109","partial","EngineProps",["C109_logic_partial","C109_path_partial"],"for the requests of C103; that one matching rule is enough for an `or` list, as in V1, is refuted")
c("C110","partial","EngineProps",["C110_items_partial","C110_like_partial"],"for the requests of C103; that the items are checked, as in V1, is refuted")
c("C111","partial","EngineProps",["C111_self_partial"],"for the requests of C103; keys with a slash are shown not to be accepted")
c("C112","proved","MultipartProps",["C112_parts","C112_no_rules","C112_request","C112_response","C112_nested"],"splitting the body into parts is a parameter; files that are XML or multipart bodies excluded (the latter never match)")
c("C113","partial","MultipartProps",["C113_self_partial","C113_repeated_fails","C113_additional_accepted","C113_order_partial"],"self: for parts with different names; that every body accepts itself is refuted for two fields of the same name; order: for named parts with different names")
c("C114","partial","MultipartProps",["C114_field_partial","C114_file_partial","C114_locality_partial"],"for part names that are not numbers or wildcards; fields: one rule list for the name, without wildcards")
c("C115","partial","MultipartProps",["C115_headers_partial","C115_upper_case_name_fails"],"one rule list without wildcards for each header; refuted for parts whose names have upper case letters")
c("C116","partial","DetectProps",["C116_detect","C116_json"],"the regular expressions are modelled by hand; that every JSON document is detected is refuted: exactly negative numbers and objects whose first key is empty or does not begin with a letter, digit or underscore are taken for text")
c("C117","partial","DetectProps",["C117_bytes","C117_json","C117_split_fails"],"refuted for texts with a character across byte 32, for which nothing is detected (exact condition proved)")
c("C118","partial","DetectProps",["C118_rule","C118_bare","C118_recognised","C118_missed_rejected"],"for documents that are detected; the others reject every actual body declared as JSON (proved); without rules")
c("C119","proved","XmlBuildProps",["C119_node","C119_aborts","C119_document"],"the DOM is replaced by trees (whether the library moves text nodes is a parameter), writing the document as text is left out; names are not split into prefix and local part")
c("C120","proved","XmlBuildProps",["C120_rules","C120_entries","C120_generators"],"")
c("C121","partial","XmlPathProps",["C121_selected_partial","C121_own_partial","C121_none","C121_self_partial"],"for element names of letters, digits, `_`, `-` and `:`, attribute names without quotes and at most 56 levels; refuted for names with a full stop or characters outside path expressions (`C121_full_stop`, `C121_everywhere`); accepted for itself: type and equality rules, children of the same name equal")
c("C122","proved","BodyBuildProps",["C122_request","C122_response","C122_second","C122_message","C122_reply"],"parsing JSON and content types, detecting content types and writing XML are parameters; the handles are left out; that a header in another case counts as set is refuted (`C122_spelling`)")
c("C123","proved","BodyBuildProps",["C122_request","C122_response","C122_message","C123_json","C123_clean","C123_xml","C123_form","C123_kept","C123_accepts"],"the example of a document that was read is assumed to be readable again (for forms: as the same document)")
c("C124","proved","BodyBuildProps",["C124_request","C124_response","C124_message"],"the example of a document that was read is assumed to be readable again")
c("C125","proved","BrokerProps",["C125_expand","C125_link","C125_encoded","C125_structure","C125_injective"],"word characters are a parameter; `}` is assumed not to be one")
c("C126","partial","BrokerProps",["C126_payload","C126_passed","C126_failed","C126_one_entry_each","C126_nothing","C126_no_identifier"],"an entry for each interaction: for different identifiers and failures with at least one mismatch; refuted in general, as neighbouring results without identifiers share an entry and those without one have none if everything passed (the exact entries are proved); a pact without results is published as a success")
c("C127","proved","BrokerProps",["C127_publish","C127_complete","C127_link","C127_no_link","C129_request"],"the URL library is a parameter; the branch and the tags are published even if there is no link for results")
c("C128","partial","BrokerProps",["C128_one","C128_all","C128_independent","C128_selected","C128_unreadable","C128_not_found","C128_latest_not_found","C128_latest","C128_selected_error","C128_error_fails","C128_links"],"that every other failure fails the verification is refuted: with selected pacts, a pact that is answered with 404, and an answer that cannot be read as a list of pacts, count as no pacts; that the results are independent of each other is for brokers without state")
c("C129","proved","BrokerProps",["C129_retries","C129_request","C129_panics"],"waiting between attempts is left out")
c("C130","partial","BrokerProps",["C130_host","C130_context","C130_find_link","C130_path_only","C130_other_host"],"for links whose path starts with one slash; refuted for two slashes (for an URL library with the usual rules)")
c("C131","proved","ProviderProps",["C131_sent","C131_refused","C131_query","C131_query_same","C131_url","C131_url_root","C131_replay","C131_query_valueless_fails","C131_replay_null_fails"],"the HTTP client and the rules for names and values of headers are parameters; parameters without a value are not sent and a `null` body is not accepted by its own pact (shown), replay is for the others")
c("C132","partial","ProviderProps",["C132_custom_partial","C132_custom_iff","C132_case_fails"],"refuted if the pact spells the header in another case (exact condition proved)")
c("C133","partial","ProviderProps",["C133_response","C133_error","C133_panics","C133_panics_witness"],"that reading never aborts is refuted: exactly for a body with a content type header none of whose values is text")
c("C134","proved","ProviderProps",["C134_verified","C134_one_request","makeRequest_exchange"],"without rules, not for XML and multipart bodies; names of the headers of an answer are different (as in HTTP libraries)")
c("C135","partial","ProviderMessageProps",["C135_asked","C135_description","C135_sync_description","C135_metadata","C135_metadata_sent","C135_async","C135_status_ignored","C135_sync","C135_sync_many","C135_sync_none"],"without rules, not for XML and multipart bodies; synchronous messages with two or more responses are never verified and those without responses always (proved)")
c("C136","proved","ProviderMessageProps",["C136_change","C136_retries","C136_no_attempts","C136_values","C136_body","C136_query","C136_param_overrides"],"if no attempts are allowed there is a panic; a parameter named `state` or `action` takes the place of the name or action in a query (shown)")
c("C137","proved","ProviderMessageProps",["C137_sent"],"unless there is a panic; the interactions themselves as in C39")
c("C138","proved","ProviderMessageProps",["C138_base"],"")
c("C139","partial","ApplyGenProps",["C139_frame","C139_path","C139_path_one","C139_headers","C139_header_kept","C139_header_generated","C139_query","C139_param_kept","C139_param_generated","C139_body_kept","C139_none","C139_table","C139_array_rule","C139_total","ApplyGenBodyProps.C139_case_fails"],"plugins are left out; that the name of a header is found in any case is refuted: a second header is added")
c("C140","partial","ApplyGenBodyProps",["C140_request_json_partial","C140_response_json_partial","C140_request_form_partial","C140_rewritten","ApplyGenValueProps.C140_unreadable"],"for generators at separate places whose paths have no wildcards, without rules with variants; XML bodies are not changed by the model (nor by the code without plugins)")
c("C141","partial","ApplyGenProps",["C141_context","C141_expression","C141_name","C141_missing","C141_text","C141_json","C141_mode","C141_text_panics","C141_json_panics","C141_path","C141_path_missing","C141_request_panics"],"that a value that cannot be converted only fails the interaction is refuted: it is a panic, with the exact condition")
c("C142","proved","ApplyGenProps",["C142_status","C142_headers","C142_total","C142_body_kept","C142_random_status"],"the status within its limits: for limits from 0 to 65534; names of headers as in C139")
c("C143","partial","ApplyGenBodyProps",["C143_metadata_kept","C143_metadata","C143_json_partial","C143_type_ignored","C143_sync","C143_async_metadata","C143_async_json_partial","C143_message"],"contents as in C140; that the content type in the metadata decides is refuted: it is ignored when it is a text")
c("C144","partial","ApplyGenBodyProps",["C144_variant","C144_none","C144_no_rules","C144_items_partial","C144_not_list","C144_messages"],"generators in variants as in C140; in V4 messages the variants are never used (proved)")
c("C145","partial","ApplyGenValueProps",["C145_value_text","C145_value_status","C145_random_text","C145_regex","C145_dates","C145_state_text","C145_url","C145_variants","C145_json_text","C145_json_random","C145_state_json","C145_status","C145_state_status","C145_status_wraps"],"at most 16 hexadecimal digits (C68); limits that are not empty; a status from a provider state is taken modulo 2^16 (shown); floating point numbers, regular expressions and parsing of moments are parameters")
c("C146","proved","StateValueProps",["C146_request","C146_path"],"for verifiers without request filters, when nothing panics (C141); the path for contexts without an object `providerState` (which would take precedence)")
c("C147","proved","SessionProps",["C147_names","C147_kept","C147_param","C147_new","C147_result"],"the calls change the interaction even when they answer `false` because the mock server was started (C147_result)")
c("C148","proved","SessionProps",["C148_kept","C148_comment","C148_texts","C148_test_name","C148_fields","C148_contents"],"")
c("C149","partial","SessionBodyProps",["C149_http","C149_messages","C149_accepts","C149_accepts_response","C149_conflict","C149_file","C149_file_messages","C149_file_accepts","C149_file_twice"],"accepted requests for content types that are not JSON, XML, form or multipart; that an interaction accepts its own example is refuted when a header with another content type was set before (C149_conflict)")
c("C150","proved","SessionRuleProps",["C150_rules","C150_generators","C150_sequence","C150_written","C150_written_generators"],"the last two for tables as in C34 and C67")
c("C151","partial","SessionMetaProps",["C151_history_partial","C151_refused","C151_sync","C151_aborts","C151_dotted","C151_stale","C151_nested","C151_keys"],"the history for matchers with a scalar example and a key that is a bare name; for other keys refuted: with dots the matcher is lost, with spaces the call aborts; rules of earlier calls for a key stay in force (shown)")
c("C152","proved","SessionFileProps",["C152_session","C152_last"],"for interactions as in C74; parsed objects have each key once")
c("C153","partial","SessionFileProps",["C153_refused","C153_set","C153_history","C153_file","C153_bypass"],"that the file has the entries is refuted for the namespaces pact-specification, pact-rust and plugins, which are accepted (C153_bypass)")
c("C154","proved","BuilderProps",["C154_request","C154_response","example_request"],"without `contents` of plugins; a header value with commas is several values (unless it is a date or the like)")
c("C155","partial","BuilderProps",["C155_request_rules_partial","C155_response_rules_partial","example_request","example_noObjectMatching"],"that the rules are those of the contents is refuted: rules (and the generator of the path or a header) of values that a later call replaced stay, and rules of a header are kept by spelling; the table is given exactly for every history; of the body for patterns without object_matching!")
c("C157","proved","BuilderProps",["C157_interaction"],"without plugins; parameters that are not an object are none")
c("C158","partial","BuilderProps",["C158_strip_partial","C158_idempotent","C158_not_recursive","C158_shallow_partial","example_shallow"],"null fields of objects in fields of objects stay (C158_not_recursive, contrary to the documentation); exact description of what is removed, and the property where no field contains an object with a null field")
c("C156","partial","BuilderMatchProps",["C156_request_partial","C156_request_no_body_partial","C156_request_json_partial","C156_response_partial","C156_response_json_partial","C156_own_example_partial","C156_own_example_fails","C156_literal_beside_pattern","example_good","example_json"],"for names of parameters and headers that are no numbers or wildcards, ASCII header names with one spelling each; bodies: none, or one JSON pattern as in C71.  Refuted in general: when a path, parameter or header is given twice, or a header pattern has a comma, the interaction can reject its own example (C156_own_example_fails), and a literal beside a pattern is not asked for")
c("C159","proved","MessageBuilderProps",["C159_message","C159_v3","since_spec","MessageBuilderMatchProps.C159_first_content_type_stays","MessageBuilderMatchProps.example_async","MessageBuilderMatchProps.example_panic"],"without plugins; the content type in the metadata is that of the first body with one, not of the last (shown); rules of JSON patterns whose body was replaced stay")
c("C160","partial","MessageBuilderProps",["C160_message_partial","C160_response_generators_lost","MessageBuilderMatchProps.C160_lost_example","MessageBuilderMatchProps.example_sync","MessageBuilderMatchProps.example_proper"],"without plugins; that a response has the generators given for it is refuted: it has those of the request; its content type is stored under a key with a leading blank")
c("C161","partial","MessageBuilderMatchProps",["C161_async_partial","C161_request_partial","C161_responses_partial","C161_own_example_partial","C161_response_body_key","known_likeTrue","example_async","example_sync"],"for one JSON pattern as in C71 and metadata; a response given as bytes with a content type only accepts messages with a metadata key ` contentType` (with a blank)")
c("C162","proved","PactBuilderProps",["C162_pact","C162_metadata","C162_metadata_values","example_accepted"],"without plugins; the closures given to the builder are the calls they make")
c("C163","proved","PactBuilderProps",["C163_async","C163_async_built","C163_v3","C163_sync","C163_sync_finished","C163_depends_on_schedule","C163_v4_not_generated"],"what is generated is that of C143; outside a Tokio runtime the task may be dropped before it ends: then the synchronous messages are not generated (C163_depends_on_schedule) and asking for V3 messages aborts")
c("C164","partial","MatchInterProps",["C164_outcome","C164_parts","C164_http","C164_both","C164_same_kind","C164_version","C164_message","C164_sync_never"],"refuted for synchronous messages: `match_interaction` reports a mismatch for any two of them (C164_sync_never); a V4 message has the type of its body as metadata, a V3 message has not; for the V1 engine, without plugins")
c("C165","partial","MatchInterProps",["C165_http_partial","C165_message_partial","C165_self_partial","C165_message_self_partial","C165_unreadable","exSelf","exMessageSelf"],"not for XML and multipart bodies; an interaction whose JSON body cannot be parsed does not match itself (C165_unreadable)")
c("C166","partial","BuilderFileProps",["C166_file_partial","pact_ok","http_ok","async_ok","sync_ok","exE_types","exCalls_ok","C166_example","C166_limit","C166_limit_matchers"],"refuted for names of fields with a quote or backslash: the builder writes a file that cannot be read (C166_limit); rules of a header or query parameter called `matchers` are lost; otherwise for every sequence of calls, what is read being that of C75; assumes that content types can be read from the text they are written as")
c("C167","partial","ReadRulesProps",["C167_json_partial","C167_pattern_partial","C167_built_partial","ReadMessageProps.C167_messages_partial","ReadMessageProps.C167_example_messages","exBody_ok","C167_example","C167_example_pattern","C167_limit","RuleJsonProps.C34_tables_partial"],"refuted where two rules of a table are equally specific for a path: which of them is used depends on the order of the table, and a file does not keep it (C167_limit); for rules without rules inside, V4 pacts and JSON bodies; patterns as in C71")
c("C168","proved","ReadDocProps",["C168_meaning","C168_complete","C168_missing","example_document","example_table","example_document_v2"],"path expressions as C52 describes them (Path.new); what one rule object says: C169 and RuleJson.fromJson")
c("C169","proved","ReadRuleProps",["C169_rule","C169_objects","C169_attributes","example_says","example_agree","example_untyped"],"the rules and generators inside array-contains variants and each-key/each-value definitions are those read by the same functions (RuleJson.addRulesFromJson, gensFromJson, genOfObj)")
c("C170","proved","ReadGenProps",["C170_generator","C170_meaning","C170_complete","C170_missing","C170_refused","example_document","example_table"],"numbers as JsonUtils.jsonToI32/jsonToU16 read them (C34); data types of provider state generators as dataTypeFromJson")
c("C171","proved","ReadPartProps",["C171_body","C171_request","C171_request_read","C171_response","C171_response_read","C171_response_crash","C171_message","C171_message_read","C171_http","example_request","example_base64","example_crash"],"query strings as parseQueryString reads them (C35), rules as in C168, generators as in C170; detection of content types and the MIME parser are parameters")
c("C172","proved","ReadFileProps",["C172_common","C172_interaction","C172_interaction_read","C172_pact","C172_pact_read","C172_refused","example_file","example_refused"],"the model keeps the first of several errors; which error it is plays no part")
c("C173","proved","ReadOldProps",["C173_body","C173_request","C173_request_read","C173_response","C173_response_read","C173_interaction","C173_interaction_read","C173_message","C173_message_read","C173_pact","C173_message_pact","C173_messages_refused","example_request","example_file","example_message","example_refused"],"rules as C168, generators as C170, the version of a file as C80; detection of content types and the MIME parser are parameters")
c("C174","proved","ReportProps",["C174_report","C174_attributes","C174_failure","C174_mismatch","C174_notices","C174_not_utf8","C174_file","example_ok","example_same","example_other","example_not_utf8"],"notices are maps; the parser of the written file is a parameter; the results of single interactions are not in this report")
c("C175","proved","ReportProps",["C175_eq","C175_equivalence","C175_report","C175_conversions","C175_order","C175_description","example_eqv"],"from_utf8_lossy is a parameter that keeps texts")
c("C176","proved","ReportOutputProps",["C176_output","C176_complete","C176_first","C176_summary","example_output"],"without colours; the text of the difference of two bodies is a parameter; the order of status, method, path and content type mismatches of one run is not stated")
