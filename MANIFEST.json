{
 "claims": [
  {
   "property": "C01",
   "status": "partial",
   "theorems": [
    "Verif.PathProps.C01_roundtrip_iff",
    "Verif.PathProps.C01_roundtrip_partial",
    "Verif.PathProps.C01_roundtrip_fails",
    "Verif.PathProps.C01_api_paths"
   ],
   "note": "full claim false of the code (quotes, backslashes, empty keys): refuted; exact iff characterisation and the true part proved"
  },
  {
   "property": "C02",
   "status": "partial",
   "theorems": [
    "Verif.PathProps.C02_panics_iff",
    "Verif.PathProps.C02_no_panic_fails",
    "Verif.PathProps.C02_no_panic_partial"
   ],
   "note": "false of the code (index overflow, non-ASCII numerals); exact panic condition proved"
  },
  {
   "property": "C03",
   "status": "proved",
   "theorems": [
    "Verif.PathProps.C03_expr_injective",
    "Verif.PathProps.C03_parsed_paths_alias"
   ],
   "note": "for programmatically built paths; aliasing of parsed paths shown"
  },
  {
   "property": "C04",
   "status": "partial",
   "theorems": [
    "Verif.PathProps.C04_matches_path_iff",
    "Verif.PathProps.C04_matches_path_partial",
    "Verif.PathProps.C04_overflow",
    "Verif.PathProps.C04_self_match"
   ],
   "note": "false with 64 or more non-wildcard segments (usize overflow); exact iff proved"
  },
  {
   "property": "C08",
   "status": "partial",
   "theorems": [
    "Verif.PathProps.C08_parent_push",
    "Verif.PathProps.C08_push_path",
    "Verif.PathProps.C08_join_part_partial",
    "Verif.PathProps.C08_join_numeral_key",
    "Verif.PathProps.C08_json_pointer",
    "Verif.PathProps.C08_json_pointer_wildcard"
   ],
   "note": "join law false for non-canonical numerals (007, +7); rest proved in full"
  },
  {
   "property": "C05",
   "status": "partial",
   "theorems": [
    "Verif.RuleProps.C05_selection_maximal_partial",
    "Verif.RuleProps.C05_order_independent_partial",
    "Verif.RuleProps.C05_ties_depend_on_order",
    "Verif.RuleProps.C05_other_categories_take_first"
   ],
   "note": "maximality and order independence proved for paths of at most 58 segments (64-bit weight); ties shown order dependent"
  },
  {
   "property": "C06",
   "status": "partial",
   "theorems": [
    "Verif.RuleProps.C06_exact_rule_wins_partial",
    "Verif.RuleProps.C06_overflow"
   ],
   "note": "false for paths whose weight overflows 64 bits: refuted; proved below the bound"
  },
  {
   "property": "C07",
   "status": "proved",
   "theorems": [
    "Verif.RuleProps.C07_cascaded_flag"
   ],
   "note": ""
  },
  {
   "property": "C09",
   "status": "partial",
   "theorems": [
    "Verif.RuleProps.C09_defined_iff_selected_partial",
    "Verif.RuleProps.C09_empty_list_counts_as_defined"
   ],
   "note": "an explicitly empty rule list counts as defined: refuted; rest proved"
  },
  {
   "property": "C10",
   "status": "proved",
   "theorems": [
    "Verif.MatcherProps.C10_and",
    "Verif.MatcherProps.C10_or",
    "Verif.MatcherProps.C10_empty",
    "Verif.MatcherProps.C10_errors"
   ],
   "note": ""
  },
  {
   "property": "C11",
   "status": "proved",
   "theorems": [
    "Verif.MatcherProps.C11_type_iff",
    "Verif.MatcherProps.C11_type_equivalence",
    "Verif.MatcherProps.C11_example_independent"
   ],
   "note": ""
  },
  {
   "property": "C12",
   "status": "proved",
   "theorems": [
    "Verif.MatcherProps.C12_json_arrays",
    "Verif.MatcherProps.C12_json_others",
    "Verif.MatcherProps.C12_lists",
    "Verif.MatcherProps.C12_maps"
   ],
   "note": "single rule level; the comparator skips the check when the expected list is empty (see C15 group)"
  },
  {
   "property": "C13",
   "status": "proved",
   "theorems": [
    "Verif.MatcherProps.C13_status",
    "Verif.MatcherProps.C13_partition",
    "Verif.MatcherProps.C13_status_text",
    "Verif.MatcherProps.C13_truncation",
    "Verif.MatcherProps.C13_json_vacuous"
   ],
   "note": "for 16 bit status codes; truncation of larger numbers and vacuity in JSON bodies shown"
  },
  {
   "property": "C14",
   "status": "partial",
   "theorems": [
    "Verif.MatcherProps.C14_json",
    "Verif.MatcherProps.C14_json_exclusive",
    "Verif.MatcherProps.C14_string_integer_fails",
    "Verif.MatcherProps.C14_string_integer_partial"
   ],
   "note": "negative integer strings are rejected by the code: refuted; exact set proved"
  },
  {
   "property": "C35",
   "status": "partial",
   "theorems": [
    "Verif.RuleProps.C35_add_rule",
    "Verif.RuleProps.C35_add_rules_partial",
    "Verif.RuleProps.C35_added_logic_lost"
   ],
   "note": "rules are appended; the AND/OR logic of the added list is lost"
  },
  {
   "property": "C36",
   "status": "partial",
   "theorems": [
    "Verif.MatcherTableProps.C36_no_duplicates",
    "Verif.MatcherProps.C36_status_rules_confused",
    "Verif.MatcherProps.C36_dedup_changes_meaning",
    "Verif.MatcherProps.C36_equal_rules_agree_partial",
    "Verif.MatcherProps.C36_dedup_preserves_partial",
    "Verif.MatcherProps.C36_scalar_equality_exact"
   ],
   "note": "false for status-code rules: refuted; proved for all others"
  },
  {
   "property": "C15",
   "status": "proved",
   "theorems": [
    "Verif.CompareProps.C15_strict",
    "Verif.CompareProps.C15_lenient"
   ],
   "note": "for all well-formed JSON values (keys sorted, as in a BTreeMap)"
  },
  {
   "property": "C16",
   "status": "proved",
   "theorems": [
    "Verif.CompareProps.C16_reflexive"
   ],
   "note": ""
  },
  {
   "property": "C17",
   "status": "proved",
   "theorems": [
    "Verif.CompareProps.C17_lenient_monotone"
   ],
   "note": "for every rule table"
  },
  {
   "property": "C18",
   "status": "partial",
   "theorems": [
    "Verif.CompareProps.C18_array_contains_partial",
    "Verif.CompareProps.C18_order_irrelevant",
    "Verif.CompareProps.C18_superset",
    "Verif.CompareProps.C18_empty_expected_accepts"
   ],
   "note": "proved for non-empty expected lists; false for an empty expected list (everything accepted): refuted"
  },
  {
   "property": "C19",
   "status": "proved",
   "theorems": [
    "Verif.CompareProps.C19_failure_reports",
    "Verif.CompareProps.C19_body_failure_reports"
   ],
   "note": ""
  },
  {
   "property": "C20",
   "status": "proved",
   "theorems": [
    "Verif.CompareProps.C20_mismatch_paths"
   ],
   "note": ""
  },
  {
   "property": "C21",
   "status": "proved",
   "theorems": [
    "Verif.CompareProps.C21_each_key",
    "Verif.CompareProps.C21_each_key_body"
   ],
   "note": ""
  },
  {
   "property": "C22",
   "status": "partial",
   "theorems": [
    "Verif.CompareProps.C22_values_partial",
    "Verif.CompareProps.C22_each_value_partial",
    "Verif.CompareProps.C22_keys_never_reported",
    "Verif.CompareProps.C22_empty_expected",
    "Verif.MessageProps.C22_inherited"
   ],
   "note": "false for an empty expected object in strict mode: refuted; proved otherwise"
  },
  {
   "property": "C44",
   "status": "partial",
   "theorems": [
    "Verif.CompareProps.C44_like_inherited",
    "Verif.CompareProps.C44_each_like_partial",
    "Verif.CompareProps.C44_min_ignored_for_empty_example"
   ],
   "note": "proved for non-empty example lists; with an empty example list the size bound is not enforced: refuted"
  },
  {
   "property": "C23",
   "status": "proved",
   "theorems": [
    "Verif.QueryProps.C23_no_rules",
    "Verif.QueryProps.C23_missing_reported",
    "Verif.QueryProps.C23_unexpected_reported",
    "Verif.QueryProps.C23_reported_differs"
   ],
   "note": "a valueless parameter is the same as an empty value"
  },
  {
   "property": "C24",
   "status": "partial",
   "theorems": [
    "Verif.HeaderProps.C24_case_insensitive",
    "Verif.HeaderProps.C24_missing_reported",
    "Verif.HeaderProps.C24_extra_ignored",
    "Verif.HeaderProps.C24_order_independent_partial",
    "Verif.HeaderProps.C24_ambiguous_names",
    "Verif.HeaderProps.C24_no_rules"
   ],
   "note": "order dependence shown for actual names differing only in case; extra blank actual values are accepted"
  },
  {
   "property": "C45",
   "status": "partial",
   "theorems": [
    "Verif.QueryProps.C45_query_rule_partial",
    "Verif.QueryProps.C45_empty_example_accepts",
    "Verif.HeaderProps.C45_header_rule_partial",
    "Verif.FormProps.C45_query_table"
   ],
   "note": "tables with any number of rules for queries in C45_query_table; an empty example list accepts anything: refuted; rest proved"
  },
  {
   "property": "C46",
   "status": "proved",
   "theorems": [
    "Verif.HeaderProps.C46_parameter_header",
    "Verif.HeaderProps.C46_extra_parameters"
   ],
   "note": ""
  },
  {
   "property": "C25",
   "status": "proved",
   "theorems": [
    "Verif.ResultProps.C25_match_request",
    "Verif.ResultProps.C25_body_verdict",
    "Verif.ResultProps.C25_body_content",
    "Verif.ResultProps.C25_grouping",
    "Verif.ResultProps.C25_verdict_partial",
    "Verif.ResultProps.C25_record_fails",
    "Verif.MessageProps.C25_method_or_path"
   ],
   "note": "for every result of comparing requests, bodies and messages; a hand-built record with an empty path error list is an exception"
  },
  {
   "property": "C26",
   "status": "partial",
   "theorems": [
    "Verif.ResultProps.C26_overflow",
    "Verif.ResultProps.C26_score_partial",
    "Verif.ResultProps.C26_score_release_partial",
    "Verif.ResultProps.C26_monotone_partial",
    "Verif.ResultProps.C26_perfect"
   ],
   "note": "false: i8 overflow for 126 or more matching query parameters; proved below the bound"
  },
  {
   "property": "C27",
   "status": "partial",
   "theorems": [
    "Verif.ResultProps.C27_missing_accepts",
    "Verif.ResultProps.C27_empty_partial",
    "Verif.ResultProps.C27_empty_fails",
    "Verif.ResultProps.C27_present_rejects",
    "Verif.ResultProps.C27_type_mismatch",
    "Verif.ResultProps.C27_comparable_no_rule"
   ],
   "note": "false for an empty expected body with a different content type (any body accepted): refuted; rest proved"
  },
  {
   "property": "C28",
   "status": "proved",
   "theorems": [
    "Verif.ResultProps.C28_method",
    "Verif.ResultProps.C28_equivalence",
    "Verif.ResultProps.C28_ascii"
   ],
   "note": ""
  },
  {
   "property": "C47",
   "status": "proved",
   "theorems": [
    "Verif.EndToEndProps.C47_request"
   ],
   "note": "XML bodies excluded; multipart bodies are in C112"
  },
  {
   "property": "C48",
   "status": "proved",
   "theorems": [
    "Verif.EndToEndProps.C48_response"
   ],
   "note": "XML bodies excluded; multipart bodies are in C112"
  },
  {
   "property": "C49",
   "status": "partial",
   "theorems": [
    "Verif.EndToEndProps.C49_sync_message_partial",
    "Verif.EndToEndProps.C49_unexpected_responses_accepted"
   ],
   "note": "false when no response is expected: refuted"
  },
  {
   "property": "C50",
   "status": "partial",
   "theorems": [
    "Verif.ResultProps.C50_equivalence_iff_partial",
    "Verif.ResultProps.C50_reflexive",
    "Verif.ResultProps.C50_actual_attributes_ignored",
    "Verif.ResultProps.C50_asymmetric",
    "Verif.ResultProps.C50_suffix_ignored"
   ],
   "note": "false for suffixes: refuted; exact characterisation proved"
  },
  {
   "property": "C51",
   "status": "proved",
   "theorems": [
    "Verif.EndToEndProps.C51_form"
   ],
   "note": ""
  },
  {
   "property": "C52",
   "status": "proved",
   "theorems": [
    "Verif.PathGrammarProps.C52_grammar",
    "Verif.PathGrammarProps.C52_unambiguous"
   ],
   "note": ""
  },
  {
   "property": "C53",
   "status": "proved",
   "theorems": [
    "Verif.PathGrammarProps.C53_parent",
    "Verif.PathGrammarProps.C53_drop",
    "Verif.PathGrammarProps.C53_drop_all",
    "Verif.PathGrammarProps.C53_join_index",
    "Verif.PathGrammarProps.C53_join_field",
    "Verif.PathGrammarProps.C53_shape",
    "Verif.PathGrammarProps.C53_to_lower_case"
   ],
   "note": ""
  },
  {
   "property": "C54",
   "status": "proved",
   "theorems": [
    "Verif.MatcherTableProps.C54_text",
    "Verif.MatcherTableProps.C54_text_cascaded",
    "Verif.MatcherTableProps.C54_status",
    "Verif.MatcherTableProps.C54_json"
   ],
   "note": "regular expressions, dates, versions and content type detection are parameters; type, size and number rules on JSON are C11, C12, C14"
  },
  {
   "property": "C55",
   "status": "proved",
   "theorems": [
    "Verif.MatcherTableProps.C55_merge",
    "Verif.MatcherTableProps.C55_combined"
   ],
   "note": "the AND/OR logic of the first set wins (see C35)"
  },
  {
   "property": "C29",
   "status": "partial",
   "theorems": [
    "Verif.QueryStringProps.C29_encode_panics_iff",
    "Verif.QueryStringProps.C29_value_iff",
    "Verif.QueryStringProps.C29_roundtrip_partial",
    "Verif.QueryStringProps.C29_roundtrip_fails",
    "Verif.QueryStringProps.C29_decode_truncates",
    "Verif.QueryStringProps.C29_v3_roundtrip",
    "Verif.QueryStringProps.C29_v3_number_item"
   ],
   "note": "V3/V4 files: proved for all maps; V2 query strings: refuted (unencoded names, non-ASCII, panics), proved under the exact value condition"
  },
  {
   "property": "C30",
   "status": "partial",
   "theorems": [
    "Verif.QueryStringProps.C30_header_iff",
    "Verif.QueryStringProps.C30_headers_partial",
    "Verif.QueryStringProps.C30_header_fails",
    "Verif.QueryStringProps.C30_v4_roundtrip"
   ],
   "note": "V4 files: proved for all maps; V1-V3 files: exact condition per header, refuted outside it"
  },
  {
   "property": "C56",
   "status": "proved",
   "theorems": [
    "Verif.MessageProps.C56_message"
   ],
   "note": "XML and multipart bodies excluded (not modelled)"
  },
  {
   "property": "C57",
   "status": "proved",
   "theorems": [
    "Verif.MessageProps.C57_rules_local",
    "Verif.MessageProps.C57_response_rules_local",
    "Verif.MessageProps.C57_message_rules_local",
    "Verif.MessageProps.C57_contents_rules_ignored"
   ],
   "note": "the rules of the category for contents of messages are not used (proved)"
  },
  {
   "property": "C58",
   "status": "proved",
   "theorems": [
    "Verif.MessageProps.C58_path_rules",
    "Verif.MessageProps.C58_path_regex",
    "Verif.MessageProps.C58_status_rules",
    "Verif.MessageProps.C58_status_success"
   ],
   "note": ""
  },
  {
   "property": "C59",
   "status": "proved",
   "theorems": [
    "Verif.MessageProps.C59_text",
    "Verif.MessageProps.C59_binary"
   ],
   "note": "byte level rule matching is a parameter"
  },
  {
   "property": "C60",
   "status": "proved",
   "theorems": [
    "Verif.MessageProps.C60_attached_type",
    "Verif.MessageProps.C60_header_type",
    "Verif.MessageProps.C60_detected_type"
   ],
   "note": ""
  },
  {
   "property": "C37",
   "status": "partial",
   "theorems": [
    "Verif.BodyGeneratorProps.C37_applied_partial",
    "Verif.BodyGeneratorProps.C37_untouched_partial",
    "Verif.BodyGeneratorProps.C37_absent_partial",
    "Verif.BodyGeneratorProps.C37_body_partial",
    "Verif.BodyGeneratorProps.C37_slash_key",
    "Verif.BodyGeneratorProps.C37_tilde_key",
    "Verif.BodyGeneratorProps.C37_empty_key",
    "Verif.BodyGeneratorProps.C37_escaped_pointer"
   ],
   "note": "false for keys that contain '/' or '~' or are empty (pointers are not escaped): refuted; proved for all other documents"
  },
  {
   "property": "C41",
   "status": "partial",
   "theorems": [
    "Verif.JsonUtilsProps.C41_objects",
    "Verif.JsonUtilsProps.C41_keys",
    "Verif.JsonUtilsProps.C41_arrays",
    "Verif.JsonUtilsProps.C41_override",
    "Verif.JsonUtilsProps.C41_wf",
    "Verif.JsonUtilsProps.C41_identity",
    "Verif.JsonUtilsProps.C41_assoc_partial",
    "Verif.JsonUtilsProps.C41_not_associative"
   ],
   "note": "keys, overriding, concatenation proved; associativity refuted, and proved when no value of the middle document masks a container"
  },
  {
   "property": "C42",
   "status": "partial",
   "theorems": [
    "Verif.JsonUtilsProps.C42_u16_partial",
    "Verif.JsonUtilsProps.C42_u16_default",
    "Verif.JsonUtilsProps.C42_i32_partial",
    "Verif.JsonUtilsProps.C42_truncated",
    "Verif.JsonUtilsProps.C42_num"
   ],
   "note": "false: 16 and 32 bit attributes are truncated; exact condition proved"
  },
  {
   "property": "C31",
   "status": "partial",
   "theorems": [
    "Verif.MergeProps.C31_parties",
    "Verif.MergeProps.C31_conflict_iff",
    "Verif.MergeProps.C31_http_keeps",
    "Verif.MergeProps.C31_messages_keeps",
    "Verif.MergeProps.C31_http_exactly_once_partial",
    "Verif.MergeProps.C31_messages_exactly_once_partial",
    "Verif.MergeProps.C31_http_self",
    "Verif.MergeProps.C31_messages_self",
    "Verif.MergeProps.C31_v4_keeps",
    "Verif.MergeProps.C31_v4_keys_exactly_once_partial",
    "Verif.MergeProps.C31_v4_exactly_once_partial",
    "Verif.MergeProps.C31_v4_self_partial",
    "Verif.MergeProps.C31_v4_converted",
    "Verif.MergeProps.C31_v4_plugins",
    "Verif.MergeProps.C31_stateless_lost_v3",
    "Verif.MergeProps.C31_stateless_lost_v4",
    "Verif.MergeProps.C31_update_lost_v3",
    "Verif.MergeProps.C31_unsorted_duplicates",
    "Verif.MergeProps.C31_plugin_arrays_double"
   ],
   "note": "every interaction of both inputs is represented (all lists); exactly once proved for sorted lists without ambiguous states, refuted outside; merge with itself proved"
  },
  {
   "property": "C32",
   "status": "partial",
   "theorems": [
    "Verif.WritePactProps.C32_one_process_partial",
    "Verif.WritePactProps.C32_log",
    "Verif.WritePactProps.C32_nothing_lost_partial",
    "Verif.WritePactProps.C32_v3_nothing_lost_partial",
    "Verif.WritePactProps.C32_v4_nothing_lost_partial",
    "Verif.WritePactProps.C32_crash",
    "Verif.WritePactProps.C32_broken_stays",
    "Verif.WritePactProps.C32_window",
    "Verif.WritePactProps.C32_lost_update",
    "Verif.WritePactProps.C32_lost_create"
   ],
   "note": "all interleavings of any number of writers of one process proved; writers in several processes lose updates and a crash can leave a truncated file: refuted"
  },
  {
   "property": "C33",
   "status": "proved",
   "theorems": [
    "Verif.MergeProps.C33_product",
    "Verif.MergeProps.C33_mem",
    "Verif.MergeProps.C33_once",
    "Verif.MergeProps.C33_after_end"
   ],
   "note": "polling again after the end panics"
  },
  {
   "property": "C38",
   "status": "partial",
   "theorems": [
    "Verif.ExprProps.C38_substitution",
    "Verif.ExprProps.C38_undefined",
    "Verif.ExprProps.C38_unclosed",
    "Verif.ExprProps.C38_stray_brace_panics",
    "Verif.ExprProps.C38_cases",
    "Verif.ExprProps.C38_panic_iff",
    "Verif.ExprProps.C38_no_brace_partial",
    "Verif.ExprProps.C38_plain"
   ],
   "note": "false: a closing brace before an expression panics; every other string proved, with the exact panic condition"
  },
  {
   "property": "C61",
   "status": "partial",
   "theorems": [
    "Verif.ExprProps.C61_has_type",
    "Verif.ExprProps.C61_unchanged",
    "Verif.ExprProps.C61_total",
    "Verif.ExprProps.C61_integer_text_partial",
    "Verif.ExprProps.C61_negative_text_rejected",
    "Verif.ExprProps.C61_boolean_number",
    "Verif.ExprProps.C61_integer_boolean"
   ],
   "note": "floating point arithmetic is a parameter; a text with a negative integer is rejected: refuted"
  },
  {
   "property": "C40",
   "status": "partial",
   "theorems": [
    "Verif.HandleProps.C40_unpack",
    "Verif.HandleProps.C40_bits",
    "Verif.HandleProps.C40_injective",
    "Verif.HandleProps.C40_history_partial",
    "Verif.HandleProps.C40_history_messages_partial",
    "Verif.HandleProps.C40_distinct_partial",
    "Verif.HandleProps.C40_freed",
    "Verif.HandleProps.C40_failed_creation",
    "Verif.HandleProps.C40_alias",
    "Verif.HandleProps.C40_v4_other_pact",
    "Verif.HandleProps.C40_reuse"
   ],
   "note": "packing proved for all values; every history with at most 65535 interactions per pact proved; beyond that handles repeat or cross into another pact: refuted; a handle of a failed creation panics"
  },
  {
   "property": "C62",
   "status": "partial",
   "theorems": [
    "Verif.HandleProps.C62_flag_partial",
    "Verif.HandleProps.C62_modified_after_start",
    "Verif.HandleProps.C62_not_found"
   ],
   "note": "false: a call that returns false because the server was started has modified the interaction"
  },
  {
   "property": "C39",
   "status": "partial",
   "theorems": [
    "Verif.VerifierProps.C39_run",
    "Verif.VerifierProps.C39_pact",
    "Verif.VerifierProps.C39_interaction",
    "Verif.VerifierProps.C39_pending",
    "Verif.VerifierProps.C39_total",
    "Verif.VerifierProps.C39_teardown_partial",
    "Verif.VerifierProps.C39_setup_failure_no_teardown"
   ],
   "note": "verdict, order of calls and results proved for every environment; teardown after a failed setup: refuted"
  },
  {
   "property": "C43",
   "status": "proved",
   "theorems": [
    "Verif.VerifierProps.C43_filter",
    "Verif.VerifierProps.C43_total",
    "Verif.VerifierProps.C43_options",
    "Verif.VerifierProps.C43_no_state",
    "Verif.VerifierProps.C43_consumers",
    "Verif.VerifierProps.C43_invalid_panics"
   ],
   "note": "regular expressions are a parameter; an invalid pattern panics"
  },
  {
   "property": "C63",
   "status": "partial",
   "theorems": [
    "Verif.VerifierProps.C63_published_partial",
    "Verif.VerifierProps.C63_unpublished",
    "Verif.VerifierProps.C63_earlier_pact"
   ],
   "note": "false without publishing (a fully successful run shows the failure notices) and after an earlier failed pact: refuted; proved for a single pact with publishing"
  },
  {
   "property": "C64",
   "status": "proved",
   "theorems": [
    "Verif.VerifierProps.C64_context"
   ],
   "note": ""
  },
  {
   "property": "C65",
   "status": "proved",
   "theorems": [
    "Verif.VerifierProps.C65_published",
    "Verif.VerifierProps.C65_not_published",
    "Verif.VerifierProps.C65_vacuous_success"
   ],
   "note": "includes: a success is published for a pact of which the filter selects nothing"
  },
  {
   "property": "C34",
   "status": "partial",
   "theorems": [
    "Verif.RuleJsonProps.C34_flat_rule",
    "Verif.RuleJsonProps.C34_rule_kept",
    "Verif.RuleJsonProps.C34_rule_partial",
    "Verif.RuleJsonProps.C34_rules_partial",
    "Verif.RuleJsonProps.C34_rule_fails",
    "Verif.RuleJsonProps.C34_rules_fails",
    "Verif.RuleJsonProps.C34_header_spellings",
    "Verif.RuleJsonProps.gen_roundtrip",
    "Verif.RuleJsonProps.fromJson_fix"
   ],
   "note": "every rule of any nesting is read back up to what is not written (empty lists, value type and expression of each-key/each-value definitions), and every table of rules with well-formed keys; refuted: lost information, keys of header/query/path rules, headers called matchers, panic on references"
  },
  {
   "property": "C66",
   "status": "partial",
   "theorems": [
    "Verif.RuleJsonProps.C66_recreate_partial",
    "Verif.RuleJsonProps.C66_min_max_fails",
    "Verif.RuleJsonProps.C66_array_contains_fails"
   ],
   "note": "false for min-max-type (always an error) and array-contains (variants lost) rules; all other rules proved"
  },
  {
   "property": "C67",
   "status": "partial",
   "theorems": [
    "Verif.GenerateProps.C67_tables_partial",
    "Verif.GenerateProps.C67_header_key_fails",
    "Verif.GenerateProps.C67_root_key_fails",
    "Verif.GenerateProps.C67_recreate_partial",
    "Verif.GenerateProps.C67_recreate_string_fails",
    "Verif.GenerateProps.C67_recreate_dataType_fails"
   ],
   "note": "tables with names (header, query), empty paths (path, method, status) or parsed paths as keys are read back equal; other keys refuted; recreation fails for the size of random strings and the data type of provider state generators"
  },
  {
   "property": "C68",
   "status": "partial",
   "theorems": [
    "Verif.GenerateProps.C68_int_range",
    "Verif.GenerateProps.C68_int_reachable",
    "Verif.GenerateProps.C68_int_max_fails",
    "Verif.GenerateProps.C68_int_panic",
    "Verif.GenerateProps.C68_status_range",
    "Verif.GenerateProps.C68_status_fails",
    "Verif.GenerateProps.C68_int_rule",
    "Verif.GenerateProps.C68_int_text",
    "Verif.GenerateProps.C68_decimal",
    "Verif.GenerateProps.C68_decimal_small",
    "Verif.GenerateProps.C68_hexadecimal_partial",
    "Verif.GenerateProps.C68_hexadecimal_fails",
    "Verif.GenerateProps.C68_string",
    "Verif.GenerateProps.C68_uuid",
    "Verif.GenerateProps.C68_anchors",
    "Verif.GenerateProps.C68_anchors_fails"
   ],
   "note": "false: the largest i32 is never drawn, status code limits are truncated to 16 bits, more than 16 hexadecimal digits are never made, negative integer texts do not satisfy the integer rule; random texts of regular expressions are not modelled"
  },
  {
   "property": "C69",
   "status": "proved",
   "theorems": [
    "Verif.LocalityProps.C69_locality",
    "Verif.LocalityProps.C69_selection",
    "Verif.LocalityProps.C69_other_branch"
   ],
   "note": "body rules, JSON comparison"
  },
  {
   "property": "C70",
   "status": "partial",
   "theorems": [
    "Verif.PatternProps.C70_example_satisfies_partial",
    "Verif.PatternProps.C70_object_matching_fails",
    "Verif.PatternProps.C70_same_index_fails"
   ],
   "note": "false for ObjectMatching (the rules of one key are applied to all keys) and for keys that read as the same index (007 and 7): refuted; every other pattern proved"
  },
  {
   "property": "C71",
   "status": "partial",
   "theorems": [
    "Verif.PatternProps.C71_rules_denote_pattern_partial",
    "Verif.PatternProps.C71_nested_each_like_ambiguous",
    "Verif.PatternProps.C71_each_like_zero"
   ],
   "note": "exact characterisation for every pattern without ObjectMatching, without an each_like directly in an each_like whose elements have rules of their own (refuted: the result depends on the hash order), with rule paths of at most 58 segments"
  },
  {
   "property": "C72",
   "status": "partial",
   "theorems": [
    "Verif.PactFileProps.C72_body_partial",
    "Verif.PactFileProps.C72_kept_iff",
    "Verif.PactFileProps.C72_limits"
   ],
   "note": "exact characterisation of what is kept, for every body and content type that is parsed from its own text; the property itself is false for the JSON values null and \"\" (read back as null and empty body), null bodies (lost), bodies without content type (get */*) and other spellings of JSON: refuted by example"
  },
  {
   "property": "C73",
   "status": "partial",
   "theorems": [
    "Verif.PactFileProps.C73_request_partial",
    "Verif.PactFileProps.C73_response_partial",
    "Verif.PactFileProps.C73_defaults",
    "Verif.PactFileProps.C73_panics"
   ],
   "note": "bodies as in C72, rules and generators as in C34 and C67; refuted: a content type header without value panics"
  },
  {
   "property": "C74",
   "status": "partial",
   "theorems": [
    "Verif.PactFileProps.C74_interaction_partial"
   ],
   "note": "the id, comments with an empty value and markup without text are not written (stated in SameCommon); bodies as in C72"
  },
  {
   "property": "C75",
   "status": "partial",
   "theorems": [
    "Verif.PactFileProps.C75_pact_partial",
    "Verif.PactFileProps.C75_defaults"
   ],
   "note": "for pacts whose interactions satisfy the conditions of C72-C74 and whose metadata has no entry called plugins"
  },
  {
   "property": "C76",
   "status": "proved",
   "theorems": [
    "Verif.PactV3Props.C76_http_iff",
    "Verif.PactV3Props.C76_message_iff",
    "Verif.PactV3Props.C76_states",
    "Verif.PactV3Props.C76_text",
    "Verif.PactV3Props.C76_binary",
    "Verif.PactV3Props.C76_json",
    "Verif.PactV3Props.C76_limits"
   ],
   "note": "the bytes are read back exactly iff the stated condition holds (proved both ways, for every body); not kept: JSON strings with escapes or with JSON in them, undecodable text, base64-looking binary text (by example)"
  },
  {
   "property": "C77",
   "status": "partial",
   "theorems": [
    "Verif.PactV3Props.C77_written_type",
    "Verif.PactV3Props.C77_request_partial",
    "Verif.PactV3Props.C77_response_partial",
    "Verif.PactV3Props.C77_interaction_partial",
    "Verif.PactV3Props.C77_pact_partial"
   ],
   "note": "bodies as in C76, rules and generators as in C34 and C67; the id is not written"
  },
  {
   "property": "C78",
   "status": "partial",
   "theorems": [
    "Verif.PactV3Props.C78_message_partial",
    "Verif.PactV3Props.C78_pact_partial",
    "Verif.PactV3Props.C78_limits"
   ],
   "note": "contents as in C76; refuted: the generators of messages are written and never read; messages are read from V3 files only"
  },
  {
   "property": "C79",
   "status": "partial",
   "theorems": [
    "Verif.PactV2Props.C79_rules_partial",
    "Verif.PactV2Props.C79_name_iff",
    "Verif.PactV2Props.C79_request_partial",
    "Verif.PactV2Props.C79_response_partial",
    "Verif.PactV2Props.C79_interaction_partial",
    "Verif.PactV2Props.C79_pact_partial",
    "Verif.PactV2Props.C79_query_form",
    "Verif.PactV2Props.C79_limits"
   ],
   "note": "for pacts within the V2 form (one rule per path, names starting with a letter or digit and without dots, no dollar in body paths except the root); what becomes of others is shown in C79_limits; only the name of the first provider state is kept"
  },
  {
   "property": "C80",
   "status": "proved",
   "theorems": [
    "Verif.PactLoadProps.C80_version",
    "Verif.PactLoadProps.C80_one_version",
    "Verif.PactLoadProps.C80_load",
    "Verif.PactLoadProps.C80_refused"
   ],
   "note": "the reader of version numbers (lenient_semver) is a parameter"
  },
  {
   "property": "C81",
   "status": "proved",
   "theorems": [
    "Verif.PactConvertProps.C81_http",
    "Verif.PactConvertProps.C81_message",
    "Verif.PactConvertProps.C81_all_written",
    "Verif.PactConvertProps.C81_v3_writable",
    "Verif.PactConvertProps.C81_old_refused",
    "Verif.PactConvertProps.C81_downgrade_http",
    "Verif.PactConvertProps.C81_downgrade_messages",
    "Verif.PactConvertProps.C81_v4_file",
    "Verif.PactConvertProps.C81_upgrade_http",
    "Verif.PactConvertProps.C81_upgrade_messages"
   ],
   "note": "a message gets the content type of its contents as metadata; bodies, rules and generators as in C72 and C76; fields V3 does not have (key, comments, pending, plugins, markup, transport) are lost and metadata that is not an object"
  },
  {
   "property": "C82",
   "status": "partial",
   "theorems": [
    "Verif.DefExprProps.C82_documented_partial",
    "Verif.DefExprProps.unescape_iff",
    "Verif.DefExprProps.combines_unique",
    "Verif.DefExprProps.C82_any_string",
    "Verif.DefExprProps.C82_example_verbatim",
    "Verif.DefExprProps.C82_witness",
    "Verif.DefExprProps.finding_backslash_at_end",
    "Verif.DefExprProps.finding_quote_escape",
    "Verif.DefExprProps.finding_outer_quotes",
    "Verif.DefExprProps.finding_example_escapes",
    "Verif.DefExprProps.finding_decimal_state",
    "Verif.DefExprProps.finding_large"
   ],
   "note": "every definition of any nesting and layout whose strings have quotes only after a backslash and do not end in a backslash or quote, with numbers in range; refuted: strings ending in an escaped backslash swallow what follows, \\' keeps its backslash, quotes at the ends of a string are lost; the logos lexer is modelled by the meaning of its patterns"
  },
  {
   "property": "C83",
   "status": "partial",
   "theorems": [
    "Verif.DefExprProps.C83_only_partial",
    "Verif.DefExprProps.C82_no_panic",
    "Verif.DefExprProps.C83_recognised",
    "Verif.DefExprProps.C83_tokens",
    "Verif.DefExprProps.finding_trailing",
    "Verif.DefExprProps.finding_point",
    "Verif.DefExprProps.finding_prefix",
    "Verif.DefExprProps.finding_length",
    "Verif.DefExprProps.finding_sign"
   ],
   "note": "what is accepted is a laid-out definition, up to an illegal token at the end, anything after the point of a number and any word starting with fromProviderState in dates (all three shown to be accepted); what an illegal token covers is a parameter that is nothing more than one character for white space the lexer does not skip"
  },
  {
   "property": "C84",
   "status": "proved",
   "theorems": [
    "Verif.IntegrationProps.C84_example",
    "Verif.IntegrationProps.C84_unique",
    "Verif.IntegrationProps.C84_aborts",
    "Verif.IntegrationProps.C84_clean",
    "Verif.IntegrationProps.C84_unchanged",
    "Verif.IntegrationProps.C84_again",
    "Verif.IntegrationProps.matchersFrom_iff",
    "Verif.IntegrationProps.C84_witness",
    "Verif.IntegrationProps.C84_documented_many",
    "Verif.IntegrationProps.C84_documented_definition",
    "Verif.IntegrationProps.C84_documented_combination",
    "Verif.IntegrationProps.C84_unknown_matcher",
    "Verif.IntegrationProps.C84_abort_witness"
   ],
   "note": "parsing the text of the document and writing the result are left out; the program is aborted exactly for an index that does not fit in the paths of nested variants; shown by example: the documented forms without value give null, the documented combination of definitions gives no rules, an unknown matcher loses the value but keeps the generator"
  },
  {
   "property": "C85",
   "status": "proved",
   "theorems": [
    "Verif.IntegrationProps.C85_rules",
    "Verif.IntegrationProps.C85_entries",
    "Verif.IntegrationProps.C85_generators",
    "Verif.IntegrationProps.C85_outermost",
    "Verif.IntegrationProps.C85_witness",
    "Verif.IntegrationProps.C85_special_keys",
    "Verif.IntegrationProps.C85_leak"
   ],
   "note": "when several items of a matched list have generators the theorem says that one of them is there; keys that are numbers or * become indices and wildcards, and the wildcard of a rule for all values leaks into lists nested in it (shown)"
  },
  {
   "property": "C86",
   "status": "proved",
   "theorems": [
    "Verif.PartProps.C86_unique",
    "Verif.PartProps.C86_query",
    "Verif.PartProps.C86_query_total",
    "Verif.PartProps.C86_history",
    "Verif.PartProps.C86_request",
    "Verif.PartProps.C86_status",
    "Verif.PartProps.C86_witness",
    "Verif.PartProps.C86_path_witness",
    "Verif.PartProps.C86_nested",
    "Verif.PartProps.C86_added"
   ],
   "note": "whether a text is JSON is a parameter; several values as first value are appended to the values there are (shown); an object as value becomes its JSON text (shown); a status that is no number below 65536 becomes 0"
  },
  {
   "property": "C87",
   "status": "proved",
   "theorems": [
    "Verif.PartProps.C87_plain",
    "Verif.PartProps.C87_other",
    "Verif.PartProps.C87_first",
    "Verif.PartProps.C87_later",
    "Verif.PartProps.C87_unreadable",
    "Verif.PartProps.C87_generators",
    "Verif.PartProps.C87_path_status",
    "Verif.PartProps.C87_history",
    "Verif.PartProps.C87_witness",
    "Verif.PartProps.C87_witness_others",
    "Verif.PartProps.C87_spreads",
    "Verif.PartProps.C87_other_order",
    "Verif.PartProps.C87_twice",
    "Verif.PartProps.C87_unknown"
   ],
   "note": "for the history the first value of a name must be set first, once, and all values by matchers: the examples show that otherwise the rule of the first value is applied to all values; when several items in an array of values have generators at one path, one of them is there"
  },
  {
   "property": "C88",
   "status": "proved",
   "theorems": [
    "Verif.PartProps.C88_request",
    "Verif.PartProps.C88_response",
    "Verif.PartProps.C88_set",
    "Verif.PartProps.C88_one_spelling",
    "Verif.PartProps.C88_next",
    "Verif.PartProps.C88_single",
    "Verif.PartProps.C88_witness"
   ],
   "note": "the name of headers set before the call may differ in case if they were read from a file; Unicode case mapping is a parameter"
  },
  {
   "property": "C89",
   "status": "proved",
   "theorems": [
    "Verif.XmlProps.C89_containment",
    "Verif.XmlProps.C89_refl",
    "Verif.XmlProps.C89_trans",
    "Verif.XmlProps.C89_symm",
    "Verif.XmlProps.C89_same",
    "Verif.XmlProps.C89_body",
    "Verif.XmlProps.C89_content",
    "Verif.XmlProps.C89_witness"
   ],
   "note": "the XML parser is a parameter"
  },
  {
   "property": "C90",
   "status": "proved",
   "theorems": [
    "Verif.XmlProps.C90_accepts",
    "Verif.XmlProps.C90_lenient",
    "Verif.XmlProps.C90_self",
    "Verif.XmlProps.C90_self_type",
    "Verif.XmlProps.C90_repeated",
    "Verif.XmlProps.C90_paths",
    "Verif.XmlProps.C90_locality",
    "Verif.XmlProps.C90_demand",
    "Verif.XmlProps.C90_type_rule",
    "Verif.XmlProps.C90_names",
    "Verif.XmlProps.C90_witness",
    "Verif.XmlProps.C90_self_witness",
    "Verif.XmlProps.C90_type_rejects",
    "Verif.XmlProps.C90_not_itself",
    "Verif.XmlProps.C90_counts_white_space",
    "Verif.XmlProps.C90_prefix"
   ],
   "note": "shown by example: a type rule makes lenient comparison reject unexpected children below it; an example with different children of one name under a type rule is rejected for itself; minimum and maximum count texts and comments; rules for namespace prefixes do not apply"
  },
  {
   "property": "C91",
   "status": "proved",
   "theorems": [
    "Verif.TimeProps.C91_sound",
    "Verif.TimeProps.C91_complete",
    "Verif.TimeProps.C91_separated",
    "Verif.TimeProps.C91_iso_date",
    "Verif.TimeProps.C91_iso_time",
    "Verif.TimeProps.C91_iso_timestamp",
    "Verif.TimeProps.C91_examples"
   ],
   "note": "soundness for all formats; exactness for formats in which no field can run into the next, otherwise for values in which each field ends where the next begins; the tables of time zones are a parameter; shown: days of the year above 356 and offsets of 12 hours and more are rejected, several signs and one-digit fields accepted"
  },
  {
   "property": "C92",
   "status": "proved",
   "theorems": [
    "Verif.TimePatternProps.C92_grammar",
    "Verif.TimePatternProps.C92_unique",
    "Verif.TimePatternProps.merge_id",
    "Verif.TimePatternProps.C92_examples"
   ],
   "note": "for every text"
  },
  {
   "property": "C93",
   "status": "partial",
   "theorems": [
    "Verif.TimeGenProps.C93_generated_accepted_partial",
    "Verif.TimeGenProps.C93_rule",
    "Verif.TimeGenProps.C93_defaults",
    "Verif.TimeGenProps.C93_panic_iff",
    "Verif.TimeGenProps.C93_date_panic_iff",
    "Verif.TimeGenProps.C93_witness",
    "Verif.TimeGenProps.C93_limits",
    "Verif.TimeGenProps.C93_default_timestamp"
   ],
   "note": "without an expression; chrono's formatting is modelled from its documentation; refuted for the formats and moments not in Safe (C93_limits), and for the default DateTime generator, which the default timestamp rule never accepts (C93_default_timestamp)"
  },
  {
   "property": "C94",
   "status": "proved",
   "theorems": [
    "Verif.TimeProps.C94_panic_iff",
    "Verif.TimeProps.C94_panic_separated",
    "Verif.TimeProps.C94_no_panic",
    "Verif.TimeProps.C94_panics"
   ],
   "note": "debug builds (overflow checks)"
  },
  {
   "property": "C95",
   "status": "partial",
   "theorems": [
    "Verif.DateExprProps.C95_date_read",
    "Verif.DateExprProps.C95_time_read",
    "Verif.DateExprProps.C95_date_sound_partial",
    "Verif.DateExprProps.C95_time_sound_partial",
    "Verif.DateExprProps.C96_witness",
    "Verif.DateExprProps.finding_tail",
    "Verif.DateExprProps.finding_spelling"
   ],
   "note": "every documented expression is read; conversely a text that is read is an expression followed by an ignored end (shown to exist), so that the converse is refuted as stated; what the lexer takes for an illegal token is a parameter"
  },
  {
   "property": "C96",
   "status": "partial",
   "theorems": [
    "Verif.DateExprProps.C96_step",
    "Verif.DateExprProps.C96_date_partial",
    "Verif.DateExprProps.C96_text",
    "Verif.DateExprProps.C96_unique",
    "Verif.DateExprProps.C96_calendar",
    "Verif.DateExprProps.C96_witness",
    "Verif.DateExprProps.finding_month_ends",
    "Verif.DateExprProps.finding_numbers"
   ],
   "note": "numbers up to 2·10^9 (larger ones wrap, shown); the zone has a constant offset (no daylight saving); chrono's calendar is modelled"
  },
  {
   "property": "C97",
   "status": "partial",
   "theorems": [
    "Verif.DateExprProps.C97_time_partial",
    "Verif.DateExprProps.C97_text",
    "Verif.DateExprProps.C97_total",
    "Verif.DateExprProps.C97_datetime",
    "Verif.DateExprProps.C97_witness",
    "Verif.DateExprProps.finding_twelve"
   ],
   "note": "numbers up to 2·10^9; constant offset; shown: 12 o'clock pm leaves the time as it is and 12 o'clock am is noon"
  },
  {
   "property": "C98",
   "status": "partial",
   "theorems": [
    "Verif.DateExprProps.C98_parse_total",
    "Verif.DateExprProps.C98_panic_iff",
    "Verif.DateExprProps.C98_time_panic_iff",
    "Verif.DateExprProps.C98_no_panic",
    "Verif.DateExprProps.C98_generator",
    "Verif.DateExprProps.C98_accepted_partial",
    "Verif.DateExprProps.clock_ok",
    "Verif.DateExprProps.C97_witness",
    "Verif.DateExprProps.finding_numbers"
   ],
   "note": "numbers up to 2·10^9; acceptance for the formats and moments of C93, years 0 to 9999"
  },
  {
   "property": "C99",
   "status": "proved",
   "theorems": [
    "Verif.FormProps.C99_read",
    "Verif.FormProps.C99_roundtrip",
    "Verif.FormProps.C99_injective",
    "Verif.FormProps.C99_plain",
    "Verif.FormProps.spells_total",
    "Verif.FormProps.spells_iff"
   ],
   "note": "serde_urlencoded is modelled from its documentation; what bytes that are not UTF-8 become is a parameter"
  },
  {
   "property": "C100",
   "status": "partial",
   "theorems": [
    "Verif.FormProps.C100_exact_partial",
    "Verif.FormProps.C100_bytes_partial",
    "Verif.FormProps.C45_query_table",
    "Verif.FormProps.C100_witness",
    "Verif.FormProps.C100_query_order"
   ],
   "note": "rules that do not refer to the example (all but equality, values, null, status code, arrayContains, eachKey, eachValue), one for each path, names that are neither wildcards nor numbers; for queries no parameter with rules of both kinds (order dependent, shown)"
  },
  {
   "property": "C101",
   "status": "proved",
   "theorems": [
    "Verif.FormProps.C101_body",
    "Verif.FormProps.C101_unique",
    "Verif.FormProps.C101_rules",
    "Verif.FormProps.C101_supported",
    "Verif.FormProps.C101_witness",
    "Verif.FormProps.C101_supported_witness",
    "Verif.FormProps.C101_prefix",
    "Verif.FormProps.C101_shift"
   ],
   "note": "for documents that are JSON (others abort); the text of the document between the two steps is not modelled"
  },
  {
   "property": "C102",
   "status": "proved",
   "theorems": [
    "Verif.FormProps.C102_names",
    "Verif.FormProps.C102_one",
    "Verif.FormProps.C102_all",
    "Verif.FormProps.C102_order",
    "Verif.FormProps.C102_body",
    "Verif.FormProps.C102_literal",
    "Verif.FormProps.C102_clash",
    "Verif.FormProps.C102_bracket",
    "Verif.FormProps.C102_wildcard"
   ],
   "note": "names that are neither wildcards nor numbers; the two paths of the first value clash (order dependent, shown)"
  },
  {
   "property": "C103",
   "status": "partial",
   "theorems": [
    "Verif.EngineProps.C103_total_partial"
   ],
   "note": "not for XML bodies, names that are wildcards or numbers, keys with / or ~ or quotes, rules with references (values() is not implemented for them and panics), and actual headers without values (the header index panics, shown)"
  },
  {
   "property": "C104",
   "status": "partial",
   "theorems": [
    "Verif.EngineProps.C104_verdict_partial",
    "Verif.EngineProps.C104_method_partial",
    "Verif.EngineProps.C104_path_partial",
    "Verif.EngineProps.C104_path_plain_partial"
   ],
   "note": "for the requests of C103"
  },
  {
   "property": "C105",
   "status": "partial",
   "theorems": [
    "Verif.EngineProps.C105_query_partial",
    "Verif.EngineProps.C105_query_plain_partial"
   ],
   "note": "for the requests of C103; V1 rejects copies of a single value (shown)"
  },
  {
   "property": "C106",
   "status": "partial",
   "theorems": [
    "Verif.EngineProps.C106_headers_partial"
   ],
   "note": "for the requests of C103; of several expected values of a header with parameters only the first is compared (shown)"
  },
  {
   "property": "C107",
   "status": "partial",
   "theorems": [
    "Verif.EngineProps.C107_body_partial",
    "Verif.EngineProps.C107_json_partial",
    "Verif.EngineProps.C107_json_plain_partial",
    "Verif.EngineProps.C107_json_equal_partial",
    "Verif.EngineProps.C107_rules_partial"
   ],
   "note": "for the requests of C103; rules are those recreated from their name and values (C66): the rule itself except for min-max-type, array-contains, each-key and each-value"
  },
  {
   "property": "C108",
   "status": "partial",
   "theorems": [
    "Verif.EngineProps.C108_other_type_partial",
    "Verif.EngineProps.C108_text_partial",
    "Verif.EngineProps.C108_no_body_partial"
   ],
   "note": "for the requests of C103; that a body of another type is rejected, as one would expect, is refuted"
  },
  {
   "property": "C109",
   "status": "partial",
   "theorems": [
    "Verif.EngineProps.C109_logic_partial",
    "Verif.EngineProps.C109_path_partial"
   ],
   "note": "for the requests of C103; that one matching rule is enough for an `or` list, as in V1, is refuted"
  },
  {
   "property": "C110",
   "status": "partial",
   "theorems": [
    "Verif.EngineProps.C110_items_partial",
    "Verif.EngineProps.C110_like_partial"
   ],
   "note": "for the requests of C103; that the items are checked, as in V1, is refuted"
  },
  {
   "property": "C111",
   "status": "partial",
   "theorems": [
    "Verif.EngineProps.C111_self_partial"
   ],
   "note": "for the requests of C103; keys with a slash are shown not to be accepted"
  },
  {
   "property": "C112",
   "status": "proved",
   "theorems": [
    "Verif.MultipartProps.C112_parts",
    "Verif.MultipartProps.C112_no_rules",
    "Verif.MultipartProps.C112_request",
    "Verif.MultipartProps.C112_response",
    "Verif.MultipartProps.C112_nested"
   ],
   "note": "splitting the body into parts is a parameter; files that are XML or multipart bodies excluded (the latter never match)"
  },
  {
   "property": "C113",
   "status": "partial",
   "theorems": [
    "Verif.MultipartProps.C113_self_partial",
    "Verif.MultipartProps.C113_repeated_fails",
    "Verif.MultipartProps.C113_additional_accepted",
    "Verif.MultipartProps.C113_order_partial"
   ],
   "note": "self: for parts with different names; that every body accepts itself is refuted for two fields of the same name; order: for named parts with different names"
  },
  {
   "property": "C114",
   "status": "partial",
   "theorems": [
    "Verif.MultipartProps.C114_field_partial",
    "Verif.MultipartProps.C114_file_partial",
    "Verif.MultipartProps.C114_locality_partial"
   ],
   "note": "for part names that are not numbers or wildcards; fields: one rule list for the name, without wildcards"
  },
  {
   "property": "C115",
   "status": "partial",
   "theorems": [
    "Verif.MultipartProps.C115_headers_partial",
    "Verif.MultipartProps.C115_upper_case_name_fails"
   ],
   "note": "one rule list without wildcards for each header; refuted for parts whose names have upper case letters"
  },
  {
   "property": "C116",
   "status": "partial",
   "theorems": [
    "Verif.DetectProps.C116_detect",
    "Verif.DetectProps.C116_json"
   ],
   "note": "the regular expressions are modelled by hand; that every JSON document is detected is refuted: exactly negative numbers and objects whose first key is empty or does not begin with a letter, digit or underscore are taken for text"
  },
  {
   "property": "C117",
   "status": "partial",
   "theorems": [
    "Verif.DetectProps.C117_bytes",
    "Verif.DetectProps.C117_json",
    "Verif.DetectProps.C117_split_fails"
   ],
   "note": "refuted for texts with a character across byte 32, for which nothing is detected (exact condition proved)"
  },
  {
   "property": "C118",
   "status": "partial",
   "theorems": [
    "Verif.DetectProps.C118_rule",
    "Verif.DetectProps.C118_bare",
    "Verif.DetectProps.C118_recognised",
    "Verif.DetectProps.C118_missed_rejected"
   ],
   "note": "for documents that are detected; the others reject every actual body declared as JSON (proved); without rules"
  },
  {
   "property": "C119",
   "status": "proved",
   "theorems": [
    "Verif.XmlBuildProps.C119_node",
    "Verif.XmlBuildProps.C119_aborts",
    "Verif.XmlBuildProps.C119_document"
   ],
   "note": "the DOM is replaced by trees (whether the library moves text nodes is a parameter), writing the document as text is left out; names are not split into prefix and local part"
  },
  {
   "property": "C120",
   "status": "proved",
   "theorems": [
    "Verif.XmlBuildProps.C120_rules",
    "Verif.XmlBuildProps.C120_entries",
    "Verif.XmlBuildProps.C120_generators"
   ],
   "note": ""
  },
  {
   "property": "C121",
   "status": "partial",
   "theorems": [
    "Verif.XmlPathProps.C121_selected_partial",
    "Verif.XmlPathProps.C121_own_partial",
    "Verif.XmlPathProps.C121_none",
    "Verif.XmlPathProps.C121_self_partial"
   ],
   "note": "for element names of letters, digits, `_`, `-` and `:`, attribute names without quotes and at most 56 levels; refuted for names with a full stop or characters outside path expressions (`C121_full_stop`, `C121_everywhere`); accepted for itself: type and equality rules, children of the same name equal"
  },
  {
   "property": "C122",
   "status": "proved",
   "theorems": [
    "Verif.BodyBuildProps.C122_request",
    "Verif.BodyBuildProps.C122_response",
    "Verif.BodyBuildProps.C122_second",
    "Verif.BodyBuildProps.C122_message",
    "Verif.BodyBuildProps.C122_reply"
   ],
   "note": "parsing JSON and content types, detecting content types and writing XML are parameters; the handles are left out; that a header in another case counts as set is refuted (`C122_spelling`)"
  },
  {
   "property": "C123",
   "status": "proved",
   "theorems": [
    "Verif.BodyBuildProps.C122_request",
    "Verif.BodyBuildProps.C122_response",
    "Verif.BodyBuildProps.C122_message",
    "Verif.BodyBuildProps.C123_json",
    "Verif.BodyBuildProps.C123_clean",
    "Verif.BodyBuildProps.C123_xml",
    "Verif.BodyBuildProps.C123_form",
    "Verif.BodyBuildProps.C123_kept",
    "Verif.BodyBuildProps.C123_accepts"
   ],
   "note": "the example of a document that was read is assumed to be readable again (for forms: as the same document)"
  },
  {
   "property": "C124",
   "status": "proved",
   "theorems": [
    "Verif.BodyBuildProps.C124_request",
    "Verif.BodyBuildProps.C124_response",
    "Verif.BodyBuildProps.C124_message"
   ],
   "note": "the example of a document that was read is assumed to be readable again"
  },
  {
   "property": "C125",
   "status": "proved",
   "theorems": [
    "Verif.BrokerProps.C125_expand",
    "Verif.BrokerProps.C125_link",
    "Verif.BrokerProps.C125_encoded",
    "Verif.BrokerProps.C125_structure",
    "Verif.BrokerProps.C125_injective"
   ],
   "note": "word characters are a parameter; `}` is assumed not to be one"
  },
  {
   "property": "C126",
   "status": "partial",
   "theorems": [
    "Verif.BrokerProps.C126_payload",
    "Verif.BrokerProps.C126_passed",
    "Verif.BrokerProps.C126_failed",
    "Verif.BrokerProps.C126_one_entry_each",
    "Verif.BrokerProps.C126_nothing",
    "Verif.BrokerProps.C126_no_identifier"
   ],
   "note": "an entry for each interaction: for different identifiers and failures with at least one mismatch; refuted in general, as neighbouring results without identifiers share an entry and those without one have none if everything passed (the exact entries are proved); a pact without results is published as a success"
  },
  {
   "property": "C127",
   "status": "proved",
   "theorems": [
    "Verif.BrokerProps.C127_publish",
    "Verif.BrokerProps.C127_complete",
    "Verif.BrokerProps.C127_link",
    "Verif.BrokerProps.C127_no_link",
    "Verif.BrokerProps.C129_request"
   ],
   "note": "the URL library is a parameter; the branch and the tags are published even if there is no link for results"
  },
  {
   "property": "C128",
   "status": "partial",
   "theorems": [
    "Verif.BrokerProps.C128_one",
    "Verif.BrokerProps.C128_all",
    "Verif.BrokerProps.C128_independent",
    "Verif.BrokerProps.C128_selected",
    "Verif.BrokerProps.C128_unreadable",
    "Verif.BrokerProps.C128_not_found",
    "Verif.BrokerProps.C128_latest_not_found",
    "Verif.BrokerProps.C128_latest",
    "Verif.BrokerProps.C128_selected_error",
    "Verif.BrokerProps.C128_error_fails",
    "Verif.BrokerProps.C128_links"
   ],
   "note": "that every other failure fails the verification is refuted: with selected pacts, a pact that is answered with 404, and an answer that cannot be read as a list of pacts, count as no pacts; that the results are independent of each other is for brokers without state"
  },
  {
   "property": "C129",
   "status": "proved",
   "theorems": [
    "Verif.BrokerProps.C129_retries",
    "Verif.BrokerProps.C129_request",
    "Verif.BrokerProps.C129_panics"
   ],
   "note": "waiting between attempts is left out"
  },
  {
   "property": "C130",
   "status": "partial",
   "theorems": [
    "Verif.BrokerProps.C130_host",
    "Verif.BrokerProps.C130_context",
    "Verif.BrokerProps.C130_find_link",
    "Verif.BrokerProps.C130_path_only",
    "Verif.BrokerProps.C130_other_host"
   ],
   "note": "for links whose path starts with one slash; refuted for two slashes (for an URL library with the usual rules)"
  },
  {
   "property": "C131",
   "status": "proved",
   "theorems": [
    "Verif.ProviderProps.C131_sent",
    "Verif.ProviderProps.C131_refused",
    "Verif.ProviderProps.C131_query",
    "Verif.ProviderProps.C131_query_same",
    "Verif.ProviderProps.C131_url",
    "Verif.ProviderProps.C131_url_root",
    "Verif.ProviderProps.C131_replay",
    "Verif.ProviderProps.C131_query_valueless_fails",
    "Verif.ProviderProps.C131_replay_null_fails"
   ],
   "note": "the HTTP client and the rules for names and values of headers are parameters; parameters without a value are not sent and a `null` body is not accepted by its own pact (shown), replay is for the others"
  },
  {
   "property": "C132",
   "status": "partial",
   "theorems": [
    "Verif.ProviderProps.C132_custom_partial",
    "Verif.ProviderProps.C132_custom_iff",
    "Verif.ProviderProps.C132_case_fails"
   ],
   "note": "refuted if the pact spells the header in another case (exact condition proved)"
  },
  {
   "property": "C133",
   "status": "partial",
   "theorems": [
    "Verif.ProviderProps.C133_response",
    "Verif.ProviderProps.C133_error",
    "Verif.ProviderProps.C133_panics",
    "Verif.ProviderProps.C133_panics_witness"
   ],
   "note": "that reading never aborts is refuted: exactly for a body with a content type header none of whose values is text"
  },
  {
   "property": "C134",
   "status": "proved",
   "theorems": [
    "Verif.ProviderProps.C134_verified",
    "Verif.ProviderProps.C134_one_request",
    "Verif.ProviderProps.makeRequest_exchange"
   ],
   "note": "without rules, not for XML and multipart bodies; names of the headers of an answer are different (as in HTTP libraries)"
  },
  {
   "property": "C135",
   "status": "partial",
   "theorems": [
    "Verif.ProviderMessageProps.C135_asked",
    "Verif.ProviderMessageProps.C135_description",
    "Verif.ProviderMessageProps.C135_sync_description",
    "Verif.ProviderMessageProps.C135_metadata",
    "Verif.ProviderMessageProps.C135_metadata_sent",
    "Verif.ProviderMessageProps.C135_async",
    "Verif.ProviderMessageProps.C135_status_ignored",
    "Verif.ProviderMessageProps.C135_sync",
    "Verif.ProviderMessageProps.C135_sync_many",
    "Verif.ProviderMessageProps.C135_sync_none"
   ],
   "note": "without rules, not for XML and multipart bodies; synchronous messages with two or more responses are never verified and those without responses always (proved)"
  },
  {
   "property": "C136",
   "status": "proved",
   "theorems": [
    "Verif.ProviderMessageProps.C136_change",
    "Verif.ProviderMessageProps.C136_retries",
    "Verif.ProviderMessageProps.C136_no_attempts",
    "Verif.ProviderMessageProps.C136_values",
    "Verif.ProviderMessageProps.C136_body",
    "Verif.ProviderMessageProps.C136_query",
    "Verif.ProviderMessageProps.C136_param_overrides"
   ],
   "note": "if no attempts are allowed there is a panic; a parameter named `state` or `action` takes the place of the name or action in a query (shown)"
  },
  {
   "property": "C137",
   "status": "proved",
   "theorems": [
    "Verif.ProviderMessageProps.C137_sent"
   ],
   "note": "unless there is a panic; the interactions themselves as in C39"
  },
  {
   "property": "C138",
   "status": "proved",
   "theorems": [
    "Verif.ProviderMessageProps.C138_base"
   ],
   "note": ""
  },
  {
   "property": "C139",
   "status": "partial",
   "theorems": [
    "Verif.ApplyGenProps.C139_frame",
    "Verif.ApplyGenProps.C139_path",
    "Verif.ApplyGenProps.C139_path_one",
    "Verif.ApplyGenProps.C139_headers",
    "Verif.ApplyGenProps.C139_header_kept",
    "Verif.ApplyGenProps.C139_header_generated",
    "Verif.ApplyGenProps.C139_query",
    "Verif.ApplyGenProps.C139_param_kept",
    "Verif.ApplyGenProps.C139_param_generated",
    "Verif.ApplyGenProps.C139_body_kept",
    "Verif.ApplyGenProps.C139_none",
    "Verif.ApplyGenProps.C139_table",
    "Verif.ApplyGenProps.C139_array_rule",
    "Verif.ApplyGenProps.C139_total",
    "Verif.ApplyGenBodyProps.C139_case_fails"
   ],
   "note": "plugins are left out; that the name of a header is found in any case is refuted: a second header is added"
  },
  {
   "property": "C140",
   "status": "partial",
   "theorems": [
    "Verif.ApplyGenBodyProps.C140_request_json_partial",
    "Verif.ApplyGenBodyProps.C140_response_json_partial",
    "Verif.ApplyGenBodyProps.C140_request_form_partial",
    "Verif.ApplyGenBodyProps.C140_rewritten",
    "Verif.ApplyGenValueProps.C140_unreadable"
   ],
   "note": "for generators at separate places whose paths have no wildcards, without rules with variants; XML bodies are not changed by the model (nor by the code without plugins)"
  },
  {
   "property": "C141",
   "status": "partial",
   "theorems": [
    "Verif.ApplyGenProps.C141_context",
    "Verif.ApplyGenProps.C141_expression",
    "Verif.ApplyGenProps.C141_name",
    "Verif.ApplyGenProps.C141_missing",
    "Verif.ApplyGenProps.C141_text",
    "Verif.ApplyGenProps.C141_json",
    "Verif.ApplyGenProps.C141_mode",
    "Verif.ApplyGenProps.C141_text_panics",
    "Verif.ApplyGenProps.C141_json_panics",
    "Verif.ApplyGenProps.C141_path",
    "Verif.ApplyGenProps.C141_path_missing",
    "Verif.ApplyGenProps.C141_request_panics"
   ],
   "note": "that a value that cannot be converted only fails the interaction is refuted: it is a panic, with the exact condition"
  },
  {
   "property": "C142",
   "status": "proved",
   "theorems": [
    "Verif.ApplyGenProps.C142_status",
    "Verif.ApplyGenProps.C142_headers",
    "Verif.ApplyGenProps.C142_total",
    "Verif.ApplyGenProps.C142_body_kept",
    "Verif.ApplyGenProps.C142_random_status"
   ],
   "note": "the status within its limits: for limits from 0 to 65534; names of headers as in C139"
  },
  {
   "property": "C143",
   "status": "partial",
   "theorems": [
    "Verif.ApplyGenBodyProps.C143_metadata_kept",
    "Verif.ApplyGenBodyProps.C143_metadata",
    "Verif.ApplyGenBodyProps.C143_json_partial",
    "Verif.ApplyGenBodyProps.C143_type_ignored",
    "Verif.ApplyGenBodyProps.C143_sync",
    "Verif.ApplyGenBodyProps.C143_async_metadata",
    "Verif.ApplyGenBodyProps.C143_async_json_partial",
    "Verif.ApplyGenBodyProps.C143_message"
   ],
   "note": "contents as in C140; that the content type in the metadata decides is refuted: it is ignored when it is a text"
  },
  {
   "property": "C144",
   "status": "partial",
   "theorems": [
    "Verif.ApplyGenBodyProps.C144_variant",
    "Verif.ApplyGenBodyProps.C144_none",
    "Verif.ApplyGenBodyProps.C144_no_rules",
    "Verif.ApplyGenBodyProps.C144_items_partial",
    "Verif.ApplyGenBodyProps.C144_not_list",
    "Verif.ApplyGenBodyProps.C144_messages"
   ],
   "note": "generators in variants as in C140; in V4 messages the variants are never used (proved)"
  },
  {
   "property": "C145",
   "status": "partial",
   "theorems": [
    "Verif.ApplyGenValueProps.C145_value_text",
    "Verif.ApplyGenValueProps.C145_value_status",
    "Verif.ApplyGenValueProps.C145_random_text",
    "Verif.ApplyGenValueProps.C145_regex",
    "Verif.ApplyGenValueProps.C145_dates",
    "Verif.ApplyGenValueProps.C145_state_text",
    "Verif.ApplyGenValueProps.C145_url",
    "Verif.ApplyGenValueProps.C145_variants",
    "Verif.ApplyGenValueProps.C145_json_text",
    "Verif.ApplyGenValueProps.C145_json_random",
    "Verif.ApplyGenValueProps.C145_state_json",
    "Verif.ApplyGenValueProps.C145_status",
    "Verif.ApplyGenValueProps.C145_state_status",
    "Verif.ApplyGenValueProps.C145_status_wraps"
   ],
   "note": "at most 16 hexadecimal digits (C68); limits that are not empty; a status from a provider state is taken modulo 2^16 (shown); floating point numbers, regular expressions and parsing of moments are parameters"
  },
  {
   "property": "C146",
   "status": "proved",
   "theorems": [
    "Verif.StateValueProps.C146_request",
    "Verif.StateValueProps.C146_path"
   ],
   "note": "for verifiers without request filters, when nothing panics (C141); the path for contexts without an object `providerState` (which would take precedence)"
  },
  {
   "property": "C147",
   "status": "proved",
   "theorems": [
    "Verif.SessionProps.C147_names",
    "Verif.SessionProps.C147_kept",
    "Verif.SessionProps.C147_param",
    "Verif.SessionProps.C147_new",
    "Verif.SessionProps.C147_result"
   ],
   "note": "the calls change the interaction even when they answer `false` because the mock server was started (C147_result)"
  },
  {
   "property": "C148",
   "status": "proved",
   "theorems": [
    "Verif.SessionProps.C148_kept",
    "Verif.SessionProps.C148_comment",
    "Verif.SessionProps.C148_texts",
    "Verif.SessionProps.C148_test_name",
    "Verif.SessionProps.C148_fields",
    "Verif.SessionProps.C148_contents"
   ],
   "note": ""
  },
  {
   "property": "C149",
   "status": "partial",
   "theorems": [
    "Verif.SessionBodyProps.C149_http",
    "Verif.SessionBodyProps.C149_messages",
    "Verif.SessionBodyProps.C149_accepts",
    "Verif.SessionBodyProps.C149_accepts_response",
    "Verif.SessionBodyProps.C149_conflict",
    "Verif.SessionBodyProps.C149_file",
    "Verif.SessionBodyProps.C149_file_messages",
    "Verif.SessionBodyProps.C149_file_accepts",
    "Verif.SessionBodyProps.C149_file_twice"
   ],
   "note": "accepted requests for content types that are not JSON, XML, form or multipart; that an interaction accepts its own example is refuted when a header with another content type was set before (C149_conflict)"
  },
  {
   "property": "C150",
   "status": "proved",
   "theorems": [
    "Verif.SessionRuleProps.C150_rules",
    "Verif.SessionRuleProps.C150_generators",
    "Verif.SessionRuleProps.C150_sequence",
    "Verif.SessionRuleProps.C150_written",
    "Verif.SessionRuleProps.C150_written_generators"
   ],
   "note": "the last two for tables as in C34 and C67"
  },
  {
   "property": "C151",
   "status": "partial",
   "theorems": [
    "Verif.SessionMetaProps.C151_history_partial",
    "Verif.SessionMetaProps.C151_refused",
    "Verif.SessionMetaProps.C151_sync",
    "Verif.SessionMetaProps.C151_aborts",
    "Verif.SessionMetaProps.C151_dotted",
    "Verif.SessionMetaProps.C151_stale",
    "Verif.SessionMetaProps.C151_nested",
    "Verif.SessionMetaProps.C151_keys"
   ],
   "note": "the history for matchers with a scalar example and a key that is a bare name; for other keys refuted: with dots the matcher is lost, with spaces the call aborts; rules of earlier calls for a key stay in force (shown)"
  },
  {
   "property": "C152",
   "status": "proved",
   "theorems": [
    "Verif.SessionFileProps.C152_session",
    "Verif.SessionFileProps.C152_last"
   ],
   "note": "for interactions as in C74; parsed objects have each key once"
  },
  {
   "property": "C153",
   "status": "partial",
   "theorems": [
    "Verif.SessionFileProps.C153_refused",
    "Verif.SessionFileProps.C153_set",
    "Verif.SessionFileProps.C153_history",
    "Verif.SessionFileProps.C153_file",
    "Verif.SessionFileProps.C153_bypass"
   ],
   "note": "that the file has the entries is refuted for the namespaces pact-specification, pact-rust and plugins, which are accepted (C153_bypass)"
  },
  {
   "property": "C154",
   "status": "proved",
   "theorems": [
    "Verif.BuilderProps.C154_request",
    "Verif.BuilderProps.C154_response",
    "Verif.BuilderProps.example_request"
   ],
   "note": "without `contents` of plugins; a header value with commas is several values (unless it is a date or the like)"
  },
  {
   "property": "C155",
   "status": "partial",
   "theorems": [
    "Verif.BuilderProps.C155_request_rules_partial",
    "Verif.BuilderProps.C155_response_rules_partial",
    "Verif.BuilderProps.example_request",
    "Verif.BuilderProps.example_noObjectMatching"
   ],
   "note": "that the rules are those of the contents is refuted: rules (and the generator of the path or a header) of values that a later call replaced stay, and rules of a header are kept by spelling; the table is given exactly for every history; of the body for patterns without object_matching!"
  },
  {
   "property": "C157",
   "status": "proved",
   "theorems": [
    "Verif.BuilderProps.C157_interaction"
   ],
   "note": "without plugins; parameters that are not an object are none"
  },
  {
   "property": "C158",
   "status": "partial",
   "theorems": [
    "Verif.BuilderProps.C158_strip_partial",
    "Verif.BuilderProps.C158_idempotent",
    "Verif.BuilderProps.C158_not_recursive",
    "Verif.BuilderProps.C158_shallow_partial",
    "Verif.BuilderProps.example_shallow"
   ],
   "note": "null fields of objects in fields of objects stay (C158_not_recursive, contrary to the documentation); exact description of what is removed, and the property where no field contains an object with a null field"
  },
  {
   "property": "C156",
   "status": "partial",
   "theorems": [
    "Verif.BuilderMatchProps.C156_request_partial",
    "Verif.BuilderMatchProps.C156_request_no_body_partial",
    "Verif.BuilderMatchProps.C156_request_json_partial",
    "Verif.BuilderMatchProps.C156_response_partial",
    "Verif.BuilderMatchProps.C156_response_json_partial",
    "Verif.BuilderMatchProps.C156_own_example_partial",
    "Verif.BuilderMatchProps.C156_own_example_fails",
    "Verif.BuilderMatchProps.C156_literal_beside_pattern",
    "Verif.BuilderMatchProps.example_good",
    "Verif.BuilderMatchProps.example_json"
   ],
   "note": "for names of parameters and headers that are no numbers or wildcards, ASCII header names with one spelling each; bodies: none, or one JSON pattern as in C71.  Refuted in general: when a path, parameter or header is given twice, or a header pattern has a comma, the interaction can reject its own example (C156_own_example_fails), and a literal beside a pattern is not asked for"
  },
  {
   "property": "C159",
   "status": "proved",
   "theorems": [
    "Verif.MessageBuilderProps.C159_message",
    "Verif.MessageBuilderProps.C159_v3",
    "Verif.MessageBuilderProps.since_spec",
    "Verif.MessageBuilderMatchProps.C159_first_content_type_stays",
    "Verif.MessageBuilderMatchProps.example_async",
    "Verif.MessageBuilderMatchProps.example_panic"
   ],
   "note": "without plugins; the content type in the metadata is that of the first body with one, not of the last (shown); rules of JSON patterns whose body was replaced stay"
  },
  {
   "property": "C160",
   "status": "partial",
   "theorems": [
    "Verif.MessageBuilderProps.C160_message_partial",
    "Verif.MessageBuilderProps.C160_response_generators_lost",
    "Verif.MessageBuilderMatchProps.C160_lost_example",
    "Verif.MessageBuilderMatchProps.example_sync",
    "Verif.MessageBuilderMatchProps.example_proper"
   ],
   "note": "without plugins; that a response has the generators given for it is refuted: it has those of the request; its content type is stored under a key with a leading blank"
  },
  {
   "property": "C161",
   "status": "partial",
   "theorems": [
    "Verif.MessageBuilderMatchProps.C161_async_partial",
    "Verif.MessageBuilderMatchProps.C161_request_partial",
    "Verif.MessageBuilderMatchProps.C161_responses_partial",
    "Verif.MessageBuilderMatchProps.C161_own_example_partial",
    "Verif.MessageBuilderMatchProps.C161_response_body_key",
    "Verif.MessageBuilderMatchProps.known_likeTrue",
    "Verif.MessageBuilderMatchProps.example_async",
    "Verif.MessageBuilderMatchProps.example_sync"
   ],
   "note": "for one JSON pattern as in C71 and metadata; a response given as bytes with a content type only accepts messages with a metadata key ` contentType` (with a blank)"
  },
  {
   "property": "C162",
   "status": "proved",
   "theorems": [
    "Verif.PactBuilderProps.C162_pact",
    "Verif.PactBuilderProps.C162_metadata",
    "Verif.PactBuilderProps.C162_metadata_values",
    "Verif.PactBuilderProps.example_accepted"
   ],
   "note": "without plugins; the closures given to the builder are the calls they make"
  },
  {
   "property": "C163",
   "status": "proved",
   "theorems": [
    "Verif.PactBuilderProps.C163_async",
    "Verif.PactBuilderProps.C163_async_built",
    "Verif.PactBuilderProps.C163_v3",
    "Verif.PactBuilderProps.C163_sync",
    "Verif.PactBuilderProps.C163_sync_finished",
    "Verif.PactBuilderProps.C163_depends_on_schedule",
    "Verif.PactBuilderProps.C163_v4_not_generated"
   ],
   "note": "what is generated is that of C143; outside a Tokio runtime the task may be dropped before it ends: then the synchronous messages are not generated (C163_depends_on_schedule) and asking for V3 messages aborts"
  },
  {
   "property": "C164",
   "status": "partial",
   "theorems": [
    "Verif.MatchInterProps.C164_outcome",
    "Verif.MatchInterProps.C164_parts",
    "Verif.MatchInterProps.C164_http",
    "Verif.MatchInterProps.C164_both",
    "Verif.MatchInterProps.C164_same_kind",
    "Verif.MatchInterProps.C164_version",
    "Verif.MatchInterProps.C164_message",
    "Verif.MatchInterProps.C164_sync_never"
   ],
   "note": "refuted for synchronous messages: `match_interaction` reports a mismatch for any two of them (C164_sync_never); a V4 message has the type of its body as metadata, a V3 message has not; for the V1 engine, without plugins"
  },
  {
   "property": "C165",
   "status": "partial",
   "theorems": [
    "Verif.MatchInterProps.C165_http_partial",
    "Verif.MatchInterProps.C165_message_partial",
    "Verif.MatchInterProps.C165_self_partial",
    "Verif.MatchInterProps.C165_message_self_partial",
    "Verif.MatchInterProps.C165_unreadable",
    "Verif.MatchInterProps.exSelf",
    "Verif.MatchInterProps.exMessageSelf"
   ],
   "note": "not for XML and multipart bodies; an interaction whose JSON body cannot be parsed does not match itself (C165_unreadable)"
  },
  {
   "property": "C166",
   "status": "partial",
   "theorems": [
    "Verif.BuilderFileProps.C166_file_partial",
    "Verif.BuilderFileProps.pact_ok",
    "Verif.BuilderFileProps.http_ok",
    "Verif.BuilderFileProps.async_ok",
    "Verif.BuilderFileProps.sync_ok",
    "Verif.BuilderFileProps.exE_types",
    "Verif.BuilderFileProps.exCalls_ok",
    "Verif.BuilderFileProps.C166_example",
    "Verif.BuilderFileProps.C166_limit",
    "Verif.BuilderFileProps.C166_limit_matchers"
   ],
   "note": "refuted for names of fields with a quote or backslash: the builder writes a file that cannot be read (C166_limit); rules of a header or query parameter called `matchers` are lost; otherwise for every sequence of calls, what is read being that of C75; assumes that content types can be read from the text they are written as"
  },
  {
   "property": "C167",
   "status": "partial",
   "theorems": [
    "Verif.ReadRulesProps.C167_json_partial",
    "Verif.ReadRulesProps.C167_pattern_partial",
    "Verif.ReadRulesProps.C167_built_partial",
    "Verif.ReadMessageProps.C167_messages_partial",
    "Verif.ReadMessageProps.C167_example_messages",
    "Verif.ReadRulesProps.exBody_ok",
    "Verif.ReadRulesProps.C167_example",
    "Verif.ReadRulesProps.C167_example_pattern",
    "Verif.ReadRulesProps.C167_limit",
    "Verif.RuleJsonProps.C34_tables_partial"
   ],
   "note": "refuted where two rules of a table are equally specific for a path: which of them is used depends on the order of the table, and a file does not keep it (C167_limit); for rules without rules inside, V4 pacts and JSON bodies; patterns as in C71"
  },
  {
   "property": "C168",
   "status": "proved",
   "theorems": [
    "Verif.ReadDocProps.C168_meaning",
    "Verif.ReadDocProps.C168_complete",
    "Verif.ReadDocProps.C168_missing",
    "Verif.ReadDocProps.example_document",
    "Verif.ReadDocProps.example_table",
    "Verif.ReadDocProps.example_document_v2"
   ],
   "note": "path expressions as C52 describes them (Path.new); what one rule object says: C169 and RuleJson.fromJson"
  },
  {
   "property": "C169",
   "status": "proved",
   "theorems": [
    "Verif.ReadRuleProps.C169_rule",
    "Verif.ReadRuleProps.C169_objects",
    "Verif.ReadRuleProps.C169_attributes",
    "Verif.ReadRuleProps.example_says",
    "Verif.ReadRuleProps.example_agree",
    "Verif.ReadRuleProps.example_untyped"
   ],
   "note": "the rules and generators inside array-contains variants and each-key/each-value definitions are those read by the same functions (RuleJson.addRulesFromJson, gensFromJson, genOfObj)"
  },
  {
   "property": "C170",
   "status": "proved",
   "theorems": [
    "Verif.ReadGenProps.C170_generator",
    "Verif.ReadGenProps.C170_meaning",
    "Verif.ReadGenProps.C170_complete",
    "Verif.ReadGenProps.C170_missing",
    "Verif.ReadGenProps.C170_refused",
    "Verif.ReadGenProps.example_document",
    "Verif.ReadGenProps.example_table"
   ],
   "note": "numbers as JsonUtils.jsonToI32/jsonToU16 read them (C34); data types of provider state generators as dataTypeFromJson"
  },
  {
   "property": "C171",
   "status": "proved",
   "theorems": [
    "Verif.ReadPartProps.C171_body",
    "Verif.ReadPartProps.C171_request",
    "Verif.ReadPartProps.C171_request_read",
    "Verif.ReadPartProps.C171_response",
    "Verif.ReadPartProps.C171_response_read",
    "Verif.ReadPartProps.C171_response_crash",
    "Verif.ReadPartProps.C171_message",
    "Verif.ReadPartProps.C171_message_read",
    "Verif.ReadPartProps.C171_http",
    "Verif.ReadPartProps.example_request",
    "Verif.ReadPartProps.example_base64",
    "Verif.ReadPartProps.example_crash"
   ],
   "note": "query strings as parseQueryString reads them (C35), rules as in C168, generators as in C170; detection of content types and the MIME parser are parameters"
  },
  {
   "property": "C172",
   "status": "proved",
   "theorems": [
    "Verif.ReadFileProps.C172_common",
    "Verif.ReadFileProps.C172_interaction",
    "Verif.ReadFileProps.C172_interaction_read",
    "Verif.ReadFileProps.C172_pact",
    "Verif.ReadFileProps.C172_pact_read",
    "Verif.ReadFileProps.C172_refused",
    "Verif.ReadFileProps.example_file",
    "Verif.ReadFileProps.example_refused"
   ],
   "note": "the model keeps the first of several errors; which error it is plays no part"
  },
  {
   "property": "C173",
   "status": "proved",
   "theorems": [
    "Verif.ReadOldProps.C173_body",
    "Verif.ReadOldProps.C173_request",
    "Verif.ReadOldProps.C173_request_read",
    "Verif.ReadOldProps.C173_response",
    "Verif.ReadOldProps.C173_response_read",
    "Verif.ReadOldProps.C173_interaction",
    "Verif.ReadOldProps.C173_interaction_read",
    "Verif.ReadOldProps.C173_message",
    "Verif.ReadOldProps.C173_message_read",
    "Verif.ReadOldProps.C173_pact",
    "Verif.ReadOldProps.C173_message_pact",
    "Verif.ReadOldProps.C173_messages_refused",
    "Verif.ReadOldProps.example_request",
    "Verif.ReadOldProps.example_file",
    "Verif.ReadOldProps.example_message",
    "Verif.ReadOldProps.example_refused"
   ],
   "note": "rules as C168, generators as C170, the version of a file as C80; detection of content types and the MIME parser are parameters"
  },
  {
   "property": "C174",
   "status": "proved",
   "theorems": [
    "Verif.ReportProps.C174_report",
    "Verif.ReportProps.C174_attributes",
    "Verif.ReportProps.C174_failure",
    "Verif.ReportProps.C174_mismatch",
    "Verif.ReportProps.C174_notices",
    "Verif.ReportProps.C174_not_utf8",
    "Verif.ReportProps.C174_file",
    "Verif.ReportProps.example_ok",
    "Verif.ReportProps.example_same",
    "Verif.ReportProps.example_other",
    "Verif.ReportProps.example_not_utf8"
   ],
   "note": "notices are maps; the parser of the written file is a parameter; the results of single interactions are not in this report"
  },
  {
   "property": "C175",
   "status": "proved",
   "theorems": [
    "Verif.ReportProps.C175_eq",
    "Verif.ReportProps.C175_equivalence",
    "Verif.ReportProps.C175_report",
    "Verif.ReportProps.C175_conversions",
    "Verif.ReportProps.C175_order",
    "Verif.ReportProps.C175_description",
    "Verif.ReportProps.example_eqv"
   ],
   "note": "from_utf8_lossy is a parameter that keeps texts"
  },
  {
   "property": "C176",
   "status": "proved",
   "theorems": [
    "Verif.ReportOutputProps.C176_output",
    "Verif.ReportOutputProps.C176_complete",
    "Verif.ReportOutputProps.C176_first",
    "Verif.ReportOutputProps.C176_summary",
    "Verif.ReportOutputProps.example_output"
   ],
   "note": "without colours; the text of the difference of two bodies is a parameter; the order of status, method, path and content type mismatches of one run is not stated"
  }
 ]
}