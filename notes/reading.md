# Reading notes (findings = places where natural property is FALSE of the code)
pact_models/src/path_exp.rs
- matches_token 2/1/0; path_weight fold product in usize (2^64 wraps to 0 in release, panics in debug) => >=64 exact tokens never match. FINDING
- write_obj_key_for_path escapes \ and ' but string_path parser has no unescape => no roundtrip for names with ' or \. FINDING
- index_path: id.parse().unwrap() panics for "[99999999999999999999]" and non-ASCII numerics "[²]". FINDING
- Eq/Hash on expr string only: "$.a" vs "$['a']" same tokens, unequal keys.
- "[]" ok; empty string -> no tokens. starts alnum -> Root + identifier.
pact_models/src/matchingrules/mod.rs
- max_by_path: HashMap iteration + max_by_key(w*t) last max wins => ties nondeterministic ($.a.* vs $.*.b on $.a.b). FINDING
- PartialEq MatchingRule: StatusCode payload ignored => remove_duplicates drops distinct status rules. FINDING
- MatchingRules Hash iterates HashMap order => Eq but different hash. FINDING
- rules_from_json etc; matchers_from_json v2/v3 chosen by first key starting with "$".
- to_v2_json keeps only first rule.
pact_matching/src/lib.rs
- RequestMatchResult::score is i8 => overflow for >127 entries. FINDING
- match_body decision; match_request uses NoUnexpectedKeys for body; match_response AllowUnexpectedKeys
- match_message_metadata: unexpected metadata ignored.
- merge_result concatenates.
pact_matching/src/matchers.rs: string Integer uses u64 parse => "-5" rejected as integer (header/query) FINDING; Bytes mismatch message split_at(10) PANICS when <10 bytes FINDING (matchers.rs Matches<&Bytes> for Bytes, Equality error and default error).
pact_matching/src/query.rs, headers.rs read. find_entry case-insens; several actual headers differing by case -> arbitrary one.
pact_models/src/query_strings.rs
- encode_query: escape_unicode hex digits filtered in pairs; odd number of digits (U+0000-000F, U+0100-0FFF, U+10000-FFFFF) PANIC via unwrap; chars >=0x80 not roundtrip. key not encoded in build_query_string. decode: `c as u8` truncation of raw non-ascii. FINDING
pact_models/src/sync_pact.rs merge: V3; conflicts by CartesianProduct; merge_join_by asym comparator (ignores b's states when a's empty); Both(_, i) keeps OTHER (existing file's) => updates of body/headers/rules silently lost; unsorted input => duplicates. FINDING
pact_models/src/v4/pact.rs merge: key compare if both keys else desc/states/type; Both(i,_) keeps self(new). FINDING when a.states empty drops existing with states.
pact_models/src/pact.rs write_pact: WRITE_LOCK in-process; read under shared lock released, then exclusive lock; set_len(0) then write_all: crash loses file; cross-process lost update. FINDING
pact_models/src/iterator_utils.rs CartesianProductIterator.
