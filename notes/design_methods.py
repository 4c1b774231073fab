MODULES=[]
METH={
"C01":"tokens, printer (`build_expr`) and the character-level parser; induction over the token list with a lemma per token kind; exact characterisation of the keys that survive",
"C02":"parser with explicit panic outcome for `parse().unwrap()`; exact condition for panic",
"C03":"printer on token lists; the escaped printer has a left inverse (a spec parser with unescape)",
"C04":"weight product modulo 2^64, proved equal to the token-wise spec below the overflow bound",
"C05":"rule tables as lists in arbitrary order; `max_by_path` is a last-maximum fold; induction on the fold, permutation invariance when the maximum is unique",
"C06":"arithmetic on weights of exact and wildcard paths",
"C07":"case analysis of the selected rule and its length",
"C08":"algebra on tokens/expressions; pointer unescape left-inverse",
"C09":"selection vs. existence over arbitrary tables",
"C10":"`match_values` over an arbitrary list",
"C11":"case analysis on JSON kinds",
"C12":"case analysis, linear arithmetic",
"C13":"`u16` domain by arithmetic (not enumeration)",
"C14":"case analysis on values; integer texts by induction on digits",
"C15":"the recursive comparator as a total function (termination on the sum of sizes), mutual induction over JSON",
"C16":"mutual induction over JSON",
"C17":"mutual induction, simulation between the two configurations",
"C18":"list comparator with the array-contains rule, parametric in the callback",
"C19":"induction: every error list is non-empty",
"C20":"induction: every reported path extends the path of the comparison",
"C21":"map comparator with each-key rules, parametric in the callback",
"C22":"map comparator with values/each-value rules",
"C23":"query map comparator, both directions",
"C24":"header comparator; case folding as parameter; permutation invariance",
"C25":"result records of all three kinds, case analysis over all fields",
"C26":"score as i8 arithmetic (overflow witness + bound)",
"C27":"decision table of `compare_bodies`, case analysis",
"C28":"case folding as parameter",
"C29":"encoder/decoder at byte level; round trip on the exact subset; witnesses outside",
"C30":"header values to JSON and back; exact condition per header",
"C31":"merge-join as in itertools, induction over both lists; sorted inputs: exactly once; witnesses outside",
"C32":"transition system of writers with the in-process mutex and file locks; arbitrary interleavings; inductive invariant; crash and multi-process witnesses",
"C33":"the iterator's state machine; induction over its positions",
"C34":"JSON printer/parser of rules; mutual induction over nested rules and rule tables",
"C35":"table operations over arbitrary tables",
"C36":"equality as implemented vs. behaviour of the matchers",
"C37":"JSON update at resolved pointers; induction over path tokens and documents",
"C38":"expression scanner with explicit panic outcome; induction on the text",
"C39":"verification loop as a fold over outcomes of an arbitrary environment",
"C40":"bit-level packing on `Nat` < 2^32 and histories of calls (induction over the history)",
"C41":"mutual induction over JSON",
"C42":"integer arithmetic modulo 2^16 / 2^32",
"C43":"filters as Boolean functions, regular expressions a parameter",
"C44":"comparator with inherited rules, induction over documents",
"C45":"query/header comparators with rules",
"C46":"parameterised header comparison as finite maps",
"C47":"composition of C15, C23, C24, C27, C28 for whole requests",
"C48":"the same for responses",
"C49":"loop over expected responses",
"C50":"content types as records",
"C51":"form bodies through the query parser and comparator",
"C52":"generated language of the parser: every accepted text is an instance of the grammar and vice versa",
"C53":"path navigation functions on token lists",
"C54":"table: one theorem per rule and value kind",
"C55":"merge of rule tables",
"C56":"composition for messages",
"C57":"non-interference: replacing the table of one category",
"C58":"path/status matchers with arbitrary rule lists",
"C59":"text/binary bodies with arbitrary rule lists",
"C60":"content type look-up",
"C61":"conversion table; integer texts by induction on digits",
"C62":"state before and after each call, for every table of handles",
"C63":"stages of notices in the run of the verifier",
"C64":"context as ordered fold of map inserts; characterised by look-ups",
"C65":"results sent to the broker, induction over the pacts",
"C66":"`name`/`values`/`create` on all rules",
"C67":"table of generators to JSON and back; induction over categories and keys",
"C68":"draws are an arbitrary function within the range laws; list arithmetic",
"C69":"the rules found at every path below the value are a function of the agreeing part of the table; induction on the expected document",
"C70":"the extracted table is computed (one entry per path, rules in order); every rule at or below a location accepts the value there compared with itself; mutual induction over patterns",
"C71":"invariant describing the table as seen from the location of a sub-pattern (own rules, inherited type rules, specificity); mutual induction over patterns, specification `Accepts`",
"C72":"`to_v4_json` and `body_from_json` with a concrete base64 codec and UTF-8; parsers of JSON and content types are parameters; case analysis",
"C73":"attribute look-up in the written object, then C72, C34, C67, C29 and C30 for the parts",
"C74":"attribute look-up; induction over provider states, responses and plugin entries",
"C75":"stable insertion sort characterised by permutation, order and stability; induction over the interactions; look-ups in the metadata",
"C76":"writing and reading as functions; the JSON and content type readers are parameters with laws; exact condition by case analysis",
"C77":"attribute look-up in the written object; induction over interactions; generic in the version and the relation between interactions",
"C78":"as C77, with the content type of the metadata",
"C79":"rule keys written and parsed again (path grammar, C52), query strings (C29); induction over the table",
"C80":"look-ups in the metadata after renaming; specification `FileSpec` on the document",
"C81":"filterMap/map over interactions, then C75, C77, C78",
"C82":"grammar as syntax trees with a printing relation `Laid` and a meaning relation; induction over trees against the recursive descent parser; lexer lemmas for each kind of word",
"C83":"inversion of every parser function, induction on the nesting; regular languages of the tokens as `Matches`, longest match by induction on the text",
"C84":"relations `Means` (a matcher object), `Example` (the replaced document), `Found` (matchers and their paths); induction on the document against the threaded rule table",
"C85":"the run is a sequence of additions relative to the path, determined by `Found`; look-ups in the table after a sequence of additions",
"C86":"relation `Stands` (what a text stands for) on top of `Example` of C84; look-ups in the updated map; induction over the sequence of calls",
"C87":"relations `Means`, `Inner`, `GenFor`; look-ups in the re-keyed table; invariant `Table` by induction over the sequence of calls",
"C88":"relation `HeaderSet` between the header maps before and after; names compared through the case mapping",
"C89":"trees of elements; relation `Covers`; the comparison reports nothing iff `Accepts` by induction on the nesting, which without rules is `Covers`",
"C90":"inductive relation `Accepts` over the selected rules; exactness by induction on the nesting, with lemmas on the grouped children and sorted attribute maps",
"C91":"languages of the fields as predicates on texts, `Split` relates a value to its fields; each nom parser is inverted (sound) and shown to take exactly the text when what follows cannot extend it (complete); calendar as `InMonth`",
"C92":"inductive relation `Pattern` between texts and fields; induction on the text against the `alt` loop",
"C93":"every piece `chrono` writes is in the language of its field (padded numbers, names), then C91_complete; induction over the fields",
"C94":"only two places can panic; inversion of the reader",
"C95":"relations between lists of words and expressions (`DateHead`, `TimeHead`, `Ops`), `Laid` for the blanks; longest match inverted for the tables of words; induction over the durations",
"C96":"relation `Moves` for one step on numbered days and months (`C96_calendar`: the numbers count days); the day-by-day loops of the code are inverted to least solutions; induction over the steps",
"C97":"relation `Shifts` on instants; `baseAt` for the first words; induction over the durations",
"C98":"inversion of every place that can panic; existence of the next moment within a bound on years by induction; C93 for the clock reading of a moment",
"C99":"inductive relations `Spells`, `Piece`, `Spelled` between bytes and parameters; the decoder is inverted; all bytes by kernel computation over 256 cases, texts by induction",
"C100":"specification `Accepted` over a table; which rows match which location and which has the best score is computed symbolically; then the loops over values by induction",
"C101":"relations `FormOf` and `Unsupported` on documents on top of C84/C85; removal of rules as filters on path texts, by induction over the unsupported values",
"C102":"`ValueAt` counts values of a name; the loop with its counters is inverted by induction; several generators by induction over their list, permutations from it",
"C103":"a plan is made for every input (induction over the expected document); the interpreter is run symbolically: relation `Runs` between a node, a stack and the executed node for each kind of node, then induction over the plan; heights bound the fuel",
"C104":"each executed part is shown to have an error below it exactly if the specification rejects; the five parts of the plan are then read back",
"C105":"`QueryAccepts`; per parameter from the executed containers, the two checks of names as set differences",
"C106":"`HeadersAccept`; parsed headers as JSON documents read by pointers",
"C107":"`Accepts`, recursive in the expected document; for-each by induction over the actual items with paths into which the index was injected; `Loose` and equality by induction",
"C108":"the body part is run for both results of the content type check; the error of a failed check is shown to be dropped",
"C109":"the specification depends on a table only through which rule lists are selected, not on their logic",
"C110":"rules match prefixes of paths, so that the items have a rule; such items are skipped",
"C111":"each part of the specification is reflexive",
"C112":"`PartsFit`: the first counterpart by `find?`, headers and texts by equality, files by the body specification of C47; then the request and response as in C47/C48",
"C113":"from C112; a permutation up to the positions of parts keeps the counterparts of named parts",
"C114":"the table for a part is the filtered table with shortened paths (`relative`), by induction over the table; a path without wildcards is the most specific one",
"C115":"the table in lower case compared with the path of the header, in which the name of the part is kept as it is",
"C116":"each pattern is equivalent to a statement on the beginning of the text; the texts of JSON values by their first characters",
"C117":"prefixes of UTF-8 texts by induction; 32 bytes are enough for the first characters of every JSON text",
"C118":"from C116, C117 and the body specification of C47",
"C119":"the state is threaded through a recursion over the description; it is shown that it does not influence the tree and that the sites are handled one after another, by strong induction on the size of the description",
"C120":"the list of sites in order; adding rules and generators as folds over it",
"C121":"path expressions of sites are parsed by the grammar of C52 and compared with the paths the comparison builds; the longest exact path wins by C05",
"C122":"case analysis on the lookup of the content type, before and after the body is set, against relations for declared and found types",
"C123":"case analysis on content type and shape of the text; the parts by C84, C85, C101 and C119, the comparison by C47 as an empty table of body rules is like none",
"C124":"every way the processing can abort is one of the listed ones, by C84 and C119, and conversely",
"C125":"the replacement with a bound is compared with a relation for templates; encoding byte by byte, checked for all 256 bytes by the kernel and lifted by induction",
"C126":"the groups are runs of results with the same identifier, by induction; attributes of objects by lookup; with different identifiers every run has one member",
"C127":"every computation is a list of requests answered one after another and then a failure or a result; uniqueness of the course of a request gives the converse",
"C128":"case analysis of one fetch, induction over the links; composition with the model of the verifier (C39)",
"C129":"induction on the number of attempts, against a relation for repeated requests to a broker with state",
"C130":"case analysis of the URL handling for any URL library whose operations keep the host; links of a pact by lookup in the object made from them",
"C131":"the encoding of queries byte by byte (all 256 by the kernel), then taken apart by the parser of C29; headers by induction with a specification of the values of each name; replay through the specification of C47",
"C132":"from the values of each name (C131)",
"C133":"case analysis; values that are text are never an empty list",
"C134":"a relation for what can become of a request, and the specification of C48",
"C135":"as C134 with the specification of C56; metadata as a fold over the headers, of which at most one counts; Base64 text is one header value",
"C136":"induction on the number of attempts against a relation for repeated requests to a handler with state; the query by C131",
"C137":"the steps of the verifier (C39) run in a world that logs what is sent; every event is related to its requests, by induction over the states",
"C138":"`find?` on a list split at the first match",
"C139":"each part is a fold over the table in an unknown order; the last generator that gives a value wins, for one name by uniqueness",
"C140":"the update of a document at a path (C37) for each generator in turn; separate places commute, so the result is described place by place; induction over the table; forms by C102",
"C141":"expressions by C38; case analysis of data types and kinds of values; a panic in one step is a panic of the fold",
"C142":"as C139; the saturating arithmetic of the random number by linear arithmetic",
"C143":"as C139 and C140",
"C144":"case analysis of the choice of a variant, induction over the items; the generators of the variant by C140",
"C145":"case analysis over generators, data types and kinds of values; the forms of random values by C68, conversions by linear arithmetic",
"C146":"composition of C64 (the context), C137 (what is sent while an interaction is verified), C141 (expressions) and C131 (the request that is sent)",
"C147":"each call has an effect on the shared fields that does not depend on the rest; induction over the calls",
"C148":"as C147, with association lists",
"C149":"case analysis of the call, then the end-to-end specifications of C47 and C48; the rule for the content type by evaluating a table with one entry",
"C150":"tables that were read have each category and path once (induction over the JSON object); merging by C55 and a fold over the generators; sequences by induction over the calls; round trip by C34 and C67",
"C151":"the rules table is exactly the rules given so far (invariant over the calls), so the rules that apply to a key are those given for it; the comparison of one value by cases",
"C152":"the shared fields stay maps (induction over the calls); written and read again by C74; last values by C147 and C148",
"C153":"sorted maps; induction over the calls; the file by C75",
"C154":"an invariant over the calls (induction from the end): what each field is in terms of the calls of its kind; headers by the lemmas of C118",
"C155":"as C154: the table is a fold of additions, which is described entry by entry as in C70",
"C157":"an invariant over the calls",
"C158":"values reached through arrays; structural induction; a counterexample for nested objects",
"C156":"the exact tables of C155 give the rules found for each name (also after lowering header names); the comparisons of C23, C45 and C46 with those rules; the body by C71; the own example as an instance, with counterexamples",
"C159":"an invariant over the calls since the last reset; rule tables merged path by path with C35; the keys of extracted tables by structural induction on patterns",
"C160":"as C159, with a list of responses that grows by the answers each call asks for",
"C161":"the contents of C159 and C160 with one JSON body have exactly the table of the pattern; C71 for the body, C56 for the metadata; C70 for the own example",
"C162":"an invariant over the calls, with a relation between each call and the interaction it adds",
"C163":"the results of repeated `next` by induction; the task as a result that may not be received; C143 for each message",
"C164":"cases on the kinds of both interactions; the comparison of the parts is that of C25, C47 to C49 and C56",
"C165":"C47, C48 and C56 composed with C164; reflexivity of the relations of the specification",
"C166":"an invariant over the calls (every table of rules and generators has paths that can be read, every content type can be read) which gives the hypotheses of C75",
"C167":"the tables read are permutations of those written; the rule chosen for each path is then the same (C05), and the comparison depends on nothing else (C69_selection); C71 holds for every order of the table of a pattern; C162 and C166 for the whole cycle",
"C168":"a row is a rule with its place; loading adds the rows of each entry to the table (C35), and a table is determined by the rows that were added",
"C169":"an inductive relation with one case for each type; both directions by cases on the type, whose names are a table checked by the kernel; the bound on the recursion is not visible (fromJson_fix)",
"C170":"as C168 and C169: an inductive relation for one generator, rows for the document, the last row for a path counts",
"C171":"an inductive relation for each attribute, shown equivalent to the reader attribute by attribute; rules and generators by C168 and C170",
"C172":"as C171, attribute by attribute; the list of interactions by induction with the index",
"C173":"as C171 and C172, for the forms of older files; an attribute of rules of an older file is read as if it were the new one",
"C174":"attribute by attribute, per kind of mismatch; lists by induction with a relation for their elements",
"C175":"case analysis over pairs of kinds; two concrete pairs for the order",
"C176":"a relation for the lines of runs and failures; the runs by induction over the mismatches, the order from an insertion sort",
}
