## 4. Findings: where the code differs from the natural property

Each entry is proved as a theorem (the witness is in the model) unless marked (r), which is from reading
the source only.

*Path expressions.* Keys with `'` or `\`, and the empty key, do not survive print/parse (C01).  Index
overflow and non-ASCII numerals panic the parser (C02).  `matches_path` overflows at 64 segments (C04),
`max_by_path` weights at 59 exact tokens (C06).  `join("007")`, `join("+7")` make an index (C08).

*Rule selection.* Ties between rules of equal weight depend on hash order; header, query and contents
categories take the first rule in hash order; a shorter path can outweigh an exact wildcard path (`$.a`
over `$.*.*`) (C05).  An empty rule list counts as defined (C09).  `add_rules` keeps the logic of the
receiver (C35, C55).  Rule equality ignores the payload of status-code rules (C36); the hash of a rule
set depends on hash map order (r).

*Comparing.* With an empty expected list any rule accepts any list, also min-type and array-contains
(C18, C44, C45).  An empty expected object in strict mode rejects extra keys even with a values rule
(C22).  Status-code, array-contains, each-key and each-value rules accept every JSON scalar (C54); an
each-value rule inherited by a list does nothing.  Texts: the integer rule rejects "-5", number and
decimal rules accept "NaN" and "inf" (C14).  A status rule truncates 64 bit numbers (C13).  `compare_maps`
combines rules with AND whatever the logic says.  A binary rule error on a short body panics in
`split_at(10)` (r).  The ranking score overflows an `i8` from 126 matching query parameters (C26).  An
empty expected body with a different content type accepts every body (C27).  Content type equivalence
ignores suffixes and is asymmetric (C50).  A synchronous message without expected responses accepts any
responses (C49).  Header names that differ only in case, blank extra header values (C24).

*JSON forms.* Query strings: names are written unencoded, empty names and value lists are dropped,
encoding panics on code points with an odd number of hexadecimal digits and writes code points instead of
UTF-8, decoding truncates (C29).  Headers of V1-V3: values are split at commas, `set-cookie` is merged
(C30).  Rules: a header or path called "matchers" is lost, header keys without `$` change, multi-token
header/query paths collapse, empty rule lists are lost, each-key/each-value lose value type and
expression, a reference panics on write (C34).  Min-max-type rules always fail and array-contains rules
lose their variants in the V2 matching engine (C66).  Generators: the attribute names of `values` and
`create` differ (C67).  16 and 32 bit attributes are truncated (C42), also status codes of rules.

*Generators.* Pointers are not escaped: keys with `/` or `~` address other values, empty keys none (C37).
At most 16, all different, hexadecimal digits; the largest `i32` is never drawn; limits out of order
panic; status code limits are truncated (C68).  A `}` before `${` panics (C38).  Negative integer texts
are not converted (C61).

*Pact files.* V3 merges keep the existing interaction on equality (updates are lost), V4 the new one; a
stateless interaction with the description of a stateful one is dropped (V3) or replaces it (V4);
parameters of provider states are ignored; unsorted pacts get duplicates; plugin configuration arrays
double with every merge (C31).  A crash between truncation and writing leaves a broken file that later
calls do not repair; writers of several processes lose updates (C32).  The product iterator panics if
polled after the end (C33).  Deep merge of JSON is not associative (C41).

*V4 files.* A JSON body `null` is read back as a null body, which the next write drops; a JSON body `""` becomes
an empty body (C72).  A body without content type is written as `*/*` and base64 in responses and asynchronous
messages, but with the detected type in requests and synchronous messages (C73, C74).  A content type header
with an empty list of values, and a status that is not a number, panic (C73).  The interaction ID is not
written, nor are comments with empty values and markup without text (C74).

*V1-V3 files.* A JSON string body with escapes is read back as text that is not JSON; a JSON string that holds JSON
changes its type; UTF-8 text under a binary type that looks like base64 is decoded (HTTP only); unparsable JSON and
undecodable text become base64 without a marker (C76).  The generators of a V3 message are written, but not read (C78).
V1/V2: only the name of the first provider state and the first rule of a path are kept; `$` in body paths is replaced
everywhere; header and query names that do not start with a letter or digit, status rules and empty rule lists make the
file unreadable, and names with dots are read as another name; a body path without `$` makes all rules be read in the V3
form (C79).  A file with an unknown version is announced to be read as V3, but its queries are dropped and messages are
an error (C78, C80).  `rename("body", "content")` changes nothing, as both names mean the body category (C81).

*Definition expressions.* A string that ends with an escaped backslash swallows the text up to the next quote; `\\'` keeps
its backslash, and quotes at the ends of a string are lost; escapes are not processed in the examples of `type`,
`equalTo` and `notEmpty` (C82).  An illegal character at the end, anything after the point of a number and any word that
starts with `fromProviderState` (in dates) are accepted; `atLeast(1)` is not recognised as a definition (C83).  A decimal
from a provider state gets the number rule (C82).

*Integration JSON.* The documented form of several matchers and the documented definitions without `value` give a null
example; the documented `atLeast(1), atMost(10), eachValue(…)` gives no rules and no error; an unknown matcher gives null
without rules, but with its generator; an index that is too large aborts the program (C84).  Keys that are numbers or `*`
become indices and wildcards; the wildcard of a rule for all values leaks into lists nested in it (C85).

*XML.* A type rule on an element makes every unexpected child below it a mismatch, even in lenient mode, where it is
accepted without the rule; under a type rule all children of one name are compared with the first expected one, so that
an example can be rejected for itself; minimum and maximum rules count the texts and comments between the children; rules
are looked up by namespace URI, so that the rule paths the C interface makes from prefixed names never apply to documents
with namespaces (C90).

*Parts set through the C interface.* The rule of the first value of a query parameter or header is applied to all
values unless a later value has a matcher too, although the documentation says it is for the first; the same when the
second value is set before the first, or the first again after the second (C87).  An unknown matcher type stores the value
without a rule and without an error (C87).  An object as value of a matcher is not processed, its JSON text is the value;
an array as first value is appended to the values of a query parameter, but replaces those of a header; a status that
cannot be read becomes 0 (C86).  A text with a comma as first header value drops the other values (C88).

*Dates and times.* Days of the year above 356 and offsets of 12 hours or more are rejected (`+12:00`, also in the default
timestamp format); several signs are accepted (`+-+05:00`); `y` reads one digit; the month of `L` is not used in the
check of the day (C91).  Runs of quotes in quoted text become one quote (C92).  The default `DateTime` generator is
never accepted by the default timestamp rule; two letters of fraction generate three digits; `K` at noon, `k` at
midnight, `X`, zone names, quarters, 29 February without a year generate texts their own format rejects; fractions of 4,
5, 7, 8 or more letters and time fields in a `Date` generator panic (C93).  Years above 32767 and 20 letters of fraction
make the check panic (C94).

*C interface.* From the 65536th interaction on handles repeat or refer to another pact; a handle of a
failed creation panics in debug builds; numbers of freed pacts are reused (C40).  Functions return false
after the server was started, but have modified the interaction (C62).

*Verifier.* A failed setup skips teardown (C39).  The condition for the notices is wrong without
publishing, and uses errors of earlier pacts (C63).  A filter that selects nothing publishes a success
(C65).  An invalid filter pattern panics (C43).

*Consumer patterns.* `ObjectMatching` moves the rules of one key to all keys, so that the example itself can
be rejected (C70).  The rule of a key `7` is also applied to a key `007` (C70).  The element rule of an
`each_like` inside an `each_like` ties with the `[*].*` rule of the outer one: the result depends on the
iteration order of a hash map (C71).  `each_like` with minimum 0 accepts any array (C71).

*Date and time expressions.* What follows the last duration is ignored (`+ 1 day tomorrow`), as is a word that
is none (`now x`) and a number that is too large (C95).  `12 o'clock pm`, and `12 o'clock` before noon, leave the
time unchanged and `12 o'clock am` is noon; `3 o'clock` after noon is in the past (C97).  29 February ± 1 year is
unchanged; 31 January + 1 month is the first, but 31 March - 1 month the last of a month (C96).  Numbers from 2^63
wrap, years wrap at 2^32, and large numbers abort (C96, C98).  ` @ noon` and `today @ ` are errors (C97).

*Forms.* Removing the rules of an unsupported value removes those of every path that contains its text
(`a` and `ab`), rules behind a left-out array item stay at the old index, and a generator without a rule stays
(C101).  `$.b` and `$.b[0]` generators clash in hash order, `$['b']` and wildcards are not applied (C102).  A query
parameter with rules at `$.q` and `$.q[0]` is matched with the one that comes first in hash order (C100).

*V2 matching engine.* A body whose content type differs is accepted whatever it is: the error of the check is
dropped (C108).  `or` lists act like `and` lists (C109).  Scalar items of arrays with a rule are not checked, and arrays
and objects in arrays without a rule are not compared at all (C110, C107).  `a=1` accepts `a=1&a=1` (C105).  Of several
expected values of a header with parameters only the first is compared, and an actual header without values makes the
engine panic (C106, C103).  JSON bodies with a key that is empty or contains `/` or `~` do not match themselves
(C111).  min-max-type rules always fail and array-contains rules lose their variants (C66).  A query parameter or header
named `*` stands for the whole map and numbers for indices; rules for headers are case sensitive, and values are not
trimmed (C105, C106).  Each-key and each-value rules do not lift the requirement that the keys of the example are there (C107).

Multipart bodies: every expected part is compared with the first actual part of its name, so that a body with two fields
of the same name and different values does not accept itself (C113).  An actual part without a name at the position of
an expected one stands for it, whatever its name.  Rules for the headers of a part are looked up with the table in lower
case and the name of the part as it is: they are ignored for parts with an upper case letter in the name, and the
header falls back to equality (C115).  The paths of the mismatches in a file part are relative to the part (shown by an
example), and a file that is itself a multipart body never matches.

Content types: a JSON document that is a negative number, or an object whose first key is empty or begins with a
character such as `@` or `$`, is not detected as JSON (C116).  An expected body of this kind without a declared content
type, for example a JSON-LD document, is taken for plain text and rejects every actual body declared as JSON, even the
same one (C118).  Detection from bytes cuts the body at 32 bytes and finds nothing if this splits a character (C117).

XML descriptions: a matcher on an element with a full stop in its name has its rule at a path of two names, where it is
never used; if the name has a character that is not allowed in path expressions, such as a middle dot, the rule silently
goes to the root and is used for the whole document (C121).  Missing names, children that are not objects and numbers of
examples that are negative or fractions abort the process (C119).  If the XML library moves text nodes, only the first of
several examples of an element has its texts.

Bodies through the C interface (C122-C124): a form given as text that begins with a digit, `true` or `null` looks like JSON
and aborts the process, as do a content type that cannot be parsed (documented to become text) and a content type header
without values, even if a content type is given.  A header `content-type` is used, but a second header `Content-Type` is
added all the same.  With an XML content type a text that looks like JSON but is no object gives an empty body without any
error.  The second body set on a part keeps the content type of the first.  The metadata of messages is not used.

Pact Broker (C125-C130): with selected pacts, an answer that is JSON but not a list of pacts, and a single pact that is
answered with 404, count as "no pacts found", so the verification succeeds without having verified anything (C128).  A pact
of which nothing was verified is published as a success; interactions without identifiers share one entry, so that one that
passed is published as failed (C126).  Branch and tags are published before it is known that there is a link for results
(C127).  Query parameters of links are lost, and a link with two slashes at the beginning of its path sends the request, with
the credentials for the broker, to another host (C130).

Provider client (C131-C138): a custom header does not replace the header of the pact if that is spelled in another case
(C132).  Query parameters without a value are not sent, and a request with a `null` JSON body is sent with a body its own pact
rejects (C131).  An answer with a body whose content type is not text aborts the verification (C133).  The status of the
answer for a message is ignored, so that an error with the right body is verified; synchronous messages with two or more
responses can never be verified, those without responses always are if the status is less than 400 (C135).  A state parameter
named `state` or `action` takes the place of the name of the state or the action in the query, and no allowed attempts abort
the verification (C136).  Rules for messages in the category `contents` are not used (C57).

Generators (C139-C144): the name of a header generator is compared in its own case, so a generator for `x-id` adds a second
header beside `X-Id`; the index in the path of a header or query generator is ignored, the generator replaces the whole header
or every value of the parameter (C139).  Any generator for the body of a JSON request, even one of the other mode, makes the
body be written again, with the content type `application/json` (C140).  A value of a provider state that cannot be converted
to the type of the generator aborts the verification in paths, headers, queries and forms and is silently ignored in JSON
bodies; an object named `providerState` among the values hides all others (C141).  The content type in the metadata of a
message is ignored if it is a text, which it always is (C143).  In the variants of an array the example is not compared, a
variant without rules takes every item, nested generators ignore the mode, and V4 messages have no variants at all (C144).

Calls of the C interface on an interaction (provider states, description, comments, bodies as bytes) change it even when they
answer `false` because the mock server was started; a state given twice with `given` is there twice, and parameters go to the
first (C147).  A body given as bytes keeps a content type header that was set before, so the interaction does not accept its own
example if they differ (C149).  In metadata of messages a matcher under a key with a dot (`user.id`), or inside an object, is
never applied, a JSON object under a key that is not a path expression (`a b`) aborts, and the rules of an earlier call for the
same key stay in force even if it was removed (C151).  The namespaces `pact-specification`, `pact-rust` and `plugins` can be set as
metadata of the pact but are replaced, moved to the protected name, or lost on reading (C153).

In the builders of the consumer crate the rules of a path or body that a later call replaces stay, and so does a generator
(`path(term!("^/a$", "/a"))` followed by `path("/b")` expects the path `/b` to match `^/a$`), and the rules of a header are kept
per spelling while its values are joined (C155).  `strip_null_fields` does not look into the fields of objects, although it is
documented as recursive (C158).  An interaction can therefore reject its own example: when a path is replaced, when two patterns
are given for one query parameter (both are asked of each value), and when the example of a header pattern has a comma (the parts
are compared one by one with the pattern for the whole); and a literal value beside a pattern for the same parameter is not
asked for (C156).

`SyncMessageInteractionBuilder::build` gives every response the generators of the request, so those given with
`response_contents` are lost (C160); `response_body` stores the content type under the key ` contentType`, with a leading blank,
so that the response only accepts messages with such a key (C161).  A second `body` with another content type keeps the first
content type in the metadata of a message (C159).

**Message iterators.**  Outside a Tokio runtime `synchronous_messages` and `v3_messages` start a runtime that is dropped before the
result is received; a task dropped this way leaves synchronous messages without generated values, and makes `v3_messages` abort
(C163).  `messages` never applies generators, and on a V3 message pact it writes a V4 pact file (C163_v4_not_generated).

`match_interaction` says that a synchronous message does not match itself: neither branch compares synchronous messages, and
`match_message` takes them for something that is not a message (C164_sync_never).  An interaction with a JSON body that cannot be
parsed does not match itself (C165_unreadable).

A V4 pact that the consumer builders build can be read from its file unless a JSON pattern has a field with a quote or backslash in
its name: then the file is written but cannot be read (C166_limit).  The rule of a header or query parameter with the name
`matchers` is written but read as none (C166_limit_matchers).

Of two rules that are equally specific for a path (`$.b.*` and `$.*.a` for `$.b.a`) the last one of the table is used; the
order of the table is that of a hash map and is not kept by a pact file, so a value that was accepted can be rejected after
writing and reading (C167_limit).

`Mismatch` has a hand-written `==` that ignores the message and a derived order that does not: two mismatches can be equal
and still be ordered (C175_order), which Rust's `PartialOrd` and `Ord` forbid.

In the output, the first mismatch of a run is not sorted with the others (C176_first), and the difference of bodies is shown
for its path only.

## 5. Tests against wrong programs

`seeded/LOG.jsonl` records every seeded bug: the definition edited, the edit, the claim it breaks, the
theorems that failed, and the theorems tightened when none did.
