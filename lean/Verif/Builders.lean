import Verif.Parts
import Verif.Patterns

/-
  Model of the consumer builders for HTTP interactions: rust/pact_consumer/src/patterns/string_pattern.rs and
  rust/pact_consumer/src/builders/request_builder.rs, response_builder.rs, http_part_builder.rs and
  interaction_builder.rs, and `strip_null_fields` (rust/pact_consumer/src/util.rs).

  Not modelled: `contents` and `contents_for_plugin`, which ask a plugin; the plugin configuration and the markup are
  those of interactions without plugins.  Converting to `String` and to `StringPattern` is left to the caller.
-/

set_option autoImplicit false

namespace Verif

/-- `enum StringPattern` (string_pattern.rs 11-17) with the patterns over strings that the crate provides (`Like`, `Term`,
special_rules.rs 57-58, 331-332, and `DateTime`, date_time.rs 77). -/
inductive SPattern where
  | lit (s : Str)
  | like (p : SPattern)
  | term (regex example_ : Str)
  | datetime (format example_ : Str)
deriving DecidableEq

namespace Builders
open Path Rules RuleJson Generate PactFile QS Query Headers Parts Patterns

/-- `to_example` (string_pattern.rs 32-37, special_rules.rs 43-45, 317-319, date_time.rs 42-44). -/
def example_ : SPattern → Str
  | .lit s => s
  | .like p => example_ p
  | .term _ e => e
  | .datetime _ e => e

/-- `extract_matching_rules` (string_pattern.rs 43-50, special_rules.rs 51-54, 325-328, date_time.rs 50-52). -/
def extractS (path : DocPath) : SPattern → RuleCategory → RuleCategory
  | .lit _, out => out
  | .like p, out => extractS path p (addRule out path .type .and)
  | .term re _, out => addRule out path (.regex re) .and
  | .datetime f _, out => addRule out path (.timestamp f) .and

/-- What a request and a response have in common. -/
structure Fields where
  headers : Option HeaderMap
  body : FBody
  rules : MatchingRules
  gens : Generators

/-- The calls of `HttpPartBuilder` (http_part_builder.rs 53-225); `content_type`, `html` and `json_utf8` (115-136) are calls
of `header`. -/
inductive PartCall where
  | header (name : Str) (value : SPattern)
  | headerState (name expression : Str) (value : SPattern)
  | body (text : Str)
  | body2 (text contentType : Str)
  | jsonBody (p : Pattern)
  | bodyMatching (p : SPattern)
  | bodyMatching2 (p : SPattern) (contentType : Str)

/-- `html` (http_part_builder.rs 124-126). -/
def html : PartCall := .header "content-type".toList (.lit "text/html".toList)

/-- `json_utf8` (http_part_builder.rs 130-135). -/
def jsonUtf8 : PartCall := .header "content-type".toList
  (.term "^application/json; charset=(utf|UTF)-8$".toList "application/json; charset=utf-8".toList)

/-- The rules after `extract` on `add_category(c)`. -/
def inCategory (c : Category) (f : RuleCategory → RuleCategory) (rules : MatchingRules) : MatchingRules :=
  setCat c (f (catOf rules c)) rules

/-- The headers after the `if let` (http_part_builder.rs 62-70): the values are added to a header with the name in any case,
otherwise the header is inserted. -/
def putHeader (uc : UC) (name : Str) (vs : List Str) (h : HeaderMap) : HeaderMap :=
  match headerKey uc h name with
  | some key => updEntry key (fun old => old.getD [] ++ vs) h
  | none => updEntry name (fun _ => vs) h

/-- The path `$.name` (http_part_builder.rs 71-72, request_builder.rs 133-134). -/
def fieldPath (name : Str) : DocPath := pushField rootPath name

/-- `header` (http_part_builder.rs 53-77). -/
def header (uc : UC) (name : Str) (value : SPattern) (f : Fields) : Fields :=
  { f with
    headers := some (putHeader uc name (parseHeader uc name (example_ value)) (f.headers.getD []))
    rules := inCategory .header (extractS (fieldPath name) value) f.rules }

/-- `ContentType::from(&str)` (content_types.rs 208-212). -/
def typeOf (parseCT : Str → Option ContentType) (s : Str) : ContentType := (parseCT s).getD ContentType.unknown

/-- One call of `HttpPartBuilder` (http_part_builder.rs 53-225). -/
def partStep (uc : UC) (parseCT : Str → Option ContentType) (c : PartCall) (f : Fields) : Fields :=
  match c with
  | .header name value => header uc name value f
  | .headerState name e value => { header uc name value f with
      gens := addGen f.gens .header (fieldPath name) (.providerState e (some .string)) }
  | .body text => { f with body := .present (utf8 text) none none }
  | .body2 text ct => { f with body := .present (utf8 text) (parseCT ct) none }
  | .jsonBody p => { f with
      body := .present (utf8 (toExample p).text) (some (typeOf parseCT "application/json".toList)) none
      rules := inCategory .body (extract rootPath p) f.rules }
  | .bodyMatching p => { f with
      body := .present (utf8 (example_ p)) (some (typeOf parseCT "text/plain".toList)) none
      rules := inCategory .body (extractS rootPath p) f.rules }
  | .bodyMatching2 p ct => { f with
      body := .present (utf8 (example_ p)) (parseCT ct) none
      rules := inCategory .body (extractS rootPath p) f.rules }

/-- The calls of `RequestBuilder` (request_builder.rs 44-144); `get`, `post`, `put` and `delete` (60-77) are calls of
`method`. -/
inductive RequestCall where
  | method (m : Str)
  | path (p : SPattern)
  | pathState (expression : Str) (p : SPattern)
  | query (key : Str) (value : SPattern)
  | part (c : PartCall)

/-- `path` (request_builder.rs 80-88). -/
def path (p : SPattern) (r : HttpRequest) : HttpRequest :=
  { r with path := example_ p, rules := inCategory .path (extractS Path.empty p) r.rules }

/-- `query_param` (request_builder.rs 119-144). -/
def queryParam (key : Str) (value : SPattern) (r : HttpRequest) : HttpRequest :=
  { r with
    query := some (updEntry key (fun old => old.getD [] ++ [some (example_ value)]) (r.query.getD []))
    rules := inCategory .query (extractS (fieldPath key) value) r.rules }

/-- The shared fields of a request (request_builder.rs 296-314). -/
def reqFields (r : HttpRequest) : Fields := ⟨r.headers, r.body, r.rules, r.gens⟩
/-- A request with changed shared fields. -/
def setReqFields (r : HttpRequest) (f : Fields) : HttpRequest :=
  { r with headers := f.headers, body := f.body, rules := f.rules, gens := f.gens }

/-- One call of `RequestBuilder`. -/
def requestStep (uc : UC) (parseCT : Str → Option ContentType) (c : RequestCall) (r : HttpRequest) : HttpRequest :=
  match c with
  | .method m => { r with method := m }
  | .path p => path p r
  | .pathState e p => { path p r with gens := addGen r.gens .path Path.empty (.providerState e (some .string)) }
  | .query k v => queryParam k v r
  | .part c => setReqFields r (partStep uc parseCT c (reqFields r))

/-- `HttpRequest::default` (v4/http_parts.rs 424-436). -/
def request0 : HttpRequest := ⟨"GET".toList, ['/'], none, none, .missing, [], []⟩

/-- `RequestBuilder::default()`, the calls and `build_v4` (request_builder.rs 147-154, 285-293). -/
def buildRequest (uc : UC) (parseCT : Str → Option ContentType) (cs : List RequestCall) : HttpRequest :=
  cs.foldl (fun r c => requestStep uc parseCT c r) request0

/-- The calls of `ResponseBuilder` (response_builder.rs 41-76); `ok`, `created` and so on are calls of `status`. -/
inductive ResponseCall where
  | status (s : Nat)
  | part (c : PartCall)

/-- The shared fields of a response (response_builder.rs 219-237). -/
def resFields (r : HttpResponse) : Fields := ⟨r.headers, r.body, r.rules, r.gens⟩
/-- A response with changed shared fields. -/
def setResFields (r : HttpResponse) (f : Fields) : HttpResponse :=
  { r with headers := f.headers, body := f.body, rules := f.rules, gens := f.gens }

/-- One call of `ResponseBuilder`. -/
def responseStep (uc : UC) (parseCT : Str → Option ContentType) (c : ResponseCall) (r : HttpResponse) : HttpResponse :=
  match c with
  | .status s => { r with status := s }
  | .part c => setResFields r (partStep uc parseCT c (resFields r))

/-- `HttpResponse::default` (v4/http_parts.rs 460-470). -/
def response0 : HttpResponse := ⟨200, none, .missing, [], []⟩

/-- `ResponseBuilder::default()`, the calls and `build_v4` (response_builder.rs 79-86, 208-216). -/
def buildResponse (uc : UC) (parseCT : Str → Option ContentType) (cs : List ResponseCall) : HttpResponse :=
  cs.foldl (fun r c => responseStep uc parseCT c r) response0

/-! ### The interaction -/

/-- `InteractionBuilder` (interaction_builder.rs 17-40) without the request and the response. -/
structure Meta where
  description : Str
  states : List PState
  comments : List Str
  testName : Option Str
  key : Option Str
  pending : Option Bool
  transport : Option Str

/-- The calls of `InteractionBuilder` (interaction_builder.rs 61-125), of the builder of its request and of the builder of
its response. -/
inductive Call where
  | withKey (k : Str)
  | pending (b : Bool)
  | given (s : Str)
  | givenWithParams (s : Str) (params : Json)
  | comment (t : Str)
  | testName (n : Str)
  | transport (t : Str)
  | request (c : RequestCall)
  | response (c : ResponseCall)

/-- The parameters: those of an object, otherwise none (interaction_builder.rs 85-91). -/
def paramsOf : Json → Obj
  | .obj m => m
  | _ => []

/-- One call on the fields of the interaction (interaction_builder.rs 61-125). -/
def metaStep (c : Call) (m : Meta) : Meta :=
  match c with
  | .withKey k => { m with key := some k }
  | .pending b => { m with pending := some b }
  | .given s => { m with states := m.states ++ [PState.mk s []] }
  | .givenWithParams s ps => { m with states := m.states ++ [PState.mk s (paramsOf ps)] }
  | .comment t => { m with comments := m.comments ++ [t] }
  | .testName n => { m with testName := some n }
  | .transport t => { m with transport := some t }
  | .request _ => m
  | .response _ => m

/-- A builder: its fields, its request and its response. -/
structure Builder where
  info : Meta
  request : HttpRequest
  response : HttpResponse

/-- `InteractionBuilder::new` (interaction_builder.rs 44-58). -/
def builder0 (description : Str) : Builder := ⟨⟨description, [], [], none, none, none, none⟩, request0, response0⟩

/-- One call on a builder. -/
def step (uc : UC) (parseCT : Str → Option ContentType) (c : Call) (b : Builder) : Builder :=
  match c with
  | .request c => { b with request := requestStep uc parseCT c b.request }
  | .response c => { b with response := responseStep uc parseCT c b.response }
  | c => { b with info := metaStep c b.info }

/-- `json!(self.test_name)`: the name or null. -/
def nameJson : Option Str → Json
  | some n => .str n
  | none => .null

/-- `build_v4` (interaction_builder.rs 139-160) without plugins. -/
def buildV4 (b : Builder) : Interaction :=
  .http { id := none, key := b.info.key, description := b.info.description, states := b.info.states,
          comments := [("text".toList, .arr (b.info.comments.map .str)), ("testname".toList, nameJson b.info.testName)],
          pending := b.info.pending.getD false, plugins := [], markup := Markup.mk [] [], transport := b.info.transport }
    b.request b.response

/-- `new`, the calls and `build_v4`. -/
def build (uc : UC) (parseCT : Str → Option ContentType) (description : Str) (cs : List Call) : Interaction :=
  buildV4 (cs.foldl (fun b c => step uc parseCT c b) (builder0 description))

/-! ### Null fields -/

mutual
/-- `strip_null_fields_mut` (util.rs 8-42). -/
def stripNull : Json → Json
  | .arr vs => .arr (stripNulls vs)
  | .obj m => .obj (m.filter fun e => match e.2 with | .null => false | _ => true)
  | j => j
/-- The loop over the items (util.rs 15-20). -/
def stripNulls : List Json → List Json
  | [] => []
  | v :: vs => stripNull v :: stripNulls vs
end

end Builders
end Verif
