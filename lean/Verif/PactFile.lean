import Verif.Base64
import Verif.Generate
import Verif.MatchResult

/-
  Model of the JSON form of pact files: rust/pact_models/src/bodies.rs (bodies), provider_states.rs, v4/http_parts.rs,
  v4/message_parts.rs, v4/interaction.rs, v4/synch_http.rs, v4/async_message.rs, v4/sync_message.rs, v4/pact.rs,
  lib.rs (consumer and provider), plugins.rs, and the V2 form of matching rules in matchingrules/mod.rs.

  `HashMap`s are association lists in iteration order; a map read from a JSON object has the order of the object.
-/

set_option autoImplicit false

namespace Verif
namespace PactFile
open RuleJson Rules Generate Query Headers

/-- The functions of other libraries used when reading and writing pact files. -/
structure FileEnv where
  /-- Unicode tables and conversions from floating point numbers. -/
  P : Params
  /-- `str::to_uppercase`. -/
  upper : Str → Str
  /-- `ContentType::parse` (content_types.rs 75-88), on top of `Mime::from_str`. -/
  parseCT : Str → Option ContentType
  /-- `detect_content_type_from_string` (content_types.rs 273-287), which never returns `None`. -/
  detectStr : Str → ContentType
  /-- `detect_content_type_from_bytes` (content_types.rs 290-315). -/
  detectBytes : Bytes → Option ContentType
  /-- `serde_json::from_slice`. -/
  json : Bytes → Option Json
  /-- The text of a number is not empty (for other values this follows from `Json.text`). -/
  json_text : ∀ b v, json b = some v → v.text ≠ []
  /-- The major and minor number found by `lenient_semver::parse`. -/
  version : Str → Option (Nat × Nat)
  /-- `PACT_RUST_VERSION` (lib.rs). -/
  rustVersion : Str

/-- The UTF-8 form of a string. -/
def utf8 (s : Str) : Bytes := s.flatMap String.utf8EncodeChar

/-! ### Bodies -/

/-- `enum ContentTypeHint` (content_types.rs 318-323). -/
inductive Hint where
  | binary | text | default
deriving DecidableEq, Repr

/-- `impl Display for ContentTypeHint` (content_types.rs 331-339). -/
def hintText : Hint → Str
  | .binary => "BINARY".toList
  | .text => "TEXT".toList
  | .default => "DEFAULT".toList

/-- `TryFrom<&str> for ContentTypeHint` (content_types.rs 341-352). -/
def hintParse (s : Str) : Option Hint :=
  if s = "BINARY".toList then some .binary
  else if s = "TEXT".toList then some .text
  else if s = "DEFAULT".toList then some .default
  else none

/-- `enum OptionalBody` (bodies.rs 17-31), with the content type hint. -/
inductive FBody where
  | missing
  | empty
  | null
  | present (b : Bytes) (ct : Option ContentType) (hint : Option Hint)
deriving DecidableEq, Repr

/-- `with_content_type_if_not_set` (bodies.rs 125-133). -/
def withContentType (ct : Option ContentType) : FBody → FBody
  | .present b c h => .present b (c.or ct) h
  | x => x

/-- `set_content_type` (bodies.rs 179-183). -/
def setContentType (ct : ContentType) : FBody → FBody
  | .present b _ h => .present b (some ct) h
  | x => x

/-- The `content` and `encoded` attributes of a body (bodies.rs 140-159). -/
def contents (E : FileEnv) (ct : ContentType) (hint : Hint) (b : Bytes) : Json × Json :=
  let base64 := (Json.str (Base64.encode b), lit "base64")
  if ct.isJson then
    match E.json b with
    | some v => (v, .bool false)
    | none => base64
  else if hint = .binary ∨ ct.isBinary = true then base64
  else match QS.fromUtf8 b with
    | some s => (.str s, .bool false)
    | none => base64

/-- `to_v4_json` (bodies.rs 135-176); `none` is `Value::Null`, which the callers do not write. -/
def bodyToJson (E : FileEnv) : FBody → Option Json
  | .present b ct hint =>
    let ct := ct.getD .unknown
    let c := contents E ct (hint.getD .default) b
    some (obj ([("content", c.1), ("contentType", .str ct.display)]
      ++ (match hint with | some h => [("contentTypeHint", Json.str (hintText h))] | none => [])
      ++ [("encoded", c.2)]))
  | .empty => some (obj [("content", .str [])])
  | _ => none

/-- The content type in the headers (v4/http_parts.rs 397-413, json_utils.rs 153-164, v4/mod.rs 65-69): the first
value of the first header with that name; `v[0]` panics if it has none. -/
def headerContentType (E : FileEnv) : Option HeaderMap → Res (Option ContentType)
  | none => .ok none
  | some h => match h.find? (fun e => decide (E.P.uc.lower e.1 = "content-type".toList)) with
    | none => .ok none
    | some (_, []) => .panic
    | some (_, v :: _) => .ok (E.parseCT v)

/-- `content_type_from_json` (v4/http_parts.rs 383-416). -/
def contentTypeFromJson (E : FileEnv) (headers : Option HeaderMap) (attrs : Obj) : Res (Option ContentType) :=
  match RuleJson.get "contentType" attrs with
  | some v => .ok (E.parseCT v.toStr)
  | none => headerContentType E headers

/-- The `encoded` attribute (v4/http_parts.rs 292-299). -/
def encodedFromJson (uc : UC) : Option Json → Bool × Str
  | some (.str s) => (true, uc.lower s)
  | some (.bool b) => (b, [])
  | some v => (true, v.text)
  | none => (false, [])

/-- The `contentTypeHint` attribute (v4/http_parts.rs 301-316). -/
def hintFromJson : Option Json → Option Hint
  | none => none
  | some (.str s) => some ((hintParse s).getD .default)
  | some _ => some .default

/-- The bytes of a body (v4/http_parts.rs 318-350). -/
def bytesFromJson (uc : UC) (ct : Option ContentType) (enc : Option Json) (c : Json) : Bytes :=
  match encodedFromJson uc enc with
  | (true, e) =>
    if e = "base64".toList then (Base64.decode c.toStr).getD (utf8 c.toStr) else utf8 c.toStr
  | (false, _) =>
    match ct with
    | some ct =>
      if ct.isJson then
        match c with
        | .str [] => []
        | c => utf8 c.text
      else utf8 c.toStr
    | none => utf8 c.toStr

/-- `body_from_json` (v4/http_parts.rs 274-381). -/
def bodyFromJson (E : FileEnv) (j : Json) (attr : String) (headers : Option HeaderMap) : Res FBody :=
  match vget attr j with
  | none => .ok .missing
  | some (.obj attrs) =>
    match RuleJson.get "content" attrs with
    | none => .ok .missing
    | some .null => .ok .null
    | some c =>
      (contentTypeFromJson E headers attrs).bind fun ct =>
        let b := bytesFromJson E.P.uc ct (RuleJson.get "encoded" attrs) c
        if b.isEmpty then .ok .empty
        else .ok (.present b (some (ct.getD ((E.detectBytes b).getD .unknown)))
          (hintFromJson (RuleJson.get "contentTypeHint" attrs)))
  | some .null => .ok .null
  | some v => .ok (.present (utf8 v.text) none none)

/-- `calc_content_type` (v4/mod.rs 62-78). -/
def calcContentType (E : FileEnv) (body : FBody) (headers : Option HeaderMap) : Res (Option ContentType) :=
  match body with
  | .present _ (some ct) _ => .ok (some ct)
  | _ => (headerContentType E headers).map fun h =>
    h.or (match body with | .present b _ _ => E.detectBytes b | _ => none)

/-! ### Matching rules and generators -/

/-- `add_v2_rule` (matchingrules/mod.rs 1385-1393) with `rule_from_json` (958-972). -/
def addV2Rule (P : Params) (m : MatchingRules) (c : Category) (p : DocPath) (v : Json) : Res MatchingRules :=
  (fromJson P v).bind fun r =>
    .ok ((m.filter fun e => !decide (e.1 = c)) ++ [(c, addRule ((rulesForCategory m c).getD (emptyCat c)) p r .and)])

/-- The names of the fields of a path (matchingrules/mod.rs 1350-1353, 1358-1361). -/
def fieldNames (p : DocPath) : List Str := p.tokens.filterMap fun | .field n => some n | _ => none

/-- The category and key of a rule in V2 form (matchingrules/mod.rs 1338-1373). -/
def v2Key (P : Params) (key : Str) : Res (Category × DocPath) :=
  if "$.body".toList.isPrefixOf key then
    if key = "$.body".toList then .ok (.body, Path.rootPath)
    else (Path.new P.uc ('$' :: key.drop 6)).map fun p => (.body, p)
  else if "$.headers".toList.isPrefixOf key then
    (Path.new P.uc key).bind fun p =>
      match fieldNames p with
      | _ :: name :: _ => (Path.new P.uc name).map fun q => (.header, q)
      | _ => .err
  else (Path.new P.uc key).bind fun p =>
    match fieldNames p with
    | [] => .err
    | [c] => .ok (catParse P.uc c, Path.empty)
    | c :: name :: _ => (Path.new P.uc name).map fun q => (catParse P.uc c, q)

/-- `load_from_v2_map` (matchingrules/mod.rs 1337-1374). -/
def loadV2 (P : Params) : MatchingRules → Obj → Res MatchingRules
  | m, [] => .ok m
  | m, (k, v) :: es => (v2Key P k).bind fun cp => (addV2Rule P m cp.1 cp.2 v).bind fun m => loadV2 P m es

/-- `RuleList::to_v2_json` (matchingrules/mod.rs 704-709): only the first rule. -/
def listV2Json (l : RuleList) : Json :=
  match l.rules with
  | [] => .obj []
  | r :: _ => ruleJson r

/-- `Category::v2_form` (matchingrules/mod.rs 842-848). -/
def v2Form : Category → Str
  | .header => "headers".toList
  | c => catName c

/-- The key of a rule in V2 form (matchingrules/mod.rs 1023-1039): for bodies *every* `$` of the path is replaced. -/
def v2KeyText (c : Category) (p : DocPath) : Str :=
  match c with
  | .path => "$.path".toList
  | .body => p.expr.flatMap fun ch => if ch = '$' then "$.body".toList else [ch]
  | .header | .query => (Path.pushPath (Path.pushField Path.rootPath (v2Form c)) p).expr
  | c => "$.".toList ++ v2Form c ++ '.' :: p.expr

/-- `MatchingRules::to_v2_json` (matchingrules/mod.rs 1415-1422) with `MatchingRuleCategory::to_v2_json` (1020-1042). -/
def matchersToV2Json (m : MatchingRules) : Json :=
  .obj (OMap.collect (m.flatMap fun e => e.2.rules.map fun r => (v2KeyText e.2.name r.1, listV2Json r.2)))

/-- `matchers_from_json` (matchingrules/mod.rs 1512-1535): the first key decides between the V2 and the V3 form. -/
def matchersFromJson (P : Params) (v : Json) (deprecated : Option String) : Res MatchingRules :=
  match (vget "matchingRules" v).or (deprecated.bind fun n => vget n v) with
  | some (.obj ((k, x) :: es)) =>
    if k.head? = some '$' then loadV2 P [] ((k, x) :: es) else loadV3 P [] ((k, x) :: es)
  | _ => .ok []

/-- `generators_from_json` (generators/mod.rs 702-715). -/
def generatorsFromJson (P : Params) (v : Json) : Res Generators :=
  match vget "generators" v with
  | some (.obj m) => loadGens P [] m
  | _ => .ok []

/-- `MatchingRules::is_not_empty` (matchingrules/mod.rs 1255-1257). -/
def rulesNotEmpty (m : MatchingRules) : Bool := m.any fun e => !e.2.rules.isEmpty

/-- `Generators::is_not_empty` (generators/mod.rs 524-526). -/
def gensNotEmpty (g : Generators) : Bool := g.any fun e => !e.2.isEmpty

/-- The `matchingRules` and `generators` attributes in V4 form (v4/http_parts.rs 108-116, 525-533,
v4/message_parts.rs 72-80, v4/async_message.rs 178-184).  Simplified: writing a rule with an unresolved reference panics
(see `RuleJson.toJson`), which is not repeated here. -/
def rulesAttrs (m : MatchingRules) (g : Generators) : List (String × Json) :=
  (if rulesNotEmpty m then [("matchingRules", matchersToJson m)] else [])
    ++ (if gensNotEmpty g then [("generators", generatorsToJson g)] else [])

/-! ### HTTP requests and responses (V4) -/

/-- `HttpRequest` (v4/http_parts.rs 30-46). -/
structure HttpRequest where
  method : Str
  path : Str
  query : Option QueryMap
  headers : Option HeaderMap
  body : FBody
  rules : MatchingRules
  gens : Generators

/-- `HttpResponse` (v4/http_parts.rs 440-452); the status is a `u16`. -/
structure HttpResponse where
  status : Nat
  headers : Option HeaderMap
  body : FBody
  rules : MatchingRules
  gens : Generators

/-- `match v { String(s) => s, _ => to_string() }`, the text of an attribute. -/
def textOf : Json → Str
  | .str s => s
  | v => v.text

/-- The value of an attribute that may be missing. -/
def attrText (k : String) (dflt : Str) (v : Json) : Str := ((vget k v).map textOf).getD dflt

/-- `HttpRequest::from_json` (v4/http_parts.rs 50-79). -/
def requestFromJson (E : FileEnv) (v : Json) : Res HttpRequest :=
  let headers := QS.headersFromJson E.P.uc (vget "headers" v)
  (bodyFromJson E v "body" headers).bind fun body =>
  (matchersFromJson E.P v none).bind fun rules =>
  (generatorsFromJson E.P v).bind fun gens =>
  .ok { method := ((vget "method" v).map fun m => E.upper (textOf m)).getD "GET".toList
        path := attrText "path" "/".toList v
        query := (vget "query" v).bind QS.v3QueryFromJson
        headers := headers
        body := body
        rules := rules
        gens := gens }

/-- An attribute that is written if there is a value. -/
def optJson (k : String) : Option Json → List (String × Json)
  | some v => [(k, v)]
  | none => []

/-- `HttpRequest::to_json` (v4/http_parts.rs 82-119). -/
def requestToJson (E : FileEnv) (r : HttpRequest) : Res Json :=
  (calcContentType E r.body r.headers).map fun ct =>
    obj ([("method", .str (E.upper r.method)), ("path", .str r.path)]
      ++ optJson "query" (r.query.map QS.queryToJsonV3)
      ++ optJson "headers" (r.headers.map QS.headersToJsonV4)
      ++ optJson "body" (bodyToJson E (withContentType ct r.body))
      ++ rulesAttrs r.rules r.gens)

/-- `v.as_u64().unwrap() as u16` (v4/http_parts.rs 503, response.rs 41). -/
def statusOf : Json → Res Nat
  | .num n => match JsonUtils.asU64 n with
    | some k => .ok (JsonUtils.asU16 k)
    | none => .panic
  | _ => .panic

/-- The `status` attribute (v4/http_parts.rs 502-505). -/
def statusAttr : Option Json → Res Nat
  | some s => statusOf s
  | none => .ok 200

/-- `HttpResponse::from_json` (v4/http_parts.rs 499-512). -/
def responseFromJson (E : FileEnv) (v : Json) : Res HttpResponse :=
  let headers := QS.headersFromJson E.P.uc (vget "headers" v)
  (statusAttr (vget "status" v)).bind fun status =>
  (bodyFromJson E v "body" headers).bind fun body =>
  (matchersFromJson E.P v none).bind fun rules =>
  (generatorsFromJson E.P v).bind fun gens =>
  .ok { status := status, headers := headers, body := body, rules := rules, gens := gens }

/-- `HttpResponse::to_json` (v4/http_parts.rs 515-547). -/
def responseToJson (E : FileEnv) (r : HttpResponse) : Json :=
  obj ([("status", .num (.pos r.status))]
    ++ optJson "headers" (r.headers.map QS.headersToJsonV4)
    ++ optJson "body" (bodyToJson E r.body)
    ++ rulesAttrs r.rules r.gens)

/-! ### Messages (V4) -/

/-- `MessageContents` (v4/message_parts.rs 25-35). -/
structure MessageContents where
  contents : FBody
  metadata : Obj
  rules : MatchingRules
  gens : Generators

/-- `metadata_to_headers` (v4/message_parts.rs 177-183). -/
def metadataToHeaders (m : Obj) : Option HeaderMap :=
  (RuleJson.get "contentType" m).map fun v => [("Content-Type".toList, [v.toStr])]

/-- The entries of an attribute that must be an object. -/
def objAttr (k : String) (v : Json) : Obj :=
  match vget k v with
  | some (.obj m) => m
  | _ => []

/-- The fields shared by `MessageContents::from_json` (v4/message_parts.rs 40-52) and `AsynchronousMessage::from_json`
(v4/async_message.rs 107-113, 130-135). -/
def messageParts (E : FileEnv) (v : Json) : Res MessageContents :=
  let metadata := objAttr "metadata" v
  (bodyFromJson E v "contents" (metadataToHeaders metadata)).bind fun contents =>
  (matchersFromJson E.P v none).bind fun rules =>
  (generatorsFromJson E.P v).bind fun gens =>
  .ok { contents := contents, metadata := metadata, rules := rules, gens := gens }

/-- `MessageContents::from_json` (v4/message_parts.rs 39-56). -/
def messageFromJson (E : FileEnv) : Json → Res MessageContents
  | .obj m => messageParts E (.obj m)
  | _ => .err

/-- The `metadata` attribute (v4/message_parts.rs 66-70, v4/async_message.rs 167-171). -/
def metadataAttrs (m : Obj) : List (String × Json) :=
  if m.isEmpty then [] else [("metadata", .obj (OMap.collect m))]

/-- `MessageContents::to_json` (v4/message_parts.rs 59-84). -/
def messageToJson (E : FileEnv) (m : MessageContents) : Res Json :=
  (calcContentType E m.contents (metadataToHeaders m.metadata)).map fun ct =>
    obj (optJson "contents" (bodyToJson E (withContentType ct m.contents))
      ++ metadataAttrs m.metadata
      ++ rulesAttrs m.rules m.gens)

/-! ### Interactions (V4) -/

/-- `struct ProviderState` (provider_states.rs 17-22). -/
structure PState where
  name : Str
  params : Obj
deriving DecidableEq

/-- `ProviderState::from_json_v3` (provider_states.rs 35-60). -/
def stateFromJson (v : Json) : PState :=
  ⟨attrText "name" "unknown provider states".toList v, objAttr "params" v⟩

/-- `ProviderState::from_json` (provider_states.rs 63-82). -/
def statesFromJson (v : Json) : List PState :=
  match vget "providerStates" v with
  | some (.arr a) => a.map stateFromJson
  | some _ => []
  | none => match (vget "providerState" v).or (vget "provider_state" v) with
    | some (.str s) => if s.isEmpty then [] else [⟨s, []⟩]
    | some .null => []
    | some x => [⟨x.text, []⟩]
    | none => []

/-- `ProviderState::to_json` (provider_states.rs 85-95). -/
def stateToJson (p : PState) : Json :=
  obj ([("name", .str p.name)] ++ (if p.params.isEmpty then [] else [("params", .obj (OMap.collect p.params))]))

/-- `InteractionMarkup` (v4/interaction.rs 20-26). -/
structure Markup where
  markup : Str
  markupType : Str
deriving DecidableEq

/-- `InteractionMarkup::from_json` (v4/interaction.rs 30-41). -/
def markupFromJson : Json → Markup
  | .obj m => ⟨((RuleJson.get "markup" m).map Json.toStr).getD [], ((RuleJson.get "markupType" m).map Json.toStr).getD []⟩
  | _ => ⟨[], []⟩

/-- `InteractionMarkup::to_json` (v4/interaction.rs 49-54). -/
def markupToJson (m : Markup) : Json := obj [("markup", .str m.markup), ("markupType", .str m.markupType)]

/-- The entries of an object. -/
def asObj : Json → Obj
  | .obj m => m
  | _ => []

/-- `parse_plugin_config` (v4/interaction.rs 222-246). -/
def pluginConfigFromJson (v : Json) : List (Str × Obj) :=
  (objAttr "pluginConfiguration" v).map fun e => (e.1, asObj e.2)

/-- The fields shared by the three types of interaction. -/
structure Common where
  id : Option Str
  key : Option Str
  description : Str
  states : List PState
  comments : Obj
  pending : Bool
  plugins : List (Str × Obj)
  markup : Markup
  transport : Option Str

/-- The `pending` attribute (v4/synch_http.rs 122-123). -/
def pendingOf : Option Json → Bool
  | some (.bool b) => b
  | _ => false

/-- Reading the shared fields (v4/synch_http.rs 76-129, v4/async_message.rs 83-143, v4/sync_message.rs 74-142). -/
def commonFromJson (index : Nat) (v : Json) : Common where
  id := (vget "_id" v).map Json.toStr
  key := (vget "key" v).map Json.toStr
  description := attrText "description" ("Interaction ".toList ++ (Nat.toDigits 10 index)) v
  states := statesFromJson v
  comments := objAttr "comments" v
  pending := pendingOf (vget "pending" v)
  plugins := pluginConfigFromJson v
  markup := ((vget "interactionMarkup" v).map markupFromJson).getD ⟨[], []⟩
  transport := (vget "transport" v).map textOf

/-- The comments that are written (v4/synch_http.rs 153-159). -/
def keptComments (c : Obj) : Obj := c.filter fun e => !e.2.isEmpty

/-- Writing the shared fields (v4/synch_http.rs 133-174, v4/async_message.rs 150-210, v4/sync_message.rs 150-196). -/
def commonAttrs (type : String) (c : Common) : List (String × Json) :=
  [("type", lit type), ("description", .str c.description), ("pending", .bool c.pending)]
    ++ optJson "key" (c.key.map Json.str)
    ++ (if c.states.isEmpty then [] else [("providerStates", .arr (c.states.map stateToJson))])
    ++ (if (keptComments c.comments).isEmpty then [] else [("comments", .obj (OMap.collect (keptComments c.comments)))])
    ++ (if c.plugins.isEmpty then []
        else [("pluginConfiguration", .obj (OMap.collect (c.plugins.map fun e => (e.1, Json.obj (OMap.collect e.2)))))])
    ++ (if c.markup.markup.isEmpty then [] else [("interactionMarkup", markupToJson c.markup)])
    ++ optJson "transport" (c.transport.map Json.str)

/-- `SynchronousHttp`, `AsynchronousMessage` and `SynchronousMessage` (v4/synch_http.rs 28-58, v4/async_message.rs
34-62, v4/sync_message.rs 29-58). -/
inductive Interaction where
  | http (c : Common) (request : HttpRequest) (response : HttpResponse)
  | async (c : Common) (contents : MessageContents)
  | sync (c : Common) (request : MessageContents) (responses : List MessageContents)

/-- The shared fields of an interaction. -/
def Interaction.common : Interaction → Common
  | .http c _ _ => c
  | .async c _ => c
  | .sync c _ _ => c

/-- All results, or the failure: `collect` and `?`. -/
def allOk {A : Type} : List (Res A) → Res (List A)
  | [] => .ok []
  | r :: rs => r.bind fun a => (allOk rs).map fun as => a :: as

/-- `to_json` (v4/synch_http.rs 133-175, v4/async_message.rs 150-211, v4/sync_message.rs 150-197). -/
def interactionToJson (E : FileEnv) : Interaction → Res Json
  | .http c req resp => (requestToJson E req).map fun r =>
      obj (commonAttrs "Synchronous/HTTP" c ++ [("request", r), ("response", responseToJson E resp)])
  | .async c m => .ok (obj (commonAttrs "Asynchronous/Messages" c
      ++ optJson "contents" (bodyToJson E m.contents)
      ++ metadataAttrs m.metadata
      ++ rulesAttrs m.rules m.gens))
  | .sync c req resps => (messageToJson E req).bind fun r => (allOk (resps.map (messageToJson E))).map fun rs =>
      obj (commonAttrs "Synchronous/Messages" c ++ [("request", r), ("response", .arr rs)])

/-- `SynchronousHttp::from_json` (v4/synch_http.rs 75-131). -/
def httpFromJson (E : FileEnv) (index : Nat) : Json → Res Interaction
  | .obj m =>
    (requestFromJson E ((RuleJson.get "request" m).getD .null)).bind fun req =>
    (responseFromJson E ((RuleJson.get "response" m).getD .null)).bind fun resp =>
    .ok (.http (commonFromJson index (.obj m)) req resp)
  | _ => .err

/-- `AsynchronousMessage::from_json` (v4/async_message.rs 82-146). -/
def asyncFromJson (E : FileEnv) (index : Nat) : Json → Res Interaction
  | .obj m => (messageParts E (.obj m)).map fun c => .async (commonFromJson index (.obj m)) c
  | _ => .err

/-- `SynchronousMessage::from_json` (v4/sync_message.rs 73-147).  Every response is read before an error is reported;
which error it is does not matter here. -/
def syncFromJson (E : FileEnv) (index : Nat) : Json → Res Interaction
  | .obj m =>
    match RuleJson.get "request" m, RuleJson.get "response" m with
    | some req, some (.arr resps) =>
      (allOk (resps.map (messageFromJson E))).bind fun rs =>
      (messageFromJson E req).map fun r => .sync (commonFromJson index (.obj m)) r rs
    | _, _ => .err
  | _ => .err

/-- `interaction_from_json` (v4/interaction.rs 199-220) with `FromStr for V4InteractionType` (v4/mod.rs 47-59). -/
def interactionFromJson (E : FileEnv) (index : Nat) (v : Json) : Res Interaction :=
  match vget "type" v with
  | some t =>
    if t.toStr = "Synchronous/HTTP".toList then httpFromJson E index v
    else if t.toStr = "Asynchronous/Messages".toList then asyncFromJson E index v
    else if t.toStr = "Synchronous/Messages".toList then syncFromJson E index v
    else .err
  | none => .err

/-- The loop of `interactions_from_json` (v4/interaction.rs 189-194). -/
def interactionsLoop (E : FileEnv) : Nat → List Json → Res (List Interaction)
  | _, [] => .ok []
  | i, v :: vs => (interactionFromJson E i v).bind fun x => (interactionsLoop E (i + 1) vs).map fun xs => x :: xs

/-- `interactions_from_json` (v4/interaction.rs 186-197). -/
def interactionsFromJson (E : FileEnv) (v : Json) : Res (List Interaction) :=
  match vget "interactions" v with
  | some (.arr a) => interactionsLoop E 0 a
  | _ => .ok []

/-! ### Pacts (V4) -/

/-- `PluginData` (plugins.rs 11-21). -/
structure Plugin where
  name : Str
  version : Str
  configuration : Obj
deriving DecidableEq

/-- `PluginData::to_json` (plugins.rs 39-42), by the derived `Serialize`. -/
def pluginToJson (p : Plugin) : Json :=
  obj [("name", .str p.name), ("version", .str p.version), ("configuration", .obj (OMap.collect p.configuration))]

/-- The derived `Deserialize` of `PluginData` (plugins.rs 11-21): the names are required strings, the configuration
defaults to nothing. -/
def pluginFromJson : Json → Option Plugin
  | .obj m => match RuleJson.get "name" m, RuleJson.get "version" m, RuleJson.get "configuration" m with
    | some (.str n), some (.str v), some (.obj c) => some ⟨n, v, c⟩
    | some (.str n), some (.str v), none => some ⟨n, v, []⟩
    | _, _, _ => none
  | _ => none

/-- `V4Pact` (v4/pact.rs 31-42); the metadata is a `BTreeMap`. -/
structure V4Pact where
  consumer : Str
  provider : Str
  interactions : List Interaction
  metadata : Obj
  plugins : List Plugin

/-- The name of a metadata entry in the file (v4/pact.rs 48-53). -/
def metadataKey (k : Str) : Str :=
  if k = "pact-specification".toList then "pactSpecification".toList
  else if k = "pact-rust".toList then "pactRust".toList
  else k

/-- The `pactRust` entry with the version of this library (v4/pact.rs 59-63). -/
def withVersion (E : FileEnv) : Option Json → Json
  | some (.obj m) => .obj (OMap.insert "models".toList (.str E.rustVersion) m)
  | some v => v
  | none => .obj [("models".toList, .str E.rustVersion)]

/-- `metadata_to_json` (v4/pact.rs 45-77). -/
def metadataToJson (E : FileEnv) (p : V4Pact) : Json :=
  let m := OMap.collect (p.metadata.map fun e => (metadataKey e.1, e.2))
  let m := OMap.insert "pactSpecification".toList (obj [("version", lit "4.0")]) m
  let m := OMap.insert "pactRust".toList (withVersion E (Json.lookup "pactRust".toList m)) m
  .obj (if p.plugins.isEmpty then m else OMap.insert "plugins".toList (.arr (p.plugins.map pluginToJson)) m)

/-- Inserting an interaction behind all that are not greater (`sorted_by` of itertools is a stable sort). -/
def insertBy (x : Interaction) : List Interaction → List Interaction
  | [] => [x]
  | y :: ys => if Json.strLt x.common.description y.common.description then x :: y :: ys else y :: insertBy x ys

/-- `sorted_by(|a, b| Ord::cmp(&a.description(), &b.description()))` (v4/pact.rs 194-195). -/
def sortByDescription (l : List Interaction) : List Interaction := l.foldl (fun acc x => insertBy x acc) []

/-- `V4Pact::to_json` for V4 (v4/pact.rs 188-199), and `Consumer::to_json` and `Provider::to_json` (lib.rs 204-206,
274-276). -/
def pactToJson (E : FileEnv) (p : V4Pact) : Res Json :=
  (allOk ((sortByDescription p.interactions).map (interactionToJson E))).map fun is =>
    obj [("consumer", obj [("name", .str p.consumer)]), ("provider", obj [("name", .str p.provider)]),
      ("interactions", .arr is), ("metadata", metadataToJson E p)]

/-- `Consumer::from_json` and `Provider::from_json` (lib.rs 192-201, 262-271; v4/pact.rs 141-148). -/
def nameFromJson (k : String) (dflt : Str) (v : Json) : Str :=
  match vget k v with
  | some p => attrText "name" dflt p
  | none => dflt

/-- `extract_plugin_data` (v4/pact.rs 104-127). -/
def pluginsFromJson (m : Obj) : List Plugin :=
  match Json.lookup "plugins".toList m with
  | some (.arr items) => items.filterMap pluginFromJson
  | _ => []

/-- `V4Pact::pact_from_json` (v4/pact.rs 138-160) and `from_json` (v4/pact.rs 437-460), which are the same. -/
def pactFromJson (E : FileEnv) (v : Json) : Res V4Pact :=
  let metadata := objAttr "metadata" v
  (interactionsFromJson E v).map fun is =>
    { consumer := nameFromJson "consumer" "consumer".toList v
      provider := nameFromJson "provider" "provider".toList v
      interactions := is
      metadata := metadata.filter fun e => !decide (e.1 = "plugins".toList)
      plugins := pluginsFromJson metadata }

end PactFile
end Verif
