import Verif.PactFile

/-
  Model of the V1 to V3 forms of pact files: rust/pact_models/src/json_utils.rs (bodies), request.rs, response.rs,
  http_parts.rs, sync_interaction.rs, sync_pact.rs, message.rs, message_pact.rs, pact.rs (metadata, specification
  version, loading) and the conversions between these and the V4 models (v4/pact.rs, v4/synch_http.rs,
  v4/async_message.rs).

  `Request` and `Response` have the same fields as `HttpRequest` and `HttpResponse`, whose models are used for them.
-/

set_option autoImplicit false

namespace Verif
namespace PactV3
open RuleJson Rules Generate Query Headers PactFile

/-- `enum PactSpecification` (lib.rs 81-97). -/
inductive Spec where
  | unknown | v1 | v1_1 | v2 | v3 | v4
deriving DecidableEq, Repr

/-- `version_str` (lib.rs 106-115). -/
def Spec.text : Spec → Str
  | .v1 => "1.0.0".toList
  | .v1_1 => "1.1.0".toList
  | .v2 => "2.0.0".toList
  | .v3 => "3.0.0".toList
  | .v4 => "4.0".toList
  | .unknown => "unknown".toList

/-! ### Bodies -/

/-- `HttpPart::lookup_content_type` (request.rs 79-81, response.rs 171-173, http_parts.rs 82-89). -/
def contentTypeHeader (E : FileEnv) (headers : Option HeaderMap) : Option Str :=
  headers.bind fun h =>
    (h.find? fun e => decide (E.P.uc.lower e.1 = E.P.uc.lower "content-type".toList)).map fun e =>
      QS.joinWith ", ".toList e.2

/-- `HttpPart::detect_content_type` (http_parts.rs 46-57). -/
def detectContentType (E : FileEnv) : FBody → Option ContentType
  | .present b _ _ => some (E.detectStr ((QS.fromUtf8 b).getD []))
  | _ => none

/-- `HttpPart::content_type` (http_parts.rs 61-75). -/
def partContentType (E : FileEnv) (body : FBody) (headers : Option HeaderMap) : Option ContentType :=
  match body with
  | .present _ (some ct) _ => some ct
  | body => match contentTypeHeader E headers with
    | some h => match E.parseCT h with
      | some ct => some ct
      | none => detectContentType E body
    | none => detectContentType E body

/-- Text if the bytes are UTF-8, else base64 (request.rs 204-207, message.rs 267-270). -/
def textJson (b : Bytes) : Json :=
  match QS.fromUtf8 b with
  | some s => .str s
  | none => .str (Base64.encode b)

/-- The value of the bytes, or base64 if they are not JSON (request.rs 195-202, message.rs 256-262). -/
def valueJson (E : FileEnv) (b : Bytes) : Json :=
  match E.json b with
  | some v => v
  | none => .str (Base64.encode b)

/-- The `body` attribute of a request or response (request.rs 194-213, response.rs 72-92), given its content type. -/
def httpBodyToJson (E : FileEnv) (ct : Option ContentType) : FBody → Option Json
  | .present b _ _ => some (if (ct.getD .unknown).isJson then valueJson E b else textJson b)
  | .empty => some (.str [])
  | .missing => none
  | .null => some .null

/-- The `contents` attribute of a message (message.rs 252-277). -/
def contentsToJson (E : FileEnv) (ct : Option ContentType) : FBody → Option Json
  | .present b _ _ => some (if (ct.getD .unknown).isJson then valueJson E b
      else if (ct.getD .unknown).isBinary then .str (Base64.encode b) else textJson b)
  | .empty => some (.str [])
  | .missing => none
  | .null => some .null

/-- `serde_json::from_str::<JsonParsable>(s).is_ok()` (json_utils.rs 142-148, 174-175): the text is a JSON string or
object. -/
def jsonParsable (E : FileEnv) (s : Str) : Bool :=
  match E.json (utf8 s) with
  | some (.str _) => true
  | some (.obj _) => true
  | _ => false

/-- A body given as a string (json_utils.rs 167-187). -/
def bodyFromText (E : FileEnv) (ct : Option ContentType) (s : Str) : FBody :=
  if s.isEmpty then .empty
  else
    let ct := ct.getD (E.detectStr s)
    if ct.isJson then
      if jsonParsable E s then .present (utf8 s) (some ct) none
      else .present (utf8 ('"' :: s ++ ['"'])) (some ct) none
    else if ct.isText then .present (utf8 s) (some ct) none
    else match Base64.decode s with
      | some b => .present b none none
      | none => .present (utf8 s) none none

/-- `body_from_json` (json_utils.rs 151-194), given the content type of the headers. -/
def bodyFromAttr (E : FileEnv) (ct : Option ContentType) : Option Json → FBody
  | some (.str s) => bodyFromText E ct s
  | some .null => .null
  | some v => .present (utf8 v.text) none none
  | none => .missing

/-- `body_from_json` (json_utils.rs 151-194). -/
def bodyFromJson (E : FileEnv) (j : Json) (attr : String) (headers : Option HeaderMap) : Res FBody :=
  (headerContentType E headers).map fun ct => bodyFromAttr E ct (vget attr j)

/-! ### Requests and responses -/

/-- `matchers_to_json` (matchingrules/mod.rs 1538-1543). -/
def rulesToJson (spec : Spec) (m : MatchingRules) : Json :=
  match spec with
  | .v3 | .v4 => matchersToJson m
  | _ => matchersToV2Json m

/-- `generators_to_json` (generators/mod.rs 718-723). -/
def gensToJson (spec : Spec) (g : Generators) : Json :=
  match spec with
  | .v3 | .v4 => generatorsToJson g
  | _ => .null

/-- The `matchingRules` and `generators` attributes (request.rs 215-223, response.rs 94-101, message.rs 246-253). -/
def partAttrs (spec : Spec) (m : MatchingRules) (g : Generators) : List (String × Json) :=
  (if rulesNotEmpty m then [("matchingRules", rulesToJson spec m)] else [])
    ++ (if gensNotEmpty g then [("generators", gensToJson spec g)] else [])

/-- `query_to_json` (query_strings.rs 180-193). -/
def queryToJson (spec : Spec) (m : QueryMap) : Res Json :=
  match spec with
  | .v3 | .v4 => .ok (QS.queryToJsonV3 m)
  | _ => QS.queryToJsonV2 m

/-- The `query` attribute (request.rs 186-188). -/
def queryAttr (spec : Spec) : Option QueryMap → Res (Option Json)
  | none => .ok none
  | some m => (queryToJson spec m).map some

/-- The query of a request (request.rs 159-165). -/
def queryFromJson (spec : Spec) (v : Json) : Option QueryMap :=
  match spec with
  | .v3 => QS.v3QueryFromJson v
  | _ => QS.queryFromJsonV2 v

/-- `Request::to_json` (request.rs 178-226). -/
def requestToJson (E : FileEnv) (spec : Spec) (r : HttpRequest) : Res Json :=
  (queryAttr spec r.query).map fun q =>
    obj ([("method", .str (E.upper r.method)), ("path", .str r.path)]
      ++ optJson "query" q
      ++ optJson "headers" (r.headers.map QS.headersToJson)
      ++ optJson "body" (httpBodyToJson E (partContentType E r.body r.headers) r.body)
      ++ partAttrs spec r.rules r.gens)

/-- `Request::from_json` (request.rs 143-175). -/
def requestFromJson (E : FileEnv) (spec : Spec) (v : Json) : Res HttpRequest :=
  let headers := QS.headersFromJson E.P.uc (vget "headers" v)
  (bodyFromJson E v "body" headers).bind fun body =>
  (matchersFromJson E.P v (some "requestMatchingRules")).bind fun rules =>
  (generatorsFromJson E.P v).bind fun gens =>
  .ok { method := ((vget "method" v).map fun m => E.upper (textOf m)).getD "GET".toList
        path := attrText "path" "/".toList v
        query := (vget "query" v).bind (queryFromJson spec)
        headers := headers
        body := body
        rules := rules
        gens := gens }

/-- `Response::to_json` (response.rs 64-104). -/
def responseToJson (E : FileEnv) (spec : Spec) (r : HttpResponse) : Json :=
  obj ([("status", .num (.pos r.status))]
    ++ optJson "headers" (r.headers.map QS.headersToJson)
    ++ optJson "body" (httpBodyToJson E (partContentType E r.body r.headers) r.body)
    ++ partAttrs spec r.rules r.gens)

/-- `Response::from_json` (response.rs 39-55). -/
def responseFromJson (E : FileEnv) (v : Json) : Res HttpResponse :=
  let headers := QS.headersFromJson E.P.uc (vget "headers" v)
  (statusAttr (vget "status" v)).bind fun status =>
  (bodyFromJson E v "body" headers).bind fun body =>
  (matchersFromJson E.P v (some "responseMatchingRules")).bind fun rules =>
  (generatorsFromJson E.P v).bind fun gens =>
  .ok { status := status, headers := headers, body := body, rules := rules, gens := gens }

/-! ### Interactions -/

/-- `RequestResponseInteraction` (sync_interaction.rs 29-41). -/
structure HttpInteraction where
  id : Option Str
  description : Str
  states : List PState
  request : HttpRequest
  response : HttpResponse

/-- `impl Default for Request` (request.rs 127-139). -/
def defaultRequest : HttpRequest := ⟨"GET".toList, "/".toList, none, none, .missing, [], []⟩

/-- `impl Default for Response` (response.rs 210-220). -/
def defaultResponse : HttpResponse := ⟨200, none, .missing, [], []⟩

/-- A part that may be missing. -/
def partOr {A : Type} (read : Json → Res A) (dflt : A) : Option Json → Res A
  | some v => read v
  | none => .ok dflt

/-- `RequestResponseInteraction::from_json` (sync_interaction.rs 163-189). -/
def httpFromJson (E : FileEnv) (spec : Spec) (index : Nat) (v : Json) : Res HttpInteraction :=
  (partOr (requestFromJson E spec) defaultRequest (vget "request" v)).bind fun req =>
  (partOr (responseFromJson E) defaultResponse (vget "response" v)).bind fun resp =>
  .ok { id := (vget "_id" v).map Json.toStr
        description := attrText "description" ("Interaction ".toList ++ Nat.toDigits 10 index) v
        states := statesFromJson v
        request := req
        response := resp }

/-- The provider states (sync_interaction.rs 198-206): before V3 only the name of the first. -/
def stateAttrs (spec : Spec) : List PState → List (String × Json)
  | [] => []
  | p :: ps => match spec with
    | .v3 => [("providerStates", .arr ((p :: ps).map stateToJson))]
    | _ => [("providerState", .str p.name)]

/-- `RequestResponseInteraction::to_json` (sync_interaction.rs 192-208). -/
def httpToJson (E : FileEnv) (spec : Spec) (i : HttpInteraction) : Res Json :=
  (requestToJson E spec i.request).map fun r =>
    obj ([("description", .str i.description), ("request", r), ("response", responseToJson E spec i.response)]
      ++ stateAttrs spec i.states)

/-- `Message` (message.rs 34-56). -/
structure Message where
  id : Option Str
  description : Str
  states : List PState
  contents : FBody
  metadata : Obj
  rules : MatchingRules
  gens : Generators

/-- Whether a metadata key is that of the content type (message.rs 203-206, 295-298). -/
def isContentTypeKey (k : Str) : Bool :=
  let key := k.map Char.toLower
  decide (key = "contenttype".toList) || decide (key = "content-type".toList)

/-- `message_content_type` (message.rs 290-303). -/
def messageContentType (E : FileEnv) (m : Message) : Option ContentType :=
  match m.contents with
  | .present _ (some ct) _ => some ct
  | body => match m.metadata.find? fun e => isContentTypeKey e.1 with
    | some e => E.parseCT e.2.toStr
    | none => detectContentType E body

/-- `Message::to_json` (message.rs 239-286). -/
def messageToJson (E : FileEnv) (spec : Spec) (m : Message) : Json :=
  obj ([("description", .str m.description), ("metadata", .obj (OMap.collect m.metadata))]
    ++ partAttrs spec m.rules m.gens
    ++ optJson "contents" (contentsToJson E (messageContentType E m) m.contents)
    ++ (if m.states.isEmpty then [] else [("providerStates", .arr (m.states.map stateToJson))]))

/-- The metadata of a message (message.rs 197-202). -/
def messageMetadata (v : Json) : Obj :=
  match (vget "metaData" v).or (vget "metadata" v) with
  | some (.obj m) => m
  | _ => []

/-- The contents of a message (message.rs 203-222).  The content type is written out and parsed again. -/
def messageContents (E : FileEnv) (metadata : Obj) (v : Json) : Res FBody :=
  match (metadata.find? fun e => isContentTypeKey e.1).bind fun e => E.parseCT e.2.toStr with
  | some ct => (bodyFromJson E v "contents" (some [("content-type".toList, [ct.display])])).map (setContentType ct)
  | none => bodyFromJson E v "contents" none

/-- `Message::from_json` (message.rs 185-234): the generators are not read. -/
def messageFromJson (E : FileEnv) (spec : Spec) (index : Nat) (v : Json) : Res Message :=
  match spec with
  | .v3 =>
    (messageContents E (messageMetadata v) v).bind fun body =>
    (matchersFromJson E.P v none).bind fun rules =>
    .ok { id := (vget "_id" v).map Json.toStr
          description := attrText "description" ("Message ".toList ++ Nat.toDigits 10 index) v
          states := statesFromJson v
          contents := body
          metadata := messageMetadata v
          rules := rules
          gens := [] }
  | _ => .err

/-! ### Pacts -/

/-- The metadata of a V1 to V3 pact: a `BTreeMap` of `BTreeMap`s of strings. -/
abbrev Metadata := List (Str × List (Str × Str))

/-- `RequestResponsePact` (sync_pact.rs 31-42). -/
structure HttpPact where
  consumer : Str
  provider : Str
  interactions : List HttpInteraction
  metadata : Metadata
  spec : Spec

/-- `MessagePact` (message_pact.rs 36-47). -/
structure MessagePact where
  consumer : Str
  provider : Str
  messages : List Message
  metadata : Metadata
  spec : Spec

/-- The entries of one part of the metadata (pact.rs 262-269). -/
def metadataPart : Json → List (Str × Str)
  | .obj m => OMap.collect (m.map fun e => (e.1, textOf e.2))
  | _ => []

/-- `parse_meta_data` (pact.rs 258-282). -/
def parseMetadata (v : Json) : Metadata :=
  OMap.collect ((objAttr "metadata" v).map fun e => (metadataKey e.1, metadataPart e.2))

/-- The specification of a version (pact.rs 343-366). -/
def versionSpec (E : FileEnv) (s : Str) : Spec :=
  match E.version s with
  | some (1, 1) => .v1_1
  | some (1, _) => .v1
  | some (2, _) => .v2
  | some (3, _) => .v3
  | some (4, _) => .v4
  | _ => .unknown

/-- `determine_spec_version` (pact.rs 334-377). -/
def determineSpec (E : FileEnv) (m : Metadata) : Spec :=
  match (Json.lookup "pact-specification".toList m).or (Json.lookup "pactSpecification".toList m) with
  | some part => match Json.lookup "version".toList part with
    | some s => versionSpec E s
    | none => .v3
  | none => .v3

/-- `metadata_to_json` (sync_pact.rs 195-218, message_pact.rs 204-228). -/
def metadataJson (E : FileEnv) (spec : Spec) (md : Metadata) : Json :=
  let m := OMap.collect (md.map fun e =>
    (metadataKey e.1, Json.obj (OMap.collect (e.2.map fun x => (x.1, Json.str x.2)))))
  let m := OMap.insert "pactSpecification".toList (obj [("version", .str spec.text)]) m
  .obj (OMap.insert "pactRust".toList (withVersion E (Json.lookup "pactRust".toList m)) m)

/-- The loop of `parse_interactions` (interaction.rs 204-206). -/
def httpLoop (E : FileEnv) (spec : Spec) : Nat → List Json → Res (List HttpInteraction)
  | _, [] => .ok []
  | i, v :: vs => (httpFromJson E spec i v).bind fun x => (httpLoop E spec (i + 1) vs).map fun xs => x :: xs

/-- `parse_interactions` (interaction.rs 201-211). -/
def parseInteractions (E : FileEnv) (spec : Spec) (v : Json) : Res (List HttpInteraction) :=
  match vget "interactions" v with
  | some (.arr a) => httpLoop E spec 0 a
  | _ => .ok []

/-- `as_request_response` (v4/synch_http.rs 255-263, v4/async_message.rs 289-291, v4/sync_message.rs 271-273). -/
def asHttp : Interaction → Option HttpInteraction
  | .http c req resp => some ⟨c.id, c.description, c.states, req, resp⟩
  | _ => none

/-- The content type of a body, if it is set (bodies.rs 88-95). -/
def bodyCT : FBody → Option ContentType
  | .present _ ct _ => ct
  | _ => none

/-- The metadata of a V4 message as a V3 message (v4/async_message.rs 298-303). -/
def withBodyCT (body : FBody) (m : Obj) : Obj :=
  match bodyCT body, RuleJson.get "contentType" m with
  | some ct, none => m ++ [("contentType".toList, .str ct.display)]
  | _, _ => m

/-- `MatchingRules::rename` (matchingrules/mod.rs 1425-1438).  Two categories that get the same name would be collected
into one; in the calls of this program the names are equal (see `asMessage`). -/
def renameRules (old new : Category) (m : MatchingRules) : MatchingRules :=
  m.map fun e => if e.1 = old then (new, { e.2 with name := new }) else e

/-- `as_message` (v4/synch_http.rs 269-271, v4/async_message.rs 297-314, v4/sync_message.rs 279-281).
`"content"` as a category is `BODY` (matchingrules/mod.rs 812-840: the default). -/
def asMessage (uc : UC) : Interaction → Option Message
  | .async c m => some ⟨c.id, c.description, c.states, m.contents, withBodyCT m.contents m.metadata,
      renameRules (catParse uc "content".toList) (catParse uc "body".toList) m.rules, m.gens⟩
  | _ => none

/-- The fields a converted interaction has (`Default for SynchronousHttp`, `Default for AsynchronousMessage`). -/
def plainCommon (id : Option Str) (description : Str) (states : List PState) : Common :=
  ⟨id, none, description, states, [], false, [], ⟨[], []⟩, none⟩

/-- `as_v4_http` (sync_interaction.rs 112-122). -/
def httpAsV4 (i : HttpInteraction) : Interaction := .http (plainCommon i.id i.description i.states) i.request i.response

/-- `as_v4_async_message` (message.rs 131-146). -/
def messageAsV4 (uc : UC) (m : Message) : Interaction :=
  .async (plainCommon m.id m.description m.states)
    ⟨m.contents, m.metadata, renameRules (catParse uc "body".toList) (catParse uc "content".toList) m.rules, m.gens⟩

/-- The metadata of a V1 to V3 pact as JSON (sync_pact.rs 96, message_pact.rs 101). -/
def metadataAsV4 (md : Metadata) : Obj :=
  OMap.collect (md.map fun e => (e.1, Json.obj (OMap.collect (e.2.map fun x => (x.1, Json.str x.2)))))

/-- The entries of a JSON object as strings (v4/pact.rs 222-226, 245-249). -/
def stringEntries (m : Obj) : List (Str × Str) := OMap.collect (m.map fun e => (e.1, e.2.toStr))

/-- An entry of the metadata that is an object (v4/pact.rs 221-228, 244-251). -/
def metadataEntry (k : Str) : Json → Option (Str × List (Str × Str))
  | .obj o => some (k, stringEntries o)
  | _ => none

/-- The metadata of a V4 pact in V3 form (v4/pact.rs 217-229). -/
def metadataAsV3 (m : Obj) : Metadata :=
  OMap.collect (m.filterMap fun e =>
    if e.1 = "pactSpecification".toList then some (e.1, [("version".toList, Spec.v3.text)])
    else metadataEntry e.1 e.2)

/-- The metadata of a V4 pact in V3 form, for message pacts (v4/pact.rs 243-252). -/
def metadataAsMessage (m : Obj) : Metadata :=
  OMap.collect (m.filterMap fun e => metadataEntry e.1 e.2)

/-- `V4Pact::as_request_response_pact` (v4/pact.rs 212-237). -/
def v4AsHttp (p : V4Pact) : HttpPact :=
  ⟨p.consumer, p.provider, p.interactions.filterMap asHttp, metadataAsV3 p.metadata, .v3⟩

/-- `V4Pact::as_message_pact` (v4/pact.rs 239-260). -/
def v4AsMessages (uc : UC) (p : V4Pact) : MessagePact :=
  ⟨p.consumer, p.provider, p.interactions.filterMap (asMessage uc), metadataAsMessage p.metadata, .v3⟩

/-- `RequestResponsePact::as_v4_pact` (sync_pact.rs 86-99). -/
def httpPactAsV4 (p : HttpPact) : V4Pact :=
  ⟨p.consumer, p.provider, p.interactions.map httpAsV4, metadataAsV4 p.metadata, []⟩

/-- `MessagePact::as_v4_pact` (message_pact.rs 91-104). -/
def messagePactAsV4 (uc : UC) (p : MessagePact) : V4Pact :=
  ⟨p.consumer, p.provider, p.messages.map (messageAsV4 uc), metadataAsV4 p.metadata, []⟩

/-- `RequestResponsePact::to_json` (sync_pact.rs 66-76). -/
def httpPactToJson (E : FileEnv) (spec : Spec) (p : HttpPact) : Res Json :=
  match spec with
  | .v4 => PactFile.pactToJson E (httpPactAsV4 p)
  | spec => (allOk (p.interactions.map (httpToJson E spec))).map fun is =>
      obj [("consumer", obj [("name", .str p.consumer)]), ("provider", obj [("name", .str p.provider)]),
        ("interactions", .arr is), ("metadata", metadataJson E spec p.metadata)]

/-- `MessagePact::to_json` (message_pact.rs 67-79). -/
def messagePactToJson (E : FileEnv) (spec : Spec) (p : MessagePact) : Res Json :=
  match spec with
  | .v3 => .ok (obj [("consumer", obj [("name", .str p.consumer)]), ("provider", obj [("name", .str p.provider)]),
      ("messages", .arr (p.messages.map (messageToJson E .v3))), ("metadata", metadataJson E .v3 p.metadata)])
  | .v4 => PactFile.pactToJson E (messagePactAsV4 E.P.uc p)
  | _ => .err

/-- `RequestResponsePact::from_json` (sync_pact.rs 167-192). -/
def httpPactFromJson (E : FileEnv) (v : Json) : Res HttpPact :=
  let metadata := parseMetadata v
  let spec := determineSpec E metadata
  match spec with
  | .v4 => (PactFile.pactFromJson E v).map v4AsHttp
  | spec => (parseInteractions E spec v).map fun is =>
      ⟨nameFromJson "consumer" "consumer".toList v, nameFromJson "provider" "provider".toList v, is, metadata, spec⟩

/-- The loop over the messages (message_pact.rs 182-186). -/
def messageLoop (E : FileEnv) (spec : Spec) : Nat → List Json → Res (List Message)
  | _, [] => .ok []
  | i, v :: vs => (messageFromJson E spec i v).bind fun x => (messageLoop E spec (i + 1) vs).map fun xs => x :: xs

/-- The messages of a pact (message_pact.rs 178-192). -/
def parseMessages (E : FileEnv) (spec : Spec) (v : Json) : Res (List Message) :=
  match vget "messages" v with
  | some (.arr a) => messageLoop E spec 0 a
  | some _ => .err
  | none => .ok []

/-- `MessagePact::from_json` (message_pact.rs 165-201). -/
def messagePactFromJson (E : FileEnv) (v : Json) : Res MessagePact :=
  let metadata := parseMetadata v
  let spec := determineSpec E metadata
  (parseMessages E spec v).map fun ms =>
    ⟨nameFromJson "consumer" "consumer".toList v, nameFromJson "provider" "provider".toList v, ms, metadata, spec⟩

/-- `Box<dyn Pact>`. -/
inductive AnyPact where
  | http (p : HttpPact)
  | message (p : MessagePact)
  | v4 (p : V4Pact)

/-- `load_pact_from_json` (pact.rs 171-191). -/
def loadPact (E : FileEnv) (v : Json) : Res AnyPact :=
  match v with
  | .obj _ =>
    if determineSpec E (parseMetadata v) = .v4 then (PactFile.pactFromJson E v).map .v4
    else if (vget "messages" v).isSome then (messagePactFromJson E v).map .message
    else (httpPactFromJson E v).map .http
  | _ => .err

/-- The type of an interaction (v4/mod.rs 26-36). -/
inductive Kind where
  | http | async | sync
deriving DecidableEq

/-- `v4_type` (v4/synch_http.rs, v4/async_message.rs, v4/sync_message.rs). -/
def kind : Interaction → Kind
  | .http _ _ _ => .http
  | .async _ _ => .async
  | .sync _ _ _ => .sync

/-- `V4Pact::to_json` (v4/pact.rs 188-210) with `has_interactions` (v4/pact.rs 79-83) and `has_mixed_interactions`
(v4/pact.rs 85-88). -/
def v4PactToJson (E : FileEnv) (spec : Spec) (p : V4Pact) : Res Json :=
  match spec with
  | .v4 => PactFile.pactToJson E p
  | spec =>
    match p.interactions with
    | [] => httpPactToJson E spec (v4AsHttp p)
    | i :: is =>
      if is.any fun x => !decide (kind x = kind i) then .err
      else match kind i with
        | .http => httpPactToJson E spec (v4AsHttp p)
        | .async => messagePactToJson E spec (v4AsMessages E.P.uc p)
        | .sync => .err

end PactV3
end Verif
