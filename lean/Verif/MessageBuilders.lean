import Verif.Builders
import Verif.InteractionOps

/-
  Model of the consumer builders for messages: rust/pact_consumer/src/builders/message_builder.rs and
  sync_message_builder.rs.

  Not modelled: plugins (`contents_for_plugin`, content matchers of plugins in `contents_from`, plugin configuration and
  markup).  Converting to `String`, `Bytes` and `Value` is left to the caller.
-/

set_option autoImplicit false

namespace Verif
namespace MessageBuilders
open Path Rules RuleJson Generate PactFile Parts Patterns Builders

/-! ### The contents of a message -/

/-- `struct InteractionContents` (message_builder.rs 56-84) without the name of the part and what only plugins set. -/
structure Contents where
  body : FBody
  rules : Option RuleCategory
  gens : Option Generators
  metadata : Option Obj
  metaRules : Option RuleCategory

/-- `InteractionContents::default()` (message_builder.rs 54). -/
def contents0 : Contents := ⟨.missing, none, none, none, none⟩

/-- The calls on the contents of a message and of the request of a synchronous message: `metadata`, `json_body`, `body`
(message_builder.rs 187-192, 424-440, 442-461; sync_message_builder.rs 122-127, 418-434, 436-454) and, for the request only,
`request_contents` (457-477). -/
inductive MsgCall where
  | metadata (key : Str) (value : Json)
  | jsonBody (p : Pattern)
  | body (bytes : Bytes) (contentType : Option Str)
  | contents (c : MessageContents)

/-- The body and rules of a JSON pattern (message_builder.rs 427-430). -/
def jsonContents (parseCT : Str → Option ContentType) (p : Pattern) : FBody × RuleCategory :=
  (.present (utf8 (toExample p).text) (some (typeOf parseCT "application/json".toList)) none,
    extract rootPath p (emptyCat .body))

/-- The rules with those of a pattern added (message_builder.rs 431-437). -/
def addPattern (rules : RuleCategory) : Option RuleCategory → Option RuleCategory
  | none => if rules.rules.isEmpty then none else some rules
  | some mr => if rules.rules.isEmpty then some mr else some (addRules mr rules)

/-- The body of bytes with an optional content type (message_builder.rs 443-447). -/
def bytesBody (parseCT : Str → Option ContentType) (b : Bytes) (ct : Option Str) : FBody := .present b (ct.map (typeOf parseCT)) none

/-- `contentType` is set to the content type if it is not there (message_builder.rs 451-458). -/
def putContentType (ct : Option Str) (m : Obj) : Obj :=
  match ct with
  | some c => updEntry "contentType".toList (fun old => old.getD (.str c)) m
  | none => m

/-- `metadata.extend(..)` (sync_message_builder.rs 460). -/
def extend (m new : Obj) : Obj := new.foldl (fun m e => updEntry e.1 (fun _ => e.2) m) m

/-- The rules with those of a category of other contents added (sync_message_builder.rs 462-470). -/
def addCategoryOf (c : Category) (rules : MatchingRules) (old : Option RuleCategory) : Option RuleCategory :=
  match rulesForCategory rules c with
  | some cat => some (addRules (old.getD (emptyCat c)) cat)
  | none => old

/-- One call on the contents. -/
def msgStep (parseCT : Str → Option ContentType) (c : MsgCall) (s : Contents) : Contents :=
  match c with
  | .metadata k v => { s with metadata := some (updEntry k (fun _ => v) (s.metadata.getD [])) }
  | .jsonBody p => { s with
      body := (jsonContents parseCT p).1
      rules := addPattern (jsonContents parseCT p).2 s.rules }
  | .body b ct => { s with
      body := bytesBody parseCT b ct
      metadata := some (putContentType ct (s.metadata.getD [])) }
  | .contents c => { s with
      body := c.contents
      metadata := some (extend (s.metadata.getD []) c.metadata)
      rules := addCategoryOf .body c.rules s.rules
      metaRules := addCategoryOf .metadata c.rules s.metaRules
      gens := some (Ops.addGens (s.gens.getD []) c.gens) }

/-- `OptionalBody::from(&Value)` (bodies.rs 236-242), followed by `set_content_type` if a content type is given
(sync_message_builder.rs 299-302). -/
def valueBody (parseCT : Str → Option ContentType) (ct : Option ContentType) (j : Json) : FBody :=
  .present (utf8 j.text) (some (ct.getD (typeOf parseCT "application/json;charset=UTF-8".toList))) none

/-- The content type of `contents_from` (message_builder.rs 290-291, sync_message_builder.rs 214-215): `unwrap` aborts. -/
def givenType (parseCT : Str → Option ContentType) (m : Obj) : Res (Option ContentType) :=
  match RuleJson.get "pact:content-type" m with
  | some v => match parseCT v.toStr with
    | some t => .ok (some t)
    | none => .panic
  | none => .ok none

/-- `contents_from` of a message (message_builder.rs 283-356, 365-378) when no plugin matches the content type. -/
def contentsFrom (parseCT : Str → Option ContentType) (j : Json) : Res Contents :=
  (givenType parseCT (paramsOf j)).map fun
    | some t => { contents0 with body := match RuleJson.get "contents" (paramsOf j) with
        | some c => .present (utf8 c.text) (some t) none
        | none => .missing }
    | none => { contents0 with body := valueBody parseCT none (.obj (paramsOf j)) }

/-- The rules of the built contents (message_builder.rs 212-214; sync_message_builder.rs 133-137, 170-174). -/
def bodyRules (s : Contents) : RuleCategory := addRules (emptyCat .body) (s.rules.getD (emptyCat .body))
/-- The rules for the metadata (sync_message_builder.rs 136-137). -/
def metadataRules (s : Contents) : RuleCategory := addRules (emptyCat .metadata) (s.metaRules.getD (emptyCat .body))

/-! ### The fields of the interaction -/

/-- The calls for the fields (message_builder.rs 144-182, 196-206; sync_message_builder.rs 65-118). -/
inductive InfoCall where
  | withKey (k : Str)
  | pending (b : Bool)
  | given (s : Str)
  | givenWithParams (s : Str) (params : Json)
  | comment (t : Str)
  | testName (n : Str)

/-- One call on the fields (message_builder.rs 144-182, 196-206; sync_message_builder.rs 65-118). -/
def infoStep (c : InfoCall) (m : Meta) : Meta :=
  match c with
  | .withKey k => { m with key := some k }
  | .pending b => { m with pending := some b }
  | .given s => { m with states := m.states ++ [PState.mk s []] }
  | .givenWithParams s ps => { m with states := m.states ++ [PState.mk s (paramsOf ps)] }
  | .comment t => { m with comments := m.comments ++ [t] }
  | .testName n => { m with testName := some n }

/-- The fields of a new builder (message_builder.rs 128-140, sync_message_builder.rs 48-61). -/
def info0 (description : Str) : Meta := ⟨description, [], [], none, none, none, none⟩

/-- The fields of the built interaction (message_builder.rs 237-257, sync_message_builder.rs 157-162, 180-188). -/
def commonOf (m : Meta) : Common :=
  { id := none, key := m.key, description := m.description, states := m.states,
    comments := [("text".toList, .arr (m.comments.map .str)), ("testname".toList, nameJson m.testName)],
    pending := m.pending.getD false, plugins := [], markup := Markup.mk [] [], transport := none }

/-! ### Asynchronous messages -/

/-- The calls of `MessageInteractionBuilder`. -/
inductive AsyncCall where
  | info (c : InfoCall)
  | metadata (key : Str) (value : Json)
  | jsonBody (p : Pattern)
  | body (bytes : Bytes) (contentType : Option Str)
  | contentsFrom (j : Json)

/-- `struct MessageInteractionBuilder` (message_builder.rs 112-123). -/
structure AsyncBuilder where
  info : Meta
  contents : Contents

/-- One call. -/
def asyncStep (parseCT : Str → Option ContentType) (c : AsyncCall) (b : AsyncBuilder) : Res AsyncBuilder :=
  match c with
  | .info c => .ok { b with info := infoStep c b.info }
  | .metadata k v => .ok { b with contents := msgStep parseCT (.metadata k v) b.contents }
  | .jsonBody p => .ok { b with contents := msgStep parseCT (.jsonBody p) b.contents }
  | .body x ct => .ok { b with contents := msgStep parseCT (.body x ct) b.contents }
  | .contentsFrom j => (contentsFrom parseCT j).map fun s => { b with contents := s }

/-- The calls, one after the other. -/
def asyncRun (parseCT : Str → Option ContentType) : List AsyncCall → AsyncBuilder → Res AsyncBuilder
  | [], b => .ok b
  | c :: cs, b => (asyncStep parseCT c b).bind fun b => asyncRun parseCT cs b

/-- The contents of the built message (message_builder.rs 234-247). -/
def asyncContents (s : Contents) : MessageContents :=
  ⟨s.body, s.metadata.getD [], [(.body, bodyRules s)], s.gens.getD []⟩

/-- `new`, the calls and `build` (message_builder.rs 209-258). -/
def buildAsync (parseCT : Str → Option ContentType) (description : Str) (cs : List AsyncCall) : Res Interaction :=
  (asyncRun parseCT cs ⟨info0 description, contents0⟩).map fun b => .async (commonOf b.info) (asyncContents b.contents)

/-- `new`, the calls and `build_v3` (message_builder.rs 261-280). -/
def buildV3 (parseCT : Str → Option ContentType) (description : Str) (cs : List AsyncCall) : Res PactV3.Message :=
  (asyncRun parseCT cs ⟨info0 description, contents0⟩).map fun b =>
    let c := asyncContents b.contents
    { id := none, description := b.info.description, states := b.info.states, contents := c.contents, metadata := c.metadata,
      rules := c.rules, gens := c.gens }

/-! ### Synchronous messages -/

/-- The calls of `SyncMessageInteractionBuilder`. -/
inductive SyncCall where
  | info (c : InfoCall)
  | request (c : MsgCall)
  | responseJson (p : Pattern)
  | responseBody (bytes : Bytes) (contentType : Option Str)
  | responseContents (c : MessageContents)
  | contentsFrom (j : Json)

/-- `struct SyncMessageInteractionBuilder` (sync_message_builder.rs 31-44). -/
structure SyncBuilder where
  info : Meta
  request : Contents
  responses : List Contents

/-- `response_json_body` (sync_message_builder.rs 490-504). -/
def responseJson (parseCT : Str → Option ContentType) (p : Pattern) : Contents :=
  { contents0 with
    body := (jsonContents parseCT p).1
    rules := addPattern (jsonContents parseCT p).2 none }

/-- `response_body` (sync_message_builder.rs 508-532); the key begins with a blank. -/
def responseBody (parseCT : Str → Option ContentType) (b : Bytes) (ct : Option Str) : Contents :=
  { contents0 with
    body := bytesBody parseCT b ct
    metadata := some (match ct with
      | some c => [(" contentType".toList, .str c)]
      | none => []) }

/-- `response_contents` (sync_message_builder.rs 536-551). -/
def responseContents (c : MessageContents) : Contents :=
  ⟨c.contents, rulesForCategory c.rules .body, some c.gens, some c.metadata, rulesForCategory c.rules .metadata⟩

/-- The responses of `contents_from` (sync_message_builder.rs 308-333). -/
def responsesFrom (parseCT : Str → Option ContentType) (ct : Option ContentType) : Option Json → List Contents
  | some (.arr rs) => rs.map fun r => { contents0 with body := valueBody parseCT ct r }
  | some r => [{ contents0 with body := valueBody parseCT ct r }]
  | none => []

/-- `contents_from` (sync_message_builder.rs 207-270, 291-333) when no plugin matches the content type. -/
def syncContentsFrom (parseCT : Str → Option ContentType) (j : Json) (b : SyncBuilder) : Res SyncBuilder :=
  (givenType parseCT (paramsOf j)).map fun ct =>
    { b with
      request := match RuleJson.get "request" (paramsOf j) with
        | some r => { contents0 with body := valueBody parseCT ct r }
        | none => b.request
      responses := b.responses ++ responsesFrom parseCT ct (RuleJson.get "response" (paramsOf j)) }

/-- One call. -/
def syncStep (parseCT : Str → Option ContentType) (c : SyncCall) (b : SyncBuilder) : Res SyncBuilder :=
  match c with
  | .info c => .ok { b with info := infoStep c b.info }
  | .request c => .ok { b with request := msgStep parseCT c b.request }
  | .responseJson p => .ok { b with responses := b.responses ++ [responseJson parseCT p] }
  | .responseBody x ct => .ok { b with responses := b.responses ++ [responseBody parseCT x ct] }
  | .responseContents c => .ok { b with responses := b.responses ++ [responseContents c] }
  | .contentsFrom j => syncContentsFrom parseCT j b

/-- The calls, one after the other. -/
def syncRun (parseCT : Str → Option ContentType) : List SyncCall → SyncBuilder → Res SyncBuilder
  | [], b => .ok b
  | c :: cs, b => (syncStep parseCT c b).bind fun b => syncRun parseCT cs b

/-- The built contents (sync_message_builder.rs 163-179); the generators of the responses are those of the request. -/
def syncContents (request s : Contents) : MessageContents :=
  ⟨s.body, s.metadata.getD [], [(.body, bodyRules s), (.metadata, metadataRules s)], request.gens.getD []⟩

/-- `new`, the calls and `build` (sync_message_builder.rs 130-191). -/
def buildSync (parseCT : Str → Option ContentType) (description : Str) (cs : List SyncCall) : Res Interaction :=
  (syncRun parseCT cs ⟨info0 description, contents0, []⟩).map fun b =>
    .sync (commonOf b.info) (syncContents b.request b.request) (b.responses.map (syncContents b.request))

end MessageBuilders
end Verif
