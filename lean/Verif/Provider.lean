import Verif.PactFileV3
import Verif.Verifier

/-
  Model of the requests the verifier sends to the provider and to the state change handler, and of what it makes of the
  answers: rust/pact_verifier/src/provider_client.rs, callback_executors.rs 90-173, messages.rs 29-113 and 253-365,
  lib.rs 165-205, 333-405, 595-631, 689-722, utils.rs 13-66.

  The HTTP client (`reqwest`), the checks of header names, header values and methods (`http`) and the network are
  parameters.  A URL is the text that is handed to the client; headers the client adds of its own accord (`accept`,
  `host`, `content-length`) are left out, and so are logging and the texts of errors.
-/

set_option autoImplicit false

namespace Verif
namespace Provider
open RuleJson Rules Generate Query Headers PactFile

/-! ### Where requests go -/

/-- `struct ProviderTransport` (lib.rs 167-177). -/
structure Transport where
  transport : Str
  port : Option Nat
  path : Option Str
  scheme : Option Str
deriving DecidableEq

/-- `struct ProviderInfo` (lib.rs 203-221) without the name. -/
structure Info where
  protocol : Str
  host : Str
  port : Option Nat
  path : Str
  transports : List Transport

/-- `scheme://host:port/path` (lib.rs 183-186, provider_client.rs 213-216). -/
def urlText (scheme host : Str) (port : Option Nat) (path : Str) : Str :=
  match port with
  | some p => scheme ++ "://".toList ++ host ++ ':' :: natStr p ++ path
  | none => scheme ++ "://".toList ++ host ++ path

/-- `ProviderTransport::base_url` (lib.rs 181-187). -/
def Transport.baseUrl (t : Transport) (host : Str) : Str :=
  urlText (t.scheme.getD "http".toList) host t.port (t.path.getD [])

/-- A transport without a scheme gets `http` (lib.rs 355-364, messages.rs 74-83, 310-319). -/
def withScheme (t : Transport) : Transport :=
  match t.scheme with
  | none => { t with scheme := some "http".toList }
  | some _ => t

/-- The transport of an interaction: the first with the name it gives, or else the first with one of the default names
(lib.rs 344-364, messages.rs 56-83, 299-319). -/
def findTransport (names : List Str) (wanted : Option Str) (ts : List Transport) : Option Transport :=
  (match wanted with
    | some n => ts.find? fun (t : Transport) => decide (t.transport = n)
    | none => ts.find? fun (t : Transport) => names.contains t.transport).map withScheme

/-- The base URL (provider_client.rs 208-217). -/
def baseUrl (info : Info) (t : Option Transport) : Str :=
  match t with
  | some t => t.baseUrl info.host
  | none => urlText info.protocol info.host info.port info.path

/-- `trim_end_matches('/')`. -/
def trimEnd (s : Str) : Str := (s.reverse.dropWhile fun c => decide (c = '/')).reverse

/-- `trim_start_matches('/')`. -/
def trimStart (s : Str) : Str := s.dropWhile fun c => decide (c = '/')

/-- `join_paths` (provider_client.rs 74-85). -/
def joinPaths (base path : Str) : Str :=
  if path ≠ [] ∧ path ≠ ['/'] then trimEnd base ++ '/' :: trimStart path
  else if base ≠ [] ∧ base ≠ ['/'] then trimEnd base
  else ['/']

/-! ### The request as it is sent -/

/-- The checks of the `http` library: the normalised name of a header, and whether a text can be a header value or a
method. -/
structure Lib where
  name : Str → Option Str
  value : Str → Bool
  method : Str → Bool

/-- A request as it is sent. -/
structure Wire where
  method : Str
  url : Str
  query : Str
  headers : HeaderMap
  body : Option Bytes
deriving DecidableEq

/-- A byte in `application/x-www-form-urlencoded` (`form_urlencoded::byte_serialize`). -/
def formByte (b : UInt8) : Str :=
  if b = 32 then ['+']
  else if QS.asciiAlnum (Char.ofNat b.toNat) || b == 42 || b == 45 || b == 46 || b == 95 then [Char.ofNat b.toNat]
  else ['%', digitUp (b.toNat / 16), digitUp (b.toNat % 16)]
where
  /-- An upper case hexadecimal digit. -/
  digitUp (n : Nat) : Char := if n < 10 then Char.ofNat (48 + n) else Char.ofNat (55 + n)

/-- A name or value. -/
def formText (s : Str) : Str := (utf8 s).flatMap formByte

/-- The pairs handed to the client (provider_client.rs 99-104), without those that have no value, which
`serde_urlencoded` leaves out. -/
def queryPairs (q : QueryMap) : List (Str × Str) :=
  (OMap.collect q).flatMap fun e => e.2.filterMap fun v => v.map fun v => (e.1, v)

/-- The query of the URL (`RequestBuilder::query`). -/
def queryText (ps : List (Str × Str)) : Str :=
  QS.joinWith ['&'] (ps.map fun p => formText p.1 ++ '=' :: formText p.2)

/-- `HeaderMap::append`. -/
def appendValue (n v : Str) : HeaderMap → HeaderMap
  | [] => [(n, [v])]
  | e :: es => if e.1 = n then (e.1, e.2 ++ [v]) :: es else e :: appendValue n v es

/-- The values of one header (provider_client.rs 110-117). -/
def sendValues (L : Lib) (k : Str) : List Str → HeaderMap → Res HeaderMap
  | [], m => .ok m
  | v :: vs, m => match L.name k with
    | none => .err
    | some n => if L.value v then sendValues L k vs (appendValue n v m) else .err

/-- The loop over the headers (provider_client.rs 108-119): a header that is also a custom header is left out. -/
def sendHeaders (L : Lib) (custom : List (Str × Str)) : HeaderMap → HeaderMap → Res HeaderMap
  | [], m => .ok m
  | e :: es, m =>
    if (custom.map (·.1)).contains e.1 then sendHeaders L custom es m
    else (sendValues L e.1 e.2 m).bind fun m => sendHeaders L custom es m

/-- The body (provider_client.rs 125-133). -/
def sendBody (E : FileEnv) (r : HttpRequest) : Res (Option Bytes) :=
  match r.body with
  | .present b _ _ => .ok (some b)
  | .null => (calcContentType E r.body r.headers).map fun ct =>
      if (ct.getD .unknown).isJson then some (utf8 "null".toList) else none
  | _ => .ok none

/-- `create_native_request` (provider_client.rs 88-136). -/
def createRequest (E : FileEnv) (L : Lib) (base : Str) (r : HttpRequest) (custom : List (Str × Str)) : Res Wire :=
  (sendHeaders L custom (r.headers.getD []) []).bind fun hs =>
    (sendBody E r).map fun b =>
      { method := if L.method r.method then r.method else "GET".toList
        url := joinPaths base r.path
        query := queryText (queryPairs (r.query.getD []))
        headers := hs
        body := b }

/-! ### The client -/

/-- `setup_custom_headers` (lib.rs 704-722). -/
def customHeaders (L : Lib) : List (Str × Str) → Option (List (Str × Str))
  | [] => some []
  | e :: es => match L.name e.1 with
    | none => none
    | some n => if L.value e.2 then (customHeaders L es).map fun m => (n, e.2) :: m else none

/-- The default headers of the client (`ClientBuilder::default_headers` inserts one by one). -/
def defaults (hs : List (Str × Str)) : List (Str × Str) := hs.foldl (fun m h => insertKV h.1 h.2 m) []

/-- Headers of the client that the request does not have are added when it is sent (`Client::execute`). -/
def withDefaults (ds : List (Str × Str)) (w : Wire) : Wire :=
  { w with headers := w.headers ++ (ds.filter fun d => !(w.headers.map (·.1)).contains d.1).map fun d => (d.1, [d.2]) }

/-! ### The answer -/

/-- An answer: the values of a header are `none` if they are not visible ASCII text; the body is `none` if it could not
be read. -/
structure Reply where
  status : Nat
  headers : List (Str × List (Option Str))
  body : Option Bytes

/-- The provider: what it answers to a request (`none` if it could not be sent). -/
abbrev Net (E : Type) := E → Wire → E × Option Reply

/-- The values of one header (provider_client.rs 141-154). -/
def readValues (uc : UC) (name : Str) (vs : List (Option Str)) : List Str :=
  ((vs.filterMap id).flatMap (QS.parseHeader uc name)).map (trim uc)

/-- `extract_headers` (provider_client.rs 138-161). -/
def extractHeaders (uc : UC) (hs : List (Str × List (Option Str))) : Option HeaderMap :=
  if hs.isEmpty then none else some (hs.map fun e => (e.1, readValues uc e.1 e.2))

/-- `native_response_to_pact_response` and `extract_body` (provider_client.rs 163-190). -/
def readReply (E : FileEnv) (a : Reply) : Res HttpResponse :=
  let hs := extractHeaders E.P.uc a.headers
  match a.body with
  | none => .err
  | some [] => .ok ⟨a.status, hs, .empty, [], []⟩
  | some (b :: bs) => (calcContentType E .missing hs).map fun ct => ⟨a.status, hs, .present (b :: bs) ct none, [], []⟩

/-- What the verifier was told: custom headers and request filter (lib.rs 908-945). -/
structure Opts where
  custom : List (Str × Str)
  filter : Option (HttpRequest → HttpRequest)

/-- The request after the filter (provider_client.rs 197-204). -/
def filtered (o : Opts) (r : HttpRequest) : HttpRequest :=
  match o.filter with
  | some f => f r
  | none => r

/-- `make_provider_request` (provider_client.rs 192-234), with the default headers of the client. -/
def makeRequest {N : Type} (E : FileEnv) (L : Lib) (net : Net N) (o : Opts) (ds : List (Str × Str)) (info : Info)
    (t : Option Transport) (r : HttpRequest) (e : N) : N × List Wire × Res HttpResponse :=
  match createRequest E L (baseUrl info t) (filtered o r) o.custom with
  | .ok w => match net e (withDefaults ds w) with
    | (e, some a) => (e, [withDefaults ds w], readReply E a)
    | (e, none) => (e, [withDefaults ds w], .err)
  | .err => (e, [], .err)
  | .panic => (e, [], .panic)

/-! ### Comparing the answer -/

/-- The result for an interaction. -/
inductive Verdict where
  | passed
  | failed (ms : List MatchResult.MM)
  | error

/-- No mismatches is a success. -/
def verdict (ms : List MatchResult.MM) : Verdict := if ms.isEmpty then .passed else .failed ms

/-- The libraries used to compare. -/
structure Libs where
  file : FileEnv
  http : Lib
  env : Env
  bodies : BodyEnv

/-- A body as it is compared. -/
def asBody : FBody → Body
  | .missing => .missing
  | .empty => .empty
  | .null => .null
  | .present b ct _ => .present b ct

/-- A response as it is compared. -/
def asResponse (r : HttpResponse) : MatchResult.Response := ⟨r.status, ⟨r.headers, asBody r.body⟩, r.rules⟩

/-- The end of the three functions that verify an interaction: an error of the request is an error. -/
def concluded {N : Type} (x : N × List Wire × Res HttpResponse) (f : HttpResponse → Res Verdict) :
    N × List Wire × Res Verdict :=
  match x with
  | (e, t, .ok a) => (e, t, f a)
  | (e, t, .err) => (e, t, .ok .error)
  | (e, t, .panic) => (e, t, .panic)

/-- `verify_response_from_provider` (lib.rs 333-386); `generate` is `generate_request`. -/
def verifyResponse {N : Type} (B : Libs) (net : Net N) (o : Opts) (ds : List (Str × Str)) (info : Info)
    (generate : HttpRequest → HttpRequest) (c : Common) (request : HttpRequest) (response : HttpResponse) (e : N) :
    N × List Wire × Res Verdict :=
  concluded (makeRequest B.file B.http net o ds info (findTransport ["http".toList] c.transport info.transports)
      (generate request) e) fun a =>
    .ok (verdict (MatchResult.matchResponse B.env B.file.P.uc B.bodies (asResponse response) (asResponse a)))

/-! ### Messages -/

/-- The provider states in the description of a message (messages.rs 41-46, 283-288). -/
def statesEntry (ss : List PState) : List (String × Json) :=
  if ss.isEmpty then [] else [("providerStates", .arr (ss.map stateToJson))]

/-- `application/json`. -/
def jsonType : ContentType := ⟨"application".toList, "json".toList, [], none⟩

/-- A request that asks for a message (messages.rs 48-55, 290-297). -/
def messageRequest (body : Json) : HttpRequest :=
  ⟨"POST".toList, "/".toList, none, some [("Content-Type".toList, ["application/json".toList])],
    .present (utf8 body.text) (some jsonType) none, [], []⟩

/-- The description of a message (messages.rs 37-46). -/
def messageBody (description : Str) (ss : List PState) : Json :=
  obj ([("description", .str description)] ++ statesEntry ss)

/-- The name of the header with metadata, in lower case (messages.rs 261). -/
def metadataName : Str := "pact-message-metadata".toList

/-- The metadata in the headers: one header of `extract_metadata` (messages.rs 260-273). -/
def readMetadata (E : FileEnv) (m : Obj) (h : Str × List Str) : Obj :=
  if E.P.uc.lower h.1 = metadataName then
    match E.json ((Base64.decode (h.2.headD [])).getD []) with
    | some (.obj es) => es.foldl (fun m e => OMap.insert e.1 e.2 m) m
    | _ => m
  else m

/-- `extract_metadata` (messages.rs 253-277). -/
def extractMetadata (E : FileEnv) (a : HttpResponse) : Obj :=
  (a.headers.getD []).foldl (readMetadata E)
    [("contentType".toList, .str ((MatchResult.lookupHeaderValue E.P.uc ⟨a.headers, asBody a.body⟩ "content-type".toList).getD []))]

/-- The contents of a message as they are compared (`MessageContents::message_content_type`, message_parts.rs 91-93). -/
def asContents (E : FileEnv) (m : MessageContents) : Res MatchResult.Message :=
  (calcContentType E m.contents (metadataToHeaders m.metadata)).map fun ct => ⟨ct, asBody m.contents, m.metadata, m.rules⟩

/-- A V3 message as it is compared (message.rs 306-313). -/
def asMessage (E : FileEnv) (m : PactV3.Message) : Res MatchResult.Message :=
  asContents E ⟨m.contents, m.metadata, m.rules, m.gens⟩

/-- The answer as a message (messages.rs 87-95, 329-334). -/
def actualContents (E : FileEnv) (a : HttpResponse) : MessageContents := ⟨a.body, extractMetadata E a, [], []⟩

/-- `match_message` (pact_matching/src/lib.rs 2121-2172) for an answer. -/
def matchMessage (B : Libs) (m : PactV3.Message) (a : MessageContents) : Res Verdict :=
  (asMessage B.file m).bind fun e =>
    (asContents B.file { a with metadata := PactV3.withBodyCT a.contents a.metadata }).map fun a =>
      verdict (MatchResult.messageMismatches B.env B.file.P.uc B.bodies e a)

/-- `verify_message_from_provider` (messages.rs 29-113). -/
def verifyMessage {N : Type} (B : Libs) (net : Net N) (o : Opts) (ds : List (Str × Str)) (info : Info)
    (transport : Option Str) (m : PactV3.Message) (e : N) : N × List Wire × Res Verdict :=
  concluded (makeRequest B.file B.http net o ds info
      (findTransport ["message".toList, "async-message".toList] transport info.transports)
      (messageRequest (messageBody m.description m.states)) e) fun a =>
    matchMessage B m (actualContents B.file a)

/-- All contents as they are compared. -/
def asContentsAll (E : FileEnv) : List MessageContents → Res (List MatchResult.Message)
  | [] => .ok []
  | m :: ms => (asContents E m).bind fun x => (asContentsAll E ms).map fun xs => x :: xs

/-- `match_sync_message_response` for an answer. -/
def matchSync (B : Libs) (ms : List MessageContents) (a : MessageContents) : Res Verdict :=
  (asContentsAll B.file ms).bind fun es => (asContents B.file a).map fun a =>
    verdict (MatchResult.matchSyncResponses B.env B.file.P.uc B.bodies es [a])

/-- The description of a synchronous message (messages.rs 278-288). -/
def syncBody (E : FileEnv) (c : Common) (request : MessageContents) : Res Json :=
  (messageToJson E request).map fun r => obj ([("description", .str c.description), ("request", r)] ++ statesEntry c.states)

/-- What is done with the answer (messages.rs 327-357): `HttpResponse::is_success` (v4/http_parts.rs 568-571). -/
def concludeSync (B : Libs) (responses : List MessageContents) (a : HttpResponse) : Res Verdict :=
  if a.status < 400 then matchSync B responses (actualContents B.file a) else .ok .error

/-- `verify_sync_message_from_provider` (messages.rs 279-365). -/
def verifySync {N : Type} (B : Libs) (net : Net N) (o : Opts) (ds : List (Str × Str)) (info : Info) (c : Common)
    (request : MessageContents) (responses : List MessageContents) (e : N) : N × List Wire × Res Verdict :=
  match syncBody B.file c request with
  | .ok j => concluded (makeRequest B.file B.http net o ds info
      (findTransport ["message".toList, "sync-message".toList] c.transport info.transports) (messageRequest j) e)
      (concludeSync B responses)
  | .err => (e, [], .ok .error)
  | .panic => (e, [], .panic)

/-- `verify_v3_interaction` (lib.rs 595-631). -/
def verifyOne {N : Type} (B : Libs) (net : Net N) (o : Opts) (ds : List (Str × Str)) (info : Info)
    (generate : HttpRequest → HttpRequest) (i : Interaction) (e : N) : N × List Wire × Res Verdict :=
  match i with
  | .http c request response => verifyResponse B net o ds info generate c request response e
  | .async c m => match PactV3.asMessage B.file.P.uc (.async c m) with
    | some x => verifyMessage B net o ds info c.transport x e
    | none => (e, [], .ok .error)
  | .sync c request responses => verifySync B net o ds info c request responses e

/-! ### State changes -/

/-- `struct HttpRequestProviderStateExecutor` (callback_executors.rs 92-103). -/
structure Executor where
  url : Option Str
  teardown : Bool
  body : Bool
  retries : Nat

/-- The action (callback_executors.rs 131-135, 142-146). -/
def action (setup : Bool) : Str := if setup then "setup".toList else "teardown".toList

/-- The query of a state change (callback_executors.rs 141-152). -/
def stateQuery (s : PState) (setup : Bool) : QueryMap :=
  s.params.foldl (fun m e => insertKV e.1 [some (textOf e.2)] m)
    (insertKV "action".toList [some (action setup)] [("state".toList, [some s.name])])

/-- The body of a state change (callback_executors.rs 128-136). -/
def stateBody (s : PState) (setup : Bool) : Json :=
  obj [("state", .str s.name), ("params", .obj (OMap.collect s.params)), ("action", .str (action setup))]

/-- The request for a state change (callback_executors.rs 126-154). -/
def stateRequest (x : Executor) (s : PState) (setup : Bool) : HttpRequest :=
  if x.body then
    ⟨"POST".toList, "/".toList, none, some [("Content-Type".toList, ["application/json".toList])],
      .present (utf8 (stateBody s setup).text) (some jsonType) none, [], []⟩
  else ⟨"POST".toList, "/".toList, some (stateQuery s setup), none, .missing, [], []⟩

/-- A server error. -/
def serverError : Option Reply → Bool
  | some a => 500 ≤ a.status && a.status < 600
  | none => false

/-- `with_retries` (utils.rs 13-66) after the first attempt: `n` more attempts. -/
def again {N : Type} (net : Net N) (w : Wire) : Nat → N → Option Reply → N × List Wire × Option Reply
  | 0, e, a => (e, [], a)
  | n + 1, e, a =>
    if serverError a then
      match net e w with
      | (e, a) => match again net w n e a with
        | (e, t, a) => (e, w :: t, a)
    else (e, [], a)

/-- `with_retries` (utils.rs 13-66); the result of no attempts at all is unwrapped (63). -/
def withRetries {N : Type} (net : Net N) (retries : Nat) (w : Wire) (e : N) : N × List Wire × Res (Option Reply) :=
  match retries with
  | 0 => (e, [], .panic)
  | n + 1 => match net e w with
    | (e, a) => match again net w n e a with
      | (e, t, a) => (e, w :: t, .ok a)

/-- The values in the body of an answer (provider_client.rs 254-275). -/
def stateValues (E : FileEnv) (a : Reply) : Res Obj :=
  match a.headers.find? fun h => decide (h.1 = "content-type".toList) with
  | none => .ok []
  | some (_, vs) => match E.parseCT ((vs.headD none).getD []) with
    | none => .ok []
    | some ct => if ct.isJson then
        match a.body with
        | none => .err
        | some b => match E.json b with
          | some (.obj es) => .ok es
          | _ => .ok []
      else .ok []

/-- What is made of the answer (provider_client.rs 250-283). -/
def readState (E : FileEnv) : Option Reply → Res Obj
  | none => .err
  | some a => if 200 ≤ a.status ∧ a.status < 300 then stateValues E a else .err

/-- `make_state_change_request` (provider_client.rs 238-285). -/
def stateChangeRequest {N : Type} (E : FileEnv) (L : Lib) (net : Net N) (ds : List (Str × Str)) (url : Str)
    (r : HttpRequest) (retries : Nat) (e : N) : N × List Wire × Res Obj :=
  match createRequest E L url r [] with
  | .ok w => match withRetries net retries (withDefaults ds w) e with
    | (e, t, a) => (e, t, a.bind (readState E))
  | .err => (e, [], .err)
  | .panic => (e, [], .panic)

/-- `HttpRequestProviderStateExecutor::call` (callback_executors.rs 117-165). -/
def changeState {N : Type} (E : FileEnv) (L : Lib) (net : Net N) (ds : List (Str × Str)) (x : Executor)
    (s : PState) (setup : Bool) (e : N) : N × List Wire × Res Obj :=
  match x.url with
  | some url => stateChangeRequest E L net ds url (stateRequest x s setup) x.retries e
  | none => (e, [], .ok [])

/-! ### The world of the verifier -/

/-- The state of the provider, the requests that were sent and whether there was a panic. -/
structure Log (N : Type) where
  state : N
  sent : List Wire
  panicked : Bool

/-- Carry out a step; after a panic nothing is done. -/
def Log.step {N A : Type} (l : Log N) (f : N → N × List Wire × Res A) : Log N × Option A :=
  if l.panicked then (l, none)
  else match f l.state with
    | (e, t, .ok a) => (⟨e, l.sent ++ t, false⟩, some a)
    | (e, t, .err) => (⟨e, l.sent ++ t, false⟩, none)
    | (e, t, .panic) => (⟨e, l.sent ++ t, true⟩, none)

/-- Whether an interaction was verified. -/
def isPassed : Option Verdict → Bool
  | some .passed => true
  | _ => false

/-- What the verifier (`Verifier.World`) does through HTTP: `execute_state_change` (lib.rs 389-405) with the executor, and
`verify_v3_interaction`; `find` gives the whole interaction and `generate` is `generate_request` for a context. -/
def httpWorld {N : Type} (B : Libs) (net : Net N) (o : Opts) (ds : List (Str × Str)) (info : Info) (x : Executor)
    (generate : Obj → HttpRequest → HttpRequest) (find : Verifier.Ixn → Interaction) : Verifier.World (Log N) where
  change := fun l setup s => l.step (changeState B.file B.http net ds x ⟨s.name, s.params⟩ setup)
  verify := fun l i context => ((l.step (verifyOne B net o ds info (generate context) (find i))).1,
    isPassed (l.step (verifyOne B net o ds info (generate context) (find i))).2)
  teardown := x.teardown
  client := (customHeaders B.http o.custom).isSome

end Provider
end Verif
