import Verif.PactFile
import Verif.Verifier

/-
  Model of the client for Pact Brokers, rust/pact_verifier/src/pact_broker.rs (links 28-190, the HAL client 201-518,
  validation errors 520-544, fetching pacts 578-776, publishing results 812-1025), of the retries (utils.rs 13-66), and of its
  use in lib.rs (fetch_pact 1260-1345, publish_to_broker 1603-1638).

  The broker is the environment: it has a state of any type and may answer anything (`Net`).  The `url` crate, JSON parsing
  and loading a pact are parameters (`Lib`).  Left out: authentication and other headers of the requests, log output, messages
  of errors (only the kind is kept, and the texts of validation errors), waiting between retries, and failures while the
  body of an answer is downloaded, which are a body that is not JSON here.
-/

set_option autoImplicit false

namespace Verif
namespace Broker
open RuleJson PactFile

/-! ### Links -/

/-- `enum PactBrokerError` (pact_broker.rs 72-93). -/
inductive Err where
  | link
  | content
  | io
  | notFound
  | url
  | validation (errors : List Str)
deriving DecidableEq, Repr

/-- `struct Link` (pact_broker.rs 130-142). -/
structure Link where
  name : Str
  href : Option Str
  templated : Bool
  title : Option Str
deriving DecidableEq, Repr

/-- What the client takes from elsewhere. -/
structure Lib where
  /-- `reqwest::Url`. -/
  U : Type
  /-- `str::parse::<Url>`. -/
  parseUrl : Str → Option U
  /-- `Url::path`. -/
  path : U → Str
  /-- `Url::join`. -/
  join : U → Str → Option U
  /-- `Url::set_path`. -/
  setPath : U → Str → U
  /-- `\w` of regular expressions. -/
  word : Char → Bool
  /-- `str::to_lowercase`. -/
  lower : Str → Str

/-- `is_true` (pact_broker.rs 28-36). -/
def isTrue (m : Obj) (k : String) : Bool :=
  match get k m with
  | some (.bool b) => b
  | _ => false

/-- `as_string` (pact_broker.rs 38-43). -/
def asString : Json → Str
  | .str s => s
  | j => j.text

/-- `find_entry` (pact_broker.rs 65-70): the value; the first key in the order of the object. -/
def findEntry (lower : Str → Str) (k : Str) (m : Obj) : Option Json :=
  (m.find? fun e => decide (lower e.1 = lower k)).map (·.2)

/-- `Link::from_json` (pact_broker.rs 147-155). -/
def Link.fromJson (lower : Str → Str) (name : Str) (m : Obj) : Link :=
  ⟨name, (findEntry lower "href".toList m).map asString, isTrue m "templated", (get "title" m).map asString⟩

/-- `Link::as_json` (pact_broker.rs 158-177). -/
def Link.asJson (l : Link) : Json :=
  match l.href, l.title with
  | some h, some t => obj [("href", .str h), ("title", .str t), ("templated", .bool l.templated)]
  | some h, none => obj [("href", .str h), ("templated", .bool l.templated)]
  | none, some t => obj [("title", .str t), ("templated", .bool l.templated)]
  | none, none => obj [("templated", .bool l.templated)]

/-- A link of an unexpected form (pact_broker.rs 446-447, 568): `href` is the text itself, or nothing. -/
def plainLink (name : Str) (href : Option Str) : Link := ⟨name, href, false, none⟩

/-- `links_from_json` (pact_broker.rs 562-575). -/
def linksFromJson (lower : Str → Str) (j : Json) : List Link :=
  match vget "_links" j with
  | some (.obj m) => m.map fun e => match e.2 with
    | .obj a => Link.fromJson lower e.1 a
    | _ => plainLink e.1 none
  | _ => []

/-- `find_link` (pact_broker.rs 240-257). -/
def findLink (lower : Str → Str) (info : Option Json) (name : String) : Except Err Link :=
  match info with
  | none => .error .link
  | some j => match vget "_links" j with
    | some ls => match vget name ls with
      | some (.obj m) => .ok (Link.fromJson lower name.toList m)
      | _ => .error .link
    | none => .error .link

/-- One item of a list of links (pact_broker.rs 444-448). -/
def itemLink (lower : Str → Str) (name : Str) : Json → Link
  | .obj m => Link.fromJson lower name m
  | .str s => plainLink name (some s)
  | j => plainLink name (some j.text)

/-- `iter_links` (pact_broker.rs 437-458). -/
def iterLinks (lower : Str → Str) (info : Option Json) (name : String) : Except Err (List Link) :=
  match info with
  | none => .error .link
  | some j => match vget "_links" j with
    | some ls => match vget name ls with
      | some (.arr xs) => .ok (xs.map (itemLink lower name.toList))
      | _ => .error .link
    | none => .error .link

/-! ### Templates -/

/-- A character `urlencoding::encode` keeps. -/
def unreserved (b : UInt8) : Bool :=
  (48 ≤ b && b ≤ 57) || (65 ≤ b && b ≤ 90) || (97 ≤ b && b ≤ 122) || b == 45 || b == 95 || b == 46 || b == 126

/-- A hexadecimal digit in upper case. -/
def hexChar (n : Nat) : Char := if n < 10 then Char.ofNat (48 + n) else Char.ofNat (55 + n)

/-- One byte of `urlencoding::encode`. -/
def encodeByte (b : UInt8) : Str :=
  if unreserved b then [Char.ofNat b.toNat] else ['%', hexChar (b.toNat / 16), hexChar (b.toNat % 16)]

/-- `urlencoding::encode`. -/
def encode (s : Str) : Str := (utf8 s).flatMap encodeByte

/-- The template values, a hash map. -/
abbrev Values := List (Str × Str)

/-- The replacement of a variable (pact_broker.rs 416-424). -/
def valueOf (vs : Values) (n : Str) : Str :=
  match vs.find? fun e => decide (e.1 = n) with
  | some e => encode e.2
  | none => '{' :: (n ++ ['}'])

/-- A match of `\{(\w+)}` at the start: the name and the rest. -/
def variable? (word : Char → Bool) : Str → Option (Str × Str)
  | '{' :: s => match s.dropWhile word with
    | '}' :: rest => if (s.takeWhile word).isEmpty then none else some (s.takeWhile word, rest)
    | _ => none
  | _ => none

/-- `Regex::replace_all` (pact_broker.rs 415-425), with the number of characters to go as a bound. -/
def expandF (word : Char → Bool) (vs : Values) : Nat → Str → Str
  | 0, _ => []
  | _ + 1, [] => []
  | n + 1, c :: s => match variable? word (c :: s) with
    | some (name, rest) => valueOf vs name ++ expandF word vs n rest
    | none => c :: expandF word vs n s

def expand (word : Char → Bool) (vs : Values) (s : Str) : Str := expandF word vs s.length s

/-- `parse_link_url` (pact_broker.rs 411-434). -/
def parseLinkUrl (L : Lib) (l : Link) (vs : Values) : Except Err Str :=
  match l.href with
  | some h => .ok (expand L.word vs h)
  | none => .error .link

/-! ### Requests -/

/-- The methods that are used. -/
inductive Method where
  | get
  | post
  | put
deriving DecidableEq, Repr

/-- A request to the broker. -/
structure Sent (U : Type) where
  method : Method
  url : U
  body : Str

/-- An answer: its status, whether its content type is JSON or HAL (pact_broker.rs 52-63), and its body if that is JSON. -/
structure Answer where
  status : Nat
  isJson : Bool
  json : Option Json

/-- The broker: what it answers to a request (`none` if the request could not be sent). -/
abbrev Net (U E : Type) := E → Sent U → E × Option Answer

/-- A computation that sends requests: the new state of the broker, the requests and the result. -/
abbrev Io (U E A : Type) := E → E × List (Sent U) × Except Err A

section
variable {U E A B : Type}

/-- A result without requests. -/
def done (r : Except Err A) : Io U E A := fun e => (e, [], r)

/-- `?`, `.await`. -/
def Io.bind (m : Io U E A) (f : A → Io U E B) : Io U E B := fun e =>
  match m e with
  | (e, t, .ok a) => match f a e with
    | (e, t', r) => (e, t ++ t', r)
  | (e, t, .error x) => (e, t, .error x)

end

/-- A server error. -/
def serverError : Option Answer → Bool
  | some a => 500 ≤ a.status && a.status < 600
  | none => false

/-- `with_retries` (utils.rs 13-66) after the first attempt: `n` more attempts. -/
def again {U E : Type} (net : Net U E) (s : Sent U) : Nat → E → Option Answer → E × List (Sent U) × Option Answer
  | 0, e, a => (e, [], a)
  | n + 1, e, a =>
    if serverError a then
      match net e s with
      | (e, a) => match again net s n e a with
        | (e, t, a) => (e, s :: t, a)
    else (e, [], a)

/-- `with_retries` (utils.rs 13-66); `none` is the panic for no attempts at all (`unwrap`, 63). -/
def withRetries {U E : Type} (net : Net U E) (retries : Nat) (s : Sent U) (e : E) :
    Option (E × List (Sent U) × Option Answer) :=
  match retries with
  | 0 => none
  | n + 1 => match net e s with
    | (e, a) => match again net s n e a with
      | (e, t, a) => some (e, s :: t, a)

/-- One error of a field (pact_broker.rs 526-530). -/
def fieldError (e : Str × Json) : Str :=
  match e.2 with
  | .str s => e.1 ++ [':', ' '] ++ s
  | .arr xs => e.1 ++ [':', ' '] ++ MatchResult.joinStr [',', ' '] (xs.map Json.toStr)
  | j => e.1 ++ [':', ' '] ++ j.text

/-- `handle_validation_errors` (pact_broker.rs 520-544). -/
def validationErrors (j : Json) : List Str :=
  match j with
  | .obj m => match get "errors" m with
    | some (.arr xs) => xs.map Json.toStr
    | some (.obj es) => es.map fieldError
    | some (.str s) => [s]
    | some x => [x.text]
    | none => [j.text]
  | .str s => [s]
  | j => [j.text]

/-- `parse_broker_response` (pact_broker.rs 348-409). -/
def parseAnswer (a : Answer) : Except Err Json :=
  if 200 ≤ a.status && a.status < 300 then
    if a.isJson then
      match a.json with
      | some j => .ok j
      | none => .error .content
    else .error .content
  else if a.status = 404 then .error .notFound
  else if a.status = 400 then
    if a.isJson then
      match a.json with
      | some j => .error (.validation (validationErrors j))
      | none => .error .content
    else .error .io
  else .error .io

/-- Sending a request with three attempts (`retries: 3`, pact_broker.rs 557) and reading the answer. -/
def request {U E : Type} (net : Net U E) (s : Sent U) : Io U E Json := fun e =>
  match withRetries net 3 s e with
  | some (e, t, some a) => (e, t, parseAnswer a)
  | some (e, t, none) => (e, t, .error .io)
  | none => (e, [], .error .io)

variable (L : Lib) {E : Type} (net : Net L.U E)

/-- An URL that may not be one. -/
def orUrl {A : Type} : Option A → Except Err A
  | some a => .ok a
  | none => .error .url

/-- `resolve_path` (pact_broker.rs 321-346). -/
def resolvePath (base path : Str) : Except Err L.U :=
  match L.parseUrl base with
  | none => .error .url
  | some u =>
    if path.isEmpty then .ok u
    else if !(L.path u).isEmpty && !decide (L.path u = ['/']) then
      if (L.path u).isPrefixOf path then orUrl (L.join (L.setPath u ['/']) path)
      else if path.head? = some '/' then .ok (L.setPath u path)
      else orUrl (L.join (L.setPath u (L.path u ++ ['/'])) path)
    else orUrl (L.join u path)

/-- `fetch` (pact_broker.rs 292-319). -/
def fetch (base path : Str) : Io L.U E Json :=
  Io.bind (done (resolvePath L base path)) fun u => request net ⟨.get, u, []⟩

/-- The URL of a link (pact_broker.rs 277-286). -/
def linkText (l : Link) (vs : Values) : Except Err Str :=
  if l.templated then parseLinkUrl L l vs
  else match l.href with
    | some h => .ok h
    | none => .error .link

/-- Its path on the broker (pact_broker.rs 287-288): only the path is kept. -/
def linkPath (base : Str) (t : Str) : Except Err Str :=
  match L.parseUrl base with
  | none => .error .url
  | some u => match L.join u t with
    | some v => .ok (L.path v)
    | none => .error .url

/-- `fetch_url` (pact_broker.rs 270-290). -/
def fetchUrl (base : Str) (l : Link) (vs : Values) : Io L.U E Json :=
  Io.bind (done (linkText L l vs)) fun t => Io.bind (done (linkPath L base t)) fun p => fetch L net base p

/-- `fetch_link` (pact_broker.rs 259-267). -/
def fetchLink (base : Str) (info : Option Json) (name : String) (vs : Values) : Io L.U E Json :=
  Io.bind (done (findLink L.lower info name)) fun l => fetchUrl L net base l vs

/-- `navigate` (pact_broker.rs 220-238): the new document. -/
def navigate (base : Str) (info : Option Json) (name : String) (vs : Values) : Io L.U E Json :=
  match info with
  | some j => fetchLink L net base (some j) name vs
  | none => Io.bind (fetch L net base []) fun j => fetchLink L net base (some j) name vs

/-- The URL a document is sent to (pact_broker.rs 475-481). -/
def sendUrl (base url : Str) : Except Err L.U :=
  match L.parseUrl base with
  | none => .error .url
  | some u =>
    if url.head? = some '/' then orUrl (L.join u url)
    else match L.parseUrl url with
      | none => .error .url
      | some v => orUrl (L.join u (L.path v))

/-- `send_document` (pact_broker.rs 472-508). -/
def sendDocument (base url : Str) (body : Str) (m : Method) : Io L.U E Json :=
  Io.bind (done (sendUrl L base url)) fun u => request net ⟨m, u, body⟩

/-- `with_doc_context` (pact_broker.rs 510-517). -/
def docContext (ls : List Link) : Json := obj [("_links", .obj (OMap.collect (ls.map fun l => (l.name, l.asJson))))]

/-! ### Publishing -/

/-- `enum Mismatch` (pact_matching/src/lib.rs 890-980): the attributes that are published. -/
inductive Mis where
  | method (expected actual : Str)
  | path (mismatch : Str)
  | status (mismatch : Str)
  | query (parameter mismatch : Str)
  | header (key mismatch : Str)
  | bodyType (expected actual : Str)
  | body (path mismatch : Str)
  | metadata (key mismatch : Str)
deriving DecidableEq, Repr

/-- `Result<(), MismatchResult>` of an interaction. -/
inductive Verdict where
  | passed
  | mismatches (ms : List Mis)
  | error (message : Str)
deriving DecidableEq, Repr

/-- `struct VerificationInteractionResult` (verification_result.rs 12-28). -/
structure Result where
  id : Option Str
  description : Str
  verdict : Verdict

/-- A mismatch (pact_broker.rs 884-923). -/
def misJson : Mis → Json
  | .method e a => obj [("attribute", .str "method".toList), ("description",
      .str ("Expected method of ".toList ++ e ++ " but received ".toList ++ a))]
  | .path m => obj [("attribute", .str "path".toList), ("description", .str m)]
  | .status m => obj [("attribute", .str "status".toList), ("description", .str m)]
  | .query p m => obj [("attribute", .str "query".toList), ("identifier", .str p), ("description", .str m)]
  | .header k m => obj [("attribute", .str "header".toList), ("identifier", .str k), ("description", .str m)]
  | .bodyType e a => obj [("attribute", .str "body".toList), ("identifier", .str ['$']), ("description",
      .str ("Expected body type of '".toList ++ e ++ "' but received '".toList ++ a ++ ['\'']))]
  | .body p m => obj [("attribute", .str "body".toList), ("identifier", .str p), ("description", .str m)]
  | .metadata k m => obj [("attribute", .str "metadata".toList), ("identifier", .str k), ("description", .str m)]

/-- The mismatches and the errors of a result (pact_broker.rs 880-928). -/
def misOf (r : Result) : List Json :=
  match r.verdict with
  | .mismatches ms => ms.map misJson
  | _ => []

def errOf (r : Result) : List Json :=
  match r.verdict with
  | .error m => [obj [("message", .str m)]]
  | _ => []

/-- The key results are grouped by (pact_broker.rs 875). -/
def key (r : Result) : Str := r.id.getD []

/-- `chunk_by` (pact_broker.rs 875): results with the same key that follow each other. -/
def chunks : List Result → List (Str × List Result)
  | [] => []
  | r :: rs => match chunks rs with
    | (k, g) :: gs => if key r = k then (k, r :: g) :: gs else (key r, [r]) :: (k, g) :: gs
    | [] => [(key r, [r])]

/-- An attribute that is only there for a list that is not empty (pact_broker.rs 941-947). -/
def unlessEmpty (k : String) (js : List Json) : List (String × Json) := if js.isEmpty then [] else [(k, .arr js)]

/-- The entry of a group (pact_broker.rs 876-955). -/
def entry (g : Str × List Result) : Json :=
  let ms := g.2.flatMap misOf
  let es := g.2.flatMap errOf
  obj ([("interactionId", .str g.1), ("success", .bool (ms.isEmpty && es.isEmpty))] ++ unlessEmpty "mismatches" ms ++
    unlessEmpty "exceptions" es ++ (g.2.head?.map fun r => ("interactionDescription", Json.str r.description)).toList)

/-- The entry of a result when everything passed (pact_broker.rs 960-964). -/
def passedEntry (id : Str) : Json := obj [("interactionId", .str id), ("success", .bool true)]

/-- Whether an interaction passed. -/
def passed (r : Result) : Bool := decide (r.verdict = .passed)

/-- The test results (pact_broker.rs 872-966, lib.rs 1615-1628). -/
def testResults (rs : List Result) : List Json :=
  if rs.all passed then (rs.filterMap (·.id)).map passedEntry else (chunks rs).map entry

/-- `struct VerificationMetrics`: test framework, name and version of the application. -/
structure Metrics where
  framework : Str
  name : Str
  version : Str

/-- Who verified (pact_broker.rs 854-857, 866-870). -/
def verifiedBy (version : Str) (metrics : Option Metrics) : Json :=
  obj ([("implementation", .str "Pact-Rust".toList), ("version", .str version)] ++
    (metrics.map fun m => ("clientLanguage",
      obj [("testFramework", .str m.framework), ("name", .str m.name), ("version", .str m.version)])).toList)

/-- What is published with the results. -/
structure Info where
  /-- `VERIFIER_VERSION`. -/
  verifier : Str
  version : Str
  buildUrl : Option Str
  tags : List Str
  branch : Option Str
  metrics : Option Metrics

/-- `build_payload` (pact_broker.rs 845-969), for the results of `publish_to_broker` (lib.rs 1615-1628). -/
def payload (i : Info) (rs : List Result) : Json :=
  obj ([("success", .bool (rs.all passed)), ("providerApplicationVersion", .str i.version),
    ("verifiedBy", verifiedBy i.verifier i.metrics)] ++ (i.buildUrl.map fun u => ("buildUrl", Json.str u)).toList ++
    [("testResults", .arr (testResults rs))])

/-- Sending an empty document to a link of the provider (pact_broker.rs 981-990, 1010-1019). -/
def putLink (base : Str) (l : Link) (vs : Values) : Io L.U E Json :=
  Io.bind (done (parseLinkUrl L l vs)) fun u => sendDocument L net base u ['{', '}'] .put

/-- All tags (pact_broker.rs 979-992). -/
def putTags (base version : Str) (l : Link) : List Str → Io L.U E Unit
  | [] => done (.ok ())
  | t :: ts => Io.bind (putLink L net base l [("version".toList, version), ("tag".toList, t)]) fun _ => putTags base version l ts

/-- `publish_provider_tags` (pact_broker.rs 971-997). -/
def publishTags (base version : Str) (ls : List Link) (tags : List Str) : Io L.U E Unit :=
  Io.bind (navigate L net base (some (docContext ls)) "pb:provider" []) fun d =>
    Io.bind (done (findLink L.lower (some d) "pb:version-tag")) fun l => putTags L net base version l tags

/-- `publish_provider_branch` (pact_broker.rs 999-1025). -/
def publishBranch (base version : Str) (ls : List Link) (branch : Str) : Io L.U E Unit :=
  Io.bind (navigate L net base (some (docContext ls)) "pb:provider" []) fun d =>
    Io.bind (done (findLink L.lower (some d) "pb:branch-version")) fun l =>
      Io.bind (putLink L net base l [("branch".toList, branch), ("version".toList, version)]) fun _ => done (.ok ())

/-- The link results are published to (pact_broker.rs 832-838). -/
def publishLink (ls : List Link) : Except Err Link :=
  match ls.find? fun l => decide (l.name.map Char.toLower = "pb:publish-verification-results".toList) with
  | some l => .ok l
  | none => .error .link

/-- The branch, if there is one (pact_broker.rs 825-827). -/
def branchStep (base : Str) (ls : List Link) (i : Info) : Io L.U E Unit :=
  match i.branch with
  | some b => publishBranch L net base i.version ls b
  | none => done (.ok ())

/-- The tags, if there are any (pact_broker.rs 829-831). -/
def tagStep (base : Str) (ls : List Link) (i : Info) : Io L.U E Unit :=
  if i.tags.isEmpty then done (.ok ()) else publishTags L net base i.version ls i.tags

/-- `publish_verification_results` (pact_broker.rs 812-843) of the results of a pact (lib.rs 1603-1638). -/
def publish (base : Str) (ls : List Link) (i : Info) (rs : List Result) : Io L.U E Json :=
  Io.bind (branchStep L net base ls i) fun _ => Io.bind (tagStep L net base ls i) fun _ =>
    Io.bind (done (publishLink ls)) fun l => sendDocument L net base (l.href.getD []) (payload i rs).text .post

/-! ### Fetching pacts -/

/-- Loading a pact (`load_pact_from_json`) and its links (pact_broker.rs 627-632, 759-766). -/
def loaded {P : Type} (load : Str → Json → Option P) (l : Link) (j : Json) : Except Err (P × List Link) :=
  match load (l.href.getD []) j with
  | some p => .ok (p, linksFromJson L.lower j)
  | none => .error .content

/-- One pact (pact_broker.rs 605-637, 728-768). -/
def fetchOne {P : Type} (load : Str → Json → Option P) (base : Str) (vs : Values) (l : Link) :
    Io L.U E (P × List Link) :=
  match l.href with
  | none => done (.error .link)
  | some _ => Io.bind (fetchUrl L net base l vs) fun j => done (loaded L load l j)

/-- All pacts, one after the other; an error does not stop the others (`and_then` of a stream). -/
def fetchAll {P C : Type} (load : Str → Json → Option P) (base : Str) (vs : Values) :
    List (Link × C) → E → E × List (Sent L.U) × List (Except Err (P × C × List Link))
  | [], e => (e, [], [])
  | (l, c) :: ls, e =>
    match fetchOne L net load base vs l e with
    | (e, t, r) => match fetchAll load base vs ls e with
      | (e, t', rs) => (e, t ++ t', (r.map fun p => (p.1, c, p.2)) :: rs)

/-- Fetching after something else, which may fail. -/
def thenAll {P C : Type} (load : Str → Json → Option P) (base : Str) (vs : Values) (m : Io L.U E (List (Link × C))) :
    Io L.U E (List (Except Err (P × C × List Link))) := fun e =>
  match m e with
  | (e, t, .ok ls) => match fetchAll L net load base vs ls e with
    | (e, t', rs) => (e, t ++ t', .ok rs)
  | (e, t, .error x) => (e, t, .error x)

/-- `fetch_pacts_from_broker` (pact_broker.rs 578-641).  The 404 error is passed on as one. -/
def fetchLatest {P : Type} (load : Str → Json → Option P) (base provider : Str) :
    Io L.U E (List (Except Err (P × Unit × List Link))) :=
  thenAll L net load base [("provider".toList, provider)]
    (Io.bind (navigate L net base none "pb:latest-provider-pacts" [("provider".toList, provider)]) fun d =>
      Io.bind (done (iterLinks L.lower (some d) "pacts")) fun ls => done (.ok (ls.map fun l => (l, ()))))

/-- `struct PactForVerification` (pact_broker.rs 1103-1110): the description, the link `self` and the context.  Reading it
(serde) is a parameter of the functions below. -/
structure Selected (C : Type) where
  self : Option Link
  context : C

/-- The links of the pacts (pact_broker.rs 703-720): an error if one is missing, and none if there are no pacts. -/
def selectedLinks {C : Type} (ps : List (Selected C)) : Except Err (List (Link × C)) :=
  if ps.isEmpty then .error .notFound
  else match ps.mapM fun p => p.self.map fun l => (l, p.context) with
    | some ls => .ok ls
    | none => .error .link

/-- `fetch_pacts_dynamically_from_broker` (pact_broker.rs 644-776).  `question` is the request for pacts to verify (677-684),
`read` the answer (694-699); an answer that cannot be read has no pacts. -/
def fetchSelected {P C : Type} (load : Str → Json → Option P) (read : Json → Option (List (Selected C))) (question : Str)
    (base provider : Str) : Io L.U E (List (Except Err (P × C × List Link))) :=
  thenAll L net load base [("provider".toList, provider)]
    (Io.bind (navigate L net base none "pb:provider-pacts-for-verification" [("provider".toList, provider)]) fun d =>
      Io.bind (done (findLink L.lower (some d) "self")) fun l => Io.bind (done (parseLinkUrl L l [])) fun u =>
        Io.bind (sendDocument L net base u question .post) fun a => done (selectedLinks ((read a).getD [])))

/-- What the verifier makes of an error (lib.rs 1110-1124): `true` if it is taken for "no pacts found", which only fails the
verification on demand. -/
def noPacts (dynamic whole : Bool) : Err → Bool
  | .notFound => dynamic || whole
  | _ => false

/-- One pact or error for the verifier. -/
def fetchedOne {P C : Type} (view : P → C → Verifier.Fetched) (dynamic : Bool) :
    Except Err (P × C × List Link) → Verifier.Fetched
  | .ok p => view p.1 p.2.1
  | .error x => if noPacts dynamic false x then .notFound else .failed

/-- `fetch_pact` (lib.rs 1257-1333): what the verifier gets from a broker; `view` is what it sees of a pact. -/
def fetched {P C : Type} (view : P → C → Verifier.Fetched) (dynamic : Bool) :
    Except Err (List (Except Err (P × C × List Link))) → List Verifier.Fetched
  | .ok rs => rs.map (fetchedOne view dynamic)
  | .error x => [if noPacts dynamic true x then .notFound else .failed]

end Broker
end Verif
