import Verif.QueryHeaders

/-
  Model of the comparison of whole requests, responses and messages and of the match results:
  rust/pact_matching/src/lib.rs 1186-1331, 1543-1672, 1758-2118, 2208-2275, of content types
  (rust/pact_models/src/content_types.rs) and body states (rust/pact_models/src/bodies.rs).

  A mismatch keeps the part of the message it belongs to; texts are dropped.
-/

set_option autoImplicit false

namespace Verif

/-- A byte string. -/
abbrev Bytes := List UInt8

/-- `struct ContentType` (content_types.rs 17-27); the attributes in key order (`BTreeMap`). -/
structure ContentType where
  main : Str
  sub : Str
  attrs : List (Str × Str) := []
  suffix : Option Str := none
deriving Repr, DecidableEq

namespace ContentType
/-- `impl Default for ContentType` (content_types.rs 165-174). -/
def unknown : ContentType := ⟨['*'], ['*'], [], none⟩
/-- `is_json` (content_types.rs 91-95). -/
def isJson (c : ContentType) : Bool :=
  decide (c.main = "application".toList) && ("json".toList.isPrefixOf c.sub
    || decide (c.suffix.getD [] = "json".toList) || decide (c.sub = "graphql".toList))
/-- `main_type == "application" || main_type == "text"` (content_types.rs 99, 105). -/
def appOrText (c : ContentType) : Bool :=
  decide (c.main = "application".toList) || decide (c.main = "text".toList)
/-- `is_xml` (content_types.rs 98-101). -/
def isXml (c : ContentType) : Bool :=
  c.appOrText && (decide (c.sub = "xml".toList) || decide (c.suffix.getD [] = "xml".toList))
/-- `is_strict_xml` (content_types.rs 104-106). -/
def isStrictXml (c : ContentType) : Bool := c.appOrText && decide (c.sub = "xml".toList)
/-- `is_known_text_type` (content_types.rs 153-157) and `is_form_urlencoded` (159-161). -/
def isForm (c : ContentType) : Bool :=
  decide (c.main = "application".toList) && decide (c.sub = "x-www-form-urlencoded".toList)
/-- `is_text` (content_types.rs 109-111). -/
def isText (c : ContentType) : Bool := decide (c.main = "text".toList) || c.isXml || c.isJson || c.isForm
/-- `is_binary` (content_types.rs 114-120). -/
def isBinary (c : ContentType) : Bool :=
  if ["audio".toList, "font".toList, "image".toList, "video".toList].contains c.main then true
  else if c.main = "text".toList then false
  else !c.isText
/-- `base_type` (content_types.rs 123-136). -/
def baseType (c : ContentType) : ContentType := ⟨c.main, c.suffix.getD c.sub, [], none⟩
/-- `is_unknown` (content_types.rs 139-141). -/
def isUnknown (c : ContentType) : Bool := decide (c.main = ['*']) || decide (c.sub = ['*'])
/-- `is_equivalent_to` (content_types.rs 144-153). -/
def isEquivalentTo (c d : ContentType) : Bool :=
  if c.isStrictXml && d.isStrictXml then c.attrs.isEmpty || decide (c.attrs = d.attrs)
  else if c.attrs.isEmpty then decide (c.main = d.main) && decide (c.sub = d.sub)
  else decide (c = d)
/-- The parsed literal `application/x-www-form-urlencoded` (lib.rs 755). -/
def formUrlencoded : ContentType := ⟨"application".toList, "x-www-form-urlencoded".toList, [], none⟩
/-- The parsed literal `application/octet-stream` (lib.rs 756). -/
def octetStream : ContentType := ⟨"application".toList, "octet-stream".toList, [], none⟩
/-- `impl Display for ContentType` (content_types.rs 176-190). -/
def display (c : ContentType) : Str :=
  let base := c.main ++ '/' :: c.sub ++ (match c.suffix with | some s => '+' :: s | none => [])
  base ++ c.attrs.flatMap (fun kv => ';' :: kv.1 ++ '=' :: kv.2)
end ContentType

/-- `enum OptionalBody` (bodies.rs 18-31); the content type hint, which the comparison does not read, is
left out. -/
inductive Body where
  | missing
  | empty
  | null
  | present (b : Bytes) (ct : Option ContentType)
deriving Repr, DecidableEq

namespace Body
/-- `is_present` (bodies.rs 36-38). -/
def isPresent : Body → Bool
  | present _ _ => true
  | _ => false
/-- `value()` (bodies.rs 41-46). -/
def value : Body → Option Bytes
  | present b _ => some b
  | _ => none
end Body

/-- The external functions used when comparing bodies. -/
structure BodyEnv where
  /-- `Mime::from_str` followed by `ContentType::from` (content_types.rs 75-88, 223-233). -/
  parseContentType : Str → Option ContentType
  /-- `detect_content_type_from_string` of the UTF-8 text of a body (http_parts.rs 46-57). -/
  detect : Bytes → ContentType
  /-- `serde_json::from_slice`. -/
  json : Bytes → Option Json
  /-- `from_utf8`. -/
  utf8 : Bytes → Option Str
  /-- `serde_urlencoded::from_bytes`. -/
  form : Bytes → Option (List (Str × Str))
  /-- `Bytes::matches_with` for the rule given (matchers.rs 690-770), `true` for `Ok`. -/
  bytesMatch : Bytes → Bytes → MatchingRule → Bool → Bool
  /-- `xml::match_xml`. -/
  xml : Bytes → Bytes → Ctx → List Mismatch
  /-- `binary_utils::match_mime_multipart`. -/
  multipart : Bytes → Bytes → Ctx → List Mismatch

namespace MatchResult
open Path Rules Matchers Compare Query Headers

/-- The parts of a message a mismatch can belong to: the constructors of `enum Mismatch`
(lib.rs 810-880), with the path or name of the element. -/
inductive MM where
  | method
  | path
  | status
  | query (m : Mismatch)
  | header (m : Mismatch)
  | body (m : Mismatch)
  | bodyType
  | metadata (key : Str)
deriving Repr, DecidableEq

/-- Result of a comparison by name (`HashMap<String, Vec<Mismatch>>`). -/
abbrev Named := List (Str × List MM)

/-- `enum BodyMatchResult` (lib.rs 1201-1220). -/
inductive BodyMatchResult where
  | ok
  | typeMismatch
  | mismatches (groups : Named)
deriving Repr, DecidableEq

/-- `struct RequestMatchResult` (lib.rs 1252-1263). -/
structure RequestMatchResult where
  method : Option MM
  path : Option (List MM)
  body : BodyMatchResult
  query : Named
  headers : Named
deriving Repr, DecidableEq

namespace BodyMatchResult
/-- `BodyMatchResult::mismatches` (lib.rs 1224-1238). -/
def all : BodyMatchResult → List MM
  | ok => []
  | typeMismatch => [.bodyType]
  | mismatches g => g.flatMap (·.2)
/-- `BodyMatchResult::all_matched` (lib.rs 1241-1248). -/
def allMatched : BodyMatchResult → Bool
  | ok => true
  | typeMismatch => false
  | mismatches g => g.all (fun kv => kv.2.isEmpty)
end BodyMatchResult

namespace RequestMatchResult
/-- `RequestMatchResult::mismatches` (lib.rs 1267-1286). -/
def mismatches (r : RequestMatchResult) : List MM :=
  r.method.toList ++ r.path.getD [] ++ r.query.flatMap (·.2) ++ r.headers.flatMap (·.2) ++ r.body.all
/-- `RequestMatchResult::all_matched` (lib.rs 1334-1339). -/
def allMatched (r : RequestMatchResult) : Bool :=
  r.method.isNone && r.path.isNone && r.query.all (fun kv => kv.2.isEmpty)
    && r.headers.all (fun kv => kv.2.isEmpty) && r.body.allMatched
/-- `RequestMatchResult::method_or_path_mismatch` (lib.rs 1342-1344). -/
def methodOrPathMismatch (r : RequestMatchResult) : Bool := r.method.isSome || r.path.isSome

/-- The increments of `RequestMatchResult::score` in program order (lib.rs 1289-1331): `true` for `+= 1`,
`false` for `-= 1`. -/
def increments (r : RequestMatchResult) : List Bool :=
  [r.method.isNone, r.path.isNone] ++ r.query.map (fun kv => kv.2.isEmpty)
    ++ r.headers.map (fun kv => kv.2.isEmpty)
    ++ (match r.body with
      | .ok => []
      | .typeMismatch => [false]
      | .mismatches g => g.map (fun kv => kv.2.isEmpty))

/-- One `score += 1` / `score -= 1` on an `i8` with overflow checks: `panic` outside -128..127. -/
def bump (s : Int) (b : Bool) : Res Int :=
  let t := if b then s + 1 else s - 1
  if -128 ≤ t ∧ t ≤ 127 then .ok t else .panic

/-- Running the increments. -/
def bumps : List Bool → Int → Res Int
  | [], s => .ok s
  | b :: bs, s => (bump s b).bind (bumps bs)

/-- `RequestMatchResult::score` (lib.rs 1289-1331) with overflow checks (debug builds). -/
def score (r : RequestMatchResult) : Res Int := bumps r.increments 0

/-- Two's complement wrap-around of `i8`. -/
def wrapI8 (n : Int) : Int := (n + 128) % 256 - 128

/-- `RequestMatchResult::score` (lib.rs 1289-1331) without overflow checks (release builds). -/
def scoreWrapping (r : RequestMatchResult) : Int :=
  r.increments.foldl (fun s b => wrapI8 (if b then s + 1 else s - 1)) 0
end RequestMatchResult

/-! ### Request line and status -/

/-- `pub fn match_method` (lib.rs 1608-1614). -/
def matchMethod (uc : UC) (e a : Str) : Option MM :=
  if uc.lower e ≠ uc.lower a then some .method else none

/-- `pub fn match_path` (lib.rs 1617-1631), `none` for `Ok`. -/
def matchPath (env : Env) (e a : Str) (ctx : Ctx) : Option (List MM) :=
  if isDefined ctx Path.empty then
    match matchValues (strMatches env e a) (best ctx Path.empty) with
    | .ok _ => none
    | .error ms => some (ms.map fun _ => .path)
  else if strMatches env e a .equality false then none else some [.path]

/-- `pub fn match_status` (lib.rs 1944-1966). -/
def matchStatus (env : Env) (e a : Nat) (ctx : Ctx) : List MM :=
  if isDefined ctx Path.empty then
    match matchValues (u64Matches env e a) (best ctx Path.empty) with
    | .ok _ => []
    | .error ms => ms.map fun _ => .status
  else if e ≠ a then [.status] else []

/-! ### Bodies -/

/-- `fn group_by` (lib.rs 1663-1672): insertion of one item under its key. -/
def groupInsert {V : Type} (k : Str) (v : V) : List (Str × List V) → List (Str × List V)
  | [] => [(k, [v])]
  | e :: es => if e.1 = k then (k, e.2 ++ [v]) :: es else e :: groupInsert k v es

/-- `fn group_by` (lib.rs 1663-1672). -/
def groupBy {V : Type} (key : V → Str) (l : List V) : List (Str × List V) :=
  l.foldl (fun m v => groupInsert (key v) v m) []

/-- `pub fn match_text` (lib.rs 1544-1604). -/
def matchText (env : Env) (be : BodyEnv) (e a : Option Bytes) (ctx : Ctx) : List Mismatch :=
  if isDefined ctx rootPath then
    (if (be.utf8 (e.getD [])).isSome then [] else [⟨rootPath, .value⟩])
    ++ (if (be.utf8 (a.getD [])).isSome then [] else [⟨rootPath, .value⟩])
    ++ (match matchValues (strMatches env ((be.utf8 (e.getD [])).getD []) ((be.utf8 (a.getD [])).getD []))
          (best ctx rootPath) with
      | .ok _ => []
      | .error ms => ms.map fun _ => ⟨rootPath, .value⟩)
  else if e ≠ a then [⟨rootPath, .value⟩] else []

/-- `pub fn match_octet_stream` (binary_utils.rs 121-187). -/
def matchOctetStream (be : BodyEnv) (e a : Bytes) (ctx : Ctx) : List Mismatch :=
  if isDefined ctx rootPath then
    let rl := best ctx rootPath
    if rl.rules.isEmpty then [⟨rootPath, .noMatcher⟩]
    else
      let failed := rl.rules.filter (fun r => !be.bytesMatch e a r rl.cascaded)
      match rl.logic with
      | .and => failed.map fun _ => ⟨rootPath, .value⟩
      | .or => if failed.length = rl.rules.length then failed.map fun _ => ⟨rootPath, .value⟩ else []
  else if e ≠ a then [⟨rootPath, .value⟩] else []

/-- The parameters of a form body as query parameters (form_urlencoded.rs 58-65). -/
def formParams (l : List (Str × Str)) : QueryMap :=
  (groupBy (·.1) l).map (fun g => (g.1, g.2.map (fun kv => some kv.2)))

/-- `fn match_form_urlencoded` (form_urlencoded.rs 12-94) for a present expected body. -/
def matchForm (env : Env) (be : BodyEnv) (e a : Bytes) (ctx : Ctx) : List Mismatch :=
  match be.form e, be.form a with
  | none, none => [⟨rootPath, .value⟩, ⟨rootPath, .value⟩]
  | none, some _ => [⟨rootPath, .value⟩]
  | some _, none => [⟨rootPath, .value⟩]
  | some fe, some fa => (matchQueryMaps env (formParams fe) (formParams fa) ctx).flatMap (·.2)

/-- The test for a content-type rule (lib.rs 1774-1775). -/
def isContentTypeRule : MatchingRule → Bool
  | .contentType _ => true
  | _ => false

/-- `fn compare_bodies_core` (lib.rs 1758-1789) with `BODY_MATCHERS` (lib.rs 748-757).  The comparison
`content_type.base_type() == "application/…"` parses the literal; it is modelled as equality with the
parsed content type. -/
def compareBodiesCore (env : Env) (be : BodyEnv) (ct : ContentType) (ev av : Option Bytes) (ctx : Ctx) :
    List Mismatch :=
  let e := ev.getD []
  let a := av.getD []
  if ct.isJson then errs (matchJson env (be.json e) (be.json a) ctx)
  else if ct.isXml then be.xml e a ctx
  else if ct.main = "multipart".toList then be.multipart e a ctx
  else if ct.baseType = .formUrlencoded then
    matchForm env be e a ctx
  else if ct.isBinary || decide (ct.baseType = .octetStream) then
    matchOctetStream be e a ctx
  else if isDefined ctx rootPath && (best ctx rootPath).rules.any isContentTypeRule
  then matchOctetStream be e a ctx
  else matchText env be ev av ctx

/-- `async fn compare_bodies` (lib.rs 1675-1756) when no plugin provides a content matcher. -/
def compareBodies (env : Env) (be : BodyEnv) (ct : ContentType) (e a : Option Bytes) (ctx : Ctx) : BodyMatchResult :=
  let ms := compareBodiesCore env be ct e a ctx
  if ms.isEmpty then .ok
  else .mismatches ((groupBy (fun m => m.path.expr) ms).map (fun g => (g.1, g.2.map MM.body)))

/-- The single mismatch reported for a missing, empty or unexpected body. -/
def oneBody : BodyMatchResult := .mismatches [("$".toList, [.body ⟨rootPath, .value⟩])]

/-- `async fn match_body_content` (lib.rs 1792-1830). -/
def matchBodyContent (env : Env) (be : BodyEnv) (ct : ContentType) (e a : Body) (ctx : Ctx) : BodyMatchResult :=
  match e, a with
  | .missing, _ => .ok
  | .null, .present _ _ => oneBody
  | .empty, .present _ _ => oneBody
  | .null, _ => .ok
  | .empty, _ => .ok
  | .present _ _, .missing => oneBody
  | .present _ _, .empty => oneBody
  | .present b _, a => compareBodies env be ct (some b) a.value ctx

/-- `trait HttpPart`: what the body comparison reads of a request or response. -/
structure Part where
  headers : Option HeaderMap
  body : Body
deriving Repr

/-- `values.join(sep)`. -/
def joinStr (sep : Str) : List Str → Str
  | [] => []
  | [x] => x
  | x :: xs => x ++ sep ++ joinStr sep xs

/-- `HttpPart::lookup_header_value` (http_parts.rs 82-89). -/
def lookupHeaderValue (uc : UC) (p : Part) (name : Str) : Option Str :=
  p.headers.bind (fun h => (findEntry uc h name).map (joinStr ", ".toList))

/-- `HttpPart::detect_content_type` (http_parts.rs 46-57). -/
def detectContentType (be : BodyEnv) : Body → Option ContentType
  | .present b _ => some (be.detect b)
  | _ => none

/-- `HttpPart::content_type` (http_parts.rs 61-74), `lookup_content_type` (v4/http_parts.rs 267, 657). -/
def contentType (uc : UC) (be : BodyEnv) (p : Part) : Option ContentType :=
  match p.body with
  | .present _ (some ct) => some ct
  | b => match lookupHeaderValue uc p "content-type".toList with
    | some h => match be.parseContentType h with
      | some ct => some ct
      | none => detectContentType be b
    | none => detectContentType be b

/-- `contentType` with the default `*/*` (lib.rs 1839-1840). -/
def contentTypeD (uc : UC) (be : BodyEnv) (p : Part) : ContentType := (contentType uc be p).getD .unknown

/-- The condition under which `match_body` goes on to the contents (lib.rs 1845-1851). -/
def typesAgree (env : Env) (uc : UC) (ect act : ContentType) (hctx : Ctx) : Bool :=
  ect.isUnknown || act.isUnknown || ect.isEquivalentTo act || ect.isEquivalentTo act.baseType
  || (!(best hctx (join rootPath "content-type".toList)).rules.isEmpty
      && isOk (matchHeaderValue env uc "Content-Type".toList 0 ect.display act.display hctx))

/-- `pub async fn match_body` (lib.rs 1833-1865). -/
def matchBody (env : Env) (uc : UC) (be : BodyEnv) (e a : Part) (ctx hctx : Ctx) : BodyMatchResult :=
  let ect := contentTypeD uc be e
  let act := contentTypeD uc be a
  if typesAgree env uc ect act hctx then matchBodyContent env be ect e.body a.body ctx
  else if e.body.isPresent then .typeMismatch
  else .ok

/-! ### Requests and responses -/

/-- `struct HttpRequest` (pact_models/src/v4/http_parts.rs): the attributes compared. -/
structure Request where
  method : Str
  path : Str
  query : Option QueryMap
  part : Part
  rules : MatchingRules

/-- `struct HttpResponse` (pact_models/src/v4/http_parts.rs): the attributes compared. -/
structure Response where
  status : Nat
  part : Part
  rules : MatchingRules

/-- The context for a category: `CoreMatchingContext::new(config, rules_for_category(..).unwrap_or_default())`
(lib.rs 1911-1926, 1984-2000). -/
def ctxFor (rules : MatchingRules) (c : Category) (config : DiffConfig) : Ctx :=
  ⟨(rulesForCategory rules c).getD (emptyCat .body), config⟩

/-- Wrap the mismatches of a query or header comparison. -/
def named (f : Mismatch → MM) (r : EntryResults) : Named := r.map (fun kv => (kv.1, kv.2.map f))

/-- `pub async fn match_request` (lib.rs 1869-1940), with the default (V1) matching engine. -/
def matchRequest (env : Env) (uc : UC) (be : BodyEnv) (e a : Request) : RequestMatchResult :=
  let hctx := lowerCtx uc (ctxFor e.rules .header .noUnexpectedKeys)
  { method := matchMethod uc e.method a.method
    path := matchPath env e.path a.path (ctxFor e.rules .path .noUnexpectedKeys)
    body := matchBody env uc be e.part a.part (ctxFor e.rules .body .noUnexpectedKeys) hctx
    query := named MM.query (matchQuery env e.query a.query (ctxFor e.rules .query .noUnexpectedKeys))
    headers := named MM.header (matchHeaders env uc e.part.headers a.part.headers hctx) }

/-- `pub async fn match_response` (lib.rs 1970-2014): the mismatches. -/
def matchResponse (env : Env) (uc : UC) (be : BodyEnv) (e a : Response) : List MM :=
  let hctx := lowerCtx uc (ctxFor e.rules .header .noUnexpectedKeys)
  (matchBody env uc be e.part a.part (ctxFor e.rules .body .allowUnexpectedKeys) hctx).all
  ++ matchStatus env e.status a.status (ctxFor e.rules .status .allowUnexpectedKeys)
  ++ (named MM.header (matchHeaders env uc e.part.headers a.part.headers hctx)).flatMap (·.2)

/-! ### Messages -/

/-- `struct MessageContents` (pact_models/src/v4/message_parts.rs): the attributes compared.  The content
type (`message_content_type()`) is an attribute of the model. -/
structure Message where
  ct : Option ContentType
  body : Body
  metadata : List (Str × Json)
  rules : MatchingRules

/-- `pub async fn match_message_contents` (lib.rs 2018-2059): the mismatches (`[]` for `Ok` and for an
`Err` of an empty list). -/
def matchMessageContents (env : Env) (be : BodyEnv) (e a : Message) (ctx : Ctx) : List MM :=
  let ect := e.ct.getD .unknown
  let act := a.ct.getD .unknown
  if ect.isEquivalentTo act then (matchBodyContent env be ect e.body a.body ctx).all
  else if e.body.isPresent then [.bodyType] else []

/-- `Value::as_str().unwrap_or_default()`. -/
def asStrD : Json → Str
  | .str s => s
  | _ => []

/-- `fn match_metadata_value` (lib.rs 2094-2118): the number of mismatches as a list. -/
def matchMetadataValue (env : Env) (uc : UC) (key : Str) (e a : Json) (ctx : Ctx) : List MM :=
  let p := join rootPath key
  if isDefined ctx p then
    match matchValues (jsonMatches env e a) (best ctx p) with
    | .ok _ => []
    | .error ms => ms.map fun _ => .metadata key
  else if asciiLower key = "contenttype".toList ∨ asciiLower key = "content-type".toList then
    List.replicate (matchParameterHeader uc (asStrD e) (asStrD a)) (.metadata key)
  else if jsonMatches env e a .equality false then [] else [.metadata key]

/-- `pub fn match_message_metadata` (lib.rs 2062-2092). -/
def matchMessageMetadata (env : Env) (uc : UC) (e a : Message) (ctx : Ctx) : Named :=
  e.metadata.map (fun kv => (kv.1, match Json.lookup kv.1 a.metadata with
    | some v => matchMetadataValue env uc kv.1 kv.2 v ctx
    | none => [.metadata kv.1]))

/-- The comparison of a V4 message (lib.rs 2139-2160, 2196-2214, 2255-2272).  The rules for the contents are asked for as
`"content"`, which is not the name of a category, so they are those of the default, `BODY` (matchingrules/mod.rs 850-866,
888-892, 900-904). -/
def messageMismatches (env : Env) (uc : UC) (be : BodyEnv) (e a : Message) : List MM :=
  matchMessageContents env be e a (ctxFor e.rules .body .allowUnexpectedKeys)
  ++ (matchMessageMetadata env uc e a (ctxFor e.rules .metadata .allowUnexpectedKeys)).flatMap (·.2)

/-- The loop over the responses of a synchronous message (lib.rs 2246-2272). -/
def responseLoop (env : Env) (uc : UC) (be : BodyEnv) : List Message → List Message → List MM
  | [], _ => []
  | e :: es, as => (match as with | [] => [] | a :: _ => messageMismatches env uc be e a)
      ++ responseLoop env uc be es as.tail

/-- `pub async fn match_sync_message_response` (lib.rs 2212-2275). -/
def matchSyncResponses (env : Env) (uc : UC) (be : BodyEnv) (es as : List Message) : List MM :=
  if es.length ≠ as.length then
    if !es.isEmpty then [.bodyType] else []
  else responseLoop env uc be es as

/-- `pub async fn match_sync_message` (lib.rs 2168-2173). -/
def matchSyncMessage (env : Env) (uc : UC) (be : BodyEnv) (ereq areq : Message) (es as : List Message) :
    List MM :=
  messageMismatches env uc be ereq areq ++ matchSyncResponses env uc be es as

end MatchResult
end Verif
