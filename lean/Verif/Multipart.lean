import Verif.MatchResult
import Verif.Base64

/-
  Model of the comparison of MIME multipart bodies, rust/pact_matching/src/binary_utils.rs 202-280, 352-577, 635-730
  (feature `multipart`).  Splitting a body into its parts (`parse_multipart`, 733-777, with the `multer` crate, and the
  boundary from the `Content-Type` header, 780-810) is a parameter; threads, the runtime and the time limit of 30
  seconds are left out.
-/
set_option autoImplicit false

namespace Verif
namespace Multipart
open Path Rules Matchers Compare Query Headers MatchResult

/-- Whether a part is a field or a file (binary_utils.rs 203-206): a file has a file name or no
`Content-Disposition` header (747-773). -/
inductive PartKind where
  | field
  | file
deriving Repr, DecidableEq

/-- `struct MimeField`, `struct MimeFile` (binary_utils.rs 226-231, 254-261).  The headers are the names (lower case,
as in `http::HeaderMap`), each with the text of its first value, which is all that is read of them.  The file name is
used in texts only. -/
structure MimePart where
  kind : PartKind
  index : Nat
  name : Str
  ct : Option ContentType := none
  data : Bytes
  headers : List (Str × Str) := []
deriving Repr, DecidableEq

/-- The external functions. -/
structure MPEnv where
  /-- `parse_multipart` (binary_utils.rs 733-777) on the headers and the body. -/
  parse : Option HeaderMap → Bytes → Option (List MimePart)
  /-- `String::from_utf8_lossy`. -/
  lossy : Bytes → Str

/-- `BASE64.decode` of bytes: those that are not ASCII are not in the alphabet. -/
def decodeBytes (b : Bytes) : Option Bytes := Base64.decode (b.map fun x => Char.ofNat x.toNat)

/-- `decode_data` (binary_utils.rs 235-249, 265-279) with the original data when it fails (466-479, 672, 676). -/
def decodeData (uc : UC) (p : MimePart) : Bytes :=
  match Json.lookup "content-transfer-encoding".toList p.headers with
  | some enc => if uc.lower enc = "base64".toList then (decodeBytes p.data).getD p.data else p.data
  | none => p.data

/-- The path of a part (binary_utils.rs 461-465, 648-652). -/
def partPath (p : MimePart) : DocPath :=
  if p.name.isEmpty then join rootPath (natStr p.index) else join rootPath p.name

/-- Headers that may be missing (binary_utils.rs 559). -/
def optionalHeaders : List Str :=
  ["content-type".toList, "content-disposition".toList, "content-transfer-encoding".toList]

/-- The mismatches from the rules for a text (binary_utils.rs 484-486, 498-507, 537-540, 549-558). -/
def ruleErrors (env : Env) (p : DocPath) (e a : Str) (rl : RuleList) : List Mismatch :=
  match matchValues (strMatches env e a) rl with
  | .ok _ => []
  | .error ms => ms.map fun _ => ⟨p, .value⟩

/-- One header of a part that is there (binary_utils.rs 534-558); `ctx` has its paths in lower case. -/
def matchPresent (env : Env) (ctx : Ctx) (kp : DocPath) (key e a : Str) : List Mismatch :=
  if directMatcherDefined ctx kp [] then
    ruleErrors env kp e a (best ctx kp)
  else if key = "content-disposition".toList then []
  else if strMatches env e a .equality false then [] else [⟨kp, .value⟩]

/-- One expected header of a part (binary_utils.rs 526-569). -/
def matchOneHeader (env : Env) (ctx : Ctx) (p : DocPath) (actual : List (Str × Str)) (kv : Str × Str) : List Mismatch :=
  let kp := join p kv.1
  match Json.lookup kv.1 actual with
  | some a => matchPresent env ctx kp kv.1 kv.2 a
  | none => if optionalHeaders.contains kv.1 then [] else [⟨kp, .missingEntry⟩]

/-- `fn match_headers` (binary_utils.rs 517-577). -/
def matchPartHeaders (env : Env) (uc : UC) (p : DocPath) (e a : List (Str × Str)) (ctx : Ctx) : List Mismatch :=
  e.flatMap (matchOneHeader env (lowerCtx uc ctx) p a)

/-- The value of a field (binary_utils.rs 484-491). -/
def matchText (env : Env) (p : DocPath) (e a : Str) (ctx : Ctx) : List Mismatch :=
  if isDefined ctx p then
    ruleErrors env p e a (best ctx p)
  else if strMatches env e a .equality false then [] else [⟨p, .value⟩]

/-- `fn match_field` (binary_utils.rs 454-514). -/
def matchField (env : Env) (uc : UC) (mp : MPEnv) (e a : MimePart) (ctx : Ctx) : List Mismatch :=
  let p := partPath e
  matchPartHeaders env uc p e.headers a.headers ctx
  ++ matchText env p (mp.lossy (decodeData uc e)) (mp.lossy (decodeData uc a)) ctx

/-- The rest of a path (binary_utils.rs 684-687). -/
def childPath (p : DocPath) (n : Nat) : DocPath := (p.tokens.drop n).foldl push rootPath

/-- The rules for the contents of a file (binary_utils.rs 679-692): of several paths that become equal the last one
in iteration order is kept. -/
def partRules (p : DocPath) (c : RuleCategory) : RuleCategory :=
  ⟨c.name, (c.rules.filter (fun e => matchesPath p.tokens (toVec e.1))).foldl
    (fun m e => upsert m (childPath e.1 p.tokens.length) e.2 (fun _ => e.2)) []⟩

/-- The bodies of parts are compared as bodies of requests without headers (binary_utils.rs 671-678): no boundary is
found in a part that is itself a multipart body (365-381, 783-784). -/
def partEnv (be : BodyEnv) : BodyEnv := { be with multipart := fun _ _ _ => [⟨rootPath, .value⟩, ⟨rootPath, .value⟩] }

/-- The content types of two files agree (binary_utils.rs 668-670). -/
def typesFit (e a : ContentType) : Bool :=
  e.isUnknown || a.isUnknown || e.isEquivalentTo a || e.isEquivalentTo a.baseType

/-- The contents of a file (binary_utils.rs 662-704).  A mismatch of content types has no path. -/
def matchContents (env : Env) (uc : UC) (be : BodyEnv) (e a : MimePart) (ctx : Ctx) : List Mismatch :=
  let ect := e.ct.getD .unknown
  let act := a.ct.getD .unknown
  if typesFit ect act then
    compareBodiesCore env (partEnv be) ect (some (decodeData uc e)) (some (decodeData uc a))
      (cloneWith ctx (partRules (partPath e) ctx.cat))
  else [⟨Path.empty, .value⟩]

/-- `async fn match_file_part` (binary_utils.rs 636-730). -/
def matchFile (env : Env) (uc : UC) (be : BodyEnv) (e a : MimePart) (ctx : Ctx) : List Mismatch :=
  matchPartHeaders env uc (partPath e) e.headers a.headers ctx ++ matchContents env uc be e a ctx

/-- `async fn match_mime_part` (binary_utils.rs 420-451). -/
def matchPart (env : Env) (uc : UC) (be : BodyEnv) (mp : MPEnv) (e a : MimePart) (ctx : Ctx) : List Mismatch :=
  match e.kind, a.kind with
  | .field, .field => matchField env uc mp e a ctx
  | .file, .file => matchFile env uc be e a ctx
  | _, _ => [⟨rootPath, .typeMismatch⟩]

/-- The test for the counterpart of an expected part (binary_utils.rs 392-399). -/
def isCounterpart (e a : MimePart) : Bool :=
  if a.name.isEmpty then decide (a.index = e.index) else decide (a.name = e.name)

/-- One expected part (binary_utils.rs 388-414). -/
def matchExpected (env : Env) (uc : UC) (be : BodyEnv) (mp : MPEnv) (actual : List MimePart) (ctx : Ctx) (e : MimePart) :
    List Mismatch :=
  match actual.find? (isCounterpart e) with
  | some a => matchPart env uc be mp e a ctx
  | none => [⟨rootPath, .missingEntry⟩]

/-- `match_mime_multipart_inner` (binary_utils.rs 352-417). -/
def matchMultipart (env : Env) (uc : UC) (be : BodyEnv) (mp : MPEnv) (eh ah : Option HeaderMap) (e a : Bytes) (ctx : Ctx) :
    List Mismatch :=
  match mp.parse eh e, mp.parse ah a with
  | some es, some as => es.flatMap (matchExpected env uc be mp as ctx)
  | some _, none => [⟨rootPath, .unparsable⟩]
  | none, some _ => [⟨rootPath, .unparsable⟩]
  | none, none => [⟨rootPath, .unparsable⟩, ⟨rootPath, .unparsable⟩]

/-- The body comparison of two messages with these headers (lib.rs 748-757). -/
def withMultipart (env : Env) (uc : UC) (be : BodyEnv) (mp : MPEnv) (eh ah : Option HeaderMap) : BodyEnv :=
  { be with multipart := matchMultipart env uc be mp eh ah }

/-- `match_request` (lib.rs 1869-1940) with multipart bodies. -/
def matchRequestMP (env : Env) (uc : UC) (be : BodyEnv) (mp : MPEnv) (e a : Request) : RequestMatchResult :=
  matchRequest env uc (withMultipart env uc be mp e.part.headers a.part.headers) e a

/-- `match_response` (lib.rs 1970-2014) with multipart bodies. -/
def matchResponseMP (env : Env) (uc : UC) (be : BodyEnv) (mp : MPEnv) (e a : Response) : List MM :=
  matchResponse env uc (withMultipart env uc be mp e.part.headers a.part.headers) e a

end Multipart
end Verif
