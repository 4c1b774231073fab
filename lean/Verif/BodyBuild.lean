import Verif.Parts
import Verif.PactFileV3
import Verif.Form
import Verif.XmlBuild

/-
  Model of the FFI call that sets a body given as text (`pactffi_with_body`, rust/pact_ffi/src/mock_server/handles.rs
  1674-1944, `process_json`, bodies.rs 252-262): which content type the body gets, when the text is read as a description
  with matchers, and the content type header that is added.

  Simplified as in `Verif.Parts`: the call works on the request, response or message contents itself.  A text of the C
  interface cannot be NULL here; NULL is the empty text (`unwrap_or_default`, 1846).  Writing an XML document as text is a
  parameter, as are parsing JSON and content types.
-/

set_option autoImplicit false

namespace Verif
namespace BodyBuild
open Path Rules RuleJson Generate Integration PactFile Parts Xml XmlBuild Headers

/-- What the code takes from elsewhere. -/
structure Lib where
  src : Source
  file : FileEnv
  /-- `Writer::format_document` (xml.rs 41-46) for a document with this root element. -/
  xmlText : Option Elem → Str
  /-- Whether the XML library moves text nodes (see `Verif.XmlBuild`). -/
  moves : Bool

/-- `process_json` (bodies.rs 252-262): objects and arrays are processed and written again, other texts are kept. -/
def jsonText (L : Lib) (s : Str) (a : Acc) : Res (Str × Acc) :=
  match L.src.parse s with
  | some (.obj o) => (processJson L.src.setup (.obj o) a).map fun r => (r.1.text, r.2)
  | some (.arr xs) => (processJson L.src.setup (.arr xs) a).map fun r => (r.1.text, r.2)
  | _ => .ok (s, a)

/-- The parameters of the processed text (form_urlencoded.rs 19-23): the `unwrap` aborts if it is not JSON. -/
def formOf (L : Lib) (r : Str × Acc) : Res (Str × Acc) :=
  match L.src.parse r.1 with
  | some j => .ok (Form.encode (Form.toParams j r.2).1, (Form.toParams j r.2).2)
  | none => .panic

/-- `process_form_urlencoded_json` (form_urlencoded.rs 15-24). -/
def formText (L : Lib) (s : Str) (a : Acc) : Res (Str × Acc) := (jsonText L s a).bind (formOf L)

/-- `process_xml(..).unwrap_or_default()` (handles.rs 1092-1102, 1738). -/
def xmlBody (L : Lib) (s : Str) (a : Acc) : Res (Str × Acc) :=
  match L.src.parse s with
  | some j => match processXml L.src.setup L.moves j a with
    | .ok r => .ok (L.xmlText r.1, r.2)
    | .err => .ok ([], a)
    | .panic => .panic
  | none => .ok ([], a)

/-- The content type (handles.rs 1708-1712): given, else that of the part, else detected.  The last default (text) is never
used, as something is always detected. -/
def chosen (L : Lib) (s : Str) (given hint : Option ContentType) : ContentType :=
  (given.or hint).getD (L.file.detectStr s)

/-- A text that is processed with the category of the body (handles.rs 1725-1730, 1739-1748, 1765-1772). -/
def through (f : Str → Acc → Res (Str × Acc)) (ct : ContentType) (s : Str) (rules : MatchingRules) (gens : Generators) :
    Res (FBody × MatchingRules × Generators) :=
  (f s ⟨catOf rules .body, gens⟩).map fun r => (.present (utf8 r.1) (some ct) none, setCat .body r.2.cat rules, r.2.gens)

/-- A text that is kept. -/
def raw (ct : ContentType) (s : Str) (rules : MatchingRules) (gens : Generators) :
    Res (FBody × MatchingRules × Generators) := .ok (.present (utf8 s) (some ct) none, rules, gens)

/-- A text that is not empty, with its content type (handles.rs 1719-1784). -/
def byType (L : Lib) (ct : ContentType) (s : Str) (rules : MatchingRules) (gens : Generators) :
    Res (FBody × MatchingRules × Generators) :=
  if ct.isJson then through (jsonText L) ct s rules gens
  else if ct.isXml then
    if (L.file.detectStr s).isJson then through (xmlBody L) ct s rules gens else raw ct s rules gens
  else if ct.isForm then
    if (L.file.detectStr s).isJson then through (formText L) ct s rules gens else raw ct s rules gens
  else raw ct s rules gens

/-- `process_body` (handles.rs 1688-1785). -/
def processBody (L : Lib) (s : Str) (given hint : Option ContentType) (rules : MatchingRules) (gens : Generators) :
    Res (FBody × MatchingRules × Generators) :=
  if s.isEmpty then .ok (.empty, rules, gens) else byType L (chosen L s given hint) s rules gens

/-- `ContentType::parse(ct).unwrap()` (handles.rs 1842-1843). -/
def givenType (L : Lib) (ct : Option Str) : Res (Option ContentType) :=
  match ct with
  | none => .ok none
  | some t => match L.file.parseCT t with
    | some c => .ok (some c)
    | none => .panic

/-- `headers.entry("Content-Type").or_insert_with(..)` (handles.rs 1866-1874, 1890-1898). -/
def addType (ct : ContentType) (h : HeaderMap) : HeaderMap :=
  if h.any fun e => decide (e.1 = "Content-Type".toList) then h else h ++ [("Content-Type".toList, [ct.display])]

/-- The headers after the body is set (handles.rs 1861-1875, 1885-1899). -/
def typeHeader (ct : Option ContentType) (h : Option HeaderMap) : Option HeaderMap :=
  match ct with
  | some ct => some (addType ct (h.getD []))
  | none => h

/-- `pactffi_with_body` for a request (handles.rs 1826-1875); `HttpRequest::content_type` is `calc_content_type`. -/
def withBodyReq (L : Lib) (ct : Option Str) (s : Str) (r : HttpRequest) : Res HttpRequest :=
  (givenType L ct).bind fun given => (calcContentType L.file r.body r.headers).bind fun hint =>
    (processBody L s given hint r.rules r.gens).bind fun b =>
      (calcContentType L.file b.1 r.headers).map fun t =>
        { r with body := b.1, rules := b.2.1, gens := b.2.2, headers := typeHeader t r.headers }

/-- `pactffi_with_body` for a response (handles.rs 1826-1847, 1877-1900). -/
def withBodyRes (L : Lib) (ct : Option Str) (s : Str) (r : HttpResponse) : Res HttpResponse :=
  (givenType L ct).bind fun given => (calcContentType L.file r.body r.headers).bind fun hint =>
    (processBody L s given hint r.rules r.gens).bind fun b =>
      (calcContentType L.file b.1 r.headers).map fun t =>
        { r with body := b.1, rules := b.2.1, gens := b.2.2, headers := typeHeader t r.headers }

/-- `&v[0]` of a JSON value. -/
def firstItem : Json → Json
  | .arr (x :: _) => x
  | _ => .null

/-- `lookup_content_type` of message contents (v4/message_parts.rs 169-174). -/
def metaType (m : Obj) : Option Str := (m.find? fun e => PactV3.isContentTypeKey e.1).map fun e => (firstItem e.2).toStr

/-- `HttpPart::content_type` of message contents (http_parts.rs 61-74). -/
def contentsType (L : Lib) (body : FBody) (m : Obj) : Option ContentType :=
  match body with
  | .present _ (some ct) _ => some ct
  | body => match metaType m with
    | some t => match L.file.parseCT t with
      | some ct => some ct
      | none => PactV3.detectContentType L.file body
    | none => PactV3.detectContentType L.file body

/-- `metadata.entry("contentType").or_insert(..)` (handles.rs 1913-1919, 1938-1943).  The hash map is a list here. -/
def typeMeta (ct : Option ContentType) (m : Obj) : Obj :=
  match ct with
  | some ct => if (RuleJson.get "contentType" m).isSome then m else m ++ [("contentType".toList, .str ct.display)]
  | none => m

/-- The contents of a message (handles.rs 1904-1919, 1930-1943): the metadata is not used for the content type. -/
def setContents (L : Lib) (given : Option ContentType) (s : Str) (c : MessageContents) : Res MessageContents :=
  (processBody L s given none c.rules c.gens).map fun b =>
    { c with contents := b.1, rules := b.2.1, gens := b.2.2, metadata := typeMeta (contentsType L b.1 c.metadata) c.metadata }

/-- `pactffi_with_body` for an asynchronous message, and for the request of a synchronous one. -/
def withBodyMsg (L : Lib) (ct : Option Str) (s : Str) (c : MessageContents) : Res MessageContents :=
  (givenType L ct).bind fun given => setContents L given s c

/-- `pactffi_with_body` for the response of a synchronous message: a new response is appended (handles.rs 1923-1929). -/
def withBodyReply (L : Lib) (ct : Option Str) (s : Str) (cs : List MessageContents) : Res (List MessageContents) :=
  (givenType L ct).bind fun given => (setContents L given s ⟨.missing, [], [], []⟩).map fun c => cs ++ [c]

end BodyBuild
end Verif
