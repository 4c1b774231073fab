import Verif.MatchResult
import Verif.QueryStrings
import Verif.PactFile

/-
  Model of the detection of content types from the contents of a body: rust/pact_models/src/content_types.rs 66-69, 260-314,
  its use for requests and responses (http_parts.rs 46-57) and for the content type rule (pact_matching/src/binary_utils.rs
  37-111).  The regular expressions are modelled by hand: each is a test of the beginning of the text, because the trailing
  `.*` and the optional attribute accept everything and `is_match` (263-269) wants the match at the start of the text.
-/
set_option autoImplicit false

namespace Verif
namespace Detect
open Query Headers MatchResult

/-- Unicode tables used by the regular expressions and by `str::to_uppercase`; only the ASCII part and that white space has
no case are assumed. -/
structure Cls where
  /-- `\w`. -/
  word : Char → Bool
  /-- `char::to_uppercase`. -/
  upper : Char → Str
  word_ascii : ∀ c : Char, c.toNat < 128 → word c = (c.isAlpha || c.isDigit || c == '_')
  upper_ascii : ∀ c : Char, c.toNat < 128 → upper c = [c.toUpper]

/-- The statics `XML`, `HTML`, `JSON` and `TEXT` (content_types.rs 31-57). -/
def xmlType : ContentType := ⟨"application".toList, "xml".toList, [], none⟩
def htmlType : ContentType := ⟨"text".toList, "html".toList, [], none⟩
def jsonType : ContentType := ⟨"application".toList, "json".toList, [], none⟩
def textType : ContentType := ⟨"text".toList, "plain".toList, [], none⟩

/-- `\s*` at the start; greedy, which is enough as no pattern goes on with white space. -/
def skip (uc : UC) (s : Str) : Str := s.dropWhile uc.white

/-- A literal; the rest of the text. -/
def lit : Str → Str → Option Str
  | [], s => some s
  | _ :: _, [] => none
  | l :: ls, c :: cs => if c = l then lit ls cs else none

/-- `^\s*<\?xml\s*version.*` (content_types.rs 66). -/
def isXmlDecl (uc : UC) (s : Str) : Bool :=
  match lit "<?xml".toList (skip uc s) with
  | some r => (lit "version".toList (skip uc r)).isSome
  | none => false

/-- `^\s*(<!DOCTYPE)|(<HTML>).*` at the start of the text (content_types.rs 67): white space only before the first
alternative. -/
def isHtml (uc : UC) (s : Str) : Bool :=
  (lit "<!DOCTYPE".toList (skip uc s)).isSome || (lit "<HTML>".toList s).isSome

/-- `\w` at the start. -/
def isWord (C : Cls) : Str → Bool
  | c :: _ => C.word c
  | [] => false

/-- `^\s*<\w+…` (content_types.rs 69). -/
def isTag (C : Cls) (uc : UC) (s : Str) : Bool :=
  match skip uc s with
  | '<' :: r => isWord C r
  | _ => false

/-- `\s*(}|"\w+)` after a brace (content_types.rs 68). -/
def isEntry (C : Cls) : Str → Bool
  | '}' :: _ => true
  | '"' :: r => isWord C r
  | _ => false

/-- `[0-9]+` at the start. -/
def isDigits : Str → Bool
  | c :: _ => c.isDigit
  | [] => false

/-- `\{\s*(}|"\w+)` (content_types.rs 68). -/
def isObject (C : Cls) (uc : UC) : Str → Bool
  | '{' :: r => isEntry C (skip uc r)
  | _ => false

/-- `true|false|null|[0-9]+|"\w*|\{\s*(}|"\w+)|\[\s*` (content_types.rs 68). -/
def isJsonHead (C : Cls) (uc : UC) (t : Str) : Bool :=
  (lit "true".toList t).isSome || (lit "false".toList t).isSome || (lit "null".toList t).isSome || isDigits t ||
    (lit ['"'] t).isSome || isObject C uc t || (lit ['['] t).isSome

/-- The pattern for JSON (content_types.rs 68). -/
def isJsonStart (C : Cls) (uc : UC) (s : Str) : Bool := isJsonHead C uc (skip uc s)

/-- `str::to_uppercase`. -/
def upperStr (C : Cls) (s : Str) : Str := s.flatMap C.upper

/-- `detect_content_type_from_string` (content_types.rs 273-287); it never returns `None`. -/
def detectString (C : Cls) (uc : UC) (s : Str) : ContentType :=
  if isXmlDecl uc s then xmlType
  else if isHtml uc (upperStr C s) then htmlType
  else if isTag C uc s then xmlType
  else if isJsonStart C uc s then jsonType
  else textType

/-- `detect_content_type_from_bytes` (content_types.rs 290-314): the first 32 bytes, `None` if they are not UTF-8. -/
def detectBytes (C : Cls) (uc : UC) (b : Bytes) : Option ContentType :=
  (QS.fromUtf8 (if b.length > 32 then b.take 32 else b)).map (detectString C uc)

/-- `detect_content_type` of a request or response (http_parts.rs 46-57): a body that is not UTF-8 counts as empty. -/
def detectBody (C : Cls) (uc : UC) (b : Bytes) : ContentType := detectString C uc ((QS.fromUtf8 b).getD [])

/-- The comparison of bodies with this detection. -/
def withDetect (C : Cls) (uc : UC) (be : BodyEnv) : BodyEnv := { be with detect := detectBody C uc }

/-- The libraries that look at the first bytes: `infer::get` (empty if it finds nothing) and
`tree_magic_mini::from_u8`. -/
structure Magic where
  infer : Bytes → Str
  magic : Bytes → Str

/-- The type found by the libraries (binary_utils.rs 68-74). -/
def found (g : Magic) (b : Bytes) : Str := if g.infer b = [] then g.magic b else g.infer b

/-- The comparison with the type found from the text (binary_utils.rs 86-103); `parse` is `ContentType::parse`. -/
def bytesType (C : Cls) (uc : UC) (parse : Str → Option ContentType) (b : Bytes) (expected : Str) : Bool :=
  match detectBytes C uc b with
  | some ct => decide (ct = (parse expected).getD .unknown)
  | none => false

/-- `match_content_type` (binary_utils.rs 37-111), `true` for `Ok`. -/
def matchContentType (C : Cls) (uc : UC) (parse : Str → Option ContentType) (g : Magic) (b : Bytes) (expected : Str) : Bool :=
  if g.infer b = expected then true
  else if g.infer b = [] ∧ g.magic b = expected then true
  else if found g b = "text/plain".toList then bytesType C uc parse b expected
  else false

end Detect
end Verif
