import Verif.Maps

/-
  Model of `rust/pact_models/src/query_strings.rs`, of `parse_header` in `rust/pact_models/src/headers.rs` and
  of the header conversions of `rust/pact_models/src/json_utils.rs` 112-140 and
  `rust/pact_models/src/v4/http_parts.rs` 92-99.

  Strings are lists of characters; bytes and the UTF-8 decoder are those of the Lean library.
-/

set_option autoImplicit false

namespace Verif
namespace QS
open Query Headers

/-- `std::str::from_utf8`. -/
def fromUtf8 (b : List UInt8) : Option Str := b.toByteArray.utf8Decode?.map Array.toList

/-- Value of a hexadecimal digit of either case (`hex::FromHex`). -/
def hexVal (c : Char) : Option Nat :=
  if '0' ≤ c ∧ c ≤ '9' then some (c.toNat - 48)
  else if 'a' ≤ c ∧ c ≤ 'f' then some (c.toNat - 87)
  else if 'A' ≤ c ∧ c ≤ 'F' then some (c.toNat - 55)
  else none

/-- `Vec::<u8>::from_hex` of the UTF-8 bytes of two characters (query_strings.rs 28): fails unless both are
hexadecimal digits (a character outside ASCII contributes non-digit bytes). -/
def fromHex2 (a b : Char) : Option UInt8 :=
  match hexVal a, hexVal b with
  | some x, some y => some (UInt8.ofNat (x * 16 + y))
  | _, _ => none

/-- `c as u8`: the low eight bits of the code point. -/
def asU8 (c : Char) : UInt8 := UInt8.ofNat c.toNat

/-- The buffer built by `decode_query` (query_strings.rs 12-54). -/
def decodeBytes : Str → List UInt8
  | [] => []
  | [c] => if c = '%' then [asU8 '%'] else if c = '+' then [asU8 ' '] else [asU8 c]
  | [c, d] =>
    if c = '%' then [asU8 '%', asU8 d]
    else (if c = '+' then asU8 ' ' else asU8 c) :: decodeBytes [d]
  | c :: d :: e :: rest =>
    if c = '%' then match fromHex2 d e with
      | some n => n :: decodeBytes rest
      | none => asU8 '%' :: asU8 d :: asU8 e :: decodeBytes rest
    else (if c = '+' then asU8 ' ' else asU8 c) :: decodeBytes (d :: e :: rest)

/-- `pub fn decode_query` (query_strings.rs 12-63), `none` for `Err`. -/
def decodeQuery (s : Str) : Option Str := fromUtf8 (decodeBytes s)

/-- Hexadecimal digits (lower case, no leading zeros) with a recursion bound. -/
def hexStrF : Nat → Nat → Str
  | 0, n => [Json.hexDigit (n % 16)]
  | f + 1, n => if n < 16 then [Json.hexDigit n] else hexStrF f (n / 16) ++ [Json.hexDigit (n % 16)]

/-- The hexadecimal digits of `char::escape_unicode` (query_strings.rs 74-75). -/
def hexStr (n : Nat) : Str := hexStrF n n

/-- The digits in pairs, each with a percent sign; an odd digit makes `it.next().unwrap()` panic
(query_strings.rs 76-82). -/
def pairs : Str → Res Str
  | [] => .ok []
  | [_] => .panic
  | a :: b :: rest => (pairs rest).map (fun r => '%' :: a :: b :: r)

/-- ASCII letters and digits (query_strings.rs 71-73). -/
def asciiAlnum (c : Char) : Bool :=
  decide ('a' ≤ c ∧ c ≤ 'z') || decide ('A' ≤ c ∧ c ≤ 'Z') || decide ('0' ≤ c ∧ c ≤ '9')

/-- One character of `encode_query` (query_strings.rs 68-83). -/
def encodeChar (c : Char) : Res Str :=
  if c = ' ' then .ok ['+']
  else if c = '-' then .ok [c]
  else if asciiAlnum c then .ok [c]
  else pairs (hexStr c.toNat)

/-- `pub fn encode_query` (query_strings.rs 66-85). -/
def encodeQuery : Str → Res Str
  | [] => .ok []
  | c :: cs => (encodeChar c).bind fun a => (encodeQuery cs).map (fun r => a ++ r)

/-- `map.entry(name).or_insert_with(|| vec![]).push(value)` (query_strings.rs 112). -/
def pushValue (k : Str) (v : Option Str) : QueryMap → QueryMap
  | [] => [(k, [v])]
  | e :: es => if e.1 = k then (e.1, e.2 ++ [v]) :: es else e :: pushValue k v es

/-- `decode_query(s).unwrap_or_else(|_| s.to_owned())` (query_strings.rs 103-107). -/
def decodeOr (s : Str) : Str := (decodeQuery s).getD s

/-- One step of the fold of `parse_query_string` (query_strings.rs 93-115). -/
def parseStep (m : QueryMap) (kv : Str) : QueryMap :=
  if kv.isEmpty then m
  else match splitOnce '=' kv with
    | some (n, v) => pushValue (decodeOr n) (some (decodeOr v)) m
    | none => pushValue (decodeOr kv) none m

/-- `pub fn parse_query_string` (query_strings.rs 90-119). -/
def parseQueryString (s : Str) : Option QueryMap :=
  if s.isEmpty then none else some ((splitOn '&' s).foldl parseStep [])

/-- The text of one parameter occurrence (query_strings.rs 128-131): the name is not encoded. -/
def paramText (k : Str) : Option Str → Res Str
  | none => .ok k
  | some v => (encodeQuery v).map (fun e => k ++ '=' :: e)

/-- Collect a list of results; a panic in any of them is a panic. -/
def collectRes {A : Type} : List (Res A) → Res (List A)
  | [] => .ok []
  | r :: rs => r.bind fun a => (collectRes rs).map (a :: ·)

/-- `values.join("&")`. -/
def joinWith (sep : Str) : List Str → Str
  | [] => []
  | [x] => x
  | x :: y :: xs => x ++ sep ++ joinWith sep (y :: xs)

/-- `pub fn build_query_string` (query_strings.rs 122-136). -/
def buildQueryString (m : QueryMap) : Res Str :=
  (collectRes ((OMap.collect (m.filter (fun e => !e.1.isEmpty))).flatMap
    (fun e => e.2.map (paramText e.1)))).map (joinWith ['&'])

/-- `query_to_json` for V3/V4 (query_strings.rs 180-190). -/
def queryToJsonV3 (m : QueryMap) : Json :=
  .obj (OMap.collect (m.map (fun e => (e.1, Json.arr (e.2.map fun | none => .null | some s => .str s)))))

/-- One entry of `v3_query_from_json` (query_strings.rs 160-171): for an item that is neither a string nor
null the *whole array* is rendered. -/
def queryEntryFromJson (v : Json) : List (Option Str) :=
  match v with
  | .str s => [some s]
  | .arr items => items.map fun
    | .str s => some s
    | .null => none
    | _ => some v.text
  | _ => []

/-- `pub fn v3_query_from_json` (query_strings.rs 152-178). -/
def v3QueryFromJson : Json → Option QueryMap
  | .str s => parseQueryString s
  | .obj m => some (m.map (fun e => (e.1, queryEntryFromJson e.2)))
  | _ => none

/-- `query_to_json` for the earlier versions (query_strings.rs 191). -/
def queryToJsonV2 (m : QueryMap) : Res Json := (buildQueryString m).map Json.str

/-- `pub fn query_from_json` (query_strings.rs 139-149). -/
def queryFromJsonV2 : Json → Option QueryMap
  | .str s => parseQueryString s
  | _ => none

/-- `SINGLE_VALUE_HEADERS` (headers.rs 2-12). -/
def singleValueHeaders : List Str :=
  ["date".toList, "accept-datetime".toList, "if-modified-since".toList, "if-unmodified-since".toList,
   "expires".toList, "retry-after".toList, "last-modified".toList, "set-cookie".toList, "user-agent".toList]

/-- `pub fn parse_header` (headers.rs 30-36). -/
def parseHeader (uc : UC) (name value : Str) : List Str :=
  if singleValueHeaders.contains (uc.lower name) then [trim uc value]
  else (splitOn ',' value).map (trim uc)

/-- One header of `headers_from_json` (json_utils.rs 115-126). -/
def headerFromJson (uc : UC) (k : Str) : Json → List Str
  | .str s => parseHeader uc k s
  | .arr vs => vs.map fun | .str s => s | v => v.text
  | v => [v.text]

/-- `pub fn headers_from_json` (json_utils.rs 112-131), given the value of the `headers` attribute. -/
def headersFromJson (uc : UC) : Option Json → Option HeaderMap
  | some (.obj m) => some (m.map (fun e => (e.1, headerFromJson uc e.1 e.2)))
  | _ => none

/-- `pub fn headers_to_json` (json_utils.rs 134-141), used for V1 to V3 files. -/
def headersToJson (h : HeaderMap) : Json :=
  .obj (OMap.collect (h.map (fun e => (e.1, Json.str (joinWith ", ".toList e.2)))))

/-- The headers of a V4 file (v4/http_parts.rs 92-99): arrays of strings. -/
def headersToJsonV4 (h : HeaderMap) : Json :=
  .obj (OMap.collect (h.map (fun e => (e.1, Json.arr (e.2.map Json.str)))))

end QS
end Verif
