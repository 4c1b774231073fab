import Verif.MatchResult
import Verif.PactFile
import Verif.Integration

/-
  Model of forms (`application/x-www-form-urlencoded`): the encoding (crates `serde_urlencoded` and `form_urlencoded`, from
  their documentation, the URL standard), the generators for form bodies
  (rust/pact_models/src/generators/form_urlencoded.rs) and form bodies given as JSON to the C interface
  (rust/pact_ffi/src/mock_server/form_urlencoded.rs).  The comparison of form bodies is in `Verif.MatchResult`.
-/

set_option autoImplicit false

namespace Verif
namespace Form
open Path Rules Generate
open PactFile (utf8)

/-- The parameters of a form: `QueryParams` (generators/form_urlencoded.rs 11). -/
abbrev Params := List (Str × Str)

/-! ## Encoding -/

/-- Bytes that are written as they are: `* - . _`, letters and digits. -/
def keep (b : UInt8) : Bool :=
  b == 42 || b == 45 || b == 46 || b == 95 || (decide (48 ≤ b) && decide (b ≤ 57)) ||
    (decide (65 ≤ b) && decide (b ≤ 90)) || (decide (97 ≤ b) && decide (b ≤ 122))

/-- A hexadecimal digit in upper case. -/
def hexUp (n : Nat) : Char := if n < 10 then Char.ofNat (48 + n) else Char.ofNat (55 + n)

/-- One byte (`form_urlencoded::byte_serialize`). -/
def byteText (b : UInt8) : Str :=
  if keep b then [Char.ofNat b.toNat]
  else if b = 32 then ['+']
  else ['%', hexUp (b.toNat / 16), hexUp (b.toNat % 16)]

/-- A name or a value. -/
def encodeText (s : Str) : Str := (utf8 s).flatMap byteText

/-- `serde_urlencoded::to_string` of a list of pairs (generators/form_urlencoded.rs 34, mock_server/form_urlencoded.rs 23). -/
def encode (ps : Params) : Str := QS.joinWith ['&'] (ps.map fun p => encodeText p.1 ++ '=' :: encodeText p.2)

/-- `slice::split` for a byte. -/
def splitBytes (c : UInt8) : Bytes → List Bytes
  | [] => [[]]
  | x :: xs => if x = c then [] :: splitBytes c xs else match splitBytes c xs with
    | [] => [[x]]
    | p :: ps => (x :: p) :: ps

/-- The parts before and after the first `=`; all of it and nothing if there is none. -/
def splitPair : Bytes → Bytes × Bytes
  | [] => ([], [])
  | x :: xs => if x = 61 then ([], xs) else (x :: (splitPair xs).1, (splitPair xs).2)

/-- Value of a hexadecimal digit. -/
def hexByte (b : UInt8) : Option Nat :=
  if 48 ≤ b ∧ b ≤ 57 then some (b.toNat - 48)
  else if 65 ≤ b ∧ b ≤ 70 then some (b.toNat - 55)
  else if 97 ≤ b ∧ b ≤ 102 then some (b.toNat - 87)
  else none

/-- The byte two digits stand for. -/
def hexPair (c d : UInt8) : Option UInt8 :=
  match hexByte c, hexByte d with
  | some x, some y => some (UInt8.ofNat (x * 16 + y))
  | _, _ => none

/-- `percent_decode`: a percent sign that is not followed by two digits is kept. -/
def percentDecode : Bytes → Bytes
  | [] => []
  | [b] => [b]
  | [b, c] => [b, c]
  | b :: c :: d :: rest =>
    if b = 37 then match hexPair c d with
      | some n => n :: percentDecode rest
      | none => b :: percentDecode (c :: d :: rest)
    else b :: percentDecode (c :: d :: rest)

/-- `+` stands for a space. -/
def unplus (b : Bytes) : Bytes := b.map fun x => if x = 43 then 32 else x

/-- `decode_utf8_lossy`; `bad` is what a text that is not UTF-8 becomes. -/
def lossy (bad : Bytes → Str) (b : Bytes) : Str := (QS.fromUtf8 b).getD (bad b)

/-- A name or a value of a form. -/
def decodeText (bad : Bytes → Str) (b : Bytes) : Str := lossy bad (percentDecode (unplus b))

/-- `serde_urlencoded::from_bytes` for a list of pairs (form_urlencoded.rs 34, generators/bodies.rs 76): never fails. -/
def parse (bad : Bytes → Str) (b : Bytes) : Params :=
  ((splitBytes 38 b).filter fun s => !s.isEmpty).map fun s =>
    (decodeText bad (splitPair s).1, decodeText bad (splitPair s).2)

/-! ## Generators -/

/-- A generator as seen by the handler: whether it applies in the current mode, and the value generated for a value
(`none` for an error).  Each generator is applied at most once, so that a function covers every random outcome. -/
structure FGen where
  applies : Bool
  gen : Str → Option Str

/-- `key.eq(..) || key.eq(..)` (generators/form_urlencoded.rs 51). -/
def isTarget (key : DocPath) (k : Str) (i : Nat) : Bool :=
  eqPath key (join rootPath k) || eqPath key (joinIndex (join rootPath k) i)

/-- The loop of `apply_key` (generators/form_urlencoded.rs 42-60), after the parameters named in `seen`; `index` counts the
parameters of that name so far. -/
def applyFrom (key : DocPath) (g : FGen) (seen : List Str) : Params → Params
  | [] => []
  | (k, v) :: ps =>
    if isTarget key k (seen.count k) then (k, (g.gen v).getD v) :: ps
    else (k, v) :: applyFrom key g (k :: seen) ps

/-- `apply_key` (generators/form_urlencoded.rs 42-60). -/
def applyKey (key : DocPath) (g : FGen) (ps : Params) : Params := applyFrom key g [] ps

/-- The loop of `process_body` (generators/form_urlencoded.rs 27-32), in (arbitrary) hash map order. -/
def applyAll (gs : List (DocPath × FGen)) (ps : Params) : Params :=
  gs.foldl (fun ps e => if e.2.applies then applyKey e.1 e.2 ps else ps) ps

/-- `generators_process_body` for a form (pact_matching/src/generators/bodies.rs 73-90) and `process_body`
(generators/form_urlencoded.rs 20-40): the new body. -/
def generateForm (bad : Bytes → Str) (gs : List (DocPath × FGen)) (body : Body) : Bytes :=
  utf8 (encode (applyAll gs (parse bad (body.value.getD []))))

/-! ## Forms given as JSON -/

/-- The text of a value (mock_server/form_urlencoded.rs 33-34, 39-40): numbers and strings only. -/
def scalar : Json → Option Str
  | .num n => some (Json.num n).text
  | .str s => some s
  | _ => none

/-- `generators.categories.entry(GeneratorCategory::BODY).or_insert(..)` (mock_server/form_urlencoded.rs 58). -/
def withBody (gs : Generators) : Generators :=
  if gs.any fun e => decide (e.1 = GenCategory.body) then gs else gs ++ [(GenCategory.body, [])]

/-- `handle_form_urlencoded_invalid_value` (mock_server/form_urlencoded.rs 54-62): the rules whose path contains the text of
the path are removed, with the body generators at these paths. -/
def dropAt (p : DocPath) (a : Integration.Acc) : Integration.Acc :=
  let hit := a.cat.rules.filter fun e => containsStr e.1.expr p.expr
  { cat := { a.cat with rules := a.cat.rules.filter fun e => !containsStr e.1.expr p.expr },
    gens := if hit.isEmpty then a.gens else (withBody a.gens).map fun e =>
      if e.1 = GenCategory.body then (e.1, e.2.filter fun g => !(hit.any fun r => eqPath r.1 g.1)) else e }

/-- The items of an array from index `i` on (mock_server/form_urlencoded.rs 36-43). -/
def itemParams (k : Str) (i : Nat) : List Json → Integration.Acc → Params × Integration.Acc
  | [], a => ([], a)
  | v :: vs, a =>
    match scalar v with
    | some s => let r := itemParams k (i + 1) vs a; ((k, s) :: r.1, r.2)
    | none => itemParams k (i + 1) vs (dropAt (joinIndex (join rootPath k) i) a)

/-- One attribute (mock_server/form_urlencoded.rs 31-46). -/
def fieldParams (k : Str) (v : Json) (a : Integration.Acc) : Params × Integration.Acc :=
  match v with
  | .arr vs => itemParams k 0 vs a
  | v => match scalar v with
    | some s => ([(k, s)], a)
    | none => ([], dropAt (join rootPath k) a)

/-- The attributes of an object (mock_server/form_urlencoded.rs 29-47). -/
def objParams : List (Str × Json) → Integration.Acc → Params × Integration.Acc
  | [], a => ([], a)
  | (k, v) :: es, a =>
    let r := fieldParams k v a
    let r' := objParams es r.2
    (r.1 ++ r'.1, r'.2)

/-- `convert_json_value_to_query_params` (mock_server/form_urlencoded.rs 26-52). -/
def toParams (j : Json) (a : Integration.Acc) : Params × Integration.Acc :=
  match j with
  | .obj m => objParams m a
  | _ => ([], a)

/-- `process_form_urlencoded_json` (mock_server/form_urlencoded.rs 15-24), for a document that is JSON. -/
def processForm (S : Integration.Setup) (j : Json) (a : Integration.Acc) : Res (Str × Integration.Acc) :=
  (Integration.processJson S j a).map fun r => let q := toParams r.1 r.2; (encode q.1, q.2)

end Form
end Verif
