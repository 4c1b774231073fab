import Verif.PactFile
import Verif.QueryStrings

/-
  Model of mismatches as values (rust/pact_matching/src/lib.rs 776-1180: `CommonMismatch`, `Mismatch`, its JSON form,
  descriptions, equality and conversions) and of the result of a verification run with its JSON report
  (rust/pact_verifier/src/verification_result.rs 11-158, rust/pact_verifier_cli/src/reports.rs 12-18).

  Left out: descriptions with ANSI escape codes, the durations and the descriptions of the single interactions
  (`interaction_results`, which are not in the JSON report), and writing the file.  `String::from_utf8_lossy` is a
  parameter.
-/

set_option autoImplicit false

namespace Verif
namespace Report
open RuleJson PactFile

/-- `enum Mismatch` (lib.rs 890-974), with the derived order (889): the variants in this order, then the attributes in
theirs. -/
inductive Mis where
  | method (expected actual mismatch : Str)
  | path (expected actual mismatch : Str)
  | status (expected actual : Nat) (mismatch : Str)
  | query (parameter expected actual mismatch : Str)
  | header (key expected actual mismatch : Str)
  | bodyType (expected actual mismatch : Str) (expectedBody actualBody : Option Bytes)
  | body (path : Str) (expected actual : Option Bytes) (mismatch : Str)
  | metadata (key expected actual mismatch : Str)
deriving DecidableEq, Repr, Ord

/-- `Mismatch::mismatch_type` (lib.rs 1078-1089). -/
def Mis.kind : Mis → String
  | .method .. => "MethodMismatch"
  | .path .. => "PathMismatch"
  | .status .. => "StatusMismatch"
  | .query .. => "QueryMismatch"
  | .header .. => "HeaderMismatch"
  | .bodyType .. => "BodyTypeMismatch"
  | .body .. => "BodyMismatch"
  | .metadata .. => "MetadataMismatch"

/-- Bytes in the report (lib.rs 1035-1045, 1051-1058): their text, or a fixed text when they are not UTF-8. -/
def bytesJson (err : String) : Option Bytes → Json
  | some b => .str ((QS.fromUtf8 b).getD err.toList)
  | none => .null

/-- The text for a body of `BodyTypeMismatch` that is not UTF-8 (lib.rs 1037, 1042). -/
def typeErr : String := "ERROR: could not convert to UTF-8 from bytes"
/-- The text for a value of `BodyMismatch` that is not UTF-8 (lib.rs 1052, 1056). -/
def bodyErr : String := "ERROR: could not convert from bytes"

/-- `Mismatch::to_json` (lib.rs 979-1075). -/
def Mis.toJson : Mis → Json
  | .method e a m => obj [("type", .str "MethodMismatch".toList), ("expected", .str e), ("actual", .str a), ("mismatch", .str m)]
  | .path e a m => obj [("type", .str "PathMismatch".toList), ("expected", .str e), ("actual", .str a), ("mismatch", .str m)]
  | .status e a m => obj [("type", .str "StatusMismatch".toList), ("expected", .num (.pos e)), ("actual", .num (.pos a)),
      ("mismatch", .str m)]
  | .query p e a m => obj [("type", .str "QueryMismatch".toList), ("parameter", .str p), ("expected", .str e),
      ("actual", .str a), ("mismatch", .str m)]
  | .header k e a m => obj [("type", .str "HeaderMismatch".toList), ("key", .str k), ("expected", .str e),
      ("actual", .str a), ("mismatch", .str m)]
  | .bodyType e a m eb ab => obj [("type", .str "BodyTypeMismatch".toList), ("expected", .str e), ("actual", .str a),
      ("mismatch", .str m), ("expectedBody", bytesJson typeErr eb), ("actualBody", bytesJson typeErr ab)]
  | .body p e a m => obj [("type", .str "BodyMismatch".toList), ("path", .str p), ("expected", bytesJson bodyErr e),
      ("actual", bytesJson bodyErr a), ("mismatch", .str m)]
  | .metadata k e a m => obj [("type", .str "MetadataMismatch".toList), ("key", .str k), ("expected", .str e),
      ("actual", .str a), ("mismatch", .str m)]

/-- `impl PartialEq for Mismatch` (lib.rs 1146-1184). -/
def Mis.eqv : Mis → Mis → Bool
  | .method e1 a1 _, .method e2 a2 _ => decide (e1 = e2) && decide (a1 = a2)
  | .path e1 a1 _, .path e2 a2 _ => decide (e1 = e2) && decide (a1 = a2)
  | .status e1 a1 _, .status e2 a2 _ => decide (e1 = e2) && decide (a1 = a2)
  | .bodyType e1 a1 _ _ _, .bodyType e2 a2 _ _ _ => decide (e1 = e2) && decide (a1 = a2)
  | .query p1 e1 a1 _, .query p2 e2 a2 _ => decide (p1 = p2) && decide (e1 = e2) && decide (a1 = a2)
  | .header p1 e1 a1 _, .header p2 e2 a2 _ => decide (p1 = p2) && decide (e1 = e2) && decide (a1 = a2)
  | .body p1 e1 a1 _, .body p2 e2 a2 _ => decide (p1 = p2) && decide (e1 = e2) && decide (a1 = a2)
  | .metadata p1 e1 a1 _, .metadata p2 e2 a2 _ => decide (p1 = p2) && decide (e1 = e2) && decide (a1 = a2)
  | _, _ => false

/-- `Mismatch::description`, which is also `Display` (lib.rs 1107-1124, 1186-1190). -/
def Mis.description : Mis → Str
  | .method e a m => if m.isEmpty then "expected ".toList ++ e ++ " but was ".toList ++ a else m
  | .path _ _ m => m
  | .status _ _ m => m
  | .query _ _ _ m => m
  | .header _ _ _ m => m
  | .bodyType e a _ _ _ => "Expected a body of '".toList ++ e ++ "' but the actual content type was '".toList ++ a ++ ['\'']
  | .body p _ _ m => p ++ " -> ".toList ++ m
  | .metadata _ _ _ m => m

/-- `struct CommonMismatch` (lib.rs 777-788). -/
structure Common where
  path : Str
  expected : Str
  actual : Str
  description : Str
deriving DecidableEq, Repr

/-- `CommonMismatch::to_body_mismatch` (lib.rs 792-799). -/
def Common.toBody (c : Common) : Mis := .body c.path (some (utf8 c.expected)) (some (utf8 c.actual)) c.description
/-- `CommonMismatch::to_query_mismatch` (lib.rs 802-809). -/
def Common.toQuery (c : Common) : Mis := .query c.path c.expected c.actual c.description
/-- `CommonMismatch::to_header_mismatch` (lib.rs 812-819). -/
def Common.toHeader (c : Common) : Mis := .header c.path c.expected c.actual c.description

/-- `impl From<Mismatch> for CommonMismatch` (lib.rs 834-886); `lossy` is `String::from_utf8_lossy`. -/
def Mis.common (lossy : Bytes → Str) : Mis → Common
  | .method e a m => ⟨[], e, a, m⟩
  | .path e a m => ⟨[], e, a, m⟩
  | .status e a m => ⟨[], natStr e, natStr a, m⟩
  | .query p e a m => ⟨p, e, a, m⟩
  | .header k e a m => ⟨k, e, a, m⟩
  | .bodyType e a m _ _ => ⟨[], e, a, m⟩
  | .body p e a m => ⟨p, lossy (e.getD []), lossy (a.getD []), m⟩
  | .metadata k e a m => ⟨k, e, a, m⟩

/-! ### The report -/

/-- `enum VerificationMismatchResult` (verification_result.rs 103-118). -/
inductive Failure where
  | mismatches (ms : List Mis) (id : Option Str)
  | error (message : Str) (id : Option Str)
deriving DecidableEq, Repr

/-- `Into<Value>` for `VerificationMismatchResult` (verification_result.rs 137-156). -/
def Failure.toJson : Failure → Json
  | .mismatches ms id => obj [("type", .str "mismatches".toList), ("mismatches", .arr (ms.map Mis.toJson)),
      ("interactionId", .str (id.getD []))]
  | .error e id => obj [("type", .str "error".toList), ("message", .str e), ("interactionId", .str (id.getD []))]

/-- `struct VerificationExecutionResult` (verification_result.rs 40-54). -/
structure Report where
  result : Bool
  notices : List (List (Str × Str))
  output : List Str
  pendingErrors : List (Str × Failure)
  errors : List (Str × Failure)

/-- `VerificationExecutionResult::new` (verification_result.rs 58-67). -/
def Report.new : Report := ⟨true, [], [], [], []⟩

/-- A failed interaction (verification_result.rs 77-83, 84-90). -/
def failureJson (e : Str × Failure) : Json := obj [("interaction", .str e.1), ("mismatch", e.2.toJson)]

/-- A notice (verification_result.rs 73-75). -/
def noticeJson (m : List (Str × Str)) : Json := .obj (OMap.collect (m.map fun e => (e.1, Json.str e.2)))

/-- `Into<Value>` for `VerificationExecutionResult` (verification_result.rs 69-94). -/
def Report.toJson (r : Report) : Json :=
  obj [("result", .bool r.result), ("notices", .arr (r.notices.map noticeJson)),
    ("output", .arr (r.output.map Json.str)), ("pendingErrors", .arr (r.pendingErrors.map failureJson)),
    ("errors", .arr (r.errors.map failureJson))]

/-- `write_json_report` (reports.rs 12-18): the contents of the file. -/
def Report.file (r : Report) : Bytes := utf8 r.toJson.text

/-! ### The output -/

/-- `Mismatch::summary` (lib.rs 1092-1103). -/
def Mis.summary : Mis → Str
  | .method e _ _ => "is a ".toList ++ e ++ " request".toList
  | .path e _ _ => "to path '".toList ++ e ++ ['\'']
  | .status e _ _ => "has status code ".toList ++ natStr e
  | .query p e _ _ => "includes parameter '".toList ++ p ++ "' with value '".toList ++ e ++ ['\'']
  | .header k e _ _ => "includes header '".toList ++ k ++ "' with value '".toList ++ e ++ ['\'']
  | .bodyType .. => "has a matching body".toList
  | .body .. => "has a matching body".toList
  | .metadata .. => "has matching metadata".toList

/-- What mismatches of a kind are sorted by (pact_verifier/src/lib.rs 1192-1200); `none` for the kinds that use the derived
order. -/
def Mis.place : Mis → Option Str
  | .query p _ _ _ => some p
  | .header k _ _ _ => some k
  | .body p _ _ _ => some p
  | .metadata k _ _ _ => some k
  | _ => none

/-- `chunk_by(|m| m.mismatch_type())` (pact_verifier/src/lib.rs 1188): mismatches of the same kind that follow each other. -/
def chunks : List Mis → List (List Mis)
  | [] => []
  | m :: ms => match chunks ms with
    | (n :: g) :: gs => if m.kind = n.kind then (m :: n :: g) :: gs else [m] :: (n :: g) :: gs
    | gs => [m] :: gs

/-- `Ord::cmp` of two places, as less or equal. -/
def placeLe (m n : Mis) : Bool := !Json.strLt (n.place.getD []) (m.place.getD [])

/-- A stable sort, as an insertion sort (the result of `sorted_by` does not depend on the algorithm). -/
def insertBy (le : Mis → Mis → Bool) (m : Mis) : List Mis → List Mis
  | [] => [m]
  | n :: ns => if le m n then m :: n :: ns else n :: insertBy le m ns

/-- The sort. -/
def sortBy (le : Mis → Mis → Bool) (ms : List Mis) : List Mis := ms.foldr (insertBy le) []

/-- `sorted_by` for the mismatches of a chunk, which have the same kind (pact_verifier/src/lib.rs 1192-1200). -/
def sortChunk (ms : List Mis) : List Mis :=
  if ms.all (fun m => m.place.isSome) then sortBy placeLe ms else sortBy (fun m n => (compare m n).isLE) ms

/-- A line with a mismatch (pact_verifier/src/lib.rs 1191, 1201), not coloured. -/
def line (m : Mis) : Str := "           ".toList ++ m.description

/-- The difference of the bodies (`display_body_mismatch`, pact_verifier/src/lib.rs 771-783, 1204-1206); `diff` is the text for a
path, if the expected body is JSON. -/
def diffLines (diff : Str → Option Str) : Mis → List Str
  | .body p _ _ _ => (diff p).toList
  | _ => []

/-- The lines of a chunk (pact_verifier/src/lib.rs 1189-1206). -/
def chunkLines (diff : Str → Option Str) (i j : Nat) : List Mis → List Str
  | [] => []
  | m :: ms => ("    ".toList ++ natStr (i + 1) ++ ['.'] ++ natStr j ++ ") ".toList ++ m.summary) :: line m ::
      (sortChunk ms).map line ++ diffLines diff m

/-- The loop over the chunks (pact_verifier/src/lib.rs 1187-1209). -/
def chunksLines (diff : Str → Option Str) (i : Nat) : Nat → List (List Mis) → List Str
  | _, [] => []
  | j, g :: gs => chunkLines diff i j g ++ chunksLines diff i (j + 1) gs

/-- `interaction_mismatch_output` (pact_verifier/src/lib.rs 1176-1210), not coloured. -/
def mismatchOutput (diff : Str → Option Str) (i : Nat) (description : Str) (ms : List Mis) : List Str :=
  (natStr (i + 1) ++ ") ".toList ++ description) :: chunksLines diff i 1 (chunks ms)

/-- `process_errors` (pact_verifier/src/lib.rs 1164-1173); `diff` takes the description of the failed interaction, too. -/
def processErrors (diff : Str → Str → Option Str) : Nat → List (Str × Failure) → List Str
  | _, [] => []
  | i, (d, .error e _) :: es => (natStr (i + 1) ++ ") ".toList ++ d ++ " - ".toList ++ e ++ ['\n']) :: processErrors diff (i + 1) es
  | i, (d, .mismatches ms _) :: es => mismatchOutput (diff d) i d ms ++ processErrors diff (i + 1) es

end Report
end Verif
