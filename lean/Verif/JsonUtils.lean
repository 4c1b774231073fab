import Verif.Maps
import Verif.Path

/-
  Model of rust/pact_models/src/json_utils.rs: numbers read from JSON (27-78), deep merge (197-220),
  resolution of path expressions (236-314), and of the JSON generator handler
  rust/pact_models/src/generators/mod.rs 1226-1273 with `serde_json::Value::pointer_mut`.
-/

set_option autoImplicit false

namespace Verif
namespace JsonUtils
open Path

/-! ### Numbers -/

/-- `Number::as_i64` (serde_json): the integer value if it fits `i64`. -/
def asI64 : Num → Option Int
  | .pos n => if n < 2 ^ 63 then some (n : Int) else none
  | .neg n => some (-((n : Int) + 1))
  | .flt _ => none

/-- `Number::as_u64` (serde_json). -/
def asU64 : Num → Option Nat
  | .pos n => some n
  | _ => none

/-- `num as i32` for an `i64`: the low 32 bits, as a signed number. -/
def asI32 (n : Int) : Int := (n + 2 ^ 31) % 2 ^ 32 - 2 ^ 31

/-- `num as u16` for a `u64`: the low 16 bits. -/
def asU16 (n : Nat) : Nat := n % 65536

/-- `impl JsonToNum<i32>` (json_utils.rs 26-38). -/
def jsonToI32 (m : List (Str × Json)) (field : Str) (dflt : Int) : Int :=
  match Json.lookup field m with
  | some (.num n) => match asI64 n with
    | some i => asI32 i
    | none => dflt
  | _ => dflt

/-- `impl JsonToNum<u16>` (json_utils.rs 40-52). -/
def jsonToU16 (m : List (Str × Json)) (field : Str) (dflt : Nat) : Nat :=
  match Json.lookup field m with
  | some (.num n) => match asU64 n with
    | some i => asU16 i
    | none => dflt
  | _ => dflt

/-- `json_to_num` (json_utils.rs 64-77).  `f64 as usize` (truncation, saturating) is a parameter. -/
def jsonToNum (floatTrunc : Str → Nat) (v : Option Json) : Option Nat :=
  match v with
  | some (.num (.pos n)) => some n
  | some (.num (.neg _)) => none
  | some (.num (.flt r)) => some (floatTrunc r)
  | some (.str s) => parseUsize s
  | _ => none

/-! ### Deep merge -/

mutual
/-- `json_deep_merge(value, other)` (json_utils.rs 197-220).  The fold over
`entries.iter().chain(other_entries.iter())` starts with an empty map; its first half inserts the entries of
a map, which have distinct keys, and so rebuilds that map: the model starts from `entries`. -/
def deepMerge : Json → Json → Json
  | value, .arr b => match value with
    | .arr a => .arr (a ++ b)
    | _ => .arr b
  | value, .obj b => match value with
    | .obj a => .obj (mergeEntries a b)
    | _ => .obj b
  | _, .null => .null
  | _, .bool b => .bool b
  | _, .num n => .num n
  | _, .str s => .str s
termination_by structural _ x => x
/-- The second half of the fold of `json_deep_merge` (json_utils.rs 203-216). -/
def mergeEntries : List (Str × Json) → List (Str × Json) → List (Str × Json)
  | m, [] => m
  | m, e :: es => mergeEntries (mergeEntry m e) es
termination_by structural _ x => x
/-- One step of the fold (json_utils.rs 207-214). -/
def mergeEntry : List (Str × Json) → Str × Json → List (Str × Json)
  | m, (k, v) => OMap.insert k (match Json.lookup k m with
    | some w => deepMerge w v
    | none => v) m
termination_by structural _ x => x
end

/-! ### Resolving a path expression -/

/-- `indextree::Arena<String>`: the tree built by `query_object_graph`, without its root. -/
inductive PTree where
  | node (name : Str) (children : List PTree)

/-- `fn query_object_graph` (json_utils.rs 253-314): the nodes appended under the current node.  An index
outside the list does not return: the loop goes on with the next token and the same value. -/
def queryGraph : List PathToken → Json → List PTree
  | [], _ => []
  | .field name :: ts, .obj es => match Json.lookup name es with
    | some v => [.node name (queryGraph ts v)]
    | none => []
  | .field _ :: _, _ => []
  | .index i :: ts, .arr l => match l[i]? with
    | some v => [.node (natStr i) (queryGraph ts v)]
    | none => queryGraph ts (.arr l)
  | .index _ :: _, _ => []
  | .star :: ts, .obj es => es.map (fun e => .node e.1 (queryGraph ts e.2))
  | .star :: _, _ => []
  | .starIndex :: ts, .arr l => l.zipIdx.map (fun e => .node (natStr e.2) (queryGraph ts e.1))
  | .starIndex :: _, _ => []
  | .root :: ts, j => queryGraph ts j

mutual
/-- The leaves in `root.descendants` with a non-empty name whose ancestors are `n` in number, itself and the
root included (json_utils.rs 240-249); the names from the root down.  `above` are the names of the proper
ancestors. -/
def leaves (n : Nat) (above : List Str) : PTree → List (List Str)
  | .node name [] => if !name.isEmpty && decide ((above ++ [name]).length = n) then [above ++ [name]] else []
  | .node name (c :: cs) => leavesList n (above ++ [name]) (c :: cs)
termination_by structural x => x
def leavesList (n : Nat) (above : List Str) : List PTree → List (List Str)
  | [] => []
  | t :: ts => leaves n above t ++ leavesList n above ts
termination_by structural x => x
end

/-- `path.iter().rev().join("/")`. -/
def joinSlash : List Str → Str
  | [] => []
  | [x] => x
  | x :: xs => x ++ '/' :: joinSlash xs

/-- `pub fn resolve_path` (json_utils.rs 236-251). -/
def resolvePath (j : Json) (ts : List PathToken) : List Str :=
  (leavesList ts.length [[]] (queryGraph ts j)).map joinSlash

/-! ### JSON pointers -/

/-- `str::split('/')`. -/
def splitSlash : Str → List Str
  | [] => [[]]
  | c :: cs => if c = '/' then [] :: splitSlash cs else
    match splitSlash cs with
    | [] => [[c]]
    | p :: ps => (c :: p) :: ps

/-- `str::replace` of a two character pattern by one character. -/
def replacePair (x y r : Char) : Str → Str
  | [] => []
  | [c] => [c]
  | c :: d :: cs => if c = x ∧ d = y then r :: replacePair x y r cs else c :: replacePair x y r (d :: cs)

/-- `x.replace("~1", "/").replace("~0", "~")` in `Value::pointer_mut` (serde_json). -/
def unescapeToken (s : Str) : Str := replacePair '~' '0' '~' (replacePair '~' '1' '/' s)

/-- `fn parse_index` (serde_json): no sign and no leading zeros. -/
def parseIndex (s : Str) : Option Nat :=
  match s with
  | '+' :: _ => none
  | ['0'] => some 0
  | '0' :: _ => none
  | _ => parseDigits usizeLim s

/-- Replacing the value of a key. -/
def modifyKey (k : Str) (f : Json → Json) (es : List (Str × Json)) : List (Str × Json) :=
  es.map (fun e => if e.1 = k then (e.1, f e.2) else e)

/-- Updating the value found by following the decoded tokens of a pointer (`try_fold` in
`Value::pointer_mut`); nothing changes if there is none. -/
def updateTokens : List Str → (Json → Json) → Json → Json
  | [], f, j => f j
  | t :: ts, f, .obj es => .obj (modifyKey t (updateTokens ts f) es)
  | t :: ts, f, .arr l => match parseIndex t with
    | some i => .arr (l.modify i (updateTokens ts f))
    | none => .arr l
  | _ :: _, _, j => j

/-- `if let Some(v) = value.pointer_mut(ptr) { *v = f(v) }` (serde_json `pointer_mut`). -/
def pointerUpdate (ptr : Str) (f : Json → Json) (j : Json) : Json :=
  if ptr.isEmpty then f j
  else if ptr.head? = some '/' then updateTokens (((splitSlash ptr).drop 1).map unescapeToken) f j
  else j

/-! ### Applying generators to a JSON body -/

/-- A generator as seen by the JSON handler: whether it applies in the current mode
(`corresponds_to_mode`), and the value generated for the value found at a pointer (`generate_value`; `none`
for an error).  Values may be random: every pointer is visited once per generator, so a function of the
pointer covers every outcome. -/
structure Gen where
  applies : Bool
  gen : Str → Json → Option Json

/-- Replacing a value by the generated one, or keeping it on an error (generators/mod.rs 1258-1261). -/
def Gen.value (g : Gen) (ptr : Str) (v : Json) : Json := (g.gen ptr v).getD v

/-- `JsonHandler::apply_key` (generators/mod.rs 1248-1272). -/
def applyKey (p : List PathToken) (g : Gen) (j : Json) : Json :=
  let ptrs := resolvePath j p
  if !ptrs.isEmpty then ptrs.foldl (fun j ptr => pointerUpdate ptr (g.value ptr) j) j
  else if p.length = 1 then g.value [] j
  else j

/-- `JsonHandler::process_body` (generators/mod.rs 1232-1246), over the generators in (arbitrary) hash map
order. -/
def processBody (gs : List (DocPath × Gen)) (j : Json) : Json :=
  gs.foldl (fun j e => if e.2.applies then applyKey e.1.tokens e.2 j else j) j

end JsonUtils
end Verif
