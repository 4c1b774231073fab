import Verif.Rules
import Verif.JsonUtils
import Verif.Expr

/-
  Model of reading and writing matching rules and generators as JSON:
  rust/pact_models/src/matchingrules/mod.rs 24-58 (helpers), 114-235 (`from_json`, `to_json`), 284-476 (`values`,
  `create`), 643-702, 958-1017, 1087-1169 (rule lists and categories), 1376-1413 (`MatchingRules`);
  rust/pact_models/src/generators/mod.rs 149-231 (`to_json`, `from_map`), 559-578 (`Generators`);
  rust/pact_models/src/lib.rs 364-418 (`HttpStatus`); rust/pact_models/src/expression_parser.rs 38-67 (`DataType`).
-/

set_option autoImplicit false

namespace Verif
namespace RuleJson
open Rules

abbrev Obj := List (Str × Json)

/-- A JSON string from a literal. -/
def lit (s : String) : Json := .str s.toList
/-- `json!({...})`, and `insert` into a `serde_json::Map`. -/
def obj (es : List (String × Json)) : Json := .obj (OMap.collect (es.map fun e => (e.1.toList, e.2)))
/-- `Map::get`. -/
def get (k : String) (m : Obj) : Option Json := Json.lookup k.toList m
/-- `Value::get` with a string index. -/
def vget (k : String) : Json → Option Json
  | .obj m => get k m
  | _ => none

/-- Conversions from floating point numbers, which are not modelled: `f64 as usize` and `f64 as u16`; and the Unicode
tables used for paths and `str::to_lowercase`. -/
structure Params where
  uc : UC
  toUsize : Str → Nat
  toU16 : Str → Nat

/-! ### Generators -/

/-- `impl Display for UuidFormat` (generators/mod.rs 87-96). -/
def uuidText : UuidFormat → Str
  | .simple => "simple".toList
  | .lowerHyphen => "lower-case-hyphenated".toList
  | .upperHyphen => "upper-case-hyphenated".toList
  | .urn => "URN".toList

/-- `impl FromStr for UuidFormat` (generators/mod.rs 104-116). -/
def uuidParse (s : Str) : Option UuidFormat :=
  Json.lookup s [("simple".toList, .simple), ("lower-case-hyphenated".toList, .lowerHyphen),
    ("upper-case-hyphenated".toList, .upperHyphen), ("URN".toList, .urn)]

/-- `impl Serialize for DataType` (derived) and `Into<Value>` (expression_parser.rs 56-67). -/
def dataTypeText : DataType → Str
  | .string => "STRING".toList
  | .integer => "INTEGER".toList
  | .decimal => "DECIMAL".toList
  | .float => "FLOAT".toList
  | .raw => "RAW".toList
  | .boolean => "BOOLEAN".toList

/-- `impl From<Value> for DataType` (expression_parser.rs 38-53). -/
def dataTypeFromJson : Json → DataType
  | .str s => (Json.lookup (s.map Char.toUpper) [("STRING".toList, DataType.string), ("INTEGER".toList, .integer),
      ("DECIMAL".toList, .decimal), ("FLOAT".toList, .float), ("BOOLEAN".toList, .boolean)]).getD .raw
  | _ => .raw

/-- The optional attributes of the date and time generators. -/
def optAttr (k : String) : Option Str → List (String × Json)
  | some v => [(k, .str v)]
  | none => []

/-- `Generator::to_json` (generators/mod.rs 151-198). -/
def genToJson : Generator → Json
  | .randomInt min max => obj [("type", lit "RandomInt"), ("min", Expr.intJson min), ("max", Expr.intJson max)]
  | .uuid (some f) => obj [("type", lit "Uuid"), ("format", .str (uuidText f))]
  | .uuid none => obj [("type", lit "Uuid")]
  | .randomDecimal d => obj [("type", lit "RandomDecimal"), ("digits", .num (.pos d))]
  | .randomHexadecimal d => obj [("type", lit "RandomHexadecimal"), ("digits", .num (.pos d))]
  | .randomString d => obj [("type", lit "RandomString"), ("size", .num (.pos d))]
  | .regex r => obj [("type", lit "Regex"), ("regex", .str r)]
  | .date f e => obj ([("type", lit "Date")] ++ optAttr "format" f ++ optAttr "expression" e)
  | .time f e => obj ([("type", lit "Time")] ++ optAttr "format" f ++ optAttr "expression" e)
  | .dateTime f e => obj ([("type", lit "DateTime")] ++ optAttr "format" f ++ optAttr "expression" e)
  | .randomBoolean => obj [("type", lit "RandomBoolean")]
  | .providerState e (some d) =>
      obj [("type", lit "ProviderState"), ("expression", .str e), ("dataType", .str (dataTypeText d))]
  | .providerState e none => obj [("type", lit "ProviderState"), ("expression", .str e)]
  | .mockServerURL x r => obj [("type", lit "MockServerURL"), ("example", .str x), ("regex", .str r)]

/-- The arms of `Generator::from_map`. -/
inductive GenType where
  | randomInt | uuid | randomDecimal | randomHexadecimal | randomString | regex | date | time | dateTime
  | randomBoolean | providerState | mockServerURL
deriving DecidableEq, Repr

def genTypes : List (Str × GenType) :=
  [("RandomInt".toList, .randomInt), ("Uuid".toList, .uuid), ("RandomDecimal".toList, .randomDecimal),
   ("RandomHexadecimal".toList, .randomHexadecimal), ("RandomString".toList, .randomString),
   ("Regex".toList, .regex), ("Date".toList, .date), ("Time".toList, .time), ("DateTime".toList, .dateTime),
   ("RandomBoolean".toList, .randomBoolean), ("ProviderState".toList, .providerState),
   ("MockServerURL".toList, .mockServerURL)]

/-- `get_field_as_string` (json_utils.rs 106-108). -/
def fieldString (k : String) (m : Obj) : Option Str := (get k m).map Json.toStr

/-- `Generator::from_map` (generators/mod.rs 201-231). -/
def genFromMap (ty : Str) (m : Obj) : Option Generator :=
  match Json.lookup ty genTypes with
  | none => none
  | some .randomInt =>
      some (.randomInt (JsonUtils.jsonToI32 m "min".toList 0) (JsonUtils.jsonToI32 m "max".toList 10))
  | some .uuid => match get "format" m with
    | some f => some (.uuid (uuidParse f.toStr))
    | none => some (.uuid none)
  | some .randomDecimal => some (.randomDecimal (JsonUtils.jsonToU16 m "digits".toList 10))
  | some .randomHexadecimal => some (.randomHexadecimal (JsonUtils.jsonToU16 m "digits".toList 10))
  | some .randomString => some (.randomString (JsonUtils.jsonToU16 m "size".toList 10))
  | some .regex => (get "regex" m).map fun v => .regex v.toStr
  | some .date => some (.date (fieldString "format" m) (fieldString "expression" m))
  | some .time => some (.time (fieldString "format" m) (fieldString "expression" m))
  | some .dateTime => some (.dateTime (fieldString "format" m) (fieldString "expression" m))
  | some .randomBoolean => some .randomBoolean
  | some .providerState => (get "expression" m).map fun f =>
      .providerState f.toStr ((get "dataType" m).map dataTypeFromJson)
  | some .mockServerURL =>
      some (.mockServerURL ((fieldString "example" m).getD []) ((fieldString "regex" m).getD []))

/-- The type look-up shared by `parse_generator_from_map` (generators/mod.rs 559-578) and `generator_from_json`
(matchingrules/mod.rs 24-40): the generator a JSON object describes, if any. -/
def genOfObj (m : Obj) : Option Generator :=
  match get "type" m with
  | some (.str t) => genFromMap t m
  | _ => none

/-- `HashMap::insert` keyed by path. -/
def insertGen (m : List (DocPath × Generator)) (p : DocPath) (g : Generator) : List (DocPath × Generator) :=
  upsert m p g (fun _ => g)

/-- The loop over the `generators` of a variant (matchingrules/mod.rs 428-441). -/
def gensFromJson (P : Params) : List (DocPath × Generator) → Obj → Res (List (DocPath × Generator))
  | acc, [] => .ok acc
  | acc, (k, .obj m) :: es => (Path.new P.uc k).bind fun p =>
      gensFromJson P (match genOfObj m with
        | some g => insertGen acc p g
        | none => acc) es
  | acc, _ :: es => gensFromJson P acc es

/-- Entries of the JSON form of the generators of a variant (matchingrules/mod.rs 178-189). -/
def gensToJson (gs : List (DocPath × Generator)) : Json :=
  .obj (OMap.collect (gs.map fun e => (e.1.expr, genToJson e.2)))

/-! ### HTTP status -/

/-- `HttpStatus::to_json` (lib.rs 406-417). -/
def statusToJson : HttpStatus → Json
  | .statusCodes cs => .arr (cs.map fun c => .num (.pos c))
  | .information => lit "info"
  | .success => lit "success"
  | .redirect => lit "redirect"
  | .clientError => lit "clientError"
  | .serverError => lit "serverError"
  | .nonError => lit "nonError"
  | .error => lit "error"

/-- `s.parse::<u16>()`. -/
def parseU16 (s : Str) : Option Nat :=
  match s with
  | '+' :: r => parseDigits 65536 r
  | _ => parseDigits 65536 s

/-- One status code (lib.rs 378-387). -/
def codeFromJson (P : Params) : Json → Option Nat
  | .num (.pos n) => some (n % 65536)
  | .num (.neg n) => some ((65535 - n % 65536))
  | .num (.flt r) => some (P.toU16 r)
  | .str s => parseU16 s
  | _ => none

/-- `HttpStatus::from_json` (lib.rs 366-403). -/
def statusFromJson (P : Params) : Json → Option HttpStatus
  | .str s => Json.lookup s [("info".toList, HttpStatus.information), ("success".toList, .success),
      ("redirect".toList, .redirect), ("clientError".toList, .clientError), ("serverError".toList, .serverError),
      ("nonError".toList, .nonError), ("error".toList, .error)]
  | .arr a => if a.any (fun c => (codeFromJson P c).isNone) then none
      else some (.statusCodes (a.filterMap (codeFromJson P)))
  | _ => none

/-! ### Writing rules -/

/-- `RuleLogic::to_json` (matchingrules/mod.rs 644-649). -/
def logicJson : RuleLogic → Json
  | .and => lit "AND"
  | .or => lit "OR"

/-- The key of a rule list in the JSON form of a category (matchingrules/mod.rs 1003-1016). -/
def keyText (n : Category) (p : DocPath) : Str :=
  match n with
  | .header => (Path.firstField p).getD p.expr
  | .query => (Path.firstField p).getD p.expr
  | _ => p.expr

mutual
/-- `MatchingRule::to_json` (matchingrules/mod.rs 142-235), for a rule without references (see `toJson`). -/
def ruleJson : MatchingRule → Json
  | .equality => obj [("match", lit "equality")]
  | .regex r => obj [("match", lit "regex"), ("regex", .str r)]
  | .type => obj [("match", lit "type")]
  | .minType n => obj [("match", lit "type"), ("min", .num (.pos n))]
  | .maxType n => obj [("match", lit "type"), ("max", .num (.pos n))]
  | .minMaxType n m => obj [("match", lit "type"), ("min", .num (.pos n)), ("max", .num (.pos m))]
  | .timestamp f => obj [("match", lit "datetime"), ("format", .str f)]
  | .time f => obj [("match", lit "time"), ("format", .str f)]
  | .date f => obj [("match", lit "date"), ("format", .str f)]
  | .includes v => obj [("match", lit "include"), ("value", .str v)]
  | .number => obj [("match", lit "number")]
  | .integer => obj [("match", lit "integer")]
  | .decimal => obj [("match", lit "decimal")]
  | .boolean => obj [("match", lit "boolean")]
  | .null => obj [("match", lit "null")]
  | .contentType v => obj [("match", lit "contentType"), ("value", .str v)]
  | .arrayContains vs => obj [("match", lit "arrayContains"), ("variants", .arr (variantsJson vs))]
  | .values => obj [("match", lit "values")]
  | .statusCode s => obj [("match", lit "statusCode"), ("status", statusToJson s)]
  | .notEmpty => obj [("match", lit "notEmpty")]
  | .semver => obj [("match", lit "semver")]
  | .eachKey d => obj (("match", lit "eachKey") :: defAttrs d)
  | .eachValue d => obj (("match", lit "eachValue") :: defAttrs d)
termination_by structural x => x
def variantsJson : List Variant → List Json
  | [] => []
  | v :: vs => variantJson v :: variantsJson vs
termination_by structural x => x
/-- One variant (matchingrules/mod.rs 171-191). -/
def variantJson : Variant → Json
  | ⟨i, c, g⟩ => obj ([("index", .num (.pos i)), ("rules", catJson c)]
      ++ (if g.isEmpty then [] else [("generators", gensToJson g)]))
termination_by structural x => x
/-- `MatchingRuleCategory::to_v3_json` (matchingrules/mod.rs 1003-1017). -/
def catJson : RuleCategory → Json
  | ⟨n, m⟩ => .obj (OMap.collect (entriesJson n m))
termination_by structural x => x
def entriesJson : Category → List (DocPath × RuleList) → Obj
  | _, [] => []
  | n, e :: es => entryJson n e :: entriesJson n es
termination_by structural _ x => x
def entryJson : Category → DocPath × RuleList → Str × Json
  | n, (p, l) => (keyText n p, listJson l)
termination_by structural _ x => x
/-- `RuleList::to_v3_json` (matchingrules/mod.rs 697-702). -/
def listJson : RuleList → Json
  | ⟨rs, l, _⟩ => obj [("combine", logicJson l), ("matchers", .arr (rulesJson rs))]
termination_by structural x => x
def rulesJson : List MatchingRule → List Json
  | [] => []
  | r :: rs => ruleJson r :: rulesJson rs
termination_by structural x => x
/-- The attributes of an each-key or each-value rule besides `match` (matchingrules/mod.rs 197-233). -/
def defAttrs : RuleDef → List (String × Json)
  | ⟨v, _, rs, g, _⟩ => [("rules", .arr (eithersJson rs))]
      ++ (if v.isEmpty then [] else [("value", .str v)])
      ++ (match g with | some g => [("generator", genToJson g)] | none => [])
termination_by structural x => x
def eithersJson : List (MatchingRule ⊕ MatchingReference) → List Json
  | [] => []
  | r :: rs => eitherJson r :: eithersJson rs
termination_by structural x => x
def eitherJson : MatchingRule ⊕ MatchingReference → Json
  | .inl r => ruleJson r
  | .inr _ => .null
termination_by structural x => x
end

mutual
/-- Whether `expect_left` is called on a reference while the rule is written. -/
def ruleRefs : MatchingRule → Bool
  | .arrayContains vs => variantsRefs vs
  | .eachKey d => defRefs d
  | .eachValue d => defRefs d
  | _ => false
termination_by structural x => x
def variantsRefs : List Variant → Bool
  | [] => false
  | v :: vs => variantRefs v || variantsRefs vs
termination_by structural x => x
def variantRefs : Variant → Bool
  | ⟨_, c, _⟩ => catRefs c
termination_by structural x => x
def catRefs : RuleCategory → Bool
  | ⟨_, m⟩ => entriesRefs m
termination_by structural x => x
def entriesRefs : List (DocPath × RuleList) → Bool
  | [] => false
  | e :: es => entryRefs e || entriesRefs es
termination_by structural x => x
def entryRefs : DocPath × RuleList → Bool
  | (_, l) => listRefs l
termination_by structural x => x
def listRefs : RuleList → Bool
  | ⟨rs, _, _⟩ => rulesRefs rs
termination_by structural x => x
def rulesRefs : List MatchingRule → Bool
  | [] => false
  | r :: rs => ruleRefs r || rulesRefs rs
termination_by structural x => x
def defRefs : RuleDef → Bool
  | ⟨_, _, rs, _, _⟩ => eithersRefs rs
termination_by structural x => x
def eithersRefs : List (MatchingRule ⊕ MatchingReference) → Bool
  | [] => false
  | r :: rs => eitherRefs r || eithersRefs rs
termination_by structural x => x
def eitherRefs : MatchingRule ⊕ MatchingReference → Bool
  | .inl r => ruleRefs r
  | .inr _ => true
termination_by structural x => x
end

/-- `MatchingRule::to_json` (matchingrules/mod.rs 142-235): panics on a reference anywhere in the rule. -/
def toJson (r : MatchingRule) : Res Json := if ruleRefs r then .panic else .ok (ruleJson r)

/-! ### Reading rules -/

/-- The arms of `MatchingRule::create`. -/
inductive RuleType where
  | regex | equality | includes | type | number | integer | decimal | boolean | min | max | timestamp | date | time
  | null | contentType | arrayContains | values | statusCode | notEmpty | semver | eachKey | eachValue
deriving DecidableEq, Repr

def ruleTypes : List (Str × RuleType) :=
  [("regex".toList, .regex), ("equality".toList, .equality), ("include".toList, .includes), ("type".toList, .type),
   ("number".toList, .number), ("integer".toList, .integer), ("decimal".toList, .decimal), ("real".toList, .decimal),
   ("boolean".toList, .boolean), ("min".toList, .min), ("max".toList, .max), ("min-type".toList, .min),
   ("max-type".toList, .max), ("timestamp".toList, .timestamp), ("datetime".toList, .timestamp),
   ("date".toList, .date), ("time".toList, .time), ("null".toList, .null), ("contentType".toList, .contentType),
   ("content-type".toList, .contentType), ("arrayContains".toList, .arrayContains),
   ("array-contains".toList, .arrayContains), ("values".toList, .values), ("statusCode".toList, .statusCode),
   ("status-code".toList, .statusCode), ("notEmpty".toList, .notEmpty), ("not-empty".toList, .notEmpty),
   ("semver".toList, .semver), ("eachKey".toList, .eachKey), ("each-key".toList, .eachKey),
   ("eachValue".toList, .eachValue), ("each-value".toList, .eachValue)]

/-- `Ok` for a value, `Err` for none. -/
def okOr {A : Type} : Option A → Res A
  | some a => .ok a
  | none => .err

/-- The loop over the `matchers` array with `rule_from_json` (matchingrules/mod.rs 958-971, 1163-1166). -/
def addMatchers (rec : Json → Res MatchingRule) (p : DocPath) (l : RuleLogic) :
    RuleCategory → List Json → Res RuleCategory
  | c, [] => .ok c
  | c, j :: js => (rec j).bind fun r => addMatchers rec p l (addRule c p r l) js

/-- `json_to_string(val).to_uppercase() == "OR"` and its default (matchingrules/mod.rs 1155-1162).  No other
character than ASCII letters has an upper case form made of `O` and `R`. -/
def combine (v : Json) : RuleLogic :=
  match vget "combine" v with
  | some c => if c.toStr.map Char.toUpper = "OR".toList then .or else .and
  | none => .and

/-- `add_rule_list` (matchingrules/mod.rs 1154-1169); the branch for the path category (1088-1103, 1118-1133) does
the same with the empty path. -/
def addRuleList (rec : Json → Res MatchingRule) (c : RuleCategory) (p : DocPath) (v : Json) : Res RuleCategory :=
  match vget "matchers" v with
  | some (.arr a) => addMatchers rec p (combine v) c a
  | _ => .ok c

/-- The loop over the paths (matchingrules/mod.rs 1108-1110, 1143-1145). -/
def addEntries (rec : Json → Res MatchingRule) (P : Params) : RuleCategory → Obj → Res RuleCategory
  | c, [] => .ok c
  | c, (k, v) :: es => (Path.new P.uc k).bind fun p =>
      (addRuleList rec c p v).bind fun c => addEntries rec P c es

/-- The loop over the names of a query or header category (matchingrules/mod.rs 1137-1141). -/
def addNames (rec : Json → Res MatchingRule) : RuleCategory → Obj → Res RuleCategory
  | c, [] => .ok c
  | c, (k, v) :: es => (addRuleList rec c (Path.pushField Path.rootPath k) v).bind fun c => addNames rec c es

/-- `add_rules_from_json` (matchingrules/mod.rs 1087-1114). -/
def addRulesFromJson (rec : Json → Res MatchingRule) (P : Params) (c : RuleCategory) (rules : Json) :
    Res RuleCategory :=
  if c.name = .path ∧ (vget "matchers" rules).isSome = true then addRuleList rec c Path.empty rules
  else match rules with
    | .obj m => if (get "matchers" m).isSome then addRuleList rec c Path.empty rules else addEntries rec P c m
    | _ => .ok c

/-- `add_v3_rules_from_json` (matchingrules/mod.rs 1117-1152). -/
def addV3RulesFromJson (rec : Json → Res MatchingRule) (P : Params) (c : RuleCategory) (rules : Json) :
    Res RuleCategory :=
  if c.name = .path ∧ (vget "matchers" rules).isSome = true then addRuleList rec c Path.empty rules
  else match rules with
    | .obj m =>
      if (get "matchers" m).isSome then addRuleList rec c Path.empty rules
      else if c.name = .query ∨ c.name = .header then addNames rec c m
      else addEntries rec P c m
    | _ => .err

/-- One variant of an array-contains rule (matchingrules/mod.rs 418-446). -/
def variantFromJson (rec : Json → Res MatchingRule) (P : Params) (v : Json) : Res Variant :=
  (match vget "rules" v with
    | some rules => addRulesFromJson rec P (emptyCat .body) rules
    | none => .ok (addRule (emptyCat .body) Path.empty .equality .and)).bind fun cat =>
  (match vget "generators" v with
    | some (.obj m) => gensFromJson P [] m
    | _ => .ok []).map fun gens =>
  ⟨(JsonUtils.jsonToNum P.toUsize (vget "index" v)).getD 0, cat, gens⟩

def variantsFromJson (rec : Json → Res MatchingRule) (P : Params) : List Json → Res (List Variant)
  | [] => .ok []
  | v :: vs => (variantFromJson rec P v).bind fun x => (variantsFromJson rec P vs).map fun xs => x :: xs

/-- The elements of `rules_from_json` (matchingrules/mod.rs 42-58). -/
def rulesFromJson (rec : Json → Res MatchingRule) : List Json → Res (List (MatchingRule ⊕ MatchingReference))
  | [] => .ok []
  | j :: js => (rec j).bind fun r => (rulesFromJson rec js).map fun rs => .inl r :: rs

/-- The definition of an each-key or each-value rule (matchingrules/mod.rs 452-474). -/
def defFromJson (rec : Json → Res MatchingRule) (m : Obj) : Res RuleDef :=
  (match get "rules" m with
    | some (.arr a) => rulesFromJson rec a
    | some _ => .err
    | none => .ok []).map fun rules =>
  { value := match get "value" m with
      | some v => v.toStr
      | none => []
    valueType := .unknown
    rules := rules
    generator := match get "generator" m with
      | some (.obj g) => genOfObj g
      | _ => none
    expression := [] }

/-- `format` or the attribute named like the type (matchingrules/mod.rs 385-397). -/
def formatOf (ty : Str) (m : Obj) : Str :=
  match get "format" m with
  | some f => f.toStr
  | none => match Json.lookup ty m with
    | some f => f.toStr
    | none => []

/-- `MatchingRule::create` with the attributes of an object (matchingrules/mod.rs 344-476). -/
def createObj (rec : Json → Res MatchingRule) (P : Params) (ty : Str) (m : Obj) : Res MatchingRule :=
  match Json.lookup ty ruleTypes with
  | none => .err
  | some .regex => okOr ((get "regex" m).map fun v => .regex v.toStr)
  | some .equality => .ok .equality
  | some .includes => okOr ((get "value" m).map fun v => .includes v.toStr)
  | some .type =>
    match JsonUtils.jsonToNum P.toUsize (get "min" m), JsonUtils.jsonToNum P.toUsize (get "max" m) with
    | some a, some b => .ok (.minMaxType a b)
    | some a, none => .ok (.minType a)
    | none, some b => .ok (.maxType b)
    | none, none => .ok .type
  | some .number => .ok .number
  | some .integer => .ok .integer
  | some .decimal => .ok .decimal
  | some .boolean => .ok .boolean
  | some .min => okOr ((JsonUtils.jsonToNum P.toUsize (get "min" m)).map .minType)
  | some .max => okOr ((JsonUtils.jsonToNum P.toUsize (get "max" m)).map .maxType)
  | some .timestamp => .ok (.timestamp (formatOf ty m))
  | some .date => .ok (.date (formatOf ty m))
  | some .time => .ok (.time (formatOf ty m))
  | some .null => .ok .null
  | some .contentType => okOr ((get "value" m).map fun v => .contentType v.toStr)
  | some .arrayContains => match get "variants" m with
    | some (.arr vs) => (variantsFromJson rec P vs).map .arrayContains
    | _ => .err
  | some .values => .ok .values
  | some .statusCode => match get "status" m with
    | some s => okOr ((statusFromJson P s).map .statusCode)
    | none => .ok (.statusCode .success)
  | some .notEmpty => .ok .notEmpty
  | some .semver => .ok .semver
  | some .eachKey => (defFromJson rec m).map .eachKey
  | some .eachValue => (defFromJson rec m).map .eachValue

/-- `MatchingRule::create` (matchingrules/mod.rs 335-476). -/
def create (rec : Json → Res MatchingRule) (P : Params) (ty : Str) : Json → Res MatchingRule
  | .obj m => createObj rec P ty m
  | .null => createObj rec P ty []
  | _ => .err

/-- `MatchingRule::from_json` (matchingrules/mod.rs 114-139). -/
def fromJsonStep (rec : Json → Res MatchingRule) (P : Params) : Json → Res MatchingRule
  | .obj m =>
    match (get "match" m).or (get "pact:matcher:type" m) with
    | some t => createObj rec P t.toStr m
    | none =>
      match get "regex" m with
      | some v => .ok (.regex v.toStr)
      | none =>
      match JsonUtils.jsonToNum P.toUsize (get "min" m) with
      | some n => .ok (.minType n)
      | none =>
      match JsonUtils.jsonToNum P.toUsize (get "max" m) with
      | some n => .ok (.maxType n)
      | none =>
      match get "timestamp" m with
      | some v => .ok (.timestamp v.toStr)
      | none =>
      match get "time" m with
      | some v => .ok (.time v.toStr)
      | none =>
      match get "date" m with
      | some v => .ok (.date v.toStr)
      | none => .err
  | _ => .err

/-- Recursion: nested rules are read from strictly smaller values, so a bound above the nesting depth is enough
(`RuleJsonProps.fromJsonF_stable`). -/
def fromJsonF (P : Params) : Nat → Json → Res MatchingRule
  | 0, _ => .err
  | n + 1, j => fromJsonStep (fromJsonF P n) P j

/-- `MatchingRule::from_json` (matchingrules/mod.rs 114-139). -/
def fromJson (P : Params) (j : Json) : Res MatchingRule := fromJsonF P (Json.depth j + 1) j

/-- `MatchingRule::values` (matchingrules/mod.rs 284-332) as the JSON object the matching engine makes of it
(pact_matching/src/engine/mod.rs 1353-1357), for a rule without references. -/
def valuesJson : MatchingRule → Json
  | .regex r => obj [("regex", .str r)]
  | .minType n => obj [("min", .num (.pos n))]
  | .maxType n => obj [("max", .num (.pos n))]
  | .minMaxType n m => obj [("min", .num (.pos n)), ("max", .num (.pos m))]
  | .timestamp f => obj [("format", .str f)]
  | .time f => obj [("format", .str f)]
  | .date f => obj [("format", .str f)]
  | .includes v => obj [("value", .str v)]
  | .contentType v => obj [("value", .str v)]
  | .arrayContains vs => obj [("variants", .arr (vs.map fun v => .arr
      [.num (.pos v.index), catJson v.rules, gensToJson v.gens]))]
  | .statusCode s => obj [("status", statusToJson s)]
  | .eachKey d => obj (defAttrs d)
  | .eachValue d => obj (defAttrs d)
  | _ => .obj []

/-- `MatchingRule::create(rule.name(), rule.values())` as the interpreter of the matching engine does
(pact_matching/src/engine/interpreter.rs 1253). -/
def recreate (P : Params) (r : MatchingRule) : Res MatchingRule :=
  create (fromJson P) P (MatchingRule.name r).toList (valuesJson r)

/-! ### Whole rule tables -/

/-- `impl Display for Category` (matchingrules/mod.rs 869-882, 908-913). -/
def catName : Category → Str
  | .method => "method".toList
  | .path => "path".toList
  | .header => "header".toList
  | .query => "query".toList
  | .body => "body".toList
  | .status => "status".toList
  | .contents => "contents".toList
  | .metadata => "metadata".toList

/-- `impl From<&str> for Category` (matchingrules/mod.rs 853-866, 890-906). -/
def catParse (uc : UC) (s : Str) : Category :=
  (Json.lookup (uc.lower s) [("method".toList, Category.method), ("path".toList, .path), ("header".toList, .header),
    ("headers".toList, .header), ("query".toList, .query), ("body".toList, .body), ("status".toList, .status),
    ("contents".toList, .contents), ("metadata".toList, .metadata)]).getD .body

/-- `MatchingRules::to_v3_json` (matchingrules/mod.rs 1395-1413). -/
def matchersToJson (m : MatchingRules) : Json :=
  .obj (OMap.collect (m.filterMap fun e =>
    match e.1 with
    | .path => ((lookup e.2.rules Path.empty).or (lookup e.2.rules Path.rootPath)).map fun l => (catName e.1, listJson l)
    | _ => match catJson e.2 with
      | .obj (x :: xs) => some (catName e.1, .obj (x :: xs))
      | _ => none))

/-- `load_from_v3_map` (matchingrules/mod.rs 1376-1383). -/
def loadV3 (P : Params) : MatchingRules → Obj → Res MatchingRules
  | m, [] => .ok m
  | m, (k, v) :: es =>
    let c := catParse P.uc k
    let cat := (rulesForCategory m c).getD (emptyCat c)
    (addV3RulesFromJson (fromJson P) P cat v).bind fun cat' =>
      loadV3 P ((m.filter fun e => !decide (e.1 = c)) ++ [(c, cat')]) es

/-- `impl PartialEq for MatchingRules` (matchingrules/mod.rs 1466-1478): the non-empty categories, sorted by their
names, are compared.  Each category occurs once, so this is: equally many, and the same table for each. -/
def mrEq (m n : MatchingRules) : Bool :=
  let m' := m.filter fun e => !e.2.rules.isEmpty
  let n' := n.filter fun e => !e.2.rules.isEmpty
  decide (m'.length = n'.length) &&
    m'.all fun e => match rulesForCategory n' e.1 with
      | some t => catEq e.2 t
      | none => false

end RuleJson
end Verif
