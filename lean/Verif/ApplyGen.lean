import Verif.Provider
import Verif.Form
import Verif.DateExpr
import Verif.JsonUtils

/-
  Model of the application of generators to requests, responses and messages: `generate_request`, `generate_response`
  (rust/pact_matching/src/lib.rs 2278-2400), `generators_process_body` (rust/pact_matching/src/generators/bodies.rs 22-125),
  the variant matcher and the functions for messages (rust/pact_matching/src/generators/mod.rs 79-262), `build_generators`
  (rust/pact_models/src/http_parts.rs 105-119), `apply_generators` and the conversions `GenerateValue<u16>`, `<String>`,
  `<Vec<String>>` and `<Value>` of a generator (rust/pact_models/src/generators/mod.rs 234-241, 688-700, 775-784, 822-1220),
  `JsonHandler` (1222-1275) and the conversions of a `DataValue` (rust/pact_models/src/expression_parser.rs 155-340).

  The features `datetime`, `xml` and `form_urlencoded` are on, plugins are not modelled (no content generator is found).
-/

set_option autoImplicit false

namespace Verif
namespace ApplyGen
open Path Rules Generate PactFile Query Headers
open RuleJson (Obj)
open Provider (Libs asBody)

/-! ### Generators and their environment -/

/-- `enum Generator` (generators/mod.rs 113-147): those of the tables, and `ArrayContains`, which only comes from a matching
rule. -/
inductive AnyGen where
  | gen (g : Generator)
  | variants (vs : List (VariantOf MatchingRule))

/-- `enum GeneratorTestMode` (generators/mod.rs 396-403). -/
inductive Mode where
  | consumer | provider
deriving DecidableEq, Repr

/-- `corresponds_to_mode` (generators/mod.rs 234-240). -/
def corresponds (mode : Mode) : AnyGen → Bool
  | .gen (.providerState _ _) => decide (mode = .provider)
  | .gen (.mockServerURL _ _) => decide (mode = .consumer)
  | _ => true

/-- The random numbers, one independent source for every place a value is generated at (category, key of the generator,
place in the body, …). -/
abbrev Draws := List Str → Rng

/-- The random numbers for the places below a place. -/
def Draws.at_ (D : Draws) (ls : List Str) : Draws := fun l => D (ls ++ l)

/-- Libraries: the (arbitrary) iteration order of the hash maps, floating point numbers, the crates `rand_regex`, `onig` and
`chrono`, and the lossy conversion of bytes. -/
structure GLib where
  order : GenCategory → List (DocPath × AnyGen) → List (DocPath × AnyGen)
  order_perm : ∀ c l, (order c l).Perm l
  f64 : Expr.F64
  /-- `x as u16` for the number with this text. -/
  floatU16 : Str → Nat
  /-- `s.parse::<f64>()` followed by `as u16`. -/
  parseU16f : Str → Option Nat
  /-- `format!("{}", n as f64)`. -/
  intFloat : Int → Str
  /-- `format!("{}", x)` for the number with this JSON text. -/
  floatText : Str → Str
  /-- `s.parse::<f64>()` followed by `format!("{}", x)`. -/
  parseFloat : Str → Option Str
  /-- Parsing a regular expression and drawing a text from it (`regex_syntax`, `rand_regex`). -/
  sampleRegex : Rng → Str → Option Str
  /-- `Regex::new`; then for a text the first match: what is before it, its first group, and what is after it. -/
  find : Str → Option (Str → Option (Str × Option Str × Str))
  /-- `Local::now()`: offset in minutes and the moment. -/
  now : Int × DateExpr.Moment
  /-- `str::parse::<DateTime<Local>>`. -/
  moment : Str → Option (Int × DateExpr.Moment)
  expr : DefExpr.Lib
  bad : Bytes → Str

/-- `HashMap::insert` for paths, which are compared by their text (path_exp.rs 514-518); the old key is kept. -/
def insertGen (k : DocPath) (g : AnyGen) : List (DocPath × AnyGen) → List (DocPath × AnyGen)
  | [] => [(k, g)]
  | e :: es => if eqPath e.1 k then (e.1, g) :: es else e :: insertGen k g es

/-- `MatchingRule::has_generators` and `generators` (matchingrules/mod.rs 238-252). -/
def ruleGens : MatchingRule → List AnyGen
  | .arrayContains vs => if vs.any fun v => !v.gens.isEmpty then [.variants vs] else []
  | _ => []

/-- `MatchingRuleCategory::generators` (matchingrules/mod.rs 1172-1184), inserted into a table. -/
def addRuleGens (rules : List (DocPath × RuleList)) (gs : List (DocPath × AnyGen)) : List (DocPath × AnyGen) :=
  rules.foldl (fun gs e => e.2.rules.foldl (fun gs r => (ruleGens r).foldl (fun gs g => insertGen e.1 g gs) gs) gs) gs

/-- `Into<Category> for GeneratorCategory` (generators/mod.rs 463-474). -/
def ruleCategory : GenCategory → Category
  | .method => .method
  | .path => .path
  | .header => .header
  | .query => .query
  | .body => .body
  | .status => .status
  | .metadata => .metadata

/-- `build_generators` (http_parts.rs 105-119). -/
def buildGens (rules : MatchingRules) (gens : Generators) (c : GenCategory) : List (DocPath × AnyGen) :=
  addRuleGens ((rulesForCategory rules (ruleCategory c)).map (·.rules) |>.getD [])
    ((gens.find? fun e => decide (e.1 = c)).elim [] fun e => e.2.foldl (fun gs g => insertGen g.1 (.gen g.2) gs) [])

/-! ### Values from the provider states -/

/-- The values a provider state generator refers to (generators/mod.rs 832-839, 992-999, 1151-1158). -/
def stateContext (ctx : Obj) : Obj :=
  match RuleJson.get "providerState" ctx with
  | some (.obj m) => m
  | _ => ctx

/-- `generate_value_from_context` (generators/mod.rs 775-784), before the conversion. -/
def fromContext (expression : Str) (ctx : Obj) : Res Json :=
  if Expr.containsExpressions expression then Expr.parseExpression (fun n => Json.lookup n ctx) expression
  else Expr.okOr (Json.lookup expression ctx)

/-- `str::parse::<i64>()`. -/
def parseI64 (s : Str) : Option Int :=
  match s with
  | '-' :: r => (parseDigits (2 ^ 63 + 1) r).map fun (n : Nat) => -(n : Int)
  | '+' :: r => (parseDigits (2 ^ 63) r).map fun (n : Nat) => (n : Int)
  | _ => (parseDigits (2 ^ 63) s).map fun (n : Nat) => (n : Int)

/-- `str::parse::<u16>()`. -/
def parseU16 (s : Str) : Option Nat := (parseUsize s).bind fun n => if n < 65536 then some n else none

/-- `u16::try_from(DataValue)` (expression_parser.rs 155-185). -/
def asU16 (G : GLib) (dt : DataType) : Json → Res Nat
  | .null => .ok 0
  | .bool b => .ok (if b then 1 else 0)
  | .num (.pos n) => .ok (n % 65536)
  | .num (.neg n) => .ok (Int.negSucc n % 65536).toNat
  | .num (.flt r) => .ok (G.floatU16 r)
  | .str s => match dt with
    | .integer => Expr.okOr (parseU16 s)
    | .raw => Expr.okOr (parseU16 s)
    | .string => Expr.okOr (parseU16 s)
    | .decimal => Expr.okOr (G.parseU16f s)
    | .float => Expr.okOr (G.parseU16f s)
    | .boolean => .err
  | _ => .err

/-- `i64::try_from(DataValue)` of type `INTEGER` (expression_parser.rs 220-251), as text. -/
def intValueText (G : GLib) : Json → Option Str
  | .null => some (intText 0)
  | .bool b => some (intText (if b then 1 else 0))
  | .num (.pos n) => some (intText (DateExpr.asI64 n))
  | .num (.neg n) => some (intText (Int.negSucc n))
  | .num (.flt r) => some (intText (G.f64.toI64 r))
  | .str s => (parseI64 s).map intText
  | _ => none

/-- `f64::try_from(DataValue)` of type `FLOAT` or `DECIMAL` (expression_parser.rs 253-284), as text. -/
def floatValueText (G : GLib) : Json → Option Str
  | .null => some (G.intFloat 0)
  | .bool b => some (G.intFloat (if b then 1 else 0))
  | .num (.pos n) => some (G.intFloat n)
  | .num (.neg n) => some (G.intFloat (Int.negSucc n))
  | .num (.flt r) => some (G.floatText r)
  | .str s => G.parseFloat s
  | _ => none

/-- `bool::try_from(DataValue)` (expression_parser.rs 286-307). -/
def boolValue (G : GLib) : Json → Option Bool
  | .null => some false
  | .bool b => some b
  | .num (.pos n) => some (decide (n > 0))
  | .num (.neg _) => some false
  | .num (.flt r) => some (G.f64.positive r)
  | .str s => Expr.parseBool s
  | _ => none

/-- `format!("{}", b)`. -/
def boolText (b : Bool) : Str := if b then "true".toList else "false".toList

/-- `to_string` of something whose `fmt` may return an error, which is a panic. -/
def orPanic {A : Type} : Option A → Res A
  | some a => .ok a
  | none => .panic

/-- `DataValue::to_string` (`impl Display`, expression_parser.rs 309-340). -/
def valueText (G : GLib) (dt : DataType) (v : Json) : Res Str :=
  match dt with
  | .string => .ok v.toStr
  | .raw => .ok v.toStr
  | .integer => orPanic (intValueText G v)
  | .float => orPanic (floatValueText G v)
  | .decimal => orPanic (floatValueText G v)
  | .boolean => (orPanic (boolValue G v)).map boolText

/-! ### Generated values -/

/-- The moment a date or time is relative to (generators/mod.rs 916-919, 943-946, 967-970). -/
def baseMoment (G : GLib) (ctx : Obj) (name : String) : Res (Int × DateExpr.Moment) :=
  match RuleJson.get name ctx with
  | none => .ok G.now
  | some d => Expr.okOr (G.moment d.toStr)

/-- `replace_with_regex` (generators/mod.rs 861-866), with an error for an invalid expression: the text before the first
match, the URL, the first group and the text after; without a match the example as it is; without a group a panic. -/
def replaceUrl (G : GLib) (example_ regex url : Str) : Res Str :=
  match G.find regex with
  | none => .err
  | some f => match f example_ with
    | none => .ok example_
    | some (b, some g, a) => .ok (b ++ url ++ g ++ a)
    | some (_, none, _) => .panic

/-- `get_field_as_string` (json_utils.rs 107-109) of the details of the mock server. -/
def detail (name : String) (m : Obj) : Option Str := (RuleJson.get name m).map Json.toStr

/-- The URL of the mock server for a text (generators/mod.rs 1002-1018). -/
def textUrl (ctx : Obj) : Option Str :=
  match RuleJson.get "mockServer" ctx with
  | some (.obj m) => detail "url" m
  | _ => none

/-- The URL of the mock server for a JSON value (generators/mod.rs 1166-1184). -/
def jsonUrl (ctx : Obj) : Option Str :=
  match RuleJson.get "mockServer" ctx with
  | some (.obj m) => (detail "url" m).or (detail "href" m)
  | _ => none

/-- `rnd.gen::<bool>()`. -/
def drawBool (r : Rng) : Bool := decide (r.pick 0 0 2 = 1)

/-- The texts that are generated in the same way for a text and a JSON value: dates and times (generators/mod.rs 913-988,
1088-1161). -/
def dateValue (G : GLib) (ctx : Obj) (fmt exp : Option Str) : Res Str :=
  (baseMoment G ctx "baseDate").bind fun t => DateExpr.genDateExpr G.expr t.1 t.2 fmt exp
/-- The same for times. -/
def timeValue (G : GLib) (ctx : Obj) (fmt exp : Option Str) : Res Str :=
  (baseMoment G ctx "baseTime").bind fun t => DateExpr.genTimeExpr G.expr t.1 t.2 fmt exp
/-- The same for dates with a time. -/
def dateTimeValue (G : GLib) (ctx : Obj) (fmt exp : Option Str) : Res Str :=
  (baseMoment G ctx "baseDateTime").bind fun t => DateExpr.genDateTimeExpr G.expr t.1 t.2 fmt exp

/-- `GenerateValue<String>` (generators/mod.rs 876-1023); the old value is not used. -/
def generateText (G : GLib) (r : Rng) (ctx : Obj) : AnyGen → Res Str
  | .gen (.randomInt min max) => (randomInt r min max).map intText
  | .gen (.uuid f) => .ok (generateUuid r f)
  | .gen (.randomDecimal d) => generateDecimal r d
  | .gen (.randomHexadecimal d) => .ok (generateHexadecimal r d)
  | .gen (.randomString n) => .ok (Generate.generateString r n)
  | .gen (.regex re) => Expr.okOr (G.sampleRegex r (stripAnchors re))
  | .gen (.date f e) => dateValue G ctx f e
  | .gen (.time f e) => timeValue G ctx f e
  | .gen (.dateTime f e) => dateTimeValue G ctx f e
  | .gen .randomBoolean => .ok (boolText (drawBool r))
  | .gen (.providerState e dt) => (fromContext e (stateContext ctx)).bind (valueText G (dt.getD .raw))
  | .gen (.mockServerURL ex re) => match textUrl ctx with
    | some url => replaceUrl G ex re url
    | none => .err
  | .variants _ => .err

/-- `GenerateValue<u16>` (generators/mod.rs 822-849), for a status. -/
def generateU16 (G : GLib) (r : Rng) (ctx : Obj) : AnyGen → Res Nat
  | .gen (.randomInt min max) => (randomU16 r min max).map Int.toNat
  | .gen (.providerState e dt) => (fromContext e (stateContext ctx)).bind (asU16 G (dt.getD .raw))
  | _ => .err

/-- `Uuid` for a JSON value (generators/mod.rs 1056-1064): only strings have a format. -/
def uuidJson (r : Rng) (f : Option UuidFormat) : Json → Json
  | .str _ => .str (generateUuid r f)
  | _ => .str (generateUuid r none)

/-- `RandomDecimal` for a JSON value (generators/mod.rs 1065-1072). -/
def decimalJson (G : GLib) (r : Rng) (d : Nat) : Json → Res Json
  | .num _ => (generateDecimal r d).bind fun s => Expr.okOr (G.f64.parse s)
  | _ => (generateDecimal r d).map Json.str

/-- `GenerateValue<Value>` (generators/mod.rs 1036-1190), without `ArrayContains`. -/
def generatePlain (G : GLib) (r : Rng) (ctx : Obj) (g : Generator) (v : Json) : Res Json :=
  match g with
  | .randomInt min max => randomIntJson r min max v
  | .uuid f => .ok (uuidJson r f v)
  | .randomDecimal d => decimalJson G r d v
  | .randomHexadecimal d => .ok (.str (generateHexadecimal r d))
  | .randomString n => .ok (.str (Generate.generateString r n))
  | .regex re => (Expr.okOr (G.sampleRegex r (stripAnchors re))).map Json.str
  | .date f e => (dateValue G ctx f e).map Json.str
  | .time f e => (timeValue G ctx f e).map Json.str
  | .dateTime f e => (dateTimeValue G ctx f e).map Json.str
  | .randomBoolean => .ok (.bool (drawBool r))
  | .providerState e dt => (fromContext e (stateContext ctx)).bind (Expr.asJson G.f64 (dt.getD .raw))
  | .mockServerURL ex re => match jsonUrl ctx with
    | some url => (replaceUrl G ex re url).map Json.str
    | none => .err

/-! ### JSON documents -/

/-- The value found by following the decoded tokens of a pointer (`Value::pointer_mut` of serde_json). -/
def getTokens : List Str → Json → Option Json
  | [], j => some j
  | t :: ts, .obj es => (Json.lookup t es).bind (getTokens ts)
  | t :: ts, .arr l => (JsonUtils.parseIndex t).bind fun i => (l[i]?).bind (getTokens ts)
  | _ :: _, _ => none

/-- `Value::pointer_mut` (serde_json). -/
def pointerGet (ptr : Str) (j : Json) : Option Json :=
  if ptr.isEmpty then some j
  else if ptr.head? = some '/' then getTokens (((JsonUtils.splitSlash ptr).drop 1).map JsonUtils.unescapeToken) j
  else none

/-- Keep the old value if the new one cannot be generated: `if let Ok(v) = … { old = v }`. -/
def orKeep {A : Type} (old : A) : Res A → Res A
  | .err => .ok old
  | x => x

/-- A loop over values that may panic. -/
def foldR {S A : Type} (f : S → A → Res S) : S → List A → Res S
  | s, [] => .ok s
  | s, a :: as => (f s a).bind fun s => foldR f s as

/-- One place of the document (generators/mod.rs 1257-1263). -/
def applyPointer (g : Str → Json → Res Json) (j : Json) (ptr : Str) : Res Json :=
  match pointerGet ptr j with
  | some v => orKeep j ((g ptr v).map fun w => JsonUtils.pointerUpdate ptr (fun _ => w) j)
  | none => .ok j

/-- `JsonHandler::apply_key` (generators/mod.rs 1248-1272). -/
def applyKey (key : DocPath) (g : Str → Json → Res Json) (j : Json) : Res Json :=
  let ptrs := JsonUtils.resolvePath j key.tokens
  if !ptrs.isEmpty then foldR (applyPointer g) j ptrs
  else if key.tokens.length = 1 then orKeep j (g [] j)
  else .ok j

/-- `find_matching_variant` with `DefaultVariantMatcher` (pact_matching/src/generators/mod.rs 79-117): the value is compared
with itself under the rules of a variant. -/
def defaultVariant (env : Env) (v : Json) (vs : List (VariantOf MatchingRule)) : Option (VariantOf MatchingRule) :=
  vs.find? fun x => (Compare.compareJson env rootPath v v ⟨x.rules, .noUnexpectedKeys⟩).isOk

/-- `NoopVariantMatcher` (generators/mod.rs 54-66). -/
def noVariant (_ : Json) (_ : List (VariantOf MatchingRule)) : Option (VariantOf MatchingRule) := none

/-- One item of a list (generators/mod.rs 1194-1203): all generators of the variant, in every mode. -/
def applyVariant (G : GLib) (D : Draws) (ctx : Obj) (find : Json → List (VariantOf MatchingRule) → Option (VariantOf MatchingRule))
    (vs : List (VariantOf MatchingRule)) (v : Json) : Res Json :=
  match find v vs with
  | some x => foldR (fun j e => match e with
      | (key, g) => applyKey key (fun ptr old => match g with
        | .gen g => generatePlain G (D [key.expr, ptr]) ctx g old
        | .variants _ => .err) j) v
      (G.order .body (x.gens.map fun e => (e.1, .gen e.2)))
  | none => .ok v

/-- The items of a list from number `i` on. -/
def applyItems (f : Nat → Json → Res Json) : Nat → List Json → Res (List Json)
  | _, [] => .ok []
  | i, v :: vs => (f i v).bind fun w => (applyItems f (i + 1) vs).map (w :: ·)

/-- `GenerateValue<Value>` (generators/mod.rs 1036-1220). -/
def generateJson (G : GLib) (D : Draws) (ctx : Obj)
    (find : Json → List (VariantOf MatchingRule) → Option (VariantOf MatchingRule)) (g : AnyGen) (v : Json) : Res Json :=
  match g with
  | .gen g => generatePlain G (D []) ctx g v
  | .variants vs => match v with
    | .arr l => (applyItems (fun i => applyVariant G (D.at_ [natStr i]) ctx find vs) 0 l).map Json.arr
    | _ => .err

/-- `JsonHandler::process_body` (generators/mod.rs 1232-1245) before the document is written: each generator of the table that
is for the mode. -/
def processJson (G : GLib) (D : Draws) (mode : Mode) (ctx : Obj)
    (find : Json → List (VariantOf MatchingRule) → Option (VariantOf MatchingRule)) (gs : List (DocPath × AnyGen))
    (j : Json) : Res Json :=
  foldR (fun j e => if corresponds mode e.2 then
      applyKey e.1 (fun ptr old => generateJson G (D.at_ [e.1.expr, ptr]) ctx find e.2 old) j
    else .ok j) j gs

/-! ### Bodies -/

/-- The loop of `FormUrlEncodedHandler::apply_key` (generators/form_urlencoded.rs 42-60): as `Form.applyFrom`, but the
generator may panic. -/
def applyFormKey (key : DocPath) (g : Res Str) (seen : List Str) : Form.Params → Res Form.Params
  | [] => .ok []
  | (k, v) :: ps =>
    if Form.isTarget key k (seen.count k) then (orKeep v g).map fun w => (k, w) :: ps
    else (applyFormKey key g (k :: seen) ps).map ((k, v) :: ·)

/-- `FormUrlEncodedHandler::process_body` (generators/form_urlencoded.rs 20-40) before the form is written. -/
def processForm (G : GLib) (D : Draws) (mode : Mode) (ctx : Obj) (gs : List (DocPath × AnyGen)) (ps : Form.Params) :
    Res Form.Params :=
  foldR (fun ps e => if corresponds mode e.2 then applyFormKey e.1 (generateText G (D [e.1.expr]) ctx e.2) [] ps
    else .ok ps) ps gs

/-- `application/x-www-form-urlencoded`. -/
def formType : ContentType := ⟨"application".toList, "x-www-form-urlencoded".toList, [], none⟩

/-- The bytes of a body. -/
def bytesOf : FBody → Bytes
  | .present b _ _ => b
  | _ => []

/-- `generators_process_body` (pact_matching/src/generators/bodies.rs 22-125).  The form is parsed without an error whatever
the bytes are.  XML documents and other types are returned as they are. -/
def processBody (B : Libs) (G : GLib) (D : Draws) (mode : Mode) (ctx : Obj)
    (find : Json → List (VariantOf MatchingRule) → Option (VariantOf MatchingRule)) (gs : List (DocPath × AnyGen))
    (ct : Option ContentType) (body : FBody) : Res FBody :=
  match ct with
  | none => .ok body
  | some ct =>
    if ct.isJson then match B.bodies.json (bytesOf body) with
      | some j => (processJson G D mode ctx find gs j).map fun j => .present (utf8 j.text) (some Provider.jsonType) none
      | none => .ok body
    else if ct.isXml then .ok body
    else if ct.isForm then (processForm G D mode ctx gs (Form.parse G.bad (bytesOf body))).map fun ps =>
      .present (utf8 (Form.encode ps)) (some formType) none
    else .ok body

/-- `OptionalBody::is_present` (bodies.rs 36-38). -/
def isPresent : FBody → Bool
  | .present _ _ _ => true
  | _ => false

/-- The body of a request, a response or a message (lib.rs 2336-2345, 2390-2398): nothing is done without generators. -/
def generateBody (B : Libs) (G : GLib) (D : Draws) (mode : Mode) (ctx : Obj)
    (find : Json → List (VariantOf MatchingRule) → Option (VariantOf MatchingRule)) (gs : List (DocPath × AnyGen))
    (ct : Option ContentType) (body : FBody) : Res FBody :=
  if !gs.isEmpty && isPresent body then processBody B G (D.at_ ["body".toList]) mode ctx find gs ct body else .ok body

/-! ### Requests and responses -/

/-- `apply_generators` (generators/mod.rs 688-700) for a part of a message. -/
def applyGens {S : Type} (mode : Mode) (f : S → DocPath → AnyGen → Res S) (s : S) (gs : List (DocPath × AnyGen)) : Res S :=
  foldR (fun s e => if corresponds mode e.2 then f s e.1 e.2 else .ok s) s gs

/-- The path (lib.rs 2285-2291). -/
def pathStep (G : GLib) (D : Draws) (ctx : Obj) (path : Str) (key : DocPath) (g : AnyGen) : Res Str :=
  orKeep path (generateText G (D ["path".toList, key.expr]) ctx g)

/-- The status (lib.rs 2356-2362). -/
def statusStep (G : GLib) (D : Draws) (ctx : Obj) (status : Nat) (key : DocPath) (g : AnyGen) : Res Nat :=
  orKeep status (generateU16 G (D ["status".toList, key.expr]) ctx g)

/-- The headers (lib.rs 2296-2318, 2366-2388): the name is compared as it is written; a header gets one value, a missing
one is added. -/
def headerStep (G : GLib) (D : Draws) (ctx : Obj) (hs : Option HeaderMap) (key : DocPath) (g : AnyGen) :
    Res (Option HeaderMap) :=
  match firstField key with
  | none => .ok hs
  | some h => match hs with
    | some m => orKeep hs ((generateText G (D ["header".toList, key.expr]) ctx g).map fun v => some (insertKV h [v] m))
    | none => orKeep hs ((generateText G (D ["header".toList, key.expr]) ctx g).map fun v => some [(h, [v])])

/-- The values of a query parameter (lib.rs 2326-2332): each one is generated. -/
def paramValues (f : Nat → Res Str) : Nat → List (Option Str) → Res (List (Option Str))
  | _, [] => .ok []
  | i, v :: vs => (orKeep v ((f i).map some)).bind fun w => (paramValues f (i + 1) vs).map (w :: ·)

/-- The query parameters (lib.rs 2322-2345). -/
def queryStep (G : GLib) (D : Draws) (ctx : Obj) (q : Option QueryMap) (key : DocPath) (g : AnyGen) :
    Res (Option QueryMap) :=
  match firstField key with
  | none => .ok q
  | some p => match q with
    | some m => match Json.lookup p m with
      | some vs => (paramValues (fun i => generateText G (D ["query".toList, key.expr, natStr i]) ctx g) 0 vs).map fun vs =>
          some (insertKV p vs m)
      | none => orKeep q ((generateText G (D ["query".toList, key.expr]) ctx g).map fun v => some (insertKV p [some v] m))
    | none => orKeep q ((generateText G (D ["query".toList, key.expr]) ctx g).map fun v => some [(p, [some v])])

/-- The generators of a part for a category, in the order they are applied. -/
def gensFor (G : GLib) (rules : MatchingRules) (gens : Generators) (c : GenCategory) : List (DocPath × AnyGen) :=
  G.order c (buildGens rules gens c)

/-- `generate_request` (lib.rs 2278-2347).  The content type is that of the request after the headers were generated. -/
def generateRequest (B : Libs) (G : GLib) (D : Draws) (mode : Mode) (ctx : Obj) (r : HttpRequest) : Res HttpRequest :=
  (applyGens mode (pathStep G D ctx) r.path (gensFor G r.rules r.gens .path)).bind fun path =>
  (applyGens mode (headerStep G D ctx) r.headers (gensFor G r.rules r.gens .header)).bind fun headers =>
  (applyGens mode (queryStep G D ctx) r.query (gensFor G r.rules r.gens .query)).bind fun query =>
  (generateBody B G D mode ctx (defaultVariant B.env) (gensFor G r.rules r.gens .body)
      (MatchResult.contentType B.file.P.uc B.bodies ⟨headers, asBody r.body⟩) r.body).map fun body =>
    { r with path := path, headers := headers, query := query, body := body }

/-- `generate_response` (lib.rs 2351-2400). -/
def generateResponse (B : Libs) (G : GLib) (D : Draws) (mode : Mode) (ctx : Obj) (r : HttpResponse) : Res HttpResponse :=
  (applyGens mode (statusStep G D ctx) r.status (gensFor G r.rules r.gens .status)).bind fun status =>
  (applyGens mode (headerStep G D ctx) r.headers (gensFor G r.rules r.gens .header)).bind fun headers =>
  (generateBody B G D mode ctx (defaultVariant B.env) (gensFor G r.rules r.gens .body)
      (MatchResult.contentType B.file.P.uc B.bodies ⟨headers, asBody r.body⟩) r.body).map fun body =>
    { r with status := status, headers := headers, body := body }

/-! ### Messages -/

/-- The metadata (pact_matching/src/generators/mod.rs 133-140, 156-163, 196-203, 235-248); a value that is not there is
`null`. -/
def metadataStep (G : GLib) (D : Draws) (ctx : Obj)
    (find : Json → List (VariantOf MatchingRule) → Option (VariantOf MatchingRule)) (m : Obj) (key : DocPath) (g : AnyGen) :
    Res Obj :=
  match firstField key with
  | none => .ok m
  | some k => orKeep m ((generateJson G (D.at_ ["metadata".toList, key.expr]) ctx find g ((Json.lookup k m).getD .null)).map
      fun v => insertKV k v m)

/-- `v[0]` of serde_json. -/
def firstItem : Json → Json
  | .arr (v :: _) => v
  | _ => .null

/-- `to_ascii_lowercase` of a key is `contenttype` or `content-type`: `PactV3.isContentTypeKey`.  The content type of the
contents of a synchronous message or of a V3 message: `lookup_content_type` (v4/message_parts.rs 169-174, message.rs 349-354). -/
def listedType (m : Obj) : Option Str := (m.find? fun e => PactV3.isContentTypeKey e.1).map fun e => (firstItem e.2).toStr

/-- The content type of the contents (`HttpPart::content_type`, http_parts.rs 61-74). -/
def contentsType (B : Libs) (listed : Option Str) (body : FBody) : Option ContentType :=
  match body with
  | .present _ (some ct) _ => some ct
  | b => match listed with
    | some h => match B.bodies.parseContentType h with
      | some ct => some ct
      | none => MatchResult.detectContentType B.bodies (asBody b)
    | none => MatchResult.detectContentType B.bodies (asBody b)

/-- Contents and metadata (pact_matching/src/generators/mod.rs 127-150 and the other functions for messages). -/
def generateContents (B : Libs) (G : GLib) (D : Draws) (mode : Mode) (ctx : Obj)
    (find : Json → List (VariantOf MatchingRule) → Option (VariantOf MatchingRule)) (m : MessageContents) :
    Res MessageContents :=
  (applyGens mode (metadataStep G D ctx find) m.metadata (gensFor G m.rules m.gens .metadata)).bind fun metadata =>
  (generateBody B G D mode ctx find (gensFor G m.rules m.gens .body) (contentsType B (listedType metadata) m.contents)
      m.contents).map fun contents => { m with contents := contents, metadata := metadata }

/-- The responses of a synchronous message, from number `i` on. -/
def generateAll (f : Nat → MessageContents → Res MessageContents) : Nat → List MessageContents → Res (List MessageContents)
  | _, [] => .ok []
  | i, m :: ms => (f i m).bind fun m => (generateAll f (i + 1) ms).map (m :: ·)

/-- `apply_generators_to_sync_message` (pact_matching/src/generators/mod.rs 120-181). -/
def generateSync (B : Libs) (G : GLib) (D : Draws) (mode : Mode) (ctx : Obj) (request : MessageContents)
    (responses : List MessageContents) : Res (MessageContents × List MessageContents) :=
  (generateContents B G (D.at_ ["request".toList]) mode ctx noVariant request).bind fun rq =>
  (generateAll (fun i => generateContents B G (D.at_ ["response".toList, natStr i]) mode ctx noVariant) 0 responses).map
    fun rs => (rq, rs)

/-- One metadata generator of an asynchronous message (pact_matching/src/generators/mod.rs 196-203): the old value is that of
the message, not of the copy. -/
def asyncStep (G : GLib) (D : Draws) (ctx : Obj) (old m : Obj) (key : DocPath) (g : AnyGen) : Res Obj :=
  match firstField key with
  | none => .ok m
  | some k => orKeep m ((generateJson G (D.at_ ["metadata".toList, key.expr]) ctx noVariant g
      ((Json.lookup k old).getD .null)).map fun v => insertKV k v m)

/-- `apply_generators_to_async_message` (pact_matching/src/generators/mod.rs 184-218); the content type is that of
`MessageContents` (v4/message_parts.rs 169-174) and of the message before its metadata is generated. -/
def generateAsync (B : Libs) (G : GLib) (D : Draws) (mode : Mode) (ctx : Obj) (m : MessageContents) : Res MessageContents :=
  (applyGens mode (asyncStep G D ctx m.metadata) m.metadata (gensFor G m.rules m.gens .metadata)).bind fun metadata =>
  (generateBody B G D mode ctx noVariant (gensFor G m.rules m.gens .body) (contentsType B (listedType m.metadata) m.contents)
      m.contents).map fun contents => { m with contents := contents, metadata := metadata }

/-- `generate_message` (pact_matching/src/generators/mod.rs 222-262). -/
def generateMessage (B : Libs) (G : GLib) (D : Draws) (mode : Mode) (ctx : Obj) (m : PactV3.Message) : Res PactV3.Message :=
  (generateContents B G D mode ctx (defaultVariant B.env) ⟨m.contents, m.metadata, m.rules, m.gens⟩).map fun c =>
    { m with contents := c.contents, metadata := c.metadata }

end ApplyGen
end Verif
