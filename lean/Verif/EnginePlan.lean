import Verif.Engine

/-
  Model of the construction of a plan and of the values a plan is executed against in the V2 matching engine:
  `rust/pact_matching/src/engine/mod.rs` (1221-1680), `engine/bodies.rs` and `engine/value_resolvers.rs`, and of
  the conversion of an executed plan to a `RequestMatchResult` (`rust/pact_matching/src/lib.rs` 1346-1530).

  Not modelled: the plan for XML bodies (a parameter), the texts of annotations, and
  `MatchingConfiguration::allow_unexpected_entries`, which `match_request` sets to false (lib.rs 1888-1891).  The
  matching rules are read from the request of the interaction, which is the expected request.
-/
set_option autoImplicit false

namespace Verif
namespace Engine
open Path Rules Matchers Compare Query Headers MatchResult

/-! ### Resolving values -/

/-- `DocPath::last_field` (path_exp.rs 170-177). -/
def lastField (p : DocPath) : Option Str :=
  p.tokens.reverse.findSome? fun | .field f => some f | _ => none

/-- One value as a string, other numbers of values as a list (value_resolvers.rs 50-54, 73-77; engine/mod.rs
1404-1409, 1505-1509). -/
def oneOrList : List Str → NodeValue
  | [v] => .str v
  | vs => .slist vs

/-- The query parameters of the actual request (value_resolvers.rs 31-38). -/
def actualQuery (a : Request) : List (Str × List Str) := (a.query.getD []).map fun kv => (kv.1, texts kv.2)

/-- The headers of the actual request with lower case names (value_resolvers.rs 61-66); of headers with names that
only differ in case one is left. -/
def actualHeaders (uc : UC) (a : Request) : List (Str × List Str) :=
  ((a.part.headers.getD []).map fun kv => (uc.lower kv.1, kv.2)).foldl (fun m kv => insertKV kv.1 kv.2 m) []

/-- The value of a query parameter or header. -/
def namedValue (m : List (Str × List Str)) (name : Str) : NodeValue :=
  match Json.lookup name m with
  | some vs => oneOrList vs
  | none => .null

/-- The query part of the resolver (value_resolvers.rs 30-59). -/
def resolveQuery (a : Request) (p : DocPath) : Res NodeValue :=
  if p.tokens.length = 2 || (p.tokens.length = 3 && isWildcard p) then .ok (.mmap (actualQuery a))
  else if p.tokens.length = 3 then .ok (namedValue (actualQuery a) ((lastField p).getD []))
  else .err

/-- One value of a header; the index is not checked (value_resolvers.rs 81-92). -/
def headerAt (m : List (Str × List Str)) (name : Str) (i : Nat) : Res NodeValue :=
  match Json.lookup name m with
  | none => .ok .null
  | some vs => match vs[i]? with
    | some v => .ok (.str v)
    | none => .panic

/-- The headers part of the resolver (value_resolvers.rs 60-96). -/
def resolveHeaders (uc : UC) (a : Request) (p : DocPath) : Res NodeValue :=
  let m := actualHeaders uc a
  let name := uc.lower ((lastField p).getD [])
  if p.tokens.length = 2 || (p.tokens.length = 3 && isWildcard p) then .ok (.mmap m)
  else if p.tokens.length = 3 then .ok (namedValue m name)
  else if p.tokens.length = 4 then match p.tokens.getLast? with
    | some (.index i) => headerAt m name i
    | _ => .err
  else .err

/-- `HttpRequestValueResolver::resolve` (value_resolvers.rs 24-109). -/
def resolveRequest (uc : UC) (be : BodyEnv) (a : Request) (p : DocPath) : Res NodeValue :=
  match firstField p with
  | none => .err
  | some f =>
    if f = "method".toList then .ok (.str a.method)
    else if f = "path".toList then .ok (.str a.path)
    else if f = "query".toList then resolveQuery a p
    else if f = "headers".toList then resolveHeaders uc a p
    else if f = "content-type".toList then match contentType uc be a.part with
      | some ct => .ok (.str ct.display)
      | none => .ok .null
    else if f = "body".toList && p.tokens.length = 2 then match a.part.body with
      | .present b _ => .ok (.barray b)
      | _ => .ok .null
    else .err

/-! ### Nodes -/

/-- `ExecutionPlanNode::action` with its children (engine/mod.rs 860-960). -/
def act (a : Action) (cs : List Node) : Node := .new (.action a) cs
/-- `ExecutionPlanNode::container` with its children. -/
def cont (l : Str) (cs : List Node) : Node := .new (.container l) cs
/-- `ExecutionPlanNode::value_node` (engine/mod.rs 880-886). -/
def val (v : NodeValue) : Node := .new (.value v) []
/-- `ExecutionPlanNode::value_node` for a text. -/
def txt (s : String) : Node := val (.str s.toList)
/-- `ExecutionPlanNode::resolve_value` (engine/mod.rs 889-895). -/
def rsv (p : DocPath) : Node := .new (.resolve p) []
/-- `ExecutionPlanNode::resolve_current_value` (engine/mod.rs 898-904). -/
def cur (p : DocPath) : Node := .new (.resolveCurrent p) []
/-- `ExecutionPlanNode::annotation` (engine/mod.rs 924-930). -/
def ann : Node := .new .annotation []
/-- `match:equality` of an expected and an actual value. -/
def equal (e a : Node) : Node := act (.matcher "equality".toList) [e, a, val .null]

/-- `DocPath::new("$.<name>")` for the parts of a request. -/
def partPath (name : String) : DocPath := ⟨[.root, .field name.toList], "$.".toList ++ name.toList⟩
/-- `DocPath::new_unwrap("<name>")` for the parts of a parsed header. -/
def namePath (name : String) : DocPath := ⟨[.root, .field name.toList], name.toList⟩

/-! ### Method, path, query -/

/-- `fn setup_method_plan` (engine/mod.rs 1296-1314). -/
def methodPlan (P : EP) (e : Request) : Node :=
  cont "method".toList [ann, equal (val (.str (P.upper e.method))) (act .upperCase [rsv (partPath "method")])]

/-- One rule of `build_matching_rule_node` (engine/mod.rs 1341-1380); `values()` of a rule with references is not
implemented. -/
def ruleNode (e a : Node) (r : MatchingRule) : Res Node :=
  if RuleJson.ruleRefs r then .panic
  else .ok (act (.matcher (MatchingRule.name r).toList) [e, a, val (.json (RuleJson.valuesJson r))])

/-- The nodes of all the rules. -/
def ruleNodes (e a : Node) : List MatchingRule → Res (List Node)
  | [] => .ok []
  | r :: rs => (ruleNode e a r).bind fun n => (ruleNodes e a rs).map fun ns => n :: ns

/-- The rules as they are applied to a collection or to a single item (engine/mod.rs 1347-1351). -/
def ruleFor (collection : Bool) (r : MatchingRule) : MatchingRule :=
  if collection then r else MatchingRule.forSingleItem r

/-- `fn build_matching_rule_node` (engine/mod.rs 1341-1380). -/
def rulesNode (e a : Node) (l : RuleList) (collection : Bool) : Res Node :=
  match l.rules.map (ruleFor collection) with
  | [r] => ruleNode e a r
  | rs => (ruleNodes e a rs).map fun ns => act (match l.logic with | .and => .and | .or => .or) ns

/-- `fn setup_path_plan` (engine/mod.rs 1316-1339). -/
def pathPlan (ctx : Ctx) (e : Request) : Res Node :=
  let p := partPath "path"
  if isDefined ctx p then
    (rulesNode (val (.str e.path)) (rsv p) (best ctx p) false).map fun n => cont "path".toList [ann, n]
  else .ok (cont "path".toList [ann, equal (val (.str e.path)) (rsv p)])

/-- The check of one query parameter or header that has no special form: a rule or equality (engine/mod.rs
1396-1440, 1497-1545). -/
def entryCheck (ctx : Ctx) (p : DocPath) (key : Str) (vs : List Str) : Res Node :=
  let ip := join rootPath key
  let q := join p key
  if isDefined ctx ip then rulesNode (val (oneOrList vs)) (rsv q) (best ctx ip) true
  else .ok (equal (val (oneOrList vs)) (rsv q))

/-- The container of one query parameter (engine/mod.rs 1396-1440). -/
def queryItem (ctx : Ctx) (kv : Str × List (Option Str)) : Res Node :=
  (entryCheck ctx (partPath "query") kv.1 (texts kv.2)).map fun n =>
    cont kv.1 [ann, act .iff [act .checkExists [rsv (join (partPath "query") kv.1)], n]]

/-- All the items, in order. -/
def itemNodes {A : Type} (f : A → Res Node) : List A → Res (List Node)
  | [] => .ok []
  | x :: xs => (f x).bind fun n => (itemNodes f xs).map fun ns => n :: ns

/-- The message node of `expect:entries` and `expect:only-entries` (engine/mod.rs 1447-1457). -/
def namesMessage (s : String) : Node :=
  act .join [txt s, act .joinWith [txt ", ", .new .splat [act .apply []]]]

/-- The check for no query parameters (engine/mod.rs 1391-1401, 1476-1486). -/
def noQuery : Node :=
  act .expectEmpty [rsv (partPath "query"), act .join [txt "Expected no query parameters but got ", rsv (partPath "query")]]

/-- `fn setup_query_plan` (engine/mod.rs 1382-1489). -/
def queryPlan (ctx : Ctx) (e : Request) : Res Node :=
  match e.query with
  | none => .ok (cont "query parameters".toList [noQuery])
  | some q =>
    if q.isEmpty then .ok (cont "query parameters".toList [noQuery])
    else
      let es := OMap.collect q
      let keys := val (.slist (Json.keys es))
      (itemNodes (queryItem ctx) es).map fun items => cont "query parameters".toList (items ++
        [act .expectEntries [keys, rsv (partPath "query"),
            namesMessage "The following expected query parameters were missing: "],
         act .expectOnlyEntries [keys, rsv (partPath "query"),
            namesMessage "The following query parameters were not expected: "]])

/-! ### Headers -/

/-- The check of one parameter of a header (engine/mod.rs 1596-1614). -/
def parameterNode (uc : UC) (kv : Str × Str) : Node :=
  let p := join (namePath "parameters") kv.1
  cont kv.1 [act .iff [act .checkExists [cur p], equal (val (.str (uc.lower kv.2))) (act .lowerCase [cur p]),
    act .error [val (.str ("Expected a ".toList ++ kv.1 ++ " value of '".toList ++ kv.2 ++ "' but it was missing".toList))]]]

/-- `fn build_parameterised_header_plan` (engine/mod.rs 1576-1617). -/
def parameterisedPlan (uc : UC) (p : DocPath) (s : Str) : Node :=
  let vs := stripWhitespace uc s
  act .tee (act .headerParse [rsv p] :: equal (val (.str (vs.headD []))) (act .toStr [cur (namePath "value")])
    :: (parseCharsetParameters uc vs.tail).map (parameterNode uc))

/-- The checks of the values of a parameterised header with several values (engine/mod.rs 1528-1536). -/
def indexedChecks (uc : UC) (p : DocPath) : Nat → List Str → List Node
  | _, [] => []
  | i, v :: vs => cont (natStr i) [parameterisedPlan uc (joinIndex p i) v] :: indexedChecks uc p (i + 1) vs

/-- The checks of a header with parameters (engine/mod.rs 1521-1537). -/
def parameterChecks (uc : UC) (q : DocPath) : List Str → List Node
  | [v] => [parameterisedPlan uc q v]
  | vs => indexedChecks uc q 0 vs

/-- The checks of one header, the arguments of `if` after the first (engine/mod.rs 1511-1547). -/
def headerChecks (uc : UC) (ctx : Ctx) (key : Str) (vs : List Str) : Res (List Node) :=
  let q := join (partPath "headers") key
  if isDefined ctx (join rootPath key) then (entryCheck ctx (partPath "headers") key vs).map fun n => [n]
  else if parameterisedHeaders.contains (uc.lower key) then .ok (parameterChecks uc q vs)
  else (entryCheck ctx (partPath "headers") key vs).map fun n => [n]

/-- The container of one header (engine/mod.rs 1497-1550). -/
def headerItem (uc : UC) (ctx : Ctx) (kv : Str × List Str) : Res Node :=
  (headerChecks uc ctx kv.1 kv.2).map fun ns =>
    cont kv.1 [ann, act .iff (act .checkExists [rsv (join (partPath "headers") kv.1)] :: ns)]

/-- `fn setup_header_plan` (engine/mod.rs 1491-1574). -/
def headerPlan (uc : UC) (ctx : Ctx) (e : Request) : Res Node :=
  match e.part.headers with
  | none => .ok (cont "headers".toList [])
  | some h =>
    if h.isEmpty then .ok (cont "headers".toList [])
    else
      let es := OMap.collect h
      (itemNodes (headerItem uc ctx) es).map fun items => cont "headers".toList (items ++
        [act .expectEntries [act .lowerCase [val (.slist (Json.keys es))], rsv (partPath "headers"),
          namesMessage "The following expected headers were missing: "]])

/-! ### Bodies -/

/-- `PlainTextBuilder::build_plan` (bodies.rs 67-77). -/
def textPlan (P : EP) (b : Bytes) : Node :=
  equal (val (.str (P.lossy b))) (act .convertUtf8 [rsv (partPath "body")])

/-- Whether a JSON value is neither an array nor an object. -/
def scalar : Json → Bool
  | .arr _ => false
  | .obj _ => false
  | _ => true

/-- Equality with a JSON value given by its text (bodies.rs 128-133, 179-184, 237-241). -/
def equalJson (e : Json) (p : DocPath) : Node :=
  equal (val (.namespaced "json".toList e.text)) (cur p)

/-- The check of a scalar value outside an array (bodies.rs 230-243). -/
def scalarNodes (ctx : Ctx) (p : DocPath) (e : Json) : Res (List Node) :=
  if isDefined ctx p then (rulesNode (val (.json e)) (cur p) (best ctx p) false).map fun n => [ann, n]
  else .ok [equalJson e p]

/-- The check of a scalar item of an array (bodies.rs 113-136, 164-188): with a rule the annotation takes the place
of the second argument of `if`. -/
def itemCheck (ctx : Ctx) (p : DocPath) (e : Json) : Res (List Node) :=
  if isDefined ctx p then (rulesNode (val (.json e)) (cur p) (best ctx p) false).map fun n =>
    [act .iff [act .checkExists [cur p], ann, n]]
  else .ok [act .iff [act .checkExists [cur p], equalJson e p]]

/-- `fn should_apply_to_map_entries` (bodies.rs 250-259). -/
def appliesToEntries (l : RuleList) : Bool :=
  l.rules.any fun r => match r with
    | .values | .eachKey _ | .eachValue _ => true
    | _ => false

/-- The nodes for an object before its entries (bodies.rs 195-228). -/
def objectNodes (ctx : Ctx) (p : DocPath) (es : List (Str × Json)) : Res (List Node) :=
  let l := best ctx p
  if !l.rules.isEmpty && appliesToEntries l then
    (rulesNode (val (.json (.obj es))) (cur p) l true).map fun n => [ann, n]
  else if es.isEmpty then .ok [act .jsonExpectEmpty [txt "OBJECT", cur p]]
  else
    let keys := val (.slist (Json.keys es))
    .ok [act .jsonExpectEntries [txt "OBJECT", keys, cur p], act .expectOnlyEntries [keys, cur p]]

mutual
/-- `JsonPlanBuilder::process_body_node` (bodies.rs 90-247): the nodes added to the node it is called with. -/
def jsonNodes (ctx : Ctx) (p : DocPath) : Json → Res (List Node)
  | .arr items =>
    if isDefined ctx p then
      (rulesNode (val (.json (.arr items))) (cur p) (best ctx p) true).bind fun n =>
        (templateNodes ctx p items).map fun ns => ann :: n :: ns
    else match items with
      | [] => .ok [act .jsonExpectEmpty [txt "ARRAY", cur p]]
      | items => (itemsNodes ctx p 0 items).map fun ns =>
          act .jsonMatchLength [txt "ARRAY", val (.uint items.length), cur p] :: ns
  | .obj es => (objectNodes ctx p es).bind fun ns => (entriesNodes ctx p es).map fun ms => ns ++ ms
  | e => scalarNodes ctx p e
termination_by structural x => x
/-- The `for-each` over the items of an array with a rule (bodies.rs 107-142). -/
def templateNodes (ctx : Ctx) (p : DocPath) : List Json → Res (List Node)
  | [] => .ok []
  | t :: _ => (if scalar t then itemCheck ctx (pushStarIndex p) t else jsonNodes ctx (pushStarIndex p) t).map fun ns =>
      [act .forEach [cur p, cont (pushStarIndex p).expr ns]]
termination_by structural x => x
/-- The items of an array without a rule (bodies.rs 159-191): the node of an item is only added for a scalar. -/
def itemsNodes (ctx : Ctx) (p : DocPath) (i : Nat) : List Json → Res (List Node)
  | [] => .ok []
  | e :: es => (if scalar e then (itemCheck ctx (joinIndex p i) e).map fun ns => [cont (joinIndex p i).expr ns]
      else (jsonNodes ctx (joinIndex p i) e).map fun _ => []).bind fun ns =>
        (itemsNodes ctx p (i + 1) es).map fun ms => ns ++ ms
termination_by structural x => x
/-- The entries of an object (bodies.rs 222-228). -/
def entriesNodes (ctx : Ctx) (p : DocPath) : List (Str × Json) → Res (List Node)
  | [] => .ok []
  | e :: es => (entryNode ctx p e).bind fun n => (entriesNodes ctx p es).map fun ms => n :: ms
termination_by structural x => x
/-- One entry of an object (bodies.rs 222-228). -/
def entryNode (ctx : Ctx) (p : DocPath) : Str × Json → Res Node
  | (k, v) => (jsonNodes ctx (pushField p k) v).map fun ns => cont (pushField p k).expr ns
termination_by structural x => x
end

/-- `JsonPlanBuilder::build_plan` (bodies.rs 270-284); `none` of `json` is the `?` on the parse of the expected
body. -/
def jsonPlan (P : EP) (ctx : Ctx) (b : Bytes) : Res Node :=
  match P.parseBytes b with
  | none => .err
  | some j => (jsonNodes ctx rootPath j).map fun ns =>
      act .tee [act .jsonParse [rsv (partPath "body")], cont rootPath.expr ns]

/-- What the engine needs beyond the interpreter: the body functions and the XML plan. -/
structure BP where
  P : EP
  be : BodyEnv
  /-- `XMLPlanBuilder::build_plan`. -/
  xmlPlan : Bytes → Ctx → Res Node

/-- The plan for the contents of a body (engine/mod.rs 1646-1653, bodies.rs 35-49). -/
def contentPlan (B : BP) (ctx : Ctx) (ct : ContentType) (b : Bytes) : Res Node :=
  if ct.isJson then jsonPlan B.P ctx b
  else if ct.isXml then B.xmlPlan b ctx
  else .ok (textPlan B.P b)

/-- The literal `TEXT` (content_types.rs 51-56), for an expected body with no content type. -/
def textType : ContentType := ⟨"text".toList, "plain".toList, [], none⟩

/-- The content type an expected body is taken to have (engine/mod.rs 1633). -/
def expectedType (B : BP) (e : Request) : ContentType := (contentType B.P.uc B.be e.part).getD textType

/-- The check of the content type (engine/mod.rs 1634-1645). -/
def typeCheck (ct : ContentType) : Node :=
  act (.matcher "equality".toList) [val (.str ct.display), rsv (partPath "content-type"), val .null,
    act .error [txt "Body type error - ", act .apply []]]

/-- `fn setup_body_plan` (engine/mod.rs 1619-1658). -/
def bodyPlan (B : BP) (ctx : Ctx) (e : Request) : Res Node :=
  match e.part.body with
  | .missing => .ok (cont "body".toList [])
  | .empty => .ok (cont "body".toList [act .expectEmpty [rsv (partPath "body")]])
  | .null => .ok (cont "body".toList [act .expectEmpty [rsv (partPath "body")]])
  | .present b _ =>
    let ct := expectedType B e
    (contentPlan B ctx ct b).map fun n => cont "body".toList [act .iff [typeCheck ct, n]]

/-- `ExecutionPlan::add` (engine/mod.rs 1243-1247) for the five parts. -/
def nonEmptyNodes (l : List Node) : List Node := l.filter fun n => !n.children.isEmpty

/-- The context of a part (context.rs 103-190). -/
def partCtx (e : Request) (c : Category) : Ctx := ctxFor e.rules c .noUnexpectedKeys

/-- `pub fn build_request_plan` (engine/mod.rs 1281-1294). -/
def requestPlan (B : BP) (e : Request) : Res Node :=
  (pathPlan (partCtx e .path) e).bind fun path =>
    (queryPlan (partCtx e .query) e).bind fun query =>
      (headerPlan B.P.uc (partCtx e .header) e).bind fun headers =>
        (bodyPlan B (partCtx e .body) e).map fun body =>
          cont "request".toList (nonEmptyNodes [methodPlan B.P e, path, query, headers, body])

/-- `pub fn execute_request_plan` (engine/mod.rs 1661-1675): the executed plan. -/
def executePlan (B : BP) (plan : Node) (a : Request) : Res Node :=
  match walk ⟨B.P, resolveRequest B.P.uc B.be a⟩ plan [] with
  | .ok n _ => .ok n
  | .err _ _ => .err
  | .panic => .panic

/-! ### From an executed plan to a result -/

/-- The error of a node itself. -/
def ownError : Node → List Msg
  | .mk _ (some (.error m)) _ => [m]
  | _ => []

mutual
/-- The errors of a node as a child: its own error and those of its children (engine/mod.rs 1130-1141).  `all`: the
terminator is `ALL`, otherwise `CONTAINERS`. -/
def nodeErrors (all : Bool) : Node → List Msg
  | .mk k r cs => if (Node.mk k r []).isContainer && !all then []
      else ownError (.mk k r []) ++ childErrors all cs
termination_by structural x => x
/-- `child_errors` (engine/mod.rs 1130-1141) over the children. -/
def childErrors (all : Bool) : List Node → List Msg
  | [] => []
  | c :: cs => nodeErrors all c ++ childErrors all cs
termination_by structural x => x
end

/-- `ExecutionPlanNode::error` (engine/mod.rs 1144-1150). -/
def firstError (n : Node) : Option Msg := (ownError n ++ childErrors false n.children).head?

/-- `ExecutionPlanNode::errors` (engine/mod.rs 1153-1160). -/
def errors (n : Node) : List Msg := ownError n ++ childErrors true n.children

mutual
/-- The containers below a node with their errors, in the order of `traverse_containers` (engine/mod.rs 1193-1209)
and the callback of `body_mismatches` (lib.rs 1466-1481). -/
def groups : Node → List (Str × List Msg)
  | .mk k _ cs => (match k with | .container l => [(l, childErrors false cs)] | _ => []) ++ groupsList cs
termination_by structural x => x
def groupsList : List Node → List (Str × List Msg)
  | [] => []
  | c :: cs => groups c ++ groupsList cs
termination_by structural x => x
end

/-- The label test of `fetch_node` (engine/mod.rs 1177-1189) for a container. -/
def hasLabel (l : Str) (n : Node) : Bool :=
  match n.kind with
  | .container k => decide (k = l)
  | _ => false

/-- `fetch_node(&[":request", ":<part>"]).unwrap_or_default()` (engine/mod.rs 1163-1175). -/
def fetchPart (plan : Node) (l : String) : Node :=
  if hasLabel "request".toList plan then (plan.children.find? (hasLabel l.toList)).getD (.mk .empty none [])
  else .mk .empty none []

/-- The mismatches of a body: `BodyMatchResult` (lib.rs 1201-1220) with messages only. -/
inductive BodyVerdict where
  | ok
  | typeMismatch (m : Msg)
  | mismatches (groups : List (Str × List Msg))
deriving DecidableEq

/-- `RequestMatchResult` (lib.rs 1252-1263) made from a plan: the mismatches have messages only. -/
structure Verdict where
  method : Option Msg
  path : Option (List Msg)
  query : List (Str × List Msg)
  headers : List (Str × List Msg)
  body : BodyVerdict
deriving DecidableEq

/-- One child in `query_mismatches` and `header_mismatches` (lib.rs 1376-1399, 1417-1440). -/
def addMismatches (acc : List (Str × List Msg)) (c : Node) : List (Str × List Msg) :=
  match c.kind with
  | .container l => insertKV l (errors c) acc
  | _ => if (errors c).isEmpty then acc
    else insertKV [] (match Json.lookup [] acc with | some l => l ++ errors c | none => []) acc

/-- `query_mismatches` and `header_mismatches` (lib.rs 1373-1412, 1414-1453). -/
def entryMismatches (n : Node) : List (Str × List Msg) :=
  let acc := n.children.foldl addMismatches []
  let es := childErrors false n.children
  if es.isEmpty then acc else insertKV [] es acc

/-- Whether a message is empty. -/
def Msg.isEmpty : Msg → Bool
  | .said => false
  | .text s => s.isEmpty

/-- Whether a message starts with "body type error" (lib.rs 1457). -/
def Msg.isTypeError (uc : UC) : Msg → Bool
  | .said => false
  | .text s => "body type error".toList.isPrefixOf (uc.lower s)

/-- The groups of errors of the containers below a body (lib.rs 1466-1481). -/
def bodyGroups (n : Node) : List (Str × List Msg) :=
  (groupsList n.children).foldl (fun acc g => if g.2.isEmpty then acc else insertKV g.1 g.2 acc) []

/-- `body_mismatches` (lib.rs 1455-1500). -/
def bodyVerdict (uc : UC) (n : Node) : BodyVerdict :=
  if n.res.isTruthy then .ok
  else if n.children.isEmpty then match n.result with
    | some (.error m) => .mismatches [([], [m])]
    | _ => .ok
  else
    let m := (firstError n).getD (.text [])
    if m.isTypeError uc then .typeMismatch m
    else if m.isEmpty then .mismatches (bodyGroups n)
    else .mismatches (insertKV [] ((Json.lookup [] (bodyGroups n)).getD [] ++ [m]) (bodyGroups n))

/-- `impl From<ExecutionPlan> for RequestMatchResult` (lib.rs 1515-1530). -/
def verdict (uc : UC) (plan : Node) : Verdict :=
  { method := firstError (fetchPart plan "method")
    path := match errors (fetchPart plan "path") with | [] => none | l => some l
    query := entryMismatches (fetchPart plan "query parameters")
    headers := entryMismatches (fetchPart plan "headers")
    body := bodyVerdict uc (fetchPart plan "body") }

/-- `match_request` with the V2 engine (lib.rs 1869-1912). -/
def matchRequestV2 (B : BP) (e a : Request) : Res Verdict :=
  (requestPlan B e).bind fun plan => (executePlan B plan a).map (verdict B.P.uc)

/-- `BodyMatchResult::all_matched` (lib.rs 1241-1248). -/
def BodyVerdict.allMatched : BodyVerdict → Bool
  | .ok => true
  | .typeMismatch _ => false
  | .mismatches g => g.all (fun kv => kv.2.isEmpty)

/-- `RequestMatchResult::all_matched` (lib.rs 1334-1339). -/
def Verdict.allMatched (v : Verdict) : Bool :=
  v.method.isNone && v.path.isNone && v.query.all (fun kv => kv.2.isEmpty)
    && v.headers.all (fun kv => kv.2.isEmpty) && v.body.allMatched

end Engine
end Verif
