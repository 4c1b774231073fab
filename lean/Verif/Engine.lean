import Verif.MatchResult
import Verif.RuleJson
import Verif.Base64

/-
  Model of the interpreter of the V2 matching engine: `rust/pact_matching/src/engine/mod.rs` (node values,
  results and nodes), `engine/interpreter.rs` (execution of a plan) and `engine/value_resolvers.rs`.

  Not modelled: XML values and the actions on them (`xml:*`, and the XML cases of the other actions), and the text
  of most error messages (`Msg.said` stands for a message that is not empty and does not start with
  "body type error"; messages that the plan itself computes are kept).  The `path` arguments of the interpreter are
  only used for tracing and are left out.
-/
set_option autoImplicit false

namespace Verif
namespace Engine
open Path Rules Matchers Compare Query Headers MatchResult

/-- `enum NodeValue` (engine/mod.rs 67-93), without XML.  A `HashMap` is an association list. -/
inductive NodeValue where
  | null
  | str (s : Str)
  | bool (b : Bool)
  | mmap (m : List (Str × List Str))
  | slist (l : List Str)
  | barray (b : Bytes)
  | namespaced (name value : Str)
  | uint (n : Nat)
  | json (j : Json)
  | entry (key : Str) (value : NodeValue)
  | list (l : List NodeValue)

/-- A message: one with a text of its own that is not modelled, or a text computed by the plan. -/
inductive Msg where
  | said
  | text (s : Str)
deriving DecidableEq

/-- `enum NodeResult` (engine/mod.rs 435-443). -/
inductive NodeResult where
  | ok
  | value (v : NodeValue)
  | error (m : Msg)

/-- The names of the actions dispatched by `execute_action` (interpreter.rs 236-301); the XML actions are left out. -/
inductive Action where
  | upperCase | lowerCase | toStr | length | expectEmpty | convertUtf8 | iff | and | or | tee | apply | push | pop
  | jsonParse | jsonExpectEmpty | jsonMatchLength | jsonExpectEntries | checkExists | expectEntries
  | expectOnlyEntries | expectCount | join | joinWith | error | headerParse | forEach
  | matcher (name : Str)
  | other (name : Str)

/-- `enum PlanNodeType` (engine/mod.rs 43-63); the text of an annotation is left out. -/
inductive NodeKind where
  | empty
  | container (label : Str)
  | action (a : Action)
  | value (v : NodeValue)
  | resolve (p : DocPath)
  | pipeline
  | resolveCurrent (p : DocPath)
  | splat
  | annotation

/-- `struct ExecutionPlanNode` (engine/mod.rs 592-599). -/
inductive Node where
  | mk (kind : NodeKind) (result : Option NodeResult) (children : List Node)

namespace Node
/-- The type of a node. -/
def kind : Node → NodeKind | mk k _ _ => k
/-- The result of a node. -/
def result : Node → Option NodeResult | mk _ r _ => r
/-- The children of a node. -/
def children : Node → List Node | mk _ _ c => c
/-- `clone_with_result` (engine/mod.rs 612-618). -/
def withResult (n : Node) (r : NodeResult) : Node := mk n.kind (some r) n.children
/-- `node.value().unwrap_or_default()` (engine/mod.rs 960-962). -/
def res (n : Node) : NodeResult := n.result.getD .ok
/-- `is_splat` (engine/mod.rs 952-957). -/
def isSplat (n : Node) : Bool := match n.kind with | .splat => true | _ => false
/-- `is_container` (engine/mod.rs 1109-1115). -/
def isContainer (n : Node) : Bool := match n.kind with | .container _ => true | _ => false
/-- A node that has not been executed. -/
def new (k : NodeKind) (cs : List Node) : Node := mk k none cs
end Node

/-- The functions of the standard library and of other crates the interpreter calls. -/
structure EP where
  env : Env
  uc : UC
  rules : RuleJson.Params
  /-- `str::to_uppercase`. -/
  upper : Str → Str
  /-- `NodeValue::str_form` of the values other than NULL and JSON (engine/mod.rs 97-179). -/
  form : NodeValue → Str
  /-- `{:?}` of a map or a list (engine/mod.rs 468-487). -/
  debug : NodeValue → Str
  /-- `String::from_utf8_lossy`. -/
  lossy : Bytes → Str
  /-- `str::len`, the length in bytes. -/
  byteLen : Str → Nat
  /-- `serde_json::from_str`. -/
  parseStr : Str → Option Json
  /-- `serde_json::from_slice`. -/
  parseBytes : Bytes → Option Json

namespace NodeValue

/-- `NodeValue::truthy` (engine/mod.rs 275-286). -/
def truthy : NodeValue → Bool
  | str s => !s.isEmpty
  | bool b => b
  | mmap m => !m.isEmpty
  | slist l => !l.isEmpty
  | barray b => !b.isEmpty
  | uint n => n != 0
  | list l => !l.isEmpty
  | _ => false

/-- `NodeValue::and` (engine/mod.rs 257-263). -/
def and : NodeValue → NodeValue → NodeValue
  | null, o => o
  | bool b, o => bool (b && o.truthy)
  | v, o => bool (v.truthy && o.truthy)

/-- `NodeValue::or` (engine/mod.rs 266-272). -/
def or : NodeValue → NodeValue → NodeValue
  | null, o => o
  | bool b, o => bool (b || o.truthy)
  | v, o => bool (v.truthy || o.truthy)

/-- The length of `NodeValue::to_list` (engine/mod.rs 289-312). -/
def listLen : NodeValue → Nat
  | mmap m => m.length
  | slist l => l.length
  | json (.arr l) => l.length
  | list l => l.length
  | _ => 1

/-- `NodeValue::as_json().unwrap_or_default()` (engine/mod.rs 209-214). -/
def asJsonD : NodeValue → Json
  | json j => j
  | _ => .null

/-- `impl Display for NodeValue`: `str_form` (engine/mod.rs 97-179, 427-431). -/
def strForm (P : EP) : NodeValue → Str
  | null => "NULL".toList
  | json j => "json:".toList ++ j.text
  | v => P.form v

/-- `impl Matches<bool> for bool` (matchers.rs 670-704). -/
def boolMatches (env : Env) (e a : Bool) (rule : MatchingRule) : Bool :=
  match rule with
  | .regex re => regexMatches env re (if a then "true".toList else "false".toList)
  | .type | .minType _ | .maxType _ | .minMaxType _ _ => true
  | .equality => decide (e = a)
  | .boolean => true
  | r => fallback r false

/-- `impl Matches<NodeValue> for NodeValue` (engine/mod.rs 382-425), with `cascaded` false as the interpreter calls
it: `true` for `Ok`. -/
def matches_ (P : EP) (e a : NodeValue) (rule : MatchingRule) : Bool :=
  match e with
  | null => jsonMatches P.env .null a.asJsonD rule false
  | str s => match a with
    | str t => strMatches P.env s t rule false
    | slist l => l.all (fun t => strMatches P.env s t rule false)
    | a => strMatches P.env s (a.strForm P) rule false
  | bool b => boolMatches P.env b (match a with | bool c => c | _ => false) rule
  | uint n => u64Matches P.env n (match a with | uint m => m | _ => 0) rule false
  | json j => jsonMatches P.env j a.asJsonD rule false
  | slist l => match a with
    | slist m => listMatches listEqStr l m rule false
    | str t => listMatches listEqStr l [t] rule false
    | a => listMatches listEqStr l [a.strForm P] rule false
  | _ => false

end NodeValue

namespace NodeResult

/-- `NodeResult::is_truthy` (engine/mod.rs 523-538). -/
def isTruthy : NodeResult → Bool
  | ok => true
  | value v => v.truthy
  | error _ => false

/-- `NodeResult::truthy` (engine/mod.rs 541-543). -/
def truthy (r : NodeResult) : NodeResult := .value (.bool r.isTruthy)

/-- `NodeResult::and` (engine/mod.rs 447-465). -/
def and : NodeResult → Option NodeResult → NodeResult
  | r, none => r
  | ok, some r => r
  | value v, some ok => value v
  | value v, some (value w) => value (v.and w)
  | value _, some (error m) => error m
  | error m, some _ => error m

/-- `NodeResult::as_string` (engine/mod.rs 468-487). -/
def asString (P : EP) : NodeResult → Option Str
  | value v => match v with
    | .null => some []
    | .str s => some s
    | .bool b => some (if b then "true".toList else "false".toList)
    | .barray b => some (Base64.encode b)
    | .namespaced n v => some (n ++ ':' :: v)
    | .uint n => some (natStr n)
    | .json j => some j.text
    | .entry k v => some (k ++ " -> ".toList ++ v.strForm P)
    | v => some (P.debug v)
  | _ => none

/-- `NodeResult::as_value` (engine/mod.rs 502-508). -/
def asValue : NodeResult → Option NodeValue
  | value v => some v
  | _ => none

/-- `NodeResult::value_or_error` (engine/mod.rs 546-552). -/
def valueOrError : NodeResult → Except Msg NodeValue
  | ok => .ok (.bool true)
  | value v => .ok v
  | error m => .error m

/-- `NodeResult::is_err` (engine/mod.rs 555-560). -/
def isErr : NodeResult → Bool
  | error _ => true
  | _ => false

end NodeResult

/-- `value_stack` (interpreter.rs 29), the top first. -/
abbrev Stack := List (Option NodeResult)

/-- Outcome of a call of the interpreter with the value stack it leaves: a value, an `Err`, or a panic. -/
inductive Out (α : Type) where
  | ok (a : α) (s : Stack)
  | err (m : Msg) (s : Stack)
  | panic

namespace Out
/-- Mapping over the value. -/
def map {α β : Type} (f : α → β) : Out α → Out β
  | ok a s => .ok (f a) s
  | err m s => .err m s
  | panic => .panic
end Out

/-- What the interpreter needs to execute a plan: the external functions and the value resolver. -/
structure ECtx where
  P : EP
  /-- `ValueResolver::resolve` (value_resolvers.rs 12-15). -/
  resolve : DocPath → Res NodeValue

/-- A recursive call of `walk_tree`. -/
abbrev Rec := Node → Stack → Out Node

/-! ### Loops over children -/

/-- Walking nodes one after the other (`?` on each). -/
def walkAll (rec : Rec) : List Node → Stack → Out (List Node)
  | [], s => .ok [] s
  | n :: ns, s => match rec n s with
    | .ok m s1 => (walkAll rec ns s1).map (m :: ·)
    | .err e s1 => .err e s1
    | .panic => .panic

/-- The results for the items of a work list one after the other. -/
def expandAll (f : Node → Stack → Out (List Node)) : List Node → Stack → Out (List Node)
  | [], s => .ok [] s
  | n :: ns, s => match f n s with
    | .ok ms s1 => (expandAll f ns s1).map (ms ++ ·)
    | .err e s1 => .err e s1
    | .panic => .panic

/-- The work list loop of a container and of a pipeline for one item (interpreter.rs 61-85, 132-190): the item is
walked, `post` updates the stack, and the children of a splat take its place in the work list.  The bound is the
nesting of splats. -/
def expand (rec : Rec) (post : Node → Stack → Stack) : Nat → Node → Stack → Out (List Node)
  | 0, _, _ => .panic
  | k + 1, item, s => match rec item s with
    | .ok n s1 =>
      if n.isSplat then (expandAll (expand rec post k) n.children (post n s1)).map (n :: ·)
      else .ok [n] (post n s1)
    | .err e s1 => .err e s1
    | .panic => .panic

/-- Outcome of `evaluate_children` (interpreter.rs 1660-1713): children and values, or the error with the children so
far. -/
inductive EOut where
  | ok (children : List Node) (values : List NodeValue) (s : Stack)
  | fail (m : Msg) (children : List Node) (s : Stack)
  | panic

/-- The items of the work list of `evaluate_children` one after the other. -/
def evalAll (f : Node → Stack → EOut) : List Node → Stack → EOut
  | [], s => .ok [] [] s
  | n :: ns, s => match f n s with
    | .ok cs vs s1 => match evalAll f ns s1 with
      | .ok ds ws s2 => .ok (cs ++ ds) (vs ++ ws) s2
      | .fail m ds s2 => .fail m (cs ++ ds) s2
      | .panic => .panic
    | .fail m cs s1 => .fail m cs s1
    | .panic => .panic

/-- The result of one item of `evaluate_children` (interpreter.rs 1660-1713). -/
def evalResult (cs : List Node) (s : Stack) : NodeResult → EOut
  | .ok => .ok cs [] s
  | .value v => .ok cs [v] s
  | .error m => .fail m cs s

/-- One item of the work list of `evaluate_children` (interpreter.rs 1660-1713).  A node that has a result already is
not executed again. -/
def evalItem (rec : Rec) : Nat → Node → Stack → EOut
  | 0, _, _ => .panic
  | k + 1, child, s => match child.result with
    | some r => evalResult [] s r
    | none => match rec child s with
      | .ok n s1 =>
        if n.isSplat then match evalAll (evalItem rec k) n.children s1 with
          | .ok cs vs s2 => .ok (n :: cs) vs s2
          | .fail m cs s2 => .fail m (n :: cs) s2
          | .panic => .panic
        else evalResult [n] s1 n.res
      | .err m s1 => .fail m [] s1
      | .panic => .panic

/-! ### Arguments of actions -/

/-- The node with a result and new children. -/
def finish (n : Node) (r : NodeResult) (cs : List Node) (s : Stack) : Out Node := .ok (.mk n.kind (some r) cs) s

/-- `node.clone_with_result(ERROR(err))`: the children stay as they are. -/
def failed (n : Node) (m : Msg) (s : Stack) : Out Node := .ok (n.withResult (.error m)) s

/-- Walking one argument; an `Err` becomes the result of the action. -/
def arg (rec : Rec) (n c : Node) (s : Stack) (k : Node → Stack → Out Node) : Out Node :=
  match rec c s with
  | .ok v s1 => k v s1
  | .err m s1 => failed n m s1
  | .panic => .panic

/-- `validate_one_arg` (interpreter.rs 1514-1528). -/
def args1 (rec : Rec) (n : Node) (s : Stack) (k : Node → Stack → Out Node) : Out Node :=
  match n.children with
  | [c] => arg rec n c s k
  | _ => failed n .said s

/-- `validate_two_args` (interpreter.rs 1530-1544). -/
def args2 (rec : Rec) (n : Node) (s : Stack) (k : Node → Node → Stack → Out Node) : Out Node :=
  match n.children with
  | [c, d] => arg rec n c s fun v s1 => arg rec n d s1 fun w s2 => k v w s2
  | _ => failed n .said s

/-- `validate_three_args` (interpreter.rs 1546-1561). -/
def args3 (rec : Rec) (n : Node) (s : Stack) (k : Node → Node → Node → Stack → Out Node) : Out Node :=
  match n.children with
  | [c, d, e] => arg rec n c s fun v s1 => arg rec n d s1 fun w s2 => arg rec n e s2 fun x s3 => k v w x s3
  | _ => failed n .said s

/-- `validate_args(1, 1, ..)` (interpreter.rs 1563-1584). -/
def args1o (rec : Rec) (n : Node) (s : Stack) (k : Node → Option Node → Stack → Out Node) : Out Node :=
  match n.children with
  | [c] => arg rec n c s fun v s1 => k v none s1
  | [c, o] => arg rec n c s fun v s1 => k v (some o) s1
  | _ => failed n .said s

/-- `validate_args(2, 1, ..)` (interpreter.rs 1563-1584). -/
def args2o (rec : Rec) (n : Node) (s : Stack) (k : Node → Node → Option Node → Stack → Out Node) : Out Node :=
  match n.children with
  | [c, d] => arg rec n c s fun v s1 => arg rec n d s1 fun w s2 => k v w none s2
  | [c, d, o] => arg rec n c s fun v s1 => arg rec n d s1 fun w s2 => k v w (some o) s2
  | _ => failed n .said s

/-- `validate_args(3, 1, ..)` (interpreter.rs 1563-1584). -/
def args3o (rec : Rec) (n : Node) (s : Stack) (k : Node → Node → Node → Option Node → Stack → Out Node) : Out Node :=
  match n.children with
  | [c, d, e] => arg rec n c s fun v s1 => arg rec n d s1 fun w s2 => arg rec n e s2 fun x s3 => k v w x none s3
  | [c, d, e, o] => arg rec n c s fun v s1 => arg rec n d s1 fun w s2 => arg rec n e s2 fun x s3 => k v w x (some o) s3
  | _ => failed n .said s

/-! ### Actions -/

/-- Result of a check: `Ok(())`-like results carry the boolean, errors their message. -/
abbrev Check := Except Msg Bool

/-- The result of a check. -/
def checkResult : Check → NodeResult
  | .ok b => .value (.bool b)
  | .error m => .error m

/-- `fn json_check_type` (interpreter.rs 2258-2279). -/
def jsonCheckType (ty : Str) (j : Json) : Bool :=
  if ty = "NULL".toList then decide (Matchers.kind j = .null)
  else if ty = "BOOL".toList then decide (Matchers.kind j = .bool)
  else if ty = "NUMBER".toList then decide (Matchers.kind j = .number)
  else if ty = "STRING".toList then decide (Matchers.kind j = .string)
  else if ty = "ARRAY".toList then decide (Matchers.kind j = .array)
  else if ty = "OBJECT".toList then decide (Matchers.kind j = .object)
  else false

/-- `fn json_check_length` (interpreter.rs 2242-2256). -/
def jsonCheckLength (n : Nat) : Json → Bool
  | .arr l => decide (l.length = n)
  | .obj o => decide (o.length = n)
  | _ => true

/-- The JSON value of a result, if it is one (interpreter.rs 303-407). -/
def jsonOf : NodeResult → Option Json
  | .value (.json j) => some j
  | _ => none

/-- A check that either succeeds or fails with a message. -/
def okIf (b : Bool) : Check := if b then .ok true else .error .said

/-- The check of `execute_json_expect_entries` (interpreter.rs 303-407). -/
def expectEntriesCheck (P : EP) (ty keys actual : NodeResult) : Check :=
  match ty.asString P, keys, jsonOf actual with
  | some ty, .value (.slist ks), some j =>
    if jsonCheckType ty j then match j with
      | .obj es => okIf (ks.all (fun k => Json.hasKey k es))
      | _ => .error .said
    else .error .said
  | _, _, _ => .error .said

/-- The check of `execute_json_match_length` (interpreter.rs 409-489). -/
def matchLengthCheck (P : EP) (ty len actual : NodeResult) : Check :=
  match ty.asString P, len, jsonOf actual with
  | some ty, .value (.uint n), some j => okIf (jsonCheckType ty j && jsonCheckLength n j)
  | _, _, _ => .error .said

/-- Whether a JSON value is empty (interpreter.rs 491-583, 1050-1190). -/
def jsonEmpty : Json → Bool
  | .null => true
  | .str s => s.isEmpty
  | .arr l => l.isEmpty
  | .obj o => o.isEmpty
  | _ => false

/-- The check of `execute_json_expect_empty` (interpreter.rs 491-583). -/
def jsonExpectEmptyCheck (P : EP) (ty actual : NodeResult) : Check :=
  match ty.asString P, jsonOf actual with
  | some ty, some j => okIf (jsonCheckType ty j && jsonEmpty j)
  | _, _ => .error .said

/-- `execute_json_parse` (interpreter.rs 585-634) on the result of the argument. -/
def jsonParse (P : EP) (r : NodeResult) : NodeResult :=
  match r.asValue with
  | none => .value .null
  | some .null => .value .null
  | some (.str s) => match P.parseStr s with
    | some j => .value (.json j)
    | none => .error .said
  | some (.barray b) => match P.parseBytes b with
    | some j => .value (.json j)
    | none => .error .said
  | some _ => .error .said

/-- `execute_convert_utf8` (interpreter.rs 1003-1048) on the result of the argument. -/
def convertUtf8 (P : EP) (r : NodeResult) : NodeResult :=
  match r.asValue with
  | none => .value (.str [])
  | some .null => .value (.str [])
  | some (.str s) => .value (.str s)
  | some (.barray b) => .value (.str (P.lossy b))
  | some _ => .error .said

/-- The emptiness test of `execute_expect_empty` (interpreter.rs 1050-1190) on a result that is not an error: the
boolean it returns, an error, or `todo!()`. -/
def emptyCheck (r : NodeResult) : Res Bool :=
  let test (b : Bool) : Res Bool := if b then .ok true else .err
  match r.asValue with
  | none => .ok true
  | some .null => .ok true
  | some (.str s) => test s.isEmpty
  | some (.bool b) => .ok b
  | some (.mmap m) => test m.isEmpty
  | some (.slist l) => test l.isEmpty
  | some (.barray b) => test b.isEmpty
  | some (.namespaced _ _) => .panic
  | some (.uint n) => test (n == 0)
  | some (.json j) => test (jsonEmpty j)
  | some (.entry _ _) => .ok false
  | some (.list l) => test l.isEmpty

/-- `execute_check_exists` (interpreter.rs 1457-1488) on the result of the argument. -/
def exists_ : NodeResult → Bool
  | .value .null => false
  | .value _ => true
  | _ => false

/-- `execute_length` (interpreter.rs 1408-1455) on the result of the argument. -/
def length (P : EP) (r : NodeResult) : NodeResult :=
  match r.asValue.getD .null with
  | .null => .value (.uint 0)
  | .str s => .value (.uint (P.byteLen s))
  | .mmap m => .value (.uint m.length)
  | .slist l => .value (.uint l.length)
  | .barray b => .value (.uint b.length)
  | .json (.str s) => .value (.uint (P.byteLen s))
  | .json (.arr l) => .value (.uint l.length)
  | .json (.obj o) => .value (.uint o.length)
  | .list l => .value (.uint l.length)
  | _ => .error .said

/-- One value of `execute_change_case` (interpreter.rs 1315-1363). -/
def changeCase (f : Str → Str) : NodeValue → NodeValue
  | .str s => .str (f s)
  | .slist l => .slist (l.map f)
  | .json (.str s) => .str (f s)
  | .json j => .str j.text
  | v => v

/-- One value of `execute_to_string` (interpreter.rs 1365-1406). -/
def toStr (P : EP) : NodeValue → NodeValue
  | .null => .str []
  | .str s => .str s
  | .slist l => .slist l
  | .json (.str s) => .str s
  | .json j => .str j.text
  | v => .str (v.strForm P)

/-- `if results.len() == 1 { results[0] } else { LIST(results) }` (interpreter.rs 1315-1363). -/
def single : List NodeValue → NodeValue
  | [v] => v
  | l => .list l

/-- The texts of one value in `execute_join` and `execute_error` (interpreter.rs 1586-1624, 1626-1658). -/
def joinTexts (P : EP) : NodeValue → List Str
  | .str s => [s]
  | .bool b => [if b then "true".toList else "false".toList]
  | .slist l => l
  | .uint n => [natStr n]
  | .json j => [j.text]
  | .null => []
  | .entry _ _ => []
  | .list _ => []
  | v => [v.strForm P]

/-- The text made by `join` and `join-with` (interpreter.rs 1586-1624). -/
def joinText (withFirst : Bool) (l : List Str) : Str :=
  match withFirst, l with
  | true, sep :: rest => joinStr sep rest
  | _, l => l.flatten

/-- The names in an actual value for `expect:entries` and `expect:only-entries` (interpreter.rs 1715-1837). -/
def entryNames : NodeValue → Option (List Str)
  | .mmap m => some (Json.keys m)
  | .slist l => some l
  | .str s => some [s]
  | .json (.obj o) => some (Json.keys o)
  | .json (.arr l) => some (l.map Json.text)
  | _ => none

/-- The names that are missing (`expected - actual`) or not expected (`actual - expected`) in `check_diff`
(interpreter.rs 2004-2030). -/
def diff (only : Bool) (expected actual : List Str) : List Str :=
  if only then actual.filter (fun k => !expected.contains k) else expected.filter (fun k => !actual.contains k)

/-- The length test of `execute_expect_count` (interpreter.rs 1839-1962). -/
def countCheck (P : EP) (n : Nat) : NodeValue → Bool
  | .mmap m => decide (m.length = n)
  | .slist l => decide (l.length = n)
  | .str s => decide (P.byteLen s = n)
  | .list l => decide (l.length = n)
  | .json (.obj o) => decide (o.length = n)
  | .json (.arr l) => decide (l.length = n)
  | _ => false

/-- `execute_header_parse` (interpreter.rs 2032-2068) on the text of a header. -/
def headerJson (uc : UC) (s : Str) : Json :=
  let vs := stripWhitespace uc s
  RuleJson.obj [("parameters", .obj (OMap.collect ((parseCharsetParameters uc vs.tail).map fun kv => (kv.1, Json.str kv.2)))),
    ("value", .str (vs.headD []))]

/-- `serde_json::Value::pointer` for the decoded tokens of a pointer. -/
def lookupTokens : List Str → Json → Option Json
  | [], j => some j
  | t :: ts, .obj es => (Json.lookup t es).bind (lookupTokens ts)
  | t :: ts, .arr l => (JsonUtils.parseIndex t).bind (fun i => (l[i]?).bind (lookupTokens ts))
  | _ :: _, _ => none

/-- `serde_json::Value::pointer`. -/
def pointer (ptr : Str) (j : Json) : Option Json :=
  if ptr.isEmpty then some j
  else if ptr.head? = some '/' then
    lookupTokens (((JsonUtils.splitSlash ptr).drop 1).map JsonUtils.unescapeToken) j
  else none

/-- The JSON case of `resolve_stack_value` (interpreter.rs 2128-2195). -/
def resolveJson (j : Json) (p : DocPath) : NodeValue :=
  if isRoot p then .json j
  else match JsonUtils.resolvePath j p.tokens with
    | [] => .null
    | [q] => match pointer q j with
      | some v => .json v
      | none => .null
    | qs => .json (.arr (qs.map fun q => (pointer q j).getD .null))

/-- `resolve_stack_value` (interpreter.rs 2128-2195). -/
def resolveStack (p : DocPath) : Stack → Except Msg NodeValue
  | some (.value (.json j)) :: _ => .ok (resolveJson j p)
  | _ => .error .said

/-- `fn inject_index_in_path` (interpreter.rs 2231-2240). -/
def injectTokens (i : Nat) : List PathToken → List PathToken
  | [] => []
  | .starIndex :: ts => .index i :: ts
  | t :: ts => t :: injectTokens i ts

/-- The label of a container after `inject_index` (interpreter.rs 2198-2229). -/
def injectLabel (uc : UC) (i : Nat) (label : Str) : Res Str :=
  match Path.new uc label with
  | .ok p => .ok (fromTokens (injectTokens i p.tokens)).expr
  | .err => .ok label
  | .panic => .panic

mutual
/-- `fn inject_index` (interpreter.rs 2198-2229). -/
def injectIndex (uc : UC) (i : Nat) : Node → Res Node
  | .mk (.container l) r cs =>
    (injectLabel uc i l).bind fun l' => (injectList uc i cs).map fun ds => .mk (.container l') r ds
  | .mk (.action a) r cs => (injectList uc i cs).map fun ds => .mk (.action a) r ds
  | .mk .pipeline r cs => (injectList uc i cs).map fun ds => .mk .pipeline r ds
  | .mk (.resolveCurrent p) r _ => .ok (.mk (.resolveCurrent (fromTokens (injectTokens i p.tokens))) r [])
  | .mk .splat r cs => (injectList uc i cs).map fun ds => .mk .splat r ds
  | .mk k r cs => .ok (.mk k r cs)
termination_by structural x => x
def injectList (uc : UC) (i : Nat) : List Node → Res (List Node)
  | [] => .ok []
  | n :: ns => (injectIndex uc i n).bind fun m => (injectList uc i ns).map fun ms => m :: ms
termination_by structural x => x
end

/-- Building the message of an action with its optional argument (interpreter.rs 1050-1190, 1715-1837, 1839-1962):
a failure of the optional node leaves the original message. -/
def withMessage (C : ECtx) (rec : Rec) (n : Node) (values : List Node) (opt : Option Node) (m : Msg) (s : Stack)
    (after : Stack → Stack) : Out Node :=
  match opt with
  | none => finish n (.error m) values (after s)
  | some o => match rec o s with
    | .ok v s1 => finish n (.error (.text ((v.res.asString C.P).getD []))) (values ++ [v]) (after s1)
    | .err _ s1 => finish n (.error m) (values ++ [o]) (after s1)
    | .panic => .panic

/-- `execute_expect_empty` (interpreter.rs 1050-1190). -/
def execExpectEmpty (C : ECtx) (rec : Rec) (n : Node) (s : Stack) : Out Node :=
  args1o rec n s fun v opt s1 =>
    match v.res with
    | .error m => finish n (.error m) (v :: opt.toList) s1
    | r => match emptyCheck r with
      | .ok b => finish n (.value (.bool b)) (v :: opt.toList) s1
      | .err => withMessage C rec n [v] opt .said s1 id
      | .panic => .panic

/-- Running the matching rule of `execute_match` (interpreter.rs 1192-1313). -/
def execRule (C : ECtx) (rec : Rec) (n : Node) (rule : MatchingRule) (e a : NodeValue) (values : List Node)
    (opt : Option Node) (s : Stack) : Out Node :=
  if e.matches_ C.P a rule then finish n (.value (.bool true)) (values ++ opt.toList) s
  else match opt with
    | none => finish n (.error .said) values s
    | some o => withMessage C rec n values (some o) .said (some (.error .said) :: s) id

/-- `execute_match` (interpreter.rs 1192-1313).  When the rule fails and there is an error node the failure is pushed
on the value stack and not taken off again. -/
def execMatch (C : ECtx) (rec : Rec) (name : Str) (n : Node) (s : Stack) : Out Node :=
  args3o rec n s fun v w x opt s1 =>
    match v.res.valueOrError, w.res.valueOrError, x.res.valueOrError with
    | .ok e, .ok a, .ok ps => match RuleJson.create (RuleJson.fromJson C.P.rules) C.P.rules name ps.asJsonD with
      | .ok rule => execRule C rec n rule e a [v, w, x] opt s1
      | .err => failed n .said s1
      | .panic => .panic
    | .error m, _, _ => finish n (.error m) (v :: w :: x :: opt.toList) s1
    | .ok _, .error m, _ => finish n (.error m) (v :: w :: x :: opt.toList) s1
    | .ok _, .ok _, .error m => finish n (.error m) (v :: w :: x :: opt.toList) s1

/-- An action over the values of its children (`evaluate_children`). -/
def overValues (rec : Rec) (k : Nat) (n : Node) (s : Stack) (f : List NodeValue → NodeResult) : Out Node :=
  match evalAll (evalItem rec k) n.children s with
  | .ok cs vs s1 => finish n (f vs) cs s1
  | .fail m cs s1 => finish n (.error m) cs s1
  | .panic => .panic

/-- The expected names of `execute_check_entries` (interpreter.rs 1715-1837). -/
def expectedNames : NodeResult → List Str
  | .value (.slist l) => l
  | _ => []

/-- `execute_check_entries` (interpreter.rs 1715-1837). -/
def execCheckEntries (C : ECtx) (rec : Rec) (only : Bool) (n : Node) (s : Stack) : Out Node :=
  args2o rec n s fun v w opt s1 =>
    match entryNames (w.res.asValue.getD .null) with
    | none => finish n (.error .said) (v :: w :: opt.toList) s1
    | some actual => match diff only (expectedNames v.res) actual with
      | [] => finish n .ok (v :: w :: opt.toList) s1
      | d => match opt with
        | none => finish n (.error .said) [v, w] s1
        | some o => withMessage C rec n [v, w] (some o) .said (some (.value (.slist d)) :: s1) List.tail

/-- `execute_expect_count` (interpreter.rs 1839-1962). -/
def execExpectCount (C : ECtx) (rec : Rec) (n : Node) (s : Stack) : Out Node :=
  args2o rec n s fun v w opt s1 =>
    let len := match v.res with | .value (.uint k) => k | _ => 0
    if countCheck C.P len (w.res.asValue.getD .null) then finish n .ok (v :: w :: opt.toList) s1
    else withMessage C rec n [v, w] opt .said s1 id

/-- `execute_if` (interpreter.rs 864-952). -/
def execIf (rec : Rec) (n : Node) (s : Stack) : Out Node :=
  match n.children with
  | [] => failed n .said s
  | c :: cs => match rec c s with
    | .panic => .panic
    | .err m s1 => failed n m s1
    | .ok first s1 =>
      if first.res.isTruthy then match cs with
        | [] => finish n first.res [first] s1
        | d :: ds => match rec d s1 with
          | .ok second s2 => finish n second.res.truthy (first :: second :: ds) s2
          | .err _ s2 => finish n (.value (.bool false)) (first :: d :: ds) s2
          | .panic => .panic
      else match cs with
        | d :: e :: es => match rec e s1 with
          | .ok other s2 => .ok (.mk n.kind other.result (first :: d :: other :: es)) s2
          | .err m s2 => finish n (.error m) (first :: d :: e :: es) s2
          | .panic => .panic
        | cs => finish n (.value (.bool false)) (first :: cs) s1

/-- The loop of `execute_tee` and of `execute_for_each` over the nodes to execute (interpreter.rs 954-1001,
2070-2125). -/
def teeLoop (rec : Rec) : List Node → NodeResult → Stack → Out (NodeResult × List Node)
  | [], r, s => .ok (r, []) s
  | c :: cs, r, s => match rec c s with
    | .ok v s1 => (teeLoop rec cs (r.and v.result) s1).map (fun p => (p.1, v :: p.2))
    | .err m s1 => (teeLoop rec cs (r.and (some (.error m))) s1).map (fun p => (p.1, c.withResult (.error m) :: p.2))
    | .panic => .panic

/-- `execute_tee` (interpreter.rs 954-1001). -/
def execTee (rec : Rec) (n : Node) (s : Stack) : Out Node :=
  match n.children with
  | [] => .ok (n.withResult .ok) s
  | c :: cs => arg rec n c s fun first s1 =>
    if first.res.isErr then finish n first.res (first :: cs) s1
    else match teeLoop rec cs .ok (first.result :: s1) with
      | .ok (r, ds) s2 => finish n r.truthy (first :: ds) s2.tail
      | .err m s2 => .err m s2
      | .panic => .panic

/-- The bodies of a `for-each` with the indices put in (interpreter.rs 2070-2125). -/
def unroll (uc : UC) (body : List Node) : Nat → Nat → Res (List Node)
  | _, 0 => .ok []
  | i, k + 1 => (injectList uc i body).bind fun ns => (unroll uc body (i + 1) k).map fun ms => ns ++ ms

/-- `execute_for_each` (interpreter.rs 2070-2125). -/
def execForEach (C : ECtx) (rec : Rec) (n : Node) (s : Stack) : Out Node :=
  match n.children with
  | [] => .ok (n.withResult .ok) s
  | c :: cs => arg rec n c s fun first s1 =>
    if first.res.isErr then finish n first.res (first :: cs) s1
    else match unroll C.P.uc cs 0 (first.res.asValue.getD .null).listLen with
      | .ok body => match teeLoop rec body .ok s1 with
        | .ok (r, ds) s2 => finish n r.truthy (first :: ds) s2
        | .err m s2 => .err m s2
        | .panic => .panic
      | _ => .panic

/-- `execute_pop` (interpreter.rs 814-828). -/
def execPop (n : Node) : Stack → Out Node
  | [] => failed n .said []
  | _ :: s => .ok (.mk n.kind (s.head?.getD none) n.children) s

/-- `execute_push` (interpreter.rs 830-846). -/
def execPush (n : Node) : Stack → Out Node
  | [] => failed n .said []
  | v :: s => .ok (.mk n.kind v n.children) (v :: v :: s)

/-- `execute_apply` (interpreter.rs 848-862). -/
def execApply (n : Node) : Stack → Out Node
  | [] => failed n .said []
  | v :: s => .ok (.mk n.kind v n.children) (v :: s)

/-- `execute_action` (interpreter.rs 236-301). -/
def execAction (C : ECtx) (rec : Rec) (k : Nat) (n : Node) (s : Stack) : Action → Out Node
  | .matcher name => execMatch C rec name n s
  | .upperCase => overValues rec k n s fun vs => .value (single (vs.map (changeCase C.P.upper)))
  | .lowerCase => overValues rec k n s fun vs => .value (single (vs.map (changeCase C.P.uc.lower)))
  | .toStr => overValues rec k n s fun vs => .value (single (vs.map (toStr C.P)))
  | .length => args1 rec n s fun v s1 => finish n (length C.P v.res) [v] s1
  | .expectEmpty => execExpectEmpty C rec n s
  | .convertUtf8 => args1 rec n s fun v s1 => finish n (convertUtf8 C.P v.res) [v] s1
  | .iff => execIf rec n s
  | .and => overValues rec k n s fun vs => .value (vs.foldl NodeValue.and .null)
  | .or => overValues rec k n s fun vs => .value (vs.foldl NodeValue.or .null)
  | .tee => execTee rec n s
  | .apply => execApply n s
  | .push => execPush n s
  | .pop => execPop n s
  | .jsonParse => args1 rec n s fun v s1 => finish n (jsonParse C.P v.res) [v] s1
  | .jsonExpectEmpty => args2 rec n s fun v w s1 => finish n (checkResult (jsonExpectEmptyCheck C.P v.res w.res)) [v, w] s1
  | .jsonMatchLength => args3 rec n s fun v w x s1 =>
    finish n (checkResult (matchLengthCheck C.P v.res w.res x.res)) [v, w, x] s1
  | .jsonExpectEntries => args3 rec n s fun v w x s1 =>
    finish n (checkResult (expectEntriesCheck C.P v.res w.res x.res)) [v, w, x] s1
  | .checkExists => args1 rec n s fun v s1 => finish n (.value (.bool (exists_ v.res))) [v] s1
  | .expectEntries => execCheckEntries C rec false n s
  | .expectOnlyEntries => execCheckEntries C rec true n s
  | .expectCount => execExpectCount C rec n s
  | .join => overValues rec k n s fun vs => .value (.str (joinText false (vs.flatMap (joinTexts C.P))))
  | .joinWith => overValues rec k n s fun vs => .value (.str (joinText true (vs.flatMap (joinTexts C.P))))
  | .error => overValues rec k n s fun vs => .error (.text (vs.flatMap (joinTexts C.P)).flatten)
  | .headerParse => args1 rec n s fun v s1 =>
    finish n (.value (.json (headerJson C.P.uc ((v.res.asString C.P).getD [])))) [v] s1
  | .forEach => execForEach C rec n s
  | .other _ => failed n .said s

/-! ### `walk_tree` -/

/-- The value of a value node (interpreter.rs 91-110); the `xml` namespace is not modelled. -/
def nodeValue (P : EP) : NodeValue → Option NodeValue
  | .namespaced ns v => if ns = "json".toList then (P.parseStr v).map .json else none
  | v => some v

/-- The children a splat makes of an executed child (interpreter.rs 191-229). -/
def splatItems (n : Node) : List Node :=
  match n.result with
  | some (.value (.mmap m)) => m.map fun e => Node.mk n.kind (some (.value (.entry e.1 (.slist e.2)))) n.children
  | some (.value (.slist l)) => l.map fun x => Node.mk n.kind (some (.value (.str x))) n.children
  | _ => [n]

/-- `update_result` (interpreter.rs 1496-1502). -/
def updateTop (n : Node) : Stack → Stack
  | [] => [n.result]
  | _ :: s => n.result :: s

/-- The conjunction of the results of the children of a container (interpreter.rs 61-85). -/
def status (cs : List Node) : NodeResult := cs.foldl (fun (r : NodeResult) c => r.and c.result) .ok

/-- One level of `walk_tree` (interpreter.rs 51-232), over the recursive calls; `k` bounds the nesting of splats. -/
def step (C : ECtx) (rec : Rec) (k : Nat) (n : Node) (s : Stack) : Out Node :=
  match n.kind with
  | .empty => .ok n s
  | .annotation => .ok n s
  | .container _ => match expandAll (expand rec (fun _ t => t) k) n.children s with
    | .ok cs s1 => finish n (status cs).truthy cs s1
    | .err m s1 => .err m s1
    | .panic => .panic
  | .action a => execAction C rec k n s a
  | .value v => match nodeValue C.P v with
    | some w => finish n (.value w) [] s
    | none => .err .said s
  | .resolve p => match C.resolve p with
    | .ok v => finish n (.value v) [] s
    | .err => finish n (.error .said) [] s
    | .panic => .panic
  | .pipeline => match expandAll (expand rec updateTop k) n.children (none :: s) with
    | .ok cs s1 => finish n ((s1.head?.getD none).getD (.error .said)) cs s1.tail
    | .err m s1 => .err m s1
    | .panic => .panic
  | .resolveCurrent p => match resolveStack p s with
    | .ok v => finish n (.value v) [] s
    | .error m => finish n (.error m) [] s
  | .splat => match walkAll rec n.children s with
    | .ok cs s1 => finish n .ok (cs.flatMap splatItems) s1
    | .err m s1 => .err m s1
    | .panic => .panic

/-- `walk_tree` (interpreter.rs 51-232) with a bound on the recursion. -/
def walkF (C : ECtx) : Nat → Rec
  | 0, _, _ => .panic
  | f + 1, n, s => step C (walkF C f) f n s

mutual
/-- Height of a plan. -/
def height : Node → Nat
  | .mk _ _ cs => heights cs + 1
termination_by structural x => x
def heights : List Node → Nat
  | [] => 0
  | n :: ns => max (height n) (heights ns)
termination_by structural x => x
end

/-- `walk_tree` (interpreter.rs 51-232): the recursive calls are on children, so the height of the plan bounds the
recursion. -/
def walk (C : ECtx) (n : Node) (s : Stack) : Out Node := walkF C (height n) n s

end Engine
end Verif
