import Verif.DefExpr
import Verif.RuleJson
import Verif.Generate

/-
  Model of the FFI integration JSON: documents with embedded matching rules and generators
  (rust/pact_ffi/src/mock_server/bodies.rs 31-272, mod.rs 708-721, handles.rs 955-1092).

  The mutable rule table and generators are threaded through as a pair.  Parsing the text of the document and
  writing the result as text are left out.
-/

set_option autoImplicit false

namespace Verif
namespace Integration
open Path Rules RuleJson Generate

/-- What the code takes from elsewhere: the lexer of definition expressions and the number conversions of the
rule reader. -/
structure Setup where
  lex : DefExpr.Lib
  rules : Params

/-- The `&mut MatchingRuleCategory` and `&mut Generators` passed along. -/
structure Acc where
  cat : RuleCategory
  gens : Generators

/-- `generator_category` (mock_server/mod.rs 708-721). -/
def generatorCategory : Category → GenCategory
  | .body => .body
  | .header => .header
  | .path => .path
  | .query => .query
  | .metadata => .metadata
  | .status => .status
  | _ => .body

/-- `add_generator_with_subcategory` for an optional generator (bodies.rs 145-148, 157-160). -/
def addGenAt (p : DocPath) (g : Option Generator) (a : Acc) : Acc :=
  match g with
  | some g => { a with gens := addGen a.gens (generatorCategory a.cat.name) p g }
  | none => a

/-- The loop of `add_rule` (bodies.rs 165-167). -/
def addRulesAt (p : DocPath) (rs : List MatchingRule) (a : Acc) : Acc :=
  { a with cat := rs.foldl (fun c r => addRule c p r .and) a.cat }

/-- `MatchingRule::create` with attributes. -/
def createRule (S : Setup) (ty : Str) (j : Json) : Res MatchingRule := create (fromJson S.rules) S.rules ty j

/-- The loop over an array of matchers (bodies.rs 199-217). -/
def listMatchers (S : Setup) : List Json → Res (List MatchingRule)
  | [] => .ok []
  | v :: vs => match vget "pact:matcher:type" v with
    | some t => (createRule S t.toStr v).bind fun r => (listMatchers S vs).map fun rs => r :: rs
    | none => .err

/-- The loop over the rules of a definition (bodies.rs 225-237): a reference to an attribute that is there stands for
a type rule. -/
def resolve (m : Obj) : List (MatchingRule ⊕ MatchingReference) → Res (List MatchingRule)
  | [] => .ok []
  | .inl r :: rs => (resolve m rs).map fun l => r :: l
  | .inr ref :: rs => if (Json.lookup ref.name m).isSome then (resolve m rs).map fun l => .type :: l else .err

/-- The matcher types that are never read as definitions (bodies.rs 222). -/
def plainTypes : List Str := ["eachKey".toList, "eachValue".toList, "notEmpty".toList]

/-- One matcher (bodies.rs 220-246). -/
def oneMatcher (S : Setup) (ty : Str) (m : Obj) : Res (List MatchingRule × Option Generator) :=
  if !plainTypes.contains ty && DefExpr.isDefinition S.lex ty then
    (DefExpr.parse S.lex ty).bind fun d => (resolve m d.rules).map fun rs => (rs, d.generator)
  else (createRule S ty (.obj m)).map fun r => ([r], none)

/-- `matchers_from_integration_json` (bodies.rs 192-250). -/
def matchersFrom (S : Setup) (m : Obj) : Res (List MatchingRule × Option Generator) :=
  match RuleJson.get "pact:matcher:type" m with
  | some (.arr a) => (listMatchers S a).map fun rs => (rs, none)
  | some v => oneMatcher S v.toStr m
  | none => .ok ([], none)

/-- `is_array_contains` (bodies.rs 100-103). -/
def isArrayContains : Json → Bool
  | .str s => s == "arrayContains".toList || s == "array-contains".toList
  | _ => false

/-- The generator of a matcher (bodies.rs 155-156). -/
def ownGenerator (m : Obj) : Option Generator :=
  (RuleJson.get "pact:generator:type" m).bind fun t => genFromMap t.toStr m

/-- The path of an item (bodies.rs 42-47). -/
def itemPath (path : DocPath) (star : Bool) (i : Nat) : DocPath :=
  if star then pushStarIndex path else pushIndex path i

/-- The path of a field (bodies.rs 75-79). -/
def fieldPath (path : DocPath) (star : Bool) (k : Str) : DocPath :=
  if star then join path ['*'] else join path k

/-- `key.starts_with("pact:")` (bodies.rs 73). -/
def pactKey (k : Str) : Bool := "pact:".toList.isPrefixOf k

/-- `generators.categories.get(&GeneratorCategory::BODY).cloned().unwrap_or_default()` (bodies.rs 124). -/
def bodyGens (g : Generators) : List (DocPath × Generator) :=
  match g.find? (fun e => decide (e.1 = GenCategory.body)) with
  | some e => e.2
  | none => []

/-- The rules, the value and the generator are added (bodies.rs 145-168); what could not be read is null (169-172). -/
def finish (path : DocPath) (m : Obj) (r : Res (List MatchingRule × Option Generator)) (v : Res (Json × Acc)) (a : Acc) :
    Res (Json × Acc) :=
  match r with
  | .ok (rules, g) => v.map fun v =>
      (v.1, addRulesAt path rules (addGenAt path (ownGenerator m) (addGenAt path g v.2)))
  | .err => .ok (.null, addGenAt path (ownGenerator m) a)
  | .panic => .panic

/-- The flag for the value of a matcher (bodies.rs 134). -/
def valuesMatcher (r : Res (List MatchingRule × Option Generator)) : Bool :=
  match r with
  | .ok (rules, _) => rules.any MatchingRule.isValuesMatcher
  | _ => false

/-- The outcome of an arrayContains matcher (bodies.rs 105-131, 152-173). -/
def finishVariants (path : DocPath) (m : Obj) (vs : Option (List (Json × Variant))) (a : Acc) : Json × Acc :=
  match vs with
  | some vs => (.arr (vs.map (·.1)), addRulesAt path [.arrayContains (vs.map (·.2))] (addGenAt path (ownGenerator m) a))
  | none => (.null, addGenAt path (ownGenerator m) a)

mutual
/-- A value at `path`: `process_object` (bodies.rs 58-88) with `type_matcher = objStar` for objects, `process_array` (31-55)
with `type_matcher = arrStar` and `skip_matchers = skip` for arrays, unchanged otherwise (52, 83, 118, 140, 258).
`process_matcher` (91-174) is the branch of objects with a `pact:matcher:type`. -/
def process (S : Setup) (path : DocPath) (objStar arrStar skip : Bool) : Json → Acc → Res (Json × Acc)
  | .obj m, a => match RuleJson.get "pact:matcher:type" m with
    | some t =>
      if isArrayContains t then (variantsIn S m).map fun vs => finishVariants path m vs a
      else finish path m (matchersFrom S m) (valueIn S path (valuesMatcher (matchersFrom S m)) objStar m a) a
    | none => (fields S path objStar m a).map fun r => (.obj r.1, r.2)
  | .arr xs, a => (items S path arrStar skip 0 xs a).map fun r => (.arr r.1, r.2)
  | j, a => .ok (j, a)
/-- The items of an array from index `i` on (bodies.rs 41-54). -/
def items (S : Setup) (path : DocPath) (star skip : Bool) (i : Nat) : List Json → Acc → Res (List Json × Acc)
  | [], a => .ok ([], a)
  | x :: xs, a =>
    (process S (itemPath path star i) skip false skip x a).bind fun r =>
      (items S path star skip (i + 1) xs r.2).map fun rs => (r.1 :: rs.1, rs.2)
/-- The fields of an object without matcher (bodies.rs 72-85). -/
def fields (S : Setup) (path : DocPath) (star : Bool) : Obj → Acc → Res (Obj × Acc)
  | [], a => .ok ([], a)
  | e :: es, a =>
    if pactKey e.1 then fields S path star es a
    else (field S path star e a).bind fun r =>
      (fields S path star es r.2).map fun rs => ((e.1, r.1) :: rs.1, rs.2)
/-- One field (bodies.rs 75-84). -/
def field (S : Setup) (path : DocPath) (star : Bool) : Str × Json → Acc → Res (Json × Acc)
  | (k, v), a => process S (fieldPath path star k) false false false v a
/-- `obj.get("value")` and its processing (bodies.rs 136-143). -/
def valueIn (S : Setup) (path : DocPath) (star skip : Bool) : Obj → Acc → Res (Json × Acc)
  | [], a => .ok (.null, a)
  | e :: es, a => if e.1 = "value".toList then valueOf S path star skip e a else valueIn S path star skip es a
/-- See `valueIn`. -/
def valueOf (S : Setup) (path : DocPath) (star skip : Bool) : Str × Json → Acc → Res (Json × Acc)
  | (_, v), a => process S path star true skip v a
/-- `obj.get("variants")` (bodies.rs 106, 129). -/
def variantsIn (S : Setup) : Obj → Res (Option (List (Json × Variant)))
  | [] => .ok none
  | e :: es => if e.1 = "variants".toList then variantsOf S e else variantsIn S es
/-- See `variantsIn`. -/
def variantsOf (S : Setup) : Str × Json → Res (Option (List (Json × Variant)))
  | (_, v) => variantsJ S v
/-- See `variantsIn`. -/
def variantsJ (S : Setup) : Json → Res (Option (List (Json × Variant)))
  | .arr vs => (variants S 0 vs).map some
  | _ => .ok none
/-- The variants from index `i` on (bodies.rs 110-125). -/
def variants (S : Setup) (i : Nat) : List Json → Res (List (Json × Variant))
  | [] => .ok []
  | v :: vs =>
    (process S rootPath false false false v ⟨emptyCat .body, []⟩).bind fun r =>
      (variants S (i + 1) vs).map fun rs => (r.1, ⟨i, r.2.cat, bodyGens r.2.gens⟩) :: rs
end

/-- `process_json`, `process_json_value` (bodies.rs 252-272), as values. -/
def processJson (S : Setup) (j : Json) (a : Acc) : Res (Json × Acc) := process S rootPath false false false j a

end Integration
end Verif
