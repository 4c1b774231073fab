import Verif.Path

/-
  Model of `rust/pact_models/src/matchingrules/mod.rs`: matching rules, rule lists, categories and the
  selection of the rule list for a path.

  Hash maps keyed by `DocPath` (whose `Eq`/`Hash` look at the expression string only, path_exp.rs
  514-518) are association lists whose order stands for the (arbitrary) iteration order of the map.
  `KeysNodup` is the representation invariant: no two entries with the same expression string.
-/

namespace Verif

/-- `enum RuleLogic` (matchingrules/mod.rs 636-641). -/
inductive RuleLogic where
  | and
  | or
deriving Repr, DecidableEq

/-- `struct RuleList` (matchingrules/mod.rs 654-661), over the type of rules. -/
structure RuleListOf (R : Type) where
  rules : List R
  logic : RuleLogic
  cascaded : Bool
deriving Repr

/-- `enum Category` (matchingrules/mod.rs 822-839). -/
inductive Category where
  | method | path | header | query | body | status | contents | metadata
deriving Repr, DecidableEq

/-- `struct MatchingRuleCategory` (matchingrules/mod.rs 917-922), over the type of rules. -/
structure CategoryOf (R : Type) where
  name : Category
  rules : List (DocPath × RuleListOf R)
deriving Repr

/-- `enum UuidFormat` (generators/mod.rs 76-85). -/
inductive UuidFormat where
  | simple | lowerHyphen | upperHyphen | urn
deriving Repr, DecidableEq

/-- `enum DataType` (expression_parser.rs 17-30). -/
inductive DataType where
  | string | integer | decimal | float | raw | boolean
deriving Repr, DecidableEq

/-- `enum Generator` (generators/mod.rs 120-147).  Simplified: the `ArrayContains` variant, which is
never read from nor written to a pact file (`to_json` gives `None`, `from_map` has no case), is
left out, so that generators do not contain matching rules. -/
inductive Generator where
  | randomInt (min max : Int)
  | uuid (f : Option UuidFormat)
  | randomDecimal (digits : Nat)
  | randomHexadecimal (digits : Nat)
  | randomString (size : Nat)
  | regex (re : Str)
  | date (format expr : Option Str)
  | time (format expr : Option Str)
  | dateTime (format expr : Option Str)
  | randomBoolean
  | providerState (expr : Str) (dt : Option DataType)
  | mockServerURL (example_ regex : Str)
deriving Repr, DecidableEq

/-- One element of the `ArrayContains` payload (matchingrules/mod.rs 94). -/
structure VariantOf (R : Type) where
  index : Nat
  rules : CategoryOf R
  gens : List (DocPath × Generator)
deriving Repr

/-- `enum ValueType` (matchingrules/expressions.rs 130-137). -/
inductive ValueType where
  | unknown | string | number | integer | decimal | boolean
deriving Repr, DecidableEq

/-- `struct MatchingReference` (matchingrules/expressions.rs 189-192): the name only. -/
structure MatchingReference where
  name : Str
deriving Repr, DecidableEq

/-- `struct MatchingRuleDefinition` (matchingrules/expressions.rs 196-202), over the type of rules. -/
structure DefOf (R : Type) where
  value : Str
  valueType : ValueType
  rules : List (R ⊕ MatchingReference)
  generator : Option Generator
  expression : Str
deriving Repr

/-- `enum HttpStatus` (pact_models/src/lib.rs 345-362). -/
inductive HttpStatus where
  | information | success | redirect | clientError | serverError
  | statusCodes (codes : List Nat)
  | nonError | error
deriving Repr, DecidableEq

/-- `enum MatchingRule` (matchingrules/mod.rs 62-109). -/
inductive MatchingRule where
  | equality
  | regex (re : Str)
  | type
  | minType (min : Nat)
  | maxType (max : Nat)
  | minMaxType (min max : Nat)
  | timestamp (format : Str)
  | time (format : Str)
  | date (format : Str)
  | includes (s : Str)
  | number
  | integer
  | decimal
  | null
  | contentType (ct : Str)
  | arrayContains (variants : List (VariantOf MatchingRule))
  | values
  | boolean
  | statusCode (status : HttpStatus)
  | notEmpty
  | semver
  | eachKey (d : DefOf MatchingRule)
  | eachValue (d : DefOf MatchingRule)
deriving Repr

abbrev RuleList := RuleListOf MatchingRule
abbrev RuleCategory := CategoryOf MatchingRule
abbrev RuleDef := DefOf MatchingRule
abbrev Variant := VariantOf MatchingRule

namespace MatchingRule

/-- `MatchingRule::name` (matchingrules/mod.rs 255-281). -/
def name : MatchingRule → String
  | equality => "equality"
  | regex _ => "regex"
  | type => "type"
  | minType _ => "min-type"
  | maxType _ => "max-type"
  | minMaxType _ _ => "min-max-type"
  | timestamp _ => "datetime"
  | time _ => "time"
  | date _ => "date"
  | includes _ => "include"
  | number => "number"
  | integer => "integer"
  | decimal => "decimal"
  | null => "null"
  | contentType _ => "content-type"
  | arrayContains _ => "array-contains"
  | values => "values"
  | boolean => "boolean"
  | statusCode _ => "status-code"
  | notEmpty => "not-empty"
  | semver => "semver"
  | eachKey _ => "each-key"
  | eachValue _ => "each-value"

/-- `MatchingRule::is_values_matcher` (matchingrules/mod.rs 479-485). -/
def isValuesMatcher : MatchingRule → Bool
  | values => true
  | eachValue _ => true
  | _ => false

/-- `MatchingRule::is_type_matcher` (matchingrules/mod.rs 488-496). -/
def isTypeMatcher : MatchingRule → Bool
  | type | minType _ | maxType _ | minMaxType _ _ => true
  | _ => false

/-- `MatchingRule::is_length_type_matcher` (matchingrules/mod.rs 499-506). -/
def isLengthTypeMatcher : MatchingRule → Bool
  | minType _ | maxType _ | minMaxType _ _ => true
  | _ => false

/-- `MatchingRule::can_cascade` (matchingrules/mod.rs 509-516). -/
def canCascade : MatchingRule → Bool
  | values | eachValue _ | eachKey _ => false
  | _ => true

/-- `MatchingRule::for_single_item` (matchingrules/mod.rs 573-580). -/
def forSingleItem : MatchingRule → MatchingRule
  | minType _ | maxType _ | minMaxType _ _ => type
  | r => r

end MatchingRule

namespace Rules

/-- `RuleList::empty` (matchingrules/mod.rs 666-672). -/
def emptyList {R} (l : RuleLogic) : RuleListOf R := ⟨[], l, false⟩
/-- `RuleList::default` (matchingrules/mod.rs 814-818). -/
def defaultList {R} : RuleListOf R := emptyList .and
/-- `RuleList::new` (matchingrules/mod.rs 684-690). -/
def newList {R} (r : R) : RuleListOf R := ⟨[r], .and, false⟩
/-- `RuleList::as_cascaded` (matchingrules/mod.rs 744-749). -/
def asCascaded {R} (l : RuleListOf R) (b : Bool) : RuleListOf R := { l with cascaded := b }
/-- `RuleList::add_rule` (matchingrules/mod.rs 739-741). -/
def listAddRule {R} (l : RuleListOf R) (r : R) : RuleListOf R := { l with rules := l.rules ++ [r] }
/-- `RuleList::add_rules` (matchingrules/mod.rs 752-756); `and_rules` (759-763) is the same. -/
def listAddRules {R} (l m : RuleListOf R) : RuleListOf R := m.rules.foldl listAddRule l

/-- Do the keys of an entry and a path coincide (`DocPath::eq`, path_exp.rs 514-518)? -/
def keyIs {β} (p : DocPath) (e : DocPath × β) : Bool := Path.eqPath e.1 p

/-- Lookup in a hash map keyed by `DocPath`. -/
def lookup {β} (m : List (DocPath × β)) (p : DocPath) : Option β := (m.find? (keyIs p)).map (·.2)

/-- Representation invariant of the hash map: keys are pairwise different (as expression strings). -/
def KeysNodup {β} (m : List (DocPath × β)) : Prop := (m.map fun e => e.1.expr).Nodup

/-- Update-or-insert: `entry(p).or_insert_with(..)` followed by a mutation of the entry. -/
def upsert {β} (m : List (DocPath × β)) (p : DocPath) (ins : β) (f : β → β) : List (DocPath × β) :=
  match m with
  | [] => [(p, f ins)]
  | e :: es => if keyIs p e then (e.1, f e.2) :: es else e :: upsert es p ins f

/-- `MatchingRuleCategory::empty` (matchingrules/mod.rs 926-933). -/
def emptyCat {R} (n : Category) : CategoryOf R := ⟨n, []⟩

/-- `MatchingRuleCategory::add_rule` (matchingrules/mod.rs 974-982). -/
def addRule {R} (c : CategoryOf R) (p : DocPath) (r : R) (l : RuleLogic) : CategoryOf R :=
  { c with rules := upsert c.rules p (emptyList l) (fun rl => { rl with rules := rl.rules ++ [r] }) }

/-- `MatchingRuleCategory::filter` (matchingrules/mod.rs 985-992). -/
def filterCat {R} (c : CategoryOf R) (f : DocPath × RuleListOf R → Bool) : CategoryOf R :=
  { c with rules := c.rules.filter f }

/-- `w * t` in `max_by_path` (matchingrules/mod.rs 997), in `usize` arithmetic (wrapping; a debug build
panics instead). -/
def score (p : DocPath) (path : List Str) : Nat :=
  let wt := Path.pathWeight p.tokens path
  wt.1 * wt.2 % usizeLim

/-- `Iterator::max_by_key`: the last of the elements with the maximal key. -/
def maxByKey {α} (key : α → Nat) : List α → Option α
  | [] => none
  | a :: as => match maxByKey key as with
    | none => some a
    | some b => if key a > key b then some a else some b

/-- The entry selected by `max_by_path` (matchingrules/mod.rs 995-997). -/
def bestEntry {R} (rules : List (DocPath × RuleListOf R)) (path : List Str) :
    Option (DocPath × RuleListOf R) :=
  maxByKey (fun e => score e.1 path)
    (rules.filter fun e => decide ((Path.pathWeight e.1.tokens path).1 > 0))

/-- `MatchingRuleCategory::max_by_path` (matchingrules/mod.rs 994-1000). -/
def maxByPath {R} (c : CategoryOf R) (path : List Str) : RuleListOf R :=
  match bestEntry c.rules path with
  | some e => asCascaded e.2 (decide ((Path.pathWeight e.1.tokens path).2 ≠ path.length))
  | none => defaultList

/-- `MatchingRuleCategory::resolve_matchers_for_path` (matchingrules/mod.rs 1063-1071). -/
def resolveMatchersForPath {R} (c : CategoryOf R) (path : List Str) : CategoryOf R :=
  match c.name with
  | .header | .query | .body | .contents | .metadata =>
    filterCat c (fun e => Path.matchesPath e.1.tokens path)
  | _ => c

/-- `MatchingRuleCategory::matcher_is_defined` (matchingrules/mod.rs 1055-1059). -/
def matcherIsDefined {R} (c : CategoryOf R) (path : List Str) : Bool :=
  !(resolveMatchersForPath c path).rules.isEmpty

/-- `MatchingRuleCategory::as_rule_list` (matchingrules/mod.rs 1082-1084). -/
def asRuleList {R} (c : CategoryOf R) : RuleListOf R :=
  match c.rules with
  | [] => defaultList
  | e :: _ => e.2

/-- `MatchingRuleCategory::select_best_matcher` (matchingrules/mod.rs 1074-1079). -/
def selectBestMatcher {R} (c : CategoryOf R) (path : List Str) : RuleListOf R :=
  match c.name with
  | .body | .metadata => maxByPath c path
  | _ => asRuleList (resolveMatchersForPath c path)

/-- `MatchingRuleCategory::add_rules` (matchingrules/mod.rs 1196-1204): for every entry, append to the
rule list of the same key, or insert. -/
def addRules {R} (c d : CategoryOf R) : CategoryOf R :=
  { c with rules := d.rules.foldl (fun m e =>
      match m.find? (keyIs e.1) with
      | some _ => upsert m e.1 e.2 (fun rl => listAddRules rl e.2)
      | none => m ++ [e]) c.rules }

/-! ### Equality of rules -/

/-- `MatchingReference`/`Generator` payload maps: equality of two hash maps (same size, and every entry
of the first has an equal value under the same key in the second). -/
def mapEq {β} (eq : β → β → Bool) (m n : List (DocPath × β)) : Bool :=
  decide (m.length = n.length) &&
    m.all (fun e => match lookup n e.1 with | some v => eq e.2 v | none => false)

mutual
/-- `impl PartialEq for MatchingRule` (matchingrules/mod.rs 614-632): the last arm compares the
discriminants only, so the payload of `StatusCode` is ignored. -/
def ruleEq : MatchingRule → MatchingRule → Bool
  | .regex a, .regex b => decide (a = b)
  | .minType a, .minType b => decide (a = b)
  | .maxType a, .maxType b => decide (a = b)
  | .minMaxType a c, .minMaxType b d => decide (a = b) && decide (c = d)
  | .timestamp a, .timestamp b => decide (a = b)
  | .time a, .time b => decide (a = b)
  | .date a, .date b => decide (a = b)
  | .includes a, .includes b => decide (a = b)
  | .contentType a, .contentType b => decide (a = b)
  | .arrayContains a, .arrayContains b => variantsEq a b
  | .eachKey a, .eachKey b => defEq a b
  | .eachValue a, .eachValue b => defEq a b
  | .equality, .equality => true
  | .type, .type => true
  | .number, .number => true
  | .integer, .integer => true
  | .decimal, .decimal => true
  | .null, .null => true
  | .values, .values => true
  | .boolean, .boolean => true
  | .statusCode _, .statusCode _ => true
  | .notEmpty, .notEmpty => true
  | .semver, .semver => true
  | _, _ => false
termination_by structural x => x
/-- `Vec` equality of variants. -/
def variantsEq : List Variant → List Variant → Bool
  | [], [] => true
  | v :: vs, w :: ws => variantEq v w && variantsEq vs ws
  | _, _ => false
termination_by structural x => x
/-- Tuple equality of one variant. -/
def variantEq : Variant → Variant → Bool
  | ⟨i, c, g⟩, w => decide (i = w.index) && catEq c w.rules && mapEq (fun a b => decide (a = b)) g w.gens
termination_by structural x => x
/-- `impl PartialEq for MatchingRuleCategory` (matchingrules/mod.rs 1217-1225). -/
def catEq : RuleCategory → RuleCategory → Bool
  | ⟨n, m⟩, d => decide (n = d.name) && decide (m.length = d.rules.length) && entriesEq m d.rules
termination_by structural x => x
/-- Every entry of the first table has an equal rule list in the second. -/
def entriesEq : List (DocPath × RuleList) → List (DocPath × RuleList) → Bool
  | [], _ => true
  | e :: es, n => entryEq e n && entriesEq es n
termination_by structural x => x
/-- One entry of a table against another table. -/
def entryEq : DocPath × RuleList → List (DocPath × RuleList) → Bool
  | (p, l), n => match lookup n p with
    | some l' => listEq l l'
    | none => false
termination_by structural x => x
/-- `impl PartialEq for RuleList` (matchingrules/mod.rs 807-812): the `cascaded` flag is ignored. -/
def listEq : RuleList → RuleList → Bool
  | ⟨rs, l, _⟩, m => decide (l = m.logic) && rulesEq rs m.rules
termination_by structural x => x
/-- `Vec<MatchingRule>` equality. -/
def rulesEq : List MatchingRule → List MatchingRule → Bool
  | [], [] => true
  | r :: rs, s :: ss => ruleEq r s && rulesEq rs ss
  | _, _ => false
termination_by structural x => x
/-- Derived `PartialEq for MatchingRuleDefinition` (matchingrules/expressions.rs 195-202). -/
def defEq : RuleDef → RuleDef → Bool
  | ⟨v, t, rs, g, e⟩, d => decide (v = d.value) && decide (t = d.valueType) && eithersEq rs d.rules
      && decide (g = d.generator) && decide (e = d.expression)
termination_by structural x => x
/-- `Vec<Either<MatchingRule, MatchingReference>>` equality. -/
def eithersEq : List (MatchingRule ⊕ MatchingReference) → List (MatchingRule ⊕ MatchingReference) → Bool
  | [], [] => true
  | a :: as, b :: bs => eitherEq a b && eithersEq as bs
  | _, _ => false
termination_by structural x => x
/-- `Either` equality. -/
def eitherEq : MatchingRule ⊕ MatchingReference → MatchingRule ⊕ MatchingReference → Bool
  | .inl a, .inl b => ruleEq a b
  | .inr a, .inr b => decide (a = b)
  | _, _ => false
termination_by structural x => x
end

/-- `Itertools::unique` as used in `RuleList::remove_duplicates` (matchingrules/mod.rs 766-772): keep an
element iff no equal element was kept before.  (`unique` uses a `HashSet`, i.e. `Hash` + `Eq`;
equal rules have equal hashes, see `impl Hash`, 584-612.) -/
def uniqueRules (seen : List MatchingRule) : List MatchingRule → List MatchingRule
  | [] => []
  | r :: rs => if seen.any (fun s => ruleEq s r) then uniqueRules seen rs
               else r :: uniqueRules (r :: seen) rs

/-- `RuleList::remove_duplicates` (matchingrules/mod.rs 766-772). -/
def removeDuplicates (l : RuleList) : RuleList := { l with rules := uniqueRules [] l.rules }

/-! ### Matching rules of a whole interaction part -/

/-- `struct MatchingRules` (matchingrules/mod.rs 1242-1245): hash map from category to table. -/
abbrev MatchingRules := List (Category × RuleCategory)

/-- `MatchingRules::rules_for_category` (matchingrules/mod.rs 1276-1279). -/
def rulesForCategory (m : MatchingRules) (c : Category) : Option RuleCategory :=
  (m.find? (fun e => decide (e.1 = c))).map (·.2)

/-- `MatchingRules::add_rules` (matchingrules/mod.rs 1441-1446). -/
def mrAddRules (m : MatchingRules) (c : Category) (r : RuleCategory) : MatchingRules :=
  match m with
  | [] => [(c, addRules (emptyCat c) r)]
  | e :: es => if e.1 = c then (e.1, addRules e.2 r) :: es else e :: mrAddRules es c r

/-- `MatchingRules::merge` (matchingrules/mod.rs 1449-1453). -/
def mrMerge (m n : MatchingRules) : MatchingRules := n.foldl (fun acc e => mrAddRules acc e.1 e.2) m

end Rules
end Verif
