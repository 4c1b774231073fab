import Verif.Maps
import Verif.Compare

/-
  Model of the consumer DSL patterns: rust/pact_consumer/src/patterns/json_pattern.rs, special_rules.rs and
  date_time.rs, as used by `HttpPartBuilder::json_body`
  (rust/pact_consumer/src/builders/http_part_builder.rs 181-189), which stores the example as the body and
  the extracted rules as the body rules, starting from the root path.
-/

set_option autoImplicit false

namespace Verif

/-- `enum JsonPattern` (json_pattern.rs 30-41) with the patterns over JSON that the crate provides
(`Like`, `EachLike`, `Term`, `ObjectMatching` in special_rules.rs 29-31, 108-111, 287-296, 417-420 and
`DateTime` in date_time.rs 13-22).  The regex is kept as its text.  The fields of an object pattern come from
a hash map: the list is in its (arbitrary) iteration order. -/
inductive Pattern where
  | json (v : Json)
  | arr (items : List Pattern)
  | obj (fields : List (Str × Pattern))
  | like (p : Pattern)
  | eachLike (p : Pattern) (min : Nat)
  | term (regex example_ : Str)
  | datetime (format example_ : Str)
  | objectMatching (p : Pattern) (rules : List MatchingRule)

namespace Patterns
open Path Rules

mutual
/-- `to_example` (json_pattern.rs 61-73, special_rules.rs 43-45, 134-137, 317-319, 435-437, date_time.rs
42-44). -/
def toExample : Pattern → Json
  | .json v => v
  | .arr items => .arr (toExamples items)
  | .obj fields => .obj (OMap.collect (toExampleFields fields))
  | .like p => toExample p
  | .eachLike p min => .arr (List.replicate min (toExample p))
  | .term _ ex => .str ex
  | .datetime _ ex => .str ex
  | .objectMatching p _ => toExample p
/-- The items of an array pattern (json_pattern.rs 64-66). -/
def toExamples : List Pattern → List Json
  | [] => []
  | p :: ps => toExample p :: toExamples ps
/-- The fields of an object pattern (json_pattern.rs 67-70). -/
def toExampleFields : List (Str × Pattern) → List (Str × Json)
  | [] => []
  | f :: fs => toExampleField f :: toExampleFields fs
/-- One field of an object pattern (json_pattern.rs 68). -/
def toExampleField : Str × Pattern → Str × Json
  | (k, p) => (k, toExample p)
end

/-- The path below `path.join("*")` for a rule found at `q` in the nested pattern (special_rules.rs 448,
452-456): the root and the first segment are dropped. -/
def childPath (path q : DocPath) : DocPath := (q.tokens.drop 2).foldl push (join path ['*'])

/-- The copying of the nested rules of an `ObjectMatching` (special_rules.rs 451-460); the nested table is a
hash map in some iteration order. -/
def copyChildRules (path : DocPath) (child out : RuleCategory) : RuleCategory :=
  child.rules.foldl (fun out e =>
    e.2.rules.foldl (fun out r => addRule out (childPath path e.1) r e.2.logic) out) out

mutual
/-- `extract_matching_rules` (json_pattern.rs 81-102, special_rules.rs 51-54, 145-166, 325-328, 443-461,
date_time.rs 50-52). -/
def extract (path : DocPath) : Pattern → RuleCategory → RuleCategory
  | .json _, out => out
  | .arr items, out => extractItems path 0 items out
  | .obj fields, out => extractFields path fields out
  | .like p, out => extract path p (addRule out path .type .and)
  | .eachLike p min, out =>
    extract (pushStarIndex path) p
      (addRule (addRule out path (.minType min) .and) (pushStar (pushStarIndex path)) .type .and)
  | .term re _, out => addRule out path (.regex re) .and
  | .datetime fmt _, out => addRule out path (.timestamp fmt) .and
  | .objectMatching p rules, out =>
    copyChildRules path (extract rootPath p (emptyCat .body))
      (rules.foldl (fun out r => addRule out path r .and) out)
/-- The loop over the items of an array pattern (json_pattern.rs 84-90) from index `i` on. -/
def extractItems (path : DocPath) (i : Nat) : List Pattern → RuleCategory → RuleCategory
  | [], out => out
  | p :: ps, out => extractItems path (i + 1) ps (extract (pushIndex path i) p out)
/-- The loop over the fields of an object pattern (json_pattern.rs 91-97). -/
def extractFields (path : DocPath) : List (Str × Pattern) → RuleCategory → RuleCategory
  | [], out => out
  | f :: fs, out => extractFields path fs (extractField path f out)
/-- One field of an object pattern (json_pattern.rs 93-95). -/
def extractField (path : DocPath) : Str × Pattern → RuleCategory → RuleCategory
  | (k, p), out => extract (pushField path k) p out
end

/-- `HttpPartBuilder::json_body` (http_part_builder.rs 181-189) on a part without body rules: the body and the
body rules.  The body text is the serialisation of this document. -/
def jsonBody (p : Pattern) : Json × RuleCategory := (toExample p, extract rootPath p (emptyCat .body))

end Patterns
end Verif
