import Verif.Matchers

/-
  Model of the document comparison: `CoreMatchingContext` (rust/pact_matching/src/lib.rs 470-670), the map
  and list comparators of rust/pact_matching/src/matchingrules.rs 280-547, and the JSON comparator of
  rust/pact_matching/src/json.rs 287-537.

  A mismatch keeps its path and a tag naming the place that produced it; the texts (`expected`, `actual`,
  `description`) are dropped.
-/

namespace Verif

/-- `enum DiffConfig` (pact_matching/src/lib.rs 1536-1541). -/
inductive DiffConfig where
  | allowUnexpectedKeys
  | noUnexpectedKeys
deriving Repr, DecidableEq

/-- The kinds of `CommonMismatch` produced by the comparators. -/
inductive MKind where
  | typeMismatch       -- json.rs 389, 398: container expected, something else received
  | emptyMap           -- json.rs 420: empty map expected
  | emptyList          -- json.rs 467: empty list expected
  | length             -- json.rs 477: list lengths differ
  | missingItem        -- json.rs 504, matchingrules.rs 538: list item missing
  | keysMissing        -- lib.rs 586: keys missing (lenient)
  | keysDiffer         -- lib.rs 594: keys differ (strict)
  | key                -- lib.rs 617: key does not satisfy an each-key rule
  | unresolvedRef      -- lib.rs 628, matchingrules.rs 300, 412: un-resolved reference
  | value              -- json.rs 529: value mismatch
  | collection         -- matchingrules.rs 332, 440: map or list rejected by the rule as a whole
  | variantNotFound    -- matchingrules.rs 389
  | variantMissing     -- matchingrules.rs 399
  | noMatcher          -- matchingrules.rs 476: empty rule list
  | missingEntry       -- query.rs 31, headers.rs 193, 213, lib.rs 1654: query parameter or header missing
  | unexpectedEntry    -- query.rs 42, lib.rs 1643: unexpected query parameter
  | emptyEntry         -- query.rs 67, headers.rs 144: values received for an empty parameter or header
  | element            -- xml.rs 168: element name or content rejected
  | attributes         -- xml.rs 195, 204, 211: unexpected attributes, or a wrong number of them
  | attribute          -- xml.rs 227: attribute missing
  | children           -- xml.rs 265: no children expected
  | unexpectedChild    -- xml.rs 305, 329
  | missingChild       -- xml.rs 313, 340
  | text               -- xml.rs 378, 403: attribute value or text rejected
  | unparsable         -- xml.rs 39, 46: not an XML document
  | missingBody        -- xml.rs 66: body missing
deriving Repr, DecidableEq

/-- `struct CommonMismatch` (pact_matching/src/lib.rs 778-787), without the texts. -/
structure Mismatch where
  path : DocPath
  kind : MKind
deriving Repr, DecidableEq

/-- `Result<(), Vec<CommonMismatch>>`. -/
abbrev Outcome := Except (List Mismatch) Unit

instance : DecidableEq Outcome := fun a b => match a, b with
  | .ok (), .ok () => isTrue rfl
  | .error l, .error m => if h : l = m then isTrue (h ▸ rfl) else isFalse (fun e => h (Except.error.inj e))
  | .ok _, .error _ => isFalse (fun e => nomatch e)
  | .error _, .ok _ => isFalse (fun e => nomatch e)

/-- `struct CoreMatchingContext` (lib.rs 472-481), without the plugin configuration and the specification
version, which the comparators modelled here do not read. -/
structure Ctx where
  cat : RuleCategory
  config : DiffConfig
deriving Repr

namespace Compare
open Path Rules Matchers

/-- `Result::is_ok`. -/
def isOk : Outcome → Bool
  | .ok _ => true
  | .error _ => false

/-- The mismatches of a result (`if let Err(m) = r { m } else { [] }`). -/
def errs : Outcome → List Mismatch
  | .ok _ => []
  | .error l => l

/-- `if result.is_empty() { Ok(()) } else { Err(result) }`. -/
def ofList (l : List Mismatch) : Outcome := if l.isEmpty then .ok () else .error l

/-- `fn merge_result` (lib.rs 1186-1197). -/
def mergeResult : Outcome → Outcome → Outcome
  | .ok _, .ok _ => .ok ()
  | .error a, .ok _ => .error a
  | .ok _, .error b => .error b
  | .error a, .error b => .error (a ++ b)

/-! ### The matching context -/

/-- `CoreMatchingContext::matcher_is_defined` (lib.rs 543-547). -/
def isDefined (ctx : Ctx) (p : DocPath) : Bool := matcherIsDefined ctx.cat (toVec p)

/-- `CoreMatchingContext::select_best_matcher` (lib.rs 549-553). -/
def best (ctx : Ctx) (p : DocPath) : RuleList := selectBestMatcher ctx.cat (toVec p)

/-- `CoreMatchingContext::matchers_for_exact_path` (lib.rs 505-517). -/
def exactMatchers (ctx : Ctx) (p : DocPath) : RuleCategory :=
  match ctx.cat.name with
  | .header | .query => filterCat ctx.cat
      (fun e => decide (p.tokens.length = 1) && decide (firstField p = firstField e.1))
  | .body => filterCat ctx.cat (fun e => matchesPathExactly e.1.tokens (toVec p))
  | _ => filterCat ctx.cat (fun _ => false)

/-- `CoreMatchingContext::direct_matcher_defined` (lib.rs 565-572); the set of matcher names as a list. -/
def directMatcherDefined (ctx : Ctx) (p : DocPath) (names : List String) : Bool :=
  let actual := exactMatchers ctx p
  if names.isEmpty then !actual.rules.isEmpty
  else (asRuleList actual).rules.any (fun r => names.contains r.name)

/-- `CoreMatchingContext::clone_with` (lib.rs 661-668). -/
def cloneWith (ctx : Ctx) (cat : RuleCategory) : Ctx := { ctx with cat := cat }

/-- The key-set part of `match_keys` (lib.rs 575-603), on sorted duplicate-free key lists. -/
def keySetMismatches (ctx : Ctx) (p : DocPath) (e a : List Str) : List Mismatch :=
  if directMatcherDefined ctx p ["values", "each-value", "each-key"] then []
  else match ctx.config with
    | .allowUnexpectedKeys => if e.all (fun k => a.contains k) then [] else [⟨p, .keysMissing⟩]
    | .noUnexpectedKeys => if e = a then [] else [⟨p, .keysDiffer⟩]

/-- The loop over the rules of one each-key definition (lib.rs 609-635). -/
def eachKeyMismatches (env : Env) (p : DocPath) (a : List Str) (d : RuleDef) : List Mismatch :=
  d.rules.flatMap fun
    | .inl rule => (a.filter (fun k => !strMatches env [] k rule false)).map (fun k => ⟨join p k, .key⟩)
    | .inr _ => [⟨p, .unresolvedRef⟩]

/-- The each-key part of `match_keys` (lib.rs 605-640). -/
def keyRuleMismatches (env : Env) (ctx : Ctx) (p : DocPath) (a : List Str) : List Mismatch :=
  if directMatcherDefined ctx p [] then
    (best ctx p).rules.flatMap fun
      | .eachKey d => eachKeyMismatches env p a d
      | _ => []
  else []

/-- `CoreMatchingContext::match_keys` (lib.rs 574-647). -/
def matchKeys (env : Env) (ctx : Ctx) (p : DocPath) (e a : List Str) : Outcome :=
  ofList (keySetMismatches ctx p e a ++ keyRuleMismatches env ctx p a)

/-! ### Comparison of maps and lists under a rule -/

/-- The callback comparing two items. -/
abbrev Callback (T : Type) := DocPath → T → T → Ctx → Outcome

/-- The rules of a definition, and one mismatch per un-resolved reference (matchingrules.rs 295-308,
408-420). -/
def defRules (d : RuleDef) : List MatchingRule := d.rules.filterMap fun | .inl r => some r | .inr _ => none
/-- The un-resolved references of a definition as mismatches (matchingrules.rs 298-306, 411-418). -/
def defRefs (p : DocPath) (d : RuleDef) : List Mismatch :=
  d.rules.filterMap fun | .inl _ => none | .inr _ => some ⟨p, .unresolvedRef⟩

/-- The rule table used below an each-value rule (matchingrules.rs 310-319, 421-430). -/
def eachValueCat (p : DocPath) (d : RuleDef) : RuleCategory :=
  ⟨.body, [(join p ['*'], ⟨defRules d, .and, false⟩)]⟩

/-- The values branch of `compare_maps_with_matchingrule`: loop over the actual entries
(matchingrules.rs 324-331). -/
def valuesLoop {T} (cb : Callback T) (p : DocPath) (e : List (Str × T)) (ctx : Ctx) :
    List (Str × T) → Outcome → Outcome
  | [], acc => acc
  | (k, v) :: rest, acc =>
    valuesLoop cb p e ctx rest <|
      match Json.lookup k e with
      | some ev => mergeResult acc (cb (join p k) ev v ctx)
      | none => match e with
        | (_, first) :: _ => mergeResult acc (cb (join p k) first v ctx)
        | [] => acc

/-- Loop over the expected entries that are present in the actual map (matchingrules.rs 345-350, json.rs
443-448). -/
def commonLoop {T} (cb : Callback T) (p : DocPath) (a : List (Str × T)) (ctx : Ctx) :
    List (Str × T) → Outcome → Outcome
  | [], acc => acc
  | (k, v) :: rest, acc =>
    commonLoop cb p a ctx rest <|
      match Json.lookup k a with
      | some av => mergeResult acc (cb (join p k) v av ctx)
      | none => acc

/-- `pub fn compare_maps_with_matchingrule` (matchingrules.rs 282-353). -/
def compareMapsWithRule {T} (env : Env) (eq : List (Str × T) → List (Str × T) → Bool) (cb : Callback T)
    (rule : MatchingRule) (cascaded : Bool) (p : DocPath) (e a : List (Str × T)) (ctx : Ctx) : Outcome :=
  if !cascaded && rule.isValuesMatcher then
    match rule with
    | .eachValue d => valuesLoop cb p e (cloneWith ctx (eachValueCat p d)) a (ofList (defRefs p d))
    | _ => valuesLoop cb p e (cloneWith ctx ctx.cat) a (.ok ())
  else
    let r0 : Outcome := if mapMatches eq e a rule cascaded then .ok () else .error [⟨p, .collection⟩]
    let r1 := mergeResult r0 (matchKeys env ctx p (Json.keys e) (Json.keys a))
    commonLoop cb p a ctx e r1

/-- The loop of `match_list_contents` (matchingrules.rs 527-544) from index `i` on, over the remaining
(padded) expected and actual items. -/
def listContents {T} (cb : Callback T) (p : DocPath) (ctx : Ctx) : Nat → List T → List T → List Mismatch
  | _, [], _ => []
  | i, e :: es, a :: as => errs (cb (join p (natStr i)) e a ctx) ++ listContents cb p ctx (i + 1) es as
  | i, _ :: es, [] =>
    (if isDefined ctx (join p (natStr i)) then [] else [⟨p, .missingItem⟩])
      ++ listContents cb p ctx (i + 1) es []

/-- Padding of the expected list with its first element (matchingrules.rs 521-526). -/
def padded {T} (e a : List T) : List T :=
  match e with
  | [] => []
  | first :: _ => e ++ List.replicate (a.length - e.length) first

/-- `fn match_list_contents` (matchingrules.rs 512-547). -/
def matchListContents {T} (cb : Callback T) (p : DocPath) (e a : List T) (ctx : Ctx) : List Mismatch :=
  listContents cb p ctx 0 (padded e a) a

/-- `MatchingRuleCategory::equality("body")` (matchingrules/mod.rs 936-945). -/
def equalityCat : RuleCategory := ⟨.body, [(Path.empty, ⟨[.equality], .and, false⟩)]⟩

/-- The variants of an array-contains rule, defaulted to equality with every expected item
(matchingrules.rs 378-384). -/
def effectiveVariants {T} (variants : List Variant) (e : List T) : List (Nat × RuleCategory) :=
  if variants.isEmpty then (List.range e.length).map (fun i => (i, equalityCat))
  else variants.map (fun v => (v.index, v.rules))

/-- The mismatches of one variant (matchingrules.rs 385-406). -/
def variantMismatches {T} (cb : Callback T) (p : DocPath) (e a : List T) (ctx : Ctx)
    (v : Nat × RuleCategory) : List Mismatch :=
  match e[v.1]? with
  | some ev => if a.any (fun av => isOk (cb rootPath ev av (cloneWith ctx v.2))) then []
               else [⟨p, .variantNotFound⟩]
  | none => [⟨p, .variantMissing⟩]

/-- `pub fn compare_lists_with_matchingrule` (matchingrules.rs 357-461). -/
def compareListsWithRule {T} (eq : List T → List T → Bool) (cb : Callback T)
    (rule : MatchingRule) (p : DocPath) (e a : List T) (ctx : Ctx) (cascaded : Bool) : Outcome :=
  if e.isEmpty then .ok ()
  else match rule with
    | .arrayContains variants =>
      ofList ((effectiveVariants variants e).flatMap (variantMismatches cb p e a ctx))
    | .eachValue d =>
      if cascaded then .ok ()
      else ofList (defRefs p d ++ matchListContents cb p e a (cloneWith ctx (eachValueCat p d)))
    | r => ofList ((if listMatches eq e a r cascaded then [] else [⟨p, .collection⟩])
            ++ matchListContents cb p e a ctx)

/-- `pub fn compare_lists_with_matchingrules` (matchingrules.rs 464-510). -/
def compareListsWithRules {T} (eq : List T → List T → Bool) (cb : Callback T)
    (rl : RuleList) (p : DocPath) (e a : List T) (ctx : Ctx) : Outcome :=
  if rl.rules.isEmpty then .error [⟨p, .noMatcher⟩]
  else
    let results := rl.rules.map (fun r => compareListsWithRule eq cb r p e a ctx rl.cascaded)
    match rl.logic with
    | .and => ofList (results.flatMap errs)
    | .or => if results.all (fun r => !isOk r) then ofList (results.flatMap errs) else .ok ()

/-! ### JSON -/

/-- Equality of JSON maps. -/
def mapEqJson (a b : List (Str × Json)) : Bool := decide (a = b)
/-- Equality of JSON lists. -/
def listEqJson (a b : List Json) : Bool := decide (a = b)

/-- `fn compare_maps` (json.rs 410-453). -/
def compareMaps (env : Env) (cb : Callback Json) (p : DocPath) (e a : List (Str × Json)) (ctx : Ctx) :
    Outcome :=
  if e.isEmpty && decide (ctx.config = .noUnexpectedKeys) && !a.isEmpty then .error [⟨p, .emptyMap⟩]
  else if isDefined ctx p then
    let rl := best ctx p
    rl.rules.foldl (fun acc r =>
      mergeResult acc (compareMapsWithRule env mapEqJson cb r rl.cascaded p e a ctx)) (.ok ())
  else commonLoop cb p a ctx e (mergeResult (.ok ()) (matchKeys env ctx p (Json.keys e) (Json.keys a)))

/-- `fn compare_list_content` (json.rs 490-512) from index `i` on. -/
def compareListContent (cb : Callback Json) (p : DocPath) (ctx : Ctx) :
    Nat → List Json → List Json → Outcome → Outcome
  | _, [], _, acc => acc
  | i, e :: es, a :: as, acc =>
    compareListContent cb p ctx (i + 1) es as (mergeResult acc (cb (join p (natStr i)) e a ctx))
  | i, _ :: es, [], acc =>
    compareListContent cb p ctx (i + 1) es []
      (if isDefined ctx (join p (natStr i)) then acc else mergeResult acc (.error [⟨p, .missingItem⟩]))

/-- `fn compare_lists` (json.rs 455-488). -/
def compareLists (cb : Callback Json) (p : DocPath) (e a : List Json) (ctx : Ctx) : Outcome :=
  if isDefined ctx p then compareListsWithRules listEqJson cb (best ctx p) p e a ctx
  else if e.isEmpty && !a.isEmpty then .error [⟨p, .emptyList⟩]
  else
    let result := compareListContent cb p ctx 0 e a (.ok ())
    if e.length ≠ a.length then mergeResult result (.error [⟨p, .length⟩]) else result

/-- `fn compare_values` (json.rs 514-537): one mismatch per failed rule. -/
def compareValues (env : Env) (p : DocPath) (e a : Json) (ctx : Ctx) : Outcome :=
  if isDefined ctx p then
    match matchValues (jsonMatches env e a) (best ctx p) with
    | .ok _ => .ok ()
    | .error messages => .error (messages.map fun _ => ⟨p, .value⟩)
  else if jsonMatches env e a .equality false then .ok () else .error [⟨p, .value⟩]

/-- One level of `pub fn compare_json` (json.rs 378-408), over the recursive call `cb`. -/
def compareStep (env : Env) (cb : Callback Json) : Callback Json := fun p e a ctx =>
  match e, a with
  | .obj em, .obj am => compareMaps env cb p em am ctx
  | .obj _, _ => .error [⟨p, .typeMismatch⟩]
  | .arr el, .arr al => compareLists cb p el al ctx
  | .arr _, _ => .error [⟨p, .typeMismatch⟩]
  | e, a => compareValues env p e a ctx

/-- `pub fn compare_json` (json.rs 378-408) with a bound on the recursion. -/
def compareJsonF (env : Env) : Nat → Callback Json
  | 0 => fun _ _ _ _ => .ok ()
  | n + 1 => compareStep env (compareJsonF env n)

/-- `pub fn compare_json` (json.rs 378-408).  The recursive calls are made on strict sub-values of the
expected value, so its depth bounds the recursion (`compareJson_eq` in CompareLemmas is the unbounded
recursion equation). -/
def compareJson (env : Env) : Callback Json := fun p e a ctx => compareJsonF env (e.depth + 1) p e a ctx

/-- `pub fn match_json` (json.rs 288-319), given the results of parsing the bodies as JSON. -/
def matchJson (env : Env) (e a : Option Json) (ctx : Ctx) : Outcome :=
  match e, a with
  | some e, some a => compareJson env rootPath e a ctx
  | none, some _ => .error [⟨rootPath, .value⟩]
  | some _, none => .error [⟨rootPath, .value⟩]
  | none, none => .error [⟨rootPath, .value⟩, ⟨rootPath, .value⟩]

end Compare
end Verif
