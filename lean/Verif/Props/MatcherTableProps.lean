import Verif.Props.MatcherProps
import Verif.Props.RuleProps

/-
  Property theorems: C54 (the verdict of every rule on text, numbers and JSON scalars), C55 (merging the rules of
  whole interactions), and the missing half of C36 (no duplicates are left).
-/

set_option autoImplicit false

namespace Verif.MatcherTableProps
open Matchers Rules

theorem isPrefixOf_iff (s t : Str) : s.isPrefixOf t = true ↔ ∃ post, t = s ++ post := by
  rw [List.isPrefixOf_iff_prefix]
  exact ⟨fun ⟨r, h⟩ => ⟨r, h.symm⟩, fun ⟨r, h⟩ => ⟨r, h.symm⟩⟩

theorem contains_iff (a s : Str) : containsStr a s = true ↔ ∃ pre post, a = pre ++ s ++ post := by
  induction a with
  | nil =>
    simp only [containsStr, List.isEmpty_iff]
    constructor
    · intro h; exact ⟨[], [], by simp [h]⟩
    · rintro ⟨pre, post, h⟩
      have := congrArg List.length h
      simp at this
      exact List.length_eq_zero_iff.1 (by omega)
  | cons c cs ih =>
    simp only [containsStr, Bool.or_eq_true, isPrefixOf_iff, ih]
    constructor
    · rintro (⟨post, h⟩ | ⟨pre, post, h⟩)
      · exact ⟨[], post, by simpa using h⟩
      · exact ⟨c :: pre, post, by simp [h]⟩
    · rintro ⟨pre, post, h⟩
      cases pre with
      | nil => exact Or.inl ⟨post, by simpa using h⟩
      | cons d ds =>
        simp only [List.cons_append, List.cons.injEq] at h
        exact Or.inr ⟨ds, post, h.2⟩

/-! ## C54 The meaning of each rule -/

/-- What each rule demands of a text value (path, query parameter, header, text body, object key) when it is
attached to the value itself.  `numberText` is the syntax of floating point numbers, dates go to the date
validator. -/
def TextDemand (env : Env) (expected actual : Str) : MatchingRule → Prop
  | .equality => actual = expected
  | .values => actual = expected
  | .regex re => ∃ f, env.regex re = some f ∧ f actual = true
  | .includes s => ∃ pre post, actual = pre ++ s ++ post
  | .type | .minType _ | .maxType _ | .minMaxType _ _ => True
  | .number | .decimal => env.parseF64 actual = true
  | .integer => ∃ n, parseUsize actual = some n
  | .boolean => actual = "true".toList ∨ actual = "false".toList
  | .notEmpty => actual ≠ []
  | .semver => env.semver actual = true
  | .contentType ct => env.contentTypeStr actual ct = true
  | .date f => env.datetime actual (if f = [] then "yyyy-MM-dd".toList else f) = true
  | .time f => env.datetime actual (if f = [] then "HH:mm:ss".toList else f) = true
  | .timestamp f => env.datetime actual (if f = [] then "yyyy-MM-dd'T'HH:mm:ssXXX".toList else f) = true
  | .statusCode st => ∃ code, parseU16 actual = some code ∧ matchStatusCode code st = true
  | .null | .arrayContains _ | .eachKey _ | .eachValue _ => False

theorem regexMatches_iff (env : Env) (re s : Str) :
    regexMatches env re s = true ↔ ∃ f, env.regex re = some f ∧ f s = true := by
  unfold regexMatches
  cases env.regex re <;> simp

theorem fmtOr_eq (d : String) (f : Str) : fmtOr d f = if f = [] then d.toList else f := by
  cases f <;> simp [fmtOr]

/-- C54 (text): a rule attached to a text value accepts it exactly if the value meets the demand of the rule. -/
theorem C54_text (env : Env) (e a : Str) (rule : MatchingRule) :
    strMatches env e a rule false = true ↔ TextDemand env e a rule := by
  cases rule with
  | regex re => exact regexMatches_iff env re a
  | includes s => exact contains_iff a s
  | equality => simp [strMatches, TextDemand, eq_comm]
  | values => simp [strMatches, TextDemand, eq_comm]
  | integer => simp [strMatches, TextDemand, Option.isSome_iff_exists]
  | boolean => simp [strMatches, TextDemand]
  | notEmpty => simp [strMatches, TextDemand, List.isEmpty_iff]
  | date f => simp only [strMatches, TextDemand, fmtOr_eq]
  | time f => simp only [strMatches, TextDemand, fmtOr_eq]
  | timestamp f => simp only [strMatches, TextDemand, fmtOr_eq]
  | statusCode st =>
    simp only [strMatches, TextDemand]
    cases parseU16 a <;> simp
  | _ => simp [strMatches, TextDemand, fallback, MatchingRule.canCascade]

/-- C54 (text, inherited rule): a rule inherited from an enclosing element has the same demand, except that
each-key and each-value rules then accept every text. -/
theorem C54_text_cascaded (env : Env) (e a : Str) (rule : MatchingRule) :
    strMatches env e a rule true = true ↔
      TextDemand env e a rule ∨ (∃ d, rule = .eachKey d) ∨ ∃ d, rule = .eachValue d := by
  have hsame : ∀ r, (∀ d, r ≠ .eachKey d) → (∀ d, r ≠ .eachValue d) →
      strMatches env e a r true = strMatches env e a r false := by
    intro r h1 h2
    cases r <;> first | rfl | (exact absurd rfl (h1 _)) | (exact absurd rfl (h2 _))
  by_cases h1 : ∃ d, rule = .eachKey d
  · obtain ⟨d, rfl⟩ := h1
    simp [strMatches, fallback, MatchingRule.canCascade]
  · by_cases h2 : ∃ d, rule = .eachValue d
    · obtain ⟨d, rfl⟩ := h2
      simp [strMatches, fallback, MatchingRule.canCascade]
    · rw [hsame rule (fun d hd => h1 ⟨d, hd⟩) (fun d hd => h2 ⟨d, hd⟩), C54_text]
      simp [h1, h2]

example : TextDemand Env.simple "x".toList "hello world".toList (.includes "lo w".toList) :=
  ⟨"hel".toList, "orld".toList, by decide⟩

/-- What each rule demands of a response status code. -/
def StatusDemand (env : Env) (expected actual : Nat) : MatchingRule → Prop
  | .equality => actual = expected
  | .regex re => ∃ f, env.regex re = some f ∧ f (natStr actual) = true
  | .includes s => ∃ pre post, natStr actual = pre ++ s ++ post
  | .type | .minType _ | .maxType _ | .minMaxType _ _ | .number | .integer => True
  | .statusCode st => matchStatusCode actual st = true
  | _ => False

/-- C54 (status codes). -/
theorem C54_status (env : Env) (e a : Nat) (rule : MatchingRule) (ha : a < 65536) :
    u64Matches env e a rule false = true ↔ StatusDemand env e a rule := by
  cases rule with
  | regex re => exact regexMatches_iff env re _
  | includes s => exact contains_iff _ s
  | equality => simp [u64Matches, StatusDemand, eq_comm]
  | statusCode st => simp [u64Matches, StatusDemand, Nat.mod_eq_of_lt ha]
  | _ => simp [u64Matches, StatusDemand, fallback, MatchingRule.canCascade]

example : StatusDemand Env.simple 200 204 (.includes "04".toList) := ⟨"2".toList, [], by decide⟩

/-- What each rule demands of a JSON value received where the example has the value `expected`, when the value
is neither an array nor an object on both sides (those are compared element by element).  The text of a string
is its contents, of any other value its JSON text. -/
def ScalarDemand (env : Env) (expected actual : Json) : MatchingRule → Prop
  | .equality | .values => actual = expected
  | .regex re => ∃ f, env.regex re = some f ∧ f actual.matcherText = true
  | .includes s => ∃ pre post, actual.matcherText = pre ++ s ++ post
  | .boolean => (∃ b, actual = .bool b) ∨ actual = .str "true".toList ∨ actual = .str "false".toList
  | .notEmpty => actual ≠ .null ∧ actual ≠ .str [] ∧ actual ≠ .arr [] ∧ actual ≠ .obj []
  | .null => actual = .null
  | .semver => ∃ s, actual = .str s ∧ env.semver s = true
  | .date f => env.datetime actual.toStr (if f = [] then "yyyy-MM-dd".toList else f) = true
  | .time f => env.datetime actual.toStr (if f = [] then "HH:mm:ss".toList else f) = true
  | .timestamp f => env.datetime actual.toStr (if f = [] then "yyyy-MM-dd'T'HH:mm:ssXXX".toList else f) = true
  | .contentType ct => env.contentTypeJson actual ct = true
  | _ => True

/-- Rules whose demand on JSON values is the subject of C11 (type), C12 (sizes), C13/C22 (status code and element
rules, which accept every JSON scalar) and C14 (numbers). -/
def ElsewhereRule : MatchingRule → Prop
  | .type | .minType _ | .maxType _ | .minMaxType _ _ | .number | .integer | .decimal => True
  | _ => False

/-- C54 (JSON): a rule accepts a JSON value exactly if the value meets the demand of the rule; whether the rule
is inherited makes no difference. -/
theorem C54_json (env : Env) (e a : Json) (rule : MatchingRule) (c : Bool) (h : ¬ ElsewhereRule rule) :
    jsonMatches env e a rule c = true ↔ ScalarDemand env e a rule := by
  cases rule with
  | regex re => exact regexMatches_iff env re _
  | includes s => exact contains_iff _ s
  | equality => simp [jsonMatches, ScalarDemand, eq_comm]
  | values => simp [jsonMatches, ScalarDemand, eq_comm]
  | null => cases a <;> simp [jsonMatches, ScalarDemand, kind]
  | boolean => cases a <;> simp [jsonMatches, ScalarDemand]
  | notEmpty => cases a <;> simp [jsonMatches, ScalarDemand, List.isEmpty_iff]
  | semver => cases a <;> simp [jsonMatches, ScalarDemand]
  | date f => simp only [jsonMatches, ScalarDemand, fmtOr_eq]
  | time f => simp only [jsonMatches, ScalarDemand, fmtOr_eq]
  | timestamp f => simp only [jsonMatches, ScalarDemand, fmtOr_eq]
  | contentType ct => simp only [jsonMatches, ScalarDemand]
  | _ => first
    | (exact absurd trivial h)
    | simp [jsonMatches, ScalarDemand]

example : ¬ ElsewhereRule .notEmpty ∧ ScalarDemand Env.simple .null (.str "a".toList) .notEmpty :=
  ⟨by simp [ElsewhereRule], by simp [ScalarDemand]⟩

/-! ## C55 Merging the rules of interactions -/

/-- The rule list a set of matching rules has for a category and path. -/
def rulesAt (m : MatchingRules) (c : Category) (q : DocPath) : Option RuleList :=
  (rulesForCategory m c).bind (fun t => lookup t.rules q)

theorem rulesForCategory_cons (e : Category × RuleCategory) (es : MatchingRules) (c : Category) :
    rulesForCategory (e :: es) c = if e.1 = c then some e.2 else rulesForCategory es c := by
  unfold rulesForCategory
  by_cases h : e.1 = c <;> simp [h]

theorem rulesForCategory_add (m : MatchingRules) (c c' : Category) (r : RuleCategory) :
    rulesForCategory (mrAddRules m c r) c' =
      if c' = c then some (addRules ((rulesForCategory m c).getD (emptyCat c)) r) else rulesForCategory m c' := by
  induction m with
  | nil =>
    simp only [mrAddRules, rulesForCategory_cons]
    by_cases h : c' = c
    · simp [h, rulesForCategory]
    · simp [h, Ne.symm h]
  | cons e es ih =>
    simp only [mrAddRules]
    split
    · rename_i h
      subst h
      simp only [rulesForCategory_cons]
      by_cases h' : c' = e.1
      · simp [h']
      · simp [h', Ne.symm h']
    · rename_i h
      simp only [rulesForCategory_cons, ih]
      by_cases h' : c' = c
      · subst h'; simp [h]
      · simp [h']

theorem rulesAt_add (m : MatchingRules) (c c' : Category) (r : RuleCategory) (hr : KeysNodup r.rules)
    (q : DocPath) :
    rulesAt (mrAddRules m c r) c' q =
      if c' = c then RuleProps.combined (rulesAt m c q) (lookup r.rules q) else rulesAt m c' q := by
  unfold rulesAt
  rw [rulesForCategory_add]
  by_cases h : c' = c
  · subst h
    simp only [if_true, Option.bind_some]
    rw [RuleProps.C35_add_rules_partial _ _ hr]
    cases rulesForCategory m c' with
    | none => rfl
    | some t => rfl
  · simp [h]

/-- C55: after merging the matching rules of another interaction part, every category and path has its previous
rules followed by the rules of the other (keeping the AND/OR logic of the first if both have rules), whatever the
order of the categories. -/
theorem C55_merge (m n : MatchingRules) (hn : (n.map (·.1)).Nodup) (hk : ∀ e ∈ n, KeysNodup e.2.rules)
    (c : Category) (q : DocPath) :
    rulesAt (mrMerge m n) c q = RuleProps.combined (rulesAt m c q) (rulesAt n c q) := by
  unfold mrMerge
  induction n generalizing m with
  | nil =>
    simp only [List.foldl_nil]
    unfold rulesAt RuleProps.combined
    cases (rulesForCategory m c).bind (fun t => lookup t.rules q) <;> rfl
  | cons e es ih =>
    rw [List.map_cons, List.nodup_cons] at hn
    rw [List.foldl_cons, ih _ hn.2 (fun x hx => hk x (by simp [hx])), rulesAt_add _ _ _ _ (hk e (by simp))]
    have hcons : rulesAt (e :: es) c q = if e.1 = c then lookup e.2.rules q else rulesAt es c q := by
      unfold rulesAt
      rw [rulesForCategory_cons]
      by_cases h : e.1 = c <;> simp [h]
    rw [hcons]
    by_cases h : c = e.1
    · subst h
      have hnone : rulesAt es e.1 q = none := by
        unfold rulesAt rulesForCategory
        cases hf : es.find? (fun x => decide (x.1 = e.1)) with
        | none => rfl
        | some x =>
          have h1 := List.mem_of_find?_eq_some hf
          have h2 := List.find?_some hf
          exact absurd (List.mem_map.2 ⟨x, h1, by simpa using h2⟩) hn.1
      simp only [if_true, hnone]
      cases RuleProps.combined (rulesAt m e.1 q) (lookup e.2.rules q) <;> rfl
    · simp [h, Ne.symm h]

/-- The combination used above, spelled out. -/
theorem C55_combined (a b : RuleList) :
    RuleProps.combined (some a) (some b) = some ⟨a.rules ++ b.rules, a.logic, a.cascaded⟩ ∧
    RuleProps.combined (some a) none = some a ∧ RuleProps.combined none (some b) = some b ∧
    RuleProps.combined (R := MatchingRule) none none = none := ⟨rfl, rfl, rfl, rfl⟩

example : rulesAt (mrMerge [(.body, ⟨.body, [(Path.rootPath, ⟨[.type], .and, false⟩)]⟩)]
      [(.header, ⟨.header, []⟩), (.body, ⟨.body, [(Path.rootPath, ⟨[.integer], .or, false⟩)]⟩)]) .body Path.rootPath
    = some ⟨[.type, .integer], .and, false⟩ := by
  rfl

/-! ## C36 Duplicates -/

theorem uniqueRules_seen (l : List MatchingRule) : ∀ seen, ∀ r ∈ uniqueRules seen l, ∀ s ∈ seen,
    ruleEq s r = false := by
  induction l with
  | nil => intro seen r hr; simp [uniqueRules] at hr
  | cons x xs ih =>
    intro seen r hr s hs
    simp only [uniqueRules] at hr
    split at hr
    · exact ih seen r hr s hs
    · rename_i h
      rcases List.mem_cons.1 hr with rfl | hr
      · simp only [List.any_eq_true, not_exists, not_and, Bool.not_eq_true] at h
        exact h s hs
      · exact ih (x :: seen) r hr s (by simp [hs])

/-- C36 (no duplicates left): after removing duplicates no rule equals an earlier one. -/
theorem C36_no_duplicates (rl : RuleList) :
    (removeDuplicates rl).rules.Pairwise (fun a b => ruleEq a b = false) := by
  have key : ∀ (l seen : List MatchingRule),
      (uniqueRules seen l).Pairwise (fun a b => ruleEq a b = false) := by
    intro l
    induction l with
    | nil => intro seen; simp [uniqueRules]
    | cons x xs ih =>
      intro seen
      simp only [uniqueRules]
      split
      · exact ih seen
      · exact List.Pairwise.cons (fun r hr => uniqueRules_seen xs (x :: seen) r hr x (by simp)) (ih _)
  exact key rl.rules []

example : (removeDuplicates ⟨[.type, .integer, .type], .and, false⟩).rules.length = 2 := by decide

end Verif.MatcherTableProps
