import Verif.Props.ReadDocProps

/-
  C169: what one matching rule of a pact file says.
-/

set_option autoImplicit false

namespace Verif
namespace ReadRuleProps
open Path Rules RuleJson PactFile Matchers
open SessionRuleProps (Each)

/-! ## Specification -/

/-- The names of the types of rules. -/
def names : RuleType → List String
  | .regex => ["regex"]
  | .equality => ["equality"]
  | .includes => ["include"]
  | .type => ["type"]
  | .number => ["number"]
  | .integer => ["integer"]
  | .decimal => ["decimal", "real"]
  | .boolean => ["boolean"]
  | .min => ["min", "min-type"]
  | .max => ["max", "max-type"]
  | .timestamp => ["timestamp", "datetime"]
  | .date => ["date"]
  | .time => ["time"]
  | .null => ["null"]
  | .contentType => ["contentType", "content-type"]
  | .arrayContains => ["arrayContains", "array-contains"]
  | .values => ["values"]
  | .statusCode => ["statusCode", "status-code"]
  | .notEmpty => ["notEmpty", "not-empty"]
  | .semver => ["semver"]
  | .eachKey => ["eachKey", "each-key"]
  | .eachValue => ["eachValue", "each-value"]

/-- The name of the type of a rule: `"match"`, without it `"pact:matcher:type"`. -/
inductive Typed (m : Obj) : Str → Prop
  | match (t : Json) : RuleJson.get "match" m = some t → Typed m t.toStr
  | other (t : Json) : RuleJson.get "match" m = none → RuleJson.get "pact:matcher:type" m = some t → Typed m t.toStr

/-- A limit that is given as a number (or as the text of one). -/
def Limit (P : Params) (m : Obj) (k : String) (n : Option Nat) : Prop := JsonUtils.jsonToNum P.toUsize (RuleJson.get k m) = n

/-- The format of a date or time: `"format"`, without it the attribute with the name of the type, otherwise none. -/
inductive Format (m : Obj) (t : Str) : Str → Prop
  | format (v : Json) : RuleJson.get "format" m = some v → Format m t v.toStr
  | own (v : Json) : RuleJson.get "format" m = none → Json.lookup t m = some v → Format m t v.toStr
  | default : RuleJson.get "format" m = none → Json.lookup t m = none → Format m t []

/-- An array of rules. -/
def RulesOf (P : Params) (a : List Json) (rs : List MatchingRule) : Prop := Each (fun j r => fromJson P j = .ok r) a rs

/-- The definition in an each-key or each-value rule. -/
structure Definition (P : Params) (m : Obj) (d : RuleDef) : Prop where
  rules : (∃ a rs, RuleJson.get "rules" m = some (.arr a) ∧ RulesOf P a rs ∧ d.rules = rs.map Sum.inl) ∨
    RuleJson.get "rules" m = none ∧ d.rules = []
  value : (∃ v, RuleJson.get "value" m = some v ∧ d.value = v.toStr) ∨ RuleJson.get "value" m = none ∧ d.value = []
  generator : (∃ g, RuleJson.get "generator" m = some (.obj g) ∧ d.generator = genOfObj g) ∨
    (∀ g, RuleJson.get "generator" m ≠ some (.obj g)) ∧ d.generator = none
  type : d.valueType = .unknown
  expression : d.expression = []

/-- A variant of an array-contains rule: without rules it is compared with equality. -/
structure VariantIs (P : Params) (v : Json) (x : Variant) : Prop where
  index : x.index = (JsonUtils.jsonToNum P.toUsize (vget "index" v)).getD 0
  rules : (∃ j, vget "rules" v = some j ∧ addRulesFromJson (fromJson P) P (emptyCat .body) j = .ok x.rules) ∨
    vget "rules" v = none ∧ x.rules = ⟨.body, [(Path.empty, ⟨[.equality], .and, false⟩)]⟩
  generators : (∃ g, vget "generators" v = some (.obj g) ∧ gensFromJson P [] g = .ok x.gens) ∨
    (∀ g, vget "generators" v ≠ some (.obj g)) ∧ x.gens = []

/-- The rule of a type with the attributes of an object. -/
inductive Attributes (P : Params) (m : Obj) (t : Str) : RuleType → MatchingRule → Prop
  | regex (v : Json) : RuleJson.get "regex" m = some v → Attributes P m t .regex (.regex v.toStr)
  | equality : Attributes P m t .equality .equality
  | includes (v : Json) : RuleJson.get "value" m = some v → Attributes P m t .includes (.includes v.toStr)
  | type : Limit P m "min" none → Limit P m "max" none → Attributes P m t .type .type
  | typeMin (a : Nat) : Limit P m "min" (some a) → Limit P m "max" none → Attributes P m t .type (.minType a)
  | typeMax (b : Nat) : Limit P m "min" none → Limit P m "max" (some b) → Attributes P m t .type (.maxType b)
  | typeBoth (a b : Nat) : Limit P m "min" (some a) → Limit P m "max" (some b) → Attributes P m t .type (.minMaxType a b)
  | number : Attributes P m t .number .number
  | integer : Attributes P m t .integer .integer
  | decimal : Attributes P m t .decimal .decimal
  | boolean : Attributes P m t .boolean .boolean
  | min (a : Nat) : Limit P m "min" (some a) → Attributes P m t .min (.minType a)
  | max (b : Nat) : Limit P m "max" (some b) → Attributes P m t .max (.maxType b)
  | timestamp (f : Str) : Format m t f → Attributes P m t .timestamp (.timestamp f)
  | date (f : Str) : Format m t f → Attributes P m t .date (.date f)
  | time (f : Str) : Format m t f → Attributes P m t .time (.time f)
  | null : Attributes P m t .null .null
  | contentType (v : Json) : RuleJson.get "value" m = some v → Attributes P m t .contentType (.contentType v.toStr)
  | arrayContains (a : List Json) (vs : List Variant) : RuleJson.get "variants" m = some (.arr a) → Each (VariantIs P) a vs →
      Attributes P m t .arrayContains (.arrayContains vs)
  | values : Attributes P m t .values .values
  | statusCode (v : Json) (s : HttpStatus) : RuleJson.get "status" m = some v → statusFromJson P v = some s →
      Attributes P m t .statusCode (.statusCode s)
  | anySuccess : RuleJson.get "status" m = none → Attributes P m t .statusCode (.statusCode .success)
  | notEmpty : Attributes P m t .notEmpty .notEmpty
  | semver : Attributes P m t .semver .semver
  | eachKey (d : RuleDef) : Definition P m d → Attributes P m t .eachKey (.eachKey d)
  | eachValue (d : RuleDef) : Definition P m d → Attributes P m t .eachValue (.eachValue d)

/-- The rule of an object without a type: by the first of these attributes that it has. -/
inductive Untyped (P : Params) (m : Obj) : MatchingRule → Prop
  | regex (v : Json) : RuleJson.get "regex" m = some v → Untyped P m (.regex v.toStr)
  | min (a : Nat) : RuleJson.get "regex" m = none → Limit P m "min" (some a) → Untyped P m (.minType a)
  | max (b : Nat) : RuleJson.get "regex" m = none → Limit P m "min" none → Limit P m "max" (some b) → Untyped P m (.maxType b)
  | timestamp (v : Json) : RuleJson.get "regex" m = none → Limit P m "min" none → Limit P m "max" none →
      RuleJson.get "timestamp" m = some v → Untyped P m (.timestamp v.toStr)
  | time (v : Json) : RuleJson.get "regex" m = none → Limit P m "min" none → Limit P m "max" none →
      RuleJson.get "timestamp" m = none → RuleJson.get "time" m = some v → Untyped P m (.time v.toStr)
  | date (v : Json) : RuleJson.get "regex" m = none → Limit P m "min" none → Limit P m "max" none →
      RuleJson.get "timestamp" m = none → RuleJson.get "time" m = none → RuleJson.get "date" m = some v →
      Untyped P m (.date v.toStr)

/-- What an object says. -/
inductive Says (P : Params) (m : Obj) : MatchingRule → Prop
  | typed (t : String) (k : RuleType) (r : MatchingRule) : Typed m t.toList → t ∈ names k → Attributes P m t.toList k r → Says P m r
  | untyped (r : MatchingRule) : (∀ t, ¬ Typed m t) → Untyped P m r → Says P m r

/-- The attributes that matter. -/
def attributes : List String :=
  ["match", "pact:matcher:type", "regex", "value", "min", "max", "format", "timestamp", "datetime", "date", "time", "variants",
    "status", "rules", "generator"]

/-! ## Names -/

theorem lookup_mem {A : Type} (k : Str) (v : A) (es : List (Str × A)) (h : Json.lookup k es = some v) : (k, v) ∈ es := by
  induction es with
  | nil => cases h
  | cons e es ih =>
    obtain ⟨l, x⟩ := e
    by_cases hl : l = k
    · have h2 : some x = some v := (if_pos hl).symm.trans h
      cases h2
      rw [hl]
      exact List.mem_cons_self
    · exact List.mem_cons_of_mem _ (ih ((if_neg hl).symm.trans h))

set_option maxRecDepth 100000 in
theorem all_names : ∀ e ∈ ruleTypes, ∃ t ∈ names e.2, e.1 = t.toList := by decide +kernel

set_option maxRecDepth 100000 in
theorem names_found (k : RuleType) : ∀ t ∈ names k, Json.lookup t.toList ruleTypes = some k := by
  cases k <;> decide +kernel

theorem name_iff (s : Str) (k : RuleType) : Json.lookup s ruleTypes = some k ↔ ∃ t ∈ names k, s = t.toList := by
  constructor
  · intro h
    exact all_names _ (lookup_mem _ _ _ h)
  · rintro ⟨t, h, rfl⟩
    exact names_found k t h

theorem typed_iff (m : Obj) (s : Str) :
    Typed m s ↔ ∃ t, (RuleJson.get "match" m).or (RuleJson.get "pact:matcher:type" m) = some t ∧ t.toStr = s := by
  constructor
  · intro h
    cases h with
    | «match» t h => exact ⟨t, by rw [h]; rfl, rfl⟩
    | other t h h2 => exact ⟨t, by rw [h, h2]; rfl, rfl⟩
  · rintro ⟨t, h, rfl⟩
    cases hm : RuleJson.get "match" m with
    | none => rw [hm] at h; exact .other t hm h
    | some x => rw [hm] at h; cases h; exact .match _ hm

theorem okOr_iff {A : Type} (o : Option A) (a : A) : okOr o = .ok a ↔ o = some a := by
  cases o <;> simp [okOr]

theorem format_iff (m : Obj) (t f : Str) : Format m t f ↔ formatOf t m = f := by
  unfold formatOf
  constructor
  · intro h
    cases h with
    | format v h => rw [h]
    | own v h h2 => rw [h, h2]
    | default h h2 => rw [h, h2]
  · intro h
    cases h1 : RuleJson.get "format" m with
    | some v => rw [h1] at h; subst h; exact .format v h1
    | none =>
      rw [h1] at h
      cases h2 : Json.lookup t m with
      | some v => rw [h2] at h; subst h; exact .own v h1 h2
      | none => rw [h2] at h; subst h; exact .default h1 h2

theorem rules_iff (P : Params) (a : List Json) : ∀ xs, rulesFromJson (fromJson P) a = .ok xs ↔
    ∃ rs, RulesOf P a rs ∧ xs = rs.map Sum.inl := by
  induction a with
  | nil =>
    intro xs
    constructor
    · intro h; cases h; exact ⟨[], .nil, rfl⟩
    · rintro ⟨rs, h, rfl⟩; cases h; rfl
  | cons j js ih =>
    intro xs
    constructor
    · intro h
      obtain ⟨r, h1, h2⟩ := SessionProps.bind_eq_ok.1 h
      obtain ⟨ys, h3, h4⟩ := Res.map_eq_ok.1 h2
      obtain ⟨rs, h5, h6⟩ := (ih ys).1 h3
      exact ⟨r :: rs, .cons h1 h5, by rw [← h4, h6]; rfl⟩
    · rintro ⟨rs, h, rfl⟩
      cases h with
      | cons h1 h2 =>
        rw [rulesFromJson, h1]
        simp only [Res.bind_ok]
        rw [(ih _).2 ⟨_, h2, rfl⟩]
        rfl

theorem definition_iff (P : Params) (m : Obj) (d : RuleDef) : Definition P m d ↔ defFromJson (fromJson P) m = .ok d := by
  unfold defFromJson
  constructor
  · rintro ⟨h1, h2, h3, h4, h5⟩
    rw [Res.map_eq_ok]
    have hv : (match RuleJson.get "value" m with
      | some v => v.toStr
      | none => []) = d.value := by
      rcases h2 with ⟨v, h, h'⟩ | ⟨h, h'⟩ <;> rw [h, h']
    have hg : (match RuleJson.get "generator" m with
      | some (.obj g) => genOfObj g
      | _ => none) = d.generator := by
      rcases h3 with ⟨v, h, h'⟩ | ⟨h, h'⟩
      · rw [h, h']
      · rw [h']
        split
        · rename_i g hg; exact absurd hg (h g)
        · rfl
    refine ⟨d.rules, ?_, ?_⟩
    · rcases h1 with ⟨a, rs, h, hr, h'⟩ | ⟨h, h'⟩
      · rw [h]
        exact (rules_iff P a _).2 ⟨rs, hr, h'⟩
      · rw [h, h']
    · obtain ⟨v, t, rs, g, e⟩ := d
      simp only at h4 h5 hv hg
      subst h4 h5
      have both : ∀ (a b : Str) (g h : Option Generator), a = b → g = h →
          (⟨a, .unknown, rs, g, []⟩ : RuleDef) = ⟨b, .unknown, rs, h, []⟩ := by
        intro a b g h e1 e2; rw [e1, e2]
      exact both _ _ _ _ hv hg
  · intro h
    obtain ⟨rs, h1, h2⟩ := Res.map_eq_ok.1 h
    subst h2
    refine ⟨?_, ?_, ?_, rfl, rfl⟩
    · split at h1
      · rename_i a ha
        obtain ⟨xs, h3, h4⟩ := (rules_iff P a _).1 h1
        exact .inl ⟨a, xs, ha, h3, h4⟩
      · cases h1
      · rename_i ha
        cases h1
        exact .inr ⟨ha, rfl⟩
    · cases hv : RuleJson.get "value" m with
      | some v => exact .inl ⟨v, rfl, rfl⟩
      | none => exact .inr ⟨rfl, rfl⟩
    · simp only
      split
      · rename_i g hg; exact .inl ⟨g, hg, rfl⟩
      · rename_i hg; exact .inr ⟨hg, rfl⟩

theorem variant_iff (P : Params) (v : Json) (x : Variant) : VariantIs P v x ↔ variantFromJson (fromJson P) P v = .ok x := by
  unfold variantFromJson
  constructor
  · rintro ⟨h1, h2, h3⟩
    obtain ⟨i, c, g⟩ := x
    simp only at h1 h2 h3
    subst h1
    rw [SessionProps.bind_eq_ok]
    refine ⟨c, ?_, ?_⟩
    · rcases h2 with ⟨j, h, h'⟩ | ⟨h, h'⟩
      · rw [h]; exact h'
      · rw [h, h']; rfl
    · rw [Res.map_eq_ok]
      refine ⟨g, ?_, rfl⟩
      rcases h3 with ⟨j, h, h'⟩ | ⟨h, h'⟩
      · rw [h]; exact h'
      · subst h'
        split
        · rename_i y hy; exact absurd hy (h y)
        · rfl
  · intro h
    obtain ⟨c, h1, h2⟩ := SessionProps.bind_eq_ok.1 h
    obtain ⟨g, h3, h4⟩ := Res.map_eq_ok.1 h2
    subst h4
    refine ⟨rfl, ?_, ?_⟩
    · cases hr : vget "rules" v with
      | some j => rw [hr] at h1; exact .inl ⟨j, rfl, h1⟩
      | none => rw [hr] at h1; cases h1; exact .inr ⟨rfl, rfl⟩
    · split at h3
      · rename_i y hy; exact .inl ⟨y, hy, h3⟩
      · rename_i hy; cases h3; exact .inr ⟨hy, rfl⟩

theorem variants_iff (P : Params) (a : List Json) : ∀ vs, variantsFromJson (fromJson P) P a = .ok vs ↔ Each (VariantIs P) a vs := by
  induction a with
  | nil =>
    intro vs
    constructor
    · intro h; cases h; exact .nil
    · intro h; cases h; rfl
  | cons j js ih =>
    intro vs
    constructor
    · intro h
      obtain ⟨x, h1, h2⟩ := SessionProps.bind_eq_ok.1 h
      obtain ⟨xs, h3, h4⟩ := Res.map_eq_ok.1 h2
      subst h4
      exact .cons ((variant_iff P j x).2 h1) ((ih xs).1 h3)
    · intro h
      cases h with
      | cons h1 h2 =>
        rw [variantsFromJson, (variant_iff P j _).1 h1]
        simp only [Res.bind_ok]
        rw [(ih _).2 h2]
        rfl

theorem attributes_iff (P : Params) (m : Obj) (t : Str) (k : RuleType) (r : MatchingRule) (hk : Json.lookup t ruleTypes = some k) :
    Attributes P m t k r ↔ createObj (fromJson P) P t m = .ok r := by
  unfold createObj
  rw [hk]
  constructor
  · intro h
    cases h with
    | regex v h | includes v h | contentType v h => simp only; rw [h]; rfl
    | min a h | max a h => simp only; unfold Limit at h; rw [h]; rfl
    | type h h2 | typeMin a h h2 | typeMax a h h2 | typeBoth a b h h2 => simp only; unfold Limit at h h2; rw [h, h2]
    | timestamp f h | date f h | time f h => simp only; rw [(format_iff m t f).1 h]
    | arrayContains a vs h h2 => simp only; rw [h]; simp only; rw [(variants_iff P a vs).2 h2]; rfl
    | statusCode v s h h2 => simp only; rw [h]; simp only; rw [h2]; rfl
    | anySuccess h => simp only; rw [h]
    | eachKey d h | eachValue d h => simp only; rw [(definition_iff P m d).1 h]; rfl
    | _ => rfl
  · intro h
    cases k <;> simp only at h
    case regex =>
      obtain ⟨v, h1, h2⟩ := Option.map_eq_some_iff.1 ((okOr_iff _ _).1 h)
      subst h2; exact .regex v h1
    case includes =>
      obtain ⟨v, h1, h2⟩ := Option.map_eq_some_iff.1 ((okOr_iff _ _).1 h)
      subst h2; exact .includes v h1
    case contentType =>
      obtain ⟨v, h1, h2⟩ := Option.map_eq_some_iff.1 ((okOr_iff _ _).1 h)
      subst h2; exact .contentType v h1
    case min =>
      obtain ⟨v, h1, h2⟩ := Option.map_eq_some_iff.1 ((okOr_iff _ _).1 h)
      subst h2; exact .min v h1
    case max =>
      obtain ⟨v, h1, h2⟩ := Option.map_eq_some_iff.1 ((okOr_iff _ _).1 h)
      subst h2; exact .max v h1
    case type =>
      split at h <;> cases h
      · rename_i a b h1 h2; exact .typeBoth a b h1 h2
      · rename_i a h1 h2; exact .typeMin a h1 h2
      · rename_i b h1 h2; exact .typeMax b h1 h2
      · rename_i h1 h2; exact .type h1 h2
    case timestamp => cases h; exact .timestamp _ ((format_iff m t _).2 rfl)
    case date => cases h; exact .date _ ((format_iff m t _).2 rfl)
    case time => cases h; exact .time _ ((format_iff m t _).2 rfl)
    case arrayContains =>
      split at h
      · rename_i a ha
        obtain ⟨vs, h1, h2⟩ := Res.map_eq_ok.1 h
        subst h2
        exact .arrayContains a vs ha ((variants_iff P a vs).1 h1)
      · cases h
    case statusCode =>
      split at h
      · rename_i v hv
        obtain ⟨s, h1, h2⟩ := Option.map_eq_some_iff.1 ((okOr_iff _ _).1 h)
        subst h2
        exact .statusCode v s hv h1
      · rename_i hv; cases h; exact .anySuccess hv
    case eachKey =>
      obtain ⟨d, h1, h2⟩ := Res.map_eq_ok.1 h
      subst h2
      exact .eachKey d ((definition_iff P m d).2 h1)
    case eachValue =>
      obtain ⟨d, h1, h2⟩ := Res.map_eq_ok.1 h
      subst h2
      exact .eachValue d ((definition_iff P m d).2 h1)
    all_goals (cases h; constructor)

theorem untyped_iff (P : Params) (m : Obj) (r : MatchingRule)
    (hn : (RuleJson.get "match" m).or (RuleJson.get "pact:matcher:type" m) = none) :
    Untyped P m r ↔ fromJson P (.obj m) = .ok r := by
  rw [RuleJsonProps.fromJson_fix]
  unfold fromJsonStep
  simp only
  rw [hn]
  simp only
  constructor
  · intro h
    cases h with
    | regex v h => rw [h]
    | min a h h1 => unfold Limit at h1; rw [h]; simp only; rw [h1]
    | max a h h1 h2 => unfold Limit at h1 h2; rw [h]; simp only; rw [h1]; simp only; rw [h2]
    | timestamp v h h1 h2 h3 => unfold Limit at h1 h2; rw [h]; simp only; rw [h1]; simp only; rw [h2]; simp only; rw [h3]
    | time v h h1 h2 h3 h4 =>
      unfold Limit at h1 h2; rw [h]; simp only; rw [h1]; simp only; rw [h2]; simp only; rw [h3]; simp only; rw [h4]
    | date v h h1 h2 h3 h4 h5 =>
      unfold Limit at h1 h2
      rw [h]; simp only; rw [h1]; simp only; rw [h2]; simp only; rw [h3]; simp only; rw [h4]; simp only; rw [h5]
  · intro h
    split at h
    · rename_i v h1; cases h; exact .regex v h1
    rename_i h1
    split at h
    · rename_i v h2; cases h; exact .min v h1 h2
    rename_i h2
    split at h
    · rename_i v h3; cases h; exact .max v h1 h2 h3
    rename_i h3
    split at h
    · rename_i v h4; cases h; exact .timestamp v h1 h2 h3 h4
    rename_i h4
    split at h
    · rename_i v h5; cases h; exact .time v h1 h2 h3 h4 h5
    rename_i h5
    split at h
    · rename_i v h6; cases h; exact .date v h1 h2 h3 h4 h5 h6
    cases h

/-! ## The property -/

/-- **C169** (what a rule says): an object is read as a rule exactly if it says that rule. -/
theorem C169_rule (P : Params) (m : Obj) (r : MatchingRule) : fromJson P (.obj m) = .ok r ↔ Says P m r := by
  cases hn : (RuleJson.get "match" m).or (RuleJson.get "pact:matcher:type" m) with
  | none =>
    rw [← untyped_iff P m r hn]
    constructor
    · intro h
      refine .untyped r (fun t ht => ?_) h
      obtain ⟨x, hx, _⟩ := (typed_iff m t).1 ht
      rw [hn] at hx
      cases hx
    · intro h
      cases h with
      | untyped _ _ h => exact h
      | typed t k _ ht _ _ =>
        obtain ⟨x, hx, _⟩ := (typed_iff m _).1 ht
        rw [hn] at hx
        cases hx
  | some x =>
    have hf : fromJson P (.obj m) = createObj (fromJson P) P x.toStr m := by
      rw [RuleJsonProps.fromJson_fix]
      unfold fromJsonStep
      simp only
      rw [hn]
    rw [hf]
    constructor
    · intro h
      cases hk : Json.lookup x.toStr ruleTypes with
      | none => unfold createObj at h; rw [hk] at h; cases h
      | some k =>
        obtain ⟨t, ht, hx⟩ := (name_iff _ _).1 hk
        refine .typed t k r ((typed_iff m _).2 ⟨x, hn, hx⟩) ht ?_
        rw [← hx]
        exact (attributes_iff P m _ k r hk).2 h
    · intro h
      cases h with
      | untyped _ h _ => exact absurd ((typed_iff m _).2 ⟨x, hn, rfl⟩) (h _)
      | typed t k _ ht hk ha =>
        obtain ⟨y, hy, hy2⟩ := (typed_iff m _).1 ht
        rw [hn] at hy
        cases hy
        rw [hy2]
        exact (attributes_iff P m _ k r ((name_iff _ _).2 ⟨t, hk, rfl⟩)).1 ha

/-- **C169** (only objects): nothing else is a rule. -/
theorem C169_objects (P : Params) (j : Json) (h : ∀ m, j ≠ .obj m) : fromJson P j = .err := by
  rw [RuleJsonProps.fromJson_fix]
  cases j with
  | obj m => exact absurd rfl (h m)
  | _ => rfl

/-- **C169** (only these attributes): two objects that agree in the attributes that matter are read the same; further attributes,
and the order of the attributes, play no part. -/
theorem C169_attributes (P : Params) (m n : Obj) (h : ∀ k ∈ attributes, RuleJson.get k m = RuleJson.get k n) :
    fromJson P (.obj m) = fromJson P (.obj n) := by
  rw [RuleJsonProps.fromJson_fix, RuleJsonProps.fromJson_fix]
  have g : ∀ k ∈ attributes, RuleJson.get k m = RuleJson.get k n := h
  have a1 := g "match" (by decide)
  have a2 := g "pact:matcher:type" (by decide)
  have a3 := g "regex" (by decide)
  have a4 := g "value" (by decide)
  have a5 := g "min" (by decide)
  have a6 := g "max" (by decide)
  have a7 := g "format" (by decide)
  have a8 := g "timestamp" (by decide)
  have a9 := g "datetime" (by decide)
  have b1 := g "date" (by decide)
  have b2 := g "time" (by decide)
  have b3 := g "variants" (by decide)
  have b4 := g "status" (by decide)
  have b5 := g "rules" (by decide)
  have b6 := g "generator" (by decide)
  have hc : ∀ ty, createObj (fromJson P) P ty m = createObj (fromJson P) P ty n := by
    intro ty
    unfold createObj
    have hd : defFromJson (fromJson P) m = defFromJson (fromJson P) n := by
      unfold defFromJson
      rw [a4, b5, b6]
    have hf : ∀ k, Json.lookup ty ruleTypes = some k → k = .timestamp ∨ k = .date ∨ k = .time → formatOf ty m = formatOf ty n := by
      intro k hk hk2
      have hl : Json.lookup ty m = Json.lookup ty n := by
        obtain ⟨t, ht, rfl⟩ := (name_iff _ _).1 hk
        rcases hk2 with rfl | rfl | rfl <;> simp only [names, List.mem_cons, List.not_mem_nil, or_false] at ht
        · rcases ht with rfl | rfl
          · exact a8
          · exact a9
        · subst ht; exact b1
        · subst ht; exact b2
      unfold formatOf
      rw [a7, hl]
    cases hk : Json.lookup ty ruleTypes with
    | none => rfl
    | some k =>
      rw [a3, a4, a5, a6, b3, b4, hd]
      cases k with
      | timestamp => simp only; rw [hf _ hk (.inl rfl)]
      | date => simp only; rw [hf _ hk (.inr (.inl rfl))]
      | time => simp only; rw [hf _ hk (.inr (.inr rfl))]
      | _ => rfl
  unfold fromJsonStep
  simp only
  rw [a1, a2, a3, a5, a6, a8, b1, b2]
  cases (RuleJson.get "match" n).or (RuleJson.get "pact:matcher:type" n) with
  | none => rfl
  | some t => exact hc _

/-! ## Non-vacuity -/

/-- `{"match": "real", "extra": 1}`. -/
def exObject : Obj := [("match".toList, .str "real".toList), ("extra".toList, .num (.pos 1))]

set_option maxRecDepth 100000 in
theorem example_says : Says RuleJsonProps.exP exObject .decimal :=
  .typed "real" .decimal _ (.match (.str "real".toList) (by decide)) (by decide) .decimal

set_option maxRecDepth 100000 in
theorem example_agree : ∀ k ∈ attributes, RuleJson.get k exObject = RuleJson.get k [("match".toList, .str "real".toList)] := by decide

/-- `{"date": "yyyy"}` without a type. -/
theorem example_untyped : Says RuleJsonProps.exP [("date".toList, .str "yyyy".toList)] (.date "yyyy".toList) := by
  refine .untyped _ (fun t ht => ?_) (.date (.str "yyyy".toList) (by decide) (by rfl) (by rfl) (by decide) (by decide) (by decide))
  cases ht with
  | «match» t h => exact absurd h (by simp [RuleJson.get, Json.lookup])
  | other t _ h => exact absurd h (by simp [RuleJson.get, Json.lookup])

end ReadRuleProps
end Verif
