import Verif.Props.FormGenProps
import Verif.Props.EndToEndProps
import Verif.Props.LocalityProps
import Verif.Props.ResultProps

/-
  C100: matching forms (and queries) with matching rules.
-/

set_option autoImplicit false

namespace Verif
namespace FormProps
open Form Path Rules Matchers Compare Query MatchResult
open QueryProps LocalityProps EndToEndProps
open PactFile (utf8)

/-! ## C100: rules for forms -/

/-! ### Specification -/

/-- The rules that say something about a text without looking at the example. -/
def IsFormRule : MatchingRule → Prop
  | .regex _ | .number | .integer | .decimal | .date _ | .time _ | .timestamp _ | .includes _ | .boolean
  | .semver | .contentType _ | .type | .minType _ | .maxType _ | .minMaxType _ _ | .notEmpty => True
  | _ => False

/-- What a rule says about the number of values. -/
def CountOk : MatchingRule → Nat → Prop
  | .minType min, n => min ≤ n
  | .maxType max, n => n ≤ max
  | .minMaxType min max, n => min ≤ n ∧ n ≤ max
  | .notEmpty, n => 0 < n
  | _, _ => True

/-- What a rule says about a value. -/
def ValueOk (env : Env) (r : MatchingRule) (v : Str) : Prop := strMatches env [] v r false = true

/-- Rules for the parameters (`$.k`) and for single values (`$.k[i]`). -/
abbrev Table := List ((Str × Option Nat) × MatchingRule)

/-- The path of a rule. -/
def rowTokens : Str × Option Nat → List PathToken
  | (k, none) => [.root, .field k]
  | (k, some i) => [.root, .field k, .index i]

/-- The context has the rules of the table and no others.  Names are neither wildcards nor numbers.  For queries, where the
first rule found is taken, no parameter has rules of both kinds. -/
structure Ruled (ctx : Ctx) (c : Category) (T : Table) : Prop where
  cat : ctx.cat = ⟨c, T.map fun t => (fromTokens (rowTokens t.1), ⟨[t.2], .and, false⟩)⟩
  names : ∀ t, t ∈ T → Name t.1.1
  once : (T.map (·.1)).Nodup
  kinds : ∀ t, t ∈ T → IsFormRule t.2
  sort : c = .body ∨ (c = .query ∧ ∀ k i r r', ((k, none), r) ∈ T → ((k, some i), r') ∉ T)

/-- The rule for the value number `i` of the parameter `k`: its own rule, otherwise the rule for the parameter. -/
def RuleFor (T : Table) (k : Str) (i : Nat) (r : MatchingRule) : Prop :=
  ((k, some i), r) ∈ T ∨ ((∀ r', ((k, some i), r') ∉ T) ∧ ((k, none), r) ∈ T)

/-- The values `a` of the parameter `k` are as the rules and the example values `e` demand. -/
def Accepted (env : Env) (T : Table) (k : Str) (e a : List Str) : Prop :=
  (∀ r, ((k, none), r) ∈ T → CountOk r a.length) ∧
  ((∀ r, ((k, none), r) ∉ T) → a.length = e.length) ∧
  ∀ i v, a[i]? = some v → (∀ r, RuleFor T k i r → ValueOk env r v) ∧ ((∀ r, ¬ RuleFor T k i r) → e[i]? = some v)

/-! ### Proofs -/

theorem name_seg {n k : Str} (h : Name n) : PatternProps.seg k = n ↔ k = n := by
  unfold PatternProps.seg
  cases hp : parseUsize k with
  | none => rfl
  | some i =>
    constructor
    · intro e
      exfalso
      have h1 := h.2.2
      rw [← e] at h1
      revert h1
      have h3 : i < usizeLim := by
        unfold parseUsize at hp
        split at hp <;> exact (parseDigits_lt hp)
      rw [parseUsize_natStr h3]
      simp
    · intro e
      rw [e, h.2.2] at hp
      cases hp

theorem matches_param {n k : Str} (h : Name n) (rest : List Str) :
    matchesPath (rowTokens (n, none)) (['$'] :: PatternProps.seg k :: rest) = decide (k = n) := by
  have hw : pathWeight (rowTokens (n, none)) (['$'] :: PatternProps.seg k :: rest) = (if k = n then 4 else 0, 2) := by
    simp only [pathWeight, rowTokens, List.length_cons, List.length_nil, weightFold, matchesToken, if_true]
    rw [if_pos (by omega)]
    by_cases e : k = n
    · rw [if_pos ((name_seg h).2 e), if_pos e]; cases rest <;> rfl
    · rw [if_neg (fun e' => e ((name_seg h).1 e')), if_neg e]; cases rest <;> rfl
  unfold matchesPath
  rw [hw]
  by_cases e : k = n <;> simp [e]

theorem score_param {n : Str} (h : Name n) (rest : List Str) :
    score (fromTokens (rowTokens (n, none))) (['$'] :: PatternProps.seg n :: rest) = 8 := by
  have hw : pathWeight (rowTokens (n, none)) (['$'] :: PatternProps.seg n :: rest) = (4, 2) := by
    simp only [pathWeight, rowTokens, List.length_cons, List.length_nil, weightFold, matchesToken, if_true]
    rw [if_pos (by omega), if_pos ((name_seg h).2 rfl)]; cases rest <;> rfl
  unfold score
  show (pathWeight (rowTokens (n, none)) _).1 * (pathWeight (rowTokens (n, none)) _).2 % usizeLim = 8
  rw [hw]
  decide

theorem matches_param_item (n k : Str) (i : Nat) :
    matchesPath (rowTokens (n, some i)) [['$'], PatternProps.seg k] = false := by
  unfold matchesPath pathWeight
  rw [if_neg (by simp [rowTokens])]
  rfl

theorem matches_item {n k : Str} (h : Name n) (i j : Nat) (hj : j < usizeLim) (rest : List Str) :
    matchesPath (rowTokens (n, some i)) (['$'] :: PatternProps.seg k :: natStr j :: rest) = decide (k = n ∧ j = i) := by
  have hw : pathWeight (rowTokens (n, some i)) (['$'] :: PatternProps.seg k :: natStr j :: rest) =
      (if k = n ∧ j = i then 8 else 0, 3) := by
    simp only [pathWeight, rowTokens, List.length_cons, List.length_nil, weightFold, matchesToken, if_true,
      parseUsize_natStr hj]
    rw [if_pos (by omega)]
    by_cases e : k = n
    · rw [if_pos ((name_seg h).2 e)]
      by_cases e2 : i = j
      · rw [if_pos e2, if_pos ⟨e, e2.symm⟩]; cases rest <;> rfl
      · rw [if_neg e2, if_neg (fun hh => e2 hh.2.symm)]; cases rest <;> rfl
    · rw [if_neg (fun e' => e ((name_seg h).1 e'))]
      by_cases e2 : i = j
      · rw [if_pos e2, if_neg (fun hh : k = n ∧ j = i => e hh.1)]; cases rest <;> rfl
      · rw [if_neg e2, if_neg (fun hh : k = n ∧ j = i => e hh.1)]; cases rest <;> rfl
  unfold matchesPath
  rw [hw]
  by_cases e : k = n ∧ j = i <;> simp [e]

theorem score_item {n : Str} (h : Name n) (i : Nat) (hj : i < usizeLim) (rest : List Str) :
    score (fromTokens (rowTokens (n, some i))) (['$'] :: PatternProps.seg n :: natStr i :: rest) = 24 := by
  have hw : pathWeight (rowTokens (n, some i)) (['$'] :: PatternProps.seg n :: natStr i :: rest) = (8, 3) := by
    simp only [pathWeight, rowTokens, List.length_cons, List.length_nil, weightFold, matchesToken, if_true,
      parseUsize_natStr hj]
    rw [if_pos (by omega), if_pos ((name_seg h).2 rfl)]; cases rest <;> rfl
  unfold score
  show (pathWeight (rowTokens (n, some i)) _).1 * (pathWeight (rowTokens (n, some i)) _).2 % usizeLim = 24
  rw [hw]
  decide

/-- The rows that apply at a location. -/
theorem ruled_defined {ctx : Ctx} {c : Category} {T : Table} (h : Ruled ctx c T) (q : DocPath) :
    isDefined ctx q = T.any fun t => matchesPath (rowTokens t.1) (toVec q) := by
  have hr : (resolveMatchersForPath ctx.cat (toVec q)).rules = entriesAt ctx (toVec q) := by
    unfold resolveMatchersForPath entriesAt
    rw [h.cat]
    rcases h.sort with hc | ⟨hc, -⟩ <;> rw [hc] <;> rfl
  unfold isDefined matcherIsDefined
  rw [hr]
  unfold entriesAt
  rw [h.cat]
  simp only
  induction T with
  | nil => rfl
  | cons t T ih => exact (by
      clear ih h hr
      rw [Bool.eq_iff_iff, List.any_eq_true, Bool.not_eq_true', List.isEmpty_eq_false_iff_exists_mem]
      constructor
      · rintro ⟨e, he⟩
        obtain ⟨h1, h2⟩ := List.mem_filter.1 he
        obtain ⟨t', ht', rfl⟩ := List.mem_map.1 h1
        exact ⟨t', ht', h2⟩
      · rintro ⟨t', ht', h2⟩
        exact ⟨_, List.mem_filter.2 ⟨List.mem_map.2 ⟨t', ht', rfl⟩, h2⟩⟩)

/-- Where rows apply, one of them is used; in a body none with a higher score. -/
theorem ruled_best {ctx : Ctx} {c : Category} {T : Table} (h : Ruled ctx c T) (q : DocPath)
    (hd : isDefined ctx q = true) :
    ∃ t ∈ T, matchesPath (rowTokens t.1) (toVec q) = true ∧
      (∃ b, best ctx q = ⟨[t.2], .and, b⟩ ∧ (b = true → (rowTokens t.1).length < (toVec q).length)) ∧
      (c = .body → ∀ t' ∈ T, matchesPath (rowTokens t'.1) (toVec q) = true →
        score (fromTokens (rowTokens t'.1)) (toVec q) ≤ score (fromTokens (rowTokens t.1)) (toVec q)) := by
  have hlen : ∀ t : (Str × Option Nat) × MatchingRule, matchesPath (rowTokens t.1) (toVec q) = true →
      (rowTokens t.1).length ≤ (toVec q).length := by
    intro t ht
    unfold matchesPath pathWeight at ht
    split at ht
    · assumption
    · simp at ht
  have hmem : ∀ e, e ∈ entriesAt ctx (toVec q) ↔
      ∃ t ∈ T, e = (fromTokens (rowTokens t.1), ⟨[t.2], .and, false⟩) ∧ matchesPath (rowTokens t.1) (toVec q) = true := by
    intro e
    unfold entriesAt
    rw [h.cat, List.mem_filter, List.mem_map]
    constructor
    · rintro ⟨⟨t, ht, rfl⟩, hm⟩; exact ⟨t, ht, rfl, hm⟩
    · rintro ⟨t, ht, rfl, hm⟩; exact ⟨⟨t, ht, rfl⟩, hm⟩
  rw [ruled_defined h] at hd
  obtain ⟨t0, ht0, hm0⟩ := List.any_eq_true.1 hd
  have hne : entriesAt ctx (toVec q) ≠ [] := fun he => by
    have := (hmem _).2 ⟨t0, ht0, rfl, hm0⟩
    rw [he] at this
    cases this
  rcases h.sort with hc | ⟨hc, hno⟩
  · have hb : ctx.cat.name = .body := by rw [h.cat]; exact hc
    have hbest := best_body hb q
    cases hx : maxByKey (fun e => score e.1 (toVec q)) (entriesAt ctx (toVec q)) with
    | none => exact absurd ((RuleProps.maxByKey_none _ _).1 hx) hne
    | some e =>
      rw [hx] at hbest
      obtain ⟨h1, h2⟩ := RuleProps.maxByKey_some _ _ _ hx
      obtain ⟨t, ht, rfl, hm⟩ := (hmem e).1 h1
      refine ⟨t, ht, hm, ⟨_, hbest, ?_⟩, ?_⟩
      · intro hb2
        have := of_decide_eq_true hb2
        have hl := hlen t hm
        have : (rowTokens t.1).length ≠ (toVec q).length := this
        omega
      · intro _ t' ht' hm'
        exact h2 _ ((hmem _).2 ⟨t', ht', rfl, hm'⟩)
  · have hbest : best ctx q = asRuleList ⟨c, entriesAt ctx (toVec q)⟩ := by
      unfold best selectBestMatcher resolveMatchersForPath entriesAt
      rw [h.cat, hc]
      rfl
    cases hx : entriesAt ctx (toVec q) with
    | nil => exact absurd hx hne
    | cons e es =>
      rw [hx] at hbest
      obtain ⟨t, ht, rfl, hm⟩ := (hmem e).1 (by rw [hx]; simp)
      exact ⟨t, ht, hm, ⟨false, hbest, by simp⟩, fun hb => by rw [hc] at hb; cases hb⟩

theorem row_unique {T : Table} (h : (T.map (·.1)).Nodup) {x : Str × Option Nat} {r r' : MatchingRule}
    (h1 : (x, r) ∈ T) (h2 : (x, r') ∈ T) : r = r' := by
  induction T with
  | nil => cases h1
  | cons t T ih =>
    rw [List.map_cons, List.nodup_cons] at h
    rcases List.mem_cons.1 h1 with e1 | m1
    · rcases List.mem_cons.1 h2 with e2 | m2
      · rw [← e1] at e2; exact (Prod.mk.inj e2).2.symm
      · exact absurd (List.mem_map.2 ⟨_, m2, by rw [← e1]⟩) h.1
    · rcases List.mem_cons.1 h2 with e2 | m2
      · exact absurd (List.mem_map.2 ⟨_, m1, by rw [← e2]⟩) h.1
      · exact ih h.2 m1 m2

/-- At the parameter itself. -/
theorem at_param {ctx : Ctx} {c : Category} {T : Table} (h : Ruled ctx c T) (k : Str) (q : DocPath)
    (hq : toVec q = [['$'], PatternProps.seg k]) :
    (∀ r, ((k, none), r) ∈ T → isDefined ctx q = true ∧ best ctx q = ⟨[r], .and, false⟩) ∧
    ((∀ r, ((k, none), r) ∉ T) → isDefined ctx q = false) := by
  have hm : ∀ t, t ∈ T → (matchesPath (rowTokens t.1) (toVec q) = true ↔ t.1 = (k, none)) := by
    rintro ⟨⟨n, o⟩, r⟩ ht
    have hn := h.names _ ht
    rw [hq]
    cases o with
    | none => simp only [matches_param hn, decide_eq_true_eq, Prod.mk.injEq, and_true]; exact eq_comm
    | some i => simp only [matches_param_item, Prod.mk.injEq, reduceCtorEq, and_false, Bool.false_eq_true]
  constructor
  · intro r hr
    have hd : isDefined ctx q = true := by
      rw [ruled_defined h, List.any_eq_true]
      exact ⟨_, hr, (hm _ hr).2 rfl⟩
    refine ⟨hd, ?_⟩
    obtain ⟨t, ht, hmt, ⟨b, hb, hlt⟩, -⟩ := ruled_best h q hd
    have e := (hm t ht).1 hmt
    obtain ⟨x, r'⟩ := t
    simp only at e
    subst e
    rw [row_unique h.once hr ht, hb]
    cases b with
    | false => rfl
    | true => have := hlt rfl; rw [hq] at this; simp [rowTokens] at this
  · intro hno
    rw [ruled_defined h, List.any_eq_false]
    rintro ⟨x, r⟩ ht hmt
    have := (hm _ ht).1 hmt
    simp only at this
    subst this
    exact hno r ht

/-- At a value and below it. -/
theorem at_item {ctx : Ctx} {c : Category} {T : Table} (h : Ruled ctx c T) (k : Str) (i : Nat) (hi : i < usizeLim)
    (rest : List Str) (q : DocPath) (hq : toVec q = ['$'] :: PatternProps.seg k :: natStr i :: rest) :
    (∀ r, RuleFor T k i r → isDefined ctx q = true ∧ ∃ b, best ctx q = ⟨[r], .and, b⟩) ∧
    ((∀ r, ¬ RuleFor T k i r) → isDefined ctx q = false) := by
  have hm : ∀ t, t ∈ T → (matchesPath (rowTokens t.1) (toVec q) = true ↔ t.1 = (k, none) ∨ t.1 = (k, some i)) := by
    rintro ⟨⟨n, o⟩, r⟩ ht
    have hn := h.names _ ht
    rw [hq]
    cases o with
    | none =>
      simp only [matches_param hn, decide_eq_true_eq, Prod.mk.injEq, and_true, reduceCtorEq, and_false, or_false]
      exact eq_comm
    | some j =>
      simp only [matches_item hn _ _ hi, decide_eq_true_eq, Prod.mk.injEq, reduceCtorEq, and_false, false_or,
        Option.some.injEq]
      exact ⟨fun e => ⟨e.1.symm, e.2.symm⟩, fun e => ⟨e.1.symm, e.2.symm⟩⟩
  constructor
  · intro r hr
    have hd : isDefined ctx q = true := by
      rw [ruled_defined h, List.any_eq_true]
      rcases hr with hr | ⟨-, hr⟩
      · exact ⟨_, hr, (hm _ hr).2 (Or.inr rfl)⟩
      · exact ⟨_, hr, (hm _ hr).2 (Or.inl rfl)⟩
    refine ⟨hd, ?_⟩
    obtain ⟨⟨x, r'⟩, ht, hmt, ⟨b, hb, -⟩, hmax⟩ := ruled_best h q hd
    refine ⟨b, ?_⟩
    rw [hb]
    suffices r' = r by rw [this]
    rcases (hm _ ht).1 hmt with e | e
    · simp only at e
      subst e
      rcases hr with hr | ⟨-, hr⟩
      · exfalso
        rcases h.sort with hc | ⟨-, hno⟩
        · have := hmax hc _ hr ((hm _ hr).2 (Or.inr rfl))
          rw [hq] at this
          have hn : Name k := h.names _ hr
          simp only at this
          rw [score_item hn i hi, score_param hn] at this
          omega
        · exact hno k i r' r ht hr
      · exact row_unique h.once ht hr
    · simp only at e
      subst e
      rcases hr with hr | ⟨hno, -⟩
      · exact row_unique h.once ht hr
      · exact absurd ht (hno r')
  · intro hno
    rw [ruled_defined h, List.any_eq_false]
    rintro ⟨x, r⟩ ht hmt
    rcases (hm _ ht).1 hmt with e | e
    · simp only at e
      subst e
      by_cases hex : ∃ r', ((k, some i), r') ∈ T
      · obtain ⟨r', hr'⟩ := hex
        exact hno r' (Or.inl hr')
      · exact hno r (Or.inr ⟨fun r' hr' => hex ⟨r', hr'⟩, ht⟩)
    · simp only at e
      subst e
      exact hno r (Or.inl ht)

theorem formRule_plain (env : Env) {r : MatchingRule} (hr : IsFormRule r) (e v : Str) (c : Bool) :
    strMatches env e v r c = strMatches env [] v r false := by
  cases r <;> simp [IsFormRule] at hr <;> rfl

theorem ruleFor_kind {ctx : Ctx} {c : Category} {T : Table} (h : Ruled ctx c T) {k : Str} {i : Nat} {r : MatchingRule}
    (hr : RuleFor T k i r) : IsFormRule r := by
  rcases hr with hr | ⟨-, hr⟩ <;> exact h.kinds _ hr

/-- One value. -/
theorem value_ok (env : Env) {ctx : Ctx} {c : Category} {T : Table} (h : Ruled ctx c T) (k : Str) (i : Nat)
    (hi : i < usizeLim) (rest : List Str) (p : DocPath) (n : Nat)
    (hq : toVec (join p (natStr n)) = ['$'] :: PatternProps.seg k :: natStr i :: rest) (e v : Str) :
    isOk (compareQueryValue env p e v n ctx) = true ↔
      (∀ r, RuleFor T k i r → ValueOk env r v) ∧ ((∀ r, ¬ RuleFor T k i r) → e = v) := by
  obtain ⟨h1, h2⟩ := at_item h k i hi rest _ hq
  unfold compareQueryValue
  simp only
  by_cases hex : ∃ r, RuleFor T k i r
  · obtain ⟨r, hr⟩ := hex
    obtain ⟨hd, b, hb⟩ := h1 r hr
    rw [if_pos hd, hb]
    have hu : ∀ r', RuleFor T k i r' → r' = r := by
      intro r' hr'
      rcases hr' with a1 | ⟨a0, a1⟩ <;> rcases hr with b1 | ⟨b0, b1⟩
      · exact row_unique h.once a1 b1
      · exact absurd a1 (b0 r')
      · exact absurd b1 (a0 r)
      · exact row_unique h.once a1 b1
    have := MatcherProps.matchValues_ok_iff (strMatches env e v) ⟨[r], .and, b⟩
    have h3 : matchValues (strMatches env e v) ⟨[r], .and, b⟩ = .ok () ↔ ValueOk env r v := by
      rw [this]; simp only [ne_eq, List.cons_ne_nil, not_false_eq_true, List.mem_singleton, forall_eq, true_and]
      rw [formRule_plain env (ruleFor_kind h hr)]
      exact Iff.rfl
    have h4 : ((∀ r', RuleFor T k i r' → ValueOk env r' v) ∧ ((∀ r', ¬ RuleFor T k i r') → e = v)) ↔ ValueOk env r v := by
      constructor
      · intro hh; exact hh.1 r hr
      · intro hh; exact ⟨fun r' hr' => by rw [hu r' hr']; exact hh, fun hno => absurd hr (hno r)⟩
    rw [h4, ← h3]
    split
    · rename_i hok; rw [hok]; exact ⟨fun _ => rfl, fun _ => rfl⟩
    · rename_i hok; rw [hok]; exact ⟨fun h => by simp [isOk] at h, fun h => by cases h⟩
  · have hno : ∀ r, ¬ RuleFor T k i r := fun r hr => hex ⟨r, hr⟩
    rw [if_neg (by rw [h2 hno]; simp)]
    simp only [strMatches]
    constructor
    · intro hh
      refine ⟨fun r hr => absurd hr (hno r), fun _ => ?_⟩
      by_cases ev : e = v
      · exact ev
      · simp [ev, isOk] at hh
    · rintro ⟨-, hh⟩
      rw [hh hno]
      simp [isOk]

theorem toVec_param (k : Str) : toVec (join rootPath k) = [['$'], PatternProps.seg k] := by
  rw [PatternProps.toVec_join_seg]; rfl

theorem toVec_value (k : Str) (i : Nat) :
    toVec (join (join rootPath k) (natStr i)) = [['$'], PatternProps.seg k, natStr i] := by
  rw [PatternProps.toVec_join_seg, toVec_param, PatternProps.seg_natStr]; rfl

theorem toVec_below (k : Str) (i n : Nat) :
    toVec (join (join (join rootPath k) (natStr i)) (natStr n)) = [['$'], PatternProps.seg k, natStr i, natStr n] := by
  rw [PatternProps.toVec_join_seg, toVec_value, PatternProps.seg_natStr]; rfl

theorem count_ok {r : MatchingRule} (hr : IsFormRule r) (e a : List Str) :
    listMatches listEqStr e a r false = true ↔ CountOk r a.length := by
  cases r <;> simp [IsFormRule] at hr <;> simp [listMatches, CountOk]
  · exact List.length_pos_iff.symm

/-- The loop over the values without a rule for the parameter. -/
theorem queryLoop_values (env : Env) (p : DocPath) (ctx : Ctx) (i : Nat) (e a : List Str) (hl : e.length = a.length) :
    queryLoop env p ctx i e a = [] ↔
      ∀ j x v, e[j]? = some x → a[j]? = some v → isOk (compareQueryValue env p x v (i + j) ctx) = true := by
  induction a generalizing i e with
  | nil =>
    cases e with
    | nil => simp [queryLoop]
    | cons x e => simp at hl
  | cons v a ih =>
    cases e with
    | nil => simp at hl
    | cons x e =>
      rw [queryLoop, List.append_eq_nil_iff, List.headD_cons, List.tail_cons, ih (i + 1) e (by simpa using hl),
        ← (compareQueryValue_consistent env p x v i ctx).isOk_iff]
      constructor
      · rintro ⟨h1, h2⟩ j y w hy hw
        cases j with
        | zero => simp at hy hw; subst hy; subst hw; exact h1
        | succ j =>
          have := h2 j y w (by simpa using hy) (by simpa using hw)
          rw [show i + (j + 1) = i + 1 + j by omega]
          exact this
      · intro hh
        refine ⟨hh 0 x v rfl rfl, ?_⟩
        intro j y w hy hw
        have := hh (j + 1) y w (by simpa using hy) (by simpa using hw)
        rw [show i + (j + 1) = i + 1 + j by omega] at this
        exact this

/-- The values of one parameter. -/
theorem values_exact (env : Env) {ctx : Ctx} {c : Category} {T : Table} (h : Ruled ctx c T) (k : Str) (e a : List Str)
    (he : e ≠ []) (ha : a.length ≤ usizeLim) :
    errs (matchQueryValues env k e a ctx) = [] ↔ Accepted env T k e a := by
  obtain ⟨hp1, hp2⟩ := at_param h k (join rootPath k) (toVec_param k)
  by_cases hex : ∃ r, ((k, none), r) ∈ T
  · obtain ⟨r, hr⟩ := hex
    obtain ⟨hd, hb⟩ := hp1 r hr
    have hkind := h.kinds _ hr
    have hrf : ∀ i, ∃ r', RuleFor T k i r' := by
      intro i
      by_cases hi : ∃ r', ((k, some i), r') ∈ T
      · obtain ⟨r', hr'⟩ := hi; exact ⟨r', Or.inl hr'⟩
      · exact ⟨r, Or.inr ⟨fun r' hr' => hi ⟨r', hr'⟩, hr⟩⟩
    have hun :
        errs (matchQueryValues env k e a ctx) = [] ↔
          ((if listMatches listEqStr e a r false then [] else [(⟨join rootPath k, .collection⟩ : Mismatch)]) ++
          matchListContents (fun q e a c => compareQueryValue env q e a 0 c) (join rootPath k) e a ctx) = [] := by
      unfold matchQueryValues
      simp only [hd, if_true, hb]
      unfold compareListsWithRules
      have hcl : cloneWith ctx ctx.cat = ctx := rfl
      have hone : compareListsWithRule listEqStr (fun q e a c => compareQueryValue env q e a 0 c) r
          (join rootPath k) e a ctx false =
          ofList ((if listMatches listEqStr e a r false then [] else [⟨join rootPath k, .collection⟩]) ++
            matchListContents (fun q e a c => compareQueryValue env q e a 0 c) (join rootPath k) e a ctx) := by
        cases e with
        | nil => exact absurd rfl he
        | cons e0 es => cases r <;> simp [IsFormRule] at hkind <;> rfl
      simp only [hcl, List.isEmpty_cons, Bool.false_eq_true, if_false, List.map_cons, List.map_nil, hone,
        List.flatMap_cons, List.flatMap_nil, List.append_nil, errs_ofList]
    have hun : errs (matchQueryValues env k e a ctx) = [] ↔ (listMatches listEqStr e a r false = true ∧
          matchListContents (fun q e a c => compareQueryValue env q e a 0 c) (join rootPath k) e a ctx = []) := by
      rw [hun, List.append_eq_nil_iff]
      cases listMatches listEqStr e a r false <;> simp
    rw [hun, count_ok hkind]
    unfold matchListContents
    rw [listContents_nil _ _ _ _ (fun x _ q y c => compareQueryValue_consistent env q x y 0 c)]
    have hval : ∀ j x v, a[j]? = some v → (isOk (compareQueryValue env (join (join rootPath k) (natStr j)) x v 0 ctx) = true ↔
        ∀ r', RuleFor T k j r' → ValueOk env r' v) := by
      intro j x v hv
      have hj : j < a.length := (List.getElem?_eq_some_iff.1 hv).1
      rw [value_ok env h k j (by omega) [natStr 0] _ 0 (toVec_below k j 0)]
      constructor
      · intro hh; exact hh.1
      · intro hh
        refine ⟨hh, fun hno => ?_⟩
        obtain ⟨r', hr'⟩ := hrf j
        exact absurd hr' (hno r')
    constructor
    · rintro ⟨hc, hall⟩
      refine ⟨?_, fun hno => absurd hr (hno r), ?_⟩
      · intro r' hr'
        rw [row_unique h.once hr' hr]
        exact hc
      · intro i v hv
        have hj : i < a.length := (List.getElem?_eq_some_iff.1 hv).1
        refine ⟨?_, fun hno => ?_⟩
        · have hpx : ∃ x, (padded e a)[i]? = some x := by
            cases e with
            | nil => exact absurd rfl he
            | cons e0 es =>
              have : i < (padded (e0 :: es) a).length := by
                simp only [padded, List.length_append, List.length_replicate, List.length_cons]; omega
              exact ⟨_, List.getElem?_eq_getElem this⟩
          obtain ⟨x, hx⟩ := hpx
          have := hall i x hx
          rw [hv] at this
          simp only [itemOk, Nat.zero_add] at this
          exact (hval i x v hv).1 this
        · obtain ⟨r', hr'⟩ := hrf i
          exact absurd hr' (hno r')
    · rintro ⟨hc, -, hv⟩
      refine ⟨hc r hr, ?_⟩
      intro j x _
      rw [Nat.zero_add]
      cases haj : a[j]? with
      | none =>
        simp only [itemOk]
        rw [ruled_defined h, List.any_eq_true]
        refine ⟨_, hr, ?_⟩
        rw [toVec_value]
        rw [matches_param (h.names _ hr)]
        simp
      | some v =>
        simp only [itemOk]
        exact (hval j x v haj).2 (hv j v haj).1
  · have hno : ∀ r, ((k, none), r) ∉ T := fun r hr => hex ⟨r, hr⟩
    have hd := hp2 hno
    unfold matchQueryValues
    simp only [hd, Bool.false_eq_true, if_false]
    have hee : e.isEmpty = false := by cases e with | nil => exact absurd rfl he | cons => rfl
    rw [hee]
    simp only [Bool.false_and, Bool.false_eq_true, if_false, errs_merge, List.append_eq_nil_iff, compareQueryValues,
      errs_ofList]
    have hlen : errs (if e.length ≠ a.length then (.error [⟨join rootPath k, .length⟩] : Outcome) else .ok ()) = [] ↔
        a.length = e.length := by
      by_cases hl : e.length = a.length
      · simp [hl, errs]
      · rw [if_pos hl]; simp [errs]; exact fun h => hl h.symm
    rw [hlen]
    have hval : ∀ j x v, a[j]? = some v → (isOk (compareQueryValue env (join rootPath k) x v j ctx) = true ↔
        (∀ r', RuleFor T k j r' → ValueOk env r' v) ∧ ((∀ r', ¬ RuleFor T k j r') → x = v)) := by
      intro j x v hv
      have hj : j < a.length := (List.getElem?_eq_some_iff.1 hv).1
      exact value_ok env h k j (by omega) [] _ j (toVec_value k j) x v
    constructor
    · rintro ⟨hq, hl⟩
      rw [queryLoop_values _ _ _ _ _ _ hl.symm] at hq
      refine ⟨fun r hr => absurd hr (hno r), fun _ => hl, ?_⟩
      intro i v hv
      have hi : i < e.length := by rw [← hl]; exact (List.getElem?_eq_some_iff.1 hv).1
      have h1 := hq i _ v (List.getElem?_eq_getElem hi) hv
      rw [Nat.zero_add] at h1
      obtain ⟨h2, h3⟩ := (hval i _ v hv).1 h1
      exact ⟨h2, fun hn => by rw [List.getElem?_eq_getElem hi, h3 hn]⟩
    · rintro ⟨-, hl, hv⟩
      have hl := hl hno
      refine ⟨?_, hl⟩
      rw [queryLoop_values _ _ _ _ _ _ hl.symm]
      intro j x v hx hav
      rw [Nat.zero_add, hval j x v hav]
      obtain ⟨h1, h2⟩ := hv j v hav
      refine ⟨h1, fun hn => ?_⟩
      have := h2 hn
      rw [hx] at this
      exact Option.some.inj this

/-- The comparison of all parameters, in terms of the comparison of each. -/
theorem maps_exact (env : Env) (e a : QueryMap) (ctx : Ctx) (he : NodupKeys e) :
    AllMatched (matchQueryMaps env e a ctx) ↔
      (∀ k, k ∈ e.map (·.1) ↔ k ∈ a.map (·.1)) ∧
      ∀ k vs ws, Json.lookup k e = some vs → Json.lookup k a = some ws →
        errs (matchQueryValues env k (texts vs) (texts ws) ctx) = [] := by
  unfold AllMatched matchQueryMaps
  simp only [List.mem_append, List.mem_map, List.mem_filter]
  constructor
  · intro hall
    refine ⟨?_, ?_⟩
    · intro k
      constructor
      · rintro ⟨⟨k', vs⟩, hm, rfl⟩
        have := hall _ (Or.inl ⟨(k', vs), hm, rfl⟩)
        cases ha : Json.lookup k' a with
        | none => simp [ha] at this
        | some ws => exact ⟨(k', ws), Json.lookup_mem ha, rfl⟩
      · rintro ⟨⟨k', ws⟩, hm, rfl⟩
        cases hk : Json.lookup k' e with
        | some vs => exact ⟨(k', vs), Json.lookup_mem hk, rfl⟩
        | none =>
          have := hall _ (Or.inr ⟨(k', ws), ⟨hm, by simp [Json.hasKey, hk]⟩, rfl⟩)
          simp at this
    · intro k vs ws hk ha
      have := hall _ (Or.inl ⟨(k, vs), Json.lookup_mem hk, rfl⟩)
      simpa [ha] using this
  · rintro ⟨hs, hv⟩ kv (⟨⟨k, vs⟩, hm, rfl⟩ | ⟨⟨k, ws⟩, ⟨hm, hn⟩, rfl⟩)
    · have hk := Json.lookup_of_mem he hm
      cases ha : Json.lookup k a with
      | none =>
        obtain ⟨kv, h1, h2⟩ := (hs k).1 ⟨(k, vs), hm, rfl⟩
        exact absurd (List.mem_map.2 ⟨kv, h1, h2⟩) (lookup_none_iff.1 ha)
      | some ws => simpa using hv k vs ws hk ha
    · exfalso
      simp only [Json.hasKey, Bool.not_eq_true'] at hn
      have h1 : Json.lookup k e = none := by simpa using hn
      obtain ⟨kv, h3, h4⟩ := (hs k).2 ⟨(k, ws), hm, rfl⟩
      exact (lookup_none_iff.1 h1) (List.mem_map.2 ⟨kv, h3, h4⟩)

theorem lookup_form (l : Params) (k : Str) :
    (Json.lookup k (formParams l)).map texts = if formValues l k = [] then none else some (formValues l k) :=
  valuesOf_form l k

theorem mem_form (l : Params) (k : Str) : k ∈ (formParams l).map (·.1) ↔ formValues l k ≠ [] := by
  have h := lookup_form l k
  constructor
  · intro hm e
    rw [if_pos e] at h
    have : Json.lookup k (formParams l) = none := by
      cases hl : Json.lookup k (formParams l) with
      | none => rfl
      | some x => rw [hl] at h; cases h
    exact (lookup_none_iff.1 this) hm
  · intro hne
    rw [if_neg hne] at h
    cases hl : Json.lookup k (formParams l) with
    | none => rw [hl] at h; cases h
    | some x => exact Json.lookup_isSome.1 (by rw [hl]; rfl)

/-- **C100**: forms match iff both have the same parameters, and the values of each are as the rules demand, or, where there
is no rule, as in the example. -/
theorem C100_exact_partial (env : Env) (be : BodyEnv) (e a : Bytes) (ctx : Ctx) (T : Table) (h : Ruled ctx .body T)
    (fe fa : Params) (hfe : be.form e = some fe) (hfa : be.form a = some fa)
    (hl : ∀ k, (formValues fa k).length ≤ usizeLim) :
    matchForm env be e a ctx = [] ↔
      (∀ k, (∃ v, (k, v) ∈ fe) ↔ (∃ v, (k, v) ∈ fa)) ∧
      ∀ k, (∃ v, (k, v) ∈ fe) → Accepted env T k (formValues fe k) (formValues fa k) := by
  have hmem : ∀ (l : Params) (k : Str), formValues l k ≠ [] ↔ ∃ v, (k, v) ∈ l := by
    intro l k
    unfold formValues
    constructor
    · intro hne
      obtain ⟨v, hv⟩ := List.exists_mem_of_ne_nil _ hne
      obtain ⟨⟨k', v'⟩, h1, -⟩ := List.mem_map.1 hv
      obtain ⟨h2, h3⟩ := List.mem_filter.1 h1
      have : k' = k := of_decide_eq_true h3
      exact ⟨v', this ▸ h2⟩
    · rintro ⟨v, hv⟩ he
      have : v ∈ (l.filter fun kv => decide (kv.1 = k)).map (·.2) :=
        List.mem_map.2 ⟨(k, v), List.mem_filter.2 ⟨hv, by simp⟩, rfl⟩
      rw [he] at this
      cases this
  unfold matchForm
  simp only [hfe, hfa]
  rw [flatMap_allMatched, maps_exact env _ _ ctx (formParams_nodup fe)]
  simp only [mem_form, hmem]
  constructor
  · rintro ⟨hs, hv⟩
    refine ⟨hs, fun k hk => ?_⟩
    have h1 := lookup_form fe k
    have h2 := lookup_form fa k
    have hk1 := (hmem fe k).2 hk
    have hk2 := (hmem fa k).2 ((hs k).1 hk)
    rw [if_neg hk1] at h1
    rw [if_neg hk2] at h2
    obtain ⟨vs, hvs, e1⟩ := Option.map_eq_some_iff.1 h1
    obtain ⟨ws, hws, e2⟩ := Option.map_eq_some_iff.1 h2
    have := hv k vs ws hvs hws
    rw [e1, e2, values_exact env h k _ _ hk1 (hl k)] at this
    exact this
  · rintro ⟨hs, hv⟩
    refine ⟨hs, fun k vs ws hvs hws => ?_⟩
    have h1 := lookup_form fe k
    have h2 := lookup_form fa k
    rw [hvs] at h1
    rw [hws] at h2
    have hk1 : formValues fe k ≠ [] := fun e => by rw [if_pos e] at h1; cases h1
    have hk2 : formValues fa k ≠ [] := fun e => by rw [if_pos e] at h2; cases h2
    rw [if_neg hk1] at h1
    rw [if_neg hk2] at h2
    rw [Option.some.inj h1, Option.some.inj h2, values_exact env h k _ _ hk1 (hl k)]
    exact hv k ((hmem fe k).1 hk1)

/-- **C100** in terms of the bytes of the two bodies. -/
theorem C100_bytes_partial (env : Env) (be : BodyEnv) (bad : Bytes → Str) (hb : ∀ b, be.form b = some (parse bad b)) (e a : Bytes)
    (ctx : Ctx) (T : Table) (h : Ruled ctx .body T) (fe fa : Params) (he : Spelled e fe) (ha : Spelled a fa)
    (hl : ∀ k, (formValues fa k).length ≤ usizeLim) :
    matchForm env be e a ctx = [] ↔
      (∀ k, (∃ v, (k, v) ∈ fe) ↔ (∃ v, (k, v) ∈ fa)) ∧
      ∀ k, (∃ v, (k, v) ∈ fe) → Accepted env T k (formValues fe k) (formValues fa k) :=
  C100_exact_partial env be e a ctx T h fe fa (by rw [hb, C99_read bad he]) (by rw [hb, C99_read bad ha]) hl

/-- The same for queries (C45): every parameter of the example has at least one value. -/
theorem C45_query_table (env : Env) (e a : QueryMap) (ctx : Ctx) (T : Table) (h : Ruled ctx .query T)
    (he : NodupKeys e) (hv : ∀ k vs, Json.lookup k e = some vs → vs ≠ [])
    (hl : ∀ k vs, Json.lookup k a = some vs → vs.length ≤ usizeLim) :
    AllMatched (matchQuery env (some e) (some a) ctx) ↔
      (∀ k, valuesOf (some e) k = none ↔ valuesOf (some a) k = none) ∧
      ∀ k vs ws, valuesOf (some e) k = some vs → valuesOf (some a) k = some ws → Accepted env T k vs ws := by
  show AllMatched (matchQueryMaps env e a ctx) ↔ _
  rw [maps_exact env e a ctx he]
  have hn : ∀ (m : QueryMap) k, valuesOf (some m) k = none ↔ k ∉ m.map (·.1) := by
    intro m k
    rw [← lookup_none_iff]
    unfold valuesOf
    simp
  have hs : ∀ (m : QueryMap) k vs, valuesOf (some m) k = some vs ↔ ∃ ws, Json.lookup k m = some ws ∧ texts ws = vs := by
    intro m k vs
    unfold valuesOf
    rw [Option.map_eq_some_iff]
    rfl
  simp only [hn]
  constructor
  · rintro ⟨h1, h2⟩
    refine ⟨fun k => not_congr (h1 k), fun k vs ws g1 g2 => ?_⟩
    obtain ⟨vs', e1, rfl⟩ := (hs e k vs).1 g1
    obtain ⟨ws', e2, rfl⟩ := (hs a k ws).1 g2
    have := h2 k vs' ws' e1 e2
    rw [values_exact env h k _ _ (by simpa [texts] using hv k vs' e1) (by simpa [texts] using hl k ws' e2)] at this
    exact this
  · rintro ⟨h1, h2⟩
    refine ⟨fun k => Decidable.not_iff_not.1 (h1 k), fun k vs ws g1 g2 => ?_⟩
    rw [values_exact env h k _ _ (by simpa [texts] using hv k vs g1) (by simpa [texts] using hl k ws g2)]
    exact h2 k _ _ ((hs e k _).2 ⟨vs, g1, rfl⟩) ((hs a k _).2 ⟨ws, g2, rfl⟩)

/-! ### Non-vacuity and findings -/

/-- The bodies are forms. -/
def formEnv : BodyEnv := { ResultProps.simpleBody with form := fun b => some (parse (fun _ => []) b) }

/-- An integer `id`; the second `tag` contains an `x`. -/
def exTable : Table := [((['i', 'd'], none), .integer), ((['t', 'a', 'g'], some 1), .includes ['x'])]

/-- The rules as a matching context. -/
def tableCtx (c : Category) (T : Table) : Ctx :=
  ⟨⟨c, T.map fun t => (fromTokens (rowTokens t.1), ⟨[t.2], .and, false⟩)⟩, .allowUnexpectedKeys⟩

theorem C100_witness : Ruled (tableCtx .body exTable) .body exTable ∧ Ruled (tableCtx .query exTable) .query exTable := by
  have hn : ∀ t, t ∈ exTable → Name t.1.1 := by
    intro t ht
    simp only [exTable, List.mem_cons, List.mem_nil_iff, or_false] at ht
    rcases ht with rfl | rfl <;> (unfold Name; decide +kernel)
  have ho : (exTable.map (·.1)).Nodup := by decide
  have hk : ∀ t, t ∈ exTable → IsFormRule t.2 := by
    intro t ht
    simp only [exTable, List.mem_cons, List.mem_nil_iff, or_false] at ht
    rcases ht with rfl | rfl <;> exact True.intro
  refine ⟨⟨rfl, hn, ho, hk, Or.inl rfl⟩, ⟨rfl, hn, ho, hk, Or.inr ⟨rfl, ?_⟩⟩⟩
  intro k i r r' h1 h2
  simp only [exTable, List.mem_cons, Prod.mk.injEq, reduceCtorEq, and_false, false_and, List.mem_nil_iff, or_false,
    false_or, and_true] at h1 h2
  rw [h1.1] at h2
  exact absurd h2.1.1 (by decide)

/-- The matching of two texts as forms. -/
def formMatches (T : Table) (e a : String) : Bool :=
  (matchForm Env.simple formEnv (utf8 e.toList) (utf8 a.toList) (tableCtx .body T)).isEmpty

set_option maxRecDepth 100000 in
example : formMatches exTable "id=1&tag=a&tag=x" "tag=a&id=17&tag=%78y&id=4" = true := by decide +kernel
example : formMatches exTable "id=1&tag=a&tag=x" "tag=a&id=17&tag=y" = false := by decide +kernel
example : formMatches exTable "id=1&tag=a&tag=x" "tag=b&id=17&tag=x" = false := by decide +kernel
example : formMatches exTable "id=1&tag=a&tag=x" "tag=a&id=z&tag=x" = false := by decide +kernel
example : formMatches exTable "id=1&tag=a&tag=x" "tag=a&id=1&tag=x&tag=x" = false := by decide +kernel

/-- Finding: for a query parameter with a rule for itself and one for a value, the result depends on the order of a hash map;
for forms it does not. -/
theorem C100_query_order :
    let T : Table := [((['q'], none), .integer), ((['q'], some 0), .includes ['x'])]
    ¬ AllMatched (matchQuery Env.simple (some [(['q'], [some ['x']])]) (some [(['q'], [some ['x']])]) (tableCtx .query T)) ∧
    AllMatched (matchQuery Env.simple (some [(['q'], [some ['x']])]) (some [(['q'], [some ['x']])])
      (tableCtx .query T.reverse)) := by
  have h1 : matchQuery Env.simple (some [(['q'], [some ['x']])]) (some [(['q'], [some ['x']])])
    (tableCtx .query [((['q'], none), .integer), ((['q'], some 0), .includes ['x'])]) =
      [(['q'], [⟨⟨[.root, .field ['q'], .index 0], "$.q[0]".toList⟩, .value⟩])] := by decide +kernel
  have h2 : matchQuery Env.simple (some [(['q'], [some ['x']])]) (some [(['q'], [some ['x']])])
    (tableCtx .query [((['q'], some 0), .includes ['x']), ((['q'], none), .integer)]) = [(['q'], [])] := by decide +kernel
  show ¬ AllMatched (matchQuery Env.simple _ _ (tableCtx .query [((['q'], none), .integer), ((['q'], some 0), .includes ['x'])]))
    ∧ AllMatched (matchQuery Env.simple _ _ (tableCtx .query [((['q'], some 0), .includes ['x']), ((['q'], none), .integer)]))
  rw [h1, h2]
  simp [AllMatched]

end FormProps
end Verif
