import Verif.QueryHeaders
import Verif.Props.LikeProps

/-
  Properties C23 (query parameters without rules) and C45 (a rule on a query parameter applies to every
  value).
-/

set_option autoImplicit false

namespace Verif.QueryProps
open Verif.Path Verif.Rules Verif.Matchers Verif.Compare Verif.Query
open Verif.CompareProps (NoRules noRules_isDefined compareListsWithRules_ok matches_join)

/-- Nothing was reported for any parameter (header). -/
def AllMatched (r : EntryResults) : Prop := ∀ kv ∈ r, kv.2 = []

/-- Something was reported for `k`. -/
def Reported (r : EntryResults) (k : Str) : Prop := ∃ ms, (k, ms) ∈ r ∧ ms ≠ []

/-- Specification: the values of parameter `k`; a parameter without a value counts as one with the empty
value. -/
def valuesOf (m : Option QueryMap) (k : Str) : Option (List Str) :=
  (Json.lookup k (m.getD [])).map (fun vs => vs.map (fun v => v.getD []))

/-- Specification: the same parameters with the same values, in the same order for each parameter. -/
def SameQuery (e a : Option QueryMap) : Prop := ∀ k, valuesOf e k = valuesOf a k

/-- Representation invariant of a hash map: no duplicate keys. -/
def NodupKeys {V : Type} (m : List (Str × V)) : Prop := (m.map (·.1)).Nodup

theorem compareQueryValue_ok (env : Env) (p : DocPath) (e a : Str) (i : Nat) (ctx : Ctx) (h : NoRules ctx) :
    errs (compareQueryValue env p e a i ctx) = [] ↔ e = a := by
  unfold compareQueryValue
  simp only [noRules_isDefined h, Bool.false_eq_true, if_false, strMatches]
  by_cases he : e = a <;> simp [he, errs]

theorem queryLoop_nil (env : Env) (p : DocPath) (ctx : Ctx) (h : NoRules ctx) (a : List Str) :
    ∀ i e, queryLoop env p ctx i e a = [] ↔ ∃ n, a = e ++ List.replicate n [] := by
  induction a with
  | nil =>
    intro i e
    cases e with
    | nil => simp [queryLoop]
    | cons x xs => simp [queryLoop, noRules_isDefined h]
  | cons y ys ih =>
    intro i e
    cases e with
    | nil =>
      simp only [queryLoop, List.append_eq_nil_iff, compareQueryValue_ok _ _ _ _ _ _ h, ih, List.nil_append,
        List.headD_nil, List.tail_nil]
      constructor
      · rintro ⟨rfl, n, hn⟩
        exact ⟨n + 1, by rw [hn]; rfl⟩
      · rintro ⟨n, hn⟩
        cases n with
        | zero => simp at hn
        | succ n =>
          simp only [List.replicate_succ, List.cons.injEq] at hn
          exact ⟨hn.1.symm, n, hn.2⟩
    | cons x xs =>
      simp only [queryLoop, List.append_eq_nil_iff, compareQueryValue_ok _ _ _ _ _ _ h, ih, List.cons_append,
        List.cons.injEq, List.headD_cons, List.tail_cons]
      constructor
      · rintro ⟨rfl, n, hn⟩; exact ⟨n, rfl, hn⟩
      · rintro ⟨n, hn1, hn2⟩; exact ⟨hn1.symm, n, hn2⟩

theorem matchQueryValues_ok (env : Env) (key : Str) (e a : List Str) (ctx : Ctx) (h : NoRules ctx) :
    errs (matchQueryValues env key e a ctx) = [] ↔ e = a := by
  unfold matchQueryValues
  simp only [noRules_isDefined h, Bool.false_eq_true, if_false]
  split
  · rename_i hc
    simp only [Bool.and_eq_true, List.isEmpty_iff, Bool.not_eq_true'] at hc
    obtain ⟨rfl, ha⟩ := hc
    cases a <;> simp_all [errs]
  · simp only [errs_merge, List.append_eq_nil_iff, compareQueryValues, errs_ofList, queryLoop_nil env _ _ h]
    constructor
    · rintro ⟨⟨n, rfl⟩, hl⟩
      by_cases hn : n = 0
      · subst hn; simp
      · simp [hn, errs] at hl
    · rintro rfl
      exact ⟨⟨0, by simp⟩, by simp [errs]⟩

theorem lookup_none_iff {T : Type} {k : Str} {m : List (Str × T)} :
    Json.lookup k m = none ↔ k ∉ m.map (·.1) := by
  rw [← Json.lookup_isSome, Option.not_isSome_iff_eq_none]

theorem matchQueryMaps_ok (env : Env) (e a : QueryMap) (ctx : Ctx) (h : NoRules ctx)
    (he : NodupKeys e) :
    AllMatched (matchQueryMaps env e a ctx) ↔ SameQuery (some e) (some a) := by
  unfold AllMatched matchQueryMaps SameQuery valuesOf
  simp only [List.mem_append, List.mem_map, List.mem_filter, Option.getD_some]
  constructor
  · intro hall k
    cases hk : Json.lookup k e with
    | some vs =>
      have := hall _ (Or.inl ⟨(k, vs), Json.lookup_mem hk, rfl⟩)
      cases ha : Json.lookup k a with
      | none => simp [ha] at this
      | some ws =>
        simp only [ha] at this
        rw [matchQueryValues_ok _ _ _ _ _ h] at this
        simpa [texts] using this
    | none =>
      cases ha : Json.lookup k a with
      | none => rfl
      | some ws =>
        have := hall _ (Or.inr ⟨(k, ws), ⟨Json.lookup_mem ha, by simp [Json.hasKey, hk]⟩, rfl⟩)
        simp at this
  · rintro hs kv (⟨⟨k, vs⟩, hm, rfl⟩ | ⟨⟨k, ws⟩, ⟨hm, hn⟩, rfl⟩)
    · have hk := Json.lookup_of_mem he hm
      have := hs k
      rw [hk] at this
      cases ha : Json.lookup k a with
      | none => simp [ha] at this
      | some ws =>
        simp only [ha, Option.map_some, Option.some.injEq] at this ⊢
        rw [matchQueryValues_ok _ _ _ _ _ h]
        exact this
    · exfalso
      simp only [Json.hasKey, Bool.not_eq_true'] at hn
      have h1 : Json.lookup k e = none := by simpa using hn
      have := hs k
      rw [h1] at this
      have h2 : (Json.lookup k a).isSome = true := Json.lookup_isSome.2 (List.mem_map.2 ⟨_, hm, rfl⟩)
      cases ha : Json.lookup k a with
      | none => simp [ha] at h2
      | some ws => simp [ha] at this

/-- **C23**: without rules, the query comparison finds nothing to report iff both queries have the same
parameters with the same values. -/
theorem C23_no_rules (env : Env) (e a : Option QueryMap) (ctx : Ctx) (h : NoRules ctx)
    (he : NodupKeys (e.getD [])) :
    AllMatched (matchQuery env e a ctx) ↔ SameQuery e a := by
  cases e with
  | some e =>
    cases a with
    | some a => exact matchQueryMaps_ok env e a ctx h he
    | none =>
      constructor
      · intro hall
        cases e with
        | nil => intro k; rfl
        | cons x xs => exact absurd (hall _ (List.mem_map.2 ⟨x, by simp, rfl⟩)) (by simp)
      · intro hs
        cases e with
        | nil => intro kv hkv; simp [matchQuery] at hkv
        | cons x xs =>
          have := hs x.1
          simp [valuesOf, Json.lookup] at this
  | none =>
    cases a with
    | none => exact ⟨fun _ _ => rfl, fun _ kv hkv => by simp [matchQuery] at hkv⟩
    | some a =>
      constructor
      · intro hall
        cases a with
        | nil => intro k; rfl
        | cons x xs => exact absurd (hall _ (List.mem_map.2 ⟨x, by simp, rfl⟩)) (by simp)
      · intro hs
        cases a with
        | nil => intro kv hkv; simp [matchQuery] at hkv
        | cons x xs =>
          have := hs x.1
          simp [valuesOf, Json.lookup] at this

/-- **C23**: whatever the rules, each expected parameter that is missing is reported. -/
theorem C23_missing_reported (env : Env) (e a : Option QueryMap) (ctx : Ctx) (k : Str)
    (hk : k ∈ (e.getD []).map (·.1)) (ha : k ∉ (a.getD []).map (·.1)) :
    Reported (matchQuery env e a ctx) k := by
  cases e with
  | none => simp at hk
  | some e =>
    obtain ⟨kv, hm, rfl⟩ := List.mem_map.1 hk
    cases a with
    | none => exact ⟨_, List.mem_map.2 ⟨kv, hm, rfl⟩, by simp⟩
    | some a =>
      refine ⟨_, List.mem_append.2 (Or.inl (List.mem_map.2 ⟨kv, hm, rfl⟩)), ?_⟩
      rw [lookup_none_iff.2 (show kv.1 ∉ a.map (·.1) from ha)]
      simp

/-- **C23**: whatever the rules, each parameter that is not expected is reported. -/
theorem C23_unexpected_reported (env : Env) (e a : Option QueryMap) (ctx : Ctx) (k : Str)
    (hk : k ∉ (e.getD []).map (·.1)) (ha : k ∈ (a.getD []).map (·.1)) :
    Reported (matchQuery env e a ctx) k := by
  cases a with
  | none => simp at ha
  | some a =>
    obtain ⟨kv, hm, rfl⟩ := List.mem_map.1 ha
    cases e with
    | none => exact ⟨_, List.mem_map.2 ⟨kv, hm, rfl⟩, by simp⟩
    | some e =>
      refine ⟨_, List.mem_append.2 (Or.inr (List.mem_map.2 ⟨kv, List.mem_filter.2 ⟨hm, ?_⟩, rfl⟩)), by simp⟩
      simp [Json.hasKey, lookup_none_iff.2 (show kv.1 ∉ e.map (·.1) from hk)]

/-- **C23**: without rules, nothing else is reported: a reported parameter is missing, unexpected, or has
other values. -/
theorem C23_reported_differs (env : Env) (e a : Option QueryMap) (ctx : Ctx) (h : NoRules ctx)
    (he : NodupKeys (e.getD [])) (k : Str) (hr : Reported (matchQuery env e a ctx) k) :
    valuesOf e k ≠ valuesOf a k := by
  obtain ⟨ms, hm, hms⟩ := hr
  intro heq
  cases e with
  | none =>
    cases a with
    | none => simp [matchQuery] at hm
    | some a =>
      obtain ⟨x, hx, hxe⟩ := List.mem_map.1 hm
      simp only [Prod.mk.injEq] at hxe
      obtain ⟨rfl, rfl⟩ := hxe
      have h2 : (Json.lookup x.1 a).isSome = true := Json.lookup_isSome.2 (List.mem_map.2 ⟨_, hx, rfl⟩)
      cases ha : Json.lookup x.1 a with
      | none => simp [ha] at h2
      | some ws => simp [valuesOf, ha, Json.lookup] at heq
  | some e =>
    cases a with
    | none =>
      obtain ⟨x, hx, hxe⟩ := List.mem_map.1 hm
      simp only [Prod.mk.injEq] at hxe
      obtain ⟨rfl, rfl⟩ := hxe
      have h2 : (Json.lookup x.1 e).isSome = true := Json.lookup_isSome.2 (List.mem_map.2 ⟨_, hx, rfl⟩)
      cases ha : Json.lookup x.1 e with
      | none => simp [ha] at h2
      | some ws => simp [valuesOf, ha, Json.lookup] at heq
    | some a =>
      simp only [valuesOf, Option.getD_some] at heq
      rcases List.mem_append.1 hm with hm | hm
      · obtain ⟨x, hx, hxe⟩ := List.mem_map.1 hm
        simp only [Prod.mk.injEq] at hxe
        obtain ⟨rfl, rfl⟩ := hxe
        rw [Json.lookup_of_mem (show (e.map (·.1)).Nodup from he) hx] at heq
        cases ha : Json.lookup x.1 a with
        | none => simp [ha] at heq
        | some ws =>
          simp only [ha, Option.map_some, Option.some.injEq] at heq hms
          exact hms ((matchQueryValues_ok _ _ _ _ _ h).2 heq)
      · obtain ⟨x, hx, hxe⟩ := List.mem_map.1 hm
        simp only [Prod.mk.injEq] at hxe
        obtain ⟨rfl, rfl⟩ := hxe
        obtain ⟨hx1, hx2⟩ := List.mem_filter.1 hx
        have h2 : (Json.lookup x.1 a).isSome = true := Json.lookup_isSome.2 (List.mem_map.2 ⟨_, hx1, rfl⟩)
        simp only [Json.hasKey, Bool.not_eq_true', Option.isSome_eq_false_iff, Option.isNone_iff_eq_none] at hx2
        cases ha : Json.lookup x.1 a with
        | none => simp [ha] at h2
        | some ws => simp [ha, hx2] at heq

/-! ### C45: a rule on a parameter -/

/-- Rules about a single text value. -/
def IsTextRule : MatchingRule → Prop
  | .regex _ | .number | .integer | .decimal | .date _ | .time _ | .timestamp _ | .includes _ | .boolean
  | .semver | .contentType _ => True
  | _ => False

/-- The table has the single query rule `r`, at the path `q`. -/
def OneQueryRule (ctx : Ctx) (q : DocPath) (r : MatchingRule) (c : Bool) : Prop :=
  ∃ lg, ctx.cat = ⟨.query, [(q, ⟨[r], lg, c⟩)]⟩

theorem oneQuery_best {ctx : Ctx} {q : DocPath} {r : MatchingRule} {c : Bool} (h : OneQueryRule ctx q r c)
    (p : DocPath) (hm : matchesPath q.tokens (toVec p) = true) :
    isDefined ctx p = true ∧ ∃ lg, best ctx p = ⟨[r], lg, c⟩ := by
  obtain ⟨lg, hc⟩ := h
  unfold isDefined best matcherIsDefined selectBestMatcher resolveMatchersForPath filterCat
  rw [hc]
  simp [hm, asRuleList]

theorem textRule_ignores_example (env : Env) (r : MatchingRule) (hr : IsTextRule r) (e e' a : Str) (c : Bool) :
    strMatches env e a r c = strMatches env e' a r c := by
  cases r <;> simp [IsTextRule] at hr <;> rfl

theorem errs_of_ok {r : Outcome} (h : isOk r = true) : errs r = [] := by
  cases r <;> simp_all [errs]

theorem oneQuery_value (env : Env) {ctx : Ctx} {q : DocPath} {r : MatchingRule} {c : Bool}
    (h : OneQueryRule ctx q r c) (hr : IsTextRule r) (p : DocPath)
    (hm : matchesPath q.tokens (toVec p) = true) (e a : Str) (i : Nat) :
    isOk (compareQueryValue env p e a i ctx) = true ↔ strMatches env [] a r c = true := by
  obtain ⟨hd, lg, hb⟩ := oneQuery_best h (join p (natStr i)) (matches_join _ hm)
  unfold compareQueryValue
  simp only [hd, if_true, hb]
  rw [textRule_ignores_example env r hr [] e]
  have := MatcherProps.matchValues_ok_iff (strMatches env e a) ⟨[r], lg, c⟩
  have h2 : matchValues (strMatches env e a) ⟨[r], lg, c⟩ = .ok () ↔ strMatches env e a r c = true := by
    rw [this]; cases lg <;> simp
  rw [← h2]
  split
  · rename_i hok; rw [hok]; exact ⟨fun _ => rfl, fun _ => rfl⟩
  · rename_i hok; rw [hok]; exact ⟨fun h => by simp [isOk] at h, fun h => by cases h⟩

theorem compareQueryValue_consistent (env : Env) (p : DocPath) (e a : Str) (i : Nat) (ctx : Ctx) :
    Consistent (compareQueryValue env p e a i ctx) := by
  unfold compareQueryValue
  simp only
  split
  · split
    · exact consistent_ok
    · rename_i ms hms
      have := MatcherProps.C10_errors _ _ _ hms
      cases ms with
      | nil => exact absurd rfl this.1
      | cons m ms => exact consistent_error _ _
  · split
    · exact consistent_ok
    · exact consistent_error _ _

/-- **C45**: a rule about text on a query parameter (with a non-empty example) accepts a parameter iff every
one of its values satisfies the rule. -/
theorem C45_query_rule_partial (env : Env) (ctx : Ctx) (q : DocPath) (r : MatchingRule) (c : Bool) (key : Str)
    (h : OneQueryRule ctx q r c) (hr : IsTextRule r)
    (hm : matchesPath q.tokens (toVec (join rootPath key)) = true) (e a : List Str) (he : e ≠ []) :
    matchQueryValues env key e a ctx = .ok () ↔ ∀ v ∈ a, strMatches env [] v r c = true := by
  obtain ⟨hd, lg, hb⟩ := oneQuery_best h (join rootPath key) hm
  rw [← isOk_iff]
  unfold matchQueryValues
  simp only [hd, if_true, hb]
  rw [compareListsWithRules_ok]
  have hl : listMatches listEqStr e a r c = true := by
    cases r <;> simp [IsTextRule] at hr <;> rfl
  have hone : isOk (compareListsWithRule listEqStr (fun q e a c => compareQueryValue env q e a 0 c) r
      (join rootPath key) e a (cloneWith ctx ctx.cat) c) = true ↔ ∀ v ∈ a, strMatches env [] v r c = true := by
    have hun : compareListsWithRule listEqStr (fun q e a c => compareQueryValue env q e a 0 c) r
      (join rootPath key) e a (cloneWith ctx ctx.cat) c =
        ofList (matchListContents (fun q e a c => compareQueryValue env q e a 0 c) (join rootPath key) e a ctx) := by
      cases e with
      | nil => exact absurd rfl he
      | cons e0 es =>
        have : cloneWith ctx ctx.cat = ctx := rfl
        rw [this]
        cases r <;> simp [IsTextRule] at hr <;> simp [compareListsWithRule, hl]
    rw [hun, isOk_ofList, List.isEmpty_iff]
    unfold matchListContents
    rw [listContents_nil _ _ _ _ (fun x _ q y c => compareQueryValue_consistent env q x y 0 c)]
    constructor
    · intro hall v hv
      obtain ⟨j, hj, hjv⟩ := List.getElem_of_mem hv
      have hp : ∃ x, (padded e a)[j]? = some x := by
        cases e with
        | nil => exact absurd rfl he
        | cons e0 es =>
          have : j < (padded (e0 :: es) a).length := by
            simp only [padded, List.length_append, List.length_replicate, List.length_cons]; omega
          exact ⟨_, List.getElem?_eq_getElem this⟩
      obtain ⟨x, hx⟩ := hp
      have := hall j x hx
      rw [List.getElem?_eq_getElem hj, hjv] at this
      simp only [itemOk] at this
      exact (oneQuery_value env h hr _ (matches_join _ hm) _ _ 0).1 this
    · intro hall j x hx
      cases ha : a[j]? with
      | none =>
        simp only [itemOk]
        exact (oneQuery_best h _ (matches_join _ hm)).1
      | some v =>
        simp only [itemOk]
        exact (oneQuery_value env h hr _ (matches_join _ hm) _ _ 0).2
          (hall v (List.mem_of_getElem? ha))
  cases lg <;> simp only [ne_eq, reduceCtorEq, not_false_eq_true, List.mem_singleton, forall_eq, exists_eq_left,
      true_and, List.cons_ne_nil] <;> exact hone

/-- Finding: with a rule on the parameter and an empty example list, any values are accepted. -/
theorem C45_empty_example_accepts (env : Env) (ctx : Ctx) (q : DocPath) (r : MatchingRule) (c : Bool)
    (key : Str) (h : OneQueryRule ctx q r c)
    (hm : matchesPath q.tokens (toVec (join rootPath key)) = true) (a : List Str) :
    matchQueryValues env key [] a ctx = .ok () := by
  obtain ⟨hd, lg, hb⟩ := oneQuery_best h (join rootPath key) hm
  rw [← isOk_iff]
  unfold matchQueryValues
  simp only [hd, if_true, hb]
  rw [compareListsWithRules_ok]
  cases lg <;> simp [compareListsWithRule]

/-! ### Non-vacuity -/

/-- A context without rules, as for a request without a `query` section. -/
def plainCtx : Ctx := ⟨⟨.query, []⟩, .noUnexpectedKeys⟩
example : NoRules plainCtx := rfl
example : NodupKeys [("a".toList, [some "1".toList, none]), ("b".toList, [some "2".toList])] := by
  simp [NodupKeys]
example : AllMatched (matchQuery Env.simple
    (some [("a".toList, [some "1".toList, none]), ("b".toList, [some "2".toList])])
    (some [("b".toList, [some "2".toList]), ("a".toList, [some "1".toList, some []])]) plainCtx) := by
  unfold AllMatched; decide +kernel
example : Reported (matchQuery Env.simple (some [("a".toList, [some "1".toList])])
    (some [("a".toList, [some "1".toList]), ("b".toList, [some "2".toList])]) plainCtx) "b".toList :=
  C23_unexpected_reported _ _ _ _ _ (by simp) (by simp)
def ruleCtx : Ctx := ⟨⟨.query, [(pushField rootPath "id".toList, ⟨[.integer], .and, false⟩)]⟩, .noUnexpectedKeys⟩
example : OneQueryRule ruleCtx (pushField rootPath "id".toList) .integer false := ⟨_, rfl⟩
example : matchesPath (pushField rootPath "id".toList).tokens (toVec (join rootPath "id".toList)) = true := by
  decide
example : matchQueryValues Env.simple "id".toList ["1".toList] ["12".toList, "x".toList] ruleCtx ≠ .ok () := by
  decide
example : matchQueryValues Env.simple "id".toList ["1".toList] ["12".toList, "7".toList] ruleCtx = .ok () := by
  decide

end Verif.QueryProps
