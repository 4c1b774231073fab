import Verif.Props.EngineRequest
import Verif.Props.RuleJsonProps
import Verif.Props.RuleProps

/-
  When a plan can be made for a request: always, if the rules have no references, unless the expected body has a JSON
  content type and is not JSON.
-/
set_option autoImplicit false

namespace Verif
namespace EngineWalk
open Path Rules Matchers Compare Query Headers MatchResult Engine JsonUtils EngineSpec

/-! ### Rules that are used are rules of the table -/

theorem best_mem {ctx : Ctx} {p : DocPath} {r : MatchingRule} (h : r ∈ (best ctx p).rules) :
    ∃ en ∈ ctx.cat.rules, r ∈ en.2.rules := by
  have key : ∀ d : RuleCategory, (∀ en ∈ d.rules, en ∈ ctx.cat.rules) → r ∈ (asRuleList d).rules →
      ∃ en ∈ ctx.cat.rules, r ∈ en.2.rules := by
    intro d hd hr
    rw [asRuleList] at hr
    split at hr
    · cases hr
    · rename_i en es hc
      exact ⟨en, hd en (by rw [hc]; exact List.mem_cons_self ..), hr⟩
  have hres : ∀ en ∈ (resolveMatchersForPath ctx.cat (toVec p)).rules, en ∈ ctx.cat.rules := by
    intro en hen
    rw [resolveMatchersForPath] at hen
    split at hen <;> first | exact hen | exact (List.mem_filter.mp hen).1
  have hmax : r ∈ (maxByPath ctx.cat (toVec p)).rules → ∃ en ∈ ctx.cat.rules, r ∈ en.2.rules := by
    intro hr
    rw [maxByPath] at hr
    split at hr
    · rename_i en hb
      have := (RuleProps.maxByKey_some _ _ _ hb).1
      exact ⟨en, (List.mem_filter.mp this).1, hr⟩
    · cases hr
  unfold best selectBestMatcher at h
  split at h
  · exact hmax h
  · exact hmax h
  · exact key _ hres h

/-- Every rule of a table satisfies a predicate. -/
def TableAll (Q : MatchingRule → Prop) (m : MatchingRules) : Prop :=
  ∀ c ∈ m, ∀ en ∈ c.2.rules, ∀ r ∈ en.2.rules, Q r

theorem best_all {Q : MatchingRule → Prop} {e : Request} (h : TableAll Q e.rules) {c : Category} {p : DocPath} {r : MatchingRule}
    (hr : r ∈ (best (partCtx e c) p).rules) : Q r := by
  obtain ⟨en, hen, hm⟩ := best_mem hr
  unfold partCtx ctxFor rulesForCategory at hen
  cases hf : e.rules.find? (fun e => decide (e.1 = c)) with
  | none =>
    rw [hf] at hen
    cases hen
  | some x =>
    rw [hf] at hen
    exact h x (List.mem_of_find?_eq_some hf) en hen r hm

/-! ### Plans are made -/

/-- No rule that is used has references. -/
def NoRefs (ctx : Ctx) : Prop := ∀ p c, ∀ r ∈ (best ctx p).rules, RuleJson.ruleRefs (ruleFor c r) = false

theorem ruleNodes_total {e a : Node} : ∀ {rs : List MatchingRule}, (∀ r ∈ rs, RuleJson.ruleRefs r = false) → ∃ ns, ruleNodes e a rs = .ok ns
  | [], _ => ⟨_, rfl⟩
  | r :: rs, h => by
    obtain ⟨ns, hns⟩ := ruleNodes_total (e := e) (a := a) (fun r hr => h r (List.mem_cons_of_mem _ hr))
    have h1 : ruleNode e a r = .ok (act (.matcher (MatchingRule.name r).toList) [e, a, val (.json (RuleJson.valuesJson r))]) := by
      rw [ruleNode, h r (List.mem_cons_self ..)]
      rfl
    exact ⟨_, by rw [ruleNodes, h1, Res.bind_ok, hns, Res.map_ok]⟩

theorem rulesNode_total {ctx : Ctx} (h : NoRefs ctx) (e a : Node) (p : DocPath) (coll : Bool) :
    ∃ n, rulesNode e a (best ctx p) coll = .ok n := by
  have hall : ∀ r ∈ (best ctx p).rules.map (ruleFor coll), RuleJson.ruleRefs r = false := by
    intro r hr
    obtain ⟨r0, h0, rfl⟩ := List.mem_map.mp hr
    exact h p coll r0 h0
  rw [rulesNode]
  split
  · rename_i r hr
    have := hall r (by rw [hr]; exact List.mem_cons_self ..)
    exact ⟨_, by rw [ruleNode, this]; rfl⟩
  · obtain ⟨ns, hns⟩ := ruleNodes_total (e := e) (a := a) hall
    exact ⟨_, by rw [hns, Res.map_ok]⟩

theorem pathPlan_total {ctx : Ctx} (h : NoRefs ctx) (e : Request) : ∃ n, pathPlan ctx e = .ok n := by
  rw [pathPlan]
  split
  · obtain ⟨n, hn⟩ := rulesNode_total h (val (.str e.path)) (rsv (partPath "path")) (partPath "path") false
    exact ⟨_, by rw [hn, Res.map_ok]⟩
  · exact ⟨_, rfl⟩

theorem entryCheck_total {ctx : Ctx} (h : NoRefs ctx) (p : DocPath) (k : Str) (vs : List Str) : ∃ n, entryCheck ctx p k vs = .ok n := by
  rw [entryCheck]
  split
  · exact rulesNode_total h _ _ _ _
  · exact ⟨_, rfl⟩

theorem itemNodes_total {A : Type} {f : A → Res Node} (h : ∀ x, ∃ n, f x = .ok n) : ∀ l : List A, ∃ ns, itemNodes f l = .ok ns
  | [] => ⟨_, rfl⟩
  | x :: xs => by
    obtain ⟨n, hn⟩ := h x
    obtain ⟨ns, hns⟩ := itemNodes_total h xs
    exact ⟨_, by rw [itemNodes, hn, Res.bind_ok, hns, Res.map_ok]⟩

theorem queryPlan_total {ctx : Ctx} (h : NoRefs ctx) (e : Request) : ∃ n, queryPlan ctx e = .ok n := by
  have hi : ∀ kv, ∃ n, queryItem ctx kv = .ok n := by
    intro kv
    obtain ⟨n, hn⟩ := entryCheck_total h (partPath "query") kv.1 (texts kv.2)
    exact ⟨_, by rw [queryItem, hn, Res.map_ok]⟩
  rw [queryPlan]
  split
  · exact ⟨_, rfl⟩
  · rename_i q hq
    split
    · exact ⟨_, rfl⟩
    · obtain ⟨ns, hns⟩ := itemNodes_total hi (OMap.collect q)
      exact ⟨_, by simp only [hns, Res.map_ok]; rfl⟩

theorem headerPlan_total {ctx : Ctx} (h : NoRefs ctx) (uc : UC) (e : Request) : ∃ n, headerPlan uc ctx e = .ok n := by
  have hi : ∀ kv, ∃ n, headerItem uc ctx kv = .ok n := by
    intro kv
    obtain ⟨n, hn⟩ := entryCheck_total h (partPath "headers") kv.1 kv.2
    have : ∃ ns, headerChecks uc ctx kv.1 kv.2 = .ok ns := by
      rw [headerChecks]
      split
      · exact ⟨_, by rw [hn, Res.map_ok]⟩
      · split
        · exact ⟨_, rfl⟩
        · exact ⟨_, by rw [hn, Res.map_ok]⟩
    obtain ⟨ns, hns⟩ := this
    exact ⟨_, by rw [headerItem, hns, Res.map_ok]⟩
  rw [headerPlan]
  split
  · exact ⟨_, rfl⟩
  · rename_i q hq
    split
    · exact ⟨_, rfl⟩
    · obtain ⟨ns, hns⟩ := itemNodes_total hi (OMap.collect q)
      exact ⟨_, by simp only [hns, Res.map_ok]; rfl⟩

theorem scalarNodes_total {ctx : Ctx} (h : NoRefs ctx) (p : DocPath) (e : Json) : ∃ ns, scalarNodes ctx p e = .ok ns := by
  rw [scalarNodes]
  split
  · obtain ⟨n, hn⟩ := rulesNode_total h (val (.json e)) (cur p) p false
    exact ⟨_, by rw [hn, Res.map_ok]⟩
  · exact ⟨_, rfl⟩

theorem itemCheck_total {ctx : Ctx} (h : NoRefs ctx) (p : DocPath) (e : Json) : ∃ ns, itemCheck ctx p e = .ok ns := by
  rw [itemCheck]
  split
  · obtain ⟨n, hn⟩ := rulesNode_total h (val (.json e)) (cur p) p false
    exact ⟨_, by rw [hn, Res.map_ok]⟩
  · exact ⟨_, rfl⟩

theorem objectNodes_total {ctx : Ctx} (h : NoRefs ctx) (p : DocPath) (es : List (Str × Json)) : ∃ ns, objectNodes ctx p es = .ok ns := by
  rw [objectNodes]
  simp only []
  split
  · obtain ⟨n, hn⟩ := rulesNode_total h (val (.json (.obj es))) (cur p) p true
    exact ⟨_, by rw [hn, Res.map_ok]⟩
  · split
    · exact ⟨_, rfl⟩
    · exact ⟨_, rfl⟩

mutual
theorem jsonNodes_total {ctx : Ctx} (h : NoRefs ctx) (e : Json) (p : DocPath) : ∃ ns, jsonNodes ctx p e = .ok ns := by
  match e with
  | .arr items =>
    rw [jsonNodes_arr]
    split
    · obtain ⟨n, hn⟩ := rulesNode_total h (val (.json (.arr items))) (cur p) p true
      obtain ⟨ns, hns⟩ := templateNodes_total h items p
      exact ⟨_, by rw [hn, Res.bind_ok, hns, Res.map_ok]⟩
    · obtain ⟨ns, hns⟩ := itemsNodes_total h items p 0
      cases items with
      | nil => exact ⟨_, rfl⟩
      | cons x xs => exact ⟨_, by simp only [hns, Res.map_ok]; rfl⟩
  | .obj es =>
    rw [jsonNodes]
    obtain ⟨n, hn⟩ := objectNodes_total h p es
    obtain ⟨ns, hns⟩ := entriesNodes_total h es p
    exact ⟨_, by rw [hn, Res.bind_ok, hns, Res.map_ok]⟩
  | .null => exact scalarNodes_total h p .null
  | .bool b => exact scalarNodes_total h p (.bool b)
  | .num n => exact scalarNodes_total h p (.num n)
  | .str s => exact scalarNodes_total h p (.str s)
termination_by structural e
theorem templateNodes_total {ctx : Ctx} (h : NoRefs ctx) (items : List Json) (p : DocPath) : ∃ ns, templateNodes ctx p items = .ok ns := by
  cases items with
  | nil => exact ⟨_, rfl⟩
  | cons t ts =>
    rw [templateNodes]
    have : ∃ ns, (if scalar t then itemCheck ctx (pushStarIndex p) t else jsonNodes ctx (pushStarIndex p) t) = .ok ns := by
      split
      · exact itemCheck_total h _ _
      · exact jsonNodes_total h t _
    obtain ⟨ns, hns⟩ := this
    exact ⟨_, by rw [hns, Res.map_ok]⟩
termination_by structural items
theorem itemsNodes_total {ctx : Ctx} (h : NoRefs ctx) (items : List Json) (p : DocPath) (i : Nat) : ∃ ns, itemsNodes ctx p i items = .ok ns := by
  cases items with
  | nil => exact ⟨_, rfl⟩
  | cons t ts =>
    rw [itemsNodes]
    have : ∃ ns, (if scalar t then (itemCheck ctx (joinIndex p i) t).map fun ns => [cont (joinIndex p i).expr ns]
      else (jsonNodes ctx (joinIndex p i) t).map fun _ => []) = .ok ns := by
      split
      · obtain ⟨ns, hns⟩ := itemCheck_total h (joinIndex p i) t
        exact ⟨_, by rw [hns, Res.map_ok]⟩
      · obtain ⟨ns, hns⟩ := jsonNodes_total h t (joinIndex p i)
        exact ⟨_, by rw [hns, Res.map_ok]⟩
    obtain ⟨ns, hns⟩ := this
    obtain ⟨ms, hms⟩ := itemsNodes_total h ts p (i + 1)
    exact ⟨_, by rw [hns, Res.bind_ok, hms, Res.map_ok]⟩
termination_by structural items
theorem entriesNodes_total {ctx : Ctx} (h : NoRefs ctx) (es : List (Str × Json)) (p : DocPath) : ∃ ns, entriesNodes ctx p es = .ok ns := by
  cases es with
  | nil => exact ⟨_, rfl⟩
  | cons e es =>
    rw [entriesNodes]
    obtain ⟨n, hn⟩ := entryNode_total h e p
    obtain ⟨ns, hns⟩ := entriesNodes_total h es p
    exact ⟨_, by rw [hn, Res.bind_ok, hns, Res.map_ok]⟩
termination_by structural es
theorem entryNode_total {ctx : Ctx} (h : NoRefs ctx) (e : Str × Json) (p : DocPath) : ∃ n, entryNode ctx p e = .ok n := by
  cases e with
  | mk k v =>
    rw [entryNode]
    obtain ⟨ns, hns⟩ := jsonNodes_total h v (pushField p k)
    exact ⟨_, by rw [hns, Res.map_ok]⟩
termination_by structural e
end

/-- The expected body has a JSON content type, but is not JSON. -/
def Unreadable (B : BP) (e : Request) : Prop :=
  (declaredType B e).isJson = true ∧ ∃ b ct, e.part.body = .present b ct ∧ B.P.parseBytes b = none

theorem bodyPlan_total {B : BP} {ctx : Ctx} (h : NoRefs ctx) {e : Request}
    (ht : (declaredType B e).isJson = true ∨ (declaredType B e).isXml = false) (hu : ¬ Unreadable B e) : ∃ n, bodyPlan B ctx e = .ok n := by
  rw [bodyPlan, expectedType_eq]
  split
  · exact ⟨_, rfl⟩
  · exact ⟨_, rfl⟩
  · exact ⟨_, rfl⟩
  · rename_i b ct hb
    have : ∃ n, contentPlan B ctx (declaredType B e) b = .ok n := by
      rw [contentPlan]
      split
      · rename_i hj
        rw [jsonPlan]
        cases hp : B.P.parseBytes b with
        | none => exact absurd ⟨hj, b, ct, hb, hp⟩ hu
        | some j =>
          obtain ⟨ns, hns⟩ := jsonNodes_total h j rootPath
          exact ⟨_, by simp only [hns, Res.map_ok]; rfl⟩
      · rename_i hj
        rcases ht with ht | ht
        · exact absurd ht hj
        · rw [ht]
          exact ⟨_, rfl⟩
    obtain ⟨n, hn⟩ := this
    exact ⟨_, by simp only [hn, Res.map_ok]; rfl⟩

theorem bodyPlan_unreadable {B : BP} {ctx : Ctx} {e : Request} (hu : Unreadable B e) : bodyPlan B ctx e = .err := by
  obtain ⟨hj, b, ct, hb, hp⟩ := hu
  rw [bodyPlan, expectedType_eq, hb]
  simp only [contentPlan, hj, if_true, jsonPlan, hp, Res.map_err]

theorem requestPlan_total {B : BP} {e : Request} (h1 : NoRefs (partCtx e .path)) (h2 : NoRefs (partCtx e .query))
    (h3 : NoRefs (partCtx e .header)) (h4 : NoRefs (partCtx e .body))
    (ht : (declaredType B e).isJson = true ∨ (declaredType B e).isXml = false) (hu : ¬ Unreadable B e) : ∃ n, requestPlan B e = .ok n := by
  obtain ⟨n1, e1⟩ := pathPlan_total h1 e
  obtain ⟨n2, e2⟩ := queryPlan_total h2 e
  obtain ⟨n3, e3⟩ := headerPlan_total h3 B.P.uc e
  obtain ⟨n4, e4⟩ := bodyPlan_total h4 ht hu
  exact ⟨_, by rw [requestPlan, e1, Res.bind_ok, e2, Res.bind_ok, e3, Res.bind_ok, e4, Res.map_ok]⟩

theorem requestPlan_unreadable {B : BP} {e : Request} (h1 : NoRefs (partCtx e .path)) (h2 : NoRefs (partCtx e .query))
    (h3 : NoRefs (partCtx e .header)) (hu : Unreadable B e) : requestPlan B e = .err := by
  obtain ⟨n1, e1⟩ := pathPlan_total h1 e
  obtain ⟨n2, e2⟩ := queryPlan_total h2 e
  obtain ⟨n3, e3⟩ := headerPlan_total h3 B.P.uc e
  rw [requestPlan, e1, Res.bind_ok, e2, Res.bind_ok, e3, Res.bind_ok, bodyPlan_unreadable hu, Res.map_err]

/-! ### Rules that can be written -/

theorem writable_single {uc : UC} {r : MatchingRule} (c : Bool) (h : RuleJsonProps.Writable uc r) : RuleJsonProps.Writable uc (ruleFor c r) := by
  cases c with
  | true => exact h
  | false => cases r <;> first | exact h | exact trivial

/-- What is left of a rule in the plan: a rule for a number range is not recreated, the variants of array-contains
are replaced by equality. -/
theorem recreate_safe {P : RuleJson.Params} {r : MatchingRule} (h : RuleJsonProps.Writable P.uc r) : RuleJson.recreate P r ≠ .panic := by
  intro hp
  by_cases h1 : ∃ n m, r = .minMaxType n m
  · obtain ⟨n, m, rfl⟩ := h1
    rw [RuleJsonProps.C66_min_max_fails] at hp
    cases hp
  · by_cases h2 : ∃ vs, r = .arrayContains vs
    · obtain ⟨vs, rfl⟩ := h2
      rw [RuleJsonProps.C66_array_contains_fails] at hp
      cases hp
    · rw [RuleJsonProps.C66_recreate_partial P r h (fun n m hh => h1 ⟨n, m, hh⟩) (fun vs hh => h2 ⟨vs, hh⟩)] at hp
      cases hp

theorem noRefs_table {uc : UC} {e : Request} (h : TableAll (RuleJsonProps.Writable uc) e.rules) (c : Category) : NoRefs (partCtx e c) :=
  fun _ coll _ hr => RuleJsonProps.no_refs uc _ (writable_single coll (best_all h hr))

theorem safe_table {P : EP} {e : Request} (h : TableAll (RuleJsonProps.Writable P.rules.uc) e.rules) (c : Category) : RulesSafe P (partCtx e c) :=
  fun _ coll _ hr => recreate_safe (writable_single coll (best_all h hr))

end EngineWalk
end Verif
