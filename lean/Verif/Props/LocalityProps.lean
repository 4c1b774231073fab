import Verif.Props.LikeProps

/-
  Property C69: the comparison of a value at a path depends only on the rules whose paths match that value or
  something below it ("rule locality").
-/

set_option autoImplicit false

namespace Verif.LocalityProps
open Verif.Path Verif.Rules Verif.Matchers Verif.Compare Verif.CompareProps

/-- The entries of the table whose path matches the location `v`. -/
def entriesAt (ctx : Ctx) (v : List Str) : List (DocPath × RuleList) :=
  ctx.cat.rules.filter (fun e => matchesPath e.1.tokens v)

/-- Two matching contexts have the same entries for the location `v` and for everything below it. -/
def AgreeFrom (ctx ctx' : Ctx) (v : List Str) : Prop :=
  ctx.config = ctx'.config ∧ ctx.cat.name = .body ∧ ctx'.cat.name = .body ∧
    ∀ rest, entriesAt ctx (v ++ rest) = entriesAt ctx' (v ++ rest)

theorem AgreeFrom.append {ctx ctx' : Ctx} {v : List Str} (h : AgreeFrom ctx ctx' v) (w : List Str) :
    AgreeFrom ctx ctx' (v ++ w) := by
  obtain ⟨h1, h2, h3, h4⟩ := h
  exact ⟨h1, h2, h3, fun rest => by rw [List.append_assoc]; exact h4 _⟩

theorem AgreeFrom.join {ctx ctx' : Ctx} {p : DocPath} (h : AgreeFrom ctx ctx' (toVec p)) (k : Str) :
    AgreeFrom ctx ctx' (toVec (join p k)) := by
  obtain ⟨s, hs⟩ := toVec_join p k
  rw [hs]; exact h.append _

theorem AgreeFrom.here {ctx ctx' : Ctx} {v : List Str} (h : AgreeFrom ctx ctx' v) :
    entriesAt ctx v = entriesAt ctx' v := by
  have := h.2.2.2 []
  simpa using this

theorem isDefined_body {ctx : Ctx} (hb : ctx.cat.name = .body) (p : DocPath) :
    isDefined ctx p = !(entriesAt ctx (toVec p)).isEmpty := by
  unfold isDefined matcherIsDefined resolveMatchersForPath
  rw [hb]; rfl

theorem best_body {ctx : Ctx} (hb : ctx.cat.name = .body) (p : DocPath) :
    best ctx p = match maxByKey (fun e => score e.1 (toVec p)) (entriesAt ctx (toVec p)) with
      | some e => asCascaded e.2 (decide (e.1.tokens.length ≠ (toVec p).length))
      | none => defaultList := by
  unfold best selectBestMatcher
  rw [hb]
  show maxByPath ctx.cat (toVec p) = _
  unfold maxByPath bestEntry
  have : (fun e : DocPath × RuleList => decide ((pathWeight e.1.tokens (toVec p)).1 > 0)) =
      fun e => matchesPath e.1.tokens (toVec p) := rfl
  rw [this]
  unfold entriesAt
  split
  · rename_i h; rw [h]; simp only [RuleProps.weight_snd]
  · rename_i h; rw [h]

theorem exact_body {ctx : Ctx} (hb : ctx.cat.name = .body) (p : DocPath) :
    (exactMatchers ctx p).rules =
      (entriesAt ctx (toVec p)).filter (fun e => decide (e.1.tokens.length = (toVec p).length)) := by
  unfold exactMatchers
  rw [hb]
  show List.filter _ _ = _
  unfold entriesAt matchesPathExactly
  rw [List.filter_filter]

theorem agree_isDefined {ctx ctx' : Ctx} {p : DocPath} (h : AgreeFrom ctx ctx' (toVec p)) :
    isDefined ctx p = isDefined ctx' p := by
  rw [isDefined_body h.2.1, isDefined_body h.2.2.1, h.here]

theorem agree_best {ctx ctx' : Ctx} {p : DocPath} (h : AgreeFrom ctx ctx' (toVec p)) :
    best ctx p = best ctx' p := by
  rw [best_body h.2.1, best_body h.2.2.1, h.here]

theorem agree_direct {ctx ctx' : Ctx} {p : DocPath} (h : AgreeFrom ctx ctx' (toVec p)) (ns : List String) :
    directMatcherDefined ctx p ns = directMatcherDefined ctx' p ns := by
  have hr : (exactMatchers ctx p).rules = (exactMatchers ctx' p).rules := by
    rw [exact_body h.2.1, exact_body h.2.2.1, h.here]
  unfold directMatcherDefined asRuleList
  simp only [hr]

/-- Two matching contexts choose the same rules for the location `v` and for everything below it. -/
structure SelectFrom (ctx ctx' : Ctx) (v : List Str) : Prop where
  config : ctx.config = ctx'.config
  defined : ∀ p rest, toVec p = v ++ rest → isDefined ctx p = isDefined ctx' p
  best : ∀ p rest, toVec p = v ++ rest → best ctx p = best ctx' p
  directAny : ∀ p rest, toVec p = v ++ rest → directMatcherDefined ctx p [] = directMatcherDefined ctx' p []
  direct : ∀ p rest, toVec p = v ++ rest → directMatcherDefined ctx p ["values", "each-value", "each-key"] =
    directMatcherDefined ctx' p ["values", "each-value", "each-key"]

theorem SelectFrom.join {ctx ctx' : Ctx} {p : DocPath} (h : SelectFrom ctx ctx' (toVec p)) (k : Str) :
    SelectFrom ctx ctx' (toVec (join p k)) := by
  obtain ⟨s, hs⟩ := toVec_join p k
  rw [hs]
  exact ⟨h.config, fun q rest e => h.defined q _ (by rw [e, List.append_assoc]),
    fun q rest e => h.best q _ (by rw [e, List.append_assoc]),
    fun q rest e => h.directAny q _ (by rw [e, List.append_assoc]),
    fun q rest e => h.direct q _ (by rw [e, List.append_assoc])⟩

theorem AgreeFrom.select {ctx ctx' : Ctx} {v : List Str} (h : AgreeFrom ctx ctx' v) : SelectFrom ctx ctx' v :=
  ⟨h.1, fun p rest e => agree_isDefined (by rw [e]; exact h.append rest),
    fun p rest e => agree_best (by rw [e]; exact h.append rest),
    fun p rest e => agree_direct (by rw [e]; exact h.append rest) _,
    fun p rest e => agree_direct (by rw [e]; exact h.append rest) _⟩

theorem select_isDefined {ctx ctx' : Ctx} {p : DocPath} (h : SelectFrom ctx ctx' (toVec p)) :
    isDefined ctx p = isDefined ctx' p := h.defined p [] (by simp)

theorem select_best {ctx ctx' : Ctx} {p : DocPath} (h : SelectFrom ctx ctx' (toVec p)) :
    Compare.best ctx p = Compare.best ctx' p := h.best p [] (by simp)

theorem select_matchKeys (env : Env) {ctx ctx' : Ctx} {p : DocPath} (h : SelectFrom ctx ctx' (toVec p))
    (e a : List Str) : matchKeys env ctx p e a = matchKeys env ctx' p e a := by
  unfold matchKeys keySetMismatches keyRuleMismatches
  rw [h.directAny p [] (by simp), h.direct p [] (by simp), select_best h, h.config]

section loops
variable {T : Type} (cb : Callback T) (p : DocPath) (ctx ctx' : Ctx)

theorem commonLoop_ctx (a : List (Str × T)) : ∀ (e : List (Str × T)),
    (∀ kv ∈ e, ∀ y, cb (join p kv.1) kv.2 y ctx = cb (join p kv.1) kv.2 y ctx') → ∀ acc : Outcome,
    commonLoop cb p a ctx e acc = commonLoop cb p a ctx' e acc := by
  intro e
  induction e with
  | nil => intro _ _; rfl
  | cons kv rest ih =>
    intro h acc
    obtain ⟨k, v⟩ := kv
    simp only [commonLoop]
    cases Json.lookup k a with
    | none => exact ih (fun x hx => h x (List.mem_cons_of_mem _ hx)) _
    | some av =>
      simp only
      rw [h (k, v) List.mem_cons_self av]
      exact ih (fun x hx => h x (List.mem_cons_of_mem _ hx)) _

theorem valuesLoop_ctx (e : List (Str × T))
    (h : ∀ kv ∈ e, ∀ k y, cb (join p k) kv.2 y ctx = cb (join p k) kv.2 y ctx') :
    ∀ (a : List (Str × T)) (acc : Outcome), valuesLoop cb p e ctx a acc = valuesLoop cb p e ctx' a acc := by
  intro a
  induction a with
  | nil => intro _; rfl
  | cons kv rest ih =>
    intro acc
    obtain ⟨k, v⟩ := kv
    simp only [valuesLoop]
    rw [ih]
    congr 1
    cases hl : Json.lookup k e with
    | some ev => simp only [h _ (Json.lookup_mem hl) k v]
    | none =>
      cases e with
      | nil => rfl
      | cons f fs => simp only [h f List.mem_cons_self k v]

theorem listContents_ctx (hd : ∀ i, isDefined ctx (join p (natStr i)) = isDefined ctx' (join p (natStr i))) :
    ∀ (e : List T), (∀ x ∈ e, ∀ (i : Nat) y, cb (join p (natStr i)) x y ctx = cb (join p (natStr i)) x y ctx') →
    ∀ (i : Nat) (a : List T), listContents cb p ctx i e a = listContents cb p ctx' i e a := by
  intro e
  induction e with
  | nil => intro _ i a; cases a <;> rfl
  | cons x xs ih =>
    intro h i a
    have ih := ih (fun y hy => h y (List.mem_cons_of_mem _ hy))
    cases a with
    | nil => simp only [listContents, hd, ih]
    | cons y ys => simp only [listContents, h x List.mem_cons_self, ih]

theorem matchListContents_ctx (e a : List T)
    (hd : ∀ i, isDefined ctx (join p (natStr i)) = isDefined ctx' (join p (natStr i)))
    (h : ∀ x ∈ e, ∀ (i : Nat) y, cb (join p (natStr i)) x y ctx = cb (join p (natStr i)) x y ctx') :
    matchListContents cb p e a ctx = matchListContents cb p e a ctx' :=
  listContents_ctx cb p ctx ctx' hd _ (fun x hx => h x (mem_padded hx)) _ _

end loops

theorem compareListContent_ctx (cb : Callback Json) (p : DocPath) (ctx ctx' : Ctx)
    (hd : ∀ i, isDefined ctx (join p (natStr i)) = isDefined ctx' (join p (natStr i))) :
    ∀ (e : List Json), (∀ x ∈ e, ∀ (i : Nat) y, cb (join p (natStr i)) x y ctx = cb (join p (natStr i)) x y ctx') →
    ∀ (i : Nat) (a : List Json) (acc : Outcome),
      compareListContent cb p ctx i e a acc = compareListContent cb p ctx' i e a acc := by
  intro e
  induction e with
  | nil => intro _ i a acc; cases a <;> rfl
  | cons x xs ih =>
    intro h i a acc
    have ih := ih (fun y hy => h y (List.mem_cons_of_mem _ hy))
    cases a with
    | nil => simp only [compareListContent, hd, ih]
    | cons y ys => simp only [compareListContent, h x List.mem_cons_self, ih]

/-- The result of comparing two values at a path depends only on the rules chosen for that path and the paths below it. -/
theorem C69_selection (env : Env) (ctx ctx' : Ctx) (p : DocPath) (e a : Json)
    (h : SelectFrom ctx ctx' (toVec p)) : compareJson env p e a ctx = compareJson env p e a ctx' := by
  have main : ∀ n, ∀ e : Json, e.depth < n → ∀ p a, SelectFrom ctx ctx' (toVec p) →
      compareJson env p e a ctx = compareJson env p e a ctx' := by
    intro n
    induction n with
    | zero => intro e h; omega
    | succ n ih =>
      intro e hd p a h
      rw [compareJson_eq, compareJson_eq]
      have hdef : ∀ i, isDefined ctx (join p (natStr i)) = isDefined ctx' (join p (natStr i)) :=
        fun i => select_isDefined (h.join _)
      cases e with
      | obj em =>
        cases a with
        | obj am =>
          have hdm : ∀ kv ∈ em, kv.2.depth < n := fun kv hkv => by
            have := Json.depth_mem_entries hkv
            simp only [Json.depth] at hd; omega
          have hcb : ∀ kv ∈ em, ∀ k y, compareJson env (join p k) kv.2 y ctx =
              compareJson env (join p k) kv.2 y ctx' := fun kv hkv k y => ih _ (hdm kv hkv) _ y (h.join k)
          have hcl : ∀ cat, cloneWith ctx cat = cloneWith ctx' cat := by
            intro cat; unfold cloneWith; rw [h.config]
          have hr : ∀ r c, compareMapsWithRule env mapEqJson (compareJson env) r c p em am ctx =
              compareMapsWithRule env mapEqJson (compareJson env) r c p em am ctx' := by
            intro r c
            unfold compareMapsWithRule
            split
            · split
              · rw [hcl]
              · exact valuesLoop_ctx _ _ _ _ _ hcb _ _
            · simp only
              rw [select_matchKeys env h]
              exact commonLoop_ctx _ _ _ _ _ _ (fun kv hkv y => hcb kv hkv _ y) _
          show compareMaps env (compareJson env) p em am ctx = compareMaps env (compareJson env) p em am ctx'
          unfold compareMaps
          simp only [hr, select_isDefined h, select_best h, select_matchKeys env h, h.config,
            commonLoop_ctx (compareJson env) p ctx ctx' am em (fun kv hkv y => hcb kv hkv _ y)]
        | _ => rfl
      | arr el =>
        cases a with
        | arr al =>
          have hdm : ∀ x ∈ el, x.depth < n := fun x hx => by
            have := Json.depth_mem_list hx
            simp only [Json.depth] at hd; omega
          have hcb : ∀ x ∈ el, ∀ (i : Nat) y, compareJson env (join p (natStr i)) x y ctx =
              compareJson env (join p (natStr i)) x y ctx' := fun x hx i y => ih _ (hdm x hx) _ y (h.join _)
          have hcl : ∀ cat, cloneWith ctx cat = cloneWith ctx' cat := by
            intro cat; unfold cloneWith; rw [h.config]
          have hr : ∀ r c, compareListsWithRule listEqJson (compareJson env) r p el al ctx c =
              compareListsWithRule listEqJson (compareJson env) r p el al ctx' c := by
            intro r c
            unfold compareListsWithRule
            have hv : variantMismatches (compareJson env) p el al ctx =
                variantMismatches (compareJson env) p el al ctx' := by
              funext v; unfold variantMismatches; simp only [hcl]
            rw [matchListContents_ctx (compareJson env) p ctx ctx' el al hdef hcb, hv]
            simp only [hcl]
          show compareLists (compareJson env) p el al ctx = compareLists (compareJson env) p el al ctx'
          unfold compareLists compareListsWithRules
          simp only [hr, select_isDefined h, select_best h,
            compareListContent_ctx (compareJson env) p ctx ctx' hdef el hcb]
        | _ => rfl
      | _ =>
        simp only [compareStep, compareValues]
        rw [select_isDefined h, select_best h]
  exact main (e.depth + 1) e (by omega) p a h

/-- **C69**: the result (verdict and mismatches) of comparing two values at a path depends only on the
rules that match that path or a path below it: tables that agree on those give the same result. -/
theorem C69_locality (env : Env) (ctx ctx' : Ctx) (p : DocPath) (e a : Json)
    (h : AgreeFrom ctx ctx' (toVec p)) : compareJson env p e a ctx = compareJson env p e a ctx' :=
  C69_selection env ctx ctx' p e a h.select

/-- **C69**, rules of another branch: a rule whose path differs from the value's path in one of its segments
has no influence on the comparison of the value, wherever in the table it stands. -/
theorem C69_other_branch (env : Env) (before after : List (DocPath × RuleList)) (x : DocPath × RuleList)
    (config : DiffConfig) (p : DocPath) (e a : Json) (i : Nat) (t : PathToken) (s : Str)
    (ht : x.1.tokens[i]? = some t) (hs : (toVec p)[i]? = some s) (hne : ¬ PathProps.SegMatches t s) :
    compareJson env p e a ⟨⟨.body, before ++ x :: after⟩, config⟩ =
      compareJson env p e a ⟨⟨.body, before ++ after⟩, config⟩ := by
  apply C69_locality
  refine ⟨rfl, rfl, rfl, fun rest => ?_⟩
  have hx : matchesPath x.1.tokens (toVec p ++ rest) = false := by
    rw [Bool.eq_false_iff]
    intro hm
    rw [PathProps.C04_matches_path_iff] at hm
    apply hne
    apply hm.1.2 i t s ht
    rw [List.getElem?_append_left (List.getElem?_eq_some_iff.1 hs).1]
    exact hs
  unfold entriesAt
  simp only [List.filter_append, List.filter_cons, hx, Bool.false_eq_true, if_false]

/-- Non-vacuity: a rule for `$.b` is irrelevant at `$.a`. -/
example : (pushField rootPath "b".toList).tokens[1]? = some (.field "b".toList) ∧
    (toVec (join rootPath "a".toList))[1]? = some "a".toList ∧
    ¬ PathProps.SegMatches (.field "b".toList) "a".toList := by
  refine ⟨rfl, by decide, ?_⟩
  intro h
  cases h

/-- The premise matters: a rule for `$.a` does change the comparison at `$.a`. -/
example : compareJson Env.simple (join rootPath "a".toList) (.num (.pos 1)) (.num (.pos 2))
      ⟨⟨.body, [(pushField rootPath "a".toList, ⟨[.type], .and, false⟩)]⟩, .noUnexpectedKeys⟩ ≠
    compareJson Env.simple (join rootPath "a".toList) (.num (.pos 1)) (.num (.pos 2))
      ⟨⟨.body, []⟩, .noUnexpectedKeys⟩ := by decide

end Verif.LocalityProps
