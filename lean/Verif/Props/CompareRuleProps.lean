import Verif.Props.CompareProps

/-
  Properties C17, C18, C21, C22: comparison of JSON documents with matching rules.
-/

set_option autoImplicit false

namespace Verif.CompareProps
open Verif.Path Verif.Rules Verif.Matchers Verif.Compare

/-! ### C17: leniency is monotone -/

/-- The strict context with the given rules. -/
def strictCtx (cat : RuleCategory) : Ctx := ⟨cat, .noUnexpectedKeys⟩
/-- The lenient context with the given rules. -/
def lenientCtx (cat : RuleCategory) : Ctx := ⟨cat, .allowUnexpectedKeys⟩

/-- The callback accepts in lenient mode whatever it accepts in strict mode. -/
def MonoCb {T : Type} (cb : Callback T) (x : T) : Prop :=
  ∀ q y cat, isOk (cb q x y (strictCtx cat)) = true → isOk (cb q x y (lenientCtx cat)) = true

theorem matchKeys_mono (env : Env) (cat : RuleCategory) (p : DocPath) (e a : List Str)
    (h : isOk (matchKeys env (strictCtx cat) p e a) = true) :
    isOk (matchKeys env (lenientCtx cat) p e a) = true := by
  unfold matchKeys at *
  rw [isOk_ofList, List.isEmpty_iff, List.append_eq_nil_iff] at *
  refine ⟨?_, h.2⟩
  have h1 := h.1
  unfold keySetMismatches at *
  have hd : directMatcherDefined (strictCtx cat) p ["values", "each-value", "each-key"] =
      directMatcherDefined (lenientCtx cat) p ["values", "each-value", "each-key"] := rfl
  rw [← hd]
  split
  · rfl
  · rename_i hn
    rw [if_neg hn] at h1
    simp only [strictCtx, lenientCtx] at h1 ⊢
    split at h1
    · rename_i he; subst he; simp
    · simp at h1

theorem compareMapsWithRule_mono {T : Type} (env : Env) (eq) (cb : Callback T) (rule : MatchingRule)
    (cascaded : Bool) (p : DocPath) (e a : List (Str × T)) (cat : RuleCategory)
    (hc : ∀ x ∈ e, MonoCb cb x.2)
    (h : isOk (compareMapsWithRule env eq cb rule cascaded p e a (strictCtx cat)) = true) :
    isOk (compareMapsWithRule env eq cb rule cascaded p e a (lenientCtx cat)) = true := by
  have hval : ∀ x k, valueFor e k = some x → MonoCb cb x := by
    intro x k hx
    unfold valueFor at hx
    split at hx
    · rename_i v hl
      have hx : v = x := by simpa using hx
      subst hx
      exact hc _ (Json.lookup_mem hl)
    · cases e with
      | nil => simp at hx
      | cons z zs =>
        have hx : z.2 = x := by simpa using hx
        subst hx
        exact hc z (by simp)
  unfold compareMapsWithRule at *
  split
  · rename_i hb
    rw [if_pos hb] at h
    split
    · rename_i d
      simp only at h
      rw [valuesLoop_ok] at *
      exact ⟨h.1, fun kv hkv x hx => hval x _ hx _ _ _ (h.2 kv hkv x hx)⟩
    · rename_i hne
      split at h
      · rename_i d; exact absurd rfl (hne d)
      · rw [valuesLoop_ok] at *
        exact ⟨h.1, fun kv hkv x hx => hval x _ hx _ _ _ (h.2 kv hkv x hx)⟩
  · rename_i hb
    rw [if_neg hb] at h
    rw [commonLoop_ok, mergeResult_isOk, Bool.and_eq_true] at *
    exact ⟨⟨h.1.1, matchKeys_mono env cat p _ _ h.1.2⟩,
      fun kv hkv y hy => hc kv hkv _ _ _ (h.2 kv hkv y hy)⟩

theorem itemOk_mono {T : Type} (cb : Callback T) (p : DocPath) (cat : RuleCategory) (j : Nat) (x : T)
    (o : Option T) (hc : MonoCb cb x) (h : itemOk cb p (strictCtx cat) j x o) :
    itemOk cb p (lenientCtx cat) j x o := by
  cases o with
  | none => exact h
  | some y => exact hc _ _ _ h

theorem matchListContents_mono {T : Type} (cb : Callback T) (p : DocPath) (e a : List T) (cat : RuleCategory)
    (hcons : ∀ x ∈ e, ∀ q y c, Consistent (cb q x y c)) (hc : ∀ x ∈ e, MonoCb cb x)
    (h : matchListContents cb p e a (strictCtx cat) = []) :
    matchListContents cb p e a (lenientCtx cat) = [] := by
  unfold matchListContents at *
  have hcons' : ∀ x ∈ padded e a, ∀ q y c, Consistent (cb q x y c) := fun x hx => hcons x (mem_padded hx)
  rw [listContents_nil _ _ _ _ hcons'] at *
  exact fun j x hx => itemOk_mono _ _ _ _ _ _ (hc x (mem_padded (List.mem_of_getElem? hx))) (h j x hx)

theorem variantMismatches_mono {T : Type} (cb : Callback T) (p : DocPath) (e a : List T) (cat : RuleCategory)
    (v : Nat × RuleCategory) (hc : ∀ x ∈ e, MonoCb cb x)
    (h : variantMismatches cb p e a (strictCtx cat) v = []) :
    variantMismatches cb p e a (lenientCtx cat) v = [] := by
  unfold variantMismatches at *
  split
  · rename_i ev hev
    rw [hev] at h
    simp only at h
    split at h
    · rename_i hany
      rw [if_pos]
      rw [List.any_eq_true] at *
      obtain ⟨av, h1, h2⟩ := hany
      exact ⟨av, h1, hc ev (List.mem_of_getElem? hev) _ _ _ h2⟩
    · simp at h
  · rename_i hev
    rw [hev] at h; simp at h

theorem compareListsWithRule_mono {T : Type} (eq) (cb : Callback T) (rule : MatchingRule) (p : DocPath)
    (e a : List T) (cat : RuleCategory) (cascaded : Bool)
    (hcons : ∀ x ∈ e, ∀ q y c, Consistent (cb q x y c)) (hc : ∀ x ∈ e, MonoCb cb x)
    (h : isOk (compareListsWithRule eq cb rule p e a (strictCtx cat) cascaded) = true) :
    isOk (compareListsWithRule eq cb rule p e a (lenientCtx cat) cascaded) = true := by
  unfold compareListsWithRule at *
  split
  · rfl
  · rename_i hb
    rw [if_neg hb] at h
    split
    · simp only at h
      rw [isOk_ofList, List.isEmpty_iff, List.flatMap_eq_nil_iff] at *
      exact fun v hv => variantMismatches_mono _ _ _ _ _ _ hc (h v hv)
    · simp only at h
      split
      · rfl
      · rename_i hcas
        rw [if_neg hcas] at h
        rw [isOk_ofList, List.isEmpty_iff, List.append_eq_nil_iff] at *
        exact ⟨h.1, matchListContents_mono _ _ _ _ _ hcons hc h.2⟩
    · rename_i r hna hne
      split at h
      · exact absurd rfl (hna _)
      · exact absurd rfl (hne _)
      · rw [isOk_ofList, List.isEmpty_iff, List.append_eq_nil_iff] at *
        exact ⟨h.1, matchListContents_mono _ _ _ _ _ hcons hc h.2⟩

theorem compareListsWithRules_ok {T : Type} (eq) (cb : Callback T) (rl : RuleList) (p : DocPath)
    (e a : List T) (ctx : Ctx) :
    isOk (compareListsWithRules eq cb rl p e a ctx) = true ↔ rl.rules ≠ [] ∧
      match rl.logic with
      | .and => ∀ r ∈ rl.rules, isOk (compareListsWithRule eq cb r p e a ctx rl.cascaded) = true
      | .or => ∃ r ∈ rl.rules, isOk (compareListsWithRule eq cb r p e a ctx rl.cascaded) = true := by
  have hcon := fun r => compareListsWithRule_consistent eq cb r p e a ctx rl.cascaded
  unfold compareListsWithRules
  split
  · rename_i h
    simp only [List.isEmpty_iff] at h
    simp [h]
  · rename_i h
    simp only [List.isEmpty_iff] at h
    have hnil : ((rl.rules.map (fun r => compareListsWithRule eq cb r p e a ctx rl.cascaded)).flatMap errs) = []
        ↔ ∀ r ∈ rl.rules, isOk (compareListsWithRule eq cb r p e a ctx rl.cascaded) = true := by
      rw [List.flatMap_eq_nil_iff]
      simp only [List.mem_map, forall_exists_index, and_imp, forall_apply_eq_imp_iff₂]
      constructor
      · exact fun h r hr => (hcon r).isOk_iff.2 (h r hr)
      · exact fun h r hr => (hcon r).isOk_iff.1 (h r hr)
    simp only
    cases rl.logic with
    | and => simp [h, hnil]
    | or =>
      simp only
      split
      · rename_i hall
        rw [isOk_ofList, List.isEmpty_iff, hnil]
        simp only [List.all_map, List.all_eq_true, Function.comp, Bool.not_eq_true'] at hall
        obtain ⟨r, hr⟩ := List.exists_mem_of_ne_nil _ h
        constructor
        · intro h'; exact absurd (h' r hr) (by simp [hall r hr])
        · rintro ⟨_, s, hs, h'⟩; exact absurd h' (by simp [hall s hs])
      · rename_i hall
        simp only [isOk_ok, true_iff]
        refine ⟨h, ?_⟩
        simp only [List.all_map, List.all_eq_true, Function.comp, Bool.not_eq_true',
          Classical.not_forall] at hall
        obtain ⟨r, hr, h'⟩ := hall
        exact ⟨r, hr, by simpa using h'⟩

theorem compareStep_mono (env : Env) (cb : Callback Json) (p : DocPath) (e a : Json) (cat : RuleCategory)
    (hcons : ∀ x, x.depth < e.depth → ∀ q y c, Consistent (cb q x y c))
    (hc : ∀ x, x.depth < e.depth → MonoCb cb x)
    (h : isOk (compareStep env cb p e a (strictCtx cat)) = true) :
    isOk (compareStep env cb p e a (lenientCtx cat)) = true := by
  cases e with
  | obj em =>
    have hm : ∀ x ∈ em, MonoCb cb x.2 := fun x hx => hc x.2 (by
      have := Json.depth_mem_entries hx
      simp only [Json.depth]; omega)
    cases a <;> simp only [compareStep] at h ⊢ <;> try (simp at h; done)
    rename_i am
    unfold compareMaps at *
    split at h
    · simp at h
    · rw [if_neg (by simp [lenientCtx])]
      have hd : isDefined (strictCtx cat) p = isDefined (lenientCtx cat) p := rfl
      rw [← hd]
      split
      · rename_i hdef
        rw [if_pos hdef] at h
        simp only at h ⊢
        rw [foldl_isOk (fun r => compareMapsWithRule env mapEqJson cb r _ p em am _)] at h ⊢
        exact ⟨rfl, fun r hr => compareMapsWithRule_mono env _ cb r _ p em am cat hm (h.2 r hr)⟩
      · rename_i hdef
        rw [if_neg hdef] at h
        rw [commonLoop_ok, mergeResult_isOk, Bool.and_eq_true] at *
        exact ⟨⟨rfl, matchKeys_mono env cat p _ _ h.1.2⟩,
          fun kv hkv y hy => hm kv hkv _ _ _ (h.2 kv hkv y hy)⟩
  | arr el =>
    have hm : ∀ x ∈ el, MonoCb cb x := fun x hx => hc x (by
      have := Json.depth_mem_list hx
      simp only [Json.depth]; omega)
    have hk : ∀ x ∈ el, ∀ q y c, Consistent (cb q x y c) := fun x hx => hcons x (by
      have := Json.depth_mem_list hx
      simp only [Json.depth]; omega)
    cases a <;> simp only [compareStep] at h ⊢ <;> try (simp at h; done)
    rename_i al
    unfold compareLists at *
    have hd : isDefined (strictCtx cat) p = isDefined (lenientCtx cat) p := rfl
    have hb : best (lenientCtx cat) p = best (strictCtx cat) p := rfl
    rw [← hd, hb]
    split
    · rename_i hdef
      rw [if_pos hdef] at h
      rw [compareListsWithRules_ok] at *
      refine ⟨h.1, ?_⟩
      have h2 := h.2
      generalize (best (strictCtx cat) p).logic = lg at *
      cases lg with
      | and => exact fun r hr => compareListsWithRule_mono _ _ r _ _ _ _ _ hk hm (h2 r hr)
      | or =>
        obtain ⟨r, hr, h'⟩ := h2
        exact ⟨r, hr, compareListsWithRule_mono _ _ r _ _ _ _ _ hk hm h'⟩
    · rename_i hdef
      rw [if_neg hdef] at h
      split
      · rename_i he; rw [if_pos he] at h; simp at h
      · rename_i he
        rw [if_neg he] at h
        simp only at h ⊢
        split
        · rename_i hl
          rw [if_pos hl] at h; simp at h
        · rename_i hl
          rw [if_neg hl] at h
          rw [compareListContent_ok] at *
          exact ⟨rfl, fun j x hx => itemOk_mono _ _ _ _ _ _ (hm x (List.mem_of_getElem? hx)) (h.2 j x hx)⟩
  | _ => exact h

/-- **C17**: with any rules, any actual document accepted in strict mode (no unexpected keys) is accepted in
lenient mode. -/
theorem C17_lenient_monotone (env : Env) (cat : RuleCategory) (p : DocPath) (e a : Json)
    (h : compareJson env p e a ⟨cat, .noUnexpectedKeys⟩ = .ok ()) :
    compareJson env p e a ⟨cat, .allowUnexpectedKeys⟩ = .ok () := by
  have main : ∀ n, ∀ e : Json, e.depth < n → MonoCb (compareJson env) e := by
    intro n
    induction n with
    | zero => intro e h; omega
    | succ n ih =>
      intro e hd q y cat h
      rw [compareJson_eq] at *
      exact compareStep_mono env _ q e y cat (fun x _ q y c => compareJson_consistent env q x y c)
        (fun x hx => ih x (by omega)) h
  rw [← isOk_iff] at *
  exact main (e.depth + 1) e (by omega) p a cat h

/-- Non-vacuity: with a type rule on `$.a`, a strict acceptance of a different document. -/
example : compareJson Env.simple rootPath
    (.obj [("a".toList, .num (.pos 1))]) (.obj [("a".toList, .num (.pos 2))])
    ⟨⟨.body, [(pushField rootPath "a".toList, ⟨[.type], .and, false⟩)]⟩, .noUnexpectedKeys⟩ = .ok () := by
  decide

/-! ### The rule list selected for a path -/

/-- If a non-empty rule list is selected then a matcher is defined. -/
theorem best_defined (ctx : Ctx) (p : DocPath) (h : (best ctx p).rules ≠ []) : isDefined ctx p = true := by
  unfold best selectBestMatcher at h
  unfold isDefined matcherIsDefined
  have other : (asRuleList (resolveMatchersForPath ctx.cat (toVec p))).rules ≠ [] →
      (!(resolveMatchersForPath ctx.cat (toVec p)).rules.isEmpty) = true := by
    intro h
    unfold asRuleList at h
    split at h
    · simp [defaultList, emptyList] at h
    · rename_i heq; rw [heq]; rfl
  have bodyLike : (resolveMatchersForPath ctx.cat (toVec p)) =
        filterCat ctx.cat (fun e => Path.matchesPath e.1.tokens (toVec p)) →
      (maxByPath ctx.cat (toVec p)).rules ≠ [] →
      (!(resolveMatchersForPath ctx.cat (toVec p)).rules.isEmpty) = true := by
    intro hr h
    unfold maxByPath at h
    split at h
    · rename_i en hen
      have := RuleProps.maxByKey_some _ _ _ hen
      have hm := (List.mem_filter.1 this.1)
      rw [hr, Bool.not_eq_true', ← Bool.not_eq_true, List.isEmpty_iff]
      intro hnil
      have : en ∈ (filterCat ctx.cat (fun e => Path.matchesPath e.1.tokens (toVec p))).rules :=
        List.mem_filter.2 ⟨hm.1, by simpa [Path.matchesPath] using hm.2⟩
      rw [hnil] at this; simp at this
    · simp [defaultList, emptyList] at h
  cases hn : ctx.cat.name <;> simp only [hn] at h <;>
    first
    | exact other h
    | exact bodyLike (by unfold resolveMatchersForPath; simp only [hn]) h

/-! ### C18: arrayContains -/

/-- Specification of C18: under the rule `variants`, every variant names an expected item and some actual
item matches it under the rules of the variant (compared as a document of its own). -/
def EveryVariantOccurs (env : Env) (config : DiffConfig) (variants : List (Nat × RuleCategory))
    (e a : List Json) : Prop :=
  ∀ v ∈ variants, ∃ ev, e[v.1]? = some ev ∧
    ∃ av ∈ a, compareJson env rootPath ev av ⟨v.2, config⟩ = .ok ()

/-- The variants of a rule; with none given, each expected item by equality. -/
def variantsOf (vs : List Variant) (e : List Json) : List (Nat × RuleCategory) :=
  match vs with
  | [] => (List.range e.length).map (fun i => (i, ⟨.body, [(Path.empty, ⟨[.equality], .and, false⟩)]⟩))
  | _ :: _ => vs.map (fun v => (v.index, v.rules))

/-- **C18**: where the selected rule is arrayContains and the expected list is not empty, the actual list is
accepted iff every variant occurs in it. -/
theorem C18_array_contains_partial (env : Env) (ctx : Ctx) (p : DocPath) (vs : List Variant) (lg : RuleLogic)
    (c : Bool) (e a : List Json) (hb : best ctx p = ⟨[.arrayContains vs], lg, c⟩) (he : e ≠ []) :
    compareJson env p (.arr e) (.arr a) ctx = .ok () ↔
      EveryVariantOccurs env ctx.config (variantsOf vs e) e a := by
  have hd : isDefined ctx p = true := best_defined ctx p (by simp [hb])
  have hne : e.isEmpty = false := by cases e <;> simp_all
  have hv : effectiveVariants vs e = variantsOf vs e := by
    cases vs <;> simp [effectiveVariants, variantsOf, equalityCat]
  rw [← isOk_iff, compareJson_eq]
  simp only [compareStep, compareLists, hd, if_true, hb]
  rw [compareListsWithRules_ok]
  have hone : isOk (compareListsWithRule listEqJson (compareJson env) (.arrayContains vs) p e a ctx c) = true ↔
      EveryVariantOccurs env ctx.config (variantsOf vs e) e a := by
    unfold compareListsWithRule
    simp only [hne, Bool.false_eq_true, if_false]
    rw [isOk_ofList, List.isEmpty_iff, List.flatMap_eq_nil_iff, hv]
    unfold EveryVariantOccurs
    constructor
    · intro h v hvm
      have := h v hvm
      unfold variantMismatches at this
      split at this
      · rename_i ev hev
        refine ⟨ev, hev, ?_⟩
        split at this
        · rename_i hany
          obtain ⟨av, h1, h2⟩ := List.any_eq_true.1 hany
          exact ⟨av, h1, (isOk_iff _).1 h2⟩
        · simp at this
      · simp at this
    · intro h v hvm
      obtain ⟨ev, hev, av, h1, h2⟩ := h v hvm
      unfold variantMismatches
      rw [hev]
      simp only
      rw [if_pos]
      exact List.any_eq_true.2 ⟨av, h1, (isOk_iff _).2 h2⟩
  cases lg <;> simp [hone]

/-- **C18**: hence acceptance does not depend on the order of the actual elements ... -/
theorem C18_order_irrelevant (env : Env) (ctx : Ctx) (p : DocPath) (vs : List Variant) (lg : RuleLogic)
    (c : Bool) (e a a' : List Json) (hb : best ctx p = ⟨[.arrayContains vs], lg, c⟩) (he : e ≠ [])
    (hp : a.Perm a') :
    compareJson env p (.arr e) (.arr a) ctx = .ok () ↔ compareJson env p (.arr e) (.arr a') ctx = .ok () := by
  rw [C18_array_contains_partial env ctx p vs lg c e a hb he, C18_array_contains_partial env ctx p vs lg c e a' hb he]
  unfold EveryVariantOccurs
  simp only [hp.mem_iff]

/-- **C18**: ... and is preserved by adding elements anywhere. -/
theorem C18_superset (env : Env) (ctx : Ctx) (p : DocPath) (vs : List Variant) (lg : RuleLogic)
    (c : Bool) (e a a' : List Json) (hb : best ctx p = ⟨[.arrayContains vs], lg, c⟩) (he : e ≠ [])
    (hs : ∀ x ∈ a, x ∈ a') (h : compareJson env p (.arr e) (.arr a) ctx = .ok ()) :
    compareJson env p (.arr e) (.arr a') ctx = .ok () := by
  rw [C18_array_contains_partial env ctx p vs lg c _ _ hb he] at *
  intro v hv
  obtain ⟨ev, h1, av, h2, h3⟩ := h v hv
  exact ⟨ev, h1, av, hs av h2, h3⟩

/-- Finding: with an empty expected list the array-contains rule (like every rule but an empty list of
rules) accepts any list, even if a variant is demanded. -/
theorem C18_empty_expected_accepts (env : Env) (ctx : Ctx) (p : DocPath) (a : List Json)
    (h : (best ctx p).rules ≠ []) : compareJson env p (.arr []) (.arr a) ctx = .ok () := by
  rw [← isOk_iff, compareJson_eq]
  simp only [compareStep, compareLists, best_defined ctx p h, if_true]
  rw [compareListsWithRules_ok]
  refine ⟨h, ?_⟩
  cases (best ctx p).logic with
  | and => intro r _; simp [compareListsWithRule]
  | or =>
    obtain ⟨r, hr⟩ := List.exists_mem_of_ne_nil _ h
    exact ⟨r, hr, by simp [compareListsWithRule]⟩

/-- A table with an array-contains rule at `$`: the first item by type, the second by equality. -/
def acCtx : Ctx := ⟨⟨.body, [(rootPath, ⟨[.arrayContains
  [⟨0, ⟨.body, [(rootPath, ⟨[.type], .and, false⟩)]⟩, []⟩,
   ⟨1, ⟨.body, [(Path.empty, ⟨[.equality], .and, false⟩)]⟩, []⟩]], .and, false⟩)]⟩, .noUnexpectedKeys⟩

example : compareJson Env.simple rootPath (.arr [.num (.pos 1), .str "x".toList])
    (.arr [.bool true, .str "x".toList, .num (.pos 9)]) acCtx = .ok () := by decide
example : compareJson Env.simple rootPath (.arr [.num (.pos 1), .str "x".toList])
    (.arr [.bool true, .str "y".toList, .num (.pos 9)]) acCtx ≠ .ok () := by decide

/-! ### C21: eachKey -/

/-- **C21**: if the rule list selected for the path of an object contains an each-key rule, and the path has
a rule of its own (not only an inherited one), an accepted object has only keys that satisfy all the key
rules; and the each-key definition has no unresolved references. -/
theorem C21_each_key (env : Env) (ctx : Ctx) (p : DocPath) (d : RuleDef) (e a : List (Str × Json))
    (hb : MatchingRule.eachKey d ∈ (best ctx p).rules) (hx : directMatcherDefined ctx p [] = true)
    (h : compareJson env p (.obj e) (.obj a) ctx = .ok ()) :
    (∀ r, Sum.inl r ∈ d.rules → ∀ kv ∈ a, strMatches env [] kv.1 r false = true) ∧
    ∀ ref, Sum.inr ref ∉ d.rules := by
  have hd : isDefined ctx p = true := best_defined ctx p (List.ne_nil_of_mem hb)
  rw [← isOk_iff, compareJson_eq] at h
  simp only [compareStep, compareMaps] at h
  split at h
  · simp at h
  · rw [foldl_isOk (fun r => compareMapsWithRule env mapEqJson (compareJson env) r _ p e a ctx)] at h
    have h1 := h.2 _ hb
    unfold compareMapsWithRule at h1
    simp only [MatchingRule.isValuesMatcher, Bool.and_false, Bool.false_eq_true, if_false] at h1
    rw [commonLoop_ok, mergeResult_isOk, Bool.and_eq_true] at h1
    have h2 := h1.1.2
    unfold matchKeys at h2
    rw [isOk_ofList, List.isEmpty_iff, List.append_eq_nil_iff] at h2
    have h3 := h2.2
    unfold keyRuleMismatches at h3
    rw [if_pos hx, List.flatMap_eq_nil_iff] at h3
    have h4 := h3 _ hb
    simp only [eachKeyMismatches] at h4
    rw [List.flatMap_eq_nil_iff] at h4
    refine ⟨?_, ?_⟩
    · intro r hr kv hkv
      have := h4 _ hr
      simp only [List.map_eq_nil_iff, List.filter_eq_nil_iff] at this
      have := this kv.1 (List.mem_map.2 ⟨kv, hkv, rfl⟩)
      simpa using this
    · intro ref hr
      have := h4 _ hr
      simp at this

/-- For body rules, a rule list that is not inherited gives the premise of C21. -/
theorem direct_of_not_cascaded (ctx : Ctx) (p : DocPath) (hn : ctx.cat.name = .body)
    (hr : (best ctx p).rules ≠ []) (hc : (best ctx p).cascaded = false) :
    directMatcherDefined ctx p [] = true := by
  unfold best selectBestMatcher at hr hc
  simp only [hn] at hr hc
  unfold maxByPath at hr hc
  split at hr
  · rename_i en hen
    rw [hen] at hc
    simp only [asCascaded, decide_eq_false_iff_not, ne_eq, Decidable.not_not] at hc
    have := RuleProps.maxByKey_some _ _ _ hen
    have hm := List.mem_filter.1 this.1
    unfold directMatcherDefined exactMatchers
    simp only [hn, List.isEmpty_nil, if_true, Bool.not_eq_true']
    rw [← Bool.not_eq_true, List.isEmpty_iff]
    intro hnil
    have hlen : en.1.tokens.length = (toVec p).length := by
      rw [← hc]; unfold pathWeight; split <;> rfl
    have : en ∈ (filterCat ctx.cat (fun e => matchesPathExactly e.1.tokens (toVec p))).rules := by
      refine List.mem_filter.2 ⟨hm.1, ?_⟩
      simp only [matchesPathExactly, hlen, decide_true, Bool.true_and]
      simpa [Path.matchesPath] using hm.2
    rw [hnil] at this; simp at this
  · simp [defaultList, emptyList] at hr

/-- **C21** for body rules: an each-key rule that is selected for the object itself (not inherited). -/
theorem C21_each_key_body (env : Env) (ctx : Ctx) (p : DocPath) (d : RuleDef) (e a : List (Str × Json))
    (hn : ctx.cat.name = .body) (hb : MatchingRule.eachKey d ∈ (best ctx p).rules)
    (hc : (best ctx p).cascaded = false) (h : compareJson env p (.obj e) (.obj a) ctx = .ok ()) :
    ∀ r, Sum.inl r ∈ d.rules → ∀ kv ∈ a, strMatches env [] kv.1 r false = true :=
  (C21_each_key env ctx p d e a hb
    (direct_of_not_cascaded ctx p hn (List.ne_nil_of_mem hb) hc) h).1

/-- Sample: keys must contain an `x`. -/
def ekCtx : Ctx := ⟨⟨.body, [(rootPath, ⟨[.eachKey ⟨[], .string, [.inl (.regex "x".toList)], none, []⟩],
  .and, false⟩)]⟩, .allowUnexpectedKeys⟩
example : compareJson Env.simple rootPath (.obj [("ax".toList, .null)])
    (.obj [("ax".toList, .null), ("bx".toList, .null)]) ekCtx = .ok () := by decide
example : compareJson Env.simple rootPath (.obj [("ax".toList, .null)])
    (.obj [("ax".toList, .null), ("b".toList, .null)]) ekCtx ≠ .ok () := by decide

/-! ### C22: values and eachValue -/

/-- The mismatch kinds that report keys. -/
def IsKeyReport (k : MKind) : Prop := k = .keysMissing ∨ k = .keysDiffer ∨ k = .key

/-- **C22**: where the selected rule list consists of one values rule, not inherited, the actual object is
accepted iff each of its values matches the expected value of the same key, or the first expected value if
there is none: keys are not looked at.  (Not so if the expected object is empty in strict mode: see
`C22_empty_expected`.) -/
theorem C22_values_partial (env : Env) (ctx : Ctx) (p : DocPath) (lg : RuleLogic) (e a : List (Str × Json))
    (hb : best ctx p = ⟨[.values], lg, false⟩) (he : e ≠ [] ∨ ctx.config = .allowUnexpectedKeys) :
    compareJson env p (.obj e) (.obj a) ctx = .ok () ↔
      ∀ k v, (k, v) ∈ a → ∀ x, ((k, x) ∈ e ∧ Json.lookup k e = some x ∨
          Json.lookup k e = none ∧ ∃ k0 rest, e = (k0, x) :: rest) →
        compareJson env (join p k) x v ctx = .ok () := by
  have hd : isDefined ctx p = true := best_defined ctx p (by simp [hb])
  rw [← isOk_iff, compareJson_eq]
  simp only [compareStep, compareMaps]
  rw [if_neg (by
    rcases he with he | he
    · cases e <;> simp_all
    · simp [he]), if_pos hd]
  simp only [hb, List.foldl_cons, List.foldl_nil]
  rw [mergeResult_isOk, isOk_ok, Bool.true_and]
  unfold compareMapsWithRule
  simp only [MatchingRule.isValuesMatcher, Bool.not_false, Bool.and_self, if_true]
  rw [valuesLoop_ok]
  simp only [isOk_ok, true_and]
  have hctx : cloneWith ctx ctx.cat = ctx := rfl
  rw [hctx]
  have hval : ∀ k x, valueFor e k = some x ↔ ((k, x) ∈ e ∧ Json.lookup k e = some x ∨
          Json.lookup k e = none ∧ ∃ k0 rest, e = (k0, x) :: rest) := by
    intro k x
    unfold valueFor
    cases hl : Json.lookup k e with
    | some y =>
      simp only [Option.some.injEq, reduceCtorEq, false_and, or_false]
      constructor
      · rintro rfl; exact ⟨Json.lookup_mem hl, rfl⟩
      · exact fun h => h.2
    | none =>
      cases e with
      | nil => simp
      | cons z zs =>
        obtain ⟨k0, z⟩ := z
        simp only [List.head?_cons, Option.map_some, Option.some.injEq]
        constructor
        · rintro rfl; exact Or.inr ⟨trivial, k0, zs, rfl⟩
        · rintro (⟨_, h⟩ | ⟨_, k1, r, h⟩)
          · simp at h
          · simp at h; exact h.1.2
  constructor
  · intro h k v hkv x hx
    exact (isOk_iff _).1 (h (k, v) hkv x ((hval k x).2 hx))
  · intro h kv hkv x hx
    exact (isOk_iff _).2 (h kv.1 kv.2 hkv x ((hval kv.1 x).1 hx))

/-- **C22** for each-value: the same, the values being compared with only the rules of the definition. -/
theorem C22_each_value_partial (env : Env) (ctx : Ctx) (p : DocPath) (lg : RuleLogic) (d : RuleDef)
    (e a : List (Str × Json)) (hb : best ctx p = ⟨[.eachValue d], lg, false⟩)
    (he : e ≠ [] ∨ ctx.config = .allowUnexpectedKeys) :
    compareJson env p (.obj e) (.obj a) ctx = .ok () ↔
      (∀ ref, Sum.inr ref ∉ d.rules) ∧ ∀ kv ∈ a, ∀ x, valueFor e kv.1 = some x →
        compareJson env (join p kv.1) x kv.2 ⟨⟨.body, [(pushStar p, ⟨defRules d, .and, false⟩)]⟩, ctx.config⟩
          = .ok () := by
  have hd : isDefined ctx p = true := best_defined ctx p (by simp [hb])
  rw [← isOk_iff, compareJson_eq]
  simp only [compareStep, compareMaps]
  rw [if_neg (by
    rcases he with he | he
    · cases e <;> simp_all
    · simp [he]), if_pos hd]
  simp only [hb, List.foldl_cons, List.foldl_nil]
  rw [mergeResult_isOk, isOk_ok, Bool.true_and]
  unfold compareMapsWithRule
  simp only [MatchingRule.isValuesMatcher, Bool.not_false, Bool.and_self, if_true]
  rw [valuesLoop_ok, isOk_ofList, List.isEmpty_iff]
  have hctx : cloneWith ctx (eachValueCat p d) =
      ⟨⟨.body, [(pushStar p, ⟨defRules d, .and, false⟩)]⟩, ctx.config⟩ := rfl
  rw [hctx]
  apply and_congr
  · unfold defRefs
    rw [List.filterMap_eq_nil_iff]
    constructor
    · intro h ref hr; have := h _ hr; simp at this
    · intro h x hx
      cases x with
      | inl r => rfl
      | inr ref => exact absurd hx (h ref)
  · simp only [isOk_iff]

/-- **C22**: with a values or each-value rule of its own, the comparison of an object never reports its
keys: every mismatch carried by the path of the object itself is an unresolved reference. -/
theorem C22_keys_never_reported (env : Env) (ctx : Ctx) (p : DocPath) (lg : RuleLogic) (r : MatchingRule)
    (e a : List (Str × Json)) (hr : r.isValuesMatcher = true) (hb : best ctx p = ⟨[r], lg, false⟩)
    (he : e ≠ [] ∨ ctx.config = .allowUnexpectedKeys) (ms : List Mismatch)
    (h : compareJson env p (.obj e) (.obj a) ctx = .error ms) :
    ∀ m ∈ ms, m.path.tokens = p.tokens → m.kind = .unresolvedRef := by
  have hd : isDefined ctx p = true := best_defined ctx p (by simp [hb])
  have loop : ∀ (c : Ctx) (l : List (Str × Json)) (acc : Outcome),
      (∀ m ∈ errs acc, m.path.tokens = p.tokens → m.kind = .unresolvedRef) →
      ∀ m ∈ errs (valuesLoop (compareJson env) p e c l acc),
        m.path.tokens = p.tokens → m.kind = .unresolvedRef := by
    intro c l
    induction l with
    | nil => intro acc h; exact h
    | cons kv rest ih =>
      obtain ⟨k, v⟩ := kv
      intro acc hacc
      simp only [valuesLoop]
      apply ih
      have sub : ∀ x, ∀ m ∈ errs (mergeResult acc (compareJson env (join p k) x v c)),
          m.path.tokens = p.tokens → m.kind = .unresolvedRef := by
        intro x m hm htok
        rw [errs_merge, List.mem_append] at hm
        rcases hm with hm | hm
        · exact hacc m hm htok
        · exfalso
          have hb : Below (join p k) m.path := by
            cases hcj : compareJson env (join p k) x v c with
            | ok u => rw [hcj] at hm; simp [errs] at hm
            | error l => rw [hcj] at hm; exact C20_mismatch_paths env _ _ _ _ l hcj m hm
          have h1 := hb.1.length_le
          rw [htok] at h1
          have h2 : (join p k).tokens.length = p.tokens.length + 1 := by
            unfold Path.join
            split
            · simp [pushStar]
            · split
              · simp [pushStarIndex]
              · split <;> simp [pushIndex, pushField]
          omega
      cases hl : Json.lookup k e with
      | some ev => exact sub ev
      | none =>
        cases e with
        | nil => exact hacc
        | cons x xs => exact sub x.2
  rw [compareJson_eq] at h
  simp only [compareStep, compareMaps] at h
  rw [if_neg (by
    rcases he with he | he
    · cases e <;> simp_all
    · simp [he]), if_pos hd] at h
  simp only [hb, List.foldl_cons, List.foldl_nil] at h
  have herr : ms = errs (compareMapsWithRule env mapEqJson (compareJson env) r false p e a ctx) := by
    have := congrArg errs h
    rw [errs_merge] at this
    simpa [errs] using this.symm
  rw [herr]
  unfold compareMapsWithRule
  simp only [hr, Bool.not_false, Bool.and_self, if_true]
  split
  · apply loop
    intro m hm _
    rw [errs_ofList] at hm
    obtain ⟨x, _, hx⟩ := List.mem_filterMap.1 hm
    split at hx
    · simp at hx
    · simp at hx; subst hx; rfl
  · apply loop
    intro m hm; simp [errs] at hm

/-- Finding: in strict mode an empty expected object rejects every non-empty one even under a values rule. -/
theorem C22_empty_expected (env : Env) (ctx : Ctx) (p : DocPath) (a : List (Str × Json)) (ha : a ≠ [])
    (hc : ctx.config = .noUnexpectedKeys) :
    compareJson env p (.obj []) (.obj a) ctx = .error [⟨p, .emptyMap⟩] := by
  rw [compareJson_eq]
  simp only [compareStep, compareMaps]
  rw [if_pos]
  cases a <;> simp_all

/-- Sample: values rule at `$`, a type rule for the values. -/
def valCtx : Ctx := ⟨⟨.body, [(rootPath, ⟨[.values], .and, false⟩),
  (pushStar rootPath, ⟨[.type], .and, false⟩)]⟩, .noUnexpectedKeys⟩
example : compareJson Env.simple rootPath (.obj [("a".toList, .num (.pos 1))])
    (.obj [("b".toList, .num (.pos 2)), ("c".toList, .num (.pos 3))]) valCtx = .ok () := by decide
example : compareJson Env.simple rootPath (.obj [("a".toList, .num (.pos 1))])
    (.obj [("b".toList, .num (.pos 2)), ("c".toList, .null)]) valCtx ≠ .ok () := by decide
example : (best valCtx rootPath).rules.length = 1 ∧ (best valCtx rootPath).cascaded = false := by decide

end Verif.CompareProps
