import Verif.Props.CompareRuleProps

/-
  Property C44: a type rule on a value is inherited by everything below it ("like" matching), and the
  size rules constrain only the list they are defined on.
-/

set_option autoImplicit false

namespace Verif.CompareProps
open Verif.Path Verif.Rules Verif.Matchers Verif.Compare

/-- Specification: `a` is of the same shape as the example `e`.  Items of a list follow the example item at
the same index, or the first example item beyond the examples; shorter lists are fine, and an empty example
list allows anything.  Objects have the same keys (strict) or at least the keys of the example (lenient). -/
inductive Like (config : DiffConfig) : Json → Json → Prop
  | null : Like config .null .null
  | bool (a b) : Like config (.bool a) (.bool b)
  | num (a b) : Like config (.num a) (.num b)
  | str (a b) : Like config (.str a) (.str b)
  | arrEmpty (as) : Like config (.arr []) (.arr as)
  | arr (e0 : Json) (es as : List Json)
      (h : ∀ (i : Nat) (a : Json), as[i]? = some a → Like config (((e0 :: es)[i]?).getD e0) a) :
      Like config (.arr (e0 :: es)) (.arr as)
  | obj (es as : List (Str × Json))
      (hk : match config with
        | .noUnexpectedKeys => es.map (·.1) = as.map (·.1)
        | .allowUnexpectedKeys => ∀ k ∈ es.map (·.1), k ∈ as.map (·.1))
      (hv : ∀ k v w, (k, v) ∈ es → Json.lookup k as = some w → Like config v w) :
      Like config (.obj es) (.obj as)

/-- The table has the single body rule `r`, at the path `q`. -/
def OneRule (ctx : Ctx) (q : DocPath) (r : MatchingRule) : Prop :=
  ∃ lg c, ctx.cat = ⟨.body, [(q, ⟨[r], lg, c⟩)]⟩

theorem toVec_join (p : DocPath) (k : Str) : ∃ s, toVec (join p k) = toVec p ++ [s] := by
  unfold Path.join toVec
  split
  · exact ⟨_, List.map_append⟩
  · split
    · exact ⟨_, List.map_append⟩
    · split
      · exact ⟨_, List.map_append⟩
      · exact ⟨_, List.map_append⟩

theorem weightFold_append (ts : List PathToken) (fs : List Str) (s : Str) (h : ts.length ≤ fs.length) :
    ∀ acc, weightFold acc ts (fs ++ [s]) = weightFold acc ts fs := by
  induction ts generalizing fs with
  | nil => intro acc; simp [weightFold]
  | cons t ts ih =>
    intro acc
    cases fs with
    | nil => simp at h
    | cons f fs =>
      simp only [List.cons_append, weightFold]
      exact ih fs (by simpa using h) _

theorem matchesPath_len {ts : List PathToken} {fs : List Str} (h : matchesPath ts fs = true) :
    ts.length ≤ fs.length := by
  unfold matchesPath pathWeight at h
  split at h
  · assumption
  · simp at h

theorem matchesPath_append {ts : List PathToken} {fs : List Str} (s : Str) (h : matchesPath ts fs = true) :
    matchesPath ts (fs ++ [s]) = true := by
  have hl := matchesPath_len h
  unfold matchesPath pathWeight at *
  have hl2 : (fs ++ [s]).length ≥ ts.length := by simp; omega
  simp only [ge_iff_le, hl, if_true] at h
  simp only [hl2, if_true]
  rw [weightFold_append _ _ _ hl]; exact h

theorem matches_join {ts : List PathToken} {p : DocPath} (k : Str) (h : matchesPath ts (toVec p) = true) :
    matchesPath ts (toVec (join p k)) = true := by
  obtain ⟨s, hs⟩ := toVec_join p k
  rw [hs]; exact matchesPath_append s h

theorem oneRule_best {ctx : Ctx} {q : DocPath} {r : MatchingRule} (h : OneRule ctx q r) (p : DocPath)
    (hm : matchesPath q.tokens (toVec p) = true) :
    isDefined ctx p = true ∧ ∃ lg, best ctx p = ⟨[r], lg, decide (q.tokens.length ≠ (toVec p).length)⟩ := by
  obtain ⟨lg, c, hc⟩ := h
  have hb : best ctx p = ⟨[r], lg, decide (q.tokens.length ≠ (toVec p).length)⟩ := by
    unfold best selectBestMatcher
    rw [hc]
    simp only [maxByPath, bestEntry]
    have hw : (pathWeight q.tokens (toVec p)).1 > 0 := by simpa [matchesPath] using hm
    have ht : (pathWeight q.tokens (toVec p)).2 = q.tokens.length := by unfold pathWeight; split <;> rfl
    simp [hw, maxByKey, asCascaded, ht]
  exact ⟨best_defined ctx p (by simp [hb]), lg, hb⟩

theorem oneRule_keys (env : Env) {ctx : Ctx} {q : DocPath} {r : MatchingRule} (h : OneRule ctx q r)
    (hr : r.isTypeMatcher = true) (p : DocPath) (e a : List Str) :
    isOk (matchKeys env ctx p e a) = true ↔
      match ctx.config with
      | .allowUnexpectedKeys => ∀ k ∈ e, k ∈ a
      | .noUnexpectedKeys => e = a := by
  have hdir : directMatcherDefined ctx p ["values", "each-value", "each-key"] = false := by
    obtain ⟨lg, c, hc⟩ := h
    unfold directMatcherDefined exactMatchers filterCat
    rw [hc]
    simp only [List.isEmpty_cons, Bool.false_eq_true, if_false, List.filter_cons, List.filter_nil]
    split <;> cases r <;> simp [MatchingRule.isTypeMatcher] at hr <;>
      simp [asRuleList, defaultList, emptyList, MatchingRule.name]
  have hkey : keyRuleMismatches env ctx p a = [] := by
    unfold keyRuleMismatches
    split
    · rw [List.flatMap_eq_nil_iff]
      intro s hs
      by_cases hm : matchesPath q.tokens (toVec p) = true
      · obtain ⟨_, lg, hb⟩ := oneRule_best h p hm
        rw [hb] at hs
        simp at hs; subst hs
        cases s <;> simp [MatchingRule.isTypeMatcher] at hr <;> rfl
      · obtain ⟨lg, c, hc⟩ := h
        unfold best selectBestMatcher at hs
        rw [hc] at hs
        simp only [maxByPath, bestEntry] at hs
        have hw : ¬ (pathWeight q.tokens (toVec p)).1 > 0 := by simpa [matchesPath] using hm
        simp [hw, maxByKey, defaultList, emptyList] at hs
    · rfl
  unfold matchKeys keySetMismatches
  rw [isOk_ofList, hdir, hkey]
  cases ctx.config with
  | allowUnexpectedKeys =>
    simp only [Bool.false_eq_true, if_false, List.append_nil]
    split <;> simp_all
  | noUnexpectedKeys =>
    simp only [Bool.false_eq_true, if_false, List.append_nil]
    split <;> simp_all

theorem typeRule_scalar (env : Env) (r : MatchingRule) (hr : r.isTypeMatcher = true) (c : Bool) (e a : Json)
    (h : ∀ l m, ¬ (e = .arr l ∧ a = .arr m)) : jsonMatches env e a r c = true ↔
      MatcherProps.SameJsonKind e a := by
  cases r <;> simp [MatchingRule.isTypeMatcher] at hr
  · exact MatcherProps.C11_type_iff _ _ _ _
  · exact MatcherProps.C12_json_others env e a _ c trivial h
  · exact MatcherProps.C12_json_others env e a _ c trivial h
  · exact MatcherProps.C12_json_others env e a _ c trivial h

theorem padded_getElem {T : Type} (e0 : T) (es a : List T) (i : Nat) (hi : i < a.length) :
    (padded (e0 :: es) a)[i]? = some (((e0 :: es)[i]?).getD e0) := by
  unfold padded
  simp only
  by_cases h : i < (e0 :: es).length
  · rw [List.getElem?_append_left h, List.getElem?_eq_getElem h]; rfl
  · have hge : (e0 :: es).length ≤ i := by omega
    rw [List.getElem?_append_right hge]
    have : (e0 :: es)[i]? = none := List.getElem?_eq_none_iff.2 hge
    rw [this]
    simp only [Option.getD_none]
    rw [List.getElem?_replicate, if_pos]
    simp only [List.length_cons] at *
    omega

/-- The contents of a list under one inherited-by-all rule: every actual item is compared with the example
item of the same index, or the first one. -/
theorem oneRule_contents (env : Env) {ctx : Ctx} {q : DocPath} {r : MatchingRule} (h : OneRule ctx q r)
    (p : DocPath) (hm : matchesPath q.tokens (toVec p) = true) (e0 : Json) (es a : List Json) :
    matchListContents (compareJson env) p (e0 :: es) a ctx = [] ↔
      ∀ (i : Nat) (y : Json), a[i]? = some y →
        isOk (compareJson env (join p (natStr i)) (((e0 :: es)[i]?).getD e0) y ctx) = true := by
  unfold matchListContents
  rw [listContents_nil _ _ _ _ (fun x _ q y c => compareJson_consistent env q x y c)]
  simp only [Nat.zero_add]
  constructor
  · intro h1 i y hy
    have hi : i < a.length := (List.getElem?_eq_some_iff.1 hy).1
    have := h1 i _ (padded_getElem e0 es a i hi)
    rw [hy] at this
    exact this
  · intro h1 i x hx
    cases hy : a[i]? with
    | none => exact (oneRule_best h _ (matches_join _ hm)).1
    | some y =>
      have hi : i < a.length := (List.getElem?_eq_some_iff.1 hy).1
      rw [padded_getElem e0 es a i hi] at hx
      have hx : ((e0 :: es)[i]?).getD e0 = x := by simpa using hx
      subst hx
      exact h1 i y hy

theorem getD_mem {e0 : Json} {es : List Json} (i : Nat) : (((e0 :: es)[i]?).getD e0) ∈ e0 :: es := by
  cases h : (e0 :: es)[i]? with
  | none => simp
  | some x => exact List.mem_of_getElem? h

/-- What a type or size rule on a list demands of the list itself. -/
theorem typeRule_list (r : MatchingRule) (hr : r.isTypeMatcher = true) (c : Bool) (e a : List Json) :
    listMatches listEqJson e a r c = true ↔ (c = true ∨ MatcherProps.WithinBounds r a.length) := by
  cases r <;> simp [MatchingRule.isTypeMatcher] at hr <;> cases c <;>
    simp [listMatches, MatcherProps.WithinBounds]

/-- A list compared under one type or size rule. -/
theorem oneRule_list (env : Env) {ctx : Ctx} {q : DocPath} {r : MatchingRule} (h : OneRule ctx q r)
    (hr : r.isTypeMatcher = true) (p : DocPath) (hm : matchesPath q.tokens (toVec p) = true)
    (e a : List Json) :
    isOk (compareJson env p (.arr e) (.arr a) ctx) = true ↔ e = [] ∨
      ((q.tokens.length ≠ (toVec p).length ∨ MatcherProps.WithinBounds r a.length) ∧
        ∃ e0 es, e = e0 :: es ∧ ∀ (i : Nat) (y : Json), a[i]? = some y →
          isOk (compareJson env (join p (natStr i)) (((e0 :: es)[i]?).getD e0) y ctx) = true) := by
  obtain ⟨hd, lg, hb⟩ := oneRule_best h p hm
  rw [compareJson_eq]
  simp only [compareStep, compareLists, hd, if_true, hb]
  rw [compareListsWithRules_ok]
  have hone : isOk (compareListsWithRule listEqJson (compareJson env) r p e a ctx
      (decide (q.tokens.length ≠ (toVec p).length))) = true ↔ e = [] ∨
      ((q.tokens.length ≠ (toVec p).length ∨ MatcherProps.WithinBounds r a.length) ∧
        ∃ e0 es, e = e0 :: es ∧ ∀ (i : Nat) (y : Json), a[i]? = some y →
          isOk (compareJson env (join p (natStr i)) (((e0 :: es)[i]?).getD e0) y ctx) = true) := by
    cases e with
    | nil => simp [compareListsWithRule]
    | cons e0 es =>
      have hc := oneRule_contents env h p hm e0 es a
      have hl := typeRule_list r hr (decide (q.tokens.length ≠ (toVec p).length)) (e0 :: es) a
      have : compareListsWithRule listEqJson (compareJson env) r p (e0 :: es) a ctx
          (decide (q.tokens.length ≠ (toVec p).length)) = ofList ((if listMatches listEqJson (e0 :: es) a r
            (decide (q.tokens.length ≠ (toVec p).length)) then [] else [⟨p, .collection⟩])
            ++ matchListContents (compareJson env) p (e0 :: es) a ctx) := by
        cases r <;> simp [MatchingRule.isTypeMatcher] at hr <;> rfl
      rw [this, isOk_ofList, List.isEmpty_iff, List.append_eq_nil_iff, hc]
      simp only [reduceCtorEq, false_or, List.cons.injEq]
      apply and_congr
      · rw [decide_eq_true_eq] at hl
        rw [← hl]
        split <;> simp_all
      · constructor
        · exact fun h => ⟨e0, es, ⟨rfl, rfl⟩, h⟩
        · rintro ⟨e1, es1, ⟨rfl, rfl⟩, h⟩; exact h
  cases lg <;> simp only [ne_eq, reduceCtorEq, not_false_eq_true, List.mem_singleton, forall_eq, exists_eq_left,
      true_and, List.cons_ne_nil] <;> exact hone

/-- An object compared under one inherited type or size rule (or a type rule of its own). -/
theorem oneRule_map (env : Env) {ctx : Ctx} {q : DocPath} {r : MatchingRule} (h : OneRule ctx q r)
    (hr : r.isTypeMatcher = true) (p : DocPath) (hm : matchesPath q.tokens (toVec p) = true)
    (e a : List (Str × Json)) :
    isOk (compareJson env p (.obj e) (.obj a) ctx) = true ↔
      (q.tokens.length ≠ (toVec p).length ∨ MatcherProps.WithinBounds r a.length) ∧
      (match ctx.config with
       | .noUnexpectedKeys => e.map (·.1) = a.map (·.1)
       | .allowUnexpectedKeys => ∀ k ∈ e.map (·.1), k ∈ a.map (·.1)) ∧
      ∀ kv ∈ e, ∀ y, Json.lookup kv.1 a = some y →
        isOk (compareJson env (join p kv.1) kv.2 y ctx) = true := by
  obtain ⟨hd, lg, hb⟩ := oneRule_best h p hm
  have hkeys := oneRule_keys env h hr p (Json.keys e) (Json.keys a)
  rw [compareJson_eq]
  simp only [compareStep, compareMaps]
  have hmap : ∀ c, mapMatches mapEqJson e a r c = true ↔ (c = true ∨ MatcherProps.WithinBounds r a.length) := by
    intro c
    cases r <;> simp [MatchingRule.isTypeMatcher] at hr <;> cases c <;>
      simp [mapMatches, MatcherProps.WithinBounds]
  have hnv : r.isValuesMatcher = false := by
    cases r <;> simp [MatchingRule.isTypeMatcher] at hr <;> rfl
  split
  · rename_i hc
    simp only [Bool.and_eq_true, decide_eq_true_eq, List.isEmpty_iff, Bool.not_eq_true'] at hc
    obtain ⟨⟨rfl, hc⟩, ha⟩ := hc
    rw [hc]
    simp only [isOk_error, Bool.false_eq_true, false_iff, not_and]
    intro _ hk
    cases a <;> simp_all
  · simp only [hb, List.foldl_cons, List.foldl_nil]
    rw [mergeResult_isOk, isOk_ok, Bool.true_and]
    unfold compareMapsWithRule
    simp only [hnv, Bool.and_false, Bool.false_eq_true, if_false]
    rw [commonLoop_ok, mergeResult_isOk, Bool.and_eq_true, hkeys, and_assoc]
    apply and_congr
    · have := hmap (decide (q.tokens.length ≠ (toVec p).length))
      rw [decide_eq_true_eq] at this
      rw [← this]
      split <;> simp_all
    · apply and_congr
      · cases ctx.config <;> exact Iff.rfl
      · exact Iff.rfl

theorem oneRule_scalar (env : Env) {ctx : Ctx} {q : DocPath} {r : MatchingRule} (h : OneRule ctx q r)
    (hr : r.isTypeMatcher = true) (p : DocPath) (hm : matchesPath q.tokens (toVec p) = true)
    (e a : Json) (hs : ∀ l m, ¬ (e = .arr l ∧ a = .arr m)) :
    isOk (compareValues env p e a ctx) = true ↔ MatcherProps.SameJsonKind e a := by
  obtain ⟨hd, lg, hb⟩ := oneRule_best h p hm
  unfold compareValues
  rw [if_pos hd, hb]
  have hmv := MatcherProps.matchValues_ok_iff (jsonMatches env e a)
    ⟨[r], lg, decide (q.tokens.length ≠ (toVec p).length)⟩
  have : matchValues (jsonMatches env e a) ⟨[r], lg, decide (q.tokens.length ≠ (toVec p).length)⟩ = .ok () ↔
      MatcherProps.SameJsonKind e a := by
    rw [hmv, ← typeRule_scalar env r hr (decide (q.tokens.length ≠ (toVec p).length)) e a hs]
    cases lg <;> simp
  rw [← this]
  split
  · rename_i hok; rw [hok]; exact ⟨fun _ => rfl, fun _ => rfl⟩
  · rename_i hok; rw [hok]; exact ⟨fun h => by simp [isOk] at h, fun h => by cases h⟩

/-- **C44**: below the path of a type rule (or a size rule), a value is accepted iff it is of the same shape
as the example; sizes of nested lists and maps are not constrained. -/
theorem C44_like_inherited (env : Env) (ctx : Ctx) (q : DocPath) (r : MatchingRule) (h : OneRule ctx q r)
    (hr : r.isTypeMatcher = true) (p : DocPath) (hm : matchesPath q.tokens (toVec p) = true)
    (hbelow : r = .type ∨ q.tokens.length < (toVec p).length) (e a : Json) (we : e.WF) :
    compareJson env p e a ctx = .ok () ↔ Like ctx.config e a := by
  rw [← isOk_iff]
  have main : ∀ n, ∀ e : Json, e.depth < n → ∀ p a, e.WF → matchesPath q.tokens (toVec p) = true →
      (r = .type ∨ q.tokens.length < (toVec p).length) →
      (isOk (compareJson env p e a ctx) = true ↔ Like ctx.config e a) := by
    intro n
    induction n with
    | zero => intro e h; omega
    | succ n ih =>
      intro e hd p a we hm hbelow
      have hb : ∀ n, q.tokens.length ≠ (toVec p).length ∨ MatcherProps.WithinBounds r n := by
        intro n
        rcases hbelow with rfl | hlt
        · exact Or.inr trivial
        · exact Or.inl (by omega)
      have hbj : ∀ k, r = .type ∨ q.tokens.length < (toVec (join p k)).length := by
        intro k
        obtain ⟨s, hs⟩ := toVec_join p k
        rw [hs]
        rcases hbelow with h | h
        · exact Or.inl h
        · right; simp; omega
      cases e with
      | obj em =>
        cases a with
        | obj am =>
          rw [oneRule_map env h hr p hm]
          have hdm : ∀ kv ∈ em, kv.2.depth < n := fun kv hkv => by
            have := Json.depth_mem_entries hkv
            simp only [Json.depth] at hd; omega
          simp only [Json.WF] at we
          have step : ∀ kv ∈ em, ∀ y, (isOk (compareJson env (join p kv.1) kv.2 y ctx) = true ↔
              Like ctx.config kv.2 y) := fun kv hkv y =>
            ih kv.2 (hdm kv hkv) _ y ((Json.WFEntries_iff _).1 we.2 _ hkv) (matches_join _ hm) (hbj _)
          constructor
          · rintro ⟨_, h2, h3⟩
            exact Like.obj _ _ h2 (fun k v w hkv hw => (step (k, v) hkv w).1 (h3 (k, v) hkv w hw))
          · intro hl
            cases hl with
            | obj _ _ hk hv => exact ⟨hb _, hk, fun kv hkv y hy => (step kv hkv y).2 (hv _ _ _ hkv hy)⟩
        | _ =>
          rw [compareJson_eq]
          simp only [compareStep, isOk_error, Bool.false_eq_true, false_iff]
          intro hl; cases hl
      | arr el =>
        cases a with
        | arr al =>
          rw [oneRule_list env h hr p hm]
          simp only [Json.WF] at we
          have hdm : ∀ x ∈ el, x.depth < n := fun x hx => by
            have := Json.depth_mem_list hx
            simp only [Json.depth] at hd; omega
          constructor
          · rintro (rfl | ⟨_, e0, es, rfl, h3⟩)
            · exact Like.arrEmpty _
            · refine Like.arr _ _ _ (fun i y hy => ?_)
              have hmem := getD_mem (e0 := e0) (es := es) i
              exact (ih _ (hdm _ hmem) _ y ((Json.WFList_iff _).1 we _ hmem) (matches_join _ hm) (hbj _)).1
                (h3 i y hy)
          · intro hl
            cases hl with
            | arrEmpty => exact Or.inl rfl
            | arr e0 es _ h3 =>
              refine Or.inr ⟨hb _, e0, es, rfl, fun i y hy => ?_⟩
              have hmem := getD_mem (e0 := e0) (es := es) i
              exact (ih _ (hdm _ hmem) _ y ((Json.WFList_iff _).1 we _ hmem) (matches_join _ hm) (hbj _)).2
                (h3 i y hy)
        | _ =>
          rw [compareJson_eq]
          simp only [compareStep, isOk_error, Bool.false_eq_true, false_iff]
          intro hl; cases hl
      | _ =>
        rw [compareJson_eq]
        simp only [compareStep]
        rw [oneRule_scalar env h hr p hm _ _ (by intro l m h; exact absurd h.1 (by simp))]
        constructor
        · intro hk; cases hk <;> constructor
        · intro hl; cases hl <;> constructor
  exact main (e.depth + 1) e (by omega) p a we hm hbelow

/-- **C44**, size rules on a list itself ("each like", with minimum and/or maximum): with a non-empty example
list, an actual list is accepted iff its length is within the bounds and each of its items is of the shape of
the corresponding example. -/
theorem C44_each_like_partial (env : Env) (ctx : Ctx) (q : DocPath) (r : MatchingRule) (h : OneRule ctx q r)
    (hr : r.isTypeMatcher = true) (p : DocPath) (hm : matchesPath q.tokens (toVec p) = true)
    (hown : q.tokens.length = (toVec p).length) (e0 : Json) (es a : List Json)
    (we : (Json.arr (e0 :: es)).WF) :
    compareJson env p (.arr (e0 :: es)) (.arr a) ctx = .ok () ↔
      MatcherProps.WithinBounds r a.length ∧ ∀ (i : Nat) (y : Json), a[i]? = some y →
        Like ctx.config (((e0 :: es)[i]?).getD e0) y := by
  rw [← isOk_iff, oneRule_list env h hr p hm]
  simp only [Json.WF] at we
  have step : ∀ (i : Nat) (y : Json), (isOk (compareJson env (join p (natStr i)) (((e0 :: es)[i]?).getD e0) y ctx) = true ↔
      Like ctx.config (((e0 :: es)[i]?).getD e0) y) := by
    intro i y
    rw [isOk_iff]
    apply C44_like_inherited env ctx q r h hr _ (matches_join _ hm)
    · right
      obtain ⟨s, hs⟩ := toVec_join p (natStr i)
      rw [hs, hown]; simp
    · exact (Json.WFList_iff _).1 we _ (getD_mem i)
  constructor
  · rintro (h | ⟨hb, e1, es1, he, h3⟩)
    · simp at h
    · simp only [List.cons.injEq] at he
      obtain ⟨rfl, rfl⟩ := he
      refine ⟨?_, fun i y hy => (step i y).1 (h3 i y hy)⟩
      rcases hb with hb | hb
      · exact absurd hown hb
      · exact hb
  · rintro ⟨hb, h3⟩
    exact Or.inr ⟨Or.inr hb, e0, es, rfl, fun i y hy => (step i y).2 (h3 i y hy)⟩

/-- Finding: a minimum size is not enforced if the example list is empty. -/
theorem C44_min_ignored_for_empty_example (env : Env) :
    ∃ ctx, OneRule ctx rootPath (.minType 2) ∧ compareJson env rootPath (.arr []) (.arr []) ctx = .ok () :=
  ⟨⟨⟨.body, [(rootPath, ⟨[.minType 2], .and, false⟩)]⟩, .noUnexpectedKeys⟩, ⟨_, _, rfl⟩,
    C18_empty_expected_accepts env _ _ _ (by decide)⟩

/-- Non-vacuity: each-like at `$.items`, minimum 1. -/
def likeCtx : Ctx := ⟨⟨.body, [(pushField rootPath "items".toList, ⟨[.minType 1], .and, false⟩)]⟩,
  .noUnexpectedKeys⟩
example : OneRule likeCtx (pushField rootPath "items".toList) (.minType 1) := ⟨_, _, rfl⟩
example : matchesPath (pushField rootPath "items".toList).tokens
    (toVec (join rootPath "items".toList)) = true := by decide
example : compareJson Env.simple rootPath
    (.obj [("items".toList, .arr [.obj [("id".toList, .num (.pos 1))]])])
    (.obj [("items".toList, .arr [.obj [("id".toList, .num (.pos 7))], .obj [("id".toList, .num (.pos 8))]])])
    likeCtx = .ok () := by decide
example : compareJson Env.simple rootPath
    (.obj [("items".toList, .arr [.obj [("id".toList, .num (.pos 1))]])])
    (.obj [("items".toList, .arr [])]) likeCtx ≠ .ok () := by decide

end Verif.CompareProps
