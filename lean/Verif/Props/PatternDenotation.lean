import Verif.Props.PatternProps

/-
  Property C71: the documents accepted by the rules extracted from a consumer pattern are exactly those the
  pattern describes.
-/

set_option autoImplicit false

namespace Verif.PatternProps
open Verif.Path Verif.Rules Verif.Matchers Verif.Compare Verif.CompareProps Verif.Patterns
open Verif.LocalityProps Verif.PathProps Verif.RuleProps

/-! ### One level of comparison -/

/-- The table has no rules that change how keys are compared. -/
def NoKeyRules (ctx : Ctx) : Prop := ∀ e ∈ ctx.cat.rules, ∀ r ∈ e.2.rules,
  r.isTypeMatcher = true ∨ (∃ re, r = .regex re) ∨ (∃ f, r = .timestamp f)

/-- The keys of an actual object are acceptable. -/
def KeysMatch (config : DiffConfig) (e a : List Str) : Prop :=
  match config with
  | .noUnexpectedKeys => ∀ k, k ∈ e ↔ k ∈ a
  | .allowUnexpectedKeys => ∀ k ∈ e, k ∈ a

theorem matchKeys_plain (env : Env) {ctx : Ctx} (hb : ctx.cat.name = .body) (hn : NoKeyRules ctx) (p : DocPath)
    (e a : List Str) :
    isOk (matchKeys env ctx p e a) = true ↔ match ctx.config with
      | .allowUnexpectedKeys => ∀ k ∈ e, k ∈ a
      | .noUnexpectedKeys => e = a := by
  have hdir : directMatcherDefined ctx p ["values", "each-value", "each-key"] = false := by
    have hr : ∀ en ∈ (exactMatchers ctx p).rules, ∀ r ∈ en.2.rules,
        ["values", "each-value", "each-key"].contains r.name = false := by
      intro en hen r hr
      rw [exact_body hb] at hen
      have hmem := (mem_entriesAt.1 (List.mem_filter.1 hen).1).1
      rcases hn en hmem r hr with h | ⟨_, rfl⟩ | ⟨_, rfl⟩
      · cases r <;> simp [MatchingRule.isTypeMatcher] at h <;> simp [MatchingRule.name]
      · simp [MatchingRule.name]
      · simp [MatchingRule.name]
    unfold directMatcherDefined asRuleList
    simp only [List.isEmpty_cons, Bool.false_eq_true, if_false]
    cases hc : (exactMatchers ctx p).rules with
    | nil => simp [defaultList, emptyList]
    | cons en es =>
      rw [hc] at hr
      simp only
      rw [Bool.eq_false_iff]
      intro h
      rw [List.any_eq_true] at h
      obtain ⟨r, hr1, hr2⟩ := h
      rw [hr en List.mem_cons_self r hr1] at hr2; cases hr2
  have hkey : keyRuleMismatches env ctx p a = [] := by
    unfold keyRuleMismatches
    split
    · rw [List.flatMap_eq_nil_iff]
      intro r hr
      rcases best_cases hb p with ⟨_, _, h3⟩ | ⟨_, en, he, h3, _⟩
      · rw [h3] at hr; simp at hr
      · rw [h3] at hr
        rcases hn en (mem_entriesAt.1 he).1 r hr with h | ⟨_, rfl⟩ | ⟨_, rfl⟩
        · cases r <;> simp [MatchingRule.isTypeMatcher] at h <;> rfl
        · rfl
        · rfl
    · rfl
  unfold matchKeys keySetMismatches
  rw [isOk_ofList, hdir, hkey]
  cases ctx.config with
  | allowUnexpectedKeys =>
    simp only [Bool.false_eq_true, if_false, List.append_nil]
    split <;> simp_all
  | noUnexpectedKeys =>
    simp only [Bool.false_eq_true, if_false, List.append_nil]
    split <;> simp_all

/-- A non-empty list of type and size rules, all of which must hold, is selected at `p`. -/
structure TypeBest (ctx : Ctx) (p : DocPath) : Prop where
  defined : isDefined ctx p = true
  ne : (best ctx p).rules ≠ []
  logic : (best ctx p).logic = .and
  types : ∀ r ∈ (best ctx p).rules, r.isTypeMatcher = true

theorem defined_join {ctx : Ctx} (hb : ctx.cat.name = .body) {p : DocPath} (h : isDefined ctx p = true) (k : Str) :
    isDefined ctx (join p k) = true := by
  rw [isDefined_body hb] at *
  cases hl : entriesAt ctx (toVec p) with
  | nil => rw [hl] at h; simp at h
  | cons e es =>
    have he : e ∈ entriesAt ctx (toVec p) := by rw [hl]; exact List.mem_cons_self
    rw [mem_entriesAt] at he
    have : e ∈ entriesAt ctx (toVec (join p k)) := mem_entriesAt.2 ⟨he.1, matches_join k he.2⟩
    cases hm : entriesAt ctx (toVec (join p k)) with
    | nil => rw [hm] at this; simp at this
    | cons _ _ => rfl

theorem typed_contents (env : Env) {ctx : Ctx} (hb : ctx.cat.name = .body) {p : DocPath}
    (hd : isDefined ctx p = true) (e0 : Json) (es a : List Json) :
    matchListContents (compareJson env) p (e0 :: es) a ctx = [] ↔
      ∀ (i : Nat) (y : Json), a[i]? = some y →
        isOk (compareJson env (join p (natStr i)) (((e0 :: es)[i]?).getD e0) y ctx) = true := by
  unfold matchListContents
  rw [listContents_nil _ _ _ _ (fun x _ q y c => compareJson_consistent env q x y c)]
  simp only [Nat.zero_add]
  constructor
  · intro h1 i y hy
    have hi : i < a.length := (List.getElem?_eq_some_iff.1 hy).1
    have := h1 i _ (padded_getElem e0 es a i hi)
    rw [hy] at this
    exact this
  · intro h1 i x hx
    cases hy : a[i]? with
    | none => exact defined_join hb hd _
    | some y =>
      have hi : i < a.length := (List.getElem?_eq_some_iff.1 hy).1
      rw [padded_getElem e0 es a i hi] at hx
      have hx : ((e0 :: es)[i]?).getD e0 = x := by simpa using hx
      subst hx
      exact h1 i y hy

theorem typed_list (env : Env) {ctx : Ctx} (hb : ctx.cat.name = .body) {p : DocPath} (ht : TypeBest ctx p)
    (e a : List Json) :
    isOk (compareJson env p (.arr e) (.arr a) ctx) = true ↔ e = [] ∨
      ((∀ r ∈ (best ctx p).rules, (best ctx p).cascaded = true ∨ MatcherProps.WithinBounds r a.length) ∧
        ∃ e0 es, e = e0 :: es ∧ ∀ (i : Nat) (y : Json), a[i]? = some y →
          isOk (compareJson env (join p (natStr i)) (((e0 :: es)[i]?).getD e0) y ctx) = true) := by
  rw [compareJson_eq]
  simp only [compareStep, compareLists, ht.defined, if_true]
  rw [compareListsWithRules_ok, ht.logic]
  simp only [ne_eq, ht.ne, not_false_eq_true, true_and]
  cases e with
  | nil => simp [compareListsWithRule]
  | cons e0 es =>
    have hc := typed_contents env hb ht.defined e0 es a
    have hone : ∀ r ∈ (best ctx p).rules,
        (isOk (compareListsWithRule listEqJson (compareJson env) r p (e0 :: es) a ctx (best ctx p).cascaded) = true ↔
          ((best ctx p).cascaded = true ∨ MatcherProps.WithinBounds r a.length) ∧
          matchListContents (compareJson env) p (e0 :: es) a ctx = []) := by
      intro r hr
      have hrt := ht.types r hr
      have hl := typeRule_list r hrt (best ctx p).cascaded (e0 :: es) a
      have : compareListsWithRule listEqJson (compareJson env) r p (e0 :: es) a ctx (best ctx p).cascaded =
          ofList ((if listMatches listEqJson (e0 :: es) a r (best ctx p).cascaded then [] else [⟨p, .collection⟩])
            ++ matchListContents (compareJson env) p (e0 :: es) a ctx) := by
        cases r <;> simp [MatchingRule.isTypeMatcher] at hrt <;> rfl
      rw [this, isOk_ofList, List.isEmpty_iff, List.append_eq_nil_iff, ← hl]
      apply and_congr _ Iff.rfl
      split <;> simp_all
    constructor
    · intro h
      right
      refine ⟨fun r hr => ((hone r hr).1 (h r hr)).1, e0, es, rfl, ?_⟩
      obtain ⟨r, hr⟩ := List.exists_mem_of_ne_nil _ ht.ne
      exact hc.1 ((hone r hr).1 (h r hr)).2
    · rintro (h | ⟨h1, e1, es1, he, h2⟩)
      · simp at h
      · simp only [List.cons.injEq] at he
        obtain ⟨rfl, rfl⟩ := he
        exact fun r hr => (hone r hr).2 ⟨h1 r hr, hc.2 h2⟩

theorem typed_map (env : Env) {ctx : Ctx} (hb : ctx.cat.name = .body) (hn : NoKeyRules ctx) {p : DocPath}
    (ht : TypeBest ctx p) (e a : List (Str × Json)) :
    isOk (compareJson env p (.obj e) (.obj a) ctx) = true ↔
      (∀ r ∈ (best ctx p).rules, (best ctx p).cascaded = true ∨ MatcherProps.WithinBounds r a.length) ∧
      (match ctx.config with
       | .allowUnexpectedKeys => ∀ k ∈ Json.keys e, k ∈ Json.keys a
       | .noUnexpectedKeys => Json.keys e = Json.keys a) ∧
      ∀ kv ∈ e, ∀ y, Json.lookup kv.1 a = some y →
        isOk (compareJson env (join p kv.1) kv.2 y ctx) = true := by
  have hkeys := matchKeys_plain env hb hn p (Json.keys e) (Json.keys a)
  rw [compareJson_eq]
  simp only [compareStep, compareMaps]
  split
  · rename_i hc
    simp only [Bool.and_eq_true, decide_eq_true_eq, List.isEmpty_iff, Bool.not_eq_true'] at hc
    obtain ⟨⟨rfl, hc⟩, ha⟩ := hc
    rw [hc]
    simp only [isOk_error, Bool.false_eq_true, false_iff, not_and]
    intro _ hk
    cases a <;> simp_all [Json.keys]
  · simp only [ht.defined, if_true]
    rw [foldl_isOk]
    have hone : ∀ r ∈ (best ctx p).rules,
        (isOk (compareMapsWithRule env mapEqJson (compareJson env) r (best ctx p).cascaded p e a ctx) = true ↔
          ((best ctx p).cascaded = true ∨ MatcherProps.WithinBounds r a.length) ∧
          (isOk (matchKeys env ctx p (Json.keys e) (Json.keys a)) = true) ∧
          ∀ kv ∈ e, ∀ y, Json.lookup kv.1 a = some y →
            isOk (compareJson env (join p kv.1) kv.2 y ctx) = true) := by
      intro r hr
      have hrt := ht.types r hr
      have hnv : r.isValuesMatcher = false := by
        cases r <;> simp [MatchingRule.isTypeMatcher] at hrt <;> rfl
      have hmap : mapMatches mapEqJson e a r (best ctx p).cascaded = true ↔
          ((best ctx p).cascaded = true ∨ MatcherProps.WithinBounds r a.length) := by
        cases r <;> simp [MatchingRule.isTypeMatcher] at hrt <;> cases (best ctx p).cascaded <;>
          simp [mapMatches, MatcherProps.WithinBounds]
      unfold compareMapsWithRule
      simp only [hnv, Bool.and_false, Bool.false_eq_true, if_false]
      rw [commonLoop_ok, mergeResult_isOk, Bool.and_eq_true, and_assoc, ← hmap]
      apply and_congr _ Iff.rfl
      split <;> simp_all
    constructor
    · rintro ⟨_, h⟩
      obtain ⟨r, hr⟩ := List.exists_mem_of_ne_nil _ ht.ne
      have := (hone r hr).1 (h r hr)
      exact ⟨fun r hr => ((hone r hr).1 (h r hr)).1, hkeys.1 this.2.1, this.2.2⟩
    · rintro ⟨h1, h2, h3⟩
      exact ⟨rfl, fun r hr => (hone r hr).2 ⟨h1 r hr, hkeys.2 h2, h3⟩⟩

theorem plain_list (env : Env) {ctx : Ctx} {p : DocPath} (hd : isDefined ctx p = false) (e a : List Json) :
    isOk (compareJson env p (.arr e) (.arr a) ctx) = true ↔
      e.length = a.length ∧ ∀ (j : Nat) (x y : Json), e[j]? = some x → a[j]? = some y →
        isOk (compareJson env (join p (natStr j)) x y ctx) = true := by
  rw [compareJson_eq]
  simp only [compareStep, compareLists, hd, Bool.false_eq_true, if_false]
  have key : isOk (compareListContent (compareJson env) p ctx 0 e a (.ok ())) = true ∧ e.length = a.length ↔
      e.length = a.length ∧ ∀ (j : Nat) (x y : Json), e[j]? = some x → a[j]? = some y →
        isOk (compareJson env (join p (natStr j)) x y ctx) = true := by
    rw [compareListContent_ok]
    constructor
    · rintro ⟨⟨_, h1⟩, hl⟩
      refine ⟨hl, fun j x y hx hy => ?_⟩
      have := h1 j x hx
      rw [hy] at this
      simpa [itemOk] using this
    · rintro ⟨hl, h1⟩
      refine ⟨⟨rfl, fun j x hx => ?_⟩, hl⟩
      have hj : j < a.length := by
        rw [← hl]; exact (List.getElem?_eq_some_iff.1 hx).1
      have hy : a[j]? = some a[j] := List.getElem?_eq_getElem hj
      rw [hy]
      simpa [itemOk] using h1 j x _ hx hy
  split
  · rename_i he
    simp only [isOk_error, Bool.false_eq_true, false_iff, not_and]
    intro hl
    cases e <;> cases a <;> simp_all
  · split
    · rename_i hne
      rw [mergeResult_isOk]
      simp [hne]
    · rename_i hl
      have hl' : e.length = a.length := by omega
      rw [← key]; simp [hl']

theorem plain_map (env : Env) {ctx : Ctx} (hb : ctx.cat.name = .body) (hn : NoKeyRules ctx) {p : DocPath}
    (hd : isDefined ctx p = false) (e a : List (Str × Json)) :
    isOk (compareJson env p (.obj e) (.obj a) ctx) = true ↔
      (match ctx.config with
       | .allowUnexpectedKeys => ∀ k ∈ Json.keys e, k ∈ Json.keys a
       | .noUnexpectedKeys => Json.keys e = Json.keys a) ∧
      ∀ kv ∈ e, ∀ y, Json.lookup kv.1 a = some y →
        isOk (compareJson env (join p kv.1) kv.2 y ctx) = true := by
  rw [compareJson_eq]
  simp only [compareStep, compareMaps, hd]
  split
  · rename_i hc
    simp only [Bool.and_eq_true, decide_eq_true_eq, List.isEmpty_iff, Bool.not_eq_true'] at hc
    obtain ⟨⟨rfl, hc⟩, ha⟩ := hc
    rw [hc]
    simp only [isOk_error, Bool.false_eq_true, Json.keys, false_iff, not_and]
    intro hk
    cases a <;> simp_all
  · simp only [Bool.false_eq_true, if_false]
    rw [commonLoop_ok, mergeResult_isOk, isOk_ok, Bool.true_and, matchKeys_plain env hb hn]

/-- A scalar compared under a list of rules that must all hold. -/
theorem ruled_scalar (env : Env) {ctx : Ctx} {p : DocPath} (hd : isDefined ctx p = true)
    (hne : (best ctx p).rules ≠ []) (hl : (best ctx p).logic = .and) (e a : Json) :
    isOk (compareValues env p e a ctx) = true ↔
      ∀ r ∈ (best ctx p).rules, jsonMatches env e a r (best ctx p).cascaded = true := by
  unfold compareValues
  rw [if_pos hd]
  have hmv := MatcherProps.matchValues_ok_iff (jsonMatches env e a) (best ctx p)
  rw [hl] at hmv
  simp only [ne_eq, hne, not_false_eq_true, true_and] at hmv
  rw [← hmv]
  split
  · rename_i hok; rw [hok]; exact ⟨fun _ => rfl, fun _ => rfl⟩
  · rename_i hok; rw [hok]; exact ⟨fun h => by simp [isOk] at h, fun h => by cases h⟩

/-! ### Inherited type rules -/

/-- Everything at and below `p` is under type rules, or size rules defined further up. -/
structure Inherits (ctx : Ctx) (p : DocPath) : Prop where
  body : ctx.cat.name = .body
  some : ∃ e ∈ ctx.cat.rules, matchesPath e.1.tokens (toVec p) = true
  all : ∀ rest, ∀ e ∈ entriesAt ctx (toVec p ++ rest), e.2.rules ≠ [] ∧ e.2.logic = .and ∧
    ∀ r ∈ e.2.rules, r = .type ∨ (r.isTypeMatcher = true ∧ e.1.tokens.length < (toVec p ++ rest).length)

theorem Inherits.join {ctx : Ctx} {p : DocPath} (h : Inherits ctx p) (k : Str) : Inherits ctx (join p k) := by
  refine ⟨h.body, ?_, ?_⟩
  · obtain ⟨e, he, hm⟩ := h.some
    exact ⟨e, he, matches_join k hm⟩
  · intro rest e he
    rw [toVec_join_seg, List.append_assoc] at he ⊢
    exact h.all _ e he

theorem Inherits.best {ctx : Ctx} {p : DocPath} (h : Inherits ctx p) : TypeBest ctx p ∧
    ∀ r ∈ (best ctx p).rules, (best ctx p).cascaded = true ∨ r = .type := by
  rcases best_cases h.body p with ⟨_, h2, _⟩ | ⟨h1, e, he, h2, _⟩
  · obtain ⟨e, he, hm⟩ := h.some
    have : e ∈ entriesAt ctx (toVec p) := mem_entriesAt.2 ⟨he, hm⟩
    rw [h2] at this; simp at this
  · have hall := h.all [] e (by simpa using he)
    rw [h2]
    refine ⟨⟨h1, by rw [h2]; exact hall.1, by rw [h2]; exact hall.2.1, ?_⟩, ?_⟩
    · intro r hr
      rw [h2] at hr
      rcases hall.2.2 r hr with rfl | h
      · rfl
      · exact h.1
    · intro r hr
      rcases hall.2.2 r hr with rfl | h
      · exact Or.inr rfl
      · left
        simp only [List.append_nil] at h
        simp only [decide_eq_true_eq]
        omega

theorem Inherits.bounds {ctx : Ctx} {p : DocPath} (h : Inherits ctx p) (n : Nat) :
    ∀ r ∈ (Compare.best ctx p).rules, (Compare.best ctx p).cascaded = true ∨ MatcherProps.WithinBounds r n := by
  intro r hr
  rcases h.best.2 r hr with h | rfl
  · exact Or.inl h
  · exact Or.inr trivial

/-- Below type rules a value is accepted iff it is of the shape of the example. -/
theorem inherits_like (env : Env) (ctx : Ctx) (hn : NoKeyRules ctx) (p : DocPath) (h : Inherits ctx p) (e a : Json) :
    isOk (compareJson env p e a ctx) = true ↔ Like ctx.config e a := by
  have main : ∀ n, ∀ e : Json, e.depth < n → ∀ p a, Inherits ctx p →
      (isOk (compareJson env p e a ctx) = true ↔ Like ctx.config e a) := by
    intro n
    induction n with
    | zero => intro e h; omega
    | succ n ih =>
      intro e hd p a h
      cases e with
      | obj em =>
        cases a with
        | obj am =>
          rw [typed_map env h.body hn h.best.1]
          have hdm : ∀ kv ∈ em, kv.2.depth < n := fun kv hkv => by
            have := Json.depth_mem_entries hkv
            simp only [Json.depth] at hd; omega
          have step : ∀ kv ∈ em, ∀ y, (isOk (compareJson env (join p kv.1) kv.2 y ctx) = true ↔
              Like ctx.config kv.2 y) := fun kv hkv y => ih kv.2 (hdm kv hkv) _ y (h.join _)
          constructor
          · rintro ⟨_, h2, h3⟩
            refine Like.obj _ _ ?_ (fun k v w hkv hw => (step (k, v) hkv w).1 (h3 (k, v) hkv w hw))
            cases hcfg : ctx.config <;> rw [hcfg] at h2 <;> exact h2
          · intro hl
            cases hl with
            | obj _ _ hk hv =>
              refine ⟨h.bounds _, ?_, fun kv hkv y hy => (step kv hkv y).2 (hv _ _ _ hkv hy)⟩
              cases hcfg : ctx.config <;> rw [hcfg] at hk <;> exact hk
        | _ =>
          rw [compareJson_eq]
          simp only [compareStep, isOk_error, Bool.false_eq_true, false_iff]
          intro hl; cases hl
      | arr el =>
        cases a with
        | arr al =>
          rw [typed_list env h.body h.best.1]
          have hdm : ∀ x ∈ el, x.depth < n := fun x hx => by
            have := Json.depth_mem_list hx
            simp only [Json.depth] at hd; omega
          constructor
          · rintro (rfl | ⟨_, e0, es, rfl, h3⟩)
            · exact Like.arrEmpty _
            · refine Like.arr _ _ _ (fun i y hy => ?_)
              exact (ih _ (hdm _ (getD_mem i)) _ y (h.join _)).1 (h3 i y hy)
          · intro hl
            cases hl with
            | arrEmpty => exact Or.inl rfl
            | arr e0 es _ h3 =>
              refine Or.inr ⟨h.bounds _, e0, es, rfl, fun i y hy => ?_⟩
              exact (ih _ (hdm _ (getD_mem i)) _ y (h.join _)).2 (h3 i y hy)
        | _ =>
          rw [compareJson_eq]
          simp only [compareStep, isOk_error, Bool.false_eq_true, false_iff]
          intro hl; cases hl
      | _ =>
        rw [compareJson_eq]
        simp only [compareStep]
        have hb := h.best.1
        rw [ruled_scalar env hb.defined hb.ne hb.logic]
        obtain ⟨r, hr⟩ := List.exists_mem_of_ne_nil _ hb.ne
        constructor
        · intro hk
          have := (typeRule_scalar env r (hb.types r hr) _ _ a (by intro l m h; exact absurd h.1 (by simp))).1 (hk r hr)
          cases this <;> constructor
        · intro hl r hr
          refine (typeRule_scalar env r (hb.types r hr) _ _ a (by intro l m h; exact absurd h.1 (by simp))).2 ?_
          cases hl <;> constructor
  exact main (e.depth + 1) e (by omega) p a h

/-- Where no rule matches at or below `p`, the comparison is the one without rules (C15). -/
theorem untouched (env : Env) (ctx : Ctx) (hb : ctx.cat.name = .body) (p : DocPath)
    (h : ∀ rest, entriesAt ctx (toVec p ++ rest) = []) (e a : Json) (we : e.WF) (wa : a.WF) :
    isOk (compareJson env p e a ctx) = true ↔
      match ctx.config with
      | .noUnexpectedKeys => e = a
      | .allowUnexpectedKeys => Extends e a := by
  have hl : compareJson env p e a ctx = compareJson env p e a ⟨⟨.body, []⟩, ctx.config⟩ :=
    C69_locality env _ _ p e a ⟨rfl, hb, rfl, fun rest => by rw [h rest]; rfl⟩
  rw [hl, isOk_iff]
  cases hc : ctx.config with
  | noUnexpectedKeys => exact C15_strict env ⟨⟨.body, []⟩, .noUnexpectedKeys⟩ rfl rfl p e a we wa
  | allowUnexpectedKeys => exact C15_lenient env ⟨⟨.body, []⟩, .allowUnexpectedKeys⟩ rfl rfl p e a we wa

/-! ### What a pattern describes -/

/-- Specification: the document `a` is accepted by the pattern.  The flag says whether an enclosing `like` or
`each_like` makes everything below it match by type unless it has a pattern of its own. -/
inductive Accepts (env : Env) (config : DiffConfig) : Bool → Pattern → Json → Prop
  | literal (v a : Json)
      (h : match config with
        | .noUnexpectedKeys => v = a
        | .allowUnexpectedKeys => Extends v a) : Accepts env config false (.json v) a
  | literalByType (v a : Json) (h : Like config v a) : Accepts env config true (.json v) a
  | like (b : Bool) (p : Pattern) (a : Json) (hk : MatcherProps.SameJsonKind (toExample p) a)
      (h : Accepts env config true p a) : Accepts env config b (.like p) a
  | term (b : Bool) (re ex : Str) (a : Json) (h : regexMatches env re a.matcherText = true) :
      Accepts env config b (.term re ex) a
  | datetime (b : Bool) (f ex : Str) (a : Json)
      (h : env.datetime a.toStr (fmtOr "yyyy-MM-dd'T'HH:mm:ssXXX" f) = true) :
      Accepts env config b (.datetime f ex) a
  | eachLikeZero (b : Bool) (p : Pattern) (l : List Json) : Accepts env config b (.eachLike p 0) (.arr l)
  | eachLike (b : Bool) (p : Pattern) (m : Nat) (l : List Json) (hm : 0 < m) (hl : m ≤ l.length)
      (h : ∀ x ∈ l, Accepts env config true p x) : Accepts env config b (.eachLike p m) (.arr l)
  | arr (ps : List Pattern) (l : List Json) (hl : ps.length = l.length)
      (h : ∀ (i : Nat) p x, ps[i]? = some p → l[i]? = some x → Accepts env config false p x) :
      Accepts env config false (.arr ps) (.arr l)
  | arrNoExample (l : List Json) : Accepts env config true (.arr []) (.arr l)
  | arrByType (p0 : Pattern) (ps : List Pattern) (l : List Json)
      (h : ∀ (i : Nat) p x, (p0 :: ps)[i]? = some p → l[i]? = some x → Accepts env config true p x)
      (hmore : ∀ (i : Nat) x, (p0 :: ps).length ≤ i → l[i]? = some x → Like config (toExample p0) x) :
      Accepts env config true (.arr (p0 :: ps)) (.arr l)
  | obj (b : Bool) (fs : List (Str × Pattern)) (m : List (Str × Json))
      (hk : KeysMatch config (fs.map (·.1)) (m.map (·.1)))
      (h : ∀ k p x, (k, p) ∈ fs → Json.lookup k m = some x → Accepts env config b p x) :
      Accepts env config b (.obj fs) (.obj m)

/-! ### Rules of a pattern at its own path and below -/

/-- The rules of a pattern wrapped in `n` further `like`s. -/
def relN (n : Nat) (p : Pattern) : List (List PathToken × MatchingRule) := List.replicate n ([], .type) ++ rel p

theorem relN_like (n : Nat) (p : Pattern) : relN n (.like p) = relN (n + 1) p := by
  unfold relN
  simp only [rel]
  rw [List.replicate_succ', List.append_assoc]
  rfl

theorem rulesAt_replicate_nil (n : Nat) : rulesAt (List.replicate n ([], .type)) [] = List.replicate n .type := by
  simp [rulesAt]

theorem rulesAt_replicate_cons (n : Nat) (t : PathToken) (s : List PathToken) :
    rulesAt (List.replicate n ([], .type)) (t :: s) = [] := by
  simp [rulesAt]

theorem rulesAt_map (t : PathToken) (l : List (List PathToken × MatchingRule)) (s : List PathToken) :
    rulesAt (l.map (fun x => (t :: x.1, x.2))) (t :: s) = rulesAt l s := by
  unfold rulesAt
  rw [List.filter_map, List.map_map]
  congr 1
  apply List.filter_congr
  intro x _
  simp

theorem rulesAt_map_ne (t t' : PathToken) (h : t ≠ t') (l : List (List PathToken × MatchingRule)) (s : List PathToken) :
    rulesAt (l.map (fun x => (t :: x.1, x.2))) (t' :: s) = [] := by
  unfold rulesAt
  rw [List.map_eq_nil_iff, List.filter_eq_nil_iff]
  intro x hx
  obtain ⟨y, _, rfl⟩ := List.mem_map.1 hx
  simp [h]

theorem rulesAt_map_nil (t : PathToken) (l : List (List PathToken × MatchingRule)) :
    rulesAt (l.map (fun x => (t :: x.1, x.2))) [] = [] := by
  unfold rulesAt
  rw [List.map_eq_nil_iff, List.filter_eq_nil_iff]
  intro x hx
  obtain ⟨y, _, rfl⟩ := List.mem_map.1 hx
  simp

theorem rulesAt_eq_nil {l : List (List PathToken × MatchingRule)} {s : List PathToken} :
    rulesAt l s = [] ↔ ∀ r, (s, r) ∉ l := by
  unfold rulesAt
  rw [List.map_eq_nil_iff, List.filter_eq_nil_iff]
  constructor
  · intro h r hr; exact h _ hr (by simp)
  · rintro h ⟨s', r⟩ hx hs
    simp only [decide_eq_true_eq] at hs
    subst hs
    exact h r hx

theorem mem_rulesAt {l : List (List PathToken × MatchingRule)} {s : List PathToken} {r : MatchingRule} :
    r ∈ rulesAt l s ↔ (s, r) ∈ l := by
  unfold rulesAt
  rw [List.mem_map]
  constructor
  · rintro ⟨⟨s', r'⟩, hx, rfl⟩
    rw [List.mem_filter, decide_eq_true_eq] at hx
    obtain ⟨h1, rfl⟩ := hx
    exact h1
  · intro h
    exact ⟨(s, r), List.mem_filter.2 ⟨h, by simp⟩, rfl⟩

theorem rulesAt_items (ps : List Pattern) (s : List PathToken) : ∀ (i j : Nat) (p : Pattern), ps[j]? = some p →
    rulesAt (relItems i ps) (.index (i + j) :: s) = rulesAt (rel p) s := by
  induction ps with
  | nil => intro i j p h; simp at h
  | cons q qs ih =>
    intro i j p h
    simp only [relItems, rulesAt_append]
    cases j with
    | zero =>
      simp at h; subst h
      rw [Nat.add_zero, rulesAt_map]
      have : rulesAt (relItems (i + 1) qs) (.index i :: s) = [] := by
        rw [rulesAt_eq_nil]
        intro r hr
        obtain ⟨j, _, y, _, _, he⟩ := mem_relItems.1 hr
        simp at he
        omega
      rw [this, List.append_nil]
    | succ j =>
      rw [rulesAt_map_ne _ _ (by simp), List.nil_append]
      have := ih (i + 1) j p (by simpa using h)
      rw [← this]
      congr 3
      omega

theorem rulesAt_fields (fs : List (Str × Pattern)) (hn : (fs.map (·.1)).Nodup) (s : List PathToken) (k : Str)
    (p : Pattern) (h : (k, p) ∈ fs) : rulesAt (relFields fs) (.field k :: s) = rulesAt (rel p) s := by
  induction fs with
  | nil => simp at h
  | cons f fs ih =>
    obtain ⟨k', q⟩ := f
    simp only [relFields, relField, rulesAt_append]
    simp only [List.map_cons, List.nodup_cons] at hn
    rcases List.mem_cons.1 h with heq | h
    · simp only [Prod.mk.injEq] at heq
      obtain ⟨rfl, rfl⟩ := heq
      rw [rulesAt_map]
      have : rulesAt (relFields fs) (.field k :: s) = [] := by
        rw [rulesAt_eq_nil]
        intro r hr
        obtain ⟨f, hf, y, _, he⟩ := mem_relFields.1 hr
        simp only [Prod.mk.injEq, List.cons.injEq, PathToken.field.injEq] at he
        exact hn.1 (List.mem_map.2 ⟨f, hf, he.1.1.symm⟩)
      rw [this, List.append_nil]
    · have hne : k' ≠ k := by
        rintro rfl
        exact hn.1 (List.mem_map.2 ⟨(k', p), h, rfl⟩)
      rw [rulesAt_map_ne _ _ (by simpa using hne), List.nil_append]
      exact ih hn.2 h

/-- No rule of a pattern starts with `*`. -/
theorem rel_no_star (p : Pattern) : ∀ s r, (s, r) ∈ rel p → ∀ s', s ≠ .star :: s' := by
  refine pattern_induct (M := fun p => ∀ s r, (s, r) ∈ rel p → ∀ s', s ≠ .star :: s') ?_ ?_ ?_ ?_ ?_ ?_ ?_ ?_ p
  · intro v s r h; simp [rel] at h
  · intro items _ s r h s'
    simp only [rel] at h
    obtain ⟨_, _, _, _, _, he⟩ := mem_relItems.1 h
    simp only [Prod.mk.injEq] at he
    rw [he.1]; simp
  · intro fields _ s r h s'
    simp only [rel] at h
    obtain ⟨_, _, _, _, he⟩ := mem_relFields.1 h
    simp only [Prod.mk.injEq] at he
    rw [he.1]; simp
  · intro p ih s r h s'
    simp only [rel, List.mem_cons, Prod.mk.injEq] at h
    rcases h with ⟨rfl, _⟩ | h
    · simp
    · exact ih s r h s'
  · intro p m _ s r h s'
    simp only [rel, List.mem_cons, Prod.mk.injEq, List.mem_map] at h
    rcases h with ⟨rfl, _⟩ | ⟨rfl, _⟩ | ⟨_, _, rfl, _⟩ <;> simp
  · intro re ex s r h s'
    simp only [rel, List.mem_singleton, Prod.mk.injEq] at h
    rw [h.1]; simp
  · intro re ex s r h s'
    simp only [rel, List.mem_singleton, Prod.mk.injEq] at h
    rw [h.1]; simp
  · intro p rs _ s r h; simp [rel] at h

/-- The rules of a pattern at its own path. -/
def own (n : Nat) (p : Pattern) : List MatchingRule := rulesAt (relN n p) []

theorem own_eq (n : Nat) (p : Pattern) : own n p = List.replicate n .type ++ rulesAt (rel p) [] := by
  unfold own relN
  rw [rulesAt_append, rulesAt_replicate_nil]

theorem own_json (n : Nat) (v : Json) : own n (.json v) = List.replicate n .type := by
  rw [own_eq]; simp [rel, rulesAt]

theorem own_arr (n : Nat) (ps : List Pattern) : own n (.arr ps) = List.replicate n .type := by
  rw [own_eq]
  have : rulesAt (rel (.arr ps)) [] = [] := by
    rw [rulesAt_eq_nil]
    intro r hr
    simp only [rel] at hr
    obtain ⟨_, _, _, _, _, he⟩ := mem_relItems.1 hr
    simp at he
  rw [this, List.append_nil]

theorem own_obj (n : Nat) (fs : List (Str × Pattern)) : own n (.obj fs) = List.replicate n .type := by
  rw [own_eq]
  have : rulesAt (rel (.obj fs)) [] = [] := by
    rw [rulesAt_eq_nil]
    intro r hr
    simp only [rel] at hr
    obtain ⟨_, _, _, _, he⟩ := mem_relFields.1 hr
    simp at he
  rw [this, List.append_nil]

theorem own_each (n : Nat) (p : Pattern) (m : Nat) :
    own n (.eachLike p m) = List.replicate n .type ++ [.minType m] := by
  rw [own_eq]
  simp only [rel]
  have : rulesAt (([], .minType m) :: ([.starIndex, .star], .type) ::
      (rel p).map (fun x => (PathToken.starIndex :: x.1, x.2))) [] =
      .minType m :: rulesAt ((rel p).map (fun x => (PathToken.starIndex :: x.1, x.2))) [] := by
    simp [rulesAt]
  rw [this, rulesAt_map_nil]

theorem own_term (n : Nat) (re ex : Str) : own n (.term re ex) = List.replicate n .type ++ [.regex re] := by
  rw [own_eq]; simp [rel, rulesAt]

theorem own_datetime (n : Nat) (f ex : Str) :
    own n (.datetime f ex) = List.replicate n .type ++ [.timestamp f] := by
  rw [own_eq]; simp [rel, rulesAt]

/-- The pattern inside all the `like`s. -/
def core : Pattern → Pattern
  | .like p => core p
  | p => p

/-- A pattern without rules of its own but type rules. -/
def ByType : Pattern → Prop
  | .json _ | .arr _ | .obj _ => True
  | .like p => ByType p
  | _ => False

/-- If the pattern is an `each_like`, its elements have no rules of their own but type rules. -/
def ElemByType (p : Pattern) : Prop :=
  match core p with
  | .eachLike c _ => ∀ r ∈ own 0 c, r = .type
  | _ => True

/-- An `each_like` directly inside an `each_like` has elements without rules of their own (but type rules): otherwise
the rule of the inner elements and the `[*].*` rule of the outer `each_like` are equally specific, and which one is
used depends on the iteration order of a hash map (`C71_nested_each_like_ambiguous`). -/
def Unambiguous : Pattern → Prop
  | .eachLike p _ => match core p with
    | .eachLike c _ => ByType c
    | _ => True
  | _ => True

theorem byType_own (c : Pattern) : ∀ n, ByType c → ∀ r ∈ own n c, r = .type := by
  have rep : ∀ n, ∀ r ∈ List.replicate n MatchingRule.type, r = .type := fun n r h => List.eq_of_mem_replicate h
  refine pattern_induct (M := fun c => ∀ n, ByType c → ∀ r ∈ own n c, r = .type) ?_ ?_ ?_ ?_ ?_ ?_ ?_ ?_ c
  · intro v n _; rw [own_json]; exact rep n
  · intro ps _ n _; rw [own_arr]; exact rep n
  · intro fs _ n _; rw [own_obj]; exact rep n
  · intro q ih n h
    have h1 : own n (.like q) = own (n + 1) q := by unfold own; rw [relN_like]
    rw [h1]
    exact ih (n + 1) (by simpa [ByType] using h)
  · intro q m _ n h; exact absurd h (by simp [ByType])
  · intro q m n h; exact absurd h (by simp [ByType])
  · intro q m n h; exact absurd h (by simp [ByType])
  · intro q m _ n h; exact absurd h (by simp [ByType])

theorem unambiguous_elem {p : Pattern} {m : Nat} (h : Unambiguous (.eachLike p m)) : ElemByType p := by
  simp only [Unambiguous] at h
  unfold ElemByType
  cases hc : core p with
  | eachLike c k => rw [hc] at h; exact byType_own c 0 h
  | _ => trivial

/-! ### The table seen from a location -/

/-- A rule that comes from further up: a type rule, or a size rule defined above the location; less specific than
the rules of the pattern at the location, or equivalent to them. -/
def Outer (e : DocPath × RuleList) (ts : List PathToken) (n : Nat) (pat : Pattern) : Prop :=
  e.2.rules ≠ [] ∧ e.2.logic = .and ∧ (∀ r ∈ e.2.rules, r.isTypeMatcher = true) ∧
    ((specificity e.1.tokens < specificity ts ∧ (e.1.tokens.length < ts.length ∨
        (e.1.tokens.length = ts.length ∧ ∀ r ∈ e.2.rules, r = .type))) ∨
     ((∀ r ∈ e.2.rules, r = .type) ∧ e.1.tokens.length = ts.length + 1 ∧
        e.1.tokens.countP isExact = ts.countP isExact ∧ ElemByType pat) ∨
     ((∀ r ∈ e.2.rules, r = .type) ∧ e.1.tokens.length = ts.length ∧ specificity e.1.tokens = specificity ts ∧
        ∀ r ∈ own n pat, r = .type))

/-- A rule of the pattern at the location. -/
def Inner (e : DocPath × RuleList) (ts : List PathToken) (n : Nat) (pat : Pattern) : Prop :=
  ∃ s, (∃ r, (s, r) ∈ relN n pat) ∧ e.1.tokens = ts ++ s ∧ e.2.rules = rulesAt (relN n pat) s ∧ e.2.logic = .and

/-- The table as seen from the path `p` of the pattern `pat` (inside `n` `like`s). -/
structure Sit (ctx : Ctx) (p : DocPath) (ts : List PathToken) (n : Nat) (pat : Pattern) (inh : Bool) : Prop where
  body : ctx.cat.name = .body
  short : ShortPaths ctx.cat
  plain : NoKeyRules ctx
  len : ts.length = (toVec p).length
  mat : PrefixMatches ts (toVec p)
  split : ∀ e ∈ ctx.cat.rules, ∀ rest, PrefixMatches e.1.tokens (toVec p ++ rest) →
    (inh = true ∧ Outer e ts n pat) ∨ Inner e ts n pat
  inner : ∀ s r, (s, r) ∈ relN n pat → ∃ e ∈ ctx.cat.rules, e.1.tokens = ts ++ s
  inherit : inh = true → ∃ e ∈ ctx.cat.rules, PrefixMatches e.1.tokens (toVec p)

theorem Sit.like {ctx : Ctx} {p : DocPath} {ts : List PathToken} {n : Nat} {q : Pattern} {inh : Bool}
    (h : Sit ctx p ts n (.like q) inh) : Sit ctx p ts (n + 1) q inh := by
  refine ⟨h.body, h.short, h.plain, h.len, h.mat, ?_, ?_, h.inherit⟩
  · intro e he rest hm
    have := h.split e he rest hm
    have ho : own n (.like q) = own (n + 1) q := by unfold own; rw [relN_like]
    unfold Outer Inner at *
    rw [relN_like, ho] at this
    exact this
  · intro s r hs
    rw [← relN_like] at hs
    exact h.inner s r hs

theorem prefixMatches_append {ts us : List PathToken} {fs gs : List Str} (hl : ts.length = fs.length) :
    PrefixMatches (ts ++ us) (fs ++ gs) ↔ PrefixMatches ts fs ∧ PrefixMatches us gs := by
  induction ts generalizing fs with
  | nil =>
    cases fs with
    | nil => simp [prefixMatches_nil]
    | cons _ _ => simp at hl
  | cons t ts ih =>
    cases fs with
    | nil => simp at hl
    | cons f fs =>
      simp only [List.cons_append, prefixMatches_cons, ih (by simpa using hl), and_assoc]

theorem prefixMatches_extend {ts : List PathToken} {fs : List Str} (gs : List Str) (h : PrefixMatches ts fs) :
    PrefixMatches ts (fs ++ gs) := by
  refine ⟨by rw [List.length_append]; have := h.1; omega, fun i t f ht hf => ?_⟩
  have hi : i < ts.length := (List.getElem?_eq_some_iff.1 ht).1
  have hif : i < fs.length := Nat.lt_of_lt_of_le hi h.1
  rw [List.getElem?_append_left hif] at hf
  exact h.2 i t f ht hf

theorem Sit.entries {ctx : Ctx} {p : DocPath} {ts : List PathToken} {n : Nat} {q : Pattern} {inh : Bool}
    (h : Sit ctx p ts n q inh) {rest : List Str} {e : DocPath × RuleList} :
    e ∈ entriesAt ctx (toVec p ++ rest) ↔ e ∈ ctx.cat.rules ∧ PrefixMatches e.1.tokens (toVec p ++ rest) := by
  rw [mem_entriesAt]
  constructor
  · rintro ⟨h1, h2⟩; exact ⟨h1, (matches_iff _ (h.short e h1)).1 h2⟩
  · rintro ⟨h1, h2⟩; exact ⟨h1, (matches_iff _ (h.short e h1)).2 h2⟩

/-- With rules of its own that are not all type rules, a pattern is compared by them. -/
theorem Sit.best_own {ctx : Ctx} {p : DocPath} {ts : List PathToken} {n : Nat} {q : Pattern} {inh : Bool}
    (h : Sit ctx p ts n q inh) (r0 : MatchingRule) (hr0 : r0 ∈ own n q) (hne : r0 ≠ .type) :
    isDefined ctx p = true ∧ best ctx p = ⟨own n q, .and, false⟩ := by
  obtain ⟨e0, he0, ht0⟩ := h.inner [] r0 (mem_rulesAt.1 hr0)
  rw [List.append_nil] at ht0
  have hin0 : e0 ∈ entriesAt ctx (toVec p) := by
    have := h.entries (rest := []) (e := e0)
    rw [List.append_nil] at this
    exact this.2 ⟨he0, by rw [ht0]; exact h.mat⟩
  rcases best_cases h.body p with ⟨_, h2, _⟩ | ⟨h1, e, he, h2, hmax⟩
  · rw [h2] at hin0; simp at hin0
  · refine ⟨h1, ?_⟩
    have hem := (h.entries (rest := []) (e := e)).1 (by simpa using he)
    have hpm := hem.2
    rw [List.append_nil] at hpm
    have hle := hmax e0 hin0
    rw [score_eq _ _ (h.short e0 he0) (by rw [ht0]; exact h.mat), score_eq _ _ (h.short e hem.1) hpm, ht0] at hle
    rcases h.split e hem.1 [] hem.2 with ⟨_, ho⟩ | ⟨s, _, hs1, hs2, hs3⟩
    · exfalso
      rcases ho.2.2.2 with ⟨h3, _⟩ | ⟨_, h3, _⟩ | ⟨_, _, _, h3⟩
      · omega
      · have := hpm.1
        rw [h3, h.len] at this
        omega
      · exact hne (h3 r0 hr0)
    · have hs : s = [] := by
        have := hpm.1
        rw [hs1, List.length_append, h.len] at this
        exact List.eq_nil_of_length_eq_zero (by omega)
      subst hs
      rw [h2, hs2, hs3, hs1, List.append_nil, h.len]
      simp [own]

/-- Otherwise it is compared by type rules (its own or inherited ones) if there are any, and without rules if not. -/
theorem Sit.best_type {ctx : Ctx} {p : DocPath} {ts : List PathToken} {n : Nat} {q : Pattern} {inh : Bool}
    (h : Sit ctx p ts n q inh) (hown : own n q = List.replicate n .type) :
    (((inh || decide (n > 0)) = true → TypeBest ctx p ∧
      ∀ r ∈ (best ctx p).rules, (best ctx p).cascaded = true ∨ r = .type) ∧
    ((inh || decide (n > 0)) = false → isDefined ctx p = false)) := by
  constructor
  · intro hflag
    have hsome : ∃ e ∈ ctx.cat.rules, PrefixMatches e.1.tokens (toVec p) := by
      cases inh with
      | true => exact h.inherit rfl
      | false =>
        simp only [Bool.false_or, decide_eq_true_eq] at hflag
        have : MatchingRule.type ∈ own n q := by
          rw [hown, List.mem_replicate]; exact ⟨by omega, rfl⟩
        obtain ⟨e0, he0, ht0⟩ := h.inner [] _ (mem_rulesAt.1 this)
        rw [List.append_nil] at ht0
        exact ⟨e0, he0, by rw [ht0]; exact h.mat⟩
    obtain ⟨e0, he0, hm0⟩ := hsome
    have hin0 : e0 ∈ entriesAt ctx (toVec p) := by
      have := h.entries (rest := []) (e := e0)
      rw [List.append_nil] at this
      exact this.2 ⟨he0, hm0⟩
    rcases best_cases h.body p with ⟨_, h2, _⟩ | ⟨h1, e, he, h2, _⟩
    · rw [h2] at hin0; simp at hin0
    · have hem := (h.entries (rest := []) (e := e)).1 (by simpa using he)
      have hpm := hem.2
      rw [List.append_nil] at hpm
      rcases h.split e hem.1 [] hem.2 with ⟨_, ho⟩ | ⟨s, ⟨r0, hs0⟩, hs1, hs2, hs3⟩
      · refine ⟨⟨h1, by rw [h2]; exact ho.1, by rw [h2]; exact ho.2.1, by rw [h2]; exact ho.2.2.1⟩, ?_⟩
        rw [h2]
        intro r hr
        rcases ho.2.2.2 with ⟨_, h3 | ⟨_, h3⟩⟩ | ⟨h3, _⟩ | ⟨h3, _⟩
        · left
          simp only [decide_eq_true_eq]
          rw [h.len] at h3
          omega
        · exact Or.inr (h3 r hr)
        · exact Or.inr (h3 r hr)
        · exact Or.inr (h3 r hr)
      · have hs : s = [] := by
          have := hpm.1
          rw [hs1, List.length_append, h.len] at this
          exact List.eq_nil_of_length_eq_zero (by omega)
        subst hs
        have hr : e.2.rules = List.replicate n .type := by rw [hs2]; exact hown
        have hn : n ≠ 0 := by
          intro hn
          have : r0 ∈ own n q := mem_rulesAt.2 hs0
          rw [hown, hn] at this; simp at this
        refine ⟨⟨h1, ?_, by rw [h2]; exact hs3, ?_⟩, ?_⟩
        · rw [h2, hr]; simp [hn]
        · intro r hrm
          rw [h2, hr] at hrm
          rw [List.eq_of_mem_replicate hrm]; rfl
        · intro r hrm
          rw [h2, hr] at hrm
          exact Or.inr (List.eq_of_mem_replicate hrm)
  · intro hflag
    simp only [Bool.or_eq_false_iff, decide_eq_false_iff_not] at hflag
    rcases best_cases h.body p with ⟨h1, _⟩ | ⟨h1, e, he, h2, _⟩
    · exact h1
    · exfalso
      have hem := (h.entries (rest := []) (e := e)).1 (by simpa using he)
      have hpm := hem.2
      rw [List.append_nil] at hpm
      rcases h.split e hem.1 [] hem.2 with ⟨h3, _⟩ | ⟨s, ⟨r0, hs0⟩, hs1, _, _⟩
      · rw [hflag.1] at h3; cases h3
      · have hs : s = [] := by
          have := hpm.1
          rw [hs1, List.length_append, h.len] at this
          exact List.eq_nil_of_length_eq_zero (by omega)
        subst hs
        have : r0 ∈ own n q := mem_rulesAt.2 hs0
        have hn : n = 0 := by omega
        rw [hown, hn] at this; simp at this

/-! ### Moving to a child -/

theorem specificity_snoc (ts : List PathToken) (t : PathToken) : specificity ts < specificity (ts ++ [t]) := by
  unfold specificity
  rw [List.countP_append, List.length_append, Nat.pow_add]
  simp only [List.length_cons, List.length_nil]
  have h1 : 0 < 2 ^ ts.countP isExact := Nat.two_pow_pos _
  have h2 : 1 ≤ 2 ^ [t].countP isExact := Nat.one_le_two_pow
  calc 2 ^ ts.countP isExact * ts.length < 2 ^ ts.countP isExact * (ts.length + (0 + 1)) :=
        (Nat.mul_lt_mul_left h1).2 (by omega)
    _ ≤ 2 ^ ts.countP isExact * 2 ^ [t].countP isExact * (ts.length + (0 + 1)) :=
        Nat.mul_le_mul_right _ (Nat.le_mul_of_pos_right _ h2)

theorem specificity_exact (ts us : List PathToken) (t : PathToken) (ht : isExact t = true)
    (hl : us.length = ts.length + 1) (hc : us.countP isExact = ts.countP isExact) :
    specificity us < specificity (ts ++ [t]) := by
  unfold specificity
  rw [List.countP_append, List.length_append, hl, hc]
  have : [t].countP isExact = 1 := by simp [ht]
  rw [this, Nat.pow_succ]
  simp only [List.length_cons, List.length_nil, Nat.zero_add]
  have h1 : 0 < 2 ^ ts.countP isExact := Nat.two_pow_pos _
  exact Nat.mul_lt_mul_of_pos_right (by omega) (by omega)

theorem Outer.child {e : DocPath × RuleList} {ts : List PathToken} {n : Nat} {q : Pattern}
    (h : Outer e ts n q) (t : PathToken) (ht : isExact t = true) (c : Pattern) : Outer e (ts ++ [t]) 0 c := by
  obtain ⟨h1, h2, h3, h4⟩ := h
  refine ⟨h1, h2, h3, Or.inl ?_⟩
  have hs := specificity_snoc ts t
  rcases h4 with ⟨h5, h6⟩ | ⟨h5, h6, h7, _⟩ | ⟨h5, h6, h7, _⟩
  · refine ⟨by omega, Or.inl ?_⟩
    rw [List.length_append]
    rcases h6 with h6 | ⟨h6, _⟩ <;> simp only [List.length_cons, List.length_nil] <;> omega
  · refine ⟨specificity_exact ts _ t ht h6 h7, Or.inr ⟨?_, h5⟩⟩
    rw [List.length_append]; simp only [List.length_cons, List.length_nil]; omega
  · refine ⟨by omega, Or.inl ?_⟩
    rw [List.length_append]; simp only [List.length_cons, List.length_nil]; omega

theorem Outer.elem {e : DocPath × RuleList} {ts : List PathToken} {n m : Nat} {c : Pattern}
    (h : Outer e ts n (.eachLike c m)) : Outer e (ts ++ [.starIndex]) 0 c := by
  obtain ⟨h1, h2, h3, h4⟩ := h
  refine ⟨h1, h2, h3, ?_⟩
  have hs := specificity_snoc ts .starIndex
  rcases h4 with ⟨h5, h6⟩ | ⟨h5, h6, h7, h8⟩ | ⟨h5, h6, h7, _⟩
  · refine Or.inl ⟨by omega, Or.inl ?_⟩
    rw [List.length_append]
    rcases h6 with h6 | ⟨h6, _⟩ <;> simp only [List.length_cons, List.length_nil] <;> omega
  · refine Or.inr (Or.inr ⟨h5, ?_, ?_, h8⟩)
    · rw [List.length_append]; simp only [List.length_cons, List.length_nil]; omega
    · unfold specificity
      rw [List.countP_append, List.length_append, h6, h7]
      simp [isExact]
  · refine Or.inl ⟨by omega, Or.inl ?_⟩
    rw [List.length_append]; simp only [List.length_cons, List.length_nil]; omega

theorem outer_own {e : DocPath × RuleList} {ts : List PathToken} (t : PathToken) (c : Pattern)
    (ht : e.1.tokens = ts) (h1 : e.2.rules ≠ []) (h2 : e.2.logic = .and)
    (h3 : ∀ r ∈ e.2.rules, r.isTypeMatcher = true) : Outer e (ts ++ [t]) 0 c := by
  refine ⟨h1, h2, h3, Or.inl ⟨?_, Or.inl ?_⟩⟩
  · rw [ht]; exact specificity_snoc ts t
  · rw [ht, List.length_append]; simp

/-- A child of an array or object pattern. -/
theorem Sit.child {ctx : Ctx} {p : DocPath} {ts : List PathToken} {n : Nat} {q : Pattern} {inh : Bool}
    (h : Sit ctx p ts n q inh) (hown : own n q = List.replicate n .type) (t : PathToken) (ht : isExact t = true)
    (k : Str) (hk : SegMatches t (seg k)) (c : Pattern)
    (hrel : ∀ s r, (s, r) ∈ rel q → ∃ t' s', s = t' :: s' ∧ (SegMatches t' (seg k) → t' = t ∧
      (∃ r', (s', r') ∈ rel c) ∧ rulesAt (rel q) s = rulesAt (rel c) s'))
    (hback : ∀ s' r, (s', r) ∈ rel c → (t :: s', r) ∈ rel q) :
    Sit ctx (join p k) (ts ++ [t]) 0 c (inh || decide (n > 0)) := by
  have hv := toVec_join_seg p k
  refine ⟨h.body, h.short, h.plain, ?_, ?_, ?_, ?_, ?_⟩
  · rw [hv, List.length_append, List.length_append, h.len]; rfl
  · rw [hv, prefixMatches_append h.len]
    exact ⟨h.mat, prefixMatches_cons.2 ⟨hk, prefixMatches_nil _⟩⟩
  · intro e he rest hm
    rw [hv, List.append_assoc] at hm
    rcases h.split e he _ hm with ⟨hi, ho⟩ | ⟨s, ⟨r0, hs0⟩, hs1, hs2, hs3⟩
    · exact Or.inl ⟨by rw [hi]; rfl, ho.child t ht c⟩
    · cases s with
      | nil =>
        rw [List.append_nil] at hs1
        have hr : e.2.rules = List.replicate n .type := by rw [hs2]; exact hown
        have hn : n ≠ 0 := by
          intro hn
          have : r0 ∈ own n q := mem_rulesAt.2 hs0
          rw [hown, hn] at this; simp at this
        refine Or.inl ⟨by simp; omega, outer_own t c hs1 (by rw [hr]; simp [hn]) hs3 ?_⟩
        intro r hrm
        rw [hr] at hrm
        rw [List.eq_of_mem_replicate hrm]; rfl
      | cons t1 s1 =>
        have hs0' : (t1 :: s1, r0) ∈ rel q := by
          unfold relN at hs0
          rcases List.mem_append.1 hs0 with h | h
          · have := List.eq_of_mem_replicate h; simp at this
          · exact h
        obtain ⟨t', s', heq, himp⟩ := hrel _ _ hs0'
        simp only [List.cons.injEq] at heq
        obtain ⟨rfl, rfl⟩ := heq
        rw [hs1, prefixMatches_append h.len] at hm
        have hm2 := hm.2
        rw [List.singleton_append, prefixMatches_cons] at hm2
        obtain ⟨rfl, ⟨r', hr'⟩, hrules⟩ := himp hm2.1
        refine Or.inr ⟨s1, ⟨r', ?_⟩, ?_, ?_, hs3⟩
        · simpa [relN] using hr'
        · rw [hs1]; simp
        · rw [hs2]
          have h1 : rulesAt (relN n q) (t1 :: s1) = rulesAt (rel q) (t1 :: s1) := by
            unfold relN; rw [rulesAt_append, rulesAt_replicate_cons, List.nil_append]
          rw [h1, hrules]
          simp [relN]
  · intro s r hs
    have hs : (s, r) ∈ rel c := by simpa [relN] using hs
    obtain ⟨e, he, hte⟩ := h.inner (t :: s) r (by
      unfold relN; exact List.mem_append_right _ (hback s r hs))
    exact ⟨e, he, by rw [hte]; simp⟩
  · intro hflag
    have hsome : ∃ e ∈ ctx.cat.rules, PrefixMatches e.1.tokens (toVec p) := by
      cases inh with
      | true => exact h.inherit rfl
      | false =>
        simp only [Bool.false_or, decide_eq_true_eq] at hflag
        have : MatchingRule.type ∈ own n q := by
          rw [hown, List.mem_replicate]; exact ⟨by omega, rfl⟩
        obtain ⟨e0, he0, ht0⟩ := h.inner [] _ (mem_rulesAt.1 this)
        rw [List.append_nil] at ht0
        exact ⟨e0, he0, by rw [ht0]; exact h.mat⟩
    obtain ⟨e0, he0, hm0⟩ := hsome
    exact ⟨e0, he0, by rw [hv]; exact prefixMatches_extend _ hm0⟩

/-- An element of an `each_like` pattern. -/
theorem Sit.elem {ctx : Ctx} {p : DocPath} {ts : List PathToken} {n m : Nat} {c : Pattern} {inh : Bool}
    (h : Sit ctx p ts n (.eachLike c m) inh) (hu : ElemByType c) (i : Nat) (hi : i < usizeLim) :
    Sit ctx (join p (natStr i)) (ts ++ [.starIndex]) 0 c true := by
  have hv := toVec_join_seg p (natStr i)
  rw [seg_natStr] at hv
  refine ⟨h.body, h.short, h.plain, ?_, ?_, ?_, ?_, ?_⟩
  · rw [hv, List.length_append, List.length_append, h.len]; rfl
  · rw [hv, prefixMatches_append h.len]
    exact ⟨h.mat, prefixMatches_cons.2 ⟨.starIndex i _ (parseUsize_natStr hi), prefixMatches_nil _⟩⟩
  · intro e he rest hm
    rw [hv, List.append_assoc] at hm
    rcases h.split e he _ hm with ⟨_, ho⟩ | ⟨s, ⟨r0, hs0⟩, hs1, hs2, hs3⟩
    · exact Or.inl ⟨rfl, ho.elem⟩
    · cases s with
      | nil =>
        rw [List.append_nil] at hs1
        have hr : e.2.rules = List.replicate n .type ++ [.minType m] := by rw [hs2]; exact own_each n c m
        refine Or.inl ⟨rfl, outer_own .starIndex c hs1 (by rw [hr]; simp) hs3 ?_⟩
        intro r hrm
        rw [hr] at hrm
        rcases List.mem_append.1 hrm with h | h
        · rw [List.eq_of_mem_replicate h]; rfl
        · rw [List.mem_singleton.1 h]; rfl
      | cons t1 s1 =>
        have hs0' : (t1 :: s1, r0) ∈ rel (.eachLike c m) := by
          unfold relN at hs0
          rcases List.mem_append.1 hs0 with h | h
          · have := List.eq_of_mem_replicate h; simp at this
          · exact h
        have h1 : rulesAt (relN n (.eachLike c m)) (t1 :: s1) = rulesAt (rel (.eachLike c m)) (t1 :: s1) := by
          unfold relN; rw [rulesAt_append, rulesAt_replicate_cons, List.nil_append]
        rw [h1] at hs2
        simp only [rel, List.mem_cons, Prod.mk.injEq, List.mem_map, reduceCtorEq, false_and, false_or,
          List.cons.injEq] at hs0'
        have hcons : rulesAt (rel (.eachLike c m)) (.starIndex :: s1) =
            (if s1 = [.star] then [.type] else []) ++ rulesAt (rel c) s1 := by
          simp only [rel]
          have : ∀ l : List (List PathToken × MatchingRule), rulesAt (([], .minType m) ::
              ([.starIndex, .star], .type) :: l) (.starIndex :: s1) =
              (if s1 = [.star] then [.type] else []) ++ rulesAt l (.starIndex :: s1) := by
            intro l
            unfold rulesAt
            by_cases hstar : s1 = [.star]
            · simp [hstar]
            · have : ¬ [PathToken.star] = s1 := fun h => hstar h.symm
              simp [hstar, this]
          rw [this, rulesAt_map]
        rcases hs0' with ⟨⟨rfl, rfl⟩, rfl⟩ | ⟨x, hx, ⟨rfl, rfl⟩, rfl⟩
        · refine Or.inl ⟨rfl, ?_⟩
          have hno : rulesAt (rel c) [.star] = [] := by
            rw [rulesAt_eq_nil]
            intro r hr
            exact rel_no_star c _ _ hr [] rfl
          rw [hcons, hno] at hs2
          simp only [if_true, List.append_nil] at hs2
          refine ⟨by rw [hs2]; simp, hs3, ?_, Or.inr (Or.inl ⟨?_, ?_, ?_, hu⟩)⟩
          · intro r hr; rw [hs2] at hr; rw [List.mem_singleton.1 hr]; rfl
          · intro r hr; rw [hs2] at hr; exact List.mem_singleton.1 hr
          · rw [hs1]; simp
          · rw [hs1]; simp [List.countP_append, List.countP_cons, isExact]
        · obtain ⟨s1, r0⟩ := x
          dsimp only at *
          have hne : s1 ≠ [.star] := fun heq => rel_no_star c _ _ hx [] heq
          rw [hcons, if_neg hne, List.nil_append] at hs2
          refine Or.inr ⟨s1, ⟨r0, by simpa [relN] using hx⟩, by rw [hs1]; simp, ?_, hs3⟩
          rw [hs2]; simp [relN]
  · intro s r hs
    have hs : (s, r) ∈ rel c := by simpa [relN] using hs
    obtain ⟨e, he, hte⟩ := h.inner (.starIndex :: s) r (by
      unfold relN
      apply List.mem_append_right
      simp only [rel]
      exact List.mem_cons_of_mem _ (List.mem_cons_of_mem _ (List.mem_map.2 ⟨(s, r), hs, rfl⟩)))
    exact ⟨e, he, by rw [hte]; simp⟩
  · intro _
    have : MatchingRule.minType m ∈ own n (.eachLike c m) := by rw [own_each]; simp
    obtain ⟨e0, he0, ht0⟩ := h.inner [] _ (mem_rulesAt.1 this)
    rw [List.append_nil] at ht0
    refine ⟨e0, he0, ?_⟩
    rw [hv, ht0]
    exact prefixMatches_extend _ h.mat

/-! ### The documents a pattern accepts -/

/-- The JSON literals of a pattern have sorted distinct keys (the representation invariant of JSON values). -/
def LiteralWF : Pattern → Prop
  | .json v => v.WF
  | _ => True

/-- All the arrays of a document have a length that fits in a `usize`. -/
def VecSized (a : Json) : Prop := ∀ rest l, At a rest (.arr l) → l.length < usizeLim

theorem VecSized.item {l : List Json} (h : VecSized (.arr l)) {i : Nat} {x : Json} (hi : l[i]? = some x) :
    VecSized x := fun _ m hm => h _ m (At.item hi hm)

theorem VecSized.field {m : List (Str × Json)} (h : VecSized (.obj m)) {k : Str} {x : Json} (hk : (k, x) ∈ m) :
    VecSized x := fun _ l hl => h _ l (At.field hk hl)

theorem VecSized.length {l : List Json} (h : VecSized (.arr l)) : l.length < usizeLim := h [] l (.here _)

/-- Under type rules that do not concern any part of the pattern below it, everything matches by type. -/
theorem Sit.inherits {ctx : Ctx} {p : DocPath} {ts : List PathToken} {n : Nat} {q : Pattern} {inh : Bool}
    (h : Sit ctx p ts n q inh) (hown : own n q = List.replicate n .type) (hflag : (inh || decide (n > 0)) = true)
    (rest0 : List Str) (hno : ∀ s r, (s, r) ∈ rel q → ∀ rest, ¬ PrefixMatches s (rest0 ++ rest))
    (p' : DocPath) (hp : toVec p' = toVec p ++ rest0) : Inherits ctx p' := by
  refine ⟨h.body, ?_, ?_⟩
  · have hsome : ∃ e ∈ ctx.cat.rules, PrefixMatches e.1.tokens (toVec p) := by
      cases inh with
      | true => exact h.inherit rfl
      | false =>
        simp only [Bool.false_or, decide_eq_true_eq] at hflag
        have : MatchingRule.type ∈ own n q := by
          rw [hown, List.mem_replicate]; exact ⟨by omega, rfl⟩
        obtain ⟨e0, he0, ht0⟩ := h.inner [] _ (mem_rulesAt.1 this)
        rw [List.append_nil] at ht0
        exact ⟨e0, he0, by rw [ht0]; exact h.mat⟩
    obtain ⟨e, he, hm⟩ := hsome
    refine ⟨e, he, (matches_iff _ (h.short e he)).2 ?_⟩
    rw [hp]
    exact prefixMatches_extend _ hm
  · intro rest e he
    rw [hp, List.append_assoc] at he ⊢
    rw [h.entries] at he
    have hpm := he.2
    rcases h.split e he.1 _ he.2 with ⟨_, h1, h2, h3, h4⟩ | ⟨s, ⟨r0, hs0⟩, hs1, hs2, hs3⟩
    · refine ⟨h1, h2, fun r hr => ?_⟩
      rcases h4 with ⟨_, h5 | ⟨_, h5⟩⟩ | ⟨h5, _⟩ | ⟨h5, _⟩
      · right
        refine ⟨h3 r hr, ?_⟩
        rw [List.length_append, ← h.len]; omega
      · exact Or.inl (h5 r hr)
      · exact Or.inl (h5 r hr)
      · exact Or.inl (h5 r hr)
    · rw [hs1, prefixMatches_append h.len] at hpm
      unfold relN at hs0
      rcases List.mem_append.1 hs0 with h5 | h5
      · have := List.eq_of_mem_replicate h5
        simp only [Prod.mk.injEq] at this
        obtain ⟨rfl, rfl⟩ := this
        have hr : e.2.rules = List.replicate n .type := by rw [hs2]; exact hown
        have hn : n ≠ 0 := by
          rintro rfl; simp at h5
        refine ⟨by rw [hr]; simp [hn], hs3, fun r hrm => ?_⟩
        rw [hr] at hrm
        exact Or.inl (List.eq_of_mem_replicate hrm)
      · exact absurd hpm.2 (hno s r0 h5 rest)

theorem scalar_kind {e a : Json} (h : ∀ l, e ≠ .arr l) (h' : ∀ m, e ≠ .obj m) (env : Env) (p : DocPath) (ctx : Ctx) :
    compareJson env p e a ctx = compareValues env p e a ctx := by
  rw [compareJson_eq]
  cases e with
  | arr l => exact absurd rfl (h l)
  | obj m => exact absurd rfl (h' m)
  | _ => rfl

/-- The rules of a `term` or a date inside `n` `like`s. -/
theorem own_scalar (env : Env) (n : Nat) (ex : Str) (r : MatchingRule) (a : Json) :
    (∀ r' ∈ List.replicate n MatchingRule.type ++ [r], jsonMatches env (.str ex) a r' false = true) ↔
      (n > 0 → MatcherProps.SameJsonKind (.str ex) a) ∧ jsonMatches env (.str ex) a r false = true := by
  simp only [List.mem_append, List.mem_replicate, List.mem_singleton]
  constructor
  · intro h
    refine ⟨fun hn => ?_, h r (Or.inr rfl)⟩
    exact (MatcherProps.C11_type_iff env _ _ false).1 (h .type (Or.inl ⟨by omega, rfl⟩))
  · rintro ⟨h1, h2⟩ r' (⟨hn, rfl⟩ | rfl)
    · exact (MatcherProps.C11_type_iff env _ _ false).2 (h1 (by omega))
    · exact h2

theorem sorted_eq {l m : List Str} (hl : Json.SortedKeys l) (hm : Json.SortedKeys m) (h : ∀ k, k ∈ l ↔ k ∈ m) :
    l = m := by
  induction l generalizing m with
  | nil =>
    cases m with
    | nil => rfl
    | cons y ys => exact absurd ((h y).2 List.mem_cons_self) (by simp)
  | cons x xs ih =>
    cases m with
    | nil => exact absurd ((h x).1 List.mem_cons_self) (by simp)
    | cons y ys =>
      have hxy : x = y := by
        rcases List.mem_cons.1 ((h x).1 List.mem_cons_self) with h1 | h1
        · exact h1
        · rcases List.mem_cons.1 ((h y).2 List.mem_cons_self) with h2 | h2
          · exact h2.symm
          · have h3 := Json.strLt_trans (hm.1 x h1) (hl.1 y h2)
            rw [Json.strLt_irrefl] at h3; cases h3
      subst hxy
      have hnx : x ∉ xs := fun hx => by
        have := hl.1 x hx
        rw [Json.strLt_irrefl] at this; cases this
      have hny : x ∉ ys := fun hx => by
        have := hm.1 x hx
        rw [Json.strLt_irrefl] at this; cases this
      congr 1
      apply ih hl.2 hm.2
      intro k
      constructor
      · intro hk
        rcases List.mem_cons.1 ((h k).1 (List.mem_cons_of_mem _ hk)) with rfl | h1
        · exact absurd hk hnx
        · exact h1
      · intro hk
        rcases List.mem_cons.1 ((h k).2 (List.mem_cons_of_mem _ hk)) with rfl | h1
        · exact absurd hk hny
        · exact h1

/-- The keys of the example of an object pattern. -/
theorem example_keys {fs : List (Str × Pattern)} (hn : (fs.map (·.1)).Nodup) (k : Str) :
    k ∈ Json.keys (OMap.collect (toExampleFields fs)) ↔ k ∈ fs.map (·.1) := by
  unfold Json.keys
  constructor
  · intro h
    obtain ⟨⟨k', x⟩, hx, rfl⟩ := List.mem_map.1 h
    obtain ⟨q, hq, _⟩ := (collect_mem hn).1 hx
    exact List.mem_map.2 ⟨(k', q), hq, rfl⟩
  · intro h
    obtain ⟨⟨k', q⟩, hq, rfl⟩ := List.mem_map.1 h
    exact List.mem_map.2 ⟨(k', toExample q), (collect_mem hn).2 ⟨q, hq, rfl⟩, rfl⟩

theorem example_keysMatch (config : DiffConfig) (fs : List (Str × Pattern)) (m : List (Str × Json)) :
    (fs.map (·.1)).Nodup → (Json.obj m).WF →
    ((match config with
     | .allowUnexpectedKeys => ∀ k ∈ Json.keys (OMap.collect (toExampleFields fs)), k ∈ Json.keys m
     | .noUnexpectedKeys => Json.keys (OMap.collect (toExampleFields fs)) = Json.keys m) ↔
      KeysMatch config (fs.map (·.1)) (m.map (·.1))) := by
  intro hn hm
  cases config with
  | allowUnexpectedKeys =>
    constructor
    · intro h k hk; exact h k ((example_keys hn k).2 hk)
    · intro h k hk; exact h k ((example_keys hn k).1 hk)
  | noUnexpectedKeys =>
    constructor
    · intro h k
      have h : Json.keys (OMap.collect (toExampleFields fs)) = Json.keys m := h
      rw [← example_keys hn k, h]; rfl
    · intro h
      apply sorted_eq (OMap.collect_sorted _)
      · simp only [Json.WF] at hm; exact hm.1
      · intro k
        exact (example_keys hn k).trans (h k)

theorem rel_plain (p : Pattern) : ∀ s r, (s, r) ∈ rel p →
    r.isTypeMatcher = true ∨ (∃ re, r = .regex re) ∨ (∃ f, r = .timestamp f) := by
  refine pattern_induct (M := fun p => ∀ s r, (s, r) ∈ rel p →
    r.isTypeMatcher = true ∨ (∃ re, r = .regex re) ∨ (∃ f, r = .timestamp f)) ?_ ?_ ?_ ?_ ?_ ?_ ?_ ?_ p
  · intro v s r h; simp [rel] at h
  · intro items ih s r h
    simp only [rel] at h
    obtain ⟨_, q, y, hj, hy, he⟩ := mem_relItems.1 h
    simp only [Prod.mk.injEq] at he
    rw [he.2]; exact ih q (List.mem_of_getElem? hj) y.1 y.2 hy
  · intro fields ih s r h
    simp only [rel] at h
    obtain ⟨f, hf, y, hy, he⟩ := mem_relFields.1 h
    simp only [Prod.mk.injEq] at he
    rw [he.2]; exact ih f hf y.1 y.2 hy
  · intro p ih s r h
    simp only [rel, List.mem_cons, Prod.mk.injEq] at h
    rcases h with ⟨_, rfl⟩ | h
    · exact Or.inl rfl
    · exact ih s r h
  · intro p m ih s r h
    simp only [rel, List.mem_cons, Prod.mk.injEq, List.mem_map] at h
    rcases h with ⟨_, rfl⟩ | ⟨_, rfl⟩ | ⟨y, hy, _, rfl⟩
    · exact Or.inl rfl
    · exact Or.inl rfl
    · exact ih y.1 y.2 hy
  · intro re ex s r h
    simp only [rel, List.mem_singleton, Prod.mk.injEq] at h
    rw [h.2]; exact Or.inr (Or.inl ⟨_, rfl⟩)
  · intro re ex s r h
    simp only [rel, List.mem_singleton, Prod.mk.injEq] at h
    rw [h.2]; exact Or.inr (Or.inr ⟨_, rfl⟩)
  · intro p rs _ s r h; simp [rel] at h

theorem sit_accepts (env : Env) (ctx : Ctx) (pat : Pattern) : ∀ (p : DocPath) (ts : List PathToken) (n : Nat)
    (inh : Bool) (a : Json), Sit ctx p ts n pat inh → Everywhere NotObjectMatching pat → Everywhere KeysOk pat →
    Everywhere LiteralWF pat → Everywhere Unambiguous pat → a.WF → VecSized a →
    (isOk (compareJson env p (toExample pat) a ctx) = true ↔
      (n > 0 → MatcherProps.SameJsonKind (toExample pat) a) ∧
        Accepts env ctx.config (inh || decide (n > 0)) pat a) := by
  refine pattern_induct (M := fun pat => ∀ (p : DocPath) (ts : List PathToken) (n : Nat)
    (inh : Bool) (a : Json), Sit ctx p ts n pat inh → Everywhere NotObjectMatching pat → Everywhere KeysOk pat →
    Everywhere LiteralWF pat → Everywhere Unambiguous pat → a.WF → VecSized a →
    (isOk (compareJson env p (toExample pat) a ctx) = true ↔
      (n > 0 → MatcherProps.SameJsonKind (toExample pat) a) ∧
        Accepts env ctx.config (inh || decide (n > 0)) pat a)) ?_ ?_ ?_ ?_ ?_ ?_ ?_ ?_ pat
  · intro v p ts n inh a h _ _ hw _ wa _
    simp only [Everywhere, LiteralWF] at hw
    simp only [toExample]
    cases hf : (inh || decide (n > 0)) with
    | true =>
      have hi := h.inherits (own_json n v) hf [] (fun s r hs => by simp [rel] at hs) p (by simp)
      rw [inherits_like env ctx h.plain p hi]
      constructor
      · intro hl
        refine ⟨fun _ => ?_, .literalByType _ _ hl⟩
        cases hl <;> constructor
      · rintro ⟨_, ha⟩
        cases ha with
        | literalByType _ _ h => exact h
    | false =>
      simp only [Bool.or_eq_false_iff, decide_eq_false_iff_not] at hf
      have hno : ∀ rest, entriesAt ctx (toVec p ++ rest) = [] := by
        intro rest
        rw [List.eq_nil_iff_forall_not_mem]
        intro e he
        rw [h.entries] at he
        rcases h.split e he.1 rest he.2 with ⟨h1, _⟩ | ⟨s, ⟨r, hs⟩, _⟩
        · rw [hf.1] at h1; cases h1
        · have : n = 0 := by omega
          subst this
          simp [relN, rel] at hs
      rw [untouched env ctx h.body p hno v a hw wa]
      constructor
      · intro hl
        exact ⟨fun hn => absurd hn hf.2, .literal _ _ hl⟩
      · rintro ⟨_, ha⟩
        cases ha with
        | literal _ _ h => exact h
  · intro items ih p ts n inh a h ho hk hw hu wa sa
    simp only [Everywhere, everywhereItems_iff] at ho hk hw hu
    simp only [toExample, toExamples_eq]
    cases a with
    | arr l =>
      have hchild : ∀ (i : Nat) (q : Pattern) (x : Json), items[i]? = some q → l[i]? = some x →
          (isOk (compareJson env (join p (natStr i)) (toExample q) x ctx) = true ↔
            Accepts env ctx.config (inh || decide (n > 0)) q x) := by
        intro i q x hq hx
        have hi : i < usizeLim := Nat.lt_trans (List.getElem?_eq_some_iff.1 hx).1 sa.length
        have hmem := List.mem_of_getElem? hq
        have hsit : Sit ctx (join p (natStr i)) (ts ++ [.index i]) 0 q (inh || decide (n > 0)) := by
          refine h.child (own_arr n items) (.index i) rfl (natStr i) ?_ q ?_ ?_
          · rw [seg_natStr]; exact .index _ _ (parseUsize_natStr hi)
          · intro s r hs
            simp only [rel] at hs
            obtain ⟨j, q', y, hj, hy, heq⟩ := mem_relItems.1 hs
            simp only [Prod.mk.injEq] at heq
            refine ⟨.index (0 + j), y.1, heq.1, fun hm => ?_⟩
            rw [seg_natStr] at hm
            have := segMatches_index hm
            subst this
            rw [Nat.zero_add] at hq
            rw [hq] at hj
            simp only [Option.some.injEq] at hj
            subst hj
            refine ⟨rfl, ⟨y.2, hy⟩, ?_⟩
            rw [heq.1]
            simp only [rel]
            exact rulesAt_items items y.1 0 j q hq
          · intro s' r hs
            simp only [rel]
            exact mem_relItems.2 ⟨i, q, (s', r), hq, hs, by simp⟩
        have := ih q hmem _ _ 0 _ x hsit (ho.2 q hmem) (hk.2 q hmem) (hw.2 q hmem) (hu.2 q hmem)
          ((Json.WFList_iff l).1 wa x (List.mem_of_getElem? hx)) (sa.item hx)
        simpa using this
      have hkind : MatcherProps.SameJsonKind (.arr (items.map toExample)) (.arr l) := .arr _ _
      obtain ⟨hty, hnd⟩ := h.best_type (own_arr n items)
      cases hf : (inh || decide (n > 0)) with
      | true =>
        rw [hf] at hchild
        obtain ⟨hb, hbound⟩ := hty hf
        rw [typed_list env h.body hb]
        cases items with
        | nil =>
          constructor
          · intro _; exact ⟨fun _ => hkind, .arrNoExample l⟩
          · intro _; exact Or.inl rfl
        | cons p0 ps =>
          have hmore : ∀ i x, (p0 :: ps).length ≤ i → l[i]? = some x →
              (isOk (compareJson env (join p (natStr i)) (toExample p0) x ctx) = true ↔
                Like ctx.config (toExample p0) x) := by
            intro i x hi hx
            refine inherits_like env ctx h.plain _ (h.inherits (own_arr n _) hf [natStr i] ?_ _ ?_) _ _
            · intro s r hs rest hm
              simp only [rel] at hs
              obtain ⟨j, q', y, hj, hy, heq⟩ := mem_relItems.1 hs
              simp only [Prod.mk.injEq] at heq
              rw [heq.1, List.singleton_append, prefixMatches_cons] at hm
              have := segMatches_index hm.1
              have hj' := (List.getElem?_eq_some_iff.1 hj).1
              omega
            · rw [toVec_join_seg, seg_natStr]
          constructor
          · rintro (h0 | ⟨_, e0, es, heq, h3⟩)
            · simp at h0
            · simp only [List.map_cons, List.cons.injEq] at heq
              obtain ⟨rfl, rfl⟩ := heq
              refine ⟨fun _ => hkind, .arrByType p0 ps l ?_ ?_⟩
              · intro i q x hq hx
                have := h3 i x hx
                rw [← List.map_cons, List.getElem?_map, hq] at this
                exact (hchild i q x hq hx).1 this
              · intro i x hi hx
                have := h3 i x hx
                rw [← List.map_cons, List.getElem?_map, List.getElem?_eq_none hi] at this
                exact (hmore i x hi hx).1 this
          · rintro ⟨_, ha⟩
            cases ha with
            | arrByType _ _ _ h1 h2 =>
              right
              refine ⟨?_, toExample p0, ps.map toExample, rfl, ?_⟩
              · intro r hr
                rcases hbound r hr with hc | rfl
                · exact Or.inl hc
                · exact Or.inr trivial
              · intro i x hx
                rw [← List.map_cons, List.getElem?_map]
                cases hq : (p0 :: ps)[i]? with
                | some q => exact (hchild i q x hq hx).2 (h1 i q x hq hx)
                | none =>
                  have hi := List.getElem?_eq_none_iff.1 hq
                  exact (hmore i x hi hx).2 (h2 i x hi hx)
      | false =>
        rw [hf] at hchild
        rw [plain_list env (hnd hf)]
        constructor
        · rintro ⟨h1, h2⟩
          refine ⟨fun _ => hkind, .arr items l (by simpa using h1) ?_⟩
          intro i q x hq hx
          exact (hchild i q x hq hx).1 (h2 i _ x (by rw [List.getElem?_map, hq]; rfl) hx)
        · rintro ⟨_, ha⟩
          cases ha with
          | arr _ _ hl hall =>
            refine ⟨by simpa using hl, fun j e x he hx => ?_⟩
            rw [List.getElem?_map] at he
            cases hq : items[j]? with
            | none => rw [hq] at he; simp at he
            | some q =>
              rw [hq] at he
              simp only [Option.map_some, Option.some.injEq] at he
              subst he
              exact (hchild j q x hq hx).2 (hall j q x hq hx)
    | _ =>
      rw [compareJson_eq]
      simp only [compareStep, isOk_error, Bool.false_eq_true, false_iff]
      rintro ⟨_, ha⟩
      generalize (inh || decide (n > 0)) = b at ha
      cases ha
  · intro fs ih p ts n inh a h ho hk hw hu wa sa
    simp only [Everywhere, everywhereFields_iff] at ho hk hw hu
    simp only [toExample]
    cases a with
    | obj m =>
      have hchild : ∀ (k : Str) (q : Pattern) (x : Json), (k, q) ∈ fs → Json.lookup k m = some x →
          (isOk (compareJson env (join p k) (toExample q) x ctx) = true ↔
            Accepts env ctx.config (inh || decide (n > 0)) q x) := by
        intro k q x hq hx
        have hxm := Json.lookup_mem hx
        have hseg := seg_canonical (hk.1.2 _ hq)
        dsimp only at hseg
        have hsit : Sit ctx (join p k) (ts ++ [.field k]) 0 q (inh || decide (n > 0)) := by
          refine h.child (own_obj n fs) (.field k) rfl k ?_ q ?_ ?_
          · rw [hseg]; exact .field k
          · intro s r hs
            simp only [rel] at hs
            obtain ⟨f, hf, y, hy, heq⟩ := mem_relFields.1 hs
            simp only [Prod.mk.injEq] at heq
            refine ⟨.field f.1, y.1, heq.1, fun hm => ?_⟩
            have hs' := segMatches_field hm
            rw [hseg] at hs'
            obtain ⟨k', q'⟩ := f
            dsimp only at *
            subst hs'
            have := key_unique hk.1.1 hf hq
            subst this
            refine ⟨rfl, ⟨y.2, hy⟩, ?_⟩
            rw [heq.1]
            simp only [rel]
            exact rulesAt_fields fs hk.1.1 y.1 k q' hq
          · intro s' r hs
            simp only [rel]
            exact mem_relFields.2 ⟨(k, q), hq, (s', r), hs, rfl⟩
        have hwm : (Json.obj m).WF := wa
        simp only [Json.WF] at hwm
        have := ih (k, q) hq _ _ 0 _ x hsit (ho.2 _ hq) (hk.2 _ hq) (hw.2 _ hq) (hu.2 _ hq)
          ((Json.WFEntries_iff m).1 hwm.2 _ hxm) (sa.field hxm)
        simpa using this
      have hkind : MatcherProps.SameJsonKind (.obj (OMap.collect (toExampleFields fs))) (.obj m) := .obj _ _
      have hkeys := example_keysMatch ctx.config fs m hk.1.1 wa
      have hrest : (∀ kv ∈ OMap.collect (toExampleFields fs), ∀ y, Json.lookup kv.1 m = some y →
          isOk (compareJson env (join p kv.1) kv.2 y ctx) = true) ↔
          ∀ k q x, (k, q) ∈ fs → Json.lookup k m = some x →
            Accepts env ctx.config (inh || decide (n > 0)) q x := by
        constructor
        · intro h1 k q x hq hx
          exact (hchild k q x hq hx).1 (h1 (k, toExample q) ((collect_mem hk.1.1).2 ⟨q, hq, rfl⟩) x hx)
        · rintro h1 ⟨k, e⟩ hkv y hy
          obtain ⟨q, hq, rfl⟩ := (collect_mem hk.1.1).1 hkv
          exact (hchild k q y hq hy).2 (h1 k q y hq hy)
      obtain ⟨hty, hnd⟩ := h.best_type (own_obj n fs)
      have hcmp : isOk (compareJson env p (.obj (OMap.collect (toExampleFields fs))) (.obj m) ctx) = true ↔
          KeysMatch ctx.config (fs.map (·.1)) (m.map (·.1)) ∧ ∀ k q x, (k, q) ∈ fs → Json.lookup k m = some x →
            Accepts env ctx.config (inh || decide (n > 0)) q x := by
        rw [← hkeys, ← hrest]
        cases hf : (inh || decide (n > 0)) with
        | true =>
          obtain ⟨hb, hbound⟩ := hty hf
          rw [typed_map env h.body h.plain hb]
          constructor
          · exact fun h => h.2
          · refine fun h => ⟨fun r hr => ?_, h⟩
            rcases hbound r hr with hc | rfl
            · exact Or.inl hc
            · exact Or.inr trivial
        | false => exact plain_map env h.body h.plain (hnd hf) _ _
      rw [hcmp]
      constructor
      · rintro ⟨h1, h2⟩
        exact ⟨fun _ => hkind, .obj _ fs m h1 h2⟩
      · rintro ⟨_, ha⟩
        generalize (inh || decide (n > 0)) = b at ha ⊢
        cases ha with
        | obj _ _ _ h1 h2 => exact ⟨h1, h2⟩
    | _ =>
      rw [compareJson_eq]
      simp only [compareStep, isOk_error, Bool.false_eq_true, false_iff]
      rintro ⟨_, ha⟩
      generalize (inh || decide (n > 0)) = b at ha
      cases ha
  · intro q ih p ts n inh a h ho hk hw hu wa sa
    simp only [Everywhere] at ho hk hw hu
    have := ih p ts (n + 1) inh a h.like ho.2 hk.2 hw.2 hu.2 wa sa
    have hd : (inh || decide (n + 1 > 0)) = true := by simp
    rw [hd] at this
    simp only [toExample]
    rw [this]
    constructor
    · rintro ⟨h1, h2⟩
      exact ⟨fun _ => h1 (by omega), .like _ q a (h1 (by omega)) h2⟩
    · rintro ⟨_, ha⟩
      generalize (inh || decide (n > 0)) = b at ha
      cases ha with
      | like _ _ _ h1 h2 => exact ⟨fun _ => h1, h2⟩
  · intro q m ih p ts n inh a h ho hk hw hu wa sa
    simp only [Everywhere] at ho hk hw hu
    simp only [toExample]
    cases a with
    | arr l =>
      have hmem : MatchingRule.minType m ∈ own n (.eachLike q m) := by rw [own_each]; simp
      obtain ⟨hd, hb⟩ := h.best_own _ hmem (by simp)
      rw [own_each] at hb
      have hbt : TypeBest ctx p := by
        refine ⟨hd, by rw [hb]; simp, by rw [hb], ?_⟩
        intro r hr
        rw [hb] at hr
        rcases List.mem_append.1 hr with h | h
        · rw [List.eq_of_mem_replicate h]; rfl
        · rw [List.mem_singleton.1 h]; rfl
      have hkind : MatcherProps.SameJsonKind (.arr (List.replicate m (toExample q))) (.arr l) := .arr _ _
      rw [typed_list env h.body hbt]
      have hchild : ∀ (i : Nat) (x : Json), l[i]? = some x →
          (isOk (compareJson env (join p (natStr i)) (toExample q) x ctx) = true ↔
            Accepts env ctx.config true q x) := by
        intro i x hx
        have hi : i < usizeLim := Nat.lt_trans (List.getElem?_eq_some_iff.1 hx).1 sa.length
        have := ih _ _ 0 true x (h.elem (unambiguous_elem hu.1) i hi) ho.2 hk.2 hw.2 hu.2
          ((Json.WFList_iff l).1 wa x (List.mem_of_getElem? hx)) (sa.item hx)
        simpa using this
      cases m with
      | zero =>
        constructor
        · intro _; exact ⟨fun _ => hkind, .eachLikeZero _ q l⟩
        · intro _; exact Or.inl rfl
      | succ m =>
        have hget : ∀ i : Nat, ((toExample q :: List.replicate m (toExample q))[i]?).getD (toExample q) =
            toExample q := by
          intro i
          rw [← List.replicate_succ, List.getElem?_replicate]
          split <;> rfl
        constructor
        · rintro (h0 | ⟨h1, e0, es, heq, h3⟩)
          · simp at h0
          · rw [List.replicate_succ] at heq
            simp only [List.cons.injEq] at heq
            obtain ⟨rfl, rfl⟩ := heq
            refine ⟨fun _ => hkind, .eachLike _ q (m + 1) l (by omega) ?_ ?_⟩
            · rcases h1 (.minType (m + 1)) (by rw [hb]; simp) with hc | hc
              · rw [hb] at hc; cases hc
              · exact hc
            · intro x hx
              obtain ⟨i, hi⟩ := List.getElem?_of_mem hx
              have := h3 i x hi
              rw [hget] at this
              exact (hchild i x hi).1 this
        · rintro ⟨_, ha⟩
          generalize (inh || decide (n > 0)) = b at ha
          cases ha with
          | eachLike _ _ _ _ _ hl hall =>
            right
            refine ⟨?_, toExample q, List.replicate m (toExample q), List.replicate_succ, ?_⟩
            · intro r hr
              rw [hb] at hr ⊢
              right
              rcases List.mem_append.1 hr with h | h
              · rw [List.eq_of_mem_replicate h]; trivial
              · rw [List.mem_singleton.1 h]; exact hl
            · intro i x hx
              rw [hget]
              exact (hchild i x hx).2 (hall x (List.mem_of_getElem? hx))
    | _ =>
      rw [compareJson_eq]
      simp only [compareStep, isOk_error, Bool.false_eq_true, false_iff]
      rintro ⟨_, ha⟩
      generalize (inh || decide (n > 0)) = b at ha
      cases ha
  · intro re ex p ts n inh a h _ _ _ _ _ _
    simp only [toExample]
    have hmem : MatchingRule.regex re ∈ own n (.term re ex) := by rw [own_term]; simp
    obtain ⟨hd, hb⟩ := h.best_own _ hmem (by simp)
    rw [own_term] at hb
    rw [scalar_kind (by simp) (by simp), ruled_scalar env hd (by rw [hb]; simp) (by rw [hb]), hb]
    dsimp only
    rw [own_scalar]
    apply and_congr Iff.rfl
    generalize (inh || decide (n > 0)) = b
    exact ⟨fun h => .term b re ex a h, fun h => by cases h with | term _ _ _ _ h => exact h⟩
  · intro f ex p ts n inh a h _ _ _ _ _ _
    simp only [toExample]
    have hmem : MatchingRule.timestamp f ∈ own n (.datetime f ex) := by rw [own_datetime]; simp
    obtain ⟨hd, hb⟩ := h.best_own _ hmem (by simp)
    rw [own_datetime] at hb
    rw [scalar_kind (by simp) (by simp), ruled_scalar env hd (by rw [hb]; simp) (by rw [hb]), hb]
    dsimp only
    rw [own_scalar]
    apply and_congr Iff.rfl
    generalize (inh || decide (n > 0)) = b
    exact ⟨fun h => .datetime b f ex a h, fun h => by cases h with | datetime _ _ _ _ h => exact h⟩
  · intro q rs _ p ts n inh a _ ho; exact absurd ho.self (by simp [NotObjectMatching])

/-- **C71**: a document matches the body and the matching rules of a consumer pattern exactly if the pattern describes
it, in both comparison modes and for every iteration order of the rule table. -/
theorem C71_rules_denote_pattern_partial (env : Env) (config : DiffConfig) (p : Pattern) (a : Json)
    (ho : Everywhere NotObjectMatching p) (hk : Everywhere KeysOk p) (hw : Everywhere LiteralWF p)
    (hu : Everywhere Unambiguous p) (hs : ShortPaths (jsonBody p).2)
    (wa : a.WF) (sa : VecSized a)
    (rules : List (DocPath × RuleList)) (hr : rules.Perm (jsonBody p).2.rules) :
    compareJson env rootPath (jsonBody p).1 a ⟨⟨.body, rules⟩, config⟩ = .ok () ↔ Accepts env config false p a := by
  have ht := ((extract_table p ho).2).perm hr
  rw [← isOk_iff]
  have hsit : Sit ⟨⟨.body, rules⟩, config⟩ rootPath [.root] 0 p false := by
    have key : ∀ e ∈ rules, ∃ s, (∃ r, (s, r) ∈ rel p) ∧ e.1.tokens = [.root] ++ s ∧
        e.2.rules = rulesAt (rel p) s ∧ e.2.logic = .and := by
      intro e he
      obtain ⟨hex, heq⟩ := ht.1 e he
      exact ⟨_, hex, congrArg (fun z => z.1.tokens) heq, congrArg (fun z => z.2.rules) heq,
        congrArg (fun z => z.2.logic) heq⟩
    refine ⟨rfl, ?_, ?_, rfl, ?_, ?_, ?_, by simp⟩
    · intro e he
      exact hs e (hr.mem_iff.1 he)
    · intro e he r hr'
      obtain ⟨s, _, _, h2, _⟩ := key e he
      rw [h2] at hr'
      exact rel_plain p _ _ (mem_rulesAt.1 hr')
    · exact prefixMatches_cons.2 ⟨.root, prefixMatches_nil _⟩
    · intro e he rest _
      obtain ⟨s, h1, h2, h3, h4⟩ := key e he
      refine Or.inr ⟨s, ?_, h2, ?_, h4⟩
      · simpa [relN] using h1
      · simpa [relN] using h3
    · intro s r hsr
      have hsr : (s, r) ∈ rel p := by simpa [relN] using hsr
      obtain ⟨e, he, h2⟩ := ht.2 s r hsr
      exact ⟨e, he, h2⟩
  have := sit_accepts env _ p rootPath [.root] 0 false a hsit ho hk hw hu wa sa
  simpa [jsonBody] using this

end Verif.PatternProps
