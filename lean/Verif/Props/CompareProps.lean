import Verif.CompareLemmas
import Verif.Props.MatcherProps
import Verif.Props.RuleProps

/-
  Properties C15-C22: comparison of JSON documents.
-/

set_option autoImplicit false

namespace Verif.CompareProps
open Verif.Path Verif.Rules Verif.Matchers Verif.Compare

/-- No matching rules at all. -/
def NoRules (ctx : Ctx) : Prop := ctx.cat.rules = []

theorem noRules_isDefined {ctx : Ctx} (h : NoRules ctx) (p : DocPath) : isDefined ctx p = false := by
  unfold isDefined matcherIsDefined resolveMatchersForPath filterCat
  unfold NoRules at h
  split <;> simp [h]

theorem noRules_direct {ctx : Ctx} (h : NoRules ctx) (p : DocPath) (ns) :
    directMatcherDefined ctx p ns = false := by
  have : (exactMatchers ctx p).rules = [] := by
    unfold exactMatchers filterCat
    unfold NoRules at h
    split <;> simp [h]
  unfold directMatcherDefined
  simp only [this, asRuleList]
  split <;> simp [defaultList, emptyList]

theorem noRules_matchKeys {ctx : Ctx} (env : Env) (h : NoRules ctx) (p : DocPath) (e a : List Str) :
    isOk (matchKeys env ctx p e a) = true ↔
      match ctx.config with
      | .allowUnexpectedKeys => ∀ k ∈ e, k ∈ a
      | .noUnexpectedKeys => e = a := by
  unfold matchKeys keySetMismatches keyRuleMismatches
  rw [isOk_ofList, noRules_direct h, noRules_direct h]
  cases ctx.config with
  | allowUnexpectedKeys =>
    simp only [Bool.false_eq_true, if_false, List.append_nil]
    split <;> simp_all
  | noUnexpectedKeys =>
    simp only [Bool.false_eq_true, if_false, List.append_nil]
    split <;> simp_all

/-! ### C15, C16: comparison without rules -/

/-- Specification of the lenient mode: `a` is `e` except for additional object entries at any depth. -/
inductive Extends : Json → Json → Prop
  | null : Extends .null .null
  | bool (b) : Extends (.bool b) (.bool b)
  | num (n) : Extends (.num n) (.num n)
  | str (s) : Extends (.str s) (.str s)
  | arr (es as : List Json) (hl : es.length = as.length)
      (h : ∀ (i : Nat) (e a : Json), es[i]? = some e → as[i]? = some a → Extends e a) : Extends (.arr es) (.arr as)
  | obj (es as : List (Str × Json))
      (hk : ∀ k v, (k, v) ∈ es → ∃ w, (k, w) ∈ as)
      (hv : ∀ k v w, (k, v) ∈ es → (k, w) ∈ as → Extends v w) : Extends (.obj es) (.obj as)

theorem scalar_ok (env : Env) (p : DocPath) (e a : Json) (ctx : Ctx) (h : NoRules ctx) :
    isOk (compareValues env p e a ctx) = true ↔ e = a := by
  unfold compareValues
  rw [noRules_isDefined h]
  simp only [Bool.false_eq_true, if_false, jsonMatches]
  by_cases h : e = a <;> simp [h]

theorem list_ok (env : Env) (p : DocPath) (e a : List Json) (ctx : Ctx) (h : NoRules ctx) :
    isOk (compareLists (compareJson env) p e a ctx) = true ↔
      e.length = a.length ∧ ∀ j x y, e[j]? = some x → a[j]? = some y →
        isOk (compareJson env (join p (natStr j)) x y ctx) = true := by
  unfold compareLists
  rw [noRules_isDefined h]
  simp only [Bool.false_eq_true, if_false]
  have key : isOk (compareListContent (compareJson env) p ctx 0 e a (.ok ())) = true ∧ e.length = a.length ↔
      e.length = a.length ∧ ∀ j x y, e[j]? = some x → a[j]? = some y →
        isOk (compareJson env (join p (natStr j)) x y ctx) = true := by
    rw [compareListContent_ok]
    constructor
    · rintro ⟨⟨_, h1⟩, hl⟩
      refine ⟨hl, fun j x y hx hy => ?_⟩
      have := h1 j x hx
      rw [hy] at this
      simpa [itemOk] using this
    · rintro ⟨hl, h1⟩
      refine ⟨⟨rfl, fun j x hx => ?_⟩, hl⟩
      have hj : j < a.length := by
        rw [← hl]; exact (List.getElem?_eq_some_iff.1 hx).1
      have hy : a[j]? = some a[j] := List.getElem?_eq_getElem hj
      rw [hy]
      simpa [itemOk] using h1 j x _ hx hy
  split
  · rename_i he
    simp only [isOk_error, Bool.false_eq_true, false_iff, not_and]
    intro hl
    cases e <;> cases a <;> simp_all
  · split
    · rename_i hne
      rw [mergeResult_isOk]
      simp [hne]
    · rename_i hl
      have hl' : e.length = a.length := by omega
      rw [← key]; simp [hl']

theorem map_ok (env : Env) (p : DocPath) (e a : List (Str × Json)) (ctx : Ctx) (h : NoRules ctx) :
    isOk (compareMaps env (compareJson env) p e a ctx) = true ↔
      (match ctx.config with
       | .allowUnexpectedKeys => ∀ k ∈ Json.keys e, k ∈ Json.keys a
       | .noUnexpectedKeys => Json.keys e = Json.keys a) ∧
      ∀ kv ∈ e, ∀ y, Json.lookup kv.1 a = some y →
        isOk (compareJson env (join p kv.1) kv.2 y ctx) = true := by
  unfold compareMaps
  rw [noRules_isDefined h]
  split
  · rename_i hc
    simp only [Bool.and_eq_true, decide_eq_true_eq, List.isEmpty_iff, Bool.not_eq_true'] at hc
    obtain ⟨⟨rfl, hc⟩, ha⟩ := hc
    rw [hc]
    simp only [isOk_error, Bool.false_eq_true, Json.keys, false_iff, not_and]
    intro hk
    cases a <;> simp_all
  · simp only [Bool.false_eq_true, if_false]
    rw [commonLoop_ok, mergeResult_isOk, isOk_ok, Bool.true_and, noRules_matchKeys env h]

/-- **C15**, strict mode: without rules the comparison accepts exactly the equal value. -/
theorem C15_strict (env : Env) (ctx : Ctx) (hr : NoRules ctx) (hc : ctx.config = .noUnexpectedKeys)
    (p : DocPath) (e a : Json) (we : e.WF) (wa : a.WF) :
    compareJson env p e a ctx = .ok () ↔ e = a := by
  rw [← isOk_iff]
  have main : ∀ n, ∀ e : Json, e.depth < n → ∀ a p, e.WF → a.WF →
      (isOk (compareJson env p e a ctx) = true ↔ e = a) := by
    intro n
    induction n with
    | zero => intro e h; omega
    | succ n ih =>
      intro e hd a p we wa
      rw [compareJson_eq]
      cases e with
      | obj em =>
        cases a <;> simp only [compareStep, isOk_error, Bool.false_eq_true, reduceCtorEq]
        rename_i am
        rw [map_ok env p em am ctx hr, hc]
        simp only [Json.WF] at we wa
        have hdm : ∀ kv ∈ em, kv.2.depth < n := fun kv hkv => by
          have := Json.depth_mem_entries hkv
          simp only [Json.depth] at hd; omega
        constructor
        · rintro ⟨hk, hv⟩
          congr 1
          apply Json.entries_ext we.1 wa.1
          intro k
          cases hl : Json.lookup k em with
          | none =>
            have : k ∉ em.map (·.1) := fun hm => by
              rw [← Json.lookup_isSome, hl] at hm; simp at hm
            have hk' : em.map (·.1) = am.map (·.1) := hk
            rw [hk'] at this
            cases hl2 : Json.lookup k am with
            | none => rfl
            | some y => exact absurd (Json.lookup_isSome.1 (by rw [hl2]; rfl)) this
          | some x =>
            have hm := Json.lookup_mem hl
            have hk' : em.map (·.1) = am.map (·.1) := hk
            have hin : k ∈ am.map (·.1) := hk' ▸ (List.mem_map.2 ⟨_, hm, rfl⟩)
            rw [← Json.lookup_isSome] at hin
            cases hl2 : Json.lookup k am with
            | none => rw [hl2] at hin; simp at hin
            | some y =>
              have hw := hv (k, x) hm y hl2
              have := (ih x (hdm _ hm) y _ ((Json.WFEntries_iff _).1 we.2 _ hm)
                ((Json.WFEntries_iff _).1 wa.2 _ (Json.lookup_mem hl2))).1 hw
              rw [this]
        · intro he
          have he : em = am := by simpa using he
          subst he
          refine ⟨rfl, fun kv hkv y hy => ?_⟩
          have hnd := Json.SortedKeys.nodup we.1
          have := Json.lookup_of_mem hnd (k := kv.1) (v := kv.2) hkv
          rw [this] at hy
          have hy : kv.2 = y := by simpa using hy
          subst hy
          exact (ih kv.2 (hdm _ hkv) kv.2 _ ((Json.WFEntries_iff _).1 we.2 _ hkv)
            ((Json.WFEntries_iff _).1 we.2 _ hkv)).2 rfl
      | arr el =>
        cases a <;> simp only [compareStep, isOk_error, Bool.false_eq_true, reduceCtorEq]
        rename_i al
        rw [list_ok env p el al ctx hr]
        simp only [Json.WF] at we wa
        have hdm : ∀ x ∈ el, x.depth < n := fun x hx => by
          have := Json.depth_mem_list hx
          simp only [Json.depth] at hd; omega
        constructor
        · rintro ⟨hl, hv⟩
          congr 1
          apply List.ext_getElem? 
          intro i
          cases he : el[i]? with
          | none =>
            rw [List.getElem?_eq_none_iff] at he
            rw [eq_comm, List.getElem?_eq_none_iff]; omega
          | some x =>
            have hi : i < al.length := by
              rw [← hl]; exact (List.getElem?_eq_some_iff.1 he).1
            have hy : al[i]? = some al[i] := List.getElem?_eq_getElem hi
            have hx := List.mem_of_getElem? he
            have := (ih x (hdm x hx) al[i] _ ((Json.WFList_iff _).1 we _ hx)
              ((Json.WFList_iff _).1 wa _ (List.getElem_mem hi))).1 (hv i x _ he hy)
            rw [hy, this]
        · intro he
          have he : el = al := by simpa using he
          subst he
          refine ⟨rfl, fun j x y hx hy => ?_⟩
          rw [hx] at hy
          have hy : x = y := by simpa using hy
          subst hy
          have hm := List.mem_of_getElem? hx
          exact (ih x (hdm x hm) x _ ((Json.WFList_iff _).1 we _ hm)
            ((Json.WFList_iff _).1 we _ hm)).2 rfl
      | _ => simp only [compareStep]; exact scalar_ok _ _ _ _ _ hr
  exact main (e.depth + 1) e (by omega) a p we wa

/-- **C15**, lenient mode: without rules the comparison accepts exactly the values that equal the expected
one up to additional object entries. -/
theorem C15_lenient (env : Env) (ctx : Ctx) (hr : NoRules ctx) (hc : ctx.config = .allowUnexpectedKeys)
    (p : DocPath) (e a : Json) (we : e.WF) (wa : a.WF) :
    compareJson env p e a ctx = .ok () ↔ Extends e a := by
  rw [← isOk_iff]
  have main : ∀ n, ∀ e : Json, e.depth < n → ∀ a p, e.WF → a.WF →
      (isOk (compareJson env p e a ctx) = true ↔ Extends e a) := by
    intro n
    induction n with
    | zero => intro e h; omega
    | succ n ih =>
      intro e hd a p we wa
      rw [compareJson_eq]
      cases e with
      | obj em =>
        cases a <;> simp only [compareStep, isOk_error, Bool.false_eq_true, false_iff] <;>
          try (intro h; cases h; done)
        rename_i am
        rw [map_ok env p em am ctx hr, hc]
        simp only [Json.WF] at we wa
        have hdm : ∀ kv ∈ em, kv.2.depth < n := fun kv hkv => by
          have := Json.depth_mem_entries hkv
          simp only [Json.depth] at hd; omega
        have hnd := Json.SortedKeys.nodup wa.1
        constructor
        · rintro ⟨hk, hv⟩
          apply Extends.obj
          · intro k v hkv
            have := hk k (List.mem_map.2 ⟨_, hkv, rfl⟩)
            obtain ⟨⟨k', w⟩, hw, rfl⟩ := List.mem_map.1 this
            exact ⟨w, hw⟩
          · intro k v w hkv hkw
            exact (ih v (hdm _ hkv) w _ ((Json.WFEntries_iff _).1 we.2 _ hkv)
              ((Json.WFEntries_iff _).1 wa.2 _ hkw)).1 (hv _ hkv w (Json.lookup_of_mem hnd hkw))
        · intro h
          cases h with
          | obj _ _ hk hv =>
            refine ⟨?_, ?_⟩
            · intro k hkm
              obtain ⟨⟨k', v⟩, hkv, rfl⟩ := List.mem_map.1 hkm
              obtain ⟨w, hw⟩ := hk k' v hkv
              exact List.mem_map.2 ⟨_, hw, rfl⟩
            · intro kv hkv y hy
              have hw := Json.lookup_mem hy
              exact (ih kv.2 (hdm _ hkv) y _ ((Json.WFEntries_iff _).1 we.2 _ hkv)
                ((Json.WFEntries_iff _).1 wa.2 _ hw)).2 (hv _ _ _ hkv hw)
      | arr el =>
        cases a <;> simp only [compareStep, isOk_error, Bool.false_eq_true, false_iff] <;>
          try (intro h; cases h; done)
        rename_i al
        rw [list_ok env p el al ctx hr]
        simp only [Json.WF] at we wa
        have hdm : ∀ x ∈ el, x.depth < n := fun x hx => by
          have := Json.depth_mem_list hx
          simp only [Json.depth] at hd; omega
        have step : ∀ j x y, el[j]? = some x → al[j]? = some y → 
            (isOk (compareJson env (join p (natStr j)) x y ctx) = true ↔ Extends x y) := by
          intro j x y hx hy
          have hx' := List.mem_of_getElem? hx
          have hy' := List.mem_of_getElem? hy
          exact ih x (hdm x hx') y _ ((Json.WFList_iff _).1 we _ hx') ((Json.WFList_iff _).1 wa _ hy')
        constructor
        · rintro ⟨hl, hv⟩
          exact Extends.arr _ _ hl (fun j x y hx hy => (step j x y hx hy).1 (hv j x y hx hy))
        · intro h
          cases h with
          | arr _ _ hl hv => exact ⟨hl, fun j x y hx hy => (step j x y hx hy).2 (hv j x y hx hy)⟩
      | _ =>
        simp only [compareStep]
        rw [scalar_ok _ _ _ _ _ hr]
        constructor
        · rintro rfl; constructor
        · intro h; cases h; rfl
  exact main (e.depth + 1) e (by omega) a p we wa

/-- Every value extends itself. -/
theorem Extends.refl (e : Json) (we : e.WF) : Extends e e := by
  have main : ∀ n, ∀ e : Json, e.depth < n → e.WF → Extends e e := by
    intro n
    induction n with
    | zero => intro e h; omega
    | succ n ih =>
      intro e hd we
      cases e with
      | obj em =>
        simp only [Json.WF] at we
        apply Extends.obj
        · exact fun k v h => ⟨v, h⟩
        · intro k v w h1 h2
          have hnd := Json.SortedKeys.nodup we.1
          have e1 := Json.lookup_of_mem hnd h1
          rw [Json.lookup_of_mem hnd h2] at e1
          have e1 : w = v := by simpa using e1
          subst e1
          apply ih _ _ ((Json.WFEntries_iff _).1 we.2 _ h1)
          have := Json.depth_mem_entries h1
          simp only [Json.depth] at hd; omega
      | arr el =>
        simp only [Json.WF] at we
        apply Extends.arr _ _ rfl
        intro i x y h1 h2
        rw [h1] at h2
        have h2 : x = y := by simpa using h2
        subst h2
        have hm := List.mem_of_getElem? h1
        apply ih _ _ ((Json.WFList_iff _).1 we _ hm)
        have := Json.depth_mem_list hm
        simp only [Json.depth] at hd; omega
      | _ => constructor
  exact main (e.depth + 1) e (by omega) we

/-- **C16**: a body matches itself when no rules are defined, in both modes. -/
theorem C16_reflexive (env : Env) (ctx : Ctx) (hr : NoRules ctx) (p : DocPath) (e : Json) (we : e.WF) :
    compareJson env p e e ctx = .ok () := by
  cases hc : ctx.config with
  | noUnexpectedKeys => exact (C15_strict env ctx hr hc p e e we we).2 rfl
  | allowUnexpectedKeys => exact (C15_lenient env ctx hr hc p e e we we).2 (Extends.refl e we)

/-- Sample documents. -/
def docE : Json := .obj [("a".toList, .num (.pos 1)), ("b".toList, .arr [.null, .obj []])]
def docA : Json := .obj [("a".toList, .num (.pos 1)),
  ("b".toList, .arr [.null, .obj [("x".toList, .bool true)]]), ("c".toList, .null)]

example : docE.WF ∧ docA.WF := by
  simp [docE, docA, Json.WF, Json.WFEntries, Json.WFEntry, Json.WFList, Json.SortedKeys, Json.strLt]
example : compareJson Env.simple rootPath docE docA ⟨⟨.body, []⟩, .allowUnexpectedKeys⟩ = .ok () := by decide
example : compareJson Env.simple rootPath docE docA ⟨⟨.body, []⟩, .noUnexpectedKeys⟩ ≠ .ok () := by decide

/-! ### C19: a failed comparison reports a mismatch -/

/-- **C19**: whatever the rules, a failing comparison reports at least one mismatch. -/
theorem C19_failure_reports (env : Env) (p : DocPath) (e a : Json) (ctx : Ctx) (ms : List Mismatch)
    (h : compareJson env p e a ctx = .error ms) : ms ≠ [] := by
  rcases compareJson_consistent env p e a ctx with h' | ⟨m, l, h'⟩
  · rw [h] at h'; simp at h'
  · rw [h] at h'; simp at h'; simp [h']

/-- **C19** for whole bodies, including bodies that are not valid JSON. -/
theorem C19_body_failure_reports (env : Env) (e a : Option Json) (ctx : Ctx) (ms : List Mismatch)
    (h : matchJson env e a ctx = .error ms) : ms ≠ [] := by
  unfold matchJson at h
  split at h
  · exact C19_failure_reports _ _ _ _ _ _ h
  all_goals (simp at h; subst h; simp)

/-! ### C20: mismatches point inside the compared value -/

/-- Specification: the mismatch path equals or extends `p`, both as a sequence of segments and as text. -/
def Below (p q : DocPath) : Prop := p.tokens <+: q.tokens ∧ p.expr <+: q.expr

theorem Below.refl (p : DocPath) : Below p p := ⟨List.prefix_rfl, List.prefix_rfl⟩
theorem Below.trans {p q r : DocPath} (h1 : Below p q) (h2 : Below q r) : Below p r :=
  ⟨h1.1.trans h2.1, h1.2.trans h2.2⟩
theorem Below.join (p : DocPath) (k : Str) : Below p (join p k) := by
  unfold Path.join
  split
  · exact ⟨List.prefix_append _ _, List.prefix_append _ _⟩
  · split
    · exact ⟨List.prefix_append _ _, List.prefix_append _ _⟩
    · split
      · exact ⟨List.prefix_append _ _, List.prefix_append _ _⟩
      · exact ⟨List.prefix_append _ _, List.prefix_append _ _⟩

/-- All mismatches of a result are below `p`. -/
def AllBelow (p : DocPath) (r : Outcome) : Prop := ∀ m ∈ errs r, Below p m.path

theorem allBelow_ok (p) : AllBelow p (.ok ()) := by intro m hm; simp [errs] at hm
theorem allBelow_one (p k) : AllBelow p (.error [⟨p, k⟩]) := by
  intro m hm; simp [errs] at hm; subst hm; exact Below.refl p
theorem allBelow_merge {p} {a b : Outcome} (ha : AllBelow p a) (hb : AllBelow p b) :
    AllBelow p (mergeResult a b) := by
  intro m hm
  rw [errs_merge, List.mem_append] at hm
  rcases hm with h | h
  · exact ha m h
  · exact hb m h
theorem allBelow_join {p k} {r : Outcome} (h : AllBelow (join p k) r) : AllBelow p r :=
  fun m hm => (Below.join p k).trans (h m hm)
theorem allBelow_ofList {p} {l : List Mismatch} (h : ∀ m ∈ l, Below p m.path) : AllBelow p (ofList l) := by
  intro m hm; rw [errs_ofList] at hm; exact h m hm

section below
variable {T : Type} {cb : Callback T}

theorem valuesLoop_below (p : DocPath) (e : List (Str × T)) (ctx : Ctx)
    (hc : ∀ x ∈ e, ∀ q y c, AllBelow q (cb q x.2 y c)) (a : List (Str × T)) :
    ∀ acc, AllBelow p acc → AllBelow p (valuesLoop cb p e ctx a acc) := by
  induction a with
  | nil => intro acc h; exact h
  | cons kv rest ih =>
    obtain ⟨k, v⟩ := kv
    intro acc h
    simp only [valuesLoop]
    apply ih
    cases hl : Json.lookup k e with
    | some ev => exact allBelow_merge h (allBelow_join (hc (k, ev) (Json.lookup_mem hl) _ _ _))
    | none =>
      cases e with
      | nil => exact h
      | cons x xs => exact allBelow_merge h (allBelow_join (hc x (by simp) _ _ _))

theorem commonLoop_below (p : DocPath) (a : List (Str × T)) (ctx : Ctx) (e : List (Str × T))
    (hc : ∀ x ∈ e, ∀ q y c, AllBelow q (cb q x.2 y c)) :
    ∀ acc, AllBelow p acc → AllBelow p (commonLoop cb p a ctx e acc) := by
  induction e with
  | nil => intro acc h; exact h
  | cons kv rest ih =>
    obtain ⟨k, v⟩ := kv
    intro acc h
    simp only [commonLoop]
    apply ih (fun x hx => hc x (by simp [hx]))
    split
    · exact allBelow_merge h (allBelow_join (hc (k, v) (by simp) _ _ _))
    · exact h

theorem matchKeys_below (env : Env) (ctx : Ctx) (p : DocPath) (e a : List Str) :
    AllBelow p (matchKeys env ctx p e a) := by
  apply allBelow_ofList
  intro m hm
  rcases List.mem_append.1 hm with h | h
  · unfold keySetMismatches at h
    split at h
    · simp at h
    · split at h <;> split at h <;> simp at h <;> subst h <;> exact Below.refl p
  · unfold keyRuleMismatches at h
    split at h
    · obtain ⟨r, _, hr⟩ := List.mem_flatMap.1 h
      split at hr
      · obtain ⟨s, _, hs⟩ := List.mem_flatMap.1 hr
        split at hs
        · obtain ⟨k, _, rfl⟩ := List.mem_map.1 hs
          exact Below.join p k
        · simp at hs; subst hs; exact Below.refl p
      · simp at hr
    · simp at h

theorem defRefs_below (p : DocPath) (d : RuleDef) : ∀ m ∈ defRefs p d, Below p m.path := by
  intro m hm
  obtain ⟨r, _, hr⟩ := List.mem_filterMap.1 hm
  split at hr
  · simp at hr
  · simp at hr; subst hr; exact Below.refl p

theorem compareMapsWithRule_below (env : Env) (eq) (rule : MatchingRule)
    (cascaded : Bool) (p : DocPath) (e a : List (Str × T)) (ctx : Ctx)
    (hc : ∀ x ∈ e, ∀ q y c, AllBelow q (cb q x.2 y c)) :
    AllBelow p (compareMapsWithRule env eq cb rule cascaded p e a ctx) := by
  unfold compareMapsWithRule
  split
  · split
    · exact valuesLoop_below _ _ _ hc _ _ (allBelow_ofList (defRefs_below p _))
    · exact valuesLoop_below _ _ _ hc _ _ (allBelow_ok p)
  · apply commonLoop_below _ _ _ _ hc
    apply allBelow_merge
    · split
      · exact allBelow_ok p
      · exact allBelow_one p _
    · exact matchKeys_below _ _ _ _ _

theorem listContents_below (p : DocPath) (ctx : Ctx) (e : List T)
    (hc : ∀ x ∈ e, ∀ q y c, AllBelow q (cb q x y c)) :
    ∀ i a, ∀ m ∈ listContents cb p ctx i e a, Below p m.path := by
  induction e with
  | nil => intro i a; cases a <;> simp [listContents]
  | cons x xs ih =>
    intro i a
    have ih := ih (fun y hy => hc y (by simp [hy]))
    cases a with
    | nil =>
      intro m hm
      simp only [listContents, List.mem_append] at hm
      rcases hm with h | h
      · split at h
        · simp at h
        · simp at h; subst h; exact Below.refl p
      · exact ih _ _ m h
    | cons y ys =>
      intro m hm
      simp only [listContents, List.mem_append] at hm
      rcases hm with h | h
      · exact (Below.join p _).trans (hc x (by simp) _ _ _ m h)
      · exact ih _ _ m h

theorem compareListsWithRule_below (eq) (rule : MatchingRule) (p : DocPath)
    (e a : List T) (ctx : Ctx) (cascaded : Bool) (hc : ∀ x ∈ e, ∀ q y c, AllBelow q (cb q x y c)) :
    AllBelow p (compareListsWithRule eq cb rule p e a ctx cascaded) := by
  have hl : ∀ ctx, ∀ m ∈ matchListContents cb p e a ctx, Below p m.path := fun ctx =>
    listContents_below p ctx _ (fun x hx => hc x (mem_padded hx)) 0 a
  unfold compareListsWithRule
  split
  · exact allBelow_ok p
  · split
    · apply allBelow_ofList
      intro m hm
      obtain ⟨v, _, hv⟩ := List.mem_flatMap.1 hm
      unfold variantMismatches at hv
      split at hv
      · split at hv
        · simp at hv
        · simp at hv; subst hv; exact Below.refl p
      · simp at hv; subst hv; exact Below.refl p
    · split
      · exact allBelow_ok p
      · apply allBelow_ofList
        intro m hm
        rcases List.mem_append.1 hm with h | h
        · exact defRefs_below p _ m h
        · exact hl _ m h
    · apply allBelow_ofList
      intro m hm
      rcases List.mem_append.1 hm with h | h
      · split at h
        · simp at h
        · simp at h; subst h; exact Below.refl p
      · exact hl _ m h

theorem compareListsWithRules_below (eq) (rl : RuleList) (p : DocPath)
    (e a : List T) (ctx : Ctx) (hc : ∀ x ∈ e, ∀ q y c, AllBelow q (cb q x y c)) :
    AllBelow p (compareListsWithRules eq cb rl p e a ctx) := by
  have hf : ∀ m ∈ (rl.rules.map (fun r => compareListsWithRule eq cb r p e a ctx rl.cascaded)).flatMap errs,
      Below p m.path := by
    intro m hm
    obtain ⟨r, hr, hm⟩ := List.mem_flatMap.1 hm
    obtain ⟨s, _, rfl⟩ := List.mem_map.1 hr
    exact compareListsWithRule_below eq s p e a ctx _ hc m hm
  unfold compareListsWithRules
  split
  · exact allBelow_one p _
  · simp only
    split
    · exact allBelow_ofList hf
    · split
      · exact allBelow_ofList hf
      · exact allBelow_ok p

end below

theorem compareListContent_below {cb : Callback Json} (p : DocPath) (ctx : Ctx) (e : List Json)
    (hc : ∀ x ∈ e, ∀ q y c, AllBelow q (cb q x y c)) :
    ∀ i a acc, AllBelow p acc → AllBelow p (compareListContent cb p ctx i e a acc) := by
  induction e with
  | nil => intro i a acc h; cases a <;> exact h
  | cons x xs ih =>
    intro i a acc h
    have ih := ih (fun y hy => hc y (by simp [hy]))
    cases a with
    | nil =>
      simp only [compareListContent]
      apply ih
      split
      · exact h
      · exact allBelow_merge h (allBelow_one p _)
    | cons y ys =>
      simp only [compareListContent]
      exact ih _ _ _ (allBelow_merge h (allBelow_join (hc x (by simp) _ _ _)))

theorem compareStep_below (env : Env) (cb : Callback Json) (p : DocPath) (e a : Json) (ctx : Ctx)
    (h : ∀ x, x.depth < e.depth → ∀ q y c, AllBelow q (cb q x y c)) :
    AllBelow p (compareStep env cb p e a ctx) := by
  cases e with
  | obj em =>
    have hm : ∀ x ∈ em, ∀ q y c, AllBelow q (cb q x.2 y c) := fun x hx => h x.2 (by
      have := Json.depth_mem_entries hx
      simp only [Json.depth]; omega)
    cases a <;> simp only [compareStep] <;> try exact allBelow_one p _
    rename_i am
    unfold compareMaps
    split
    · exact allBelow_one p _
    · split
      · have : ∀ (l : List MatchingRule) acc, AllBelow p acc → AllBelow p (l.foldl (fun acc r =>
            mergeResult acc (compareMapsWithRule env mapEqJson cb r (best ctx p).cascaded p em am ctx)) acc) := by
          intro l
          induction l with
          | nil => intro acc ha; exact ha
          | cons r rs ih =>
            intro acc ha
            exact ih _ (allBelow_merge ha (compareMapsWithRule_below env _ r _ p em am ctx hm))
        exact this _ _ (allBelow_ok p)
      · exact commonLoop_below _ _ _ _ hm _ (allBelow_merge (allBelow_ok p) (matchKeys_below _ _ _ _ _))
  | arr el =>
    have hm : ∀ x ∈ el, ∀ q y c, AllBelow q (cb q x y c) := fun x hx => h x (by
      have := Json.depth_mem_list hx
      simp only [Json.depth]; omega)
    cases a <;> simp only [compareStep] <;> try exact allBelow_one p _
    rename_i al
    unfold compareLists
    split
    · exact compareListsWithRules_below _ _ _ _ _ _ hm
    · split
      · exact allBelow_one p _
      · have := compareListContent_below p ctx el hm 0 al _ (allBelow_ok p)
        simp only
        split
        · exact allBelow_merge this (allBelow_one p _)
        · exact this
  | _ =>
    simp only [compareStep]
    unfold compareValues
    split
    · split
      · exact allBelow_ok p
      · intro m hm
        simp only [errs, List.mem_map] at hm
        obtain ⟨_, _, rfl⟩ := hm
        exact Below.refl p
    · split
      · exact allBelow_ok p
      · exact allBelow_one p _

/-- **C20**: every mismatch reported while comparing the value at a path carries a path at or below it. -/
theorem C20_mismatch_paths (env : Env) (p : DocPath) (e a : Json) (ctx : Ctx) (ms : List Mismatch)
    (h : compareJson env p e a ctx = .error ms) : ∀ m ∈ ms, Below p m.path := by
  have main : ∀ n, ∀ e : Json, e.depth < n → ∀ p a ctx, AllBelow p (compareJson env p e a ctx) := by
    intro n
    induction n with
    | zero => intro e h; omega
    | succ n ih =>
      intro e h p a ctx
      rw [compareJson_eq]
      exact compareStep_below _ _ _ _ _ _ (fun x hx q y c => ih x (by omega) q y c)
  intro m hm
  apply main (e.depth + 1) e (by omega) p a ctx
  rw [h]; exact hm

example : (errs (compareJson Env.simple rootPath docE docA ⟨⟨.body, []⟩, .noUnexpectedKeys⟩)).map
    (fun m => String.ofList m.path.expr) = ["$", "$.b[1]"] := by decide

end Verif.CompareProps
