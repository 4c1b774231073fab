import Verif.Xml
import Verif.Props.MatcherProps
import Verif.Props.LocalityProps
import Verif.Props.QueryStringProps
import Verif.Props.PatternProps
import Verif.MatchResult

/-
  Properties C89 and C90: the comparison of XML bodies, without rules (C89) and with rules (C90).
-/

set_option autoImplicit false

namespace Verif
namespace XmlProps
open Path Rules Matchers Compare Xml

/-! ## Specification -/

/-- The value of the attribute called `k` (well-formed XML has at most one). -/
def attr (e : Elem) (k : Str) : Option Str := Json.lookup k (e.attrs.map fun x => (nameStr x.1, x.2)).reverse

/-- The child elements called `k`, in document order. -/
def named (k : Str) (e : Elem) : List Elem := (elems e).filter fun c => decide (nameStr c.name = k)

/-- `actual` has what `expected` has; if `strict`, nothing else.  The order of children with different names and of
attributes, comments and white space at the ends of texts do not matter. -/
inductive Covers (uc : UC) (strict : Prop) : Elem → Elem → Prop
  | mk (e a : Elem) :
      e.name = a.name →
      (∀ k v, attr e k = some v → attr a k = some v) →
      (strict → ∀ k, attr e k = none → attr a k = none) →
      (∀ k, (named k e).length ≤ (named k a).length) →
      (strict → ∀ k, (named k a).length ≤ (named k e).length) →
      (∀ k (i : Nat) c d, (named k e)[i]? = some c → (named k a)[i]? = some d → Covers uc strict c d) →
      textOf uc e = textOf uc a →
      Covers uc strict e a

/-- A list of rules accepts a value. -/
def Holds (verdict : MatchingRule → Bool → Bool) (rl : RuleList) : Prop :=
  rl.rules ≠ [] ∧ (rl.logic = .and → ∀ r ∈ rl.rules, verdict r rl.cascaded = true) ∧
    (rl.logic = .or → ∃ r ∈ rl.rules, verdict r rl.cascaded = true)

/-- The rules selected for the path accept a value, or there are none and it is equal. -/
def Allowed (ctx : Ctx) (p : DocPath) (verdict : MatchingRule → Bool → Bool) : Prop :=
  (isDefined ctx p = true → Holds verdict (best ctx p)) ∧ (isDefined ctx p = false → verdict .equality false = true)

/-- What the comparison of two elements says about them, `P` being what it says about children. -/
structure Level (env : Env) (uc : UC) (ctx : Ctx) (P : DocPath → Elem → Elem → Prop) (p : DocPath) (e a : Elem) :
    Prop where
  element : Allowed ctx p (elemMatches env e a)
  attrs : ∀ k v, attr e k = some v → ∃ w, attr a k = some w ∧ Allowed ctx (join p ('@' :: k)) (strMatches env v w)
  noMore : ctx.config = .noUnexpectedKeys → ∀ k, attr e k = none → attr a k = none
  enough : ∀ k, typeDefined ctx (join p k) = false → (named k e).length ≤ (named k a).length
  notMore : ∀ k, typeDefined ctx (join p k) = false → ctx.config = .noUnexpectedKeys →
    (named k a).length ≤ (named k e).length
  pairwise : ∀ k, typeDefined ctx (join p k) = false → ∀ (i : Nat) c d, (named k e)[i]? = some c →
    (named k a)[i]? = some d → P (join p k) c d
  likeFirst : ∀ k, typeDefined ctx (join p k) = true → ∀ c, (named k e)[0]? = some c → ∀ d ∈ named k a, P (join p k) c d
  someOf : ∀ k, typeDefined ctx (join p k) = true → (named k e = [] ↔ named k a = [])
  text : Allowed ctx (join p "#text".toList) (strMatches env (textOf uc e) (textOf uc a))

/-- `actual` is accepted for `expected` at a path. -/
inductive Accepts (env : Env) (uc : UC) (ctx : Ctx) : DocPath → Elem → Elem → Prop
  | mk (p : DocPath) (e a : Elem) :
      Allowed ctx p (elemMatches env e a) →
      (∀ k v, attr e k = some v → ∃ w, attr a k = some w ∧ Allowed ctx (join p ('@' :: k)) (strMatches env v w)) →
      (ctx.config = .noUnexpectedKeys → ∀ k, attr e k = none → attr a k = none) →
      (∀ k, typeDefined ctx (join p k) = false → (named k e).length ≤ (named k a).length) →
      (∀ k, typeDefined ctx (join p k) = false → ctx.config = .noUnexpectedKeys →
        (named k a).length ≤ (named k e).length) →
      (∀ k, typeDefined ctx (join p k) = false → ∀ (i : Nat) c d, (named k e)[i]? = some c →
        (named k a)[i]? = some d → Accepts env uc ctx (join p k) c d) →
      (∀ k, typeDefined ctx (join p k) = true → ∀ c, (named k e)[0]? = some c → ∀ d ∈ named k a,
        Accepts env uc ctx (join p k) c d) →
      (∀ k, typeDefined ctx (join p k) = true → (named k e = [] ↔ named k a = [])) →
      Allowed ctx (join p "#text".toList) (strMatches env (textOf uc e) (textOf uc a)) →
      Accepts env uc ctx p e a

theorem accepts_iff (env : Env) (uc : UC) (ctx : Ctx) (p : DocPath) (e a : Elem) :
    Accepts env uc ctx p e a ↔ Level env uc ctx (Accepts env uc ctx) p e a := by
  constructor
  · rintro ⟨_, _, _, h1, h2, h3, h4, h5, h6, h7, h8, h9⟩
    exact ⟨h1, h2, h3, h4, h5, h6, h7, h8, h9⟩
  · rintro ⟨h1, h2, h3, h4, h5, h6, h7, h8, h9⟩
    exact .mk p e a h1 h2 h3 h4 h5 h6 h7 h8 h9

/-! ## Values -/

theorem check_ok (ctx : Ctx) (p : DocPath) (verdict : MatchingRule → Bool → Bool) :
    check ctx p verdict = .ok () ↔ Allowed ctx p verdict := by
  unfold check Allowed
  cases hd : isDefined ctx p with
  | true =>
    simp only [if_true, forall_const, Bool.true_eq_false, false_implies, and_true]
    unfold Holds
    cases hl : (best ctx p).logic with
    | and => rw [MatcherProps.C10_and _ _ hl]; simp
    | or =>
      rw [MatcherProps.C10_or _ _ hl]
      simp only [reduceCtorEq, false_implies, forall_const, true_and]
      constructor
      · rintro ⟨r, hr, h⟩
        exact ⟨(fun e => by rw [e] at hr; cases hr), r, hr, h⟩
      · exact And.right
  | false =>
    cases verdict MatchingRule.equality false <;> simp

theorem check_errors {ctx : Ctx} {p : DocPath} {verdict : MatchingRule → Bool → Bool} {fs : List (Option MatchingRule)}
    (h : check ctx p verdict = .error fs) : fs ≠ [] := by
  unfold check at h
  split at h
  · exact (MatcherProps.C10_errors _ _ _ h).1
  · split at h
    · cases h
    · cases h; simp

theorem report_nil (ctx : Ctx) (p q : DocPath) (k : MKind) (verdict : MatchingRule → Bool → Bool) :
    report q k (check ctx p verdict) = [] ↔ Allowed ctx p verdict := by
  rw [← check_ok]
  cases h : check ctx p verdict with
  | ok u => simp [report]
  | error fs =>
    have := check_errors h
    simp [report, this]

/-! ## Attributes -/

theorem sub_len {α : Type} [DecidableEq α] : ∀ (l m : List α), l.Nodup → (∀ x ∈ l, x ∈ m) → l.length ≤ m.length
  | [], _, _, _ => Nat.zero_le _
  | a :: l, m, hn, hs => by
    obtain ⟨h1, h2⟩ := List.nodup_cons.1 hn
    have ha : a ∈ m := hs a List.mem_cons_self
    have := sub_len l (m.erase a) h2 (fun x hx => by
      have hxa : x ≠ a := fun e => h1 (e ▸ hx)
      exact (List.mem_erase_of_ne hxa).2 (hs x (List.mem_cons_of_mem _ hx)))
    rw [List.length_erase_of_mem ha] at this
    have hp : 0 < m.length := List.length_pos_of_mem ha
    simp only [List.length_cons]
    omega

theorem sub_all {α : Type} [DecidableEq α] {l m : List α} (hn : l.Nodup) (hs : ∀ x ∈ l, x ∈ m)
    (hl : m.length ≤ l.length) : ∀ x ∈ m, x ∈ l := by
  intro x hx
  refine Classical.byContradiction fun hnx => ?_
  have := sub_len (x :: l) m (List.nodup_cons.2 ⟨hnx, hn⟩) (by
    intro y hy
    rcases List.mem_cons.1 hy with rfl | hy
    · exact hx
    · exact hs y hy)
  simp only [List.length_cons] at this
  omega

theorem lookup_attrMap (e : Elem) (k : Str) : Json.lookup k (attrMap e) = attr e k := by
  unfold attrMap OMap.collect attr
  rw [(OMap.foldl_insert _ [] trivial).2 k]
  cases Json.lookup k _ <;> rfl

theorem attrMap_nodup (e : Elem) : ((attrMap e).map (·.1)).Nodup := (OMap.collect_sorted _).nodup

theorem mem_attrMap (e : Elem) (k v : Str) : (k, v) ∈ attrMap e ↔ attr e k = some v := by
  rw [← lookup_attrMap]
  exact ⟨fun h => Json.lookup_of_mem (attrMap_nodup e) h, fun h => Json.lookup_mem h⟩

theorem mem_attrKeys (e : Elem) (k : Str) : k ∈ (attrMap e).map (·.1) ↔ attr e k ≠ none := by
  constructor
  · intro h
    obtain ⟨⟨k', v⟩, hm, rfl⟩ := List.mem_map.1 h
    rw [(mem_attrMap e k' v).1 hm]
    simp
  · intro h
    obtain ⟨v, hv⟩ := Option.ne_none_iff_exists'.1 h
    exact List.mem_map.2 ⟨(k, v), (mem_attrMap e k v).2 hv, rfl⟩

theorem compareAttrs_nil (env : Env) (ctx : Ctx) (p : DocPath) (e a : Elem) :
    compareAttrs env ctx p e a = [] ↔
    (∀ k v, attr e k = some v → ∃ w, attr a k = some w ∧ Allowed ctx (join p ('@' :: k)) (strMatches env v w)) ∧
    (ctx.config = .noUnexpectedKeys → ∀ k, attr e k = none → attr a k = none) := by
  have hone : ∀ k v, attr e k = some v → (compareAttr env ctx p (attrMap a) (k, v) = [] ↔
      ∃ w, attr a k = some w ∧ Allowed ctx (join p ('@' :: k)) (strMatches env v w)) := by
    intro k v _
    unfold compareAttr
    simp only
    rw [lookup_attrMap]
    cases hw : attr a k with
    | some w =>
      simp only
      unfold compareValue
      rw [report_nil]
      simp
    | none => simp
  have hall : (attrMap e).flatMap (compareAttr env ctx p (attrMap a)) = [] ↔
      ∀ k v, attr e k = some v → ∃ w, attr a k = some w ∧ Allowed ctx (join p ('@' :: k)) (strMatches env v w) := by
    rw [List.flatMap_eq_nil_iff]
    constructor
    · intro h k v hv
      exact (hone k v hv).1 (h (k, v) ((mem_attrMap e k v).2 hv))
    · rintro h ⟨k, v⟩ hm
      have hv := (mem_attrMap e k v).1 hm
      exact (hone k v hv).2 (h k v hv)
  have hsub : (∀ k v, attr e k = some v → ∃ w, attr a k = some w ∧ Allowed ctx (join p ('@' :: k)) (strMatches env v w)) →
      ∀ k ∈ (attrMap e).map (·.1), k ∈ (attrMap a).map (·.1) := by
    intro h k hk
    rw [mem_attrKeys] at hk ⊢
    obtain ⟨v, hv⟩ := Option.ne_none_iff_exists'.1 hk
    obtain ⟨w, hw, _⟩ := h k v hv
    rw [hw]; simp
  unfold compareAttrs
  split
  · rename_i hc
    simp only [Bool.and_eq_true, Bool.not_eq_true', decide_eq_true_eq] at hc
    obtain ⟨⟨h1, h2⟩, h3⟩ := hc
    constructor
    · intro h; cases h
    · rintro ⟨_, h⟩
      exfalso
      have he : ∀ k, attr e k = none := by
        intro k
        rw [← lookup_attrMap, List.isEmpty_iff.1 h1]; rfl
      have ha : ∀ k, attr a k = none := fun k => h h3 k (he k)
      cases hm : attrMap a with
      | nil => rw [hm] at h2; cases h2
      | cons x xs =>
        have : (x.1, x.2) ∈ attrMap a := by rw [hm]; exact List.mem_cons_self
        rw [mem_attrMap, ha] at this
        cases this
  · rename_i hc
    rw [List.append_eq_nil_iff, hall]
    constructor
    · rintro ⟨h1, h2⟩
      refine ⟨h2, ?_⟩
      intro hs k hk
      rw [attrCount, hs] at h1
      simp only [ne_eq, ite_not, ite_eq_left_iff, List.cons_ne_self, imp_false, Decidable.not_not] at h1
      refine Classical.byContradiction fun hne => ?_
      have := sub_all (attrMap_nodup e) (hsub h2) (by rw [List.length_map, List.length_map]; omega) k
        ((mem_attrKeys a k).2 hne)
      exact (mem_attrKeys e k).1 this hk
    · rintro ⟨h1, h2⟩
      refine ⟨?_, h1⟩
      have hle := sub_len _ _ (attrMap_nodup e) (hsub h1)
      rw [List.length_map, List.length_map] at hle
      unfold attrCount
      cases hs : ctx.config with
      | allowUnexpectedKeys => simp only; rw [if_neg (by omega)]
      | noUnexpectedKeys =>
        simp only
        have hge := sub_len _ ((attrMap e).map (·.1)) (attrMap_nodup a) (by
          intro k hk
          rw [mem_attrKeys] at hk ⊢
          exact fun h => hk (h2 hs k h))
        rw [List.length_map, List.length_map] at hge
        rw [if_neg (by omega)]

/-! ## Children -/

theorem groups_facts (cs : List Elem) : Json.SortedKeys ((groups cs).map (·.1)) ∧
    ∀ k, Json.lookup k (groups cs) =
      if (cs.filter fun c => decide (nameStr c.name = k)) = [] then none
      else some (cs.filter fun c => decide (nameStr c.name = k)) := by
  have gen : ∀ (cs done : List Elem) (m : List (Str × List Elem)), Json.SortedKeys (m.map (·.1)) →
      (∀ k, Json.lookup k m = if (done.filter fun c => decide (nameStr c.name = k)) = [] then none
        else some (done.filter fun c => decide (nameStr c.name = k))) →
      Json.SortedKeys ((cs.foldl (fun m c =>
        OMap.insert (nameStr c.name) ((Json.lookup (nameStr c.name) m).getD [] ++ [c]) m) m).map (·.1)) ∧
      ∀ k, Json.lookup k (cs.foldl (fun m c =>
        OMap.insert (nameStr c.name) ((Json.lookup (nameStr c.name) m).getD [] ++ [c]) m) m) =
        if ((done ++ cs).filter fun c => decide (nameStr c.name = k)) = [] then none
        else some ((done ++ cs).filter fun c => decide (nameStr c.name = k)) := by
    intro cs
    induction cs with
    | nil => intro done m h1 h2; rw [List.append_nil]; exact ⟨h1, h2⟩
    | cons c cs ih =>
      intro done m h1 h2
      rw [List.foldl_cons]
      have := ih (done ++ [c]) _ (OMap.insert_sorted (nameStr c.name)
        ((Json.lookup (nameStr c.name) m).getD [] ++ [c]) m h1) (by
        intro k
        rw [OMap.lookup_insert _ _ _ h1, List.filter_append]
        by_cases hk : k = nameStr c.name
        · subst hk
          rw [if_pos rfl, h2]
          split <;> simp_all
        · rw [if_neg hk, h2]
          have : ¬ nameStr c.name = k := fun e => hk e.symm
          simp [this])
      rw [List.append_assoc, List.singleton_append] at this
      exact this
  have := gen cs [] [] trivial (fun k => rfl)
  rw [List.nil_append] at this
  exact this

theorem lookup_groups (e : Elem) (k : Str) : Json.lookup k (groups (elems e)) =
    if named k e = [] then none else some (named k e) := (groups_facts (elems e)).2 k

theorem mem_groups (e : Elem) (k : Str) (l : List Elem) : (k, l) ∈ groups (elems e) ↔ named k e = l ∧ l ≠ [] := by
  have h : (k, l) ∈ groups (elems e) ↔ Json.lookup k (groups (elems e)) = some l :=
    ⟨fun h => Json.lookup_of_mem (groups_facts _).1.nodup h, fun h => Json.lookup_mem h⟩
  rw [h, lookup_groups]
  split
  · rename_i hn
    rw [hn]
    simp
  · rename_i hn
    constructor
    · intro h; cases h; exact ⟨rfl, hn⟩
    · rintro ⟨rfl, _⟩; rfl

theorem named_sub {k : Str} {e c : Elem} (h : c ∈ named k e) : c ∈ elems e ∧ nameStr c.name = k := by
  have := List.mem_filter.1 h
  exact ⟨this.1, of_decide_eq_true this.2⟩

theorem named_of {e c : Elem} (h : c ∈ elems e) : c ∈ named (nameStr c.name) e :=
  List.mem_filter.2 ⟨h, decide_eq_true rfl⟩

theorem pairs_nil (cmp : Cmp) (ctx : Ctx) (q : DocPath) : ∀ es as : List Elem,
    pairs cmp ctx q es as = [] ↔ es.length ≤ as.length ∧
      (ctx.config = .noUnexpectedKeys → as.length ≤ es.length) ∧
      ∀ (i : Nat) c d, es[i]? = some c → as[i]? = some d → cmp q c d = []
  | [], as => by
    rw [pairs, List.flatMap_eq_nil_iff]
    by_cases hc : ctx.config = .noUnexpectedKeys
    · simp [hc, List.eq_nil_iff_forall_not_mem]
    · simp [hc]
  | e :: es, [] => by simp [pairs]
  | e :: es, a :: as => by
    rw [pairs, List.append_eq_nil_iff, pairs_nil cmp ctx q es as]
    simp only [List.length_cons, Nat.add_le_add_iff_right]
    constructor
    · rintro ⟨h1, h2, h3, h4⟩
      refine ⟨h2, h3, ?_⟩
      intro i c d hc hd
      cases i with
      | zero => cases hc; cases hd; exact h1
      | succ i => exact h4 i c d hc hd
    · rintro ⟨h2, h3, h4⟩
      exact ⟨h4 0 e a rfl rfl, h2, h3, fun i c d hc hd => h4 (i + 1) c d hc hd⟩

theorem each_nil (cmp : Cmp) (q : DocPath) (es as : List Elem) : eachWithFirst cmp q es as = [] ↔
    ∀ c, es[0]? = some c → ∀ d ∈ as, cmp q c d = [] := by
  cases es with
  | nil => simp [eachWithFirst]
  | cons e es => simp [eachWithFirst, List.flatMap_eq_nil_iff]

theorem compareKids_nil (cmp : Cmp) (ctx : Ctx) (p : DocPath) (e a : Elem) : compareKids cmp ctx p e a = [] ↔
    (∀ k, typeDefined ctx (join p k) = false → (named k e).length ≤ (named k a).length) ∧
    (∀ k, typeDefined ctx (join p k) = false → ctx.config = .noUnexpectedKeys →
      (named k a).length ≤ (named k e).length) ∧
    (∀ k, typeDefined ctx (join p k) = false → ∀ (i : Nat) c d, (named k e)[i]? = some c →
      (named k a)[i]? = some d → cmp (join p k) c d = []) ∧
    (∀ k, typeDefined ctx (join p k) = true → ∀ c, (named k e)[0]? = some c → ∀ d ∈ named k a, cmp (join p k) c d = []) ∧
    (∀ k, typeDefined ctx (join p k) = true → (named k e = [] ↔ named k a = [])) := by
  unfold compareKids
  split
  · rename_i hc
    simp only [Bool.and_eq_true, Bool.not_eq_true', decide_eq_true_eq] at hc
    obtain ⟨⟨h1, h2⟩, h3⟩ := hc
    constructor
    · intro h; cases h
    · rintro ⟨_, hm, _, _, hs⟩
      exfalso
      have he : elems e = [] := List.isEmpty_iff.1 h1
      cases ha : elems a with
      | nil => rw [ha] at h2; cases h2
      | cons c cs =>
        have hn : c ∈ named (nameStr c.name) a := named_of (by rw [ha]; exact List.mem_cons_self)
        have hz : named (nameStr c.name) e = [] := by rw [named, he]; rfl
        cases ht : typeDefined ctx (join p (nameStr c.name)) with
        | true => rw [(hs _ ht).1 hz] at hn; cases hn
        | false =>
          have := hm _ ht h3
          rw [hz] at this
          have hp := List.length_pos_of_mem hn
          simp only [List.length_nil] at this
          omega
  · rename_i hc
    rw [List.append_eq_nil_iff, List.flatMap_eq_nil_iff, List.map_eq_nil_iff, List.filter_eq_nil_iff]
    have hmiss : (∀ g ∈ groups (elems e), ¬ (Json.lookup g.1 (groups (elems a))).isNone = true) ↔
        ∀ k, named k a = [] → named k e = [] := by
      constructor
      · intro h k hk
        refine Classical.byContradiction fun hne => ?_
        refine h (k, named k e) ((mem_groups e k _).2 ⟨rfl, hne⟩) ?_
        simp only
        rw [lookup_groups, if_pos hk]; rfl
      · rintro h ⟨k, l⟩ hm hl
        obtain ⟨rfl, hne⟩ := (mem_groups e k l).1 hm
        simp only at hl
        rw [lookup_groups] at hl
        split at hl
        · rename_i hz; exact hne (h k hz)
        · cases hl
    rw [hmiss]
    have hgrp : ∀ k, named k a ≠ [] → (compareGroup cmp ctx p (groups (elems e)) (k, named k a) = [] ↔
        (typeDefined ctx (join p k) = false → (named k e = [] → ctx.config ≠ .noUnexpectedKeys) ∧
          (named k e ≠ [] → pairs cmp ctx (join p k) (named k e) (named k a) = [])) ∧
        (typeDefined ctx (join p k) = true → named k e ≠ [] ∧
          eachWithFirst cmp (join p k) (named k e) (named k a) = [])) := by
      intro k hk
      unfold compareGroup
      simp only
      rw [lookup_groups]
      by_cases hz : named k e = []
      · rw [if_pos hz]
        cases typeDefined ctx (join p k) <;> cases hcfg : ctx.config <;> simp [hz]
      · rw [if_neg hz]
        cases typeDefined ctx (join p k) <;> simp [hz]
    constructor
    · rintro ⟨h1, h2⟩
      have hg : ∀ k, named k a ≠ [] → _ := fun k hk => (hgrp k hk).1 (h1 (k, named k a) ((mem_groups a k _).2 ⟨rfl, hk⟩))
      have hpair : ∀ k, typeDefined ctx (join p k) = false → named k e ≠ [] →
          pairs cmp ctx (join p k) (named k e) (named k a) = [] := by
        intro k ht hne
        exact ((hg k (fun hz => hne (h2 k hz))).1 ht).2 hne
      refine ⟨?_, ?_, ?_, ?_, ?_⟩
      · intro k ht
        by_cases hz : named k e = []
        · rw [hz]; exact Nat.zero_le _
        · exact ((pairs_nil _ _ _ _ _).1 (hpair k ht hz)).1
      · intro k ht hs
        by_cases hza : named k a = []
        · rw [hza]; exact Nat.zero_le _
        · by_cases hz : named k e = []
          · exact absurd hs (((hg k hza).1 ht).1 hz)
          · exact ((pairs_nil _ _ _ _ _).1 (hpair k ht hz)).2.1 hs
      · intro k ht i c d hc hd
        have hz : named k e ≠ [] := by intro h; rw [h] at hc; cases hc
        exact ((pairs_nil _ _ _ _ _).1 (hpair k ht hz)).2.2 i c d hc hd
      · intro k ht c hc d hd
        have hza : named k a ≠ [] := by intro h; rw [h] at hd; cases hd
        exact (each_nil _ _ _ _).1 ((hg k hza).2 ht).2 c hc d hd
      · intro k ht
        refine ⟨fun hz => ?_, h2 k⟩
        refine Classical.byContradiction fun hza => ?_
        exact ((hg k hza).2 ht).1 hz
    · rintro ⟨h1, h2, h3, h4, h5⟩
      constructor
      · rintro ⟨k, l⟩ hm
        obtain ⟨rfl, hk⟩ := (mem_groups a k l).1 hm
        refine (hgrp k hk).2 ⟨?_, ?_⟩
        · intro ht
          refine ⟨?_, ?_⟩
          · intro hz hs
            have := h2 k ht hs
            rw [hz] at this
            exact hk (List.length_eq_zero_iff.1 (Nat.le_zero.1 this))
          · intro _
            exact (pairs_nil _ _ _ _ _).2 ⟨h1 k ht, h2 k ht, h3 k ht⟩
        · intro ht
          exact ⟨fun hz => hk ((h5 k ht).1 hz), (each_nil _ _ _ _).2 (h4 k ht)⟩
      · intro k hk
        cases ht : typeDefined ctx (join p k) with
        | true => exact (h5 k ht).2 hk
        | false =>
          have := h1 k ht
          rw [hk] at this
          exact List.length_eq_zero_iff.1 (Nat.le_zero.1 this)

/-! ## Text -/

theorem dropWhile_fix {f : Char → Bool} {s : Str} : s.dropWhile f = s ↔ ∀ c, s.head? = some c → f c = false := by
  cases s with
  | nil => simp
  | cons x xs =>
    cases h : f x with
    | true =>
      simp only [List.dropWhile_cons, h, if_true, List.head?_cons, Option.some.injEq, forall_eq', Bool.true_eq_false,
        iff_false]
      intro he
      have := congrArg List.length he
      have hl : (xs.dropWhile f).length ≤ xs.length := (List.dropWhile_suffix f).length_le
      simp only [List.length_cons] at this
      omega
    | false => simp [h]

theorem dropWhile_head {f : Char → Bool} {s : Str} (c : Char) (h : (s.dropWhile f).head? = some c) : f c = false :=
  dropWhile_fix.1 (by induction s with
    | nil => rfl
    | cons x xs ih =>
      rw [List.dropWhile_cons]
      split
      · exact ih (by rw [List.dropWhile_cons, if_pos (by assumption)] at h; exact h)
      · rename_i hx; rw [List.dropWhile_cons, if_neg hx]) c h

/-- A text is trimmed iff it does not begin or end with white space. -/
theorem trim_fix (uc : UC) (s : Str) : trim uc s = s ↔
    (∀ c, s.head? = some c → uc.white c = false) ∧ (∀ c, s.getLast? = some c → uc.white c = false) := by
  unfold trim
  constructor
  · intro h
    have hl : ∀ c, s.getLast? = some c → uc.white c = false := by
      intro c hc
      rw [← h, List.getLast?_reverse] at hc
      exact dropWhile_head c hc
    have h2 : s.dropWhile uc.white = s := by
      have hlen : s.length ≤ (s.dropWhile uc.white).length := by
        have e := congrArg List.length h
        rw [List.length_reverse] at e
        have := (List.dropWhile_suffix (l := (s.dropWhile uc.white).reverse) uc.white).length_le
        rw [List.length_reverse] at this
        omega
      exact (List.dropWhile_suffix uc.white).eq_of_length_le hlen
    exact ⟨dropWhile_fix.1 h2, hl⟩
  · rintro ⟨h1, h2⟩
    rw [dropWhile_fix.2 h1, dropWhile_fix.2, List.reverse_reverse]
    intro c hc
    rw [List.head?_reverse] at hc
    exact h2 c hc

theorem trim_append (uc : UC) {s t : Str} (hs : trim uc s = s) (ht : trim uc t = t) : trim uc (s ++ t) = s ++ t := by
  rw [trim_fix] at hs ht ⊢
  constructor
  · intro c hc
    rw [List.head?_append] at hc
    cases h : s.head? with
    | some d => rw [h] at hc; cases hc; exact hs.1 _ h
    | none => rw [h] at hc; exact ht.1 c hc
  · intro c hc
    rw [List.getLast?_append] at hc
    cases h : t.getLast? with
    | some d => rw [h] at hc; cases hc; exact ht.2 _ h
    | none => rw [h] at hc; exact hs.2 c hc

theorem trim_text (uc : UC) (e : Elem) : trim uc (textOf uc e) = textOf uc e := by
  unfold textOf
  induction e.kids with
  | nil => rfl
  | cons k ks ih =>
    rw [List.flatMap_cons]
    refine trim_append uc ?_ ih
    cases k with
    | inl c => rfl
    | inr t =>
      cases t with
      | none => rfl
      | some t => exact QueryStringProps.trim_idem uc t

theorem compareText_nil (env : Env) (uc : UC) (ctx : Ctx) (p : DocPath) (e a : Elem) : compareText env uc ctx p e a = [] ↔
    Allowed ctx (join p "#text".toList) (strMatches env (textOf uc e) (textOf uc a)) := by
  unfold compareText
  rw [trim_text, trim_text, ite_self, report_nil]

/-! ## Elements -/

theorem step_nil (env : Env) (uc : UC) (ctx : Ctx) (cmp : Cmp) (p : DocPath) (e a : Elem) :
    Xml.compareStep env uc ctx cmp p e a = [] ↔ Level env uc ctx (fun q c d => cmp q c d = []) p e a := by
  unfold Xml.compareStep
  cases hc : check ctx p (elemMatches env e a) with
  | error fs =>
    simp only [report, List.map_eq_nil_iff, check_errors hc, false_iff]
    intro h
    have := (check_ok _ _ _).2 h.element
    rw [hc] at this
    cases this
  | ok u =>
    simp only
    rw [List.append_eq_nil_iff, List.append_eq_nil_iff, compareAttrs_nil, compareKids_nil, compareText_nil]
    have he := (check_ok ctx p (elemMatches env e a)).1 hc
    constructor
    · rintro ⟨⟨⟨h1, h2⟩, h3, h4, h5, h6, h7⟩, h8⟩
      exact ⟨he, h1, h2, h3, h4, h5, h6, h7, h8⟩
    · rintro ⟨_, h1, h2, h3, h4, h5, h6, h7, h8⟩
      exact ⟨⟨⟨h1, h2⟩, h3, h4, h5, h6, h7⟩, h8⟩

theorem Level.imp {env : Env} {uc : UC} {ctx : Ctx} {P Q : DocPath → Elem → Elem → Prop} {p : DocPath} {e a : Elem}
    (h : ∀ q, ∀ c ∈ elems e, ∀ d, P q c d → Q q c d) (hl : Level env uc ctx P p e a) : Level env uc ctx Q p e a := by
  refine ⟨hl.element, hl.attrs, hl.noMore, hl.enough, hl.notMore, ?_, ?_, hl.someOf, hl.text⟩
  · intro k ht i c d hc hd
    exact h _ c (named_sub (List.mem_of_getElem? hc)).1 d (hl.pairwise k ht i c d hc hd)
  · intro k ht c hc d hd
    exact h _ c (named_sub (List.mem_of_getElem? hc)).1 d (hl.likeFirst k ht c hc d hd)

theorem kid_depth {k : Elem ⊕ Option Str} {ks : List (Elem ⊕ Option Str)} (h : k ∈ ks) : kidDepth k ≤ kidsDepth ks := by
  induction ks with
  | nil => cases h
  | cons x xs ih =>
    rw [kidsDepth]
    rcases List.mem_cons.1 h with rfl | h
    · exact Nat.le_max_left _ _
    · exact Nat.le_trans (ih h) (Nat.le_max_right _ _)

theorem elems_depth {e c : Elem} (h : c ∈ elems e) : c.depth < e.depth := by
  obtain ⟨n, at', ks⟩ := e
  obtain ⟨k, hk, hc⟩ := List.mem_filterMap.1 h
  cases k with
  | inr t => cases hc
  | inl c' =>
    cases hc
    have := kid_depth hk
    rw [kidDepth] at this
    rw [Elem.depth]
    exact Nat.lt_succ_of_le this

theorem depth_pos (e : Elem) : 0 < e.depth := by
  obtain ⟨n, a, k⟩ := e
  rw [Elem.depth]
  exact Nat.succ_pos _

theorem compareF_nil (env : Env) (uc : UC) (ctx : Ctx) : ∀ (n : Nat) (e : Elem), e.depth ≤ n → ∀ p a,
    compareF env uc ctx n p e a = [] ↔ Accepts env uc ctx p e a := by
  intro n
  induction n with
  | zero => intro e h; have := depth_pos e; omega
  | succ n ih =>
    intro e h p a
    rw [compareF, step_nil, accepts_iff]
    have hd : ∀ c ∈ elems e, c.depth ≤ n := fun c hc => by have := elems_depth hc; omega
    exact ⟨Level.imp fun q c hc d => (ih c (hd c hc) q d).1, Level.imp fun q c hc d => (ih c (hd c hc) q d).2⟩

/-- **C90** The comparison reports nothing exactly if the actual element is accepted. -/
theorem C90_accepts (env : Env) (uc : UC) (ctx : Ctx) (p : DocPath) (e a : Elem) :
    compareElem env uc ctx p e a = [] ↔ Accepts env uc ctx p e a := compareF_nil env uc ctx e.depth e (Nat.le_refl _) p a

/-! ## Without rules -/

theorem allowed_none {ctx : Ctx} (hd : ∀ p, isDefined ctx p = false) (p : DocPath) (verdict : MatchingRule → Bool → Bool) :
    Allowed ctx p verdict ↔ verdict .equality false = true := by
  rw [Allowed, hd]; simp

theorem no_rules {ctx : Ctx} (h : ctx.cat.rules = []) : (∀ p, isDefined ctx p = false) ∧ ∀ p, typeDefined ctx p = false := by
  have hr : ∀ v, (resolveMatchersForPath ctx.cat v).rules = [] := by
    intro v
    unfold resolveMatchersForPath
    split <;> simp [filterCat, h]
  constructor
  · intro p
    rw [isDefined, matcherIsDefined, hr]; rfl
  · intro p
    rw [typeDefined, hr]; rfl

theorem accepts_covers {env : Env} {uc : UC} {ctx : Ctx} (hd : ∀ p, isDefined ctx p = false)
    (ht : ∀ p, typeDefined ctx p = false) (p : DocPath) (e a : Elem) :
    Accepts env uc ctx p e a ↔ Covers uc (ctx.config = .noUnexpectedKeys) e a := by
  have hel : ∀ e a : Elem, elemMatches env e a .equality false = true ↔ e.name = a.name := by
    intro e a; simp [elemMatches]
  have hst : ∀ e a : Str, strMatches env e a .equality false = true ↔ e = a := by
    intro e a; simp [strMatches]
  constructor
  · intro h
    induction h with
    | mk p e a h1 h2 h3 h4 h5 h6 h7 h8 h9 ih1 ih2 =>
      rw [allowed_none hd] at h1 h9
      refine .mk e a ((hel e a).1 h1) ?_ h3 (fun k => h4 k (ht _)) (fun hs k => h5 k (ht _) hs)
        (fun k i c d hc hd' => ih1 k (ht _) i c d hc hd') ((hst _ _).1 h9)
      intro k v hv
      obtain ⟨w, hw, hal⟩ := h2 k v hv
      rw [allowed_none hd, hst] at hal
      rw [hal]; exact hw
  · intro h
    induction h generalizing p with
    | mk e a h1 h2 h3 h4 h5 h6 h7 ih =>
      refine .mk p e a ((allowed_none hd _ _).2 ((hel e a).2 h1)) ?_ h3 (fun k _ => h4 k) (fun k _ hs => h5 hs k)
        (fun k _ i c d hc hd' => ih k i c d hc hd' _) (fun k hk => absurd hk (by rw [ht]; simp))
        (fun k hk => absurd hk (by rw [ht]; simp)) ((allowed_none hd _ _).2 ((hst _ _).2 h7))
      intro k v hv
      exact ⟨v, h2 k v hv, (allowed_none hd _ _).2 ((hst _ _).2 rfl)⟩

/-- **C89** Without rules a document is accepted exactly if it has everything of the expected one, and nothing else in
strict mode. -/
theorem C89_containment (env : Env) (uc : UC) (ctx : Ctx) (h : ctx.cat.rules = []) (e a : Elem) :
    compareRoot env uc ctx e a = [] ↔ Covers uc (ctx.config = .noUnexpectedKeys) e a := by
  rw [compareRoot, C90_accepts, accepts_covers (no_rules h).1 (no_rules h).2]

theorem elem_induct {P : Elem → Prop} (h : ∀ e, (∀ c ∈ elems e, P c) → P e) (e : Elem) : P e := by
  have : ∀ n e, Elem.depth e ≤ n → P e := by
    intro n
    induction n with
    | zero => intro e he; have := depth_pos e; omega
    | succ n ih => intro e he; exact h e fun c hc => ih c (by have := elems_depth hc; omega)
  exact this _ e (Nat.le_refl _)

/-- **C89** Every document is accepted for itself. -/
theorem C89_refl (uc : UC) (strict : Prop) (e : Elem) : Covers uc strict e e := by
  induction e using elem_induct with
  | h e ih =>
    refine .mk e e rfl (fun k v h => h) (fun _ k h => h) (fun k => Nat.le_refl _) (fun _ k => Nat.le_refl _) ?_ rfl
    intro k i c d hc hd
    rw [hc] at hd
    cases hd
    exact ih c (named_sub (List.mem_of_getElem? hc)).1

/-- **C89** Containment is transitive: what is accepted for an accepted document is accepted. -/
theorem C89_trans {uc : UC} {strict : Prop} {x y z : Elem} (h1 : Covers uc strict x y) (h2 : Covers uc strict y z) :
    Covers uc strict x z := by
  induction h1 generalizing z with
  | mk e a h1 h2' h3 h4 h5 h6 h7 ih =>
    obtain ⟨_, _, g1, g2, g3, g4, g5, g6, g7⟩ := h2
    refine .mk e z (h1.trans g1) (fun k v h => g2 k v (h2' k v h)) (fun s k h => g3 s k (h3 s k h))
      (fun k => Nat.le_trans (h4 k) (g4 k)) (fun s k => Nat.le_trans (g5 s k) (h5 s k)) ?_ (h7.trans g7)
    intro k i c d hc hd
    have hi : i < (named k a).length := by
      have := (List.getElem?_eq_some_iff.1 hc).1
      exact Nat.lt_of_lt_of_le this (h4 k)
    have hm : (named k a)[i]? = some ((named k a)[i]'hi) := List.getElem?_eq_getElem hi
    exact ih k i c _ hc hm (g6 k i _ d hm hd)

/-- **C89** In strict mode acceptance is symmetric. -/
theorem C89_symm {uc : UC} {strict : Prop} (hs : strict) {x y : Elem} (h : Covers uc strict x y) : Covers uc strict y x := by
  induction h with
  | mk e a h1 h2 h3 h4 h5 h6 h7 ih =>
    refine .mk a e h1.symm ?_ ?_ (h5 hs) (fun _ => h4) (fun k i c d hc hd => ih k i d c hd hc) h7.symm
    · intro k v hv
      cases he : attr e k with
      | none => rw [h3 hs k he] at hv; cases hv
      | some w => rw [h2 k w he] at hv; exact hv
    · intro _ k hk
      cases he : attr e k with
      | none => rfl
      | some w => rw [h2 k w he] at hk; cases hk

/-- **C89** Documents that are equal up to the order of differently named children, comments and white space cannot be
told apart. -/
theorem C89_same {uc : UC} {strict : Prop} {e e' a a' : Elem} (he : Covers uc True e e') (ha : Covers uc True a a') :
    Covers uc strict e a ↔ Covers uc strict e' a' := by
  have weak : ∀ {x y}, Covers uc True x y → Covers uc strict x y := by
    intro x y h
    induction h with
    | mk e a h1 h2 h3 h4 h5 h6 h7 ih => exact .mk e a h1 h2 (fun _ => h3 trivial) h4 (fun _ => h5 trivial) ih h7
  exact ⟨fun h => C89_trans (weak (C89_symm trivial he)) (C89_trans h (weak ha)),
    fun h => C89_trans (weak he) (C89_trans h (weak (C89_symm trivial ha)))⟩

/-- **C89** The whole body: both texts are XML and the second has what the first has. -/
theorem C89_body {B : Type} (parse : B → Option Elem) (env : Env) (uc : UC) (ctx : Ctx) (h : ctx.cat.rules = [])
    (e a : B) : matchXml parse env uc ctx e a = [] ↔
      ∃ x y, parse e = some x ∧ parse a = some y ∧ Covers uc (ctx.config = .noUnexpectedKeys) x y := by
  unfold matchXml
  cases he : parse e <;> cases ha : parse a <;> simp [C89_containment env uc ctx h]

/-- **C89** As part of the comparison of bodies. -/
theorem C89_content (parse : Bytes → Option Elem) (env : Env) (uc : UC) (be : BodyEnv)
    (hx : ∀ e a ctx, be.xml e a ctx = matchXml parse env uc ctx e a) (ct : ContentType) (hc : ct.isXml = true)
    (hj : ct.isJson = false) (ctx : Ctx) (h : ctx.cat.rules = []) (e a : Bytes) :
    MatchResult.compareBodies env be ct (some e) (some a) ctx = .ok ↔
      ∃ x y, parse e = some x ∧ parse a = some y ∧ Covers uc (ctx.config = .noUnexpectedKeys) x y := by
  rw [← C89_body parse env uc ctx h]
  unfold MatchResult.compareBodies MatchResult.compareBodiesCore
  simp only [hj, hc, Bool.false_eq_true, if_false, if_true, Option.getD_some, hx]
  cases matchXml parse env uc ctx e a <;> simp

/-! ## With rules -/

/-- **C90** What is accepted in strict mode is accepted in lenient mode. -/
theorem C90_lenient {env : Env} {uc : UC} {cat : RuleCategory} {p : DocPath} {e a : Elem}
    (h : Accepts env uc ⟨cat, .noUnexpectedKeys⟩ p e a) : Accepts env uc ⟨cat, .allowUnexpectedKeys⟩ p e a := by
  induction h with
  | mk p e a h1 h2 h3 h4 h5 h6 h7 h8 h9 ih1 ih2 =>
    exact .mk p e a h1 h2 (fun h => by cases h) h4 (fun k _ h => by cases h) ih1 ih2 h8 h9

/-- The rules selected for the parts of an element accept them, and children that share a type rule are equal. -/
inductive OwnRules (env : Env) (uc : UC) (ctx : Ctx) : DocPath → Elem → Prop
  | mk (p : DocPath) (e : Elem) :
      Allowed ctx p (elemMatches env e e) →
      (∀ k v, attr e k = some v → Allowed ctx (join p ('@' :: k)) (strMatches env v v)) →
      Allowed ctx (join p "#text".toList) (strMatches env (textOf uc e) (textOf uc e)) →
      (∀ k, typeDefined ctx (join p k) = true → ∀ c ∈ named k e, ∀ d ∈ named k e, c = d) →
      (∀ k, ∀ c ∈ named k e, OwnRules env uc ctx (join p k) c) →
      OwnRules env uc ctx p e

/-- **C90** An example that satisfies its own rules is accepted. -/
theorem C90_self {env : Env} {uc : UC} {ctx : Ctx} {p : DocPath} {e : Elem} (h : OwnRules env uc ctx p e) :
    compareElem env uc ctx p e e = [] := by
  rw [C90_accepts]
  induction h with
  | mk p e h1 h2 h3 h4 h5 ih =>
    refine .mk p e e h1 (fun k v hv => ⟨v, hv, h2 k v hv⟩) (fun _ k h => h) (fun k _ => Nat.le_refl _)
      (fun k _ _ => Nat.le_refl _) ?_ ?_ (fun k _ => Iff.rfl) h3
    · intro k _ i c d hc hd
      rw [hc] at hd
      cases hd
      exact ih k c (List.mem_of_getElem? hc)
    · intro k ht c hc d hd
      have hcm := List.mem_of_getElem? hc
      cases h4 k ht c hcm d hd
      exact ih k c hcm

/-- Children with the same name are equal, at all levels. -/
inductive Uniform : Elem → Prop
  | mk (e : Elem) : (∀ k, ∀ c ∈ named k e, ∀ d ∈ named k e, c = d) → (∀ c ∈ elems e, Uniform c) → Uniform e

/-- **C90** With type and equality rules only, an example without different children of the same name is accepted for
itself. -/
theorem C90_self_type (env : Env) (uc : UC) (ctx : Ctx) (hb : ctx.cat.name = .body)
    (hr : ∀ x ∈ ctx.cat.rules, x.2.rules ≠ [] ∧ ∀ r ∈ x.2.rules, r = .type ∨ r = .equality) (e : Elem) (hu : Uniform e) :
    compareRoot env uc ctx e e = [] := by
  have hal : ∀ p verdict, (∀ r c, r = MatchingRule.type ∨ r = .equality → verdict r c = true) → Allowed ctx p verdict := by
    intro p verdict hv
    refine ⟨?_, fun _ => hv _ _ (.inr rfl)⟩
    intro hd
    rw [LocalityProps.isDefined_body hb] at hd
    rw [LocalityProps.best_body hb]
    cases hm : maxByKey (fun e => score e.1 (toVec p)) (LocalityProps.entriesAt ctx (toVec p)) with
    | none =>
      rw [RuleProps.maxByKey_none] at hm
      rw [hm] at hd; cases hd
    | some x =>
      have hx := (RuleProps.maxByKey_some _ _ _ hm).1
      have hx' := (List.mem_filter.1 hx).1
      obtain ⟨h1, h2⟩ := hr x hx'
      refine ⟨h1, fun _ r hrm => hv _ _ (h2 r hrm), fun _ => ?_⟩
      cases hl : x.2.rules with
      | nil => exact absurd hl h1
      | cons r rs =>
        refine ⟨r, ?_, hv _ _ (h2 r (by rw [hl]; exact List.mem_cons_self))⟩
        show r ∈ x.2.rules
        rw [hl]; exact List.mem_cons_self
  refine C90_self ?_
  generalize join rootPath (nameStr e.name) = p
  induction hu generalizing p with
  | mk e h1 h2 ih =>
    refine .mk p e (hal _ _ ?_) (fun k v _ => hal _ _ ?_) (hal _ _ ?_) (fun k _ => h1 k)
      (fun k c hc => ih c (named_sub hc).1 _)
    · rintro r c (rfl | rfl) <;> simp [elemMatches]
    · rintro r c (rfl | rfl) <;> simp [strMatches]
    · rintro r c (rfl | rfl) <;> simp [strMatches]

/-- **C90** A type rule on a child: any positive number of children like the first expected one is accepted. -/
theorem C90_repeated {env : Env} {uc : UC} {ctx : Ctx} {p : DocPath} {e a a' : Elem} {k : Str}
    (h : Accepts env uc ctx p e a) (ht : typeDefined ctx (join p k) = true)
    (hel : Allowed ctx p (elemMatches env e a')) (hat : ∀ n, attr a' n = attr a n)
    (hot : ∀ n, n ≠ k → named n a' = named n a) (htx : textOf uc a' = textOf uc a)
    (hne : named k a ≠ []) (hne' : named k a' ≠ [])
    (hl : ∀ c, (named k e)[0]? = some c → ∀ d ∈ named k a', Accepts env uc ctx (join p k) c d) :
    Accepts env uc ctx p e a' := by
  obtain ⟨_, _, _, h1, h2, h3, h4, h5, h6, h7, h8, h9⟩ := h
  have hn : ∀ n, typeDefined ctx (join p n) = false → named n a' = named n a := by
    intro n hf
    refine hot n fun e => ?_
    rw [e, ht] at hf; cases hf
  refine .mk p e a' hel ?_ ?_ ?_ ?_ ?_ ?_ ?_ ?_
  · intro n v hv; rw [hat]; exact h2 n v hv
  · intro hs n hv; rw [hat]; exact h3 hs n hv
  · intro n hf; rw [hn n hf]; exact h4 n hf
  · intro n hf hs; rw [hn n hf]; exact h5 n hf hs
  · intro n hf i c d hc hd; rw [hn n hf] at hd; exact h6 n hf i c d hc hd
  · intro n hty c hc d hd
    by_cases hnk : n = k
    · subst hnk; exact hl c hc d hd
    · rw [hot n hnk] at hd; exact h7 n hty c hc d hd
  · intro n hty
    by_cases hnk : n = k
    · subst hnk
      refine ⟨fun hz => absurd ((h8 n hty).1 hz) hne, fun hz => absurd hz hne'⟩
    · rw [hot n hnk]; exact h8 n hty
  · rw [htx]; exact h9

/-- **C90** Every mismatch points at the compared element or something in it. -/
theorem C90_paths (env : Env) (uc : UC) (ctx : Ctx) (p : DocPath) (e a : Elem) :
    ∀ m ∈ compareElem env uc ctx p e a, CompareProps.Below p m.path := by
  have hrep : ∀ (p q : DocPath) k r, CompareProps.Below p q → ∀ m ∈ report q k r, CompareProps.Below p m.path := by
    intro p q k r hb m hm
    cases r with
    | ok u => cases hm
    | error fs =>
      obtain ⟨_, _, rfl⟩ := List.mem_map.1 hm
      exact hb
  have main : ∀ (n : Nat) (p : DocPath) (e a : Elem), ∀ m ∈ compareF env uc ctx n p e a, CompareProps.Below p m.path := by
    intro n
    induction n with
    | zero => intro p e a m hm; cases hm
    | succ n ih =>
      intro p e a m hm
      have hcmp : ∀ k c d, ∀ m ∈ compareF env uc ctx n (join p k) c d, CompareProps.Below p m.path :=
        fun k c d m hm => (CompareProps.Below.join p k).trans (ih _ c d m hm)
      rw [compareF, Xml.compareStep] at hm
      split at hm
      · exact hrep p p _ _ (CompareProps.Below.refl p) m hm
      · rw [List.mem_append, List.mem_append] at hm
        rcases hm with (hm | hm) | hm
        · rw [compareAttrs] at hm
          split at hm
          · rw [List.mem_singleton] at hm; rw [hm]; exact CompareProps.Below.refl p
          · rcases List.mem_append.1 hm with hm | hm
            · have : m = ⟨p, .attributes⟩ := by
                rw [attrCount] at hm
                split at hm <;> split at hm <;> simp_all
              rw [this]; exact CompareProps.Below.refl p
            · obtain ⟨kv, _, hm⟩ := List.mem_flatMap.1 hm
              rw [compareAttr] at hm
              split at hm
              · exact hrep _ _ _ _ (CompareProps.Below.join p _) m hm
              · rw [List.mem_singleton] at hm; rw [hm]; exact CompareProps.Below.join p _
        · rw [compareKids] at hm
          split at hm
          · rw [List.mem_singleton] at hm; rw [hm]; exact CompareProps.Below.refl p
          · rcases List.mem_append.1 hm with hm | hm
            · obtain ⟨g, _, hm⟩ := List.mem_flatMap.1 hm
              rw [compareGroup] at hm
              split at hm
              · rename_i es _
                split at hm
                · cases es with
                  | nil => cases hm
                  | cons c cs =>
                    obtain ⟨d, _, hm⟩ := List.mem_flatMap.1 hm
                    exact hcmp _ _ _ m hm
                · have : ∀ (es as : List Elem), ∀ m ∈ pairs (compareF env uc ctx n) ctx (join p g.1) es as,
                      CompareProps.Below p m.path := by
                    intro es
                    induction es with
                    | nil =>
                      intro as m hm
                      rw [pairs] at hm
                      obtain ⟨_, _, hm⟩ := List.mem_flatMap.1 hm
                      split at hm
                      · rw [List.mem_singleton] at hm; rw [hm]; exact CompareProps.Below.join p _
                      · cases hm
                    | cons y ys ihy =>
                      intro as m hm
                      cases as with
                      | nil =>
                        rw [pairs] at hm
                        rcases List.mem_cons.1 hm with hm | hm
                        · rw [hm]; exact CompareProps.Below.join p _
                        · exact ihy [] m hm
                      | cons x xs =>
                        rw [pairs, List.mem_append] at hm
                        rcases hm with hm | hm
                        · exact hcmp _ _ _ m hm
                        · exact ihy xs m hm
                  exact this _ _ m hm
              · split at hm
                · rw [List.mem_singleton] at hm; rw [hm]; exact CompareProps.Below.refl p
                · cases hm
            · obtain ⟨_, _, rfl⟩ := List.mem_map.1 hm
              exact CompareProps.Below.refl p
        · rw [compareText] at hm
          exact hrep _ _ _ _ (CompareProps.Below.join p _) m hm
  exact main _ p e a

/-- **C90** Only rules whose paths match the element or something below it matter. -/
theorem C90_locality (env : Env) (uc : UC) (ctx ctx' : Ctx) (p : DocPath)
    (h : LocalityProps.AgreeFrom ctx ctx' (toVec p)) (e a : Elem) :
    compareElem env uc ctx p e a = compareElem env uc ctx' p e a := by
  have hty : ∀ p, LocalityProps.AgreeFrom ctx ctx' (toVec p) → typeDefined ctx p = typeDefined ctx' p := by
    intro p h
    unfold typeDefined resolveMatchersForPath
    rw [h.2.1, h.2.2.1]
    have := h.here
    unfold LocalityProps.entriesAt at this
    simp only [filterCat, this]
  have hch : ∀ p, LocalityProps.AgreeFrom ctx ctx' (toVec p) → ∀ v, check ctx p v = check ctx' p v := by
    intro p h v
    unfold check
    rw [LocalityProps.agree_isDefined h, LocalityProps.agree_best h]
  have hcfg : ctx.config = ctx'.config := h.1
  have main : ∀ (n : Nat) (p : DocPath), LocalityProps.AgreeFrom ctx ctx' (toVec p) → ∀ e a,
      compareF env uc ctx n p e a = compareF env uc ctx' n p e a := by
    intro n
    induction n with
    | zero => intro p _ e a; rfl
    | succ n ih =>
      intro p h e a
      have hcmp : ∀ k c d, compareF env uc ctx n (join p k) c d = compareF env uc ctx' n (join p k) c d :=
        fun k c d => ih _ (h.join k) c d
      have hA : compareAttrs env ctx p e a = compareAttrs env ctx' p e a := by
        unfold compareAttrs
        rw [hcfg]
        have h1 : attrCount ctx p = attrCount ctx' p := by unfold attrCount; rw [hcfg]
        have h2 : compareAttr env ctx p = compareAttr env ctx' p := by
          funext am kv
          unfold compareAttr compareValue
          simp only [hch _ (h.join ('@' :: kv.1))]
        rw [h1, h2]
      have hT : compareText env uc ctx p e a = compareText env uc ctx' p e a := by
        unfold compareText
        simp only [hch _ (h.join "#text".toList), LocalityProps.agree_isDefined (h.join "#text".toList)]
      have hK : compareKids (compareF env uc ctx n) ctx p e a = compareKids (compareF env uc ctx' n) ctx' p e a := by
        unfold compareKids
        rw [hcfg]
        have hP : ∀ k es as, pairs (compareF env uc ctx n) ctx (join p k) es as =
            pairs (compareF env uc ctx' n) ctx' (join p k) es as := by
          intro k es
          induction es with
          | nil =>
            intro as
            rw [pairs, pairs, hcfg]
          | cons y ys ihy =>
            intro as
            cases as with
            | nil => rw [pairs, pairs, ihy]
            | cons x xs => rw [pairs, pairs, ihy, hcmp]
        have hG : compareGroup (compareF env uc ctx n) ctx p = compareGroup (compareF env uc ctx' n) ctx' p := by
          funext eg g
          unfold compareGroup
          have hE : ∀ es, eachWithFirst (compareF env uc ctx n) (join p g.1) es g.2 =
              eachWithFirst (compareF env uc ctx' n) (join p g.1) es g.2 := by
            intro es
            unfold eachWithFirst
            cases es with
            | nil => rfl
            | cons x xs =>
              simp only
              congr 1
              funext d
              exact hcmp _ _ _
          simp only [hty _ (h.join g.1), hP, hE, hcfg]
        rw [hG]
      rw [compareF, compareF, Xml.compareStep, Xml.compareStep, hch p h, hA, hT, hK]
  exact main _ p h e a

/-! ## Examples -/

/-- An element without a namespace. -/
def el (n : String) (attrs : List (String × String)) (kids : List (Elem ⊕ Option Str)) : Elem :=
  .mk ⟨none, n.toList⟩ (attrs.map fun x => (⟨none, x.1.toList⟩, x.2.toList)) kids
/-- A text. -/
def tx (s : String) : Elem ⊕ Option Str := .inr (some s.toList)
/-- A context with rules for the body. -/
def withRules (config : DiffConfig) (rs : List (List PathToken × List MatchingRule)) : Ctx :=
  ⟨⟨.body, rs.map fun x => (fromTokens x.1, ⟨x.2, .and, false⟩)⟩, config⟩

/-- `<a x="1"><b>t</b><c/></a>` -/
def exE : Elem := el "a" [("x", "1")] [.inl (el "b" [] [tx "t"]), .inl (el "c" [] [])]
/-- `<a y="2" x="1"> <c/> <!-- --> <b> t </b> <b/> </a>` -/
def exA : Elem := el "a" [("y", "2"), ("x", "1")]
  [tx " ", .inl (el "c" [] []), tx " ", .inr none, tx " ", .inl (el "b" [] [tx " t "]), tx " ", .inl (el "b" [] []), tx " "]

/-- Accepted in lenient mode, rejected in strict mode, and not the other way round. -/
theorem C89_witness : compareRoot Env.simple UC.ascii (withRules .allowUnexpectedKeys []) exE exA = [] ∧
    compareRoot Env.simple UC.ascii (withRules .noUnexpectedKeys []) exE exA =
      [⟨fromTokens [.root, .field "a".toList], .attributes⟩,
       ⟨fromTokens [.root, .field "a".toList, .field "b".toList], .unexpectedChild⟩] ∧
    compareRoot Env.simple UC.ascii (withRules .allowUnexpectedKeys []) exA exE ≠ [] ∧
    Covers UC.ascii False exE exA := by
  refine ⟨rfl, rfl, by decide, ?_⟩
  have := (C89_containment Env.simple UC.ascii (withRules .allowUnexpectedKeys []) rfl exE exA).1 rfl
  have hf : ((withRules .allowUnexpectedKeys []).config = .noUnexpectedKeys) = False := by simp [withRules]
  rw [hf] at this
  exact this

/-- `<a x="1"><b/></a>` with a type rule for `b` accepts three `b`, rejects none. -/
theorem C90_witness : ∃ ctx, ctx = withRules .noUnexpectedKeys [([.root, .field "a".toList, .field "b".toList], [.type])] ∧
    typeDefined ctx (join (join rootPath "a".toList) "b".toList) = true ∧
    compareRoot Env.simple UC.ascii ctx (el "a" [] [.inl (el "b" [("x", "1")] [tx "t"])])
      (el "a" [] [.inl (el "b" [("x", "2")] [tx "u"]), .inl (el "b" [("x", "3")] []), .inl (el "b" [("x", "")] [])]) = [] ∧
    compareRoot Env.simple UC.ascii ctx (el "a" [] [.inl (el "b" [("x", "1")] [tx "t"])]) (el "a" [] []) =
      [⟨fromTokens [.root, .field "a".toList], .missingChild⟩] ∧
    compareRoot Env.simple UC.ascii ctx (el "a" [] [.inl (el "b" [("x", "1")] [tx "t"])])
      (el "a" [] [.inl (el "b" [] [])]) ≠ [] :=
  ⟨_, rfl, rfl, rfl, rfl, by decide⟩

/-- The hypotheses of `C90_self_type` for an example with two levels. -/
theorem C90_self_witness : Uniform (el "a" [("x", "1")] [.inl (el "b" [] [tx "t"]), .inl (el "b" [] [tx "t"])]) ∧
    ∀ x ∈ (withRules .noUnexpectedKeys [([.root, .field "a".toList, .field "b".toList], [.type])]).cat.rules,
      x.2.rules ≠ [] ∧ ∀ r ∈ x.2.rules, r = .type ∨ r = .equality := by
  constructor
  · refine .mk _ ?_ ?_
    · intro k c hc d hd
      have h1 := (named_sub hc).1
      have h2 := (named_sub hd).1
      simp only [elems, el, Elem.kids, List.filterMap_cons, List.filterMap_nil, List.mem_cons, List.not_mem_nil,
        or_false, or_self] at h1 h2
      rw [h1, h2]
    · intro c hc
      have : c = el "b" [] [tx "t"] := by
        simp only [elems, el, Elem.kids, List.filterMap_cons, List.filterMap_nil, List.mem_cons, List.not_mem_nil,
          or_false, or_self] at hc
        exact hc
      subst this
      refine .mk _ ?_ ?_
      · intro k c hc
        cases (named_sub hc).1
      · intro c hc
        cases hc
  · intro x hx
    simp only [withRules, List.map_cons, List.map_nil, List.mem_cons, List.not_mem_nil, or_false] at hx
    subst hx
    simp

/-- A type rule makes the comparison stricter: an unexpected child below it is rejected, even in lenient mode. -/
theorem C90_type_rejects : ∃ ctx, ctx = withRules .allowUnexpectedKeys [([.root, .field "a".toList], [.type])] ∧
    compareRoot Env.simple UC.ascii ctx (el "a" [] []) (el "a" [] [.inl (el "b" [] [])]) =
      [⟨fromTokens [.root, .field "a".toList], .unexpectedChild⟩] ∧
    compareRoot Env.simple UC.ascii (withRules .allowUnexpectedKeys []) (el "a" [] []) (el "a" [] [.inl (el "b" [] [])]) = [] :=
  ⟨_, rfl, rfl, rfl⟩

/-- With a type rule for repeated children an example can be rejected for itself. -/
theorem C90_not_itself : ∃ ctx e, ctx = withRules .allowUnexpectedKeys [([.root, .field "a".toList, .field "b".toList], [.type])] ∧
    e = el "a" [] [.inl (el "b" [("x", "1")] []), .inl (el "b" [] [])] ∧ compareRoot Env.simple UC.ascii ctx e e ≠ [] :=
  ⟨_, _, rfl, rfl, by decide⟩

/-- The minimum and maximum number of children count texts and comments: white space between the children is enough for
the minimum and too much for the maximum. -/
theorem C90_counts_white_space : ∃ e a, e = el "a" [] [.inl (el "b" [] [])] ∧
    a = el "a" [] [tx "\n", .inl (el "b" [] []), tx "\n"] ∧
    compareRoot Env.simple UC.ascii (withRules .allowUnexpectedKeys [([.root, .field "a".toList], [.minType 2])]) e e ≠ [] ∧
    compareRoot Env.simple UC.ascii (withRules .allowUnexpectedKeys [([.root, .field "a".toList], [.minType 2])]) e a = [] ∧
    compareRoot Env.simple UC.ascii (withRules .allowUnexpectedKeys [([.root, .field "a".toList], [.maxType 1])]) e e = [] ∧
    compareRoot Env.simple UC.ascii (withRules .allowUnexpectedKeys [([.root, .field "a".toList], [.maxType 1])]) e a ≠ [] :=
  ⟨_, _, rfl, rfl, by decide, rfl, rfl, by decide⟩

/-- Rules are looked up by the namespace of an element, not by its prefix: a rule for `$.n:a` does not apply to
`<n:a xmlns:n="u">`, a rule for `$['u:a']` does. -/
theorem C90_prefix : ∃ e a : Elem, e = .mk ⟨some "u".toList, "a".toList⟩ [(⟨none, "x".toList⟩, "1".toList)] [] ∧
    a = .mk ⟨some "u".toList, "a".toList⟩ [(⟨none, "x".toList⟩, "2".toList)] [] ∧
    compareRoot Env.simple UC.ascii (withRules .allowUnexpectedKeys
      [([.root, .field "n:a".toList, .field "@x".toList], [.type])]) e a ≠ [] ∧
    compareRoot Env.simple UC.ascii (withRules .allowUnexpectedKeys
      [([.root, .field "u:a".toList, .field "@x".toList], [.type])]) e a = [] :=
  ⟨_, _, rfl, rfl, by decide, rfl⟩

/-! ## What the rules say of an element -/

/-- **C90** What each rule demands of an element; an inherited minimum or maximum demands nothing. -/
theorem C90_demand (env : Env) (e a : Elem) (c : Bool) :
    (elemMatches env e a .equality c = true ↔ e.name = a.name) ∧
    (elemMatches env e a .type c = true ↔ e.name = a.name) ∧
    (∀ re, elemMatches env e a (.regex re) c = true ↔ regexMatches env re a.name.loc = true) ∧
    (∀ n, elemMatches env e a (.minType n) c = true ↔ (c = false → n ≤ a.kids.length)) ∧
    (∀ n, elemMatches env e a (.maxType n) c = true ↔ (c = false → a.kids.length ≤ n)) ∧
    (∀ n m, elemMatches env e a (.minMaxType n m) c = true ↔ (c = false → n ≤ a.kids.length ∧ a.kids.length ≤ m)) ∧
    (elemMatches env e a .notEmpty c = true ↔ a.kids ≠ []) ∧
    (∀ f, elemMatches env e a (.date f) c = false) ∧ (∀ s, elemMatches env e a (.includes s) c = false) ∧
    elemMatches env e a .integer c = false ∧ elemMatches env e a .number c = false ∧
    elemMatches env e a .boolean c = false ∧ elemMatches env e a .values c = false := by
  refine ⟨by simp [elemMatches], by simp [elemMatches], fun re => Iff.rfl, ?_, ?_, ?_, ?_, fun _ => rfl, fun _ => rfl,
    rfl, rfl, rfl, rfl⟩
  · intro n; cases c <;> simp [elemMatches]
  · intro n; cases c <;> simp [elemMatches]
  · intro n m
    cases c
    · by_cases h : a.kids.length < n
      · simp [elemMatches, h]; omega
      · simp [elemMatches, h]; omega
    · simp [elemMatches]
  · cases h : a.kids <;> simp [elemMatches, h]

/-- **C90** Children are matched against the first expected one if some rule that applies to them is about their type. -/
theorem C90_type_rule (ctx : Ctx) (hb : ctx.cat.name = .body) (p : DocPath) : typeDefined ctx p = true ↔
    ∃ x ∈ ctx.cat.rules, matchesPath x.1.tokens (toVec p) = true ∧
      (MatchingRule.type ∈ x.2.rules ∨ (∃ n, MatchingRule.minType n ∈ x.2.rules) ∨ (∃ n, MatchingRule.maxType n ∈ x.2.rules) ∨
        ∃ n m, MatchingRule.minMaxType n m ∈ x.2.rules) := by
  unfold typeDefined resolveMatchersForPath
  rw [hb]
  simp only [filterCat, List.any_eq_true, List.mem_filter]
  constructor
  · rintro ⟨x, ⟨hx, hm⟩, r, hr, ht⟩
    refine ⟨x, hx, hm, ?_⟩
    cases r <;> simp [MatchingRule.isTypeMatcher] at ht
    · exact .inl hr
    · exact .inr (.inl ⟨_, hr⟩)
    · exact .inr (.inr (.inl ⟨_, hr⟩))
    · exact .inr (.inr (.inr ⟨_, _, hr⟩))
  · rintro ⟨x, hx, hm, h⟩
    refine ⟨x, ⟨hx, hm⟩, ?_⟩
    rcases h with h | ⟨n, h⟩ | ⟨n, h⟩ | ⟨n, m, h⟩
    · exact ⟨_, h, rfl⟩
    · exact ⟨_, h, rfl⟩
    · exact ⟨_, h, rfl⟩
    · exact ⟨_, h, rfl⟩

/-- **C90** Different names (local parts have no colon) have different rule paths. -/
theorem C90_names {q q' : QName} (h : ':' ∉ q.loc) (h' : ':' ∉ q'.loc) (he : nameStr q = nameStr q') : q = q' := by
  have key : ∀ (a b l m : Str), ':' ∉ l → ':' ∉ m → a ++ ':' :: l = b ++ ':' :: m → a = b ∧ l = m := by
    intro a
    induction a with
    | nil =>
      intro b l m hl hm he
      cases b with
      | nil => cases he; exact ⟨rfl, rfl⟩
      | cons x xs =>
        simp only [List.nil_append, List.cons_append, List.cons.injEq] at he
        exact absurd (he.2 ▸ List.mem_append_right xs List.mem_cons_self) hl
    | cons y ys ih =>
      intro b l m hl hm he
      cases b with
      | nil =>
        simp only [List.nil_append, List.cons_append, List.cons.injEq] at he
        exact absurd (he.2 ▸ List.mem_append_right ys List.mem_cons_self) hm
      | cons x xs =>
        simp only [List.cons_append, List.cons.injEq] at he
        obtain ⟨rfl, h2⟩ := ih xs l m hl hm he.2
        exact ⟨by rw [he.1], h2⟩
  obtain ⟨ns, l⟩ := q
  obtain ⟨ns', l'⟩ := q'
  simp only at h h'
  unfold nameStr at he
  cases ns with
  | none =>
    cases ns' with
    | none => simp only at he; rw [he]
    | some b => simp only at he; exact absurd (he ▸ List.mem_append_right b List.mem_cons_self) h
  | some a =>
    cases ns' with
    | none => simp only at he; exact absurd (he ▸ List.mem_append_right a List.mem_cons_self) h'
    | some b =>
      simp only at he
      obtain ⟨rfl, rfl⟩ := key a b l l' h h' he
      rfl



end XmlProps
end Verif
