import Verif.Merge

/-
  C33: the Cartesian product iterator.  C31: merging pacts.
-/

set_option autoImplicit false

namespace Verif
namespace MergeProps
open Merge JsonUtils

/-! ### C33 -/

/-- Specification: all pairs of two lists, row by row. -/
def allPairs {A B : Type} (v1 : List A) (v2 : List B) : List (A × B) :=
  v1.flatMap (fun a => v2.map (fun b => (a, b)))

theorem next_none {A B : Type} (v1 : List A) (v2 : List B) (h1 : v1 ≠ []) (h2 : v2 ≠ []) :
    next v1 v2 ⟨v1.length - 1, v2.length⟩ = .ok (none, ⟨v1.length, 1⟩) := by
  have l1 : 0 < v1.length := List.length_pos_iff.2 h1
  have l2 : 0 < v2.length := List.length_pos_iff.2 h2
  unfold next
  have e1 : v1.isEmpty = false := by cases v1 with | nil => exact absurd rfl h1 | cons => rfl
  have e2 : v2.isEmpty = false := by cases v2 with | nil => exact absurd rfl h2 | cons => rfl
  have e3 : decide (v1.length - 1 = v1.length) = false := decide_eq_false (by omega)
  have e4 : v1.length - 1 + 1 = v1.length := by omega
  simp [e1, e2, e3, e4]

theorem next_row {A B : Type} (v1 : List A) (v2 : List B) (i j : Nat) (hi : i < v1.length)
    (hj : j < v2.length) : next v1 v2 ⟨i, j⟩ = .ok (some (v1[i], v2[j]), ⟨i, j + 1⟩) := by
  unfold next getUnwrap
  have e1 : v1.isEmpty = false := by cases v1 with | nil => simp at hi | cons => rfl
  have e2 : v2.isEmpty = false := by cases v2 with | nil => simp at hj | cons => rfl
  have e3 : decide (i = v1.length) = false := decide_eq_false (by omega)
  have e4 : ¬ j = v2.length := by omega
  simp [e1, e2, e3, e4, List.getElem?_eq_getElem hi, List.getElem?_eq_getElem hj]

theorem next_wrap {A B : Type} (v1 : List A) (v2 : List B) (i : Nat) (hi : i + 1 < v1.length)
    (hj : 0 < v2.length) : next v1 v2 ⟨i, v2.length⟩ = .ok (some (v1[i + 1], v2[0]), ⟨i + 1, 1⟩) := by
  unfold next getUnwrap
  have e1 : v1.isEmpty = false := by cases v1 with | nil => simp at hi | cons => rfl
  have e2 : v2.isEmpty = false := by cases v2 with | nil => simp at hj | cons => rfl
  have e3 : decide (i = v1.length) = false := decide_eq_false (by omega)
  have e4 : ¬ i + 1 = v1.length := by omega
  simp [e1, e2, e3, e4, List.getElem?_eq_getElem hi, List.getElem?_eq_getElem hj]

/-- The pairs still to come at a position. -/
def remaining {A B : Type} (v1 : List A) (v2 : List B) (i j : Nat) : List (A × B) :=
  match v1.drop i with
  | [] => []
  | a :: as => (v2.drop j).map (fun b => (a, b)) ++ allPairs as v2

theorem collect_remaining {A B : Type} (v1 : List A) (v2 : List B) (h2 : v2 ≠ []) : ∀ (fuel i j : Nat),
    i < v1.length → j ≤ v2.length → (remaining v1 v2 i j).length < fuel →
    collectPairs v1 v2 fuel ⟨i, j⟩ = .ok (remaining v1 v2 i j) := by
  intro fuel
  induction fuel with
  | zero => intro i j _ _ h; exact absurd h (by simp)
  | succ fuel ih =>
    intro i j hi hj hf
    have l2 : 0 < v2.length := List.length_pos_iff.2 h2
    have hdrop : v1.drop i = v1[i] :: v1.drop (i + 1) := (List.drop_eq_getElem_cons hi)
    by_cases hj' : j < v2.length
    · have hr : remaining v1 v2 i j = (v1[i], v2[j]) :: remaining v1 v2 i (j + 1) := by
        simp only [remaining, hdrop, List.drop_eq_getElem_cons hj', List.map_cons, List.cons_append]
      rw [hr] at hf ⊢
      simp only [collectPairs, next_row v1 v2 i j hi hj']
      rw [ih i (j + 1) hi hj' (by simp only [List.length_cons] at hf; omega)]
      rfl
    · have hj2 : j = v2.length := by omega
      subst hj2
      by_cases hi' : i + 1 < v1.length
      · have hdrop' : v1.drop (i + 1) = v1[i + 1] :: v1.drop (i + 1 + 1) := (List.drop_eq_getElem_cons hi')
        have hv2 : v2.drop 0 = v2[0] :: v2.drop 1 := List.drop_eq_getElem_cons l2
        have hr : remaining v1 v2 i v2.length = (v1[i + 1], v2[0]) :: remaining v1 v2 (i + 1) 1 := by
          simp only [remaining, hdrop, List.drop_length, List.map_nil, List.nil_append, hdrop']
          simp only [allPairs, List.flatMap_cons]
          conv => lhs; rw [show v2.map (fun b => (v1[i + 1], b)) = (v2.drop 0).map (fun b => (v1[i + 1], b)) by
            rw [List.drop_zero], hv2]
          rfl
        rw [hr] at hf ⊢
        simp only [collectPairs, next_wrap v1 v2 i hi' l2]
        rw [ih (i + 1) 1 hi' l2 (by simp only [List.length_cons] at hf; omega)]
        rfl
      · have hi2 : i = v1.length - 1 := by omega
        have hr : remaining v1 v2 i v2.length = [] := by
          have : v1.drop (i + 1) = [] := List.drop_eq_nil_of_le (by omega)
          simp [remaining, hdrop, this, allPairs]
        rw [hr]
        have hn := next_none v1 v2 (by intro e; rw [e] at hi; simp at hi) h2
        rw [← hi2] at hn
        simp only [collectPairs, hn]

theorem allPairs_length {A B : Type} (v1 : List A) (v2 : List B) :
    (allPairs v1 v2).length = v1.length * v2.length := by
  induction v1 with
  | nil => simp [allPairs]
  | cons a as ih =>
    simp only [allPairs, List.flatMap_cons, List.length_append, List.length_map, List.length_cons] at *
    rw [ih, Nat.add_mul, Nat.one_mul, Nat.add_comm]

/-- C33: collecting the product iterator of two lists ends, without a panic, after exactly all pairs, each
pair of positions once and in row order. -/
theorem C33_product {A B : Type} (v1 : List A) (v2 : List B) (fuel : Nat) (h : v1.length * v2.length < fuel) :
    collectPairs v1 v2 fuel ⟨0, 0⟩ = .ok (allPairs v1 v2) := by
  by_cases h1 : v1 = []
  · subst h1
    cases fuel with
    | zero => simp at h
    | succ n => simp [collectPairs, next, allPairs]
  · by_cases h2 : v2 = []
    · subst h2
      cases fuel with
      | zero => simp at h
      | succ n => simp [collectPairs, next, allPairs]
    · have hr : remaining v1 v2 0 0 = allPairs v1 v2 := by
        cases v1 with
        | nil => exact absurd rfl h1
        | cons a as => simp [remaining, allPairs]
      have := collect_remaining v1 v2 h2 fuel 0 0 (List.length_pos_iff.2 h1) (by omega)
        (by rw [hr, allPairs_length]; exact h)
      rw [this, hr]

/-- C33 (every pair is there, and no other). -/
theorem C33_mem {A B : Type} (v1 : List A) (v2 : List B) (a : A) (b : B) :
    (a, b) ∈ allPairs v1 v2 ↔ a ∈ v1 ∧ b ∈ v2 := by
  simp only [allPairs, List.mem_flatMap, List.mem_map, Prod.mk.injEq]
  constructor
  · rintro ⟨x, hx, y, hy, rfl, rfl⟩; exact ⟨hx, hy⟩
  · rintro ⟨h1, h2⟩; exact ⟨a, h1, b, h2, rfl, rfl⟩

/-- C33 (once only): if the elements of each list are distinct, so are the pairs. -/
theorem C33_once {A B : Type} (v1 : List A) (v2 : List B) (h1 : v1.Nodup) (h2 : v2.Nodup) :
    (allPairs v1 v2).Nodup := by
  unfold allPairs List.Nodup
  rw [List.pairwise_flatMap]
  constructor
  · intro a _
    exact List.Pairwise.map _ (fun x y hxy e => hxy (Prod.mk.inj e).2) h2
  · refine h1.imp ?_
    intro a b hab x hx y hy e
    obtain ⟨x', _, rfl⟩ := List.mem_map.1 hx
    obtain ⟨y', _, rfl⟩ := List.mem_map.1 hy
    exact hab (Prod.mk.inj e).1

/-- C33 (not fused): asking for one more element after the end panics when the second list has two or more
elements. -/
theorem C33_after_end {A B : Type} (v1 : List A) (v2 : List B) (h1 : v1 ≠ []) (h2 : 2 ≤ v2.length) :
    ∃ p, next v1 v2 ⟨v1.length - 1, v2.length⟩ = .ok (none, p) ∧ next v1 v2 p = .panic := by
  refine ⟨⟨v1.length, 1⟩, next_none v1 v2 h1 (by intro e; rw [e] at h2; simp at h2), ?_⟩
  unfold next getUnwrap
  have e1 : v1.isEmpty = false := by cases v1 with | nil => exact absurd rfl h1 | cons => rfl
  have e2 : v2.isEmpty = false := by cases v2 with | nil => simp at h2 | cons => rfl
  have e4 : ¬ 1 = v2.length := by omega
  simp [e1, e2, e4]

example : collectPairs [1, 2] ["a", "b"] 5 ⟨0, 0⟩ = .ok [(1, "a"), (1, "b"), (2, "a"), (2, "b")] := by decide

/-! ### Ordering of strings -/

theorem cmpStr_eq {a b : Str} : cmpStr a b = .eq ↔ a = b := by
  unfold cmpStr
  split
  · rename_i h
    constructor
    · intro e; cases e
    · intro e; rw [e, Json.strLt_irrefl] at h; exact absurd h (by simp)
  · split <;> simp_all

theorem cmpStr_lt {a b : Str} : cmpStr a b = .lt ↔ Json.strLt a b = true := by
  unfold cmpStr
  split
  · simp_all
  · split <;> simp_all

theorem cmpStr_gt {a b : Str} : cmpStr a b = .gt ↔ Json.strLt b a = true := by
  unfold cmpStr
  constructor
  · intro h
    split at h
    · cases h
    · rename_i h1
      split at h
      · cases h
      · rename_i h2
        rcases Json.strLt_total a b with e | e | e
        · exact absurd e (by simpa using h1)
        · exact absurd e h2
        · exact e
  · intro h
    have h1 : ¬ Json.strLt a b = true := fun e => by
      have := Json.strLt_trans h e
      rw [Json.strLt_irrefl] at this
      exact absurd this (by simp)
    have h2 : ¬ a = b := fun e => by rw [e, Json.strLt_irrefl] at h; exact absurd h (by simp)
    rw [if_neg h1, if_neg h2]

/-- A lawful three-way comparison. -/
structure Lawful {K : Type} (cmp : K → K → Ordering) : Prop where
  eq : ∀ a b, cmp a b = .eq ↔ a = b
  swap : ∀ a b, cmp a b = .gt ↔ cmp b a = .lt
  trans : ∀ a b c, cmp a b = .lt → cmp b c = .lt → cmp a c = .lt

theorem cmpStr_lawful : Lawful cmpStr where
  eq _ _ := cmpStr_eq
  swap _ _ := by rw [cmpStr_gt, cmpStr_lt]
  trans a b c := by rw [cmpStr_lt, cmpStr_lt, cmpStr_lt]; exact Json.strLt_trans

theorem cmpStrs_lawful : Lawful cmpStrs where
  eq a := by
    induction a with
    | nil => intro b; cases b <;> simp [cmpStrs]
    | cons x xs ih =>
      intro b
      cases b with
      | nil => simp [cmpStrs]
      | cons y ys =>
        simp only [cmpStrs, List.cons.injEq]
        cases h : cmpStr x y with
        | eq => simp [cmpStr_eq.1 h, ih]
        | lt => simp; intro e; rw [cmpStr_eq.2 e] at h; cases h
        | gt => simp; intro e; rw [cmpStr_eq.2 e] at h; cases h
  swap a := by
    induction a with
    | nil => intro b; cases b <;> simp [cmpStrs]
    | cons x xs ih =>
      intro b
      cases b with
      | nil => simp [cmpStrs]
      | cons y ys =>
        simp only [cmpStrs]
        cases h : cmpStr x y with
        | eq => rw [cmpStr_eq.1 h, cmpStr_eq.2 rfl]; exact ih ys
        | lt =>
          have : cmpStr y x = .gt := (cmpStr_lawful.swap y x).2 h
          simp [this]
        | gt =>
          have : cmpStr y x = .lt := (cmpStr_lawful.swap x y).1 h
          simp [this]
  trans a := by
    induction a with
    | nil => intro b c h1 h2; cases b <;> cases c <;> simp_all [cmpStrs]
    | cons x xs ih =>
      intro b c h1 h2
      cases b with
      | nil => simp [cmpStrs] at h1
      | cons y ys =>
        cases c with
        | nil => simp [cmpStrs] at h2
        | cons z zs =>
          simp only [cmpStrs] at *
          cases hxy : cmpStr x y with
          | gt => rw [hxy] at h1; cases h1
          | eq =>
            rw [hxy] at h1
            have := cmpStr_eq.1 hxy; subst this
            cases hyz : cmpStr x z with
            | gt => rw [hyz] at h2; cases h2
            | lt => rfl
            | eq => rw [hyz] at h2; exact ih ys zs h1 h2
          | lt =>
            cases hyz : cmpStr y z with
            | gt => rw [hyz] at h2; cases h2
            | eq => rw [← cmpStr_eq.1 hyz, hxy]
            | lt => rw [cmpStr_lawful.trans _ _ _ hxy hyz]

/-- Lexicographic comparison of pairs. -/
def cmpPair {K L : Type} (c : K → K → Ordering) (d : L → L → Ordering) (a b : K × L) : Ordering :=
  match c a.1 b.1 with
  | .eq => d a.2 b.2
  | o => o

theorem cmpPair_lawful {K L : Type} {c : K → K → Ordering} {d : L → L → Ordering} (hc : Lawful c)
    (hd : Lawful d) : Lawful (cmpPair c d) where
  eq a b := by
    unfold cmpPair
    cases h : c a.1 b.1 with
    | eq =>
      have := (hc.eq _ _).1 h
      simp only [hd.eq]
      constructor
      · intro e; exact Prod.ext this e
      · intro e; rw [e]
    | lt => simp; intro e; rw [e, (hc.eq _ _).2 rfl] at h; cases h
    | gt => simp; intro e; rw [e, (hc.eq _ _).2 rfl] at h; cases h
  swap a b := by
    unfold cmpPair
    cases h : c a.1 b.1 with
    | eq =>
      have := (hc.eq _ _).1 h
      rw [this, (hc.eq _ _).2 rfl]; exact hd.swap _ _
    | lt => rw [(hc.swap b.1 a.1).2 h]; simp
    | gt => rw [(hc.swap a.1 b.1).1 h]; simp
  trans x y z h1 h2 := by
    unfold cmpPair at *
    cases hxy : c x.1 y.1 with
    | gt => rw [hxy] at h1; cases h1
    | eq =>
      rw [hxy] at h1
      have e := (hc.eq _ _).1 hxy
      rw [e]
      cases hyz : c y.1 z.1 with
      | gt => rw [hyz] at h2; cases h2
      | lt => rfl
      | eq => rw [hyz] at h2; exact hd.trans _ _ _ h1 h2
    | lt =>
      cases hyz : c y.1 z.1 with
      | gt => rw [hyz] at h2; cases h2
      | eq => rw [← (hc.eq _ _).1 hyz, hxy]
      | lt => rw [hc.trans _ _ _ hxy hyz]

/-! ### merge_join_by -/

/-- The element of the first list in an entry. -/
def leftOf {A B : Type} : EOB A B → Option A
  | .left a => some a
  | .both a _ => some a
  | .right _ => none

/-- The element of the second list in an entry. -/
def rightOf {A B : Type} : EOB A B → Option B
  | .right b => some b
  | .both _ b => some b
  | .left _ => none

theorem filterMap_cons_none' {A B : Type} {f : A → Option B} {a : A} {l : List A} (h : f a = none) :
    (a :: l).filterMap f = l.filterMap f := by simp [List.filterMap_cons, h]
theorem filterMap_cons_some' {A B : Type} {f : A → Option B} {a : A} {b : B} {l : List A} (h : f a = some b) :
    (a :: l).filterMap f = b :: l.filterMap f := by simp [List.filterMap_cons, h]

theorem filterMap_left_map {A B : Type} (as : List A) :
    (as.map (EOB.left (B := B))).filterMap leftOf = as ∧ (as.map (EOB.left (B := B))).filterMap rightOf = [] := by
  induction as with
  | nil => exact ⟨rfl, rfl⟩
  | cons a as ih =>
    rw [List.map_cons]
    exact ⟨by rw [filterMap_cons_some' (f := leftOf) (b := a) rfl, ih.1], by rw [filterMap_cons_none' rfl, ih.2]⟩

theorem filterMap_right_map {A B : Type} (bs : List B) :
    (bs.map (EOB.right (A := A))).filterMap rightOf = bs ∧ (bs.map (EOB.right (A := A))).filterMap leftOf = [] := by
  induction bs with
  | nil => exact ⟨rfl, rfl⟩
  | cons a as ih =>
    rw [List.map_cons]
    exact ⟨by rw [filterMap_cons_some' (f := rightOf) (b := a) rfl, ih.1], by rw [filterMap_cons_none' rfl, ih.2]⟩

theorem mergeJoin_lefts {A B : Type} (cmp : A → B → Ordering) (as : List A) : ∀ bs : List B,
    (mergeJoin cmp as bs).filterMap leftOf = as := by
  induction as with
  | nil => intro bs; exact (filterMap_right_map bs).2
  | cons a as ih =>
    intro bs
    simp only [mergeJoin]
    induction bs with
    | nil =>
      simp only [mergeInner]
      rw [filterMap_cons_some' (f := leftOf) (b := a) rfl, (filterMap_left_map as).1]
    | cons b bs ih2 =>
      simp only [mergeInner]
      cases cmp a b with
      | lt => simp only; rw [filterMap_cons_some' (f := leftOf) (b := a) rfl, ih]
      | eq => simp only; rw [filterMap_cons_some' (f := leftOf) (b := a) rfl, ih]
      | gt => simp only; rw [filterMap_cons_none' rfl, ih2]

theorem mergeJoin_rights {A B : Type} (cmp : A → B → Ordering) (as : List A) : ∀ bs : List B,
    (mergeJoin cmp as bs).filterMap rightOf = bs := by
  induction as with
  | nil => intro bs; exact (filterMap_right_map bs).1
  | cons a as ih =>
    intro bs
    simp only [mergeJoin]
    induction bs with
    | nil =>
      simp only [mergeInner]
      rw [filterMap_cons_none' rfl, (filterMap_left_map as).2]
    | cons b bs ih2 =>
      simp only [mergeInner]
      cases cmp a b with
      | lt => simp only; rw [filterMap_cons_none' rfl, ih]
      | eq => simp only; rw [filterMap_cons_some' (f := rightOf) (b := b) rfl, ih]
      | gt => simp only; rw [filterMap_cons_some' (f := rightOf) (b := b) rfl, ih2]

theorem mergeJoin_both {A B : Type} (cmp : A → B → Ordering) (as : List A) : ∀ (bs : List B) (a : A) (b : B),
    EOB.both a b ∈ mergeJoin cmp as bs → cmp a b = .eq := by
  induction as with
  | nil => intro bs a b h; simp [mergeJoin] at h
  | cons x xs ih =>
    intro bs a b h
    simp only [mergeJoin] at h
    induction bs with
    | nil => simp [mergeInner] at h
    | cons y ys ih2 =>
      simp only [mergeInner] at h
      cases hc : cmp x y with
      | lt =>
        rw [hc] at h
        rcases List.mem_cons.1 h with e | e
        · cases e
        · exact ih _ a b e
      | eq =>
        rw [hc] at h
        rcases List.mem_cons.1 h with e | e
        · cases e; exact hc
        · exact ih _ a b e
      | gt =>
        rw [hc] at h
        rcases List.mem_cons.1 h with e | e
        · cases e
        · exact ih2 e

theorem mergeJoin_self {A B : Type} (cmp : A → B → Ordering) (f : A → B) (h : ∀ a, cmp a (f a) = .eq) (as : List A) :
    mergeJoin cmp as (as.map f) = as.map (fun a => .both a (f a)) := by
  induction as with
  | nil => rfl
  | cons a as ih => simp [mergeJoin, mergeInner, h a, ih]

/-- Strictly increasing with respect to a comparison. -/
def StrictSorted {K : Type} (cmp : K → K → Ordering) (ks : List K) : Prop :=
  ks.Pairwise (fun a b => cmp a b = .lt)

/-- The key of an entry. -/
def entryKey {A B K : Type} (ka : A → K) (kb : B → K) : EOB A B → K
  | .left a => ka a
  | .right b => kb b
  | .both a _ => ka a

theorem mergeJoin_keys {A B K : Type} {ord : K → K → Ordering} (hl : Lawful ord) (ka : A → K) (kb : B → K)
    (cmp : A → B → Ordering) (as : List A) : ∀ (bs : List B) (k : K),
    (∀ a ∈ as, ∀ b ∈ bs, cmp a b = ord (ka a) (kb b)) →
    (k ∈ (mergeJoin cmp as bs).map (entryKey ka kb) ↔ k ∈ as.map ka ∨ k ∈ bs.map kb) := by
  induction as with
  | nil => intro bs k _; simp [mergeJoin, entryKey]
  | cons a as ih =>
    intro bs k hcmp
    simp only [mergeJoin]
    induction bs with
    | nil => simp [mergeInner, entryKey]
    | cons b bs ih2 =>
      have hab := hcmp a (by simp) b (by simp)
      have hc1 : ∀ x ∈ as, ∀ y ∈ b :: bs, cmp x y = ord (ka x) (kb y) :=
        fun x hx y hy => hcmp x (List.mem_cons_of_mem _ hx) y hy
      have hc2 : ∀ x ∈ as, ∀ y ∈ bs, cmp x y = ord (ka x) (kb y) :=
        fun x hx y hy => hcmp x (List.mem_cons_of_mem _ hx) y (List.mem_cons_of_mem _ hy)
      have hc3 : ∀ x ∈ a :: as, ∀ y ∈ bs, cmp x y = ord (ka x) (kb y) :=
        fun x hx y hy => hcmp x hx y (List.mem_cons_of_mem _ hy)
      simp only [mergeInner]
      cases hc : cmp a b with
      | lt =>
        simp only [List.map_cons, List.mem_cons, entryKey]
        rw [ih (b :: bs) k hc1]
        simp only [List.map_cons, List.mem_cons]
        constructor
        · rintro (h | h | h | h) <;> simp [h]
        · rintro ((h | h) | h | h) <;> simp [h]
      | eq =>
        have he : ka a = kb b := (hl.eq _ _).1 (by rw [← hab, hc])
        simp only [List.map_cons, List.mem_cons, entryKey]
        rw [ih bs k hc2]
        constructor
        · rintro (h | h | h) <;> simp [h]
        · rintro ((h | h) | h | h) <;> simp [h, he]
      | gt =>
        simp only [List.map_cons, List.mem_cons, entryKey]
        have := ih2 hc3
        simp only [List.map_cons, List.mem_cons] at this
        rw [this]
        constructor
        · rintro (h | (h | h) | h) <;> simp [h]
        · rintro ((h | h) | h | h) <;> simp [h]

theorem mergeJoin_sorted {A B K : Type} {ord : K → K → Ordering} (hl : Lawful ord) (ka : A → K) (kb : B → K)
    (cmp : A → B → Ordering) (as : List A) : ∀ (bs : List B),
    (∀ a ∈ as, ∀ b ∈ bs, cmp a b = ord (ka a) (kb b)) →
    StrictSorted ord (as.map ka) → StrictSorted ord (bs.map kb) →
    StrictSorted ord ((mergeJoin cmp as bs).map (entryKey ka kb)) := by
  induction as with
  | nil =>
    intro bs _ _ hb
    simpa [mergeJoin, entryKey, Function.comp_def] using hb
  | cons a as ih =>
    intro bs hcmp ha hb
    have hkeys := fun (bs : List B) (k : K) h => mergeJoin_keys hl ka kb cmp as bs k h
    have ha' : (∀ k ∈ as.map ka, ord (ka a) k = .lt) ∧ StrictSorted ord (as.map ka) := by
      simpa [StrictSorted] using ha
    simp only [mergeJoin]
    induction bs with
    | nil =>
      simp only [mergeInner]
      simpa [entryKey, Function.comp_def] using ha
    | cons b bs ih2 =>
      have hb' : (∀ k ∈ bs.map kb, ord (kb b) k = .lt) ∧ StrictSorted ord (bs.map kb) := by
        simpa [StrictSorted] using hb
      have hab := hcmp a (by simp) b (by simp)
      have hc1 : ∀ x ∈ as, ∀ y ∈ b :: bs, cmp x y = ord (ka x) (kb y) :=
        fun x hx y hy => hcmp x (List.mem_cons_of_mem _ hx) y hy
      have hc2 : ∀ x ∈ as, ∀ y ∈ bs, cmp x y = ord (ka x) (kb y) :=
        fun x hx y hy => hcmp x (List.mem_cons_of_mem _ hx) y (List.mem_cons_of_mem _ hy)
      have hc3 : ∀ x ∈ a :: as, ∀ y ∈ bs, cmp x y = ord (ka x) (kb y) :=
        fun x hx y hy => hcmp x hx y (List.mem_cons_of_mem _ hy)
      simp only [mergeInner]
      cases hc : cmp a b with
      | lt =>
        have hlt : ord (ka a) (kb b) = .lt := by rw [← hab, hc]
        simp only [List.map_cons, StrictSorted, List.pairwise_cons, entryKey]
        refine ⟨?_, ih (b :: bs) hc1 ha'.2 hb⟩
        intro k hk
        rcases (hkeys (b :: bs) k hc1).1 hk with h | h
        · exact ha'.1 k h
        · rcases List.mem_cons.1 h with e | e
          · rw [e]; exact hlt
          · exact hl.trans _ _ _ hlt (hb'.1 k e)
      | eq =>
        have he : ka a = kb b := (hl.eq _ _).1 (by rw [← hab, hc])
        simp only [List.map_cons, StrictSorted, List.pairwise_cons, entryKey]
        refine ⟨?_, ih bs hc2 ha'.2 hb'.2⟩
        intro k hk
        rcases (hkeys bs k hc2).1 hk with h | h
        · exact ha'.1 k h
        · rw [he]; exact hb'.1 k h
      | gt =>
        have hlt : ord (kb b) (ka a) = .lt := (hl.swap _ _).1 (by rw [← hab, hc])
        simp only [List.map_cons, StrictSorted, List.pairwise_cons, entryKey]
        refine ⟨?_, ih2 hc3 hb'.2⟩
        intro k hk
        have hk2 := (mergeJoin_keys hl ka kb cmp (a :: as) bs k hc3).1 hk
        rcases hk2 with h | h
        · rcases List.mem_cons.1 h with e | e
          · rw [e]; exact hlt
          · exact hl.trans _ _ _ hlt (ha'.1 k e)
        · exact hb'.1 k h

/-! ### C31 -/

variable {D : Type}

/-- The identity of an interaction: its description and the names of its provider states. -/
def ident (i : Interaction D) : List Str := i.description :: i.states.map (·.name)

/-- Two interactions that the merge confuses: the same description, no provider states in the first, some in
the second. -/
def Ambiguous (a b : Interaction D) : Prop := a.description = b.description ∧ a.states = [] ∧ b.states ≠ []

/-- Two interactions for the same situation that ask for different things. -/
def Contradict (a b : Interaction D) : Prop :=
  a.description = b.description ∧ a.states = b.states ∧
    (a.core.method ≠ b.core.method ∨ a.core.path ≠ b.core.path ∨ a.core.query ≠ b.core.query ∨
      a.core.status ≠ b.core.status)

/-- A request/response interaction. -/
def IsHttp (i : Interaction D) : Prop := i.kind = .http3 ∨ i.kind = .http4

theorem asRR_some {i : Interaction D} : IsHttp i → ∃ j, i.asRequestResponse = some j ∧ j.kind = .http3 ∧
    j.description = i.description ∧ j.states = i.states ∧ j.core = i.core ∧ j.detail = i.detail := by
  rintro (h | h) <;> simp only [Interaction.asRequestResponse, h] <;> exact ⟨_, rfl, by simp [h]⟩

theorem asRR_none {i : Interaction D} : ¬ IsHttp i ↔ i.asRequestResponse = none := by
  unfold IsHttp Interaction.asRequestResponse
  cases i.kind <;> simp

theorem conflicts_iff (a b : Interaction D) : conflictsWith a b ≠ [] ↔ ¬ IsHttp b ∨ Contradict a b := by
  unfold conflictsWith
  rcases Classical.em (IsHttp b) with h | h
  · obtain ⟨j, h1, h2, h3, h4, h5, h6⟩ := asRR_some h
    rw [h1]
    simp only [h3, h4, h5]
    unfold Contradict
    split
    · rename_i he
      simp only [not_true, h, false_or, he.1, he.2, true_and]
      by_cases c1 : a.core.method = b.core.method <;> by_cases c2 : a.core.path = b.core.path <;>
        by_cases c3 : a.core.query = b.core.query <;> by_cases c4 : a.core.status = b.core.status <;>
        simp [c1, c2, c3, c4]
    · rename_i he
      simp only [ne_eq, not_true, h, false_or, false_iff]
      rintro ⟨e1, e2, _⟩
      exact he ⟨e1, e2⟩
  · rw [asRR_none.1 h]
    simp [h]

theorem mergeHttp_eq (p q : Pact D) : mergeHttp p q =
    if p.consumer = q.consumer ∧ p.provider = q.provider then
      let conflicts := ((allPairs p.interactions q.interactions).map (fun x => conflictsWith x.1 x.2)).filter
        (fun c => !c.isEmpty)
      if conflicts.length > 0 then .conflicts conflicts.length
      else match allSome ((mergeJoin cmpV3 p.interactions q.interactions).map (pickV3 Interaction.asRequestResponse)) with
        | some is => .ok { p with interactions := is }
        | none => .wrongType
    else .differentParties := by
  unfold mergeHttp
  rw [C33_product _ _ _ (Nat.lt_succ_self _)]
  rfl

theorem allSome_map {A B : Type} (f : A → Option B) (l : List A) (h : ∀ a ∈ l, (f a).isSome) :
    ∃ bs, allSome (l.map f) = some bs ∧ bs.map some = l.map f := by
  induction l with
  | nil => exact ⟨[], rfl, rfl⟩
  | cons a l ih =>
    obtain ⟨bs, h1, h2⟩ := ih (fun x hx => h x (List.mem_cons_of_mem _ hx))
    have ha := h a (by simp)
    cases hf : f a with
    | none => rw [hf] at ha; simp at ha
    | some b => exact ⟨b :: bs, by simp [allSome, hf, h1], by simp [hf, h2]⟩

theorem allSome_spec {A : Type} (l : List (Option A)) : ∀ bs, allSome l = some bs ↔ bs.map some = l := by
  induction l with
  | nil => intro bs; cases bs <;> simp [allSome]
  | cons o l ih =>
    intro bs
    cases o with
    | none => cases bs <;> simp [allSome]
    | some a =>
      cases bs with
      | nil => simp [allSome]
      | cons b bs => simp [allSome, ih]; exact ⟨fun h => ⟨h.2.symm, h.1⟩, fun h => ⟨h.2, h.1.symm⟩⟩

/-- C31 (parties): pacts of different consumers or providers are never merged. -/
theorem C31_parties (p q : Pact D) (h : ¬ (p.consumer = q.consumer ∧ p.provider = q.provider)) :
    mergeHttp p q = .differentParties ∧ mergeMessages p q = .differentParties ∧
    mergeV4 p q = .differentParties := by
  rw [mergeHttp_eq]
  unfold mergeMessages mergeV4
  rw [if_neg h, if_neg h, if_neg h]
  exact ⟨rfl, rfl, rfl⟩

theorem filter_pos {p q : Pact D} :
    ((((allPairs p.interactions q.interactions).map (fun x => conflictsWith x.1 x.2)).filter
        (fun c => !c.isEmpty)).length > 0) ↔
      ∃ a ∈ p.interactions, ∃ b ∈ q.interactions, ¬ IsHttp b ∨ Contradict a b := by
  rw [gt_iff_lt, List.length_pos_iff_exists_mem]
  constructor
  · rintro ⟨c, hc⟩
    rw [List.mem_filter] at hc
    obtain ⟨x, hx, rfl⟩ := List.mem_map.1 hc.1
    obtain ⟨a, b⟩ := x
    have hm := (C33_mem _ _ a b).1 hx
    refine ⟨a, hm.1, b, hm.2, (conflicts_iff a b).1 ?_⟩
    intro e; rw [e] at hc; simp at hc
  · rintro ⟨a, ha, b, hb, h⟩
    refine ⟨conflictsWith a b, List.mem_filter.2 ⟨List.mem_map.2 ⟨(a, b), (C33_mem _ _ a b).2 ⟨ha, hb⟩, rfl⟩, ?_⟩⟩
    have := (conflicts_iff a b).2 h
    cases hc : conflictsWith a b with
    | nil => exact absurd hc this
    | cons => rfl

theorem mergeJoin_mem_right {A B : Type} {cmp : A → B → Ordering} {as : List A} {bs : List B} {e : EOB A B}
    (h : e ∈ mergeJoin cmp as bs) {b : B} (hb : rightOf e = some b) : b ∈ bs := by
  rw [← mergeJoin_rights cmp as bs]
  exact List.mem_filterMap.2 ⟨e, h, hb⟩

theorem mergeJoin_mem_left {A B : Type} {cmp : A → B → Ordering} {as : List A} {bs : List B} {e : EOB A B}
    (h : e ∈ mergeJoin cmp as bs) {a : A} (ha : leftOf e = some a) : a ∈ as := by
  rw [← mergeJoin_lefts cmp as bs]
  exact List.mem_filterMap.2 ⟨e, h, ha⟩

/-- C31 (when a merge is refused): for the same consumer and provider, two request/response pacts are merged
unless some pair of interactions with the same description and provider states differs in method, path, query
or status, or the other pact has something that is not a request/response interaction; then a conflict is
reported. -/
theorem C31_conflict_iff (p q : Pact D) (h : p.consumer = q.consumer ∧ p.provider = q.provider) :
    ((∃ n, mergeHttp p q = .conflicts n) ↔
      ∃ a ∈ p.interactions, ∃ b ∈ q.interactions, ¬ IsHttp b ∨ Contradict a b) ∧
    ((∀ b ∈ q.interactions, IsHttp b) → ((∃ r, mergeHttp p q = .ok r) ↔
      ∀ a ∈ p.interactions, ∀ b ∈ q.interactions, ¬ Contradict a b)) := by
  rw [mergeHttp_eq, if_pos h]
  simp only
  have hf := filter_pos (p := p) (q := q)
  constructor
  · constructor
    · rintro ⟨n, hn⟩
      rw [← hf]
      split at hn
      · rename_i h1; exact h1
      · split at hn <;> cases hn
    · intro hc
      rw [if_pos (hf.2 hc)]
      exact ⟨_, rfl⟩
  · intro hq
    constructor
    · rintro ⟨r, hr⟩ a ha b hb hc
      rw [if_pos (hf.2 ⟨a, ha, b, hb, Or.inr hc⟩)] at hr
      cases hr
    · intro hc
      rw [if_neg (by
        rw [hf]
        rintro ⟨a, ha, b, hb, h | h⟩
        · exact h (hq b hb)
        · exact hc a ha b hb h)]
      obtain ⟨bs, h1, _⟩ := allSome_map (pickV3 Interaction.asRequestResponse)
        (mergeJoin cmpV3 p.interactions q.interactions) (by
          intro e he
          cases e with
          | left i => rfl
          | right i =>
            obtain ⟨j, hj, _⟩ := asRR_some (hq i (mergeJoin_mem_right he rfl))
            simp [pickV3, hj]
          | both i k =>
            obtain ⟨j, hj, _⟩ := asRR_some (hq k (mergeJoin_mem_right he rfl))
            simp [pickV3, hj])
      rw [h1]
      exact ⟨_, rfl⟩

theorem cmpV3_eq_iff (a b : Interaction D) : cmpV3 a b = .eq ↔
    a.description = b.description ∧ (a.states = [] ∨ a.stateNames = b.stateNames) := by
  unfold cmpV3
  cases h : cmpStr a.description b.description with
  | eq =>
    rw [cmpStr_eq] at h
    simp only [h, true_and]
    cases hs : a.states with
    | nil => simp
    | cons x xs => simp [cmpStrs_lawful.eq]
  | lt => simp; intro e; rw [cmpStr_eq.2 e] at h; cases h
  | gt => simp; intro e; rw [cmpStr_eq.2 e] at h; cases h

theorem cmpV3_ident (a b : Interaction D) (h : ¬ Ambiguous a b) : cmpV3 a b = cmpStrs (ident a) (ident b) := by
  unfold cmpV3 ident Interaction.stateNames
  simp only [cmpStrs]
  cases hc : cmpStr a.description b.description with
  | lt => rfl
  | gt => rfl
  | eq =>
    simp only
    cases hs : a.states with
    | cons x xs => simp
    | nil =>
      have hb : b.states = [] := by
        cases hb : b.states with
        | nil => rfl
        | cons y ys => exact absurd ⟨cmpStr_eq.1 hc, hs, by simp [hb]⟩ h
      simp [hb, cmpStrs]

/-- The interactions of a merged V3 pact, entry by entry. -/
theorem mergeV3_entries {conv : Interaction D → Option (Interaction D)} {p q : Pact D} {is : List (Interaction D)}
    (h : allSome ((mergeJoin cmpV3 p.interactions q.interactions).map (pickV3 conv)) = some is) :
    is.map some = (mergeJoin cmpV3 p.interactions q.interactions).map (pickV3 conv) :=
  (allSome_spec _ _).1 h

theorem entries_keep {conv : Interaction D → Option (Interaction D)} (l : List (EOB (Interaction D) (Interaction D))) : ∀ is : List (Interaction D),
    is.map some = l.map (pickV3 conv) → ((l.filterMap rightOf).filterMap conv).Sublist is := by
  induction l with
  | nil => intro is h; simp
  | cons e l ih =>
    intro is h
    cases is with
    | nil => simp at h
    | cons i is =>
      simp only [List.map_cons, List.cons.injEq] at h
      have := ih is h.2
      cases e with
      | left a =>
        rw [filterMap_cons_none' rfl]
        exact this.cons i
      | right b =>
        rw [filterMap_cons_some' (f := rightOf) (b := b) rfl, filterMap_cons_some' (f := conv) (b := i) h.1.symm]
        exact this.cons_cons i
      | both a b =>
        rw [filterMap_cons_some' (f := rightOf) (b := b) rfl, filterMap_cons_some' (f := conv) (b := i) h.1.symm]
        exact this.cons_cons i

/-- What a successful V3 merge does with the interactions of both pacts. -/
theorem mergeV3_keeps {conv : Interaction D → Option (Interaction D)} {p q : Pact D} {is : List (Interaction D)}
    (h : allSome ((mergeJoin cmpV3 p.interactions q.interactions).map (pickV3 conv)) = some is) :
    (q.interactions.filterMap conv).Sublist is ∧
    ∀ a ∈ p.interactions, a ∈ is ∨ ∃ b ∈ q.interactions, (∃ b' ∈ is, conv b = some b') ∧
      a.description = b.description ∧ (a.states = [] ∨ a.stateNames = b.stateNames) := by
  have he := mergeV3_entries h
  constructor
  · have := entries_keep _ _ he
    rwa [mergeJoin_rights] at this
  · intro a ha
    have hm : a ∈ (mergeJoin cmpV3 p.interactions q.interactions).filterMap leftOf := by
      rw [mergeJoin_lefts]; exact ha
    obtain ⟨e, hem, hel⟩ := List.mem_filterMap.1 hm
    have hp : pickV3 conv e ∈ is.map some := by rw [he]; exact List.mem_map.2 ⟨e, hem, rfl⟩
    obtain ⟨i, hi, hie⟩ := List.mem_map.1 hp
    cases e with
    | right b => simp [leftOf] at hel
    | left x =>
      simp only [leftOf, Option.some.injEq] at hel
      subst hel
      simp only [pickV3, Option.some.injEq] at hie
      exact Or.inl (hie ▸ hi)
    | both x b =>
      simp only [leftOf, Option.some.injEq] at hel
      subst hel
      refine Or.inr ⟨b, mergeJoin_mem_right hem rfl, ⟨i, hi, hie.symm⟩, ?_⟩
      exact (cmpV3_eq_iff _ _).1 (mergeJoin_both _ _ _ _ _ hem)

theorem mergeHttp_ok {p q r : Pact D} (h : mergeHttp p q = .ok r) :
    (p.consumer = q.consumer ∧ p.provider = q.provider) ∧ r.consumer = p.consumer ∧ r.provider = p.provider ∧
    allSome ((mergeJoin cmpV3 p.interactions q.interactions).map (pickV3 Interaction.asRequestResponse)) = some r.interactions ∧
    ∀ a ∈ p.interactions, ∀ b ∈ q.interactions, IsHttp b ∧ ¬ Contradict a b := by
  rw [mergeHttp_eq] at h
  split at h
  · rename_i hp
    simp only at h
    have hf := filter_pos (p := p) (q := q)
    split at h
    · cases h
    · rename_i hn
      split at h
      · rename_i is his
        cases h
        refine ⟨hp, rfl, rfl, his, ?_⟩
        intro a ha b hb
        rw [hf] at hn
        rcases Classical.em (IsHttp b) with h1 | h1
        · exact ⟨h1, fun hc => hn ⟨a, ha, b, hb, Or.inr hc⟩⟩
        · exact absurd ⟨a, ha, b, hb, Or.inl h1⟩ hn
      · cases h
  · cases h

theorem mergeMessages_ok {p q r : Pact D} (h : mergeMessages p q = .ok r) :
    (p.consumer = q.consumer ∧ p.provider = q.provider) ∧ r.consumer = p.consumer ∧ r.provider = p.provider ∧
    allSome ((mergeJoin cmpV3 p.interactions q.interactions).map (pickV3 Interaction.asMessage)) = some r.interactions := by
  unfold mergeMessages at h
  split at h
  · rename_i hp
    split at h
    · rename_i is his
      cases h
      exact ⟨hp, rfl, rfl, his⟩
    · cases h
  · cases h

/-- C31 (V3, for every input): all interactions of the other pact are in the merged pact, in their order; an
interaction of this pact is in it too unless the other pact has one with the same description and, if this one
has provider states, the same state names. -/
theorem C31_http_keeps (p q r : Pact D) (h : mergeHttp p q = .ok r) :
    (q.interactions.filterMap Interaction.asRequestResponse).Sublist r.interactions ∧
    ∀ a ∈ p.interactions, a ∈ r.interactions ∨ ∃ b ∈ q.interactions,
      a.description = b.description ∧ (a.states = [] ∨ a.states.map (·.name) = b.states.map (·.name)) := by
  obtain ⟨_, _, _, h4, _⟩ := mergeHttp_ok h
  have := mergeV3_keeps h4
  refine ⟨this.1, fun a ha => ?_⟩
  rcases this.2 a ha with h | ⟨b, hb, _, h1, h2⟩
  · exact Or.inl h
  · exact Or.inr ⟨b, hb, h1, h2⟩

/-- C31 (V3 messages, for every input). -/
theorem C31_messages_keeps (p q r : Pact D) (h : mergeMessages p q = .ok r) :
    (q.interactions.filterMap Interaction.asMessage).Sublist r.interactions ∧
    ∀ a ∈ p.interactions, a ∈ r.interactions ∨ ∃ b ∈ q.interactions,
      a.description = b.description ∧ (a.states = [] ∨ a.states.map (·.name) = b.states.map (·.name)) := by
  have h4 := (mergeMessages_ok h).2.2.2
  have := mergeV3_keeps h4
  refine ⟨this.1, fun a ha => ?_⟩
  rcases this.2 a ha with h | ⟨b, hb, _, h1, h2⟩
  · exact Or.inl h
  · exact Or.inr ⟨b, hb, h1, h2⟩

theorem v3_idents {conv : Interaction D → Option (Interaction D)} (hconv : ∀ i j, conv i = some j → ident j = ident i)
    (l : List (EOB (Interaction D) (Interaction D))) : ∀ is : List (Interaction D),
    (∀ a b, EOB.both a b ∈ l → ident a = ident b) →
    is.map some = l.map (pickV3 conv) → is.map ident = l.map (entryKey ident ident) := by
  induction l with
  | nil => intro is _ h; cases is with | nil => rfl | cons => simp at h
  | cons e l ih =>
    intro is hb h
    cases is with
    | nil => simp at h
    | cons i is =>
      simp only [List.map_cons, List.cons.injEq] at h ⊢
      refine ⟨?_, ih is (fun a b hab => hb a b (List.mem_cons_of_mem _ hab)) h.2⟩
      cases e with
      | left a => simp only [pickV3, Option.some.injEq] at h; rw [h.1]; rfl
      | right b => exact hconv b i h.1.symm
      | both a b => rw [hconv b i h.1.symm]; exact (hb a b (by simp)).symm

theorem asRR_ident (i j : Interaction D) (h : i.asRequestResponse = some j) : ident j = ident i := by
  unfold Interaction.asRequestResponse at h
  split at h <;> simp only [Option.some.injEq, reduceCtorEq] at h <;> subst h <;> rfl

theorem asMessage_ident (i j : Interaction D) (h : i.asMessage = some j) : ident j = ident i := by
  unfold Interaction.asMessage at h
  split at h <;> simp only [Option.some.injEq, reduceCtorEq] at h <;> subst h <;> rfl

theorem v3_exactly_once {conv : Interaction D → Option (Interaction D)} (hconv : ∀ i j, conv i = some j → ident j = ident i)
    {p q : Pact D} {is : List (Interaction D)}
    (h : allSome ((mergeJoin cmpV3 p.interactions q.interactions).map (pickV3 conv)) = some is)
    (hp : StrictSorted cmpStrs (p.interactions.map ident)) (hq : StrictSorted cmpStrs (q.interactions.map ident))
    (ha : ∀ a ∈ p.interactions, ∀ b ∈ q.interactions, ¬ Ambiguous a b) :
    StrictSorted cmpStrs (is.map ident) ∧
    ∀ k, k ∈ is.map ident ↔ k ∈ p.interactions.map ident ∨ k ∈ q.interactions.map ident := by
  have hcmp : ∀ a ∈ p.interactions, ∀ b ∈ q.interactions, cmpV3 a b = cmpStrs (ident a) (ident b) :=
    fun a hA b hB => cmpV3_ident a b (ha a hA b hB)
  have hid := v3_idents hconv _ is (by
    intro a b hab
    have h1 := mergeJoin_mem_left hab (a := a) rfl
    have h2 := mergeJoin_mem_right hab (b := b) rfl
    have h3 := mergeJoin_both _ _ _ _ _ hab
    rw [hcmp a h1 b h2] at h3
    exact (cmpStrs_lawful.eq _ _).1 h3) (mergeV3_entries h)
  rw [hid]
  exact ⟨mergeJoin_sorted cmpStrs_lawful ident ident cmpV3 _ _ hcmp hp hq,
    fun k => mergeJoin_keys cmpStrs_lawful ident ident cmpV3 _ _ k hcmp⟩

theorem StrictSorted.nodup {K : Type} {cmp : K → K → Ordering} (hl : Lawful cmp) {ks : List K}
    (h : StrictSorted cmp ks) : ks.Nodup :=
  List.Pairwise.imp (fun {a b} hab e => by rw [(hl.eq a b).2 e] at hab; cases hab) h

/-- C31 (exactly once, V3): if both pacts list their interactions in order of description and state names,
without repetitions, and no pair is confused (same description, no states in this pact, some in the other),
the merged pact has exactly the interactions of both, each once, in that order. -/
theorem C31_http_exactly_once_partial (p q r : Pact D) (h : mergeHttp p q = .ok r)
    (hp : StrictSorted cmpStrs (p.interactions.map ident)) (hq : StrictSorted cmpStrs (q.interactions.map ident))
    (ha : ∀ a ∈ p.interactions, ∀ b ∈ q.interactions, ¬ Ambiguous a b) :
    StrictSorted cmpStrs (r.interactions.map ident) ∧ (r.interactions.map ident).Nodup ∧
    ∀ k, k ∈ r.interactions.map ident ↔ k ∈ p.interactions.map ident ∨ k ∈ q.interactions.map ident := by
  have := v3_exactly_once asRR_ident (mergeHttp_ok h).2.2.2.1 hp hq ha
  exact ⟨this.1, this.1.nodup cmpStrs_lawful, this.2⟩

/-- C31 (exactly once, V3 messages). -/
theorem C31_messages_exactly_once_partial (p q r : Pact D) (h : mergeMessages p q = .ok r)
    (hp : StrictSorted cmpStrs (p.interactions.map ident)) (hq : StrictSorted cmpStrs (q.interactions.map ident))
    (ha : ∀ a ∈ p.interactions, ∀ b ∈ q.interactions, ¬ Ambiguous a b) :
    StrictSorted cmpStrs (r.interactions.map ident) ∧ (r.interactions.map ident).Nodup ∧
    ∀ k, k ∈ r.interactions.map ident ↔ k ∈ p.interactions.map ident ∨ k ∈ q.interactions.map ident := by
  have := v3_exactly_once asMessage_ident (mergeMessages_ok h).2.2.2 hp hq ha
  exact ⟨this.1, this.1.nodup cmpStrs_lawful, this.2⟩

/-- C31 (idempotence, V3): merging a request/response pact that does not contradict itself with itself gives
the same pact, whatever the order of its interactions. -/
theorem C31_http_self (p : Pact D) (hk : ∀ i ∈ p.interactions, i.kind = .http3)
    (hc : ∀ a ∈ p.interactions, ∀ b ∈ p.interactions, ¬ Contradict a b) : mergeHttp p p = .ok p := by
  have hok := (C31_conflict_iff p p ⟨rfl, rfl⟩).2 (fun b hb => Or.inl (hk b hb))
  obtain ⟨r, hr⟩ := hok.2 hc
  have hi := (mergeHttp_ok hr).2.2.2.1
  have hself := mergeJoin_self (cmpV3 (D := D)) id (fun a => (cmpV3_eq_iff a a).2 ⟨rfl, Or.inr rfl⟩) p.interactions
  rw [List.map_id] at hself
  rw [hself, allSome_spec, List.map_map] at hi
  have he : r.interactions = p.interactions := by
    have : p.interactions.map (pickV3 Interaction.asRequestResponse ∘ fun a => EOB.both a (id a)) = p.interactions.map some := by
      apply List.map_congr_left
      intro i hm
      simp [pickV3, Interaction.asRequestResponse, hk i hm]
    rw [this] at hi
    exact (List.map_inj_right (fun _ _ e => Option.some.inj e)).1 hi
  rw [mergeHttp_eq, if_pos ⟨rfl, rfl⟩] at hr ⊢
  simp only at hr ⊢
  split at hr
  · cases hr
  · rename_i hn
    rw [if_neg hn]
    split at hr
    · rename_i is his
      cases hr
      simp only at he
      rw [he]
    · cases hr

/-- C31 (idempotence, V3 messages). -/
theorem C31_messages_self (p : Pact D) (hk : ∀ i ∈ p.interactions, i.kind = .msg3) :
    mergeMessages p p = .ok p := by
  have hself := mergeJoin_self (cmpV3 (D := D)) id (fun a => (cmpV3_eq_iff a a).2 ⟨rfl, Or.inr rfl⟩) p.interactions
  rw [List.map_id] at hself
  unfold mergeMessages
  rw [if_pos ⟨rfl, rfl⟩, hself, List.map_map]
  have : allSome (p.interactions.map (pickV3 Interaction.asMessage ∘ fun a => EOB.both a (id a))) = some p.interactions := by
    rw [allSome_spec]
    apply List.map_congr_left
    intro i hm
    simp [pickV3, Interaction.asMessage, hk i hm]
  rw [this]

/-! ### C31 for V4 -/

/-- Two V4 interactions are the same for the merge: the same key if both have one; otherwise the same
description, the same type and, if the first has provider states, the same state names. -/
def SameV4 (a b : Interaction D) : Prop :=
  match a.key, b.key with
  | some ka, some kb => ka = kb
  | _, _ => a.description = b.description ∧ a.typeOf = b.typeOf ∧
      (a.states = [] ∨ a.states.map (·.name) = b.states.map (·.name))

theorem cmpV4_nokey_eq (a b : Interaction D) :
    (match cmpStr a.description b.description with
      | .eq => if !a.states.isEmpty then
          match cmpStrs a.stateNames b.stateNames with
          | .eq => cmpStr a.typeOf b.typeOf
          | o => o
        else cmpStr a.typeOf b.typeOf
      | o => o) = Ordering.eq ↔ a.description = b.description ∧ a.typeOf = b.typeOf ∧
      (a.states = [] ∨ a.stateNames = b.stateNames) := by
  cases h : cmpStr a.description b.description with
  | eq =>
    rw [cmpStr_eq] at h
    simp only [h, true_and]
    cases hs : a.states with
    | nil => simp [cmpStr_eq]
    | cons x xs =>
      simp only [List.isEmpty_cons, Bool.not_false, if_true, reduceCtorEq, false_or]
      cases hc : cmpStrs a.stateNames b.stateNames with
      | eq => simp [cmpStr_eq, (cmpStrs_lawful.eq _ _).1 hc]
      | lt => simp; intro _ e; rw [(cmpStrs_lawful.eq _ _).2 e] at hc; cases hc
      | gt => simp; intro _ e; rw [(cmpStrs_lawful.eq _ _).2 e] at hc; cases hc
  | lt => simp; intro e; rw [cmpStr_eq.2 e] at h; cases h
  | gt => simp; intro e; rw [cmpStr_eq.2 e] at h; cases h

theorem cmpV4_eq_iff (a b : Interaction D) : cmpV4 a b = .eq ↔ SameV4 a b := by
  unfold cmpV4 SameV4
  cases a.key with
  | none => exact cmpV4_nokey_eq a b
  | some ka =>
    cases b.key with
    | none => exact cmpV4_nokey_eq a b
    | some kb => exact cmpStr_eq

theorem mergeV4_ok {p q r : Pact D} (h : mergeV4 p q = .ok r) :
    (p.consumer = q.consumer ∧ p.provider = q.provider) ∧
    r.interactions = (mergeJoin cmpV4 p.interactions (q.interactions.map Interaction.asV4)).map pickV4 ∧
    r.plugins = q.plugins.foldl addPluginData p.plugins := by
  unfold mergeV4 at h
  split at h
  · rename_i hp; cases h; exact ⟨hp, rfl, rfl⟩
  · cases h

theorem v4_keep (l : List (EOB (Interaction D) (Interaction D))) : (l.filterMap leftOf).Sublist (l.map pickV4) := by
  induction l with
  | nil => simp
  | cons e l ih =>
    cases e with
    | left a => rw [filterMap_cons_some' (f := leftOf) (b := a) rfl]; exact ih.cons_cons a
    | both a b => rw [filterMap_cons_some' (f := leftOf) (b := a) rfl]; exact ih.cons_cons a
    | right b => rw [filterMap_cons_none' rfl]; exact ih.cons b

/-- C31 (V4, for every input): all interactions of this pact are in the merged pact, in their order; an
interaction of the other pact is in it too (in V4 form) unless this pact has one that the merge takes for the
same. -/
theorem C31_v4_keeps (p q r : Pact D) (h : mergeV4 p q = .ok r) :
    p.interactions.Sublist r.interactions ∧
    ∀ b ∈ q.interactions, b.asV4 ∈ r.interactions ∨ ∃ a ∈ p.interactions, SameV4 a b.asV4 := by
  obtain ⟨_, hi, _⟩ := mergeV4_ok h
  rw [hi]
  constructor
  · have := v4_keep (mergeJoin cmpV4 p.interactions (q.interactions.map Interaction.asV4))
    rwa [mergeJoin_lefts] at this
  · intro b hb
    have hm : b.asV4 ∈ (mergeJoin cmpV4 p.interactions (q.interactions.map Interaction.asV4)).filterMap rightOf := by
      rw [mergeJoin_rights]; exact List.mem_map.2 ⟨b, hb, rfl⟩
    obtain ⟨e, hem, hel⟩ := List.mem_filterMap.1 hm
    cases e with
    | left a => simp [rightOf] at hel
    | right x =>
      simp only [rightOf, Option.some.injEq] at hel
      exact Or.inl (List.mem_map.2 ⟨_, hem, by rw [← hel]; rfl⟩)
    | both a x =>
      simp only [rightOf, Option.some.injEq] at hel
      subst hel
      exact Or.inr ⟨a, mergeJoin_mem_left hem rfl, (cmpV4_eq_iff _ _).1 (mergeJoin_both _ _ _ _ _ hem)⟩

theorem pickV4_key {K : Type} (k : Interaction D → K) (l : List (EOB (Interaction D) (Interaction D))) :
    (l.map pickV4).map k = l.map (entryKey k k) := by
  rw [List.map_map]
  apply List.map_congr_left
  intro e _
  cases e <;> rfl

theorem v4_exactly_once {K : Type} {ord : K → K → Ordering} (hl : Lawful ord) (k : Interaction D → K)
    {p q r : Pact D} (h : mergeV4 p q = .ok r)
    (hcmp : ∀ a ∈ p.interactions, ∀ b ∈ q.interactions, cmpV4 a b.asV4 = ord (k a) (k b.asV4))
    (hp : StrictSorted ord (p.interactions.map k)) (hq : StrictSorted ord (q.interactions.map (fun b => k b.asV4))) :
    StrictSorted ord (r.interactions.map k) ∧
    ∀ x, x ∈ r.interactions.map k ↔ x ∈ p.interactions.map k ∨ x ∈ q.interactions.map (fun b => k b.asV4) := by
  obtain ⟨_, hi, _⟩ := mergeV4_ok h
  rw [hi, pickV4_key]
  have hcmp' : ∀ a ∈ p.interactions, ∀ b ∈ q.interactions.map Interaction.asV4, cmpV4 a b = ord (k a) (k b) := by
    intro a ha b hb
    obtain ⟨x, hx, rfl⟩ := List.mem_map.1 hb
    exact hcmp a ha x hx
  have e : (q.interactions.map Interaction.asV4).map k = q.interactions.map (fun b => k b.asV4) := by
    rw [List.map_map]; rfl
  refine ⟨mergeJoin_sorted hl k k cmpV4 _ _ hcmp' hp (by rw [e]; exact hq), fun x => ?_⟩
  rw [mergeJoin_keys hl k k cmpV4 _ _ x hcmp', e]

/-- C31 (exactly once, V4 with keys): if every interaction has a key and both pacts are in key order without
repetitions, the merged pact has exactly the keys of both, each once, in order. -/
theorem C31_v4_keys_exactly_once_partial (p q r : Pact D) (h : mergeV4 p q = .ok r) (k : Interaction D → Str)
    (hkp : ∀ a ∈ p.interactions, a.key = some (k a)) (hkq : ∀ b ∈ q.interactions, b.asV4.key = some (k b.asV4))
    (hp : StrictSorted cmpStr (p.interactions.map k))
    (hq : StrictSorted cmpStr (q.interactions.map (fun b => k b.asV4))) :
    (r.interactions.map k).Nodup ∧
    ∀ x, x ∈ r.interactions.map k ↔ x ∈ p.interactions.map k ∨ x ∈ q.interactions.map (fun b => k b.asV4) := by
  have := v4_exactly_once cmpStr_lawful k h (by
    intro a ha b hb
    unfold cmpV4
    rw [hkp a ha, hkq b hb]) hp hq
  exact ⟨this.1.nodup cmpStr_lawful, this.2⟩

/-- The identity of a V4 interaction without a key: description, state names, type. -/
def identV4 (i : Interaction D) : List Str × Str := (ident i, i.typeOf)

/-- C31 (exactly once, V4 without keys): if no interaction of this pact has a key, both pacts are in order of
description, state names and type, without repetitions, and no pair is confused, the merged pact has exactly
the interactions of both, each once, in order. -/
theorem C31_v4_exactly_once_partial (p q r : Pact D) (h : mergeV4 p q = .ok r)
    (hk : ∀ a ∈ p.interactions, a.key = none)
    (ha : ∀ a ∈ p.interactions, ∀ b ∈ q.interactions, ¬ Ambiguous a b.asV4)
    (hp : StrictSorted (cmpPair cmpStrs cmpStr) (p.interactions.map identV4))
    (hq : StrictSorted (cmpPair cmpStrs cmpStr) (q.interactions.map (fun b => identV4 b.asV4))) :
    (r.interactions.map identV4).Nodup ∧
    ∀ x, x ∈ r.interactions.map identV4 ↔
      x ∈ p.interactions.map identV4 ∨ x ∈ q.interactions.map (fun b => identV4 b.asV4) := by
  have hl := cmpPair_lawful cmpStrs_lawful cmpStr_lawful
  have := v4_exactly_once hl identV4 h (by
    intro a hA b hB
    unfold cmpV4 cmpPair identV4
    rw [hk a hA]
    have hid := cmpV3_ident a b.asV4 (ha a hA b hB)
    simp only [← hid]
    unfold cmpV3
    cases cmpStr a.description b.asV4.description with
    | lt => rfl
    | gt => rfl
    | eq =>
      simp only
      cases a.states with
      | nil => rfl
      | cons x xs => rfl) hp hq
  exact ⟨this.1.nodup hl, this.2⟩

/-- C31 (idempotence, V4): merging a V4 pact with itself keeps its interactions, whatever their order; without
plugin data it keeps everything. -/
theorem C31_v4_self_partial (p : Pact D) (hk : ∀ i ∈ p.interactions, i.asV4 = i) :
    ∃ r, mergeV4 p p = .ok r ∧ r.interactions = p.interactions ∧ (p.plugins = [] → r = p) := by
  have h4 : p.interactions.map Interaction.asV4 = p.interactions := by
    conv => rhs; rw [← List.map_id p.interactions]
    exact List.map_congr_left hk
  have hself := mergeJoin_self (cmpV4 (D := D)) id (fun a => (cmpV4_eq_iff a a).2 (by
    unfold SameV4
    cases a.key with
    | none => exact ⟨rfl, rfl, Or.inr rfl⟩
    | some k => rfl)) p.interactions
  rw [List.map_id] at hself
  have hi : (mergeJoin cmpV4 p.interactions (p.interactions.map Interaction.asV4)).map pickV4 = p.interactions := by
    rw [h4, hself, List.map_map]
    conv => rhs; rw [← List.map_id p.interactions]
    rfl
  unfold mergeV4
  rw [if_pos ⟨rfl, rfl⟩]
  refine ⟨_, rfl, hi, ?_⟩
  intro hpl
  cases p with
  | mk c pr is pl =>
    simp only at hpl hi ⊢
    subst hpl
    simp only [List.foldl_nil, Pact.mk.injEq, true_and, and_true]
    exact hi

/-! ### Where C31 fails -/

/-- A sample interaction. -/
def sample (kind : Kind) (descr : Char) (states : List Char) (detail : Nat) : Interaction Nat :=
  { kind, key := none, description := [descr], states := states.map (fun c => ⟨[c], []⟩),
    core := { method := "GET".toList, path := "/".toList, query := none, status := 200 }, detail }

/-- A sample pact. -/
def samplePact (is : List (Interaction Nat)) : Pact Nat :=
  { consumer := ['c'], provider := ['p'], interactions := is, plugins := [] }

/-- Result of a merge as a list of interactions. -/
def mergedList : Merged Nat → Option (List (Interaction Nat))
  | .ok p => some p.interactions
  | _ => none

/-- C31 (V3, an interaction is lost): a new interaction without provider states is dropped when the file has
one with the same description and a state. -/
theorem C31_stateless_lost_v3 :
    mergedList (mergeHttp (samplePact [sample .http3 'x' [] 1]) (samplePact [sample .http3 'x' ['s'] 2]))
      = some [sample .http3 'x' ['s'] 2] := by decide

/-- C31 (V4, a recorded interaction is lost): writing an interaction without provider states removes the one
with the same description and a state from the file. -/
theorem C31_stateless_lost_v4 :
    mergedList (mergeV4 (samplePact [sample .http4 'x' [] 1]) (samplePact [sample .http4 'x' ['s'] 2]))
      = some [sample .http4 'x' [] 1] := by decide

/-- C31 (V3, an update is lost): a changed body, header or rule is not a conflict, and the old interaction is
kept. -/
theorem C31_update_lost_v3 :
    mergedList (mergeHttp (samplePact [sample .http3 'x' ['s'] 1]) (samplePact [sample .http3 'x' ['s'] 2]))
      = some [sample .http3 'x' ['s'] 2] := by decide

/-- C31 (unsorted pacts are duplicated): merging two pacts with the same interactions in a different order
repeats one. -/
theorem C31_unsorted_duplicates :
    mergedList (mergeHttp (samplePact [sample .http3 'b' [] 1, sample .http3 'a' [] 2])
        (samplePact [sample .http3 'a' [] 2, sample .http3 'b' [] 1]))
      = some [sample .http3 'a' [] 2, sample .http3 'b' [] 1, sample .http3 'a' [] 2] ∧
    mergedList (mergeV4 (samplePact [sample .http4 'b' [] 1, sample .http4 'a' [] 2])
        (samplePact [sample .http4 'a' [] 2, sample .http4 'b' [] 1]))
      = some [sample .http4 'a' [] 2, sample .http4 'b' [] 1, sample .http4 'a' [] 2] := by decide

/-- C31 (plugin data grow): merging a V4 pact with itself doubles every array in the plugin configuration. -/
theorem C31_plugin_arrays_double (c : Str) (j : Json) :
    (mergeV4 (D := Nat) ⟨[], [], [], [⟨['p'], ['1'], [(c, .arr [j])]⟩]⟩ ⟨[], [], [], [⟨['p'], ['1'], [(c, .arr [j])]⟩]⟩)
      = .ok ⟨[], [], [], [⟨['p'], ['1'], [(c, .arr [j, j])]⟩]⟩ := by
  simp [mergeV4, addPluginData, mergeConfig, mergeEntries, mergeEntry, Json.lookup, OMap.insert, deepMerge,
    Json.strLt_irrefl, mergeJoin]

/-- Non-vacuity: a merge of sorted pacts, and a conflict. -/
example : mergedList (mergeHttp (samplePact [sample .http3 'a' ['s'] 1, sample .http3 'c' [] 2])
    (samplePact [sample .http3 'a' ['s'] 3, sample .http3 'b' [] 4])) =
    some [sample .http3 'a' ['s'] 3, sample .http3 'b' [] 4, sample .http3 'c' [] 2] := by decide
example : StrictSorted cmpStrs ([sample .http3 'a' ['s'] 1, sample .http3 'c' [] 2].map ident) := by
  simp only [StrictSorted, List.map_cons, List.map_nil, List.pairwise_cons]; decide
example : ¬ Ambiguous (sample .http3 'a' ['s'] 1) (sample .http3 'a' ['s'] 3) := by
  intro h; exact absurd h.2.1 (by decide)
example : Contradict (sample .http3 'a' [] 1) { sample .http3 'a' [] 1 with
    core := { method := "PUT".toList, path := "/".toList, query := none, status := 200 } } :=
  ⟨rfl, rfl, Or.inl (by decide)⟩

/-- Specification: the type of an interaction after it was added to a V4 pact. -/
inductive KindInV4 : Kind → Kind → Prop
  | http3 : KindInV4 .http3 .http4
  | msg3 : KindInV4 .msg3 .async4
  | http4 : KindInV4 .http4 .http4
  | async4 : KindInV4 .async4 .async4
  | sync4 : KindInV4 .sync4 .sync4

/-- C31 (types): adding an interaction to a V4 pact keeps its type (HTTP interactions stay HTTP interactions, messages
become asynchronous messages), its description and its provider states. -/
theorem C31_v4_converted (i : Interaction D) : KindInV4 i.kind i.asV4.kind ∧ i.asV4.description = i.description ∧
    i.asV4.states = i.states := by
  unfold Interaction.asV4
  cases hk : i.kind <;> refine ⟨?_, rfl, rfl⟩ <;> (try simp only [hk]) <;> constructor

/-- The plugins of a list, by name and version. -/
def plugKeys (l : List PluginData) : List (Str × Str) := l.map fun p => (p.name, p.version)

theorem addPluginData_keys (l : List PluginData) (p : PluginData) :
    plugKeys (addPluginData l p) = if (p.name, p.version) ∈ plugKeys l then plugKeys l
      else plugKeys l ++ [(p.name, p.version)] := by
  induction l with
  | nil => simp [addPluginData, plugKeys]
  | cons q qs ih =>
    unfold addPluginData
    split
    · rename_i h
      simp [plugKeys, h.1, h.2]
    · rename_i h
      have hne : ¬ ((p.name, p.version) = (q.name, q.version)) := by
        intro he
        simp only [Prod.mk.injEq] at he
        exact h ⟨he.1.symm, he.2.symm⟩
      have hc : plugKeys (q :: addPluginData qs p) = (q.name, q.version) :: plugKeys (addPluginData qs p) := rfl
      have hd : plugKeys (q :: qs) = (q.name, q.version) :: plugKeys qs := rfl
      rw [hc, ih, hd]
      by_cases hm : (p.name, p.version) ∈ plugKeys qs
      · rw [if_pos hm, if_pos (List.mem_cons_of_mem _ hm)]
      · rw [if_neg hm, if_neg (by rw [List.mem_cons]; exact fun h => h.elim hne hm)]; rfl

theorem foldl_addPluginData_keys (ps : List PluginData) : ∀ l : List PluginData, (plugKeys l).Nodup →
    (plugKeys (ps.foldl addPluginData l)).Nodup ∧ plugKeys l <+: plugKeys (ps.foldl addPluginData l) ∧
    ∀ k, k ∈ plugKeys (ps.foldl addPluginData l) ↔ k ∈ plugKeys l ∨ k ∈ plugKeys ps := by
  induction ps with
  | nil => intro l h; exact ⟨h, List.prefix_refl _, fun k => by simp [plugKeys]⟩
  | cons p ps ih =>
    intro l h
    rw [List.foldl_cons]
    have hk := addPluginData_keys l p
    have hn : (plugKeys (addPluginData l p)).Nodup := by
      rw [hk]
      split
      · exact h
      · rename_i hm
        rw [List.nodup_append]
        refine ⟨h, by simp, fun a ha b hb => ?_⟩
        rw [List.mem_singleton.1 hb]
        rintro rfl
        exact hm ha
    obtain ⟨h1, h2, h3⟩ := ih _ hn
    refine ⟨h1, List.IsPrefix.trans ?_ h2, fun k => ?_⟩
    · rw [hk]
      split
      · exact List.prefix_refl _
      · exact List.prefix_append _ _
    · rw [h3, hk]
      have hc : plugKeys (p :: ps) = (p.name, p.version) :: plugKeys ps := rfl
      rw [hc]
      split
      · rename_i hm
        simp only [List.mem_cons]
        constructor
        · rintro (h | h)
          · exact Or.inl h
          · exact Or.inr (Or.inr h)
        · rintro (h | rfl | h)
          · exact Or.inl h
          · exact Or.inl hm
          · exact Or.inr h
      · simp only [List.mem_append, List.mem_cons, List.not_mem_nil, or_false, or_assoc]

/-- C31 (plugins): a merged V4 pact lists exactly the plugins of both pacts, each name and version once, those of the
existing pact first; two versions of a plugin are two plugins. -/
theorem C31_v4_plugins (p q r : Pact D) (h : mergeV4 p q = .ok r)
    (hn : (p.plugins.map fun x => (x.name, x.version)).Nodup) :
    (r.plugins.map fun x => (x.name, x.version)).Nodup ∧
    (p.plugins.map fun x => (x.name, x.version)) <+: (r.plugins.map fun x => (x.name, x.version)) ∧
    ∀ n v, (∃ x ∈ r.plugins, x.name = n ∧ x.version = v) ↔
      (∃ x ∈ p.plugins, x.name = n ∧ x.version = v) ∨ (∃ x ∈ q.plugins, x.name = n ∧ x.version = v) := by
  obtain ⟨_, _, hp⟩ := mergeV4_ok h
  rw [hp]
  obtain ⟨h1, h2, h3⟩ := foldl_addPluginData_keys q.plugins p.plugins hn
  refine ⟨h1, h2, fun n v => ?_⟩
  have hm : ∀ l : List PluginData, (∃ x ∈ l, x.name = n ∧ x.version = v) ↔ (n, v) ∈ plugKeys l := by
    intro l
    simp [plugKeys, List.mem_map]
  rw [hm, hm, hm]
  exact h3 (n, v)

/-- Non-vacuity: versions 1 and 2 of a plugin. -/
example : ((addPluginData [⟨['a'], ['1'], []⟩] ⟨['a'], ['2'], []⟩).map fun x => (x.name, x.version)) =
    [(['a'], ['1']), (['a'], ['2'])] := by decide


end MergeProps
end Verif
