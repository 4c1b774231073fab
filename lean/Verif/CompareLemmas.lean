import Verif.Compare

/-
  Lemmas about the comparators: the bound on the recursion is never reached, results as lists of
  mismatches, acceptance of each comparator in terms of the callback.
-/

namespace Verif.Compare
open Path Rules Matchers

/-! ### Results -/

@[simp] theorem mergeResult_isOk (a b : Outcome) : isOk (mergeResult a b) = (isOk a && isOk b) := by
  cases a <;> cases b <;> rfl

@[simp] theorem isOk_ok : isOk (.ok ()) = true := rfl
@[simp] theorem isOk_error (l) : isOk (.error l) = false := rfl

theorem isOk_iff (r : Outcome) : isOk r = true ↔ r = .ok () := by
  cases r <;> simp [isOk]

@[simp] theorem errs_merge (a b : Outcome) : errs (mergeResult a b) = errs a ++ errs b := by
  cases a <;> cases b <;> simp [mergeResult, errs]

@[simp] theorem isOk_ofList (l : List Mismatch) : isOk (ofList l) = l.isEmpty := by
  cases l <;> rfl

@[simp] theorem errs_ofList (l : List Mismatch) : errs (ofList l) = l := by
  cases l <;> rfl

/-- A result is consistent if it is `Ok` or has at least one mismatch. -/
def Consistent (r : Outcome) : Prop := r = .ok () ∨ ∃ m ms, r = .error (m :: ms)

theorem Consistent.isOk_iff {r : Outcome} (h : Consistent r) : isOk r = true ↔ errs r = [] := by
  rcases h with rfl | ⟨m, ms, rfl⟩ <;> simp [isOk, errs]

theorem consistent_ok : Consistent (.ok ()) := Or.inl rfl
theorem consistent_error (m ms) : Consistent (.error (m :: ms)) := Or.inr ⟨m, ms, rfl⟩
theorem consistent_ofList (l) : Consistent (ofList l) := by
  cases l
  · exact Or.inl rfl
  · exact Or.inr ⟨_, _, rfl⟩
theorem consistent_merge {a b : Outcome} (ha : Consistent a) (hb : Consistent b) :
    Consistent (mergeResult a b) := by
  rcases ha with rfl | ⟨m, ms, rfl⟩ <;> rcases hb with rfl | ⟨n, ns, rfl⟩
  · exact Or.inl rfl
  · exact Or.inr ⟨n, ns, rfl⟩
  · exact Or.inr ⟨m, ms, rfl⟩
  · exact Or.inr ⟨m, ms ++ n :: ns, rfl⟩

/-! ### The comparators only call back on elements of the expected value -/

section congr
variable {T : Type} {cb cb' : Callback T}

theorem valuesLoop_congr (p : DocPath) (e : List (Str × T)) (ctx : Ctx)
    (h : ∀ x ∈ e, ∀ q y c, cb q x.2 y c = cb' q x.2 y c) (a : List (Str × T)) :
    ∀ acc, valuesLoop cb p e ctx a acc = valuesLoop cb' p e ctx a acc := by
  induction a with
  | nil => intro acc; rfl
  | cons kv rest ih =>
    obtain ⟨k, v⟩ := kv
    intro acc
    simp only [valuesLoop]
    rw [ih]
    congr 1
    cases hl : Json.lookup k e with
    | some ev => simp only [h (k, ev) (Json.lookup_mem hl)]
    | none =>
      cases e with
      | nil => rfl
      | cons x xs => simp only [h x (by simp)]

theorem commonLoop_congr (p : DocPath) (a : List (Str × T)) (ctx : Ctx) (e : List (Str × T))
    (h : ∀ x ∈ e, ∀ q y c, cb q x.2 y c = cb' q x.2 y c) :
    ∀ acc, commonLoop cb p a ctx e acc = commonLoop cb' p a ctx e acc := by
  induction e with
  | nil => intro acc; rfl
  | cons kv rest ih =>
    obtain ⟨k, v⟩ := kv
    intro acc
    simp only [commonLoop]
    rw [ih (fun x hx => h x (by simp [hx]))]
    congr 1
    split
    · simp only [h (k, v) (by simp)]
    · rfl

theorem compareMapsWithRule_congr (env : Env) (eq) (rule : MatchingRule) (cascaded : Bool) (p : DocPath)
    (e a : List (Str × T)) (ctx : Ctx) (h : ∀ x ∈ e, ∀ q y c, cb q x.2 y c = cb' q x.2 y c) :
    compareMapsWithRule env eq cb rule cascaded p e a ctx
      = compareMapsWithRule env eq cb' rule cascaded p e a ctx := by
  unfold compareMapsWithRule
  split
  · split
    · exact valuesLoop_congr _ _ _ h _ _
    · exact valuesLoop_congr _ _ _ h _ _
  · exact commonLoop_congr _ _ _ _ h _

theorem listContents_congr (p : DocPath) (ctx : Ctx) (e : List T)
    (h : ∀ x ∈ e, ∀ q y c, cb q x y c = cb' q x y c) :
    ∀ i a, listContents cb p ctx i e a = listContents cb' p ctx i e a := by
  induction e with
  | nil => intro i a; cases a <;> rfl
  | cons x xs ih =>
    intro i a
    cases a with
    | nil => simp only [listContents]; rw [ih (fun y hy => h y (by simp [hy]))]
    | cons y ys =>
      simp only [listContents]
      rw [ih (fun y hy => h y (by simp [hy])), h x (by simp)]

theorem mem_padded {e a : List T} {x : T} (h : x ∈ padded e a) : x ∈ e := by
  unfold padded at h
  cases e with
  | nil => simp at h
  | cons f fs =>
    simp only [List.mem_append, List.mem_replicate] at h
    rcases h with h | h
    · exact h
    · simp [h.2]

theorem matchListContents_congr (p : DocPath) (e a : List T) (ctx : Ctx)
    (h : ∀ x ∈ e, ∀ q y c, cb q x y c = cb' q x y c) :
    matchListContents cb p e a ctx = matchListContents cb' p e a ctx :=
  listContents_congr _ _ _ (fun x hx => h x (mem_padded hx)) _ _

theorem variantMismatches_congr (p : DocPath) (e a : List T) (ctx : Ctx) (v : Nat × RuleCategory)
    (h : ∀ x ∈ e, ∀ q y c, cb q x y c = cb' q x y c) :
    variantMismatches cb p e a ctx v = variantMismatches cb' p e a ctx v := by
  unfold variantMismatches
  split
  · rename_i ev hev
    have hm : ev ∈ e := List.mem_of_getElem? hev
    simp only [h ev hm]
  · rfl

theorem compareListsWithRule_congr (eq) (rule : MatchingRule) (p : DocPath) (e a : List T) (ctx : Ctx)
    (cascaded : Bool) (h : ∀ x ∈ e, ∀ q y c, cb q x y c = cb' q x y c) :
    compareListsWithRule eq cb rule p e a ctx cascaded
      = compareListsWithRule eq cb' rule p e a ctx cascaded := by
  unfold compareListsWithRule
  split
  · rfl
  · split
    · congr 2; funext v; exact variantMismatches_congr p e a ctx v h
    · split
      · rfl
      · rw [matchListContents_congr p e a _ h]
    · rw [matchListContents_congr p e a _ h]

theorem compareListsWithRules_congr (eq) (rl : RuleList) (p : DocPath) (e a : List T) (ctx : Ctx)
    (h : ∀ x ∈ e, ∀ q y c, cb q x y c = cb' q x y c) :
    compareListsWithRules eq cb rl p e a ctx = compareListsWithRules eq cb' rl p e a ctx := by
  have : (fun r => compareListsWithRule eq cb r p e a ctx rl.cascaded)
      = (fun r => compareListsWithRule eq cb' r p e a ctx rl.cascaded) := by
    funext r; exact compareListsWithRule_congr _ _ _ _ _ _ _ h
  unfold compareListsWithRules
  simp only [this]

end congr

theorem compareListContent_congr {cb cb' : Callback Json} (p : DocPath) (ctx : Ctx) (e : List Json)
    (h : ∀ x ∈ e, ∀ q y c, cb q x y c = cb' q x y c) :
    ∀ i a acc, compareListContent cb p ctx i e a acc = compareListContent cb' p ctx i e a acc := by
  induction e with
  | nil => intro i a acc; cases a <;> rfl
  | cons x xs ih =>
    intro i a acc
    cases a with
    | nil => simp only [compareListContent]; rw [ih (fun y hy => h y (by simp [hy]))]
    | cons y ys =>
      simp only [compareListContent]
      rw [ih (fun y hy => h y (by simp [hy])), h x (by simp)]

theorem compareMaps_congr (env : Env) {cb cb' : Callback Json} (p : DocPath) (e a : List (Str × Json))
    (ctx : Ctx) (h : ∀ x ∈ e, ∀ q y c, cb q x.2 y c = cb' q x.2 y c) :
    compareMaps env cb p e a ctx = compareMaps env cb' p e a ctx := by
  unfold compareMaps
  have : (fun acc r => mergeResult acc
        (compareMapsWithRule env mapEqJson cb r (best ctx p).cascaded p e a ctx))
      = (fun acc r => mergeResult acc
        (compareMapsWithRule env mapEqJson cb' r (best ctx p).cascaded p e a ctx)) := by
    funext acc r; rw [compareMapsWithRule_congr env _ r _ p e a ctx h]
  simp only [this, commonLoop_congr p a ctx e h]

theorem compareLists_congr {cb cb' : Callback Json} (p : DocPath) (e a : List Json) (ctx : Ctx)
    (h : ∀ x ∈ e, ∀ q y c, cb q x y c = cb' q x y c) :
    compareLists cb p e a ctx = compareLists cb' p e a ctx := by
  unfold compareLists
  rw [compareListsWithRules_congr _ _ _ _ _ _ h, compareListContent_congr p ctx e h]

theorem compareStep_congr (env : Env) {cb cb' : Callback Json} (p : DocPath) (e a : Json) (ctx : Ctx)
    (h : ∀ x, x.depth < e.depth → ∀ q y c, cb q x y c = cb' q x y c) :
    compareStep env cb p e a ctx = compareStep env cb' p e a ctx := by
  cases e with
  | obj em =>
    cases a <;> simp only [compareStep]
    apply compareMaps_congr
    intro x hx
    apply h
    have := Json.depth_mem_entries hx
    simp only [Json.depth]
    omega
  | arr el =>
    cases a <;> simp only [compareStep]
    apply compareLists_congr
    intro x hx
    apply h
    have := Json.depth_mem_list hx
    simp only [Json.depth]
    omega
  | _ => rfl

theorem compareJsonF_fuel (env : Env) : ∀ (n m : Nat) (e : Json), e.depth < n → e.depth < m →
    ∀ p a ctx, compareJsonF env n p e a ctx = compareJsonF env m p e a ctx := by
  intro n
  induction n with
  | zero => intro m e h; omega
  | succ n ih =>
    intro m e h1 h2 p a ctx
    cases m with
    | zero => omega
    | succ m =>
      simp only [compareJsonF]
      apply compareStep_congr
      intro x hx q y c
      exact ih m x (by omega) (by omega) q y c

/-- The recursion equation of `compare_json` (json.rs 378-408). -/
theorem compareJson_eq (env : Env) (p : DocPath) (e a : Json) (ctx : Ctx) :
    compareJson env p e a ctx = compareStep env (compareJson env) p e a ctx := by
  show compareJsonF env (e.depth + 1) p e a ctx = _
  simp only [compareJsonF]
  apply compareStep_congr
  intro x hx q y c
  exact compareJsonF_fuel env _ _ x (by omega) (by omega) q y c

end Verif.Compare

namespace Verif.Compare
open Path Rules Matchers

/-! ### Acceptance in terms of the callback -/

/-- The expected value used for an actual key under a values rule. -/
def valueFor {T} (e : List (Str × T)) (k : Str) : Option T :=
  match Json.lookup k e with
  | some v => some v
  | none => e.head?.map (·.2)

theorem valuesLoop_ok {T} (cb : Callback T) (p : DocPath) (e : List (Str × T)) (ctx : Ctx)
    (a : List (Str × T)) : ∀ acc, isOk (valuesLoop cb p e ctx a acc) = true ↔
      isOk acc = true ∧ ∀ kv ∈ a, ∀ x, valueFor e kv.1 = some x →
        isOk (cb (join p kv.1) x kv.2 ctx) = true := by
  induction a with
  | nil => intro acc; simp [valuesLoop]
  | cons kv rest ih =>
    obtain ⟨k, v⟩ := kv
    intro acc
    simp only [valuesLoop, List.mem_cons, forall_eq_or_imp]
    rw [ih]
    unfold valueFor
    cases hl : Json.lookup k e with
    | some ev =>
      simp [and_assoc]
    | none =>
      cases e with
      | nil => simp
      | cons x xs => simp [and_assoc]

theorem commonLoop_ok {T} (cb : Callback T) (p : DocPath) (a : List (Str × T)) (ctx : Ctx)
    (e : List (Str × T)) : ∀ acc, isOk (commonLoop cb p a ctx e acc) = true ↔
      isOk acc = true ∧ ∀ kv ∈ e, ∀ y, Json.lookup kv.1 a = some y →
        isOk (cb (join p kv.1) kv.2 y ctx) = true := by
  induction e with
  | nil => intro acc; simp [commonLoop]
  | cons kv rest ih =>
    obtain ⟨k, v⟩ := kv
    intro acc
    simp only [commonLoop, List.mem_cons, forall_eq_or_imp]
    rw [ih]
    cases hl : Json.lookup k a with
    | some ev => simp [and_assoc]
    | none => simp

/-- What the list loops demand at index `j`. -/
def itemOk {T} (cb : Callback T) (p : DocPath) (ctx : Ctx) (j : Nat) (x : T) : Option T → Prop
  | some y => isOk (cb (join p (natStr j)) x y ctx) = true
  | none => isDefined ctx (join p (natStr j)) = true

theorem listContents_nil {T} (cb : Callback T) (p : DocPath) (ctx : Ctx)
    (e : List T) (hc : ∀ x ∈ e, ∀ q y c, Consistent (cb q x y c)) : ∀ i a, listContents cb p ctx i e a = [] ↔
      ∀ j x, e[j]? = some x → itemOk cb p ctx (i + j) x a[j]? := by
  induction e with
  | nil => intro i a; cases a <;> simp [listContents]
  | cons x xs ih =>
    intro i a
    have ih := ih (fun y hy => hc y (by simp [hy]))
    cases a with
    | nil =>
      simp only [listContents, List.append_eq_nil_iff, ih]
      constructor
      · rintro ⟨h1, h2⟩ j y hj
        cases j with
        | zero =>
          simp only [List.getElem?_nil, Nat.add_zero, itemOk]
          split at h1
          · assumption
          · simp at h1
        | succ j =>
          have := h2 j y (by simpa using hj)
          simpa [Nat.add_assoc, Nat.add_comm 1 j] using this
      · intro h
        refine ⟨?_, ?_⟩
        · have := h 0 x (by simp)
          simp [itemOk] at this
          simp [this]
        · intro j y hj
          have := h (j + 1) y (by simpa using hj)
          simpa [Nat.add_assoc, Nat.add_comm 1 j] using this
    | cons y ys =>
      simp only [listContents, List.append_eq_nil_iff, ih]
      constructor
      · rintro ⟨h1, h2⟩ j z hj
        cases j with
        | zero =>
          simp at hj; subst hj
          simp only [List.getElem?_cons_zero, Nat.add_zero, itemOk]
          exact (hc x (by simp) _ _ _).isOk_iff.2 h1
        | succ j =>
          have := h2 j z (by simpa using hj)
          simpa [Nat.add_assoc, Nat.add_comm 1 j] using this
      · intro h
        refine ⟨?_, ?_⟩
        · have := h 0 x (by simp)
          exact (hc x (by simp) _ _ _).isOk_iff.1 this
        · intro j z hj
          have := h (j + 1) z (by simpa using hj)
          simpa [Nat.add_assoc, Nat.add_comm 1 j] using this

theorem compareListContent_ok (cb : Callback Json) (p : DocPath) (ctx : Ctx)
    (e : List Json) : ∀ i a acc, isOk (compareListContent cb p ctx i e a acc) = true ↔
      isOk acc = true ∧ ∀ j x, e[j]? = some x → itemOk cb p ctx (i + j) x a[j]? := by
  induction e with
  | nil => intro i a acc; cases a <;> simp [compareListContent]
  | cons x xs ih =>
    intro i a acc
    cases a with
    | nil =>
      simp only [compareListContent]
      rw [ih]
      constructor
      · rintro ⟨h1, h2⟩
        refine ⟨?_, ?_⟩
        · split at h1
          · exact h1
          · simp at h1
        · intro j y hj
          cases j with
          | zero =>
            simp only [List.getElem?_nil, Nat.add_zero, itemOk]
            split at h1
            · assumption
            · simp at h1
          | succ j =>
            have := h2 j y (by simpa using hj)
            simpa [Nat.add_assoc, Nat.add_comm 1 j] using this
      · rintro ⟨h0, h⟩
        refine ⟨?_, ?_⟩
        · have := h 0 x (by simp)
          simp [itemOk] at this
          simp [this, h0]
        · intro j y hj
          have := h (j + 1) y (by simpa using hj)
          simpa [Nat.add_assoc, Nat.add_comm 1 j] using this
    | cons y ys =>
      simp only [compareListContent]
      rw [ih]
      simp only [mergeResult_isOk, Bool.and_eq_true, and_assoc]
      apply and_congr_right
      intro _
      constructor
      · rintro ⟨h1, h2⟩ j z hj
        cases j with
        | zero =>
          simp at hj; subst hj
          simpa [itemOk] using h1
        | succ j =>
          have := h2 j z (by simpa using hj)
          simpa [Nat.add_assoc, Nat.add_comm 1 j] using this
      · intro h
        refine ⟨?_, ?_⟩
        · have := h 0 x (by simp)
          simpa [itemOk] using this
        · intro j z hj
          have := h (j + 1) z (by simpa using hj)
          simpa [Nat.add_assoc, Nat.add_comm 1 j] using this

/-! ### Consistency: an error result carries a mismatch -/

theorem valuesLoop_consistent {T} (cb : Callback T) (p : DocPath) (e : List (Str × T)) (ctx : Ctx)
    (hc : ∀ x ∈ e, ∀ q y c, Consistent (cb q x.2 y c)) (a : List (Str × T)) :
    ∀ acc, Consistent acc → Consistent (valuesLoop cb p e ctx a acc) := by
  induction a with
  | nil => intro acc h; exact h
  | cons kv rest ih =>
    obtain ⟨k, v⟩ := kv
    intro acc h
    simp only [valuesLoop]
    apply ih
    cases hl : Json.lookup k e with
    | some ev => exact consistent_merge h (hc (k, ev) (Json.lookup_mem hl) _ _ _)
    | none =>
      cases e with
      | nil => exact h
      | cons x xs => exact consistent_merge h (hc x (by simp) _ _ _)

theorem commonLoop_consistent {T} (cb : Callback T) (p : DocPath) (a : List (Str × T)) (ctx : Ctx)
    (e : List (Str × T)) (hc : ∀ x ∈ e, ∀ q y c, Consistent (cb q x.2 y c)) :
    ∀ acc, Consistent acc → Consistent (commonLoop cb p a ctx e acc) := by
  induction e with
  | nil => intro acc h; exact h
  | cons kv rest ih =>
    obtain ⟨k, v⟩ := kv
    intro acc h
    simp only [commonLoop]
    apply ih (fun x hx => hc x (by simp [hx]))
    split
    · exact consistent_merge h (hc (k, v) (by simp) _ _ _)
    · exact h

theorem compareMapsWithRule_consistent {T} (env : Env) (eq) (cb : Callback T) (rule : MatchingRule)
    (cascaded : Bool) (p : DocPath) (e a : List (Str × T)) (ctx : Ctx)
    (hc : ∀ x ∈ e, ∀ q y c, Consistent (cb q x.2 y c)) :
    Consistent (compareMapsWithRule env eq cb rule cascaded p e a ctx) := by
  unfold compareMapsWithRule
  split
  · split
    · exact valuesLoop_consistent _ _ _ _ hc _ _ (consistent_ofList _)
    · exact valuesLoop_consistent _ _ _ _ hc _ _ consistent_ok
  · apply commonLoop_consistent _ _ _ _ _ hc
    apply consistent_merge
    · split
      · exact consistent_ok
      · exact consistent_error _ _
    · exact consistent_ofList _

theorem compareListsWithRule_consistent {T} (eq) (cb : Callback T) (rule : MatchingRule) (p : DocPath)
    (e a : List T) (ctx : Ctx) (cascaded : Bool) :
    Consistent (compareListsWithRule eq cb rule p e a ctx cascaded) := by
  unfold compareListsWithRule
  split
  · exact consistent_ok
  · split
    · exact consistent_ofList _
    · split
      · exact consistent_ok
      · exact consistent_ofList _
    · exact consistent_ofList _

theorem compareListsWithRules_consistent {T} (eq) (cb : Callback T) (rl : RuleList) (p : DocPath)
    (e a : List T) (ctx : Ctx) : Consistent (compareListsWithRules eq cb rl p e a ctx) := by
  unfold compareListsWithRules
  split
  · exact consistent_error _ _
  · simp only
    split
    · exact consistent_ofList _
    · split
      · exact consistent_ofList _
      · exact consistent_ok

theorem compareListContent_consistent (cb : Callback Json) (p : DocPath) (ctx : Ctx) (e : List Json)
    (hc : ∀ x ∈ e, ∀ q y c, Consistent (cb q x y c)) :
    ∀ i a acc, Consistent acc → Consistent (compareListContent cb p ctx i e a acc) := by
  induction e with
  | nil => intro i a acc h; cases a <;> exact h
  | cons x xs ih =>
    intro i a acc h
    have ih := ih (fun y hy => hc y (by simp [hy]))
    cases a with
    | nil =>
      simp only [compareListContent]
      apply ih
      split
      · exact h
      · exact consistent_merge h (consistent_error _ _)
    | cons y ys =>
      simp only [compareListContent]
      exact ih _ _ _ (consistent_merge h (hc x (by simp) _ _ _))

theorem matchValues_consistent (v : MatchingRule → Bool → Bool) (rl : RuleList) (es)
    (h : matchValues v rl = .error es) : es ≠ [] := by
  unfold matchValues at h
  split at h
  · simp at h; subst h; simp
  · rename_i hne
    simp only at h
    split at h
    · split at h
      · simp at h
      · rename_i hl
        simp at h; subst h
        intro hnil
        apply hl
        rw [List.map_eq_nil_iff, List.filter_eq_nil_iff] at hnil
        simp
        intro r hr
        simpa using hnil r hr
    · split at h
      · simp at h
      · rename_i hl
        simp at h; subst h
        intro hnil
        apply hl
        rw [List.map_eq_nil_iff, List.filter_eq_nil_iff] at hnil
        cases hr : rl.rules with
        | nil => simp [hr] at hne
        | cons r rs =>
          have := hnil r (by simp [hr])
          simp at this
          simp [this]

theorem compareValues_consistent (env : Env) (p : DocPath) (e a : Json) (ctx : Ctx) :
    Consistent (compareValues env p e a ctx) := by
  unfold compareValues
  split
  · split
    · exact consistent_ok
    · rename_i es h
      have := matchValues_consistent _ _ _ h
      cases es with
      | nil => exact absurd rfl this
      | cons m ms => exact consistent_error _ _
  · split
    · exact consistent_ok
    · exact consistent_error _ _

theorem foldl_consistent {α} (f : α → Outcome) (l : List α) (h : ∀ x ∈ l, Consistent (f x)) :
    ∀ acc, Consistent acc → Consistent (l.foldl (fun acc r => mergeResult acc (f r)) acc) := by
  induction l with
  | nil => intro acc ha; exact ha
  | cons x xs ih =>
    intro acc ha
    exact ih (fun y hy => h y (by simp [hy])) _ (consistent_merge ha (h x (by simp)))

theorem foldl_isOk {α} (f : α → Outcome) (l : List α) :
    ∀ acc, isOk (l.foldl (fun acc r => mergeResult acc (f r)) acc) = true ↔
      isOk acc = true ∧ ∀ x ∈ l, isOk (f x) = true := by
  induction l with
  | nil => intro acc; simp
  | cons x xs ih => intro acc; simp only [List.foldl_cons, ih]; simp [and_assoc]

theorem compareStep_consistent (env : Env) (cb : Callback Json) (p : DocPath) (e a : Json) (ctx : Ctx)
    (h : ∀ x, x.depth < e.depth → ∀ q y c, Consistent (cb q x y c)) :
    Consistent (compareStep env cb p e a ctx) := by
  cases e with
  | obj em =>
    have hm : ∀ x ∈ em, ∀ q y c, Consistent (cb q x.2 y c) := fun x hx => h x.2 (by
      have := Json.depth_mem_entries hx
      simp only [Json.depth]; omega)
    cases a <;> simp only [compareStep] <;> try exact consistent_error _ _
    unfold compareMaps
    split
    · exact consistent_error _ _
    · split
      · exact foldl_consistent (fun r => compareMapsWithRule env mapEqJson cb r _ p em _ ctx) _
          (fun r _ => compareMapsWithRule_consistent _ _ _ _ _ _ _ _ _ hm) _ consistent_ok
      · exact commonLoop_consistent _ _ _ _ _ hm _ (consistent_merge consistent_ok (consistent_ofList _))
  | arr el =>
    have hm : ∀ x ∈ el, ∀ q y c, Consistent (cb q x y c) := fun x hx => h x (by
      have := Json.depth_mem_list hx
      simp only [Json.depth]; omega)
    cases a <;> simp only [compareStep] <;> try exact consistent_error _ _
    unfold compareLists
    split
    · exact compareListsWithRules_consistent _ _ _ _ _ _ _
    · split
      · exact consistent_error _ _
      · have := compareListContent_consistent cb p ctx el hm 0 ‹List Json› _ consistent_ok
        simp only
        split
        · exact consistent_merge this (consistent_error _ _)
        · exact this
  | _ => simp only [compareStep]; exact compareValues_consistent _ _ _ _ _

theorem compareJson_consistent (env : Env) : ∀ (p : DocPath) (e a : Json) (ctx : Ctx),
    Consistent (compareJson env p e a ctx) := by
  have main : ∀ n, ∀ e : Json, e.depth < n → ∀ p a ctx, Consistent (compareJson env p e a ctx) := by
    intro n
    induction n with
    | zero => intro e h; omega
    | succ n ih =>
      intro e h p a ctx
      rw [compareJson_eq]
      exact compareStep_consistent _ _ _ _ _ _ (fun x hx q y c => ih x (by omega) q y c)
  exact fun p e a ctx => main (e.depth + 1) e (by omega) p a ctx

end Verif.Compare
