import Verif.Handles

/-
  C40: handles of the C interface address what they were created for.
  C62: a modification function returns true exactly when it may modify the interaction.
-/

set_option autoImplicit false

namespace Verif
namespace HandleProps
open Handles

/-! ### Specification -/

/-- The interactions of a pact. -/
def ixns (s : State) (p : Nat) : List Ixn :=
  match s.pacts p with
  | some inner => inner.interactions
  | none => []

/-- Whether the mock server of a pact was started. -/
def Started (s : State) (p : Nat) : Bool :=
  match s.pacts p with
  | some inner => inner.started
  | none => false

/-- From `s` to `t` the interaction of pact `p` created by call number `u` was changed by `f`; every other
interaction, every other pact, and the flags are the same. -/
def ChangedOnly (s t : State) (p u : Nat) (f : Ixn → Ixn) : Prop :=
  ixns t p = (ixns s p).map (fun i => if i.uid = u then f i else i) ∧
  Started t p = Started s p ∧ ((t.pacts p).isSome = (s.pacts p).isSome) ∧
  ∀ q, q ≠ p → t.pacts q = s.pacts q

/-- The calls that create an interaction of type `k` in pact `p`. -/
def Creates (c : Call) (k : Kind) (p : Nat) : Prop :=
  (∃ d, c = .newInteraction k p (some d)) ∨ (∃ d, c = .newMessage p d ∧ k = .asyncMessage) ∨
  (∃ d, c = .newAsyncMessage p d ∧ k = .asyncMessage)

/-- The calls that change an interaction through handle `h`, and the change they make. -/
inductive Edits : Call → Nat → (Ixn → Ixn) → Prop where
  | description (h : Nat) (d : Str) : Edits (.uponReceiving h d) h (fun i => { i with desc := d })
  | state (h : Nat) (st : Str) : Edits (.given h st) h (fun i => { i with states := i.states ++ [st] })

/-- The same for the functions that accept messages only. -/
inductive MessageEdits : Call → Nat → (Ixn → Ixn) → Prop where
  | description (h : Nat) (d : Str) : MessageEdits (.expectsToReceive h d) h (fun i => { i with desc := d })
  | state (h : Nat) (st : Str) : MessageEdits (.messageGiven h st) h (fun i => { i with states := i.states ++ [st] })

/-! ### C40: packing -/

/-- Both parts are recovered from a handle. -/
theorem C40_unpack (p i : Nat) (hi : i < 65536) : pactRef (newHandle p i) = p ∧ ixnRef (newHandle p i) = i := by
  unfold pactRef ixnRef newHandle
  omega

/-- A handle fits 32 bits, and the bit operations of the code compute it and its parts. -/
theorem C40_bits (p i : Nat) (hp : p < 65536) (hi : i < 65536) :
    newHandle p i < 4294967296 ∧ newHandle p i = (p <<< 16) ||| i ∧
    newHandle p i >>> 16 = p ∧ newHandle p i &&& 0xFFFF = i := by
  have e : newHandle p i = 2 ^ 16 * p + i := by unfold newHandle; omega
  refine ⟨by unfold newHandle; omega, ?_, ?_, ?_⟩
  · rw [e, Nat.shiftLeft_eq, Nat.mul_comm p]
    exact (Nat.two_pow_add_eq_or_of_lt (by omega) p)
  · rw [Nat.shiftRight_eq_div_pow]
    unfold newHandle
    omega
  · have : (0xFFFF : Nat) = 2 ^ 16 - 1 := rfl
    rw [this, Nat.and_two_pow_sub_one_eq_mod]
    unfold newHandle
    omega

/-- Distinct pairs give distinct handles. -/
theorem C40_injective (p i q j : Nat) (hi : i < 65536) (hj : j < 65536) (h : newHandle p i = newHandle q j) :
    p = q ∧ i = j := by
  unfold newHandle at h
  omega

/-! ### Invariants of a history -/

/-- The uids of a pact are distinct and belong to past calls; pact numbers are 16 bits wide. -/
def Inv (s : State) : Prop :=
  ∀ p inner, s.pacts p = some inner → p < 65536 ∧ (inner.interactions.map (·.uid)).Nodup ∧
    ∀ i ∈ inner.interactions, i.uid < s.clock

theorem inv_tick {s : State} (h : Inv s) : Inv (tick s) := by
  intro p inner hp
  obtain ⟨a, b, c⟩ := h p inner hp
  exact ⟨a, b, fun i hi => Nat.lt_succ_of_lt (c i hi)⟩

theorem inv_set {s : State} {p : Nat} {inner : PactInner} (h : Inv s) (hp : p < 65536)
    (hn : (inner.interactions.map (·.uid)).Nodup) (hc : ∀ i ∈ inner.interactions, i.uid < s.clock + 1) :
    Inv (setPact s p (some inner)) := by
  intro q inner' hq
  by_cases e : q = p
  · subst e
    simp only [setPact, if_true, Option.some.injEq] at hq
    subst hq
    exact ⟨hp, hn, hc⟩
  · simp only [setPact, if_neg e] at hq
    obtain ⟨a, b, c⟩ := h q inner' hq
    exact ⟨a, b, fun i hi => Nat.lt_succ_of_lt (c i hi)⟩

theorem uids_set {l : List Ixn} {k : Nat} {i j : Ixn} (h : l[k]? = some i) (hu : j.uid = i.uid) :
    (l.set k j).map (·.uid) = l.map (·.uid) := by
  apply List.ext_getElem?
  intro n
  simp only [List.getElem?_map, List.getElem?_set]
  by_cases e : k = n
  · subst e
    have : k < l.length := (List.getElem?_eq_some_iff.1 h).1
    have h' := (List.getElem?_eq_some_iff.1 h).2
    simp [this, hu, h']
  · simp [e]

theorem nodup_set_fresh {l : List Ixn} {k : Nat} {j : Ixn} {c : Nat} (hn : (l.map (·.uid)).Nodup)
    (hc : ∀ i ∈ l, i.uid < c) (hj : j.uid = c) : ((l.set k j).map (·.uid)).Nodup := by
  induction l generalizing k with
  | nil => simp
  | cons a as ih =>
    simp only [List.map_cons, List.nodup_cons] at hn
    have hc' : ∀ i ∈ as, i.uid < c := fun i hi => hc i (by simp [hi])
    cases k with
    | zero =>
      simp only [List.set_cons_zero, List.map_cons, List.nodup_cons]
      refine ⟨?_, hn.2⟩
      intro hm
      obtain ⟨i, hi, he⟩ := List.mem_map.1 hm
      have := hc' i hi
      omega
    | succ k =>
      simp only [List.set_cons_succ, List.map_cons, List.nodup_cons]
      refine ⟨?_, ih hn.2 hc'⟩
      intro hm
      obtain ⟨i, hi, he⟩ := List.mem_map.1 hm
      rcases List.mem_or_eq_of_mem_set hi with h | rfl
      · exact hn.1 (List.mem_map.2 ⟨i, h, he⟩)
      · have := hc a (by simp)
        omega

theorem nodup_append_fresh {l : List Ixn} {j : Ixn} {c : Nat} (hn : (l.map (·.uid)).Nodup)
    (hc : ∀ i ∈ l, i.uid < c) (hj : j.uid = c) : ((l ++ [j]).map (·.uid)).Nodup := by
  simp only [List.map_append, List.map_cons, List.map_nil]
  refine List.nodup_append.2 ⟨hn, by simp, ?_⟩
  intro a ha b hb
  obtain ⟨i, hi, rfl⟩ := List.mem_map.1 ha
  have := hc i hi
  simp only [List.mem_singleton] at hb
  omega

theorem mem_append_fresh {l : List Ixn} {j : Ixn} {c : Nat} (hc : ∀ i ∈ l, i.uid < c) (hj : j.uid = c) :
    ∀ i ∈ l ++ [j], i.uid < c + 1 := by
  intro i hi
  rcases List.mem_append.1 hi with h | h
  · exact Nat.lt_succ_of_lt (hc i h)
  · simp only [List.mem_singleton] at h
    subst h
    omega

theorem mem_set_fresh {l : List Ixn} {k : Nat} {j : Ixn} {c : Nat} (hc : ∀ i ∈ l, i.uid < c) (hj : j.uid = c) :
    ∀ i ∈ l.set k j, i.uid < c + 1 := by
  intro i hi
  rcases List.mem_or_eq_of_mem_set hi with h | rfl
  · exact Nat.lt_succ_of_lt (hc i h)
  · omega

theorem mem_set_same {l : List Ixn} {k : Nat} {i0 j : Ixn} {c : Nat} (hc : ∀ i ∈ l, i.uid < c) (h : l[k]? = some i0)
    (hj : j.uid = i0.uid) : ∀ i ∈ l.set k j, i.uid < c + 1 := by
  intro i hi
  rcases List.mem_or_eq_of_mem_set hi with h' | rfl
  · exact Nat.lt_succ_of_lt (hc i h')
  · have := hc i0 (List.mem_of_getElem? h)
    omega

/-- What an access through a handle does to the table. -/
theorem withInteraction_cases {A : Type} {checked : Bool} {s t : State} {h : Nat} {f : Bool → Ixn → Ixn × A}
    {r : Option A} (hc : withInteraction checked s h f = .ok (t, r)) :
    t = tick s ∨ ∃ inner k i, s.pacts (pactRef h) = some inner ∧ inner.interactions[k]? = some i ∧
      t = setPact s (pactRef h) (some { inner with interactions := inner.interactions.set k (f inner.started i).1 }) := by
  unfold withInteraction at hc
  cases hp : s.pacts (pactRef h) with
  | none =>
    simp only [hp, Res.ok.injEq, Prod.mk.injEq] at hc
    exact Or.inl hc.1.symm
  | some inner =>
    simp only [hp] at hc
    obtain ⟨k, hk, e⟩ := Res.map_eq_ok.1 hc
    cases hi : inner.interactions[k]? with
    | none =>
      simp only [hi, Prod.mk.injEq] at e
      exact Or.inl e.1.symm
    | some i =>
      simp only [hi, Prod.mk.injEq] at e
      exact Or.inr ⟨inner, k, i, rfl, hi, e.1.symm⟩

theorem withMessage_cases {A : Type} {checked : Bool} {s t : State} {h : Nat} {f : Ixn → Ixn × A}
    {r : Option A} (hc : withMessage checked s h f = .ok (t, r)) :
    t = tick s ∨ ∃ inner k i, s.pacts (pactRef h) = some inner ∧ inner.interactions[k]? = some i ∧
      t = setPact s (pactRef h) (some { inner with interactions := inner.interactions.set k (f i).1 }) := by
  unfold withMessage at hc
  cases hp : s.pacts (pactRef h) with
  | none =>
    simp only [hp, Res.ok.injEq, Prod.mk.injEq] at hc
    exact Or.inl hc.1.symm
  | some inner =>
    simp only [hp] at hc
    obtain ⟨k, hk, e⟩ := Res.map_eq_ok.1 hc
    cases hi : inner.interactions[k]? with
    | none =>
      simp only [hi, Prod.mk.injEq] at e
      exact Or.inl e.1.symm
    | some i =>
      simp only [hi] at e
      split at e
      · simp only [Prod.mk.injEq] at e
        exact Or.inr ⟨inner, k, i, rfl, hi, e.1.symm⟩
      · simp only [Prod.mk.injEq] at e
        exact Or.inl e.1.symm

/-- What a call does to the table. -/
inductive Effect (s : State) (c : Call) (r : Ret) : State → Prop where
  | none : Effect s c r (tick s)
  | pact (p : Nat) (h : p < 65536) (hs : s.pacts p = none) : Effect s c r (setPact s p (some ⟨[], false⟩))
  | push (p : Nat) (inner : PactInner) (i : Ixn) (hp : s.pacts p = some inner) (hi : i.uid = s.clock) :
      Effect s c r (setPact s p (some { inner with interactions := inner.interactions ++ [i] }))
  | replace (p : Nat) (inner : PactInner) (k : Nat) (i : Ixn) (hp : s.pacts p = some inner) (hi : i.uid = s.clock)
      (kd : Kind) (d : Str) (hc : c = .newInteraction kd p (some d)) (hr : r = .handle (newHandle p ((k + 1) % 65536))) :
      Effect s c r (setPact s p (some { inner with interactions := inner.interactions.set k i }))
  | edit (p : Nat) (inner : PactInner) (k : Nat) (i j : Ixn) (hp : s.pacts p = some inner)
      (hi : inner.interactions[k]? = some i) (hj : j.uid = i.uid) (hk : j.kind = i.kind) :
      Effect s c r (setPact s p (some { inner with interactions := inner.interactions.set k j }))
  | start (p : Nat) (inner : PactInner) (hp : s.pacts p = some inner) :
      Effect s c r (setPact s p (some { inner with started := true }))
  | free (p : Nat) (hc : c = .freePact p) : Effect s c r (setPact s p none)

theorem effect {checked : Bool} {s t : State} {c : Call} {r : Ret} (h : call checked s c = some (.ok (t, r))) :
    Effect s c r t := by
  cases c with
  | newPact id =>
    simp only [call] at h
    split at h
    · rename_i hh
      simp only [Option.some.injEq, Res.ok.injEq, Prod.mk.injEq] at h
      rw [← h.1]
      exact .pact id hh.1 hh.2
    · cases h
  | newInteraction k p d =>
    simp only [call, Option.some.injEq] at h
    cases hp : s.pacts p with
    | none =>
      simp only [hp, Res.ok.injEq, Prod.mk.injEq] at h
      rw [← h.1]
      exact .none
    | some inner =>
      cases d with
      | none =>
        simp only [hp, Res.ok.injEq, Prod.mk.injEq] at h
        rw [← h.1]
        exact .none
      | some d =>
        simp only [hp] at h
        cases hf : findDesc d inner.interactions with
        | none =>
          simp only [hf, Res.ok.injEq, Prod.mk.injEq] at h
          rw [← h.1]
          exact .push p inner _ hp rfl
        | some index =>
          simp only [hf, Res.ok.injEq, Prod.mk.injEq] at h
          rw [← h.1]
          exact .replace p inner index _ hp rfl k d rfl h.2.symm
  | newMessage p d =>
    simp only [call, Option.some.injEq] at h
    cases hp : s.pacts p with
    | none =>
      simp only [hp, Res.ok.injEq, Prod.mk.injEq] at h
      rw [← h.1]
      exact .none
    | some inner =>
      simp only [hp, Res.ok.injEq, Prod.mk.injEq] at h
      rw [← h.1]
      exact .push p inner _ hp rfl
  | newAsyncMessage p d =>
    simp only [call, Option.some.injEq] at h
    cases hp : s.pacts p with
    | none =>
      simp only [hp] at h
      obtain ⟨n, _, e⟩ := Res.map_eq_ok.1 h
      simp only [Prod.mk.injEq] at e
      rw [← e.1]
      exact .none
    | some inner =>
      simp only [hp] at h
      obtain ⟨n, _, e⟩ := Res.map_eq_ok.1 h
      simp only [Prod.mk.injEq] at e
      rw [← e.1]
      exact .push p inner _ hp rfl
  | uponReceiving hd d =>
    simp only [call, Option.some.injEq] at h
    obtain ⟨⟨t', b⟩, h1, e⟩ := Res.map_eq_ok.1 h
    simp only [Prod.mk.injEq] at e
    obtain ⟨rfl, -⟩ := e
    rcases withInteraction_cases h1 with rfl | ⟨inner, k, i, hp, hi, rfl⟩
    · exact .none
    · exact .edit _ inner k i _ hp hi rfl rfl
  | given hd d =>
    simp only [call, Option.some.injEq] at h
    obtain ⟨⟨t', b⟩, h1, e⟩ := Res.map_eq_ok.1 h
    simp only [Prod.mk.injEq] at e
    obtain ⟨rfl, -⟩ := e
    rcases withInteraction_cases h1 with rfl | ⟨inner, k, i, hp, hi, rfl⟩
    · exact .none
    · exact .edit _ inner k i _ hp hi rfl rfl
  | expectsToReceive hd d =>
    simp only [call, Option.some.injEq] at h
    obtain ⟨⟨t', b⟩, h1, e⟩ := Res.map_eq_ok.1 h
    simp only [Prod.mk.injEq] at e
    obtain ⟨rfl, -⟩ := e
    rcases withMessage_cases h1 with rfl | ⟨inner, k, i, hp, hi, rfl⟩
    · exact .none
    · exact .edit _ inner k i _ hp hi rfl rfl
  | messageGiven hd d =>
    simp only [call, Option.some.injEq] at h
    obtain ⟨⟨t', b⟩, h1, e⟩ := Res.map_eq_ok.1 h
    simp only [Prod.mk.injEq] at e
    obtain ⟨rfl, -⟩ := e
    rcases withMessage_cases h1 with rfl | ⟨inner, k, i, hp, hi, rfl⟩
    · exact .none
    · exact .edit _ inner k i _ hp hi rfl rfl
  | startServer p =>
    simp only [call, Option.some.injEq] at h
    cases hp : s.pacts p with
    | none =>
      simp only [hp, Res.ok.injEq, Prod.mk.injEq] at h
      rw [← h.1]
      exact .none
    | some inner =>
      simp only [hp, Res.ok.injEq, Prod.mk.injEq] at h
      rw [← h.1]
      exact .start p inner hp
  | freePact p =>
    simp only [call, Option.some.injEq] at h
    cases hp : s.pacts p with
    | none =>
      simp only [hp, Res.ok.injEq, Prod.mk.injEq] at h
      rw [← h.1]
      exact .none
    | some inner =>
      simp only [hp, Res.ok.injEq, Prod.mk.injEq] at h
      rw [← h.1]
      exact .free p rfl

theorem inv_call {checked : Bool} {s t : State} {c : Call} {r : Ret} (hi : Inv s)
    (h : call checked s c = some (.ok (t, r))) : Inv t := by
  cases effect h with
  | none => exact inv_tick hi
  | pact p hp hs => exact inv_set hi hp (by simp) (by simp)
  | push p inner i hp hu =>
    obtain ⟨a, b, c⟩ := hi p inner hp
    exact inv_set hi a (nodup_append_fresh b c hu) (mem_append_fresh c hu)
  | replace p inner k i hp hu _ _ _ _ =>
    obtain ⟨a, b, c⟩ := hi p inner hp
    exact inv_set hi a (nodup_set_fresh b c hu) (mem_set_fresh c hu)
  | edit p inner k i j hp hk hj _ =>
    obtain ⟨a, b, c⟩ := hi p inner hp
    refine inv_set hi a ?_ (mem_set_same c hk hj)
    simp only [uids_set hk hj]
    exact b
  | start p inner hp =>
    obtain ⟨a, b, c⟩ := hi p inner hp
    exact inv_set hi a b (fun i hi => Nat.lt_succ_of_lt (c i hi))
  | free p _ =>
    intro q inner hq
    by_cases e : q = p
    · simp [setPact, e] at hq
    · simp only [setPact, if_neg e] at hq
      obtain ⟨a, b, c⟩ := hi q inner hq
      exact ⟨a, b, fun i hi => Nat.lt_succ_of_lt (c i hi)⟩

theorem inv_run {checked : Bool} {s t : State} {l : List (Call × Ret)} (h : Run checked s l t) (hi : Inv s) : Inv t := by
  induction h with
  | nil _ => exact hi
  | cons hc _ ih => exact ih (inv_call hi hc)

theorem inv_init : Inv init := by
  intro p inner h
  cases h

/-- The interaction `u` of type `k` is at position `pos` of pact `p`. -/
def At (s : State) (p pos u : Nat) (k : Kind) : Prop :=
  ∃ inner i, s.pacts p = some inner ∧ inner.interactions[pos]? = some i ∧ i.uid = u ∧ i.kind = k

/-- A call keeps an interaction where it is, unless it frees the pact or replaces the interaction; a replacement
returns the handle of that position. -/
theorem at_call {checked : Bool} {s t : State} {c : Call} {r : Ret} {p pos u : Nat} {k : Kind} (ha : At s p pos u k)
    (h : call checked s c = some (.ok (t, r))) (hf : c ≠ .freePact p)
    (hr : ¬ ∃ kd d, c = .newInteraction kd p (some d) ∧ r = .handle (newHandle p ((pos + 1) % 65536))) :
    At t p pos u k := by
  obtain ⟨inner, i, hp, hpos, hu, hk⟩ := ha
  have other : ∀ (q : Nat) (x : Option PactInner), q ≠ p → At (setPact s q x) p pos u k := by
    intro q x hq
    exact ⟨inner, i, by simp [setPact, Ne.symm hq, hp], hpos, hu, hk⟩
  cases effect h with
  | none => exact ⟨inner, i, hp, hpos, hu, hk⟩
  | pact q hq hs =>
    by_cases e : q = p
    · subst e
      rw [hp] at hs
      cases hs
    · exact other q _ e
  | push q inner' j hq hj =>
    by_cases e : q = p
    · subst e
      rw [hp] at hq
      cases hq
      refine ⟨_, i, by simp [setPact]; rfl, ?_, hu, hk⟩
      simp only
      rw [List.getElem?_append_left (List.getElem?_eq_some_iff.1 hpos).1]
      exact hpos
    · exact other q _ e
  | replace q inner' n j hq hj kd d hc hrr =>
    by_cases e : q = p
    · subst e
      rw [hp] at hq
      cases hq
      have hn : n ≠ pos := by
        rintro rfl
        exact hr ⟨kd, d, hc, hrr⟩
      refine ⟨_, i, by simp [setPact]; rfl, ?_, hu, hk⟩
      simp only [List.getElem?_set_ne hn]
      exact hpos
    · exact other q _ e
  | edit q inner' n i' j hq hi' hj hjk =>
    by_cases e : q = p
    · subst e
      rw [hp] at hq
      cases hq
      by_cases hn : n = pos
      · subst hn
        rw [hpos] at hi'
        cases hi'
        refine ⟨_, j, by simp [setPact]; rfl, ?_, by rw [hj, hu], by rw [hjk, hk]⟩
        simp only
        rw [List.getElem?_set_self (List.getElem?_eq_some_iff.1 hpos).1]
      · refine ⟨_, i, by simp [setPact]; rfl, ?_, hu, hk⟩
        simp only [List.getElem?_set_ne hn]
        exact hpos
    · exact other q _ e
  | start q inner' hq =>
    by_cases e : q = p
    · subst e
      rw [hp] at hq
      cases hq
      exact ⟨{ inner with started := true }, i, by simp [setPact], hpos, hu, hk⟩
    · exact other q _ e
  | free q hq =>
    have : q ≠ p := by
      rintro rfl
      exact hf hq
    exact other q _ this

theorem at_run {checked : Bool} {s t : State} {l : List (Call × Ret)} {p pos u : Nat} {k : Kind}
    (h : Run checked s l t) (ha : At s p pos u k) (hf : ∀ r, (Call.freePact p, r) ∉ l)
    (hr : ∀ kd d, (Call.newInteraction kd p d, Ret.handle (newHandle p ((pos + 1) % 65536))) ∉ l) :
    At t p pos u k := by
  induction h with
  | nil _ => exact ha
  | cons hc _ ih =>
    rename_i c r l _
    apply ih
    · apply at_call ha hc
      · rintro rfl
        exact hf r (by simp)
      · rintro ⟨kd, d, rfl, rfl⟩
        exact hr kd (some d) (by simp)
    · intro r' hm
      exact hf r' (by simp [hm])
    · intro kd d hm
      exact hr kd d (by simp [hm])

theorem findDesc_lt {d : Str} {l : List Ixn} {k : Nat} (h : findDesc d l = some k) : k < l.length := by
  induction l generalizing k with
  | nil => simp [findDesc] at h
  | cons a as ih =>
    simp only [findDesc] at h
    split at h
    · simp only [Option.some.injEq] at h
      simp; omega
    · obtain ⟨j, hj, rfl⟩ := Option.map_eq_some_iff.1 h
      simp [ih hj]

/-- A creating call puts the new interaction at some position, and returns the handle of that position. -/
theorem created {checked : Bool} {s t : State} {c : Call} {k : Kind} {p h : Nat} (hs : (s.pacts p).isSome)
    (hp : p < 65536) (hc : Creates c k p) (hcall : call checked s c = some (.ok (t, .handle h))) :
    ∃ pos, At t p pos s.clock k ∧ (pos < 65535 → h = newHandle p (pos + 1)) := by
  obtain ⟨inner, hin⟩ := Option.isSome_iff_exists.1 hs
  rcases hc with ⟨d, rfl⟩ | ⟨d, rfl, rfl⟩ | ⟨d, rfl, rfl⟩
  · simp only [call, hin, Option.some.injEq] at hcall
    cases hf : findDesc d inner.interactions with
    | none =>
      simp only [hf, Res.ok.injEq, Prod.mk.injEq, Ret.handle.injEq] at hcall
      obtain ⟨rfl, rfl⟩ := hcall
      refine ⟨inner.interactions.length, ⟨_, fresh s k d, by simp [setPact]; rfl, by simp, rfl, rfl⟩, fun hl => ?_⟩
      rw [Nat.mod_eq_of_lt (by omega)]
    | some index =>
      simp only [hf, Res.ok.injEq, Prod.mk.injEq, Ret.handle.injEq] at hcall
      obtain ⟨rfl, rfl⟩ := hcall
      refine ⟨index, ⟨_, fresh s k d, by simp [setPact]; rfl, ?_, rfl, rfl⟩, fun hl => ?_⟩
      · simp only
        rw [List.getElem?_set_self (findDesc_lt hf)]
      · rw [Nat.mod_eq_of_lt (by omega)]
  · simp only [call, hin, Option.some.injEq, Res.ok.injEq, Prod.mk.injEq, Ret.handle.injEq] at hcall
    obtain ⟨rfl, rfl⟩ := hcall
    refine ⟨inner.interactions.length, ⟨_, fresh s .asyncMessage d, by simp [setPact]; rfl, by simp, rfl, rfl⟩, fun hl => ?_⟩
    rw [Nat.mod_eq_of_lt (by omega)]
  · simp only [call, hin, Option.some.injEq] at hcall
    obtain ⟨n, hn, e⟩ := Res.map_eq_ok.1 hcall
    simp only [Prod.mk.injEq, Ret.handle.injEq] at e
    obtain ⟨rfl, rfl⟩ := e
    refine ⟨inner.interactions.length, ⟨_, fresh s .asyncMessage d, by simp [setPact]; rfl, by simp, rfl, rfl⟩, fun hl => ?_⟩
    unfold newHandleV4 at hn
    simp only at hn
    rw [Nat.mod_eq_of_lt (by omega), if_pos (by omega)] at hn
    simp only [Res.ok.injEq] at hn
    rw [← hn]
    rfl

theorem set_eq_map {l : List Ixn} {pos : Nat} {i : Ixn} (f : Ixn → Ixn) (hn : (l.map (·.uid)).Nodup)
    (h : l[pos]? = some i) : l.set pos (f i) = l.map (fun j => if j.uid = i.uid then f j else j) := by
  induction l generalizing pos with
  | nil => simp at h
  | cons a as ih =>
    simp only [List.map_cons, List.nodup_cons] at hn
    cases pos with
    | zero =>
      simp only [List.getElem?_cons_zero, Option.some.injEq] at h
      subst h
      simp only [List.set_cons_zero, List.map_cons, if_true, List.cons.injEq, true_and]
      have : as.map (fun j => if j.uid = a.uid then f j else j) = as.map id := by
        apply List.map_congr_left
        intro j hj
        rw [if_neg]
        · rfl
        · intro e
          exact hn.1 (List.mem_map.2 ⟨j, hj, e⟩)
      rw [this, List.map_id]
    | succ n =>
      simp only [List.getElem?_cons_succ] at h
      have hne : a.uid ≠ i.uid := by
        intro e
        exact hn.1 (List.mem_map.2 ⟨i, List.mem_of_getElem? h, e.symm⟩)
      simp only [List.set_cons_succ, List.map_cons, if_neg hne]
      rw [ih hn.2 h]

theorem withInteraction_at {A : Type} {checked : Bool} {s : State} {p pos u : Nat} {k : Kind} (hi : Inv s)
    (ha : At s p pos u k) (hl : pos < 65535) (f : Ixn → Ixn) (g : Bool → Ixn → A) :
    ∃ t a, withInteraction checked s (newHandle p (pos + 1)) (fun b i => (f i, g b i)) = .ok (t, some a) ∧
      ChangedOnly s t p u f ∧ ∃ i, i ∈ ixns s p ∧ i.uid = u ∧ a = g (Started s p) i := by
  obtain ⟨inner, i, hp, hpos, hu, hk⟩ := ha
  obtain ⟨e1, e2⟩ := C40_unpack p (pos + 1) (by omega)
  refine ⟨setPact s p (some { inner with interactions := inner.interactions.set pos (f i) }), g inner.started i, ?_, ?_, ?_⟩
  · simp [withInteraction, e1, e2, hp, pred16, hpos]
  · refine ⟨?_, ?_, ?_, ?_⟩
    · simp only [ixns, setPact, if_true, hp]
      rw [set_eq_map f (hi p inner hp).2.1 hpos, hu]
    · simp [Started, setPact, hp]
    · simp [setPact, hp]
    · intro q hq
      simp [setPact, hq]
  · refine ⟨i, ?_, hu, ?_⟩
    · simp only [ixns, hp]
      exact List.mem_of_getElem? hpos
    · simp [Started, hp]

theorem withMessage_at {A : Type} {checked : Bool} {s : State} {p pos u : Nat} {k : Kind} (hi : Inv s)
    (ha : At s p pos u k) (hl : pos < 65535) (hm : k ≠ .http) (f : Ixn → Ixn) (g : Ixn → A) :
    ∃ t a, withMessage checked s (newHandle p (pos + 1)) (fun i => (f i, g i)) = .ok (t, some a) ∧
      ChangedOnly s t p u f := by
  obtain ⟨inner, i, hp, hpos, hu, hk⟩ := ha
  obtain ⟨e1, e2⟩ := C40_unpack p (pos + 1) (by omega)
  have hm' : i.kind.isMessage = true := by
    rw [hk]
    cases k <;> first | rfl | exact absurd rfl hm
  refine ⟨setPact s p (some { inner with interactions := inner.interactions.set pos (f i) }), g i, ?_, ?_⟩
  · simp [withMessage, e1, e2, hp, pred16, hpos, hm']
  · refine ⟨?_, ?_, ?_, ?_⟩
    · simp only [ixns, setPact, if_true, hp]
      rw [set_eq_map f (hi p inner hp).2.1 hpos, hu]
    · simp [Started, setPact, hp]
    · simp [setPact, hp]
    · intro q hq
      simp [setPact, hq]

theorem at_history {checked : Bool} {s t u : State} {l1 l2 : List (Call × Ret)} {c : Call} {k : Kind} {p h : Nat}
    (h1 : Run checked init l1 s) (hs : (s.pacts p).isSome) (hc : Creates c k p)
    (hcall : call checked s c = some (.ok (t, .handle h))) (h2 : Run checked t l2 u)
    (hf : ∀ r, (Call.freePact p, r) ∉ l2) (hr : ∀ kd d, (Call.newInteraction kd p d, Ret.handle h) ∉ l2)
    (hl : (ixns t p).length ≤ 65535) :
    ∃ pos, pos < 65535 ∧ h = newHandle p (pos + 1) ∧ At u p pos s.clock k := by
  obtain ⟨inner, hin⟩ := Option.isSome_iff_exists.1 hs
  have hp : p < 65536 := (inv_run h1 inv_init p inner hin).1
  obtain ⟨pos, ha, hh⟩ := created hs hp hc hcall
  have hpos : pos < 65535 := by
    obtain ⟨inner', i, hin', hi, -, -⟩ := ha
    have := (List.getElem?_eq_some_iff.1 hi).1
    simp only [ixns, hin'] at hl
    omega
  have hh' := hh hpos
  refine ⟨pos, hpos, hh', ?_⟩
  apply at_run h2 ha hf
  intro kd d
  rw [Nat.mod_eq_of_lt (by omega), ← hh']
  exact hr kd d

/-! ### C40: histories -/

/-- Take any history of calls from the empty table, in which a call created an interaction in an existing pact
that then had at most 65535 interactions, and returned handle `h`.  Whatever calls were made since, as long as
none freed the pact or returned the same handle again (a replacement by a new interaction of the same
description), a change through `h` changes the interaction created by that call and nothing else; the
interaction is there and has the type it was created with. -/
theorem C40_history_partial (checked : Bool) (s t u : State) (l1 l2 : List (Call × Ret)) (c : Call) (k : Kind) (p h : Nat)
    (h1 : Run checked init l1 s) (hs : (s.pacts p).isSome) (hc : Creates c k p)
    (hcall : call checked s c = some (.ok (t, .handle h))) (h2 : Run checked t l2 u)
    (hf : ∀ r, (Call.freePact p, r) ∉ l2) (hr : ∀ kd d, (Call.newInteraction kd p d, Ret.handle h) ∉ l2)
    (hl : (ixns t p).length ≤ 65535) (e : Call) (f : Ixn → Ixn) (he : Edits e h f) :
    (∃ i ∈ ixns u p, i.uid = s.clock ∧ i.kind = k) ∧
    ∃ v, call checked u e = some (.ok (v, .flag (!Started u p))) ∧ ChangedOnly u v p s.clock f := by
  obtain ⟨pos, hpos, rfl, ha⟩ := at_history h1 hs hc hcall h2 hf hr hl
  have hi : Inv u := inv_run h2 (inv_call (inv_run h1 inv_init) hcall)
  constructor
  · obtain ⟨inner, i, hp, hi, hu, hk⟩ := ha
    exact ⟨i, by simp only [ixns, hp]; exact List.mem_of_getElem? hi, hu, hk⟩
  · cases he with
    | description _ d =>
      obtain ⟨v, a, hw, hch, i, -, -, rfl⟩ := withInteraction_at (checked := checked) hi ha hpos
        (fun i => { i with desc := d }) (fun b _ => !b)
      refine ⟨v, ?_, hch⟩
      simp only [call]
      rw [hw]
      rfl
    | state _ st =>
      obtain ⟨v, a, hw, hch, i, -, -, rfl⟩ := withInteraction_at (checked := checked) hi ha hpos
        (fun i => { i with states := i.states ++ [st] }) (fun b _ => !b)
      refine ⟨v, ?_, hch⟩
      simp only [call]
      rw [hw]
      rfl

/-- The same for the functions that accept messages. -/
theorem C40_history_messages_partial (checked : Bool) (s t u : State) (l1 l2 : List (Call × Ret)) (c : Call) (k : Kind)
    (p h : Nat) (h1 : Run checked init l1 s) (hs : (s.pacts p).isSome) (hc : Creates c k p) (hk : k ≠ .http)
    (hcall : call checked s c = some (.ok (t, .handle h))) (h2 : Run checked t l2 u)
    (hf : ∀ r, (Call.freePact p, r) ∉ l2) (hr : ∀ kd d, (Call.newInteraction kd p d, Ret.handle h) ∉ l2)
    (hl : (ixns t p).length ≤ 65535) (e : Call) (f : Ixn → Ixn) (he : MessageEdits e h f) :
    ∃ v, call checked u e = some (.ok (v, .unit)) ∧ ChangedOnly u v p s.clock f := by
  obtain ⟨pos, hpos, rfl, ha⟩ := at_history h1 hs hc hcall h2 hf hr hl
  have hi : Inv u := inv_run h2 (inv_call (inv_run h1 inv_init) hcall)
  cases he with
  | description _ d =>
    obtain ⟨v, a, hw, hch⟩ := withMessage_at (checked := checked) hi ha hpos hk
      (fun i => { i with desc := d }) (fun _ => ())
    refine ⟨v, ?_, hch⟩
    simp only [call]
    rw [hw]
    rfl
  | state _ st =>
    obtain ⟨v, a, hw, hch⟩ := withMessage_at (checked := checked) hi ha hpos hk
      (fun i => { i with states := i.states ++ [st] }) (fun _ => ())
    refine ⟨v, ?_, hch⟩
    simp only [call]
    rw [hw]
    rfl

/-- An interaction of an earlier call was at the same position before. -/
theorem at_call_rev {checked : Bool} {s t : State} {c : Call} {r : Ret} {p pos u : Nat} {k : Kind} (ha : At t p pos u k)
    (h : call checked s c = some (.ok (t, r))) (hu : u < s.clock) : At s p pos u k := by
  obtain ⟨inner, i, hp, hpos, hiu, hk⟩ := ha
  have other : ∀ (q : Nat) (x : Option PactInner), t = setPact s q x → q ≠ p → At s p pos u k := by
    rintro q x rfl hq
    refine ⟨inner, i, ?_, hpos, hiu, hk⟩
    simpa [setPact, Ne.symm hq] using hp
  cases effect h with
  | none => exact ⟨inner, i, hp, hpos, hiu, hk⟩
  | pact q hq hs =>
    by_cases e : q = p
    · subst e
      simp only [setPact, if_true, Option.some.injEq] at hp
      subst hp
      simp at hpos
    · exact other q _ rfl e
  | push q inner' j hq hj =>
    by_cases e : q = p
    · subst e
      simp only [setPact, if_true, Option.some.injEq] at hp
      subst hp
      refine ⟨inner', i, hq, ?_, hiu, hk⟩
      simp only [List.getElem?_append] at hpos
      split at hpos
      · exact hpos
      · have hm := List.mem_of_getElem? hpos
        simp only [List.mem_singleton] at hm
        subst hm
        omega
    · exact other q _ rfl e
  | replace q inner' n j hq hj _ _ _ _ =>
    by_cases e : q = p
    · subst e
      simp only [setPact, if_true, Option.some.injEq] at hp
      subst hp
      refine ⟨inner', i, hq, ?_, hiu, hk⟩
      by_cases hn : n = pos
      · subst hn
        have hlt : n < inner'.interactions.length := by
          have := (List.getElem?_eq_some_iff.1 hpos).1
          simpa using this
        simp only [List.getElem?_set_self hlt, Option.some.injEq] at hpos
        subst hpos
        omega
      · simpa only [List.getElem?_set_ne hn] using hpos
    · exact other q _ rfl e
  | edit q inner' n i' j hq hi' hj hjk =>
    by_cases e : q = p
    · subst e
      simp only [setPact, if_true, Option.some.injEq] at hp
      subst hp
      by_cases hn : n = pos
      · subst hn
        have hlt : n < inner'.interactions.length := (List.getElem?_eq_some_iff.1 hi').1
        simp only [List.getElem?_set_self hlt, Option.some.injEq] at hpos
        subst hpos
        exact ⟨inner', i', hq, hi', by rw [← hj, hiu], by rw [← hjk, hk]⟩
      · refine ⟨inner', i, hq, ?_, hiu, hk⟩
        simpa only [List.getElem?_set_ne hn] using hpos
    · exact other q _ rfl e
  | start q inner' hq =>
    by_cases e : q = p
    · subst e
      simp only [setPact, if_true, Option.some.injEq] at hp
      subst hp
      exact ⟨inner', i, hq, hpos, hiu, hk⟩
    · exact other q _ rfl e
  | free q hq =>
    by_cases e : q = p
    · subst e
      simp [setPact] at hp
    · exact other q _ rfl e

theorem at_unique {s : State} {p a b u : Nat} {k l : Kind} (hi : Inv s) (h1 : At s p a u k) (h2 : At s p b u l) : a = b := by
  obtain ⟨inner, i, hp, ha, hu, -⟩ := h1
  obtain ⟨inner', j, hp', hb, hu', -⟩ := h2
  rw [hp] at hp'
  cases hp'
  have h1 : (inner.interactions.map (·.uid))[a]? = some u := by simp [ha, hu]
  have h2 : (inner.interactions.map (·.uid))[b]? = some u := by simp [hb, hu']
  exact (List.getElem?_inj (List.getElem?_eq_some_iff.1 h1).1 (hi p inner hp).2.1).1 (by rw [h1, h2])

/-- If a later call creates an interaction of the same pact and returns the same handle, with at most 65535
interactions, the earlier interaction is gone: the handles of two interactions of a pact are different. -/
theorem C40_distinct_partial (checked : Bool) (s t u v : State) (l1 l2 : List (Call × Ret)) (c d : Call) (k k' : Kind) (p h : Nat)
    (h1 : Run checked init l1 s) (hs : (s.pacts p).isSome) (hc : Creates c k p)
    (hcall : call checked s c = some (.ok (t, .handle h))) (h2 : Run checked t l2 u)
    (hf : ∀ r, (Call.freePact p, r) ∉ l2) (hr : ∀ kd d, (Call.newInteraction kd p d, Ret.handle h) ∉ l2)
    (hl : (ixns t p).length ≤ 65535) (hd : Creates d k' p) (hcall' : call checked u d = some (.ok (v, .handle h)))
    (hl' : (ixns v p).length ≤ 65535) : ∀ i ∈ ixns v p, i.uid ≠ s.clock := by
  obtain ⟨pos, hpos, hh, ha⟩ := at_history h1 hs hc hcall h2 hf hr hl
  have hi : Inv u := inv_run h2 (inv_call (inv_run h1 inv_init) hcall)
  obtain ⟨inner, i0, hin, hi0, hu0, -⟩ := id ha
  have hlt : s.clock < u.clock := by
    have := (hi p inner hin).2.2 i0 (List.mem_of_getElem? hi0)
    omega
  obtain ⟨pos', ha', hh'⟩ := created (by simp [hin]) (hi p inner hin).1 hd hcall'
  have hpos' : pos' < 65535 := by
    obtain ⟨inner'', j, hin'', hj, -, -⟩ := id ha'
    have := (List.getElem?_eq_some_iff.1 hj).1
    simp only [ixns, hin''] at hl'
    omega
  have heq : pos' = pos := by
    have h3 := (hh' hpos').symm.trans hh
    have h4 := (C40_injective _ _ _ _ (by omega) (by omega) h3).2
    omega
  subst heq
  intro i hm hui
  obtain ⟨inner'', j, hin'', hj, huj, -⟩ := id ha'
  simp only [ixns, hin''] at hm
  obtain ⟨m, hmm⟩ := List.getElem?_of_mem hm
  have ham : At v p m s.clock i.kind := ⟨inner'', i, hin'', hmm, hui, rfl⟩
  have e := at_unique hi (at_call_rev ham hcall' hlt) ha
  subst e
  rw [hj] at hmm
  cases hmm
  omega

/-! ### C40: where it fails -/

/-- A freed pact: changes through old handles fail and change nothing. -/
theorem C40_freed (checked : Bool) (s : State) (h : Nat) (st : Str) (hs : s.pacts (pactRef h) = none) :
    ∃ t, call checked s (.given h st) = some (.ok (t, .flag false)) ∧ t.pacts = s.pacts := by
  refine ⟨tick s, ?_, rfl⟩
  simp [call, withInteraction, hs]

/-- The handle returned when an interaction cannot be created (no description): using it panics in a build with
overflow checks if the pact exists; in other builds it changes nothing, provided the pact has no more than
65535 interactions. -/
theorem C40_failed_creation (s : State) (k : Kind) (p : Nat) (inner : PactInner) (st : Str)
    (hs : s.pacts p = some inner) :
    ∃ h, call true s (.newInteraction k p none) = some (.ok (tick s, .handle h)) ∧
      call false s (.newInteraction k p none) = some (.ok (tick s, .handle h)) ∧
      call true (tick s) (.given h st) = some .panic ∧
      (inner.interactions.length ≤ 65535 →
        ∃ t, call false (tick s) (.given h st) = some (.ok (t, .flag false)) ∧ t.pacts = s.pacts) := by
  obtain ⟨e1, e2⟩ := C40_unpack p 0 (by omega)
  refine ⟨newHandle p 0, by simp [call, hs], by simp [call, hs], ?_, ?_⟩
  · simp [call, withInteraction, e1, e2, tick, hs, pred16]
  · intro hl
    refine ⟨tick (tick s), ?_, rfl⟩
    have : inner.interactions[65535]? = none := List.getElem?_eq_none hl
    simp [call, withInteraction, e1, e2, tick, hs, pred16, this]

theorem findDesc_none {d : Str} {l : List Ixn} (h : ∀ i ∈ l, i.desc ≠ d) : findDesc d l = none := by
  induction l with
  | nil => rfl
  | cons a as ih =>
    simp only [findDesc, if_neg (h a (by simp)), ih (fun i hi => h i (by simp [hi]))]
    rfl

/-- For every `n` there is a history after which a pact has `n` interactions, described by their numbers. -/
theorem reach_many (checked : Bool) (p : Nat) (hp : p < 65536) : ∀ n : Nat, ∃ l s inner, Run checked init l s ∧
    s.pacts p = some inner ∧ inner.started = false ∧ inner.interactions.length = n ∧
    ∀ i ∈ inner.interactions, ∃ m < n, i.desc = natStr m := by
  have run_snoc : ∀ {s t u : State} {l : List (Call × Ret)} {c : Call} {r : Ret}, Run checked s l t →
      call checked t c = some (.ok (u, r)) → Run checked s (l ++ [(c, r)]) u := by
    intro s t u l c r h
    induction h with
    | nil s => intro hc; exact .cons hc (.nil _)
    | cons h1 _ ih => intro hc; exact .cons h1 (ih hc)
  intro n
  induction n with
  | zero =>
    refine ⟨[(.newPact p, .pact p)], setPact init p (some ⟨[], false⟩), ⟨[], false⟩, ?_, by simp [setPact], rfl, rfl, by simp⟩
    exact .cons (by simp [call, hp, init]) (.nil _)
  | succ n ih =>
    obtain ⟨l, s, inner, hrun, hs, hst, hl, hd⟩ := ih
    have hf : findDesc (natStr n) inner.interactions = none := by
      apply findDesc_none
      intro i hi he
      obtain ⟨m, hm, hdm⟩ := hd i hi
      rw [hdm] at he
      have := natStr_injective he
      omega
    refine ⟨_, _, { inner with interactions := inner.interactions ++ [fresh s .http (natStr n)] }, run_snoc hrun
      (c := .newInteraction .http p (some (natStr n))) (by simp only [call, hs, hf]; rfl), by simp [setPact], hst, by simp [hl], ?_⟩
    intro i hi
    rcases List.mem_append.1 hi with h | h
    · obtain ⟨m, hm, e⟩ := hd i h
      exact ⟨m, by omega, e⟩
    · simp only [List.mem_singleton] at h
      subst h
      exact ⟨n, by omega, rfl⟩

/-- With more interactions the handles repeat: there are histories after which a new interaction (the 65537th)
gets the handle of the first one, which is still there, so that changes through it change the first
interaction and not the new one. -/
theorem C40_alias (checked : Bool) (p : Nat) (hp : p < 65536) (st : Str) :
    ∃ l s t v, Run checked init l s ∧ (ixns s p).length = 65536 ∧
      call checked s (.newInteraction .http p (some (natStr 65536))) = some (.ok (t, .handle (newHandle p 1))) ∧
      call checked t (.given (newHandle p 1) st) = some (.ok (v, .flag true)) ∧
      (∃ i ∈ ixns v p, i.uid = s.clock ∧ i.states = []) := by
  obtain ⟨N, hN⟩ : ∃ N : Nat, N = 65536 := ⟨_, rfl⟩
  rw [← hN]
  obtain ⟨l, s, inner, hrun, hs, hst, hl, hd⟩ := reach_many checked p hp N
  have hf : findDesc (natStr N) inner.interactions = none := by
    apply findDesc_none
    intro i hi he
    obtain ⟨m, hm, hdm⟩ := hd i hi
    rw [hdm] at he
    have := natStr_injective he
    omega
  obtain ⟨e1, e2⟩ := C40_unpack p 1 (by omega)
  have hmod : (inner.interactions.length + 1) % 65536 = 1 := by omega
  cases hint : inner.interactions with
  | nil => simp [hint] at hl; omega
  | cons a as =>
    rw [hint] at hf hmod hl
    refine ⟨l, s, setPact s p (some { inner with interactions := a :: as ++ [fresh s .http (natStr N)] }),
      setPact (setPact s p (some { inner with interactions := a :: as ++ [fresh s .http (natStr N)] })) p
        (some { inner with interactions := { a with states := a.states ++ [st] } :: (as ++ [fresh s .http (natStr N)]) }),
      hrun, by simp only [ixns, hs, hint]; exact hl, ?_, ?_, ?_⟩
    · simp only [call, hs, hint, hf, hmod]
    · simp [call, withInteraction, e1, e2, pred16, setPact, hst]
    · exact ⟨fresh s .http (natStr N), by simp [ixns, setPact], rfl, rfl⟩

/-- A message created by `pactffi_new_async_message` as number 65536 + k of its pact gets a handle into another
pact: the one numbered one higher. -/
theorem C40_v4_other_pact (checked : Bool) (s : State) (p k : Nat) (inner : PactInner) (d : Str) (hp : p < 65535)
    (hk : k < 65536) (hs : s.pacts p = some inner) (hl : inner.interactions.length + 1 = 65536 + k) :
    ∃ t, call checked s (.newAsyncMessage p d) = some (.ok (t, .handle (newHandle (p + 1) k))) := by
  have : newHandleV4 checked p (inner.interactions.length + 1) = .ok (newHandle (p + 1) k) := by
    unfold newHandleV4 newHandle
    have e : p * 65536 + (inner.interactions.length + 1) % 4294967296 = (p + 1) * 65536 + k := by omega
    rw [e]
    exact if_pos (by omega)
  exact ⟨_, by simp only [call, hs, this, Res.map_ok]; rfl⟩

/-- After a pact was freed its number can be drawn again: an old handle then changes an interaction of the new
pact. -/
theorem C40_reuse (checked : Bool) (p : Nat) (hp : p < 65536) (a b st : Str) :
    ∃ s v h, Run checked init [(.newPact p, .pact p), (.newInteraction .http p (some a), .handle h),
        (.freePact p, .code 0), (.newPact p, .pact p), (.newInteraction .http p (some b), .handle h)] s ∧
      call checked s (.given h st) = some (.ok (v, .flag true)) ∧
      (ixns v p).map (fun i => (i.desc, i.states)) = [(b, [st])] := by
  obtain ⟨e1, e2⟩ := C40_unpack p 1 (by omega)
  have hh : newHandle p 1 = newHandle p ((0 + 1) % 65536) := rfl
  let s1 := setPact init p (some ⟨[], false⟩)
  let s2 := setPact s1 p (some ⟨[fresh s1 .http a], false⟩)
  let s3 := setPact s2 p none
  let s4 := setPact s3 p (some ⟨[], false⟩)
  let s5 := setPact s4 p (some ⟨[fresh s4 .http b], false⟩)
  have c1 : call checked init (.newPact p) = some (.ok (s1, .pact p)) := by simp [call, hp, init, s1]
  have c2 : call checked s1 (.newInteraction .http p (some a)) = some (.ok (s2, .handle (newHandle p 1))) := by
    simp [call, s1, s2, setPact, findDesc]
  have c3 : call checked s2 (.freePact p) = some (.ok (s3, .code 0)) := by simp [call, s2, s3, setPact]
  have c4 : call checked s3 (.newPact p) = some (.ok (s4, .pact p)) := by simp [call, hp, s3, s4, setPact]
  have c5 : call checked s4 (.newInteraction .http p (some b)) = some (.ok (s5, .handle (newHandle p 1))) := by
    simp [call, s4, s5, setPact, findDesc]
  refine ⟨s5, setPact s5 p (some ⟨[{ fresh s4 .http b with states := [st] }], false⟩), newHandle p 1,
    .cons c1 (.cons c2 (.cons c3 (.cons c4 (.cons c5 (.nil _))))), ?_, ?_⟩
  · simp [call, withInteraction, e1, e2, s5, setPact, pred16, fresh]
  · simp [ixns, setPact, fresh]

/-! ### C62: the returned flag -/

theorem given_cases {checked : Bool} {s t : State} {h : Nat} {st : Str} {b : Bool}
    (hc : call checked s (.given h st) = some (.ok (t, .flag b))) :
    (b = false ∧ t = tick s) ∨ ∃ inner k i, s.pacts (pactRef h) = some inner ∧ inner.interactions[k]? = some i ∧
      pred16 checked (ixnRef h) = .ok k ∧ b = !inner.started ∧ t = setPact s (pactRef h)
        (some { inner with interactions := inner.interactions.set k { i with states := i.states ++ [st] } }) := by
  simp only [call, Option.some.injEq] at hc
  obtain ⟨⟨t', r⟩, hw, e⟩ := Res.map_eq_ok.1 hc
  simp only [Prod.mk.injEq, Ret.flag.injEq] at e
  obtain ⟨rfl, rfl⟩ := e
  unfold withInteraction at hw
  cases hp : s.pacts (pactRef h) with
  | none =>
    simp only [hp, Res.ok.injEq, Prod.mk.injEq] at hw
    obtain ⟨rfl, rfl⟩ := hw
    exact Or.inl ⟨rfl, rfl⟩
  | some inner =>
    simp only [hp] at hw
    obtain ⟨k, hk, e⟩ := Res.map_eq_ok.1 hw
    cases hi : inner.interactions[k]? with
    | none =>
      simp only [hi, Prod.mk.injEq] at e
      obtain ⟨rfl, rfl⟩ := e
      exact Or.inl ⟨rfl, rfl⟩
    | some i =>
      simp only [hi, Prod.mk.injEq] at e
      obtain ⟨rfl, rfl⟩ := e
      exact Or.inr ⟨inner, k, i, rfl, hi, hk, rfl, rfl⟩

/-- The flag says whether the interaction was found and the mock server of its pact was not started. -/
theorem C62_flag_partial (checked : Bool) (s t : State) (h : Nat) (st : Str) (b : Bool)
    (hc : call checked s (.given h st) = some (.ok (t, .flag b))) :
    b = true ↔ Started s (pactRef h) = false ∧ t.pacts ≠ s.pacts := by
  rcases given_cases hc with ⟨rfl, rfl⟩ | ⟨inner, k, i, hp, hi, -, rfl, rfl⟩
  · simp [tick]
  · simp only [Started, hp, Bool.not_eq_true']
    refine ⟨fun hb => ⟨hb, fun he => ?_⟩, fun hb => hb.1⟩
    have h2 := congrFun he (pactRef h)
    simp only [setPact, if_true, hp, Option.some.injEq] at h2
    have h3 : (inner.interactions.set k { i with states := i.states ++ [st] })[k]? = inner.interactions[k]? := by
      rw [show inner.interactions.set k { i with states := i.states ++ [st] } = inner.interactions from
        congrArg PactInner.interactions h2]
    rw [List.getElem?_set_self (List.getElem?_eq_some_iff.1 hi).1, hi] at h3
    have h4 := congrArg (fun o : Option Ixn => o.map (fun i => i.states.length)) h3
    simp at h4

/-- A call that returns false because the mock server was started has modified the interaction nevertheless. -/
theorem C62_modified_after_start (checked : Bool) (s : State) (p pos : Nat) (inner : PactInner) (i : Ixn) (st : Str)
    (hs : s.pacts p = some inner) (hst : inner.started = true) (hpos : pos < 65535)
    (hi : inner.interactions[pos]? = some i) :
    ∃ t, call checked s (.given (newHandle p (pos + 1)) st) = some (.ok (t, .flag false)) ∧
      (ixns t p)[pos]? = some { i with states := i.states ++ [st] } := by
  obtain ⟨e1, e2⟩ := C40_unpack p (pos + 1) (by omega)
  have hlt := (List.getElem?_eq_some_iff.1 hi).1
  refine ⟨setPact s p (some { inner with interactions := inner.interactions.set pos { i with states := i.states ++ [st] } }), ?_, ?_⟩
  · simp [call, withInteraction, e1, e2, hs, pred16, hi, hst]
  · simp only [ixns, setPact, if_true]
    rw [List.getElem?_set_self hlt]

/-- If the interaction does not exist the call returns false and changes nothing. -/
theorem C62_not_found (checked : Bool) (s t : State) (h : Nat) (st : Str) (b : Bool)
    (hc : call checked s (.given h st) = some (.ok (t, .flag b)))
    (hn : (ixns s (pactRef h))[ixnRef h - 1]? = none) (h0 : ixnRef h ≠ 0) : b = false ∧ t.pacts = s.pacts := by
  rcases given_cases hc with ⟨rfl, rfl⟩ | ⟨inner, k, i, hp, hi, hk, -, -⟩
  · exact ⟨rfl, rfl⟩
  · exfalso
    simp only [pred16, if_neg h0, Res.ok.injEq] at hk
    subst hk
    simp only [ixns, hp, hi] at hn
    cases hn

/-! Concrete histories. -/

example : ∃ s, Run true init [(.newPact 7, .pact 7), (.newInteraction .http 7 (some ['a']), .handle (newHandle 7 1)),
    (.newMessage 7 ['b'], .handle (newHandle 7 2)), (.given (newHandle 7 1) ['s'], .flag true),
    (.startServer 7, .unit), (.given (newHandle 7 1) ['t'], .flag false)] s ∧
    ixns s 7 = [⟨1, .http, ['a'], [['s'], ['t']]⟩, ⟨2, .asyncMessage, ['b'], []⟩] :=
  ⟨_, .cons rfl (.cons rfl (.cons rfl (.cons rfl (.cons rfl (.cons rfl (.nil _)))))), rfl⟩
example : Creates (.newAsyncMessage 7 ['b']) .asyncMessage 7 := Or.inr (Or.inr ⟨_, rfl, rfl⟩)
example : Edits (.given 3 ['x']) 3 (fun i => { i with states := i.states ++ [['x']] }) := .state 3 ['x']


end HandleProps
end Verif
