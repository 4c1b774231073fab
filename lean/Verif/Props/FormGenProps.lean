import Verif.Props.FormProps
import Verif.Props.PatternProps

/-
  C102: generators for form bodies.
-/

set_option autoImplicit false

namespace Verif
namespace FormProps
open Form Path Rules Matchers Compare Query MatchResult
open PactFile (utf8)

/-! ## C102: generated values in forms -/

/-! ### Specification -/

/-- A name that is not a wildcard and not a number. -/
def Name (k : Str) : Prop := k ≠ ['*'] ∧ k ≠ ['[', '*', ']'] ∧ parseUsize k = none

/-- The generator path `$.k` addresses the first value of `k`, `$.k[i]` the value number `i`. -/
inductive Addresses : DocPath → Str → Nat → Prop where
  | first (k : Str) : Name k → Addresses (fromTokens [.root, .field k]) k 0
  | item (k : Str) (i : Nat) : Name k → Addresses (fromTokens [.root, .field k, .index i]) k i

/-- Position `j` of the form holds the value `v`, the value number `i` of the name `k`. -/
def ValueAt (ps : Params) (j : Nat) (k : Str) (i : Nat) (v : Str) : Prop :=
  ps[j]? = some (k, v) ∧ ((ps.take j).filter fun p => p.1 = k).length = i

/-- What a generator makes of a value: the value stays if it fails. -/
def generated (g : FGen) (v : Str) : Str := (g.gen v).getD v

/-! ### Proofs -/

theorem join_tokens (k : Str) : ∃ t, join rootPath k = fromTokens [.root, t] ∧
    ((Name k ∧ t = .field k) ∨ (¬ Name k ∧ ∀ n, t ≠ .field n)) := by
  rw [PatternProps.rootPath_tokens]
  unfold join
  split
  · rename_i h
    refine ⟨.star, ?_, Or.inr ⟨fun hn => hn.1 h, by intro n; simp⟩⟩
    rw [PatternProps.pushStar_push, PatternProps.fromTokens_snoc]; rfl
  · split
    · rename_i h
      refine ⟨.starIndex, ?_, Or.inr ⟨fun hn => hn.2.1 h, by intro n; simp⟩⟩
      rw [PatternProps.pushStarIndex_push, PatternProps.fromTokens_snoc]; rfl
    · cases hp : parseUsize k with
      | some i =>
        refine ⟨.index i, ?_, Or.inr ⟨(fun hn => by have h3 := hn.2.2; rw [hp] at h3; cases h3), (by intro n; simp)⟩⟩
        show pushIndex _ i = _
        rw [PatternProps.pushIndex_push, PatternProps.fromTokens_snoc]; rfl
      | none =>
        rename_i h1 h2
        refine ⟨.field k, ?_, Or.inl ⟨⟨h1, h2, hp⟩, rfl⟩⟩
        show pushField _ k = _
        rw [PatternProps.pushField_push, PatternProps.fromTokens_snoc]; rfl

theorem joinIndex_field (k : Str) (i : Nat) :
    joinIndex (fromTokens [.root, .field k]) i = fromTokens [.root, .field k, .index i] := by
  have : (fromTokens [.root, .field k]).tokens.getLast? = some (.field k) := rfl
  unfold joinIndex
  rw [this]
  show pushIndex _ i = _
  rw [PatternProps.pushIndex_push, PatternProps.fromTokens_snoc]
  rfl

theorem eqPath_tokens (ts ts' : List PathToken) : eqPath (fromTokens ts) (fromTokens ts') = decide (ts = ts') := by
  by_cases h : ts = ts'
  · rw [decide_eq_true h]; exact (PathProps.C03_expr_injective ts ts').2 h
  · rw [decide_eq_false h]
    cases he : eqPath (fromTokens ts) (fromTokens ts') with
    | false => rfl
    | true => exact absurd ((PathProps.C03_expr_injective ts ts').1 he) h

theorem joinIndex_other {t : PathToken} (ht : ∀ n, t ≠ .field n) (i : Nat) :
    ∃ ts, joinIndex (fromTokens [.root, t]) i = fromTokens ts ∧ ∀ n, PathToken.field n ∉ ts := by
  unfold joinIndex
  have hl : (fromTokens [.root, t]).tokens.getLast? = some t := rfl
  rw [hl]
  cases t with
  | root => exact ⟨[.root, .root, .index i], by rw [PatternProps.pushIndex_push, PatternProps.fromTokens_snoc]; rfl, by simp⟩
  | field n => exact absurd rfl (ht n)
  | index m => exact ⟨[.root, .index m, .index i], by rw [PatternProps.pushIndex_push, PatternProps.fromTokens_snoc]; rfl, by simp⟩
  | star => exact ⟨[.root, .index i], rfl, by simp⟩
  | starIndex => exact ⟨[.root, .index i], rfl, by simp⟩

/-- Whether a generator path means the value number `n` of the name `k'`; the path `$.k` means all of them. -/
theorem isTarget_first {k : Str} (h : Name k) (k' : Str) (n : Nat) :
    isTarget (fromTokens [.root, .field k]) k' n = decide (k' = k) := by
  unfold isTarget
  obtain ⟨t, e, ⟨h', rfl⟩ | ⟨h', ht⟩⟩ := join_tokens k'
  · rw [e, joinIndex_field, eqPath_tokens, eqPath_tokens]
    simp [eq_comm]
  · obtain ⟨ts, e2, hts⟩ := joinIndex_other ht n
    have hk : k' ≠ k := fun e => h' (e ▸ h)
    rw [e, e2, eqPath_tokens, eqPath_tokens]
    have h1 : ([.root, .field k] : List PathToken) ≠ [.root, t] := by
      intro e3; simp at e3; exact ht k e3.symm
    have h2 : ([.root, .field k] : List PathToken) ≠ ts := by
      intro e3; exact hts k (by rw [← e3]; simp)
    simp [h1, h2, hk]

theorem isTarget_item {k : Str} (h : Name k) (i : Nat) (k' : Str) (n : Nat) :
    isTarget (fromTokens [.root, .field k, .index i]) k' n = decide (k' = k ∧ n = i) := by
  unfold isTarget
  obtain ⟨t, e, ⟨h', rfl⟩ | ⟨h', ht⟩⟩ := join_tokens k'
  · rw [e, joinIndex_field, eqPath_tokens, eqPath_tokens]
    simp [eq_comm]
  · obtain ⟨ts, e2, hts⟩ := joinIndex_other ht n
    have hk : k' ≠ k := fun e => h' (e ▸ h)
    rw [e, e2, eqPath_tokens, eqPath_tokens]
    have h1 : ([.root, .field k, .index i] : List PathToken) ≠ [.root, t] := by simp
    have h2 : ([.root, .field k, .index i] : List PathToken) ≠ ts := by
      intro e3; exact hts k (by rw [← e3]; simp)
    simp [h1, h2, hk]

/-- The names and their order never change. -/
theorem applyFrom_names (key : DocPath) (g : FGen) (seen : List Str) (ps : Params) :
    (applyFrom key g seen ps).map (·.1) = ps.map (·.1) := by
  induction ps generalizing seen with
  | nil => rfl
  | cons p ps ih =>
    obtain ⟨k, v⟩ := p
    rw [applyFrom]
    split
    · rfl
    · simp only [List.map_cons, ih]

/-- Helper: one parameter after the generator, when it is the value number `n`. -/
def setAt (k : Str) (i : Nat) (g : FGen) (n : Nat) (p : Str × Str) : Str × Str :=
  if p.1 = k ∧ n = i then (p.1, generated g p.2) else p

theorem applyFrom_at {key : DocPath} {k : Str} {i : Nat} (h : Addresses key k i) (g : FGen) (seen : List Str)
    (ps : Params) (hs : seen.count k ≤ i) (j : Nat) :
    (applyFrom key g seen ps)[j]? =
      (ps[j]?).map (setAt k i g (seen.count k + ((ps.take j).filter fun q => q.1 = k).length)) := by
  have hsame : ∀ (ps : Params) (n : Nat) , n > i → ∀ j : Nat, ps[j]? = (ps[j]?).map (setAt k i g n) := by
    intro ps n hn j
    cases hp : ps[j]? with
    | none => rfl
    | some p => rw [Option.map_some, setAt, if_neg (by omega)]
  have hkey : ∀ k' n, isTarget key k' n = true → k' = k ∧ (n = i ∨ i = 0) := by
    intro k' n ht
    cases h with
    | first k hk => rw [isTarget_first hk] at ht; exact ⟨by simpa using ht, Or.inr rfl⟩
    | item k i hk => rw [isTarget_item hk] at ht; have := of_decide_eq_true ht; exact ⟨this.1, Or.inl this.2⟩
  have hkey' : isTarget key k i = true := by
    cases h with
    | first k hk => rw [isTarget_first hk]; simp
    | item k i hk => rw [isTarget_item hk]; simp
  induction ps generalizing seen j with
  | nil => simp [applyFrom]
  | cons p ps ih =>
    obtain ⟨k', v⟩ := p
    rw [applyFrom]
    cases ht : isTarget key k' (seen.count k') with
    | true =>
      rw [if_pos rfl]
      obtain ⟨rfl, hn⟩ := hkey _ _ ht
      have hc : seen.count k' = i := by omega
      cases j with
      | zero => simp [hc, generated, setAt]
      | succ j =>
        simp only [List.getElem?_cons_succ, List.take_succ_cons]
        rw [List.filter_cons, if_pos (by simp), List.length_cons, hc]
        exact hsame ps _ (by omega) j
    | false =>
      rw [if_neg (by simp)]
      have hne : k' = k → seen.count k ≠ i := by
        rintro rfl e
        rw [e, hkey'] at ht
        cases ht
      have hc : (k' :: seen).count k = seen.count k + (if k' = k then 1 else 0) := by
        rw [List.count_cons]
        by_cases e : k' = k <;> simp [e]
      have hs' : (k' :: seen).count k ≤ i := by
        rw [hc]
        split
        · rename_i e; have := hne e; omega
        · omega
      cases j with
      | zero =>
        simp only [List.getElem?_cons_zero, Option.map_some, List.take_zero, List.filter_nil, List.length_nil, Nat.add_zero]
        rw [setAt, if_neg (fun e => hne e.1 e.2)]
      | succ j =>
        simp only [List.getElem?_cons_succ, List.take_succ_cons]
        rw [ih _ hs' j]
        rw [hc, List.filter_cons]
        by_cases e : k' = k
        · rw [if_pos e, if_pos (by simp [e]), List.length_cons, Nat.add_assoc, Nat.add_comm 1]
        · rw [if_neg e, if_neg (by simp [e])]
          rfl

theorem take_names {ps qs : Params} (h : ps.map (·.1) = qs.map (·.1)) (j : Nat) (k : Str) :
    ((ps.take j).filter fun p => p.1 = k).length = ((qs.take j).filter fun p => p.1 = k).length := by
  have key : ∀ ps : Params, (ps.filter fun p => p.1 = k).length = ((ps.map (·.1)).filter fun n => n = k).length := by
    intro ps
    induction ps with
    | nil => rfl
    | cons p ps ih =>
      rw [List.map_cons, List.filter_cons, List.filter_cons]
      by_cases e : p.1 = k <;> simp [e, ih]
  rw [key, key, List.map_take, List.map_take, h]

/-- **C102**: whatever the generators, no name and no value is added, removed or moved. -/
theorem C102_names (gs : List (DocPath × FGen)) (ps : Params) : (applyAll gs ps).map (·.1) = ps.map (·.1) := by
  unfold applyAll
  induction gs generalizing ps with
  | nil => rfl
  | cons e gs ih =>
    rw [List.foldl_cons, ih]
    split
    · exact applyFrom_names _ _ _ _
    · rfl

/-- **C102**: a generator changes the value it addresses and nothing else. -/
theorem C102_one {key : DocPath} {k : Str} {i : Nat} (h : Addresses key k i) (g : FGen) (ps : Params) (j : Nat)
    (k' : Str) (n : Nat) (v : Str) (hv : ValueAt ps j k' n v) :
    ValueAt (applyKey key g ps) j k' n (if k' = k ∧ n = i then generated g v else v) := by
  obtain ⟨h1, h2⟩ := hv
  constructor
  · unfold applyKey
    rw [applyFrom_at h g [] ps (by simp) j, h1]
    simp only [Option.map_some, List.count_nil, Nat.zero_add, setAt]
    by_cases e : k' = k
    · subst e
      rw [h2]
      by_cases e2 : n = i <;> simp [e2]
    · simp [e]
  · rw [← h2]
    exact take_names (applyFrom_names _ _ _ _) j k'

/-- **C102**: with several generators that address different values, each value addressed by a generator is the generated
one, all others stay. -/
theorem C102_all (gs : List (DocPath × FGen)) (at_ : DocPath → Str × Nat)
    (ha : ∀ e ∈ gs, Addresses e.1 (at_ e.1).1 (at_ e.1).2) (hd : (gs.map fun e => at_ e.1).Nodup)
    (ps : Params) (j : Nat) (k : Str) (n : Nat) (v : Str) (hv : ValueAt ps j k n v) :
    (∀ e ∈ gs, e.2.applies = true → at_ e.1 = (k, n) → ValueAt (applyAll gs ps) j k n (generated e.2 v)) ∧
    ((∀ e ∈ gs, e.2.applies = true → at_ e.1 ≠ (k, n)) → ValueAt (applyAll gs ps) j k n v) := by
  unfold applyAll
  induction gs generalizing ps v with
  | nil => exact ⟨by simp, fun _ => hv⟩
  | cons e gs ih =>
    rw [List.map_cons, List.nodup_cons] at hd
    rw [List.foldl_cons]
    have ha' := fun e' he' => ha e' (List.mem_cons_of_mem _ he')
    have hae := ha e (by simp)
    by_cases hap : e.2.applies = true
    · rw [if_pos hap]
      have hone := C102_one hae e.2 ps j k n v hv
      by_cases ht : at_ e.1 = (k, n)
      · rw [ht] at hone
        rw [if_pos ⟨rfl, rfl⟩] at hone
        have hno : ∀ e' ∈ gs, at_ e'.1 ≠ (k, n) := by
          intro e' he' hh
          exact hd.1 (List.mem_map.2 ⟨e', he', hh.trans ht.symm⟩)
        have hfin := (ih ha' hd.2 _ _ hone).2 (fun e' he' _ => hno e' he')
        refine ⟨?_, fun hh => absurd ht (hh e (by simp) hap)⟩
        intro e' he' hap' ht'
        rcases List.mem_cons.1 he' with rfl | he''
        · exact hfin
        · exact absurd ht' (hno e' he'')
      · rw [if_neg (by rintro ⟨rfl, rfl⟩; exact ht rfl)] at hone
        obtain ⟨i1, i2⟩ := ih ha' hd.2 _ _ hone
        refine ⟨?_, fun hh => i2 (fun e' he' => hh e' (List.mem_cons_of_mem _ he'))⟩
        intro e' he' hap' ht'
        rcases List.mem_cons.1 he' with rfl | he''
        · exact absurd ht' ht
        · exact i1 e' he'' hap' ht'
    · rw [if_neg hap]
      obtain ⟨i1, i2⟩ := ih ha' hd.2 _ _ hv
      refine ⟨?_, fun hh => i2 (fun e' he' => hh e' (List.mem_cons_of_mem _ he'))⟩
      intro e' he' hap' ht'
      rcases List.mem_cons.1 he' with rfl | he''
      · exact absurd hap' hap
      · exact i1 e' he'' hap' ht'

theorem applyAll_length (gs : List (DocPath × FGen)) (ps : Params) : (applyAll gs ps).length = ps.length := by
  have := congrArg List.length (C102_names gs ps)
  simpa using this

/-- **C102**: the order in which the generators are taken from their table does not matter. -/
theorem C102_order (gs gs' : List (DocPath × FGen)) (hp : gs.Perm gs') (at_ : DocPath → Str × Nat)
    (ha : ∀ e ∈ gs, Addresses e.1 (at_ e.1).1 (at_ e.1).2) (hd : (gs.map fun e => at_ e.1).Nodup) (ps : Params) :
    applyAll gs ps = applyAll gs' ps := by
  have ha' : ∀ e ∈ gs', Addresses e.1 (at_ e.1).1 (at_ e.1).2 := fun e he => ha e (hp.mem_iff.2 he)
  have hd' : (gs'.map fun e => at_ e.1).Nodup := ((hp.map _).nodup_iff).1 hd
  apply List.ext_getElem?
  intro j
  by_cases hj : j < ps.length
  · have hv : ValueAt ps j ps[j].1 (((ps.take j).filter fun p => p.1 = ps[j].1).length) ps[j].2 :=
      ⟨List.getElem?_eq_getElem hj, rfl⟩
    by_cases hex : ∃ e ∈ gs, e.2.applies = true ∧ at_ e.1 = (ps[j].1, ((ps.take j).filter fun p => p.1 = ps[j].1).length)
    · obtain ⟨e, he, h1, h2⟩ := hex
      have r1 := (C102_all gs at_ ha hd ps j _ _ _ hv).1 e he h1 h2
      have r2 := (C102_all gs' at_ ha' hd' ps j _ _ _ hv).1 e (hp.mem_iff.1 he) h1 h2
      rw [r1.1, r2.1]
    · have r1 := (C102_all gs at_ ha hd ps j _ _ _ hv).2 (fun e he h1 h2 => hex ⟨e, he, h1, h2⟩)
      have r2 := (C102_all gs' at_ ha' hd' ps j _ _ _ hv).2 (fun e he h1 h2 => hex ⟨e, hp.mem_iff.2 he, h1, h2⟩)
      rw [r1.1, r2.1]
  · rw [List.getElem?_eq_none (by rw [applyAll_length]; omega), List.getElem?_eq_none (by rw [applyAll_length]; omega)]

/-- **C102**: the generated body is a form with exactly these parameters. -/
theorem C102_body (bad : Bytes → Str) (gs : List (DocPath × FGen)) (body : Body) (b : Bytes) (ps : Params)
    (hb : body.value = some b) (hs : Spelled b ps) : Spelled (generateForm bad gs body) (applyAll gs ps) := by
  unfold generateForm
  rw [hb]
  simp only [Option.getD_some]
  rw [C99_read bad hs]
  exact encode_spelled _

/-- **C102**: an expression that is spelled differently, or that has a wildcard, addresses no value of a plain name. -/
theorem C102_literal (key : DocPath) (g : FGen) (ps : Params) (hn : ∀ p ∈ ps, Name p.1)
    (hk : ∀ k i, Name k → key.expr ≠ buildExpr [.root, .field k] ∧ key.expr ≠ buildExpr [.root, .field k, .index i]) :
    applyKey key g ps = ps := by
  unfold applyKey
  have hf : ∀ k i, Name k → isTarget key k i = false := by
    intro k i h
    obtain ⟨t, e, ⟨-, rfl⟩ | ⟨h', -⟩⟩ := join_tokens k
    · unfold isTarget
      rw [e, joinIndex_field]
      simp only [eqPath, fromTokens, Bool.or_eq_false_iff]
      exact ⟨decide_eq_false (hk k i h).1, decide_eq_false (hk k i h).2⟩
    · exact absurd h h'
  generalize ([] : List Str) = seen
  induction ps generalizing seen with
  | nil => rfl
  | cons p ps ih =>
    obtain ⟨k, v⟩ := p
    rw [applyFrom, hf _ _ (hn (k, v) (by simp)), if_neg (by simp), ih (fun p hp => hn p (by simp [hp]))]

/-! ### Non-vacuity and findings -/

/-- A generator that always gives the same value. -/
def always (s : Str) : FGen := ⟨true, fun _ => some s⟩

theorem name_b : Name ['b'] := by unfold Name; decide +kernel

example : Addresses (fromTokens [.root, .field ['b']]) ['b'] 0 := .first _ name_b
example : Addresses (fromTokens [.root, .field ['b'], .index 1]) ['b'] 1 := .item _ _ name_b

/-- The paths as written in a pact file. -/
example : Path.new UC.ascii "$.b[1]".toList = .ok (fromTokens [.root, .field ['b'], .index 1]) := by decide +kernel

set_option maxRecDepth 100000 in
example : applyAll [(fromTokens [.root, .field ['b'], .index 1], always ['x']), (fromTokens [.root, .field ['a']], always ['y'])]
    [(['a'], ['1']), (['b'], ['2']), (['a'], ['3']), (['b'], ['4'])] =
    [(['a'], ['y']), (['b'], ['2']), (['a'], ['3']), (['b'], ['x'])] := by decide +kernel

/-- Finding: `$.b` and `$.b[0]` address the same value; which generator wins depends on the order of a hash map. -/
theorem C102_clash :
    applyAll [(fromTokens [.root, .field ['b']], always ['x']), (fromTokens [.root, .field ['b'], .index 0], always ['y'])]
      [(['b'], ['1'])] ≠
    applyAll [(fromTokens [.root, .field ['b'], .index 0], always ['y']), (fromTokens [.root, .field ['b']], always ['x'])]
      [(['b'], ['1'])] := by decide +kernel

/-- Finding: the generator at `$['b']` is not applied to the parameter `b`. -/
theorem C102_bracket (p : DocPath) (h : Path.new UC.ascii "$['b']".toList = .ok p) :
    applyAll [(p, always ['x'])] [(['b'], ['1'])] = [(['b'], ['1'])] := by
  have : Path.new UC.ascii "$['b']".toList = .ok ⟨[.root, .field ['b']], "$['b']".toList⟩ := by decide +kernel
  rw [this] at h
  cases h
  decide +kernel

/-- Finding: a wildcard addresses only a parameter that is called `*`. -/
theorem C102_wildcard :
    applyAll [(fromTokens [.root, .star], always ['x'])] [(['b'], ['1']), (['*'], ['2'])] =
      [(['b'], ['1']), (['*'], ['x'])] := by decide +kernel

end FormProps
end Verif
