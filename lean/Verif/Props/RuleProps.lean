import Verif.Rules
import Verif.Props.PathProps

/-
  Properties C05, C06, C07, C09, C35, C36: selection of the rule list for a path, and rule tables.
-/

namespace Verif.RuleProps
open Verif.Path Verif.Rules Verif.PathProps

/-- How specific a rule path is: twice the weight for each exact segment, times the length. -/
def specificity (ts : List PathToken) : Nat := 2 ^ (ts.countP isExact) * ts.length

/-- All rule paths of the table are short enough for the weights to fit in 64 bits. -/
def ShortPaths {R} (c : CategoryOf R) : Prop := ∀ e ∈ c.rules, e.1.tokens.length ≤ 58

/-- The entry `e` of the table is a most specific one among those whose path matches. -/
def IsBest {R} (c : CategoryOf R) (path : List Str) (e : DocPath × RuleListOf R) : Prop :=
  e ∈ c.rules ∧ PrefixMatches e.1.tokens path ∧
    ∀ e' ∈ c.rules, PrefixMatches e'.1.tokens path →
      specificity e'.1.tokens ≤ specificity e.1.tokens

/-! ### Helper lemmas -/

theorem maxByKey_none {α} (key : α → Nat) (l : List α) : maxByKey key l = none ↔ l = [] := by
  cases l with
  | nil => simp [maxByKey]
  | cons a as =>
    simp only [maxByKey]
    split
    · simp
    · split <;> simp

theorem maxByKey_some {α} (key : α → Nat) (l : List α) : ∀ m, maxByKey key l = some m →
    m ∈ l ∧ ∀ x ∈ l, key x ≤ key m := by
  induction l with
  | nil => intro m h; simp [maxByKey] at h
  | cons a as ih =>
    intro m h
    simp only [maxByKey] at h
    split at h
    · rename_i hn
      rw [maxByKey_none] at hn
      simp at h; subst h; subst hn; simp
    · rename_i b hb
      obtain ⟨h1, h2⟩ := ih b hb
      split at h
      · simp at h; subst h
        refine ⟨by simp, ?_⟩
        intro x hx
        rcases List.mem_cons.1 hx with rfl | hx
        · exact Nat.le_refl _
        · have := h2 x hx; omega
      · simp at h; subst h
        refine ⟨by simp [h1], ?_⟩
        intro x hx
        rcases List.mem_cons.1 hx with rfl | hx
        · omega
        · exact h2 x hx

theorem weight_pos_iff (ts : List PathToken) (path : List Str) :
    (pathWeight ts path).1 > 0 ↔ matchesPath ts path = true := by
  simp [matchesPath]

theorem countP_le_length (ts : List PathToken) : ts.countP isExact ≤ ts.length := List.countP_le_length

theorem weight_eq (ts : List PathToken) (path : List Str) (hl : ts.length ≤ 58)
    (h : PrefixMatches ts path) : (pathWeight ts path).1 = 2 ^ (ts.countP isExact) := by
  have hle : ts.length ≤ path.length := h.1
  simp only [pathWeight, ge_iff_le, hle, if_true]
  rw [weightFold_eq _ _ 1 (by decide), Nat.one_mul, (rawWeight_spec ts path hle).1 h]
  apply Nat.mod_eq_of_lt
  have := countP_le_length ts
  unfold usizeLim
  exact Nat.pow_lt_pow_right (by decide) (by omega)

theorem specificity_lt {ts : List PathToken} (hl : ts.length ≤ 58) : specificity ts < usizeLim := by
  have h1 : 2 ^ (ts.countP isExact) ≤ 2 ^ 58 :=
    Nat.pow_le_pow_right (by decide) (Nat.le_trans (countP_le_length ts) hl)
  calc specificity ts ≤ 2 ^ 58 * 58 := Nat.mul_le_mul h1 hl
    _ < usizeLim := by decide

theorem score_eq (p : DocPath) (path : List Str) (hl : p.tokens.length ≤ 58)
    (h : PrefixMatches p.tokens path) : score p path = specificity p.tokens := by
  simp only [score]
  rw [weight_eq _ _ hl h]
  have ht : (pathWeight p.tokens path).2 = p.tokens.length := by
    unfold pathWeight; split <;> rfl
  rw [ht]
  exact Nat.mod_eq_of_lt (specificity_lt hl)

theorem matches_iff {ts : List PathToken} (path : List Str) (hl : ts.length ≤ 58) :
    matchesPath ts path = true ↔ PrefixMatches ts path := by
  rw [C04_matches_path_iff]
  have := countP_le_length ts
  constructor
  · exact fun h => h.1
  · exact fun h => ⟨h, by omega⟩

theorem bestEntry_none {R} (c : CategoryOf R) (path : List Str) (hs : ShortPaths c)
    (h : bestEntry c.rules path = none) : ∀ e ∈ c.rules, ¬ PrefixMatches e.1.tokens path := by
  unfold bestEntry at h
  rw [maxByKey_none, List.filter_eq_nil_iff] at h
  intro e he hp
  apply h e he
  rw [decide_eq_true_eq, weight_pos_iff, matches_iff path (hs e he)]
  exact hp

theorem bestEntry_isBest {R} (c : CategoryOf R) (path : List Str) (hs : ShortPaths c)
    {e : DocPath × RuleListOf R} (h : bestEntry c.rules path = some e) : IsBest c path e := by
  unfold bestEntry at h
  obtain ⟨h1, h2⟩ := maxByKey_some _ _ _ h
  rw [List.mem_filter, decide_eq_true_eq, weight_pos_iff] at h1
  obtain ⟨hm, hw⟩ := h1
  have hp := (matches_iff path (hs e hm)).1 hw
  refine ⟨hm, hp, ?_⟩
  intro e' he' hp'
  have := h2 e' (by
    rw [List.mem_filter, decide_eq_true_eq, weight_pos_iff]
    exact ⟨he', (matches_iff path (hs e' he')).2 hp'⟩)
  rw [score_eq _ _ (hs e hm) hp, score_eq _ _ (hs e' he') hp'] at this
  exact this

theorem weight_snd (ts : List PathToken) (path : List Str) : (pathWeight ts path).2 = ts.length := by
  unfold pathWeight; split <;> rfl

/-! ## C05 selection of the most specific rule -/

/-- For bodies and metadata: either no rule path matches and the selected list is the empty default, or
the selected list is that of a most specific matching entry (`weight x length`), flagged as cascaded iff
the entry's path is shorter than the value's path. -/
theorem C05_selection_maximal_partial {R} (c : CategoryOf R) (path : List Str)
    (hc : c.name = .body ∨ c.name = .metadata) (hs : ShortPaths c) :
    ((∀ e ∈ c.rules, ¬ PrefixMatches e.1.tokens path) ∧ selectBestMatcher c path = ⟨[], .and, false⟩) ∨
    (∃ e, IsBest c path e ∧
      selectBestMatcher c path =
        ⟨e.2.rules, e.2.logic, decide (e.1.tokens.length < path.length)⟩) := by
  have hsel : selectBestMatcher c path = maxByPath c path := by
    unfold selectBestMatcher
    rcases hc with hc | hc <;> rw [hc]
  rw [hsel]
  unfold maxByPath
  cases hb : bestEntry c.rules path with
  | none => exact Or.inl ⟨bestEntry_none c path hs hb, rfl⟩
  | some e =>
    have hbest := bestEntry_isBest c path hs hb
    refine Or.inr ⟨e, hbest, ?_⟩
    simp only [asCascaded, weight_snd]
    have := hbest.2.1.1
    congr 1
    rw [decide_eq_decide]
    omega

/-- When the most specific matching entry is unique, the selection does not depend on the order of the
table (the iteration order of the hash map). -/
theorem C05_order_independent_partial {R} (c d : CategoryOf R) (path : List Str)
    (hc : c.name = .body ∨ c.name = .metadata) (hn : d.name = c.name)
    (hperm : c.rules.Perm d.rules) (hs : ShortPaths c)
    (huniq : ∀ e e', IsBest c path e → IsBest c path e' → e = e') :
    selectBestMatcher c path = selectBestMatcher d path := by
  have hsd : ShortPaths d := fun e he => hs e (hperm.mem_iff.2 he)
  have hbest : ∀ e, IsBest d path e → IsBest c path e := by
    intro e ⟨h1, h2, h3⟩
    exact ⟨hperm.mem_iff.2 h1, h2, fun e' he' => h3 e' (hperm.mem_iff.1 he')⟩
  rcases C05_selection_maximal_partial c path hc hs with ⟨h1, h2⟩ | ⟨e, h1, h2⟩ <;>
  rcases C05_selection_maximal_partial d path (hn ▸ hc) hsd with ⟨h3, h4⟩ | ⟨e', h3, h4⟩
  · rw [h2, h4]
  · exact absurd h3.2.1 (h1 e' (hperm.mem_iff.2 h3.1))
  · exact absurd h1.2.1 (h3 e (hperm.mem_iff.1 h1.1))
  · rw [h2, h4, huniq e e' h1 (hbest e' h3)]

/-- A small table used in the examples: `$.a` type, `$.a.*` integer, `$.a.b` regex. -/
def sampleTable : RuleCategory := ⟨.body,
  [ (fromTokens [.root, .field ['a']], ⟨[.type], .and, false⟩),
    (fromTokens [.root, .field ['a'], .star], ⟨[.integer], .and, false⟩),
    (fromTokens [.root, .field ['a'], .field ['b']], ⟨[.regex ['x']], .or, false⟩) ]⟩

example : ShortPaths sampleTable ∧
    selectBestMatcher sampleTable [['$'], ['a'], ['b']] = ⟨[.regex ['x']], .or, false⟩ ∧
    selectBestMatcher sampleTable [['$'], ['a'], ['c']] = ⟨[.integer], .and, false⟩ ∧
    selectBestMatcher sampleTable [['$'], ['a'], ['c'], ['d']] = ⟨[.integer], .and, true⟩ := by
  refine ⟨by unfold ShortPaths; decide, ?_, ?_, ?_⟩ <;> rfl

/-- Full order independence is false: with `$.a.*` and `$.*.b` the value at `$.a.b` gets the rule
that happens to come last in the iteration order of the hash map. -/
theorem C05_ties_depend_on_order : ∃ (c d : RuleCategory) (path : List Str),
    c.name = .body ∧ d.name = .body ∧ c.rules.Perm d.rules ∧ KeysNodup c.rules ∧ ShortPaths c ∧
    (selectBestMatcher c path).rules = [.integer] ∧ (selectBestMatcher d path).rules = [.boolean] := by
  let e1 : DocPath × RuleList := (fromTokens [.root, .field ['a'], .star], ⟨[.integer], .and, false⟩)
  let e2 : DocPath × RuleList := (fromTokens [.root, .star, .field ['b']], ⟨[.boolean], .and, false⟩)
  refine ⟨⟨.body, [e2, e1]⟩, ⟨.body, [e1, e2]⟩, [['$'], ['a'], ['b']], rfl, rfl,
    List.Perm.swap _ _ _, ?_, ?_, rfl, rfl⟩
  · show List.Nodup _; decide
  · intro e he
    simp at he
    rcases he with rfl | rfl <;> decide

/-- For headers, query parameters and message contents the selection is not by specificity at all: the
first matching entry in iteration order is taken, so even a unique most specific rule may lose. -/
theorem C05_other_categories_take_first {R} (c : CategoryOf R) (path : List Str)
    (hc : c.name = .header ∨ c.name = .query ∨ c.name = .contents) :
    selectBestMatcher c path =
      match c.rules.filter (fun e => matchesPath e.1.tokens path) with
      | [] => ⟨[], .and, false⟩
      | e :: _ => e.2 := by
  unfold selectBestMatcher resolveMatchersForPath asRuleList filterCat
  rcases hc with hc | hc | hc <;> simp only [hc] <;> rfl

/-! ## C06 an exact rule beats every wildcard rule -/

/-- The rule path names exactly the value's path, without wildcards. -/
def NamesExactly (ts : List PathToken) (path : List Str) : Prop :=
  PrefixMatches ts path ∧ ts.length = path.length ∧ ∀ t ∈ ts, isExact t = true

theorem specificity_le {ts : List PathToken} {n : Nat} (h : ts.length ≤ n) :
    specificity ts ≤ 2 ^ n * n :=
  Nat.mul_le_mul (Nat.pow_le_pow_right (by decide) (Nat.le_trans (countP_le_length ts) h)) h

theorem specificity_eq_full {ts : List PathToken} {n : Nat} (h : ts.length ≤ n)
    (he : 2 ^ n * n ≤ specificity ts) : ts.length = n ∧ ∀ t ∈ ts, isExact t = true := by
  have hc := countP_le_length ts
  have hlen : ts.length = n := by
    by_cases hn : n ≤ ts.length
    · omega
    · exfalso
      have h1 : 2 ^ (ts.countP isExact) ≤ 2 ^ n := Nat.pow_le_pow_right (by decide) (by omega)
      have : specificity ts ≤ 2 ^ n * ts.length := Nat.mul_le_mul_right _ h1
      have h2 : 2 ^ n * ts.length < 2 ^ n * n :=
        Nat.mul_lt_mul_of_pos_left (by omega) (Nat.pow_pos (by decide))
      omega
  refine ⟨hlen, ?_⟩
  by_cases hz : n = 0
  · intro t ht
    have : ts = [] := List.eq_nil_of_length_eq_zero (by omega)
    simp [this] at ht
  · have hcnt : ts.countP isExact = ts.length := by
      by_cases hlt : ts.countP isExact = ts.length
      · exact hlt
      · exfalso
        have h1 : 2 ^ (ts.countP isExact) < 2 ^ n := Nat.pow_lt_pow_right (by decide) (by omega)
        have : specificity ts < 2 ^ n * n := by
          unfold specificity
          rw [hlen]
          exact Nat.mul_lt_mul_of_pos_right h1 (by omega)
        omega
    exact List.countP_eq_length.1 hcnt

/-- If some entry names exactly the path of the value, the selected rule list is that of an entry
naming exactly the path, and is not marked as inherited; if only one entry does, it is that one. -/
theorem C06_exact_rule_wins_partial {R} (c : CategoryOf R) (path : List Str)
    (hc : c.name = .body ∨ c.name = .metadata) (hs : ShortPaths c)
    (e : DocPath × RuleListOf R) (he : e ∈ c.rules) (hx : NamesExactly e.1.tokens path) :
    (∃ e' ∈ c.rules, NamesExactly e'.1.tokens path ∧
      selectBestMatcher c path = ⟨e'.2.rules, e'.2.logic, false⟩) ∧
    ((∀ e' ∈ c.rules, NamesExactly e'.1.tokens path → e' = e) →
      selectBestMatcher c path = ⟨e.2.rules, e.2.logic, false⟩) := by
  have key : ∃ e' ∈ c.rules, NamesExactly e'.1.tokens path ∧
      selectBestMatcher c path = ⟨e'.2.rules, e'.2.logic, false⟩ := by
    rcases C05_selection_maximal_partial c path hc hs with ⟨h1, _⟩ | ⟨b, hb, h2⟩
    · exact absurd hx.1 (h1 e he)
    · have hfull : specificity e.1.tokens = 2 ^ path.length * path.length := by
        unfold specificity
        rw [hx.2.1, List.countP_eq_length.2 hx.2.2, hx.2.1]
      have hge := hb.2.2 e he hx.1
      rw [hfull] at hge
      obtain ⟨h3, h4⟩ := specificity_eq_full hb.2.1.1 hge
      refine ⟨b, hb.1, ⟨hb.2.1, h3, h4⟩, ?_⟩
      rw [h2, h3]
      simp
  refine ⟨key, fun huniq => ?_⟩
  obtain ⟨e', h1, h2, h3⟩ := key
  rw [h3, huniq e' h1 h2]

example : NamesExactly [.root, .field ['a'], .field ['b']] [['$'], ['a'], ['b']] := by
  refine ⟨?_, rfl, by decide⟩
  exact (matches_iff (ts := [.root, .field ['a'], .field ['b']]) _ (by decide)).1 (by decide)

/-- The length bound is needed: with 59 exact segments the product overflows 64 bits and the rule on
the parent path wins over the exact one. -/
theorem C06_overflow : ∃ (c : RuleCategory) (path : List Str) (e : DocPath × RuleList),
    c.name = .body ∧ KeysNodup c.rules ∧ e ∈ c.rules ∧ NamesExactly e.1.tokens path ∧
    e.2.rules = [.integer] ∧ (selectBestMatcher c path).rules = [.type] := by
  let ts : List PathToken := .root :: List.replicate 58 (.field ['a'])
  let path : List Str := ['$'] :: List.replicate 58 ['a']
  let e : DocPath × RuleList := (fromTokens ts, ⟨[.integer], .and, false⟩)
  let e' : DocPath × RuleList := (fromTokens (ts.take 58), ⟨[.type], .and, false⟩)
  have hm : PrefixMatches ts path := by
    have : matchesPath ts path = true := by decide +kernel
    exact ((C04_matches_path_iff _ _).1 this).1
  refine ⟨⟨.body, [e, e']⟩, path, e, rfl, ?_, by simp, ⟨hm, by decide, by decide⟩, rfl, ?_⟩
  · have hne : (fromTokens ts).expr ≠ (fromTokens (ts.take 58)).expr := by
      intro h
      have h2 := (C03_expr_injective ts (ts.take 58)).1 (decide_eq_true h)
      exact absurd (congrArg List.length h2) (by decide)
    exact List.nodup_cons.2 ⟨fun h => hne (List.mem_singleton.1 h), by simp⟩
  · have w1 : decide ((pathWeight e.1.tokens path).1 > 0) = true := by decide +kernel
    have w2 : decide ((pathWeight e'.1.tokens path).1 > 0) = true := by decide +kernel
    have s1 : score e.1 path < score e'.1 path := by decide +kernel
    have hf : [e, e'].filter (fun e => decide ((pathWeight e.1.tokens path).1 > 0)) = [e, e'] := by
      rw [List.filter_eq_self]
      intro x hx
      rcases List.mem_cons.1 hx with rfl | hx
      · exact w1
      · rw [List.mem_singleton.1 hx]; exact w2
    have hb : bestEntry [e, e'] path = some e' := by
      unfold bestEntry
      rw [hf]
      simp only [maxByKey]
      rw [if_neg (by omega)]
    simp only [selectBestMatcher, maxByPath, hb]
    rfl

/-! ## C07 inherited rules are flagged -/

/-- A rule table as built by the API or read from a file: no rule list is already marked as inherited,
and no rule list is empty. -/
def Stored {R} (c : CategoryOf R) : Prop := ∀ e ∈ c.rules, e.2.cascaded = false ∧ e.2.rules ≠ []

/-- For bodies and metadata, the selected list comes from some matching entry and is marked as
inherited iff that entry is defined on a strictly shorter path; with no matching entry it is not
marked. For all other categories the mark is never set. -/
theorem C07_cascaded_flag {R} (c : CategoryOf R) (path : List Str) (hs : ShortPaths c)
    (hst : Stored c) :
    (c.name = .body ∨ c.name = .metadata →
      (∃ e ∈ c.rules, PrefixMatches e.1.tokens path ∧
        (selectBestMatcher c path).rules = e.2.rules ∧
        ((selectBestMatcher c path).cascaded = true ↔ e.1.tokens.length < path.length)) ∨
      ((∀ e ∈ c.rules, ¬ PrefixMatches e.1.tokens path) ∧
        (selectBestMatcher c path).cascaded = false)) ∧
    (c.name ≠ .body → c.name ≠ .metadata → (selectBestMatcher c path).cascaded = false) := by
  constructor
  · intro hc
    rcases C05_selection_maximal_partial c path hc hs with ⟨h1, h2⟩ | ⟨e, h1, h2⟩
    · exact Or.inr ⟨h1, by rw [h2]⟩
    · exact Or.inl ⟨e, h1.1, h1.2.1, by rw [h2], by rw [h2]; simp⟩
  · intro h1 h2
    have gen : ∀ d : CategoryOf R, Stored d → (asRuleList d).cascaded = false := by
      intro d hd
      unfold asRuleList
      split
      · rfl
      · rename_i e es he
        exact (hd e (by rw [he]; simp)).1
    have hf : ∀ f, Stored (filterCat c f) := by
      intro f e he
      exact hst e (List.mem_filter.1 he).1
    unfold selectBestMatcher resolveMatchersForPath
    split
    · exact absurd (by assumption) h1
    · exact absurd (by assumption) h2
    · split
      · exact gen _ (hf _)
      · exact gen _ (hf _)
      · exact gen _ (hf _)
      · exact gen _ (hf _)
      · exact gen _ (hf _)
      · exact gen _ hst

/-! ## C09 `matcher_is_defined` agrees with the selection -/

/-- For every category and path: a matcher is defined iff the selected rule list is not empty. -/
theorem C09_defined_iff_selected_partial {R} (c : CategoryOf R) (path : List Str) (hst : Stored c) :
    matcherIsDefined c path = true ↔ (selectBestMatcher c path).rules ≠ [] := by
  have gen : ∀ d : CategoryOf R, Stored d → ((!d.rules.isEmpty) = true ↔ (asRuleList d).rules ≠ []) := by
    intro d hd
    unfold asRuleList
    split
    · rename_i h; simp [h, defaultList, emptyList]
    · rename_i e es he
      simp [he, (hd e (by rw [he]; simp)).2]
  have hf : ∀ f, Stored (filterCat c f) := by
    intro f e he
    exact hst e (List.mem_filter.1 he).1
  have hmax : ((!(filterCat c (fun e => matchesPath e.1.tokens path)).rules.isEmpty) = true ↔
      (maxByPath c path).rules ≠ []) := by
    have hfilt : (filterCat c (fun e => matchesPath e.1.tokens path)).rules =
        c.rules.filter (fun e => decide ((pathWeight e.1.tokens path).1 > 0)) := rfl
    rw [hfilt]
    unfold maxByPath
    cases hb : bestEntry c.rules path with
    | none =>
      unfold bestEntry at hb
      rw [maxByKey_none] at hb
      simp [hb, defaultList, emptyList]
    | some e =>
      unfold bestEntry at hb
      have hm := (maxByKey_some _ _ _ hb).1
      have hne : c.rules.filter (fun e => decide ((pathWeight e.1.tokens path).1 > 0)) ≠ [] :=
        List.ne_nil_of_mem hm
      have h2 := (hst e (List.mem_filter.1 hm).1).2
      simp only [asCascaded, ne_eq, h2, not_false_eq_true, iff_true]
      cases hl : c.rules.filter (fun e => decide ((pathWeight e.1.tokens path).1 > 0)) with
      | nil => exact absurd hl hne
      | cons _ _ => rfl
  unfold matcherIsDefined selectBestMatcher resolveMatchersForPath
  cases hn : c.name <;> simp only []
  · exact gen _ hst
  · exact gen _ hst
  · exact gen _ (hf _)
  · exact gen _ (hf _)
  · exact hmax
  · exact gen _ hst
  · exact gen _ (hf _)
  · exact hmax

example : Stored sampleTable ∧ matcherIsDefined sampleTable [['$'], ['a'], ['b']] = true ∧
    matcherIsDefined sampleTable [['$'], ['c']] = false := by
  refine ⟨?_, rfl, rfl⟩
  intro e he
  simp [sampleTable] at he
  rcases he with rfl | rfl | rfl <;> simp

/-- The premise matters: an entry with an empty rule list counts as defined but selects nothing. -/
theorem C09_empty_list_counts_as_defined : ∃ (c : RuleCategory) (path : List Str),
    matcherIsDefined c path = true ∧ (selectBestMatcher c path).rules = [] :=
  ⟨⟨.body, [(rootPath, ⟨[], .and, false⟩)]⟩, [['$']], rfl, rfl⟩

/-! ## C35 adding rules only adds -/

theorem keyIs_iff {β} (p : DocPath) (e : DocPath × β) : keyIs p e = true ↔ e.1.expr = p.expr := by
  simp [keyIs, eqPath]

theorem lookup_upsert {β} (m : List (DocPath × β)) (p : DocPath) (ins : β) (f : β → β) (q : DocPath) :
    lookup (upsert m p ins f) q =
      if q.expr = p.expr then some (f ((lookup m p).getD ins)) else lookup m q := by
  induction m with
  | nil =>
    simp only [upsert, lookup, List.find?_cons, List.find?_nil, Option.map_none, Option.getD_none]
    by_cases h : q.expr = p.expr
    · have : keyIs q (p, f ins) = true := by simp [keyIs_iff, h]
      simp [this, h]
    · have : keyIs q (p, f ins) = false := by
        rw [Bool.eq_false_iff, Ne, keyIs_iff]; exact fun e => h e.symm
      simp [this, h]
  | cons e es ih =>
    simp only [upsert]
    by_cases he : keyIs p e = true
    · simp only [he, if_true]
      rw [keyIs_iff] at he
      by_cases h : q.expr = p.expr
      · have h1 : keyIs q (e.1, f e.2) = true := by rw [keyIs_iff]; simp [h, he]
        have h2 : keyIs p e = true := by rw [keyIs_iff]; exact he
        simp [lookup, h1, h2, h]
      · have h1 : keyIs q (e.1, f e.2) = false := by
          rw [Bool.eq_false_iff, Ne, keyIs_iff]; simp only [he]; exact fun x => h x.symm
        have h2 : keyIs q e = false := by
          rw [Bool.eq_false_iff, Ne, keyIs_iff, he]; exact fun x => h x.symm
        simp [lookup, h1, h2, h]
    · simp only [Bool.not_eq_true] at he
      simp only [he, Bool.false_eq_true, if_false]
      have hpe : lookup (e :: es) p = lookup es p := by simp [lookup, he]
      rw [hpe]
      by_cases hq : keyIs q e = true
      · have hne : q.expr ≠ p.expr := by
          intro h
          rw [keyIs_iff, h] at hq
          rw [Bool.eq_false_iff, Ne, keyIs_iff] at he
          exact he hq
        simp [lookup, hq, hne]
      · simp only [Bool.not_eq_true] at hq
        have h3 : ∀ (l : List (DocPath × β)), lookup (e :: l) q = lookup l q := by
          intro l; simp [lookup, hq]
        rw [h3, h3, ih]

theorem listAddRules_eq {R} (l m : RuleListOf R) :
    listAddRules l m = ⟨l.rules ++ m.rules, l.logic, l.cascaded⟩ := by
  unfold listAddRules
  obtain ⟨mr, ml, mc⟩ := m
  simp only
  induction mr generalizing l with
  | nil => simp
  | cons r rs ih => simp only [List.foldl_cons]; rw [ih]; simp [listAddRule]

/-- Adding one rule at a path: the rules of every other path are unchanged; the rules of that path are
the previous ones followed by the new one, keeping the previous AND/OR logic if there was one. -/
theorem C35_add_rule {R} (c : CategoryOf R) (p q : DocPath) (r : R) (l : RuleLogic) :
    (q.expr ≠ p.expr → lookup (addRule c p r l).rules q = lookup c.rules q) ∧
    (∀ old, lookup c.rules p = some old →
      lookup (addRule c p r l).rules p = some ⟨old.rules ++ [r], old.logic, old.cascaded⟩) ∧
    (lookup c.rules p = none →
      lookup (addRule c p r l).rules p = some ⟨[r], l, false⟩) := by
  unfold addRule
  refine ⟨?_, ?_, ?_⟩
  · intro h; simp only [lookup_upsert, h, if_false]
  · intro old h; simp only [lookup_upsert, if_true, h, Option.getD_some]
  · intro h; simp only [lookup_upsert, if_true, h, Option.getD_none, emptyList, List.nil_append]

theorem lookup_append_single {β} (m : List (DocPath × β)) (e : DocPath × β) (q : DocPath)
    (hnone : m.find? (keyIs e.1) = none) :
    lookup (m ++ [e]) q = if q.expr = e.1.expr then some e.2 else lookup m q := by
  unfold lookup
  rw [List.find?_append]
  by_cases h : q.expr = e.1.expr
  · have : m.find? (keyIs q) = none := by
      rw [List.find?_eq_none] at hnone ⊢
      intro x hx
      have := hnone x hx
      rw [keyIs_iff] at this ⊢
      rw [h]; exact this
    have h2 : keyIs q e = true := by rw [keyIs_iff]; exact h.symm
    simp [this, h, h2]
  · have h2 : keyIs q e = false := by
      rw [Bool.eq_false_iff, Ne, keyIs_iff]; exact fun x => h x.symm
    simp [h2, h]

/-- What one path holds after adding a whole category. -/
def combined {R} (old new : Option (RuleListOf R)) : Option (RuleListOf R) :=
  match old, new with
  | some a, some b => some ⟨a.rules ++ b.rules, a.logic, a.cascaded⟩
  | some a, none => some a
  | none, some b => some b
  | none, none => none

/-- Adding a category: each path holds its previous rules followed by the added ones. -/
theorem C35_add_rules_partial {R} (c d : CategoryOf R) (hd : KeysNodup d.rules) (q : DocPath) :
    lookup (addRules c d).rules q = combined (lookup c.rules q) (lookup d.rules q) := by
  unfold addRules
  obtain ⟨dn, dr⟩ := d
  obtain ⟨cn, cr⟩ := c
  simp only at hd ⊢
  induction dr generalizing cr with
  | nil => simp only [List.foldl_nil]; unfold combined; cases lookup cr q <;> rfl
  | cons e es ih =>
    simp only [List.foldl_cons]
    have hd' : KeysNodup es := (List.nodup_cons.1 hd).2
    have hnot : ∀ x ∈ es, x.1.expr ≠ e.1.expr := by
      intro x hx h
      have hd2 := (List.nodup_cons.1 hd).1
      exact hd2 (List.mem_map.2 ⟨x, hx, h⟩)
    have hes : lookup es e.1 = none := by
      unfold lookup
      rw [Option.map_eq_none_iff, List.find?_eq_none]
      intro x hx
      rw [keyIs_iff]; exact hnot x hx
    rw [ih hd']
    have hcase : ∀ m', (lookup m' q = if q.expr = e.1.expr then
          combined (lookup cr e.1) (some e.2) else lookup cr q) →
        combined (lookup m' q) (lookup es q) = combined (lookup cr q) (lookup (e :: es) q) := by
      intro m' hm'
      rw [hm']
      by_cases hq : q.expr = e.1.expr
      · have heq : ∀ (l : List (DocPath × RuleListOf R)), lookup l q = lookup l e.1 := by
          intro l
          unfold lookup
          congr 2
          funext x
          simp only [keyIs, eqPath, hq]
        have h1 : lookup (e :: es) e.1 = some e.2 := by
          have : keyIs e.1 e = true := by rw [keyIs_iff]
          simp [lookup, this]
        rw [if_pos hq, heq, heq, heq, hes, h1]
        unfold combined
        cases lookup cr e.1 <;> rfl
      · have h1 : lookup (e :: es) q = lookup es q := by
          have : keyIs q e = false := by
            rw [Bool.eq_false_iff, Ne, keyIs_iff]; exact fun x => hq x.symm
          simp [lookup, this]
        rw [if_neg hq, h1]
    apply hcase
    cases hf : cr.find? (keyIs e.1) with
    | none =>
      simp only []
      rw [lookup_append_single _ _ _ hf]
      have : lookup cr e.1 = none := by unfold lookup; rw [hf]; rfl
      rw [this]; rfl
    | some x =>
      simp only []
      rw [lookup_upsert]
      have : lookup cr e.1 = some x.2 := by unfold lookup; rw [hf]; rfl
      rw [this]
      simp only [Option.getD_some, listAddRules_eq, combined]

/-- The AND/OR logic of the added rules is dropped when the path already has rules: adding an OR list
to an AND list gives an AND list of all the rules. -/
theorem C35_added_logic_lost : ∃ (c d : RuleCategory),
    lookup (addRules c d).rules rootPath = some ⟨[.type, .integer, .null], .and, false⟩ ∧
    lookup d.rules rootPath = some ⟨[.integer, .null], .or, false⟩ :=
  ⟨⟨.body, [(rootPath, ⟨[.type], .and, false⟩)]⟩,
   ⟨.body, [(rootPath, ⟨[.integer, .null], .or, false⟩)]⟩, rfl, rfl⟩

example : KeysNodup sampleTable.rules := by show List.Nodup _; decide

end Verif.RuleProps
