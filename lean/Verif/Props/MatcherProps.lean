import Verif.Matchers

/-
  Properties C10-C14 (single rule matchers and their combination) and C36 (equality of rules).
-/

namespace Verif.MatcherProps
open Verif.Matchers Verif.Rules

/-! ### C10: AND/OR combination -/

/-- **C10**: under AND a value is accepted iff the rule list is not empty and every rule accepts it. -/
theorem C10_and (verdict : MatchingRule → Bool → Bool) (rl : RuleList) (h : rl.logic = .and) :
    matchValues verdict rl = .ok () ↔ rl.rules ≠ [] ∧ ∀ r ∈ rl.rules, verdict r rl.cascaded = true := by
  unfold matchValues
  cases hr : rl.rules with
  | nil => simp
  | cons r rs => simp [h]

/-- **C10**: under OR a value is accepted iff some rule accepts it. -/
theorem C10_or (verdict : MatchingRule → Bool → Bool) (rl : RuleList) (h : rl.logic = .or) :
    matchValues verdict rl = .ok () ↔ ∃ r ∈ rl.rules, verdict r rl.cascaded = true := by
  unfold matchValues
  cases hr : rl.rules with
  | nil => simp
  | cons r rs => cases hv : verdict r rl.cascaded <;> simp [h, hv]

/-- **C10**: an empty rule list is an error, whatever the logic. -/
theorem C10_empty (verdict : MatchingRule → Bool → Bool) (rl : RuleList) (h : rl.rules = []) :
    matchValues verdict rl = .error [none] := by
  simp [matchValues, h]

/-- **C10**: on failure the error list is not empty; for a non-empty rule list it names exactly the
rules that reject the value, in order. -/
theorem C10_errors (verdict : MatchingRule → Bool → Bool) (rl : RuleList) (es : List (Option MatchingRule))
    (h : matchValues verdict rl = .error es) :
    es ≠ [] ∧ (rl.rules ≠ [] →
      es = (rl.rules.filter (fun r => verdict r rl.cascaded = false)).map some) := by
  unfold matchValues at h
  split at h
  · rename_i he
    have : rl.rules = [] := by simpa using he
    simp at h; subst h; simp [this]
  · rename_i hne
    have hne' : rl.rules ≠ [] := by simpa using hne
    have hf : (rl.rules.filter (fun r => !verdict r rl.cascaded)) =
        rl.rules.filter (fun r => verdict r rl.cascaded = false) := by
      congr 1; funext r; cases verdict r rl.cascaded <;> rfl
    simp only at h
    split at h
    · split at h
      · simp at h
      · rename_i hl
        simp at h; subst h
        refine ⟨?_, fun _ => by simp⟩
        simp only [ne_eq, List.map_eq_nil_iff]
        intro hnil
        apply hl
        simp
        intro r hr
        have := List.filter_eq_nil_iff.1 hnil r hr
        simpa using this
    · split at h
      · simp at h
      · rename_i hl
        simp at h; subst h
        refine ⟨?_, fun _ => by simp⟩
        simp only [ne_eq, List.map_eq_nil_iff]
        intro hnil
        apply hl
        cases hr : rl.rules with
        | nil => exact absurd hr hne'
        | cons r rs =>
          have := List.filter_eq_nil_iff.1 hnil r (by simp [hr])
          simp at this
          simp [this]

/-- Non-vacuity: an OR list one of whose rules accepts, and an AND list that fails. -/
example : matchValues (jsonMatches Env.simple (.str "x".toList) (.str "y".toList))
    ⟨[.equality, .type], .or, false⟩ = .ok () := rfl
example : (match matchValues (jsonMatches Env.simple (.str "x".toList) (.str "y".toList))
    ⟨[.equality, .type], .and, false⟩ with | .ok _ => 0 | .error es => es.length) = 1 := by decide

/-! ### C11: type matching -/

/-- The two values are of the same JSON kind (specification). -/
inductive SameJsonKind : Json → Json → Prop
  | null : SameJsonKind .null .null
  | bool (a b) : SameJsonKind (.bool a) (.bool b)
  | num (a b) : SameJsonKind (.num a) (.num b)
  | str (a b) : SameJsonKind (.str a) (.str b)
  | arr (a b) : SameJsonKind (.arr a) (.arr b)
  | obj (a b) : SameJsonKind (.obj a) (.obj b)

/-- **C11**: the type matcher accepts exactly the values of the same JSON kind as the example. -/
theorem C11_type_iff (env : Env) (e a : Json) (c : Bool) :
    jsonMatches env e a .type c = true ↔ SameJsonKind e a := by
  cases e <;> cases a <;> simp [jsonMatches, sameKind, kind] <;>
    first | constructor | (intro h; cases h)

/-- **C11**: acceptance by the type matcher is an equivalence relation. -/
theorem C11_type_equivalence (env : Env) (c : Bool) :
    Equivalence (fun e a => jsonMatches env e a .type c = true) := by
  refine ⟨?_, ?_, ?_⟩
  · intro a; rw [C11_type_iff]; cases a <;> constructor
  · intro a b h; rw [C11_type_iff] at h ⊢; cases h <;> constructor
  · intro a b d h1 h2; rw [C11_type_iff] at h1 h2 ⊢; cases h1 <;> cases h2 <;> constructor

/-- **C11**: the verdict does not depend on the concrete example, only on its kind. -/
theorem C11_example_independent (env : Env) (e e' a : Json) (c : Bool) (h : SameJsonKind e e') :
    jsonMatches env e a .type c = jsonMatches env e' a .type c := by
  have eqv := C11_type_equivalence env c
  have h' := (C11_type_iff env e e' c).2 h
  cases h1 : jsonMatches env e a .type c <;> cases h2 : jsonMatches env e' a .type c <;> try rfl
  · exact absurd (eqv.trans h' h2) (by simp [h1])
  · exact absurd (eqv.trans (eqv.symm h') h1) (by simp [h2])

example : jsonMatches Env.simple (.num (.pos 1)) (.num (.flt "1.5".toList)) .type false = true ∧
    jsonMatches Env.simple (.num (.pos 1)) (.str "1".toList) .type false = false := by decide

/-! ### C12: size bounds -/

/-- Specification: what a length rule demands of a size. -/
def WithinBounds : MatchingRule → Nat → Prop
  | .minType lo, n => lo ≤ n
  | .maxType hi, n => n ≤ hi
  | .minMaxType lo hi, n => lo ≤ n ∧ n ≤ hi
  | _, _ => True

/-- The rules of C12. -/
def IsSizeRule : MatchingRule → Prop
  | .minType _ | .maxType _ | .minMaxType _ _ => True
  | _ => False

/-- **C12**, JSON values: defined on a list itself, the rule accepts another list iff its length is
within the (inclusive) bounds; inherited, it accepts any list. -/
theorem C12_json_arrays (env : Env) (e a : List Json) (r : MatchingRule) (hr : IsSizeRule r) :
    (jsonMatches env (.arr e) (.arr a) r false = true ↔ WithinBounds r a.length) ∧
    jsonMatches env (.arr e) (.arr a) r true = true := by
  cases r <;> simp [IsSizeRule] at hr <;>
    simp [jsonMatches, jsonMin, jsonMax, jsonMinMax, arrayLens, WithinBounds]

/-- **C12**, JSON values: on other values the rule is a type matcher. -/
theorem C12_json_others (env : Env) (e a : Json) (r : MatchingRule) (c : Bool) (hr : IsSizeRule r)
    (h : ∀ l m, ¬ (e = .arr l ∧ a = .arr m)) :
    jsonMatches env e a r c = true ↔ SameJsonKind e a := by
  cases r <;> simp [IsSizeRule] at hr <;>
    cases e <;> cases a <;>
    first
    | exact absurd ⟨rfl, rfl⟩ (h _ _)
    | (simp [jsonMatches, jsonMin, jsonMax, jsonMinMax, arrayLens, sameKind, kind] <;>
        first | constructor | (intro h; cases h))

/-- **C12**, lists and maps compared as collections (query values, JSON arrays and objects under a
rule): same bounds. -/
theorem C12_lists {T} (eq : List T → List T → Bool) (e a : List T) (r : MatchingRule) (hr : IsSizeRule r) :
    (listMatches eq e a r false = true ↔ WithinBounds r a.length) ∧ listMatches eq e a r true = true := by
  cases r <;> simp [IsSizeRule] at hr <;> simp [listMatches, WithinBounds]

theorem C12_maps {T} (eq : List (Str × T) → List (Str × T) → Bool) (e a : List (Str × T))
    (r : MatchingRule) (hr : IsSizeRule r) :
    (mapMatches eq e a r false = true ↔ WithinBounds r a.length) ∧ mapMatches eq e a r true = true := by
  cases r <;> simp [IsSizeRule] at hr <;> simp [mapMatches, WithinBounds]

example : jsonMatches Env.simple (.arr []) (.arr [.null, .null]) (.minMaxType 2 3) false = true ∧
    jsonMatches Env.simple (.arr []) (.arr [.null]) (.minMaxType 2 3) false = false ∧
    jsonMatches Env.simple (.arr []) (.arr [.null]) (.minMaxType 2 3) true = true := by decide

/-! ### C13: status codes -/

/-- Specification: the codes of a status class. -/
def InClass : HttpStatus → Nat → Prop
  | .information, c => c / 100 = 1
  | .success, c => c / 100 = 2
  | .redirect, c => c / 100 = 3
  | .clientError, c => c / 100 = 4
  | .serverError, c => c / 100 = 5
  | .statusCodes cs, c => c ∈ cs
  | .nonError, c => c / 100 < 4
  | .error, c => 4 ≤ c / 100

/-- **C13**: a status-code rule accepts a response status code (a `u16`) iff it is in its class. -/
theorem C13_status (env : Env) (e code : Nat) (st : HttpStatus) (c : Bool) (hc : code < 65536) :
    u64Matches env e code (.statusCode st) c = true ↔ InClass st code := by
  have : code % 65536 = code := Nat.mod_eq_of_lt hc
  cases st <;> simp [u64Matches, this, matchStatusCode, InClass] <;> omega

/-- **C13**: the five centuries are pairwise disjoint and cover 100..599; error and nonError are
complementary. -/
theorem C13_partition (env : Env) (e code : Nat) (c : Bool) (hc : code < 65536) :
    (100 ≤ code ∧ code ≤ 599 ↔
      ∃ st ∈ [HttpStatus.information, .success, .redirect, .clientError, .serverError],
        u64Matches env e code (.statusCode st) c = true) ∧
    (∀ st ∈ [HttpStatus.information, .success, .redirect, .clientError, .serverError],
     ∀ st' ∈ [HttpStatus.information, .success, .redirect, .clientError, .serverError],
      u64Matches env e code (.statusCode st) c = true →
      u64Matches env e code (.statusCode st') c = true → st = st') ∧
    (u64Matches env e code (.statusCode .error) c = !u64Matches env e code (.statusCode .nonError) c) := by
  refine ⟨?_, ?_, ?_⟩
  · simp only [C13_status env e code _ c hc, List.mem_cons, List.not_mem_nil, or_false, exists_eq_or_imp,
      exists_eq_left, InClass]
    omega
  · intro st h st' h'
    rw [C13_status env e code _ c hc, C13_status env e code _ c hc]
    simp only [List.mem_cons, List.not_mem_nil, or_false] at h h'
    rcases h with rfl | rfl | rfl | rfl | rfl <;> rcases h' with rfl | rfl | rfl | rfl | rfl <;>
      simp only [InClass] <;> intro h1 h2 <;> first | rfl | trivial | omega
  · have h1 := C13_status env e code .error c hc
    have h2 := C13_status env e code .nonError c hc
    simp only [InClass] at h1 h2
    cases ha : u64Matches env e code (.statusCode .error) c <;>
      cases hb : u64Matches env e code (.statusCode .nonError) c <;> simp_all <;> omega

/-- **C13**: textual status codes (decimal digits) are classified the same way. -/
theorem C13_status_text (env : Env) (e : Str) (code : Nat) (st : HttpStatus) (c : Bool) (hc : code < 65536) :
    strMatches env e (natStr code) (.statusCode st) c = true ↔ InClass st code := by
  have hp : parseU16 (natStr code) = some code := by
    unfold parseU16
    split
    · rename_i r h; exact absurd h (natStr_head_ne_plus _ _)
    · exact parseDigits_natStr hc
  cases st <;> simp [strMatches, hp, matchStatusCode, InClass] <;> omega

/-- Finding: for 64-bit numbers the code is truncated to 16 bits first: 65736 counts as success. -/
theorem C13_truncation (env : Env) (e : Nat) (c : Bool) :
    u64Matches env e 65736 (.statusCode .success) c = true := by
  simp [u64Matches, matchStatusCode]

/-- Finding: inside a JSON body a status-code rule accepts everything. -/
theorem C13_json_vacuous (env : Env) (e a : Json) (st : HttpStatus) (c : Bool) :
    jsonMatches env e a (.statusCode st) c = true := rfl

example : u64Matches Env.simple 200 204 (.statusCode .success) false = true ∧
    u64Matches Env.simple 200 404 (.statusCode .success) false = false := by decide

/-! ### C14: numbers -/

/-- Specification: the JSON text denotes an integer without fraction or exponent. -/
def IsIntegerNum : Json → Prop
  | .num (.pos _) => True
  | .num (.neg _) => True
  | _ => False

/-- Specification: the JSON value is a number with fraction or exponent. -/
def IsFractionalNum : Json → Prop
  | .num (.flt _) => True
  | _ => False

/-- **C14**, JSON values: number accepts exactly the numbers, integer the integers, decimal the others. -/
theorem C14_json (env : Env) (e a : Json) (c : Bool) :
    (jsonMatches env e a .number c = true ↔ ∃ n, a = .num n) ∧
    (jsonMatches env e a .integer c = true ↔ IsIntegerNum a) ∧
    (jsonMatches env e a .decimal c = true ↔ IsFractionalNum a) := by
  cases a with
  | num n => cases n <;>
    simp [jsonMatches, Json.isNumber, Json.isInt, Json.isFloat, IsIntegerNum, IsFractionalNum]
  | _ => simp [jsonMatches, Json.isNumber, Json.isInt, Json.isFloat, IsIntegerNum, IsFractionalNum]

/-- **C14**, JSON values: every number is accepted by exactly one of integer and decimal; nothing else is
accepted by either. -/
theorem C14_json_exclusive (env : Env) (e a : Json) (c : Bool) :
    jsonMatches env e a .number c =
      (jsonMatches env e a .integer c != jsonMatches env e a .decimal c) ∧
    ¬ (jsonMatches env e a .integer c = true ∧ jsonMatches env e a .decimal c = true) := by
  cases a with
  | num n => cases n <;> simp [jsonMatches, Json.isNumber, Json.isInt, Json.isFloat]
  | _ => simp [jsonMatches, Json.isNumber, Json.isInt, Json.isFloat]

/-- Specification: the text of a decimal integer with optional sign. -/
def DenotesInteger (s : Str) (i : Int) : Prop :=
  ∃ ds : Str, ds ≠ [] ∧ (∀ c ∈ ds, c.isDigit = true) ∧ ∃ n, digitsVal 0 ds = some n ∧
    ((s = ds ∧ i = n) ∨ (s = '+' :: ds ∧ i = n) ∨ (s = '-' :: ds ∧ i = -(n : Int)))

/-- The claim of C14 on strings is false of the code: a negative integer is rejected. -/
theorem C14_string_integer_fails : ¬ ∀ (env : Env) (e s : Str) (c : Bool) (i : Int),
    DenotesInteger s i → strMatches env e s .integer c = true := by
  intro h
  have := h Env.simple [] "-5".toList false (-5)
    ⟨['5'], by decide, by decide, 5, by decide, Or.inr (Or.inr ⟨rfl, rfl⟩)⟩
  exact absurd this (by decide)

theorem digitsVal_some_digits (s : Str) : ∀ a n, digitsVal a s = some n → ∀ c ∈ s, c.isDigit = true := by
  induction s with
  | nil => simp
  | cons c cs ih =>
    intro a n h
    simp only [digitsVal] at h
    split at h
    · rename_i hc
      intro x hx
      rcases List.mem_cons.1 hx with rfl | hx
      · exact hc
      · exact ih _ _ h x hx
    · simp at h

/-- What is true (partial: C14 asks for all integers): on strings, integer accepts exactly the decimal
texts, unsigned or with a plus sign, of numbers below 2^64. -/
theorem C14_string_integer_partial (env : Env) (e s : Str) (c : Bool) :
    strMatches env e s .integer c = true ↔
      ∃ n : Nat, DenotesInteger s n ∧ n < 2 ^ 64 ∧ ∀ ds, s ≠ '-' :: ds := by
  have key : ∀ r : Str, (parseDigits usizeLim r).isSome = true ↔
      r ≠ [] ∧ ∃ n, digitsVal 0 r = some n ∧ n < 2 ^ 64 := by
    intro r
    unfold parseDigits
    cases r with
    | nil => simp
    | cons d ds =>
      simp only [List.isEmpty_cons, Bool.false_eq_true, if_false]
      split
      · rename_i n hn; rw [hn]; split <;> simp_all [usizeLim]
      · rename_i hn; simp [hn]
  simp only [strMatches]
  constructor
  · intro h
    unfold parseUsize at h
    split at h
    · rename_i r
      obtain ⟨h1, n, h2, h3⟩ := (key r).1 h
      exact ⟨n, ⟨r, h1, digitsVal_some_digits r 0 n h2, n, h2, Or.inr (Or.inl ⟨rfl, rfl⟩)⟩, h3, by simp⟩
    · obtain ⟨h1, n, h2, h3⟩ := (key s).1 h
      refine ⟨n, ⟨s, h1, digitsVal_some_digits s 0 n h2, n, h2, Or.inl ⟨rfl, rfl⟩⟩, h3, ?_⟩
      intro ds hs
      have := digitsVal_some_digits s 0 n h2 '-' (by simp [hs])
      exact absurd this (by decide)
  · rintro ⟨n, ⟨ds, h1, h2, m, h3, h4⟩, h5, h6⟩
    rcases h4 with ⟨rfl, h4⟩ | ⟨rfl, h4⟩ | ⟨rfl, h4⟩
    · have hm : m = n := by omega
      subst hm
      rw [parseUsize_of_head]
      · exact (key s).2 ⟨h1, m, h3, h5⟩
      · intro r hr
        have := h2 '+' (by simp [hr])
        exact absurd this (by decide)
    · have hm : m = n := by omega
      subst hm
      show (parseDigits usizeLim ds).isSome = true
      exact (key ds).2 ⟨h1, m, h3, h5⟩
    · exact absurd rfl (h6 ds)

example : strMatches Env.simple [] "18446744073709551615".toList .integer false = true ∧
    strMatches Env.simple [] "18446744073709551616".toList .integer false = false ∧
    strMatches Env.simple [] "1.5".toList .integer false = false := by decide

/-! ### C36: equality of rules -/

/-- Is the rule a status-code rule? -/
def IsStatusRule : MatchingRule → Prop
  | .statusCode _ => True
  | _ => False

/-- The claim is false of the code: two status-code rules always compare equal, but behave differently
on a response status. -/
theorem C36_status_rules_confused :
    ∃ r s : MatchingRule, ruleEq r s = true ∧
      ∃ env e a c, u64Matches env e a r c ≠ u64Matches env e a s c :=
  ⟨.statusCode .success, .statusCode .clientError, by decide, Env.simple, 200, 200, false, by decide⟩

/-- ... so deduplication can turn an accepting rule list into a rejecting one. -/
theorem C36_dedup_changes_meaning :
    ∃ rl : RuleList, matchValues (u64Matches Env.simple 200 404) rl = .ok () ∧
      matchValues (u64Matches Env.simple 200 404) (removeDuplicates rl) ≠ .ok () :=
  ⟨⟨[.statusCode .success, .statusCode .clientError], .or, false⟩, rfl, by
    intro h
    have := (C10_or _ _ rfl).1 h
    revert this
    decide⟩

/-- What is true: two rules that compare equal, and are not status-code rules, give the same verdict in
every matcher (JSON values, strings, numbers, lists, maps). -/
theorem C36_equal_rules_agree_partial (r s : MatchingRule) (h : ruleEq r s = true) (hr : ¬ IsStatusRule r)
    (env : Env) (c : Bool) :
    (∀ e a, jsonMatches env e a r c = jsonMatches env e a s c) ∧
    (∀ e a, strMatches env e a r c = strMatches env e a s c) ∧
    (∀ e a, u64Matches env e a r c = u64Matches env e a s c) ∧
    (∀ {T : Type} (eq : List T → List T → Bool) e a, listMatches eq e a r c = listMatches eq e a s c) ∧
    (∀ {T : Type} (eq : List (Str × T) → List (Str × T) → Bool) e a,
      mapMatches eq e a r c = mapMatches eq e a s c) := by
  cases r <;> cases s <;> simp [ruleEq, IsStatusRule] at h hr <;>
    first
    | (subst h; exact ⟨fun _ _ => rfl, fun _ _ => rfl, fun _ _ => rfl, fun _ _ _ => rfl, fun _ _ _ => rfl⟩)
    | (obtain ⟨rfl, rfl⟩ := h
       exact ⟨fun _ _ => rfl, fun _ _ => rfl, fun _ _ => rfl, fun _ _ _ => rfl, fun _ _ _ => rfl⟩)
    | exact ⟨fun _ _ => rfl, fun _ _ => rfl, fun _ _ => rfl, fun _ _ _ => rfl, fun _ _ _ => rfl⟩

theorem ruleEq_kind {r s : MatchingRule} (h : ruleEq r s = true) : r.name = s.name := by
  cases r <;> cases s <;> simp [ruleEq] at h <;> rfl

theorem uniqueRules_sub (l : List MatchingRule) : ∀ seen, ∀ r ∈ uniqueRules seen l, r ∈ l := by
  induction l with
  | nil => simp [uniqueRules]
  | cons a as ih =>
    intro seen r hr
    simp only [uniqueRules] at hr
    split at hr
    · exact List.mem_cons_of_mem _ (ih _ r hr)
    · rcases List.mem_cons.1 hr with rfl | hr
      · simp
      · exact List.mem_cons_of_mem _ (ih _ r hr)

theorem uniqueRules_cover (l : List MatchingRule) : ∀ seen, ∀ r ∈ l,
    (∃ s ∈ seen, ruleEq s r = true) ∨ r ∈ uniqueRules seen l ∨ ∃ s ∈ uniqueRules seen l, ruleEq s r = true := by
  induction l with
  | nil => simp
  | cons a as ih =>
    intro seen r hr
    simp only [uniqueRules]
    split
    · rename_i hs
      simp only [List.any_eq_true] at hs
      rcases List.mem_cons.1 hr with rfl | hr
      · exact Or.inl hs
      · exact ih seen r hr
    · rcases List.mem_cons.1 hr with rfl | hr
      · exact Or.inr (Or.inl (by simp))
      · rcases ih (a :: seen) r hr with ⟨s, hs, he⟩ | h | ⟨s, hs, he⟩
        · rcases List.mem_cons.1 hs with rfl | hs
          · exact Or.inr (Or.inr ⟨s, by simp, he⟩)
          · exact Or.inl ⟨s, hs, he⟩
        · exact Or.inr (Or.inl (by simp [h]))
        · exact Or.inr (Or.inr ⟨s, by simp [hs], he⟩)

/-- Accepted by a rule list, by C10: non-empty and all / any. -/
theorem matchValues_ok_iff (v : MatchingRule → Bool → Bool) (rl : RuleList) :
    matchValues v rl = .ok () ↔ rl.rules ≠ [] ∧
      match rl.logic with
      | .and => ∀ r ∈ rl.rules, v r rl.cascaded = true
      | .or => ∃ r ∈ rl.rules, v r rl.cascaded = true := by
  cases hl : rl.logic with
  | and => exact C10_and v rl hl
  | or =>
    rw [C10_or v rl hl]
    constructor
    · rintro ⟨r, hr, h⟩; exact ⟨List.ne_nil_of_mem hr, r, hr, h⟩
    · exact fun h => h.2

/-- What is true (partial: rule lists without status-code rules): deduplication does not change which JSON
values, strings or numbers a rule list accepts. -/
theorem C36_dedup_preserves_partial (rl : RuleList) (hs : ∀ r ∈ rl.rules, ¬ IsStatusRule r) (env : Env) :
    (∀ e a, matchValues (jsonMatches env e a) (removeDuplicates rl) = .ok () ↔
      matchValues (jsonMatches env e a) rl = .ok ()) ∧
    (∀ e a, matchValues (strMatches env e a) (removeDuplicates rl) = .ok () ↔
      matchValues (strMatches env e a) rl = .ok ()) ∧
    (∀ e a, matchValues (u64Matches env e a) (removeDuplicates rl) = .ok () ↔
      matchValues (u64Matches env e a) rl = .ok ()) := by
  have gen : ∀ v : MatchingRule → Bool → Bool,
      (∀ r s c, ¬ IsStatusRule r → ruleEq r s = true → v r c = v s c) →
      (matchValues v (removeDuplicates rl) = .ok () ↔ matchValues v rl = .ok ()) := by
    intro v hv
    have hcov : ∀ r ∈ rl.rules, ∃ s ∈ uniqueRules [] rl.rules, v s rl.cascaded = v r rl.cascaded := by
      intro r hr
      rcases uniqueRules_cover rl.rules [] r hr with ⟨s, h, _⟩ | h | ⟨s, h, he⟩
      · simp at h
      · exact ⟨r, h, rfl⟩
      · exact ⟨s, h, hv s r _ (hs s (uniqueRules_sub _ _ s h)) he⟩
    have hsub := uniqueRules_sub rl.rules []
    have hne : uniqueRules [] rl.rules ≠ [] ↔ rl.rules ≠ [] := by
      constructor
      · intro h h'; rw [h'] at h; exact h rfl
      · intro h h'
        obtain ⟨r, hr⟩ := List.exists_mem_of_ne_nil _ h
        obtain ⟨s, h1, _⟩ := hcov r hr
        rw [h'] at h1; simp at h1
    rw [matchValues_ok_iff, matchValues_ok_iff]
    show uniqueRules [] rl.rules ≠ [] ∧ (match rl.logic with
      | .and => ∀ r ∈ uniqueRules [] rl.rules, v r rl.cascaded = true
      | .or => ∃ r ∈ uniqueRules [] rl.rules, v r rl.cascaded = true) ↔ _
    rw [hne]
    apply and_congr_right
    intro _
    cases rl.logic with
    | and =>
      constructor
      · intro h r hr
        obtain ⟨s, h1, h2⟩ := hcov r hr
        rw [← h2]; exact h s h1
      · exact fun h r hr => h r (hsub r hr)
    | or =>
      constructor
      · rintro ⟨r, hr, h⟩; exact ⟨r, hsub r hr, h⟩
      · rintro ⟨r, hr, h⟩
        obtain ⟨s, h1, h2⟩ := hcov r hr
        exact ⟨s, h1, h2 ▸ h⟩
  refine ⟨fun e a => gen _ ?_, fun e a => gen _ ?_, fun e a => gen _ ?_⟩
  · exact fun r s c hr h => (C36_equal_rules_agree_partial r s h hr env c).1 e a
  · exact fun r s c hr h => (C36_equal_rules_agree_partial r s h hr env c).2.1 e a
  · exact fun r s c hr h => (C36_equal_rules_agree_partial r s h hr env c).2.2.1 e a

/-- Non-vacuity: a list that deduplication does shorten. -/
example : (removeDuplicates ⟨[.type, .regex "a".toList, .type, .regex "b".toList], .and, false⟩).rules.length
    = 3 := by decide

/-- **C36**: rules that do not compare equal because of a payload are different rules; and equality is
reflexive for every payload-free or scalar-payload rule. -/
theorem C36_scalar_equality_exact (r s : MatchingRule) (hr : ¬ IsStatusRule r)
    (h1 : ∀ v, r ≠ .arrayContains v) (h2 : ∀ d, r ≠ .eachKey d) (h3 : ∀ d, r ≠ .eachValue d) :
    ruleEq r s = true ↔ r = s := by
  cases r <;> simp [IsStatusRule] at hr h1 h2 h3 <;> cases s <;> simp [ruleEq]

end Verif.MatcherProps
