import Verif.Props.QueryProps

/-
  Properties C24 (header names are compared ignoring case), C45 for headers (a rule on a header applies to
  every value) and C46 (parameters of `Accept` and `Content-Type`).
-/

set_option autoImplicit false

namespace Verif.HeaderProps
open Verif.Path Verif.Rules Verif.Matchers Verif.Compare Verif.Query Verif.Headers
open Verif.CompareProps (NoRules noRules_isDefined compareListsWithRules_ok matches_join)
open Verif.QueryProps (AllMatched Reported IsTextRule textRule_ignores_example)

/-! ### C24: re-casing -/

/-- `f` changes the case of names only. -/
def Recases (uc : UC) (f : Str → Str) : Prop := ∀ k, uc.lower (f k) = uc.lower k

/-- The header map with its names changed by `f`. -/
def renamed (f : Str → Str) (m : HeaderMap) : HeaderMap := m.map (fun kv => (f kv.1, kv.2))

/-- The verdicts, without the names. -/
def verdicts (r : EntryResults) : List (List Mismatch) := r.map (·.2)

theorem matchHeaderValue_lower (env : Env) (uc : UC) {k k' : Str} (h : uc.lower k = uc.lower k') :
    matchHeaderValue env uc k = matchHeaderValue env uc k' := by
  funext i e a ctx
  simp only [matchHeaderValue, h]

theorem headerLoop_lower (env : Env) (uc : UC) {k k' : Str} (h : uc.lower k = uc.lower k') (ctx : Ctx)
    (a : List Str) : ∀ i e, headerLoop env uc k ctx i e a = headerLoop env uc k' ctx i e a := by
  induction a with
  | nil => intro i e; simp [headerLoop, h]
  | cons x xs ih => intro i e; simp [headerLoop, matchHeaderValue_lower env uc h, ih]

theorem matchHeaderEntry_lower (env : Env) (uc : UC) {k k' : Str} (h : uc.lower k = uc.lower k')
    (e a : List Str) (ctx : Ctx) :
    matchHeaderEntry env uc k e a ctx = matchHeaderEntry env uc k' e a ctx := by
  unfold matchHeaderEntry
  simp only [h, matchHeaderValue_lower env uc h, headerLoop_lower env uc h]

theorem findEntry_lower {V : Type} (uc : UC) {k k' : Str} (h : uc.lower k = uc.lower k') (m : List (Str × V)) :
    findEntry uc m k = findEntry uc m k' := by
  unfold findEntry; rw [h]

theorem findEntry_renamed (uc : UC) (g : Str → Str) (hg : Recases uc g) (m : HeaderMap) (k : Str) :
    findEntry uc (renamed g m) k = findEntry uc m k := by
  unfold findEntry renamed
  induction m with
  | nil => rfl
  | cons x xs ih =>
    simp only [List.map_cons, List.find?_cons, hg x.1]
    split
    · rfl
    · exact ih

theorem lowerCat_recase (uc : UC) (h : DocPath → DocPath) (hh : ∀ p, toLowerCase uc (h p) = toLowerCase uc p)
    (c : RuleCategory) :
    lowerCat uc ⟨c.name, c.rules.map (fun e => (h e.1, e.2))⟩ = lowerCat uc c := by
  unfold lowerCat
  simp only [List.foldl_map, hh]

/-- **C24**: changing the case of the names of the expected headers, of the actual headers and in the paths
of the header rules does not change the verdict on any header. -/
theorem C24_case_insensitive (env : Env) (uc : UC) (e a : Option HeaderMap) (rules : RuleCategory)
    (config : DiffConfig) (f g : Str → Str) (hf : Recases uc f) (hg : Recases uc g)
    (h : DocPath → DocPath) (hh : ∀ p, toLowerCase uc (h p) = toLowerCase uc p) :
    verdicts (compareHeaders env uc (e.map (renamed f)) (a.map (renamed g))
      ⟨rules.name, rules.rules.map (fun x => (h x.1, x.2))⟩ config)
      = verdicts (compareHeaders env uc e a rules config) := by
  unfold compareHeaders lowerCtx
  simp only [lowerCat_recase uc h hh]
  unfold verdicts
  cases a with
  | none =>
    cases e with
    | none => rfl
    | some e =>
      simp only [Option.map_none, Option.map_some, matchHeaders, renamed, List.map_map]
      apply List.map_congr_left
      intro x _
      simp [hf x.1]
  | some a =>
    cases e with
    | none => rfl
    | some e =>
      simp only [Option.map_some, matchHeaders, matchHeaderMaps]
      simp only [findEntry_renamed uc g hg]
      simp only [renamed, List.map_map]
      apply List.map_congr_left
      intro x _
      simp only [Function.comp, findEntry_lower uc (hf x.1), hf x.1]
      cases findEntry uc a x.1 with
      | none => rfl
      | some av => simp only [matchHeaderEntry_lower env uc (hf x.1)]

/-- **C24**: an expected header that is missing, whatever the case of its name, is reported, whatever the
rules. -/
theorem C24_missing_reported (env : Env) (uc : UC) (e a : Option HeaderMap) (rules : RuleCategory)
    (config : DiffConfig) (k : Str) (hk : k ∈ (e.getD []).map (·.1))
    (ha : ∀ k' ∈ (a.getD []).map (·.1), uc.lower k' ≠ uc.lower k) :
    Reported (compareHeaders env uc e a rules config) k := by
  cases e with
  | none => simp at hk
  | some e =>
    obtain ⟨kv, hm, rfl⟩ := List.mem_map.1 hk
    cases a with
    | none => exact ⟨_, List.mem_map.2 ⟨kv, hm, rfl⟩, by simp⟩
    | some a =>
      refine ⟨_, List.mem_map.2 ⟨kv, hm, rfl⟩, ?_⟩
      have : findEntry uc a kv.1 = none := by
        unfold findEntry
        rw [Option.map_eq_none_iff, List.find?_eq_none]
        intro x hx
        simpa using ha x.1 (List.mem_map.2 ⟨x, hx, rfl⟩)
      rw [this]; simp

theorem find?_filter_of_imp {α : Type} (p q : α → Bool) (l : List α) (h : ∀ x ∈ l, p x = true → q x = true) :
    (l.filter q).find? p = l.find? p := by
  induction l with
  | nil => rfl
  | cons x xs ih =>
    have ih := ih (fun y hy => h y (by simp [hy]))
    simp only [List.filter_cons, List.find?_cons]
    cases hp : p x with
    | true => simp [h x (by simp) hp, hp]
    | false =>
      cases hq : q x with
      | true => simp [hp, ih]
      | false => simp [ih]

/-- **C24**: headers that are not expected (under any case of the name) have no influence, whatever the
rules: dropping them gives the same result. -/
theorem C24_extra_ignored (env : Env) (uc : UC) (e a : HeaderMap) (rules : RuleCategory)
    (config : DiffConfig) :
    compareHeaders env uc (some e) (some a) rules config = compareHeaders env uc (some e)
      (some (a.filter (fun kv => e.any (fun x => decide (uc.lower kv.1 = uc.lower x.1))))) rules config := by
  unfold compareHeaders
  simp only [matchHeaders, matchHeaderMaps]
  apply List.map_congr_left
  intro x hx
  have : findEntry uc (a.filter (fun kv => e.any (fun x => decide (uc.lower kv.1 = uc.lower x.1)))) x.1
      = findEntry uc a x.1 := by
    unfold findEntry
    rw [find?_filter_of_imp]
    intro y _ hy
    rw [List.any_eq_true]
    exact ⟨x, hx, by simpa using hy⟩
  rw [this]

/-- The names are distinct ignoring case. -/
def CaseNodup (uc : UC) (m : HeaderMap) : Prop := (m.map (fun kv => uc.lower kv.1)).Nodup

theorem findEntry_of_mem (uc : UC) (m : HeaderMap) (hn : CaseNodup uc m) (k k' : Str) (v : List Str)
    (hm : (k', v) ∈ m) (h : uc.lower k' = uc.lower k) : findEntry uc m k = some v := by
  induction m with
  | nil => simp at hm
  | cons x xs ih =>
    unfold CaseNodup at hn
    simp only [List.map_cons, List.nodup_cons] at hn
    unfold findEntry
    simp only [List.find?_cons]
    by_cases hx : uc.lower x.1 = uc.lower k
    · simp only [hx, decide_true, Option.map_some]
      rcases List.mem_cons.1 hm with rfl | hm
      · rfl
      · exact absurd (List.mem_map.2 ⟨_, hm, rfl⟩) (by rw [hx, ← h] at hn; exact hn.1)
    · simp only [hx, decide_false]
      rcases List.mem_cons.1 hm with rfl | hm
      · exact absurd h hx
      · exact ih hn.2 hm

theorem findEntry_some (uc : UC) (m : HeaderMap) (k : Str) (v : List Str) (h : findEntry uc m k = some v) :
    ∃ k', (k', v) ∈ m ∧ uc.lower k' = uc.lower k := by
  unfold findEntry at h
  rw [Option.map_eq_some_iff] at h
  obtain ⟨x, hx, rfl⟩ := h
  exact ⟨x.1, List.mem_of_find?_eq_some hx, by simpa using List.find?_some hx⟩

/-- **C24**: the verdict does not depend on the (hash) order of the actual headers, if their names are
distinct ignoring case. -/
theorem C24_order_independent_partial (env : Env) (uc : UC) (e a a' : HeaderMap) (rules : RuleCategory)
    (config : DiffConfig) (hp : a.Perm a') (hn : CaseNodup uc a) :
    compareHeaders env uc (some e) (some a) rules config
      = compareHeaders env uc (some e) (some a') rules config := by
  unfold compareHeaders
  simp only [matchHeaders, matchHeaderMaps]
  apply List.map_congr_left
  intro x _
  have hn' : CaseNodup uc a' := (hp.map _).nodup_iff.1 hn
  have : findEntry uc a x.1 = findEntry uc a' x.1 := by
    cases h : findEntry uc a x.1 with
    | some v =>
      obtain ⟨k', hm, hk⟩ := findEntry_some _ _ _ _ h
      exact (findEntry_of_mem uc a' hn' _ _ _ (hp.mem_iff.1 hm) hk).symm
    | none =>
      cases h' : findEntry uc a' x.1 with
      | none => rfl
      | some v =>
        obtain ⟨k', hm, hk⟩ := findEntry_some _ _ _ _ h'
        rw [findEntry_of_mem uc a hn _ _ _ (hp.mem_iff.2 hm) hk] at h
        cases h
  rw [this]

/-- Finding: if two actual headers differ in case only, the verdict depends on the iteration order of the
hash map. -/
theorem C24_ambiguous_names : ∃ (e a a' : HeaderMap) (rules : RuleCategory), a.Perm a' ∧
    AllMatched (compareHeaders Env.simple UC.ascii (some e) (some a) rules .noUnexpectedKeys) ∧
    ¬ AllMatched (compareHeaders Env.simple UC.ascii (some e) (some a') rules .noUnexpectedKeys) := by
  refine ⟨[("A".toList, ["1".toList])], [("A".toList, ["1".toList]), ("a".toList, ["2".toList])],
    [("a".toList, ["2".toList]), ("A".toList, ["1".toList])], ⟨.header, []⟩, List.Perm.swap _ _ _, ?_, ?_⟩
  · unfold AllMatched; decide
  · unfold AllMatched; decide

/-! ### C24: values without rules; C46: parameterised headers -/

/-- The non-blank parts of a header value, separated by `;`. -/
def parts (uc : UC) (s : Str) : List Str := ((splitOn ';' s).map (trim uc)).filter (fun v => decide (v ≠ []))

/-- A part of the form `name=value`. -/
def paramPart (uc : UC) (p : Str) : Option (Str × Str) :=
  (splitOnce '=' p).map (fun kv => (trim uc kv.1, trim uc kv.2))

/-- Specification: the value of a parameter; the last occurrence counts. -/
def paramOf (uc : UC) (s : Str) (name : Str) : Option Str :=
  ((parts uc s).tail.filterMap (paramPart uc)).reverse.lookup name

/-- Specification: both values have the same main part, and each parameter of the first occurs in the second
with the same value (ignoring ASCII case). -/
def SameMedia (uc : UC) (e a : Str) : Prop :=
  (parts uc e).headD [] = (parts uc a).headD [] ∧
  ∀ name v, paramOf uc e name = some v → ∃ w, paramOf uc a name = some w ∧ asciiLower v = asciiLower w

theorem lookup_insertKV {V : Type} (k : Str) (v : V) (m : List (Str × V)) (k' : Str) :
    Json.lookup k' (insertKV k v m) = if k' = k then some v else Json.lookup k' m := by
  induction m with
  | nil => simp [insertKV, Json.lookup, eq_comm]
  | cons x xs ih =>
    unfold insertKV
    split
    · rename_i hx
      simp only [Json.lookup]
      by_cases hk : k' = k
      · simp [hk]
      · simp [hk, hx, Ne.symm hk]
    · rename_i hx
      simp only [Json.lookup, ih]
      by_cases hk : x.1 = k'
      · have : k' ≠ k := by rintro rfl; exact hx hk
        simp [hk, this]
      · simp [hk]

theorem insertKV_nodup {V : Type} (k : Str) (v : V) (m : List (Str × V)) (h : (m.map (·.1)).Nodup) :
    ((insertKV k v m).map (·.1)).Nodup ∧ ∀ x, x ∈ (insertKV k v m).map (·.1) → x = k ∨ x ∈ m.map (·.1) := by
  induction m with
  | nil => simp [insertKV]
  | cons y ys ih =>
    simp only [List.map_cons, List.nodup_cons] at h
    unfold insertKV
    split
    · rename_i hy
      subst hy
      refine ⟨by simpa using h, fun x hx => ?_⟩
      simpa using hx
    · rename_i hy
      obtain ⟨h1, h2⟩ := ih h.2
      refine ⟨?_, ?_⟩
      · simp only [List.map_cons, List.nodup_cons]
        refine ⟨fun hc => ?_, h1⟩
        rcases h2 _ hc with hk | hk
        · exact hy hk
        · exact h.1 hk
      · intro x hx
        simp only [List.map_cons, List.mem_cons] at hx ⊢
        rcases hx with hx | hx
        · exact Or.inr (Or.inl hx)
        · rcases h2 _ hx with hk | hk
          · exact Or.inl hk
          · exact Or.inr (Or.inr hk)

theorem parse_step (uc : UC) (ps : List Str) : ∀ m : List (Str × Str),
    ps.foldl (charsetStep uc) m = (ps.filterMap (paramPart uc)).foldl (fun m kv => insertKV kv.1 kv.2 m) m := by
  induction ps with
  | nil => intro m; rfl
  | cons p ps ih =>
    intro m
    simp only [List.foldl_cons, ih, List.filterMap_cons, paramPart, charsetStep]
    cases splitOnce '=' p with
    | none => rfl
    | some kv => rfl

theorem foldl_insert_lookup (l : List (Str × Str)) : ∀ (m : List (Str × Str)) (k : Str),
    Json.lookup k (l.foldl (fun m kv => insertKV kv.1 kv.2 m) m)
      = (l.reverse.lookup k).or (Json.lookup k m) := by
  induction l with
  | nil => intro m k; simp
  | cons x xs ih =>
    intro m k
    simp only [List.foldl_cons, ih, lookup_insertKV, List.reverse_cons]
    have : ∀ (l : List (Str × Str)) (x : Str × Str),
        (l ++ [x]).lookup k = (l.lookup k).or (if k = x.1 then some x.2 else none) := by
      intro l x
      induction l with
      | nil =>
        obtain ⟨a, b⟩ := x
        by_cases h : k = a
        · simp [List.lookup, h]
        · simp [List.lookup, h, beq_false_of_ne h]
      | cons y ys ih =>
        obtain ⟨c, d⟩ := y
        simp only [List.cons_append, List.lookup]
        split
        · simp
        · exact ih
    rw [this]
    cases List.lookup k xs.reverse with
    | some v => simp
    | none =>
      by_cases h : k = x.1 <;> simp [h]

theorem foldl_insert_nodup (l : List (Str × Str)) : ∀ (m : List (Str × Str)), (m.map (·.1)).Nodup →
    ((l.foldl (fun m kv => insertKV kv.1 kv.2 m) m).map (·.1)).Nodup := by
  induction l with
  | nil => intro m h; exact h
  | cons x xs ih => intro m h; exact ih _ (insertKV_nodup _ _ _ h).1

theorem parts_eq (uc : UC) (s : Str) : stripWhitespace uc s = parts uc s := by
  unfold stripWhitespace parts
  congr 1
  funext v
  cases v <;> rfl

theorem parse_lookup (uc : UC) (s : Str) (name : Str) :
    Json.lookup name (parseCharsetParameters uc (parts uc s).tail) = paramOf uc s name := by
  unfold parseCharsetParameters paramOf
  rw [parse_step, foldl_insert_lookup]
  simp [Json.lookup]

/-- **C46**: `Accept` and `Content-Type` values match iff the main values are equal and every expected
parameter occurs with the same value ignoring ASCII case; spaces, the order of the parameters and additional
parameters are irrelevant. -/
theorem C46_parameter_header (uc : UC) (e a : Str) : matchParameterHeader uc e a = 0 ↔ SameMedia uc e a := by
  unfold matchParameterHeader SameMedia
  simp only [parts_eq]
  split
  · rename_i hh
    simp only [hh, true_and, List.length_eq_zero_iff, List.filter_eq_nil_iff]
    simp only [parse_lookup]
    have hnd : ((parseCharsetParameters uc (parts uc e).tail).map (·.1)).Nodup := by
      unfold parseCharsetParameters
      rw [parse_step]
      exact foldl_insert_nodup _ _ (by simp)
    constructor
    · intro h name v hv
      rw [← parse_lookup] at hv
      have := h _ (Json.lookup_mem hv)
      simp only at this
      cases hw : paramOf uc a name with
      | none => simp [hw] at this
      | some w =>
        simp only [hw, decide_eq_true_eq, Decidable.not_not] at this
        exact ⟨w, rfl, this⟩
    · intro h kv hkv
      have := Json.lookup_of_mem hnd hkv
      rw [parse_lookup] at this
      obtain ⟨w, hw, heq⟩ := h _ _ this
      simp [hw, heq]
  · rename_i hh
    simp only [hh, false_and, iff_false]
    exact Nat.one_ne_zero

theorem splitOn_ne_nil (c : Char) (s : Str) : splitOn c s ≠ [] := by
  cases s with
  | nil => simp [splitOn]
  | cons x xs =>
    simp only [splitOn]
    split
    · simp
    · split <;> simp

theorem splitOn_append (c : Char) (s t : Str) : splitOn c (s ++ c :: t) = splitOn c s ++ splitOn c t := by
  induction s with
  | nil => simp [splitOn]
  | cons x xs ih =>
    simp only [List.cons_append, splitOn, ih]
    split
    · rfl
    · cases h : splitOn c xs with
      | nil => exact absurd h (splitOn_ne_nil c xs)
      | cons p ps => rfl

theorem parts_append (uc : UC) (s t : Str) : parts uc (s ++ ';' :: t) = parts uc s ++ parts uc t := by
  simp [parts, splitOn_append]

/-- **C46**: parameters added at the end of the actual value do not matter, unless they redefine one of the
expected parameters. -/
theorem C46_extra_parameters (uc : UC) (e a x : Str) (ha : parts uc a ≠ [])
    (hx : ∀ kv ∈ (parts uc x).filterMap (paramPart uc), paramOf uc e kv.1 = none) :
    SameMedia uc e (a ++ ';' :: x) ↔ SameMedia uc e a := by
  unfold SameMedia
  have hhead : (parts uc (a ++ ';' :: x)).headD [] = (parts uc a).headD [] := by
    rw [parts_append]
    cases h : parts uc a with
    | nil => exact absurd h ha
    | cons p ps => rfl
  have hpar : ∀ name v, paramOf uc e name = some v → paramOf uc (a ++ ';' :: x) name = paramOf uc a name := by
    intro name v hv
    unfold paramOf
    rw [parts_append]
    have htail : (parts uc a ++ parts uc x).tail = (parts uc a).tail ++ parts uc x := by
      cases h : parts uc a with
      | nil => exact absurd h ha
      | cons p ps => rfl
    rw [htail, List.filterMap_append, List.reverse_append, List.lookup_append]
    have : List.lookup name ((parts uc x).filterMap (paramPart uc)).reverse = none := by
      rw [List.lookup_eq_none_iff]
      intro kv hkv
      have := hx kv (List.mem_reverse.1 hkv)
      simp only [bne_iff_ne, ne_eq]
      rintro rfl
      rw [hv] at this
      cases this
    rw [this]; rfl
  rw [hhead]
  apply and_congr_right
  intro _
  constructor
  · intro h name v hv
    obtain ⟨w, hw, he⟩ := h name v hv
    exact ⟨w, by rw [← hpar name v hv]; exact hw, he⟩
  · intro h name v hv
    obtain ⟨w, hw, he⟩ := h name v hv
    exact ⟨w, by rw [hpar name v hv]; exact hw, he⟩

/-- Specification of the values of a header without rules: equal up to surrounding white space for ordinary
headers, `SameMedia` for `Accept` and `Content-Type`. -/
def SameValue (uc : UC) (key e a : Str) : Prop :=
  if uc.lower key ∈ ["accept".toList, "content-type".toList] then SameMedia uc (trim uc e) (trim uc a)
  else trim uc e = trim uc a

theorem headerValue_ok (env : Env) (uc : UC) (key : Str) (i : Nat) (e a : Str) (ctx : Ctx) (h : NoRules ctx) :
    errs (matchHeaderValue env uc key i e a ctx) = [] ↔ SameValue uc key e a := by
  unfold matchHeaderValue SameValue
  simp only [noRules_isDefined h, Bool.false_eq_true, if_false, strMatches]
  by_cases hk : uc.lower key ∈ ["accept".toList, "content-type".toList]
  · have : parameterisedHeaders.contains (uc.lower key) = true := by
      simpa [parameterisedHeaders] using hk
    simp only [this, if_true, hk]
    rw [errs_ofList, ← C46_parameter_header]
    simp
  · have : parameterisedHeaders.contains (uc.lower key) = false := by
      simpa [parameterisedHeaders] using hk
    simp only [this, Bool.false_eq_true, if_false, hk]
    by_cases he : trim uc e = trim uc a <;> simp [he, errs]

/-- Specification of the value lists of a header without rules: the actual values follow the expected ones
position by position.  (Additional actual values are compared with the empty value, and so are accepted if
they are blank.) -/
inductive SameValues (uc : UC) (key : Str) : List Str → List Str → Prop
  | nil : SameValues uc key [] []
  | cons (e a es as) (h : SameValue uc key e a) (hs : SameValues uc key es as) :
      SameValues uc key (e :: es) (a :: as)
  | extra (a as) (h : SameValue uc key [] a) (hs : SameValues uc key [] as) : SameValues uc key [] (a :: as)

theorem headerLoop_nil (env : Env) (uc : UC) (key : Str) (ctx : Ctx) (h : NoRules ctx) (a : List Str) :
    ∀ i e, headerLoop env uc key ctx i e a = [] ↔ SameValues uc key e a := by
  induction a with
  | nil =>
    intro i e
    cases e with
    | nil => simp [headerLoop]; exact .nil
    | cons x xs =>
      simp only [headerLoop, List.map_cons, reduceCtorEq, false_iff]
      intro hs; cases hs
  | cons y ys ih =>
    intro i e
    simp only [headerLoop, List.append_eq_nil_iff, headerValue_ok env uc key i _ _ ctx h, ih]
    cases e with
    | nil =>
      constructor
      · rintro ⟨h1, h2⟩; exact .extra _ _ h1 h2
      · intro hs; cases hs with | extra _ _ h1 h2 => exact ⟨h1, h2⟩
    | cons x xs =>
      constructor
      · rintro ⟨h1, h2⟩; exact .cons _ _ _ _ h1 h2
      · intro hs; cases hs with | cons _ _ _ _ h1 h2 => exact ⟨h1, h2⟩

theorem headerEntry_ok (env : Env) (uc : UC) (key : Str) (e a : List Str) (ctx : Ctx) (h : NoRules ctx) :
    matchHeaderEntry env uc key e a ctx = [] ↔ (e = [] → a = []) ∧ SameValues uc key e a := by
  unfold matchHeaderEntry
  simp only [noRules_isDefined h, Bool.false_eq_true, if_false]
  split
  · rename_i hc
    simp only [Bool.and_eq_true, List.isEmpty_iff, Bool.not_eq_true'] at hc
    obtain ⟨rfl, ha⟩ := hc
    cases a <;> simp_all
  · rename_i hc
    have hea : e = [] → a = [] := by
      rintro rfl
      cases a <;> simp_all
    rw [and_iff_right hea]
    split
    · rename_i ev av
      rw [headerValue_ok env uc key 0 ev av ctx h]
      constructor
      · intro hv; exact .cons _ _ _ _ hv .nil
      · intro hs; cases hs with | cons _ _ _ _ h1 h2 => exact h1
    · exact headerLoop_nil env uc key ctx h a 0 e

/-- **C24**: without rules, nothing is reported iff every expected header occurs, under any case of its name,
with the same values. -/
theorem C24_no_rules (env : Env) (uc : UC) (e a : HeaderMap) (name : Category) (config : DiffConfig)
    (hn : CaseNodup uc a) :
    AllMatched (compareHeaders env uc (some e) (some a) ⟨name, []⟩ config) ↔
      ∀ k v, (k, v) ∈ e → ∃ k' w, (k', w) ∈ a ∧ uc.lower k' = uc.lower k ∧ (v = [] → w = []) ∧
        SameValues uc k v w := by
  have hnr : NoRules (lowerCtx uc ⟨⟨name, []⟩, config⟩) := rfl
  unfold AllMatched compareHeaders
  simp only [matchHeaders, matchHeaderMaps, List.mem_map, forall_exists_index, and_imp,
    forall_apply_eq_imp_iff₂]
  constructor
  · intro h k v hm
    have := h (k, v) hm
    simp only at this
    cases hf : findEntry uc a k with
    | none => simp [hf] at this
    | some w =>
      obtain ⟨k', hm', hk⟩ := findEntry_some _ _ _ _ hf
      simp only [hf] at this
      exact ⟨k', w, hm', hk, (headerEntry_ok env uc k v w _ hnr).1 this⟩
  · rintro h ⟨k, v⟩ hm
    obtain ⟨k', w, hm', hk, hs⟩ := h k v hm
    simp only [findEntry_of_mem uc a hn _ _ _ hm' hk]
    exact (headerEntry_ok env uc k v w _ hnr).2 hs

/-! ### C45 for headers -/

theorem oneHeader_best {ctx : Ctx} {q : DocPath} {r : MatchingRule} {lg : RuleLogic} {c : Bool}
    (h : ctx.cat = ⟨.header, [(q, ⟨[r], lg, c⟩)]⟩)
    (p : DocPath) (hm : matchesPath q.tokens (toVec p) = true) :
    isDefined ctx p = true ∧ best ctx p = ⟨[r], lg, c⟩ := by
  unfold isDefined best matcherIsDefined selectBestMatcher resolveMatchersForPath filterCat
  rw [h]
  simp [hm, asRuleList]

theorem lowerCat_single (uc : UC) (q : DocPath) (rl : RuleList) :
    lowerCat uc ⟨.header, [(q, rl)]⟩ = ⟨.header, [(toLowerCase uc q, rl)]⟩ := rfl

theorem oneHeader_value (env : Env) (uc : UC) {ctx : Ctx} {q : DocPath} {r : MatchingRule} {lg : RuleLogic}
    {c : Bool} (h : ctx.cat = ⟨.header, [(q, ⟨[r], lg, c⟩)]⟩) (hr : IsTextRule r) (key : Str)
    (hm : matchesPath q.tokens (toVec (join rootPath (uc.lower key))) = true) (i : Nat) (e a : Str) :
    isOk (matchHeaderValue env uc key i e a ctx) = true ↔ strMatches env [] (trim uc a) r c = true := by
  obtain ⟨hd, hb⟩ := oneHeader_best h _ hm
  unfold matchHeaderValue
  simp only [hd, if_true, hb]
  rw [textRule_ignores_example env r hr [] (trim uc e)]
  have := MatcherProps.matchValues_ok_iff (strMatches env (trim uc e) (trim uc a)) ⟨[r], lg, c⟩
  have h2 : matchValues (strMatches env (trim uc e) (trim uc a)) ⟨[r], lg, c⟩ = .ok () ↔
      strMatches env (trim uc e) (trim uc a) r c = true := by
    rw [this]; cases lg <;> simp
  rw [← h2]
  split
  · rename_i hok; rw [hok]; exact ⟨fun _ => rfl, fun _ => rfl⟩
  · rename_i hok; rw [hok]; exact ⟨fun h => by simp [isOk] at h, fun h => by cases h⟩

theorem matchHeaderValue_consistent (env : Env) (uc : UC) (key : Str) (i : Nat) (e a : Str) (ctx : Ctx) :
    Consistent (matchHeaderValue env uc key i e a ctx) := by
  have hm : ∀ (v : MatchingRule → Bool → Bool) (rl : RuleList) (p : DocPath),
      Consistent (match matchValues v rl with
        | .ok _ => .ok ()
        | .error ms => .error (ms.map fun _ => ⟨p, .value⟩)) := by
    intro v rl p
    split
    · exact consistent_ok
    · rename_i ms hms
      have := MatcherProps.C10_errors _ _ _ hms
      cases ms with
      | nil => exact absurd rfl this.1
      | cons m ms => exact consistent_error _ _
  unfold matchHeaderValue
  simp only
  split
  · exact hm _ _ _
  · split
    · exact hm _ _ _
    · split
      · exact consistent_ofList _
      · split
        · exact consistent_ok
        · exact consistent_error _ _

/-- **C45**, headers: a rule about text on a header (with a non-empty example) accepts a header iff every one
of its values, without surrounding white space, satisfies the rule.  The rule may be written with any case:
its path is lower-cased (twice, which must not make a difference). -/
theorem C45_header_rule_partial (env : Env) (uc : UC) (q : DocPath) (r : MatchingRule) (lg : RuleLogic) (c : Bool)
    (config : DiffConfig) (key : Str) (hr : IsTextRule r)
    (hidem : toLowerCase uc (toLowerCase uc q) = toLowerCase uc q)
    (hm : matchesPath (toLowerCase uc q).tokens (toVec (join rootPath (uc.lower key))) = true)
    (e a : List Str) (he : e ≠ []) :
    matchHeaderEntry env uc key e a (lowerCtx uc ⟨⟨.header, [(q, ⟨[r], lg, c⟩)]⟩, config⟩) = [] ↔
      ∀ v ∈ a, strMatches env [] (trim uc v) r c = true := by
  generalize hctx : lowerCtx uc ⟨⟨.header, [(q, ⟨[r], lg, c⟩)]⟩, config⟩ = ctx
  have hcat : ctx.cat = ⟨.header, [(toLowerCase uc q, ⟨[r], lg, c⟩)]⟩ := by rw [← hctx]; rfl
  have hlow : lowerCtx uc ctx = ctx := by
    rw [← hctx]
    simp only [lowerCtx, lowerCat_single, hidem]
  obtain ⟨hd, hb⟩ := oneHeader_best hcat _ hm
  have hval := fun i e a => oneHeader_value env uc hcat hr key hm i e a
  unfold matchHeaderEntry
  have hne : (e.isEmpty && !a.isEmpty) = false := by cases e <;> simp_all
  simp only [hne, Bool.false_eq_true, if_false, hd, if_true, hb, hlow]
  split
  · rename_i ev av
    rw [← (matchHeaderValue_consistent env uc key 0 ev av ctx).isOk_iff, hval]
    simp
  · have hcon := compareListsWithRules_consistent listEqStr
      (fun _ e a c => matchHeaderValue env uc key 0 e a (lowerCtx uc c)) ⟨[r], lg, c⟩
      (join rootPath (uc.lower key)) e a ctx
    rw [← hcon.isOk_iff, compareListsWithRules_ok]
    have hl : listMatches listEqStr e a r c = true := by
      cases r <;> simp [IsTextRule] at hr <;> rfl
    have hone : isOk (compareListsWithRule listEqStr
        (fun _ e a c => matchHeaderValue env uc key 0 e a (lowerCtx uc c)) r
        (join rootPath (uc.lower key)) e a ctx c) = true ↔ ∀ v ∈ a, strMatches env [] (trim uc v) r c = true := by
      have hun : compareListsWithRule listEqStr
          (fun _ e a c => matchHeaderValue env uc key 0 e a (lowerCtx uc c)) r
          (join rootPath (uc.lower key)) e a ctx c =
          ofList (matchListContents (fun _ e a c => matchHeaderValue env uc key 0 e a (lowerCtx uc c))
            (join rootPath (uc.lower key)) e a ctx) := by
        cases e with
        | nil => exact absurd rfl he
        | cons e0 es =>
          cases r <;> simp [IsTextRule] at hr <;> simp [compareListsWithRule, hl]
      rw [hun, isOk_ofList, List.isEmpty_iff]
      unfold matchListContents
      rw [listContents_nil _ _ _ _ (fun x _ q y c => matchHeaderValue_consistent env uc key 0 x y _)]
      constructor
      · intro hall v hv
        obtain ⟨j, hj, hjv⟩ := List.getElem_of_mem hv
        have hp : ∃ x, (padded e a)[j]? = some x := by
          cases e with
          | nil => exact absurd rfl he
          | cons e0 es =>
            have : j < (padded (e0 :: es) a).length := by
              simp only [padded, List.length_append, List.length_replicate, List.length_cons]; omega
            exact ⟨_, List.getElem?_eq_getElem this⟩
        obtain ⟨x, hx⟩ := hp
        have := hall j x hx
        rw [List.getElem?_eq_getElem hj, hjv] at this
        simp only [itemOk, hlow] at this
        exact (hval _ _ _).1 this
      · intro hall j x hx
        cases ha : a[j]? with
        | none =>
          simp only [itemOk]
          exact (oneHeader_best hcat _ (matches_join _ hm)).1
        | some v =>
          simp only [itemOk, hlow]
          exact (hval _ _ _).2 (hall v (List.mem_of_getElem? ha))
    cases lg <;> simp only [ne_eq, reduceCtorEq, not_false_eq_true, List.mem_singleton, forall_eq,
      exists_eq_left, true_and, List.cons_ne_nil] <;> exact hone

/-! ### Non-vacuity -/

/-- Changing every `A` into `a` is a re-casing. -/
def lowerA (s : Str) : Str := s.map (fun c => if c = 'A' then 'a' else c)
example : Recases UC.ascii lowerA := by
  intro k
  simp only [UC.ascii, lowerA, List.map_map]
  apply List.map_congr_left
  intro c _
  simp only [Function.comp]
  by_cases h : c = 'A'
  · subst h; decide
  · simp [h]
example : CaseNodup UC.ascii [("X-A".toList, ["1".toList]), ("x-b".toList, ["2".toList, "3".toList])] := by
  unfold CaseNodup; decide
example : AllMatched (compareHeaders Env.simple UC.ascii (some [("X-B".toList, ["2".toList, " 3".toList])])
    (some [("X-A".toList, ["1".toList]), ("x-b".toList, ["2".toList, "3".toList])]) ⟨.header, []⟩
    .noUnexpectedKeys) := by
  unfold AllMatched; decide
example : ¬ AllMatched (compareHeaders Env.simple UC.ascii (some [("X-B".toList, ["2".toList, "4".toList])])
    (some [("X-A".toList, ["1".toList]), ("x-b".toList, ["2".toList, "3".toList])]) ⟨.header, []⟩
    .noUnexpectedKeys) := by
  unfold AllMatched; decide
example : SameMedia UC.ascii "text/plain;charset=UTF-8".toList "text/plain; q=1; charset=utf-8".toList :=
  (C46_parameter_header _ _ _).1 (by decide)
example : ¬ SameMedia UC.ascii "text/plain;charset=UTF-8".toList "text/plain".toList :=
  fun h => absurd ((C46_parameter_header _ _ _).2 h) (by decide)
example : toLowerCase UC.ascii (toLowerCase UC.ascii (pushField rootPath "X-Id".toList))
    = toLowerCase UC.ascii (pushField rootPath "X-Id".toList) := by decide
example : matchesPath (toLowerCase UC.ascii (pushField rootPath "X-Id".toList)).tokens
    (toVec (join rootPath (UC.ascii.lower "X-ID".toList))) = true := by decide

end Verif.HeaderProps
