import Verif.Parts
import Verif.Props.IntegrationProps
import Verif.Props.PactConvertProps

/-
  Properties C86 to C88: the FFI calls that set the path, status, query parameters and headers.  The values they set
  (C86), the rules and generators they add (C87) and the headers (C88).
-/

set_option autoImplicit false

namespace Verif
namespace PartProps
open Path Rules RuleJson Generate Integration PactFile QS Query Headers Parts IntegrationProps PatternProps

/-! ## Specification -/

/-- The value of a matcher: the example for arrays, otherwise what is given. -/
inductive Valued (S : Setup) (m : Obj) : Json → Prop
  | list (xs ys : List Json) : RuleJson.get "value" m = some (.arr xs) → Example S (.arr xs) (.arr ys) → Valued S m (.arr ys)
  | other (v : Json) : RuleJson.get "value" m = some v → (∀ xs, v ≠ .arr xs) → Valued S m v
  | none : RuleJson.get "value" m = none → Valued S m .null

/-- The value or values a text stands for.  A text that is not a JSON object stands for itself. -/
inductive Stands (E : Source) (text : Str) : Str ⊕ List Str → Prop
  | text : (∀ m, E.parse text ≠ some (.obj m)) → Stands E text (.inl text)
  | one (m : Obj) (v : Json) : E.parse text = some (.obj m) → (∀ xs, v ≠ .arr xs) →
      (IsMatcher m → Valued E.setup m v) → (¬ IsMatcher m → RuleJson.get "value" m = some v) →
      Stands E text (.inl v.toStr)
  | absent (m : Obj) : E.parse text = some (.obj m) → RuleJson.get "value" m = none → Stands E text (.inl [])
  | many (m : Obj) (vs : List Json) : E.parse text = some (.obj m) →
      (IsMatcher m → Valued E.setup m (.arr vs)) → (¬ IsMatcher m → RuleJson.get "value" m = some (.arr vs)) →
      Stands E text (.inr (vs.map Json.toStr))

/-- The matchers in the array that is the value of a matcher. -/
inductive Inner (S : Setup) (m : Obj) : List PathToken → Obj → Prop
  | mk (xs : List Json) (q : List PathToken) (m' : Obj) : RuleJson.get "value" m = some (.arr xs) →
      Found S ⟨false, true, false⟩ (.arr xs) q m' → Inner S m q m'

/-- Reading the text aborts the program. -/
def Aborts (E : Source) (text : Str) : Prop :=
  ∃ m, E.parse text = some (.obj m) ∧ IsMatcher m ∧
    (matchersFrom E.setup m = .panic ∨ ∃ q m', Inner E.setup m q m' ∧ Broken E.setup m')

/-! ## Reading the value -/

theorem matcherValue_good (S : Setup) (m : Obj) :
    ((∃ q m', Inner S m q m' ∧ Broken S m') ∧ ∀ ts a, matcherValue S (fromTokens ts) m a = .panic) ∨
    ∃ x l g, IntegrationProps.Outcome S (Inner S m) l g ∧ Valued S m x ∧
      ∀ ts a, matcherValue S (fromTokens ts) m a = .ok (x, after ts l g a) := by
  have simple : ∀ x, (∀ xs, RuleJson.get "value" m ≠ some (.arr xs)) → Valued S m x →
      (∀ (ts : List PathToken) (a : Acc), matcherValue S (fromTokens ts) m a = .ok (x, a)) →
      ∃ x l g, IntegrationProps.Outcome S (Inner S m) l g ∧ Valued S m x ∧
        ∀ ts a, matcherValue S (fromTokens ts) m a = .ok (x, after ts l g a) := by
    intro x h1 h2 h3
    refine ⟨x, [], [], IntegrationProps.Outcome.none ?_, h2, ?_⟩
    · rintro q m' ⟨xs, _, _, h, _⟩
      exact h1 xs h
    · intro ts a
      rw [h3, after_nil]
  cases hv : RuleJson.get "value" m with
  | none =>
    refine .inr (simple .null (fun xs h => by rw [hv] at h; cases h) (.none hv) ?_)
    intro ts a
    rw [matcherValue, hv]
  | some v =>
    by_cases ha : ∃ xs, v = .arr xs
    · obtain ⟨xs, rfl⟩ := ha
      have hrun : ∀ ts a, matcherValue S (fromTokens ts) m a = run S ts ⟨false, true, false⟩ (.arr xs) a := by
        intro ts a
        rw [matcherValue, hv, run, process]
      rcases good S (.arr xs) ⟨false, true, false⟩ with ⟨⟨q, m', hf, hb⟩, hp⟩ | ⟨x, l, g, ho, hex, hr⟩
      · exact .inl ⟨⟨q, m', ⟨xs, q, m', hv, hf⟩, hb⟩, fun ts a => by rw [hrun, hp]⟩
      · refine .inr ⟨x, l, g, ho.congr ?_, ?_, fun ts a => by rw [hrun, hr]⟩
        · intro q m'
          constructor
          · intro h; exact ⟨xs, q, m', hv, h⟩
          · rintro ⟨ys, _, _, h, hf⟩
            rw [hv] at h
            cases h
            exact hf
        · generalize hj : Json.arr xs = j at hex
          cases hex with
          | array xs' ys hl hi => cases hj; exact .list xs ys hv (.array xs ys hl hi)
          | scalar _ h1 => exact absurd hj.symm (h1 xs)
          | object => cases hj
          | matcher => cases hj
          | noValue => cases hj
          | unreadable => cases hj
          | contains => cases hj
          | noVariants => cases hj
    · have ha' : ∀ xs, v ≠ .arr xs := fun xs e => ha ⟨xs, e⟩
      refine .inr (simple v (fun xs h => by rw [hv] at h; cases h; exact ha' xs rfl) (.other v hv ha') ?_)
      intro ts a
      rw [matcherValue, hv]
      cases v with
      | arr xs => exact absurd rfl (ha' xs)
      | null => rfl
      | bool b => rfl
      | num n => rfl
      | str s => rfl
      | obj o => rfl

theorem result_other {v : Json} (h : ∀ xs, v ≠ .arr xs) : result v = .inl v.toStr := by
  cases v with
  | arr xs => exact absurd rfl (h xs)
  | null => rfl
  | bool b => rfl
  | num n => rfl
  | str s => rfl
  | obj o => rfl

/-- The outcome for a matcher object. -/
theorem withMatcher_good (S : Setup) (m : Obj) :
    ((matchersFrom S m = .panic ∨ ∃ q m', Inner S m q m' ∧ Broken S m') ∧
      ∀ ts i a, withMatcher S (fromTokens ts) i m a = .panic) ∨
    ∃ x l g, matchersFrom S m ≠ .panic ∧ IntegrationProps.Outcome S (Inner S m) l g ∧ Valued S m x ∧
      ∀ ts i a, withMatcher S (fromTokens ts) i m a =
        .ok (x, addGenAt (targetPath a.cat.name (fromTokens ts)) (ownGenerator m)
          (withRules (fromTokens ts) i (matchersFrom S m) (after ts l g a))) := by
  have hne : matchersFrom S m ≠ .panic → ∀ ts i a, withMatcher S (fromTokens ts) i m a =
      (matcherValue S (fromTokens ts) m a).map fun v =>
      (v.1, addGenAt (targetPath a.cat.name (fromTokens ts)) (ownGenerator m)
        (withRules (fromTokens ts) i (matchersFrom S m) v.2)) := by
    intro h ts i a
    rw [withMatcher]
    cases hr : matchersFrom S m with
    | panic => exact absurd hr h
    | ok r => rfl
    | err => rfl
  by_cases hp : matchersFrom S m = .panic
  · refine .inl ⟨.inl hp, fun ts i a => ?_⟩
    rw [withMatcher, hp]
  · rcases matcherValue_good S m with ⟨hb, h⟩ | ⟨x, l, g, h1, h2, h3⟩
    · exact .inl ⟨.inr hb, fun ts i a => by rw [hne hp, h, Res.map_panic]⟩
    · exact .inr ⟨x, l, g, hp, h1, h2, fun ts i a => by rw [hne hp, h3, Res.map_ok]⟩

/-- Reading a text gives what it stands for, or aborts. -/
theorem fromJsonCat_stands (E : Source) (ts : List PathToken) (i : Nat) (text : Str) (a : Acc) :
    (Aborts E text ∧ fromJsonCat E (fromTokens ts) i text a = .panic) ∨
    (¬ Aborts E text ∧ ∃ w a', Stands E text w ∧ fromJsonCat E (fromTokens ts) i text a = .ok (w, a')) := by
  by_cases ho : ∃ m, E.parse text = some (.obj m)
  · obtain ⟨m, hp⟩ := ho
    have hparse : fromJsonCat E (fromTokens ts) i text a =
        (partObject E.setup (fromTokens ts) i m a).map fun r => (result r.1, r.2) := by
      rw [fromJsonCat, hp]
    rw [hparse]
    by_cases hm : IsMatcher m
    · have hpo : partObject E.setup (fromTokens ts) i m a = withMatcher E.setup (fromTokens ts) i m a := if_pos hm
      rw [hpo]
      rcases withMatcher_good E.setup m with ⟨hb, h⟩ | ⟨x, l, g, hnp, h1, h2, h3⟩
      · exact .inl ⟨⟨m, hp, hm, hb⟩, by rw [h, Res.map_panic]⟩
      · refine .inr ⟨?_, result x, _, ?_, by rw [h3, Res.map_ok]⟩
        · rintro ⟨m', hp', _, hb⟩
          rw [hp] at hp'
          cases hp'
          rcases hb with hb | ⟨q, m'', hi, hb⟩
          · exact hnp hb
          · exact h1.safe q m'' hi hb
        · by_cases hx : ∃ xs, x = .arr xs
          · obtain ⟨xs, rfl⟩ := hx
            exact .many m xs hp (fun _ => h2) fun hn => absurd hm hn
          · have hx' : ∀ xs, x ≠ .arr xs := fun xs e => hx ⟨xs, e⟩
            rw [result_other hx']
            exact .one m x hp hx' (fun _ => h2) fun hn => absurd hm hn
    · have hpo : partObject E.setup (fromTokens ts) i m a = .ok ((RuleJson.get "value" m).getD .null, a) := if_neg hm
      rw [hpo]
      refine .inr ⟨?_, _, _, ?_, Res.map_ok _ _⟩
      · rintro ⟨m', hp', hm', _⟩
        rw [hp] at hp'
        cases hp'
        exact hm hm'
      · simp only
        cases hv : RuleJson.get "value" m with
        | none => exact .absent m hp hv
        | some v =>
          rw [Option.getD_some]
          by_cases hx : ∃ xs, v = .arr xs
          · obtain ⟨xs, rfl⟩ := hx
            exact .many m xs hp (fun h => absurd h hm) fun _ => hv
          · have hx' : ∀ xs, v ≠ .arr xs := fun xs e => hx ⟨xs, e⟩
            rw [result_other hx']
            exact .one m v hp hx' (fun h => absurd h hm) fun _ => hv
  · have ho' : ∀ m, E.parse text ≠ some (.obj m) := fun m e => ho ⟨m, e⟩
    have : fromJsonCat E (fromTokens ts) i text a = .ok (.inl text, a) := by
      rw [fromJsonCat]
      split
      · rename_i m hp
        exact absurd hp (ho' m)
      · rfl
    refine .inr ⟨?_, _, _, .text ho', this⟩
    rintro ⟨m, hp, _⟩
    exact ho' m hp

/-! ## C86: the values -/

theorem valued_unique {S : Setup} {m : Obj} {x y : Json} (h : Valued S m x) (h' : Valued S m y) : x = y := by
  cases h with
  | list xs ys hv he =>
    cases h' with
    | list xs' ys' hv' he' => rw [hv] at hv'; cases hv'; exact C84_unique he he'
    | other _ hv' hn => rw [hv] at hv'; cases hv'; exact absurd rfl (hn xs)
    | none hv' => rw [hv] at hv'; cases hv'
  | other _ hv hn =>
    cases h' with
    | list xs' ys' hv' he' => rw [hv] at hv'; cases hv'; exact absurd rfl (hn xs')
    | other _ hv' hn' => rw [hv] at hv'; cases hv'; rfl
    | none hv' => rw [hv] at hv'; cases hv'
  | none hv =>
    cases h' with
    | list xs' ys' hv' he' => rw [hv] at hv'; cases hv'
    | other _ hv' hn' => rw [hv] at hv'; cases hv'
    | none hv' => rfl

theorem valued_absent {S : Setup} {m : Obj} {x : Json} (h : Valued S m x) (hn : RuleJson.get "value" m = none) :
    x = .null := valued_unique h (.none hn)

/-- A text stands for one value or one list of values. -/
theorem C86_unique {E : Source} {text : Str} {w w' : Str ⊕ List Str} (h : Stands E text w) (h' : Stands E text w') :
    w = w' := by
  have key : ∀ m v v', (IsMatcher m → Valued E.setup m v) → (¬ IsMatcher m → RuleJson.get "value" m = some v) →
      (IsMatcher m → Valued E.setup m v') → (¬ IsMatcher m → RuleJson.get "value" m = some v') → v = v' := by
    intro m v v' h1 h2 h3 h4
    by_cases hm : IsMatcher m
    · exact valued_unique (h1 hm) (h3 hm)
    · have := (h2 hm).symm.trans (h4 hm)
      exact Option.some.inj this
  have abs : ∀ m v, (IsMatcher m → Valued E.setup m v) → (¬ IsMatcher m → RuleJson.get "value" m = some v) →
      RuleJson.get "value" m = none → v = .null := by
    intro m v h1 h2 hn
    by_cases hm : IsMatcher m
    · exact valued_absent (h1 hm) hn
    · rw [h2 hm] at hn; cases hn
  cases h with
  | text hp =>
    cases h' with
    | text hp' => rfl
    | one m v hp' => exact absurd hp' (hp m)
    | absent m hp' => exact absurd hp' (hp m)
    | many m vs hp' => exact absurd hp' (hp m)
  | one m v hp ha h1 h2 =>
    cases h' with
    | text hp' => exact absurd hp (hp' m)
    | one m' v' hp' ha' h1' h2' => rw [hp] at hp'; cases hp'; rw [key m v v' h1 h2 h1' h2']
    | absent m' hp' hn => rw [hp] at hp'; cases hp'; rw [abs m v h1 h2 hn]; rfl
    | many m' vs hp' h1' h2' => rw [hp] at hp'; cases hp'; exact absurd (key m v _ h1 h2 h1' h2') (ha vs)
  | absent m hp hn =>
    cases h' with
    | text hp' => exact absurd hp (hp' m)
    | one m' v' hp' ha' h1' h2' => rw [hp] at hp'; cases hp'; rw [abs m v' h1' h2' hn]; rfl
    | absent m' hp' hn => rfl
    | many m' vs hp' h1' h2' => rw [hp] at hp'; cases hp'; cases abs m _ h1' h2' hn
  | many m vs hp h1 h2 =>
    cases h' with
    | text hp' => exact absurd hp (hp' m)
    | one m' v' hp' ha' h1' h2' => rw [hp] at hp'; cases hp'; exact absurd (key m v' _ h1' h2' h1 h2) (ha' vs)
    | absent m' hp' hn => rw [hp] at hp'; cases hp'; cases abs m _ h1 h2 hn
    | many m' vs' hp' h1' h2' => rw [hp] at hp'; cases hp'; cases key m _ _ h1 h2 h1' h2'; rfl

/-- Value `i` is set to `v`; earlier values that were missing are blank; the other values stay. -/
structure SetTo {V : Type} (blank : V) (i : Nat) (v : V) (old new : List V) : Prop where
  here : new[i]? = some v
  kept : ∀ j, j ≠ i → j < old.length → new[j]? = old[j]?
  gaps : ∀ j, old.length ≤ j → j < i → new[j]? = some blank
  count : new.length = max old.length (i + 1)

theorem setAt_setTo {V : Type} (d : V) (i : Nat) (v : V) (vs : List V) : SetTo d i v vs (setAt d i v vs) where
  here := by
    rw [setAt, List.getElem?_set]
    simp
    omega
  kept := by
    intro j hj hl
    rw [setAt, List.getElem?_set_ne (fun e => hj e.symm), List.getElem?_append_left hl]
  gaps := by
    intro j hl hj
    rw [setAt, List.getElem?_set_ne (by omega), List.getElem?_append_right hl, List.getElem?_replicate, if_pos (by omega)]
  count := by
    simp [setAt]
    omega

theorem lookup_updEntry {V : Type} (n k : Str) (f : Option V → V) (m : List (Str × V)) :
    Json.lookup k (updEntry n f m) = if k = n then some (f (Json.lookup n m)) else Json.lookup k m := by
  induction m with
  | nil =>
    rw [updEntry]
    by_cases h : k = n
    · subst h; simp [Json.lookup]
    · have : ¬ n = k := fun e => h e.symm
      simp [Json.lookup, h, this]
  | cons e es ih =>
    rw [updEntry]
    by_cases he : e.1 = n
    · rw [if_pos he]
      by_cases h : k = n
      · subst h; simp [Json.lookup, he]
      · have : ¬ n = k := fun e => h e.symm
        rw [if_neg h]
        simp [Json.lookup, he, this]
    · rw [if_neg he]
      by_cases h : k = n
      · subst h
        rw [if_pos rfl] at ih ⊢
        simp only [Json.lookup, if_neg he]
        exact ih
      · rw [if_neg h] at ih ⊢
        simp only [Json.lookup]
        split
        · rfl
        · exact ih

/-- The values of a query parameter. -/
def valuesOf (r : HttpRequest) (name : Str) : List (Option Str) := (Json.lookup name (r.query.getD [])).getD []

theorem fromJsonV2_cases (E : Source) (c : Category) (ts : List PathToken) (i : Nat) (text : Str) (R : MatchingRules)
    (G : Generators) :
    (Aborts E text ∧ fromJsonV2 E c (fromTokens ts) i text R G = .panic) ∨
    (¬ Aborts E text ∧ ∃ w a', Stands E text w ∧ fromJsonCat E (fromTokens ts) i text ⟨catOf R c, G⟩ = .ok (w, a') ∧
      fromJsonV2 E c (fromTokens ts) i text R G = .ok (w, setCat c a'.cat R, a'.gens)) := by
  rcases fromJsonCat_stands E ts i text ⟨catOf R c, G⟩ with ⟨h1, h2⟩ | ⟨h1, w, a', h2, h3⟩
  · exact .inl ⟨h1, by rw [fromJsonV2, h2, Res.map_panic]⟩
  · exact .inr ⟨h1, w, a', h2, h3, by rw [fromJsonV2, h3, Res.map_ok]⟩

/-- The path of a value, as a list of segments. -/
def valueTokens (name : Str) (i : Nat) : List PathToken :=
  if i = 0 then [.root, .field name] else [.root, .field name, .index i]

theorem valuePath_tokens (name : Str) (i : Nat) : valuePath name i = fromTokens (valueTokens name i) := by
  unfold valuePath valueTokens
  by_cases h : i = 0
  · rw [if_neg (by omega), if_pos h, pushField_push, rootPath_tokens, fromTokens_snoc]; rfl
  · rw [if_pos (by omega), if_neg h, pushIndex_push, pushField_push, rootPath_tokens, fromTokens_snoc, fromTokens_snoc]
    rfl

theorem empty_tokens : Path.empty = fromTokens [] := rfl

/-- What is stored for a query parameter: one value at its index; of several values, all after the existing ones for
index 0, and the first one for another index. -/
inductive Stored (i : Nat) (old new : List (Option Str)) : Str ⊕ List Str → Prop
  | one (v : Str) : SetTo none i (some v) old new → Stored i old new (.inl v)
  | append (vs : List Str) : i = 0 → new = old ++ vs.map some → Stored i old new (.inr vs)
  | first (vs : List Str) (v : Str) : i ≠ 0 → vs.head? = some v → SetTo none i (some v) old new → Stored i old new (.inr vs)
  | nothing : i ≠ 0 → SetTo none i none old new → Stored i old new (.inr [])

/-- Setting a query parameter: the value or values of the text are stored for the parameter, NULL stores a parameter
without a value; all other parameters, the method, path, headers and body stay. -/
theorem C86_query {E : Source} {name : Str} {i : Nat} {value : Option Str} {r r' : HttpRequest}
    (h : withQuery E name i value r = .ok r') :
    (r'.method = r.method ∧ r'.path = r.path ∧ r'.headers = r.headers ∧ r'.body = r.body) ∧
    (∀ k, k ≠ name → Json.lookup k (r'.query.getD []) = Json.lookup k (r.query.getD [])) ∧
    (value = none → SetTo none i none (valuesOf r name) (valuesOf r' name)) ∧
    (∀ text, value = some text → ∃ w, Stands E text w ∧ Stored i (valuesOf r name) (valuesOf r' name) w) := by
  cases value with
  | none =>
    rw [withQuery] at h
    cases h
    refine ⟨⟨rfl, rfl, rfl, rfl⟩, ?_, ?_, ?_⟩
    · intro k hk
      show Json.lookup k (updEntry name _ _) = _
      rw [lookup_updEntry, if_neg hk]
    · intro _
      have : valuesOf { r with query := updateQuery i name none r.query } name = setAt none i none (valuesOf r name) := by
        show (Json.lookup name (updEntry name _ _)).getD [] = _
        rw [lookup_updEntry, if_pos rfl]
        rfl
      rw [this]
      exact setAt_setTo none i none _
    · intro text e
      cases e
  | some text =>
    rw [withQuery, valuePath_tokens] at h
    rcases fromJsonV2_cases E .query (valueTokens name i) i text r.rules r.gens with ⟨_, h2⟩ | ⟨_, w, a', hw, _, h2⟩
    · rw [h2] at h; cases h
    · rw [h2, Res.map_ok] at h
      cases h
      have hput : ∀ f : Option (List (Option Str)) → List (Option Str), ∀ k,
          Json.lookup k ((some (updEntry name f (r.query.getD []))).getD []) =
            if k = name then some (f (Json.lookup name (r.query.getD []))) else Json.lookup k (r.query.getD []) :=
        fun f k => lookup_updEntry name k f _
      have hst : ∃ f, storeQuery i name w r.query = some (updEntry name f (r.query.getD [])) ∧
          Stored i (valuesOf r name) (f (Json.lookup name (r.query.getD []))) w := by
        cases w with
        | inl v =>
          refine ⟨_, rfl, .one v ?_⟩
          exact setAt_setTo none i (some v) _
        | inr vs =>
          by_cases hi : i = 0
          · exact ⟨_, if_pos hi, .append vs hi rfl⟩
          · refine ⟨_, if_neg hi, ?_⟩
            cases vs with
            | nil => exact .nothing hi (setAt_setTo none i none _)
            | cons v vs => exact .first (v :: vs) v hi rfl (setAt_setTo none i (some v) _)
      obtain ⟨f, hf, hs⟩ := hst
      refine ⟨⟨rfl, rfl, rfl, rfl⟩, ?_, (fun e => by cases e), ?_⟩
      · intro k hk
        simp only [hf]
        rw [hput, if_neg hk]
      · intro text' e
        cases e
        refine ⟨w, hw, ?_⟩
        simp only [valuesOf, hf] at hs ⊢
        rw [hput, if_pos rfl, Option.getD_some]
        exact hs

/-- Setting a query parameter aborts only for a text with a matcher that cannot be read without aborting. -/
theorem C86_query_total (E : Source) (name : Str) (i : Nat) (value : Option Str) (r : HttpRequest) :
    ((∃ text, value = some text ∧ Aborts E text) ∧ withQuery E name i value r = .panic) ∨
    ((¬ ∃ text, value = some text ∧ Aborts E text) ∧ ∃ r', withQuery E name i value r = .ok r') := by
  cases value with
  | none => exact .inr ⟨(fun ⟨t, e, _⟩ => by cases e), _, rfl⟩
  | some text =>
    rw [withQuery, valuePath_tokens]
    rcases fromJsonV2_cases E .query (valueTokens name i) i text r.rules r.gens with ⟨h1, h2⟩ | ⟨h1, w, a', hw, _, h2⟩
    · exact .inl ⟨⟨text, rfl, h1⟩, by rw [h2, Res.map_panic]⟩
    · refine .inr ⟨?_, ?_⟩
      · rintro ⟨t, e, ht⟩
        cases e
        exact h1 ht
      · rw [h2]
        exact ⟨_, rfl⟩

/-- A sequence of calls that set query parameters. -/
def runQueries (E : Source) : List (Str × Nat × Option Str) → HttpRequest → Res HttpRequest
  | [], r => .ok r
  | (name, i, v) :: cs, r => (withQuery E name i v r).bind (runQueries E cs)

/-- What a single value or NULL stands for. -/
inductive Meant (E : Source) : Option Str → Option Str → Prop
  | null : Meant E none none
  | value (text v : Str) : Stands E text (.inl v) → Meant E (some text) (some v)

/-- The value set last for value `j` of a parameter, by a list of settings. -/
def lastSet (cs : List (Str × Nat × Option Str)) (k : Str) (j : Nat) : Option (Option Str) :=
  ((cs.filter fun c => decide (c.1 = k ∧ c.2.1 = j)).getLast?).map (·.2.2)

/-- The values of parameter `k` are those set last; those before a value that was set are there without a value. -/
def AsSet (cs : List (Str × Nat × Option Str)) (r : HttpRequest) : Prop :=
  ∀ k j, (valuesOf r k)[j]? = match lastSet cs k j with
    | some v => some v
    | none => if ∃ c ∈ cs, c.1 = k ∧ j < c.2.1 then some none else none

theorem lastSet_snoc (cs : List (Str × Nat × Option Str)) (c : Str × Nat × Option Str) (k : Str) (j : Nat) :
    lastSet (cs ++ [c]) k j = if c.1 = k ∧ c.2.1 = j then some c.2.2 else lastSet cs k j := by
  simp only [lastSet, List.filter_append]
  by_cases h : c.1 = k ∧ c.2.1 = j
  · rw [if_pos h, List.filter_cons_of_pos (by simpa using h)]
    simp
  · rw [if_neg h, List.filter_cons_of_neg (by simpa using h)]
    simp

theorem asSet_step {cs : List (Str × Nat × Option Str)} {r r' : HttpRequest} {name : Str} {i : Nat} {v : Option Str}
    (h : AsSet cs r) (h1 : SetTo none i v (valuesOf r name) (valuesOf r' name))
    (h2 : ∀ k, k ≠ name → valuesOf r' k = valuesOf r k) : AsSet (cs ++ [(name, i, v)]) r' := by
  intro k j
  rw [lastSet_snoc]
  by_cases hk : k = name
  · subst hk
    by_cases hj : j = i
    · subst hj
      rw [if_pos ⟨rfl, rfl⟩, h1.here]
    · rw [if_neg (fun e => hj e.2.symm)]
      by_cases hl : j < (valuesOf r k).length
      · rw [h1.kept j hj hl, h k j]
        cases hs : lastSet cs k j with
        | some w => rfl
        | none =>
          simp only
          have hh := h k j
          rw [hs] at hh
          simp only at hh
          by_cases he : ∃ c ∈ cs, c.1 = k ∧ j < c.2.1
          · rw [if_pos he, if_pos]
            obtain ⟨c, hc, hc'⟩ := he
            exact ⟨c, List.mem_append_left _ hc, hc'⟩
          · rw [if_neg he, List.getElem?_eq_getElem hl] at hh
            cases hh
      · have hs : lastSet cs k j = none ∧ ¬ ∃ c ∈ cs, c.1 = k ∧ j < c.2.1 := by
          have hh := h k j
          rw [List.getElem?_eq_none (by omega)] at hh
          cases hs : lastSet cs k j with
          | some w => rw [hs] at hh; cases hh
          | none =>
            rw [hs] at hh
            simp only at hh
            refine ⟨rfl, fun he => ?_⟩
            rw [if_pos he] at hh
            cases hh
        rw [hs.1]
        simp only
        by_cases hi : j < i
        · rw [h1.gaps j (by omega) hi, if_pos ⟨_, List.mem_append_right _ List.mem_cons_self, rfl, hi⟩]
        · rw [List.getElem?_eq_none (by rw [h1.count]; omega), if_neg]
          rintro ⟨c, hc, hc1, hc2⟩
          rcases List.mem_append.1 hc with hc | hc
          · exact hs.2 ⟨c, hc, hc1, hc2⟩
          · rcases List.mem_singleton.1 hc with rfl
            exact hi hc2
  · rw [if_neg (fun e => hk e.1.symm), h2 k hk, h k j]
    cases hs : lastSet cs k j with
    | some w => rfl
    | none =>
      simp only
      congr 1
      apply propext
      constructor
      · rintro ⟨c, hc, hc'⟩
        exact ⟨c, List.mem_append_left _ hc, hc'⟩
      · rintro ⟨c, hc, hc'⟩
        rcases List.mem_append.1 hc with hc | hc
        · exact ⟨c, hc, hc'⟩
        · rcases List.mem_singleton.1 hc with rfl
          exact absurd hc'.1.symm hk

theorem history_from (E : Source) (calls : List (Str × Nat × Option Str)) : ∀ (done sets : List (Str × Nat × Option Str))
    (r r' : HttpRequest), AsSet done r → sets.length = calls.length →
    (∀ (n : Nat) (c s : Str × Nat × Option Str), calls[n]? = some c → sets[n]? = some s →
      s.1 = c.1 ∧ s.2.1 = c.2.1 ∧ Meant E c.2.2 s.2.2) →
    runQueries E calls r = .ok r' → AsSet (done ++ sets) r' := by
  induction calls with
  | nil =>
    intro done sets r r' h hl hm hr
    cases sets with
    | nil => cases hr; rw [List.append_nil]; exact h
    | cons s ss => simp at hl
  | cons c cs ih =>
    intro done sets r r' h hl hm hr
    cases sets with
    | nil => simp at hl
    | cons s ss =>
      obtain ⟨name, i, v⟩ := c
      obtain ⟨name', i', v'⟩ := s
      obtain ⟨hn, hi, hv⟩ := hm 0 _ _ rfl rfl
      simp only at hn hi hv
      subst hn
      subst hi
      rw [runQueries] at hr
      obtain ⟨r1, h1, h2⟩ := PactConvertProps.bind_eq_ok.1 hr
      obtain ⟨_, ho, hnull, htext⟩ := C86_query h1
      have hset : SetTo none i' v' (valuesOf r name') (valuesOf r1 name') := by
        cases hv with
        | null => exact hnull rfl
        | value text w hw =>
          obtain ⟨w', hw', hs⟩ := htext text rfl
          cases C86_unique hw hw'
          cases hs with
          | one _ hs => exact hs
      have := ih (done ++ [(name', i', v')]) ss r1 r'
        (asSet_step h hset fun k hk => by rw [valuesOf, valuesOf, ho k hk]) (by simpa using hl)
        (fun n c s hc hs => hm (n + 1) c s (by simpa using hc) (by simpa using hs)) h2
      rw [List.append_assoc] at this
      exact this

/-- After any sequence of calls with single values, in any order, every value of every parameter is the one set last. -/
theorem C86_history (E : Source) (calls sets : List (Str × Nat × Option Str)) (r r' : HttpRequest) (hq : r.query = none)
    (hl : sets.length = calls.length)
    (hm : ∀ (n : Nat) (c s : Str × Nat × Option Str), calls[n]? = some c → sets[n]? = some s →
      s.1 = c.1 ∧ s.2.1 = c.2.1 ∧ Meant E c.2.2 s.2.2)
    (hr : runQueries E calls r = .ok r') : AsSet sets r' := by
  refine history_from E calls [] sets r r' ?_ hl hm hr
  intro k j
  have : valuesOf r k = [] := by rw [valuesOf, hq]; rfl
  rw [this]
  simp [lastSet]

/-- Setting the path: the value of the text, or the first of several; no path is `/`, no method is `GET`. -/
theorem C86_request {E : Source} {method path : Option Str} {r r' : HttpRequest}
    (h : withRequest E method path r = .ok r') :
    (r'.query = r.query ∧ r'.headers = r.headers ∧ r'.body = r.body) ∧
    (∀ m, method = some m → r'.method = m) ∧ (method = none → r'.method = "GET".toList) ∧
    ∃ w, Stands E (path.getD "/".toList) w ∧ (∀ v, w = .inl v → r'.path = v) ∧
      (∀ v vs, w = .inr (v :: vs) → r'.path = v) ∧ (w = .inr [] → r'.path = []) := by
  rw [withRequest, empty_tokens] at h
  rcases fromJsonV2_cases E .path [] 0 (path.getD ['/']) r.rules r.gens with ⟨_, h2⟩ | ⟨_, w, a', hw, _, h2⟩
  · rw [h2] at h; cases h
  · rw [h2, Res.map_ok] at h
    cases h
    refine ⟨⟨rfl, rfl, rfl⟩, ?_, ?_, w, hw, ?_, ?_, ?_⟩
    · rintro m rfl; rfl
    · rintro rfl; rfl
    · rintro v rfl; rfl
    · rintro v vs rfl; rfl
    · rintro rfl; rfl

/-- `s` is the decimal text of `n`. -/
def Decimal (s : Str) (n : Nat) : Prop :=
  ∃ ds, ds ≠ [] ∧ (s = ds ∨ s = '+' :: ds) ∧ (∀ c ∈ ds, '0' ≤ c ∧ c ≤ '9') ∧
    n = ds.foldl (fun a c => a * 10 + (c.toNat - '0'.toNat)) 0

theorem digitsVal_foldl (ds : Str) : ∀ a, digitsVal a ds =
    if ∀ c ∈ ds, c.isDigit = true then some (ds.foldl (fun a c => a * 10 + (c.toNat - '0'.toNat)) a) else none := by
  induction ds with
  | nil => intro a; simp [digitsVal]
  | cons c cs ih =>
    intro a
    rw [digitsVal]
    by_cases hc : c.isDigit = true
    · rw [if_pos hc, ih]
      by_cases hcs : ∀ c ∈ cs, c.isDigit = true
      · rw [if_pos hcs, if_pos]
        · rfl
        · intro x hx
          rcases List.mem_cons.1 hx with rfl | hx
          · exact hc
          · exact hcs x hx
      · rw [if_neg hcs, if_neg (fun h => hcs fun x hx => h x (List.mem_cons_of_mem _ hx))]
    · rw [if_neg hc, if_neg (fun h => hc (h c List.mem_cons_self))]

theorem isDigit_range (c : Char) : c.isDigit = true ↔ '0' ≤ c ∧ c ≤ '9' := by
  simp [Char.isDigit, Char.le_def]

theorem parseDigits_iff (lim : Nat) (s : Str) (n : Nat) : parseDigits lim s = some n ↔
    s ≠ [] ∧ (∀ c ∈ s, '0' ≤ c ∧ c ≤ '9') ∧ n = s.foldl (fun a c => a * 10 + (c.toNat - '0'.toNat)) 0 ∧ n < lim := by
  have hd : (∀ c ∈ s, c.isDigit = true) ↔ ∀ c ∈ s, '0' ≤ c ∧ c ≤ '9' :=
    forall_congr' fun c => imp_congr_right fun _ => isDigit_range c
  unfold parseDigits
  rw [digitsVal_foldl]
  cases s with
  | nil => simp
  | cons c cs =>
    rw [if_neg (by simp)]
    by_cases h : ∀ x ∈ c :: cs, x.isDigit = true
    · rw [if_pos h]
      simp only
      constructor
      · intro e
        split at e
        · cases e
          exact ⟨by simp, hd.1 h, rfl, by assumption⟩
        · cases e
      · rintro ⟨_, _, rfl, hl⟩
        rw [if_pos hl]
    · rw [if_neg h]
      constructor
      · intro e; cases e
      · rintro ⟨_, h', _⟩
        exact absurd (hd.2 h') h

theorem parseU16_iff (s : Str) (n : Nat) : parseU16 s = some n ↔ Decimal s n ∧ n < 65536 := by
  have plus : ¬ ('0' ≤ '+' ∧ '+' ≤ '9') := by decide
  unfold parseU16
  split
  · rename_i r
    rw [parseDigits_iff]
    constructor
    · rintro ⟨h1, h2, h3, h4⟩
      exact ⟨⟨r, h1, .inr rfl, h2, h3⟩, h4⟩
    · rintro ⟨⟨ds, h1, h2, h3, h4⟩, h5⟩
      rcases h2 with rfl | h2
      · exact absurd (h3 '+' List.mem_cons_self) plus
      · cases h2
        exact ⟨h1, h3, h4, h5⟩
  · rename_i hs
    rw [parseDigits_iff]
    constructor
    · rintro ⟨h1, h2, h3, h4⟩
      exact ⟨⟨s, h1, .inl rfl, h2, h3⟩, h4⟩
    · rintro ⟨⟨ds, h1, h2, h3, h4⟩, h5⟩
      rcases h2 with rfl | h2
      · exact ⟨h1, h3, h4, h5⟩
      · exact absurd h2 (hs ds)

/-- Setting the status: the number of the text (the first of several), and 0 for anything else than a number below
65536; no status is 200. -/
theorem C86_status {E : Source} {status : Option Str} {r r' : HttpResponse}
    (h : responseStatus E status r = .ok r') :
    (r'.headers = r.headers ∧ r'.body = r.body) ∧
    ∃ w s, Stands E (status.getD "200".toList) w ∧ (w = .inl s ∨ (∃ vs, w = .inr (s :: vs)) ∨ (w = .inr [] ∧ s = [])) ∧
      (∀ n, Decimal s n → n < 65536 → r'.status = n) ∧ ((∀ n, Decimal s n → 65536 ≤ n) → r'.status = 0) := by
  rw [responseStatus, empty_tokens] at h
  rcases fromJsonV2_cases E .status [] 0 (status.getD "200".toList) r.rules r.gens with ⟨_, h2⟩ | ⟨_, w, a', hw, _, h2⟩
  · rw [h2] at h; cases h
  · rw [h2, Res.map_ok] at h
    cases h
    refine ⟨⟨rfl, rfl⟩, w, firstOf w, hw, ?_, ?_, ?_⟩
    · cases w with
      | inl v => exact .inl rfl
      | inr vs =>
        cases vs with
        | nil => exact .inr (.inr ⟨rfl, rfl⟩)
        | cons v vs => exact .inr (.inl ⟨vs, rfl⟩)
    · intro n hd hl
      show (parseU16 (firstOf w)).getD 0 = n
      rw [(parseU16_iff _ n).2 ⟨hd, hl⟩]
      rfl
    · intro hd
      show (parseU16 (firstOf w)).getD 0 = 0
      cases hp : parseU16 (firstOf w) with
      | none => rfl
      | some n =>
        obtain ⟨h1, h3⟩ := (parseU16_iff _ n).1 hp
        exact absurd (hd n h1) (by omega)

/-! ## C88: headers -/

/-- The values of a header; names are compared ignoring case. -/
def headerOf (uc : UC) (h : HeaderMap) (name : Str) : Option (List Str) :=
  (h.find? (fun e => decide (uc.lower e.1 = uc.lower name))).map (·.2)

theorem headerKey_lower {uc : UC} {h : HeaderMap} {name key : Str} (e : headerKey uc h name = some key) :
    uc.lower key = uc.lower name := by
  rw [headerKey, Option.map_eq_some_iff] at e
  obtain ⟨x, hx, rfl⟩ := e
  have := List.find?_some hx
  exact of_decide_eq_true this

theorem headerKey_congr (uc : UC) (h : HeaderMap) {k k' : Str} (e : uc.lower k = uc.lower k') :
    headerKey uc h k = headerKey uc h k' := by rw [headerKey, headerKey, e]

theorem headerOf_congr (uc : UC) (h : HeaderMap) {k k' : Str} (e : uc.lower k = uc.lower k') :
    headerOf uc h k = headerOf uc h k' := by rw [headerOf, headerOf, e]

theorem headerOf_none {uc : UC} {h : HeaderMap} {name : Str} : headerKey uc h name = none ↔ headerOf uc h name = none := by
  rw [headerKey, headerOf, Option.map_eq_none_iff, Option.map_eq_none_iff]

theorem headerOf_upd_key (uc : UC) (key k : Str) (f : Option (List Str) → List Str) (h : HeaderMap)
    (hk : headerKey uc h key = some key ∨ headerKey uc h key = none) :
    headerOf uc (updEntry key f h) k =
      if uc.lower k = uc.lower key then some (f (headerOf uc h key)) else headerOf uc h k := by
  induction h with
  | nil =>
    rw [updEntry]
    by_cases hl : uc.lower k = uc.lower key
    · simp [headerOf, hl]
    · have : ¬ uc.lower key = uc.lower k := fun e => hl e.symm
      simp [headerOf, hl, this]
  | cons e es ih =>
    rw [updEntry]
    by_cases he : uc.lower e.1 = uc.lower key
    · have hke : headerKey uc (e :: es) key = some e.1 := by simp [headerKey, he]
      have : e.1 = key := by
        rcases hk with hk | hk
        · rw [hke] at hk; exact Option.some.inj hk
        · rw [hke] at hk; cases hk
      rw [if_pos this]
      by_cases hl : uc.lower k = uc.lower key
      · simp [headerOf, hl, he]
      · have hn : ¬ uc.lower key = uc.lower k := fun e => hl e.symm
        simp [headerOf, hl, he, hn]
    · have hke : headerKey uc (e :: es) key = headerKey uc es key := by simp [headerKey, he]
      rw [hke] at hk
      have hne : e.1 ≠ key := fun x => he (by rw [x])
      rw [if_neg hne]
      have ih := ih hk
      by_cases hl : uc.lower k = uc.lower key
      · rw [if_pos hl] at ih ⊢
        have h1 : headerOf uc (e :: updEntry key f es) k = headerOf uc (updEntry key f es) k := by
          simp [headerOf, hl, he]
        have h2 : headerOf uc (e :: es) key = headerOf uc es key := by simp [headerOf, he]
        rw [h1, h2, ih]
      · rw [if_neg hl] at ih ⊢
        simp only [headerOf, List.find?_cons] at ih ⊢
        split
        · rfl
        · exact ih

theorem headerOf_upd (uc : UC) (name k : Str) (f : Option (List Str) → List Str) (h : HeaderMap) :
    headerOf uc (updEntry ((headerKey uc h name).getD name) f h) k =
      if uc.lower k = uc.lower name then some (f (headerOf uc h name)) else headerOf uc h k := by
  cases hk : headerKey uc h name with
  | none =>
    rw [Option.getD_none]
    exact headerOf_upd_key uc name k f h (.inr hk)
  | some key =>
    have hl := headerKey_lower hk
    rw [Option.getD_some, headerOf_upd_key uc key k f h (.inl (by rw [headerKey_congr uc h hl, hk])), hl,
      headerOf_congr uc h hl]

theorem keys_upd {V : Type} (key : Str) (f : Option V → V) (h : List (Str × V)) :
    (updEntry key f h).map (·.1) = if key ∈ h.map (·.1) then h.map (·.1) else h.map (·.1) ++ [key] := by
  induction h with
  | nil => rfl
  | cons e es ih =>
    rw [updEntry]
    by_cases he : e.1 = key
    · rw [if_pos he, if_pos (by simp [he])]
      rfl
    · have hk : ¬ key = e.1 := fun x => he x.symm
      rw [if_neg he, List.map_cons, ih]
      by_cases hm : key ∈ es.map (·.1)
      · rw [if_pos hm, if_pos (by rw [List.map_cons]; exact List.mem_cons_of_mem _ hm)]
        rfl
      · rw [if_neg hm, if_neg]
        · rfl
        · rw [List.map_cons, List.mem_cons]
          rintro (h | h)
          · exact hk h
          · exact hm h

theorem headerKey_mem {uc : UC} {h : HeaderMap} {name key : Str} (e : headerKey uc h name = some key) :
    key ∈ h.map (·.1) := by
  rw [headerKey, Option.map_eq_some_iff] at e
  obtain ⟨x, hx, rfl⟩ := e
  exact List.mem_map.2 ⟨x, List.mem_of_find?_eq_some hx, rfl⟩

/-- The spelling of the names: that of the first call is kept. -/
theorem keys_upd_header (uc : UC) (name : Str) (f : Option (List Str) → List Str) (h : HeaderMap) :
    (updEntry ((headerKey uc h name).getD name) f h).map (·.1) =
      if (headerOf uc h name).isSome then h.map (·.1) else h.map (·.1) ++ [name] := by
  rw [keys_upd]
  cases hk : headerKey uc h name with
  | none =>
    rw [Option.getD_none, headerOf_none.1 hk, if_neg]
    · rfl
    · intro hm
      rw [List.mem_map] at hm
      obtain ⟨e, he, hn⟩ := hm
      rw [headerKey, Option.map_eq_none_iff, List.find?_eq_none] at hk
      exact hk e he (by simp [hn])
  | some key =>
    rw [Option.getD_some, if_pos (headerKey_mem hk), if_pos]
    cases ho : headerOf uc h name with
    | none => rw [headerOf_none.2 ho] at hk; cases hk
    | some v => rfl

theorem parseHeader_congr (uc : UC) {k k' : Str} (e : uc.lower k = uc.lower k') (v : Str) :
    parseHeader uc k v = parseHeader uc k' v := by rw [parseHeader, parseHeader, e]

/-- What is stored for a header.  Several values replace those there.  A value for an index is put there.  A value for
index 0 that has commas (and is no date or the like) is several values, which replace those there; otherwise the first
value is replaced. -/
inductive StoredHeader (uc : UC) (name : Str) (i : Nat) (old new : List Str) : Str ⊕ List Str → Prop
  | many (vs : List Str) : new = vs → StoredHeader uc name i old new (.inr vs)
  | later (v : Str) : i ≠ 0 → SetTo [] i v old new → StoredHeader uc name i old new (.inl v)
  | new (v : Str) : i = 0 → old = [] → new = parseHeader uc name v → StoredHeader uc name i old new (.inl v)
  | first (v : Str) : i = 0 → old ≠ [] → (parseHeader uc name v).length = 1 → new = v :: old.tail →
      StoredHeader uc name i old new (.inl v)
  | replace (v : Str) : i = 0 → old ≠ [] → 2 ≤ (parseHeader uc name v).length → new = parseHeader uc name v →
      StoredHeader uc name i old new (.inl v)

theorem splitOn_ne (c : Char) (s : Str) : splitOn c s ≠ [] := by
  cases s with
  | nil => simp [splitOn]
  | cons d s =>
    rw [splitOn]
    split
    · simp
    · split <;> simp

theorem parseHeader_ne (uc : UC) (name v : Str) : parseHeader uc name v ≠ [] := by
  unfold parseHeader
  split
  · simp
  · intro e
    exact splitOn_ne ',' v (List.map_eq_nil_iff.1 e)

theorem storeHeader_spec (uc : UC) (i : Nat) (name : Str) (w : Str ⊕ List Str) (h : HeaderMap) :
    ∃ f, storeHeader uc i name w h = updEntry ((headerKey uc h name).getD name) f h ∧
      StoredHeader uc name i ((headerOf uc h name).getD []) (f (headerOf uc h name)) w := by
  cases w with
  | inr vs => exact ⟨fun _ => vs, rfl, .many vs rfl⟩
  | inl v =>
    by_cases hi : i = 0
    · subst hi
      cases hk : headerKey uc h name with
      | none =>
        refine ⟨fun _ => parseHeader uc name v, ?_, .new v rfl ?_ rfl⟩
        · simp [storeHeader, hk]
        · rw [headerOf_none.1 hk]
          rfl
      | some key =>
        refine ⟨fun vs => mergeValue v (parseHeader uc key v) (vs.getD []), by simp [storeHeader, hk], ?_⟩
        rw [parseHeader_congr uc (headerKey_lower hk)]
        simp only
        have hne := parseHeader_ne uc name v
        generalize hp : parseHeader uc name v = ps at hne
        generalize (headerOf uc h name).getD [] = old
        cases old with
        | nil => exact .new v rfl rfl (by rw [hp]; rfl)
        | cons o os =>
          cases ps with
          | nil => exact absurd rfl hne
          | cons p ps =>
            cases ps with
            | nil => exact .first v rfl (by simp) (by rw [hp]; rfl) rfl
            | cons p' ps => exact .replace v rfl (by simp) (by rw [hp]; simp) (by rw [hp]; rfl)
    · refine ⟨fun vs => setAt [] i v (vs.getD []), if_pos (by omega), .later v hi (setAt_setTo [] i v _)⟩

/-- The effect of a call on the headers of a message. -/
structure HeaderSet (E : Source) (name : Str) (i : Nat) (value : Option Str) (h h' : Option HeaderMap) : Prop where
  values : ∃ w new, Stands E (value.getD []) w ∧ headerOf E.uc (h'.getD []) name = some new ∧
    StoredHeader E.uc name i ((headerOf E.uc (h.getD []) name).getD []) new w
  others : ∀ k, E.uc.lower k ≠ E.uc.lower name → headerOf E.uc (h'.getD []) k = headerOf E.uc (h.getD []) k
  spelling : (h'.getD []).map (·.1) =
    if (headerOf E.uc (h.getD []) name).isSome then (h.getD []).map (·.1) else (h.getD []).map (·.1) ++ [name]

theorem headerSet_of {E : Source} {name : Str} {i : Nat} {value : Option Str} {h : Option HeaderMap} {w : Str ⊕ List Str}
    (hw : Stands E (value.getD []) w) : HeaderSet E name i value h (some (storeHeader E.uc i name w (h.getD []))) := by
  obtain ⟨f, hf, hs⟩ := storeHeader_spec E.uc i name w (h.getD [])
  refine ⟨⟨w, _, hw, ?_, hs⟩, ?_, ?_⟩
  · rw [Option.getD_some, hf, headerOf_upd, if_pos rfl]
  · intro k hk
    rw [Option.getD_some, hf, headerOf_upd, if_neg hk]
  · rw [Option.getD_some, hf, keys_upd_header]

/-- Setting a request header sets the values of this header, whatever its case; the other headers stay, and the spelling
of the names is that of the first call. -/
theorem C88_request {E : Source} {name : Str} {i : Nat} {value : Option Str} {r r' : HttpRequest}
    (h : withHeaderReq E name i value r = .ok r') :
    HeaderSet E name i value r.headers r'.headers ∧
    r'.method = r.method ∧ r'.path = r.path ∧ r'.query = r.query ∧ r'.body = r.body := by
  rw [withHeaderReq, valuePath_tokens] at h
  rcases fromJsonV2_cases E .header (valueTokens name i) i (value.getD []) r.rules r.gens with
    ⟨_, h2⟩ | ⟨_, w, a', hw, _, h2⟩
  · rw [h2] at h; cases h
  · rw [h2, Res.map_ok] at h
    cases h
    exact ⟨headerSet_of hw, rfl, rfl, rfl, rfl⟩

/-- Setting a response header, likewise. -/
theorem C88_response {E : Source} {name : Str} {i : Nat} {value : Option Str} {r r' : HttpResponse}
    (h : withHeaderRes E name i value r = .ok r') :
    HeaderSet E name i value r.headers r'.headers ∧ r'.status = r.status ∧ r'.body = r.body := by
  rw [withHeaderRes, valuePath_tokens] at h
  rcases fromJsonV2_cases E .header (valueTokens name i) i (value.getD []) r.rules r.gens with
    ⟨_, h2⟩ | ⟨_, w, a', hw, _, h2⟩
  · rw [h2] at h; cases h
  · rw [h2, Res.map_ok] at h
    cases h
    exact ⟨headerSet_of hw, rfl, rfl⟩

/-- `pactffi_set_header` overwrites the header, whatever its case. -/
theorem C88_set (uc : UC) (name : Str) (value : Option Str) (r : HttpRequest) :
    headerOf uc ((setHeaderReq uc name value r).headers.getD []) name = some [value.getD []] ∧
    (∀ k, uc.lower k ≠ uc.lower name → headerOf uc ((setHeaderReq uc name value r).headers.getD []) k =
      headerOf uc (r.headers.getD []) k) ∧
    (setHeaderReq uc name value r).rules = r.rules ∧ (setHeaderReq uc name value r).gens = r.gens := by
  refine ⟨?_, ?_, rfl, rfl⟩
  · show headerOf uc (updEntry _ _ _) name = _
    rw [headerOf_upd, if_pos rfl]
  · intro k hk
    show headerOf uc (updEntry _ _ _) k = _
    rw [headerOf_upd, if_neg hk]

/-- No two header names differ only in case. -/
def CaseFree (uc : UC) (h : HeaderMap) : Prop := (h.map fun e => uc.lower e.1).Nodup

/-- No call adds a second spelling of a header. -/
theorem C88_one_spelling {E : Source} {name : Str} {i : Nat} {value : Option Str} {h h' : Option HeaderMap}
    (hs : HeaderSet E name i value h h') (hc : CaseFree E.uc (h.getD [])) : CaseFree E.uc (h'.getD []) := by
  have e : ∀ m : HeaderMap, (m.map fun e => E.uc.lower e.1) = (m.map (·.1)).map E.uc.lower := by
    intro m; rw [List.map_map]; rfl
  rw [CaseFree, e] at hc ⊢
  rw [hs.spelling]
  cases ho : headerOf E.uc (h.getD []) name with
  | some v => exact hc
  | none =>
    rw [if_neg (by simp), List.map_append, List.nodup_append]
    refine ⟨hc, by simp, ?_⟩
    intro a ha b hb
    simp only [List.map_cons, List.map_nil, List.mem_singleton] at hb
    subst hb
    rw [List.map_map, List.mem_map] at ha
    obtain ⟨x, hx, rfl⟩ := ha
    rw [headerOf, Option.map_eq_none_iff, List.find?_eq_none] at ho
    intro e
    exact ho x hx (decide_eq_true e)

/-! ## C87: the rules and generators -/

theorem lookup_append_none {β : Type} (m : List (DocPath × β)) (P x : DocPath) :
    Rules.lookup (m.filter fun e => !keyIs P e) x = if x.expr = P.expr then none else Rules.lookup m x := by
  induction m with
  | nil => simp [Rules.lookup]
  | cons e es ih =>
    rw [List.filter_cons]
    by_cases hk : keyIs P e = true
    · rw [if_neg (by simp [hk]), ih]
      by_cases hx : x.expr = P.expr
      · rw [if_pos hx, if_pos hx]
      · rw [if_neg hx, if_neg hx]
        have : keyIs x e = false := by
          rw [Bool.eq_false_iff, Ne, RuleProps.keyIs_iff]
          rw [RuleProps.keyIs_iff] at hk
          exact fun h => hx (h.symm.trans hk)
        simp [Rules.lookup, List.find?_cons, this]
    · rw [if_pos (by simp [hk])]
      by_cases hx : keyIs x e = true
      · have hne : ¬ x.expr = P.expr := by
          rw [RuleProps.keyIs_iff] at hk hx
          exact fun h => hk (hx.trans h)
        rw [if_neg hne]
        simp [Rules.lookup, List.find?_cons, hx]
      · have h1 : Rules.lookup (e :: es.filter fun e => !keyIs P e) x = Rules.lookup (es.filter fun e => !keyIs P e) x := by
          simp [Rules.lookup, List.find?_cons, hx]
        have h2 : Rules.lookup (e :: es) x = Rules.lookup es x := by simp [Rules.lookup, List.find?_cons, hx]
        rw [h1, h2, ih]

/-- The rules of a part are filed under their category. -/
def Named (R : MatchingRules) : Prop := ∀ e ∈ R, e.2.name = e.1

theorem catOf_name {R : MatchingRules} (h : Named R) (c : Category) : (catOf R c).name = c := by
  unfold catOf rulesForCategory
  cases hf : R.find? (fun e => decide (e.1 = c)) with
  | none => rfl
  | some e =>
    have h1 := List.find?_some hf
    have h2 := h e (List.mem_of_find?_eq_some hf)
    rw [Option.map_some, Option.getD_some, h2]
    exact of_decide_eq_true h1

theorem forCategory_setCat (c d : Category) (r : RuleCategory) (R : MatchingRules) :
    rulesForCategory (setCat c r R) d = if d = c then some r else rulesForCategory R d := by
  induction R with
  | nil =>
    rw [setCat]
    by_cases h : d = c
    · subst h; simp [rulesForCategory]
    · have : ¬ c = d := fun e => h e.symm
      simp [rulesForCategory, h, this]
  | cons e es ih =>
    rw [setCat]
    by_cases he : e.1 = c
    · rw [if_pos he]
      by_cases h : d = c
      · subst h; simp [rulesForCategory]
      · have h' : ¬ c = d := fun e => h e.symm
        rw [if_neg h]
        simp [rulesForCategory, he, h']
    · rw [if_neg he]
      by_cases h : d = c
      · subst h
        rw [if_pos rfl] at ih ⊢
        simp only [rulesForCategory, List.find?_cons, decide_eq_false he] at ih ⊢
        exact ih
      · rw [if_neg h] at ih ⊢
        simp only [rulesForCategory, List.find?_cons] at ih ⊢
        split
        · rfl
        · exact ih

theorem catOf_setCat (c : Category) (r : RuleCategory) (R : MatchingRules) : catOf (setCat c r R) c = r := by
  rw [catOf, forCategory_setCat, if_pos rfl]
  rfl

theorem setCat_named {c : Category} {r : RuleCategory} {R : MatchingRules} (h : Named R) (hr : r.name = c) :
    Named (setCat c r R) := by
  induction R with
  | nil =>
    intro e he
    rw [setCat, List.mem_singleton] at he
    subst he
    exact hr
  | cons x xs ih =>
    intro e he
    rw [setCat] at he
    split at he
    · rcases List.mem_cons.1 he with rfl | he
      · exact hr
      · exact h e (List.mem_cons_of_mem _ he)
    · rcases List.mem_cons.1 he with rfl | he
      · exact h _ List.mem_cons_self
      · exact ih (fun y hy => h y (List.mem_cons_of_mem _ hy)) e he

/-- A call that sets value `i` of a query parameter or a header: the rules and generators of the request or response
before and after. -/
inductive Call (E : Source) (name : Str) (i : Nat) (text : Str) :
    Category → MatchingRules → Generators → MatchingRules → Generators → Prop
  | query (r r' : HttpRequest) : withQuery E name i (some text) r = .ok r' →
      Call E name i text .query r.rules r.gens r'.rules r'.gens
  | requestHeader (r r' : HttpRequest) : withHeaderReq E name i (some text) r = .ok r' →
      Call E name i text .header r.rules r.gens r'.rules r'.gens
  | responseHeader (r r' : HttpResponse) : withHeaderRes E name i (some text) r = .ok r' →
      Call E name i text .header r.rules r.gens r'.rules r'.gens

theorem call_inv {E : Source} {name : Str} {i : Nat} {text : Str} {c : Category} {R R' : MatchingRules} {G G' : Generators}
    (h : Call E name i text c R G R' G') : (c = .query ∨ c = .header) ∧ ∃ w a',
      fromJsonCat E (fromTokens (valueTokens name i)) i text ⟨catOf R c, G⟩ = .ok (w, a') ∧
      R' = setCat c a'.cat R ∧ G' = a'.gens := by
  cases h with
  | query r r' h =>
    rw [withQuery, valuePath_tokens] at h
    rcases fromJsonV2_cases E .query (valueTokens name i) i text r.rules r.gens with ⟨_, h2⟩ | ⟨_, w, a', _, h3, h2⟩
    · rw [h2] at h; cases h
    · rw [h2, Res.map_ok] at h
      cases h
      exact ⟨.inl rfl, w, a', h3, rfl, rfl⟩
  | requestHeader r r' h =>
    rw [withHeaderReq, valuePath_tokens] at h
    rcases fromJsonV2_cases E .header (valueTokens name i) i text r.rules r.gens with ⟨_, h2⟩ | ⟨_, w, a', _, h3, h2⟩
    · rw [Option.getD_some, h2] at h; cases h
    · rw [Option.getD_some, h2, Res.map_ok] at h
      cases h
      exact ⟨.inr rfl, w, a', h3, rfl, rfl⟩
  | responseHeader r r' h =>
    rw [withHeaderRes, valuePath_tokens] at h
    rcases fromJsonV2_cases E .header (valueTokens name i) i text r.rules r.gens with ⟨_, h2⟩ | ⟨_, w, a', _, h3, h2⟩
    · rw [Option.getD_some, h2] at h; cases h
    · rw [Option.getD_some, h2, Res.map_ok] at h
      cases h
      exact ⟨.inr rfl, w, a', h3, rfl, rfl⟩

/-- A text without a matcher adds no rules and no generators. -/
theorem C87_plain {E : Source} {name : Str} {i : Nat} {text : Str} {c : Category} {R R' : MatchingRules}
    {G G' : Generators} (h : Call E name i text c R G R' G')
    (hn : ∀ m, E.parse text = some (.obj m) → ¬ IsMatcher m) :
    (∀ p, Rules.lookup (catOf R' c).rules p = Rules.lookup (catOf R c).rules p) ∧ G' = G := by
  obtain ⟨_, w, a', h1, rfl, rfl⟩ := call_inv h
  have : a' = ⟨catOf R c, G⟩ := by
    rw [fromJsonCat] at h1
    split at h1
    · rename_i m hp
      have hpo : ∀ p, partObject E.setup p i m ⟨catOf R c, G⟩ = .ok ((RuleJson.get "value" m).getD .null, ⟨catOf R c, G⟩) :=
        fun p => if_neg (hn m hp)
      rw [hpo, Res.map_ok] at h1
      cases h1
      rfl
    · cases h1
      rfl
  rw [this, catOf_setCat]
  exact ⟨fun p => rfl, rfl⟩

theorem addGenAt_cat (p : DocPath) (g : Option Generator) (a : Acc) : (addGenAt p g a).cat = a.cat := by
  cases g with
  | none => rfl
  | some g => rfl

theorem rekey_name (p : DocPath) (c : RuleCategory) : (rekey p c).name = c.name := by
  unfold rekey
  split <;> rfl

theorem beforeRules_name (p : DocPath) (i : Nat) (a : Acc) : (beforeRules p i a).cat.name = a.cat.name := by
  unfold beforeRules
  split
  · exact rekey_name p a.cat
  · rfl

theorem withRules_name (p : DocPath) (i : Nat) (r : Res (List MatchingRule × Option Generator)) (a : Acc) :
    (withRules p i r a).cat.name = a.cat.name := by
  unfold withRules
  split
  · rw [addGenAt_cat, addRulesAt_name, beforeRules_name]
  · rfl

/-- The rules of the other categories stay. -/
theorem fromJsonCat_name {E : Source} {ts : List PathToken} {i : Nat} {text : Str} {a a' : Acc} {w : Str ⊕ List Str}
    (h : fromJsonCat E (fromTokens ts) i text a = .ok (w, a')) : a'.cat.name = a.cat.name := by
  rw [fromJsonCat] at h
  split at h
  · rename_i m hp
    rw [Res.map_eq_ok] at h
    obtain ⟨⟨x, b⟩, h1, h2⟩ := h
    cases h2
    rw [partObject] at h1
    split at h1
    · rcases withMatcher_good E.setup m with ⟨_, h3⟩ | ⟨y, l, g, _, _, _, h3⟩
      · rw [h3] at h1; cases h1
      · rw [h3] at h1
        cases h1
        rw [addGenAt_cat, withRules_name]
        exact addAll_name _ _ _
    · cases h1
      rfl
  · cases h
    rfl

/-- The rules of the other categories stay. -/
theorem C87_other {E : Source} {name : Str} {i : Nat} {text : Str} {c : Category} {R R' : MatchingRules}
    {G G' : Generators} (h : Call E name i text c R G R' G') :
    (∀ d, d ≠ c → rulesForCategory R' d = rulesForCategory R d) ∧ (Named R → Named R') := by
  obtain ⟨_, w, a', h1, rfl, rfl⟩ := call_inv h
  constructor
  · intro d hd
    rw [forCategory_setCat, if_neg hd]
  · intro hR
    exact setCat_named hR ((fromJsonCat_name h1).trans (catOf_name hR c))

/-- The rules `new` are those of the matchers in the array of values, at their paths below `ts`. -/
def FromItems (S : Setup) (m : Obj) (ts : List PathToken) (p : DocPath) (new : List MatchingRule) : Prop :=
  ∀ r, r ∈ new ↔ ∃ q m' rs', p.expr = (fromTokens (ts ++ q)).expr ∧ Inner S m q m' ∧ RulesOf S m' rs' ∧ r ∈ rs'

theorem inner_star {S : Setup} {m m' : Obj} {q : List PathToken} (h : Inner S m q m') : ∃ q', q = .starIndex :: q' := by
  obtain ⟨xs, _, _, _, hf⟩ := h
  generalize hj : Json.arr xs = j at hf
  generalize hh : (⟨false, true, false⟩ : Held) = hd at hf
  cases hf with
  | here => cases hj
  | value => cases hj
  | item _ xs' i x q' => subst hh; exact ⟨_, rfl⟩
  | field => cases hj

theorem inner_outcome_path {S : Setup} {m : Obj} {l : List (List PathToken × MatchingRule)}
    {g : List (List PathToken × Generator)} (ho : IntegrationProps.Outcome S (Inner S m) l g) {x : List PathToken × MatchingRule}
    (hx : x ∈ l) : ∃ q', x.1 = .starIndex :: q' := by
  obtain ⟨m', rs, h1, _⟩ := (ho.rules x.1 x.2).1 hx
  exact inner_star h1

theorem inner_outcome_gen {S : Setup} {m : Obj} {l : List (List PathToken × MatchingRule)}
    {g : List (List PathToken × Generator)} (ho : IntegrationProps.Outcome S (Inner S m) l g) {x : List PathToken × Generator}
    (hx : x ∈ g) : ∃ q', x.1 = .starIndex :: q' := by
  obtain ⟨m', h1, _⟩ := (ho.gens x.1 x.2).1 hx
  exact inner_star h1

/-- The items add rules at the paths below `ts` only. -/
theorem items_rules {S : Setup} {m : Obj} {l : List (List PathToken × MatchingRule)}
    {g : List (List PathToken × Generator)} (ho : IntegrationProps.Outcome S (Inner S m) l g) (ts : List PathToken)
    (c : RuleCategory) :
    (∀ p, ∃ new, rulesUnder (addAll ts l c) p = rulesUnder c p ++ new ∧ FromItems S m ts p new) ∧
    (∀ p, (∀ q', p.expr ≠ (fromTokens (ts ++ .starIndex :: q')).expr) →
      Rules.lookup (addAll ts l c).rules p = Rules.lookup c.rules p) := by
  constructor
  · intro p
    refine ⟨_, rulesUnder_addAll l ts c p, ?_⟩
    intro r
    rw [List.mem_map]
    constructor
    · rintro ⟨⟨q, r'⟩, hm, rfl⟩
      obtain ⟨h1, h2⟩ := List.mem_filter.1 hm
      obtain ⟨m', rs, h3⟩ := (ho.rules q r').1 h1
      exact ⟨q, m', rs, (of_decide_eq_true h2).symm, h3⟩
    · rintro ⟨q, m', rs, hp, h3⟩
      exact ⟨(q, r), List.mem_filter.2 ⟨(ho.rules q r).2 ⟨m', rs, h3⟩, decide_eq_true hp.symm⟩, rfl⟩
  · intro p hp
    have hn : (l.any fun x => decide ((fromTokens (ts ++ x.1)).expr = p.expr)) = false := by
      rw [List.any_eq_false]
      intro x hx he
      obtain ⟨q', hq⟩ := inner_outcome_path ho hx
      rw [hq] at he
      exact hp q' (of_decide_eq_true he).symm
    rw [lookup_addAll, hn]
    rfl

theorem rulesUnder_lookup {c d : RuleCategory} {p : DocPath} (h : Rules.lookup c.rules p = Rules.lookup d.rules p) :
    rulesUnder c p = rulesUnder d p := by rw [rulesUnder, rulesUnder, h]

theorem lookup_rekey (ts : List PathToken) (t t' : PathToken) (c : RuleCategory) (x : DocPath) :
    Rules.lookup (rekey (fromTokens (t :: ts ++ [t'])) c).rules x =
      if x.expr = (fromTokens (t :: ts)).expr then none
      else if x.expr = (fromTokens (t :: ts ++ [.index 0])).expr then
        (Rules.lookup c.rules (fromTokens (t :: ts))).or (Rules.lookup c.rules x)
      else Rules.lookup c.rules x := by
  have hparent : parentOr (fromTokens (t :: ts ++ [t'])) = fromTokens (t :: ts) := by
    have hd : (t :: (ts ++ [t'])).dropLast = t :: ts := by
      rw [← List.cons_append, List.dropLast_concat]
    unfold parentOr parent fromTokens
    simp [hd]
  have hpush : pushIndex (fromTokens (t :: ts)) 0 = fromTokens (t :: ts ++ [.index 0]) := by
    rw [pushIndex_push, fromTokens_snoc]
  unfold rekey
  rw [hparent, hpush]
  cases hl : Rules.lookup c.rules (fromTokens (t :: ts)) with
  | none =>
    simp only
    split
    · rename_i hx
      rw [← hl]
      have : keyIs (β := RuleList) x = keyIs (fromTokens (t :: ts)) := by
        funext e
        simp only [keyIs, eqPath, hx]
      rw [Rules.lookup, Rules.lookup, this]
    · split <;> rfl
  | some rl =>
    simp only
    rw [RuleProps.lookup_upsert, lookup_append_none]
    by_cases h1 : x.expr = (fromTokens (t :: ts)).expr
    · have h2 : ¬ x.expr = (fromTokens (t :: ts ++ [.index 0])).expr := by
        intro e
        have := fromTokens_inj (h1.symm.trans e)
        have := congrArg List.length this
        simp at this
      rw [if_neg h2, if_pos h1, if_pos h1]
    · rw [if_neg h1, if_neg h1]
      split
      · rfl
      · rfl

theorem addRulesAt_rules (ts : List PathToken) (rs : List MatchingRule) (a : Acc) :
    rulesUnder (addRulesAt (fromTokens ts) rs a).cat (fromTokens ts) = rulesUnder a.cat (fromTokens ts) ++ rs ∧
    ∀ p, p.expr ≠ (fromTokens ts).expr →
      Rules.lookup (addRulesAt (fromTokens ts) rs a).cat.rules p = Rules.lookup a.cat.rules p := by
  have e : (addRulesAt (fromTokens ts) rs a).cat = addAll ts (rs.map fun r => ([], r)) a.cat := by
    rw [addRulesAt_after]; rfl
  rw [e]
  constructor
  · rw [rulesUnder_addAll]
    congr 1
    rw [List.filter_eq_self.2, List.map_map]
    · exact List.map_id rs
    · intro x hx
      obtain ⟨r, _, rfl⟩ := List.mem_map.1 hx
      simp
  · intro p hp
    rw [lookup_addAll]
    have : ((rs.map fun r => (([] : List PathToken), r)).any
        fun x => decide ((fromTokens (ts ++ x.1)).expr = p.expr)) = false := by
      rw [List.any_eq_false]
      intro x hx he
      obtain ⟨r, _, rfl⟩ := List.mem_map.1 hx
      rw [List.append_nil] at he
      exact hp (of_decide_eq_true he).symm
    rw [this]
    rfl

/-- The state after a call with a matcher. -/
theorem call_matcher {E : Source} {name : Str} {i : Nat} {text : Str} {c : Category} {R R' : MatchingRules}
    {G G' : Generators} (h : Call E name i text c R G R' G') {m : Obj} (hp : E.parse text = some (.obj m))
    (hm : IsMatcher m) (hR : Named R) :
    ∃ l g, IntegrationProps.Outcome E.setup (Inner E.setup m) l g ∧
      ∃ a', a' = addGenAt (fromTokens (valueTokens name i)) (ownGenerator m)
        (withRules (fromTokens (valueTokens name i)) i (matchersFrom E.setup m)
          (after (valueTokens name i) l g ⟨catOf R c, G⟩)) ∧
      catOf R' c = a'.cat ∧ G' = a'.gens ∧ matchersFrom E.setup m ≠ .panic := by
  obtain ⟨hc, w, a', h1, rfl, rfl⟩ := call_inv h
  rw [fromJsonCat, hp] at h1
  simp only at h1
  have hpo : partObject E.setup (fromTokens (valueTokens name i)) i m ⟨catOf R c, G⟩ =
      withMatcher E.setup (fromTokens (valueTokens name i)) i m ⟨catOf R c, G⟩ := if_pos hm
  rw [hpo] at h1
  rcases withMatcher_good E.setup m with ⟨_, h3⟩ | ⟨y, l, g, hnp, ho, _, h3⟩
  · rw [h3] at h1; cases h1
  · rw [h3, Res.map_ok] at h1
    have ht : targetPath (catOf R c).name (fromTokens (valueTokens name i)) = fromTokens (valueTokens name i) := by
      rw [catOf_name hR]
      rcases hc with rfl | rfl <;> rfl
    simp only [ht] at h1
    refine ⟨l, g, ho, a', ?_, catOf_setCat _ _ _, rfl, hnp⟩
    exact (Prod.mk.inj (Res.ok.inj h1)).2.symm

theorem withRules_query (p : DocPath) (i : Nat) (rs : List MatchingRule) (g : Option Generator) (a : Acc)
    (hc : a.cat.name = .query ∨ a.cat.name = .header) : withRules p i (.ok (rs, g)) a =
      addGenAt p g (addRulesAt p rs (if i = 0 then a else { a with cat := rekey p a.cat })) := by
  have ht : ∀ p, targetPath a.cat.name p = p := by
    intro p
    rcases hc with hc | hc <;> rw [hc] <;> rfl
  have hq : queryOrHeader a.cat.name = true := by
    rcases hc with hc | hc <;> rw [hc] <;> rfl
  rw [withRules, ht, ht, beforeRules, hq]
  by_cases hi : i = 0
  · rw [if_pos hi, if_neg (by simp [hi])]
  · rw [if_neg hi, if_pos (by simp; omega)]

/-- A matcher for the first value: its rules are added for the parameter or header as a whole, those in its array below. -/
theorem C87_first {E : Source} {name : Str} {text : Str} {c : Category} {R R' : MatchingRules} {G G' : Generators}
    (h : Call E name 0 text c R G R' G') {m : Obj} (hp : E.parse text = some (.obj m)) {rs : List MatchingRule}
    {g : Option Generator} (hm : Means E.setup m rs g) (hR : Named R) :
    rulesUnder (catOf R' c) (fromTokens [.root, .field name]) =
      rulesUnder (catOf R c) (fromTokens [.root, .field name]) ++ rs ∧
    (∀ p, p.expr ≠ (fromTokens [.root, .field name]).expr → ∃ new,
      rulesUnder (catOf R' c) p = rulesUnder (catOf R c) p ++ new ∧ FromItems E.setup m [.root, .field name] p new) ∧
    (∀ p, p.expr ≠ (fromTokens [.root, .field name]).expr →
      (∀ q, p.expr ≠ (fromTokens (.root :: .field name :: .starIndex :: q)).expr) →
      Rules.lookup (catOf R' c).rules p = Rules.lookup (catOf R c).rules p) := by
  obtain ⟨hc, _⟩ := call_inv h
  obtain ⟨l, g', ho, a', ha, hR', _, _⟩ := call_matcher h hp hm.isMatcher hR
  have hvt : valueTokens name 0 = [.root, .field name] := rfl
  rw [hvt, (matchersFrom_iff E.setup m hm.isMatcher rs g).2 hm, withRules_query, if_pos rfl] at ha
  · obtain ⟨h1, h2⟩ := items_rules ho [.root, .field name] (catOf R c)
    obtain ⟨h3, h4⟩ := addRulesAt_rules [.root, .field name] rs (after [.root, .field name] l g' ⟨catOf R c, G⟩)
    have hcat : a'.cat = (addRulesAt (fromTokens [.root, .field name]) rs
        (after [.root, .field name] l g' ⟨catOf R c, G⟩)).cat := by rw [ha, addGenAt_cat, addGenAt_cat]
    rw [hR', hcat]
    refine ⟨?_, ?_, ?_⟩
    · rw [h3]
      congr 1
      apply rulesUnder_lookup
      refine h2 _ ?_
      intro q' e
      have := congrArg List.length (fromTokens_inj e)
      simp at this
    · intro p hpe
      rw [rulesUnder_lookup (h4 p hpe)]
      exact h1 p
    · intro p hpe hq
      rw [h4 p hpe]
      exact h2 p hq
  · show (addAll _ _ _).name = _ ∨ (addAll _ _ _).name = _
    rw [addAll_name, catOf_name hR]
    exact hc

/-- A matcher for a later value: its rules are added for this value; rules for the parameter or header as a whole become
those of the first value; those in its array are added below. -/
theorem C87_later {E : Source} {name : Str} {i : Nat} {text : Str} {c : Category} {R R' : MatchingRules}
    {G G' : Generators} (h : Call E name i text c R G R' G') (hi : i ≠ 0) {m : Obj} (hp : E.parse text = some (.obj m))
    {rs : List MatchingRule} {g : Option Generator} (hm : Means E.setup m rs g) (hR : Named R) :
    rulesUnder (catOf R' c) (fromTokens [.root, .field name, .index i]) =
      rulesUnder (catOf R c) (fromTokens [.root, .field name, .index i]) ++ rs ∧
    Rules.lookup (catOf R' c).rules (fromTokens [.root, .field name]) = none ∧
    Rules.lookup (catOf R' c).rules (fromTokens [.root, .field name, .index 0]) =
      (Rules.lookup (catOf R c).rules (fromTokens [.root, .field name])).or
        (Rules.lookup (catOf R c).rules (fromTokens [.root, .field name, .index 0])) ∧
    (∀ p, p.expr ≠ (fromTokens [.root, .field name]).expr → p.expr ≠ (fromTokens [.root, .field name, .index 0]).expr →
      p.expr ≠ (fromTokens [.root, .field name, .index i]).expr → ∃ new,
      rulesUnder (catOf R' c) p = rulesUnder (catOf R c) p ++ new ∧
        FromItems E.setup m [.root, .field name, .index i] p new) ∧
    (∀ p, p.expr ≠ (fromTokens [.root, .field name]).expr → p.expr ≠ (fromTokens [.root, .field name, .index 0]).expr →
      p.expr ≠ (fromTokens [.root, .field name, .index i]).expr →
      (∀ q, p.expr ≠ (fromTokens (.root :: .field name :: .index i :: .starIndex :: q)).expr) →
      Rules.lookup (catOf R' c).rules p = Rules.lookup (catOf R c).rules p) := by
  obtain ⟨hc, _⟩ := call_inv h
  obtain ⟨l, g', ho, a', ha, hR', _, _⟩ := call_matcher h hp hm.isMatcher hR
  have hvt : valueTokens name i = [.root, .field name, .index i] := if_neg hi
  rw [hvt, (matchersFrom_iff E.setup m hm.isMatcher rs g).2 hm, withRules_query, if_neg hi] at ha
  · obtain ⟨h1, h2⟩ := items_rules ho [.root, .field name, .index i] (catOf R c)
    have hcat := congrArg Acc.cat ha
    rw [addGenAt_cat, addGenAt_cat] at hcat
    obtain ⟨h3, h4⟩ := addRulesAt_rules [.root, .field name, .index i] rs
      { after [.root, .field name, .index i] l g' ⟨catOf R c, G⟩ with
        cat := rekey (fromTokens [.root, .field name, .index i]) (addAll [.root, .field name, .index i] l (catOf R c)) }
    have hcat' : a'.cat = _ := hcat
    have hrek := lookup_rekey [.field name] .root (.index i) (addAll [.root, .field name, .index i] l (catOf R c))
    simp only [List.cons_append, List.nil_append] at hrek
    have n1 : (fromTokens [.root, .field name]).expr ≠ (fromTokens [.root, .field name, .index i]).expr := by
      intro e
      have := congrArg List.length (fromTokens_inj e)
      simp at this
    have n2 : (fromTokens [.root, .field name, .index 0]).expr ≠ (fromTokens [.root, .field name, .index i]).expr := by
      intro e
      have := fromTokens_inj e
      simp at this
      omega
    have n3 : (fromTokens [.root, .field name, .index 0]).expr ≠ (fromTokens [.root, .field name]).expr := by
      intro e
      have := congrArg List.length (fromTokens_inj e)
      simp at this
    have far : ∀ ts q', ts.length ≤ 3 →
        (fromTokens ts).expr ≠ (fromTokens ([.root, .field name, .index i] ++ .starIndex :: q')).expr := by
      intro ts q' hl e
      have := congrArg List.length (fromTokens_inj e)
      simp at this
      omega
    rw [hR', hcat']
    refine ⟨?_, ?_, ?_, ?_, ?_⟩
    · refine h3.trans ?_
      congr 1
      apply rulesUnder_lookup
      rw [hrek, if_neg n1.symm, if_neg n2.symm]
      exact h2 _ fun q' => far _ q' (by simp)
    · refine (h4 _ n1).trans ?_
      rw [hrek, if_pos rfl]
    · refine (h4 _ n2).trans ?_
      rw [hrek, if_neg n3, if_pos rfl, h2 _ fun q' => far _ q' (by simp), h2 _ fun q' => far _ q' (by simp)]
    · intro p p1 p2 p3
      have : Rules.lookup (rekey (fromTokens [.root, .field name, .index i])
          (addAll [.root, .field name, .index i] l (catOf R c))).rules p =
          Rules.lookup (addAll [.root, .field name, .index i] l (catOf R c)).rules p := by
        rw [hrek, if_neg p1, if_neg p2]
      obtain ⟨new, e1, e2⟩ := h1 p
      refine ⟨new, ?_, e2⟩
      rw [← e1]
      exact (rulesUnder_lookup (h4 p p3)).trans (rulesUnder_lookup this)
    · intro p p1 p2 p3 hq
      refine (h4 p p3).trans ?_
      rw [hrek, if_neg p1, if_neg p2]
      exact h2 p hq
  · show (addAll _ _ _).name = _ ∨ (addAll _ _ _).name = _
    rw [addAll_name, catOf_name hR]
    exact hc

/-- A matcher that cannot be read adds no rules of its own. -/
theorem C87_unreadable {E : Source} {name : Str} {i : Nat} {text : Str} {c : Category} {R R' : MatchingRules}
    {G G' : Generators} (h : Call E name i text c R G R' G') {m : Obj} (hp : E.parse text = some (.obj m))
    (hm : IsMatcher m) (hn : ∀ rs g, ¬ Means E.setup m rs g) (hR : Named R) (p : DocPath) : ∃ new,
      rulesUnder (catOf R' c) p = rulesUnder (catOf R c) p ++ new ∧ FromItems E.setup m (valueTokens name i) p new := by
  obtain ⟨l, g', ho, a', ha, hR', _, hnp⟩ := call_matcher h hp hm hR
  have herr : matchersFrom E.setup m = .err := by
    cases hx : matchersFrom E.setup m with
    | err => rfl
    | panic => exact absurd hx hnp
    | ok r =>
      obtain ⟨rs, g⟩ := r
      exact absurd ((matchersFrom_iff E.setup m hm rs g).1 hx) (hn rs g)
  rw [herr] at ha
  have hcat : a'.cat = addAll (valueTokens name i) l (catOf R c) := by rw [ha, addGenAt_cat]; rfl
  rw [hR', hcat]
  exact (items_rules ho _ _).1 p

/-- The generator of a matcher: that of its `pact:generator:type`, otherwise that of its definition. -/
inductive GenFor (S : Setup) (m : Obj) : Option Generator → Prop
  | own (t : Json) (g : Generator) : RuleJson.get "pact:generator:type" m = some t → genFromMap t.toStr m = some g →
      GenFor S m (some g)
  | defined (rs : List MatchingRule) (g : Option Generator) :
      (∀ t, RuleJson.get "pact:generator:type" m = some t → genFromMap t.toStr m = none) → Means S m rs g → GenFor S m g
  | unreadable : (∀ t, RuleJson.get "pact:generator:type" m = some t → genFromMap t.toStr m = none) →
      (∀ rs g, ¬ Means S m rs g) → GenFor S m none

theorem ownGen_none (m : Obj) (h : ownGenerator m = none) (t : Json) (ht : RuleJson.get "pact:generator:type" m = some t) :
    genFromMap t.toStr m = none := by
  rw [ownGenerator, ht] at h
  exact h

/-- The generator of the definition. -/
def definedGen (r : Res (List MatchingRule × Option Generator)) : Option Generator :=
  match r with
  | .ok (_, g) => g
  | _ => none

theorem genFor_of (S : Setup) (m : Obj) (hm : IsMatcher m) (hnp : matchersFrom S m ≠ .panic) :
    GenFor S m ((ownGenerator m).or (definedGen (matchersFrom S m))) := by
  cases ho : ownGenerator m with
  | some g =>
    obtain ⟨t, h1, h2⟩ := (ownGen_iff m g).1 ho
    exact .own t g h1 h2
  | none =>
    rw [Option.none_or]
    cases hx : matchersFrom S m with
    | panic => exact absurd hx hnp
    | err =>
      refine .unreadable (ownGen_none m ho) ?_
      intro rs g hmn
      rw [(matchersFrom_iff S m hm rs g).2 hmn] at hx
      cases hx
    | ok r =>
      obtain ⟨rs, g⟩ := r
      exact .defined rs g (ownGen_none m ho) ((matchersFrom_iff S m hm rs g).1 hx)

theorem genAt_addGenAt (p : DocPath) (g : Option Generator) (a : Acc) (d : GenCategory) (q : DocPath) :
    genAt (addGenAt p g a).gens d q =
      if d = generatorCategory a.cat.name ∧ q.expr = p.expr then g.or (genAt a.gens d q) else genAt a.gens d q := by
  cases g with
  | none => simp [addGenAt]
  | some g =>
    show genAt (addGen a.gens _ p g) d q = _
    rw [genAt_addGen]
    rfl

theorem withRules_gens (p p' : DocPath) (i : Nat) (r : Res (List MatchingRule × Option Generator)) (a : Acc)
    (ht : targetPath a.cat.name (targetPath a.cat.name p) = p') :
    (withRules p i r a).gens = (addGenAt p' (definedGen r) a).gens := by
  have hb : ∀ q, (beforeRules q i a).gens = a.gens := by
    intro q
    unfold beforeRules
    split <;> rfl
  unfold withRules
  split
  · rename_i rs g
    rw [ht]
    cases g with
    | none =>
      show (addRulesAt _ rs _).gens = _
      rw [addRulesAt_gens, hb]
      rfl
    | some g =>
      show addGen (addRulesAt _ rs _).gens (generatorCategory (addRulesAt _ rs _).cat.name) p' g = _
      rw [addRulesAt_gens, hb, addRulesAt_name, beforeRules_name]
      rfl
  · rename_i hn
    cases r with
    | ok x => exact absurd rfl (hn x.1 x.2)
    | err => rfl
    | panic => rfl

/-- The generators after reading a matcher. -/
theorem matcher_gens {S : Setup} {m : Obj} {l : List (List PathToken × MatchingRule)}
    {g : List (List PathToken × Generator)} (ho : IntegrationProps.Outcome S (Inner S m) l g) (hm : IsMatcher m)
    (hnp : matchersFrom S m ≠ .panic) (ts ts' : List PathToken) (i : Nat) (a : Acc)
    (ht : targetPath a.cat.name (fromTokens ts) = fromTokens ts')
    (htt : targetPath a.cat.name (fromTokens ts') = fromTokens ts')
    (hts : ∀ q', ts' ≠ ts ++ .starIndex :: q') {d : GenCategory} (hd : GensFor a.cat.name d) (gens : Generators)
    (hg : gens = (addGenAt (fromTokens ts') (ownGenerator m) (withRules (fromTokens ts) i (matchersFrom S m)
      (after ts l g a))).gens) :
    (∃ x, GenFor S m x ∧ genAt gens d (fromTokens ts') = x.or (genAt a.gens d (fromTokens ts'))) ∧
    (∀ e p, (e ≠ d ∨ (p.expr ≠ (fromTokens ts').expr ∧ ∀ q m' x, p.expr = (fromTokens (ts ++ q)).expr →
      Inner S m q m' → ¬ GenOf S m' x)) → genAt gens e p = genAt a.gens e p) := by
  have hname : (after ts l g a).cat.name = a.cat.name := addAll_name _ _ _
  have hw : (withRules (fromTokens ts) i (matchersFrom S m) (after ts l g a)).gens =
      (addGenAt (fromTokens ts') (definedGen (matchersFrom S m)) (after ts l g a)).gens := by
    apply withRules_gens
    rw [hname, ht, htt]
  have key : ∀ e p, genAt gens e p = if e = d ∧ p.expr = (fromTokens ts').expr then
      ((ownGenerator m).or (definedGen (matchersFrom S m))).or (genAt (after ts l g a).gens e p)
      else genAt (after ts l g a).gens e p := by
    intro e p
    rw [hg, genAt_addGenAt, withRules_name, hname, sort_category hd, hw, genAt_addGenAt, hname, sort_category hd]
    split
    · rw [Option.or_assoc]
    · rfl
  have hag : (after ts l g a).gens = addGens d ts g a.gens := by rw [← sort_category hd]; rfl
  constructor
  · refine ⟨_, genFor_of S m hm hnp, ?_⟩
    rw [key, if_pos ⟨rfl, rfl⟩, hag, genAt_addGens_other]
    right
    intro x hx e
    obtain ⟨q', hq⟩ := inner_outcome_gen ho hx
    rw [hq] at e
    exact hts q' (fromTokens_inj e)
  · intro e p hp
    have h1 : genAt (after ts l g a).gens e p = genAt a.gens e p := by
      rw [hag]
      apply genAt_addGens_other
      rcases hp with hp | ⟨_, hp⟩
      · exact .inl hp
      · right
        rintro ⟨q, x⟩ hx he
        obtain ⟨m', h2, h3⟩ := (ho.gens q x).1 hx
        exact hp q m' x he h2 h3
    rw [key, if_neg, h1]
    rintro ⟨h2, h3⟩
    rcases hp with hp | ⟨hp, _⟩
    · exact hp h2
    · exact hp h3

theorem valueTokens_ne (name : Str) (i : Nat) (q' : List PathToken) :
    valueTokens name i ≠ valueTokens name i ++ .starIndex :: q' := by
  intro e
  have := congrArg List.length e
  simp at this

/-- The generator of a matcher becomes that of the value; the other generators stay. -/
theorem C87_generators {E : Source} {name : Str} {i : Nat} {text : Str} {c : Category} {R R' : MatchingRules}
    {G G' : Generators} (h : Call E name i text c R G R' G') {m : Obj} (hp : E.parse text = some (.obj m))
    (hm : IsMatcher m) (hR : Named R) {d : GenCategory} (hd : GensFor c d) :
    (∃ x, GenFor E.setup m x ∧ genAt G' d (fromTokens (valueTokens name i)) =
      x.or (genAt G d (fromTokens (valueTokens name i)))) ∧
    (∀ e p, (e ≠ d ∨ (p.expr ≠ (fromTokens (valueTokens name i)).expr ∧ ∀ q m' x,
      p.expr = (fromTokens (valueTokens name i ++ q)).expr → Inner E.setup m q m' → ¬ GenOf E.setup m' x)) →
      genAt G' e p = genAt G e p) := by
  obtain ⟨hc, _⟩ := call_inv h
  obtain ⟨l, g', ho, a', ha, _, hG, hnp⟩ := call_matcher h hp hm hR
  have ht : ∀ p, targetPath (catOf R c).name p = p := by
    intro p
    rw [catOf_name hR]
    rcases hc with rfl | rfl <;> rfl
  exact matcher_gens ho hm hnp (valueTokens name i) (valueTokens name i) i ⟨catOf R c, G⟩ (ht _) (ht _)
    (valueTokens_ne name i) (by rw [catOf_name hR]; exact hd) G' (by rw [hG, ha])

/-- A call that sets the path of a request or the status of a response. -/
inductive Call0 (E : Source) (text : Str) : Category → MatchingRules → Generators → MatchingRules → Generators → Prop
  | path (method : Option Str) (r r' : HttpRequest) : withRequest E method (some text) r = .ok r' →
      Call0 E text .path r.rules r.gens r'.rules r'.gens
  | status (r r' : HttpResponse) : responseStatus E (some text) r = .ok r' →
      Call0 E text .status r.rules r.gens r'.rules r'.gens

theorem call0_inv {E : Source} {text : Str} {c : Category} {R R' : MatchingRules} {G G' : Generators}
    (h : Call0 E text c R G R' G') : (c = .path ∨ c = .status) ∧ ∃ w a',
      fromJsonCat E (fromTokens []) 0 text ⟨catOf R c, G⟩ = .ok (w, a') ∧ R' = setCat c a'.cat R ∧ G' = a'.gens := by
  cases h with
  | path method r r' h =>
    rw [withRequest, empty_tokens] at h
    rcases fromJsonV2_cases E .path [] 0 text r.rules r.gens with ⟨_, h2⟩ | ⟨_, w, a', _, h3, h2⟩
    · rw [Option.getD_some, h2] at h; cases h
    · rw [Option.getD_some, h2, Res.map_ok] at h
      cases h
      exact ⟨.inl rfl, w, a', h3, rfl, rfl⟩
  | status r r' h =>
    rw [responseStatus, empty_tokens] at h
    rcases fromJsonV2_cases E .status [] 0 text r.rules r.gens with ⟨_, h2⟩ | ⟨_, w, a', _, h3, h2⟩
    · rw [Option.getD_some, h2] at h; cases h
    · rw [Option.getD_some, h2, Res.map_ok] at h
      cases h
      exact ⟨.inr rfl, w, a', h3, rfl, rfl⟩

/-- The path and the status: a matcher that can be read adds its rules, one that cannot adds none; the generator is set;
other categories of rules and other generators stay. -/
theorem C87_path_status {E : Source} {text : Str} {c : Category} {R R' : MatchingRules} {G G' : Generators}
    (h : Call0 E text c R G R' G') (hR : Named R) {d : GenCategory} (hd : GensFor c d) :
    (∀ k, k ≠ c → rulesForCategory R' k = rulesForCategory R k) ∧
    ((∀ m, E.parse text = some (.obj m) → ¬ IsMatcher m) →
      (∀ p, Rules.lookup (catOf R' c).rules p = Rules.lookup (catOf R c).rules p) ∧ G' = G) ∧
    (∀ m, E.parse text = some (.obj m) → IsMatcher m →
      (∀ rs g, Means E.setup m rs g →
        rulesUnder (catOf R' c) rootPath = rulesUnder (catOf R c) rootPath ++ rs ∧
        ∀ p, p.expr ≠ rootPath.expr → ∃ new, rulesUnder (catOf R' c) p = rulesUnder (catOf R c) p ++ new ∧
          FromItems E.setup m [] p new) ∧
      ((∀ rs g, ¬ Means E.setup m rs g) → ∀ p, ∃ new,
        rulesUnder (catOf R' c) p = rulesUnder (catOf R c) p ++ new ∧ FromItems E.setup m [] p new) ∧
      (∃ x, GenFor E.setup m x ∧ genAt G' d rootPath = x.or (genAt G d rootPath)) ∧
      (∀ e p, (e ≠ d ∨ (p.expr ≠ rootPath.expr ∧ ∀ q m' x, p.expr = (fromTokens q).expr → Inner E.setup m q m' →
        ¬ GenOf E.setup m' x)) → genAt G' e p = genAt G e p)) := by
  obtain ⟨hc, w, a', h1, rfl, rfl⟩ := call0_inv h
  have hps : pathOrStatus (catOf R c).name = true := by
    rw [catOf_name hR]
    rcases hc with rfl | rfl <;> rfl
  have hqh : queryOrHeader (catOf R c).name = false := by
    rw [catOf_name hR]
    rcases hc with rfl | rfl <;> rfl
  have ht0 : targetPath (catOf R c).name (fromTokens []) = fromTokens [.root] := by
    rw [targetPath, hps]; decide
  have ht1 : targetPath (catOf R c).name (fromTokens [.root]) = fromTokens [.root] := by
    rw [targetPath, hps]; decide
  refine ⟨?_, ?_, ?_⟩
  · intro k hk
    rw [forCategory_setCat, if_neg hk]
  · intro hn
    have : a' = ⟨catOf R c, G⟩ := by
      rw [fromJsonCat] at h1
      split at h1
      · rename_i m hp
        have hpo : ∀ p, partObject E.setup p 0 m ⟨catOf R c, G⟩ =
            .ok ((RuleJson.get "value" m).getD .null, ⟨catOf R c, G⟩) := fun p => if_neg (hn m hp)
        rw [hpo, Res.map_ok] at h1
        cases h1
        rfl
      · cases h1
        rfl
    rw [this, catOf_setCat]
    exact ⟨fun p => rfl, rfl⟩
  · intro m hp hm
    rw [fromJsonCat, hp] at h1
    simp only at h1
    have hpo : partObject E.setup (fromTokens []) 0 m ⟨catOf R c, G⟩ =
        withMatcher E.setup (fromTokens []) 0 m ⟨catOf R c, G⟩ := if_pos hm
    rw [hpo] at h1
    rcases withMatcher_good E.setup m with ⟨_, h3⟩ | ⟨y, l, g, hnp, ho, _, h3⟩
    · rw [h3] at h1; cases h1
    · rw [h3, Res.map_ok] at h1
      have ha := (Prod.mk.inj (Res.ok.inj h1)).2.symm
      simp only [ht0] at ha
      rw [catOf_setCat, rootPath_tokens]
      have hname : (after [] l g ⟨catOf R c, G⟩).cat.name = (catOf R c).name := addAll_name _ _ _
      obtain ⟨i1, i2⟩ := items_rules ho [] (catOf R c)
      refine ⟨?_, ?_, ?_⟩
      · intro rs g0 hmn
        rw [(matchersFrom_iff E.setup m hm rs g0).2 hmn] at ha
        have hcat := congrArg Acc.cat ha
        have hb : beforeRules (fromTokens [.root]) 0 (after [] l g ⟨catOf R c, G⟩) = after [] l g ⟨catOf R c, G⟩ := by
          rw [beforeRules, hname, hqh]; rfl
        rw [addGenAt_cat, withRules] at hcat
        rw [addGenAt_cat, hname, ht0, hb] at hcat
        obtain ⟨h4, h5⟩ := addRulesAt_rules [.root] rs (after [] l g ⟨catOf R c, G⟩)
        rw [hcat]
        constructor
        · rw [h4]
          congr 1
          apply rulesUnder_lookup
          refine i2 _ ?_
          intro q' e
          have := fromTokens_inj e
          simp at this
        · intro p hpe
          rw [rulesUnder_lookup (h5 p hpe)]
          exact i1 p
      · intro hn p
        have herr : matchersFrom E.setup m = .err := by
          cases hx : matchersFrom E.setup m with
          | err => rfl
          | panic => exact absurd hx hnp
          | ok r =>
            obtain ⟨rs, g⟩ := r
            exact absurd ((matchersFrom_iff E.setup m hm rs g).1 hx) (hn rs g)
        rw [herr] at ha
        have hcat : a'.cat = addAll [] l (catOf R c) := by rw [ha, addGenAt_cat]; rfl
        rw [hcat]
        exact i1 p
      · exact matcher_gens ho hm hnp [] [.root] 0 ⟨catOf R c, G⟩ ht0 ht1 (by intro q' e; cases e)
          (by rw [catOf_name hR]; exact hd) a'.gens (by rw [ha])

/-! ### Sequences of calls -/

/-- A call with a matcher for one value: name, index, rules. -/
structure Step where
  name : Str
  index : Nat
  rules : List MatchingRule

/-- Calls with matchers for single values, for the query or the headers of one request or response. -/
inductive Steps (E : Source) (c : Category) (R0 : MatchingRules) (G0 : Generators) :
    List Step → MatchingRules → Generators → Prop
  | nil : Steps E c R0 G0 [] R0 G0
  | snoc (ss : List Step) (R R' : MatchingRules) (G G' : Generators) (name : Str) (i : Nat) (text : Str) (m : Obj)
      (rs : List MatchingRule) (g : Option Generator) : Steps E c R0 G0 ss R G → Call E name i text c R G R' G' →
      E.parse text = some (.obj m) → Means E.setup m rs g → (∀ xs, RuleJson.get "value" m ≠ some (.arr xs)) →
      Steps E c R0 G0 (ss ++ [⟨name, i, rs⟩]) R' G'

/-- The rules given for a value. -/
def given (ss : List Step) (name : Str) (i : Nat) : List MatchingRule :=
  (ss.filter fun s => decide (s.name = name ∧ s.index = i)).flatMap (·.rules)

/-- Is there a rule for a later value? -/
def Later (ss : List Step) (name : Str) : Prop := ∃ s ∈ ss, s.name = name ∧ s.index ≠ 0

/-- The first value of a parameter or header is not set after a later one. -/
def FirstFirst (ss : List Step) : Prop :=
  ∀ (a b : Nat) (s t : Step), ss[a]? = some s → ss[b]? = some t → s.name = t.name → t.index = 0 → s.index ≠ 0 → b < a

/-- The table for the values of all parameters or headers. -/
def Table (ss : List Step) (c : RuleCategory) : Prop :=
  ∀ name, (Later ss name → Rules.lookup c.rules (fromTokens [.root, .field name]) = none ∧
      ∀ i, rulesUnder c (fromTokens [.root, .field name, .index i]) = given ss name i) ∧
    (¬ Later ss name → rulesUnder c (fromTokens [.root, .field name]) = given ss name 0 ∧
      ∀ i, Rules.lookup c.rules (fromTokens [.root, .field name, .index i]) = none)

theorem given_snoc (ss : List Step) (s : Step) (name : Str) (i : Nat) :
    given (ss ++ [s]) name i = given ss name i ++ if s.name = name ∧ s.index = i then s.rules else [] := by
  simp only [given, List.filter_append, List.flatMap_append]
  congr 1
  by_cases h : s.name = name ∧ s.index = i
  · rw [if_pos h, List.filter_cons_of_pos (by simpa using h)]
    simp
  · rw [if_neg h, List.filter_cons_of_neg (by simpa using h)]
    rfl

theorem later_snoc (ss : List Step) (s : Step) (name : Str) :
    Later (ss ++ [s]) name ↔ Later ss name ∨ (s.name = name ∧ s.index ≠ 0) := by
  constructor
  · rintro ⟨t, ht, h⟩
    rcases List.mem_append.1 ht with ht | ht
    · exact .inl ⟨t, ht, h⟩
    · rw [List.mem_singleton] at ht
      subst ht
      exact .inr h
  · rintro (⟨t, ht, h⟩ | h)
    · exact ⟨t, List.mem_append_left _ ht, h⟩
    · exact ⟨s, List.mem_append_right _ List.mem_cons_self, h⟩

theorem rulesUnder_none {c : RuleCategory} {p : DocPath} (h : Rules.lookup c.rules p = none) : rulesUnder c p = [] := by
  rw [rulesUnder, h]

theorem given_later {ss : List Step} {name : Str} (h : ¬ Later ss name) {i : Nat} (hi : i ≠ 0) : given ss name i = [] := by
  rw [given, List.flatMap_eq_nil_iff]
  intro s hs
  obtain ⟨h1, h2⟩ := List.mem_filter.1 hs
  obtain ⟨h3, h4⟩ := of_decide_eq_true h2
  exact absurd ⟨s, h1, h3, by rw [h4]; exact hi⟩ h

theorem firstFirst_snoc {ss : List Step} {s : Step} (h : FirstFirst (ss ++ [s])) :
    FirstFirst ss ∧ (s.index = 0 → ¬ Later ss s.name) := by
  constructor
  · intro a b x y hx hy
    refine h a b x y ?_ ?_
    · rw [List.getElem?_append_left (List.getElem?_eq_some_iff.1 hx).1]; exact hx
    · rw [List.getElem?_append_left (List.getElem?_eq_some_iff.1 hy).1]; exact hy
  · rintro hi ⟨t, ht, hn, hti⟩
    obtain ⟨a, ha, hat⟩ := List.mem_iff_getElem.1 ht
    have := h a ss.length t s (by rw [List.getElem?_append_left ha, List.getElem?_eq_getElem ha, hat])
      (by simp) hn hi hti
    omega

/-- Calls with matchers for single values, the first value first: if only the first value of a parameter or header is
set, its rules are those for the parameter or header as a whole; otherwise every value has its own rules. -/
theorem C87_history {E : Source} {c : Category} {R0 R : MatchingRules} {G0 G : Generators} {ss : List Step}
    (h : Steps E c R0 G0 ss R G) (h0 : rulesForCategory R0 c = none) (hR : Named R0) (hf : FirstFirst ss) :
    Table ss (catOf R c) ∧ Named R := by
  induction h with
  | nil =>
    refine ⟨?_, hR⟩
    have he : catOf R0 c = emptyCat c := by rw [catOf, h0]; rfl
    intro name
    rw [he]
    refine ⟨?_, ?_⟩
    · rintro ⟨s, hs, _⟩
      cases hs
    · intro _
      exact ⟨rfl, fun i => rfl⟩
  | snoc ss R R' G G' name i text m rs g hs hcall hp hm hv ih =>
    obtain ⟨hf1, hf2⟩ := firstFirst_snoc hf
    obtain ⟨ih, hN⟩ := ih hf1
    refine ⟨?_, (C87_other hcall).2 hN⟩
    have hlen : ∀ (n : Str) (j : Nat) (q : List PathToken), (fromTokens [.root, .field n, .index j]).expr ≠
        (fromTokens (.root :: .field name :: .starIndex :: q)).expr := by
      intro n j q e
      have := fromTokens_inj e
      simp at this
    have hlen2 : ∀ (n : Str) (q : List PathToken), (fromTokens [.root, .field n]).expr ≠
        (fromTokens (.root :: .field name :: .starIndex :: q)).expr := by
      intro n q e
      have := congrArg List.length (fromTokens_inj e)
      simp at this
    have hlen3 : ∀ (ts : List PathToken) (q : List PathToken), ts.length ≤ 3 → (fromTokens ts).expr ≠
        (fromTokens (.root :: .field name :: .index i :: .starIndex :: q)).expr := by
      intro ts q hl e
      have := congrArg List.length (fromTokens_inj e)
      simp at this
      omega
    have ne1 : ∀ (n k : Str) (j : Nat), (fromTokens [.root, .field n, .index j]).expr ≠ (fromTokens [.root, .field k]).expr := by
      intro n k j e
      have := congrArg List.length (fromTokens_inj e)
      simp at this
    have ne2 : ∀ (n k : Str), n ≠ k → (fromTokens [.root, .field n]).expr ≠ (fromTokens [.root, .field k]).expr := by
      intro n k hn e
      have := fromTokens_inj e
      simp at this
      exact hn this
    have ne3 : ∀ (n k : Str) (j j' : Nat), (n ≠ k ∨ j ≠ j') →
        (fromTokens [.root, .field n, .index j]).expr ≠ (fromTokens [.root, .field k, .index j']).expr := by
      intro n k j j' hn e
      have := fromTokens_inj e
      simp at this
      rcases hn with hn | hn
      · exact hn this.1
      · exact hn this.2
    intro n
    rw [later_snoc]
    by_cases hi : i = 0
    · subst hi
      obtain ⟨c1, _, c3⟩ := C87_first hcall hp hm hN
      have hnl := hf2 rfl
      by_cases hn : n = name
      · subst hn
        refine ⟨?_, ?_⟩
        · rintro (h | h)
          · exact absurd h hnl
          · exact absurd rfl h.2
        · intro _
          obtain ⟨t1, t2⟩ := (ih n).2 hnl
          refine ⟨?_, ?_⟩
          · rw [c1, t1, given_snoc, if_pos ⟨rfl, rfl⟩]
          · intro j
            rw [c3 _ (ne1 _ _ _) (hlen n j)]
            exact t2 j
      · have hl1 : ∀ j, given (ss ++ [⟨name, 0, rs⟩]) n j = given ss n j := by
          intro j
          rw [given_snoc, if_neg (fun e => hn e.1.symm), List.append_nil]
        have e1 := c3 _ (ne2 n name hn) (hlen2 n)
        have e2 : ∀ j, Rules.lookup (catOf R' c).rules (fromTokens [.root, .field n, .index j]) = _ :=
          fun j => c3 _ (ne1 _ _ _) (hlen n j)
        refine ⟨?_, ?_⟩
        · rintro (h | h)
          · obtain ⟨t1, t2⟩ := (ih n).1 h
            refine ⟨e1.trans t1, fun j => ?_⟩
            rw [hl1, ← t2 j]
            exact rulesUnder_lookup (e2 j)
          · exact absurd h.1.symm hn
        · intro hnot
          obtain ⟨t1, t2⟩ := (ih n).2 fun h => hnot (.inl h)
          refine ⟨?_, fun j => (e2 j).trans (t2 j)⟩
          rw [hl1, ← t1]
          exact rulesUnder_lookup e1
    · obtain ⟨c1, c2, c3, _, c5⟩ := C87_later hcall hi hp hm hN
      by_cases hn : n = name
      · subst hn
        refine ⟨?_, fun hnot => absurd (.inr ⟨rfl, hi⟩) hnot⟩
        intro _
        refine ⟨c2, fun j => ?_⟩
        by_cases hj : j = i
        · subst hj
          rw [c1, given_snoc, if_pos ⟨rfl, rfl⟩]
          congr 1
          by_cases hl : Later ss n
          · exact ((ih n).1 hl).2 j
          · rw [rulesUnder_none (((ih n).2 hl).2 j), given_later hl hi]
        · rw [given_snoc, if_neg (fun e => hj e.2.symm), List.append_nil]
          by_cases hj0 : j = 0
          · subst hj0
            by_cases hl : Later ss n
            · obtain ⟨t1, t2⟩ := (ih n).1 hl
              rw [t1, Option.none_or] at c3
              rw [← t2 0]
              exact rulesUnder_lookup c3
            · obtain ⟨t1, t2⟩ := (ih n).2 hl
              rw [t2 0, Option.or_none] at c3
              rw [← t1, rulesUnder, c3, rulesUnder]
          · have e := c5 (fromTokens [.root, .field n, .index j]) (ne1 _ _ _) (ne3 _ _ _ _ (.inr hj0))
              (ne3 _ _ _ _ (.inr hj)) (fun q => hlen3 _ q (by simp))
            by_cases hl : Later ss n
            · rw [← ((ih n).1 hl).2 j]
              exact rulesUnder_lookup e
            · rw [given_later hl hj0, rulesUnder_lookup e]
              exact rulesUnder_none (((ih n).2 hl).2 j)
      · have hl1 : ∀ j, given (ss ++ [⟨name, i, rs⟩]) n j = given ss n j := by
          intro j
          rw [given_snoc, if_neg (fun e => hn e.1.symm), List.append_nil]
        have e1 := c5 (fromTokens [.root, .field n]) (ne2 n name hn) (ne1 _ _ _).symm (ne1 _ _ _).symm
          (fun q => hlen3 _ q (by simp))
        have e2 : ∀ j, Rules.lookup (catOf R' c).rules (fromTokens [.root, .field n, .index j]) = _ :=
          fun j => c5 _ (ne1 _ _ _) (ne3 _ _ _ _ (.inl hn)) (ne3 _ _ _ _ (.inl hn)) (fun q => hlen3 _ q (by simp))
        refine ⟨?_, ?_⟩
        · rintro (h | h)
          · obtain ⟨t1, t2⟩ := (ih n).1 h
            refine ⟨e1.trans t1, fun j => ?_⟩
            rw [hl1, ← t2 j]
            exact rulesUnder_lookup (e2 j)
          · exact absurd h.1.symm hn
        · intro hnot
          obtain ⟨t1, t2⟩ := (ih n).2 fun h => hnot (.inl h)
          refine ⟨?_, fun j => (e2 j).trans (t2 j)⟩
          rw [hl1, ← t1]
          exact rulesUnder_lookup e1

/-- The value after the last one is added at the end (documented: a header with several values, one call per value). -/
theorem C88_next {E : Source} {name : Str} {i : Nat} {value : Option Str} {h h' : Option HeaderMap} {v : Str}
    {old : List Str} (hs : HeaderSet E name i value h h') (hv : Stands E (value.getD []) (.inl v)) (hi : i ≠ 0)
    (ho : headerOf E.uc (h.getD []) name = some old) (hl : old.length = i) :
    headerOf E.uc (h'.getD []) name = some (old ++ [v]) := by
  obtain ⟨w, new, hw, hn, hst⟩ := hs.values
  cases C86_unique hv hw
  rw [hn]
  rw [ho, Option.getD_some] at hst
  cases hst with
  | later _ _ hst =>
    congr 1
    apply List.ext_getElem?
    intro j
    by_cases hj : j = i
    · rw [hj, hst.here, ← hl]
      simp
    · by_cases hj' : j < old.length
      · rw [hst.kept j hj hj', List.getElem?_append_left hj']
      · rw [List.getElem?_eq_none (by rw [hst.count]; omega), List.getElem?_eq_none (by simp; omega)]
  | new _ h0 => exact absurd h0 hi
  | first _ h0 => exact absurd h0 hi
  | replace _ h0 => exact absurd h0 hi

/-- A new header with a text without commas and surrounding white space has this text as its only value. -/
theorem C88_single {E : Source} {name : Str} {value : Option Str} {h h' : Option HeaderMap} {v : Str}
    (hs : HeaderSet E name 0 value h h') (hv : Stands E (value.getD []) (.inl v))
    (ho : headerOf E.uc (h.getD []) name = none) (hc : ',' ∉ v) (ht : trim E.uc v = v) :
    headerOf E.uc (h'.getD []) name = some [v] := by
  obtain ⟨w, new, hw, hn, hst⟩ := hs.values
  cases C86_unique hv hw
  rw [hn]
  rw [ho, Option.getD_none] at hst
  have hsp : ∀ s : Str, ',' ∉ s → splitOn ',' s = [s] := by
    intro s
    induction s with
    | nil => intro _; rfl
    | cons c s ih =>
      intro hm
      have hne : c ≠ ',' := fun e => hm (e ▸ List.mem_cons_self)
      rw [splitOn, ih fun h => hm (List.mem_cons_of_mem _ h)]
      simp [hne]
  cases hst with
  | later _ h0 => exact absurd rfl h0
  | new _ _ _ he =>
    congr 1
    rw [he, parseHeader]
    split
    · rw [ht]
    · rw [hsp v hc, List.map_cons, ht]
      rfl
  | first _ _ h0 => exact absurd rfl h0
  | replace _ _ h0 => exact absurd rfl h0

/-! ## Witnesses and findings -/

/-- A matcher object for the examples. -/
def mObj (es : List (String × Json)) : Obj := OMap.collect (es.map fun e => (e.1.toList, e.2))

/-- The setting of the examples: a parser that knows a few documents. -/
def E0 : Source where
  setup := S0
  parse := fun s =>
    if s = "A".toList then some (.obj (mObj [("value", js "2"), ("pact:matcher:type", js "type")]))
    else if s = "B".toList then some (.obj (mObj [("value", js "3"), ("pact:matcher:type", js "integer"),
      ("pact:generator:type", js "RandomInt"), ("min", .num (.pos 1)), ("max", .num (.pos 5))]))
    else if s = "L".toList then some (.obj (mObj [("value", .arr [js "x", js "y"])]))
    else if s = "U".toList then some (.obj (mObj [("value", js "9"), ("pact:matcher:type", js "nope")]))
    else if s = "N".toList then some (.obj (mObj [("value", .obj (mObj [("value", .num (.pos 1)),
      ("pact:matcher:type", js "integer")])), ("pact:matcher:type", js "type")]))
    else none
  uc := UC.ascii

/-- A new request. -/
def r0 : HttpRequest := ⟨"GET".toList, "/".toList, none, none, .missing, [], []⟩
/-- A new response. -/
def s0 : HttpResponse := ⟨200, none, .missing, [], []⟩

/-- The parameter of the examples. -/
def pId (ts : List PathToken) : DocPath := fromTokens (.root :: .field "id".toList :: ts)

/-- Calls for values 1 (plain), 0 (with a matcher), 3 (NULL) and 0 again of a parameter. -/
theorem C86_witness : ∃ r, runQueries E0 [("id".toList, 1, some "z".toList), ("id".toList, 0, some "A".toList),
      ("k".toList, 1, none), ("id".toList, 0, some "B".toList)] r0 = .ok r ∧
    r.query = some [("id".toList, [some "3".toList, some "z".toList]), ("k".toList, [none, none])] ∧
    Meant E0 (some "z".toList) (some "z".toList) ∧ Meant E0 (some "A".toList) (some "2".toList) ∧
    Stands E0 "L".toList (.inr ["x".toList, "y".toList]) ∧ ¬ Aborts E0 "A".toList := by
  have hA : E0.parse "A".toList = some (.obj (mObj [("value", js "2"), ("pact:matcher:type", js "type")])) := by rfl
  refine ⟨_, rfl, rfl, .value _ _ (.text ?_), .value _ _ ?_, ?_, ?_⟩
  · intro m e
    have : E0.parse "z".toList = none := by rfl
    rw [this] at e
    cases e
  · exact .one _ (js "2") hA (by intro xs e; cases e)
      (fun _ => .other (js "2") rfl (by intro xs e; cases e)) (fun h => absurd rfl h)
  · exact .many _ [js "x", js "y"] (by rfl) (fun h => by cases h) (fun _ => by rfl)
  · intro ha
    rcases fromJsonCat_stands E0 [] 0 "A".toList ⟨emptyCat .query, []⟩ with ⟨_, h⟩ | ⟨h, _⟩
    · cases h
    · exact h ha

/-- Path and status. -/
theorem C86_path_witness : ∃ r s s', withRequest E0 none (some "A".toList) r0 = .ok r ∧ r.path = "2".toList ∧
    r.method = "GET".toList ∧ responseStatus E0 (some "404".toList) s0 = .ok s ∧ s.status = 404 ∧
    responseStatus E0 (some "404 Not Found".toList) s0 = .ok s' ∧ s'.status = 0 :=
  ⟨_, _, _, rfl, rfl, rfl, rfl, rfl, rfl, rfl⟩

/-- An object as the value of a matcher is not looked into: a matcher there becomes part of the text. -/
theorem C86_nested : ∃ r, withQuery E0 "id".toList 0 (some "N".toList) r0 = .ok r ∧
    r.query = some [("id".toList, [some "{\"pact:matcher:type\":\"integer\",\"value\":1}".toList])] :=
  ⟨_, rfl, rfl⟩

/-- Several values for a parameter that has values are added to them, a single value replaces the first. -/
theorem C86_added : ∃ r, runQueries E0 [("id".toList, 0, some "L".toList), ("id".toList, 0, some "L".toList),
      ("id".toList, 0, some "z".toList)] r0 = .ok r ∧
    r.query = some [("id".toList, ["z", "y", "x", "y"].map fun s => some s.toList)] :=
  ⟨_, rfl, rfl⟩

theorem means_A : Means S0 (mObj [("value", js "2"), ("pact:matcher:type", js "type")]) [.type] none :=
  (matchersFrom_iff S0 _ (by unfold IsMatcher; rfl) _ _).1 (by rfl)
theorem means_B : Means S0 (mObj [("value", js "3"), ("pact:matcher:type", js "integer"),
      ("pact:generator:type", js "RandomInt"), ("min", .num (.pos 1)), ("max", .num (.pos 5))]) [.integer] none :=
  (matchersFrom_iff S0 _ (by unfold IsMatcher; rfl) _ _).1 (by rfl)

/-- A query parameter with two matched values, in order. -/
theorem C87_witness : ∃ r, runQueries E0 [("id".toList, 0, some "A".toList), ("id".toList, 1, some "B".toList)] r0 = .ok r ∧
    Steps E0 .query [] [] [⟨"id".toList, 0, [.type]⟩, ⟨"id".toList, 1, [.integer]⟩] r.rules r.gens ∧
    FirstFirst [⟨"id".toList, 0, [.type]⟩, ⟨"id".toList, 1, [.integer]⟩] ∧ Named [] ∧
    catOf r.rules .query = ⟨.query, [(pId [.index 0], ⟨[.type], .and, false⟩), (pId [.index 1], ⟨[.integer], .and, false⟩)]⟩ ∧
    r.gens = [(.query, [(pId [.index 1], .randomInt 1 5)])] := by
  refine ⟨_, rfl, ?_, ?_, ?_, rfl, rfl⟩
  · refine Steps.snoc [⟨"id".toList, 0, [.type]⟩] _ _ _ _ "id".toList 1 "B".toList _ [.integer] none
      (Steps.snoc [] _ _ _ _ "id".toList 0 "A".toList _ [.type] none .nil (.query r0 _ rfl) rfl means_A ?_)
      (.query _ _ rfl) rfl means_B ?_
    · intro xs e; cases e
    · intro xs e; cases e
  · intro a b s t ha hb hn ht hs
    match a, b with
    | 0, 0 => cases ha; exact absurd rfl hs
    | 0, 1 => cases ha; exact absurd rfl hs
    | 1, 0 => exact Nat.zero_lt_one
    | 1, 1 => cases hb; cases ht
    | 0, b + 2 => cases hb
    | 1, b + 2 => cases hb
    | a + 2, _ => cases ha
  · intro e he
    cases he

/-- Headers and the path get rules likewise. -/
theorem C87_witness_others : ∃ r s, withHeaderReq E0 "X".toList 0 (some "A".toList) r0 = .ok r ∧
    catOf r.rules .header = ⟨.header, [(fromTokens [.root, .field "X".toList], ⟨[.type], .and, false⟩)]⟩ ∧
    responseStatus E0 (some "B".toList) s0 = .ok s ∧ s.status = 3 ∧
    catOf s.rules .status = ⟨.status, [(rootPath, ⟨[.integer], .and, false⟩)]⟩ ∧
    s.gens = [(.status, [(rootPath, .randomInt 1 5)])] :=
  ⟨_, _, rfl, rfl, rfl, rfl, rfl, rfl⟩

/-- A second value without a matcher: the rule of the first value then holds for all values.  Here `id=2&id=3` is
expected and `id=2&id=99` accepted. -/
theorem C87_spreads : ∃ r, runQueries E0 [("id".toList, 0, some "A".toList), ("id".toList, 1, some "3".toList)] r0 = .ok r ∧
    r.query = some [("id".toList, [some "2".toList, some "3".toList])] ∧
    catOf r.rules .query = ⟨.query, [(pId [], ⟨[.type], .and, false⟩)]⟩ ∧
    matchQuery Env.simple r.query (some [("id".toList, [some "2".toList, some "99".toList])])
      ⟨catOf r.rules .query, .allowUnexpectedKeys⟩ = [("id".toList, [])] :=
  ⟨_, rfl, rfl, rfl, rfl⟩

/-- The same with a matcher for each value, set in the other order: the rule of the first value is kept for the whole
parameter, beside that of the second. -/
theorem C87_other_order : ∃ r, runQueries E0 [("id".toList, 1, some "B".toList), ("id".toList, 0, some "A".toList)] r0 = .ok r ∧
    catOf r.rules .query = ⟨.query, [(pId [.index 1], ⟨[.integer], .and, false⟩), (pId [], ⟨[.type], .and, false⟩)]⟩ :=
  ⟨_, rfl, rfl⟩

/-- A new rule for the first value, after a later one was set, is kept beside the old one. -/
theorem C87_twice : ∃ r, runQueries E0 [("id".toList, 0, some "A".toList), ("id".toList, 1, some "B".toList),
      ("id".toList, 0, some "B".toList)] r0 = .ok r ∧
    catOf r.rules .query = ⟨.query, [(pId [.index 0], ⟨[.type], .and, false⟩), (pId [.index 1], ⟨[.integer], .and, false⟩),
      (pId [], ⟨[.integer], .and, false⟩)]⟩ :=
  ⟨_, rfl, rfl⟩

/-- A matcher of an unknown type: the value is stored, without a rule. -/
theorem C87_unknown : ∃ r, withQuery E0 "id".toList 0 (some "U".toList) r0 = .ok r ∧
    r.query = some [("id".toList, [some "9".toList])] ∧ catOf r.rules .query = ⟨.query, []⟩ :=
  ⟨_, rfl, rfl, rfl⟩

/-- Headers: two values one by one, in different spellings; then a text with a comma replaces them all. -/
theorem C88_witness : ∃ r1 r2 r3, withHeaderReq E0 "X-Id".toList 0 (some "2".toList) r0 = .ok r1 ∧
    withHeaderReq E0 "x-id".toList 1 (some "B".toList) r1 = .ok r2 ∧
    withHeaderReq E0 "X-ID".toList 0 (some "a, b".toList) r2 = .ok r3 ∧
    r2.headers = some [("X-Id".toList, ["2".toList, "3".toList])] ∧
    r3.headers = some [("X-Id".toList, ["a".toList, "b".toList])] ∧
    CaseFree UC.ascii (r2.headers.getD []) ∧
    headerOf UC.ascii (r1.headers.getD []) "x-id".toList = some ["2".toList] := by
  refine ⟨_, _, _, rfl, rfl, rfl, rfl, rfl, ?_, rfl⟩
  exact (by decide : ["x-id".toList].Nodup)


end PartProps
end Verif
