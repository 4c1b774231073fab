import Verif.Integration
import Verif.Props.PatternProps
import Verif.Props.DefExprProps
import Verif.Props.GenerateProps

/-
  Properties C84 and C85: the FFI integration JSON.  The example of a document with embedded matchers (C84), and the
  matching rules and generators it puts in the pact (C85).
-/

set_option autoImplicit false

namespace Verif
namespace IntegrationProps
open Path Rules RuleJson Generate Integration PatternProps

/-! ## Specification -/

/-- An object that stands for a matcher. -/
def IsMatcher (m : Obj) : Prop := (RuleJson.get "pact:matcher:type" m).isSome = true

/-- A matcher for "the array contains these variants". -/
def IsContains (m : Obj) : Prop :=
  RuleJson.get "pact:matcher:type" m = some (.str "arrayContains".toList) ∨
  RuleJson.get "pact:matcher:type" m = some (.str "array-contains".toList)

/-- A rule, or a reference to an attribute that the matcher object has. -/
def Resolved (m : Obj) : MatchingRule ⊕ MatchingReference → MatchingRule → Prop
  | .inl r, r' => r' = r
  | .inr ref, r' => (∃ v, Json.lookup ref.name m = some v) ∧ r' = .type

/-- The rules and the generator a matcher object stands for: a list of matchers, a matching rule definition, or a rule
by its name with the other attributes of the object. -/
inductive Means (S : Setup) (m : Obj) : List MatchingRule → Option Generator → Prop
  | many (a : List Json) (rs : List MatchingRule) : RuleJson.get "pact:matcher:type" m = some (.arr a) →
      a.length = rs.length →
      (∀ (i : Nat) (v : Json) (r : MatchingRule), a[i]? = some v → rs[i]? = some r →
        ∃ t, vget "pact:matcher:type" v = some t ∧ createRule S t.toStr v = .ok r) →
      Means S m rs none
  | definition (v : Json) (d : RuleDef) (rs : List MatchingRule) :
      RuleJson.get "pact:matcher:type" m = some v → (∀ a, v ≠ .arr a) →
      v.toStr ∉ ["eachKey".toList, "eachValue".toList, "notEmpty".toList] →
      DefExpr.isDefinition S.lex v.toStr = true → DefExpr.parse S.lex v.toStr = .ok d →
      d.rules.length = rs.length →
      (∀ (i : Nat) (x : MatchingRule ⊕ MatchingReference) (r : MatchingRule), d.rules[i]? = some x → rs[i]? = some r →
        Resolved m x r) →
      Means S m rs d.generator
  | named (v : Json) (r : MatchingRule) :
      RuleJson.get "pact:matcher:type" m = some v → (∀ a, v ≠ .arr a) →
      (v.toStr ∈ ["eachKey".toList, "eachValue".toList, "notEmpty".toList] ∨
        DefExpr.isDefinition S.lex v.toStr = false) →
      createRule S v.toStr (.obj m) = .ok r →
      Means S m [r] none

/-- The example of a document: matchers are replaced by their values, and attributes starting with `pact:` are left
out of the other objects. -/
inductive Example (S : Setup) : Json → Json → Prop
  | scalar (j : Json) : (∀ xs, j ≠ .arr xs) → (∀ m, j ≠ .obj m) → Example S j j
  | array (xs ys : List Json) : xs.length = ys.length →
      (∀ (i : Nat) (x y : Json), xs[i]? = some x → ys[i]? = some y → Example S x y) → Example S (.arr xs) (.arr ys)
  | object (m m' : Obj) : ¬ IsMatcher m →
      m'.map (·.1) = (m.filter (fun e => !("pact:".toList.isPrefixOf e.1))).map (·.1) →
      (∀ (i : Nat) (e f : Str × Json), (m.filter (fun e => !("pact:".toList.isPrefixOf e.1)))[i]? = some e →
        m'[i]? = some f → Example S e.2 f.2) → Example S (.obj m) (.obj m')
  | matcher (m : Obj) (rs : List MatchingRule) (g : Option Generator) (v x : Json) : ¬ IsContains m → Means S m rs g →
      RuleJson.get "value" m = some v → Example S v x → Example S (.obj m) x
  | noValue (m : Obj) (rs : List MatchingRule) (g : Option Generator) : ¬ IsContains m → Means S m rs g →
      RuleJson.get "value" m = none → Example S (.obj m) .null
  | unreadable (m : Obj) : IsMatcher m → ¬ IsContains m → (∀ rs g, ¬ Means S m rs g) → Example S (.obj m) .null
  | contains (m : Obj) (vs xs : List Json) : IsContains m → RuleJson.get "variants" m = some (.arr vs) →
      vs.length = xs.length →
      (∀ (i : Nat) (v x : Json), vs[i]? = some v → xs[i]? = some x → Example S v x) → Example S (.obj m) (.arr xs)
  | noVariants (m : Obj) : IsContains m → (∀ vs, RuleJson.get "variants" m ≠ some (.arr vs)) → Example S (.obj m) .null

/-- What holds for a value because of the matcher it is the value of: its keys are any keys, it is a list of alike
items, the keys of its items are any keys. -/
structure Held where
  keys : Bool
  items : Bool
  itemKeys : Bool

/-- Not the value of a matcher. -/
def plain : Held := ⟨false, false, false⟩

/-- The path segment for a key. -/
def keySeg (h : Held) (k : Str) : PathToken :=
  if h.keys = true ∨ k = "*".toList then .star
  else if k = "[*]".toList then .starIndex
  else match parseUsize k with
    | some i => .index i
    | none => .field k

/-- The path segment for an index. -/
def itemSeg (h : Held) (i : Nat) : PathToken := if h.items = true then .starIndex else .index i

/-- `m` is a matcher in the document, at the given path. -/
inductive Found (S : Setup) : Held → Json → List PathToken → Obj → Prop
  | here (h : Held) (m : Obj) : IsMatcher m → Found S h (.obj m) [] m
  | value (h : Held) (m : Obj) (rs : List MatchingRule) (g : Option Generator) (v : Json) (q : List PathToken) (m' : Obj) :
      ¬ IsContains m → Means S m rs g → RuleJson.get "value" m = some v →
      Found S ⟨rs.any MatchingRule.isValuesMatcher, true, h.keys⟩ v q m' → Found S h (.obj m) q m'
  | item (h : Held) (xs : List Json) (i : Nat) (x : Json) (q : List PathToken) (m' : Obj) : xs[i]? = some x →
      Found S ⟨h.itemKeys, false, h.itemKeys⟩ x q m' → Found S h (.arr xs) (itemSeg h i :: q) m'
  | field (h : Held) (m : Obj) (k : Str) (v : Json) (q : List PathToken) (m' : Obj) : ¬ IsMatcher m → (k, v) ∈ m →
      "pact:".toList.isPrefixOf k = false → Found S plain v q m' → Found S h (.obj m) (keySeg h k :: q) m'

/-- The generators for bodies in a collection of generators. -/
def forBody (gs : Generators) : List (DocPath × Generator) :=
  match gs.filter (fun e => e.1 == GenCategory.body) with
  | e :: _ => e.2
  | [] => []

/-- The rules of a matcher.  The variants of an `arrayContains` matcher are processed as documents of their own. -/
inductive RulesOf (S : Setup) (m : Obj) : List MatchingRule → Prop
  | plain (rs : List MatchingRule) (g : Option Generator) : ¬ IsContains m → Means S m rs g → RulesOf S m rs
  | contains (vs : List Json) (ws : List Variant) : IsContains m → RuleJson.get "variants" m = some (.arr vs) →
      vs.length = ws.length →
      (∀ (i : Nat) (v : Json) (w : Variant), vs[i]? = some v → ws[i]? = some w →
        ∃ x a, processJson S v ⟨emptyCat .body, []⟩ = .ok (x, a) ∧ w = ⟨i, a.cat, forBody a.gens⟩) →
      RulesOf S m [.arrayContains ws]

/-- The generators of a matcher: the one of its definition, and the one of its `pact:generator:type`. -/
inductive GenOf (S : Setup) (m : Obj) : Generator → Prop
  | defined (rs : List MatchingRule) (g : Generator) : ¬ IsContains m → Means S m rs (some g) → GenOf S m g
  | own (t : Json) (g : Generator) : RuleJson.get "pact:generator:type" m = some t → genFromMap t.toStr m = some g →
      GenOf S m g

/-- The generator a matcher ends up with: the one of its `pact:generator:type` before the one of its definition. -/
inductive Effective (S : Setup) (m : Obj) : Generator → Prop
  | own (t : Json) (g : Generator) : RuleJson.get "pact:generator:type" m = some t → genFromMap t.toStr m = some g →
      Effective S m g
  | defined (rs : List MatchingRule) (g : Generator) : ¬ IsContains m → Means S m rs (some g) →
      (∀ t, RuleJson.get "pact:generator:type" m = some t → genFromMap t.toStr m = none) → Effective S m g

/-- Reading the matcher aborts the program. -/
def Broken (S : Setup) (m : Obj) : Prop :=
  (¬ IsContains m ∧ matchersFrom S m = .panic) ∨
  (IsContains m ∧ ∃ vs v, RuleJson.get "variants" m = some (.arr vs) ∧ v ∈ vs ∧
    processJson S v ⟨emptyCat .body, []⟩ = .panic)

/-! ## Reading a matcher -/

theorem listMatchers_iff (S : Setup) (a : List Json) (rs : List MatchingRule) : listMatchers S a = .ok rs ↔
    a.length = rs.length ∧ ∀ (i : Nat) (v : Json) (r : MatchingRule), a[i]? = some v → rs[i]? = some r →
        ∃ t, vget "pact:matcher:type" v = some t ∧ createRule S t.toStr v = .ok r := by
  induction a generalizing rs with
  | nil =>
    rw [listMatchers]
    constructor
    · intro e
      cases e
      exact ⟨rfl, fun i v r h => by simp at h⟩
    · rintro ⟨h, _⟩
      cases rs with
      | nil => rfl
      | cons r rs => simp at h
  | cons v vs ih =>
    rw [listMatchers]
    constructor
    · intro e
      cases ht : vget "pact:matcher:type" v with
      | none => rw [ht] at e; cases e
      | some t =>
        rw [ht] at e
        simp only at e
        cases hc : createRule S t.toStr v with
        | err => rw [hc] at e; cases e
        | panic => rw [hc] at e; cases e
        | ok r =>
          rw [hc, Res.bind_ok, Res.map_eq_ok] at e
          obtain ⟨rs', h1, rfl⟩ := e
          obtain ⟨h2, h3⟩ := (ih rs').1 h1
          refine ⟨by simp [h2], fun i x y hx hy => ?_⟩
          cases i with
          | zero => simp at hx hy; subst hx; subst hy; exact ⟨t, ht, hc⟩
          | succ i => exact h3 i x y (by simpa using hx) (by simpa using hy)
    · rintro ⟨h1, h2⟩
      cases rs with
      | nil => simp at h1
      | cons r rs =>
        obtain ⟨t, ht, hc⟩ := h2 0 v r rfl rfl
        have h3 := (ih rs).2 ⟨by simpa using h1, fun i x y hx hy => h2 (i + 1) x y (by simpa using hx) (by simpa using hy)⟩
        rw [ht]
        simp only
        rw [hc, Res.bind_ok, h3, Res.map_ok]

theorem resolve_iff (m : Obj) (a : List (MatchingRule ⊕ MatchingReference)) (rs : List MatchingRule) :
    resolve m a = .ok rs ↔
    a.length = rs.length ∧ ∀ (i : Nat) (v : MatchingRule ⊕ MatchingReference) (r : MatchingRule),
      a[i]? = some v → rs[i]? = some r → Resolved m v r := by
  induction a generalizing rs with
  | nil =>
    rw [resolve]
    constructor
    · intro e
      cases e
      exact ⟨rfl, fun i v r h => by simp at h⟩
    · rintro ⟨h, _⟩
      cases rs with
      | nil => rfl
      | cons r rs => simp at h
  | cons v vs ih =>
    constructor
    · intro e
      have key : ∃ r rs', Resolved m v r ∧ resolve m vs = .ok rs' ∧ rs = r :: rs' := by
        cases v with
        | inl r =>
          rw [resolve, Res.map_eq_ok] at e
          obtain ⟨rs', h1, rfl⟩ := e
          exact ⟨r, rs', rfl, h1, rfl⟩
        | inr ref =>
          rw [resolve] at e
          split at e
          · rename_i hs
            rw [Res.map_eq_ok] at e
            obtain ⟨rs', h1, rfl⟩ := e
            exact ⟨.type, rs', ⟨Option.isSome_iff_exists.1 hs, rfl⟩, h1, rfl⟩
          · cases e
      obtain ⟨r, rs', h0, h1, rfl⟩ := key
      obtain ⟨h2, h3⟩ := (ih rs').1 h1
      refine ⟨by simp [h2], fun i x y hx hy => ?_⟩
      cases i with
      | zero => simp at hx hy; subst hx; subst hy; exact h0
      | succ i => exact h3 i x y (by simpa using hx) (by simpa using hy)
    · rintro ⟨h1, h2⟩
      cases rs with
      | nil => simp at h1
      | cons r rs =>
        have h0 := h2 0 v r rfl rfl
        have h3 := (ih rs).2 ⟨by simpa using h1, fun i x y hx hy => h2 (i + 1) x y (by simpa using hx) (by simpa using hy)⟩
        cases v with
        | inl r' => rw [resolve, h3, Res.map_ok]; cases h0; rfl
        | inr ref =>
          obtain ⟨⟨w, hw⟩, rfl⟩ := h0
          rw [resolve, hw, h3]
          rfl

theorem plain_contains (s : Str) : plainTypes.contains s = true ↔
    s ∈ ["eachKey".toList, "eachValue".toList, "notEmpty".toList] := by
  rw [List.contains_iff_mem]; rfl

theorem oneMatcher_means (S : Setup) (m : Obj) (v : Json) (h : RuleJson.get "pact:matcher:type" m = some v)
    (hv : ∀ a, v ≠ .arr a) (rs : List MatchingRule) (g : Option Generator) :
    oneMatcher S v.toStr m = .ok (rs, g) ↔ Means S m rs g := by
  constructor
  · intro e
    rw [oneMatcher] at e
    split at e
    · rename_i hc
      simp only [Bool.and_eq_true, Bool.not_eq_true'] at hc
      have hn : v.toStr ∉ ["eachKey".toList, "eachValue".toList, "notEmpty".toList] := by
        rw [← plain_contains, hc.1]; exact Bool.false_ne_true
      cases hd : DefExpr.parse S.lex v.toStr with
      | err => rw [hd] at e; cases e
      | panic => rw [hd] at e; cases e
      | ok d =>
        rw [hd, Res.bind_ok, Res.map_eq_ok] at e
        obtain ⟨l, h1, h2⟩ := e
        cases h2
        obtain ⟨h3, h4⟩ := (resolve_iff m d.rules _).1 h1
        exact .definition v d _ h hv hn hc.2 hd h3 h4
    · rename_i hc
      rw [Res.map_eq_ok] at e
      obtain ⟨r, h1, h2⟩ := e
      cases h2
      refine .named v r h hv ?_ h1
      rw [← plain_contains]
      cases h5 : plainTypes.contains v.toStr with
      | true => exact .inl rfl
      | false =>
        rw [h5] at hc
        right
        simpa using hc
  · intro e
    rw [oneMatcher]
    cases e with
    | many a rs h' => rw [h] at h'; cases h'; exact absurd rfl (hv a)
    | definition v' d rs h' hv' hn hi hd h3 h4 =>
      rw [h] at h'
      cases h'
      have hp : plainTypes.contains v.toStr = false := by
        rw [Bool.eq_false_iff, Ne, plain_contains]; exact hn
      rw [hp, hi]
      simp only [Bool.not_false, Bool.and_self, if_true]
      rw [hd, Res.bind_ok, (resolve_iff m d.rules rs).2 ⟨h3, h4⟩, Res.map_ok]
    | named v' r h' hv' hn hc =>
      rw [h] at h'
      cases h'
      have : (!plainTypes.contains v.toStr && DefExpr.isDefinition S.lex v.toStr) = false := by
        rcases hn with hn | hn
        · rw [(plain_contains _).2 hn]; rfl
        · rw [hn, Bool.and_false]
      rw [this, hc]
      rfl

/-- The rules and the generator read from a matcher object are those it stands for. -/
theorem matchersFrom_iff (S : Setup) (m : Obj) (hm : IsMatcher m) (rs : List MatchingRule) (g : Option Generator) :
    matchersFrom S m = .ok (rs, g) ↔ Means S m rs g := by
  rw [matchersFrom]
  obtain ⟨v, hv⟩ := Option.isSome_iff_exists.1 hm
  by_cases ha : ∃ a, v = .arr a
  · obtain ⟨a, rfl⟩ := ha
    rw [hv]
    simp only
    constructor
    · intro e
      rw [Res.map_eq_ok] at e
      obtain ⟨l, h1, h2⟩ := e
      cases h2
      obtain ⟨h3, h4⟩ := (listMatchers_iff S a _).1 h1
      exact .many a _ hv h3 h4
    · intro e
      cases e with
      | many a' rs h' h3 h4 =>
        rw [hv] at h'
        cases h'
        rw [(listMatchers_iff S a rs).2 ⟨h3, h4⟩, Res.map_ok]
      | definition v' d rs h' hv' => rw [hv] at h'; cases h'; exact absurd rfl (hv' a)
      | named v' r h' hv' => rw [hv] at h'; cases h'; exact absurd rfl (hv' a)
  · have ha' : ∀ a, v ≠ .arr a := fun a e => ha ⟨a, e⟩
    rw [hv, ← oneMatcher_means S m v hv ha']
    cases v with
    | arr a => exact absurd rfl (ha' a)
    | null => rfl
    | bool b => rfl
    | num n => rfl
    | str s => rfl
    | obj o => rfl

theorem Means.isMatcher {S : Setup} {m : Obj} {rs : List MatchingRule} {g : Option Generator} (h : Means S m rs g) :
    IsMatcher m := by
  cases h with
  | many a rs h => rw [IsMatcher, h]; rfl
  | definition v d rs h => rw [IsMatcher, h]; rfl
  | named v r h => rw [IsMatcher, h]; rfl

theorem Means.unique {S : Setup} {m : Obj} {rs rs' : List MatchingRule} {g g' : Option Generator} (h : Means S m rs g)
    (h' : Means S m rs' g') : rs = rs' ∧ g = g' := by
  have h1 := (matchersFrom_iff S m h.isMatcher rs g).2 h
  rw [(matchersFrom_iff S m h.isMatcher rs' g').2 h'] at h1
  cases h1
  exact ⟨rfl, rfl⟩

theorem IsContains.isMatcher {m : Obj} (h : IsContains m) : IsMatcher m := by
  rcases h with h | h <;> rw [IsMatcher, h] <;> rfl

theorem isContains_iff {m : Obj} {t : Json} (h : RuleJson.get "pact:matcher:type" m = some t) :
    isArrayContains t = true ↔ IsContains m := by
  rw [IsContains, h]
  cases t with
  | str s =>
    simp only [isArrayContains, Bool.or_eq_true, beq_iff_eq, Option.some.injEq, Json.str.injEq]
  | null => simp [isArrayContains]
  | bool b => simp [isArrayContains]
  | num n => simp [isArrayContains]
  | arr a => simp [isArrayContains]
  | obj o => simp [isArrayContains]

/-! ## What is put in the pact -/

theorem json_ind {Q : Json → Prop} (hs : ∀ j, (∀ xs, j ≠ .arr xs) → (∀ m, j ≠ .obj m) → Q j)
    (ha : ∀ xs : List Json, (∀ x ∈ xs, Q x) → Q (.arr xs))
    (ho : ∀ m : Obj, (∀ e ∈ m, Q e.2) → Q (.obj m)) (j : Json) : Q j := by
  suffices h : ∀ (n : Nat) (j : Json), Json.depth j < n → Q j from h (Json.depth j + 1) j (Nat.lt_succ_self _)
  intro n
  induction n with
  | zero => intro j h; cases h
  | succ n ih =>
    intro j h
    cases j with
    | arr xs =>
      refine ha xs fun x hx => ih x ?_
      have := Json.depth_mem_list hx
      simp only [Json.depth] at h
      omega
    | obj m =>
      refine ho m fun e he => ih e.2 ?_
      have := Json.depth_mem_entries he
      simp only [Json.depth] at h
      omega
    | null => exact hs _ (fun _ e => by cases e) (fun _ e => by cases e)
    | bool b => exact hs _ (fun _ e => by cases e) (fun _ e => by cases e)
    | num n => exact hs _ (fun _ e => by cases e) (fun _ e => by cases e)
    | str s => exact hs _ (fun _ e => by cases e) (fun _ e => by cases e)

/-- Adding generators one after the other below the path with the tokens `ts`. -/
def addGens (c : GenCategory) (ts : List PathToken) (l : List (List PathToken × Generator)) (gs : Generators) :
    Generators := l.foldl (fun gs x => addGen gs c (fromTokens (ts ++ x.1)) x.2) gs

/-- Adding rules and generators. -/
def after (ts : List PathToken) (l : List (List PathToken × MatchingRule)) (g : List (List PathToken × Generator))
    (a : Acc) : Acc := ⟨addAll ts l a.cat, addGens (generatorCategory a.cat.name) ts g a.gens⟩

theorem addAll_name (ts : List PathToken) (l : List (List PathToken × MatchingRule)) (c : RuleCategory) :
    (addAll ts l c).name = c.name := by
  induction l generalizing c with
  | nil => rfl
  | cons x xs ih => exact (ih _).trans rfl

theorem after_nil (ts : List PathToken) (a : Acc) : after ts [] [] a = a := rfl

theorem after_append (ts : List PathToken) (l l' : List (List PathToken × MatchingRule))
    (g g' : List (List PathToken × Generator)) (a : Acc) :
    after ts (l ++ l') (g ++ g') a = after ts l' g' (after ts l g a) := by
  simp only [after, addAll_append, addAll_name, addGens, List.foldl_append]

theorem after_map (ts : List PathToken) (t : PathToken) (l : List (List PathToken × MatchingRule))
    (g : List (List PathToken × Generator)) (a : Acc) :
    after ts (l.map fun x => (t :: x.1, x.2)) (g.map fun x => (t :: x.1, x.2)) a = after (ts ++ [t]) l g a := by
  simp only [after, addAll_map, addGens, List.foldl_map, List.append_assoc, List.singleton_append]

theorem addRulesAt_after (ts : List PathToken) (rs : List MatchingRule) (a : Acc) :
    addRulesAt (fromTokens ts) rs a = after ts (rs.map fun r => ([], r)) [] a := by
  simp only [addRulesAt, after, addAll, List.foldl_map, List.append_nil, addGens, List.foldl_nil]

theorem addGenAt_after (ts : List PathToken) (g : Option Generator) (a : Acc) :
    addGenAt (fromTokens ts) g a = after ts [] (g.toList.map fun g => ([], g)) a := by
  cases g with
  | none => rfl
  | some g => simp [addGenAt, after, addAll, addGens]

/-- The whole of a value, relative to the flags of what it is the value of. -/
def run (S : Setup) (ts : List PathToken) (h : Held) (j : Json) (a : Acc) : Res (Json × Acc) :=
  process S (fromTokens ts) h.keys h.items h.itemKeys j a

/-- The last element for the path. -/
def lastAt (g : List (List PathToken × Generator)) (q : List PathToken) : Option Generator :=
  match g with
  | [] => none
  | x :: g => match lastAt g q with
    | some y => some y
    | none => if x.1 = q then some x.2 else none

theorem lastAt_append (g g' : List (List PathToken × Generator)) (q : List PathToken) :
    lastAt (g ++ g') q = (lastAt g' q).or (lastAt g q) := by
  induction g with
  | nil => simp [lastAt]
  | cons x g ih =>
    rw [List.cons_append, lastAt, ih, lastAt]
    cases lastAt g' q <;> cases lastAt g q <;> rfl

theorem lastAt_map (t : PathToken) (g : List (List PathToken × Generator)) (q : List PathToken) (y : Generator)
    (h : lastAt (g.map fun x => (t :: x.1, x.2)) q = some y) : ∃ q', q = t :: q' ∧ lastAt g q' = some y := by
  induction g with
  | nil => simp [lastAt] at h
  | cons x g ih =>
    rw [List.map_cons, lastAt] at h
    cases hl : lastAt (g.map fun x => (t :: x.1, x.2)) q with
    | some z =>
      rw [hl] at h
      cases h
      obtain ⟨q', h1, h2⟩ := ih hl
      exact ⟨q', h1, by rw [lastAt, h2]⟩
    | none =>
      rw [hl] at h
      simp only at h
      split at h
      · rename_i hq
        cases h
        subst hq
        refine ⟨x.1, rfl, ?_⟩
        rw [lastAt]
        cases hl' : lastAt g x.1 with
        | none => simp
        | some z =>
          exfalso
          clear ih
          have : ∀ (g : List (List PathToken × Generator)) (z : Generator), lastAt g x.1 = some z →
              lastAt (g.map fun x => (t :: x.1, x.2)) (t :: x.1) = some z := by
            intro g
            induction g with
            | nil => intro z h; simp [lastAt] at h
            | cons w g ih =>
              intro z h
              rw [List.map_cons, lastAt]
              rw [lastAt] at h
              cases hw : lastAt g x.1 with
              | some u => rw [hw] at h; rw [ih u hw]; exact h
              | none =>
                rw [hw] at h
                simp only at h
                split at h
                · rename_i hh
                  cases hm : lastAt (g.map fun x => (t :: x.1, x.2)) (t :: x.1) with
                  | none => simp [hh, h]
                  | some u =>
                    exfalso
                    clear ih
                    induction g with
                    | nil => simp [lastAt] at hm
                    | cons v g ih =>
                      rw [List.map_cons, lastAt] at hm
                      rw [lastAt] at hw
                      cases hg : lastAt g x.1 with
                      | some a => rw [hg] at hw; cases hw
                      | none =>
                        rw [hg] at hw
                        simp only at hw
                        cases hg' : lastAt (g.map fun x => (t :: x.1, x.2)) (t :: x.1) with
                        | some a => rw [hg'] at hm; cases hm; exact ih hg hg'
                        | none =>
                          rw [hg'] at hm
                          simp only [List.cons.injEq, true_and] at hm
                          rw [hw] at hm
                          cases hm
                · cases h
          rw [this g z hl'] at hl
          cases hl
      · cases h

/-- `l` and `g` are the rules and the generators of the matchers `F`, in an order in which the rules of a matcher stay
together and its own generator comes last. -/
structure Outcome (S : Setup) (F : List PathToken → Obj → Prop) (l : List (List PathToken × MatchingRule))
    (g : List (List PathToken × Generator)) : Prop where
  safe : ∀ q m, F q m → ¬ Broken S m
  rules : ∀ q r, (q, r) ∈ l ↔ ∃ m rs, F q m ∧ RulesOf S m rs ∧ r ∈ rs
  block : ∀ q m rs, F q m → RulesOf S m rs → (rs.map fun r => (q, r)) <:+: l
  gens : ∀ q x, (q, x) ∈ g ↔ ∃ m, F q m ∧ GenOf S m x
  last : ∀ q y, lastAt g q = some y → ∃ m, F q m ∧ Effective S m y

theorem Outcome.congr {S : Setup} {F F' : List PathToken → Obj → Prop} {l : List (List PathToken × MatchingRule)}
    {g : List (List PathToken × Generator)} (h : Outcome S F l g) (e : ∀ q m, F q m ↔ F' q m) : Outcome S F' l g := by
  have : F = F' := by funext q m; exact propext (e q m)
  exact this ▸ h

theorem Outcome.none {S : Setup} {F : List PathToken → Obj → Prop} (e : ∀ q m, ¬ F q m) : Outcome S F [] [] where
  safe q m h := absurd h (e q m)
  rules q r := ⟨(fun h => by cases h), fun ⟨m, rs, h, _⟩ => absurd h (e q m)⟩
  block q m rs h := absurd h (e q m)
  gens q x := ⟨(fun h => by cases h), fun ⟨m, h, _⟩ => absurd h (e q m)⟩
  last q y h := by simp [lastAt] at h

theorem Outcome.under {S : Setup} {F : List PathToken → Obj → Prop} {l : List (List PathToken × MatchingRule)}
    {g : List (List PathToken × Generator)} (h : Outcome S F l g) (t : PathToken) :
    Outcome S (fun q m => ∃ q', q = t :: q' ∧ F q' m) (l.map fun x => (t :: x.1, x.2))
      (g.map fun x => (t :: x.1, x.2)) where
  safe := by rintro q m ⟨q', rfl, hf⟩; exact h.safe q' m hf
  rules q r := by
    rw [List.mem_map]
    constructor
    · rintro ⟨⟨q', r'⟩, hm, he⟩
      cases he
      obtain ⟨m, rs, h1, h2⟩ := (h.rules q' r').1 hm
      exact ⟨m, rs, ⟨q', rfl, h1⟩, h2⟩
    · rintro ⟨m, rs, ⟨q', rfl, h1⟩, h2⟩
      exact ⟨(q', r), (h.rules q' r).2 ⟨m, rs, h1, h2⟩, rfl⟩
  block := by
    rintro q m rs ⟨q', rfl, hf⟩ hr
    obtain ⟨a, b, e⟩ := h.block q' m rs hf hr
    refine ⟨a.map fun x => (t :: x.1, x.2), b.map fun x => (t :: x.1, x.2), ?_⟩
    rw [← e]
    simp
  gens q r := by
    rw [List.mem_map]
    constructor
    · rintro ⟨⟨q', r'⟩, hm, he⟩
      cases he
      obtain ⟨m, h1, h2⟩ := (h.gens q' r').1 hm
      exact ⟨m, ⟨q', rfl, h1⟩, h2⟩
    · rintro ⟨m, ⟨q', rfl, h1⟩, h2⟩
      exact ⟨(q', r), (h.gens q' r).2 ⟨m, h1, h2⟩, rfl⟩
  last q y hl := by
    obtain ⟨q', rfl, h1⟩ := lastAt_map t g q y hl
    obtain ⟨m, h2, h3⟩ := h.last q' y h1
    exact ⟨m, ⟨q', rfl, h2⟩, h3⟩

theorem Outcome.append {S : Setup} {F F' : List PathToken → Obj → Prop} {l l' : List (List PathToken × MatchingRule)}
    {g g' : List (List PathToken × Generator)} (h : Outcome S F l g) (h' : Outcome S F' l' g') :
    Outcome S (fun q m => F q m ∨ F' q m) (l ++ l') (g ++ g') where
  safe q m hf := hf.elim (h.safe q m) (h'.safe q m)
  rules q r := by
    rw [List.mem_append, h.rules, h'.rules]
    constructor
    · rintro (⟨m, rs, h1, h2⟩ | ⟨m, rs, h1, h2⟩)
      · exact ⟨m, rs, .inl h1, h2⟩
      · exact ⟨m, rs, .inr h1, h2⟩
    · rintro ⟨m, rs, h1 | h1, h2⟩
      · exact .inl ⟨m, rs, h1, h2⟩
      · exact .inr ⟨m, rs, h1, h2⟩
  block q m rs hf hr := by
    rcases hf with hf | hf
    · exact (h.block q m rs hf hr).trans (List.prefix_append l l').isInfix
    · exact (h'.block q m rs hf hr).trans (List.suffix_append l l').isInfix
  gens q x := by
    rw [List.mem_append, h.gens, h'.gens]
    constructor
    · rintro (⟨m, h1, h2⟩ | ⟨m, h1, h2⟩)
      · exact ⟨m, .inl h1, h2⟩
      · exact ⟨m, .inr h1, h2⟩
    · rintro ⟨m, h1 | h1, h2⟩
      · exact .inl ⟨m, h1, h2⟩
      · exact .inr ⟨m, h1, h2⟩
  last q y hl := by
    rw [lastAt_append, Option.or_eq_some_iff] at hl
    rcases hl with hl | ⟨_, hl⟩
    · obtain ⟨m, h1, h2⟩ := h'.last q y hl
      exact ⟨m, .inr h1, h2⟩
    · obtain ⟨m, h1, h2⟩ := h.last q y hl
      exact ⟨m, .inl h1, h2⟩

/-- Either a matcher aborts the program, or the document is read. -/
def Good (S : Setup) (h : Held) (j : Json) : Prop :=
  ((∃ q m, Found S h j q m ∧ Broken S m) ∧ ∀ ts a, run S ts h j a = .panic) ∨
  ∃ x l g, Outcome S (Found S h j) l g ∧ Example S j x ∧ ∀ ts a, run S ts h j a = .ok (x, after ts l g a)

theorem found_scalar {S : Setup} {h : Held} {j : Json} {q : List PathToken} {m : Obj} (h1 : ∀ xs, j ≠ .arr xs)
    (h2 : ∀ m, j ≠ .obj m) : ¬ Found S h j q m := by
  intro hf
  cases hf with
  | here _ m => exact h2 m rfl
  | value _ m => exact h2 m rfl
  | item _ xs => exact h1 xs rfl
  | field _ m => exact h2 m rfl

theorem good_scalar (S : Setup) (h : Held) (j : Json) (h1 : ∀ xs, j ≠ .arr xs) (h2 : ∀ m, j ≠ .obj m) :
    Good S h j := by
  right
  refine ⟨j, [], [], .none fun q m => found_scalar h1 h2, .scalar j h1 h2, fun ts a => ?_⟩
  rw [after_nil]
  cases j with
  | arr xs => exact absurd rfl (h1 xs)
  | obj m => exact absurd rfl (h2 m)
  | null => rfl
  | bool b => rfl
  | num n => rfl
  | str s => rfl

theorem itemPath_seg (ts : List PathToken) (h : Held) (i : Nat) :
    itemPath (fromTokens ts) h.items i = fromTokens (ts ++ [itemSeg h i]) := by
  unfold itemPath itemSeg
  split
  · rw [pushStarIndex_push, fromTokens_snoc]
  · rw [pushIndex_push, fromTokens_snoc]

theorem fieldPath_seg (ts : List PathToken) (h : Held) (k : Str) :
    fieldPath (fromTokens ts) h.keys k = fromTokens (ts ++ [keySeg h k]) := by
  have hj : ∀ k : Str, join (fromTokens ts) k = fromTokens (ts ++ [keySeg plain k]) := by
    intro k
    unfold join keySeg
    by_cases h1 : k = ['*']
    · rw [if_pos h1, if_pos (.inr h1), pushStar_push, fromTokens_snoc]
    · have h0 : ¬ (plain.keys = true ∨ k = "*".toList) := by
        rintro (e | e)
        · cases e
        · exact h1 e
      rw [if_neg h1, if_neg h0]
      by_cases h2 : k = ['[', '*', ']']
      · have h3 : k = "[*]".toList := h2
        rw [if_pos h2, if_pos h3, pushStarIndex_push, fromTokens_snoc]
      · have h3 : ¬ k = "[*]".toList := h2
        rw [if_neg h2, if_neg h3]
        cases parseUsize k with
        | some i => simp only; rw [pushIndex_push, fromTokens_snoc]
        | none => simp only; rw [pushField_push, fromTokens_snoc]
  unfold fieldPath
  split
  · rename_i hk
    rw [hj]
    unfold keySeg
    rw [if_pos (.inr rfl), if_pos (.inl hk)]
  · rename_i hk
    rw [hj]
    have : h.keys = plain.keys := by rw [Bool.eq_false_iff.2 hk]; rfl
    unfold keySeg
    rw [this]

/-- The loop over the items. -/
theorem items_run (S : Setup) (h : Held) (xs : List Json) (hx : ∀ x ∈ xs, ∀ h, Good S h x) :
    ∀ i : Nat,
    ((∃ (n : Nat) (x : Json) (q : List PathToken) (m : Obj), xs[n]? = some x ∧
        Found S ⟨h.itemKeys, false, h.itemKeys⟩ x q m ∧ Broken S m) ∧
      ∀ ts a, items S (fromTokens ts) h.items h.itemKeys i xs a = .panic) ∨
    ∃ ys l g, Outcome S (fun q m => ∃ n x q', xs[n]? = some x ∧ q = itemSeg h (i + n) :: q' ∧
        Found S ⟨h.itemKeys, false, h.itemKeys⟩ x q' m) l g ∧
      xs.length = ys.length ∧
      (∀ (n : Nat) (x y : Json), xs[n]? = some x → ys[n]? = some y → Example S x y) ∧
      ∀ ts a, items S (fromTokens ts) h.items h.itemKeys i xs a = .ok (ys, after ts l g a) := by
  induction xs with
  | nil =>
    intro i
    refine .inr ⟨[], [], [], .none ?_, rfl, fun n x y e => by simp at e, fun ts a => ?_⟩
    · rintro q m ⟨n, x, q', h, _⟩; simp at h
    · rw [items, after_nil]
  | cons x xs ih =>
    intro i
    have ih := ih (fun y hy => hx y (List.mem_cons_of_mem _ hy)) (i + 1)
    have hrun : ∀ ts a, process S (itemPath (fromTokens ts) h.items i) h.itemKeys false h.itemKeys x a =
        run S (ts ++ [itemSeg h i]) ⟨h.itemKeys, false, h.itemKeys⟩ x a := by
      intro ts a
      rw [itemPath_seg]; rfl
    rcases hx x List.mem_cons_self ⟨h.itemKeys, false, h.itemKeys⟩ with ⟨⟨q, m, hf, hb⟩, hp⟩ | ⟨y, l, g, ho, hex, hr⟩
    · refine .inl ⟨⟨0, x, q, m, rfl, hf, hb⟩, fun ts a => ?_⟩
      rw [items, hrun, hp, Res.bind_panic]
    rcases ih with ⟨⟨n, z, q, m, hn, hf, hb⟩, hp⟩ | ⟨ys, l', g', ho', hlen, hex', hr'⟩
    · refine .inl ⟨⟨n + 1, z, q, m, by simpa using hn, hf, hb⟩, fun ts a => ?_⟩
      rw [items, hrun, hr, Res.bind_ok, hp, Res.map_panic]
    refine .inr ⟨y :: ys, l.map (fun z => (itemSeg h i :: z.1, z.2)) ++ l', g.map (fun z => (itemSeg h i :: z.1, z.2)) ++ g',
      ((ho.under (itemSeg h i)).append ho').congr ?_, by simp [hlen], ?_, fun ts a => ?_⟩
    · intro q m
      constructor
      · rintro (⟨q', rfl, hf⟩ | ⟨n, z, q', hn, rfl, hf⟩)
        · exact ⟨0, x, q', rfl, rfl, hf⟩
        · refine ⟨n + 1, z, q', by simpa using hn, ?_, hf⟩
          rw [Nat.add_right_comm]; rfl
      · rintro ⟨n, z, q', hn, rfl, hf⟩
        cases n with
        | zero => simp at hn; subst hn; exact .inl ⟨q', rfl, hf⟩
        | succ n =>
          refine .inr ⟨n, z, q', by simpa using hn, ?_, hf⟩
          rw [Nat.add_right_comm]; rfl
    · intro n z w hz hw
      cases n with
      | zero => simp at hz hw; subst hz; subst hw; exact hex
      | succ n => exact hex' n z w (by simpa using hz) (by simpa using hw)
    · rw [items, hrun, hr, Res.bind_ok, hr', Res.map_ok, after_append, after_map]

theorem found_arr {S : Setup} {h : Held} {xs : List Json} {q : List PathToken} {m : Obj} :
    Found S h (.arr xs) q m ↔ ∃ n x q', xs[n]? = some x ∧ q = itemSeg h n :: q' ∧
      Found S ⟨h.itemKeys, false, h.itemKeys⟩ x q' m := by
  constructor
  · intro hf
    generalize hj : Json.arr xs = j at hf
    cases hf with
    | here _ m => cases hj
    | value _ m => cases hj
    | item _ xs' i x q' m hx hf => cases hj; exact ⟨i, x, q', hx, rfl, hf⟩
    | field _ m => cases hj
  · rintro ⟨n, x, q', hx, rfl, hf⟩
    exact .item h xs n x q' m hx hf

theorem good_arr (S : Setup) (h : Held) (xs : List Json) (hx : ∀ x ∈ xs, ∀ h, Good S h x) : Good S h (.arr xs) := by
  have hrun : ∀ ts a, run S ts h (.arr xs) a =
      (items S (fromTokens ts) h.items h.itemKeys 0 xs a).map fun r => (.arr r.1, r.2) := by
    intro ts a; rw [run, process]
  rcases items_run S h xs hx 0 with ⟨⟨n, z, q, m, hn, hf, hb⟩, hp⟩ | ⟨ys, l, g, ho, hlen, hex, hr⟩
  · exact .inl ⟨⟨_, m, .item h xs n z q m hn hf, hb⟩, fun ts a => by rw [hrun, hp, Res.map_panic]⟩
  · refine .inr ⟨.arr ys, l, g, ho.congr ?_, .array xs ys hlen hex, fun ts a => by rw [hrun, hr, Res.map_ok]⟩
    intro q m
    rw [found_arr]
    simp only [Nat.zero_add]

/-- The loop over the fields. -/
theorem fields_run (S : Setup) (h : Held) (es : Obj) (hx : ∀ e ∈ es, Good S plain e.2) :
    ((∃ k v q m, (k, v) ∈ es ∧ "pact:".toList.isPrefixOf k = false ∧ Found S plain v q m ∧ Broken S m) ∧
      ∀ ts a, fields S (fromTokens ts) h.keys es a = .panic) ∨
    ∃ es' l g, Outcome S (fun q m => ∃ k v q', (k, v) ∈ es ∧ "pact:".toList.isPrefixOf k = false ∧
        q = keySeg h k :: q' ∧ Found S plain v q' m) l g ∧
      es'.map (·.1) = (es.filter (fun e => !("pact:".toList.isPrefixOf e.1))).map (·.1) ∧
      (∀ (i : Nat) (e f : Str × Json), (es.filter (fun e => !("pact:".toList.isPrefixOf e.1)))[i]? = some e →
        es'[i]? = some f → Example S e.2 f.2) ∧
      ∀ ts a, fields S (fromTokens ts) h.keys es a = .ok (es', after ts l g a) := by
  induction es with
  | nil =>
    refine .inr ⟨[], [], [], .none ?_, rfl, fun n x y e => by simp at e, fun ts a => ?_⟩
    · rintro q m ⟨k, v, q', h, _⟩; cases h
    · rw [fields, after_nil]
  | cons e es ih =>
    have ih := ih (fun y hy => hx y (List.mem_cons_of_mem _ hy))
    obtain ⟨k, v⟩ := e
    cases hk : pactKey k with
    | true =>
      have hk' : "pact:".toList.isPrefixOf k = true := hk
      have hfil : ((k, v) :: es).filter (fun e => !("pact:".toList.isPrefixOf e.1)) =
          es.filter (fun e => !("pact:".toList.isPrefixOf e.1)) := by
        rw [List.filter_cons_of_neg]; simp only [hk']; decide
      have hf : ∀ ts a, fields S (fromTokens ts) h.keys ((k, v) :: es) a = fields S (fromTokens ts) h.keys es a := by
        intro ts a; rw [fields]; simp only [hk, if_true]
      rcases ih with ⟨⟨k', w, q, m, hn, hp, hf', hb⟩, hpa⟩ | ⟨ys, l', g', ho', hlen, hex', hr'⟩
      · exact .inl ⟨⟨k', w, q, m, List.mem_cons_of_mem _ hn, hp, hf', hb⟩, fun ts a => by rw [hf, hpa]⟩
      · refine .inr ⟨ys, l', g', ho'.congr ?_, by rw [hfil]; exact hlen, by rw [hfil]; exact hex',
          fun ts a => by rw [hf, hr']⟩
        intro q m
        constructor
        · rintro ⟨k', w, q', hm, hr⟩; exact ⟨k', w, q', List.mem_cons_of_mem _ hm, hr⟩
        · rintro ⟨k', w, q', hm, hp, hr⟩
          rcases List.mem_cons.1 hm with he | hm
          · cases he; rw [hk'] at hp; cases hp
          · exact ⟨k', w, q', hm, hp, hr⟩
    | false =>
      have hk' : "pact:".toList.isPrefixOf k = false := hk
      have hfil : ((k, v) :: es).filter (fun e => !("pact:".toList.isPrefixOf e.1)) =
          (k, v) :: es.filter (fun e => !("pact:".toList.isPrefixOf e.1)) := by
        rw [List.filter_cons_of_pos]; simp only [hk']; decide
      have hf : ∀ ts a, fields S (fromTokens ts) h.keys ((k, v) :: es) a =
          (run S (ts ++ [keySeg h k]) plain v a).bind fun r =>
            (fields S (fromTokens ts) h.keys es r.2).map fun rs => ((k, r.1) :: rs.1, rs.2) := by
        intro ts a
        rw [fields]
        simp only [hk]
        rw [field, fieldPath_seg]
        rfl
      rcases hx (k, v) List.mem_cons_self with ⟨⟨q, m, hf', hb⟩, hp⟩ | ⟨y, l, g, ho, hex, hr⟩
      · exact .inl ⟨⟨k, v, q, m, List.mem_cons_self, hk', hf', hb⟩, fun ts a => by rw [hf, hp, Res.bind_panic]⟩
      rcases ih with ⟨⟨k', w, q, m, hn, hp, hf', hb⟩, hpa⟩ | ⟨ys, l', g', ho', hlen, hex', hr'⟩
      · exact .inl ⟨⟨k', w, q, m, List.mem_cons_of_mem _ hn, hp, hf', hb⟩,
          fun ts a => by rw [hf, hr, Res.bind_ok, hpa, Res.map_panic]⟩
      refine .inr ⟨(k, y) :: ys, l.map (fun z => (keySeg h k :: z.1, z.2)) ++ l',
        g.map (fun z => (keySeg h k :: z.1, z.2)) ++ g', ((ho.under (keySeg h k)).append ho').congr ?_, ?_, ?_,
        fun ts a => ?_⟩
      · intro q m
        constructor
        · rintro (⟨q', rfl, hf'⟩ | ⟨k', w, q', hm, hr⟩)
          · exact ⟨k, v, q', List.mem_cons_self, hk', rfl, hf'⟩
          · exact ⟨k', w, q', List.mem_cons_of_mem _ hm, hr⟩
        · rintro ⟨k', w, q', hm, hp, rfl, hf'⟩
          rcases List.mem_cons.1 hm with he | hm
          · cases he; exact .inl ⟨q', rfl, hf'⟩
          · exact .inr ⟨k', w, q', hm, hp, rfl, hf'⟩
      · rw [hfil, List.map_cons, List.map_cons, hlen]
      · rw [hfil]
        intro i e f he hf'
        cases i with
        | zero => simp at he hf'; subst he; subst hf'; exact hex
        | succ i => exact hex' i e f (by simpa using he) (by simpa using hf')
      · rw [hf, hr, Res.bind_ok, hr', Res.map_ok, after_append, after_map]

theorem found_object {S : Setup} {h : Held} {o : Obj} (ho : ¬ IsMatcher o) {q : List PathToken} {m : Obj} :
    Found S h (.obj o) q m ↔ ∃ k v q', (k, v) ∈ o ∧ "pact:".toList.isPrefixOf k = false ∧ q = keySeg h k :: q' ∧
      Found S plain v q' m := by
  constructor
  · intro hf
    generalize hj : Json.obj o = j at hf
    cases hf with
    | here _ m hm => cases hj; exact absurd hm ho
    | value _ m rs g v q m' hc hm => cases hj; exact absurd hm.isMatcher ho
    | item _ xs => cases hj
    | field _ m k v q m' hm hk hp hf => cases hj; exact ⟨k, v, q, hk, hp, rfl, hf⟩
  · rintro ⟨k, v, q', hk, hp, rfl, hf⟩
    exact .field h o k v q' m ho hk hp hf

theorem good_object (S : Setup) (h : Held) (o : Obj) (ho : ¬ IsMatcher o) (hx : ∀ e ∈ o, ∀ h, Good S h e.2) :
    Good S h (.obj o) := by
  have hn : RuleJson.get "pact:matcher:type" o = none := by
    cases hg : RuleJson.get "pact:matcher:type" o with
    | none => rfl
    | some t => exact absurd (by rw [IsMatcher, hg]; rfl) ho
  have hrun : ∀ ts a, run S ts h (.obj o) a =
      (fields S (fromTokens ts) h.keys o a).map fun r => (.obj r.1, r.2) := by
    intro ts a; rw [run, process]; simp only [hn]
  rcases fields_run S h o (fun e he => hx e he plain) with
    ⟨⟨k, v, q, m, hk, hp, hf, hb⟩, hpa⟩ | ⟨es', l, g, hout, hkeys, hex, hr⟩
  · exact .inl ⟨⟨_, m, .field h o k v q m ho hk hp hf, hb⟩, fun ts a => by rw [hrun, hpa, Res.map_panic]⟩
  · exact .inr ⟨.obj es', l, g, hout.congr fun q m => (found_object ho).symm, .object o es' ho hkeys hex,
      fun ts a => by rw [hrun, hr, Res.map_ok]⟩

theorem found_matcher {S : Setup} {h : Held} {o : Obj} (ho : IsMatcher o) {q : List PathToken} {m : Obj} :
    Found S h (.obj o) q m ↔ (q = [] ∧ m = o) ∨ ∃ rs g v, ¬ IsContains o ∧ Means S o rs g ∧
      RuleJson.get "value" o = some v ∧ Found S ⟨rs.any MatchingRule.isValuesMatcher, true, h.keys⟩ v q m := by
  constructor
  · intro hf
    generalize hj : Json.obj o = j at hf
    cases hf with
    | here _ m hm => cases hj; exact .inl ⟨rfl, rfl⟩
    | value _ m rs g v q m' hc hm hv hf => cases hj; exact .inr ⟨rs, g, v, hc, hm, hv, hf⟩
    | item _ xs => cases hj
    | field _ m k v q m' hm hk hp hf => cases hj; exact absurd ho hm
  · rintro (⟨rfl, rfl⟩ | ⟨rs, g, v, hc, hm, hv, hf⟩)
    · exact .here h m ho
    · exact .value h o rs g v q m hc hm hv hf

theorem valueIn_get (S : Setup) (path : DocPath) (star skip : Bool) (m : Obj) (a : Acc) :
    valueIn S path star skip m a = match RuleJson.get "value" m with
      | some v => process S path star true skip v a
      | none => .ok (.null, a) := by
  induction m with
  | nil => rw [valueIn]; rfl
  | cons e es ih =>
    obtain ⟨k, v⟩ := e
    rw [valueIn]
    simp only [RuleJson.get, Json.lookup]
    by_cases hk : k = "value".toList
    · rw [if_pos hk]
      simp only [hk, if_true]
      rw [valueOf]
    · rw [if_neg hk]
      rw [ih, RuleJson.get]
      first
        | rw [if_neg hk]
        | rw [if_neg (fun e => hk e.symm)]

theorem variantsIn_get (S : Setup) (m : Obj) :
    variantsIn S m = match RuleJson.get "variants" m with
      | some v => variantsJ S v
      | none => .ok none := by
  induction m with
  | nil => rw [variantsIn]; rfl
  | cons e es ih =>
    obtain ⟨k, v⟩ := e
    rw [variantsIn]
    simp only [RuleJson.get, Json.lookup]
    by_cases hk : k = "variants".toList
    · rw [if_pos hk]
      simp only [hk, if_true]
      rw [variantsOf]
    · rw [if_neg hk]
      rw [ih, RuleJson.get]
      first
        | rw [if_neg hk]
        | rw [if_neg (fun e => hk e.symm)]

theorem ownGen_iff (m : Obj) (g : Generator) : ownGenerator m = some g ↔
    ∃ t, RuleJson.get "pact:generator:type" m = some t ∧ genFromMap t.toStr m = some g := by
  rw [ownGenerator, Option.bind_eq_some_iff]

theorem get_mem {k : String} {m : Obj} {v : Json} (h : RuleJson.get k m = some v) : (k.toList, v) ∈ m :=
  Json.lookup_mem h

theorem rulesOf_plain {S : Setup} {m : Obj} (hc : ¬ IsContains m) {rs : List MatchingRule} :
    RulesOf S m rs ↔ ∃ g, Means S m rs g := by
  constructor
  · intro h
    cases h with
    | plain rs g _ h => exact ⟨g, h⟩
    | contains vs ws h => exact absurd h hc
  · rintro ⟨g, h⟩; exact .plain rs g hc h

theorem not_broken {S : Setup} {m : Obj} (hc : ¬ IsContains m) (hm : matchersFrom S m ≠ .panic) : ¬ Broken S m := by
  rintro (⟨_, h⟩ | ⟨h, _⟩)
  · exact hm h
  · exact hc h

/-- The generator of the definition of a matcher. -/
def DefinedGen (S : Setup) (m : Obj) (g : Option Generator) : Prop :=
  ∀ x, g = some x ↔ ∃ rs, ¬ IsContains m ∧ Means S m rs (some x)

/-- The matcher itself. -/
theorem outcome_one {S : Setup} {o : Obj} {rs : List MatchingRule} {g : Option Generator} (hnb : ¬ Broken S o)
    (hr : ∀ r rs', RulesOf S o rs' → (r ∈ rs' ↔ r ∈ rs)) (hr1 : ∀ rs', RulesOf S o rs' → rs' = rs)
    (hr2 : ∀ r ∈ rs, RulesOf S o rs) (hg : DefinedGen S o g) :
    Outcome S (fun q m => q = [] ∧ m = o) (rs.map fun r => ([], r))
      ((g.toList.map fun g => ([], g)) ++ ((ownGenerator o).toList.map fun g => ([], g))) where
  safe := by rintro q m ⟨_, rfl⟩; exact hnb
  rules q r := by
    simp only [List.mem_map, Prod.mk.injEq]
    constructor
    · rintro ⟨r', hr', rfl, rfl⟩
      exact ⟨o, rs, ⟨rfl, rfl⟩, hr2 r' hr', hr'⟩
    · rintro ⟨m, rs', ⟨rfl, rfl⟩, h1, h2⟩
      exact ⟨r, (hr r rs' h1).1 h2, rfl, rfl⟩
  block := by
    rintro q m rs' ⟨rfl, rfl⟩ h1
    rw [hr1 rs' h1]
    exact List.infix_rfl
  gens q x := by
    simp only [List.mem_append, List.mem_map, Option.mem_toList, Prod.mk.injEq]
    constructor
    · rintro (⟨y, hy, rfl, rfl⟩ | ⟨y, hy, rfl, rfl⟩)
      · obtain ⟨rs', h1, h2⟩ := (hg y).1 hy
        exact ⟨o, ⟨rfl, rfl⟩, .defined rs' y h1 h2⟩
      · obtain ⟨t, h1, h2⟩ := (ownGen_iff o y).1 hy
        exact ⟨o, ⟨rfl, rfl⟩, .own t y h1 h2⟩
    · rintro ⟨m, ⟨rfl, rfl⟩, hgen⟩
      cases hgen with
      | defined rs' g' h1 h2 => exact .inl ⟨x, (hg x).2 ⟨rs', h1, h2⟩, rfl, rfl⟩
      | own t g' h1 h2 => exact .inr ⟨x, (ownGen_iff m x).2 ⟨t, h1, h2⟩, rfl, rfl⟩
  last q y hl := by
    rw [lastAt_append, Option.or_eq_some_iff] at hl
    cases hown : ownGenerator o with
    | some z =>
      obtain ⟨t, h1, h2⟩ := (ownGen_iff o z).1 hown
      rw [hown] at hl
      simp only [Option.toList_some, List.map_cons, List.map_nil, lastAt] at hl
      by_cases hq : q = []
      · subst hq
        simp only [if_true, Option.some.injEq, reduceCtorEq, false_and, or_false] at hl
        subst hl
        exact ⟨o, ⟨rfl, rfl⟩, .own t z h1 h2⟩
      · have hq' : ¬ [] = q := fun e => hq e.symm
        rw [if_neg hq'] at hl
        cases g with
        | none => simp [lastAt] at hl
        | some w => simp [lastAt, hq'] at hl
    | none =>
      rw [hown] at hl
      simp only [Option.toList_none, List.map_nil, lastAt, reduceCtorEq, true_and, false_or] at hl
      cases g with
      | none => simp [lastAt] at hl
      | some w =>
        simp only [Option.toList_some, List.map_cons, List.map_nil, lastAt] at hl
        by_cases hq : q = []
        · subst hq
          simp only [if_true, Option.some.injEq] at hl
          subst hl
          obtain ⟨rs', h1, h2⟩ := (hg w).1 rfl
          refine ⟨o, ⟨rfl, rfl⟩, .defined rs' w h1 h2 ?_⟩
          intro t ht
          rw [ownGenerator, ht] at hown
          exact hown
        · have hq' : ¬ [] = q := fun e => hq e.symm
          rw [if_neg hq'] at hl
          cases hl

/-- A matcher that is not an `arrayContains`. -/
theorem good_matcher (S : Setup) (h : Held) (o : Obj) (ho : IsMatcher o) (hc : ¬ IsContains o)
    (hx : ∀ e ∈ o, ∀ h, Good S h e.2) : Good S h (.obj o) := by
  obtain ⟨t, ht⟩ := Option.isSome_iff_exists.1 ho
  have ht' : isArrayContains t = false := by
    rw [Bool.eq_false_iff, Ne, isContains_iff ht]; exact hc
  have hrun : ∀ ts a, run S ts h (.obj o) a = finish (fromTokens ts) o (matchersFrom S o)
      (valueIn S (fromTokens ts) (valuesMatcher (matchersFrom S o)) h.keys o a) a := by
    intro ts a; rw [run, process]; simp only [ht, ht']; rfl
  cases hm : matchersFrom S o with
  | panic =>
    refine .inl ⟨⟨[], o, .here h o ho, .inl ⟨hc, hm⟩⟩, fun ts a => ?_⟩
    rw [hrun, hm]; rfl
  | err =>
    have hno : ∀ rs g, ¬ Means S o rs g := by
      intro rs g hmean
      rw [← matchersFrom_iff S o ho, hm] at hmean
      cases hmean
    have hno' : ∀ rs, ¬ RulesOf S o rs := by
      intro rs hr
      obtain ⟨g, hg⟩ := (rulesOf_plain hc).1 hr
      exact hno rs g hg
    have hnb : ¬ Broken S o := not_broken hc (by rw [hm]; exact fun e => by cases e)
    refine .inr ⟨.null, [], (ownGenerator o).toList.map fun g => ([], g), ?_, .unreadable o ho hc hno,
      fun ts a => ?_⟩
    · refine (outcome_one (rs := []) (g := none) hnb (fun r rs' h => absurd h (hno' rs')) (fun rs' h => absurd h (hno' rs'))
        (fun r h => by cases h) ?_).congr ?_
      · intro x
        exact ⟨(fun e => by cases e), fun ⟨rs, _, h⟩ => absurd h (hno rs _)⟩
      · intro q m
        rw [found_matcher ho]
        exact ⟨.inl, fun h => h.elim id fun ⟨rs, g, v, _, h, _⟩ => absurd h (hno rs g)⟩
    · rw [hrun, hm]
      simp only [finish]
      rw [addGenAt_after]
  | ok p =>
    obtain ⟨rs, g⟩ := p
    have hmean := (matchersFrom_iff S o ho rs g).1 hm
    have hnb : ¬ Broken S o := not_broken hc (by rw [hm]; exact fun e => by cases e)
    have hrules : ∀ rs', RulesOf S o rs' ↔ rs' = rs := by
      intro rs'
      rw [rulesOf_plain hc]
      constructor
      · rintro ⟨g', h'⟩; exact (hmean.unique h').1.symm
      · rintro rfl; exact ⟨g, hmean⟩
    have hone := outcome_one (S := S) (o := o) (rs := rs) (g := g) hnb
      (fun r rs' h => by rw [(hrules rs').1 h]) (fun rs' h => (hrules rs').1 h) (fun r _ => (hrules rs).2 rfl)
      (fun x => ⟨fun e => ⟨rs, hc, e ▸ hmean⟩, fun ⟨rs', _, h⟩ => (hmean.unique h).2⟩)
    have hstep : ∀ (ts : List PathToken) (x : Json) (l : List (List PathToken × MatchingRule))
        (gl : List (List PathToken × Generator)) (a : Acc),
        finish (fromTokens ts) o (.ok (rs, g)) (.ok (x, after ts l gl a)) a =
        .ok (x, after ts (l ++ rs.map fun r => ([], r))
          (gl ++ ((g.toList.map fun g => ([], g)) ++ ((ownGenerator o).toList.map fun g => ([], g)))) a) := by
      intro ts x l gl a
      simp only [finish, Res.map_ok]
      rw [addGenAt_after, addGenAt_after, addRulesAt_after, after_append]
      have e1 : after ts [] (List.map (fun g => ([], g)) (ownGenerator o).toList)
          (after ts [] (List.map (fun g => ([], g)) g.toList) (after ts l gl a)) =
          after ts [] ((g.toList.map fun g => ([], g)) ++ ((ownGenerator o).toList.map fun g => ([], g)))
            (after ts l gl a) := by
        rw [← after_append]; rfl
      rw [e1, ← after_append]
      simp
    cases hv : RuleJson.get "value" o with
    | none =>
      have hval : ∀ ts a, valueIn S (fromTokens ts) (valuesMatcher (matchersFrom S o)) h.keys o a = .ok (.null, a) := by
        intro ts a; rw [valueIn_get, hv]
      refine .inr ⟨.null, rs.map fun r => ([], r), (g.toList.map fun g => ([], g)) ++
        ((ownGenerator o).toList.map fun g => ([], g)), hone.congr ?_, .noValue o rs g hc hmean hv, fun ts a => ?_⟩
      · intro q m
        rw [found_matcher ho]
        exact ⟨.inl, fun h => h.elim id fun ⟨_, _, v, _, _, h, _⟩ => by rw [hv] at h; cases h⟩
      · have := hstep ts .null [] [] a
        rw [after_nil] at this
        rw [hrun, hval, hm, this, List.nil_append, List.nil_append]
    | some v =>
      have hval : ∀ ts a, valueIn S (fromTokens ts) (valuesMatcher (matchersFrom S o)) h.keys o a =
          run S ts ⟨rs.any MatchingRule.isValuesMatcher, true, h.keys⟩ v a := by
        intro ts a; rw [valueIn_get, hv, hm]; rfl
      have hfound : ∀ q m, Found S h (.obj o) q m ↔ 
          Found S ⟨rs.any MatchingRule.isValuesMatcher, true, h.keys⟩ v q m ∨ (q = [] ∧ m = o) := by
        intro q m
        rw [found_matcher ho]
        constructor
        · rintro (h | ⟨rs', g', v', _, h1, h2, h3⟩)
          · exact .inr h
          · rw [hv] at h2; cases h2
            obtain ⟨rfl, rfl⟩ := hmean.unique h1
            exact .inl h3
        · rintro (h | h)
          · exact .inr ⟨rs, g, v, hc, hmean, hv, h⟩
          · exact .inl h
      rcases hx _ (get_mem hv) ⟨rs.any MatchingRule.isValuesMatcher, true, h.keys⟩ with
        ⟨⟨q, m, hf, hb⟩, hp⟩ | ⟨x, l, gl, hout, hex, hr⟩
      · refine .inl ⟨⟨q, m, (hfound q m).2 (.inl hf), hb⟩, fun ts a => ?_⟩
        rw [hrun, hval, hp, hm]; rfl
      refine .inr ⟨x, l ++ rs.map fun r => ([], r), gl ++ ((g.toList.map fun g => ([], g)) ++
        ((ownGenerator o).toList.map fun g => ([], g))), (hout.append hone).congr fun q m => (hfound q m).symm,
        .matcher o rs g v x hc hmean hv hex, fun ts a => ?_⟩
      rw [hrun, hval, hr, hm, hstep]

theorem processJson_run (S : Setup) (j : Json) (a : Acc) : processJson S j a = run S [.root] plain j a := by
  rw [processJson, rootPath_tokens]; rfl

theorem bodyGens_forBody (gs : Generators) : bodyGens gs = forBody gs := by
  rw [bodyGens, forBody]
  induction gs with
  | nil => rfl
  | cons e es ih =>
    by_cases h : e.1 = GenCategory.body
    · rw [List.find?_cons_of_pos (by simp [h]), List.filter_cons_of_pos (by simp [h])]
    · rw [List.find?_cons_of_neg (by simp [h]), List.filter_cons_of_neg (by simp [h])]
      exact ih

/-- The loop over the variants. -/
theorem variants_run (S : Setup) (vs : List Json) (hx : ∀ v ∈ vs, ∀ h, Good S h v) : ∀ i : Nat,
    ((∃ v ∈ vs, processJson S v ⟨emptyCat .body, []⟩ = .panic) ∧ variants S i vs = .panic) ∨
    ∃ rs : List (Json × Variant), (∀ v ∈ vs, processJson S v ⟨emptyCat .body, []⟩ ≠ .panic) ∧
      variants S i vs = .ok rs ∧ vs.length = rs.length ∧
      (∀ (n : Nat) (v : Json) (r : Json × Variant), vs[n]? = some v → rs[n]? = some r → Example S v r.1 ∧
        ∃ a, processJson S v ⟨emptyCat .body, []⟩ = .ok (r.1, a) ∧ r.2 = ⟨i + n, a.cat, forBody a.gens⟩) := by
  induction vs with
  | nil =>
    intro i
    exact .inr ⟨[], (fun v h => by cases h), (by rw [variants]), rfl, (fun n v r h => by simp at h)⟩
  | cons v vs ih =>
    intro i
    have ih := ih (fun y hy => hx y (List.mem_cons_of_mem _ hy)) (i + 1)
    have hv : variants S i (v :: vs) = (processJson S v ⟨emptyCat .body, []⟩).bind fun r =>
        (variants S (i + 1) vs).map fun rs => (r.1, ⟨i, r.2.cat, bodyGens r.2.gens⟩) :: rs := by rw [variants]; rfl
    rcases hx v List.mem_cons_self plain with ⟨_, hp⟩ | ⟨x, l, g, _, hex, hr⟩
    · have hp : processJson S v ⟨emptyCat .body, []⟩ = .panic := by rw [processJson_run]; exact hp _ _
      exact .inl ⟨⟨v, List.mem_cons_self, hp⟩, by rw [hv, hp, Res.bind_panic]⟩
    · have hr : processJson S v ⟨emptyCat .body, []⟩ = .ok (x, after [.root] l g ⟨emptyCat .body, []⟩) := by
        rw [processJson_run]; exact hr _ _
      rcases ih with ⟨⟨w, hw, hp⟩, hp'⟩ | ⟨rs, hnp, hrs, hlen, hall⟩
      · exact .inl ⟨⟨w, List.mem_cons_of_mem _ hw, hp⟩, by rw [hv, hr, Res.bind_ok, hp', Res.map_panic]⟩
      · refine .inr ⟨_, ?_, by rw [hv, hr, Res.bind_ok, hrs, Res.map_ok], by simp [hlen], ?_⟩
        · intro w hw
          rcases List.mem_cons.1 hw with rfl | hw
          · rw [hr]; exact fun e => by cases e
          · exact hnp w hw
        · intro n w r hw hr'
          cases n with
          | zero =>
            simp at hw hr'
            subst hw
            subst hr'
            exact ⟨hex, _, hr, by rw [bodyGens_forBody]; rfl⟩
          | succ n =>
            obtain ⟨h1, a, h2, h3⟩ := hall n w r (by simpa using hw) (by simpa using hr')
            refine ⟨h1, a, h2, ?_⟩
            rw [h3, Nat.add_right_comm]; rfl

/-- An `arrayContains` matcher. -/
theorem good_contains (S : Setup) (h : Held) (o : Obj) (hc : IsContains o)
    (hx : ∀ vs, RuleJson.get "variants" o = some (.arr vs) → ∀ v ∈ vs, ∀ h, Good S h v) : Good S h (.obj o) := by
  have ho := hc.isMatcher
  obtain ⟨t, ht⟩ := Option.isSome_iff_exists.1 ho
  have ht' : isArrayContains t = true := (isContains_iff ht).2 hc
  have hrun : ∀ ts a, run S ts h (.obj o) a = (variantsIn S o).map fun vs => finishVariants (fromTokens ts) o vs a := by
    intro ts a; rw [run, process]; simp only [ht, ht']; rfl
  have hfound : ∀ q m, Found S h (.obj o) q m ↔ q = [] ∧ m = o := by
    intro q m
    rw [found_matcher ho]
    constructor
    · rintro (h | ⟨_, _, v, h, _⟩)
      · exact h
      · exact absurd hc h
    · exact .inl
  have hdg : DefinedGen S o none := fun x => ⟨(fun e => by cases e), fun ⟨rs, h, _⟩ => absurd hc h⟩
  by_cases hvs : ∃ vs, RuleJson.get "variants" o = some (.arr vs)
  · obtain ⟨vs, hvs⟩ := hvs
    have hin : variantsIn S o = (variants S 0 vs).map some := by
      rw [variantsIn_get, hvs]
      simp only
      rw [variantsJ]
    rcases variants_run S vs (hx vs hvs) 0 with ⟨⟨v, hv, hp⟩, hpa⟩ | ⟨rs, hnp, hrs, hlen, hall⟩
    · refine .inl ⟨⟨[], o, .here h o ho, .inr ⟨hc, vs, v, hvs, hv, hp⟩⟩, fun ts a => ?_⟩
      rw [hrun, hin, hpa]; rfl
    · have hlen1 : vs.length = (rs.map (·.1)).length := by simpa using hlen
      have hlen2 : vs.length = (rs.map (·.2)).length := by simpa using hlen
      have hrules : ∀ l, RulesOf S o l ↔ l = [.arrayContains (rs.map (·.2))] := by
        intro l
        constructor
        · intro hl
          cases hl with
          | plain rs g hn => exact absurd hc hn
          | contains vs' ws _ hvs' hlen' hw =>
            rw [hvs] at hvs'
            cases hvs'
            have : ws = rs.map (·.2) := by
              apply List.ext_getElem (hlen'.symm.trans hlen2)
              intro n h1 h2
              have hn : n < vs.length := hlen'.symm ▸ h1
              obtain ⟨x, a, e1, e2⟩ := hw n vs[n] ws[n] (List.getElem?_eq_getElem hn) (List.getElem?_eq_getElem h1)
              have h3 : n < rs.length := by simpa using h2
              obtain ⟨_, a', e3, e4⟩ := hall n vs[n] rs[n] (List.getElem?_eq_getElem hn) (List.getElem?_eq_getElem h3)
              rw [e1] at e3
              cases e3
              rw [List.getElem_map, e2, e4, Nat.zero_add]
            rw [this]
        · rintro rfl
          refine .contains vs _ hc hvs hlen2 ?_
          intro n v w hv hw
          rw [List.getElem?_map, Option.map_eq_some_iff] at hw
          obtain ⟨r, hr, rfl⟩ := hw
          obtain ⟨_, a, e1, e2⟩ := hall n v r hv hr
          exact ⟨r.1, a, e1, by rw [e2, Nat.zero_add]⟩
      have hnb : ¬ Broken S o := by
        rintro (⟨h1, _⟩ | ⟨_, vs', v, h1, h2, h3⟩)
        · exact h1 hc
        · rw [hvs] at h1; cases h1; exact hnp v h2 h3
      have hone := outcome_one (S := S) (o := o) (rs := [.arrayContains (rs.map (·.2))]) (g := none) hnb
        (fun r rs' h => by rw [(hrules rs').1 h]) (fun rs' h => (hrules rs').1 h) (fun r _ => (hrules _).2 rfl) hdg
      refine .inr ⟨.arr (rs.map (·.1)), _, _, hone.congr fun q m => (hfound q m).symm, ?_, fun ts a => ?_⟩
      · refine .contains o vs _ hc hvs hlen1 ?_
        intro n v x hv hx
        rw [List.getElem?_map, Option.map_eq_some_iff] at hx
        obtain ⟨r, hr, rfl⟩ := hx
        exact (hall n v r hv hr).1
      · rw [hrun, hin, hrs, Res.map_ok, Res.map_ok]
        simp only [finishVariants]
        rw [addGenAt_after, addRulesAt_after, ← after_append]
        simp
  · have hin : variantsIn S o = .ok none := by
      rw [variantsIn_get]
      cases hv : RuleJson.get "variants" o with
      | none => rfl
      | some v =>
        cases v with
        | arr vs => exact absurd ⟨vs, hv⟩ hvs
        | null => simp only [variantsJ]
        | bool b => simp only [variantsJ]
        | num n => simp only [variantsJ]
        | str s => simp only [variantsJ]
        | obj m => simp only [variantsJ]
    have hnb : ¬ Broken S o := by
      rintro (⟨h1, _⟩ | ⟨_, vs', v, h1, h2, h3⟩)
      · exact h1 hc
      · exact hvs ⟨vs', h1⟩
    have hno : ∀ rs, ¬ RulesOf S o rs := by
      intro rs hl
      cases hl with
      | plain rs g hn => exact absurd hc hn
      | contains vs' ws _ hvs' => exact absurd ⟨vs', hvs'⟩ hvs
    have hone := outcome_one (S := S) (o := o) (rs := []) (g := none) hnb
      (fun r rs' h => absurd h (hno rs')) (fun rs' h => absurd h (hno rs')) (fun r h => by cases h) hdg
    refine .inr ⟨.null, _, _, hone.congr fun q m => (hfound q m).symm,
      .noVariants o hc (fun vs e => hvs ⟨vs, e⟩), fun ts a => ?_⟩
    rw [hrun, hin, Res.map_ok]
    simp only [finishVariants]
    rw [addGenAt_after]
    rfl

/-- Members of arrays and of objects. -/
theorem good (S : Setup) (j : Json) : ∀ h, Good S h j := by
  suffices hs : (∀ h, Good S h j) ∧ (∀ xs, j = .arr xs → ∀ x ∈ xs, ∀ h, Good S h x) from hs.1
  refine json_ind (Q := fun j => (∀ h, Good S h j) ∧ (∀ xs, j = .arr xs → ∀ x ∈ xs, ∀ h, Good S h x)) ?_ ?_ ?_ j
  · intro j h1 h2
    exact ⟨fun h => good_scalar S h j h1 h2, fun xs e => absurd e (h1 xs)⟩
  · intro xs ih
    refine ⟨fun h => good_arr S h xs (fun x hx => (ih x hx).1), fun ys e x hx => ?_⟩
    cases e
    exact (ih x hx).1
  · intro m ih
    refine ⟨fun h => ?_, fun ys e => by cases e⟩
    by_cases hm : IsMatcher m
    · by_cases hc : IsContains m
      · exact good_contains S h m hc fun vs hvs v hv => (ih _ (get_mem hvs)).2 vs rfl v hv
      · exact good_matcher S h m hm hc fun e he => (ih e he).1
    · exact good_object S h m hm fun e he => (ih e he).1

/-! ## C84: the example -/

theorem list_unique {xs ys zs : List Json} (h1 : xs.length = ys.length) (h2 : xs.length = zs.length)
    (h3 : ∀ (i : Nat) (x y z : Json), xs[i]? = some x → ys[i]? = some y → zs[i]? = some z → y = z) : ys = zs := by
  apply List.ext_getElem (h1.symm.trans h2)
  intro i hy hz
  have hx : i < xs.length := by omega
  exact h3 i xs[i] ys[i] zs[i] (List.getElem?_eq_getElem hx) (List.getElem?_eq_getElem hy) (List.getElem?_eq_getElem hz)

/-- A document has at most one example. -/
theorem C84_unique {S : Setup} {j x y : Json} (h : Example S j x) (h' : Example S j y) : x = y := by
  induction h generalizing y with
  | scalar j h1 h2 =>
    cases h' with
    | scalar _ _ _ => rfl
    | array xs ys => exact absurd rfl (h1 xs)
    | object m => exact absurd rfl (h2 m)
    | matcher m => exact absurd rfl (h2 m)
    | noValue m => exact absurd rfl (h2 m)
    | unreadable m => exact absurd rfl (h2 m)
    | contains m => exact absurd rfl (h2 m)
    | noVariants m => exact absurd rfl (h2 m)
  | array xs ys hlen hall ih =>
    generalize hj : Json.arr xs = j at h'
    cases h' with
    | scalar _ h1 _ => exact absurd hj.symm (h1 xs)
    | array xs' zs hlen' hall' =>
      cases hj
      rw [list_unique hlen hlen' fun i x y z hx hy hz => ih i x y hx hy (hall' i x z hx hz)]
    | object m => cases hj
    | matcher m => cases hj
    | noValue m => cases hj
    | unreadable m => cases hj
    | contains m => cases hj
    | noVariants m => cases hj
  | object m m' hm hk hall ih =>
    generalize hj : Json.obj m = j at h'
    cases h' with
    | scalar _ _ h2 => exact absurd hj.symm (h2 m)
    | array xs ys => cases hj
    | object o o' ho hk' hall' =>
      cases hj
      have hl := hk.trans hk'.symm
      have hlen : m'.length = o'.length := by simpa using congrArg List.length hl
      have hlen' : m'.length = (m.filter (fun e => !("pact:".toList.isPrefixOf e.1))).length := by
        simpa using congrArg List.length hk
      congr 1
      apply List.ext_getElem hlen
      intro i h1 h2
      have h3 : i < (m.filter (fun e => !("pact:".toList.isPrefixOf e.1))).length := by omega
      have hv := ih i _ m'[i] (List.getElem?_eq_getElem h3) (List.getElem?_eq_getElem h1)
        (hall' i _ o'[i] (List.getElem?_eq_getElem h3) (List.getElem?_eq_getElem h2))
      have hkey : (m'.map (·.1))[i]? = (o'.map (·.1))[i]? := by rw [hl]
      rw [List.getElem?_map, List.getElem?_map, List.getElem?_eq_getElem h1, List.getElem?_eq_getElem h2] at hkey
      exact Prod.ext (Option.some.inj hkey) hv
    | matcher o rs g v x hc hmean => cases hj; exact absurd hmean.isMatcher hm
    | noValue o rs g hc hmean => cases hj; exact absurd hmean.isMatcher hm
    | unreadable o ho => cases hj; exact absurd ho hm
    | contains o vs xs hc => cases hj; exact absurd hc.isMatcher hm
    | noVariants o hc => cases hj; exact absurd hc.isMatcher hm
  | matcher m rs g v x hc hmean hv _ ih =>
    generalize hj : Json.obj m = j at h'
    cases h' with
    | scalar _ _ h2 => exact absurd hj.symm (h2 m)
    | array xs ys => cases hj
    | object o o' ho => cases hj; exact absurd hmean.isMatcher ho
    | matcher o rs' g' v' x' hc' hmean' hv' hex =>
      cases hj
      rw [hv] at hv'
      cases hv'
      exact ih hex
    | noValue o rs' g' hc' hmean' hv' => cases hj; rw [hv] at hv'; cases hv'
    | unreadable o ho hc' hno => cases hj; exact absurd hmean (hno rs g)
    | contains o vs xs hc' => cases hj; exact absurd hc' hc
    | noVariants o hc' => cases hj; exact absurd hc' hc
  | noValue m rs g hc hmean hv =>
    generalize hj : Json.obj m = j at h'
    cases h' with
    | scalar _ _ h2 => exact absurd hj.symm (h2 m)
    | array xs ys => cases hj
    | object o o' ho => cases hj; exact absurd hmean.isMatcher ho
    | matcher o rs' g' v' x' hc' hmean' hv' hex => cases hj; rw [hv] at hv'; cases hv'
    | noValue o rs' g' hc' hmean' hv' => rfl
    | unreadable o ho hc' hno => rfl
    | contains o vs xs hc' => cases hj; exact absurd hc' hc
    | noVariants o hc' => rfl
  | unreadable m hm hc hno =>
    generalize hj : Json.obj m = j at h'
    cases h' with
    | scalar _ _ h2 => exact absurd hj.symm (h2 m)
    | array xs ys => cases hj
    | object o o' ho => cases hj; exact absurd hm ho
    | matcher o rs' g' v' x' hc' hmean' hv' hex => cases hj; exact absurd hmean' (hno rs' g')
    | noValue o rs' g' hc' hmean' hv' => rfl
    | unreadable o ho hc' hno => rfl
    | contains o vs xs hc' => cases hj; exact absurd hc' hc
    | noVariants o hc' => rfl
  | contains m vs xs hc hvs hlen hall ih =>
    generalize hj : Json.obj m = j at h'
    cases h' with
    | scalar _ _ h2 => exact absurd hj.symm (h2 m)
    | array xs ys => cases hj
    | object o o' ho => cases hj; exact absurd hc.isMatcher ho
    | matcher o rs' g' v' x' hc' => cases hj; exact absurd hc hc'
    | noValue o rs' g' hc' => cases hj; exact absurd hc hc'
    | unreadable o ho hc' hno => cases hj; exact absurd hc hc'
    | contains o vs' zs hc' hvs' hlen' hall' =>
      cases hj
      rw [hvs] at hvs'
      cases hvs'
      rw [list_unique hlen hlen' fun i x y z hx hy hz => ih i x y hx hy (hall' i x z hx hz)]
    | noVariants o hc' hno => cases hj; exact absurd hvs (hno vs)
  | noVariants m hc hno =>
    generalize hj : Json.obj m = j at h'
    cases h' with
    | scalar _ _ h2 => exact absurd hj.symm (h2 m)
    | array xs ys => cases hj
    | object o o' ho => cases hj; exact absurd hc.isMatcher ho
    | matcher o rs' g' v' x' hc' => cases hj; exact absurd hc hc'
    | noValue o rs' g' hc' => rfl
    | unreadable o ho hc' hno => rfl
    | contains o vs' zs hc' hvs' => cases hj; exact absurd hvs' (hno vs')
    | noVariants o hc' => rfl

/-- The processed document is the example of the document, whatever was in the pact before; there is one exactly when
no matcher of the document aborts the program. -/
theorem C84_example (S : Setup) (j x : Json) (a : Acc) : (∃ a', processJson S j a = .ok (x, a')) ↔
    Example S j x ∧ ∀ q m, Found S plain j q m → ¬ Broken S m := by
  rw [processJson_run]
  rcases good S j plain with ⟨⟨q, m, hf, hb⟩, hp⟩ | ⟨y, l, g, ho, hex, hr⟩
  · constructor
    · rintro ⟨a', h⟩; rw [hp] at h; cases h
    · rintro ⟨_, h⟩; exact absurd hb (h q m hf)
  · constructor
    · rintro ⟨a', h⟩
      rw [hr] at h
      cases h
      exact ⟨hex, ho.safe⟩
    · rintro ⟨h, _⟩
      exact ⟨_, by rw [hr, C84_unique h hex]⟩

/-- Otherwise the program is aborted: there are no errors. -/
theorem C84_aborts (S : Setup) (j : Json) (a : Acc) :
    (processJson S j a = .panic ↔ ∃ q m, Found S plain j q m ∧ Broken S m) ∧ processJson S j a ≠ .err := by
  rw [processJson_run]
  rcases good S j plain with ⟨⟨q, m, hf, hb⟩, hp⟩ | ⟨y, l, g, ho, hex, hr⟩
  · rw [hp]
    exact ⟨⟨fun _ => ⟨q, m, hf, hb⟩, fun _ => rfl⟩, fun e => by cases e⟩
  · rw [hr]
    refine ⟨⟨(fun e => by cases e), fun ⟨q, m, hf, hb⟩ => absurd hb (ho.safe q m hf)⟩, fun e => by cases e⟩

/-- No attribute starts with `pact:`, at any depth. -/
inductive Clean : Json → Prop
  | scalar (j : Json) : (∀ xs, j ≠ .arr xs) → (∀ m, j ≠ .obj m) → Clean j
  | array (xs : List Json) : (∀ x, x ∈ xs → Clean x) → Clean (.arr xs)
  | object (m : Obj) : (∀ e, e ∈ m → "pact:".toList.isPrefixOf e.1 = false) → (∀ e, e ∈ m → Clean e.2) → Clean (.obj m)

theorem clean_list {xs ys : List Json} (hlen : xs.length = ys.length)
    (ih : ∀ (i : Nat) (x y : Json), xs[i]? = some x → ys[i]? = some y → Clean y) : Clean (.arr ys) := by
  refine .array ys fun y hy => ?_
  obtain ⟨i, hi, rfl⟩ := List.getElem_of_mem hy
  have hx : i < xs.length := by omega
  exact ih i xs[i] ys[i] (List.getElem?_eq_getElem hx) (List.getElem?_eq_getElem hi)

/-- Examples have no `pact:` attributes. -/
theorem C84_clean {S : Setup} {j x : Json} (h : Example S j x) : Clean x := by
  induction h with
  | scalar j h1 h2 => exact .scalar j h1 h2
  | array xs ys hlen hall ih => exact clean_list hlen ih
  | object m m' hm hk hall ih =>
    have hlen : m'.length = (m.filter (fun e => !("pact:".toList.isPrefixOf e.1))).length := by
      simpa using congrArg List.length hk
    refine .object m' ?_ ?_
    · intro e he
      have h1 : e.1 ∈ m'.map (·.1) := List.mem_map.2 ⟨e, he, rfl⟩
      rw [hk, List.mem_map] at h1
      obtain ⟨f, hf, hfe⟩ := h1
      have h2 := (List.mem_filter.1 hf).2
      rw [hfe] at h2
      cases h3 : "pact:".toList.isPrefixOf e.1 with
      | false => rfl
      | true => rw [h3] at h2; cases h2
    · intro e he
      obtain ⟨i, hi, rfl⟩ := List.getElem_of_mem he
      have hx : i < (m.filter (fun e => !("pact:".toList.isPrefixOf e.1))).length := by omega
      exact ih i _ _ (List.getElem?_eq_getElem hx) (List.getElem?_eq_getElem hi)
  | matcher m rs g v x hc hmean hv _ ih => exact ih
  | noValue => exact .scalar _ (fun _ e => by cases e) (fun _ e => by cases e)
  | unreadable => exact .scalar _ (fun _ e => by cases e) (fun _ e => by cases e)
  | contains m vs xs hc hvs hlen hall ih => exact clean_list hlen ih
  | noVariants => exact .scalar _ (fun _ e => by cases e) (fun _ e => by cases e)

theorem clean_noMatcher {m : Obj} (h : ∀ e, e ∈ m → "pact:".toList.isPrefixOf e.1 = false) : ¬ IsMatcher m := by
  intro hm
  obtain ⟨t, ht⟩ := Option.isSome_iff_exists.1 hm
  have h1 := h _ (get_mem ht)
  have h2 : "pact:".toList.isPrefixOf "pact:matcher:type".toList = true := by decide
  rw [h2] at h1
  cases h1

theorem clean_example (S : Setup) {j : Json} (h : Clean j) : Example S j j ∧ ∀ h q m, ¬ Found S h j q m := by
  induction h with
  | scalar j h1 h2 => exact ⟨.scalar j h1 h2, fun h q m => found_scalar h1 h2⟩
  | array xs _ ih =>
    refine ⟨.array xs xs rfl ?_, ?_⟩
    · intro i x y hx hy
      rw [hx] at hy
      cases hy
      exact (ih x (List.mem_of_getElem? hx)).1
    · intro h q m hf
      obtain ⟨n, x, q', hx, _, hf⟩ := found_arr.1 hf
      exact (ih x (List.mem_of_getElem? hx)).2 _ _ _ hf
  | object m hk _ ih =>
    have hfil : m.filter (fun e => !("pact:".toList.isPrefixOf e.1)) = m := by
      rw [List.filter_eq_self]
      intro e he
      rw [hk e he]
      rfl
    refine ⟨.object m m (clean_noMatcher hk) (by rw [hfil]) ?_, ?_⟩
    · rw [hfil]
      intro i x y hx hy
      rw [hx] at hy
      cases hy
      exact (ih x (List.mem_of_getElem? hx)).1
    · intro h q m' hf
      obtain ⟨k, v, q', hm, _, _, hf⟩ := (found_object (clean_noMatcher hk)).1 hf
      exact (ih _ hm).2 _ _ _ hf

/-- A document without `pact:` attributes is kept as it is, and adds nothing to the pact. -/
theorem C84_unchanged (S : Setup) {j : Json} (h : Clean j) (a : Acc) : processJson S j a = .ok (j, a) := by
  obtain ⟨hex, hno⟩ := clean_example S h
  rw [processJson_run]
  rcases good S j plain with ⟨⟨q, m, hf, hb⟩, hp⟩ | ⟨y, l, g, ho, hex', hr⟩
  · exact absurd hf (hno _ _ _)
  · have hl : l = [] := by
      apply List.eq_nil_iff_forall_not_mem.2
      rintro ⟨q, r⟩ hm
      obtain ⟨m, rs, hf, _⟩ := (ho.rules q r).1 hm
      exact hno _ _ _ hf
    have hg : g = [] := by
      apply List.eq_nil_iff_forall_not_mem.2
      rintro ⟨q, r⟩ hm
      obtain ⟨m, hf, _⟩ := (ho.gens q r).1 hm
      exact hno _ _ _ hf
    rw [hr, hl, hg, after_nil, C84_unique hex' hex]

/-- Processing again changes nothing and adds nothing. -/
theorem C84_again (S : Setup) {j x : Json} {a a' : Acc} (h : processJson S j a = .ok (x, a')) (b : Acc) :
    processJson S x b = .ok (x, b) :=
  C84_unchanged S (C84_clean ((C84_example S j x a).1 ⟨a', h⟩).1) b

/-! ## C85: the rules and generators -/

/-- The rules of a table at a path. -/
def rulesUnder (c : RuleCategory) (p : DocPath) : List MatchingRule :=
  match Rules.lookup c.rules p with
  | some rl => rl.rules
  | none => []

theorem lookup_addAll (l : List (List PathToken × MatchingRule)) (ts : List PathToken) (c : RuleCategory) (p : DocPath) :
    Rules.lookup (addAll ts l c).rules p =
      if l.any (fun x => decide ((fromTokens (ts ++ x.1)).expr = p.expr)) then
        some { (Rules.lookup c.rules p).getD (emptyList .and) with
          rules := rulesUnder c p ++ (l.filter (fun x => decide ((fromTokens (ts ++ x.1)).expr = p.expr))).map (·.2) }
      else Rules.lookup c.rules p := by
  induction l generalizing c with
  | nil => rfl
  | cons x l ih =>
    have e1 : addAll ts (x :: l) c = addAll ts l (addRule c (fromTokens (ts ++ x.1)) x.2 .and) := rfl
    have e2 : Rules.lookup (addRule c (fromTokens (ts ++ x.1)) x.2 .and).rules p =
        if p.expr = (fromTokens (ts ++ x.1)).expr then
          some { (Rules.lookup c.rules (fromTokens (ts ++ x.1))).getD (emptyList .and) with
            rules := ((Rules.lookup c.rules (fromTokens (ts ++ x.1))).getD (emptyList .and)).rules ++ [x.2] }
        else Rules.lookup c.rules p := RuleProps.lookup_upsert _ _ _ _ _
    rw [e1, ih, rulesUnder, e2]
    by_cases hp : (fromTokens (ts ++ x.1)).expr = p.expr
    · have hl : Rules.lookup c.rules (fromTokens (ts ++ x.1)) = Rules.lookup c.rules p := by
        simp only [Rules.lookup]
        congr 1
        congr 1
        funext e
        simp [keyIs, eqPath, hp]
      have hany : ((x :: l).any fun x => decide ((fromTokens (ts ++ x.1)).expr = p.expr)) = true := by
        simp [hp]
      rw [hany, if_pos hp.symm, hl, List.filter_cons_of_pos (by simp [hp])]
      simp only [if_true, Option.getD_some, List.map_cons]
      have hr : ((Rules.lookup c.rules p).getD (emptyList .and)).rules = rulesUnder c p := by
        rw [rulesUnder]
        cases Rules.lookup c.rules p with
        | none => rfl
        | some rl => rfl
      rw [hr]
      split
      · simp
      · rename_i hn
        have : l.filter (fun x => decide ((fromTokens (ts ++ x.1)).expr = p.expr)) = [] := by
          rw [List.filter_eq_nil_iff]
          intro y hy hy'
          exact hn (List.any_eq_true.2 ⟨y, hy, hy'⟩)
        rw [this]
        simp
    · have hany : ((x :: l).any fun x => decide ((fromTokens (ts ++ x.1)).expr = p.expr)) =
          (l.any fun x => decide ((fromTokens (ts ++ x.1)).expr = p.expr)) := by
        rw [List.any_cons, decide_eq_false hp, Bool.false_or]
      have hp' : ¬ p.expr = (fromTokens (ts ++ x.1)).expr := fun e => hp e.symm
      rw [hany, List.filter_cons_of_neg (by simp [hp])]
      simp only [if_neg hp']
      rfl

theorem rulesUnder_addAll (l : List (List PathToken × MatchingRule)) (ts : List PathToken) (c : RuleCategory)
    (p : DocPath) : rulesUnder (addAll ts l c) p =
      rulesUnder c p ++ (l.filter (fun x => decide ((fromTokens (ts ++ x.1)).expr = p.expr))).map (·.2) := by
  rw [rulesUnder, lookup_addAll]
  by_cases h : (l.any fun x => decide ((fromTokens (ts ++ x.1)).expr = p.expr)) = true
  · rw [if_pos h]
  · rw [if_neg h]
    have : l.filter (fun x => decide ((fromTokens (ts ++ x.1)).expr = p.expr)) = [] := by
      rw [List.filter_eq_nil_iff]
      intro y hy hy'
      exact h (List.any_eq_true.2 ⟨y, hy, hy'⟩)
    rw [this]
    simp [rulesUnder]

theorem ok_after {S : Setup} {j x : Json} {a a' : Acc} (h : processJson S j a = .ok (x, a')) :
    ∃ l g, Outcome S (Found S plain j) l g ∧ a' = after [.root] l g a := by
  rw [processJson_run] at h
  rcases good S j plain with ⟨_, hp⟩ | ⟨y, l, g, ho, hex', hr⟩
  · rw [hp] at h; cases h
  · rw [hr] at h
    cases h
    exact ⟨l, g, ho, rfl⟩

/-- At every path, the rules after are the rules before followed by the rules of the matchers of the document at this
path; the rules of a matcher are together and in their order. -/
theorem C85_rules {S : Setup} {j x : Json} {a a' : Acc} (h : processJson S j a = .ok (x, a')) (p : DocPath) :
    ∃ new, rulesUnder a'.cat p = rulesUnder a.cat p ++ new ∧
      (∀ r, r ∈ new ↔ ∃ q m rs, p.expr = (fromTokens (.root :: q)).expr ∧ Found S plain j q m ∧ RulesOf S m rs ∧
        r ∈ rs) ∧
      (∀ q m rs, p.expr = (fromTokens (.root :: q)).expr → Found S plain j q m → RulesOf S m rs → rs <:+: new) := by
  obtain ⟨l, g, ho, rfl⟩ := ok_after h
  refine ⟨_, rulesUnder_addAll l [.root] a.cat p, ?_, ?_⟩
  · intro r
    rw [List.mem_map]
    constructor
    · rintro ⟨⟨q, r'⟩, hm, rfl⟩
      obtain ⟨h1, h2⟩ := List.mem_filter.1 hm
      obtain ⟨m, rs, h3⟩ := (ho.rules q r').1 h1
      exact ⟨q, m, rs, (of_decide_eq_true h2).symm, h3⟩
    · rintro ⟨q, m, rs, hp, h3⟩
      exact ⟨(q, r), List.mem_filter.2 ⟨(ho.rules q r).2 ⟨m, rs, h3⟩, decide_eq_true hp.symm⟩, rfl⟩
  · intro q m rs hp hf hr
    obtain ⟨s, t, e⟩ := ho.block q m rs hf hr
    refine ⟨(s.filter (fun x => decide ((fromTokens ([.root] ++ x.1)).expr = p.expr))).map (·.2),
      (t.filter (fun x => decide ((fromTokens ([.root] ++ x.1)).expr = p.expr))).map (·.2), ?_⟩
    rw [← e]
    have hmid : (rs.map fun r => (q, r)).filter (fun x => decide ((fromTokens ([.root] ++ x.1)).expr = p.expr)) =
        rs.map fun r => (q, r) := by
      rw [List.filter_eq_self]
      rintro y hy
      obtain ⟨r, _, rfl⟩ := List.mem_map.1 hy
      exact decide_eq_true hp.symm
    rw [List.filter_append, List.filter_append, hmid, List.map_append, List.map_append, List.map_map]
    congr 2
    exact (List.map_id rs).symm

/-- The tables entries of the other paths stay; entries keep how their rules are combined, and new entries need all
their rules. -/
theorem C85_entries {S : Setup} {j x : Json} {a a' : Acc} (h : processJson S j a = .ok (x, a')) :
    a'.cat.name = a.cat.name ∧
    (∀ p, (∀ q m, p.expr = (fromTokens (.root :: q)).expr → Found S plain j q m → ∀ rs, RulesOf S m rs → rs = []) →
      Rules.lookup a'.cat.rules p = Rules.lookup a.cat.rules p) ∧
    (∀ p rl, Rules.lookup a.cat.rules p = some rl →
      ∃ rl', Rules.lookup a'.cat.rules p = some rl' ∧ rl'.logic = rl.logic ∧ rl'.cascaded = rl.cascaded) ∧
    (∀ p rl', Rules.lookup a.cat.rules p = none → Rules.lookup a'.cat.rules p = some rl' →
      rl'.logic = .and ∧ rl'.cascaded = false) := by
  obtain ⟨l, g, ho, rfl⟩ := ok_after h
  refine ⟨addAll_name _ _ _, ?_, ?_, ?_⟩
  · intro p hp
    have hn : (l.any fun x => decide ((fromTokens ([.root] ++ x.1)).expr = p.expr)) = false := by
      rw [List.any_eq_false]
      rintro ⟨q, r⟩ hm he
      obtain ⟨m, rs, h1, h2, h3⟩ := (ho.rules q r).1 hm
      rw [hp q m (of_decide_eq_true he).symm h1 rs h2] at h3
      cases h3
    show Rules.lookup (addAll [.root] l a.cat).rules p = _
    rw [lookup_addAll, hn]
    rfl
  · intro p rl hl
    show ∃ rl', Rules.lookup (addAll [.root] l a.cat).rules p = some rl' ∧ _
    rw [lookup_addAll, hl]
    split
    · exact ⟨_, rfl, rfl, rfl⟩
    · exact ⟨rl, rfl, rfl, rfl⟩
  · intro p rl' hl hl'
    have hl' : Rules.lookup (addAll [.root] l a.cat).rules p = some rl' := hl'
    rw [lookup_addAll, hl] at hl'
    split at hl'
    · cases hl'; exact ⟨rfl, rfl⟩
    · cases hl'

/-- The generator of a category at a path. -/
def genAt (gs : Generators) (c : GenCategory) (p : DocPath) : Option Generator :=
  match gs.find? (fun e => decide (e.1 = c)) with
  | some e => Rules.lookup e.2 p
  | none => none

theorem genAt_addGen (gs : Generators) (c d : GenCategory) (p q : DocPath) (g : Generator) :
    genAt (addGen gs c p g) d q = if d = c ∧ q.expr = p.expr then some g else genAt gs d q := by
  induction gs with
  | nil =>
    rw [addGen]
    by_cases hd : d = c
    · subst hd
      simp only [genAt, List.find?_cons, decide_true, true_and, List.find?_nil]
      have := RuleProps.lookup_upsert ([] : List (DocPath × Generator)) p g (fun _ => g) q
      simp only [upsert] at this
      rw [this]
      rfl
    · have hc : ¬ c = d := fun e => hd e.symm
      simp [genAt, hd, hc]
  | cons e es ih =>
    obtain ⟨f, m⟩ := e
    rw [addGen]
    by_cases hf : f = c
    · subst hf
      rw [if_pos rfl]
      by_cases hd : d = f
      · subst hd
        simp only [genAt, List.find?_cons, decide_true, true_and]
        rw [insertGen, RuleProps.lookup_upsert]
      · have hc : ¬ f = d := fun e => hd e.symm
        simp [genAt, hd, hc]
    · rw [if_neg hf]
      by_cases hd : d = f
      · subst hd
        simp [genAt, hf]
      · have hc : ¬ f = d := fun e => hd e.symm
        simp only [genAt, List.find?_cons, decide_eq_false hc]
        exact ih

theorem genAt_addGens (l : List (List PathToken × Generator)) (ts : List PathToken) (gs : Generators) (c : GenCategory)
    (q : List PathToken) : genAt (addGens c ts l gs) c (fromTokens (ts ++ q)) =
      (lastAt l q).or (genAt gs c (fromTokens (ts ++ q))) := by
  induction l generalizing gs with
  | nil => simp [addGens, lastAt]
  | cons x l ih =>
    have e : addGens c ts (x :: l) gs = addGens c ts l (addGen gs c (fromTokens (ts ++ x.1)) x.2) := rfl
    rw [e, ih, genAt_addGen, lastAt]
    cases lastAt l q with
    | some y => rfl
    | none =>
      simp only [Option.none_or, true_and]
      by_cases hx : x.1 = q
      · rw [hx, if_pos rfl, if_pos rfl]; rfl
      · have : ¬ (fromTokens (ts ++ q)).expr = (fromTokens (ts ++ x.1)).expr := by
          intro e
          exact hx (List.append_cancel_left (fromTokens_inj e)).symm
        rw [if_neg this, if_neg hx]; rfl

theorem genAt_addGens_other (l : List (List PathToken × Generator)) (ts : List PathToken) (gs : Generators)
    (c d : GenCategory) (p : DocPath) (h : d ≠ c ∨ ∀ x ∈ l, p.expr ≠ (fromTokens (ts ++ x.1)).expr) :
    genAt (addGens c ts l gs) d p = genAt gs d p := by
  induction l generalizing gs with
  | nil => rfl
  | cons x l ih =>
    have e : addGens c ts (x :: l) gs = addGens c ts l (addGen gs c (fromTokens (ts ++ x.1)) x.2) := rfl
    rw [e, ih _ (h.imp id fun h y hy => h y (List.mem_cons_of_mem _ hy)), genAt_addGen, if_neg]
    rintro ⟨h1, h2⟩
    rcases h with h | h
    · exact h h1
    · exact h x List.mem_cons_self h2

theorem lastAt_some {g : List (List PathToken × Generator)} {q : List PathToken} {x : Generator} (h : (q, x) ∈ g) :
    ∃ y, lastAt g q = some y := by
  induction g with
  | nil => cases h
  | cons e g ih =>
    rw [lastAt]
    rcases List.mem_cons.1 h with rfl | h
    · cases lastAt g q with
      | some y => exact ⟨y, rfl⟩
      | none => exact ⟨x, by simp⟩
    · obtain ⟨y, hy⟩ := ih h
      rw [hy]
      exact ⟨y, rfl⟩

/-- The generators for the rules of a category. -/
def GensFor (c : Category) (d : GenCategory) : Prop :=
  (c, d) ∈ [(Category.body, GenCategory.body), (.header, .header), (.path, .path), (.query, .query),
    (.metadata, .metadata), (.status, .status)]

theorem sort_category {c : Category} {d : GenCategory} (h : GensFor c d) : generatorCategory c = d := by
  unfold GensFor at h
  simp only [List.mem_cons, Prod.mk.injEq, List.mem_nil_iff, or_false] at h
  rcases h with ⟨rfl, rfl⟩ | ⟨rfl, rfl⟩ | ⟨rfl, rfl⟩ | ⟨rfl, rfl⟩ | ⟨rfl, rfl⟩ | ⟨rfl, rfl⟩ <;> rfl

/-- At the path of a matcher with a generator there is a generator afterwards: that of one of the matchers of the document
at this path.  All other generators stay. -/
theorem C85_generators {S : Setup} {j x : Json} {a a' : Acc} (h : processJson S j a = .ok (x, a')) {c : GenCategory}
    (hc : GensFor a.cat.name c) :
    (∀ q m g, Found S plain j q m → GenOf S m g →
      ∃ m' g', genAt a'.gens c (fromTokens (.root :: q)) = some g' ∧ Found S plain j q m' ∧ Effective S m' g') ∧
    (∀ d p, (d ≠ c ∨ ∀ q m g, p.expr = (fromTokens (.root :: q)).expr → Found S plain j q m → ¬ GenOf S m g) →
      genAt a'.gens d p = genAt a.gens d p) := by
  obtain ⟨l, g, ho, rfl⟩ := ok_after h
  have e : (after [.root] l g a).gens = addGens c [.root] g a.gens := by rw [← sort_category hc]; rfl
  rw [e]
  constructor
  · intro q m y hf hg
    obtain ⟨z, hz⟩ := lastAt_some ((ho.gens q y).2 ⟨m, hf, hg⟩)
    obtain ⟨m', h1, h2⟩ := ho.last q z hz
    refine ⟨m', z, ?_, h1, h2⟩
    have := genAt_addGens g [.root] a.gens c q
    rw [hz] at this
    exact this
  · intro d p hd
    apply genAt_addGens_other
    rcases hd with hd | hd
    · exact .inl hd
    · refine .inr ?_
      rintro ⟨q, y⟩ hm he
      obtain ⟨m, h1, h2⟩ := (ho.gens q y).1 hm
      exact hd q m y he h1 h2

theorem addRulesAt_gens (p : DocPath) (rs : List MatchingRule) (a : Acc) : (addRulesAt p rs a).gens = a.gens := rfl
theorem addRulesAt_name (p : DocPath) (rs : List MatchingRule) (a : Acc) :
    (addRulesAt p rs a).cat.name = a.cat.name := by
  simp only [addRulesAt]
  generalize a.cat = c
  induction rs generalizing c with
  | nil => rfl
  | cons r rs ih => exact (ih _).trans rfl

/-- The generator of a matcher prevails over those in its value. -/
theorem C85_outermost {S : Setup} {m : Obj} {x : Json} {a a' : Acc} (h : processJson S (.obj m) a = .ok (x, a'))
    {c : GenCategory} (hc : GensFor a.cat.name c) (hm : IsMatcher m) {g : Generator} (hg : Effective S m g) :
    genAt a'.gens c rootPath = some g := by
  obtain ⟨t, ht⟩ := Option.isSome_iff_exists.1 hm
  rw [processJson, process] at h
  simp only [ht] at h
  have hset : ∀ (b : Acc) (y : Generator), generatorCategory b.cat.name = c →
      genAt (addGenAt rootPath (some y) b).gens c rootPath = some y := by
    intro b y hb
    simp only [addGenAt, hb]
    rw [genAt_addGen, if_pos ⟨rfl, rfl⟩]
  have hown : ∀ y, ownGenerator m = some y → Effective S m g → y = g := by
    intro y hy he
    cases he with
    | own t' g' h1 h2 =>
      have := (ownGen_iff m g).2 ⟨t', h1, h2⟩
      rw [hy] at this
      exact Option.some.inj this
    | defined rs g' _ _ h3 =>
      obtain ⟨t', h1, h2⟩ := (ownGen_iff m y).1 hy
      rw [h3 t' h1] at h2
      cases h2
  cases hac : isArrayContains t with
  | true =>
    have hcm := (isContains_iff ht).1 hac
    rw [hac, if_pos rfl, Res.map_eq_ok] at h
    obtain ⟨vs, _, hv⟩ := h
    have hown' : ownGenerator m = some g := by
      cases hg with
      | own t' g' h1 h2 => exact (ownGen_iff m g).2 ⟨t', h1, h2⟩
      | defined rs g' hn => exact absurd hcm hn
    cases vs with
    | none => cases hv; rw [hown']; exact hset a g (sort_category hc)
    | some vs => cases hv; rw [hown', addRulesAt_gens]; exact hset a g (sort_category hc)
  | false =>
    have hcm : ¬ IsContains m := by
      rw [← isContains_iff ht, hac]; exact Bool.false_ne_true
    rw [hac] at h
    simp only [Bool.false_eq_true, if_false] at h
    cases hmf : matchersFrom S m with
    | panic => rw [hmf] at h; cases h
    | err =>
      rw [hmf] at h
      cases h
      have hown' : ownGenerator m = some g := by
        cases hg with
        | own t' g' h1 h2 => exact (ownGen_iff m g).2 ⟨t', h1, h2⟩
        | defined rs g' hn hmean =>
          rw [← matchersFrom_iff S m hm, hmf] at hmean
          cases hmean
      rw [hown']
      exact hset a g (sort_category hc)
    | ok pr =>
      obtain ⟨rs, dg⟩ := pr
      rw [hmf] at h
      simp only [finish, Res.map_eq_ok] at h
      obtain ⟨v, hv, he⟩ := h
      cases he
      rw [addRulesAt_gens]
      have hname : generatorCategory v.2.cat.name = c := by
        rw [valueIn_get] at hv
        have : v.2.cat.name = a.cat.name := by
          cases hval : RuleJson.get "value" m with
          | none => rw [hval] at hv; cases hv; rfl
          | some w =>
            rw [hval] at hv
            simp only at hv
            rw [rootPath_tokens] at hv
            have hrun : run S [.root] ⟨valuesMatcher (.ok (rs, dg)), true, false⟩ w a = .ok v := hv
            rcases good S w ⟨valuesMatcher (.ok (rs, dg)), true, false⟩ with ⟨_, hp⟩ | ⟨_, l, gl, _, _, hr⟩
            · rw [hp] at hrun; cases hrun
            · rw [hr] at hrun; cases hrun; exact addAll_name _ _ _
        rw [this]
        exact sort_category hc
      cases ho : ownGenerator m with
      | some y =>
        rw [hown y ho hg]
        apply hset
        cases dg with
        | none => exact hname
        | some z => exact hname
      | none =>
        cases hg with
        | own t' g' h1 h2 =>
          have := (ownGen_iff m g).2 ⟨t', h1, h2⟩
          rw [ho] at this
          cases this
        | defined rs' g' _ hmean _ =>
          rw [← matchersFrom_iff S m hm, hmf] at hmean
          cases hmean
          exact hset _ g hname

/-! ## Concrete cases -/

/-- The setup used below. -/
def S0 : Setup := ⟨DefExprProps.L0, RuleJsonProps.exP⟩

/-- An empty body category. -/
def a0 : Acc := ⟨emptyCat .body, []⟩

/-- A string. -/
def js (x : String) : Json := .str x.toList

/-- Two examples of IntegrationJson.md in one document. -/
def exDoc : Json := obj [("id", obj [("value", .num (.pos 1)), ("pact:matcher:type", js "type")]),
  ("created", obj [("value", js "maybe"), ("pact:matcher:type", js "regex"), ("regex", js "(yes|no|maybe)")]),
  ("interests", obj [("pact:matcher:type", js "type"), ("value", .arr [obj [("pact:matcher:type", js "integer"),
    ("pact:generator:type", js "RandomInt"), ("min", .num (.pos 1)), ("max", .num (.pos 5)), ("value", .num (.pos 3))]])])]

/-- The example of the document. -/
def exOut : Json := obj [("id", .num (.pos 1)), ("created", js "maybe"), ("interests", .arr [.num (.pos 3)])]

/-- The rules and generators of the document. -/
def exAcc : Acc :=
  ⟨⟨.body, [(fromTokens [.root, .field "created".toList], ⟨[.regex "(yes|no|maybe)".toList], .and, false⟩),
    (fromTokens [.root, .field "id".toList], ⟨[.type], .and, false⟩),
    (fromTokens [.root, .field "interests".toList, .starIndex], ⟨[.integer], .and, false⟩),
    (fromTokens [.root, .field "interests".toList], ⟨[.type], .and, false⟩)]⟩,
   [(.body, [(fromTokens [.root, .field "interests".toList, .starIndex], .randomInt 1 5)])]⟩

theorem ex_process : processJson S0 exDoc a0 = .ok (exOut, exAcc) := by rfl

/-- The hypotheses of C84 and C85 are met by a document with matchers in fields and in lists. -/
theorem C84_witness : Example S0 exDoc exOut ∧ (∀ q m, Found S0 plain exDoc q m → ¬ Broken S0 m) ∧ Clean exOut ∧
    ¬ Clean exDoc := by
  have h := (C84_example S0 exDoc exOut a0).1 ⟨_, ex_process⟩
  refine ⟨h.1, h.2, C84_clean h.1, fun hc => ?_⟩
  have h1 := C84_unchanged S0 hc a0
  rw [ex_process] at h1
  have h2 : exOut = exDoc := (Prod.mk.inj (Res.ok.inj h1)).1
  have h3 : vget "id" exOut = vget "id" exDoc := by rw [h2]
  have h4 : vget "id" exOut = some (.num (.pos 1)) := rfl
  have h5 : vget "id" exDoc = some (obj [("value", .num (.pos 1)), ("pact:matcher:type", js "type")]) := rfl
  rw [h4, h5] at h3
  cases h3

/-- The matcher in the list. -/
def exItem : Obj := match obj [("pact:matcher:type", js "integer"), ("pact:generator:type", js "RandomInt"),
  ("min", .num (.pos 1)), ("max", .num (.pos 5)), ("value", .num (.pos 3))] with | .obj m => m | _ => []

theorem C85_witness : GensFor a0.cat.name .body ∧
    Found S0 plain exDoc [.field "interests".toList, .starIndex] exItem ∧ RulesOf S0 exItem [.integer] ∧
    GenOf S0 exItem (.randomInt 1 5) ∧ Effective S0 exItem (.randomInt 1 5) := by
  have hm : IsMatcher exItem := rfl
  have hnc : ¬ IsContains exItem := by
    rintro (h | h)
    · have h1 : RuleJson.get "pact:matcher:type" exItem = some (js "integer") := rfl
      rw [h1] at h
      simp only [js, Option.some.injEq, Json.str.injEq] at h
      exact absurd h (by decide)
    · have h1 : RuleJson.get "pact:matcher:type" exItem = some (js "integer") := rfl
      rw [h1] at h
      simp only [js, Option.some.injEq, Json.str.injEq] at h
      exact absurd h (by decide)
  refine ⟨by simp [GensFor, a0, emptyCat], ?_, .plain _ none hnc ((matchersFrom_iff S0 exItem hm _ _).1 rfl),
    .own (js "RandomInt") _ rfl rfl, .own (js "RandomInt") _ rfl rfl⟩
  obtain ⟨o, ho⟩ : ∃ o, exDoc = .obj o := ⟨_, rfl⟩
  have hno : ¬ IsMatcher o := by
    cases ho
    exact fun h => by cases h
  rw [ho]
  have hk : keySeg plain "interests".toList = .field "interests".toList := by decide
  rw [← hk]
  obtain ⟨w, hw⟩ : ∃ w, obj [("pact:matcher:type", js "type"), ("value", .arr [.obj exItem])] = .obj w := ⟨_, rfl⟩
  refine .field plain o "interests".toList (.obj w) [.starIndex] exItem hno ?_ (by decide) ?_
  · cases ho
    cases hw
    exact .tail _ (.tail _ (.head _))
  · have hmw : IsMatcher w := by cases hw; rfl
    have hcw : ¬ IsContains w := by
      have h1 : RuleJson.get "pact:matcher:type" w = some (js "type") := by cases hw; rfl
      rintro (h | h) <;>
      · rw [h1] at h
        simp only [js, Option.some.injEq, Json.str.injEq] at h
        exact absurd h (by decide)
    have hmean : Means S0 w [.type] none := (matchersFrom_iff S0 w hmw _ _).1 (by cases hw; rfl)
    have hv : RuleJson.get "value" w = some (.arr [.obj exItem]) := by cases hw; rfl
    refine .value plain w [.type] none (.arr [.obj exItem]) [.starIndex] exItem hcw hmean hv ?_
    exact .item _ [.obj exItem] 0 (.obj exItem) [] exItem rfl (.here _ exItem hm)

/-! ### Findings -/

/-- The example of IntegrationJson.md with several matchers: the documented form gives the rules, but the example is
null, because there is no `value` attribute. -/
theorem C84_documented_many : ∃ a', processJson S0 (obj [("results", obj [("pact:matcher:type", .arr [
      obj [("pact:matcher:type", js "each-key"), ("value", js "AUK-155332"), ("rules", .arr [obj [
        ("pact:matcher:type", js "regex"), ("regex", js "\\w{3}-\\d+")]])],
      obj [("pact:matcher:type", js "each-value"), ("rules", .arr [obj [("pact:matcher:type", js "type")]])]]),
    ("AUK-155332", obj [("title", js "...")])])]) a0 = .ok (obj [("results", .null)], a') := ⟨_, rfl⟩

/-- The documented definition without `value`: the rule is there, the example of the definition is not. -/
theorem C84_documented_definition : ∃ a', processJson S0 (obj [("relatesTo", obj [
    ("pact:matcher:type", js "eachValue(matching(regex, '\\w{3}-\\d+', 'BAF-88654'))")])]) a0 =
    .ok (obj [("relatesTo", .null)], a') ∧ a'.cat.rules ≠ [] := ⟨_, rfl, fun e => by cases e⟩

/-- The documented combination of definitions is not recognised: there are no rules at all and no error. -/
theorem C84_documented_combination : processJson S0 (obj [("relatesTo", obj [
    ("pact:matcher:type", js "atLeast(1), atMost(10), eachValue(matching(regex, '\\w{3}-\\d+', 'BAF-88654'))")])]) a0 =
    .ok (obj [("relatesTo", .null)], a0) := rfl

/-- A matcher whose type is unknown is null and has no rules, but its generator stays. -/
theorem C84_unknown_matcher : ∃ a', processJson S0 (obj [("a", obj [("pact:matcher:type", js "nope"), ("value", js "x"),
    ("pact:generator:type", js "Uuid")])]) a0 = .ok (obj [("a", .null)], a') ∧ a'.cat.rules = [] ∧
    genAt a'.gens .body (fromTokens [.root, .field "a".toList]) ≠ none := ⟨_, rfl, rfl, fun e => by cases e⟩

/-- A path with an index too large for the machine in the rules of a matcher aborts the program. -/
theorem C84_abort_witness : processJson S0 (obj [("pact:matcher:type", .arr [obj [("pact:matcher:type", js "arrayContains"),
    ("variants", .arr [obj [("index", .num (.pos 0)), ("rules", obj [("$[99999999999999999999]",
      obj [("matchers", .arr [obj [("match", js "type")]])])])]])]])]) a0 = .panic := by rfl

/-- Keys that are numbers or `*` are not told apart from indices and wildcards: the rules of the key `*` apply to every
key, and those of the key `0` to no key. -/
theorem C85_special_keys : ∃ x a', processJson S0 (obj [
    ("0", obj [("pact:matcher:type", js "type"), ("value", js "x")]),
    ("*", obj [("pact:matcher:type", js "integer"), ("value", .num (.pos 1))])]) a0 = .ok (x, a') ∧
    rulesUnder a'.cat (fromTokens [.root, .star]) = [.integer] ∧
    rulesUnder a'.cat (fromTokens [.root, .index 0]) = [.type] := ⟨_, _, rfl, rfl, rfl⟩

/-- The wildcard of a matcher on values leaks through a matcher nested in it into the items of a list. -/
theorem C85_leak : ∃ x a', processJson S0 (obj [("pact:matcher:type", js "values"), ("value", obj [
    ("pact:matcher:type", js "type"), ("value", .arr [obj [("a", obj [("pact:matcher:type", js "integer"),
      ("value", .num (.pos 1))])]])])]) a0 = .ok (x, a') ∧
    rulesUnder a'.cat (fromTokens [.root, .starIndex, .star]) = [.integer] ∧
    rulesUnder a'.cat (fromTokens [.root, .starIndex, .field "a".toList]) = [] := ⟨_, _, rfl, rfl, rfl⟩




end IntegrationProps
end Verif
