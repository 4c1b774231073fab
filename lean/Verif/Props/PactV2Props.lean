import Verif.Props.PactV3Props
import Verif.Props.PathGrammarProps
import Verif.Props.PathProps

/-
  C79: what the V1 and V2 forms of a pact file keep.
-/

set_option autoImplicit false

namespace Verif
namespace PactV2Props
open PactV3 PactFile PactFileProps PactV3Props Rules RuleJson RuleJsonProps Generate Query Headers PathGrammarProps

/-! ## Matching rules -/

/-! ### Specification -/

/-- A name that is a path expression by itself: it starts with a letter or a digit and goes on with letters, digits and
`_ - : # @`. -/
def BareName (uc : UC) (k : Str) : Prop :=
  ∃ c n, k = c :: n ∧ (uc.alphabetic c = true ∨ uc.numeric c = true) ∧ ∀ x ∈ n, NameChar uc x

/-- The path of a rule as it was added and as it is read from a V2 file: rules for the path have no path of their own,
those for the body keep it if it starts with the one and only `$`, those for headers and query parameters get the bare
name. -/
def V2Path (uc : UC) : Category → DocPath → DocPath → Prop
  | .path, p, q => p = Path.empty ∧ q = Path.empty
  | .body, p, q => q = p ∧ Path.new uc p.expr = .ok p ∧ ∃ s, p.expr = '$' :: s ∧ '$' ∉ s
  | .header, p, q => ∃ k, BareName uc k ∧ p = Path.pushField Path.rootPath k ∧ q = ⟨[.root, .field k], k⟩
  | .query, p, q => ∃ k, BareName uc k ∧ p = Path.pushField Path.rootPath k ∧ q = ⟨[.root, .field k], k⟩
  | _, _, _ => False

/-- There is a list of rules for the path in the category. -/
def Entry (m : MatchingRules) (c : Category) (p : DocPath) (l : RuleList) : Prop :=
  ∃ t, (c, t) ∈ m ∧ (p, l) ∈ t.rules

/-- A table as `MatchingRules` has it: each category once, under its name, each path once. -/
structure TableShape (m : MatchingRules) : Prop where
  once : (m.map (·.1)).Nodup
  name : ∀ e ∈ m, e.1 = e.2.name
  keys : ∀ e ∈ m, KeysNodup e.2.rules

/-- The rules that a V2 file can hold. -/
structure RulesV2 (uc : UC) (m : MatchingRules) : Prop where
  shape : TableShape m
  entries : ∀ c p l, Entry m c p l → (∃ q, V2Path uc c p q) ∧ ∃ r rs, l.rules = r :: rs ∧ Writable uc r

/-- What a V2 file keeps of the rules: for each path the first rule. -/
structure SameRulesV2 (uc : UC) (m m' : MatchingRules) : Prop where
  shape : TableShape m'
  entries : ∀ c q l', Entry m' c q l' ↔
    ∃ p l r rs, Entry m c p l ∧ V2Path uc c p q ∧ l.rules = r :: rs ∧ l' = ⟨[kept r], .and, false⟩

/-! ### Lemmas -/

theorem bare_parse (uc : UC) (k : Str) (h : BareName uc k) : Path.new uc k = .ok ⟨[.root, .field k], k⟩ := by
  obtain ⟨c, n, rfl, h1, h2⟩ := h
  refine (C52_grammar uc _ _).2 ⟨?_, rfl⟩
  have := Expression.bare (uc := uc) c n h1 h2 .nil
  simpa using this

theorem bare_plain (uc : UC) (k : Str) (h : BareName uc k) : PathProps.PlainKey k := by
  obtain ⟨c, n, rfl, h1, h2⟩ := h
  have hall : ∀ x ∈ c :: n, Path.isIdentifierChar uc x = true := by
    intro x hx
    rw [nameChar_iff]
    rcases List.mem_cons.1 hx with rfl | hx
    · rcases h1 with h1 | h1
      · exact Or.inl h1
      · exact Or.inr (Or.inl h1)
    · exact h2 x hx
  refine ⟨List.cons_ne_nil _ _, fun hq => ?_, fun hq => ?_⟩
  · have := hall _ hq
    rw [Path.not_idchar_quote] at this; cases this
  · have := hall _ hq
    unfold Path.isIdentifierChar at this
    rw [uc.alphabetic_ascii '\\' (by decide), uc.numeric_ascii '\\' (by decide)] at this
    revert this; decide

/-- The key of a header or query rule is parsed as the name of the category and of the header. -/
theorem named_key (uc : UC) (w : Str) (hw : Path.isIdent w = true) (k : Str) (h : PathProps.PlainKey k) :
    ∃ s, (Path.pushPath (Path.pushField Path.rootPath w) (Path.pushField Path.rootPath k)).expr
      = '$' :: '.' :: w ++ s ∧ Path.new uc ('$' :: '.' :: w ++ s) = .ok ⟨[.root, .field w, .field k], '$' :: '.' :: w ++ s⟩ := by
  have hk : Path.objKey w = '.' :: w := by unfold Path.objKey; rw [if_pos hw]
  have hb : Path.buildExpr [.root, .field w, .field k] = '$' :: '.' :: w ++ Path.objKey k := by
    simp [Path.buildExpr, Path.tokenExpr, hk]
  refine ⟨Path.objKey k, ?_, ?_⟩
  · show ['$'] ++ Path.objKey w ++ Path.objKey k = _
    rw [hk]; simp
  · unfold Path.new
    rw [← hb, PathProps.C01_roundtrip_partial uc [.field w, .field k]]
    · rfl
    · intro t ht
      simp only [List.mem_cons, List.not_mem_nil, or_false] at ht
      rcases ht with rfl | rfl <;> trivial
    · intro x hx
      simp only [List.mem_cons, PathToken.field.injEq, List.not_mem_nil, or_false] at hx
      rcases hx with rfl | rfl
      · exact ⟨(by rintro rfl; cases hw), Path.isIdent_no_quote hw, Path.isIdent_no_backslash hw⟩
      · exact h

theorem header_key (P : Params) (k : Str) (h : PathProps.PlainKey k) :
    v2Key P (v2KeyText .header (Path.pushField Path.rootPath k)) = (Path.new P.uc k).map fun q => (.header, q) := by
  obtain ⟨s, h1, h2⟩ := named_key P.uc "headers".toList (by decide) k h
  show v2Key P (Path.pushPath (Path.pushField Path.rootPath "headers".toList) (Path.pushField Path.rootPath k)).expr = _
  rw [h1]
  unfold v2Key
  rw [if_neg (by simp [List.isPrefixOf]), if_pos (by simp [List.isPrefixOf]), h2]
  rfl

theorem query_key (P : Params) (k : Str) (h : PathProps.PlainKey k) :
    v2Key P (v2KeyText .query (Path.pushField Path.rootPath k)) = (Path.new P.uc k).map fun q => (.query, q) := by
  obtain ⟨s, h1, h2⟩ := named_key P.uc "query".toList (by decide) k h
  show v2Key P (Path.pushPath (Path.pushField Path.rootPath "query".toList) (Path.pushField Path.rootPath k)).expr = _
  rw [h1]
  unfold v2Key
  rw [if_neg (by simp [List.isPrefixOf]), if_neg (by simp [List.isPrefixOf]), h2]
  show (Path.new P.uc k).map (fun q => (catParse P.uc "query".toList, q)) = _
  rw [show catParse P.uc "query".toList = .query from catParse_name P.uc .query]

theorem path_key (P : Params) (p : DocPath) : v2Key P (v2KeyText .path p) = .ok (.path, Path.empty) := by
  show v2Key P "$.path".toList = _
  have h : Path.new P.uc "$.path".toList = .ok ⟨[.root, .field "path".toList], "$.path".toList⟩ := by
    unfold Path.new
    have := PathProps.C01_roundtrip_partial P.uc [.field "path".toList] (by decide) (by
      intro k hk
      rw [PathToken.field.inj (List.mem_singleton.1 hk)]
      exact ⟨by decide, by decide, by decide⟩)
    rw [show Path.buildExpr [.root, .field "path".toList] = "$.path".toList by decide] at this
    rw [this]; rfl
  unfold v2Key
  rw [if_neg (by decide), if_neg (by decide), h]
  show Res.ok (catParse P.uc "path".toList, Path.empty) = _
  rw [show catParse P.uc "path".toList = .path from catParse_name P.uc .path]

theorem replace_none (s : Str) (h : '$' ∉ s) :
    (s.flatMap fun ch => if ch = '$' then "$.body".toList else [ch]) = s := by
  induction s with
  | nil => rfl
  | cons c cs ih =>
    rw [List.flatMap_cons, if_neg (fun e => h (by rw [e]; exact List.mem_cons_self)), ih (fun h' => h (List.mem_cons_of_mem _ h'))]
    rfl

theorem body_key (P : Params) (p : DocPath) (hp : Path.new P.uc p.expr = .ok p) (s : Str) (hs : p.expr = '$' :: s)
    (hd : '$' ∉ s) : v2Key P (v2KeyText .body p) = .ok (.body, p) := by
  have hk : v2KeyText .body p = "$.body".toList ++ s := by
    show p.expr.flatMap _ = _
    rw [hs, List.flatMap_cons, if_pos rfl, replace_none s hd]
  rw [hk]
  unfold v2Key
  rw [if_pos (by simp [List.isPrefixOf])]
  by_cases he : s = []
  · subst he
    rw [if_pos (by simp)]
    rw [hs] at hp
    have : Path.new P.uc ['$'] = .ok Path.rootPath := rfl
    rw [this] at hp
    rw [Res.ok.inj hp]
  · rw [if_neg (by
      intro h
      exact he (List.append_right_eq_self.1 h))]
    show (Path.new P.uc ('$' :: s)).map _ = _
    rw [← hs, hp]; rfl

theorem v2path_key (P : Params) (c : Category) (p q : DocPath) (h : V2Path P.uc c p q) :
    v2Key P (v2KeyText c p) = .ok (c, q) := by
  cases c with
  | path => rw [path_key, h.2]
  | body =>
    obtain ⟨rfl, h1, s, h2, h3⟩ := h
    exact body_key P q h1 s h2 h3
  | header =>
    obtain ⟨k, h1, rfl, rfl⟩ := h
    rw [header_key P k (bare_plain P.uc k h1), bare_parse P.uc k h1]; rfl
  | query =>
    obtain ⟨k, h1, rfl, rfl⟩ := h
    rw [query_key P k (bare_plain P.uc k h1), bare_parse P.uc k h1]; rfl
  | _ => exact h.elim

theorem v2path_dollar (uc : UC) (c : Category) (p q : DocPath) (h : V2Path uc c p q) :
    (v2KeyText c p).head? = some '$' := by
  have hn : ∀ (w k : Str), (Path.pushPath (Path.pushField Path.rootPath w) (Path.pushField Path.rootPath k)).expr.head?
      = some '$' := by
    intro w k
    show (['$'] ++ Path.objKey w ++ Path.objKey k).head? = _
    rfl
  cases c with
  | path => rfl
  | body =>
    obtain ⟨rfl, h1, s, h2, h3⟩ := h
    show (q.expr.flatMap _).head? = _
    rw [h2]; rfl
  | header => obtain ⟨k, h1, rfl, rfl⟩ := h; exact hn _ _
  | query => obtain ⟨k, h1, rfl, rfl⟩ := h; exact hn _ _
  | _ => exact h.elim

theorem v2path_inj (uc : UC) (c : Category) (p p' q q' : DocPath) (h : V2Path uc c p q) (h' : V2Path uc c p' q')
    (he : q.expr = q'.expr) : p.expr = p'.expr := by
  cases c with
  | path => rw [h.1, h'.1]
  | body => rw [← h.1, ← h'.1]; exact he
  | header => obtain ⟨k, _, rfl, rfl⟩ := h; obtain ⟨k', _, rfl, rfl⟩ := h'; cases he; rfl
  | query => obtain ⟨k, _, rfl, rfl⟩ := h; obtain ⟨k', _, rfl, rfl⟩ := h'; cases he; rfl
  | _ => exact h.elim

theorem v2path_det (uc : UC) (c : Category) (p q q' : DocPath) (h : V2Path uc c p q) (h' : V2Path uc c p q') : q = q' := by
  have h1 := v2path_key ⟨uc, fun _ => 0, fun _ => 0⟩ c p q h
  rw [v2path_key ⟨uc, fun _ => 0, fun _ => 0⟩ c p q' h'] at h1
  exact (congrArg Prod.snd (Res.ok.inj h1)).symm

/-! ### Adding rules -/

theorem entry_rules (m : MatchingRules) (hm : TableShape m) (c : Category) :
    ∀ e, e ∈ ((rulesForCategory m c).getD (emptyCat c)).rules ↔ Entry m c e.1 e.2 := by
  intro e
  constructor
  · intro he
    unfold rulesForCategory at he
    cases hf : m.find? (fun e => decide (e.1 = c)) with
    | none => rw [hf] at he; cases he
    | some x =>
      rw [hf] at he
      have h1 := List.find?_some hf
      have h2 := List.mem_of_find?_eq_some hf
      obtain ⟨c', t⟩ := x
      cases of_decide_eq_true h1
      exact ⟨t, h2, he⟩
  · rintro ⟨t, h1, h2⟩
    rw [rulesForCategory_mem m hm.once c t h1]
    exact h2

/-- One rule is added for a new path. -/
theorem add_one (P : Params) (m : MatchingRules) (hm : TableShape m) (c : Category) (p : DocPath) (v : Json)
    (r : MatchingRule) (hv : fromJson P v = .ok r) (hf : ∀ q l, Entry m c q l → q.expr ≠ p.expr) :
    ∃ m', addV2Rule P m c p v = .ok m' ∧ TableShape m' ∧
      ∀ c' q l, Entry m' c' q l ↔ Entry m c' q l ∨ (c' = c ∧ q = p ∧ l = ⟨[r], .and, false⟩) := by
  unfold addV2Rule
  rw [hv, Res.bind_ok]
  have her := entry_rules m hm c
  have hname : ((rulesForCategory m c).getD (emptyCat c)).name = c := by
    unfold rulesForCategory
    cases hx : m.find? (fun e => decide (e.1 = c)) with
    | none => rfl
    | some x =>
      have h0 := List.find?_some hx
      have h1 := of_decide_eq_true h0
      have h2 := hm.name x (List.mem_of_find?_eq_some hx)
      show x.2.name = c
      rw [← h2, h1]
  have hkeys : KeysNodup ((rulesForCategory m c).getD (emptyCat c)).rules := by
    unfold rulesForCategory
    cases hx : m.find? (fun e => decide (e.1 = c)) with
    | none => exact List.nodup_nil
    | some x => exact hm.keys x (List.mem_of_find?_eq_some hx)
  generalize (rulesForCategory m c).getD (emptyCat c) = t at her hname hkeys
  have hfresh : p.expr ∉ t.rules.map (fun e => e.1.expr) := by
    intro h
    obtain ⟨e, he, h2⟩ := List.mem_map.1 h
    exact hf e.1 e.2 ((her e).1 he) h2
  have hadd : addRule t p r .and = ⟨c, t.rules ++ [(p, ⟨[r], .and, false⟩)]⟩ := by
    unfold addRule
    rw [upsert_fresh _ _ _ _ hfresh, ← hname]
    rfl
  rw [hadd]
  refine ⟨_, rfl, ⟨?_, ?_, ?_⟩, ?_⟩
  · rw [List.map_append, List.nodup_append]
    refine ⟨(hm.once).sublist (List.filter_sublist.map _), by simp, ?_⟩
    intro a ha b hb
    obtain ⟨e, he, rfl⟩ := List.mem_map.1 ha
    have := (List.mem_filter.1 he).2
    rw [List.mem_singleton.1 hb]
    simpa using this
  · intro e he
    rcases List.mem_append.1 he with he | he
    · exact hm.name e (List.mem_filter.1 he).1
    · rw [List.mem_singleton.1 he]
  · intro e he
    rcases List.mem_append.1 he with he | he
    · exact hm.keys e (List.mem_filter.1 he).1
    · rw [List.mem_singleton.1 he]
      show (List.map _ (t.rules ++ [_])).Nodup
      rw [List.map_append, List.nodup_append]
      refine ⟨hkeys, by simp, ?_⟩
      intro a ha b hb
      rw [List.mem_singleton.1 hb]
      rintro rfl
      exact hfresh ha
  · intro c' q l
    constructor
    · rintro ⟨t', h1, h2⟩
      rcases List.mem_append.1 h1 with h1 | h1
      · exact Or.inl ⟨t', (List.mem_filter.1 h1).1, h2⟩
      · cases List.mem_singleton.1 h1
        rcases List.mem_append.1 h2 with h2 | h2
        · exact Or.inl ((her (q, l)).1 h2)
        · cases List.mem_singleton.1 h2
          exact Or.inr ⟨rfl, rfl, rfl⟩
    · rintro (h | ⟨rfl, rfl, rfl⟩)
      · by_cases hc : c' = c
        · subst hc
          exact ⟨_, List.mem_append_right _ List.mem_cons_self, List.mem_append_left _ ((her (q, l)).2 h)⟩
        · obtain ⟨t', h1, h2⟩ := h
          exact ⟨t', List.mem_append_left _ (List.mem_filter.2 ⟨h1, by simpa using hc⟩), h2⟩
      · exact ⟨_, List.mem_append_right _ List.mem_cons_self, List.mem_append_right _ List.mem_cons_self⟩

/-- Reading a list of rules for different paths. -/
theorem load_all {X : Type} (P : Params) (key : X → Str) (val : X → Json) (cat : X → Category) (path : X → DocPath)
    (rule : X → MatchingRule) : ∀ (es : List X) (m : MatchingRules), TableShape m →
    (∀ x ∈ es, v2Key P (key x) = .ok (cat x, path x)) → (∀ x ∈ es, fromJson P (val x) = .ok (rule x)) →
    (∀ x ∈ es, ∀ q l, Entry m (cat x) q l → q.expr ≠ (path x).expr) →
    (es.map fun x => (cat x, (path x).expr)).Nodup →
    ∃ m', loadV2 P m (es.map fun x => (key x, val x)) = .ok m' ∧ TableShape m' ∧
      ∀ c q l, Entry m' c q l ↔ Entry m c q l ∨ ∃ x ∈ es, cat x = c ∧ path x = q ∧ l = ⟨[rule x], .and, false⟩
  | [], m, hm, _, _, _, _ => ⟨m, rfl, hm, fun c q l => ⟨Or.inl, fun h => h.elim id (fun ⟨_, h, _⟩ => by cases h)⟩⟩
  | x :: xs, m, hm, h1, h2, h3, h4 => by
    obtain ⟨m1, a1, a2, a3⟩ := add_one P m hm (cat x) (path x) (val x) (rule x) (h2 x List.mem_cons_self)
      (h3 x List.mem_cons_self)
    have hd := List.nodup_cons.1 h4
    obtain ⟨m', b1, b2, b3⟩ := load_all P key val cat path rule xs m1 a2 (fun y hy => h1 y (List.mem_cons_of_mem _ hy))
      (fun y hy => h2 y (List.mem_cons_of_mem _ hy)) (by
        intro y hy q l he
        rcases (a3 _ q l).1 he with he | ⟨e1, rfl, _⟩
        · exact h3 y (List.mem_cons_of_mem _ hy) q l he
        · intro e2
          exact hd.1 (List.mem_map.2 ⟨y, hy, Prod.ext e1 e2.symm⟩)) hd.2
    refine ⟨m', ?_, b2, ?_⟩
    · rw [List.map_cons, loadV2, h1 x List.mem_cons_self, Res.bind_ok, a1, Res.bind_ok, b1]
    · intro c q l
      rw [b3, a3]
      constructor
      · rintro ((h | ⟨rfl, rfl, rfl⟩) | ⟨y, hy, h⟩)
        · exact Or.inl h
        · exact Or.inr ⟨x, List.mem_cons_self, rfl, rfl, rfl⟩
        · exact Or.inr ⟨y, List.mem_cons_of_mem _ hy, h⟩
      · rintro (h | ⟨y, hy, h⟩)
        · exact Or.inl (Or.inl h)
        · rcases List.mem_cons.1 hy with rfl | hy
          · exact Or.inl (Or.inr ⟨h.1.symm, h.2.1.symm, h.2.2⟩)
          · exact Or.inr ⟨y, hy, h⟩

/-! ### Whole tables -/

/-- The rules of a table with their categories and paths. -/
def items (m : MatchingRules) : List (Category × DocPath × RuleList) :=
  m.flatMap fun e => e.2.rules.map fun r => (e.2.name, r.1, r.2)

theorem items_entry (m : MatchingRules) (hm : TableShape m) (x : Category × DocPath × RuleList) :
    x ∈ items m ↔ Entry m x.1 x.2.1 x.2.2 := by
  unfold items
  constructor
  · intro h
    obtain ⟨e, he, h⟩ := List.mem_flatMap.1 h
    obtain ⟨r, hr, rfl⟩ := List.mem_map.1 h
    refine ⟨e.2, ?_, hr⟩
    show (e.2.name, e.2) ∈ m
    rw [← hm.name e he]; exact he
  · rintro ⟨t, h1, h2⟩
    refine List.mem_flatMap.2 ⟨_, h1, List.mem_map.2 ⟨_, h2, ?_⟩⟩
    have := hm.name _ h1
    simp only at this
    rw [← this]

theorem matchersToV2Json_items (m : MatchingRules) :
    matchersToV2Json m = .obj (OMap.collect ((items m).map fun x => (v2KeyText x.1 x.2.1, listV2Json x.2.2))) := by
  unfold matchersToV2Json items
  rw [List.map_flatMap]
  simp only [List.map_map]
  rfl

theorem items_nodup (m : MatchingRules) (hm : TableShape m) : ((items m).map fun x => (x.1, x.2.1.expr)).Nodup := by
  induction m with
  | nil => exact List.nodup_nil
  | cons e es ih =>
    have hd := List.nodup_cons.1 hm.once
    have hes : TableShape es := ⟨hd.2, fun x hx => hm.name x (List.mem_cons_of_mem _ hx),
      fun x hx => hm.keys x (List.mem_cons_of_mem _ hx)⟩
    show ((e.2.rules.map (fun r => (e.2.name, r.1, r.2)) ++ items es).map _).Nodup
    rw [List.map_append, List.nodup_append]
    refine ⟨?_, ih hes, ?_⟩
    · rw [List.map_map]
      have hk := hm.keys e List.mem_cons_self
      unfold KeysNodup List.Nodup at hk
      unfold List.Nodup
      rw [List.pairwise_map] at hk ⊢
      refine hk.imp (fun {a b} hab h => hab ?_)
      exact congrArg Prod.snd h
    · intro a ha b hb
      rw [List.map_map] at ha
      obtain ⟨r, hr, rfl⟩ := List.mem_map.1 ha
      obtain ⟨y, hy, rfl⟩ := List.mem_map.1 hb
      intro h
      have h1 : e.2.name = y.1 := congrArg Prod.fst h
      obtain ⟨t, ht, _⟩ := (items_entry es hes y).1 hy
      refine hd.1 (List.mem_map.2 ⟨_, ht, ?_⟩)
      show y.1 = e.1
      rw [← h1, hm.name e List.mem_cons_self]

theorem nodup_of_map {A B C : Type} (f : A → B) (g : A → C) (l : List A) (h : (l.map f).Nodup)
    (hfg : ∀ a ∈ l, ∀ b ∈ l, g a = g b → f a = f b) : (l.map g).Nodup := by
  unfold List.Nodup at h ⊢
  rw [List.pairwise_map] at h ⊢
  exact h.imp_of_mem (fun {a b} ha hb hab he => hab (hfg a ha b hb he))

/-- The path that is read for a rule. -/
def readPath (c : Category) (p : DocPath) : DocPath :=
  match c with
  | .header | .query => ⟨[.root, .field ((Path.firstField p).getD [])], (Path.firstField p).getD []⟩
  | _ => p

theorem readPath_eq (uc : UC) (c : Category) (p q : DocPath) (h : V2Path uc c p q) : readPath c p = q := by
  cases c with
  | path => rw [h.2, h.1]; rfl
  | body => rw [h.1]; rfl
  | header => obtain ⟨k, _, rfl, rfl⟩ := h; rfl
  | query => obtain ⟨k, _, rfl, rfl⟩ := h; rfl
  | _ => exact h.elim

/-- The first rule of a list. -/
def firstRule (l : RuleList) : MatchingRule := (l.rules.head?).getD .equality

theorem rules_loaded (P : Params) (m : MatchingRules) (h : RulesV2 P.uc m) :
    ∃ es m', matchersToV2Json m = .obj es ∧ (es = [] ↔ ∀ c p l, ¬Entry m c p l) ∧ (∀ e ∈ es, e.1.head? = some '$') ∧
      loadV2 P [] es = .ok m' ∧ SameRulesV2 P.uc m m' := by
  have hit := items_entry m h.shape
  have hnd := items_nodup m h.shape
  have hok : ∀ x ∈ items m, V2Path P.uc x.1 x.2.1 (readPath x.1 x.2.1) ∧
      (∃ rs, x.2.2.rules = firstRule x.2.2 :: rs) ∧ Writable P.uc (firstRule x.2.2) := by
    intro x hx
    obtain ⟨⟨q, h1⟩, r, rs, h2, h3⟩ := h.entries _ _ _ ((hit x).1 hx)
    rw [readPath_eq P.uc _ _ q h1]
    have : firstRule x.2.2 = r := by unfold firstRule; rw [h2]; rfl
    rw [this]
    exact ⟨h1, ⟨rs, h2⟩, h3⟩
  have hpn : ((items m).map fun x => (x.1, (readPath x.1 x.2.1).expr)).Nodup := by
    refine nodup_of_map _ _ _ hnd (fun a ha b hb he => ?_)
    have h1 : a.1 = b.1 := (Prod.mk.inj he).1
    have h2 : (readPath a.1 a.2.1).expr = (readPath b.1 b.2.1).expr := (Prod.mk.inj he).2
    have ha' := (hok a ha).1
    have hb' := (hok b hb).1
    rw [h1] at ha' h2
    show (a.1, a.2.1.expr) = (b.1, b.2.1.expr)
    rw [h1, v2path_inj P.uc _ _ _ _ _ ha' hb' h2]
  have hkn : ((items m).map fun x => v2KeyText x.1 x.2.1).Nodup := by
    refine nodup_of_map _ _ _ hpn (fun a ha b hb he => ?_)
    have h1 := v2path_key P _ _ _ (hok a ha).1
    rw [he, v2path_key P _ _ _ (hok b hb).1] at h1
    have h2 := Res.ok.inj h1
    show (a.1, (readPath a.1 a.2.1).expr) = (b.1, (readPath b.1 b.2.1).expr)
    exact Prod.ext (Prod.mk.inj h2).1.symm (congrArg DocPath.expr (Prod.mk.inj h2).2.symm)
  have hperm := orderBy_perm (fun x : Category × DocPath × RuleList => v2KeyText x.1 x.2.1) (items m) hkn
  have hjson : matchersToV2Json m = .obj ((orderBy (fun x : Category × DocPath × RuleList => v2KeyText x.1 x.2.1) (items m)).map
      fun x => (v2KeyText x.1 x.2.1, listV2Json x.2.2)) := by
    rw [matchersToV2Json_items]
    rw [collect_key (fun x : Category × DocPath × RuleList => v2KeyText x.1 x.2.1) (fun x => listV2Json x.2.2)]
  obtain ⟨m', l1, l2, l3⟩ := load_all P (fun x : Category × DocPath × RuleList => v2KeyText x.1 x.2.1)
    (fun x => listV2Json x.2.2) (fun x => x.1) (fun x => readPath x.1 x.2.1) (fun x => kept (firstRule x.2.2))
    (orderBy (fun x : Category × DocPath × RuleList => v2KeyText x.1 x.2.1) (items m)) []
    ⟨List.nodup_nil, (fun _ h => by cases h), (fun _ h => by cases h)⟩
    (fun x hx => v2path_key P _ _ _ (hok x (hperm.mem_iff.1 hx)).1)
    (fun x hx => by
      obtain ⟨_, ⟨rs, h2⟩, h3⟩ := hok x (hperm.mem_iff.1 hx)
      have : listV2Json x.2.2 = ruleJson (firstRule x.2.2) := by unfold listV2Json; rw [h2]
      rw [this]
      exact rule_fuel P _ _ (by omega) h3)
    (fun x _ q l ⟨t, ht, _⟩ => by cases ht)
    ((hperm.map _).nodup_iff.2 hpn)
  refine ⟨_, m', hjson, ?_, ?_, l1, l2, ?_⟩
  · rw [List.map_eq_nil_iff]
    constructor
    · intro he c p l hx
      have : (c, p, l) ∈ items m := (hit (c, p, l)).2 hx
      rw [← hperm.mem_iff, he] at this
      cases this
    · intro he
      cases ho : orderBy (fun x : Category × DocPath × RuleList => v2KeyText x.1 x.2.1) (items m) with
      | nil => rfl
      | cons x xs =>
        have hx : x ∈ items m := hperm.mem_iff.1 (by rw [ho]; exact List.mem_cons_self)
        exact absurd ((hit x).1 hx) (he _ _ _)
  · intro e he
    obtain ⟨x, hx, rfl⟩ := List.mem_map.1 he
    exact v2path_dollar P.uc _ _ _ (hok x (hperm.mem_iff.1 hx)).1
  · intro c q l'
    rw [l3]
    constructor
    · rintro (⟨t, ht, _⟩ | ⟨x, hx, rfl, rfl, rfl⟩)
      · cases ht
      · obtain ⟨h1, ⟨rs, h2⟩, _⟩ := hok x (hperm.mem_iff.1 hx)
        exact ⟨x.2.1, x.2.2, firstRule x.2.2, rs, (hit x).1 (hperm.mem_iff.1 hx), h1, h2, rfl⟩
    · rintro ⟨p, l, r, rs, h1, h2, h3, rfl⟩
      refine Or.inr ⟨(c, p, l), hperm.mem_iff.2 ((hit (c, p, l)).2 h1), rfl, readPath_eq P.uc _ _ _ h2, ?_⟩
      have : firstRule l = r := by unfold firstRule; rw [h3]; rfl
      simp only [this]

theorem rules_attr_v2 (P : Params) (m : MatchingRules) (h : RulesV2 P.uc m) (j : Json) (dep : Option String)
    (hj : vget "matchingRules" j = if rulesNotEmpty m = true then some (matchersToV2Json m) else none)
    (hd : ∀ n, dep = some n → vget n j = none) :
    ∃ m', matchersFromJson P j dep = .ok m' ∧ SameRulesV2 P.uc m m' := by
  have hdep : (dep.bind fun n => vget n j) = none := by
    cases dep with
    | none => rfl
    | some n => exact hd n rfl
  obtain ⟨es, m', h1, h2, h3, h4, h5⟩ := rules_loaded P m h
  have hne : rulesNotEmpty m = false → ∀ c p l, ¬Entry m c p l := by
    rintro hn c p l ⟨t, ht, hp⟩
    unfold rulesNotEmpty at hn
    have := List.any_eq_false.1 hn _ ht
    cases hr : t.rules with
    | nil => rw [hr] at hp; cases hp
    | cons a as => simp [hr] at this
  unfold matchersFromJson
  rw [hj, hdep]
  cases hn : rulesNotEmpty m with
  | false =>
    have hes := h2.2 (hne hn)
    subst hes
    have hm' : m' = [] := by
      have : loadV2 P [] [] = .ok [] := rfl
      rw [this] at h4; exact (Res.ok.inj h4).symm
    subst hm'
    exact ⟨[], rfl, h5⟩
  | true =>
    rw [if_pos rfl, h1]
    cases es with
    | nil =>
      exfalso
      obtain ⟨e, he, hr⟩ := List.any_eq_true.1 hn
      cases hx : e.2.rules with
      | nil => rw [hx] at hr; cases hr
      | cons a as => exact h2.1 rfl e.1 a.1 a.2 ⟨e.2, he, by rw [hx]; exact List.mem_cons_self⟩
    | cons e es =>
      obtain ⟨k, x⟩ := e
      have hk := h3 _ List.mem_cons_self
      simp only at hk
      refine ⟨m', ?_, h5⟩
      show (if k.head? = some '$' then loadV2 P [] ((k, x) :: es) else loadV3 P [] ((k, x) :: es)) = _
      rw [if_pos hk, h4]

/-! ### Theorems -/

/-- **C79 (rules).** Rules that a V2 file can hold are read back: for each path the first rule, and nothing else. -/
theorem C79_rules_partial (P : Params) (m : MatchingRules) (h : RulesV2 P.uc m) :
    ∃ m', matchersFromJson P (obj (partAttrs .v2 m [])) none = .ok m' ∧ SameRulesV2 P.uc m m' := by
  refine rules_attr_v2 P m h _ none ?_ (fun _ h => by cases h)
  rw [vget_obj, slast_parts]
  vget_simp
  rfl

theorem segments_field (uc : UC) (ts : List PathToken) (s : Str) (h : Segments uc ts s) (k : Str) (hk : .field k ∈ ts) :
    k.length < s.length := by
  induction h with
  | nil => cases hk
  | cons hseg _ ih =>
    rw [List.length_append]
    rcases List.mem_cons.1 hk with rfl | hk
    · cases hseg with
      | name hne h => simp; omega
      | quoted hne h => simp; omega
    · have := ih hk; omega

/-- **C79 (names).** Among names without quotes and backslashes, those whose rules are read for the same name are exactly
the bare ones. -/
theorem C79_name_iff (P : Params) (k : Str) (h : PathProps.PlainKey k) :
    ((∃ q, v2Key P (v2KeyText .header (Path.pushField Path.rootPath k)) = .ok (.header, q) ∧ Path.firstField q = some k) ↔
      BareName P.uc k) ∧
    ((∃ q, v2Key P (v2KeyText .query (Path.pushField Path.rootPath k)) = .ok (.query, q) ∧ Path.firstField q = some k) ↔
      BareName P.uc k) := by
  have hn : ∀ q, Path.new P.uc k = .ok q → Path.firstField q = some k → BareName P.uc k := by
    intro q h1 h2
    obtain ⟨h3, h4⟩ := (C52_grammar P.uc k q).1 h1
    obtain ⟨ts, ex⟩ := q
    simp only at h3
    have hmem : ∀ l : List PathToken, (l.findSome? fun | .field f => some f | _ => none) = some k → .field k ∈ l := by
      intro l hl
      obtain ⟨t, ht, h⟩ := List.exists_of_findSome?_eq_some hl
      cases t with
      | field f => cases h; exact ht
      | _ => cases h
    generalize hk : k = s at h3
    cases h3 with
    | empty => cases h2
    | rooted hs =>
      exfalso
      have hm := hmem _ h2
      rcases List.mem_cons.1 hm with hm | hm
      · cases hm
      · have := segments_field P.uc _ _ hs k hm
        rw [hk] at this
        simp at this
        omega
    | bare c n hc hn hs =>
      have h5 : c :: n = k := Option.some.inj h2
      rw [hk] at h5
      have h6 := List.self_eq_append_right.1 h5
      subst h6
      exact ⟨c, n, by simp, hc, hn⟩
  constructor
  · rw [header_key P k h]
    constructor
    · rintro ⟨q, h1, h2⟩
      obtain ⟨q', h3, h4⟩ := Res.map_eq_ok.1 h1
      cases h4
      exact hn q h3 h2
    · intro hb
      refine ⟨_, by rw [bare_parse P.uc k hb]; rfl, rfl⟩
  · rw [query_key P k h]
    constructor
    · rintro ⟨q, h1, h2⟩
      obtain ⟨q', h3, h4⟩ := Res.map_eq_ok.1 h1
      cases h4
      exact hn q h3 h2
    · intro hb
      refine ⟨_, by rw [bare_parse P.uc k hb]; rfl, rfl⟩

/-! ## Requests, responses, interactions and pacts -/

/-! ### Specification -/

/-- The versions before V3, and unknown ones. -/
def Old (spec : Spec) : Prop := spec ≠ .v3 ∧ spec ≠ .v4

/-- A query that a V2 file can hold (see C29). -/
def QueryV2 (m : QueryMap) : Prop :=
  IsMap m ∧ m ≠ [] ∧ ∀ e ∈ m, QueryStringProps.PlainName e.1 ∧ e.2 ≠ [] ∧ ∀ s, some s ∈ e.2 → QueryStringProps.PlainValue s

/-- A request that a V2 file can hold. -/
structure RequestV2 (E : FileEnv) (r : HttpRequest) : Prop where
  query : ∀ m, r.query = some m → QueryV2 m
  headers : ∀ h, r.headers = some h → HeadersV3 E h
  body : BodyV3 E r.headers r.body
  rules : RulesV2 E.P.uc r.rules

/-- A response that a V2 file can hold. -/
structure ResponseV2 (E : FileEnv) (r : HttpResponse) : Prop where
  status : r.status < 65536
  headers : ∀ h, r.headers = some h → HeadersV3 E h
  body : BodyV3 E r.headers r.body
  rules : RulesV2 E.P.uc r.rules

/-- What a V2 file keeps of a request: all but the generators, and one rule for each path. -/
structure SameRequestV2 (E : FileEnv) (r r' : HttpRequest) : Prop where
  method : r'.method = E.upper (E.upper r.method)
  path : r'.path = r.path
  query : SameOpt r'.query r.query
  headers : SameOpt r'.headers r.headers
  body : ∃ h, HeaderType E r.headers h ∧ SameBody E ((partContentType E r.body r.headers).getD .unknown) h r.body r'.body
  rules : SameRulesV2 E.P.uc r.rules r'.rules
  gens : r'.gens = []

/-- What a V2 file keeps of a response. -/
structure SameResponseV2 (E : FileEnv) (r r' : HttpResponse) : Prop where
  status : r'.status = r.status
  headers : SameOpt r'.headers r.headers
  body : ∃ h, HeaderType E r.headers h ∧ SameBody E ((partContentType E r.body r.headers).getD .unknown) h r.body r'.body
  rules : SameRulesV2 E.P.uc r.rules r'.rules
  gens : r'.gens = []

/-- What a V2 file keeps of the provider states: the name of the first, unless it is empty. -/
def statesV2 : List PState → List PState
  | [] => []
  | p :: _ => if p.name = [] then [] else [⟨p.name, []⟩]

/-- What a V2 file keeps of an interaction. -/
structure SameHttpV2 (E : FileEnv) (i i' : HttpInteraction) : Prop where
  id : i'.id = none
  description : i'.description = i.description
  states : i'.states = statesV2 i.states
  request : SameRequestV2 E i.request i'.request
  response : SameResponseV2 E i.response i'.response

/-- A pact that a V2 file can hold. -/
structure HttpPactV2 (E : FileEnv) (p : HttpPact) : Prop where
  interactions : ∀ i ∈ p.interactions, RequestV2 E i.request ∧ ResponseV2 E i.response
  metadata : MetadataOk p.metadata

/-! ### Theorems -/

theorem old_rules (spec : Spec) (h : Old spec) (m : MatchingRules) : rulesToJson spec m = matchersToV2Json m := by
  cases spec <;> first | rfl | exact absurd rfl h.1 | exact absurd rfl h.2

theorem old_gens (spec : Spec) (h : Old spec) (g : Generators) : PactV3.gensToJson spec g = .null := by
  cases spec <;> first | rfl | exact absurd rfl h.1 | exact absurd rfl h.2

/-- Generators of a V2 file: none. -/
theorem no_gens (P : Params) (b : Bool) (j : Json) (hj : vget "generators" j = if b = true then some .null else none) :
    generatorsFromJson P j = .ok [] := by
  unfold generatorsFromJson
  rw [hj]
  cases b <;> rfl

theorem query_v2 (spec : Spec) (h : Old spec) (q : Option QueryMap) (hq : ∀ m, q = some m → QueryV2 m) :
    ∃ qj, queryAttr spec q = .ok qj ∧ SameOpt (qj.bind (queryFromJson spec)) q := by
  cases q with
  | none => exact ⟨none, rfl, trivial⟩
  | some m =>
    obtain ⟨h1, h2, h3⟩ := hq m rfl
    obtain ⟨text, m', e1, e2, e3⟩ := QueryStringProps.C29_roundtrip_partial m h1 h2 h3
    have ha : queryAttr spec (some m) = .ok (some (.str text)) := by
      show (PactV3.queryToJson spec m).map some = _
      rw [show PactV3.queryToJson spec m = QS.queryToJsonV2 m from by
        cases spec <;> first | rfl | exact absurd rfl h.1 | exact absurd rfl h.2, e1]
      rfl
    refine ⟨_, ha, ?_⟩
    have hr : (some (Json.str text)).bind (queryFromJson spec) = some m' := by
      show queryFromJson spec (.str text) = _
      rw [show queryFromJson spec (.str text) = QS.queryFromJsonV2 (.str text) from by
        cases spec <;> first | rfl | exact absurd rfl h.1 | exact absurd rfl h.2, e2]
    rw [hr]
    exact e3

/-- **C79 (requests).** -/
theorem C79_request_partial (E : FileEnv) (spec : Spec) (hs : Old spec) (r : HttpRequest) (hr : RequestV2 E r) :
    ∃ j r', PactV3.requestToJson E spec r = .ok j ∧ PactV3.requestFromJson E spec j = .ok r' ∧ SameRequestV2 E r r' := by
  obtain ⟨hh1, c, hh2, hh3⟩ := headers_v3 E r.headers hr.headers
  obtain ⟨qj, hq1, hq2⟩ := query_v2 spec hs r.query hr.query
  unfold PactV3.requestToJson
  rw [hq1]
  simp only [Res.map_ok]
  generalize hj : obj _ = j
  have hv : ∀ k, vget k j = slast k _ := fun k => by rw [← hj]; exact vget_obj k _
  obtain ⟨m', hm1, hm2⟩ := rules_attr_v2 E.P r.rules hr.rules j (some "requestMatchingRules") (by
    rw [hv, slast_append, slast_parts, old_rules spec hs]; vget_simp) (by
    intro n hn; cases hn; rw [hv, slast_append, slast_parts]; vget_simp)
  have hg1 := no_gens E.P (gensNotEmpty r.gens) j (by
    rw [hv, slast_append, slast_parts, old_gens spec hs]; vget_simp)
  have hhj : vget "headers" j = r.headers.map QS.headersToJson := by rw [hv, slast_append, slast_parts]; vget_simp
  have hqj : vget "query" j = qj := by rw [hv, slast_append, slast_parts]; vget_simp
  have hbj : vget "body" j = httpBodyToJson E (partContentType E r.body r.headers) r.body := by
    rw [hv, slast_append, slast_parts]; vget_simp
  have hmj : vget "method" j = some (.str (E.upper r.method)) := by rw [hv, slast_append, slast_parts]; vget_simp
  have hpj : vget "path" j = some (.str r.path) := by rw [hv, slast_append, slast_parts]; vget_simp
  have hr' : PactV3.requestFromJson E spec j = .ok
      { method := E.upper (E.upper r.method), path := r.path
        query := qj.bind (queryFromJson spec)
        headers := QS.headersFromJson E.P.uc (r.headers.map QS.headersToJson)
        body := bodyFromAttr E c (httpBodyToJson E (partContentType E r.body r.headers) r.body)
        rules := m', gens := [] } := by
    unfold PactV3.requestFromJson PactV3.bodyFromJson
    simp only
    rw [hhj, hh2, hbj, hm1, hg1, hqj, hmj, attrText, hpj]
    rfl
  exact ⟨j, _, rfl, hr', ⟨rfl, rfl, hq2, hh1, ⟨c, hh3, body_same E r.headers r.body hr.body c hh3⟩, hm2, rfl⟩⟩

/-- **C79 (responses).** -/
theorem C79_response_partial (E : FileEnv) (spec : Spec) (hs : Old spec) (r : HttpResponse) (hr : ResponseV2 E r) :
    ∃ r', PactV3.responseFromJson E (PactV3.responseToJson E spec r) = .ok r' ∧ SameResponseV2 E r r' := by
  obtain ⟨hh1, c, hh2, hh3⟩ := headers_v3 E r.headers hr.headers
  unfold PactV3.responseToJson
  generalize hj : obj _ = j
  have hv : ∀ k, vget k j = slast k _ := fun k => by rw [← hj]; exact vget_obj k _
  obtain ⟨m', hm1, hm2⟩ := rules_attr_v2 E.P r.rules hr.rules j (some "responseMatchingRules") (by
    rw [hv, slast_append, slast_parts, old_rules spec hs]; vget_simp) (by
    intro n hn; cases hn; rw [hv, slast_append, slast_parts]; vget_simp)
  have hg1 := no_gens E.P (gensNotEmpty r.gens) j (by
    rw [hv, slast_append, slast_parts, old_gens spec hs]; vget_simp)
  have hhj : vget "headers" j = r.headers.map QS.headersToJson := by rw [hv, slast_append, slast_parts]; vget_simp
  have hbj : vget "body" j = httpBodyToJson E (partContentType E r.body r.headers) r.body := by
    rw [hv, slast_append, slast_parts]; vget_simp
  have hsj : vget "status" j = some (.num (.pos r.status)) := by rw [hv, slast_append, slast_parts]; vget_simp
  have hst : statusOf (.num (.pos r.status)) = .ok r.status := by
    show Res.ok (r.status % 65536) = _
    rw [Nat.mod_eq_of_lt hr.status]
  have hr' : PactV3.responseFromJson E j = .ok
      { status := r.status, headers := QS.headersFromJson E.P.uc (r.headers.map QS.headersToJson)
        body := bodyFromAttr E c (httpBodyToJson E (partContentType E r.body r.headers) r.body)
        rules := m', gens := [] } := by
    unfold PactV3.responseFromJson PactV3.bodyFromJson
    simp only
    rw [hsj, hhj, hh2, hbj, hm1, hg1]
    simp only [Res.bind_ok, statusAttr, hst, Res.map_ok]
  exact ⟨_, hr', ⟨rfl, hh1, ⟨c, hh3, body_same E r.headers r.body hr.body c hh3⟩, hm2, rfl⟩⟩

theorem states_old (spec : Spec) (hs : Old spec) (l : List PState) (j : Json)
    (hj : ∀ k, vget k j = (slast k (stateAttrs spec l)).or none ∨ k ∉ ["providerStates", "providerState", "provider_state"]) :
    statesFromJson j = statesV2 l := by
  have hg : ∀ k ∈ ["providerStates", "providerState", "provider_state"], vget k j = slast k (stateAttrs spec l) := by
    intro k hk
    rcases hj k with h | h
    · rw [h]; cases slast k (stateAttrs spec l) <;> rfl
    · exact absurd hk h
  have h1 := hg "providerStates" (by simp)
  have h2 := hg "providerState" (by simp)
  have h3 := hg "provider_state" (by simp)
  unfold statesFromJson
  cases l with
  | nil =>
    rw [stateAttrs, slast_nil] at h1 h2 h3
    rw [h1, h2, h3]; rfl
  | cons p ps =>
    have ha : stateAttrs spec (p :: ps) = [("providerState", .str p.name)] := by
      cases spec <;> first | rfl | exact absurd rfl hs.1
    rw [ha, slast_one] at h1 h2 h3
    rw [h1, h2, h3, if_neg (by decide), if_pos rfl]
    show (if p.name.isEmpty = true then [] else [(⟨p.name, []⟩ : PState)]) = if p.name = [] then [] else [(⟨p.name, []⟩ : PState)]
    cases p.name <;> rfl

/-- **C79 (interactions).** -/
theorem C79_interaction_partial (E : FileEnv) (spec : Spec) (hs : Old spec) (i : HttpInteraction)
    (hi : RequestV2 E i.request ∧ ResponseV2 E i.response) (index : Nat) :
    ∃ j i', httpToJson E spec i = .ok j ∧ PactV3.httpFromJson E spec index j = .ok i' ∧ SameHttpV2 E i i' := by
  obtain ⟨jr, r', h1, h2, h3⟩ := C79_request_partial E spec hs i.request hi.1
  obtain ⟨s', h4, h5⟩ := C79_response_partial E spec hs i.response hi.2
  unfold httpToJson
  rw [h1]
  simp only [Res.map_ok]
  generalize hj : obj _ = j
  have hv : ∀ k, vget k j = slast k _ := fun k => by rw [← hj]; exact vget_obj k _
  have hs' : ∀ k, k ∉ ["providerStates", "providerState", "provider_state"] → slast k (stateAttrs spec i.states) = none := by
    intro k hk
    simp only [List.mem_cons, List.not_mem_nil, or_false, not_or] at hk
    cases i.states with
    | nil => rw [stateAttrs, slast_nil]
    | cons p ps =>
      have ha : stateAttrs spec (p :: ps) = [("providerState", .str p.name)] := by
        cases spec <;> first | rfl | exact absurd rfl hs.1
      rw [ha, slast_one, if_neg (Ne.symm hk.2.1)]
  have e1 : vget "_id" j = none := by rw [hv, slast_append, hs' _ (by simp)]; vget_simp
  have e2 : vget "description" j = some (.str i.description) := by rw [hv, slast_append, hs' _ (by simp)]; vget_simp
  have e3 : vget "request" j = some jr := by rw [hv, slast_append, hs' _ (by simp)]; vget_simp
  have e4 : vget "response" j = some (PactV3.responseToJson E spec i.response) := by
    rw [hv, slast_append, hs' _ (by simp)]; vget_simp
  have e5 := states_old spec hs i.states j (by
    intro k
    by_cases hk : k ∈ ["providerStates", "providerState", "provider_state"]
    · left
      rw [hv, slast_append]
      have : slast k [("description", Json.str i.description), ("request", jr),
          ("response", PactV3.responseToJson E spec i.response)] = none := by
        simp only [List.mem_cons, List.not_mem_nil, or_false] at hk
        rcases hk with rfl | rfl | rfl <;> vget_simp
      rw [this]
    · exact Or.inr hk)
  have hr : PactV3.httpFromJson E spec index j = .ok ⟨none, i.description, statesFromJson j, r', s'⟩ := by
    unfold PactV3.httpFromJson
    rw [e3, e4, e1, attrText, e2]
    simp only [partOr, h2, h4, Res.bind_ok]
    rfl
  exact ⟨j, _, rfl, hr, ⟨rfl, rfl, e5, h3, h5⟩⟩

/-- **C79.** A request/response pact that a V1 or V2 file can hold is written without failing; loading the file gives a
request/response pact of that version with the same interactions, but for the generators, all rules but the first for
each path, and all provider states but the first, of which the name is kept. -/
theorem C79_pact_partial (E : FileEnv) (spec : Spec) (hs : Old spec) (hv : VersionRead E spec) (p : HttpPact) (h : HttpPactV2 E p) :
    ∃ o p', httpPactToJson E spec p = .ok (.obj o) ∧ loadPact E (.obj o) = .ok (.http p') ∧
      httpPactFromJson E (.obj o) = .ok p' ∧ SameHttpPact E spec (SameHttpV2 E) p p' :=
  http_pact E spec hs.2 hv (SameHttpV2 E) p h.metadata
    (fun i hi index => C79_interaction_partial E spec hs i (h.interactions i hi) index)

/-! ### Non-vacuity and limits -/

def exRulesV2 : MatchingRules :=
  [(.header, ⟨.header, [(Path.pushField Path.rootPath "X-Y".toList, ⟨[.regex "a".toList], .and, false⟩)]⟩),
   (.path, ⟨.path, [(Path.empty, ⟨[.type], .or, false⟩)]⟩),
   (.query, ⟨.query, [(Path.pushField Path.rootPath "q".toList, ⟨[.type, .equality], .or, false⟩),
     (Path.pushField Path.rootPath "r".toList, ⟨[.equality], .and, false⟩)]⟩),
   (.body, ⟨.body, [(Path.rootPath, ⟨[.type], .and, false⟩), (Path.pushStarIndex Path.rootPath, ⟨[.minMaxType 1 3], .and, false⟩)]⟩)]

theorem exRulesV2_ok : RulesV2 UC.ascii exRulesV2 := by
  refine ⟨⟨by decide, ?_, ?_⟩, ?_⟩
  · intro e he
    simp only [exRulesV2, List.mem_cons, List.not_mem_nil, or_false] at he
    rcases he with rfl | rfl | rfl | rfl <;> rfl
  · intro e he
    simp only [exRulesV2, List.mem_cons, List.not_mem_nil, or_false] at he
    rcases he with rfl | rfl | rfl | rfl <;> (unfold KeysNodup; decide)
  · rintro c p l ⟨t, ht, hp⟩
    simp only [exRulesV2, List.mem_cons, List.not_mem_nil, or_false, Prod.mk.injEq] at ht
    have bare : ∀ (c : Char) (n : Str), UC.ascii.alphabetic c = true → (∀ x ∈ n, Path.isIdentifierChar UC.ascii x = true) →
        BareName UC.ascii (c :: n) := fun c n h1 h2 => ⟨c, n, rfl, Or.inl h1, fun x hx => (nameChar_iff _ x).1 (h2 x hx)⟩
    rcases ht with ⟨rfl, rfl⟩ | ⟨rfl, rfl⟩ | ⟨rfl, rfl⟩ | ⟨rfl, rfl⟩ <;>
      simp only [List.mem_cons, List.not_mem_nil, or_false, Prod.mk.injEq] at hp
    · obtain ⟨rfl, rfl⟩ := hp
      exact ⟨⟨_, "X-Y".toList, bare 'X' "-Y".toList (by decide) (by decide), rfl, rfl⟩, _, _, rfl, by simp [Writable]⟩
    · obtain ⟨rfl, rfl⟩ := hp
      exact ⟨⟨_, rfl, rfl⟩, _, _, rfl, by simp [Writable]⟩
    · rcases hp with ⟨rfl, rfl⟩ | ⟨rfl, rfl⟩
      · exact ⟨⟨_, "q".toList, bare 'q' [] (by decide) (by decide), rfl, rfl⟩, _, _, rfl, by simp [Writable]⟩
      · exact ⟨⟨_, "r".toList, bare 'r' [] (by decide) (by decide), rfl, rfl⟩, _, _, rfl, by simp [Writable]⟩
    · rcases hp with ⟨rfl, rfl⟩ | ⟨rfl, rfl⟩
      · exact ⟨⟨_, rfl, rfl, [], rfl, by decide⟩, _, _, rfl, by simp [Writable]⟩
      · exact ⟨⟨_, rfl, rfl, "[*]".toList, rfl, by decide⟩, _, _, rfl, by simp [Writable]⟩

def exHttpV2 : HttpInteraction :=
  { exHttp with
    request := { exHttp.request with rules := exRulesV2 }
    response := { exHttp.response with rules := exRulesV2 } }

theorem exHttpPactV2_ok : HttpPactV2 exE3 { exHttpPact with interactions := [exHttpV2] } := by
  have h := exHttpPact_ok.interactions exHttp List.mem_cons_self
  refine ⟨?_, exHttpPact_ok.metadata⟩
  intro i hi
  rw [List.mem_singleton.1 hi]
  refine ⟨⟨?_, h.request.headers, h.request.body, exRulesV2_ok⟩, h.response.status, h.response.headers, h.response.body,
    exRulesV2_ok⟩
  intro m hm
  cases hm
  refine ⟨by decide, by decide, ?_⟩
  intro e he
  rw [List.mem_singleton.1 he]
  refine ⟨⟨by decide, by decide⟩, by decide, ?_⟩
  intro s hs
  simp only [List.mem_cons, Option.some.injEq, List.not_mem_nil, or_false] at hs
  rcases hs with rfl | rfl <;> (unfold QueryStringProps.PlainValue; decide)

example : Old .v2 ∧ VersionRead exE3 .v2 ∧ Old .v1 ∧ VersionRead exE3 .v1 ∧ Old .v1_1 ∧ VersionRead exE3 .v1_1 := by
  unfold Old VersionRead; decide

/-- **C79 (V3 queries).** A query in the form of V3 is dropped from a file of another version. -/
theorem C79_query_form (E : FileEnv) (spec : Spec) (hs : spec ≠ .v3) (v : Json) (o : Obj) (h : vget "query" v = some (.obj o))
    (r : HttpRequest) (hr : PactV3.requestFromJson E spec v = .ok r) : r.query = none := by
  unfold PactV3.requestFromJson at hr
  simp only at hr
  cases h1 : PactV3.bodyFromJson E v "body" (QS.headersFromJson E.P.uc (vget "headers" v)) with
  | ok b =>
    rw [h1, Res.bind_ok] at hr
    cases h2 : matchersFromJson E.P v (some "requestMatchingRules") with
    | ok m =>
      rw [h2, Res.bind_ok] at hr
      cases h3 : generatorsFromJson E.P v with
      | ok g =>
        rw [h3, Res.bind_ok] at hr
        cases hr
        show (vget "query" v).bind (PactV3.queryFromJson spec) = none
        rw [h]
        cases spec <;> first | exact absurd rfl hs | rfl
      | err => rw [h3] at hr; cases hr
      | panic => rw [h3] at hr; cases hr
    | err => rw [h2] at hr; cases hr
    | panic => rw [h2] at hr; cases hr
  | err => rw [h1] at hr; cases hr
  | panic => rw [h1] at hr; cases hr

/-- **C79 (limits).** What becomes of rules that a V2 file cannot hold: a `$` in a field name is changed; a rule for a
name with a dot is read for another name; one for a name that starts with an underscore makes the file unreadable, as
does one for the status or a list without rules; a body path that does not start with `$` hides all rules. -/
theorem C79_limits :
    v2Key exP (v2KeyText .body ⟨[.root, .field "a$b".toList], "$['a$b']".toList⟩)
      = .ok (.body, ⟨[.root, .field "a$.bodyb".toList], "$['a$.bodyb']".toList⟩) ∧
    v2Key exP (v2KeyText .header (Path.pushField Path.rootPath "a.b".toList))
      = .ok (.header, ⟨[.root, .field "a".toList, .field "b".toList], "a.b".toList⟩) ∧
    v2Key exP (v2KeyText .query (Path.pushField Path.rootPath "_a".toList)) = .err ∧
    v2Key exP (v2KeyText .status Path.empty) = .err ∧
    loadV2 exP [] [("$.path".toList, listV2Json ⟨[], .and, false⟩)] = .err ∧
    matchersFromJson exP (obj [("matchingRules", matchersToV2Json [(.body, ⟨.body,
      [(⟨[.root, .field "a".toList], "a".toList⟩, ⟨[.type], .and, false⟩)]⟩)])]) none = .ok [(.body, ⟨.body, []⟩)] := by
  refine ⟨by decide, by decide, by decide, by decide, rfl, rfl⟩



end PactV2Props
end Verif
