import Verif.Props.SessionRuleProps

/-
  C168: what the matching rules of a pact file say.
-/

set_option autoImplicit false

namespace Verif
namespace ReadDocProps
open Path Rules RuleJson PactFile Matchers
open MatcherTableProps (rulesAt)
open PactV2Props (TableShape)
open SessionRuleProps (Each)

/-! ## Specification -/

/-- A rule that a document states: for a path of a category, and how the rules of the path are combined. -/
structure Row where
  category : Category
  path : DocPath
  logic : RuleLogic
  rule : MatchingRule

/-- How the rules of an entry are combined: `"combine"` is `or`, in upper or lower case, or the rules are needed all. -/
inductive Combination (v : Json) : RuleLogic → Prop
  | any (t : Json) : vget "combine" v = some t → t.toStr.map Char.toUpper = "OR".toList → Combination v .or
  | all : (∀ t, vget "combine" v = some t → t.toStr.map Char.toUpper ≠ "OR".toList) → Combination v .and

/-- The rules of one entry, `{"combine": ..., "matchers": [...]}`, in their order. -/
inductive Entry (P : Params) (c : Category) (p : DocPath) (v : Json) : List Row → Prop
  | rules (a : List Json) (rs : List MatchingRule) (l : RuleLogic) : vget "matchers" v = some (.arr a) → Combination v l →
      Each (fun j r => fromJson P j = .ok r) a rs → Entry P c p v (rs.map fun r => Row.mk c p l r)
  | none : (∀ a, vget "matchers" v ≠ some (.arr a)) → Entry P c p v []

/-- What the key of an entry stands for: a header or query parameter of that name, otherwise a path expression. -/
inductive Place (P : Params) (c : Category) (k : Str) : DocPath → Prop
  | name : c = .query ∨ c = .header → Place P c k (pushField rootPath k)
  | path (p : DocPath) : c ≠ .query → c ≠ .header → Path.new P.uc k = .ok p → Place P c k p

/-- The rows of several things, one after the other. -/
inductive Joined {A : Type} (R : A → List Row → Prop) : List A → List Row → Prop
  | nil : Joined R [] []
  | cons {a : A} {as : List A} {rs ss : List Row} : R a rs → Joined R as ss → Joined R (a :: as) (rs ++ ss)

/-- The rows of a category: one entry for the whole part, or entries with keys. -/
inductive InCategory (P : Params) (c : Category) : Json → List Row → Prop
  | whole (m : Obj) (rows : List Row) : RuleJson.get "matchers" m ≠ Option.none → Entry P c Path.empty (.obj m) rows →
      InCategory P c (.obj m) rows
  | keyed (m : Obj) (rows : List Row) : RuleJson.get "matchers" m = Option.none →
      Joined (fun e rows => ∃ p, Place P c e.1 p ∧ Entry P c p e.2 rows) m rows → InCategory P c (.obj m) rows

/-- The category of a name, in upper or lower case; every other name is taken for the body. -/
inductive Named (uc : UC) (s : Str) : Category → Prop
  | method : uc.lower s = "method".toList → Named uc s .method
  | path : uc.lower s = "path".toList → Named uc s .path
  | header : uc.lower s = "header".toList ∨ uc.lower s = "headers".toList → Named uc s .header
  | query : uc.lower s = "query".toList → Named uc s .query
  | status : uc.lower s = "status".toList → Named uc s .status
  | contents : uc.lower s = "contents".toList → Named uc s .contents
  | metadata : uc.lower s = "metadata".toList → Named uc s .metadata
  | body : (∀ n ∈ ["method", "path", "header", "headers", "query", "status", "contents", "metadata"], uc.lower s ≠ n.toList) →
      Named uc s .body

/-- The key of a rule in V2 form: `$.body` and a path below it, `$.headers.` and a name, or the name of another category and a
name in it. -/
inductive KeyV2 (P : Params) (k : Str) : Category → DocPath → Prop
  | body : k = "$.body".toList → KeyV2 P k .body rootPath
  | inBody (rest : Str) (p : DocPath) : k = "$.body".toList ++ rest → rest ≠ [] → Path.new P.uc ('$' :: rest) = .ok p → KeyV2 P k .body p
  | header (p q : DocPath) (a name : Str) (more : List Str) : "$.headers".toList <+: k → Path.new P.uc k = .ok p →
      fieldNames p = a :: name :: more → Path.new P.uc name = .ok q → KeyV2 P k .header q
  | whole (p : DocPath) (n : Str) (c : Category) : ¬ "$.body".toList <+: k → ¬ "$.headers".toList <+: k →
      Path.new P.uc k = .ok p → fieldNames p = [n] → Named P.uc n c → KeyV2 P k c Path.empty
  | named (p q : DocPath) (n name : Str) (more : List Str) (c : Category) : ¬ "$.body".toList <+: k →
      ¬ "$.headers".toList <+: k → Path.new P.uc k = .ok p → fieldNames p = n :: name :: more → Named P.uc n c →
      Path.new P.uc name = .ok q → KeyV2 P k c q

/-- The rows of the `matchingRules` of a file: in V2 form, if the first key begins with `$`, else in V3 form. -/
inductive Document (P : Params) : Obj → List Row → Prop
  | v3 (o : Obj) (rows : List Row) : (∀ k v es, o = (k, v) :: es → k.head? ≠ some '$') →
      Joined (fun e rows => ∃ c, Named P.uc e.1 c ∧ InCategory P c e.2 rows) o rows → Document P o rows
  | v2 (k : Str) (v : Json) (es : Obj) (rows : List Row) : k.head? = some '$' →
      Each (fun e row => KeyV2 P e.1 row.category row.path ∧ row.logic = .and ∧ fromJson P e.2 = .ok row.rule)
        ((k, v) :: es) rows → Document P ((k, v) :: es) rows

/-- The rules at a path: those of its rows, in their order, combined as the first row says. -/
def tableAt (rows : List Row) (c : Category) (p : DocPath) : Option RuleList :=
  match rows.filter fun r => decide (r.category = c ∧ r.path.expr = p.expr) with
  | [] => none
  | x :: xs => some ⟨x.rule :: xs.map (·.rule), x.logic, false⟩

/-! ## Adding rows -/

/-- One more row. -/
def put (c : Category) (p : DocPath) (o : Option RuleList) (r : Row) : Option RuleList :=
  if r.category = c ∧ r.path.expr = p.expr then
    some (match o with
      | none => ⟨[r.rule], r.logic, false⟩
      | some l => ⟨l.rules ++ [r.rule], l.logic, l.cascaded⟩)
  else o

/-- Several more rows. -/
def puts (c : Category) (p : DocPath) (o : Option RuleList) (rows : List Row) : Option RuleList := rows.foldl (put c p) o

theorem puts_append (c : Category) (p : DocPath) (o : Option RuleList) (a b : List Row) :
    puts c p o (a ++ b) = puts c p (puts c p o a) b := List.foldl_append

theorem puts_some (c : Category) (p : DocPath) (rows : List Row) : ∀ l : RuleList, puts c p (some l) rows =
    some ⟨l.rules ++ (rows.filter fun r => decide (r.category = c ∧ r.path.expr = p.expr)).map (·.rule), l.logic, l.cascaded⟩ := by
  induction rows with
  | nil => intro l; simp [puts]
  | cons x xs ih =>
    intro l
    show puts c p (put c p (some l) x) xs = _
    by_cases h : x.category = c ∧ x.path.expr = p.expr
    · rw [put, if_pos h, ih, List.filter_cons_of_pos (by simpa using h)]
      simp
    · rw [put, if_neg h, ih, List.filter_cons_of_neg (by simpa using h)]

theorem puts_none (c : Category) (p : DocPath) (rows : List Row) : puts c p none rows = tableAt rows c p := by
  induction rows with
  | nil => rfl
  | cons x xs ih =>
    show puts c p (put c p none x) xs = _
    by_cases h : x.category = c ∧ x.path.expr = p.expr
    · rw [put, if_pos h, puts_some]
      unfold tableAt
      rw [List.filter_cons_of_pos (by simpa using h)]
      rfl
    · rw [put, if_neg h, ih]
      unfold tableAt
      rw [List.filter_cons_of_neg (by simpa using h)]

/-- A table after a rule was added. -/
theorem lookup_added (t : RuleCategory) (p q : DocPath) (r : MatchingRule) (l : RuleLogic) :
    lookup (addRule t p r l).rules q = put t.name q (lookup t.rules q) ⟨t.name, p, l, r⟩ := by
  unfold addRule put
  simp only [RuleProps.lookup_upsert]
  by_cases h : q.expr = p.expr
  · have h2 : lookup t.rules p = lookup t.rules q := by
      have h3 : @keyIs RuleList p = keyIs q := by
        funext e
        unfold keyIs eqPath
        rw [h]
      unfold Rules.lookup
      rw [h3]
    rw [if_pos h, if_pos ⟨trivial, h.symm⟩, h2]
    cases lookup t.rules q <;> rfl
  · rw [if_neg h, if_neg (fun e => h e.2.symm)]

/-- The rows are added to the table of a category. -/
def Added (t t' : RuleCategory) (rows : List Row) : Prop :=
  t'.name = t.name ∧ ∀ q, lookup t'.rules q = puts t.name q (lookup t.rules q) rows

theorem added_nil (t : RuleCategory) : Added t t [] := ⟨rfl, fun _ => rfl⟩

theorem added_trans {t u v : RuleCategory} {a b : List Row} (h : Added t u a) (k : Added u v b) : Added t v (a ++ b) := by
  refine ⟨k.1.trans h.1, fun q => ?_⟩
  rw [k.2, h.2, h.1, puts_append]

theorem added_one (t : RuleCategory) (p : DocPath) (l : RuleLogic) (r : MatchingRule) :
    Added t (addRule t p r l) [Row.mk t.name p l r] := ⟨rfl, fun q => lookup_added t p q r l⟩

theorem addMatchers_iff (P : Params) (p : DocPath) (l : RuleLogic) (a : List Json) : ∀ t t' : RuleCategory,
    (addMatchers (fromJson P) p l t a = .ok t' → ∃ rs, Each (fun j r => fromJson P j = .ok r) a rs ∧
      Added t t' (rs.map fun r => Row.mk t.name p l r)) := by
  induction a with
  | nil =>
    intro t t' h
    cases h
    exact ⟨[], .nil, added_nil t⟩
  | cons j js ih =>
    intro t t' h
    obtain ⟨r, h1, h2⟩ := SessionProps.bind_eq_ok.1 h
    obtain ⟨rs, h3, h4⟩ := ih _ _ h2
    exact ⟨r :: rs, .cons h1 h3, added_trans (a := [Row.mk t.name p l r]) (added_one t p l r) h4⟩

theorem addMatchers_ok (P : Params) (p : DocPath) (l : RuleLogic) (a : List Json) (rs : List MatchingRule)
    (h : Each (fun j r => fromJson P j = .ok r) a rs) : ∀ t : RuleCategory,
    ∃ t', addMatchers (fromJson P) p l t a = .ok t' ∧ Added t t' (rs.map fun r => Row.mk t.name p l r) := by
  induction h with
  | nil => intro t; exact ⟨t, rfl, added_nil t⟩
  | cons h1 _ ih =>
    intro t
    rename_i j r js rs _
    obtain ⟨t', h3, h4⟩ := ih (addRule t p r l)
    refine ⟨t', ?_, added_trans (a := [Row.mk t.name p l r]) (added_one t p l r) h4⟩
    rw [addMatchers, h1]
    exact h3

theorem combination_iff (v : Json) (l : RuleLogic) : Combination v l ↔ combine v = l := by
  unfold combine
  constructor
  · intro h
    cases h with
    | any t h1 h2 => rw [h1]; exact if_pos h2
    | all h1 =>
      cases hc : vget "combine" v with
      | none => rfl
      | some t => exact if_neg (h1 t hc)
  · intro h
    cases hc : vget "combine" v with
    | none =>
      rw [hc] at h
      subst h
      exact .all (fun t ht => by rw [hc] at ht; cases ht)
    | some t =>
      rw [hc] at h
      by_cases ho : t.toStr.map Char.toUpper = "OR".toList
      · have : RuleLogic.or = l := (if_pos ho).symm.trans h
        subst this
        exact .any t hc ho
      · have : RuleLogic.and = l := (if_neg ho).symm.trans h
        subst this
        exact .all (fun t' ht => by rw [hc] at ht; cases ht; exact ho)

theorem addRuleList_iff (P : Params) (t t' : RuleCategory) (p : DocPath) (v : Json)
    (h : addRuleList (fromJson P) t p v = .ok t') : ∃ rows, Entry P t.name p v rows ∧ Added t t' rows := by
  unfold addRuleList at h
  split at h
  · rename_i a ha
    obtain ⟨rs, h1, h2⟩ := addMatchers_iff P p _ a t t' h
    exact ⟨_, .rules a rs _ ha ((combination_iff v _).2 rfl) h1, h2⟩
  · rename_i ha
    cases h
    exact ⟨[], .none ha, added_nil t⟩

theorem addRuleList_ok (P : Params) (t : RuleCategory) (p : DocPath) (v : Json) (rows : List Row) (h : Entry P t.name p v rows) :
    ∃ t', addRuleList (fromJson P) t p v = .ok t' ∧ Added t t' rows := by
  unfold addRuleList
  cases h with
  | rules a rs l h1 h2 h3 =>
    rw [h1, (combination_iff v l).1 h2]
    exact addMatchers_ok P p l a rs h3 t
  | none h1 =>
    refine ⟨t, ?_, added_nil t⟩
    split
    · rename_i a ha; exact absurd ha (h1 a)
    · rfl

/-! ## Keys and names -/

theorem skip_key {A : Type} (k x : Str) (v : A) (es : List (Str × A)) (h : k ≠ x) :
    Json.lookup k ((x, v) :: es) = Json.lookup k es := by
  show (if x = k then some v else Json.lookup k es) = _
  rw [if_neg (Ne.symm h)]

theorem named_iff (uc : UC) (s : Str) (c : Category) : Named uc s c ↔ catParse uc s = c := by
  unfold catParse
  generalize hs : uc.lower s = x
  constructor
  · intro h
    cases h with
    | method h => rw [← hs, h]; rfl
    | path h => rw [← hs, h]; rfl
    | header h => rcases h with h | h <;> · rw [← hs, h]; rfl
    | query h => rw [← hs, h]; rfl
    | status h => rw [← hs, h]; rfl
    | contents h => rw [← hs, h]; rfl
    | metadata h => rw [← hs, h]; rfl
    | body h =>
      rw [hs] at h
      have h1 := h "method" (by simp)
      have h2 := h "path" (by simp)
      have h3 := h "header" (by simp)
      have h4 := h "headers" (by simp)
      have h5 := h "query" (by simp)
      have h6 := h "status" (by simp)
      have h7 := h "contents" (by simp)
      have h8 := h "metadata" (by simp)
      rw [skip_key _ _ _ _ h1, skip_key _ _ _ _ h2, skip_key _ _ _ _ h3, skip_key _ _ _ _ h4, skip_key _ _ _ _ h5]
      by_cases hb : x = "body".toList
      · rw [hb]; rfl
      · rw [skip_key _ _ _ _ hb, skip_key _ _ _ _ h6, skip_key _ _ _ _ h7, skip_key _ _ _ _ h8]; rfl
  · intro h
    subst hs
    by_cases h1 : uc.lower s = "method".toList
    · rw [h1] at h; cases h; exact .method h1
    by_cases h2 : uc.lower s = "path".toList
    · rw [h2] at h; cases h; exact .path h2
    by_cases h3 : uc.lower s = "header".toList
    · rw [h3] at h; cases h; exact .header (.inl h3)
    by_cases h4 : uc.lower s = "headers".toList
    · rw [h4] at h; cases h; exact .header (.inr h4)
    by_cases h5 : uc.lower s = "query".toList
    · rw [h5] at h; cases h; exact .query h5
    by_cases h6 : uc.lower s = "status".toList
    · rw [h6] at h; cases h; exact .status h6
    by_cases h7 : uc.lower s = "contents".toList
    · rw [h7] at h; cases h; exact .contents h7
    by_cases h8 : uc.lower s = "metadata".toList
    · rw [h8] at h; cases h; exact .metadata h8
    have hc : c = .body := by
      rw [← h]
      rw [skip_key _ _ _ _ h1, skip_key _ _ _ _ h2, skip_key _ _ _ _ h3, skip_key _ _ _ _ h4, skip_key _ _ _ _ h5]
      by_cases hb : uc.lower s = "body".toList
      · rw [hb]; rfl
      · rw [skip_key _ _ _ _ hb, skip_key _ _ _ _ h6, skip_key _ _ _ _ h7, skip_key _ _ _ _ h8]; rfl
    subst hc
    refine .body (fun n hn => ?_)
    simp only [List.mem_cons, List.not_mem_nil, or_false] at hn
    rcases hn with rfl | rfl | rfl | rfl | rfl | rfl | rfl | rfl
    · exact h1
    · exact h2
    · exact h3
    · exact h4
    · exact h5
    · exact h6
    · exact h7
    · exact h8

theorem not_both (k : Str) (h : "$.headers".toList <+: k) : ¬ "$.body".toList <+: k := by
  rintro ⟨t, ht⟩
  obtain ⟨u, hu⟩ := h
  rw [← hu] at ht
  exact absurd (congrArg (fun l => l[2]?) ht) (by
    show ¬ (some 'b' = some 'h')
    decide)

theorem keyV2_iff (P : Params) (k : Str) (c : Category) (p : DocPath) : KeyV2 P k c p ↔ v2Key P k = .ok (c, p) := by
  unfold v2Key
  constructor
  · intro h
    cases h with
    | body h =>
      rw [if_pos (by rw [h, List.isPrefixOf_iff_prefix]; exact ⟨[], List.append_nil _⟩), if_pos h]
    | inBody rest p h h1 h2 =>
      rw [if_pos (by rw [h, List.isPrefixOf_iff_prefix]; exact ⟨rest, rfl⟩), if_neg (by
        rw [h]
        intro e
        exact h1 (List.append_cancel_left (e.trans (List.append_nil _).symm)))]
      have : k.drop 6 = rest := by rw [h]; rfl
      rw [this, h2]
      rfl
    | header p' q a name more h h1 h2 h3 =>
      rw [if_neg (by rw [List.isPrefixOf_iff_prefix]; exact not_both k h), if_pos (by rw [List.isPrefixOf_iff_prefix]; exact h), h1]
      simp only [Res.bind_ok]
      rw [h2]
      simp only [h3]
      rfl
    | whole p' n _ h h1 h2 h3 h4 =>
      rw [if_neg (by rw [List.isPrefixOf_iff_prefix]; exact h), if_neg (by rw [List.isPrefixOf_iff_prefix]; exact h1), h2]
      simp only [Res.bind_ok]
      rw [h3]
      simp only [(named_iff _ _ _).1 h4]
    | named p' q n name more _ h h1 h2 h3 h4 h5 =>
      rw [if_neg (by rw [List.isPrefixOf_iff_prefix]; exact h), if_neg (by rw [List.isPrefixOf_iff_prefix]; exact h1), h2]
      simp only [Res.bind_ok]
      rw [h3]
      simp only [(named_iff _ _ _).1 h4, h5]
      rfl
  · intro h
    split at h
    · rename_i hb
      rw [List.isPrefixOf_iff_prefix] at hb
      split at h
      · rename_i hk
        cases h
        exact .body hk
      · rename_i hk
        obtain ⟨rest, hr⟩ := hb
        obtain ⟨q, h1, h2⟩ := Res.map_eq_ok.1 h
        cases h2
        refine .inBody rest _ hr.symm (fun e => hk ?_) ?_
        · rw [← hr, e, List.append_nil]
        · have : k.drop 6 = rest := by rw [← hr]; rfl
          rw [← this]
          exact h1
    · rename_i hb
      rw [List.isPrefixOf_iff_prefix] at hb
      split at h
      · rename_i hh
        rw [List.isPrefixOf_iff_prefix] at hh
        obtain ⟨p', h1, h2⟩ := SessionProps.bind_eq_ok.1 h
        split at h2
        · rename_i a name more hf
          obtain ⟨q, h3, h4⟩ := Res.map_eq_ok.1 h2
          cases h4
          exact .header p' _ a name more hh h1 hf h3
        · cases h2
      · rename_i hh
        rw [List.isPrefixOf_iff_prefix] at hh
        obtain ⟨p', h1, h2⟩ := SessionProps.bind_eq_ok.1 h
        split at h2
        · cases h2
        · rename_i n hf
          cases h2
          exact .whole p' n _ hb hh h1 hf ((named_iff _ _ _).2 rfl)
        · rename_i n name more hf
          obtain ⟨q, h3, h4⟩ := Res.map_eq_ok.1 h2
          cases h4
          exact .named p' _ n name more _ hb hh h1 hf ((named_iff _ _ _).2 rfl) h3

/-! ## Categories -/

theorem each_entry (P : Params) (m : Obj) : ∀ t t' : RuleCategory, t.name ≠ .query → t.name ≠ .header →
    addEntries (fromJson P) P t m = .ok t' →
    ∃ rows, Joined (fun e rows => ∃ p, Place P t.name e.1 p ∧ Entry P t.name p e.2 rows) m rows ∧ Added t t' rows := by
  induction m with
  | nil =>
    intro t t' _ _ h
    cases h
    exact ⟨[], .nil, added_nil t⟩
  | cons e es ih =>
    intro t t' hq hh h
    obtain ⟨p, h1, h2⟩ := SessionProps.bind_eq_ok.1 h
    obtain ⟨u, h3, h4⟩ := SessionProps.bind_eq_ok.1 h2
    obtain ⟨rows, h5, h6⟩ := addRuleList_iff P t u p e.2 h3
    obtain ⟨more, h7, h8⟩ := ih u t' (by rw [h6.1]; exact hq) (by rw [h6.1]; exact hh) h4
    rw [h6.1] at h7
    exact ⟨rows ++ more, .cons ⟨p, .path p hq hh h1, h5⟩ h7, added_trans h6 h8⟩

theorem each_name (P : Params) (m : Obj) : ∀ t t' : RuleCategory, t.name = .query ∨ t.name = .header →
    addNames (fromJson P) t m = .ok t' →
    ∃ rows, Joined (fun e rows => ∃ p, Place P t.name e.1 p ∧ Entry P t.name p e.2 rows) m rows ∧ Added t t' rows := by
  induction m with
  | nil =>
    intro t t' _ h
    cases h
    exact ⟨[], .nil, added_nil t⟩
  | cons e es ih =>
    intro t t' hn h
    obtain ⟨u, h3, h4⟩ := SessionProps.bind_eq_ok.1 h
    obtain ⟨rows, h5, h6⟩ := addRuleList_iff P t u _ e.2 h3
    obtain ⟨more, h7, h8⟩ := ih u t' (by rw [h6.1]; exact hn) h4
    rw [h6.1] at h7
    exact ⟨rows ++ more, .cons ⟨_, .name hn, h5⟩ h7, added_trans h6 h8⟩

theorem joined_ok (P : Params) (c : Category) (m : Obj) (rows : List Row)
    (h : Joined (fun e rows => ∃ p, Place P c e.1 p ∧ Entry P c p e.2 rows) m rows) :
    (c ≠ .query → c ≠ .header → ∀ t : RuleCategory, t.name = c → ∃ t', addEntries (fromJson P) P t m = .ok t' ∧ Added t t' rows) ∧
    (c = .query ∨ c = .header → ∀ t : RuleCategory, t.name = c → ∃ t', addNames (fromJson P) t m = .ok t' ∧ Added t t' rows) := by
  induction h with
  | nil => exact ⟨fun _ _ t _ => ⟨t, rfl, added_nil t⟩, fun _ t _ => ⟨t, rfl, added_nil t⟩⟩
  | cons h1 _ ih =>
    obtain ⟨p, h2, h3⟩ := h1
    constructor
    · intro hq hh t ht
      cases h2 with
      | name h4 => exact (h4.elim hq hh).elim
      | path p _ _ h4 =>
        obtain ⟨u, h5, h6⟩ := addRuleList_ok P t p _ _ (by rw [ht]; exact h3)
        obtain ⟨t', h7, h8⟩ := ih.1 hq hh u (h6.1.trans ht)
        refine ⟨t', ?_, added_trans h6 h8⟩
        rw [addEntries, h4]
        simp only [Res.bind_ok]
        rw [h5]
        exact h7
    · intro hn t ht
      cases h2 with
      | path p hq hh _ => exact (hn.elim hq hh).elim
      | name h4 =>
        obtain ⟨u, h5, h6⟩ := addRuleList_ok P t _ _ _ (by rw [ht]; exact h3)
        obtain ⟨t', h7, h8⟩ := ih.2 hn u (h6.1.trans ht)
        refine ⟨t', ?_, added_trans h6 h8⟩
        rw [addNames, h5]
        exact h7

theorem category_rows (P : Params) (t t' : RuleCategory) (v : Json) (h : addV3RulesFromJson (fromJson P) P t v = .ok t') :
    ∃ rows, InCategory P t.name v rows ∧ Added t t' rows := by
  unfold addV3RulesFromJson at h
  split at h
  · rename_i hc
    cases v with
    | obj m =>
      obtain ⟨rows, h1, h2⟩ := addRuleList_iff P t t' _ _ h
      exact ⟨rows, .whole m rows (by
        intro e
        have := hc.2
        rw [show vget "matchers" (.obj m) = RuleJson.get "matchers" m from rfl, e] at this
        exact absurd this (by decide)) h1, h2⟩
    | _ => exact absurd hc.2 (by simp [vget])
  · split at h
    · rename_i m _
      split at h
      · rename_i hm
        obtain ⟨rows, h1, h2⟩ := addRuleList_iff P t t' _ _ h
        exact ⟨rows, .whole m rows (by intro e; rw [e] at hm; exact absurd hm (by decide)) h1, h2⟩
      · rename_i hm
        have hm' : RuleJson.get "matchers" m = none := by
          cases hx : RuleJson.get "matchers" m with
          | none => rfl
          | some x => rw [hx] at hm; exact absurd rfl hm
        split at h
        · rename_i hn
          obtain ⟨rows, h1, h2⟩ := each_name P m t t' hn h
          exact ⟨rows, .keyed m rows hm' h1, h2⟩
        · rename_i hn
          obtain ⟨rows, h1, h2⟩ := each_entry P m t t' (fun e => hn (.inl e)) (fun e => hn (.inr e)) h
          exact ⟨rows, .keyed m rows hm' h1, h2⟩
    · cases h

theorem category_reads (P : Params) (t : RuleCategory) (v : Json) (rows : List Row) (h : InCategory P t.name v rows) :
    ∃ t', addV3RulesFromJson (fromJson P) P t v = .ok t' ∧ Added t t' rows := by
  unfold addV3RulesFromJson
  generalize hc : t.name = c at h
  cases h with
  | whole m rows h1 h2 =>
    obtain ⟨t', h3, h4⟩ := addRuleList_ok P t _ _ _ (by rw [hc]; exact h2)
    refine ⟨t', ?_, h4⟩
    split
    · exact h3
    · simp only
      rw [if_pos (Option.isSome_iff_ne_none.2 h1)]
      exact h3
  | keyed m rows h1 h2 =>
    rw [if_neg (by
      intro e
      have := e.2
      rw [show vget "matchers" (.obj m) = RuleJson.get "matchers" m from rfl, h1] at this
      exact absurd this (by decide))]
    simp only
    rw [if_neg (by rw [h1]; decide)]
    by_cases hn : c = .query ∨ c = .header
    · rw [if_pos hn]
      exact (joined_ok P c m rows h2).2 hn t hc
    · rw [if_neg hn]
      exact (joined_ok P c m rows h2).1 (fun e => hn (.inl e)) (fun e => hn (.inr e)) t hc

/-! ## Documents -/

theorem rulesFor_replaced (m : MatchingRules) (c d : Category) (t : RuleCategory) :
    rulesForCategory ((m.filter fun e => !decide (e.1 = c)) ++ [(c, t)]) d = if d = c then some t else rulesForCategory m d := by
  induction m with
  | nil =>
    show rulesForCategory [(c, t)] d = _
    rw [MatcherTableProps.rulesForCategory_cons]
    by_cases h : d = c
    · rw [if_pos h, if_pos h.symm]
    · rw [if_neg h, if_neg (Ne.symm h)]
  | cons e es ih =>
    by_cases he : e.1 = c
    · rw [List.filter_cons_of_neg (by simpa using he), ih, MatcherTableProps.rulesForCategory_cons]
      by_cases h : d = c
      · rw [if_pos h, if_pos h]
      · rw [if_neg h, if_neg h, if_neg (fun x => h (x.symm.trans he))]
    · rw [List.filter_cons_of_pos (by simpa using he), List.cons_append, MatcherTableProps.rulesForCategory_cons,
        MatcherTableProps.rulesForCategory_cons, ih]
      by_cases h : d = c
      · rw [if_pos h, if_pos h, if_neg (fun x => he (x.trans h))]
      · rw [if_neg h, if_neg h]

theorem puts_other (c d : Category) (q : DocPath) (o : Option RuleList) (rows : List Row) (hr : ∀ r ∈ rows, r.category = c)
    (h : d ≠ c) : puts d q o rows = o := by
  induction rows generalizing o with
  | nil => rfl
  | cons x xs ih =>
    have h1 : put d q o x = o := if_neg (fun e => h (e.1.symm.trans (hr x List.mem_cons_self)))
    show puts d q (put d q o x) xs = _
    rw [h1, ih _ (fun r hr' => hr r (List.mem_cons_of_mem _ hr'))]

theorem entry_category {P : Params} {c : Category} {p : DocPath} {v : Json} {rows : List Row} (h : Entry P c p v rows) :
    ∀ r ∈ rows, r.category = c := by
  cases h with
  | none _ => intro r hr; cases hr
  | rules a rs l _ _ _ =>
    intro r hr
    obtain ⟨x, _, rfl⟩ := List.mem_map.1 hr
    rfl

theorem joined_category {P : Params} {c : Category} {m : Obj} {rows : List Row}
    (h : Joined (fun e rows => ∃ p, Place P c e.1 p ∧ Entry P c p e.2 rows) m rows) : ∀ r ∈ rows, r.category = c := by
  induction h with
  | nil => intro r hr; cases hr
  | cons h1 _ ih =>
    obtain ⟨p, _, h3⟩ := h1
    intro r hr
    rcases List.mem_append.1 hr with hr | hr
    · exact entry_category h3 r hr
    · exact ih r hr

theorem in_category {P : Params} {c : Category} {v : Json} {rows : List Row} (h : InCategory P c v rows) :
    ∀ r ∈ rows, r.category = c := by
  cases h with
  | whole m _ _ h2 => exact entry_category h2
  | keyed m _ _ h2 => exact joined_category h2

/-- The rows of the table of a category that takes the place of the old one. -/
theorem replaced_rows (m : MatchingRules) (hm : TableShape m) (c : Category) (t : RuleCategory) (rows : List Row)
    (hr : ∀ r ∈ rows, r.category = c) (h : Added ((rulesForCategory m c).getD (emptyCat c)) t rows) (d : Category) (q : DocPath) :
    rulesAt ((m.filter fun e => !decide (e.1 = c)) ++ [(c, t)]) d q = puts d q (rulesAt m d q) rows := by
  unfold rulesAt
  rw [rulesFor_replaced]
  by_cases hd : d = c
  · subst hd
    rw [if_pos rfl]
    show lookup t.rules q = _
    rw [h.2, (SessionRuleProps.category_shape m hm d).2]
    cases rulesForCategory m d <;> rfl
  · rw [if_neg hd, puts_other c d q _ rows hr hd]

theorem loadV3_rows (P : Params) (o : Obj) : ∀ m m' : MatchingRules, TableShape m → loadV3 P m o = .ok m' →
    ∃ rows, Joined (fun e rows => ∃ c, Named P.uc e.1 c ∧ InCategory P c e.2 rows) o rows ∧
      ∀ c p, rulesAt m' c p = puts c p (rulesAt m c p) rows := by
  induction o with
  | nil => intro m m' _ h; cases h; exact ⟨[], .nil, fun _ _ => rfl⟩
  | cons e es ih =>
    intro m m' hm h
    obtain ⟨k, v⟩ := e
    obtain ⟨t, h1, h2⟩ := SessionProps.bind_eq_ok.1 h
    obtain ⟨k1, k2⟩ := SessionRuleProps.category_shape m hm (catParse P.uc k)
    obtain ⟨rows, h3, h4⟩ := category_rows P _ t v h1
    obtain ⟨k3, k4⟩ := SessionRuleProps.addV3_keys _ _ _ _ _ k1 h1
    rw [k2] at h3
    obtain ⟨more, h5, h6⟩ := ih _ m' (SessionRuleProps.replaced_shape m hm _ t k3 (k4.trans k2)) h2
    refine ⟨rows ++ more, .cons ⟨_, (named_iff _ _ _).2 rfl, h3⟩ h5, fun c p => ?_⟩
    rw [h6, replaced_rows m hm _ t rows (in_category h3) h4, puts_append]

theorem loadV3_reads (P : Params) (o : Obj) (rows : List Row)
    (h : Joined (fun e rows => ∃ c, Named P.uc e.1 c ∧ InCategory P c e.2 rows) o rows) : ∀ m : MatchingRules, TableShape m →
    ∃ m', loadV3 P m o = .ok m' ∧ ∀ c p, rulesAt m' c p = puts c p (rulesAt m c p) rows := by
  induction h with
  | nil => intro m _; exact ⟨m, rfl, fun _ _ => rfl⟩
  | cons h1 _ ih =>
    intro m hm
    rename_i e es rows more _
    obtain ⟨k, v⟩ := e
    obtain ⟨c, hn, hc⟩ := h1
    have hn' := (named_iff _ _ _).1 hn
    simp only at hn' hc
    subst hn'
    obtain ⟨k1, k2⟩ := SessionRuleProps.category_shape m hm (catParse P.uc k)
    obtain ⟨t, h3, h4⟩ := category_reads P ((rulesForCategory m (catParse P.uc k)).getD (emptyCat (catParse P.uc k))) v rows
      (by rw [k2]; exact hc)
    obtain ⟨k3, k4⟩ := SessionRuleProps.addV3_keys _ _ _ _ _ k1 h3
    obtain ⟨m', h5, h6⟩ := ih _ (SessionRuleProps.replaced_shape m hm _ t k3 (k4.trans k2))
    refine ⟨m', ?_, fun d q => ?_⟩
    · rw [loadV3]
      simp only [h3, Res.bind_ok]
      exact h5
    · rw [h6, replaced_rows m hm _ t rows (in_category hc) h4, puts_append]

theorem loadV2_rows (P : Params) (o : Obj) : ∀ m m' : MatchingRules, TableShape m → loadV2 P m o = .ok m' →
    ∃ rows, Each (fun e (row : Row) => KeyV2 P e.1 row.category row.path ∧ row.logic = .and ∧ fromJson P e.2 = .ok row.rule) o rows ∧
      ∀ c p, rulesAt m' c p = puts c p (rulesAt m c p) rows := by
  induction o with
  | nil => intro m m' _ h; cases h; exact ⟨[], .nil, fun _ _ => rfl⟩
  | cons e es ih =>
    intro m m' hm h
    obtain ⟨k, v⟩ := e
    obtain ⟨cp, h1, h2⟩ := SessionProps.bind_eq_ok.1 h
    obtain ⟨m1, h3, h4⟩ := SessionProps.bind_eq_ok.1 h2
    obtain ⟨r, h5, h6⟩ := SessionProps.bind_eq_ok.1 h3
    cases h6
    obtain ⟨k1, k2⟩ := SessionRuleProps.category_shape m hm cp.1
    obtain ⟨k3, k4⟩ := SessionRuleProps.addRule_keys _ cp.2 r .and k1
    obtain ⟨more, h7, h8⟩ := ih _ m' (SessionRuleProps.replaced_shape m hm _ _ k3 (k4.trans k2)) h4
    refine ⟨Row.mk cp.1 cp.2 .and r :: more, .cons ⟨(keyV2_iff P k cp.1 cp.2).2 h1, rfl, h5⟩ h7, fun c p => ?_⟩
    have h9 := added_one ((rulesForCategory m cp.1).getD (emptyCat cp.1)) cp.2 .and r
    rw [k2] at h9
    rw [h8, replaced_rows m hm _ _ [Row.mk cp.1 cp.2 .and r] (by intro x hx; rw [List.mem_singleton.1 hx]) h9]
    exact (puts_append c p _ [_] more).symm

theorem loadV2_reads (P : Params) (o : Obj) (rows : List Row)
    (h : Each (fun e (row : Row) => KeyV2 P e.1 row.category row.path ∧ row.logic = .and ∧ fromJson P e.2 = .ok row.rule) o rows) :
    ∀ m : MatchingRules, TableShape m → ∃ m', loadV2 P m o = .ok m' ∧ ∀ c p, rulesAt m' c p = puts c p (rulesAt m c p) rows := by
  induction h with
  | nil => intro m _; exact ⟨m, rfl, fun _ _ => rfl⟩
  | cons h1 _ ih =>
    intro m hm
    rename_i e row es more _
    obtain ⟨k, v⟩ := e
    obtain ⟨c, p, l, r⟩ := row
    obtain ⟨hk, hl, hr⟩ := h1
    simp only at hk hl hr
    subst hl
    obtain ⟨k1, k2⟩ := SessionRuleProps.category_shape m hm c
    obtain ⟨k3, k4⟩ := SessionRuleProps.addRule_keys _ p r .and k1
    obtain ⟨m', h7, h8⟩ := ih _ (SessionRuleProps.replaced_shape m hm _ _ k3 (k4.trans k2))
    refine ⟨m', ?_, fun d q => ?_⟩
    · rw [loadV2, (keyV2_iff P k c p).1 hk]
      simp only [Res.bind_ok, addV2Rule, hr]
      exact h7
    · have h9 := added_one ((rulesForCategory m c).getD (emptyCat c)) p .and r
      rw [k2] at h9
      rw [h8, replaced_rows m hm _ _ [Row.mk c p .and r] (by intro x hx; rw [List.mem_singleton.1 hx]) h9]
      exact (puts_append d q _ [_] more).symm

theorem rulesAt_empty (c : Category) (p : DocPath) : rulesAt [] c p = none := rfl

/-! ## The property -/

/-- **C168** (what is said): a document of matching rules with the rows `rows` can be read, and for every category and every path
the rules that were read are the rules of its rows, in the order of the document, combined as the first of them says. -/
theorem C168_meaning (P : Params) (v : Json) (o : Obj) (rows : List Row) (hv : vget "matchingRules" v = some (.obj o))
    (h : Document P o rows) (old : Option String) :
    ∃ m, matchersFromJson P v old = .ok m ∧ ∀ c p, rulesAt m c p = tableAt rows c p := by
  unfold matchersFromJson
  rw [hv]
  simp only [Option.some_or]
  cases h with
  | v3 _ _ hk h =>
    obtain ⟨m, h1, h2⟩ := loadV3_reads P o rows h [] SessionRuleProps.shape_nil
    refine ⟨m, ?_, fun c p => by rw [h2, rulesAt_empty, puts_none]⟩
    cases o with
    | nil => exact h1
    | cons e es =>
      obtain ⟨k, x⟩ := e
      simp only
      rw [if_neg (hk k x es rfl)]
      exact h1
  | v2 k x es _ hk h =>
    obtain ⟨m, h1, h2⟩ := loadV2_reads P _ rows h [] SessionRuleProps.shape_nil
    refine ⟨m, ?_, fun c p => by rw [h2, rulesAt_empty, puts_none]⟩
    simp only
    rw [if_pos hk]
    exact h1

/-- **C168** (nothing else): if a document of matching rules is read, then every part of it is a rule at a place as described; it has
rows. -/
theorem C168_complete (P : Params) (v : Json) (o : Obj) (hv : vget "matchingRules" v = some (.obj o)) (old : Option String)
    (m : MatchingRules) (h : matchersFromJson P v old = .ok m) :
    ∃ rows, Document P o rows ∧ ∀ c p, rulesAt m c p = tableAt rows c p := by
  have hrows : ∃ rows, Document P o rows := by
    unfold matchersFromJson at h
    rw [hv] at h
    simp only [Option.some_or] at h
    cases o with
    | nil => exact ⟨[], .v3 [] [] (by intro k v es e; cases e) .nil⟩
    | cons e es =>
      obtain ⟨k, x⟩ := e
      simp only at h
      by_cases hk : k.head? = some '$'
      · rw [if_pos hk] at h
        obtain ⟨rows, h1, _⟩ := loadV2_rows P _ [] m SessionRuleProps.shape_nil h
        exact ⟨rows, .v2 k x es rows hk h1⟩
      · rw [if_neg hk] at h
        obtain ⟨rows, h1, _⟩ := loadV3_rows P _ [] m SessionRuleProps.shape_nil h
        exact ⟨rows, .v3 _ rows (by intro k' v' es' e; cases e; exact hk) h1⟩
  obtain ⟨rows, hr⟩ := hrows
  obtain ⟨m', h1, h2⟩ := C168_meaning P v o rows hv hr old
  rw [h] at h1
  cases h1
  exact ⟨rows, hr, h2⟩

/-- **C168** (missing): without `matchingRules`, or if it is not an object, there are no rules. -/
theorem C168_missing (P : Params) (v : Json) (h : ∀ o, vget "matchingRules" v ≠ some (.obj o)) :
    matchersFromJson P v none = .ok [] := by
  unfold matchersFromJson
  simp only [Option.bind_none, Option.or_none]
  split
  · rename_i k x es hx
    exact absurd hx (h _)
  · rfl

/-! ## Non-vacuity -/

/-- `{"body": {"$.a": {"combine": "or", "matchers": [{"match": "type"}, {"match": "regex", "regex": "x"}]}},
"Headers": {"A": {"matchers": [{"match": "semver"}]}}, "path": {"matchers": [{"match": "equality"}]}}`. -/
def exDoc : Obj :=
  [("body".toList, .obj [("$.a".toList, .obj [("combine".toList, .str "or".toList), ("matchers".toList,
      .arr [.obj [("match".toList, .str "type".toList)],
        .obj [("match".toList, .str "regex".toList), ("regex".toList, .str "x".toList)]])])]),
   ("Headers".toList, .obj [("A".toList, .obj [("matchers".toList, .arr [.obj [("match".toList, .str "semver".toList)]])])]),
   ("path".toList, .obj [("matchers".toList, .arr [.obj [("match".toList, .str "equality".toList)]])])]

def exPath : DocPath := pushField rootPath "a".toList

def exRows : List Row :=
  [Row.mk .body exPath .or .type, Row.mk .body exPath .or (.regex "x".toList)] ++ [] ++
    ([Row.mk .header (pushField rootPath "A".toList) .and .semver] ++ [] ++
      ([Row.mk .path Path.empty .and .equality] ++ []))

set_option maxRecDepth 100000 in
theorem example_document : Document RuleJsonProps.exP exDoc exRows := by
  refine .v3 _ _ (by intro k v es e; cases e; decide) (.cons ⟨.body, .body (by decide), .keyed _ _ (by decide) ?_⟩
    (.cons ⟨.header, .header (.inr (by decide)), .keyed _ _ (by decide) ?_⟩
    (.cons ⟨.path, .path (by decide), .whole _ _ (by decide) ?_⟩ .nil)))
  · refine .cons ⟨exPath, .path _ (by decide) (by decide) (by rfl), ?_⟩ .nil
    exact .rules _ [.type, .regex "x".toList] .or rfl (.any (.str "or".toList) rfl (by decide)) (.cons rfl (.cons rfl .nil))
  · refine .cons ⟨_, .name (.inr rfl), ?_⟩ .nil
    exact .rules _ [.semver] .and rfl (.all (by intro t h; cases h)) (.cons rfl .nil)
  · exact .rules _ [.equality] .and rfl (.all (by intro t h; cases h)) (.cons rfl .nil)

/-- Both rules of the path in the body, one of which is enough. -/
theorem example_table : tableAt exRows .body exPath = some ⟨[.type, .regex "x".toList], .or, false⟩ := by rfl

/-- `{"$.body.a": {"match": "type"}, "$.headers.B": {"match": "semver"}, "$.path": {"match": "equality"}}`. -/
def exDocV2 : Obj :=
  [("$.body.a".toList, .obj [("match".toList, .str "type".toList)]),
   ("$.headers.B".toList, .obj [("match".toList, .str "semver".toList)]),
   ("$.path".toList, .obj [("match".toList, .str "equality".toList)])]

set_option maxRecDepth 100000 in
theorem example_document_v2 : Document RuleJsonProps.exP exDocV2
    [Row.mk .body exPath .and .type, Row.mk .header (DocPath.mk [.root, .field "B".toList] "B".toList) .and .semver, Row.mk .path Path.empty .and .equality] := by
  refine .v2 _ _ _ _ (by decide) (.cons ⟨?_, rfl, rfl⟩ (.cons ⟨?_, rfl, rfl⟩ (.cons ⟨?_, rfl, rfl⟩ .nil)))
  · exact .inBody ".a".toList _ (by decide) (by decide) (by rfl)
  · exact .header (Path.fromTokens [.root, .field "headers".toList, .field "B".toList]) _ "headers".toList "B".toList []
      (by decide) (by rfl) (by rfl) (by rfl)
  · exact .whole (Path.fromTokens [.root, .field "path".toList]) "path".toList _ (by decide) (by decide) (by rfl) (by rfl)
      (.path (by decide))




end ReadDocProps
end Verif
