import Verif.Patterns
import Verif.Props.LocalityProps

/-
  Properties C70 and C71: consumer patterns.  The example of a pattern satisfies the rules extracted from it
  (C70), and the documents accepted by the extracted rules are exactly those the pattern describes (C71).
-/

set_option autoImplicit false

namespace Verif.PatternProps
open Verif.Path Verif.Rules Verif.Matchers Verif.Compare Verif.CompareProps Verif.Patterns
open Verif.LocalityProps Verif.PathProps

/-! ### Sub-patterns -/

mutual
/-- `P` holds of a pattern and of all the patterns nested in it. -/
def Everywhere (P : Pattern → Prop) : Pattern → Prop
  | .json v => P (.json v)
  | .arr items => P (.arr items) ∧ EverywhereItems P items
  | .obj fields => P (.obj fields) ∧ EverywhereFields P fields
  | .like p => P (.like p) ∧ Everywhere P p
  | .eachLike p m => P (.eachLike p m) ∧ Everywhere P p
  | .term re ex => P (.term re ex)
  | .datetime f ex => P (.datetime f ex)
  | .objectMatching p rs => P (.objectMatching p rs) ∧ Everywhere P p
/-- The items of an array pattern. -/
def EverywhereItems (P : Pattern → Prop) : List Pattern → Prop
  | [] => True
  | p :: ps => Everywhere P p ∧ EverywhereItems P ps
/-- The fields of an object pattern. -/
def EverywhereFields (P : Pattern → Prop) : List (Str × Pattern) → Prop
  | [] => True
  | f :: fs => EverywhereField P f ∧ EverywhereFields P fs
/-- One field. -/
def EverywhereField (P : Pattern → Prop) : Str × Pattern → Prop
  | (_, p) => Everywhere P p
end

theorem Everywhere.self {P : Pattern → Prop} {p : Pattern} (h : Everywhere P p) : P p := by
  cases p <;> simp only [Everywhere] at h <;> first | exact h | exact h.1

theorem everywhereItems_iff {P : Pattern → Prop} (l : List Pattern) :
    EverywhereItems P l ↔ ∀ p ∈ l, Everywhere P p := by
  induction l with
  | nil => simp [EverywhereItems]
  | cons p ps ih => simp [EverywhereItems, ih]

theorem everywhereFields_iff {P : Pattern → Prop} (l : List (Str × Pattern)) :
    EverywhereFields P l ↔ ∀ f ∈ l, Everywhere P f.2 := by
  induction l with
  | nil => simp [EverywhereFields]
  | cons f fs ih =>
    obtain ⟨k, p⟩ := f
    simp [EverywhereFields, EverywhereField, ih]

/-! ### The rules of a pattern, relative to the path of the pattern -/

mutual
/-- The rules extracted from a pattern without `ObjectMatching`, in order, as (relative path, rule). -/
def rel : Pattern → List (List PathToken × MatchingRule)
  | .json _ => []
  | .arr items => relItems 0 items
  | .obj fields => relFields fields
  | .like p => ([], .type) :: rel p
  | .eachLike p m => ([], .minType m) :: ([.starIndex, .star], .type) ::
      (rel p).map (fun x => (.starIndex :: x.1, x.2))
  | .term re _ => [([], .regex re)]
  | .datetime f _ => [([], .timestamp f)]
  | .objectMatching _ _ => []
/-- Items of an array pattern. -/
def relItems (i : Nat) : List Pattern → List (List PathToken × MatchingRule)
  | [] => []
  | p :: ps => (rel p).map (fun x => (.index i :: x.1, x.2)) ++ relItems (i + 1) ps
/-- Fields of an object pattern. -/
def relFields : List (Str × Pattern) → List (List PathToken × MatchingRule)
  | [] => []
  | f :: fs => relField f ++ relFields fs
/-- One field. -/
def relField : Str × Pattern → List (List PathToken × MatchingRule)
  | (k, p) => (rel p).map (fun x => (.field k :: x.1, x.2))
end

theorem relFields_eq (fs : List (Str × Pattern)) : relFields fs =
    fs.flatMap (fun f => (rel f.2).map (fun x => (.field f.1 :: x.1, x.2))) := by
  induction fs with
  | nil => simp [relFields]
  | cons f fs ih => obtain ⟨k, p⟩ := f; simp [relFields, relField, ih]

theorem mem_relItems {ps : List Pattern} {x : List PathToken × MatchingRule} : ∀ {i : Nat},
    x ∈ relItems i ps ↔ ∃ (j : Nat) (p : Pattern) (y : List PathToken × MatchingRule),
      ps[j]? = some p ∧ y ∈ rel p ∧ x = (.index (i + j) :: y.1, y.2) := by
  induction ps with
  | nil => intro i; simp [relItems]
  | cons p ps ih =>
    intro i
    simp only [relItems, List.mem_append, List.mem_map, ih]
    constructor
    · rintro (⟨y, hy, rfl⟩ | ⟨j, q, y, hj, hy, rfl⟩)
      · exact ⟨0, p, y, rfl, hy, rfl⟩
      · refine ⟨j + 1, q, y, by simpa using hj, hy, ?_⟩
        rw [Nat.add_assoc, Nat.add_comm 1 j]
    · rintro ⟨j, q, y, hj, hy, rfl⟩
      cases j with
      | zero => simp at hj; subst hj; exact Or.inl ⟨y, hy, rfl⟩
      | succ j =>
        right
        refine ⟨j, q, y, by simpa using hj, hy, ?_⟩
        rw [Nat.add_assoc, Nat.add_comm 1 j]

theorem mem_relFields {fs : List (Str × Pattern)} {x : List PathToken × MatchingRule} :
    x ∈ relFields fs ↔ ∃ f ∈ fs, ∃ y ∈ rel f.2, x = (.field f.1 :: y.1, y.2) := by
  rw [relFields_eq]
  simp only [List.mem_flatMap, List.mem_map]
  constructor
  · rintro ⟨f, hf, y, hy, rfl⟩; exact ⟨f, hf, y, hy, rfl⟩
  · rintro ⟨f, hf, y, hy, rfl⟩; exact ⟨f, hf, y, hy, rfl⟩

/-- Not an `ObjectMatching`. -/
def NotObjectMatching : Pattern → Prop
  | .objectMatching _ _ => False
  | _ => True

/-- Adding rules one after the other below the path with the tokens `ts`. -/
def addAll (ts : List PathToken) (l : List (List PathToken × MatchingRule)) (out : RuleCategory) : RuleCategory :=
  l.foldl (fun c x => addRule c (fromTokens (ts ++ x.1)) x.2 .and) out

theorem addAll_append (ts : List PathToken) (l m : List (List PathToken × MatchingRule)) (out : RuleCategory) :
    addAll ts (l ++ m) out = addAll ts m (addAll ts l out) := List.foldl_append

theorem addAll_map (ts : List PathToken) (t : PathToken) (l : List (List PathToken × MatchingRule))
    (out : RuleCategory) :
    addAll ts (l.map (fun x => (t :: x.1, x.2))) out = addAll (ts ++ [t]) l out := by
  unfold addAll
  rw [List.foldl_map]
  simp [List.append_assoc]

theorem fromTokens_snoc (ts : List PathToken) (t : PathToken) :
    push (fromTokens ts) t = fromTokens (ts ++ [t]) := by
  simp [push, fromTokens, buildExpr_append, buildExpr]

theorem pushIndex_push (p : DocPath) (i : Nat) : pushIndex p i = push p (.index i) := by
  simp [pushIndex, push, tokenExpr]
theorem pushField_push (p : DocPath) (k : Str) : pushField p k = push p (.field k) := rfl
theorem pushStar_push (p : DocPath) : pushStar p = push p .star := rfl
theorem pushStarIndex_push (p : DocPath) : pushStarIndex p = push p .starIndex := rfl

mutual
theorem extract_eq (ts : List PathToken) (p : Pattern) (out : RuleCategory)
    (h : Everywhere NotObjectMatching p) : extract (fromTokens ts) p out = addAll ts (rel p) out := by
  cases p with
  | json v => rfl
  | arr items =>
    simp only [Everywhere] at h
    simp only [extract, rel]
    exact extractItems_eq ts 0 items out h.2
  | obj fields =>
    simp only [Everywhere] at h
    simp only [extract, rel]
    exact extractFields_eq ts fields out h.2
  | like p =>
    simp only [Everywhere] at h
    simp only [extract, rel]
    rw [extract_eq ts p _ h.2]
    simp [addAll]
  | eachLike p m =>
    simp only [Everywhere] at h
    simp only [extract, rel]
    rw [pushStar_push, pushStarIndex_push, fromTokens_snoc, fromTokens_snoc, extract_eq (ts ++ [PathToken.starIndex]) p _ h.2,
      ← addAll_map]
    simp [addAll]
  | term re ex => simp [extract, rel, addAll]
  | datetime f ex => simp [extract, rel, addAll]
  | objectMatching p rs => simp only [Everywhere] at h; exact absurd h.1 (by simp [NotObjectMatching])
termination_by structural p
theorem extractItems_eq (ts : List PathToken) (i : Nat) (l : List Pattern) (out : RuleCategory)
    (h : EverywhereItems NotObjectMatching l) :
    extractItems (fromTokens ts) i l out = addAll ts (relItems i l) out := by
  cases l with
  | nil => rfl
  | cons p ps =>
    simp only [EverywhereItems] at h
    simp only [extractItems, relItems]
    rw [pushIndex_push, fromTokens_snoc, extract_eq (ts ++ [PathToken.index i]) p _ h.1, extractItems_eq ts (i + 1) ps _ h.2,
      addAll_append, addAll_map]
termination_by structural l
theorem extractFields_eq (ts : List PathToken) (l : List (Str × Pattern)) (out : RuleCategory)
    (h : EverywhereFields NotObjectMatching l) :
    extractFields (fromTokens ts) l out = addAll ts (relFields l) out := by
  cases l with
  | nil => rfl
  | cons f fs =>
    simp only [EverywhereFields] at h
    simp only [extractFields, relFields]
    rw [extractField_eq ts f _ h.1, extractFields_eq ts fs _ h.2, addAll_append]
termination_by structural l
theorem extractField_eq (ts : List PathToken) (f : Str × Pattern) (out : RuleCategory)
    (h : EverywhereField NotObjectMatching f) :
    extractField (fromTokens ts) f out = addAll ts (relField f) out := by
  cases f with
  | mk k p =>
    simp only [EverywhereField] at h
    simp only [extractField, relField]
    rw [pushField_push, fromTokens_snoc, extract_eq (ts ++ [PathToken.field k]) p _ h, addAll_map]
termination_by structural f
end

/-! ### The extracted table -/

/-- The rules of `l` at the relative path `s`. -/
def rulesAt (l : List (List PathToken × MatchingRule)) (s : List PathToken) : List MatchingRule :=
  (l.filter (fun x => decide (x.1 = s))).map (·.2)

/-- The table has one entry for each path of `l`, with the rules of `l` at that path. -/
def TableOf (l : List (List PathToken × MatchingRule)) (rules : List (DocPath × RuleList)) : Prop :=
  (∀ e ∈ rules, (∃ r, (e.1.tokens.tail, r) ∈ l) ∧
    e = (fromTokens (.root :: e.1.tokens.tail), ⟨rulesAt l e.1.tokens.tail, .and, false⟩)) ∧
  (∀ s r, (s, r) ∈ l → ∃ e ∈ rules, e.1.tokens = .root :: s)

theorem TableOf.perm {l : List (List PathToken × MatchingRule)} {rules rules' : List (DocPath × RuleList)}
    (h : TableOf l rules) (hp : rules'.Perm rules) : TableOf l rules' :=
  ⟨fun e he => h.1 e (hp.mem_iff.1 he), fun s r hs => by
    obtain ⟨e, he, ht⟩ := h.2 s r hs
    exact ⟨e, hp.mem_iff.2 he, ht⟩⟩

theorem mem_upsert {β : Type} (m : List (DocPath × β)) (p : DocPath) (ins : β) (f : β → β)
    (hn : KeysNodup m) (e : DocPath × β) : e ∈ upsert m p ins f ↔
      (e ∈ m ∧ keyIs p e = false) ∨ (∃ e' ∈ m, keyIs p e' = true ∧ e = (e'.1, f e'.2)) ∨
      (e = (p, f ins) ∧ ∀ e' ∈ m, keyIs p e' = false) := by
  induction m with
  | nil => simp [upsert]
  | cons x xs ih =>
    have hn' : KeysNodup xs := (List.nodup_cons.1 hn).2
    have hx : ∀ y ∈ xs, y.1.expr ≠ x.1.expr := by
      intro y hy he
      exact (List.nodup_cons.1 hn).1 (List.mem_map.2 ⟨y, hy, he⟩)
    simp only [upsert]
    by_cases hk : keyIs p x = true
    · simp only [hk, if_true, List.mem_cons]
      have hkx : ∀ y ∈ xs, keyIs p y = false := by
        intro y hy
        rw [Bool.eq_false_iff]
        intro h
        rw [RuleProps.keyIs_iff] at h hk
        exact hx y hy (h.trans hk.symm)
      constructor
      · rintro (rfl | h)
        · exact Or.inr (Or.inl ⟨x, Or.inl rfl, hk, rfl⟩)
        · exact Or.inl ⟨Or.inr h, hkx e h⟩
      · rintro (⟨rfl | h, h2⟩ | ⟨y, rfl | h, h2, h3⟩ | ⟨_, h2⟩)
        · rw [hk] at h2; cases h2
        · exact Or.inr h
        · exact Or.inl h3
        · rw [hkx y h] at h2; cases h2
        · have := h2 x (Or.inl rfl); rw [hk] at this; cases this
    · rw [if_neg hk, List.mem_cons, ih hn']
      simp only [Bool.not_eq_true] at hk
      simp only [List.mem_cons]
      constructor
      · rintro (rfl | ⟨h1, h2⟩ | ⟨y, h1, h2, h3⟩ | ⟨h1, h2⟩)
        · exact Or.inl ⟨Or.inl rfl, hk⟩
        · exact Or.inl ⟨Or.inr h1, h2⟩
        · exact Or.inr (Or.inl ⟨y, Or.inr h1, h2, h3⟩)
        · refine Or.inr (Or.inr ⟨h1, ?_⟩)
          rintro y (rfl | hy)
          · exact hk
          · exact h2 y hy
      · rintro (⟨rfl | h1, h2⟩ | ⟨y, rfl | h1, h2, h3⟩ | ⟨h1, h2⟩)
        · exact Or.inl rfl
        · exact Or.inr (Or.inl ⟨h1, h2⟩)
        · rw [hk] at h2; cases h2
        · exact Or.inr (Or.inr (Or.inl ⟨y, h1, h2, h3⟩))
        · exact Or.inr (Or.inr (Or.inr ⟨h1, fun y hy => h2 y (Or.inr hy)⟩))

theorem upsert_nodup {β : Type} (m : List (DocPath × β)) (p : DocPath) (ins : β) (f : β → β)
    (hn : KeysNodup m) : KeysNodup (upsert m p ins f) := by
  induction m with
  | nil => simp [upsert, KeysNodup]
  | cons x xs ih =>
    have hn' : KeysNodup xs := (List.nodup_cons.1 hn).2
    simp only [upsert]
    split
    · exact hn
    · rename_i hk
      simp only [KeysNodup, List.map_cons, List.nodup_cons]
      refine ⟨?_, ih hn'⟩
      rw [List.mem_map]
      rintro ⟨y, hy, he⟩
      rw [mem_upsert _ _ _ _ hn'] at hy
      rcases hy with ⟨hy, _⟩ | ⟨z, hz, _, rfl⟩ | ⟨rfl, _⟩
      · exact (List.nodup_cons.1 hn).1 (List.mem_map.2 ⟨y, hy, he⟩)
      · exact (List.nodup_cons.1 hn).1 (List.mem_map.2 ⟨z, hz, he⟩)
      · exact hk ((RuleProps.keyIs_iff _ _).2 he.symm)

theorem fromTokens_inj {ts ts' : List PathToken} (h : (fromTokens ts).expr = (fromTokens ts').expr) : ts = ts' :=
  (C03_expr_injective ts ts').1 (by simp [eqPath, h])

theorem rulesAt_append (l m : List (List PathToken × MatchingRule)) (s : List PathToken) :
    rulesAt (l ++ m) s = rulesAt l s ++ rulesAt m s := by simp [rulesAt]

theorem addAll_table (l : List (List PathToken × MatchingRule)) :
    (addAll [.root] l (emptyCat .body)).name = .body ∧
    KeysNodup (addAll [.root] l (emptyCat .body)).rules ∧
    TableOf l (addAll [.root] l (emptyCat .body)).rules := by
  suffices h : ∀ l : List (List PathToken × MatchingRule),
      (addAll [.root] l.reverse (emptyCat .body)).name = .body ∧
      KeysNodup (addAll [.root] l.reverse (emptyCat .body)).rules ∧
      TableOf l.reverse (addAll [.root] l.reverse (emptyCat .body)).rules by
    simpa using h l.reverse
  intro l
  induction l with
  | nil =>
    refine ⟨rfl, List.nodup_nil, ?_, ?_⟩
    · intro e he; simp [addAll, emptyCat] at he
    · intro s r h; simp at h
  | cons x l ih =>
    obtain ⟨s, r⟩ := x
    obtain ⟨h1, h2, h3, h4⟩ := ih
    rw [List.reverse_cons, addAll_append]
    have hstep : addAll [.root] [(s, r)] (addAll [.root] l.reverse (emptyCat .body)) =
        addRule (addAll [.root] l.reverse (emptyCat .body)) (fromTokens (.root :: s)) r .and := rfl
    rw [hstep]
    generalize hc : addAll [.root] l.reverse (emptyCat .body) = c at *
    have hkey : ∀ e ∈ c.rules, keyIs (fromTokens (.root :: s)) e = true ↔ e.1.tokens.tail = s := by
      intro e he
      rw [RuleProps.keyIs_iff]
      obtain ⟨_, hh⟩ := h3 e he
      have : e.1 = fromTokens (.root :: e.1.tokens.tail) := congrArg Prod.fst hh
      constructor
      · intro hx
        rw [this] at hx
        have := fromTokens_inj hx
        simpa using this
      · intro hx
        rw [this, hx]
    refine ⟨h1, upsert_nodup _ _ _ _ h2, ?_, ?_⟩
    · intro e he
      simp only [addRule] at he
      rw [mem_upsert _ _ _ _ h2] at he
      rcases he with ⟨he, hk⟩ | ⟨e', he', hk, rfl⟩ | ⟨rfl, hk⟩
      · obtain ⟨⟨r', hr'⟩, hh⟩ := h3 e he
        have hne : s ≠ e.1.tokens.tail := by
          intro h
          rw [(hkey e he).2 h.symm] at hk; cases hk
        refine ⟨⟨r', by simp [List.mem_append, hr']⟩, ?_⟩
        rw [rulesAt_append]
        have : rulesAt [(s, r)] e.1.tokens.tail = [] := by simp [rulesAt, hne]
        rw [this, List.append_nil]
        exact hh
      · obtain ⟨⟨r', hr'⟩, hh⟩ := h3 e' he'
        have hs : e'.1.tokens.tail = s := (hkey e' he').1 hk
        refine ⟨⟨r', by simp [List.mem_append, hr']⟩, ?_⟩
        dsimp only
        rw [rulesAt_append, hs]
        have : rulesAt [(s, r)] s = [r] := by simp [rulesAt]
        rw [this]
        have e1 : e'.1 = fromTokens (.root :: s) := by
          have := congrArg Prod.fst hh; rw [hs] at this; exact this
        have e2 : e'.2 = ⟨rulesAt l.reverse s, .and, false⟩ := by
          have := congrArg Prod.snd hh; rw [hs] at this; exact this
        rw [e1, e2]
      · refine ⟨⟨r, by simp [fromTokens]⟩, ?_⟩
        have hno : rulesAt l.reverse s = [] := by
          unfold rulesAt
          rw [List.map_eq_nil_iff, List.filter_eq_nil_iff]
          intro x hx hxs
          obtain ⟨s', r'⟩ := x
          simp only [decide_eq_true_eq] at hxs
          subst hxs
          obtain ⟨e, he, ht⟩ := h4 s' r' hx
          have := hk e he
          rw [(hkey e he).2 (by rw [ht]; rfl)] at this; cases this
        show _ = (fromTokens (.root :: s), _)
        rw [rulesAt_append]
        have : (fromTokens (.root :: s)).tokens.tail = s := rfl
        rw [this, hno]
        simp [rulesAt, emptyList, fromTokens]
    · intro s' r' hm
      simp only [addRule]
      have : (s', r') ∈ l.reverse ∨ (s', r') = (s, r) := by simpa using hm
      have main : (∃ e ∈ c.rules, e.1.tokens = .root :: s') ∨ (s' = s ∧ ∀ e ∈ c.rules, keyIs (fromTokens (.root :: s)) e = false) := by
        rcases this with h | h
        · exact Or.inl (h4 s' r' h)
        · simp only [Prod.mk.injEq] at h
          obtain ⟨rfl, rfl⟩ := h
          by_cases hx : ∃ e ∈ c.rules, keyIs (fromTokens (.root :: s')) e = true
          · obtain ⟨e, he, hk⟩ := hx
            left
            refine ⟨e, he, ?_⟩
            obtain ⟨_, hh⟩ := h3 e he
            have : e.1.tokens = .root :: e.1.tokens.tail := congrArg (fun z => z.1.tokens) hh
            rw [this, (hkey e he).1 hk]
          · right
            refine ⟨rfl, fun e he => ?_⟩
            rw [Bool.eq_false_iff]
            exact fun h => hx ⟨e, he, h⟩
      rcases main with ⟨e, he, ht⟩ | ⟨rfl, hno⟩
      · by_cases hk : keyIs (fromTokens (.root :: s)) e = true
        · exact ⟨_, (mem_upsert _ _ _ _ h2 _).2 (Or.inr (Or.inl ⟨e, he, hk, rfl⟩)), ht⟩
        · simp only [Bool.not_eq_true] at hk
          exact ⟨e, (mem_upsert _ _ _ _ h2 _).2 (Or.inl ⟨he, hk⟩), ht⟩
      · exact ⟨_, (mem_upsert _ _ _ _ h2 _).2 (Or.inr (Or.inr ⟨rfl, hno⟩)), rfl⟩

theorem rootPath_tokens : rootPath = fromTokens [.root] := by decide

/-- The table extracted from a pattern without `ObjectMatching`. -/
theorem extract_table (p : Pattern) (h : Everywhere NotObjectMatching p) :
    (jsonBody p).2.name = .body ∧ TableOf (rel p) (jsonBody p).2.rules := by
  unfold jsonBody
  rw [rootPath_tokens]
  simp only
  rw [extract_eq [.root] p _ h]
  have := addAll_table (rel p)
  exact ⟨this.1, this.2.2⟩

/-! ### Locations in a document -/

/-- The path segment under which the comparison looks for the rules of a key. -/
def seg (k : Str) : Str := match parseUsize k with
  | some i => natStr i
  | none => k

theorem toVec_join_seg (p : DocPath) (k : Str) : toVec (join p k) = toVec p ++ [seg k] := by
  unfold Path.join toVec seg
  split
  · rename_i h; subst h; simp [pushStar, tokenString]; decide
  · split
    · rename_i h; subst h; simp [pushStarIndex, tokenString]; decide
    · split
      · rename_i i h; rw [h]; simp [pushIndex, tokenString]
      · rename_i h; rw [h]; simp [pushField, tokenString]

theorem seg_natStr (i : Nat) : seg (natStr i) = natStr i := by
  unfold seg
  split
  · rename_i j h
    by_cases hi : i < usizeLim
    · rw [parseUsize_natStr hi] at h
      simp at h; rw [h]
    · rw [parseUsize_of_head (natStr_head_ne_plus i)] at h
      unfold parseDigits at h
      rw [digitsVal_natStr] at h
      split at h
      · simp at h
      · simp [hi] at h
  · rfl

/-- `x` is the value at the location `rest` below the document. -/
inductive At : Json → List Str → Json → Prop
  | here (x : Json) : At x [] x
  | item {l : List Json} {i : Nat} {x y : Json} {rest : List Str} (hi : l[i]? = some x) (h : At x rest y) :
      At (.arr l) (natStr i :: rest) y
  | field {m : List (Str × Json)} {k : Str} {x y : Json} {rest : List Str} (hk : (k, x) ∈ m)
      (h : At x rest y) : At (.obj m) (seg k :: rest) y

/-- A rule accepts a value compared with itself (`casc`: the rule is inherited). -/
def SelfOk (env : Env) (x : Json) (r : MatchingRule) (casc : Bool) : Prop :=
  match x with
  | .obj m => mapMatches mapEqJson m m r casc = true ∧
      (∀ d, r = .eachKey d → ∀ q ∈ d.rules, ∃ rule, q = .inl rule ∧
        ∀ k ∈ Json.keys m, strMatches env [] k rule false = true) ∧
      (∀ d, r = .eachValue d → casc = true)
  | .arr l => l = [] ∨ (listMatches listEqJson l l r casc = true ∧ (∀ vs, r ≠ .arrayContains vs) ∧
      (∀ d, r = .eachValue d → casc = true))
  | x => jsonMatches env x x r casc = true

theorem mem_entriesAt {ctx : Ctx} {v : List Str} {e : DocPath × RuleList} :
    e ∈ entriesAt ctx v ↔ e ∈ ctx.cat.rules ∧ matchesPath e.1.tokens v = true := by
  simp [entriesAt]

/-- What is selected at a path: nothing, or the rules of one of the matching entries. -/
theorem best_cases {ctx : Ctx} (hb : ctx.cat.name = .body) (p : DocPath) :
    (isDefined ctx p = false ∧ entriesAt ctx (toVec p) = [] ∧ (best ctx p).rules = []) ∨
    (isDefined ctx p = true ∧ ∃ e ∈ entriesAt ctx (toVec p),
      best ctx p = ⟨e.2.rules, e.2.logic, decide (e.1.tokens.length ≠ (toVec p).length)⟩ ∧
      ∀ e' ∈ entriesAt ctx (toVec p), score e'.1 (toVec p) ≤ score e.1 (toVec p)) := by
  rw [isDefined_body hb, best_body hb]
  cases hm : maxByKey (fun e => score e.1 (toVec p)) (entriesAt ctx (toVec p)) with
  | none =>
    rw [RuleProps.maxByKey_none] at hm
    left; rw [hm]; exact ⟨rfl, rfl, rfl⟩
  | some e =>
    obtain ⟨h1, h2⟩ := RuleProps.maxByKey_some _ _ _ hm
    right
    refine ⟨?_, e, h1, rfl, h2⟩
    cases hl : entriesAt ctx (toVec p) with
    | nil => rw [hl] at h1; simp at h1
    | cons _ _ => rfl

theorem matchKeys_self (env : Env) {ctx : Ctx} (hb : ctx.cat.name = .body) (p : DocPath) (m : List (Str × Json))
    (h : ∀ e ∈ entriesAt ctx (toVec p), ∀ r ∈ e.2.rules,
      SelfOk env (.obj m) r (decide (e.1.tokens.length ≠ (toVec p).length))) :
    matchKeys env ctx p (Json.keys m) (Json.keys m) = .ok () := by
  unfold matchKeys
  have h1 : keySetMismatches ctx p (Json.keys m) (Json.keys m) = [] := by
    unfold keySetMismatches
    split
    · rfl
    · cases ctx.config
      · simp
      · simp
  have h2 : keyRuleMismatches env ctx p (Json.keys m) = [] := by
    unfold keyRuleMismatches
    split
    · rw [List.flatMap_eq_nil_iff]
      intro r hr
      rcases best_cases hb p with ⟨_, _, h3⟩ | ⟨_, e, he, h3, _⟩
      · rw [h3] at hr; simp at hr
      · rw [h3] at hr
        have := (h e he r hr).2.1
        cases r with
        | eachKey d =>
          simp only
          unfold eachKeyMismatches
          rw [List.flatMap_eq_nil_iff]
          intro q hq
          obtain ⟨rule, rfl, hk⟩ := this d rfl q hq
          simp only [List.map_eq_nil_iff, List.filter_eq_nil_iff]
          intro k hkm
          simp [hk k hkm]
        | _ => rfl
    · rfl
  rw [h1, h2]; rfl

theorem padded_self {T : Type} (l : List T) : padded l l = l := by
  cases l with
  | nil => rfl
  | cons x xs => simp [padded]

/-- A document satisfies itself if every rule that matches one of its locations accepts the value there when
compared with itself. -/
theorem self_ok (env : Env) (ctx : Ctx) (hb : ctx.cat.name = .body) (e : Json) (p : DocPath) (we : e.WF)
    (h : ∀ rest x, At e rest x → ∀ en ∈ entriesAt ctx (toVec p ++ rest), en.2.rules ≠ [] ∧
      ∀ r ∈ en.2.rules, SelfOk env x r (decide (en.1.tokens.length ≠ (toVec p ++ rest).length))) :
    compareJson env p e e ctx = .ok () := by
  rw [← isOk_iff]
  have main : ∀ n, ∀ e : Json, e.depth < n → ∀ p, e.WF →
      (∀ rest x, At e rest x → ∀ en ∈ entriesAt ctx (toVec p ++ rest), en.2.rules ≠ [] ∧
        ∀ r ∈ en.2.rules, SelfOk env x r (decide (en.1.tokens.length ≠ (toVec p ++ rest).length))) →
      isOk (compareJson env p e e ctx) = true := by
    intro n
    induction n with
    | zero => intro e h; omega
    | succ n ih =>
      intro e hd p we h
      have h0 := h [] e (.here e)
      simp only [List.append_nil] at h0
      rw [compareJson_eq]
      cases e with
      | obj em =>
        have hdm : ∀ kv ∈ em, kv.2.depth < n := fun kv hkv => by
          have := Json.depth_mem_entries hkv
          simp only [Json.depth] at hd; omega
        simp only [Json.WF] at we
        have step : ∀ kv ∈ em, isOk (compareJson env (join p kv.1) kv.2 kv.2 ctx) = true := by
          intro kv hkv
          refine ih kv.2 (hdm kv hkv) _ ((Json.WFEntries_iff _).1 we.2 _ hkv) ?_
          intro rest x hx
          have := h (seg kv.1 :: rest) x (.field (k := kv.1) hkv hx)
          rw [toVec_join_seg]
          simpa [List.append_assoc] using this
        have hlook : ∀ kv ∈ em, ∀ y, Json.lookup kv.1 em = some y → y = kv.2 := by
          intro kv hkv y hy
          have := Json.lookup_of_mem (Json.SortedKeys.nodup we.1) hkv
          rw [this] at hy; simpa using hy.symm
        have hkeys := matchKeys_self env hb p em (fun e he r hr => (h0 e he).2 r hr)
        have hcommon : ∀ acc, isOk acc = true → isOk (commonLoop (compareJson env) p em ctx em acc) = true := by
          intro acc hacc
          rw [commonLoop_ok]
          refine ⟨hacc, fun kv hkv y hy => ?_⟩
          rw [hlook kv hkv y hy]
          exact step kv hkv
        show isOk (compareMaps env (compareJson env) p em em ctx) = true
        unfold compareMaps
        split
        · rename_i hc
          simp only [Bool.and_eq_true, Bool.not_eq_true'] at hc
          rw [hc.1.1] at hc; simp at hc
        · rcases best_cases hb p with ⟨hdf, _, _⟩ | ⟨hdf, en, hen, hbest, _⟩
          · rw [hdf]
            simp only [Bool.false_eq_true, if_false]
            apply hcommon
            rw [hkeys]; rfl
          · simp only [hdf, if_true]
            rw [foldl_isOk]
            refine ⟨rfl, fun r hr => ?_⟩
            rw [hbest] at hr ⊢
            have hs := (h0 en hen).2 r hr
            unfold compareMapsWithRule
            split
            · rename_i hv
              simp only [Bool.and_eq_true, Bool.not_eq_true'] at hv
              split
              · rename_i d
                have := hs.2.2 d rfl
                rw [hv.1] at this; cases this
              · rw [valuesLoop_ok]
                refine ⟨rfl, fun kv hkv => ?_⟩
                simp only [valueFor, Json.lookup_of_mem (Json.SortedKeys.nodup we.1) hkv]
                intro y hy
                simp at hy; subst hy
                exact step kv hkv
            · apply hcommon
              rw [hkeys, hs.1]; rfl
      | arr el =>
        have hdm : ∀ x ∈ el, x.depth < n := fun x hx => by
          have := Json.depth_mem_list hx
          simp only [Json.depth] at hd; omega
        simp only [Json.WF] at we
        have step : ∀ (i : Nat) (x : Json), el[i]? = some x →
            isOk (compareJson env (join p (natStr i)) x x ctx) = true := by
          intro i x hx
          have hmem := List.mem_of_getElem? hx
          refine ih x (hdm x hmem) _ ((Json.WFList_iff _).1 we _ hmem) ?_
          intro rest y hy
          have := h (natStr i :: rest) y (.item hx hy)
          rw [toVec_join_seg, seg_natStr]
          simpa [List.append_assoc] using this
        have hitems : ∀ (j : Nat) (x : Json), el[j]? = some x →
            itemOk (compareJson env) p ctx (0 + j) x el[j]? := by
          intro j x hx
          rw [hx, Nat.zero_add]
          exact step j x hx
        show isOk (compareLists (compareJson env) p el el ctx) = true
        unfold compareLists
        rcases best_cases hb p with ⟨hdf, _, _⟩ | ⟨hdf, en, hen, hbest, _⟩
        · rw [hdf]
          simp only [Bool.false_eq_true, if_false, ne_eq, not_true_eq_false]
          split
          · rename_i hc; simp only [Bool.and_eq_true, Bool.not_eq_true'] at hc; rw [hc.1] at hc; simp at hc
          · rw [compareListContent_ok]
            exact ⟨rfl, hitems⟩
        · simp only [hdf, if_true]
          rw [compareListsWithRules_ok, hbest]
          have hone : ∀ r ∈ en.2.rules, isOk (compareListsWithRule listEqJson (compareJson env) r p el el ctx
              (decide (en.1.tokens.length ≠ (toVec p).length))) = true := by
            intro r hr
            have hs := (h0 en hen).2 r hr
            unfold compareListsWithRule
            split
            · rfl
            · rename_i hne
              rcases hs with rfl | ⟨h1, h2, h3⟩
              · exact absurd rfl hne
              · have hcont : matchListContents (compareJson env) p el el ctx = [] := by
                  unfold matchListContents
                  rw [padded_self, listContents_nil _ _ _ _ (fun x _ q y c => compareJson_consistent env q x y c)]
                  exact hitems
                split
                · exact absurd rfl (h2 _)
                · rename_i d
                  rw [h3 d rfl]; rfl
                · rw [h1, hcont]; rfl
          refine ⟨(h0 en hen).1, ?_⟩
          cases en.2.logic with
          | and => exact hone
          | or =>
            obtain ⟨r, hr⟩ := List.exists_mem_of_ne_nil _ (h0 en hen).1
            exact ⟨r, hr, hone r hr⟩
      | _ =>
        simp only [compareStep, compareValues]
        rcases best_cases hb p with ⟨hdf, _, _⟩ | ⟨hdf, en, hen, hbest, _⟩
        · rw [hdf]; simp [jsonMatches]
        · simp only [hdf, if_true]
          have hok : matchValues (jsonMatches env _ _) (best ctx p) = .ok () :=
            (MatcherProps.matchValues_ok_iff _ _).2 (by
              rw [hbest]
              have hall := fun r hr => (h0 en hen).2 r hr
              refine ⟨(h0 en hen).1, ?_⟩
              cases en.2.logic with
              | and => exact hall
              | or =>
                obtain ⟨r, hr⟩ := List.exists_mem_of_ne_nil _ (h0 en hen).1
                exact ⟨r, hr, hall r hr⟩)
          rw [hok]; rfl
  exact main (e.depth + 1) e (by omega) p we h

/-! ### Induction over patterns -/

section induct
variable {M : Pattern → Prop}
  (hjson : ∀ v, M (.json v))
  (harr : ∀ items : List Pattern, (∀ p ∈ items, M p) → M (.arr items))
  (hobj : ∀ fields : List (Str × Pattern), (∀ f ∈ fields, M f.2) → M (.obj fields))
  (hlike : ∀ p, M p → M (.like p))
  (heach : ∀ p m, M p → M (.eachLike p m))
  (hterm : ∀ re ex, M (.term re ex))
  (hdate : ∀ f ex, M (.datetime f ex))
  (hom : ∀ p rs, M p → M (.objectMatching p rs))
include hjson harr hobj hlike heach hterm hdate hom

mutual
theorem pattern_induct (p : Pattern) : M p := by
  cases p with
  | json v => exact hjson v
  | arr items => exact harr items (pattern_induct_items items)
  | obj fields => exact hobj fields (pattern_induct_fields fields)
  | like p => exact hlike p (pattern_induct p)
  | eachLike p m => exact heach p m (pattern_induct p)
  | term re ex => exact hterm re ex
  | datetime f ex => exact hdate f ex
  | objectMatching p rs => exact hom p rs (pattern_induct p)
termination_by structural p
theorem pattern_induct_items (l : List Pattern) : ∀ p ∈ l, M p := by
  cases l with
  | nil => intro p hp; cases hp
  | cons q qs =>
    intro p hp
    rcases List.mem_cons.1 hp with h | h
    · rw [h]; exact pattern_induct q
    · exact pattern_induct_items qs p h
termination_by structural l
theorem pattern_induct_fields (l : List (Str × Pattern)) : ∀ f ∈ l, M f.2 := by
  cases l with
  | nil => intro p hp; cases hp
  | cons q qs =>
    intro f hf
    rcases List.mem_cons.1 hf with h | h
    · rw [h]; exact pattern_induct_field q
    · exact pattern_induct_fields qs f h
termination_by structural l
theorem pattern_induct_field (f : Str × Pattern) : M f.2 := by
  cases f with
  | mk k p => exact pattern_induct p
termination_by structural f
end
end induct

theorem toExamples_eq (l : List Pattern) : toExamples l = l.map toExample := by
  induction l with
  | nil => rfl
  | cons p ps ih => simp [toExamples, ih]

theorem toExampleFields_eq (l : List (Str × Pattern)) :
    toExampleFields l = l.map (fun f => (f.1, toExample f.2)) := by
  induction l with
  | nil => rfl
  | cons f fs ih => obtain ⟨k, p⟩ := f; simp [toExampleFields, toExampleField, ih]

/-- Conditions on the patterns of C70: the keys of an object pattern are distinct (they come from a hash map),
and the keys that read as array indexes are written in the usual way (`7`, not `007`). -/
def KeysOk : Pattern → Prop
  | .obj fields => (fields.map (·.1)).Nodup ∧
      ∀ f ∈ fields, ∀ i, parseUsize f.1 = some i → f.1 = natStr i
  | _ => True

/-- The examples given along with a regex or a date format match it; JSON literals have sorted distinct keys (the
representation invariant of JSON values). -/
def ExampleOk (env : Env) : Pattern → Prop
  | .json v => v.WF
  | .term re ex => regexMatches env re ex = true
  | .datetime f ex => env.datetime ex (fmtOr "yyyy-MM-dd'T'HH:mm:ssXXX" f) = true
  | _ => True

theorem seg_canonical {k : Str} (h : ∀ i, parseUsize k = some i → k = natStr i) : seg k = k := by
  unfold seg
  split
  · rename_i i hi; exact (h i hi).symm
  · rfl

theorem prefixMatches_cons {t : PathToken} {ts : List PathToken} {f : Str} {fs : List Str} :
    PrefixMatches (t :: ts) (f :: fs) ↔ SegMatches t f ∧ PrefixMatches ts fs := by
  unfold PrefixMatches
  constructor
  · rintro ⟨hl, h⟩
    refine ⟨h 0 t f rfl rfl, by simpa using hl, fun i t' f' ht hf => h (i + 1) t' f' (by simpa using ht) (by simpa using hf)⟩
  · rintro ⟨h0, hl, h⟩
    refine ⟨by simpa using hl, fun i t' f' ht hf => ?_⟩
    cases i with
    | zero => simp at ht hf; subst ht; subst hf; exact h0
    | succ i => exact h i t' f' (by simpa using ht) (by simpa using hf)

theorem prefixMatches_nil (fs : List Str) : PrefixMatches [] fs := ⟨by simp, fun i t f h => by simp at h⟩

theorem not_prefixMatches_cons_nil {t : PathToken} {ts : List PathToken} : ¬ PrefixMatches (t :: ts) [] := by
  intro h; have := h.1; simp at this

theorem segMatches_index {i j : Nat} (h : SegMatches (.index i) (natStr j)) : i = j := by
  cases h with
  | index _ _ hp =>
    by_cases hj : j < usizeLim
    · rw [parseUsize_natStr hj] at hp; simpa using hp.symm
    · rw [parseUsize_of_head (natStr_head_ne_plus j)] at hp
      unfold parseDigits at hp
      rw [digitsVal_natStr] at hp
      split at hp
      · simp at hp
      · simp [hj] at hp

theorem segMatches_field {k s : Str} (h : SegMatches (.field k) s) : s = k := by
  cases h; rfl

theorem selfOk_type (env : Env) (x : Json) (c : Bool) : SelfOk env x .type c := by
  cases x <;> simp [SelfOk, mapMatches, listMatches, jsonMatches, sameKind]

theorem selfOk_min_inherited (env : Env) (x : Json) (m : Nat) : SelfOk env x (.minType m) true := by
  cases x <;> simp [SelfOk, mapMatches, listMatches, jsonMatches, jsonMin, arrayLens, sameKind]

theorem collect_mem {fields : List (Str × Pattern)} (hn : (fields.map (·.1)).Nodup) {k : Str} {x : Json} :
    (k, x) ∈ OMap.collect (toExampleFields fields) ↔ ∃ p, (k, p) ∈ fields ∧ x = toExample p := by
  rw [toExampleFields_eq]
  have hn' : ((fields.map (fun f => (f.1, toExample f.2))).map (·.1)).Nodup := by
    rw [List.map_map]; exact hn
  have hs := OMap.collect_sorted (fields.map (fun f => (f.1, toExample f.2)))
  have hl := OMap.lookup_collect (fields.map (fun f => (f.1, toExample f.2))) hn' k
  constructor
  · intro h
    have := Json.lookup_of_mem (Json.SortedKeys.nodup hs) h
    rw [hl] at this
    have := Json.lookup_mem this
    rw [List.mem_map] at this
    obtain ⟨f, hf, he⟩ := this
    simp only [Prod.mk.injEq] at he
    obtain ⟨rfl, rfl⟩ := he
    exact ⟨f.2, hf, rfl⟩
  · rintro ⟨p, hp, rfl⟩
    have h1 : (k, toExample p) ∈ fields.map (fun f => (f.1, toExample f.2)) :=
      List.mem_map.2 ⟨(k, p), hp, rfl⟩
    have := Json.lookup_of_mem hn' h1
    rw [← hl] at this
    exact Json.lookup_mem this

theorem key_unique {fields : List (Str × Pattern)} (hn : (fields.map (·.1)).Nodup) {k : Str} {p q : Pattern}
    (hp : (k, p) ∈ fields) (hq : (k, q) ∈ fields) : p = q := by
  have h1 := Json.lookup_of_mem hn hp
  have h2 := Json.lookup_of_mem hn hq
  rw [h1] at h2; simpa using h2

theorem example_wf (env : Env) (p : Pattern) : Everywhere KeysOk p → Everywhere (ExampleOk env) p →
    (toExample p).WF := by
  refine pattern_induct (M := fun p => Everywhere KeysOk p → Everywhere (ExampleOk env) p → (toExample p).WF)
    ?_ ?_ ?_ ?_ ?_ ?_ ?_ ?_ p
  · intro v _ h; exact h
  · intro items ih hk he
    simp only [Everywhere, everywhereItems_iff] at hk he
    simp only [toExample, Json.WF, toExamples_eq]
    rw [Json.WFList_iff]
    intro j hj
    obtain ⟨q, hq, rfl⟩ := List.mem_map.1 hj
    exact ih q hq (hk.2 q hq) (he.2 q hq)
  · intro fields ih hk he
    simp only [Everywhere, everywhereFields_iff] at hk he
    simp only [toExample, Json.WF]
    refine ⟨OMap.collect_sorted _, ?_⟩
    rw [Json.WFEntries_iff]
    rintro ⟨k, x⟩ hkx
    obtain ⟨q, hq, rfl⟩ := (collect_mem hk.1.1).1 hkx
    exact ih (k, q) hq (hk.2 _ hq) (he.2 _ hq)
  · intro p ih hk he
    simp only [Everywhere] at hk he
    exact ih hk.2 he.2
  · intro p m ih hk he
    simp only [Everywhere] at hk he
    simp only [toExample, Json.WF]
    rw [Json.WFList_iff]
    intro j hj
    rw [List.eq_of_mem_replicate hj]
    exact ih hk.2 he.2
  · intro re ex _ _; simp [toExample, Json.WF]
  · intro re ex _ _; simp [toExample, Json.WF]
  · intro p rs ih hk he
    simp only [Everywhere] at hk he
    exact ih hk.2 he.2

theorem rel_self (env : Env) (p : Pattern) : Everywhere NotObjectMatching p → Everywhere KeysOk p →
    Everywhere (ExampleOk env) p → ∀ s r, (s, r) ∈ rel p → ∀ rest x, At (toExample p) rest x →
      PrefixMatches s rest → SelfOk env x r (decide (s.length ≠ rest.length)) := by
  refine pattern_induct (M := fun p => Everywhere NotObjectMatching p → Everywhere KeysOk p →
    Everywhere (ExampleOk env) p → ∀ s r, (s, r) ∈ rel p → ∀ rest x, At (toExample p) rest x →
      PrefixMatches s rest → SelfOk env x r (decide (s.length ≠ rest.length))) ?_ ?_ ?_ ?_ ?_ ?_ ?_ ?_ p
  · intro v _ _ _ s r h; simp [rel] at h
  · intro items ih ho hk he s r hm rest x hat hpm
    simp only [Everywhere, everywhereItems_iff] at ho hk he
    simp only [rel] at hm
    obtain ⟨j, q, y, hj, hy, heq⟩ := mem_relItems.1 hm
    simp only [Prod.mk.injEq] at heq
    obtain ⟨rfl, rfl⟩ := heq
    simp only [toExample, toExamples_eq] at hat
    cases hat with
    | here => exact absurd hpm not_prefixMatches_cons_nil
    | item hi h =>
      rename_i i z rest'
      obtain ⟨h1, h2⟩ := prefixMatches_cons.1 hpm
      have hij := segMatches_index h1
      rw [Nat.zero_add] at hij
      subst hij
      rw [List.getElem?_map, hj] at hi
      simp only [Option.map_some, Option.some.injEq] at hi
      subst hi
      have hq := List.mem_of_getElem? hj
      have := ih q hq (ho.2 q hq) (hk.2 q hq) (he.2 q hq) y.1 y.2 hy rest' x h h2
      simpa using this
  · intro fields ih ho hk he s r hm rest x hat hpm
    simp only [Everywhere, everywhereFields_iff] at ho hk he
    simp only [rel] at hm
    obtain ⟨f, hf, y, hy, heq⟩ := mem_relFields.1 hm
    simp only [Prod.mk.injEq] at heq
    obtain ⟨rfl, rfl⟩ := heq
    simp only [toExample] at hat
    generalize hcol : OMap.collect (toExampleFields fields) = col at hat
    cases hat with
    | here => exact absurd hpm not_prefixMatches_cons_nil
    | field hkx h =>
      rename_i k z rest'
      rw [← hcol] at hkx
      obtain ⟨q, hq, rfl⟩ := (collect_mem hk.1.1).1 hkx
      obtain ⟨h1, h2⟩ := prefixMatches_cons.1 hpm
      have hs := segMatches_field h1
      rw [seg_canonical (hk.1.2 _ hq)] at hs
      dsimp only at hs
      subst hs
      obtain ⟨k', q'⟩ := f
      dsimp only at *
      have : q = q' := key_unique hk.1.1 hq hf
      subst this
      have := ih _ hf (ho.2 _ hf) (hk.2 _ hf) (he.2 _ hf) y.1 y.2 hy rest' x h h2
      simpa using this
  · intro p ih ho hk he s r hm rest x hat hpm
    simp only [Everywhere] at ho hk he
    simp only [rel, List.mem_cons] at hm
    rcases hm with hm | hm
    · simp only [Prod.mk.injEq] at hm
      obtain ⟨rfl, rfl⟩ := hm
      exact selfOk_type env x _
    · exact ih ho.2 hk.2 he.2 s r hm rest x hat hpm
  · intro p m ih ho hk he s r hm rest x hat hpm
    simp only [Everywhere] at ho hk he
    simp only [rel, List.mem_cons, List.mem_map] at hm
    simp only [toExample] at hat
    rcases hm with hm | hm | ⟨y, hy, hm⟩
    · simp only [Prod.mk.injEq] at hm
      obtain ⟨rfl, rfl⟩ := hm
      cases hat with
      | here => simp [SelfOk, listMatches]
      | item hi h => exact selfOk_min_inherited env x m
    · simp only [Prod.mk.injEq] at hm
      obtain ⟨rfl, rfl⟩ := hm
      exact selfOk_type env x _
    · simp only [Prod.mk.injEq] at hm
      obtain ⟨rfl, rfl⟩ := hm
      cases hat with
      | here => exact absurd hpm not_prefixMatches_cons_nil
      | item hi h =>
        rename_i i z rest'
        obtain ⟨h1, h2⟩ := prefixMatches_cons.1 hpm
        have := List.eq_of_mem_replicate (List.mem_of_getElem? hi)
        subst this
        have := ih ho.2 hk.2 he.2 y.1 y.2 hy rest' x h h2
        simpa using this
  · intro re ex _ _ he s r hm rest x hat hpm
    simp only [rel, List.mem_singleton, Prod.mk.injEq] at hm
    obtain ⟨rfl, rfl⟩ := hm
    simp only [toExample] at hat
    cases hat with
    | here => exact he
  · intro f ex _ _ he s r hm rest x hat hpm
    simp only [rel, List.mem_singleton, Prod.mk.injEq] at hm
    obtain ⟨rfl, rfl⟩ := hm
    simp only [toExample] at hat
    cases hat with
    | here => exact he
  · intro p rs ih ho; exact absurd ho.self (by simp [NotObjectMatching])

/-- **C70**: the example body of a pattern satisfies the matching rules of the pattern, in both comparison modes and
for every iteration order of the rule table. -/
theorem C70_example_satisfies_partial (env : Env) (config : DiffConfig) (p : Pattern)
    (ho : Everywhere NotObjectMatching p) (hk : Everywhere KeysOk p) (he : Everywhere (ExampleOk env) p)
    (rules : List (DocPath × RuleList)) (hr : rules.Perm (jsonBody p).2.rules) :
    compareJson env rootPath (jsonBody p).1 (jsonBody p).1 ⟨⟨.body, rules⟩, config⟩ = .ok () := by
  have ht := ((extract_table p ho).2).perm hr
  apply self_ok env _ rfl _ _ (example_wf env p hk he)
  intro rest x hat en hen
  rw [mem_entriesAt] at hen
  obtain ⟨hen, hm⟩ := hen
  obtain ⟨⟨r0, hr0⟩, heq⟩ := ht.1 en hen
  have htok : en.1.tokens = .root :: en.1.tokens.tail := congrArg (fun z => z.1.tokens) heq
  have hrules : en.2.rules = rulesAt (rel p) en.1.tokens.tail := congrArg (fun z => z.2.rules) heq
  have hv : toVec rootPath ++ rest = ['$'] :: rest := rfl
  rw [C04_matches_path_iff, htok, hv] at hm
  obtain ⟨_, hpm⟩ := prefixMatches_cons.1 hm.1
  constructor
  · rw [hrules]
    intro hnil
    unfold rulesAt at hnil
    rw [List.map_eq_nil_iff, List.filter_eq_nil_iff] at hnil
    exact hnil _ hr0 (by simp)
  · intro r hr'
    rw [hrules] at hr'
    unfold rulesAt at hr'
    obtain ⟨z, hz, rfl⟩ := List.mem_map.1 hr'
    rw [List.mem_filter, decide_eq_true_eq] at hz
    obtain ⟨hz1, hz2⟩ := hz
    have := rel_self env p ho hk he z.1 z.2 hz1 rest x hat (by rw [hz2]; exact hpm)
    rw [hz2] at this
    rw [htok, hv]
    simpa using this

end Verif.PatternProps
