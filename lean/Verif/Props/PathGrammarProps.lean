import Verif.PathLemmas

/-
  Property theorems about document paths: C52 (the language accepted by `DocPath::new`) and C53 (navigation:
  `parent`, `drop`, `join_index`, `join_field`, `to_lower_case`, the shape queries).
-/

set_option autoImplicit false

namespace Verif.PathGrammarProps
open Path

/-! ## C52 The accepted language -/

/-- Characters of an unquoted name: letters, digits and `_ - : # @`. -/
def NameChar (uc : UC) (c : Char) : Prop :=
  uc.alphabetic c = true ∨ uc.numeric c = true ∨ c ∈ ['_', '-', ':', '#', '@']

/-- The written forms of one path segment and what each denotes. -/
inductive Segment (uc : UC) : PathToken → Str → Prop
  | name (n : Str) (hne : n ≠ []) (h : ∀ c ∈ n, NameChar uc c) : Segment uc (.field n) ('.' :: n)
  | wildcard : Segment uc .star ".*".toList
  | quoted (k : Str) (hne : k ≠ []) (h : '\'' ∉ k) : Segment uc (.field k) ("['".toList ++ k ++ "']".toList)
  | position (ds : Str) (n : Nat) (hne : ds ≠ []) (h : ∀ c ∈ ds, uc.numeric c = true)
      (hn : parseUsize ds = some n) : Segment uc (.index n) ("[".toList ++ ds ++ "]".toList)
  | anyPosition : Segment uc .starIndex "[*]".toList

/-- A sequence of written segments. -/
inductive Segments (uc : UC) : List PathToken → Str → Prop
  | nil : Segments uc [] []
  | cons {t : PathToken} {seg : Str} {ts : List PathToken} {s : Str} (h : Segment uc t seg)
      (hs : Segments uc ts s) : Segments uc (t :: ts) (seg ++ s)

/-- Path expressions: the empty text; `$` followed by segments; or a name that starts with a letter or digit
followed by segments. -/
inductive Expression (uc : UC) : List PathToken → Str → Prop
  | empty : Expression uc [] []
  | rooted {ts : List PathToken} {s : Str} (h : Segments uc ts s) : Expression uc (.root :: ts) ('$' :: s)
  | bare {ts : List PathToken} {s : Str} (c : Char) (n : Str)
      (hc : uc.alphabetic c = true ∨ uc.numeric c = true) (hn : ∀ x ∈ n, NameChar uc x)
      (h : Segments uc ts s) : Expression uc (.root :: .field (c :: n) :: ts) (c :: n ++ s)

theorem nameChar_iff (uc : UC) (c : Char) : isIdentifierChar uc c = true ↔ NameChar uc c := by
  simp only [isIdentifierChar, NameChar, Bool.or_eq_true, beq_iff_eq, List.mem_cons, List.not_mem_nil,
    or_false]
  constructor
  · rintro ((((((h | h) | h) | h) | h) | h) | h) <;> simp [h]
  · rintro (h | h | h | h | h | h | h) <;> simp [h]

theorem nameChar_ne_star (uc : UC) {c : Char} (h : isIdentifierChar uc c = true) : c ≠ '*' := by
  intro e; subst e
  have := uc_not_alnum uc '*' (by decide) (by decide) (by decide)
  simp [isIdentifierChar, this.1, this.2] at h

theorem segments_stop {uc : UC} {ts : List PathToken} {s : Str} (h : Segments uc ts s) : IdStop s := by
  cases h with
  | nil => exact Or.inl rfl
  | cons h hs =>
    right
    cases h with
    | name n hne h => exact ⟨'.', _, rfl, Or.inl rfl⟩
    | wildcard => exact ⟨'.', _, rfl, Or.inl rfl⟩
    | quoted k hne h => exact ⟨'[', _, rfl, Or.inr (Or.inr rfl)⟩
    | position ds n hne h hn => exact ⟨'[', _, rfl, Or.inr (Or.inr rfl)⟩
    | anyPosition => exact ⟨'[', _, rfl, Or.inr (Or.inr rfl)⟩

theorem segText_of_segment {uc : UC} {t : PathToken} {seg r : Str} (h : Segment uc t seg)
    (hr : IdStop r) : SegText uc t seg r := by
  cases h with
  | name n hne h =>
    cases n with
    | nil => exact absurd rfl hne
    | cons c id =>
      have hc := (nameChar_iff uc c).2 (h c (by simp))
      exact .ident c id r hc (nameChar_ne_star uc hc)
        (fun x hx => (nameChar_iff uc x).2 (h x (by simp [hx]))) hr
  | wildcard => exact .star r
  | quoted k hne h =>
    have := SegText.string (uc := uc) k r hne h
    simpa using this
  | position ds n hne h hn =>
    have := SegText.index (uc := uc) ds n r hne h hn
    simpa using this
  | anyPosition => exact .starIndex r

theorem segment_of_segText {uc : UC} {t : PathToken} {seg r : Str} (h : SegText uc t seg r) :
    Segment uc t seg := by
  cases h with
  | star => exact .wildcard
  | ident c id r hc hs hid hr =>
    exact .name (c :: id) (by simp) (by
      intro x hx
      rcases List.mem_cons.1 hx with rfl | hx
      · exact (nameChar_iff uc _).1 hc
      · exact (nameChar_iff uc _).1 (hid x hx))
  | string k r hk hq =>
    have := Segment.quoted (uc := uc) k hk hq
    simpa using this
  | index ds n r hne hd hp =>
    have := Segment.position (uc := uc) ds n hne hd hp
    simpa using this
  | starIndex => exact .anyPosition

theorem pathExpF_segments (uc : UC) (ts : List PathToken) : ∀ (s : Str) (f : Nat),
    Segments uc ts s → s.length ≤ f → pathExpF uc f s = .ok ts := by
  induction ts with
  | nil => intro s f h hf; cases h; cases f <;> rfl
  | cons t ts ih =>
    intro s f h hf
    cases h with
    | @cons _ seg _ s' h hs =>
      have hst := segment_of_text uc (segText_of_segment h (segments_stop hs))
      have hlen := (segment_ok uc _ _ _ hst).2
      cases hc : seg ++ s' with
      | nil => rw [hc] at hlen; simp at hlen
      | cons c cs =>
        rw [hc] at hst hlen hf
        cases f with
        | zero => simp at hf
        | succ f =>
          simp only [pathExpF, hst, Res.bind_ok]
          rw [ih s' f hs (by simp only [List.length_cons] at hlen hf; omega)]
          rfl

theorem segments_of_pathExpF (uc : UC) : ∀ (f : Nat) (s : Str) (ts : List PathToken),
    pathExpF uc f s = .ok ts → Segments uc ts s := by
  intro f
  induction f with
  | zero =>
    intro s ts h
    cases s with
    | nil => simp [pathExpF] at h; subst h; exact .nil
    | cons c cs => simp [pathExpF] at h
  | succ f ih =>
    intro s ts h
    cases s with
    | nil => simp [pathExpF] at h; subst h; exact .nil
    | cons c cs =>
      simp only [pathExpF] at h
      cases hs : segment uc (c :: cs) with
      | err => simp [hs] at h
      | panic => simp [hs] at h
      | ok x =>
        simp only [hs, Res.bind_ok, Res.map_eq_ok] at h
        obtain ⟨rest, h1, rfl⟩ := h
        obtain ⟨seg, e, hseg⟩ := segment_text uc _ _ _ hs
        rw [e]
        exact .cons (segment_of_segText hseg) (ih _ _ h1)

/-- C52: for every text and every list of segments, `DocPath::new` accepts the text with those segments
exactly if the text is a written form of them (and it then keeps the text). -/
theorem C52_grammar (uc : UC) (s : Str) (p : DocPath) :
    Path.new uc s = .ok p ↔ Expression uc p.tokens s ∧ p.expr = s := by
  have key : ∀ ts, parsePathExp uc s = .ok ts ↔ Expression uc ts s := by
    intro ts
    constructor
    · intro h
      cases s with
      | nil => simp [parsePathExp] at h; subst h; exact .empty
      | cons c cs =>
        simp only [parsePathExp] at h
        split at h
        · rename_i hc
          rw [Res.map_eq_ok] at h
          obtain ⟨rest, h1, rfl⟩ := h
          subst hc
          exact .rooted (segments_of_pathExpF uc _ _ _ h1)
        · split at h
          · rename_i hd hc
            cases hi : identifier uc c cs with
            | err => simp [hi] at h
            | panic => simp [hi] at h
            | ok x =>
              simp only [hi, Res.bind_ok, Res.map_eq_ok] at h
              obtain ⟨rest, h1, rfl⟩ := h
              have hq : c ≠ '\'' := by
                intro e; subst e
                have := uc_not_alnum uc '\'' (by decide) (by decide) (by decide)
                simp [this.1, this.2] at hc
              obtain ⟨_, _, id, e1, e2, e3, e4⟩ := identifier_ok uc c cs _ _ hq hi
              rw [e1, e2]
              exact .bare c id (by simpa [Bool.or_eq_true] using hc)
                (fun y hy => (nameChar_iff uc y).1 (e3 y hy)) (segments_of_pathExpF uc _ _ _ h1)
          · simp at h
    · intro h
      cases h with
      | empty => rfl
      | rooted h =>
        simp only [parsePathExp, if_true]
        unfold pathExp
        rw [pathExpF_segments uc _ _ _ h (Nat.le_refl _)]; rfl
      | @bare ts s' c n hc hn h =>
        have hd : c ≠ '$' := by
          intro e; subst e
          have := uc_not_alnum uc '$' (by decide) (by decide) (by decide)
          simp [this.1, this.2] at hc
        have hc' : (uc.alphabetic c || uc.numeric c) = true := by
          rcases hc with h | h <;> simp [h]
        simp only [List.cons_append, parsePathExp, hd, if_false, hc', if_true, identifier]
        rw [identLoop_of_stop uc n s' (fun x hx => (nameChar_iff uc x).2 (hn x hx)) (segments_stop h)]
        simp only [Res.map_ok, Res.bind_ok]
        unfold pathExp
        rw [pathExpF_segments uc _ _ _ h (Nat.le_refl _)]; rfl
  unfold Path.new
  rw [Res.map_eq_ok]
  constructor
  · rintro ⟨ts, h1, rfl⟩; exact ⟨(key ts).1 h1, rfl⟩
  · rintro ⟨h1, h2⟩
    refine ⟨p.tokens, (key _).2 h1, ?_⟩
    cases p; simp at h2; subst h2; rfl

/-- The grammar is not trivial: a path with every form of segment. -/
example : Expression UC.ascii [.root, .field "a-b".toList, .star, .field "x y".toList, .index 10, .starIndex]
    "$.a-b.*['x y'][10][*]".toList :=
  .rooted (.cons (.name "a-b".toList (by decide) (by unfold NameChar; decide)) (.cons .wildcard
    (.cons (.quoted "x y".toList (by decide) (by decide)) (.cons
      (.position "10".toList 10 (by decide) (by decide) (by decide)) (.cons .anyPosition .nil)))))

/-- A consequence: two different segment lists never have a common written form. -/
theorem C52_unambiguous (uc : UC) (s : Str) (ts ts' : List PathToken) (h : Expression uc ts s)
    (h' : Expression uc ts' s) : ts = ts' := by
  have e1 := (C52_grammar uc s ⟨ts, s⟩).2 ⟨h, rfl⟩
  have e2 := (C52_grammar uc s ⟨ts', s⟩).2 ⟨h', rfl⟩
  rw [e1] at e2
  simp at e2
  exact e2

/-- Spaces, dots or quotes in a name need quoting: they are rejected unquoted. -/
example : Path.new UC.ascii "$.a b".toList = .err ∧ Path.new UC.ascii "$.a'".toList = .err
    ∧ Path.new UC.ascii "$.".toList = .err ∧ Path.new UC.ascii "$[1".toList = .err
    ∧ Path.new UC.ascii "$['']".toList = .err ∧ Path.new UC.ascii "$[-1]".toList = .err := by decide

/-! ## C53 Navigation -/

/-- C53 (parent): a path with at least two segments has as parent the path of all segments but the last,
printed afresh; a path with fewer has none. -/
theorem C53_parent (p : DocPath) :
    (∀ q, parent p = some q ↔ ∃ init last, init ≠ [] ∧ p.tokens = init ++ [last] ∧
      q = ⟨init, buildExpr init⟩)
    ∧ (parent p = none ↔ p.tokens = [] ∨ ∃ t, p.tokens = [t]) := by
  unfold parent
  rcases List.eq_nil_or_concat p.tokens with h | ⟨init, last, h⟩
  · simp [h]
  · rw [List.concat_eq_append] at h
    cases init with
    | nil =>
      simp only [h, List.nil_append, List.length_cons, List.length_nil, if_true, Nat.le_refl, Nat.zero_add]
      constructor
      · intro q
        constructor
        · intro h; simp at h
        · rintro ⟨init, last', hi, e, _⟩
          cases init with
          | nil => exact absurd rfl hi
          | cons a as => simp at e
      · simp
    | cons a as =>
      have hl : ¬ p.tokens.length ≤ 1 := by rw [h]; simp
      rw [if_neg hl, h]
      constructor
      · intro q
        constructor
        · intro e
          refine ⟨a :: as, last, by simp, rfl, ?_⟩
          simp only [Option.some.injEq] at e
          rw [← e, fromTokens, List.dropLast_concat]
        · rintro ⟨i', l', _, e, rfl⟩
          obtain ⟨e1, _⟩ := List.append_inj' e rfl
          rw [← e1, fromTokens, List.dropLast_concat]
      · simp

example : parent (fromTokens [.root, .field "a".toList, .index 3])
    = some (fromTokens [.root, .field "a".toList]) := by decide

/-- C53 (drop): dropping `n` segments keeps the others, printed afresh; if nothing is left the result is the
root path. -/
theorem C53_drop (p : DocPath) (keep gone : List PathToken) (h : p.tokens = keep ++ gone) :
    drop p gone.length = (if keep = [] then ⟨[.root], ['$']⟩ else ⟨keep, buildExpr keep⟩) := by
  unfold drop
  simp only [h, List.length_append, Nat.add_sub_cancel, List.take_left]
  cases keep <;> rfl

/-- C53 (drop, too many): dropping more segments than there are gives the root path. -/
theorem C53_drop_all (p : DocPath) (n : Nat) (h : p.tokens.length ≤ n) : drop p n = ⟨[.root], ['$']⟩ := by
  unfold drop
  have : p.tokens.length - n = 0 := by omega
  simp [this]
  rfl

example : drop (fromTokens [.root, .field "a".toList, .index 3]) 1 = fromTokens [.root, .field "a".toList] ∧
    drop (fromTokens [.root, .field "a".toList]) 5 = rootPath := by decide

/-- C53 (join_index): indexing replaces a trailing wildcard of either kind and otherwise appends. -/
theorem C53_join_index (init : List PathToken) (last : PathToken) (i : Nat)
    (expr : Str) (he : expr = buildExpr (init ++ [last])) :
    joinIndex ⟨init ++ [last], expr⟩ i =
      (if last = .star ∨ last = .starIndex then ⟨init ++ [.index i], buildExpr (init ++ [.index i])⟩
       else ⟨init ++ [last, .index i], buildExpr (init ++ [last, .index i])⟩) := by
  unfold joinIndex
  have e2 : init ++ [last, PathToken.index i] = init ++ [last] ++ [.index i] := by simp
  subst he
  cases last <;>
    simp [fromTokens, pushIndex, List.getLast?_append, buildExpr_append, buildExpr, tokenExpr]

/-- C53 (join_field): naming a field replaces a trailing `.*` and otherwise appends. -/
theorem C53_join_field (init : List PathToken) (last : PathToken) (k : Str)
    (expr : Str) (he : expr = buildExpr (init ++ [last])) :
    joinField ⟨init ++ [last], expr⟩ k =
      (if last = .star then ⟨init ++ [.field k], buildExpr (init ++ [.field k])⟩
       else ⟨init ++ [last, .field k], buildExpr (init ++ [last, .field k])⟩) := by
  unfold joinField
  subst he
  cases last <;>
    simp [fromTokens, pushField, List.getLast?_append, buildExpr_append, buildExpr, tokenExpr]

example : joinIndex (fromTokens [.root, .field "a".toList, .starIndex]) 3
      = fromTokens [.root, .field "a".toList, .index 3] ∧
    joinField (fromTokens [.root, .starIndex]) "b".toList = fromTokens [.root, .starIndex, .field "b".toList] := by
  decide

/-- C53 (shape): the root test holds exactly for the one-segment path `$`, the wildcard test exactly for a
path that ends in `.*`, and the first field is the first segment that is a name. -/
theorem C53_shape (p : DocPath) :
    (isRoot p = true ↔ p.tokens = [.root])
    ∧ (isWildcard p = true ↔ ∃ init, p.tokens = init ++ [.star])
    ∧ (∀ k, firstField p = some k ↔ ∃ pre post, p.tokens = pre ++ .field k :: post ∧
        ∀ t ∈ pre, ∀ n, t ≠ .field n) := by
  refine ⟨by simp [isRoot], ?_, ?_⟩
  · simp only [isWildcard, decide_eq_true_eq]
    rw [List.getLast?_eq_some_iff]
  · intro k
    unfold firstField
    induction p.tokens with
    | nil => simp
    | cons t ts ih =>
      cases ht : t with
      | field n =>
        simp only [List.findSome?_cons]
        constructor
        · intro h
          simp only [Option.some.injEq] at h
          subst h
          exact ⟨[], ts, rfl, by simp⟩
        · rintro ⟨pre, post, e, hp⟩
          cases pre with
          | nil => simp at e; simp [e.1]
          | cons a as =>
            simp at e
            exact absurd e.1.symm (hp a (by simp) n)
      | _ =>
        simp only [List.findSome?_cons]
        rw [ih]
        constructor
        · rintro ⟨pre, post, e, hp⟩
          exact ⟨_ :: pre, post, by rw [e]; rfl, by
            intro x hx
            rcases List.mem_cons.1 hx with rfl | hx
            · simp
            · exact hp x hx⟩
        · rintro ⟨pre, post, e, hp⟩
          cases pre with
          | nil => simp at e
          | cons a as =>
            simp at e
            exact ⟨as, post, e.2, fun x hx => hp x (by simp [hx])⟩

/-- C53 (lower case): lower-casing keeps the number and the kinds of the segments and lower-cases the names
only. -/
theorem C53_to_lower_case (uc : UC) (p : DocPath) :
    (toLowerCase uc p).tokens.length = p.tokens.length ∧
    ∀ i (h : i < p.tokens.length), (toLowerCase uc p).tokens[i]? = some (match p.tokens[i] with
      | .field n => .field (uc.lower n)
      | t => t) := by
  unfold toLowerCase
  refine ⟨by simp, ?_⟩
  intro i h
  rw [List.getElem?_map, List.getElem?_eq_getElem h]
  cases p.tokens[i] <;> rfl

example : toLowerCase UC.ascii (fromTokens [.root, .field "Content-Type".toList])
    = fromTokens [.root, .field "content-type".toList] := by decide

end Verif.PathGrammarProps
