import Verif.PathLemmas

/-
  Property theorems about document paths: C01, C02, C03, C04, C08.
-/

namespace Verif
namespace PathProps
open Path

/-! ## C01 print/parse round-trip -/

/-- A non-root path segment as it can be built through the public API. -/
def IsSegment : PathToken → Prop
  | .root => False
  | .index i => i < usizeLim
  | _ => True

instance : DecidablePred IsSegment := fun t => by
  cases t <;> simp only [IsSegment] <;> infer_instance

/-- Field names that survive printing and parsing. -/
def PlainKey (k : Str) : Prop := k ≠ [] ∧ '\'' ∉ k ∧ '\\' ∉ k

/-- Exact characterisation of the round-trip: the printed form of a path built from the root and any
segments parses back to the same segments iff no field name is empty or contains `'` or `\`. -/
theorem C01_roundtrip_iff (uc : UC) (ts : List PathToken) (hs : ∀ t ∈ ts, IsSegment t) :
    parsePathExp uc (buildExpr (.root :: ts)) = .ok (.root :: ts) ↔
      ∀ k, .field k ∈ ts → PlainKey k := by
  constructor
  · intro h k hk
    have hparsed : ∀ t ∈ ts, Parsed t := by
      rcases parse_ok uc _ _ h with ⟨h1, _⟩ | ⟨rest, h1, h2⟩
      · simp at h1
      · simp at h1; subst h1; exact h2
    have hpb := parse_build uc ts (fun t ht => by
      have := hparsed t ht
      cases t <;> simpa [Parsed, Parseable] using this)
    rw [h] at hpb
    simp only [Res.ok.injEq, List.cons.injEq, true_and] at hpb
    obtain ⟨hne, hq⟩ : k ≠ [] ∧ '\'' ∉ k := hparsed _ hk
    refine ⟨hne, hq, ?_⟩
    have hmap : reread (.field k) = .field k := by
      have := List.map_id ts
      have hall : ∀ t ∈ ts, reread t = id t := by
        apply List.map_inj_left.1
        rw [List.map_id]; exact hpb.symm
      exact hall _ hk
    simp only [reread] at hmap
    split at hmap
    · rename_i hi; exact isIdent_no_backslash hi
    · simp only [PathToken.field.injEq] at hmap
      exact (escapeKey_eq_self.1 hmap).1
  · intro h
    rw [parse_build uc ts]
    · congr 1
      congr 1
      conv => rhs; rw [← List.map_id ts]
      apply List.map_inj_left.2
      intro t ht
      cases t with
      | field k =>
        have := h k ht
        simp only [reread, id]
        split
        · rfl
        · rw [escapeKey_eq_self.2 ⟨this.2.2, this.2.1⟩]
      | _ => rfl
    · intro t ht
      have := hs t ht
      cases t with
      | field k => exact ⟨(h k ht).1, (h k ht).2.1⟩
      | root => exact this
      | index i => exact this
      | star => trivial
      | starIndex => trivial

/-- The round trip holds for every path without empty names, `'` and `\` (the full claim, for all
names, is refuted by `C01_roundtrip_fails`). -/
theorem C01_roundtrip_partial (uc : UC) (ts : List PathToken) (hs : ∀ t ∈ ts, IsSegment t)
    (hk : ∀ k, .field k ∈ ts → PlainKey k) :
    parsePathExp uc (buildExpr (.root :: ts)) = .ok (.root :: ts) :=
  (C01_roundtrip_iff uc ts hs).2 hk

example : (∀ t ∈ [PathToken.field "a b".toList, .index 3, .star, .field "x.y".toList, .starIndex],
      IsSegment t) ∧
    (∀ k, PathToken.field k ∈ [PathToken.field "a b".toList, .index 3, .star, .field "x.y".toList,
      .starIndex] → PlainKey k) := by
  constructor
  · decide
  · intro k hk
    simp only [List.mem_cons, PathToken.field.injEq, reduceCtorEq, List.not_mem_nil, or_false,
      false_or] at hk
    rcases hk with rfl | rfl <;> exact ⟨by decide, by decide, by decide⟩

/-- The unrestricted round trip is false: a key with an apostrophe prints to an expression which the
parser rejects, one with a backslash silently parses to a different path, and an empty key is rejected. -/
theorem C01_roundtrip_fails (uc : UC) :
    parsePathExp uc (buildExpr [.root, .field "it's".toList]) ≠ .ok [.root, .field "it's".toList] ∧
    parsePathExp uc (buildExpr [.root, .field "a\\b".toList]) = .ok [.root, .field "a\\\\b".toList] ∧
    parsePathExp uc (buildExpr [.root, .field []]) ≠ .ok [.root, .field []] := by
  refine ⟨?_, ?_, ?_⟩
  · intro h
    have := (C01_roundtrip_iff uc [.field "it's".toList] (by decide)).1 h "it's".toList (by simp)
    exact this.2.1 (by decide)
  · exact parse_build uc [.field "a\\b".toList] (by
      intro t ht; simp at ht; subst ht; exact ⟨by decide, by decide⟩)
  · intro h
    have := (C01_roundtrip_iff uc [.field []] (by decide)).1 h [] (by simp)
    exact this.1 rfl

/-- Operations by which client code grows a path. -/
inductive PathOp where
  | field (k : Str)
  | index (i : Nat)
  | star
  | starIndex
  | join (s : Str)
  | joinField (k : Str)
  | joinIndex (i : Nat)
  | parent
  | drop (n : Nat)

/-- Applying one operation (`parent` of a one-segment path gives no path: the path is kept). -/
def applyOp (p : DocPath) : PathOp → DocPath
  | .field k => pushField p k
  | .index i => pushIndex p i
  | .star => pushStar p
  | .starIndex => pushStarIndex p
  | .join s => Path.join p s
  | .joinField k => Path.joinField p k
  | .joinIndex i => Path.joinIndex p i
  | .parent => (Path.parent p).getD p
  | .drop n => Path.drop p n

/-- Consistency of the stored expression with the segments, for a path that starts at the root. -/
def Consistent (p : DocPath) : Prop :=
  p.expr = buildExpr p.tokens ∧ ∃ ts, p.tokens = .root :: ts ∧ .root ∉ ts

theorem consistent_push (p : DocPath) (t : PathToken) (ht : t ≠ .root) (h : Consistent p) :
    Consistent ⟨p.tokens ++ [t], p.expr ++ tokenExpr t⟩ := by
  obtain ⟨h1, ts, h2, h3⟩ := h
  refine ⟨by simp [buildExpr_append, buildExpr, h1], ts ++ [t], by simp [h2], ?_⟩
  simp [h3, Ne.symm ht]

theorem consistent_fromTokens (ts : List PathToken) (h : .root ∉ ts) :
    Consistent (fromTokens (.root :: ts)) := ⟨rfl, ts, rfl, h⟩

theorem consistent_applyOp (p : DocPath) (op : PathOp) (h : Consistent p) :
    Consistent (applyOp p op) := by
  have hlast : ∀ t, p.tokens.getLast? = some t → t ≠ .root →
      ∃ ts, p.tokens.dropLast = .root :: ts ∧ .root ∉ ts := by
    intro t ht hne
    obtain ⟨h1, ts, h2, h3⟩ := h
    cases ts with
    | nil => rw [h2] at ht; simp at ht; exact absurd ht.symm hne
    | cons a as =>
      refine ⟨(a :: as).dropLast, by rw [h2]; rfl, ?_⟩
      intro hm; exact h3 (List.dropLast_subset _ hm)
  cases op with
  | field k => exact consistent_push p (.field k) (by simp) h
  | index i => exact consistent_push p (.index i) (by simp) h
  | star => exact consistent_push p .star (by simp) h
  | starIndex => exact consistent_push p .starIndex (by simp) h
  | join s =>
    simp only [applyOp, Path.join]
    split
    · exact consistent_push p .star (by simp) h
    · split
      · exact consistent_push p .starIndex (by simp) h
      · split
        · exact consistent_push p (.index _) (by simp) h
        · exact consistent_push p (.field _) (by simp) h
  | joinField k =>
    simp only [applyOp, Path.joinField]
    split
    · rename_i hl
      obtain ⟨ts, h1, h2⟩ := hlast _ hl (by simp)
      rw [h1]; exact consistent_fromTokens (ts ++ [.field k]) (by simp [h2])
    · exact consistent_push p (.field _) (by simp) h
  | joinIndex i =>
    simp only [applyOp, Path.joinIndex]
    split
    · rename_i hl
      obtain ⟨ts, h1, h2⟩ := hlast _ hl (by simp)
      rw [h1]; exact consistent_fromTokens (ts ++ [.index i]) (by simp [h2])
    · rename_i hl
      obtain ⟨ts, h1, h2⟩ := hlast _ hl (by simp)
      rw [h1]; exact consistent_fromTokens (ts ++ [.index i]) (by simp [h2])
    · exact consistent_push p (.index _) (by simp) h
  | parent =>
    simp only [applyOp, Path.parent]
    split
    · exact h
    · rename_i hl
      obtain ⟨h1, ts, h2, h3⟩ := h
      simp only [Option.getD_some]
      cases ts with
      | nil => rw [h2] at hl; simp at hl
      | cons a as =>
        rw [h2]
        exact consistent_fromTokens ((a :: as).dropLast)
          (fun hm => h3 (List.dropLast_subset _ hm))
  | drop n =>
    simp only [applyOp, Path.drop]
    split
    · exact ⟨rfl, [], rfl, by simp⟩
    · rename_i hl
      obtain ⟨h1, ts, h2, h3⟩ := h
      rw [h2] at hl ⊢
      cases hk : (PathToken.root :: ts).length - n with
      | zero => rw [hk] at hl; simp at hl
      | succ m =>
        simp only [List.take_succ_cons]
        exact consistent_fromTokens _ (fun hm => h3 (List.take_subset _ _ hm))

/-- Every path obtained from the root by any sequence of public operations keeps its expression
string in step with its segments, so (with `C01_roundtrip_iff`) the string of any such path parses
back to its segments exactly when its field names are plain and its indices fit `usize`. -/
theorem C01_api_paths (uc : UC) (ops : List PathOp) (p : DocPath)
    (hp : p = ops.foldl applyOp rootPath)
    (hidx : ∀ i, .index i ∈ p.tokens → i < usizeLim) :
    (Path.new uc p.expr = .ok p ↔ ∀ k, .field k ∈ p.tokens → PlainKey k) := by
  have hc : Consistent p := by
    subst hp
    have gen : ∀ (ops : List PathOp) (q : DocPath), Consistent q → Consistent (ops.foldl applyOp q) := by
      intro ops
      induction ops with
      | nil => intro q h; exact h
      | cons o os ih => intro q h; exact ih _ (consistent_applyOp q o h)
    exact gen ops rootPath ⟨rfl, [], rfl, by simp⟩
  obtain ⟨h1, ts, h2, h3⟩ := hc
  have hs : ∀ t ∈ ts, IsSegment t := by
    intro t ht
    cases t with
    | root => exact absurd ht h3
    | index i => exact hidx i (by rw [h2]; simp [ht])
    | _ => simp [IsSegment]
  have key := C01_roundtrip_iff uc ts hs
  have hfields : (∀ k, .field k ∈ p.tokens → PlainKey k) ↔ (∀ k, .field k ∈ ts → PlainKey k) := by
    rw [h2]; simp
  rw [hfields, ← key]
  unfold Path.new
  rw [Res.map_eq_ok, h1, h2]
  constructor
  · rintro ⟨a, ha, e⟩
    rw [ha]
    have := congrArg DocPath.tokens e
    simp only at this
    rw [this, h2]
  · intro h
    exact ⟨_, h, by rw [← h2, ← h1]⟩

example : ∀ i, .index i ∈ ([PathOp.field "a".toList, .join "12".toList, .parent, .star].foldl
    applyOp rootPath).tokens → i < usizeLim := by
  intro i hi
  have : ([PathOp.field "a".toList, .join "12".toList, .parent, .star].foldl
    applyOp rootPath).tokens = [.root, .field "a".toList, .star] := by decide
  rw [this] at hi; simp at hi

/-! ## C02 parsing never panics: exact panic condition -/

/-- Parsing panics exactly when, after a well-formed prefix, the string has an opening bracket and a
run of numeric characters that closes (or ends the string) but does not denote a `usize`:
index overflow, or numeric characters outside ASCII. -/
theorem C02_panics_iff (uc : UC) (s : Str) :
    Path.new uc s = .panic ↔
      ∃ pre digits post ts, s = pre ++ '[' :: (digits ++ post) ∧
        parsePathExp uc pre = .ok ts ∧ ts ≠ [] ∧
        digits ≠ [] ∧ (∀ c ∈ digits, uc.numeric c = true) ∧
        (post = [] ∨ ∃ r, post = ']' :: r) ∧ parseUsize digits = none := by
  unfold Path.new
  rw [Res.map_eq_panic]
  constructor
  · intro h
    cases s with
    | nil => simp [parsePathExp] at h
    | cons c cs =>
      simp only [parsePathExp] at h
      split at h
      · rename_i hc
        rw [Res.map_eq_panic] at h
        obtain ⟨pre, ds, post, ts, h1, h2, h3, h4, h5, h6⟩ := (pathExp_panic uc _ cs (Nat.le_refl _)).1 h
        refine ⟨c :: pre, ds, post, .root :: ts, by simp [h1], ?_, by simp, h3, h4, h5, h6⟩
        simp [parsePathExp, hc, h2]
      · rename_i hc
        split at h
        · rename_i ha
          cases hi : identifier uc c cs with
          | err => simp [hi] at h
          | panic => exact absurd hi (identifier_no_panic uc c cs)
          | ok x =>
            simp only [hi, Res.bind_ok, Res.map_eq_panic] at h
            obtain ⟨pre, ds, post, ts, h1, h2, h3, h4, h5, h6⟩ :=
              (pathExp_panic uc _ x.2 (Nat.le_refl _)).1 h
            have hq : c ≠ '\'' := by
              intro e; subst e
              have := uc_not_alnum uc '\'' (by decide) (by decide) (by decide)
              simp [this.1, this.2] at ha
            obtain ⟨_, _, id, e1, e2, e3, e4⟩ := identifier_ok uc c cs x.1 x.2 hq hi
            rw [h1] at e4
            have hid : identifier uc c (id ++ pre) = .ok (.field (c :: id), pre) := by
              unfold identifier
              rw [identLoop_of_stop uc id pre e3 (IdStop_shrink e4)]; rfl
            refine ⟨c :: (id ++ pre), ds, post, .root :: .field (c :: id) :: ts, ?_, ?_, by simp, h3, h4, h5, h6⟩
            · rw [e2, h1]; simp
            · simp [parsePathExp, hc, ha, hid, h2]
        · simp at h
  · rintro ⟨pre, ds, post, ts, rfl, h1, hts, hbad⟩
    have hpanic : ∀ pre' ts', pathExp uc pre' = .ok ts' →
        pathExp uc (pre' ++ '[' :: (ds ++ post)) = .panic :=
      fun pre' ts' h => (pathExp_panic uc _ _ (Nat.le_refl _)).2 ⟨pre', ds, post, ts', rfl, h, hbad⟩
    cases pre with
    | nil => simp [parsePathExp] at h1; exact absurd h1 hts
    | cons c cs =>
      simp only [parsePathExp, List.cons_append] at h1 ⊢
      split at h1
      · rename_i hc
        rw [if_pos hc, Res.map_eq_panic]
        rw [Res.map_eq_ok] at h1
        obtain ⟨ts', h1, _⟩ := h1
        exact hpanic _ _ h1
      · rename_i hc
        rw [if_neg hc]
        split at h1
        · rename_i ha
          rw [if_pos ha]
          cases hi : identifier uc c cs with
          | err => simp [hi] at h1
          | panic => simp [hi] at h1
          | ok x =>
            simp only [hi, Res.bind_ok, Res.map_eq_ok] at h1
            obtain ⟨ts', h1, _⟩ := h1
            have hq : c ≠ '\'' := by
              intro e; subst e
              have := uc_not_alnum uc '\'' (by decide) (by decide) (by decide)
              simp [this.1, this.2] at ha
            obtain ⟨_, _, id, e1, e2, e3, e4⟩ := identifier_ok uc c cs x.1 x.2 hq hi
            have hid : identifier uc c (cs ++ '[' :: (ds ++ post)) =
                .ok (.field (c :: id), x.2 ++ '[' :: (ds ++ post)) := by
              unfold identifier
              rw [e2, List.append_assoc, identLoop_of_stop uc id _ e3 (IdStop_extend e4)]; rfl
            rw [hid]
            simp only [Res.bind_ok, Res.map_eq_panic]
            exact hpanic _ _ h1
        · simp at h1

/-- "Parsing never panics" is false: an index of 2^64 aborts, and so does a superscript two
(numeric for Unicode, not a digit). -/
theorem C02_no_panic_fails :
    (∀ uc, Path.new uc "$[18446744073709551616]".toList = .panic) ∧
    Path.new .sup2 "$[²]".toList = .panic := by
  constructor
  · intro uc
    refine (C02_panics_iff uc _).2 ⟨['$'], "18446744073709551616".toList, [']'], [.root],
      by decide, by rfl, by simp, by decide, ?_, Or.inr ⟨[], rfl⟩, by decide⟩
    intro c hc
    apply numeric_of_isDigit
    revert c
    decide
  · decide

/-- Parsing does not panic on strings whose numeric characters are ASCII digits, with no more than
19 characters after any opening bracket. -/
theorem C02_no_panic_partial (uc : UC) (s : Str)
    (hnum : ∀ c ∈ s, uc.numeric c = true → c.isDigit = true)
    (hlen : ∀ pre ds post, s = pre ++ '[' :: (ds ++ post) → (∀ c ∈ ds, uc.numeric c = true) →
      ds.length ≤ 19) :
    Path.new uc s ≠ .panic := by
  intro h
  obtain ⟨pre, ds, post, ts, rfl, _, _, hne, hd, _, hp⟩ := (C02_panics_iff uc s).1 h
  have hl := hlen pre ds post rfl hd
  have hdig : ∀ c ∈ ds, c.isDigit = true := fun c hc => hnum c (by simp [hc]) (hd c hc)
  have hplus : ∀ r, ds ≠ '+' :: r := by
    intro r e
    have := hdig '+' (by rw [e]; simp)
    exact absurd this (by decide)
  rw [parseUsize_of_head hplus] at hp
  obtain ⟨n, hn⟩ := digitsVal_isSome ds hdig 0
  have hb := digitsVal_bound ds 0 n hn
  have hpow : (0 + 1) * 10 ^ ds.length ≤ 1 * 10 ^ 19 := by
    simpa using Nat.pow_le_pow_right (by decide : 10 > 0) hl
  have hlt : n < usizeLim := by
    have : 1 * 10 ^ 19 < usizeLim := by decide
    omega
  have he : ds.isEmpty = false := by
    cases ds with
    | nil => exact absurd rfl hne
    | cons _ _ => rfl
  simp [parseDigits, he, hn, hlt] at hp

example : ∃ s : Str, s = "$.a[12]['x']".toList ∧ Path.new UC.ascii s ≠ .panic :=
  ⟨_, rfl, by decide⟩

/-! ## C03 distinct paths have distinct expressions -/

theorem escapeKey_inj_end {k k' r r' : Str}
    (h : escapeKey k ++ '\'' :: r = escapeKey k' ++ '\'' :: r') : k = k' ∧ r = r' := by
  induction k generalizing k' with
  | nil =>
    cases k' with
    | nil => simp [escapeKey] at h; simp [h]
    | cons c cs =>
      simp only [escapeKey] at h
      split at h
      · simp at h
      · rename_i hc
        simp only [List.nil_append, List.cons_append, List.cons.injEq] at h
        exact absurd (Or.inr h.1.symm) hc
  | cons c cs ih =>
    cases k' with
    | nil =>
      simp only [escapeKey] at h
      split at h
      · simp at h
      · rename_i hc
        simp only [List.nil_append, List.cons_append, List.cons.injEq] at h
        exact absurd (Or.inr h.1) hc
    | cons d ds =>
      simp only [escapeKey] at h
      split at h
      · rename_i hc
        split at h
        · simp only [List.cons_append, List.cons.injEq, true_and] at h
          obtain ⟨h1, h2⟩ := ih h.2
          exact ⟨by rw [h.1, h1], h2⟩
        · rename_i hd
          simp only [List.cons_append, List.cons.injEq] at h
          exact absurd (Or.inl h.1.symm) hd
      · rename_i hc
        split at h
        · rename_i hd
          simp only [List.cons_append, List.cons.injEq] at h
          exact absurd (Or.inl h.1) hc
        · simp only [List.cons_append, List.cons.injEq] at h
          obtain ⟨h1, h2⟩ := ih h.2
          exact ⟨by rw [h.1, h1], h2⟩

/-- Strings that start with a character outside a class, or are empty. -/
theorem span_unique {p : Char → Bool} {a a' r r' : Str} (ha : ∀ c ∈ a, p c = true)
    (ha' : ∀ c ∈ a', p c = true)
    (hr : ∀ c cs, r = c :: cs → p c = false) (hr' : ∀ c cs, r' = c :: cs → p c = false)
    (h : a ++ r = a' ++ r') : a = a' ∧ r = r' := by
  induction a generalizing a' with
  | nil =>
    cases a' with
    | nil => exact ⟨rfl, by simpa using h⟩
    | cons c cs =>
      simp at h
      have := hr c _ h
      rw [ha' c (by simp)] at this; simp at this
  | cons c cs ih =>
    cases a' with
    | nil =>
      simp at h
      have := hr' c _ h.symm
      rw [ha c (by simp)] at this; simp at this
    | cons d ds =>
      simp only [List.cons_append, List.cons.injEq] at h
      obtain ⟨h1, h2⟩ := ih (fun c hc => ha c (by simp [hc])) (fun c hc => ha' c (by simp [hc])) h.2
      exact ⟨by rw [h.1, h1], h2⟩

theorem buildExpr_head (ts : List PathToken) : ∀ c cs, buildExpr ts = c :: cs → identRest c = false := by
  intro c cs h
  cases ts with
  | nil => simp [buildExpr] at h
  | cons t ts =>
    cases t with
    | root => simp [buildExpr, tokenExpr] at h; rw [← h.1]; decide
    | field k =>
      simp only [buildExpr, tokenExpr, objKey] at h
      split at h <;> (simp at h; rw [← h.1]; decide)
    | index i => simp [buildExpr, tokenExpr] at h; rw [← h.1]; decide
    | star => simp [buildExpr, tokenExpr] at h; rw [← h.1]; decide
    | starIndex => simp [buildExpr, tokenExpr] at h; rw [← h.1]; decide

theorem tokenExpr_inj {t t' : PathToken} {ts ts' : List PathToken}
    (h : tokenExpr t ++ buildExpr ts = tokenExpr t' ++ buildExpr ts') :
    t = t' ∧ buildExpr ts = buildExpr ts' := by
  have identCase : ∀ k k', isIdent k = true → isIdent k' = true →
      k ++ buildExpr ts = k' ++ buildExpr ts' → k = k' ∧ buildExpr ts = buildExpr ts' :=
    fun k k' hk hk' he => span_unique (p := identRest) (isIdent_chars hk) (isIdent_chars hk')
      (buildExpr_head ts) (buildExpr_head ts') he
  have starIdent : ∀ k r, isIdent k = true → ¬ ∃ z, k ++ r = '*' :: z := by
    rintro k r hk ⟨z, hz⟩
    cases k with
    | nil => simp [isIdent] at hk
    | cons c cs =>
      simp at hz
      have := isIdent_chars hk c (by simp)
      rw [hz.1] at this
      exact absurd this (by decide)
  have digitHead : ∀ i, ∃ c cs, natStr i = c :: cs ∧ c ≠ '\'' ∧ c ≠ '*' := by
    intro i
    cases hs : natStr i with
    | nil => exact absurd hs (natStr_ne_nil i)
    | cons c cs =>
      have hd := natStr_digits i c (by rw [hs]; simp)
      refine ⟨c, cs, rfl, ?_, ?_⟩
      · intro e; subst e; exact absurd hd (by decide)
      · intro e; subst e; exact absurd hd (by decide)
  cases t with
  | root =>
    cases t' with
    | root => simpa [tokenExpr] using h
    | field k => simp only [tokenExpr, objKey] at h; split at h <;> simp at h
    | index i => simp [tokenExpr] at h
    | star => simp [tokenExpr] at h
    | starIndex => simp [tokenExpr] at h
  | field k =>
    cases t' with
    | root => simp only [tokenExpr, objKey] at h; split at h <;> simp at h
    | field k' =>
      simp only [tokenExpr, objKey] at h
      split at h
      · rename_i hk
        split at h
        · rename_i hk'
          simp only [List.cons_append, List.cons.injEq, true_and] at h
          obtain ⟨h1, h2⟩ := identCase k k' hk hk' h
          exact ⟨by rw [h1], h2⟩
        · simp at h
      · split at h
        · simp at h
        · simp only [List.cons_append, List.cons.injEq, true_and, List.append_assoc,
            List.nil_append] at h
          obtain ⟨h1, h2⟩ := escapeKey_inj_end h
          simp at h2
          exact ⟨by rw [h1], h2⟩
    | index i =>
      obtain ⟨c, cs, h1, h2, _⟩ := digitHead i
      simp only [tokenExpr, objKey, h1] at h
      split at h
      · simp at h
      · simp at h; exact absurd h.1.symm h2
    | star =>
      simp only [tokenExpr, objKey] at h
      split at h
      · rename_i hk
        simp at h
        exact absurd ⟨_, h⟩ (starIdent k _ hk)
      · simp at h
    | starIndex =>
      simp only [tokenExpr, objKey] at h
      split at h <;> simp at h
  | index i =>
    obtain ⟨c, cs, h1, h2, h3⟩ := digitHead i
    cases t' with
    | root => simp [tokenExpr] at h
    | field k' =>
      simp only [tokenExpr, objKey, h1] at h
      split at h
      · simp at h
      · simp at h; exact absurd h.1 h2
    | index j =>
      simp only [tokenExpr, List.cons_append, List.cons.injEq, true_and, List.append_assoc,
        List.nil_append] at h
      have := span_unique (p := Char.isDigit) (natStr_digits i) (natStr_digits j)
        (fun c cs e => by simp at e; rw [← e.1]; decide)
        (fun c cs e => by simp at e; rw [← e.1]; decide) h
      have h4 := natStr_injective this.1
      simp at this
      exact ⟨by rw [h4], this.2⟩
    | star => simp [tokenExpr] at h
    | starIndex => simp [tokenExpr, h1] at h; exact absurd h.1 h3
  | star =>
    cases t' with
    | root => simp [tokenExpr] at h
    | field k' =>
      simp only [tokenExpr, objKey] at h
      split at h
      · rename_i hk
        simp at h
        exact absurd ⟨_, h.symm⟩ (starIdent k' _ hk)
      · simp at h
    | index j => simp [tokenExpr] at h
    | star => simpa [tokenExpr] using h
    | starIndex => simp [tokenExpr] at h
  | starIndex =>
    cases t' with
    | root => simp [tokenExpr] at h
    | field k' =>
      simp only [tokenExpr, objKey] at h
      split at h <;> simp at h
    | index j =>
      obtain ⟨c, cs, h1, h2, h3⟩ := digitHead j
      simp [tokenExpr, h1] at h; exact absurd h.1.symm h3
    | star => simp [tokenExpr] at h
    | starIndex => simpa [tokenExpr] using h

/-- Two paths assembled from segments are equal for the code (same expression string) iff they have
the same segments: the string comparison never confuses different paths. -/
theorem C03_expr_injective (ts ts' : List PathToken) :
    eqPath (fromTokens ts) (fromTokens ts') = true ↔ ts = ts' := by
  constructor
  · intro h
    replace h : buildExpr ts = buildExpr ts' := of_decide_eq_true h
    induction ts generalizing ts' with
    | nil =>
      cases ts' with
      | nil => rfl
      | cons t ts' => simp [buildExpr, tokenExpr_ne_nil] at h
    | cons t ts ih =>
      cases ts' with
      | nil => simp [buildExpr, tokenExpr_ne_nil] at h
      | cons t' ts' =>
        obtain ⟨h1, h2⟩ := tokenExpr_inj h
        rw [h1, ih ts' h2]
  · intro h; rw [h]; exact decide_eq_true rfl

example : eqPath (fromTokens [.root, .field "1".toList]) (fromTokens [.root, .index 1]) = false := by
  decide

/-- The claim is *not* true of paths read from text: `$.a` and `$['a']` have the same segments but are
different paths for the code (two entries in a rule table). -/
theorem C03_parsed_paths_alias :
    ∃ p q, Path.new UC.ascii "$.a".toList = .ok p ∧ Path.new UC.ascii "$['a']".toList = .ok q ∧
      p.tokens = q.tokens ∧ eqPath p q = false :=
  ⟨⟨[.root, .field "a".toList], "$.a".toList⟩, ⟨[.root, .field "a".toList], "$['a']".toList⟩,
    by decide, by decide, rfl, by decide⟩

/-! ## C04 matching is token-wise prefix matching -/

/-- Specification: what it means for one rule segment to match one segment of a concrete path
(concrete segments are strings; a list index is its decimal numeral). -/
inductive SegMatches : PathToken → Str → Prop
  | root : SegMatches .root ['$']
  | field (k) : SegMatches (.field k) k
  | index (i s) (h : parseUsize s = some i) : SegMatches (.index i) s
  | starIndexLiteral : SegMatches .starIndex ['[', '*', ']']
  | starIndex (i s) (h : parseUsize s = some i) : SegMatches .starIndex s
  | star (s) : SegMatches .star s

/-- Specification: the rule path is no longer than the concrete path and matches it segment by segment. -/
def PrefixMatches (rule : List PathToken) (path : List Str) : Prop :=
  rule.length ≤ path.length ∧
    ∀ (i : Nat) t f, rule[i]? = some t → path[i]? = some f → SegMatches t f

/-- Non-wildcard segments. -/
def isExact : PathToken → Bool
  | .star => false
  | .starIndex => false
  | _ => true

theorem matchesToken_spec (f : Str) (t : PathToken) :
    (SegMatches t f → matchesToken f t = if isExact t then 2 else 1) ∧
    (¬ SegMatches t f → matchesToken f t = 0) := by
  constructor
  · intro h
    cases h with
    | root => rfl
    | field k => simp [matchesToken, isExact]
    | index i s h => simp [matchesToken, isExact, h]
    | starIndexLiteral => rfl
    | starIndex i s h => simp only [matchesToken, h]; split <;> rfl
    | star => rfl
  · intro h
    cases t with
    | root =>
      simp only [matchesToken]
      split
      · rename_i e; subst e; exact absurd .root h
      · rfl
    | field k =>
      simp only [matchesToken]
      split
      · rename_i e; subst e; exact absurd (.field _) h
      · rfl
    | index i =>
      simp only [matchesToken]
      split
      · split
        · rename_i n hn e; subst e; exact absurd (.index _ _ hn) h
        · rfl
      · rfl
    | star => exact absurd (.star f) h
    | starIndex =>
      simp only [matchesToken]
      split
      · rename_i e; subst e; exact absurd .starIndexLiteral h
      · split
        · rename_i n hn; exact absurd (.starIndex _ _ hn) h
        · rfl

theorem rawWeight_spec (ts : List PathToken) : ∀ fs : List Str, ts.length ≤ fs.length →
    (PrefixMatches ts fs → rawWeight ts fs = 2 ^ (ts.countP isExact)) ∧
    (¬ PrefixMatches ts fs → rawWeight ts fs = 0) := by
  induction ts with
  | nil =>
    intro fs _
    refine ⟨fun _ => by cases fs <;> simp [rawWeight], fun h => ?_⟩
    exact absurd ⟨by simp, by simp⟩ h
  | cons t ts ih =>
    intro fs hl
    cases fs with
    | nil => simp at hl
    | cons f fs =>
      have hl' : ts.length ≤ fs.length := by simpa using hl
      have hiff : PrefixMatches (t :: ts) (f :: fs) ↔ SegMatches t f ∧ PrefixMatches ts fs := by
        constructor
        · rintro ⟨h1, h2⟩
          refine ⟨h2 0 t f rfl rfl, hl', fun i t' f' ht hf => h2 (i + 1) t' f' ?_ ?_⟩
          · simpa using ht
          · simpa using hf
        · rintro ⟨h1, h2, h3⟩
          refine ⟨hl, ?_⟩
          intro i t' f' ht hf
          cases i with
          | zero => simp at ht hf; subst ht; subst hf; exact h1
          | succ i => exact h3 i t' f' (by simpa using ht) (by simpa using hf)
      obtain ⟨m1, m2⟩ := matchesToken_spec f t
      obtain ⟨i1, i2⟩ := ih fs hl'
      simp only [rawWeight]
      constructor
      · intro h
        obtain ⟨h1, h2⟩ := hiff.1 h
        rw [m1 h1, i1 h2, List.countP_cons]
        split
        · rw [Nat.pow_succ, Nat.mul_comm]
        · simp
      · intro h
        by_cases h1 : SegMatches t f
        · have h2 : ¬ PrefixMatches ts fs := fun h2 => h (hiff.2 ⟨h1, h2⟩)
          rw [i2 h2]; simp
        · rw [m2 h1]; simp

/-- Exact behaviour of `matches_path`: prefix matching, and fewer than 64 non-wildcard segments
(with 64 or more the weight `2^64` overflows to 0). -/
theorem C04_matches_path_iff (rule : List PathToken) (path : List Str) :
    matchesPath rule path = true ↔ PrefixMatches rule path ∧ rule.countP isExact < 64 := by
  simp only [matchesPath, pathWeight, decide_eq_true_eq, ge_iff_le]
  by_cases hl : rule.length ≤ path.length
  · simp only [hl, if_true]
    rw [weightFold_eq _ _ 1 (by decide), Nat.one_mul]
    obtain ⟨h1, h2⟩ := rawWeight_spec rule path hl
    by_cases hp : PrefixMatches rule path
    · rw [h1 hp]
      simp only [hp, true_and]
      by_cases hc : rule.countP isExact < 64
      · have hlt : 2 ^ rule.countP isExact < usizeLim := Nat.pow_lt_pow_right (by decide) hc
        rw [Nat.mod_eq_of_lt hlt]
        simp [hc, Nat.two_pow_pos]
      · have : usizeLim ∣ 2 ^ rule.countP isExact := by
          unfold usizeLim
          exact Nat.pow_dvd_pow 2 (by omega)
        rw [Nat.mod_eq_zero_of_dvd this]
        simp [hc]
    · rw [h2 hp]; simp [hp]
  · simp only [hl, if_false]
    have : ¬ PrefixMatches rule path := fun h => hl h.1
    simp [this]

/-- `matches_path` is prefix matching for rule paths with fewer than 64 non-wildcard segments (the
unrestricted claim is refuted by `C04_overflow`). -/
theorem C04_matches_path_partial (rule : List PathToken) (path : List Str)
    (h : rule.countP isExact < 64) :
    (matchesPath rule path = true ↔ PrefixMatches rule path) ∧
    (matchesPathExactly rule path = true ↔
      PrefixMatches rule path ∧ rule.length = path.length) := by
  have hm := C04_matches_path_iff rule path
  refine ⟨by rw [hm]; simp [h], ?_⟩
  simp only [matchesPathExactly, Bool.and_eq_true, decide_eq_true_eq, hm]
  constructor
  · rintro ⟨a, b, _⟩; exact ⟨b, a⟩
  · rintro ⟨a, b⟩; exact ⟨b, a, h⟩

example : [PathToken.root, .field "a".toList, .starIndex].countP isExact < 64 ∧
    matchesPath [.root, .field "a".toList, .starIndex] ["$".toList, "a".toList, "7".toList, "b".toList]
      = true := by decide

/-- The unrestricted claim is false: a path of 64 concrete segments is not matched by the rule path
with the very same 64 segments. -/
theorem C04_overflow : ∃ (rule : List PathToken) (path : List Str),
    PrefixMatches rule path ∧ rule.length = path.length ∧ matchesPath rule path = false := by
  refine ⟨List.replicate 64 (.field ['a']), List.replicate 64 ['a'], ?_, by decide, ?_⟩
  · refine ⟨by decide, ?_⟩
    intro i t f ht hf
    have h1 := List.eq_of_mem_replicate (List.mem_of_getElem? ht)
    have h2 := List.eq_of_mem_replicate (List.mem_of_getElem? hf)
    subst h1; subst h2; exact .field _
  · cases h : matchesPath (List.replicate 64 (.field ['a'])) (List.replicate 64 ['a']) with
    | false => rfl
    | true => exact absurd ((C04_matches_path_iff _ _).1 h).2 (by decide)

/-- A concrete path (fields and indices only) matches itself, and a longer document path below it. -/
theorem C04_self_match (ts : List PathToken) (ext : List Str)
    (hseg : ∀ t ∈ ts, isExact t = true) (hidx : ∀ i, .index i ∈ ts → i < usizeLim)
    (hlen : ts.length < 64) : matchesPath ts (ts.map tokenString ++ ext) = true := by
  refine (C04_matches_path_iff _ _).2 ⟨⟨by simp, ?_⟩, ?_⟩
  · intro i t f ht hf
    have hi : i < ts.length := (List.getElem?_eq_some_iff.1 ht).1
    rw [List.getElem?_append_left (by simpa using hi), List.getElem?_map, ht] at hf
    simp at hf
    subst hf
    have hm := List.mem_of_getElem? ht
    cases t with
    | root => exact .root
    | field k => exact .field k
    | index n => exact .index _ _ (parseUsize_natStr (hidx n hm))
    | star => exact .star _
    | starIndex => exact absurd (hseg _ hm) (by simp [isExact])
  · exact Nat.lt_of_le_of_lt List.countP_le_length hlen

example : matchesPath [.root, .field "a".toList, .index 2]
    ([PathToken.root, .field "a".toList, .index 2].map tokenString ++ ["b".toList]) = true :=
  C04_self_match _ _ (by decide) (by simp; decide) (by decide)

/-! ## C08 path algebra and JSON pointers -/

/-- `parent` undoes pushing a field, an index or a wildcard. -/
theorem C08_parent_push (p : DocPath) (hp : p.expr = buildExpr p.tokens) (hne : p.tokens ≠ [])
    (k : Str) (i : Nat) :
    parent (pushField p k) = some p ∧ parent (pushIndex p i) = some p ∧
    parent (pushStar p) = some p ∧ parent (pushStarIndex p) = some p := by
  have hlen : ¬ p.tokens.length + 1 ≤ 1 := by
    have := List.length_pos_iff.2 hne
    omega
  have hpe : fromTokens p.tokens = p := by
    unfold fromTokens; rw [← hp]
  simp [parent, pushField, pushIndex, pushStar, pushStarIndex, hne, hpe]

example : (⟨[.root, .field "a".toList], "$.a".toList⟩ : DocPath).expr =
    buildExpr [.root, .field "a".toList] ∧ [PathToken.root, .field "a".toList] ≠ [] := by decide

theorem pushPath_append (ts : List PathToken) (h : .root ∉ ts) : ∀ p : DocPath,
    ts.foldl (fun acc t => if t = .root then acc else push acc t) p =
      ⟨p.tokens ++ ts, p.expr ++ buildExpr ts⟩ := by
  induction ts with
  | nil => intro p; simp [buildExpr]
  | cons t ts ih =>
    intro p
    simp only [List.mem_cons, not_or] at h
    simp only [List.foldl_cons, Ne.symm h.1, if_false]
    rw [ih h.2]
    simp [push, buildExpr]

/-- Appending path `q` to path `p` appends exactly the segments of `q` below its root, and appending
anything to the root gives it back. -/
theorem C08_push_path (p : DocPath) (ts : List PathToken) (h : .root ∉ ts) :
    pushPath p (fromTokens (.root :: ts)) = ⟨p.tokens ++ ts, p.expr ++ buildExpr ts⟩ ∧
    pushPath rootPath (fromTokens (.root :: ts)) = fromTokens (.root :: ts) := by
  constructor
  · simp only [pushPath, fromTokens, List.foldl_cons, if_true]
    exact pushPath_append ts h p
  · simp only [pushPath, fromTokens, List.foldl_cons, if_true]
    rw [pushPath_append ts h]
    simp [rootPath, buildExpr, tokenExpr]

example : PathToken.root ∉ [PathToken.field "a".toList, .star] := by decide

/-- `join` of a concrete part adds a segment that prints as the part, unless the part is a
non-canonical numeral. -/
theorem C08_join_part_partial (p : DocPath) (s : Str)
    (h : ∀ i, parseUsize s = some i → natStr i = s) :
    toVec (join p s) = toVec p ++ [s] := by
  unfold join toVec
  split
  · rename_i e; subst e; simp [pushStar, tokenString]
  · split
    · rename_i e; subst e; simp [pushStarIndex, tokenString]
    · split
      · rename_i i hi; simp [pushIndex, tokenString, h i hi]
      · simp [pushField, tokenString]

example : ∀ i, parseUsize "key".toList = some i → natStr i = "key".toList := by
  have : parseUsize "key".toList = none := by decide
  intro i h; rw [this] at h; simp at h

/-- ... and for non-canonical numerals it does not: joining the object key `007` gives segment `7`,
so a rule written for the key `007` (`$['007']`) does not match the path of that very key. -/
theorem C08_join_numeral_key :
    toVec (join rootPath "007".toList) = [['$'], ['7']] ∧
    matchesPath [.root, .field "007".toList] (toVec (join rootPath "007".toList)) = false ∧
    toVec (join rootPath "+7".toList) = [['$'], ['7']] := by decide

/-- RFC 6901 reference-token unescaping (`~1` to `/`, then `~0` to `~`, done in one pass). -/
def ptrUnescape : Str → Str
  | '~' :: '1' :: r => '/' :: ptrUnescape r
  | '~' :: '0' :: r => '~' :: ptrUnescape r
  | c :: r => c :: ptrUnescape r
  | [] => []

/-- Split a string on `/`. -/
def splitSlash : Str → List Str
  | [] => [[]]
  | c :: r => if c = '/' then [] :: splitSlash r
    else match splitSlash r with
      | s :: ss => (c :: s) :: ss
      | [] => [[c]]

/-- RFC 6901 decoding: the pointer is a sequence of `/`-prefixed escaped tokens. -/
def pointerSegments (s : Str) : List Str := ((splitSlash s).drop 1).map ptrUnescape

theorem pointerEscape_eq (v : Str) : pointerEscape v =
    v.flatMap fun c => if c = '~' then ['~', '0'] else if c = '/' then ['~', '1'] else [c] := by
  unfold pointerEscape
  rw [List.flatMap_assoc]
  congr 1
  funext c
  by_cases h : c = '~'
  · subst h; rfl
  · simp [h]

theorem ptrUnescape_other (c : Char) (hc : c ≠ '~') (r : Str) :
    ptrUnescape (c :: r) = c :: ptrUnescape r := by
  rw [ptrUnescape]
  · intro r' h1 _; exact hc h1
  · intro r' h1 _; exact hc h1

theorem ptrUnescape_escape (v : Str) : ptrUnescape (pointerEscape v) = v := by
  rw [pointerEscape_eq]
  induction v with
  | nil => rfl
  | cons c cs ih =>
    simp only [List.flatMap_cons]
    by_cases h : c = '~'
    · subst h; simp [ptrUnescape, ih]
    · by_cases h2 : c = '/'
      · subst h2; simp [ptrUnescape, ih]
      · simp [h, h2, ptrUnescape_other c h, ih]

theorem pointerEscape_no_slash (v : Str) : '/' ∉ pointerEscape v := by
  rw [pointerEscape_eq]
  intro h
  rw [List.mem_flatMap] at h
  obtain ⟨c, _, hc⟩ := h
  split at hc
  · simp at hc
  · split at hc
    · simp at hc
    · rename_i h2; simp at hc; exact h2 hc.symm

theorem splitSlash_ne_nil (s : Str) : splitSlash s ≠ [] := by
  cases s with
  | nil => simp [splitSlash]
  | cons c r =>
    simp only [splitSlash]
    split
    · simp
    · split <;> simp

theorem splitSlash_append (s : Str) (h : '/' ∉ s) (r : Str) :
    splitSlash (s ++ '/' :: r) = s :: splitSlash r ∧ splitSlash s = [s] := by
  induction s with
  | nil => simp [splitSlash]
  | cons c cs ih =>
    simp only [List.mem_cons, not_or] at h
    obtain ⟨h1, h2⟩ := ih h.2
    constructor
    · simp only [List.cons_append, splitSlash, Ne.symm h.1, if_false, h1]
    · simp only [splitSlash, Ne.symm h.1, if_false, h2]

theorem natStr_no_special (i : Nat) : '/' ∉ natStr i ∧ '~' ∉ natStr i :=
  ⟨fun h => absurd (natStr_digits i _ h) (by decide), fun h => absurd (natStr_digits i _ h) (by decide)⟩

theorem ptrUnescape_id {s : Str} (h : '~' ∉ s) : ptrUnescape s = s := by
  induction s with
  | nil => rfl
  | cons c cs ih =>
    simp only [List.mem_cons, not_or] at h
    rw [ptrUnescape_other c (Ne.symm h.1), ih h.2]

/-- The JSON pointer of a wildcard-free path decodes (RFC 6901) to exactly the names and indices of
the path, for all field names. -/
theorem C08_json_pointer (ts : List PathToken) (h : .root ∉ ts) (h1 : .star ∉ ts) (h2 : .starIndex ∉ ts) :
    ∃ s, asJsonPointer (fromTokens (.root :: ts)) = some s ∧ pointerSegments s = ts.map tokenString := by
  have key : ∀ ts : List PathToken, .root ∉ ts → .star ∉ ts → .starIndex ∉ ts →
      ∃ s, asJsonPointerT ts = some s ∧ pointerSegments s = ts.map tokenString ∧
        (s = [] ∨ ∃ r, s = '/' :: r) := by
    intro ts
    induction ts with
    | nil => intro _ _ _; exact ⟨[], rfl, rfl, Or.inl rfl⟩
    | cons t ts ih =>
      intro h h1 h2
      simp only [List.mem_cons, not_or] at h h1 h2
      obtain ⟨s, e1, e2, e3⟩ := ih h.2 h1.2 h2.2
      have step : ∀ esc txt : Str, '/' ∉ esc → ptrUnescape esc = txt →
          pointerSegments ('/' :: (esc ++ s)) = txt :: ts.map tokenString := by
        intro esc txt hs hu
        unfold pointerSegments at e2 ⊢
        rcases e3 with rfl | ⟨r, rfl⟩
        · simp only [splitSlash, List.drop_succ_cons, List.drop_nil, List.map_nil] at e2
          simp [splitSlash, (splitSlash_append esc hs []).2, hu, ← e2]
        · simp only [splitSlash, if_true, List.drop_succ_cons, List.drop_zero] at e2
          simp [splitSlash, (splitSlash_append esc hs r).1, hu, e2]
      cases t with
      | root => exact absurd rfl h.1
      | star => exact absurd rfl h1.1
      | starIndex => exact absurd rfl h2.1
      | field v =>
        refine ⟨'/' :: (pointerEscape v ++ s), by simp [asJsonPointerT, e1], ?_, Or.inr ⟨_, rfl⟩⟩
        exact step _ _ (pointerEscape_no_slash v) (ptrUnescape_escape v)
      | index i =>
        refine ⟨'/' :: (natStr i ++ s), by simp [asJsonPointerT, e1], ?_, Or.inr ⟨_, rfl⟩⟩
        exact step _ _ (natStr_no_special i).1 (ptrUnescape_id (natStr_no_special i).2)
  obtain ⟨s, e1, e2, _⟩ := key ts h h1 h2
  exact ⟨s, e1, e2⟩

example : ∃ s, asJsonPointer (fromTokens [.root, .field "a/b~c".toList, .index 3]) = some s ∧
    pointerSegments s = ["a/b~c".toList, "3".toList] :=
  C08_json_pointer [.field "a/b~c".toList, .index 3] (by decide) (by decide) (by decide)

/-- Paths with wildcards have no JSON pointer (an error, never a wrong pointer). -/
theorem C08_json_pointer_wildcard (p : DocPath) :
    asJsonPointer p = none ↔ (.star ∈ p.tokens ∨ .starIndex ∈ p.tokens) := by
  unfold asJsonPointer
  generalize p.tokens = ts
  induction ts with
  | nil => simp [asJsonPointerT]
  | cons t ts ih => cases t <;> simp [asJsonPointerT, ih]

end PathProps
end Verif
