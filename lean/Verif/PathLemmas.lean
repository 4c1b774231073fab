import Verif.Path

/- Helper lemmas about the path model; the property theorems are in `Verif/Props/PathProps.lean`. -/

namespace Verif
namespace Path

/-! ### ASCII facts about the Unicode tables -/

theorem uc_not_alnum (uc : UC) (c : Char) (h : c.toNat < 128)
    (h1 : c.isAlpha = false) (h2 : c.isDigit = false) :
    uc.alphabetic c = false ∧ uc.numeric c = false :=
  ⟨by rw [uc.alphabetic_ascii c h, h1], by rw [uc.numeric_ascii c h, h2]⟩

theorem not_idchar_dot (uc : UC) : isIdentifierChar uc '.' = false := by
  have := uc_not_alnum uc '.' (by decide) (by decide) (by decide)
  simp [isIdentifierChar, this.1, this.2]
theorem not_idchar_lb (uc : UC) : isIdentifierChar uc '[' = false := by
  have := uc_not_alnum uc '[' (by decide) (by decide) (by decide)
  simp [isIdentifierChar, this.1, this.2]
theorem not_idchar_quote (uc : UC) : isIdentifierChar uc '\'' = false := by
  have := uc_not_alnum uc '\'' (by decide) (by decide) (by decide)
  simp [isIdentifierChar, this.1, this.2]
theorem not_numeric_rb (uc : UC) : uc.numeric ']' = false :=
  (uc_not_alnum uc ']' (by decide) (by decide) (by decide)).2
theorem not_numeric_quote (uc : UC) : uc.numeric '\'' = false :=
  (uc_not_alnum uc '\'' (by decide) (by decide) (by decide)).2
theorem not_numeric_star (uc : UC) : uc.numeric '*' = false :=
  (uc_not_alnum uc '*' (by decide) (by decide) (by decide)).2

theorem isAlpha_lt {c : Char} (h : c.isAlpha = true) : c.toNat < 128 := by
  simp only [Char.isAlpha, Char.isUpper, Char.isLower, Bool.or_eq_true, Bool.and_eq_true,
    decide_eq_true_eq, ge_iff_le, UInt32.le_iff_toNat_le] at h
  have : c.toNat = c.val.toNat := rfl
  rcases h with h | h
  · have h2 : c.val.toNat ≤ 90 := h.2
    omega
  · have h2 : c.val.toNat ≤ 122 := h.2
    omega

theorem isDigit_lt {c : Char} (h : c.isDigit = true) : c.toNat < 128 := by
  simp only [Char.isDigit, Bool.and_eq_true,
    decide_eq_true_eq, ge_iff_le, UInt32.le_iff_toNat_le] at h
  have : c.toNat = c.val.toNat := rfl
  have h2 : c.val.toNat ≤ 57 := h.2
  omega

theorem numeric_of_isDigit (uc : UC) {c : Char} (h : c.isDigit = true) : uc.numeric c = true := by
  rw [uc.numeric_ascii c (isDigit_lt h), h]

theorem idchar_of_identRest (uc : UC) {c : Char} (h : identRest c = true) :
    isIdentifierChar uc c = true := by
  unfold identRest at h
  simp only [Bool.or_eq_true] at h
  unfold isIdentifierChar
  rcases h with (h | h) | h
  · simp [h]
  · have := uc.alphabetic_ascii c (isAlpha_lt h)
    simp [this, h]
  · have := uc.numeric_ascii c (isDigit_lt h)
    simp [this, h]

theorem identRest_of_identStart {c : Char} (h : identStart c = true) : identRest c = true := by
  unfold identStart at h; unfold identRest
  simp only [Bool.or_eq_true] at h ⊢
  exact Or.inl h

/-- What can follow a printed token: nothing, or a token that starts with `.` or `[`. -/
def Follows (r : Str) : Prop := r = [] ∨ ∃ c cs, r = c :: cs ∧ (c = '.' ∨ c = '[')

theorem identLoop_append (uc : UC) (cs r : Str) (h : cs.all identRest = true) (hr : Follows r) :
    identLoop uc (cs ++ r) = .ok (cs, r) := by
  induction cs with
  | nil =>
    rcases hr with rfl | ⟨c, cs, rfl, hc⟩
    · rfl
    · simp only [List.nil_append, identLoop]
      have hn : isIdentifierChar uc c = false := by
        rcases hc with rfl | rfl
        · exact not_idchar_dot uc
        · exact not_idchar_lb uc
      rw [hn]
      rcases hc with rfl | rfl <;> simp
  | cons c cs ih =>
    simp only [List.all_cons, Bool.and_eq_true] at h
    simp only [List.cons_append, identLoop, idchar_of_identRest uc h.1, if_true, ih h.2, Res.map_ok]

theorem identStart_ne_star {c : Char} (h : identStart c = true) : c ≠ '*' := by
  intro e; subst e; exact absurd h (by decide)

theorem segment_ident (uc : UC) (k r : Str) (h : isIdent k = true) (hr : Follows r) :
    segment uc (('.' :: k) ++ r) = .ok (.field k, r) := by
  cases k with
  | nil => simp [isIdent] at h
  | cons c cs =>
    simp only [isIdent, Bool.and_eq_true] at h
    simp only [List.cons_append, segment, if_true, pathIdentifier, identStart_ne_star h.1, if_false,
      idchar_of_identRest uc (identRest_of_identStart h.1), identifier,
      identLoop_append uc cs r h.2 hr, Res.map_ok]

theorem escapeKey_quote_mem {k : Str} : '\'' ∈ escapeKey k ↔ '\'' ∈ k := by
  induction k with
  | nil => simp [escapeKey]
  | cons c cs ih =>
    unfold escapeKey
    split
    · simp [ih]
    · simp [ih]

theorem stringLoop_append (k r : Str) (h : '\'' ∉ k) :
    stringLoop (k ++ '\'' :: r) = .ok (k, r) := by
  induction k with
  | nil => simp [stringLoop]
  | cons c cs ih =>
    simp only [List.mem_cons, not_or] at h
    simp only [List.cons_append, stringLoop, ih h.2, Res.map_ok]
    rw [if_neg (Ne.symm h.1)]

theorem escapeKey_ne_nil {k : Str} (h : k ≠ []) : escapeKey k ≠ [] := by
  cases k with
  | nil => exact absurd rfl h
  | cons c cs => unfold escapeKey; split <;> simp

theorem segment_string (uc : UC) (k r : Str) (hk : k ≠ []) (h : '\'' ∉ k) :
    segment uc (('[' :: '\'' :: (escapeKey k ++ ['\'', ']'])) ++ r) = .ok (.field (escapeKey k), r) := by
  have h1 : ('[' :: '\'' :: (escapeKey k ++ ['\'', ']'])) ++ r
      = '[' :: '\'' :: (escapeKey k ++ '\'' :: (']' :: r)) := by simp
  rw [h1]
  have hq : '\'' ∉ escapeKey k := fun hm => h (escapeKey_quote_mem.1 hm)
  simp [segment, bracketPath, bracketInner, stringPath, stringLoop_append _ _ hq,
    escapeKey_ne_nil hk, closeBracket]

theorem spanNumeric_append (uc : UC) (ds : Str) (r : Str) (h : ∀ c ∈ ds, uc.numeric c = true)
    (hr : r = [] ∨ ∃ c cs, r = c :: cs ∧ uc.numeric c = false) :
    spanNumeric uc (ds ++ r) = (ds, r) := by
  induction ds with
  | nil =>
    rcases hr with rfl | ⟨c, cs, rfl, hc⟩
    · rfl
    · simp [spanNumeric, hc]
  | cons c cs ih =>
    have := ih (fun c hc => h c (by simp [hc]))
    simp [spanNumeric, h c (by simp), this]

theorem segment_index (uc : UC) (n : Nat) (r : Str) (hn : n < usizeLim) :
    segment uc (('[' :: (natStr n ++ [']'])) ++ r) = .ok (.index n, r) := by
  have h1 : ('[' :: (natStr n ++ [']'])) ++ r = '[' :: (natStr n ++ (']' :: r)) := by simp
  rw [h1]
  have hd : ∀ c ∈ natStr n, uc.numeric c = true :=
    fun c hc => numeric_of_isDigit uc (natStr_digits n c hc)
  have hsp := spanNumeric_append uc (natStr n) (']' :: r) hd
    (Or.inr ⟨']', r, rfl, not_numeric_rb uc⟩)
  cases hs : natStr n with
  | nil => exact absurd hs (natStr_ne_nil n)
  | cons c cs =>
    have hcd := hd c (by rw [hs]; simp)
    have hq : c ≠ '\'' := by
      intro e; subst e; rw [not_numeric_quote] at hcd; exact absurd hcd (by simp)
    have hp := parseUsize_natStr hn
    rw [hs] at hsp hp
    simp only [List.cons_append] at hsp
    simp [segment, bracketPath, bracketInner, hq, hcd, indexPath, hsp, hp, closeBracket]

/-- The token that the parser reads back from a printed token. -/
def reread : PathToken → PathToken
  | .field k => if isIdent k then .field k else .field (escapeKey k)
  | t => t

/-- Non-root tokens whose printed form is parseable. -/
def Parseable : PathToken → Prop
  | .field k => k ≠ [] ∧ '\'' ∉ k
  | .index i => i < usizeLim
  | .root => False
  | _ => True

theorem segment_token (uc : UC) (t : PathToken) (r : Str) (h : Parseable t) (hr : Follows r) :
    segment uc (tokenExpr t ++ r) = .ok (reread t, r) := by
  cases t with
  | root => exact absurd h (by simp [Parseable])
  | field k =>
    simp only [tokenExpr, objKey, reread]
    split
    · rename_i hk; exact segment_ident uc k r hk hr
    · exact segment_string uc k r h.1 h.2
  | index i => exact segment_index uc i r h
  | star => rfl
  | starIndex =>
    simp [tokenExpr, reread, segment, bracketPath, bracketInner, not_numeric_star, closeBracket]

theorem tokenExpr_ne_nil (t : PathToken) : tokenExpr t ≠ [] := by
  cases t <;> simp [tokenExpr, objKey]
  split <;> simp

theorem tokenExpr_follows {t : PathToken} (h : t ≠ .root) (r : Str) : Follows (tokenExpr t ++ r) := by
  right
  cases t with
  | root => exact absurd rfl h
  | field k =>
    simp only [tokenExpr, objKey]
    split
    · exact ⟨_, _, rfl, Or.inl rfl⟩
    · exact ⟨_, _, rfl, Or.inr rfl⟩
  | index i => exact ⟨_, _, rfl, Or.inr rfl⟩
  | star => exact ⟨_, _, rfl, Or.inl rfl⟩
  | starIndex => exact ⟨_, _, rfl, Or.inr rfl⟩

theorem Parseable.ne_root {t : PathToken} (h : Parseable t) : t ≠ .root := by
  intro e; subst e; exact h

theorem buildExpr_follows (ts : List PathToken) (h : ∀ t ∈ ts, t ≠ .root) :
    Follows (buildExpr ts) := by
  cases ts with
  | nil => exact Or.inl rfl
  | cons t ts => exact tokenExpr_follows (h t (by simp)) _

theorem pathExpF_build (uc : UC) (ts : List PathToken) (h : ∀ t ∈ ts, Parseable t) :
    ∀ fuel, ts.length ≤ fuel → pathExpF uc fuel (buildExpr ts) = .ok (ts.map reread) := by
  induction ts with
  | nil => intro fuel _; cases fuel <;> simp [buildExpr, pathExpF]
  | cons t ts ih =>
    intro fuel hf
    have hfol : Follows (buildExpr ts) :=
      buildExpr_follows ts (fun t ht => (h t (by simp [ht])).ne_root)
    have hseg := segment_token uc t (buildExpr ts) (h t (by simp)) hfol
    cases fuel with
    | zero => simp at hf
    | succ fuel =>
      have hih := ih (fun t ht => h t (by simp [ht])) fuel (by simpa using hf)
      cases hb : buildExpr (t :: ts) with
      | nil => simp [buildExpr, tokenExpr_ne_nil] at hb
      | cons c cs =>
        simp only [pathExpF]
        rw [← hb, show buildExpr (t :: ts) = tokenExpr t ++ buildExpr ts from rfl, hseg]
        simp [hih]

theorem buildExpr_length (ts : List PathToken) : ts.length ≤ (buildExpr ts).length := by
  induction ts with
  | nil => simp
  | cons t ts ih =>
    have : 0 < (tokenExpr t).length := List.length_pos_iff.2 (tokenExpr_ne_nil t)
    simp [buildExpr]; omega

theorem buildExpr_append (a b : List PathToken) : buildExpr (a ++ b) = buildExpr a ++ buildExpr b := by
  induction a with
  | nil => rfl
  | cons t ts ih => simp [buildExpr, ih]

theorem parse_build (uc : UC) (ts : List PathToken) (h : ∀ t ∈ ts, Parseable t) :
    parsePathExp uc (buildExpr (.root :: ts)) = .ok (.root :: ts.map reread) := by
  simp only [buildExpr, tokenExpr, List.cons_append, List.nil_append, parsePathExp, if_true, pathExp]
  rw [pathExpF_build uc ts h _ (buildExpr_length ts)]
  rfl

/-! ### What the parser can produce -/

/-- Tokens that the parser can produce after the root. -/
def Parsed : PathToken → Prop
  | .field k => k ≠ [] ∧ '\'' ∉ k
  | .index i => i < usizeLim
  | .root => False
  | _ => True

theorem identLoop_ok (uc : UC) (s : Str) : ∀ a b, identLoop uc s = .ok (a, b) →
    s = a ++ b ∧ (∀ c ∈ a, isIdentifierChar uc c = true) ∧
    (b = [] ∨ ∃ c cs, b = c :: cs ∧ (c = '.' ∨ c = '\'' ∨ c = '[')) := by
  induction s with
  | nil => intro a b h; simp [identLoop] at h; simp [h.1, h.2]
  | cons c cs ih =>
    intro a b h
    simp only [identLoop] at h
    split at h
    · rename_i hc
      rw [Res.map_eq_ok] at h
      obtain ⟨r, hr, e⟩ := h
      simp only [Prod.mk.injEq] at e
      obtain ⟨e1, e2⟩ := e
      subst e1; subst e2
      obtain ⟨h1, h2, h3⟩ := ih r.1 r.2 hr
      refine ⟨by simp [← h1], ?_, h3⟩
      intro x hx
      rcases List.mem_cons.1 hx with rfl | hx
      · exact hc
      · exact h2 x hx
    · split at h
      · rename_i hc
        simp at h
        obtain ⟨rfl, rfl⟩ := h
        exact ⟨rfl, by simp, Or.inr ⟨c, cs, rfl, hc⟩⟩
      · simp at h

theorem identifier_ok (uc : UC) (c : Char) (cs : Str) (t : PathToken) (r : Str)
    (hc : c ≠ '\'') (h : identifier uc c cs = .ok (t, r)) :
    Parsed t ∧ r.length ≤ cs.length ∧
      ∃ id, t = .field (c :: id) ∧ cs = id ++ r ∧ (∀ x ∈ id, isIdentifierChar uc x = true) ∧
      (r = [] ∨ ∃ d ds, r = d :: ds ∧ (d = '.' ∨ d = '\'' ∨ d = '[')) := by
  unfold identifier at h
  rw [Res.map_eq_ok] at h
  obtain ⟨x, hx, e⟩ := h
  simp only [Prod.mk.injEq] at e
  obtain ⟨e1, e2⟩ := e
  subst e2
  obtain ⟨h1, h2, h3⟩ := identLoop_ok uc cs x.1 x.2 hx
  refine ⟨?_, ?_, x.1, e1.symm, h1, h2, h3⟩
  · subst e1
    refine ⟨by simp, ?_⟩
    intro hm
    rcases List.mem_cons.1 hm with e | hm
    · exact hc e.symm
    · have := h2 _ hm
      rw [not_idchar_quote] at this
      exact absurd this (by simp)
  · rw [h1]; simp

theorem stringLoop_ok (s : Str) : ∀ a b, stringLoop s = .ok (a, b) →
    s = a ++ '\'' :: b ∧ '\'' ∉ a := by
  induction s with
  | nil => intro a b h; simp [stringLoop] at h
  | cons c cs ih =>
    intro a b h
    simp only [stringLoop] at h
    split at h
    · rename_i hc; simp at h; obtain ⟨rfl, rfl⟩ := h; simp [hc]
    · rename_i hc
      rw [Res.map_eq_ok] at h
      obtain ⟨r, hr, e⟩ := h
      simp only [Prod.mk.injEq] at e
      obtain ⟨e1, e2⟩ := e
      subst e1; subst e2
      obtain ⟨h1, h2⟩ := ih r.1 r.2 hr
      refine ⟨by simp [← h1], ?_⟩
      intro hm
      rcases List.mem_cons.1 hm with e | hm
      · exact hc e.symm
      · exact h2 hm

theorem spanNumeric_eq (uc : UC) (s : Str) :
    s = (spanNumeric uc s).1 ++ (spanNumeric uc s).2 ∧
    (∀ c ∈ (spanNumeric uc s).1, uc.numeric c = true) ∧
    ((spanNumeric uc s).2 = [] ∨ ∃ c cs, (spanNumeric uc s).2 = c :: cs ∧ uc.numeric c = false) := by
  induction s with
  | nil => simp [spanNumeric]
  | cons c cs ih =>
    unfold spanNumeric
    split
    · rename_i hc
      refine ⟨by simp [← ih.1], ?_, ih.2.2⟩
      intro x hx
      rcases List.mem_cons.1 hx with rfl | hx
      · exact hc
      · exact ih.2.1 x hx
    · rename_i hc
      exact ⟨rfl, by simp, Or.inr ⟨c, cs, rfl, by simpa using hc⟩⟩

theorem indexPath_ok (uc : UC) (s : Str) (t : PathToken) (r : Str) (h : indexPath uc s = .ok (t, r)) :
    Parsed t ∧ ∃ n, t = .index n ∧ parseUsize (spanNumeric uc s).1 = some n ∧
      r = (spanNumeric uc s).2 := by
  unfold indexPath at h
  simp only at h
  split at h
  · split at h
    · simp at h
    · split at h
      · rename_i n hn
        simp at h
        obtain ⟨rfl, rfl⟩ := h
        exact ⟨parseUsize_lt hn, n, rfl, hn, rfl⟩
      · simp at h
  · split at h
    · rename_i n hn
      simp at h
      obtain ⟨rfl, rfl⟩ := h
      exact ⟨parseUsize_lt hn, n, rfl, hn, rfl⟩
    · simp at h

/-- What may follow an identifier segment. -/
def IdStop (r : Str) : Prop := r = [] ∨ ∃ d ds, r = d :: ds ∧ (d = '.' ∨ d = '\'' ∨ d = '[')

/-- The exact text of one segment, as accepted by one iteration of the parser loop, when followed
by `r`. -/
inductive SegText (uc : UC) : PathToken → Str → Str → Prop
  | star (r) : SegText uc .star ['.', '*'] r
  | ident (c id r) (hc : isIdentifierChar uc c = true) (hs : c ≠ '*')
      (hid : ∀ x ∈ id, isIdentifierChar uc x = true) (hr : IdStop r) :
      SegText uc (.field (c :: id)) ('.' :: c :: id) r
  | string (k r) (hk : k ≠ []) (hq : '\'' ∉ k) :
      SegText uc (.field k) ('[' :: '\'' :: (k ++ ['\'', ']'])) r
  | index (ds n r) (hne : ds ≠ []) (hd : ∀ x ∈ ds, uc.numeric x = true)
      (hp : parseUsize ds = some n) : SegText uc (.index n) ('[' :: (ds ++ [']'])) r
  | starIndex (r) : SegText uc .starIndex ['[', '*', ']'] r

theorem identLoop_of_stop (uc : UC) (id r : Str) (hid : ∀ x ∈ id, isIdentifierChar uc x = true)
    (hr : IdStop r) : identLoop uc (id ++ r) = .ok (id, r) := by
  induction id with
  | nil =>
    rcases hr with rfl | ⟨d, ds, rfl, hd⟩
    · rfl
    · have : isIdentifierChar uc d = false := by
        rcases hd with rfl | rfl | rfl
        · exact not_idchar_dot uc
        · exact not_idchar_quote uc
        · exact not_idchar_lb uc
      simp [identLoop, this, hd]
  | cons c cs ih =>
    simp only [List.cons_append, identLoop, hid c (by simp), if_true]
    rw [ih (fun x hx => hid x (by simp [hx]))]
    rfl

theorem segment_of_text (uc : UC) {t : PathToken} {seg r : Str} (h : SegText uc t seg r) :
    segment uc (seg ++ r) = .ok (t, r) := by
  cases h with
  | star => rfl
  | ident c id r hc hs hid hr =>
    simp [segment, pathIdentifier, hs, hc, identifier, identLoop_of_stop uc id r hid hr]
  | string k r hk hq =>
    have h1 : ('[' :: '\'' :: (k ++ ['\'', ']'])) ++ r = '[' :: '\'' :: (k ++ '\'' :: (']' :: r)) := by
      simp
    rw [h1]
    simp [segment, bracketPath, bracketInner, stringPath, stringLoop_append _ _ hq, hk, closeBracket]
  | index ds n r hne hd hp =>
    have h1 : ('[' :: (ds ++ [']'])) ++ r = '[' :: (ds ++ (']' :: r)) := by simp
    rw [h1]
    have hsp := spanNumeric_append uc ds (']' :: r) hd (Or.inr ⟨']', r, rfl, not_numeric_rb uc⟩)
    cases ds with
    | nil => exact absurd rfl hne
    | cons d ds =>
      have hcd := hd d (by simp)
      have hq : d ≠ '\'' := by
        intro e; subst e; rw [not_numeric_quote] at hcd; exact absurd hcd (by simp)
      simp only [List.cons_append] at hsp
      simp [segment, bracketPath, bracketInner, hq, hcd, indexPath, hsp, hp, closeBracket]
  | starIndex =>
    simp [segment, bracketPath, bracketInner, not_numeric_star, closeBracket]

theorem segment_text (uc : UC) (s : Str) (t : PathToken) (r : Str) (h : segment uc s = .ok (t, r)) :
    ∃ seg, s = seg ++ r ∧ SegText uc t seg r := by
  cases s with
  | nil => simp [segment] at h
  | cons c cs =>
    simp only [segment] at h
    split at h
    · rename_i hdot
      subst hdot
      cases cs with
      | nil => simp [pathIdentifier] at h
      | cons d ds =>
        simp only [pathIdentifier] at h
        split at h
        · rename_i hd
          simp at h; obtain ⟨rfl, rfl⟩ := h
          exact ⟨['.', '*'], by simp [hd], .star _⟩
        · rename_i hst
          split at h
          · rename_i hd
            have hq : d ≠ '\'' := by
              intro e; subst e; rw [not_idchar_quote] at hd; simp at hd
            obtain ⟨_, _, id, h1, h2, h3, h4⟩ := identifier_ok uc d ds t r hq h
            subst h1
            exact ⟨'.' :: d :: id, by simp [h2], .ident d id r hd hst h3 h4⟩
          · simp at h
    · split at h
      · rename_i hlb
        subst hlb
        unfold bracketPath at h
        cases hb : bracketInner uc cs with
        | err => simp [hb] at h
        | panic => simp [hb] at h
        | ok x =>
          simp only [hb, Res.bind_ok] at h
          unfold closeBracket at h
          split at h
          · rename_i e es hx
            split at h
            · simp at h
            · rename_i he
              have he' : e = ']' := by simpa using he
              subst he'
              simp only [Res.ok.injEq, Prod.mk.injEq] at h
              obtain ⟨rfl, rfl⟩ := h
              cases cs with
              | nil => simp [bracketInner] at hb
              | cons d ds =>
                simp only [bracketInner] at hb
                split at hb
                · rename_i hd
                  unfold stringPath at hb
                  cases hs : stringLoop ds with
                  | err => simp [hs] at hb
                  | panic => simp [hs] at hb
                  | ok y =>
                    simp only [hs, Res.bind_ok] at hb
                    obtain ⟨h1, h2⟩ := stringLoop_ok ds y.1 y.2 hs
                    split at hb
                    · simp at hb
                    · rename_i hne
                      simp at hb
                      subst hb
                      refine ⟨'[' :: '\'' :: (y.1 ++ ['\'', ']']), ?_, .string y.1 _ ?_ h2⟩
                      · simp only at hx
                        rw [h1, hx, hd]; simp
                      · intro e; rw [e] at hne; simp at hne
                · split at hb
                  · rename_i hnum
                    obtain ⟨_, n, h2, h3, h4⟩ := indexPath_ok uc (d :: ds) x.1 x.2 hb
                    have hsp := spanNumeric_eq uc (d :: ds)
                    rw [h2]
                    refine ⟨'[' :: ((spanNumeric uc (d :: ds)).1 ++ [']']), ?_,
                      .index _ n _ ?_ hsp.2.1 h3⟩
                    · conv => lhs; rw [hsp.1]
                      rw [← h4, hx]; simp
                    · simp [spanNumeric, hnum]
                  · split at hb
                    · rename_i hst
                      simp at hb; subst hb
                      simp only at hx
                      subst hst
                      exact ⟨['[', '*', ']'], by rw [hx]; rfl, .starIndex _⟩
                    · simp at hb
          · simp at h
      · simp at h

theorem SegText.parsed {uc : UC} {t : PathToken} {seg r : Str} (h : SegText uc t seg r) :
    Parsed t ∧ 0 < seg.length := by
  cases h with
  | star => simp [Parsed]
  | ident c id r hc hs hid hr =>
    refine ⟨⟨by simp, ?_⟩, by simp⟩
    intro hm
    have : isIdentifierChar uc '\'' = true := by
      rcases List.mem_cons.1 hm with e | hm
      · rw [e]; exact hc
      · exact hid _ hm
    rw [not_idchar_quote] at this
    simp at this
  | string k r hk hq => exact ⟨⟨hk, hq⟩, by simp⟩
  | index ds n r hne hd hp => exact ⟨parseUsize_lt hp, by simp⟩
  | starIndex => simp [Parsed]

theorem segment_ok (uc : UC) (s : Str) (t : PathToken) (r : Str) (h : segment uc s = .ok (t, r)) :
    Parsed t ∧ r.length < s.length := by
  obtain ⟨seg, h1, h2⟩ := segment_text uc s t r h
  refine ⟨h2.parsed.1, ?_⟩
  have := h2.parsed.2
  rw [h1]; simp; omega

theorem IdStop_extend {r z : Str} (h : IdStop r) : IdStop (r ++ '[' :: z) := by
  rcases h with rfl | ⟨d, ds, rfl, hd⟩
  · exact Or.inr ⟨'[', z, rfl, by simp⟩
  · exact Or.inr ⟨d, _, rfl, hd⟩

theorem IdStop_shrink {r z : Str} (h : IdStop (r ++ '[' :: z)) : IdStop r := by
  cases r with
  | nil => exact Or.inl rfl
  | cons d ds =>
    rcases h with h | ⟨d', ds', h1, h2⟩
    · simp at h
    · simp at h1
      exact Or.inr ⟨d, ds, rfl, by rw [h1.1]; exact h2⟩

theorem segText_extend {uc : UC} {t : PathToken} {seg r z : Str} :
    SegText uc t seg r ↔ SegText uc t seg (r ++ '[' :: z) := by
  constructor
  · intro h
    cases h with
    | star => exact .star _
    | ident c id r hc hs hid hr => exact .ident c id _ hc hs hid (IdStop_extend hr)
    | string k r hk hq => exact .string k _ hk hq
    | index ds n r hne hd hp => exact .index ds n _ hne hd hp
    | starIndex => exact .starIndex _
  · intro h
    cases h with
    | star => exact .star _
    | ident c id r hc hs hid hr => exact .ident c id _ hc hs hid (IdStop_shrink hr)
    | string k r hk hq => exact .string k _ hk hq
    | index ds n r hne hd hp => exact .index ds n _ hne hd hp
    | starIndex => exact .starIndex _

theorem pathExpF_ok (uc : UC) : ∀ fuel s ts, pathExpF uc fuel s = .ok ts → ∀ t ∈ ts, Parsed t := by
  intro fuel
  induction fuel with
  | zero =>
    intro s ts h
    cases s with
    | nil => simp [pathExpF] at h; subst h; simp
    | cons c cs => simp [pathExpF] at h
  | succ n ih =>
    intro s ts h
    cases s with
    | nil => simp [pathExpF] at h; subst h; simp
    | cons c cs =>
      simp only [pathExpF] at h
      cases hs : segment uc (c :: cs) with
      | err => simp [hs] at h
      | panic => simp [hs] at h
      | ok x =>
        simp only [hs, Res.bind_ok, Res.map_eq_ok] at h
        obtain ⟨ts', h1, rfl⟩ := h
        intro t ht
        rcases List.mem_cons.1 ht with rfl | ht
        · exact (segment_ok uc _ _ _ hs).1
        · exact ih _ _ h1 t ht

/-- Every iteration of the loop consumes a character, so any fuel at least the length of the string
gives the same result: the fuel is not observable. -/
theorem pathExpF_fuel (uc : UC) : ∀ n s f, s.length ≤ n → s.length ≤ f →
    pathExpF uc n s = pathExpF uc f s := by
  intro n
  induction n with
  | zero =>
    intro s f h1 h2
    cases s with
    | nil => cases f <;> simp [pathExpF]
    | cons c cs => simp at h1
  | succ n ih =>
    intro s f h1 h2
    cases s with
    | nil => cases f <;> simp [pathExpF]
    | cons c cs =>
      cases f with
      | zero => simp at h2
      | succ f =>
        simp only [pathExpF]
        cases hs : segment uc (c :: cs) with
        | err => simp
        | panic => simp
        | ok x =>
          simp only [Res.bind_ok]
          have := (segment_ok uc _ _ _ hs).2
          simp only [List.length_cons] at this h1 h2
          rw [ih x.2 f (by omega) (by omega)]

theorem parse_ok (uc : UC) (s : Str) (ts : List PathToken) (h : parsePathExp uc s = .ok ts) :
    ts = [] ∧ s = [] ∨ ∃ rest, ts = .root :: rest ∧ ∀ t ∈ rest, Parsed t := by
  cases s with
  | nil => simp [parsePathExp] at h; simp [h]
  | cons c cs =>
    right
    simp only [parsePathExp] at h
    split at h
    · rw [Res.map_eq_ok] at h
      obtain ⟨rest, h1, rfl⟩ := h
      exact ⟨rest, rfl, pathExpF_ok uc _ _ _ h1⟩
    · split at h
      · rename_i hc
        cases hi : identifier uc c cs with
        | err => simp [hi] at h
        | panic => simp [hi] at h
        | ok x =>
          simp only [hi, Res.bind_ok, Res.map_eq_ok] at h
          obtain ⟨rest, h1, rfl⟩ := h
          have hq : c ≠ '\'' := by
            intro e; subst e
            have := uc_not_alnum uc '\'' (by decide) (by decide) (by decide)
            simp [this.1, this.2] at hc
          refine ⟨x.1 :: rest, rfl, ?_⟩
          intro t ht
          rcases List.mem_cons.1 ht with rfl | ht
          · exact (identifier_ok uc c cs _ _ hq hi).1
          · exact pathExpF_ok uc _ _ _ h1 t ht
      · simp at h

/-! ### Panics -/

theorem identLoop_no_panic (uc : UC) (s : Str) : identLoop uc s ≠ .panic := by
  induction s with
  | nil => simp [identLoop]
  | cons c cs ih =>
    simp only [identLoop]
    split
    · simpa [Res.map_eq_panic] using ih
    · split <;> simp

theorem identifier_no_panic (uc : UC) (c : Char) (s : Str) : identifier uc c s ≠ .panic := by
  simpa [identifier, Res.map_eq_panic] using identLoop_no_panic uc s

theorem stringLoop_no_panic (s : Str) : stringLoop s ≠ .panic := by
  induction s with
  | nil => simp [stringLoop]
  | cons c cs ih =>
    simp only [stringLoop]
    split
    · simp
    · simpa [Res.map_eq_panic] using ih

/-- The text of a bracket whose index does not fit `usize`. -/
def BadIndex (uc : UC) (ds post : Str) : Prop :=
  ds ≠ [] ∧ (∀ c ∈ ds, uc.numeric c = true) ∧ (post = [] ∨ ∃ r, post = ']' :: r) ∧
    parseUsize ds = none

theorem segment_panic (uc : UC) (s : Str) :
    segment uc s = .panic ↔ ∃ ds post, s = '[' :: (ds ++ post) ∧ BadIndex uc ds post := by
  constructor
  · intro h
    cases s with
    | nil => simp [segment] at h
    | cons c cs =>
      simp only [segment] at h
      split at h
      · cases cs with
        | nil => simp [pathIdentifier] at h
        | cons d ds =>
          simp only [pathIdentifier] at h
          split at h
          · simp at h
          · split at h
            · exact absurd h (identifier_no_panic uc d ds)
            · simp at h
      · split at h
        · rename_i hc
          subst hc
          unfold bracketPath at h
          have hcl : ∀ x, closeBracket x ≠ .panic := by
            intro x; unfold closeBracket; split
            · split <;> simp
            · simp
          have hb : bracketInner uc cs = .panic := by
            cases hb : bracketInner uc cs with
            | err => simp [hb] at h
            | panic => rfl
            | ok x => simp only [hb, Res.bind_ok] at h; exact absurd h (hcl x)
          cases cs with
          | nil => simp [bracketInner] at hb
          | cons d ds =>
            simp only [bracketInner] at hb
            split at hb
            · unfold stringPath at hb
              cases hs : stringLoop ds with
              | err => simp [hs] at hb
              | panic => exact absurd hs (stringLoop_no_panic ds)
              | ok y => simp only [hs, Res.bind_ok] at hb; split at hb <;> simp at hb
            · split at hb
              · rename_i hnum
                have hsp := spanNumeric_eq uc (d :: ds)
                have hne : (spanNumeric uc (d :: ds)).1 ≠ [] := by
                  simp [spanNumeric, hnum]
                refine ⟨(spanNumeric uc (d :: ds)).1, (spanNumeric uc (d :: ds)).2, ?_, hne, hsp.2.1, ?_, ?_⟩
                · rw [← hsp.1]
                · unfold indexPath at hb
                  simp only at hb
                  split at hb
                  · rename_i e es he
                    split at hb
                    · simp at hb
                    · rename_i hrb
                      exact Or.inr ⟨es, by simp at hrb; rw [he, hrb]⟩
                  · rename_i he; exact Or.inl he
                · unfold indexPath at hb
                  simp only at hb
                  split at hb
                  · split at hb
                    · simp at hb
                    · split at hb
                      · simp at hb
                      · assumption
                  · split at hb
                    · simp at hb
                    · assumption
              · split at hb <;> simp at hb
        · simp at h
  · rintro ⟨ds, post, rfl, hne, hnum, hpost, hp⟩
    cases ds with
    | nil => exact absurd rfl hne
    | cons d ds =>
      have hsp : spanNumeric uc ((d :: ds) ++ post) = (d :: ds, post) := by
        apply spanNumeric_append uc _ _ hnum
        rcases hpost with rfl | ⟨r, rfl⟩
        · exact Or.inl rfl
        · exact Or.inr ⟨_, _, rfl, not_numeric_rb uc⟩
      have hd := hnum d (by simp)
      have hq : d ≠ '\'' := by
        intro e; subst e; rw [not_numeric_quote] at hd; simp at hd
      simp only [List.cons_append] at hsp
      rcases hpost with rfl | ⟨r, rfl⟩
      · simp at hsp
        simp [segment, bracketPath, bracketInner, hq, hd, indexPath, hsp, hp]
      · simp [segment, bracketPath, bracketInner, hq, hd, indexPath, hsp, hp]

theorem segment_extend (uc : UC) (s z : Str) (t : PathToken) (r : Str)
    (h : segment uc s = .ok (t, r)) : segment uc (s ++ '[' :: z) = .ok (t, r ++ '[' :: z) := by
  obtain ⟨seg, h1, h2⟩ := segment_text uc s t r h
  have := segment_of_text uc ((segText_extend (z := z)).1 h2)
  rw [h1, List.append_assoc]; exact this

theorem pathExp_extend (uc : UC) (z : Str) : ∀ n s ts, s.length ≤ n → pathExp uc s = .ok ts →
    pathExp uc (s ++ '[' :: z) = (pathExp uc ('[' :: z)).map (ts ++ ·) := by
  intro n
  induction n with
  | zero =>
    intro s ts hn h
    have : s = [] := by cases s with | nil => rfl | cons _ _ => simp at hn
    subst this
    simp [pathExp, pathExpF] at h
    subst h
    simp only [List.nil_append]
    cases pathExp uc ('[' :: z) <;> simp
  | succ n ih =>
    intro s ts hn h
    cases s with
    | nil =>
      simp [pathExp, pathExpF] at h
      subst h
      simp only [List.nil_append]
      cases pathExp uc ('[' :: z) <;> simp
    | cons c cs =>
      unfold pathExp at h
      simp only [List.length_cons, pathExpF] at h
      cases hs : segment uc (c :: cs) with
      | err => simp [hs] at h
      | panic => simp [hs] at h
      | ok x =>
        simp only [hs, Res.bind_ok, Res.map_eq_ok] at h
        obtain ⟨ts', h1, rfl⟩ := h
        have hlen := (segment_ok uc _ _ _ hs).2
        simp only [List.length_cons] at hlen hn
        rw [pathExpF_fuel uc cs.length x.2 x.2.length (by omega) (by omega)] at h1
        have := ih x.2 ts' (by omega) h1
        have hext := segment_extend uc (c :: cs) z x.1 x.2 hs
        unfold pathExp
        simp only [List.cons_append, List.length_cons, pathExpF] at hext ⊢
        rw [hext]
        simp only [Res.bind_ok]
        rw [pathExpF_fuel uc _ (x.2 ++ '[' :: z) (x.2 ++ '[' :: z).length (by simp; omega) (by omega)]
        have h2 : pathExpF uc (x.2 ++ '[' :: z).length (x.2 ++ '[' :: z) = pathExp uc (x.2 ++ '[' :: z) := rfl
        rw [h2, this]
        have h3 : pathExpF uc (z.length + 1) ('[' :: z) = pathExp uc ('[' :: z) := rfl
        have h4 : ((segment uc ('[' :: z)).bind fun r => (pathExpF uc z.length r.2).map (r.1 :: ·))
            = pathExp uc ('[' :: z) := rfl
        rw [h4]
        cases pathExp uc ('[' :: z) <;> simp

theorem pathExp_panic (uc : UC) : ∀ n s, s.length ≤ n → (pathExp uc s = .panic ↔
    ∃ pre ds post ts, s = pre ++ '[' :: (ds ++ post) ∧ pathExp uc pre = .ok ts ∧
      BadIndex uc ds post) := by
  intro n
  induction n with
  | zero =>
    intro s hn
    have : s = [] := by cases s with | nil => rfl | cons _ _ => simp at hn
    subst this
    simp [pathExp, pathExpF]
  | succ n ih =>
    intro s hn
    constructor
    · intro h
      cases s with
      | nil => simp [pathExp, pathExpF] at h
      | cons c cs =>
        unfold pathExp at h
        simp only [List.length_cons, pathExpF] at h
        cases hs : segment uc (c :: cs) with
        | err => simp [hs] at h
        | panic =>
          obtain ⟨ds, post, h1, h2⟩ := (segment_panic uc _).1 hs
          exact ⟨[], ds, post, [], by simpa using h1, by simp [pathExp, pathExpF], h2⟩
        | ok x =>
          simp only [hs, Res.bind_ok, Res.map_eq_panic] at h
          have hlen := (segment_ok uc _ _ _ hs).2
          simp only [List.length_cons] at hlen hn
          rw [pathExpF_fuel uc cs.length x.2 x.2.length (by omega) (by omega)] at h
          obtain ⟨pre, ds, post, ts, h1, h2, h3⟩ := (ih x.2 (by omega)).1 h
          -- the consumed part is a prefix
          obtain ⟨p0, hp0, htx⟩ := segment_text uc _ _ _ hs
          have hseg : segment uc (p0 ++ pre) = .ok (x.1, pre) := by
            apply segment_of_text
            rw [h1] at htx
            exact segText_extend.2 htx
          refine ⟨p0 ++ pre, ds, post, x.1 :: ts, ?_, ?_, h3⟩
          · rw [hp0, h1]; simp
          · have hlen2 := (segment_ok uc _ _ _ hseg).2
            unfold pathExp
            cases hq : p0 ++ pre with
            | nil => rw [hq] at hlen2; simp at hlen2
            | cons d ds' =>
              simp only [List.length_cons, pathExpF]
              rw [← hq, hseg]
              simp only [Res.bind_ok]
              rw [hq] at hlen2
              simp only [List.length_cons] at hlen2
              rw [pathExpF_fuel uc ds'.length pre pre.length (by omega) (by omega)]
              have : pathExpF uc pre.length pre = .ok ts := h2
              rw [this]; rfl
    · rintro ⟨pre, ds, post, ts, rfl, h1, h2⟩
      rw [pathExp_extend uc _ _ pre ts (Nat.le_refl _) h1]
      have : pathExp uc ('[' :: (ds ++ post)) = .panic := by
        unfold pathExp
        simp only [List.length_cons, pathExpF]
        rw [(segment_panic uc _).2 ⟨ds, post, rfl, h2⟩]
        rfl
      rw [this]; rfl

/-! ### Escaping -/

theorem escapeKey_eq_self {k : Str} : escapeKey k = k ↔ '\\' ∉ k ∧ '\'' ∉ k := by
  have hlen : ∀ k, k.length ≤ (escapeKey k).length := by
    intro k
    induction k with
    | nil => simp [escapeKey]
    | cons c cs ih => unfold escapeKey; split <;> simp <;> omega
  induction k with
  | nil => simp [escapeKey]
  | cons c cs ih =>
    unfold escapeKey
    split
    · rename_i hc
      constructor
      · intro h
        have := congrArg List.length h
        have h2 := hlen cs
        simp at this
        omega
      · rintro ⟨h1, h2⟩
        simp only [List.mem_cons, not_or] at h1 h2
        rcases hc with rfl | rfl
        · exact absurd rfl h1.1
        · exact absurd rfl h2.1
    · rename_i hc
      simp only [not_or] at hc
      simp only [List.cons.injEq, true_and, ih, List.mem_cons, not_or]
      exact ⟨fun h => ⟨⟨Ne.symm hc.1, h.1⟩, ⟨Ne.symm hc.2, h.2⟩⟩, fun h => ⟨h.1.2, h.2.2⟩⟩

theorem isIdent_chars {k : Str} (h : isIdent k = true) : ∀ c ∈ k, identRest c = true := by
  cases k with
  | nil => simp
  | cons c cs =>
    simp only [isIdent, Bool.and_eq_true, List.all_eq_true] at h
    intro x hx
    rcases List.mem_cons.1 hx with rfl | hx
    · exact identRest_of_identStart h.1
    · exact h.2 x hx

theorem isIdent_no_backslash {k : Str} (h : isIdent k = true) : '\\' ∉ k :=
  fun hm => absurd (isIdent_chars h _ hm) (by decide)
theorem isIdent_no_quote {k : Str} (h : isIdent k = true) : '\'' ∉ k :=
  fun hm => absurd (isIdent_chars h _ hm) (by decide)

/-! ### Weights -/

/-- The weight product in unbounded arithmetic. -/
def rawWeight : List PathToken → List Str → Nat
  | t :: ts, f :: fs => matchesToken f t * rawWeight ts fs
  | _, _ => 1

theorem weightFold_eq (ts : List PathToken) : ∀ (fs : List Str) (acc : Nat), acc < usizeLim →
    weightFold acc ts fs = acc * rawWeight ts fs % usizeLim := by
  induction ts with
  | nil => intro fs acc h; cases fs <;> simp [weightFold, rawWeight, Nat.mod_eq_of_lt h]
  | cons t ts ih =>
    intro fs acc h
    cases fs with
    | nil => simp [weightFold, rawWeight, Nat.mod_eq_of_lt h]
    | cons f fs =>
      simp only [weightFold, rawWeight]
      rw [ih fs _ (Nat.mod_lt _ (by decide))]
      rw [Nat.mod_mul_mod, Nat.mul_assoc]

end Path
end Verif
