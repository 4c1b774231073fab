import Verif.Props.TimeProps

/-
  C92: the grammar of date/time patterns.
  C93: what a date/time generator produces is accepted by its own pattern.
-/

set_option autoImplicit false

namespace Verif
namespace TimePatternProps
open Time TimeProps

/-! ### Specification of patterns -/

/-- The pattern letters: which letters, how many of them may follow each other (`none`: any number), and the field
the run stands for. -/
def table : List (List Char × Option Nat × (Nat → PTok)) :=
  [(['G'], some 5, .era), (['y', 'Y', 'u'], none, .year), (['M'], some 5, .month), (['L'], some 5, .monthNum),
   (['D'], none, fun _ => .dayInYear), (['d'], some 2, fun _ => .dayInMonth), (['Q'], some 5, .quarter),
   (['q'], some 2, .quarterNum), (['w'], some 2, fun _ => .weekInYear), (['W'], some 2, fun _ => .weekInMonth true),
   (['F'], some 2, fun _ => .weekInMonth false), (['E'], some 5, .dayName), (['e'], some 5, .dayOfWeek),
   (['c'], some 1, .dayOfWeek), (['a'], some 1, fun _ => .amPm), (['h'], some 2, fun _ => .hour12),
   (['H'], some 2, fun _ => .hour24z), (['k'], some 2, fun _ => .hour24), (['K'], some 2, fun _ => .hour12z),
   (['m'], some 2, fun _ => .minute), (['s'], some 2, fun _ => .second), (['S'], none, .frac), (['n'], none, .nano),
   (['A'], none, fun _ => .milliOfDay), (['N'], none, fun _ => .nanoOfDay), (['x'], some 5, .offsetX),
   (['X'], some 5, .offsetXZ), (['Z'], some 5, .offset), (['O'], some 4, .offsetGmt), (['z'], some 4, .tzName),
   (['V'], some 2, .tzId)]

/-- `n` letters `c` stand for the field `t`. -/
def Letters (c : Char) (n : Nat) (t : PTok) : Prop :=
  ∃ row ∈ table, c ∈ row.1 ∧ (∀ max, row.2.1 = some max → n ≤ max) ∧ t = row.2.2 n

/-- Every quote doubled. -/
def double : Str → Str
  | [] => []
  | c :: u => if c = '\'' then '\'' :: '\'' :: double u else c :: double u

/-- Neighbouring quotes merged into one. -/
def merge : Str → Str
  | [] => []
  | c :: u => if c = '\'' ∧ (merge u).head? = some '\'' then merge u else c :: merge u

/-- Characters that stand for themselves: not an ASCII letter or digit, not a quote, brace or bracket. -/
def Plain (c : Char) : Prop :=
  c.isAlpha = false ∧ c.isDigit = false ∧ c ≠ '\'' ∧ c ≠ '{' ∧ c ≠ '}' ∧ c ≠ '[' ∧ c ≠ ']'

/-- Patterns: runs of pattern letters, quoted texts, doubled quotes, and runs of plain characters.  Each piece is
as long as possible. -/
inductive Pattern : Str → List PTok → Prop
  | nil : Pattern [] []
  | letters {c : Char} {n : Nat} {t : PTok} {rest : Str} {ts : List PTok} :
      Letters c n t → 1 ≤ n → (∀ r, rest ≠ c :: r) → Pattern rest ts →
      Pattern (List.replicate n c ++ rest) (t :: ts)
  | quoted {u rest : Str} {ts : List PTok} :
      u ≠ [] → (∀ r, rest ≠ '\'' :: r) → Pattern rest ts →
      Pattern ('\'' :: double u ++ '\'' :: rest) (.text (merge u) :: ts)
  | quote {rest : Str} {ts : List PTok} :
      (∀ r, rest ≠ '\'' :: r) → Pattern rest ts → Pattern ('\'' :: '\'' :: rest) (.text ['\''] :: ts)
  | plain {t rest : Str} {ts : List PTok} :
      t ≠ [] → (∀ c ∈ t, Plain c) → (∀ c r, rest = c :: r → ¬ Plain c) → Pattern rest ts →
      Pattern (t ++ rest) (.text t :: ts)

/-! ### The letters -/

/-- A run of `n` letters under a row of the table. -/
def capped (row : List Char × Option Nat × (Nat → PTok)) (n : Nat) : Res PTok :=
  match row.2.1 with
  | some max => if max < n then .err else .ok (row.2.2 n)
  | none => .ok (row.2.2 n)

/-- The row of a letter. -/
def rowOf (c : Char) : Option (List Char × Option Nat × (Nat → PTok)) := table.find? fun r => r.1.contains c

theorem letterTok_row (c : Char) (n : Nat) : letterTok c n = (rowOf c).map (capped · n) := by
  unfold letterTok
  split
  all_goals first
    | rfl
    | (have hn : rowOf c = none := by
         refine List.find?_eq_none.mpr ?_
         intro row hr
         simp only [table, List.mem_cons, List.not_mem_nil, or_false] at hr
         rcases hr with e | e | e | e | e | e | e | e | e | e | e | e | e | e | e | e | e | e | e | e | e | e | e |
           e | e | e | e | e | e | e | e
         all_goals
           subst e
           simp only [List.contains_cons, List.contains_nil, Bool.or_false, Bool.or_eq_true, beq_iff_eq]
           first
             | assumption
             | (rintro (e | e | e) <;> (revert e; assumption))
       rw [hn]; rfl)

theorem row_unique : ∀ row ∈ table, ∀ c ∈ row.1, rowOf c = some row := by
  intro row hr c hc
  simp only [table, List.mem_cons, List.not_mem_nil, or_false] at hr
  rcases hr with e | e | e | e | e | e | e | e | e | e | e | e | e | e | e | e | e | e | e | e | e | e | e | e |
    e | e | e | e | e | e | e
  all_goals
    subst e
    simp only [List.mem_cons, List.not_mem_nil, or_false] at hc
    first
      | (subst hc; rfl)
      | (rcases hc with e | e | e <;> (subst e; rfl))

theorem letters_iff {c : Char} {n : Nat} {t : PTok} : letterTok c n = some (.ok t) ↔ Letters c n t := by
  rw [letterTok_row]
  constructor
  · intro h
    cases hr : rowOf c with
    | none => rw [hr] at h; cases h
    | some row =>
      rw [hr] at h
      have hm : row ∈ table := List.mem_of_find?_eq_some hr
      have hc : row.1.contains c = true := by
        unfold rowOf at hr
        have := List.find?_some hr
        exact this
      have hcap : capped row n = .ok t := Option.some.inj h
      refine ⟨row, hm, by simpa using hc, ?_⟩
      unfold capped at hcap
      split at hcap
      · rename_i max e
        split at hcap
        · cases hcap
        · cases hcap
          exact ⟨by intro m em; rw [e] at em; cases em; omega, rfl⟩
      · rename_i e
        cases hcap
        exact ⟨(by intro m em; rw [e] at em; cases em), rfl⟩
  · rintro ⟨row, hm, hc, hmax, ht⟩
    rw [row_unique row hm c hc]
    show some (capped row n) = _
    congr 1
    unfold capped
    split
    · rename_i max e
      rw [if_neg (by have := hmax max e; omega), ht]
    · rw [ht]

/-! ### Quotes -/

theorem double_cons (c : Char) (u : Str) :
    double (c :: u) = if c = '\'' then '\'' :: '\'' :: double u else c :: double u := rfl

theorem quotedBody_double : ∀ (u : Str) (rest : Str), (∀ r, rest ≠ '\'' :: r) →
    quotedBody (double u ++ '\'' :: rest) = (double u, '\'' :: rest)
  | [], rest, h => by
    cases rest with
    | nil => rfl
    | cons c r =>
      have hc : c ≠ '\'' := fun e => h r (by rw [e])
      show quotedBody ('\'' :: c :: r) = _
      rw [quotedBody]
      · rfl
      · intro s e; cases e; exact hc rfl
  | c :: u, rest, h => by
    have ih := quotedBody_double u rest h
    rw [double_cons]
    split
    · rw [List.cons_append, List.cons_append, quotedBody, ih]
    · rename_i hc
      rw [List.cons_append, quotedBody, ih]
      · intro s e _; exact hc e
      · intro e; exact hc e

theorem quotedBody_split : ∀ (s : Str), ∃ u, (quotedBody s).1 = double u ∧ s = double u ++ (quotedBody s).2 ∧
    ((quotedBody s).2 = [] ∨ ∃ rest, (quotedBody s).2 = '\'' :: rest ∧ ∀ r, rest ≠ '\'' :: r) := by
  intro s
  fun_induction quotedBody s with
  | case1 => exact ⟨[], rfl, rfl, .inl rfl⟩
  | case2 s ih =>
    obtain ⟨u, h1, h2, h3⟩ := ih
    refine ⟨'\'' :: u, ?_, ?_, h3⟩
    · rw [double_cons, if_pos rfl, h1]
    · rw [double_cons, if_pos rfl]
      show _ = '\'' :: '\'' :: (double u ++ _)
      rw [← h2]
  | case3 s hs =>
    refine ⟨[], rfl, rfl, .inr ⟨s, rfl, ?_⟩⟩
    intro r e
    exact hs r e
  | case4 c s h1 h2 ih =>
    obtain ⟨u, h3, h4, h5⟩ := ih
    have hc : c ≠ '\'' := h2
    refine ⟨c :: u, ?_, ?_, h5⟩
    · rw [double_cons, if_neg hc, h3]
    · rw [double_cons, if_neg hc]
      show _ = c :: (double u ++ _)
      rw [← h4]

theorem merge_head (c : Char) (u : Str) : (merge (c :: u)).head? = some c := by
  rw [merge]
  split
  · rename_i h; rw [h.1]; exact h.2
  · rfl

theorem squash_plain {c : Char} (hc : c ≠ '\'') (s : Str) : squash (c :: s) = c :: squash s := by
  rw [squash]
  intro s' e; exact absurd e hc

theorem squash_double : ∀ u : Str, squash (double u) = merge u
  | [] => rfl
  | c :: u => by
    have ih := squash_double u
    rw [double_cons, merge]
    by_cases hc : c = '\''
    · subst hc
      rw [if_pos rfl, squash]
      cases u with
      | nil => rfl
      | cons d u =>
        rw [merge_head]
        by_cases hd : d = '\''
        · subst hd
          rw [if_pos ⟨rfl, rfl⟩, ← ih, double_cons, if_pos rfl, squash]
        · rw [if_neg (by rintro ⟨-, e⟩; exact hd (Option.some.inj e)), ← ih, double_cons, if_neg hd, squash]
          intro s _ e
          cases e
          exact hd rfl
    · rw [if_neg hc, if_neg (fun h => hc h.1), squash_plain hc, ih]

/-- Without neighbouring quotes nothing is merged. -/
theorem merge_id : ∀ u : Str, (∀ a b, u ≠ a ++ '\'' :: '\'' :: b) → merge u = u
  | [], _ => rfl
  | c :: u, h => by
    have ih := merge_id u (fun a b e => h (c :: a) b (by rw [e]; rfl))
    rw [merge, ih, if_neg]
    rintro ⟨hc, hu⟩
    cases u with
    | nil => cases hu
    | cons d u =>
      have hd : d = '\'' := Option.some.inj hu
      exact h [] u (by rw [hc, hd]; rfl)

/-! ### One piece -/

theorem plain_iff {c : Char} : isTextChar c = true ↔ Plain c := by
  simp only [isTextChar, Plain, Bool.not_eq_true', Bool.or_eq_false_iff, beq_eq_false_iff_ne, and_assoc]

theorem takeWhile_eq : ∀ (c : Char) (s : Str), s.takeWhile (· == c) = List.replicate (s.takeWhile (· == c)).length c
  | c, [] => rfl
  | c, d :: s => by
    rw [List.takeWhile_cons]
    split
    · rename_i h
      have : d = c := by simpa using h
      rw [List.length_cons, List.replicate_succ, ← takeWhile_eq c s, this]
    · rfl

theorem run_split (c : Char) (s : Str) :
    s = List.replicate (s.takeWhile (· == c)).length c ++ s.dropWhile (· == c) := by
  rw [← takeWhile_eq]
  exact (List.takeWhile_append_dropWhile).symm

theorem drop_head (c : Char) (s r : Str) : s.dropWhile (· == c) ≠ c :: r := by
  intro e
  have := notHead_drop (f := (· == c)) s c r e
  simp at this

theorem run_of {c : Char} : ∀ (n : Nat) {rest : Str}, (∀ r, rest ≠ c :: r) →
    (List.replicate n c ++ rest).takeWhile (· == c) = List.replicate n c ∧
    (List.replicate n c ++ rest).dropWhile (· == c) = rest
  | 0, rest, h => by
    cases rest with
    | nil => exact ⟨rfl, rfl⟩
    | cons d r =>
      have hd : (d == c) = false := by
        cases hh : d == c with
        | false => rfl
        | true => exact absurd (by rw [eq_of_beq hh]) (h r)
      simp [hd]
  | n + 1, rest, h => by
    obtain ⟨h1, h2⟩ := run_of n h
    rw [List.replicate_succ, List.cons_append, List.takeWhile_cons, List.dropWhile_cons]
    simp [h1, h2]

theorem quotedText_iff {s : Str} {t : PTok} {r : Str} :
    quotedText s = some (t, r) ↔
      ∃ u, u ≠ [] ∧ s = '\'' :: double u ++ '\'' :: r ∧ (∀ r', r ≠ '\'' :: r') ∧ t = .text (merge u) := by
  constructor
  · intro h
    unfold quotedText at h
    split at h
    · rename_i s'
      split at h
      · cases h
      · rename_i hne
        split at h
        · rename_i r' hr
          cases h
          obtain ⟨u, h1, h2, h3⟩ := quotedBody_split s'
          refine ⟨u, ?_, ?_, ?_, ?_⟩
          · intro e; rw [h1, e] at hne; exact hne rfl
          · rw [hr] at h2
            rw [h2]; rfl
          · rcases h3 with h3 | ⟨rest, h3, h4⟩
            · rw [hr] at h3; cases h3
            · rw [hr] at h3; cases h3; exact h4
          · rw [h1, squash_double]
        · cases h
    · cases h
  · rintro ⟨u, hu, e, hr, ht⟩
    subst e ht
    unfold quotedText
    simp only [List.cons_append]
    rw [quotedBody_double u r hr]
    simp only
    have : (double u).isEmpty = false := by
      cases u with
      | nil => exact absurd rfl hu
      | cons c u => rw [double_cons]; split <;> rfl
    rw [this, squash_double]
    rfl

theorem letterTok_quote (n : Nat) : letterTok '\'' n = none := rfl

theorem letters_alpha {c : Char} {n : Nat} {r : Res PTok} (h : letterTok c n = some r) : c.isAlpha = true := by
  rw [letterTok_row] at h
  cases hr : rowOf c with
  | none => rw [hr] at h; cases h
  | some row =>
    have hm : row ∈ table := List.mem_of_find?_eq_some hr
    have hc : row.1.contains c = true := by
      unfold rowOf at hr
      have := List.find?_some hr
      exact this
    have key : table.all (fun row => row.1.all Char.isAlpha) = true := by decide
    have := List.all_eq_true.mp (List.all_eq_true.mp key row hm) c (by simpa using hc)
    exact this

/-- An unterminated quotation is never a pattern. -/
theorem open_quote : ∀ (f : Nat) (r : Str) (ts : List PTok), (quotedBody r).2 = [] → parseLoop f ('\'' :: r) ≠ .ok ts
  | 0, r, ts, _, h => by cases h
  | f + 1, r, ts, hq, h => by
    rw [parseLoop, nextTok, letterTok_quote] at h
    have hqt : quotedText ('\'' :: r) = none := by
      unfold quotedText
      simp only
      rw [hq]
      split <;> rfl
    simp only [hqt] at h
    cases r with
    | nil =>
      have h1 : tag ['\'', '\''] ['\''] = none := rfl
      have h2 : many1 isTextChar ['\''] = none := rfl
      rw [h1, h2] at h
      cases h
    | cons d r =>
      by_cases hd : d = '\''
      · subst hd
        have h1 : tag ['\'', '\''] ('\'' :: '\'' :: r) = some r := rfl
        rw [h1] at h
        simp only at h
        obtain ⟨ts', h3, -⟩ := Res.map_eq_ok.mp h
        cases r with
        | nil => cases hq
        | cons e r =>
          by_cases he : e = '\''
          · subst he
            refine open_quote f r ts' ?_ h3
            exact hq
          · rw [quotedBody] at hq
            · cases hq
            · intro s e'; cases e'; exact he rfl
      · have h1 : tag ['\'', '\''] ('\'' :: d :: r) = none := by
          rw [tag, if_pos rfl, tag, if_neg (fun e => hd e.symm)]
        have h2 : many1 isTextChar ('\'' :: d :: r) = none := rfl
        rw [h1, h2] at h
        cases h

theorem parse_sound : ∀ (f : Nat) (s : Str) (ts : List PTok), parseLoop f s = .ok ts → Pattern s ts
  | _, [], ts, h => by
    cases ‹Nat› <;> (cases h; exact .nil)
  | 0, _ :: _, ts, h => by cases h
  | f + 1, c :: s, ts, h => by
    have h0 := h
    rw [parseLoop] at h
    split at h
    · cases h
    · cases h
    · cases h
    · rename_i t r hn
      obtain ⟨ts', h1, e⟩ := Res.map_eq_ok.mp h
      subst e
      have ih := parse_sound f r ts' h1
      rw [nextTok] at hn
      split at hn
      · rename_i res hl
        obtain ⟨t', ht', e⟩ := Res.map_eq_ok.mp (Option.some.inj hn)
        cases e
        rw [ht'] at hl
        have hlet := letters_iff.mp hl
        have hrun := run_split c (c :: s)
        rw [hrun]
        refine .letters hlet ?_ (drop_head c (c :: s)) ih
        rw [List.takeWhile_cons]
        simp
      · rename_i hl
        split at hn
        · rename_i t' r' hq
          cases hn
          obtain ⟨u, hu, e, hr, ht⟩ := quotedText_iff.mp hq
          rw [e, ht]
          exact .quoted hu hr ih
        · rename_i hq
          split at hn
          · rename_i r' htag
            cases hn
            have e := tag_iff.mp htag
            rw [e]
            refine .quote ?_ ih
            intro r2 e2
            subst e2
            refine open_quote f r2 ts' ?_ h1
            cases hb : (quotedBody r2).2 with
            | nil => rfl
            | cons x y =>
              exfalso
              obtain ⟨u, h5, h6, h7⟩ := quotedBody_split r2
              rcases h7 with h7 | ⟨rest, h7, h8⟩
              · rw [hb] at h7; cases h7
              · have : quotedText (c :: s) = some (.text (merge ('\'' :: u)), rest) := by
                  refine quotedText_iff.mpr ⟨'\'' :: u, by simp, ?_, h8, rfl⟩
                  rw [e, h6, h7, double_cons, if_pos rfl]
                  simp
                rw [hq] at this; cases this
          · split at hn
            · rename_i t' r' hm
              cases hn
              obtain ⟨e, hne, hall, hnh⟩ := many1_iff.mp hm
              rw [e]
              refine .plain hne (fun c hc => plain_iff.mp (hall c hc)) ?_ ih
              intro c' r2 e2 hp
              have := hnh c' r2 e2
              rw [plain_iff.mpr hp] at this; cases this
            · cases hn

theorem next_letters {c : Char} {n : Nat} {t : PTok} {rest : Str} (hl : Letters c n t) (hn : 1 ≤ n)
    (hr : ∀ r, rest ≠ c :: r) : nextTok (List.replicate n c ++ rest) = some (.ok (t, rest)) := by
  obtain ⟨h1, h2⟩ := run_of n hr
  cases n with
  | zero => omega
  | succ n =>
    rw [List.replicate_succ, List.cons_append] at h1 h2 ⊢
    rw [nextTok, h1, h2]
    have : (c :: List.replicate n c).length = n + 1 := by simp
    rw [this, letters_iff.mpr hl]
    rfl

theorem next_quoted {u rest : Str} (hu : u ≠ []) (hr : ∀ r, rest ≠ '\'' :: r) :
    nextTok ('\'' :: double u ++ '\'' :: rest) = some (.ok (.text (merge u), rest)) := by
  have hq : quotedText ('\'' :: double u ++ '\'' :: rest) = some (.text (merge u), rest) :=
    quotedText_iff.mpr ⟨u, hu, rfl, hr, rfl⟩
  rw [List.cons_append] at hq ⊢
  rw [nextTok, letterTok_quote]
  simp only [hq]

theorem next_quote {rest : Str} (hr : ∀ r, rest ≠ '\'' :: r) :
    nextTok ('\'' :: '\'' :: rest) = some (.ok (.text ['\''], rest)) := by
  have hq : quotedText ('\'' :: '\'' :: rest) = none := by
    unfold quotedText
    simp only
    have : quotedBody ('\'' :: rest) = ([], '\'' :: rest) := by
      rw [quotedBody]
      intro s e
      exact hr s e
    rw [this]
    rfl
  rw [nextTok, letterTok_quote]
  simp only [hq]
  have : tag ['\'', '\''] ('\'' :: '\'' :: rest) = some rest := rfl
  rw [this]

theorem next_plain {t rest : Str} (hne : t ≠ []) (hall : ∀ c ∈ t, Plain c) (hr : ∀ c r, rest = c :: r → ¬ Plain c) :
    nextTok (t ++ rest) = some (.ok (.text t, rest)) := by
  cases t with
  | nil => exact absurd rfl hne
  | cons c t =>
    have hc := hall c (by simp)
    have hm : many1 isTextChar (c :: t ++ rest) = some (c :: t, rest) := by
      refine many1_iff.mpr ⟨rfl, by simp, fun x hx => plain_iff.mpr (hall x hx), ?_⟩
      intro x r e
      cases hx : isTextChar x with
      | false => rfl
      | true => exact absurd (plain_iff.mp hx) (hr x r e)
    rw [List.cons_append] at hm ⊢
    have hl : ∀ n, letterTok c n = none := by
      intro n
      cases h : letterTok c n with
      | none => rfl
      | some r =>
        have := letters_alpha h
        rw [hc.1] at this; cases this
    have hq : quotedText (c :: (t ++ rest)) = none := by
      cases h : quotedText (c :: (t ++ rest)) with
      | none => rfl
      | some x =>
        obtain ⟨x1, x2⟩ := x
        obtain ⟨u, -, e, -⟩ := quotedText_iff.mp h
        have e1 : c = '\'' := (List.cons.inj e).1
        exact absurd e1 hc.2.2.1
    have ht : tag ['\'', '\''] (c :: (t ++ rest)) = none := by
      rw [tag, if_neg (fun e => hc.2.2.1 e.symm)]
    rw [nextTok, hl]
    simp only [hq, ht, hm]

theorem loop_step {s : Str} {t : PTok} {r : Str} (hn : nextTok s = some (.ok (t, r))) (f : Nat) :
    parseLoop (f + 1) s = (parseLoop f r).map (t :: ·) := by
  cases s with
  | nil => cases hn
  | cons c s => rw [parseLoop, hn]

theorem parse_complete {s : Str} {ts : List PTok} (h : Pattern s ts) : ∀ f, s.length ≤ f → parseLoop f s = .ok ts := by
  induction h with
  | nil => intro f _; cases f <;> rfl
  | letters hl hn hr hp ih =>
    intro f hf
    rw [List.length_append, List.length_replicate] at hf
    obtain ⟨g, rfl⟩ : ∃ g, f = g + 1 := ⟨f - 1, by omega⟩
    rw [loop_step (next_letters hl hn hr), ih g (by omega)]
    rfl
  | quoted hu hr hp ih =>
    intro f hf
    simp only [List.length_append, List.length_cons] at hf
    obtain ⟨g, rfl⟩ : ∃ g, f = g + 1 := ⟨f - 1, by omega⟩
    rw [loop_step (next_quoted hu hr), ih g (by omega)]
    rfl
  | quote hr hp ih =>
    intro f hf
    simp only [List.length_cons] at hf
    obtain ⟨g, rfl⟩ : ∃ g, f = g + 1 := ⟨f - 1, by omega⟩
    rw [loop_step (next_quote hr), ih g (by omega)]
    rfl
  | plain hne hall hr hp ih =>
    intro f hf
    rw [List.length_append] at hf
    have := one_le hne
    obtain ⟨g, rfl⟩ : ∃ g, f = g + 1 := ⟨f - 1, by omega⟩
    rw [loop_step (next_plain hne hall hr), ih g (by omega)]
    rfl

/-- **C92**.  A text is a date/time pattern exactly when it is a non-empty sequence of runs of pattern letters within
their limits, quoted texts, doubled quotes and plain texts; and its fields are the ones the pieces stand for. -/
theorem C92_grammar {s : Str} {ts : List PTok} : parsePattern s = .ok ts ↔ s ≠ [] ∧ Pattern s ts := by
  unfold parsePattern
  constructor
  · intro h
    split at h
    · cases h
    · rename_i hne
      exact ⟨by intro e; rw [e] at hne; exact hne rfl, parse_sound _ _ _ h⟩
  · rintro ⟨hne, h⟩
    have : s.isEmpty = false := by
      cases s with | nil => exact absurd rfl hne | cons _ _ => rfl
    rw [this]
    exact parse_complete h _ (Nat.le_refl _)

/-- **C92**: the reading of a pattern is unique. -/
theorem C92_unique {s : Str} {ts ts' : List PTok} (h : Pattern s ts) (h' : Pattern s ts') : ts = ts' := by
  have h1 := parse_complete h _ (Nat.le_refl _)
  have h2 := parse_complete h' _ (Nat.le_refl _)
  rw [h1] at h2
  exact Res.ok.inj h2

/-- **C92** (examples).  Letters with limits, quoting, merged quotes, and texts that are not patterns. -/
theorem C92_examples :
    parsePattern "EEE, d MMM yyyy".toList = .ok [.dayName 3, .text ", ".toList, .dayInMonth, .text " ".toList, .month 3,
      .text " ".toList, .year 4] ∧
    parsePattern "hh 'o''clock' a".toList = .ok [.hour12, .text " ".toList, .text "o'clock".toList, .text " ".toList, .amPm] ∧
    parsePattern "''yy".toList = .ok [.text "'".toList, .year 2] ∧
    parsePattern "'a''''b'".toList = .ok [.text "a'b".toList] ∧
    parsePattern "ddd".toList = .err ∧ parsePattern "yyyy-MM-dd'T".toList = .err ∧
    parsePattern "b".toList = .err ∧ parsePattern "1".toList = .err ∧ parsePattern "[yyyy]".toList = .err ∧
    parsePattern [] = .err := by
  decide


end TimePatternProps
end Verif
