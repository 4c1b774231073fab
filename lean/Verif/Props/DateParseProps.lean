import Verif.DateExpr
import Verif.Props.DefExprProps
import Verif.Props.PartProps

/-
  C95: which texts are date and time expressions, and what they stand for.
-/

set_option autoImplicit false

namespace Verif
namespace DateExprProps
open DateExpr
open DefExpr (Lib skip)
open DefExprProps (Laid Pre laid_cons laid_nil pre_append pre_one pre_cons pre_laid dropWhile_all takeWhile_run takeWhile_true skip_iff
  parseDigits_facts digit_facts L0)

/-! ### Specification: words -/

/-- A decimal number below 2^64. -/
def Numeral (d : Str) (n : Nat) : Prop :=
  d ≠ [] ∧ (∀ c ∈ d, '0' ≤ c ∧ c ≤ '9') ∧ n = d.foldl (fun a c => a * 10 + (c.toNat - '0'.toNat)) 0 ∧ n < 2 ^ 64

/-- `+` and `-`. -/
def opWords : List (Str × Op) := [("+".toList, .plus), ("-".toList, .minus)]

/-- First words of a date expression. -/
def baseWords : List (Str × DateBase) :=
  [("now".toList, .now), ("today".toList, .today), ("yesterday".toList, .yesterday), ("tomorrow".toList, .tomorrow)]

/-- Units of a date after a number. -/
def dayWords : List (Str × DateUnit) :=
  [("day".toList, .day), ("days".toList, .day), ("week".toList, .week), ("weeks".toList, .week),
   ("month".toList, .month), ("months".toList, .month), ("year".toList, .year), ("years".toList, .year)]

/-- What may follow `next` and `last`. -/
def offsetWords : List (Str × (DateUnit × Nat)) :=
  [("day".toList, .day, 1), ("week".toList, .week, 1), ("month".toList, .month, 1), ("year".toList, .year, 1),
   ("fortnight".toList, .week, 2),
   ("mon".toList, .weekday 1, 1), ("monday".toList, .weekday 1, 1),
   ("tues".toList, .weekday 2, 1), ("tuesday".toList, .weekday 2, 1),
   ("wed".toList, .weekday 3, 1), ("wednesday".toList, .weekday 3, 1),
   ("thurs".toList, .weekday 4, 1), ("thursday".toList, .weekday 4, 1),
   ("fri".toList, .weekday 5, 1), ("friday".toList, .weekday 5, 1),
   ("sat".toList, .weekday 6, 1), ("saturday".toList, .weekday 6, 1),
   ("sun".toList, .weekday 7, 1), ("sunday".toList, .weekday 7, 1),
   ("jan".toList, .monthName 1, 1), ("january".toList, .monthName 1, 1),
   ("feb".toList, .monthName 2, 1), ("february".toList, .monthName 2, 1),
   ("mar".toList, .monthName 3, 1), ("march".toList, .monthName 3, 1),
   ("apr".toList, .monthName 4, 1), ("april".toList, .monthName 4, 1),
   ("may".toList, .monthName 5, 1),
   ("jun".toList, .monthName 6, 1), ("june".toList, .monthName 6, 1),
   ("jul".toList, .monthName 7, 1), ("july".toList, .monthName 7, 1),
   ("aug".toList, .monthName 8, 1), ("august".toList, .monthName 8, 1),
   ("sep".toList, .monthName 9, 1), ("september".toList, .monthName 9, 1),
   ("oct".toList, .monthName 10, 1), ("october".toList, .monthName 10, 1),
   ("nov".toList, .monthName 11, 1), ("november".toList, .monthName 11, 1),
   ("dec".toList, .monthName 12, 1), ("december".toList, .monthName 12, 1)]

/-- Units of a time. -/
def timeWords : List (Str × TimeUnit) :=
  [("hour".toList, .hour), ("hours".toList, .hour), ("minute".toList, .minute), ("minutes".toList, .minute),
   ("second".toList, .second), ("seconds".toList, .second), ("millisecond".toList, .milli), ("milliseconds".toList, .milli)]

/-- Words of a date expression. -/
def dateWords : List Str :=
  baseWords.map (·.1) ++ opWords.map (·.1) ++ ["next".toList, "last".toList] ++ dayWords.map (·.1) ++ offsetWords.map (·.1)

/-- Words of a time expression. -/
def clockWords : List Str :=
  ["now".toList, "midnight".toList, "noon".toList, "o'clock".toList, "am".toList, "pm".toList, "next".toList, "last".toList] ++
    opWords.map (·.1) ++ timeWords.map (·.1)

/-! ### Specification: sentences -/

/-- Operators with a number and a unit each. -/
inductive Ops {U : Type} (units : List (Str × U)) : List Str → List (Adj U) → Prop where
  | nil : Ops units [] []
  | cons (p : Str) (o : Op) (d : Str) (n : Nat) (w : Str) (u : U) (ws : List Str) (as : List (Adj U)) :
      (p, o) ∈ opWords → Numeral d n → (w, u) ∈ units → Ops units ws as →
      Ops units (p :: d :: w :: ws) (⟨u, n, o⟩ :: as)

/-- The first words of a date expression, before operators. -/
inductive DateHead : List Str → DateBase → List (Adj DateUnit) → Prop where
  | none : DateHead [] .now []
  | base (w : Str) (b : DateBase) : (w, b) ∈ baseWords → DateHead [w] b []
  | next (w : Str) (u : DateUnit) (n : Nat) : (w, (u, n)) ∈ offsetWords → DateHead ["next".toList, w] .now [⟨u, n, .plus⟩]
  | last (w : Str) (u : DateUnit) (n : Nat) : (w, (u, n)) ∈ offsetWords → DateHead ["last".toList, w] .now [⟨u, n, .minus⟩]

/-- The first words of a time expression, before operators. -/
inductive TimeHead : List Str → TimeBase → List (Adj TimeUnit) → Prop where
  | none : TimeHead [] .now []
  | now : TimeHead ["now".toList] .now []
  | midnight : TimeHead ["midnight".toList] .midnight []
  | noon : TimeHead ["noon".toList] .noon []
  | clock (d : Str) (h : Nat) : Numeral d h → 1 ≤ h → h ≤ 12 → TimeHead [d, "o'clock".toList] (.next h) []
  | am (d : Str) (h : Nat) : Numeral d h → 1 ≤ h → h ≤ 12 → TimeHead [d, "o'clock".toList, "am".toList] (.am h) []
  | pm (d : Str) (h : Nat) : Numeral d h → 1 ≤ h → h ≤ 12 → TimeHead [d, "o'clock".toList, "pm".toList] (.pm h) []
  | next (w : Str) (u : TimeUnit) : (w, u) ∈ timeWords → TimeHead ["next".toList, w] .now [⟨u, 1, .plus⟩]
  | last (w : Str) (u : TimeUnit) : (w, u) ∈ timeWords → TimeHead ["last".toList, w] .now [⟨u, 1, .minus⟩]

/-- What a text ends with after an expression: blanks, or something that is ignored and then white space; after a
first part that no operator follows the ignored text starts with no known word. -/
def Tail (L : Lib) (known : List Str) (bare : Prop) (s : Str) : Prop :=
  (∀ c ∈ s, c ∈ [' ', '\t', '\n', '\x0c']) ∨
  ∃ ws x bl, s = ws ++ (x ++ bl) ∧ (∀ c ∈ ws, c ∈ [' ', '\t', '\n', '\x0c']) ∧ (∀ c ∈ bl, L.uc.white c = true) ∧
    x ≠ [] ∧ x.head? ≠ some '+' ∧ x.head? ≠ some '-' ∧ (bare → (∀ w ∈ known, ¬ w <+: x ++ bl) ∧ ∀ n, ¬ Numeral x n)

/-! ### Words of a table -/

theorem bind_ok_iff {A B : Type} {x : Res A} {f : A → Res B} {b : B} :
    x.bind f = .ok b ↔ ∃ a, x = .ok a ∧ f a = .ok b := by
  cases x <;> simp [Res.bind]

theorem map_ok_iff {A B : Type} {x : Res A} {f : A → B} {b : B} : x.map f = .ok b ↔ ∃ a, x = .ok a ∧ f a = b := by
  cases x <;> simp [Res.map]

/-- No two words of the table are the same, and one that starts another is followed by a letter there; none starts with
a digit or a blank; only `+` and `-` start like operators; `next` and `last` start no other word. -/
def tabOk {W : Type} [DecidableEq W] (tab : List (Str × Tok W)) : Bool :=
  tab.all fun p =>
    !p.1.isEmpty && (p.1.head?.all fun c => !c.isDigit && !skip c) &&
    ((p.1.head? != some '+' && p.1.head? != some '-') || p == ("+".toList, .op .plus) || p == ("-".toList, .op .minus)) &&
    (match p.2 with | .int _ => false | .op _ => p.1.head? == some '+' || p.1.head? == some '-' | _ => true) &&
    tab.all fun q =>
      !p.1.isPrefixOf q.1 || p == q ||
        (match q.1.drop p.1.length with | [] => false | c :: _ => c.isAlpha && p.2 != .next && p.2 != .last)

set_option maxRecDepth 100000 in
theorem dateTab_ok : tabOk dateTab = true := by decide
set_option maxRecDepth 100000 in
theorem timeTab_ok : tabOk timeTab = true := by decide

theorem numeral_iff (d : Str) (n : Nat) : Numeral d n ↔ parseDigits usizeLim d = some n :=
  (PartProps.parseDigits_iff _ _ _).symm

theorem longest_spec {W : Type} (tab : List (Str × Tok W)) (s : Str) :
    (∀ w t, longest tab s = some (w, t) → (w, t) ∈ tab ∧ w <+: s ∧ ∀ p ∈ tab, p.1 <+: s → p.1.length ≤ w.length) ∧
    (longest tab s = none → ∀ p ∈ tab, ¬ p.1 <+: s) := by
  induction tab with
  | nil => exact ⟨(fun w t h => by cases h), (fun _ p hp => by cases hp)⟩
  | cons q tab ih =>
    obtain ⟨v, u⟩ := q
    obtain ⟨ih1, ih2⟩ := ih
    rw [longest]
    cases hl : longest tab s with
    | none =>
      have := ih2 hl
      simp only
      constructor
      · intro w t h
        split at h
        · rename_i hp
          cases h
          refine ⟨by simp, List.isPrefixOf_iff_prefix.mp hp, ?_⟩
          intro p hp' hpre
          rcases List.mem_cons.1 hp' with rfl | hp'
          · exact Nat.le_refl _
          · exact absurd hpre (this p hp')
        · cases h
      · intro h
        split at h
        · cases h
        · rename_i hp
          intro p hp' hpre
          rcases List.mem_cons.1 hp' with rfl | hp'
          · exact hp (List.isPrefixOf_iff_prefix.mpr hpre)
          · exact this p hp' hpre
    | some x =>
      obtain ⟨w', t'⟩ := x
      obtain ⟨i1, i2, i3⟩ := ih1 w' t' hl
      simp only
      constructor
      · intro w t h
        split at h
        · rename_i hp
          cases h
          refine ⟨by simp, List.isPrefixOf_iff_prefix.mp hp.1, ?_⟩
          intro p hp' hpre
          rcases List.mem_cons.1 hp' with rfl | hp'
          · exact Nat.le_refl _
          · have := i3 p hp' hpre; omega
        · rename_i hp
          cases h
          refine ⟨by simp [i1], i2, ?_⟩
          intro p hp' hpre
          rcases List.mem_cons.1 hp' with rfl | hp'
          · simp only [not_and, Nat.not_lt] at hp
            exact hp (List.isPrefixOf_iff_prefix.mpr hpre)
          · exact i3 p hp' hpre
      · intro h
        split at h <;> cases h

/-- What `tabOk` says of one word. -/
theorem tab_word {W : Type} [DecidableEq W] {tab : List (Str × Tok W)} (ht : tabOk tab = true) {w : Str} {t : Tok W}
    (h : (w, t) ∈ tab) :
    (∃ c cs, w = c :: cs ∧ c.isDigit = false ∧ skip c = false) ∧
    (w.head? = some '+' ∨ w.head? = some '-' ↔ ∃ o, t = .op o) ∧
    (∀ o, t = .op o → (w, o) ∈ opWords) ∧ (∀ n, t ≠ .int n) := by
  unfold tabOk at ht
  rw [List.all_eq_true] at ht
  have := ht _ h
  simp only [Bool.and_eq_true] at this
  obtain ⟨⟨⟨⟨h1, h2⟩, h3⟩, h4⟩, -⟩ := this
  refine ⟨?_, ?_, ?_, ?_⟩
  · cases w with
    | nil => simp at h1
    | cons c cs =>
      refine ⟨c, cs, rfl, ?_⟩
      simpa using h2
  · constructor
    · intro hh
      simp only [Bool.or_eq_true, Bool.and_eq_true, bne_iff_ne, ne_eq, beq_iff_eq] at h3
      rcases h3 with (⟨a, b⟩ | e) | e
      · rcases hh with hh | hh
        · exact absurd hh a
        · exact absurd hh b
      · exact ⟨_, (Prod.mk.inj e).2⟩
      · exact ⟨_, (Prod.mk.inj e).2⟩
    · rintro ⟨o, rfl⟩
      simpa using h4
  · rintro o rfl
    have hh : w.head? = some '+' ∨ w.head? = some '-' := by simpa using h4
    simp only [Bool.or_eq_true, Bool.and_eq_true, bne_iff_ne, ne_eq, beq_iff_eq] at h3
    rcases h3 with (⟨a, b⟩ | e) | e
    · rcases hh with hh | hh
      · exact absurd hh a
      · exact absurd hh b
    · obtain ⟨e1, e2⟩ := Prod.mk.inj e
      cases e2; rw [e1]; decide
    · obtain ⟨e1, e2⟩ := Prod.mk.inj e
      cases e2; rw [e1]; decide
  · rintro n rfl
    simp at h4

/-- A text that starts with no letter. -/
def NoLetter (s : Str) : Prop := ∀ c, s.head? = some c → c.isAlpha = false

theorem longest_word {W : Type} [DecidableEq W] {tab : List (Str × Tok W)} (ht : tabOk tab = true) {w : Str} {t : Tok W}
    (h : (w, t) ∈ tab) (r : Str) (hr : NoLetter r ∨ t = .next ∨ t = .last) : longest tab (w ++ r) = some (w, t) := by
  cases hl : longest tab (w ++ r) with
  | none => exact absurd (List.prefix_append w r) ((longest_spec tab (w ++ r)).2 hl _ h)
  | some x =>
    obtain ⟨w', t'⟩ := x
    obtain ⟨h1, h2, h3⟩ := (longest_spec tab (w ++ r)).1 w' t' hl
    have h4 := h3 _ h (List.prefix_append w r)
    simp only at h4
    have h5 : w <+: w' := List.prefix_of_prefix_length_le (List.prefix_append w r) h2 h4
    unfold tabOk at ht
    rw [List.all_eq_true] at ht
    have := ht _ h
    simp only [Bool.and_eq_true] at this
    have := this.2
    rw [List.all_eq_true] at this
    have := this _ h1
    simp only [Bool.or_eq_true, Bool.not_eq_true', beq_iff_eq] at this
    rcases this with (e | e) | e
    · rw [List.isPrefixOf_iff_prefix.mpr h5] at e; cases e
    · rw [← e]
    · exfalso
      obtain ⟨x, rfl⟩ := h5
      rw [List.drop_left] at e
      cases x with
      | nil => simp at e
      | cons c cs =>
        simp only [Bool.and_eq_true, bne_iff_ne, ne_eq] at e
        rcases hr with hr | hr | hr
        · have : cs ++ [] <+: r.drop 1 ∧ r.head? = some c := by
            obtain ⟨y, hy⟩ := h2
            rw [List.append_assoc] at hy
            have := List.append_cancel_left hy
            rw [← this]
            simp
          have := hr c this.2
          rw [this] at e
          simp at e
        · exact e.1.2 hr
        · exact e.2 hr

theorem next_of {W : Type} {L : Lib} {tab : List (Str × Tok W)} {ws : Str} {c : Char} {cs : Str}
    (hw : ∀ c ∈ ws, c ∈ [' ', '\t', '\n', '\x0c']) (hc : skip c = false) :
    next L tab (ws ++ c :: cs) = some (token L tab c cs) := by
  have h : (ws ++ c :: cs).dropWhile skip = c :: cs := by
    rw [dropWhile_all ws _ (fun x hx => (skip_iff x).2 (hw x hx)), List.dropWhile_cons_of_neg (by simp [hc])]
  unfold next
  rw [h]

theorem next_nil {W : Type} {L : Lib} {tab : List (Str × Tok W)} {ws : Str} (hw : ∀ c ∈ ws, c ∈ [' ', '\t', '\n', '\x0c']) :
    next L tab ws = none := by
  have h : ws.dropWhile skip = [] := by
    have := dropWhile_all (p := skip) ws [] (fun x hx => (skip_iff x).2 (hw x hx))
    simpa using this
  unfold next
  rw [h]

/-- A word of the table is read. -/
theorem next_word {W : Type} [DecidableEq W] {L : Lib} {tab : List (Str × Tok W)} (ht : tabOk tab = true) {ws w r : Str}
    {t : Tok W} (hw : ∀ c ∈ ws, c ∈ [' ', '\t', '\n', '\x0c']) (h : (w, t) ∈ tab)
    (hr : NoLetter r ∨ t = .next ∨ t = .last) : next L tab (ws ++ (w ++ r)) = some ⟨some t, r⟩ := by
  have hl := longest_word ht h r hr
  obtain ⟨⟨c, cs, rfl, h1, h2⟩, -⟩ := tab_word ht h
  rw [List.cons_append] at hl ⊢
  rw [next_of hw h2]
  unfold token
  rw [if_neg (by simp [h1]), hl]
  simp

/-- A number is read. -/
theorem next_num {W : Type} {L : Lib} {tab : List (Str × Tok W)} {ws d r : Str} {n : Nat}
    (hw : ∀ c ∈ ws, c ∈ [' ', '\t', '\n', '\x0c']) (h : Numeral d n) (hr : r.head?.all (fun c => !c.isDigit) = true) :
    next L tab (ws ++ (d ++ r)) = some ⟨some (.int n), r⟩ := by
  rw [numeral_iff] at h
  obtain ⟨h1, h2⟩ := parseDigits_facts h
  obtain ⟨h3, h4⟩ := takeWhile_run d r h2 hr
  cases d with
  | nil => exact absurd rfl h1
  | cons c cs =>
    have hc := h2 c (by simp)
    rw [List.cons_append, next_of hw (digit_facts hc).1]
    unfold token
    rw [if_pos hc, ← List.cons_append, number, h3, h4, h]
    rfl

/-! ### Sentences are read -/

/-- What the words of a parser mean. -/
structure Vocab {W U : Type} [DecidableEq W] (tab : List (Str × Tok W)) (unit : W → Option U) (units : List (Str × U))
    (known : List Str) : Prop where
  ok : tabOk tab = true
  units : ∀ w u, (w, u) ∈ units ↔ ∃ x, (w, .word x) ∈ tab ∧ unit x = some u
  ops : ∀ w o, (w, o) ∈ opWords → (w, .op o) ∈ tab
  known : ∀ w, w ∈ known ↔ ∃ t, (w, t) ∈ tab

theorem op_noLetter {w r : Str} {o : Op} (h : (w, o) ∈ opWords) : NoLetter (w ++ r) := by
  simp only [opWords, List.mem_cons, List.not_mem_nil, or_false, Prod.mk.injEq] at h
  rcases h with ⟨rfl, -⟩ | ⟨rfl, -⟩ <;> (intro c hc; cases hc; decide)

theorem blank_noLetter {ws s : Str} (hw : ∀ c ∈ ws, c ∈ [' ', '\t', '\n', '\x0c']) (hs : NoLetter s) : NoLetter (ws ++ s) := by
  cases ws with
  | nil => exact hs
  | cons c cs =>
    intro x hx
    cases hx
    have := hw c (by simp)
    simp only [List.mem_cons, List.not_mem_nil, or_false] at this
    rcases this with rfl | rfl | rfl | rfl <;> decide

theorem ops_noLetter {U : Type} {units : List (Str × U)} {ws : List Str} {as : List (Adj U)} {s : Str}
    (h : Ops units ws as) (hs : Laid ws s) : NoLetter s := by
  cases h with
  | nil =>
    have := blank_noLetter (laid_nil hs) (s := []) (by intro c hc; cases hc)
    simpa using this
  | cons p o d n w u ws as hp _ _ _ =>
    obtain ⟨b, s', hb, rfl, -⟩ := laid_cons hs
    exact blank_noLetter hb (op_noLetter hp)

theorem ops_len {U : Type} {units : List (Str × U)} {ws : List Str} {as : List (Adj U)} {s : Str}
    (h : Ops units ws as) (hs : Laid ws s) : as.length ≤ s.length := by
  induction h generalizing s with
  | nil => simp
  | cons p o d n w u ws as hp _ _ _ ih =>
    obtain ⟨b, s', hb, rfl, h1⟩ := laid_cons hs
    obtain ⟨b2, s2, hb2, rfl, h2⟩ := laid_cons h1
    obtain ⟨b3, s3, hb3, rfl, h3⟩ := laid_cons h2
    have := ih h3
    have : 0 < p.length := by
      simp only [opWords, List.mem_cons, List.not_mem_nil, or_false, Prod.mk.injEq] at hp
      rcases hp with ⟨rfl, -⟩ | ⟨rfl, -⟩ <;> decide
    simp only [List.length_cons, List.length_append]
    omega

theorem noDigit_word {W : Type} [DecidableEq W] {tab : List (Str × Tok W)} (ht : tabOk tab = true) {ws w r : Str}
    {t : Tok W} (hw : ∀ c ∈ ws, c ∈ [' ', '\t', '\n', '\x0c']) (h : (w, t) ∈ tab) :
    (ws ++ (w ++ r)).head?.all (fun c => !c.isDigit) = true := by
  obtain ⟨⟨c, cs, rfl, h1, h2⟩, -⟩ := tab_word ht h
  cases ws with
  | nil => simp [h1]
  | cons b bs =>
    have := hw b (by simp)
    simp only [List.mem_cons, List.not_mem_nil, or_false] at this
    rcases this with rfl | rfl | rfl | rfl <;> simp <;> decide

theorem adjustments_read {W U : Type} [DecidableEq W] {L : Lib} {tab : List (Str × Tok W)} {unit : W → Option U}
    {units : List (Str × U)} {known : List Str} (V : Vocab tab unit units known) {f : Nat} {o : Op} {d w : Str} {n : Nat} {u : U}
    {ws : List Str} {as : List (Adj U)} {s : Str} (hd : Numeral d n) (hu : (w, u) ∈ units) (h : Ops units ws as)
    (hs : Laid (d :: w :: ws) s) (hf : as.length < f) :
    adjustments L tab unit f o s = .ok (⟨u, n, o⟩ :: as, []) := by
  induction h generalizing f o d w n u s with
  | nil =>
    cases f with
    | zero => omega
    | succ f =>
      obtain ⟨b, s', hb, rfl, h1⟩ := laid_cons hs
      obtain ⟨b2, s2, hb2, rfl, h2⟩ := laid_cons h1
      obtain ⟨x, hx, hxu⟩ := (V.units w u).mp hu
      rw [adjustments, duration, next_num hb hd (noDigit_word V.ok hb2 hx)]
      simp only
      rw [next_word V.ok hb2 hx (Or.inl (ops_noLetter (Ops.nil (units := units)) h2))]
      simp only [hxu]
      rw [next_nil (laid_nil h2)]
  | cons p o' d' n' w' u' ws as hp hd' hu' hops ih =>
    cases f with
    | zero => omega
    | succ f =>
      obtain ⟨b, s', hb, rfl, h1⟩ := laid_cons hs
      obtain ⟨b2, s2, hb2, rfl, h2⟩ := laid_cons h1
      obtain ⟨x, hx, hxu⟩ := (V.units w u).mp hu
      rw [adjustments, duration, next_num hb hd (noDigit_word V.ok hb2 hx)]
      simp only
      rw [next_word V.ok hb2 hx (Or.inl (ops_noLetter (Ops.cons p o' d' n' w' u' ws as hp hd' hu' hops) h2))]
      simp only [hxu]
      obtain ⟨b3, s3, hb3, rfl, h3⟩ := laid_cons h2
      have hnl : NoLetter s3 := by
        obtain ⟨b4, s4, hb4, rfl, -⟩ := laid_cons h3
        refine blank_noLetter hb4 ?_
        have e := hd'.1
        cases d' with
        | nil => exact absurd rfl e
        | cons c cs =>
          intro y hy
          cases hy
          have := (PartProps.isDigit_range c).mpr (hd'.2.1 c (by simp))
          exact (digit_facts this).2
      rw [next_word V.ok hb3 (V.ops p o' hp) (Or.inl hnl)]
      simp only
      rw [ih hd' hu' h3 (by simp only [List.length_cons] at hf; omega)]
      rfl

theorem follow_read {W U : Type} [DecidableEq W] {L : Lib} {tab : List (Str × Tok W)} {unit : W → Option U}
    {units : List (Str × U)} {known : List Str} (V : Vocab tab unit units known)
    {ws : List Str} {as : List (Adj U)} {s s0 : Str} (h : Ops units ws as)
    (hs : Laid ws s) (hf : s.length ≤ s0.length) :
    follow L tab unit s0 (next L tab s) = .ok (as, []) := by
  cases h with
  | nil => rw [next_nil (laid_nil hs)]; rfl
  | cons p o d n w u ws as hp hd hu hops =>
    have hlen := ops_len (Ops.cons p o d n w u ws as hp hd hu hops) hs
    obtain ⟨b3, s3, hb3, rfl, h3⟩ := laid_cons hs
    have hnl : NoLetter s3 := by
      obtain ⟨b4, s4, hb4, rfl, -⟩ := laid_cons h3
      refine blank_noLetter hb4 ?_
      have e := hd.1
      cases d with
      | nil => exact absurd rfl e
      | cons c cs =>
        intro y hy
        cases hy
        have := (PartProps.isDigit_range c).mpr (hd.2.1 c (by simp))
        exact (digit_facts this).2
    rw [next_word V.ok hb3 (V.ops p o hp) (Or.inl hnl)]
    show adjustments L tab unit s0.length o s3 = _
    exact adjustments_read V hd hu hops h3 (by simp only [List.length_cons] at hlen; omega)

theorem ops_read {W U : Type} [DecidableEq W] {L : Lib} {tab : List (Str × Tok W)} {unit : W → Option U}
    {units : List (Str × U)} {known : List Str} (V : Vocab tab unit units known)
    {ws : List Str} {as : List (Adj U)} {s : Str} (h : Ops units ws as) (hn : ws ≠ [])
    (hs : Laid ws s) : ∃ o r, next L tab s = some ⟨some (.op o), r⟩ ∧ adjustments L tab unit s.length o r = .ok (as, []) := by
  have hf := follow_read (L := L) V h hs (Nat.le_refl _)
  cases h with
  | nil => exact absurd rfl hn
  | cons p o d n w u ws as hp hd hu hops =>
    obtain ⟨b3, s3, hb3, rfl, h3⟩ := laid_cons hs
    have hnl : NoLetter s3 := by
      obtain ⟨b4, s4, hb4, rfl, -⟩ := laid_cons h3
      refine blank_noLetter hb4 ?_
      have e := hd.1
      cases d with
      | nil => exact absurd rfl e
      | cons c cs =>
        intro y hy
        cases hy
        have := (PartProps.isDigit_range c).mpr (hd.2.1 c (by simp))
        exact (digit_facts this).2
    rw [next_word V.ok hb3 (V.ops p o hp) (Or.inl hnl)] at hf
    exact ⟨o, s3, next_word V.ok hb3 (V.ops p o hp) (Or.inl hnl), hf⟩

/-- A unit that is no name. -/
def plain : Tok DWord → Bool
  | .word (.one u) => u == .day || u == .week || u == .month || u == .year
  | .word (.many u) => u == .day || u == .week || u == .month || u == .year
  | _ => true

set_option maxRecDepth 100000 in
theorem date_vocab : Vocab dateTab dateUnit dayWords dateWords where
  ok := dateTab_ok
  units := by
    have h1 : ∀ p ∈ dayWords, ∃ q ∈ dateTab, q.1 = p.1 ∧ ∃ x ∈ [DWord.one p.2, DWord.many p.2], q.2 = .word x := by decide
    have h2 : ∀ q ∈ dateTab, ∀ p ∈ [DateUnit.day, .week, .month, .year],
      (q.2 = .word (.one p) ∨ q.2 = .word (.many p)) → (q.1, p) ∈ dayWords := by decide
    have h3 : ∀ q ∈ dateTab, plain q.2 = true := by decide
    intro w u
    constructor
    · intro h
      obtain ⟨q, hq, e1, x, hx, e2⟩ := h1 _ h
      refine ⟨x, ?_, ?_⟩
      · simp only at e1
        rw [← e1, ← e2]; exact hq
      · simp only [List.mem_cons, List.not_mem_nil, or_false] at hx
        rcases hx with rfl | rfl <;> rfl
    · rintro ⟨x, hx, hu⟩
      have m := h3 _ hx
      cases x with
      | one v =>
        cases hu
        exact h2 _ hx u (by cases u <;> first | decide | (simp [plain] at m)) (Or.inl rfl)
      | many v =>
        cases hu
        exact h2 _ hx u (by cases u <;> first | decide | (simp [plain] at m)) (Or.inr rfl)
      | base b => cases hu
      | fortnight => cases hu
      | name v => cases hu
  ops := by
    have : ∀ p ∈ opWords, (p.1, Tok.op p.2) ∈ dateTab := by decide
    exact fun w o h => this _ h
  known := by
    have h1 : ∀ w ∈ dateWords, w ∈ dateTab.map (·.1) := by decide
    have h2 : ∀ p ∈ dateTab, p.1 ∈ dateWords := by decide
    intro w
    constructor
    · intro h
      obtain ⟨p, hp, rfl⟩ := List.mem_map.1 (h1 w h)
      exact ⟨p.2, hp⟩
    · rintro ⟨t, h⟩
      exact h2 _ h

set_option maxRecDepth 100000 in
theorem time_vocab : Vocab timeTab timeUnit timeWords clockWords where
  ok := timeTab_ok
  units := by
    have h1 : ∀ p ∈ timeWords, (p.1, Tok.word (TWord.unit p.2)) ∈ timeTab := by decide
    have h2 : ∀ q ∈ timeTab, ∀ p ∈ [TimeUnit.hour, .minute, .second, .milli],
      q.2 = .word (.unit p) → (q.1, p) ∈ timeWords := by decide
    intro w u
    constructor
    · intro h
      exact ⟨.unit u, h1 _ h, rfl⟩
    · rintro ⟨x, hx, hu⟩
      cases x with
      | unit v =>
        cases hu
        exact h2 _ hx u (by cases u <;> decide) rfl
      | _ => cases hu
  ops := by
    have : ∀ p ∈ opWords, (p.1, Tok.op p.2) ∈ timeTab := by decide
    exact fun w o h => this _ h
  known := by
    have h1 : ∀ w ∈ clockWords, w ∈ timeTab.map (·.1) := by decide
    have h2 : ∀ p ∈ timeTab, p.1 ∈ clockWords := by decide
    intro w
    constructor
    · intro h
      obtain ⟨p, hp, rfl⟩ := List.mem_map.1 (h1 w h)
      exact ⟨p.2, hp⟩
    · rintro ⟨t, h⟩
      exact h2 _ h

/-- Words after `next` and `last` are listed. -/
def off (q : Str × Tok DWord) : Bool :=
  match q.2 with
  | .word x => match dateOffset x with
    | some y => offsetWords.contains (q.1, y)
    | none => true
  | _ => true

/-- The meaning of the words after `next` and `last`. -/
theorem offset_iff (w : Str) (u : DateUnit) (n : Nat) :
    (w, (u, n)) ∈ offsetWords ↔ ∃ x, (w, .word x) ∈ dateTab ∧ dateOffset x = some (u, n) := by
  have h1 : ∀ p ∈ offsetWords, ∃ q ∈ dateTab, q.1 = p.1 ∧
      ∃ x ∈ [DWord.one p.2.1, DWord.name p.2.1, DWord.fortnight], q.2 = .word x ∧ dateOffset x = some p.2 := by
    set_option maxRecDepth 100000 in decide
  have h2 : ∀ q ∈ dateTab, off q = true := by
    set_option maxRecDepth 100000 in decide
  constructor
  · intro h
    obtain ⟨q, hq, e1, x, -, e2, e3⟩ := h1 _ h
    refine ⟨x, ?_, e3⟩
    simp only at e1
    rw [← e1, ← e2]; exact hq
  · rintro ⟨x, hx, hu⟩
    have := h2 _ hx
    unfold off at this
    simp only [hu] at this
    simpa using this

set_option maxRecDepth 100000 in
theorem base_iff (w : Str) (b : DateBase) : (w, b) ∈ baseWords ↔ (w, .word (.base b)) ∈ dateTab := by
  have h1 : ∀ p ∈ baseWords, (p.1, Tok.word (DWord.base p.2)) ∈ dateTab := by decide
  have h2 : ∀ q ∈ dateTab, ∀ b ∈ [DateBase.now, .today, .yesterday, .tomorrow], q.2 = .word (.base b) → (q.1, b) ∈ baseWords := by
    decide
  exact ⟨fun h => h1 _ h, fun h => h2 _ h b (by cases b <;> decide) rfl⟩

/-! ### C95: expressions are read -/

theorem finish_nil {A : Type} (L : Lib) (a : A) : finish L a [] = .ok a := by simp [finish]

theorem relative_read {L : Lib} {o : Op} {w : Str} {u : DateUnit} {n : Nat} {ws : List Str} {as : List (Adj DateUnit)} {s : Str}
    (hw : (w, (u, n)) ∈ offsetWords) (h : Ops dayWords ws as) (hs : Laid (w :: ws) s) :
    relative L o s = .ok (⟨u, n, o⟩ :: as, []) := by
  obtain ⟨x, hx, hu⟩ := (offset_iff w u n).mp hw
  obtain ⟨b, s', hb, rfl, h1⟩ := laid_cons hs
  unfold relative
  rw [next_word date_vocab.ok hb hx (Or.inl (ops_noLetter h h1))]
  simp only [hu]
  rw [follow_read date_vocab h h1 (Nat.le_refl _)]
  rfl

/-- C95: a date expression (a base, or `next` or `last` with an offset, and then durations with their operators), with any
blanks or none between its words, is read as such. -/
theorem C95_date_read {L : Lib} {head ops : List Str} {b : DateBase} {as0 as : List (Adj DateUnit)} {s : Str}
    (hh : DateHead head b as0) (ho : Ops dayWords ops as) (hne : head ++ ops ≠ []) (hs : Laid (head ++ ops) s) :
    parseDate L s = .ok ⟨b, as0 ++ as⟩ := by
  cases hh with
  | none =>
    obtain ⟨o, r, h1, h2⟩ := ops_read (L := L) date_vocab ho hne hs
    unfold parseDate
    rw [h1]
    simp only
    rw [h2]
    exact finish_nil L _
  | base w b hb =>
    obtain ⟨ws, s', hws, rfl, h1⟩ := laid_cons hs
    unfold parseDate
    rw [next_word date_vocab.ok hws ((base_iff w b).mp hb) (Or.inl (ops_noLetter ho h1))]
    simp only
    rw [follow_read date_vocab ho h1 (Nat.le_refl _)]
    exact finish_nil L _
  | next w u n hw =>
    obtain ⟨ws, s', hws, rfl, h1⟩ := laid_cons hs
    unfold parseDate
    rw [next_word date_vocab.ok hws (t := .next) (by decide) (Or.inr (Or.inl rfl))]
    simp only
    rw [relative_read hw ho h1]
    exact finish_nil L _
  | last w u n hw =>
    obtain ⟨ws, s', hws, rfl, h1⟩ := laid_cons hs
    unfold parseDate
    rw [next_word date_vocab.ok hws (t := .last) (by decide) (Or.inr (Or.inr rfl))]
    simp only
    rw [relative_read hw ho h1]
    exact finish_nil L _

theorem relativeTime_read {L : Lib} {o : Op} {w : Str} {u : TimeUnit} {ws : List Str} {as : List (Adj TimeUnit)} {s : Str}
    (hw : (w, u) ∈ timeWords) (h : Ops timeWords ws as) (hs : Laid (w :: ws) s) :
    relativeTime L o s = .ok (⟨u, 1, o⟩ :: as, []) := by
  obtain ⟨x, hx, hu⟩ := (time_vocab.units w u).mp hw
  obtain ⟨b, s', hb, rfl, h1⟩ := laid_cons hs
  unfold relativeTime
  rw [next_word time_vocab.ok hb hx (Or.inl (ops_noLetter h h1))]
  simp only [hu]
  rw [follow_read time_vocab h h1 (Nat.le_refl _)]
  rfl

/-- The word `o'clock` is read whatever follows. -/
theorem next_oclock {L : Lib} {ws r : Str} (hw : ∀ c ∈ ws, c ∈ [' ', '\t', '\n', '\x0c']) :
    next L timeTab (ws ++ ("o'clock".toList ++ r)) = some ⟨some (.word .oclock), r⟩ := by
  have hl : longest timeTab ("o'clock".toList ++ r) = some ("o'clock".toList, .word .oclock) := by
    cases hl : longest timeTab ("o'clock".toList ++ r) with
    | none => exact absurd (List.prefix_append _ r) ((longest_spec timeTab _).2 hl ("o'clock".toList, .word .oclock) (by decide))
    | some x =>
      obtain ⟨w', t'⟩ := x
      obtain ⟨h1, h2, h3⟩ := (longest_spec timeTab ("o'clock".toList ++ r)).1 w' t' hl
      have h4 := h3 ("o'clock".toList, .word .oclock) (by decide) (List.prefix_append _ r)
      have h5 : "o'clock".toList <+: w' := List.prefix_of_prefix_length_le (List.prefix_append _ r) h2 h4
      have : ∀ q ∈ timeTab, "o'clock".toList <+: q.1 → q = ("o'clock".toList, .word .oclock) := by decide
      rw [this _ h1 h5]
  have e : ("o'clock".toList ++ r) = 'o' :: ("'clock".toList ++ r) := rfl
  rw [e] at hl ⊢
  rw [next_of hw (by decide)]
  unfold token
  rw [if_neg (by decide), hl]
  rfl

theorem oclock_read {L : Lib} {n : Nat} {ws : List Str} {as : List (Adj TimeUnit)} {s : Str} (h1 : 1 ≤ n) (h12 : n ≤ 12)
    (ho : Ops timeWords ws as) (hs : Laid ("o'clock".toList :: ws) s) :
    ∃ r, r.length ≤ s.length ∧ Laid ws r ∧ oclock L n s = .ok (.next n, next L timeTab r) := by
  obtain ⟨b, s', hb, rfl, hl⟩ := laid_cons hs
  refine ⟨s', by simp only [List.length_append]; omega, hl, ?_⟩
  unfold oclock
  rw [next_oclock hb]
  simp only
  have hh : hourOf n (.next n) = .ok (.next n) := by unfold hourOf; rw [if_pos ⟨h1, h12⟩]
  cases ho with
  | nil =>
    rw [next_nil (laid_nil hl)]
    simp only [hh]
    rfl
  | cons p o d m w u ws as hp hd hu hops =>
    obtain ⟨b3, s3, hb3, rfl, h3⟩ := laid_cons hl
    have hnl : NoLetter s3 := by
      obtain ⟨b4, s4, hb4, rfl, -⟩ := laid_cons h3
      refine blank_noLetter hb4 ?_
      have e := hd.1
      cases d with
      | nil => exact absurd rfl e
      | cons c cs =>
        intro y hy
        cases hy
        have := (PartProps.isDigit_range c).mpr (hd.2.1 c (by simp))
        exact (digit_facts this).2
    rw [next_word time_vocab.ok hb3 (time_vocab.ops p o hp) (Or.inl hnl)]
    simp only [hh]
    rfl

theorem oclock_half {L : Lib} {n : Nat} {w : Str} {x : TWord} {b : TimeBase} {ws : List Str} {as : List (Adj TimeUnit)} {s : Str}
    (h1 : 1 ≤ n) (h12 : n ≤ 12) (hx : (w, x, b) ∈ [("am".toList, TWord.am, TimeBase.am n), ("pm".toList, TWord.pm, TimeBase.pm n)])
    (ho : Ops timeWords ws as) (hs : Laid ("o'clock".toList :: w :: ws) s) :
    ∃ r, r.length ≤ s.length ∧ Laid ws r ∧ oclock L n s = .ok (b, next L timeTab r) := by
  obtain ⟨b1, s1, hb1, rfl, hl⟩ := laid_cons hs
  obtain ⟨b2, s2, hb2, rfl, hl2⟩ := laid_cons hl
  refine ⟨s2, by simp; omega, hl2, ?_⟩
  unfold oclock
  rw [next_oclock hb1]
  simp only
  simp only [List.mem_cons, List.not_mem_nil, or_false, Prod.mk.injEq] at hx
  rcases hx with ⟨rfl, rfl, rfl⟩ | ⟨rfl, rfl, rfl⟩
  · rw [next_word time_vocab.ok hb2 (t := .word .am) (by decide) (Or.inl (ops_noLetter ho hl2))]
    simp only [hourOf]
    rw [if_pos ⟨h1, h12⟩]
    rfl
  · rw [next_word time_vocab.ok hb2 (t := .word .pm) (by decide) (Or.inl (ops_noLetter ho hl2))]
    simp only [hourOf]
    rw [if_pos ⟨h1, h12⟩]
    rfl

theorem clock_num {L : Lib} {d : Str} {n : Nat} {ts : List Str} {s : Str} (hd : Numeral d n)
    (hs : Laid (d :: "o'clock".toList :: ts) s) :
    ∃ r, next L timeTab s = some ⟨some (.int n), r⟩ ∧ Laid ("o'clock".toList :: ts) r := by
  obtain ⟨b, s', hb, rfl, h1⟩ := laid_cons hs
  refine ⟨s', next_num hb hd ?_, h1⟩
  obtain ⟨b2, s2, hb2, rfl, -⟩ := laid_cons h1
  exact noDigit_word time_vocab.ok hb2 (t := .word .oclock) (by decide)

/-- C95: a time expression, with any blanks or none between its words, is read as such. -/
theorem C95_time_read {L : Lib} {head ops : List Str} {b : TimeBase} {as0 as : List (Adj TimeUnit)} {s : Str}
    (hh : TimeHead head b as0) (ho : Ops timeWords ops as) (hne : head ++ ops ≠ []) (hs : Laid (head ++ ops) s) :
    parseTime L s = .ok ⟨b, as0 ++ as⟩ := by
  cases hh with
  | none =>
    obtain ⟨o, r, h1, h2⟩ := ops_read (L := L) time_vocab ho hne hs
    unfold parseTime
    rw [h1]
    simp only
    rw [h2]
    exact finish_nil L _
  | now =>
    obtain ⟨ws, s', hws, rfl, h1⟩ := laid_cons hs
    unfold parseTime
    rw [next_word time_vocab.ok hws (t := .word .now) (by decide) (Or.inl (ops_noLetter ho h1))]
    simp only
    rw [follow_read time_vocab ho h1 (Nat.le_refl _)]
    exact finish_nil L _
  | midnight =>
    obtain ⟨ws, s', hws, rfl, h1⟩ := laid_cons hs
    unfold parseTime
    rw [next_word time_vocab.ok hws (t := .word .midnight) (by decide) (Or.inl (ops_noLetter ho h1))]
    simp only
    rw [follow_read time_vocab ho h1 (Nat.le_refl _)]
    exact finish_nil L _
  | noon =>
    obtain ⟨ws, s', hws, rfl, h1⟩ := laid_cons hs
    unfold parseTime
    rw [next_word time_vocab.ok hws (t := .word .noon) (by decide) (Or.inl (ops_noLetter ho h1))]
    simp only
    rw [follow_read time_vocab ho h1 (Nat.le_refl _)]
    exact finish_nil L _
  | clock d h hd h1 h12 =>
    obtain ⟨r, hr, hl⟩ := clock_num (L := L) hd hs
    obtain ⟨r2, hlen, hl2, he⟩ := oclock_read (L := L) h1 h12 ho hl
    unfold parseTime
    rw [hr]
    simp only
    rw [he]
    show (follow L timeTab timeUnit r (next L timeTab r2)).bind _ = _
    rw [follow_read time_vocab ho hl2 hlen]
    exact finish_nil L _
  | am d h hd h1 h12 =>
    obtain ⟨r, hr, hl⟩ := clock_num (L := L) hd hs
    obtain ⟨r2, hlen, hl2, he⟩ := oclock_half (L := L) (x := .am) (b := .am h) h1 h12 (by simp) ho hl
    unfold parseTime
    rw [hr]
    simp only
    rw [he]
    show (follow L timeTab timeUnit r (next L timeTab r2)).bind _ = _
    rw [follow_read time_vocab ho hl2 hlen]
    exact finish_nil L _
  | pm d h hd h1 h12 =>
    obtain ⟨r, hr, hl⟩ := clock_num (L := L) hd hs
    obtain ⟨r2, hlen, hl2, he⟩ := oclock_half (L := L) (x := .pm) (b := .pm h) h1 h12 (by simp) ho hl
    unfold parseTime
    rw [hr]
    simp only
    rw [he]
    show (follow L timeTab timeUnit r (next L timeTab r2)).bind _ = _
    rw [follow_read time_vocab ho hl2 hlen]
    exact finish_nil L _
  | next w u hw =>
    obtain ⟨ws, s', hws, rfl, h1⟩ := laid_cons hs
    unfold parseTime
    rw [next_word time_vocab.ok hws (t := .next) (by decide) (Or.inr (Or.inl rfl))]
    simp only
    rw [relativeTime_read hw ho h1]
    exact finish_nil L _
  | last w u hw =>
    obtain ⟨ws, s', hws, rfl, h1⟩ := laid_cons hs
    unfold parseTime
    rw [next_word time_vocab.ok hws (t := .last) (by decide) (Or.inr (Or.inr rfl))]
    simp only
    rw [relativeTime_read hw ho h1]
    exact finish_nil L _

/-! ### C95: nothing else is read -/

theorem next_none {W : Type} {L : Lib} {tab : List (Str × Tok W)} {s : Str} (h : next L tab s = none) :
    ∀ c ∈ s, c ∈ [' ', '\t', '\n', '\x0c'] := by
  unfold next at h
  split at h
  · rename_i hd
    intro c hc
    have e : s.takeWhile skip = s := by
      have := List.takeWhile_append_dropWhile (p := skip) (l := s)
      rw [hd, List.append_nil] at this
      exact this
    rw [← e] at hc
    exact (skip_iff c).1 (takeWhile_true s c hc)
  · cases h

theorem next_inv {W : Type} [DecidableEq W] {L : Lib} {tab : List (Str × Tok W)} (ht : tabOk tab = true) {s : Str}
    {l : Lexeme W} (h : next L tab s = some l) :
    ∃ ws x, (∀ c ∈ ws, c ∈ [' ', '\t', '\n', '\x0c']) ∧ s = ws ++ (x ++ l.rest) ∧ x ≠ [] ∧
      (∀ t, l.tok = some t → (x, t) ∈ tab ∨ ∃ n, t = .int n ∧ Numeral x n) ∧
      (l.tok = none → (∀ n, ¬ Numeral x n) ∧ ∀ p ∈ tab, ¬ p.1 <+: x ++ l.rest) := by
  unfold next at h
  split at h
  · cases h
  · rename_i c cs hd
    injection h with h
    subst h
    have hs : s = s.takeWhile skip ++ (c :: cs) := by rw [← hd, List.takeWhile_append_dropWhile]
    refine ⟨s.takeWhile skip, ?_⟩
    unfold token
    split
    · rename_i hc
      refine ⟨(c :: cs).takeWhile Char.isDigit, fun x hx => (skip_iff x).1 (takeWhile_true s x hx), ?_, ?_, ?_, ?_⟩
      · simp only [number, List.takeWhile_append_dropWhile]; exact hs
      · rw [List.takeWhile_cons_of_pos hc]; simp
      · intro t htk
        simp only [number, Option.map_eq_some_iff] at htk
        obtain ⟨n, hn, rfl⟩ := htk
        exact Or.inr ⟨n, rfl, (numeral_iff _ _).mpr hn⟩
      · intro ht0
        have ht' := ht
        simp only [number, Option.map_eq_none_iff] at ht0
        constructor
        · intro n hn
          rw [numeral_iff, ht0] at hn
          cases hn
        · intro p hp hpre
          simp only [number, List.takeWhile_append_dropWhile] at hpre
          obtain ⟨⟨d, ds, e, h1, h2⟩, -⟩ := tab_word ht' (w := p.1) (t := p.2) hp
          rw [e] at hpre
          have := List.cons_prefix_cons.1 hpre
          rw [this.1, hc] at h1
          cases h1
    · rename_i hc
      cases hl : longest tab (c :: cs) with
      | some x =>
        obtain ⟨w, t⟩ := x
        obtain ⟨h1, h2, -⟩ := (longest_spec tab _).1 w t hl
        obtain ⟨r, hr⟩ := h2
        simp only
        refine ⟨w, fun x hx => (skip_iff x).1 (takeWhile_true s x hx), ?_, ?_, ?_, (fun e => by cases e)⟩
        · rw [← hr, List.drop_left, hr]; exact hs
        · rintro rfl
          obtain ⟨⟨d, ds, e, -⟩, -⟩ := tab_word ht h1
          cases e
        · intro t' ht'
          cases ht'
          exact Or.inl h1
      | none =>
        have h1 := (longest_spec tab (c :: cs)).2 hl
        simp only
        refine ⟨(c :: cs).take (L.bad (c :: cs) + 1), fun x hx => (skip_iff x).1 (takeWhile_true s x hx), ?_, ?_,
          (fun _ e => by cases e), ?_⟩
        · rw [List.take_append_drop]; exact hs
        · simp
        · intro _
          rw [List.take_append_drop]
          constructor
          · intro n hn
            rw [numeral_iff] at hn
            have := (parseDigits_facts hn).2 c (by simp)
            rw [this] at hc
            simp at hc
          · exact h1

/-- A word of the table was read. -/
theorem next_tok {W : Type} [DecidableEq W] {L : Lib} {tab : List (Str × Tok W)} (ht : tabOk tab = true) {s r : Str}
    {t : Tok W} (h : next L tab s = some ⟨some t, r⟩) :
    ∃ x, Pre [x] s r ∧ ((x, t) ∈ tab ∨ ∃ n, t = .int n ∧ Numeral x n) := by
  obtain ⟨ws, x, h1, h2, -, h4, -⟩ := next_inv ht h
  exact ⟨x, pre_one h1 h2, h4 t rfl⟩

theorem next_tab {W : Type} [DecidableEq W] {L : Lib} {tab : List (Str × Tok W)} (ht : tabOk tab = true) {s r : Str}
    {t : Tok W} (h : next L tab s = some ⟨some t, r⟩) (hn : ∀ n, t ≠ .int n) : ∃ x, Pre [x] s r ∧ (x, t) ∈ tab := by
  obtain ⟨x, h1, h2 | ⟨n, e, -⟩⟩ := next_tok ht h
  · exact ⟨x, h1, h2⟩
  · exact absurd e (hn n)

theorem next_int {W : Type} [DecidableEq W] {L : Lib} {tab : List (Str × Tok W)} (ht : tabOk tab = true) {s r : Str}
    {n : Nat} (h : next L tab s = some ⟨some (.int n), r⟩) : ∃ x, Pre [x] s r ∧ Numeral x n := by
  obtain ⟨x, h1, h2 | ⟨m, e, h3⟩⟩ := next_tok ht h
  · exact absurd rfl ((tab_word ht h2).2.2.2 n)
  · cases e
    exact ⟨x, h1, h3⟩

/-- What is dropped at the end of an expression. -/
def Dropped (known : List Str) (bare : Prop) (t r : Str) : Prop :=
  ((∀ c ∈ t, c ∈ [' ', '\t', '\n', '\x0c']) ∧ r = []) ∨
  ∃ ws x, t = ws ++ (x ++ r) ∧ (∀ c ∈ ws, c ∈ [' ', '\t', '\n', '\x0c']) ∧ x ≠ [] ∧ x.head? ≠ some '+' ∧ x.head? ≠ some '-' ∧
    (bare → (∀ w ∈ known, ¬ w <+: x ++ r) ∧ ∀ n, ¬ Numeral x n)

theorem dropped_bad {W U : Type} [DecidableEq W] {L : Lib} {tab : List (Str × Tok W)} {unit : W → Option U}
    {units : List (Str × U)} {known : List Str} (V : Vocab tab unit units known) {bare : Prop} {s r : Str}
    (h : next L tab s = some ⟨none, r⟩) : Dropped known bare s r := by
  obtain ⟨ws, x, h1, h2, h3, -, h5⟩ := next_inv V.ok h
  obtain ⟨h6, h7⟩ := h5 rfl
  have hop : ∀ w o, (w, o) ∈ opWords → ¬ w <+: x := by
    intro w o hw hp
    exact h7 _ (V.ops w o hw) (hp.trans (List.prefix_append x r))
  have hh : ∀ c, (x.head? = some c) → [c] <+: x := by
    intro c hc
    cases x with
    | nil => cases hc
    | cons y ys => cases hc; exact ⟨ys, rfl⟩
  refine Or.inr ⟨ws, x, h2, h1, h3, fun e => hop ['+'] .plus (by decide) (hh _ e),
    fun e => hop ['-'] .minus (by decide) (hh _ e), fun _ => ⟨?_, h6⟩⟩
  intro w hw
  obtain ⟨t, ht⟩ := (V.known w).mp hw
  exact h7 _ ht

theorem digit_not_op {x : Str} {n : Nat} (h : Numeral x n) : x.head? ≠ some '+' ∧ x.head? ≠ some '-' := by
  obtain ⟨h1, h2, -⟩ := h
  cases x with
  | nil => exact absurd rfl h1
  | cons c cs =>
    have := h2 c (by simp)
    constructor <;> (intro e; cases e; revert this; decide)

theorem dropped_tok {W U : Type} [DecidableEq W] {L : Lib} {tab : List (Str × Tok W)} {unit : W → Option U}
    {units : List (Str × U)} {known : List Str} (V : Vocab tab unit units known) {s r : Str} {t : Tok W}
    (h : next L tab s = some ⟨some t, r⟩) (ht : ∀ o, t ≠ .op o) : Dropped known False s r := by
  obtain ⟨ws, x, h1, h2, h3, h4, -⟩ := next_inv V.ok h
  have hx : x.head? ≠ some '+' ∧ x.head? ≠ some '-' := by
    rcases h4 t rfl with h5 | ⟨n, -, h5⟩
    · have := (tab_word V.ok h5).2.1
      constructor
      · intro e
        obtain ⟨o, ho⟩ := this.mp (Or.inl e)
        exact ht o ho
      · intro e
        obtain ⟨o, ho⟩ := this.mp (Or.inr e)
        exact ht o ho
    · exact digit_not_op h5
  exact Or.inr ⟨ws, x, h2, h1, h3, hx.1, hx.2, False.elim⟩

theorem dropped_end {W : Type} {L : Lib} {tab : List (Str × Tok W)} {known : List Str} {bare : Prop} {s : Str}
    (h : next L tab s = none) : Dropped known bare s [] := Or.inl ⟨next_none h, rfl⟩

theorem duration_inv {W U : Type} [DecidableEq W] {L : Lib} {tab : List (Str × Tok W)} {unit : W → Option U}
    {units : List (Str × U)} {known : List Str} (V : Vocab tab unit units known) {s r : Str} {u : U} {n : Nat}
    (h : duration L tab unit s = .ok ((u, n), r)) : ∃ d w, Pre [d, w] s r ∧ Numeral d n ∧ (w, u) ∈ units := by
  unfold duration at h
  split at h
  · rename_i m r1 h1
    split at h
    · rename_i x r2 h2
      split at h
      · rename_i hv
        cases h
        obtain ⟨d, p1, hd⟩ := next_int V.ok h1
        obtain ⟨w, p2, hw⟩ := next_tab V.ok h2 (fun n e => by cases e)
        exact ⟨d, w, pre_cons p1 p2, hd, (V.units w u).mpr ⟨x, hw, hv⟩⟩
      · cases h
    · cases h
  · cases h

theorem adjustments_inv {W U : Type} [DecidableEq W] {L : Lib} {tab : List (Str × Tok W)} {unit : W → Option U}
    {units : List (Str × U)} {known : List Str} (V : Vocab tab unit units known) {f : Nat} {o : Op} {s r : Str}
    {as : List (Adj U)} (h : adjustments L tab unit f o s = .ok (as, r)) :
    ∃ d w ws n u as' t, Pre (d :: w :: ws) s t ∧ Numeral d n ∧ (w, u) ∈ units ∧ Ops units ws as' ∧
      as = ⟨u, n, o⟩ :: as' ∧ Dropped known False t r := by
  induction f generalizing o s r as with
  | zero => cases h
  | succ f ih =>
    rw [adjustments] at h
    cases hd : duration L tab unit s with
    | err => rw [hd] at h; cases h
    | panic => rw [hd] at h; cases h
    | ok x =>
      obtain ⟨⟨u, n⟩, r1⟩ := x
      obtain ⟨d, w, p1, hn, hu⟩ := duration_inv V hd
      rw [hd] at h
      simp only at h
      split at h
      · rename_i o' r2 h2
        obtain ⟨y, hy, e⟩ := map_ok_iff.mp h
        obtain ⟨as1, r3⟩ := y
        cases e
        obtain ⟨d', w', ws', n', u', as', t, i1, i2, i3, i4, i5, i6⟩ := ih hy
        obtain ⟨p, p2, hp⟩ := next_tab V.ok h2 (fun n e => by cases e)
        have hpo := (tab_word V.ok hp).2.2.1 o' rfl
        refine ⟨d, w, p :: d' :: w' :: ws', n, u, ⟨u', n', o'⟩ :: as', t, ?_, hn, hu, ?_, by rw [i5], i6⟩
        · exact pre_append p1 (pre_cons p2 i1)
        · exact .cons p o' d' n' w' u' ws' as' hpo i2 i3 i4
      · rename_i tk r2 hne h2
        cases h
        refine ⟨d, w, [], n, u, [], r1, p1, hn, hu, .nil, rfl, ?_⟩
        cases tk with
        | none => exact dropped_bad V h2
        | some t => exact dropped_tok V h2 (fun o e => by subst e; exact hne o rfl)
      · rename_i h2
        cases h
        exact ⟨d, w, [], n, u, [], r1, p1, hn, hu, .nil, rfl, dropped_end h2⟩

theorem dropped_weaken {known : List Str} {a b : Prop} {t r : Str} (h : Dropped known a t r) (hab : b → a) :
    Dropped known b t r := by
  rcases h with h | ⟨ws, x, h1, h2, h3, h4, h5, h6⟩
  · exact Or.inl h
  · exact Or.inr ⟨ws, x, h1, h2, h3, h4, h5, fun hb => h6 (hab hb)⟩

theorem follow_inv {W U : Type} [DecidableEq W] {L : Lib} {tab : List (Str × Tok W)} {unit : W → Option U}
    {units : List (Str × U)} {known : List Str} (V : Vocab tab unit units known) {s0 s r : Str} {as : List (Adj U)}
    (h : follow L tab unit s0 (next L tab s) = .ok (as, r)) :
    ∃ ws t, Pre ws s t ∧ Ops units ws as ∧ Dropped known (ws = []) t r := by
  cases hn : next L tab s with
  | none =>
    rw [hn] at h
    cases h
    exact ⟨[], s, .nil s, .nil, dropped_end hn⟩
  | some l =>
    obtain ⟨tk, r1⟩ := l
    rw [hn] at h
    cases tk with
    | none =>
      cases h
      exact ⟨[], s, .nil s, .nil, dropped_bad V hn⟩
    | some t =>
      cases t with
      | op o =>
        obtain ⟨p, p2, hp⟩ := next_tab V.ok hn (fun n e => by cases e)
        have hpo := (tab_word V.ok hp).2.2.1 o rfl
        obtain ⟨d, w, ws, n, u, as', t, i1, i2, i3, i4, i5, i6⟩ := adjustments_inv V (show adjustments L tab unit s0.length o r1 = _ from h)
        refine ⟨p :: d :: w :: ws, t, pre_cons p2 i1, ?_, dropped_weaken i6 (fun e => by cases e)⟩
        rw [i5]
        exact .cons p o d n w u ws as' hpo i2 i3 i4
      | int n => cases h
      | next => cases h
      | last => cases h
      | word w => cases h

theorem finish_inv {A : Type} {L : Lib} {a b : A} {known : List Str} {bare : Prop} {t r : Str} (hd : Dropped known bare t r)
    (h : finish L a r = .ok b) : b = a ∧ Tail L known bare t := by
  unfold finish at h
  split at h
  · rename_i hw
    cases h
    refine ⟨rfl, ?_⟩
    rcases hd with h | ⟨ws, x, h1, h2, h3, h4, h5, h6⟩
    · exact Or.inl h.1
    · exact Or.inr ⟨ws, x, r, h1, h2, by simpa using hw, h3, h4, h5, h6⟩
  · cases h

theorem relative_inv {L : Lib} {o : Op} {s r : Str} {as : List (Adj DateUnit)} (h : relative L o s = .ok (as, r)) :
    ∃ w u n ws as' t, (w, (u, n)) ∈ offsetWords ∧ Pre (w :: ws) s t ∧ Ops dayWords ws as' ∧ as = ⟨u, n, o⟩ :: as' ∧
      Dropped dateWords (ws = []) t r := by
  unfold relative at h
  split at h
  · rename_i x r1 h1
    split at h
    · rename_i u n hu
      obtain ⟨y, hy, e⟩ := map_ok_iff.mp h
      cases e
      obtain ⟨w, p1, hw⟩ := next_tab date_vocab.ok h1 (fun n e => by cases e)
      obtain ⟨ws, t, p2, h3, h4⟩ := follow_inv (as := y.1) (r := y.2) date_vocab hy
      exact ⟨w, u, n, ws, y.1, t, (offset_iff w u n).mpr ⟨x, hw, hu⟩, pre_cons p1 p2, h3, rfl, h4⟩
    · cases h
  · cases h

/-- A word of the table that stands for `next` or `last`. -/
theorem date_next : ∀ q ∈ dateTab, (q.2 = .next → q.1 = "next".toList) ∧ (q.2 = .last → q.1 = "last".toList) := by
  set_option maxRecDepth 100000 in decide

/-- C95: a text that is read as a date expression is one, up to an ignored end (see `Tail`). -/
theorem C95_date_sound_partial {L : Lib} {s : Str} {e : DateExp} (h : parseDate L s = .ok e) :
    ∃ head ops b as0 as t, DateHead head b as0 ∧ Ops dayWords ops as ∧ head ++ ops ≠ [] ∧ Pre (head ++ ops) s t ∧
      e = ⟨b, as0 ++ as⟩ ∧ Tail L dateWords (ops = []) t := by
  unfold parseDate at h
  split at h
  · rename_i b r h1
    obtain ⟨x, hx, hf⟩ := bind_ok_iff.mp h
    obtain ⟨w, p1, hw⟩ := next_tab date_vocab.ok h1 (fun n e => by cases e)
    obtain ⟨ws, t, p2, h3, h4⟩ := follow_inv (as := x.1) (r := x.2) date_vocab hx
    obtain ⟨e1, e2⟩ := finish_inv h4 hf
    exact ⟨[w], ws, b, [], x.1, t, .base w b ((base_iff w b).mpr hw), h3, by simp, pre_cons p1 p2, e1, e2⟩
  · rename_i o r h1
    obtain ⟨x, hx, hf⟩ := bind_ok_iff.mp h
    obtain ⟨p, p1, hp⟩ := next_tab date_vocab.ok h1 (fun n e => by cases e)
    have hpo := (tab_word date_vocab.ok hp).2.2.1 o rfl
    obtain ⟨d, w, ws, n, u, as', t, i1, i2, i3, i4, i5, i6⟩ := adjustments_inv (as := x.1) (r := x.2) date_vocab hx
    obtain ⟨e1, e2⟩ := finish_inv (dropped_weaken (b := p :: d :: w :: ws = []) i6 (fun e => by cases e)) hf
    refine ⟨[], p :: d :: w :: ws, .now, [], ⟨u, n, o⟩ :: as', t, .none, .cons p o d n w u ws as' hpo i2 i3 i4, by simp,
      pre_cons p1 i1, ?_, e2⟩
    rw [e1, i5]; rfl
  · rename_i r h1
    obtain ⟨x, hx, hf⟩ := bind_ok_iff.mp h
    obtain ⟨p, p1, hp⟩ := next_tab date_vocab.ok h1 (fun n e => by cases e)
    have hpn : p = "next".toList := (date_next _ hp).1 rfl
    obtain ⟨w, u, n, ws, as', t, h2, h3, h4, h5, h6⟩ := relative_inv (as := x.1) (r := x.2) hx
    obtain ⟨e1, e2⟩ := finish_inv h6 hf
    refine ⟨["next".toList, w], ws, .now, [⟨u, n, .plus⟩], as', t, .next w u n h2, h4, by simp, ?_, ?_, e2⟩
    · rw [← hpn]; exact pre_cons p1 h3
    · rw [e1, h5]; rfl
  · rename_i r h1
    obtain ⟨x, hx, hf⟩ := bind_ok_iff.mp h
    obtain ⟨p, p1, hp⟩ := next_tab date_vocab.ok h1 (fun n e => by cases e)
    have hpn : p = "last".toList := (date_next _ hp).2 rfl
    obtain ⟨w, u, n, ws, as', t, h2, h3, h4, h5, h6⟩ := relative_inv (as := x.1) (r := x.2) hx
    obtain ⟨e1, e2⟩ := finish_inv h6 hf
    refine ⟨["last".toList, w], ws, .now, [⟨u, n, .minus⟩], as', t, .last w u n h2, h4, by simp, ?_, ?_, e2⟩
    · rw [← hpn]; exact pre_cons p1 h3
    · rw [e1, h5]; rfl
  · cases h

theorem relativeTime_inv {L : Lib} {o : Op} {s r : Str} {as : List (Adj TimeUnit)} (h : relativeTime L o s = .ok (as, r)) :
    ∃ w u ws as' t, (w, u) ∈ timeWords ∧ Pre (w :: ws) s t ∧ Ops timeWords ws as' ∧ as = ⟨u, 1, o⟩ :: as' ∧
      Dropped clockWords (ws = []) t r := by
  unfold relativeTime at h
  split at h
  · rename_i x r1 h1
    split at h
    · rename_i u hu
      obtain ⟨y, hy, e⟩ := map_ok_iff.mp h
      cases e
      obtain ⟨w, p1, hw⟩ := next_tab time_vocab.ok h1 (fun n e => by cases e)
      obtain ⟨ws, t, p2, h3, h4⟩ := follow_inv (as := y.1) (r := y.2) time_vocab hy
      exact ⟨w, u, ws, y.1, t, (time_vocab.units w u).mpr ⟨x, hw, hu⟩, pre_cons p1 p2, h3, rfl, h4⟩
    · cases h
  · cases h

/-- The texts of the single words of time expressions. -/
theorem time_words : ∀ q ∈ timeTab, (q.2 = .next → q.1 = "next".toList) ∧ (q.2 = .last → q.1 = "last".toList) ∧
    (q.2 = .word .now → q.1 = "now".toList) ∧ (q.2 = .word .midnight → q.1 = "midnight".toList) ∧
    (q.2 = .word .noon → q.1 = "noon".toList) ∧ (q.2 = .word .oclock → q.1 = "o'clock".toList) ∧
    (q.2 = .word .am → q.1 = "am".toList) ∧ (q.2 = .word .pm → q.1 = "pm".toList) := by
  set_option maxRecDepth 100000 in decide

theorem hour_inv {n : Nat} {b c : TimeBase} (h : hourOf n b = .ok c) : c = b ∧ 1 ≤ n ∧ n ≤ 12 := by
  unfold hourOf at h
  split at h
  · cases h; exact ⟨rfl, by assumption⟩
  · cases h

theorem oclock_inv {L : Lib} {n : Nat} {s d : Str} {x : TimeBase × Option (Lexeme TWord)} (hd : Numeral d n)
    (h : oclock L n s = .ok x) :
    ∃ ws r, Pre ws s r ∧ TimeHead (d :: ws) x.1 [] ∧ x.2 = next L timeTab r := by
  unfold oclock at h
  split at h
  · rename_i r1 h1
    obtain ⟨w, p1, hw⟩ := next_tab time_vocab.ok h1 (fun n e => by cases e)
    have e : w = "o'clock".toList := (time_words _ hw).2.2.2.2.2.1 rfl
    subst e
    split at h
    · rename_i h2
      obtain ⟨b, hb, rfl⟩ := map_ok_iff.mp h
      obtain ⟨rfl, a1, a2⟩ := hour_inv hb
      exact ⟨_, r1, p1, .clock d n hd a1 a2, h2.symm⟩
    · cases h
    · rename_i r2 h2
      obtain ⟨b, hb, rfl⟩ := map_ok_iff.mp h
      obtain ⟨rfl, a1, a2⟩ := hour_inv hb
      obtain ⟨v, p2, hv⟩ := next_tab time_vocab.ok h2 (fun n e => by cases e)
      have e : v = "am".toList := (time_words _ hv).2.2.2.2.2.2.1 rfl
      subst e
      exact ⟨_, r2, pre_cons p1 p2, .am d n hd a1 a2, rfl⟩
    · rename_i r2 h2
      obtain ⟨b, hb, rfl⟩ := map_ok_iff.mp h
      obtain ⟨rfl, a1, a2⟩ := hour_inv hb
      obtain ⟨v, p2, hv⟩ := next_tab time_vocab.ok h2 (fun n e => by cases e)
      have e : v = "pm".toList := (time_words _ hv).2.2.2.2.2.2.2 rfl
      subst e
      exact ⟨_, r2, pre_cons p1 p2, .pm d n hd a1 a2, rfl⟩
    · rename_i h2
      obtain ⟨b, hb, rfl⟩ := map_ok_iff.mp h
      obtain ⟨rfl, a1, a2⟩ := hour_inv hb
      exact ⟨_, r1, p1, .clock d n hd a1 a2, h2.symm⟩
  · cases h

/-- C95: a text that is read as a time expression is one, up to an ignored end (see `Tail`). -/
theorem C95_time_sound_partial {L : Lib} {s : Str} {e : TimeExp} (h : parseTime L s = .ok e) :
    ∃ head ops b as0 as t, TimeHead head b as0 ∧ Ops timeWords ops as ∧ head ++ ops ≠ [] ∧ Pre (head ++ ops) s t ∧
      e = ⟨b, as0 ++ as⟩ ∧ Tail L clockWords (ops = []) t := by
  unfold parseTime at h
  split at h
  · rename_i r h1
    obtain ⟨x, hx, hf⟩ := bind_ok_iff.mp h
    obtain ⟨w, p1, hw⟩ := next_tab time_vocab.ok h1 (fun n e => by cases e)
    obtain ⟨ws, t, p2, h3, h4⟩ := follow_inv (as := x.1) (r := x.2) time_vocab hx
    obtain ⟨e1, e2⟩ := finish_inv h4 hf
    have e : w = "now".toList := (time_words _ hw).2.2.1 rfl
    subst e
    exact ⟨["now".toList], ws, .now, [], x.1, t, .now, h3, by simp, pre_cons p1 p2, e1, e2⟩
  · rename_i r h1
    obtain ⟨x, hx, hf⟩ := bind_ok_iff.mp h
    obtain ⟨w, p1, hw⟩ := next_tab time_vocab.ok h1 (fun n e => by cases e)
    obtain ⟨ws, t, p2, h3, h4⟩ := follow_inv (as := x.1) (r := x.2) time_vocab hx
    obtain ⟨e1, e2⟩ := finish_inv h4 hf
    have e : w = "midnight".toList := (time_words _ hw).2.2.2.1 rfl
    subst e
    exact ⟨["midnight".toList], ws, .midnight, [], x.1, t, .midnight, h3, by simp, pre_cons p1 p2, e1, e2⟩
  · rename_i r h1
    obtain ⟨x, hx, hf⟩ := bind_ok_iff.mp h
    obtain ⟨w, p1, hw⟩ := next_tab time_vocab.ok h1 (fun n e => by cases e)
    obtain ⟨ws, t, p2, h3, h4⟩ := follow_inv (as := x.1) (r := x.2) time_vocab hx
    obtain ⟨e1, e2⟩ := finish_inv h4 hf
    have e : w = "noon".toList := (time_words _ hw).2.2.2.2.1 rfl
    subst e
    exact ⟨["noon".toList], ws, .noon, [], x.1, t, .noon, h3, by simp, pre_cons p1 p2, e1, e2⟩
  · rename_i n r h1
    obtain ⟨x, hx, hg⟩ := bind_ok_iff.mp h
    obtain ⟨y, hy, hf⟩ := bind_ok_iff.mp hg
    obtain ⟨d, p1, hd⟩ := next_int time_vocab.ok h1
    obtain ⟨ws, r2, p2, hh, e3⟩ := oclock_inv hd hx
    rw [e3] at hy
    obtain ⟨ws', t, p3, h3, h4⟩ := follow_inv (as := y.1) (r := y.2) time_vocab hy
    obtain ⟨e1, e2⟩ := finish_inv h4 hf
    exact ⟨d :: ws, ws', x.1, [], y.1, t, hh, h3, by simp, pre_append (pre_cons p1 p2) p3, e1, e2⟩
  · rename_i o r h1
    obtain ⟨x, hx, hf⟩ := bind_ok_iff.mp h
    obtain ⟨p, p1, hp⟩ := next_tab time_vocab.ok h1 (fun n e => by cases e)
    have hpo := (tab_word time_vocab.ok hp).2.2.1 o rfl
    obtain ⟨d, w, ws, n, u, as', t, i1, i2, i3, i4, i5, i6⟩ := adjustments_inv (as := x.1) (r := x.2) time_vocab hx
    obtain ⟨e1, e2⟩ := finish_inv (dropped_weaken (b := p :: d :: w :: ws = []) i6 (fun e => by cases e)) hf
    refine ⟨[], p :: d :: w :: ws, .now, [], ⟨u, n, o⟩ :: as', t, .none, .cons p o d n w u ws as' hpo i2 i3 i4, by simp,
      pre_cons p1 i1, ?_, e2⟩
    rw [e1, i5]; rfl
  · rename_i r h1
    obtain ⟨x, hx, hf⟩ := bind_ok_iff.mp h
    obtain ⟨p, p1, hp⟩ := next_tab time_vocab.ok h1 (fun n e => by cases e)
    have hpn : p = "next".toList := (time_words _ hp).1 rfl
    obtain ⟨w, u, ws, as', t, h2, h3, h4, h5, h6⟩ := relativeTime_inv (as := x.1) (r := x.2) hx
    obtain ⟨e1, e2⟩ := finish_inv h6 hf
    refine ⟨["next".toList, w], ws, .now, [⟨u, 1, .plus⟩], as', t, .next w u h2, h4, by simp, ?_, ?_, e2⟩
    · rw [← hpn]; exact pre_cons p1 h3
    · rw [e1, h5]; rfl
  · rename_i r h1
    obtain ⟨x, hx, hf⟩ := bind_ok_iff.mp h
    obtain ⟨p, p1, hp⟩ := next_tab time_vocab.ok h1 (fun n e => by cases e)
    have hpn : p = "last".toList := (time_words _ hp).2.1 rfl
    obtain ⟨w, u, ws, as', t, h2, h3, h4, h5, h6⟩ := relativeTime_inv (as := x.1) (r := x.2) hx
    obtain ⟨e1, e2⟩ := finish_inv h6 hf
    refine ⟨["last".toList, w], ws, .now, [⟨u, 1, .minus⟩], as', t, .last w u h2, h4, by simp, ?_, ?_, e2⟩
    · rw [← hpn]; exact pre_cons p1 h3
    · rw [e1, h5]; rfl
  · cases h


end DateExprProps
end Verif
