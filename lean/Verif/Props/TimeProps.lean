import Verif.Time

/-
  C91: a value is accepted by a date/time pattern exactly when it splits into one text per pattern token,
  each in the language of its token, and the day exists in the month.
-/

set_option autoImplicit false

namespace Verif
namespace TimeProps
open Time

/-! ### Specification: the texts of each pattern token -/

/-- Only ASCII digits. -/
def Digits (p : Str) : Prop := ∀ c ∈ p, c.isDigit = true

/-- A decimal number of one to `k` digits, between `lo` and `hi`. -/
def Number (k lo hi : Nat) (p : Str) : Prop :=
  p ≠ [] ∧ Digits p ∧ p.length ≤ k ∧ lo ≤ numVal p ∧ numVal p ≤ hi

/-- A decimal number of exactly two digits, between `lo` and `hi`. -/
def TwoDigits (lo hi : Nat) (p : Str) : Prop := Number 2 lo hi p ∧ p.length = 2

/-- One of some words, in any mixture of upper and lower case. -/
def Word (ws : List Str) (p : Str) : Prop := ∃ w ∈ ws, p.map Char.toLower = w.map Char.toLower

/-- One or more plus or minus signs. -/
def Signs (p : Str) : Prop := p ≠ [] ∧ ∀ c ∈ p, c = '+' ∨ c = '-'

/-- Concatenation of two languages. -/
def Cat (A B : Str → Prop) (p : Str) : Prop := ∃ a b, p = a ++ b ∧ A a ∧ B b

/-- The language of one word. -/
def Only (w : Str) (p : Str) : Prop := p = w

/-- `GMT` or `UTC`. -/
def Gmt (p : Str) : Prop := p = ['G', 'M', 'T'] ∨ p = ['U', 'T', 'C']

/-- Hours of an offset: 0 to 11. -/
abbrev OffHour : Str → Prop := Number 2 0 11
/-- Minutes. -/
abbrev Minutes : Str → Prop := Number 2 0 59
/-- Seconds (with leap second). -/
abbrev Seconds : Str → Prop := Number 2 0 60

/-- `+h:mm`. -/
def HourMin : Str → Prop := Cat Signs (Cat OffHour (Cat (Only [':']) Minutes))

/-- The offsets `x` … `xxxxx`. -/
def Offset (n : Nat) : Str → Prop :=
  match n with
  | 1 => fun p => Cat Signs OffHour p ∨ Cat Signs (Cat (TwoDigits 0 11) Minutes) p
  | 2 => Cat Signs (Cat (TwoDigits 0 11) Minutes)
  | 3 => HourMin
  | 4 => fun p => Cat Signs (Cat (TwoDigits 0 11) Minutes) p ∨
      Cat Signs (Cat (TwoDigits 0 11) (Cat (TwoDigits 0 59) Seconds)) p
  | _ => fun p => HourMin p ∨
      Cat Signs (Cat OffHour (Cat (Only [':']) (Cat Minutes (Cat (Only [':']) Seconds)))) p

/-- The short month names, January first. -/
def shortMonths : List Str :=
  ["jan".toList, "feb".toList, "mar".toList, "apr".toList, "may".toList, "jun".toList,
   "jul".toList, "aug".toList, "sep".toList, "oct".toList, "nov".toList, "dec".toList]

/-- The full month names, January first. -/
def longMonths : List Str :=
  ["january".toList, "february".toList, "march".toList, "april".toList, "may".toList, "june".toList,
   "july".toList, "august".toList, "september".toList, "october".toList, "november".toList,
   "december".toList]

/-- The short day names. -/
def shortDays : List Str :=
  ["mon".toList, "tue".toList, "wed".toList, "thu".toList, "fri".toList, "sat".toList, "sun".toList]

/-- The full day names. -/
def longDays : List Str :=
  ["monday".toList, "tuesday".toList, "wednesday".toList, "thursday".toList, "friday".toList,
   "saturday".toList, "sunday".toList]

/-- The texts a pattern token stands for. -/
def Lang (zs : Zones) : PTok → Str → Prop
  | .era _ => Word ["ad".toList, "bc".toList]
  | .year n => fun p => p ≠ [] ∧ Digits p ∧ p.length ≤ n
  | .month n =>
    if n ≤ 2 then Number 2 1 12
    else if n = 3 then Word shortMonths else Word longMonths
  | .monthNum _ => Number 2 1 12
  | .text t => Only t
  | .weekInYear => Number 2 1 56
  | .weekInMonth b => if b then Number 2 1 5 else Number 2 0 4
  | .dayInYear => Number 3 1 356
  | .dayInMonth => Number 2 1 31
  | .dayName n =>
    if n ≤ 3 then Word shortDays else Word longDays
  | .dayOfWeek n =>
    if n ≤ 2 then Number 1 1 7
    else if n = 3 then Word shortDays else Word longDays
  | .amPm => Word ["am".toList, "pm".toList]
  | .hour24 => Number 2 1 24
  | .hour24z => Number 2 0 23
  | .hour12 => Number 2 1 12
  | .hour12z => Number 2 0 11
  | .minute => Number 2 0 59
  | .second => Number 2 0 60
  | .frac n => fun p => p ≠ [] ∧ Digits p ∧ p.length ≤ n
  | .nano _ => fun p => p ≠ [] ∧ Digits p
  | .milliOfDay => fun p => p ≠ [] ∧ Digits p
  | .nanoOfDay => fun p => p ≠ [] ∧ Digits p
  | .offset n =>
    if n = 4 then fun p => Gmt p ∨ Cat Gmt HourMin p
    else if 1 ≤ n ∧ n ≤ 3 then Cat Signs (Cat (TwoDigits 0 11) Minutes)
    else HourMin
  | .offsetX n => Offset n
  | .offsetXZ n => fun p => p = ['Z'] ∨ Offset n p
  | .offsetGmt n =>
    if 1 ≤ n ∧ n ≤ 3 then fun p => Cat Gmt HourMin p ∨ Cat Gmt (Cat Signs OffHour) p
    else Cat Gmt HourMin
  | .tzName n => fun p => n < 4 ∧ 3 ≤ p.length ∧ p.length ≤ 4 ∧ (∀ c ∈ p, isUpper c = true) ∧ zs.abbr p = true
  | .tzId _ => fun p =>
      Cat (fun a => a ≠ [] ∧ ∀ c ∈ a, isAlnum c = true)
        (Cat (Only ['/']) (fun a => a ≠ [] ∧ ∀ c ∈ a, isAlnum c = true)) p ∧ zs.zones p = true
  | .quarter n =>
    if n < 3 then Number 2 1 4
    else if n = 3 then Word ["q1".toList, "q2".toList, "q3".toList, "q4".toList]
    else Word ["1st quarter".toList, "2nd quarter".toList, "3rd quarter".toList, "4th quarter".toList]
  | .quarterNum _ => Number 2 1 4

/-! ### Specification: where a text ends -/

/-- The rest does not begin with a character satisfying `f`. -/
def NotHead (f : Char → Bool) (rest : Str) : Prop := ∀ c r, rest = c :: r → f c = false

/-- Characters that may continue a zone offset. -/
def offsetChar (c : Char) : Bool := c.isDigit || c == ':' || isSign c

/-- The text of a token ends where the next text begins: a number that could take one more digit is not
followed by a digit, and so on. -/
def Ends : PTok → Str → Str → Prop
  | .year n, p, r => p.length = n ∨ NotHead Char.isDigit r
  | .frac n, p, r => p.length = n ∨ NotHead Char.isDigit r
  | .month n, p, r => n ≤ 2 → p.length = 2 ∨ NotHead Char.isDigit r
  | .quarter n, p, r => n < 3 → p.length = 2 ∨ NotHead Char.isDigit r
  | .dayInYear, p, r => p.length = 3 ∨ NotHead Char.isDigit r
  | .monthNum _, p, r | .weekInYear, p, r | .weekInMonth _, p, r | .dayInMonth, p, r | .hour24, p, r
  | .hour24z, p, r | .hour12, p, r | .hour12z, p, r | .minute, p, r | .second, p, r
  | .quarterNum _, p, r => p.length = 2 ∨ NotHead Char.isDigit r
  | .nano _, _, r | .milliOfDay, _, r | .nanoOfDay, _, r => NotHead Char.isDigit r
  | .offset _, _, r | .offsetX _, _, r | .offsetGmt _, _, r => NotHead offsetChar r
  | .offsetXZ _, p, r => p = ['Z'] ∨ NotHead offsetChar r
  | .tzName _, p, r => p.length = 4 ∨ NotHead isUpper r
  | .tzId _, _, r => NotHead isAlnum r
  | _, _, _ => True

/-- A value split into texts, each in the language of its token. -/
inductive Split (zs : Zones) : List PTok → List Str → Prop
  | nil : Split zs [] []
  | cons {t : PTok} {p : Str} {ts : List PTok} {ps : List Str} :
      Lang zs t p → Split zs ts ps → Split zs (t :: ts) (p :: ps)

/-- Every text of a split ends where the next begins. -/
inductive EndsAll : List PTok → List Str → Prop
  | nil : EndsAll [] []
  | cons {t : PTok} {p : Str} {ts : List PTok} {ps : List Str} :
      Ends t p ps.flatten → EndsAll ts ps → EndsAll (t :: ts) (p :: ps)

/-! ### Specification: the calendar -/

/-- Leap years of the Gregorian calendar. -/
def Leap (y : Nat) : Prop := 4 ∣ y ∧ (¬ 100 ∣ y ∨ 400 ∣ y)

/-- `d` is not past the end of month `m` of year `y`. -/
def InMonth (y m d : Nat) : Prop :=
  d ≤ 31 ∧ ((m = 4 ∨ m = 6 ∨ m = 9 ∨ m = 11) → d ≤ 30) ∧ (m = 2 → d ≤ 29) ∧ (m = 2 → ¬ Leap y → d ≤ 28)

/-- The month number a month text stands for. -/
def MonthIs (p : Str) (m : Nat) : Prop :=
  (Number 2 1 12 p ∧ numVal p = m) ∨
  ∃ i, m = i + 1 ∧ (longMonths[i]? = some (p.map Char.toLower) ∨ shortMonths[i]? = some (p.map Char.toLower))

/-- The text of the first token satisfying `f`. -/
def First (f : PTok → Bool) : List PTok → List Str → Option Str
  | t :: ts, p :: ps => if f t then some p else First f ts ps
  | _, _ => none

/-- The year the split names; a pattern without year is checked against a year that is not a leap year. -/
def yearOf (ts : List PTok) (ps : List Str) : Nat :=
  match First isYear ts ps with
  | some y => numVal y
  | none => 2001

/-- If there is a day and a month, the day exists in that month. -/
def DateOk (ts : List PTok) (ps : List Str) : Prop :=
  ∀ d mo m, First isDay ts ps = some d → First isMonth ts ps = some mo → MonthIs mo m →
    InMonth (yearOf ts ps) m (numVal d)

/-- There is a day, and the year does not fit 16 bits. -/
def YearTooBig (ts : List PTok) (ps : List Str) : Prop :=
  (∃ d, First isDay ts ps = some d) ∧ ∃ y, First isYear ts ps = some y ∧ 32767 < numVal y

/-! ### The combinators -/

theorem takeWhile_len_full {f : Char → Bool} : ∀ (d r : Str), (∀ c ∈ d, f c = true) → NotHead f r →
    (d ++ r).takeWhile f = d
  | [], [], _, _ => rfl
  | [], c :: r, _, h => by
    have := h c r rfl
    simp [List.takeWhile, this]
  | c :: d, r, hd, h => by
    rw [List.cons_append, List.takeWhile_cons, hd c (by simp)]
    simp [takeWhile_len_full d r (fun x hx => hd x (by simp [hx])) h]

theorem notHead_drop {f : Char → Bool} : ∀ (s : Str), NotHead f (s.dropWhile f)
  | [] => by intro c r h; cases h
  | c :: s => by
    rw [List.dropWhile_cons]
    split
    · exact notHead_drop s
    · rename_i h
      intro c' r' e
      cases e
      simpa using h

theorem takeWhile_all {f : Char → Bool} : ∀ (s : Str) (c : Char), c ∈ s.takeWhile f → f c = true
  | [], _, h => by simp at h
  | x :: s, c, h => by
    rw [List.takeWhile_cons] at h
    split at h
    · rename_i hx
      rcases List.mem_cons.mp h with e | e
      · rw [e]; exact hx
      · exact takeWhile_all s c e
    · simp at h

/-- `take_while_m_n(m, n, p)`. -/
theorem takeMN_iff {m n : Nat} {f : Char → Bool} {s d r : Str} :
    takeMN m n f s = some (d, r) ↔
      s = d ++ r ∧ m ≤ d.length ∧ d.length ≤ n ∧ (∀ c ∈ d, f c = true) ∧ (d.length = n ∨ NotHead f r) := by
  constructor
  · intro h
    unfold takeMN at h
    split at h
    · rename_i hm
      simp only [Option.some.injEq, Prod.mk.injEq] at h
      obtain ⟨h1, h2⟩ := h
      have hs : s = s.takeWhile f ++ s.dropWhile f := (List.takeWhile_append_dropWhile).symm
      have hle : d.length ≤ n := by rw [← h1]; simp; omega
      have hall : ∀ c ∈ d, f c = true := by
        intro c hc
        rw [← h1] at hc
        exact takeWhile_all s c (List.mem_of_mem_take hc)
      have hsplit : s = d ++ r := by
        rw [← h1, ← h2]
        have e1 : s.take ((s.takeWhile f).take n).length = (s.takeWhile f).take n := by
          have hlen : ((s.takeWhile f).take n).length ≤ (s.takeWhile f).length := by simp; omega
          conv => lhs; rw [hs]
          rw [List.take_append_of_le_length (by
            have := hlen
            rw [← hs]; exact this)]
          rw [← hs]
          simp [List.length_take, List.take_eq_take_iff]
        have := List.take_append_drop ((s.takeWhile f).take n).length s
        rw [e1] at this
        exact this.symm
      refine ⟨hsplit, by rw [← h1]; exact hm, hle, hall, ?_⟩
      by_cases hc : (s.takeWhile f).length ≤ n
      · right
        have hd : d = s.takeWhile f := by rw [← h1]; exact List.take_of_length_le hc
        have hr : r = s.dropWhile f := by
          have : s.takeWhile f ++ s.dropWhile f = s.takeWhile f ++ r := by
            rw [← hs, ← hd]; exact hsplit
          exact (List.append_cancel_left this).symm
        rw [hr]
        exact notHead_drop s
      · left
        rw [← h1]; simp; omega
    · cases h
  · rintro ⟨hs, h1, h2, h3, h4⟩
    have key : (s.takeWhile f).take n = d := by
      rcases h4 with h4 | h4
      · subst hs
        have : ∀ (d r : Str), (∀ c ∈ d, f c = true) → ((d ++ r).takeWhile f).take d.length = d := by
          intro d
          induction d with
          | nil => intros; simp
          | cons c d ih =>
            intro r hd
            rw [List.cons_append, List.takeWhile_cons, hd c (by simp)]
            simp [ih r (fun x hx => hd x (by simp [hx]))]
        rw [← h4]
        exact this d r h3
      · rw [hs, takeWhile_len_full d r h3 h4]
        exact List.take_of_length_le h2
    unfold takeMN
    rw [key, if_pos h1, hs]
    simp

theorem many1_iff {f : Char → Bool} {s d r : Str} :
    many1 f s = some (d, r) ↔ s = d ++ r ∧ d ≠ [] ∧ (∀ c ∈ d, f c = true) ∧ NotHead f r := by
  constructor
  · intro h
    unfold many1 at h
    split at h
    · cases h
    · rename_i hne
      simp only [Option.some.injEq, Prod.mk.injEq] at h
      obtain ⟨h1, h2⟩ := h
      refine ⟨by rw [← h1, ← h2]; exact (List.takeWhile_append_dropWhile).symm, ?_, ?_, ?_⟩
      · intro e
        rw [e] at h1
        rw [h1] at hne
        simp at hne
      · intro c hc; rw [← h1] at hc; exact takeWhile_all s c hc
      · rw [← h2]; exact notHead_drop s
  · rintro ⟨hs, h1, h2, h3⟩
    have hk : s.takeWhile f = d := by rw [hs]; exact takeWhile_len_full d r h2 h3
    have hd : s.dropWhile f = r := by
      have : s.takeWhile f ++ s.dropWhile f = d ++ r := by
        rw [List.takeWhile_append_dropWhile]; exact hs
      rw [hk] at this
      exact List.append_cancel_left this
    unfold many1
    rw [hk, hd]
    cases d with
    | nil => exact absurd rfl h1
    | cons c d => rfl

theorem tag_iff : ∀ {t s r : Str}, tag t s = some r ↔ s = t ++ r
  | [], s, r => by simp [tag]
  | c :: t, [], r => by simp [tag]
  | c :: t, d :: s, r => by
    rw [tag]
    split
    · rename_i h
      rw [tag_iff (t := t), h]
      simp
    · rename_i h
      simp
      intro e; exact absurd e.symm h

theorem lit_iff {t s p r : Str} : lit t s = some (p, r) ↔ p = t ∧ s = t ++ r := by
  unfold lit
  constructor
  · intro h
    split at h
    · rename_i h'
      cases h
      exact ⟨rfl, tag_iff.mp h'⟩
    · cases h
  · rintro ⟨e, h⟩
    rw [tag_iff.mpr h, e]

theorem lit_none {t s : Str} : lit t s = none ↔ ∀ r, s ≠ t ++ r := by
  unfold lit
  constructor
  · intro h r e
    rw [tag_iff.mpr e] at h
    cases h
  · intro h
    cases ht : tag t s with
    | none => rfl
    | some r => exact absurd (tag_iff.mp ht) (h r)

theorem seqP_iff {f g : Str → Option (Str × Str)} {s p r : Str} :
    seqP f g s = some (p, r) ↔ ∃ a b m, f s = some (a, m) ∧ g m = some (b, r) ∧ p = a ++ b := by
  unfold seqP
  constructor
  · intro h
    split at h
    · cases h
    · rename_i a m hf
      split at h
      · cases h
      · rename_i b r' hg
        cases h
        exact ⟨a, b, m, hf, hg, rfl⟩
  · rintro ⟨a, b, m, hf, hg, e⟩
    rw [hf]
    simp only
    rw [hg, e]

theorem one_le {d : Str} (h : d ≠ []) : 1 ≤ d.length := List.length_pos_iff.mpr h

theorem numField_iff {k lo hi : Nat} {s d r : Str} :
    numField k lo hi s = some (d, r) ↔
      s = d ++ r ∧ Number k lo hi d ∧ (d.length = k ∨ NotHead Char.isDigit r) := by
  unfold numField
  cases h : takeMN 1 k Char.isDigit s with
  | none =>
    simp only [false_iff, reduceCtorEq]
    rintro ⟨hs, ⟨h1, h2, h3, -, -⟩, h4⟩
    have := takeMN_iff.mpr ⟨hs, one_le h1, h3, h2, h4⟩
    rw [h] at this
    cases this
  | some x =>
    obtain ⟨d', r'⟩ := x
    have hx := takeMN_iff.mp h
    constructor
    · intro e
      simp only at e
      split at e
      · rename_i hr
        cases e
        refine ⟨hx.1, ⟨?_, hx.2.2.2.1, hx.2.2.1, hr.1, hr.2⟩, hx.2.2.2.2⟩
        intro e; have := hx.2.1; rw [e] at this; simp at this
      · cases e
    · rintro ⟨hs, ⟨h1, h2, h3, h5, h6⟩, h4⟩
      have := takeMN_iff.mpr ⟨hs, one_le h1, h3, h2, h4⟩
      rw [h] at this
      cases this
      simp [h5, h6]

theorem tagNoCase_iff : ∀ {t s p r : Str},
    tagNoCase t s = some (p, r) ↔ s = p ++ r ∧ p.map Char.toLower = t.map Char.toLower
  | [], s, p, r => by
    simp only [tagNoCase, Option.some.injEq, Prod.mk.injEq, List.map_nil, List.map_eq_nil_iff]
    constructor
    · rintro ⟨e1, e2⟩; subst e1; exact ⟨by simp [e2], rfl⟩
    · rintro ⟨e1, e2⟩; subst e2; exact ⟨rfl, by simpa using e1⟩
  | c :: t, [], p, r => by
    simp only [tagNoCase, false_iff, reduceCtorEq]
    rintro ⟨e1, e2⟩
    have : p = [] := by
      cases p with | nil => rfl | cons _ _ => simp at e1
    subst this
    simp at e2
  | c :: t, d :: s, p, r => by
    rw [tagNoCase]
    split
    · rename_i h
      cases ht : tagNoCase t s with
      | none =>
        simp only [false_iff, reduceCtorEq]
        rintro ⟨e1, e2⟩
        cases p with
        | nil => simp at e2
        | cons x p =>
          simp at e1 e2
          have := tagNoCase_iff.mpr ⟨e1.2, e2.2⟩
          rw [ht] at this; cases this
      | some y =>
        obtain ⟨p', r'⟩ := y
        have hy := tagNoCase_iff.mp ht
        simp only [Option.some.injEq, Prod.mk.injEq]
        constructor
        · rintro ⟨e1, e2⟩
          subst e1 e2
          exact ⟨by rw [hy.1]; rfl, by simp [hy.2, h]⟩
        · rintro ⟨e1, e2⟩
          cases p with
          | nil => simp at e2
          | cons x p =>
            simp at e1 e2
            have := tagNoCase_iff.mpr ⟨e1.2, e2.2⟩
            rw [ht] at this
            cases this
            exact ⟨by rw [e1.1], rfl⟩
    · rename_i h
      simp only [false_iff, reduceCtorEq]
      rintro ⟨e1, e2⟩
      cases p with
      | nil => simp at e2
      | cons x p =>
        simp at e1 e2
        rw [e1.1] at h
        exact h e2.1.symm

theorem altNoCase_some : ∀ {ws : List Str} {s p r : Str}, altNoCase ws s = some (p, r) →
    s = p ++ r ∧ Word ws p
  | [], _, _, _, h => by cases h
  | w :: ws, s, p, r, h => by
    rw [altNoCase] at h
    split at h
    · rename_i x hx
      cases h
      have := tagNoCase_iff.mp hx
      exact ⟨this.1, w, by simp, this.2⟩
    · obtain ⟨h1, w', hw, h2⟩ := altNoCase_some h
      exact ⟨h1, w', by simp [hw], h2⟩

/-- No word of the list is, in lower case, a proper prefix of another one. -/
def prefixFree : List Str → Bool
  | [] => true
  | w :: ws => ws.all (fun v => !((w.map Char.toLower).isPrefixOf (v.map Char.toLower)) &&
      !((v.map Char.toLower).isPrefixOf (w.map Char.toLower))) && prefixFree ws

theorem altNoCase_word : ∀ {ws : List Str} {p r : Str}, prefixFree ws = true → Word ws p →
    altNoCase ws (p ++ r) = some (p, r)
  | [], _, _, _, h => by obtain ⟨w, hw, _⟩ := h; cases hw
  | w :: ws, p, r, hf, h => by
    obtain ⟨w', hw', he⟩ := h
    rw [prefixFree, Bool.and_eq_true, List.all_eq_true] at hf
    rw [altNoCase]
    rcases List.mem_cons.mp hw' with e | e
    · subst e
      rw [tagNoCase_iff.mpr ⟨rfl, he⟩]
    · cases ht : tagNoCase w (p ++ r) with
      | none => exact altNoCase_word hf.2 ⟨w', e, he⟩
      | some x =>
        obtain ⟨q, r'⟩ := x
        obtain ⟨h1, h2⟩ := tagNoCase_iff.mp ht
        have hh := hf.1 w' e
        simp only [Bool.and_eq_true, Bool.not_eq_true'] at hh
        rw [← h2, ← he] at hh
        exfalso
        rcases List.append_eq_append_iff.mp h1 with ⟨a, ha, _⟩ | ⟨a, ha, _⟩
        · have : (p.map Char.toLower).isPrefixOf (q.map Char.toLower) = true := by
            rw [ha, List.map_append, List.isPrefixOf_iff_prefix]
            exact List.prefix_append _ _
          rw [this] at hh; exact absurd hh.2 (by simp)
        · have : (q.map Char.toLower).isPrefixOf (p.map Char.toLower) = true := by
            rw [ha, List.map_append, List.isPrefixOf_iff_prefix]
            exact List.prefix_append _ _
          rw [this] at hh; exact absurd hh.1 (by simp)

/-! ### One token reads a text of its language -/

theorem number_head {k lo hi : Nat} {p : Str} (h : Number k lo hi p) :
    ∃ c q, p = c :: q ∧ c.isDigit = true := by
  obtain ⟨h1, h2, -⟩ := h
  cases p with
  | nil => exact absurd rfl h1
  | cons c q => exact ⟨c, q, rfl, h2 c (by simp)⟩

/-- A number followed by a number has all its digits. -/
theorem two_of_followed {lo hi k lo' hi' : Nat} {d r e r' : Str} (h : Number 2 lo hi d)
    (hb : d.length = 2 ∨ NotHead Char.isDigit r) (hr : r = e ++ r') (he : Number k lo' hi' e) :
    TwoDigits lo hi d := by
  refine ⟨h, ?_⟩
  rcases hb with hb | hb
  · exact hb
  · obtain ⟨c, q, e1, hc⟩ := number_head he
    have := hb c (q ++ r') (by rw [hr, e1]; rfl)
    rw [hc] at this; cases this

theorem signs_sound {s p r : Str} (h : signs s = some (p, r)) :
    s = p ++ r ∧ Signs p ∧ NotHead isSign r := by
  obtain ⟨h1, h2, h3, h4⟩ := many1_iff.mp h
  refine ⟨h1, ⟨h2, ?_⟩, h4⟩
  intro c hc
  simpa [isSign] using h3 c hc

theorem digit_not_sign {c : Char} (h : c.isDigit = true) : isSign c = false := by
  cases hs : isSign c with
  | false => rfl
  | true =>
    have : c = '+' ∨ c = '-' := by simpa [isSign] using hs
    rcases this with e | e <;> (subst e; exact absurd h (by decide))

theorem signs_complete {p r : Str} (h : Signs p) (hr : ∃ c q, r = c :: q ∧ c.isDigit = true) :
    signs (p ++ r) = some (p, r) := by
  refine many1_iff.mpr ⟨rfl, h.1, ?_, ?_⟩
  · intro c hc
    have := h.2 c hc
    simpa [isSign] using this
  · intro c q e
    obtain ⟨c', q', e', hc⟩ := hr
    rw [e'] at e; cases e
    exact digit_not_sign hc

theorem signs_start {a b r : Str} (hs : Signs a) (hb : ∃ c q, b = c :: q ∧ c.isDigit = true) :
    signs (a ++ b ++ r) = some (a, b ++ r) := by
  rw [List.append_assoc]
  obtain ⟨c, q, e, hc⟩ := hb
  exact signs_complete hs ⟨c, q ++ r, by rw [e]; rfl, hc⟩

theorem head_append {b x : Str} (hb : ∃ c q, b = c :: q ∧ c.isDigit = true) :
    ∃ c q, b ++ x = c :: q ∧ c.isDigit = true := by
  obtain ⟨c, q, e, hc⟩ := hb
  exact ⟨c, q ++ x, by rw [e]; rfl, hc⟩

theorem hourMin_sound {s p r : Str} (h : hourMin s = some (p, r)) : s = p ++ r ∧ HourMin p := by
  obtain ⟨a, b, m, h1, h2, e⟩ := seqP_iff.mp h
  obtain ⟨a2, b2, m2, h3, h4, e2⟩ := seqP_iff.mp h2
  obtain ⟨a3, b3, m3, h5, h6, e3⟩ := seqP_iff.mp h4
  obtain ⟨s1, s2, -⟩ := signs_sound h1
  obtain ⟨t1, t2, -⟩ := numField_iff.mp h3
  obtain ⟨u1, u2⟩ := lit_iff.mp h5
  obtain ⟨v1, v2, -⟩ := numField_iff.mp h6
  subst e e2 e3 s1 t1 u1 u2 v1
  exact ⟨by simp, a, _, rfl, s2, a2, _, rfl, t2, _, _, rfl, rfl, v2⟩

theorem hourMin_complete {p r : Str} (h : HourMin p) (hr : NotHead Char.isDigit r) :
    hourMin (p ++ r) = some (p, r) := by
  obtain ⟨a, b, e, hs, h, b2, e2, hh, c, m, e3, hc, hm⟩ := h
  subst e e2 e3
  cases hc
  refine seqP_iff.mpr ⟨a, _, _, signs_start hs (head_append (number_head hh)), ?_, rfl⟩
  · refine seqP_iff.mpr ⟨h, _, [':'] ++ m ++ r,
      numField_iff.mpr ⟨by simp, hh, .inr ?_⟩, ?_, rfl⟩
    · intro c q e; cases e; decide
    · exact seqP_iff.mpr ⟨[':'], m, m ++ r, lit_iff.mpr ⟨rfl, by simp⟩, numField_iff.mpr ⟨rfl, hm, .inr hr⟩, rfl⟩

theorem gmtUtc_sound {s p r : Str} (h : gmtUtc s = some (p, r)) : s = p ++ r ∧ Gmt p := by
  unfold gmtUtc at h
  split at h
  · rename_i x hx
    cases h
    obtain ⟨e1, e2⟩ := lit_iff.mp hx
    exact ⟨by rw [e2, e1], .inl e1⟩
  · obtain ⟨e1, e2⟩ := lit_iff.mp h
    exact ⟨by rw [e2, e1], .inr e1⟩

theorem gmtUtc_complete {p r : Str} (h : Gmt p) : gmtUtc (p ++ r) = some (p, r) := by
  rcases h with e | e <;> (subst e; rfl)

theorem signsTwoMin_sound {s p r : Str} (h : seqP signs (seqP hour12z minute) s = some (p, r)) :
    s = p ++ r ∧ Cat Signs (Cat (TwoDigits 0 11) Minutes) p := by
  obtain ⟨a, b, m, h1, h2, e⟩ := seqP_iff.mp h
  obtain ⟨a2, b2, m2, h3, h4, e2⟩ := seqP_iff.mp h2
  obtain ⟨s1, s2, -⟩ := signs_sound h1
  obtain ⟨t1, t2, t3⟩ := numField_iff.mp h3
  obtain ⟨u1, u2, -⟩ := numField_iff.mp h4
  have ht := two_of_followed t2 t3 u1 u2
  subst e e2 s1 t1 u1
  exact ⟨by simp, a, _, rfl, s2, a2, _, rfl, ht, u2⟩

theorem signsTwoMin_complete {p r : Str} (h : Cat Signs (Cat (TwoDigits 0 11) Minutes) p)
    (hr : NotHead Char.isDigit r) : seqP signs (seqP hour12z minute) (p ++ r) = some (p, r) := by
  obtain ⟨a, b, e, hs, h, m, e2, hh, hm⟩ := h
  subst e e2
  refine seqP_iff.mpr ⟨a, _, _, signs_start hs (head_append (number_head hh.1)), ?_, rfl⟩
  · exact seqP_iff.mpr ⟨h, m, m ++ r, numField_iff.mpr ⟨by simp, hh.1, .inl hh.2⟩,
      numField_iff.mpr ⟨rfl, hm, .inr hr⟩, rfl⟩

theorem numField_no_digit {k lo hi : Nat} {r : Str} (h : NotHead Char.isDigit r) :
    numField k lo hi r = none := by
  cases hn : numField k lo hi r with
  | none => rfl
  | some x =>
    obtain ⟨d, r'⟩ := x
    obtain ⟨e, hd, -⟩ := numField_iff.mp hn
    obtain ⟨c, q, e', hc⟩ := number_head hd
    have := h c (q ++ r') (by rw [e, e']; rfl)
    rw [hc] at this; cases this

theorem long5_sound {s p r : Str} (h : seqP signs (seqP hour12z (seqP colon (seqP minute (fun s => some (optP (seqP colon second) s))))) s = some (p, r)) :
    s = p ++ r ∧ (HourMin p ∨ Cat Signs (Cat OffHour (Cat (Only [':']) (Cat Minutes (Cat (Only [':']) Seconds)))) p) := by
  obtain ⟨a, b, m, h1, h2, e⟩ := seqP_iff.mp h
  obtain ⟨a2, b2, m2, h3, h4, e2⟩ := seqP_iff.mp h2
  obtain ⟨a3, b3, m3, h5, h6, e3⟩ := seqP_iff.mp h4
  obtain ⟨a4, b4, m4, h7, h8, e4⟩ := seqP_iff.mp h6
  obtain ⟨s1, s2, -⟩ := signs_sound h1
  obtain ⟨t1, t2, -⟩ := numField_iff.mp h3
  obtain ⟨u1, u2⟩ := lit_iff.mp h5
  obtain ⟨v1, v2, -⟩ := numField_iff.mp h7
  simp only [Option.some.injEq] at h8
  unfold optP at h8
  split at h8
  · rename_i x hx
    subst h8
    obtain ⟨a5, b5, m5, h9, h10, e5⟩ := seqP_iff.mp hx
    obtain ⟨w1, w2⟩ := lit_iff.mp h9
    obtain ⟨x1, x2, -⟩ := numField_iff.mp h10
    subst e e2 e3 e4 e5 s1 t1 u1 u2 v1 w1 w2 x1
    exact ⟨by simp, .inr ⟨a, _, rfl, s2, a2, _, rfl, t2, _, _, rfl, rfl, _, _, rfl, v2, _, _, rfl, rfl, x2⟩⟩
  · cases h8
    subst e e2 e3 e4 s1 t1 u1 u2 v1
    exact ⟨by simp, .inl ⟨a, _, rfl, s2, a2, _, rfl, t2, _, _, rfl, rfl, by simpa using v2⟩⟩

theorem longOffset_sound {n : Nat} {s p r : Str} (h : longOffset n s = some (p, r)) :
    s = p ++ r ∧ Offset n p := by
  rcases n with _ | _ | _ | _ | _ | n
  · exact long5_sound h
  · obtain ⟨a, b, m, h1, h2, e⟩ := seqP_iff.mp h
    obtain ⟨a2, b2, m2, h3, h4, e2⟩ := seqP_iff.mp h2
    obtain ⟨s1, s2, -⟩ := signs_sound h1
    obtain ⟨t1, t2, t3⟩ := numField_iff.mp h3
    simp only [Option.some.injEq] at h4
    unfold optP at h4
    split at h4
    · rename_i x hx
      subst h4
      obtain ⟨u1, u2, -⟩ := numField_iff.mp hx
      have ht := two_of_followed t2 t3 u1 u2
      subst e e2 s1 t1 u1
      exact ⟨by simp, .inr ⟨a, _, rfl, s2, a2, _, rfl, ht, u2⟩⟩
    · cases h4
      subst e e2 s1 t1
      exact ⟨by simp, .inl ⟨a, _, rfl, s2, by simpa using t2⟩⟩
  · exact signsTwoMin_sound h
  · exact hourMin_sound h
  · obtain ⟨a, b, m, h1, h2, e⟩ := seqP_iff.mp h
    obtain ⟨a2, b2, m2, h3, h4, e2⟩ := seqP_iff.mp h2
    obtain ⟨a3, b3, m3, h5, h6, e3⟩ := seqP_iff.mp h4
    obtain ⟨s1, s2, -⟩ := signs_sound h1
    obtain ⟨t1, t2, t3⟩ := numField_iff.mp h3
    obtain ⟨u1, u2, u3⟩ := numField_iff.mp h5
    have ht := two_of_followed t2 t3 u1 u2
    simp only [Option.some.injEq] at h6
    unfold optP at h6
    split at h6
    · rename_i x hx
      subst h6
      obtain ⟨v1, v2, -⟩ := numField_iff.mp hx
      have hm := two_of_followed u2 u3 v1 v2
      subst e e2 e3 s1 t1 u1 v1
      exact ⟨by simp, .inr ⟨a, _, rfl, s2, a2, _, rfl, ht, _, _, rfl, hm, v2⟩⟩
    · cases h6
      subst e e2 e3 s1 t1 u1
      exact ⟨by simp, .inl ⟨a, _, rfl, s2, a2, _, rfl, ht, by simpa using u2⟩⟩
  · exact long5_sound h

theorem notHead_digit {r : Str} (h : NotHead offsetChar r) : NotHead Char.isDigit r := by
  intro c q e
  have := h c q e
  cases hd : c.isDigit with
  | false => rfl
  | true => simp [offsetChar, hd] at this

theorem notHead_colon {r : Str} (h : NotHead offsetChar r) : lit [':'] r = none := by
  refine lit_none.mpr ?_
  intro q e
  have := h ':' q e
  exact absurd this (by decide)

theorem long5_complete {p r : Str} (h : (HourMin p ∨ Cat Signs (Cat OffHour (Cat (Only [':']) (Cat Minutes (Cat (Only [':']) Seconds)))) p)) (hr : NotHead offsetChar r) :
    seqP signs (seqP hour12z (seqP colon (seqP minute (fun s => some (optP (seqP colon second) s))))) (p ++ r) = some (p, r) := by
  have hd := notHead_digit hr
  rcases h with ⟨a, b, e, hs, h, b2, e2, hh, c, m, e3, hc, hm⟩ |
    ⟨a, b, e, hs, h, b2, e2, hh, c, b3, e3, hc, m, b4, e4, hm, c2, sec, e5, hc2, hsec⟩
  · subst e e2 e3
    cases hc
    refine seqP_iff.mpr ⟨a, _, _, signs_start hs (head_append (number_head hh)), ?_, rfl⟩
    refine seqP_iff.mpr ⟨h, _, [':'] ++ m ++ r, numField_iff.mpr ⟨by simp, hh, .inr ?_⟩, ?_, rfl⟩
    · intro c q e; cases e; decide
    refine seqP_iff.mpr ⟨[':'], _, m ++ r, lit_iff.mpr ⟨rfl, by simp⟩, ?_, rfl⟩
    refine seqP_iff.mpr ⟨m, [], r, numField_iff.mpr ⟨rfl, hm, .inr hd⟩, ?_, by simp⟩
    have : seqP colon second r = none := by
      unfold seqP colon
      rw [notHead_colon hr]
    unfold optP
    rw [this]
  · subst e e2 e3 e4 e5
    cases hc
    cases hc2
    refine seqP_iff.mpr ⟨a, _, _, signs_start hs (head_append (number_head hh)), ?_, rfl⟩
    refine seqP_iff.mpr ⟨h, _, [':'] ++ (m ++ ([':'] ++ sec)) ++ r,
      numField_iff.mpr ⟨by simp, hh, .inr ?_⟩, ?_, rfl⟩
    · intro c q e; cases e; decide
    refine seqP_iff.mpr ⟨[':'], _, m ++ ([':'] ++ sec) ++ r, lit_iff.mpr ⟨rfl, by simp⟩, ?_, rfl⟩
    refine seqP_iff.mpr ⟨m, [':'] ++ sec, [':'] ++ sec ++ r,
      numField_iff.mpr ⟨by simp, hm, .inr ?_⟩, ?_, rfl⟩
    · intro c q e; cases e; decide
    have : seqP colon second ([':'] ++ sec ++ r) = some ([':'] ++ sec, r) :=
      seqP_iff.mpr ⟨[':'], sec, sec ++ r, lit_iff.mpr ⟨rfl, by simp⟩, numField_iff.mpr ⟨rfl, hsec, .inr hd⟩, rfl⟩
    unfold optP
    rw [this]

theorem longOffset_complete {n : Nat} {p r : Str} (h : Offset n p) (hr : NotHead offsetChar r) :
    longOffset n (p ++ r) = some (p, r) := by
  have hd := notHead_digit hr
  rcases n with _ | _ | _ | _ | _ | n
  · exact long5_complete h hr
  · rcases h with ⟨a, b, e, hs, hh⟩ | ⟨a, b, e, hs, h, m, e2, hh, hm⟩
    · subst e
      refine seqP_iff.mpr ⟨a, _, _, signs_start hs (number_head hh), ?_, rfl⟩
      refine seqP_iff.mpr ⟨b, [], r, numField_iff.mpr ⟨rfl, hh, .inr hd⟩, ?_, by simp⟩
      unfold optP minute
      rw [numField_no_digit hd]
    · subst e e2
      refine seqP_iff.mpr ⟨a, _, _, signs_start hs (head_append (number_head hh.1)), ?_, rfl⟩
      refine seqP_iff.mpr ⟨h, m, m ++ r, numField_iff.mpr ⟨by simp, hh.1, .inl hh.2⟩, ?_, rfl⟩
      unfold optP minute
      rw [numField_iff.mpr ⟨rfl, hm, .inr hd⟩]
  · exact signsTwoMin_complete h hd
  · exact hourMin_complete h hd
  · rcases h with ⟨a, b, e, hs, h, m, e2, hh, hm⟩ | ⟨a, b, e, hs, h, m, e2, hh, x, y, e3, hm, hsec⟩
    · subst e e2
      refine seqP_iff.mpr ⟨a, _, _, signs_start hs (head_append (number_head hh.1)), ?_, rfl⟩
      refine seqP_iff.mpr ⟨h, m, m ++ r, numField_iff.mpr ⟨by simp, hh.1, .inl hh.2⟩, ?_, rfl⟩
      refine seqP_iff.mpr ⟨m, [], r, numField_iff.mpr ⟨rfl, hm, .inr hd⟩, ?_, by simp⟩
      unfold optP second
      rw [numField_no_digit hd]
    · subst e e2 e3
      refine seqP_iff.mpr ⟨a, _, _, signs_start hs (head_append (number_head hh.1)), ?_, rfl⟩
      refine seqP_iff.mpr ⟨h, _, x ++ y ++ r, numField_iff.mpr ⟨by simp, hh.1, .inl hh.2⟩, ?_, rfl⟩
      refine seqP_iff.mpr ⟨x, y, y ++ r, numField_iff.mpr ⟨by simp, hm.1, .inl hm.2⟩, ?_, rfl⟩
      unfold optP second
      rw [numField_iff.mpr ⟨rfl, hsec, .inr hd⟩]
  · exact long5_complete h hr

theorem digits_le {p : Str} {f : Char → Bool} {n : Nat} {s r : Str} (h : takeMN 1 n f s = some (p, r)) :
    s = p ++ r ∧ p ≠ [] ∧ (∀ c ∈ p, f c = true) ∧ p.length ≤ n := by
  obtain ⟨h1, h2, h3, h4, -⟩ := takeMN_iff.mp h
  exact ⟨h1, List.length_pos_iff.mp h2, h4, h3⟩

theorem takeMN_complete {p r : Str} {f : Char → Bool} {n : Nat} (h1 : p ≠ []) (h2 : ∀ c ∈ p, f c = true)
    (h3 : p.length ≤ n) (h4 : p.length = n ∨ NotHead f r) : takeMN 1 n f (p ++ r) = some (p, r) :=
  takeMN_iff.mpr ⟨rfl, one_le h1, h3, h2, h4⟩

theorem lift_ok {o : Option (Str × Str)} {x : Str × Str} : lift o = .ok x ↔ o = some x := by
  cases o <;> simp [lift]

theorem lift_panic {o : Option (Str × Str)} : lift o ≠ .panic := by
  cases o <;> simp [lift]

theorem quarterWord_sound {s p r : Str}
    (h : seqP (altNoCase ["1st".toList, "2nd".toList, "3rd".toList, "4th".toList])
      (tagNoCase " quarter".toList) s = some (p, r)) :
    s = p ++ r ∧ Word ["1st quarter".toList, "2nd quarter".toList, "3rd quarter".toList, "4th quarter".toList] p := by
  obtain ⟨a, b, m, h1, h2, e⟩ := seqP_iff.mp h
  obtain ⟨e1, w, hw, hw2⟩ := altNoCase_some h1
  obtain ⟨e2, hb⟩ := tagNoCase_iff.mp h2
  subst e e1 e2
  refine ⟨by simp, w ++ " quarter".toList, ?_, ?_⟩
  · simp only [List.mem_cons, List.not_mem_nil, or_false] at hw
    rcases hw with e | e | e | e <;> (subst e; decide)
  · rw [List.map_append, List.map_append, hw2, hb]

theorem quarterWord_complete {p r : Str}
    (h : Word ["1st quarter".toList, "2nd quarter".toList, "3rd quarter".toList, "4th quarter".toList] p) :
    seqP (altNoCase ["1st".toList, "2nd".toList, "3rd".toList, "4th".toList])
      (tagNoCase " quarter".toList) (p ++ r) = some (p, r) := by
  obtain ⟨w, hw, he⟩ := h
  have key : ∃ v ∈ ["1st".toList, "2nd".toList, "3rd".toList, "4th".toList],
      w = v ++ " quarter".toList := by
    simp only [List.mem_cons, List.not_mem_nil, or_false] at hw
    rcases hw with e | e | e | e
    · exact ⟨"1st".toList, by simp, by rw [e]; decide⟩
    · exact ⟨"2nd".toList, by simp, by rw [e]; decide⟩
    · exact ⟨"3rd".toList, by simp, by rw [e]; decide⟩
    · exact ⟨"4th".toList, by simp, by rw [e]; decide⟩
  obtain ⟨v, hv, e⟩ := key
  rw [e, List.map_append] at he
  obtain ⟨a, b, e2, ha, hb⟩ := List.map_eq_append_iff.mp he
  subst e2
  refine seqP_iff.mpr ⟨a, b, b ++ r, ?_, tagNoCase_iff.mpr ⟨rfl, hb⟩, rfl⟩
  rw [List.append_assoc]
  exact altNoCase_word (by decide) ⟨v, hv, ha⟩

theorem numVal_lt : ∀ (p : Str) (a : Nat), Digits p →
    p.foldl (fun a c => a * 10 + digitVal c) a < (a + 1) * 10 ^ p.length
  | [], a, _ => by simp
  | c :: p, a, h => by
    have hc : c.isDigit = true := h c (by simp)
    have hv : digitVal c ≤ 9 := by
      have h9 : c.toNat ≤ '9'.toNat := by
        have := hc
        simp only [Char.isDigit, Bool.and_eq_true, decide_eq_true_eq] at this
        exact this.2
      unfold digitVal
      have : '9'.toNat = 57 := rfl
      have : '0'.toNat = 48 := rfl
      omega
    have ih := numVal_lt p (a * 10 + digitVal c) (fun x hx => h x (by simp [hx]))
    rw [List.foldl_cons, List.length_cons, Nat.pow_succ]
    calc p.foldl (fun a c => a * 10 + digitVal c) (a * 10 + digitVal c)
        < (a * 10 + digitVal c + 1) * 10 ^ p.length := ih
      _ ≤ ((a + 1) * 10) * 10 ^ p.length := Nat.mul_le_mul_right _ (by omega)
      _ = (a + 1) * (10 ^ p.length * 10) := by rw [Nat.mul_assoc, Nat.mul_comm 10]

theorem numVal_bound {p : Str} {n : Nat} (h : Digits p) (hn : p.length ≤ n) : numVal p < 10 ^ n := by
  have := numVal_lt p 0 h
  have h2 : 10 ^ p.length ≤ 10 ^ n := Nat.pow_le_pow_right (by omega) hn
  unfold numVal
  omega

/-- Whatever a token reads is a prefix of the value, in the language of the token. -/
theorem readTok_sound {zs : Zones} {t : PTok} {s p r : Str} (h : readTok zs t s = .ok (p, r)) :
    s = p ++ r ∧ Lang zs t p := by
  have num : ∀ {k lo hi : Nat}, lift (numField k lo hi s) = .ok (p, r) → s = p ++ r ∧ Number k lo hi p :=
    fun h => ⟨(numField_iff.mp (lift_ok.mp h)).1, (numField_iff.mp (lift_ok.mp h)).2.1⟩
  have dig : lift (many1 Char.isDigit s) = .ok (p, r) → s = p ++ r ∧ p ≠ [] ∧ Digits p := by
    intro h
    obtain ⟨h1, h2, h3, -⟩ := many1_iff.mp (lift_ok.mp h)
    exact ⟨h1, h2, h3⟩
  have word : ∀ {ws : List Str}, lift (altNoCase ws s) = .ok (p, r) → s = p ++ r ∧ Word ws p :=
    fun h => altNoCase_some (lift_ok.mp h)
  cases t with
  | era n => exact word h
  | year n => exact digits_le (lift_ok.mp h)
  | month n =>
    simp only [readTok, month] at h
    simp only [Lang]
    split at h
    · rename_i hn; rw [if_pos hn]; exact num h
    · rename_i hn
      rw [if_neg hn]
      split at h
      · rename_i h3; rw [if_pos h3]; exact word h
      · rename_i h3; rw [if_neg h3]; exact word h
  | monthNum n => exact num h
  | text t =>
    obtain ⟨e1, e2⟩ := lit_iff.mp (lift_ok.mp h)
    exact ⟨by rw [e1]; exact e2, e1⟩
  | weekInYear => exact num h
  | weekInMonth b => cases b <;> exact num h
  | dayInYear => exact num h
  | dayInMonth => exact num h
  | dayName n =>
    simp only [readTok, dayName] at h
    simp only [Lang]
    split at h
    · rename_i hn; rw [if_pos hn]; exact word h
    · rename_i hn; rw [if_neg hn]; exact word h
  | dayOfWeek n =>
    simp only [readTok, dayOfWeek, dayName] at h
    simp only [Lang]
    split at h
    · rename_i hn
      rw [if_neg (by omega)]
      split at h
      · rename_i h3; rw [if_pos (by omega)]; exact word h
      · rename_i h3; rw [if_neg (by omega)]; exact word h
    · rename_i hn; rw [if_pos (by omega)]; exact num h
  | amPm => exact word h
  | hour24 => exact num h
  | hour24z => exact num h
  | hour12 => exact num h
  | hour12z => exact num h
  | minute => exact num h
  | second => exact num h
  | frac n =>
    simp only [readTok, secondFraction] at h
    split at h
    · cases h
    · rename_i d r' hx
      split at h
      · cases h
      · split at h
        · cases h; exact digits_le hx
        · cases h
  | nano n => exact dig h
  | offset n =>
    have h := lift_ok.mp h
    simp only [offset] at h
    simp only [Lang]
    split at h
    · rename_i hn
      rw [if_pos hn]
      split at h
      · rename_i x hx
        cases h
        obtain ⟨a, b, m, h1, h2, e⟩ := seqP_iff.mp hx
        obtain ⟨e1, hg⟩ := gmtUtc_sound h1
        obtain ⟨e2, hm⟩ := hourMin_sound h2
        subst e e1 e2
        exact ⟨by simp, .inr ⟨a, b, rfl, hg, hm⟩⟩
      · obtain ⟨e, hg⟩ := gmtUtc_sound h
        exact ⟨e, .inl hg⟩
    · rename_i hn
      rw [if_neg hn]
      split at h
      · rename_i h3; rw [if_pos h3]; exact signsTwoMin_sound h
      · rename_i h3; rw [if_neg h3]; exact hourMin_sound h
  | offsetX n => exact longOffset_sound (lift_ok.mp h)
  | offsetXZ n =>
    have h := lift_ok.mp h
    simp only [longOffsetZ] at h
    split at h
    · rename_i x hx
      cases h
      obtain ⟨e1, e2⟩ := lit_iff.mp hx
      exact ⟨by rw [e1]; exact e2, .inl e1⟩
    · obtain ⟨e, ho⟩ := longOffset_sound h
      exact ⟨e, .inr ho⟩
  | offsetGmt n =>
    have h := lift_ok.mp h
    simp only [offsetGmt] at h
    simp only [Lang]
    split at h
    · rename_i hn
      rw [if_pos hn]
      obtain ⟨a, b, m, h1, h2, e⟩ := seqP_iff.mp h
      obtain ⟨e1, hg⟩ := gmtUtc_sound h1
      obtain ⟨a2, b2, m2, h3, h4, e2⟩ := seqP_iff.mp h2
      obtain ⟨a3, b3, m3, h5, h6, e3⟩ := seqP_iff.mp h4
      obtain ⟨s1, s2, -⟩ := signs_sound h3
      obtain ⟨t1, t2, -⟩ := numField_iff.mp h5
      simp only [Option.some.injEq] at h6
      unfold optP at h6
      split at h6
      · rename_i x hx
        subst h6
        obtain ⟨a4, b4, m4, h7, h8, e4⟩ := seqP_iff.mp hx
        obtain ⟨u1, u2⟩ := lit_iff.mp h7
        obtain ⟨v1, v2, -⟩ := numField_iff.mp h8
        subst e e1 e2 e3 e4 s1 t1 u1 u2 v1
        exact ⟨by simp, .inl ⟨a, _, rfl, hg, a2, _, rfl, s2, a3, _, rfl, t2, _, _, rfl, rfl, v2⟩⟩
      · cases h6
        subst e e1 e2 e3 s1 t1
        exact ⟨by simp, .inr ⟨a, _, rfl, hg, a2, _, rfl, s2, by simpa using t2⟩⟩
    · rename_i hn
      rw [if_neg hn]
      obtain ⟨a, b, m, h1, h2, e⟩ := seqP_iff.mp h
      obtain ⟨e1, hg⟩ := gmtUtc_sound h1
      obtain ⟨e2, hm⟩ := hourMin_sound h2
      subst e e1 e2
      exact ⟨by simp, a, b, rfl, hg, hm⟩
  | tzName n =>
    have h := lift_ok.mp h
    simp only [tzName] at h
    split at h
    · rename_i hn
      split at h
      · rename_i p' r' hx
        split at h
        · rename_i hz
          cases h
          obtain ⟨h1, h2, h3, h4, -⟩ := takeMN_iff.mp hx
          exact ⟨h1, hn, h2, h3, h4, hz⟩
        · cases h
      · cases h
    · cases h
  | tzId n =>
    have h := lift_ok.mp h
    simp only [tzId] at h
    split at h
    · rename_i p' r' hx
      split at h
      · rename_i hz
        cases h
        obtain ⟨a, b, m, h1, h2, e⟩ := seqP_iff.mp hx
        obtain ⟨a2, b2, m2, h3, h4, e2⟩ := seqP_iff.mp h2
        obtain ⟨s1, s2, s3, -⟩ := many1_iff.mp h1
        obtain ⟨t1, t2⟩ := lit_iff.mp h3
        obtain ⟨u1, u2, u3, -⟩ := many1_iff.mp h4
        subst e e2 s1 t1 t2 u1
        exact ⟨by simp, ⟨a, _, rfl, ⟨s2, s3⟩, _, _, rfl, rfl, u2, u3⟩, hz⟩
      · cases h
    · cases h
  | quarter n =>
    simp only [readTok, quarter] at h
    simp only [Lang]
    split at h
    · rename_i hn; rw [if_pos hn]; exact num h
    · rename_i hn
      rw [if_neg hn]
      split at h
      · rename_i h3
        rw [if_pos h3]
        obtain ⟨e, w, hw, hp⟩ := word h
        refine ⟨e, w.map Char.toLower, ?_, ?_⟩
        · simp only [List.mem_cons, List.not_mem_nil, or_false] at hw
          rcases hw with e | e | e | e <;> (subst e; decide)
        · rw [hp]
          simp only [List.mem_cons, List.not_mem_nil, or_false] at hw
          rcases hw with e | e | e | e <;> (subst e; decide)
      · rename_i h3; rw [if_neg h3]; exact quarterWord_sound (lift_ok.mp h)
  | quarterNum n => exact num h
  | milliOfDay => exact dig h
  | nanoOfDay => exact dig h

/-- A text of the language of a token, ending where it must, is what the token reads. -/
theorem readTok_complete {zs : Zones} {t : PTok} {p r : Str} (h : Lang zs t p) (he : Ends t p r)
    (hf : ∀ n, t = .frac n → n < 20) : readTok zs t (p ++ r) = .ok (p, r) := by
  have num : ∀ {k lo hi : Nat}, Number k lo hi p → (p.length = k ∨ NotHead Char.isDigit r) →
      lift (numField k lo hi (p ++ r)) = .ok (p, r) :=
    fun h hb => lift_ok.mpr (numField_iff.mpr ⟨rfl, h, hb⟩)
  have dig : p ≠ [] ∧ Digits p → NotHead Char.isDigit r → lift (many1 Char.isDigit (p ++ r)) = .ok (p, r) :=
    fun h hb => lift_ok.mpr (many1_iff.mpr ⟨rfl, h.1, h.2, hb⟩)
  have word : ∀ {ws : List Str}, prefixFree ws = true → Word ws p → lift (altNoCase ws (p ++ r)) = .ok (p, r) :=
    fun hp h => lift_ok.mpr (altNoCase_word hp h)
  cases t with
  | era n => exact word (by decide) h
  | year n => exact lift_ok.mpr (takeMN_complete h.1 h.2.1 h.2.2 he)
  | month n =>
    simp only [readTok, month]
    simp only [Lang] at h
    split
    · rename_i hn; rw [if_pos hn] at h; exact num h (he hn)
    · rename_i hn
      rw [if_neg hn] at h
      split
      · rename_i h3; rw [if_pos h3] at h; exact word (by decide) h
      · rename_i h3; rw [if_neg h3] at h; exact word (by decide) h
  | monthNum n => exact num h he
  | text t =>
    simp only [readTok]
    exact lift_ok.mpr (lit_iff.mpr ⟨h, by rw [h]⟩)
  | weekInYear => exact num h he
  | weekInMonth b => cases b <;> exact num h he
  | dayInYear => exact num h he
  | dayInMonth => exact num h he
  | dayName n =>
    simp only [readTok, dayName]
    simp only [Lang] at h
    split
    · rename_i hn; rw [if_pos hn] at h; exact word (by decide) h
    · rename_i hn; rw [if_neg hn] at h; exact word (by decide) h
  | dayOfWeek n =>
    simp only [readTok, dayOfWeek, dayName]
    simp only [Lang] at h
    split
    · rename_i hn
      rw [if_neg (by omega)] at h
      split
      · rename_i h3; rw [if_pos (by omega)] at h; exact word (by decide) h
      · rename_i h3; rw [if_neg (by omega)] at h; exact word (by decide) h
    · rename_i hn
      rw [if_pos (by omega)] at h
      refine num h (.inl ?_)
      have := h.2.2.1
      have := one_le h.1
      omega
  | amPm => exact word (by decide) h
  | hour24 => exact num h he
  | hour24z => exact num h he
  | hour12 => exact num h he
  | hour12z => exact num h he
  | minute => exact num h he
  | second => exact num h he
  | frac n =>
    simp only [readTok, secondFraction]
    rw [takeMN_complete h.1 h.2.1 h.2.2 he]
    have hlt : numVal p < 10 ^ n := numVal_bound h.2.1 h.2.2
    have hn : n < 20 := hf n rfl
    have h19 : 10 ^ n ≤ 10 ^ 19 := Nat.pow_le_pow_right (by omega) (by omega)
    have hu : (10 : Nat) ^ 19 < usizeLim := by decide
    simp only
    rw [if_neg (by omega), if_pos (by omega)]
  | nano n => exact dig h he
  | offset n =>
    simp only [readTok]
    refine lift_ok.mpr ?_
    simp only [offset]
    simp only [Lang] at h
    split
    · rename_i hn
      rw [if_pos hn] at h
      rcases h with h | ⟨a, b, e, hg, hm⟩
      · have : seqP gmtUtc hourMin (p ++ r) = none := by
          unfold seqP
          rw [gmtUtc_complete h]
          simp only
          have : hourMin r = none := by
            unfold hourMin seqP
            cases hs : signs r with
            | none => rfl
            | some x =>
              obtain ⟨sg, r'⟩ := x
              obtain ⟨e1, hs2, -⟩ := signs_sound hs
              exfalso
              cases sg with
              | nil => exact hs2.1 rfl
              | cons c q =>
                have := he c (q ++ r') (by rw [e1]; rfl)
                have hc := hs2.2 c (by simp)
                rcases hc with e | e <;> (subst e; exact absurd this (by decide))
          rw [this]
        rw [this]
        exact gmtUtc_complete h
      · subst e
        rw [seqP_iff.mpr ⟨a, b, b ++ r, by rw [List.append_assoc]; exact gmtUtc_complete hg,
          hourMin_complete hm (notHead_digit he), rfl⟩]
    · rename_i hn
      rw [if_neg hn] at h
      split
      · rename_i h3; rw [if_pos h3] at h; exact signsTwoMin_complete h (notHead_digit he)
      · rename_i h3; rw [if_neg h3] at h; exact hourMin_complete h (notHead_digit he)
  | offsetX n => exact lift_ok.mpr (longOffset_complete h he)
  | offsetXZ n =>
    simp only [readTok]
    refine lift_ok.mpr ?_
    simp only [longOffsetZ]
    by_cases hz : p = ['Z']
    · subst hz; rfl
    · have ho : Offset n p := by
        rcases h with h | h
        · exact absurd h hz
        · exact h
      have he : NotHead offsetChar r := by
        rcases he with he | he
        · exact absurd he hz
        · exact he
      have hr := longOffset_complete ho he
      have : lit ['Z'] (p ++ r) = none := by
        refine lit_none.mpr ?_
        intro q e
        have hp : ∃ c x, p = c :: x ∧ (c = '+' ∨ c = '-') := by
          have key : ∀ (B : Str → Prop), Cat Signs B p → ∃ c x, p = c :: x ∧ (c = '+' ∨ c = '-') := by
            rintro B ⟨a, b, e, hs, -⟩
            cases a with
            | nil => exact absurd rfl hs.1
            | cons c q => exact ⟨c, q ++ b, by rw [e]; rfl, hs.2 c (by simp)⟩
          rcases n with _ | _ | _ | _ | _ | n
          · rcases ho with h | h <;> exact key _ h
          · rcases ho with h | h <;> exact key _ h
          · exact key _ ho
          · exact key _ ho
          · rcases ho with h | h <;> exact key _ h
          · rcases ho with h | h <;> exact key _ h
        obtain ⟨c, x, e1, hc⟩ := hp
        rw [e1] at e
        rcases hc with e2 | e2 <;> (subst e2; simp at e)
      rw [this]
      exact hr
  | offsetGmt n =>
    simp only [readTok]
    refine lift_ok.mpr ?_
    simp only [offsetGmt]
    simp only [Lang] at h
    have hd := notHead_digit he
    split
    · rename_i hn
      rw [if_pos hn] at h
      rcases h with ⟨a, b, e, hg, sg, b2, e2, hs, hh, b3, e3, hh2, c, m, e4, hc, hm⟩ |
        ⟨a, b, e, hg, sg, b2, e2, hs, hh⟩
      · subst e e2 e3 e4
        cases hc
        refine seqP_iff.mpr ⟨a, _, _, by rw [List.append_assoc]; exact gmtUtc_complete hg, ?_, rfl⟩
        refine seqP_iff.mpr ⟨sg, _, _, signs_start hs (head_append (number_head hh2)), ?_, rfl⟩
        refine seqP_iff.mpr ⟨hh, _, [':'] ++ m ++ r, numField_iff.mpr ⟨by simp, hh2, .inr ?_⟩, ?_, rfl⟩
        · intro c q e; cases e; decide
        have : seqP colon minute ([':'] ++ m ++ r) = some ([':'] ++ m, r) :=
          seqP_iff.mpr ⟨[':'], m, m ++ r, lit_iff.mpr ⟨rfl, by simp⟩, numField_iff.mpr ⟨rfl, hm, .inr hd⟩, rfl⟩
        unfold optP
        rw [this]
      · subst e e2
        refine seqP_iff.mpr ⟨a, _, _, by rw [List.append_assoc]; exact gmtUtc_complete hg, ?_, rfl⟩
        refine seqP_iff.mpr ⟨sg, _, _, signs_start hs (number_head hh), ?_, rfl⟩
        refine seqP_iff.mpr ⟨b2, [], r, numField_iff.mpr ⟨by simp, hh, .inr hd⟩, ?_, by simp⟩
        have : seqP colon minute r = none := by
          unfold seqP colon
          rw [notHead_colon he]
        unfold optP
        rw [this]
    · rename_i hn
      rw [if_neg hn] at h
      obtain ⟨a, b, e, hg, hm⟩ := h
      subst e
      exact seqP_iff.mpr ⟨a, b, b ++ r, by rw [List.append_assoc]; exact gmtUtc_complete hg,
          hourMin_complete hm hd, rfl⟩
  | tzName n =>
    simp only [readTok]
    refine lift_ok.mpr ?_
    obtain ⟨h1, h2, h3, h4, h5⟩ := h
    simp only [tzName]
    rw [if_pos h1, takeMN_iff.mpr ⟨rfl, h2, h3, h4, he⟩]
    simp only
    rw [if_pos h5]
  | tzId n =>
    simp only [readTok]
    refine lift_ok.mpr ?_
    obtain ⟨⟨a, b, e, ha, c, d, e2, hc, hd⟩, hz⟩ := h
    subst e e2
    cases hc
    have : seqP (many1 isAlnum) (seqP (lit ['/']) (many1 isAlnum)) (a ++ (['/'] ++ d) ++ r)
        = some (a ++ (['/'] ++ d), r) := by
      refine seqP_iff.mpr ⟨a, _, ['/'] ++ d ++ r, many1_iff.mpr ⟨by simp, ha.1, ha.2, ?_⟩, ?_, rfl⟩
      · intro x q e; cases e; decide
      · exact seqP_iff.mpr ⟨['/'], d, d ++ r, lit_iff.mpr ⟨rfl, by simp⟩, many1_iff.mpr ⟨rfl, hd.1, hd.2, he⟩, rfl⟩
    simp only [tzId]
    rw [this]
    simp only
    rw [if_pos hz]
  | quarter n =>
    simp only [readTok, quarter]
    simp only [Lang] at h
    split
    · rename_i hn; rw [if_pos hn] at h; exact num h (he hn)
    · rename_i hn
      rw [if_neg hn] at h
      split
      · rename_i h3
        rw [if_pos h3] at h
        refine word (by decide) ?_
        obtain ⟨w, hw, hp⟩ := h
        refine ⟨w.map Char.toUpper, ?_, ?_⟩
        · simp only [List.mem_cons, List.not_mem_nil, or_false] at hw
          rcases hw with e | e | e | e <;> (subst e; decide)
        · rw [hp]
          simp only [List.mem_cons, List.not_mem_nil, or_false] at hw
          rcases hw with e | e | e | e <;> (subst e; decide)
      · rename_i h3; rw [if_neg h3] at h; exact lift_ok.mpr (quarterWord_complete h)
  | quarterNum n => exact num h he
  | milliOfDay => exact dig h he
  | nanoOfDay => exact dig h he

/-! ### The whole value -/

theorem readAll_sound {zs : Zones} : ∀ {ts : List PTok} {s : Str} {vs : List (PTok × Str)} {r : Str},
    readAll zs ts s = .ok (vs, r) → ∃ ps, Split zs ts ps ∧ s = ps.flatten ++ r ∧ vs = ts.zip ps
  | [], s, vs, r, h => by cases h; exact ⟨[], .nil, by simp, rfl⟩
  | t :: ts, s, vs, r, h => by
    rw [readAll] at h
    split at h
    · rename_i p m hp
      obtain ⟨⟨vs', r'⟩, h1, h2⟩ := Res.map_eq_ok.mp h
      obtain ⟨ps, h3, h4, h5⟩ := readAll_sound h1
      obtain ⟨e, hl⟩ := readTok_sound hp
      cases h2
      exact ⟨p :: ps, .cons hl h3, by rw [e, h4]; simp, by rw [h5]; rfl⟩
    · cases h
    · cases h

theorem readAll_complete {zs : Zones} : ∀ {ts : List PTok} {ps : List Str}, Split zs ts ps → EndsAll ts ps →
    (∀ n, PTok.frac n ∈ ts → n < 20) → readAll zs ts ps.flatten = .ok (ts.zip ps, [])
  | [], _, .nil, _, _ => rfl
  | t :: ts, _, .cons hl hs, .cons he hes, hf => by
    rename_i p ps
    have h1 := readTok_complete hl he (fun n e => hf n (by rw [e]; simp))
    have h2 := readAll_complete hs hes (fun n hn => hf n (by simp [hn]))
    rw [readAll, List.flatten_cons, h1]
    simp only
    rw [h2]
    rfl

/-! ### The calendar check -/

theorem first_zip {f : PTok → Bool} : ∀ (ts : List PTok) (ps : List Str),
    firstOf f (ts.zip ps) = First f ts ps
  | [], _ => by simp [firstOf, First]
  | _ :: _, [] => by simp [firstOf, First]
  | t :: ts, p :: ps => by
    rw [List.zip_cons_cons, firstOf, First]
    split
    · rfl
    · exact first_zip ts ps

theorem first_lang {zs : Zones} {f : PTok → Bool} : ∀ {ts : List PTok} {ps : List Str} {p : Str},
    Split zs ts ps → First f ts ps = some p → ∃ t, f t = true ∧ Lang zs t p
  | [], _, _, .nil, h => by cases h
  | t :: ts, _, p, .cons hl hs, h => by
    rw [First] at h
    split at h
    · rename_i hf
      cases h
      exact ⟨t, hf, hl⟩
    · exact first_lang hs h

theorem digitsVal_foldl : ∀ (p : Str) (a : Nat), Digits p →
    digitsVal a p = some (p.foldl (fun a c => a * 10 + digitVal c) a)
  | [], _, _ => rfl
  | c :: p, a, h => by
    rw [digitsVal, if_pos (h c (by simp)), digitsVal_foldl p _ (fun x hx => h x (by simp [hx]))]
    rfl

theorem parseDigits_val {p : Str} {lim : Nat} (h1 : p ≠ []) (h2 : Digits p) :
    parseDigits lim p = if numVal p < lim then some (numVal p) else none := by
  unfold parseDigits
  rw [digitsVal_foldl p 0 h2]
  cases p with
  | nil => exact absurd rfl h1
  | cons c p => rfl

theorem nameIdx_iff : ∀ {ns : List Str} {i m : Nat} {s : Str}, nameIdx i ns s = some m →
    ∃ j, m = i + j ∧ ns[j]? = some s
  | [], _, _, _, h => by cases h
  | n :: ns, i, m, s, h => by
    rw [nameIdx] at h
    split at h
    · rename_i e; cases h; exact ⟨0, rfl, by rw [e]; rfl⟩
    · obtain ⟨j, e, hj⟩ := nameIdx_iff h
      exact ⟨j + 1, by omega, by simpa using hj⟩

theorem nameIdx_at : ∀ {ns : List Str} {i j : Nat} {s : Str}, ns.Nodup → ns[j]? = some s →
    nameIdx i ns s = some (i + j)
  | [], _, _, _, _, h => by simp at h
  | n :: ns, i, 0, s, _, h => by
    rw [nameIdx, if_pos (by simpa using h)]; rfl
  | n :: ns, i, j + 1, s, hn, h => by
    have hj : ns[j]? = some s := by simpa using h
    have hm : s ∈ ns := List.mem_of_getElem? hj
    rw [nameIdx, if_neg (by
      intro e
      rw [e] at hn
      exact (List.nodup_cons.mp hn).1 hm), nameIdx_at (List.nodup_cons.mp hn).2 hj]
    congr 1; omega

theorem nameIdx_none : ∀ {ns : List Str} {i : Nat} {s : Str}, s ∉ ns → nameIdx i ns s = none
  | [], _, _, _ => rfl
  | n :: ns, i, s, h => by
    rw [nameIdx, if_neg (by intro e; exact h (by simp [e])), nameIdx_none (by intro hm; exact h (by simp [hm]))]

theorem digit_lower {c : Char} (h : c.isDigit = true) : c.toLower = c := by
  unfold Char.toLower
  have h9 : c.toNat ≤ 57 := by
    simp only [Char.isDigit, Bool.and_eq_true, decide_eq_true_eq] at h
    exact h.2
  rw [dif_neg]
  intro hh
  have : 'A'.val.toNat ≤ c.val.toNat := hh.1
  have e : 'A'.val.toNat = 65 := rfl
  have e2 : c.val.toNat = c.toNat := rfl
  omega

theorem lower_digits {p : Str} (h : Digits p) : p.map Char.toLower = p := by
  induction p with
  | nil => rfl
  | cons c p ih =>
    rw [List.map_cons, digit_lower (h c (by simp)), ih (fun x hx => h x (by simp [hx]))]

theorem monthsLong_eq : monthsLong = longMonths := rfl
theorem monthsShort_eq : monthsShort = shortMonths := rfl

theorem number_not_name {p : Str} (h : Number 2 1 12 p) :
    p.map Char.toLower ∉ longMonths ∧ p.map Char.toLower ∉ shortMonths := by
  rw [lower_digits h.2.1]
  obtain ⟨c, q, e, hc⟩ := number_head h
  have key : ∀ ns : List Str, (∀ w ∈ ns, ∀ x ∈ w.head?, x.isDigit = false) → p ∉ ns := by
    intro ns hns hm
    have := hns p hm c (by rw [e]; rfl)
    rw [hc] at this; cases this
  refine ⟨key _ ?_, key _ ?_⟩
  · decide
  · decide

theorem short_not_long : ∀ (i j : Nat) (s : Str), shortMonths[i]? = some s → longMonths[j]? = some s → i = j := by
  intro i j s h1 h2
  have hi : i < 12 := by
    have := (List.getElem?_eq_some_iff.mp h1).1
    exact this
  have hj : j < 12 := by
    have := (List.getElem?_eq_some_iff.mp h2).1
    exact this
  have key : ∀ i < 12, ∀ j < 12, shortMonths[i]? = longMonths[j]? → i = j := by decide
  exact key i hi j hj (by rw [h1, h2])

theorem monthIs_iff {p : Str} {m : Nat} : MonthIs p m → monthValue p = some m := by
  rintro (⟨hn, e⟩ | ⟨i, e, h | h⟩)
  · unfold monthValue
    rw [monthsLong_eq, monthsShort_eq, nameIdx_none (number_not_name hn).1, nameIdx_none (number_not_name hn).2]
    simp only
    obtain ⟨h1, h2, h3, h4, h5⟩ := hn
    rw [parseDigits_val h1 h2, if_pos (by omega)]
    simp only
    rw [if_pos ⟨h4, h5⟩, e]
  · unfold monthValue
    rw [monthsLong_eq, nameIdx_at (by decide) h]
    simp only
    rw [e, Nat.add_comm]
  · unfold monthValue
    rw [monthsLong_eq, monthsShort_eq]
    cases hl : nameIdx 1 longMonths (p.map Char.toLower) with
    | none =>
      simp only
      rw [nameIdx_at (by decide) h]
      simp only
      rw [e, Nat.add_comm]
    | some k =>
      obtain ⟨j, e1, hj⟩ := nameIdx_iff hl
      have := short_not_long i j _ h hj
      simp only
      rw [e1, e, this, Nat.add_comm]

theorem lower_idem_names : ∀ w ∈ longMonths ++ shortMonths, w.map Char.toLower = w := by decide

/-- Every month text stands for a month. -/
theorem month_lang {zs : Zones} {n : Nat} {p : Str} (h : Lang zs (.month n) p) : ∃ m, MonthIs p m := by
  simp only [Lang] at h
  split at h
  · exact ⟨numVal p, .inl ⟨h, rfl⟩⟩
  · split at h
    · obtain ⟨w, hw, e⟩ := h
      obtain ⟨i, hi⟩ := List.getElem?_of_mem hw
      refine ⟨i + 1, .inr ⟨i, rfl, .inr ?_⟩⟩
      rw [e, lower_idem_names w (by simp [hw])]; exact hi
    · obtain ⟨w, hw, e⟩ := h
      obtain ⟨i, hi⟩ := List.getElem?_of_mem hw
      refine ⟨i + 1, .inr ⟨i, rfl, .inl ?_⟩⟩
      rw [e, lower_idem_names w (by simp [hw])]; exact hi

theorem leap_iff {y : Nat} : isLeap y = true ↔ Leap y := by
  unfold isLeap Leap
  simp only [Bool.and_eq_true, Bool.or_eq_true, beq_iff_eq, bne_iff_ne, ne_eq, Nat.dvd_iff_mod_eq_zero]

theorem inMonth_iff {y m d : Nat} : InMonth y m d ↔ d ≤ totalDays y m := by
  unfold InMonth totalDays
  split
  · by_cases hl : isLeap y = true
    · have := leap_iff.mp hl
      rw [if_pos hl]
      constructor
      · rintro ⟨-, -, h, -⟩; exact h rfl
      · intro h; exact ⟨by omega, by omega, fun _ => h, fun _ hn => absurd this hn⟩
    · have : ¬ Leap y := fun h => hl (leap_iff.mpr h)
      rw [if_neg hl]
      constructor
      · rintro ⟨-, -, -, h⟩; exact h rfl this
      · intro h; exact ⟨by omega, by omega, fun _ => by omega, fun _ _ => h⟩
  · simp; omega
  · simp; omega
  · simp; omega
  · simp; omega
  · rename_i h2 h4 h6 h9 h11
    constructor
    · exact fun h => h.1
    · intro h
      refine ⟨h, ?_, fun e => absurd e h2, fun e => absurd e h2⟩
      rintro (e | e | e | e)
      · exact absurd e h4
      · exact absurd e h6
      · exact absurd e h9
      · exact absurd e h11

theorem dayCheck_iff {d y : Nat} {mo : Str} {m : Nat} (hm : MonthIs mo m) :
    dayCheck d y mo = if d ≤ totalDays y m then .ok () else .err := by
  unfold dayCheck
  rw [monthIs_iff hm]
  simp only
  by_cases h : totalDays y m < d
  · rw [if_pos h, if_neg (by omega)]
  · rw [if_neg h, if_pos (by omega)]

theorem matched_outcome {zs : Zones} {ts : List PTok} {ps : List Str} (hs : Split zs ts ps) :
    (validateMatched (ts.zip ps) = .ok () ↔ DateOk ts ps ∧ ¬ YearTooBig ts ps) ∧
    (validateMatched (ts.zip ps) = .panic ↔ YearTooBig ts ps) := by
  unfold validateMatched DateOk YearTooBig
  simp only [first_zip]
  cases hd : First isDay ts ps with
  | none => simp
  | some d =>
    obtain ⟨t, ht, hl⟩ := first_lang hs hd
    have hnum : Number 2 1 31 d := by
      cases t <;> simp [isDay] at ht
      exact hl
    obtain ⟨d1, d2, d3, d4, d5⟩ := hnum
    simp only
    rw [parseDigits_val d1 d2, if_pos (by omega)]
    simp only
    cases hy : First isYear ts ps with
    | none =>
      have hyo : yearOf ts ps = 2001 := by unfold yearOf; rw [hy]
      rw [hyo]
      cases hm : First isMonth ts ps with
      | none => simp
      | some mo =>
        obtain ⟨t', ht', hl'⟩ := first_lang hs hm
        have : ∃ m, MonthIs mo m := by
          cases t' <;> simp [isMonth] at ht'
          exact month_lang hl'
        obtain ⟨m, hmi⟩ := this
        simp only
        rw [dayCheck_iff hmi]
        constructor
        · by_cases h : numVal d ≤ totalDays 2001 m
          · rw [if_pos h]
            refine ⟨fun _ => ⟨?_, by simp⟩, fun _ => rfl⟩
            intro d' mo' m' e1 e2 hm'
            cases e1; cases e2
            have : m = m' := by
              have := monthIs_iff hmi; rw [monthIs_iff hm'] at this; exact (Option.some.inj this).symm
            rw [← this]
            exact inMonth_iff.mpr h
          · rw [if_neg h]
            simp only [reduceCtorEq, false_iff]
            rintro ⟨hh, -⟩
            exact h (inMonth_iff.mp (hh d mo m rfl rfl hmi))
        · split <;> simp
    | some y =>
      obtain ⟨t', ht', hl'⟩ := first_lang hs hy
      have hyl : y ≠ [] ∧ Digits y := by
        cases t' <;> simp [isYear] at ht'
        exact ⟨hl'.1, hl'.2.1⟩
      have hyo : yearOf ts ps = numVal y := by unfold yearOf; rw [hy]
      rw [hyo]
      simp only
      rw [parseDigits_val hyl.1 hyl.2]
      by_cases hb : numVal y < 32768
      · rw [if_pos hb]
        simp only
        have hnb : ¬ ((∃ d', some d = some d') ∧ ∃ y', some y = some y' ∧ 32767 < numVal y') := by
          rintro ⟨-, y', e, h⟩
          cases e; omega
        cases hm : First isMonth ts ps with
        | none => 
          simp only
          refine ⟨⟨fun _ => ⟨(by intro _ _ _ _ h; cases h), hnb⟩, fun _ => trivial⟩, ⟨(by intro h; cases h), fun h => absurd h hnb⟩⟩
        | some mo =>
          obtain ⟨t', ht', hl'⟩ := first_lang hs hm
          have : ∃ m, MonthIs mo m := by
            cases t' <;> simp [isMonth] at ht'
            exact month_lang hl'
          obtain ⟨m, hmi⟩ := this
          simp only
          rw [dayCheck_iff hmi]
          constructor
          · by_cases h : numVal d ≤ totalDays (numVal y) m
            · rw [if_pos h]
              refine ⟨fun _ => ⟨?_, hnb⟩, fun _ => rfl⟩
              intro d' mo' m' e1 e2 hm'
              cases e1; cases e2
              have : m = m' := by
                have := monthIs_iff hmi; rw [monthIs_iff hm'] at this; exact (Option.some.inj this).symm
              rw [← this]
              exact inMonth_iff.mpr h
            · rw [if_neg h]
              simp only [reduceCtorEq, false_iff]
              rintro ⟨hh, -⟩
              exact h (inMonth_iff.mp (hh d mo m rfl rfl hmi))
          · refine ⟨?_, fun h => absurd h hnb⟩
            split <;> (intro h; cases h)
      · rw [if_neg hb]
        have hyb : (∃ d', some d = some d') ∧ ∃ y', some y = some y' ∧ 32767 < numVal y' :=
          ⟨⟨d, rfl⟩, y, rfl, by omega⟩
        exact ⟨⟨(by intro h; cases h), fun h => absurd hyb h.2⟩, ⟨fun _ => hyb, fun _ => rfl⟩⟩

/-! ### C91: what a pattern accepts -/

/-- What every text of a token begins with. -/
inductive Start where
  | letter | sign | letterOrSign | digit | char (c : Char) | unknown

/-- What every text of a token begins with. -/
def start : PTok → Start
  | .era _ | .amPm | .dayName _ | .tzName _ | .offsetGmt _ => .letter
  | .month n => if n ≤ 2 then .digit else .letter
  | .dayOfWeek n => if n ≤ 2 then .digit else .letter
  | .quarter n => if n = 3 then .letter else .digit
  | .offset n => if n = 4 then .letter else .sign
  | .offsetX _ => .sign
  | .offsetXZ _ => .letterOrSign
  | .text (c :: _) => .char c
  | .text [] => .unknown
  | .tzId _ => .unknown
  | _ => .digit

/-- A text that begins this way begins with no digit. -/
def noDigit : Start → Bool
  | .letter | .sign | .letterOrSign => true
  | .char c => !c.isDigit
  | _ => false

/-- … with no character of an offset. -/
def noOffset : Start → Bool
  | .letter => true
  | .char c => !offsetChar c
  | _ => false

/-- … with no upper case letter. -/
def noUpper : Start → Bool
  | .sign | .digit => true
  | .char c => !isUpper c
  | _ => false

/-- … with no letter or digit. -/
def noAlnum : Start → Bool
  | .sign => true
  | .char c => !isAlnum c
  | _ => false

/-- The texts of a token cannot run into what follows, which begins as given. -/
def apart (t : PTok) (st : Start) : Bool :=
  match t with
  | .offset _ | .offsetX _ | .offsetXZ _ | .offsetGmt _ => noOffset st
  | .tzName _ => noUpper st
  | .tzId _ => noAlnum st
  | .era _ | .amPm | .dayName _ | .text _ | .dayOfWeek _ => true
  | .month n => decide (2 < n) || noDigit st
  | .quarter n => decide (2 < n) || noDigit st
  | _ => noDigit st

/-- No token can run into the next one: `yyyy-MM-dd`, but not `yyyyMMdd`. -/
def separated : List PTok → Bool
  | [] => true
  | [_] => true
  | t :: t' :: ts => apart t (start t') && separated (t' :: ts)

theorem word_letter {ws : List Str} {p : Str} (h : Word ws p)
    (hw : ∀ w ∈ ws, ∃ c q, w = c :: q ∧ c.toLower.isAlpha = true) : ∃ c q, p = c :: q ∧ c.isAlpha = true := by
  obtain ⟨w, hm, e⟩ := h
  obtain ⟨c, q, e2, hc⟩ := hw w hm
  rw [e2] at e
  cases p with
  | nil => simp at e
  | cons x p =>
    simp at e
    refine ⟨x, p, rfl, ?_⟩
    have hx : x.toLower.isAlpha = true := by rw [e.1]; exact hc
    unfold Char.toLower at hx
    split at hx
    · rename_i h
      simp [Char.isAlpha, Char.isUpper]
      exact .inl h
    · exact hx

theorem word_digit {ws : List Str} {p : Str} (h : Word ws p)
    (hw : ∀ w ∈ ws, ∃ c q, w = c :: q ∧ c.toLower.isDigit = true) : ∃ c q, p = c :: q ∧ c.isDigit = true := by
  obtain ⟨w, hm, e⟩ := h
  obtain ⟨c, q, e2, hc⟩ := hw w hm
  rw [e2] at e
  cases p with
  | nil => simp at e
  | cons x p =>
    simp at e
    refine ⟨x, p, rfl, ?_⟩
    have hx : x.toLower.isDigit = true := by rw [e.1]; exact hc
    unfold Char.toLower at hx
    split at hx
    · rename_i h
      exfalso
      have h1 : 65 ≤ x.val.toNat := h.1
      have h2 : x.val.toNat ≤ 90 := h.2
      simp only [Char.isDigit, Bool.and_eq_true, decide_eq_true_eq] at hx
      have h3 : (x.val + ('a'.val - 'A'.val)).toNat ≤ 57 := hx.2
      have h4 : (x.val + ('a'.val - 'A'.val)).toNat = x.val.toNat + 32 := by
        rw [UInt32.toNat_add]
        have : ('a'.val - 'A'.val).toNat = 32 := rfl
        rw [this]
        omega
      omega
    · exact hx

/-- The class of first characters. -/
def Begins : Start → Char → Prop
  | .letter, c => c.isAlpha = true
  | .sign, c => c = '+' ∨ c = '-'
  | .letterOrSign, c => c.isAlpha = true ∨ c = '+' ∨ c = '-'
  | .digit, c => c.isDigit = true
  | .char d, c => c = d
  | .unknown, _ => True

theorem digits_head {p : Str} (h1 : p ≠ []) (h2 : Digits p) : ∃ c q, p = c :: q ∧ c.isDigit = true := by
  cases p with
  | nil => exact absurd rfl h1
  | cons c q => exact ⟨c, q, rfl, h2 c (by simp)⟩

theorem cat_signs {B : Str → Prop} {p : Str} (h : Cat Signs B p) : ∃ c q, p = c :: q ∧ (c = '+' ∨ c = '-') := by
  obtain ⟨a, b, e, hs, -⟩ := h
  cases a with
  | nil => exact absurd rfl hs.1
  | cons c q => exact ⟨c, q ++ b, by rw [e]; rfl, hs.2 c (by simp)⟩

theorem gmt_letter {p : Str} (h : Gmt p) : ∃ c q, p = c :: q ∧ c.isAlpha = true := by
  rcases h with e | e <;> (subst e; exact ⟨_, _, rfl, by decide⟩)

theorem cat_gmt {B : Str → Prop} {p : Str} (h : Cat Gmt B p) : ∃ c q, p = c :: q ∧ c.isAlpha = true := by
  obtain ⟨a, b, e, hs, -⟩ := h
  obtain ⟨c, q, e2, hc⟩ := gmt_letter hs
  exact ⟨c, q ++ b, by rw [e, e2]; rfl, hc⟩

theorem offset_sign {n : Nat} {p : Str} (ho : Offset n p) : ∃ c q, p = c :: q ∧ (c = '+' ∨ c = '-') := by
  rcases n with _ | _ | _ | _ | _ | n
  · rcases ho with h | h <;> exact cat_signs h
  · rcases ho with h | h <;> exact cat_signs h
  · exact cat_signs ho
  · exact cat_signs ho
  · rcases ho with h | h <;> exact cat_signs h
  · rcases ho with h | h <;> exact cat_signs h

/-- Every word begins with a letter. -/
def lettered (ws : List Str) : Bool := ws.all fun w => match w with | c :: _ => c.toLower.isAlpha | [] => false
/-- Every word begins with a digit. -/
def digited (ws : List Str) : Bool := ws.all fun w => match w with | c :: _ => c.toLower.isDigit | [] => false

theorem lettered_head {ws : List Str} (h : lettered ws = true) :
    ∀ w ∈ ws, ∃ c q, w = c :: q ∧ c.toLower.isAlpha = true := by
  intro w hw
  have := List.all_eq_true.mp h w hw
  cases w with
  | nil => cases this
  | cons c q => exact ⟨c, q, rfl, this⟩

theorem digited_head {ws : List Str} (h : digited ws = true) :
    ∀ w ∈ ws, ∃ c q, w = c :: q ∧ c.toLower.isDigit = true := by
  intro w hw
  have := List.all_eq_true.mp h w hw
  cases w with
  | nil => cases this
  | cons c q => exact ⟨c, q, rfl, this⟩

theorem start_sound {zs : Zones} {t : PTok} {p : Str} (h : Lang zs t p) :
    (∃ c q, p = c :: q ∧ Begins (start t) c) ∨ t = .text [] := by
  have word : ∀ {ws : List Str}, lettered ws = true → Word ws p → ∃ c q, p = c :: q ∧ c.isAlpha = true :=
    fun hl hw => word_letter hw (lettered_head hl)
  cases t with
  | era n => exact .inl (word (by decide) h)
  | year n => exact .inl (digits_head h.1 h.2.1)
  | month n =>
    left
    simp only [Lang] at h
    simp only [start]
    split
    · rename_i hn; rw [if_pos hn] at h; exact number_head h
    · rename_i hn
      rw [if_neg hn] at h
      split at h
      · exact word (by decide) h
      · exact word (by decide) h
  | monthNum n => exact .inl (number_head h)
  | text t =>
    cases t with
    | nil => exact .inr rfl
    | cons c t => exact .inl ⟨c, t, h, rfl⟩
  | weekInYear => exact .inl (number_head h)
  | weekInMonth b =>
    simp only [Lang] at h
    split at h <;> exact .inl (number_head h)
  | dayInYear => exact .inl (number_head h)
  | dayInMonth => exact .inl (number_head h)
  | dayName n =>
    left
    simp only [Lang] at h
    split at h
    · exact word (by decide) h
    · exact word (by decide) h
  | dayOfWeek n =>
    left
    simp only [Lang] at h
    simp only [start]
    split
    · rename_i hn; rw [if_pos hn] at h; exact number_head h
    · rename_i hn
      rw [if_neg hn] at h
      split at h
      · exact word (by decide) h
      · exact word (by decide) h
  | amPm => exact .inl (word (by decide) h)
  | hour24 => exact .inl (number_head h)
  | hour24z => exact .inl (number_head h)
  | hour12 => exact .inl (number_head h)
  | hour12z => exact .inl (number_head h)
  | minute => exact .inl (number_head h)
  | second => exact .inl (number_head h)
  | frac n => exact .inl (digits_head h.1 h.2.1)
  | nano n => exact .inl (digits_head h.1 h.2)
  | offset n =>
    left
    simp only [Lang] at h
    simp only [start]
    split
    · rename_i hn
      rw [if_pos hn] at h
      rcases h with h | h
      · exact gmt_letter h
      · exact cat_gmt h
    · rename_i hn
      rw [if_neg hn] at h
      split at h <;> exact cat_signs h
  | offsetX n => exact .inl (offset_sign h)
  | offsetXZ n =>
    left
    rcases h with h | h
    · exact ⟨'Z', [], h, .inl (by decide)⟩
    · obtain ⟨c, q, e, hc⟩ := offset_sign h
      exact ⟨c, q, e, .inr hc⟩
  | offsetGmt n =>
    left
    simp only [Lang] at h
    split at h
    · rcases h with h | h <;> exact cat_gmt h
    · exact cat_gmt h
  | tzName n =>
    left
    obtain ⟨-, h3, -, hu, -⟩ := h
    cases p with
    | nil => simp at h3
    | cons c q =>
      refine ⟨c, q, rfl, ?_⟩
      have := hu c (by simp)
      simp only [isUpper, decide_eq_true_eq] at this
      simp [Begins, Char.isAlpha, Char.isUpper]
      exact .inl this
  | tzId n =>
    left
    obtain ⟨⟨a, b, e, ha, -⟩, -⟩ := h
    cases a with
    | nil => exact absurd rfl ha.1
    | cons c q => exact ⟨c, q ++ b, by rw [e]; rfl, trivial⟩
  | quarter n =>
    left
    simp only [Lang] at h
    simp only [start]
    by_cases h3 : n = 3
    · rw [if_pos h3]
      rw [if_neg (by omega), if_pos h3] at h
      exact word (by decide) h
    · rw [if_neg h3]
      rw [if_neg h3] at h
      split at h
      · exact number_head h
      · exact word_digit h (digited_head (by decide))
  | quarterNum n => exact .inl (number_head h)
  | milliOfDay => exact .inl (digits_head h.1 h.2)
  | nanoOfDay => exact .inl (digits_head h.1 h.2)

theorem alpha_not_digit {c : Char} (h : c.isAlpha = true) : c.isDigit = false := by
  cases hd : c.isDigit with
  | false => rfl
  | true =>
    exfalso
    simp only [Char.isDigit, Bool.and_eq_true, decide_eq_true_eq] at hd
    have h57 : c.val.toNat ≤ 57 := hd.2
    simp only [Char.isAlpha, Char.isUpper, Char.isLower, Bool.or_eq_true, Bool.and_eq_true, decide_eq_true_eq] at h
    rcases h with h | h
    · have : 65 ≤ c.val.toNat := h.1
      omega
    · have : 97 ≤ c.val.toNat := h.1
      omega

theorem alpha_not_offset {c : Char} (h : c.isAlpha = true) : offsetChar c = false := by
  have hd := alpha_not_digit h
  cases ho : offsetChar c with
  | false => rfl
  | true =>
    exfalso
    simp only [offsetChar, isSign, hd, Bool.false_or, Bool.or_eq_true, beq_iff_eq] at ho
    rcases ho with e | e | e <;> (subst e; exact absurd h (by decide))

theorem digit_not_upper {c : Char} (h : c.isDigit = true) : isUpper c = false := by
  cases hu : isUpper c with
  | false => rfl
  | true =>
    simp only [Char.isDigit, Bool.and_eq_true, decide_eq_true_eq] at h
    simp only [isUpper, decide_eq_true_eq] at hu
    have h1 : c.toNat ≤ 57 := h.2
    have h2 : 65 ≤ c.toNat := hu.1
    omega

theorem noDigit_sound {st : Start} {c : Char} (h : noDigit st = true) (hb : Begins st c) : c.isDigit = false := by
  cases st <;> simp [noDigit] at h
  · exact alpha_not_digit hb
  · rcases hb with e | e <;> (subst e; decide)
  · rcases hb with e | e | e
    · exact alpha_not_digit e
    · subst e; decide
    · subst e; decide
  · cases hb; exact h

theorem noOffset_sound {st : Start} {c : Char} (h : noOffset st = true) (hb : Begins st c) : offsetChar c = false := by
  cases st <;> simp [noOffset] at h
  · exact alpha_not_offset hb
  · cases hb; exact h

theorem noUpper_sound {st : Start} {c : Char} (h : noUpper st = true) (hb : Begins st c) : isUpper c = false := by
  cases st <;> simp [noUpper] at h
  · rcases hb with e | e <;> (subst e; decide)
  · exact digit_not_upper hb
  · cases hb; exact h

theorem noAlnum_sound {st : Start} {c : Char} (h : noAlnum st = true) (hb : Begins st c) : isAlnum c = false := by
  cases st <;> simp [noAlnum] at h
  · rcases hb with e | e <;> (subst e; decide)
  · cases hb; exact h

/-- How each token must end, as one condition on the characters that follow. -/
theorem apart_ends {t : PTok} {p r : Str} {st : Start} (h : apart t st = true)
    (hr : ∃ c q, r = c :: q ∧ Begins st c) : Ends t p r := by
  obtain ⟨c, q, e, hb⟩ := hr
  have nd : noDigit st = true → NotHead Char.isDigit r := by
    intro hn c' q' e'
    rw [e] at e'; cases e'
    exact noDigit_sound hn hb
  have no : noOffset st = true → NotHead offsetChar r := by
    intro hn c' q' e'
    rw [e] at e'; cases e'
    exact noOffset_sound hn hb
  cases t with
  | month n =>
    intro hn
    simp only [apart, Bool.or_eq_true, decide_eq_true_eq] at h
    rcases h with h | h
    · omega
    · exact .inr (nd h)
  | quarter n =>
    intro hn
    simp only [apart, Bool.or_eq_true, decide_eq_true_eq] at h
    rcases h with h | h
    · omega
    · exact .inr (nd h)
  | tzName n =>
    right
    intro c' q' e'
    rw [e] at e'; cases e'
    exact noUpper_sound h hb
  | tzId n =>
    intro c' q' e'
    rw [e] at e'; cases e'
    exact noAlnum_sound h hb
  | offset n => exact no h
  | offsetX n => exact no h
  | offsetXZ n => exact .inr (no h)
  | offsetGmt n => exact no h
  | nano n => exact nd h
  | milliOfDay => exact nd h
  | nanoOfDay => exact nd h
  | era n => trivial
  | amPm => trivial
  | dayName n => trivial
  | dayOfWeek n => trivial
  | text t => trivial
  | year n => exact .inr (nd h)
  | frac n => exact .inr (nd h)
  | dayInYear => exact .inr (nd h)
  | monthNum n => exact .inr (nd h)
  | weekInYear => exact .inr (nd h)
  | weekInMonth b => exact .inr (nd h)
  | dayInMonth => exact .inr (nd h)
  | hour24 => exact .inr (nd h)
  | hour24z => exact .inr (nd h)
  | hour12 => exact .inr (nd h)
  | hour12z => exact .inr (nd h)
  | minute => exact .inr (nd h)
  | second => exact .inr (nd h)
  | quarterNum n => exact .inr (nd h)

theorem ends_nil {t : PTok} {p : Str} : Ends t p [] := by
  have nh : ∀ f, NotHead f [] := by intro f c r e; cases e
  cases t <;> first | trivial | exact nh _ | exact .inr (nh _) | exact fun _ => .inr (nh _)

theorem apart_char {t : PTok} (h : apart t .unknown = true) (p r : Str) : Ends t p r := by
  cases t <;> simp [apart, noDigit, noOffset, noUpper, noAlnum] at h <;> first | trivial | (intro hn; omega)

/-- In a separated pattern every split ends where it must. -/
theorem separated_ends {zs : Zones} : ∀ {ts : List PTok} {ps : List Str}, separated ts = true →
    Split zs ts ps → EndsAll ts ps
  | [], _, _, .nil => .nil
  | [t], _, _, .cons _ .nil => .cons (by exact ends_nil) .nil
  | t :: t' :: ts, _, h, .cons hl (.cons hl' hs) => by
    rename_i p p' ps
    rw [separated, Bool.and_eq_true] at h
    refine .cons ?_ (separated_ends h.2 (.cons hl' hs))
    rcases start_sound hl' with ⟨c, q, e, hb⟩ | e
    · refine apart_ends h.1 ⟨c, q ++ ps.flatten, ?_, hb⟩
      rw [List.flatten_cons, e]; rfl
    · subst e
      exact apart_char h.1 _ _

/-- **C91** (soundness).  Whatever the pattern: an accepted value splits into one text per pattern token, each
in the language of its token, and its day exists in its month. -/
theorem C91_sound {zs : Zones} {v fmt : Str} (h : validate zs v fmt = .ok ()) :
    ∃ ts ps, parsePattern fmt = .ok ts ∧ Split zs ts ps ∧ v = ps.flatten ∧ DateOk ts ps := by
  unfold validate at h
  split at h
  · rename_i ts hp
    unfold validateTokens at h
    split at h
    · cases h
    · cases h
    · rename_i vs rest hr
      split at h
      · rename_i hrest
        obtain ⟨ps, hs, e, e2⟩ := readAll_sound hr
        have : rest = [] := by simpa using hrest
        subst this e2
        exact ⟨ts, ps, hp, hs, by simpa using e, ((matched_outcome hs).1.mp h).1⟩
      · cases h
  · cases h
  · cases h

/-- **C91** (completeness).  A value made of texts of the pattern's tokens, each ending where the next begins,
whose day exists in its month, is accepted. -/
theorem C91_complete {zs : Zones} {fmt : Str} {ts : List PTok} {ps : List Str}
    (hp : parsePattern fmt = .ok ts) (hs : Split zs ts ps) (he : EndsAll ts ps)
    (hf : ∀ n, PTok.frac n ∈ ts → n < 20) (hd : DateOk ts ps) (hy : ¬ YearTooBig ts ps) :
    validate zs ps.flatten fmt = .ok () := by
  unfold validate
  rw [hp]
  simp only
  unfold validateTokens
  rw [readAll_complete hs he hf]
  simp only
  exact (matched_outcome hs).1.mpr ⟨hd, hy⟩

/-- **C91**.  With a pattern in which no token can run into the next, and no more than 19 fraction letters: a value
is accepted exactly when it splits into one text per token whose day exists in its month. -/
theorem C91_separated {zs : Zones} {fmt : Str} {ts : List PTok} {v : Str}
    (hp : parsePattern fmt = .ok ts) (hsep : separated ts = true) (hf : ∀ n, PTok.frac n ∈ ts → n < 20) :
    validate zs v fmt = .ok () ↔
      ∃ ps, Split zs ts ps ∧ v = ps.flatten ∧ DateOk ts ps ∧ ¬ YearTooBig ts ps := by
  constructor
  · intro h
    obtain ⟨ts', ps, h1, hs, e, hd⟩ := C91_sound h
    rw [hp] at h1; cases h1
    refine ⟨ps, hs, e, hd, ?_⟩
    unfold validate at h
    rw [hp] at h
    simp only at h
    unfold validateTokens at h
    rw [e, readAll_complete hs (separated_ends hsep hs) hf] at h
    exact ((matched_outcome hs).1.mp h).2
  · rintro ⟨ps, hs, e, hd, hy⟩
    rw [e]
    exact C91_complete hp hs (separated_ends hsep hs) hf hd hy

/-! ### C94: when validation panics -/

/-- No run of fraction letters of 20 or more. -/
def FracOk (ts : List PTok) : Prop := ∀ n, PTok.frac n ∈ ts → n < 20

theorem readTok_panic {zs : Zones} {t : PTok} {s : Str} (h : readTok zs t s = .panic) : ∃ n, t = .frac n ∧ 20 ≤ n := by
  cases t with
  | frac n =>
    refine ⟨n, rfl, ?_⟩
    simp only [readTok, secondFraction] at h
    split at h
    · cases h
    · split at h
      · rename_i hb
        apply Classical.byContradiction
        intro hn
        have h19 : 10 ^ n ≤ 10 ^ 19 := Nat.pow_le_pow_right (by omega) (by omega)
        have hu : (10 : Nat) ^ 19 < usizeLim := by decide
        omega
      · split at h <;> cases h
  | _ => exact absurd h lift_panic

theorem readAll_panic {zs : Zones} : ∀ {ts : List PTok} {s : Str}, FracOk ts → readAll zs ts s ≠ .panic
  | [], s, _, h => by cases h
  | t :: ts, s, hf, h => by
    rw [readAll] at h
    split at h
    · rw [Res.map_eq_panic] at h
      exact readAll_panic (fun n hn => hf n (by simp [hn])) h
    · cases h
    · rename_i hp
      obtain ⟨n, e, hn⟩ := readTok_panic hp
      have := hf n (by rw [e]; simp)
      omega

/-- **C94**.  A pattern with no run of 20 or more fraction letters makes validation panic exactly when the value
matches token by token, has a day, and its year is above 32767. -/
theorem C94_panic_iff {zs : Zones} {fmt : Str} {ts : List PTok} {v : Str} (hp : parsePattern fmt = .ok ts)
    (hf : FracOk ts) :
    validate zs v fmt = .panic ↔
      ∃ ps, readAll zs ts v = .ok (ts.zip ps, []) ∧ Split zs ts ps ∧ v = ps.flatten ∧ YearTooBig ts ps := by
  unfold validate
  rw [hp]
  simp only
  unfold validateTokens
  constructor
  · intro h
    split at h
    · cases h
    · rename_i hr; exact absurd hr (readAll_panic hf)
    · rename_i vs rest hr
      split at h
      · rename_i hrest
        obtain ⟨ps, hs, e, e2⟩ := readAll_sound hr
        have : rest = [] := by simpa using hrest
        subst this e2
        exact ⟨ps, hr, hs, by simpa using e, (matched_outcome hs).2.mp h⟩
      · cases h
  · rintro ⟨ps, hr, hs, e, hy⟩
    rw [hr]
    exact (matched_outcome hs).2.mpr hy

/-- A pattern is never a reason to panic. -/
theorem parseLoop_panic : ∀ (f : Nat) (s : Str), parseLoop f s ≠ .panic
  | 0, [], h => by cases h
  | 0, _ :: _, h => by cases h
  | _ + 1, [], h => by cases h
  | f + 1, c :: s, h => by
    rw [parseLoop] at h
    split at h
    · cases h
    · cases h
    · rename_i hn
      rw [nextTok] at hn
      split at hn
      · rename_i r hl
        have key : ∀ (n : Nat) (r : Res PTok), letterTok c n = some r → r ≠ .panic := by
          intro n r hl e
          subst e
          unfold letterTok at hl
          split at hl <;> first | (cases hl; done) | (unfold upTo at hl; split at hl <;> cases hl)
        have := Option.some.inj hn
        rw [Res.map_eq_panic] at this
        exact key _ _ hl this
      · split at hn
        · cases hn
        · split at hn
          · cases hn
          · split at hn <;> cases hn
    · rw [Res.map_eq_panic] at h
      exact parseLoop_panic f _ h

theorem parse_panic (s : Str) : parsePattern s ≠ .panic := by
  unfold parsePattern
  split
  · intro h; cases h
  · exact parseLoop_panic _ _

/-- **C94**.  With a pattern in which no token can run into the next, validation panics exactly for the values that
split into one text per token, have a day, and a year above 32767. -/
theorem C94_panic_separated {zs : Zones} {fmt : Str} {ts : List PTok} {v : Str} (hp : parsePattern fmt = .ok ts)
    (hf : FracOk ts) (hsep : separated ts = true) :
    validate zs v fmt = .panic ↔ ∃ ps, Split zs ts ps ∧ v = ps.flatten ∧ YearTooBig ts ps := by
  rw [C94_panic_iff hp hf]
  constructor
  · rintro ⟨ps, -, hs, e, hy⟩; exact ⟨ps, hs, e, hy⟩
  · rintro ⟨ps, hs, e, hy⟩
    refine ⟨ps, ?_, hs, e, hy⟩
    rw [e]
    exact readAll_complete hs (separated_ends hsep hs) hf

/-- **C94**.  With at most four year letters and fewer than 20 fraction letters in a row, validating any value
returns a result. -/
theorem C94_no_panic {zs : Zones} {v fmt : Str}
    (h : ∀ ts, parsePattern fmt = .ok ts → FracOk ts ∧ ∀ n, PTok.year n ∈ ts → n ≤ 4) :
    validate zs v fmt ≠ .panic := by
  intro hv
  cases hp : parsePattern fmt with
  | err => unfold validate at hv; rw [hp] at hv; cases hv
  | panic => exact parse_panic fmt hp
  | ok ts =>
    obtain ⟨hf, hy⟩ := h ts hp
    obtain ⟨ps, -, hs, -, -, y, e, hb⟩ := (C94_panic_iff hp hf).mp hv
    have key : ∀ {ts : List PTok} {ps : List Str}, Split zs ts ps → (∀ n, PTok.year n ∈ ts → n ≤ 4) →
        First isYear ts ps = some y → numVal y < 10000 := by
      intro ts ps hs
      induction hs with
      | nil => intro _ h; cases h
      | cons hl hs ih =>
        rename_i t p ts ps
        intro hy h
        rw [First] at h
        split at h
        · rename_i ht
          cases h
          cases t <;> simp [isYear] at ht
          rename_i n
          have hn := hy n (by simp)
          exact numVal_bound (n := 4) hl.2.1 (Nat.le_trans hl.2.2 hn)
        · exact ih (fun n hn => hy n (by simp [hn])) h
    have := key hs hy e
    omega

/-- **C94** (example).  The pattern `yyyyy-MM-dd` panics on `40000-02-28`; so does a run of 20 `S` on any
digit. -/
theorem C94_panics {zs : Zones} :
    validate zs "40000-02-28".toList "yyyyy-MM-dd".toList = .panic ∧
    validate zs "5".toList "SSSSSSSSSSSSSSSSSSSS".toList = .panic := by
  constructor <;> rfl

/-! ### The default formats -/

theorem split_cons {zs : Zones} {t : PTok} {ts : List PTok} {ps : List Str} (h : Split zs (t :: ts) ps) :
    ∃ p qs, ps = p :: qs ∧ Lang zs t p ∧ Split zs ts qs := by
  cases h with
  | cons hl hs => exact ⟨_, _, rfl, hl, hs⟩

theorem split_nil {zs : Zones} {ps : List Str} (h : Split zs [] ps) : ps = [] := by cases h; rfl

theorem year4 {y : Str} : (y ≠ [] ∧ Digits y ∧ y.length ≤ 4) ↔ Number 4 0 9999 y := by
  constructor
  · rintro ⟨h1, h2, h3⟩
    have := numVal_bound h2 h3
    exact ⟨h1, h2, h3, by omega, by omega⟩
  · rintro ⟨h1, h2, h3, -, -⟩; exact ⟨h1, h2, h3⟩

theorem dateOk_ymd {y mo da : Str} (hm : Number 2 1 12 mo) {ts : List PTok} {ps : List Str}
    (h1 : First isDay ts ps = some da) (h2 : First isMonth ts ps = some mo) (h3 : First isYear ts ps = some y) :
    DateOk ts ps ↔ InMonth (numVal y) (numVal mo) (numVal da) := by
  have hy : yearOf ts ps = numVal y := by unfold yearOf; rw [h3]
  have hmi : MonthIs mo (numVal mo) := .inl ⟨hm, rfl⟩
  unfold DateOk
  rw [hy]
  constructor
  · intro h; exact h da mo _ h1 h2 hmi
  · intro h d' mo' m' e1 e2 hm'
    rw [h1] at e1; cases e1
    rw [h2] at e2; cases e2
    have := monthIs_iff hmi
    rw [monthIs_iff hm'] at this
    cases this
    exact h

theorem yearSmall {ts : List PTok} {ps : List Str} {y : Str} (h3 : First isYear ts ps = some y)
    (hy : numVal y ≤ 9999) : ¬ YearTooBig ts ps := by
  rintro ⟨-, y', e, h⟩
  rw [h3] at e; cases e; omega

/-- **C91**: the default date format `yyyy-MM-dd` accepts exactly the dates: a year of one to four digits, a month
and a day of one or two digits, the day existing in the month (Gregorian leap years). -/
theorem C91_iso_date {zs : Zones} {v : Str} :
    validate zs v "yyyy-MM-dd".toList = .ok () ↔
      ∃ y m d, v = y ++ '-' :: m ++ '-' :: d ∧ Number 4 0 9999 y ∧ Number 2 1 12 m ∧ Number 2 1 31 d ∧
        InMonth (numVal y) (numVal m) (numVal d) := by
  have hp : parsePattern "yyyy-MM-dd".toList
      = .ok [.year 4, .text ['-'], .month 2, .text ['-'], .dayInMonth] := by decide
  rw [C91_separated hp (by decide) (by intro n hn; simp at hn)]
  constructor
  · rintro ⟨ps, hs, e, hd, hy⟩
    obtain ⟨y, q1, rfl, hl1, hs1⟩ := split_cons hs
    obtain ⟨t1, q2, rfl, hl2, hs2⟩ := split_cons hs1
    obtain ⟨m, q3, rfl, hl3, hs3⟩ := split_cons hs2
    obtain ⟨t2, q4, rfl, hl4, hs4⟩ := split_cons hs3
    obtain ⟨d, q5, rfl, hl5, hs5⟩ := split_cons hs4
    cases split_nil hs5
    cases hl2; cases hl4
    have hm : Number 2 1 12 m := hl3
    exact ⟨y, m, d, by rw [e]; simp, year4.mp hl1, hm, hl5,
      (dateOk_ymd hm (y := y) rfl rfl rfl).mp hd⟩
  · rintro ⟨y, m, d, e, hy, hm, hd, hin⟩
    refine ⟨[y, ['-'], m, ['-'], d], ?_, by rw [e]; simp, ?_, ?_⟩
    · exact .cons (year4.mpr hy) (.cons rfl (.cons hm (.cons rfl (.cons hd .nil))))
    · exact (dateOk_ymd hm (y := y) rfl rfl rfl).mpr hin
    · exact yearSmall (y := y) rfl hy.2.2.2.2

/-- **C91**: the default time format `HH:mm:ss` accepts exactly hours 0–23, minutes 0–59 and seconds 0–60, each of
one or two digits. -/
theorem C91_iso_time {zs : Zones} {v : Str} :
    validate zs v "HH:mm:ss".toList = .ok () ↔
      ∃ h m s, v = h ++ ':' :: m ++ ':' :: s ∧ Number 2 0 23 h ∧ Number 2 0 59 m ∧ Number 2 0 60 s := by
  have hp : parsePattern "HH:mm:ss".toList
      = .ok [.hour24z, .text [':'], .minute, .text [':'], .second] := by decide
  rw [C91_separated hp (by decide) (by intro n hn; simp at hn)]
  constructor
  · rintro ⟨ps, hs, e, -, -⟩
    obtain ⟨y, q1, rfl, hl1, hs1⟩ := split_cons hs
    obtain ⟨t1, q2, rfl, hl2, hs2⟩ := split_cons hs1
    obtain ⟨m, q3, rfl, hl3, hs3⟩ := split_cons hs2
    obtain ⟨t2, q4, rfl, hl4, hs4⟩ := split_cons hs3
    obtain ⟨d, q5, rfl, hl5, hs5⟩ := split_cons hs4
    cases split_nil hs5
    cases hl2; cases hl4
    exact ⟨y, m, d, by rw [e]; simp, hl1, hl3, hl5⟩
  · rintro ⟨h, m, s, e, h1, h2, h3⟩
    refine ⟨[h, [':'], m, [':'], s], ?_, by rw [e]; simp, ?_, ?_⟩
    · exact .cons h1 (.cons rfl (.cons h2 (.cons rfl (.cons h3 .nil))))
    · intro d mo m' e1; cases e1
    · rintro ⟨⟨d, e⟩, -⟩; cases e

/-- **C91**: the default timestamp format `yyyy-MM-dd'T'HH:mm:ssXXX` accepts exactly a date, `T`, a time, and `Z` or
an offset of signs, an hour **0–11**, a colon and minutes. -/
theorem C91_iso_timestamp {zs : Zones} {v : Str} :
    validate zs v "yyyy-MM-dd'T'HH:mm:ssXXX".toList = .ok () ↔
      ∃ y m d h mi s z, v = y ++ '-' :: m ++ '-' :: d ++ 'T' :: h ++ ':' :: mi ++ ':' :: s ++ z ∧
        Number 4 0 9999 y ∧ Number 2 1 12 m ∧ Number 2 1 31 d ∧ InMonth (numVal y) (numVal m) (numVal d) ∧
        Number 2 0 23 h ∧ Number 2 0 59 mi ∧ Number 2 0 60 s ∧ (z = ['Z'] ∨ HourMin z) := by
  have hp : parsePattern "yyyy-MM-dd'T'HH:mm:ssXXX".toList
      = .ok [.year 4, .text ['-'], .month 2, .text ['-'], .dayInMonth, .text ['T'], .hour24z, .text [':'],
          .minute, .text [':'], .second, .offsetXZ 3] := by decide
  rw [C91_separated hp (by decide) (by intro n hn; simp at hn)]
  constructor
  · rintro ⟨ps, hs, e, hd, -⟩
    obtain ⟨y, q1, rfl, hl1, hs1⟩ := split_cons hs
    obtain ⟨t1, q2, rfl, hl2, hs2⟩ := split_cons hs1
    obtain ⟨m, q3, rfl, hl3, hs3⟩ := split_cons hs2
    obtain ⟨t2, q4, rfl, hl4, hs4⟩ := split_cons hs3
    obtain ⟨d, q5, rfl, hl5, hs5⟩ := split_cons hs4
    obtain ⟨t3, q6, rfl, hl6, hs6⟩ := split_cons hs5
    obtain ⟨h, q7, rfl, hl7, hs7⟩ := split_cons hs6
    obtain ⟨t4, q8, rfl, hl8, hs8⟩ := split_cons hs7
    obtain ⟨mi, q9, rfl, hl9, hs9⟩ := split_cons hs8
    obtain ⟨t5, q10, rfl, hl10, hs10⟩ := split_cons hs9
    obtain ⟨s, q11, rfl, hl11, hs11⟩ := split_cons hs10
    obtain ⟨z, q12, rfl, hl12, hs12⟩ := split_cons hs11
    cases split_nil hs12
    cases hl2; cases hl4; cases hl6; cases hl8; cases hl10
    have hm : Number 2 1 12 m := hl3
    exact ⟨y, m, d, h, mi, s, z, by rw [e]; simp, year4.mp hl1, hm, hl5,
      (dateOk_ymd hm (y := y) rfl rfl rfl).mp hd, hl7, hl9, hl11, hl12⟩
  · rintro ⟨y, m, d, h, mi, s, z, e, hy, hm, hd, hin, h1, h2, h3, h4⟩
    refine ⟨[y, ['-'], m, ['-'], d, ['T'], h, [':'], mi, [':'], s, z], ?_, by rw [e]; simp, ?_, ?_⟩
    · exact .cons (year4.mpr hy) (.cons rfl (.cons hm (.cons rfl (.cons hd (.cons rfl
        (.cons h1 (.cons rfl (.cons h2 (.cons rfl (.cons h3 (.cons h4 .nil)))))))))))
    · exact (dateOk_ymd hm (y := y) rfl rfl rfl).mpr hin
    · exact yearSmall (y := y) rfl hy.2.2.2.2

/-- A table of zones, for examples. -/
def zones0 : Zones := ⟨fun s => s == "Europe/Warsaw".toList, fun s => s == "PDT".toList⟩

/-- **C91** (examples).  A leap day is accepted in 2024 and 2000, not in 2023 or 1900; one-digit fields are
accepted by `yyyy-MM-dd`; an offset of twelve hours is rejected; day 360 of the year is rejected; `LL` months do not
take part in the day check; adjacent fields are read greedily. -/
theorem C91_examples :
    validate zones0 "2024-02-29".toList "yyyy-MM-dd".toList = .ok () ∧
    validate zones0 "2000-02-29".toList "yyyy-MM-dd".toList = .ok () ∧
    validate zones0 "2023-02-29".toList "yyyy-MM-dd".toList = .err ∧
    validate zones0 "1900-02-29".toList "yyyy-MM-dd".toList = .err ∧
    validate zones0 "1-2-3".toList "yyyy-MM-dd".toList = .ok () ∧
    validate zones0 "2024-02-29T10:00:00+11:00".toList "yyyy-MM-dd'T'HH:mm:ssXXX".toList = .ok () ∧
    validate zones0 "2024-02-29T10:00:00+12:00".toList "yyyy-MM-dd'T'HH:mm:ssXXX".toList = .err ∧
    validate zones0 "2024-02-29T10:00:00+-+05:00".toList "yyyy-MM-dd'T'HH:mm:ssXXX".toList = .ok () ∧
    validate zones0 "360".toList "D".toList = .err ∧
    validate zones0 "2023-02-30".toList "yyyy-LL-dd".toList = .ok () ∧
    validate zones0 "20240229".toList "yyyyMMdd".toList = .ok () ∧
    validate zones0 "2024".toList "y".toList = .err ∧
    validate zones0 "Wed, Jul 4, '01 at 12 PDT [Europe/Warsaw]".toList "EEE, MMM d, ''yy 'at' HH z '['VV']'".toList = .ok () := by
  decide





end TimeProps
end Verif
