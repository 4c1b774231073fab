import Verif.DateExpr

/-
  The calendar of the date/time expressions: facts used by `DateExprProps`.
-/

set_option autoImplicit false

namespace Verif
namespace DateExprProps
open DateExpr

/-! ### Specification: the calendar -/

/-- Leap years. -/
def LeapYear (y : Int) : Prop := (4 ∣ y ∧ ¬ 100 ∣ y) ∨ 400 ∣ y

/-- A date and time of the Gregorian calendar. -/
structure Cal (t : Moment) : Prop where
  month : 1 ≤ t.month ∧ t.month ≤ 12
  day : 1 ≤ t.day ∧ t.day ≤ 31
  thirty : t.month = 4 ∨ t.month = 6 ∨ t.month = 9 ∨ t.month = 11 → t.day ≤ 30
  feb : t.month = 2 → t.day ≤ 29
  notLeap : t.month = 2 → ¬ LeapYear t.year → t.day ≤ 28
  time : t.nanos < 86400000000000

/-- A moment in the years `chrono` can represent. -/
def Valid (t : Moment) : Prop := Cal t ∧ -262143 ≤ t.year ∧ t.year ≤ 262142

/-! ### Days of a month -/

theorem leap_iff (y : Int) : leap y = true ↔ LeapYear y := by
  unfold leap LeapYear
  simp only [Bool.and_eq_true, Bool.or_eq_true, decide_eq_true_eq]
  omega

theorem cal_iff {t : Moment} : Cal t ↔
    (1 ≤ t.month ∧ t.month ≤ 12) ∧ 1 ≤ t.day ∧ t.day ≤ daysIn t.year t.month ∧ t.nanos < dayNanos := by
  have hl := leap_iff t.year
  constructor
  · rintro ⟨hm, hd, h30, hf, hn, ht⟩
    refine ⟨hm, hd.1, ?_, ht⟩
    unfold daysIn
    split
    · rename_i e
      split
      · exact hf e
      · rename_i h
        exact hn e (fun c => h (hl.mpr c))
    · rename_i e; exact h30 (Or.inl e)
    · rename_i e; exact h30 (Or.inr (Or.inl e))
    · rename_i e; exact h30 (Or.inr (Or.inr (Or.inl e)))
    · rename_i e; exact h30 (Or.inr (Or.inr (Or.inr e)))
    · exact hd.2
  · rintro ⟨hm, h1, hd, ht⟩
    have h31 : daysIn t.year t.month ≤ 31 := by unfold daysIn; split <;> first | omega | (split <;> omega)
    refine ⟨hm, ⟨h1, by omega⟩, ?_, ?_, ?_, ht⟩
    · rintro (e | e | e | e) <;> rw [e] at hd <;> exact hd
    · intro e
      rw [e] at hd
      simp only [daysIn] at hd
      split at hd <;> omega
    · intro e hnl
      rw [e] at hd
      simp only [daysIn] at hd
      rw [if_neg (fun c => hnl (hl.mp c))] at hd
      exact hd

theorem daysIn_bounds (y : Int) (m : Nat) : 28 ≤ daysIn y m ∧ daysIn y m ≤ 31 := by
  unfold daysIn
  split <;> first | omega | (split <;> omega)

theorem before_succ (y : Int) {m : Nat} (h1 : 1 ≤ m) (h2 : m < 12) : before y (m + 1) = before y m + daysIn y m := by
  have : m = 1 ∨ m = 2 ∨ m = 3 ∨ m = 4 ∨ m = 5 ∨ m = 6 ∨ m = 7 ∨ m = 8 ∨ m = 9 ∨ m = 10 ∨ m = 11 := by omega
  rcases this with e | e | e | e | e | e | e | e | e | e | e <;> subst e <;> simp only [before, daysIn] <;>
    (cases leap y <;> rfl)

theorem dayNum_year (y : Int) : dayNum (y + 1) 1 1 = dayNum y 12 31 + 1 := by
  unfold dayNum
  have hl := leap_iff y
  unfold LeapYear at hl
  simp only [before]
  cases h : leap y
  · rw [h] at hl
    simp at hl
    simp
    omega
  · rw [h] at hl
    simp at hl
    simp
    omega

theorem succ_cal {t : Moment} (h : Cal t) : Cal (succDay t) ∧
    dayNum (succDay t).year (succDay t).month (succDay t).day = dayNum t.year t.month t.day + 1 ∧
    (succDay t).nanos = t.nanos := by
  rw [cal_iff] at h
  obtain ⟨hm, h1, hd, ht⟩ := h
  unfold succDay
  split
  · rename_i h2
    refine ⟨cal_iff.mpr ⟨hm, by simp, h2, ht⟩, ?_, rfl⟩
    simp only [dayNum]
    omega
  · rename_i h2
    have e : t.day = daysIn t.year t.month := by omega
    split
    · rename_i h3
      have := daysIn_bounds t.year (t.month + 1)
      refine ⟨cal_iff.mpr ⟨⟨by simp, by simp; omega⟩, by simp, by simp; omega, ht⟩, ?_, rfl⟩
      simp only [dayNum]
      rw [before_succ t.year hm.1 h3, e]
      omega
    · have e2 : t.month = 12 := by omega
      have := daysIn_bounds (t.year + 1) 1
      refine ⟨cal_iff.mpr ⟨⟨by simp, by simp⟩, by simp, by simp; omega, ht⟩, ?_, rfl⟩
      have : daysIn t.year 12 = 31 := rfl
      show dayNum (t.year + 1) 1 1 = _
      rw [dayNum_year, e, e2, this]

theorem pred_cal {t : Moment} (h : Cal t) : Cal (predDay t) ∧
    dayNum (predDay t).year (predDay t).month (predDay t).day = dayNum t.year t.month t.day - 1 ∧
    (predDay t).nanos = t.nanos := by
  rw [cal_iff] at h
  obtain ⟨hm, h1, hd, ht⟩ := h
  unfold predDay
  split
  · rename_i h2
    refine ⟨cal_iff.mpr ⟨hm, by simp; omega, by simp; omega, ht⟩, ?_, rfl⟩
    simp only [dayNum]
    omega
  · rename_i h2
    have e : t.day = 1 := by omega
    split
    · rename_i h3
      have := daysIn_bounds t.year (t.month - 1)
      refine ⟨cal_iff.mpr ⟨⟨by simp; omega, by simp; omega⟩, by simp; omega, by simp, ht⟩, ?_, rfl⟩
      have := before_succ t.year (m := t.month - 1) (by omega) (by omega)
      rw [show t.month - 1 + 1 = t.month by omega] at this
      simp only [dayNum]
      rw [this, e]
      omega
    · have e2 : t.month = 1 := by omega
      refine ⟨cal_iff.mpr ⟨⟨by simp, by simp⟩, by simp, by simp [daysIn], ht⟩, ?_, rfl⟩
      have := dayNum_year (t.year - 1)
      rw [show t.year - 1 + 1 = t.year by omega] at this
      show dayNum (t.year - 1) 12 31 = _
      rw [e, e2, this]
      omega

/-- The number of the day of a moment. -/
def num (t : Moment) : Int := dayNum t.year t.month t.day

theorem times_up {t : Moment} (h : Cal t) (k : Nat) :
    Cal (times succDay k t) ∧ num (times succDay k t) = num t + k ∧ (times succDay k t).nanos = t.nanos := by
  induction k generalizing t with
  | zero => exact ⟨h, by simp [times], rfl⟩
  | succ k ih =>
    obtain ⟨h1, h2, h3⟩ := succ_cal h
    obtain ⟨i1, i2, i3⟩ := ih h1
    refine ⟨i1, ?_, i3.trans h3⟩
    show num (times succDay k (succDay t)) = _
    rw [i2]
    have : num (succDay t) = num t + 1 := h2
    rw [this]
    omega

theorem times_down {t : Moment} (h : Cal t) (k : Nat) :
    Cal (times predDay k t) ∧ num (times predDay k t) = num t - k ∧ (times predDay k t).nanos = t.nanos := by
  induction k generalizing t with
  | zero => exact ⟨h, by simp [times], rfl⟩
  | succ k ih =>
    obtain ⟨h1, h2, h3⟩ := pred_cal h
    obtain ⟨i1, i2, i3⟩ := ih h1
    refine ⟨i1, ?_, i3.trans h3⟩
    show num (times predDay k (predDay t)) = _
    rw [i2]
    have : num (predDay t) = num t - 1 := h2
    rw [this]
    omega

theorem shift_cal {t : Moment} (h : Cal t) (k : Int) :
    Cal (shiftDays t k) ∧ num (shiftDays t k) = num t + k ∧ (shiftDays t k).nanos = t.nanos := by
  cases k with
  | ofNat k => exact times_up h k
  | negSucc k =>
    obtain ⟨h1, h2, h3⟩ := times_down h (k + 1)
    refine ⟨h1, ?_, h3⟩
    show num (times predDay (k + 1) t) = _
    rw [h2]
    omega

/-! ### The order of days -/

/-- Position of a date in the order by year, month and day. -/
def key (t : Moment) : Int := 372 * t.year + 31 * (t.month - 1) + (t.day - 1)

theorem before_mono (y : Int) {m n : Nat} (h1 : 1 ≤ m) (h2 : m < n) (h3 : n ≤ 12) :
    before y m + daysIn y m ≤ before y n := by
  induction n with
  | zero => omega
  | succ n ih =>
    rw [before_succ y (by omega) (by omega)]
    by_cases e : m = n
    · subst e; exact Nat.le_refl _
    · have := ih (by omega) (by omega); omega

theorem num_year (t : Moment) (h : Cal t) : dayNum t.year 1 1 ≤ num t ∧ num t ≤ dayNum t.year 12 31 := by
  rw [cal_iff] at h
  obtain ⟨hm, h1, hd, -⟩ := h
  have e1 : before t.year 1 = 0 := rfl
  unfold num dayNum
  constructor
  · rw [e1]; omega
  · by_cases e : t.month = 12
    · rw [e] at hd ⊢
      have : daysIn t.year 12 = 31 := rfl
      omega
    · have := before_mono t.year (m := t.month) (n := 12) hm.1 (by omega) (by omega)
      omega

theorem first_mono {y z : Int} (h : y ≤ z) : dayNum y 1 1 ≤ dayNum z 1 1 := by
  unfold dayNum
  have e1 : ∀ y, before y 1 = 0 := fun _ => rfl
  rw [e1, e1]
  omega

theorem key_lt {s t : Moment} (hs : Cal s) (ht : Cal t) (h : key s < key t) : num s < num t := by
  have s1 := num_year s hs
  have t1 := num_year t ht
  rw [cal_iff] at hs ht
  obtain ⟨hsm, hs1, hsd, -⟩ := hs
  obtain ⟨htm, ht1, htd, -⟩ := ht
  have bs := daysIn_bounds s.year s.month
  have bt := daysIn_bounds t.year t.month
  unfold key at h
  by_cases hy : s.year < t.year
  · have := dayNum_year s.year
    have := first_mono (y := s.year + 1) (z := t.year) (by omega)
    omega
  · have ey : s.year = t.year := by omega
    rw [ey] at h hsd
    by_cases hm : s.month < t.month
    · have := before_mono t.year hsm.1 hm htm.2
      unfold num dayNum
      rw [ey]
      omega
    · have em : s.month = t.month := by omega
      unfold num dayNum
      rw [ey, em]
      omega

theorem num_lt_iff {s t : Moment} (hs : Cal s) (ht : Cal t) : num s < num t ↔ key s < key t := by
  constructor
  · intro h
    by_cases h1 : key s < key t
    · exact h1
    · by_cases h2 : key t < key s
      · have := key_lt ht hs h2; omega
      · exfalso
        have e : key s = key t := by omega
        rw [cal_iff] at hs ht
        obtain ⟨hsm, hs1, hsd, -⟩ := hs
        obtain ⟨htm, ht1, htd, -⟩ := ht
        have bs := daysIn_bounds s.year s.month
        have bt := daysIn_bounds t.year t.month
        unfold key at e
        have e1 : s.year = t.year := by omega
        have e2 : s.month = t.month := by omega
        have e3 : s.day = t.day := by omega
        unfold num at h
        rw [e1, e2, e3] at h
        omega
  · exact key_lt hs ht

theorem num_le_iff {s t : Moment} (hs : Cal s) (ht : Cal t) : num s ≤ num t ↔ key s ≤ key t := by
  have := num_lt_iff ht hs
  omega

theorem num_inj {s t : Moment} (hs : Cal s) (ht : Cal t) (h : num s = num t) (hn : s.nanos = t.nanos) : s = t := by
  have h1 := num_le_iff hs ht
  have h2 := num_le_iff ht hs
  rw [cal_iff] at hs ht
  obtain ⟨hsm, hs1, hsd, -⟩ := hs
  obtain ⟨htm, ht1, htd, -⟩ := ht
  have bs := daysIn_bounds s.year s.month
  have bt := daysIn_bounds t.year t.month
  unfold key at h1 h2
  have e1 : s.year = t.year := by omega
  have e2 : s.month = t.month := by omega
  have e3 : s.day = t.day := by omega
  cases s; cases t
  simp only at e1 e2 e3 hn
  subst e1; subst e2; subst e3; subst hn
  rfl

theorem times_eq_up {s t : Moment} (hs : Cal s) (ht : Cal t) {k : Nat} (h : num t = num s + k)
    (hn : t.nanos = s.nanos) : times succDay k s = t := by
  obtain ⟨h1, h2, h3⟩ := times_up hs k
  exact num_inj h1 ht (by omega) (h3.trans hn.symm)

theorem times_eq_down {s t : Moment} (hs : Cal s) (ht : Cal t) {k : Nat} (h : num t = num s - k)
    (hn : t.nanos = s.nanos) : times predDay k s = t := by
  obtain ⟨h1, h2, h3⟩ := times_down hs k
  exact num_inj h1 ht (by omega) (h3.trans hn.symm)

theorem le_max {t : Moment} (h : Cal t) : num t ≤ dayNum maxYear 12 31 ↔ t.year ≤ 262142 := by
  have hn := num_year t h
  constructor
  · intro h1
    apply Classical.byContradiction
    intro h2
    have := first_mono (y := maxYear + 1) (z := t.year) (by unfold maxYear; omega)
    have := dayNum_year maxYear
    omega
  · intro h1
    by_cases e : t.year = 262142
    · rw [e] at hn; exact hn.2
    · have := first_mono (y := t.year + 1) (z := maxYear) (by unfold maxYear; omega)
      have := dayNum_year t.year
      have : dayNum maxYear 1 1 ≤ dayNum maxYear 12 31 := by decide
      omega

theorem ge_min {t : Moment} (h : Cal t) : dayNum minYear 1 1 ≤ num t ↔ -262143 ≤ t.year := by
  have hn := num_year t h
  constructor
  · intro h1
    apply Classical.byContradiction
    intro h2
    have := first_mono (y := t.year + 1) (z := minYear) (by unfold minYear; omega)
    have := dayNum_year t.year
    omega
  · intro h1
    have := first_mono (y := minYear) (z := t.year) (by unfold minYear; omega)
    omega

end DateExprProps
end Verif
