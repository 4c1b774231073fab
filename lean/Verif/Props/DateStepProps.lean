import Verif.Props.DateCalProps
import Verif.Props.DateParseProps

/-
  C96: what an adjustment of a date/time expression does to a date.
-/

set_option autoImplicit false

namespace Verif
namespace DateExprProps
open DateExpr

/-! ### Specification: what the adjustments mean -/

/-- Forwards or backwards. -/
def sgn : Op → Int
  | .plus => 1
  | .minus => -1

/-- A moment as a number of nanoseconds. -/
def instant (t : Moment) : Int := num t * 86400000000000 + t.nanos

/-- The number of a month. -/
def monthNum (t : Moment) : Int := 12 * t.year + t.month

/-- `r` is `t` moved by an adjustment. -/
def Moves (a : Adj DateUnit) (t r : Moment) : Prop :=
  Cal r ∧ r.nanos = t.nanos ∧
  match a.unit with
  | .day => num r = num t + sgn a.op * a.value
  | .week => num r = num t + sgn a.op * (7 * a.value)
  | .month =>
    (a.value = 0 → r = t) ∧
    (0 < a.value → monthNum r = monthNum t + sgn a.op * a.value ∧
      (r.day = t.day ∨
        ¬ Cal { r with day := t.day } ∧
          match a.op with
          | .plus => r.day = 1
          | .minus => ¬ Cal { r with day := r.day + 1 }))
  | .year =>
    (Valid { t with year := t.year + sgn a.op * a.value } → r = { t with year := t.year + sgn a.op * a.value }) ∧
    (¬ Valid { t with year := t.year + sgn a.op * a.value } → r = t)
  | .weekday i =>
    weekday r = i ∧
      match a.op with
      | .plus => num t < num r ∧ num r ≤ num t + 7
      | .minus => num t - 7 ≤ num r ∧ num r < num t
  | .monthName i =>
    r.month = i ∧ r.day = 1 ∧
      match a.op with
      | .plus => r.year = if t.month < i then t.year else t.year + 1
      | .minus => r.year = if i < t.month then t.year else t.year - 1

/-! ### Loops -/

theorem loop_iff (step : Moment → Moment) (p : Moment → Bool) (n : Nat) (t r : Moment) :
    loop step p n t = .ok r ↔
      ∃ k, k ≤ n ∧ (∀ j, j < k → p (times step j t) = true) ∧ p (times step k t) = false ∧ r = times step k t := by
  induction n generalizing t with
  | zero =>
    rw [loop]
    constructor
    · intro h
      split at h
      · cases h
      · rename_i hp
        cases h
        exact ⟨0, Nat.le_refl _, fun j hj => absurd hj (Nat.not_lt_zero _), by simpa [times] using hp, rfl⟩
    · rintro ⟨k, hk, -, hp, rfl⟩
      have : k = 0 := by omega
      subst this
      simp only [times] at hp ⊢
      rw [if_neg (by simp [hp])]
  | succ n ih =>
    rw [loop]
    constructor
    · intro h
      split at h
      · rename_i hp
        obtain ⟨k, hk, h1, h2, h3⟩ := (ih (step t)).mp h
        refine ⟨k + 1, by omega, ?_, h2, h3⟩
        intro j hj
        cases j with
        | zero => exact hp
        | succ j => exact h1 j (by omega)
      · rename_i hp
        cases h
        exact ⟨0, by omega, fun j hj => absurd hj (Nat.not_lt_zero _), by simpa [times] using hp, rfl⟩
    · rintro ⟨k, hk, h1, h2, rfl⟩
      cases k with
      | zero =>
        simp only [times] at h2 ⊢
        rw [if_neg (by simp [h2])]
      | succ k =>
        rw [if_pos (by simpa [times] using h1 0 (by omega))]
        exact (ih (step t)).mpr ⟨k, by omega, fun j hj => h1 (j + 1) (by omega), h2, rfl⟩

theorem loop_err (step : Moment → Moment) (p : Moment → Bool) (n : Nat) (t : Moment) : loop step p n t ≠ .err := by
  induction n generalizing t with
  | zero => rw [loop]; split <;> simp
  | succ n ih => rw [loop]; split; exact ih _; simp

theorem whileUp_iff {t : Moment} (ht : Valid t) (p : Moment → Bool) (r : Moment) :
    whileUp p t = .ok r ↔ Cal r ∧ r.nanos = t.nanos ∧ num t ≤ num r ∧ r.year ≤ 262142 ∧ p r = false ∧
      ∀ x, Cal x → x.nanos = t.nanos → num t ≤ num x → num x < num r → p x = true := by
  obtain ⟨hc, hlo, hhi⟩ := ht
  have hmax := (le_max hc).mpr hhi
  have hda : ((daysAfter t : Nat) : Int) = dayNum maxYear 12 31 - num t := by
    unfold daysAfter
    show ((dayNum maxYear 12 31 - num t).toNat : Int) = _
    omega
  unfold whileUp
  rw [loop_iff]
  constructor
  · rintro ⟨k, hk, h1, h2, rfl⟩
    obtain ⟨c1, c2, c3⟩ := times_up hc k
    refine ⟨c1, c3, by omega, (le_max c1).mp (by omega), h2, ?_⟩
    intro x hx hxn hx1 hx2
    have e := times_eq_up hc hx (k := (num x - num t).toNat) (by omega) hxn
    rw [← e]
    exact h1 _ (by omega)
  · rintro ⟨c1, c3, c4, c5, c6, c7⟩
    have e := times_eq_up hc c1 (k := (num r - num t).toNat) (by omega) c3
    have := (le_max c1).mpr c5
    refine ⟨(num r - num t).toNat, by omega, ?_, by rw [e]; exact c6, e.symm⟩
    intro j hj
    obtain ⟨d1, d2, d3⟩ := times_up hc j
    exact c7 _ d1 d3 (by omega) (by omega)

theorem whileDown_iff {t : Moment} (ht : Valid t) (p : Moment → Bool) (r : Moment) :
    whileDown p t = .ok r ↔ Cal r ∧ r.nanos = t.nanos ∧ num r ≤ num t ∧ -262143 ≤ r.year ∧ p r = false ∧
      ∀ x, Cal x → x.nanos = t.nanos → num r < num x → num x ≤ num t → p x = true := by
  obtain ⟨hc, hlo, hhi⟩ := ht
  have hmin := (ge_min hc).mpr hlo
  have hda : ((daysBefore t : Nat) : Int) = num t - dayNum minYear 1 1 := by
    unfold daysBefore
    show ((num t - dayNum minYear 1 1).toNat : Int) = _
    omega
  unfold whileDown
  rw [loop_iff]
  constructor
  · rintro ⟨k, hk, h1, h2, rfl⟩
    obtain ⟨c1, c2, c3⟩ := times_down hc k
    refine ⟨c1, c3, by omega, (ge_min c1).mp (by omega), h2, ?_⟩
    intro x hx hxn hx1 hx2
    have e := times_eq_down hc hx (k := (num t - num x).toNat) (by omega) hxn
    rw [← e]
    exact h1 _ (by omega)
  · rintro ⟨c1, c3, c4, c5, c6, c7⟩
    have e := times_eq_down hc c1 (k := (num t - num r).toNat) (by omega) c3
    have := (ge_min c1).mpr c5
    refine ⟨(num t - num r).toNat, by omega, ?_, by rw [e]; exact c6, e.symm⟩
    intro j hj
    obtain ⟨d1, d2, d3⟩ := times_down hc j
    exact c7 _ d1 d3 (by omega) (by omega)

theorem up_valid {t r : Moment} (ht : Valid t) (h : Cal r) (h1 : num t ≤ num r) (h2 : r.year ≤ 262142) : Valid r :=
  ⟨h, (ge_min h).mp (by have := (ge_min ht.1).mpr ht.2.1; omega), h2⟩

theorem down_valid {t r : Moment} (ht : Valid t) (h : Cal r) (h1 : num r ≤ num t) (h2 : -262143 ≤ r.year) : Valid r :=
  ⟨h, h2, (le_max h).mp (by have := (le_max ht.1).mpr ht.2.2; omega)⟩

/-! ### Days of the week -/

theorem weekday_iff (t : Moment) (i : Nat) : weekday t = i ↔ (num t - 1) % 7 = i - 1 := by
  unfold weekday
  show ((num t - 1) % 7).toNat + 1 = i ↔ _
  omega

theorem up_weekday {t : Moment} (ht : Valid t) {i : Nat} (hi : 1 ≤ i ∧ i ≤ 7) (r : Moment) :
    adjustUp (fun x => weekday x == i) t = .ok r ↔
      (Cal r ∧ r.nanos = t.nanos ∧ weekday r = i ∧ num t < num r ∧ num r ≤ num t + 7) ∧ r.year ≤ 262142 := by
  unfold adjustUp
  rw [bind_ok_iff]
  constructor
  · rintro ⟨m, hm, hr⟩
    obtain ⟨m1, m2, m3, m4, m5, m6⟩ := (whileUp_iff ht _ _).mp hm
    have vm := up_valid ht m1 m3 m4
    obtain ⟨r1, r2, r3, r4, r5, r6⟩ := (whileUp_iff vm _ _).mp hr
    simp only [beq_eq_false_iff_ne, ne_eq, weekday_iff, Bool.not_eq_true', beq_iff_eq, Bool.not_eq_false',
      bne_iff_ne] at m5 m6 r5 r6
    have hlt : num t < num r := by
      by_cases e : num t = num m
      · by_cases e2 : num m = num r
        · rw [e2] at m5; exact absurd r5 m5
        · omega
      · omega
    refine ⟨⟨r1, r2.trans m2, (weekday_iff r i).mpr r5, hlt, ?_⟩, r4⟩
    apply Classical.byContradiction
    intro hgt
    obtain ⟨x1, x2, x3⟩ := times_up ht.1 1
    have w1 := m6 t ht.1 rfl (by omega)
    have w2 := m6 _ x1 x3 (by omega)
    have hmt : num m ≤ num t + 1 := by
      apply Classical.byContradiction
      intro h
      have := w1 (by omega)
      have := w2 (by omega)
      omega
    obtain ⟨y1, y2, y3⟩ := times_up ht.1 ((i - 1 - (num t + 1 - 1)) % 7 + 1).toNat
    have := r6 _ y1 (y3.trans m2.symm) (by omega) (by omega)
    omega
  · rintro ⟨⟨r1, r2, r3, r4, r5⟩, r6⟩
    rw [weekday_iff] at r3
    have hmr := (le_max r1).mpr r6
    obtain ⟨x1, x2, x3⟩ := times_up ht.1 1
    by_cases hw : (num t - 1) % 7 = (i : Int) - 1
    · refine ⟨times succDay 1 t, ?_, ?_⟩
      · rw [whileUp_iff ht]
        refine ⟨x1, x3, by omega, (le_max x1).mp (by omega), ?_, ?_⟩
        · simp only [beq_eq_false_iff_ne, ne_eq, weekday_iff]; omega
        · intro x hx hn h1 h2
          simp only [beq_iff_eq, weekday_iff]
          have : num x = num t := by omega
          rw [this]; exact hw
      · rw [whileUp_iff (up_valid ht x1 (by omega) ((le_max x1).mp (by omega)))]
        refine ⟨r1, r2.trans x3.symm, by omega, r6, ?_, ?_⟩
        · simp [weekday_iff, r3]
        · intro x hx hn h1 h2
          simp only [Bool.not_eq_true', beq_eq_false_iff_ne, ne_eq, weekday_iff]
          omega
    · refine ⟨t, ?_, ?_⟩
      · rw [whileUp_iff ht]
        refine ⟨ht.1, rfl, by omega, ht.2.2, ?_, ?_⟩
        · simp only [beq_eq_false_iff_ne, ne_eq, weekday_iff]; omega
        · intro x hx hn h1 h2
          omega
      · rw [whileUp_iff ht]
        refine ⟨r1, r2, by omega, r6, ?_, ?_⟩
        · simp [weekday_iff, r3]
        · intro x hx hn h1 h2
          simp only [Bool.not_eq_true', beq_eq_false_iff_ne, ne_eq, weekday_iff]
          omega

theorem down_weekday {t : Moment} (ht : Valid t) {i : Nat} (hi : 1 ≤ i ∧ i ≤ 7) (r : Moment) :
    adjustDown (fun x => weekday x == i) t = .ok r ↔
      (Cal r ∧ r.nanos = t.nanos ∧ weekday r = i ∧ num t - 7 ≤ num r ∧ num r < num t) ∧ -262143 ≤ r.year := by
  unfold adjustDown
  rw [bind_ok_iff]
  constructor
  · rintro ⟨m, hm, hr⟩
    obtain ⟨m1, m2, m3, m4, m5, m6⟩ := (whileDown_iff ht _ _).mp hm
    have vm := down_valid ht m1 m3 m4
    obtain ⟨r1, r2, r3, r4, r5, r6⟩ := (whileDown_iff vm _ _).mp hr
    simp only [beq_eq_false_iff_ne, ne_eq, weekday_iff, Bool.not_eq_true', beq_iff_eq, Bool.not_eq_false',
      bne_iff_ne] at m5 m6 r5 r6
    have hlt : num r < num t := by
      by_cases e : num t = num m
      · by_cases e2 : num m = num r
        · rw [e2] at m5; exact absurd r5 m5
        · omega
      · omega
    refine ⟨⟨r1, r2.trans m2, (weekday_iff r i).mpr r5, ?_, hlt⟩, r4⟩
    apply Classical.byContradiction
    intro hgt
    obtain ⟨x1, x2, x3⟩ := times_down ht.1 1
    have w1 := fun h => m6 t ht.1 rfl h (by omega)
    have w2 := fun h => m6 _ x1 x3 h (by omega)
    have hmt : num t - 1 ≤ num m := by
      apply Classical.byContradiction
      intro h
      have := w1 (by omega)
      have := w2 (by omega)
      omega
    obtain ⟨y1, y2, y3⟩ := times_down ht.1 ((num t - 1 - 1 - (i - 1)) % 7 + 1).toNat
    have := r6 _ y1 (y3.trans m2.symm) (by omega) (by omega)
    omega
  · rintro ⟨⟨r1, r2, r3, r4, r5⟩, r6⟩
    rw [weekday_iff] at r3
    have hmr := (ge_min r1).mpr r6
    obtain ⟨x1, x2, x3⟩ := times_down ht.1 1
    by_cases hw : (num t - 1) % 7 = (i : Int) - 1
    · refine ⟨times predDay 1 t, ?_, ?_⟩
      · rw [whileDown_iff ht]
        refine ⟨x1, x3, by omega, (ge_min x1).mp (by omega), ?_, ?_⟩
        · simp only [beq_eq_false_iff_ne, ne_eq, weekday_iff]; omega
        · intro x hx hn h1 h2
          simp only [beq_iff_eq, weekday_iff]
          have : num x = num t := by omega
          rw [this]; exact hw
      · rw [whileDown_iff (down_valid ht x1 (by omega) ((ge_min x1).mp (by omega)))]
        refine ⟨r1, r2.trans x3.symm, by omega, r6, ?_, ?_⟩
        · simp [weekday_iff, r3]
        · intro x hx hn h1 h2
          simp only [Bool.not_eq_true', beq_eq_false_iff_ne, ne_eq, weekday_iff]
          omega
    · refine ⟨t, ?_, ?_⟩
      · rw [whileDown_iff ht]
        refine ⟨ht.1, rfl, by omega, ht.2.1, ?_, ?_⟩
        · simp only [beq_eq_false_iff_ne, ne_eq, weekday_iff]; omega
        · intro x hx hn h1 h2
          omega
      · rw [whileDown_iff ht]
        refine ⟨r1, r2, by omega, r6, ?_, ?_⟩
        · simp [weekday_iff, r3]
        · intro x hx hn h1 h2
          simp only [Bool.not_eq_true', beq_eq_false_iff_ne, ne_eq, weekday_iff]
          omega

/-! ### Months -/

theorem bounds {t : Moment} (h : Cal t) : (1 ≤ t.month ∧ t.month ≤ 12) ∧ 1 ≤ t.day ∧ t.day ≤ 31 := ⟨h.month, h.day⟩

/-- The first day of a month. -/
def firstOf (n : Int) (nanos : Nat) : Moment := ⟨(n - 1) / 12, ((n - 1) % 12).toNat + 1, 1, nanos⟩

theorem first_cal (n : Int) {nanos : Nat} (h : nanos < 86400000000000) : Cal (firstOf n nanos) := by
  rw [cal_iff]
  have := daysIn_bounds ((n - 1) / 12) (((n - 1) % 12).toNat + 1)
  unfold firstOf
  exact ⟨⟨by simp, by show ((n - 1) % 12).toNat + 1 ≤ 12; omega⟩, by simp, by simp only; omega, h⟩

theorem first_eqs (n : Int) (nanos : Nat) : (firstOf n nanos).year = (n - 1) / 12 ∧
    ((firstOf n nanos).month : Int) = (n - 1) % 12 + 1 ∧ (firstOf n nanos).day = 1 ∧ (firstOf n nanos).nanos = nanos := by
  refine ⟨rfl, ?_, rfl, rfl⟩
  show ((((n - 1) % 12).toNat + 1 : Nat) : Int) = _
  omega

/-- Facts about the order of two dates, ready for arithmetic. -/
theorem ord {s t : Moment} (hs : Cal s) (ht : Cal t) :
    (num s < num t ↔ 372 * s.year + 31 * (s.month - 1) + (s.day - 1) < 372 * t.year + 31 * (t.month - 1) + (t.day - 1)) ∧
    (num s ≤ num t ↔ 372 * s.year + 31 * (s.month - 1) + (s.day - 1) ≤ 372 * t.year + 31 * (t.month - 1) + (t.day - 1)) :=
  ⟨num_lt_iff hs ht, num_le_iff hs ht⟩

theorem up_month {t : Moment} (ht : Valid t) (r : Moment) :
    whileUp (fun x => x.month == t.month) t = .ok r ↔
      (Cal r ∧ r.nanos = t.nanos ∧ monthNum r = monthNum t + 1 ∧ r.day = 1) ∧ r.year ≤ 262142 := by
  rw [whileUp_iff ht]
  have bt := bounds ht.1
  constructor
  · rintro ⟨r1, r2, r3, r4, r5, r6⟩
    simp only [beq_eq_false_iff_ne, ne_eq, beq_iff_eq] at r5 r6
    have hT := first_cal (monthNum t + 1) ht.1.time
    obtain ⟨e1, e2, e3, e4⟩ := first_eqs (monthNum t + 1) t.nanos
    unfold monthNum at e1 e2 e3
    have br := bounds r1
    have o1 := ord ht.1 hT
    have o2 := ord hT r1
    have o3 := ord r1 hT
    have o4 := ord ht.1 r1
    unfold monthNum at hT o1 o2 o3
    have h1 := r6 _ hT e4
    have ne : ¬ num (firstOf (monthNum t + 1) t.nanos) < num r := by
      unfold monthNum
      intro h
      have := h1 (by rw [o1.2, e1, e2, e3]; omega) h
      omega
    have ne2 : ¬ num r < num (firstOf (monthNum t + 1) t.nanos) := by
      unfold monthNum
      intro h
      rw [o3.1, e1, e2, e3] at h
      rw [o4.2] at r3
      apply r5
      omega
    have heq : r = firstOf (monthNum t + 1) t.nanos :=
      num_inj r1 (first_cal _ ht.1.time) (by omega) r2
    refine ⟨⟨r1, r2, ?_, by rw [heq]; rfl⟩, r4⟩
    rw [heq]
    unfold monthNum
    rw [e1, e2]
    omega
  · rintro ⟨⟨r1, r2, r3, r4⟩, r5⟩
    have br := bounds r1
    have o := ord ht.1 r1
    unfold monthNum at r3
    refine ⟨r1, r2, by rw [o.2]; omega, r5, by simp; omega, ?_⟩
    intro x hx hn h1 h2
    have bx := bounds hx
    rw [(ord ht.1 hx).2] at h1
    rw [(ord hx r1).1] at h2
    simp only [beq_iff_eq]
    omega

/-- The last day of a month. -/
def lastOf (n : Int) (nanos : Nat) : Moment :=
  ⟨(n - 1) / 12, ((n - 1) % 12).toNat + 1, daysIn ((n - 1) / 12) (((n - 1) % 12).toNat + 1), nanos⟩

theorem last_cal (n : Int) {nanos : Nat} (h : nanos < 86400000000000) : Cal (lastOf n nanos) := by
  rw [cal_iff]
  have := daysIn_bounds ((n - 1) / 12) (((n - 1) % 12).toNat + 1)
  unfold lastOf
  exact ⟨⟨by simp, by show ((n - 1) % 12).toNat + 1 ≤ 12; omega⟩, by simp only; omega, by simp, h⟩

theorem last_eqs (n : Int) (nanos : Nat) : (lastOf n nanos).year = (n - 1) / 12 ∧
    ((lastOf n nanos).month : Int) = (n - 1) % 12 + 1 ∧
    (lastOf n nanos).day = daysIn (lastOf n nanos).year (lastOf n nanos).month ∧ (lastOf n nanos).nanos = nanos := by
  refine ⟨rfl, ?_, rfl, rfl⟩
  show ((((n - 1) % 12).toNat + 1 : Nat) : Int) = _
  omega

theorem down_month {t : Moment} (ht : Valid t) (r : Moment) :
    whileDown (fun x => x.month == t.month) t = .ok r ↔
      (Cal r ∧ r.nanos = t.nanos ∧ monthNum r = monthNum t - 1 ∧ r.day = daysIn r.year r.month) ∧ -262143 ≤ r.year := by
  rw [whileDown_iff ht]
  have bt := bounds ht.1
  constructor
  · rintro ⟨r1, r2, r3, r4, r5, r6⟩
    simp only [beq_eq_false_iff_ne, ne_eq, beq_iff_eq] at r5 r6
    have hT := last_cal (monthNum t - 1) ht.1.time
    obtain ⟨e1, e2, e3, e4⟩ := last_eqs (monthNum t - 1) t.nanos
    unfold monthNum at e1 e2
    have br := bounds r1
    have bT := bounds hT
    have o1 := ord hT ht.1
    have o2 := ord hT r1
    have o3 := ord r1 hT
    have o4 := ord r1 ht.1
    unfold monthNum at hT o1 o2 o3 bT
    have h1 := r6 _ hT e4
    have ne : ¬ num r < num (lastOf (monthNum t - 1) t.nanos) := by
      unfold monthNum
      intro h
      have := h1 h (by rw [o1.2, e1, e2]; omega)
      omega
    have ne2 : ¬ num (lastOf (monthNum t - 1) t.nanos) < num r := by
      unfold monthNum
      intro h
      rw [o2.1, e1, e2] at h
      rw [o4.2] at r3
      have hd := (cal_iff.mp r1).2.2.1
      unfold monthNum at e3
      by_cases hmn : r.month = t.month
      · exact r5 hmn
      · have h5 : 12 * r.year + r.month = 12 * t.year + t.month - 1 := by omega
        have h6 : (lastOf (12 * t.year + t.month - 1) t.nanos).year = r.year := by omega
        have h7 : (lastOf (12 * t.year + t.month - 1) t.nanos).month = r.month := by omega
        rw [h6, h7] at e3
        omega
    have heq : r = lastOf (monthNum t - 1) t.nanos :=
      num_inj r1 (last_cal _ ht.1.time) (by omega) r2
    refine ⟨⟨r1, r2, ?_, by rw [heq]; rfl⟩, r4⟩
    rw [heq]
    unfold monthNum
    rw [e1, e2]
    omega
  · rintro ⟨⟨r1, r2, r3, r4⟩, r5⟩
    have br := bounds r1
    have o := ord r1 ht.1
    unfold monthNum at r3
    refine ⟨r1, r2, by rw [o.2]; omega, r5, by simp; omega, ?_⟩
    intro x hx hn h1 h2
    have bx := bounds hx
    rw [(ord hx ht.1).2] at h2
    rw [(ord r1 hx).1] at h1
    simp only [beq_iff_eq]
    have hd := (cal_iff.mp hx).2.2.1
    by_cases hmn : x.month = t.month
    · exact hmn
    · exfalso
      have h5 : x.month = r.month := by omega
      have h6 : x.year = r.year := by omega
      rw [h5, h6, ← r4] at hd
      omega

theorem rollUp_iff {t : Moment} (ht : Valid t) (n : Nat) (r : Moment) :
    rollUp (n + 1) t = .ok r ↔
      (Cal r ∧ r.nanos = t.nanos ∧ monthNum r = monthNum t + (n + 1 : Nat) ∧ r.day = 1) ∧ r.year ≤ 262142 := by
  induction n generalizing t with
  | zero =>
    show (whileUp (fun x => x.month == t.month) t).bind (fun x => .ok x) = _ ↔ _
    have : (whileUp (fun x => x.month == t.month) t).bind (fun x => .ok x) = whileUp (fun x => x.month == t.month) t := by
      cases whileUp (fun x => x.month == t.month) t <;> rfl
    rw [this, up_month ht]
    simp
  | succ n ih =>
    rw [rollUp, bind_ok_iff]
    have bt := bounds ht.1
    constructor
    · rintro ⟨m, hm, hr⟩
      obtain ⟨⟨m1, m2, m3, m4⟩, m5⟩ := (up_month ht m).mp hm
      have bm := bounds m1
      have vm : Valid m := by
        refine up_valid ht m1 ?_ m5
        rw [(ord ht.1 m1).2]; unfold monthNum at m3; omega
      obtain ⟨⟨r1, r2, r3, r4⟩, r5⟩ := (ih vm).mp hr
      exact ⟨⟨r1, r2.trans m2, by rw [r3, m3]; omega, r4⟩, r5⟩
    · rintro ⟨⟨r1, r2, r3, r4⟩, r5⟩
      have hT := first_cal (monthNum t + 1) ht.1.time
      obtain ⟨e1, e2, e3, e4⟩ := first_eqs (monthNum t + 1) t.nanos
      have br := bounds r1
      have e5 : monthNum (firstOf (monthNum t + 1) t.nanos) = monthNum t + 1 := by
        rw [monthNum, e1, e2]; omega
      have h5 : (firstOf (monthNum t + 1) t.nanos).year ≤ 262142 := by
        rw [e1]; unfold monthNum at r3 ⊢; omega
      refine ⟨_, (up_month ht _).mpr ⟨⟨hT, e4, e5, e3⟩, h5⟩, ?_⟩
      have vm : Valid (firstOf (monthNum t + 1) t.nanos) := by
        refine up_valid ht hT ?_ h5
        rw [(ord ht.1 hT).2, e1, e2, e3]; unfold monthNum; omega
      exact (ih vm).mpr ⟨⟨r1, r2, by rw [e5, r3]; omega, r4⟩, r5⟩

theorem rollDown_iff {t : Moment} (ht : Valid t) (n : Nat) (r : Moment) :
    rollDown (n + 1) t = .ok r ↔
      (Cal r ∧ r.nanos = t.nanos ∧ monthNum r = monthNum t - (n + 1 : Nat) ∧ r.day = daysIn r.year r.month) ∧
        -262143 ≤ r.year := by
  induction n generalizing t with
  | zero =>
    show (whileDown (fun x => x.month == t.month) t).bind (fun x => .ok x) = _ ↔ _
    have : (whileDown (fun x => x.month == t.month) t).bind (fun x => .ok x) =
        whileDown (fun x => x.month == t.month) t := by
      cases whileDown (fun x => x.month == t.month) t <;> rfl
    rw [this, down_month ht]
    simp
  | succ n ih =>
    rw [rollDown, bind_ok_iff]
    have bt := bounds ht.1
    constructor
    · rintro ⟨m, hm, hr⟩
      obtain ⟨⟨m1, m2, m3, m4⟩, m5⟩ := (down_month ht m).mp hm
      have bm := bounds m1
      have vm : Valid m := by
        refine down_valid ht m1 ?_ m5
        rw [(ord m1 ht.1).2]; unfold monthNum at m3; omega
      obtain ⟨⟨r1, r2, r3, r4⟩, r5⟩ := (ih vm).mp hr
      exact ⟨⟨r1, r2.trans m2, by rw [r3, m3]; omega, r4⟩, r5⟩
    · rintro ⟨⟨r1, r2, r3, r4⟩, r5⟩
      have hT := last_cal (monthNum t - 1) ht.1.time
      obtain ⟨e1, e2, e3, e4⟩ := last_eqs (monthNum t - 1) t.nanos
      have br := bounds r1
      have bT := bounds hT
      have e5 : monthNum (lastOf (monthNum t - 1) t.nanos) = monthNum t - 1 := by
        rw [monthNum, e1, e2]; omega
      have h5 : -262143 ≤ (lastOf (monthNum t - 1) t.nanos).year := by
        rw [e1]; unfold monthNum at r3 ⊢; omega
      refine ⟨_, (down_month ht _).mpr ⟨⟨hT, e4, e5, e3⟩, h5⟩, ?_⟩
      have vm : Valid (lastOf (monthNum t - 1) t.nanos) := by
        refine down_valid ht hT ?_ h5
        rw [(ord hT ht.1).2, e1, e2]; unfold monthNum; unfold monthNum at bT; omega
      exact (ih vm).mpr ⟨⟨r1, r2, by rw [e5, r3]; omega, r4⟩, r5⟩

/-! ### Names of months -/

theorem first_month {y : Int} {m nanos : Nat} (hm : 1 ≤ m ∧ m ≤ 12) (h : nanos < 86400000000000) :
    Cal ⟨y, m, 1, nanos⟩ := by
  rw [cal_iff]
  have := daysIn_bounds y m
  exact ⟨hm, by simp, by simp only; omega, h⟩

theorem up_name {t : Moment} (ht : Valid t) {i : Nat} (hi : 1 ≤ i ∧ i ≤ 12) (r : Moment) :
    adjustUp (fun x => x.month == i) t = .ok r ↔
      (Cal r ∧ r.nanos = t.nanos ∧ r.month = i ∧ r.day = 1 ∧
        r.year = if t.month < i then t.year else t.year + 1) ∧ r.year ≤ 262142 := by
  unfold adjustUp
  rw [bind_ok_iff]
  have bt := bounds ht.1
  constructor
  · rintro ⟨m, hm, hr⟩
    obtain ⟨m1, m2, m3, m4, m5, m6⟩ := (whileUp_iff ht _ _).mp hm
    have vm := up_valid ht m1 m3 m4
    obtain ⟨r1, r2, r3, r4, r5, r6⟩ := (whileUp_iff vm _ _).mp hr
    simp only [beq_eq_false_iff_ne, ne_eq, Bool.not_eq_true', beq_iff_eq, Bool.not_eq_false', bne_iff_ne] at m5 m6 r5 r6
    have bm := bounds m1
    have br := bounds r1
    have hT : Cal ⟨if t.month < i then t.year else t.year + 1, i, 1, t.nanos⟩ := first_month hi ht.1.time
    generalize hy : (if t.month < i then t.year else t.year + 1) = y at hT ⊢
    have hy' : (t.month < i ∧ y = t.year) ∨ (i ≤ t.month ∧ y = t.year + 1) := by split at hy <;> omega
    have o1 := (ord ht.1 hT).2
    have o2 := (ord hT r1).1
    have o3 := (ord r1 hT).1
    have o4 := (ord ht.1 m1).2
    have o5 := (ord m1 hT).2
    have o6 := (ord m1 r1).2
    obtain ⟨x1, x2, x3⟩ := pred_cal hT
    have bx := bounds x1
    have ne : ¬ num ⟨y, i, 1, t.nanos⟩ < num r := by
      intro h
      by_cases c : num m ≤ num ⟨y, i, 1, t.nanos⟩
      · exact r6 _ hT m2.symm c h rfl
      · have xt := (ord ht.1 x1).2
        have xT := (ord x1 hT).1
        have x2' : num (predDay ⟨y, i, 1, t.nanos⟩) = num ⟨y, i, 1, t.nanos⟩ - 1 := x2
        have htT : num t < num ⟨y, i, 1, t.nanos⟩ := by
          rw [(ord ht.1 hT).1]; simp only; omega
        have := m6 _ x1 x3 (by omega) (by omega)
        have e : (predDay ⟨y, i, 1, t.nanos⟩).month ≠ i := by
          unfold predDay
          simp only [Nat.lt_irrefl, if_false]
          split
          · show i - 1 ≠ i; omega
          · show 12 ≠ i; omega
        exact e this
    have ne2 : ¬ num r < num ⟨y, i, 1, t.nanos⟩ := by
      intro h
      rw [o3] at h
      rw [o4] at m3
      rw [o6] at r3
      simp only at h
      omega
    have heq : r = ⟨y, i, 1, t.nanos⟩ := num_inj r1 hT (by omega) (r2.trans m2)
    rw [heq] at r4 ⊢
    exact ⟨⟨hT, rfl, rfl, rfl, rfl⟩, r4⟩
  · rintro ⟨⟨r1, r2, r3, r4, r5⟩, r6⟩
    have br := bounds r1
    have hy' : (t.month < i ∧ r.year = t.year) ∨ (i ≤ t.month ∧ r.year = t.year + 1) := by split at r5 <;> omega
    by_cases hm : t.month = i
    · have hT := first_cal (monthNum t + 1) ht.1.time
      obtain ⟨e1, e2, e3, e4⟩ := first_eqs (monthNum t + 1) t.nanos
      generalize firstOf (monthNum t + 1) t.nanos = m at hT e1 e2 e3 e4
      unfold monthNum at e1 e2
      have bm := bounds hT
      have hmy : m.year ≤ 262142 := by omega
      have hmt : num t ≤ num m := by rw [(ord ht.1 hT).2]; omega
      refine ⟨m, ?_, ?_⟩
      · rw [whileUp_iff ht]
        refine ⟨hT, e4, hmt, hmy, by simp; omega, ?_⟩
        intro x hx hn h1 h2
        have bx := bounds hx
        rw [(ord ht.1 hx).2] at h1
        rw [(ord hx hT).1] at h2
        simp only [beq_iff_eq]
        omega
      · rw [whileUp_iff (up_valid ht hT hmt hmy)]
        refine ⟨r1, r2.trans e4.symm, by rw [(ord hT r1).2]; omega, r6, by simp [r3], ?_⟩
        intro x hx hn h1 h2
        have bx := bounds hx
        rw [(ord hT hx).2] at h1
        rw [(ord hx r1).1] at h2
        simp only [Bool.not_eq_true', beq_eq_false_iff_ne, ne_eq]
        omega
    · refine ⟨t, ?_, ?_⟩
      · rw [whileUp_iff ht]
        exact ⟨ht.1, rfl, by omega, ht.2.2, by simp [hm], fun x _ _ h1 h2 => by omega⟩
      · rw [whileUp_iff ht]
        refine ⟨r1, r2, by rw [(ord ht.1 r1).2]; omega, r6, by simp [r3], ?_⟩
        intro x hx hn h1 h2
        have bx := bounds hx
        rw [(ord ht.1 hx).2] at h1
        rw [(ord hx r1).1] at h2
        simp only [Bool.not_eq_true', beq_eq_false_iff_ne, ne_eq]
        omega

theorem last_month {y : Int} {m nanos : Nat} (hm : 1 ≤ m ∧ m ≤ 12) (h : nanos < 86400000000000) :
    Cal ⟨y, m, daysIn y m, nanos⟩ := by
  rw [cal_iff]
  have := daysIn_bounds y m
  exact ⟨hm, by simp only; omega, by simp, h⟩

theorem down_name {t : Moment} (ht : Valid t) {i : Nat} (hi : 1 ≤ i ∧ i ≤ 12) (r : Moment) :
    adjustDown (fun x => x.month == i) t = .ok r ↔
      (Cal r ∧ r.nanos = t.nanos ∧ r.month = i ∧ r.day = daysIn r.year i ∧
        r.year = if i < t.month then t.year else t.year - 1) ∧ -262143 ≤ r.year := by
  unfold adjustDown
  rw [bind_ok_iff]
  have bt := bounds ht.1
  constructor
  · rintro ⟨m, hm, hr⟩
    obtain ⟨m1, m2, m3, m4, m5, m6⟩ := (whileDown_iff ht _ _).mp hm
    have vm := down_valid ht m1 m3 m4
    obtain ⟨r1, r2, r3, r4, r5, r6⟩ := (whileDown_iff vm _ _).mp hr
    simp only [beq_eq_false_iff_ne, ne_eq, Bool.not_eq_true', beq_iff_eq, Bool.not_eq_false', bne_iff_ne] at m5 m6 r5 r6
    have bm := bounds m1
    have br := bounds r1
    generalize hy : (if i < t.month then t.year else t.year - 1) = y
    have hT : Cal ⟨y, i, daysIn y i, t.nanos⟩ := last_month hi ht.1.time
    have bT := bounds hT
    have hy' : (i < t.month ∧ y = t.year) ∨ (t.month ≤ i ∧ y = t.year - 1) := by split at hy <;> omega
    have o3 := (ord hT r1).1
    have o4 := (ord m1 ht.1).2
    have o6 := (ord r1 m1).2
    obtain ⟨x1, x2, x3⟩ := succ_cal hT
    have bx := bounds x1
    have ne : ¬ num r < num ⟨y, i, daysIn y i, t.nanos⟩ := by
      intro h
      by_cases c : num ⟨y, i, daysIn y i, t.nanos⟩ ≤ num m
      · exact r6 _ hT m2.symm h c rfl
      · have x2' : num (succDay ⟨y, i, daysIn y i, t.nanos⟩) = num ⟨y, i, daysIn y i, t.nanos⟩ + 1 := x2
        have htT : num ⟨y, i, daysIn y i, t.nanos⟩ < num t := by
          rw [(ord hT ht.1).1]; simp only at bT ⊢; omega
        have := m6 _ x1 x3 (by omega) (by omega)
        have e : (succDay ⟨y, i, daysIn y i, t.nanos⟩).month ≠ i := by
          unfold succDay
          simp only [Nat.lt_irrefl, if_false]
          split
          · show i + 1 ≠ i; omega
          · show 1 ≠ i; omega
        exact e this
    have ne2 : ¬ num ⟨y, i, daysIn y i, t.nanos⟩ < num r := by
      intro h
      rw [o3] at h
      rw [o4] at m3
      rw [o6] at r3
      simp only at h bT
      by_cases e : r.year = y
      · have := (cal_iff.mp r1).2.2.1
        rw [r5, e] at this
        omega
      · omega
    have heq : r = ⟨y, i, daysIn y i, t.nanos⟩ := num_inj r1 hT (by omega) (r2.trans m2)
    rw [heq] at r4 ⊢
    exact ⟨⟨hT, rfl, rfl, rfl, rfl⟩, r4⟩
  · rintro ⟨⟨r1, r2, r3, r4, r5⟩, r6⟩
    have br := bounds r1
    have hy' : (i < t.month ∧ r.year = t.year) ∨ (t.month ≤ i ∧ r.year = t.year - 1) := by split at r5 <;> omega
    have key : ∀ x, Cal x → num r < num x → num x ≤ num t → x.month = i → x.year = t.year ∧ t.month = i := by
      intro x hx h1 h2 h3
      have bx := bounds hx
      have hd := (cal_iff.mp hx).2.2.1
      rw [h3] at hd
      rw [(ord r1 hx).1] at h1
      rw [(ord hx ht.1).2] at h2
      by_cases e : x.year = r.year
      · rw [e, ← r4] at hd; omega
      · omega
    by_cases hm : t.month = i
    · have hT := last_cal (monthNum t - 1) ht.1.time
      obtain ⟨e1, e2, -, e4⟩ := last_eqs (monthNum t - 1) t.nanos
      have e3 : (lastOf (monthNum t - 1) t.nanos).day =
        daysIn (lastOf (monthNum t - 1) t.nanos).year (lastOf (monthNum t - 1) t.nanos).month := rfl
      generalize lastOf (monthNum t - 1) t.nanos = m at hT e1 e2 e3 e4
      unfold monthNum at e1 e2
      have bm := bounds hT
      have hmy : -262143 ≤ m.year := by omega
      have hmt : num m ≤ num t := by rw [(ord hT ht.1).2]; omega
      refine ⟨m, ?_, ?_⟩
      · rw [whileDown_iff ht]
        refine ⟨hT, e4, hmt, hmy, by simp; omega, ?_⟩
        intro x hx hn h1 h2
        have bx := bounds hx
        have hd := (cal_iff.mp hx).2.2.1
        rw [(ord hx ht.1).2] at h2
        rw [(ord hT hx).1] at h1
        simp only [beq_iff_eq]
        by_cases c : x.month = i
        · exact c
        · exfalso
          have h5 : x.month = m.month := by omega
          have h6 : x.year = m.year := by omega
          rw [h5, h6, ← e3] at hd
          omega
      · rw [whileDown_iff (down_valid ht hT hmt hmy)]
        refine ⟨r1, r2.trans e4.symm, by rw [(ord r1 hT).2]; omega, r6, by simp [r3], ?_⟩
        intro x hx hn h1 h2
        simp only [Bool.not_eq_true', beq_eq_false_iff_ne, ne_eq]
        intro c
        have := key x hx h1 (by omega) c
        have bx := bounds hx
        rw [(ord hx hT).2] at h2
        omega
    · refine ⟨t, ?_, ?_⟩
      · rw [whileDown_iff ht]
        exact ⟨ht.1, rfl, by omega, ht.2.1, by simp [hm], fun x _ _ h1 h2 => by omega⟩
      · rw [whileDown_iff ht]
        refine ⟨r1, r2, by rw [(ord r1 ht.1).2]; omega, r6, by simp [r3], ?_⟩
        intro x hx hn h1 h2
        simp only [Bool.not_eq_true', beq_eq_false_iff_ne, ne_eq]
        intro c
        exact hm (key x hx h1 h2 c).2

/-! ### Durations -/

theorem inRange_iff (t r : Moment) : inRange t = .ok r ↔ r = t ∧ -262143 ≤ t.year ∧ t.year ≤ 262142 := by
  unfold inRange minYear maxYear
  split
  · rename_i h
    simp only [Res.ok.injEq]
    constructor
    · intro e; exact ⟨e.symm, h⟩
    · rintro ⟨e, -⟩; exact e.symm
  · rename_i h
    constructor
    · intro e; cases e
    · rintro ⟨-, e⟩; exact absurd e h

theorem instant_inj {s t : Moment} (hs : Cal s) (ht : Cal t) (h : instant s = instant t) : s = t := by
  have h1 := hs.time
  have h2 := ht.time
  unfold instant at h
  exact num_inj hs ht (by omega) (by omega)

theorem addMillis_iff {t : Moment} (ht : Cal t) (ms : Int) (r : Moment) :
    addMillis t ms = .ok r ↔ Valid r ∧ instant r = instant t + ms * 1000000 := by
  unfold addMillis
  simp only
  rw [inRange_iff]
  obtain ⟨h1, h2, h3⟩ := shift_cal ht (((t.nanos : Int) + ms * 1000000) / dayNanos)
  have hc : Cal { shiftDays t (((t.nanos : Int) + ms * 1000000) / dayNanos) with
      nanos := (((t.nanos : Int) + ms * 1000000) % dayNanos).toNat } := by
    refine ⟨h1.1, h1.2, h1.3, h1.4, h1.5, ?_⟩
    simp only [dayNanos]
    omega
  have hi : instant { shiftDays t (((t.nanos : Int) + ms * 1000000) / dayNanos) with
      nanos := (((t.nanos : Int) + ms * 1000000) % dayNanos).toNat } = instant t + ms * 1000000 := by
    have : num { shiftDays t (((t.nanos : Int) + ms * 1000000) / dayNanos) with
      nanos := (((t.nanos : Int) + ms * 1000000) % dayNanos).toNat } =
        num t + ((t.nanos : Int) + ms * 1000000) / dayNanos := h2
    unfold instant
    rw [this]
    simp only [dayNanos]
    omega
  constructor
  · rintro ⟨rfl, h4⟩
    exact ⟨⟨hc, h4⟩, hi⟩
  · rintro ⟨⟨h4, h5⟩, h6⟩
    have e := instant_inj h4 hc (h6.trans hi.symm)
    exact ⟨e, by rw [← e]; exact h5⟩

theorem addMillis_err (t : Moment) (ms : Int) : addMillis t ms ≠ .err := by
  unfold addMillis inRange
  simp only
  split <;> simp

theorem asI64_small {n : Nat} (h : n < 2 ^ 63) : asI64 n = n := by
  unfold asI64
  have : n % 2 ^ 64 = n := Nat.mod_eq_of_lt (by omega)
  rw [this, if_pos h]

theorem asI32_small {n : Nat} (h : n < 2 ^ 31) : asI32 n = n := by
  unfold asI32
  have : n % 2 ^ 32 = n := Nat.mod_eq_of_lt (by omega)
  rw [this, if_pos h]

theorem shiftBy_small {n k : Nat} (hk : 0 < k) (h : n * k < 2 ^ 63) (t : Moment) (o : Op) :
    shiftBy t n k o = addMillis t (sgn o * (n * k)) := by
  have hn : n < 2 ^ 63 := Nat.lt_of_le_of_lt (Nat.le_mul_of_pos_right n hk) h
  unfold shiftBy
  rw [asI64_small hn, if_pos (by rw [show ((n : Int) * k).natAbs = n * k by rw [Int.natAbs_mul]; rfl]; exact h)]
  cases o <;> simp [sgn]

theorem shiftBy_iff {t : Moment} (ht : Cal t) {n k : Nat} (hk : 0 < k) (h : n * k < 2 ^ 63) (o : Op) (r : Moment) :
    shiftBy t n k o = .ok r ↔ Valid r ∧ instant r = instant t + sgn o * (n * k * 1000000) := by
  rw [shiftBy_small hk h, addMillis_iff ht, Int.mul_assoc (sgn o)]

/-! ### One adjustment -/

/-- Names stand for the seven days and the twelve months. -/
def UnitOk : DateUnit → Prop
  | .weekday i => 1 ≤ i ∧ i ≤ 7
  | .monthName i => 1 ≤ i ∧ i ≤ 12
  | _ => True

theorem up_year {t r : Moment} (ht : Valid t) (hr : Cal r) (h : num t ≤ num r) : -262143 ≤ r.year :=
  (ge_min hr).mp (by have := (ge_min ht.1).mpr ht.2.1; omega)

theorem down_year {t r : Moment} (ht : Valid t) (hr : Cal r) (h : num r ≤ num t) : r.year ≤ 262142 :=
  (le_max hr).mp (by have := (le_max ht.1).mpr ht.2.2; omega)

theorem cal_day {r : Moment} (hr : Cal r) {d : Nat} (hd : 1 ≤ d) : Cal { r with day := d } ↔ d ≤ daysIn r.year r.month := by
  rw [cal_iff] at hr ⊢
  constructor
  · exact fun h => h.2.2.1
  · exact fun h => ⟨hr.1, hd, h, hr.2.2.2⟩

theorem withDay_get {x : Moment} (hx : Cal x) {d : Nat} (hd : 1 ≤ d) (r : Moment) :
    (withDay x d).getD x = r ↔ (Cal { x with day := d } ∧ r = { x with day := d }) ∨
      (¬ Cal { x with day := d } ∧ r = x) := by
  unfold withDay
  rw [cal_day hx hd]
  split
  · rename_i h
    simp only [Option.getD_some]
    constructor
    · intro e; exact Or.inl ⟨h.2, e.symm⟩
    · rintro (⟨-, e⟩ | ⟨e, -⟩)
      · exact e.symm
      · exact absurd h.2 e
  · rename_i h
    simp only [Option.getD_none]
    have h' : ¬ d ≤ daysIn x.year x.month := fun c => h ⟨hd, c⟩
    constructor
    · intro e; exact Or.inr ⟨h', e.symm⟩
    · rintro (⟨e, -⟩ | ⟨-, e⟩)
      · exact absurd e h'
      · exact e.symm

theorem moment_ext {s t : Moment} (h1 : s.year = t.year) (h2 : s.month = t.month) (h3 : s.day = t.day)
    (h4 : s.nanos = t.nanos) : s = t := by
  cases s; cases t; simp_all

theorem month_split {s t : Moment} (hs : Cal s) (ht : Cal t) (h : monthNum s = monthNum t) :
    s.year = t.year ∧ s.month = t.month := by
  have := bounds hs
  have := bounds ht
  unfold monthNum at h
  omega

theorem days_shift {t r : Moment} (n : Int) (k : Nat) (ht : Cal t) (hr : Cal r) :
    instant r = instant t + n * (k * 86400000 * 1000000) ↔ r.nanos = t.nanos ∧ num r = num t + n * k := by
  have h1 := ht.time
  have h2 := hr.time
  have e : n * ((k : Int) * 86400000 * 1000000) = (n * k) * 86400000000000 := by
    rw [Int.mul_assoc (k : Int), ← Int.mul_assoc n]; rfl
  unfold instant
  rw [e]
  generalize n * (k : Int) = x
  omega

theorem day_ok {t : Moment} (ht : Valid t) {n : Nat} (h : n ≤ 2000000000) (o : Op) (r : Moment) :
    shiftBy t n 86400000 o = .ok r ↔ (Cal r ∧ r.nanos = t.nanos ∧ num r = num t + sgn o * n) ∧ Valid r := by
  rw [shiftBy_iff ht.1 (by decide) (by omega)]
  constructor
  · rintro ⟨h1, h2⟩
    exact ⟨⟨h1.1, (days_shift (sgn o) n ht.1 h1.1).mp h2⟩, h1⟩
  · rintro ⟨⟨h1, h2⟩, h3⟩
    exact ⟨h3, (days_shift (sgn o) n ht.1 h3.1).mpr h2⟩

theorem week_ok {t : Moment} (ht : Valid t) {n : Nat} (h : n ≤ 2000000000) (o : Op) (r : Moment) :
    shiftBy t n 604800000 o = .ok r ↔ (Cal r ∧ r.nanos = t.nanos ∧ num r = num t + sgn o * (7 * n)) ∧ Valid r := by
  rw [shiftBy_iff ht.1 (by decide) (by omega)]
  have e : sgn o * ((n : Int) * (604800000 : Nat) * 1000000) = sgn o * (((7 * n : Nat) : Int) * 86400000 * 1000000) := by
    have : (n : Int) * (604800000 : Nat) * 1000000 = ((7 * n : Nat) : Int) * 86400000 * 1000000 := by omega
    rw [this]
  rw [e]
  have e2 : (7 * (n : Int)) = ((7 * n : Nat) : Int) := by omega
  rw [e2]
  constructor
  · rintro ⟨h1, h2⟩
    exact ⟨⟨h1.1, (days_shift (sgn o) (7 * n) ht.1 h1.1).mp h2⟩, h1⟩
  · rintro ⟨⟨h1, h2⟩, h3⟩
    exact ⟨h3, (days_shift (sgn o) (7 * n) ht.1 h3.1).mpr h2⟩

theorem month_up_ok {t : Moment} (ht : Valid t) (n : Nat) (r : Moment) :
    (rollUp (n + 1) t).map (fun x => (withDay x t.day).getD x) = .ok r ↔
      (Cal r ∧ r.nanos = t.nanos ∧ monthNum r = monthNum t + (n + 1 : Nat) ∧
        (r.day = t.day ∨ ¬ Cal { r with day := t.day } ∧ r.day = 1)) ∧ Valid r := by
  rw [map_ok_iff]
  have hd := ht.1.day.1
  have bt := bounds ht.1
  constructor
  · rintro ⟨x, hx, hr⟩
    obtain ⟨⟨x1, x2, x3, x4⟩, x5⟩ := (rollUp_iff ht n x).mp hx
    have bx := bounds x1
    have hxy : -262143 ≤ x.year := up_year ht x1 (by
      rw [(ord ht.1 x1).2]; unfold monthNum at x3; omega)
    rcases (withDay_get x1 hd r).mp hr with ⟨c, rfl⟩ | ⟨c, rfl⟩
    · exact ⟨⟨c, x2, x3, Or.inl rfl⟩, c, hxy, x5⟩
    · exact ⟨⟨x1, x2, x3, Or.inr ⟨c, x4⟩⟩, x1, hxy, x5⟩
  · rintro ⟨⟨r1, r2, r3, r4⟩, rv⟩
    have hT : Cal { r with day := 1 } := by
      rw [cal_day r1 (by omega)]
      have := daysIn_bounds r.year r.month
      omega
    refine ⟨{ r with day := 1 }, (rollUp_iff ht n _).mpr ⟨⟨hT, r2, r3, rfl⟩, rv.2.2⟩, ?_⟩
    rw [withDay_get hT hd]
    rcases r4 with e | ⟨e, e1⟩
    · have : r = { r with day := t.day } := moment_ext rfl rfl e rfl
      exact Or.inl ⟨by rw [this] at r1; exact r1, this⟩
    · exact Or.inr ⟨e, moment_ext rfl rfl e1 rfl⟩

theorem month_down_ok {t : Moment} (ht : Valid t) (n : Nat) (r : Moment) :
    (rollDown (n + 1) t).map (fun x => (withDay x t.day).getD x) = .ok r ↔
      (Cal r ∧ r.nanos = t.nanos ∧ monthNum r = monthNum t - (n + 1 : Nat) ∧
        (r.day = t.day ∨ ¬ Cal { r with day := t.day } ∧ ¬ Cal { r with day := r.day + 1 })) ∧ Valid r := by
  rw [map_ok_iff]
  have hd := ht.1.day.1
  have bt := bounds ht.1
  constructor
  · rintro ⟨x, hx, hr⟩
    obtain ⟨⟨x1, x2, x3, x4⟩, x5⟩ := (rollDown_iff ht n x).mp hx
    have bx := bounds x1
    have hxy : x.year ≤ 262142 := down_year ht x1 (by
      rw [(ord x1 ht.1).2]; unfold monthNum at x3; omega)
    rcases (withDay_get x1 hd r).mp hr with ⟨c, rfl⟩ | ⟨c, rfl⟩
    · exact ⟨⟨c, x2, x3, Or.inl rfl⟩, c, x5, hxy⟩
    · refine ⟨⟨x1, x2, x3, Or.inr ⟨c, ?_⟩⟩, x1, x5, hxy⟩
      rw [cal_day x1 (by omega)]
      omega
  · rintro ⟨⟨r1, r2, r3, r4⟩, rv⟩
    have br := bounds r1
    have hT : Cal { r with day := daysIn r.year r.month } := by
      rw [cal_day r1 (by have := daysIn_bounds r.year r.month; omega)]
      exact Nat.le_refl _
    refine ⟨{ r with day := daysIn r.year r.month }, (rollDown_iff ht n _).mpr ⟨⟨hT, r2, r3, rfl⟩, rv.2.1⟩, ?_⟩
    rw [withDay_get hT hd]
    rcases r4 with e | ⟨e, e1⟩
    · have : r = { r with day := t.day } := moment_ext rfl rfl e rfl
      exact Or.inl ⟨by rw [this] at r1; exact r1, this⟩
    · refine Or.inr ⟨e, moment_ext rfl rfl ?_ rfl⟩
      rw [cal_day r1 (by omega)] at e1
      have := (cal_iff.mp r1).2.2.1
      show r.day = daysIn r.year r.month
      omega

theorem month_ok {t : Moment} (ht : Valid t) {a : Adj DateUnit} (hu : a.unit = .month) (hv : a.value ≤ 2000000000)
    (r : Moment) : adjust a t = .ok r ↔ Moves a t r ∧ Valid r := by
  obtain ⟨u, n, o⟩ := a
  simp only at hu hv
  subst hu
  have hn := asI64_small (n := n) (by omega)
  cases n with
  | zero =>
    have e : adjust ⟨.month, 0, o⟩ t = .ok t := by
      cases o
      · rfl
      · rfl
    rw [e]
    unfold Moves
    simp only [Nat.lt_irrefl, false_implies, and_true, true_implies, Res.ok.injEq]
    constructor
    · rintro rfl; exact ⟨⟨ht.1, rfl, rfl⟩, ht⟩
    · rintro ⟨⟨-, -, e⟩, -⟩; exact e.symm
  | succ n =>
    cases o
    · have e : adjust ⟨.month, n + 1, .plus⟩ t = (rollUp (n + 1) t).map (fun x => (withDay x t.day).getD x) := by
        show rollMonth t (asI64 (n + 1)) = _
        rw [hn, rollMonth, if_pos (by omega)]
        rfl
      rw [e, month_up_ok ht]
      unfold Moves
      simp [sgn]
    · have e : adjust ⟨.month, n + 1, .minus⟩ t = (rollDown (n + 1) t).map (fun x => (withDay x t.day).getD x) := by
        show (if asI64 (n + 1) = -2 ^ 63 then Res.panic else rollMonth t (-asI64 (n + 1))) = _
        rw [hn, if_neg (by omega), rollMonth, if_neg (by omega), if_pos (by omega)]
        rw [show (- -((n + 1 : Nat) : Int)).toNat = n + 1 by omega]
      rw [e, month_down_ok ht]
      unfold Moves
      simp [sgn, Int.sub_eq_add_neg]

theorem year_ok {t : Moment} (ht : Valid t) {n : Nat} (hv : n ≤ 2000000000) (o : Op) (r : Moment) :
    adjust ⟨.year, n, o⟩ t = .ok r ↔ Moves ⟨.year, n, o⟩ t r ∧ Valid r := by
  have e : adjust ⟨.year, n, o⟩ t = .ok ((withYear t (t.year + sgn o * n)).getD t) := by
    have hb := ht.2
    cases o
    · show rollYear t (t.year + asI32 n) = _
      rw [asI32_small (by omega), rollYear, if_pos (by omega)]
      simp [sgn]
    · show rollYear t (t.year - asI32 n) = _
      rw [asI32_small (by omega), rollYear, if_pos (by omega)]
      simp [sgn, Int.sub_eq_add_neg]
  rw [e]
  unfold Moves
  simp only [Res.ok.injEq]
  have hv' : Valid { t with year := t.year + sgn o * n } ↔
      minYear ≤ t.year + sgn o * n ∧ t.year + sgn o * n ≤ maxYear ∧ t.day ≤ daysIn (t.year + sgn o * n) t.month := by
    unfold Valid minYear maxYear
    rw [cal_iff]
    have := cal_iff.mp ht.1
    constructor
    · rintro ⟨⟨-, -, h1, -⟩, h2, h3⟩; exact ⟨h2, h3, h1⟩
    · rintro ⟨h1, h2, h3⟩; exact ⟨⟨this.1, this.2.1, h3, this.2.2.2⟩, h1, h2⟩
  unfold withYear
  split
  · rename_i h
    have h' := hv'.mpr h
    simp only [Option.getD_some]
    constructor
    · rintro rfl
      exact ⟨⟨h'.1, rfl, fun _ => rfl, fun c => absurd h' c⟩, h'⟩
    · rintro ⟨⟨-, -, h3, -⟩, -⟩
      exact (h3 h').symm
  · rename_i h
    have h' := fun c => h (hv'.mp c)
    simp only [Option.getD_none]
    constructor
    · rintro rfl
      exact ⟨⟨ht.1, rfl, fun c => absurd c h', fun _ => rfl⟩, ht⟩
    · rintro ⟨⟨-, -, -, h4⟩, -⟩
      exact (h4 h').symm

/-- C96: an adjustment moves a date as documented (whole days and weeks; months and years with the day of the month when
there is one; the next or last day of the week; the first day of the next or last month of that name), for every date
and every value up to two thousand million; the result is in the range of `chrono`. -/
theorem C96_step {t : Moment} (ht : Valid t) {a : Adj DateUnit} (ha : UnitOk a.unit) (hv : a.value ≤ 2000000000)
    (r : Moment) : adjust a t = .ok r ↔ Moves a t r ∧ Valid r := by
  obtain ⟨u, n, o⟩ := a
  simp only at ha hv
  cases u with
  | day =>
    have : adjust ⟨.day, n, o⟩ t = shiftBy t n 86400000 o := by cases o <;> rfl
    rw [this, day_ok ht hv]
    rfl
  | week =>
    have : adjust ⟨.week, n, o⟩ t = shiftBy t n 604800000 o := by cases o <;> rfl
    rw [this, week_ok ht hv]
    rfl
  | month => exact month_ok ht rfl hv r
  | year => exact year_ok ht hv o r
  | weekday i =>
    cases o
    · show adjustUp (fun x => weekday x == i) t = .ok r ↔ _
      rw [up_weekday ht ha]
      unfold Moves
      simp only
      constructor
      · rintro ⟨h1, h2⟩
        exact ⟨h1, up_valid ht h1.1 (by omega) h2⟩
      · rintro ⟨h1, h2⟩
        exact ⟨h1, h2.2.2⟩
    · show adjustDown (fun x => weekday x == i) t = .ok r ↔ _
      rw [down_weekday ht ha]
      unfold Moves
      simp only
      constructor
      · rintro ⟨h1, h2⟩
        exact ⟨h1, down_valid ht h1.1 (by omega) h2⟩
      · rintro ⟨h1, h2⟩
        exact ⟨h1, h2.2.1⟩
  | monthName i =>
    have bt := bounds ht.1
    have ha' : 1 ≤ i ∧ i ≤ 12 := ha
    cases o
    · show adjustUp (fun x => x.month == i) t = .ok r ↔ _
      rw [up_name ht ha]
      unfold Moves
      simp only
      constructor
      · rintro ⟨h1, h2⟩
        refine ⟨h1, up_valid ht h1.1 ?_ h2⟩
        obtain ⟨c, -, hm, hd, hy⟩ := h1
        rw [(ord ht.1 c).2]
        split at hy <;> omega
      · rintro ⟨h1, h2⟩
        exact ⟨h1, h2.2.2⟩
    · show (adjustDown (fun x => x.month == i) t).map (fun x => (withDay x 1).getD t) = .ok r ↔ _
      rw [map_ok_iff]
      have hw : ∀ x : Moment, (withDay x 1).getD t = { x with day := 1 } := by
        intro x
        unfold withDay
        rw [if_pos ⟨Nat.le_refl 1, by have := daysIn_bounds x.year x.month; omega⟩]
        rfl
      unfold Moves
      simp only
      constructor
      · rintro ⟨x, hx, rfl⟩
        rw [hw]
        obtain ⟨⟨x1, x2, x3, x4, x5⟩, x6⟩ := (down_name ht ha x).mp hx
        have c : Cal { x with day := 1 } := by
          rw [cal_day x1 (by omega)]; have := daysIn_bounds x.year x.month; omega
        refine ⟨⟨c, x2, x3, rfl, x5⟩, c, x6, ?_⟩
        show x.year ≤ 262142
        have := ht.2
        split at x5 <;> omega
      · rintro ⟨⟨r1, r2, r3, r4, r5⟩, rv⟩
        refine ⟨{ r with day := daysIn r.year i }, (down_name ht ha _).mpr ⟨⟨?_, r2, r3, rfl, r5⟩, rv.2.1⟩, ?_⟩
        · rw [cal_day r1 (by have := daysIn_bounds r.year i; omega), r3]
          exact Nat.le_refl _
        · rw [hw]
          exact moment_ext rfl rfl r4.symm rfl

theorem bind_err {A B : Type} {x : Res A} {f : A → Res B} (h : x ≠ .err) (hf : ∀ a, x = .ok a → f a ≠ .err) :
    x.bind f ≠ .err := by
  cases x with
  | ok a => exact hf a rfl
  | err => exact absurd rfl h
  | panic => simp [Res.bind]

theorem rollUp_err (n : Nat) (t : Moment) : rollUp n t ≠ .err := by
  induction n generalizing t with
  | zero => simp [rollUp]
  | succ n ih => exact bind_err (loop_err _ _ _ _) fun a _ => ih a

theorem rollDown_err (n : Nat) (t : Moment) : rollDown n t ≠ .err := by
  induction n generalizing t with
  | zero => simp [rollDown]
  | succ n ih => exact bind_err (loop_err _ _ _ _) fun a _ => ih a

theorem map_err {A B : Type} {x : Res A} {f : A → B} (h : x ≠ .err) : x.map f ≠ .err := by
  cases x <;> simp_all [Res.map]

theorem rollMonth_err (t : Moment) (n : Int) : rollMonth t n ≠ .err := by
  unfold rollMonth
  split
  · exact map_err (rollUp_err _ _)
  · split
    · exact map_err (rollDown_err _ _)
    · simp

theorem rollYear_err (t : Moment) (y : Int) : rollYear t y ≠ .err := by
  unfold rollYear
  split <;> simp

theorem shiftBy_err {n k : Nat} (hk : 0 < k) (h : n * k < 2 ^ 63) (t : Moment) (o : Op) : shiftBy t n k o ≠ .err := by
  rw [shiftBy_small hk h]
  exact addMillis_err _ _

theorem step_err {a : Adj DateUnit} (hv : a.value ≤ 2000000000) (t : Moment) : adjust a t ≠ .err := by
  obtain ⟨u, n, o⟩ := a
  simp only at hv
  cases o
  · show forward ⟨u, n, .plus⟩ t ≠ .err
    cases u
    · exact shiftBy_err (by decide) (by show n * 86400000 < 2 ^ 63; omega) t .plus
    · exact shiftBy_err (by decide) (by show n * 604800000 < 2 ^ 63; omega) t .plus
    · exact rollMonth_err _ _
    · exact rollYear_err _ _
    · exact bind_err (loop_err _ _ _ _) fun a _ => loop_err _ _ _ _
    · exact bind_err (loop_err _ _ _ _) fun a _ => loop_err _ _ _ _
  · show reverse ⟨u, n, .minus⟩ t ≠ .err
    cases u
    · exact shiftBy_err (by decide) (by show n * 86400000 < 2 ^ 63; omega) t .minus
    · exact shiftBy_err (by decide) (by show n * 604800000 < 2 ^ 63; omega) t .minus
    · show (if asI64 n = -2 ^ 63 then Res.panic else rollMonth t (-asI64 n)) ≠ .err
      split
      · simp
      · exact rollMonth_err _ _
    · exact rollYear_err _ _
    · exact bind_err (loop_err _ _ _ _) fun a _ => loop_err _ _ _ _
    · exact map_err (bind_err (loop_err _ _ _ _) fun a _ => loop_err _ _ _ _)




end DateExprProps
end Verif
