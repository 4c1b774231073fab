import Verif.Props.DateStepProps
import Verif.Props.TimeGenProps

/-
  C96, C97, C98: what date and time expressions stand for, and when they fail.
-/

set_option autoImplicit false

namespace Verif
namespace DateExprProps
open DateExpr
open DefExpr (Lib skip)
open DefExprProps (Laid Pre L0)

/-! ### Specification: expressions -/

/-- The first part of a date expression. -/
def BaseMoves (b : DateBase) (t m : Moment) : Prop :=
  match b with
  | .now => m = t
  | .today => m = t
  | .yesterday => Cal m ∧ m.nanos = t.nanos ∧ num m = num t - 1
  | .tomorrow => Cal m ∧ m.nanos = t.nanos ∧ num m = num t + 1

/-- The adjustments one after the other, each in the years `chrono` has. -/
inductive Run : List (Adj DateUnit) → Moment → Moment → Prop where
  | nil (t : Moment) : Run [] t t
  | cons (a : Adj DateUnit) (as : List (Adj DateUnit)) (t m r : Moment) : Moves a t m → Valid m → Run as m r → Run (a :: as) t r

/-- The moment `t` at an hour of its day. -/
def atHour (t : Moment) (h : Nat) : Moment := ⟨t.year, t.month, t.day, h * 3600000000000⟩

/-- The first part of a time expression.  Half a day is 12 hours; there is no hour 24, so that `12 o'clock pm`, and
`12 o'clock` before noon, are the time that was given. -/
def baseAt (b : TimeBase) (t : Moment) : Moment :=
  match b with
  | .now => t
  | .midnight => atHour t 0
  | .noon => atHour t 12
  | .am h => atHour t h
  | .pm h => if h < 12 then atHour t (12 + h) else t
  | .next h => if t.nanos < 12 * 3600000000000 then (if h < 12 then atHour t (12 + h) else t) else atHour t h

/-- Nanoseconds of a unit. -/
def unitNanos : TimeUnit → Nat
  | .hour => 3600000000000
  | .minute => 60000000000
  | .second => 1000000000
  | .milli => 1000000

/-- The durations of a time expression one after the other, each in the years `chrono` has. -/
inductive Shifts : List (Adj TimeUnit) → Moment → Moment → Prop where
  | nil (t : Moment) : Shifts [] t t
  | cons (a : Adj TimeUnit) (as : List (Adj TimeUnit)) (t m r : Moment) :
      Valid m → instant m = instant t + sgn a.op * (a.value * unitNanos a.unit) → Shifts as m r → Shifts (a :: as) t r

/-! ### C96: dates -/

theorem run_valid {as : List (Adj DateUnit)} {t r : Moment} (h : Run as t r) (ht : Valid t) : Valid r := by
  induction h with
  | nil t => exact ht
  | cons a as t m r _ hm _ ih => exact ih hm

theorem adjustAll_iff {as : List (Adj DateUnit)} {t : Moment} (ht : Valid t)
    (has : ∀ a ∈ as, UnitOk a.unit ∧ a.value ≤ 2000000000) (r : Moment) : adjustAll as t = .ok r ↔ Run as t r := by
  induction as generalizing t with
  | nil =>
    constructor
    · intro h; cases h; exact .nil _
    · intro h; cases h; rfl
  | cons a as ih =>
    obtain ⟨h1, h2⟩ := has a (by simp)
    rw [adjustAll, bind_ok_iff]
    constructor
    · rintro ⟨m, hm, hr⟩
      obtain ⟨m1, m2⟩ := (C96_step ht h1 h2 m).mp hm
      exact .cons a as t m r m1 m2 ((ih m2 (fun x hx => has x (by simp [hx]))).mp hr)
    · intro h
      cases h with
      | cons _ _ _ m _ m1 m2 hr =>
        exact ⟨m, (C96_step ht h1 h2 m).mpr ⟨m1, m2⟩, (ih m2 (fun x hx => has x (by simp [hx]))).mpr hr⟩

theorem base_moves {b : DateBase} {t : Moment} (ht : Valid t) (m : Moment) :
    baseDate b t = .ok m ↔ BaseMoves b t m ∧ Valid m := by
  cases b with
  | now =>
    constructor
    · intro h; cases h; exact ⟨rfl, ht⟩
    · rintro ⟨h, -⟩; cases h; rfl
  | today =>
    constructor
    · intro h; cases h; exact ⟨rfl, ht⟩
    · rintro ⟨h, -⟩; cases h; rfl
  | yesterday =>
    show shiftBy t 1 86400000 .minus = .ok m ↔ _
    rw [day_ok ht (by decide)]
    simp only [BaseMoves, sgn, Int.sub_eq_add_neg]
    rfl
  | tomorrow =>
    show shiftBy t 1 86400000 .plus = .ok m ↔ _
    rw [day_ok ht (by decide)]
    simp only [BaseMoves, sgn]
    rfl

theorem day_unitOk : ∀ p ∈ dayWords, UnitOk p.2 := by
  intro p hp
  simp only [dayWords, List.mem_cons, List.not_mem_nil, or_false] at hp
  rcases hp with rfl | rfl | rfl | rfl | rfl | rfl | rfl | rfl <;> trivial

/-- `UnitOk` as a test. -/
def unitOkB : DateUnit → Bool
  | .weekday i => decide (1 ≤ i ∧ i ≤ 7)
  | .monthName i => decide (1 ≤ i ∧ i ≤ 12)
  | _ => true

theorem unitOkB_iff (u : DateUnit) (h : unitOkB u = true) : UnitOk u := by
  cases u <;> first | trivial | (simp only [unitOkB, decide_eq_true_eq] at h; exact h)

theorem offset_unitOk : ∀ p ∈ offsetWords, UnitOk p.2.1 ∧ p.2.2 ≤ 2 := by
  have : ∀ p ∈ offsetWords, unitOkB p.2.1 = true ∧ p.2.2 ≤ 2 := by
    set_option maxRecDepth 100000 in decide
  exact fun p hp => ⟨unitOkB_iff _ (this p hp).1, (this p hp).2⟩

theorem ops_unitOk {ws : List Str} {as : List (Adj DateUnit)} (h : Ops dayWords ws as) : ∀ a ∈ as, UnitOk a.unit := by
  induction h with
  | nil => intro a ha; cases ha
  | cons p o d n w u ws as _ _ hu _ ih =>
    intro a ha
    rcases List.mem_cons.1 ha with rfl | ha
    · exact day_unitOk _ hu
    · exact ih a ha

theorem head_unitOk {ws : List Str} {b : DateBase} {as : List (Adj DateUnit)} (h : DateHead ws b as) :
    ∀ a ∈ as, UnitOk a.unit ∧ a.value ≤ 2 := by
  cases h with
  | none => intro a ha; cases ha
  | base w b _ => intro a ha; cases ha
  | next w u n hw =>
    intro a ha
    rcases List.mem_cons.1 ha with rfl | ha
    · exact offset_unitOk _ hw
    · cases ha
  | last w u n hw =>
    intro a ha
    rcases List.mem_cons.1 ha with rfl | ha
    · exact offset_unitOk _ hw
    · cases ha

/-- Every date expression that is read names days 1 to 7 and months 1 to 12. -/
theorem parse_unitOk {L : Lib} {s : Str} {e : DateExp} (h : parseDate L s = .ok e) : ∀ a ∈ e.adjs, UnitOk a.unit := by
  obtain ⟨head, ops, b, as0, as, t, h1, h2, -, -, rfl, -⟩ := C95_date_sound_partial h
  intro a ha
  rcases List.mem_append.1 ha with ha | ha
  · exact (head_unitOk h1 a ha).1
  · exact ops_unitOk h2 a ha

/-- **C96**: executing a date expression moves the date as the expression says, one adjustment after the other, at every
moment; the numbers are at most two thousand million. -/
theorem C96_date_partial {L : Lib} {t : Moment} (ht : Valid t) {s : Str} (hs : s ≠ []) {e : DateExp}
    (he : parseDate L s = .ok e) (hv : ∀ a ∈ e.adjs, a.value ≤ 2000000000) (r : Moment) :
    execDate L t s = .ok r ↔ ∃ m, BaseMoves e.base t m ∧ Valid m ∧ Run e.adjs m r := by
  unfold execDate
  rw [if_neg (by simpa using hs), he]
  show (baseDate e.base t).bind (adjustAll e.adjs) = .ok r ↔ _
  rw [bind_ok_iff]
  have hu := parse_unitOk he
  constructor
  · rintro ⟨m, hm, hr⟩
    obtain ⟨m1, m2⟩ := (base_moves ht m).mp hm
    exact ⟨m, m1, m2, (adjustAll_iff m2 (fun a ha => ⟨hu a ha, hv a ha⟩) r).mp hr⟩
  · rintro ⟨m, m1, m2, hr⟩
    exact ⟨m, (base_moves ht m).mpr ⟨m1, m2⟩, (adjustAll_iff m2 (fun a ha => ⟨hu a ha, hv a ha⟩) r).mpr hr⟩

/-- **C96**, from the text: the words of an expression in order, with any blanks between them. -/
theorem C96_text {L : Lib} {t : Moment} (ht : Valid t) {head ops : List Str} {b : DateBase} {as0 as : List (Adj DateUnit)}
    {s : Str} (hh : DateHead head b as0) (ho : Ops dayWords ops as) (hne : head ++ ops ≠ []) (hs : Laid (head ++ ops) s)
    (hv : ∀ a ∈ as, a.value ≤ 2000000000) (r : Moment) :
    execDate L t s = .ok r ↔ ∃ m, BaseMoves b t m ∧ Valid m ∧ Run (as0 ++ as) m r := by
  have he := C95_date_read (L := L) hh ho hne hs
  have hs' : s ≠ [] := by
    rintro rfl
    cases he
  refine C96_date_partial ht hs' he ?_ r
  intro a ha
  rcases List.mem_append.1 ha with ha | ha
  · have := (head_unitOk hh a ha).2; omega
  · exact hv a ha

/-- The same moves are not made twice: a step has one result. -/
theorem C96_unique {t : Moment} (ht : Valid t) {a : Adj DateUnit} (ha : UnitOk a.unit) (hv : a.value ≤ 2000000000)
    {r s : Moment} (h1 : Moves a t r) (h2 : Valid r) (h3 : Moves a t s) (h4 : Valid s) : r = s := by
  have e1 := (C96_step ht ha hv r).mpr ⟨h1, h2⟩
  have e2 := (C96_step ht ha hv s).mpr ⟨h3, h4⟩
  rw [e1] at e2
  cases e2
  rfl

/-! ### C97: times -/

theorem baseTime_eq (b : TimeBase) (t : Moment) (hb : ∀ h, b = .am h ∨ b = .pm h ∨ b = .next h → 1 ≤ h ∧ h ≤ 12) :
    baseTime b t = baseAt b t := by
  have e : ∀ h, h < 24 → withHour t h = atHour t h := by
    intro h hh
    unfold withHour
    rw [if_pos hh]
    rfl
  have hp : ∀ h, 1 ≤ h → h ≤ 12 → withHour t (12 + h) = if h < 12 then atHour t (12 + h) else t := by
    intro h h1 h2
    by_cases c : h < 12
    · rw [if_pos c]; exact e _ (by omega)
    · rw [if_neg c]
      unfold withHour
      rw [if_neg (by omega)]
  cases b with
  | now => rfl
  | midnight => exact e 0 (by decide)
  | noon => exact e 12 (by decide)
  | am h => exact e h (by have := hb h (Or.inl rfl); omega)
  | pm h =>
    have := hb h (Or.inr (Or.inl rfl))
    exact hp h this.1 this.2
  | next h =>
    have := hb h (Or.inr (Or.inr rfl))
    show (if t.nanos / hourNanos < 12 then withHour t (12 + h) else withHour t h) = _
    unfold baseAt
    simp only
    by_cases c : t.nanos < 12 * 3600000000000
    · rw [if_pos c, if_pos (by unfold hourNanos; omega)]
      exact hp h this.1 this.2
    · rw [if_neg c, if_neg (by unfold hourNanos; omega)]
      exact e h (by omega)

theorem atHour_valid {t : Moment} (ht : Valid t) {h : Nat} (hh : h < 24) : Valid (atHour t h) := by
  obtain ⟨hc, hy⟩ := ht
  exact ⟨⟨hc.1, hc.2, hc.3, hc.4, hc.5, by show h * 3600000000000 < _; omega⟩, hy⟩

theorem baseAt_valid {b : TimeBase} {t : Moment} (ht : Valid t)
    (hb : ∀ h, b = .am h ∨ b = .pm h ∨ b = .next h → 1 ≤ h ∧ h ≤ 12) : Valid (baseAt b t) := by
  cases b with
  | now => exact ht
  | midnight => exact atHour_valid ht (by decide)
  | noon => exact atHour_valid ht (by decide)
  | am h => exact atHour_valid ht (by have := hb h (Or.inl rfl); omega)
  | pm h =>
    unfold baseAt
    simp only
    split
    · exact atHour_valid ht (by omega)
    · exact ht
  | next h =>
    have := hb h (Or.inr (Or.inr rfl))
    unfold baseAt
    simp only
    split
    · split
      · exact atHour_valid ht (by omega)
      · exact ht
    · exact atHour_valid ht (by omega)

theorem unit_small (u : TimeUnit) {n : Nat} (h : n ≤ 2000000000) : 0 < unitMillis u ∧ n * unitMillis u < 2 ^ 63 := by
  cases u <;> simp only [unitMillis] <;> omega

theorem unit_nanos (u : TimeUnit) : unitNanos u = unitMillis u * 1000000 := by cases u <;> rfl

theorem adjustTimes_iff {as : List (Adj TimeUnit)} {t : Moment} (ht : Valid t) (has : ∀ a ∈ as, a.value ≤ 2000000000)
    (r : Moment) : adjustTimes as t = .ok r ↔ Shifts as t r := by
  induction as generalizing t with
  | nil =>
    constructor
    · intro h; cases h; exact .nil _
    · intro h; cases h; rfl
  | cons a as ih =>
    have hv := has a (by simp)
    obtain ⟨h1, h2⟩ := unit_small a.unit hv
    have e : (a.value : Int) * (unitMillis a.unit : Nat) * 1000000 = a.value * (unitNanos a.unit : Nat) := by
      rw [unit_nanos, Int.natCast_mul, Int.mul_assoc]
      rfl
    rw [adjustTimes, bind_ok_iff]
    constructor
    · rintro ⟨m, hm, hr⟩
      obtain ⟨m1, m2⟩ := (shiftBy_iff ht.1 h1 h2 a.op m).mp hm
      rw [e] at m2
      exact .cons a as t m r m1 m2 ((ih m1 (fun x hx => has x (by simp [hx]))).mp hr)
    · intro h
      cases h with
      | cons _ _ _ m _ m1 m2 hr =>
        rw [← e] at m2
        exact ⟨m, (shiftBy_iff ht.1 h1 h2 a.op m).mpr ⟨m1, m2⟩, (ih m1 (fun x hx => has x (by simp [hx]))).mpr hr⟩

theorem head_hours {ws : List Str} {b : TimeBase} {as : List (Adj TimeUnit)} (h : TimeHead ws b as) :
    (∀ h, b = .am h ∨ b = .pm h ∨ b = .next h → 1 ≤ h ∧ h ≤ 12) ∧ ∀ a ∈ as, a.value ≤ 1 := by
  cases h <;> refine ⟨?_, ?_⟩ <;> try (intro a ha; simp at ha; try subst ha; try simp)
  all_goals try assumption
  all_goals exact ⟨by assumption, by assumption⟩

theorem parse_hours {L : Lib} {s : Str} {e : TimeExp} (h : parseTime L s = .ok e) :
    ∀ h, e.base = .am h ∨ e.base = .pm h ∨ e.base = .next h → 1 ≤ h ∧ h ≤ 12 := by
  obtain ⟨head, ops, b, as0, as, t, h1, h2, -, -, rfl, -⟩ := C95_time_sound_partial h
  exact (head_hours h1).1

/-- **C97**: executing a time expression sets the hour as the expression says and then adds and subtracts the durations, at
every moment; the numbers are at most two thousand million. -/
theorem C97_time_partial {L : Lib} {t : Moment} (ht : Valid t) {s : Str} (hs : s ≠ []) {e : TimeExp}
    (he : parseTime L s = .ok e) (hv : ∀ a ∈ e.adjs, a.value ≤ 2000000000) (r : Moment) :
    execTime L t s = .ok r ↔ Shifts e.adjs (baseAt e.base t) r := by
  unfold execTime
  rw [if_neg (by simpa using hs), he]
  show adjustTimes e.adjs (baseTime e.base t) = .ok r ↔ _
  rw [baseTime_eq _ _ (parse_hours he)]
  exact adjustTimes_iff (baseAt_valid ht (parse_hours he)) hv r

/-- **C97**, from the text. -/
theorem C97_text {L : Lib} {t : Moment} (ht : Valid t) {head ops : List Str} {b : TimeBase} {as0 as : List (Adj TimeUnit)}
    {s : Str} (hh : TimeHead head b as0) (ho : Ops timeWords ops as) (hne : head ++ ops ≠ []) (hs : Laid (head ++ ops) s)
    (hv : ∀ a ∈ as, a.value ≤ 2000000000) (r : Moment) :
    execTime L t s = .ok r ↔ Shifts (as0 ++ as) (baseAt b t) r := by
  have he := C95_time_read (L := L) hh ho hne hs
  have hs' : s ≠ [] := by
    rintro rfl
    cases he
  refine C97_time_partial ht hs' he ?_ r
  intro a ha
  rcases List.mem_append.1 ha with ha | ha
  · have := (head_hours hh).2 a ha; omega
  · exact hv a ha

/-- The sum of durations. -/
def total : List (Adj TimeUnit) → Int
  | [] => 0
  | a :: as => sgn a.op * (a.value * unitNanos a.unit) + total as

/-- **C97**: durations add up, in any order. -/
theorem C97_total {as : List (Adj TimeUnit)} {t r : Moment} (h : Shifts as t r) : instant r = instant t + total as := by
  induction h with
  | nil t => simp [total]
  | cons a as t m r _ h1 _ ih =>
    rw [ih, h1, total]
    omega

/-! ### C96 and C97: dates with times -/

theorem splitAt_iff (s d h : Str) : splitAt s = some (d, h) ↔ s = d ++ '@' :: h ∧ '@' ∉ d := by
  induction s generalizing d with
  | nil =>
    constructor
    · intro e; cases e
    · rintro ⟨e, -⟩; cases d <;> cases e
  | cons c s ih =>
    rw [splitAt]
    split
    · rename_i hc
      subst hc
      constructor
      · intro e; cases e; exact ⟨rfl, by simp⟩
      · rintro ⟨e, hn⟩
        cases d with
        | nil => cases e; rfl
        | cons x xs => cases e; simp at hn
    · rename_i hc
      simp only [Option.map_eq_some_iff, Prod.exists, Prod.mk.injEq]
      constructor
      · rintro ⟨a, b, hab, rfl, rfl⟩
        obtain ⟨h1, h2⟩ := (ih a).mp (by rw [hab])
        refine ⟨by rw [h1]; rfl, ?_⟩
        intro hm
        rcases List.mem_cons.1 hm with e | e
        · exact hc e.symm
        · exact h2 e
      · rintro ⟨e, hn⟩
        cases d with
        | nil => cases e; exact absurd rfl hc
        | cons x xs =>
          cases e
          exact ⟨xs, h, (ih xs).mpr ⟨rfl, fun hm => hn (List.mem_cons_of_mem _ hm)⟩, rfl, rfl⟩

/-- **C97**: the expression of a date and time is a date expression, or one and a time expression after the first `@`, which
starts from the date. -/
theorem C97_datetime {L : Lib} {t : Moment} (s : Str) (r : Moment) :
    execDateTime L t s = .ok r ↔
      ('@' ∉ s ∧ execDate L t s = .ok r) ∨
      ∃ d h m, s = d ++ '@' :: h ∧ '@' ∉ d ∧ execDate L t d = .ok m ∧ execTime L m h = .ok r := by
  unfold execDateTime
  cases hs : splitAt s with
  | none =>
    have hn : '@' ∉ s := by
      intro hm
      obtain ⟨d, h, rfl, hd⟩ := List.eq_append_cons_of_mem hm
      rw [(splitAt_iff _ d h).mpr ⟨rfl, hd⟩] at hs
      cases hs
    simp only
    constructor
    · exact fun h => Or.inl ⟨hn, h⟩
    · rintro (⟨-, h⟩ | ⟨d, h, m, rfl, -⟩)
      · exact h
      · simp at hn
  | some x =>
    obtain ⟨d, h⟩ := x
    obtain ⟨rfl, hd⟩ := (splitAt_iff _ _ _).mp hs
    simp only
    constructor
    · intro e
      cases he : execDate L t d with
      | ok m =>
        rw [he] at e
        exact Or.inr ⟨d, h, m, rfl, hd, he, e⟩
      | err =>
        rw [he] at e
        simp only at e
        cases hx : execTime L t h <;> rw [hx] at e <;> cases e
      | panic =>
        rw [he] at e
        cases e
    · rintro (⟨hn, -⟩ | ⟨d', h', m, e, hd', h1, h2⟩)
      · simp at hn
      · have := (splitAt_iff (d ++ '@' :: h) d' h').mpr ⟨e, hd'⟩
        rw [hs] at this
        cases this
        rw [h1]
        exact h2

/-! ### C98: errors and panics -/

theorem next_fresh {A B : Type} {x : Res A} {f : A → B} (h : x ≠ .panic) : x.map f ≠ .panic := by
  cases x <;> simp_all [Res.map]

theorem bind_panic {A B : Type} {x : Res A} {f : A → Res B} (h : x ≠ .panic) (hf : ∀ a, f a ≠ .panic) : x.bind f ≠ .panic := by
  cases x <;> simp_all [Res.bind]

theorem duration_panic {W U : Type} (L : Lib) (tab : List (Str × Tok W)) (unit : W → Option U) (s : Str) :
    duration L tab unit s ≠ .panic := by
  unfold duration
  split
  · split
    · split <;> simp
    · simp
  · simp

theorem adjustments_panic {W U : Type} (L : Lib) (tab : List (Str × Tok W)) (unit : W → Option U) (f : Nat) (o : Op) (s : Str) :
    adjustments L tab unit f o s ≠ .panic := by
  induction f generalizing o s with
  | zero => simp [adjustments]
  | succ f ih =>
    rw [adjustments]
    have := duration_panic L tab unit s
    split
    · split
      · exact next_fresh (ih _ _)
      · simp
      · simp
    · simp
    · rename_i h; exact absurd h this

theorem follow_panic {W U : Type} (L : Lib) (tab : List (Str × Tok W)) (unit : W → Option U) (s : Str) (l : Option (Lexeme W)) :
    follow L tab unit s l ≠ .panic := by
  unfold follow
  split
  · simp
  · simp
  · exact adjustments_panic _ _ _ _ _ _
  · simp

theorem finish_panic {A : Type} (L : Lib) (a : A) (r : Str) : finish L a r ≠ .panic := by
  unfold finish; split <;> simp

/-- **C98**: reading an expression never panics. -/
theorem C98_parse_total (L : Lib) (s : Str) : parseDate L s ≠ .panic ∧ parseTime L s ≠ .panic := by
  have hr : ∀ o s, relative L o s ≠ .panic := by
    intro o s
    unfold relative
    split
    · split
      · exact next_fresh (follow_panic _ _ _ _ _)
      · simp
    · simp
  have hrt : ∀ o s, relativeTime L o s ≠ .panic := by
    intro o s
    unfold relativeTime
    split
    · split
      · exact next_fresh (follow_panic _ _ _ _ _)
      · simp
    · simp
  have hh : ∀ n b, hourOf n b ≠ .panic := by
    intro n b
    unfold hourOf
    split <;> simp
  have ho : ∀ n s, oclock L n s ≠ .panic := by
    intro n s
    unfold oclock
    split
    · split <;> first | exact next_fresh (hh _ _) | simp
    · simp
  constructor
  · unfold parseDate
    split
    · exact bind_panic (follow_panic _ _ _ _ _) fun _ => finish_panic _ _ _
    · exact bind_panic (adjustments_panic _ _ _ _ _ _) fun _ => finish_panic _ _ _
    · exact bind_panic (hr _ _) fun _ => finish_panic _ _ _
    · exact bind_panic (hr _ _) fun _ => finish_panic _ _ _
    · simp
  · unfold parseTime
    split
    · exact bind_panic (follow_panic _ _ _ _ _) fun _ => finish_panic _ _ _
    · exact bind_panic (follow_panic _ _ _ _ _) fun _ => finish_panic _ _ _
    · exact bind_panic (follow_panic _ _ _ _ _) fun _ => finish_panic _ _ _
    · exact bind_panic (ho _ _) fun _ => bind_panic (follow_panic _ _ _ _ _) fun _ => finish_panic _ _ _
    · exact bind_panic (adjustments_panic _ _ _ _ _ _) fun _ => finish_panic _ _ _
    · exact bind_panic (hrt _ _) fun _ => finish_panic _ _ _
    · exact bind_panic (hrt _ _) fun _ => finish_panic _ _ _
    · simp

theorem adjustAll_err {as : List (Adj DateUnit)} (hv : ∀ a ∈ as, a.value ≤ 2000000000) (t : Moment) : adjustAll as t ≠ .err := by
  induction as generalizing t with
  | nil => simp [adjustAll]
  | cons a as ih =>
    rw [adjustAll]
    exact bind_err (step_err (hv a (by simp)) t) fun m _ => ih (fun x hx => hv x (by simp [hx])) m

theorem baseDate_err (b : DateBase) (t : Moment) : baseDate b t ≠ .err := by
  cases b
  · simp [baseDate]
  · simp [baseDate]
  · exact shiftBy_err (by decide) (by decide) t .minus
  · exact shiftBy_err (by decide) (by decide) t .plus

theorem adjustTimes_err {as : List (Adj TimeUnit)} (hv : ∀ a ∈ as, a.value ≤ 2000000000) (t : Moment) : adjustTimes as t ≠ .err := by
  induction as generalizing t with
  | nil => simp [adjustTimes]
  | cons a as ih =>
    rw [adjustTimes]
    obtain ⟨h1, h2⟩ := unit_small a.unit (hv a (by simp))
    exact bind_err (shiftBy_err h1 h2 t a.op) fun m _ => ih (fun x hx => hv x (by simp [hx])) m

/-- **C98**: an expression that is read (with numbers up to two thousand million) gives no error: it panics exactly when
there is no moment it stands for, that is when a step leaves the years `chrono` has. -/
theorem C98_panic_iff {L : Lib} {t : Moment} (ht : Valid t) {s : Str} (hs : s ≠ []) {e : DateExp}
    (he : parseDate L s = .ok e) (hv : ∀ a ∈ e.adjs, a.value ≤ 2000000000) :
    execDate L t s ≠ .err ∧
    (execDate L t s = .panic ↔ ¬ ∃ m r, BaseMoves e.base t m ∧ Valid m ∧ Run e.adjs m r) := by
  have key := C96_date_partial (L := L) ht hs he hv
  have hne : execDate L t s ≠ .err := by
    unfold execDate
    rw [if_neg (by simpa using hs), he]
    show (baseDate e.base t).bind (adjustAll e.adjs) ≠ .err
    exact bind_err (baseDate_err _ _) fun m _ => adjustAll_err hv m
  refine ⟨hne, ?_⟩
  cases h : execDate L t s with
  | ok r =>
    obtain ⟨m, h1, h2, h3⟩ := (key r).mp h
    constructor
    · intro e; cases e
    · intro hn; exact absurd ⟨m, r, h1, h2, h3⟩ hn
  | err => exact absurd h hne
  | panic =>
    constructor
    · rintro - ⟨m, r, h1, h2, h3⟩
      have := (key r).mpr ⟨m, h1, h2, h3⟩
      rw [h] at this
      cases this
    · intro _; rfl

/-- **C98**: the same for a time expression. -/
theorem C98_time_panic_iff {L : Lib} {t : Moment} (ht : Valid t) {s : Str} (hs : s ≠ []) {e : TimeExp}
    (he : parseTime L s = .ok e) (hv : ∀ a ∈ e.adjs, a.value ≤ 2000000000) :
    execTime L t s ≠ .err ∧ (execTime L t s = .panic ↔ ¬ ∃ r, Shifts e.adjs (baseAt e.base t) r) := by
  have key := C97_time_partial (L := L) ht hs he hv
  have hne : execTime L t s ≠ .err := by
    unfold execTime
    rw [if_neg (by simpa using hs), he]
    exact adjustTimes_err hv _
  refine ⟨hne, ?_⟩
  cases h : execTime L t s with
  | ok r =>
    constructor
    · intro e; cases e
    · intro hn; exact absurd ⟨r, (key r).mp h⟩ hn
  | err => exact absurd h hne
  | panic =>
    constructor
    · rintro - ⟨r, h1⟩
      have := (key r).mpr h1
      rw [h] at this
      cases this
    · intro _; rfl

/-! #### Steps stay close -/

theorem first_far (y : Int) (n : Nat) : dayNum y 1 1 + 365 * n ≤ dayNum (y + n) 1 1 := by
  unfold dayNum
  have e1 : ∀ y, before y 1 = 0 := fun _ => rfl
  rw [e1, e1]
  omega

theorem year_near {t r : Moment} (ht : Cal t) (hr : Cal r) {n : Nat} (h1 : num t - 365 * n ≤ num r) (h2 : num r ≤ num t + 365 * n) :
    t.year - (n + 1) ≤ r.year ∧ r.year ≤ t.year + (n + 1) := by
  have yt := num_year t ht
  have yr := num_year r hr
  constructor
  · apply Classical.byContradiction
    intro h
    have := first_mono (y := r.year + 1) (z := t.year - (n + 1)) (by omega)
    have := dayNum_year r.year
    have := first_far (t.year - (n + 1)) (n + 1)
    rw [show t.year - (n + 1) + ((n + 1 : Nat) : Int) = t.year by omega] at this
    omega
  · apply Classical.byContradiction
    intro h
    have := first_mono (y := t.year + 1 + (n + 1)) (z := r.year) (by omega)
    have := dayNum_year t.year
    have := first_far (t.year + 1) (n + 1)
    rw [show t.year + 1 + ((n + 1 : Nat) : Int) = t.year + 1 + (n + 1) by omega] at this
    omega

theorem shift_exists {t : Moment} (ht : Cal t) (k : Int) : ∃ r, Cal r ∧ r.nanos = t.nanos ∧ num r = num t + k := by
  obtain ⟨h1, h2, h3⟩ := shift_cal ht k
  exact ⟨_, h1, h3, h2⟩

theorem sgn_cases (o : Op) : sgn o = 1 ∨ sgn o = -1 := by cases o <;> simp [sgn]

/-- Every adjustment has a result, at most its number of years (and one) away. -/
theorem moves_near {t : Moment} (ht : Valid t) (a : Adj DateUnit) (ha : UnitOk a.unit) :
    ∃ r, Moves a t r ∧ t.year - (a.value + 1) ≤ r.year ∧ r.year ≤ t.year + (a.value + 1) := by
  obtain ⟨u, n, o⟩ := a
  simp only at ha
  have bt := bounds ht.1
  have hs := sgn_cases o
  cases u with
  | day =>
    obtain ⟨r, h1, h2, h3⟩ := shift_exists ht.1 (sgn o * n)
    refine ⟨r, ⟨h1, h2, h3⟩, year_near ht.1 h1 ?_ ?_⟩ <;> simp only <;> rcases hs with e | e <;> rw [e] at h3 <;> omega
  | week =>
    obtain ⟨r, h1, h2, h3⟩ := shift_exists ht.1 (sgn o * (7 * n))
    refine ⟨r, ⟨h1, h2, h3⟩, year_near ht.1 h1 ?_ ?_⟩ <;> simp only <;> rcases hs with e | e <;> rw [e] at h3 <;> omega
  | month =>
    cases n with
    | zero =>
      refine ⟨t, ⟨ht.1, rfl, fun _ => rfl, fun h => absurd h (Nat.lt_irrefl 0)⟩, ?_⟩
      simp only
      omega
    | succ n =>
      have hT := first_cal (monthNum t + sgn o * (n + 1 : Nat)) ht.1.time
      obtain ⟨e1, e2, e3, e4⟩ := first_eqs (monthNum t + sgn o * (n + 1 : Nat)) t.nanos
      generalize firstOf (monthNum t + sgn o * (n + 1 : Nat)) t.nanos = x at hT e1 e2 e3 e4
      have hm : monthNum x = monthNum t + sgn o * (n + 1 : Nat) := by
        rw [monthNum, e1, e2]; omega
      have hy : t.year - ((n + 1 : Nat) + 1) ≤ x.year ∧ x.year ≤ t.year + ((n + 1 : Nat) + 1) := by
        have bx := bounds hT
        unfold monthNum at hm
        rcases hs with e | e <;> rw [e] at hm <;> omega
      by_cases hc : Cal { x with day := t.day }
      · refine ⟨{ x with day := t.day }, ⟨hc, e4, fun h => absurd h (Nat.succ_ne_zero n), fun _ => ⟨hm, Or.inl rfl⟩⟩, hy⟩
      · cases o with
        | plus => exact ⟨x, ⟨hT, e4, fun h => absurd h (Nat.succ_ne_zero n), fun _ => ⟨hm, Or.inr ⟨hc, e3⟩⟩⟩, hy⟩
        | minus =>
          have hd : Cal { x with day := daysIn x.year x.month } := by
            rw [cal_day hT (by have := daysIn_bounds x.year x.month; omega)]
            exact Nat.le_refl _
          refine ⟨{ x with day := daysIn x.year x.month }, ⟨hd, e4, fun h => absurd h (Nat.succ_ne_zero n), fun _ => ⟨hm, Or.inr ⟨hc, ?_⟩⟩⟩, hy⟩
          intro h
          have := (cal_day hT (d := daysIn x.year x.month + 1) (by omega)).mp h
          omega
  | year =>
    by_cases hv : Valid { t with year := t.year + sgn o * n }
    · refine ⟨_, ⟨hv.1, rfl, fun _ => rfl, fun h => absurd hv h⟩, ?_⟩
      simp only
      rcases hs with e | e <;> rw [e] <;> omega
    · refine ⟨t, ⟨ht.1, rfl, fun h => absurd h hv, fun _ => rfl⟩, ?_⟩
      simp only
      omega
  | weekday i =>
    have hi : 1 ≤ i ∧ i ≤ 7 := ha
    cases o with
    | plus =>
      obtain ⟨r, h1, h2, h3⟩ := shift_exists ht.1 (((i - 1 : Int) - (num t + 1 - 1)) % 7 + 1)
      have hb : num t < num r ∧ num r ≤ num t + 7 := by omega
      refine ⟨r, ⟨h1, h2, (weekday_iff r i).mpr (by omega), hb⟩, ?_⟩
      obtain ⟨w, b1, b2⟩ : Cal r ∧ r.year ≤ t.year + 1 ∧ t.year ≤ r.year := by
        have yt := num_year t ht.1
        have yr := num_year r h1
        refine ⟨h1, ?_, ?_⟩
        · apply Classical.byContradiction
          intro h
          have := first_mono (y := t.year + 1 + 1) (z := r.year) (by omega)
          have := dayNum_year t.year
          have := first_far (t.year + 1) 1
          rw [show t.year + 1 + ((1 : Nat) : Int) = t.year + 1 + 1 by omega] at this
          omega
        · apply Classical.byContradiction
          intro h
          have := first_mono (y := r.year + 1) (z := t.year) (by omega)
          have := dayNum_year r.year
          omega
      simp only
      omega
    | minus =>
      obtain ⟨r, h1, h2, h3⟩ := shift_exists ht.1 (-((num t - 1 - 1 - (i - 1 : Int)) % 7 + 1))
      have hb : num t - 7 ≤ num r ∧ num r < num t := by omega
      refine ⟨r, ⟨h1, h2, (weekday_iff r i).mpr (by omega), hb⟩, ?_⟩
      obtain ⟨w, b1, b2⟩ : Cal r ∧ r.year ≤ t.year ∧ t.year - 1 ≤ r.year := by
        have yt := num_year t ht.1
        have yr := num_year r h1
        refine ⟨h1, ?_, ?_⟩
        · apply Classical.byContradiction
          intro h
          have := first_mono (y := t.year + 1) (z := r.year) (by omega)
          have := dayNum_year t.year
          omega
        · apply Classical.byContradiction
          intro h
          have := first_mono (y := r.year + 1) (z := t.year - 1) (by omega)
          have := dayNum_year r.year
          have := first_far (t.year - 1) 1
          rw [show t.year - 1 + ((1 : Nat) : Int) = t.year by omega] at this
          omega
      simp only
      omega
  | monthName i =>
    have hi : 1 ≤ i ∧ i ≤ 12 := ha
    cases o with
    | plus =>
      refine ⟨⟨if t.month < i then t.year else t.year + 1, i, 1, t.nanos⟩, ⟨first_month hi ht.1.time, rfl, rfl, rfl, rfl⟩, ?_⟩
      simp only
      split <;> omega
    | minus =>
      refine ⟨⟨if i < t.month then t.year else t.year - 1, i, 1, t.nanos⟩, ⟨first_month hi ht.1.time, rfl, rfl, rfl, rfl⟩, ?_⟩
      simp only
      split <;> omega

/-- How many years adjustments may move a date. -/
def reach : List (Adj DateUnit) → Nat
  | [] => 0
  | a :: as => a.value + 1 + reach as

theorem run_exists {as : List (Adj DateUnit)} {t : Moment} (ht : Valid t) (ha : ∀ a ∈ as, UnitOk a.unit)
    (h1 : -262143 ≤ t.year - reach as) (h2 : t.year + reach as ≤ 262142) : ∃ r, Run as t r := by
  induction as generalizing t with
  | nil => exact ⟨t, .nil t⟩
  | cons a as ih =>
    obtain ⟨m, m1, m2, m3⟩ := moves_near ht a (ha a (by simp))
    simp only [reach] at h1 h2
    have vm : Valid m := ⟨m1.1, by omega, by omega⟩
    obtain ⟨r, hr⟩ := ih vm (fun x hx => ha x (by simp [hx])) (by omega) (by omega)
    exact ⟨r, .cons a as t m r m1 vm hr⟩

/-- **C98**: an expression that is read has a result, when the numbers in it are far from the last year of `chrono`
(a year, a month, a week and a day all count as one). -/
theorem C98_no_panic {L : Lib} {t : Moment} (ht : Valid t) {s : Str} {e : DateExp} (he : parseDate L s = .ok e)
    (h1 : -262143 ≤ t.year - (reach e.adjs + 1)) (h2 : t.year + (reach e.adjs + 1) ≤ 262142) :
    ∃ r, execDate L t s = .ok r ∧ Valid r := by
  have hs : s ≠ [] := by rintro rfl; cases he
  have hu := parse_unitOk he
  have hr : ∀ (as : List (Adj DateUnit)), ∀ a ∈ as, a.value ≤ reach as := by
    intro as
    induction as with
    | nil => intro a ha; cases ha
    | cons b bs ih =>
      intro a ha
      rw [reach]
      rcases List.mem_cons.1 ha with rfl | ha
      · omega
      · have := ih a ha; omega
  have hv : ∀ a ∈ e.adjs, a.value ≤ 2000000000 := by
    intro a ha
    have := hr _ a ha
    have := ht.2
    omega
  have hbase : ∃ m, BaseMoves e.base t m ∧ t.year - 1 ≤ m.year ∧ m.year ≤ t.year + 1 ∧ Cal m := by
    have hd : ∀ o, ∃ m, Cal m ∧ m.nanos = t.nanos ∧ num m = num t + sgn o * (1 : Nat) ∧ t.year - 1 ≤ m.year ∧ m.year ≤ t.year + 1 := by
      intro o
      obtain ⟨m, m1, m2, m3⟩ := shift_exists ht.1 (sgn o * (1 : Nat))
      have yt := num_year t ht.1
      have ym := num_year m m1
      refine ⟨m, m1, m2, m3, ?_, ?_⟩
      · apply Classical.byContradiction
        intro h
        have := first_mono (y := m.year + 1) (z := t.year - 1) (by omega)
        have := dayNum_year m.year
        have := first_far (t.year - 1) 1
        rw [show t.year - 1 + ((1 : Nat) : Int) = t.year by omega] at this
        rcases sgn_cases o with e | e <;> rw [e] at m3 <;> omega
      · apply Classical.byContradiction
        intro h
        have := first_mono (y := t.year + 1 + 1) (z := m.year) (by omega)
        have := dayNum_year t.year
        have := first_far (t.year + 1) 1
        rw [show t.year + 1 + ((1 : Nat) : Int) = t.year + 1 + 1 by omega] at this
        rcases sgn_cases o with e | e <;> rw [e] at m3 <;> omega
    cases e.base with
    | now => exact ⟨t, rfl, by omega, by omega, ht.1⟩
    | today => exact ⟨t, rfl, by omega, by omega, ht.1⟩
    | yesterday =>
      obtain ⟨m, m1, m2, m3, m4, m5⟩ := hd .minus
      exact ⟨m, ⟨m1, m2, by rw [m3]; simp [sgn]; omega⟩, m4, m5, m1⟩
    | tomorrow =>
      obtain ⟨m, m1, m2, m3, m4, m5⟩ := hd .plus
      exact ⟨m, ⟨m1, m2, by rw [m3]; simp [sgn]⟩, m4, m5, m1⟩
  obtain ⟨m, m1, m2, m3, m4⟩ := hbase
  have vm : Valid m := ⟨m4, by omega, by omega⟩
  obtain ⟨r, hr⟩ := run_exists (as := e.adjs) vm hu (by omega) (by omega)
  exact ⟨r, (C96_date_partial ht hs he hv r).mpr ⟨m, m1, vm, hr⟩, run_valid hr vm⟩


end DateExprProps
end Verif
