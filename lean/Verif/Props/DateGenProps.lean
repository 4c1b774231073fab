import Verif.Props.DateExprProps

/-
  C97, C98: the date and time generators with an expression; examples and oddities of the expressions.
-/

set_option autoImplicit false

namespace Verif
namespace DateExprProps
open DateExpr
open DefExpr (Lib skip)
open DefExprProps (Laid Pre L0)
open Time (PTok parsePattern Zones Clock)
open TimeGenProps (ClockOk Safe genSeparated TimeField dated)
open TimeProps (InMonth)

theorem before_bound (y : Int) (m : Nat) : before y m ≤ 335 := by
  unfold before
  have : (if leap y then 1 else 0) ≤ 1 := by split <;> omega
  generalize (if leap y then 1 else 0) = l at this
  simp only
  split <;> omega

/-- **C97**: a moment of a year of up to four digits is a clock reading the generators can format. -/
theorem clock_ok {t : Moment} (ht : Cal t) (h0 : 0 ≤ t.year) (h1 : t.year ≤ 9999) {off : Int} (ho : off.natAbs < 1440) :
    ClockOk (clockOf off t) := by
  have hy : ((t.year.toNat : Nat) : Int) = t.year := Int.toNat_of_nonneg h0
  have hw : 1 ≤ weekday t ∧ weekday t ≤ 7 := by unfold weekday; omega
  have hd := ht.day
  have hb := before_bound t.year t.month
  have hn := ht.time
  refine ⟨?_, ht.month, hd.1, ⟨hd.2, ht.thirty, ht.feb, ?_⟩, ⟨?_, ?_⟩, ?_, hw, ?_, ?_, ?_, ?_, ho⟩
  · show t.year.toNat ≤ 9999
    omega
  · intro hm hl
    refine ht.notLeap hm fun hL => hl ?_
    show 4 ∣ t.year.toNat ∧ (¬ 100 ∣ t.year.toNat ∨ 400 ∣ t.year.toNat)
    unfold LeapYear at hL
    omega
  · show 1 ≤ before t.year t.month + t.day
    omega
  · show before t.year t.month + t.day ≤ 366
    omega
  · show (before t.year t.month + t.day + 7 - weekday t % 7) / 7 ≤ 53
    omega
  · show t.nanos / hourNanos < 24
    unfold hourNanos
    omega
  · show t.nanos / 60000000000 % 60 < 60
    omega
  · show t.nanos / 1000000000 % 60 ≤ 60
    omega
  · show t.nanos % 1000000000 < 1000000000
    omega

/-- **C98**: a generator with an expression fails when the expression does, and otherwise formats the moment the
expression stands for. -/
theorem C98_generator (L : Lib) (off : Int) (t : Moment) (fmt : Option Str) (s : Str) :
    (∀ r, execDate L t s = .ok r → genDateExpr L off t fmt (some s) = Time.genDate (clockOf off r) fmt) ∧
    (∀ r, execTime L t s = .ok r → genTimeExpr L off t fmt (some s) = Time.genTime (clockOf off r) fmt) ∧
    (∀ r, execDateTime L t s = .ok r → genDateTimeExpr L off t fmt (some s) = Time.genDateTime (clockOf off r) fmt) ∧
    (execDate L t s = .err → genDateExpr L off t fmt (some s) = .err) ∧
    (execTime L t s = .err → genTimeExpr L off t fmt (some s) = .err) ∧
    (execDateTime L t s = .err → genDateTimeExpr L off t fmt (some s) = .err) ∧
    genDateExpr L off t fmt none = Time.genDate (clockOf off t) fmt ∧
    genTimeExpr L off t fmt none = Time.genTime (clockOf off t) fmt ∧
    genDateTimeExpr L off t fmt none = Time.genDateTime (clockOf off t) fmt := by
  refine ⟨?_, ?_, ?_, ?_, ?_, ?_, rfl, rfl, rfl⟩
  · intro r h; unfold genDateExpr; rw [show (some s : Option Str).getD [] = s from rfl, h]; rfl
  · intro r h; unfold genTimeExpr; rw [show (some s : Option Str).getD [] = s from rfl, h]; rfl
  · intro r h; unfold genDateTimeExpr; rw [show (some s : Option Str).getD [] = s from rfl, h]; rfl
  · intro h; unfold genDateExpr; rw [show (some s : Option Str).getD [] = s from rfl, h]; rfl
  · intro h; unfold genTimeExpr; rw [show (some s : Option Str).getD [] = s from rfl, h]; rfl
  · intro h; unfold genDateTimeExpr; rw [show (some s : Option Str).getD [] = s from rfl, h]; rfl

/-- **C98**: what the `DateTime` generator makes of an expression is accepted by the `timestamp` rule with the same
format; so for dates (with no field of a time) and times. -/
theorem C98_accepted_partial {env : Env} {zs : Zones} {L : Lib} {off : Int} {t r : Moment} {fmt s : Str} {ts : List PTok}
    (hp : parsePattern fmt = .ok ts) (hr : Cal r) (h0 : 0 ≤ r.year) (h1 : r.year ≤ 9999) (ho : off.natAbs < 1440)
    (hs : ∀ t ∈ ts, Safe (clockOf off r) t) (hsep : genSeparated ts = true)
    (hfeb : r.month = 2 → r.day = 29 → PTok.dayInMonth ∈ ts → ∃ n, PTok.year n ∈ ts) :
    (execDateTime L t s = .ok r → ∃ v, genDateTimeExpr L off t (some fmt) (some s) = .ok v ∧
      ∀ (e : Json) (c : Bool), Matchers.jsonMatches (dated env zs) e (.str v) (.timestamp fmt) c = true) ∧
    (execTime L t s = .ok r → ∃ v, genTimeExpr L off t (some fmt) (some s) = .ok v ∧
      ∀ (e : Json) (c : Bool), Matchers.jsonMatches (dated env zs) e (.str v) (.time fmt) c = true) ∧
    (execDate L t s = .ok r → (∀ t ∈ ts, ¬ TimeField t) → ∃ v, genDateExpr L off t (some fmt) (some s) = .ok v ∧
      ∀ (e : Json) (c : Bool), Matchers.jsonMatches (dated env zs) e (.str v) (.date fmt) c = true) := by
  obtain ⟨v, g1, g2, g3, g4⟩ := TimeGenProps.C93_rule (env := env) (zs := zs) hp (clock_ok hr h0 h1 ho) hs hsep hfeb
  obtain ⟨x1, x2, x3, _⟩ := C98_generator L off t (some fmt) s
  refine ⟨fun h => ⟨v, (x3 r h).trans g2, fun e c => ?_⟩, fun h => ⟨v, (x2 r h).trans g1, fun e c => ?_⟩,
    fun h hn => ⟨v, (x1 r h).trans (g3 hn), fun e c => ?_⟩⟩
  · exact (g4 e [] c _ (Or.inr (Or.inr rfl))).1
  · exact (g4 e [] c _ (Or.inr (Or.inl rfl))).1
  · exact (g4 e [] c _ (Or.inl rfl)).1

/-! ### The numbers of days -/

/-- The day after a day: the next of the month, or the first of the next month when the month has no more days. -/
def NextDay (t r : Moment) : Prop :=
  (Cal { t with day := t.day + 1 } ∧ r = { t with day := t.day + 1 }) ∨
  (¬ Cal { t with day := t.day + 1 } ∧ t.month < 12 ∧ r = ⟨t.year, t.month + 1, 1, t.nanos⟩) ∨
  (¬ Cal { t with day := t.day + 1 } ∧ t.month = 12 ∧ r = ⟨t.year + 1, 1, 1, t.nanos⟩)

theorem succDay_next {t : Moment} (ht : Cal t) : NextDay t (succDay t) := by
  have hb := cal_iff.mp ht
  have hc : Cal { t with day := t.day + 1 } ↔ t.day < daysIn t.year t.month := by
    rw [cal_iff]
    simp only
    omega
  unfold succDay
  split
  · rename_i h
    exact Or.inl ⟨hc.mpr h, rfl⟩
  · rename_i h
    have hn : ¬ Cal { t with day := t.day + 1 } := fun c => h (hc.mp c)
    split
    · rename_i h2
      exact Or.inr (Or.inl ⟨hn, h2, rfl⟩)
    · rename_i h2
      exact Or.inr (Or.inr ⟨hn, by omega, rfl⟩)

/-- **C96**: the numbers the specification gives to days count them, from 1 January of the year 1, and the days of the week
follow each other (1 January 1970 was a Thursday). -/
theorem C96_calendar {t r : Moment} (ht : Cal t) (hr : Cal r) (hn : r.nanos = t.nanos) :
    (num r = num t + 1 ↔ NextDay t r) ∧ (NextDay t r → weekday r = weekday t % 7 + 1) ∧
    num ⟨1, 1, 1, 0⟩ = 1 ∧ weekday ⟨1970, 1, 1, 0⟩ = 4 := by
  obtain ⟨h1, h2, h3⟩ := succ_cal ht
  have key : num r = num t + 1 ↔ NextDay t r := by
    constructor
    · intro h
      have : succDay t = r := num_inj h1 hr (by unfold num at *; omega) (h3.trans hn.symm)
      exact this ▸ succDay_next ht
    · intro h
      have e : r = succDay t := by
        rcases h with ⟨a, rfl⟩ | ⟨a, b, rfl⟩ | ⟨a, b, rfl⟩ <;>
          rcases succDay_next ht with ⟨a', e⟩ | ⟨a', b', e⟩ | ⟨a', b', e⟩ <;>
          first | exact e.symm | exact absurd a' a | exact absurd a a' | (exfalso; omega)
      rw [e]
      exact h2
  refine ⟨key, fun h => ?_, by decide, by decide⟩
  have e := key.mpr h
  unfold num at e
  unfold weekday
  omega

/-! ### Examples -/

/-- Wednesday 31 January 2024, 15:09:26.535. -/
def wed : Moment := ⟨2024, 1, 31, 54566535000000⟩

theorem wed_valid : Valid wed :=
  ⟨cal_iff.mpr (by decide), by decide, by decide⟩

/-- `next thursday + 4 years - 2 months`. -/
def exText : Str := " next thursday+ 4years  - 2 months".toList

theorem ex_head : DateHead ["next".toList, "thursday".toList] .now [⟨.weekday 4, 1, .plus⟩] := .next _ _ _ (by decide)

theorem ex_ops : Ops dayWords ["+".toList, "4".toList, "years".toList, "-".toList, "2".toList, "months".toList]
    [⟨.year, 4, .plus⟩, ⟨.month, 2, .minus⟩] :=
  .cons _ _ _ _ _ _ _ _ (by decide) (by refine ⟨?_, ?_, ?_, ?_⟩ <;> decide) (by decide) <|
  .cons _ _ _ _ _ _ _ _ (by decide) (by refine ⟨?_, ?_, ?_, ?_⟩ <;> decide) (by decide) .nil

theorem ex_laid : Laid (["next".toList, "thursday".toList] ++ ["+".toList, "4".toList, "years".toList, "-".toList, "2".toList, "months".toList]) exText :=
  .cons " ".toList _ _ " thursday+ 4years  - 2 months".toList (by decide) <|
  .cons " ".toList _ _ "+ 4years  - 2 months".toList (by decide) <|
  .cons [] _ _ " 4years  - 2 months".toList (by decide) <|
  .cons " ".toList _ _ "years  - 2 months".toList (by decide) <|
  .cons [] _ _ "  - 2 months".toList (by decide) <|
  .cons "  ".toList _ _ " 2 months".toList (by decide) <|
  .cons " ".toList _ _ " months".toList (by decide) <|
  .cons " ".toList _ _ [] (by decide) <|
  .nil [] (by decide)

/-- C95 and C96 are not vacuous: the example is read, and stands for 1 December 2027 (the Thursday after 31 January
2024 is 1 February). -/
theorem C96_witness :
    parseDate L0 exText = .ok ⟨.now, [⟨.weekday 4, 1, .plus⟩, ⟨.year, 4, .plus⟩, ⟨.month, 2, .minus⟩]⟩ ∧
    execDate L0 wed exText = .ok ⟨2027, 12, 1, 54566535000000⟩ ∧
    (∃ m, BaseMoves .now wed m ∧ Valid m ∧
      Run [⟨.weekday 4, 1, .plus⟩, ⟨.year, 4, .plus⟩, ⟨.month, 2, .minus⟩] m ⟨2027, 12, 1, 54566535000000⟩) := by
  have h := C95_date_read (L := L0) ex_head ex_ops (by decide) ex_laid
  have hv : ∀ a ∈ [(⟨.year, 4, .plus⟩ : Adj DateUnit), ⟨.month, 2, .minus⟩], a.value ≤ 2000000000 := by decide
  have hr : execDate L0 wed exText = .ok ⟨2027, 12, 1, 54566535000000⟩ := by decide
  exact ⟨h, hr, (C96_text wed_valid ex_head ex_ops (by decide) ex_laid hv _).mp hr⟩

/-- C97 and C98 are not vacuous. -/
theorem C97_witness :
    execDateTime L0 wed "tomorrow + 4 years @ 3 o'clock am + 40 milliseconds".toList = .ok ⟨2028, 2, 1, 10800040000000⟩ ∧
    execDateTime L0 wed "@ now - 16 hours".toList = .ok ⟨2024, 1, 30, 83366535000000⟩ ∧
    genDateTimeExpr L0 60 wed (some "yyyy-MM-dd'T'HH:mm:ss.SSSXXX".toList)
      (some "tomorrow + 4 years @ 3 o'clock am + 40 milliseconds".toList) = .ok "2028-02-01T03:00:00.040+01:00".toList ∧
    execDate L0 wed "+ 300000 days".toList = .ok ⟨2845, 6, 15, 54566535000000⟩ := by
  refine ⟨by decide, by decide, by decide, ?_⟩
  refine (C96_date_partial (e := ⟨.now, [⟨.day, 300000, .plus⟩]⟩) wed_valid (by decide) (by decide) (by decide) _).mpr
    ⟨wed, rfl, wed_valid, .cons _ _ _ ⟨2845, 6, 15, 54566535000000⟩ _ ?_ ?_ (.nil _)⟩
  · exact ⟨cal_iff.mpr (by decide), by decide, by decide⟩
  · exact ⟨cal_iff.mpr (by decide), by decide, by decide⟩

/-! ### Findings -/

/-- What follows the last duration is dropped, as is anything that is no word after the first word; so is a number that is
too large. -/
theorem finding_tail :
    parseDate L0 "+ 1 day tomorrow".toList = .ok ⟨.now, [⟨.day, 1, .plus⟩]⟩ ∧
    parseDate L0 "+ 1 day x".toList = .ok ⟨.now, [⟨.day, 1, .plus⟩]⟩ ∧
    parseDate L0 "now x".toList = .ok ⟨.now, []⟩ ∧
    parseDate L0 "now 99999999999999999999999".toList = .ok ⟨.now, []⟩ ∧
    parseDate L0 "now tomorrow".toList = .err := by
  refine ⟨by decide, by decide, by decide, by decide, by decide⟩

/-- `12 o'clock pm`, and `12 o'clock` before noon, leave the time as it is; `12 o'clock am` is noon; `3 o'clock` after
noon is a time that has passed. -/
theorem finding_twelve :
    execTime L0 wed "12 o'clock pm".toList = .ok wed ∧
    execTime L0 { wed with nanos := 1 } "12 o'clock".toList = .ok { wed with nanos := 1 } ∧
    execTime L0 wed "12 o'clock am".toList = .ok { wed with nanos := 43200000000000 } ∧
    execTime L0 wed "3 o'clock".toList = .ok { wed with nanos := 10800000000000 } := by
  refine ⟨by decide, by decide, by decide, by decide⟩

/-- The 29th of February a year later is the same day; a month after the 31st of January is the first of a month, a month
before the 31st of March is the last of February. -/
theorem finding_month_ends :
    execDate L0 ⟨2024, 2, 29, 0⟩ "+ 1 year".toList = .ok ⟨2024, 2, 29, 0⟩ ∧
    execDate L0 wed "+ 1 month".toList = .ok { wed with month := 2, day := 1 } ∧
    execDate L0 { wed with month := 3 } "- 1 month".toList = .ok { wed with month := 2, day := 29 } := by
  refine ⟨by decide, by decide, by decide⟩

/-- Numbers from 2^63 on go the other way, years are taken modulo 2^32, and a year past the last of `chrono` panics, or is
ignored. -/
theorem finding_numbers :
    execDate L0 wed "+ 18446744073709551615 days".toList = .ok { wed with day := 30 } ∧
    execDate L0 wed "+ 4294967297 years".toList = .ok { wed with year := 2025 } ∧
    execDate L0 wed "+ 2147483647 years".toList = .panic ∧
    execDate L0 wed "+ 300000 years".toList = .ok wed ∧
    execDate L0 ⟨262142, 12, 31, 0⟩ "tomorrow".toList = .panic := by
  refine ⟨by decide, by decide, by decide, by decide, by decide⟩

/-- Where blanks and plurals matter and where they do not. -/
theorem finding_spelling :
    execDateTime L0 wed " @ noon".toList = .err ∧
    execDateTime L0 wed "today @ ".toList = .err ∧
    execDateTime L0 wed "@noon".toList = .ok { wed with nanos := 43200000000000 } ∧
    execDateTime L0 wed "today@".toList = .ok wed ∧
    parseDate L0 "nextweek".toList = .ok ⟨.now, [⟨.week, 1, .plus⟩]⟩ ∧
    parseDate L0 "next weeks".toList = .err ∧
    parseTime L0 "next hours".toList = .ok ⟨.now, [⟨.hour, 1, .plus⟩]⟩ := by
  refine ⟨by decide, by decide, by decide, by decide, by decide, by decide, by decide⟩

end DateExprProps
end Verif
