import Verif.DefExpr
import Verif.Time

/-
  Model of `rust/pact_models/src/generators/date_expression_parser.rs`, `time_expression_parser.rs` and
  `datetime_expressions.rs`: the lexers, the parsers and the execution of date/time expressions such as
  `tomorrow + 4 years @ 3 o'clock + 40 milliseconds`.

  The lexers are generated by the `logos` crate: the model implements the documented meaning of the patterns (skip
  white space, longest match); what a text that matches no pattern consumes is a parameter (`Lib.bad`).
  `chrono` is an external library: its calendar is the proleptic Gregorian one, moments are local times in a zone whose
  offset does not change (no daylight saving), and a moment outside its years makes `+` and `-` panic.  Error messages
  are dropped.  Debug build: integer overflow panics.
-/

set_option autoImplicit false

namespace Verif
namespace DateExpr
open DefExpr (Lib skip)

/-! ## Lexer -/

/-- `enum Operation` (datetime_expressions.rs 108-110). -/
inductive Op where
  | plus | minus
deriving DecidableEq, Repr

/-- The tokens of both lexers (date_expression_parser.rs 20-131, time_expression_parser.rs 18-63); `W` are the words of
their own. -/
inductive Tok (W : Type) where
  | op (o : Op)
  | int (n : Nat)
  | next
  | last
  | word (w : W)
deriving DecidableEq, Repr

/-- A token (`none` for an error) and what follows (`lex.remainder()`). -/
structure Lexeme (W : Type) where
  tok : Option (Tok W)
  rest : Str
deriving DecidableEq, Repr

/-- The words of a table that start a text: the longest one. -/
def longest {W : Type} : List (Str × Tok W) → Str → Option (Str × Tok W)
  | [], _ => none
  | (w, t) :: tab, s =>
    match longest tab s with
    | some (w', t') => if w.isPrefixOf s ∧ w'.length < w.length then some (w, t) else some (w', t')
    | none => if w.isPrefixOf s then some (w, t) else none

/-- The `#[regex("[0-9]+", |lex| lex.slice().parse().ok())]` token (date_expression_parser.rs 44, time_expression_parser.rs
48): an error when it does not fit in a `u64`. -/
def number {W : Type} (s : Str) : Lexeme W :=
  ⟨(parseDigits usizeLim (s.takeWhile Char.isDigit)).map .int, s.dropWhile Char.isDigit⟩

/-- The token at the start of a text that starts with no white space. -/
def token {W : Type} (L : Lib) (tab : List (Str × Tok W)) (c : Char) (cs : Str) : Lexeme W :=
  if c.isDigit then number (c :: cs)
  else match longest tab (c :: cs) with
    | some (w, t) => ⟨some t, (c :: cs).drop w.length⟩
    | none => ⟨none, (c :: cs).drop (L.bad (c :: cs) + 1)⟩

/-- `lex.next()`. -/
def next {W : Type} (L : Lib) (tab : List (Str × Tok W)) (s : Str) : Option (Lexeme W) :=
  match s.dropWhile skip with
  | [] => none
  | c :: cs => some (token L tab c cs)

/-! ## Parsers -/

/-- `struct Adjustment` (datetime_expressions.rs 133-140). -/
structure Adj (U : Type) where
  unit : U
  value : Nat
  op : Op
deriving DecidableEq, Repr

/-- `duration` (date_expression_parser.rs 281-288, time_expression_parser.rs 265-275): a number and a unit. -/
def duration {W U : Type} (L : Lib) (tab : List (Str × Tok W)) (unit : W → Option U) (s : Str) : Res ((U × Nat) × Str) :=
  match next L tab s with
  | some ⟨some (.int n), r⟩ =>
    match next L tab r with
    | some ⟨some (.word w), r'⟩ =>
      match unit w with
      | some u => .ok ((u, n), r')
      | none => .err
    | _ => .err
  | _ => .err

/-- `adjustments` (date_expression_parser.rs 229-242, time_expression_parser.rs 223-248), after the operator `o`: a token
that is no operator ends the list and is dropped, as is an illegal one.  Each round takes at least one character. -/
def adjustments {W U : Type} (L : Lib) (tab : List (Str × Tok W)) (unit : W → Option U) :
    Nat → Op → Str → Res (List (Adj U) × Str)
  | 0, _, _ => .err
  | f + 1, o, s =>
    match duration L tab unit s with
    | .ok ((u, n), r) =>
      match next L tab r with
      | some ⟨some (.op o'), r'⟩ => (adjustments L tab unit f o' r').map fun x => (⟨u, n, o⟩ :: x.1, x.2)
      | some ⟨_, r'⟩ => .ok ([⟨u, n, o⟩], r')
      | none => .ok ([⟨u, n, o⟩], [])
    | .err => .err
    | .panic => .panic

/-- What may follow the first part of an expression (inside `expression`, date_expression_parser.rs 166-226 and
time_expression_parser.rs 98-164): operators and durations, or nothing, or an illegal token. -/
def follow {W U : Type} (L : Lib) (tab : List (Str × Tok W)) (unit : W → Option U) (s : Str) :
    Option (Lexeme W) → Res (List (Adj U) × Str)
  | none => .ok ([], [])
  | some ⟨none, r⟩ => .ok ([], r)
  | some ⟨some (.op o), r⟩ => adjustments L tab unit s.length o r
  | some ⟨some _, _⟩ => .err

/-- `lex.remainder().trim().is_empty()`, else "no more tokens" (date_expression_parser.rs 166-226,
time_expression_parser.rs 98-164). -/
def finish {A : Type} (L : Lib) (a : A) (rest : Str) : Res A := if rest.all L.uc.white then .ok a else .err

/-- `enum DateBase` (datetime_expressions.rs 74-76). -/
inductive DateBase where
  | now | today | yesterday | tomorrow
deriving DecidableEq, Repr

/-- `enum DateOffsetType` (datetime_expressions.rs 114-117): Monday is 1, January is 1. -/
inductive DateUnit where
  | day | week | month | year
  | weekday (i : Nat)
  | monthName (i : Nat)
deriving DecidableEq, Repr

/-- The words of `DateExpressionToken` (date_expression_parser.rs 20-131). -/
inductive DWord where
  | base (b : DateBase)
  /-- `day`, `week`, `month`, `year` -/
  | one (u : DateUnit)
  /-- `days`, `weeks`, `months`, `years` -/
  | many (u : DateUnit)
  | fortnight
  /-- names of days and months -/
  | name (u : DateUnit)
deriving DecidableEq, Repr

/-- The patterns of `DateExpressionToken` (date_expression_parser.rs 20-131), `x(y)?` as two words. -/
def dateTab : List (Str × Tok DWord) :=
  [("now".toList, .word (.base .now)), ("today".toList, .word (.base .today)),
   ("yesterday".toList, .word (.base .yesterday)), ("tomorrow".toList, .word (.base .tomorrow)),
   ("+".toList, .op .plus), ("-".toList, .op .minus), ("next".toList, .next), ("last".toList, .last),
   ("days".toList, .word (.many .day)), ("day".toList, .word (.one .day)),
   ("weeks".toList, .word (.many .week)), ("week".toList, .word (.one .week)),
   ("months".toList, .word (.many .month)), ("month".toList, .word (.one .month)),
   ("years".toList, .word (.many .year)), ("year".toList, .word (.one .year)),
   ("fortnight".toList, .word .fortnight),
   ("mon".toList, .word (.name (.weekday 1))), ("monday".toList, .word (.name (.weekday 1))),
   ("tues".toList, .word (.name (.weekday 2))), ("tuesday".toList, .word (.name (.weekday 2))),
   ("wed".toList, .word (.name (.weekday 3))), ("wednesday".toList, .word (.name (.weekday 3))),
   ("thurs".toList, .word (.name (.weekday 4))), ("thursday".toList, .word (.name (.weekday 4))),
   ("fri".toList, .word (.name (.weekday 5))), ("friday".toList, .word (.name (.weekday 5))),
   ("sat".toList, .word (.name (.weekday 6))), ("saturday".toList, .word (.name (.weekday 6))),
   ("sun".toList, .word (.name (.weekday 7))), ("sunday".toList, .word (.name (.weekday 7))),
   ("jan".toList, .word (.name (.monthName 1))), ("january".toList, .word (.name (.monthName 1))),
   ("feb".toList, .word (.name (.monthName 2))), ("february".toList, .word (.name (.monthName 2))),
   ("mar".toList, .word (.name (.monthName 3))), ("march".toList, .word (.name (.monthName 3))),
   ("apr".toList, .word (.name (.monthName 4))), ("april".toList, .word (.name (.monthName 4))),
   ("may".toList, .word (.name (.monthName 5))),
   ("jun".toList, .word (.name (.monthName 6))), ("june".toList, .word (.name (.monthName 6))),
   ("jul".toList, .word (.name (.monthName 7))), ("july".toList, .word (.name (.monthName 7))),
   ("aug".toList, .word (.name (.monthName 8))), ("august".toList, .word (.name (.monthName 8))),
   ("sep".toList, .word (.name (.monthName 9))), ("september".toList, .word (.name (.monthName 9))),
   ("oct".toList, .word (.name (.monthName 10))), ("october".toList, .word (.name (.monthName 10))),
   ("nov".toList, .word (.name (.monthName 11))), ("november".toList, .word (.name (.monthName 11))),
   ("dec".toList, .word (.name (.monthName 12))), ("december".toList, .word (.name (.monthName 12)))]

/-- `duration_type` (date_expression_parser.rs 299-315). -/
def dateUnit : DWord → Option DateUnit
  | .one u => some u
  | .many u => some u
  | _ => none

/-- `offset` (date_expression_parser.rs 360-392). -/
def dateOffset : DWord → Option (DateUnit × Nat)
  | .one u => some (u, 1)
  | .fortnight => some (.week, 2)
  | .name u => some (u, 1)
  | _ => none

/-- `struct ParsedDateExpression` (date_expression_parser.rs 11-16). -/
structure DateExp where
  base : DateBase
  adjs : List (Adj DateUnit)
deriving DecidableEq, Repr

/-- `next` and `last` (date_expression_parser.rs 166-226). -/
def relative (L : Lib) (o : Op) (s : Str) : Res (List (Adj DateUnit) × Str) :=
  match next L dateTab s with
  | some ⟨some (.word w), r⟩ =>
    match dateOffset w with
    | some (u, n) => (follow L dateTab dateUnit r (next L dateTab r)).map fun x => (⟨u, n, o⟩ :: x.1, x.2)
    | none => .err
  | _ => .err

/-- `expression` (date_expression_parser.rs 166-226), `parse_date_expression` (datetime_expressions.rs 142-145). -/
def parseDate (L : Lib) (s : Str) : Res DateExp :=
  match next L dateTab s with
  | some ⟨some (.word (.base b)), r⟩ =>
    (follow L dateTab dateUnit r (next L dateTab r)).bind fun x => finish L ⟨b, x.1⟩ x.2
  | some ⟨some (.op o), r⟩ =>
    (adjustments L dateTab dateUnit s.length o r).bind fun x => finish L ⟨.now, x.1⟩ x.2
  | some ⟨some .next, r⟩ => (relative L .plus r).bind fun x => finish L ⟨.now, x.1⟩ x.2
  | some ⟨some .last, r⟩ => (relative L .minus r).bind fun x => finish L ⟨.now, x.1⟩ x.2
  | _ => .err

/-- `enum TimeOffsetType` (datetime_expressions.rs 121-123). -/
inductive TimeUnit where
  | hour | minute | second | milli
deriving DecidableEq, Repr

/-- The words of `TimeExpressionToken` (time_expression_parser.rs 18-63). -/
inductive TWord where
  | now | midnight | noon | oclock | am | pm
  | unit (u : TimeUnit)
deriving DecidableEq, Repr

/-- The patterns of `TimeExpressionToken` (time_expression_parser.rs 18-63). -/
def timeTab : List (Str × Tok TWord) :=
  [("now".toList, .word .now), ("midnight".toList, .word .midnight), ("noon".toList, .word .noon),
   ("o'clock".toList, .word .oclock), ("am".toList, .word .am), ("pm".toList, .word .pm),
   ("+".toList, .op .plus), ("-".toList, .op .minus), ("next".toList, .next), ("last".toList, .last),
   ("hour".toList, .word (.unit .hour)), ("hours".toList, .word (.unit .hour)),
   ("minute".toList, .word (.unit .minute)), ("minutes".toList, .word (.unit .minute)),
   ("second".toList, .word (.unit .second)), ("seconds".toList, .word (.unit .second)),
   ("millisecond".toList, .word (.unit .milli)), ("milliseconds".toList, .word (.unit .milli))]

/-- `duration_type` and `offset` (time_expression_parser.rs 286-301, 323-338). -/
def timeUnit : TWord → Option TimeUnit
  | .unit u => some u
  | _ => none

/-- `enum TimeBase` (datetime_expressions.rs 80-85). -/
inductive TimeBase where
  | now | midnight | noon
  | am (h : Nat)
  | pm (h : Nat)
  | next (h : Nat)
deriving DecidableEq, Repr

/-- `struct ParsedTimeExpression` (time_expression_parser.rs 9-14). -/
structure TimeExp where
  base : TimeBase
  adjs : List (Adj TimeUnit)
deriving DecidableEq, Repr

/-- `TimeBase::of` (datetime_expressions.rs 88-103). -/
def hourOf (n : Nat) (b : TimeBase) : Res TimeBase := if 1 ≤ n ∧ n ≤ 12 then .ok b else .err

/-- A number at the start: `oclock` and `TimeBase::of` (time_expression_parser.rs 171-220); the base, and what follows. -/
def oclock (L : Lib) (n : Nat) (s : Str) : Res (TimeBase × Option (Lexeme TWord)) :=
  match next L timeTab s with
  | some ⟨some (.word .oclock), r⟩ =>
    match next L timeTab r with
    | none => (hourOf n (.next n)).map fun b => (b, none)
    | some ⟨none, _⟩ => .err
    | some ⟨some (.word .am), r'⟩ => (hourOf n (.am n)).map fun b => (b, next L timeTab r')
    | some ⟨some (.word .pm), r'⟩ => (hourOf n (.pm n)).map fun b => (b, next L timeTab r')
    | some l => (hourOf n (.next n)).map fun b => (b, some l)
  | _ => .err

/-- `next` and `last` (time_expression_parser.rs 98-164). -/
def relativeTime (L : Lib) (o : Op) (s : Str) : Res (List (Adj TimeUnit) × Str) :=
  match next L timeTab s with
  | some ⟨some (.word w), r⟩ =>
    match timeUnit w with
    | some u => (follow L timeTab timeUnit r (next L timeTab r)).map fun x => (⟨u, 1, o⟩ :: x.1, x.2)
    | none => .err
  | _ => .err

/-- `expression` (time_expression_parser.rs 98-164), `parse_time_expression` (datetime_expressions.rs 147-150). -/
def parseTime (L : Lib) (s : Str) : Res TimeExp :=
  match next L timeTab s with
  | some ⟨some (.word .now), r⟩ =>
    (follow L timeTab timeUnit r (next L timeTab r)).bind fun x => finish L ⟨.now, x.1⟩ x.2
  | some ⟨some (.word .midnight), r⟩ =>
    (follow L timeTab timeUnit r (next L timeTab r)).bind fun x => finish L ⟨.midnight, x.1⟩ x.2
  | some ⟨some (.word .noon), r⟩ =>
    (follow L timeTab timeUnit r (next L timeTab r)).bind fun x => finish L ⟨.noon, x.1⟩ x.2
  | some ⟨some (.int n), r⟩ =>
    (oclock L n r).bind fun b => (follow L timeTab timeUnit r b.2).bind fun x => finish L ⟨b.1, x.1⟩ x.2
  | some ⟨some (.op o), r⟩ =>
    (adjustments L timeTab timeUnit s.length o r).bind fun x => finish L ⟨.now, x.1⟩ x.2
  | some ⟨some .next, r⟩ => (relativeTime L .plus r).bind fun x => finish L ⟨.now, x.1⟩ x.2
  | some ⟨some .last, r⟩ => (relativeTime L .minus r).bind fun x => finish L ⟨.now, x.1⟩ x.2
  | _ => .err

/-! ## The calendar (`chrono`) -/

/-- A local date and time; `nanos` since midnight. -/
structure Moment where
  year : Int
  month : Nat
  day : Nat
  nanos : Nat
deriving DecidableEq, Repr

/-- Leap years of the proleptic Gregorian calendar. -/
def leap (y : Int) : Bool := decide (y % 4 = 0) && (decide (y % 100 ≠ 0) || decide (y % 400 = 0))

/-- Days of a month. -/
def daysIn (y : Int) (m : Nat) : Nat :=
  match m with
  | 2 => if leap y then 29 else 28
  | 4 => 30
  | 6 => 30
  | 9 => 30
  | 11 => 30
  | _ => 31

/-- Days of the year before a month. -/
def before (y : Int) (m : Nat) : Nat :=
  let l := if leap y then 1 else 0
  match m with
  | 1 => 0
  | 2 => 31
  | 3 => 59 + l
  | 4 => 90 + l
  | 5 => 120 + l
  | 6 => 151 + l
  | 7 => 181 + l
  | 8 => 212 + l
  | 9 => 243 + l
  | 10 => 273 + l
  | 11 => 304 + l
  | _ => 334 + l

/-- The number of a day: 1 is the first of January of the year 1. -/
def dayNum (y : Int) (m d : Nat) : Int :=
  365 * (y - 1) + (y - 1) / 4 - (y - 1) / 100 + (y - 1) / 400 + before y m + d

/-- `Datelike::weekday`: Monday is 1, Sunday is 7. -/
def weekday (t : Moment) : Nat := ((dayNum t.year t.month t.day - 1) % 7).toNat + 1

/-- The next day, at the same time. -/
def succDay (t : Moment) : Moment :=
  if t.day < daysIn t.year t.month then { t with day := t.day + 1 }
  else if t.month < 12 then { t with month := t.month + 1, day := 1 }
  else { t with year := t.year + 1, month := 1, day := 1 }

/-- The day before, at the same time. -/
def predDay (t : Moment) : Moment :=
  if 1 < t.day then { t with day := t.day - 1 }
  else if 1 < t.month then { t with month := t.month - 1, day := daysIn t.year (t.month - 1) }
  else { t with year := t.year - 1, month := 12, day := 31 }

/-- `n` times. -/
def times {A : Type} (f : A → A) : Nat → A → A
  | 0, a => a
  | n + 1, a => times f n (f a)

/-- The years of `chrono`: `NaiveDate::MIN` and `NaiveDate::MAX`. -/
def minYear : Int := -262143
/-- See `minYear`. -/
def maxYear : Int := 262142

/-- A moment `chrono` can represent; outside `+` and `-` panic. -/
def inRange (t : Moment) : Res Moment := if minYear ≤ t.year ∧ t.year ≤ maxYear then .ok t else .panic

/-- `n` days later or earlier. -/
def shiftDays (t : Moment) : Int → Moment
  | .ofNat n => times succDay n t
  | .negSucc n => times predDay (n + 1) t

/-- Nanoseconds of a day. -/
def dayNanos : Nat := 86400000000000

/-- `DateTime::add`/`sub` of a `Duration` of `ms` milliseconds. -/
def addMillis (t : Moment) (ms : Int) : Res Moment :=
  let n := (t.nanos : Int) + ms * 1000000
  inRange { shiftDays t (n / dayNanos) with nanos := (n % dayNanos).toNat }

/-- `DateTime::with_day(d)`. -/
def withDay (t : Moment) (d : Nat) : Option Moment :=
  if 1 ≤ d ∧ d ≤ daysIn t.year t.month then some { t with day := d } else none

/-- `DateTime::with_year(y)`. -/
def withYear (t : Moment) (y : Int) : Option Moment :=
  if minYear ≤ y ∧ y ≤ maxYear ∧ t.day ≤ daysIn y t.month then some { t with year := y } else none

/-- Days `chrono` can still represent after a moment. -/
def daysAfter (t : Moment) : Nat := (dayNum maxYear 12 31 - dayNum t.year t.month t.day).toNat
/-- Days `chrono` can represent before a moment. -/
def daysBefore (t : Moment) : Nat := (dayNum t.year t.month t.day - dayNum minYear 1 1).toNat

/-- `while p(&date) { date = date + one_day }` or `- one_day`; `n` is the number of days that are left, after which the
addition panics. -/
def loop (step : Moment → Moment) (p : Moment → Bool) : Nat → Moment → Res Moment
  | 0, t => if p t then .panic else .ok t
  | n + 1, t => if p t then loop step p n (step t) else .ok t

/-- `while p(&date) { date = date.add(one_day_duration) }`. -/
def whileUp (p : Moment → Bool) (t : Moment) : Res Moment := loop succDay p (daysAfter t) t
/-- `while p(&date) { date = date.sub(one_day_duration) }`. -/
def whileDown (p : Moment → Bool) (t : Moment) : Res Moment := loop predDay p (daysBefore t) t

/-! ## Execution -/

/-- `u64 as i64`. -/
def asI64 (n : Nat) : Int := if n % 2 ^ 64 < 2 ^ 63 then (n % 2 ^ 64 : Nat) else (n % 2 ^ 64 : Nat) - 2 ^ 64
/-- `u64 as i32`. -/
def asI32 (n : Nat) : Int := if n % 2 ^ 32 < 2 ^ 31 then (n % 2 ^ 32 : Nat) else (n % 2 ^ 32 : Nat) - 2 ^ 32

/-- `Duration::try_days`, `try_weeks`, … and the error when it is out of bounds, then `add` or `sub`
(datetime_expressions.rs 171-223, 248-280, 352-384): `k` milliseconds each. -/
def shiftBy (t : Moment) (n k : Nat) (o : Op) : Res Moment :=
  if (asI64 n * k).natAbs < 2 ^ 63 then addMillis t (match o with | .plus => asI64 n * k | .minus => -(asI64 n * k))
  else .err

/-- `adjust_date_up_to` (datetime_expressions.rs 283-299). -/
def adjustUp (p : Moment → Bool) (t : Moment) : Res Moment := (whileUp p t).bind (whileUp fun x => !p x)
/-- `adjust_date_down_to` (datetime_expressions.rs 302-318). -/
def adjustDown (p : Moment → Bool) (t : Moment) : Res Moment := (whileDown p t).bind (whileDown fun x => !p x)

/-- The loop of `roll_month` (datetime_expressions.rs 321-350): `n` times to the first day of another month. -/
def rollUp : Nat → Moment → Res Moment
  | 0, t => .ok t
  | n + 1, t => (whileUp (fun x => x.month == t.month) t).bind (rollUp n)
/-- The loop of `roll_month` backwards (datetime_expressions.rs 321-350). -/
def rollDown : Nat → Moment → Res Moment
  | 0, t => .ok t
  | n + 1, t => (whileDown (fun x => x.month == t.month) t).bind (rollDown n)

/-- `roll_month` (datetime_expressions.rs 321-350). -/
def rollMonth (t : Moment) (n : Int) : Res Moment :=
  if 0 < n then (rollUp n.toNat t).map fun x => (withDay x t.day).getD x
  else if n < 0 then (rollDown (-n).toNat t).map fun x => (withDay x t.day).getD x
  else .ok t

/-- `date.with_year(year ± value as i32).unwrap_or(date)` (datetime_expressions.rs 248-280, 352-384). -/
def rollYear (t : Moment) (y : Int) : Res Moment :=
  if -2 ^ 31 ≤ y ∧ y < 2 ^ 31 then .ok ((withYear t y).getD t) else .panic

/-- `forward_date_by` (datetime_expressions.rs 248-280). -/
def forward (a : Adj DateUnit) (t : Moment) : Res Moment :=
  match a.unit with
  | .day => shiftBy t a.value 86400000 .plus
  | .week => shiftBy t a.value 604800000 .plus
  | .month => rollMonth t (asI64 a.value)
  | .year => rollYear t (t.year + asI32 a.value)
  | .weekday i => adjustUp (fun x => weekday x == i) t
  | .monthName i => adjustUp (fun x => x.month == i) t

/-- `reverse_date_by` (datetime_expressions.rs 352-384). -/
def reverse (a : Adj DateUnit) (t : Moment) : Res Moment :=
  match a.unit with
  | .day => shiftBy t a.value 86400000 .minus
  | .week => shiftBy t a.value 604800000 .minus
  | .month => if asI64 a.value = -2 ^ 63 then .panic else rollMonth t (-asI64 a.value)
  | .year => rollYear t (t.year - asI32 a.value)
  | .weekday i => adjustDown (fun x => weekday x == i) t
  | .monthName i => (adjustDown (fun x => x.month == i) t).map fun x => (withDay x 1).getD t

/-- One adjustment (datetime_expressions.rs 154-168). -/
def adjust (a : Adj DateUnit) (t : Moment) : Res Moment :=
  match a.op with
  | .plus => forward a t
  | .minus => reverse a t

/-- The adjustments in order (datetime_expressions.rs 154-168). -/
def adjustAll : List (Adj DateUnit) → Moment → Res Moment
  | [], t => .ok t
  | a :: as, t => (adjust a t).bind (adjustAll as)

/-- `base_date` (datetime_expressions.rs 386-393). -/
def baseDate (b : DateBase) (t : Moment) : Res Moment :=
  match b with
  | .now => .ok t
  | .today => .ok t
  | .yesterday => shiftBy t 1 86400000 .minus
  | .tomorrow => shiftBy t 1 86400000 .plus

/-- `execute_date_expression` (datetime_expressions.rs 154-168). -/
def execDate (L : Lib) (t : Moment) (s : Str) : Res Moment :=
  if s.isEmpty then .ok t
  else (parseDate L s).bind fun e => (baseDate e.base t).bind (adjustAll e.adjs)

/-- Nanoseconds of an hour. -/
def hourNanos : Nat := 3600000000000

/-- `time.with_hour(h).unwrap_or(dt)` for the time at the beginning of the hour (datetime_expressions.rs 171-223). -/
def withHour (t : Moment) (h : Nat) : Moment := if h < 24 then { t with nanos := h * hourNanos } else t

/-- The base of a time expression (datetime_expressions.rs 171-223). -/
def baseTime (b : TimeBase) (t : Moment) : Moment :=
  match b with
  | .now => t
  | .midnight => withHour t 0
  | .noon => withHour t 12
  | .am h => withHour t h
  | .pm h => withHour t (12 + h)
  | .next h => if t.nanos / hourNanos < 12 then withHour t (12 + h) else withHour t h

/-- Milliseconds of a unit. -/
def unitMillis : TimeUnit → Nat
  | .hour => 3600000
  | .minute => 60000
  | .second => 1000
  | .milli => 1

/-- The adjustments of a time in order (datetime_expressions.rs 171-223). -/
def adjustTimes : List (Adj TimeUnit) → Moment → Res Moment
  | [], t => .ok t
  | a :: as, t => (shiftBy t a.value (unitMillis a.unit) a.op).bind (adjustTimes as)

/-- `execute_time_expression` (datetime_expressions.rs 171-223). -/
def execTime (L : Lib) (t : Moment) (s : Str) : Res Moment :=
  if s.isEmpty then .ok t
  else (parseTime L s).bind fun e => adjustTimes e.adjs (baseTime e.base t)

/-- `str::split_once("@")`. -/
def splitAt : Str → Option (Str × Str)
  | [] => none
  | c :: s => if c = '@' then some ([], s) else (splitAt s).map fun x => (c :: x.1, x.2)

/-- `execute_datetime_expression` (datetime_expressions.rs 226-246): the time part is also executed when the date part
has an error, so that it can panic. -/
def execDateTime (L : Lib) (t : Moment) (s : Str) : Res Moment :=
  match splitAt s with
  | some (d, h) =>
    match execDate L t d with
    | .ok t' => execTime L t' h
    | .err => (execTime L t h).bind fun _ => .err
    | .panic => .panic
  | none => execDate L t s

/-! ## Generators with an expression -/

/-- The moment of an expression as `chrono` formats it, at an offset of `off` minutes.  `%U` counts the weeks that start on
a Sunday. -/
def clockOf (off : Int) (t : Moment) : Time.Clock :=
  let ordinal := before t.year t.month + t.day
  { year := t.year.toNat, month := t.month, day := t.day, ordinal := ordinal,
    weekOfYear := (ordinal + 7 - weekday t % 7) / 7, weekday := weekday t,
    hour := t.nanos / hourNanos, minute := t.nanos / 60000000000 % 60, second := t.nanos / 1000000000 % 60,
    nanos := t.nanos % 1000000000, offset := off }

/-- `Generator::Date(format, exp)` (generators/mod.rs 913-939): no expression is the empty one. -/
def genDateExpr (L : Lib) (off : Int) (t : Moment) (fmt exp : Option Str) : Res Str :=
  (execDate L t (exp.getD [])).bind fun r => Time.genDate (clockOf off r) fmt
/-- `Generator::Time(format, exp)` (generators/mod.rs 940-963). -/
def genTimeExpr (L : Lib) (off : Int) (t : Moment) (fmt exp : Option Str) : Res Str :=
  (execTime L t (exp.getD [])).bind fun r => Time.genTime (clockOf off r) fmt
/-- `Generator::DateTime(format, exp)` (generators/mod.rs 964-987). -/
def genDateTimeExpr (L : Lib) (off : Int) (t : Moment) (fmt exp : Option Str) : Res Str :=
  (execDateTime L t (exp.getD [])).bind fun r => Time.genDateTime (clockOf off r) fmt


end DateExpr
end Verif
