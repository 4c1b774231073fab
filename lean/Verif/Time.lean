import Verif.Base

/-
  Model of `rust/pact_models/src/time_utils.rs`: date/time patterns (Java `DateTimeFormatter` letters),
  validation of a string against a pattern, and conversion of a pattern to a `chrono` format string.

  Simplifications, stated once:
  * error texts are dropped (`Res.err`); `tracing` calls are dropped;
  * the `nom` combinators (nom 7.1.3, complete variants) are modelled by the functions of the first
    section; `Err::Error` is `none`, `Err::Failure` is `Res.err`;
  * the time zone tables `ZONES` and `ZONES_ABBR`, which a build script generates from the tz database,
    are the parameter `Zones`;
  * `usize` is 64 bits wide and arithmetic overflow panics (the debug profile).
-/

set_option autoImplicit false

namespace Verif
namespace Time

/-! ### The `nom` combinators used -/

/-- nom `tag` on `&str`: the given text, then the rest. -/
def tag : Str → Str → Option Str
  | [], s => some s
  | _ :: _, [] => none
  | c :: t, d :: s => if c = d then tag t s else none

/-- nom `tag_no_case` on `&str`: nom compares `char::to_lowercase` of both sides.  All tags of this file are
ASCII and contain no `k` (the only letter of a tag that a non-ASCII character lowercases to), so the ASCII
lower case is the same comparison.  Returns the text as it is in the value. -/
def tagNoCase : Str → Str → Option (Str × Str)
  | [], s => some ([], s)
  | _ :: _, [] => none
  | c :: t, d :: s =>
    if c.toLower = d.toLower then
      match tagNoCase t s with
      | some (p, r) => some (d :: p, r)
      | none => none
    else none

/-- nom `alt` over `tag_no_case` alternatives: the first that applies. -/
def altNoCase : List Str → Str → Option (Str × Str)
  | [], _ => none
  | t :: ts, s =>
    match tagNoCase t s with
    | some r => some r
    | none => altNoCase ts s

/-- nom `take_while_m_n(m, n, p)`: up to `n` characters satisfying `p`, at least `m`. -/
def takeMN (m n : Nat) (p : Char → Bool) (s : Str) : Option (Str × Str) :=
  if m ≤ ((s.takeWhile p).take n).length then
    some ((s.takeWhile p).take n, s.drop ((s.takeWhile p).take n).length)
  else none

/-- nom `is_a`, `is_not`, `digit1`, `alphanumeric1`: the longest non-empty run satisfying `p`. -/
def many1 (p : Char → Bool) (s : Str) : Option (Str × Str) :=
  if (s.takeWhile p).isEmpty then none else some (s.takeWhile p, s.dropWhile p)

/-- nom `opt`. -/
def optP (f : Str → Option (Str × Str)) (s : Str) : Str × Str :=
  match f s with
  | some r => r
  | none => ([], s)

/-- nom `tuple` / `preceded` of two parsers, texts joined. -/
def seqP (f g : Str → Option (Str × Str)) (s : Str) : Option (Str × Str) :=
  match f s with
  | none => none
  | some (p, r) =>
    match g r with
    | none => none
    | some (q, r') => some (p ++ q, r')

/-- `tag` as a parser that returns the text it took. -/
def lit (t : Str) (s : Str) : Option (Str × Str) :=
  match tag t s with
  | some r => some (t, r)
  | none => none

/-! ### Pattern tokens -/

/-- `enum DateTimePatternToken` (time_utils.rs 60-92).  `weekInMonth true` is `W`, `false` is `F`;
`frac` is `Millisecond`, `nano` is `Nanosecond`, `offsetXZ` is `TimezoneOffsetXZZero`. -/
inductive PTok where
  | era (n : Nat) | year (n : Nat) | month (n : Nat) | monthNum (n : Nat) | text (t : Str)
  | weekInYear | weekInMonth (fromOne : Bool) | dayInYear | dayInMonth | dayName (n : Nat) | dayOfWeek (n : Nat)
  | amPm | hour24 | hour24z | hour12 | hour12z | minute | second | frac (n : Nat) | nano (n : Nat)
  | offset (n : Nat) | offsetX (n : Nat) | offsetXZ (n : Nat) | offsetGmt (n : Nat)
  | tzName (n : Nat) | tzId (n : Nat) | quarter (n : Nat) | quarterNum (n : Nat) | milliOfDay | nanoOfDay
deriving Repr, DecidableEq

/-- A run of `n` letters where at most `max` are allowed; more is a `Failure`
(`TooManyPatternLetters`), which `alt` and `many1` propagate. -/
def upTo (max n : Nat) (t : PTok) : Res PTok := if max < n then .err else .ok t

/-- The token of a run of `n ≥ 1` pattern letters `c`: `era_pattern` … `timezone_pattern`
(time_utils.rs 176-404, the letter patterns).  `none`: no alternative of `parse_pattern` begins with `c`.
The alternatives begin with distinct letters, so their order (483-505) does not matter. -/
def letterTok (c : Char) (n : Nat) : Option (Res PTok) :=
  match c with
  | 'G' => some (upTo 5 n (.era n))
  | 'y' => some (.ok (.year n))
  | 'Y' => some (.ok (.year n))
  | 'u' => some (.ok (.year n))
  | 'M' => some (upTo 5 n (.month n))
  | 'L' => some (upTo 5 n (.monthNum n))
  | 'D' => some (.ok .dayInYear)
  | 'd' => some (upTo 2 n .dayInMonth)
  | 'q' => some (upTo 2 n (.quarterNum n))
  | 'Q' => some (upTo 5 n (.quarter n))
  | 'w' => some (upTo 2 n .weekInYear)
  | 'W' => some (upTo 2 n (.weekInMonth true))
  | 'F' => some (upTo 2 n (.weekInMonth false))
  | 'E' => some (upTo 5 n (.dayName n))
  | 'e' => some (upTo 5 n (.dayOfWeek n))
  | 'c' => some (upTo 1 n (.dayOfWeek n))
  | 'a' => some (upTo 1 n .amPm)
  | 'h' => some (upTo 2 n .hour12)
  | 'H' => some (upTo 2 n .hour24z)
  | 'k' => some (upTo 2 n .hour24)
  | 'K' => some (upTo 2 n .hour12z)
  | 'm' => some (upTo 2 n .minute)
  | 's' => some (upTo 2 n .second)
  | 'S' => some (.ok (.frac n))
  | 'n' => some (.ok (.nano n))
  | 'A' => some (.ok .milliOfDay)
  | 'N' => some (.ok .nanoOfDay)
  | 'x' => some (upTo 5 n (.offsetX n))
  | 'X' => some (upTo 5 n (.offsetXZ n))
  | 'Z' => some (upTo 5 n (.offset n))
  | 'O' => some (upTo 4 n (.offsetGmt n))
  | 'z' => some (upTo 4 n (.tzName n))
  | 'V' => some (upTo 2 n (.tzId n))
  | _ => none

/-- The set of `text_pattern` (time_utils.rs 406-410): not an ASCII letter or digit, not `'{}[]`. -/
def isTextChar (c : Char) : Bool :=
  !(c.isAlpha || c.isDigit || c == '\'' || c == '{' || c == '}' || c == '[' || c == ']')

/-- `many1(alt((tag("''"), is_not("'"))))` inside quotes (time_utils.rs 294-301), joined; stops at a quote that
is not doubled, or at the end. -/
def quotedBody : Str → Str × Str
  | [] => ([], [])
  | '\'' :: '\'' :: s => ('\'' :: '\'' :: (quotedBody s).1, (quotedBody s).2)
  | '\'' :: s => ([], '\'' :: s)
  | c :: s => (c :: (quotedBody s).1, (quotedBody s).2)

/-- `chars().coalesce(…)` (time_utils.rs 294-301): every run of quotes becomes one quote. -/
def squash : Str → Str
  | [] => []
  | '\'' :: '\'' :: s => squash ('\'' :: s)
  | c :: s => c :: squash s

/-- `quoted_text_pattern` (time_utils.rs 294-301). -/
def quotedText (s : Str) : Option (PTok × Str) :=
  match s with
  | '\'' :: s' =>
    if (quotedBody s').1.isEmpty then none
    else match (quotedBody s').2 with
      | '\'' :: r => some (.text (squash (quotedBody s').1), r)
      | _ => none
  | _ => none

/-- One step of the `alt` of `parse_pattern` (time_utils.rs 740-777) at a non-empty rest: the token and the
rest; `none` is an `Error` (no alternative applies). -/
def nextTok (s : Str) : Option (Res (PTok × Str)) :=
  match s with
  | [] => none
  | c :: s' =>
    match letterTok c ((s.takeWhile (· == c)).length) with
    | some r => some (r.map fun t => (t, s.dropWhile (· == c)))
    | none =>
      match quotedText s with
      | some (t, r) => some (.ok (t, r))
      | none =>
        match tag ['\'', '\''] (c :: s') with
        | some r => some (.ok (.text ['\''], r))
        | none =>
          match many1 isTextChar s with
          | some (t, r) => some (.ok (.text t, r))
          | none => none

/-- `many1(alt(…))` followed by the check that nothing remains (time_utils.rs 740-777).  Every step consumes
a character, so the length of the pattern bounds the number of steps. -/
def parseLoop : Nat → Str → Res (List PTok)
  | _, [] => .ok []
  | 0, _ :: _ => .err
  | f + 1, c :: s =>
    match nextTok (c :: s) with
    | none => .err
    | some .err => .err
    | some .panic => .panic
    | some (.ok (t, r)) => (parseLoop f r).map (t :: ·)

/-- `parse_pattern` (time_utils.rs 740-777); the empty pattern is an error (`many1`). -/
def parsePattern (s : Str) : Res (List PTok) :=
  if s.isEmpty then .err else parseLoop s.length s

/-! ### Reading one field of the value -/

/-- `str::parse::<usize>()` on a run of ASCII digits that fits. -/
def numVal (d : Str) : Nat := d.foldl (fun a c => a * 10 + digitVal c) 0

/-- `take_while_m_n(1, k, is_digit)` followed by `validate_number(_, _, lo, hi)`
(time_utils.rs 165-174 and its callers). -/
def numField (k lo hi : Nat) (s : Str) : Option (Str × Str) :=
  match takeMN 1 k Char.isDigit s with
  | some (d, r) => if lo ≤ numVal d ∧ numVal d ≤ hi then some (d, r) else none
  | none => none

/-- `era` (time_utils.rs 412-415). -/
def era : Str → Option (Str × Str) := altNoCase ["ad".toList, "bc".toList]
/-- `ampm` (417-420). -/
def ampm : Str → Option (Str × Str) := altNoCase ["am".toList, "pm".toList]
/-- `year` (422-425). -/
def year (n : Nat) : Str → Option (Str × Str) := takeMN 1 n Char.isDigit
/-- `month_num` (427-434). -/
def monthNum : Str → Option (Str × Str) := numField 2 1 12

/-- The month names of `month` (436-470) and `month_value` (952-972): short forms. -/
def monthsShort : List Str :=
  ["jan".toList, "feb".toList, "mar".toList, "apr".toList, "may".toList, "jun".toList,
   "jul".toList, "aug".toList, "sep".toList, "oct".toList, "nov".toList, "dec".toList]
/-- Full month names. -/
def monthsLong : List Str :=
  ["january".toList, "february".toList, "march".toList, "april".toList, "may".toList, "june".toList,
   "july".toList, "august".toList, "september".toList, "october".toList, "november".toList, "december".toList]
/-- `month` (436-470). -/
def month (n : Nat) (s : Str) : Option (Str × Str) :=
  if n ≤ 2 then monthNum s
  else if n = 3 then altNoCase monthsShort s
  else altNoCase monthsLong s

/-- `week_in_year` (472-479). -/
def weekInYear : Str → Option (Str × Str) := numField 2 1 56
/-- `week_in_month` (481-490). -/
def weekInMonth (fromOne : Bool) : Str → Option (Str × Str) :=
  numField 2 (if fromOne then 1 else 0) (if fromOne then 5 else 4)
/-- `day_in_year` (492-499); the upper bound really is 356. -/
def dayInYear : Str → Option (Str × Str) := numField 3 1 356
/-- `day_in_month` (501-508). -/
def dayInMonth : Str → Option (Str × Str) := numField 2 1 31

/-- Day names of `day_of_week_name` (691-713). -/
def daysShort : List Str :=
  ["mon".toList, "tue".toList, "wed".toList, "thu".toList, "fri".toList, "sat".toList, "sun".toList]
/-- Full day names. -/
def daysLong : List Str :=
  ["monday".toList, "tuesday".toList, "wednesday".toList, "thursday".toList, "friday".toList,
   "saturday".toList, "sunday".toList]
/-- `day_of_week_name` (691-713). -/
def dayName (n : Nat) (s : Str) : Option (Str × Str) :=
  if n ≤ 3 then altNoCase daysShort s else altNoCase daysLong s
/-- `day_of_week` (510-521). -/
def dayOfWeek (n : Nat) (s : Str) : Option (Str × Str) :=
  if 2 < n then dayName n s else numField 1 1 7 s

/-- `hour_24` (523-530). -/
def hour24 : Str → Option (Str × Str) := numField 2 1 24
/-- `hour_24_0` (532-539). -/
def hour24z : Str → Option (Str × Str) := numField 2 0 23
/-- `hour_12` (540-547). -/
def hour12 : Str → Option (Str × Str) := numField 2 1 12
/-- `hour_12_0` (549-556). -/
def hour12z : Str → Option (Str × Str) := numField 2 0 11
/-- `minute` (558-565). -/
def minute : Str → Option (Str × Str) := numField 2 0 59
/-- `second` (567-574). -/
def second : Str → Option (Str × Str) := numField 2 0 60

/-- `second_fraction` (576-583): `usize::pow(10, count) - 1` is evaluated once the digits are read, and
overflows from 20 letters on. -/
def secondFraction (n : Nat) (s : Str) : Res (Str × Str) :=
  match takeMN 1 n Char.isDigit s with
  | none => .err
  | some (d, r) =>
    if usizeLim ≤ 10 ^ n then .panic
    else if numVal d ≤ 10 ^ n - 1 then .ok (d, r) else .err

/-- `is_a("+-")`. -/
def isSign (c : Char) : Bool := c == '+' || c == '-'
/-- `is_a("+-")`: one or more signs. -/
def signs : Str → Option (Str × Str) := many1 isSign
/-- `tag(":")`. -/
def colon : Str → Option (Str × Str) := lit [':']

/-- `timezone_hour_min` (585-590); the matched text is not used. -/
def hourMin : Str → Option (Str × Str) := seqP signs (seqP hour12z (seqP colon minute))

/-- `timezone_long_offset` (592-619). -/
def longOffset (d : Nat) : Str → Option (Str × Str) :=
  match d with
  | 1 => seqP signs (seqP hour12z (fun s => some (optP minute s)))
  | 2 => seqP signs (seqP hour12z minute)
  | 3 => seqP signs (seqP hour12z (seqP colon minute))
  | 4 => seqP signs (seqP hour12z (seqP minute (fun s => some (optP second s))))
  | _ => seqP signs (seqP hour12z (seqP colon (seqP minute (fun s => some (optP (seqP colon second) s)))))

/-- `timezone_long_offset_with_z` (621-626). -/
def longOffsetZ (d : Nat) (s : Str) : Option (Str × Str) :=
  match lit ['Z'] s with
  | some r => some r
  | none => longOffset d s

/-- The generated tables `ZONES` and `ZONES_ABBR` (build.rs 40-80). -/
structure Zones where
  zones : Str → Bool
  abbr : Str → Bool

/-- `char::is_ascii_uppercase`. -/
def isUpper (c : Char) : Bool := decide ('A'.toNat ≤ c.toNat ∧ c.toNat ≤ 'Z'.toNat)

/-- `timezone` (628-640). -/
def tzName (zs : Zones) (d : Nat) (s : Str) : Option (Str × Str) :=
  if d < 4 then
    match takeMN 3 4 isUpper s with
    | some (p, r) => if zs.abbr p then some (p, r) else none
    | none => none
  else none

/-- nom `alphanumeric1` on `&str`: ASCII letters and digits. -/
def isAlnum (c : Char) : Bool := c.isAlpha || c.isDigit

/-- `timezone_id` (642-651). -/
def tzId (zs : Zones) (s : Str) : Option (Str × Str) :=
  match seqP (many1 isAlnum) (seqP (lit ['/']) (many1 isAlnum)) s with
  | some (p, r) => if zs.zones p then some (p, r) else none
  | none => none

/-- `alt((tag("GMT"), tag("UTC")))`. -/
def gmtUtc (s : Str) : Option (Str × Str) :=
  match lit "GMT".toList s with
  | some r => some r
  | none => lit "UTC".toList s

/-- `timezone_offset` (653-672). -/
def offset (d : Nat) (s : Str) : Option (Str × Str) :=
  if d = 4 then
    match seqP gmtUtc hourMin s with
    | some r => some r
    | none => gmtUtc s
  else if 1 ≤ d ∧ d ≤ 3 then seqP signs (seqP hour12z minute) s
  else hourMin s

/-- `timezone_offset_gmt` (674-689). -/
def offsetGmt (d : Nat) : Str → Option (Str × Str) :=
  if 1 ≤ d ∧ d ≤ 3 then
    seqP gmtUtc (seqP signs (seqP hour12z (fun s => some (optP (seqP colon minute) s))))
  else seqP gmtUtc (seqP signs (seqP hour12z (seqP colon minute)))

/-- `quarter_num` (715-722). -/
def quarterNum : Str → Option (Str × Str) := numField 2 1 4
/-- `quarter` (725-737). -/
def quarter (n : Nat) (s : Str) : Option (Str × Str) :=
  if n < 3 then quarterNum s
  else if n = 3 then altNoCase ["Q1".toList, "Q2".toList, "Q3".toList, "Q4".toList] s
  else seqP (altNoCase ["1st".toList, "2nd".toList, "3rd".toList, "4th".toList])
    (tagNoCase " quarter".toList) s

/-- An `Option` parser as a `Res` one. -/
def lift (o : Option (Str × Str)) : Res (Str × Str) :=
  match o with
  | some r => .ok r
  | none => .err

/-- The dispatch of `validate_datetime_string` (time_utils.rs 779-826). -/
def readTok (zs : Zones) (t : PTok) (s : Str) : Res (Str × Str) :=
  match t with
  | .era _ => lift (era s)
  | .year n => lift (year n s)
  | .weekInYear => lift (weekInYear s)
  | .weekInMonth b => lift (weekInMonth b s)
  | .dayInYear => lift (dayInYear s)
  | .dayInMonth => lift (dayInMonth s)
  | .month n => lift (month n s)
  | .monthNum _ => lift (monthNum s)
  | .text t => lift (lit t s)
  | .dayName n => lift (dayName n s)
  | .dayOfWeek n => lift (dayOfWeek n s)
  | .hour24 => lift (hour24 s)
  | .hour24z => lift (hour24z s)
  | .hour12 => lift (hour12 s)
  | .hour12z => lift (hour12z s)
  | .minute => lift (minute s)
  | .second => lift (second s)
  | .frac n => secondFraction n s
  | .nano _ => lift (many1 Char.isDigit s)
  | .tzName n => lift (tzName zs n s)
  | .tzId _ => lift (tzId zs s)
  | .offset n => lift (offset n s)
  | .offsetGmt n => lift (offsetGmt n s)
  | .offsetX n => lift (longOffset n s)
  | .offsetXZ n => lift (longOffsetZ n s)
  | .amPm => lift (ampm s)
  | .quarter n => lift (quarter n s)
  | .quarterNum _ => lift (quarterNum s)
  | .milliOfDay => lift (many1 Char.isDigit s)
  | .nanoOfDay => lift (many1 Char.isDigit s)

/-- The loop of `validate_datetime_string` (time_utils.rs 779-826): each token takes its text from the
buffer; the list of matched values, and what is left. -/
def readAll (zs : Zones) : List PTok → Str → Res (List (PTok × Str) × Str)
  | [], s => .ok ([], s)
  | t :: ts, s =>
    match readTok zs t s with
    | .ok (p, r) => (readAll zs ts r).map fun x => ((t, p) :: x.1, x.2)
    | .err => .err
    | .panic => .panic

/-! ### The calendar check -/

/-- `gregorian::Year::is_leap_year`. -/
def isLeap (y : Nat) : Bool := y % 4 == 0 && (y % 100 != 0 || y % 400 == 0)

/-- `gregorian::Month::total_days` in a year. -/
def totalDays (y m : Nat) : Nat :=
  match m with
  | 2 => if isLeap y then 29 else 28
  | 4 => 30
  | 6 => 30
  | 9 => 30
  | 11 => 30
  | _ => 31

/-- Position of a name in a list of names, from `i`. -/
def nameIdx (i : Nat) : List Str → Str → Option Nat
  | [], _ => none
  | n :: ns, s => if n = s then some i else nameIdx (i + 1) ns s

/-- `month_value` (time_utils.rs 952-972): names in any case, else a number from 1 to 12 (`u8`). -/
def monthValue (v : Str) : Option Nat :=
  match nameIdx 1 monthsLong (v.map Char.toLower) with
  | some m => some m
  | none =>
    match nameIdx 1 monthsShort (v.map Char.toLower) with
    | some m => some m
    | none =>
      match parseDigits 256 v with
      | some m => if 1 ≤ m ∧ m ≤ 12 then some m else none
      | none => none

/-- The first matched value whose token satisfies `f` (`iter().find`). -/
def firstOf (f : PTok → Bool) : List (PTok × Str) → Option Str
  | [] => none
  | (t, v) :: r => if f t then some v else firstOf f r

/-- `DateTimePatternToken::DayInMonth`. -/
def isDay : PTok → Bool | .dayInMonth => true | _ => false
/-- `DateTimePatternToken::Month(_)` (not `MonthNum`). -/
def isMonth : PTok → Bool | .month _ => true | _ => false
/-- `DateTimePatternToken::Year(_)`. -/
def isYear : PTok → Bool | .year _ => true | _ => false

/-- `day > month.total_days()` (time_utils.rs 828-878). -/
def dayCheck (d y : Nat) (mo : Str) : Res Unit :=
  match monthValue mo with
  | none => .panic
  | some m => if totalDays y m < d then .err else .ok ()

/-- `validate_matched_values` (time_utils.rs 828-878); the `unwrap()`s panic. -/
def validateMatched (vs : List (PTok × Str)) : Res Unit :=
  match firstOf isDay vs with
  | none => .ok ()
  | some d =>
    match parseDigits 256 d with
    | none => .panic
    | some d =>
      match firstOf isYear vs with
      | some y =>
        match parseDigits 32768 y with
        | none => .panic
        | some y =>
          match firstOf isMonth vs with
          | some mo => dayCheck d y mo
          | none => .ok ()
      | none =>
        match firstOf isMonth vs with
        | some mo => dayCheck d 2001 mo
        | none => .ok ()

/-- `validate_datetime_string` (time_utils.rs 779-826). -/
def validateTokens (zs : Zones) (toks : List PTok) (v : Str) : Res Unit :=
  match readAll zs toks v with
  | .err => .err
  | .panic => .panic
  | .ok (vs, rest) => if rest.isEmpty then validateMatched vs else .err

/-- `validate_datetime` (time_utils.rs 881-886). -/
def validate (zs : Zones) (v format : Str) : Res Unit :=
  match parsePattern format with
  | .ok toks => validateTokens zs toks v
  | .err => .err
  | .panic => .panic

/-! ### Conversion to a `chrono` format string -/

/-- `str::replace(t, "%", "%%")`. -/
def escapePercent (t : Str) : Str := t.flatMap fun c => if c = '%' then ['%', '%'] else [c]

/-- One token of `to_chrono_pattern` (time_utils.rs 889-929). -/
def chronoTok : PTok → Str
  | .era _ => "AD".toList
  | .year n => if n = 2 then "%y".toList else "%Y".toList
  | .weekInYear => "%U".toList
  | .dayInYear => "%j".toList
  | .dayInMonth => "%d".toList
  | .month n => if n ≤ 2 then "%m".toList else if 3 < n then "%B".toList else "%b".toList
  | .monthNum _ => "%m".toList
  | .text t => escapePercent t
  | .dayName n => if 3 < n then "%A".toList else "%a".toList
  | .dayOfWeek _ => "%u".toList
  | .hour24 => "%H".toList
  | .hour24z => "%H".toList
  | .hour12 => "%I".toList
  | .hour12z => "%I".toList
  | .minute => "%M".toList
  | .second => "%S".toList
  | .frac n => if n < 3 then "%3f".toList else '%' :: natStr n ++ ['f']
  | .nano _ => "%f".toList
  | .tzName _ => "%Z".toList
  | .tzId _ => "%Z".toList
  | .offset _ => "%z".toList
  | .offsetX _ => "%:z".toList
  | .offsetXZ _ => "%:z".toList
  | .amPm => "%p".toList
  | _ => []

/-- `to_chrono_pattern` (time_utils.rs 889-929). -/
def toChrono (toks : List PTok) : Str := toks.flatMap chronoTok

/-! ### `chrono`'s formatting (the specifiers produced above) -/

/-- A moment as `chrono` sees it when formatting a `DateTime<Local>`; `offset` is in minutes east of UTC
(`chrono` rounds the seconds of an offset for `%z` and `%:z`). -/
structure Clock where
  year : Nat
  month : Nat
  day : Nat
  ordinal : Nat
  weekOfYear : Nat
  /-- 1 = Monday … 7 = Sunday -/
  weekday : Nat
  hour : Nat
  minute : Nat
  second : Nat
  nanos : Nat
  offset : Int

/-- A number in exactly `k` digits, zero padded (`{:0k}` on a number that fits). -/
def pad : Nat → Nat → Str
  | 0, _ => []
  | k + 1, n => pad k (n / 10) ++ [digitChar (n % 10)]

/-- First letter in upper case. -/
def capital : Str → Str
  | [] => []
  | c :: s => c.toUpper :: s

/-- The sign of an offset. -/
def offSign (o : Int) : Char := if o < 0 then '-' else '+'

/-- The text of one `chrono` specifier (after `%`), for the specifiers used above: external library,
modelled from its documentation (chrono 0.4, `format::strftime`).  `none`: not a specifier
(`Item::Error`). `%Y` is modelled for the years 0 to 9999 only. -/
def chronoSpec (k : Clock) (c : Char) : Option Str :=
  match c with
  | '%' => some ['%']
  | 'Y' => some (pad 4 k.year)
  | 'y' => some (pad 2 (k.year % 100))
  | 'U' => some (pad 2 k.weekOfYear)
  | 'j' => some (pad 3 k.ordinal)
  | 'd' => some (pad 2 k.day)
  | 'm' => some (pad 2 k.month)
  | 'B' => some (capital (monthsLong.getD (k.month - 1) []))
  | 'b' => some (capital (monthsShort.getD (k.month - 1) []))
  | 'A' => some (capital (daysLong.getD (k.weekday - 1) []))
  | 'a' => some (capital (daysShort.getD (k.weekday - 1) []))
  | 'u' => some (pad 1 k.weekday)
  | 'H' => some (pad 2 k.hour)
  | 'I' => some (pad 2 (if k.hour % 12 = 0 then 12 else k.hour % 12))
  | 'M' => some (pad 2 k.minute)
  | 'S' => some (pad 2 k.second)
  | 'f' => some (pad 9 k.nanos)
  | 'Z' => some (offSign k.offset :: pad 2 (k.offset.natAbs / 60) ++ ':' :: pad 2 (k.offset.natAbs % 60))
  | 'z' => some (offSign k.offset :: pad 2 (k.offset.natAbs / 60) ++ pad 2 (k.offset.natAbs % 60))
  | 'p' => some (if k.hour < 12 then "AM".toList else "PM".toList)
  | _ => none

/-- `DateTime::format(pattern).to_string()`: an invalid specifier makes `fmt` fail, and `to_string` panics
on a failing `Display`. -/
def chronoFormat (k : Clock) : Str → Res Str
  | [] => .ok []
  | '%' :: ':' :: 'z' :: s =>
    (chronoFormat k s).map fun r =>
      offSign k.offset :: pad 2 (k.offset.natAbs / 60) ++ ':' :: pad 2 (k.offset.natAbs % 60) ++ r
  | '%' :: '3' :: 'f' :: s => (chronoFormat k s).map fun r => pad 3 (k.nanos / 1000000) ++ r
  | '%' :: '6' :: 'f' :: s => (chronoFormat k s).map fun r => pad 6 (k.nanos / 1000) ++ r
  | '%' :: '9' :: 'f' :: s => (chronoFormat k s).map fun r => pad 9 k.nanos ++ r
  | '%' :: c :: s =>
    match chronoSpec k c with
    | some t => (chronoFormat k s).map fun r => t ++ r
    | none => .panic
  | ['%'] => .panic
  | c :: s => (chronoFormat k s).map fun r => c :: r

/-- `generate_string` (time_utils.rs 932-946) at the moment `k`; also what the date/time generators do with
a format and no expression. -/
def generateString (k : Clock) (format : Str) : Res Str :=
  match parsePattern format with
  | .ok toks => chronoFormat k (toChrono toks)
  | .err => .err
  | .panic => .panic

/-! ### The date and time generators without an expression -/

/-- Does a `chrono` format use a field of the time of day? -/
def needsTime : Str → Bool
  | [] => false
  | '%' :: '%' :: s => needsTime s
  | '%' :: c :: s => "HIMSfp369".toList.contains c || needsTime s
  | _ :: s => needsTime s

/-- `Date::format(pattern).to_string()`: a `chrono::Date` has no time of day, a specifier that needs one makes
`fmt` fail, and `to_string` panics. -/
def dateFormat (k : Clock) (s : Str) : Res Str := if needsTime s then .panic else chronoFormat k s

/-- `Generator::Date(format, None)` (generators/mod.rs 913-939): `date().format(…)`, and
`naive_local().date().to_string()` without a format. -/
def genDate (k : Clock) : Option Str → Res Str
  | some f =>
    match parsePattern f with
    | .ok ts => dateFormat k (toChrono ts)
    | .err => .err
    | .panic => .panic
  | none => .ok (pad 4 k.year ++ '-' :: pad 2 k.month ++ '-' :: pad 2 k.day)

/-- `Generator::Time(format, None)` (generators/mod.rs 940-963). -/
def genTime (k : Clock) : Option Str → Res Str
  | some f => generateString k f
  | none => chronoFormat k "%H:%M:%S".toList

/-- `Generator::DateTime(format, None)` (generators/mod.rs 964-987). -/
def genDateTime (k : Clock) : Option Str → Res Str
  | some f => generateString k f
  | none => chronoFormat k "%Y-%m-%dT%H:%M:%S.%3f%z".toList


end Time
end Verif
