import Verif.Props.TimePatternProps
import Verif.Matchers

/-
  C93: the text a date/time generator produces is accepted by the pattern it was produced with.
-/

set_option autoImplicit false

namespace Verif
namespace TimeGenProps
open Time TimeProps TimePatternProps

/-! ### Specification -/

/-- The fields of a moment are in range, and its day exists in its month; years 0 to 9999. -/
structure ClockOk (k : Clock) : Prop where
  year : k.year ≤ 9999
  month : 1 ≤ k.month ∧ k.month ≤ 12
  day : 1 ≤ k.day
  inMonth : InMonth k.year k.month k.day
  ordinal : 1 ≤ k.ordinal ∧ k.ordinal ≤ 366
  week : k.weekOfYear ≤ 53
  weekday : 1 ≤ k.weekday ∧ k.weekday ≤ 7
  hour : k.hour < 24
  minute : k.minute < 60
  second : k.second ≤ 60
  nanos : k.nanos < 1000000000
  offset : k.offset.natAbs < 1440

/-- The fields whose generated text is of their own language at the moment `k`. -/
def Safe (k : Clock) : PTok → Prop
  | .year n => n = 2 ∨ 4 ≤ n
  | .weekInYear => 1 ≤ k.weekOfYear
  | .dayInYear => k.ordinal ≤ 356
  | .dayOfWeek n => n ≤ 2
  | .hour24 => k.hour ≠ 0
  | .hour12z => k.hour % 12 ≠ 0
  | .frac n => n = 3 ∨ n = 6 ∨ n = 9
  | .offset n => (1 ≤ n ∧ n ≤ 3) ∧ k.offset.natAbs < 720
  | .offsetX n => (n = 3 ∨ 5 ≤ n) ∧ k.offset.natAbs < 720
  | .offsetXZ n => (n = 3 ∨ 5 ≤ n) ∧ k.offset.natAbs < 720
  | .era _ | .month _ | .monthNum _ | .text _ | .dayInMonth | .dayName _ | .amPm | .hour24z | .hour12
  | .minute | .second | .nano _ => True
  | .weekInMonth _ | .offsetGmt _ | .tzName _ | .tzId _ | .quarter _ | .quarterNum _ | .milliOfDay | .nanoOfDay => False

/-- Fields whose generated text has the full number of digits. -/
def fullWidth : PTok → Bool
  | .year n => decide (n ≤ 4)
  | .month _ | .monthNum _ | .weekInYear | .dayInYear | .dayInMonth | .hour24 | .hour24z | .hour12 | .hour12z
  | .minute | .second | .frac _ => true
  | _ => false

/-- No generated text can run into the next one. -/
def genSeparated : List PTok → Bool
  | [] => true
  | [_] => true
  | t :: t' :: ts => (fullWidth t || apart t (start t')) && genSeparated (t' :: ts)

/-! ### Padded numbers -/

theorem pad_length : ∀ (k n : Nat), (pad k n).length = k
  | 0, _ => rfl
  | k + 1, n => by rw [pad, List.length_append, pad_length k]; rfl

theorem pad_digits : ∀ (k n : Nat), Digits (pad k n)
  | 0, _, c, h => by cases h
  | k + 1, n, c, h => by
    rw [pad, List.mem_append] at h
    rcases h with h | h
    · exact pad_digits k _ c h
    · simp at h
      rw [h]
      exact digitChar_isDigit (by omega)

theorem numVal_snoc (a : Str) (c : Char) : numVal (a ++ [c]) = numVal a * 10 + digitVal c := by
  unfold numVal
  rw [List.foldl_append]
  rfl

theorem pad_val : ∀ (k n : Nat), numVal (pad k n) = n % 10 ^ k
  | 0, n => by simp [pad, numVal, Nat.mod_one]
  | k + 1, n => by
    rw [pad, numVal_snoc, pad_val k, digitVal_digitChar (by omega), Nat.pow_succ, Nat.mul_comm (10 ^ k) 10,
      Nat.mod_mul]
    omega

theorem pad_ne {k : Nat} (hk : 1 ≤ k) (n : Nat) : pad k n ≠ [] := by
  intro e
  have := pad_length k n
  rw [e] at this
  simp at this
  omega

theorem pad_number {k lo hi n : Nat} (hk : 1 ≤ k) (h1 : lo ≤ n) (h2 : n ≤ hi) (h3 : n < 10 ^ k) :
    Number k lo hi (pad k n) :=
  ⟨pad_ne hk n, pad_digits k n, by rw [pad_length]; exact Nat.le_refl _, by rw [pad_val, Nat.mod_eq_of_lt h3]; exact h1,
    by rw [pad_val, Nat.mod_eq_of_lt h3]; exact h2⟩

/-! ### What each token produces -/

/-- The text `chrono` writes for a token. -/
def piece (k : Clock) : PTok → Str
  | .era _ => "AD".toList
  | .year n => if n = 2 then pad 2 (k.year % 100) else pad 4 k.year
  | .weekInYear => pad 2 k.weekOfYear
  | .dayInYear => pad 3 k.ordinal
  | .dayInMonth => pad 2 k.day
  | .month n => if n ≤ 2 then pad 2 k.month else if 3 < n then capital (monthsLong.getD (k.month - 1) [])
      else capital (monthsShort.getD (k.month - 1) [])
  | .monthNum _ => pad 2 k.month
  | .text t => t
  | .dayName n => if 3 < n then capital (daysLong.getD (k.weekday - 1) []) else capital (daysShort.getD (k.weekday - 1) [])
  | .dayOfWeek _ => pad 1 k.weekday
  | .hour24 | .hour24z => pad 2 k.hour
  | .hour12 | .hour12z => pad 2 (if k.hour % 12 = 0 then 12 else k.hour % 12)
  | .minute => pad 2 k.minute
  | .second => pad 2 k.second
  | .frac n => if n = 6 then pad 6 (k.nanos / 1000) else if n = 9 then pad 9 k.nanos else pad 3 (k.nanos / 1000000)
  | .nano _ => pad 9 k.nanos
  | .tzName _ | .tzId _ =>
    offSign k.offset :: pad 2 (k.offset.natAbs / 60) ++ ':' :: pad 2 (k.offset.natAbs % 60)
  | .offset _ => offSign k.offset :: pad 2 (k.offset.natAbs / 60) ++ pad 2 (k.offset.natAbs % 60)
  | .offsetX _ | .offsetXZ _ =>
    offSign k.offset :: pad 2 (k.offset.natAbs / 60) ++ ':' :: pad 2 (k.offset.natAbs % 60)
  | .amPm => if k.hour < 12 then "AM".toList else "PM".toList
  | _ => []

theorem escape_format (k : Clock) : ∀ (t s : Str),
    chronoFormat k (escapePercent t ++ s) = (chronoFormat k s).map (t ++ ·)
  | [], s => by
    show chronoFormat k s = (chronoFormat k s).map (fun x => [] ++ x)
    generalize chronoFormat k s = r
    cases r <;> rfl
  | c :: t, s => by
    have ih := escape_format k t s
    have he : escapePercent (c :: t) = (if c = '%' then ['%', '%'] else [c]) ++ escapePercent t := rfl
    rw [he]
    by_cases hc : c = '%'
    · subst hc
      rw [if_pos rfl]
      show chronoFormat k ('%' :: '%' :: (escapePercent t ++ s)) = _
      have : chronoFormat k ('%' :: '%' :: (escapePercent t ++ s))
          = (chronoFormat k (escapePercent t ++ s)).map fun r => ['%'] ++ r := rfl
      rw [this, ih]
      cases chronoFormat k s <;> rfl
    · rw [if_neg hc]
      show chronoFormat k (c :: (escapePercent t ++ s)) = _
      rw [chronoFormat]
      · rw [ih]; cases chronoFormat k s <;> rfl
      all_goals (intros; simp_all)

/-- Not a fraction of a length `chrono` does not know. -/
def FracKnown : PTok → Prop
  | .frac n => n < 3 ∨ n = 3 ∨ n = 6 ∨ n = 9
  | _ => True

theorem format_tok (k : Clock) (t : PTok) (h : FracKnown t) (s : Str) :
    chronoFormat k (chronoTok t ++ s) = (chronoFormat k s).map (piece k t ++ ·) := by
  have nil : ∀ r : Res Str, r = r.map (([] : Str) ++ ·) := by intro r; cases r <;> rfl
  cases t with
  | text t => exact escape_format k t s
  | era n =>
    show chronoFormat k ('A' :: 'D' :: s) = _
    have : chronoFormat k ('A' :: 'D' :: s)
      = ((chronoFormat k s).map fun r => 'D' :: r).map fun r => 'A' :: r := rfl
    rw [this]
    cases chronoFormat k s <;> rfl
  | year n => simp only [chronoTok, piece]; split <;> rfl
  | month n =>
    simp only [chronoTok, piece]
    split
    · rfl
    · split <;> rfl
  | dayName n => simp only [chronoTok, piece]; split <;> rfl
  | frac n =>
    simp only [chronoTok, piece]
    rcases h with h | h | h | h
    · rw [if_pos h, if_neg (by omega), if_neg (by omega)]; rfl
    · subst h; rfl
    · subst h; rfl
    · subst h; rfl
  | offsetX n =>
    simp only [chronoTok, piece]
    show chronoFormat k ('%' :: ':' :: 'z' :: s) = _
    have : chronoFormat k ('%' :: ':' :: 'z' :: s) = (chronoFormat k s).map fun r =>
      offSign k.offset :: pad 2 (k.offset.natAbs / 60) ++ ':' :: pad 2 (k.offset.natAbs % 60) ++ r := rfl
    rw [this]
  | offsetXZ n =>
    simp only [chronoTok, piece]
    show chronoFormat k ('%' :: ':' :: 'z' :: s) = _
    have : chronoFormat k ('%' :: ':' :: 'z' :: s) = (chronoFormat k s).map fun r =>
      offSign k.offset :: pad 2 (k.offset.natAbs / 60) ++ ':' :: pad 2 (k.offset.natAbs % 60) ++ r := rfl
    rw [this]
  | weekInMonth b => exact nil _
  | offsetGmt n => exact nil _
  | quarter n => exact nil _
  | quarterNum n => exact nil _
  | milliOfDay => exact nil _
  | nanoOfDay => exact nil _
  | monthNum n => rfl
  | weekInYear => rfl
  | dayInYear => rfl
  | dayInMonth => rfl
  | dayOfWeek n => rfl
  | amPm => rfl
  | hour24 => rfl
  | hour24z => rfl
  | hour12 => rfl
  | hour12z => rfl
  | minute => rfl
  | second => rfl
  | nano n => rfl
  | offset n => rfl
  | tzName n => rfl
  | tzId n => rfl

theorem format_all (k : Clock) : ∀ (ts : List PTok), (∀ t ∈ ts, FracKnown t) →
    chronoFormat k (toChrono ts) = .ok (ts.map (piece k)).flatten
  | [], _ => rfl
  | t :: ts, h => by
    show chronoFormat k (chronoTok t ++ toChrono ts) = _
    rw [format_tok k t (h t (by simp)), format_all k ts (fun x hx => h x (by simp [hx]))]
    rfl

/-! ### C93 -/

theorem signs_one (o : Int) : Signs [offSign o] := by
  refine ⟨by simp, ?_⟩
  intro c hc
  simp at hc
  rw [hc]
  unfold offSign
  split
  · exact .inr rfl
  · exact .inl rfl

theorem off_hourMin {o : Int} (h : o.natAbs < 720) :
    HourMin (offSign o :: pad 2 (o.natAbs / 60) ++ ':' :: pad 2 (o.natAbs % 60)) :=
  ⟨[offSign o], _, rfl, signs_one o, pad 2 (o.natAbs / 60), _, rfl,
    pad_number (by omega) (by omega) (by omega) (by omega), [':'], _, rfl, rfl,
    pad_number (by omega) (by omega) (by omega) (by omega)⟩

theorem capital_word {ws : List Str} {i : Nat} (hi : i < ws.length)
    (hw : ∀ w ∈ ws, (capital w).map Char.toLower = w.map Char.toLower) : Word ws (capital (ws.getD i [])) := by
  have hm : ws.getD i [] ∈ ws := by
    rw [List.getD_eq_getElem?_getD, List.getElem?_eq_getElem hi]
    exact List.getElem_mem hi
  exact ⟨ws.getD i [], hm, hw _ hm⟩

theorem piece_lang {zs : Zones} {k : Clock} (hk : ClockOk k) {t : PTok} (h : Safe k t) : Lang zs t (piece k t) := by
  have hm := hk.month
  have hw := hk.weekday
  have hd : k.day ≤ 31 := hk.inMonth.1
  have h24 := hk.hour
  cases t with
  | era n => exact ⟨"ad".toList, by simp, by simp only [piece]; decide⟩
  | year n =>
    simp only [Lang, piece]
    rcases h with h | h
    · rw [if_pos h]
      exact ⟨pad_ne (by omega) _, pad_digits _ _, by rw [pad_length]; omega⟩
    · rw [if_neg (by omega)]
      exact ⟨pad_ne (by omega) _, pad_digits _ _, by rw [pad_length]; omega⟩
  | month n =>
    simp only [Lang, piece]
    split
    · exact pad_number (by omega) (by omega) (by omega) (by omega)
    · split
      · rename_i h3
        rw [if_neg (by omega)]
        exact capital_word (ws := shortMonths) (by show _ < 12; omega) (by decide)
      · rename_i h3
        rw [if_pos (by omega)]
        exact capital_word (ws := longMonths) (by show _ < 12; omega) (by decide)
  | monthNum n => exact pad_number (by omega) (by omega) (by omega) (by omega)
  | text t => rfl
  | weekInYear =>
    have := hk.week
    exact pad_number (by omega) h (by omega) (by omega)
  | weekInMonth b => exact absurd h id
  | dayInYear =>
    have := hk.ordinal
    have h' : k.ordinal ≤ 356 := h
    exact pad_number (by omega) (by omega) (by omega) (by omega)
  | dayInMonth => exact pad_number (by omega) hk.day (by omega) (by omega)
  | dayName n =>
    simp only [Lang, piece]
    split
    · rw [if_neg (by omega)]
      exact capital_word (ws := shortDays) (by show _ < 7; omega) (by decide)
    · rw [if_pos (by omega)]
      exact capital_word (ws := longDays) (by show _ < 7; omega) (by decide)
  | dayOfWeek n =>
    simp only [Lang, piece]
    have h' : n ≤ 2 := h
    rw [if_pos h']
    exact pad_number (by omega) (by omega) (by omega) (by omega)
  | amPm =>
    simp only [Lang, piece]
    split
    · exact ⟨"am".toList, by simp, by decide⟩
    · exact ⟨"pm".toList, by simp, by decide⟩
  | hour24 =>
    have h' : k.hour ≠ 0 := h
    exact pad_number (by omega) (by omega) (by omega) (by omega)
  | hour24z => exact pad_number (by omega) (by omega) (by omega) (by omega)
  | hour12 =>
    simp only [Lang, piece]
    split <;> exact pad_number (by omega) (by omega) (by omega) (by omega)
  | hour12z =>
    have h' : k.hour % 12 ≠ 0 := h
    simp only [Lang, piece]
    rw [if_neg h']
    exact pad_number (by omega) (by omega) (by omega) (by omega)
  | minute => have := hk.minute; exact pad_number (by omega) (by omega) (by omega) (by omega)
  | second => have := hk.second; exact pad_number (by omega) (by omega) (by omega) (by omega)
  | frac n =>
    simp only [Lang, piece]
    rcases h with h | h | h <;> subst h
    · exact ⟨pad_ne (by omega) _, pad_digits _ _, by rw [if_neg (by omega), if_neg (by omega), pad_length]; omega⟩
    · exact ⟨pad_ne (by omega) _, pad_digits _ _, by rw [if_pos rfl, pad_length]; omega⟩
    · exact ⟨pad_ne (by omega) _, pad_digits _ _, by rw [if_neg (by omega), if_pos rfl, pad_length]; omega⟩
  | nano n => exact ⟨pad_ne (by omega) _, pad_digits _ _⟩
  | offset n =>
    obtain ⟨hn, ho⟩ := h
    simp only [Lang, piece]
    rw [if_neg (by omega), if_pos hn]
    exact ⟨[offSign k.offset], _, rfl, signs_one _, _, _, rfl,
      ⟨pad_number (by omega) (by omega) (by omega) (by omega), pad_length _ _⟩,
      pad_number (by omega) (by omega) (by omega) (by omega)⟩
  | offsetX n =>
    obtain ⟨hn, ho⟩ := h
    rcases n with _ | _ | _ | _ | _ | n
    · omega
    · omega
    · omega
    · exact off_hourMin ho
    · omega
    · exact .inl (off_hourMin ho)
  | offsetXZ n =>
    obtain ⟨hn, ho⟩ := h
    rcases n with _ | _ | _ | _ | _ | n
    · omega
    · omega
    · omega
    · exact .inr (off_hourMin ho)
    · omega
    · exact .inr (.inl (off_hourMin ho))
  | offsetGmt n => exact absurd h id
  | tzName n => exact absurd h id
  | tzId n => exact absurd h id
  | quarter n => exact absurd h id
  | quarterNum n => exact absurd h id
  | milliOfDay => exact absurd h id
  | nanoOfDay => exact absurd h id

theorem full_ends {k : Clock} {t : PTok} (hs : Safe k t) (h : fullWidth t = true) (r : Str) : Ends t (piece k t) r := by
  cases t with
  | year n =>
    left
    have h' : n ≤ 4 := by simpa [fullWidth] using h
    simp only [piece]
    rcases hs with hs | hs
    · rw [if_pos hs, pad_length, hs]
    · rw [if_neg (by omega), pad_length]; omega
  | month n =>
    intro hn
    left
    simp only [piece]
    rw [if_pos hn, pad_length]
  | frac n =>
    left
    simp only [piece]
    rcases hs with hs | hs | hs <;> subst hs
    · rw [if_neg (by omega), if_neg (by omega), pad_length]
    · rw [if_pos rfl, pad_length]
    · rw [if_neg (by omega), if_pos rfl, pad_length]
  | monthNum n => exact .inl (pad_length _ _)
  | weekInYear => exact .inl (pad_length _ _)
  | dayInYear => exact .inl (pad_length _ _)
  | dayInMonth => exact .inl (pad_length _ _)
  | hour24 => exact .inl (pad_length _ _)
  | hour24z => exact .inl (pad_length _ _)
  | hour12 => exact .inl (pad_length _ _)
  | hour12z => exact .inl (pad_length _ _)
  | minute => exact .inl (pad_length _ _)
  | second => exact .inl (pad_length _ _)
  | _ => cases h

theorem gen_split {zs : Zones} {k : Clock} (hk : ClockOk k) : ∀ {ts : List PTok}, (∀ t ∈ ts, Safe k t) →
    Split zs ts (ts.map (piece k))
  | [], _ => .nil
  | t :: ts, h => .cons (piece_lang hk (h t (by simp))) (gen_split hk fun x hx => h x (by simp [hx]))

theorem gen_ends {zs : Zones} {k : Clock} (hk : ClockOk k) : ∀ {ts : List PTok}, (∀ t ∈ ts, Safe k t) →
    genSeparated ts = true → EndsAll ts (ts.map (piece k))
  | [], _, _ => .nil
  | [t], _, _ => .cons (by exact ends_nil) .nil
  | t :: t' :: ts, h, hsep => by
    rw [genSeparated, Bool.and_eq_true, Bool.or_eq_true] at hsep
    refine .cons ?_ (gen_ends (zs := zs) hk (ts := t' :: ts) (fun x hx => h x (by simp at hx ⊢; exact .inr hx)) hsep.2)
    rcases hsep.1 with hf | ha
    · exact full_ends (h t (by simp)) hf _
    · have hl : Lang zs t' (piece k t') := piece_lang hk (h t' (by simp))
      rcases start_sound hl with ⟨c, q, e, hb⟩ | e
      · refine apart_ends ha ⟨c, q ++ (ts.map (piece k)).flatten, ?_, hb⟩
        rw [List.map_cons, List.flatten_cons, e]; rfl
      · subst e
        exact apart_char ha _ _

theorem gen_first {k : Clock} {f : PTok → Bool} : ∀ {ts : List PTok} {p : Str},
    First f ts (ts.map (piece k)) = some p → ∃ t ∈ ts, f t = true ∧ p = piece k t
  | [], p, h => by cases h
  | t :: ts, p, h => by
    rw [List.map_cons, First] at h
    split at h
    · rename_i hf
      cases h
      exact ⟨t, by simp, hf, rfl⟩
    · obtain ⟨t', ht, hf, e⟩ := gen_first h
      exact ⟨t', by simp [ht], hf, e⟩

theorem names_month : ∀ i < 12, (capital (shortMonths.getD i [])).map Char.toLower = shortMonths.getD i [] ∧
    (capital (longMonths.getD i [])).map Char.toLower = longMonths.getD i [] ∧
    shortMonths[i]? = some (shortMonths.getD i []) ∧ longMonths[i]? = some (longMonths.getD i []) := by decide

/-- The generated month text names the month of the clock. -/
theorem piece_month {k : Clock} (hk : ClockOk k) (n : Nat) : MonthIs (piece k (.month n)) k.month := by
  have hm := hk.month
  simp only [piece]
  split
  · left
    have hn : Number 2 1 12 (pad 2 k.month) := pad_number (by omega) (by omega) (by omega) (by omega)
    exact ⟨hn, by rw [pad_val]; omega⟩
  · right
    refine ⟨k.month - 1, by omega, ?_⟩
    obtain ⟨h1, h2, h3, h4⟩ := names_month (k.month - 1) (by omega)
    split
    · left
      show longMonths[k.month - 1]? = some ((capital (longMonths.getD (k.month - 1) [])).map Char.toLower)
      rw [h2]; exact h4
    · right
      show shortMonths[k.month - 1]? = some ((capital (shortMonths.getD (k.month - 1) [])).map Char.toLower)
      rw [h1]; exact h3

theorem leap_mod {y : Nat} (h : Leap y) : Leap (y % 100) := by
  unfold Leap at h ⊢
  omega

/-- **C93**.  At every moment of the years 0 to 9999: for a pattern whose fields can be generated at that moment and
cannot run into each other, and that has a year if it has a day and the moment is a 29 February, the generated text
is accepted by the pattern it was generated with. -/
theorem C93_generated_accepted_partial {zs : Zones} {k : Clock} {fmt : Str} {ts : List PTok}
    (hp : parsePattern fmt = .ok ts) (hk : ClockOk k) (hs : ∀ t ∈ ts, Safe k t) (hsep : genSeparated ts = true)
    (hfeb : k.month = 2 → k.day = 29 → PTok.dayInMonth ∈ ts → ∃ n, PTok.year n ∈ ts) :
    ∃ v, generateString k fmt = .ok v ∧ validate zs v fmt = .ok () := by
  have hfk : ∀ t ∈ ts, FracKnown t := by
    intro t ht
    have := hs t ht
    cases t <;> first | trivial | (rcases this with h | h | h <;> simp [FracKnown, h])
  refine ⟨(ts.map (piece k)).flatten, ?_, ?_⟩
  · unfold generateString
    rw [hp]
    exact format_all k ts hfk
  · have hsplit : Split zs ts (ts.map (piece k)) := gen_split hk hs
    have hyears : ∀ y, First isYear ts (ts.map (piece k)) = some y →
        numVal y = k.year ∨ numVal y = k.year % 100 := by
      intro y hy
      obtain ⟨t, ht, hf, e⟩ := gen_first hy
      cases t <;> simp [isYear] at hf
      have hyr := hk.year
      rw [e]
      simp only [piece]
      split
      · right; rw [pad_val]; omega
      · left; rw [pad_val]; omega
    refine C91_complete hp hsplit (gen_ends (zs := zs) hk hs hsep) ?_ ?_ ?_
    · intro n hn
      have := hs _ hn
      rcases this with h | h | h <;> omega
    · intro d mo m hd hmo hmi
      obtain ⟨td, htd, hfd, ed⟩ := gen_first hd
      cases td <;> simp [isDay] at hfd
      obtain ⟨tm, htm, hfm, em⟩ := gen_first hmo
      cases tm <;> simp [isMonth] at hfm
      rename_i n
      have hday : numVal d = k.day := by
        have := hk.inMonth.1
        rw [ed]
        show numVal (pad 2 k.day) = _
        rw [pad_val]; omega
      have hmon : m = k.month := by
        have h1 := monthIs_iff hmi
        have h2 := monthIs_iff (piece_month hk n)
        rw [em, h2] at h1
        exact (Option.some.inj h1).symm
      rw [hday, hmon]
      obtain ⟨i1, i2, i3, i4⟩ := hk.inMonth
      refine ⟨i1, i2, i3, ?_⟩
      intro h2 hnl
      unfold yearOf at hnl
      cases hy : First isYear ts (ts.map (piece k)) with
      | some y =>
        rw [hy] at hnl
        simp only at hnl
        apply i4 h2
        intro hl
        apply hnl
        rcases hyears y hy with e | e
        · rw [e]; exact hl
        · rw [e]; exact leap_mod hl
      | none =>
        have hne : ¬ k.day = 29 := by
          intro h29
          obtain ⟨n, hn⟩ := hfeb h2 h29 htd
          have key : ∀ {ts : List PTok}, PTok.year n ∈ ts → First isYear ts (ts.map (piece k)) ≠ none := by
            intro ts
            induction ts with
            | nil => intro h; cases h
            | cons t ts ih =>
              intro h
              rw [List.map_cons, First]
              split
              · simp
              · rename_i hf
                rcases List.mem_cons.mp h with e | e
                · subst e; exact absurd rfl hf
                · exact ih e
          exact key hn hy
        have := i3 h2
        omega
    · rintro ⟨-, y, hy, hb⟩
      have := hk.year
      rcases hyears y hy with e | e <;> omega

/-! ### When generation fails -/

theorem natStr_two {n : Nat} (h : 10 ≤ n) : ∃ a b r, natStr n = a :: b :: r ∧ a.isDigit = true ∧ b.isDigit = true := by
  have hd := natStr_digits n
  have he := natStr_eq n
  rw [if_neg (by omega)] at he
  have hne := natStr_ne_nil (n / 10)
  cases h1 : natStr (n / 10) with
  | nil => exact absurd h1 hne
  | cons a x =>
    rw [h1] at he
    cases x with
    | nil =>
      rw [he] at hd ⊢
      exact ⟨a, _, [], rfl, hd a (by simp), hd (digitChar (n % 10)) (by simp)⟩
    | cons b y =>
      rw [he] at hd ⊢
      exact ⟨a, b, _, rfl, hd a (by simp), hd b (by simp)⟩

theorem spec_digit {k : Clock} {c : Char} (h : c.isDigit = true) : chronoSpec k c = none := by
  have h1 : c ≠ '%' ∧ c ≠ 'Y' ∧ c ≠ 'y' ∧ c ≠ 'U' ∧ c ≠ 'j' ∧ c ≠ 'd' ∧ c ≠ 'm' ∧ c ≠ 'B' ∧ c ≠ 'b' ∧ c ≠ 'A' ∧ c ≠ 'a'
      ∧ c ≠ 'u' ∧ c ≠ 'H' ∧ c ≠ 'I' ∧ c ≠ 'M' ∧ c ≠ 'S' ∧ c ≠ 'f' ∧ c ≠ 'Z' ∧ c ≠ 'z' ∧ c ≠ 'p' := by
    refine ⟨?_, ?_, ?_, ?_, ?_, ?_, ?_, ?_, ?_, ?_, ?_, ?_, ?_, ?_, ?_, ?_, ?_, ?_, ?_, ?_⟩ <;>
      (intro e; rw [e] at h; exact absurd h (by decide))
  unfold chronoSpec
  split <;> simp_all

theorem format_bad (k : Clock) {n : Nat} (h : ¬ FracKnown (.frac n)) (s : Str) :
    chronoFormat k (chronoTok (.frac n) ++ s) = .panic := by
  have h3 : ¬ n < 3 := fun e => h (Or.inl e)
  have h3' : n ≠ 3 := fun e => h (Or.inr (Or.inl e))
  have h6 : n ≠ 6 := fun e => h (Or.inr (Or.inr (Or.inl e)))
  have h9 : n ≠ 9 := fun e => h (Or.inr (Or.inr (Or.inr e)))
  simp only [chronoTok, if_neg h3]
  by_cases h10 : 10 ≤ n
  · obtain ⟨a, b, r, e, ha, hb⟩ := natStr_two h10
    rw [e]
    have hbf : b ≠ 'f' := by intro e; rw [e] at hb; exact absurd hb (by decide)
    have hac : a ≠ ':' := by intro e; rw [e] at ha; exact absurd ha (by decide)
    show chronoFormat k ('%' :: a :: b :: (r ++ ['f'] ++ s)) = .panic
    rw [chronoFormat]
    · rw [spec_digit ha]
    all_goals (intros; simp_all)
  · have : n = 4 ∨ n = 5 ∨ n = 7 ∨ n = 8 := by omega
    rcases this with e | e | e | e <;> subst e <;> rfl

/-- The pieces are written one after the other, or the whole generation panics. -/
theorem format_panic (k : Clock) : ∀ (ts : List PTok), chronoFormat k (toChrono ts) = .panic ↔ ∃ t ∈ ts, ¬ FracKnown t
  | [] => by constructor
             · intro h; cases h
             · rintro ⟨t, ht, -⟩; cases ht
  | t :: ts => by
    have he : toChrono (t :: ts) = chronoTok t ++ toChrono ts := rfl
    rw [he]
    by_cases hk : FracKnown t
    · rw [format_tok k t hk, Res.map_eq_panic, format_panic k ts]
      constructor
      · rintro ⟨u, hu, h⟩; exact ⟨u, List.mem_cons_of_mem _ hu, h⟩
      · rintro ⟨u, hu, h⟩
        rcases List.mem_cons.mp hu with e | e
        · subst e; exact absurd hk h
        · exact ⟨u, e, h⟩
    · have : ∃ n, t = .frac n := by cases t <;> first | exact absurd trivial hk | exact ⟨_, rfl⟩
      obtain ⟨n, rfl⟩ := this
      rw [format_bad k hk]
      exact ⟨fun _ => ⟨_, List.mem_cons_self, hk⟩, fun _ => rfl⟩

/-- **C93**: when generation fails.  A pattern with a fraction of three or more letters that is not of length 3, 6 or 9
makes the generation panic; every other well-formed pattern generates a text. -/
theorem C93_panic_iff {k : Clock} {fmt : Str} {ts : List PTok} (hp : parsePattern fmt = .ok ts) :
    (generateString k fmt = .panic ↔ ∃ n, PTok.frac n ∈ ts ∧ 3 ≤ n ∧ n ≠ 3 ∧ n ≠ 6 ∧ n ≠ 9) ∧
    generateString k fmt ≠ .err := by
  have hg : generateString k fmt = chronoFormat k (toChrono ts) := by unfold generateString; rw [hp]
  rw [hg]
  refine ⟨(format_panic k ts).trans ⟨?_, ?_⟩, ?_⟩
  · rintro ⟨t, ht, h⟩
    cases t <;> first | exact absurd trivial h | skip
    rename_i n
    refine ⟨n, ht, ?_, ?_, ?_, ?_⟩
    · exact Nat.le_of_not_lt fun e => h (Or.inl e)
    · exact fun e => h (Or.inr (Or.inl e))
    · exact fun e => h (Or.inr (Or.inr (Or.inl e)))
    · exact fun e => h (Or.inr (Or.inr (Or.inr e)))
  · rintro ⟨n, hn, h1, h2, h3, h4⟩
    refine ⟨_, hn, ?_⟩
    rintro (h | h | h | h) <;> omega
  · intro he
    by_cases hb : ∃ t ∈ ts, ¬ FracKnown t
    · rw [(format_panic k ts).mpr hb] at he; cases he
    · rw [format_all k ts (fun t ht => Classical.byContradiction fun h => hb ⟨t, ht, h⟩)] at he
      cases he

/-- Fields of the time of day. -/
def TimeField : PTok → Prop
  | .hour24 | .hour24z | .hour12 | .hour12z | .minute | .second | .frac _ | .nano _ | .amPm => True
  | _ => False

theorem needs_text : ∀ (t s : Str), needsTime (escapePercent t ++ s) = needsTime s
  | [], s => rfl
  | c :: t, s => by
    have ih := needs_text t s
    have he : escapePercent (c :: t) = (if c = '%' then ['%', '%'] else [c]) ++ escapePercent t := rfl
    rw [he]
    by_cases hc : c = '%'
    · subst hc
      rw [if_pos rfl]
      exact ih
    · rw [if_neg hc]
      show needsTime (c :: (escapePercent t ++ s)) = _
      rw [needsTime]
      · exact ih
      all_goals (intros; simp_all)

theorem needs_tok (t : PTok) (h : FracKnown t) (s : Str) :
    needsTime (chronoTok t ++ s) = true ↔ TimeField t ∨ needsTime s = true := by
  have no : ∀ {p : Prop}, p ↔ False ∨ p := by intro p; simp
  have yes : ∀ {p q : Prop}, p → (p ↔ True ∨ q) := by intro p q hp; simp [hp]
  cases t with
  | text t => rw [show chronoTok (.text t) = escapePercent t from rfl, needs_text]; exact no
  | year n => simp only [chronoTok]; split <;> exact no
  | month n =>
    simp only [chronoTok]
    split
    · exact no
    · split <;> exact no
  | dayName n => simp only [chronoTok]; split <;> exact no
  | frac n =>
    refine yes ?_
    simp only [chronoTok]
    rcases h with h | h | h | h
    · rw [if_pos h]; rfl
    · subst h; rfl
    · subst h; rfl
    · subst h; rfl
  | hour24 => exact yes rfl
  | hour24z => exact yes rfl
  | hour12 => exact yes rfl
  | hour12z => exact yes rfl
  | minute => exact yes rfl
  | second => exact yes rfl
  | nano n => exact yes rfl
  | amPm => exact yes rfl
  | _ => exact no

theorem needs_all : ∀ (ts : List PTok), (∀ t ∈ ts, FracKnown t) →
    (needsTime (toChrono ts) = true ↔ ∃ t ∈ ts, TimeField t)
  | [], _ => by simp [toChrono, needsTime]
  | t :: ts, h => by
    show needsTime (chronoTok t ++ toChrono ts) = true ↔ _
    rw [needs_tok t (h t (by simp)), needs_all ts (fun x hx => h x (by simp [hx]))]
    simp

/-- **C93**: the generator of dates panics exactly on the patterns that have a field of the time of day. -/
theorem C93_date_panic_iff {k : Clock} {fmt : Str} {ts : List PTok} (hp : parsePattern fmt = .ok ts) :
    (genDate k (some fmt) = .panic ↔ ∃ t ∈ ts, TimeField t) ∧
    ((∀ t ∈ ts, ¬ TimeField t) → genDate k (some fmt) = generateString k fmt) := by
  have hg : generateString k fmt = chronoFormat k (toChrono ts) := by unfold generateString; rw [hp]
  have hd : genDate k (some fmt) = dateFormat k (toChrono ts) := by unfold genDate; simp only [hp]
  have bad : ∀ t : PTok, ¬ FracKnown t → TimeField t := by
    intro t h; cases t <;> first | exact absurd trivial h | trivial
  rw [hg, hd]
  unfold dateFormat
  by_cases hb : ∃ t ∈ ts, ¬ FracKnown t
  · obtain ⟨t, ht, h⟩ := hb
    rw [(format_panic k ts).mpr ⟨t, ht, h⟩]
    refine ⟨⟨fun _ => ⟨t, ht, bad t h⟩, fun _ => by split <;> rfl⟩, fun hn => absurd (bad t h) (hn t ht)⟩
  · have hk : ∀ t ∈ ts, FracKnown t := fun t ht => Classical.byContradiction fun h => hb ⟨t, ht, h⟩
    have hn := needs_all ts hk
    by_cases hx : needsTime (toChrono ts) = true
    · rw [if_pos hx]
      exact ⟨⟨fun _ => hn.mp hx, fun _ => rfl⟩, fun h => by
        obtain ⟨t, ht, h1⟩ := hn.mp hx
        exact absurd h1 (h t ht)⟩
    · rw [if_neg hx, format_all k ts hk]
      exact ⟨⟨fun h => (by cases h), fun h => absurd (hn.mpr h) hx⟩, fun _ => rfl⟩

/-- An environment of rules whose date/time check is this one. -/
def dated (env : Env) (zs : Zones) : Env := { env with datetime := fun v f => decide (validate zs v f = .ok ()) }

theorem pattern_iso : parsePattern "yyyy-MM-dd".toList
    = .ok [.year 4, .text ['-'], .month 2, .text ['-'], .dayInMonth] := by decide

theorem pattern_time : parsePattern "HH:mm:ss".toList
    = .ok [.hour24z, .text [':'], .minute, .text [':'], .second] := by decide

theorem defaults {zs : Zones} {k : Clock} (hk : ClockOk k) :
    (∃ v, genDate k none = .ok v ∧ validate zs v "yyyy-MM-dd".toList = .ok ()) ∧
    (∃ v, genTime k none = .ok v ∧ validate zs v "HH:mm:ss".toList = .ok ()) := by
  constructor
  · obtain ⟨v, h1, h2⟩ := C93_generated_accepted_partial (zs := zs) pattern_iso hk
      (by intro t ht; simp at ht; rcases ht with e | e | e | e | e <;> subst e <;> first | trivial | exact Or.inr (by decide))
      rfl (fun _ _ _ => ⟨4, by simp⟩)
    refine ⟨v, ?_, h2⟩
    have : generateString k "yyyy-MM-dd".toList = genDate k none := by
      unfold generateString
      rw [pattern_iso]
      simp only [genDate]
      rw [format_all k _ (by intro t ht; simp at ht; rcases ht with e | e | e | e | e <;> subst e <;> trivial)]
      rfl
    rw [← this]; exact h1
  · obtain ⟨v, h1, h2⟩ := C93_generated_accepted_partial (zs := zs) pattern_time hk
      (by intro t ht; simp at ht; rcases ht with e | e | e | e | e <;> subst e <;> trivial)
      rfl (by intro _ _ h; simp at h)
    exact ⟨v, h1, h2⟩

/-- **C93**: the `date` and `time` rules without a format accept what the `Date` and `Time` generators without a format
produce, at every moment of the years 0 to 9999, in a JSON body and in a text. -/
theorem C93_defaults {env : Env} {zs : Zones} {k : Clock} (hk : ClockOk k) :
    (∃ v, genDate k none = .ok v ∧ ∀ (e : Json) (s : Str) (c : Bool),
      Matchers.jsonMatches (dated env zs) e (.str v) (.date []) c = true ∧
      Matchers.strMatches (dated env zs) s v (.date []) c = true) ∧
    (∃ v, genTime k none = .ok v ∧ ∀ (e : Json) (s : Str) (c : Bool),
      Matchers.jsonMatches (dated env zs) e (.str v) (.time []) c = true ∧
      Matchers.strMatches (dated env zs) s v (.time []) c = true) := by
  obtain ⟨⟨v, h1, h2⟩, ⟨w, h3, h4⟩⟩ := defaults (zs := zs) hk
  exact ⟨⟨v, h1, fun _ _ _ => ⟨decide_eq_true h2, decide_eq_true h2⟩⟩,
    ⟨w, h3, fun _ _ _ => ⟨decide_eq_true h4, decide_eq_true h4⟩⟩⟩

/-- **C93**: a `time` or `timestamp` rule, and the `Time` or `DateTime` generator with the same format: the rule
accepts the generated value, in a JSON body and in a text. -/
theorem C93_rule {env : Env} {zs : Zones} {k : Clock} {fmt : Str} {ts : List PTok}
    (hp : parsePattern fmt = .ok ts) (hk : ClockOk k) (hs : ∀ t ∈ ts, Safe k t) (hsep : genSeparated ts = true)
    (hfeb : k.month = 2 → k.day = 29 → PTok.dayInMonth ∈ ts → ∃ n, PTok.year n ∈ ts) :
    ∃ v, genTime k (some fmt) = .ok v ∧ genDateTime k (some fmt) = .ok v ∧
      ((∀ t ∈ ts, ¬ TimeField t) → genDate k (some fmt) = .ok v) ∧
      ∀ (e : Json) (s : Str) (c : Bool) (r : MatchingRule), r = .date fmt ∨ r = .time fmt ∨ r = .timestamp fmt →
        Matchers.jsonMatches (dated env zs) e (.str v) r c = true ∧
        Matchers.strMatches (dated env zs) s v r c = true := by
  obtain ⟨v, h1, h2⟩ := C93_generated_accepted_partial (zs := zs) hp hk hs hsep hfeb
  refine ⟨v, h1, h1, fun hn => ((C93_date_panic_iff hp).2 hn).trans h1, ?_⟩
  have hne : fmt ≠ [] := by intro e; rw [e] at hp; cases hp
  have hf : ∀ d : String, Matchers.fmtOr d fmt = fmt := by
    intro d
    unfold Matchers.fmtOr
    rw [if_neg (by cases fmt; exact absurd rfl hne; simp)]
  intro e s c r hr
  rcases hr with e' | e' | e' <;> subst e' <;> simp only [Matchers.jsonMatches, Matchers.strMatches, hf] <;>
    exact ⟨decide_eq_true h2, decide_eq_true h2⟩

/-- A moment: 14 March 2024, 15:09:26.535, two hours east. -/
def pi : Clock := ⟨2024, 3, 14, 74, 10, 4, 15, 9, 26, 535897932, 120⟩

theorem pi_ok : ClockOk pi where
  year := by decide
  month := by decide
  day := by decide
  inMonth := by unfold InMonth; exact ⟨by decide, by decide, by decide, fun h => absurd h (by decide)⟩
  ordinal := by decide
  week := by decide
  weekday := by decide
  hour := by decide
  minute := by decide
  second := by decide
  nanos := by decide
  offset := by decide

/-- The fields of an ISO timestamp with milliseconds. -/
def isoToks : List PTok :=
  [.year 4, .text ['-'], .month 2, .text ['-'], .dayInMonth, .text ['T'], .hour24z, .text [':'], .minute, .text [':'],
   .second, .text ['.'], .frac 3, .offsetXZ 3]

/-- The hypotheses of C93 are met by `yyyy-MM-dd'T'HH:mm:ss.SSSXXX`, and by a pattern without separators. -/
theorem C93_witness :
    parsePattern "yyyy-MM-dd'T'HH:mm:ss.SSSXXX".toList = .ok isoToks ∧ (∀ t ∈ isoToks, Safe pi t) ∧
    genSeparated isoToks = true ∧
    generateString pi "yyyy-MM-dd'T'HH:mm:ss.SSSXXX".toList = .ok "2024-03-14T15:09:26.535+02:00".toList ∧
    parsePattern "yyyyMMddHHmmss".toList = .ok [.year 4, .month 2, .dayInMonth, .hour24z, .minute, .second] ∧
    genSeparated [.year 4, .month 2, .dayInMonth, .hour24z, .minute, .second] = true ∧
    generateString pi "yyyyMMddHHmmss".toList = .ok "20240314150926".toList := by
  refine ⟨by decide, ?_, by decide, by decide, by decide, by decide, by decide⟩
  intro t ht
  simp only [isoToks, List.mem_cons, List.not_mem_nil, or_false] at ht
  rcases ht with e | e | e | e | e | e | e | e | e | e | e | e | e | e <;> subst e <;>
    first | trivial | exact Or.inr (by decide) | exact Or.inl rfl | exact ⟨Or.inl rfl, by decide⟩

/-- What C93 excludes, shown on the code: the generated text is not accepted by its own pattern (or there is none). -/
theorem C93_limits :
    -- two letters of fraction generate three digits
    (generateString pi "ss.SS".toList = .ok "26.535".toList ∧ validate zones0 "26.535".toList "ss.SS".toList = .err) ∧
    -- `K` (0 to 11) generates 12 at noon, `k` (1 to 24) generates 00 at midnight
    (generateString { pi with hour := 12 } "K".toList = .ok "12".toList ∧
      validate zones0 "12".toList "K".toList = .err) ∧
    (generateString { pi with hour := 0 } "k".toList = .ok "00".toList ∧
      validate zones0 "00".toList "k".toList = .err) ∧
    -- `X` generates a colon
    (generateString pi "HHX".toList = .ok "15+02:00".toList ∧ validate zones0 "15+02:00".toList "HHX".toList = .err) ∧
    -- twelve hours east of UTC
    (generateString { pi with offset := 720 } "HHXXX".toList = .ok "15+12:00".toList ∧
      validate zones0 "15+12:00".toList "HHXXX".toList = .err) ∧
    -- the last days of the year
    (generateString { pi with ordinal := 360 } "D".toList = .ok "360".toList ∧
      validate zones0 "360".toList "D".toList = .err) ∧
    -- 29 February without a year
    (generateString { pi with month := 2, day := 29 } "MM-dd".toList = .ok "02-29".toList ∧
      validate zones0 "02-29".toList "MM-dd".toList = .err) ∧
    -- a zone name generates an offset, and a quarter generates nothing
    (generateString pi "z".toList = .ok "+02:00".toList ∧ validate zones0 "+02:00".toList "z".toList = .err) ∧
    (generateString pi "Q".toList = .ok [] ∧ validate zones0 [] "Q".toList = .err) ∧
    -- the default timestamp has milliseconds and no colon in the offset
    (genDateTime pi none = .ok "2024-03-14T15:09:26.535+0200".toList ∧
      validate zones0 "2024-03-14T15:09:26.535+0200".toList "yyyy-MM-dd'T'HH:mm:ssXXX".toList = .err) ∧
    -- four letters of fraction, and a date with an hour, panic
    generateString pi "ss.SSSS".toList = .panic ∧
    genDate pi (some "yyyy-MM-dd HH".toList) = .panic := by
  decide

theorem digits_dot {s : Str} (h : Digits s) : '.' ∉ s := fun hm => absurd (h _ hm) (by decide)

theorem dot_rejected {zs : Zones} {v : Str} (hd : '.' ∈ v) :
    validate zs v "yyyy-MM-dd'T'HH:mm:ssXXX".toList ≠ .ok () := by
  intro h
  obtain ⟨y, m, d, hh, mi, s, z, rfl, hy, hm, hdd, -, hhh, hmi, hs, hz⟩ := C91_iso_timestamp.mp h
  have hzd : '.' ∉ z := by
    rcases hz with e | hz
    · rw [e]; decide
    · obtain ⟨a, b, rfl, ha, c, e, rfl, hc, f, g, rfl, hf, hg⟩ := hz
      have hf' : f = [':'] := hf
      have h1 : '.' ∉ a := fun h => by rcases ha.2 _ h with e | e <;> exact absurd e (by decide)
      simp [h1, hf', digits_dot hc.2.1, digits_dot hg.2.1]
  simp [digits_dot hy.2.1, digits_dot hm.2.1, digits_dot hdd.2.1, digits_dot hhh.2.1, digits_dot hmi.2.1,
    digits_dot hs.2.1, hzd] at hd

/-- The default `DateTime` generator and the default `timestamp` rule never agree: what the one produces the other
rejects, at every moment of the years 0 to 9999. -/
theorem C93_default_timestamp (zs : Zones) (k : Clock) :
    ∃ v, genDateTime k none = .ok v ∧ validate zs v "yyyy-MM-dd'T'HH:mm:ssXXX".toList ≠ .ok () := by
  have hc : "%Y-%m-%dT%H:%M:%S.%3f%z".toList = toChrono [.year 4, .text ['-'], .month 2, .text ['-'], .dayInMonth,
      .text ['T'], .hour24z, .text [':'], .minute, .text [':'], .second, .text ['.'], .frac 3, .offset 1] := by decide
  have hg : genDateTime k none = chronoFormat k "%Y-%m-%dT%H:%M:%S.%3f%z".toList := rfl
  rw [hg, hc, format_all k _ (by
    intro t ht
    simp only [List.mem_cons, List.not_mem_nil, or_false] at ht
    rcases ht with e | e | e | e | e | e | e | e | e | e | e | e | e | e <;> subst e <;>
      first | trivial | exact Or.inr (Or.inl rfl))]
  refine ⟨_, rfl, fun h => ?_⟩
  refine dot_rejected (zs := zs) ?_ h
  simp [piece]

end TimeGenProps
end Verif
