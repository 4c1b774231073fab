/-
  Base conventions of the model.

  * `Str` models a Rust `String`/`&str` as its list of Unicode scalar values (`char`s).
    Lean's `Char` is exactly a Unicode scalar value, as is Rust's `char`.
  * `Res` models a computation that may return `Ok`, return `Err` (message text dropped), or panic.
  * `UC` models the Unicode tables of the Rust standard library, of which only the ASCII part is
    assumed (as fields, with an instance below showing the assumptions are satisfiable).
-/

namespace Verif

/-- A Rust `String`, as the list of its `char`s. -/
abbrev Str := List Char

/-- Outcome of a Rust call: `Ok v`, `Err _` (error text dropped), or a panic. -/
inductive Res (α : Type) where
  | ok (a : α)
  | err
  | panic
deriving Repr, DecidableEq

namespace Res
/-- Sequencing (`?` operator): errors and panics propagate. -/
def bind {α β} (r : Res α) (f : α → Res β) : Res β :=
  match r with
  | ok a => f a
  | err => err
  | panic => panic
/-- Map over a successful outcome. -/
def map {α β} (f : α → β) (r : Res α) : Res β :=
  match r with
  | ok a => ok (f a)
  | err => err
  | panic => panic

@[simp] theorem map_ok {α β} (f : α → β) (a : α) : (Res.ok a).map f = Res.ok (f a) := rfl
@[simp] theorem map_err {α β} (f : α → β) : (Res.err : Res α).map f = Res.err := rfl
@[simp] theorem map_panic {α β} (f : α → β) : (Res.panic : Res α).map f = Res.panic := rfl
@[simp] theorem bind_ok {α β} (f : α → Res β) (a : α) : (Res.ok a).bind f = f a := rfl
@[simp] theorem bind_err {α β} (f : α → Res β) : (Res.err : Res α).bind f = Res.err := rfl
@[simp] theorem bind_panic {α β} (f : α → Res β) : (Res.panic : Res α).bind f = Res.panic := rfl

theorem map_eq_ok {α β} {f : α → β} {r : Res α} {b : β} :
    r.map f = .ok b ↔ ∃ a, r = .ok a ∧ f a = b := by
  cases r <;> simp [map]
theorem map_eq_panic {α β} {f : α → β} {r : Res α} :
    r.map f = .panic ↔ r = .panic := by
  cases r <;> simp [map]
theorem map_eq_err {α β} {f : α → β} {r : Res α} :
    r.map f = .err ↔ r = .err := by
  cases r <;> simp [map]
end Res

/-- ASCII white space according to the Unicode property `White_Space`. -/
def asciiWhite (c : Char) : Bool := c.toNat == 32 || (decide (9 ≤ c.toNat) && decide (c.toNat ≤ 13))

/-- Unicode tables used by the code (`char::is_alphabetic`, `char::is_numeric`, `char::is_whitespace`,
`str::to_lowercase`).  Only the ASCII part of their behaviour is assumed. -/
structure UC where
  alphabetic : Char → Bool
  numeric : Char → Bool
  white : Char → Bool
  lower : Str → Str
  white_ascii : ∀ c : Char, c.toNat < 128 → white c = asciiWhite c
  alphabetic_ascii : ∀ c : Char, c.toNat < 128 → alphabetic c = c.isAlpha
  numeric_ascii : ∀ c : Char, c.toNat < 128 → numeric c = c.isDigit
  lower_ascii : ∀ s : Str, (∀ c ∈ s, c.toNat < 128) → lower s = s.map Char.toLower

/-- The assumptions on the Unicode tables are satisfiable. -/
def UC.ascii : UC where
  alphabetic := Char.isAlpha
  numeric := Char.isDigit
  white := asciiWhite
  lower := List.map Char.toLower
  white_ascii := fun _ _ => rfl
  alphabetic_ascii := fun _ _ => rfl
  numeric_ascii := fun _ _ => rfl
  lower_ascii := fun _ _ => rfl

/-- A second table where `²` (U+00B2) is numeric, as in the real Unicode tables; used in witnesses. -/
def UC.sup2 : UC where
  alphabetic := Char.isAlpha
  numeric := fun c => c.isDigit || c == '²'
  white := asciiWhite
  lower := List.map Char.toLower
  white_ascii := fun _ _ => rfl
  alphabetic_ascii := fun _ _ => rfl
  numeric_ascii := by
    intro c h
    have : (c == '²') = false := by
      apply beq_false_of_ne
      intro e; subst e
      exact absurd h (by decide)
    simp [this]
  lower_ascii := fun _ _ => rfl

/-- `usize::MAX + 1` on the 64-bit targets. -/
def usizeLim : Nat := 2 ^ 64

/-- Value of an ASCII digit. -/
def digitVal (c : Char) : Nat := c.toNat - '0'.toNat

/-- Fold of a digit string (most significant first) into a number; `none` on a non-digit. -/
def digitsVal : Nat → Str → Option Nat
  | acc, [] => some acc
  | acc, c :: cs => if c.isDigit then digitsVal (acc * 10 + digitVal c) cs else none

/-- A non-empty string of ASCII digits as a number below `lim`. -/
def parseDigits (lim : Nat) (s : Str) : Option Nat :=
  if s.isEmpty then none
  else match digitsVal 0 s with
    | some n => if n < lim then some n else none
    | none => none

/-- `str::parse::<usize>()` (Rust core `from_str_radix` for unsigned types): an optional leading `+`,
then one or more ASCII digits, and the value must fit. -/
def parseUsize (s : Str) : Option Nat :=
  match s with
  | '+' :: r => parseDigits usizeLim r
  | _ => parseDigits usizeLim s

/-- The ASCII digit for `d < 10`. -/
def digitChar (d : Nat) : Char := Char.ofNat ('0'.toNat + d)

/-- Decimal digits of `n`, with a recursion bound (`n` itself always suffices). -/
def natStrF : Nat → Nat → Str
  | 0, n => [digitChar (n % 10)]
  | f + 1, n => if n < 10 then [digitChar n] else natStrF f (n / 10) ++ [digitChar (n % 10)]

/-- `impl Display for usize` (decimal, no leading zeros). -/
def natStr (n : Nat) : Str := natStrF n n

theorem natStrF_fuel : ∀ f g n, n ≤ f → n ≤ g → natStrF f n = natStrF g n := by
  intro f
  induction f with
  | zero =>
    intro g n h1 h2
    have : n = 0 := by omega
    subst this
    cases g <;> simp [natStrF]
  | succ f ih =>
    intro g n h1 h2
    cases g with
    | zero =>
      have : n = 0 := by omega
      subst this
      simp [natStrF]
    | succ g =>
      simp only [natStrF]
      split
      · rfl
      · rw [ih g (n / 10) (by omega) (by omega)]

/-- The defining equation of decimal printing. -/
theorem natStr_eq (n : Nat) :
    natStr n = if n < 10 then [digitChar n] else natStr (n / 10) ++ [digitChar (n % 10)] := by
  unfold natStr
  cases n with
  | zero => rfl
  | succ n =>
    simp only [natStrF]
    split
    · rfl
    · rw [natStrF_fuel n ((n + 1) / 10) ((n + 1) / 10) (by omega) (by omega)]

/-! ### Lemmas about digit strings -/

theorem digitChar_isDigit {d : Nat} (h : d < 10) : (digitChar d).isDigit = true := by
  have : ∀ d : Fin 10, (digitChar d.1).isDigit = true := by decide
  exact this ⟨d, h⟩

theorem digitVal_digitChar {d : Nat} (h : d < 10) : digitVal (digitChar d) = d := by
  have : ∀ d : Fin 10, digitVal (digitChar d.1) = d.1 := by decide
  exact this ⟨d, h⟩

theorem natStr_ne_nil (n : Nat) : natStr n ≠ [] := by
  rw [natStr_eq]; split <;> simp

theorem natStr_digits (n : Nat) : ∀ c ∈ natStr n, c.isDigit = true := by
  induction n using Nat.strongRecOn with
  | ind n ih =>
    rw [natStr_eq]
    split
    · rename_i h; intro c hc
      simp at hc; subst hc; exact digitChar_isDigit h
    · rename_i h; intro c hc
      rcases List.mem_append.1 hc with hc | hc
      · exact ih (n / 10) (by omega) c hc
      · simp at hc; subst hc; exact digitChar_isDigit (by omega)

theorem digitsVal_append (a : Nat) (s t : Str) :
    digitsVal a (s ++ t) = (digitsVal a s).bind (fun b => digitsVal b t) := by
  induction s generalizing a with
  | nil => simp [digitsVal]
  | cons c cs ih =>
    simp only [List.cons_append, digitsVal]
    split
    · exact ih _
    · simp

theorem digitsVal_natStr (n : Nat) : digitsVal 0 (natStr n) = some n := by
  induction n using Nat.strongRecOn with
  | ind n ih =>
    rw [natStr_eq]
    split
    · rename_i h
      simp [digitsVal, digitChar_isDigit h, digitVal_digitChar h]
    · rename_i h
      rw [digitsVal_append, ih (n / 10) (by omega)]
      have h10 : n % 10 < 10 := by omega
      simp [digitsVal, digitChar_isDigit h10, digitVal_digitChar h10]
      omega

theorem natStr_injective {m n : Nat} (h : natStr m = natStr n) : m = n := by
  have h1 := digitsVal_natStr m
  rw [h, digitsVal_natStr n] at h1
  exact (Option.some.inj h1).symm

theorem parseDigits_natStr {lim n : Nat} (h : n < lim) : parseDigits lim (natStr n) = some n := by
  unfold parseDigits
  have : (natStr n).isEmpty = false := by
    cases hs : natStr n with
    | nil => exact absurd hs (natStr_ne_nil n)
    | cons _ _ => rfl
  simp [this, digitsVal_natStr, h]

theorem natStr_head_ne_plus (n : Nat) (r : Str) : natStr n ≠ '+' :: r := by
  intro h
  have := natStr_digits n '+' (by rw [h]; simp)
  exact absurd this (by decide)

theorem parseUsize_of_head {s : Str} (h : ∀ r, s ≠ '+' :: r) :
    parseUsize s = parseDigits usizeLim s := by
  unfold parseUsize
  split
  · rename_i r; exact absurd rfl (h r)
  · rfl

theorem parseUsize_natStr {n : Nat} (h : n < usizeLim) : parseUsize (natStr n) = some n := by
  rw [parseUsize_of_head (natStr_head_ne_plus n)]
  exact parseDigits_natStr h

theorem parseDigits_lt {lim n : Nat} {s : Str} (h : parseDigits lim s = some n) : n < lim := by
  unfold parseDigits at h
  split at h
  · simp at h
  · split at h
    · split at h
      · simp at h; omega
      · simp at h
    · simp at h

theorem parseUsize_lt {n : Nat} {s : Str} (h : parseUsize s = some n) : n < usizeLim := by
  unfold parseUsize at h
  split at h <;> exact parseDigits_lt h

theorem digitsVal_bound (s : Str) : ∀ a n, digitsVal a s = some n → n < (a + 1) * 10 ^ s.length := by
  induction s with
  | nil => intro a n h; simp [digitsVal] at h; subst h; simp
  | cons c cs ih =>
    intro a n h
    simp only [digitsVal] at h
    split at h
    · rename_i hc
      have := ih _ _ h
      have hd : digitVal c < 10 := by
        simp only [Char.isDigit, Bool.and_eq_true, decide_eq_true_eq] at hc
        have h1 : c.toNat ≤ 57 := by simpa using UInt32.le_iff_toNat_le.mp hc.2
        unfold digitVal
        have : '0'.toNat = 48 := rfl
        omega
      calc n < (a * 10 + digitVal c + 1) * 10 ^ cs.length := this
        _ ≤ ((a + 1) * 10) * 10 ^ cs.length := Nat.mul_le_mul_right _ (by omega)
        _ = (a + 1) * 10 ^ (c :: cs).length := by
          rw [List.length_cons, Nat.pow_succ, Nat.mul_assoc, Nat.mul_comm 10]
    · simp at h

/-- A string of ASCII digits has a digit value. -/
theorem digitsVal_isSome (s : Str) (h : ∀ c ∈ s, c.isDigit = true) :
    ∀ a, ∃ n, digitsVal a s = some n := by
  induction s with
  | nil => intro a; exact ⟨a, rfl⟩
  | cons c cs ih =>
    intro a
    simp only [digitsVal, h c (by simp), if_true]
    exact ih (fun c hc => h c (by simp [hc])) _

end Verif
