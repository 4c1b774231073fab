import Verif.QueryStrings

/-
  Model of `base64::engine::general_purpose::STANDARD`, the encoding used for bodies in pact files
  (rust/pact_models/src/bodies.rs 7-8, json_utils.rs, v4/http_parts.rs 8-9): the standard alphabet, padding required,
  unused bits zero.  The crate itself is not part of the repository; this is RFC 4648 section 4, so that the round trip
  of bodies rests on a proof and not on an assumption.
-/

set_option autoImplicit false

namespace Verif
namespace Base64

/-- The standard alphabet. -/
def alphabet : Str := "ABCDEFGHIJKLMNOPQRSTUVWXYZabcdefghijklmnopqrstuvwxyz0123456789+/".toList

/-- The character of a 6 bit number. -/
def sextet (n : Nat) : Char := alphabet.getD n '='

/-- The position of a character in a list. -/
def position (c : Char) : Nat → Str → Option Nat
  | _, [] => none
  | i, a :: as => if a = c then some i else position c (i + 1) as

/-- The 6 bit number of a character. -/
def value (c : Char) : Option Nat := position c 0 alphabet

/-- `Engine::encode`. -/
def encode : List UInt8 → Str
  | [] => []
  | [a] => [sextet (a.toNat / 4), sextet (a.toNat % 4 * 16), '=', '=']
  | [a, b] => [sextet (a.toNat / 4), sextet (a.toNat % 4 * 16 + b.toNat / 16), sextet (b.toNat % 16 * 4), '=']
  | a :: b :: c :: r =>
    sextet (a.toNat / 4) :: sextet (a.toNat % 4 * 16 + b.toNat / 16) ::
      sextet (b.toNat % 16 * 4 + c.toNat / 64) :: sextet (c.toNat % 64) :: encode r

/-- The last group of four characters. -/
def lastGroup (w x y z : Char) : Option (List UInt8) :=
  match value w, value x with
  | some i, some j =>
    if y = '=' then
      if z = '=' ∧ j % 16 = 0 then some [UInt8.ofNat (i * 4 + j / 16)] else none
    else match value y with
      | some k =>
        if z = '=' then
          if k % 4 = 0 then some [UInt8.ofNat (i * 4 + j / 16), UInt8.ofNat (j % 16 * 16 + k / 4)] else none
        else match value z with
          | some l => some [UInt8.ofNat (i * 4 + j / 16), UInt8.ofNat (j % 16 * 16 + k / 4), UInt8.ofNat (k % 4 * 64 + l)]
          | none => none
      | none => none
  | _, _ => none

/-- `Engine::decode`. -/
def decode : Str → Option (List UInt8)
  | [] => some []
  | w :: x :: y :: z :: r =>
    if r.isEmpty then lastGroup w x y z
    else match value w, value x, value y, value z with
      | some i, some j, some k, some l =>
        (decode r).map fun t =>
          UInt8.ofNat (i * 4 + j / 16) :: UInt8.ofNat (j % 16 * 16 + k / 4) :: UInt8.ofNat (k % 4 * 64 + l) :: t
      | _, _, _, _ => none
  | _ => none

theorem sextet_table : (∀ n : Fin 64, value (sextet n.1) = some n.1 ∧ sextet n.1 ≠ '=') := by
  decide +kernel

theorem value_sextet (n : Nat) (h : n < 64) : value (sextet n) = some n := (sextet_table ⟨n, h⟩).1

theorem sextet_pad (n : Nat) (h : n < 64) : sextet n ≠ '=' := (sextet_table ⟨n, h⟩).2

theorem ofNat_eq (a : UInt8) (n : Nat) (h : n = a.toNat) : UInt8.ofNat n = a := by
  rw [h]; exact UInt8.ofNat_toNat

/-- Decoding inverts encoding. -/
theorem decode_encode : ∀ b : List UInt8, decode (encode b) = some b
  | [] => rfl
  | [a] => by
    have ha := a.toNat_lt
    simp only [encode, decode, List.isEmpty_nil, if_true, lastGroup]
    rw [value_sextet _ (by omega), value_sextet _ (by omega)]
    simp only [true_and]
    rw [if_pos (by omega)]
    congr 2
    exact ofNat_eq a _ (by omega)
  | [a, b] => by
    have ha := a.toNat_lt
    have hb := b.toNat_lt
    simp only [encode, decode, List.isEmpty_nil, if_true, lastGroup]
    rw [value_sextet _ (by omega), value_sextet _ (by omega)]
    simp only
    rw [if_neg (sextet_pad _ (by omega)), value_sextet _ (by omega)]
    simp only
    rw [if_pos (by omega), ofNat_eq a _ (by omega), ofNat_eq b _ (by omega)]
  | a :: b :: c :: r => by
    have ha := a.toNat_lt
    have hb := b.toNat_lt
    have hc := c.toNat_lt
    simp only [encode, decode]
    have e1 : UInt8.ofNat (a.toNat / 4 * 4 + (a.toNat % 4 * 16 + b.toNat / 16) / 16) = a := ofNat_eq a _ (by omega)
    have e2 : UInt8.ofNat ((a.toNat % 4 * 16 + b.toNat / 16) % 16 * 16 + (b.toNat % 16 * 4 + c.toNat / 64) / 4) = b :=
      ofNat_eq b _ (by omega)
    have e3 : UInt8.ofNat ((b.toNat % 16 * 4 + c.toNat / 64) % 4 * 64 + c.toNat % 64) = c := ofNat_eq c _ (by omega)
    by_cases hr : (encode r).isEmpty
    · rw [if_pos hr]
      have : r = [] := by
        match r, hr with
        | [], _ => rfl
        | [_], h => simp [encode] at h
        | [_, _], h => simp [encode] at h
        | _ :: _ :: _ :: _, h => simp [encode] at h
      subst this
      simp only [lastGroup]
      rw [value_sextet _ (by omega), value_sextet _ (by omega)]
      simp only
      rw [if_neg (sextet_pad _ (by omega)), value_sextet _ (by omega)]
      simp only
      rw [if_neg (sextet_pad _ (by omega)), value_sextet _ (by omega)]
      simp only
      rw [e1, e2, e3]
    · rw [if_neg hr, value_sextet _ (by omega), value_sextet _ (by omega), value_sextet _ (by omega),
        value_sextet _ (by omega)]
      simp only
      rw [decode_encode r, Option.map_some, e1, e2, e3]

/-- The encoding is not empty unless the bytes are. -/
theorem encode_eq_nil (b : List UInt8) : encode b = [] ↔ b = [] := by
  match b with
  | [] => simp [encode]
  | [_] => simp [encode]
  | [_, _] => simp [encode]
  | _ :: _ :: _ :: _ => simp [encode]

example : encode [104, 101, 108, 108, 111] = "aGVsbG8=".toList := by decide
example : decode "aGVsbG8=".toList = some [104, 101, 108, 108, 111] := by decide +kernel
example : decode "aGVsbG9=".toList = none := by decide +kernel

end Base64
end Verif
