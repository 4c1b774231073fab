import Verif.QueryStrings
import Verif.Props.HeaderProps

/-
  Property theorems about reading and writing query strings and headers: C29, C30.
-/

set_option autoImplicit false

namespace Verif.QueryStringProps
open QS Query Headers

/-! ## UTF-8 and percent encoding -/

theorem fromUtf8_iff (b : List UInt8) (s : Str) :
    fromUtf8 b = some s ↔ s.flatMap String.utf8EncodeChar = b := by
  unfold fromUtf8
  constructor
  · intro h
    cases hd : b.toByteArray.utf8Decode? with
    | none => rw [hd] at h; simp at h
    | some arr =>
      rw [hd] at h
      simp only [Option.map_some, Option.some.injEq] at h
      have := ByteArray.utf8Encode_get_utf8Decode? (b := b.toByteArray) (h := by rw [hd]; rfl)
      simp only [hd, Option.get_some, h] at this
      exact List.toByteArray_inj.1 this
  · intro h
    subst h
    have := List.utf8Decode?_utf8Encode (l := s)
    unfold List.utf8Encode at this
    rw [this]; simp

theorem utf8Size_le (c : Char) : (c.toNat < 128 ↔ c.utf8Size = 1) ∧ 1 ≤ c.utf8Size ∧
    (128 ≤ c.toNat → c.toNat < 2048 ∧ c.utf8Size = 2 ∨ 2048 ≤ c.toNat ∧ c.toNat < 65536 ∧ c.utf8Size = 3 ∨
      65536 ≤ c.toNat ∧ c.toNat < 1114112 ∧ c.utf8Size = 4) := by
  have hv : c.toNat = c.val.toNat := rfl
  have hmax : c.toNat < 1114112 := by
    rcases c.valid with h | h
    · have : c.toNat < 0xd800 := h
      omega
    · exact h.2
  unfold Char.utf8Size
  simp only [UInt32.le_iff_toNat_le, UInt32.toNat_ofNatLT, ← hv]
  split
  · refine ⟨by omega, by omega, by omega⟩
  · split
    · refine ⟨by omega, by omega, by omega⟩
    · split
      · refine ⟨by omega, by omega, by omega⟩
      · refine ⟨by omega, by omega, by omega⟩

theorem utf8_ascii {c : Char} (h : c.toNat < 128) : String.utf8EncodeChar c = [asU8 c] := by
  rw [String.utf8EncodeChar_eq_singleton ((utf8Size_le c).1.1 h)]
  simp only [asU8, List.cons.injEq, and_true]
  rfl

theorem decode_plain {c : Char} (h1 : c ≠ '%') (h2 : c ≠ '+') (r : Str) :
    decodeBytes (c :: r) = asU8 c :: decodeBytes r := by
  cases r with
  | nil => simp [decodeBytes, h1, h2]
  | cons d r => cases r <;> simp [decodeBytes, h1, h2]

theorem decode_plus (r : Str) : decodeBytes ('+' :: r) = asU8 ' ' :: decodeBytes r := by
  cases r with
  | nil => rfl
  | cons d r => cases r <;> simp [decodeBytes]

theorem decode_pct (a b : Char) (n : UInt8) (h : fromHex2 a b = some n) (r : Str) :
    decodeBytes ('%' :: a :: b :: r) = n :: decodeBytes r := by
  simp [decodeBytes, h]

/-- A hexadecimal digit as printed. -/
def IsHex (c : Char) : Prop := ∃ n, n < 16 ∧ c = Json.hexDigit n

theorem hexVal_hexDigit : ∀ n, n < 16 → hexVal (Json.hexDigit n) = some n := by decide

theorem hexStrF_spec : ∀ (f n : Nat), n ≤ f → (∀ c ∈ hexStrF f n, IsHex c) ∧ hexStrF f n ≠ [] ∧
    (∀ k, n < 16 ^ (k + 1) → (hexStrF f n).length ≤ k + 1) ∧
    (∀ k, 16 ^ k ≤ n → k + 1 ≤ (hexStrF f n).length) := by
  intro f
  induction f with
  | zero =>
    intro n hn
    have : n = 0 := by omega
    subst this
    refine ⟨?_, by simp [hexStrF], ?_, ?_⟩
    · intro c hc; simp [hexStrF] at hc; exact ⟨0, by omega, hc⟩
    · intro k _; simp [hexStrF]
    · intro k hk
      have : 0 < 16 ^ k := Nat.pow_pos (by omega)
      omega
  | succ f ih =>
    intro n hn
    simp only [hexStrF]
    split
    · rename_i h
      refine ⟨?_, by simp, ?_, ?_⟩
      · intro c hc; simp at hc; exact ⟨n, h, hc⟩
      · intro k _; simp
      · intro k hk
        cases k with
        | zero => simp
        | succ k =>
          have : 16 ≤ 16 ^ (k + 1) := by
            rw [Nat.pow_succ]
            have : 0 < 16 ^ k := Nat.pow_pos (by omega)
            omega
          omega
    · rename_i h
      obtain ⟨h1, h2, h3, h4⟩ := ih (n / 16) (by omega)
      refine ⟨?_, by simp, ?_, ?_⟩
      · intro c hc
        rcases List.mem_append.1 hc with hc | hc
        · exact h1 c hc
        · simp at hc; exact ⟨n % 16, by omega, hc⟩
      · intro k hk
        rw [List.length_append, List.length_singleton]
        cases k with
        | zero => omega
        | succ k =>
          have := h3 k (by
            rw [Nat.pow_succ] at hk
            exact Nat.div_lt_of_lt_mul (by omega))
          omega
      · intro k hk
        rw [List.length_append, List.length_singleton]
        cases k with
        | zero => omega
        | succ k =>
          have := h4 k (by
            rw [Nat.pow_succ] at hk
            exact (Nat.le_div_iff_mul_le (by omega)).2 (by omega))
          omega

theorem hexStr_hex (n : Nat) : ∀ c ∈ hexStr n, IsHex c := (hexStrF_spec n n (Nat.le_refl _)).1

/-- Bytes denoted by pairs of hexadecimal digits. -/
def pairBytes : Str → List UInt8
  | a :: b :: r => UInt8.ofNat ((hexVal a).getD 0 * 16 + (hexVal b).getD 0) :: pairBytes r
  | _ => []

theorem pairs_decode (n : Nat) : ∀ (ds : Str) (e r : Str), ds.length ≤ n → (∀ c ∈ ds, IsHex c) →
    pairs ds = .ok e → decodeBytes (e ++ r) = pairBytes ds ++ decodeBytes r ∧
      2 * (pairBytes ds).length = ds.length := by
  induction n with
  | zero =>
    intro ds e r hl _ h
    cases ds with
    | nil => simp [pairs] at h; subst h; simp [pairBytes]
    | cons a as => simp at hl
  | succ n ih =>
    intro ds e r hl hh h
    cases ds with
    | nil => simp [pairs] at h; subst h; simp [pairBytes]
    | cons a as =>
      cases as with
      | nil => simp [pairs] at h
      | cons b bs =>
        simp only [pairs, Res.map_eq_ok] at h
        obtain ⟨e', h1, rfl⟩ := h
        simp only [List.length_cons] at hl
        obtain ⟨i1, i2⟩ := ih bs e' r (by omega) (fun c hc => hh c (by simp [hc])) h1
        obtain ⟨x, hx, rfl⟩ := hh a (by simp)
        obtain ⟨y, hy, rfl⟩ := hh b (by simp)
        refine ⟨?_, ?_⟩
        · rw [List.cons_append, List.cons_append, List.cons_append, decode_pct _ _ (UInt8.ofNat (x * 16 + y)), i1]
          · simp [pairBytes, hexVal_hexDigit x hx, hexVal_hexDigit y hy]
          · simp [fromHex2, hexVal_hexDigit x hx, hexVal_hexDigit y hy]
        · simp only [pairBytes, List.length_cons]; omega

theorem pairs_even (n : Nat) : ∀ ds : Str, ds.length ≤ n →
    (ds.length % 2 = 0 → ∃ e, pairs ds = .ok e) ∧ (ds.length % 2 = 1 → pairs ds = .panic) := by
  induction n with
  | zero => intro ds h; cases ds with
    | nil => simp [pairs]
    | cons a as => simp at h
  | succ n ih =>
    intro ds h
    cases ds with
    | nil => simp [pairs]
    | cons a as => cases as with
      | nil => simp [pairs]
      | cons b bs =>
        simp only [List.length_cons] at h ⊢
        obtain ⟨h1, h2⟩ := ih bs (by omega)
        constructor
        · intro he
          obtain ⟨e, he'⟩ := h1 (by omega)
          exact ⟨_, by simp [pairs, he']; rfl⟩
        · intro he
          simp [pairs, h2 (by omega)]

/-- Characters written as themselves. -/
def Unreserved (c : Char) : Prop := c = ' ' ∨ c = '-' ∨ asciiAlnum c = true

theorem alnum_range {c : Char} (h : asciiAlnum c = true) : 48 ≤ c.toNat ∧ c.toNat < 123 := by
  simp only [asciiAlnum, Bool.or_eq_true, decide_eq_true_eq] at h
  have hv : c.toNat = c.val.toNat := rfl
  rcases h with (⟨h1, h2⟩ | ⟨h1, h2⟩) | ⟨h1, h2⟩ <;>
    simp only [Char.le_def, UInt32.le_iff_toNat_le, ← hv] at h1 h2 <;>
    simp at h1 h2 <;> omega

/-- The bytes a character is written as. -/
def charBytes (c : Char) : List UInt8 :=
  if c = ' ' ∨ c = '-' ∨ asciiAlnum c = true then [asU8 c] else pairBytes (hexStr c.toNat)

theorem encodeChar_decode (c : Char) (e r : Str) (h : encodeChar c = .ok e) :
    decodeBytes (e ++ r) = charBytes c ++ decodeBytes r := by
  unfold encodeChar at h
  unfold charBytes
  split at h
  · rename_i hc
    simp at h; subst h; subst hc
    rw [if_pos (Or.inl rfl)]
    exact decode_plus r
  · split at h
    · rename_i hc
      simp at h; subst h
      rw [if_pos (Or.inr (Or.inl hc)), List.singleton_append]
      rw [decode_plain (by rw [hc]; decide) (by rw [hc]; decide)]
      rfl
    · split at h
      · rename_i hc
        simp at h; subst h
        rw [if_pos (Or.inr (Or.inr hc)), List.singleton_append]
        have := alnum_range hc
        rw [decode_plain]
        · rfl
        · intro e; subst e; simp at this
        · intro e; subst e; simp at this
      · rename_i h1 h2 h3
        rw [if_neg (by simp [h1, h2, h3])]
        exact (pairs_decode _ _ e r (Nat.le_refl _) (hexStr_hex _) h).1

theorem encode_decode (s : Str) : ∀ (e r : Str), encodeQuery s = .ok e →
    decodeBytes (e ++ r) = s.flatMap charBytes ++ decodeBytes r := by
  induction s with
  | nil => intro e r h; simp [encodeQuery] at h; subst h; rfl
  | cons c cs ih =>
    intro e r h
    simp only [encodeQuery] at h
    cases hc : encodeChar c with
    | err => simp [hc] at h
    | panic => simp [hc] at h
    | ok a =>
      simp only [hc, Res.bind_ok, Res.map_eq_ok] at h
      obtain ⟨b, h1, rfl⟩ := h
      rw [List.append_assoc, encodeChar_decode c a _ hc, ih b r h1, List.flatMap_cons, List.append_assoc]

/-- Hexadecimal digit counts by magnitude. -/
theorem hexStr_length (n : Nat) : (n < 16 → (hexStr n).length = 1) ∧ (16 ≤ n → n < 256 → (hexStr n).length = 2) ∧
    (256 ≤ n → n < 4096 → (hexStr n).length = 3) ∧ (4096 ≤ n → n < 65536 → (hexStr n).length = 4) ∧
    (65536 ≤ n → n < 1048576 → (hexStr n).length = 5) ∧ (1048576 ≤ n → n < 16777216 → (hexStr n).length = 6) := by
  obtain ⟨_, h0, h1, h2⟩ := hexStrF_spec n n (Nat.le_refl _)
  have e : hexStr n = hexStrF n n := rfl
  rw [e]
  have h0' : 0 < (hexStrF n n).length := List.length_pos_iff.2 h0
  refine ⟨?_, ?_, ?_, ?_, ?_, ?_⟩
  · intro h; have := h1 0 (by simpa using h); omega
  · intro ha hb; have := h1 1 (by simpa using hb); have := h2 1 (by simpa using ha); omega
  · intro ha hb; have := h1 2 (by simpa using hb); have := h2 2 (by simpa using ha); omega
  · intro ha hb; have := h1 3 (by simpa using hb); have := h2 3 (by simpa using ha); omega
  · intro ha hb; have := h1 4 (by simpa using hb); have := h2 4 (by simpa using ha); omega
  · intro ha hb; have := h1 5 (by simpa using hb); have := h2 5 (by simpa using ha); omega

theorem toNat_lt (c : Char) : c.toNat < 1114112 := by
  rcases c.valid with h | h
  · have : c.toNat < 0xd800 := h
    omega
  · exact h.2

/-- Code points whose hexadecimal form has an odd number of digits. -/
def OddHex (n : Nat) : Prop := n < 0x10 ∨ (0x100 ≤ n ∧ n < 0x1000) ∨ (0x10000 ≤ n ∧ n < 0x100000)

theorem encodeChar_panic (c : Char) : (OddHex c.toNat → encodeChar c = .panic) ∧
    (¬ OddHex c.toNat → ∃ e, encodeChar c = .ok e) := by
  have hm := toNat_lt c
  obtain ⟨l1, l2, l3, l4, l5, l6⟩ := hexStr_length c.toNat
  have ev := pairs_even _ (hexStr c.toNat) (Nat.le_refl _)
  unfold encodeChar OddHex
  constructor
  · intro h
    rw [if_neg, if_neg, if_neg]
    · apply ev.2
      by_cases a : c.toNat < 16
      · rw [l1 a]
      · by_cases b : c.toNat < 4096
        · rw [l3 (by omega) b]
        · rw [l5 (by omega) (by omega)]
    · intro ha; have := alnum_range ha; omega
    · intro e; subst e; simp at h
    · intro e; subst e; simp at h
  · intro h
    split
    · exact ⟨_, rfl⟩
    · split
      · exact ⟨_, rfl⟩
      · split
        · exact ⟨_, rfl⟩
        · apply ev.1
          by_cases a : c.toNat < 256
          · rw [l2 (by omega) a]
          · by_cases b : c.toNat < 65536
            · rw [l4 (by omega) b]
            · rw [l6 (by omega) (by omega)]

/-! ## C29 Query string round trip -/

/-- C29 (panic): encoding a value panics exactly if it contains a character whose code point has an odd number
of hexadecimal digits (for example every tab and newline, and `Ā`). -/
theorem C29_encode_panics_iff (v : Str) :
    encodeQuery v = .panic ↔ ∃ c ∈ v, OddHex c.toNat := by
  have noerr : ∀ c, encodeChar c ≠ .err := by
    intro c h
    by_cases ho : OddHex c.toNat
    · rw [(encodeChar_panic c).1 ho] at h; exact absurd h (by simp)
    · obtain ⟨e, he⟩ := (encodeChar_panic c).2 ho
      rw [he] at h; exact absurd h (by simp)
  induction v with
  | nil => simp [encodeQuery]
  | cons c cs ih =>
    simp only [encodeQuery]
    by_cases ho : OddHex c.toNat
    · rw [(encodeChar_panic c).1 ho]
      simp only [Res.bind_panic, true_iff]
      exact ⟨c, by simp, ho⟩
    · obtain ⟨e, he⟩ := (encodeChar_panic c).2 ho
      rw [he, Res.bind_ok, Res.map_eq_panic]
      refine Iff.trans ih ?_
      constructor
      · rintro ⟨d, h1, h2⟩; exact ⟨d, by simp [h1], h2⟩
      · rintro ⟨d, h1, h2⟩
        rcases List.mem_cons.1 h1 with rfl | h1
        · exact absurd h2 ho
        · exact ⟨d, h1, h2⟩

theorem encode_ok (v : Str) (h : ∀ c ∈ v, ¬ OddHex c.toNat) : ∃ e, encodeQuery v = .ok e := by
  induction v with
  | nil => exact ⟨[], rfl⟩
  | cons c cs ih =>
    obtain ⟨a, ha⟩ := (encodeChar_panic c).2 (h c (by simp))
    obtain ⟨b, hb⟩ := ih (fun d hd => h d (by simp [hd]))
    exact ⟨a ++ b, by simp [encodeQuery, ha, hb]⟩

theorem charBytes_length (c : Char) (h : ¬ OddHex c.toNat) :
    (charBytes c).length ≤ (String.utf8EncodeChar c).length ∧
    (128 ≤ c.toNat → (charBytes c).length < (String.utf8EncodeChar c).length) := by
  rw [String.length_utf8EncodeChar]
  obtain ⟨u1, u2, u3⟩ := utf8Size_le c
  have hm := toNat_lt c
  unfold charBytes
  split
  · rename_i hc
    refine ⟨u2, ?_⟩
    intro h128
    rcases hc with rfl | rfl | hc
    · simp at h128
    · simp at h128
    · have := alnum_range hc; omega
  · obtain ⟨e, he⟩ := (pairs_even _ (hexStr c.toNat) (Nat.le_refl _)).1 (by
      obtain ⟨l1, l2, l3, l4, l5, l6⟩ := hexStr_length c.toNat
      unfold OddHex at h
      by_cases a : c.toNat < 256
      · rw [l2 (by omega) a]
      · by_cases b : c.toNat < 65536
        · rw [l4 (by omega) b]
        · rw [l6 (by omega) (by omega)])
    have hl := (pairs_decode _ _ e [] (Nat.le_refl _) (hexStr_hex c.toNat) he).2
    obtain ⟨l1, l2, l3, l4, l5, l6⟩ := hexStr_length c.toNat
    unfold OddHex at h
    by_cases a : c.toNat < 256
    · rw [l2 (by omega) a] at hl
      refine ⟨by omega, ?_⟩
      intro h128
      rcases u3 h128 with h | h | h <;> omega
    · by_cases b : c.toNat < 65536
      · rw [l4 (by omega) b] at hl
        rcases u3 (by omega) with h | h | h <;> omega
      · rw [l6 (by omega) (by omega)] at hl
        rcases u3 (by omega) with h | h | h <;> omega

theorem charBytes_ascii (c : Char) (h1 : 16 ≤ c.toNat) (h2 : c.toNat < 128) : charBytes c = [asU8 c] := by
  unfold charBytes
  split
  · rfl
  · have key : ∀ n, n < 128 → 16 ≤ n → pairBytes (hexStr n) = [UInt8.ofNat n] := by decide +kernel
    exact key c.toNat h2 h1

/-- C29 (values): a value survives encoding and decoding exactly if all its characters are ASCII and none is a
control character below U+0010. -/
theorem C29_value_iff (v : Str) :
    (∃ e, encodeQuery v = .ok e ∧ decodeQuery e = some v) ↔ ∀ c ∈ v, 0x10 ≤ c.toNat ∧ c.toNat < 0x80 := by
  constructor
  · rintro ⟨e, h1, h2⟩
    have hodd : ∀ c ∈ v, ¬ OddHex c.toNat := by
      intro c hc ho
      have := (C29_encode_panics_iff v).2 ⟨c, hc, ho⟩
      rw [h1] at this; exact absurd this (by simp)
    unfold decodeQuery at h2
    rw [fromUtf8_iff] at h2
    have h3 := encode_decode v e [] h1
    simp only [List.append_nil, show decodeBytes [] = [] from rfl] at h3
    rw [h3] at h2
    have hlen := congrArg List.length h2
    have key : ∀ l : Str, (∀ c ∈ l, ¬ OddHex c.toNat) →
        (l.flatMap charBytes).length ≤ (l.flatMap String.utf8EncodeChar).length ∧
        ((l.flatMap String.utf8EncodeChar).length = (l.flatMap charBytes).length → ∀ c ∈ l, c.toNat < 128) := by
      intro l
      induction l with
      | nil => intro _; simp
      | cons c cs ih =>
        intro hl
        obtain ⟨i1, i2⟩ := ih (fun d hd => hl d (by simp [hd]))
        obtain ⟨c1, c2⟩ := charBytes_length c (hl c (by simp))
        simp only [List.flatMap_cons, List.length_append]
        refine ⟨by omega, ?_⟩
        intro he d hd
        have hc : c.toNat < 128 := by
          rcases Nat.lt_or_ge c.toNat 128 with h | h
          · exact h
          · have := c2 h; omega
        rcases List.mem_cons.1 hd with rfl | hd
        · exact hc
        · exact i2 (by omega) d hd
    intro c hc
    refine ⟨?_, (key v hodd).2 hlen c hc⟩
    have := hodd c hc
    unfold OddHex at this
    omega
  · intro h
    obtain ⟨e, he⟩ := encode_ok v (by
      intro c hc ho
      have := h c hc
      unfold OddHex at ho
      omega)
    refine ⟨e, he, ?_⟩
    unfold decodeQuery
    rw [fromUtf8_iff]
    have h3 := encode_decode v e [] he
    simp only [List.append_nil, show decodeBytes [] = [] from rfl] at h3
    rw [h3]
    clear h3 he
    induction v with
    | nil => rfl
    | cons c cs ih =>
      obtain ⟨h1, h2⟩ := h c (by simp)
      rw [List.flatMap_cons, List.flatMap_cons, utf8_ascii h2, charBytes_ascii c h1 h2,
        ih (fun d hd => h d (by simp [hd]))]

example : ∃ e, encodeQuery "a b&c=d%/".toList = .ok e ∧ decodeQuery e = some "a b&c=d%/".toList :=
  (C29_value_iff _).2 (by decide)

/-- A non-ASCII value does not survive: `é` is written `%e9`, which is not UTF-8. -/
example : ¬ ∃ e, encodeQuery "é".toList = .ok e ∧ decodeQuery e = some "é".toList := by
  rw [C29_value_iff]; decide

/-- A newline makes the encoder panic. -/
example : encodeQuery "a\nb".toList = .panic := (C29_encode_panics_iff _).2 ⟨'\n', by decide, by unfold OddHex; decide⟩

/-- Decoding itself is lossy on text that is not percent encoded: `Ł` (U+0141) reads as `A`. -/
theorem C29_decode_truncates : decodeQuery "Ł".toList = some "A".toList := by
  unfold decodeQuery
  rw [fromUtf8_iff]
  decide

/-! ### Whole query strings -/

theorem splitOn_self (c : Char) (s : Str) (h : c ∉ s) : splitOn c s = [s] := by
  induction s with
  | nil => rfl
  | cons x xs ih =>
    simp only [List.mem_cons, not_or] at h
    simp [splitOn, Ne.symm h.1, ih h.2]

theorem splitOn_join (c : Char) (l : List Str) (hne : l ≠ []) (h : ∀ s ∈ l, c ∉ s) :
    splitOn c (joinWith [c] l) = l := by
  induction l with
  | nil => exact absurd rfl hne
  | cons x xs ih =>
    cases xs with
    | nil => exact splitOn_self c x (h x (by simp))
    | cons y ys =>
      simp only [joinWith]
      rw [List.append_assoc, List.singleton_append, HeaderProps.splitOn_append, splitOn_self c x (h x (by simp)),
        ih (by simp) (fun s hs => h s (by simp [hs]))]
      rfl

theorem splitOnce_append (c : Char) (k e : Str) (h : c ∉ k) : splitOnce c (k ++ c :: e) = some (k, e) := by
  induction k with
  | nil => simp [splitOnce]
  | cons x xs ih =>
    simp only [List.mem_cons, not_or] at h
    simp [splitOnce, Ne.symm h.1, ih h.2]

theorem splitOnce_none (c : Char) (k : Str) (h : c ∉ k) : splitOnce c k = none := by
  induction k with
  | nil => rfl
  | cons x xs ih =>
    simp only [List.mem_cons, not_or] at h
    simp [splitOnce, Ne.symm h.1, ih h.2]

/-- Names that can be written unencoded: ASCII without `& = % +`. -/
def PlainName (k : Str) : Prop := k ≠ [] ∧ ∀ c ∈ k, c.toNat < 0x80 ∧ c ≠ '&' ∧ c ≠ '=' ∧ c ≠ '%' ∧ c ≠ '+'

/-- Values that survive the encoding (see `C29_value_iff`). -/
def PlainValue (v : Str) : Prop := ∀ c ∈ v, 0x10 ≤ c.toNat ∧ c.toNat < 0x80

theorem decodeOr_name (k : Str) (h : PlainName k) : decodeOr k = k := by
  have : decodeQuery k = some k := by
    unfold decodeQuery
    rw [fromUtf8_iff]
    replace h := h.2
    induction k with
    | nil => rfl
    | cons c cs ih =>
      obtain ⟨h1, _, _, h4, h5⟩ := h c (by simp)
      rw [List.flatMap_cons, utf8_ascii h1, decode_plain h4 h5, ih (fun d hd => h d (by simp [hd]))]
      rfl
  simp [decodeOr, this]

theorem pairs_chars (n : Nat) : ∀ (ds e : Str), ds.length ≤ n → (∀ c ∈ ds, IsHex c) → pairs ds = .ok e →
    ∀ c ∈ e, c = '%' ∨ IsHex c := by
  induction n with
  | zero =>
    intro ds e hl _ h
    cases ds with
    | nil => simp [pairs] at h; subst h; simp
    | cons a as => simp at hl
  | succ n ih =>
    intro ds e hl hh h
    cases ds with
    | nil => simp [pairs] at h; subst h; simp
    | cons a as => cases as with
      | nil => simp [pairs] at h
      | cons b bs =>
        simp only [pairs, Res.map_eq_ok] at h
        obtain ⟨e', h1, rfl⟩ := h
        simp only [List.length_cons] at hl
        intro c hc
        simp only [List.mem_cons] at hc
        rcases hc with rfl | rfl | rfl | hc
        · exact Or.inl rfl
        · exact Or.inr (hh _ (by simp))
        · exact Or.inr (hh _ (by simp))
        · exact ih bs e' (by omega) (fun c hc => hh c (by simp [hc])) h1 c hc

theorem encode_no_amp (v e : Str) (h : encodeQuery v = .ok e) : '&' ∉ e := by
  induction v generalizing e with
  | nil => simp [encodeQuery] at h; subst h; simp
  | cons c cs ih =>
    simp only [encodeQuery] at h
    cases hc : encodeChar c with
    | err => simp [hc] at h
    | panic => simp [hc] at h
    | ok a =>
      simp only [hc, Res.bind_ok, Res.map_eq_ok] at h
      obtain ⟨b, h1, rfl⟩ := h
      intro hm
      rcases List.mem_append.1 hm with hm | hm
      · unfold encodeChar at hc
        split at hc
        · simp at hc; subst hc; simp at hm
        · split at hc
          · rename_i hd; simp at hc; subst hc; subst hd; simp at hm
          · split at hc
            · rename_i hd; simp at hc; subst hc
              simp at hm; subst hm; simp [asciiAlnum] at hd
            · rcases pairs_chars _ _ _ (Nat.le_refl _) (hexStr_hex _) hc '&' hm with h | ⟨n, hn, h⟩
              · exact absurd h (by decide)
              · have : ∀ n, n < 16 → '&' ≠ Json.hexDigit n := by decide
                exact this n hn h
      · exact ih b h1 hm

/-- The text of one occurrence, for plain names and values. -/
theorem paramText_ok (k : Str) (hk : PlainName k) (v : Option Str) (hv : ∀ s, v = some s → PlainValue s) :
    ∃ t, paramText k v = .ok t ∧ '&' ∉ t ∧ t ≠ [] ∧ ∀ m, parseStep m t = pushValue k v m := by
  have heq : '=' ∉ k := fun h => (hk.2 _ h).2.2.1 rfl
  have hamp : '&' ∉ k := fun h => (hk.2 _ h).2.1 rfl
  cases v with
  | none =>
    refine ⟨k, rfl, hamp, hk.1, ?_⟩
    intro m
    unfold parseStep
    rw [if_neg (by simpa using hk.1), splitOnce_none _ _ heq]
    simp [decodeOr_name k hk]
  | some s =>
    obtain ⟨e, h1, h2⟩ := (C29_value_iff s).2 (hv s rfl)
    refine ⟨k ++ '=' :: e, by simp [paramText, h1], ?_, by simp, ?_⟩
    · simp only [List.mem_append, List.mem_cons, not_or]
      exact ⟨hamp, by decide, encode_no_amp s e h1⟩
    · intro m
      unfold parseStep
      rw [if_neg (by simp), splitOnce_append _ _ _ heq]
      have h3 : decodeOr e = s := by simp [decodeOr, h2]
      simp only [decodeOr_name k hk, h3]

theorem collect_params (ps : List (Str × Option Str))
    (h : ∀ p ∈ ps, PlainName p.1 ∧ ∀ s, p.2 = some s → PlainValue s) :
    ∃ ts, collectRes (ps.map (fun p => paramText p.1 p.2)) = .ok ts ∧ (∀ t ∈ ts, '&' ∉ t ∧ t ≠ []) ∧
      ts.length = ps.length ∧
      ∀ m, ts.foldl parseStep m = ps.foldl (fun m p => pushValue p.1 p.2 m) m := by
  induction ps with
  | nil => exact ⟨[], rfl, by simp, rfl, fun m => rfl⟩
  | cons p ps ih =>
    obtain ⟨ts, h1, h2, h3, h4⟩ := ih (fun q hq => h q (by simp [hq]))
    obtain ⟨hk, hv⟩ := h p (by simp)
    obtain ⟨t, g1, g2, g3, g4⟩ := paramText_ok p.1 hk p.2 hv
    refine ⟨t :: ts, ?_, ?_, by simp [h3], ?_⟩
    · simp [collectRes, g1, h1]
    · intro x hx
      rcases List.mem_cons.1 hx with rfl | hx
      · exact ⟨g2, g3⟩
      · exact h2 x hx
    · intro m
      rw [List.foldl_cons, List.foldl_cons, g4, h4]

/-- The values recorded under a name. -/
def valuesOf (q : Str) (m : QueryMap) : List (Option Str) := (Json.lookup q m).getD []

theorem lookup_push (k : Str) (v : Option Str) (m : QueryMap) (q : Str) :
    Json.lookup q (pushValue k v m) =
      if k = q then some (valuesOf q m ++ [v]) else Json.lookup q m := by
  unfold valuesOf
  induction m with
  | nil => simp [pushValue, Json.lookup]
  | cons e es ih =>
    obtain ⟨k', vs⟩ := e
    simp only [pushValue]
    split
    · rename_i h
      subst h
      simp only [Json.lookup]
      by_cases hq : k' = q <;> simp [hq]
    · rename_i h
      simp only [Json.lookup, ih]
      by_cases hq : k' = q
      · subst hq; simp [Ne.symm h]
      · simp [hq]

theorem foldl_push (ps : List (Str × Option Str)) : ∀ (m : QueryMap) (q : Str),
    Json.lookup q (ps.foldl (fun m p => pushValue p.1 p.2 m) m) =
      if (ps.filter (fun p => decide (p.1 = q))).isEmpty then Json.lookup q m
      else some (valuesOf q m ++ (ps.filter (fun p => decide (p.1 = q))).map (·.2)) := by
  induction ps with
  | nil => intro m q; simp
  | cons p ps ih =>
    intro m q
    rw [List.foldl_cons, ih, lookup_push]
    by_cases h : p.1 = q
    · simp only [h, if_true, List.filter_cons, decide_true]
      have hv : valuesOf q (pushValue p.1 p.2 m) = valuesOf q m ++ [p.2] := by
        rw [valuesOf, lookup_push]; simp [h]
      rw [h] at hv
      by_cases he : (ps.filter (fun p => decide (p.1 = q))).isEmpty = true
      · simp only [he, if_true, List.isEmpty_cons]
        rw [List.isEmpty_iff] at he
        simp [he]
      · simp [he, hv]
    · simp only [h, if_false, List.filter_cons, decide_false]
      have hv : valuesOf q (pushValue p.1 p.2 m) = valuesOf q m := by
        rw [valuesOf, lookup_push]; simp [h, valuesOf]
      rw [hv]
      simp

theorem filter_occurrences (m : QueryMap) (hn : (m.map (·.1)).Nodup) (q : Str) :
    ((m.flatMap (fun e => e.2.map (fun v => (e.1, v)))).filter (fun p => decide (p.1 = q))).map (·.2)
      = valuesOf q m := by
  unfold valuesOf
  induction m with
  | nil => rfl
  | cons e es ih =>
    obtain ⟨k, vs⟩ := e
    rw [List.map_cons, List.nodup_cons] at hn
    simp only [List.flatMap_cons, List.filter_append, List.map_append, ih hn.2, Json.lookup]
    by_cases h : k = q
    · subst h
      have h1 : Json.lookup k es = none := by
        cases hl : Json.lookup k es with
        | none => rfl
        | some v => exact absurd (List.mem_map.2 ⟨_, Json.lookup_mem hl, rfl⟩) hn.1
      simp only [h1, if_true, Option.getD_none, List.append_nil, Option.getD_some]
      clear ih hn h1
      induction vs with
      | nil => rfl
      | cons v vs ih2 => simpa [List.filter_cons] using ih2
    · have : (vs.map (fun v => (k, v))).filter (fun p => decide (p.1 = q)) = [] := by
        rw [List.filter_eq_nil_iff]
        intro p hp
        obtain ⟨v, _, rfl⟩ := List.mem_map.1 hp
        simpa using h
      simp [this, h]

/-- C29 (partial: the full claim, for every map, is false, see `C29_roundtrip_fails`): a non-empty query map
whose names are ASCII without `& = % +`, whose value lists are non-empty and whose values survive the encoding
is written without a panic, and reading the text back gives the same map. -/
theorem C29_roundtrip_partial (m : QueryMap) (hn : (m.map (·.1)).Nodup) (hne : m ≠ [])
    (hk : ∀ e ∈ m, PlainName e.1 ∧ e.2 ≠ [] ∧ ∀ s, some s ∈ e.2 → PlainValue s) :
    ∃ text m', queryToJsonV2 m = .ok (.str text) ∧ queryFromJsonV2 (.str text) = some m' ∧
      ∀ q, Json.lookup q m' = Json.lookup q m := by
  have hfil : m.filter (fun e => !e.1.isEmpty) = m := by
    rw [List.filter_eq_self]
    intro e he
    have := (hk e he).1.1
    cases h : e.1 with
    | nil => exact absurd h this
    | cons a as => rfl
  have hS := OMap.collect_sorted m
  have hLk := OMap.lookup_collect m hn
  have hNd : ((OMap.collect m).map (·.1)).Nodup := hS.nodup
  have hmem : ∀ e ∈ OMap.collect m, e ∈ m := by
    intro e he
    have := Json.lookup_of_mem hNd (k := e.1) (v := e.2) he
    rw [hLk] at this
    exact Json.lookup_mem this
  let ps := (OMap.collect m).flatMap (fun e => e.2.map (fun v => (e.1, v)))
  have hps : (OMap.collect m).flatMap (fun e => e.2.map (paramText e.1)) =
      ps.map (fun p => paramText p.1 p.2) := by
    simp only [ps, List.map_flatMap, List.map_map]
    rfl
  obtain ⟨ts, h1, h2, h3, h4⟩ := collect_params ps (by
    intro p hp
    obtain ⟨e, he, hp⟩ := List.mem_flatMap.1 hp
    obtain ⟨v, hv, rfl⟩ := List.mem_map.1 hp
    obtain ⟨g1, g2, g3⟩ := hk e (hmem e he)
    exact ⟨g1, fun s hs => g3 s (hs ▸ hv)⟩)
  have hpsne : ps ≠ [] := by
    cases m with
    | nil => exact absurd rfl hne
    | cons e es =>
      have hl : Json.lookup e.1 (OMap.collect (e :: es)) = some e.2 := by
        rw [hLk]; exact Json.lookup_of_mem hn (by simp)
      have := Json.lookup_mem hl
      have hv := (hk e (by simp)).2.1
      intro h0
      cases hvs : e.2 with
      | nil => exact hv hvs
      | cons v vs =>
        have : (e.1, v) ∈ ps := List.mem_flatMap.2 ⟨_, this, List.mem_map.2 ⟨v, by simp [hvs], rfl⟩⟩
        rw [h0] at this
        exact absurd this (by simp)
  have htsne : ts ≠ [] := by
    intro h; rw [h] at h3; exact hpsne (List.length_eq_zero_iff.1 h3.symm)
  have hbuild : buildQueryString m = .ok (joinWith ['&'] ts) := by
    unfold buildQueryString
    rw [hfil, hps, h1]
    rfl
  have hjne : (joinWith ['&'] ts).isEmpty = false := by
    cases ts with
    | nil => exact absurd rfl htsne
    | cons t ts =>
      have := (h2 t (by simp)).2
      cases ts with
      | nil => cases t with
        | nil => exact absurd rfl this
        | cons a as => rfl
      | cons y ys => cases t with
        | nil => exact absurd rfl this
        | cons a as => rfl
  refine ⟨joinWith ['&'] ts, ps.foldl (fun m p => pushValue p.1 p.2 m) [], ?_, ?_, ?_⟩
  · simp [queryToJsonV2, hbuild]
  · simp only [queryFromJsonV2, parseQueryString, hjne, Bool.false_eq_true, if_false]
    rw [splitOn_join '&' ts htsne (fun t ht => (h2 t ht).1), h4]
  · intro q
    rw [foldl_push]
    have hf := filter_occurrences (OMap.collect m) hNd q
    have hv : valuesOf q (OMap.collect m) = (Json.lookup q m).getD [] := by rw [valuesOf, hLk]
    show (if (ps.filter (fun p => decide (p.1 = q))).isEmpty = true then _ else _) = _
    have hf' : (ps.filter (fun p => decide (p.1 = q))).map (·.2) = (Json.lookup q m).getD [] := by
      rw [← hv, ← hf]
    cases hl : Json.lookup q m with
    | none =>
      rw [hl] at hf'
      have : ps.filter (fun p => decide (p.1 = q)) = [] := List.map_eq_nil_iff.1 hf'
      rw [this]; rfl
    | some vs =>
      rw [hl] at hf'
      have hvs := (hk _ (Json.lookup_mem hl)).2.1
      have hne : (ps.filter (fun p => decide (p.1 = q))).isEmpty = false := by
        cases hx : ps.filter (fun p => decide (p.1 = q)) with
        | nil => rw [hx] at hf'; exact absurd hf'.symm hvs
        | cons a as => rfl
      rw [if_neg (by simp [hne]), hf']
      rfl

example : ([("a".toList, [some "b c&".toList, none]), ("x-y".toList, [some []])] : QueryMap) ≠ [] ∧
    ∀ e ∈ ([("a".toList, [some "b c&".toList, none]), ("x-y".toList, [some []])] : QueryMap),
      PlainName e.1 ∧ e.2 ≠ [] ∧ ∀ s, some s ∈ e.2 → PlainValue s := by
  refine ⟨by decide, ?_⟩
  intro e he
  simp only [List.mem_cons, List.not_mem_nil, or_false] at he
  rcases he with rfl | rfl
  · refine ⟨by unfold PlainName; decide, by decide, ?_⟩
    intro s hs
    simp at hs
    subst hs
    unfold PlainValue; decide
  · refine ⟨by unfold PlainName; decide, by decide, ?_⟩
    intro s hs
    simp at hs
    subst hs
    unfold PlainValue; decide

/-- The unrestricted claim fails: names are written unencoded (`a&b` splits in two, `a+b` reads as `a b`), a
name without values or an empty name disappears, and non-ASCII values come back percent-encoded. -/
theorem C29_roundtrip_fails :
    (buildQueryString [("a&b".toList, [some "1".toList])] = .ok "a&b=1".toList ∧
      parseQueryString "a&b=1".toList = some [("a".toList, [none]), ("b".toList, [some "1".toList])])
    ∧ (buildQueryString [("a+b".toList, [none])] = .ok "a+b".toList ∧
      (parseQueryString "a+b".toList).map (fun m => m.map (·.1)) = some ["a b".toList])
    ∧ buildQueryString [("a".toList, [])] = .ok []
    ∧ buildQueryString [([], [some "1".toList])] = .ok []
    ∧ parseQueryString [] = none := by
  have ascii : ∀ s t : Str, t.flatMap String.utf8EncodeChar = decodeBytes s → decodeOr s = t := by
    intro s t h
    have : decodeQuery s = some t := by unfold decodeQuery; rw [fromUtf8_iff]; exact h
    simp [decodeOr, this]
  refine ⟨⟨by decide, ?_⟩, ⟨by decide, ?_⟩, by decide, by decide, by decide⟩
  · have h1 := ascii "a".toList "a".toList (by decide)
    have h2 := ascii "b".toList "b".toList (by decide)
    have h3 := ascii "1".toList "1".toList (by decide)
    have hs : splitOn '&' "a&b=1".toList = ["a".toList, "b=1".toList] := by decide
    have e1 : splitOnce '=' "a".toList = none := by decide
    have e2 : splitOnce '=' "b=1".toList = some ("b".toList, "1".toList) := by decide
    unfold parseQueryString
    rw [if_neg (by decide), hs]
    simp only [List.foldl_cons, List.foldl_nil]
    unfold parseStep
    rw [if_neg (by decide), if_neg (by decide), e1, e2]
    simp only [h1, h2, h3]
    decide
  · have h1 := ascii "a+b".toList "a b".toList (by decide)
    have hs : splitOn '&' "a+b".toList = ["a+b".toList] := by decide
    have e1 : splitOnce '=' "a+b".toList = none := by decide
    unfold parseQueryString
    rw [if_neg (by decide), hs]
    simp only [List.foldl_cons, List.foldl_nil]
    unfold parseStep
    rw [if_neg (by decide), e1]
    simp only [h1]
    decide

/-- C29 (V3 and V4 files): the query is written as JSON, and reading it back gives the same map, for every
query map. -/
theorem C29_v3_roundtrip (m : QueryMap) (hn : (m.map (·.1)).Nodup) :
    ∃ m', v3QueryFromJson (queryToJsonV3 m) = some m' ∧ ∀ q, Json.lookup q m' = Json.lookup q m := by
  refine ⟨_, rfl, ?_⟩
  intro q
  rw [OMap.lookup_mapVals (fun _ v => queryEntryFromJson v),
    OMap.lookup_collect _ (by rw [List.map_map]; exact hn)]
  rw [OMap.lookup_mapVals (fun _ (v : List (Option Str)) => Json.arr (v.map _)) m q]
  cases Json.lookup q m with
  | none => rfl
  | some vs =>
    simp only [Option.map_some, queryEntryFromJson, List.map_map]
    congr 1
    conv => rhs; rw [← List.map_id vs]
    refine List.map_congr_left (fun v _ => ?_)
    cases v <;> rfl

/-- A number in a V3 query array is read as the text of the whole array. -/
theorem C29_v3_number_item : v3QueryFromJson (.obj [("a".toList, .arr [.num (.pos 1), .str "x".toList])])
    = some [("a".toList, [some "[1,\"x\"]".toList, some "x".toList])] := by decide

/-! ## C30 Header round trip -/

theorem trim_eq (uc : UC) (s : Str) : trim uc s = ((s.dropWhile uc.white).reverse.dropWhile uc.white).reverse := rfl

theorem dropWhile_head (p : Char → Bool) (s : Str) : ∀ c ∈ (s.dropWhile p).head?, p c = false := by
  induction s with
  | nil => simp
  | cons x xs ih =>
    intro c hc
    by_cases h : p x = true
    · rw [List.dropWhile_cons_of_pos h] at hc; exact ih c hc
    · rw [List.dropWhile_cons_of_neg h] at hc
      simp at hc; subst hc; simpa using h

theorem dropWhile_self (p : Char → Bool) (s : Str) (h : ∀ c ∈ s.head?, p c = false) : s.dropWhile p = s := by
  cases s with
  | nil => rfl
  | cons x xs => rw [List.dropWhile_cons_of_neg]; simpa using h x (by simp)

theorem dropWhile_suffix' (p : Char → Bool) (s : Str) : ∃ a, s = a ++ s.dropWhile p :=
  ⟨s.takeWhile p, (List.takeWhile_append_dropWhile).symm⟩

theorem trim_idem (uc : UC) (s : Str) : trim uc (trim uc s) = trim uc s := by
  have key : ∀ c ∈ (trim uc s).head?, uc.white c = false := by
    intro c hc
    rw [trim_eq] at hc
    obtain ⟨a, ha⟩ := dropWhile_suffix' uc.white (s.dropWhile uc.white).reverse
    have h2 : s.dropWhile uc.white = ((s.dropWhile uc.white).reverse.dropWhile uc.white).reverse ++ a.reverse := by
      have := congrArg List.reverse ha
      simpa using this
    refine dropWhile_head uc.white s c ?_
    rw [h2]
    cases hx : ((s.dropWhile uc.white).reverse.dropWhile uc.white).reverse with
    | nil => rw [hx] at hc; simp at hc
    | cons x xs => rw [hx] at hc; simpa using hc
  rw [trim_eq uc (trim uc s), dropWhile_self _ _ key, trim_eq, List.reverse_reverse,
    dropWhile_self _ _ (dropWhile_head _ _)]

theorem mem_trim {uc : UC} {s : Str} {c : Char} (h : c ∈ trim uc s) : c ∈ s := by
  rw [trim_eq, List.mem_reverse] at h
  obtain ⟨a, ha⟩ := dropWhile_suffix' uc.white (s.dropWhile uc.white).reverse
  obtain ⟨b, hb⟩ := dropWhile_suffix' uc.white s
  have : c ∈ (s.dropWhile uc.white).reverse := by rw [ha]; exact List.mem_append_right _ h
  rw [List.mem_reverse] at this
  rw [hb]; exact List.mem_append_right _ this

theorem trim_space (uc : UC) (s : Str) : trim uc (' ' :: s) = trim uc s := by
  have : uc.white ' ' = true := by rw [uc.white_ascii _ (by decide)]; decide
  rw [trim_eq, List.dropWhile_cons_of_pos this, trim_eq]

theorem splitOn_no_sep (c : Char) (s : Str) : ∀ p ∈ splitOn c s, c ∉ p := by
  induction s with
  | nil => simp [splitOn]
  | cons x xs ih =>
    simp only [splitOn]
    split
    · intro p hp
      rcases List.mem_cons.1 hp with rfl | hp
      · simp
      · exact ih p hp
    · rename_i h
      split
      · intro p hp; simp at hp; subst hp; simpa using Ne.symm h
      · rename_i q qs hq
        intro p hp
        rcases List.mem_cons.1 hp with rfl | hp
        · simp only [List.mem_cons, not_or]
          exact ⟨Ne.symm h, ih q (by rw [hq]; simp)⟩
        · exact ih p (by rw [hq]; simp [hp])

theorem split_joined (uc : UC) (vs : List Str) (hne : vs ≠ []) (h : ∀ v ∈ vs, ',' ∉ v) :
    (splitOn ',' (joinWith ", ".toList vs)).map (trim uc) = vs.map (trim uc) := by
  induction vs with
  | nil => exact absurd rfl hne
  | cons x xs ih =>
    cases xs with
    | nil => simp [joinWith, splitOn_self ',' x (h x (by simp))]
    | cons y ys =>
      have hih := ih (by simp) (fun v hv => h v (by simp [hv]))
      have e : joinWith ", ".toList (x :: y :: ys) = x ++ ',' :: (' ' :: joinWith ", ".toList (y :: ys)) := by
        simp [joinWith]
      rw [e, HeaderProps.splitOn_append, splitOn_self ',' x (h x (by simp))]
      have e2 : (splitOn ',' (' ' :: joinWith ", ".toList (y :: ys))).map (trim uc)
          = (splitOn ',' (joinWith ", ".toList (y :: ys))).map (trim uc) := by
        simp only [splitOn, show ' ' ≠ ',' from by decide, if_false]
        cases hs : splitOn ',' (joinWith ", ".toList (y :: ys)) with
        | nil => exact absurd hs (HeaderProps.splitOn_ne_nil _ _)
        | cons p ps => simp [trim_space]
      rw [List.map_append, e2, hih]
      rfl

/-- C30 (one header): writing a header to a V1–V3 file and reading it back gives the same values exactly if it
has values without surrounding white space and, for the names whose values are not split (dates, cookies, user
agent), exactly one value, otherwise at least one and none containing a comma. -/
theorem C30_header_iff (uc : UC) (name : Str) (vs : List Str) :
    parseHeader uc name (joinWith ", ".toList vs) = vs ↔
      (∀ v ∈ vs, trim uc v = v) ∧
      (if singleValueHeaders.contains (uc.lower name) = true then vs.length = 1
       else vs ≠ [] ∧ ∀ v ∈ vs, ',' ∉ v) := by
  unfold parseHeader
  by_cases hs : singleValueHeaders.contains (uc.lower name) = true
  · rw [if_pos hs, if_pos hs]
    constructor
    · intro h
      rw [← h]
      exact ⟨by intro v hv; simp at hv; rw [hv, trim_idem], rfl⟩
    · rintro ⟨h1, h2⟩
      cases vs with
      | nil => simp at h2
      | cons v vs => cases vs with
        | nil => simp [joinWith, h1 v (by simp)]
        | cons a as => simp at h2
  · rw [if_neg hs, if_neg hs]
    constructor
    · intro h
      refine ⟨?_, ?_, ?_⟩
      · intro v hv
        rw [← h] at hv
        obtain ⟨p, _, rfl⟩ := List.mem_map.1 hv
        exact trim_idem uc p
      · intro h0
        rw [h0] at h
        exact HeaderProps.splitOn_ne_nil _ _ (List.map_eq_nil_iff.1 h)
      · intro v hv hc
        rw [← h] at hv
        obtain ⟨p, hp, rfl⟩ := List.mem_map.1 hv
        exact splitOn_no_sep ',' _ p hp (mem_trim hc)
    · rintro ⟨h1, h2, h3⟩
      rw [split_joined uc vs h2 h3]
      conv => rhs; rw [← List.map_id vs]
      exact List.map_congr_left (fun v hv => h1 v hv)

/-- C30 (V1 to V3 files, partial: `C30_header_iff` is the exact condition for each header and
`C30_header_fails` shows headers that do not satisfy it): a header map whose headers satisfy the condition is
read back unchanged. -/
theorem C30_headers_partial (uc : UC) (h : HeaderMap) (hn : (h.map (·.1)).Nodup)
    (hv : ∀ e ∈ h, (∀ v ∈ e.2, trim uc v = v) ∧
      (if singleValueHeaders.contains (uc.lower e.1) = true then e.2.length = 1
       else e.2 ≠ [] ∧ ∀ v ∈ e.2, ',' ∉ v)) :
    ∃ h', headersFromJson uc (some (headersToJson h)) = some h' ∧
      ∀ q, Json.lookup q h' = Json.lookup q h := by
  refine ⟨_, rfl, ?_⟩
  intro q
  rw [OMap.lookup_mapVals (fun k v => headerFromJson uc k v), OMap.lookup_collect _ (by rw [List.map_map]; exact hn)]
  rw [OMap.lookup_mapVals (fun _ (v : List Str) => Json.str (joinWith ", ".toList v)) h q]
  cases hl : Json.lookup q h with
  | none => rfl
  | some vs =>
    simp only [Option.map_some, headerFromJson]
    rw [(C30_header_iff uc q vs).2 (hv _ (Json.lookup_mem hl))]

example : ∀ e ∈ ([("Accept".toList, ["a/b".toList, "c/d;q=1".toList]),
      ("Date".toList, ["Mon, 01 Dec".toList])] : HeaderMap),
    (∀ v ∈ e.2, trim UC.ascii v = v) ∧
      (if singleValueHeaders.contains (UC.ascii.lower e.1) = true then e.2.length = 1
       else e.2 ≠ [] ∧ ∀ v ∈ e.2, ',' ∉ v) := by decide

/-- Headers that are not read back: a value containing a comma, two cookies, a header without values. -/
theorem C30_header_fails (uc : UC) :
    parseHeader uc "X".toList (joinWith ", ".toList ["a,b".toList]) ≠ ["a,b".toList]
    ∧ parseHeader uc "set-cookie".toList (joinWith ", ".toList ["a=1".toList, "b=2".toList])
        ≠ ["a=1".toList, "b=2".toList]
    ∧ parseHeader uc "X".toList (joinWith ", ".toList []) ≠ [] := by
  have hx : uc.lower "X".toList = "x".toList := by rw [uc.lower_ascii _ (by decide)]; decide
  have hc : uc.lower "set-cookie".toList = "set-cookie".toList := by rw [uc.lower_ascii _ (by decide)]; decide
  refine ⟨?_, ?_, ?_⟩ <;> rw [ne_eq, C30_header_iff]
  · rw [hx]
    intro h
    exact absurd h.2 (by decide)
  · rw [hc]
    intro h
    exact absurd h.2 (by decide)
  · rw [hx]
    intro h
    exact absurd h.2 (by decide)

/-- C30 (V4 files): headers are written as arrays, and reading them back gives the same map, for every header
map. -/
theorem C30_v4_roundtrip (uc : UC) (h : HeaderMap) (hn : (h.map (·.1)).Nodup) :
    ∃ h', headersFromJson uc (some (headersToJsonV4 h)) = some h' ∧
      ∀ q, Json.lookup q h' = Json.lookup q h := by
  refine ⟨_, rfl, ?_⟩
  intro q
  rw [OMap.lookup_mapVals (fun k v => headerFromJson uc k v), OMap.lookup_collect _ (by rw [List.map_map]; exact hn)]
  rw [OMap.lookup_mapVals (fun _ (v : List Str) => Json.arr (v.map Json.str)) h q]
  cases Json.lookup q h with
  | none => rfl
  | some vs =>
    simp only [Option.map_some, headerFromJson, List.map_map]
    congr 1
    induction vs with
    | nil => rfl
    | cons v vs ih => rw [List.map_cons, ih]; rfl

end Verif.QueryStringProps
