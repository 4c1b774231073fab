import Verif.Form
import Verif.Props.PactV3Props
import Verif.Props.EndToEndProps
import Verif.Props.LocalityProps
import Verif.Props.PartProps

/-
  C99 to C102: forms (`application/x-www-form-urlencoded`).
-/

set_option autoImplicit false

namespace Verif
namespace FormProps
open Form Path Rules Matchers Compare Query MatchResult
open PactFile (utf8)

/-! ## C99: the encoding -/

/-! ### Specification -/

/-- A hexadecimal digit and its value. -/
def Hex (b : UInt8) (n : Nat) : Prop :=
  (48 ≤ b.toNat ∧ b.toNat ≤ 57 ∧ n = b.toNat - 48) ∨ (65 ≤ b.toNat ∧ b.toNat ≤ 70 ∧ n = b.toNat - 55) ∨
  (97 ≤ b.toNat ∧ b.toNat ≤ 102 ∧ n = b.toNat - 87)

/-- `Spells r s`: the bytes `r` of a form are a spelling of the bytes `s`: `+` is a space, `%` with two digits the byte they
say, everything else itself. -/
inductive Spells : Bytes → Bytes → Prop where
  | nil : Spells [] []
  | plus (r s : Bytes) : Spells r s → Spells (43 :: r) (32 :: s)
  | raw (b : UInt8) (r s : Bytes) : b ≠ 43 → b ≠ 37 → Spells r s → Spells (b :: r) (b :: s)
  | hex (c d : UInt8) (x y : Nat) (r s : Bytes) : Hex c x → Hex d y → Spells r s →
      Spells (37 :: c :: d :: r) (UInt8.ofNat (16 * x + y) :: s)
  | percent (r s : Bytes) : (∀ c d x y r', r = c :: d :: r' → Hex c x → ¬ Hex d y) → Spells r s →
      Spells (37 :: r) (37 :: s)

/-- A piece of a form (between two `&`) that says the parameter `p`: name and value spelled, with `=` between; no `=` when
the value is empty. -/
inductive Piece : Bytes → Str × Str → Prop where
  | pair (n v : Bytes) (k s : Str) : (61 : UInt8) ∉ n → (38 : UInt8) ∉ n → (38 : UInt8) ∉ v →
      Spells n (utf8 k) → Spells v (utf8 s) → Piece (n ++ 61 :: v) (k, s)
  | bare (n : Bytes) (k : Str) : n ≠ [] → (61 : UInt8) ∉ n → (38 : UInt8) ∉ n → Spells n (utf8 k) → Piece n (k, [])

/-- A form: pieces with `&` between them; empty pieces are ignored. -/
inductive Spelled : Bytes → Params → Prop where
  | nil : Spelled [] []
  | one (b : Bytes) (p : Str × Str) : Piece b p → Spelled b [p]
  | skip (r : Bytes) (ps : Params) : Spelled r ps → Spelled (38 :: r) ps
  | cons (b r : Bytes) (p : Str × Str) (ps : Params) : Piece b p → Spelled r ps → Spelled (b ++ 38 :: r) (p :: ps)

/-! ### Proofs -/

theorem hex_iff (b : UInt8) (n : Nat) : Hex b n ↔ hexByte b = some n := by
  unfold Hex hexByte
  simp only [UInt8.le_iff_toNat_le]
  have h1 : (48 : UInt8).toNat = 48 := rfl
  have h2 : (57 : UInt8).toNat = 57 := rfl
  have h3 : (65 : UInt8).toNat = 65 := rfl
  have h4 : (70 : UInt8).toNat = 70 := rfl
  have h5 : (97 : UInt8).toNat = 97 := rfl
  have h6 : (102 : UInt8).toNat = 102 := rfl
  rw [h1, h2, h3, h4, h5, h6]
  split
  · simp only [Option.some.injEq]; omega
  · split
    · simp only [Option.some.injEq]; omega
    · split
      · simp only [Option.some.injEq]; omega
      · simp; omega

theorem percent_raw {b : UInt8} (hb : b ≠ 37) (r : Bytes) : percentDecode (b :: r) = b :: percentDecode r := by
  match r with
  | [] => rfl
  | [c] => rfl
  | c :: d :: r => rw [percentDecode, if_neg hb]

theorem percent_hex {c d n : UInt8} (h : hexPair c d = some n) (r : Bytes) :
    percentDecode (37 :: c :: d :: r) = n :: percentDecode r := by
  rw [percentDecode, if_pos rfl, h]

theorem percent_kept {r : Bytes} (h : ∀ c d r', r = c :: d :: r' → hexPair c d = none) :
    percentDecode (37 :: r) = 37 :: percentDecode r := by
  match r with
  | [] => rfl
  | [c] => rfl
  | c :: d :: r => rw [percentDecode, if_pos rfl, h c d r rfl]

theorem hexByte_unplus {c : UInt8} {x : Nat} (h : hexByte c = some x) : (if c = 43 then 32 else c) = c := by
  rw [if_neg]
  intro e
  subst e
  revert h
  decide +revert

theorem hexPair_some {c d n : UInt8} : hexPair c d = some n ↔
    ∃ x y, hexByte c = some x ∧ hexByte d = some y ∧ n = UInt8.ofNat (16 * x + y) := by
  unfold hexPair
  cases hc : hexByte c with
  | none => simp
  | some x =>
    cases hd : hexByte d with
    | none => simp
    | some y => simp [Nat.mul_comm, eq_comm]

theorem spells_decode {r s : Bytes} (h : Spells r s) : percentDecode (unplus r) = s := by
  induction h with
  | nil => rfl
  | plus r s _ ih =>
    show percentDecode (32 :: unplus r) = _
    rw [percent_raw (by decide), ih]
  | raw b r s h1 h2 _ ih =>
    have : unplus (b :: r) = b :: unplus r := by simp [unplus, h1]
    rw [this, percent_raw h2, ih]
  | hex c d x y r s h1 h2 _ ih =>
    rw [hex_iff] at h1 h2
    have : unplus (37 :: c :: d :: r) = 37 :: c :: d :: unplus r := by
      simp only [unplus, List.map_cons, hexByte_unplus h1, hexByte_unplus h2]
      rfl
    rw [this, percent_hex (hexPair_some.mpr ⟨x, y, h1, h2, rfl⟩), ih]
  | percent r s h _ ih =>
    have : unplus (37 :: r) = 37 :: unplus r := by simp [unplus]
    rw [this, percent_kept ?_, ih]
    intro c d r' e
    cases hp : hexPair c d with
    | none => rfl
    | some n =>
      exfalso
      obtain ⟨x, y, h1, h2, -⟩ := hexPair_some.mp hp
      match r, e with
      | c' :: d' :: r'', e =>
        simp only [unplus, List.map_cons, List.cons.injEq] at e
        obtain ⟨e1, e2, -⟩ := e
        have hc : c' = c := by
          by_cases hh : c' = 43
          · rw [if_pos hh] at e1
            rw [← e1] at h1
            exact absurd h1 (by rw [show hexByte 32 = none by decide]; simp)
          · rw [if_neg hh] at e1; exact e1
        have hd : d' = d := by
          by_cases hh : d' = 43
          · rw [if_pos hh] at e2
            rw [← e2] at h2
            exact absurd h2 (by rw [show hexByte 32 = none by decide]; simp)
          · rw [if_neg hh] at e2; exact e2
        subst hc; subst hd
        exact h _ _ x y r'' rfl ((hex_iff _ _).mpr h1) ((hex_iff _ _).mpr h2)

/-- Every text is a spelling of something. -/
theorem spells_total (r : Bytes) : ∃ s, Spells r s := by
  generalize hn : r.length = n
  induction n using Nat.strongRecOn generalizing r with
  | ind n ih =>
    match r with
    | [] => exact ⟨[], .nil⟩
    | b :: r =>
      simp only [List.length_cons] at hn
      obtain ⟨s, hs⟩ := ih r.length (by omega) r rfl
      by_cases h1 : b = 43
      · subst h1; exact ⟨_, .plus r s hs⟩
      · by_cases h2 : b = 37
        · subst h2
          by_cases h3 : ∃ c d x y r', r = c :: d :: r' ∧ Hex c x ∧ Hex d y
          · obtain ⟨c, d, x, y, r', rfl, hc, hd⟩ := h3
            simp only [List.length_cons] at hn
            obtain ⟨s', hs'⟩ := ih r'.length (by omega) r' rfl
            exact ⟨_, .hex c d x y r' s' hc hd hs'⟩
          · exact ⟨_, .percent r s (fun c d x y r' e hc hd => h3 ⟨c, d, x, y, r', e, hc, hd⟩) hs⟩
        · exact ⟨_, .raw b r s h1 h2 hs⟩

theorem spells_iff (r s : Bytes) : Spells r s ↔ percentDecode (unplus r) = s := by
  refine ⟨spells_decode, ?_⟩
  rintro rfl
  obtain ⟨s, hs⟩ := spells_total r
  rw [spells_decode hs]
  exact hs

theorem decode_spelled (bad : Bytes → Str) {r : Bytes} {s : Str} (h : Spells r (utf8 s)) : decodeText bad r = s := by
  unfold decodeText lossy
  rw [spells_decode h, PactV3Props.fromUtf8_utf8]
  rfl

theorem splitPair_at {n v : Bytes} (h : (61 : UInt8) ∉ n) : splitPair (n ++ 61 :: v) = (n, v) := by
  induction n with
  | nil => simp [splitPair]
  | cons b n ih =>
    have hb : b ≠ 61 := fun e => h (by simp [e])
    rw [List.cons_append, splitPair, if_neg hb, ih (fun hm => h (by simp [hm]))]

theorem splitPair_none {n : Bytes} (h : (61 : UInt8) ∉ n) : splitPair n = (n, []) := by
  induction n with
  | nil => rfl
  | cons b n ih =>
    have hb : b ≠ 61 := fun e => h (by simp [e])
    rw [splitPair, if_neg hb, ih (fun hm => h (by simp [hm]))]

theorem splitBytes_none {b : Bytes} {c : UInt8} (h : c ∉ b) : splitBytes c b = [b] := by
  induction b with
  | nil => rfl
  | cons x b ih =>
    have hb : x ≠ c := fun e => h (by simp [e])
    rw [splitBytes, if_neg hb, ih (fun hm => h (by simp [hm]))]

theorem splitBytes_at {b r : Bytes} {c : UInt8} (h : c ∉ b) : splitBytes c (b ++ c :: r) = b :: splitBytes c r := by
  induction b with
  | nil => simp [splitBytes]
  | cons x b ih =>
    have hb : x ≠ c := fun e => h (by simp [e])
    rw [List.cons_append, splitBytes, if_neg hb, ih (fun hm => h (by simp [hm]))]

theorem piece_facts {bad : Bytes → Str} {b : Bytes} {p : Str × Str} (h : Piece b p) :
    b ≠ [] ∧ (38 : UInt8) ∉ b ∧ (decodeText bad (splitPair b).1, decodeText bad (splitPair b).2) = p := by
  cases h with
  | pair n v k s h1 h2 h3 h4 h5 =>
    refine ⟨by simp, ?_, ?_⟩
    · intro hm
      rcases List.mem_append.1 hm with h | h
      · exact h2 h
      · rcases List.mem_cons.1 h with h | h
        · exact absurd h (by decide)
        · exact h3 h
    · rw [splitPair_at h1, decode_spelled bad h4, decode_spelled bad h5]
  | bare n k h1 h2 h3 h4 =>
    refine ⟨h1, h3, ?_⟩
    rw [splitPair_none h2, decode_spelled bad h4]
    rfl

/-- **C99**: a form is read as the parameters it spells, in order. -/
theorem C99_read (bad : Bytes → Str) {b : Bytes} {ps : Params} (h : Spelled b ps) : parse bad b = ps := by
  unfold parse
  induction h with
  | nil => rfl
  | one b p hp =>
    obtain ⟨h1, h2, h3⟩ := piece_facts (bad := bad) hp
    rw [splitBytes_none h2]
    simp [h1, h3]
  | skip r ps _ ih =>
    have : splitBytes 38 (38 :: r) = [] :: splitBytes 38 r := by rw [splitBytes, if_pos rfl]
    rw [this]
    simpa using ih
  | cons b r p ps hp _ ih =>
    obtain ⟨h1, h2, h3⟩ := piece_facts (bad := bad) hp
    rw [splitBytes_at h2]
    have hb : (!List.isEmpty b) = true := by simpa using h1
    rw [List.filter_cons, if_pos hb, List.map_cons, h3]
    exact congrArg _ ih

/-- All bytes. -/
theorem all_bytes {P : UInt8 → Prop} (h : ∀ n : Fin 256, P (UInt8.ofNat n.val)) (b : UInt8) : P b := by
  have := h ⟨b.toNat, b.toNat_lt⟩
  simpa using this

/-- The characters of an encoded form. -/
def Plain (c : Char) : Prop :=
  ('a' ≤ c ∧ c ≤ 'z') ∨ ('A' ≤ c ∧ c ≤ 'Z') ∨ ('0' ≤ c ∧ c ≤ '9') ∨ c ∈ ['*', '-', '.', '_', '+', '%']

instance (c : Char) : Decidable (Plain c) := by unfold Plain; infer_instance

/-- A text of plain characters as bytes. -/
def ascii (s : Str) : Bytes := s.map fun c => UInt8.ofNat c.toNat

theorem byte_facts (b : UInt8) : (∀ c ∈ byteText b, Plain c ∧ String.utf8EncodeChar c = [UInt8.ofNat c.toNat]) ∧
    ((ascii (byteText b) = [b] ∧ b ≠ 43 ∧ b ≠ 37 ∧ b ≠ 38 ∧ b ≠ 61) ∨ (ascii (byteText b) = [43] ∧ b = 32) ∨
      (ascii (byteText b) = [37, UInt8.ofNat (hexUp (b.toNat / 16)).toNat, UInt8.ofNat (hexUp (b.toNat % 16)).toNat] ∧
        hexByte (UInt8.ofNat (hexUp (b.toNat / 16)).toNat) = some (b.toNat / 16) ∧
        hexByte (UInt8.ofNat (hexUp (b.toNat % 16)).toNat) = some (b.toNat % 16) ∧
        UInt8.ofNat (16 * (b.toNat / 16) + b.toNat % 16) = b ∧
        (38 : UInt8) ∉ ascii (byteText b) ∧ (61 : UInt8) ∉ ascii (byteText b))) := by
  refine all_bytes (P := fun b => (∀ c ∈ byteText b, Plain c ∧ String.utf8EncodeChar c = [UInt8.ofNat c.toNat]) ∧
    ((ascii (byteText b) = [b] ∧ b ≠ 43 ∧ b ≠ 37 ∧ b ≠ 38 ∧ b ≠ 61) ∨ (ascii (byteText b) = [43] ∧ b = 32) ∨
      (ascii (byteText b) = [37, UInt8.ofNat (hexUp (b.toNat / 16)).toNat, UInt8.ofNat (hexUp (b.toNat % 16)).toNat] ∧
        hexByte (UInt8.ofNat (hexUp (b.toNat / 16)).toNat) = some (b.toNat / 16) ∧
        hexByte (UInt8.ofNat (hexUp (b.toNat % 16)).toNat) = some (b.toNat % 16) ∧
        UInt8.ofNat (16 * (b.toNat / 16) + b.toNat % 16) = b ∧
        (38 : UInt8) ∉ ascii (byteText b) ∧ (61 : UInt8) ∉ ascii (byteText b)))) ?_ b
  decide +kernel

theorem utf8_ascii {s : Str} (h : ∀ c ∈ s, String.utf8EncodeChar c = [UInt8.ofNat c.toNat]) : utf8 s = ascii s := by
  unfold utf8 ascii
  induction s with
  | nil => rfl
  | cons c s ih =>
    rw [List.flatMap_cons, h c (by simp), ih (fun c hc => h c (by simp [hc]))]
    rfl

theorem spells_bytes (bs : Bytes) : Spells (utf8 (bs.flatMap byteText)) bs ∧ (38 : UInt8) ∉ utf8 (bs.flatMap byteText) ∧
    (61 : UInt8) ∉ utf8 (bs.flatMap byteText) := by
  induction bs with
  | nil => exact ⟨.nil, by simp [utf8], by simp [utf8]⟩
  | cons b bs ih =>
    obtain ⟨h1, h2⟩ := byte_facts b
    have hu : utf8 ((b :: bs).flatMap byteText) = ascii (byteText b) ++ utf8 (bs.flatMap byteText) := by
      rw [List.flatMap_cons, ← utf8_ascii (fun c hc => (h1 c hc).2)]
      unfold utf8
      rw [List.flatMap_append]
    rw [hu]
    rcases h2 with ⟨e, n1, n2, n3, n4⟩ | ⟨e, rfl⟩ | ⟨e, x1, x2, x3, x4, x5⟩
    · rw [e]
      refine ⟨.raw b _ _ n1 n2 ih.1, ?_, ?_⟩
      · simpa using ⟨Ne.symm n3, ih.2.1⟩
      · simpa using ⟨Ne.symm n4, ih.2.2⟩
    · rw [e]
      refine ⟨.plus _ _ ih.1, ?_, ?_⟩
      · simpa using ih.2.1
      · simpa using ih.2.2
    · refine ⟨?_, ?_, ?_⟩
      · rw [e]
        have := Spells.hex _ _ _ _ _ _ ((hex_iff _ _).mpr x1) ((hex_iff _ _).mpr x2) ih.1
        rw [x3] at this
        exact this
      · intro hm
        rcases List.mem_append.1 hm with h | h
        · exact x4 h
        · exact ih.2.1 h
      · intro hm
        rcases List.mem_append.1 hm with h | h
        · exact x5 h
        · exact ih.2.2 h

theorem utf8_append (a b : Str) : utf8 (a ++ b) = utf8 a ++ utf8 b := by unfold utf8; rw [List.flatMap_append]

theorem piece_encode (p : Str × Str) : Piece (utf8 (encodeText p.1 ++ '=' :: encodeText p.2)) p := by
  obtain ⟨h1, h2, h3⟩ := spells_bytes (utf8 p.1)
  obtain ⟨h4, h5, h6⟩ := spells_bytes (utf8 p.2)
  rw [utf8_append]
  exact .pair _ _ _ _ h3 h2 h5 h1 h4

theorem encode_spelled (ps : Params) : Spelled (utf8 (encode ps)) ps := by
  unfold encode
  induction ps with
  | nil => exact .nil
  | cons p ps ih =>
    cases ps with
    | nil => exact .one _ _ (piece_encode p)
    | cons q ps =>
      have : QS.joinWith ['&'] ((p :: q :: ps).map fun p => encodeText p.1 ++ '=' :: encodeText p.2) =
          (encodeText p.1 ++ '=' :: encodeText p.2) ++ '&' ::
            QS.joinWith ['&'] ((q :: ps).map fun p => encodeText p.1 ++ '=' :: encodeText p.2) := by
        simp [QS.joinWith]
      rw [this, utf8_append]
      exact .cons _ _ _ _ (piece_encode p) ih

/-- **C99**: what is written as a form is read back, whatever the names and values. -/
theorem C99_roundtrip (bad : Bytes → Str) (ps : Params) : parse bad (utf8 (encode ps)) = ps :=
  C99_read bad (encode_spelled ps)

/-- **C99**: different parameters are written differently. -/
theorem C99_injective {ps qs : Params} (h : encode ps = encode qs) : ps = qs := by
  have h1 := C99_roundtrip (fun _ => []) ps
  rw [h, C99_roundtrip] at h1
  exact h1.symm

/-- **C99**: a form is written in plain characters. -/
theorem C99_plain (ps : Params) : ∀ c ∈ encode ps, Plain c ∨ c = '&' ∨ c = '=' := by
  have ht : ∀ s : Str, ∀ c ∈ encodeText s, Plain c := by
    intro s c hc
    obtain ⟨b, -, h⟩ := List.mem_flatMap.1 hc
    exact ((byte_facts b).1 c h).1
  have hj : ∀ ls : List Str, ∀ c ∈ QS.joinWith ['&'] ls, c = '&' ∨ ∃ l ∈ ls, c ∈ l := by
    intro ls
    induction ls with
    | nil => intro c hc; cases hc
    | cons l ls ih =>
      cases ls with
      | nil => intro c hc; exact Or.inr ⟨l, by simp, hc⟩
      | cons m ls =>
        intro c hc
        rw [QS.joinWith] at hc
        rcases List.mem_append.1 hc with h | h
        · rcases List.mem_append.1 h with h | h
          · exact Or.inr ⟨l, by simp, h⟩
          · exact Or.inl (by simpa using h)
        · rcases ih c h with h | ⟨x, hx, h⟩
          · exact Or.inl h
          · exact Or.inr ⟨x, by simp at hx ⊢; exact Or.inr hx, h⟩
  intro c hc
  rcases hj _ c hc with h | ⟨l, hl, h⟩
  · exact Or.inr (Or.inl h)
  · obtain ⟨p, -, rfl⟩ := List.mem_map.1 hl
    rcases List.mem_append.1 h with h | h
    · exact Or.inl (ht _ c h)
    · rcases List.mem_cons.1 h with h | h
      · exact Or.inr (Or.inr h)
      · exact Or.inl (ht _ c h)

end FormProps
end Verif
