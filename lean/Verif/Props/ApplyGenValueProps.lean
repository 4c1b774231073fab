import Verif.Props.ApplyGenBodyProps
import Verif.Props.GenerateProps

/-
  Property C145: the values generators produce for texts, JSON values and status codes.
-/

set_option autoImplicit false

namespace Verif
namespace ApplyGenValueProps
open Path Rules Generate PactFile Query Headers ApplyGen ApplyGenProps
open RuleJson (Obj)
open GenerateProps (LowerHex I32)
open Provider (Libs asBody)

/-! ### Specification: conversions -/

/-- An integer of 64 bits written in decimal, with an optional sign. -/
def SpellsInt (s : Str) (z : Int) : Prop :=
  ∃ ds n, ds ≠ [] ∧ digitsVal 0 ds = some n ∧
    (((s = ds ∨ s = '+' :: ds) ∧ z = n ∧ z < 2 ^ 63) ∨ (s = '-' :: ds ∧ z = -n ∧ -2 ^ 63 ≤ z))

/-- A number below 65536 written in decimal, with an optional `+`. -/
def SpellsStatus (s : Str) (n : Nat) : Prop :=
  ∃ ds, ds ≠ [] ∧ digitsVal 0 ds = some n ∧ (s = ds ∨ s = '+' :: ds) ∧ n < 65536

/-- A JSON value as an integer: `null` and `false` are 0, `true` is 1, numbers are taken modulo 2^64, texts are parsed; lists
and objects are no integers. -/
def AsInt (G : GLib) (v : Json) (z : Int) : Prop :=
  match v with
  | .null => z = 0
  | .bool b => z = if b then 1 else 0
  | .num (.pos n) => -2 ^ 63 ≤ z ∧ z < 2 ^ 63 ∧ (z - n) % 2 ^ 64 = 0
  | .num (.neg n) => z = -(n + 1 : Nat)
  | .num (.flt r) => z = G.f64.toI64 r
  | .str s => SpellsInt s z
  | _ => False

/-- A JSON value as a boolean: positive numbers are true, texts must be `true` or `false`. -/
def AsBool (G : GLib) (v : Json) (b : Bool) : Prop :=
  match v with
  | .null => b = false
  | .bool a => b = a
  | .num (.pos n) => b = true ↔ 0 < n
  | .num (.neg _) => b = false
  | .num (.flt r) => b = G.f64.positive r
  | .str s => (b = true ∧ s = "true".toList) ∨ (b = false ∧ s = "false".toList)
  | _ => False

/-- The text of a JSON value as a floating point number. -/
def AsFloat (G : GLib) (v : Json) (t : Str) : Prop :=
  match v with
  | .null => t = G.intFloat 0
  | .bool b => t = G.intFloat (if b then 1 else 0)
  | .num (.pos n) => t = G.intFloat n
  | .num (.neg n) => t = G.intFloat (-(n + 1 : Nat))
  | .num (.flt r) => t = G.floatText r
  | .str s => G.parseFloat s = some t
  | _ => False

/-- The text of a value of a data type. -/
def TextOf (G : GLib) (dt : DataType) (v : Json) (t : Str) : Prop :=
  match dt with
  | .string => t = v.toStr
  | .raw => t = v.toStr
  | .integer => ∃ z, AsInt G v z ∧ t = intText z
  | .float => AsFloat G v t
  | .decimal => AsFloat G v t
  | .boolean => (AsBool G v true ∧ t = "true".toList) ∨ (AsBool G v false ∧ t = "false".toList)

/-- A value as a status code: numbers are taken modulo 2^16, texts are parsed. -/
def AsStatus (G : GLib) (dt : DataType) (v : Json) (n : Nat) : Prop :=
  match v with
  | .null => n = 0
  | .bool b => n = if b then 1 else 0
  | .num (.pos k) => n < 65536 ∧ ((n : Int) - k) % 65536 = 0
  | .num (.neg k) => n < 65536 ∧ ((n : Int) - (-(k + 1 : Nat))) % 65536 = 0
  | .num (.flt r) => n = G.floatU16 r
  | .str s => match dt with
    | .decimal => G.parseU16f s = some n
    | .float => G.parseU16f s = some n
    | .boolean => False
    | _ => SpellsStatus s n
  | _ => False

theorem digits_head {ds : Str} {n : Nat} (hne : ds ≠ []) (h : digitsVal 0 ds = some n) :
    ∃ c cs, ds = c :: cs ∧ c ≠ '+' ∧ c ≠ '-' := by
  cases ds with
  | nil => exact absurd rfl hne
  | cons c cs =>
    refine ⟨c, cs, rfl, ?_, ?_⟩ <;> (rintro rfl; simp [digitsVal] at h)

theorem parseDigits_iff {lim n : Nat} {s : Str} : parseDigits lim s = some n ↔ s ≠ [] ∧ digitsVal 0 s = some n ∧ n < lim := by
  unfold parseDigits
  cases s with
  | nil => simp
  | cons c cs =>
    simp only [List.isEmpty_cons, Bool.false_eq_true, if_false, ne_eq, reduceCtorEq, not_false_eq_true, true_and]
    cases digitsVal 0 (c :: cs) with
    | none => simp
    | some m =>
      by_cases hm : m < lim
      · simp only [hm, if_true, Option.some.injEq]
        constructor
        · rintro rfl; exact ⟨rfl, hm⟩
        · exact fun h => h.1
      · simp only [hm, if_false, Option.some.injEq, reduceCtorEq, false_iff]
        rintro ⟨rfl, h⟩; exact hm h

theorem parseI64_iff (s : Str) (z : Int) : parseI64 s = some z ↔ SpellsInt s z := by
  unfold parseI64 SpellsInt
  split
  · rename_i r
    simp only [Option.map_eq_some_iff, parseDigits_iff]
    constructor
    · rintro ⟨n, ⟨h1, h2, h3⟩, rfl⟩
      exact ⟨r, n, h1, h2, Or.inr ⟨rfl, rfl, by omega⟩⟩
    · rintro ⟨ds, n, h1, h2, h | h⟩
      · obtain ⟨c, cs, rfl, hp, hm⟩ := digits_head h1 h2
        rcases h.1 with h | h
        · simp only [List.cons.injEq] at h; exact absurd h.1.symm hm
        · simp at h
      · simp only [List.cons.injEq, true_and] at h
        obtain ⟨rfl, rfl, h⟩ := h
        exact ⟨n, ⟨h1, h2, by omega⟩, rfl⟩
  · rename_i r
    simp only [Option.map_eq_some_iff, parseDigits_iff]
    constructor
    · rintro ⟨n, ⟨h1, h2, h3⟩, rfl⟩
      exact ⟨r, n, h1, h2, Or.inl ⟨Or.inr rfl, rfl, by omega⟩⟩
    · rintro ⟨ds, n, h1, h2, h | h⟩
      · obtain ⟨c, cs, rfl, hp, hm⟩ := digits_head h1 h2
        rcases h.1 with h' | h'
        · simp only [List.cons.injEq] at h'; exact absurd h'.1.symm hp
        · simp only [List.cons.injEq, true_and] at h'
          subst h'
          obtain ⟨_, rfl, h⟩ := h
          exact ⟨n, ⟨h1, h2, by omega⟩, rfl⟩
      · simp at h
  · rename_i hm hp
    simp only [Option.map_eq_some_iff, parseDigits_iff]
    constructor
    · rintro ⟨n, ⟨h1, h2, h3⟩, rfl⟩
      exact ⟨s, n, h1, h2, Or.inl ⟨Or.inl rfl, rfl, by omega⟩⟩
    · rintro ⟨ds, n, h1, h2, h | h⟩
      · rcases h.1 with h' | h'
        · subst h'
          obtain ⟨_, rfl, h⟩ := h
          exact ⟨n, ⟨h1, h2, by omega⟩, rfl⟩
        · exact absurd h' (hp _)
      · exact absurd h.1 (hm _)

theorem parseU16_iff (s : Str) (n : Nat) : parseU16 s = some n ↔ SpellsStatus s n := by
  have hl : 65536 < usizeLim := by decide
  unfold parseU16 SpellsStatus parseUsize
  split
  · rename_i r
    simp only [Option.bind_eq_some_iff, parseDigits_iff]
    constructor
    · rintro ⟨m, ⟨h1, h2, h3⟩, h⟩
      split at h
      · simp only [Option.some.injEq] at h; subst h; exact ⟨r, h1, h2, Or.inr rfl, by assumption⟩
      · simp at h
    · rintro ⟨ds, h1, h2, h | h, h3⟩
      · obtain ⟨c, cs, rfl, hp, hm⟩ := digits_head h1 h2
        simp only [List.cons.injEq] at h; exact absurd h.1.symm hp
      · simp only [List.cons.injEq, true_and] at h
        subst h
        exact ⟨n, ⟨h1, h2, by omega⟩, if_pos h3⟩
  · rename_i hp
    simp only [Option.bind_eq_some_iff, parseDigits_iff]
    constructor
    · rintro ⟨m, ⟨h1, h2, h3⟩, h⟩
      split at h
      · simp only [Option.some.injEq] at h; subst h; exact ⟨s, h1, h2, Or.inl rfl, by assumption⟩
      · simp at h
    · rintro ⟨ds, h1, h2, h | h, h3⟩
      · subst h
        exact ⟨n, ⟨h1, h2, by omega⟩, if_pos h3⟩
      · exact absurd h (hp _)

theorem asI64_iff (n : Nat) (z : Int) :
    z = DateExpr.asI64 n ↔ -2 ^ 63 ≤ z ∧ z < 2 ^ 63 ∧ (z - n) % 2 ^ 64 = 0 := by
  unfold DateExpr.asI64
  split <;> omega

theorem intValueText_iff (G : GLib) (v : Json) (t : Str) :
    intValueText G v = some t ↔ ∃ z, AsInt G v z ∧ t = intText z := by
  have key : ∀ a : Int, some (intText a) = some t ↔ ∃ z, z = a ∧ t = intText z := fun a => by
    simp only [Option.some.injEq]
    constructor
    · intro h; exact ⟨a, rfl, h.symm⟩
    · rintro ⟨z, rfl, rfl⟩; rfl
  match v with
  | .null => exact key 0
  | .bool b => exact key _
  | .num (.pos n) =>
    refine (key _).trans ?_
    constructor
    · rintro ⟨z, h, rfl⟩; exact ⟨z, (asI64_iff n z).1 h, rfl⟩
    · rintro ⟨z, h, rfl⟩; exact ⟨z, (asI64_iff n z).2 h, rfl⟩
  | .num (.neg n) => exact key _
  | .num (.flt r) => exact key _
  | .str s =>
    simp only [intValueText, AsInt, Option.map_eq_some_iff, parseI64_iff]
    constructor
    · rintro ⟨z, h, rfl⟩; exact ⟨z, h, rfl⟩
    · rintro ⟨z, h, rfl⟩; exact ⟨z, h, rfl⟩
  | .arr _ => simp [intValueText, AsInt]
  | .obj _ => simp [intValueText, AsInt]

theorem floatValueText_iff (G : GLib) (v : Json) (t : Str) : floatValueText G v = some t ↔ AsFloat G v t := by
  match v with
  | .null => simp only [floatValueText, AsFloat, Option.some.injEq]; exact ⟨Eq.symm, Eq.symm⟩
  | .bool b => simp only [floatValueText, AsFloat, Option.some.injEq]; exact ⟨Eq.symm, Eq.symm⟩
  | .num (.pos n) => simp only [floatValueText, AsFloat, Option.some.injEq]; exact ⟨Eq.symm, Eq.symm⟩
  | .num (.neg n) => simp only [floatValueText, AsFloat, Option.some.injEq]; exact ⟨Eq.symm, Eq.symm⟩
  | .num (.flt r) => simp only [floatValueText, AsFloat, Option.some.injEq]; exact ⟨Eq.symm, Eq.symm⟩
  | .str s => exact Iff.rfl
  | .arr _ => simp [floatValueText, AsFloat]
  | .obj _ => simp [floatValueText, AsFloat]

theorem boolValue_iff (G : GLib) (v : Json) (b : Bool) : boolValue G v = some b ↔ AsBool G v b := by
  match v with
  | .null => simp only [boolValue, AsBool, Option.some.injEq]; exact ⟨Eq.symm, Eq.symm⟩
  | .bool a => simp only [boolValue, AsBool, Option.some.injEq]; exact ⟨Eq.symm, Eq.symm⟩
  | .num (.pos n) =>
    simp only [boolValue, AsBool, Option.some.injEq]
    by_cases hn : 0 < n
    · cases b <;> simp [hn]
    · cases b <;> simp [hn]
  | .num (.neg n) => simp only [boolValue, AsBool, Option.some.injEq]; exact ⟨Eq.symm, Eq.symm⟩
  | .num (.flt r) => simp only [boolValue, AsBool, Option.some.injEq]; exact ⟨Eq.symm, Eq.symm⟩
  | .str s =>
    have h1 : "true".toList = ['t', 'r', 'u', 'e'] := rfl
    have h2 : "false".toList = ['f', 'a', 'l', 's', 'e'] := rfl
    simp only [boolValue, AsBool, Expr.parseBool, h1, h2]
    by_cases ht : s = ['t', 'r', 'u', 'e']
    · subst ht; cases b <;> simp
    · by_cases hf : s = ['f', 'a', 'l', 's', 'e']
      · subst hf; cases b <;> simp
      · simp [ht, hf]
  | .arr _ => simp [boolValue, AsBool]
  | .obj _ => simp [boolValue, AsBool]

theorem orPanic_iff {A : Type} (o : Option A) (a : A) : orPanic o = .ok a ↔ o = some a := by cases o <;> simp [orPanic]

/-- **C145** (the text of a value): in a path, a header, a query or a form a value of a provider state is written as its data
type says. -/
theorem C145_value_text (G : GLib) (dt : DataType) (v : Json) (t : Str) : valueText G dt v = .ok t ↔ TextOf G dt v t := by
  cases dt with
  | string => simp only [valueText, TextOf, Res.ok.injEq]; exact ⟨Eq.symm, Eq.symm⟩
  | raw => simp only [valueText, TextOf, Res.ok.injEq]; exact ⟨Eq.symm, Eq.symm⟩
  | integer => simp only [valueText, TextOf, orPanic_iff, intValueText_iff]
  | float => simp only [valueText, TextOf, orPanic_iff, floatValueText_iff]
  | decimal => simp only [valueText, TextOf, orPanic_iff, floatValueText_iff]
  | boolean =>
    simp only [valueText, TextOf, ← boolValue_iff]
    cases boolValue G v with
    | none => simp [orPanic]
    | some b => cases b <;> simp [orPanic, Res.map, boolText, eq_comm]

theorem okOr_ok {A : Type} (o : Option A) (a : A) : Expr.okOr o = .ok a ↔ o = some a := by cases o <;> simp [Expr.okOr]

/-- **C145** (the status of a value): as a status code numbers are taken modulo 2^16 and texts are parsed. -/
theorem C145_value_status (G : GLib) (dt : DataType) (v : Json) (n : Nat) :
    ApplyGen.asU16 G dt v = .ok n ↔ AsStatus G dt v n := by
  match v with
  | .null => simp only [ApplyGen.asU16, AsStatus, Res.ok.injEq]; exact ⟨Eq.symm, Eq.symm⟩
  | .bool b => simp only [ApplyGen.asU16, AsStatus, Res.ok.injEq]; exact ⟨Eq.symm, Eq.symm⟩
  | .num (.pos k) => simp only [ApplyGen.asU16, AsStatus, Res.ok.injEq]; omega
  | .num (.neg k) => simp only [ApplyGen.asU16, AsStatus, Res.ok.injEq]; omega
  | .num (.flt r) => simp only [ApplyGen.asU16, AsStatus, Res.ok.injEq]; exact ⟨Eq.symm, Eq.symm⟩
  | .str s => cases dt <;> simp only [ApplyGen.asU16, AsStatus, okOr_ok, parseU16_iff, reduceCtorEq]
  | .arr _ => simp [ApplyGen.asU16, AsStatus]
  | .obj _ => simp [ApplyGen.asU16, AsStatus]

/-! ### Texts -/

/-- A UUID in a format. -/
def UuidText (f : Option UuidFormat) (s : Str) : Prop :=
  ∃ a b c d e : Str, a.length = 8 ∧ b.length = 4 ∧ c.length = 4 ∧ d.length = 4 ∧ e.length = 12 ∧
    LowerHex a ∧ LowerHex b ∧ LowerHex c ∧ LowerHex d ∧ LowerHex e ∧
    s = match f with
      | some .simple => a ++ b ++ c ++ d ++ e
      | some .urn => "urn:uuid:".toList ++ (a ++ '-' :: b ++ '-' :: c ++ '-' :: d ++ '-' :: e)
      | some .upperHyphen => (a ++ '-' :: b ++ '-' :: c ++ '-' :: d ++ '-' :: e).map Char.toUpper
      | _ => a ++ '-' :: b ++ '-' :: c ++ '-' :: d ++ '-' :: e

theorem uuid_text (g : Rng) (f : Option UuidFormat) : UuidText f (generateUuid g f) := by
  obtain ⟨a, b, c, d, e, h0, h1, h2, h3, h4, h5, k1, k2, k3, k4, k5, hs, hu, hup⟩ := GenerateProps.C68_uuid g
  refine ⟨a, b, c, d, e, h1, h2, h3, h4, h5, k1, k2, k3, k4, k5, ?_⟩
  cases f with
  | none => exact h0
  | some f =>
    cases f with
    | simple => exact hs
    | lowerHyphen => exact h0
    | urn => rw [hu, h0]
    | upperHyphen => rw [hup, h0]

/-- A decimal number with `n` digits: a point after the first ones, and no more zero at the front than one. -/
def DecimalText (n : Nat) (s : Str) : Prop :=
  if n ≤ 1 then s.length = n ∧ ∀ c ∈ s, c.isDigit = true
  else ∃ a b : Str, s = a ++ '.' :: b ∧ a ≠ [] ∧ b ≠ [] ∧ a.length + b.length = n ∧ (∀ c ∈ a ++ b, c.isDigit = true) ∧
    (2 ≤ a.length → a.head? ≠ some '0')

theorem decimal_text (g : Rng) (n : Nat) : ∃ s, generateDecimal g n = .ok s ∧ DecimalText n s := by
  obtain ⟨h0, ⟨c, h1, hc⟩, ⟨x, y, h2, hx, hy⟩⟩ := GenerateProps.C68_decimal_small g
  by_cases hn : 3 ≤ n
  · obtain ⟨a, b, h, ha, hb, hl, hd, hz⟩ := GenerateProps.C68_decimal g n hn
    refine ⟨_, h, ?_⟩
    unfold DecimalText
    rw [if_neg (by omega)]
    refine ⟨a, b, rfl, ha, ?_, hl, hd, hz⟩
    rintro rfl
    simp at hb
  · rcases (by omega : n = 0 ∨ n = 1 ∨ n = 2) with rfl | rfl | rfl
    · exact ⟨_, h0, by simp [DecimalText]⟩
    · exact ⟨_, h1, by simp [DecimalText, hc]⟩
    · refine ⟨_, h2, ?_⟩
      unfold DecimalText
      rw [if_neg (by omega)]
      refine ⟨[x], [y], rfl, by simp, by simp, rfl, ?_, by simp⟩
      simp [hx, hy]

/-- Generators that need nothing but random numbers, with limits that are not empty. -/
def Random : Generator → Prop
  | .randomInt lo hi => I32 hi ∧ lo ≤ hi ∧ lo < 2147483647
  | .uuid _ | .randomDecimal _ | .randomHexadecimal _ | .randomString _ | .randomBoolean => True
  | _ => False

/-- The form of a random text. -/
def RandomText (g : Generator) (s : Str) : Prop :=
  match g with
  | .randomInt lo hi => ∃ z, lo ≤ z ∧ z ≤ hi ∧ s = intText z
  | .uuid f => UuidText f s
  | .randomDecimal n => DecimalText n s
  | .randomHexadecimal n => s.length = min n 16 ∧ ∀ c ∈ s, c ∈ "0123456789ABCDEF".toList
  | .randomString n => s.length = n ∧ ∀ c ∈ s, c.isAlphanum = true
  | .randomBoolean => s = "true".toList ∨ s = "false".toList
  | _ => False

/-- **C145** (random texts): a random generator always gives a text of its form. -/
theorem C145_random_text (G : GLib) (r : Rng) (ctx : Obj) (g : Generator) (h : Random g) :
    ∃ s, generateText G r ctx (.gen g) = .ok s ∧ RandomText g s := by
  cases g with
  | randomInt lo hi =>
    obtain ⟨h1, h2, h3⟩ := h
    obtain ⟨i, hi', hl, hh⟩ := GenerateProps.C68_int_range r lo hi h1 h2 h3
    refine ⟨intText i, ?_, i, hl, hh, rfl⟩
    simp only [generateText, hi', Res.map_ok]
  | uuid f => exact ⟨_, rfl, uuid_text r f⟩
  | randomDecimal n => exact decimal_text r n
  | randomHexadecimal n => exact ⟨_, rfl, GenerateProps.C68_hexadecimal_partial r n⟩
  | randomString n => exact ⟨_, rfl, GenerateProps.C68_string r n⟩
  | randomBoolean =>
    refine ⟨_, rfl, ?_⟩
    unfold boolText
    show (if _ then _ else _) = _ ∨ _
    split
    · exact Or.inl rfl
    · exact Or.inr rfl
  | _ => exact absurd h id

/-- **C145** (regular expressions): a text of the expression without anchors. -/
theorem C145_regex (G : GLib) (r : Rng) (ctx : Obj) (re s : Str) :
    generateText G r ctx (.gen (.regex re)) = .ok s ↔ G.sampleRegex r (stripAnchors re) = some s := okOr_ok _ _

/-- The moment dates are relative to: the one in the context, else now. -/
def Base (G : GLib) (ctx : Obj) (name : String) (t : Int × DateExpr.Moment) : Prop :=
  match RuleJson.get name ctx with
  | none => t = G.now
  | some d => G.moment d.toStr = some t

theorem baseMoment_iff (G : GLib) (ctx : Obj) (name : String) (t : Int × DateExpr.Moment) :
    baseMoment G ctx name = .ok t ↔ Base G ctx name t := by
  unfold baseMoment Base
  cases RuleJson.get name ctx with
  | none => simp only [Res.ok.injEq]; exact ⟨Eq.symm, Eq.symm⟩
  | some d => exact okOr_ok _ _

/-- **C145** (dates and times): the text the generator of C98 makes from the moment of the context, or from now. -/
theorem C145_dates (G : GLib) (r : Rng) (ctx : Obj) (f e : Option Str) (s : Str) :
    (generateText G r ctx (.gen (.date f e)) = .ok s ↔
      ∃ t, Base G ctx "baseDate" t ∧ DateExpr.genDateExpr G.expr t.1 t.2 f e = .ok s) ∧
    (generateText G r ctx (.gen (.time f e)) = .ok s ↔
      ∃ t, Base G ctx "baseTime" t ∧ DateExpr.genTimeExpr G.expr t.1 t.2 f e = .ok s) ∧
    (generateText G r ctx (.gen (.dateTime f e)) = .ok s ↔
      ∃ t, Base G ctx "baseDateTime" t ∧ DateExpr.genDateTimeExpr G.expr t.1 t.2 f e = .ok s) := by
  have key : ∀ (n : String) (k : Int × DateExpr.Moment → Res Str), (baseMoment G ctx n).bind k = .ok s ↔
      ∃ t, Base G ctx n t ∧ k t = .ok s := by
    intro n k
    constructor
    · intro h
      obtain ⟨t, h1, h2⟩ := ApplyGenProps.bind_eq_ok h
      exact ⟨t, (baseMoment_iff G ctx n t).1 h1, h2⟩
    · rintro ⟨t, h1, h2⟩
      rw [(baseMoment_iff G ctx n t).2 h1]
      exact h2
  exact ⟨key _ _, key _ _, key _ _⟩

/-- **C145** (provider states): the text of the value of the expression. -/
theorem C145_state_text (G : GLib) (r : Rng) (ctx : Obj) (e : Str) (dt : Option DataType) (s : Str) :
    generateText G r ctx (.gen (.providerState e dt)) = .ok s ↔
      ∃ v, fromContext e (stateContext ctx) = .ok v ∧ TextOf G (dt.getD .raw) v s := by
  simp only [generateText]
  constructor
  · intro h
    obtain ⟨v, h1, h2⟩ := ApplyGenProps.bind_eq_ok h
    exact ⟨v, h1, (C145_value_text _ _ _ _).1 h2⟩
  · rintro ⟨v, h1, h2⟩
    rw [h1]
    exact (C145_value_text _ _ _ _).2 h2

/-- The example with the URL in place of what the expression matches outside its group; the example itself if it does not
match. -/
def Replaced (G : GLib) (example_ regex url s : Str) : Prop :=
  ∃ f, G.find regex = some f ∧ ((f example_ = none ∧ s = example_) ∨
    ∃ b g a, f example_ = some (b, some g, a) ∧ s = b ++ (url ++ (g ++ a)))

theorem replaceUrl_iff (G : GLib) (ex re url s : Str) : replaceUrl G ex re url = .ok s ↔ Replaced G ex re url s := by
  unfold replaceUrl Replaced
  cases hf : G.find re with
  | none => simp
  | some f =>
    simp only [Option.some.injEq, exists_eq_left']
    match f ex with
    | none => simp only [Res.ok.injEq, true_and, reduceCtorEq, false_and, exists_false, or_false]; exact ⟨Eq.symm, Eq.symm⟩
    | some (b, none, a) => simp
    | some (b, some g, a) =>
      simp only [Res.ok.injEq, reduceCtorEq, false_and, false_or, Option.some.injEq, Prod.mk.injEq]
      constructor
      · rintro rfl; exact ⟨b, g, a, ⟨rfl, rfl, rfl⟩, by simp⟩
      · rintro ⟨_, _, _, ⟨rfl, rfl, rfl⟩, rfl⟩; simp

/-- **C145** (the URL of the mock server): in a text it is the `url` of the mock server in the context, in a JSON value the
`href` if there is no `url`. -/
theorem C145_url (G : GLib) (r : Rng) (ctx : Obj) (ex re : Str) :
    (∀ s, generateText G r ctx (.gen (.mockServerURL ex re)) = .ok s ↔
      ∃ m u, RuleJson.get "mockServer" ctx = some (.obj m) ∧ RuleJson.get "url" m = some u ∧ Replaced G ex re u.toStr s) ∧
    (∀ old j, generatePlain G r ctx (.mockServerURL ex re) old = .ok j ↔
      ∃ m u s, RuleJson.get "mockServer" ctx = some (.obj m) ∧
        (RuleJson.get "url" m = some u ∨ (RuleJson.get "url" m = none ∧ RuleJson.get "href" m = some u)) ∧
        Replaced G ex re u.toStr s ∧ j = .str s) := by
  constructor
  · intro s
    simp only [generateText, textUrl, detail]
    match RuleJson.get "mockServer" ctx with
    | some (.obj m) =>
      simp only [Option.some.injEq, Json.obj.injEq, exists_and_left, exists_eq_left']
      cases RuleJson.get "url" m with
      | none => simp
      | some u => simp [replaceUrl_iff]
    | none => simp
    | some .null => simp
    | some (.bool _) => simp
    | some (.num _) => simp
    | some (.str _) => simp
    | some (.arr _) => simp
  · intro old j
    simp only [generatePlain, jsonUrl, detail]
    match RuleJson.get "mockServer" ctx with
    | some (.obj m) =>
      have key : ∀ u : Json, (replaceUrl G ex re u.toStr).map Json.str = .ok j ↔
          ∃ s, Replaced G ex re u.toStr s ∧ j = .str s := by
        intro u
        rw [Res.map_eq_ok]
        constructor
        · rintro ⟨s, h, rfl⟩; exact ⟨s, (replaceUrl_iff _ _ _ _ _).1 h, rfl⟩
        · rintro ⟨s, h, rfl⟩; exact ⟨s, (replaceUrl_iff _ _ _ _ _).2 h, rfl⟩
      simp only [Option.some.injEq, Json.obj.injEq, exists_and_left, exists_eq_left']
      cases RuleJson.get "url" m with
      | some u => simp [key]
      | none =>
        cases RuleJson.get "href" m with
        | none => simp
        | some u => simp [key]
    | none => simp
    | some .null => simp
    | some (.bool _) => simp
    | some (.num _) => simp
    | some (.str _) => simp
    | some (.arr _) => simp

/-- **C145** (variants): the generators of the variants of an array give no text and no status. -/
theorem C145_variants (G : GLib) (r : Rng) (ctx : Obj) (vs : List (VariantOf MatchingRule)) :
    generateText G r ctx (.variants vs) = .err ∧ generateU16 G r ctx (.variants vs) = .err := ⟨rfl, rfl⟩

/-! ### JSON values and status codes -/

/-- The generators that give the same text for a JSON value as for a text. -/
def Textual : Generator → Prop
  | .randomHexadecimal _ | .randomString _ | .regex _ | .date _ _ | .time _ _ | .dateTime _ _ => True
  | _ => False

/-- **C145** (JSON texts): texts, dates and times are the same in JSON as elsewhere; so is a UUID that replaces a text, while
one that replaces another value is always hyphenated. -/
theorem C145_json_text (G : GLib) (r : Rng) (ctx : Obj) (old : Json) :
    (∀ g, Textual g → generatePlain G r ctx g old = (generateText G r ctx (.gen g)).map Json.str) ∧
    (∀ f, ∃ s, generatePlain G r ctx (.uuid f) old = .ok (.str s) ∧
      UuidText (match old with | .str _ => f | _ => none) s) := by
  constructor
  · intro g h
    cases g <;> first | exact absurd h id | rfl
  · intro f
    match old with
    | .str _ => exact ⟨_, rfl, uuid_text r f⟩
    | .null => exact ⟨_, rfl, uuid_text r none⟩
    | .bool _ => exact ⟨_, rfl, uuid_text r none⟩
    | .num _ => exact ⟨_, rfl, uuid_text r none⟩
    | .arr _ => exact ⟨_, rfl, uuid_text r none⟩
    | .obj _ => exact ⟨_, rfl, uuid_text r none⟩

/-- **C145** (JSON numbers): a random integer within its limits is a number, or a text if it replaces a text; a random decimal
that replaces a number is the number with the random digits, otherwise a text; a random boolean is a boolean. -/
theorem C145_json_random (G : GLib) (r : Rng) (ctx : Obj) (old : Json) :
    (∀ lo hi, Random (.randomInt lo hi) → ∃ z, lo ≤ z ∧ z ≤ hi ∧ generatePlain G r ctx (.randomInt lo hi) old =
      .ok (match old with | .str _ => .str (intText z) | _ => Expr.intJson z)) ∧
    (∀ n, ∃ s, DecimalText n s ∧ generatePlain G r ctx (.randomDecimal n) old =
      match old with
      | .num _ => Expr.okOr (G.f64.parse s)
      | _ => .ok (.str s)) ∧
    ∃ b, generatePlain G r ctx .randomBoolean old = .ok (.bool b) := by
  refine ⟨?_, ?_, ⟨_, rfl⟩⟩
  · rintro lo hi ⟨h1, h2, h3⟩
    obtain ⟨i, hi', hl, hh⟩ := GenerateProps.C68_int_range r lo hi h1 h2 h3
    refine ⟨i, hl, hh, ?_⟩
    simp only [generatePlain, randomIntJson, hi', Res.map_ok]
    cases old <;> rfl
  · intro n
    obtain ⟨s, hs, hd⟩ := decimal_text r n
    refine ⟨s, hd, ?_⟩
    cases old <;> simp only [generatePlain, decimalJson, hs, Res.map_ok, Res.bind_ok]

/-- **C145** (provider states in JSON): the value of the expression converted as in C61. -/
theorem C145_state_json (G : GLib) (r : Rng) (ctx : Obj) (e : Str) (dt : Option DataType) (old j : Json) :
    generatePlain G r ctx (.providerState e dt) old = .ok j ↔
      ∃ v, fromContext e (stateContext ctx) = .ok v ∧ Expr.asJson G.f64 (dt.getD .raw) v = .ok j := by
  simp only [generatePlain]
  constructor
  · intro h; exact ApplyGenProps.bind_eq_ok h
  · rintro ⟨v, h1, h2⟩; rw [h1]; exact h2

/-- **C145** (status codes): only random integers and provider states give a status. -/
theorem C145_status (G : GLib) (r : Rng) (ctx : Obj) (g : AnyGen) (n : Nat) (h : generateU16 G r ctx g = .ok n) :
    (∃ lo hi, g = .gen (.randomInt lo hi)) ∨
    ∃ e dt v, g = .gen (.providerState e dt) ∧ fromContext e (stateContext ctx) = .ok v ∧ AsStatus G (dt.getD .raw) v n := by
  unfold generateU16 at h
  split at h
  · exact Or.inl ⟨_, _, rfl⟩
  · rename_i e dt
    obtain ⟨v, h1, h2⟩ := ApplyGenProps.bind_eq_ok h
    exact Or.inr ⟨e, dt, v, rfl, h1, (C145_value_status _ _ _ _).1 h2⟩
  · cases h

/-- **C145** (a status from a provider state): every value that is a status is used. -/
theorem C145_state_status (G : GLib) (r : Rng) (ctx : Obj) (e : Str) (dt : Option DataType) (v : Json) (n : Nat)
    (hv : fromContext e (stateContext ctx) = .ok v) (hn : AsStatus G (dt.getD .raw) v n) :
    generateU16 G r ctx (.gen (.providerState e dt)) = .ok n := by
  simp only [generateU16, hv, Res.bind_ok]
  exact (C145_value_status _ _ _ _).2 hn

/-- **C140** (contents that are not JSON): a body with a JSON content type that cannot be read stays as it is. -/
theorem C140_unreadable (B : Libs) (G : GLib) (D : Draws) (mode : Mode) (ctx : Obj) (r r' : HttpRequest)
    (h : generateRequest B G D mode ctx r = .ok r') (ct : ContentType)
    (hc : MatchResult.contentType B.file.P.uc B.bodies ⟨r'.headers, asBody r.body⟩ = some ct) (hj : ct.isJson = true)
    (hb : B.bodies.json (bytesOf r.body) = none) : r'.body = r.body := by
  obtain ⟨_, _, _, h4, _⟩ := request_parts h
  rw [hc] at h4
  unfold generateBody at h4
  split at h4
  · unfold processBody at h4
    simp only [hj, if_true, hb, Res.ok.injEq] at h4
    exact h4.symm
  · exact (Res.ok.inj h4).symm

/-! ### Examples -/

example : SpellsInt "-12".toList (-12) ∧ SpellsStatus "+0404".toList 404 ∧ ¬ SpellsStatus "65536".toList 0 := by
  refine ⟨⟨"12".toList, 12, by decide, by decide, Or.inr ⟨rfl, by decide, by decide⟩⟩,
    ⟨"0404".toList, by decide, by decide, Or.inr rfl, by decide⟩, ?_⟩
  intro h
  have := (parseU16_iff _ _).2 h
  exact absurd this (by decide)

/-- A status from a provider state is taken modulo 2^16: 65736 is the status 200. -/
theorem C145_status_wraps (G : GLib) (r : Rng) :
    generateU16 G r [("code".toList, .num (.pos 65736))] (.gen (.providerState "code".toList none)) = .ok 200 :=
  C145_state_status G r _ _ none (.num (.pos 65736)) 200 (by decide) ⟨by decide, by decide⟩

end ApplyGenValueProps
end Verif
