import Verif.Broker
import Verif.Verifier
import Verif.Props.DetectProps
import Verif.Props.VerifierProps
import Verif.Props.RuleJsonProps

/-
  The client for Pact Brokers: link templates, retries, fetching pacts, publishing results.
-/

set_option autoImplicit false
set_option maxRecDepth 100000

namespace Verif
namespace BrokerProps
open Broker RuleJson PactFile

/-! ### Specification of link templates -/

/-- A character that stands for itself in an URL. -/
def Unreserved (c : Char) : Prop := c.isAlphanum = true ∨ c ∈ "-._~".toList

/-- The hexadecimal digits, in order. -/
def hexDigits : Str := "0123456789ABCDEF".toList

/-- Bytes and the way they are written in an URL: characters that need no escape as they are, every other byte as `%link_obj1 _`. -/
inductive Encodes : List UInt8 → Str → Prop
  | nil : Encodes [] []
  | plain (c : Char) (bs : List UInt8) (s : Str) : Unreserved c → Encodes bs s →
      Encodes (UInt8.ofNat c.toNat :: bs) (c :: s)
  | percent (x y : Nat) (h l : Char) (bs : List UInt8) (s : Str) : hexDigits[x]? = some h → hexDigits[y]? = some l →
      (∀ c, Unreserved c → c.toNat ≠ 16 * x + y) → Encodes bs s →
      Encodes (UInt8.ofNat (16 * x + y) :: bs) ('%' :: h :: l :: s)

/-- What a variable is replaced by: its percent-encoded value, or itself if it has none. -/
inductive ValueText (vs : Values) (n : Str) : Str → Prop
  | value (a b : Values) (v t : Str) : vs = a ++ (n, v) :: b → (∀ e ∈ a, e.1 ≠ n) → Encodes (utf8 v) t →
      ValueText vs n t
  | missing : (∀ e ∈ vs, e.1 ≠ n) → ValueText vs n ('{' :: (n ++ ['}']))

/-- A variable at the start of a text: a name of word characters in braces. -/
def Variable (word : Char → Bool) (s name rest : Str) : Prop :=
  s = '{' :: (name ++ '}' :: rest) ∧ name ≠ [] ∧ ∀ c ∈ name, word c = true

/-- A template and the text it stands for: every variable is replaced, everything else is copied. -/
inductive Expands (word : Char → Bool) (vs : Values) : Str → Str → Prop
  | nil : Expands word vs [] []
  | variable (s name rest v t : Str) : Variable word s name rest → ValueText vs name v → Expands word vs rest t →
      Expands word vs s (v ++ t)
  | copy (c : Char) (s t : Str) : (∀ name rest, ¬ Variable word (c :: s) name rest) → Expands word vs s t →
      Expands word vs (c :: s) (c :: t)

/-! ### Encoding -/

theorem byte_all (P : UInt8 → Prop) [DecidablePred P] (h : ∀ n : Fin 256, P (UInt8.ofNat n.val)) (b : UInt8) : P b := by
  have h1 : b.toNat < 256 := UInt8.toNat_lt b
  have := h ⟨b.toNat, h1⟩
  simpa using this

theorem unreserved_char (b : UInt8) : unreserved b = true →
    ((Char.ofNat b.toNat).isAlphanum = true ∨ Char.ofNat b.toNat ∈ "-._~".toList) ∧
      UInt8.ofNat (Char.ofNat b.toNat).toNat = b := by
  revert b
  apply byte_all
  decide

theorem hex_char (b : UInt8) : hexDigits[b.toNat / 16]? = some (hexChar (b.toNat / 16)) ∧
    hexDigits[b.toNat % 16]? = some (hexChar (b.toNat % 16)) ∧ UInt8.ofNat (16 * (b.toNat / 16) + b.toNat % 16) = b := by
  revert b
  apply byte_all
  decide

theorem unreserved_iff (n : Fin 128) : unreserved (UInt8.ofNat n.val) = true ↔
    ((Char.ofNat n.val).isAlphanum = true ∨ Char.ofNat n.val ∈ "-._~".toList) := by
  revert n
  decide

theorem alnum_lt (c : Char) (h : c.isAlphanum = true) : c.toNat < 128 := by
  simp only [Char.isAlphanum, Char.isAlpha, Char.isUpper, Char.isLower, Char.isDigit, Bool.or_eq_true, Bool.and_eq_true,
    decide_eq_true_eq, ge_iff_le, UInt32.le_iff_toNat_le] at h
  simp only [Char.toNat]
  have h1 : (90 : UInt32).toNat = 90 := rfl
  have h2 : (122 : UInt32).toNat = 122 := rfl
  have h3 : (57 : UInt32).toNat = 57 := rfl
  simp only [Char.reduceVal] at h
  omega

theorem Unreserved.lt {c : Char} (h : Unreserved c) : c.toNat < 128 := by
  cases h with
  | inl h => exact alnum_lt c h
  | inr h =>
    have : c = '-' ∨ c = '.' ∨ c = '_' ∨ c = '~' := by simpa using h
    rcases this with h | h | h | h <;> subst h <;> decide

theorem Unreserved.byte {c : Char} (h : Unreserved c) : unreserved (UInt8.ofNat c.toNat) = true := by
  refine (unreserved_iff ⟨c.toNat, h.lt⟩).mpr ?_
  show (Char.ofNat c.toNat).isAlphanum = true ∨ Char.ofNat c.toNat ∈ "-._~".toList
  rw [Char.ofNat_toNat]
  exact h

theorem ofNat_toNat {n : Nat} (h : n < 256) : (UInt8.ofNat n).toNat = n := by
  rw [UInt8.toNat_ofNat']
  exact Nat.mod_eq_of_lt h

theorem encode_spec (bs : List UInt8) : Encodes bs (bs.flatMap encodeByte) := by
  induction bs with
  | nil => exact .nil
  | cons b bs ih =>
    rw [List.flatMap_cons, encodeByte]
    by_cases hb : unreserved b = true
    · obtain ⟨h1, h2⟩ := unreserved_char b hb
      rw [if_pos hb]
      have := Encodes.plain (Char.ofNat b.toNat) bs _ h1 ih
      rw [h2] at this
      exact this
    · obtain ⟨h1, h2, h3⟩ := hex_char b
      rw [if_neg hb]
      have := Encodes.percent _ _ _ _ bs _ h1 h2 (fun c hc h => hb (by
        have := hc.byte
        rw [h, h3] at this
        exact this)) ih
      rw [h3] at this
      exact this

theorem hex_lt {x : Nat} {h : Char} (e : hexDigits[x]? = some h) : x < 16 := by
  have := List.getElem?_eq_some_iff.mp e
  obtain ⟨h1, _⟩ := this
  exact h1

theorem encodes_unique (bs : List UInt8) (s : Str) (h : Encodes bs s) : s = bs.flatMap encodeByte := by
  induction h with
  | nil => rfl
  | plain c bs s hc hs ih =>
    have h1 : c.toNat < 256 := by have := hc.lt; omega
    rw [List.flatMap_cons, encodeByte, if_pos hc.byte, ← ih, ofNat_toNat h1, Char.ofNat_toNat]
    rfl
  | percent x y h l bs s hx hy hn hs ih =>
    have x1 := hex_lt hx
    have y1 := hex_lt hy
    have hb : (UInt8.ofNat (16 * x + y)).toNat = 16 * x + y := ofNat_toNat (by omega)
    have hu : unreserved (UInt8.ofNat (16 * x + y)) ≠ true := fun hu => by
      have h1 := unreserved_char _ hu
      refine hn _ h1.1 ?_
      have h2 := congrArg UInt8.toNat h1.2
      rw [hb] at h2
      have h3 := Unreserved.lt h1.1
      rw [hb] at h3
      rw [ofNat_toNat (by omega)] at h2
      rw [hb]
      exact h2
    obtain ⟨e1, e2, _⟩ := hex_char (UInt8.ofNat (16 * x + y))
    have e3 : (16 * x + y) / 16 = x := by omega
    have e4 : (16 * x + y) % 16 = y := by omega
    rw [hb, e3, hx] at e1
    rw [hb, e4, hy] at e2
    rw [List.flatMap_cons, encodeByte, if_neg hu, hb, e3, e4, ← Option.some.inj e1, ← Option.some.inj e2, ← ih]
    rfl

/-- **C125.** Encoding a value gives text without any character that means something in an URL. -/
theorem C125_encoded (v : Str) (c : Char) (h : c ∈ encode v) : Unreserved c ∨ c = '%' := by
  have h1 := encode_spec (utf8 v)
  unfold encode at h
  generalize (utf8 v).flatMap encodeByte = s at h h1
  generalize utf8 v = bs at h1
  induction h1 with
  | nil => cases h
  | plain d bs s hd hs ih =>
    cases h with
    | head => exact .inl hd
    | tail _ h => exact ih h
  | percent x y a b bs s hx hy hn hs ih =>
    have hd : ∀ d ∈ hexDigits, d.isAlphanum = true := by decide
    cases h with
    | head => exact .inr rfl
    | tail _ h => cases h with
      | head => exact .inl (.inl (hd _ (List.mem_of_getElem? hx)))
      | tail _ h => cases h with
        | head => exact .inl (.inl (hd _ (List.mem_of_getElem? hy)))
        | tail _ h => exact ih h

/-! ### Expanding templates -/

theorem takeWhile_app (p : Char → Bool) (a : Str) (c : Char) (b : Str) (ha : ∀ x ∈ a, p x = true) (hc : p c = false) :
    (a ++ c :: b).takeWhile p = a ∧ (a ++ c :: b).dropWhile p = c :: b := by
  induction a with
  | nil => simp [hc]
  | cons x a ih =>
    have hx := ha x (List.mem_cons_self ..)
    obtain ⟨h1, h2⟩ := ih fun y hy => ha y (List.mem_cons_of_mem _ hy)
    simp [hx, h1, h2]

theorem takeWhile_all (p : Char → Bool) (s : Str) : ∀ x ∈ s.takeWhile p, p x = true := by
  induction s with
  | nil => intro x h; cases h
  | cons y s ih =>
    intro x h
    by_cases hy : p y = true
    · rw [List.takeWhile_cons, if_pos hy] at h
      cases h with
      | head => exact hy
      | tail _ h => exact ih x h
    · rw [List.takeWhile_cons, if_neg hy] at h
      cases h

theorem variable_iff (word : Char → Bool) (hw : word '}' = false) (s n r : Str) :
    variable? word s = some (n, r) ↔ Variable word s n r := by
  constructor
  · intro h
    unfold variable? at h
    split at h
    · rename_i s
      split at h
      · rename_i rest hd
        split at h
        · cases h
        · rename_i hne
          have h1 := Option.some.inj h
          have h2 : s.takeWhile word = n := congrArg Prod.fst h1
          have h3 : rest = r := congrArg Prod.snd h1
          subst h3
          refine ⟨?_, ?_, ?_⟩
          · rw [← h2, ← hd, List.takeWhile_append_dropWhile]
          · intro e
            rw [h2, e] at hne
            exact hne rfl
          · rw [← h2]
            exact takeWhile_all word s
      · cases h
    · cases h
  · intro ⟨h1, h2, h3⟩
    subst h1
    obtain ⟨e1, e2⟩ := takeWhile_app word n '}' r h3 hw
    rw [variable?, e2]
    simp only [e1]
    rw [if_neg]
    intro e
    exact h2 (List.isEmpty_iff.mp e)

theorem valueOf_spec (vs : Values) (n t : Str) : ValueText vs n t ↔ t = valueOf vs n := by
  unfold valueOf
  constructor
  · intro h
    cases h with
    | value a b v _ h1 h2 h3 =>
      have h4 : vs.find? (fun e => decide (e.1 = n)) = some (n, v) := by
        subst h1
        rw [List.find?_append, List.find?_eq_none.mpr (fun e he => by simpa using h2 e he)]
        simp
      rw [h4]
      exact encodes_unique _ _ h3
    | missing h =>
      rw [List.find?_eq_none.mpr (fun e he => by simpa using h e he)]
  · intro h
    split at h
    · rename_i e he
      obtain ⟨h1, a, b, h2, h3⟩ := List.find?_eq_some_iff_append.mp he
      have h1 : e.1 = n := by simpa using h1
      subst h
      refine .value a b e.2 _ ?_ ?_ (encode_spec _)
      · rw [h2, ← h1]
      · intro x hx
        have := h3 x hx
        simpa using this
    · rename_i he
      subst h
      refine .missing fun e h => ?_
      have := List.find?_eq_none.mp he e h
      simpa using this

theorem expandF_spec (word : Char → Bool) (vs : Values) (hw : word '}' = false) : ∀ (n : Nat) (s : Str), s.length ≤ n →
    ∀ t : Str, Expands word vs s t ↔ t = expandF word vs n s
  | 0, [], _, t => by
    rw [expandF]
    constructor
    · intro h
      generalize hs : ([] : Str) = s at h
      cases h with
      | nil => rfl
      | «variable» _ _ _ _ _ hv _ _ => rw [← hs] at hv; cases hv.1
      | copy _ _ _ _ _ => cases hs
    · intro h; subst h; exact .nil
  | 0, _ :: _, h, _ => by simp at h
  | n + 1, [], _, t => by
    rw [expandF]
    constructor
    · intro h
      generalize hs : ([] : Str) = s at h
      cases h with
      | nil => rfl
      | «variable» _ _ _ _ _ hv _ _ => rw [← hs] at hv; cases hv.1
      | copy _ _ _ _ _ => cases hs
    · intro h; subst h; exact .nil
  | n + 1, c :: s, hl, t => by
    have hl1 : s.length ≤ n := by simpa using hl
    rw [expandF]
    cases hv : variable? word (c :: s) with
    | some p =>
      obtain ⟨name, rest⟩ := p
      have hV := (variable_iff word hw _ _ _).mp hv
      have hr : rest.length ≤ n := by
        have := congrArg List.length hV.1
        simp at this
        omega
      constructor
      · intro h
        generalize hs : c :: s = s' at h
        cases h with
        | nil => cases hs
        | «variable» _ name' rest' v t' hv' hval ht =>
          rw [← hs] at hv'
          have := (variable_iff word hw _ _ _).mpr hv'
          rw [hv] at this
          have e := Option.some.inj this
          have e1 : name = name' := congrArg Prod.fst e
          have e2 : rest = rest' := congrArg Prod.snd e
          subst e1 e2
          show v ++ t' = valueOf vs name ++ expandF word vs n rest
          rw [(valueOf_spec vs name v).mp hval, ← (expandF_spec word vs hw n rest hr t').mp ht]
        | copy c' s' t' hn _ =>
          rw [← hs] at hn
          exact absurd hV (hn _ _)
      · intro h
        have h : t = valueOf vs name ++ expandF word vs n rest := h
        subst h
        exact .variable _ name rest _ _ hV ((valueOf_spec _ _ _).mpr rfl) ((expandF_spec word vs hw n rest hr _).mpr rfl)
    | none =>
      have hN : ∀ name rest, ¬ Variable word (c :: s) name rest := fun name rest h => by
        have := (variable_iff word hw _ _ _).mpr h
        rw [hv] at this
        cases this
      constructor
      · intro h
        generalize hs : c :: s = s' at h
        cases h with
        | nil => cases hs
        | «variable» _ name' rest' v t' hv' hval ht =>
          rw [← hs] at hv'
          exact absurd hv' (hN _ _)
        | copy c' s' t' hn ht =>
          cases hs
          show c :: t' = c :: expandF word vs n s
          rw [← (expandF_spec word vs hw n s hl1 t').mp ht]
      · intro h
        have h : t = c :: expandF word vs n s := h
        subst h
        exact .copy _ _ _ hN ((expandF_spec word vs hw n s hl1 _).mpr rfl)

/-- **C125.** The URL of a template is the template with every variable replaced by its encoded value; variables without a
value stay as they are. -/
theorem C125_expand (word : Char → Bool) (vs : Values) (hw : word '}' = false) (s t : Str) :
    Expands word vs s t ↔ t = expand word vs s :=
  expandF_spec word vs hw s.length s (Nat.le_refl _) t

/-- **C125.** A templated link stands for the expansion of its text, any other link for its text; a link without text is an
error. -/
theorem C125_link (L : Lib) (hw : L.word '}' = false) (l : Link) (vs : Values) (t : Str) :
    (linkText L l vs = .ok t ↔ ∃ h, l.href = some h ∧ (if l.templated then Expands L.word vs h t else t = h)) ∧
      (l.href = none → linkText L l vs = .error .link) := by
  unfold linkText parseLinkUrl
  constructor
  · cases hh : l.href with
    | none => by_cases ht : l.templated = true <;> simp [ht]
    | some h =>
      by_cases ht : l.templated = true
      · simp only [ht, if_true, Option.some.injEq, exists_eq_left', Except.ok.injEq, C125_expand L.word vs hw]
        exact eq_comm
      · simp only [ht, Option.some.injEq, exists_eq_left', Except.ok.injEq]
        simp only [Bool.false_eq_true, if_false, Except.ok.injEq]
        exact eq_comm
  · intro hh
    rw [hh]
    by_cases ht : l.templated = true <;> simp [ht]

/-- **C125.** Values cannot add anything to the structure of an URL: of the characters that mean something there, the URL
has as many as the template. -/
theorem C125_structure (word : Char → Bool) (vs : Values) (hw : word '}' = false) (c : Char) (hc : c ∈ "/?#&=:@;+,!$'()*[]".toList)
    (hcw : word c = false) (s : Str) : (expand word vs s).count c = s.count c := by
  have hs := (C125_expand word vs hw s _).mpr rfl
  generalize expand word vs s = t at hs
  have hp : ¬ Unreserved c ∧ c ≠ '%' ∧ c ≠ '{' ∧ c ≠ '}' := by
    have : ∀ c ∈ "/?#&=:@;+,!$'()*[]".toList,
        ¬ (c.isAlphanum = true ∨ c ∈ "-._~".toList) ∧ c ≠ '%' ∧ c ≠ '{' ∧ c ≠ '}' := by decide
    exact this c hc
  induction hs with
  | nil => rfl
  | «variable» s name rest v t hv hval _ ih =>
    have hn : name.count c = 0 := by
      rw [List.count_eq_zero]
      intro h
      rw [hv.2.2 c h] at hcw
      cases hcw
    have h0 : v.count c = 0 := by
      cases hval with
      | value a b w _ _ _ he =>
        rw [List.count_eq_zero]
        intro h
        rw [encodes_unique _ _ he] at h
        cases C125_encoded w c h with
        | inl h => exact hp.1 h
        | inr h => exact hp.2.1 h
      | missing h =>
        rw [List.count_cons, List.count_append, hn]
        simp [hp.2.2.1, hp.2.2.2, Ne.symm]
    rw [hv.1, List.count_append, h0, ih, List.count_cons, List.count_append, hn, List.count_cons]
    have e1 : ('{' == c) = false := by simpa using Ne.symm hp.2.2.1
    have e2 : ('}' == c) = false := by simpa using Ne.symm hp.2.2.2
    rw [e1, e2]
    simp
  | copy d s t _ _ ih => rw [List.count_cons, List.count_cons, ih]

/-- **C125.** Different values give different URLs. -/
theorem C125_injective (v w : Str) (h : encode v = encode w) : v = w := by
  have hb : ∀ a b : List UInt8, a.flatMap encodeByte = b.flatMap encodeByte → a = b := by
    intro a
    induction a with
    | nil =>
      intro b h
      cases b with
      | nil => rfl
      | cons y b =>
        rw [List.flatMap_cons, encodeByte] at h
        split at h <;> cases h
    | cons x a ih =>
      intro b h
      cases b with
      | nil =>
        rw [List.flatMap_cons, encodeByte] at h
        split at h <;> cases h
      | cons y b =>
        have hxy : ∀ x y : UInt8, unreserved x = true → Char.ofNat x.toNat = '%' → False := by
          intro x y hx he
          have h1 := (unreserved_char x hx).1
          rw [he] at h1
          revert h1
          decide
        have key : encodeByte x = encodeByte y → x = y := by
          have hu : ∀ b : UInt8, (UInt8.ofNat (Char.ofNat b.toNat).toNat = b ∨ unreserved b = false) :=
            fun b => by
              by_cases hb : unreserved b = true
              · exact .inl (unreserved_char b hb).2
              · exact .inr (by simpa using hb)
          intro e
          unfold encodeByte at e
          by_cases h1 : unreserved x = true <;> by_cases h2 : unreserved y = true
          · rw [if_pos h1, if_pos h2] at e
            rw [← (unreserved_char x h1).2, ← (unreserved_char y h2).2, List.head_eq_of_cons_eq e]
          · rw [if_pos h1, if_neg h2] at e
            cases (List.cons.inj e).2
          · rw [if_neg h1, if_pos h2] at e
            cases (List.cons.inj e).2
          · rw [if_neg h1, if_neg h2] at e
            obtain ⟨x1, x2, x3⟩ := hex_char x
            obtain ⟨y1, y2, y3⟩ := hex_char y
            have e1 := (List.cons.inj (List.cons.inj e).2).1
            have e2 := (List.cons.inj (List.cons.inj (List.cons.inj e).2).2).1
            have inj : ∀ i j : Nat, ∀ c, hexDigits[i]? = some c → hexDigits[j]? = some c → i = j := by
              intro i j c hi hj
              have a1 := hex_lt hi
              have a2 := hex_lt hj
              have : ∀ i j : Fin 16, hexDigits[i.val]? = hexDigits[j.val]? → i = j := by decide
              have := this ⟨i, a1⟩ ⟨j, a2⟩ (by rw [hi, hj])
              exact congrArg Fin.val this
            rw [e1] at x1
            rw [e2] at x2
            rw [← x3, ← y3, inj _ _ _ x1 y1, inj _ _ _ x2 y2]
        rw [List.flatMap_cons, List.flatMap_cons] at h
        have : encodeByte x = encodeByte y ∧ a.flatMap encodeByte = b.flatMap encodeByte := by
          unfold encodeByte at h ⊢
          by_cases h1 : unreserved x = true <;> by_cases h2 : unreserved y = true
          · rw [if_pos h1, if_pos h2] at h ⊢
            have := List.cons.inj h
            exact ⟨by rw [this.1], this.2⟩
          · rw [if_pos h1, if_neg h2] at h
            exact absurd (List.cons.inj h).1 (fun e => hxy x y h1 e)
          · rw [if_neg h1, if_pos h2] at h
            exact absurd (List.cons.inj h).1.symm (fun e => hxy y x h2 e)
          · rw [if_neg h1, if_neg h2] at h ⊢
            have a1 := List.cons.inj (List.cons.inj h).2
            have a2 := List.cons.inj a1.2
            exact ⟨by rw [a1.1, a2.1], a2.2⟩
        rw [key this.1, ih b this.2]
  exact DetectProps.utf8_inj (hb _ _ h)

/-! ### Witnesses of templates -/

/-- ASCII word characters. -/
def asciiWord (c : Char) : Bool := c.isAlphanum || c == '_'

theorem C125_example : expand asciiWord [("provider".toList, "a/b c".toList)] "/p/{provider}/{x}/{}".toList =
    "/p/a%2Fb%20c/{x}/{}".toList := by decide

theorem C125_example_spec : Expands asciiWord [("n".toList, "é".toList)] "/{n}".toList "/%C3%A9".toList := by
  rw [C125_expand _ _ (by decide)]
  decide

/-! ### Retries -/

/-- A server error. -/
def ServerError (x : Option Answer) : Prop := ∃ a, x = some a ∧ 500 ≤ a.status ∧ a.status ≤ 599

/-- Sending a request again and again: the answers, in order, and what becomes of the broker. -/
inductive Answers {U E : Type} (net : Net U E) (s : Sent U) : E → List (Option Answer) → E → Prop
  | nil (e : E) : Answers net s e [] e
  | cons (e : E) (as : List (Option Answer)) (e' : E) : Answers net s (net e s).1 as e' →
      Answers net s e ((net e s).2 :: as) e'

theorem serverError_iff (x : Option Answer) : serverError x = true ↔ ServerError x := by
  unfold serverError ServerError
  cases x with
  | none => simp
  | some a => simp; omega

theorem again_spec {U E : Type} (net : Net U E) (s : Sent U) (n : Nat) : ∀ (e : E) (a : Option Answer),
    ∃ as : List (Option Answer), Answers net s e as (again net s n e a).1 ∧
      (again net s n e a).2.1 = List.replicate as.length s ∧ as.length ≤ n ∧
      (a :: as).getLast? = some (again net s n e a).2.2 ∧ (∀ x ∈ (a :: as).dropLast, ServerError x) ∧
      (as.length = n ∨ ¬ ServerError (again net s n e a).2.2) := by
  induction n with
  | zero => intro e a; exact ⟨[], .nil e, rfl, Nat.le_refl _, rfl, (by simp), .inl rfl⟩
  | succ n ih =>
    intro e a
    rw [again]
    by_cases hs : serverError a = true
    · rw [if_pos hs]
      obtain ⟨as, h1, h2, h3, h4, h5, h6⟩ := ih (net e s).1 (net e s).2
      refine ⟨(net e s).2 :: as, .cons e as _ h1, ?_, ?_, ?_, ?_, ?_⟩
      · show s :: _ = _
        rw [h2]
        rfl
      · simpa using h3
      · rw [List.getLast?_cons_cons]
        exact h4
      · intro x hx
        rw [List.dropLast_cons_of_ne_nil (by simp)] at hx
        cases hx with
        | head => exact (serverError_iff _).mp hs
        | tail _ hx => exact h5 x hx
      · cases h6 with
        | inl h => exact .inl (by simp [h])
        | inr h => exact .inr h
    · rw [if_neg hs]
      exact ⟨[], .nil e, rfl, Nat.zero_le _, rfl, (by simp), .inr fun h => hs ((serverError_iff _).mpr h)⟩

/-- **C129.** A request is sent at least once and at most as often as allowed, and it is sent again only after a server
error: the result is the first answer that is no server error, or the last one.  A request that could not be sent is not
sent again. -/
theorem C129_retries {U E : Type} (net : Net U E) (n : Nat) (s : Sent U) (e e' : E) (t : List (Sent U)) (a : Option Answer)
    (h : withRetries net n s e = some (e', t, a)) :
    ∃ as : List (Option Answer), Answers net s e (as ++ [a]) e' ∧ t = List.replicate (as.length + 1) s ∧
      as.length + 1 ≤ n ∧ (∀ x ∈ as, ServerError x) ∧ (as.length + 1 = n ∨ ¬ ServerError a) := by
  cases n with
  | zero => cases h
  | succ n =>
    rw [withRetries] at h
    obtain ⟨as, h1, h2, h3, h4, h5, h6⟩ := again_spec net s n (net e s).1 (net e s).2
    have h := Option.some.inj h
    have e1 : (again net s n (net e s).1 (net e s).2).1 = e' := congrArg Prod.fst h
    have e2 : s :: (again net s n (net e s).1 (net e s).2).2.1 = t := congrArg (fun x => x.2.1) h
    have e3 : (again net s n (net e s).1 (net e s).2).2.2 = a := congrArg (fun x => x.2.2) h
    rw [e1] at h1
    rw [e3] at h4 h6
    have h7 : ((net e s).2 :: as).dropLast ++ [a] = (net e s).2 :: as := by
      obtain ⟨ys, hy⟩ := List.getLast?_eq_some_iff.mp h4
      rw [hy, List.dropLast_concat]
    have hl : ((net e s).2 :: as).dropLast.length = as.length := by simp
    refine ⟨((net e s).2 :: as).dropLast, ?_, ?_, ?_, h5, ?_⟩
    · rw [h7]
      exact .cons e as e' h1
    · rw [hl, ← e2, h2]
      rfl
    · omega
    · rw [hl]
      cases h6 with
      | inl h => exact .inl (by omega)
      | inr h => exact .inr h

/-- **C129.** With no attempt allowed there is a panic, and only then. -/
theorem C129_panics {U E : Type} (net : Net U E) (n : Nat) (s : Sent U) (e : E) :
    withRetries net n s e = none ↔ n = 0 := by
  cases n with
  | zero => exact ⟨fun _ => rfl, fun _ => rfl⟩
  | succ n => exact ⟨(by intro h; cases h), (by intro h; cases h)⟩

/-- The broker of the example fails as often as its state says. -/
def flaky : Net Nat Nat := fun e _ =>
  match e with
  | 0 => (0, some ⟨200, true, some .null⟩)
  | e + 1 => (e, some ⟨503, false, none⟩)

theorem C129_example : (request flaky ⟨.get, 7, []⟩ 2).2.1.length = 3 ∧ (request flaky ⟨.get, 7, []⟩ 2).2.2.isOk = true ∧
    (request flaky ⟨.get, 7, []⟩ 3).2.2.isOk = false := by decide

/-! ### Requests -/

/-- One to three copies of a request. -/
def Repeats {U : Type} (s : Sent U) (t : List (Sent U)) : Prop := ∃ k, 1 ≤ k ∧ k ≤ 3 ∧ t = List.replicate k s

/-- The last answer to a request that is sent up to three times. -/
def Finally {U E : Type} (net : Net U E) (s : Sent U) (e : E) (t : List (Sent U)) (e' : E) (a : Option Answer) : Prop :=
  ∃ as, Answers net s e (as ++ [a]) e' ∧ t = List.replicate (as.length + 1) s ∧ as.length + 1 ≤ 3 ∧
    (∀ x ∈ as, ServerError x) ∧ (as.length + 1 = 3 ∨ ¬ ServerError a)

theorem Finally.repeats {U E : Type} {net : Net U E} {s : Sent U} {e e' : E} {t : List (Sent U)} {a : Option Answer}
    (h : Finally net s e t e' a) : Repeats s t := by
  obtain ⟨as, _, h2, h3, _⟩ := h
  exact ⟨as.length + 1, by omega, h3, h2⟩

/-- What an answer is taken for. -/
inductive Reads : Option Answer → Except Err Json → Prop
  | unsent : Reads none (.error .io)
  | ok (n : Nat) (j : Json) : 200 ≤ n → n ≤ 299 → Reads (some ⟨n, true, some j⟩) (.ok j)
  | noJson (n : Nat) (b : Bool) (j : Option Json) : 200 ≤ n → n ≤ 299 → b = false ∨ j = none →
      Reads (some ⟨n, b, j⟩) (.error .content)
  | notFound (b : Bool) (j : Option Json) : Reads (some ⟨404, b, j⟩) (.error .notFound)
  | invalid (j : Json) : Reads (some ⟨400, true, some j⟩) (.error (.validation (validationErrors j)))
  | badContent : Reads (some ⟨400, true, none⟩) (.error .content)
  | bad (j : Option Json) : Reads (some ⟨400, false, j⟩) (.error .io)
  | other (n : Nat) (b : Bool) (j : Option Json) : ¬ (200 ≤ n ∧ n ≤ 299) → n ≠ 404 → n ≠ 400 →
      Reads (some ⟨n, b, j⟩) (.error .io)

theorem parseAnswer_spec (a : Answer) : Reads (some a) (parseAnswer a) := by
  obtain ⟨n, b, j⟩ := a
  unfold parseAnswer
  by_cases h1 : 200 ≤ n ∧ n < 300
  · rw [if_pos (by simpa using h1)]
    cases b with
    | false => exact .noJson n _ j h1.1 (by omega) (.inl rfl)
    | true => cases j with
      | none => exact .noJson n _ _ h1.1 (by omega) (.inr rfl)
      | some j => exact .ok n j h1.1 (by omega)
  · rw [if_neg (by simpa using h1)]
    by_cases h2 : n = 404
    · subst h2; exact .notFound b j
    · rw [if_neg h2]
      by_cases h3 : n = 400
      · subst h3
        rw [if_pos rfl]
        cases b with
        | false => exact .bad j
        | true => cases j with
          | none => exact .badContent
          | some j => exact .invalid j
      · rw [if_neg h3]
        exact .other n b j (by omega) h2 h3

/-- **C129.** The result of a request is that of its last answer. -/
theorem C129_request {U E : Type} (net : Net U E) (s : Sent U) (e e' : E) (t : List (Sent U)) (r : Except Err Json)
    (h : request net s e = (e', t, r)) : ∃ a, Finally net s e t e' a ∧ Reads a r := by
  unfold request at h
  cases hw : withRetries net 3 s e with
  | none => exact absurd ((C129_panics net 3 s e).mp hw) (by decide)
  | some p =>
    obtain ⟨e1, t1, a⟩ := p
    have hf := C129_retries net 3 s e e1 t1 a hw
    rw [hw] at h
    cases a with
    | none =>
      cases h
      exact ⟨none, hf, .unsent⟩
    | some a =>
      cases h
      exact ⟨some a, hf, parseAnswer_spec a⟩

/-! ### Specification of published results -/

/-- Two lists whose members belong together one by one. -/
inductive Each {α β : Type} (P : α → β → Prop) : List α → List β → Prop
  | nil : Each P [] []
  | cons {a : α} {b : β} {as : List α} {bs : List β} : P a b → Each P as bs → Each P (a :: as) (b :: bs)

/-- Results in runs: every result is in one run, in order; the results of a run have its identifier (nothing if they have
none), and neighbouring runs have different ones. -/
structure Runs (rs : List Result) (gs : List (Str × List Result)) : Prop where
  all : gs.flatMap (·.2) = rs
  nonempty : ∀ g ∈ gs, g.2 ≠ []
  same : ∀ g ∈ gs, ∀ r ∈ g.2, r.id.getD [] = g.1
  different : ∀ a g h b, gs = a ++ g :: h :: b → g.1 ≠ h.1

/-- The mismatches and error messages of a result. -/
def mismatchesOf (r : Result) : List Mis :=
  match r.verdict with
  | .mismatches ms => ms
  | _ => []
def messagesOf (r : Result) : List Str :=
  match r.verdict with
  | .error m => [m]
  | _ => []

/-- What a mismatch is published as: the attribute, the identifier in it if there is one, and the description. -/
def facts : Mis → String × Option Str × Str
  | .method e a => ("method", none, "Expected method of ".toList ++ e ++ " but received ".toList ++ a)
  | .path m => ("path", none, m)
  | .status m => ("status", none, m)
  | .query p m => ("query", some p, m)
  | .header k m => ("header", some k, m)
  | .bodyType e a => ("body", some ['$'], "Expected body type of '".toList ++ e ++ "' but received '".toList ++ a ++ ['\''])
  | .body p m => ("body", some p, m)
  | .metadata k m => ("metadata", some k, m)

/-- A JSON value shows a mismatch. -/
def Shows (m : Mis) (x : Json) : Prop :=
  vget "attribute" x = some (.str (facts m).1.toList) ∧ vget "identifier" x = (facts m).2.1.map Json.str ∧
    vget "description" x = some (.str (facts m).2.2)

/-- A JSON value shows a message. -/
def ShowsMessage (m : Str) (x : Json) : Prop := vget "message" x = some (.str m)

/-- An attribute with a list, which is left out if the list is empty. -/
def Listed {α : Type} (P : α → Json → Prop) (as : List α) (v : Option Json) : Prop :=
  if as = [] then v = none else ∃ xs, v = some (.arr xs) ∧ Each P as xs

/-- The entry of a run of results. -/
structure EntryFor (g : Str × List Result) (x : Json) : Prop where
  id : vget "interactionId" x = some (.str g.1)
  success : ∃ b, vget "success" x = some (.bool b) ∧
    (b = true ↔ ∀ r ∈ g.2, mismatchesOf r = [] ∧ messagesOf r = [])
  mismatches : Listed Shows (g.2.flatMap mismatchesOf) (vget "mismatches" x)
  exceptions : Listed ShowsMessage (g.2.flatMap messagesOf) (vget "exceptions" x)
  description : vget "interactionDescription" x = g.2.head?.map fun r => Json.str r.description

/-! ### Results -/

theorem vget_obj (k : String) (es : List (String × Json)) : vget k (obj es) = RuleJsonProps.slookup k es.reverse :=
  RuleJsonProps.get_attrs k es

theorem misJson_shows (m : Mis) : Shows m (misJson m) := by
  unfold Shows misJson facts
  cases m <;> simp [vget_obj, RuleJsonProps.slookup]

theorem flatMap_misOf (rs : List Result) : rs.flatMap misOf = (rs.flatMap mismatchesOf).map misJson := by
  induction rs with
  | nil => rfl
  | cons r rs ih =>
    rw [List.flatMap_cons, List.flatMap_cons, List.map_append, ih]
    congr 1
    unfold misOf mismatchesOf
    cases r.verdict <;> rfl

theorem flatMap_errOf (rs : List Result) :
    rs.flatMap errOf = (rs.flatMap messagesOf).map fun m => obj [("message", .str m)] := by
  induction rs with
  | nil => rfl
  | cons r rs ih =>
    rw [List.flatMap_cons, List.flatMap_cons, List.map_append, ih]
    congr 1
    unfold errOf messagesOf
    cases r.verdict <;> rfl

theorem forall2_map {α : Type} (P : α → Json → Prop) (f : α → Json) (h : ∀ a, P a (f a)) (as : List α) :
    Each P as (as.map f) := by
  induction as with
  | nil => exact .nil
  | cons a as ih => exact .cons (h a) ih

theorem chunks_runs (rs : List Result) : Runs rs (chunks rs) := by
  induction rs with
  | nil => exact ⟨rfl, (by intro g h; cases h), (by intro g h; cases h), (by intro a g h b e; simp [chunks] at e)⟩
  | cons r rs ih =>
    rw [chunks]
    cases hc : chunks rs with
    | nil =>
      rw [hc] at ih
      have h0 : rs = [] := ih.all.symm
      subst h0
      refine ⟨rfl, ?_, ?_, ?_⟩
      · intro g hg; simp only [List.mem_singleton] at hg; subst hg; simp
      · intro g hg x hx
        simp only [List.mem_singleton] at hg
        subst hg
        simp only [List.mem_singleton] at hx
        subst hx
        rfl
      · intro a g h b e
        have := congrArg List.length e
        simp at this
        omega
    | cons p gs =>
      obtain ⟨k, g⟩ := p
      rw [hc] at ih
      show Runs _ (if key r = k then (k, r :: g) :: gs else (key r, [r]) :: (k, g) :: gs)
      by_cases hk : key r = k
      · rw [if_pos hk]
        refine ⟨?_, ?_, ?_, ?_⟩
        · have := ih.all
          rw [List.flatMap_cons] at this ⊢
          show r :: (g ++ _) = _
          rw [← this]
        · intro x hx
          cases hx with
          | head => simp
          | tail _ hx => exact ih.nonempty x (List.mem_cons_of_mem _ hx)
        · intro x hx y hy
          cases hx with
          | head => cases hy with
            | head => exact hk
            | tail _ hy => exact ih.same _ (List.mem_cons_self ..) y hy
          | tail _ hx => exact ih.same x (List.mem_cons_of_mem _ hx) y hy
        · intro a x y b e
          cases a with
          | nil =>
            injection e with e1 e2
            have := ih.different [] (k, g) y b (by rw [e2]; rfl)
            rw [← e1]
            exact this
          | cons z a =>
            injection e with e1 e2
            exact ih.different ((k, g) :: a) x y b (by rw [e2]; rfl)
      · rw [if_neg hk]
        refine ⟨?_, ?_, ?_, ?_⟩
        · rw [List.flatMap_cons, ih.all]
          rfl
        · intro x hx
          cases hx with
          | head => simp
          | tail _ hx => exact ih.nonempty x hx
        · intro x hx y hy
          cases hx with
          | head =>
            simp only [List.mem_singleton] at hy
            subst hy
            rfl
          | tail _ hx => exact ih.same x hx y hy
        · intro a x y b e
          cases a with
          | nil =>
            injection e with e1 e2
            injection e2 with e2 e3
            rw [← e1, ← e2]
            exact hk
          | cons z a =>
            injection e with e1 e2
            exact ih.different a x y b e2

theorem listed_unlessEmpty {α : Type} (P : α → Json → Prop) (f : α → Json) (h : ∀ a, P a (f a)) (as : List α)
    (v : Option Json) (hv : v = if (as.map f).isEmpty then none else some (.arr (as.map f))) : Listed P as v := by
  unfold Listed
  cases as with
  | nil => exact hv
  | cons a as => rw [if_neg (by simp)]; exact ⟨_, hv, forall2_map P f h _⟩

theorem entry_spec (g : Str × List Result) : EntryFor g (entry g) := by
  unfold entry
  rw [flatMap_misOf, flatMap_errOf]
  refine ⟨?_, ⟨((g.2.flatMap mismatchesOf).map misJson).isEmpty &&
      ((g.2.flatMap messagesOf).map fun m => obj [("message", .str m)]).isEmpty, ?_, ?_⟩, ?_, ?_, ?_⟩
  · rw [vget_obj]
    cases g.2.head? <;> unfold unlessEmpty <;> split <;> split <;> simp [RuleJsonProps.slookup]
  · rw [vget_obj]
    cases g.2.head? <;> unfold unlessEmpty <;> split <;> split <;> simp [RuleJsonProps.slookup, *]
  · rw [Bool.and_eq_true, List.isEmpty_iff, List.isEmpty_iff, List.map_eq_nil_iff, List.map_eq_nil_iff,
      List.flatMap_eq_nil_iff, List.flatMap_eq_nil_iff]
    exact ⟨fun h r hr => ⟨h.1 r hr, h.2 r hr⟩, fun h => ⟨fun r hr => (h r hr).1, fun r hr => (h r hr).2⟩⟩
  · refine listed_unlessEmpty _ misJson misJson_shows _ _ ?_
    rw [vget_obj]
    cases g.2.head? <;> unfold unlessEmpty <;> split <;> split <;> simp [RuleJsonProps.slookup, *]
  · refine listed_unlessEmpty _ (fun m => obj [("message", .str m)]) (fun m => by
      simp [ShowsMessage, vget_obj, RuleJsonProps.slookup]) _ _ ?_
    rw [vget_obj]
    cases g.2.head? <;> unfold unlessEmpty <;> split <;> split <;> simp [RuleJsonProps.slookup, *]
  · rw [vget_obj]
    cases g.2.head? <;> unfold unlessEmpty <;> split <;> split <;> simp [RuleJsonProps.slookup]

theorem all_passed (rs : List Result) : rs.all passed = true ↔ ∀ r ∈ rs, r.verdict = .passed := by
  rw [List.all_eq_true]
  exact ⟨fun h r hr => by simpa [passed] using h r hr, fun h r hr => by simpa [passed] using h r hr⟩

/-- **C126.** What is published for a pact: success if and only if every interaction passed, with the version of the provider
and the build URL if there is one. -/
theorem C126_payload (i : Info) (rs : List Result) :
    (∃ b, vget "success" (payload i rs) = some (.bool b) ∧ (b = true ↔ ∀ r ∈ rs, r.verdict = .passed)) ∧
      vget "providerApplicationVersion" (payload i rs) = some (.str i.version) ∧
      vget "buildUrl" (payload i rs) = i.buildUrl.map Json.str := by
  unfold payload
  refine ⟨⟨rs.all passed, ?_, all_passed rs⟩, ?_, ?_⟩ <;> rw [vget_obj] <;>
    cases i.buildUrl <;> simp [RuleJsonProps.slookup]

theorem payload_results (i : Info) (rs : List Result) :
    vget "testResults" (payload i rs) = some (.arr (testResults rs)) := by
  unfold payload
  rw [vget_obj]
  simp [RuleJsonProps.slookup]

/-- **C126.** If every interaction passed there is one entry for every interaction with an identifier, in order. -/
theorem C126_passed (i : Info) (rs : List Result) (h : ∀ r ∈ rs, r.verdict = .passed) :
    ∃ xs, vget "testResults" (payload i rs) = some (.arr xs) ∧
      Each (fun id x => vget "interactionId" x = some (.str id) ∧ vget "success" x = some (.bool true))
        (rs.filterMap (·.id)) xs := by
  refine ⟨_, payload_results i rs, ?_⟩
  unfold testResults
  rw [if_pos ((all_passed rs).mpr h)]
  exact forall2_map _ passedEntry (fun a => by simp [passedEntry, vget_obj, RuleJsonProps.slookup]) _

/-- **C126.** If an interaction failed there is one entry for every run of results with the same identifier. -/
theorem C126_failed (i : Info) (rs : List Result) (h : ¬ ∀ r ∈ rs, r.verdict = .passed) :
    ∃ xs gs, vget "testResults" (payload i rs) = some (.arr xs) ∧ Runs rs gs ∧ Each EntryFor gs xs := by
  refine ⟨_, chunks rs, payload_results i rs, chunks_runs rs, ?_⟩
  unfold testResults
  rw [if_neg (fun e => h ((all_passed rs).mp e))]
  exact forall2_map _ entry entry_spec _

theorem Runs.single {rs : List Result} {gs : List (Str × List Result)} (h : Runs rs gs)
    (hd : rs.Pairwise fun a b => a.id.getD [] ≠ b.id.getD []) : gs = rs.map fun r => (r.id.getD [], [r]) := by
  induction gs generalizing rs with
  | nil =>
    have := h.all
    simp at this
    subst this
    rfl
  | cons g gs ih =>
    obtain ⟨k, g⟩ := g
    have hall := h.all
    rw [List.flatMap_cons] at hall
    have hne := h.nonempty _ (List.mem_cons_self ..)
    cases g with
    | nil => exact absurd rfl hne
    | cons r g =>
      have hk := h.same _ (List.mem_cons_self ..) r (List.mem_cons_self ..)
      cases g with
      | nil =>
        subst hall
        have hr : Runs (gs.flatMap (·.2)) gs := ⟨rfl, fun x hx => h.nonempty x (List.mem_cons_of_mem _ hx),
          fun x hx => h.same x (List.mem_cons_of_mem _ hx), fun a x y b e => h.different ((k, [r]) :: a) x y b (by rw [e]; rfl)⟩
        have hd2 := (List.pairwise_cons.mp hd).2
        show (k, [r]) :: gs = _
        rw [show ((k, [r]).2 ++ gs.flatMap (·.2)) = r :: gs.flatMap (·.2) from rfl, List.map_cons, ← ih hr hd2]
        rw [show r.id.getD [] = k from hk]
      | cons r2 g =>
        have h2 := h.same _ (List.mem_cons_self ..) r2 (List.mem_cons_of_mem _ (List.mem_cons_self ..))
        subst hall
        have := (List.pairwise_cons.mp hd).1 r2 (List.mem_cons_self ..)
        exact absurd (hk.trans h2.symm) this

/-- **C126.** With different identifiers every interaction has its own entry, which says whether it passed. -/
theorem C126_one_entry_each (i : Info) (rs : List Result) (h : ¬ ∀ r ∈ rs, r.verdict = .passed)
    (hd : rs.Pairwise fun a b => a.id.getD [] ≠ b.id.getD []) (hm : ∀ r ∈ rs, r.verdict ≠ .mismatches []) :
    ∃ xs, vget "testResults" (payload i rs) = some (.arr xs) ∧
      Each (fun r x => EntryFor (r.id.getD [], [r]) x ∧
        (vget "success" x = some (.bool true) ↔ r.verdict = .passed)) rs xs := by
  obtain ⟨xs, gs, h1, h2, h3⟩ := C126_failed i rs h
  refine ⟨xs, h1, ?_⟩
  rw [h2.single hd] at h3
  have key : ∀ (r : Result) (x : Json), r.verdict ≠ .mismatches [] → EntryFor (r.id.getD [], [r]) x →
      (vget "success" x = some (.bool true) ↔ r.verdict = .passed) := by
    intro r x hr hx
    obtain ⟨b, hb, hiff⟩ := hx.success
    rw [hb]
    have hv : (∀ y ∈ [r], mismatchesOf y = [] ∧ messagesOf y = []) ↔ r.verdict = .passed := by
      simp only [List.mem_singleton, forall_eq, mismatchesOf, messagesOf]
      cases hv : r.verdict with
      | passed => simp
      | mismatches ms =>
        have : ms ≠ [] := fun e => hr (by rw [hv, e])
        simp [this]
      | error m => simp
    rw [← hv, ← hiff]
    simp
  clear h h1 h2 hd
  induction rs generalizing xs with
  | nil => cases h3; exact .nil
  | cons r rs ih =>
    rw [List.map_cons] at h3
    generalize hg : (r.id.getD [], [r]) = g at h3
    generalize hl : rs.map (fun r => (r.id.getD [], [r])) = l at h3
    cases h3 with
    | cons hx hr =>
      subst hg hl
      exact .cons ⟨hx, key _ _ (hm _ (List.mem_cons_self ..)) hx⟩ (ih (fun y hy => hm y (List.mem_cons_of_mem _ hy)) _ hr)

/-- The results of the examples. -/
def res (id : Option String) (d : String) (v : Verdict) : Result := ⟨id.map String.toList, d.toList, v⟩
def info0 : Info := ⟨['v'], ['1'], none, [], none, none⟩

theorem C126_example : vget "testResults" (payload info0 [res "a" "A" .passed, res "b" "B" (.mismatches [.status ['s']])]) =
    some (.arr [obj [("interactionId", .str ['a']), ("success", .bool true), ("interactionDescription", .str ['A'])],
      obj [("interactionId", .str ['b']), ("success", .bool false), ("interactionDescription", .str ['B']),
        ("mismatches", .arr [obj [("attribute", .str "status".toList), ("description", .str ['s'])]])]]) := by rfl

/-- **C126.** A pact of which nothing was verified is published as a success without any result. -/
theorem C126_nothing (i : Info) : vget "success" (payload i []) = some (.bool true) ∧
    vget "testResults" (payload i []) = some (.arr []) := by
  refine ⟨?_, payload_results i []⟩
  unfold payload
  rw [vget_obj]
  cases i.buildUrl <;> simp [RuleJsonProps.slookup]

/-- **C126.** Interactions without an identifier (pacts that are not from a broker have none) share an entry, so that one
that passed is published as failed, under its own description. -/
theorem C126_no_identifier : vget "testResults" (payload info0 [res none "A" .passed, res none "B" (.error ['e'])]) =
    some (.arr [obj [("interactionId", .str []), ("success", .bool false), ("interactionDescription", .str ['A']),
        ("exceptions", .arr [obj [("message", .str ['e'])]])]]) := by rfl

/-! ### Specification of exchanges with the broker -/

/-- Requests made one after the other, each of which finally got an answer with JSON: what was sent (with repetitions). -/
inductive Steps {U E : Type} (net : Net U E) : List (Sent U × Json) → E → List (Sent U) → E → Prop
  | nil (e : E) : Steps net [] e [] e
  | cons (s : Sent U) (j : Json) (ss : List (Sent U × Json)) (a : Option Answer) (e e1 e2 : E) (t t' : List (Sent U)) :
      Finally net s e t e1 a → Reads a (.ok j) → Steps net ss e1 t' e2 → Steps net ((s, j) :: ss) e (t ++ t') e2

section
variable {U E A B : Type} {net : Net U E}

theorem Steps.append {ss ss' : List (Sent U × Json)} {e e1 e2 : E} {t t' : List (Sent U)} (h : Steps net ss e t e1)
    (h' : Steps net ss' e1 t' e2) : Steps net (ss ++ ss') e (t ++ t') e2 := by
  induction h with
  | nil => exact h'
  | cons s j ss a e e1 e2 t t'' hf hr _ ih => rw [List.append_assoc]; exact .cons s j _ a e e1 _ t _ hf hr (ih h')

theorem Steps.single {s : Sent U} {j : Json} {e e1 : E} {t : List (Sent U)} {a : Option Answer}
    (h : Finally net s e t e1 a) (hr : Reads a (.ok j)) : Steps net [(s, j)] e t e1 := by
  have := Steps.cons s j [] a e e1 e1 t [] h hr (.nil e1)
  rwa [List.append_nil] at this

theorem bind_cases {m : Io U E A} {f : A → Io U E B} {e e' : E} {t : List (Sent U)} {r : Except Err B}
    (h : Io.bind m f e = (e', t, r)) : (∃ x, m e = (e', t, .error x) ∧ r = .error x) ∨
      ∃ e1 t1 a t2, m e = (e1, t1, .ok a) ∧ f a e1 = (e', t2, r) ∧ t = t1 ++ t2 := by
  unfold Io.bind at h
  rcases hm : m e with ⟨e1, t1, r1⟩
  rw [hm] at h
  cases r1 with
  | error x =>
    cases h
    exact .inl ⟨x, rfl, rfl⟩
  | ok a =>
    right
    rcases hf : f a e1 with ⟨e2, t2, r2⟩
    simp only [hf] at h
    cases h
    exact ⟨e1, t1, a, t2, rfl, hf, rfl⟩

theorem bind_ok_eq {m : Io U E A} {f : A → Io U E B} {e e1 e2 : E} {t1 t2 : List (Sent U)} {a : A} {r : Except Err B}
    (h1 : m e = (e1, t1, .ok a)) (h2 : f a e1 = (e2, t2, r)) : Io.bind m f e = (e2, t1 ++ t2, r) := by
  unfold Io.bind
  rw [h1]
  simp only [h2]

theorem bind_error_eq {m : Io U E A} {f : A → Io U E B} {e e1 : E} {t1 : List (Sent U)} {x : Err}
    (h1 : m e = (e1, t1, .error x)) : Io.bind m f e = (e1, t1, .error x) := by
  unfold Io.bind
  rw [h1]

theorem bind_done_ok {a : A} {f : A → Io U E B} : Io.bind (done (.ok a)) f = f a := by
  funext e
  unfold Io.bind done
  rcases hf : f a e with ⟨e2, t2, r2⟩
  simp only [hf]
  rfl

theorem bind_done_error {x : Err} {f : A → Io U E B} : Io.bind (done (.error x)) f = done (.error x) := rfl

end

/-! ### Sending -/

section
variable (L : Lib) {E : Type} (net : Net L.U E)

theorem orUrl_error {A : Type} {o : Option A} {x : Err} (h : orUrl o = .error x) : x = .url := by
  cases o with
  | none => cases h; rfl
  | some a => cases h

theorem resolvePath_error {base path : Str} {x : Err} (h : resolvePath L base path = .error x) : x = .url := by
  unfold resolvePath at h
  split at h
  · cases h; rfl
  · split at h
    · cases h
    · split at h
      · split at h
        · exact orUrl_error h
        · split at h
          · cases h
          · exact orUrl_error h
      · exact orUrl_error h

theorem sendUrl_error {base url : Str} {x : Err} (h : sendUrl L base url = .error x) : x = .url := by
  unfold sendUrl at h
  split at h
  · cases h; rfl
  · split at h
    · exact orUrl_error h
    · split at h
      · cases h; rfl
      · exact orUrl_error h

theorem linkText_error {l : Link} {vs : Values} {x : Err} (h : linkText L l vs = .error x) : x = .link := by
  unfold linkText parseLinkUrl at h
  split at h <;> split at h <;> cases h <;> rfl

theorem linkPath_error {base t : Str} {x : Err} (h : linkPath L base t = .error x) : x = .url := by
  unfold linkPath at h
  split at h
  · cases h; rfl
  · split at h <;> cases h
    rfl

theorem findLink_error {lower : Str → Str} {d : Option Json} {n : String} {x : Err} (h : findLink lower d n = .error x) :
    x = .link := by
  unfold findLink at h
  split at h
  · cases h; rfl
  · split at h
    · split at h <;> cases h
      rfl
    · cases h; rfl

/-- The URL of a GET request for a path. -/
theorem fetch_cases {base path : Str} {e e' : E} {t : List (Sent L.U)} {r : Except Err Json}
    (h : fetch L net base path e = (e', t, r)) :
    (∃ x, resolvePath L base path = .error x ∧ r = .error x ∧ t = [] ∧ e' = e) ∨
      ∃ u a, resolvePath L base path = .ok u ∧ Finally net ⟨.get, u, []⟩ e t e' a ∧ Reads a r := by
  unfold fetch at h
  cases hr : resolvePath L base path with
  | error x => rw [hr, bind_done_error] at h; cases h; exact .inl ⟨x, rfl, rfl, rfl, rfl⟩
  | ok u =>
    rw [hr, bind_done_ok] at h
    obtain ⟨a, h1, h2⟩ := C129_request net _ e e' t r h
    exact .inr ⟨u, a, rfl, h1, h2⟩

theorem sendDocument_cases {base url body : Str} {m : Method} {e e' : E} {t : List (Sent L.U)} {r : Except Err Json}
    (h : sendDocument L net base url body m e = (e', t, r)) :
    (∃ x, sendUrl L base url = .error x ∧ r = .error x ∧ t = [] ∧ e' = e) ∨
      ∃ u a, sendUrl L base url = .ok u ∧ Finally net ⟨m, u, body⟩ e t e' a ∧ Reads a r := by
  unfold sendDocument at h
  cases hr : sendUrl L base url with
  | error x => rw [hr, bind_done_error] at h; cases h; exact .inl ⟨x, rfl, rfl, rfl, rfl⟩
  | ok u =>
    rw [hr, bind_done_ok] at h
    obtain ⟨a, h1, h2⟩ := C129_request net _ e e' t r h
    exact .inr ⟨u, a, rfl, h1, h2⟩

/-- The URL a link is fetched from. -/
def LinkUrl (base : Str) (l : Link) (vs : Values) (u : L.U) : Prop :=
  ∃ t p, linkText L l vs = .ok t ∧ linkPath L base t = .ok p ∧ resolvePath L base p = .ok u

theorem fetchUrl_cases {base : Str} {l : Link} {vs : Values} {e e' : E} {t : List (Sent L.U)} {r : Except Err Json}
    (h : fetchUrl L net base l vs e = (e', t, r)) :
    ((∃ x, r = .error x ∧ x ≠ .notFound) ∧ (¬ ∃ u, LinkUrl L base l vs u) ∧ t = [] ∧ e' = e) ∨
      ∃ u a, LinkUrl L base l vs u ∧ Finally net ⟨.get, u, []⟩ e t e' a ∧ Reads a r := by
  unfold fetchUrl at h
  cases h1 : linkText L l vs with
  | error x =>
    rw [h1, bind_done_error] at h; cases h
    refine .inl ⟨⟨x, rfl, by rw [linkText_error L h1]; simp⟩, ?_, rfl, rfl⟩
    rintro ⟨u, t, p, a, _⟩
    rw [h1] at a
    cases a
  | ok t1 =>
    rw [h1, bind_done_ok] at h
    cases h2 : linkPath L base t1 with
    | error x =>
      rw [h2, bind_done_error] at h; cases h
      refine .inl ⟨⟨x, rfl, by rw [linkPath_error L h2]; simp⟩, ?_, rfl, rfl⟩
      rintro ⟨u, t, p, a, b, _⟩
      rw [h1] at a
      cases a
      rw [h2] at b
      cases b
    | ok p =>
      rw [h2, bind_done_ok] at h
      cases fetch_cases L net h with
      | inl h3 =>
        obtain ⟨x, h3, h4, h5, h6⟩ := h3
        refine .inl ⟨⟨x, h4, by rw [resolvePath_error L h3]; simp⟩, ?_, h5, h6⟩
        rintro ⟨u, t, p, a, b, c⟩
        rw [h1] at a
        cases a
        rw [h2] at b
        cases b
        rw [h3] at c
        cases c
      | inr h3 =>
        obtain ⟨u, a, h3, h4, h5⟩ := h3
        exact .inr ⟨u, a, ⟨t1, p, h1, h2, h3⟩, h4, h5⟩

theorem fetchLink_cases {base : Str} {d : Json} {name : String} {vs : Values} {e e' : E} {t : List (Sent L.U)}
    {r : Except Err Json} (h : fetchLink L net base (some d) name vs e = (e', t, r)) :
    ((∃ x, r = .error x ∧ x ≠ .notFound) ∧ t = [] ∧ e' = e) ∨
      ∃ l u a, findLink L.lower (some d) name = .ok l ∧ LinkUrl L base l vs u ∧ Finally net ⟨.get, u, []⟩ e t e' a ∧ Reads a r := by
  unfold fetchLink at h
  cases h1 : findLink L.lower (some d) name with
  | error x =>
    rw [h1, bind_done_error] at h; cases h
    exact .inl ⟨⟨x, rfl, by rw [findLink_error h1]; simp⟩, rfl, rfl⟩
  | ok l =>
    rw [h1, bind_done_ok] at h
    cases fetchUrl_cases L net h with
    | inl h2 => exact .inl ⟨h2.1, h2.2.2⟩
    | inr h2 =>
      obtain ⟨u, a, h2, h3, h4⟩ := h2
      exact .inr ⟨l, u, a, rfl, h2, h3, h4⟩

/-- The URL a document is put at: that of a link in an answer of the broker, with values for its variables. -/
def PutUrl (base : Str) (d : Json) (name : String) (vs : Values) (u : L.U) : Prop :=
  ∃ l h t, findLink L.lower (some d) name = .ok l ∧ l.href = some h ∧ t = expand L.word vs h ∧ sendUrl L base t = .ok u

theorem putLink_cases {base : Str} {l : Link} {vs : Values} {e e' : E} {t : List (Sent L.U)} {r : Except Err Json}
    (h : putLink L net base l vs e = (e', t, r)) :
    ((∃ x, r = .error x) ∧ t = [] ∧ e' = e) ∨ ∃ h u a, l.href = some h ∧ sendUrl L base (expand L.word vs h) = .ok u ∧
      Finally net ⟨.put, u, ['{', '}']⟩ e t e' a ∧ Reads a r := by
  unfold putLink parseLinkUrl at h
  cases hh : l.href with
  | none => rw [hh] at h; cases h; exact .inl ⟨⟨_, rfl⟩, rfl, rfl⟩
  | some hr =>
    rw [hh] at h
    simp only [bind_done_ok] at h
    cases sendDocument_cases L net h with
    | inl h1 =>
      obtain ⟨x, _, h2, h3, h4⟩ := h1
      exact .inl ⟨⟨x, h2⟩, h3, h4⟩
    | inr h1 =>
      obtain ⟨u, a, h1, h2, h3⟩ := h1
      exact .inr ⟨hr, u, a, rfl, h1, h2, h3⟩

/-- A request for the document of the provider. -/
def ProviderGet (base : Str) (ls : List Link) (s : Sent L.U) : Prop :=
  ∃ l, findLink L.lower (some (docContext ls)) "pb:provider" = .ok l ∧ s.method = .get ∧ s.body = [] ∧
    LinkUrl L base l [] s.url

/-- An empty document put at a link of the document of the provider. -/
def ProviderPut (base : Str) (d : Json) (name : String) (vs : Values) (s : Sent L.U) : Prop :=
  s.method = .put ∧ s.body = ['{', '}'] ∧ PutUrl L base d name vs s.url

/-- The requests for a branch: the provider, then the branch. -/
inductive BranchPlan (base : Str) (ls : List Link) (i : Info) : List (Sent L.U × Json) → Prop
  | none : i.branch = none → BranchPlan base ls i []
  | some (b : Str) (s1 s2 : Sent L.U) (d j : Json) : i.branch = some b → ProviderGet L base ls s1 →
      ProviderPut L base d "pb:branch-version" [("branch".toList, b), ("version".toList, i.version)] s2 →
      BranchPlan base ls i [(s1, d), (s2, j)]

/-- The requests for tags: the provider, then every tag, in order. -/
inductive TagPlan (base : Str) (ls : List Link) (i : Info) : List (Sent L.U × Json) → Prop
  | none : i.tags = [] → TagPlan base ls i []
  | some (s : Sent L.U) (d : Json) (ps : List (Sent L.U × Json)) : i.tags ≠ [] → ProviderGet L base ls s →
      Each (fun tag p => ProviderPut L base d "pb:version-tag" [("version".toList, i.version), ("tag".toList, tag)] p.1)
        i.tags ps → TagPlan base ls i ((s, d) :: ps)

/-- No results are sent. -/
def NoPost (t : List (Sent L.U)) : Prop := ∀ s ∈ t, s.method ≠ .post

theorem Finally.noPost {L : Lib} {E : Type} {net : Net L.U E} {s : Sent L.U} {e e' : E} {t : List (Sent L.U)} {a : Option Answer} (h : Finally net s e t e' a)
    (hm : s.method ≠ .post) : NoPost L t := by
  obtain ⟨k, _, _, hk⟩ := h.repeats
  intro x hx
  rw [hk] at hx
  rw [(List.mem_replicate.mp hx).2]
  exact hm

theorem NoPost.append {L : Lib} {t t' : List (Sent L.U)} (h : NoPost L t) (h' : NoPost L t') : NoPost L (t ++ t') := by
  intro s hs
  rw [List.mem_append] at hs
  cases hs with
  | inl h1 => exact h s h1
  | inr h1 => exact h' s h1

/-- What became of a step that sends no results. -/
def StepDone (P : List (Sent L.U × Json) → Prop) (e : E) (t : List (Sent L.U)) (e' : E) (r : Except Err Unit) : Prop :=
  NoPost L t ∧ ((∃ x, r = .error x) ∨ ∃ ss, r = .ok () ∧ P ss ∧ Steps net ss e t e')

theorem reads_ok {a : Option Answer} {r : Except Err Json} (_ : Reads a r) : (∃ x, r = .error x) ∨ ∃ j, r = .ok j := by
  cases r with
  | error x => exact .inl ⟨x, rfl⟩
  | ok j => exact .inr ⟨j, rfl⟩

theorem nopost_nil : NoPost L [] := by intro s hs; cases hs

theorem navigate_provider {base : Str} {ls : List Link} {e e' : E} {t : List (Sent L.U)} {r : Except Err Json}
    (h : navigate L net base (some (docContext ls)) "pb:provider" [] e = (e', t, r)) :
    NoPost L t ∧ ((∃ x, r = .error x) ∨ ∃ s d a, r = .ok d ∧ ProviderGet L base ls s ∧ Finally net s e t e' a ∧ Reads a (.ok d)) := by
  cases fetchLink_cases L net h with
  | inl h1 => obtain ⟨⟨x, hx, _⟩, h2, _⟩ := h1; rw [h2]; exact ⟨nopost_nil L, .inl ⟨x, hx⟩⟩
  | inr h1 =>
    obtain ⟨l, u, a, h1, h2, h3, h4⟩ := h1
    refine ⟨h3.noPost (by simp), ?_⟩
    cases reads_ok h4 with
    | inl h5 => exact .inl h5
    | inr h5 =>
      obtain ⟨d, h5⟩ := h5
      subst h5
      exact .inr ⟨_, d, a, rfl, ⟨l, h1, rfl, rfl, h2⟩, h3, h4⟩

theorem putTags_done (base : Str) (d : Json) (v : Str) (l : Link)
    (hl : findLink L.lower (some d) "pb:version-tag" = .ok l) (tags : List Str) : ∀ (e e' : E) (t : List (Sent L.U))
    (r : Except Err Unit), putTags L net base v l tags e = (e', t, r) →
    StepDone L net (Each (fun tag p => ProviderPut L base d "pb:version-tag"
      [("version".toList, v), ("tag".toList, tag)] p.1) tags) e t e' r := by
  induction tags with
  | nil =>
    intro e e' t r h
    cases h
    exact ⟨nopost_nil L, .inr ⟨[], rfl, .nil, .nil e⟩⟩
  | cons tag tags ih =>
    intro e e' t r h
    rw [putTags] at h
    cases bind_cases h with
    | inl h1 =>
      obtain ⟨x, h1, h2⟩ := h1
      refine ⟨?_, .inl ⟨x, h2⟩⟩
      cases putLink_cases L net h1 with
      | inl h3 => rw [h3.2.1]; exact nopost_nil L
      | inr h3 =>
        obtain ⟨_, _, _, _, _, h3, _⟩ := h3
        exact h3.noPost (by simp)
    | inr h1 =>
      obtain ⟨e1, t1, j, t2, h1, h2, h3⟩ := h1
      obtain ⟨h4, h5⟩ := ih _ _ _ _ h2
      cases putLink_cases L net h1 with
      | inl h6 => obtain ⟨⟨_, h6⟩, _⟩ := h6; cases h6
      | inr h6 =>
        obtain ⟨hr, u, a, g1, g2, g3, g4⟩ := h6
        subst h3
        refine ⟨(g3.noPost (by simp)).append h4, ?_⟩
        cases h5 with
        | inl h5 => exact .inl h5
        | inr h5 =>
          obtain ⟨ss, h5, h6, h7⟩ := h5
          exact .inr ⟨(_, j) :: ss, h5, .cons ⟨rfl, rfl, l, hr, _, hl, g1, rfl, g2⟩ h6, .cons _ j ss a e e1 e' t1 t2 g3 g4 h7⟩

theorem tagStep_done (base : Str) (ls : List Link) (i : Info) (e e' : E) (t : List (Sent L.U)) (r : Except Err Unit)
    (h : tagStep L net base ls i e = (e', t, r)) : StepDone L net (TagPlan L base ls i) e t e' r := by
  unfold tagStep at h
  by_cases hn : i.tags = []
  · rw [if_pos (by rw [hn]; rfl)] at h
    cases h
    exact ⟨nopost_nil L, .inr ⟨[], rfl, .none hn, .nil e⟩⟩
  · rw [if_neg (fun x => hn (List.isEmpty_iff.mp x))] at h
    unfold publishTags at h
    cases bind_cases h with
    | inl h1 =>
      obtain ⟨x, h1, h2⟩ := h1
      exact ⟨(navigate_provider L net h1).1, .inl ⟨x, h2⟩⟩
    | inr h1 =>
      obtain ⟨e1, t1, d, t2, h1, h2, h3⟩ := h1
      obtain ⟨h4, h5⟩ := navigate_provider L net h1
      cases h5 with
      | inl h5 => obtain ⟨_, h5⟩ := h5; cases h5
      | inr h5 =>
        obtain ⟨s, d', a, h5, h6, h7, h8⟩ := h5
        cases h5
        subst h3
        cases hl : findLink L.lower (some d) "pb:version-tag" with
        | error x =>
          rw [hl, bind_done_error] at h2
          cases h2
          exact ⟨h4.append (nopost_nil L), .inl ⟨x, rfl⟩⟩
        | ok l =>
          rw [hl, bind_done_ok] at h2
          obtain ⟨g1, g2⟩ := putTags_done L net base d i.version l hl i.tags e1 e' t2 r h2
          refine ⟨h4.append g1, ?_⟩
          cases g2 with
          | inl g2 => exact .inl g2
          | inr g2 =>
            obtain ⟨ss, g2, g3, g4⟩ := g2
            exact .inr ⟨(s, d) :: ss, g2, .some s d ss hn h6 g3, .cons s d ss a e e1 e' t1 t2 h7 h8 g4⟩

theorem branchStep_done (base : Str) (ls : List Link) (i : Info) (e e' : E) (t : List (Sent L.U)) (r : Except Err Unit)
    (h : branchStep L net base ls i e = (e', t, r)) : StepDone L net (BranchPlan L base ls i) e t e' r := by
  unfold branchStep at h
  cases hb : i.branch with
  | none =>
    rw [hb] at h
    cases h
    exact ⟨nopost_nil L, .inr ⟨[], rfl, .none hb, .nil e⟩⟩
  | some b =>
    rw [hb] at h
    unfold publishBranch at h
    cases bind_cases h with
    | inl h1 =>
      obtain ⟨x, h1, h2⟩ := h1
      exact ⟨(navigate_provider L net h1).1, .inl ⟨x, h2⟩⟩
    | inr h1 =>
      obtain ⟨e1, t1, d, t2, h1, h2, h3⟩ := h1
      obtain ⟨h4, h5⟩ := navigate_provider L net h1
      cases h5 with
      | inl h5 => obtain ⟨_, h5⟩ := h5; cases h5
      | inr h5 =>
        obtain ⟨s, d', a, h5, h6, h7, h8⟩ := h5
        cases h5
        subst h3
        cases hl : findLink L.lower (some d) "pb:branch-version" with
        | error x =>
          rw [hl, bind_done_error] at h2
          cases h2
          exact ⟨h4.append (nopost_nil L), .inl ⟨x, rfl⟩⟩
        | ok l =>
          rw [hl, bind_done_ok] at h2
          have hp : ∀ {e2 : E} {t3 : List (Sent L.U)} {r' : Except Err Json}, putLink L net base l
              [("branch".toList, b), ("version".toList, i.version)] e1 = (e2, t3, r') → NoPost L t3 := by
            intro e2 t3 r' hx
            cases putLink_cases L net hx with
            | inl h3 => rw [h3.2.1]; exact nopost_nil L
            | inr h3 =>
              obtain ⟨_, _, _, _, _, h3, _⟩ := h3
              exact h3.noPost (by simp)
          cases bind_cases h2 with
          | inl g =>
            obtain ⟨x, g1, g2⟩ := g
            exact ⟨h4.append (hp g1), .inl ⟨x, g2⟩⟩
          | inr g =>
            obtain ⟨e2, t3, j, t4, g1, g2, g3⟩ := g
            cases g2
            rw [List.append_nil] at g3
            subst g3
            refine ⟨h4.append (hp g1), .inr ?_⟩
            cases putLink_cases L net g1 with
            | inl k => obtain ⟨⟨_, k⟩, _⟩ := k; cases k
            | inr k =>
              obtain ⟨hr, u, a', k1, k2, k3, k4⟩ := k
              exact ⟨[(s, d), (⟨.put, u, ['{', '}']⟩, j)], rfl, .some b _ _ d j hb h6 ⟨rfl, rfl, l, hr, _, hl, k1, rfl, k2⟩,
                .cons s d _ a e e1 _ t1 _ h7 h8 (.single k3 k4)⟩

/-- **C127.** Publishing the results of a pact: either nothing is sent as a result and there is an error; or first the branch
and then every tag was accepted by the broker, in order, and then the results are sent (up to three times), to the link
of the pact for them. -/
theorem C127_publish (base : Str) (ls : List Link) (i : Info) (rs : List Result) (e e' : E) (t : List (Sent L.U))
    (r : Except Err Json) (h : publish L net base ls i rs e = (e', t, r)) :
    (NoPost L t ∧ ∃ x, r = .error x) ∨
      ∃ bs ts l u e1 t1 t2 a, BranchPlan L base ls i bs ∧ TagPlan L base ls i ts ∧ Steps net (bs ++ ts) e t1 e1 ∧
        publishLink ls = .ok l ∧ sendUrl L base (l.href.getD []) = .ok u ∧
        Finally net ⟨.post, u, (payload i rs).text⟩ e1 t2 e' a ∧ Reads a r ∧ t = t1 ++ t2 ∧ NoPost L t1 := by
  unfold publish at h
  cases bind_cases h with
  | inl h1 =>
    obtain ⟨x, h1, h2⟩ := h1
    exact .inl ⟨(branchStep_done L net base ls i _ _ _ _ h1).1, x, h2⟩
  | inr h1 =>
    obtain ⟨e1, t1, _, t2, h1, h2, h3⟩ := h1
    obtain ⟨b1, b2⟩ := branchStep_done L net base ls i _ _ _ _ h1
    subst h3
    cases bind_cases h2 with
    | inl g =>
      obtain ⟨x, g1, g2⟩ := g
      exact .inl ⟨b1.append (tagStep_done L net base ls i _ _ _ _ g1).1, x, g2⟩
    | inr g =>
      obtain ⟨e2, t3, _, t4, g1, g2, g3⟩ := g
      obtain ⟨c1, c2⟩ := tagStep_done L net base ls i _ _ _ _ g1
      subst g3
      cases hl : publishLink ls with
      | error x =>
        rw [hl, bind_done_error] at g2
        cases g2
        exact .inl ⟨b1.append (c1.append (nopost_nil L)), x, rfl⟩
      | ok l =>
        rw [hl, bind_done_ok] at g2
        cases sendDocument_cases L net g2 with
        | inl k =>
          obtain ⟨x, _, k2, k3, _⟩ := k
          subst k3
          exact .inl ⟨b1.append (c1.append (nopost_nil L)), x, k2⟩
        | inr k =>
          obtain ⟨u, a, k1, k2, k3⟩ := k
          cases b2 with
          | inl b2 => obtain ⟨_, b2⟩ := b2; cases b2
          | inr b2 =>
            cases c2 with
            | inl c2 => obtain ⟨_, c2⟩ := c2; cases c2
            | inr c2 =>
              obtain ⟨bs, _, b3, b4⟩ := b2
              obtain ⟨ts, _, c3, c4⟩ := c2
              exact .inr ⟨bs, ts, l, u, e2, t1 ++ t3, t4, a, b3, c3, b4.append c4, rfl, k1, k2, k3,
                (List.append_assoc ..).symm, b1.append c1⟩

end

/-! ### Publishing is complete -/

theorem Reads.unique {a : Option Answer} {r r' : Except Err Json} (h : Reads a r) (h' : Reads a r') : r = r' := by
  cases h <;> cases h' <;> first | rfl | (exfalso; simp_all; try omega)

theorem Answers.unique {U E : Type} {net : Net U E} {s : Sent U} {e e1 e2 : E} {as bs : List (Option Answer)}
    {a b : Option Answer} (h : Answers net s e (as ++ [a]) e1) (h' : Answers net s e (bs ++ [b]) e2)
    (ha : ∀ x ∈ as, ServerError x) (hb : ∀ x ∈ bs, ServerError x) {n : Nat} (hn : as.length + 1 ≤ n) (hn' : bs.length + 1 ≤ n)
    (la : as.length + 1 = n ∨ ¬ ServerError a) (lb : bs.length + 1 = n ∨ ¬ ServerError b) : as = bs ∧ a = b ∧ e1 = e2 := by
  induction as generalizing bs e n with
  | nil =>
    cases bs with
    | nil =>
      generalize hx : ([] : List (Option Answer)) ++ [a] = x at h
      generalize hy : ([] : List (Option Answer)) ++ [b] = y at h'
      cases h with
      | nil => cases hx
      | cons _ as1 _ h1 =>
        cases h' with
        | nil => cases hy
        | cons _ bs1 _ h1' =>
          simp only [List.nil_append, List.cons.injEq] at hx hy
          obtain ⟨hx1, hx2⟩ := hx
          obtain ⟨hy1, hy2⟩ := hy
          subst hx2 hy2
          cases h1
          cases h1'
          exact ⟨rfl, hx1.trans hy1.symm, rfl⟩
    | cons b' bs =>
      exfalso
      generalize hx : ([] : List (Option Answer)) ++ [a] = x at h
      generalize hy : (b' :: bs) ++ [b] = y at h'
      cases h with
      | nil => cases hx
      | cons _ as1 _ h1 =>
        cases h' with
        | nil => cases hy
        | cons _ bs1 _ h1' =>
          simp only [List.nil_append, List.cons_append, List.cons.injEq] at hx hy
          have := hb b' (List.mem_cons_self ..)
          rw [hy.1, ← hx.1] at this
          cases la with
          | inl la => simp at la hn'; omega
          | inr la => exact la this
  | cons a' as ih =>
    cases bs with
    | nil =>
      exfalso
      generalize hx : (a' :: as) ++ [a] = x at h
      generalize hy : ([] : List (Option Answer)) ++ [b] = y at h'
      cases h with
      | nil => cases hx
      | cons _ as1 _ h1 =>
        cases h' with
        | nil => cases hy
        | cons _ bs1 _ h1' =>
          simp only [List.nil_append, List.cons_append, List.cons.injEq] at hx hy
          have := ha a' (List.mem_cons_self ..)
          rw [hx.1, ← hy.1] at this
          cases lb with
          | inl lb => simp at lb hn; omega
          | inr lb => exact lb this
    | cons b' bs =>
      generalize hx : (a' :: as) ++ [a] = x at h
      generalize hy : (b' :: bs) ++ [b] = y at h'
      cases h with
      | nil => cases hx
      | cons _ as1 _ h1 =>
        cases h' with
        | nil => cases hy
        | cons _ bs1 _ h1' =>
          simp only [List.cons_append, List.cons.injEq] at hx hy
          obtain ⟨hx1, hx2⟩ := hx
          obtain ⟨hy1, hy2⟩ := hy
          subst hx2 hy2
          cases n with
          | zero => simp at hn
          | succ n =>
            simp only [List.length_cons] at hn hn' la lb
            obtain ⟨k1, k2, k3⟩ := ih (n := n) h1 h1' (fun x hx => ha x (List.mem_cons_of_mem _ hx))
              (fun x hx => hb x (List.mem_cons_of_mem _ hx)) (by omega) (by omega)
              (by cases la with
                | inl la => exact .inl (by omega)
                | inr la => exact .inr la)
              (by cases lb with
                | inl lb => exact .inl (by omega)
                | inr lb => exact .inr lb)
            exact ⟨by rw [k1, hx1, hy1], k2, k3⟩

/-- A request has one course only. -/
theorem request_of {U E : Type} {net : Net U E} {s : Sent U} {e e' : E} {t : List (Sent U)} {a : Option Answer}
    {r : Except Err Json} (h : Finally net s e t e' a) (hr : Reads a r) : request net s e = (e', t, r) := by
  rcases hq : request net s e with ⟨e2, t2, r2⟩
  obtain ⟨b, ⟨bs, g1, g2, g3, g4, g5⟩, g6⟩ := C129_request net s e e2 t2 r2 hq
  obtain ⟨as, h1, h2, h3, h4, h5⟩ := h
  obtain ⟨k1, k2, k3⟩ := Answers.unique h1 g1 h4 g4 h3 g3 h5 g5
  subst k1 k2 k3
  rw [hr.unique g6, h2, g2]

theorem Steps.cons_inv {U E : Type} {net : Net U E} {s : Sent U} {j : Json} {ss : List (Sent U × Json)} {e e2 : E}
    {t : List (Sent U)} (h : Steps net ((s, j) :: ss) e t e2) : ∃ e1 t1 t2, request net s e = (e1, t1, .ok j) ∧
      Steps net ss e1 t2 e2 ∧ t = t1 ++ t2 := by
  generalize hx : (s, j) :: ss = x at h
  cases h with
  | nil => cases hx
  | cons s' j' ss' a _ e1 _ t1 t2 hf hr hs =>
    cases hx
    exact ⟨e1, t1, t2, request_of hf hr, hs, rfl⟩

theorem Steps.nil_inv {U E : Type} {net : Net U E} {e e2 : E} {t : List (Sent U)} (h : Steps net [] e t e2) :
    e2 = e ∧ t = [] := by
  generalize hx : ([] : List (Sent U × Json)) = x at h
  cases h with
  | nil => exact ⟨rfl, rfl⟩
  | cons => cases hx

theorem Steps.split {U E : Type} {net : Net U E} {as bs : List (Sent U × Json)} {e e2 : E} {t : List (Sent U)}
    (h : Steps net (as ++ bs) e t e2) : ∃ e1 t1 t2, Steps net as e t1 e1 ∧ Steps net bs e1 t2 e2 ∧ t = t1 ++ t2 := by
  induction as generalizing e t with
  | nil => exact ⟨e, [], t, .nil e, h, rfl⟩
  | cons p as ih =>
    generalize hx : (p :: as) ++ bs = x at h
    cases h with
    | nil => cases hx
    | cons s j ss a _ e1 _ t1 t2 hf hr hs =>
      cases hx
      obtain ⟨e3, t3, t4, k1, k2, k3⟩ := ih hs
      exact ⟨e3, t1 ++ t3, t4, .cons s j as a e e1 e3 t1 t3 hf hr k1, k2, by rw [k3, List.append_assoc]⟩

section
variable (L : Lib) {E : Type} (net : Net L.U E)

theorem navigate_of {base : Str} {ls : List Link} {s : Sent L.U} {e e1 : E} {t : List (Sent L.U)} {d : Json}
    (h : ProviderGet L base ls s) (hq : request net s e = (e1, t, .ok d)) :
    navigate L net base (some (docContext ls)) "pb:provider" [] e = (e1, t, .ok d) := by
  obtain ⟨l, h1, h2, h3, t1, p, h4, h5, h6⟩ := h
  obtain ⟨m, u, b⟩ := s
  simp only at h2 h3 h6
  subst h2 h3
  show fetchLink L net base (some (docContext ls)) "pb:provider" [] e = _
  unfold fetchLink
  rw [h1, bind_done_ok]
  unfold fetchUrl
  rw [h4, bind_done_ok, h5, bind_done_ok]
  unfold fetch
  rw [h6, bind_done_ok]
  exact hq

theorem put_of {base : Str} {d : Json} {name : String} {vs : Values} {s : Sent L.U} {e e1 : E} {t : List (Sent L.U)}
    {j : Json} {l : Link} (hl : findLink L.lower (some d) name = .ok l) (h : ProviderPut L base d name vs s)
    (hq : request net s e = (e1, t, .ok j)) : putLink L net base l vs e = (e1, t, .ok j) := by
  obtain ⟨h1, h2, l', hr, t1, h3, h4, h5, h6⟩ := h
  obtain ⟨m, u, b⟩ := s
  simp only at h1 h2 h6
  subst h1 h2 h5
  rw [hl] at h3
  cases h3
  unfold putLink parseLinkUrl
  rw [h4]
  simp only [bind_done_ok]
  unfold sendDocument
  rw [h6, bind_done_ok]
  exact hq

theorem putTags_of {base : Str} {d : Json} {v : Str} {l : Link} (hl : findLink L.lower (some d) "pb:version-tag" = .ok l)
    (tags : List Str) : ∀ (ps : List (Sent L.U × Json)) (e e' : E) (t : List (Sent L.U)),
    Each (fun tag p => ProviderPut L base d "pb:version-tag" [("version".toList, v), ("tag".toList, tag)] p.1) tags ps →
    Steps net ps e t e' → putTags L net base v l tags e = (e', t, .ok ()) := by
  induction tags with
  | nil =>
    intro ps e e' t h hs
    generalize hx : ([] : List Str) = x at h
    cases h with
    | nil => obtain ⟨h1, h2⟩ := hs.nil_inv; subst h1 h2; rfl
    | cons => cases hx
  | cons tag tags ih =>
    intro ps e e' t h hs
    generalize hx : tag :: tags = x at h
    cases h with
    | nil => cases hx
    | @cons _ p _ ps hp hr =>
      cases hx
      obtain ⟨s, j⟩ := p
      obtain ⟨e1, t1, t2, h1, h2, h3⟩ := hs.cons_inv
      subst h3
      rw [putTags]
      exact bind_ok_eq (put_of L net hl hp h1) (ih _ _ _ _ hr h2)

/-- **C127.** If the branch and every tag is accepted and the pact has a link for results, the results are sent, and what the
broker says to them is the outcome. -/
theorem C127_complete (base : Str) (ls : List Link) (i : Info) (rs : List Result) (e e1 e2 : E) (t1 t2 : List (Sent L.U))
    (bs ts : List (Sent L.U × Json)) (l : Link) (u : L.U) (a : Option Answer) (r : Except Err Json)
    (hb : BranchPlan L base ls i bs) (ht : TagPlan L base ls i ts) (hs : Steps net (bs ++ ts) e t1 e1)
    (hl : publishLink ls = .ok l) (hu : sendUrl L base (l.href.getD []) = .ok u)
    (hf : Finally net ⟨.post, u, (payload i rs).text⟩ e1 t2 e2 a) (hr : Reads a r) :
    publish L net base ls i rs e = (e2, t1 ++ t2, r) := by
  obtain ⟨e3, t3, t4, h1, h2, h3⟩ := hs.split
  subst h3
  have hbr : branchStep L net base ls i e = (e3, t3, .ok ()) := by
    unfold branchStep
    cases hb with
    | none hn => obtain ⟨k1, k2⟩ := h1.nil_inv; rw [hn]; subst k1 k2; rfl
    | some b s1 s2 d j hn g1 g2 =>
      rw [hn]
      obtain ⟨e5, t5, t6, k1, k2, k3⟩ := h1.cons_inv
      obtain ⟨e7, t7, t8, m1, m2, m3⟩ := k2.cons_inv
      obtain ⟨n1, n2⟩ := m2.nil_inv
      subst n1 n2 m3 k3
      have g3 := g2
      obtain ⟨_, _, l', _, _, hl', _⟩ := g3
      have := put_of L net hl' g2 m1
      unfold publishBranch
      refine bind_ok_eq (navigate_of L net g1 k1) ?_
      rw [hl', bind_done_ok]
      exact bind_ok_eq this rfl
  have hta : tagStep L net base ls i e3 = (e1, t4, .ok ()) := by
    unfold tagStep
    cases ht with
    | none hn => obtain ⟨k1, k2⟩ := h2.nil_inv; rw [if_pos (by rw [hn]; rfl)]; subst k1 k2; rfl
    | some s d ps hn g1 g2 =>
      rw [if_neg (fun x => hn (List.isEmpty_iff.mp x))]
      obtain ⟨e5, t5, t6, k1, k2, k3⟩ := h2.cons_inv
      subst k3
      unfold publishTags
      refine bind_ok_eq (navigate_of L net g1 k1) ?_
      have hex : ∃ l', findLink L.lower (some d) "pb:version-tag" = .ok l' := by
        generalize i.tags = tags at g2 hn
        cases g2 with
        | nil => exact absurd rfl hn
        | cons hp _ =>
          obtain ⟨_, _, l', _, _, hl', _⟩ := hp
          exact ⟨l', hl'⟩
      obtain ⟨l', hl'⟩ := hex
      rw [hl', bind_done_ok]
      exact putTags_of L net hl' i.tags ps e5 e1 t6 g2 k2
  unfold publish
  rw [List.append_assoc]
  refine bind_ok_eq hbr (bind_ok_eq hta ?_)
  rw [hl, bind_done_ok]
  unfold sendDocument
  rw [hu, bind_done_ok]
  exact request_of hf hr

/-- **C127.** The link results are sent to is the first one of the pact with that name, in any case. -/
theorem C127_link (ls : List Link) (l : Link) : publishLink ls = .ok l ↔
    ∃ a b, ls = a ++ l :: b ∧ l.name.map Char.toLower = "pb:publish-verification-results".toList ∧
      ∀ x ∈ a, x.name.map Char.toLower ≠ "pb:publish-verification-results".toList := by
  unfold publishLink
  generalize "pb:publish-verification-results".toList = w
  constructor
  · intro h
    split at h
    · rename_i l' hf
      cases h
      obtain ⟨h1, a, b, h2, h3⟩ := List.find?_eq_some_iff_append.mp hf
      exact ⟨a, b, h2, of_decide_eq_true h1, fun x hx => by simpa using h3 x hx⟩
    · cases h
  · rintro ⟨a, b, h1, h2, h3⟩
    have : ls.find? (fun l => decide (l.name.map Char.toLower = w)) = some l := by
      rw [List.find?_eq_some_iff_append]
      exact ⟨decide_eq_true h2, a, b, h1, fun x hx => by simpa using h3 x hx⟩
    rw [this]

end

/-! ### Links of a pact -/

theorem lookup_collect_links (ls : List Link) (n : Str) :
    Json.lookup n (OMap.collect (ls.map fun l => (l.name, l.asJson))) =
      (ls.reverse.find? fun l => decide (l.name = n)).map Link.asJson := by
  unfold OMap.collect
  rw [(OMap.foldl_insert _ [] trivial).2, ← List.map_reverse]
  induction ls.reverse with
  | nil => rfl
  | cons l ls ih =>
    rw [List.map_cons, List.find?_cons]
    by_cases h : l.name = n
    · simp [Json.lookup, h]
    · simp only [Json.lookup] at ih ⊢
      simp [h, ih]

/-- The object of a link with any names for the attributes, in their order. -/
def linkObj (kh kt ki : Str) (l : Link) : Obj :=
  OMap.collect ((l.href.map fun h => (kh, Json.str h)).toList ++ (l.title.map fun t => (ki, Json.str t)).toList ++
    [(kt, .bool l.templated)])

theorem linkObj_eq (kh kt ki : Str) (a1 : Json.strLt ki kh = false) (a2 : Json.strLt kt kh = false)
    (a3 : Json.strLt kt ki = true) (b1 : kh ≠ ki) (b2 : kh ≠ kt) (l : Link) :
    linkObj kh kt ki l = (l.href.map fun h => (kh, Json.str h)).toList ++ [(kt, .bool l.templated)] ++
      (l.title.map fun t => (ki, Json.str t)).toList := by
  unfold linkObj
  cases l.href <;> cases l.title <;> simp [OMap.collect, OMap.insert, a1, a2, a3, b1, b2]

theorem linkObj_read (lower : Str → Str) (kh kt ki : Str) (b1 : kh ≠ ki) (b2 : kh ≠ kt) (b3 : kt ≠ ki)
    (c1 : lower kt ≠ lower kh) (c2 : lower ki ≠ lower kh) (l : Link) (m : Obj)
    (hm : m = (l.href.map fun h => (kh, Json.str h)).toList ++ [(kt, .bool l.templated)] ++
      (l.title.map fun t => (ki, Json.str t)).toList) :
    (findEntry lower kh m).map asString = l.href ∧ Json.lookup kt m = some (.bool l.templated) ∧
      (Json.lookup ki m).map asString = l.title := by
  subst hm
  cases l.href <;> cases l.title <;>
    simp [findEntry, Json.lookup, List.find?_cons, asString, b1, b2, b3, c1, c2]

theorem asJson_eq (l : Link) : l.asJson = .obj (linkObj "href".toList "templated".toList "title".toList l) := by
  obtain ⟨n, h, t, ti⟩ := l
  cases h <;> cases ti <;> rfl

theorem asJson_fromJson (lower : Str → Str) (h1 : lower "templated".toList ≠ lower "href".toList)
    (h2 : lower "title".toList ≠ lower "href".toList) (l : Link) :
    ∃ m, l.asJson = .obj m ∧ Link.fromJson lower l.name m = l := by
  refine ⟨_, asJson_eq l, ?_⟩
  obtain ⟨g1, g2, g3⟩ := linkObj_read lower "href".toList "templated".toList "title".toList (by decide) (by decide)
    (by decide) h1 h2 l _ (linkObj_eq _ _ _ (by decide) (by decide) (by decide) (by decide) (by decide) l)
  unfold Link.fromJson
  rw [g1]
  have e1 : Broker.isTrue (linkObj "href".toList "templated".toList "title".toList l) "templated" = l.templated := by
    unfold Broker.isTrue RuleJson.get
    rw [g2]
  have e2 : (RuleJson.get "title" (linkObj "href".toList "templated".toList "title".toList l)).map asString = l.title := g3
  rw [e1, e2]

/-- **C130.** The links of a pact are found again in its context: the last one with a name. -/
theorem C130_context (lower : Str → Str) (h1 : lower "templated".toList ≠ lower "href".toList)
    (h2 : lower "title".toList ≠ lower "href".toList) (ls : List Link) (n : String) (l : Link) :
    findLink lower (some (docContext ls)) n = .ok l ↔
      ∃ a b, ls = a ++ l :: b ∧ l.name = n.toList ∧ ∀ x ∈ b, x.name ≠ n.toList := by
  have e1 : vget "_links" (docContext ls) = some (.obj (OMap.collect (ls.map fun l => (l.name, l.asJson)))) := by
    rw [docContext, vget_obj]
    simp [RuleJsonProps.slookup]
  have e2 : vget n (.obj (OMap.collect (ls.map fun l => (l.name, l.asJson)))) =
      (ls.reverse.find? fun l => decide (l.name = n.toList)).map Link.asJson := lookup_collect_links ls n.toList
  simp only [findLink, e1, e2]
  cases hf : ls.reverse.find? fun l => decide (l.name = n.toList) with
  | none =>
    constructor
    · intro h; cases h
    · rintro ⟨a, b, g1, g2, _⟩
      have := List.find?_eq_none.mp hf l (by rw [g1]; simp)
      simp [g2] at this
  | some l' =>
    obtain ⟨k1, a, b, k2, k3⟩ := List.find?_eq_some_iff_append.mp hf
    have k1 : l'.name = n.toList := by simpa using k1
    obtain ⟨m, m1, m2⟩ := asJson_fromJson lower h1 h2 l'
    simp only [Option.map_some, m1]
    rw [← k1, m2]
    have hls : ls = b.reverse ++ l' :: a.reverse := by
      have := congrArg List.reverse k2
      simpa using this
    constructor
    · intro h
      cases h
      exact ⟨b.reverse, a.reverse, hls, rfl, fun x hx => by
        have := k3 x (by simpa using hx)
        rw [k1]
        simpa using this⟩
    · rintro ⟨c, d, g1, g2, g3⟩
      have hf2 : ls.reverse.find? (fun l => decide (l.name = n.toList)) = some l := by
        rw [List.find?_eq_some_iff_append]
        refine ⟨decide_eq_true (g2.trans k1), d.reverse, c.reverse, by rw [g1]; simp, fun x hx => ?_⟩
        have := g3 x (by simpa using hx)
        rw [k1] at this
        simpa using this
      rw [hf] at hf2
      rw [Option.some.inj hf2]

/-! ### Where requests go -/

/-- An absolute path: it starts with one slash. -/
def AbsolutePath (p : Str) : Prop := ∃ s, p = '/' :: s ∧ s.head? ≠ some '/'

/-- What is needed of URLs: setting the path, and joining an absolute path, keep the host. -/
structure Hosts (L : Lib) (O : Type) where
  host : L.U → O
  setPath : ∀ u p, host (L.setPath u p) = host u
  join : ∀ u p v, AbsolutePath p → L.join u p = some v → host v = host u

/-- **C130.** A document of the broker is fetched from its own host, whatever host the link has, as long as the path of the link
starts with one slash. -/
theorem C130_host (L : Lib) {O : Type} (H : Hosts L O) {E : Type} (net : Net L.U E) (base : Str) (b : L.U)
    (hb : L.parseUrl base = some b) (l : Link) (vs : Values) (e : E)
    (hp : ∀ t v, linkText L l vs = .ok t → L.join b t = some v → AbsolutePath (L.path v)) :
    ∀ s ∈ (fetchUrl L net base l vs e).2.1, H.host s.url = H.host b := by
  intro s hs
  rcases hq : fetchUrl L net base l vs e with ⟨e', t, r⟩
  rw [hq] at hs
  cases fetchUrl_cases L net hq with
  | inl h => rw [h.2.2.1] at hs; cases hs
  | inr h =>
    obtain ⟨u, a, ⟨t1, p, h1, h2, h3⟩, h4, _⟩ := h
    obtain ⟨k, _, _, hk⟩ := h4.repeats
    rw [hk] at hs
    rw [(List.mem_replicate.mp hs).2]
    show H.host u = H.host b
    unfold linkPath at h2
    rw [hb] at h2
    cases hj : L.join b t1 with
    | none => simp only [hj] at h2; cases h2
    | some v =>
      simp only [hj] at h2
      cases h2
      have hab := hp t1 v h1 hj
      unfold resolvePath at h3
      rw [hb] at h3
      obtain ⟨q, hq1, hq2⟩ := hab
      have hne : (L.path v).isEmpty = false := by rw [hq1]; rfl
      simp only [hne, Bool.false_eq_true, if_false] at h3
      have orUrl_ok : ∀ {o : Option L.U}, orUrl o = .ok u → o = some u := by
        intro o ho
        cases o with
        | none => cases ho
        | some x => cases ho; rfl
      split at h3
      · split at h3
        · rw [H.join _ _ _ ⟨q, hq1, hq2⟩ (orUrl_ok h3), H.setPath]
        · rw [if_pos (by rw [hq1]; rfl)] at h3
          cases h3
          rw [H.setPath]
      · exact H.join _ _ _ ⟨q, hq1, hq2⟩ (orUrl_ok h3)

/-- **C130.** Nothing but the path of a link matters: query parameters are lost. -/
theorem C130_path_only (L : Lib) {E : Type} (net : Net L.U E) (base : Str) (b : L.U) (hb : L.parseUrl base = some b)
    (l l' : Link) (vs : Values) (t t' : Str) (v v' : L.U) (h : linkText L l vs = .ok t) (h' : linkText L l' vs = .ok t')
    (hj : L.join b t = some v) (hj' : L.join b t' = some v') (hp : L.path v = L.path v') (e : E) :
    fetchUrl L net base l vs e = fetchUrl L net base l' vs e := by
  unfold fetchUrl
  rw [h, h', bind_done_ok, bind_done_ok]
  unfold linkPath
  rw [hb]
  simp only [hj, hj', hp]

/-! ### Fetching pacts -/

/-- What becomes of one pact. -/
inductive OneFetched (L : Lib) {E P : Type} (net : Net L.U E) (load : Str → Json → Option P) (base : Str) (vs : Values)
    (l : Link) (e : E) : List (Sent L.U) → E → Except Err (P × List Link) → Prop
  | noUrl (x : Err) : (¬ ∃ u, LinkUrl L base l vs u) → x ≠ .notFound → OneFetched L net load base vs l e [] e (.error x)
  | failed (u : L.U) (a : Option Answer) (t : List (Sent L.U)) (e' : E) (x : Err) : LinkUrl L base l vs u →
      Finally net ⟨.get, u, []⟩ e t e' a → Reads a (.error x) → OneFetched L net load base vs l e t e' (.error x)
  | loaded (u : L.U) (a : Option Answer) (t : List (Sent L.U)) (e' : E) (h : Str) (j : Json) (p : P) : LinkUrl L base l vs u →
      Finally net ⟨.get, u, []⟩ e t e' a → Reads a (.ok j) → l.href = some h → load h j = some p →
      OneFetched L net load base vs l e t e' (.ok (p, linksFromJson L.lower j))
  | noPact (u : L.U) (a : Option Answer) (t : List (Sent L.U)) (e' : E) (h : Str) (j : Json) : LinkUrl L base l vs u →
      Finally net ⟨.get, u, []⟩ e t e' a → Reads a (.ok j) → l.href = some h → load h j = none →
      OneFetched L net load base vs l e t e' (.error .content)

/-- All pacts: one after the other, whatever became of those before. -/
inductive AllFetched (L : Lib) {E P C : Type} (net : Net L.U E) (load : Str → Json → Option P) (base : Str) (vs : Values) :
    List (Link × C) → E → List (Sent L.U) → E → List (Except Err (P × C × List Link)) → Prop
  | nil (e : E) : AllFetched L net load base vs [] e [] e []
  | cons (l : Link) (c : C) (ls : List (Link × C)) (e e1 e2 : E) (t t' : List (Sent L.U)) (r : Except Err (P × List Link))
      (rs : List (Except Err (P × C × List Link))) : OneFetched L net load base vs l e t e1 r →
      AllFetched L net load base vs ls e1 t' e2 rs →
      AllFetched L net load base vs ((l, c) :: ls) e (t ++ t') e2 ((r.map fun p => (p.1, c, p.2)) :: rs)

section
variable (L : Lib) {E P C : Type} (net : Net L.U E) (load : Str → Json → Option P) (base : Str) (vs : Values)

/-- **C128.** A pact is loaded from the link of the broker for it. -/
theorem C128_one (l : Link) (e e' : E) (t : List (Sent L.U)) (r : Except Err (P × List Link))
    (h : fetchOne L net load base vs l e = (e', t, r)) : OneFetched L net load base vs l e t e' r := by
  unfold fetchOne at h
  cases hh : l.href with
  | none =>
    rw [hh] at h
    cases h
    refine .noUrl _ ?_ (by simp)
    rintro ⟨u, t, p, h1, _⟩
    unfold linkText parseLinkUrl at h1
    rw [hh] at h1
    by_cases ht : l.templated = true <;> simp [ht] at h1
  | some hr =>
    rw [hh] at h
    simp only [] at h
    cases bind_cases h with
    | inl h1 =>
      obtain ⟨x, h1, h2⟩ := h1
      subst h2
      cases fetchUrl_cases L net h1 with
      | inl g =>
        obtain ⟨⟨y, g1, g5⟩, g2, g3, g4⟩ := g
        cases g1
        subst g3 g4
        exact .noUrl x g2 g5
      | inr g =>
        obtain ⟨u, a, g1, g2, g3⟩ := g
        exact .failed u a t e' x g1 g2 g3
    | inr h1 =>
      obtain ⟨e1, t1, j, t2, h1, h2, h3⟩ := h1
      cases fetchUrl_cases L net h1 with
      | inl g => obtain ⟨⟨_, g, _⟩, _⟩ := g; cases g
      | inr g =>
        obtain ⟨u, a, g1, g2, g3⟩ := g
        cases h2
        rw [List.append_nil] at h3
        subst h3
        unfold loaded
        rw [hh]
        show OneFetched L net load base vs l e t e' (match load hr j with
          | some p => .ok (p, linksFromJson L.lower j)
          | none => .error .content)
        cases hp : load hr j with
        | none => exact .noPact u a t e' hr j g1 g2 g3 hh hp
        | some p => exact .loaded u a t e' hr j p g1 g2 g3 hh hp

/-- **C128.** Every pact the broker names is fetched, in order, whatever became of those before, and has one result. -/
theorem C128_all (ls : List (Link × C)) : ∀ (e e' : E) (t : List (Sent L.U)) (rs : List (Except Err (P × C × List Link))),
    fetchAll L net load base vs ls e = (e', t, rs) → AllFetched L net load base vs ls e t e' rs ∧ rs.length = ls.length := by
  induction ls with
  | nil =>
    intro e e' t rs h
    cases h
    exact ⟨.nil e, rfl⟩
  | cons p ls ih =>
    obtain ⟨l, c⟩ := p
    intro e e' t rs h
    rw [fetchAll] at h
    rcases h1 : fetchOne L net load base vs l e with ⟨e1, t1, r⟩
    rcases h2 : fetchAll L net load base vs ls e1 with ⟨e2, t2, rs2⟩
    simp only [h1, h2] at h
    cases h
    obtain ⟨k1, k2⟩ := ih _ _ _ _ h2
    exact ⟨.cons l c ls e e1 e' t1 t2 r rs2 (C128_one L net load base vs l e e1 t1 r h1) k1, by simp [k2]⟩

/-- A broker whose answers depend on the request only. -/
def Stateless (net : Net L.U E) (f : Sent L.U → Option Answer) : Prop := ∀ e s, net e s = (e, f s)

theorem Stateless.answers {f : Sent L.U → Option Answer} (hf : Stateless L net f) {s : Sent L.U} {e e' : E}
    {as : List (Option Answer)} (h : Answers net s e as e') : e' = e := by
  induction h with
  | nil => rfl
  | cons e as e' _ ih => rw [ih, hf]

/-- **C128.** With such a broker the result of a pact does not depend on the other pacts. -/
theorem C128_independent {f : Sent L.U → Option Answer} (hf : Stateless L net f) (ls : List (Link × C)) (e : E) :
    (fetchAll L net load base vs ls e).2.2 = ls.map fun p =>
      (fetchOne L net load base vs p.1 e).2.2.map fun q => (q.1, p.2, q.2) := by
  have key : ∀ l, (fetchOne L net load base vs l e).1 = e := by
    intro l
    rcases h1 : fetchOne L net load base vs l e with ⟨e1, t1, r⟩
    have fin : ∀ {s : Sent L.U} {a : Option Answer}, Finally net s e t1 e1 a → e1 = e := fun ⟨_, h, _⟩ => hf.answers L net h
    cases C128_one L net load base vs l e e1 t1 r h1 with
    | noUrl => rfl
    | failed u a _ _ x _ h2 _ => exact fin h2
    | loaded u a _ _ h j p _ h2 _ _ _ => exact fin h2
    | noPact u a _ _ h j _ h2 _ _ _ => exact fin h2
  induction ls with
  | nil => rfl
  | cons p ls ih =>
    obtain ⟨l, c⟩ := p
    rw [fetchAll]
    have hk := key l
    rcases h1 : fetchOne L net load base vs l e with ⟨e1, t1, r⟩
    rw [h1] at hk
    cases hk
    rw [List.map_cons, ← ih]
    simp only [h1]

end

/-! ### Pacts for verification -/

section
variable (L : Lib) {E P C : Type} (net : Net L.U E) (load : Str → Json → Option P)

theorem mapM_some {α β : Type} (f : α → Option β) (as : List α) (bs : List β) (h : as.mapM f = some bs) :
    bs.length = as.length ∧ ∀ a ∈ as, (f a).isSome := by
  induction as generalizing bs with
  | nil => simp at h; subst h; exact ⟨rfl, (by intro a ha; cases ha)⟩
  | cons a as ih =>
    rw [List.mapM_cons] at h
    cases hf : f a with
    | none => rw [hf] at h; cases h
    | some b =>
      rw [hf] at h
      cases hm : as.mapM f with
      | none => rw [hm] at h; cases h
      | some bs' =>
        rw [hm] at h
        cases h
        obtain ⟨h1, h2⟩ := ih bs' hm
        refine ⟨by simp [h1], ?_⟩
        intro x hx
        cases hx with
        | head => rw [hf]; rfl
        | tail _ hx => exact h2 x hx

theorem thenAll_cases {base : Str} {vs : Values} {m : Io L.U E (List (Link × C))} {e e' : E} {t : List (Sent L.U)}
    {r : Except Err (List (Except Err (P × C × List Link)))} (h : thenAll L net load base vs m e = (e', t, r)) :
    (∃ x, m e = (e', t, .error x) ∧ r = .error x) ∨
      ∃ e1 t1 ls t2 rs, m e = (e1, t1, .ok ls) ∧ fetchAll L net load base vs ls e1 = (e', t2, rs) ∧ t = t1 ++ t2 ∧ r = .ok rs := by
  unfold thenAll at h
  rcases hm : m e with ⟨e1, t1, r1⟩
  rw [hm] at h
  cases r1 with
  | error x => cases h; exact .inl ⟨x, rfl, rfl⟩
  | ok ls =>
    rcases hf : fetchAll L net load base vs ls e1 with ⟨e2, t2, rs⟩
    simp only [hf] at h
    cases h
    exact .inr ⟨e1, t1, ls, t2, rs, rfl, hf, rfl, rfl⟩

/-- **C128.** If pacts are selected by the broker, every one of its answer is fetched and has a result, in order. -/
theorem C128_selected (read : Json → Option (List (Selected C))) (question base provider : Str) (e e' : E)
    (t : List (Sent L.U)) (rs : List (Except Err (P × C × List Link)))
    (h : fetchSelected L net load read question base provider e = (e', t, .ok rs)) :
    ∃ u a j ps ls e1 e2 t1 t2 t3, Finally net ⟨.post, u, question⟩ e1 t2 e2 a ∧ Reads a (.ok j) ∧ read j = some ps ∧ ps ≠ [] ∧
      ls.map (fun l => (some l.1, l.2)) = ps.map (fun p => (p.self, p.context)) ∧
      AllFetched L net load base [("provider".toList, provider)] ls e2 t3 e' rs ∧ rs.length = ps.length ∧
      t = t1 ++ (t2 ++ t3) := by
  unfold fetchSelected at h
  cases thenAll_cases L net load h with
  | inl h1 => obtain ⟨_, _, h1⟩ := h1; cases h1
  | inr h1 =>
    obtain ⟨e1, t1, ls, t2, rs', h1, h2, h3, h4⟩ := h1
    cases h4
    cases bind_cases h1 with
    | inl g => obtain ⟨_, _, g⟩ := g; cases g
    | inr g =>
      obtain ⟨e3, t3, d, t4, _, g2, g3⟩ := g
      cases hl : findLink L.lower (some d) "self" with
      | error x => rw [hl, bind_done_error] at g2; cases g2
      | ok l =>
        rw [hl, bind_done_ok] at g2
        cases hu : parseLinkUrl L l [] with
        | error x => rw [hu, bind_done_error] at g2; cases g2
        | ok url =>
          rw [hu, bind_done_ok] at g2
          cases bind_cases g2 with
          | inl k => obtain ⟨_, _, k⟩ := k; cases k
          | inr k =>
            obtain ⟨e4, t5, j, t6, k1, k2, k3⟩ := k
            cases sendDocument_cases L net k1 with
            | inl m => obtain ⟨_, _, m, _⟩ := m; cases m
            | inr m =>
              obtain ⟨u, a, _, m2, m3⟩ := m
              cases hs : selectedLinks ((read j).getD []) with
              | error x => rw [hs] at k2; cases k2
              | ok ls' =>
                rw [hs] at k2
                cases k2
                rw [List.append_nil] at k3
                obtain ⟨n1, n2⟩ := C128_all L net load base _ ls e1 e' t2 rs h2
                cases hrd : read j with
                | none => rw [hrd] at hs; cases hs
                | some ps =>
                  rw [hrd] at hs
                  unfold selectedLinks at hs
                  cases ps with
                  | nil => cases hs
                  | cons p ps =>
                    simp only [Option.getD_some, List.isEmpty_cons, Bool.false_eq_true, if_false] at hs
                    cases hmm : (p :: ps).mapM fun p => p.self.map fun l => (l, p.context) with
                    | none => rw [hmm] at hs; cases hs
                    | some ls'' =>
                      rw [hmm] at hs
                      cases hs
                      refine ⟨u, a, j, p :: ps, ls, _, _, t3, t5, t2, m2, m3, hrd, by simp, ?_, n1, ?_, ?_⟩
                      · clear n1 n2 h2 h1 g2
                        generalize p :: ps = qs at hmm
                        induction qs generalizing ls with
                        | nil => simp at hmm; subst hmm; rfl
                        | cons q qs ih =>
                          rw [List.mapM_cons] at hmm
                          cases hq : q.self with
                          | none => rw [hq] at hmm; cases hmm
                          | some l1 =>
                            rw [hq] at hmm
                            cases hm2 : qs.mapM fun p => p.self.map fun l => (l, p.context) with
                            | none => rw [hm2] at hmm; cases hmm
                            | some ls2 =>
                              rw [hm2] at hmm
                              cases hmm
                              rw [List.map_cons, List.map_cons, ih ls2 hm2, hq]
                      · rw [n2, (mapM_some _ _ _ hmm).1]
                      · rw [h3, g3, k3, List.append_assoc]

/-- **C128.** An answer of the broker that is JSON but not a list of pacts is taken for a provider without pacts. -/
theorem C128_unreadable (read : Json → Option (List (Selected C))) (question base provider : Str) (e e1 e2 : E)
    (t1 t2 : List (Sent L.U)) (d j : Json) (l : Link) (h : Str) (u : L.U) (a : Option Answer)
    (h1 : navigate L net base none "pb:provider-pacts-for-verification" [("provider".toList, provider)] e = (e1, t1, .ok d))
    (h2 : findLink L.lower (some d) "self" = .ok l) (h3 : l.href = some h)
    (h4 : sendUrl L base (expand L.word [] h) = .ok u) (h5 : Finally net ⟨.post, u, question⟩ e1 t2 e2 a)
    (h6 : Reads a (.ok j)) (h7 : read j = none) :
    fetchSelected L net load read question base provider e = (e2, t1 ++ t2, .error .notFound) := by
  unfold fetchSelected thenAll
  have hs : sendDocument L net base (expand L.word [] h) question .post e1 = (e2, t2, .ok j) := by
    unfold sendDocument
    rw [h4, bind_done_ok]
    exact request_of h5 h6
  have : Io.bind (navigate L net base none "pb:provider-pacts-for-verification" [("provider".toList, provider)])
      (fun d => Io.bind (done (findLink L.lower (some d) "self")) fun l => Io.bind (done (parseLinkUrl L l [])) fun u =>
        Io.bind (sendDocument L net base u question .post) fun a => done (selectedLinks ((read a).getD []))) e =
      (e2, t1 ++ (t2 ++ []), .error .notFound) := by
    refine bind_ok_eq h1 ?_
    rw [h2, bind_done_ok]
    unfold parseLinkUrl
    rw [h3]
    simp only [bind_done_ok]
    refine bind_ok_eq hs ?_
    rw [h7]
    rfl
  simp only [this, List.append_nil]

/-- **C128.** Nothing is verified and nothing fails if the broker has no pacts, or if it says of every pact it has selected that
it is not there, unless that is asked to be an error. -/
theorem C128_not_found {E' : Type} (env : Verifier.World E') (re : Verifier.Regexes) (o : Verifier.Options) (e : E')
    (view : P → C → Verifier.Fetched) (ho : o.noPactsIsError = false)
    (r : Except Err (List (Except Err (P × C × List Link))))
    (hr : r = .error .notFound ∨ ∃ rs, r = .ok rs ∧ ∀ x ∈ rs, x = .error .notFound) :
    ∃ run, Verifier.verifyProvider env re o e (fetched view true r) = .ok (run, true) ∧ run.results = [] := by
  have key : ∀ ps : List Verifier.Fetched, (∀ p ∈ ps, p = .notFound) → ∀ a : Verifier.Run E',
      Verifier.runPacts env re o a ps = .ok a := by
    intro ps
    induction ps with
    | nil => intro _ a; rfl
    | cons p ps ih =>
      intro hp a
      rw [Verifier.runPacts, hp p (List.mem_cons_self ..)]
      simp only [Verifier.stepPact, ho, Bool.false_eq_true, if_false, Res.bind_ok]
      exact ih (fun q hq => hp q (List.mem_cons_of_mem _ hq)) a
  have hall : ∀ p ∈ fetched view true r, p = .notFound := by
    intro p hp
    rcases hr with hr | ⟨rs, hr, hx⟩
    · subst hr
      simpa [fetched, noPacts] using hp
    · subst hr
      simp only [fetched, List.mem_map] at hp
      obtain ⟨x, h1, h2⟩ := hp
      rw [hx x h1] at h2
      simpa [fetchedOne, noPacts] using h2.symm
  unfold Verifier.verifyProvider
  rw [key _ hall]
  exact ⟨_, rfl, rfl⟩

/-- **C128.** Of the latest pacts of a provider, one that is not there fails the verification. -/
theorem C128_latest_not_found {E' : Type} (env : Verifier.World E') (re : Verifier.Regexes) (o : Verifier.Options) (e : E')
    (view : P → C → Verifier.Fetched) (rs : List (Except Err (P × C × List Link))) (x : Err) (hx : .error x ∈ rs)
    (run : Verifier.Run E') (b : Bool) (h : Verifier.verifyProvider env re o e (fetched view false (.ok rs)) = .ok (run, b)) :
    b = false := by
  have := (VerifierProps.C39_run env re o e _ run b h).2.2
  cases b with
  | false => rfl
  | true =>
    refine absurd (.inl rfl) ((this.mp rfl).2 .failed ?_)
    simp only [fetched, List.mem_map]
    refine ⟨_, hx, ?_⟩
    unfold fetchedOne noPacts
    cases x <;> rfl

end

/-! ### Links in documents, and where "no pacts" comes from -/

/-- The value of a key in any case: of the first one. -/
def AnyCase (lower : Str → Str) (k : Str) (m : Obj) (v : Option Json) : Prop :=
  (∃ a n w b, m = a ++ (n, w) :: b ∧ lower n = lower k ∧ (∀ e ∈ a, lower e.1 ≠ lower k) ∧ v = some w) ∨
    (v = none ∧ ∀ e ∈ m, lower e.1 ≠ lower k)

/-- An object that describes a link. -/
structure LinkIn (lower : Str → Str) (name : Str) (m : Obj) (l : Link) : Prop where
  name : l.name = name
  href : ∃ v, AnyCase lower "href".toList m v ∧ l.href = v.map asString
  templated : l.templated = true ↔ get "templated" m = some (.bool true)
  title : l.title = (get "title" m).map asString

theorem findEntry_spec (lower : Str → Str) (k : Str) (m : Obj) : AnyCase lower k m (findEntry lower k m) := by
  unfold findEntry
  cases hf : m.find? fun e => decide (lower e.1 = lower k) with
  | none => exact .inr ⟨rfl, fun e he => by simpa using List.find?_eq_none.mp hf e he⟩
  | some e =>
    obtain ⟨h1, a, b, h2, h3⟩ := List.find?_eq_some_iff_append.mp hf
    exact .inl ⟨a, e.1, e.2, b, h2, of_decide_eq_true h1, fun x hx => by simpa using h3 x hx, rfl⟩

theorem fromJson_spec (lower : Str → Str) (name : Str) (m : Obj) : LinkIn lower name m (Link.fromJson lower name m) := by
  refine ⟨rfl, ⟨_, findEntry_spec lower _ m, rfl⟩, ?_, rfl⟩
  show Broker.isTrue m "templated" = true ↔ _
  unfold Broker.isTrue
  split
  · rename_i b h
    rw [h]
    cases b <;> simp
  · rename_i h
    exact ⟨(by intro x; cases x), fun x => absurd x (h true)⟩

/-- An item of a list of links. -/
inductive LinkItem (lower : Str → Str) (name : Str) : Json → Link → Prop
  | object (m : Obj) (l : Link) : LinkIn lower name m l → LinkItem lower name (.obj m) l
  | text (s : Str) : LinkItem lower name (.str s) ⟨name, some s, false, none⟩
  | other (j : Json) : (∀ m, j ≠ .obj m) → (∀ s, j ≠ .str s) → LinkItem lower name j ⟨name, some j.text, false, none⟩

theorem itemLink_spec (lower : Str → Str) (name : Str) (j : Json) : LinkItem lower name j (itemLink lower name j) := by
  cases j with
  | obj m => exact .object m _ (fromJson_spec lower name m)
  | str s => exact .text s
  | null => exact .other _ (by simp) (by simp)
  | bool b => exact .other _ (by simp) (by simp)
  | num n => exact .other _ (by simp) (by simp)
  | arr xs => exact .other _ (by simp) (by simp)

/-- A link of a document with a name. -/
def DocLink (lower : Str → Str) (d : Json) (name : String) (l : Link) : Prop :=
  ∃ ls m, vget "_links" d = some ls ∧ vget name ls = some (.obj m) ∧ LinkIn lower name.toList m l

theorem LinkIn.unique {lower : Str → Str} {name : Str} {m : Obj} {l : Link} (h : LinkIn lower name m l) :
    l = Link.fromJson lower name m := by
  have h' := fromJson_spec lower name m
  obtain ⟨n, hr, t, ti⟩ := l
  have e1 : n = name := h.name
  have e4 : ti = (get "title" m).map asString := h.title
  have e3 : t = Broker.isTrue m "templated" := by
    have a1 := h.templated
    have a2 := h'.templated
    simp only [Link.fromJson] at a2
    have : t = true ↔ Broker.isTrue m "templated" = true := a1.trans a2.symm
    cases t <;> cases hb : Broker.isTrue m "templated" <;> simp_all
  have e2 : hr = (findEntry lower "href".toList m).map asString := by
    obtain ⟨v, hv, he⟩ := h.href
    simp only at he
    rw [he]
    congr 1
    have hv' := findEntry_spec lower "href".toList m
    generalize findEntry lower "href".toList m = w at hv'
    generalize "href".toList = k at hv hv'
    clear h h' he e4 e3
    induction m with
    | nil =>
      rcases hv with ⟨a, n, x, b, hm, _⟩ | ⟨hv, _⟩
      · simp at hm
      · rcases hv' with ⟨a, n, x, b, hm, _⟩ | ⟨hv', _⟩
        · simp at hm
        · rw [hv, hv']
    | cons e m ih =>
      by_cases hk : lower e.1 = lower k
      · have first : ∀ x, AnyCase lower k (e :: m) x → x = some e.2 := by
          intro x hx
          rcases hx with ⟨a, n, y, b, hm, h2, h3, h4⟩ | ⟨_, hx⟩
          · cases a with
            | nil =>
              injection hm with hm _
              rw [h4, hm]
            | cons z a =>
              injection hm with hm _
              exact absurd (hm ▸ hk) (h3 z (List.mem_cons_self ..))
          · exact absurd hk (hx e (List.mem_cons_self ..))
        rw [first v hv, first w hv']
      · have next : ∀ x, AnyCase lower k (e :: m) x → AnyCase lower k m x := by
          intro x hx
          rcases hx with ⟨a, n, y, b, hm, h2, h3, h4⟩ | ⟨h4, hx⟩
          · cases a with
            | nil =>
              injection hm with hm _
              exact absurd (by rw [hm]; exact h2) hk
            | cons z a =>
              injection hm with _ hm
              exact .inl ⟨a, n, y, b, hm, h2, fun c hc => h3 c (List.mem_cons_of_mem _ hc), h4⟩
          · exact .inr ⟨h4, fun c hc => hx c (List.mem_cons_of_mem _ hc)⟩
        exact ih (next v hv) (next w hv')
  subst e1 e2 e3 e4
  rfl

/-- **C130.** A link is the object with its name among the links of the document; anything else is an error. -/
theorem C130_find_link (lower : Str → Str) (d : Json) (name : String) :
    (∀ l, findLink lower (some d) name = .ok l ↔ DocLink lower d name l) ∧
      (∀ x, findLink lower (some d) name = .error x → x = .link) := by
  refine ⟨fun l => ?_, fun x h => findLink_error h⟩
  unfold findLink DocLink
  constructor
  · intro h
    simp only at h
    split at h
    · rename_i ls h1
      split at h
      · rename_i m h2
        cases h
        exact ⟨ls, m, h1, h2, fromJson_spec lower _ m⟩
      · cases h
    · cases h
  · rintro ⟨ls, m, h1, h2, h3⟩
    simp only [h1, h2]
    rw [← h3.unique]

/-- The links of a document, for publishing: all that it has. -/
inductive PactLink (lower : Str → Str) (e : Str × Json) : Link → Prop
  | object (m : Obj) (l : Link) : e.2 = .obj m → LinkIn lower e.1 m l → PactLink lower e l
  | other : (∀ m, e.2 ≠ .obj m) → PactLink lower e ⟨e.1, none, false, none⟩

/-- **C128.** The links of a pact are those of its document. -/
theorem C128_links (lower : Str → Str) (j : Json) :
    (∀ m, vget "_links" j = some (.obj m) → Each (PactLink lower) m (linksFromJson lower j)) ∧
      ((∀ m, vget "_links" j ≠ some (.obj m)) → linksFromJson lower j = []) := by
  unfold linksFromJson
  constructor
  · intro m hm
    simp only [hm]
    clear hm
    induction m with
    | nil => exact .nil
    | cons e m ih =>
      rw [List.map_cons]
      refine .cons ?_ ih
      obtain ⟨k, v⟩ := e
      cases v with
      | obj a => exact .object a _ rfl (fromJson_spec lower k a)
      | _ => exact .other (by simp)
  · intro h
    split
    · rename_i m hm
      exact absurd hm (h m)
    · rfl

section
variable (L : Lib) {E P C : Type} (net : Net L.U E) (load : Str → Json → Option P)

/-- The document at a link of the broker's index. -/
def Navigated (base : Str) (name : String) (vs : Values) (e : E) (t : List (Sent L.U)) (e' : E) (d : Json) : Prop :=
  ∃ u0 a0 d0 e1 t1 l u a t2, resolvePath L base [] = .ok u0 ∧ Finally net ⟨.get, u0, []⟩ e t1 e1 a0 ∧ Reads a0 (.ok d0) ∧
    DocLink L.lower d0 name l ∧ LinkUrl L base l vs u ∧ Finally net ⟨.get, u, []⟩ e1 t2 e' a ∧ Reads a (.ok d) ∧ t = t1 ++ t2

/-- Some request was answered with 404 in the end. -/
def Missing : Prop := ∃ s e t e' b j, Finally net s e t e' (some ⟨404, b, j⟩)

theorem reads_notFound {a : Option Answer} (h : Reads a (.error .notFound)) : ∃ b j, a = some ⟨404, b, j⟩ := by
  cases h with
  | notFound b j => exact ⟨b, j, rfl⟩

theorem navigate_cases {base : Str} {name : String} {vs : Values} {e e' : E} {t : List (Sent L.U)} {r : Except Err Json}
    (h : navigate L net base none name vs e = (e', t, r)) :
    (∃ x, r = .error x ∧ (x = .notFound → Missing L net)) ∨ ∃ d, r = .ok d ∧ Navigated L net base name vs e t e' d := by
  unfold navigate at h
  simp only at h
  cases bind_cases h with
  | inl h1 =>
    obtain ⟨x, h1, h2⟩ := h1
    refine .inl ⟨x, h2, ?_⟩
    intro hx
    subst hx
    cases fetch_cases L net h1 with
    | inl g =>
      obtain ⟨y, g1, g2, _⟩ := g
      cases g2
      cases resolvePath_error L g1
    | inr g =>
      obtain ⟨u, a, _, g2, g3⟩ := g
      obtain ⟨b, j, hb⟩ := reads_notFound g3
      subst hb
      exact ⟨_, _, _, _, _, _, g2⟩
  | inr h1 =>
    obtain ⟨e1, t1, d0, t2, h1, h2, h3⟩ := h1
    cases fetch_cases L net h1 with
    | inl g => obtain ⟨y, g1, g2, _⟩ := g; cases g2
    | inr g =>
      obtain ⟨u0, a0, g1, g2, g3⟩ := g
      cases fetchLink_cases L net h2 with
      | inl k =>
        obtain ⟨⟨x, k1, k2⟩, _⟩ := k
        exact .inl ⟨x, k1, fun hx => absurd hx k2⟩
      | inr k =>
        obtain ⟨l, u, a, k1, k2, k3, k4⟩ := k
        cases r with
        | error x =>
          refine .inl ⟨x, rfl, ?_⟩
          intro hx
          subst hx
          obtain ⟨b, j, hb⟩ := reads_notFound k4
          subst hb
          exact ⟨_, _, _, _, _, _, k3⟩
        | ok d =>
          exact .inr ⟨d, rfl, u0, a0, d0, e1, t1, l, u, a, t2, g1, g2, g3,
            ((C130_find_link L.lower d0 name).1 l).mp k1, k2, k3, k4, h3⟩

theorem each_map {α β : Type} (P : α → β → Prop) (f : α → β) (h : ∀ a, P a (f a)) (as : List α) : Each P as (as.map f) := by
  induction as with
  | nil => exact .nil
  | cons a as ih => exact .cons (h a) ih

/-- **C128.** The latest pacts of a provider: all that the document of the broker for the provider lists; and there are said to
be none only if something is answered with 404. -/
theorem C128_latest (base provider : Str) (e e' : E) (t : List (Sent L.U))
    (r : Except Err (List (Except Err (P × Unit × List Link))))
    (h : fetchLatest L net load base provider e = (e', t, r)) :
    (∃ x, r = .error x ∧ (x = .notFound → Missing L net)) ∨
      ∃ rs d e1 t1 t2 links xs ls, r = .ok rs ∧
        Navigated L net base "pb:latest-provider-pacts" [("provider".toList, provider)] e t1 e1 d ∧
        vget "_links" d = some links ∧ vget "pacts" links = some (.arr xs) ∧
        Each (LinkItem L.lower "pacts".toList) xs ls ∧
        AllFetched L net load base [("provider".toList, provider)] (ls.map fun l => (l, ())) e1 t2 e' rs ∧
        rs.length = xs.length ∧ t = t1 ++ t2 := by
  unfold fetchLatest at h
  cases thenAll_cases L net load h with
  | inl h1 =>
    obtain ⟨x, h1, h2⟩ := h1
    refine .inl ⟨x, h2, ?_⟩
    intro hx
    subst hx
    cases bind_cases h1 with
    | inl g =>
      obtain ⟨y, g1, g2⟩ := g
      cases g2
      cases navigate_cases L net g1 with
      | inl k => obtain ⟨z, k1, k2⟩ := k; cases k1; exact k2 rfl
      | inr k => obtain ⟨d, k1, _⟩ := k; cases k1
    | inr g =>
      obtain ⟨e1, t1, d, t2, _, g2, _⟩ := g
      exfalso
      cases hi : iterLinks L.lower (some d) "pacts" with
      | ok ls => rw [hi, bind_done_ok] at g2; cases g2
      | error y =>
        rw [hi, bind_done_error] at g2
        cases g2
        unfold iterLinks at hi
        simp only at hi
        split at hi
        · split at hi <;> cases hi
        · cases hi
  | inr h1 =>
    obtain ⟨e1, t1, ls, t2, rs, h1, h2, h3, h4⟩ := h1
    right
    cases bind_cases h1 with
    | inl g => obtain ⟨y, _, g2⟩ := g; cases g2
    | inr g =>
      obtain ⟨e2, t3, d, t4, g1, g2, g3⟩ := g
      cases navigate_cases L net g1 with
      | inl k => obtain ⟨z, k1, _⟩ := k; cases k1
      | inr k =>
        obtain ⟨d', k1, k2⟩ := k
        cases k1
        cases hi : iterLinks L.lower (some d) "pacts" with
        | error y => rw [hi, bind_done_error] at g2; cases g2
        | ok ls' =>
          rw [hi, bind_done_ok] at g2
          cases g2
          rw [List.append_nil] at g3
          subst g3
          obtain ⟨n1, n2⟩ := C128_all L net load base _ _ _ e' t2 rs h2
          unfold iterLinks at hi
          simp only at hi
          split at hi
          · rename_i links hl
            split at hi
            · rename_i xs hx
              cases hi
              exact ⟨rs, d, _, t1, t2, links, xs, _, h4, k2, hl, hx, each_map _ _ (itemLink_spec L.lower _) xs, n1,
                by rw [n2, List.length_map, List.length_map], h3⟩
            · cases hi
          · cases hi

/-- **C128.** Of selected pacts there are said to be none only if something is answered with 404, or if the answer has none or
cannot be read. -/
theorem C128_selected_error (read : Json → Option (List (Selected C))) (question base provider : Str) (e e' : E)
    (t : List (Sent L.U)) (h : fetchSelected L net load read question base provider e = (e', t, .error .notFound)) :
    Missing L net ∨ ∃ u a j e1 e2 t2, Finally net ⟨.post, u, question⟩ e1 t2 e2 a ∧ Reads a (.ok j) ∧
      (read j = none ∨ read j = some []) := by
  unfold fetchSelected at h
  cases thenAll_cases L net load h with
  | inr h1 => obtain ⟨_, _, _, _, _, _, _, _, h1⟩ := h1; cases h1
  | inl h1 =>
    obtain ⟨x, h1, h2⟩ := h1
    cases h2
    cases bind_cases h1 with
    | inl g =>
      obtain ⟨y, g1, g2⟩ := g
      cases g2
      cases navigate_cases L net g1 with
      | inl k => obtain ⟨z, k1, k2⟩ := k; cases k1; exact .inl (k2 rfl)
      | inr k => obtain ⟨d, k1, _⟩ := k; cases k1
    | inr g =>
      obtain ⟨e3, t3, d, t4, _, g2, _⟩ := g
      cases hl : findLink L.lower (some d) "self" with
      | error x =>
        rw [hl, bind_done_error] at g2
        cases g2
        cases findLink_error hl
      | ok l =>
        rw [hl, bind_done_ok] at g2
        cases hu : parseLinkUrl L l [] with
        | error x =>
          rw [hu, bind_done_error] at g2
          cases g2
          unfold parseLinkUrl at hu
          split at hu <;> cases hu
        | ok url =>
          rw [hu, bind_done_ok] at g2
          cases bind_cases g2 with
          | inl k =>
            obtain ⟨y, k1, k2⟩ := k
            cases k2
            cases sendDocument_cases L net k1 with
            | inl m =>
              obtain ⟨z, m1, m2, _⟩ := m
              cases m2
              cases sendUrl_error L m1
            | inr m =>
              obtain ⟨u, a, _, m2, m3⟩ := m
              obtain ⟨b, j, hb⟩ := reads_notFound m3
              subst hb
              exact .inl ⟨_, _, _, _, _, _, m2⟩
          | inr k =>
            obtain ⟨e4, t5, j, t6, k1, k2, k3⟩ := k
            cases sendDocument_cases L net k1 with
            | inl m => obtain ⟨_, _, m, _⟩ := m; cases m
            | inr m =>
              obtain ⟨u, a, _, m2, m3⟩ := m
              refine .inr ⟨u, a, j, _, _, _, m2, m3, ?_⟩
              cases hrd : read j with
              | none => exact .inl rfl
              | some ps =>
                cases ps with
                | nil => exact .inr rfl
                | cons p ps =>
                  exfalso
                  have hs : selectedLinks ((read j).getD []) = .error .notFound := congrArg (fun x => x.2.2) k2
                  rw [hrd] at hs
                  unfold selectedLinks at hs
                  simp only [Option.getD_some, List.isEmpty_cons, Bool.false_eq_true, if_false] at hs
                  split at hs <;> cases hs

/-- **C128.** Every other error of getting the pacts fails the verification. -/
theorem C128_error_fails {E' : Type} (env : Verifier.World E') (re : Verifier.Regexes) (o : Verifier.Options) (e : E')
    (view : P → C → Verifier.Fetched) (dynamic : Bool) (x : Err) (hx : x ≠ .notFound)
    (r : Except Err (List (Except Err (P × C × List Link)))) (hr : r = .error x ∨ ∃ rs, r = .ok rs ∧ .error x ∈ rs)
    (run : Verifier.Run E') (b : Bool) (h : Verifier.verifyProvider env re o e (fetched view dynamic r) = .ok (run, b)) :
    b = false := by
  have := (VerifierProps.C39_run env re o e _ run b h).2.2
  have hn : ∀ d w, noPacts d w x = false := by
    intro d w
    cases x <;> first | rfl | exact absurd rfl hx
  cases b with
  | false => rfl
  | true =>
    refine absurd (.inl rfl) ((this.mp rfl).2 .failed ?_)
    rcases hr with hr | ⟨rs, hr, hm⟩
    · subst hr
      simp [fetched, hn]
    · subst hr
      simp only [fetched, List.mem_map]
      refine ⟨_, hm, ?_⟩
      simp [fetchedOne, hn]

end

/-! ### Examples -/

/-- URLs of the examples: a host and a path. -/
def urls : Lib where
  U := Str × Str
  parseUrl s := some (s.takeWhile (· != '/'), s.dropWhile (· != '/'))
  path u := u.2
  join u s := match s with
    | '/' :: '/' :: r => some (r.takeWhile (· != '/'), r.dropWhile (· != '/'))
    | '/' :: r => some (u.1, '/' :: r)
    | r => some (r.takeWhile (· != '/'), r.dropWhile (· != '/'))
  setPath u p := (u.1, p)
  word := asciiWord
  lower := id

def urlHosts : Hosts urls Str where
  host := fun u => u.1
  setPath := fun _ _ => rfl
  join := by
    rintro u p v ⟨s, h1, h2⟩ h
    subst h1
    cases s with
    | nil => cases h; rfl
    | cons c s =>
      have hc : c ≠ '/' := fun e => h2 (by rw [e]; rfl)
      have : urls.join u ('/' :: c :: s) = some (u.1, '/' :: c :: s) := by
        show (match '/' :: c :: s with
          | '/' :: '/' :: r => some (r.takeWhile (· != '/'), r.dropWhile (· != '/'))
          | '/' :: r => some (u.1, '/' :: r)
          | r => some (r.takeWhile (· != '/'), r.dropWhile (· != '/')) : Option (Str × Str)) = _
        split
        · rename_i r hr
          injection hr with _ hr
          injection hr with hr _
          exact absurd hr hc
        · rename_i hr
          injection hr with _ hr
          rw [hr]
        · rename_i hr
          exact absurd rfl (hr _)
      rw [this] at h
      cases h
      rfl

/-- A broker with a provider: it answers by the path. -/
def answer (s : Sent (Str × Str)) : Option Answer :=
  if s.url.2 = "/p".toList then
    some ⟨200, true, some (obj [("_links", obj [("pb:version-tag", obj [("href", .str "/t/{version}/{tag}".toList)]),
      ("pb:branch-version", obj [("href", .str "/b/{branch}/{version}".toList)])])])⟩
  else if s.url.2 = "/missing".toList then some ⟨404, false, none⟩
  else some ⟨200, true, some .null⟩

def broker0 : Net (Str × Str) Unit := fun e s => (e, answer s)

def linkTo (n h : String) : Link := ⟨n.toList, some h.toList, false, none⟩

/-- Publishing one result with a branch and two tags: the requests. -/
theorem C127_example : ((publish urls broker0 "h".toList
      [linkTo "pb:provider" "/p", linkTo "pb:publish-verification-results" "/r"]
      ⟨['v'], ['1'], none, [['x'], "y/z".toList], some ['m'], none⟩ [res "a" "A" .passed] ()).2.1.map
        fun s => (s.method, s.url.2)) =
    [(.get, "/p".toList), (.put, "/b/m/1".toList), (.get, "/p".toList), (.put, "/t/1/x".toList),
      (.put, "/t/1/y%2Fz".toList), (.post, "/r".toList)] := by decide +kernel

/-- **C127.** Without a link for results the tags are published all the same. -/
theorem C127_no_link : ((publish urls broker0 "h".toList [linkTo "pb:provider" "/p"]
      ⟨['v'], ['1'], none, [['x']], none, none⟩ [res "a" "A" .passed] ()).2.1.map fun s => (s.method, s.url.2)) =
    [(.get, "/p".toList), (.put, "/t/1/x".toList)] := by decide +kernel

/-- **C128.** One pact that cannot be fetched does not keep the next one from being fetched. -/
theorem C128_example : (fetchAll urls broker0 (P := Json) (C := Nat) (fun _ j => some j) "h".toList []
      [(linkTo "a" "/missing", 1), (linkTo "b" "/ok", 2)] ()).2.2 =
    [.error .notFound, .ok (.null, 2, [])] := by rfl

/-- **C130.** The path of a link can lead to another host. -/
theorem C130_other_host : (fetchUrl urls broker0 "h".toList (linkTo "a" "h//evil/x") [] ()).2.1.map (fun s => (s.url.1, s.url.2)) =
    [("evil".toList, "/x".toList)] := by rfl

theorem C130_example : ∀ s ∈ (fetchUrl urls broker0 "h".toList (linkTo "a" "evil/x") [] ()).2.1,
    urlHosts.host s.url = "h".toList := by
  intro s hs
  refine C130_host urls urlHosts broker0 "h".toList ("h".toList, []) rfl (linkTo "a" "evil/x") [] () ?_ s hs
  intro t v h1 h2
  cases h1
  cases h2
  exact ⟨['x'], rfl, by decide⟩








end BrokerProps
end Verif
