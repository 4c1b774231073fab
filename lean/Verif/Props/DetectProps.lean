import Verif.Detect
import Verif.Props.EndToEndProps
import Verif.Props.QueryStringProps

/-
  Properties C116 to C118: detection of content types.
-/
set_option autoImplicit false

namespace Verif
namespace DetectProps
open Query Headers MatchResult Detect Compare CompareProps EndToEndProps ResultProps HeaderProps

/-! ### Specification -/

/-- White space only. -/
def White (uc : UC) (w : Str) : Prop := ∀ c ∈ w, uc.white c = true

/-- The text begins, after white space, with an XML declaration. -/
def XmlDecl (uc : UC) (s : Str) : Prop :=
  ∃ w v r, White uc w ∧ White uc v ∧ s = w ++ ("<?xml".toList ++ (v ++ ("version".toList ++ r)))

/-- The text (in upper case) begins, after white space, with a document type, or with `<HTML>`. -/
def Html (uc : UC) (s : Str) : Prop :=
  (∃ w r, White uc w ∧ s = w ++ ("<!DOCTYPE".toList ++ r)) ∨ ∃ r, s = "<HTML>".toList ++ r

/-- The text begins, after white space, with `<` and a character of a word. -/
def Tag (C : Cls) (uc : UC) (s : Str) : Prop := ∃ w c r, White uc w ∧ C.word c = true ∧ s = w ++ '<' :: c :: r

/-- The text begins like a JSON value: a literal, a digit, a string, an array, an empty object or an object whose first
key begins with a character of a word. -/
def JsonHead (C : Cls) (uc : UC) (t : Str) : Prop :=
  (∃ r, t = "true".toList ++ r ∨ t = "false".toList ++ r ∨ t = "null".toList ++ r ∨ t = '"' :: r ∨ t = '[' :: r) ∨
  (∃ c r, c.isDigit = true ∧ t = c :: r) ∨
  (∃ v r, White uc v ∧ t = '{' :: (v ++ '}' :: r)) ∨
  (∃ v c r, White uc v ∧ C.word c = true ∧ t = '{' :: (v ++ '"' :: c :: r))

/-- The same after white space. -/
def JsonStart (C : Cls) (uc : UC) (s : Str) : Prop := ∃ w t, White uc w ∧ s = w ++ t ∧ JsonHead C uc t

/-- White space has no upper case. -/
def CaseFree (C : Cls) (uc : UC) : Prop := ∀ c, uc.white c = true → C.upper c = [c]

/-- The JSON values that are not recognised: negative numbers and objects whose first key is empty or does not begin with
a character of a word. -/
def Missed (C : Cls) : Json → Prop
  | .num (.neg _) => True
  | .num (.flt r) => r.head? = some '-'
  | .obj ((k, _) :: _) => ∀ c, k.head? = some c → C.word c = false
  | _ => False

/-- The text of a floating point number begins with a digit or a minus sign. -/
def NumberText : Json → Prop
  | .num (.flt r) => ∃ c cs, r = c :: cs ∧ (c = '-' ∨ c.isDigit = true)
  | _ => True

/-! ### The tests of the beginning of the text -/

theorem lit_iff (l s r : Str) : lit l s = some r ↔ s = l ++ r := by
  induction l generalizing s with
  | nil => simp [lit, eq_comm]
  | cons x xs ih =>
    cases s with
    | nil => simp [lit]
    | cons c cs =>
      unfold lit
      by_cases h : c = x
      · rw [if_pos h, ih, h]
        simp
      · rw [if_neg h]
        simp [h]

theorem lit_some (l s : Str) : (lit l s).isSome = true ↔ ∃ r, s = l ++ r := by
  rw [Option.isSome_iff_exists]
  exact exists_congr fun r => lit_iff l s r

theorem skip_split (uc : UC) (s : Str) : White uc (s.takeWhile uc.white) ∧ s = s.takeWhile uc.white ++ skip uc s := by
  refine ⟨?_, (List.takeWhile_append_dropWhile (p := uc.white) (l := s)).symm⟩
  intro c hc
  exact List.all_eq_true.mp List.all_takeWhile c hc

theorem skip_app {uc : UC} {w : Str} (h : White uc w) (t : Str) (ht : ∀ c, t.head? = some c → uc.white c = false) :
    skip uc (w ++ t) = t := by
  unfold skip
  induction w with
  | nil =>
    cases t with
    | nil => rfl
    | cons c cs =>
      have := ht c rfl
      show List.dropWhile uc.white (c :: cs) = c :: cs
      rw [List.dropWhile_cons, if_neg (by simp [this])]
  | cons x xs ih =>
    rw [List.cons_append, List.dropWhile_cons, if_pos (h x (by simp))]
    exact ih (fun c hc => h c (by simp [hc]))

theorem white_ne {uc : UC} {c : Char} (h : c.toNat < 128) (h2 : asciiWhite c = false) : uc.white c = false := by
  rw [uc.white_ascii c h, h2]

theorem lt_white (uc : UC) : uc.white '<' = false := white_ne (by decide) (by decide)

theorem isXmlDecl_iff (uc : UC) (s : Str) : isXmlDecl uc s = true ↔ XmlDecl uc s := by
  unfold isXmlDecl XmlDecl
  constructor
  · intro h
    cases hl : lit "<?xml".toList (skip uc s) with
    | none => rw [hl] at h; cases h
    | some r =>
      rw [hl] at h
      obtain ⟨q, hq⟩ := (lit_some _ _).mp h
      rw [lit_iff] at hl
      obtain ⟨h1, h2⟩ := skip_split uc s
      obtain ⟨h3, h4⟩ := skip_split uc r
      refine ⟨_, _, q, h1, h3, ?_⟩
      rw [← hq, ← h4, ← hl]
      exact h2
  · rintro ⟨w, v, r, hw, hv, rfl⟩
    rw [skip_app hw _ (by intro c hc; cases hc; exact lt_white uc)]
    rw [(lit_iff _ _ _).mpr rfl]
    show (lit _ (skip uc (v ++ _))).isSome = true
    rw [skip_app hv _ (by intro c hc; cases hc; exact white_ne (by decide) (by decide)), lit_some]
    exact ⟨r, rfl⟩

theorem isHtml_iff (uc : UC) (s : Str) : isHtml uc s = true ↔ Html uc s := by
  unfold isHtml Html
  rw [Bool.or_eq_true, lit_some, lit_some]
  apply or_congr _ Iff.rfl
  constructor
  · rintro ⟨r, hr⟩
    obtain ⟨h1, h2⟩ := skip_split uc s
    exact ⟨_, r, h1, by rw [← hr]; exact h2⟩
  · rintro ⟨w, r, hw, rfl⟩
    rw [skip_app hw _ (by intro c hc; cases hc; exact lt_white uc)]
    exact ⟨r, rfl⟩

theorem isTag_iff (C : Cls) (uc : UC) (s : Str) : isTag C uc s = true ↔ Tag C uc s := by
  unfold isTag Tag
  constructor
  · intro h
    split at h
    · rename_i r hs
      cases r with
      | nil => cases h
      | cons c r =>
        obtain ⟨h1, h2⟩ := skip_split uc s
        exact ⟨_, c, r, h1, h, by rw [← hs]; exact h2⟩
    · cases h
  · rintro ⟨w, c, r, hw, hc, rfl⟩
    rw [skip_app hw _ (by intro c hc; cases hc; exact lt_white uc)]
    exact hc

theorem isEntry_iff (C : Cls) (s : Str) : isEntry C s = true ↔ (∃ r, s = '}' :: r) ∨ ∃ c r, C.word c = true ∧ s = '"' :: c :: r := by
  unfold isEntry
  split
  · simp
  · rename_i r
    cases r with
    | nil => simp [isWord]
    | cons c r => simp [isWord]
  · rename_i h1 h2
    simp only [Bool.false_eq_true, false_iff, not_or, not_exists, not_and]
    exact ⟨fun r hr => h1 r hr, fun c r _ hr => h2 _ hr⟩

theorem isJsonHead_iff (C : Cls) (uc : UC) (t : Str) : isJsonHead C uc t = true ↔ JsonHead C uc t := by
  unfold isJsonHead JsonHead
  simp only [Bool.or_eq_true, lit_some]
  have hd : isDigits t = true ↔ ∃ c r, c.isDigit = true ∧ t = c :: r := by
    cases t with
    | nil => simp [isDigits]
    | cons c r => simp [isDigits]
  have ho : isObject C uc t = true ↔
      (∃ v r, White uc v ∧ t = '{' :: (v ++ '}' :: r)) ∨ (∃ v c r, White uc v ∧ C.word c = true ∧ t = '{' :: (v ++ '"' :: c :: r)) := by
    constructor
    · intro h
      unfold isObject at h
      split at h
      · rename_i r
        obtain ⟨h1, h2⟩ := skip_split uc r
        rcases (isEntry_iff C _).mp h with ⟨q, hq⟩ | ⟨c, q, hc, hq⟩
        · exact .inl ⟨_, q, h1, by rw [← hq, ← h2]⟩
        · exact .inr ⟨_, c, q, h1, hc, by rw [← hq, ← h2]⟩
      · cases h
    · rintro (⟨v, r, hv, rfl⟩ | ⟨v, c, r, hv, hc, rfl⟩)
      · show isEntry C (skip uc (v ++ '}' :: r)) = true
        rw [skip_app hv _ (by intro c hc; cases hc; exact white_ne (by decide) (by decide))]
        rfl
      · show isEntry C (skip uc (v ++ '"' :: c :: r)) = true
        rw [skip_app hv _ (by intro c hc; cases hc; exact white_ne (by decide) (by decide))]
        exact hc
  rw [hd, ho]
  simp only [List.cons_append, List.nil_append, exists_or]
  constructor
  · rintro ((((((h | h) | h) | h) | h) | h) | h)
    · exact .inl (.inl h)
    · exact .inl (.inr (.inl h))
    · exact .inl (.inr (.inr (.inl h)))
    · exact .inr (.inl h)
    · exact .inl (.inr (.inr (.inr (.inl h))))
    · exact .inr (.inr h)
    · exact .inl (.inr (.inr (.inr (.inr h))))
  · rintro ((h | h | h | h | h) | h | h)
    · exact .inl (.inl (.inl (.inl (.inl (.inl h)))))
    · exact .inl (.inl (.inl (.inl (.inl (.inr h)))))
    · exact .inl (.inl (.inl (.inl (.inr h))))
    · exact .inl (.inl (.inr h))
    · exact .inr h
    · exact .inl (.inl (.inl (.inr h)))
    · exact .inl (.inr h)

/-! ### C116: detection from a text -/

/-- A character that begins neither white space nor a tag. -/
def Plain (c : Char) : Prop := c.toNat < 128 ∧ asciiWhite c = false ∧ c ≠ '<'

theorem upper_plain : ∀ n : Nat, n < 128 → asciiWhite (Char.ofNat n) = false → Char.ofNat n ≠ '<' →
    (Char.ofNat n).toUpper.toNat < 128 ∧ asciiWhite (Char.ofNat n).toUpper = false ∧ (Char.ofNat n).toUpper ≠ '<' := by
  decide +kernel

theorem upper_ok {c : Char} (h : Plain c) : Plain c.toUpper := by
  have he : Char.ofNat c.toNat = c := Char.ofNat_toNat c
  have := upper_plain c.toNat h.1 (by rw [he]; exact h.2.1) (by rw [he]; exact h.2.2)
  rw [he] at this
  exact this

theorem upper_app (C : Cls) (s t : Str) : upperStr C (s ++ t) = upperStr C s ++ upperStr C t := by
  simp [upperStr]

theorem upper_white {C : Cls} {uc : UC} (hc : CaseFree C uc) {w : Str} (h : White uc w) : upperStr C w = w := by
  induction w with
  | nil => rfl
  | cons c cs ih =>
    show C.upper c ++ upperStr C cs = c :: cs
    rw [hc c (h c (by simp)), ih (fun d hd => h d (by simp [hd]))]
    rfl

theorem lit_head {l : Char} {ls : Str} {c : Char} (h : c ≠ l) (r : Str) : lit (l :: ls) (c :: r) = none := by
  unfold lit
  rw [if_neg h]

theorem skip_plain {uc : UC} {w : Str} (hw : White uc w) {c : Char} (h : Plain c) (r : Str) : skip uc (w ++ c :: r) = c :: r :=
  skip_app hw _ (by intro d hd; cases hd; exact white_ne h.1 h.2.1)

/-- A text that does not begin with a tag is JSON or plain text. -/
theorem not_markup {C : Cls} {uc : UC} (hc : CaseFree C uc) {w : Str} (hw : White uc w) {c : Char} (h : Plain c) (r : Str) :
    detectString C uc (w ++ c :: r) = if isJsonHead C uc (c :: r) = true then jsonType else textType := by
  have h1 : isXmlDecl uc (w ++ c :: r) = false := by
    unfold isXmlDecl
    rw [skip_plain hw h, show "<?xml".toList = '<' :: "?xml".toList from rfl, lit_head h.2.2]
  have h2 : isTag C uc (w ++ c :: r) = false := by
    unfold isTag
    rw [skip_plain hw h]
    split
    · rename_i hh
      cases hh
      exact absurd rfl h.2.2
    · rfl
  have h3 : isHtml uc (upperStr C (w ++ c :: r)) = false := by
    have hu := upper_ok h
    have he : upperStr C (w ++ c :: r) = w ++ c.toUpper :: upperStr C r := by
      rw [upper_app, upper_white hc hw]
      show w ++ (C.upper c ++ _) = _
      rw [C.upper_ascii c h.1]
      rfl
    unfold isHtml
    rw [he, skip_plain hw hu, show "<!DOCTYPE".toList = '<' :: "!DOCTYPE".toList from rfl, lit_head hu.2.2]
    cases hl : lit "<HTML>".toList (w ++ c.toUpper :: upperStr C r) with
    | none => rfl
    | some q =>
      exfalso
      rw [lit_iff] at hl
      cases w with
      | nil =>
        have : c.toUpper = '<' := by injection hl
        exact hu.2.2 this
      | cons x xs =>
        have hx : x = '<' := by injection hl
        have := hw x (by simp)
        rw [hx, lt_white] at this
        cases this
  unfold detectString
  rw [h1, h2, h3]
  unfold isJsonStart
  rw [skip_plain hw h]
  rfl

theorem digit_plain {c : Char} (h : c.isDigit = true) : Plain c := by
  have h1 : 48 ≤ c.toNat ∧ c.toNat ≤ 57 := by
    unfold Char.isDigit at h
    rw [Bool.and_eq_true, decide_eq_true_eq, decide_eq_true_eq] at h
    exact ⟨UInt32.le_iff_toNat_le.mp h.1, UInt32.le_iff_toNat_le.mp h.2⟩
  refine ⟨by omega, ?_, ?_⟩
  · unfold asciiWhite
    simp only [Bool.or_eq_false_iff, beq_eq_false_iff_ne, Bool.and_eq_false_iff, decide_eq_false_iff_not]
    omega
  · rintro rfl
    exact absurd h1.2 (by decide)

theorem head_plain {C : Cls} {uc : UC} {t : Str} (h : JsonHead C uc t) : ∃ c r, t = c :: r ∧ Plain c := by
  unfold Plain
  rcases h with ⟨r, h | h | h | h | h⟩ | ⟨c, r, hc, h⟩ | ⟨v, r, _, h⟩ | ⟨v, c, r, _, _, h⟩
  · exact ⟨'t', "rue".toList ++ r, h, by decide⟩
  · exact ⟨'f', "alse".toList ++ r, h, by decide⟩
  · exact ⟨'n', "ull".toList ++ r, h, by decide⟩
  · exact ⟨'"', r, h, by decide⟩
  · exact ⟨'[', r, h, by decide⟩
  · exact ⟨c, r, h, digit_plain hc⟩
  · exact ⟨'{', _, h, by decide⟩
  · exact ⟨'{', _, h, by decide⟩

theorem isJsonStart_iff (C : Cls) (uc : UC) (s : Str) : isJsonStart C uc s = true ↔ JsonStart C uc s := by
  unfold isJsonStart JsonStart
  rw [isJsonHead_iff]
  constructor
  · intro h
    obtain ⟨h1, h2⟩ := skip_split uc s
    exact ⟨_, _, h1, h2, h⟩
  · rintro ⟨w, t, hw, rfl, ht⟩
    obtain ⟨c, r, rfl, hp⟩ := head_plain ht
    rw [skip_plain hw hp]
    exact ht

/-- What is detected, for every text. -/
theorem C116_detect (C : Cls) (uc : UC) (hc : CaseFree C uc) (s : Str) :
    (detectString C uc s = xmlType ↔ XmlDecl uc s ∨ (¬ Html uc (upperStr C s) ∧ Tag C uc s)) ∧
    (detectString C uc s = htmlType ↔ ¬ XmlDecl uc s ∧ Html uc (upperStr C s)) ∧
    (detectString C uc s = jsonType ↔ JsonStart C uc s) ∧
    (detectString C uc s = textType ↔ ¬ XmlDecl uc s ∧ ¬ Html uc (upperStr C s) ∧ ¬ Tag C uc s ∧ ¬ JsonStart C uc s) := by
  have hj : JsonStart C uc s → ¬ XmlDecl uc s ∧ ¬ Html uc (upperStr C s) ∧ ¬ Tag C uc s := by
    intro h
    have h0 := h
    obtain ⟨w, t, hw, rfl, ht⟩ := h
    obtain ⟨c, r, rfl, hp⟩ := head_plain ht
    have := not_markup hc hw hp r
    rw [if_pos ((isJsonHead_iff C uc _).mpr ht)] at this
    unfold detectString at this
    rw [← isXmlDecl_iff, ← isHtml_iff, ← isTag_iff]
    split at this
    · exact absurd this (by decide +kernel)
    · rename_i h1
      split at this
      · exact absurd this (by decide +kernel)
      · rename_i h2
        split at this
        · exact absurd this (by decide +kernel)
        · rename_i h3
          exact ⟨h1, h2, h3⟩
  rw [← isXmlDecl_iff, ← isHtml_iff, ← isTag_iff, ← isJsonStart_iff] at *
  unfold detectString
  have d1 : xmlType ≠ htmlType ∧ xmlType ≠ jsonType ∧ xmlType ≠ textType ∧ htmlType ≠ jsonType ∧ htmlType ≠ textType ∧ jsonType ≠ textType := by
    decide +kernel
  obtain ⟨e1, e2, e3, e4, e5, e6⟩ := d1
  by_cases a1 : isXmlDecl uc s = true
  · have : ¬ isJsonStart C uc s = true := fun h => (hj h).1 a1
    simp [a1, this, e1, e2, e3]
  · by_cases a2 : isHtml uc (upperStr C s) = true
    · have : ¬ isJsonStart C uc s = true := fun h => (hj h).2.1 a2
      simp [a1, a2, this, e1.symm, e4, e5]
    · by_cases a3 : isTag C uc s = true
      · have : ¬ isJsonStart C uc s = true := fun h => (hj h).2.2 a3
        simp [a1, a2, a3, this, e1, e2, e3]
      · by_cases a4 : isJsonStart C uc s = true
        · simp [a1, a2, a3, a4, e2.symm, e4.symm, e6]
        · simp [a1, a2, a3, a4, e3.symm, e5.symm, e6.symm]

/-- The texts of the JSON values. -/
inductive Shape (C : Cls) : Json → Str → Prop
  | word (j : Json) (t : Str) (h : t = "true".toList ∨ t = "false".toList ∨ t = "null".toList ∨ t = "{}".toList) (hm : ¬ Missed C j) : Shape C j t
  | open_ (j : Json) (c : Char) (r : Str) (h : c = '"' ∨ c = '[' ∨ c.isDigit = true) (hm : ¬ Missed C j) : Shape C j (c :: r)
  | minus (j : Json) (r : Str) (hm : Missed C j) : Shape C j ('-' :: r)
  | entry (j : Json) (c : Char) (r : Str) (hm : Missed C j ↔ C.word c = false) : Shape C j ('{' :: '"' :: c :: r)

theorem natStr_head (n : Nat) : ∃ c r, natStr n = c :: r ∧ c.isDigit = true := by
  have h1 : natStr n ≠ [] := natStr_ne_nil n
  cases h : natStr n with
  | nil => exact absurd h h1
  | cons c r =>
    refine ⟨c, r, rfl, ?_⟩
    have := natStr_digits n c (by rw [h]; simp)
    exact this

theorem escape_word {C : Cls} (c : Char) : ∃ d r, Json.escapeChar c = d :: r ∧ (C.word c = false ↔ C.word d = false) := by
  have hb : C.word '\\' = false := by rw [C.word_ascii _ (by decide)]; decide
  have hlow : c.toNat < 32 → C.word c = false := by
    intro h
    rw [C.word_ascii c (by omega)]
    have : ∀ n : Nat, n < 32 → ((Char.ofNat n).isAlpha || (Char.ofNat n).isDigit || (Char.ofNat n) == '_') = false := by decide
    have h2 := this c.toNat h
    rwa [Char.ofNat_toNat] at h2
  have hq : C.word '"' = false := by rw [C.word_ascii _ (by decide)]; decide
  unfold Json.escapeChar
  split
  · rename_i h; subst h; exact ⟨_, _, rfl, by simp [hb, hq]⟩
  split
  · rename_i h; subst h; exact ⟨_, _, rfl, Iff.rfl⟩
  split
  · rename_i h; exact ⟨_, _, rfl, by simp [hb, hlow (by omega)]⟩
  split
  · rename_i h; exact ⟨_, _, rfl, by simp [hb, hlow (by omega)]⟩
  split
  · rename_i h; exact ⟨_, _, rfl, by simp [hb, hlow (by omega)]⟩
  split
  · rename_i h; exact ⟨_, _, rfl, by simp [hb, hlow (by omega)]⟩
  split
  · rename_i h; exact ⟨_, _, rfl, by simp [hb, hlow (by omega)]⟩
  split
  · rename_i h; exact ⟨_, _, rfl, by simp [hb, hlow (by omega)]⟩
  · exact ⟨_, _, rfl, Iff.rfl⟩

theorem text_shape (C : Cls) (j : Json) (hn : NumberText j) : Shape C j j.text := by
  cases j with
  | null => exact .word _ _ (.inr (.inr (.inl rfl))) (by simp [Missed])
  | bool b =>
    cases b
    · exact .word _ _ (.inr (.inl rfl)) (by simp [Missed])
    · exact .word _ _ (.inl rfl) (by simp [Missed])
  | num n =>
    cases n with
    | pos n =>
      obtain ⟨c, r, h, hc⟩ := natStr_head n
      show Shape C _ (natStr n)
      rw [h]
      exact .open_ _ c r (.inr (.inr hc)) (by simp [Missed])
    | neg n => exact .minus _ _ (by simp [Missed])
    | flt r =>
      obtain ⟨c, cs, rfl, hc⟩ := hn
      rcases hc with rfl | hc
      · exact .minus _ _ (by simp [Missed])
      · refine .open_ _ c cs (.inr (.inr hc)) ?_
        simp only [Missed, List.head?_cons, Option.some.injEq]
        rintro rfl
        exact absurd hc (by decide)
  | str s => exact .open_ _ _ _ (.inl rfl) (by simp [Missed])
  | arr l => exact .open_ _ _ _ (.inr (.inl rfl)) (by simp [Missed])
  | obj es =>
    cases es with
    | nil => exact .word _ _ (.inr (.inr (.inr rfl))) (by simp [Missed])
    | cons e es =>
      obtain ⟨k, v⟩ := e
      cases k with
      | nil =>
        have hq : C.word '"' = false := by rw [C.word_ascii _ (by decide)]; decide
        refine .entry _ '"' _ ?_
        simp [Missed, hq]
      | cons x xs =>
        obtain ⟨d, r, hd, hw⟩ := escape_word (C := C) x
        have : Json.text (.obj ((x :: xs, v) :: es)) = '{' :: '"' :: d :: (r ++ xs.flatMap Json.escapeChar ++ ['"'] ++ ':' :: v.text ++
            (match es with | [] => [] | _ :: _ => ',' :: Json.textEntries es) ++ ['}']) := by
          simp only [Json.text, Json.textEntries, Json.textEntry, Json.quote, List.flatMap_cons, hd]
          cases es <;> simp
        rw [this]
        refine .entry _ d _ ?_
        rw [← hw]
        simp [Missed]

theorem shape_detect {C : Cls} {uc : UC} (hc : CaseFree C uc) {w : Str} (hw : White uc w) {j : Json} {t : Str} (h : Shape C j t) :
    (Missed C j → detectString C uc (w ++ t) = textType) ∧ (¬ Missed C j → detectString C uc (w ++ t) = jsonType) := by
  have key : ∀ (c : Char) (r : Str), Plain c → t = c :: r → (Missed C j → ¬ JsonHead C uc (c :: r)) → (¬ Missed C j → JsonHead C uc (c :: r)) →
      (Missed C j → detectString C uc (w ++ t) = textType) ∧ (¬ Missed C j → detectString C uc (w ++ t) = jsonType) := by
    intro c r hp ht h1 h2
    rw [ht, not_markup hc hw hp]
    refine ⟨fun hm => if_neg (fun hh => h1 hm ((isJsonHead_iff C uc _).mp hh)), fun hm => if_pos ((isJsonHead_iff C uc _).mpr (h2 hm))⟩
  cases h with
  | word _ h hm =>
    rcases h with rfl | rfl | rfl | rfl
    · exact key 't' "rue".toList (by unfold Plain; decide) rfl (fun h => absurd h hm) (fun _ => .inl ⟨[], .inl rfl⟩)
    · exact key 'f' "alse".toList (by unfold Plain; decide) rfl (fun h => absurd h hm) (fun _ => .inl ⟨[], .inr (.inl rfl)⟩)
    · exact key 'n' "ull".toList (by unfold Plain; decide) rfl (fun h => absurd h hm) (fun _ => .inl ⟨[], .inr (.inr (.inl rfl))⟩)
    · exact key '{' "}".toList (by unfold Plain; decide) rfl (fun h => absurd h hm)
        (fun _ => .inr (.inr (.inl ⟨[], [], (fun c hc => by cases hc), rfl⟩)))
  | open_ c r h hm =>
    rcases h with rfl | rfl | h
    · exact key '"' r (by unfold Plain; decide) rfl (fun h => absurd h hm) (fun _ => .inl ⟨r, .inr (.inr (.inr (.inl rfl)))⟩)
    · exact key '[' r (by unfold Plain; decide) rfl (fun h => absurd h hm) (fun _ => .inl ⟨r, .inr (.inr (.inr (.inr rfl)))⟩)
    · exact key c r (digit_plain h) rfl (fun h => absurd h hm) (fun _ => .inr (.inl ⟨c, r, h, rfl⟩))
  | minus r hm =>
    refine key '-' r (by unfold Plain; decide) rfl (fun _ hh => ?_) (fun h => absurd hm h)
    rcases hh with ⟨q, h | h | h | h | h⟩ | ⟨c, q, hq, h⟩ | ⟨v, q, _, h⟩ | ⟨v, c, q, _, _, h⟩
    · cases h
    · cases h
    · cases h
    · cases h
    · cases h
    · cases h; exact absurd hq (by decide)
    · cases h
    · cases h
  | entry c r hm =>
    refine key '{' _ (by unfold Plain; decide) rfl (fun h hh => ?_) (fun h => ?_)
    · have hwc := hm.mp h
      have hq : uc.white '"' = false := white_ne (by decide) (by decide)
      rcases hh with ⟨q, h | h | h | h | h⟩ | ⟨c, q, hq, h⟩ | ⟨v, q, hv, h⟩ | ⟨v, d, q, hv, hd, h⟩
      · cases h
      · cases h
      · cases h
      · cases h
      · cases h
      · cases h; exact absurd hq (by decide)
      · cases v with
        | nil => cases h
        | cons x xs =>
          have hx : x = '"' := by injection h with _ h; injection h with h _; exact h.symm
          have := hv x (by simp)
          rw [hx, hq] at this
          cases this
      · cases v with
        | nil => cases h; rw [hwc] at hd; cases hd
        | cons x xs =>
          have hx : x = '"' := by injection h with _ h; injection h with h _; exact h.symm
          have := hv x (by simp)
          rw [hx, hq] at this
          cases this
    · have : C.word c = true := by
        cases hw : C.word c with
        | true => rfl
        | false => exact absurd (hm.mpr hw) h
      exact .inr (.inr (.inr ⟨[], c, r, (fun c hc => by cases hc), this, rfl⟩))

/-- JSON documents, after any white space: detected as JSON, except those of `Missed`, which are plain text. -/
theorem C116_json (C : Cls) (uc : UC) (hc : CaseFree C uc) (w : Str) (hw : White uc w) (j : Json) (hn : NumberText j) :
    (Missed C j → detectString C uc (w ++ j.text) = textType) ∧ (¬ Missed C j → detectString C uc (w ++ j.text) = jsonType) :=
  shape_detect hc hw (text_shape C j hn)

/-! ### C117: detection from bytes -/

open PactFile in
/-- A character is split at byte 32. -/
def Split (s : Str) : Prop := 32 < (utf8 s).length ∧ ∀ p q, s = p ++ q → (utf8 p).length ≠ 32

open PactFile in
theorem utf8_app (s t : Str) : utf8 (s ++ t) = utf8 s ++ utf8 t := by simp [utf8]

theorem enc_length (c : Char) : (String.utf8EncodeChar c).length = c.utf8Size := String.length_utf8EncodeChar c

theorem enc_prefix {c d : Char} {s t : List UInt8} (h : String.utf8EncodeChar c ++ s = String.utf8EncodeChar d ++ t) : c = d := by
  have h1 := ByteArray.utf8DecodeChar?_utf8EncodeChar_append (b := s.toByteArray) (c := c)
  have h2 := ByteArray.utf8DecodeChar?_utf8EncodeChar_append (b := t.toByteArray) (c := d)
  rw [← List.toByteArray_append] at h1 h2
  rw [h, h2] at h1
  exact (Option.some.inj h1).symm

open PactFile in
theorem utf8_length_pos {s : Str} (h : s ≠ []) : 1 ≤ (utf8 s).length := by
  cases s with
  | nil => exact absurd rfl h
  | cons c cs =>
    have h1 : (utf8 (c :: cs)).length = c.utf8Size + (utf8 cs).length := by
      simp [utf8, enc_length]
    have := (QueryStringProps.utf8Size_le c).2.1
    omega

theorem utf8_decode (s : Str) : QS.fromUtf8 (PactFile.utf8 s) = some s := (QueryStringProps.fromUtf8_iff _ _).mpr rfl

theorem utf8_inj {s t : Str} (h : PactFile.utf8 s = PactFile.utf8 t) : s = t := by
  have := utf8_decode s
  rw [h, utf8_decode] at this
  exact (Option.some.inj this).symm

open PactFile in
/-- The first characters of a text: those in the first `n` bytes, if no character is split. -/
theorem take_utf8 (s p : Str) (n : Nat) (hn : n ≤ (utf8 s).length) :
    QS.fromUtf8 ((utf8 s).take n) = some p ↔ ∃ q, s = p ++ q ∧ (utf8 p).length = n := by
  rw [QueryStringProps.fromUtf8_iff]
  constructor
  · intro h
    change utf8 p = (utf8 s).take n at h
    have hlen : (utf8 p).length = n := by rw [h, List.length_take]; omega
    have key : ∀ (p s : Str) (n : Nat), n ≤ (utf8 s).length → utf8 p = (utf8 s).take n → ∃ q, s = p ++ q := by
      intro p s n hn h
      have h3 : utf8 p ++ (utf8 s).drop n = utf8 s := by rw [h, List.take_append_drop]
      induction p generalizing s n with
      | nil => exact ⟨s, rfl⟩
      | cons c cs ih =>
        cases s with
        | nil =>
          have := utf8_length_pos (s := c :: cs) (by simp)
          rw [h] at this
          simp [utf8] at this
        | cons d ds =>
          have hc : c = d := by
            have h5 : String.utf8EncodeChar c ++ (utf8 cs ++ (utf8 (d :: ds)).drop n) = String.utf8EncodeChar d ++ utf8 ds := by
              have h6 : utf8 (c :: cs) ++ (utf8 (d :: ds)).drop n = utf8 (d :: ds) := h3
              simpa [utf8] using h6
            exact enc_prefix h5
          subst hc
          have hsz : (utf8 (c :: cs)).length = c.utf8Size + (utf8 cs).length := by simp [utf8, enc_length]
          have hn' : n = (utf8 (c :: cs)).length := by rw [h, List.length_take]; omega
          have hds : (utf8 (c :: ds)) = String.utf8EncodeChar c ++ utf8 ds := by simp [utf8]
          have hlen2 : (utf8 (c :: ds)).length = c.utf8Size + (utf8 ds).length := by simp [utf8, enc_length]
          have hcs : (utf8 (c :: cs)) = String.utf8EncodeChar c ++ utf8 cs := by simp [utf8]
          have hle : c.utf8Size ≤ n := by omega
          have hdrop : (utf8 (c :: ds)).drop n = (utf8 ds).drop (n - c.utf8Size) := by
            rw [hds, List.drop_append, enc_length, List.drop_eq_nil_of_le (by rw [enc_length]; exact hle), List.nil_append]
          have h7 : utf8 cs ++ (utf8 ds).drop (n - c.utf8Size) = utf8 ds := by
            have h6 : utf8 (c :: cs) ++ (utf8 (c :: ds)).drop n = utf8 (c :: ds) := h3
            rw [hdrop, hcs, hds, List.append_assoc] at h6
            exact List.append_cancel_left h6
          have h8 : utf8 cs = (utf8 ds).take (n - c.utf8Size) := by
            have h9 : (utf8 cs).length = n - c.utf8Size := by omega
            have h10 := congrArg (List.take (n - c.utf8Size)) h7
            rw [List.take_left' h9] at h10
            exact h10
          obtain ⟨q, hq⟩ := ih ds (n - c.utf8Size) (by omega) h8 h7
          exact ⟨q, by rw [hq]; rfl⟩
    obtain ⟨q, hq⟩ := key p s n hn h
    exact ⟨q, hq, hlen⟩
  · rintro ⟨q, rfl, rfl⟩
    change utf8 p = _
    rw [utf8_app]
    simp

open PactFile in
/-- Detection from the bytes of a text: up to 32 bytes as from the text, otherwise from the characters in the first 32
bytes, and nothing at all if a character is split there. -/
theorem C117_bytes (C : Cls) (uc : UC) (s : Str) :
    ((utf8 s).length ≤ 32 → detectBytes C uc (utf8 s) = some (detectString C uc s)) ∧
    (∀ p q, s = p ++ q → (utf8 p).length = 32 → detectBytes C uc (utf8 s) = some (detectString C uc p)) ∧
    (detectBytes C uc (utf8 s) = none ↔ Split s) := by
  have h1 : (utf8 s).length ≤ 32 → detectBytes C uc (utf8 s) = some (detectString C uc s) := by
    intro h
    unfold detectBytes
    rw [if_neg (by omega), utf8_decode]
    rfl
  have h2 : ∀ p q, s = p ++ q → (utf8 p).length = 32 → detectBytes C uc (utf8 s) = some (detectString C uc p) := by
    intro p q hs hp
    by_cases hl : (utf8 s).length > 32
    · unfold detectBytes
      rw [if_pos hl, (take_utf8 s p 32 (by omega)).mpr ⟨q, hs, hp⟩]
      rfl
    · have : q = [] := by
        have h3 : (utf8 s).length = (utf8 p).length + (utf8 q).length := by rw [hs, utf8_app, List.length_append]
        apply Classical.byContradiction
        intro hq
        have := utf8_length_pos hq
        omega
      subst this
      rw [List.append_nil] at hs
      rw [h1 (by omega), hs]
  refine ⟨h1, h2, ?_⟩
  unfold Split
  constructor
  · intro h
    refine ⟨?_, ?_⟩
    · apply Classical.byContradiction
      intro hl
      rw [h1 (by omega)] at h
      cases h
    · intro p q hs hp
      rw [h2 p q hs hp] at h
      cases h
  · rintro ⟨hl, hs⟩
    unfold detectBytes
    rw [if_pos hl]
    cases hf : QS.fromUtf8 (List.take 32 (utf8 s)) with
    | none => rfl
    | some p =>
      obtain ⟨q, hq, hp⟩ := (take_utf8 s p 32 (by omega)).mp hf
      exact absurd hp (hs p q hq)

open PactFile in
theorem utf8_cons (c : Char) (s : Str) : (utf8 (c :: s)).length = c.utf8Size + (utf8 s).length := by
  simp [utf8, enc_length]

open PactFile in
/-- A prefix of at least 32 bytes has the shape of the whole text. -/
theorem shape_prefix {C : Cls} {j : Json} {t p q : Str} (h : Shape C j t) (ht : t = p ++ q) (hp : (utf8 p).length = 32) : Shape C j p := by
  have four : ∀ c : Char, c.utf8Size ≤ 4 := fun c => Char.utf8Size_le_four c
  cases h with
  | word t h hm =>
    exfalso
    have h3 : (utf8 t).length = (utf8 p).length + (utf8 q).length := by rw [ht, utf8_app, List.length_append]
    have h4 : (utf8 t).length ≤ 5 := by
      rcases h with rfl | rfl | rfl | rfl <;> decide
    omega
  | open_ c r h hm =>
    cases p with
    | nil => cases hp
    | cons d p =>
      injection ht with h1 h2
      subst h1
      exact .open_ _ _ _ h hm
  | minus r hm =>
    cases p with
    | nil => cases hp
    | cons d p =>
      injection ht with h1 h2
      subst h1
      exact .minus _ _ hm
  | entry c r hm =>
    match p, hp, ht with
    | [], hp, _ => cases hp
    | [a], hp, _ =>
      rw [utf8_cons] at hp
      have := four a
      have : (utf8 []).length = 0 := rfl
      omega
    | [a, b], hp, _ =>
      rw [utf8_cons, utf8_cons] at hp
      have := four a
      have := four b
      have : (utf8 []).length = 0 := rfl
      omega
    | a :: b :: d :: p, _, ht =>
      injection ht with h1 h2
      injection h2 with h2 h3
      injection h3 with h3 h4
      subst h1 h2 h3
      exact .entry _ _ _ hm

/-- JSON documents as bytes: as from their text, unless a character is split at byte 32. -/
theorem C117_json (C : Cls) (uc : UC) (hc : CaseFree C uc) (j : Json) (hn : NumberText j) (hs : ¬ Split j.text) :
    (Missed C j → detectBytes C uc (PactFile.utf8 j.text) = some textType) ∧
    (¬ Missed C j → detectBytes C uc (PactFile.utf8 j.text) = some jsonType) := by
  have hw : White uc [] := fun c h => by cases h
  obtain ⟨h1, h2, h3⟩ := C117_bytes C uc j.text
  have hsh := text_shape C j hn
  by_cases hl : (PactFile.utf8 j.text).length ≤ 32
  · rw [h1 hl]
    have := shape_detect hc hw hsh
    exact ⟨fun hm => congrArg some (this.1 hm), fun hm => congrArg some (this.2 hm)⟩
  · have : ∃ p q, j.text = p ++ q ∧ (PactFile.utf8 p).length = 32 := by
      apply Classical.byContradiction
      intro hh
      exact hs ⟨by omega, fun p q hpq hp => hh ⟨p, q, hpq, hp⟩⟩
    obtain ⟨p, q, hpq, hp⟩ := this
    rw [h2 p q hpq hp]
    have := shape_detect hc hw (shape_prefix hsh hpq hp)
    exact ⟨fun hm => congrArg some (this.1 hm), fun hm => congrArg some (this.2 hm)⟩

/-- With a split character nothing is detected. -/
theorem C117_split_fails (C : Cls) (uc : UC) (j : Json) (hs : Split j.text) : detectBytes C uc (PactFile.utf8 j.text) = none :=
  (C117_bytes C uc j.text).2.2.mpr hs

/-! ### C118: the consequences for matching -/

/-- The content type rule: what is accepted. -/
theorem C118_rule (C : Cls) (uc : UC) (parse : Str → Option ContentType) (g : Magic) (b : Bytes) (expected : Str) :
    matchContentType C uc parse g b expected = true ↔
      g.infer b = expected ∨ (g.infer b = [] ∧ g.magic b = expected) ∨
      ((g.infer b = "text/plain".toList ∨ g.infer b = [] ∧ g.magic b = "text/plain".toList) ∧
        ∃ ct, detectBytes C uc b = some ct ∧ ct = (parse expected).getD .unknown) := by
  have hne : ("text/plain".toList : Str) ≠ [] := by decide
  unfold matchContentType
  by_cases h1 : g.infer b = expected
  · simp [h1]
  rw [if_neg h1]
  by_cases h2 : g.infer b = [] ∧ g.magic b = expected
  · simp [h2]
  rw [if_neg h2]
  have hf : found g b = "text/plain".toList ↔ (g.infer b = "text/plain".toList ∨ g.infer b = [] ∧ g.magic b = "text/plain".toList) := by
    unfold found
    by_cases h : g.infer b = []
    · rw [if_pos h]
      constructor
      · intro hh; exact .inr ⟨h, hh⟩
      · rintro (hh | hh)
        · rw [h] at hh; exact absurd hh.symm hne
        · exact hh.2
    · rw [if_neg h]
      constructor
      · intro hh; exact .inl hh
      · rintro (hh | hh)
        · exact hh
        · exact absurd hh.1 h
  have hb : bytesType C uc parse b expected = true ↔ ∃ ct, detectBytes C uc b = some ct ∧ ct = (parse expected).getD .unknown := by
    unfold bytesType
    cases detectBytes C uc b <;> simp
  by_cases h3 : found g b = "text/plain".toList
  · rw [if_pos h3, hb]
    simp only [h1, h2, false_or]
    exact ⟨fun h => ⟨hf.mp h3, h⟩, fun h => h.2⟩
  · rw [if_neg h3]
    simp only [h1, h2, false_or, Bool.false_eq_true, false_iff]
    exact fun h => h3 (hf.mpr h.1)

/-- A part without content type whose body is a JSON document. -/
def bare (j : Json) : Part := ⟨none, .present (PactFile.utf8 j.text) none⟩

/-- The content type of a part without content type. -/
theorem C118_bare (C : Cls) (uc : UC) (hc : CaseFree C uc) (be : BodyEnv) (j : Json) (hn : NumberText j) :
    (Missed C j → contentTypeD uc (withDetect C uc be) (bare j) = textType) ∧
    (¬ Missed C j → contentTypeD uc (withDetect C uc be) (bare j) = jsonType) := by
  have h : contentTypeD uc (withDetect C uc be) (bare j) = detectBody C uc (PactFile.utf8 j.text) := rfl
  rw [h]
  unfold detectBody
  rw [utf8_decode]
  exact C116_json C uc hc [] (fun c h => by cases h) j hn

/-- An expected part without content type whose JSON document is not recognised rejects every actual part with a JSON
content type, even one with the same body. -/
theorem C118_missed_rejected (env : Env) (C : Cls) (uc : UC) (hc : CaseFree C uc) (be : BodyEnv) (j : Json) (hn : NumberText j)
    (hm : Missed C j) (a : Part) (ha : contentTypeD uc (withDetect C uc be) a = jsonType) (ctx hctx : Ctx) (hh : NoRules hctx) :
    matchBody env uc (withDetect C uc be) (bare j) a ctx hctx = .typeMismatch := by
  refine (C27_type_mismatch env uc (withDetect C uc be) (bare j) a ctx hctx).2 ⟨rfl, ?_⟩
  rw [C27_comparable_no_rule env uc (withDetect C uc be) (bare j) a hctx hh, (C118_bare C uc hc be j hn).1 hm, ha]
  decide +kernel

/-- Otherwise the documents are compared as JSON: an actual body with a JSON content type is accepted exactly if it is a
JSON document that agrees. -/
theorem C118_recognised (env : Env) (C : Cls) (uc : UC) (hc : CaseFree C uc) (be : BodyEnv) (j : Json) (hn : NumberText j)
    (hm : ¬ Missed C j) (hj : ∀ b j, be.json b = some j → j.WF) (hr : be.json (PactFile.utf8 j.text) = some j)
    (a : Part) (b : Bytes) (ct : Option ContentType) (hb : a.body = .present b ct)
    (ha : contentTypeD uc (withDetect C uc be) a = jsonType) (ctx hctx : Ctx) (h : NoRules ctx) (hh : NoRules hctx) :
    matchBody env uc (withDetect C uc be) (bare j) a ctx hctx = .ok ↔ ∃ k, be.json b = some k ∧ jsonRel ctx.config j k := by
  have he := (C118_bare C uc hc be j hn).2 hm
  rw [matchBody_ok env uc (withDetect C uc be) (bare j) a ctx hctx h hh (by rw [he]; decide +kernel) (by rw [he]; decide +kernel) hj]
  unfold BodyAgrees
  simp only [he, ha]
  show (_ ∧ a.body ≠ .missing ∧ a.body ≠ .empty ∧ ContentAgrees (withDetect C uc be) _ jsonType (PactFile.utf8 j.text) a.body.value) ↔ _
  rw [hb]
  unfold ContentAgrees
  rw [if_pos (by decide +kernel)]
  constructor
  · rintro ⟨_, _, _, ej, aj, h1, h2, h3⟩
    have h1' : be.json (PactFile.utf8 j.text) = some ej := h1
    rw [hr] at h1'
    cases h1'
    exact ⟨aj, h2, h3⟩
  · rintro ⟨k, h1, h2⟩
    exact ⟨.inr (.inr (.inl (by decide +kernel))), by simp, by simp, j, k, hr, h1, h2⟩

/-! ### Examples -/

namespace Example

def cls : Cls where
  word := fun c => c.isAlpha || c.isDigit || c == '_'
  upper := fun c => [c.toUpper]
  word_ascii := fun _ _ => rfl
  upper_ascii := fun _ _ => rfl

theorem caseFree : CaseFree cls UC.ascii := by
  intro c h
  have h0 : asciiWhite c = true := h
  have h1 : c.toNat ≤ 32 := by
    unfold asciiWhite at h0
    simp only [Bool.or_eq_true, beq_iff_eq, Bool.and_eq_true, decide_eq_true_eq] at h0
    omega
  have : ∀ n : Nat, n ≤ 32 → (Char.ofNat n).toUpper = Char.ofNat n := by decide +kernel
  have h2 := this c.toNat h1
  rw [Char.ofNat_toNat] at h2
  show [c.toUpper] = [c]
  rw [h2]

set_option maxRecDepth 100000

example : detectString cls UC.ascii " \n<?xml version=\"1.0\"?><a/>".toList = xmlType ∧ detectString cls UC.ascii "<html><p>".toList = htmlType ∧
    detectString cls UC.ascii " <html><p>".toList = xmlType ∧ detectString cls UC.ascii "  <!doctype html>".toList = htmlType ∧
    detectString cls UC.ascii "<!-- x --><a/>".toList = textType ∧ detectString cls UC.ascii "true".toList = jsonType ∧
    detectString cls UC.ascii "[-1]".toList = jsonType ∧ detectString cls UC.ascii "-1".toList = textType ∧
    detectString cls UC.ascii "{\"@id\":1}".toList = textType ∧ detectString cls UC.ascii "{ \"id\":1}".toList = jsonType ∧
    detectString cls UC.ascii "100 bottles".toList = jsonType ∧ detectString cls UC.ascii "nullable".toList = jsonType := by decide +kernel

def doc : Json := .obj [("id".toList, .num (.pos 1))]
def linked : Json := .obj [("@id".toList, .num (.pos 1))]

example : ¬ Missed cls doc ∧ NumberText doc ∧ Missed cls linked ∧ NumberText linked ∧ Missed cls (.num (.neg 0)) := by
  refine ⟨?_, trivial, ?_, trivial, trivial⟩
  · intro h
    exact absurd (h 'i' rfl) (by decide)
  · intro c h
    cases h
    decide

/-- A text with a character split at byte 32. -/
def long : Json := .str ("aaaaaaaaaabbbbbbbbbbccccccccccé").toList
example : detectBytes cls UC.ascii (PactFile.utf8 long.text) = none := by decide +kernel
example : detectBytes cls UC.ascii (PactFile.utf8 (Json.str ("aaaaaaaaaabbbbbbbbbbccccccccccdé").toList).text) = some jsonType := by decide +kernel
theorem long_split : Split long.text := (C117_bytes cls UC.ascii long.text).2.2.mp (by decide +kernel)

/-- The same body with a JSON content type is rejected. -/
def actual (j : Json) : Part := ⟨hdr "application/json", .present (PactFile.utf8 j.text) none⟩
example : matchBody Env.simple UC.ascii (withDetect cls UC.ascii simpleBody) (bare linked) (actual linked) noRules ⟨⟨.header, []⟩, .noUnexpectedKeys⟩ = .typeMismatch := by
  decide +kernel
example : contentTypeD UC.ascii (withDetect cls UC.ascii simpleBody) (actual linked) = jsonType := by decide +kernel

/-- A reader of the two documents. -/
def be : BodyEnv := { simpleBody with json := fun b => if b = PactFile.utf8 doc.text then some doc else none }
example : be.json (PactFile.utf8 doc.text) = some doc ∧ (∀ b j, be.json b = some j → j.WF) := by
  refine ⟨by simp [be], ?_⟩
  intro b j h
  simp only [be] at h
  split at h
  · simp only [Option.some.injEq] at h; subst h; simp [doc, Json.WF, Json.WFEntries, Json.WFEntry, Json.SortedKeys]
  · simp at h
example : matchBody Env.simple UC.ascii (withDetect cls UC.ascii be) (bare doc) (actual doc) noRules ⟨⟨.header, []⟩, .noUnexpectedKeys⟩ = .ok := by
  decide +kernel

def magic : Magic := ⟨fun _ => [], fun _ => "text/plain".toList⟩
def parseCT : Str → Option ContentType := fun s => (splitOnce '/' s).map fun p => ⟨p.1, p.2, [], none⟩
example : matchContentType cls UC.ascii parseCT magic (PactFile.utf8 doc.text) "application/json".toList = true ∧
    matchContentType cls UC.ascii parseCT magic (PactFile.utf8 linked.text) "application/json".toList = false ∧
    matchContentType cls UC.ascii parseCT magic (PactFile.utf8 long.text) "application/json".toList = false := by decide +kernel

end Example





end DetectProps
end Verif
