import Verif.PactFileV3
import Verif.Props.PactFileProps

/-
  C76: which bodies survive a write/read cycle of a V3 pact file.
  C77: HTTP interactions and pacts do.
  C78: so do messages and message pacts, but for the generators.
  (C79, the V1 and V2 forms: PactV2Props.lean.)
  (C80, conversions and loading: PactLoadProps.lean.)
-/

set_option autoImplicit false

namespace Verif
namespace PactV3Props
open PactV3 PactFile PactFileProps Rules RuleJson Generate Query Headers

/-! ## C76 Bodies -/

/-! ### Specification -/

/-- The text is JSON for a string or an object. -/
def StringOrObject (E : FileEnv) (s : Str) : Prop := ∃ v, E.json (utf8 s) = some v ∧ ((∃ t, v = .str t) ∨ ∃ m, v = .obj m)

/-- The text between double quotes, nothing escaped. -/
def quoted (s : Str) : Str := '"' :: s ++ ['"']

/-- The bytes that the text of a file stands for, if the content type is `c`: for JSON the text itself if it is JSON for
a string or an object, else the text in quotes; for text the text itself; otherwise the text is taken as base64 if it can
be. -/
def TextIs (E : FileEnv) (c : ContentType) (s : Str) (b : Bytes) : Prop :=
  (c.isJson = true → StringOrObject E s → b = utf8 s) ∧
  (c.isJson = true → ¬StringOrObject E s → b = utf8 (quoted s)) ∧
  (c.isJson = false → c.isText = true → b = utf8 s) ∧
  (c.isText = false → Base64.decode s = none → b = utf8 s) ∧
  (c.isText = false → ∀ d, Base64.decode s = some d → b = d)

/-- The content type with which a text is read: that of the headers, else what the text looks like. -/
def readType (E : FileEnv) (h : Option ContentType) (s : Str) : ContentType := h.getD (E.detectStr s)

/-- The same contents: the same bytes, or JSON (not a string) written anew. -/
def SameBytes (E : FileEnv) (w : ContentType) (b b' : Bytes) : Prop :=
  b' = b ∨ w.isJson = true ∧ ∃ v, E.json b = some v ∧ v ≠ .null ∧ (∀ s, v ≠ .str s) ∧ b' = utf8 v.text

/-- JSON that survives: `null` does not, a string only if what is read for it is what was written.  Bytes that are not
JSON are written in base64, which is read as such only if the reader's content type is a binary one. -/
def KeptJson (E : FileEnv) (h : Option ContentType) (b : Bytes) : Prop :=
  match E.json b with
  | some .null => False
  | some (.str s) => s ≠ [] ∧ TextIs E (readType E h s) s b
  | some _ => True
  | none => (readType E h (Base64.encode b)).isText = false

/-- Text that survives: not as JSON unless it is JSON for a string or an object, and not as a binary type if it could
be base64.  Bytes that are not UTF-8 are written in base64. -/
def KeptText (E : FileEnv) (h : Option ContentType) (b : Bytes) : Prop :=
  match QS.fromUtf8 b with
  | some s => ((readType E h s).isJson = true → StringOrObject E s) ∧
      ((readType E h s).isText = false → Base64.decode s = none)
  | none => (readType E h (Base64.encode b)).isText = false

/-- The bytes of an HTTP body survive if it is written with the content type `w` and read with that of the headers. -/
def KeptHttp (E : FileEnv) (w : ContentType) (h : Option ContentType) (b : Bytes) : Prop :=
  if w.isJson = true then KeptJson E h b else KeptText E h b

/-- The same for the contents of a message: those with a binary content type are written in base64. -/
def KeptMessage (E : FileEnv) (w : ContentType) (h : Option ContentType) (b : Bytes) : Prop :=
  if w.isJson = true then KeptJson E h b
  else if w.isText = true then KeptText E h b
  else (readType E h (Base64.encode b)).isText = false

/-! ### Lemmas -/

theorem isJson_isText (c : ContentType) (h : c.isJson = true) : c.isText = true := by
  unfold ContentType.isText; rw [h]; simp

theorem isText_main (c : ContentType) (h : c.isText = true) :
    c.main = "application".toList ∨ c.main = "text".toList := by
  unfold ContentType.isText ContentType.isXml ContentType.isJson ContentType.isForm ContentType.appOrText at h
  simp only [Bool.or_eq_true, Bool.and_eq_true, decide_eq_true_eq] at h
  rcases h with ((h | h) | h) | h
  · exact Or.inr h
  · exact h.1
  · exact Or.inl h.1
  · exact Or.inl h.1

/-- A content type is binary exactly if it is not a text type. -/
theorem isBinary_iff (c : ContentType) : c.isBinary = !c.isText := by
  unfold ContentType.isBinary
  by_cases h1 : ["audio".toList, "font".toList, "image".toList, "video".toList].contains c.main = true
  · rw [if_pos h1]
    cases ht : c.isText with
    | false => rfl
    | true =>
      rcases isText_main c ht with h | h <;> · rw [h] at h1; revert h1; decide
  · rw [if_neg h1]
    by_cases h2 : c.main = "text".toList
    · rw [if_pos h2]
      unfold ContentType.isText
      rw [h2]; rfl
    · rw [if_neg h2]

theorem encode_length : ∀ b : List UInt8, b ≠ [] → b.length < (Base64.encode b).length
  | [], h => absurd rfl h
  | [_], _ => by simp [Base64.encode]
  | [_, _], _ => by simp [Base64.encode]
  | _ :: _ :: _ :: [], _ => by simp [Base64.encode]
  | _ :: _ :: _ :: d :: r, _ => by
    have := encode_length (d :: r) (List.cons_ne_nil _ _)
    rw [Base64.encode]
    simp only [List.length_cons] at this ⊢
    omega

theorem lastGroup_length (w x y z : Char) (b : List UInt8) (h : Base64.lastGroup w x y z = some b) : b.length < 4 := by
  unfold Base64.lastGroup at h
  repeat' split at h
  all_goals first | cases h; simp | cases h

theorem decode_length : ∀ (n : Nat) (s : Str) (b : List UInt8), s.length ≤ n → s ≠ [] → Base64.decode s = some b →
    b.length < s.length
  | 0, s, b, hn, hs, _ => by cases s with | nil => exact absurd rfl hs | cons _ _ => simp at hn
  | n + 1, [], b, _, hs, _ => absurd rfl hs
  | n + 1, [_], b, _, _, h => by rw [Base64.decode] at h; cases h; all_goals simp
  | n + 1, [_, _], b, _, _, h => by rw [Base64.decode] at h; cases h; all_goals simp
  | n + 1, [_, _, _], b, _, _, h => by rw [Base64.decode] at h; cases h; all_goals simp
  | n + 1, w :: x :: y :: z :: r, b, hn, _, h => by
    rw [Base64.decode] at h
    by_cases hr : r.isEmpty = true
    · rw [if_pos hr] at h
      have := lastGroup_length _ _ _ _ _ h
      simp only [List.length_cons]; omega
    · rw [if_neg hr] at h
      split at h
      · obtain ⟨t, ht, rfl⟩ := Option.map_eq_some_iff.1 h
        have := decode_length n r t (by simp only [List.length_cons] at hn; omega) (by rintro rfl; exact hr rfl) ht
        simp only [List.length_cons]; omega
      · cases h

theorem utf8_length (s : Str) : s.length ≤ (utf8 s).length := by
  induction s with
  | nil => exact Nat.le_refl _
  | cons c cs ih =>
    show cs.length + 1 ≤ (String.utf8EncodeChar c ++ utf8 cs).length
    rw [List.length_append, String.length_utf8EncodeChar]
    have := Char.utf8Size_pos c
    omega

theorem fromUtf8_utf8 (s : Str) : QS.fromUtf8 (utf8 s) = some s := (QueryStringProps.fromUtf8_iff _ _).2 rfl

theorem utf8_inj (s t : Str) (h : utf8 s = utf8 t) : s = t := by
  have := fromUtf8_utf8 s
  rw [h, fromUtf8_utf8] at this
  exact (Option.some.inj this).symm

theorem quoted_ne (s : Str) : utf8 (quoted s) ≠ utf8 s := by
  intro h
  have := congrArg List.length (utf8_inj _ _ h)
  simp [quoted] at this
  omega

theorem decode_ne (s : Str) (hs : s ≠ []) (d : List UInt8) (h : Base64.decode s = some d) : d ≠ utf8 s := by
  intro e
  have h1 := decode_length s.length s d (Nat.le_refl _) hs h
  have h2 := utf8_length s
  rw [e] at h1
  omega

theorem jsonParsable_iff (E : FileEnv) (s : Str) : jsonParsable E s = true ↔ StringOrObject E s := by
  unfold jsonParsable StringOrObject
  constructor
  · intro h
    split at h
    · rename_i t ht; exact ⟨_, ht, Or.inl ⟨t, rfl⟩⟩
    · rename_i m hm; exact ⟨_, hm, Or.inr ⟨m, rfl⟩⟩
    · cases h
  · rintro ⟨v, hv, ⟨t, rfl⟩ | ⟨m, rfl⟩⟩ <;> rw [hv]

/-- A text is read as the bytes that it stands for, and as no other. -/
theorem text_read (E : FileEnv) (h : Option ContentType) (s : Str) (hs : s ≠ []) :
    ∃ b ct, bodyFromText E h s = .present b ct none ∧ (ct = none ∨ ct = some (readType E h s)) ∧
      ∀ b', TextIs E (readType E h s) s b' ↔ b' = b := by
  unfold bodyFromText
  rw [if_neg (by cases s with | nil => exact absurd rfl hs | cons _ _ => simp)]
  show ∃ b ct, (if (readType E h s).isJson = true then
      (if jsonParsable E s = true then FBody.present (utf8 s) (some (readType E h s)) none
        else .present (utf8 (quoted s)) (some (readType E h s)) none)
    else if (readType E h s).isText = true then .present (utf8 s) (some (readType E h s)) none
    else match Base64.decode s with
      | some b => .present b none none
      | none => .present (utf8 s) none none) = _ ∧ _
  generalize readType E h s = c
  unfold TextIs
  by_cases hj : c.isJson = true
  · have ht := isJson_isText c hj
    rw [if_pos hj]
    by_cases hp : jsonParsable E s = true
    · rw [if_pos hp]
      have hp' := (jsonParsable_iff E s).1 hp
      refine ⟨_, _, rfl, Or.inr rfl, fun b' => ?_⟩
      constructor
      · intro h; exact h.1 hj hp'
      · rintro rfl
        exact ⟨fun _ _ => rfl, fun _ h => absurd hp' h, fun h => absurd hj (by rw [h]; simp),
          fun h => absurd ht (by rw [h]; simp), fun h => absurd ht (by rw [h]; simp)⟩
    · rw [if_neg hp]
      have hp' : ¬StringOrObject E s := fun h => hp ((jsonParsable_iff E s).2 h)
      refine ⟨_, _, rfl, Or.inr rfl, fun b' => ?_⟩
      constructor
      · intro h; exact h.2.1 hj hp'
      · rintro rfl
        exact ⟨fun _ h => absurd h hp', fun _ _ => rfl, fun h => absurd hj (by rw [h]; simp),
          fun h => absurd ht (by rw [h]; simp), fun h => absurd ht (by rw [h]; simp)⟩
  · rw [if_neg hj]
    have hj' : c.isJson = false := by cases h : c.isJson <;> simp_all
    by_cases ht : c.isText = true
    · rw [if_pos ht]
      refine ⟨_, _, rfl, Or.inr rfl, fun b' => ?_⟩
      constructor
      · intro h; exact h.2.2.1 hj' ht
      · rintro rfl
        exact ⟨fun h => absurd h hj, fun h => absurd h hj, fun _ _ => rfl,
          fun h => absurd ht (by rw [h]; simp), fun h => absurd ht (by rw [h]; simp)⟩
    · rw [if_neg ht]
      have ht' : c.isText = false := by cases h : c.isText <;> simp_all
      cases hd : Base64.decode s with
      | none =>
        refine ⟨_, _, rfl, Or.inl rfl, fun b' => ?_⟩
        constructor
        · intro h; exact h.2.2.2.1 ht' rfl
        · rintro rfl
          exact ⟨fun h => absurd h hj, fun h => absurd h hj, fun _ h => absurd h ht, fun _ _ => rfl,
            fun _ d h => by cases h⟩
      | some d =>
        refine ⟨_, _, rfl, Or.inl rfl, fun b' => ?_⟩
        constructor
        · intro h; exact h.2.2.2.2 ht' d rfl
        · rintro rfl
          exact ⟨fun h => absurd h hj, fun h => absurd h hj, fun _ h => absurd h ht, (fun _ h => by cases h),
            fun _ e h => Option.some.inj h⟩

/-- What the reader makes of a written attribute, as bytes. -/
def ReadsAs (E : FileEnv) (h : Option ContentType) (j : Option Json) (P : Bytes → Prop) : Prop :=
  ∃ b ct, bodyFromAttr E h j = .present b ct none ∧ P b

theorem readsAs_text (E : FileEnv) (h : Option ContentType) (s : Str) (hs : s ≠ []) (P : Bytes → Prop) :
    ReadsAs E h (some (.str s)) P ↔ ∃ b, TextIs E (readType E h s) s b ∧ P b := by
  obtain ⟨b, ct, h1, _, h3⟩ := text_read E h s hs
  unfold ReadsAs
  rw [bodyFromAttr, h1]
  constructor
  · rintro ⟨b', ct', hb, hp⟩
    cases hb
    exact ⟨b, (h3 b).2 rfl, hp⟩
  · rintro ⟨b', hb, hp⟩
    rw [(h3 b').1 hb] at hp
    exact ⟨b, ct, rfl, hp⟩

theorem textIs_exists (E : FileEnv) (h : Option ContentType) (s : Str) (hs : s ≠ []) :
    ∃ b, TextIs E (readType E h s) s b := by
  obtain ⟨b, _, _, _, h3⟩ := text_read E h s hs
  exact ⟨b, (h3 b).2 rfl⟩

/-- Bytes written in base64 are read if the content type is a binary one. -/
theorem base64_read (E : FileEnv) (h : Option ContentType) (b : Bytes) (hb : b ≠ []) :
    TextIs E (readType E h (Base64.encode b)) (Base64.encode b) b ↔
      (readType E h (Base64.encode b)).isText = false := by
  generalize readType E h (Base64.encode b) = c
  have hlen := encode_length b hb
  have h1 : b ≠ utf8 (Base64.encode b) := by
    intro h
    have := utf8_length (Base64.encode b)
    rw [← h] at this; omega
  have h2 : b ≠ utf8 (quoted (Base64.encode b)) := by
    intro h
    have := utf8_length (quoted (Base64.encode b))
    rw [← h] at this
    simp [quoted] at this; omega
  constructor
  · rintro ⟨t1, t2, t3, t4, t5⟩
    cases ht : c.isText with
    | false => rfl
    | true =>
      exfalso
      cases hj : c.isJson with
      | true =>
        by_cases hp : StringOrObject E (Base64.encode b)
        · exact h1 (t1 hj hp)
        · exact h2 (t2 hj hp)
      | false => exact h1 (t3 hj ht)
  · intro ht
    have hj : c.isJson = false := by
      cases hj : c.isJson with
      | false => rfl
      | true => rw [isJson_isText c hj] at ht; cases ht
    refine ⟨?_, ?_, ?_, ?_, ?_⟩
    · intro h; rw [hj] at h; cases h
    · intro h; rw [hj] at h; cases h
    · intro _ h; rw [ht] at h; cases h
    · intro _ h; rw [Base64.decode_encode] at h; cases h
    · intro _ d h; rw [Base64.decode_encode] at h; exact Option.some.inj h

/-- Text is read as itself under the conditions of the specification. -/
theorem plain_read (E : FileEnv) (h : Option ContentType) (s : Str) (hs : s ≠ []) :
    TextIs E (readType E h s) s (utf8 s) ↔ (((readType E h s).isJson = true → StringOrObject E s) ∧
      ((readType E h s).isText = false → Base64.decode s = none)) := by
  generalize readType E h s = c
  constructor
  · rintro ⟨_, t2, _, _, t5⟩
    refine ⟨fun hj => ?_, fun ht => ?_⟩
    · exact Classical.byContradiction fun hp => quoted_ne s (t2 hj hp).symm
    · cases hd : Base64.decode s with
      | none => rfl
      | some d => exact absurd (t5 ht d hd).symm (decode_ne s hs d hd)
  · rintro ⟨h1, h2⟩
    exact ⟨fun _ _ => rfl, fun hj hp => absurd (h1 hj) hp, fun _ _ => rfl, fun _ _ => rfl,
      fun ht d hd => by rw [h2 ht] at hd; cases hd⟩

theorem encode_ne (b : Bytes) (hb : b ≠ []) : Base64.encode b ≠ [] := fun h => hb ((Base64.encode_eq_nil b).1 h)

/-- Reading a text gives the same contents exactly if it stands for the same bytes. -/
theorem readsAs_same (E : FileEnv) (h : Option ContentType) (s : Str) (hs : s ≠ []) (w : ContentType) (b : Bytes)
    (hw : w.isJson = true → E.json b = none ∨ ∃ t, E.json b = some (.str t)) :
    ReadsAs E h (some (.str s)) (SameBytes E w b) ↔ TextIs E (readType E h s) s b := by
  rw [readsAs_text E h s hs]
  constructor
  · rintro ⟨b', hb', he | ⟨hj, v, hv, _, hns, _⟩⟩
    · rw [← he]; exact hb'
    · rcases hw hj with h0 | ⟨t, ht⟩
      · rw [h0] at hv; cases hv
      · rw [ht] at hv; exact absurd (Option.some.inj hv).symm (hns t)
  · intro hb; exact ⟨b, hb, Or.inl rfl⟩

theorem json_iff (E : FileEnv) (w : ContentType) (h : Option ContentType) (b : Bytes) (hb : b ≠ []) (hj : w.isJson = true) :
    ReadsAs E h (some (valueJson E b)) (SameBytes E w b) ↔ KeptJson E h b := by
  unfold valueJson KeptJson
  cases hv : E.json b with
  | none =>
    simp only
    rw [readsAs_same E h _ (encode_ne b hb) w b (fun _ => Or.inl hv), base64_read E h b hb]
  | some v =>
    have hother : v ≠ .null → (∀ s, v ≠ .str s) → ReadsAs E h (some v) (SameBytes E w b) := by
      intro h1 h2
      refine ⟨utf8 v.text, none, ?_, Or.inr ⟨hj, v, hv, h1, h2, rfl⟩⟩
      unfold bodyFromAttr
      split
      · rename_i hx; exact absurd (Option.some.inj hx) (h2 _)
      · rename_i hx; exact absurd (Option.some.inj hx) h1
      · rename_i x _ _ hx; cases hx; rfl
      · rename_i hx; cases hx
    cases v with
    | null =>
      simp only [iff_false]
      rintro ⟨_, _, h1, _⟩
      cases h1
    | str s =>
      simp only
      by_cases hs : s = []
      · subst hs
        constructor
        · rintro ⟨_, _, h1, _⟩; cases h1
        · rintro ⟨h1, _⟩; exact absurd rfl h1
      · rw [readsAs_same E h s hs w b (fun _ => Or.inr ⟨s, hv⟩)]
        exact ⟨fun h => ⟨hs, h⟩, fun h => h.2⟩
    | bool x => exact ⟨fun _ => trivial, fun _ => hother (by intro h; cases h) (by intro _ h; cases h)⟩
    | num x => exact ⟨fun _ => trivial, fun _ => hother (by intro h; cases h) (by intro _ h; cases h)⟩
    | arr x => exact ⟨fun _ => trivial, fun _ => hother (by intro h; cases h) (by intro _ h; cases h)⟩
    | obj x => exact ⟨fun _ => trivial, fun _ => hother (by intro h; cases h) (by intro _ h; cases h)⟩

theorem text_iff (E : FileEnv) (w : ContentType) (h : Option ContentType) (b : Bytes) (hb : b ≠ []) (hj : ¬w.isJson = true) :
    ReadsAs E h (some (textJson b)) (SameBytes E w b) ↔ KeptText E h b := by
  unfold textJson KeptText
  cases hs : QS.fromUtf8 b with
  | none =>
    simp only
    rw [readsAs_same E h _ (encode_ne b hb) w b (fun h => absurd h hj), base64_read E h b hb]
  | some s =>
    have he : utf8 s = b := utf8_fromUtf8 b s hs
    have hne : s ≠ [] := by rintro rfl; exact hb he.symm
    simp only
    rw [readsAs_same E h s hne w b (fun h => absurd h hj), ← he, plain_read E h s hne]

/-! ### Theorems -/

/-- **C76 (HTTP).** A body with bytes that is written with the content type `w` and read with the content type `h` of
the headers is read as the same contents exactly if it meets the conditions of `KeptHttp`. -/
theorem C76_http_iff (E : FileEnv) (w : ContentType) (h : Option ContentType) (b : Bytes) (hb : b ≠ [])
    (ct : Option ContentType) (hint : Option Hint) :
    (∃ b' ct', bodyFromAttr E h (httpBodyToJson E (some w) (.present b ct hint)) = .present b' ct' none ∧
      SameBytes E w b b') ↔ KeptHttp E w h b := by
  show ReadsAs E h (some (if w.isJson = true then valueJson E b else textJson b)) (SameBytes E w b) ↔ _
  unfold KeptHttp
  by_cases hj : w.isJson = true
  · rw [if_pos hj, if_pos hj]; exact json_iff E w h b hb hj
  · rw [if_neg hj, if_neg hj]; exact text_iff E w h b hb hj

/-- **C76 (messages).** -/
theorem C76_message_iff (E : FileEnv) (w : ContentType) (h : Option ContentType) (b : Bytes) (hb : b ≠ [])
    (ct : Option ContentType) (hint : Option Hint) :
    (∃ b' ct', bodyFromAttr E h (contentsToJson E (some w) (.present b ct hint)) = .present b' ct' none ∧
      SameBytes E w b b') ↔ KeptMessage E w h b := by
  show ReadsAs E h (some (if w.isJson = true then valueJson E b
    else if w.isBinary = true then .str (Base64.encode b) else textJson b)) (SameBytes E w b) ↔ _
  unfold KeptMessage
  by_cases hj : w.isJson = true
  · rw [if_pos hj, if_pos hj]; exact json_iff E w h b hb hj
  · rw [if_neg hj, if_neg hj, isBinary_iff]
    by_cases ht : w.isText = true
    · rw [if_neg (by rw [ht]; simp), if_pos ht]; exact text_iff E w h b hb hj
    · have ht' : w.isText = false := by cases h : w.isText <;> simp_all
      rw [if_pos (by rw [ht']; rfl), if_neg ht]
      rw [readsAs_same E h _ (encode_ne b hb) w b (fun h => absurd h hj), base64_read E h b hb]

/-- **C76 (no bytes).** Missing, null and empty bodies are read back as such; a body with no bytes becomes empty,
unless no bytes were JSON. -/
theorem C76_states (E : FileEnv) (w h : Option ContentType) :
    bodyFromAttr E h (httpBodyToJson E w .missing) = .missing ∧ bodyFromAttr E h (httpBodyToJson E w .null) = .null ∧
    bodyFromAttr E h (httpBodyToJson E w .empty) = .empty ∧
    bodyFromAttr E h (contentsToJson E w .missing) = .missing ∧ bodyFromAttr E h (contentsToJson E w .null) = .null ∧
    bodyFromAttr E h (contentsToJson E w .empty) = .empty ∧
    (E.json [] = none → ∀ ct hint, bodyFromAttr E h (httpBodyToJson E w (.present [] ct hint)) = .empty ∧
      bodyFromAttr E h (contentsToJson E w (.present [] ct hint)) = .empty) := by
  refine ⟨rfl, rfl, rfl, rfl, rfl, rfl, fun hn ct hint => ?_⟩
  have h1 : textJson [] = .str [] := by decide
  have h2 : valueJson E [] = .str [] := by unfold valueJson; rw [hn]; rfl
  unfold httpBodyToJson contentsToJson
  simp only [h1, h2, show Base64.encode [] = [] from rfl, ite_self']
  exact ⟨rfl, rfl⟩

/-- **C76 (text).** With a text type that is not JSON every UTF-8 body survives, and no other. -/
theorem C76_text (E : FileEnv) (c : ContentType) (hj : c.isJson = false) (ht : c.isText = true) (b : Bytes) :
    (KeptHttp E c (some c) b ↔ ∃ s, utf8 s = b) ∧ (KeptMessage E c (some c) b ↔ ∃ s, utf8 s = b) := by
  have hk : KeptText E (some c) b ↔ ∃ s, utf8 s = b := by
    unfold KeptText readType
    cases hs : QS.fromUtf8 b with
    | some s =>
      simp only [Option.getD_some, hj, ht]
      refine ⟨fun _ => ⟨s, utf8_fromUtf8 b s hs⟩, fun _ => ⟨(fun h => by cases h), (fun h => by cases h)⟩⟩
    | none =>
      simp only [Option.getD_some, ht]
      refine ⟨(fun h => by cases h), ?_⟩
      rintro ⟨s, rfl⟩
      rw [fromUtf8_utf8] at hs; cases hs
  unfold KeptHttp KeptMessage
  rw [if_neg (by rw [hj]; simp), if_neg (by rw [hj]; simp), if_pos ht]
  exact ⟨hk, hk⟩

/-- **C76 (binary).** With a binary type every message survives, but an HTTP body only if it is not UTF-8 or could not
be base64. -/
theorem C76_binary (E : FileEnv) (c : ContentType) (ht : c.isText = false) (b : Bytes) :
    KeptMessage E c (some c) b ∧ (KeptHttp E c (some c) b ↔ ∀ s, utf8 s = b → Base64.decode s = none) := by
  have hj : c.isJson = false := by
    cases hj : c.isJson with
    | false => rfl
    | true => rw [isJson_isText c hj] at ht; cases ht
  unfold KeptMessage KeptHttp
  rw [if_neg (by rw [hj]; simp), if_neg (by rw [ht]; simp), if_neg (by rw [hj]; simp)]
  refine ⟨ht, ?_⟩
  unfold KeptText readType
  simp only [Option.getD_some]
  cases hs : QS.fromUtf8 b with
  | some s =>
    have he := utf8_fromUtf8 b s hs
    simp only [hj, ht]
    constructor
    · rintro ⟨_, h⟩ t htb
      rw [utf8_inj t s (htb.trans he.symm)]; exact h trivial
    · intro h; exact ⟨(fun h => by cases h), fun _ => h s he⟩
  | none =>
    simp only [ht, true_iff]
    rintro s rfl
    rw [fromUtf8_utf8] at hs; cases hs

/-- **C76 (JSON).** With a JSON type objects, arrays, numbers and booleans survive; `null` and bytes that are not JSON
do not; a string survives exactly if it is not empty and, unless its text is itself JSON for a string or an object, is
written without escapes. -/
theorem C76_json (E : FileEnv) (c : ContentType) (hj : c.isJson = true) (b : Bytes) :
    (KeptHttp E c (some c) b ↔ KeptMessage E c (some c) b) ∧
    (E.json b = none → ¬KeptHttp E c (some c) b) ∧ (E.json b = some .null → ¬KeptHttp E c (some c) b) ∧
    (∀ v, E.json b = some v → v ≠ .null → (∀ s, v ≠ .str s) → KeptHttp E c (some c) b) ∧
    (∀ s, E.json b = some (.str s) → (KeptHttp E c (some c) b ↔
      s ≠ [] ∧ (StringOrObject E s → b = utf8 s) ∧ (¬StringOrObject E s → b = utf8 (quoted s)))) := by
  unfold KeptHttp KeptMessage
  rw [if_pos hj, if_pos hj]
  refine ⟨Iff.rfl, ?_, ?_, ?_, ?_⟩
  · intro h; unfold KeptJson readType; rw [h]; simp only [Option.getD_some, isJson_isText c hj]; intro h; cases h
  · intro h; unfold KeptJson; rw [h]; exact id
  · intro v h h1 h2
    unfold KeptJson
    rw [h]
    split
    · rename_i h3; exact h1 (Option.some.inj h3)
    · rename_i h3; exact absurd (Option.some.inj h3) (h2 _)
    · trivial
    · rename_i h3; cases h3
  · intro s h
    unfold KeptJson
    rw [h]
    simp only
    unfold TextIs readType
    simp only [Option.getD_some]
    have ht := isJson_isText c hj
    constructor
    · rintro ⟨h0, h1, h2, _⟩; exact ⟨h0, h1 hj, h2 hj⟩
    · rintro ⟨h0, h1, h2⟩
      exact ⟨h0, fun _ => h1, fun _ => h2, fun h => (by rw [hj] at h; cases h), fun h => (by rw [ht] at h; cases h),
        fun h => (by rw [ht] at h; cases h)⟩

/-! ### Non-vacuity and limits -/

/-- The environment of the examples with more JSON texts. -/
def exE3 : FileEnv :=
  { exE with
    json := fun b =>
      if b = utf8 "[ 1 ]".toList then some (.arr [.num (.pos 1)])
      else if b = utf8 "\"plain\"".toList then some (.str "plain".toList)
      else if b = utf8 "\"a\\\"b\"".toList then some (.str "a\"b".toList)
      else if b = utf8 "\"{}\"".toList then some (.str "{}".toList)
      else if b = utf8 "{}".toList then some (.obj []) else none
    json_text := by
      intro b v h
      repeat' split at h
      all_goals first | cases h; decide | cases h
    version := fun s =>
      if s = "1.0.0".toList then some (1, 0) else if s = "1.1.0".toList then some (1, 1)
      else if s = "2.0.0".toList then some (2, 0) else if s = "3.0.0".toList then some (3, 0)
      else if s = "4.0".toList then some (4, 0) else none }

def octets : ContentType := .octetStream

/-- **C76 (limits).** What becomes of bodies that do not survive: a JSON string with an escape becomes text that is not
JSON; one that holds JSON becomes that JSON; UTF-8 bytes of a binary type that could be base64 are decoded; bytes that
are not JSON but have a JSON type, and text that is not UTF-8, become base64. -/
theorem C76_limits :
    bodyFromAttr exE3 (some jsonCT) (httpBodyToJson exE3 (some jsonCT) (.present (utf8 "\"a\\\"b\"".toList) none none))
      = .present (utf8 "\"a\"b\"".toList) (some jsonCT) none ∧
    bodyFromAttr exE3 (some jsonCT) (httpBodyToJson exE3 (some jsonCT) (.present (utf8 "\"{}\"".toList) none none))
      = .present (utf8 "{}".toList) (some jsonCT) none ∧
    bodyFromAttr exE3 (some octets) (httpBodyToJson exE3 (some octets) (.present (utf8 "abcd".toList) none none))
      = .present [105, 183, 29] none none ∧
    bodyFromAttr exE3 (some jsonCT) (httpBodyToJson exE3 (some jsonCT) (.present [0] none none))
      = .present (utf8 "\"AA==\"".toList) (some jsonCT) none ∧
    bodyFromAttr exE3 (some textCT) (httpBodyToJson exE3 (some textCT) (.present [255] none none))
      = .present (utf8 "/w==".toList) (some textCT) none := by
  refine ⟨by decide, by decide, ?_, by decide, ?_⟩
  · have h : textJson (utf8 "abcd".toList) = .str "abcd".toList := by unfold textJson; rw [fromUtf8_utf8]
    rw [httpBodyToJson, if_neg (by decide), h]; decide
  · have h : textJson [255] = .str "/w==".toList := by
      unfold textJson
      rw [show QS.fromUtf8 [255] = none from rfl]
      decide
    rw [httpBodyToJson, if_neg (by decide), h]; decide

example : KeptHttp exE3 jsonCT (some jsonCT) (utf8 "\"plain\"".toList) := by
  refine ((C76_json exE3 jsonCT (by decide) _).2.2.2.2 "plain".toList (by decide)).2 ⟨by decide, ?_, fun _ => by decide⟩
  intro h
  have := (jsonParsable_iff exE3 _).2 h
  revert this; decide

example : KeptHttp exE3 textCT (some textCT) (utf8 "[ 1 ]".toList) :=
  (C76_text exE3 textCT (by decide) (by decide) _).1.2 ⟨_, rfl⟩

example : KeptHttp exE3 octets (some octets) (utf8 "abc".toList) :=
  (C76_binary exE3 octets (by decide) _).2.2 (by
    intro s hs
    rw [utf8_inj _ _ hs]; decide)

/-! ## C77 HTTP interactions and pacts (V3) -/

/-! ### Specification -/

/-- The name is that of the content type header. -/
def IsCT (E : FileEnv) (k : Str) : Prop := E.P.uc.lower k = "content-type".toList

/-- Headers a V3 file can hold: a map with values that survive being joined by commas (see C30), and one content type
header at most. -/
structure HeadersV3 (E : FileEnv) (h : HeaderMap) : Prop where
  map : IsMap h
  values : ∀ e ∈ h, (∀ v ∈ e.2, trim E.P.uc v = v) ∧
    (if QS.singleValueHeaders.contains (E.P.uc.lower e.1) = true then e.2.length = 1 else e.2 ≠ [] ∧ ∀ v ∈ e.2, ',' ∉ v)
  one : ∀ e ∈ h, ∀ e' ∈ h, IsCT E e.1 → IsCT E e'.1 → e = e'

/-- The content type that the headers have: the first value of the header of that name. -/
def HeaderType (E : FileEnv) (headers : Option HeaderMap) (c : Option ContentType) : Prop :=
  (∃ h e v vs, headers = some h ∧ e ∈ h ∧ IsCT E e.1 ∧ e.2 = v :: vs ∧ c = E.parseCT v) ∨
  ((∀ h, headers = some h → ∀ e ∈ h, ¬IsCT E e.1) ∧ c = none)

/-- The body survives. -/
def BodyV3 (E : FileEnv) (headers : Option HeaderMap) (body : FBody) : Prop :=
  ∀ b ct hint, body = .present b ct hint → b ≠ [] ∧
    ∀ c, HeaderType E headers c → KeptHttp E ((partContentType E body headers).getD .unknown) c b

/-- What a V3 file keeps of a body: its contents.  The content type is that of the headers, or left to them. -/
def SameBody (E : FileEnv) (w : ContentType) (h : Option ContentType) : FBody → FBody → Prop
  | .missing, .missing => True
  | .null, .null => True
  | .empty, .empty => True
  | .present b _ _, .present b' ct' hint' => SameBytes E w b b' ∧ hint' = none ∧
      (ct' = none ∨ ∀ c, h = some c → ct' = some c)
  | _, _ => False

/-- The content type a body is written with: its own, else the one of the `Content-Type` header (all its values, joined),
else the one detected from the text. -/
def WrittenType (E : FileEnv) (body : FBody) (headers : Option HeaderMap) (w : Option ContentType) : Prop :=
  (∃ b c hint, body = .present b (some c) hint ∧ w = some c) ∨
  ((∀ b c hint, body ≠ .present b (some c) hint) ∧
    ((∃ h e c, headers = some h ∧ e ∈ h ∧ IsCT E e.1 ∧ E.parseCT (List.intercalate ", ".toList e.2) = some c ∧ w = some c) ∨
     ((∀ h, headers = some h → ∀ e ∈ h, IsCT E e.1 → E.parseCT (List.intercalate ", ".toList e.2) = none) ∧
        ((∃ b hint, body = .present b none hint ∧
            ((∃ s, b = utf8 s ∧ w = some (E.detectStr s)) ∨ ((∀ s, b ≠ utf8 s) ∧ w = some (E.detectStr [])))) ∨
         ((∀ b c hint, body ≠ .present b c hint) ∧ w = none)))))

theorem joinWith_eq (sep : Str) : ∀ l : List Str, QS.joinWith sep l = List.intercalate sep l
  | [] => rfl
  | [x] => by simp [QS.joinWith, List.intercalate]
  | x :: y :: xs => by
    rw [QS.joinWith, joinWith_eq sep (y :: xs)]
    simp [List.intercalate]

/-- **C77 (content type).** The content type that decides how a body is written, for headers with one `Content-Type` at
most. -/
theorem C77_written_type (E : FileEnv) (body : FBody) (headers : Option HeaderMap)
    (one : ∀ h, headers = some h → ∀ e ∈ h, ∀ e' ∈ h, IsCT E e.1 → IsCT E e'.1 → e = e') :
    WrittenType E body headers (partContentType E body headers) := by
  unfold WrittenType
  have hdet : (∀ b c hint, body ≠ .present b (some c) hint) →
      ((∃ b hint, body = .present b none hint ∧
        ((∃ s, b = utf8 s ∧ detectContentType E body = some (E.detectStr s)) ∨
          ((∀ s, b ≠ utf8 s) ∧ detectContentType E body = some (E.detectStr [])))) ∨
       ((∀ b c hint, body ≠ .present b c hint) ∧ detectContentType E body = none)) := by
    intro hn
    cases body with
    | present b ct hint =>
      cases ct with
      | some c => exact absurd rfl (hn b c hint)
      | none =>
        left
        refine ⟨b, hint, rfl, ?_⟩
        show (∃ s, b = utf8 s ∧ some (E.detectStr ((QS.fromUtf8 b).getD [])) = some (E.detectStr s)) ∨
          ((∀ s, b ≠ utf8 s) ∧ some (E.detectStr ((QS.fromUtf8 b).getD [])) = some (E.detectStr []))
        cases hb : QS.fromUtf8 b with
        | some s => exact Or.inl ⟨s, ((QueryStringProps.fromUtf8_iff b s).1 hb).symm, rfl⟩
        | none =>
          refine Or.inr ⟨fun s hs => ?_, rfl⟩
          rw [(QueryStringProps.fromUtf8_iff b s).2 hs.symm] at hb
          cases hb
    | _ => exact Or.inr ⟨(by intro _ _ _ h; cases h), rfl⟩
  have hmain : (∀ b c hint, body ≠ .present b (some c) hint) → partContentType E body headers =
      match contentTypeHeader E headers with
      | some h => match E.parseCT h with
        | some ct => some ct
        | none => detectContentType E body
      | none => detectContentType E body := by
    intro hn
    cases body with
    | present b ct hint =>
      cases ct with
      | some c => exact absurd rfl (hn b c hint)
      | none => rfl
    | _ => rfl
  by_cases hb : ∃ b c hint, body = .present b (some c) hint
  · obtain ⟨b, c, hint, rfl⟩ := hb
    exact Or.inl ⟨b, c, hint, rfl, rfl⟩
  · have hn : ∀ b c hint, body ≠ .present b (some c) hint := fun b c hint h => hb ⟨b, c, hint, h⟩
    right
    refine ⟨hn, ?_⟩
    rw [hmain hn]
    have hfind : ∀ h : HeaderMap, headers = some h → contentTypeHeader E headers =
        (h.find? fun e => decide (E.P.uc.lower e.1 = E.P.uc.lower "content-type".toList)).map fun e =>
          List.intercalate ", ".toList e.2 := by
      intro h hh
      unfold contentTypeHeader
      rw [hh]
      simp only [Option.bind_some, joinWith_eq]
    have hct : ∀ k : Str, E.P.uc.lower k = E.P.uc.lower "content-type".toList ↔ IsCT E k := by
      intro k
      unfold IsCT
      rw [E.P.uc.lower_ascii "content-type".toList (by decide)]
      exact Iff.rfl
    cases hh : headers with
    | none =>
      right
      refine ⟨(by intro h h'; cases h'), ?_⟩
      exact hdet hn
    | some h =>
      rw [← hh, hfind h hh]
      cases hf : h.find? fun e => decide (E.P.uc.lower e.1 = E.P.uc.lower "content-type".toList) with
      | none =>
        right
        refine ⟨?_, hdet hn⟩
        intro h' hh' e he hc
        rw [hh] at hh'
        cases hh'
        have := List.find?_eq_none.1 hf e he
        exact absurd (decide_eq_true ((hct e.1).2 hc)) this
      | some e =>
        have he := List.mem_of_find?_eq_some hf
        have h0 := List.find?_some hf
        have hc : IsCT E e.1 := (hct e.1).1 (of_decide_eq_true h0)
        simp only [Option.map_some]
        cases hp : E.parseCT (List.intercalate ", ".toList e.2) with
        | some c => exact Or.inl ⟨h, e, c, hh, he, hc, hp, rfl⟩
        | none =>
          right
          refine ⟨?_, hdet hn⟩
          intro h' hh' e' he' hc'
          rw [hh] at hh'
          cases hh'
          rw [one h hh e' he' e he hc' hc]
          exact hp

/-- What a V3 file keeps of a request. -/
structure SameRequestV3 (E : FileEnv) (r r' : HttpRequest) : Prop where
  method : r'.method = E.upper (E.upper r.method)
  path : r'.path = r.path
  query : SameOpt r'.query r.query
  headers : SameOpt r'.headers r.headers
  body : ∃ h, HeaderType E r.headers h ∧ SameBody E ((partContentType E r.body r.headers).getD .unknown) h r.body r'.body
  rules : mrEq r.rules r'.rules = true
  gens : gensEq r.gens r'.gens = true

/-- What a V3 file keeps of a response. -/
structure SameResponseV3 (E : FileEnv) (r r' : HttpResponse) : Prop where
  status : r'.status = r.status
  headers : SameOpt r'.headers r.headers
  body : ∃ h, HeaderType E r.headers h ∧ SameBody E ((partContentType E r.body r.headers).getD .unknown) h r.body r'.body
  rules : mrEq r.rules r'.rules = true
  gens : gensEq r.gens r'.gens = true

/-- A request that a V3 file can hold. -/
structure RequestOk (E : FileEnv) (r : HttpRequest) : Prop where
  query : ∀ m, r.query = some m → IsMap m
  headers : ∀ h, r.headers = some h → HeadersV3 E h
  body : BodyV3 E r.headers r.body
  parts : PartsOk E r.rules r.gens

/-- A response that a V3 file can hold. -/
structure ResponseOk (E : FileEnv) (r : HttpResponse) : Prop where
  status : r.status < 65536
  headers : ∀ h, r.headers = some h → HeadersV3 E h
  body : BodyV3 E r.headers r.body
  parts : PartsOk E r.rules r.gens

/-! ### Lemmas -/

theorem mem_of_same {A : Type} {m n : List (Str × A)} (hm : IsMap m) (h : SameMap n m) (hn : IsMap n) (e : Str × A) :
    e ∈ n ↔ e ∈ m := by
  constructor
  · intro he; exact Json.lookup_mem ((h e.1).symm.trans (Json.lookup_of_mem hn he))
  · intro he; exact Json.lookup_mem ((h e.1).trans (Json.lookup_of_mem hm he))

/-- Reading back the headers: the same map with the same content type. -/
theorem headers_v3 (E : FileEnv) (headers : Option HeaderMap) (h : ∀ m, headers = some m → HeadersV3 E m) :
    SameOpt (QS.headersFromJson E.P.uc (headers.map QS.headersToJson)) headers ∧
    ∃ c, headerContentType E (QS.headersFromJson E.P.uc (headers.map QS.headersToJson)) = .ok c ∧
      HeaderType E headers c := by
  cases headers with
  | none => exact ⟨trivial, none, rfl, Or.inr ⟨(fun _ h' => by cases h'), rfl⟩⟩
  | some hm =>
    have hok := h hm rfl
    obtain ⟨h', h1, h2⟩ := QueryStringProps.C30_headers_partial E.P.uc hm hok.map hok.values
    rw [Option.map_some, h1]
    refine ⟨h2, ?_⟩
    have hnd : IsMap h' := by
      unfold IsMap
      unfold QS.headersFromJson QS.headersToJson at h1
      cases Option.some.inj h1
      rw [List.map_map]
      exact (OMap.collect_sorted _).nodup
    have hmem := mem_of_same hok.map h2 hnd
    unfold headerContentType
    simp only
    cases hf : h'.find? (fun e => decide (E.P.uc.lower e.1 = "content-type".toList)) with
    | none =>
      refine ⟨none, rfl, Or.inr ⟨?_, rfl⟩⟩
      intro x hx e he hct
      cases hx
      exact List.find?_eq_none.1 hf e ((hmem e).2 he) (decide_eq_true hct)
    | some e =>
      have hp0 := List.find?_some hf
      have hp : IsCT E e.1 := by unfold IsCT; exact of_decide_eq_true hp0
      have he := (hmem e).1 (List.mem_of_find?_eq_some hf)
      obtain ⟨k, vs⟩ := e
      cases vs with
      | nil =>
        have hv := (hok.values _ he).2
        by_cases hs : QS.singleValueHeaders.contains (E.P.uc.lower k) = true
        · rw [if_pos hs] at hv; cases hv
        · rw [if_neg hs] at hv; exact absurd rfl hv.1
      | cons v vs => exact ⟨_, rfl, Or.inl ⟨hm, _, v, vs, rfl, he, hp, rfl, rfl⟩⟩

theorem bodyFromAttr_ct (E : FileEnv) (h : Option ContentType) (j : Option Json) (b : Bytes) (ct : Option ContentType)
    (hint : Option Hint) (hb : bodyFromAttr E h j = .present b ct hint) :
    ct = none ∨ ∀ c, h = some c → ct = some c := by
  unfold bodyFromAttr at hb
  split at hb
  · rename_i s
    by_cases hs : s = []
    · subst hs; cases hb
    · obtain ⟨b', ct', h1, h2, _⟩ := text_read E h s hs
      rw [h1] at hb
      cases hb
      rcases h2 with rfl | rfl
      · exact Or.inl rfl
      · refine Or.inr (fun c hc => ?_)
        rw [hc]; rfl
  · cases hb
  · cases hb; exact Or.inl rfl
  · cases hb

/-- A body that survives is read as the same body. -/
theorem body_same (E : FileEnv) (headers : Option HeaderMap) (body : FBody) (hb : BodyV3 E headers body)
    (h : Option ContentType) (hh : HeaderType E headers h) :
    SameBody E ((partContentType E body headers).getD .unknown) h body
      (bodyFromAttr E h (httpBodyToJson E (partContentType E body headers) body)) := by
  cases body with
  | missing => trivial
  | null => trivial
  | empty => trivial
  | present b ct hint =>
    obtain ⟨h1, h2⟩ := hb b ct hint rfl
    obtain ⟨b', ct', h3, h4⟩ := (C76_http_iff E _ h b h1 ct hint).2 (h2 h hh)
    have hw : httpBodyToJson E (partContentType E (.present b ct hint) headers) (.present b ct hint)
        = httpBodyToJson E (some ((partContentType E (.present b ct hint) headers).getD .unknown)) (.present b ct hint) := rfl
    rw [hw, h3]
    exact ⟨h4, rfl, bodyFromAttr_ct E h _ b' ct' none h3⟩

theorem slast_parts (k : String) (spec : Spec) (m : MatchingRules) (g : Generators) : slast k (partAttrs spec m g) =
    if "generators" = k then (if gensNotEmpty g = true then some (gensToJson spec g) else none)
    else if "matchingRules" = k then (if rulesNotEmpty m = true then some (rulesToJson spec m) else none) else none := by
  unfold partAttrs
  rw [slast_append, slast_if, slast_if, slast_one, slast_one, slast_nil]
  by_cases h1 : "generators" = k
  · subst h1
    simp only [String.reduceEq, if_true, if_false, ite_self', or_none']
  · simp only [if_neg h1, ite_self']
    by_cases h2 : "matchingRules" = k
    · simp only [if_pos h2, none_or']
    · simp only [if_neg h2, ite_self', none_or']

/-! ### Theorems -/

/-- **C77 (requests).** A request that a V3 file can hold is written without failing and read back as the same. -/
theorem C77_request_partial (E : FileEnv) (r : HttpRequest) (hr : RequestOk E r) :
    ∃ j r', PactV3.requestToJson E .v3 r = .ok j ∧ PactV3.requestFromJson E .v3 j = .ok r' ∧ SameRequestV3 E r r' := by
  obtain ⟨hh1, c, hh2, hh3⟩ := headers_v3 E r.headers hr.headers
  have hq : queryAttr .v3 r.query = .ok (r.query.map QS.queryToJsonV3) := by cases r.query <;> rfl
  unfold PactV3.requestToJson
  rw [hq]
  simp only [Res.map_ok]
  generalize hj : obj _ = j
  have hv : ∀ k, vget k j = slast k _ := fun k => by rw [← hj]; exact vget_obj k _
  obtain ⟨m', hm1, hm2⟩ := rules_attr E.P r.rules hr.parts.1 j (some "requestMatchingRules") (by
    rw [hv, slast_append, slast_parts]; vget_simp; rfl) (by
    intro n hn; cases hn; rw [hv, slast_append, slast_parts]; vget_simp)
  obtain ⟨g', hg1, hg2⟩ := gens_attr E.P r.gens hr.parts.2 j (by rw [hv, slast_append, slast_parts]; vget_simp; rfl)
  have hhj : vget "headers" j = r.headers.map QS.headersToJson := by rw [hv, slast_append, slast_parts]; vget_simp
  have hqj : vget "query" j = r.query.map QS.queryToJsonV3 := by rw [hv, slast_append, slast_parts]; vget_simp
  have hbj : vget "body" j = httpBodyToJson E (partContentType E r.body r.headers) r.body := by
    rw [hv, slast_append, slast_parts]; vget_simp
  have hmj : vget "method" j = some (.str (E.upper r.method)) := by rw [hv, slast_append, slast_parts]; vget_simp
  have hpj : vget "path" j = some (.str r.path) := by rw [hv, slast_append, slast_parts]; vget_simp
  have hr' : PactV3.requestFromJson E .v3 j = .ok
      { method := E.upper (E.upper r.method), path := r.path
        query := (r.query.map QS.queryToJsonV3).bind QS.v3QueryFromJson
        headers := QS.headersFromJson E.P.uc (r.headers.map QS.headersToJson)
        body := bodyFromAttr E c (httpBodyToJson E (partContentType E r.body r.headers) r.body)
        rules := m', gens := g' } := by
    unfold PactV3.requestFromJson PactV3.bodyFromJson
    simp only
    rw [hhj, hh2, hbj, hm1, hg1, hqj, hmj, attrText, hpj]
    rfl
  exact ⟨j, _, rfl, hr', ⟨rfl, rfl, query_read r.query hr.query, hh1, ⟨c, hh3, body_same E r.headers r.body hr.body c hh3⟩,
    hm2, hg2⟩⟩

/-- **C77 (responses).** -/
theorem C77_response_partial (E : FileEnv) (r : HttpResponse) (hr : ResponseOk E r) :
    ∃ r', PactV3.responseFromJson E (PactV3.responseToJson E .v3 r) = .ok r' ∧ SameResponseV3 E r r' := by
  obtain ⟨hh1, c, hh2, hh3⟩ := headers_v3 E r.headers hr.headers
  unfold PactV3.responseToJson
  generalize hj : obj _ = j
  have hv : ∀ k, vget k j = slast k _ := fun k => by rw [← hj]; exact vget_obj k _
  obtain ⟨m', hm1, hm2⟩ := rules_attr E.P r.rules hr.parts.1 j (some "responseMatchingRules") (by
    rw [hv, slast_append, slast_parts]; vget_simp; rfl) (by
    intro n hn; cases hn; rw [hv, slast_append, slast_parts]; vget_simp)
  obtain ⟨g', hg1, hg2⟩ := gens_attr E.P r.gens hr.parts.2 j (by rw [hv, slast_append, slast_parts]; vget_simp; rfl)
  have hhj : vget "headers" j = r.headers.map QS.headersToJson := by rw [hv, slast_append, slast_parts]; vget_simp
  have hbj : vget "body" j = httpBodyToJson E (partContentType E r.body r.headers) r.body := by
    rw [hv, slast_append, slast_parts]; vget_simp
  have hsj : vget "status" j = some (.num (.pos r.status)) := by rw [hv, slast_append, slast_parts]; vget_simp
  have hst : statusOf (.num (.pos r.status)) = .ok r.status := by
    show Res.ok (r.status % 65536) = _
    rw [Nat.mod_eq_of_lt hr.status]
  have hr' : PactV3.responseFromJson E j = .ok
      { status := r.status, headers := QS.headersFromJson E.P.uc (r.headers.map QS.headersToJson)
        body := bodyFromAttr E c (httpBodyToJson E (partContentType E r.body r.headers) r.body)
        rules := m', gens := g' } := by
    unfold PactV3.responseFromJson PactV3.bodyFromJson
    simp only
    rw [hsj, hhj, hh2, hbj, hm1, hg1]
    simp only [Res.bind_ok, statusAttr, hst, Res.map_ok]
  exact ⟨_, hr', ⟨rfl, hh1, ⟨c, hh3, body_same E r.headers r.body hr.body c hh3⟩, hm2, hg2⟩⟩

/-- What a V3 file keeps of an interaction: all but the ID. -/
structure SameHttp (E : FileEnv) (i i' : HttpInteraction) : Prop where
  id : i'.id = none
  description : i'.description = i.description
  states : Each SameState i.states i'.states
  request : SameRequestV3 E i.request i'.request
  response : SameResponseV3 E i.response i'.response

/-- An interaction that a V3 file can hold. -/
structure HttpOk (E : FileEnv) (i : HttpInteraction) : Prop where
  states : ∀ p ∈ i.states, IsMap p.params
  request : RequestOk E i.request
  response : ResponseOk E i.response

theorem states_attr (l : List PState) (h : ∀ p ∈ l, IsMap p.params) (j : Json)
    (hj : vget "providerStates" j = if l.isEmpty = true then none else some (.arr (l.map stateToJson)))
    (h1 : vget "providerState" j = none) (h2 : vget "provider_state" j = none) :
    Each SameState l (statesFromJson j) := by
  unfold statesFromJson
  cases l with
  | nil => rw [hj, h1, h2]; trivial
  | cons p ps =>
    rw [hj, if_neg (by simp)]
    simp only
    rw [List.map_map]
    exact each_map _ _ _ (fun q hq => state_read q (h q hq))

/-- **C77 (interactions).** -/
theorem C77_interaction_partial (E : FileEnv) (i : HttpInteraction) (hi : HttpOk E i) (index : Nat) :
    ∃ j i', httpToJson E .v3 i = .ok j ∧ PactV3.httpFromJson E .v3 index j = .ok i' ∧ SameHttp E i i' := by
  obtain ⟨jr, r', h1, h2, h3⟩ := C77_request_partial E i.request hi.request
  obtain ⟨s', h4, h5⟩ := C77_response_partial E i.response hi.response
  unfold httpToJson
  rw [h1]
  simp only [Res.map_ok]
  generalize hj : obj _ = j
  have hv : ∀ k, vget k j = slast k _ := fun k => by rw [← hj]; exact vget_obj k _
  have hs : ∀ k, slast k (stateAttrs .v3 i.states) = if "providerStates" = k then
      (if i.states.isEmpty = true then none else some (.arr (i.states.map stateToJson))) else none := by
    intro k
    cases i.states with
    | nil => rw [stateAttrs, slast_nil]; simp
    | cons p ps => rw [stateAttrs]; simp only [slast_one]; simp
  have e1 : vget "_id" j = none := by rw [hv, slast_append, hs]; vget_simp
  have e2 : vget "description" j = some (.str i.description) := by rw [hv, slast_append, hs]; vget_simp
  have e3 : vget "request" j = some jr := by rw [hv, slast_append, hs]; vget_simp
  have e4 : vget "response" j = some (PactV3.responseToJson E .v3 i.response) := by rw [hv, slast_append, hs]; vget_simp
  have e5 := states_attr i.states hi.states j (by rw [hv, slast_append, hs]; vget_simp)
    (by rw [hv, slast_append, hs]; vget_simp) (by rw [hv, slast_append, hs]; vget_simp)
  have hr : PactV3.httpFromJson E .v3 index j = .ok ⟨none, i.description, statesFromJson j, r', s'⟩ := by
    unfold PactV3.httpFromJson
    rw [e3, e4, e1, attrText, e2]
    simp only [partOr, h2, h4, Res.bind_ok]
    rfl
  exact ⟨j, _, rfl, hr, ⟨rfl, rfl, e5, h3, h5⟩⟩

/-- What a V1 to V3 file keeps of the metadata: the version of the specification is set, the version of this library is
recorded, and the old names of two entries are replaced. -/
structure SameMetadataV3 (E : FileEnv) (spec : Spec) (m m' : Metadata) : Prop where
  spec : Json.lookup "pactSpecification".toList m' = some [("version".toList, spec.text)]
  oldSpec : Json.lookup "pact-specification".toList m' = none
  rust : ∃ r', Json.lookup "pactRust".toList m' = some r' ∧ Json.lookup "models".toList r' = some E.rustVersion ∧
    ∀ q, q ≠ "models".toList → Json.lookup q r' =
      ((Json.lookup "pactRust".toList m).or (Json.lookup "pact-rust".toList m)).bind (Json.lookup q)
  oldRust : Json.lookup "pact-rust".toList m' = none
  others : ∀ q, q ∉ ["pactSpecification".toList, "pact-specification".toList, "pactRust".toList, "pact-rust".toList] →
    SameOpt (Json.lookup q m') (Json.lookup q m)

/-- The metadata are `BTreeMap`s. -/
def MetadataOk (m : Metadata) : Prop :=
  Json.SortedKeys (m.map (·.1)) ∧ ∀ e ∈ m, IsMap e.2

/-- The version of a file is read as that of the specification it was written for (`lenient_semver` reads the version
texts of this library). -/
def VersionRead (E : FileEnv) (spec : Spec) : Prop := versionSpec E spec.text = spec

/-- One part of the metadata, written and read. -/
theorem part_read (p : List (Str × Str)) (h : IsMap p) :
    SameMap (metadataPart (.obj (OMap.collect (p.map fun x => (x.1, Json.str x.2))))) p := by
  intro q
  unfold metadataPart
  have hc : IsMap (OMap.collect (p.map fun x => (x.1, Json.str x.2))) := collect_isMap _
  rw [collect_same _ (by unfold IsMap; rw [List.map_map]; exact hc) q]
  rw [OMap.lookup_mapVals (fun _ v => textOf v)]
  rw [collect_same _ (by unfold IsMap; rw [List.map_map]; exact h) q]
  rw [OMap.lookup_mapVals (fun _ v => Json.str v)]
  cases Json.lookup q p <;> rfl

theorem lookup_none_key {A : Type} (q : Str) (m : List (Str × A)) (h : Json.lookup q m = none) (e : Str × A) (he : e ∈ m) :
    e.1 ≠ q := by
  intro hq
  induction m with
  | nil => cases he
  | cons x xs ih =>
    obtain ⟨k, v⟩ := x
    change (if k = q then some v else Json.lookup q xs) = none at h
    by_cases hk : k = q
    · rw [if_pos hk] at h; cases h
    · rw [if_neg hk] at h
      rcases List.mem_cons.1 he with rfl | he
      · exact hk hq
      · exact ih h he

/-- The metadata as they are read from a file. -/
theorem metadata_read (E : FileEnv) (spec : Spec) (md : Metadata) (hm : MetadataOk md) (j : Json)
    (hj : vget "metadata" j = some (metadataJson E spec md)) : SameMetadataV3 E spec md (parseMetadata j) := by
  -- the metadata as JSON
  let m1 : Obj := md.map fun e => (e.1, Json.obj (OMap.collect (e.2.map fun x => (x.1, Json.str x.2))))
  have hk1 : m1.map (·.1) = md.map (·.1) := by simp only [m1, List.map_map]; rfl
  have hm1 : Json.SortedKeys (m1.map (·.1)) := by rw [hk1]; exact hm.1
  have hl1 : ∀ q, Json.lookup q m1 = (Json.lookup q md).map fun p =>
      Json.obj (OMap.collect (p.map fun x => (x.1, Json.str x.2))) := fun q =>
    OMap.lookup_mapVals (fun _ p => Json.obj (OMap.collect (p.map fun x => (x.1, Json.str x.2)))) md q
  have hren : (md.map fun e => (metadataKey e.1, Json.obj (OMap.collect (e.2.map fun x => (x.1, Json.str x.2)))))
      = renamed m1 := by simp only [m1, renamed, List.map_map]; rfl
  have hs1 := OMap.collect_sorted (renamed m1)
  have hs2 := OMap.insert_sorted "pactSpecification".toList (obj [("version", .str spec.text)]) _ hs1
  have hs3 := fun v => OMap.insert_sorted "pactRust".toList v _ hs2
  have hrust : Json.lookup "pactRust".toList (OMap.insert "pactSpecification".toList (obj [("version", .str spec.text)])
      (OMap.collect (renamed m1)))
      = (Json.lookup "pactRust".toList m1).or (Json.lookup "pact-rust".toList m1) := by
    rw [OMap.lookup_insert _ _ _ hs1, if_neg (by decide), lookup_collect_last, renamed_rust _ hm1]
  obtain ⟨M, hM⟩ : ∃ M, M = OMap.insert "pactRust".toList (withVersion E
      ((Json.lookup "pactRust".toList m1).or (Json.lookup "pact-rust".toList m1)))
      (OMap.insert "pactSpecification".toList (obj [("version", .str spec.text)]) (OMap.collect (renamed m1))) := ⟨_, rfl⟩
  have hMj : metadataJson E spec md = .obj M := by
    unfold metadataJson
    simp only
    rw [hren, hrust, hM]
  have hMs : Json.SortedKeys (M.map (·.1)) := by rw [hM]; exact hs3 _
  have hML : ∀ q, Json.lookup q M =
      if q = "pactRust".toList then some (withVersion E
        ((Json.lookup "pactRust".toList m1).or (Json.lookup "pact-rust".toList m1)))
      else if q = "pactSpecification".toList then some (obj [("version", .str spec.text)])
      else Json.lookup q (renamed m1).reverse := by
    intro q
    rw [hM, OMap.lookup_insert _ _ _ hs2, OMap.lookup_insert _ _ _ hs1, lookup_collect_last]
  have ho1 : Json.lookup "pact-rust".toList M = none := by
    rw [hML, if_neg (by decide), if_neg (by decide)]; exact renamed_old _ _ (Or.inr rfl)
  have ho2 : Json.lookup "pact-specification".toList M = none := by
    rw [hML, if_neg (by decide), if_neg (by decide)]; exact renamed_old _ _ (Or.inl rfl)
  -- reading
  have hkeys : (M.map fun e => (metadataKey e.1, metadataPart e.2)) = M.map fun e => (e.1, metadataPart e.2) := by
    refine List.map_congr_left (fun e he => ?_)
    have h1 := lookup_none_key _ M ho1 e he
    have h2 := lookup_none_key _ M ho2 e he
    unfold metadataKey
    rw [if_neg h2, if_neg h1]
  have hpm : ∀ q, Json.lookup q (parseMetadata j) = (Json.lookup q M).map metadataPart := by
    intro q
    unfold parseMetadata objAttr
    rw [hj, hMj]
    simp only
    rw [hkeys, collect_same _ (by unfold IsMap; rw [List.map_map]; exact hMs.nodup) q]
    exact OMap.lookup_mapVals (fun _ v => metadataPart v) M q
  constructor
  · rw [hpm, hML, if_neg (by decide), if_pos rfl]; cases spec <;> rfl
  · rw [hpm, ho2]; rfl
  · rw [hpm, hML, if_pos rfl]
    refine ⟨_, rfl, ?_⟩
    have hold : (Json.lookup "pactRust".toList m1).or (Json.lookup "pact-rust".toList m1)
        = ((Json.lookup "pactRust".toList md).or (Json.lookup "pact-rust".toList md)).map fun p =>
          Json.obj (OMap.collect (p.map fun x => (x.1, Json.str x.2))) := by
      rw [hl1, hl1]
      cases Json.lookup "pactRust".toList md <;> rfl
    rw [hold]
    have hp : ∀ p, (Json.lookup "pactRust".toList md).or (Json.lookup "pact-rust".toList md) = some p → IsMap p := by
      intro p hp
      cases h1 : Json.lookup "pactRust".toList md with
      | some x => rw [h1] at hp; cases hp; exact hm.2 _ (Json.lookup_mem h1)
      | none => rw [h1] at hp; exact hm.2 _ (Json.lookup_mem hp)
    generalize (Json.lookup "pactRust".toList md).or (Json.lookup "pact-rust".toList md) = o at hp ⊢
    cases o with
    | none =>
      refine ⟨rfl, fun q hq => ?_⟩
      show (if "models".toList = q then some _ else none) = none
      rw [if_neg (Ne.symm hq)]
    | some p =>
      have hpm := hp p rfl
      have hsort := OMap.collect_sorted (p.map fun x => (x.1, Json.str x.2))
      have hl : ∀ q, Json.lookup q (metadataPart (withVersion E (some (Json.obj (OMap.collect (p.map fun x => (x.1, Json.str x.2)))))))
          = if q = "models".toList then some E.rustVersion else Json.lookup q p := by
        intro q
        show Json.lookup q (OMap.collect ((OMap.insert "models".toList (.str E.rustVersion)
          (OMap.collect (p.map fun x => (x.1, Json.str x.2)))).map fun e => (e.1, textOf e.2))) = _
        rw [collect_same _ (by
          unfold IsMap; rw [List.map_map]; exact (OMap.insert_sorted _ _ _ hsort).nodup) q]
        rw [OMap.lookup_mapVals (fun _ v => textOf v), OMap.lookup_insert _ _ _ hsort]
        by_cases hq : q = "models".toList
        · rw [if_pos hq, if_pos hq]; rfl
        · rw [if_neg hq, if_neg hq]
          rw [collect_same _ (by unfold IsMap; rw [List.map_map]; exact hpm) q]
          rw [OMap.lookup_mapVals (fun _ v => Json.str v)]
          cases Json.lookup q p <;> rfl
      refine ⟨?_, fun q hq => ?_⟩
      · exact (hl _).trans (if_pos rfl)
      · exact (hl q).trans (if_neg hq)
  · rw [hpm, ho1]; rfl
  · intro q hq
    rw [hpm, hML, if_neg (fun h => hq (by rw [h]; decide)), if_neg (fun h => hq (by rw [h]; decide)),
      renamed_other m1 hm1 q hq, hl1]
    cases hl : Json.lookup q md with
    | none => trivial
    | some p => exact part_read p (hm.2 _ (Json.lookup_mem hl))

/-- The version that is found in metadata written by this library. -/
theorem spec_read (E : FileEnv) (spec : Spec) (m m' : Metadata) (h : SameMetadataV3 E spec m m') (hv : VersionRead E spec) :
    determineSpec E m' = spec := by
  unfold determineSpec
  rw [h.oldSpec, h.spec]
  exact hv

/-- What a V3 file keeps of a pact. -/
structure SameHttpPact (E : FileEnv) (spec : Spec) (same : HttpInteraction → HttpInteraction → Prop)
    (p p' : HttpPact) : Prop where
  consumer : p'.consumer = p.consumer
  provider : p'.provider = p.provider
  interactions : Each same p.interactions p'.interactions
  metadata : SameMetadataV3 E spec p.metadata p'.metadata
  spec : p'.spec = spec

theorem httpLoop_roundtrip (E : FileEnv) (spec : Spec) (same : HttpInteraction → HttpInteraction → Prop)
    (l : List HttpInteraction)
    (h : ∀ i ∈ l, ∀ index, ∃ j i', httpToJson E spec i = .ok j ∧ PactV3.httpFromJson E spec index j = .ok i' ∧ same i i')
    (index : Nat) :
    ∃ js is, allOk (l.map (httpToJson E spec)) = .ok js ∧ httpLoop E spec index js = .ok is ∧ Each same l is := by
  induction l generalizing index with
  | nil => exact ⟨[], [], rfl, rfl, trivial⟩
  | cons i is ih =>
    obtain ⟨j, i', h1, h2, h3⟩ := h i List.mem_cons_self index
    obtain ⟨js, is', k1, k2, k3⟩ := ih (fun x hx => h x (List.mem_cons_of_mem _ hx)) (index + 1)
    refine ⟨j :: js, i' :: is', ?_, ?_, h3, k3⟩
    · rw [List.map_cons, allOk, h1, Res.bind_ok, k1]; rfl
    · rw [httpLoop, h2, Res.bind_ok, k2]; rfl

/-- Writing and reading pacts, for any version before V4 whose interactions can be written and read. -/
theorem http_pact (E : FileEnv) (spec : Spec) (h4 : spec ≠ .v4) (hv : VersionRead E spec)
    (same : HttpInteraction → HttpInteraction → Prop) (p : HttpPact) (hm : MetadataOk p.metadata)
    (hi : ∀ i ∈ p.interactions, ∀ index, ∃ j i', httpToJson E spec i = .ok j ∧
      PactV3.httpFromJson E spec index j = .ok i' ∧ same i i') :
    ∃ o p', httpPactToJson E spec p = .ok (.obj o) ∧ loadPact E (.obj o) = .ok (.http p') ∧
      httpPactFromJson E (.obj o) = .ok p' ∧ SameHttpPact E spec same p p' := by
  obtain ⟨js, is, h1, h2, h3⟩ := httpLoop_roundtrip E spec same p.interactions hi 0
  have hw : httpPactToJson E spec p = .ok (obj [("consumer", obj [("name", .str p.consumer)]),
      ("provider", obj [("name", .str p.provider)]), ("interactions", .arr js),
      ("metadata", metadataJson E spec p.metadata)]) := by
    unfold httpPactToJson
    cases spec <;> first | exact absurd rfl h4 | (simp only [h1, Res.map_ok])
  rw [hw]
  generalize hj : obj _ = j
  have hv' : ∀ k, vget k j = slast k _ := fun k => by rw [← hj]; exact vget_obj k _
  have hc : vget "consumer" j = some (obj [("name", .str p.consumer)]) := by rw [hv']; vget_simp
  have hp : vget "provider" j = some (obj [("name", .str p.provider)]) := by rw [hv']; vget_simp
  have hin : vget "interactions" j = some (.arr js) := by rw [hv']; vget_simp
  have hmj : vget "metadata" j = some (metadataJson E spec p.metadata) := by rw [hv']; vget_simp
  have hms : vget "messages" j = none := by rw [hv']; vget_simp
  have hname : ∀ (n d : Str), attrText "name" d (obj [("name", .str n)]) = n := by
    intro n d
    rw [attrText, vget_obj, slast_one, if_pos rfl]; rfl
  obtain ⟨o, ho⟩ : ∃ o, j = .obj o := ⟨_, by rw [← hj]; exact RuleJsonProps.obj_eq _⟩
  have hmd := metadata_read E spec p.metadata hm j hmj
  have hsp := spec_read E spec _ _ hmd hv
  have hread : httpPactFromJson E j = .ok ⟨p.consumer, p.provider, is, parseMetadata j, spec⟩ := by
    unfold httpPactFromJson
    simp only
    rw [hsp]
    have hpi : parseInteractions E spec j = .ok is := by unfold parseInteractions; rw [hin]; exact h2
    unfold nameFromJson
    rw [hc, hp]
    simp only [hname]
    cases spec <;> first | exact absurd rfl h4 | (simp only [hpi, Res.map_ok])
  subst ho
  refine ⟨o, _, rfl, ?_, hread, ⟨rfl, rfl, h3, hmd, rfl⟩⟩
  unfold loadPact
  simp only
  rw [hsp, if_neg h4, hms, hread]
  rfl

/-- A pact that a V3 file can hold. -/
structure HttpPactOk (E : FileEnv) (p : HttpPact) : Prop where
  interactions : ∀ i ∈ p.interactions, HttpOk E i
  metadata : MetadataOk p.metadata

/-- **C77.** A request/response pact that a V3 file can hold is written without failing; loading the file gives a
request/response pact, the same one. -/
theorem C77_pact_partial (E : FileEnv) (hv : VersionRead E .v3) (p : HttpPact) (h : HttpPactOk E p) :
    ∃ o p', httpPactToJson E .v3 p = .ok (.obj o) ∧ loadPact E (.obj o) = .ok (.http p') ∧
      httpPactFromJson E (.obj o) = .ok p' ∧ SameHttpPact E .v3 (SameHttp E) p p' :=
  http_pact E .v3 (by decide) hv (SameHttp E) p h.metadata
    (fun i hi index => C77_interaction_partial E i (h.interactions i hi) index)

/-! ## C78 Messages (V3) -/

/-! ### Specification -/

/-- The name of a metadata entry is that of the content type: `contentType` or `content-type`, in any ASCII case. -/
def IsCTKey (k : Str) : Prop :=
  k.map Char.toLower = "contenttype".toList ∨ k.map Char.toLower = "content-type".toList

/-- The content type that the metadata have. -/
def MetaType (E : FileEnv) (m : Obj) (c : Option ContentType) : Prop :=
  (∃ e ∈ m, IsCTKey e.1 ∧ c = E.parseCT e.2.toStr) ∨ ((∀ e ∈ m, ¬IsCTKey e.1) ∧ c = none)

/-- A message that a V3 file can hold. -/
structure MessageV3 (E : FileEnv) (m : Message) : Prop where
  states : ∀ p ∈ m.states, IsMap p.params
  metadata : IsMap m.metadata
  one : ∀ e ∈ m.metadata, ∀ e' ∈ m.metadata, IsCTKey e.1 → IsCTKey e'.1 → e = e'
  parses : ∀ c, MetaType E m.metadata (some c) → Parses E c
  contents : ∀ b ct hint, m.contents = .present b ct hint → b ≠ [] ∧
    ∀ c, MetaType E m.metadata c → KeptMessage E ((messageContentType E m).getD .unknown) c b
  rules : RuleJsonProps.RulesOk E.P.uc m.rules

/-- What a V3 file keeps of the contents of a message. -/
def SameContents (E : FileEnv) (w : ContentType) (h : Option ContentType) : FBody → FBody → Prop
  | .missing, .missing => True
  | .null, .null => True
  | .empty, .empty => True
  | .present b _ _, .present b' ct' hint' => SameBytes E w b b' ∧ hint' = none ∧ ∀ c, h = some c → ct' = some c
  | _, _ => False

/-- What a V3 file keeps of a message: all but the ID and the generators. -/
structure SameMessageV3 (E : FileEnv) (m m' : Message) : Prop where
  id : m'.id = none
  description : m'.description = m.description
  states : Each SameState m.states m'.states
  contents : ∃ h, MetaType E m.metadata h ∧
    SameContents E ((messageContentType E m).getD .unknown) h m.contents m'.contents
  metadata : SameMap m'.metadata m.metadata
  rules : mrEq m.rules m'.rules = true
  gens : m'.gens = []

/-! ### Lemmas -/

theorem isCTKey_iff (k : Str) : isContentTypeKey k = true ↔ IsCTKey k := by
  unfold isContentTypeKey IsCTKey
  simp only [Bool.or_eq_true, decide_eq_true_eq]

theorem metadata_find (E : FileEnv) (m : Obj) (c : Option ContentType)
    (hc : c = (m.find? fun e => isContentTypeKey e.1).bind fun e => E.parseCT e.2.toStr) : MetaType E m c := by
  cases hf : m.find? (fun e => isContentTypeKey e.1) with
  | none =>
    rw [hf] at hc
    refine Or.inr ⟨fun e he hk => ?_, hc⟩
    exact List.find?_eq_none.1 hf e he ((isCTKey_iff _).2 hk)
  | some e =>
    rw [hf] at hc
    have hp := List.find?_some hf
    exact Or.inl ⟨e, List.mem_of_find?_eq_some hf, (isCTKey_iff _).1 hp, hc⟩

theorem metaType_same (E : FileEnv) (m m' : Obj) (hm : IsMap m) (hm' : IsMap m') (h : SameMap m' m)
    (c : Option ContentType) (hc : MetaType E m' c) : MetaType E m c := by
  have hmem := mem_of_same hm h hm'
  rcases hc with ⟨e, he, h1, h2⟩ | ⟨h1, h2⟩
  · exact Or.inl ⟨e, (hmem e).1 he, h1, h2⟩
  · exact Or.inr ⟨fun e he => h1 e ((hmem e).2 he), h2⟩

theorem displayed_type (E : FileEnv) (c : ContentType) (h : Parses E c) :
    headerContentType E (some [("content-type".toList, [c.display])]) = .ok (some c) := by
  have hl : E.P.uc.lower "content-type".toList = "content-type".toList := by
    rw [E.P.uc.lower_ascii _ (by decide)]; decide
  unfold headerContentType
  simp only [List.find?_cons, hl, decide_true]
  show Res.ok (E.parseCT c.display) = _
  rw [h]

/-- The body with the content type, if there is one. -/
def withType : Option ContentType → FBody → FBody
  | some ct, b => setContentType ct b
  | none, b => b

/-! ### Theorems -/

/-- **C78 (messages).** A message that a V3 file can hold is read back as the same message without generators. -/
theorem C78_message_partial (E : FileEnv) (m : Message) (hm : MessageV3 E m) (index : Nat) :
    ∃ m', PactV3.messageFromJson E .v3 index (PactV3.messageToJson E .v3 m) = .ok m' ∧ SameMessageV3 E m m' := by
  unfold PactV3.messageToJson
  generalize hj : obj _ = j
  have hv : ∀ k, vget k j = slast k _ := fun k => by rw [← hj]; exact vget_obj k _
  have hs : ∀ k, slast k (if m.states.isEmpty = true then [] else [("providerStates", Json.arr (m.states.map stateToJson))])
      = if "providerStates" = k then (if m.states.isEmpty = true then none else some (.arr (m.states.map stateToJson)))
        else none := by
    intro k
    rw [slast_if, slast_nil, slast_one]
    split <;> simp
  have e1 : vget "_id" j = none := by
    rw [hv, slast_append, hs, slast_append, slast_append, slast_parts]; vget_simp
  have e2 : vget "description" j = some (.str m.description) := by
    rw [hv, slast_append, hs, slast_append, slast_append, slast_parts]; vget_simp
  have e3 : vget "metadata" j = some (.obj (OMap.collect m.metadata)) := by
    rw [hv, slast_append, hs, slast_append, slast_append, slast_parts]; vget_simp
  have e3' : vget "metaData" j = none := by
    rw [hv, slast_append, hs, slast_append, slast_append, slast_parts]; vget_simp
  have e4 : vget "contents" j = contentsToJson E (messageContentType E m) m.contents := by
    rw [hv, slast_append, hs, slast_append, slast_append, slast_parts]; vget_simp
  have e5 := states_attr m.states hm.states j
    (by rw [hv, slast_append, hs, slast_append, slast_append, slast_parts]; vget_simp)
    (by rw [hv, slast_append, hs, slast_append, slast_append, slast_parts]; vget_simp)
    (by rw [hv, slast_append, hs, slast_append, slast_append, slast_parts]; vget_simp)
  obtain ⟨rs, hr1, hr2⟩ := rules_attr E.P m.rules hm.rules j none (by
    rw [hv, slast_append, hs, slast_append, slast_append, slast_parts]; vget_simp; rfl) (fun _ h => by cases h)
  have hmd : messageMetadata j = OMap.collect m.metadata := by unfold messageMetadata; rw [e3', e3]; rfl
  have hsame := collect_same m.metadata hm.metadata
  obtain ⟨c, hcdef⟩ : ∃ c, c = ((OMap.collect m.metadata).find? fun e => isContentTypeKey e.1).bind fun e =>
    E.parseCT e.2.toStr := ⟨_, rfl⟩
  have hct : MetaType E m.metadata c :=
    metaType_same E _ _ hm.metadata (collect_isMap _) hsame c (metadata_find E _ c hcdef)
  -- the contents
  have hbody : ∃ body, messageContents E (OMap.collect m.metadata) j = .ok body ∧
      SameContents E ((messageContentType E m).getD .unknown) c m.contents body := by
    have hread : messageContents E (OMap.collect m.metadata) j = .ok
        (withType c (bodyFromAttr E c (vget "contents" j))) := by
      unfold messageContents
      rw [← hcdef]
      cases c with
      | none => rfl
      | some ct =>
        simp only [PactV3.bodyFromJson]
        rw [displayed_type E ct (hm.parses ct hct)]
        rfl
    refine ⟨_, hread, ?_⟩
    rw [e4]
    have hk := hm.contents
    cases hb : m.contents with
    | missing => cases c <;> trivial
    | null => cases c <;> trivial
    | empty => cases c <;> trivial
    | present b ct hint =>
      obtain ⟨h1, h2⟩ := hk b ct hint hb
      obtain ⟨b', ct', h3, h4⟩ := (C76_message_iff E _ c b h1 ct hint).2 (h2 c hct)
      have hw : contentsToJson E (messageContentType E m) (.present b ct hint)
          = contentsToJson E (some ((messageContentType E m).getD .unknown)) (.present b ct hint) := rfl
      rw [hw]
      cases c with
      | none => simp only [h3, withType]; exact ⟨h4, rfl, (fun _ h => by cases h)⟩
      | some ct => simp only [h3, withType, setContentType]; exact ⟨h4, rfl, fun c hc => by cases hc; rfl⟩
  obtain ⟨body, hb1, hb2⟩ := hbody
  have hr : PactV3.messageFromJson E .v3 index j = .ok
      ⟨none, m.description, statesFromJson j, body, OMap.collect m.metadata, rs, []⟩ := by
    unfold PactV3.messageFromJson
    simp only
    rw [hmd, hb1, hr1, e1, attrText, e2]
    rfl
  exact ⟨_, hr, ⟨rfl, rfl, e5, ⟨c, hct, hb2⟩, hsame, hr2, rfl⟩⟩

/-- What a V3 file keeps of a message pact. -/
structure SameMessagePact (E : FileEnv) (p p' : MessagePact) : Prop where
  consumer : p'.consumer = p.consumer
  provider : p'.provider = p.provider
  messages : Each (SameMessageV3 E) p.messages p'.messages
  metadata : SameMetadataV3 E .v3 p.metadata p'.metadata
  spec : p'.spec = .v3

/-- A message pact that a V3 file can hold. -/
structure MessagePactOk (E : FileEnv) (p : MessagePact) : Prop where
  messages : ∀ m ∈ p.messages, MessageV3 E m
  metadata : MetadataOk p.metadata

theorem messageLoop_roundtrip (E : FileEnv) (l : List Message) (h : ∀ m ∈ l, MessageV3 E m) (index : Nat) :
    ∃ ms, messageLoop E .v3 index (l.map (PactV3.messageToJson E .v3)) = .ok ms ∧ Each (SameMessageV3 E) l ms := by
  induction l generalizing index with
  | nil => exact ⟨[], rfl, trivial⟩
  | cons m ms ih =>
    obtain ⟨m', h1, h2⟩ := C78_message_partial E m (h m List.mem_cons_self) index
    obtain ⟨ms', k1, k2⟩ := ih (fun x hx => h x (List.mem_cons_of_mem _ hx)) (index + 1)
    refine ⟨m' :: ms', ?_, h2, k2⟩
    rw [List.map_cons, messageLoop, h1, Res.bind_ok, k1]; rfl

/-- **C78.** A message pact that a V3 file can hold is written without failing; loading the file gives a message pact,
the same one. -/
theorem C78_pact_partial (E : FileEnv) (hv : VersionRead E .v3) (p : MessagePact) (h : MessagePactOk E p) :
    ∃ o p', messagePactToJson E .v3 p = .ok (.obj o) ∧ loadPact E (.obj o) = .ok (.message p') ∧
      messagePactFromJson E (.obj o) = .ok p' ∧ SameMessagePact E p p' := by
  obtain ⟨ms, h1, h2⟩ := messageLoop_roundtrip E p.messages h.messages 0
  unfold messagePactToJson
  simp only
  generalize hj : obj _ = j
  have hv' : ∀ k, vget k j = slast k _ := fun k => by rw [← hj]; exact vget_obj k _
  have hc : vget "consumer" j = some (obj [("name", .str p.consumer)]) := by rw [hv']; vget_simp
  have hp : vget "provider" j = some (obj [("name", .str p.provider)]) := by rw [hv']; vget_simp
  have hms : vget "messages" j = some (.arr (p.messages.map (PactV3.messageToJson E .v3))) := by rw [hv']; vget_simp
  have hmj : vget "metadata" j = some (metadataJson E .v3 p.metadata) := by rw [hv']; vget_simp
  have hname : ∀ (n d : Str), attrText "name" d (obj [("name", .str n)]) = n := by
    intro n d
    rw [attrText, vget_obj, slast_one, if_pos rfl]; rfl
  obtain ⟨o, ho⟩ : ∃ o, j = .obj o := ⟨_, by rw [← hj]; exact RuleJsonProps.obj_eq _⟩
  have hmd := metadata_read E .v3 p.metadata h.metadata j hmj
  have hsp := spec_read E .v3 _ _ hmd hv
  have hread : messagePactFromJson E j = .ok ⟨p.consumer, p.provider, ms, parseMetadata j, .v3⟩ := by
    unfold messagePactFromJson
    simp only
    rw [hsp]
    have hpi : parseMessages E .v3 j = .ok ms := by unfold parseMessages; rw [hms]; exact h1
    unfold nameFromJson
    rw [hc, hp]
    simp only [hname, hpi, Res.map_ok]
  subst ho
  refine ⟨o, _, rfl, ?_, hread, ⟨rfl, rfl, h2, hmd, rfl⟩⟩
  unfold loadPact
  simp only
  rw [hsp, if_neg (by decide), hms, hread]
  rfl

/-! ### Non-vacuity and limits -/

theorem exParts3_ok : PartsOk exE3 RuleJsonProps.exRules GenerateProps.exGens :=
  ⟨RuleJsonProps.exRules_ok, GenerateProps.exGens_ok⟩

def exHeaders : HeaderMap :=
  [("Content-Type".toList, ["application/json".toList]), ("X".toList, ["a".toList, "b".toList])]

theorem exHeaders_ok : HeadersV3 exE3 exHeaders := by
  refine ⟨by decide, ?_, ?_⟩
  · intro e he
    simp only [exHeaders, List.mem_cons, List.not_mem_nil, or_false] at he
    rcases he with rfl | rfl <;> decide
  · intro e he e' he' h h'
    simp only [exHeaders, List.mem_cons, List.not_mem_nil, or_false] at he he'
    rcases he with rfl | rfl <;> rcases he' with rfl | rfl <;>
      first | rfl | (exfalso; revert h; unfold IsCT; decide) | (exfalso; revert h'; unfold IsCT; decide)

/-- The content type of headers is unique if there is one content type header. -/
theorem headerType_json (c : Option ContentType) (h : HeaderType exE3 (some exHeaders) c) : c = some jsonCT := by
  rcases h with ⟨m, e, v, vs, h1, h2, h3, h4, h5⟩ | ⟨h1, _⟩
  · cases h1
    simp only [exHeaders, List.mem_cons, List.not_mem_nil, or_false] at h2
    rcases h2 with rfl | rfl
    · cases h4; rw [h5]; decide
    · exfalso; revert h3; unfold IsCT; decide
  · exact absurd (show IsCT exE3 "Content-Type".toList by unfold IsCT; decide)
      (h1 exHeaders rfl ("Content-Type".toList, ["application/json".toList]) (by decide))

def exHttp : HttpInteraction :=
  ⟨some "1".toList, "d".toList, [⟨"s".toList, [("y".toList, .num (.pos 1)), ("x".toList, .null)]⟩, ⟨"t".toList, []⟩],
   ⟨"post".toList, "/x".toList, some [("q".toList, [some "1".toList, some "2".toList])], some exHeaders,
    .present (utf8 "[ 1 ]".toList) none none, RuleJsonProps.exRules, GenerateProps.exGens⟩,
   ⟨404, some exHeaders, .present (utf8 "\"plain\"".toList) none none, RuleJsonProps.exRules, []⟩⟩

def exHttpPact : HttpPact :=
  ⟨"c".toList, "p".toList, [exHttp],
    [("other".toList, [("b".toList, "1".toList), ("a".toList, [])]), ("pact-rust".toList, [("ffi".toList, "9".toList)])], .v3⟩

theorem exVersion : VersionRead exE3 .v3 := by unfold VersionRead; decide

theorem exPlain_kept : KeptHttp exE3 jsonCT (some jsonCT) (utf8 "\"plain\"".toList) := by
  refine ((C76_json exE3 jsonCT (by decide) _).2.2.2.2 "plain".toList (by decide)).2 ⟨by decide, ?_, fun _ => by decide⟩
  intro h
  have := (jsonParsable_iff exE3 _).2 h
  revert this; decide

/-- The hypotheses of C77 are met by a pact with states, rules, generators and bodies. -/
theorem exHttpPact_ok : HttpPactOk exE3 exHttpPact := by
  refine ⟨?_, by decide, ?_⟩
  · intro i hi
    rw [List.mem_singleton.1 hi]
    refine ⟨?_, ⟨?_, ?_, ?_, exParts3_ok⟩, by decide, ?_, ?_, RuleJsonProps.exRules_ok, emptyParts_ok.2⟩
    · intro p hp
      simp only [exHttp, List.mem_cons, List.not_mem_nil, or_false] at hp
      rcases hp with rfl | rfl <;> decide
    · intro m hm; cases hm; decide
    · intro m hm; cases hm; exact exHeaders_ok
    · intro b ct hint hb
      cases hb
      refine ⟨by decide, fun c hc => ?_⟩
      rw [headerType_json c hc]
      show KeptHttp exE3 jsonCT _ _
      exact (C76_json exE3 jsonCT (by decide) _).2.2.2.1 (.arr [.num (.pos 1)]) (by decide) (by decide) (fun s h => by cases h)
    · intro m hm; cases hm; exact exHeaders_ok
    · intro b ct hint hb
      cases hb
      refine ⟨by decide, fun c hc => ?_⟩
      rw [headerType_json c hc]
      show KeptHttp exE3 jsonCT _ _
      exact exPlain_kept
  · intro e he
    simp only [exHttpPact, List.mem_cons, List.not_mem_nil, or_false] at he
    rcases he with rfl | rfl <;> decide

example : ∃ o p', httpPactToJson exE3 .v3 exHttpPact = .ok (.obj o) ∧ loadPact exE3 (.obj o) = .ok (.http p') ∧
    httpPactFromJson exE3 (.obj o) = .ok p' ∧ SameHttpPact exE3 .v3 (SameHttp exE3) exHttpPact p' :=
  C77_pact_partial exE3 exVersion exHttpPact exHttpPact_ok

def exMessage3 : Message :=
  ⟨none, "m".toList, [⟨"s".toList, []⟩], .present (utf8 "[ 1 ]".toList) none none,
    [("contentType".toList, .str "application/json".toList), ("a".toList, .num (.pos 1))], RuleJsonProps.exRules,
    GenerateProps.exGens⟩

def exMessagePact : MessagePact := ⟨"c".toList, "p".toList, [exMessage3], exHttpPact.metadata, .v3⟩

theorem exMessage3_ok : MessageV3 exE3 exMessage3 := by
  have hct : ∀ c, MetaType exE3 exMessage3.metadata c → c = some jsonCT := by
    rintro c (⟨e, he, h1, h2⟩ | ⟨h1, _⟩)
    · simp only [exMessage3, List.mem_cons, List.not_mem_nil, or_false] at he
      rcases he with rfl | rfl
      · rw [h2]; decide
      · exfalso; revert h1; unfold IsCTKey; decide
    · exact absurd (show IsCTKey "contentType".toList by unfold IsCTKey; decide)
        (h1 ("contentType".toList, .str "application/json".toList) List.mem_cons_self)
  refine ⟨?_, by decide, ?_, ?_, ?_, RuleJsonProps.exRules_ok⟩
  · intro p hp
    rw [List.mem_singleton.1 hp]; decide
  · intro e he e' he' h h'
    simp only [exMessage3, List.mem_cons, List.not_mem_nil, or_false] at he he'
    rcases he with rfl | rfl <;> rcases he' with rfl | rfl <;>
      first | rfl | (exfalso; revert h; unfold IsCTKey; decide) | (exfalso; revert h'; unfold IsCTKey; decide)
  · intro c hc
    cases hct _ hc
    unfold Parses; decide
  · intro b ct hint hb
    cases hb
    refine ⟨by decide, fun c hc => ?_⟩
    rw [hct c hc]
    show KeptMessage exE3 jsonCT _ _
    exact (C76_json exE3 jsonCT (by decide) _).1.1
      ((C76_json exE3 jsonCT (by decide) _).2.2.2.1 (.arr [.num (.pos 1)]) (by decide) (by decide) (fun s h => by cases h))

theorem exMessagePact_ok : MessagePactOk exE3 exMessagePact :=
  ⟨fun m hm => by rw [List.mem_singleton.1 hm]; exact exMessage3_ok, exHttpPact_ok.metadata⟩

/-- **C78 (limits).** Reading never gives a message generators, whatever the file; and messages are read from V3 files
only, so that a file of messages without a known version is refused. -/
theorem C78_limits (E : FileEnv) (index : Nat) (v : Json) :
    (∀ m, PactV3.messageFromJson E .v3 index v = .ok m → m.gens = []) ∧
    ∀ spec, spec ≠ .v3 → PactV3.messageFromJson E spec index v = .err := by
  constructor
  · intro m h
    unfold PactV3.messageFromJson at h
    simp only at h
    cases h1 : messageContents E (messageMetadata v) v with
    | ok b =>
      rw [h1] at h
      cases h2 : matchersFromJson E.P v none with
      | ok r => rw [h2] at h; cases h; rfl
      | err => rw [h2] at h; cases h
      | panic => rw [h2] at h; cases h
    | err => rw [h1] at h; cases h
    | panic => rw [h1] at h; cases h
  · intro spec h
    cases spec <;> first | exact absurd rfl h | rfl





end PactV3Props
end Verif
