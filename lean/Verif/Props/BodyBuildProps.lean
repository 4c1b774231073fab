import Verif.BodyBuild
import Verif.Props.PartProps
import Verif.Props.FormJsonProps
import Verif.Props.XmlBuildProps
import Verif.Props.EndToEndProps

/-
  C122-C124: bodies set through the C interface (`pactffi_with_body`).
-/

set_option autoImplicit false

namespace Verif
namespace BodyBuildProps
open Path Rules RuleJson Generate Integration PactFile Parts Xml XmlBuild Headers BodyBuild IntegrationProps

/-! ## Specification -/

/-- The content type a header map declares: the first value of the first header with this name, if it can be parsed. -/
def Declared (E : FileEnv) (h : Option HeaderMap) (t : ContentType) : Prop :=
  ∃ hs k v vs, h = some hs ∧ hs.find? (fun e => decide (E.P.uc.lower e.1 = "content-type".toList)) = some (k, v :: vs) ∧
    E.parseCT v = some t

/-- The content type of a request or response: that of the body, else the declared one, else one found in the first bytes
of the body. -/
inductive PartType (E : FileEnv) : FBody → Option HeaderMap → ContentType → Prop
  | body (b : Bytes) (t : ContentType) (hint : Option Hint) (h : Option HeaderMap) : PartType E (.present b (some t) hint) h t
  | header (x : FBody) (h : Option HeaderMap) (t : ContentType) : PactV3.bodyCT x = none → Declared E h t → PartType E x h t
  | bytes (b : Bytes) (hint : Option Hint) (h : Option HeaderMap) (t : ContentType) : (∀ t, ¬ Declared E h t) →
      E.detectBytes b = some t → PartType E (.present b none hint) h t

/-- A header for the content type has no values, which aborts the program when the content type is looked up. -/
def NoValues (E : FileEnv) (x : FBody) (h : Option HeaderMap) : Prop :=
  PactV3.bodyCT x = none ∧ ∃ hs k, h = some hs ∧
    hs.find? (fun e => decide (E.P.uc.lower e.1 = "content-type".toList)) = some (k, [])

/-- The content type of a new text: the given one, else that of the part, else the one detected. -/
inductive NewType (L : Lib) (given : Option Str) (x : FBody) (h : Option HeaderMap) (s : Str) : ContentType → Prop
  | given (g : Str) (t : ContentType) : given = some g → L.file.parseCT g = some t → NewType L given x h s t
  | part (t : ContentType) : given = none → PartType L.file x h t → NewType L given x h s t
  | detected : given = none → (∀ t, ¬ PartType L.file x h t) → NewType L given x h s (L.file.detectStr s)

/-- A header for the content type is added, unless there is one with exactly this name. -/
def TypeAdded (t : ContentType) (h h' : Option HeaderMap) : Prop :=
  ((∃ vs, ("Content-Type".toList, vs) ∈ h.getD []) ∧ h' = some (h.getD [])) ∨
    ((∀ vs, ("Content-Type".toList, vs) ∉ h.getD []) ∧ h' = some (h.getD [] ++ [("Content-Type".toList, [t.display])]))

/-- What becomes of a text that is not empty: the contents, the body rules and the generators. -/
inductive Contents (L : Lib) (t : ContentType) (s : Str) (a : Acc) : Str → Acc → Prop
  /-- JSON with matchers: the example. -/
  | json (j x : Json) (a' : Acc) : t.isJson = true → L.src.parse s = some j → ((∃ o, j = .obj o) ∨ ∃ xs, j = .arr xs) →
      processJson L.src.setup j a = .ok (x, a') → Contents L t s a x.text a'
  /-- Anything else that is declared as JSON is kept. -/
  | notJson : t.isJson = true → (∀ j, L.src.parse s = some j → (∀ o, j ≠ .obj o) ∧ ∀ xs, j ≠ .arr xs) → Contents L t s a s a
  /-- The description of an XML document. -/
  | xml (o : Obj) (d : Option Elem) (a' : Acc) : t.isJson = false → t.isXml = true → (L.file.detectStr s).isJson = true →
      L.src.parse s = some (.obj o) → generate L.src.setup L.moves o a = .ok (d, a') → Contents L t s a (L.xmlText d) a'
  /-- What looks like JSON, but is no object, is dropped. -/
  | noXml : t.isJson = false → t.isXml = true → (L.file.detectStr s).isJson = true →
      (∀ o, L.src.parse s ≠ some (.obj o)) → Contents L t s a [] a
  /-- The description of a form. -/
  | form (j x y : Json) (a' : Acc) : t.isJson = false → t.isXml = false → t.isForm = true →
      (L.file.detectStr s).isJson = true → L.src.parse s = some j → ((∃ o, j = .obj o) ∨ ∃ xs, j = .arr xs) →
      processJson L.src.setup j a = .ok (x, a') → L.src.parse x.text = some y →
      Contents L t s a (Form.encode (Form.toParams y a').1) (Form.toParams y a').2
  /-- A number, text or literal has no parameters. -/
  | scalarForm (j : Json) : t.isJson = false → t.isXml = false → t.isForm = true →
      (L.file.detectStr s).isJson = true → L.src.parse s = some j → (∀ o, j ≠ .obj o) → (∀ xs, j ≠ .arr xs) →
      Contents L t s a [] a
  /-- Every other text is kept as it is. -/
  | kept : t.isJson = false → (t.isXml = true ∨ t.isForm = true → (L.file.detectStr s).isJson = false) →
      Contents L t s a s a

/-- A text whose processing aborts the program. -/
inductive Aborts (L : Lib) (t : ContentType) (s : Str) : Prop
  | json (j : Json) (q : List PathToken) (m : Obj) : t.isJson = true → L.src.parse s = some j →
      ((∃ o, j = .obj o) ∨ ∃ xs, j = .arr xs) → Found L.src.setup plain j q m → Broken L.src.setup m → Aborts L t s
  | xml (o r : Obj) : t.isJson = false → t.isXml = true → (L.file.detectStr s).isJson = true →
      L.src.parse s = some (.obj o) → XmlBuildProps.Root o r →
      ((∀ m, ¬ XmlBuildProps.Shape L.moves (.obj r) m) ∨
        ∃ x, XmlBuildProps.At ["$".toList] (.obj r) x ∧ XmlBuildProps.Broken L.src.setup x) → Aborts L t s
  | form (j : Json) (q : List PathToken) (m : Obj) : t.isJson = false → t.isXml = false → t.isForm = true →
      (L.file.detectStr s).isJson = true → L.src.parse s = some j → ((∃ o, j = .obj o) ∨ ∃ xs, j = .arr xs) →
      Found L.src.setup plain j q m → Broken L.src.setup m → Aborts L t s
  /-- A form that looks like JSON, for example one that begins with a digit. -/
  | looksLikeJson : t.isJson = false → t.isXml = false → t.isForm = true → (L.file.detectStr s).isJson = true →
      L.src.parse s = none → Aborts L t s

/-! ## Content types -/

theorem headerType_cases (E : FileEnv) (h : Option HeaderMap) :
    (headerContentType E h = .panic ∧ (∃ hs k, h = some hs ∧
      hs.find? (fun e => decide (E.P.uc.lower e.1 = "content-type".toList)) = some (k, [])) ∧ ∀ t, ¬ Declared E h t) ∨
    (∃ o, headerContentType E h = .ok o ∧ (∀ t, o = some t ↔ Declared E h t) ∧ ¬ (∃ hs k, h = some hs ∧
      hs.find? (fun e => decide (E.P.uc.lower e.1 = "content-type".toList)) = some (k, []))) := by
  cases h with
  | none =>
    right
    refine ⟨none, rfl, ?_, ?_⟩
    · intro t
      constructor
      · intro h; cases h
      · rintro ⟨hs, k, v, vs, h, _⟩; cases h
    · rintro ⟨hs, k, h, _⟩; cases h
  | some hs =>
    rw [headerContentType]
    cases hf : hs.find? (fun e => decide (E.P.uc.lower e.1 = "content-type".toList)) with
    | none =>
      right
      refine ⟨none, rfl, ?_, ?_⟩
      · intro t
        constructor
        · intro h; cases h
        · rintro ⟨hs', k, v, vs, h, h2, _⟩; cases h; rw [hf] at h2; cases h2
      · rintro ⟨hs', k, h, h2⟩; cases h; rw [hf] at h2; cases h2
    | some e =>
      obtain ⟨k, vs⟩ := e
      cases vs with
      | nil =>
        left
        refine ⟨rfl, ⟨hs, k, rfl, hf⟩, ?_⟩
        rintro t ⟨hs', k', v, vs, h, h2, _⟩
        cases h; rw [hf] at h2; cases h2
      | cons v vs =>
        right
        refine ⟨E.parseCT v, rfl, ?_, ?_⟩
        · intro t
          constructor
          · intro h; exact ⟨hs, k, v, vs, rfl, hf, h⟩
          · rintro ⟨hs', k', v', vs', h, h2, h3⟩
            cases h; rw [hf] at h2; cases h2; exact h3
        · rintro ⟨hs', k', h, h2⟩; cases h; rw [hf] at h2; cases h2

theorem declared_unique {E : FileEnv} {h : Option HeaderMap} {t u : ContentType} (h1 : Declared E h t) (h2 : Declared E h u) :
    t = u := by
  obtain ⟨hs, k, v, vs, rfl, e1, e2⟩ := h1
  obtain ⟨hs', k', v', vs', h', e1', e2'⟩ := h2
  cases h'
  rw [e1] at e1'
  cases e1'
  rw [e2] at e2'
  exact Option.some.inj e2'

/-- What `calc_content_type` does. -/
theorem calc_cases (E : FileEnv) (x : FBody) (h : Option HeaderMap) :
    (calcContentType E x h = .panic ∧ NoValues E x h) ∨
    (∃ o, calcContentType E x h = .ok o ∧ ¬ NoValues E x h ∧ ∀ t, o = some t ↔ PartType E x h t) := by
  have key : ∀ (d : Option ContentType), PactV3.bodyCT x = none →
      (∀ t, (∀ u, ¬ Declared E h u) → (d = some t ↔ PartType E x h t)) →
      ((headerContentType E h).map fun o => o.or d) = calcContentType E x h →
      ((calcContentType E x h = .panic ∧ NoValues E x h) ∨
      (∃ o, calcContentType E x h = .ok o ∧ ¬ NoValues E x h ∧ ∀ t, o = some t ↔ PartType E x h t)) := by
    intro d hb hd he
    rw [← he]
    rcases headerType_cases E h with ⟨h1, h2, h3⟩ | ⟨o, h1, h2, h3⟩
    · left; rw [h1]; exact ⟨rfl, hb, h2⟩
    · right
      rw [h1]
      refine ⟨o.or d, rfl, fun hn => h3 hn.2, ?_⟩
      intro t
      cases ho : o with
      | some u =>
        have hu := (h2 u).1 ho
        constructor
        · intro e
          have e2 : u = t := Option.some.inj e
          exact .header x h t hb (e2 ▸ hu)
        · intro hp
          cases hp with
          | body => cases hb
          | header _ _ _ _ hdt => exact congrArg some (declared_unique hu hdt)
          | bytes _ _ _ _ hnd _ => exact absurd hu (hnd u)
      | none =>
        have hno : ∀ u, ¬ Declared E h u := fun u hu => by
          have := (h2 u).2 hu; rw [ho] at this; cases this
        exact hd t hno
  cases x with
  | missing =>
    refine key none rfl ?_ rfl
    intro t hno
    constructor
    · intro e; cases e
    · intro hp
      cases hp with
      | header _ _ _ _ hd => exact absurd hd (hno t)
  | empty =>
    refine key none rfl ?_ rfl
    intro t hno
    constructor
    · intro e; cases e
    · intro hp
      cases hp with
      | header _ _ _ _ hd => exact absurd hd (hno t)
  | null =>
    refine key none rfl ?_ rfl
    intro t hno
    constructor
    · intro e; cases e
    · intro hp
      cases hp with
      | header _ _ _ _ hd => exact absurd hd (hno t)
  | present b ct hint =>
    cases ct with
    | none =>
      refine key (E.detectBytes b) rfl ?_ rfl
      intro t hno
      constructor
      · intro e; exact .bytes b hint h t hno e
      · intro hp
        cases hp with
        | header _ _ _ _ hd => exact absurd hd (hno t)
        | bytes _ _ _ _ _ e => exact e
    | some u =>
      right
      refine ⟨some u, rfl, (fun hn => by cases hn.1), ?_⟩
      intro t
      constructor
      · intro e; cases e; exact .body b u hint h
      · intro hp
        cases hp with
        | body => rfl
        | header _ _ _ hb _ => cases hb

theorem partType_unique {E : FileEnv} {x : FBody} {h : Option HeaderMap} {t u : ContentType} (h1 : PartType E x h t)
    (h2 : PartType E x h u) : t = u := by
  cases h1 with
  | body b t hint h =>
    cases h2 with
    | body => rfl
    | header _ _ _ hb _ => cases hb
  | header x h t hb hd =>
    cases h2 with
    | body => cases hb
    | header _ _ _ _ hd' => exact declared_unique hd hd'
    | bytes _ _ _ _ hn _ => exact absurd hd (hn t)
  | bytes b hint h t hn he =>
    cases h2 with
    | header _ _ _ _ hd' => exact absurd hd' (hn u)
    | bytes _ _ _ _ _ he' => rw [he] at he'; exact Option.some.inj he'

/-- The content type of a new text is determined. -/
theorem newType_unique {L : Lib} {given : Option Str} {x : FBody} {h : Option HeaderMap} {s : Str} {t u : ContentType}
    (h1 : NewType L given x h s t) (h2 : NewType L given x h s u) : t = u := by
  cases h1 with
  | given g t hg ht =>
    cases h2 with
    | given g' _ hg' ht' => rw [hg] at hg'; cases hg'; rw [ht] at ht'; exact Option.some.inj ht'
    | part _ hn _ => rw [hg] at hn; cases hn
    | detected hn _ => rw [hg] at hn; cases hn
  | part t hn hp =>
    cases h2 with
    | given g' _ hg' _ => rw [hn] at hg'; cases hg'
    | part _ _ hp' => exact partType_unique hp hp'
    | detected _ hno => exact absurd hp (hno t)
  | detected hn hno =>
    cases h2 with
    | given g' _ hg' _ => rw [hn] at hg'; cases hg'
    | part _ _ hp' => exact absurd hp' (hno u)
    | detected => rfl

/-! ## Contents -/

theorem jsonText_cases (L : Lib) (s : Str) (a : Acc) :
    (∃ j, L.src.parse s = some j ∧ ((∃ o, j = .obj o) ∨ ∃ xs, j = .arr xs) ∧
      jsonText L s a = (processJson L.src.setup j a).map fun r => (r.1.text, r.2)) ∨
    ((∀ j, L.src.parse s = some j → (∀ o, j ≠ .obj o) ∧ ∀ xs, j ≠ .arr xs) ∧ jsonText L s a = .ok (s, a)) := by
  unfold jsonText
  cases hp : L.src.parse s with
  | none => right; exact ⟨(fun j h => by cases h), rfl⟩
  | some j =>
    cases j with
    | obj o => left; exact ⟨_, rfl, .inl ⟨o, rfl⟩, rfl⟩
    | arr xs => left; exact ⟨_, rfl, .inr ⟨xs, rfl⟩, rfl⟩
    | _ =>
      right
      refine ⟨fun j h => ?_, rfl⟩
      cases h
      exact ⟨(fun o h => by cases h), (fun o h => by cases h)⟩

theorem processJson_cases (S : Setup) (j : Json) (a : Acc) :
    (∃ x a', processJson S j a = .ok (x, a')) ∨
    (processJson S j a = .panic ∧ ∃ q m, Found S plain j q m ∧ IntegrationProps.Broken S m) := by
  have h := C84_aborts S j a
  cases hr : processJson S j a with
  | ok r => left; exact ⟨r.1, r.2, rfl⟩
  | err => exact absurd hr h.2
  | panic => right; exact ⟨rfl, h.1.1 hr⟩

/-- What is known of a processed text. -/
def Outcome (L : Lib) (t : ContentType) (s : Str) (rules : MatchingRules) (gens : Generators) : Prop :=
  (∃ c a', Contents L t s ⟨catOf rules .body, gens⟩ c a' ∧ ¬ Aborts L t s ∧
      ∃ R, byType L t s rules gens = .ok (.present (utf8 c) (some t) none, R, a'.gens) ∧ catOf R .body = a'.cat ∧
        (∀ d, d ≠ .body → rulesForCategory R d = rulesForCategory rules d) ∧ (R = rules ∨ R = setCat .body a'.cat rules)) ∨
    (byType L t s rules gens = .panic ∧ Aborts L t s)

theorem through_outcome {L : Lib} {t : ContentType} {s : Str} {rules : MatchingRules} {gens : Generators}
    {f : Str → Acc → Res (Str × Acc)} (hf : byType L t s rules gens = through f t s rules gens) {c : Str} {a' : Acc}
    (h : f s ⟨catOf rules .body, gens⟩ = .ok (c, a')) (hc : Contents L t s ⟨catOf rules .body, gens⟩ c a')
    (hn : ¬ Aborts L t s) : Outcome L t s rules gens := by
  left
  refine ⟨c, a', hc, hn, setCat .body a'.cat rules, ?_, PartProps.catOf_setCat _ _ _, ?_, .inr rfl⟩
  · rw [hf, through, h]; rfl
  · intro d hd
    rw [PartProps.forCategory_setCat, if_neg hd]

theorem through_abort {L : Lib} {t : ContentType} {s : Str} {rules : MatchingRules} {gens : Generators}
    {f : Str → Acc → Res (Str × Acc)} (hf : byType L t s rules gens = through f t s rules gens)
    (h : f s ⟨catOf rules .body, gens⟩ = .panic) (hc : Aborts L t s) : Outcome L t s rules gens := by
  right
  exact ⟨by rw [hf, through, h]; rfl, hc⟩

theorem raw_outcome {L : Lib} {t : ContentType} {s : Str} {rules : MatchingRules} {gens : Generators}
    (hf : byType L t s rules gens = raw t s rules gens) (hc : Contents L t s ⟨catOf rules .body, gens⟩ s ⟨catOf rules .body, gens⟩)
    (hn : ¬ Aborts L t s) : Outcome L t s rules gens := by
  left
  exact ⟨s, _, hc, hn, rules, hf, rfl, fun _ _ => rfl, .inl rfl⟩

/-- The example of a document that was read can be written and read again. -/
def Readable (L : Lib) : Prop :=
  ∀ s j x, L.src.parse s = some j → Example L.src.setup j x → ∃ y, L.src.parse x.text = some y

theorem no_scalar {j : Json} {P : Prop} (h : (∀ o, j ≠ .obj o) ∧ ∀ xs, j ≠ .arr xs)
    (h2 : (∃ o, j = .obj o) ∨ ∃ xs, j = .arr xs) : P := by
  rcases h2 with ⟨o, h2⟩ | ⟨o, h2⟩
  · exact absurd h2 (h.1 o)
  · exact absurd h2 (h.2 o)

/-- Processing a text gives contents or aborts. -/
theorem byType_cases (L : Lib) (t : ContentType) (s : Str) (rules : MatchingRules) (gens : Generators) (hrt : Readable L) :
    Outcome L t s rules gens := by
  cases hj : t.isJson with
  | true =>
    have hf : byType L t s rules gens = through (jsonText L) t s rules gens := by rw [byType, if_pos hj]
    have hab : Aborts L t s → ∃ j q m, L.src.parse s = some j ∧ ((∃ o, j = .obj o) ∨ ∃ xs, j = .arr xs) ∧
        Found L.src.setup plain j q m ∧ IntegrationProps.Broken L.src.setup m := by
      intro ha
      cases ha with
      | json j q m _ h1 h2 h3 h4 => exact ⟨j, q, m, h1, h2, h3, h4⟩
      | xml o r h => rw [hj] at h; cases h
      | form j q m h => rw [hj] at h; cases h
      | looksLikeJson h => rw [hj] at h; cases h
    rcases jsonText_cases L s ⟨catOf rules .body, gens⟩ with ⟨j, h1, h2, h3⟩ | ⟨h1, h3⟩
    · rcases processJson_cases L.src.setup j ⟨catOf rules .body, gens⟩ with ⟨x, a', hx⟩ | ⟨hp, q, m, hfo, hb⟩
      · refine through_outcome hf (c := x.text) (a' := a') (by rw [h3, hx]; rfl) (.json j x a' hj h1 h2 hx) ?_
        intro ha
        obtain ⟨j', q, m, e1, _, e3, e4⟩ := hab ha
        rw [h1] at e1; cases e1
        have := (C84_aborts L.src.setup j ⟨catOf rules .body, gens⟩).1.2 ⟨q, m, e3, e4⟩
        rw [hx] at this; cases this
      · exact through_abort hf (by rw [h3, hp]; rfl) (.json j q m hj h1 h2 hfo hb)
    · refine through_outcome hf h3 (.notJson hj h1) ?_
      intro ha
      obtain ⟨j', q, m, e1, e2, _, _⟩ := hab ha
      exact no_scalar (h1 j' e1) e2
  | false =>
    cases hx : t.isXml with
    | true =>
      cases hd : (L.file.detectStr s).isJson with
      | false =>
        have hf : byType L t s rules gens = raw t s rules gens := by
          rw [byType, if_neg (by rw [hj]; decide), if_pos hx, if_neg (by rw [hd]; decide)]
        refine raw_outcome hf (.kept hj (fun _ => hd)) ?_
        intro ha
        cases ha with
        | json _ _ _ h => rw [hj] at h; cases h
        | xml _ _ _ _ h => rw [hd] at h; cases h
        | form _ _ _ _ h => rw [hx] at h; cases h
        | looksLikeJson _ h => rw [hx] at h; cases h
      | true =>
        have hf : byType L t s rules gens = through (xmlBody L) t s rules gens := by
          rw [byType, if_neg (by rw [hj]; decide), if_pos hx, if_pos hd]
        have hab : Aborts L t s → ∃ o r, L.src.parse s = some (.obj o) ∧ XmlBuildProps.Root o r ∧
            ((∀ m, ¬ XmlBuildProps.Shape L.moves (.obj r) m) ∨
              ∃ x, XmlBuildProps.At ["$".toList] (.obj r) x ∧ XmlBuildProps.Broken L.src.setup x) := by
          intro ha
          cases ha with
          | json _ _ _ h => rw [hj] at h; cases h
          | xml o r _ _ _ h1 h2 h3 => exact ⟨o, r, h1, h2, h3⟩
          | form _ _ _ _ h => rw [hx] at h; cases h
          | looksLikeJson _ h => rw [hx] at h; cases h
        by_cases ho : ∃ o, L.src.parse s = some (.obj o)
        · obtain ⟨o, ho⟩ := ho
          have hg : xmlBody L s ⟨catOf rules .body, gens⟩ = match generate L.src.setup L.moves o ⟨catOf rules .body, gens⟩ with
              | .ok r => .ok (L.xmlText r.1, r.2)
              | .err => .ok ([], ⟨catOf rules .body, gens⟩)
              | .panic => .panic := by
            rw [xmlBody, ho]; rfl
          by_cases hr : ∃ r, XmlBuildProps.Root o r
          · obtain ⟨r, hr⟩ := hr
            have hgen : generate L.src.setup L.moves o ⟨catOf rules .body, gens⟩ =
                (node L.src.setup L.moves ["$".toList] (.obj r) ⟨catOf rules .body, gens⟩).map fun r => (rootOf r.1, r.2) := by
              unfold generate; rw [hr]
            have hC := XmlBuildProps.C119_aborts L.src.setup L.moves ["$".toList] (.obj r) ⟨catOf rules .body, gens⟩
            cases hn : node L.src.setup L.moves ["$".toList] (.obj r) ⟨catOf rules .body, gens⟩ with
            | err => exact absurd hn hC.2
            | panic =>
              refine through_abort hf ?_ (.xml o r hj hx hd ho hr (hC.1.1 hn))
              rw [hg, hgen, hn]; rfl
            | ok b =>
              have hge : generate L.src.setup L.moves o ⟨catOf rules .body, gens⟩ = .ok (rootOf b.1, b.2) := by
                rw [hgen, hn]; rfl
              refine through_outcome hf (c := L.xmlText (rootOf b.1)) (a' := b.2) ?_ (.xml o _ _ hj hx hd ho hge) ?_
              · rw [hg, hge]
              · intro ha
                obtain ⟨o', r', e1, e2, e3⟩ := hab ha
                rw [ho] at e1; cases e1
                unfold XmlBuildProps.Root at e2 hr
                rw [hr] at e2; cases e2
                have := hC.1.2 e3
                rw [hn] at this; cases this
          · have hge : generate L.src.setup L.moves o ⟨catOf rules .body, gens⟩ = .ok (none, ⟨catOf rules .body, gens⟩) := by
              obtain ⟨a', ha'⟩ := (XmlBuildProps.C119_document L.src.setup L.moves o ⟨catOf rules .body, gens⟩ none).2
                (.inr (.inr ⟨rfl, fun r h => hr ⟨r, h⟩⟩))
              have : generate L.src.setup L.moves o ⟨catOf rules .body, gens⟩ = .ok (none, ⟨catOf rules .body, gens⟩) := by
                unfold generate
                split
                · next r h => exact absurd ⟨r, h⟩ hr
                · rfl
              exact this
            refine through_outcome hf (c := L.xmlText none) (a' := ⟨catOf rules .body, gens⟩) ?_ (.xml o _ _ hj hx hd ho hge) ?_
            · rw [hg, hge]
            · intro ha
              obtain ⟨o', r', e1, e2, _⟩ := hab ha
              rw [ho] at e1; cases e1
              exact hr ⟨r', e2⟩
        · have hno : ∀ o, L.src.parse s ≠ some (.obj o) := fun o h => ho ⟨o, h⟩
          refine through_outcome hf (c := []) (a' := ⟨catOf rules .body, gens⟩) ?_ (.noXml hj hx hd hno) ?_
          · rw [xmlBody]
            cases hp : L.src.parse s with
            | none => rfl
            | some j =>
              cases j with
              | obj o => exact absurd hp (hno o)
              | _ => rfl
          · intro ha
            obtain ⟨o', r', e1, _, _⟩ := hab ha
            exact hno o' e1
    | false =>
      cases hfo : t.isForm with
      | false =>
        have hf : byType L t s rules gens = raw t s rules gens := by
          rw [byType, if_neg (by rw [hj]; decide), if_neg (by rw [hx]; decide), if_neg (by rw [hfo]; decide)]
        refine raw_outcome hf (.kept hj ?_) ?_
        · rintro (h | h)
          · rw [hx] at h; cases h
          · rw [hfo] at h; cases h
        · intro ha
          cases ha with
          | json _ _ _ h => rw [hj] at h; cases h
          | xml _ _ _ h => rw [hx] at h; cases h
          | form _ _ _ _ _ h => rw [hfo] at h; cases h
          | looksLikeJson _ _ h => rw [hfo] at h; cases h
      | true =>
        cases hd : (L.file.detectStr s).isJson with
        | false =>
          have hf : byType L t s rules gens = raw t s rules gens := by
            rw [byType, if_neg (by rw [hj]; decide), if_neg (by rw [hx]; decide), if_pos hfo, if_neg (by rw [hd]; decide)]
          refine raw_outcome hf (.kept hj (fun _ => hd)) ?_
          intro ha
          cases ha with
          | json _ _ _ h => rw [hj] at h; cases h
          | xml _ _ _ h => rw [hx] at h; cases h
          | form _ _ _ _ _ _ h => rw [hd] at h; cases h
          | looksLikeJson _ _ _ h => rw [hd] at h; cases h
        | true =>
          have hf : byType L t s rules gens = through (formText L) t s rules gens := by
            rw [byType, if_neg (by rw [hj]; decide), if_neg (by rw [hx]; decide), if_pos hfo, if_pos hd]
          have hab : Aborts L t s → (∃ j q m, L.src.parse s = some j ∧ ((∃ o, j = .obj o) ∨ ∃ xs, j = .arr xs) ∧
              Found L.src.setup plain j q m ∧ IntegrationProps.Broken L.src.setup m) ∨ L.src.parse s = none := by
            intro ha
            cases ha with
            | json _ _ _ h => rw [hj] at h; cases h
            | xml _ _ _ h => rw [hx] at h; cases h
            | form j q m _ _ _ _ h1 h2 h3 h4 => exact .inl ⟨j, q, m, h1, h2, h3, h4⟩
            | looksLikeJson _ _ _ _ h => exact .inr h
          rcases jsonText_cases L s ⟨catOf rules .body, gens⟩ with ⟨j, h1, h2, h3⟩ | ⟨h1, h3⟩
          · rcases processJson_cases L.src.setup j ⟨catOf rules .body, gens⟩ with ⟨x, a', hxx⟩ | ⟨hp, q, m, hfou, hb⟩
            · obtain ⟨y, hy⟩ := hrt s j x h1 ((C84_example L.src.setup j x _).1 ⟨a', hxx⟩).1
              refine through_outcome hf (c := Form.encode (Form.toParams y a').1) (a' := (Form.toParams y a').2) ?_
                (.form j x y a' hj hx hfo hd h1 h2 hxx hy) ?_
              · rw [formText, h3, hxx]
                show formOf L (x.text, a') = _
                rw [formOf]
                simp only [hy]
              · intro ha
                rcases hab ha with ⟨j', q, m, e1, _, e3, e4⟩ | e
                · rw [h1] at e1; cases e1
                  have := (C84_aborts L.src.setup j ⟨catOf rules .body, gens⟩).1.2 ⟨q, m, e3, e4⟩
                  rw [hxx] at this; cases this
                · rw [h1] at e; cases e
            · exact through_abort hf (by rw [formText, h3, hp]; rfl) (.form j q m hj hx hfo hd h1 h2 hfou hb)
          · cases hp : L.src.parse s with
            | none =>
              refine through_abort hf ?_ (.looksLikeJson hj hx hfo hd hp)
              rw [formText, h3]
              show formOf L (s, _) = _
              rw [formOf]
              simp only [hp]
            | some j =>
              refine through_outcome hf (c := []) (a' := ⟨catOf rules .body, gens⟩) ?_
                (.scalarForm j hj hx hfo hd hp (h1 j hp).1 (h1 j hp).2) ?_
              · rw [formText, h3]
                show formOf L (s, _) = _
                rw [formOf]
                simp only [hp]
                cases j with
                | obj o => exact absurd rfl ((h1 _ hp).1 o)
                | _ => rfl
              · intro ha
                rcases hab ha with ⟨j', q, m, e1, e2, _, _⟩ | e
                · exact no_scalar (h1 j' e1) e2
                · rw [hp] at e; cases e

/-! ## C122-C124: requests and responses -/

/-- Setting the body of a request or response, on the attributes it changes. -/
def httpOut (L : Lib) (given : Option Str) (s : Str) (x : FBody) (h : Option HeaderMap) (rules : MatchingRules)
    (gens : Generators) : Res (FBody × MatchingRules × Generators × Option HeaderMap) :=
  (givenType L given).bind fun g => (calcContentType L.file x h).bind fun hint =>
    (processBody L s g hint rules gens).bind fun b =>
      (calcContentType L.file b.1 h).map fun t => (b.1, b.2.1, b.2.2, typeHeader t h)

theorem withBodyReq_out (L : Lib) (given : Option Str) (s : Str) (r : HttpRequest) :
    withBodyReq L given s r = (httpOut L given s r.body r.headers r.rules r.gens).map fun o =>
      { r with body := o.1, rules := o.2.1, gens := o.2.2.1, headers := o.2.2.2 } := by
  unfold withBodyReq httpOut
  cases givenType L given with
  | err => rfl
  | panic => rfl
  | ok g =>
    simp only [Res.bind]
    cases calcContentType L.file r.body r.headers with
    | err => rfl
    | panic => rfl
    | ok hint =>
      simp only []
      cases processBody L s g hint r.rules r.gens with
      | err => rfl
      | panic => rfl
      | ok b =>
        simp only []
        cases calcContentType L.file b.1 r.headers with
        | err => rfl
        | panic => rfl
        | ok t => rfl

theorem withBodyRes_out (L : Lib) (given : Option Str) (s : Str) (r : HttpResponse) :
    withBodyRes L given s r = (httpOut L given s r.body r.headers r.rules r.gens).map fun o =>
      { r with body := o.1, rules := o.2.1, gens := o.2.2.1, headers := o.2.2.2 } := by
  unfold withBodyRes httpOut
  cases givenType L given with
  | err => rfl
  | panic => rfl
  | ok g =>
    simp only [Res.bind]
    cases calcContentType L.file r.body r.headers with
    | err => rfl
    | panic => rfl
    | ok hint =>
      simp only []
      cases processBody L s g hint r.rules r.gens with
      | err => rfl
      | panic => rfl
      | ok b =>
        simp only []
        cases calcContentType L.file b.1 r.headers with
        | err => rfl
        | panic => rfl
        | ok t => rfl

/-- The headers after an empty body was set. -/
def EmptyHeaders (E : FileEnv) (h h' : Option HeaderMap) : Prop :=
  (∃ t, Declared E h t ∧ TypeAdded t h h') ∨ ((∀ t, ¬ Declared E h t) ∧ h' = h)

/-- The body, rules, generators and headers after a body was set. -/
inductive HttpSet (L : Lib) (given : Option Str) (s : Str) (x : FBody) (h : Option HeaderMap) (rules : MatchingRules)
    (gens : Generators) : FBody → MatchingRules → Generators → Option HeaderMap → Prop
  /-- An empty text gives an empty body. -/
  | empty (h' : Option HeaderMap) : s = [] → EmptyHeaders L.file h h' → HttpSet L given s x h rules gens .empty rules gens h'
  | text (t : ContentType) (c : Str) (a' : Acc) (R : MatchingRules) (h' : Option HeaderMap) : s ≠ [] →
      NewType L given x h s t → Contents L t s ⟨catOf rules .body, gens⟩ c a' → catOf R .body = a'.cat →
      (∀ d, d ≠ .body → rulesForCategory R d = rulesForCategory rules d) → (R = rules ∨ R = setCat .body a'.cat rules) →
      TypeAdded t h h' → HttpSet L given s x h rules gens (.present (utf8 c) (some t) none) R a'.gens h'

/-- When setting a body aborts the program. -/
inductive HttpAborts (L : Lib) (given : Option Str) (s : Str) (x : FBody) (h : Option HeaderMap) : Prop
  /-- The given content type is none. -/
  | badType (g : Str) : given = some g → L.file.parseCT g = none → HttpAborts L given s x h
  /-- The content type is looked up in a header without values, even if a content type is given. -/
  | noValues : NoValues L.file x h → HttpAborts L given s x h
  | emptyNoValues : s = [] → NoValues L.file .empty h → HttpAborts L given s x h
  | text (t : ContentType) : s ≠ [] → NewType L given x h s t → Aborts L t s → HttpAborts L given s x h

theorem typeAdded_iff (t : ContentType) (h : Option HeaderMap) (h' : Option HeaderMap) :
    TypeAdded t h h' ↔ h' = typeHeader (some t) h := by
  have ht : typeHeader (some t) h = some (addType t (h.getD [])) := rfl
  rw [ht]
  unfold TypeAdded addType
  by_cases hx : ∃ vs, ("Content-Type".toList, vs) ∈ h.getD []
  · have hb : ((h.getD []).any fun e => decide (e.1 = "Content-Type".toList)) = true := by
      obtain ⟨vs, hv⟩ := hx
      rw [List.any_eq_true]
      exact ⟨_, hv, by simp⟩
    rw [if_pos hb]
    constructor
    · rintro (⟨_, e⟩ | ⟨hn, _⟩)
      · exact e
      · obtain ⟨vs, hv⟩ := hx; exact absurd hv (hn vs)
    · intro e; exact .inl ⟨hx, e⟩
  · have hb : ((h.getD []).any fun e => decide (e.1 = "Content-Type".toList)) ≠ true := by
      intro hb
      rw [List.any_eq_true] at hb
      obtain ⟨⟨k, vs⟩, hm, he⟩ := hb
      have he := of_decide_eq_true he
      subst he
      exact hx ⟨vs, hm⟩
    rw [if_neg hb]
    constructor
    · rintro (⟨he, _⟩ | ⟨_, e⟩)
      · exact absurd he hx
      · exact e
    · intro e; exact .inr ⟨fun vs hv => hx ⟨vs, hv⟩, e⟩

theorem httpOut_cases (L : Lib) (given : Option Str) (s : Str) (x : FBody) (h : Option HeaderMap) (rules : MatchingRules)
    (gens : Generators) (hrt : Readable L) :
    (∃ b R G h', httpOut L given s x h rules gens = .ok (b, R, G, h') ∧ HttpSet L given s x h rules gens b R G h' ∧
      ¬ HttpAborts L given s x h) ∨
    (httpOut L given s x h rules gens = .panic ∧ HttpAborts L given s x h) := by
  have hgiven : (∃ g, given = some g ∧ L.file.parseCT g = none ∧ givenType L given = .panic) ∨
      (∃ o, givenType L given = .ok o ∧ (∀ g, given = some g → ∃ t, L.file.parseCT g = some t ∧ o = some t) ∧
        (given = none → o = none)) := by
    cases given with
    | none => right; exact ⟨none, rfl, (by intro g h; cases h), fun _ => rfl⟩
    | some g =>
      cases hg : L.file.parseCT g with
      | none => left; exact ⟨g, rfl, hg, by simp only [givenType, hg]⟩
      | some t =>
        right
        refine ⟨some t, by simp only [givenType, hg], ?_, (by intro h; cases h)⟩
        intro g' h'
        cases h'
        exact ⟨t, hg, rfl⟩
  unfold httpOut
  rcases hgiven with ⟨g, h1, h2, h3⟩ | ⟨o, h3, h4, h5⟩
  · right; rw [h3]; exact ⟨rfl, .badType g h1 h2⟩
  · rw [h3, Res.bind_ok]
    rcases calc_cases L.file x h with ⟨hc, hnv⟩ | ⟨hint, hc, hnv, hpt⟩
    · right; rw [hc]; exact ⟨rfl, .noValues hnv⟩
    · rw [hc, Res.bind_ok]
      have hnb : ∀ g, given = some g → L.file.parseCT g ≠ none := by
        intro g hg
        obtain ⟨t, ht, _⟩ := h4 g hg
        rw [ht]; intro h; cases h
      by_cases hs : s = []
      · subst hs
        have hpb : processBody L [] o hint rules gens = .ok (.empty, rules, gens) := rfl
        rw [hpb, Res.bind_ok]
        simp only []
        rcases calc_cases L.file .empty h with ⟨hc2, hnv2⟩ | ⟨t, hc2, hnv2, hpt2⟩
        · right; rw [hc2]; exact ⟨rfl, .emptyNoValues rfl hnv2⟩
        · left
          rw [hc2]
          refine ⟨.empty, rules, gens, typeHeader t h, rfl, .empty _ rfl ?_, ?_⟩
          · have hd : ∀ u, t = some u ↔ Declared L.file h u := by
              intro u
              rw [hpt2 u]
              constructor
              · intro hp; cases hp with
                | header _ _ _ _ hd => exact hd
              · intro hd; exact .header _ _ _ rfl hd
            cases t with
            | none =>
              right
              refine ⟨?_, rfl⟩
              intro u hu
              cases (hd u).2 hu
            | some u => left; exact ⟨u, (hd u).1 rfl, (typeAdded_iff u h _).2 rfl⟩
          · intro ha
            cases ha with
            | badType g h1 h2 => exact hnb g h1 h2
            | noValues h1 => exact hnv h1
            | emptyNoValues _ h1 => exact hnv2 h1
            | text t h1 => exact h1 rfl
      · have hse : s.isEmpty = false := by
          cases s with
          | nil => exact absurd rfl hs
          | cons => rfl
        have hpb : processBody L s o hint rules gens = byType L (chosen L s o hint) s rules gens := by
          rw [processBody, if_neg (by rw [hse]; decide)]
        have hnt : NewType L given x h s (chosen L s o hint) := by
          cases hg : given with
          | some g =>
            obtain ⟨t, ht, ho⟩ := h4 g hg
            rw [ho]
            exact .given g t rfl ht
          | none =>
            rw [h5 hg]
            cases hint with
            | some t => exact .part t rfl ((hpt t).1 rfl)
            | none =>
              refine .detected rfl ?_
              intro t ht
              cases (hpt t).2 ht
        rw [hpb]
        rcases byType_cases L (chosen L s o hint) s rules gens hrt with ⟨c, a', k1, k2, R, k3, k4, k5, k6⟩ | ⟨k1, k2⟩
        · left
          rw [k3, Res.bind_ok]
          refine ⟨_, R, a'.gens, typeHeader (some (chosen L s o hint)) h, rfl,
            .text _ c a' R _ hs hnt k1 k4 k5 k6 ((typeAdded_iff _ _ _).2 rfl), ?_⟩
          intro ha
          cases ha with
          | badType g h1 h2 => exact hnb g h1 h2
          | noValues h1 => exact hnv h1
          | emptyNoValues h1 => exact hs h1
          | text t _ h1 h2 => rw [newType_unique h1 hnt] at h2; exact k2 h2
        · right
          rw [k1]
          exact ⟨rfl, .text _ hs hnt k2⟩

/-- **C122**, **C123** A body set on a request: only the body, its rules, the generators and the headers change, and they
are as specified. -/
theorem C122_request {L : Lib} {given : Option Str} {s : Str} {r r' : HttpRequest} (hrt : Readable L)
    (h : withBodyReq L given s r = .ok r') :
    HttpSet L given s r.body r.headers r.rules r.gens r'.body r'.rules r'.gens r'.headers ∧
      r'.method = r.method ∧ r'.path = r.path ∧ r'.query = r.query := by
  rw [withBodyReq_out] at h
  obtain ⟨o, ho, e⟩ := (Res.map_eq_ok ..).1 h
  rcases httpOut_cases L given s r.body r.headers r.rules r.gens hrt with ⟨b, R, G, h', k1, k2, _⟩ | ⟨k1, _⟩
  · rw [k1] at ho; cases ho; cases e; exact ⟨k2, rfl, rfl, rfl⟩
  · rw [k1] at ho; cases ho

/-- **C122**, **C123** The same for a response. -/
theorem C122_response {L : Lib} {given : Option Str} {s : Str} {r r' : HttpResponse} (hrt : Readable L)
    (h : withBodyRes L given s r = .ok r') :
    HttpSet L given s r.body r.headers r.rules r.gens r'.body r'.rules r'.gens r'.headers ∧ r'.status = r.status := by
  rw [withBodyRes_out] at h
  obtain ⟨o, ho, e⟩ := (Res.map_eq_ok ..).1 h
  rcases httpOut_cases L given s r.body r.headers r.rules r.gens hrt with ⟨b, R, G, h', k1, k2, _⟩ | ⟨k1, _⟩
  · rw [k1] at ho; cases ho; cases e; exact ⟨k2, rfl⟩
  · rw [k1] at ho; cases ho

/-- **C124** Setting the body of a request aborts the program exactly in the listed cases, and never fails otherwise. -/
theorem C124_request (L : Lib) (given : Option Str) (s : Str) (r : HttpRequest) (hrt : Readable L) :
    (withBodyReq L given s r = .panic ↔ HttpAborts L given s r.body r.headers) ∧ withBodyReq L given s r ≠ .err := by
  rw [withBodyReq_out]
  rcases httpOut_cases L given s r.body r.headers r.rules r.gens hrt with ⟨b, R, G, h', k1, k2, k3⟩ | ⟨k1, k2⟩
  · rw [k1]
    exact ⟨⟨(fun h => by cases h), fun h => absurd h k3⟩, fun h => by cases h⟩
  · rw [k1]
    exact ⟨⟨fun _ => k2, fun _ => rfl⟩, fun h => by cases h⟩

/-- **C124** The same for a response. -/
theorem C124_response (L : Lib) (given : Option Str) (s : Str) (r : HttpResponse) (hrt : Readable L) :
    (withBodyRes L given s r = .panic ↔ HttpAborts L given s r.body r.headers) ∧ withBodyRes L given s r ≠ .err := by
  rw [withBodyRes_out]
  rcases httpOut_cases L given s r.body r.headers r.rules r.gens hrt with ⟨b, R, G, h', k1, k2, k3⟩ | ⟨k1, k2⟩
  · rw [k1]
    exact ⟨⟨(fun h => by cases h), fun h => absurd h k3⟩, fun h => by cases h⟩
  · rw [k1]
    exact ⟨⟨fun _ => k2, fun _ => rfl⟩, fun h => by cases h⟩

/-- **C122** Setting a second body keeps the content type of the first, whatever the text, unless another is given. -/
theorem C122_second {L : Lib} {s s' : Str} {given : Option Str} {r r' r'' : HttpRequest} (hrt : Readable L) (hs : s ≠ [])
    (hs' : s' ≠ []) (h : withBodyReq L given s r = .ok r') (h' : withBodyReq L none s' r' = .ok r'') :
    ∃ t, (∃ b, r'.body = .present b (some t) none) ∧ ∃ b, r''.body = .present b (some t) none := by
  have h1 := (C122_request hrt h).1
  generalize hb : r'.body = b1 at h1
  generalize r'.rules = x1 at h1
  generalize r'.gens = x2 at h1
  generalize r'.headers = x3 at h1
  cases h1 with
  | empty _ e => exact absurd e hs
  | text t c a' R h2 _ _ _ _ _ _ _ =>
    refine ⟨t, ⟨_, rfl⟩, ?_⟩
    have h3 := (C122_request hrt h').1
    generalize hb2 : r''.body = b2 at h3
    generalize r''.rules = y1 at h3
    generalize r''.gens = y2 at h3
    generalize r''.headers = y3 at h3
    rw [hb] at h3
    cases h3 with
    | empty _ e => exact absurd e hs'
    | text t' c' a'' R' h4 _ hn _ _ _ _ _ =>
      have ht : t' = t := by
        cases hn with
        | given _ _ h => cases h
        | part _ _ hp => exact partType_unique hp (.body _ _ _ _)
        | detected _ hno => exact absurd (.body _ _ _ _) (hno t)
      rw [ht]
      exact ⟨_, rfl⟩

/-! ## C123: what the contents are -/

/-- **C123** JSON with matchers: the contents are the example, and the rules and generators of the matchers are added. -/
theorem C123_json {L : Lib} {t : ContentType} {s c : Str} {a a' : Acc} (h : Contents L t s a c a') (hj : t.isJson = true)
    {j : Json} (hp : L.src.parse s = some j) (hc : (∃ o, j = .obj o) ∨ ∃ xs, j = .arr xs) :
    ∃ x, c = x.text ∧ Example L.src.setup j x ∧ Clean x ∧
      (∀ p, ∃ new, rulesUnder a'.cat p = rulesUnder a.cat p ++ new ∧
        ∀ r, r ∈ new ↔ ∃ q m rs, p.expr = (fromTokens (.root :: q)).expr ∧ Found L.src.setup plain j q m ∧
          RulesOf L.src.setup m rs ∧ r ∈ rs) ∧
      (GensFor a.cat.name .body → ∀ q m g, Found L.src.setup plain j q m → GenOf L.src.setup m g →
        ∃ m' g', genAt a'.gens .body (fromTokens (.root :: q)) = some g' ∧ Found L.src.setup plain j q m' ∧
          Effective L.src.setup m' g') := by
  cases h with
  | json j' x _ _ h1 _ h3 =>
    rw [hp] at h1; cases h1
    have hex := (C84_example L.src.setup j x a).1 ⟨a', h3⟩
    refine ⟨x, rfl, hex.1, C84_clean hex.1, ?_, ?_⟩
    · intro p
      obtain ⟨new, k1, k2, _⟩ := C85_rules h3 p
      exact ⟨new, k1, k2⟩
    · intro hg
      exact (C85_generators h3 hg).1
  | notJson _ h1 => exact no_scalar (h1 j hp) hc
  | xml _ _ _ h => rw [hj] at h; cases h
  | noXml h => rw [hj] at h; cases h
  | form _ _ _ _ h => rw [hj] at h; cases h
  | scalarForm _ h => rw [hj] at h; cases h
  | kept h => rw [hj] at h; cases h

/-- **C123** JSON without attributes for matchers only loses its layout. -/
theorem C123_clean {L : Lib} {t : ContentType} {s c : Str} {a a' : Acc} (h : Contents L t s a c a') (hj : t.isJson = true)
    {j : Json} (hp : L.src.parse s = some j) (hc : (∃ o, j = .obj o) ∨ ∃ xs, j = .arr xs) (hcl : Clean j) :
    c = j.text ∧ a' = a := by
  cases h with
  | json j' x _ _ h1 _ h3 =>
    rw [hp] at h1; cases h1
    rw [C84_unchanged L.src.setup hcl a] at h3
    cases h3
    exact ⟨rfl, rfl⟩
  | notJson _ h1 => exact no_scalar (h1 j hp) hc
  | xml _ _ _ h => rw [hj] at h; cases h
  | noXml h => rw [hj] at h; cases h
  | form _ _ _ _ h => rw [hj] at h; cases h
  | scalarForm _ h => rw [hj] at h; cases h
  | kept h => rw [hj] at h; cases h

/-- **C123** The description of an XML document: the described root element, if there is one. -/
theorem C123_xml {L : Lib} {t : ContentType} {s c : Str} {a a' : Acc} (h : Contents L t s a c a') (hj : t.isJson = false)
    (hx : t.isXml = true) (hd : (L.file.detectStr s).isJson = true) {o r : Obj} (hp : L.src.parse s = some (.obj o))
    (hr : XmlBuildProps.Root o r) :
    (∃ e, c = L.xmlText (some e) ∧ XmlBuildProps.Shape L.moves (.obj r) (.elem e)) ∨
      (∃ x, c = L.xmlText none ∧ XmlBuildProps.Shape L.moves (.obj r) (.text x)) := by
  have huniq : ∀ r', XmlBuildProps.Root o r' → r' = r := by
    intro r' h'; unfold XmlBuildProps.Root at h' hr; rw [hr] at h'; cases h'; rfl
  cases h with
  | xml o' d _ _ _ _ h1 h2 =>
    rw [hp] at h1; cases h1
    rcases (XmlBuildProps.C119_document L.src.setup L.moves o a d).1 ⟨a', h2⟩ with
      ⟨r', e, k1, k2, k3, _⟩ | ⟨r', e, k1, k2, k3, _⟩ | ⟨_, k⟩
    · rw [huniq r' k1] at k3; subst k2; exact .inl ⟨e, rfl, k3⟩
    · rw [huniq r' k1] at k3; subst k2; exact .inr ⟨e, rfl, k3⟩
    · exact absurd hr (k r)
  | json _ _ _ h => rw [hj] at h; cases h
  | notJson h => rw [hj] at h; cases h
  | noXml _ _ _ h => exact absurd hp (h o)
  | form _ _ _ _ _ h => rw [hx] at h; cases h
  | scalarForm _ _ h => rw [hx] at h; cases h
  | kept _ h => rw [hd] at h; cases h (.inl hx)

/-- **C123** A text of another content type, and one that does not look like JSON, is kept as it is and adds no rules. -/
theorem C123_kept {L : Lib} {t : ContentType} {s c : Str} {a a' : Acc} (h : Contents L t s a c a') (hj : t.isJson = false)
    (hk : t.isXml = true ∨ t.isForm = true → (L.file.detectStr s).isJson = false) : c = s ∧ a' = a := by
  cases h with
  | kept => exact ⟨rfl, rfl⟩
  | json _ _ _ h => rw [hj] at h; cases h
  | notJson h => rw [hj] at h; cases h
  | xml _ _ _ _ h1 h2 => rw [hk (.inl h1)] at h2; cases h2
  | noXml _ h1 h2 => rw [hk (.inl h1)] at h2; cases h2
  | form _ _ _ _ _ _ h1 h2 => rw [hk (.inr h1)] at h2; cases h2
  | scalarForm _ _ _ h1 h2 => rw [hk (.inr h1)] at h2; cases h2

/-- **C123** The description of a form: the form with the values of the example, if the example is read as it was written. -/
theorem C123_form {L : Lib} {t : ContentType} {s c : Str} {a a' : Acc} (h : Contents L t s a c a') (hj : t.isJson = false)
    (hx : t.isXml = false) (hf : t.isForm = true) (hd : (L.file.detectStr s).isJson = true) {j : Json}
    (hp : L.src.parse s = some j) (hc : (∃ o, j = .obj o) ∨ ∃ xs, j = .arr xs)
    (hrt : ∀ x, Example L.src.setup j x → L.src.parse x.text = some x) :
    Form.processForm L.src.setup j a = .ok (c, a') ∧
      ∃ x ps, Example L.src.setup j x ∧ FormProps.FormOf x ps ∧ FormProps.Spelled (utf8 c) ps := by
  cases h with
  | form j' x y a1 _ _ _ _ h1 _ h3 h4 =>
    rw [hp] at h1; cases h1
    have hex := (C84_example L.src.setup j x a).1 ⟨a1, h3⟩
    rw [hrt x hex.1] at h4
    cases h4
    have hform : Form.processForm L.src.setup j a =
        .ok (Form.encode (Form.toParams x a1).1, (Form.toParams x a1).2) := by
      rw [Form.processForm, h3]; rfl
    exact ⟨hform, (FormProps.C101_body L.src.setup j a).1 _ _ hform⟩
  | scalarForm j' _ _ _ _ h1 h2 h3 => rw [hp] at h1; cases h1; exact no_scalar ⟨h2, h3⟩ hc
  | json _ _ _ h => rw [hj] at h; cases h
  | notJson h => rw [hj] at h; cases h
  | xml _ _ _ _ h => rw [hx] at h; cases h
  | noXml _ h => rw [hx] at h; cases h
  | kept _ h => rw [hd] at h; cases h (.inr hf)

/-! ## Messages -/

/-- The metadata of a message after its contents were set. -/
def MetaAdded (t : ContentType) (m m' : Obj) : Prop :=
  ((∃ v, RuleJson.get "contentType" m = some v) ∧ m' = m) ∨
    (RuleJson.get "contentType" m = none ∧ m' = m ++ [("contentType".toList, .str t.display)])

/-- The contents of a message after they were set.  The metadata is not used for the content type. -/
inductive MsgSet (L : Lib) (given : Option Str) (s : Str) (c : MessageContents) : MessageContents → Prop
  | empty (m' : Obj) : s = [] → (m' = c.metadata ∨ ∃ t, MetaAdded t c.metadata m') →
      ((∀ e ∈ c.metadata, PactV3.isContentTypeKey e.1 = false) → m' = c.metadata) →
      MsgSet L given s c ⟨.empty, m', c.rules, c.gens⟩
  | text (t : ContentType) (x : Str) (a' : Acc) (R : MatchingRules) (m' : Obj) : s ≠ [] → NewType L given .missing none s t →
      Contents L t s ⟨catOf c.rules .body, c.gens⟩ x a' → catOf R .body = a'.cat →
      (∀ d, d ≠ .body → rulesForCategory R d = rulesForCategory c.rules d) → MetaAdded t c.metadata m' →
      MsgSet L given s c ⟨.present (utf8 x) (some t) none, m', R, a'.gens⟩

/-- When this aborts the program. -/
inductive MsgAborts (L : Lib) (given : Option Str) (s : Str) : Prop
  | badType (g : Str) : given = some g → L.file.parseCT g = none → MsgAborts L given s
  | text (t : ContentType) : s ≠ [] → NewType L given .missing none s t → Aborts L t s → MsgAborts L given s

theorem metaAdded_iff (t : ContentType) (m m' : Obj) : MetaAdded t m m' ↔ m' = typeMeta (some t) m := by
  have ht : typeMeta (some t) m =
    if (RuleJson.get "contentType" m).isSome then m else m ++ [("contentType".toList, .str t.display)] := rfl
  rw [ht]
  unfold MetaAdded
  cases hg : RuleJson.get "contentType" m with
  | none =>
    rw [if_neg (by decide)]
    constructor
    · rintro (⟨⟨v, h⟩, _⟩ | ⟨_, h⟩)
      · cases h
      · exact h
    · intro h; exact .inr ⟨rfl, h⟩
  | some v =>
    rw [if_pos (by rfl)]
    constructor
    · rintro (⟨_, h⟩ | ⟨h, _⟩)
      · exact h
      · cases h
    · intro h; exact .inl ⟨⟨v, rfl⟩, h⟩

theorem msg_cases (L : Lib) (given : Option Str) (s : Str) (c : MessageContents) (hrt : Readable L) :
    (∃ c', withBodyMsg L given s c = .ok c' ∧ MsgSet L given s c c' ∧ ¬ MsgAborts L given s) ∨
    (withBodyMsg L given s c = .panic ∧ MsgAborts L given s) := by
  have hno : ∀ t, ¬ PartType L.file .missing none t := by
    intro t ht
    cases ht with
    | header _ _ _ _ hd => obtain ⟨hs, k, v, vs, h, _⟩ := hd; cases h
  have hgiven : (∃ g, given = some g ∧ L.file.parseCT g = none ∧ givenType L given = .panic) ∨
      (∃ o, givenType L given = .ok o ∧ (∀ g, given = some g → L.file.parseCT g ≠ none) ∧
        NewType L given .missing none s (chosen L s o none)) := by
    cases given with
    | none => right; exact ⟨none, rfl, (by intro g h; cases h), .detected rfl hno⟩
    | some g =>
      cases hg : L.file.parseCT g with
      | none => left; exact ⟨g, rfl, hg, by simp only [givenType, hg]⟩
      | some t =>
        right
        refine ⟨some t, by simp only [givenType, hg], ?_, .given g t rfl hg⟩
        intro g' h'
        cases h'
        rw [hg]; intro h; cases h
  unfold withBodyMsg
  rcases hgiven with ⟨g, h1, h2, h3⟩ | ⟨o, h3, hnb, hnt⟩
  · right; rw [h3]; exact ⟨rfl, .badType g h1 h2⟩
  · rw [h3, Res.bind_ok]
    unfold setContents
    by_cases hs : s = []
    · subst hs
      left
      have hpb : processBody L [] o none c.rules c.gens = .ok (.empty, c.rules, c.gens) := rfl
      rw [hpb]
      refine ⟨_, rfl, .empty _ rfl ?_ ?_, ?_⟩
      · cases hx : contentsType L .empty c.metadata with
        | none => exact .inl rfl
        | some t => exact .inr ⟨t, (metaAdded_iff t _ _).2 rfl⟩
      · intro hm
        have hf : c.metadata.find? (fun e => PactV3.isContentTypeKey e.1) = none := by
          rw [List.find?_eq_none]
          intro e he
          rw [hm e he]; decide
        have hx : contentsType L .empty c.metadata = none := by
          simp only [contentsType, metaType, hf, Option.map_none]
          rfl
        rw [hx]; rfl
      · intro ha
        cases ha with
        | badType g h1 h2 => exact hnb g h1 h2
        | text t h1 => exact h1 rfl
    · have hse : s.isEmpty = false := by
        cases s with
        | nil => exact absurd rfl hs
        | cons => rfl
      have hpb : processBody L s o none c.rules c.gens = byType L (chosen L s o none) s c.rules c.gens := by
        rw [processBody, if_neg (by rw [hse]; decide)]
      rw [hpb]
      rcases byType_cases L (chosen L s o none) s c.rules c.gens hrt with ⟨x, a', k1, k2, R, k3, k4, k5, _⟩ | ⟨k1, k2⟩
      · left
        rw [k3]
        refine ⟨_, rfl, .text _ x a' R _ hs hnt k1 k4 k5 ((metaAdded_iff _ _ _).2 rfl), ?_⟩
        intro ha
        cases ha with
        | badType g h1 h2 => exact hnb g h1 h2
        | text t _ h1 h2 => rw [newType_unique h1 hnt] at h2; exact k2 h2
      · right
        rw [k1]
        exact ⟨rfl, .text _ hs hnt k2⟩

/-- **C122**, **C123** The contents of an asynchronous message, or of the request of a synchronous one. -/
theorem C122_message {L : Lib} {given : Option Str} {s : Str} {c c' : MessageContents} (hrt : Readable L)
    (h : withBodyMsg L given s c = .ok c') : MsgSet L given s c c' := by
  rcases msg_cases L given s c hrt with ⟨x, k1, k2, _⟩ | ⟨k1, _⟩
  · rw [k1] at h; cases h; exact k2
  · rw [k1] at h; cases h

/-- **C122** The response of a synchronous message: a new one is appended, whatever responses there are. -/
theorem C122_reply {L : Lib} {given : Option Str} {s : Str} {cs cs' : List MessageContents} (hrt : Readable L)
    (h : withBodyReply L given s cs = .ok cs') :
    ∃ c, cs' = cs ++ [c] ∧ MsgSet L given s ⟨.missing, [], [], []⟩ c := by
  have he : withBodyReply L given s cs = (withBodyMsg L given s ⟨.missing, [], [], []⟩).map fun c => cs ++ [c] := by
    unfold withBodyReply withBodyMsg
    cases givenType L given <;> rfl
  rw [he] at h
  obtain ⟨c, hc, e⟩ := (Res.map_eq_ok ..).1 h
  exact ⟨c, e.symm, C122_message hrt hc⟩

/-- **C124** When setting the contents of a message aborts. -/
theorem C124_message (L : Lib) (given : Option Str) (s : Str) (c : MessageContents) (hrt : Readable L) :
    (withBodyMsg L given s c = .panic ↔ MsgAborts L given s) ∧ withBodyMsg L given s c ≠ .err := by
  rcases msg_cases L given s c hrt with ⟨x, k1, _, k3⟩ | ⟨k1, k2⟩
  · rw [k1]
    exact ⟨⟨(fun h => by cases h), fun h => absurd h k3⟩, fun h => by cases h⟩
  · rw [k1]
    exact ⟨⟨fun _ => k2, fun _ => rfl⟩, fun h => by cases h⟩

/-! ## From the C interface to the comparison -/

/-- The body of a part as it is compared. -/
def asBody : FBody → Body
  | .missing => .missing
  | .empty => .empty
  | .null => .null
  | .present b ct _ => .present b ct

/-- A request as it is compared. -/
def asRequest (r : HttpRequest) : MatchResult.Request := ⟨r.method, r.path, r.query, ⟨r.headers, asBody r.body⟩, r.rules⟩

theorem ctxFor_emptyBody (c : Category) (d : DiffConfig) :
    MatchResult.ctxFor [(Category.body, emptyCat .body)] c d = MatchResult.ctxFor [] c d := by
  cases c <;> rfl

theorem matchRequest_emptyBody (env : Env) (uc : UC) (be : BodyEnv) (e a : MatchResult.Request)
    (h : e.rules = [(.body, emptyCat .body)]) :
    MatchResult.matchRequest env uc be e a = MatchResult.matchRequest env uc be { e with rules := [] } a := by
  unfold MatchResult.matchRequest
  simp only [h, ctxFor_emptyBody]

/-- **C123** A JSON document without matchers, set on a request without rules: a request is accepted exactly if method,
path, query and headers agree, a body is there, and it is the same document, whatever its layout. -/
theorem C123_accepts {L : Lib} {given : Option Str} {s : Str} {r r' : HttpRequest} (hrt : Readable L)
    (h : withBodyReq L given s r = .ok r') (hs : s ≠ []) (hr : r.rules = []) {t : ContentType}
    (ht : NewType L given r.body r.headers s t) (hj : t.isJson = true) {j : Json} (hp : L.src.parse s = some j)
    (hc : (∃ o, j = .obj o) ∨ ∃ xs, j = .arr xs) (hcl : Clean j) (env : Env) (uc : UC) (be : BodyEnv)
    (hbe : be.json (utf8 j.text) = some j) (a : MatchResult.Request) (hq : QueryProps.NodupKeys (r.query.getD []))
    (hh : HeaderProps.CaseNodup uc (a.part.headers.getD [])) (hx : t.isXml = false)
    (hw : ∀ (b : Bytes) (j : Json), be.json b = some j → j.WF) :
    (MatchResult.matchRequest env uc be (asRequest r') a).allMatched = true ↔
      uc.lower r.method = uc.lower a.method ∧ r.path = a.path ∧ QueryProps.SameQuery r.query a.query ∧
      EndToEndProps.HeadersAgree uc r'.headers a.part.headers ∧
      (t.isUnknown = true ∨ (MatchResult.contentTypeD uc be a.part).isUnknown = true ∨
        t.isEquivalentTo (MatchResult.contentTypeD uc be a.part) = true ∨
        t.isEquivalentTo (MatchResult.contentTypeD uc be a.part).baseType = true) ∧
      a.part.body ≠ .missing ∧ a.part.body ≠ .empty ∧ be.json (a.part.body.value.getD []) = some j := by
  obtain ⟨h1, hm, hpa, hqu⟩ := C122_request hrt h
  have key : r'.body = .present (utf8 j.text) (some t) none ∧ (r'.rules = [] ∨ r'.rules = [(.body, emptyCat .body)]) := by
    generalize r'.body = b1 at h1
    generalize r'.rules = x1 at h1
    generalize r'.gens = x2 at h1
    generalize r'.headers = x3 at h1
    cases h1 with
    | empty _ e => exact absurd e hs
    | text t' c a' R h' _ hn hcon hcat _ hR _ =>
      have e := newType_unique hn ht
      subst e
      obtain ⟨e1, e2⟩ := C123_clean hcon hj hp hc hcl
      subst e1
      refine ⟨rfl, ?_⟩
      rw [e2, hr] at hR
      exact hR
  obtain ⟨hb, hR⟩ := key
  have hct : MatchResult.contentTypeD uc be (asRequest r').part = t := by
    unfold MatchResult.contentTypeD MatchResult.contentType asRequest
    simp only [hb, asBody]
    rfl
  have hmain : t.main ≠ "multipart".toList := by
    intro e
    unfold ContentType.isJson at hj
    rw [e] at hj
    revert hj
    rw [show decide ("multipart".toList = "application".toList) = false from by decide]
    simp
  have he : MatchResult.matchRequest env uc be (asRequest r') a =
      MatchResult.matchRequest env uc be { asRequest r' with rules := [] } a := by
    rcases hR with hR | hR
    · have : (asRequest r').rules = [] := hR
      rw [← this]
    · exact matchRequest_emptyBody env uc be (asRequest r') a hR
  rw [he, EndToEndProps.C47_request env uc be { asRequest r' with rules := [] } a rfl
    (by show QueryProps.NodupKeys (r'.query.getD []); rw [hqu]; exact hq) hh
    (by show (MatchResult.contentTypeD uc be (asRequest r').part).isXml = false; rw [hct]; exact hx)
    (by show (MatchResult.contentTypeD uc be (asRequest r').part).main ≠ _; rw [hct]; exact hmain) hw]
  have hbody : EndToEndProps.BodyAgrees uc be (fun x y => x = y) (asRequest r').part a.part ↔
      ((t.isUnknown = true ∨ (MatchResult.contentTypeD uc be a.part).isUnknown = true ∨
        t.isEquivalentTo (MatchResult.contentTypeD uc be a.part) = true ∨
        t.isEquivalentTo (MatchResult.contentTypeD uc be a.part).baseType = true) ∧
      a.part.body ≠ .missing ∧ a.part.body ≠ .empty ∧ be.json (a.part.body.value.getD []) = some j) := by
    unfold EndToEndProps.BodyAgrees
    rw [hct]
    have hb2 : (asRequest r').part.body = .present (utf8 j.text) (some t) := by
      show asBody r'.body = _
      rw [hb]; rfl
    rw [hb2]
    simp only []
    unfold EndToEndProps.ContentAgrees
    rw [if_pos hj, hbe]
    constructor
    · rintro ⟨k1, k2, k3, ej, aj, k4, k5, k6⟩
      cases k4
      exact ⟨k1, k2, k3, by rw [k5, k6]⟩
    · rintro ⟨k1, k2, k3, k4⟩
      exact ⟨k1, k2, k3, j, j, rfl, k4, rfl⟩
  show _ ∧ _ ∧ _ ∧ _ ∧ EndToEndProps.BodyAgrees uc be (fun x y => x = y) (asRequest r').part a.part ↔ _
  rw [hbody]
  have e1 : (asRequest r').method = r.method := hm
  have e2 : (asRequest r').path = r.path := hpa
  have e3 : (asRequest r').query = r.query := hqu
  rw [show ({ asRequest r' with rules := [] } : MatchResult.Request).method = r.method from hm,
    show ({ asRequest r' with rules := [] } : MatchResult.Request).path = r.path from hpa,
    show ({ asRequest r' with rules := [] } : MatchResult.Request).query = r.query from hqu]
  rfl

/-! ## Examples -/

set_option synthInstance.maxSize 2000
set_option synthInstance.maxHeartbeats 200000

/-- A JSON document without matchers, and one whose example it is. -/
def plainDoc : Json := .obj [(['a'], .num (.pos 1))]
def matchDoc : Json := .obj [(['a'], .obj (PartProps.mObj [("pact:matcher:type", js "integer"), ("value", .num (.pos 1))]))]
/-- The description of an XML document. -/
def xmlDoc : Json := .obj [("root".toList, .obj [("name".toList, js "r")])]
/-- Its text. -/
def plainText : Str := ['{', '"', 'a', '"', ':', '1', '}']

/-- The parser of the examples. -/
def exParse (s : Str) : Option Json :=
  if s = plainText then some plainDoc else if s = ['M'] then some matchDoc else if s = ['X'] then some xmlDoc
  else if s = xmlDoc.text then some xmlDoc else if s = ['7'] then some (.num (.pos 7)) else none

/-- Whether the examples look like JSON. -/
def looksJson (s : Str) : Bool := s.head? == some '{' || s.head? == some 'M' || s.head? == some 'X' || s.head? == some '1' ||
  s.head? == some '7'

def formT : ContentType := ⟨"application".toList, "x-www-form-urlencoded".toList, [], none⟩
def xmlT : ContentType := ⟨"application".toList, "xml".toList, [], none⟩
def jsonT : ContentType := ⟨"application".toList, "json".toList, [], none⟩
def textT : ContentType := ⟨"text".toList, "plain".toList, [], none⟩

/-- The setting of the examples. -/
def L1 : Lib where
  src := ⟨S0, exParse, UC.ascii⟩
  file := { PactFileProps.exE with
    parseCT := fun s => if s = ['j'] then some jsonT else if s = ['x'] then some xmlT else if s = ['f'] then some formT
      else none
    detectStr := fun s => if looksJson s then jsonT else textT }
  xmlText := fun e => match e with
    | some _ => ['<', 'r', '/', '>']
    | none => []
  moves := true

theorem clean_plain : Clean plainDoc := by
  refine .object _ ?_ ?_
  · intro e he
    simp only [List.mem_cons, List.mem_nil_iff, or_false] at he
    subst he
    decide
  · intro e he
    simp only [List.mem_cons, List.mem_nil_iff, or_false] at he
    subst he
    exact .scalar _ (by intro xs h; cases h) (by intro m h; cases h)

theorem example_of {j x : Json} {a' : Acc} (h : processJson S0 j a0 = .ok (x, a')) {y : Json} (hy : Example S0 j y) : y = x :=
  C84_unique hy ((C84_example S0 j x a0).1 ⟨a', h⟩).1

/-- The hypothesis of the theorems is met. -/
theorem readable_L1 : Readable L1 := by
  intro s j x hp hx
  have hx : Example S0 j x := hx
  have hp : exParse s = some j := hp
  unfold exParse at hp
  have fin : ∀ (z : Json) (y : Json) (a' : Acc), processJson S0 j a0 = .ok (z, a') → exParse z.text = some y →
      ∃ y, L1.src.parse x.text = some y := by
    intro z y a' h1 h2
    refine ⟨y, ?_⟩
    rw [example_of h1 hx]
    exact h2
  repeat' split at hp
  all_goals cases hp
  · exact fin plainDoc plainDoc a0 rfl (by decide)
  · exact fin plainDoc plainDoc _ rfl (by decide)
  · exact fin xmlDoc xmlDoc a0 rfl (by decide +kernel)
  · exact fin xmlDoc xmlDoc a0 rfl (by decide +kernel)
  · exact fin (.num (.pos 7)) (.num (.pos 7)) a0 rfl (by decide)

/-- A request without anything. -/
def rq0 : HttpRequest := ⟨"PUT".toList, ['/'], none, none, .missing, [], []⟩

/-- The result on a request, as far as it can be compared. -/
def after (given : Option Str) (s : Str) (r : HttpRequest) : Option (FBody × Option (List (Str × List Str)) × Nat) :=
  match withBodyReq L1 given s r with
  | .ok r' => some (r'.body, r'.headers, (catOf r'.rules .body).rules.length)
  | _ => none

/-- A document with a matcher: the example, its content type, the header and a rule. -/
theorem C122_witness : after none ['M'] rq0 = some (.present (utf8 plainText) (some jsonT) none,
    some [("Content-Type".toList, ["application/json".toList])], 1) := by decide +kernel

/-- A description of an XML document, one of a form, and a form as text. -/
theorem C123_witness : after (some ['x']) ['X'] rq0 = some (.present (utf8 ['<', 'r', '/', '>']) (some xmlT) none,
      some [("Content-Type".toList, ["application/xml".toList])], 0) ∧
    after (some ['f']) ['M'] rq0 = some (.present (utf8 ['a', '=', '1']) (some formT) none,
      some [("Content-Type".toList, ["application/x-www-form-urlencoded".toList])], 1) ∧
    after (some ['f']) ['a', '=', '2'] rq0 = some (.present (utf8 ['a', '=', '2']) (some formT) none,
      some [("Content-Type".toList, ["application/x-www-form-urlencoded".toList])], 0) := by decide +kernel

/-- A header with another spelling is used for the content type, but the header is added nevertheless. -/
theorem C122_spelling : after none ['a'] { rq0 with headers := some [("content-type".toList, [['x']])] } =
    some (.present (utf8 ['a']) (some xmlT) none,
      some [("content-type".toList, [['x']]), ("Content-Type".toList, ["application/xml".toList])], 0) := by decide +kernel

/-- What looks like JSON and is no object is dropped for XML, and is an empty form. -/
theorem C123_dropped : after (some ['x']) ['7'] rq0 = some (.present [] (some xmlT) none,
      some [("Content-Type".toList, ["application/xml".toList])], 0) ∧
    after (some ['f']) ['7'] rq0 = some (.present [] (some formT) none,
      some [("Content-Type".toList, ["application/x-www-form-urlencoded".toList])], 0) := by decide +kernel

/-- A form that begins with a digit, a content type that is none, and a header without values. -/
theorem C124_witness : withBodyReq L1 (some ['f']) ['1', '=', 'x'] rq0 = .panic ∧
    withBodyReq L1 (some ['?']) ['a'] rq0 = .panic ∧
    withBodyReq L1 (some ['j']) ['a'] { rq0 with headers := some [("Content-Type".toList, [])] } = .panic := ⟨rfl, rfl, rfl⟩

/-- A message keeps its metadata for the content type, which is not used; the replies are collected. -/
theorem C122_message_witness : (match withBodyMsg L1 none ['M'] ⟨.missing, [("contentType".toList, js "x")], [], []⟩ with
      | .ok c => some (c.contents, c.metadata.map (·.1))
      | _ => none) = some (.present (utf8 plainText) (some jsonT) none, ["contentType".toList]) ∧
    (match withBodyReply L1 none ['a'] [⟨.empty, [], [], []⟩] with
      | .ok cs => some (cs.map (·.contents))
      | _ => none) = some [.empty, .present (utf8 ['a']) (some textT) none] := by decide +kernel

/-- The hypotheses of `C123_accepts` are met: the request set up with a document without matchers. -/
theorem C123_accepts_witness : (∃ r', withBodyReq L1 none plainText rq0 = .ok r' ∧
      r'.headers = some [("Content-Type".toList, ["application/json".toList])]) ∧
    NewType L1 none rq0.body rq0.headers plainText jsonT ∧ jsonT.isJson = true ∧ jsonT.isXml = false ∧
    L1.src.parse plainText = some plainDoc ∧ Clean plainDoc ∧ plainDoc.text = plainText := by
  refine ⟨⟨_, rfl, rfl⟩, ?_, by decide, by decide, rfl, clean_plain, by decide⟩
  refine .detected rfl ?_
  intro t ht
  cases ht with
  | header _ _ _ _ hd => obtain ⟨hs, k, v, vs, h, _⟩ := hd; cases h





end BodyBuildProps
end Verif
