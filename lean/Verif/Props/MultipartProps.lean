import Verif.Multipart
import Verif.Props.EndToEndProps
import Verif.Props.PatternProps
import Verif.Props.MatcherProps

/-
  Properties C112 to C115: MIME multipart bodies.
-/
set_option autoImplicit false

namespace Verif
namespace MultipartProps
open Path Rules Matchers Compare Query Headers MatchResult Multipart CompareProps EndToEndProps PathProps QueryProps HeaderProps ResultProps RuleProps

/-! ### Specification -/

/-- An actual part can stand for an expected part: it has its name, or it has no name and the same position. -/
def Stands (e a : MimePart) : Prop := (a.name ≠ [] ∧ a.name = e.name) ∨ (a.name = [] ∧ a.index = e.index)

/-- The part that is compared with an expected part: the first one that can stand for it. -/
def Counterpart (e : MimePart) (as : List MimePart) (a : MimePart) : Prop :=
  ∃ before after, as = before ++ a :: after ∧ Stands e a ∧ ∀ b ∈ before, ¬ Stands e b

/-- The headers of a part agree: every expected header is there with the same value, but the value of
`content-disposition` is not compared, and the three headers about the content may be missing. -/
def HeadersFit (e a : MimePart) : Prop :=
  ∀ k v, (k, v) ∈ e.headers →
    (∀ w, Json.lookup k a.headers = some w → k = "content-disposition".toList ∨ w = v) ∧
    (Json.lookup k a.headers = none →
      k = "content-type".toList ∨ k = "content-disposition".toList ∨ k = "content-transfer-encoding".toList)

/-- The contents of a part: base64 is decoded when the header `content-transfer-encoding` says so and it is base64. -/
def Contents (uc : UC) (p : MimePart) (b : Bytes) : Prop :=
  (∃ enc, Json.lookup "content-transfer-encoding".toList p.headers = some enc ∧ uc.lower enc = "base64".toList ∧
    decodeBytes p.data = some b) ∨
  ((∀ enc, Json.lookup "content-transfer-encoding".toList p.headers = some enc → uc.lower enc = "base64".toList →
    decodeBytes p.data = none) ∧ b = p.data)

/-- The content type of a file, unknown if there is none. -/
def typeOf (p : MimePart) : ContentType := p.ct.getD .unknown

/-- The content types of two files fit. -/
def TypesFit (e a : ContentType) : Prop :=
  e.isUnknown = true ∨ a.isUnknown = true ∨ e.isEquivalentTo a = true ∨ e.isEquivalentTo a.baseType = true

/-- A part is accepted when there are no rules: fields by their text, files as bodies of their content type. -/
def PartFits (uc : UC) (be : BodyEnv) (mp : MPEnv) (rel : Json → Json → Prop) (e a : MimePart) : Prop :=
  HeadersFit e a ∧ ∃ x y, Contents uc e x ∧ Contents uc a y ∧
    ((e.kind = .field ∧ a.kind = .field ∧ mp.lossy y = mp.lossy x) ∨
     (e.kind = .file ∧ a.kind = .file ∧ TypesFit (typeOf e) (typeOf a) ∧ ContentAgrees be rel (typeOf e) x (some y)))

/-- No file is an XML document or itself a multipart body. -/
def PlainFiles (es : List MimePart) : Prop :=
  ∀ e ∈ es, e.kind = .file → (typeOf e).isXml = false ∧ (typeOf e).main ≠ "multipart".toList

/-- Both bodies are multipart bodies and every expected part is accepted for its counterpart. -/
def PartsFit (uc : UC) (be : BodyEnv) (mp : MPEnv) (rel : Json → Json → Prop) (eh ah : Option HeaderMap) (e a : Bytes) : Prop :=
  ∃ es as, mp.parse eh e = some es ∧ mp.parse ah a = some as ∧
    ∀ x ∈ es, ∃ y, Counterpart x as y ∧ PartFits uc be mp rel x y

/-! ### Counterparts -/

theorem isCounterpart_iff (e a : MimePart) : isCounterpart e a = true ↔ Stands e a := by
  unfold isCounterpart Stands
  by_cases h : a.name = []
  · simp [h]
  · rw [if_neg (by simpa using h)]
    simp [h]

theorem find_iff (e : MimePart) (as : List MimePart) (a : MimePart) :
    as.find? (isCounterpart e) = some a ↔ Counterpart e as a := by
  rw [List.find?_eq_some_iff_append]
  unfold Counterpart
  constructor
  · rintro ⟨h1, l1, l2, h2, h3⟩
    refine ⟨l1, l2, h2, (isCounterpart_iff e a).mp h1, ?_⟩
    intro b hb hs
    have := h3 b hb
    rw [(isCounterpart_iff e b).mpr hs] at this
    cases this
  · rintro ⟨l1, l2, h2, h1, h3⟩
    refine ⟨(isCounterpart_iff e a).mpr h1, l1, l2, h2, ?_⟩
    intro b hb
    have : isCounterpart e b ≠ true := fun hh => h3 b hb ((isCounterpart_iff e b).mp hh)
    simpa using this

theorem counterpart_unique {e : MimePart} {as : List MimePart} {a b : MimePart} (h : Counterpart e as a)
    (h' : Counterpart e as b) : a = b := by
  rw [← find_iff] at h h'
  rw [h] at h'
  exact Option.some.inj h'

theorem matchExpected_nil (env : Env) (uc : UC) (be : BodyEnv) (mp : MPEnv) (as : List MimePart) (ctx : Ctx) (e : MimePart) :
    matchExpected env uc be mp as ctx e = [] ↔ ∃ a, Counterpart e as a ∧ matchPart env uc be mp e a ctx = [] := by
  unfold matchExpected
  cases h : as.find? (isCounterpart e) with
  | none =>
    simp only [List.cons_ne_nil, false_iff]
    rintro ⟨a, ha, _⟩
    rw [← find_iff, h] at ha
    cases ha
  | some a =>
    have ha := (find_iff e as a).mp h
    constructor
    · intro hm
      exact ⟨a, ha, hm⟩
    · rintro ⟨b, hb, hm⟩
      rw [counterpart_unique ha hb]
      exact hm

/-- With any rules: both bodies are multipart bodies, and every expected part has a counterpart that is accepted. -/
theorem C112_parts (env : Env) (uc : UC) (be : BodyEnv) (mp : MPEnv) (eh ah : Option HeaderMap) (e a : Bytes) (ctx : Ctx) :
    matchMultipart env uc be mp eh ah e a ctx = [] ↔
      ∃ es as, mp.parse eh e = some es ∧ mp.parse ah a = some as ∧
        ∀ x ∈ es, ∃ y, Counterpart x as y ∧ matchPart env uc be mp x y ctx = [] := by
  unfold matchMultipart
  cases he : mp.parse eh e with
  | none => cases ha : mp.parse ah a <;> simp
  | some es =>
    cases ha : mp.parse ah a with
    | none => simp
    | some as =>
      simp only [List.flatMap_eq_nil_iff, matchExpected_nil, Option.some.injEq]
      constructor
      · intro h
        exact ⟨es, as, rfl, rfl, h⟩
      · rintro ⟨_, _, rfl, rfl, h⟩
        exact h

/-! ### Without rules -/

theorem decodeData_iff (uc : UC) (p : MimePart) (b : Bytes) : Contents uc p b ↔ b = decodeData uc p := by
  unfold Contents decodeData
  cases h : Json.lookup "content-transfer-encoding".toList p.headers with
  | none => simp
  | some enc =>
    simp only [Option.some.injEq]
    by_cases hb : uc.lower enc = "base64".toList
    · simp only [if_pos hb]
      cases hd : decodeBytes p.data with
      | none =>
        constructor
        · rintro (⟨_, _, _, hh⟩ | ⟨_, hh⟩)
          · cases hh
          · exact hh
        · intro hh
          exact .inr ⟨fun _ _ _ => rfl, hh⟩
      | some c =>
        constructor
        · rintro (⟨_, _, _, hh⟩ | ⟨hh, _⟩)
          · exact (Option.some.inj hh).symm
          · cases hh enc rfl hb
        · intro hh
          exact .inl ⟨enc, rfl, hb, by rw [hh]; rfl⟩
    · simp only [if_neg hb]
      constructor
      · rintro (⟨_, rfl, hh, _⟩ | ⟨_, hh⟩)
        · exact absurd hh hb
        · exact hh
      · intro hh
        exact .inr ⟨fun _ h1 h2 => absurd (h1 ▸ h2) hb, hh⟩

theorem noRules_lower {uc : UC} {ctx : Ctx} (h : NoRules ctx) : NoRules (lowerCtx uc ctx) := by
  unfold NoRules at *
  unfold lowerCtx lowerCat
  simp only [h]
  rfl

theorem strEq (env : Env) (e a : Str) : strMatches env e a .equality false = true ↔ a = e := by
  unfold strMatches
  simp only [decide_eq_true_eq]
  exact eq_comm

theorem headers_nil {env : Env} {uc : UC} {ctx : Ctx} (h : NoRules ctx) (p : DocPath) (e a : MimePart) :
    matchPartHeaders env uc p e.headers a.headers ctx = [] ↔ HeadersFit e a := by
  unfold matchPartHeaders HeadersFit
  rw [List.flatMap_eq_nil_iff]
  have hone : ∀ kv : Str × Str, matchOneHeader env (lowerCtx uc ctx) p a.headers kv = [] ↔
      (∀ w, Json.lookup kv.1 a.headers = some w → kv.1 = "content-disposition".toList ∨ w = kv.2) ∧
      (Json.lookup kv.1 a.headers = none →
        kv.1 = "content-type".toList ∨ kv.1 = "content-disposition".toList ∨ kv.1 = "content-transfer-encoding".toList) := by
    intro kv
    unfold matchOneHeader
    simp only
    cases hl : Json.lookup kv.1 a.headers with
    | none =>
      simp only [reduceCtorEq, false_implies, implies_true, true_and, forall_const]
      by_cases hc : optionalHeaders.contains kv.1 = true
      · rw [if_pos hc]
        have : kv.1 ∈ optionalHeaders := by simpa using hc
        simpa [optionalHeaders] using this
      · rw [if_neg hc]
        simp only [List.cons_ne_nil, false_iff]
        intro hh
        apply hc
        have : kv.1 ∈ optionalHeaders := by simpa [optionalHeaders] using hh
        simpa using this
    | some w =>
      simp only [Option.some.injEq, reduceCtorEq, false_implies, and_true, forall_eq']
      unfold matchPresent
      rw [noRules_direct (noRules_lower h)]
      by_cases hd : kv.1 = "content-disposition".toList
      · rw [if_neg (by decide), if_pos hd]
        simp [hd]
      · rw [if_neg (by decide), if_neg hd]
        by_cases hs : strMatches env kv.2 w .equality false = true
        · rw [if_pos hs]
          simp [(strEq env kv.2 w).mp hs]
        · rw [if_neg hs]
          simp only [List.cons_ne_nil, false_iff]
          rintro (hh | hh)
          · exact hd hh
          · exact hs ((strEq env kv.2 w).mpr hh)
  constructor
  · intro hh k v hkv
    exact (hone (k, v)).mp (hh _ hkv)
  · intro hh kv hkv
    exact (hone kv).mpr (hh kv.1 kv.2 hkv)

theorem text_nil {env : Env} {ctx : Ctx} (h : NoRules ctx) (p : DocPath) (e a : Str) :
    Multipart.matchText env p e a ctx = [] ↔ a = e := by
  unfold Multipart.matchText
  rw [noRules_isDefined h, if_neg (by decide)]
  by_cases hs : strMatches env e a .equality false = true
  · rw [if_pos hs]
    simp [(strEq env e a).mp hs]
  · rw [if_neg hs]
    simp only [List.cons_ne_nil, false_iff]
    exact fun hh => hs ((strEq env e a).mpr hh)

theorem partRules_noRules {p : DocPath} {ctx : Ctx} (h : NoRules ctx) : NoRules (cloneWith ctx (partRules p ctx.cat)) := by
  unfold NoRules at *
  unfold cloneWith partRules
  simp only [h]
  rfl

theorem typesFit_iff (e a : ContentType) : typesFit e a = true ↔ TypesFit e a := by
  unfold typesFit TypesFit
  simp only [Bool.or_eq_true, or_assoc]

theorem contentAgrees_partEnv (be : BodyEnv) (rel : Json → Json → Prop) (ct : ContentType) (e : Bytes) (a : Option Bytes) :
    ContentAgrees (partEnv be) rel ct e a ↔ ContentAgrees be rel ct e a := Iff.rfl

theorem core_iff (env : Env) (be : BodyEnv) (ct : ContentType) (e a : Option Bytes) (ctx : Ctx) :
    compareBodiesCore env be ct e a ctx = [] ↔ compareBodies env be ct e a ctx = .ok := by
  unfold compareBodies
  simp only
  split
  · rename_i hh; simpa using hh
  · rename_i hh; simpa using hh

theorem contents_nil {env : Env} {uc : UC} {be : BodyEnv} {ctx : Ctx} (h : NoRules ctx) (e a : MimePart)
    (hx : (typeOf e).isXml = false) (hm : (typeOf e).main ≠ "multipart".toList) (hj : ∀ b j, be.json b = some j → j.WF) :
    matchContents env uc be e a ctx = [] ↔ TypesFit (typeOf e) (typeOf a) ∧
      ContentAgrees be (jsonRel ctx.config) (typeOf e) (decodeData uc e) (some (decodeData uc a)) := by
  unfold matchContents
  simp only
  by_cases ht : typesFit (e.ct.getD .unknown) (a.ct.getD .unknown) = true
  · rw [if_pos ht, core_iff]
    show compareBodies env (partEnv be) (typeOf e) _ _ _ = .ok ↔ _
    rw [compareBodies_ok env (partEnv be) (typeOf e) _ _ _ (partRules_noRules h) hx hm hj]
    exact ⟨fun hh => ⟨(typesFit_iff _ _).mp ht, hh⟩, fun hh => hh.2⟩
  · rw [if_neg ht]
    simp only [List.cons_ne_nil, false_iff]
    exact fun hh => ht ((typesFit_iff _ _).mpr hh.1)

theorem part_nil {env : Env} {uc : UC} {be : BodyEnv} {mp : MPEnv} {ctx : Ctx} (h : NoRules ctx) (e a : MimePart)
    (hp : e.kind = .file → (typeOf e).isXml = false ∧ (typeOf e).main ≠ "multipart".toList)
    (hj : ∀ b j, be.json b = some j → j.WF) :
    matchPart env uc be mp e a ctx = [] ↔ PartFits uc be mp (jsonRel ctx.config) e a := by
  unfold PartFits
  simp only [decodeData_iff]
  unfold matchPart
  cases he : e.kind with
  | field =>
    cases ha : a.kind with
    | field =>
      simp only [matchField, List.append_eq_nil_iff, headers_nil h, text_nil h]
      simp
    | file => simp
  | file =>
    cases ha : a.kind with
    | field => simp
    | file =>
      simp only [matchFile, List.append_eq_nil_iff, headers_nil h, contents_nil h e a (hp he).1 (hp he).2 hj]
      simp

/-- Without rules. -/
theorem C112_no_rules (env : Env) (uc : UC) (be : BodyEnv) (mp : MPEnv) (eh ah : Option HeaderMap) (e a : Bytes) (ctx : Ctx)
    (h : NoRules ctx) (hf : ∀ es, mp.parse eh e = some es → PlainFiles es) (hj : ∀ b j, be.json b = some j → j.WF) :
    matchMultipart env uc be mp eh ah e a ctx = [] ↔ PartsFit uc be mp (jsonRel ctx.config) eh ah e a := by
  rw [C112_parts]
  unfold PartsFit
  constructor
  · rintro ⟨es, as, h1, h2, h3⟩
    refine ⟨es, as, h1, h2, ?_⟩
    intro x hx
    obtain ⟨y, hy, hm⟩ := h3 x hx
    exact ⟨y, hy, (part_nil h x y (hf es h1 x hx) hj).mp hm⟩
  · rintro ⟨es, as, h1, h2, h3⟩
    refine ⟨es, as, h1, h2, ?_⟩
    intro x hx
    obtain ⟨y, hy, hm⟩ := h3 x hx
    exact ⟨y, hy, (part_nil h x y (hf es h1 x hx) hj).mpr hm⟩

theorem core_multipart {env : Env} {be : BodyEnv} {ct : ContentType} (hm : ct.main = "multipart".toList) (e a : Option Bytes) (ctx : Ctx) :
    compareBodiesCore env be ct e a ctx = be.multipart (e.getD []) (a.getD []) ctx := by
  have h1 : ct.isJson = false := by
    unfold ContentType.isJson
    rw [hm]
    rfl
  have h2 : ct.isXml = false := by
    unfold ContentType.isXml ContentType.appOrText
    rw [hm]
    rfl
  unfold compareBodiesCore
  simp only [h1, h2, if_pos hm]
  rfl

theorem body_multipart {env : Env} {uc : UC} {be : BodyEnv} {e a : Part} {ctx hctx : Ctx} (hh : NoRules hctx)
    (hm : (contentTypeD uc be e).main = "multipart".toList) {b : Bytes} {ct : Option ContentType} (hb : e.body = .present b ct) :
    matchBody env uc be e a ctx hctx = .ok ↔
      TypesFit (contentTypeD uc be e) (contentTypeD uc be a) ∧ a.body ≠ .missing ∧ a.body ≠ .empty ∧
        be.multipart b (a.body.value.getD []) ctx = [] := by
  have hc := C27_comparable_no_rule env uc be e a hctx hh
  unfold TypesFit
  rw [← hc]
  by_cases hcc : Comparable env uc be e a hctx
  · unfold matchBody
    simp only
    rw [if_pos (show typesAgree env uc (contentTypeD uc be e) (contentTypeD uc be a) hctx = true from hcc), hb]
    simp only [hcc, true_and]
    unfold matchBodyContent
    cases ha : a.body with
    | missing => simp [oneBody]
    | empty => simp [oneBody]
    | null =>
      simp only [ne_eq, reduceCtorEq, not_false_eq_true, true_and]
      rw [← core_iff, core_multipart hm]
      rfl
    | present b' ct' =>
      simp only [ne_eq, reduceCtorEq, not_false_eq_true, true_and]
      rw [← core_iff, core_multipart hm]
      rfl
  · simp only [hcc, false_and, iff_false]
    have := (C27_type_mismatch env uc be e a ctx hctx).2 ⟨by simp [hb, Body.isPresent], hcc⟩
    simp [this]

/-- An expected request without rules and with a multipart body. -/
theorem C112_request (env : Env) (uc : UC) (be : BodyEnv) (mp : MPEnv) (e a : Request) (hr : e.rules = [])
    (hq : NodupKeys (e.query.getD [])) (hh : CaseNodup uc (a.part.headers.getD []))
    (hm : (contentTypeD uc be e.part).main = "multipart".toList) (b : Bytes) (ct : Option ContentType)
    (hb : e.part.body = .present b ct) (hf : ∀ es, mp.parse e.part.headers b = some es → PlainFiles es)
    (hj : ∀ b j, be.json b = some j → j.WF) :
    (matchRequestMP env uc be mp e a).allMatched = true ↔
      uc.lower e.method = uc.lower a.method ∧ e.path = a.path ∧ SameQuery e.query a.query ∧
      HeadersAgree uc e.part.headers a.part.headers ∧
      TypesFit (contentTypeD uc be e.part) (contentTypeD uc be a.part) ∧ a.part.body ≠ .missing ∧ a.part.body ≠ .empty ∧
      PartsFit uc be mp (fun x y => x = y) e.part.headers a.part.headers b (a.part.body.value.getD []) := by
  unfold matchRequestMP RequestMatchResult.allMatched matchRequest
  have hct : ∀ p : Part, contentTypeD uc (withMultipart env uc be mp e.part.headers a.part.headers) p = contentTypeD uc be p := fun _ => rfl
  simp only [Bool.and_eq_true, Option.isNone_iff_eq_none, named_all, hr, C28_method,
    matchPath_ok env _ _ _ (ctxFor_noRules .path .noUnexpectedKeys), matchBody_ok_iff,
    C23_no_rules env _ _ _ (ctxFor_noRules .query .noUnexpectedKeys) hq,
    matchHeaders_ok env uc _ _ .noUnexpectedKeys hh]
  rw [body_multipart (lower_noRules uc .header .noUnexpectedKeys) (by rw [hct]; exact hm) hb, hct, hct]
  have := C112_no_rules env uc be mp e.part.headers a.part.headers b (a.part.body.value.getD []) _
    (ctxFor_noRules .body .noUnexpectedKeys) hf hj
  rw [show (withMultipart env uc be mp e.part.headers a.part.headers).multipart b (a.part.body.value.getD [])
    (ctxFor [] .body .noUnexpectedKeys) = [] ↔ _ from this]
  simp only [and_assoc]
  rfl

/-- An expected response without rules and with a multipart body; additional fields of JSON objects are accepted. -/
theorem C112_response (env : Env) (uc : UC) (be : BodyEnv) (mp : MPEnv) (e a : Response) (hr : e.rules = [])
    (hh : CaseNodup uc (a.part.headers.getD []))
    (hm : (contentTypeD uc be e.part).main = "multipart".toList) (b : Bytes) (ct : Option ContentType)
    (hb : e.part.body = .present b ct) (hf : ∀ es, mp.parse e.part.headers b = some es → PlainFiles es)
    (hj : ∀ b j, be.json b = some j → j.WF) :
    matchResponseMP env uc be mp e a = [] ↔
      e.status = a.status ∧ HeadersAgree uc e.part.headers a.part.headers ∧
      TypesFit (contentTypeD uc be e.part) (contentTypeD uc be a.part) ∧ a.part.body ≠ .missing ∧ a.part.body ≠ .empty ∧
      PartsFit uc be mp Extends e.part.headers a.part.headers b (a.part.body.value.getD []) := by
  unfold matchResponseMP matchResponse
  have hct : ∀ p : Part, contentTypeD uc (withMultipart env uc be mp e.part.headers a.part.headers) p = contentTypeD uc be p := fun _ => rfl
  simp only [List.append_eq_nil_iff, hr, matchStatus_ok env _ _ _ (ctxFor_noRules .status .allowUnexpectedKeys),
    ← C25_body_verdict, matchBody_ok_iff, flatMap_nil_iff, named_all,
    matchHeaders_ok env uc _ _ .noUnexpectedKeys hh]
  rw [body_multipart (lower_noRules uc .header .noUnexpectedKeys) (by rw [hct]; exact hm) hb, hct, hct]
  have := C112_no_rules env uc be mp e.part.headers a.part.headers b (a.part.body.value.getD []) _
    (ctxFor_noRules .body .allowUnexpectedKeys) hf hj
  rw [show (withMultipart env uc be mp e.part.headers a.part.headers).multipart b (a.part.body.value.getD [])
    (ctxFor [] .body .allowUnexpectedKeys) = [] ↔ _ from this]
  have hrel : (jsonRel (ctxFor [] .body .allowUnexpectedKeys).config) = Extends := rfl
  rw [hrel]
  constructor
  · rintro ⟨⟨h1, h2⟩, h3⟩; exact ⟨h2, h3, h1⟩
  · rintro ⟨h1, h2, h3⟩; exact ⟨⟨h3, h1⟩, h2⟩

/-- A file that is itself a multipart body never matches. -/
theorem C112_nested (env : Env) (uc : UC) (be : BodyEnv) (mp : MPEnv) (e a : MimePart) (ctx : Ctx) (he : e.kind = .file)
    (hm : (typeOf e).main = "multipart".toList) : matchPart env uc be mp e a ctx ≠ [] := by
  intro h
  unfold matchPart at h
  rw [he] at h
  cases ha : a.kind with
  | field => rw [ha] at h; cases h
  | file =>
    rw [ha] at h
    simp only [matchFile, List.append_eq_nil_iff] at h
    have h2 := h.2
    unfold matchContents at h2
    simp only at h2
    split at h2
    · have := core_multipart (env := env) (be := partEnv be) hm (some (decodeData uc e)) (some (decodeData uc a))
        (cloneWith ctx (partRules (partPath e) ctx.cat))
      rw [show e.ct.getD .unknown = typeOf e from rfl, this] at h2
      cases h2
    · cases h2

/-! ### C113: which parts are compared -/

/-- Positions are different, and so are names that are not empty. -/
def DistinctParts (es : List MimePart) : Prop := es.Pairwise (fun x y => x.index ≠ y.index ∧ (x.name = y.name → x.name = []))

/-- The headers of each part have different names (as in every header map), JSON and form files can be read. -/
def ReadableParts (uc : UC) (be : BodyEnv) (es : List MimePart) : Prop :=
  ∀ e ∈ es, NodupKeys e.headers ∧ (e.kind = .file → ∀ b, Contents uc e b →
    ((typeOf e).isJson = true → ∃ j, be.json b = some j) ∧
    ((typeOf e).baseType = .formUrlencoded → ∃ f, be.form b = some f))

theorem counterpart_self {es : List MimePart} (h : DistinctParts es) {x : MimePart} (hx : x ∈ es) : Counterpart x es x := by
  obtain ⟨l1, l2, rfl⟩ := List.append_of_mem hx
  refine ⟨l1, l2, rfl, ?_, ?_⟩
  · by_cases hn : x.name = []
    · exact .inr ⟨hn, rfl⟩
    · exact .inl ⟨hn, rfl⟩
  · intro b hb hs
    unfold DistinctParts at h
    rw [List.pairwise_append] at h
    have := h.2.2 b hb x (List.mem_cons_self ..)
    rcases hs with ⟨h1, h2⟩ | ⟨h1, h2⟩
    · exact h1 (this.2 h2)
    · exact this.1 h2

theorem jsonRel_refl (c : DiffConfig) (j : Json) (h : j.WF) : jsonRel c j j := by
  cases c with
  | noUnexpectedKeys => rfl
  | allowUnexpectedKeys => exact Extends.refl j h

theorem partFits_self (uc : UC) (be : BodyEnv) (mp : MPEnv) (c : DiffConfig) (hj : ∀ b j, be.json b = some j → j.WF) {es : List MimePart}
    (h : ReadableParts uc be es) {x : MimePart} (hx : x ∈ es) : PartFits uc be mp (jsonRel c) x x := by
  obtain ⟨hn, hr⟩ := h x hx
  have hc := (decodeData_iff uc x (decodeData uc x)).mpr rfl
  refine ⟨?_, _, _, hc, hc, ?_⟩
  · intro k v hkv
    have := Json.lookup_of_mem hn hkv
    constructor
    · intro w hw
      rw [this] at hw
      exact .inr (Option.some.inj hw).symm
    · intro hw
      rw [this] at hw
      cases hw
  · cases hk : x.kind with
    | field => exact .inl ⟨rfl, rfl, rfl⟩
    | file =>
      obtain ⟨h1, h2⟩ := hr hk _ hc
      refine .inr ⟨rfl, rfl, .inr (.inr (.inl (C50_reflexive _))), ?_⟩
      unfold ContentAgrees
      split
      · rename_i hjs
        obtain ⟨j, hjj⟩ := h1 hjs
        exact ⟨j, j, hjj, hjj, jsonRel_refl c j (hj _ _ hjj)⟩
      · split
        · rename_i hf
          obtain ⟨f, hff⟩ := h2 hf
          exact ⟨f, f, hff, hff, fun _ => rfl⟩
        · split <;> rfl

/-- Without rules a multipart body whose parts have different names accepts itself. -/
theorem C113_self_partial (env : Env) (uc : UC) (be : BodyEnv) (mp : MPEnv) (hs : Option HeaderMap) (e : Bytes) (ctx : Ctx)
    (h : NoRules ctx) (es : List MimePart) (he : mp.parse hs e = some es) (hd : DistinctParts es) (hr : ReadableParts uc be es)
    (hf : PlainFiles es) (hj : ∀ b j, be.json b = some j → j.WF) : matchMultipart env uc be mp hs hs e e ctx = [] := by
  rw [C112_no_rules env uc be mp hs hs e e ctx h (fun es' h' => by rw [he] at h'; cases h'; exact hf) hj]
  exact ⟨es, es, he, he, fun x hx => ⟨x, counterpart_self hd hx, partFits_self uc be mp ctx.config hj hr hx⟩⟩

/-- Without rules a multipart body with two fields of the same name and different values does not accept itself: both
are compared with the first. -/
theorem C113_repeated_fails (env : Env) (uc : UC) (be : BodyEnv) (mp : MPEnv) (hs : Option HeaderMap) (e : Bytes) (ctx : Ctx)
    (h : NoRules ctx) (es : List MimePart) (he : mp.parse hs e = some es) (hf : PlainFiles es) (hj : ∀ b j, be.json b = some j → j.WF)
    (hn : ∀ z ∈ es, z.name ≠ []) (x y : MimePart) (hx : x ∈ es) (hy : y ∈ es) (hxk : x.kind = .field) (hyk : y.kind = .field)
    (hxy : x.name = y.name) (b c : Bytes) (hb : Contents uc x b) (hc : Contents uc y c) (hbc : mp.lossy b ≠ mp.lossy c) :
    matchMultipart env uc be mp hs hs e e ctx ≠ [] := by
  intro hm
  rw [C112_no_rules env uc be mp hs hs e e ctx h (fun es' h' => by rw [he] at h'; cases h'; exact hf) hj] at hm
  obtain ⟨es', as, h1, h2, h3⟩ := hm
  rw [he] at h1 h2
  cases h1
  cases h2
  obtain ⟨u, hu, _, b', v, hb', hv, hfit⟩ := h3 x hx
  obtain ⟨u', hu', _, c', v', hc', hv', hfit'⟩ := h3 y hy
  have hcp : ∀ z, Counterpart x es z → Counterpart y es z := by
    rintro z ⟨l1, l2, hl, hz, hl1⟩
    refine ⟨l1, l2, hl, ?_, ?_⟩
    · rcases hz with ⟨h4, h5⟩ | ⟨h4, h5⟩
      · exact .inl ⟨h4, by rw [h5, hxy]⟩
      · exact absurd h4 (hn z (by rw [hl]; simp))
    · intro w hw hs
      rcases hs with ⟨h4, h5⟩ | ⟨h4, h5⟩
      · exact hl1 w hw (.inl ⟨h4, by rw [h5, hxy]⟩)
      · exact absurd h4 (hn w (by rw [hl]; simp [hw]))
  have huu := counterpart_unique (hcp u hu) hu'
  subst huu
  rw [decodeData_iff] at hb hc hb' hc' hv hv'
  rcases hfit with ⟨_, _, hl⟩ | ⟨hk, _⟩
  · rcases hfit' with ⟨_, _, hl'⟩ | ⟨hk, _⟩
    · apply hbc
      rw [hb, hc, ← hb', ← hc', ← hl, ← hl', hv, hv']
    · rw [hyk] at hk; cases hk
  · rw [hxk] at hk; cases hk

/-- Parts that follow the accepted ones change nothing: additional parts are accepted (with any rules). -/
theorem C113_additional_accepted (env : Env) (uc : UC) (be : BodyEnv) (mp : MPEnv) (eh ah ah' : Option HeaderMap) (e a a' : Bytes) (ctx : Ctx)
    (as more : List MimePart) (h1 : mp.parse ah a = some as) (h2 : mp.parse ah' a' = some (as ++ more))
    (h : matchMultipart env uc be mp eh ah e a ctx = []) : matchMultipart env uc be mp eh ah' e a' ctx = [] := by
  rw [C112_parts] at *
  obtain ⟨es, as', h3, h4, h5⟩ := h
  rw [h1] at h4
  cases h4
  refine ⟨es, _, h3, h2, ?_⟩
  intro x hx
  obtain ⟨y, ⟨l1, l2, rfl, hy, hl⟩, hm⟩ := h5 x hx
  exact ⟨y, ⟨l1, l2 ++ more, by simp, hy, hl⟩, hm⟩

theorem counterpart_named {e : MimePart} {as : List MimePart} (hn : ∀ z ∈ as, z.name ≠ []) (hd : (as.map (·.name)).Nodup) (a : MimePart) :
    Counterpart e as a ↔ a ∈ as ∧ a.name = e.name := by
  constructor
  · rintro ⟨l1, l2, rfl, hs, _⟩
    refine ⟨by simp, ?_⟩
    rcases hs with ⟨_, h⟩ | ⟨h, _⟩
    · exact h
    · exact absurd h (hn a (by simp))
  · rintro ⟨ha, hne⟩
    obtain ⟨l1, l2, rfl⟩ := List.append_of_mem ha
    refine ⟨l1, l2, rfl, .inl ⟨hn a (by simp), hne⟩, ?_⟩
    intro b hb hs
    rw [List.map_append, List.nodup_append] at hd
    rcases hs with ⟨_, h⟩ | ⟨h, _⟩
    · exact hd.2.2 b.name (List.mem_map.mpr ⟨b, hb, rfl⟩) a.name (by simp) (by rw [h, hne])
    · exact hn b (by simp [hb]) h

/-- A part without its position in the body. -/
def unplaced (p : MimePart) : MimePart := { p with index := 0 }

theorem matchPart_unplaced (env : Env) (uc : UC) (be : BodyEnv) (mp : MPEnv) (e a b : MimePart) (ctx : Ctx) (h : unplaced a = unplaced b) :
    matchPart env uc be mp e a ctx = matchPart env uc be mp e b ctx := by
  have h1 : matchPart env uc be mp e (unplaced a) ctx = matchPart env uc be mp e a ctx := rfl
  have h2 : matchPart env uc be mp e (unplaced b) ctx = matchPart env uc be mp e b ctx := rfl
  rw [← h1, ← h2, h]

/-- The parts of the second list are those of the first, in any order. -/
def SameParts (as as' : List MimePart) : Prop := (as.map unplaced).Perm (as'.map unplaced)

theorem order_le (env : Env) (uc : UC) (be : BodyEnv) (mp : MPEnv) (eh ah ah' : Option HeaderMap) (e a a' : Bytes) (ctx : Ctx)
    (as as' : List MimePart) (h1 : mp.parse ah a = some as) (h2 : mp.parse ah' a' = some as') (hp : SameParts as as')
    (hn : ∀ z ∈ as, z.name ≠ []) (hd : (as.map (·.name)).Nodup)
    (h : matchMultipart env uc be mp eh ah e a ctx = []) : matchMultipart env uc be mp eh ah' e a' ctx = [] := by
  have hnames : ∀ l : List MimePart, (l.map unplaced).map (·.name) = l.map (·.name) := by
    intro l
    simp [unplaced]
  have hd' : (as'.map (·.name)).Nodup := by
    rw [← hnames]
    rw [← hnames] at hd
    exact (hp.map _).nodup_iff.mp hd
  have hn' : ∀ z ∈ as', z.name ≠ [] := by
    intro z hz
    have : unplaced z ∈ as.map unplaced := hp.mem_iff.mpr (List.mem_map.mpr ⟨z, hz, rfl⟩)
    obtain ⟨w, hw, he⟩ := List.mem_map.mp this
    have h3 := hn w hw
    have h4 : (unplaced w).name = (unplaced z).name := by rw [he]
    intro h5
    exact h3 (h4.trans h5)
  rw [C112_parts] at *
  simp only [h1, h2, Option.some.injEq] at *
  obtain ⟨es, _, h3, rfl, h4⟩ := h
  refine ⟨es, _, h3, rfl, ?_⟩
  intro x hx
  obtain ⟨y, hy, hm⟩ := h4 x hx
  rw [counterpart_named hn hd] at hy
  have : unplaced y ∈ as'.map unplaced := hp.mem_iff.mp (List.mem_map.mpr ⟨y, hy.1, rfl⟩)
  obtain ⟨w, hw, he⟩ := List.mem_map.mp this
  refine ⟨w, (counterpart_named hn' hd' w).mpr ⟨hw, ?_⟩, ?_⟩
  · have h4 : (unplaced w).name = (unplaced y).name := by rw [he]
    exact h4.trans hy.2
  · rw [matchPart_unplaced env uc be mp x w y ctx he]
    exact hm

/-- The order of the actual parts does not matter when they all have names and the names are different (with any
rules). -/
theorem C113_order_partial (env : Env) (uc : UC) (be : BodyEnv) (mp : MPEnv) (eh ah ah' : Option HeaderMap) (e a a' : Bytes) (ctx : Ctx)
    (as as' : List MimePart) (h1 : mp.parse ah a = some as) (h2 : mp.parse ah' a' = some as') (hp : SameParts as as')
    (hn : ∀ z ∈ as, z.name ≠ []) (hd : (as.map (·.name)).Nodup) :
    matchMultipart env uc be mp eh ah e a ctx = [] ↔ matchMultipart env uc be mp eh ah' e a' ctx = [] := by
  refine ⟨order_le env uc be mp eh ah ah' e a a' ctx as as' h1 h2 hp hn hd, ?_⟩
  have hnames : ∀ l : List MimePart, (l.map unplaced).map (·.name) = l.map (·.name) := by
    intro l
    simp [unplaced]
  refine order_le env uc be mp eh ah' ah e a' a ctx as' as h2 h1 (List.Perm.symm hp) ?_ ?_
  · intro z hz
    have : unplaced z ∈ as.map unplaced := hp.mem_iff.mpr (List.mem_map.mpr ⟨z, hz, rfl⟩)
    obtain ⟨w, hw, he⟩ := List.mem_map.mp this
    have h3 := hn w hw
    have h4 : (unplaced w).name = (unplaced z).name := by rw [he]
    intro h5
    exact h3 (h4.trans h5)
  · rw [← hnames]
    rw [← hnames] at hd
    exact (hp.map _).nodup_iff.mp hd

/-! ### C114: rules for parts -/

/-- Paths as they are made by the parser: the root first and nowhere else, indices of 64 bits, all different. -/
structure Table (rules : List (DocPath × RuleList)) : Prop where
  rooted : ∀ e ∈ rules, ∃ rest, e.1.tokens = .root :: rest ∧ .root ∉ rest ∧ ∀ i, .index i ∈ rest → i < usizeLim
  distinct : (rules.map (fun e => e.1.tokens)).Nodup

/-- The rules below the part called `n`, with paths relative to it. -/
def relative (n : Str) (rules : List (DocPath × RuleList)) : List (DocPath × RuleList) :=
  rules.filterMap fun e => match e.1.tokens with
    | .root :: .field m :: rest => if m = n then some (fromTokens (.root :: rest), e.2) else none
    | _ => none

/-- A name that is not taken for a wildcard or an index. -/
def PlainName (n : Str) : Prop := n ≠ [] ∧ n ≠ ['*'] ∧ n ≠ ['[', '*', ']'] ∧ parseUsize n = none

theorem join_plain {n : Str} (h : PlainName n) (p : DocPath) : join p n = pushField p n := by
  unfold join
  rw [if_neg h.2.1, if_neg h.2.2.1, h.2.2.2]

theorem partPath_plain {e : MimePart} (h : PlainName e.name) : partPath e = pushField rootPath e.name := by
  unfold partPath
  rw [if_neg (by simpa using h.1), join_plain h]

theorem below_iff {n : Str} (h : PlainName n) {rest : List PathToken} (hr : .root ∉ rest) (hi : ∀ i, .index i ∈ rest → i < usizeLim) :
    matchesPath [.root, .field n] ((PathToken.root :: rest).map tokenString) = true ↔ ∃ r, rest = .field n :: r := by
  cases rest with
  | nil =>
    refine ⟨fun hh => ?_, fun ⟨r, hh⟩ => by cases hh⟩
    cases hh
  | cons t r =>
    have hm : matchesPath [.root, .field n] ((PathToken.root :: t :: r).map tokenString) = true ↔ tokenString t = n := by
      rw [show (PathToken.root :: t :: r).map tokenString = ['$'] :: tokenString t :: r.map tokenString from rfl]
      unfold matchesPath pathWeight
      rw [decide_eq_true_eq, if_pos (by simp)]
      simp only [weightFold, matchesToken, if_true]
      by_cases hh : tokenString t = n
      · simp only [hh, if_true]
        decide
      · simp only [hh, if_false]
        decide
    rw [hm]
    constructor
    · intro hh
      cases t with
      | root => exact absurd (List.mem_cons_self ..) hr
      | field m => exact ⟨r, by rw [show m = n from hh]⟩
      | index i =>
        exfalso
        have h1 := parseUsize_natStr (hi i (List.mem_cons_self ..))
        rw [show natStr i = n from hh, h.2.2.2] at h1
        cases h1
      | star => exact absurd hh.symm h.2.1
      | starIndex => exact absurd hh.symm h.2.2.1
    · rintro ⟨r', hh⟩
      cases hh
      rfl

theorem foldl_push (ts us : List PathToken) : us.foldl push (fromTokens ts) = fromTokens (ts ++ us) := by
  induction us generalizing ts with
  | nil => simp
  | cons t us ih => rw [List.foldl_cons, PatternProps.fromTokens_snoc, ih]; simp

theorem upsert_new {β : Type} (m : List (DocPath × β)) (p : DocPath) (v : β) (h : ∀ e ∈ m, e.1.expr ≠ p.expr) :
    upsert m p v (fun _ => v) = m ++ [(p, v)] := by
  induction m with
  | nil => rfl
  | cons x xs ih =>
    have hx : keyIs p x = false := by
      have := h x (List.mem_cons_self ..)
      cases hk : keyIs p x with
      | false => rfl
      | true => exact absurd ((keyIs_iff p x).mp hk) this
    unfold upsert
    rw [hx, if_neg (by decide), ih (fun e he => h e (List.mem_cons_of_mem _ he))]
    rfl

theorem foldl_upsert {α β : Type} (f : α → DocPath) (g : α → β) : ∀ (l : List α) (m : List (DocPath × β)),
    (l.map (fun x => (f x).expr)).Nodup → (∀ x ∈ l, ∀ e ∈ m, e.1.expr ≠ (f x).expr) →
    l.foldl (fun m x => upsert m (f x) (g x) (fun _ => g x)) m = m ++ l.map (fun x => (f x, g x))
  | [], m, _, _ => by simp
  | x :: xs, m, hn, hd => by
    rw [List.foldl_cons, upsert_new m (f x) (g x) (hd x (List.mem_cons_self ..))]
    rw [List.map_cons, List.nodup_cons] at hn
    rw [foldl_upsert f g xs _ hn.2]
    · simp
    · intro y hy e he
      rw [List.mem_append, List.mem_singleton] at he
      rcases he with he | rfl
      · exact hd y (List.mem_cons_of_mem _ hy) e he
      · intro hh
        exact hn.1 (List.mem_map.mpr ⟨y, hy, hh.symm⟩)


/-- The rules for the contents of a file are the rules below the part. -/
theorem partRules_relative {n : Str} (h : PlainName n) (c : RuleCategory) (ht : Table c.rules) :
    partRules (pushField rootPath n) c = ⟨c.name, relative n c.rules⟩ := by
  have hbelow : ∀ e ∈ c.rules, matchesPath (pushField rootPath n).tokens (toVec e.1) = true ↔ ∃ r, e.1.tokens = .root :: .field n :: r := by
    intro e he
    obtain ⟨rest, h1, h2, h3⟩ := ht.rooted e he
    have := below_iff h h2 h3
    rw [← h1] at this
    rw [show matchesPath (pushField rootPath n).tokens (toVec e.1) = true ↔ _ from this, h1]
    constructor
    · rintro ⟨r, rfl⟩; exact ⟨r, rfl⟩
    · rintro ⟨r, hh⟩; cases hh; exact ⟨r, rfl⟩
  have hchild : ∀ e : DocPath × RuleList, childPath e.1 (pushField rootPath n).tokens.length = fromTokens (.root :: e.1.tokens.drop 2) := by
    intro e
    unfold childPath
    rw [PatternProps.rootPath_tokens, foldl_push]
    rfl
  unfold partRules
  congr 1
  rw [foldl_upsert (fun e => childPath e.1 (pushField rootPath n).tokens.length) (fun e : DocPath × RuleList => e.2)]
  · rw [List.nil_append]
    unfold relative
    have : ∀ l : List (DocPath × RuleList), (∀ e ∈ l, e ∈ c.rules) →
        (l.filter (fun e => matchesPath (pushField rootPath n).tokens (toVec e.1))).map
          (fun x => (childPath x.1 (pushField rootPath n).tokens.length, x.2)) =
        l.filterMap fun e => match e.1.tokens with
          | .root :: .field m :: rest => if m = n then some (fromTokens (.root :: rest), e.2) else none
          | _ => none := by
      intro l
      induction l with
      | nil => intro _; rfl
      | cons x xs ih =>
        intro hl
        have hx := hbelow x (hl x (List.mem_cons_self ..))
        have ih' := ih (fun e he => hl e (List.mem_cons_of_mem _ he))
        by_cases hm : matchesPath (pushField rootPath n).tokens (toVec x.1) = true
        · rw [List.filter_cons_of_pos (p := fun e : DocPath × RuleList => matchesPath (pushField rootPath n).tokens (toVec e.1)) hm, List.map_cons, ih', hchild]
          obtain ⟨r, hr⟩ := hx.mp hm
          rw [List.filterMap_cons_some (b := (fromTokens (.root :: r), x.2))]
          · rw [hr]; rfl
          · rw [hr]; simp
        · rw [List.filter_cons_of_neg (p := fun e : DocPath × RuleList => matchesPath (pushField rootPath n).tokens (toVec e.1)) hm, ih', List.filterMap_cons_none]
          split
          · rename_i m rest hr
            rw [if_neg]
            rintro rfl
            exact hm (hx.mpr ⟨rest, hr⟩)
          · rfl
    exact this c.rules (fun _ he => he)
  · have hsub := List.filter_sublist (p := fun e : DocPath × RuleList => matchesPath (pushField rootPath n).tokens (toVec e.1)) (l := c.rules)
    have hnd := (hsub.map (fun e => e.1.tokens)).nodup ht.distinct
    have hall : ∀ e ∈ c.rules.filter (fun e => matchesPath (pushField rootPath n).tokens (toVec e.1)), ∃ r, e.1.tokens = .root :: .field n :: r := by
      intro e he
      rw [List.mem_filter] at he
      exact (hbelow e he.1).mp he.2
    generalize c.rules.filter (fun e => matchesPath (pushField rootPath n).tokens (toVec e.1)) = l at hnd hall
    induction l with
    | nil => exact List.nodup_nil
    | cons x xs ih =>
      rw [List.map_cons, List.nodup_cons] at hnd ⊢
      refine ⟨?_, ih hnd.2 (fun e he => hall e (List.mem_cons_of_mem _ he))⟩
      intro hmem
      rw [List.mem_map] at hmem
      obtain ⟨y, hy, hxy⟩ := hmem
      rw [hchild, hchild] at hxy
      have := PatternProps.fromTokens_inj hxy
      obtain ⟨r, hr⟩ := hall x (List.mem_cons_self ..)
      obtain ⟨r', hr'⟩ := hall y (List.mem_cons_of_mem _ hy)
      rw [hr, hr'] at this
      apply hnd.1
      rw [List.mem_map]
      exact ⟨y, hy, by rw [hr, hr']; simpa using this⟩
  · intro x _ e he
    cases he

theorem core_partEnv (env : Env) (be : BodyEnv) {ct : ContentType} (h : ct.main ≠ "multipart".toList) (e a : Option Bytes) (ctx : Ctx) :
    compareBodiesCore env (partEnv be) ct e a ctx = compareBodiesCore env be ct e a ctx := by
  unfold compareBodiesCore
  simp only [if_neg h]
  rfl

/-- The body of a request or response that consists of one part. -/
def alone (p : MimePart) (b : Bytes) : Part := ⟨none, .present b (some (typeOf p))⟩

/-- A file is compared as if it were a body of its own, with the rules below its name, the paths relative to it. -/
theorem C114_file_partial (env : Env) (uc : UC) (be : BodyEnv) (mp : MPEnv) (e a : MimePart) (ctx hctx : Ctx) (hh : NoRules hctx)
    (hn : PlainName e.name) (ht : Table ctx.cat.rules) (he : e.kind = .file) (ha : a.kind = .file)
    (hm : (typeOf e).main ≠ "multipart".toList) (b c : Bytes) (hb : Contents uc e b) (hc : Contents uc a c) :
    matchPart env uc be mp e a ctx = [] ↔
      matchPartHeaders env uc (partPath e) e.headers a.headers ctx = [] ∧
      matchBody env uc be (alone e b) (alone a c) ⟨⟨ctx.cat.name, relative e.name ctx.cat.rules⟩, ctx.config⟩ hctx = .ok := by
  rw [decodeData_iff] at hb hc
  unfold matchPart
  rw [he, ha]
  simp only [matchFile, List.append_eq_nil_iff]
  apply and_congr_right
  intro _
  unfold matchContents matchBody
  have h1 : contentTypeD uc be (alone e b) = typeOf e := rfl
  have h2 : contentTypeD uc be (alone a c) = typeOf a := rfl
  have h3 : typesAgree env uc (typeOf e) (typeOf a) hctx = typesFit (typeOf e) (typeOf a) := by
    have := C27_comparable_no_rule env uc be (alone e b) (alone a c) hctx hh
    unfold Comparable at this
    rw [h1, h2] at this
    have h4 := typesFit_iff (typeOf e) (typeOf a)
    unfold TypesFit at h4
    rw [← h4] at this
    exact Bool.eq_iff_iff.mpr this
  simp only [h1, h2, h3]
  show (if typesFit (typeOf e) (typeOf a) = true then _ else _) = [] ↔ _
  by_cases hf : typesFit (typeOf e) (typeOf a) = true
  · rw [if_pos hf, if_pos hf]
    show compareBodiesCore env (partEnv be) (typeOf e) _ _ _ = [] ↔ compareBodies env be (typeOf e) (some b) (some c) _ = .ok
    rw [core_partEnv env be hm, partPath_plain hn, partRules_relative hn ctx.cat ht, core_iff, ← hb, ← hc]
    rfl
  · rw [if_neg hf, if_neg hf]
    simp [alone, Body.isPresent]

/-- The rules of other parts do not matter for the contents of a file. -/
theorem C114_locality_partial (env : Env) (uc : UC) (be : BodyEnv) (e a : MimePart) (ctx ctx' : Ctx)
    (hn : PlainName e.name) (ht : Table ctx.cat.rules) (ht' : Table ctx'.cat.rules) (hc : ctx.config = ctx'.config)
    (hcat : ctx.cat.name = ctx'.cat.name) (hr : relative e.name ctx.cat.rules = relative e.name ctx'.cat.rules) :
    matchContents env uc be e a ctx = matchContents env uc be e a ctx' := by
  unfold matchContents
  simp only
  rw [partPath_plain hn, partRules_relative hn ctx.cat ht, partRules_relative hn ctx'.cat ht', hr, hcat]
  unfold cloneWith
  rw [hc]

/-- All rules (`and`) or one of the rules (`or`) of a list that is not empty accept the text. -/
def Satisfies (env : Env) (rl : RuleList) (e a : Str) : Prop :=
  rl.rules ≠ [] ∧ match rl.logic with
    | .and => ∀ r ∈ rl.rules, strMatches env e a r false = true
    | .or => ∃ r ∈ rl.rules, strMatches env e a r false = true

theorem specificity_short {ts us : List PathToken} (h : ts.length < us.length) (hu : ∀ t ∈ us, isExact t = true) : specificity ts < specificity us := by
  unfold specificity
  have h1 : us.countP isExact = us.length := List.countP_eq_length.mpr hu
  rw [h1]
  have h2 : ts.countP isExact ≤ ts.length := List.countP_le_length
  have h3 : 2 ^ ts.countP isExact ≤ 2 ^ us.length := Nat.pow_le_pow_right (by decide) (by omega)
  have h4 : 0 < 2 ^ us.length := Nat.pow_pos (by decide)
  calc 2 ^ ts.countP isExact * ts.length ≤ 2 ^ us.length * ts.length := Nat.mul_le_mul_right _ h3
    _ < 2 ^ us.length * us.length := Nat.mul_lt_mul_of_pos_left h h4

/-- The rule list at exactly the path of a value is the one that is used. -/
theorem best_exact (c : RuleCategory) (path : List Str) (hc : c.name = .body) (hs : ShortPaths c) {e : DocPath × RuleList}
    (he : e ∈ c.rules) (hp : PrefixMatches e.1.tokens path) (hx : ∀ t ∈ e.1.tokens, isExact t = true)
    (hl : e.1.tokens.length = path.length)
    (hu : ∀ d ∈ c.rules, d.1.tokens.length = path.length → PrefixMatches d.1.tokens path → d = e) :
    selectBestMatcher c path = ⟨e.2.rules, e.2.logic, false⟩ := by
  rcases C05_selection_maximal_partial c path (.inl hc) hs with ⟨h, _⟩ | ⟨d, ⟨hd, hdp, hmax⟩, hsel⟩
  · exact absurd hp (h e he)
  · have hde : d = e := by
      apply hu d hd _ hdp
      have h1 := hmax e he hp
      have h2 := hdp.1
      apply Classical.byContradiction
      intro hne
      have h3 : d.1.tokens.length < e.1.tokens.length := by omega
      have := specificity_short h3 hx
      omega
    subst hde
    rw [hsel, hl]
    simp

theorem defined_exact (c : RuleCategory) (path : List Str) (hc : c.name = .body) (hs : ShortPaths c) {e : DocPath × RuleList}
    (he : e ∈ c.rules) (hp : PrefixMatches e.1.tokens path) : matcherIsDefined c path = true := by
  unfold matcherIsDefined resolveMatchersForPath
  rw [hc]
  simp only [filterCat]
  rw [Bool.not_eq_true', List.isEmpty_eq_false_iff]
  exact List.ne_nil_of_mem (List.mem_filter.mpr ⟨he, (matches_iff path (hs e he)).mpr hp⟩)

theorem values_iff (env : Env) (e a : Str) (rl : RuleList) (p : DocPath) :
    ruleErrors env p e a ⟨rl.rules, rl.logic, false⟩ = [] ↔ Satisfies env rl e a := by
  unfold ruleErrors
  have h := MatcherProps.matchValues_ok_iff (strMatches env e a) ⟨rl.rules, rl.logic, false⟩
  refine Iff.trans ?_ h
  cases hv : matchValues (strMatches env e a) ⟨rl.rules, rl.logic, false⟩ with
  | ok u => simp
  | error ms =>
    have hne : ms ≠ [] := by
      rintro rfl
      exact (MatcherProps.C10_errors _ _ _ hv).1 rfl
    simp [hne]

/-- A field with a rule list for its name is accepted exactly if its text satisfies the list. -/
theorem C114_field_partial (env : Env) (uc : UC) (be : BodyEnv) (mp : MPEnv) (e a : MimePart) (ctx : Ctx) (hc : ctx.cat.name = .body)
    (hs : ShortPaths ctx.cat) (hn : PlainName e.name) (he : e.kind = .field) (ha : a.kind = .field)
    (p : DocPath) (rl : RuleList) (hp : (p, rl) ∈ ctx.cat.rules) (hpt : p.tokens = [.root, .field e.name])
    (hu : ∀ d ∈ ctx.cat.rules, d.1.tokens.length = 2 → PrefixMatches d.1.tokens [['$'], e.name] → d = (p, rl))
    (b c : Bytes) (hb : Contents uc e b) (hcc : Contents uc a c) :
    matchPart env uc be mp e a ctx = [] ↔
      matchPartHeaders env uc (partPath e) e.headers a.headers ctx = [] ∧ Satisfies env rl (mp.lossy b) (mp.lossy c) := by
  rw [decodeData_iff] at hb hcc
  have hpm : PrefixMatches p.tokens [['$'], e.name] := by
    rw [hpt]
    refine ⟨by simp, ?_⟩
    intro i t f h1 h2
    match i with
    | 0 => cases h1; cases h2; exact .root
    | 1 => cases h1; cases h2; exact .field _
    | i + 2 => simp at h1
  unfold matchPart
  rw [he, ha]
  simp only [matchField, List.append_eq_nil_iff]
  apply and_congr_right
  intro _
  unfold Multipart.matchText
  have h1 : isDefined ctx (partPath e) = true := by
    rw [partPath_plain hn]
    exact defined_exact ctx.cat [['$'], e.name] hc hs hp hpm
  have h2 : best ctx (partPath e) = ⟨rl.rules, rl.logic, false⟩ := by
    rw [partPath_plain hn]
    refine best_exact ctx.cat [['$'], e.name] hc hs hp hpm ?_ (by rw [hpt]; rfl) (fun d hd hl => hu d hd hl)
    rw [hpt]
    intro t ht
    simp only [List.mem_cons, List.not_mem_nil, or_false] at ht
    rcases ht with rfl | rfl <;> rfl
  rw [if_pos h1, h2, values_iff, hb, hcc]

/-! ### C115: rules for the headers of parts -/

/-- A rule list is for a header of a part; the path is compared in lower case with the name of the part as it is. -/
def Governs (uc : UC) (n k : Str) (d : DocPath × RuleList) : Prop :=
  d.1.tokens.length = 3 ∧ PrefixMatches (toLowerCase uc d.1).tokens [['$'], n, k]

/-- The headers of a part are accepted: a header that has a rule list satisfies it, the others as without rules. -/
def HeadersAccept (env : Env) (uc : UC) (ctx : Ctx) (e a : MimePart) : Prop :=
  ∀ k v, (k, v) ∈ e.headers →
    (∀ w, Json.lookup k a.headers = some w →
      (∀ d ∈ ctx.cat.rules, Governs uc e.name k d → Satisfies env d.2 v w) ∧
      ((∀ d ∈ ctx.cat.rules, ¬ Governs uc e.name k d) → k = "content-disposition".toList ∨ w = v)) ∧
    (Json.lookup k a.headers = none →
      k = "content-type".toList ∨ k = "content-disposition".toList ∨ k = "content-transfer-encoding".toList)

theorem lowerCat_map (uc : UC) (c : RuleCategory) (h : (c.rules.map (fun e => uc.lower e.1.expr)).Nodup) :
    lowerCat uc c = ⟨c.name, c.rules.map (fun e => (toLowerCase uc e.1, e.2))⟩ := by
  unfold lowerCat
  congr 1
  rw [foldl_upsert (fun e : DocPath × RuleList => toLowerCase uc e.1) (fun e : DocPath × RuleList => e.2)]
  · rfl
  · exact h
  · intro _ _ e he
    cases he

theorem lower_length (uc : UC) (p : DocPath) : (toLowerCase uc p).tokens.length = p.tokens.length := by
  unfold toLowerCase
  simp

theorem direct_iff {uc : UC} {ctx : Ctx} (hc : ctx.cat.name = .body) (hs : ShortPaths ctx.cat)
    (hd : (ctx.cat.rules.map (fun e => uc.lower e.1.expr)).Nodup) {n k : Str} (hn : PlainName n) (hk : PlainName k) :
    directMatcherDefined (lowerCtx uc ctx) (join (pushField rootPath n) k) [] = true ↔ ∃ d ∈ ctx.cat.rules, Governs uc n k d := by
  unfold directMatcherDefined exactMatchers lowerCtx
  rw [lowerCat_map uc ctx.cat hd, hc]
  simp only [List.isEmpty_nil, if_true, filterCat]
  rw [join_plain hk, Bool.not_eq_true', List.isEmpty_eq_false_iff]
  have hv : toVec (pushField (pushField rootPath n) k) = [['$'], n, k] := rfl
  rw [hv]
  constructor
  · intro h
    obtain ⟨x, hx⟩ := List.exists_mem_of_ne_nil _ h
    rw [List.mem_filter, List.mem_map] at hx
    obtain ⟨⟨d, hd1, rfl⟩, hx2⟩ := hx
    unfold matchesPathExactly at hx2
    rw [Bool.and_eq_true, decide_eq_true_eq, lower_length] at hx2
    exact ⟨d, hd1, hx2.1, (matches_iff _ (by rw [lower_length]; exact hs d hd1)).mp hx2.2⟩
  · rintro ⟨d, hd1, hd2, hd3⟩
    refine List.ne_nil_of_mem (a := (toLowerCase uc d.1, d.2)) ?_
    rw [List.mem_filter, List.mem_map]
    refine ⟨⟨d, hd1, rfl⟩, ?_⟩
    unfold matchesPathExactly
    rw [Bool.and_eq_true, decide_eq_true_eq, lower_length]
    exact ⟨hd2, (matches_iff _ (by rw [lower_length]; exact hs d hd1)).mpr hd3⟩

/-- The headers of a part, when no two paths differ in case only and there is at most one rule list for each header,
with a path without wildcards. -/
theorem C115_headers_partial (env : Env) (uc : UC) (e a : MimePart) (ctx : Ctx) (hc : ctx.cat.name = .body)
    (hs : ShortPaths ctx.cat) (hd : (ctx.cat.rules.map (fun e => uc.lower e.1.expr)).Nodup) (hn : PlainName e.name)
    (hk : ∀ kv ∈ e.headers, PlainName kv.1)
    (hu : ∀ kv ∈ e.headers, ∀ d ∈ ctx.cat.rules, Governs uc e.name kv.1 d → (∀ t ∈ d.1.tokens, isExact t = true) ∧
      ∀ d' ∈ ctx.cat.rules, Governs uc e.name kv.1 d' → d' = d) :
    matchPartHeaders env uc (partPath e) e.headers a.headers ctx = [] ↔ HeadersAccept env uc ctx e a := by
  unfold matchPartHeaders HeadersAccept
  rw [List.flatMap_eq_nil_iff]
  have hone : ∀ kv ∈ e.headers, matchOneHeader env (lowerCtx uc ctx) (partPath e) a.headers kv = [] ↔
      (∀ w, Json.lookup kv.1 a.headers = some w →
        (∀ d ∈ ctx.cat.rules, Governs uc e.name kv.1 d → Satisfies env d.2 kv.2 w) ∧
        ((∀ d ∈ ctx.cat.rules, ¬ Governs uc e.name kv.1 d) → kv.1 = "content-disposition".toList ∨ w = kv.2)) ∧
      (Json.lookup kv.1 a.headers = none →
        kv.1 = "content-type".toList ∨ kv.1 = "content-disposition".toList ∨ kv.1 = "content-transfer-encoding".toList) := by
    intro kv hkv
    unfold matchOneHeader
    simp only
    cases hl : Json.lookup kv.1 a.headers with
    | none =>
      simp only [reduceCtorEq, false_implies, implies_true, true_and, forall_const]
      by_cases hcc : optionalHeaders.contains kv.1 = true
      · rw [if_pos hcc]
        have : kv.1 ∈ optionalHeaders := by simpa using hcc
        simpa [optionalHeaders] using this
      · rw [if_neg hcc]
        simp only [List.cons_ne_nil, false_iff]
        intro hh
        apply hcc
        have : kv.1 ∈ optionalHeaders := by simpa [optionalHeaders] using hh
        simpa using this
    | some w =>
      simp only [Option.some.injEq, reduceCtorEq, false_implies, and_true, forall_eq']
      unfold matchPresent
      have hdir := direct_iff (uc := uc) (ctx := ctx) hc hs hd hn (hk kv hkv)
      rw [partPath_plain hn]
      by_cases hg : ∃ d ∈ ctx.cat.rules, Governs uc e.name kv.1 d
      · rw [if_pos (hdir.mpr hg)]
        obtain ⟨d, hd1, hd2⟩ := hg
        obtain ⟨hex, huq⟩ := hu kv hkv d hd1 hd2
        have hbest : best (lowerCtx uc ctx) (join (pushField rootPath e.name) kv.1) = ⟨d.2.rules, d.2.logic, false⟩ := by
          unfold best
          rw [join_plain (hk kv hkv)]
          unfold lowerCtx
          rw [lowerCat_map uc ctx.cat hd]
          refine best_exact (e := (toLowerCase uc d.1, d.2)) ⟨ctx.cat.name, ctx.cat.rules.map (fun e => (toLowerCase uc e.1, e.2))⟩ [['$'], e.name, kv.1] hc ?_ (List.mem_map.mpr ⟨d, hd1, rfl⟩) hd2.2 ?_ ?_ ?_
          · intro x hx
            obtain ⟨y, hy, rfl⟩ := List.mem_map.mp hx
            rw [lower_length]
            exact hs y hy
          · intro t ht
            unfold toLowerCase at ht
            obtain ⟨u, hu1, rfl⟩ := List.mem_map.mp ht
            have := hex u hu1
            cases u <;> first | exact this | rfl
          · rw [lower_length, hd2.1]
            rfl
          · intro x hx hxl hxp
            obtain ⟨y, hy, rfl⟩ := List.mem_map.mp hx
            have := huq y hy ⟨by rw [← lower_length uc y.1]; exact hxl, hxp⟩
            rw [this]
        rw [hbest, values_iff]
        constructor
        · intro hh
          refine ⟨?_, fun hno => absurd hd2 (hno d hd1)⟩
          intro d' hd1' hd2'
          rw [huq d' hd1' hd2']
          exact hh
        · intro hh
          exact hh.1 d hd1 hd2
      · rw [if_neg (fun hh => hg (hdir.mp hh))]
        have hno : ∀ d ∈ ctx.cat.rules, ¬ Governs uc e.name kv.1 d := fun d h1 h2 => hg ⟨d, h1, h2⟩
        have hall : ∀ d ∈ ctx.cat.rules, Governs uc e.name kv.1 d → Satisfies env d.2 kv.2 w := fun d h1 h2 => absurd h2 (hno d h1)
        by_cases hdd : kv.1 = "content-disposition".toList
        · rw [if_pos hdd]
          exact ⟨fun _ => ⟨hall, fun _ => .inl hdd⟩, fun _ => rfl⟩
        · rw [if_neg hdd]
          by_cases hss : strMatches env kv.2 w .equality false = true
          · rw [if_pos hss]
            exact ⟨fun _ => ⟨hall, fun _ => .inr ((strEq env kv.2 w).mp hss)⟩, fun _ => rfl⟩
          · rw [if_neg hss]
            simp only [List.cons_ne_nil, false_iff]
            rintro ⟨_, hh⟩
            rcases hh hno with hh | hh
            · exact hdd hh
            · exact hss ((strEq env kv.2 w).mpr hh)
  constructor
  · intro hh k v hkv
    exact (hone (k, v) hkv).mp (hh _ hkv)
  · intro hh kv hkv
    exact (hone kv hkv).mpr (hh kv.1 kv.2 hkv)

/-- The rules for the headers of a part whose name is not in lower case are ignored. -/
theorem C115_upper_case_name_fails (env : Env) (uc : UC) (e a : MimePart) (ctx : Ctx) (hc : ctx.cat.name = .body)
    (hs : ShortPaths ctx.cat) (hd : (ctx.cat.rules.map (fun e => uc.lower e.1.expr)).Nodup) (hn : PlainName e.name)
    (hk : ∀ kv ∈ e.headers, PlainName kv.1) (hup : ∀ s, uc.lower s ≠ e.name)
    (hf : ∀ d ∈ ctx.cat.rules, d.1.tokens.length = 3 → ∃ t n u, d.1.tokens = [t, .field n, u]) :
    matchPartHeaders env uc (partPath e) e.headers a.headers ctx = [] ↔ HeadersFit e a := by
  have hno : ∀ k, ∀ d ∈ ctx.cat.rules, ¬ Governs uc e.name k d := by
    rintro k d hd1 ⟨hl, hp⟩
    obtain ⟨t, n, u, ht⟩ := hf d hd1 hl
    have h1 : (toLowerCase uc d.1).tokens[1]? = some (.field (uc.lower n)) := by
      unfold toLowerCase
      rw [ht]
      rfl
    have h2 := hp.2 1 _ e.name h1 rfl
    generalize hx : uc.lower n = x at h2
    cases h2
    exact hup n hx
  rw [C115_headers_partial env uc e a ctx hc hs hd hn hk (fun kv _ d hd1 hg => absurd hg (hno kv.1 d hd1))]
  unfold HeadersAccept HeadersFit
  constructor
  · intro h k v hkv
    obtain ⟨h1, h2⟩ := h k v hkv
    exact ⟨fun w hw => (h1 w hw).2 (hno k), h2⟩
  · intro h k v hkv
    obtain ⟨h1, h2⟩ := h k v hkv
    exact ⟨fun w hw => ⟨fun d hd1 hg => absurd hg (hno k d hd1), fun _ => h1 w hw⟩, h2⟩

/-! ### Examples -/

namespace Example

def field (i : Nat) (n : String) (v : Bytes) : MimePart :=
  ⟨.field, i, n.toList, none, v, [("content-disposition".toList, ("form-data; name=" ++ n).toList)]⟩

def jsonType : ContentType := ⟨"application".toList, "json".toList, [], none⟩

def file (i : Nat) (n : String) (v : Bytes) (extra : List (Str × Str)) : MimePart :=
  ⟨.file, i, n.toList, some jsonType, v, ("content-type".toList, "application/json".toList) :: extra⟩

/-- The body `[k]` stands for a list of parts. -/
def bodies : Nat → Option (List MimePart)
  | 1 => some [field 0 "age" [49], file 1 "doc" [49] [("x-part".toList, "one".toList)]]
  | 2 => some [file 0 "doc" [49] [("x-part".toList, "one".toList)], field 1 "age" [49], field 2 "more" [50]]
  | 3 => some [field 0 "age" [49], field 1 "age" [50]]
  | 4 => some [field 0 "age" [55], file 1 "doc" [49] [("x-part".toList, "two".toList)]]
  | 5 => some [file 0 "doc" [49] [("x-part".toList, "one".toList)], field 1 "age" [49]]
  | 6 => some [⟨.field, 0, "age".toList, none, "MQ==".toList.map (fun c => UInt8.ofNat c.toNat),
      [("content-transfer-encoding".toList, "BASE64".toList)]⟩, file 1 "doc" [49] [("x-part".toList, "one".toList)]]
  | 7 => some [file 0 "Doc" [49] [("x-part".toList, "one".toList)]]
  | 8 => some [file 0 "Doc" [49] [("x-part".toList, "two".toList)]]
  | 9 => some [⟨.file, 0, [], none, [49], []⟩]
  | 10 => some [⟨.file, 0, [], none, [50], []⟩]
  | 11 => some [file 0 "doc" [50] [("x-part".toList, "two".toList)]]
  | 12 => some [file 0 "doc" [49] [("x-part".toList, "one".toList)]]
  | _ => none

def mp : MPEnv where
  parse := fun hs b => if hs.isSome then (match b with | [k] => bodies k.toNat | _ => none) else none
  lossy := fun b => b.map fun x => Char.ofNat x.toNat

def be : BodyEnv := { simpleBody with json := fun b => if b = [49] then some (.num (.pos 1)) else if b = [50] then some (.num (.pos 2)) else none }

theorem be_wf : ∀ b j, be.json b = some j → j.WF := by
  intro b j h
  simp only [be] at h
  split at h
  · simp only [Option.some.injEq] at h; subst h; simp [Json.WF]
  · split at h
    · simp only [Option.some.injEq] at h; subst h; simp [Json.WF]
    · simp at h

def hs : Option HeaderMap := hdr "multipart/form-data"
def run (e a : UInt8) (rules : List (DocPath × RuleList)) : List Mismatch :=
  matchMultipart Env.simple UC.ascii be mp hs hs [e] [a] ⟨⟨.body, rules⟩, .noUnexpectedKeys⟩

set_option maxRecDepth 100000

-- without rules: itself, other order with an additional part, base64
example : run 1 1 [] = [] ∧ run 1 2 [] = [] ∧ run 1 5 [] = [] ∧ run 1 6 [] = [] ∧ run 6 1 [] = [] := by decide +kernel
-- a repeated name
example : run 3 3 [] = [⟨fromTokens [.root, .field "age".toList], .value⟩] := by decide +kernel
-- the missing part
example : run 2 1 [] = [⟨rootPath, .missingEntry⟩] := by decide +kernel
-- an expected part without a name accepts an actual part without a name at its position only
example : run 9 9 [] = [] ∧ run 9 10 [] ≠ [] ∧ run 9 12 [] = [⟨rootPath, .missingEntry⟩] := by decide +kernel
-- an actual part without a name at the position of an expected part with a name stands for it
example : run 12 9 [] ≠ [⟨rootPath, .missingEntry⟩] := by decide +kernel
-- a body without a boundary
example : matchMultipart Env.simple UC.ascii be mp none hs [1] [1] ⟨⟨.body, []⟩, .noUnexpectedKeys⟩ = [⟨rootPath, .unparsable⟩] := by decide +kernel

def atPath (ts : List String) : DocPath := fromTokens (.root :: ts.map fun s => .field s.toList)
def typeRule : RuleList := ⟨[.type], .and, false⟩
def rulesOf (ps : List (List String)) : List (DocPath × RuleList) := ps.map fun p => (atPath p, typeRule)

-- rules for a field and a header of a part
example : run 1 4 [] ≠ [] ∧ run 1 4 (rulesOf [["age"]]) ≠ [] ∧ run 1 4 (rulesOf [["age"], ["doc", "x-part"]]) = [] := by decide +kernel
-- rules for the contents of a file: the path is the one of the part
example : run 12 11 (rulesOf [["doc"], ["doc", "x-part"]]) = [] := by decide +kernel
-- the paths of the mismatches in a file are relative to the file
example : run 12 11 (rulesOf [["doc", "x-part"]]) = [⟨rootPath, .value⟩] := by decide +kernel
-- the rules for the headers of a part with an upper case letter in its name are not used
example : run 7 8 (rulesOf [["Doc", "x-part"]]) ≠ [] := by decide +kernel

example : matchPart Env.simple UC.ascii be mp ⟨.file, 0, "x".toList, some ⟨"multipart".toList, "mixed".toList, [], none⟩, [], []⟩
    ⟨.file, 0, "x".toList, some ⟨"multipart".toList, "mixed".toList, [], none⟩, [], []⟩ ⟨⟨.body, []⟩, .noUnexpectedKeys⟩ ≠ [] := by
  decide +kernel

theorem plain_doc : PlainName "doc".toList ∧ PlainName "age".toList ∧ PlainName "x-part".toList ∧ PlainName "content-type".toList := by
  unfold PlainName; decide +kernel

theorem plainFiles : ∀ es, mp.parse hs [1] = some es → PlainFiles es := by
  intro es h
  have : mp.parse hs [1] = some [field 0 "age" [49], file 1 "doc" [49] [("x-part".toList, "one".toList)]] := by decide +kernel
  rw [this] at h
  cases h
  unfold PlainFiles
  decide +kernel

/-- The hypotheses of `C112_request` hold for a request whose body is `[1]`. -/
def req (b : Bytes) : Request := ⟨"POST".toList, "/up".toList, none, ⟨hs, .present b none⟩, []⟩
example : (req [1]).rules = [] ∧ NodupKeys ((req [1]).query.getD []) ∧ CaseNodup UC.ascii ((req [1]).part.headers.getD []) ∧
    (contentTypeD UC.ascii be (req [1]).part).main = "multipart".toList := by
  refine ⟨rfl, by simp [NodupKeys, req], by simp [CaseNodup, req, hs, hdr], by decide +kernel⟩
example : (matchRequestMP Env.simple UC.ascii be mp (req [1]) (req [2])).allMatched = true ∧
    (matchRequestMP Env.simple UC.ascii be mp (req [2]) (req [1])).allMatched = false := by decide +kernel
example : matchResponseMP Env.simple UC.ascii be mp ⟨200, ⟨hs, .present [1] none⟩, []⟩ ⟨200, ⟨hs, .present [2] none⟩, []⟩ = [] := by decide +kernel

/-- The hypotheses of `C113_self_partial`. -/
theorem distinct_one : DistinctParts [field 0 "age" [49], file 1 "doc" [49] [("x-part".toList, "one".toList)]] := by
  unfold DistinctParts; decide +kernel

/-- The hypotheses of `C113_repeated_fails`. -/
example : ∃ es x y b c, mp.parse hs [3] = some es ∧ (∀ z ∈ es, z.name ≠ []) ∧ x ∈ es ∧ y ∈ es ∧ x.kind = .field ∧ y.kind = .field ∧
    x.name = y.name ∧ Contents UC.ascii x b ∧ Contents UC.ascii y c ∧ mp.lossy b ≠ mp.lossy c := by
  refine ⟨[field 0 "age" [49], field 1 "age" [50]], field 0 "age" [49], field 1 "age" [50], [49], [50], by decide +kernel, by decide +kernel,
    by decide +kernel, by decide +kernel, rfl, rfl, rfl, ?_, ?_, by decide +kernel⟩
  · rw [decodeData_iff]; decide +kernel
  · rw [decodeData_iff]; decide +kernel

/-- The hypotheses of `C113_order_partial`. -/
example : SameParts [field 0 "age" [49], file 1 "doc" [49] [("x-part".toList, "one".toList)]]
    [file 0 "doc" [49] [("x-part".toList, "one".toList)], field 1 "age" [49]] := by
  unfold SameParts
  decide +kernel

/-- The hypotheses of the theorems on rules. -/
theorem table_ex : Table (rulesOf [["age"], ["doc", "x-part"]]) := by
  refine ⟨?_, by decide +kernel⟩
  intro e he
  simp only [rulesOf, List.map_cons, List.map_nil, List.mem_cons, List.not_mem_nil, or_false] at he
  rcases he with rfl | rfl
  · exact ⟨[.field "age".toList], rfl, by simp, by simp⟩
  · exact ⟨[.field "doc".toList, .field "x-part".toList], rfl, by simp, by simp⟩

example : ShortPaths ⟨.body, rulesOf [["age"], ["doc", "x-part"]]⟩ ∧
    ((rulesOf [["age"], ["doc", "x-part"]]).map (fun e => UC.ascii.lower e.1.expr)).Nodup := by
  refine ⟨?_, by decide +kernel⟩
  unfold ShortPaths
  decide +kernel

example : Governs UC.ascii "doc".toList "x-part".toList (atPath ["doc", "x-part"], typeRule) ∧
    ¬ Governs UC.ascii "Doc".toList "x-part".toList (atPath ["Doc", "x-part"], typeRule) := by
  have hl : ∀ s : String, (atPath [s, "x-part"]).tokens.length ≤ 58 := fun _ => by
    show 3 ≤ 58
    decide
  have hl' : ∀ s : String, (toLowerCase UC.ascii (atPath [s, "x-part"])).tokens.length ≤ 58 := fun s => by
    rw [lower_length]; exact hl s
  unfold Governs
  rw [← matches_iff _ (hl' "doc"), ← matches_iff _ (hl' "Doc")]
  decide +kernel

/-- No text is changed to one with upper case letters. -/
theorem not_lower (s : Str) : UC.ascii.lower s ≠ "Doc".toList := by
  intro h
  have h1 : (UC.ascii.lower s).head? = some 'D' := by rw [h]; rfl
  cases s with
  | nil => cases h1
  | cons c cs =>
    have h2 : (UC.ascii.lower (c :: cs)).head? = some c.toLower := rfl
    rw [h2] at h1
    have h3 : c.toLower = 'D' := Option.some.inj h1
    have h4 : c.toLower.toNat = 68 := by rw [h3]; rfl
    unfold Char.toLower at h4
    split at h4
    · rename_i hc
      have ha : (65 : UInt32).toNat ≤ c.val.toNat := UInt32.le_iff_toNat_le.mp hc.1
      have hb : c.val.toNat ≤ (90 : UInt32).toNat := UInt32.le_iff_toNat_le.mp hc.2
      have h5 : (c.val + 32).toNat = 68 := h4
      rw [UInt32.toNat_add] at h5
      have e1 : (65 : UInt32).toNat = 65 := rfl
      have e2 : (90 : UInt32).toNat = 90 := rfl
      have e3 : (32 : UInt32).toNat = 32 := rfl
      omega
    · rename_i hc
      apply hc
      have : c = 'D' := Char.ext (UInt32.toNat.inj h4)
      rw [this]
      decide +kernel

end Example

end MultipartProps
end Verif
