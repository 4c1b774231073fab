import Verif.PactFile
import Verif.Props.RuleJsonProps
import Verif.Props.GenerateProps
import Verif.Props.QueryStringProps

/-
  C72: bodies survive a write/read cycle of a V4 pact file.
  C73: so do HTTP interactions.
  C74: and messages.
  C75: and whole pacts.
-/

set_option autoImplicit false

namespace Verif
namespace PactFileProps
open PactFile Rules RuleJson Generate Query Headers

/-! ### Reading attributes of a written object -/

/-- The last value given for a key. -/
def slast (k : String) (es : List (String × Json)) : Option Json := RuleJsonProps.slookup k es.reverse

theorem vget_obj (k : String) (es : List (String × Json)) : vget k (obj es) = slast k es := by
  rw [RuleJsonProps.obj_eq]; exact RuleJsonProps.get_attrs k es

theorem slookup_append (k : String) (a b : List (String × Json)) :
    RuleJsonProps.slookup k (a ++ b) = (RuleJsonProps.slookup k a).or (RuleJsonProps.slookup k b) := by
  induction a with
  | nil => rfl
  | cons e es ih =>
    rw [List.cons_append, RuleJsonProps.slookup, RuleJsonProps.slookup, ih]
    by_cases h : e.1 = k
    · rw [if_pos h, if_pos h]; rfl
    · rw [if_neg h, if_neg h]

theorem slast_append (k : String) (a b : List (String × Json)) : slast k (a ++ b) = (slast k b).or (slast k a) := by
  unfold slast; rw [List.reverse_append, slookup_append]

theorem slast_nil (k : String) : slast k [] = none := rfl

theorem slast_one (k l : String) (v : Json) : slast k [(l, v)] = if l = k then some v else none := by
  unfold slast
  rw [List.reverse_singleton, RuleJsonProps.slookup, RuleJsonProps.slookup]

theorem slast_cons (k l : String) (v : Json) (es : List (String × Json)) :
    slast k ((l, v) :: es) = (slast k es).or (if l = k then some v else none) := by
  rw [← List.singleton_append, slast_append, slast_one]

theorem slast_opt (k l : String) (o : Option Json) : slast k (optJson l o) = if l = k then o else none := by
  cases o with
  | none => rw [optJson, slast_nil]; split <;> rfl
  | some v => rw [optJson, slast_one]

theorem slast_if (k : String) (c : Bool) (a b : List (String × Json)) :
    slast k (if c = true then a else b) = if c = true then slast k a else slast k b := by
  cases c <;> rfl

theorem or_none' {A : Type} (o : Option A) : o.or none = o := by cases o <;> rfl
theorem none_or' {A : Type} (o : Option A) : Option.or none o = o := rfl
theorem some_or' {A : Type} (a : A) (o : Option A) : (some a).or o = some a := rfl

theorem ite_self' {A : Type} (c : Prop) [Decidable c] (a : A) : (if c then a else a) = a := by split <;> rfl

macro "vget_simp" : tactic => `(tactic|
  simp only [vget_obj, slast_append, slast_cons, slast_opt, slast_if, slast_nil, String.reduceEq, if_true, if_false, reduceIte,
    or_none', none_or', some_or', ite_self'])

/-! ## C72 Bodies -/

/-! ### Specification -/

/-- A content type that is parsed from its own text (every content type that came from a `Mime` without special
characters in its attributes). -/
def Parses (E : FileEnv) (ct : ContentType) : Prop := E.parseCT ct.display = some ct

/-- What a pact file keeps of a body.  A body without content type gets `*/*`, one without bytes becomes empty.  If
the content type is a JSON type and the bytes are JSON the value is kept, not its spelling, and the values `null` and
`""` become null and empty bodies.  A null body is not written. -/
def afterFile (E : FileEnv) : FBody → FBody
  | .missing => .missing
  | .null => .missing
  | .empty => .empty
  | .present b ct hint =>
    let ct := ct.getD .unknown
    let bytes := if b = [] then .empty else .present b (some ct) hint
    if ct.isJson then
      match E.json b with
      | some .null => .null
      | some (.str []) => .empty
      | some v => .present (utf8 v.text) (some ct) hint
      | none => bytes
    else bytes

/-- A body of which nothing is lost. -/
def Kept (E : FileEnv) : FBody → Prop
  | .missing => True
  | .empty => True
  | .null => False
  | .present b ct _ => b ≠ [] ∧ ∃ c, ct = some c ∧
      (c.isJson = true → ∀ v, E.json b = some v → v ≠ .null ∧ v ≠ .str [] ∧ utf8 v.text = b)

theorem utf8_fromUtf8 (b : Bytes) (s : Str) (h : QS.fromUtf8 b = some s) : utf8 s = b :=
  (QueryStringProps.fromUtf8_iff b s).1 h

theorem utf8_eq_nil (s : Str) : utf8 s = [] ↔ s = [] := by
  constructor
  · intro h
    cases s with
    | nil => rfl
    | cons c cs =>
      have h1 : String.utf8EncodeChar c = [] := (List.append_eq_nil_iff.1 (show _ ++ utf8 cs = [] from h)).1
      have h2 : (String.utf8EncodeChar c).length = 0 := by rw [h1]; rfl
      rw [String.length_utf8EncodeChar] at h2
      exact absurd h2 (by have := Char.utf8Size_pos c; omega)
  · rintro rfl; rfl

theorem lower_base64 (uc : UC) : uc.lower "base64".toList = "base64".toList := by
  rw [uc.lower_ascii _ (by decide)]; decide

/-- The attributes of a written body. -/
theorem body_attrs (E : FileEnv) (b : Bytes) (ct : Option ContentType) (hint : Option Hint) :
    ∃ o, bodyToJson E (.present b ct hint) = some (.obj o) ∧
      RuleJson.get "content" o = some (contents E (ct.getD .unknown) (hint.getD .default) b).1 ∧
      RuleJson.get "contentType" o = some (.str (ct.getD .unknown).display) ∧
      RuleJson.get "encoded" o = some (contents E (ct.getD .unknown) (hint.getD .default) b).2 ∧
      RuleJson.get "contentTypeHint" o = hint.map fun h => .str (hintText h) := by
  refine ⟨_, congrArg some (RuleJsonProps.obj_eq _), ?_, ?_, ?_, ?_⟩ <;>
  · rw [RuleJsonProps.get_attrs]
    show slast _ _ = _
    cases hint <;> simp only [Option.map] <;> vget_simp

/-- The attributes of an empty body. -/
theorem empty_attrs (E : FileEnv) : ∃ o, bodyToJson E .empty = some (.obj o) ∧
    RuleJson.get "content" o = some (.str []) ∧ RuleJson.get "contentType" o = none ∧
    RuleJson.get "encoded" o = none := by
  refine ⟨_, congrArg some (RuleJsonProps.obj_eq _), ?_, ?_, ?_⟩ <;>
  · rw [RuleJsonProps.get_attrs]
    show slast _ _ = _
    vget_simp

theorem hint_roundtrip (h : Option Hint) : hintFromJson (h.map fun h => .str (hintText h)) = h := by
  match h with
  | none => rfl
  | some .binary => rfl
  | some .text => rfl
  | some .default => rfl

/-- Written contents are read back. -/
theorem contents_bytes (E : FileEnv) (ct : ContentType) (hint : Hint) (b : Bytes) :
    ((contents E ct hint b).1 ≠ .null ∧ (ct.isJson = true → E.json b = none)) ∧ bytesFromJson E.P.uc (some ct) (some (contents E ct hint b).2) (contents E ct hint b).1
        = b ∨
    ct.isJson = true ∧ ∃ v, E.json b = some v ∧ (contents E ct hint b).1 = v ∧
      bytesFromJson E.P.uc (some ct) (some (contents E ct hint b).2) (contents E ct hint b).1 =
        (if v = .str [] then [] else utf8 v.text) := by
  have h64 : bytesFromJson E.P.uc (some ct) (some (lit "base64")) (.str (Base64.encode b)) = b := by
    unfold bytesFromJson encodedFromJson lit
    simp only [lower_base64, if_true, Json.toStr, Base64.decode_encode, Option.getD_some]
  unfold contents
  by_cases hj : ct.isJson = true
  · rw [if_pos hj]
    cases hv : E.json b with
    | none => exact Or.inl ⟨⟨(fun h => by cases h), fun _ => rfl⟩, h64⟩
    | some v =>
      refine Or.inr ⟨hj, v, rfl, rfl, ?_⟩
      unfold bytesFromJson encodedFromJson
      simp only [hj, if_true]
      by_cases he : v = .str []
      · subst he; rfl
      · rw [if_neg he]
        split
        · exact absurd rfl he
        · rfl
  · rw [if_neg hj]
    by_cases hb : hint = .binary ∨ ct.isBinary = true
    · rw [if_pos hb]; exact Or.inl ⟨⟨(fun h => by cases h), fun h => absurd h hj⟩, h64⟩
    · rw [if_neg hb]
      cases hs : QS.fromUtf8 b with
      | none => exact Or.inl ⟨⟨(fun h => by cases h), fun h => absurd h hj⟩, h64⟩
      | some s =>
        refine Or.inl ⟨⟨(fun h => by cases h), fun h => absurd h hj⟩, ?_⟩
        unfold bytesFromJson encodedFromJson
        simp only [hj]
        exact utf8_fromUtf8 b s hs

theorem text_ne (E : FileEnv) (b : Bytes) (v : Json) (h : E.json b = some v) : (utf8 v.text).isEmpty = false := by
  cases hu : utf8 v.text with
  | nil => exact absurd ((utf8_eq_nil _).1 hu) (E.json_text b v h)
  | cons _ _ => rfl

/-- The attribute as it is found by the reader. -/
theorem contentTypeFromJson_some (E : FileEnv) (headers : Option HeaderMap) (o : Obj) (ct : ContentType)
    (h : RuleJson.get "contentType" o = some (.str ct.display)) (hp : Parses E ct) :
    contentTypeFromJson E headers o = .ok (some ct) := by
  unfold contentTypeFromJson; rw [h]; show Res.ok (E.parseCT ct.display) = _; rw [hp]

/-- **C72.** A body read from the file it was written to is the body the specification keeps: the same state, the same
bytes (up to the spelling of JSON), content type and hint.  If the body is empty the content type header is read, which
must have a value. -/
theorem C72_body_partial (E : FileEnv) (body : FBody) (attr : String) (headers : Option HeaderMap) (j : Json)
    (hj : vget attr j = bodyToJson E body)
    (hct : ∀ b ct h, body = .present b ct h → Parses E (ct.getD .unknown))
    (hh : body = .empty → headerContentType E headers ≠ .panic) :
    bodyFromJson E j attr headers = .ok (afterFile E body) := by
  unfold bodyFromJson
  rw [hj]
  cases body with
  | missing => rfl
  | null => rfl
  | empty =>
    obtain ⟨o, h1, h2, h3, h4⟩ := empty_attrs E
    have hc : contentTypeFromJson E headers o = headerContentType E headers := by
      unfold contentTypeFromJson; rw [h3]
    rw [h1]
    simp only
    rw [h2, h4, hc]
    simp only
    have hb : ∀ ct, bytesFromJson E.P.uc ct none (.str []) = [] := by
      intro ct
      cases ct with
      | none => rfl
      | some ct => unfold bytesFromJson encodedFromJson; cases hj : ct.isJson <;> simp [hj, utf8, Json.toStr]
    cases hr : headerContentType E headers with
    | panic => exact absurd hr (hh rfl)
    | err =>
      unfold headerContentType at hr
      split at hr
      · cases hr
      · split at hr <;> cases hr
    | ok ct => simp only [Res.bind_ok, hb]; rfl
  | present b ct hint =>
    obtain ⟨o, h1, h2, h3, h4, h5⟩ := body_attrs E b ct hint
    have hp := hct b ct hint rfl
    rw [h1]
    simp only
    rw [h2, h4, h5, hint_roundtrip, contentTypeFromJson_some E headers o _ h3 hp]
    unfold afterFile
    simp only
    rcases contents_bytes E (ct.getD .unknown) (hint.getD .default) b with ⟨hn, hb⟩ | ⟨hj, v, hv, hc, hb⟩
    · have hbytes : (if b.isEmpty = true then Res.ok FBody.empty
          else Res.ok (FBody.present b (some (ct.getD .unknown)) hint))
          = Res.ok (if b = [] then FBody.empty else FBody.present b (some (ct.getD .unknown)) hint) := by
        cases b <;> rfl
      have hres : (match some (contents E (ct.getD .unknown) (hint.getD .default) b).1 with
          | none => Res.ok FBody.missing
          | some .null => Res.ok FBody.null
          | some c => (Res.ok (some (ct.getD .unknown))).bind fun ct' =>
            let b' := bytesFromJson E.P.uc ct' (some (contents E (ct.getD .unknown) (hint.getD .default) b).2) c
            if b'.isEmpty then .ok .empty
            else .ok (.present b' (some (ct'.getD ((E.detectBytes b').getD .unknown))) hint))
          = Res.ok (if b = [] then FBody.empty else FBody.present b (some (ct.getD .unknown)) hint) := by
        split
        · rename_i h; cases h
        · rename_i h; exact absurd (Option.some.inj h) hn.1
        · rename_i c h
          cases Option.some.inj h
          simp only [Res.bind_ok, hb]
          exact hbytes
      refine hres.trans ?_
      by_cases hj : (ct.getD .unknown).isJson = true
      · rw [if_pos hj, hn.2 hj]
      · rw [if_neg hj]
    · rw [if_pos hj, hv]
      rw [hc] at hb ⊢
      have ht := text_ne E b v hv
      have hne : v ≠ .str [] → v ≠ .null → (Res.ok (some (ct.getD .unknown))).bind (fun ct' =>
          let b' := bytesFromJson E.P.uc ct' (some (contents E (ct.getD .unknown) (hint.getD .default) b).2) v
          if b'.isEmpty then .ok .empty
          else .ok (.present b' (some (ct'.getD ((E.detectBytes b').getD .unknown))) hint))
          = Res.ok (FBody.present (utf8 v.text) (some (ct.getD .unknown)) hint) := by
        intro h1 _
        rw [if_neg h1] at hb
        simp only [Res.bind_ok, hb, ht]
        rfl
      cases v with
      | null => rfl
      | str s =>
        cases s with
        | nil => simp only [Res.bind_ok, hb]; rfl
        | cons c cs => exact hne (by intro h; cases h) (by intro h; cases h)
      | bool x => exact hne (by intro h; cases h) (by intro h; cases h)
      | num x => exact hne (by intro h; cases h) (by intro h; cases h)
      | arr x => exact hne (by intro h; cases h) (by intro h; cases h)
      | obj x => exact hne (by intro h; cases h) (by intro h; cases h)

/-- **C72 (exactness).** The body is unchanged exactly if it is missing or empty, or has bytes and a content type, and,
if that is a JSON type, its bytes are the way this library writes their value, which is neither `null` nor `""`. -/
theorem C72_kept_iff (E : FileEnv) (body : FBody) : afterFile E body = body ↔ Kept E body := by
  cases body with
  | missing => exact ⟨fun _ => trivial, fun _ => rfl⟩
  | empty => exact ⟨fun _ => trivial, fun _ => rfl⟩
  | null => exact ⟨(fun h => by cases h), fun h => h.elim⟩
  | present b ct hint =>
    unfold afterFile Kept
    simp only
    by_cases hb : b = []
    · subst hb
      constructor
      · intro h
        exfalso
        split at h
        · split at h
          · cases h
          · cases h
          · rename_i hv
            have := text_ne E [] _ hv
            injection h with h1
            rw [h1] at this
            cases this
          · cases h
        · cases h
      · intro h; exact absurd rfl h.1
    · rw [if_neg hb]
      constructor
      · intro h
        refine ⟨hb, ct.getD .unknown, ?_, ?_⟩
        · split at h
          · split at h
            · cases h
            · cases h
            · injection h with _ h2; exact h2.symm
            · injection h with _ h2; exact h2.symm
          · injection h with _ h2; exact h2.symm
        · intro hj v hv
          rw [if_pos hj, hv] at h
          refine ⟨?_, ?_, ?_⟩
          · rintro rfl; cases h
          · rintro rfl; cases h
          · split at h
            · cases h
            · cases h
            · rename_i w _ _ hw
              cases hw
              injection h
            · rename_i hw; cases hw
      · rintro ⟨_, c, rfl, hc⟩
        show (if c.isJson = true then _ else _) = _
        by_cases hj : c.isJson = true
        · rw [if_pos hj]
          split
          · rename_i hv; exact absurd rfl (hc hj _ hv).1
          · rename_i hv; exact absurd rfl (hc hj _ hv).2.1
          · rename_i v _ _ hv; rw [(hc hj _ hv).2.2]; rfl
          · rfl
        · rw [if_neg hj]; rfl

/-! ## C73 HTTP requests and responses -/

/-! ### Specification -/

/-- The same map: the same value for every key. -/
def SameMap {A : Type} (m n : List (Str × A)) : Prop := ∀ q, Json.lookup q m = Json.lookup q n

/-- The same optional map. -/
def SameOpt {A : Type} : Option (List (Str × A)) → Option (List (Str × A)) → Prop
  | none, none => True
  | some m, some n => SameMap m n
  | _, _ => False

/-- A map has each key once. -/
def IsMap {A : Type} (m : List (Str × A)) : Prop := (m.map (·.1)).Nodup

/-- The headers are a map and the content type has a value. -/
def HeadersOk (E : FileEnv) (headers : Option HeaderMap) : Prop :=
  ∀ h, headers = some h → IsMap h ∧ ∀ e ∈ h, E.P.uc.lower e.1 = "content-type".toList → e.2 ≠ []

/-- The content type of the body, if it has bytes, can be read. -/
def BodyOk (E : FileEnv) (body : FBody) : Prop := ∀ b ct h, body = .present b ct h → Parses E (ct.getD .unknown)

/-- What a pact file keeps of a request: the method in upper case, path, query, headers, body, rules and generators. -/
structure SameRequest (E : FileEnv) (ct : Option ContentType) (r r' : HttpRequest) : Prop where
  method : r'.method = E.upper (E.upper r.method)
  path : r'.path = r.path
  query : SameOpt r'.query r.query
  headers : SameOpt r'.headers r.headers
  body : r'.body = afterFile E (withContentType ct r.body)
  rules : mrEq r.rules r'.rules = true
  gens : gensEq r.gens r'.gens = true
  tables : RuleJsonProps.SameTables r.rules r'.rules

/-- What a pact file keeps of a response. -/
structure SameResponse (E : FileEnv) (r r' : HttpResponse) : Prop where
  status : r'.status = r.status
  headers : SameOpt r'.headers r.headers
  body : r'.body = afterFile E r.body
  rules : mrEq r.rules r'.rules = true
  gens : gensEq r.gens r'.gens = true
  tables : RuleJsonProps.SameTables r.rules r'.rules

/-- The rules and generators can be written (see C34 and C67). -/
def PartsOk (E : FileEnv) (m : MatchingRules) (g : Generators) : Prop :=
  RuleJsonProps.RulesOk E.P.uc m ∧ GenerateProps.GeneratorsOk E.P.uc g

/-! ### Rules and generators -/

theorem catName_head (c : Category) : ∃ ch s, catName c = ch :: s ∧ ch ≠ '$' := by
  cases c <;> exact ⟨_, _, rfl, by decide⟩

theorem rules_keys (m : MatchingRules) (o : Obj) (h : matchersToJson m = .obj o) (k : Str) (v : Json) (hk : (k, v) ∈ o) :
    k.head? ≠ some '$' := by
  unfold matchersToJson at h
  cases h
  have hl := RuleJsonProps.mem_collect _ _ hk
  obtain ⟨e, _, he⟩ := List.mem_filterMap.1 hl
  obtain ⟨ch, s, h1, h2⟩ := catName_head e.1
  have hkn : k = catName e.1 := by
    split at he
    · obtain ⟨x, _, hx⟩ := Option.map_eq_some_iff.1 he
      cases hx; rfl
    · split at he
      · cases he; rfl
      · cases he
  rw [hkn, h1]
  intro h'
  exact h2 (Option.some.inj h')

/-- Rules are read back from the attribute they are written to. -/
theorem rules_attr' (P : Params) (m : MatchingRules) (h : RuleJsonProps.RulesOk P.uc m) (j : Json) (dep : Option String)
    (hj : vget "matchingRules" j = if rulesNotEmpty m = true then some (matchersToJson m) else none)
    (hd : ∀ n, dep = some n → vget n j = none) :
    ∃ m', matchersFromJson P j dep = .ok m' ∧ mrEq m m' = true ∧ RuleJsonProps.SameTables m m' := by
  have hdep : (dep.bind fun n => vget n j) = none := by
    cases dep with
    | none => rfl
    | some n => exact hd n rfl
  unfold matchersFromJson
  rw [hj, hdep, or_none']
  by_cases hn : rulesNotEmpty m = true
  · rw [if_pos hn]
    obtain ⟨o, m', h1, h2, h3⟩ := RuleJsonProps.C34_tables_partial P m h
    refine ⟨m', ?_, h3⟩
    rw [h1]
    cases o with
    | nil => exact h2
    | cons e es =>
      obtain ⟨k, v⟩ := e
      simp only
      rw [if_neg (rules_keys m _ h1 k v List.mem_cons_self)]
      exact h2
  · rw [if_neg hn]
    have he : ∀ e ∈ m, e.2.rules.isEmpty = true := by
      intro e he
      cases h' : e.2.rules.isEmpty with
      | true => rfl
      | false => exact absurd (List.any_eq_true.2 ⟨e, he, by simp [h']⟩) hn
    refine ⟨[], rfl, ?_, ?_, fun c t h' => by cases h'⟩
    · have : m.filter (fun e => !e.2.rules.isEmpty) = [] :=
        List.filter_eq_nil_iff.2 (fun e h' => by simp [he e h'])
      unfold mrEq
      rw [this]
      rfl
    · intro c _
      unfold RuleJsonProps.catTable
      cases hr : rulesForCategory m c with
      | none => exact List.Perm.refl _
      | some t =>
        have := he _ (RuleJsonProps.rulesForCategory_some m c t hr)
        simp only at this ⊢
        rw [List.isEmpty_iff.1 this]
        exact List.Perm.refl _

/-- Rules are read back from the attribute they are written to. -/
theorem rules_attr (P : Params) (m : MatchingRules) (h : RuleJsonProps.RulesOk P.uc m) (j : Json) (dep : Option String)
    (hj : vget "matchingRules" j = if rulesNotEmpty m = true then some (matchersToJson m) else none)
    (hd : ∀ n, dep = some n → vget n j = none) :
    ∃ m', matchersFromJson P j dep = .ok m' ∧ mrEq m m' = true := by
  obtain ⟨m', h1, h2, _⟩ := rules_attr' P m h j dep hj hd
  exact ⟨m', h1, h2⟩

theorem gens_attr (P : Params) (g : Generators) (h : GenerateProps.GeneratorsOk P.uc g) (j : Json)
    (hj : vget "generators" j = if gensNotEmpty g = true then some (generatorsToJson g) else none) :
    ∃ g', generatorsFromJson P j = .ok g' ∧ gensEq g g' = true := by
  unfold generatorsFromJson
  rw [hj]
  by_cases hn : gensNotEmpty g = true
  · rw [if_pos hn]
    obtain ⟨o, g', h1, h2, h3⟩ := GenerateProps.C67_tables_partial P g h
    exact ⟨g', by rw [h1]; exact h2, h3⟩
  · rw [if_neg hn]
    refine ⟨[], rfl, ?_⟩
    have : g.filter (fun e => !e.2.isEmpty) = [] := by
      refine List.filter_eq_nil_iff.2 (fun e he h' => hn ?_)
      exact List.any_eq_true.2 ⟨e, he, h'⟩
    unfold gensEq
    rw [this]
    rfl

theorem slast_rules (k : String) (m : MatchingRules) (g : Generators) : slast k (rulesAttrs m g) =
    if "generators" = k then (if gensNotEmpty g = true then some (generatorsToJson g) else none)
    else if "matchingRules" = k then (if rulesNotEmpty m = true then some (matchersToJson m) else none) else none := by
  unfold rulesAttrs
  rw [slast_append, slast_if, slast_if, slast_one, slast_one, slast_nil]
  by_cases h1 : "generators" = k
  · subst h1
    simp only [String.reduceEq, if_true, if_false, ite_self', or_none']
  · simp only [if_neg h1, ite_self']
    by_cases h2 : "matchingRules" = k
    · simp only [if_pos h2, none_or']
    · simp only [if_neg h2, ite_self', none_or']

/-! ### Headers -/

theorem headerContentType_ok (E : FileEnv) (headers : Option HeaderMap) (h : HeadersOk E headers) :
    ∃ ct, headerContentType E headers = .ok ct := by
  cases headers with
  | none => exact ⟨none, rfl⟩
  | some hm =>
    unfold headerContentType
    simp only
    split
    · exact ⟨_, rfl⟩
    · rename_i n hf
      have h1 := List.find?_some hf
      exact absurd rfl ((h hm rfl).2 _ (List.mem_of_find?_eq_some hf) (of_decide_eq_true h1))
    · exact ⟨_, rfl⟩

theorem headers_read (E : FileEnv) (headers : Option HeaderMap) (h : HeadersOk E headers) :
    SameOpt (QS.headersFromJson E.P.uc (headers.map QS.headersToJsonV4)) headers ∧
      HeadersOk E (QS.headersFromJson E.P.uc (headers.map QS.headersToJsonV4)) := by
  cases headers with
  | none => exact ⟨trivial, (fun _ h' => by cases h')⟩
  | some hm =>
    obtain ⟨h', h1, h2⟩ := QueryStringProps.C30_v4_roundtrip E.P.uc hm (h hm rfl).1
    rw [Option.map_some, h1]
    refine ⟨h2, ?_⟩
    intro x hx
    cases hx
    have hnd : IsMap h' := by
      unfold IsMap
      unfold QS.headersFromJson QS.headersToJsonV4 at h1
      cases Option.some.inj h1
      rw [List.map_map]
      exact (OMap.collect_sorted _).nodup
    refine ⟨hnd, fun e he hl => (h hm rfl).2 (e.1, e.2) ?_ hl⟩
    exact Json.lookup_mem ((h2 e.1).symm.trans (Json.lookup_of_mem hnd he))

theorem query_read (query : Option QueryMap) (h : ∀ m, query = some m → IsMap m) :
    SameOpt ((query.map QS.queryToJsonV3).bind QS.v3QueryFromJson) query := by
  cases query with
  | none => trivial
  | some m =>
    obtain ⟨m', h1, h2⟩ := QueryStringProps.C29_v3_roundtrip m (h m rfl)
    rw [Option.map_some, Option.bind_some, h1]
    exact h2

theorem calcContentType_ok (E : FileEnv) (body : FBody) (headers : Option HeaderMap) (h : HeadersOk E headers) :
    ∃ ct, calcContentType E body headers = .ok ct := by
  unfold calcContentType
  split
  · exact ⟨_, rfl⟩
  · obtain ⟨c, hc⟩ := headerContentType_ok E headers h
    rw [hc]
    exact ⟨_, rfl⟩

/-! ### Theorems -/

/-- **C73 (requests).** A request with distinct query and header names, a content type that can be read and rules that
can be written is written without failing, and reading the file gives the same request. -/
theorem C73_request_partial (E : FileEnv) (r : HttpRequest) (hq : ∀ m, r.query = some m → IsMap m) (hh : HeadersOk E r.headers)
    (hb : ∀ ct, calcContentType E r.body r.headers = .ok ct → BodyOk E (withContentType ct r.body))
    (hp : PartsOk E r.rules r.gens) :
    ∃ ct j r', calcContentType E r.body r.headers = .ok ct ∧ requestToJson E r = .ok j ∧ requestFromJson E j = .ok r' ∧
      SameRequest E ct r r' := by
  obtain ⟨ct, hct⟩ := calcContentType_ok E r.body r.headers hh
  obtain ⟨hh1, hh2⟩ := headers_read E r.headers hh
  unfold requestToJson
  rw [hct]
  simp only [Res.map_ok]
  generalize hj : obj _ = j
  have hv : ∀ k, vget k j = slast k _ := fun k => by rw [← hj]; exact vget_obj k _
  obtain ⟨m', hm1, hm2, hm3⟩ := rules_attr' E.P r.rules hp.1 j none (by
    rw [hv, slast_append, slast_rules]; vget_simp) (fun _ h => by cases h)
  obtain ⟨g', hg1, hg2⟩ := gens_attr E.P r.gens hp.2 j (by rw [hv, slast_append, slast_rules]; vget_simp)
  have hbody := C72_body_partial E (withContentType ct r.body) "body"
    (QS.headersFromJson E.P.uc (r.headers.map QS.headersToJsonV4)) j
    (by rw [hv, slast_append, slast_rules]; vget_simp) (hb ct hct)
    (fun _ h' => by obtain ⟨c, hc⟩ := headerContentType_ok E _ hh2; rw [hc] at h'; cases h')
  have hhj : vget "headers" j = r.headers.map QS.headersToJsonV4 := by
    rw [hv, slast_append, slast_rules]; vget_simp
  have hqj : vget "query" j = r.query.map QS.queryToJsonV3 := by
    rw [hv, slast_append, slast_rules]; vget_simp
  have hmj : vget "method" j = some (.str (E.upper r.method)) := by
    rw [hv, slast_append, slast_rules]; vget_simp
  have hpj : vget "path" j = some (.str r.path) := by
    rw [hv, slast_append, slast_rules]; vget_simp
  have hr : requestFromJson E j = .ok
      { method := E.upper (E.upper r.method), path := r.path
        query := (r.query.map QS.queryToJsonV3).bind QS.v3QueryFromJson
        headers := QS.headersFromJson E.P.uc (r.headers.map QS.headersToJsonV4)
        body := afterFile E (withContentType ct r.body), rules := m', gens := g' } := by
    unfold requestFromJson
    simp only
    rw [hhj, hbody, hm1, hg1, hqj, hmj, attrText, hpj]
    rfl
  exact ⟨ct, j, _, rfl, rfl, hr, ⟨rfl, rfl, query_read r.query hq, hh1, rfl, hm2, hg2, hm3⟩⟩

/-- **C73 (responses).** -/
theorem C73_response_partial (E : FileEnv) (r : HttpResponse) (hs : r.status < 65536) (hh : HeadersOk E r.headers)
    (hb : BodyOk E r.body) (hp : PartsOk E r.rules r.gens) :
    ∃ r', responseFromJson E (responseToJson E r) = .ok r' ∧ SameResponse E r r' := by
  obtain ⟨hh1, hh2⟩ := headers_read E r.headers hh
  unfold responseToJson
  generalize hj : obj _ = j
  have hv : ∀ k, vget k j = slast k _ := fun k => by rw [← hj]; exact vget_obj k _
  obtain ⟨m', hm1, hm2, hm3⟩ := rules_attr' E.P r.rules hp.1 j none (by
    rw [hv, slast_append, slast_rules]; vget_simp) (fun _ h => by cases h)
  obtain ⟨g', hg1, hg2⟩ := gens_attr E.P r.gens hp.2 j (by rw [hv, slast_append, slast_rules]; vget_simp)
  have hbody := C72_body_partial E r.body "body"
    (QS.headersFromJson E.P.uc (r.headers.map QS.headersToJsonV4)) j
    (by rw [hv, slast_append, slast_rules]; vget_simp) hb
    (fun _ h' => by obtain ⟨c, hc⟩ := headerContentType_ok E _ hh2; rw [hc] at h'; cases h')
  have hhj : vget "headers" j = r.headers.map QS.headersToJsonV4 := by
    rw [hv, slast_append, slast_rules]; vget_simp
  have hsj : vget "status" j = some (.num (.pos r.status)) := by
    rw [hv, slast_append, slast_rules]; vget_simp
  have hst : statusOf (.num (.pos r.status)) = .ok r.status := by
    show Res.ok (r.status % 65536) = _
    rw [Nat.mod_eq_of_lt hs]
  have hr : responseFromJson E j = .ok
      { status := r.status, headers := QS.headersFromJson E.P.uc (r.headers.map QS.headersToJsonV4)
        body := afterFile E r.body, rules := m', gens := g' } := by
    unfold responseFromJson
    simp only
    rw [hsj, hhj, hbody, hm1, hg1]
    simp only [Res.bind_ok, statusAttr, hst]
  exact ⟨_, hr, ⟨rfl, hh1, rfl, hm2, hg2, hm3⟩⟩

/-! ## C74 Interactions and messages -/

/-! ### Specification -/

/-- Corresponding elements of two lists are related. -/
def Each {A B : Type} (R : A → B → Prop) : List A → List B → Prop
  | [], [] => True
  | a :: as, b :: bs => R a b ∧ Each R as bs
  | _, _ => False

/-- The same provider state. -/
def SameState (p p' : PState) : Prop := p'.name = p.name ∧ SameMap p'.params p.params

/-- The same configuration for every plugin. -/
def SamePlugins (c c' : List (Str × Obj)) : Prop := ∀ q,
  match Json.lookup q c, Json.lookup q c' with
  | none, none => True
  | some m, some m' => SameMap m' m
  | _, _ => False

/-- What a pact file keeps of the shared fields of an interaction: all but the ID, comments that are empty, and
markup without text. -/
structure SameCommon (c c' : Common) : Prop where
  id : c'.id = none
  key : c'.key = c.key
  description : c'.description = c.description
  states : Each SameState c.states c'.states
  comments : ∀ q, Json.lookup q c'.comments = (Json.lookup q c.comments).filter fun v => !v.isEmpty
  pending : c'.pending = c.pending
  plugins : SamePlugins c.plugins c'.plugins
  markup : c'.markup = if c.markup.markup = [] then ⟨[], []⟩ else c.markup
  transport : c'.transport = c.transport

/-- The tables of the shared fields are maps. -/
structure CommonOk (c : Common) : Prop where
  states : ∀ p ∈ c.states, IsMap p.params
  comments : IsMap c.comments
  plugins : IsMap c.plugins ∧ ∀ e ∈ c.plugins, IsMap e.2

/-- What a pact file keeps of message contents; `ct` is the content type given to a body without one. -/
structure SameMessage (E : FileEnv) (ct : Option ContentType) (m m' : MessageContents) : Prop where
  contents : m'.contents = afterFile E (withContentType ct m.contents)
  metadata : SameMap m'.metadata m.metadata
  rules : mrEq m.rules m'.rules = true
  gens : gensEq m.gens m'.gens = true
  tables : RuleJsonProps.SameTables m.rules m'.rules

/-- The content type a message is written with if its contents have none: that of the metadata, else the one detected
from the contents. -/
def messageCT (E : FileEnv) (m : MessageContents) : Option ContentType :=
  match m.contents with
  | .present _ (some ct) _ => some ct
  | .present b none _ => ((RuleJson.get "contentType" m.metadata).bind fun v => E.parseCT v.toStr).or (E.detectBytes b)
  | _ => (RuleJson.get "contentType" m.metadata).bind fun v => E.parseCT v.toStr

/-- A message that can be written. -/
structure MessageOk (E : FileEnv) (ct : Option ContentType) (m : MessageContents) : Prop where
  metadata : IsMap m.metadata
  contents : BodyOk E (withContentType ct m.contents)
  parts : PartsOk E m.rules m.gens

/-- What a pact file keeps of an interaction. -/
def SameInteraction (E : FileEnv) : Interaction → Interaction → Prop
  | .http c req resp, .http c' req' resp' => SameCommon c c' ∧
      (∃ ct, calcContentType E req.body req.headers = .ok ct ∧ SameRequest E ct req req') ∧ SameResponse E resp resp'
  | .async c m, .async c' m' => SameCommon c c' ∧ SameMessage E none m m'
  | .sync c req resps, .sync c' req' resps' => SameCommon c c' ∧ SameMessage E (messageCT E req) req req' ∧
      Each (fun r r' => SameMessage E (messageCT E r) r r') resps resps'
  | _, _ => False

/-- An interaction that can be written. -/
def InteractionOk (E : FileEnv) : Interaction → Prop
  | .http c req resp => CommonOk c ∧
      ((∀ m, req.query = some m → IsMap m) ∧ HeadersOk E req.headers ∧
        (∀ ct, calcContentType E req.body req.headers = .ok ct → BodyOk E (withContentType ct req.body)) ∧
        PartsOk E req.rules req.gens) ∧
      resp.status < 65536 ∧ HeadersOk E resp.headers ∧ BodyOk E resp.body ∧ PartsOk E resp.rules resp.gens
  | .async c m => CommonOk c ∧ MessageOk E none m
  | .sync c req resps => CommonOk c ∧ MessageOk E (messageCT E req) req ∧ ∀ r ∈ resps, MessageOk E (messageCT E r) r

/-! ### Lemmas -/

theorem collect_isMap {A : Type} (m : List (Str × A)) : IsMap (OMap.collect m) := (OMap.collect_sorted m).nodup

theorem collect_same {A : Type} (m : List (Str × A)) (h : IsMap m) : SameMap (OMap.collect m) m :=
  OMap.lookup_collect m h

theorem lookup_filter (f : Json → Bool) (m : Obj) (h : IsMap m) (q : Str) :
    Json.lookup q (m.filter fun e => f e.2) = (Json.lookup q m).filter f := by
  induction m with
  | nil => rfl
  | cons e es ih =>
    obtain ⟨k, v⟩ := e
    have hn : k ∉ es.map (·.1) ∧ IsMap es := List.nodup_cons.1 h
    have ih := ih hn.2
    by_cases hk : k = q
    · subst hk
      have hnone : Json.lookup k (es.filter fun e => f e.2) = none := by
        cases hl : Json.lookup k (es.filter fun e => f e.2) with
        | none => rfl
        | some w =>
          have := (List.mem_filter.1 (Json.lookup_mem hl)).1
          exact absurd (List.mem_map.2 ⟨_, this, rfl⟩) hn.1
      rw [List.filter_cons]
      cases hf : f v with
      | true => simp [Json.lookup, hf, Option.filter]
      | false => simp [Json.lookup, hf, Option.filter, hnone]
    · rw [List.filter_cons]
      cases hf : f v with
      | true => simp only [if_true, Json.lookup, if_neg hk, ih]
      | false => simp only [Bool.false_eq_true, if_false, Json.lookup, if_neg hk, ih]

theorem filter_isMap (f : Str × Json → Bool) (m : Obj) (h : IsMap m) : IsMap (m.filter f) :=
  (List.filter_sublist.map _).nodup h

theorem each_map {A B : Type} (R : A → B → Prop) (f : A → B) (l : List A) (h : ∀ a ∈ l, R a (f a)) : Each R l (l.map f) := by
  induction l with
  | nil => trivial
  | cons a as ih => exact ⟨h a List.mem_cons_self, ih (fun x hx => h x (List.mem_cons_of_mem _ hx))⟩

theorem state_read (p : PState) (h : IsMap p.params) : SameState p (stateFromJson (stateToJson p)) := by
  unfold stateFromJson stateToJson
  generalize hj : obj _ = j
  have hv : ∀ k, vget k j = slast k _ := fun k => by rw [← hj]; exact vget_obj k _
  have h1 : vget "name" j = some (.str p.name) := by rw [hv]; vget_simp
  have h2 : vget "params" j = if p.params.isEmpty = true then none else some (.obj (OMap.collect p.params)) := by
    rw [hv]; vget_simp
  refine ⟨by rw [attrText, h1]; rfl, ?_⟩
  show SameMap (objAttr "params" j) _
  unfold objAttr
  rw [h2]
  cases hp : p.params with
  | nil => exact fun _ => rfl
  | cons e es =>
    rw [hp] at h
    exact collect_same _ h

theorem markup_read (m : Markup) : markupFromJson (markupToJson m) = m := by
  unfold markupFromJson markupToJson
  rw [RuleJsonProps.obj_eq]
  simp only
  rw [RuleJsonProps.get_attrs, RuleJsonProps.get_attrs]
  rfl

theorem slast_common (k : String) (t : String) (c : Common) : slast k (commonAttrs t c) =
    if k = "type" then some (lit t)
    else if k = "description" then some (.str c.description)
    else if k = "pending" then some (.bool c.pending)
    else if k = "key" then c.key.map Json.str
    else if k = "providerStates" then
      (if c.states.isEmpty = true then none else some (.arr (c.states.map stateToJson)))
    else if k = "comments" then
      (if (keptComments c.comments).isEmpty = true then none else some (.obj (OMap.collect (keptComments c.comments))))
    else if k = "pluginConfiguration" then
      (if c.plugins.isEmpty = true then none
        else some (.obj (OMap.collect (c.plugins.map fun e => (e.1, Json.obj (OMap.collect e.2))))))
    else if k = "interactionMarkup" then
      (if c.markup.markup.isEmpty = true then none else some (markupToJson c.markup))
    else if k = "transport" then c.transport.map Json.str
    else none := by
  unfold commonAttrs
  by_cases h1 : k = "type"
  · subst h1; vget_simp
  by_cases h2 : k = "description"
  · subst h2; vget_simp
  by_cases h3 : k = "pending"
  · subst h3; vget_simp
  by_cases h4 : k = "key"
  · subst h4; vget_simp
  by_cases h5 : k = "providerStates"
  · subst h5; vget_simp
  by_cases h6 : k = "comments"
  · subst h6; vget_simp
  by_cases h7 : k = "pluginConfiguration"
  · subst h7; vget_simp
  by_cases h8 : k = "interactionMarkup"
  · subst h8; vget_simp
  by_cases h9 : k = "transport"
  · subst h9; vget_simp
  simp only [slast_append, slast_cons, slast_opt, slast_if, slast_nil, if_neg h1, if_neg h2, if_neg h3, if_neg h4,
    if_neg h5, if_neg h6, if_neg h7, if_neg h8, if_neg h9, if_neg (Ne.symm h1), if_neg (Ne.symm h2), if_neg (Ne.symm h3),
    if_neg (Ne.symm h4), if_neg (Ne.symm h5), if_neg (Ne.symm h6), if_neg (Ne.symm h7), if_neg (Ne.symm h8),
    if_neg (Ne.symm h9), ite_self', or_none']

/-- The names of the shared attributes. -/
def commonKeys : List String := ["type", "description", "pending", "key", "providerStates", "providerState",
  "provider_state", "comments", "pluginConfiguration", "interactionMarkup", "transport", "_id"]

theorem common_read (t : String) (c : Common) (h : CommonOk c) (es : List (String × Json)) (index : Nat)
    (hes : ∀ k ∈ commonKeys, slast k es = none) : SameCommon c (commonFromJson index (obj (commonAttrs t c ++ es))) := by
  have hv : ∀ k ∈ commonKeys, vget k (obj (commonAttrs t c ++ es)) = slast k (commonAttrs t c) := by
    intro k hk
    rw [vget_obj, slast_append, hes k hk, none_or']
  generalize obj (commonAttrs t c ++ es) = j at hv
  have e1 : vget "_id" j = none := by rw [hv _ (by decide), slast_common]; rfl
  have e2 : vget "key" j = c.key.map Json.str := by rw [hv _ (by decide), slast_common]; rfl
  have e3 : vget "description" j = some (.str c.description) := by rw [hv _ (by decide), slast_common]; rfl
  have e4 : vget "providerStates" j
      = (if c.states.isEmpty = true then none else some (.arr (c.states.map stateToJson))) := by
    rw [hv _ (by decide), slast_common]; rfl
  have e5 : vget "providerState" j = none := by rw [hv _ (by decide), slast_common]; rfl
  have e6 : vget "provider_state" j = none := by rw [hv _ (by decide), slast_common]; rfl
  have e7 : vget "comments" j = (if (keptComments c.comments).isEmpty = true then none
      else some (.obj (OMap.collect (keptComments c.comments)))) := by rw [hv _ (by decide), slast_common]; rfl
  have e8 : vget "pending" j = some (.bool c.pending) := by rw [hv _ (by decide), slast_common]; rfl
  have e9 : vget "pluginConfiguration" j = (if c.plugins.isEmpty = true then none
        else some (.obj (OMap.collect (c.plugins.map fun e => (e.1, Json.obj (OMap.collect e.2)))))) := by
    rw [hv _ (by decide), slast_common]; rfl
  have e10 : vget "interactionMarkup" j = (if c.markup.markup.isEmpty = true then none else some (markupToJson c.markup)) := by
    rw [hv _ (by decide), slast_common]; rfl
  have e11 : vget "transport" j = c.transport.map Json.str := by rw [hv _ (by decide), slast_common]; rfl
  constructor
  · show (vget "_id" j).map _ = _; rw [e1]; rfl
  · show (vget "key" j).map _ = _; rw [e2]; cases c.key <;> rfl
  · show attrText "description" _ j = _; rw [attrText, e3]; rfl
  · show Each SameState _ (statesFromJson j)
    unfold statesFromJson
    rw [e4, e5, e6]
    have hs := h.states
    cases hcs : c.states with
    | nil => exact trivial
    | cons p ps =>
      rw [hcs] at hs
      show Each SameState (p :: ps) (((p :: ps).map stateToJson).map stateFromJson)
      rw [List.map_map]
      exact each_map _ _ _ (fun a ha => state_read a (hs a ha))
  · intro q
    have hk : Json.lookup q (keptComments c.comments) = (Json.lookup q c.comments).filter fun v => !v.isEmpty :=
      lookup_filter (fun v => !v.isEmpty) c.comments h.comments q
    show Json.lookup q (objAttr "comments" j) = _
    unfold objAttr
    rw [e7, ← hk]
    cases hkc : keptComments c.comments with
    | nil => rfl
    | cons e es =>
      have := collect_same (keptComments c.comments) (filter_isMap _ _ h.comments) q
      rw [hkc] at this
      exact this
  · show pendingOf (vget "pending" j) = _; rw [e8]; rfl
  · show SamePlugins _ (pluginConfigFromJson j)
    unfold pluginConfigFromJson objAttr
    rw [e9]
    have hp := h.plugins
    cases hcp : c.plugins with
    | nil => exact fun q => trivial
    | cons e es =>
      rw [hcp] at hp
      intro q
      show match Json.lookup q (e :: es), Json.lookup q ((OMap.collect ((e :: es).map fun e => (e.1, Json.obj (OMap.collect e.2)))).map
        fun e => (e.1, asObj e.2)) with
        | none, none => True
        | some m, some m' => SameMap m' m
        | _, _ => False
      generalize hl : (e :: es) = l at hp
      rw [OMap.lookup_mapVals (fun _ v => asObj v),
        OMap.lookup_collect _ (by rw [List.map_map]; exact hp.1), OMap.lookup_mapVals (fun _ v => Json.obj (OMap.collect v))]
      cases hlk : Json.lookup q l with
      | none => trivial
      | some m => exact collect_same m (hp.2 _ (Json.lookup_mem hlk))
  · show ((vget "interactionMarkup" j).map markupFromJson).getD _ = _
    rw [e10]
    cases hm : c.markup.markup with
    | nil => rfl
    | cons x xs =>
      rw [if_neg (by simp), if_neg (by simp)]
      exact markup_read c.markup
  · show (vget "transport" j).map textOf = _; rw [e11]; cases c.transport <;> rfl

/-! ### Messages -/

theorem metadata_headers_ok (E : FileEnv) (m : Obj) : HeadersOk E (metadataToHeaders m) := by
  unfold metadataToHeaders
  intro h hh
  cases hc : RuleJson.get "contentType" m with
  | none => rw [hc] at hh; cases hh
  | some v =>
    rw [hc] at hh
    cases hh
    exact ⟨List.nodup_cons.2 ⟨List.not_mem_nil, List.nodup_nil⟩, fun e he _ => by
      rw [List.mem_singleton.1 he]; exact List.cons_ne_nil _ _⟩

theorem lower_content_type (uc : UC) : uc.lower "Content-Type".toList = "content-type".toList := by
  rw [uc.lower_ascii _ (by decide)]; decide

theorem messageCT_calc (E : FileEnv) (m : MessageContents) :
    calcContentType E m.contents (metadataToHeaders m.metadata) = .ok (messageCT E m) := by
  have hh : headerContentType E (metadataToHeaders m.metadata)
      = .ok ((RuleJson.get "contentType" m.metadata).bind fun v => E.parseCT v.toStr) := by
    unfold metadataToHeaders
    cases RuleJson.get "contentType" m.metadata with
    | none => rfl
    | some v =>
      rw [Option.map_some, headerContentType, List.find?_cons_of_pos (by rw [lower_content_type]; decide)]
      rfl
  unfold calcContentType messageCT
  rcases m.contents with _ | _ | _ | ⟨b, ct, h⟩
  · simp only [hh, Res.map_ok, or_none']
  · simp only [hh, Res.map_ok, or_none']
  · simp only [hh, Res.map_ok, or_none']
  · cases ct with
    | none => simp only [hh, Res.map_ok]
    | some c => rfl

theorem slast_metadata (k : String) (m : Obj) : slast k (metadataAttrs m) =
    if "metadata" = k then (if m.isEmpty = true then none else some (.obj (OMap.collect m))) else none := by
  unfold metadataAttrs
  rw [slast_if, slast_one, slast_nil]
  by_cases h : "metadata" = k
  · rw [if_pos h, if_pos h]
  · rw [if_neg h, if_neg h, ite_self']

theorem withContentType_none (b : FBody) : withContentType none b = b := by
  cases b with
  | present b ct h => show FBody.present b (ct.or none) h = _; rw [or_none']
  | _ => rfl

/-- Reading the attributes of a message. -/
theorem message_read (E : FileEnv) (m : MessageContents) (ct : Option ContentType) (h : MessageOk E ct m) (j : Json)
    (hc : vget "contents" j = bodyToJson E (withContentType ct m.contents))
    (hm : vget "metadata" j = if m.metadata.isEmpty = true then none else some (.obj (OMap.collect m.metadata)))
    (hr : vget "matchingRules" j = if rulesNotEmpty m.rules = true then some (matchersToJson m.rules) else none)
    (hg : vget "generators" j = if gensNotEmpty m.gens = true then some (generatorsToJson m.gens) else none) :
    ∃ m', messageParts E j = .ok m' ∧ SameMessage E ct m m' := by
  obtain ⟨r', hr1, hr2, hr3⟩ := rules_attr' E.P m.rules h.parts.1 j none hr (fun _ h => by cases h)
  obtain ⟨g', hg1, hg2⟩ := gens_attr E.P m.gens h.parts.2 j hg
  have hmd : SameMap (objAttr "metadata" j) m.metadata := by
    unfold objAttr
    rw [hm]
    have hmm := h.metadata
    cases hme : m.metadata with
    | nil => exact fun _ => rfl
    | cons e es => rw [hme] at hmm; exact collect_same _ hmm
  have hb := C72_body_partial E (withContentType ct m.contents) "contents" (metadataToHeaders (objAttr "metadata" j)) j hc h.contents
    (fun _ h' => by
      obtain ⟨c, hc⟩ := headerContentType_ok E _ (metadata_headers_ok E (objAttr "metadata" j))
      rw [hc] at h'; cases h')
  refine ⟨⟨afterFile E (withContentType ct m.contents), objAttr "metadata" j, r', g'⟩, ?_, ⟨rfl, hmd, hr2, hg2, hr3⟩⟩
  unfold messageParts
  simp only
  rw [hb, hr1, hg1]
  rfl

theorem message_roundtrip (E : FileEnv) (m : MessageContents) (h : MessageOk E (messageCT E m) m) :
    ∃ j m', messageToJson E m = .ok j ∧ messageFromJson E j = .ok m' ∧ SameMessage E (messageCT E m) m m' := by
  unfold messageToJson
  rw [messageCT_calc, Res.map_ok]
  obtain ⟨m', h1, h2⟩ := message_read E m (messageCT E m) h (obj (optJson "contents"
    (bodyToJson E (withContentType (messageCT E m) m.contents)) ++ metadataAttrs m.metadata ++ rulesAttrs m.rules m.gens))
    (by rw [vget_obj, slast_append, slast_append, slast_rules, slast_metadata]; vget_simp)
    (by rw [vget_obj, slast_append, slast_append, slast_rules, slast_metadata]; vget_simp)
    (by rw [vget_obj, slast_append, slast_append, slast_rules, slast_metadata]; vget_simp)
    (by rw [vget_obj, slast_append, slast_append, slast_rules, slast_metadata]; vget_simp)
  refine ⟨_, m', rfl, ?_, h2⟩
  rw [RuleJsonProps.obj_eq] at h1 ⊢
  exact h1

theorem allOk_roundtrip {A B C : Type} (f : A → Res B) (g : B → Res C) (R : A → C → Prop) (l : List A)
    (h : ∀ a ∈ l, ∃ b c, f a = .ok b ∧ g b = .ok c ∧ R a c) :
    ∃ bs cs, allOk (l.map f) = .ok bs ∧ allOk (bs.map g) = .ok cs ∧ Each R l cs := by
  induction l with
  | nil => exact ⟨[], [], rfl, rfl, trivial⟩
  | cons a as ih =>
    obtain ⟨b, c, h1, h2, h3⟩ := h a List.mem_cons_self
    obtain ⟨bs, cs, i1, i2, i3⟩ := ih (fun x hx => h x (List.mem_cons_of_mem _ hx))
    refine ⟨b :: bs, c :: cs, ?_, ?_, h3, i3⟩
    · rw [List.map_cons, allOk, h1, Res.bind_ok, i1]; rfl
    · rw [List.map_cons, allOk, h2, Res.bind_ok, i2]; rfl

theorem reqresp_free (a b : Json) : ∀ k ∈ commonKeys, slast k [("request", a), ("response", b)] = none := by
  intro k hk
  rw [slast_cons, slast_one]
  revert k
  simp only [commonKeys, List.forall_mem_cons]
  simp only [String.reduceEq, if_false, or_none', true_and]
  intro k hk; cases hk

theorem message_free (o : Option Json) (m : Obj) (r : MatchingRules) (g : Generators) : ∀ k ∈ commonKeys,
    slast k (optJson "contents" o ++ (metadataAttrs m ++ rulesAttrs r g)) = none := by
  intro k hk
  rw [slast_append, slast_append, slast_rules, slast_metadata, slast_opt]
  revert k
  simp only [commonKeys, List.forall_mem_cons]
  simp only [String.reduceEq, if_false, or_none', true_and]
  intro k hk; cases hk

theorem dispatch_http (E : FileEnv) (index : Nat) (j : Json) (h : vget "type" j = some (lit "Synchronous/HTTP")) :
    interactionFromJson E index j = httpFromJson E index j := by
  unfold interactionFromJson
  rw [h]
  exact if_pos rfl

theorem dispatch_async (E : FileEnv) (index : Nat) (j : Json) (h : vget "type" j = some (lit "Asynchronous/Messages")) :
    interactionFromJson E index j = asyncFromJson E index j := by
  unfold interactionFromJson
  rw [h]
  exact (if_neg (by decide)).trans (if_pos rfl)

theorem dispatch_sync (E : FileEnv) (index : Nat) (j : Json) (h : vget "type" j = some (lit "Synchronous/Messages")) :
    interactionFromJson E index j = syncFromJson E index j := by
  unfold interactionFromJson
  rw [h]
  exact (if_neg (by decide)).trans ((if_neg (by decide)).trans (if_pos rfl))

/-! ### Theorems -/

/-- **C74.** An interaction that can be written is written without failing, and reading the file gives an interaction
of the same type with the same contents. -/
theorem C74_interaction_partial (E : FileEnv) (i : Interaction) (h : InteractionOk E i) (index : Nat) :
    ∃ j i', interactionToJson E i = .ok j ∧ interactionFromJson E index j = .ok i' ∧ SameInteraction E i i' := by
  cases i with
  | http c req resp =>
    obtain ⟨hc, ⟨hq, hh, hb, hp⟩, hs, hrh, hrb, hrp⟩ := h
    obtain ⟨ct, jr, req', h1, h2, h3, h4⟩ := C73_request_partial E req hq hh hb hp
    obtain ⟨resp', h5, h6⟩ := C73_response_partial E resp hs hrh hrb hrp
    rw [interactionToJson]
    rw [h2, Res.map_ok]
    refine ⟨_, .http _ req' resp', rfl, ?_, common_read "Synchronous/HTTP" c hc
      [("request", jr), ("response", responseToJson E resp)] index (reqresp_free _ _), ⟨ct, h1, h4⟩, h6⟩
    have ht : vget "type" (obj (commonAttrs "Synchronous/HTTP" c ++ [("request", jr), ("response", responseToJson E resp)]))
        = some (lit "Synchronous/HTTP") := by
      rw [vget_obj, slast_append, slast_common]; vget_simp
    have hreq : vget "request" (obj (commonAttrs "Synchronous/HTTP" c ++ [("request", jr), ("response", responseToJson E resp)]))
        = some jr := by
      rw [vget_obj, slast_append, slast_common]; vget_simp
    have hresp : vget "response" (obj (commonAttrs "Synchronous/HTTP" c ++ [("request", jr), ("response", responseToJson E resp)]))
        = some (responseToJson E resp) := by
      rw [vget_obj, slast_append, slast_common]; vget_simp
    rw [dispatch_http E index _ ht]
    rw [RuleJsonProps.obj_eq] at hreq hresp ⊢
    rw [httpFromJson]
    rw [show RuleJson.get "request" _ = _ from hreq, show RuleJson.get "response" _ = _ from hresp]
    simp only [Option.getD_some, h3, h5, Res.bind_ok]
  | async c m =>
    obtain ⟨hc, hm⟩ := h
    rw [interactionToJson]
    obtain ⟨m', h1, h2⟩ := message_read E m none hm (obj (commonAttrs "Asynchronous/Messages" c
        ++ optJson "contents" (bodyToJson E m.contents) ++ metadataAttrs m.metadata ++ rulesAttrs m.rules m.gens))
      (by rw [vget_obj, slast_append, slast_append, slast_append, slast_rules, slast_metadata, slast_common,
            withContentType_none]; vget_simp)
      (by rw [vget_obj, slast_append, slast_append, slast_append, slast_rules, slast_metadata, slast_common]; vget_simp)
      (by rw [vget_obj, slast_append, slast_append, slast_append, slast_rules, slast_metadata, slast_common]; vget_simp)
      (by rw [vget_obj, slast_append, slast_append, slast_append, slast_rules, slast_metadata, slast_common]; vget_simp)
    have ht : vget "type" (obj (commonAttrs "Asynchronous/Messages" c
        ++ optJson "contents" (bodyToJson E m.contents) ++ metadataAttrs m.metadata ++ rulesAttrs m.rules m.gens))
        = some (lit "Asynchronous/Messages") := by
      rw [vget_obj, slast_append, slast_append, slast_append, slast_rules, slast_metadata, slast_common]; vget_simp
    have hcr := common_read "Asynchronous/Messages" c hc _ index
      (message_free (bodyToJson E m.contents) m.metadata m.rules m.gens)
    rw [← List.append_assoc, ← List.append_assoc] at hcr
    refine ⟨_, .async _ m', rfl, ?_, hcr, h2⟩
    rw [dispatch_async E index _ ht]
    rw [RuleJsonProps.obj_eq] at h1 ⊢
    rw [asyncFromJson, h1, Res.map_ok]
  | sync c req resps =>
    obtain ⟨hc, hm, hrs⟩ := h
    obtain ⟨jr, req', h1, h2, h3⟩ := message_roundtrip E req hm
    obtain ⟨bs, cs, i1, i2, i3⟩ := allOk_roundtrip (messageToJson E) (messageFromJson E)
      (fun r r' => SameMessage E (messageCT E r) r r') resps (fun r hr => message_roundtrip E r (hrs r hr))
    rw [interactionToJson]
    rw [h1, Res.bind_ok, i1, Res.map_ok]
    refine ⟨_, .sync _ req' cs, rfl, ?_, common_read "Synchronous/Messages" c hc
      [("request", jr), ("response", .arr bs)] index (reqresp_free _ _), h3, i3⟩
    have ht : vget "type" (obj (commonAttrs "Synchronous/Messages" c ++ [("request", jr), ("response", .arr bs)]))
        = some (lit "Synchronous/Messages") := by
      rw [vget_obj, slast_append, slast_common]; vget_simp
    have hreq : vget "request" (obj (commonAttrs "Synchronous/Messages" c ++ [("request", jr), ("response", .arr bs)]))
        = some jr := by
      rw [vget_obj, slast_append, slast_common]; vget_simp
    have hresp : vget "response" (obj (commonAttrs "Synchronous/Messages" c ++ [("request", jr), ("response", .arr bs)]))
        = some (.arr bs) := by
      rw [vget_obj, slast_append, slast_common]; vget_simp
    rw [dispatch_sync E index _ ht]
    rw [RuleJsonProps.obj_eq] at hreq hresp ⊢
    rw [syncFromJson]
    rw [show RuleJson.get "request" _ = _ from hreq, show RuleJson.get "response" _ = _ from hresp]
    simp only [h2, i2, Res.bind_ok, Res.map_ok]

/-! ## C75 Pacts -/

/-! ### Specification -/

/-- The interactions in the order of a file: sorted by description, and in their own order where that is the same. -/
structure FileOrder (l s : List Interaction) : Prop where
  perm : s.Perm l
  sorted : s.Pairwise fun a b => Json.strLt b.common.description a.common.description = false
  stable : ∀ d, s.filter (fun i => decide (i.common.description = d)) = l.filter (fun i => decide (i.common.description = d))

/-- The same plugin, with the same configuration. -/
def SamePlugin (p p' : Plugin) : Prop :=
  p'.name = p.name ∧ p'.version = p.version ∧ SameMap p'.configuration p.configuration

/-- The versions of the libraries: the version of this one is recorded next to those of the others. -/
def Stamped (E : FileEnv) (old : Option Json) (new : Json) : Prop :=
  match old with
  | some (.obj m) => ∃ m', new = .obj m' ∧ Json.lookup "models".toList m' = some (.str E.rustVersion) ∧
      ∀ q, q ≠ "models".toList → Json.lookup q m' = Json.lookup q m
  | some v => new = v
  | none => new = .obj [("models".toList, .str E.rustVersion)]

/-- What a pact file keeps of the metadata: the version of the specification is set and the old names of two entries are
replaced. -/
structure SameMetadata (E : FileEnv) (m m' : Obj) : Prop where
  spec : Json.lookup "pactSpecification".toList m' = some (.obj [("version".toList, .str "4.0".toList)])
  oldSpec : Json.lookup "pact-specification".toList m' = none
  rust : ∃ v, Json.lookup "pactRust".toList m' = some v ∧
    Stamped E ((Json.lookup "pactRust".toList m).or (Json.lookup "pact-rust".toList m)) v
  oldRust : Json.lookup "pact-rust".toList m' = none
  others : ∀ q, q ∉ ["pactSpecification".toList, "pact-specification".toList, "pactRust".toList, "pact-rust".toList] →
    Json.lookup q m' = Json.lookup q m

/-- What a pact file keeps of a pact. -/
structure SamePact (E : FileEnv) (p p' : V4Pact) : Prop where
  consumer : p'.consumer = p.consumer
  provider : p'.provider = p.provider
  interactions : ∃ s, FileOrder p.interactions s ∧ Each (SameInteraction E) s p'.interactions
  metadata : SameMetadata E p.metadata p'.metadata
  plugins : Each SamePlugin p.plugins p'.plugins

/-- A pact that can be written: the metadata is a `BTreeMap` without an entry for the plugins, the versions are a map,
and so are the configurations. -/
structure PactOk (E : FileEnv) (p : V4Pact) : Prop where
  interactions : ∀ i ∈ p.interactions, InteractionOk E i
  metadata : Json.SortedKeys (p.metadata.map (·.1))
  noPlugins : Json.lookup "plugins".toList p.metadata = none
  rust : ∀ m, (Json.lookup "pactRust".toList p.metadata).or (Json.lookup "pact-rust".toList p.metadata) = some (.obj m) →
    Json.SortedKeys (m.map (·.1))
  plugins : ∀ d ∈ p.plugins, IsMap d.configuration

/-! ### Lemmas -/

theorem insertBy_perm (x : Interaction) (l : List Interaction) : (insertBy x l).Perm (x :: l) := by
  induction l with
  | nil => exact List.Perm.refl _
  | cons y ys ih =>
    unfold insertBy
    split
    · exact List.Perm.refl _
    · exact (ih.cons y).trans (List.Perm.swap x y ys)

theorem insertBy_sorted (x : Interaction) (l : List Interaction)
    (h : l.Pairwise fun a b => Json.strLt b.common.description a.common.description = false) :
    (insertBy x l).Pairwise fun a b => Json.strLt b.common.description a.common.description = false := by
  induction l with
  | nil => exact List.pairwise_singleton _ _
  | cons y ys ih =>
    have hy := List.pairwise_cons.1 h
    unfold insertBy
    split
    · rename_i hlt
      refine List.pairwise_cons.2 ⟨?_, h⟩
      intro z hz
      rcases List.mem_cons.1 hz with rfl | hz
      · cases hc : Json.strLt z.common.description x.common.description with
        | false => rfl
        | true => exact absurd (Json.strLt_trans hlt hc) (by rw [Json.strLt_irrefl]; decide)
      · cases hc : Json.strLt z.common.description x.common.description with
        | false => rfl
        | true => have := Json.strLt_trans hc hlt; rw [hy.1 z hz] at this; cases this
    · rename_i hlt
      refine List.pairwise_cons.2 ⟨?_, ih hy.2⟩
      intro z hz
      rcases List.mem_cons.1 ((insertBy_perm x ys).mem_iff.1 hz) with rfl | hz
      · exact Bool.eq_false_iff.2 hlt
      · exact hy.1 z hz

theorem insertBy_stable (x : Interaction) (l : List Interaction)
    (h : l.Pairwise fun a b => Json.strLt b.common.description a.common.description = false) (d : Str) :
    (insertBy x l).filter (fun i => decide (i.common.description = d))
      = (l ++ [x]).filter (fun i => decide (i.common.description = d)) := by
  induction l with
  | nil => rfl
  | cons y ys ih =>
    have hy := List.pairwise_cons.1 h
    unfold insertBy
    split
    · rename_i hlt
      rw [List.filter_append, List.filter_cons]
      by_cases hd : x.common.description = d
      · have hnone : (y :: ys).filter (fun i => decide (i.common.description = d)) = [] := by
          refine List.filter_eq_nil_iff.2 (fun z hz hzd => ?_)
          have hzd := of_decide_eq_true hzd
          rcases List.mem_cons.1 hz with rfl | hz
          · rw [hzd, hd, Json.strLt_irrefl] at hlt; cases hlt
          · have := hy.1 z hz; rw [hzd, ← hd, hlt] at this; cases this
        rw [hnone, decide_eq_true hd]
        simp [hd]
      · rw [decide_eq_false hd]
        simp [hd]
    · rw [List.filter_cons, ih hy.2, List.cons_append, List.filter_cons]

theorem sort_order (l : List Interaction) : FileOrder l (sortByDescription l) := by
  unfold sortByDescription
  have h : ∀ (l acc done : List Interaction), FileOrder done acc →
      FileOrder (done ++ l) (l.foldl (fun acc x => insertBy x acc) acc) := by
    intro l
    induction l with
    | nil => intro acc done h; rw [List.append_nil]; exact h
    | cons x xs ih =>
      intro acc done h
      rw [List.foldl_cons, List.append_cons]
      refine ih _ _ ⟨?_, insertBy_sorted x acc h.sorted, fun d => ?_⟩
      · exact (insertBy_perm x acc).trans ((h.perm.cons x).trans (List.perm_append_singleton x done).symm)
      · rw [insertBy_stable x acc h.sorted d, List.filter_append, List.filter_append, h.stable d]
  exact h l [] [] ⟨List.Perm.refl _, List.Pairwise.nil, fun _ => rfl⟩

theorem loop_roundtrip (E : FileEnv) (l : List Interaction) (h : ∀ i ∈ l, InteractionOk E i) (index : Nat) :
    ∃ js is, allOk (l.map (interactionToJson E)) = .ok js ∧ interactionsLoop E index js = .ok is ∧
      Each (SameInteraction E) l is := by
  induction l generalizing index with
  | nil => exact ⟨[], [], rfl, rfl, trivial⟩
  | cons i is ih =>
    obtain ⟨j, i', h1, h2, h3⟩ := C74_interaction_partial E i (h i List.mem_cons_self) index
    obtain ⟨js, is', k1, k2, k3⟩ := ih (fun x hx => h x (List.mem_cons_of_mem _ hx)) (index + 1)
    refine ⟨j :: js, i' :: is', ?_, ?_, h3, k3⟩
    · rw [List.map_cons, allOk, h1, Res.bind_ok, k1]; rfl
    · rw [interactionsLoop, h2, Res.bind_ok, k2]; rfl

theorem lookup_append' {A : Type} (q : Str) (a b : List (Str × A)) :
    Json.lookup q (a ++ b) = (Json.lookup q a).or (Json.lookup q b) := by
  induction a with
  | nil => rfl
  | cons e es ih =>
    obtain ⟨k, v⟩ := e
    rw [List.cons_append]
    show (if k = q then some v else Json.lookup q (es ++ b)) = (if k = q then some v else Json.lookup q es).or _
    by_cases h : k = q
    · rw [if_pos h, if_pos h]; rfl
    · rw [if_neg h, if_neg h, ih]

theorem lookup_one {A : Type} (q k : Str) (v : A) : Json.lookup q [(k, v)] = if k = q then some v else none := rfl

theorem lookup_collect_last {A : Type} (q : Str) (es : List (Str × A)) :
    Json.lookup q (OMap.collect es) = Json.lookup q es.reverse := by
  unfold OMap.collect
  rw [(OMap.foldl_insert es [] trivial).2 q]
  cases Json.lookup q es.reverse <;> rfl

/-- The renamed metadata. -/
def renamed (m : Obj) : Obj := m.map fun e => (metadataKey e.1, e.2)

theorem lookup_none_of_not_mem {A : Type} (q : Str) (m : List (Str × A)) (h : q ∉ m.map (·.1)) : Json.lookup q m = none := by
  cases hl : Json.lookup q m with
  | none => rfl
  | some v => exact absurd (List.mem_map.2 ⟨_, Json.lookup_mem hl, rfl⟩) h

theorem renamed_other (m : Obj) (hs : Json.SortedKeys (m.map (·.1))) (q : Str)
    (hq : q ∉ ["pactSpecification".toList, "pact-specification".toList, "pactRust".toList, "pact-rust".toList]) :
    Json.lookup q (renamed m).reverse = Json.lookup q m := by
  have hq1 : q ≠ "pactSpecification".toList := fun h => hq (by rw [h]; decide)
  have hq2 : q ≠ "pact-specification".toList := fun h => hq (by rw [h]; decide)
  have hq3 : q ≠ "pactRust".toList := fun h => hq (by rw [h]; decide)
  have hq4 : q ≠ "pact-rust".toList := fun h => hq (by rw [h]; decide)
  have hk : ∀ k, (metadataKey k = q ↔ k = q) := by
    intro k
    unfold metadataKey
    by_cases h1 : k = "pact-specification".toList
    · rw [if_pos h1, h1]; exact ⟨fun h => absurd h.symm hq1, fun h => absurd h.symm hq2⟩
    · rw [if_neg h1]
      by_cases h2 : k = "pact-rust".toList
      · rw [if_pos h2, h2]; exact ⟨fun h => absurd h.symm hq3, fun h => absurd h.symm hq4⟩
      · rw [if_neg h2]
  induction m with
  | nil => rfl
  | cons e es ih =>
    obtain ⟨k, v⟩ := e
    have hn : k ∉ es.map (·.1) := (List.nodup_cons.1 hs.nodup).1
    show Json.lookup q ((metadataKey k, v) :: renamed es).reverse = (if k = q then some v else Json.lookup q es)
    rw [List.reverse_cons, lookup_append', ih hs.2, lookup_one]
    by_cases h : k = q
    · rw [if_pos h, if_pos ((hk k).2 h), lookup_none_of_not_mem q es (by rw [← h]; exact hn)]; rfl
    · rw [if_neg h, if_neg (fun h' => h ((hk k).1 h')), or_none']

theorem renamed_old (m : Obj) (q : Str) (hq : q = "pact-specification".toList ∨ q = "pact-rust".toList) :
    Json.lookup q (renamed m).reverse = none := by
  refine lookup_none_of_not_mem q _ ?_
  intro h
  rw [List.map_reverse, List.mem_reverse] at h
  obtain ⟨e, he, hk⟩ := List.mem_map.1 h
  obtain ⟨f, _, rfl⟩ := List.mem_map.1 he
  revert hk
  show metadataKey f.1 = q → False
  unfold metadataKey
  intro hk
  by_cases h1 : f.1 = "pact-specification".toList
  · rw [if_pos h1] at hk; rw [← hk] at hq; revert hq; decide
  · rw [if_neg h1] at hk
    by_cases h2 : f.1 = "pact-rust".toList
    · rw [if_pos h2] at hk; rw [← hk] at hq; revert hq; decide
    · rw [if_neg h2] at hk
      rcases hq with hq | hq
      · exact h1 (hk.trans hq)
      · exact h2 (hk.trans hq)

theorem renamed_rust (m : Obj) (hs : Json.SortedKeys (m.map (·.1))) :
    Json.lookup "pactRust".toList (renamed m).reverse
      = (Json.lookup "pactRust".toList m).or (Json.lookup "pact-rust".toList m) := by
  induction m with
  | nil => rfl
  | cons e es ih =>
    obtain ⟨k, v⟩ := e
    have hlt : ∀ l ∈ es.map (·.1), Json.strLt k l = true := hs.1
    have hn : k ∉ es.map (·.1) := (List.nodup_cons.1 hs.nodup).1
    show Json.lookup "pactRust".toList ((metadataKey k, v) :: renamed es).reverse
      = (if k = "pactRust".toList then some v else Json.lookup "pactRust".toList es).or
        (if k = "pact-rust".toList then some v else Json.lookup "pact-rust".toList es)
    rw [List.reverse_cons, lookup_append', ih hs.2, lookup_one]
    by_cases h1 : k = "pactRust".toList
    · have h2 : Json.lookup "pact-rust".toList es = none := by
        refine lookup_none_of_not_mem _ es (fun h => ?_)
        have := hlt _ h
        rw [h1] at this
        exact absurd this (by decide)
      have h3 : Json.lookup "pactRust".toList es = none := lookup_none_of_not_mem _ es (by rw [← h1]; exact hn)
      rw [if_pos h1, h2, h3]
      show (if metadataKey k = "pactRust".toList then some v else none) = some v
      rw [h1, if_pos (by decide)]
    · rw [if_neg h1]
      by_cases h2 : k = "pact-rust".toList
      · have h3 : Json.lookup "pact-rust".toList es = none := lookup_none_of_not_mem _ es (by rw [← h2]; exact hn)
        rw [if_pos h2, h3, or_none', h2, if_pos (by decide)]
      · rw [if_neg h2]
        have : metadataKey k ≠ "pactRust".toList := by
          unfold metadataKey
          by_cases h3 : k = "pact-specification".toList
          · rw [if_pos h3]; decide
          · rw [if_neg h3, if_neg h2]; exact h1
        rw [if_neg this, or_none']

theorem stamped (E : FileEnv) (old : Option Json)
    (h : ∀ m, old = some (.obj m) → Json.SortedKeys (m.map (·.1))) : Stamped E old (withVersion E old) := by
  unfold Stamped
  match old with
  | none => rfl
  | some (.obj m) =>
    refine ⟨_, rfl, ?_, fun q hq => ?_⟩
    · rw [OMap.lookup_insert _ _ _ (h m rfl), if_pos rfl]
    · rw [OMap.lookup_insert _ _ _ (h m rfl), if_neg hq]
  | some .null => rfl
  | some (.bool _) => rfl
  | some (.num _) => rfl
  | some (.str _) => rfl
  | some (.arr _) => rfl

theorem plugin_read (p : Plugin) : pluginFromJson (pluginToJson p) = some ⟨p.name, p.version, OMap.collect p.configuration⟩ := by
  unfold pluginToJson
  rw [RuleJsonProps.obj_eq]
  unfold pluginFromJson
  simp only
  rw [RuleJsonProps.get_attrs, RuleJsonProps.get_attrs, RuleJsonProps.get_attrs]
  rfl

theorem plugins_read (l : List Plugin) (h : ∀ p ∈ l, IsMap p.configuration) :
    Each SamePlugin l ((l.map pluginToJson).filterMap pluginFromJson) := by
  induction l with
  | nil => trivial
  | cons p ps ih =>
    rw [List.map_cons, List.filterMap_cons, plugin_read]
    exact ⟨⟨rfl, rfl, collect_same _ (h p List.mem_cons_self)⟩, ih (fun x hx => h x (List.mem_cons_of_mem _ hx))⟩

theorem lookup_filter_key (q x : Str) (m : Obj) :
    Json.lookup q (m.filter fun e => !decide (e.1 = x)) = if q = x then none else Json.lookup q m := by
  induction m with
  | nil => rw [ite_self' (q = x) (none : Option Json) |>.symm]; split <;> rfl
  | cons e es ih =>
    obtain ⟨k, v⟩ := e
    rw [List.filter_cons]
    by_cases hk : k = x
    · rw [if_neg (by simp [hk]), ih]
      by_cases hq : q = x
      · rw [if_pos hq, if_pos hq]
      · rw [if_neg hq, if_neg hq]
        show _ = if k = q then some v else Json.lookup q es
        rw [if_neg (fun h => hq (h.symm.trans hk))]
    · rw [if_pos (by simp [hk])]
      show (if k = q then some v else Json.lookup q (es.filter _)) = if q = x then none else if k = q then some v else Json.lookup q es
      by_cases hkq : k = q
      · rw [if_pos hkq, if_pos hkq, if_neg (fun h => hk (hkq.trans h))]
      · rw [if_neg hkq, if_neg hkq, ih]

/-! ### Theorems -/

/-- **C75.** A pact that can be written is written without failing, and reading the file gives the same pact. -/
theorem C75_pact_partial (E : FileEnv) (p : V4Pact) (h : PactOk E p) :
    ∃ j p', pactToJson E p = .ok j ∧ pactFromJson E j = .ok p' ∧ SamePact E p p' := by
  have ho := sort_order p.interactions
  obtain ⟨js, is, h1, h2, h3⟩ := loop_roundtrip E (sortByDescription p.interactions)
    (fun i hi => h.interactions i (ho.perm.mem_iff.1 hi)) 0
  unfold pactToJson
  rw [h1, Res.map_ok]
  generalize hj : obj _ = j
  have hv : ∀ k, vget k j = slast k _ := fun k => by rw [← hj]; exact vget_obj k _
  have hc : vget "consumer" j = some (obj [("name", .str p.consumer)]) := by rw [hv]; vget_simp
  have hp : vget "provider" j = some (obj [("name", .str p.provider)]) := by rw [hv]; vget_simp
  have hi : vget "interactions" j = some (.arr js) := by rw [hv]; vget_simp
  have hm : vget "metadata" j = some (metadataToJson E p) := by rw [hv]; vget_simp
  have hname : ∀ (n d : Str), attrText "name" d (obj [("name", .str n)]) = n := by
    intro n d
    rw [attrText, vget_obj, slast_one, if_pos rfl]; rfl
  -- the metadata
  have hren : ∀ q, Json.lookup q (OMap.collect (renamed p.metadata)) = Json.lookup q (renamed p.metadata).reverse :=
    fun q => lookup_collect_last q _
  have hs1 := OMap.collect_sorted (renamed p.metadata)
  have hs2 := OMap.insert_sorted "pactSpecification".toList (obj [("version", lit "4.0")]) _ hs1
  have hs3 := fun v => OMap.insert_sorted "pactRust".toList v _ hs2
  have hrust : Json.lookup "pactRust".toList (OMap.insert "pactSpecification".toList (obj [("version", lit "4.0")])
      (OMap.collect (renamed p.metadata)))
      = (Json.lookup "pactRust".toList p.metadata).or (Json.lookup "pact-rust".toList p.metadata) := by
    rw [OMap.lookup_insert _ _ _ hs1, if_neg (by decide), hren, renamed_rust _ h.metadata]
  have hmeta : ∀ md, metadataToJson E p = .obj md → ∀ q, Json.lookup q md =
      if q = "plugins".toList then (if p.plugins.isEmpty = true then none else some (.arr (p.plugins.map pluginToJson)))
      else if q = "pactRust".toList then some (withVersion E
        ((Json.lookup "pactRust".toList p.metadata).or (Json.lookup "pact-rust".toList p.metadata)))
      else if q = "pactSpecification".toList then some (obj [("version", lit "4.0")])
      else Json.lookup q (renamed p.metadata).reverse := by
    intro md hmd q
    unfold metadataToJson at hmd
    simp only at hmd
    rw [show (p.metadata.map fun e => (metadataKey e.1, e.2)) = renamed p.metadata from rfl, hrust] at hmd
    injection hmd with hmd
    rw [← hmd]
    have hrest : Json.lookup q (OMap.insert "pactRust".toList (withVersion E
        ((Json.lookup "pactRust".toList p.metadata).or (Json.lookup "pact-rust".toList p.metadata)))
        (OMap.insert "pactSpecification".toList (obj [("version", lit "4.0")]) (OMap.collect (renamed p.metadata))))
        = if q = "pactRust".toList then some (withVersion E
          ((Json.lookup "pactRust".toList p.metadata).or (Json.lookup "pact-rust".toList p.metadata)))
        else if q = "pactSpecification".toList then some (obj [("version", lit "4.0")])
        else Json.lookup q (renamed p.metadata).reverse := by
      rw [OMap.lookup_insert _ _ _ hs2, OMap.lookup_insert _ _ _ hs1, hren]
    by_cases he : p.plugins.isEmpty = true
    · rw [if_pos he, if_pos he, hrest]
      by_cases hq : q = "plugins".toList
      · rw [if_pos hq, hq, if_neg (by decide), if_neg (by decide),
          renamed_other p.metadata h.metadata _ (by decide), h.noPlugins]
      · rw [if_neg hq]
    · rw [if_neg he, if_neg he, OMap.lookup_insert _ _ _ (hs3 _), hrest]
  obtain ⟨md, hmd⟩ : ∃ md, metadataToJson E p = .obj md := ⟨_, rfl⟩
  have hl := hmeta md hmd
  have hobj : objAttr "metadata" j = md := by unfold objAttr; rw [hm, hmd]
  refine ⟨j, ⟨p.consumer, p.provider, is, md.filter fun e => !decide (e.1 = "plugins".toList), pluginsFromJson md⟩,
    rfl, ?_, ?_⟩
  · unfold pactFromJson interactionsFromJson nameFromJson
    simp only
    rw [hi, hobj, hc, hp]
    simp only [h2, Res.map_ok, hname]
  · refine ⟨rfl, rfl, ⟨_, ho, h3⟩, ?_, ?_⟩
    · constructor
      · show Json.lookup _ (md.filter _) = _
        rw [lookup_filter_key, if_neg (by decide), hl, if_neg (by decide), if_neg (by decide), if_pos rfl]; rfl
      · show Json.lookup _ (md.filter _) = _
        rw [lookup_filter_key, if_neg (by decide), hl, if_neg (by decide), if_neg (by decide), if_neg (by decide)]
        exact renamed_old _ _ (Or.inl rfl)
      · refine ⟨_, ?_, stamped E _ h.rust⟩
        show Json.lookup _ (md.filter _) = _
        rw [lookup_filter_key, if_neg (by decide), hl, if_neg (by decide), if_pos rfl]
      · show Json.lookup _ (md.filter _) = _
        rw [lookup_filter_key, if_neg (by decide), hl, if_neg (by decide), if_neg (by decide), if_neg (by decide)]
        exact renamed_old _ _ (Or.inr rfl)
      · intro q hq
        show Json.lookup _ (md.filter _) = _
        rw [lookup_filter_key, hl]
        by_cases hqp : q = "plugins".toList
        · rw [if_pos hqp, hqp, h.noPlugins]
        · rw [if_neg hqp, if_neg hqp, if_neg (fun h => hq (by rw [h]; decide)), if_neg (fun h => hq (by rw [h]; decide))]
          exact renamed_other _ h.metadata _ hq
    · show Each SamePlugin p.plugins (pluginsFromJson md)
      unfold pluginsFromJson
      rw [hl, if_pos rfl]
      have hpc := h.plugins
      cases hpl : p.plugins with
      | nil => trivial
      | cons d ds =>
        rw [hpl] at hpc
        rw [if_neg (by simp)]
        exact plugins_read _ hpc

/-! ### Non-vacuity and limits -/

instance {A : Type} (m : List (Str × A)) : Decidable (IsMap m) := inferInstanceAs (Decidable (m.map (·.1)).Nodup)

instance sortedKeysDec : (ks : List Str) → Decidable (Json.SortedKeys ks)
  | [] => isTrue trivial
  | k :: ks => @instDecidableAnd _ _ (inferInstanceAs (Decidable (∀ l ∈ ks, Json.strLt k l = true))) (sortedKeysDec ks)

/-- An environment for examples: two content types, three JSON texts. -/
def exE : FileEnv where
  P := RuleJsonProps.exP
  upper := List.map Char.toUpper
  parseCT := fun s =>
    if s = "application/json".toList then some ⟨"application".toList, "json".toList, [], none⟩
    else if s = "text/plain".toList then some ⟨"text".toList, "plain".toList, [], none⟩
    else if s = "*/*".toList then some .unknown else none
  detectStr := fun _ => .unknown
  detectBytes := fun _ => none
  json := fun b =>
    if b = utf8 "[ 1 ]".toList then some (.arr [.num (.pos 1)])
    else if b = utf8 "null".toList then some .null
    else if b = utf8 "\"\"".toList then some (.str []) else none
  json_text := by
    intro b v h
    split at h
    · cases h; decide
    · split at h
      · cases h; decide
      · split at h
        · cases h; decide
        · cases h
  version := fun s => if s = "4.0".toList then some (4, 0) else none
  rustVersion := "1.2.3".toList

def jsonCT : ContentType := ⟨"application".toList, "json".toList, [], none⟩
def textCT : ContentType := ⟨"text".toList, "plain".toList, [], none⟩

def exCommon : Common :=
  { id := some "1".toList, key := some "k".toList, description := "b".toList
    states := [⟨"s".toList, [("y".toList, .num (.pos 1)), ("x".toList, .null)]⟩, ⟨"t".toList, []⟩]
    comments := [("text".toList, .arr []), ("note".toList, .str "n".toList)]
    pending := true, plugins := [("p".toList, [("a".toList, .bool true)])]
    markup := ⟨"#".toList, "COMMON_MARK".toList⟩, transport := some "https".toList }

theorem exCommon_ok : CommonOk exCommon := by
  refine ⟨?_, by decide, by decide, ?_⟩
  · intro p hp
    simp only [exCommon, List.mem_cons, List.not_mem_nil, or_false] at hp
    rcases hp with rfl | rfl <;> decide
  · intro p hp
    simp only [exCommon, List.mem_cons, List.not_mem_nil, or_false] at hp
    subst hp; decide

def exMessage : MessageContents :=
  ⟨.present (utf8 "[ 1 ]".toList) none none, [("contentType".toList, .str "application/json".toList)],
    RuleJsonProps.exRules, GenerateProps.exGens⟩

def exPact : V4Pact where
  consumer := "c".toList
  provider := "p".toList
  interactions :=
    [.http exCommon
      ⟨"post".toList, "/x".toList, some [("q".toList, [some "1".toList, none])],
        some [("Content-Type".toList, ["application/json".toList])],
        .present (utf8 "[ 1 ]".toList) none none, RuleJsonProps.exRules, GenerateProps.exGens⟩
      ⟨204, some [("X".toList, [])], .present [0, 255] (some textCT) (some .binary), RuleJsonProps.exRules, []⟩,
     .async { exCommon with description := "a".toList } exMessage,
     .sync { exCommon with description := "a".toList } exMessage [exMessage, ⟨.empty, [], [], []⟩]]
  metadata := [("other".toList, .null), ("pact-rust".toList, .obj [("ffi".toList, .str "9".toList)])]
  plugins := [⟨"pl".toList, "1".toList, [("z".toList, .null)]⟩]

theorem parses_json : Parses exE jsonCT := by unfold Parses; decide
theorem parses_text : Parses exE textCT := by unfold Parses; decide
theorem parses_unknown : Parses exE .unknown := by unfold Parses; decide

theorem exParts_ok : PartsOk exE RuleJsonProps.exRules GenerateProps.exGens :=
  ⟨RuleJsonProps.exRules_ok, GenerateProps.exGens_ok⟩

theorem emptyParts_ok : PartsOk exE [] [] :=
  ⟨⟨List.nodup_nil, fun _ h => absurd h List.not_mem_nil⟩, ⟨List.nodup_nil, fun _ h => absurd h List.not_mem_nil⟩⟩

theorem exMessage_ok (ct : Option ContentType) (h : ct = none ∨ ct = some jsonCT) : MessageOk exE ct exMessage := by
  refine ⟨by decide, ?_, exParts_ok⟩
  intro b c hi hb
  rcases h with rfl | rfl
  · cases hb; exact parses_unknown
  · cases hb; exact parses_json

theorem exMessage_ct : messageCT exE exMessage = some jsonCT := by
  show ((RuleJson.get "contentType" exMessage.metadata).bind fun v => exE.parseCT v.toStr).or none = _
  decide

/-- The hypotheses of C75 (and so of C72, C73 and C74) are met by a pact with three kinds of interactions. -/
theorem exPact_ok : PactOk exE exPact := by
  refine ⟨?_, by decide, by decide, ?_, ?_⟩
  · intro i hi
    simp only [exPact, List.mem_cons, List.not_mem_nil, or_false] at hi
    rcases hi with rfl | rfl | rfl
    · refine ⟨exCommon_ok, ⟨?_, ?_, ?_, exParts_ok⟩, by decide, ?_, ?_, ?_⟩
      · intro m hm; cases hm; decide
      · intro m hm; cases hm
        refine ⟨by decide, ?_⟩
        intro e he _
        rw [List.mem_singleton.1 he]; exact List.cons_ne_nil _ _
      · intro ct hct
        have : calcContentType exE (.present (utf8 "[ 1 ]".toList) none none)
            (some [("Content-Type".toList, ["application/json".toList])]) = .ok (some jsonCT) := by decide
        rw [this] at hct
        cases hct
        intro b c h hb
        cases hb
        exact parses_json
      · intro m hm; cases hm
        refine ⟨by decide, ?_⟩
        intro e he hl
        rw [List.mem_singleton.1 he] at hl
        exact absurd hl (by decide)
      · intro b c h hb; cases hb; exact parses_text
      · exact ⟨RuleJsonProps.exRules_ok, emptyParts_ok.2⟩
    · exact ⟨⟨exCommon_ok.1, exCommon_ok.2, exCommon_ok.3⟩, exMessage_ok none (Or.inl rfl)⟩
    · refine ⟨⟨exCommon_ok.1, exCommon_ok.2, exCommon_ok.3⟩, exMessage_ok _ (Or.inr exMessage_ct), ?_⟩
      intro r hr
      simp only [List.mem_cons, List.not_mem_nil, or_false] at hr
      rcases hr with rfl | rfl
      · exact exMessage_ok _ (Or.inr exMessage_ct)
      · exact ⟨by decide, (fun b c h hb => by cases hb), emptyParts_ok⟩
  · intro m hm
    have : (Json.lookup "pactRust".toList exPact.metadata).or (Json.lookup "pact-rust".toList exPact.metadata)
        = some (.obj [("ffi".toList, .str "9".toList)]) := by decide
    rw [this] at hm
    cases hm
    decide
  · intro d hd
    simp only [exPact, List.mem_cons, List.not_mem_nil, or_false] at hd
    subst hd
    decide

/-- **C72 (limits).** The JSON values `null` and `""` are read back as a null and an empty body, a null body is lost, and
JSON is written anew. -/
theorem C72_limits :
    afterFile exE (.present (utf8 "null".toList) (some jsonCT) none) = .null ∧
    afterFile exE (.present (utf8 "\"\"".toList) (some jsonCT) none) = .empty ∧
    afterFile exE .null = .missing ∧
    afterFile exE (.present (utf8 "[ 1 ]".toList) (some jsonCT) none) = .present (utf8 "[1]".toList) (some jsonCT) none ∧
    afterFile exE (.present (utf8 "[ 1 ]".toList) (some textCT) none) = .present (utf8 "[ 1 ]".toList) (some textCT) none ∧
    afterFile exE (.present [0, 255] none (some .binary)) = .present [0, 255] (some .unknown) (some .binary) := by
  decide

/-- **C73 (limits).** A content type header without a value makes writing a request without a content type, and reading
a response with an empty body, panic; so does a status that is not a number. -/
theorem C73_panics :
    (∀ r : HttpRequest, r.headers = some [("Content-Type".toList, [])] → r.body = .empty → requestToJson exE r = .panic) ∧
    (∀ r : HttpResponse, r.headers = some [("Content-Type".toList, [])] → r.body = .empty → r.status = 200 → r.rules = [] →
      r.gens = [] → responseFromJson exE (responseToJson exE r) = .panic) ∧
    responseFromJson exE (.obj [("status".toList, .str "200".toList)]) = .panic := by
  refine ⟨?_, ?_, rfl⟩
  · rintro ⟨_, _, _, _, _, _, _⟩ h1 h2
    cases h1; cases h2
    unfold requestToJson
    rw [show calcContentType exE .empty (some [("Content-Type".toList, [])]) = .panic from by decide]
    rfl
  · rintro ⟨_, _, _, _, _⟩ h1 h2 h3 h4 h5
    cases h1; cases h2; cases h3; cases h4; cases h5
    rfl

/-- **C73 (defaults).** Attributes that a file does not have: a request is a `GET` of `/` without query, headers and
body; a response has the status 200, no headers and no body. -/
theorem C73_defaults (E : FileEnv) (v : Json) :
    (∀ r, requestFromJson E v = .ok r →
      (vget "method" v = none → r.method = "GET".toList) ∧ (vget "path" v = none → r.path = "/".toList) ∧
      (vget "query" v = none → r.query = none) ∧ (vget "headers" v = none → r.headers = none) ∧
      (vget "body" v = none → r.body = .missing) ∧ (vget "matchingRules" v = none → r.rules = []) ∧
      (vget "generators" v = none → r.gens = [])) ∧
    (∀ r, responseFromJson E v = .ok r →
      (vget "status" v = none → r.status = 200) ∧ (vget "headers" v = none → r.headers = none) ∧
      (vget "body" v = none → r.body = .missing) ∧ (vget "matchingRules" v = none → r.rules = []) ∧
      (vget "generators" v = none → r.gens = [])) := by
  constructor
  · intro r h
    unfold requestFromJson at h
    simp only at h
    cases hb : bodyFromJson E v "body" (QS.headersFromJson E.P.uc (vget "headers" v)) with
    | ok b =>
      cases hm : matchersFromJson E.P v none with
      | ok m =>
        cases hg : generatorsFromJson E.P v with
        | ok g =>
          rw [hb, hm, hg] at h
          simp only [Res.bind_ok] at h
          injection h with h
          rw [← h]
          refine ⟨?_, ?_, ?_, ?_, ?_, ?_, ?_⟩ <;> intro hn
          · simp only; rw [hn]; rfl
          · simp only; rw [attrText, hn]; rfl
          · simp only; rw [hn]; rfl
          · simp only; rw [hn]; rfl
          · unfold bodyFromJson at hb; rw [hn] at hb; injection hb with hb; exact hb.symm
          · unfold matchersFromJson at hm; rw [hn] at hm; injection hm with hm; exact hm.symm
          · unfold generatorsFromJson at hg; rw [hn] at hg; injection hg with hg; exact hg.symm
        | err => rw [hb, hm, hg] at h; cases h
        | panic => rw [hb, hm, hg] at h; cases h
      | err => rw [hb, hm] at h; cases h
      | panic => rw [hb, hm] at h; cases h
    | err => rw [hb] at h; cases h
    | panic => rw [hb] at h; cases h
  · intro r h
    unfold responseFromJson at h
    simp only at h
    cases hs : statusAttr (vget "status" v) with
    | ok s =>
      cases hb : bodyFromJson E v "body" (QS.headersFromJson E.P.uc (vget "headers" v)) with
      | ok b =>
        cases hm : matchersFromJson E.P v none with
        | ok m =>
          cases hg : generatorsFromJson E.P v with
          | ok g =>
            rw [hs, hb, hm, hg] at h
            simp only [Res.bind_ok] at h
            injection h with h
            rw [← h]
            refine ⟨?_, ?_, ?_, ?_, ?_⟩ <;> intro hn
            · rw [hn] at hs; injection hs with hs; exact hs.symm
            · simp only; rw [hn]; rfl
            · unfold bodyFromJson at hb; rw [hn] at hb; injection hb with hb; exact hb.symm
            · unfold matchersFromJson at hm; rw [hn] at hm; injection hm with hm; exact hm.symm
            · unfold generatorsFromJson at hg; rw [hn] at hg; injection hg with hg; exact hg.symm
          | err => rw [hs, hb, hm, hg] at h; cases h
          | panic => rw [hs, hb, hm, hg] at h; cases h
        | err => rw [hs, hb, hm] at h; cases h
        | panic => rw [hs, hb, hm] at h; cases h
      | err => rw [hs, hb] at h; cases h
      | panic => rw [hs, hb] at h; cases h
    | err => rw [hs] at h; cases h
    | panic => rw [hs] at h; cases h

example : ∃ r, requestFromJson exE (.obj []) = .ok r := ⟨_, rfl⟩
example : ∃ r, responseFromJson exE .null = .ok r := ⟨_, rfl⟩

/-- **C75 (defaults).** An interaction without description is called after its position; a pact without consumer or
provider gets default names. -/
theorem C75_defaults (E : FileEnv) (v : Json) :
    (∀ index, vget "description" v = none →
      (commonFromJson index v).description = "Interaction ".toList ++ Nat.toDigits 10 index) ∧
    (∀ p, pactFromJson E v = .ok p → (vget "consumer" v = none → p.consumer = "consumer".toList) ∧
      (vget "provider" v = none → p.provider = "provider".toList) ∧
      (vget "interactions" v = none → p.interactions = []) ∧
      (vget "metadata" v = none → p.metadata = [] ∧ p.plugins = [])) := by
  refine ⟨fun index h => ?_, fun p hp => ?_⟩
  · show attrText "description" _ v = _; rw [attrText, h]; rfl
  · unfold pactFromJson at hp
    simp only at hp
    obtain ⟨is, hi, rfl⟩ := Res.map_eq_ok.1 hp
    refine ⟨?_, ?_, ?_, ?_⟩ <;> intro hn
    · simp only [nameFromJson, hn]
    · simp only [nameFromJson, hn]
    · unfold interactionsFromJson at hi; rw [hn] at hi; injection hi with hi; exact hi.symm
    · unfold objAttr; rw [hn]; exact ⟨rfl, rfl⟩






end PactFileProps
end Verif
