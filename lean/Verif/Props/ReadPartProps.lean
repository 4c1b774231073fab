import Verif.Props.ReadDocProps
import Verif.Props.ReadGenProps
import Verif.Props.QueryStringProps
import Verif.Props.PactFileProps

/-
  C171: what the requests, responses and messages of a V4 pact file say.
-/

set_option autoImplicit false

namespace Verif
namespace ReadPartProps
open Path Rules RuleJson PactFile Matchers Generate Headers Query
open MatcherTableProps (rulesAt)
open IntegrationProps (genAt)
open SessionRuleProps (Each)

/-! ## Specification: bodies -/

/-- The content type of a body: the text of its own attribute, otherwise the first value of the first header with that name,
in upper or lower case.  Text that is no content type is none. -/
inductive Declared (E : FileEnv) (headers : Option HeaderMap) (o : Obj) : Option ContentType → Prop
  | own (t : Json) : RuleJson.get "contentType" o = some t → Declared E headers o (E.parseCT t.toStr)
  | header (before after : HeaderMap) (name v : Str) (vs : List Str) : RuleJson.get "contentType" o = none →
      headers = some (before ++ (name, v :: vs) :: after) → E.P.uc.lower name = "content-type".toList →
      (∀ e ∈ before, E.P.uc.lower e.1 ≠ "content-type".toList) → Declared E headers o (E.parseCT v)
  | none : RuleJson.get "contentType" o = none →
      (∀ hs, headers = some hs → ∀ e ∈ hs, E.P.uc.lower e.1 ≠ "content-type".toList) → Declared E headers o none

/-- How the content of a body is written: in Base64, as text, or as a value, if the content type is JSON. -/
inductive Way where
  | base64 | text | value

/-- The name of an encoding. -/
inductive Name (uc : UC) : Json → Str → Prop
  | string (s : Str) : Name uc (.str s) (uc.lower s)
  | other (v : Json) : (∀ b, v ≠ .bool b) → (∀ s, v ≠ .str s) → Name uc v v.text

/-- What the attribute `encoded` says; every name but `base64` (in upper or lower case) is for text. -/
inductive Encoded (uc : UC) (o : Obj) : Way → Prop
  | missing : RuleJson.get "encoded" o = none → Encoded uc o .value
  | no : RuleJson.get "encoded" o = some (.bool false) → Encoded uc o .value
  | yes : RuleJson.get "encoded" o = some (.bool true) → Encoded uc o .text
  | base64 (v : Json) : RuleJson.get "encoded" o = some v → Name uc v "base64".toList → Encoded uc o .base64
  | name (v : Json) (s : Str) : RuleJson.get "encoded" o = some v → Name uc v s → s ≠ "base64".toList → Encoded uc o .text

/-- The bytes of the content: decoded, if it is Base64; the JSON text of the value, if the content type is JSON, but nothing for
the empty string; otherwise the text, which for a string is the string itself. -/
inductive Content (ct : Option ContentType) (c : Json) : Way → Bytes → Prop
  | decoded (b : Bytes) : Base64.decode c.toStr = some b → Content ct c .base64 b
  | undecoded : Base64.decode c.toStr = none → Content ct c .base64 (utf8 c.toStr)
  | text : Content ct c .text (utf8 c.toStr)
  | value (t : ContentType) : ct = some t → t.isJson = true → c ≠ .str [] → Content ct c .value (utf8 c.text)
  | emptyText (t : ContentType) : ct = some t → t.isJson = true → c = .str [] → Content ct c .value []
  | plain : (∀ t, ct = some t → t.isJson = false) → Content ct c .value (utf8 c.toStr)

/-- The content type that a body gets: the declared one, or what its bytes look like. -/
inductive TypeIs (E : FileEnv) (b : Bytes) : Option ContentType → ContentType → Prop
  | declared (t : ContentType) : TypeIs E b (some t) t
  | detected (t : ContentType) : E.detectBytes b = some t → TypeIs E b none t
  | unknown : E.detectBytes b = none → TypeIs E b none .unknown

/-- The content type hint; everything that is not one of the two names is the default. -/
inductive HintIs (o : Obj) : Option Hint → Prop
  | none : RuleJson.get "contentTypeHint" o = none → HintIs o none
  | binary : RuleJson.get "contentTypeHint" o = some (.str "BINARY".toList) → HintIs o (some .binary)
  | text : RuleJson.get "contentTypeHint" o = some (.str "TEXT".toList) → HintIs o (some .text)
  | default (v : Json) : RuleJson.get "contentTypeHint" o = some v → v ≠ .str "BINARY".toList → v ≠ .str "TEXT".toList →
      HintIs o (some .default)

/-- The body that an attribute of a document stands for. -/
inductive BodyIs (E : FileEnv) (v : Json) (attr : String) (headers : Option HeaderMap) : FBody → Prop
  | missing : vget attr v = none → BodyIs E v attr headers .missing
  | null : vget attr v = some .null → BodyIs E v attr headers .null
  | raw (x : Json) : vget attr v = some x → x ≠ .null → (∀ o, x ≠ .obj o) →
      BodyIs E v attr headers (.present (utf8 x.text) none none)
  | noContent (o : Obj) : vget attr v = some (.obj o) → RuleJson.get "content" o = none → BodyIs E v attr headers .missing
  | nullContent (o : Obj) : vget attr v = some (.obj o) → RuleJson.get "content" o = some .null → BodyIs E v attr headers .null
  | empty (o : Obj) (c : Json) (ct : Option ContentType) (w : Way) : vget attr v = some (.obj o) →
      RuleJson.get "content" o = some c → c ≠ .null → Declared E headers o ct → Encoded E.P.uc o w → Content ct c w [] →
      BodyIs E v attr headers .empty
  | present (o : Obj) (c : Json) (ct : Option ContentType) (w : Way) (b : Bytes) (t : ContentType) (h : Option Hint) :
      vget attr v = some (.obj o) → RuleJson.get "content" o = some c → c ≠ .null → Declared E headers o ct →
      Encoded E.P.uc o w → Content ct c w b → b ≠ [] → TypeIs E b ct t → HintIs o h →
      BodyIs E v attr headers (.present b (some t) h)

/-! ## Specification: the other attributes -/

/-- Headers with one value only. -/
def SingleValue (uc : UC) (name : Str) : Prop :=
  uc.lower name ∈ ["date".toList, "accept-datetime".toList, "if-modified-since".toList, "if-unmodified-since".toList,
    "expires".toList, "retry-after".toList, "last-modified".toList, "set-cookie".toList, "user-agent".toList]

/-- The values of a header: an array of them, or a text with the values separated by commas. -/
inductive HeaderValues (uc : UC) (name : Str) : Json → List Str → Prop
  | single (s : Str) : SingleValue uc name → HeaderValues uc name (.str s) [trim uc s]
  | separated (vs : List Str) : ¬ SingleValue uc name → vs ≠ [] → (∀ v ∈ vs, ',' ∉ v) →
      HeaderValues uc name (.str (QS.joinWith ",".toList vs)) (vs.map (trim uc))
  | list (a : List Json) (vs : List Str) : Each (fun x v => (∃ s, x = .str s ∧ v = s) ∨ ((∀ s, x ≠ .str s) ∧ v = x.text)) a vs →
      HeaderValues uc name (.arr a) vs
  | other (v : Json) : (∀ s, v ≠ .str s) → (∀ a, v ≠ .arr a) → HeaderValues uc name v [v.text]

/-- The headers of a document, with their names as they are. -/
inductive HeadersAre (uc : UC) (v : Json) : Option HeaderMap → Prop
  | some (o : Obj) (hs : HeaderMap) : vget "headers" v = some (.obj o) →
      Each (fun e h => h.1 = e.1 ∧ HeaderValues uc e.1 e.2 h.2) o hs → HeadersAre uc v (some hs)
  | none : (∀ o, vget "headers" v ≠ some (.obj o)) → HeadersAre uc v none

/-- The values of a query parameter: one text, or an array of texts and nulls; for anything else in the array the text of the
whole array is taken. -/
inductive QueryValues : Json → List (Option Str) → Prop
  | one (s : Str) : QueryValues (.str s) [some s]
  | list (a : List Json) (vs : List (Option Str)) : Each (fun x v => (∃ s, x = .str s ∧ v = some s) ∨ (x = .null ∧ v = none) ∨
      (x ≠ .null ∧ (∀ s, x ≠ .str s) ∧ v = some (Json.arr a).text)) a vs → QueryValues (.arr a) vs
  | other (v : Json) : (∀ s, v ≠ .str s) → (∀ a, v ≠ .arr a) → QueryValues v []

/-- The query of a request: an object, or a query string (C35). -/
inductive QueryIs (v : Json) : Option QueryMap → Prop
  | object (o : Obj) (q : QueryMap) : vget "query" v = some (.obj o) → Each (fun e p => p.1 = e.1 ∧ QueryValues e.2 p.2) o q →
      QueryIs v (some q)
  | string (s : Str) : vget "query" v = some (.str s) → QueryIs v (QS.parseQueryString s)
  | none : (∀ o, vget "query" v ≠ some (.obj o)) → (∀ s, vget "query" v ≠ some (.str s)) → QueryIs v none

/-- The text of an attribute: a string is taken as it is, of anything else the JSON text. -/
inductive TextIs (k : String) (v : Json) : Option Str → Prop
  | string (s : Str) : vget k v = some (.str s) → TextIs k v (some s)
  | other (x : Json) : vget k v = some x → (∀ s, x ≠ .str s) → TextIs k v (some x.text)
  | none : vget k v = none → TextIs k v none

/-- The rules of a part are those of its document (C168). -/
def RulesAre (P : Params) (v : Json) (m : MatchingRules) : Prop :=
  (∀ o, vget "matchingRules" v = some (.obj o) →
    ∃ rows, ReadDocProps.Document P o rows ∧ ∀ c p, rulesAt m c p = ReadDocProps.tableAt rows c p)
  ∧ ((∀ o, vget "matchingRules" v ≠ some (.obj o)) → ∀ c p, rulesAt m c p = none)

/-- The generators of a part are those of its document (C170). -/
def GensAre (P : Params) (v : Json) (g : Generators) : Prop :=
  (∀ o, vget "generators" v = some (.obj o) →
    ∃ rows, ReadGenProps.Document P o rows ∧ ∀ c p, genAt g c p = ReadGenProps.generatorAt rows c p)
  ∧ ((∀ o, vget "generators" v ≠ some (.obj o)) → ∀ c p, genAt g c p = none)

/-- The request that a document stands for: `GET` and `/` are the defaults, and the method is in upper case. -/
structure RequestIs (E : FileEnv) (v : Json) (r : HttpRequest) : Prop where
  method : ∃ t, TextIs "method" v t ∧ r.method = (match t with | some m => E.upper m | none => "GET".toList)
  path : ∃ t, TextIs "path" v t ∧ r.path = t.getD "/".toList
  query : QueryIs v r.query
  headers : HeadersAre E.P.uc v r.headers
  body : BodyIs E v "body" r.headers r.body
  rules : RulesAre E.P v r.rules
  gens : GensAre E.P v r.gens

/-- The status: a natural number, of which the lowest 16 bits are taken, or 200. -/
inductive StatusIs (v : Json) : Nat → Prop
  | number (n : Nat) : vget "status" v = some (.num (.pos n)) → StatusIs v (n % 65536)
  | missing : vget "status" v = none → StatusIs v 200

/-- The response that a document stands for. -/
structure ResponseIs (E : FileEnv) (v : Json) (r : HttpResponse) : Prop where
  status : StatusIs v r.status
  headers : HeadersAre E.P.uc v r.headers
  body : BodyIs E v "body" r.headers r.body
  rules : RulesAre E.P v r.rules
  gens : GensAre E.P v r.gens

/-- The metadata of a message. -/
inductive MetadataIs (v : Json) : Obj → Prop
  | some (o : Obj) : vget "metadata" v = some (.obj o) → MetadataIs v o
  | none : (∀ o, vget "metadata" v ≠ some (.obj o)) → MetadataIs v []

/-- The metadata that counts as a header: `contentType`, spelt exactly so. -/
inductive AsHeader (o : Obj) : Option HeaderMap → Prop
  | some (t : Json) : RuleJson.get "contentType" o = some t → AsHeader o (some [("Content-Type".toList, [t.toStr])])
  | none : RuleJson.get "contentType" o = none → AsHeader o none

/-- The message that a document stands for. -/
structure MessageIs (E : FileEnv) (v : Json) (m : MessageContents) : Prop where
  metadata : MetadataIs v m.metadata
  contents : ∃ h, AsHeader m.metadata h ∧ BodyIs E v "contents" h m.contents
  rules : RulesAre E.P v m.rules
  gens : GensAre E.P v m.gens

/-! ## Bodies -/

theorem declared_iff (E : FileEnv) (headers : Option HeaderMap) (o : Obj) (ct : Option ContentType) :
    contentTypeFromJson E headers o = .ok ct ↔ Declared E headers o ct := by
  unfold contentTypeFromJson
  constructor
  · intro h
    cases hg : RuleJson.get "contentType" o with
    | some t => rw [hg] at h; cases h; exact .own t hg
    | none =>
      rw [hg] at h
      simp only at h
      cases headers with
      | none => cases h; exact .none hg (by intro hs e; cases e)
      | some hs =>
        simp only [headerContentType] at h
        cases hf : hs.find? (fun e => decide (E.P.uc.lower e.1 = "content-type".toList)) with
        | none =>
          rw [hf] at h
          cases h
          refine .none hg (fun hs' e x hx => ?_)
          cases e
          exact fun hd => List.find?_eq_none.1 hf x hx (decide_eq_true hd)
        | some e =>
          obtain ⟨hp, as, bs, hs1, hs2⟩ := List.find?_eq_some_iff_append.1 hf
          rw [hf] at h
          obtain ⟨n, vs⟩ := e
          cases vs with
          | nil => cases h
          | cons v vs =>
            cases h
            exact .header as bs n v vs hg (by rw [hs1]) (of_decide_eq_true hp)
              (fun x hx hd => by have h9 := hs2 x hx; rw [decide_eq_true hd] at h9; cases h9)
  · intro h
    cases h with
    | own t h1 => rw [h1]
    | header as bs n v vs h1 h2 h3 h4 =>
      rw [h1, h2]
      simp only [headerContentType]
      have hf : (as ++ (n, v :: vs) :: bs).find? (fun e => decide (E.P.uc.lower e.1 = "content-type".toList)) = some (n, v :: vs) :=
        List.find?_eq_some_iff_append.2 ⟨decide_eq_true h3, as, bs, rfl, fun x hx => by rw [decide_eq_false (h4 x hx)]; rfl⟩
      rw [hf]
    | none h1 h2 =>
      rw [h1]
      simp only
      cases headers with
      | none => rfl
      | some hs =>
        simp only [headerContentType]
        rw [List.find?_eq_none.2 (fun x hx hd => h2 hs rfl x hx (of_decide_eq_true hd))]

/-- What the model makes of a way. -/
def wayOf : Bool × Str → Way
  | (true, e) => if e = "base64".toList then .base64 else .text
  | (false, _) => .value

theorem way_base : wayOf (true, "base64".toList) = .base64 := by
  simp only [wayOf, if_true]

theorem way_text (s : Str) (h : s ≠ "base64".toList) : wayOf (true, s) = .text := by
  simp only [wayOf]
  exact if_neg h

theorem encoded_iff (uc : UC) (o : Obj) (w : Way) :
    wayOf (encodedFromJson uc (RuleJson.get "encoded" o)) = w ↔ Encoded uc o w := by
  have named : ∀ v s, Name uc v s → encodedFromJson uc (some v) = (true, s) := by
    intro v s h
    cases h with
    | string s => rfl
    | other _ h1 h2 => cases v <;> first | rfl | exact absurd rfl (h1 _) | exact absurd rfl (h2 _)
  have ofName : ∀ v s, RuleJson.get "encoded" o = some v → Name uc v s → Encoded uc o (wayOf (true, s)) := by
    intro v s h1 h2
    by_cases hs : s = "base64".toList
    · subst hs
      rw [way_base]
      exact .base64 v h1 h2
    · rw [way_text s hs]
      exact .name v s h1 h2 hs
  constructor
  · intro h
    subst h
    cases hg : RuleJson.get "encoded" o with
    | none => exact .missing hg
    | some v =>
      cases v with
      | bool b =>
        cases b with
        | true =>
          rw [show encodedFromJson uc (some (Json.bool true)) = (true, []) from rfl, way_text [] (by decide)]
          exact .yes hg
        | false => exact .no hg
      | str s => exact ofName _ _ hg (.string s)
      | null => exact ofName _ _ hg (.other _ (by simp) (by simp))
      | num n => exact ofName _ _ hg (.other _ (by simp) (by simp))
      | arr a => exact ofName _ _ hg (.other _ (by simp) (by simp))
      | obj m => exact ofName _ _ hg (.other _ (by simp) (by simp))
  · intro h
    cases h with
    | missing h1 => rw [h1]; rfl
    | no h1 => rw [h1]; rfl
    | yes h1 => rw [h1, show encodedFromJson uc (some (Json.bool true)) = (true, []) from rfl, way_text [] (by decide)]
    | base64 v h1 h2 => rw [h1, named v _ h2]; exact way_base
    | name v s h1 h2 h3 => rw [h1, named v _ h2]; exact way_text s h3

theorem content_iff (uc : UC) (ct : Option ContentType) (o : Obj) (c : Json) (b : Bytes) :
    bytesFromJson uc ct (RuleJson.get "encoded" o) c = b ↔
      Content ct c (wayOf (encodedFromJson uc (RuleJson.get "encoded" o))) b := by
  unfold bytesFromJson
  generalize encodedFromJson uc (RuleJson.get "encoded" o) = e
  obtain ⟨x, s⟩ := e
  cases x with
  | true =>
    simp only [wayOf]
    by_cases hs : s = "base64".toList
    · rw [if_pos hs, if_pos hs]
      cases hd : Base64.decode c.toStr with
      | none =>
        constructor
        · intro h; cases h; exact .undecoded hd
        · intro h
          cases h with
          | decoded _ h1 => rw [hd] at h1; cases h1
          | undecoded _ => rfl
      | some d =>
        constructor
        · intro h; cases h; exact .decoded d hd
        · intro h
          cases h with
          | decoded _ h1 => rw [hd] at h1; cases h1; rfl
          | undecoded h1 => rw [hd] at h1; cases h1
    · rw [if_neg hs, if_neg hs]
      constructor
      · intro h; cases h; exact .text
      · intro h; cases h; rfl
  | false =>
    simp only [wayOf]
    cases ct with
    | none =>
      constructor
      · intro h; cases h; exact .plain (by intro t e; cases e)
      · intro h
        cases h with
        | value t h1 => cases h1
        | emptyText t h1 => cases h1
        | plain _ => rfl
    | some t =>
      simp only
      by_cases hj : t.isJson = true
      · rw [if_pos hj]
        by_cases hc : c = .str []
        · subst hc
          constructor
          · intro h; cases h; exact .emptyText t rfl hj rfl
          · intro h
            cases h with
            | value _ _ _ h1 => exact absurd rfl h1
            | emptyText _ _ _ _ => rfl
            | plain h1 => rw [h1 t rfl] at hj; cases hj
        · split
          · exact absurd rfl hc
          · constructor
            · intro h; cases h; exact .value t rfl hj hc
            · intro h
              cases h with
              | value _ _ _ _ => rfl
              | emptyText _ _ _ h1 => exact absurd h1 hc
              | plain h1 => rw [h1 t rfl] at hj; cases hj
      · rw [if_neg hj]
        constructor
        · intro h; cases h; exact .plain (by intro t' e; cases e; simpa using hj)
        · intro h
          cases h with
          | value _ h1 h2 => cases h1; exact absurd h2 hj
          | emptyText _ h1 h2 => cases h1; exact absurd h2 hj
          | plain _ => rfl

theorem type_iff (E : FileEnv) (b : Bytes) (ct : Option ContentType) (t : ContentType) :
    ct.getD ((E.detectBytes b).getD .unknown) = t ↔ TypeIs E b ct t := by
  cases ct with
  | some c =>
    constructor
    · intro h; cases h; exact .declared _
    · intro h; cases h; rfl
  | none =>
    cases hd : E.detectBytes b with
    | some d =>
      constructor
      · intro h; cases h; exact .detected _ hd
      · intro h
        cases h with
        | detected _ h1 => rw [hd] at h1; cases h1; rfl
        | unknown h1 => rw [hd] at h1; cases h1
    | none =>
      constructor
      · intro h; cases h; exact .unknown hd
      · intro h
        cases h with
        | detected _ h1 => rw [hd] at h1; cases h1
        | unknown h1 => rfl

theorem hint_iff (o : Obj) (h : Option Hint) : hintFromJson (RuleJson.get "contentTypeHint" o) = h ↔ HintIs o h := by
  have parse_other : ∀ s : Str, s ≠ "BINARY".toList → s ≠ "TEXT".toList → (hintParse s).getD .default = .default := by
    intro s h1 h2
    unfold hintParse
    rw [if_neg h1, if_neg h2]
    by_cases h3 : s = "DEFAULT".toList
    · rw [if_pos h3]; rfl
    · rw [if_neg h3]; rfl
  constructor
  · intro e
    subst e
    cases hg : RuleJson.get "contentTypeHint" o with
    | none => exact .none hg
    | some v =>
      cases v with
      | str s =>
        by_cases h1 : s = "BINARY".toList
        · subst h1; exact .binary hg
        · by_cases h2 : s = "TEXT".toList
          · subst h2; exact .text hg
          · show HintIs o (some ((hintParse s).getD .default))
            rw [parse_other s h1 h2]
            exact .default _ hg (fun e => h1 (by injection e)) (fun e => h2 (by injection e))
      | null => exact .default _ hg (by simp) (by simp)
      | bool b => exact .default _ hg (by simp) (by simp)
      | num n => exact .default _ hg (by simp) (by simp)
      | arr a => exact .default _ hg (by simp) (by simp)
      | obj m => exact .default _ hg (by simp) (by simp)
  · intro e
    cases e with
    | none h1 => rw [h1]; rfl
    | binary h1 => rw [h1]; rfl
    | text h1 => rw [h1]; rfl
    | default v h1 h2 h3 =>
      rw [h1]
      cases v with
      | str s => exact congrArg some (parse_other s (fun e => h2 (by rw [e])) (fun e => h3 (by rw [e])))
      | null => rfl
      | bool b => rfl
      | num n => rfl
      | arr a => rfl
      | obj m => rfl

/-- **C171** (bodies): a body is read exactly as the body that its document stands for. -/
theorem C171_body (E : FileEnv) (v : Json) (attr : String) (headers : Option HeaderMap) (b : FBody) :
    bodyFromJson E v attr headers = .ok b ↔ BodyIs E v attr headers b := by
  unfold bodyFromJson
  constructor
  · intro h
    split at h
    · rename_i h1; cases h; exact .missing h1
    · rename_i o h1
      split at h
      · rename_i h2; cases h; exact .noContent o h1 h2
      · rename_i h2; cases h; exact .nullContent o h1 h2
      · rename_i c hc h2
        obtain ⟨ct, h3, h4⟩ := SessionProps.bind_eq_ok.1 h
        have h3 := (declared_iff E headers o ct).1 h3
        have hcn := (content_iff E.P.uc ct o c _).1 rfl
        have hen := (encoded_iff E.P.uc o _).1 rfl
        simp only at h4
        split at h4
        · rename_i he
          cases h4
          rw [List.isEmpty_iff.1 he] at hcn
          exact .empty o c ct _ h1 h2 hc h3 hen hcn
        · rename_i he
          cases h4
          exact .present o c ct _ _ _ _ h1 h2 hc h3 hen hcn (fun e => he (List.isEmpty_iff.2 e))
            ((type_iff E _ ct _).1 rfl) ((hint_iff o _).1 rfl)
    · rename_i h1; cases h; exact .null h1
    · rename_i x hx1 hx2 h1; cases h; exact .raw x h1 hx2 hx1
  · intro h
    have way : ∀ o w, Encoded E.P.uc o w → w = wayOf (encodedFromJson E.P.uc (RuleJson.get "encoded" o)) :=
      fun o w h => ((encoded_iff E.P.uc o w).2 h).symm
    cases h with
    | missing h1 => rw [h1]
    | null h1 => rw [h1]
    | raw x h1 h2 h3 =>
      rw [h1]
      cases x <;> first | rfl | exact absurd rfl h2 | exact absurd rfl (h3 _)
    | noContent o h1 h2 => rw [h1]; simp only; rw [h2]
    | nullContent o h1 h2 => rw [h1]; simp only; rw [h2]
    | empty o c ct w h1 h2 h3 h4 h5 h6 =>
      rw [h1]
      simp only
      rw [h2]
      have hb := (content_iff E.P.uc ct o c []).2 (way o w h5 ▸ h6)
      cases c with
      | null => exact absurd rfl h3
      | _ =>
        show (contentTypeFromJson E headers o).bind _ = _
        rw [(declared_iff E headers o ct).2 h4, Res.bind_ok]
        rw [hb]
        rfl
    | present o c ct w b t h h1 h2 h3 h4 h5 h6 h7 h8 h9 =>
      rw [h1]
      simp only
      rw [h2]
      have hb := (content_iff E.P.uc ct o c b).2 (way o w h5 ▸ h6)
      have he : b.isEmpty = false := by cases b with | nil => exact absurd rfl h7 | cons _ _ => rfl
      cases c with
      | null => exact absurd rfl h3
      | _ =>
        show (contentTypeFromJson E headers o).bind _ = _
        rw [(declared_iff E headers o ct).2 h4, Res.bind_ok]
        rw [hb, he, (type_iff E b ct t).2 h8, (hint_iff o h).2 h9]
        rfl

/-! ## The other attributes -/

theorem single_iff (uc : UC) (name : Str) : QS.singleValueHeaders.contains (uc.lower name) = true ↔ SingleValue uc name := by
  unfold SingleValue QS.singleValueHeaders
  exact List.contains_iff_mem

theorem each_map {A B : Type} (R : A → B → Prop) (f : A → B) (l : List A) (h : ∀ x ∈ l, R x (f x)) : Each R l (l.map f) := by
  induction l with
  | nil => exact .nil
  | cons x xs ih => exact .cons (h x (by simp)) (ih fun y hy => h y (by simp [hy]))

theorem each_eq {A B : Type} (R : A → B → Prop) (f : A → B) (hf : ∀ x y, R x y → f x = y) (l : List A) (m : List B)
    (h : Each R l m) : l.map f = m := by
  induction h with
  | nil => rfl
  | cons h1 _ ih => rw [List.map_cons, hf _ _ h1, ih]

theorem split_join (s : Str) : QS.joinWith ",".toList (splitOn ',' s) = s := by
  induction s with
  | nil => rfl
  | cons x xs ih =>
    unfold splitOn
    by_cases hx : x = ','
    · rw [if_pos hx, hx]
      cases hs : splitOn ',' xs with
      | nil => exact absurd hs (HeaderProps.splitOn_ne_nil ',' xs)
      | cons p ps =>
        rw [hs] at ih
        show [] ++ ",".toList ++ QS.joinWith ",".toList (p :: ps) = _
        rw [ih]
        rfl
    · rw [if_neg hx]
      cases hs : splitOn ',' xs with
      | nil => exact absurd hs (HeaderProps.splitOn_ne_nil ',' xs)
      | cons p ps =>
        rw [hs] at ih
        cases ps with
        | nil => show x :: p = x :: xs; rw [show p = xs from ih]
        | cons q qs => show (x :: p) ++ ",".toList ++ QS.joinWith ",".toList (q :: qs) = x :: xs; rw [← ih]; rfl

theorem headerValues_iff (uc : UC) (name : Str) (v : Json) (vs : List Str) :
    QS.headerFromJson uc name v = vs ↔ HeaderValues uc name v vs := by
  constructor
  · intro h
    subst h
    cases v with
    | str s =>
      simp only [QS.headerFromJson]
      unfold QS.parseHeader
      by_cases hs : QS.singleValueHeaders.contains (uc.lower name) = true
      · rw [if_pos hs]; exact .single s ((single_iff uc name).1 hs)
      · rw [if_neg hs]
        have h1 := HeaderValues.separated (uc := uc) (name := name) (splitOn ',' s) (fun h => hs ((single_iff uc name).2 h))
          (HeaderProps.splitOn_ne_nil ',' s) (QueryStringProps.splitOn_no_sep ',' s)
        rw [split_join] at h1
        exact h1
    | arr a =>
      refine .list a _ (each_map _ _ a fun x _ => ?_)
      cases x <;> first | exact .inl ⟨_, rfl, rfl⟩ | exact .inr ⟨by simp, rfl⟩
    | null => exact .other _ (by simp) (by simp)
    | bool b => exact .other _ (by simp) (by simp)
    | num n => exact .other _ (by simp) (by simp)
    | obj m => exact .other _ (by simp) (by simp)
  · intro h
    cases h with
    | single s h1 =>
      show QS.parseHeader uc name s = _
      unfold QS.parseHeader
      rw [if_pos ((single_iff uc name).2 h1)]
    | separated ws h1 h2 h3 =>
      show QS.parseHeader uc name _ = _
      unfold QS.parseHeader
      rw [if_neg (fun h => h1 ((single_iff uc name).1 h))]
      rw [show ",".toList = [','] from rfl, QueryStringProps.splitOn_join ',' ws h2 h3]
    | list a _ h1 =>
      refine each_eq _ _ (fun x y hxy => ?_) a vs h1
      rcases hxy with ⟨s, rfl, rfl⟩ | ⟨h2, rfl⟩
      · rfl
      · cases x <;> first | rfl | exact absurd rfl (h2 _)
    | other _ h1 h2 => cases v <;> first | rfl | exact absurd rfl (h1 _) | exact absurd rfl (h2 _)

theorem headers_iff (uc : UC) (v : Json) (hs : Option HeaderMap) :
    QS.headersFromJson uc (vget "headers" v) = hs ↔ HeadersAre uc v hs := by
  constructor
  · intro h
    subst h
    cases hv : vget "headers" v with
    | none => exact .none (by rw [hv]; simp)
    | some x =>
      cases x with
      | obj o => exact .some o _ hv (each_map _ _ o fun e _ => ⟨rfl, (headerValues_iff uc e.1 e.2 _).1 rfl⟩)
      | _ => exact .none (by rw [hv]; simp)
  · intro h
    cases h with
    | some o hs h1 h2 =>
      rw [h1]
      refine congrArg some (each_eq _ _ (fun e y hy => ?_) o hs h2)
      obtain ⟨n, ws⟩ := y
      simp only at hy
      rw [(headerValues_iff uc e.1 e.2 ws).2 hy.2, hy.1]
    | none h1 =>
      cases hv : vget "headers" v with
      | none => rfl
      | some x => cases x <;> first | rfl | exact absurd hv (h1 _)

theorem queryValues_iff (v : Json) (vs : List (Option Str)) : QS.queryEntryFromJson v = vs ↔ QueryValues v vs := by
  constructor
  · intro h
    subst h
    cases v with
    | str s => exact .one s
    | arr a =>
      refine .list a _ (each_map _ _ a fun x _ => ?_)
      cases x <;> first | exact .inl ⟨_, rfl, rfl⟩ | exact .inr (.inl ⟨rfl, rfl⟩) | exact .inr (.inr ⟨by simp, by simp, rfl⟩)
    | null => exact .other _ (by simp) (by simp)
    | bool b => exact .other _ (by simp) (by simp)
    | num n => exact .other _ (by simp) (by simp)
    | obj m => exact .other _ (by simp) (by simp)
  · intro h
    cases h with
    | one s => rfl
    | list a _ h1 =>
      refine each_eq _ _ (fun x y hxy => ?_) a vs h1
      rcases hxy with ⟨s, rfl, rfl⟩ | ⟨rfl, rfl⟩ | ⟨h2, h3, rfl⟩
      · rfl
      · rfl
      · cases x <;> first | rfl | exact absurd rfl h2 | exact absurd rfl (h3 _)
    | other _ h1 h2 => cases v <;> first | rfl | exact absurd rfl (h1 _) | exact absurd rfl (h2 _)

theorem query_iff (v : Json) (q : Option QueryMap) : (vget "query" v).bind QS.v3QueryFromJson = q ↔ QueryIs v q := by
  constructor
  · intro h
    subst h
    cases hv : vget "query" v with
    | none => exact .none (by rw [hv]; simp) (by rw [hv]; simp)
    | some x =>
      cases x with
      | obj o => exact .object o _ hv (each_map _ _ o fun e _ => ⟨rfl, (queryValues_iff e.2 _).1 rfl⟩)
      | str s => exact .string s hv
      | _ => exact .none (by rw [hv]; simp) (by rw [hv]; simp)
  · intro h
    cases h with
    | object o q h1 h2 =>
      rw [h1]
      refine congrArg some (each_eq _ _ (fun e y hy => ?_) o q h2)
      obtain ⟨n, ws⟩ := y
      simp only at hy
      rw [(queryValues_iff e.2 ws).2 hy.2, hy.1]
    | string s h1 => rw [h1]; rfl
    | none h1 h2 =>
      cases hv : vget "query" v with
      | none => rfl
      | some x => cases x <;> first | rfl | exact absurd hv (h1 _) | exact absurd hv (h2 _)

theorem text_iff (k : String) (v : Json) (t : Option Str) : (vget k v).map textOf = t ↔ TextIs k v t := by
  constructor
  · intro h
    subst h
    cases hv : vget k v with
    | none => exact .none hv
    | some x =>
      cases x with
      | str s => exact .string s hv
      | _ => exact .other _ hv (by simp)
  · intro h
    cases h with
    | string s h1 => rw [h1]; rfl
    | other x h1 h2 => rw [h1]; cases x <;> first | rfl | exact absurd rfl (h2 _)
    | none h1 => rw [h1]; rfl

theorem rules_are (P : Params) (v : Json) (m : MatchingRules) (h : matchersFromJson P v none = .ok m) : RulesAre P v m := by
  refine ⟨fun o ho => ReadDocProps.C168_complete P v o ho none m h, fun hn c p => ?_⟩
  rw [ReadDocProps.C168_missing P v hn] at h
  cases h
  rfl

theorem gens_are (P : Params) (v : Json) (g : Generators) (h : generatorsFromJson P v = .ok g) : GensAre P v g := by
  refine ⟨fun o ho => ReadGenProps.C170_complete P v o ho g h, fun hn c p => ?_⟩
  rw [ReadGenProps.C170_missing P v hn] at h
  cases h
  rfl

theorem rules_read (P : Params) (v : Json) (m : MatchingRules) (h : RulesAre P v m) :
    ∃ m', matchersFromJson P v none = .ok m' ∧ ∀ c p, rulesAt m' c p = rulesAt m c p := by
  by_cases ho : ∃ o, vget "matchingRules" v = some (.obj o)
  · obtain ⟨o, ho⟩ := ho
    obtain ⟨rows, h1, h2⟩ := h.1 o ho
    obtain ⟨m', h3, h4⟩ := ReadDocProps.C168_meaning P v o rows ho h1 none
    exact ⟨m', h3, fun c p => by rw [h4, h2]⟩
  · have hn : ∀ o, vget "matchingRules" v ≠ some (.obj o) := fun o e => ho ⟨o, e⟩
    exact ⟨[], ReadDocProps.C168_missing P v hn, fun c p => by rw [h.2 hn]; rfl⟩

theorem gens_read (P : Params) (v : Json) (g : Generators) (h : GensAre P v g) :
    ∃ g', generatorsFromJson P v = .ok g' ∧ ∀ c p, genAt g' c p = genAt g c p := by
  by_cases ho : ∃ o, vget "generators" v = some (.obj o)
  · obtain ⟨o, ho⟩ := ho
    obtain ⟨rows, h1, h2⟩ := h.1 o ho
    obtain ⟨g', h3, h4⟩ := ReadGenProps.C170_meaning P v o rows ho h1
    exact ⟨g', h3, fun c p => by rw [h4, h2]⟩
  · have hn : ∀ o, vget "generators" v ≠ some (.obj o) := fun o e => ho ⟨o, e⟩
    exact ⟨[], ReadGenProps.C170_missing P v hn, fun c p => by rw [h.2 hn]; rfl⟩

theorem status_iff (v : Json) (n : Nat) : statusAttr (vget "status" v) = .ok n ↔ StatusIs v n := by
  constructor
  · intro h
    cases hv : vget "status" v with
    | none => rw [hv] at h; cases h; exact .missing hv
    | some x =>
      rw [hv] at h
      cases x with
      | num k => cases k <;> first | (cases h; exact .number _ hv) | cases h
      | _ => cases h
  · intro h
    cases h with
    | number k h1 => rw [h1]; rfl
    | missing h1 => rw [h1]; rfl

/-! ## Theorems -/

/-- **C171** (requests): a request that is read is the one that its document stands for. -/
theorem C171_request (E : FileEnv) (v : Json) (r : HttpRequest) (h : requestFromJson E v = .ok r) : RequestIs E v r := by
  unfold requestFromJson at h
  obtain ⟨b, h1, h⟩ := SessionProps.bind_eq_ok.1 h
  obtain ⟨m, h2, h⟩ := SessionProps.bind_eq_ok.1 h
  obtain ⟨g, h3, h⟩ := SessionProps.bind_eq_ok.1 h
  cases h
  refine ⟨⟨_, (text_iff "method" v _).1 rfl, ?_⟩, ⟨_, (text_iff "path" v _).1 rfl, rfl⟩, (query_iff v _).1 rfl,
    (headers_iff E.P.uc v _).1 rfl, (C171_body E v "body" _ b).1 h1, rules_are E.P v m h2, gens_are E.P v g h3⟩
  simp only
  cases vget "method" v <;> rfl

/-- **C171** (requests, nothing is refused): a document that stands for a request is read, as that request. -/
theorem C171_request_read (E : FileEnv) (v : Json) (r : HttpRequest) (h : RequestIs E v r) :
    ∃ r', requestFromJson E v = .ok r' ∧ r'.method = r.method ∧ r'.path = r.path ∧ r'.query = r.query
      ∧ r'.headers = r.headers ∧ r'.body = r.body ∧ (∀ c p, rulesAt r'.rules c p = rulesAt r.rules c p)
      ∧ ∀ c p, genAt r'.gens c p = genAt r.gens c p := by
  obtain ⟨m, h1, h2⟩ := rules_read E.P v r.rules h.rules
  obtain ⟨g, h3, h4⟩ := gens_read E.P v r.gens h.gens
  obtain ⟨t, ht, hm⟩ := h.method
  obtain ⟨u, hu, hp⟩ := h.path
  have ht := (text_iff "method" v t).2 ht
  have hu := (text_iff "path" v u).2 hu
  unfold requestFromJson
  simp only
  rw [(headers_iff E.P.uc v r.headers).2 h.headers, (C171_body E v "body" r.headers r.body).2 h.body, Res.bind_ok, h1,
    Res.bind_ok, h3, Res.bind_ok]
  refine ⟨_, rfl, ?_, ?_, (query_iff v r.query).2 h.query, rfl, rfl, h2, h4⟩
  · rw [hm, ← ht]
    cases vget "method" v <;> rfl
  · rw [hp, ← hu]
    rfl

/-- **C171** (responses). -/
theorem C171_response (E : FileEnv) (v : Json) (r : HttpResponse) (h : responseFromJson E v = .ok r) : ResponseIs E v r := by
  unfold responseFromJson at h
  obtain ⟨s, h0, h⟩ := SessionProps.bind_eq_ok.1 h
  obtain ⟨b, h1, h⟩ := SessionProps.bind_eq_ok.1 h
  obtain ⟨m, h2, h⟩ := SessionProps.bind_eq_ok.1 h
  obtain ⟨g, h3, h⟩ := SessionProps.bind_eq_ok.1 h
  cases h
  exact ⟨(status_iff v s).1 h0, (headers_iff E.P.uc v _).1 rfl, (C171_body E v "body" _ b).1 h1, rules_are E.P v m h2,
    gens_are E.P v g h3⟩

/-- **C171** (responses, nothing is refused). -/
theorem C171_response_read (E : FileEnv) (v : Json) (r : HttpResponse) (h : ResponseIs E v r) :
    ∃ r', responseFromJson E v = .ok r' ∧ r'.status = r.status
      ∧ r'.headers = r.headers ∧ r'.body = r.body ∧ (∀ c p, rulesAt r'.rules c p = rulesAt r.rules c p)
      ∧ ∀ c p, genAt r'.gens c p = genAt r.gens c p := by
  obtain ⟨m, h1, h2⟩ := rules_read E.P v r.rules h.rules
  obtain ⟨g, h3, h4⟩ := gens_read E.P v r.gens h.gens
  unfold responseFromJson
  simp only
  rw [(headers_iff E.P.uc v r.headers).2 h.headers, (status_iff v r.status).2 h.status, Res.bind_ok,
    (C171_body E v "body" r.headers r.body).2 h.body, Res.bind_ok, h1, Res.bind_ok, h3, Res.bind_ok]
  exact ⟨_, rfl, rfl, rfl, rfl, h2, h4⟩

/-- **C171** (crash): a response with a status that is no natural number makes the reader panic. -/
theorem C171_response_crash (E : FileEnv) (v x : Json) (h : vget "status" v = some x) (hx : ∀ n, x ≠ .num (.pos n)) :
    responseFromJson E v = .panic := by
  have h0 : statusAttr (vget "status" v) = .panic := by
    rw [h]
    cases x with
    | num k => cases k <;> first | rfl | exact absurd rfl (hx _)
    | _ => rfl
  unfold responseFromJson
  simp only
  rw [h0]
  rfl

/-- **C171** (messages). -/
theorem C171_message (E : FileEnv) (v : Json) (m : MessageContents) (h : messageParts E v = .ok m) : MessageIs E v m := by
  unfold messageParts at h
  obtain ⟨b, h1, h⟩ := SessionProps.bind_eq_ok.1 h
  obtain ⟨rs, h2, h⟩ := SessionProps.bind_eq_ok.1 h
  obtain ⟨g, h3, h⟩ := SessionProps.bind_eq_ok.1 h
  cases h
  refine ⟨?_, ⟨_, ?_, (C171_body E v "contents" _ b).1 h1⟩, rules_are E.P v rs h2, gens_are E.P v g h3⟩
  · show MetadataIs v (objAttr "metadata" v)
    unfold objAttr
    split
    · rename_i o ho; exact .some o ho
    · rename_i hn; exact .none hn
  · show AsHeader (objAttr "metadata" v) (metadataToHeaders (objAttr "metadata" v))
    unfold metadataToHeaders
    cases hg : RuleJson.get "contentType" (objAttr "metadata" v) with
    | none => exact .none hg
    | some t => exact .some t hg

/-- **C171** (messages, nothing is refused). -/
theorem C171_message_read (E : FileEnv) (v : Json) (m : MessageContents) (h : MessageIs E v m) :
    ∃ m', messageParts E v = .ok m' ∧ m'.metadata = m.metadata ∧ m'.contents = m.contents
      ∧ (∀ c p, rulesAt m'.rules c p = rulesAt m.rules c p) ∧ ∀ c p, genAt m'.gens c p = genAt m.gens c p := by
  obtain ⟨rs, h1, h2⟩ := rules_read E.P v m.rules h.rules
  obtain ⟨g, h3, h4⟩ := gens_read E.P v m.gens h.gens
  obtain ⟨hs, h5, h6⟩ := h.contents
  have hm : objAttr "metadata" v = m.metadata := by
    unfold objAttr
    have hmd := h.metadata
    generalize m.metadata = md at hmd ⊢
    cases hmd with
    | some _ ho => rw [ho]
    | none hn =>
      split
      · rename_i o ho; exact absurd ho (hn o)
      · rfl
  have hh : metadataToHeaders m.metadata = hs := by
    unfold metadataToHeaders
    cases h5 with
    | some t ht => rw [ht]; rfl
    | none ht => rw [ht]; rfl
  unfold messageParts
  simp only
  rw [hm, hh, (C171_body E v "contents" hs m.contents).2 h6, Res.bind_ok, h1, Res.bind_ok, h3, Res.bind_ok]
  exact ⟨_, rfl, rfl, rfl, h2, h4⟩

/-- **C171** (HTTP interactions): the request and the response are those attributes of the interaction; a missing one stands for
the same as `null`. -/
theorem C171_http (E : FileEnv) (i : Nat) (v : Json) (c : Common) (req : HttpRequest) (resp : HttpResponse)
    (h : httpFromJson E i v = .ok (.http c req resp)) :
    RequestIs E ((vget "request" v).getD .null) req ∧ ResponseIs E ((vget "response" v).getD .null) resp := by
  cases v with
  | obj m =>
    unfold httpFromJson at h
    obtain ⟨r, h1, h⟩ := SessionProps.bind_eq_ok.1 h
    obtain ⟨p, h2, h⟩ := SessionProps.bind_eq_ok.1 h
    cases h
    exact ⟨C171_request E _ _ h1, C171_response E _ _ h2⟩
  | _ => cases h

/-! ## Non-vacuity -/

/-- `{"method": "post", "query": {"a": ["1", null]}, "headers": {"Content-Type": "application/json", "B": "x, y"},
"body": {"content": {"x": 1}}}`. -/
def exReq : Json :=
  .obj [("method".toList, .str "post".toList),
    ("query".toList, .obj [("a".toList, .arr [.str "1".toList, .null])]),
    ("headers".toList, .obj [("Content-Type".toList, .str "application/json".toList), ("B".toList, .str "x, y".toList)]),
    ("body".toList, .obj [("content".toList, .obj [("x".toList, .num (.pos 1))])])]

set_option maxRecDepth 100000 in
theorem example_request : ∃ r, requestFromJson PactFileProps.exE exReq = .ok r ∧ r.method = "POST".toList ∧ r.path = "/".toList
    ∧ r.query = some [("a".toList, [some "1".toList, none])]
    ∧ r.headers = some [("Content-Type".toList, ["application/json".toList]), ("B".toList, ["x".toList, "y".toList])]
    ∧ r.body = .present (utf8 "{\"x\":1}".toList) (some PactFileProps.jsonCT) none :=
  ⟨_, rfl, by decide, rfl, rfl, by decide +kernel, by decide +kernel⟩

/-- The same request with the body in Base64. -/
def exBase64 : Json := .obj [("body".toList, .obj [("content".toList, .str "aGk=".toList), ("encoded".toList, .str "BASE64".toList)])]

set_option maxRecDepth 100000 in
theorem example_base64 : BodyIs PactFileProps.exE exBase64 "body" none (.present [104, 105] (some .unknown) none) :=
  (C171_body _ _ _ _ _).1 (by rfl)

theorem example_crash : responseFromJson PactFileProps.exE (.obj [("status".toList, .str "200".toList)]) = .panic :=
  C171_response_crash _ _ _ rfl (by intro n h; cases h)


end ReadPartProps
end Verif
