import Verif.Props.ReadFileProps
import Verif.PactFileV3

/-
  C173: what the request/response and message pacts of older versions say.
-/

set_option autoImplicit false

namespace Verif
namespace ReadOldProps
open Path Rules RuleJson PactFile Matchers Generate Headers Query PactV3
open MatcherTableProps (rulesAt)
open IntegrationProps (genAt)
open SessionRuleProps (Each)
open ReadPartProps (TextIs HeadersAre QueryIs StatusIs GensAre)
open ReadFileProps (StrIs StatesAre NameIs SameRequest SameResponse)

/-! ## Specification -/

/-- The content type that the headers state: the first value of the first header of that name. -/
inductive HeaderType (E : FileEnv) (headers : Option HeaderMap) : Option ContentType → Prop
  | header (before after : HeaderMap) (name v : Str) (vs : List Str) : headers = some (before ++ (name, v :: vs) :: after) →
      E.P.uc.lower name = "content-type".toList → (∀ e ∈ before, E.P.uc.lower e.1 ≠ "content-type".toList) →
      HeaderType E headers (E.parseCT v)
  | none : (∀ hs, headers = some hs → ∀ e ∈ hs, E.P.uc.lower e.1 ≠ "content-type".toList) → HeaderType E headers none

/-- The content type of a text: the declared one, or what it looks like. -/
inductive TypeOf (E : FileEnv) (s : Str) : Option ContentType → ContentType → Prop
  | declared (t : ContentType) : TypeOf E s (some t) t
  | detected : TypeOf E s none (E.detectStr s)

/-- A text that is the JSON text of a string or an object. -/
def IsJsonText (E : FileEnv) (s : Str) : Prop := (∃ t, E.json (utf8 s) = some (.str t)) ∨ ∃ o, E.json (utf8 s) = some (.obj o)

/-- The body that a text stands for, given the declared content type.  For JSON the text itself, in quotes if it is not the
JSON text of a string or object; text for a textual type; and otherwise the decoded bytes, if it is Base64. -/
inductive TextBody (E : FileEnv) (ct : Option ContentType) : Str → FBody → Prop
  | empty : TextBody E ct [] .empty
  | json (s : Str) (t : ContentType) : s ≠ [] → TypeOf E s ct t → t.isJson = true → IsJsonText E s →
      TextBody E ct s (.present (utf8 s) (some t) none)
  | quoted (s : Str) (t : ContentType) : s ≠ [] → TypeOf E s ct t → t.isJson = true → ¬ IsJsonText E s →
      TextBody E ct s (.present (utf8 ("\"".toList ++ s ++ "\"".toList)) (some t) none)
  | text (s : Str) (t : ContentType) : s ≠ [] → TypeOf E s ct t → t.isJson = false → t.isText = true →
      TextBody E ct s (.present (utf8 s) (some t) none)
  | decoded (s : Str) (t : ContentType) (b : Bytes) : s ≠ [] → TypeOf E s ct t → t.isJson = false → t.isText = false →
      Base64.decode s = some b → TextBody E ct s (.present b none none)
  | bytes (s : Str) (t : ContentType) : s ≠ [] → TypeOf E s ct t → t.isJson = false → t.isText = false →
      Base64.decode s = none → TextBody E ct s (.present (utf8 s) none none)

/-- The body of an attribute: a text, null, nothing, or a JSON value. -/
inductive ValueBody (E : FileEnv) (ct : Option ContentType) (attr : String) (v : Json) : FBody → Prop
  | missing : vget attr v = none → ValueBody E ct attr v .missing
  | null : vget attr v = some .null → ValueBody E ct attr v .null
  | text (s : Str) (b : FBody) : vget attr v = some (.str s) → TextBody E ct s b → ValueBody E ct attr v b
  | value (x : Json) : vget attr v = some x → x ≠ .null → (∀ s, x ≠ .str s) →
      ValueBody E ct attr v (.present (utf8 x.text) none none)

/-- The document of the rules: `matchingRules`, or, if there is no such attribute, the one of older files. -/
inductive RulesDocument (v : Json) (old : Option String) : Option Json → Prop
  | new (x : Json) : vget "matchingRules" v = some x → RulesDocument v old (some x)
  | old (k : String) (x : Json) : vget "matchingRules" v = none → old = some k → vget k v = some x → RulesDocument v old (some x)
  | none : vget "matchingRules" v = none → (∀ k, old = some k → vget k v = none) → RulesDocument v old none

/-- The rules of a part are those of its document (C168). -/
def RulesAre (P : Params) (v : Json) (old : Option String) (m : MatchingRules) : Prop :=
  ∃ x, RulesDocument v old x ∧
    ((∃ o rows, x = some (.obj o) ∧ ReadDocProps.Document P o rows ∧ ∀ c p, rulesAt m c p = ReadDocProps.tableAt rows c p)
      ∨ ((∀ o, x ≠ some (.obj o)) ∧ ∀ c p, rulesAt m c p = none))

/-- The query: as for V4 in a V3 file, before only a query string (C35). -/
inductive QueryOf (spec : Spec) (v : Json) : Option QueryMap → Prop
  | v3 (q : Option QueryMap) : spec = .v3 → QueryIs v q → QueryOf spec v q
  | string (s : Str) : spec ≠ .v3 → vget "query" v = some (.str s) → QueryOf spec v (QS.parseQueryString s)
  | none : spec ≠ .v3 → (∀ s, vget "query" v ≠ some (.str s)) → QueryOf spec v none

/-- The request that a document stands for. -/
structure RequestIs (E : FileEnv) (spec : Spec) (v : Json) (r : HttpRequest) : Prop where
  method : ∃ t, TextIs "method" v t ∧ r.method = (match t with | some m => E.upper m | none => "GET".toList)
  path : ∃ t, TextIs "path" v t ∧ r.path = t.getD "/".toList
  query : QueryOf spec v r.query
  headers : HeadersAre E.P.uc v r.headers
  body : ∃ ct, HeaderType E r.headers ct ∧ ValueBody E ct "body" v r.body
  rules : RulesAre E.P v (some "requestMatchingRules") r.rules
  gens : GensAre E.P v r.gens

/-- The response that a document stands for. -/
structure ResponseIs (E : FileEnv) (v : Json) (r : HttpResponse) : Prop where
  status : StatusIs v r.status
  headers : HeadersAre E.P.uc v r.headers
  body : ∃ ct, HeaderType E r.headers ct ∧ ValueBody E ct "body" v r.body
  rules : RulesAre E.P v (some "responseMatchingRules") r.rules
  gens : GensAre E.P v r.gens

/-- A request with nothing: `GET /`. -/
def EmptyRequest (r : HttpRequest) : Prop :=
  r.method = "GET".toList ∧ r.path = "/".toList ∧ r.query = none ∧ r.headers = none ∧ r.body = .missing
    ∧ (∀ c p, rulesAt r.rules c p = none) ∧ ∀ c p, genAt r.gens c p = none

/-- A response with nothing: status 200. -/
def EmptyResponse (r : HttpResponse) : Prop :=
  r.status = 200 ∧ r.headers = none ∧ r.body = .missing ∧ (∀ c p, rulesAt r.rules c p = none) ∧ ∀ c p, genAt r.gens c p = none

/-- The interaction that an entry stands for; a missing request or response is one with nothing. -/
structure InteractionIs (E : FileEnv) (spec : Spec) (index : Nat) (v : Json) (i : HttpInteraction) : Prop where
  id : StrIs "_id" v i.id
  description : ∃ t, TextIs "description" v t ∧ i.description = t.getD ("Interaction ".toList ++ Nat.toDigits 10 index)
  states : StatesAre v i.states
  request : (∃ q, vget "request" v = some q ∧ RequestIs E spec q i.request) ∨ (vget "request" v = none ∧ EmptyRequest i.request)
  response : (∃ q, vget "response" v = some q ∧ ResponseIs E q i.response) ∨ (vget "response" v = none ∧ EmptyResponse i.response)

/-! ## Bodies -/

theorem headerType_iff (E : FileEnv) (headers : Option HeaderMap) (ct : Option ContentType) :
    headerContentType E headers = .ok ct ↔ HeaderType E headers ct := by
  have h := ReadPartProps.declared_iff E headers [] ct
  rw [show contentTypeFromJson E headers [] = headerContentType E headers from rfl] at h
  rw [h]
  constructor
  · intro h
    cases h with
    | own _ h1 => cases h1
    | header as bs n v vs _ h2 h3 h4 => exact .header as bs n v vs h2 h3 h4
    | none _ h2 => exact .none h2
  · intro h
    cases h with
    | header as bs n v vs h2 h3 h4 => exact .header as bs n v vs rfl h2 h3 h4
    | none h2 => exact .none rfl h2

theorem typeOf_iff (E : FileEnv) (s : Str) (ct : Option ContentType) (t : ContentType) :
    ct.getD (E.detectStr s) = t ↔ TypeOf E s ct t := by
  cases ct with
  | some c =>
    constructor
    · intro h; cases h; exact .declared _
    · intro h; cases h; rfl
  | none =>
    constructor
    · intro h; cases h; exact .detected
    · intro h; cases h; rfl

theorem jsonText_iff (E : FileEnv) (s : Str) : jsonParsable E s = true ↔ IsJsonText E s := by
  unfold jsonParsable IsJsonText
  cases E.json (utf8 s) with
  | none => exact ⟨fun h => (by cases h), fun h => (by rcases h with ⟨_, h⟩ | ⟨_, h⟩ <;> cases h)⟩
  | some x =>
    cases x with
    | str t => exact ⟨fun _ => .inl ⟨t, rfl⟩, fun _ => rfl⟩
    | obj o => exact ⟨fun _ => .inr ⟨o, rfl⟩, fun _ => rfl⟩
    | _ => exact ⟨fun h => (by cases h), fun h => (by rcases h with ⟨_, h⟩ | ⟨_, h⟩ <;> cases h)⟩

theorem textBody_iff (E : FileEnv) (ct : Option ContentType) (s : Str) (b : FBody) :
    bodyFromText E ct s = b ↔ TextBody E ct s b := by
  unfold bodyFromText
  cases s with
  | nil =>
    constructor
    · intro h; cases h; exact .empty
    · intro h
      cases h with
      | empty => rfl
      | json _ _ h => exact absurd rfl h
      | quoted _ _ h => exact absurd rfl h
      | text _ _ h => exact absurd rfl h
      | decoded _ _ _ h => exact absurd rfl h
      | bytes _ _ h => exact absurd rfl h
  | cons c cs =>
    have hne : c :: cs ≠ [] := by simp
    rw [if_neg (by simp)]
    simp only
    constructor
    · intro h
      subst h
      have ht := (typeOf_iff E (c :: cs) ct _).1 rfl
      split
      · rename_i hj
        split
        · rename_i hp; exact .json _ _ hne ht hj ((jsonText_iff E _).1 hp)
        · rename_i hp; exact .quoted _ _ hne ht hj (fun h => hp ((jsonText_iff E _).2 h))
      · rename_i hj
        have hj : (ct.getD (E.detectStr (c :: cs))).isJson = false := by simpa using hj
        split
        · rename_i hx; exact .text _ _ hne ht hj hx
        · rename_i hx
          have hx : (ct.getD (E.detectStr (c :: cs))).isText = false := by simpa using hx
          split
          · rename_i d hd; exact .decoded _ _ d hne ht hj hx hd
          · rename_i hd; exact .bytes _ _ hne ht hj hx hd
    · intro h
      cases h with
      | json _ t _ h1 h2 h3 =>
        rw [(typeOf_iff E _ ct t).2 h1, if_pos h2, if_pos ((jsonText_iff E _).2 h3)]
      | quoted _ t _ h1 h2 h3 =>
        rw [(typeOf_iff E _ ct t).2 h1, if_pos h2, if_neg (fun h => h3 ((jsonText_iff E _).1 h))]
        rfl
      | text _ t _ h1 h2 h3 =>
        rw [(typeOf_iff E _ ct t).2 h1, if_neg (by rw [h2]; exact Bool.false_ne_true), if_pos h3]
      | decoded _ t d _ h1 h2 h3 h4 =>
        rw [(typeOf_iff E _ ct t).2 h1, if_neg (by rw [h2]; exact Bool.false_ne_true), if_neg (by rw [h3]; exact Bool.false_ne_true), h4]
      | bytes _ t _ h1 h2 h3 h4 =>
        rw [(typeOf_iff E _ ct t).2 h1, if_neg (by rw [h2]; exact Bool.false_ne_true), if_neg (by rw [h3]; exact Bool.false_ne_true), h4]

theorem valueBody_iff (E : FileEnv) (ct : Option ContentType) (attr : String) (v : Json) (b : FBody) :
    bodyFromAttr E ct (vget attr v) = b ↔ ValueBody E ct attr v b := by
  constructor
  · intro h
    subst h
    cases hv : vget attr v with
    | none => exact .missing hv
    | some x =>
      cases x with
      | str s => exact .text s _ hv ((textBody_iff E ct s _).1 rfl)
      | null => exact .null hv
      | bool _ => exact .value _ hv (by simp) (by simp)
      | num _ => exact .value _ hv (by simp) (by simp)
      | arr _ => exact .value _ hv (by simp) (by simp)
      | obj _ => exact .value _ hv (by simp) (by simp)
  · intro h
    cases h with
    | missing h1 => rw [h1]; rfl
    | null h1 => rw [h1]; rfl
    | text s _ h1 h2 => rw [h1]; exact (textBody_iff E ct s b).2 h2
    | value x h1 h2 h3 => rw [h1]; cases x <;> first | rfl | exact absurd rfl h2 | exact absurd rfl (h3 _)

/-- **C173** (bodies). -/
theorem C173_body (E : FileEnv) (v : Json) (attr : String) (headers : Option HeaderMap) (b : FBody) :
    PactV3.bodyFromJson E v attr headers = .ok b ↔ ∃ ct, HeaderType E headers ct ∧ ValueBody E ct attr v b := by
  unfold PactV3.bodyFromJson
  constructor
  · intro h
    obtain ⟨ct, h1, h2⟩ := Res.map_eq_ok.1 h
    exact ⟨ct, (headerType_iff E headers ct).1 h1, (valueBody_iff E ct attr v b).1 h2⟩
  · rintro ⟨ct, h1, h2⟩
    rw [(headerType_iff E headers ct).2 h1]
    exact congrArg Res.ok ((valueBody_iff E ct attr v b).2 h2)

/-! ## Rules and queries -/

/-- A document with this attribute only. -/
def wrap (x : Json) : Json := .obj [("matchingRules".toList, x)]

theorem wrap_get (x : Json) : vget "matchingRules" (wrap x) = some x := by
  show Json.lookup "matchingRules".toList [("matchingRules".toList, x)] = some x
  unfold Json.lookup
  simp

theorem document_iff (v : Json) (old : Option String) (x : Option Json) :
    (vget "matchingRules" v).or (old.bind fun n => vget n v) = x ↔ RulesDocument v old x := by
  constructor
  · intro h
    subst h
    cases h1 : vget "matchingRules" v with
    | some y => exact .new y h1
    | none =>
      cases old with
      | none => exact .none h1 (by intro k e; cases e)
      | some k =>
        cases h2 : vget k v with
        | some y =>
          show RulesDocument v (some k) (vget k v)
          rw [h2]
          exact .old k y h1 rfl h2
        | none =>
          show RulesDocument v (some k) (vget k v)
          rw [h2]
          exact .none h1 (by intro k' e; cases e; exact h2)
  · intro h
    cases h with
    | new y h1 => rw [h1]; rfl
    | old k y h1 h2 h3 => rw [h1, h2]; exact h3
    | none h1 h2 =>
      rw [h1]
      cases old with
      | none => rfl
      | some k => exact h2 k rfl

theorem matchers_wrap (P : Params) (v : Json) (old : Option String) (x : Option Json) (h : RulesDocument v old x) :
    matchersFromJson P v old = match (generalizing := false) x with
      | some y => matchersFromJson P (wrap y) none
      | none => .ok [] := by
  unfold matchersFromJson
  rw [(document_iff v old x).2 h]
  cases x with
  | none => rfl
  | some y =>
    simp only
    rw [wrap_get]
    rfl

theorem rules_are (P : Params) (v : Json) (old : Option String) (m : MatchingRules) (h : matchersFromJson P v old = .ok m) :
    RulesAre P v old m := by
  have hd := (document_iff v old _).1 rfl
  refine ⟨_, hd, ?_⟩
  rw [matchers_wrap P v old _ hd] at h
  generalize (vget "matchingRules" v).or (old.bind fun n => vget n v) = x at h
  cases x with
  | none => cases h; exact .inr ⟨by simp, fun _ _ => rfl⟩
  | some y =>
    by_cases hy : ∃ o, y = .obj o
    · obtain ⟨o, rfl⟩ := hy
      obtain ⟨rows, h1, h2⟩ := ReadDocProps.C168_complete P _ o (wrap_get _) none m h
      exact .inl ⟨o, rows, rfl, h1, h2⟩
    · refine .inr ⟨fun o e => hy ⟨o, by injection e⟩, ?_⟩
      simp only at h
      rw [ReadDocProps.C168_missing P (wrap y) (fun o e => by rw [wrap_get] at e; exact hy ⟨o, by injection e⟩)] at h
      cases h
      exact fun _ _ => rfl

theorem rules_read (P : Params) (v : Json) (old : Option String) (m : MatchingRules) (h : RulesAre P v old m) :
    ∃ m', matchersFromJson P v old = .ok m' ∧ ∀ c p, rulesAt m' c p = rulesAt m c p := by
  obtain ⟨x, hd, h⟩ := h
  rw [matchers_wrap P v old x hd]
  rcases h with ⟨o, rows, rfl, h1, h2⟩ | ⟨h1, h2⟩
  · obtain ⟨m', h3, h4⟩ := ReadDocProps.C168_meaning P _ o rows (wrap_get _) h1 none
    exact ⟨m', h3, fun c p => by rw [h4, h2]⟩
  · refine ⟨[], ?_, fun c p => by rw [h2]; rfl⟩
    cases x with
    | none => rfl
    | some y => exact ReadDocProps.C168_missing P (wrap y) (fun o e => by rw [wrap_get] at e; exact h1 o e)

theorem query_iff (spec : Spec) (v : Json) (q : Option QueryMap) :
    (vget "query" v).bind (PactV3.queryFromJson spec) = q ↔ QueryOf spec v q := by
  by_cases hs : spec = .v3
  · subst hs
    rw [show PactV3.queryFromJson .v3 = QS.v3QueryFromJson from rfl, ReadPartProps.query_iff]
    constructor
    · intro h; exact .v3 q rfl h
    · intro h
      cases h with
      | v3 _ _ h1 => exact h1
      | string _ h1 => exact absurd rfl h1
      | none h1 => exact absurd rfl h1
  · have he : PactV3.queryFromJson spec = QS.queryFromJsonV2 := by
      funext x
      cases spec <;> first | rfl | exact absurd rfl hs
    rw [he]
    constructor
    · intro h
      subst h
      cases hv : vget "query" v with
      | none => exact .none hs (by rw [hv]; simp)
      | some x =>
        cases x with
        | str s => exact .string s hs hv
        | _ => exact .none hs (by rw [hv]; simp)
    · intro h
      cases h with
      | v3 _ h1 _ => exact absurd h1 hs
      | string s _ h1 => rw [h1]; rfl
      | none _ h1 =>
        cases hv : vget "query" v with
        | none => rfl
        | some x => cases x <;> first | rfl | exact absurd hv (h1 _)

/-! ## Requests, responses, interactions -/

/-- **C173** (requests). -/
theorem C173_request (E : FileEnv) (spec : Spec) (v : Json) (r : HttpRequest) (h : PactV3.requestFromJson E spec v = .ok r) :
    RequestIs E spec v r := by
  unfold PactV3.requestFromJson at h
  obtain ⟨b, h1, h⟩ := SessionProps.bind_eq_ok.1 h
  obtain ⟨m, h2, h⟩ := SessionProps.bind_eq_ok.1 h
  obtain ⟨g, h3, h⟩ := SessionProps.bind_eq_ok.1 h
  cases h
  refine ⟨⟨_, (ReadPartProps.text_iff "method" v _).1 rfl, ?_⟩, ⟨_, (ReadPartProps.text_iff "path" v _).1 rfl, rfl⟩,
    (query_iff spec v _).1 rfl, (ReadPartProps.headers_iff E.P.uc v _).1 rfl, (C173_body E v "body" _ b).1 h1,
    rules_are E.P v _ m h2, ReadPartProps.gens_are E.P v g h3⟩
  simp only
  cases vget "method" v <;> rfl

/-- **C173** (requests, nothing is refused). -/
theorem C173_request_read (E : FileEnv) (spec : Spec) (v : Json) (r : HttpRequest) (h : RequestIs E spec v r) :
    ∃ r', PactV3.requestFromJson E spec v = .ok r' ∧ SameRequest r' r := by
  obtain ⟨m, h1, h2⟩ := rules_read E.P v _ r.rules h.rules
  obtain ⟨g, h3, h4⟩ := ReadPartProps.gens_read E.P v r.gens h.gens
  obtain ⟨t, ht, hm⟩ := h.method
  obtain ⟨u, hu, hp⟩ := h.path
  have ht := (ReadPartProps.text_iff "method" v t).2 ht
  have hu := (ReadPartProps.text_iff "path" v u).2 hu
  unfold PactV3.requestFromJson
  simp only
  rw [(ReadPartProps.headers_iff E.P.uc v r.headers).2 h.headers, (C173_body E v "body" r.headers r.body).2 h.body, Res.bind_ok, h1,
    Res.bind_ok, h3, Res.bind_ok]
  refine ⟨_, rfl, ?_, ?_, (query_iff spec v r.query).2 h.query, rfl, rfl, h2, h4⟩
  · rw [hm, ← ht]
    cases vget "method" v <;> rfl
  · rw [hp, ← hu]
    rfl

/-- **C173** (responses). -/
theorem C173_response (E : FileEnv) (v : Json) (r : HttpResponse) (h : PactV3.responseFromJson E v = .ok r) :
    ResponseIs E v r := by
  unfold PactV3.responseFromJson at h
  obtain ⟨s, h0, h⟩ := SessionProps.bind_eq_ok.1 h
  obtain ⟨b, h1, h⟩ := SessionProps.bind_eq_ok.1 h
  obtain ⟨m, h2, h⟩ := SessionProps.bind_eq_ok.1 h
  obtain ⟨g, h3, h⟩ := SessionProps.bind_eq_ok.1 h
  cases h
  exact ⟨(ReadPartProps.status_iff v s).1 h0, (ReadPartProps.headers_iff E.P.uc v _).1 rfl, (C173_body E v "body" _ b).1 h1,
    rules_are E.P v _ m h2, ReadPartProps.gens_are E.P v g h3⟩

/-- **C173** (responses, nothing is refused). -/
theorem C173_response_read (E : FileEnv) (v : Json) (r : HttpResponse) (h : ResponseIs E v r) :
    ∃ r', PactV3.responseFromJson E v = .ok r' ∧ SameResponse r' r := by
  obtain ⟨m, h1, h2⟩ := rules_read E.P v _ r.rules h.rules
  obtain ⟨g, h3, h4⟩ := ReadPartProps.gens_read E.P v r.gens h.gens
  unfold PactV3.responseFromJson
  simp only
  rw [(ReadPartProps.headers_iff E.P.uc v r.headers).2 h.headers, (ReadPartProps.status_iff v r.status).2 h.status, Res.bind_ok,
    (C173_body E v "body" r.headers r.body).2 h.body, Res.bind_ok, h1, Res.bind_ok, h3, Res.bind_ok]
  exact ⟨_, rfl, rfl, rfl, rfl, h2, h4⟩

/-- **C173** (interactions). -/
theorem C173_interaction (E : FileEnv) (spec : Spec) (i : Nat) (v : Json) (x : HttpInteraction)
    (h : PactV3.httpFromJson E spec i v = .ok x) : InteractionIs E spec i v x := by
  unfold PactV3.httpFromJson at h
  obtain ⟨r, h1, h⟩ := SessionProps.bind_eq_ok.1 h
  obtain ⟨s, h2, h⟩ := SessionProps.bind_eq_ok.1 h
  cases h
  refine ⟨(ReadFileProps.str_iff _ v _).1 rfl, (ReadFileProps.textD_iff _ _ v _).1 rfl, (ReadFileProps.states_iff v _).1 rfl, ?_, ?_⟩
  · cases hq : vget "request" v with
    | none => rw [hq] at h1; cases h1; exact .inr ⟨rfl, rfl, rfl, rfl, rfl, rfl, fun _ _ => rfl, fun _ _ => rfl⟩
    | some q => rw [hq] at h1; exact .inl ⟨q, rfl, C173_request E spec q r h1⟩
  · cases hq : vget "response" v with
    | none => rw [hq] at h2; cases h2; exact .inr ⟨rfl, rfl, rfl, rfl, fun _ _ => rfl, fun _ _ => rfl⟩
    | some q => rw [hq] at h2; exact .inl ⟨q, rfl, C173_response E q s h2⟩

/-- **C173** (interactions, nothing is refused). -/
theorem C173_interaction_read (E : FileEnv) (spec : Spec) (i : Nat) (v : Json) (x : HttpInteraction)
    (h : InteractionIs E spec i v x) : ∃ y, PactV3.httpFromJson E spec i v = .ok y ∧ y.id = x.id ∧ y.description = x.description
      ∧ y.states = x.states ∧ SameRequest y.request x.request ∧ SameResponse y.response x.response := by
  have h1 : ∃ r, partOr (PactV3.requestFromJson E spec) defaultRequest (vget "request" v) = .ok r ∧ SameRequest r x.request := by
    rcases h.request with ⟨q, h1, h2⟩ | ⟨h1, h2, h3, h4, h5, h6, h7, h8⟩
    · rw [h1]; exact C173_request_read E spec q _ h2
    · rw [h1]
      exact ⟨_, rfl, h2.symm, h3.symm, h4.symm, h5.symm, h6.symm, fun c p => (h7 c p).symm, fun c p => (h8 c p).symm⟩
  have h2 : ∃ r, partOr (PactV3.responseFromJson E) defaultResponse (vget "response" v) = .ok r ∧ SameResponse r x.response := by
    rcases h.response with ⟨q, h1, h2⟩ | ⟨h1, h2, h3, h4, h5, h6⟩
    · rw [h1]; exact C173_response_read E q _ h2
    · rw [h1]
      exact ⟨_, rfl, h2.symm, h3.symm, h4.symm, fun c p => (h5 c p).symm, fun c p => (h6 c p).symm⟩
  obtain ⟨r, h3, h4⟩ := h1
  obtain ⟨s, h5, h6⟩ := h2
  unfold PactV3.httpFromJson
  rw [h3, Res.bind_ok, h5, Res.bind_ok]
  exact ⟨_, rfl, (ReadFileProps.str_iff _ v _).2 h.id, (ReadFileProps.textD_iff _ _ v _).2 h.description,
    (ReadFileProps.states_iff v _).2 h.states, h4, h6⟩

/-! ## Specification: messages and pacts -/

/-- The names of the content type in the metadata of a message, in upper or lower case (ASCII). -/
def TypeKey (k : Str) : Prop := k.map Char.toLower = "contenttype".toList ∨ k.map Char.toLower = "content-type".toList

/-- The content type that the metadata state: the text of the first such entry, if that is one. -/
inductive MetadataType (E : FileEnv) (o : Obj) : Option ContentType → Prop
  | entry (before after : Obj) (k : Str) (t : Json) : o = before ++ (k, t) :: after → TypeKey k →
      (∀ e ∈ before, ¬ TypeKey e.1) → MetadataType E o (E.parseCT t.toStr)
  | none : (∀ e ∈ o, ¬ TypeKey e.1) → MetadataType E o none

/-- A body gets a content type, if it is present. -/
inductive Typed (ct : ContentType) : FBody → FBody → Prop
  | present (b : Bytes) (t : Option ContentType) (h : Option Hint) : Typed ct (.present b t h) (.present b (some ct) h)
  | missing : Typed ct .missing .missing
  | empty : Typed ct .empty .empty
  | null : Typed ct .null .null

/-- The contents of a message: read with the content type of the metadata (written out and read again), which they get too. -/
inductive ContentsAre (E : FileEnv) (o : Obj) (v : Json) : FBody → Prop
  | typed (t : ContentType) (t' : Option ContentType) (b b' : FBody) : MetadataType E o (some t) →
      HeaderType E (some [("content-type".toList, [t.display])]) t' → ValueBody E t' "contents" v b → Typed t b b' → ContentsAre E o v b'
  | untyped (b : FBody) : MetadataType E o none → ValueBody E none "contents" v b → ContentsAre E o v b

/-- The metadata of a message: `metaData`, or, if there is no such attribute, `metadata`. -/
inductive MetadataOf (v : Json) : Obj → Prop
  | first (o : Obj) : vget "metaData" v = some (.obj o) → MetadataOf v o
  | second (o : Obj) : vget "metaData" v = none → vget "metadata" v = some (.obj o) → MetadataOf v o
  | mistyped (x : Json) : vget "metaData" v = some x → (∀ o, x ≠ .obj o) → MetadataOf v []
  | none : vget "metaData" v = none → (∀ o, vget "metadata" v ≠ some (.obj o)) → MetadataOf v []

/-- The message that an entry stands for.  Generators are not read. -/
structure MessageIs (E : FileEnv) (index : Nat) (v : Json) (m : Message) : Prop where
  id : StrIs "_id" v m.id
  description : ∃ t, TextIs "description" v t ∧ m.description = t.getD ("Message ".toList ++ Nat.toDigits 10 index)
  states : StatesAre v m.states
  metadata : MetadataOf v m.metadata
  contents : ContentsAre E m.metadata v m.contents
  rules : RulesAre E.P v none m.rules
  gens : m.gens = []

/-- The last element with a property. -/
inductive Last {A : Type} (P : A → Prop) : List A → Option A → Prop
  | some (before after : List A) (x : A) : P x → (∀ y ∈ after, ¬ P y) → Last P (before ++ x :: after) (some x)
  | none (l : List A) : (∀ y ∈ l, ¬ P y) → Last P l none

/-- The names of metadata; two have an older spelling. -/
inductive Spelt : Str → Str → Prop
  | specification : Spelt "pact-specification".toList "pactSpecification".toList
  | rust : Spelt "pact-rust".toList "pactRust".toList
  | same (k : Str) : k ≠ "pact-specification".toList → k ≠ "pact-rust".toList → Spelt k k

/-- The metadata under two names: the last entry of the first name must be an object, and in it the text of the last entry of the
second name counts. -/
inductive MetadataAt (o : Obj) (k n : Str) : Option Str → Prop
  | some (e : Str × Json) (m : Obj) (x : Option (Str × Json)) : Last (fun e => Spelt e.1 k) o (some e) → e.2 = .obj m →
      Last (fun e => e.1 = n) m x → MetadataAt o k n (x.map fun e => textOf e.2)
  | mistyped (e : Str × Json) : Last (fun e => Spelt e.1 k) o (some e) → (∀ m, e.2 ≠ .obj m) → MetadataAt o k n none
  | none : Last (fun e => Spelt e.1 k) o none → MetadataAt o k n none

/-- The metadata of a pact. -/
def MetadataIs (v : Json) (md : Metadata) : Prop :=
  ∃ o, ReadFileProps.ObjectIs "metadata" v o ∧ ∀ k n, MetadataAt o k n ((Json.lookup k md).bind (Json.lookup n))

/-- The entries of an attribute are these things, one for each, in their order. -/
def EntriesAre {A : Type} (R : Nat → Json → A → Prop) (k : String) (v : Json) (l : List A) : Prop :=
  (∀ a, vget k v = some (.arr a) → l.length = a.length ∧
    ∀ (i : Nat) (x : Json) (y : A), a[i]? = some x → l[i]? = some y → R i x y) ∧
  ((∀ a, vget k v ≠ some (.arr a)) → l = [])

/-- The request/response pact that a file of an older version stands for. -/
structure HttpPactIs (E : FileEnv) (v : Json) (p : HttpPact) : Prop where
  consumer : NameIs "consumer" "consumer".toList v p.consumer
  provider : NameIs "provider" "provider".toList v p.provider
  interactions : EntriesAre (fun i x y => InteractionIs E p.spec i x y) "interactions" v p.interactions
  metadata : MetadataIs v p.metadata

/-- The message pact that a V3 file stands for. -/
structure MessagePactIs (E : FileEnv) (v : Json) (p : MessagePact) : Prop where
  consumer : NameIs "consumer" "consumer".toList v p.consumer
  provider : NameIs "provider" "provider".toList v p.provider
  messages : EntriesAre (fun i x y => MessageIs E i x y) "messages" v p.messages
  metadata : MetadataIs v p.metadata

/-! ## Messages -/

theorem typeKey_iff (k : Str) : isContentTypeKey k = true ↔ TypeKey k := by
  unfold isContentTypeKey TypeKey
  simp only [Bool.or_eq_true]
  constructor
  · rintro (h | h)
    · exact .inl (of_decide_eq_true h)
    · exact .inr (of_decide_eq_true h)
  · rintro (h | h)
    · exact .inl (decide_eq_true h)
    · exact .inr (decide_eq_true h)

theorem metadataType_iff (E : FileEnv) (o : Obj) (ct : Option ContentType) :
    ((o.find? fun e => isContentTypeKey e.1).bind fun e => E.parseCT e.2.toStr) = ct ↔ MetadataType E o ct := by
  constructor
  · intro h
    subst h
    cases hf : o.find? fun e => isContentTypeKey e.1 with
    | none => exact .none (fun e he hk => List.find?_eq_none.1 hf e he ((typeKey_iff e.1).2 hk))
    | some e =>
      obtain ⟨hp, as, bs, h1, h2⟩ := List.find?_eq_some_iff_append.1 hf
      exact .entry as bs e.1 e.2 h1 ((typeKey_iff e.1).1 hp)
        (fun x hx hk => by have h3 := h2 x hx; rw [(typeKey_iff x.1).2 hk] at h3; cases h3)
  · intro h
    cases h with
    | entry as bs k t h1 h2 h3 =>
      have hf : o.find? (fun e => isContentTypeKey e.1) = some (k, t) := by
        rw [h1]
        refine List.find?_eq_some_iff_append.2 ⟨(typeKey_iff k).2 h2, as, bs, rfl, fun x hx => ?_⟩
        cases hk : isContentTypeKey x.1 with
        | false => rfl
        | true => exact absurd ((typeKey_iff x.1).1 hk) (h3 x hx)
      rw [hf]
      rfl
    | none h1 => rw [List.find?_eq_none.2 (fun e he hk => h1 e he ((typeKey_iff e.1).1 hk))]; rfl

theorem typed_iff (ct : ContentType) (b c : FBody) : setContentType ct b = c ↔ Typed ct b c := by
  constructor
  · intro h; subst h; cases b <;> constructor
  · intro h; cases h <;> rfl

theorem headerType_none (E : FileEnv) (ct : Option ContentType) : HeaderType E none ct ↔ ct = none := by
  constructor
  · intro h
    cases h with
    | header _ _ _ _ _ h1 => cases h1
    | none _ => rfl
  · intro h; subst h; exact .none (by intro hs e; cases e)

theorem contents_iff (E : FileEnv) (o : Obj) (v : Json) (b : FBody) : messageContents E o v = .ok b ↔ ContentsAre E o v b := by
  unfold messageContents
  cases ht : (o.find? fun e => isContentTypeKey e.1).bind fun e => E.parseCT e.2.toStr with
  | none =>
    have hm := (metadataType_iff E o none).1 ht
    simp only
    rw [C173_body]
    constructor
    · rintro ⟨ct, h1, h2⟩
      rw [(headerType_none E ct).1 h1] at h2
      exact .untyped b hm h2
    · intro h
      cases h with
      | typed t _ _ _ h1 => rw [(metadataType_iff E o _).2 h1] at ht; cases ht
      | untyped _ _ h1 => exact ⟨none, (headerType_none E none).2 rfl, h1⟩
  | some t =>
    have hm := (metadataType_iff E o (some t)).1 ht
    simp only
    constructor
    · intro h
      obtain ⟨c, h1, h2⟩ := Res.map_eq_ok.1 h
      obtain ⟨t', h3, h4⟩ := (C173_body E v "contents" _ c).1 h1
      exact .typed t t' c b hm h3 h4 ((typed_iff t c b).1 h2)
    · intro h
      cases h with
      | typed u t' c _ h1 h2 h3 h4 =>
        rw [(metadataType_iff E o _).2 h1] at ht
        cases ht
        rw [(C173_body E v "contents" _ c).2 ⟨t', h2, h3⟩]
        exact congrArg Res.ok ((typed_iff t c b).2 h4)
      | untyped _ h1 => rw [(metadataType_iff E o _).2 h1] at ht; cases ht

theorem metadataOf_iff (v : Json) (o : Obj) : messageMetadata v = o ↔ MetadataOf v o := by
  unfold messageMetadata
  constructor
  · intro h
    subst h
    cases h1 : vget "metaData" v with
    | some x =>
      cases x with
      | obj m => exact .first m h1
      | _ => exact .mistyped _ h1 (by simp)
    | none =>
      cases h2 : vget "metadata" v with
      | none => exact .none h1 (by rw [h2]; simp)
      | some x =>
        cases x with
        | obj m => exact .second m h1 h2
        | _ => exact .none h1 (by rw [h2]; simp)
  · intro h
    cases h with
    | first _ h1 => rw [h1]; rfl
    | second _ h1 h2 => rw [h1, h2]; rfl
    | mistyped x h1 h2 => rw [h1]; cases x <;> first | rfl | exact absurd rfl (h2 _)
    | none h1 h2 =>
      rw [h1]
      cases h3 : vget "metadata" v with
      | none => rfl
      | some x => cases x <;> first | rfl | exact absurd h3 (h2 _)

/-- **C173** (messages): only V3 files have messages, and a message that is read is the one that its entry stands for. -/
theorem C173_message (E : FileEnv) (spec : Spec) (i : Nat) (v : Json) (m : Message)
    (h : PactV3.messageFromJson E spec i v = .ok m) : spec = .v3 ∧ MessageIs E i v m := by
  have hs : spec = .v3 := by
    cases spec <;> first | rfl | (unfold PactV3.messageFromJson at h; cases h)
  subst hs
  unfold PactV3.messageFromJson at h
  simp only at h
  obtain ⟨b, h1, h⟩ := SessionProps.bind_eq_ok.1 h
  obtain ⟨rs, h2, h⟩ := SessionProps.bind_eq_ok.1 h
  cases h
  exact ⟨rfl, (ReadFileProps.str_iff _ v _).1 rfl, (ReadFileProps.textD_iff _ _ v _).1 rfl, (ReadFileProps.states_iff v _).1 rfl,
    (metadataOf_iff v _).1 rfl, (contents_iff E _ v b).1 h1, rules_are E.P v none rs h2, rfl⟩

/-- **C173** (messages, nothing is refused). -/
theorem C173_message_read (E : FileEnv) (i : Nat) (v : Json) (m : Message) (h : MessageIs E i v m) :
    ∃ n, PactV3.messageFromJson E .v3 i v = .ok n ∧ n.id = m.id ∧ n.description = m.description ∧ n.states = m.states
      ∧ n.metadata = m.metadata ∧ n.contents = m.contents ∧ n.gens = m.gens ∧ ∀ c p, rulesAt n.rules c p = rulesAt m.rules c p := by
  obtain ⟨rs, h1, h2⟩ := rules_read E.P v none m.rules h.rules
  have hm := (metadataOf_iff v m.metadata).2 h.metadata
  unfold PactV3.messageFromJson
  simp only
  rw [hm, (contents_iff E m.metadata v m.contents).2 h.contents, Res.bind_ok, h1, Res.bind_ok]
  exact ⟨_, rfl, (ReadFileProps.str_iff _ v _).2 h.id, (ReadFileProps.textD_iff _ _ v _).2 h.description,
    (ReadFileProps.states_iff v _).2 h.states, rfl, rfl, h.gens.symm, h2⟩

/-! ## Pacts -/

theorem entries_http (E : FileEnv) (spec : Spec) (a : List Json) : ∀ (i : Nat) (xs : List HttpInteraction),
    httpLoop E spec i a = .ok xs → xs.length = a.length ∧
      ∀ (j : Nat) (x : Json) (y : HttpInteraction), a[j]? = some x → xs[j]? = some y → InteractionIs E spec (i + j) x y := by
  induction a with
  | nil => intro i xs h; cases h; exact ⟨rfl, fun j x y h1 _ => by simp at h1⟩
  | cons v vs ih =>
    intro i xs h
    obtain ⟨z, h1, h2⟩ := SessionProps.bind_eq_ok.1 h
    obtain ⟨zs, h3, h4⟩ := Res.map_eq_ok.1 h2
    subst h4
    obtain ⟨h5, h6⟩ := ih (i + 1) zs h3
    refine ⟨by rw [List.length_cons, List.length_cons, h5], fun j x y hx hy => ?_⟩
    cases j with
    | zero =>
      simp only [List.getElem?_cons_zero, Option.some.injEq] at hx hy
      subst hx
      subst hy
      exact C173_interaction E spec i _ _ h1
    | succ j =>
      simp only [List.getElem?_cons_succ] at hx hy
      have h7 := h6 j x y hx hy
      rw [show i + 1 + j = i + (j + 1) from by omega] at h7
      exact h7

theorem entries_message (E : FileEnv) (spec : Spec) (a : List Json) : ∀ (i : Nat) (xs : List Message),
    messageLoop E spec i a = .ok xs → xs.length = a.length ∧
      ∀ (j : Nat) (x : Json) (y : Message), a[j]? = some x → xs[j]? = some y → MessageIs E (i + j) x y := by
  induction a with
  | nil => intro i xs h; cases h; exact ⟨rfl, fun j x y h1 _ => by simp at h1⟩
  | cons v vs ih =>
    intro i xs h
    obtain ⟨z, h1, h2⟩ := SessionProps.bind_eq_ok.1 h
    obtain ⟨zs, h3, h4⟩ := Res.map_eq_ok.1 h2
    subst h4
    obtain ⟨h5, h6⟩ := ih (i + 1) zs h3
    refine ⟨by rw [List.length_cons, List.length_cons, h5], fun j x y hx hy => ?_⟩
    cases j with
    | zero =>
      simp only [List.getElem?_cons_zero, Option.some.injEq] at hx hy
      subst hx
      subst hy
      exact (C173_message E spec i _ _ h1).2
    | succ j =>
      simp only [List.getElem?_cons_succ] at hx hy
      have h7 := h6 j x y hx hy
      rw [show i + 1 + j = i + (j + 1) from by omega] at h7
      exact h7

theorem lookup_append {A : Type} (q : Str) (l m : List (Str × A)) :
    Json.lookup q (l ++ m) = (Json.lookup q l).or (Json.lookup q m) := by
  induction l with
  | nil => rfl
  | cons e es ih =>
    obtain ⟨k, x⟩ := e
    show (if k = q then some x else Json.lookup q (es ++ m)) = Option.or (if k = q then some x else Json.lookup q es) _
    by_cases h : k = q
    · rw [if_pos h, if_pos h]; rfl
    · rw [if_neg h, if_neg h, ih]

theorem lookup_last {A B : Type} (key : Str × A → Str) (val : Str × A → B) (R : Str × A → Prop) (q : Str)
    (hR : ∀ e, R e ↔ key e = q) (l : List (Str × A)) :
    ∃ x, Last R l x ∧ Json.lookup q (OMap.collect (l.map fun e => (key e, val e))) = x.map val := by
  rw [PactFileProps.lookup_collect_last]
  induction l with
  | nil => exact ⟨none, .none [] (by simp), rfl⟩
  | cons e es ih =>
    obtain ⟨x, h1, h2⟩ := ih
    rw [List.map_cons, List.reverse_cons, lookup_append, h2]
    cases h1 with
    | some as bs y h3 h4 => exact ⟨some y, .some (e :: as) bs y h3 h4, rfl⟩
    | none _ h3 =>
      by_cases he : key e = q
      · refine ⟨some e, .some [] es e ((hR e).2 he) h3, ?_⟩
        show Option.or none (if key e = q then some (val e) else none) = _
        rw [if_pos he]
        rfl
      · refine ⟨none, .none (e :: es) (fun y hy hk => ?_), ?_⟩
        · rcases List.mem_cons.1 hy with rfl | hy
          · exact he ((hR _).1 hk)
          · exact h3 y hy hk
        · show Option.or none (if key e = q then some (val e) else none) = _
          rw [if_neg he]
          rfl

theorem spelt_iff (k q : Str) : Spelt k q ↔ metadataKey k = q := by
  unfold metadataKey
  constructor
  · intro h
    cases h with
    | specification => exact if_pos rfl
    | rust => rw [if_neg (by decide)]; exact if_pos rfl
    | same _ h1 h2 => rw [if_neg h1, if_neg h2]
  · intro h
    subst h
    by_cases h1 : k = "pact-specification".toList
    · rw [if_pos h1, h1]; exact .specification
    · rw [if_neg h1]
      by_cases h2 : k = "pact-rust".toList
      · rw [if_pos h2, h2]; exact .rust
      · rw [if_neg h2]; exact .same k h1 h2

theorem metadata_is (v : Json) : MetadataIs v (parseMetadata v) := by
  refine ⟨_, (ReadFileProps.object_iff "metadata" v _).1 rfl, fun k n => ?_⟩
  unfold parseMetadata
  generalize objAttr "metadata" v = o
  obtain ⟨x, h1, h2⟩ := lookup_last (fun e : Str × Json => metadataKey e.1) (fun e => metadataPart e.2) (fun e => Spelt e.1 k) k
    (fun e => spelt_iff e.1 k) o
  rw [h2]
  cases x with
  | none => exact .none h1
  | some e =>
    by_cases hm : ∃ m, e.2 = .obj m
    · obtain ⟨m, hm⟩ := hm
      obtain ⟨y, h3, h4⟩ := lookup_last (fun e : Str × Json => e.1) (fun e => textOf e.2) (fun e => e.1 = n) n (fun _ => Iff.rfl) m
      show MetadataAt o k n (Json.lookup n (metadataPart e.2))
      rw [hm]
      show MetadataAt o k n (Json.lookup n (OMap.collect (m.map fun e => (e.1, textOf e.2))))
      rw [h4]
      exact .some e m y h1 hm h3
    · have hp : metadataPart e.2 = [] := by
        cases he : e.2 with
        | obj m => exact absurd ⟨m, he⟩ hm
        | _ => rfl
      show MetadataAt o k n (Json.lookup n (metadataPart e.2))
      rw [hp]
      exact .mistyped e h1 (fun m e => hm ⟨m, e⟩)

/-- **C173** (request/response pacts): such a pact that is read is the one that its file stands for. -/
theorem C173_pact (E : FileEnv) (v : Json) (p : HttpPact) (h4 : determineSpec E (parseMetadata v) ≠ .v4)
    (h : httpPactFromJson E v = .ok p) : p.spec = determineSpec E (parseMetadata v) ∧ HttpPactIs E v p := by
  unfold httpPactFromJson at h
  simp only at h
  obtain ⟨is, h1, h2⟩ := Res.map_eq_ok.1 h
  subst h2
  refine ⟨rfl, (ReadFileProps.name_iff _ _ v _).1 rfl, (ReadFileProps.name_iff _ _ v _).1 rfl, ⟨fun a ha => ?_, fun hn => ?_⟩,
    metadata_is v⟩
  · unfold parseInteractions at h1
    rw [ha] at h1
    obtain ⟨h3, h5⟩ := entries_http E _ a 0 is h1
    exact ⟨h3, fun i x y hx hy => by have h6 := h5 i x y hx hy; rw [Nat.zero_add] at h6; exact h6⟩
  · unfold parseInteractions at h1
    split at h1
    · rename_i a ha; exact absurd ha (hn a)
    · cases h1; rfl

/-- **C173** (message pacts). -/
theorem C173_message_pact (E : FileEnv) (v : Json) (p : MessagePact) (h : messagePactFromJson E v = .ok p) :
    p.spec = determineSpec E (parseMetadata v) ∧ MessagePactIs E v p := by
  obtain ⟨ms, h1, h2⟩ := Res.map_eq_ok.1 h
  subst h2
  refine ⟨rfl, (ReadFileProps.name_iff _ _ v _).1 rfl, (ReadFileProps.name_iff _ _ v _).1 rfl, ⟨fun a ha => ?_, fun hn => ?_⟩,
    metadata_is v⟩
  · unfold parseMessages at h1
    rw [ha] at h1
    obtain ⟨h3, h5⟩ := entries_message E _ a 0 ms h1
    exact ⟨h3, fun i x y hx hy => by have h6 := h5 i x y hx hy; rw [Nat.zero_add] at h6; exact h6⟩
  · unfold parseMessages at h1
    split at h1
    · rename_i a ha; exact absurd ha (hn a)
    · cases h1
    · cases h1; rfl

/-- **C173** (messages that are no array): such a file is refused. -/
theorem C173_messages_refused (E : FileEnv) (v x : Json) (h : vget "messages" v = some x) (hx : ∀ a, x ≠ .arr a) :
    messagePactFromJson E v = .err := by
  unfold messagePactFromJson parseMessages
  simp only
  rw [h]
  cases x <;> first | rfl | exact absurd rfl (hx _)

/-! ## Non-vacuity -/

/-- `{"query": "a=1", "headers": {"content-type": "application/json"}, "body": "hi",
"requestMatchingRules": {"$.path": {"match": "type"}}}`. -/
def exReq : Json :=
  .obj [("query".toList, .str "a=1".toList), ("headers".toList, .obj [("content-type".toList, .str "application/json".toList)]),
    ("body".toList, .str "hi".toList),
    ("requestMatchingRules".toList, .obj [("$.path".toList, .obj [("match".toList, .str "type".toList)])])]

set_option maxRecDepth 100000 in
/-- The text is put in quotes, since it is no JSON text. -/
theorem example_request : ∃ r, PactV3.requestFromJson PactFileProps.exE .v2 exReq = .ok r
    ∧ r.query = some [("a".toList, [some "1".toList])]
    ∧ r.body = .present (utf8 "\"hi\"".toList) (some PactFileProps.jsonCT) none
    ∧ rulesAt r.rules .path Path.empty = some ⟨[.type], .and, false⟩ :=
  ⟨_, rfl, by decide +kernel, by decide +kernel, rfl⟩

/-- `{"interactions": [{}, {"response": {"status": 404}}], "metadata": {"pact-specification": {"version": "2.0.0"}}}`. -/
def exFile : Json :=
  .obj [("interactions".toList, .arr [.obj [], .obj [("response".toList, .obj [("status".toList, .num (.pos 404))])]]),
    ("metadata".toList, .obj [("pact-specification".toList, .obj [("version".toList, .str "2.0.0".toList)])])]

set_option maxRecDepth 100000 in
theorem example_file : ∃ p x y, httpPactFromJson PactFileProps.exE exFile = .ok p ∧ p.interactions = [x, y]
    ∧ x.request.method = "GET".toList ∧ x.response.status = 200 ∧ y.description = "Interaction 1".toList ∧ y.response.status = 404
    ∧ (Json.lookup "pactSpecification".toList p.metadata).bind (Json.lookup "version".toList) = some "2.0.0".toList :=
  ⟨_, _, _, rfl, rfl, rfl, rfl, by decide +kernel, rfl, by decide +kernel⟩

/-- `{"metaData": {"Content-Type": "text/plain"}, "contents": "hi"}`. -/
def exMessage : Json :=
  .obj [("metaData".toList, .obj [("Content-Type".toList, .str "text/plain".toList)]), ("contents".toList, .str "hi".toList)]

set_option maxRecDepth 100000 in
theorem example_message : ∃ m, PactV3.messageFromJson PactFileProps.exE .v3 7 exMessage = .ok m
    ∧ m.contents = .present (utf8 "hi".toList) (some ⟨"text".toList, "plain".toList, [], none⟩) none
    ∧ m.description = "Message 7".toList :=
  ⟨_, rfl, by decide +kernel, by decide +kernel⟩

theorem example_refused : messagePactFromJson PactFileProps.exE (.obj [("messages".toList, .obj [])]) = .err :=
  C173_messages_refused _ _ _ rfl (by intro a h; cases h)



end ReadOldProps
end Verif
