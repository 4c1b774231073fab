import Verif.Props.SessionProps
import Verif.Props.BodyBuildProps
import Verif.Props.MatcherTableProps

/-
  C149: bodies given as bytes (`with_binary_body`, `with_binary_file`).
-/

set_option autoImplicit false

namespace Verif
namespace SessionBodyProps
open Path Rules RuleJson Generate Integration PactFile Parts Headers Ops SessionProps BodyBuildProps EndToEndProps
open MatchResult (contentTypeD)
open Compare QueryProps ResultProps

/-! ## Specification -/

/-- The body for bytes of a C pointer: NULL is a null body, no bytes an empty one. -/
inductive BodyFor (ct : Option ContentType) : Option Bytes → FBody → Prop
  | null : BodyFor ct none .null
  | empty : BodyFor ct (some []) .empty
  | bytes (x : UInt8) (xs : Bytes) : BodyFor ct (some (x :: xs)) (.present (x :: xs) ct none)

/-- The headers have a content type, in any case of the letters. -/
def HasType (uc : UC) (h : Option HeaderMap) : Prop := ∃ k v, (k, v) ∈ h.getD [] ∧ uc.lower k = uc.lower "Content-Type".toList

/-- The headers get a content type unless they have one; the others are kept. -/
def TypeAdded (uc : UC) (t : Str) (h h' : Option HeaderMap) : Prop :=
  (HasType uc h → h' = h) ∧
  (¬ HasType uc h → ∀ k, Json.lookup k (h'.getD []) = if k = "Content-Type".toList then some [t] else Json.lookup k (h.getD []))

/-- The content type of a call: octets unless it is given. -/
def typeText : CStr → Str
  | .text s => s
  | _ => "application/octet-stream".toList

/-- Metadata with the content type set. -/
def TypeSet (t : Str) (m m' : Obj) : Prop :=
  ∀ k, Json.lookup k m' = if k = "contentType".toList then some (.str t) else Json.lookup k m

theorem bodyFor (ct : Option ContentType) (b : Option Bytes) : BodyFor ct b (ptrBody b ct) := by
  match b with
  | none => exact .null
  | some [] => exact .empty
  | some (x :: xs) => exact .bytes x xs

theorem bodyFor_unique {ct : Option ContentType} {b : Option Bytes} {f : FBody} (h : BodyFor ct b f) : f = ptrBody b ct := by
  cases h <;> rfl

theorem typeText_eq (ct : CStr) : ct.get.getD "application/octet-stream".toList = typeText ct := by
  cases ct <;> rfl

theorem hasType_iff (uc : UC) (h : Option HeaderMap) : hasType uc h = true ↔ HasType uc h := by
  unfold hasType HasType
  rw [List.any_eq_true]
  constructor
  · rintro ⟨⟨k, v⟩, hm, he⟩
    exact ⟨k, v, hm, of_decide_eq_true he⟩
  · rintro ⟨k, v, hm, he⟩
    exact ⟨(k, v), hm, decide_eq_true he⟩

theorem typeAdded (uc : UC) (t : Str) (h : Option HeaderMap) : TypeAdded uc t h (addTypeHeader uc t h) := by
  unfold TypeAdded addTypeHeader
  constructor
  · intro hh
    rw [if_pos ((hasType_iff uc h).2 hh)]
  · intro hh k
    rw [if_neg (fun e => hh ((hasType_iff uc h).1 e))]
    exact HeaderProps.lookup_insertKV ..

theorem typeSet (t : Str) (m : Obj) : TypeSet t m (setMetaType t m) := fun _ => HeaderProps.lookup_insertKV ..

/-! ## What the calls set -/

/-- **C149** (requests and responses): the body of the part is the bytes with the content type, the content type header is
added if there is none, and nothing else changes.  This is so even if the mock server was started, when the answer is
`false`. -/
theorem C149_http (L : BodyBuild.Lib) (b : Bool) (ct : CStr) (x : Option Bytes) (c : Common) (req : HttpRequest)
    (res : HttpResponse) :
    (∃ f h, withBinaryBody L b .request ct x (.http c req res) = (.http c { req with body := f, headers := h } res, !b) ∧
      BodyFor (L.file.parseCT (typeText ct)) x f ∧ TypeAdded L.src.uc (typeText ct) req.headers h) ∧
    (∃ f h, withBinaryBody L b .response ct x (.http c req res) = (.http c req { res with body := f, headers := h }, !b) ∧
      BodyFor (L.file.parseCT (typeText ct)) x f ∧ TypeAdded L.src.uc (typeText ct) res.headers h) := by
  refine ⟨⟨_, _, rfl, ?_, ?_⟩, ⟨_, _, rfl, ?_, ?_⟩⟩
  all_goals rw [typeText_eq]
  · exact bodyFor _ _
  · exact typeAdded _ _ _
  · exact bodyFor _ _
  · exact typeAdded _ _ _

/-- **C149** (messages): the contents are the bytes with the content type, which is also put into the metadata; a response of
a synchronous message is added at the end.  Nothing else changes. -/
theorem C149_messages (L : BodyBuild.Lib) (b : Bool) (ct : CStr) (x : Option Bytes) (c : Common) (m : MessageContents)
    (res : List MessageContents) :
    (∀ p, ∃ f md, withBinaryBody L b p ct x (.async c m) = (.async c { m with contents := f, metadata := md }, true) ∧
      BodyFor (L.file.parseCT (typeText ct)) x f ∧ TypeSet (typeText ct) m.metadata md) ∧
    (∃ f md, withBinaryBody L b .request ct x (.sync c m res) = (.sync c { m with contents := f, metadata := md } res, true) ∧
      BodyFor (L.file.parseCT (typeText ct)) x f ∧ TypeSet (typeText ct) m.metadata md) ∧
    (∃ f md, withBinaryBody L b .response ct x (.sync c m res) = (.sync c m (res ++ [⟨f, md, [], []⟩]), true) ∧
      BodyFor (L.file.parseCT (typeText ct)) x f ∧ TypeSet (typeText ct) [] md) := by
  refine ⟨fun p => ⟨_, _, rfl, ?_, ?_⟩, ⟨_, _, rfl, ?_, ?_⟩, ⟨_, _, rfl, ?_, ?_⟩⟩
  all_goals try rw [typeText_eq]
  · exact bodyFor _ _
  · exact typeSet _ _
  · exact bodyFor _ _
  · exact typeSet _ _
  · exact bodyFor _ _
  · exact typeSet _ _

/-! ## What the interaction accepts -/

/-- The content types let the bodies be compared. -/
def Comparable (e a : ContentType) : Prop :=
  e.isUnknown = true ∨ a.isUnknown = true ∨ e.isEquivalentTo a = true ∨ e.isEquivalentTo a.baseType = true

/-- A content type whose bodies are compared byte by byte. -/
def Plain (t : ContentType) : Prop :=
  t.isJson = false ∧ t.isXml = false ∧ t.main ≠ "multipart".toList ∧ t.baseType ≠ .formUrlencoded

theorem value_present {b : Body} {x : UInt8} {xs : Bytes} (h : b.value = some (x :: xs)) : b ≠ .missing ∧ b ≠ .empty := by
  constructor
  · rintro rfl; cases h
  · rintro rfl; cases h

theorem agrees_bytes (be : BodyEnv) (rel : Json → Json → Prop) (t : ContentType) (ht : Plain t) (x : UInt8) (xs : Bytes)
    (a : Option Bytes) : ContentAgrees be rel t (x :: xs) a ↔ a = some (x :: xs) := by
  unfold ContentAgrees
  rw [if_neg (by rw [ht.1]; exact Bool.false_ne_true), if_neg ht.2.2.2]
  split
  · cases a with
    | none => simp
    | some y => simp [eq_comm]
  · rfl

theorem body_bytes (uc : UC) (be : BodyEnv) (rel : Json → Json → Prop) (e a : MatchResult.Part) (x : UInt8) (xs : Bytes)
    (ct : Option ContentType) (he : e.body = .present (x :: xs) ct) (ht : Plain (contentTypeD uc be e)) :
    BodyAgrees uc be rel e a ↔ Comparable (contentTypeD uc be e) (contentTypeD uc be a) ∧ a.body.value = some (x :: xs) := by
  unfold BodyAgrees
  rw [he]
  simp only
  rw [agrees_bytes be rel _ ht]
  unfold Comparable
  constructor
  · rintro ⟨h1, _, _, h2⟩
    exact ⟨h1, h2⟩
  · rintro ⟨h1, h2⟩
    obtain ⟨h3, h4⟩ := value_present h2
    exact ⟨h1, h3, h4, h2⟩

/-- A response as it is compared. -/
def asResponse (r : HttpResponse) : MatchResult.Response := ⟨r.status, ⟨r.headers, asBody r.body⟩, r.rules⟩

theorem type_of_bytes (uc : UC) (be : BodyEnv) (h : Option HeaderMap) (b : Bytes) (t : ContentType) :
    contentTypeD uc be ⟨h, .present b (some t)⟩ = t := rfl

/-- **C149** (accepted requests): a request with a body given as bytes, and without rules, accepts exactly the requests that
agree in method, path, query and headers, have a content type that can be compared, and have exactly these bytes as body. -/
theorem C149_accepts {L : BodyBuild.Lib} {b : Bool} {ct : CStr} {x : UInt8} {xs : Bytes} {c c' : Common} {req req' : HttpRequest}
    {res res' : HttpResponse} {o : Bool}
    (h : withBinaryBody L b .request ct (some (x :: xs)) (.http c req res) = (.http c' req' res', o)) (hr : req.rules = [])
    {t : ContentType} (ht : L.file.parseCT (typeText ct) = some t) (hp : Plain t) (env : Env) (uc : UC) (be : BodyEnv)
    (a : MatchResult.Request) (hq : QueryProps.NodupKeys (req.query.getD []))
    (hh : HeaderProps.CaseNodup uc (a.part.headers.getD [])) (hw : ∀ (b : Bytes) (j : Json), be.json b = some j → j.WF) :
    (MatchResult.matchRequest env uc be (asRequest req') a).allMatched = true ↔
      uc.lower req.method = uc.lower a.method ∧ req.path = a.path ∧ QueryProps.SameQuery req.query a.query ∧
      HeadersAgree uc req'.headers a.part.headers ∧ Comparable t (contentTypeD uc be a.part) ∧
      a.part.body.value = some (x :: xs) := by
  obtain ⟨⟨f, hd, h1, hf, _⟩, _⟩ := C149_http L b ct (some (x :: xs)) c req res
  rw [h1] at h
  cases h
  rw [ht] at hf
  have hf := bodyFor_unique hf
  subst hf
  have hct : contentTypeD uc be (asRequest { req with body := ptrBody (some (x :: xs)) (some t), headers := hd }).part = t := rfl
  rw [C47_request env uc be _ a hr hq hh (by rw [hct]; exact hp.2.1) (by rw [hct]; exact hp.2.2.1) hw,
    body_bytes uc be _ _ a.part x xs (some t) rfl (by rw [hct]; exact hp), hct]
  exact Iff.rfl

/-- **C149** (accepted responses): the same for responses, with the status. -/
theorem C149_accepts_response {L : BodyBuild.Lib} {b : Bool} {ct : CStr} {x : UInt8} {xs : Bytes} {c c' : Common}
    {req req' : HttpRequest} {res res' : HttpResponse} {o : Bool}
    (h : withBinaryBody L b .response ct (some (x :: xs)) (.http c req res) = (.http c' req' res', o)) (hr : res.rules = [])
    {t : ContentType} (ht : L.file.parseCT (typeText ct) = some t) (hp : Plain t) (env : Env) (uc : UC) (be : BodyEnv)
    (a : MatchResult.Response)
    (hh : HeaderProps.CaseNodup uc (a.part.headers.getD [])) (hw : ∀ (b : Bytes) (j : Json), be.json b = some j → j.WF) :
    MatchResult.matchResponse env uc be (asResponse res') a = [] ↔
      res.status = a.status ∧ HeadersAgree uc res'.headers a.part.headers ∧ Comparable t (contentTypeD uc be a.part) ∧
      a.part.body.value = some (x :: xs) := by
  obtain ⟨_, ⟨f, hd, h1, hf, _⟩⟩ := C149_http L b ct (some (x :: xs)) c req res
  rw [h1] at h
  cases h
  rw [ht] at hf
  have hf := bodyFor_unique hf
  subst hf
  have hct : contentTypeD uc be (asResponse { res with body := ptrBody (some (x :: xs)) (some t), headers := hd }).part = t := rfl
  rw [C48_response env uc be _ a hr hh (by rw [hct]; exact hp.2.1) (by rw [hct]; exact hp.2.2.1) hw,
    body_bytes uc be _ _ a.part x xs (some t) rfl (by rw [hct]; exact hp), hct]
  exact Iff.rfl

/-- **C149** (conflicting types): a body whose content type is not comparable with the one in the header makes an interaction
that rejects its own example, that is the request with the same method, path, query, headers and bytes. -/
theorem C149_conflict {L : BodyBuild.Lib} {b : Bool} {ct : CStr} {x : UInt8} {xs : Bytes} {c c' : Common}
    {req req' : HttpRequest} {res res' : HttpResponse} {o : Bool}
    (h : withBinaryBody L b .request ct (some (x :: xs)) (.http c req res) = (.http c' req' res', o)) (hr : req.rules = [])
    {t : ContentType} (ht : L.file.parseCT (typeText ct) = some t) (hp : Plain t) (env : Env) (uc : UC) (be : BodyEnv)
    (hq : QueryProps.NodupKeys (req.query.getD [])) (hh : HeaderProps.CaseNodup uc (req'.headers.getD []))
    (hw : ∀ (b : Bytes) (j : Json), be.json b = some j → j.WF)
    (hc : ¬ Comparable t (contentTypeD uc be ⟨req'.headers, .present (x :: xs) none⟩)) :
    (MatchResult.matchRequest env uc be (asRequest req')
      ⟨req'.method, req'.path, req'.query, ⟨req'.headers, .present (x :: xs) none⟩, []⟩).allMatched = false := by
  rw [Bool.eq_false_iff]
  intro hm
  exact hc ((C149_accepts h hr ht hp env uc be ⟨req'.method, req'.path, req'.query, ⟨req'.headers, .present (x :: xs) none⟩, []⟩
    hq hh hw).1 hm).2.2.2.2.1

/-! ## Files -/

/-- The rule for the content type is added to the rules of the body, from V3 on. -/
def RuleAdded (spec : PactV3.Spec) (t : Str) (m m' : MatchingRules) : Prop :=
  ∀ cat p, MatcherTableProps.rulesAt m' cat p =
    if cat = .body ∧ p.expr = "$".toList ∧ (spec = .v3 ∨ spec = .v4) then
      RuleProps.combined (MatcherTableProps.rulesAt m .body rootPath) (some ⟨[.contentType t], .and, false⟩)
    else MatcherTableProps.rulesAt m cat p

theorem rulesAt_setCat (m : MatchingRules) (c : Category) (r : RuleCategory) (c' : Category) (q : DocPath) :
    MatcherTableProps.rulesAt (setCat c r m) c' q = if c' = c then lookup r.rules q else MatcherTableProps.rulesAt m c' q := by
  unfold MatcherTableProps.rulesAt
  have : rulesForCategory (setCat c r m) c' = if c' = c then some r else rulesForCategory m c' := by
    induction m with
    | nil =>
      unfold setCat
      rw [MatcherTableProps.rulesForCategory_cons]
      by_cases h : c' = c
      · rw [if_pos h, if_pos h.symm]
      · rw [if_neg h, if_neg (fun e => h e.symm)]
    | cons e es ih =>
      unfold setCat
      by_cases he : e.1 = c
      · rw [if_pos he, MatcherTableProps.rulesForCategory_cons, MatcherTableProps.rulesForCategory_cons]
        by_cases h : c' = c
        · simp [h]
        · have h' : ¬ e.1 = c' := fun x => h (x.symm.trans he)
          simp [h, h', Ne.symm h]
      · rw [if_neg he, MatcherTableProps.rulesForCategory_cons, ih, MatcherTableProps.rulesForCategory_cons]
        by_cases h : c' = c
        · subst h; simp [he]
        · simp [h]
  rw [this]
  split <;> rfl

theorem lookup_expr {β : Type} (m : List (DocPath × β)) (p q : DocPath) (h : p.expr = q.expr) : lookup m p = lookup m q := by
  unfold lookup
  congr 2
  funext e
  rw [Bool.eq_iff_iff, RuleProps.keyIs_iff, RuleProps.keyIs_iff, h]

theorem ruleAdded (spec : PactV3.Spec) (t : Str) (m : MatchingRules) : RuleAdded spec t m (typeRule (atLeastV3 spec) t m) := by
  intro cat p
  have hs : atLeastV3 spec = true ↔ spec = .v3 ∨ spec = .v4 := by cases spec <;> simp [atLeastV3]
  unfold typeRule
  by_cases h : atLeastV3 spec = true
  · rw [if_pos h, rulesAt_setCat]
    by_cases hc : cat = .body
    · subst hc
      rw [if_pos rfl]
      unfold addRule
      simp only
      rw [RuleProps.lookup_upsert]
      by_cases hp : p.expr = "$".toList
      · rw [if_pos (show p.expr = rootPath.expr from hp), if_pos ⟨trivial, hp, hs.1 h⟩]
        unfold MatcherTableProps.rulesAt catOf
        cases rulesForCategory m .body with
        | none => rfl
        | some r =>
          show some _ = RuleProps.combined (lookup r.rules rootPath) _
          simp only [Option.getD_some]
          cases lookup r.rules rootPath <;> rfl
      · rw [if_neg (show ¬ p.expr = rootPath.expr from hp), if_neg (fun e => hp e.2.1)]
        unfold MatcherTableProps.rulesAt catOf
        cases rulesForCategory m .body <;> rfl
    · rw [if_neg hc, if_neg (fun e => hc e.1)]
  · rw [if_neg h, if_neg (fun e => h (hs.2 e.2.2))]

/-- **C149** (files): the body of the part is the bytes, a rule for the content type is added (from V3 on), the header is added
if there is none, and nothing else changes; without a content type nothing changes at all. -/
theorem C149_file (uc : UC) (spec : PactV3.Spec) (b : Bool) (t : Str) (x : Option Bytes) (c : Common) (req : HttpRequest)
    (res : HttpResponse) :
    (∃ f h m, withBinaryFile uc spec b .request (.text t) x (.http c req res) =
        (.http c { req with body := f, headers := h, rules := m } res, !b) ∧
      BodyFor none x f ∧ TypeAdded uc t req.headers h ∧ RuleAdded spec t req.rules m) ∧
    (∃ f h m, withBinaryFile uc spec b .response (.text t) x (.http c req res) =
        (.http c req { res with body := f, headers := h, rules := m }, !b) ∧
      BodyFor none x f ∧ TypeAdded uc t res.headers h ∧ RuleAdded spec t res.rules m) ∧
    (∀ p i, withBinaryFile uc spec b p .null x i = (i, false) ∧ withBinaryFile uc spec b p .bad x i = (i, false)) :=
  ⟨⟨_, _, _, rfl, bodyFor _ _, typeAdded _ _ _, ruleAdded _ _ _⟩, ⟨_, _, _, rfl, bodyFor _ _, typeAdded _ _ _, ruleAdded _ _ _⟩,
    fun _ _ => ⟨rfl, rfl⟩⟩

/-- **C149** (files in messages): as for bodies, with the rule for the content type. -/
theorem C149_file_messages (uc : UC) (spec : PactV3.Spec) (b : Bool) (t : Str) (x : Option Bytes) (c : Common)
    (m : MessageContents) (res : List MessageContents) :
    (∀ p, ∃ f md r, withBinaryFile uc spec b p (.text t) x (.async c m) =
        (.async c { m with contents := f, metadata := md, rules := r }, true) ∧
      BodyFor none x f ∧ TypeSet t m.metadata md ∧ RuleAdded spec t m.rules r) ∧
    (∃ f md r, withBinaryFile uc spec b .request (.text t) x (.sync c m res) =
        (.sync c { m with contents := f, metadata := md, rules := r } res, true) ∧
      BodyFor none x f ∧ TypeSet t m.metadata md ∧ RuleAdded spec t m.rules r) ∧
    (∃ f md r, withBinaryFile uc spec b .response (.text t) x (.sync c m res) = (.sync c m (res ++ [⟨f, md, r, []⟩]), true) ∧
      BodyFor none x f ∧ TypeSet t [] md ∧ RuleAdded spec t [] r) :=
  ⟨fun _ => ⟨_, _, _, rfl, bodyFor _ _, typeSet _ _, ruleAdded _ _ _⟩,
    ⟨_, _, _, rfl, bodyFor _ _, typeSet _ _, ruleAdded _ _ _⟩, ⟨_, _, _, rfl, bodyFor _ _, typeSet _ _, ruleAdded _ _ _⟩⟩

/-- The rules of a request after `with_binary_file`, if it had none before. -/
theorem file_rules (spec : PactV3.Spec) (hs : spec = .v3 ∨ spec = .v4) (t : Str) :
    typeRule (atLeastV3 spec) t [] = [(.body, ⟨.body, [(rootPath, ⟨[.contentType t], .and, false⟩)]⟩)] := by
  rcases hs with rfl | rfl <;> rfl

theorem best_root (t : Str) (d : DiffConfig) :
    best (⟨⟨.body, [(rootPath, ⟨[MatchingRule.contentType t], .and, false⟩)]⟩, d⟩ : Ctx) rootPath =
      ⟨[.contentType t], .and, false⟩ := rfl

theorem defined_root (t : Str) (d : DiffConfig) :
    isDefined (⟨⟨.body, [(rootPath, ⟨[MatchingRule.contentType t], .and, false⟩)]⟩, d⟩ : Ctx) rootPath = true := rfl

theorem octet_rule (be : BodyEnv) (e a : Bytes) (t : Str) (d : DiffConfig) :
    MatchResult.matchOctetStream be e a ⟨⟨.body, [(rootPath, ⟨[.contentType t], .and, false⟩)]⟩, d⟩ = [] ↔
      be.bytesMatch e a (.contentType t) false = true := by
  unfold MatchResult.matchOctetStream
  rw [if_pos (defined_root t d), best_root]
  simp only [List.isEmpty_cons, Bool.false_eq_true, if_false, List.filter_cons, List.filter_nil]
  cases be.bytesMatch e a (.contentType t) false <;> simp

theorem core_rule (env : Env) (be : BodyEnv) (ct : ContentType) (hp : Plain ct) (e a : Option Bytes) (t : Str) (d : DiffConfig) :
    MatchResult.compareBodiesCore env be ct e a ⟨⟨.body, [(rootPath, ⟨[.contentType t], .and, false⟩)]⟩, d⟩ = [] ↔
      be.bytesMatch (e.getD []) (a.getD []) (.contentType t) false = true := by
  unfold MatchResult.compareBodiesCore
  simp only
  rw [if_neg (by rw [hp.1]; exact Bool.false_ne_true), if_neg (by rw [hp.2.1]; exact Bool.false_ne_true), if_neg hp.2.2.1,
    if_neg hp.2.2.2]
  split
  · exact octet_rule ..
  · rw [if_pos (by rw [defined_root, best_root]; rfl)]
    exact octet_rule ..

/-- **C149** (requests accepted with a file): from V3 on the bytes need not be the same: a request is accepted exactly if it
agrees in method, path, query and headers, has a content type that can be compared, and a body that the rule for the content
type accepts. -/
theorem C149_file_accepts {uc : UC} {spec : PactV3.Spec} {b : Bool} {t : Str} {x : UInt8} {xs : Bytes} {c c' : Common}
    {req req' : HttpRequest} {res res' : HttpResponse} {o : Bool}
    (h : withBinaryFile uc spec b .request (.text t) (some (x :: xs)) (.http c req res) = (.http c' req' res', o))
    (hs : spec = .v3 ∨ spec = .v4) (hr : req.rules = []) (env : Env) (be : BodyEnv)
    (hp : Plain (contentTypeD uc be (asRequest req').part))
    (a : MatchResult.Request) (hq : QueryProps.NodupKeys (req.query.getD []))
    (hh : HeaderProps.CaseNodup uc (a.part.headers.getD [])) :
    (MatchResult.matchRequest env uc be (asRequest req') a).allMatched = true ↔
      uc.lower req.method = uc.lower a.method ∧ req.path = a.path ∧ QueryProps.SameQuery req.query a.query ∧
      HeadersAgree uc req'.headers a.part.headers ∧
      Comparable (contentTypeD uc be (asRequest req').part) (contentTypeD uc be a.part) ∧
      a.part.body ≠ .missing ∧ a.part.body ≠ .empty ∧
      be.bytesMatch (x :: xs) (a.part.body.value.getD []) (.contentType t) false = true := by
  have e : (asRequest req').method = req.method ∧ (asRequest req').path = req.path ∧ (asRequest req').query = req.query ∧
      (asRequest req').part.body = .present (x :: xs) none ∧ (asRequest req').part.headers = req'.headers ∧
      (asRequest req').rules = [(.body, ⟨.body, [(rootPath, ⟨[.contentType t], .and, false⟩)]⟩)] := by
    cases h
    refine ⟨rfl, rfl, rfl, rfl, rfl, ?_⟩
    show typeRule (atLeastV3 spec) t req.rules = _
    rw [hr]
    exact file_rules spec hs t
  obtain ⟨e1, e2, e3, e4, e5, e6⟩ := e
  generalize asRequest req' = q at *
  have hpath : MatchResult.ctxFor q.rules .path .noUnexpectedKeys = MatchResult.ctxFor [] .path .noUnexpectedKeys := by rw [e6]; rfl
  have hquery : MatchResult.ctxFor q.rules .query .noUnexpectedKeys = MatchResult.ctxFor [] .query .noUnexpectedKeys := by rw [e6]; rfl
  have hhead : MatchResult.ctxFor q.rules .header .noUnexpectedKeys = MatchResult.ctxFor [] .header .noUnexpectedKeys := by rw [e6]; rfl
  have hbody : MatchResult.ctxFor q.rules .body .noUnexpectedKeys =
      ⟨⟨.body, [(rootPath, ⟨[.contentType t], .and, false⟩)]⟩, .noUnexpectedKeys⟩ := by rw [e6]; rfl
  unfold MatchResult.RequestMatchResult.allMatched MatchResult.matchRequest
  simp only [Bool.and_eq_true, Option.isNone_iff_eq_none, named_all, hpath, hquery, hhead, hbody, C28_method,
    matchPath_ok env _ _ _ (ctxFor_noRules .path .noUnexpectedKeys),
    C23_no_rules env _ _ _ (ctxFor_noRules .query .noUnexpectedKeys) hq,
    matchHeaders_ok env uc _ _ .noUnexpectedKeys hh, and_assoc, e1, e2, e3, e5]
  refine and_congr_right fun _ => and_congr_right fun _ => and_congr_right fun _ => and_congr_right fun _ => ?_
  rw [matchBody_ok_iff]
  have hc := C27_comparable_no_rule env uc be q.part a.part
    (Headers.lowerCtx uc (MatchResult.ctxFor [] .header .noUnexpectedKeys)) (lower_noRules uc .header .noUnexpectedKeys)
  by_cases hcc : ResultProps.Comparable env uc be q.part a.part
      (Headers.lowerCtx uc (MatchResult.ctxFor [] .header .noUnexpectedKeys))
  · unfold MatchResult.matchBody
    simp only
    rw [if_pos (show MatchResult.typesAgree env uc (contentTypeD uc be q.part) (contentTypeD uc be a.part) _ = true from hcc), e4]
    have hcc' : SessionBodyProps.Comparable (contentTypeD uc be q.part) (contentTypeD uc be a.part) := hc.1 hcc
    simp only [hcc', true_and]
    have hcore : ∀ v : Option Bytes, MatchResult.compareBodies env be (contentTypeD uc be q.part) (some (x :: xs)) v
        ⟨⟨.body, [(rootPath, ⟨[.contentType t], .and, false⟩)]⟩, .noUnexpectedKeys⟩ = .ok ↔
          be.bytesMatch (x :: xs) (v.getD []) (.contentType t) false = true := by
      intro v
      refine Iff.trans ?_ (core_rule env be _ hp (some (x :: xs)) v t .noUnexpectedKeys)
      unfold MatchResult.compareBodies
      simp only
      split
      · rename_i hh; simpa using hh
      · rename_i hh; simpa using hh
    unfold MatchResult.matchBodyContent
    cases ha : a.part.body with
    | missing => simp [MatchResult.oneBody]
    | empty => simp [MatchResult.oneBody]
    | null =>
      simp only [ne_eq, reduceCtorEq, not_false_eq_true, true_and]
      exact hcore _
    | present b' ct' =>
      simp only [ne_eq, reduceCtorEq, not_false_eq_true, true_and]
      exact hcore _
  · have hcc' : ¬ SessionBodyProps.Comparable (contentTypeD uc be q.part) (contentTypeD uc be a.part) := fun h => hcc (hc.2 h)
    simp only [hcc', false_and, iff_false]
    have := (C27_type_mismatch env uc be q.part a.part ⟨⟨.body, [(rootPath, ⟨[.contentType t], .and, false⟩)]⟩, .noUnexpectedKeys⟩
      _).2 ⟨by simp [e4, Body.isPresent], hcc⟩
    simp [this]

/-- **C149** (files of another type): a file after a file of another type leaves both rules, so that the body must be of both
types. -/
theorem C149_file_twice (uc : UC) (spec : PactV3.Spec) (hs : spec = .v3 ∨ spec = .v4) (b b' : Bool) (t t' : Str)
    (x x' : Option Bytes) (c : Common) (req : HttpRequest) (res : HttpResponse) (hr : req.rules = []) :
    ∃ req', (withBinaryFile uc spec b' .request (.text t') x' (withBinaryFile uc spec b .request (.text t) x (.http c req res)).1).1 =
        .http c req' res ∧
      MatcherTableProps.rulesAt req'.rules .body rootPath = some ⟨[.contentType t, .contentType t'], .and, false⟩ := by
  refine ⟨_, rfl, ?_⟩
  show MatcherTableProps.rulesAt (typeRule (atLeastV3 spec) t' (typeRule (atLeastV3 spec) t req.rules)) .body rootPath = _
  rw [hr]
  rcases hs with rfl | rfl <;> rfl

/-! ## Examples -/

/-- A library that reads content types with a main and a sub type. -/
def exLib : BodyBuild.Lib := { L1 with file := { L1.file with parseCT := simpleBody.parseContentType } }
/-- A content type of pictures. -/
def png : ContentType := ⟨"image".toList, "png".toList, [], none⟩
/-- A request that already has a content type. -/
def typed : HttpRequest := { rq0 with headers := some [("content-type".toList, ["text/plain".toList])] }

/-- The hypotheses of `C149_accepts` are met, and the header is added. -/
theorem C149_accepts_witness (c : Common) (res : HttpResponse) :
    (∃ req', withBinaryBody exLib false .request (.text "image/png".toList) (some [1, 2]) (.http c rq0 res) =
        (.http c req' res, true) ∧ req'.headers = some [("Content-Type".toList, ["image/png".toList])] ∧
        req'.body = .present [1, 2] (some png) none) ∧
    exLib.file.parseCT (typeText (.text "image/png".toList)) = some png ∧ Plain png ∧ rq0.rules = [] := by
  refine ⟨⟨_, rfl, ?_, ?_⟩, ?_, ⟨by decide, by decide, by decide, by decide⟩, rfl⟩
  · decide +kernel
  · decide +kernel
  · decide +kernel

/-- The hypotheses of `C149_conflict` are met: a picture where the header says that it is a text. -/
theorem C149_conflict_witness (c : Common) (res : HttpResponse) :
    ∃ req', withBinaryBody exLib false .request (.text "image/png".toList) (some [1, 2]) (.http c typed res) =
        (.http c req' res, true) ∧ req'.headers = typed.headers ∧
      ¬ Comparable png (contentTypeD UC.ascii simpleBody ⟨req'.headers, .present [1, 2] none⟩) := by
  have h : (withBinaryBody exLib false .request (.text "image/png".toList) (some [1, 2]) (.http c typed res)).1 =
      .http c { typed with body := .present [1, 2] (some png) none } res := by
    have e (f : FBody) (h : Option HeaderMap) (hf : f = .present [1, 2] (some png) none) (hh : h = typed.headers) :
        Interaction.http c { typed with body := f, headers := h } res =
          .http c { typed with body := .present [1, 2] (some png) none } res := by rw [hf, hh]
    exact e _ _ (by decide +kernel) (by decide +kernel)
  refine ⟨{ typed with body := .present [1, 2] (some png) none }, ?_, rfl, ?_⟩
  · exact Prod.ext h rfl
  · have : contentTypeD UC.ascii simpleBody ⟨typed.headers, .present [1, 2] none⟩ = ⟨"text".toList, "plain".toList, [], none⟩ := by
      decide +kernel
    rw [this]
    unfold Comparable
    decide



end SessionBodyProps
end Verif
