import Verif.Props.EndToEndProps
import Verif.Props.CompareRuleProps

/-
  C56-C60: acceptance of messages without rules, rules act on their own part only, path and status rules,
  text and binary bodies with rules, the content type that decides, inherited value rules.
-/

set_option autoImplicit false

namespace Verif
namespace MessageProps
open Path Rules Matchers Compare Query Headers MatchResult QueryProps HeaderProps CompareProps ResultProps
  EndToEndProps MatcherProps

/-! ### C56: messages without rules -/

/-- Specification: metadata entries that hold a content type. -/
def IsContentTypeKey (k : Str) : Prop :=
  asciiLower k = "contenttype".toList ∨ asciiLower k = "content-type".toList

/-- Specification: every expected metadata entry is present with an equal value, or, for content types, with
the same media type and parameters. -/
def MetadataAgrees (uc : UC) (e a : List (Str × Json)) : Prop :=
  ∀ k v, (k, v) ∈ e → ∃ w, Json.lookup k a = some w ∧
    (IsContentTypeKey k → SameMedia uc (asStrD v) (asStrD w)) ∧ (¬ IsContentTypeKey k → v = w)

/-- Specification: agreement of the contents of two messages; JSON objects may have additional entries. -/
def ContentsAgree (be : BodyEnv) (e a : Message) : Prop :=
  let same := (e.ct.getD .unknown).isEquivalentTo (a.ct.getD .unknown) = true
  match e.body with
  | .missing => True
  | .empty | .null => same → a.body.isPresent = false
  | .present b _ => same ∧ a.body ≠ .missing ∧ a.body ≠ .empty ∧
      ContentAgrees be Extends (e.ct.getD .unknown) b a.body.value

theorem contents_ok (env : Env) (be : BodyEnv) (e a : Message) (ctx : Ctx) (h : NoRules ctx)
    (hc : ctx.config = .allowUnexpectedKeys)
    (hx : (e.ct.getD .unknown).isXml = false) (hm : (e.ct.getD .unknown).main ≠ "multipart".toList)
    (hj : ∀ b j, be.json b = some j → j.WF) :
    matchMessageContents env be e a ctx = [] ↔ ContentsAgree be e a := by
  unfold matchMessageContents ContentsAgree
  simp only
  have hrel : jsonRel ctx.config = Extends := by rw [hc]; rfl
  by_cases hs : (e.ct.getD .unknown).isEquivalentTo (a.ct.getD .unknown) = true
  · rw [if_pos hs, ← C25_body_content]
    cases hb : e.body with
    | missing => simp [matchBodyContent]
    | empty =>
      simp only [matchBodyContent, hs, true_imp_iff]
      cases a.body <;> simp [oneBody, Body.isPresent]
    | null =>
      simp only [matchBodyContent, hs, true_imp_iff]
      cases a.body <;> simp [oneBody, Body.isPresent]
    | present b ct =>
      simp only [hs, true_and]
      have key : ∀ v, compareBodies env be (e.ct.getD .unknown) (some b) v ctx = .ok ↔
          ContentAgrees be Extends (e.ct.getD .unknown) b v := by
        intro v
        rw [compareBodies_ok env be _ b v ctx h hx hm hj, hrel]
      cases ha : a.body with
      | missing => simp [matchBodyContent, oneBody]
      | empty => simp [matchBodyContent, oneBody]
      | null =>
        simp only [matchBodyContent, ne_eq, reduceCtorEq, not_false_eq_true, true_and]
        exact key _
      | present b' ct' =>
        simp only [matchBodyContent, ne_eq, reduceCtorEq, not_false_eq_true, true_and]
        exact key _
  · rw [if_neg hs]
    cases hb : e.body <;> simp [Body.isPresent, hs]

theorem metadataValue_ok (env : Env) (uc : UC) (key : Str) (e a : Json) (ctx : Ctx) (h : NoRules ctx) :
    matchMetadataValue env uc key e a ctx = [] ↔
      (IsContentTypeKey key → SameMedia uc (asStrD e) (asStrD a)) ∧ (¬ IsContentTypeKey key → e = a) := by
  unfold matchMetadataValue IsContentTypeKey
  simp only [noRules_isDefined h, Bool.false_eq_true, if_false]
  by_cases hk : asciiLower key = "contenttype".toList ∨ asciiLower key = "content-type".toList
  · rw [if_pos hk, ← C46_parameter_header]
    simp only [hk, true_imp_iff, not_true_eq_false, false_imp_iff, and_true]
    simp
  · rw [if_neg hk]
    simp only [hk, false_imp_iff, not_false_eq_true, true_imp_iff, true_and]
    by_cases he : e = a <;> simp [jsonMatches, he]

/-- **C56**: a message without rules is accepted iff the contents agree (an expected body needs an equivalent
content type and equal contents, where JSON objects may have additional entries) and every expected metadata
entry is present with the expected value. -/
theorem C56_message (env : Env) (uc : UC) (be : BodyEnv) (e a : Message) (hr : e.rules = [])
    (hx : (e.ct.getD .unknown).isXml = false) (hm : (e.ct.getD .unknown).main ≠ "multipart".toList)
    (hj : ∀ b j, be.json b = some j → j.WF) :
    messageMismatches env uc be e a = [] ↔ ContentsAgree be e a ∧ MetadataAgrees uc e.metadata a.metadata := by
  unfold messageMismatches
  rw [List.append_eq_nil_iff, hr,
    contents_ok env be e a _ (ctxFor_noRules .body .allowUnexpectedKeys) rfl hx hm hj]
  apply and_congr_right
  intro _
  unfold matchMessageMetadata MetadataAgrees
  simp only [List.flatMap_eq_nil_iff, List.mem_map, forall_exists_index, and_imp]
  constructor
  · intro h k v hm
    have := h _ (k, v) hm rfl
    dsimp only at this
    cases hl : Json.lookup k a.metadata with
    | none => simp [hl] at this
    | some w =>
      rw [hl] at this
      exact ⟨w, rfl, (metadataValue_ok env uc k v w _ (ctxFor_noRules .metadata .allowUnexpectedKeys)).1 this⟩
  · rintro h x ⟨k, v⟩ hm rfl
    obtain ⟨w, hw, hh⟩ := h k v hm
    dsimp only
    rw [hw]
    exact (metadataValue_ok env uc k v w _ (ctxFor_noRules .metadata .allowUnexpectedKeys)).2 hh

/-! ### C57: rules act on their own part only -/

/-- **C57**: the method is compared without rules; the result for the path, the query and the headers depends
only on the rules of the category of that part; the result for the body on the body and header rules only. -/
theorem C57_rules_local (env : Env) (uc : UC) (be : BodyEnv) (e a : Request) (rules : MatchingRules) :
    (matchRequest env uc be { e with rules := rules } a).method = (matchRequest env uc be e a).method ∧
    (rulesForCategory rules .path = rulesForCategory e.rules .path →
      (matchRequest env uc be { e with rules := rules } a).path = (matchRequest env uc be e a).path) ∧
    (rulesForCategory rules .query = rulesForCategory e.rules .query →
      (matchRequest env uc be { e with rules := rules } a).query = (matchRequest env uc be e a).query) ∧
    (rulesForCategory rules .header = rulesForCategory e.rules .header →
      (matchRequest env uc be { e with rules := rules } a).headers = (matchRequest env uc be e a).headers ∧
      (rulesForCategory rules .body = rulesForCategory e.rules .body →
        (matchRequest env uc be { e with rules := rules } a).body = (matchRequest env uc be e a).body)) := by
  refine ⟨rfl, ?_, ?_, ?_⟩
  · intro h; simp only [matchRequest, ctxFor, h]
  · intro h; simp only [matchRequest, ctxFor, h]
  · intro h
    refine ⟨by simp only [matchRequest, ctxFor, h], ?_⟩
    intro h2
    simp only [matchRequest, ctxFor, h, h2]

/-- **C57** for responses: rules of other categories than status, header and body have no effect. -/
theorem C57_response_rules_local (env : Env) (uc : UC) (be : BodyEnv) (e a : Response) (rules : MatchingRules)
    (hs : rulesForCategory rules .status = rulesForCategory e.rules .status)
    (hh : rulesForCategory rules .header = rulesForCategory e.rules .header)
    (hb : rulesForCategory rules .body = rulesForCategory e.rules .body) :
    matchResponse env uc be { e with rules := rules } a = matchResponse env uc be e a := by
  simp only [matchResponse, ctxFor, hs, hh, hb]

/-- **C57** for messages: only the rules of the body and of the metadata have an effect. -/
theorem C57_message_rules_local (env : Env) (uc : UC) (be : BodyEnv) (e a : Message) (rules : MatchingRules)
    (hc : rulesForCategory rules .body = rulesForCategory e.rules .body)
    (hm : rulesForCategory rules .metadata = rulesForCategory e.rules .metadata) :
    messageMismatches env uc be { e with rules := rules } a = messageMismatches env uc be e a := by
  simp only [messageMismatches, matchMessageContents, matchMessageMetadata, ctxFor, hc, hm]

/-- **C57**: the rules of the category for the contents of messages are not used to compare messages. -/
theorem C57_contents_rules_ignored (env : Env) (uc : UC) (be : BodyEnv) (e a : Message) (c : RuleCategory) :
    messageMismatches env uc be { e with rules := (.contents, c) :: e.rules } a = messageMismatches env uc be e a :=
  C57_message_rules_local env uc be e a _ (by simp [rulesForCategory]) (by simp [rulesForCategory])

/-! ### C58: path and status rules -/

/-- Specification: a value satisfies a list of rules. -/
def Satisfies (v : MatchingRule → Prop) : RuleLogic → List MatchingRule → Prop
  | .and, rs => ∀ r ∈ rs, v r
  | .or, rs => ∃ r ∈ rs, v r

theorem single_best (c : Category) (hc : c = .path ∨ c = .status) (p : DocPath) (rl : RuleList) (config : DiffConfig)
    (rules : MatchingRules) (h : rulesForCategory rules c = some ⟨c, [(p, rl)]⟩) :
    isDefined (ctxFor rules c config) Path.empty = true ∧ best (ctxFor rules c config) Path.empty = rl := by
  rcases hc with rfl | rfl <;>
  simp [ctxFor, h, isDefined, best, matcherIsDefined, selectBestMatcher, resolveMatchersForPath, asRuleList]

/-- **C58** (path): with one rule list for the path, the actual path is accepted iff it satisfies the rules;
the example path is irrelevant unless a rule looks at it. -/
theorem C58_path_rules (env : Env) (uc : UC) (be : BodyEnv) (e a : Request) (p : DocPath) (rl : RuleList)
    (hne : rl.rules ≠ []) (h : rulesForCategory e.rules .path = some ⟨.path, [(p, rl)]⟩) :
    (matchRequest env uc be e a).path = none ↔
      Satisfies (fun r => strMatches env e.path a.path r rl.cascaded = true) rl.logic rl.rules := by
  obtain ⟨h1, h2⟩ := single_best .path (Or.inl rfl) p rl .noUnexpectedKeys e.rules h
  simp only [matchRequest, matchPath]
  rw [if_pos h1, h2]
  have := matchValues_ok_iff (strMatches env e.path a.path) rl
  cases hv : matchValues (strMatches env e.path a.path) rl with
  | ok _ =>
    have := (this.1 hv).2
    cases hl : rl.logic <;> simp_all [Satisfies]
  | error ms =>
    have hn : ¬ _ := fun h => by have := this.2 h; rw [hv] at this; simp at this
    cases hl : rl.logic <;> simp_all [Satisfies]

/-- **C58** (path): under a regular expression any path that matches is accepted, and no other. -/
theorem C58_path_regex (env : Env) (uc : UC) (be : BodyEnv) (e a : Request) (p : DocPath) (re : Str)
    (c : Bool) (lg : RuleLogic) (h : rulesForCategory e.rules .path = some ⟨.path, [(p, ⟨[.regex re], lg, c⟩)]⟩) :
    (matchRequest env uc be e a).path = none ↔ ∃ f, env.regex re = some f ∧ f a.path = true := by
  rw [C58_path_rules env uc be e a p _ (by simp) h]
  cases lg <;> simp only [Satisfies, List.mem_singleton, forall_eq, exists_eq_left, strMatches, regexMatches] <;>
  cases env.regex re <;> simp

/-- **C58** (status): with one status rule list, the status is accepted iff it satisfies the rules. -/
theorem C58_status_rules (env : Env) (e a : Response) (p : DocPath) (rl : RuleList) (config : DiffConfig)
    (hne : rl.rules ≠ []) (h : rulesForCategory e.rules .status = some ⟨.status, [(p, rl)]⟩) :
    matchStatus env e.status a.status (ctxFor e.rules .status config) = [] ↔
      Satisfies (fun r => u64Matches env e.status a.status r rl.cascaded = true) rl.logic rl.rules := by
  obtain ⟨h1, h2⟩ := single_best .status (Or.inr rfl) p rl config e.rules h
  simp only [matchStatus]
  rw [if_pos h1, h2]
  have := matchValues_ok_iff (u64Matches env e.status a.status) rl
  cases hv : matchValues (u64Matches env e.status a.status) rl with
  | ok _ =>
    have := (this.1 hv).2
    cases hl : rl.logic <;> simp_all [Satisfies]
  | error ms =>
    have hn : ¬ _ := fun h => by have := this.2 h; rw [hv] at this; simp at this
    have hms := matchValues_error_ne_nil _ _ _ hv
    cases hl : rl.logic <;> simp_all [Satisfies]

/-- **C58** (status): `200` with the rule "success" accepts exactly 200 to 299. -/
theorem C58_status_success (env : Env) (e a : Response) (p : DocPath) (config : DiffConfig) (ha : a.status < 65536)
    (h : rulesForCategory e.rules .status = some ⟨.status, [(p, ⟨[.statusCode .success], .and, false⟩)]⟩) :
    matchStatus env e.status a.status (ctxFor e.rules .status config) = [] ↔
      200 ≤ a.status ∧ a.status ≤ 299 := by
  rw [C58_status_rules env e a p _ config (by simp) h]
  simp [Satisfies, u64Matches, matchStatusCode, Nat.mod_eq_of_lt ha]

/-! ### C25: method or path mismatch -/

/-- **C25**: `method_or_path_mismatch` is reported iff the methods differ (ignoring case) or the path was
rejected. -/
theorem C25_method_or_path (env : Env) (uc : UC) (be : BodyEnv) (e a : Request) :
    (matchRequest env uc be e a).methodOrPathMismatch = true ↔
      uc.lower e.method ≠ uc.lower a.method ∨ (matchRequest env uc be e a).path ≠ none := by
  unfold RequestMatchResult.methodOrPathMismatch
  rw [Bool.or_eq_true]
  apply or_congr
  · rw [ne_eq, ← C28_method]
    simp only [matchRequest]
    cases matchMethod uc e.method a.method <;> simp
  · cases (matchRequest env uc be e a).path <;> simp

/-! ### C59: text and binary bodies with rules -/

/-- Specification: the rule list that applies to the whole of a text or binary body: the one at `$`. -/
def RootRules (ctx : Ctx) (rl : RuleList) : Prop :=
  ∃ p, ctx.cat = ⟨.body, [(p, rl)]⟩ ∧ p.tokens = [.root]

theorem rootRules_best {ctx : Ctx} {rl : RuleList} (h : RootRules ctx rl) :
    isDefined ctx rootPath = true ∧ best ctx rootPath = { rl with cascaded := false } := by
  obtain ⟨p, hc, hp⟩ := h
  have hm : (pathWeight [.root] (toVec rootPath)) = (2, 1) := by decide
  constructor
  · simp [isDefined, hc, matcherIsDefined, resolveMatchersForPath, filterCat, hp, matchesPath, hm]
  · have hb : bestEntry [(p, rl)] (toVec rootPath) = some (p, rl) := by
      unfold bestEntry
      rw [List.filter_cons, if_pos (by rw [hp, hm]; rfl)]
      rfl
    show selectBestMatcher ctx.cat (toVec rootPath) = _
    rw [hc]
    show maxByPath _ _ = _
    unfold maxByPath
    rw [hb]
    simp only [hp, hm]
    rfl

/-- **C59** (text): a `text/…` body (other than XML) under rules at `$`, none of them a content-type rule, is
accepted iff both bodies are UTF-8 and the text satisfies the rules. -/
theorem C59_text (env : Env) (be : BodyEnv) (ct : ContentType) (e a : Bytes) (ctx : Ctx) (rl : RuleList)
    (h : RootRules ctx rl) (hne : rl.rules ≠ []) (ht : ct.main = "text".toList) (hx : ct.isXml = false)
    (hnc : ∀ t, MatchingRule.contentType t ∉ rl.rules) :
    compareBodies env be ct (some e) (some a) ctx = .ok ↔
      ∃ te ta, be.utf8 e = some te ∧ be.utf8 a = some ta ∧
        Satisfies (fun r => strMatches env te ta r false = true) rl.logic rl.rules := by
  obtain ⟨h1, h2⟩ := rootRules_best h
  have h0 : compareBodies env be ct (some e) (some a) ctx = .ok ↔
      compareBodiesCore env be ct (some e) (some a) ctx = [] := by
    unfold compareBodies
    simp only
    split
    · rename_i hh; simpa using hh
    · rename_i hh; simpa using hh
  rw [h0]
  have hap : ct.main ≠ "application".toList := by rw [ht]; decide
  have hmu : ct.main ≠ "multipart".toList := by rw [ht]; decide
  have hj : ct.isJson = false := by
    unfold ContentType.isJson; rw [decide_eq_false hap, Bool.false_and]
  have hf : ct.baseType ≠ .formUrlencoded := fun hh => hap (congrArg ContentType.main hh)
  have ho : ct.baseType ≠ .octetStream := fun hh => hap (congrArg ContentType.main hh)
  have hbin : ct.isBinary = false := by
    unfold ContentType.isBinary
    rw [if_neg (by rw [ht]; decide), if_pos ht]
  have hany : (best ctx rootPath).rules.any isContentTypeRule = false := by
    rw [h2, List.any_eq_false]
    intro r hr
    cases r <;> simp [isContentTypeRule]
    exact hnc _ hr
  unfold compareBodiesCore
  simp only
  rw [hj, hx, hbin, hany, if_neg (by decide), if_neg (by decide), if_neg hmu, if_neg hf, decide_eq_false ho,
    if_neg (by decide), Bool.and_false, if_neg (by decide)]
  unfold matchText
  rw [if_pos h1, h2]
  simp only [Option.getD_some, List.append_eq_nil_iff]
  have hv := matchValues_ok_iff (strMatches env ((be.utf8 e).getD []) ((be.utf8 a).getD []))
    { rl with cascaded := false }
  have hsat : (match matchValues (strMatches env ((be.utf8 e).getD []) ((be.utf8 a).getD []))
      { rl with cascaded := false } with
      | .ok _ => []
      | .error ms => ms.map fun _ => (⟨rootPath, .value⟩ : Mismatch)) = [] ↔
      Satisfies (fun r => strMatches env ((be.utf8 e).getD []) ((be.utf8 a).getD []) r false = true)
        rl.logic rl.rules := by
    cases hm : matchValues (strMatches env ((be.utf8 e).getD []) ((be.utf8 a).getD []))
      { rl with cascaded := false } with
    | ok _ =>
      have := (hv.1 hm).2
      cases hl : rl.logic <;> simp_all [Satisfies]
    | error ms =>
      have hn : ¬ _ := fun h => by have := hv.2 h; rw [hm] at this; simp at this
      have hms := matchValues_error_ne_nil _ _ _ hm
      cases hl : rl.logic <;> simp_all [Satisfies]
  have hi : ∀ (o : Option Str),
      ((if o.isSome = true then [] else [(⟨rootPath, .value⟩ : Mismatch)]) = []) ↔ ∃ t, o = some t := by
    intro o; cases o <;> simp
  refine (and_congr (and_congr (hi _) (hi _)) hsat).trans ?_
  constructor
  · rintro ⟨⟨⟨te, h1⟩, ⟨ta, h2⟩⟩, h⟩
    rw [h1, h2] at h
    exact ⟨te, ta, h1, h2, h⟩
  · rintro ⟨te, ta, h1, h2, h⟩
    rw [h1, h2]
    exact ⟨⟨⟨te, rfl⟩, ⟨ta, rfl⟩⟩, h⟩

/-- **C59** (binary): an octet stream under rules at `$` is accepted iff the bytes satisfy the rules: all of
them, or one of them, as the rule list says. -/
theorem C59_binary (env : Env) (be : BodyEnv) (ct : ContentType) (e a : Bytes) (ctx : Ctx) (rl : RuleList)
    (h : RootRules ctx rl) (hne : rl.rules ≠ [])
    (hct : ct.main ∈ ["audio".toList, "font".toList, "image".toList, "video".toList]) :
    compareBodies env be ct (some e) (some a) ctx = .ok ↔
      Satisfies (fun r => be.bytesMatch e a r false = true) rl.logic rl.rules := by
  obtain ⟨h1, h2⟩ := rootRules_best h
  have h0 : compareBodies env be ct (some e) (some a) ctx = .ok ↔
      compareBodiesCore env be ct (some e) (some a) ctx = [] := by
    unfold compareBodies
    simp only
    split
    · rename_i hh; simpa using hh
    · rename_i hh; simpa using hh
  rw [h0]
  have happ : ct.main ≠ "application".toList ∧ ct.main ≠ "text".toList ∧ ct.main ≠ "multipart".toList := by
    simp only [List.mem_cons, List.not_mem_nil, or_false] at hct
    rcases hct with h | h | h | h <;> rw [h] <;> decide
  have hj : ct.isJson = false := by
    unfold ContentType.isJson; rw [decide_eq_false happ.1, Bool.false_and]
  have hx : ct.isXml = false := by
    unfold ContentType.isXml ContentType.appOrText
    rw [decide_eq_false happ.1, decide_eq_false happ.2.1]; rfl
  have hf : ct.baseType ≠ .formUrlencoded := by
    intro hh
    exact happ.1 (congrArg ContentType.main hh)
  have hbin : ct.isBinary = true := by
    unfold ContentType.isBinary
    rw [if_pos (List.contains_iff_mem.2 hct)]
  unfold compareBodiesCore
  simp only
  rw [hj, hx, hbin, if_neg (by decide), if_neg (by decide), if_neg happ.2.2, if_neg hf, Bool.true_or, if_pos rfl]
  simp only [Option.getD_some]
  unfold matchOctetStream
  rw [if_pos h1]
  simp only [h2]
  rw [if_neg (by simpa using hne)]
  cases hl : rl.logic with
  | and => simp [Satisfies]
  | or =>
    simp only [Satisfies]
    constructor
    · intro hh
      apply Classical.byContradiction
      intro hno
      have hall : rl.rules.filter (fun r => !be.bytesMatch e a r false) = rl.rules := by
        rw [List.filter_eq_self]
        intro r hr
        simp only [Bool.not_eq_true', Bool.eq_false_iff]
        exact fun hb => hno ⟨r, hr, hb⟩
      rw [hall] at hh
      simp at hh
      exact hne hh
    · rintro ⟨r, hr, hb⟩
      rw [if_neg]
      intro hlen
      have := List.length_filter_eq_length_iff.1 hlen r hr
      simp [hb] at this

/-! ### C60: which content type decides -/

/-- **C60**: a content type attached to the body decides, whatever the headers say. -/
theorem C60_attached_type (env : Env) (uc : UC) (be : BodyEnv) (h h' : Option HeaderMap) (b : Bytes)
    (ct : ContentType) (a : Part) (ctx hctx : Ctx) :
    contentTypeD uc be ⟨h, .present b (some ct)⟩ = ct ∧
    matchBody env uc be ⟨h, .present b (some ct)⟩ a ctx hctx = matchBody env uc be ⟨h', .present b (some ct)⟩ a ctx hctx :=
  ⟨rfl, rfl⟩

/-- **C60**: otherwise a `Content-Type` header (in any letter case) with a valid value decides, whatever the
body contains. -/
theorem C60_header_type (uc : UC) (be : BodyEnv) (hs : HeaderMap) (k v : Str) (ct : ContentType) (body : Body)
    (hn : CaseNodup uc hs) (hk : (k, [v]) ∈ hs) (hl : uc.lower k = uc.lower "content-type".toList)
    (hv : be.parseContentType v = some ct) (hb : ∀ b t, body ≠ .present b (some t)) :
    contentTypeD uc be ⟨some hs, body⟩ = ct := by
  have hfind : findEntry uc hs "content-type".toList = some [v] :=
    findEntry_of_mem uc hs hn _ k [v] hk hl
  have hlook : lookupHeaderValue uc ⟨some hs, body⟩ "content-type".toList = some v := by
    unfold lookupHeaderValue
    show (findEntry uc hs "content-type".toList).map _ = _
    rw [hfind]; rfl
  unfold contentTypeD contentType
  cases body with
  | present b t =>
    cases t with
    | some t => exact absurd rfl (hb b t)
    | none => simp only [hlook, hv]; rfl
  | _ => simp only [hlook, hv]; rfl

/-- **C60**: without either, the type is detected from the body. -/
theorem C60_detected_type (uc : UC) (be : BodyEnv) (b : Bytes) :
    contentTypeD uc be ⟨none, .present b none⟩ = be.detect b ∧ contentTypeD uc be ⟨none, .missing⟩ = .unknown :=
  ⟨rfl, rfl⟩

/-! ### C22: inherited values and each-value rules -/

/-- **C22**: an inherited values or each-value rule does not lift the key check: an object below the one the
rule was written for must have the right keys, and the entries common to both must match. -/
theorem C22_inherited (env : Env) (ctx : Ctx) (p : DocPath) (r : MatchingRule) (lg : RuleLogic)
    (e a : List (Str × Json)) (hr : r.isValuesMatcher = true) (hb : best ctx p = ⟨[r], lg, true⟩)
    (he : e ≠ [] ∨ ctx.config = .allowUnexpectedKeys) :
    compareJson env p (.obj e) (.obj a) ctx = .ok () ↔
      matchKeys env ctx p (Json.keys e) (Json.keys a) = .ok () ∧
      ∀ k v, (k, v) ∈ e → ∀ w, Json.lookup k a = some w → compareJson env (join p k) v w ctx = .ok () := by
  have hd : isDefined ctx p = true := best_defined ctx p (by simp [hb])
  rw [← isOk_iff, compareJson_eq]
  simp only [compareStep, compareMaps]
  rw [if_neg (by
    rcases he with he | he
    · cases e <;> simp_all
    · simp [he]), if_pos hd]
  simp only [hb, List.foldl_cons, List.foldl_nil]
  rw [mergeResult_isOk, isOk_ok, Bool.true_and]
  unfold compareMapsWithRule
  have hm : mapMatches mapEqJson e a r true = true := by
    cases r <;> simp [MatchingRule.isValuesMatcher] at hr <;> rfl
  simp only [Bool.not_true, Bool.false_and, Bool.false_eq_true, if_false, hm, if_true]
  rw [commonLoop_ok, mergeResult_isOk, isOk_ok, Bool.true_and, isOk_iff]
  apply and_congr_right
  intro _
  constructor
  · intro h k v hkv w hw
    exact (isOk_iff _).1 (h (k, v) hkv w hw)
  · intro h kv hkv w hw
    exact (isOk_iff _).2 (h kv.1 kv.2 hkv w hw)

/-! ### Non-vacuity -/

def msg (b : List UInt8) (v : Json) : Message :=
  ⟨some ⟨"application".toList, "json".toList, [], none⟩, .present b none, [("k".toList, v)], []⟩

example : messageMismatches Env.simple UC.ascii simpleBody (msg [49] .null) (msg [49] .null) = [] := by decide
example : messageMismatches Env.simple UC.ascii simpleBody (msg [49] .null) (msg [49] (.bool true)) ≠ [] := by decide
example : (msg [49] .null).rules = [] ∧ ((msg [49] .null).ct.getD .unknown).isXml = false ∧
    ((msg [49] .null).ct.getD .unknown).main ≠ "multipart".toList := by decide

/-- Rules with a regular expression for the path and a success rule for the status. -/
def rulesEx : MatchingRules :=
  [(.path, ⟨.path, [(Path.empty, ⟨[.regex "x".toList], .and, false⟩)]⟩),
   (.status, ⟨.status, [(Path.empty, ⟨[.statusCode .success], .and, false⟩)]⟩)]
example : rulesForCategory rulesEx .path = some ⟨.path, [(Path.empty, ⟨[.regex "x".toList], .and, false⟩)]⟩ := rfl
example : rulesForCategory rulesEx .status
    = some ⟨.status, [(Path.empty, ⟨[.statusCode .success], .and, false⟩)]⟩ := rfl
example : (matchRequest Env.simple UC.ascii simpleBody { sampleReq "GET" "1" with rules := rulesEx }
    { sampleReq "GET" "1" with path := "/x".toList }).path = none := by decide
example : (matchRequest Env.simple UC.ascii simpleBody { sampleReq "GET" "1" with rules := rulesEx }
    { sampleReq "GET" "1" with path := "/y".toList }).path ≠ none := by decide

/-- A context with two alternatives at `$`. -/
def rootCtx : Ctx := ⟨⟨.body, [(rootPath, ⟨[.regex "x".toList, .regex "y".toList], .or, false⟩)]⟩, .noUnexpectedKeys⟩
example : RootRules rootCtx ⟨[.regex "x".toList, .regex "y".toList], .or, false⟩ := ⟨rootPath, rfl, rfl⟩
/-- A context whose each-value rule is inherited at `$.a.b`. -/
def inhCtx : Ctx := ⟨⟨.body, [(⟨[.root, .field "a".toList], "$.a".toList⟩, ⟨[.values], .and, false⟩)]⟩,
  .noUnexpectedKeys⟩
example : best inhCtx ⟨[.root, .field "a".toList, .field "b".toList], "$.a.b".toList⟩ = ⟨[.values], .and, true⟩ := by
  rfl
example : CaseNodup UC.ascii [("Content-Type".toList, ["text/plain".toList])] ∧
    UC.ascii.lower "Content-Type".toList = UC.ascii.lower "content-type".toList := by
  unfold CaseNodup; decide

end MessageProps
end Verif
