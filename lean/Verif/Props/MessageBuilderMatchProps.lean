import Verif.Props.MessageBuilderProps

/-
  Property C161: which messages a message of the consumer builders accepts.
-/

set_option autoImplicit false

namespace Verif
namespace MessageBuilderMatchProps
open Path Rules RuleJson Generate PactFile Parts Patterns Builders MessageBuilders MessageBuilderProps
open Matchers Compare Query Headers
open MatchResult hiding Part
open CompareProps QueryProps HeaderProps ResultProps EndToEndProps MessageProps
open PatternProps (Everywhere NotObjectMatching KeysOk LiteralWF Unambiguous VecSized Accepts ExampleOk)
open BodyBuildProps (asBody)
open IntegrationProps (genAt)

/-! ## Specification -/

/-- The contents are a JSON document of an equivalent content type that the pattern accepts; objects may have further entries. -/
def JsonFits (env : Env) (be : BodyEnv) (t : ContentType) (p : Pattern) (a : MatchResult.Message) : Prop :=
  t.isEquivalentTo (a.ct.getD .unknown) = true ∧ a.body ≠ .missing ∧ a.body ≠ .empty ∧
  ∃ j, be.json (a.body.value.getD []) = some j ∧ Accepts env .allowUnexpectedKeys false p j

/-- Every metadata value given is there: an equal one, or, for a content type, one of the same media type and parameters. -/
def MetadataFits (uc : UC) (cs : List MsgCall) (a : MatchResult.Message) : Prop :=
  ∀ k v, metaValue cs k = some v → ∃ w, Json.lookup k a.metadata = some w ∧
    (IsContentTypeKey k → SameMedia uc (asStrD v) (asStrD w)) ∧ (¬ IsContentTypeKey k → v = w)

/-- A pattern of which C71 knows what it means. -/
structure Known (p : Pattern) : Prop where
  noObj : Everywhere NotObjectMatching p
  keys : Everywhere KeysOk p
  lits : Everywhere LiteralWF p
  unamb : Everywhere Unambiguous p
  short : RuleProps.ShortPaths (Patterns.jsonBody p).2

/-- The calls give one body, the JSON pattern `p`, and otherwise metadata only. -/
def OneJson (p : Pattern) (cs : List MsgCall) : Prop :=
  ∃ l r, cs = l ++ .jsonBody p :: r ∧ ∀ c ∈ l ++ r, ∃ k v, c = .metadata k v

/-- The JSON parser reads the text of the example as the example, and yields proper documents only. -/
structure ReadsJson (be : BodyEnv) (p : Pattern) : Prop where
  example_ : be.json (utf8 (toExample p).text) = some (toExample p)
  proper : ∀ b j, be.json b = some j → j.WF ∧ VecSized j

/-! ## Proofs -/

theorem addRules_append (c n : Category) (dr : Table) : ∀ acc : Table, KeysNodup (acc ++ dr) →
    addRules (⟨c, acc⟩ : RuleCategory) ⟨n, dr⟩ = ⟨c, acc ++ dr⟩ := by
  induction dr with
  | nil => intro acc _; simp [addRules]
  | cons e es ih =>
    intro acc h
    have hnone : acc.find? (keyIs e.1) = none := by
      rw [List.find?_eq_none]
      intro x hx
      rw [RuleProps.keyIs_iff]
      intro he
      unfold KeysNodup at h
      rw [List.map_append, List.nodup_append] at h
      exact h.2.2 _ (List.mem_map.2 ⟨x, hx, rfl⟩) _ (List.mem_map.2 ⟨e, List.mem_cons_self, rfl⟩) he
    have := ih (acc ++ [e]) (by rw [List.append_assoc]; exact h)
    rw [List.append_assoc] at this
    unfold addRules at this ⊢
    rw [List.foldl_cons]
    simp only [hnone]
    exact this

theorem addRules_copy (c : Category) (d : RuleCategory) (hd : KeysNodup d.rules) : addRules (emptyCat c) d = ⟨c, d.rules⟩ :=
  addRules_append c d.name d.rules [] hd

theorem metas_keep (parseCT : Str → Option ContentType) (cs : List MsgCall) (h : ∀ c ∈ cs, ∃ k v, c = .metadata k v)
    (s : Contents) : (cs.foldl (fun s c => msgStep parseCT c s) s).rules = s.rules ∧
      (cs.foldl (fun s c => msgStep parseCT c s) s).metaRules = s.metaRules ∧
      (cs.foldl (fun s c => msgStep parseCT c s) s).body = s.body := by
  induction cs generalizing s with
  | nil => exact ⟨rfl, rfl, rfl⟩
  | cons c cs ih =>
    obtain ⟨k, v, rfl⟩ := h c List.mem_cons_self
    exact ih (fun c hc => h c (List.mem_cons_of_mem _ hc)) _

theorem oneJson_rules (parseCT : Str → Option ContentType) {p : Pattern} {cs : List MsgCall} (h : OneJson p cs)
    (ho : Everywhere NotObjectMatching p) (b : FBody) :
    let s := cs.foldl (fun s c => msgStep parseCT c s) { contents0 with body := b }
    bodyRules s = (jsonBody p).2 ∧ metadataRules s = emptyCat .metadata ∧
    s.body = .present (utf8 (toExample p).text) (some (typeOf parseCT "application/json".toList)) none := by
  obtain ⟨l, r, rfl, hm⟩ := h
  simp only [List.foldl_append, List.foldl_cons]
  obtain ⟨h1, h2, h3⟩ := metas_keep parseCT l (fun c hc => hm c (List.mem_append_left _ hc)) { contents0 with body := b }
  generalize l.foldl (fun s c => msgStep parseCT c s) { contents0 with body := b } = s1 at h1 h2 h3
  obtain ⟨h4, h5, h6⟩ := metas_keep parseCT r (fun c hc => hm c (List.mem_append_right _ hc)) (msgStep parseCT (.jsonBody p) s1)
  generalize r.foldl (fun s c => msgStep parseCT c s) (msgStep parseCT (.jsonBody p) s1) = s2 at h4 h5 h6
  refine ⟨?_, ?_, ?_⟩
  · unfold bodyRules
    rw [h4]
    show addRules _ ((addPattern (jsonContents parseCT p).2 s1.rules).getD _) = _
    rw [h1]
    show addRules _ ((addPattern (jsonContents parseCT p).2 none).getD _) = _
    have e : ((addPattern (jsonContents parseCT p).2 none).getD (emptyCat .body)).rules = (jsonBody p).2.rules :=
      addPattern_none _
    rw [addRules_copy _ _ (by rw [e]; exact patternTable_nodup p), e]
    have hn : (jsonBody p).2.name = .body := (PatternProps.extract_table p ho).1
    generalize (jsonBody p).2 = x at hn
    obtain ⟨n, t⟩ := x
    simp only at hn
    rw [hn]
  · unfold metadataRules
    rw [h5]
    show addRules _ (s1.metaRules.getD _) = _
    rw [h2]; rfl
  · rw [h6]; rfl

/-- One JSON body beside metadata without rules. -/
theorem json_message (env : Env) (uc : UC) (be : BodyEnv) {p : Pattern} (hk : Known p) (hj : ReadsJson be p) (t : ContentType)
    (ht : t.isJson = true) (e a : MatchResult.Message) (hct : e.ct = some t)
    (hb : e.body = .present (utf8 (toExample p).text) (some t)) (hr : rulesForCategory e.rules .body = some (jsonBody p).2)
    (hm : (catOf e.rules .metadata).rules = []) :
    messageMismatches env uc be e a = [] ↔ JsonFits env be t p a ∧ MetadataAgrees uc e.metadata a.metadata := by
  have hno : NoRules (ctxFor e.rules .metadata .allowUnexpectedKeys) := by
    show (ctxFor e.rules .metadata .allowUnexpectedKeys).cat.rules = []
    rw [BuilderMatchProps.ctxFor_rules]; exact hm
  have hmeta : (matchMessageMetadata env uc e a (ctxFor e.rules .metadata .allowUnexpectedKeys)).flatMap (·.2) = [] ↔
      MetadataAgrees uc e.metadata a.metadata := by
    unfold matchMessageMetadata MetadataAgrees
    simp only [List.flatMap_eq_nil_iff, List.mem_map, forall_exists_index, and_imp]
    constructor
    · intro h k v hm
      have := h _ (k, v) hm rfl
      dsimp only at this
      cases hl : Json.lookup k a.metadata with
      | none => simp [hl] at this
      | some w =>
        rw [hl] at this
        exact ⟨w, rfl, (metadataValue_ok env uc k v w _ hno).1 this⟩
    · rintro h x ⟨k, v⟩ hm rfl
      obtain ⟨w, hw, hh⟩ := h k v hm
      dsimp only
      rw [hw]
      exact (metadataValue_ok env uc k v w _ hno).2 hh
  have hctx : ctxFor e.rules .body .allowUnexpectedKeys = ⟨⟨.body, (jsonBody p).2.rules⟩, .allowUnexpectedKeys⟩ := by
    have hn : (jsonBody p).2.name = .body := (PatternProps.extract_table p hk.noObj).1
    unfold ctxFor
    rw [hr]
    generalize (jsonBody p).2 = x at hn
    obtain ⟨n, tb⟩ := x
    simp only at hn
    rw [hn]; rfl
  have hjson : ∀ j, be.json (a.body.value.getD []) = some j →
      (compareJson env rootPath (toExample p) j (ctxFor e.rules .body .allowUnexpectedKeys) = .ok () ↔
        Accepts env .allowUnexpectedKeys false p j) := by
    intro j hj'
    rw [hctx]
    exact PatternProps.C71_rules_denote_pattern_partial env .allowUnexpectedKeys p j hk.noObj hk.keys hk.lits hk.unamb hk.short
      (hj.proper _ j hj').1 (hj.proper _ j hj').2 _ (List.Perm.refl _)
  have hcmp : compareBodies env be t (some (utf8 (toExample p).text)) a.body.value (ctxFor e.rules .body .allowUnexpectedKeys) = .ok ↔
      ∃ j, be.json (a.body.value.getD []) = some j ∧ Accepts env .allowUnexpectedKeys false p j := by
    have h0 : compareBodies env be t (some (utf8 (toExample p).text)) a.body.value (ctxFor e.rules .body .allowUnexpectedKeys) = .ok ↔
        compareBodiesCore env be t (some (utf8 (toExample p).text)) a.body.value (ctxFor e.rules .body .allowUnexpectedKeys) = [] := by
      unfold compareBodies
      simp only
      split
      · rename_i hh; simpa using hh
      · rename_i hh; simpa using hh
    rw [h0]
    unfold compareBodiesCore
    simp only [Option.getD_some]
    rw [if_pos ht, hj.example_]
    cases hj' : be.json (a.body.value.getD []) with
    | none => simp [matchJson, errs]
    | some j =>
      have := hjson j hj'
      rw [show matchJson env (some (toExample p)) (some j) (ctxFor e.rules .body .allowUnexpectedKeys) =
        compareJson env rootPath (toExample p) j (ctxFor e.rules .body .allowUnexpectedKeys) from rfl]
      rw [← (compareJson_consistent env _ _ _ _).isOk_iff, isOk_iff, this]
      constructor
      · intro hx; exact ⟨j, rfl, hx⟩
      · rintro ⟨j', h1, h2⟩; cases h1; exact h2
  unfold messageMismatches
  rw [List.append_eq_nil_iff, hmeta]
  refine and_congr ?_ Iff.rfl
  unfold matchMessageContents JsonFits
  rw [hct, hb]
  simp only [Option.getD_some]
  by_cases hs : t.isEquivalentTo (a.ct.getD .unknown) = true
  · rw [if_pos hs, ← C25_body_content, ← hcmp]
    simp only [hs, true_and]
    cases ha : a.body with
    | missing => simp [matchBodyContent, oneBody]
    | empty => simp [matchBodyContent, oneBody]
    | null => simp only [matchBodyContent, ne_eq, reduceCtorEq, not_false_eq_true, true_and]
    | present b' ct' => simp only [matchBodyContent, ne_eq, reduceCtorEq, not_false_eq_true, true_and]
  · rw [if_neg hs]
    simp [Body.isPresent, hs]

theorem metadata_fits {uc : UC} {cs : List MsgCall} {m : Obj} (h : ∀ k, Json.lookup k m = metaValue cs k) (hn : NodupKeys m)
    (a : MatchResult.Message) : MetadataAgrees uc m a.metadata ↔ MetadataFits uc cs a := by
  unfold MetadataAgrees MetadataFits
  constructor
  · intro hx k v hv
    rw [← h k] at hv
    exact hx k v (Json.lookup_mem hv)
  · intro hx k v hv
    refine hx k v ?_
    rw [← h k]
    exact Json.lookup_of_mem hn hv

/-! ### Asynchronous messages -/

/-- **C161** (asynchronous messages, partly) If the calls after the last `contents_from` give one body, a JSON pattern, and
metadata: the message accepts exactly the messages with an equivalent content type, a JSON document the pattern accepts, and
every metadata value given.  Missing: other bodies, and patterns of which C71 does not know what they mean. -/
theorem C161_async_partial (env : Env) (be : BodyEnv) (E : FileEnv) (d : Str) (cs : List AsyncCall) {p : Pattern} (hk : Known p)
    (hj : ReadsJson be p) {t : ContentType} (hp : E.parseCT "application/json".toList = some t) (ht : t.isJson = true)
    (ho : OneJson p ((since resets cs).filterMap onContents)) (c : Common) (m : MessageContents)
    (h : buildAsync E.parseCT d cs = .ok (.async c m)) :
    ∃ e, Provider.asContents E m = .ok e ∧ ∀ a, messageMismatches env E.P.uc be e a = [] ↔
      JsonFits env be t p a ∧ MetadataFits E.P.uc ((since resets cs).filterMap onContents) a := by
  have hg : ∀ j, AsyncCall.contentsFrom j ∈ cs → ¬ BadType E.parseCT j := by
    intro j h1 h2
    rw [(C159_message E.parseCT d cs).1 ⟨j, h1, h2⟩] at h
    cases h
  obtain ⟨b, h1, h2⟩ := async_run (d := d) cs [] ⟨info0 d, contents0⟩ hg
    ⟨⟨rfl, rfl, rfl, rfl, rfl, rfl⟩, state_nil E.parseCT .missing, rfl⟩
  rw [List.nil_append] at h2
  unfold buildAsync at h
  rw [h1] at h
  simp only [Res.map] at h
  cases h
  have hf := oneJson_rules E.parseCT ho hk.noObj ((startsIn E.parseCT cs).getLast?.getD .missing)
  simp only [← h2.fold] at hf
  obtain ⟨r1, -, r3⟩ := hf
  have hty : typeOf E.parseCT "application/json".toList = t := by unfold typeOf; rw [hp]; rfl
  rw [hty] at r3
  refine ⟨⟨some t, asBody b.contents.body, b.contents.metadata.getD [], [(.body, bodyRules b.contents)]⟩, ?_, ?_⟩
  · unfold Provider.asContents asyncContents
    rw [r3]; rfl
  · intro a
    rw [← metadata_fits h2.contents.metadata h2.contents.once a]
    exact json_message env E.P.uc be hk hj t ht _ a rfl (by rw [r3]; rfl) (by rw [r1]; rfl) rfl

/-! ### Synchronous messages -/

/-- **C161** (the request of a synchronous message, partly). -/
theorem C161_request_partial (env : Env) (be : BodyEnv) (E : FileEnv) (d : Str) (cs : List SyncCall) {p : Pattern} (hk : Known p)
    (hj : ReadsJson be p) {t : ContentType} (hp : E.parseCT "application/json".toList = some t) (ht : t.isJson = true)
    (hpc : ∀ c ∈ cs, ProperCall c)
    (ho : OneJson p ((since resetsRequest cs).filterMap onRequest)) (c : Common) (m : MessageContents)
    (ms : List MessageContents) (h : buildSync E.parseCT d cs = .ok (.sync c m ms)) :
    ∃ e, Provider.asContents E m = .ok e ∧ ∀ a, messageMismatches env E.P.uc be e a = [] ↔
      JsonFits env be t p a ∧ MetadataFits E.P.uc ((since resetsRequest cs).filterMap onRequest) a := by
  have hg : ∀ j, SyncCall.contentsFrom j ∈ cs → ¬ BadType E.parseCT j := by
    intro j h1 h2
    rw [(C160_message_partial E.parseCT d cs hpc).1 ⟨j, h1, h2⟩] at h
    cases h
  obtain ⟨b, h1, h2⟩ := sync_run (d := d) cs [] ⟨info0 d, contents0, []⟩ hpc hg
    ⟨⟨rfl, rfl, rfl, rfl, rfl, rfl⟩, state_nil E.parseCT .missing, trivial, rfl⟩
  rw [List.nil_append] at h2
  unfold buildSync at h
  rw [h1] at h
  simp only [Res.map] at h
  cases h
  have hf := oneJson_rules E.parseCT ho hk.noObj ((cs.filterMap (requestStart E.parseCT)).getLast?.getD .missing)
  simp only [← h2.fold] at hf
  obtain ⟨r1, r2, r3⟩ := hf
  have hty : typeOf E.parseCT "application/json".toList = t := by unfold typeOf; rw [hp]; rfl
  rw [hty] at r3
  refine ⟨⟨some t, asBody b.request.body, b.request.metadata.getD [],
    [(.body, bodyRules b.request), (.metadata, metadataRules b.request)]⟩, ?_, ?_⟩
  · unfold Provider.asContents syncContents
    rw [r3]; rfl
  · intro a
    rw [← metadata_fits h2.request.metadata h2.request.once a]
    exact json_message env E.P.uc be hk hj t ht _ a rfl (by rw [r3]; rfl) (by rw [r1]; rfl) (by rw [r2]; rfl)

/-- The patterns given for responses, in order. -/
def responsePatterns (cs : List SyncCall) : List Pattern := cs.filterMap fun | .responseJson p => some p | _ => none

/-- The call gives no response, or a JSON pattern for one. -/
def JsonResponses : SyncCall → Prop
  | .info _ => True
  | .request _ => True
  | .responseJson _ => True
  | _ => False

/-- Each message fits the pattern at its position. -/
def AllFit (env : Env) (be : BodyEnv) (t : ContentType) : List Pattern → List MatchResult.Message → Prop
  | [], [] => True
  | p :: ps, a :: as => JsonFits env be t p a ∧ AllFit env be t ps as
  | _, _ => False

theorem json_responses (parseCT : Str → Option ContentType) (cs : List SyncCall) (h : ∀ c ∈ cs, JsonResponses c)
    (b : SyncBuilder) : ∃ b', syncRun parseCT cs b = .ok b' ∧
      b'.responses = b.responses ++ (responsePatterns cs).map (responseJson parseCT) := by
  induction cs generalizing b with
  | nil => exact ⟨b, rfl, by simp [responsePatterns]⟩
  | cons c cs ih =>
    have hx : responsePatterns (c :: cs) = responsePatterns [c] ++ responsePatterns cs := by
      unfold responsePatterns; rw [← List.filterMap_append]; rfl
    have hs : ∃ b1, syncStep parseCT c b = .ok b1 ∧ b1.responses = b.responses ++ (responsePatterns [c]).map (responseJson parseCT) := by
      cases c with
      | info c => exact ⟨_, rfl, by simp [responsePatterns]⟩
      | request c => exact ⟨_, rfl, by simp [responsePatterns]⟩
      | responseJson p => exact ⟨_, rfl, rfl⟩
      | responseBody x ct => exact absurd (h _ List.mem_cons_self) (by simp [JsonResponses])
      | responseContents m => exact absurd (h _ List.mem_cons_self) (by simp [JsonResponses])
      | contentsFrom j => exact absurd (h _ List.mem_cons_self) (by simp [JsonResponses])
    obtain ⟨b1, h1, h2⟩ := hs
    obtain ⟨b2, h3, h4⟩ := ih (fun c hc => h c (List.mem_cons_of_mem _ hc)) b1
    refine ⟨b2, ?_, ?_⟩
    · rw [syncRun, h1]; exact h3
    · rw [h4, h2, hx, List.map_append, List.append_assoc]

theorem response_message (env : Env) (uc : UC) (be : BodyEnv) {p : Pattern} (hk : Known p) (hj : ReadsJson be p)
    (E : FileEnv) {t : ContentType} (hp : E.parseCT "application/json".toList = some t) (ht : t.isJson = true) (r : Contents) :
    ∃ e, Provider.asContents E (syncContents r (responseJson E.parseCT p)) = .ok e ∧
      ∀ a, messageMismatches env uc be e a = [] ↔ JsonFits env be t p a := by
  have hty : typeOf E.parseCT "application/json".toList = t := by unfold typeOf; rw [hp]; rfl
  have hb : (responseJson E.parseCT p).body = .present (utf8 (toExample p).text) (some t) none := by rw [← hty]; rfl
  have hr : bodyRules (responseJson E.parseCT p) = (jsonBody p).2 := by
    have e : ((responseJson E.parseCT p).rules.getD (emptyCat .body)).rules = (jsonBody p).2.rules := addPattern_none _
    unfold bodyRules
    rw [addRules_copy _ _ (by rw [e]; exact patternTable_nodup p), e]
    have hn : (jsonBody p).2.name = .body := (PatternProps.extract_table p hk.noObj).1
    generalize (jsonBody p).2 = x at hn
    obtain ⟨n, t⟩ := x
    simp only at hn
    rw [hn]
  refine ⟨⟨some t, asBody (responseJson E.parseCT p).body, [],
    [(.body, bodyRules (responseJson E.parseCT p)), (.metadata, metadataRules (responseJson E.parseCT p))]⟩, ?_, ?_⟩
  · unfold Provider.asContents syncContents
    rw [hb]; rfl
  · intro a
    rw [json_message env uc be hk hj t ht _ a rfl (by rw [hb]; rfl) (by rw [hr]; rfl) rfl]
    refine ⟨fun h => h.1, fun h => ⟨h, ?_⟩⟩
    intro k v hv; cases hv

/-- **C161** (the responses of a synchronous message, partly) If all responses are given as JSON patterns, and there is one at
least: they accept exactly the lists of as many messages of which each fits the pattern at its position. -/
theorem C161_responses_partial (env : Env) (be : BodyEnv) (E : FileEnv) (d : Str) (cs : List SyncCall)
    (hc : ∀ c ∈ cs, JsonResponses c) (hne : responsePatterns cs ≠ [])
    (hk : ∀ p ∈ responsePatterns cs, Known p ∧ ReadsJson be p) {t : ContentType}
    (hp : E.parseCT "application/json".toList = some t) (ht : t.isJson = true) :
    ∃ c m ms es, buildSync E.parseCT d cs = .ok (.sync c m ms) ∧ Provider.asContentsAll E ms = .ok es ∧
      ∀ as, matchSyncResponses env E.P.uc be es as = [] ↔ AllFit env be t (responsePatterns cs) as := by
  obtain ⟨b, h1, h2⟩ := json_responses E.parseCT cs hc ⟨info0 d, contents0, []⟩
  rw [List.nil_append] at h2
  have key : ∀ ps : List Pattern, (∀ p ∈ ps, Known p ∧ ReadsJson be p) →
      ∃ es, Provider.asContentsAll E ((ps.map (responseJson E.parseCT)).map (syncContents b.request)) = .ok es ∧
        es.length = ps.length ∧ ∀ as, as.length = ps.length →
          (responseLoop env E.P.uc be es as = [] ↔ AllFit env be t ps as) := by
    intro ps
    induction ps with
    | nil =>
      intro _
      refine ⟨[], rfl, rfl, ?_⟩
      intro as has
      cases as with
      | nil => simp [responseLoop, AllFit]
      | cons a as => cases has
    | cons p ps ih =>
      intro hps
      obtain ⟨es, g1, g2, g3⟩ := ih (fun p hp => hps p (List.mem_cons_of_mem _ hp))
      obtain ⟨k1, k2⟩ := hps p List.mem_cons_self
      obtain ⟨e, e1, e2⟩ := response_message env E.P.uc be k1 k2 E hp ht b.request
      refine ⟨e :: es, ?_, by simp [g2], ?_⟩
      · simp only [List.map_cons, Provider.asContentsAll, e1, g1, Res.bind, Res.map]
      · intro as has
        cases as with
        | nil => cases has
        | cons a as =>
          simp only [responseLoop, List.append_eq_nil_iff, List.tail_cons, AllFit]
          rw [e2 a, g3 as (by simpa using has)]
  obtain ⟨es, g1, g2, g3⟩ := key _ hk
  refine ⟨commonOf b.info, syncContents b.request b.request, b.responses.map (syncContents b.request), es, ?_, ?_, ?_⟩
  · unfold buildSync; rw [h1]; rfl
  · rw [h2]; exact g1
  · intro as
    unfold matchSyncResponses
    by_cases hl : es.length ≠ as.length
    · rw [if_pos hl]
      have hes : es ≠ [] := by
        intro he
        rw [he] at g2
        exact hne (List.length_eq_zero_iff.1 g2.symm)
      have hemp : es.isEmpty = false := by cases es with | nil => exact absurd rfl hes | cons => rfl
      rw [hemp]
      simp only [Bool.not_false, if_true, List.cons_ne_nil, false_iff]
      have hfit : ∀ (ps : List Pattern) (as : List MatchResult.Message), AllFit env be t ps as → as.length = ps.length := by
        intro ps
        induction ps with
        | nil => intro as h; cases as with | nil => rfl | cons => exact absurd h (by simp [AllFit])
        | cons p ps ih =>
          intro as h
          cases as with
          | nil => exact absurd h (by simp [AllFit])
          | cons a as => rw [List.length_cons, List.length_cons, ih as h.2]
      intro hx
      exact hl (by rw [g2, hfit _ _ hx])
    · rw [if_neg hl]
      have : es.length = as.length := Classical.byContradiction hl
      exact g3 as (by rw [← this, g2])

/-- A response given as bytes with a content type accepts only messages with a metadata entry whose key is `contentType` after a
blank. -/
theorem C161_response_body_key (env : Env) (uc : UC) (be : BodyEnv) (E : FileEnv) (r : Contents) (b : Bytes) (ct : Str)
    (e a : MatchResult.Message) (he : Provider.asContents E (syncContents r (responseBody E.parseCT b (some ct))) = .ok e)
    (h : messageMismatches env uc be e a = []) : ∃ w, Json.lookup " contentType".toList a.metadata = some w := by
  have hm : e.metadata = [(" contentType".toList, .str ct)] := by
    unfold Provider.asContents at he
    cases hc : calcContentType E (syncContents r (responseBody E.parseCT b (some ct))).contents
        (metadataToHeaders (syncContents r (responseBody E.parseCT b (some ct))).metadata) with
    | ok x => rw [hc] at he; simp only [Res.map] at he; cases he; rfl
    | err => rw [hc] at he; cases he
    | panic => rw [hc] at he; cases he
  unfold messageMismatches at h
  have h2 := (List.append_eq_nil_iff.1 h).2
  unfold matchMessageMetadata at h2
  rw [hm] at h2
  cases hl : Json.lookup " contentType".toList a.metadata with
  | some w => exact ⟨w, rfl⟩
  | none =>
    simp only [List.map_cons, List.map_nil, List.flatMap_cons, List.flatMap_nil, List.append_nil, hl] at h2
    cases h2

/-! ### The message itself -/

/-- A pattern accepts its own example. -/
theorem accepts_example (env : Env) (be : BodyEnv) {p : Pattern} (hk : Known p) (hj : ReadsJson be p)
    (he : Everywhere (ExampleOk env) p) : Accepts env .allowUnexpectedKeys false p (toExample p) :=
  (PatternProps.C71_rules_denote_pattern_partial env .allowUnexpectedKeys p (toExample p) hk.noObj hk.keys hk.lits hk.unamb
    hk.short (hj.proper _ _ hj.example_).1 (hj.proper _ _ hj.example_).2 _ (List.Perm.refl _)).1
    (PatternProps.C70_example_satisfies_partial env .allowUnexpectedKeys p hk.noObj hk.keys he _ (List.Perm.refl _))

/-- **C161** Such a message accepts itself, if the examples satisfy the rules of the pattern. -/
theorem C161_own_example_partial (env : Env) (be : BodyEnv) (E : FileEnv) (d : Str) (cs : List AsyncCall) {p : Pattern}
    (hk : Known p) (hj : ReadsJson be p) (hex : Everywhere (ExampleOk env) p) {t : ContentType}
    (hp : E.parseCT "application/json".toList = some t) (ht : t.isJson = true)
    (ho : OneJson p ((since resets cs).filterMap onContents)) (c : Common) (m : MessageContents)
    (h : buildAsync E.parseCT d cs = .ok (.async c m)) :
    ∃ e, Provider.asContents E m = .ok e ∧ messageMismatches env E.P.uc be e e = [] := by
  have hg : ∀ j, AsyncCall.contentsFrom j ∈ cs → ¬ BadType E.parseCT j := by
    intro j h1 h2
    rw [(C159_message E.parseCT d cs).1 ⟨j, h1, h2⟩] at h
    cases h
  obtain ⟨c', m', g1, -, g2⟩ := (C159_message E.parseCT d cs).2 hg
  rw [h] at g1
  cases g1
  obtain ⟨e, h1, h2⟩ := C161_async_partial env be E d cs hk hj hp ht ho c m h
  refine ⟨e, h1, (h2 e).2 ?_⟩
  have hbody : m.contents = .present (utf8 (toExample p).text) (some t) none := by
    rw [g2.body]
    obtain ⟨l, r, e1, e2⟩ := ho
    have hn : ∀ l' : List MsgCall, (∀ c ∈ l', ∃ k v, c = .metadata k v) → l'.filterMap (bodyIn E.parseCT) = [] := by
      intro l' hl
      rw [List.filterMap_eq_nil_iff]
      intro c hc
      obtain ⟨k, v, rfl⟩ := hl c hc
      rfl
    rw [e1, List.filterMap_append, List.filterMap_cons, hn l (fun c hc => e2 c (List.mem_append_left _ hc)),
      hn r (fun c hc => e2 c (List.mem_append_right _ hc))]
    have hty : typeOf E.parseCT "application/json".toList = t := by unfold typeOf; rw [hp]; rfl
    simp only [bodyIn, hty, List.nil_append, List.getLast?_singleton, Option.getD_some]
  have he : e = ⟨some t, .present (utf8 (toExample p).text) (some t), m.metadata, m.rules⟩ := by
    unfold Provider.asContents at h1
    rw [hbody] at h1
    simp only [calcContentType, Res.map] at h1
    cases h1; rfl
  constructor
  · rw [he]
    refine ⟨C50_reflexive t, by simp, by simp, toExample p, hj.example_, accepts_example env be hk hj hex⟩
  · intro k v hv
    rw [← g2.metadata k] at hv
    rw [he]
    exact ⟨v, hv, fun _ => BuilderMatchProps.sameMedia_refl _ _, fun _ => rfl⟩

/-! ### Examples -/

/-- A JSON parser that knows one text. -/
def oneText : BodyEnv := { simpleBody with json := fun b => if b = utf8 "true".toList then some (.bool true) else none }

/-- `like(true)`. -/
def likeTrue : Pattern := .like (.json (.bool true))

theorem known_likeTrue : Known likeTrue ∧ ReadsJson oneText likeTrue ∧ Everywhere (ExampleOk Env.simple) likeTrue := by
  refine ⟨⟨?_, ?_, ?_, ?_, ?_⟩, ⟨by decide, ?_⟩, ?_⟩
  · simp [likeTrue, PatternProps.Everywhere, PatternProps.NotObjectMatching]
  · simp [likeTrue, PatternProps.Everywhere, PatternProps.KeysOk]
  · simp [likeTrue, PatternProps.Everywhere, PatternProps.LiteralWF, Json.WF]
  · simp [likeTrue, PatternProps.Everywhere, PatternProps.Unambiguous]
  · intro e he; rw [List.mem_singleton.1 he]; decide
  · intro b j h
    unfold oneText at h
    simp only at h
    split at h
    · cases h; exact ⟨by simp [Json.WF], by intro rest l h; cases h⟩
    · cases h
  · simp [likeTrue, PatternProps.Everywhere, PatternProps.ExampleOk, Json.WF]

/-- An asynchronous message: states, a body that `contents_from` drops, metadata, a JSON body. -/
def asyncCalls : List AsyncCall :=
  [.info (.given "s".toList), .body [1] (some "text/plain".toList), .info (.comment "c".toList),
   .contentsFrom (.obj [("pact:content-type".toList, .str "text/plain".toList), ("contents".toList, .str "x".toList)]),
   .metadata "k".toList (.bool false), .jsonBody likeTrue, .metadata "k".toList (.bool true), .info (.pending true)]

/-- The hypotheses of C159 and `C161_async_partial` are met: `contents_from` drops the first body and its content type. -/
theorem example_async : (∀ j, AsyncCall.contentsFrom j ∈ asyncCalls → ¬ BadType PactFileProps.exE.parseCT j) ∧
    OneJson likeTrue ((since resets asyncCalls).filterMap onContents) ∧
    metaValue ((since resets asyncCalls).filterMap onContents) "k".toList = some (.bool true) ∧
    metaValue ((since resets asyncCalls).filterMap onContents) "contentType".toList = none := by
  refine ⟨?_, ⟨[.metadata "k".toList (.bool false)], [.metadata "k".toList (.bool true)], rfl, ?_⟩, rfl, rfl⟩
  · intro j hj
    have : j = .obj [("pact:content-type".toList, .str "text/plain".toList), ("contents".toList, .str "x".toList)] := by
      unfold asyncCalls at hj
      simp only [List.mem_cons, reduceCtorEq, AsyncCall.contentsFrom.injEq, false_or, List.not_mem_nil, or_false] at hj
      exact hj
    subst this
    rintro ⟨v, h1, h2⟩
    have : v = .str "text/plain".toList := by
      have h3 : Json.lookup "pact:content-type".toList (fieldsOf (.obj [("pact:content-type".toList,
        .str "text/plain".toList), ("contents".toList, .str "x".toList)])) = some (.str "text/plain".toList) := rfl
      rw [h3] at h1; cases h1; rfl
    subst this
    have h4 : (PactFileProps.exE.parseCT (Json.str "text/plain".toList).toStr).isSome = true := by decide
    rw [h2] at h4; cases h4
  · intro c hc
    rcases List.mem_cons.1 hc with rfl | hc
    · exact ⟨_, _, rfl⟩
    · rw [List.mem_singleton.1 hc]; exact ⟨_, _, rfl⟩

/-- A content type that cannot be parsed: building aborts. -/
theorem example_panic : BadType PactFileProps.exE.parseCT (.obj [("pact:content-type".toList, .str "?".toList)]) :=
  ⟨.str "?".toList, rfl, by decide⟩

/-- With two bodies of bytes the message has the second body with the first content type in its metadata. -/
theorem C159_first_content_type_stays : ∃ c m,
    buildAsync PactFileProps.exE.parseCT "d".toList
      [.body [1] (some "text/plain".toList), .body [2] (some "application/json".toList)] = .ok (.async c m) ∧
    m.contents = .present [2] (some ⟨"application".toList, "json".toList, [], none⟩) none ∧
    Json.lookup "contentType".toList m.metadata = some (.str "text/plain".toList) := ⟨_, _, rfl, rfl, rfl⟩

/-- The generators of a response are lost. -/
theorem C160_lost_example : ∃ c m r,
    buildSync PactFileProps.exE.parseCT "d".toList
      [.request (.body [1] none), .responseContents ⟨.present [2] none none, [], [], [(.body, [(rootPath, .uuid none)])]⟩] =
      .ok (.sync c m [r]) ∧ genAt r.gens .body rootPath = none := ⟨_, _, _, rfl, rfl⟩

/-- A synchronous message that meets the hypotheses of C160 and of the theorems about its request and its responses. -/
def syncCalls : List SyncCall :=
  [.info (.given "s".toList), .request (.metadata "k".toList .null), .responseJson likeTrue, .request (.jsonBody likeTrue),
   .responseJson likeTrue]

theorem example_sync : (∀ c ∈ syncCalls, ProperCall c) ∧ (∀ c ∈ syncCalls, JsonResponses c) ∧
    OneJson likeTrue ((since resetsRequest syncCalls).filterMap onRequest) ∧ responsePatterns syncCalls = [likeTrue, likeTrue] := by
  refine ⟨?_, ?_, ⟨[.metadata "k".toList .null], [], rfl, ?_⟩, rfl⟩
  · intro c hc
    simp only [syncCalls, List.mem_cons, List.not_mem_nil, or_false] at hc
    rcases hc with rfl | rfl | rfl | rfl | rfl <;> trivial
  · intro c hc
    simp only [syncCalls, List.mem_cons, List.not_mem_nil, or_false] at hc
    rcases hc with rfl | rfl | rfl | rfl | rfl <;> trivial
  · intro c hc; rw [List.append_nil] at hc; rw [List.mem_singleton.1 hc]; exact ⟨_, _, rfl⟩

/-- Contents with rules and generators that meet the hypothesis of C160. -/
theorem example_proper : Proper ⟨.present [2] none none, [("k".toList, .null)],
    [(.body, ⟨.body, [(rootPath, ⟨[.type], .and, false⟩)]⟩), (.metadata, ⟨.metadata, [(rootPath, ⟨[.integer], .and, false⟩)]⟩)],
    [(.body, [(rootPath, .uuid none)])]⟩ := by
  refine ⟨?_, ?_, ⟨?_, ?_⟩⟩
  · show List.Nodup _; decide
  · show List.Nodup _; decide
  · decide
  · intro e he; rw [List.mem_singleton.1 he]; show List.Nodup _; decide



end MessageBuilderMatchProps
end Verif
