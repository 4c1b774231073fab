import Verif.Props.BuilderFileProps
import Verif.Props.LocalityProps
import Verif.Props.PatternDenotation

/-! C167: the matching rules that are read from a pact file mean the same as the rules that were written.

`C73` to `C75` say that the rules of an interaction are equal, in the sense of the library, after a pact file is written
and read.  Here: comparing a JSON value under the rules that were read has the same result (verdict and mismatches) as
comparing it under the original rules; and the rules of a JSON pattern of the consumer DSL still accept, after the cycle,
exactly the documents the pattern describes. -/

set_option autoImplicit false

namespace Verif
namespace ReadRulesProps
open PathProps Path Rules Matchers Compare RuleProps LocalityProps RuleJsonProps PatternProps

/-! ## Specification -/

/-- For no path are there two rules of a table that are equally specific, and of the rules whose paths have the length of
the path all or none are `values` rules. -/
structure OneRule (rules : List (DocPath × RuleList)) : Prop where
  best : ∀ path e e', IsBest (CategoryOf.mk Category.body rules) path e →
    IsBest (CategoryOf.mk Category.body rules) path e' → e = e'
  values : ∀ path, ∀ e ∈ rules, ∀ e' ∈ rules, PrefixMatches e.1.tokens path → e.1.tokens.length = path.length →
    PrefixMatches e'.1.tokens path → e'.1.tokens.length = path.length →
    MatchingRule.values ∈ e.2.rules → MatchingRule.values ∈ e'.2.rules

/-! ## Proofs -/

/-- What is read for an entry. -/
def clear (e : DocPath × RuleList) : DocPath × RuleList := (e.1, ⟨e.2.rules, e.2.logic, false⟩)

theorem filter_clear (rules rules' : List (DocPath × RuleList)) (hp : rules'.Perm (rules.map clear))
    (f : DocPath → Bool) :
    (rules'.filter fun e => f e.1).Perm ((rules.filter fun e => f e.1).map clear) := by
  refine (hp.filter _).trans ?_
  rw [List.filter_map]
  exact List.Perm.refl _

theorem perm_isEmpty {A : Type} {l l' : List A} (h : l.Perm l') : l.isEmpty = l'.isEmpty := by
  have := h.length_eq
  cases l <;> cases l' <;> simp_all

theorem simple_values (r : MatchingRule) (h : Simple r) :
    (["values", "each-value", "each-key"].contains r.name = true) ↔ r = .values := by
  cases r <;> first | exact ⟨fun _ => rfl, fun _ => rfl⟩ | (refine ⟨fun h' => ?_, fun h' => by cases h'⟩; first | exact h.elim | exact absurd h' (by simp [MatchingRule.name]))

theorem any_values (l : List MatchingRule) (h : ∀ r ∈ l, Simple r) :
    (l.any (fun r => ["values", "each-value", "each-key"].contains r.name) = true) ↔ MatchingRule.values ∈ l := by
  rw [List.any_eq_true]
  constructor
  · rintro ⟨r, hr, h1⟩
    rw [← (simple_values r (h r hr)).1 h1]
    exact hr
  · exact fun hv => ⟨.values, hv, (simple_values .values trivial).2 rfl⟩

theorem select_same (rules rules' : List (DocPath × RuleList)) (config : DiffConfig)
    (hp : rules'.Perm (rules.map clear)) (hr : ∀ e ∈ rules, ∀ r ∈ e.2.rules, Simple r) (hs : ShortPaths (CategoryOf.mk Category.body rules)) (ho : OneRule rules)
    (v : List Str) : SelectFrom ⟨⟨.body, rules⟩, config⟩ ⟨⟨.body, rules'⟩, config⟩ v := by
  have hmem : ∀ e', e' ∈ rules' ↔ ∃ e ∈ rules, clear e = e' := fun e' => by
    rw [hp.mem_iff, List.mem_map]
  have hs' : ShortPaths (CategoryOf.mk Category.body rules') := by
    intro e' he'
    obtain ⟨e, he, rfl⟩ := (hmem e').1 he'
    exact hs e he
  refine ⟨rfl, ?_, ?_, ?_, ?_⟩
  · intro p _ _
    show (!(rules.filter fun e => matchesPath e.1.tokens (toVec p)).isEmpty) =
      !(rules'.filter fun e => matchesPath e.1.tokens (toVec p)).isEmpty
    rw [perm_isEmpty (filter_clear rules rules' hp fun x => matchesPath x.tokens (toVec p)), List.isEmpty_map]
  · intro p _ _
    show selectBestMatcher (CategoryOf.mk Category.body rules) (toVec p) =
      selectBestMatcher (CategoryOf.mk Category.body rules') (toVec p)
    have hbest : ∀ e, e ∈ rules → IsBest (CategoryOf.mk Category.body rules') (toVec p) (clear e) →
        IsBest (CategoryOf.mk Category.body rules) (toVec p) e := by
      intro e he ⟨_, h2, h3⟩
      refine ⟨he, h2, fun x hx hx' => h3 (clear x) ((hmem _).2 ⟨x, hx, rfl⟩) hx'⟩
    rcases C05_selection_maximal_partial (CategoryOf.mk Category.body rules) (toVec p) (Or.inl rfl) hs with
      ⟨h1, h2⟩ | ⟨e, h1, h2⟩ <;>
    rcases C05_selection_maximal_partial (CategoryOf.mk Category.body rules') (toVec p) (Or.inl rfl) hs' with
      ⟨h3, h4⟩ | ⟨e', h3, h4⟩
    · rw [h2, h4]
    · obtain ⟨x, hx, rfl⟩ := (hmem e').1 h3.1
      exact absurd h3.2.1 (h1 x hx)
    · exact absurd h1.2.1 (h3 (clear e) ((hmem _).2 ⟨e, h1.1, rfl⟩))
    · obtain ⟨x, hx, rfl⟩ := (hmem e').1 h3.1
      rw [h2, h4, ho.best _ _ _ h1 (hbest x hx h3)]
      rfl
  · intro p _ _
    have hf := filter_clear rules rules' hp fun x => matchesPathExactly x.tokens (toVec p)
    show (!(rules.filter fun e => matchesPathExactly e.1.tokens (toVec p)).isEmpty) =
      !(rules'.filter fun e => matchesPathExactly e.1.tokens (toVec p)).isEmpty
    rw [perm_isEmpty hf, List.isEmpty_map]
  · intro p _ _
    have hf := filter_clear rules rules' hp fun x => matchesPathExactly x.tokens (toVec p)
    show (asRuleList (CategoryOf.mk Category.body (rules.filter fun e => matchesPathExactly e.1.tokens (toVec p)))).rules.any
          (fun r => ["values", "each-value", "each-key"].contains r.name) =
      (asRuleList (CategoryOf.mk Category.body (rules'.filter fun e => matchesPathExactly e.1.tokens (toVec p)))).rules.any
          (fun r => ["values", "each-value", "each-key"].contains r.name)
    have hin : ∀ e ∈ rules.filter (fun e => matchesPathExactly e.1.tokens (toVec p)),
        e ∈ rules ∧ PrefixMatches e.1.tokens (toVec p) ∧ e.1.tokens.length = (toVec p).length := by
      intro e he
      obtain ⟨h1, h2⟩ := List.mem_filter.1 he
      obtain ⟨h3, h4⟩ := Bool.and_eq_true _ _ ▸ h2
      exact ⟨h1, (matches_iff _ (hs e h1)).1 h4, of_decide_eq_true h3⟩
    generalize rules.filter (fun e => matchesPathExactly e.1.tokens (toVec p)) = l at hf hin
    generalize rules'.filter (fun e => matchesPathExactly e.1.tokens (toVec p)) = l' at hf
    cases l' with
    | nil => rw [List.map_eq_nil_iff.1 hf.nil_eq.symm]
    | cons y ys =>
      cases l with
      | nil => exact absurd hf.length_eq (by simp)
      | cons x xs =>
        obtain ⟨z, hz, hzy⟩ := List.mem_map.1 (hf.mem_iff.1 List.mem_cons_self)
        obtain ⟨a1, a2, a3⟩ := hin z hz
        obtain ⟨b1, b2, b3⟩ := hin x List.mem_cons_self
        show x.2.rules.any _ = y.2.rules.any _
        have hy : y.2.rules = z.2.rules := by rw [← hzy]; rfl
        rw [hy, Bool.eq_iff_iff, any_values _ (hr x b1), any_values _ (hr z a1)]
        exact ⟨ho.values _ x b1 z a1 b2 b3 a2 a3, ho.values _ z a1 x b1 a2 a3 b2 b3⟩

/-- The table of the rules for a body. -/
theorem body_ctx (m : MatchingRules) (config : DiffConfig) (hn : ∀ t, rulesForCategory m .body = some t → t.name = .body) :
    MatchResult.ctxFor m .body config = ⟨⟨.body, catTable m .body⟩, config⟩ := by
  unfold MatchResult.ctxFor catTable
  cases h : rulesForCategory m .body with
  | none => rfl
  | some t =>
    have := hn t h
    obtain ⟨n, r⟩ := t
    simp only at this
    subst this
    rfl

/-- The rules for a body, and what is needed for a file to keep what they mean. -/
structure BodyRulesOk (m : MatchingRules) : Prop where
  name : ∀ t, rulesForCategory m .body = some t → t.name = .body
  simple : ∀ e ∈ catTable m .body, ∀ r ∈ e.2.rules, Simple r
  short : ShortPaths (CategoryOf.mk Category.body (catTable m .body))
  one : OneRule (catTable m .body)

/-- **C167**: comparing a JSON value under the rules for a body that were read from a file has the same result as under
the rules that were written. -/
theorem C167_json_partial (m m' : MatchingRules) (hm : BodyRulesOk m) (hf : SameTables m m') (env : Env)
    (config : DiffConfig) (e a : Json) :
    compareJson env rootPath e a (MatchResult.ctxFor m' .body config) =
      compareJson env rootPath e a (MatchResult.ctxFor m .body config) := by
  rw [body_ctx m config hm.name, body_ctx m' config (fun t h => hf.2 .body t h)]
  exact (C69_selection env _ _ rootPath e a
    (select_same _ _ config (hf.1 .body hm.simple) hm.simple hm.short hm.one _)).symm

/-! ## Patterns -/

/-- A pattern whose rules mean what the pattern describes (C71). -/
structure KnownPattern (p : Pattern) : Prop where
  noObjectMatching : Everywhere NotObjectMatching p
  keys : Everywhere KeysOk p
  literals : Everywhere LiteralWF p
  unambiguous : Everywhere Unambiguous p
  short : ShortPaths (Patterns.jsonBody p).2

theorem rows_simple (p : Pattern) (s : List PathToken) (r : MatchingRule) (h : (s, r) ∈ rel p) : Simple r := by
  rcases rel_plain p s r h with h | ⟨re, rfl⟩ | ⟨f, rfl⟩
  · cases r <;> first | trivial | (cases h)
  · trivial
  · trivial

/-- The rules of a pattern contain no other rules, and are not marked as inherited. -/
theorem pattern_rules (p : Pattern) (ho : Everywhere NotObjectMatching p) :
    (∀ e ∈ (Patterns.jsonBody p).2.rules, ∀ r ∈ e.2.rules, Simple r) ∧
    (Patterns.jsonBody p).2.rules.map clear = (Patterns.jsonBody p).2.rules := by
  have ht := (extract_table p ho).2
  refine ⟨?_, ?_⟩
  · intro e he r hr
    obtain ⟨_, heq⟩ := ht.1 e he
    have h2 : e.2.rules = rulesAt (rel p) e.1.tokens.tail := congrArg (fun z => z.2.rules) heq
    rw [h2] at hr
    exact rows_simple p _ r (mem_rulesAt.1 hr)
  · refine (List.map_congr_left (fun e he => ?_)).trans (List.map_id' _)
    obtain ⟨_, heq⟩ := ht.1 e he
    have h2 : e.2.cascaded = false := congrArg (fun z => z.2.cascaded) heq
    obtain ⟨a, b, c, d⟩ := e
    simp only at h2
    subst h2
    rfl

/-- **C167** (patterns): if the rules for a body are those of a pattern, then the rules read from the file accept exactly
the documents that the pattern describes. -/
theorem C167_pattern_partial (p : Pattern) (hp : KnownPattern p) (m m' : MatchingRules)
    (hm : catTable m .body = (Patterns.jsonBody p).2.rules) (hf : SameTables m m') (env : Env) (config : DiffConfig) (a : Json)
    (wa : a.WF) (sa : VecSized a) :
    compareJson env rootPath (Patterns.jsonBody p).1 a (MatchResult.ctxFor m' .body config) = .ok () ↔
      Accepts env config false p a := by
  obtain ⟨h1, h2⟩ := pattern_rules p hp.noObjectMatching
  have hperm := hf.1 .body (by rw [hm]; exact h1)
  rw [hm] at hperm
  have hperm' : (catTable m' .body).Perm (Patterns.jsonBody p).2.rules := hperm.trans (List.Perm.of_eq h2)
  rw [body_ctx m' config (fun t h => hf.2 .body t h)]
  exact C71_rules_denote_pattern_partial env config p a hp.noObjectMatching hp.keys hp.literals hp.unambiguous hp.short wa sa
    _ hperm'

/-! ## From the builder to the file and back -/

open PactFile PactV3 Parts PactFileProps PactBuild PactBuilderProps BuilderProps BuilderFileProps
open Builders

/-- The call is not about headers. -/
def AboutBody : PartCall → Bool
  | .header _ _ => false
  | .headerState _ _ _ => false
  | _ => true

/-- The only call about the body gives it the pattern. -/
def OnlyPattern (ps : List PartCall) (pat : Pattern) : Prop := ps.filter AboutBody = [.jsonBody pat]

theorem onlyPattern_mem {ps : List PartCall} {pat q : Pattern} (h : OnlyPattern ps pat) (hq : PartCall.jsonBody q ∈ ps) : q = pat := by
  have : PartCall.jsonBody q ∈ ps.filter AboutBody := List.mem_filter.2 ⟨hq, rfl⟩
  rw [h] at this
  cases List.mem_singleton.1 this
  rfl

theorem bodyRows_filter (ps : List PartCall) : bodyRows (ps.filter AboutBody) = bodyRows ps := by
  unfold bodyRows
  induction ps with
  | nil => rfl
  | cons c ps ih =>
    rw [List.flatMap_cons, ← ih]
    cases c <;> rfl

theorem lastBody_filter (parseCT : Str → Option ContentType) (ps : List PartCall) :
    lastBody parseCT (ps.filter AboutBody) = lastBody parseCT ps := by
  unfold lastBody
  have : (ps.filter AboutBody).filterMap (bodyOf parseCT) = ps.filterMap (bodyOf parseCT) := by
    induction ps with
    | nil => rfl
    | cons c ps ih =>
      cases c <;> simp only [List.filter_cons, AboutBody, Bool.false_eq_true, if_false, if_true, List.filterMap_cons, bodyOf, ih]
  rw [this]

/-- The rules and the body that the only pattern gives to a part. -/
theorem only_part {uc : UC} {parseCT : Str → Option ContentType} {ps : List PartCall} {f : Fields} {pat : Pattern}
    (h : PartIs uc parseCT ps f) (ho : OnlyPattern ps pat) (hn : Everywhere NotObjectMatching pat) :
    catTable f.rules .body = (Patterns.jsonBody pat).2.rules ∧
    f.body = .present (utf8 (Patterns.toExample pat).text) (some (typeOf parseCT "application/json".toList)) none := by
  have hc : ∀ m : MatchingRules, catTable m .body = (catOf m .body).rules := by
    intro m
    unfold catTable catOf
    cases rulesForCategory m .body <;> rfl
  refine ⟨?_, ?_⟩
  · rw [hc, h.brules (fun q hq => onlyPattern_mem ho hq ▸ hn), ← bodyRows_filter, ho]
    unfold Patterns.jsonBody
    rw [rootPath_tokens]
    simp only
    rw [extract_eq [.root] pat _ hn]
    simp [bodyRows]
  · rw [h.body, ← lastBody_filter, ho]
    rfl

/-- What is read for a part with the pattern: the body of the file, and rules that accept what the pattern describes. -/
def Means (E : FileEnv) (pat : Pattern) (body : FBody) (rules : MatchingRules) : Prop :=
  body = afterFile E (.present (utf8 (Patterns.toExample pat).text) (some (typeOf E.parseCT "application/json".toList)) none) ∧
  ∀ (env : Env) (config : DiffConfig) (a : Json), a.WF → VecSized a →
    (compareJson env rootPath (Patterns.toExample pat) a (MatchResult.ctxFor rules .body config) = .ok () ↔
      Accepts env config false pat a)

theorem each_mem {A B : Type} {R : A → B → Prop} : ∀ {l : List A} {l' : List B}, Each R l l' → ∀ a ∈ l, ∃ b ∈ l', R a b
  | [], _, _, a, h => by cases h
  | x :: xs, [], h, _, _ => h.elim
  | x :: xs, y :: ys, h, a, ha => by
    rcases List.mem_cons.1 ha with rfl | ha
    · exact ⟨y, List.mem_cons_self, h.1⟩
    · obtain ⟨b, hb, hr⟩ := each_mem h.2 a ha
      exact ⟨b, List.mem_cons_of_mem _ hb, hr⟩

/-- Each call has its interaction in the pact that is built. -/
theorem built_each (E : FileEnv) (V : Versions) (consumer provider : Str) (cs : List PactCall) (p : V4Pact)
    (hq : PactBuild.build E.P.uc E.parseCT V .v4 consumer provider cs = .ok (.v4 p)) :
    ∀ c ∈ cs, ∃ x ∈ p.interactions, V4From E.P.uc E.parseCT c x := by
  intro c hm
  obtain ⟨i, hi⟩ := List.getElem?_of_mem hm
  have hacc : ∀ c ∈ cs, PactBuilderProps.Accepts E.parseCT .v4 c := by
    refine Classical.byContradiction (fun hn => ?_)
    have := (C162_pact E.P.uc E.parseCT V .v4 consumer provider cs).1 (by
      refine Classical.byContradiction (fun hx => hn (fun c hc => ?_))
      exact Classical.byContradiction (fun hy => hx ⟨c, hc, hy⟩))
    rw [this] at hq
    cases hq
  obtain ⟨q', hq', his⟩ := (C162_pact E.P.uc E.parseCT V .v4 consumer provider cs).2 hacc
  rw [hq] at hq'
  cases hq'
  obtain ⟨_, _, _, _, hone⟩ := his
  obtain ⟨x, hx, hf⟩ := hone.2 i c hi
  exact ⟨x, List.mem_of_getElem? hx, hf⟩

/-- **C167** (whole cycle): a V4 pact is built, written and read.  Then for each interaction that was built there is one in
the pact that is read, with the same description, and where the request or the response was given a JSON pattern as its only
body, the one read accepts exactly the documents that the pattern describes. -/
theorem C167_built_partial (E : FileEnv) (hE : TypesOk E) (V : Versions) (consumer provider : Str) (cs : List PactCall)
    (hc : ∀ c ∈ cs, PactCallOk E c) (q : AnyPact)
    (hq : PactBuild.build E.P.uc E.parseCT V .v4 consumer provider cs = .ok q) :
    ∃ j p', PactBuild.written E q = .ok j ∧ pactFromJson E j = .ok p' ∧
      ∀ d calls, PactCall.interaction d calls ∈ cs → ∃ c req resp, Interaction.http c req resp ∈ p'.interactions ∧
        c.description = d ∧
        (∀ pat, KnownPattern pat → OnlyPattern (partsIn (requestCalls calls)) pat → Means E pat req.body req.rules) ∧
        (∀ pat, KnownPattern pat → OnlyPattern (resPartsIn (responseCalls calls)) pat → Means E pat resp.body resp.rules) := by
  obtain ⟨p, j, p', rfl, h1, h2, h3, _⟩ := C166_file_partial E hE V consumer provider cs hc q hq
  refine ⟨j, p', h1, h2, fun d calls hm => ?_⟩
  have hi : Builders.build E.P.uc E.parseCT d calls ∈ p.interactions := by
    obtain ⟨x, hx, hf⟩ := built_each E V consumer provider cs p hq _ hm
    have hx' : x = Builders.build E.P.uc E.parseCT d calls := hf
    rw [← hx']
    exact hx
  obtain ⟨s, ho, heach⟩ := h3.interactions
  obtain ⟨i', hi', hsame⟩ := each_mem heach _ (ho.perm.mem_iff.2 hi)
  rw [C157_interaction] at hsame
  cases i' with
  | async c m => exact hsame.elim
  | sync c r rs => exact hsame.elim
  | http c req resp =>
    obtain ⟨hcom, ⟨ct, hct, hreq⟩, hresp⟩ := hsame
    refine ⟨c, req, resp, hi', hcom.description, ?_, ?_⟩
    · intro pat hpat ho
      have hr := request_is E.P.uc E.parseCT (requestCalls calls)
      obtain ⟨h4, h5⟩ := only_part hr.part ho hpat.noObjectMatching
      refine ⟨?_, fun env config a wa sa => C167_pattern_partial pat hpat _ _ h4 hreq.tables env config a wa sa⟩
      rw [hreq.body]
      have h5' : (buildRequest E.P.uc E.parseCT (requestCalls calls)).body = _ := h5
      rw [h5']
      rfl
    · intro pat hpat ho
      have hr := response_is E.P.uc E.parseCT (responseCalls calls)
      obtain ⟨h4, h5⟩ := only_part hr.part ho hpat.noObjectMatching
      refine ⟨?_, fun env config a wa sa => C167_pattern_partial pat hpat _ _ h4 hresp.tables env config a wa sa⟩
      rw [hresp.body]
      have h5' : (buildResponse E.P.uc E.parseCT (responseCalls calls)).body = _ := h5
      rw [h5']

/-! ### Examples -/

/-- Rules of different specificity. -/
theorem oneRule_of (rules : List (DocPath × RuleList))
    (h : ∀ e ∈ rules, ∀ e' ∈ rules, specificity e.1.tokens = specificity e'.1.tokens → e = e')
    (hv : ∀ e ∈ rules, MatchingRule.values ∉ e.2.rules) : OneRule rules where
  best := by
    intro path e e' h1 h2
    exact h e h1.1 e' h2.1 (Nat.le_antisymm (h2.2.2 e h1.1 h1.2.1) (h1.2.2 e' h2.1 h2.2.1))
  values := fun _ e he _ _ _ _ _ _ hx => absurd hx (hv e he)

/-- A body with a type rule, a rule for all fields and a rule for one of them. -/
def exBody : MatchingRules := [(.body, sampleTable)]

theorem exBody_ok : BodyRulesOk exBody where
  name := by intro t h; cases h; rfl
  simple := by
    intro e he r hr
    have he' : e ∈ sampleTable.rules := he
    simp only [sampleTable, List.mem_cons, List.not_mem_nil, or_false] at he'
    rcases he' with rfl | rfl | rfl <;> (cases List.mem_singleton.1 hr; trivial)
  short := by
    show ShortPaths sampleTable
    unfold ShortPaths
    decide
  one := by
    refine oneRule_of _ ?_ ?_
    · show ∀ e ∈ sampleTable.rules, ∀ e' ∈ sampleTable.rules, _
      intro e he e' he' hs
      simp only [sampleTable, List.mem_cons, List.not_mem_nil, or_false] at he he'
      rcases he with rfl | rfl | rfl <;> rcases he' with rfl | rfl | rfl <;>
        first | rfl | exact absurd hs (by decide)
    · show ∀ e ∈ sampleTable.rules, _
      intro e he
      simp only [sampleTable, List.mem_cons, List.not_mem_nil, or_false] at he
      rcases he with rfl | rfl | rfl <;> simp

/-- The rules read from what is written. -/
def readBack (m : MatchingRules) : Res MatchingRules :=
  match RuleJson.matchersToJson m with
  | .obj o => RuleJson.loadV3 exP [] o
  | _ => .err

/-- **C167** (example): rules that can be written, and meet the hypotheses. -/
theorem C167_example : RulesOk UC.ascii exBody ∧ BodyRulesOk exBody ∧ (readBack exBody).map (fun m' => (catTable m' .body).length) = .ok 3 := by
  refine ⟨?_, exBody_ok, by decide +kernel⟩
  refine ⟨by decide, ?_⟩
  intro e he
  cases List.mem_singleton.1 he
  refine ⟨rfl, ⟨by decide, ?_, ?_⟩, ?_⟩
  · rw [WritableEs_iff]
    intro x hx
    have hx' : x ∈ sampleTable.rules := hx
    simp only [sampleTable, List.mem_cons, List.not_mem_nil, or_false] at hx'
    rcases hx' with rfl | rfl | rfl <;> simp [WritableL, WritableRs, Writable]
  · intro x hx
    have hx' : x ∈ sampleTable.rules := hx
    simp only [sampleTable, List.mem_cons, List.not_mem_nil, or_false] at hx'
    rcases hx' with rfl | rfl | rfl <;> exact ⟨by decide, by decide⟩
  · rw [CompleteEs_iff]
    intro x hx
    have hx' : x ∈ sampleTable.rules := hx
    simp only [sampleTable, List.mem_cons, List.not_mem_nil, or_false] at hx'
    rcases hx' with rfl | rfl | rfl <;> simp [CompleteL, CompleteRs, Complete]

/-- The pattern of the first interaction of `exCalls`. -/
def exPattern : Pattern := .obj [("a b".toList, .eachLike (.like (.json (.num (.pos 1)))) 2),
  ("n".toList, .arr [.json .null, .term "x+".toList "xx".toList])]

/-- **C167** (example, whole cycle): the first interaction of `exCalls` has a pattern as its only body. -/
theorem C167_example_pattern : KnownPattern exPattern ∧ ∃ calls, PactCall.interaction "b".toList calls ∈ BuilderFileProps.exCalls ∧
    OnlyPattern (partsIn (requestCalls calls)) exPattern := by
  refine ⟨⟨?_, ?_, ?_, ?_, ?_⟩, _, List.mem_cons_self, rfl⟩
  · simp [exPattern, Everywhere, EverywhereFields, EverywhereField, EverywhereItems, NotObjectMatching]
  · refine ⟨⟨by decide, ?_⟩, ?_⟩
    · intro f hf i hi
      simp only [List.mem_cons, List.not_mem_nil, or_false] at hf
      rcases hf with rfl | rfl
      · have h0 : parseUsize "a b".toList = none := by decide
        exact absurd (h0.symm.trans hi) (by simp)
      · have h0 : parseUsize "n".toList = none := by decide
        exact absurd (h0.symm.trans hi) (by simp)
    · simp [Everywhere, EverywhereFields, EverywhereField, EverywhereItems, KeysOk]
  · simp [exPattern, Everywhere, EverywhereFields, EverywhereField, EverywhereItems, LiteralWF, Json.WF]
  · simp [exPattern, Everywhere, EverywhereFields, EverywhereField, EverywhereItems, Unambiguous, core]
  · unfold ShortPaths
    decide +kernel

/-- Two rules that are equally specific for `$.b.a`; the later one in the table is chosen. -/
def exTie : MatchingRules := [(.body, ⟨.body,
  [(fromTokens [.root, .field ['b'], .star], ⟨[.equality], .and, false⟩),
   (fromTokens [.root, .star, .field ['a']], ⟨[.type], .and, false⟩)]⟩)]

def exTieDoc (n : Nat) : Json := .obj [(['b'], .obj [(['a'], .num (.pos n))])]

/-- **C167** (limit): of two rules that are equally specific the last one of the table is chosen; the order of the table is not
kept by the file, and the value that was accepted is rejected. -/
theorem C167_limit :
    (compareJson Env.simple rootPath (exTieDoc 1) (exTieDoc 2) (MatchResult.ctxFor exTie .body .noUnexpectedKeys)).isOk = true ∧
    ((readBack exTie).map fun m' => (compareJson Env.simple rootPath (exTieDoc 1) (exTieDoc 2)
      (MatchResult.ctxFor m' .body .noUnexpectedKeys)).isOk) = .ok false := by
  constructor <;> decide +kernel

end ReadRulesProps
end Verif
