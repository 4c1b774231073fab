import Verif.Props.ReadRulesProps
import Verif.Props.MessageBuilderMatchProps

/-! C167 for messages: the JSON patterns of asynchronous and synchronous messages, after building, writing and reading. -/

set_option autoImplicit false

namespace Verif
namespace ReadMessageProps
open Path Rules RuleJson Generate PactFile Parts Patterns Builders MessageBuilders MessageBuilderProps MessageBuilderMatchProps
open PactV3 PactFileProps PactBuild PactBuilderProps BuilderFileProps ReadRulesProps RuleJsonProps
open PatternProps (Everywhere NotObjectMatching)

/-- The rules for the body and the contents are those of a pattern. -/
def HasPattern (parseCT : Str → Option ContentType) (pat : Pattern) (m : MessageContents) : Prop :=
  catTable m.rules .body = (Patterns.jsonBody pat).2.rules ∧
  m.contents = .present (utf8 (Patterns.toExample pat).text) (some (typeOf parseCT "application/json".toList)) none

theorem async_pattern {parseCT : Str → Option ContentType} {d : Str} {cs : List AsyncCall} {pat : Pattern}
    (hn : Everywhere NotObjectMatching pat) (ho : OneJson pat ((since resets cs).filterMap onContents)) {c : Common}
    {m : MessageContents} (h : buildAsync parseCT d cs = .ok (.async c m)) : HasPattern parseCT pat m := by
  have hg : ∀ j, AsyncCall.contentsFrom j ∈ cs → ¬ BadType parseCT j := by
    intro j h1 h2
    rw [(C159_message parseCT d cs).1 ⟨j, h1, h2⟩] at h
    cases h
  obtain ⟨b, h1, h2⟩ := async_run (d := d) cs [] ⟨info0 d, contents0⟩ hg
    ⟨⟨rfl, rfl, rfl, rfl, rfl, rfl⟩, state_nil parseCT .missing, rfl⟩
  rw [List.nil_append] at h2
  unfold buildAsync at h
  rw [h1] at h
  simp only [Res.map] at h
  cases h
  have hf := oneJson_rules parseCT ho hn ((startsIn parseCT cs).getLast?.getD .missing)
  simp only [← h2.fold] at hf
  obtain ⟨r1, _, r3⟩ := hf
  refine ⟨?_, r3⟩
  show (bodyRules b.contents).rules = _
  rw [r1]

theorem request_pattern {parseCT : Str → Option ContentType} {d : Str} {cs : List SyncCall} {pat : Pattern}
    (hn : Everywhere NotObjectMatching pat) (hpc : ∀ c ∈ cs, ProperCall c)
    (ho : OneJson pat ((since resetsRequest cs).filterMap onRequest)) {c : Common}
    {m : MessageContents} {ms : List MessageContents} (h : buildSync parseCT d cs = .ok (.sync c m ms)) :
    HasPattern parseCT pat m := by
  have hg : ∀ j, SyncCall.contentsFrom j ∈ cs → ¬ BadType parseCT j := by
    intro j h1 h2
    rw [(C160_message_partial parseCT d cs hpc).1 ⟨j, h1, h2⟩] at h
    cases h
  obtain ⟨b, h1, h2⟩ := sync_run (d := d) cs [] ⟨info0 d, contents0, []⟩ hpc hg
    ⟨⟨rfl, rfl, rfl, rfl, rfl, rfl⟩, state_nil parseCT .missing, trivial, rfl⟩
  rw [List.nil_append] at h2
  unfold buildSync at h
  rw [h1] at h
  simp only [Res.map] at h
  cases h
  have hf := oneJson_rules parseCT ho hn ((cs.filterMap (requestStart parseCT)).getLast?.getD .missing)
  simp only [← h2.fold] at hf
  obtain ⟨r1, _, r3⟩ := hf
  refine ⟨?_, r3⟩
  show (bodyRules b.request).rules = _
  rw [r1]

theorem response_pattern (parseCT : Str → Option ContentType) {pat : Pattern} (hn : Everywhere NotObjectMatching pat)
    (r : Contents) : HasPattern parseCT pat (syncContents r (responseJson parseCT pat)) := by
  refine ⟨?_, rfl⟩
  show (bodyRules (responseJson parseCT pat)).rules = _
  have e : ((responseJson parseCT pat).rules.getD (emptyCat .body)).rules = (jsonBody pat).2.rules := addPattern_none _
  unfold bodyRules
  rw [addRules_copy _ _ (by rw [e]; exact patternTable_nodup pat), e]

theorem responses_pattern {parseCT : Str → Option ContentType} {d : Str} {cs : List SyncCall}
    (hc : ∀ c ∈ cs, JsonResponses c) {c : Common} {m : MessageContents} {ms : List MessageContents}
    (h : buildSync parseCT d cs = .ok (.sync c m ms)) (hn : ∀ p ∈ responsePatterns cs, Everywhere NotObjectMatching p) :
    Each (fun p r => HasPattern parseCT p r) (responsePatterns cs) ms := by
  obtain ⟨b, h1, h2⟩ := json_responses parseCT cs hc ⟨info0 d, contents0, []⟩
  rw [List.nil_append] at h2
  unfold buildSync at h
  rw [h1] at h
  simp only [Res.map] at h
  cases h
  rw [h2, List.map_map]
  exact each_map _ _ _ (fun p hp => response_pattern parseCT (hn p hp) _)

/-- What is read for contents with a pattern. -/
theorem means_of {E : FileEnv} {pat : Pattern} (hpat : KnownPattern pat) {ct : Option ContentType} {m m' : MessageContents}
    (h : HasPattern E.parseCT pat m) (hs : SameMessage E ct m m') : Means E pat m'.contents m'.rules := by
  refine ⟨?_, fun env config a wa sa => C167_pattern_partial pat hpat _ _ h.1 hs.tables env config a wa sa⟩
  rw [hs.contents, h.2]
  rfl

theorem each_trans {A B C : Type} {R : A → B → Prop} {S : B → C → Prop} {T : A → C → Prop}
    : ∀ {l : List A} {l' : List B} {l'' : List C}, (∀ a ∈ l, ∀ b c, R a b → S b c → T a c) → Each R l l' → Each S l' l'' → Each T l l''
  | [], [], [], _, _, _ => trivial
  | [], [], _ :: _, _, _, h => h.elim
  | [], _ :: _, _, _, h, _ => h.elim
  | _ :: _, [], _, _, h, _ => h.elim
  | _ :: _, _ :: _, [], _, _, h => h.elim
  | a :: as, b :: bs, c :: cs, h, h1, h2 =>
    ⟨h a List.mem_cons_self b c h1.1 h2.1, each_trans (fun x hx => h x (List.mem_cons_of_mem _ hx)) h1.2 h2.2⟩

/-- **C167** (messages): a V4 pact is built, written and read.  For each asynchronous message that was built there is one in the
pact that is read, which accepts exactly the documents that its JSON pattern describes, if it was given one.  For each
synchronous message there is one whose request does likewise, and whose responses are as many as were given and each accepts
what its pattern describes, if all were given as JSON patterns. -/
theorem C167_messages_partial (E : FileEnv) (hE : TypesOk E) (V : Versions) (consumer provider : Str) (cs : List PactCall)
    (hc : ∀ c ∈ cs, PactCallOk E c) (q : AnyPact)
    (hq : PactBuild.build E.P.uc E.parseCT V .v4 consumer provider cs = .ok q) :
    ∃ j p', PactBuild.written E q = .ok j ∧ pactFromJson E j = .ok p' ∧
      (∀ d calls, PactCall.message d calls ∈ cs → ∃ c m, Interaction.async c m ∈ p'.interactions ∧ c.description = d ∧
        ∀ pat, KnownPattern pat → OneJson pat ((since resets calls).filterMap onContents) → Means E pat m.contents m.rules) ∧
      (∀ d calls, PactCall.sync d calls ∈ cs → (∀ c ∈ calls, ProperCall c) → ∃ c m ms,
        Interaction.sync c m ms ∈ p'.interactions ∧ c.description = d ∧
        (∀ pat, KnownPattern pat → OneJson pat ((since resetsRequest calls).filterMap onRequest) → Means E pat m.contents m.rules) ∧
        ((∀ c ∈ calls, JsonResponses c) → (∀ pat ∈ responsePatterns calls, KnownPattern pat) →
          Each (fun pat r => Means E pat r.contents r.rules) (responsePatterns calls) ms)) := by
  obtain ⟨p, j, p', rfl, h1, h2, h3, _⟩ := C166_file_partial E hE V consumer provider cs hc q hq
  have hone : ∀ c ∈ cs, ∃ x ∈ p.interactions, V4From E.P.uc E.parseCT c x := built_each E V consumer provider cs p hq
  obtain ⟨s, ho, heach⟩ := h3.interactions
  refine ⟨j, p', h1, h2, ?_, ?_⟩
  · intro d calls hm
    obtain ⟨x, hx, hf⟩ := hone _ hm
    have hb : buildAsync E.parseCT d calls = .ok x := hf
    obtain ⟨c, m, rfl, hd⟩ : ∃ c m, x = .async c m ∧ c.description = d := by
      have hg : ∀ j, AsyncCall.contentsFrom j ∈ calls → ¬ BadType E.parseCT j := by
        intro j h1 h2
        rw [(C159_message E.parseCT d calls).1 ⟨j, h1, h2⟩] at hb
        cases hb
      obtain ⟨c, m, h4, h5, _⟩ := (C159_message E.parseCT d calls).2 hg
      rw [hb] at h4
      cases h4
      exact ⟨c, m, rfl, (congrArg Common.description h5 : _)⟩
    obtain ⟨i', hi', hsame⟩ := each_mem heach _ (ho.perm.mem_iff.2 hx)
    cases i' with
    | http c r rs => exact hsame.elim
    | sync c r rs => exact hsame.elim
    | async c' m' =>
      obtain ⟨hcom, hsm⟩ := hsame
      exact ⟨c', m', hi', hcom.description.trans hd, fun pat hpat hoj =>
        means_of hpat (async_pattern hpat.noObjectMatching hoj hb) hsm⟩
  · intro d calls hm hpc
    obtain ⟨x, hx, hf⟩ := hone _ hm
    have hb : buildSync E.parseCT d calls = .ok x := hf
    obtain ⟨c, m, ms, rfl, hd⟩ : ∃ c m ms, x = .sync c m ms ∧ c.description = d := by
      have hg : ∀ j, SyncCall.contentsFrom j ∈ calls → ¬ BadType E.parseCT j := by
        intro j h1 h2
        rw [(C160_message_partial E.parseCT d calls hpc).1 ⟨j, h1, h2⟩] at hb
        cases hb
      obtain ⟨c, m, ms, h4, h5, _⟩ := (C160_message_partial E.parseCT d calls hpc).2 hg
      rw [hb] at h4
      cases h4
      exact ⟨c, m, ms, rfl, (congrArg Common.description h5 : _)⟩
    obtain ⟨i', hi', hsame⟩ := each_mem heach _ (ho.perm.mem_iff.2 hx)
    cases i' with
    | http c r rs => exact hsame.elim
    | async c r => exact hsame.elim
    | sync c' m' ms' =>
      obtain ⟨hcom, hsm, hrs⟩ := hsame
      refine ⟨c', m', ms', hi', hcom.description.trans hd, fun pat hpat hoj =>
        means_of hpat (request_pattern hpat.noObjectMatching hpc hoj hb) hsm, fun hj hps => ?_⟩
      exact each_trans (S := fun r r' => SameMessage E (messageCT E r) r r') (fun pat hpat r r' h4 h5 => means_of (hps pat hpat) h4 h5)
        (responses_pattern hj hb (fun pat hpat => (hps pat hpat).noObjectMatching)) hrs

/-! ### Examples -/

/-- A message with a pattern, and a synchronous message with patterns for the request and two responses. -/
def exMessages : List PactCall := [
  .message "a".toList [.info (.given "s".toList), .metadata "k".toList (.bool true), .jsonBody exPattern],
  .sync "b".toList [.request (.jsonBody exPattern), .responseJson (.like (.json (.str "y".toList))), .responseJson exPattern]]

theorem exPattern_written : BuilderFileProps.PatternOk PactFileProps.exE.P.uc exPattern := by
  show BuilderFileProps.PatternOk _ (.obj [("a b".toList, .eachLike (.like (.json (.num (.pos 1)))) 2),
    ("n".toList, .arr [.json .null, .term "x+".toList "xx".toList])])
  unfold BuilderFileProps.PatternOk
  simp only [Everywhere, PatternProps.EverywhereFields, PatternProps.EverywhereField, PatternProps.EverywhereItems, and_true, true_and]
  refine ⟨?_, by decide⟩
  intro f hf
  simp only [List.mem_cons, List.not_mem_nil, or_false] at hf
  rcases hf with rfl | rfl <;> (unfold PathProps.PlainKey; decide)

/-- **C167** (example): calls that meet the hypotheses, and the types of the contents that are read. -/
theorem C167_example_messages : (∀ c ∈ exMessages, PactCallOk PactFileProps.exE c) ∧
    (∃ q, PactBuild.build PactFileProps.exE.P.uc PactFileProps.exE.parseCT exV .v4 "C".toList "P".toList exMessages = .ok q) ∧
    KnownPattern (.like (.json (.str "y".toList))) ∧
    (∃ calls, PactCall.message "a".toList calls ∈ exMessages ∧ OneJson exPattern ((since resets calls).filterMap onContents)) ∧
    ∃ calls, PactCall.sync "b".toList calls ∈ exMessages ∧ (∀ c ∈ calls, ProperCall c) ∧ (∀ c ∈ calls, JsonResponses c) ∧
      OneJson exPattern ((since resetsRequest calls).filterMap onRequest) ∧
      responsePatterns calls = [.like (.json (.str "y".toList)), exPattern] := by
  refine ⟨?_, ⟨_, rfl⟩, ⟨?_, ?_, ?_, ?_, ?_⟩, ⟨_, List.mem_cons_self, [.metadata "k".toList (.bool true)], [], rfl, ?_⟩,
    ⟨_, List.mem_cons_of_mem _ List.mem_cons_self, ?_, ?_, ⟨[], [], rfl, ?_⟩, rfl⟩⟩
  · intro c hc
    simp only [exMessages, List.mem_cons, List.not_mem_nil, or_false] at hc
    rcases hc with rfl | rfl
    · intro c hc
      simp only [List.mem_cons, List.not_mem_nil, or_false] at hc
      rcases hc with rfl | rfl | rfl
      · exact trivial
      · exact trivial
      · exact exPattern_written
    · intro c hc
      simp only [List.mem_cons, List.not_mem_nil, or_false] at hc
      rcases hc with rfl | rfl | rfl
      · exact exPattern_written
      · show BuilderFileProps.PatternOk _ (.like (.json (.str "y".toList)))
        unfold BuilderFileProps.PatternOk
        simp only [Everywhere, and_true]
      · exact exPattern_written
  · simp [Everywhere, NotObjectMatching]
  · simp [Everywhere, PatternProps.KeysOk]
  · simp [Everywhere, PatternProps.LiteralWF, Json.WF]
  · simp [Everywhere, PatternProps.Unambiguous]
  · unfold RuleProps.ShortPaths; decide +kernel
  · intro c hc
    rw [List.append_nil] at hc
    rw [List.mem_singleton.1 hc]
    exact ⟨_, _, rfl⟩
  · intro c hc
    simp only [List.mem_cons, List.not_mem_nil, or_false] at hc
    rcases hc with rfl | rfl | rfl <;> trivial
  · intro c hc
    simp only [List.mem_cons, List.not_mem_nil, or_false] at hc
    rcases hc with rfl | rfl | rfl <;> trivial
  · intro c hc; cases hc

end ReadMessageProps
end Verif
