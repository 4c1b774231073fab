import Verif.PactBuilder
import Verif.Props.BuilderProps
import Verif.Props.MessageBuilderProps
import Verif.Props.PactConvertProps
import Verif.Props.ApplyGenBodyProps

/-
  C162, C163: what a pact built with `PactBuilder` has, and what its message iterators give.
-/

set_option autoImplicit false

namespace Verif
namespace PactBuilderProps
open RuleJson Rules Query Headers PactFile PactV3 PactBuild
open Provider (Libs)
open BuilderProps (requestCalls responseCalls)
open MessageBuilderProps (BadType FieldsAre ContentsAre infosIn startsIn since resets onContents)
open ApplyGen (GLib Draws)

/-! ### Specification -/

/-- An interaction with a request and a response. -/
def IsHttp : AnyInteraction → Prop
  | .http _ => True
  | .message _ => False
  | .v4 (.http _ _ _) => True
  | .v4 _ => False

/-- A message that is not answered. -/
def IsMessage : AnyInteraction → Prop
  | .http _ => False
  | .message _ => True
  | .v4 (.async _ _) => True
  | .v4 _ => False

/-- No value given with `contents_from` has a content type that can not be read. -/
def GoodMessage (parseCT : Str → Option ContentType) (cs : List MessageBuilders.AsyncCall) : Prop :=
  ∀ j, MessageBuilders.AsyncCall.contentsFrom j ∈ cs → ¬ BadType parseCT j

/-- The same for synchronous messages. -/
def GoodSync (parseCT : Str → Option ContentType) (cs : List MessageBuilders.SyncCall) : Prop :=
  ∀ j, MessageBuilders.SyncCall.contentsFrom j ∈ cs → ¬ BadType parseCT j

/-- The calls a pact accepts: a V3 pact only HTTP interactions, a V3 message pact only messages, a V4 pact everything. -/
def Accepts (parseCT : Str → Option ContentType) : PactKind → PactCall → Prop
  | .http, .interaction _ _ => True
  | .http, .message _ _ => False
  | .http, .sync _ _ => False
  | .http, .push i => IsHttp i
  | .message, .interaction _ _ => False
  | .message, .message _ cs => GoodMessage parseCT cs
  | .message, .sync _ _ => False
  | .message, .push i => IsMessage i
  | .v4, .interaction _ _ => True
  | .v4, .message _ cs => GoodMessage parseCT cs
  | .v4, .sync _ cs => GoodSync parseCT cs
  | .v4, .push _ => True

/-- The V3 interaction a call adds: description, provider states, request and response are those of the calls; key, comments,
pending flag, test name and transport are not part of it. -/
def HttpFrom (uc : UC) (parseCT : Str → Option ContentType) : PactCall → HttpInteraction → Prop
  | .interaction d cs, x => x = ⟨none, d, BuilderProps.statesIn cs, Builders.buildRequest uc parseCT (requestCalls cs),
      Builders.buildResponse uc parseCT (responseCalls cs)⟩
  | .push (.http i), x => x = i
  | .push (.v4 (.http c req resp)), x => x = ⟨c.id, c.description, c.states, req, resp⟩
  | _, _ => False

/-- The metadata of a V3 message: with the content type of the contents, unless `contentType` is given. -/
def TypedMetadata (body : FBody) (m m' : Obj) : Prop :=
  ∀ k, Json.lookup k m' = (Json.lookup k m).or
    (if k = "contentType".toList then (match body with | .present _ (some ct) _ => some (.str ct.display) | _ => none) else none)

/-- A V3 message with the description, states, contents, rules and generators of a V4 message, and its metadata with the
content type. -/
def MessageIs (id : Option Str) (d : Str) (states : List PState) (m : MessageContents) (x : Message) : Prop :=
  x.id = id ∧ x.description = d ∧ x.states = states ∧ x.contents = m.contents ∧ TypedMetadata m.contents m.metadata x.metadata ∧
  x.gens = m.gens

/-- The V3 message a call adds. -/
def MessageFrom (parseCT : Str → Option ContentType) : PactCall → Message → Prop
  | .message d cs, x => ∃ c m, FieldsAre d (infosIn cs) c ∧
      ContentsAre parseCT ((startsIn parseCT cs).getLast?.getD .missing) ((since resets cs).filterMap onContents) m ∧
      MessageIs none d (MessageBuilderProps.statesIn (infosIn cs)) m x ∧ x.rules = m.rules
  | .push (.message m), x => x = m
  | .push (.v4 (.async c m)), x => MessageIs c.id c.description c.states m x ∧
      ((∀ e ∈ m.rules, e.2.name = e.1) → x.rules = m.rules)
  | _, _ => False

/-- The V4 interaction a call adds: what the builder of the interaction builds (C157, C159, C160), or the interaction given;
a V3 interaction keeps its description, states and parts. -/
def V4From (uc : UC) (parseCT : Str → Option ContentType) : PactCall → Interaction → Prop
  | .interaction d cs, x => x = Builders.build uc parseCT d cs
  | .message d cs, x => MessageBuilders.buildAsync parseCT d cs = .ok x
  | .sync d cs, x => MessageBuilders.buildSync parseCT d cs = .ok x
  | .push (.v4 i), x => x = i
  | .push (.http i), x => ∃ c, x = .http c i.request i.response ∧ c.id = i.id ∧ c.description = i.description ∧
      c.states = i.states ∧ c.key = none ∧ c.pending = false ∧ c.comments = [] ∧ c.transport = none
  | .push (.message m), x => ∃ c rules, x = .async c ⟨m.contents, m.metadata, rules, m.gens⟩ ∧ c.id = m.id ∧
      c.description = m.description ∧ c.states = m.states ∧ c.key = none ∧ c.pending = false ∧ c.comments = [] ∧
      c.transport = none ∧ ((∀ e ∈ m.rules, e.2.name = e.1) → rules = m.rules)

/-- The list has one item for each call, in the order of the calls. -/
def OneEach {A : Type} (f : PactCall → A → Prop) (cs : List PactCall) (xs : List A) : Prop :=
  xs.length = cs.length ∧ ∀ (i : Nat) (c : PactCall), cs[i]? = some c → ∃ x, xs[i]? = some x ∧ f c x

/-- The built pact: of the kind and names asked for, with one interaction for each call. -/
def PactIs (uc : UC) (parseCT : Str → Option ContentType) (k : PactKind) (consumer provider : Str) (cs : List PactCall) :
    AnyPact → Prop
  | .http p => k = .http ∧ p.consumer = consumer ∧ p.provider = provider ∧ p.spec = .v3 ∧
      OneEach (HttpFrom uc parseCT) cs p.interactions
  | .message p => k = .message ∧ p.consumer = consumer ∧ p.provider = provider ∧ p.spec = .v3 ∧
      OneEach (MessageFrom parseCT) cs p.messages
  | .v4 p => k = .v4 ∧ p.consumer = consumer ∧ p.provider = provider ∧ p.plugins = [] ∧
      OneEach (V4From uc parseCT) cs p.interactions

/-! ### Lemmas -/

theorem oneEach_nil {A : Type} (f : PactCall → A → Prop) : OneEach f [] [] := ⟨rfl, by intro i c h; simp at h⟩

theorem oneEach_snoc {A : Type} {f : PactCall → A → Prop} {cs : List PactCall} {xs : List A} {c : PactCall} {x : A}
    (h : OneEach f cs xs) (hc : f c x) : OneEach f (cs ++ [c]) (xs ++ [x]) := by
  obtain ⟨h1, h2⟩ := h
  refine ⟨by simp [h1], ?_⟩
  intro i c' hi
  by_cases hl : i < cs.length
  · rw [List.getElem?_append_left hl] at hi
    rw [List.getElem?_append_left (by omega)]
    exact h2 i c' hi
  · rw [List.getElem?_append_right (by omega)] at hi
    rw [List.getElem?_append_right (by omega), h1]
    cases hn : i - cs.length with
    | zero => rw [hn] at hi; simp at hi; subst hi; exact ⟨x, rfl, hc⟩
    | succ n => rw [hn] at hi; simp at hi

theorem buildV3_eq (uc : UC) (parseCT : Str → Option ContentType) (d : Str) (cs : List Builders.Call) :
    PactBuild.buildV3 uc parseCT d cs = ⟨none, d, BuilderProps.statesIn cs, Builders.buildRequest uc parseCT (requestCalls cs),
      Builders.buildResponse uc parseCT (responseCalls cs)⟩ := by
  obtain ⟨h0, h1, h2, h3, h4, h5, h6, h7, h8⟩ := BuilderProps.builder_is uc parseCT d cs
  unfold PactBuild.buildV3
  simp only [h0, h1, h2, h3, h4, h5, h6, h7, h8]

theorem lookup_append {V : Type} (k : Str) : ∀ l m : List (Str × V), Json.lookup k (l ++ m) = (Json.lookup k l).or (Json.lookup k m)
  | [], m => by simp [Json.lookup]
  | e :: l, m => by
    simp only [List.cons_append, Json.lookup]
    by_cases h : e.1 = k
    · rw [if_pos h, if_pos h]; rfl
    · rw [if_neg h, if_neg h]; exact lookup_append k l m

/-- The content type of the contents as JSON. -/
def typeJson (body : FBody) : Option Json := match body with | .present _ (some ct) _ => some (.str ct.display) | _ => none

theorem typed_key (key k : Str) (o : Option Json) (m : Obj) :
    Json.lookup k (match o, Json.lookup key m with | some ct, none => m ++ [(key, ct)] | _, _ => m) =
      (Json.lookup k m).or (if k = key then o else none) := by
  cases o with
  | none => rw [ite_self, Option.or_none]
  | some ct =>
    cases hl : Json.lookup key m with
    | some v =>
      simp only
      by_cases hk : k = key
      · subst hk; rw [hl]; rfl
      · rw [if_neg hk, Option.or_none]
    | none =>
      simp only
      rw [lookup_append]
      by_cases hk : k = key
      · rw [if_pos hk, hk, hl]; simp [Json.lookup]
      · rw [if_neg hk, Json.lookup, if_neg (fun e => hk e.symm)]; rfl

theorem withBodyCT_eq (body : FBody) (m : Obj) : withBodyCT body m =
    match typeJson body, Json.lookup "contentType".toList m with
      | some ct, none => m ++ [("contentType".toList, ct)] | _, _ => m := by
  unfold withBodyCT
  show (match bodyCT body, Json.lookup "contentType".toList m with
    | some ct, none => m ++ [("contentType".toList, Json.str ct.display)] | _, _ => m) = _
  generalize "contentType".toList = key
  cases body with
  | present b ct h => cases ct with
    | none => rfl
    | some ct => cases Json.lookup key m <;> rfl
  | _ => rfl

theorem typed (body : FBody) (m : Obj) : TypedMetadata body m (withBodyCT body m) := by
  intro k
  rw [withBodyCT_eq]
  exact typed_key _ k (typeJson body) m

theorem rename_same (uc : UC) (m : MatchingRules) (h : ∀ e ∈ m, e.2.name = e.1) :
    renameRules (catParse uc "content".toList) (catParse uc "body".toList) m = m ∧
    renameRules (catParse uc "body".toList) (catParse uc "content".toList) m = m := by
  rw [PactConvertProps.content_body, PactConvertProps.body_body]
  have hn : PactConvertProps.Named m := h
  exact ⟨PactConvertProps.renameRules_same _ _ hn, PactConvertProps.renameRules_same _ _ hn⟩

theorem asMessage_is (uc : UC) (c : Common) (m : MessageContents) :
    ∃ x, asMessage uc (.async c m) = some x ∧ MessageIs c.id c.description c.states m x ∧
      ((∀ e ∈ m.rules, e.2.name = e.1) → x.rules = m.rules) :=
  ⟨_, rfl, ⟨rfl, rfl, rfl, rfl, typed _ _, rfl⟩, fun h => (rename_same uc m.rules h).1⟩

theorem async_named {parseCT : Str → Option ContentType} {d : Str} {cs : List MessageBuilders.AsyncCall} {c : Common}
    {m : MessageContents} (h : MessageBuilders.buildAsync parseCT d cs = .ok (.async c m)) : ∀ e ∈ m.rules, e.2.name = e.1 := by
  unfold MessageBuilders.buildAsync at h
  obtain ⟨b, -, h2⟩ := Res.map_eq_ok.1 h
  cases h2
  intro e he
  rw [show (MessageBuilders.asyncContents b.contents).rules = [(.body, MessageBuilders.bodyRules b.contents)] from rfl] at he
  rw [List.mem_singleton] at he
  subst he
  unfold MessageBuilders.bodyRules
  rfl

/-! ### C162 -/

theorem push_ok {uc : UC} {i : AnyInteraction} {p p' : AnyPact} (h : addInteraction uc i p = .ok p') : push uc i p = .ok p' := by
  unfold push; rw [h]

theorem push_err {uc : UC} {i : AnyInteraction} {p : AnyPact} (h : addInteraction uc i p = .err) : push uc i p = .panic := by
  unfold push; rw [h]

theorem sync_builds {parseCT : Str → Option ContentType} (d : Str) (cs : List MessageBuilders.SyncCall)
    (h : GoodSync parseCT cs) : ∃ c m ms, MessageBuilders.buildSync parseCT d cs = .ok (.sync c m ms) := by
  have key : ∀ (cs : List MessageBuilders.SyncCall) (b : MessageBuilders.SyncBuilder), GoodSync parseCT cs →
      ∃ b', MessageBuilders.syncRun parseCT cs b = .ok b' := by
    intro cs
    induction cs with
    | nil => intro b _; exact ⟨b, rfl⟩
    | cons c cs ih =>
      intro b h
      have h1 : ∃ b', MessageBuilders.syncStep parseCT c b = .ok b' := by
        cases c with
        | contentsFrom j =>
          have hb := h j List.mem_cons_self
          unfold MessageBuilders.syncStep MessageBuilders.syncContentsFrom
          simp only [(MessageBuilderProps.givenType_good hb).1, Res.map]
          exact ⟨_, rfl⟩
        | _ => exact ⟨_, rfl⟩
      obtain ⟨b', h1⟩ := h1
      obtain ⟨b2, h2⟩ := ih b' (fun j hj => h j (List.mem_cons_of_mem _ hj))
      exact ⟨b2, by rw [MessageBuilders.syncRun, h1]; exact h2⟩
  obtain ⟨b, hb⟩ := key cs _ h
  unfold MessageBuilders.buildSync
  rw [hb]
  exact ⟨_, _, _, rfl⟩

/-- A call that is accepted. -/
theorem step_accepts {uc : UC} {parseCT : Str → Option ContentType} {k : PactKind} {co pr : Str} {cs : List PactCall}
    {p : AnyPact} (c : PactCall) (h : PactIs uc parseCT k co pr cs p) (hc : Accepts parseCT k c) :
    ∃ p', step uc parseCT c p = .ok p' ∧ PactIs uc parseCT k co pr (cs ++ [c]) p' := by
  cases p with
  | http p =>
    obtain ⟨rfl, h1, h2, h3, h4⟩ := h
    have go : ∀ x, step uc parseCT c (.http p) = .ok (.http { p with interactions := p.interactions ++ [x] }) →
        HttpFrom uc parseCT c x → ∃ p', step uc parseCT c (.http p) = .ok p' ∧ PactIs uc parseCT .http co pr (cs ++ [c]) p' :=
      fun x hx hf => ⟨_, hx, rfl, h1, h2, h3, oneEach_snoc h4 hf⟩
    cases c with
    | interaction d l => exact go _ rfl (buildV3_eq uc parseCT d l)
    | message d l => exact hc.elim
    | sync d l => exact hc.elim
    | push i =>
      cases i with
      | http i => exact go _ rfl rfl
      | message m => exact hc.elim
      | v4 i =>
        cases i with
        | http c a b => exact go _ rfl rfl
        | async c m => exact hc.elim
        | sync c a b => exact hc.elim
  | message p =>
    obtain ⟨rfl, h1, h2, h3, h4⟩ := h
    have go : ∀ x, step uc parseCT c (.message p) = .ok (.message { p with messages := p.messages ++ [x] }) →
        MessageFrom parseCT c x → ∃ p', step uc parseCT c (.message p) = .ok p' ∧
          PactIs uc parseCT .message co pr (cs ++ [c]) p' :=
      fun x hx hf => ⟨_, hx, rfl, h1, h2, h3, oneEach_snoc h4 hf⟩
    cases c with
    | interaction d l => exact hc.elim
    | message d l =>
      obtain ⟨c, m, h5, h6, h7⟩ := (MessageBuilderProps.C159_message parseCT d l).2 hc
      obtain ⟨x, h8, h9, h10⟩ := asMessage_is uc c m
      have ha : addInteraction uc (.v4 (.async c m)) (.message p) = .ok (.message { p with messages := p.messages ++ [x] }) := by
        rw [addInteraction, show asAnyMessage uc (.v4 (.async c m)) = some x from h8]
      refine go x (by rw [step, h5]; exact push_ok ha) ⟨c, m, h6, h7, ?_, h10 (async_named h5)⟩
      rw [FieldsAre] at h6
      subst h6
      exact h9
    | sync d l => exact hc.elim
    | push i =>
      cases i with
      | http i => exact hc.elim
      | message m => exact go _ rfl rfl
      | v4 i =>
        cases i with
        | http c a b => exact hc.elim
        | async c m =>
          obtain ⟨x, h8, h9⟩ := asMessage_is uc c m
          have ha : addInteraction uc (.v4 (.async c m)) (.message p) = .ok (.message { p with messages := p.messages ++ [x] }) := by
            rw [addInteraction, show asAnyMessage uc (.v4 (.async c m)) = some x from h8]
          exact go x (push_ok ha) h9
        | sync c a b => exact hc.elim
  | v4 p =>
    obtain ⟨rfl, h1, h2, h3, h4⟩ := h
    have go : ∀ x, step uc parseCT c (.v4 p) = .ok (.v4 { p with interactions := p.interactions ++ [x] }) →
        V4From uc parseCT c x → ∃ p', step uc parseCT c (.v4 p) = .ok p' ∧ PactIs uc parseCT .v4 co pr (cs ++ [c]) p' :=
      fun x hx hf => ⟨_, hx, rfl, h1, h2, h3, oneEach_snoc h4 hf⟩
    cases c with
    | interaction d l => exact go _ rfl rfl
    | message d l =>
      obtain ⟨c, m, h5, -⟩ := (MessageBuilderProps.C159_message parseCT d l).2 hc
      exact go (.async c m) (by rw [step, h5]; rfl) h5
    | sync d l =>
      obtain ⟨c, m, ms, h5⟩ := sync_builds d l hc
      exact go (.sync c m ms) (by rw [step, h5]; rfl) h5
    | push i =>
      cases i with
      | http i => exact go (httpAsV4 i) rfl ⟨_, rfl, rfl, rfl, rfl, rfl, rfl, rfl, rfl⟩
      | message m =>
        exact go (messageAsV4 uc m) rfl ⟨_, _, rfl, rfl, rfl, rfl, rfl, rfl, rfl, rfl, fun h => (rename_same uc m.rules h).2⟩
      | v4 i => exact go i rfl rfl

/-- A call that is not accepted. -/
theorem step_rejects {uc : UC} {parseCT : Str → Option ContentType} {k : PactKind} {co pr : Str} {cs : List PactCall}
    {p : AnyPact} (c : PactCall) (h : PactIs uc parseCT k co pr cs p) (hc : ¬ Accepts parseCT k c) :
    step uc parseCT c p = .panic := by
  have hmsg : ∀ (d : Str) (l : List MessageBuilders.AsyncCall), c = .message d l → ¬ GoodMessage parseCT l →
      step uc parseCT c p = .panic := by
    intro d l e hg
    subst e
    have : ∃ j, MessageBuilders.AsyncCall.contentsFrom j ∈ l ∧ BadType parseCT j :=
      Classical.byContradiction fun hn => hg fun j hj hb => hn ⟨j, hj, hb⟩
    rw [step, (MessageBuilderProps.C159_message parseCT d l).1 this]
    rfl
  have hsync : ∀ (d : Str) (l : List MessageBuilders.SyncCall), c = .sync d l → ¬ GoodSync parseCT l →
      step uc parseCT c p = .panic := by
    intro d l e hg
    subst e
    have : ∃ j, MessageBuilders.SyncCall.contentsFrom j ∈ l ∧ BadType parseCT j :=
      Classical.byContradiction fun hn => hg fun j hj hb => hn ⟨j, hj, hb⟩
    rw [step, MessageBuilders.buildSync, MessageBuilderProps.sync_panic parseCT l _ this]
    rfl
  cases p with
  | http p =>
    obtain ⟨rfl, -⟩ := h
    cases c with
    | interaction d l => exact absurd trivial hc
    | message d l =>
      by_cases hg : GoodMessage parseCT l
      · obtain ⟨c, m, h5, -⟩ := (MessageBuilderProps.C159_message parseCT d l).2 hg
        rw [step, h5]; rfl
      · exact hmsg d l rfl hg
    | sync d l =>
      by_cases hg : GoodSync parseCT l
      · obtain ⟨c, m, ms, h5⟩ := sync_builds d l hg
        rw [step, h5]; rfl
      · exact hsync d l rfl hg
    | push i =>
      cases i with
      | http i => exact absurd trivial hc
      | message m => rfl
      | v4 i =>
        cases i with
        | http c a b => exact absurd trivial hc
        | async c m => rfl
        | sync c a b => rfl
  | message p =>
    obtain ⟨rfl, -⟩ := h
    cases c with
    | interaction d l => rfl
    | message d l => exact hmsg d l rfl hc
    | sync d l =>
      by_cases hg : GoodSync parseCT l
      · obtain ⟨c, m, ms, h5⟩ := sync_builds d l hg
        rw [step, h5]; rfl
      · exact hsync d l rfl hg
    | push i =>
      cases i with
      | http i => rfl
      | message m => exact absurd trivial hc
      | v4 i =>
        cases i with
        | http c a b => rfl
        | async c m => exact absurd trivial hc
        | sync c a b => rfl
  | v4 p =>
    obtain ⟨rfl, -⟩ := h
    cases c with
    | interaction d l => exact absurd trivial hc
    | message d l => exact hmsg d l rfl hc
    | sync d l => exact hsync d l rfl hc
    | push i => exact absurd trivial hc

theorem run_is {uc : UC} {parseCT : Str → Option ContentType} {k : PactKind} {co pr : Str} (ds : List PactCall) :
    ∀ {cs : List PactCall} {p : AnyPact}, PactIs uc parseCT k co pr cs p →
    ((∃ c ∈ ds, ¬ Accepts parseCT k c) → PactBuild.run uc parseCT ds p = .panic) ∧
    ((∀ c ∈ ds, Accepts parseCT k c) → ∃ p', PactBuild.run uc parseCT ds p = .ok p' ∧ PactIs uc parseCT k co pr (cs ++ ds) p') := by
  induction ds with
  | nil =>
    intro cs p h
    exact ⟨(fun ⟨_, hc, _⟩ => by cases hc), fun _ => ⟨p, rfl, by rw [List.append_nil]; exact h⟩⟩
  | cons c ds ih =>
    intro cs p h
    by_cases hc : Accepts parseCT k c
    · obtain ⟨p', h1, h2⟩ := step_accepts c h hc
      rw [PactBuild.run, h1]
      refine ⟨?_, ?_⟩
      · rintro ⟨x, hx, hn⟩
        rcases List.mem_cons.1 hx with rfl | hx
        · exact absurd hc hn
        · exact (ih h2).1 ⟨x, hx, hn⟩
      · intro ha
        obtain ⟨p2, h3, h4⟩ := (ih h2).2 (fun x hx => ha x (List.mem_cons_of_mem _ hx))
        exact ⟨p2, h3, by rw [List.append_assoc] at h4; exact h4⟩
    · refine ⟨fun _ => ?_, fun ha => absurd (ha c List.mem_cons_self) hc⟩
      rw [PactBuild.run, step_rejects c h hc]
      rfl

theorem new_is (uc : UC) (parseCT : Str → Option ContentType) (V : Versions) (k : PactKind) (co pr : Str) :
    PactIs uc parseCT k co pr [] (PactBuild.new V k co pr) := by
  cases k <;> exact ⟨rfl, rfl, rfl, rfl, oneEach_nil _⟩

/-- **C162** For every kind of pact, every consumer and provider and every sequence of calls on the pact builder: building aborts
exactly if a call adds an interaction of a type the pact can not have, or a message with an unreadable content type; otherwise
the pact has the consumer, the provider and the specification version asked for, and exactly one interaction for each call, in
the order of the calls, with everything that was asked for that this kind of pact can have. -/
theorem C162_pact (uc : UC) (parseCT : Str → Option ContentType) (V : Versions) (k : PactKind) (consumer provider : Str)
    (cs : List PactCall) :
    ((∃ c ∈ cs, ¬ Accepts parseCT k c) → PactBuild.build uc parseCT V k consumer provider cs = .panic) ∧
    ((∀ c ∈ cs, Accepts parseCT k c) → ∃ p, PactBuild.build uc parseCT V k consumer provider cs = .ok p ∧
      PactIs uc parseCT k consumer provider cs p) := by
  have h := run_is (uc := uc) cs (new_is uc parseCT V k consumer provider)
  rw [List.nil_append] at h
  exact h

/-- The metadata do not depend on the calls: those of the kind of pact, with the version of the library. -/
def metadataOf : AnyPact → Obj
  | .http p => metadataAsV4 p.metadata
  | .message p => metadataAsV4 p.metadata
  | .v4 p => p.metadata

theorem push_metadata {uc : UC} {i : AnyInteraction} {p p' : AnyPact} (h : push uc i p = .ok p') : metadataOf p' = metadataOf p := by
  unfold push at h
  cases ha : addInteraction uc i p with
  | ok q =>
    rw [ha] at h
    cases h
    cases p with
    | http p =>
      simp only [addInteraction] at ha
      cases hi : asRequestResponse i <;> rw [hi] at ha <;> cases ha
      rfl
    | message p =>
      simp only [addInteraction] at ha
      cases hi : asAnyMessage uc i <;> rw [hi] at ha <;> cases ha
      rfl
    | v4 p =>
      simp only [addInteraction] at ha
      cases hi : PactBuild.asV4 uc i <;> rw [hi] at ha <;> cases ha
      rfl
  | err => rw [ha] at h; cases h
  | panic => rw [ha] at h; cases h

theorem step_metadata {uc : UC} {parseCT : Str → Option ContentType} {c : PactCall} {p p' : AnyPact}
    (h : step uc parseCT c p = .ok p') : metadataOf p' = metadataOf p := by
  cases c with
  | interaction d l =>
    rw [step] at h
    split at h <;> exact push_metadata h
  | message d l =>
    rw [step] at h
    obtain ⟨x, -, h2⟩ := ApplyGenProps.bind_eq_ok h
    exact push_metadata h2
  | sync d l =>
    rw [step] at h
    obtain ⟨x, -, h2⟩ := ApplyGenProps.bind_eq_ok h
    exact push_metadata h2
  | push i => exact push_metadata h

/-- **C162** (the metadata): a pact records the versions of the libraries and, before V4, its specification version; a V4 pact
gets it when it is written. -/
theorem C162_metadata (uc : UC) (parseCT : Str → Option ContentType) (V : Versions) (k : PactKind) (consumer provider : Str)
    (cs : List PactCall) (p : AnyPact) (h : PactBuild.build uc parseCT V k consumer provider cs = .ok p) :
    metadataOf p = metadataOf (PactBuild.new V k consumer provider) := by
  unfold PactBuild.build at h
  generalize PactBuild.new V k consumer provider = q at h
  induction cs generalizing q with
  | nil => cases h; rfl
  | cons c cs ih =>
    rw [PactBuild.run] at h
    obtain ⟨x, h1, h2⟩ := ApplyGenProps.bind_eq_ok h
    rw [ih x h2, step_metadata h1]

/-- **C162** (which metadata). -/
theorem C162_metadata_values (V : Versions) (consumer provider : Str) (m v : Str) (hm : V.models = some m)
    (hv : V.consumer = some v) :
    metadataOf (PactBuild.new V .http consumer provider) =
      [("pactRust".toList, .obj [("consumer".toList, .str v), ("models".toList, .str m)]),
       ("pactSpecification".toList, .obj [("version".toList, .str "3.0.0".toList)])] ∧
    metadataOf (PactBuild.new V .message consumer provider) =
      [("pact-rust".toList, .obj [("version".toList, .str m)]),
       ("pact-specification".toList, .obj [("version".toList, .str "3.0.0".toList)]),
       ("pactRust".toList, .obj [("consumer".toList, .str v)])] ∧
    metadataOf (PactBuild.new V .v4 consumer provider) = [("pactRust".toList, .obj [("consumer".toList, .str v)])] := by
  obtain ⟨a, b⟩ := V
  cases hm; cases hv
  exact ⟨rfl, rfl, rfl⟩

/-! ## The messages -/

/-! ### Specification -/

/-- The results of calling `next` again and again. -/
def results {M : Type} : Iter M → Nat → Option M
  | it, 0 => it.next.1
  | it, n + 1 => results it.next.2 n

/-- The iterator after calling `next` some times. -/
def remaining {M : Type} : Iter M → Nat → Iter M
  | it, 0 => it
  | it, n + 1 => remaining it.next.2 n

/-- The iterator gives exactly these messages, in order, then nothing, and will write this pact whenever it is dropped. -/
def Yields {M : Type} (it : Iter M) (ms : List M) (pact : AnyPact) : Prop :=
  (∀ n, results it n = ms[n]?) ∧ ∀ n, (remaining it n).pact = pact

/-- An asynchronous message. -/
def asAsync : Interaction → Option (Common × MessageContents)
  | .async c m => some (c, m)
  | _ => none

/-- A synchronous message. -/
def asSync : Interaction → Option (Common × MessageContents × List MessageContents)
  | .sync c m ms => some (c, m, ms)
  | _ => none

/-- Contents as they are generated for a consumer. -/
def Generated (B : Libs) (G : GLib) (m m' : MessageContents) : Prop :=
  ∃ D, ApplyGen.generateContents B G D .consumer [] ApplyGen.noVariant m = .ok m'

/-- Two lists agree item by item. -/
def Pairwise2 {A A' : Type} (f : A → A' → Prop) (l : List A) (l' : List A') : Prop :=
  l'.length = l.length ∧ ∀ (i : Nat) (a : A), l[i]? = some a → ∃ a', l'[i]? = some a' ∧ f a a'

/-- No generators: none given, and none in a variant of a rule for arrays. -/
def NoGens (rules : MatchingRules) (gens : Generate.Generators) : Prop :=
  gens = [] ∧ ∀ e ∈ rules, ∀ x ∈ e.2.rules, ∀ r ∈ x.2.rules, ¬ ApplyGenProps.BringsGens r

/-! ### Lemmas -/

theorem results_eq {M : Type} (n : Nat) : ∀ it : Iter M, results it n = it.messages[n]? := by
  induction n with
  | zero => rintro ⟨p, ms⟩; cases ms <;> rfl
  | succ n ih =>
    rintro ⟨p, ms⟩
    rw [results, ih]
    cases ms <;> simp [Iter.next]

theorem remaining_pact {M : Type} (n : Nat) : ∀ it : Iter M, (remaining it n).pact = it.pact := by
  induction n with
  | zero => intro it; rfl
  | succ n ih =>
    rintro ⟨p, ms⟩
    rw [remaining, ih]
    cases ms <;> rfl

theorem yields {M : Type} (it : Iter M) : Yields it it.messages it.pact :=
  ⟨fun n => results_eq n it, fun n => remaining_pact n it⟩

theorem each_ok {A : Type} (f : Nat → A → Res A) (l : List A) : ∀ (k : Nat) (l' : List A), generateEach f k l = .ok l' →
    Pairwise2 (fun a a' => ∃ i, f i a = .ok a') l l' := by
  induction l with
  | nil =>
    intro k l' h
    simp only [generateEach, Res.ok.injEq] at h
    subst h
    exact ⟨rfl, by simp⟩
  | cons a l ih =>
    intro k l' h
    rw [generateEach] at h
    obtain ⟨a', h1, h2⟩ := ApplyGenProps.bind_eq_ok h
    obtain ⟨l2, h3, rfl⟩ := Res.map_eq_ok.1 h2
    obtain ⟨h4, h5⟩ := ih (k + 1) l2 h3
    refine ⟨by simp [h4], ?_⟩
    intro i x hi
    cases i with
    | zero => simp at hi; subst hi; exact ⟨a', rfl, k, h1⟩
    | succ i => simp at hi; simpa using h5 i x hi

theorem each_id {A : Type} (f : Nat → A → Res A) (l : List A) (h : ∀ i, ∀ a ∈ l, f i a = .ok a) : ∀ k : Nat,
    generateEach f k l = .ok l := by
  induction l with
  | nil => intro k; rfl
  | cons a l ih =>
    intro k
    rw [generateEach, h k a List.mem_cons_self, Res.bind_ok, ih (fun i a ha => h i a (List.mem_cons_of_mem _ ha))]
    rfl

theorem buildGens_nil {rules : MatchingRules} {gens : Generate.Generators} (h : NoGens rules gens) (c : Generate.GenCategory) :
    ApplyGen.buildGens rules gens c = [] := by
  obtain ⟨rfl, h2⟩ := h
  refine ApplyGenProps.C139_table rules [] c List.nodup_nil ?_
  intro cat hc e he r hr
  obtain ⟨x, h3, h4⟩ : ∃ x ∈ rules, x.2 = cat := by
    unfold rulesForCategory at hc
    obtain ⟨x, h3, h4⟩ := Option.map_eq_some_iff.1 hc
    exact ⟨x, List.mem_of_find?_eq_some h3, h4⟩
  subst h4
  exact h2 x h3 e he r hr

theorem contents_none (B : Libs) (G : GLib) (D : Draws)
    (find : Json → List (VariantOf MatchingRule) → Option (VariantOf MatchingRule)) (m : MessageContents)
    (h : NoGens m.rules m.gens) : ApplyGen.generateContents B G D .consumer [] find m = .ok m := by
  have hg : ∀ c, ApplyGen.gensFor G m.rules m.gens c = [] := fun c => by
    have := G.order_perm c (ApplyGen.buildGens m.rules m.gens c)
    unfold ApplyGen.gensFor
    rw [buildGens_nil h c] at this ⊢
    exact this.eq_nil
  unfold ApplyGen.generateContents
  rw [hg, hg]
  simp only [ApplyGenProps.applyGens_nil, Res.bind_ok]
  rw [ApplyGenProps.generateBody_kept _ _ _ _ _ _ _ _ _ (Or.inl rfl)]
  rfl

theorem all_none (f : Nat → MessageContents → Res MessageContents) (ms : List MessageContents)
    (h : ∀ i, ∀ m ∈ ms, f i m = .ok m) : ∀ k, ApplyGen.generateAll f k ms = .ok ms := by
  induction ms with
  | nil => intro k; rfl
  | cons m ms ih =>
    intro k
    rw [ApplyGen.generateAll, h k m List.mem_cons_self, Res.bind_ok, ih (fun i m hm => h i m (List.mem_cons_of_mem _ hm))]
    rfl

theorem sync_none (B : Libs) (G : GLib) (D : Draws) (i : Nat) (m : Common × MessageContents × List MessageContents)
    (h : NoGens m.2.1.rules m.2.1.gens) (hs : ∀ r ∈ m.2.2, NoGens r.rules r.gens) :
    PactBuild.generateSync B G D i m = .ok m := by
  unfold PactBuild.generateSync ApplyGen.generateSync
  rw [contents_none _ _ _ _ _ h, Res.bind_ok, all_none _ _ (fun i r hr => contents_none _ _ _ _ _ (hs r hr))]
  rfl

/-! ### C163 -/

/-- **C163** (asynchronous messages) For every pact: the iterator gives exactly the asynchronous messages of the pact, in order,
as they are defined (their generators are not applied), and writes the pact in V4 format. -/
theorem C163_async (uc : UC) (p : AnyPact) :
    Yields (messages uc p) ((asV4Pact uc p).interactions.filterMap asAsync) (.v4 (asV4Pact uc p)) := by
  have : asyncMessages (asV4Pact uc p).interactions = (asV4Pact uc p).interactions.filterMap asAsync := by
    unfold asyncMessages
    congr 1
  rw [← this]
  exact yields _

/-- The messages of a built pact: those of the calls that add messages. -/
theorem C163_async_built (uc : UC) (parseCT : Str → Option ContentType) (V : Versions) (consumer provider : Str)
    (cs : List PactCall) (h : ∀ c ∈ cs, Accepts parseCT .v4 c) :
    ∃ p xs, PactBuild.build uc parseCT V .v4 consumer provider cs = .ok p ∧ OneEach (V4From uc parseCT) cs xs ∧
      Yields (messages uc p) (xs.filterMap asAsync) p := by
  obtain ⟨p, h1, h2⟩ := (C162_pact uc parseCT V .v4 consumer provider cs).2 h
  cases p with
  | http p => cases h2.1
  | message p => cases h2.1
  | v4 p => exact ⟨_, _, h1, h2.2.2.2.2, C163_async uc (.v4 p)⟩

/-- **C163** (V3 messages) For every pact, every values drawn and every schedule: a pact of HTTP interactions has no message
iterator; with a finished task the iterator gives the messages of the pact, in order, each with the values of its generators and
otherwise as it is defined, and writes the pact without the generated values; else asking for the iterator aborts. -/
theorem C163_v3 (uc : UC) (B : Libs) (G : GLib) (D : Draws) (finishes : Bool) (p : AnyPact) :
    (∀ q, p = .http q → v3Messages uc B G D finishes p = .panic) ∧
    (finishes = false → v3Messages uc B G D finishes p = .panic) ∧
    (∀ it, v3Messages uc B G D finishes p = .ok it → finishes = true ∧
      ∃ q ms, asMessagePact uc p = some q ∧ Yields it ms (.message q) ∧ Pairwise2 (fun m m' =>
        (∃ D' c, ApplyGen.generateContents B G D' .consumer [] (ApplyGen.defaultVariant B.env)
          ⟨m.contents, m.metadata, m.rules, m.gens⟩ = .ok c ∧ m'.contents = c.contents ∧ m'.metadata = c.metadata) ∧
        m'.id = m.id ∧ m'.description = m.description ∧ m'.states = m.states ∧ m'.rules = m.rules ∧ m'.gens = m.gens)
        q.messages ms) ∧
    (∀ q, asMessagePact uc p = some q → (∀ m ∈ q.messages, NoGens m.rules m.gens) → finishes = true →
      ∃ it, v3Messages uc B G D finishes p = .ok it ∧ Yields it q.messages (.message q)) := by
  refine ⟨?_, ?_, ?_, ?_⟩
  · rintro q rfl; rfl
  · rintro rfl
    unfold v3Messages
    cases asMessagePact uc p with
    | none => rfl
    | some q =>
      simp only
      unfold received
      split
      · rename_i h
        split at h
        · simp at h
        · cases h
      · rfl
  · intro it h
    unfold v3Messages at h
    cases hq : asMessagePact uc p with
    | none => rw [hq] at h; cases h
    | some q =>
      rw [hq] at h
      simp only at h
      unfold received at h
      split at h
      · rename_i ms hm
        split at hm
        · rename_i ms' hg
          cases finishes with
          | false => simp at hm
          | true =>
            simp only [if_pos] at hm
            cases hm
            cases h
            refine ⟨rfl, q, ms, rfl, yields _, ?_⟩
            obtain ⟨h1, h2⟩ := each_ok _ _ _ _ hg
            refine ⟨h1, ?_⟩
            intro i m hi
            obtain ⟨m', h3, j, h4⟩ := h2 i m hi
            obtain ⟨c, h5, rfl⟩ := ApplyGenBodyProps.C143_message B G _ .consumer [] m m' h4
            exact ⟨_, h3, ⟨_, c, h5, rfl, rfl⟩, rfl, rfl, rfl, rfl, rfl⟩
        · cases hm
      · cases h
  · rintro q hq hn rfl
    unfold v3Messages
    rw [hq]
    simp only
    rw [each_id _ _ (fun i m hm => by
      unfold ApplyGen.generateMessage
      rw [contents_none B G _ _ ⟨m.contents, m.metadata, m.rules, m.gens⟩ (hn m hm)]
      rfl)]
    exact ⟨_, rfl, yields _⟩

/-- **C163** (synchronous messages) For every pact, all values drawn and every schedule: the iterator gives the synchronous
messages of the pact, in order; all as they are defined, or, if the task finishes, each request and each response with the values
of its own generators; the pact is written without the generated values. -/
theorem C163_sync (uc : UC) (B : Libs) (G : GLib) (D : Draws) (finishes : Bool) (p : AnyPact) :
    ∃ ms, Yields (synchronousMessages uc B G D finishes p) ms (.v4 (asV4Pact uc p)) ∧
      (ms = (asV4Pact uc p).interactions.filterMap asSync ∨ finishes = true ∧
        Pairwise2 (fun m m' => m'.1 = m.1 ∧ Generated B G m.2.1 m'.2.1 ∧ Pairwise2 (Generated B G) m.2.2 m'.2.2)
          ((asV4Pact uc p).interactions.filterMap asSync) ms) := by
  have e : syncMessages (asV4Pact uc p).interactions = (asV4Pact uc p).interactions.filterMap asSync := by
    unfold syncMessages
    congr 1
  refine ⟨_, yields _, ?_⟩
  unfold synchronousMessages
  simp only
  rw [e]
  generalize (asV4Pact uc p).interactions.filterMap asSync = l
  unfold received
  split
  · rename_i ms hg
    cases finishes with
    | false => left; rfl
    | true =>
      right
      refine ⟨rfl, ?_⟩
      simp only [if_pos, Option.getD_some]
      obtain ⟨h1, h2⟩ := each_ok _ _ _ _ hg
      refine ⟨h1, ?_⟩
      intro i m hi
      obtain ⟨m', h3, j, h4⟩ := h2 i m hi
      unfold PactBuild.generateSync at h4
      obtain ⟨⟨rq, rs⟩, h5, rfl⟩ := Res.map_eq_ok.1 h4
      obtain ⟨⟨D1, h6⟩, h7, h8⟩ := ApplyGenBodyProps.C143_sync B G _ .consumer [] _ _ _ _ h5
      refine ⟨_, h3, rfl, ⟨D1, h6⟩, h7, ?_⟩
      intro k r hk
      obtain ⟨D2, r', h9, h10⟩ := h8 k r hk
      exact ⟨r', h9, D2, h10⟩
  · left; rfl

/-- **C163** (finished): inside a runtime, if no generator panics, the generators of synchronous messages are applied; messages
without generators are given as they are defined, on every schedule. -/
theorem C163_sync_finished (uc : UC) (B : Libs) (G : GLib) (D : Draws) (p : AnyPact) :
    (∀ ms, generateEach (PactBuild.generateSync B G D) 0 (syncMessages (asV4Pact uc p).interactions) = .ok ms →
      Yields (synchronousMessages uc B G D true p) ms (.v4 (asV4Pact uc p))) ∧
    ((∀ m ∈ (asV4Pact uc p).interactions.filterMap asSync, NoGens m.2.1.rules m.2.1.gens ∧ ∀ r ∈ m.2.2, NoGens r.rules r.gens) →
      ∀ finishes, Yields (synchronousMessages uc B G D finishes p) ((asV4Pact uc p).interactions.filterMap asSync)
        (.v4 (asV4Pact uc p))) := by
  have e : syncMessages (asV4Pact uc p).interactions = (asV4Pact uc p).interactions.filterMap asSync := by
    unfold syncMessages
    congr 1
  constructor
  · intro ms h
    have : synchronousMessages uc B G D true p = ⟨.v4 (asV4Pact uc p), ms⟩ := by
      unfold synchronousMessages; simp only [h]; rfl
    rw [this]
    exact yields _
  · intro h finishes
    have : synchronousMessages uc B G D finishes p = ⟨.v4 (asV4Pact uc p), (asV4Pact uc p).interactions.filterMap asSync⟩ := by
      unfold synchronousMessages
      simp only [e]
      rw [each_id _ _ (fun i m hm => sync_none B G D i m (h m hm).1 (h m hm).2)]
      cases finishes <;> rfl
    rw [this]
    exact yields _

/-! ### Examples -/

open ApplyGenBodyProps (exB exG exRng)
open Path (fromTokens)

/-- Calls for a V4 pact. -/
def exCalls : List PactCall :=
  [.interaction "a".toList [.given "s".toList], .message "b".toList [.metadata "k".toList (.bool true)],
   .sync "c".toList [.responseBody [1] none], .push (.http ⟨none, "d".toList, [], defaultRequest, defaultResponse⟩)]

/-- The hypotheses of C162 are met. -/
theorem example_accepted (parseCT : Str → Option ContentType) : ∀ c ∈ exCalls, Accepts parseCT .v4 c := by
  intro c hc
  simp only [exCalls, List.mem_cons, List.not_mem_nil, or_false] at hc
  rcases hc with rfl | rfl | rfl | rfl
  · trivial
  · intro j hj; simp at hj
  · intro j hj; simp at hj
  · trivial

/-- A V3 pact aborts on them. -/
example (uc : UC) (parseCT : Str → Option ContentType) (V : Versions) :
    PactBuild.build uc parseCT V .http "x".toList "y".toList exCalls = .panic :=
  (C162_pact uc parseCT V .http _ _ exCalls).1 ⟨.message "b".toList [.metadata "k".toList (.bool true)],
    List.mem_cons_of_mem _ List.mem_cons_self, fun h => h⟩

/-- A synchronous message with a generator for its metadata. -/
def exSync : Common × MessageContents × List MessageContents :=
  (plainCommon none "m".toList [],
    ⟨.missing, [("id".toList, .num (.pos 7))], [], [(.metadata, [(fromTokens [.root, .field "id".toList], .randomInt 1 5)])]⟩, [])

def exPact : AnyPact := .v4 ⟨"x".toList, "y".toList, [.sync exSync.1 exSync.2.1 exSync.2.2], [], []⟩

set_option maxRecDepth 100000 in
/-- **C163** (the schedule matters): outside a runtime the generators of synchronous messages may or may not be applied, with
the same values drawn. -/
theorem C163_depends_on_schedule : ∃ (uc : UC) (B : Libs) (G : GLib) (D : Draws) (p : AnyPact),
    results (synchronousMessages uc B G D true p) 0 ≠ results (synchronousMessages uc B G D false p) 0 := by
  refine ⟨UC.ascii, exB, exG, fun _ => exRng, exPact, ?_⟩
  have h1 : (results (synchronousMessages UC.ascii exB exG (fun _ => exRng) true exPact) 0).map (fun m => m.2.1.metadata) =
      some [("id".toList, .num (.pos 1))] := by rfl
  have h2 : (results (synchronousMessages UC.ascii exB exG (fun _ => exRng) false exPact) 0).map (fun m => m.2.1.metadata) =
      some [("id".toList, .num (.pos 7))] := by rfl
  intro h
  rw [h, h2] at h1
  exact absurd h1 (by decide)

set_option maxRecDepth 100000 in
/-- The hypothesis of `C163_sync_finished` is met by a message whose generator gives a new value. -/
example : ∃ ms, generateEach (PactBuild.generateSync exB exG (fun _ => exRng)) 0 (syncMessages (asV4Pact UC.ascii exPact).interactions) =
    .ok ms ∧ ms.map (fun m => m.2.1.metadata) = [[("id".toList, .num (.pos 1))]] := ⟨_, rfl, rfl⟩

/-- A V3 message with a generator. -/
def exMessage : Message :=
  ⟨none, "m".toList, [], .missing, [("id".toList, .num (.pos 7))], [],
    [(.metadata, [(fromTokens [.root, .field "id".toList], .randomInt 1 5)])]⟩

set_option maxRecDepth 100000 in
/-- The V3 iterator gives the generated value, the V4 iterator over the same pact the defined one, and writes a V4 pact. -/
theorem C163_v4_not_generated (uc : UC) : ∃ (B : Libs) (G : GLib) (D : Draws) (p : AnyPact) (it : Iter Message),
    (∃ q, p = .message q) ∧ v3Messages uc B G D true p = .ok it ∧
    (results it 0).map (fun m => m.metadata) = some [("id".toList, .num (.pos 1))] ∧
    (results (messages uc p) 0).map (fun m => m.2.metadata) = some [("id".toList, .num (.pos 7))] ∧
    ∃ q, (messages uc p).pact = .v4 q :=
  ⟨exB, exG, fun _ => exRng, .message ⟨"x".toList, "y".toList, [exMessage], [], .v3⟩, _, ⟨_, rfl⟩, rfl, rfl, rfl, _, rfl⟩

/-- Messages without generators. -/
example : NoGens [(.body, (⟨.body, [(fromTokens [.root], ⟨[.type], .and, false⟩)]⟩ : RuleCategory))] [] := by
  refine ⟨rfl, ?_⟩
  intro e he x hx r hr
  rw [List.mem_singleton] at he
  subst he
  rw [List.mem_singleton] at hx
  subst hx
  rw [List.mem_singleton] at hr
  subst hr
  rintro ⟨vs, h, -⟩
  cases h



end PactBuilderProps
end Verif
