import Verif.Props.ReadPartProps

/-
  C172: what a V4 pact file says.
-/

set_option autoImplicit false

namespace Verif
namespace ReadFileProps
open Path Rules RuleJson PactFile Matchers Generate Headers Query
open MatcherTableProps (rulesAt)
open IntegrationProps (genAt)
open SessionRuleProps (Each)
open ReadPartProps (TextIs RequestIs ResponseIs MessageIs)

/-! ## Specification -/

/-- An attribute that is an object, or nothing. -/
inductive ObjectIs (k : String) (v : Json) : Obj → Prop
  | some (o : Obj) : vget k v = some (.obj o) → ObjectIs k v o
  | none : (∀ o, vget k v ≠ some (.obj o)) → ObjectIs k v []

/-- One provider state. -/
structure StateIs (v : Json) (s : PState) : Prop where
  name : ∃ t, TextIs "name" v t ∧ s.name = t.getD "unknown provider states".toList
  params : ObjectIs "params" v s.params

/-- The provider state of an older file: a text, which is not empty; null is none. -/
inductive OldState : Json → List PState → Prop
  | text (s : Str) : s ≠ [] → OldState (.str s) [⟨s, []⟩]
  | empty : OldState (.str []) []
  | null : OldState .null []
  | other (x : Json) : x ≠ .null → (∀ s, x ≠ .str s) → OldState x [⟨x.text, []⟩]

/-- The provider states: an array of them, or the attributes of older files in their place. -/
inductive StatesAre (v : Json) : List PState → Prop
  | list (a : List Json) (ss : List PState) : vget "providerStates" v = some (.arr a) → Each StateIs a ss → StatesAre v ss
  | mistyped (x : Json) : vget "providerStates" v = some x → (∀ a, x ≠ .arr a) → StatesAre v []
  | old (x : Json) (ss : List PState) : vget "providerStates" v = none → vget "providerState" v = some x → OldState x ss → StatesAre v ss
  | older (x : Json) (ss : List PState) : vget "providerStates" v = none → vget "providerState" v = none →
      vget "provider_state" v = some x → OldState x ss → StatesAre v ss
  | none : vget "providerStates" v = none → vget "providerState" v = none → vget "provider_state" v = none → StatesAre v []

/-- The text of an attribute, nothing if it is missing. -/
inductive StrIs (k : String) (v : Json) : Option Str → Prop
  | some (x : Json) : vget k v = some x → StrIs k v (some x.toStr)
  | none : vget k v = none → StrIs k v none

/-- The markup of an interaction. -/
inductive MarkupIs (v : Json) : Markup → Prop
  | some (x : Json) (a b : Option Str) : vget "interactionMarkup" v = some x → StrIs "markup" x a → StrIs "markupType" x b →
      MarkupIs v ⟨a.getD [], b.getD []⟩
  | none : vget "interactionMarkup" v = none → MarkupIs v ⟨[], []⟩

/-- The attributes that all types of interactions have. -/
structure CommonIs (index : Nat) (v : Json) (c : Common) : Prop where
  id : StrIs "_id" v c.id
  key : StrIs "key" v c.key
  description : ∃ t, TextIs "description" v t ∧ c.description = t.getD ("Interaction ".toList ++ Nat.toDigits 10 index)
  states : StatesAre v c.states
  comments : ObjectIs "comments" v c.comments
  pending : c.pending = true ↔ vget "pending" v = some (.bool true)
  plugins : ∃ o, ObjectIs "pluginConfiguration" v o ∧
    Each (fun e p => p.1 = e.1 ∧ ((∃ m, e.2 = .obj m ∧ p.2 = m) ∨ ((∀ m, e.2 ≠ .obj m) ∧ p.2 = []))) o c.plugins
  markup : MarkupIs v c.markup
  transport : TextIs "transport" v c.transport

/-- The interaction that an entry of the file stands for. -/
inductive InteractionIs (E : FileEnv) (index : Nat) (v : Json) : Interaction → Prop
  | http (t : Json) (c : Common) (req : HttpRequest) (resp : HttpResponse) : vget "type" v = some t →
      t.toStr = "Synchronous/HTTP".toList → CommonIs index v c → RequestIs E ((vget "request" v).getD .null) req →
      ResponseIs E ((vget "response" v).getD .null) resp → InteractionIs E index v (.http c req resp)
  | async (t : Json) (c : Common) (m : MessageContents) : vget "type" v = some t →
      t.toStr = "Asynchronous/Messages".toList → CommonIs index v c → MessageIs E v m → InteractionIs E index v (.async c m)
  | sync (t q : Json) (a : List Json) (c : Common) (m : MessageContents) (ms : List MessageContents) : vget "type" v = some t →
      t.toStr = "Synchronous/Messages".toList → CommonIs index v c → vget "request" v = some q → (∃ o, q = .obj o) →
      MessageIs E q m → vget "response" v = some (.arr a) → Each (fun x n => (∃ o, x = .obj o) ∧ MessageIs E x n) a ms →
      InteractionIs E index v (.sync c m ms)

/-- The name of the consumer or the provider. -/
inductive NameIs (k : String) (dflt : Str) (v : Json) : Str → Prop
  | some (x : Json) (t : Option Str) : vget k v = some x → TextIs "name" x t → NameIs k dflt v (t.getD dflt)
  | none : vget k v = none → NameIs k dflt v dflt

/-- A plugin: name and version must be texts, and the configuration, if there is one, an object. -/
inductive PluginIs (v : Json) : Plugin → Prop
  | configured (n w : Str) (c : Obj) : vget "name" v = some (.str n) → vget "version" v = some (.str w) →
      vget "configuration" v = some (.obj c) → PluginIs v ⟨n, w, c⟩
  | plain (n w : Str) : vget "name" v = some (.str n) → vget "version" v = some (.str w) → vget "configuration" v = none →
      PluginIs v ⟨n, w, []⟩

/-- The plugins of the list that are understood; the others are left out. -/
inductive PluginsOf : List Json → List Plugin → Prop
  | nil : PluginsOf [] []
  | cons (x : Json) (p : Plugin) (xs : List Json) (ps : List Plugin) : PluginIs x p → PluginsOf xs ps → PluginsOf (x :: xs) (p :: ps)
  | skip (x : Json) (xs : List Json) (ps : List Plugin) : (∀ p, ¬ PluginIs x p) → PluginsOf xs ps → PluginsOf (x :: xs) ps

/-- The pact that a V4 file stands for. -/
structure PactIs (E : FileEnv) (v : Json) (p : V4Pact) : Prop where
  consumer : NameIs "consumer" "consumer".toList v p.consumer
  provider : NameIs "provider" "provider".toList v p.provider
  /-- Entry number `i` is interaction number `i`. -/
  interactions : ∀ a, vget "interactions" v = some (.arr a) → p.interactions.length = a.length ∧
    ∀ (i : Nat) (x : Json) (y : Interaction), a[i]? = some x → p.interactions[i]? = some y → InteractionIs E i x y
  noInteractions : (∀ a, vget "interactions" v ≠ some (.arr a)) → p.interactions = []
  /-- The metadata without the plugins. -/
  metadata : ∃ o, ObjectIs "metadata" v o ∧ p.metadata = o.filter (fun e => !decide (e.1 = "plugins".toList)) ∧
    ((∃ a, RuleJson.get "plugins" o = some (.arr a) ∧ PluginsOf a p.plugins) ∨
      ((∀ a, RuleJson.get "plugins" o ≠ some (.arr a)) ∧ p.plugins = []))

/-- Two messages with the same rules and generators at every path. -/
def SameMessage (m n : MessageContents) : Prop :=
  m.metadata = n.metadata ∧ m.contents = n.contents ∧ (∀ c p, rulesAt m.rules c p = rulesAt n.rules c p)
    ∧ ∀ c p, genAt m.gens c p = genAt n.gens c p

/-- Two requests with the same rules and generators at every path. -/
def SameRequest (r s : HttpRequest) : Prop :=
  r.method = s.method ∧ r.path = s.path ∧ r.query = s.query ∧ r.headers = s.headers ∧ r.body = s.body
    ∧ (∀ c p, rulesAt r.rules c p = rulesAt s.rules c p) ∧ ∀ c p, genAt r.gens c p = genAt s.gens c p

/-- Two responses with the same rules and generators at every path. -/
def SameResponse (r s : HttpResponse) : Prop :=
  r.status = s.status ∧ r.headers = s.headers ∧ r.body = s.body
    ∧ (∀ c p, rulesAt r.rules c p = rulesAt s.rules c p) ∧ ∀ c p, genAt r.gens c p = genAt s.gens c p

/-- Two interactions that are the same. -/
inductive SameInteraction : Interaction → Interaction → Prop
  | http (c : Common) (r s : HttpRequest) (x y : HttpResponse) : SameRequest r s → SameResponse x y →
      SameInteraction (.http c r x) (.http c s y)
  | async (c : Common) (m n : MessageContents) : SameMessage m n → SameInteraction (.async c m) (.async c n)
  | sync (c : Common) (m n : MessageContents) (ms ns : List MessageContents) : SameMessage m n → Each SameMessage ms ns →
      SameInteraction (.sync c m ms) (.sync c n ns)

/-! ## Attributes -/

theorem object_iff (k : String) (v : Json) (o : Obj) : objAttr k v = o ↔ ObjectIs k v o := by
  unfold objAttr
  constructor
  · intro h
    subst h
    split
    · rename_i m hm; exact .some m hm
    · rename_i hn; exact .none hn
  · intro h
    cases h with
    | some _ h1 => rw [h1]
    | none h1 =>
      split
      · rename_i m hm; exact absurd hm (h1 m)
      · rfl

theorem str_iff (k : String) (v : Json) (s : Option Str) : (vget k v).map Json.toStr = s ↔ StrIs k v s := by
  constructor
  · intro h
    subst h
    cases hv : vget k v with
    | none => exact .none hv
    | some x => exact .some x hv
  · intro h
    cases h with
    | some x h1 => rw [h1]; rfl
    | none h1 => rw [h1]; rfl

theorem textD_iff (k : String) (d : Str) (v : Json) (s : Str) : attrText k d v = s ↔ ∃ t, TextIs k v t ∧ s = t.getD d := by
  constructor
  · intro h
    exact ⟨_, (ReadPartProps.text_iff k v _).1 rfl, h.symm⟩
  · rintro ⟨t, h1, h2⟩
    rw [h2, ← (ReadPartProps.text_iff k v t).2 h1]
    rfl

theorem state_iff (v : Json) (s : PState) : stateFromJson v = s ↔ StateIs v s := by
  constructor
  · intro h
    subst h
    exact ⟨(textD_iff _ _ v _).1 rfl, (object_iff _ v _).1 rfl⟩
  · intro h
    obtain ⟨n, ps⟩ := s
    show PState.mk _ _ = _
    rw [(textD_iff "name" _ v n).2 h.name, (object_iff "params" v ps).2 h.params]

/-- What the model makes of an old state. -/
def oldState : Json → List PState
  | .str s => if s.isEmpty then [] else [⟨s, []⟩]
  | .null => []
  | x => [⟨x.text, []⟩]

theorem old_iff (x : Json) (ss : List PState) : oldState x = ss ↔ OldState x ss := by
  constructor
  · intro h
    subst h
    cases x with
    | str s =>
      cases s with
      | nil => exact .empty
      | cons c cs => exact .text _ (by simp)
    | null => exact .null
    | bool b => exact .other _ (by simp) (by simp)
    | num n => exact .other _ (by simp) (by simp)
    | arr a => exact .other _ (by simp) (by simp)
    | obj m => exact .other _ (by simp) (by simp)
  · intro h
    cases h with
    | text s h1 => cases s with | nil => exact absurd rfl h1 | cons _ _ => rfl
    | empty => rfl
    | null => rfl
    | other _ h1 h2 => cases x <;> first | rfl | exact absurd rfl h1 | exact absurd rfl (h2 _)

theorem states_eq (v : Json) : statesFromJson v = match vget "providerStates" v with
    | some (.arr a) => a.map stateFromJson
    | some _ => []
    | none => match (vget "providerState" v).or (vget "provider_state" v) with
      | some x => oldState x
      | none => [] := by
  unfold statesFromJson
  generalize vget "providerStates" v = a
  generalize (vget "providerState" v).or (vget "provider_state" v) = b
  cases a with
  | some x => cases x <;> rfl
  | none =>
    cases b with
    | none => rfl
    | some x => cases x <;> rfl

theorem states_iff (v : Json) (ss : List PState) : statesFromJson v = ss ↔ StatesAre v ss := by
  rw [states_eq]
  constructor
  · intro h
    subst h
    split
    · rename_i a h1
      exact .list a _ h1 (ReadPartProps.each_map _ _ a fun x _ => (state_iff x _).1 rfl)
    · rename_i x hx h1
      exact .mistyped x h1 (fun a e => hx a e)
    · rename_i h1
      cases h2 : vget "providerState" v with
      | some x => exact .old x _ h1 h2 ((old_iff x _).1 rfl)
      | none =>
        cases h3 : vget "provider_state" v with
        | some x => exact .older x _ h1 h2 h3 ((old_iff x _).1 rfl)
        | none => exact .none h1 h2 h3
  · intro h
    cases h with
    | list a _ h1 h2 =>
      rw [h1]
      exact ReadPartProps.each_eq _ _ (fun x s hs => (state_iff x s).2 hs) a ss h2
    | mistyped x h1 h2 =>
      rw [h1]
      cases x <;> first | rfl | exact absurd rfl (h2 _)
    | old x _ h1 h2 h3 => rw [h1, h2]; exact (old_iff x ss).2 h3
    | older x _ h1 h2 h3 h4 => rw [h1, h2, h3]; exact (old_iff x ss).2 h4
    | none h1 h2 h3 => rw [h1, h2, h3]; rfl

theorem markup_of (x : Json) : markupFromJson x =
    ⟨((vget "markup" x).map Json.toStr).getD [], ((vget "markupType" x).map Json.toStr).getD []⟩ := by
  cases x <;> rfl

theorem markup_iff (v : Json) (m : Markup) : ((vget "interactionMarkup" v).map markupFromJson).getD ⟨[], []⟩ = m ↔ MarkupIs v m := by
  constructor
  · intro h
    subst h
    cases hv : vget "interactionMarkup" v with
    | none => exact .none hv
    | some x =>
      show MarkupIs v (markupFromJson x)
      rw [markup_of]
      exact .some x _ _ hv ((str_iff _ x _).1 rfl) ((str_iff _ x _).1 rfl)
  · intro h
    cases h with
    | some x a b h1 h2 h3 =>
      rw [h1]
      show markupFromJson x = _
      rw [markup_of, (str_iff "markup" x a).2 h2, (str_iff "markupType" x b).2 h3]
    | none h1 => rw [h1]; rfl

theorem pending_iff (v : Json) (b : Bool) :
    pendingOf (vget "pending" v) = b ↔ (b = true ↔ vget "pending" v = some (.bool true)) := by
  have h : pendingOf (vget "pending" v) = true ↔ vget "pending" v = some (.bool true) := by
    cases hv : vget "pending" v with
    | none => exact ⟨fun e => (by cases e), fun e => (by cases e)⟩
    | some x =>
      cases x with
      | bool c => exact ⟨fun e => (by rw [show c = true from e]), fun e => (by cases e; rfl)⟩
      | _ => exact ⟨fun e => (by cases e), fun e => (by cases e)⟩
  rw [← h]
  cases b <;> cases pendingOf (vget "pending" v) <;> decide

theorem plugins_iff (v : Json) (ps : List (Str × Obj)) : pluginConfigFromJson v = ps ↔
    ∃ o, ObjectIs "pluginConfiguration" v o ∧
      Each (fun e p => p.1 = e.1 ∧ ((∃ m, e.2 = .obj m ∧ p.2 = m) ∨ ((∀ m, e.2 ≠ .obj m) ∧ p.2 = []))) o ps := by
  unfold pluginConfigFromJson
  constructor
  · intro h
    subst h
    refine ⟨_, (object_iff _ v _).1 rfl, ReadPartProps.each_map _ _ _ fun e _ => ⟨rfl, ?_⟩⟩
    obtain ⟨k, x⟩ := e
    cases x <;> first | exact .inl ⟨_, rfl, rfl⟩ | exact .inr ⟨by simp, rfl⟩
  · rintro ⟨o, h1, h2⟩
    rw [(object_iff _ v o).2 h1]
    refine ReadPartProps.each_eq _ _ (fun e p hp => ?_) o ps h2
    obtain ⟨k, x⟩ := e
    obtain ⟨n, m⟩ := p
    obtain ⟨h3, h4⟩ := hp
    simp only at h3 h4
    subst h3
    rcases h4 with ⟨m', rfl, rfl⟩ | ⟨h5, rfl⟩
    · rfl
    · cases x <;> first | rfl | exact absurd rfl (h5 _)

/-- **C172** (shared attributes). -/
theorem C172_common (i : Nat) (v : Json) (c : Common) : commonFromJson i v = c ↔ CommonIs i v c := by
  constructor
  · intro h
    subst h
    exact ⟨(str_iff _ v _).1 rfl, (str_iff _ v _).1 rfl, (textD_iff _ _ v _).1 rfl, (states_iff v _).1 rfl,
      (object_iff _ v _).1 rfl, (pending_iff v _).1 rfl, (plugins_iff v _).1 rfl, (markup_iff v _).1 rfl,
      (ReadPartProps.text_iff _ v _).1 rfl⟩
  · intro h
    obtain ⟨a, b, d, s, m, p, q, k, t⟩ := c
    obtain ⟨h1, h2, h3, h4, h5, h6, h7, h8, h9⟩ := h
    show Common.mk _ _ _ _ _ _ _ _ _ = _
    rw [(str_iff "_id" v a).2 h1, (str_iff "key" v b).2 h2, (textD_iff "description" _ v d).2 h3, (states_iff v s).2 h4,
      (object_iff "comments" v m).2 h5, (pending_iff v p).2 h6, (plugins_iff v q).2 h7, (markup_iff v k).2 h8,
      (ReadPartProps.text_iff "transport" v t).2 h9]

/-! ## Interactions -/

theorem message_ok (E : FileEnv) (v : Json) (m : MessageContents) (h : messageFromJson E v = .ok m) :
    (∃ o, v = .obj o) ∧ MessageIs E v m := by
  cases v with
  | obj o => exact ⟨⟨o, rfl⟩, ReadPartProps.C171_message E _ m h⟩
  | _ => cases h

theorem message_read (E : FileEnv) (v : Json) (m : MessageContents) (ho : ∃ o, v = .obj o) (h : MessageIs E v m) :
    ∃ n, messageFromJson E v = .ok n ∧ SameMessage n m := by
  obtain ⟨o, rfl⟩ := ho
  obtain ⟨n, h1, h2, h3, h4, h5⟩ := ReadPartProps.C171_message_read E _ m h
  exact ⟨n, h1, h2, h3, h4, h5⟩

theorem allOk_ok {A B : Type} (f : A → Res B) (a : List A) : ∀ bs : List B, allOk (a.map f) = .ok bs →
    Each (fun x b => f x = .ok b) a bs := by
  induction a with
  | nil => intro bs h; cases h; exact .nil
  | cons x xs ih =>
    intro bs h
    obtain ⟨b, h1, h2⟩ := SessionProps.bind_eq_ok.1 h
    obtain ⟨cs, h3, h4⟩ := Res.map_eq_ok.1 h2
    subst h4
    exact .cons h1 (ih cs h3)

theorem allOk_read {A B : Type} (f : A → Res B) (R : A → B → Prop) (S : B → B → Prop)
    (hf : ∀ x b, R x b → ∃ c, f x = .ok c ∧ S c b) (a : List A) (bs : List B) (h : Each R a bs) :
    ∃ cs, allOk (a.map f) = .ok cs ∧ Each S cs bs := by
  induction h with
  | nil => exact ⟨[], rfl, .nil⟩
  | cons h1 _ ih =>
    obtain ⟨c, h2, h3⟩ := hf _ _ h1
    obtain ⟨cs, h4, h5⟩ := ih
    refine ⟨c :: cs, ?_, .cons h3 h5⟩
    rw [List.map_cons, allOk, h2, Res.bind_ok, h4]
    rfl

theorem each_mono {A B : Type} {R S : A → B → Prop} (hRS : ∀ a b, R a b → S a b) {l : List A} {m : List B} (h : Each R l m) :
    Each S l m := by
  induction h with
  | nil => exact .nil
  | cons h1 _ ih => exact .cons (hRS _ _ h1) ih

/-- **C172** (interactions): an interaction that is read is the one that its entry stands for. -/
theorem C172_interaction (E : FileEnv) (i : Nat) (v : Json) (x : Interaction) (h : interactionFromJson E i v = .ok x) :
    InteractionIs E i v x := by
  unfold interactionFromJson at h
  split at h
  · rename_i t ht
    split at h
    · rename_i h1
      cases v with
      | obj m =>
        obtain ⟨r, h2, h⟩ := SessionProps.bind_eq_ok.1 h
        obtain ⟨p, h3, h⟩ := SessionProps.bind_eq_ok.1 h
        cases h
        exact .http t _ _ _ ht h1 ((C172_common i _ _).1 rfl) (ReadPartProps.C171_request E _ _ h2)
          (ReadPartProps.C171_response E _ _ h3)
      | _ => cases h
    · split at h
      · rename_i _ h1
        cases v with
        | obj m =>
          obtain ⟨c, h2, h3⟩ := Res.map_eq_ok.1 h
          subst h3
          exact .async t _ _ ht h1 ((C172_common i _ _).1 rfl) (ReadPartProps.C171_message E _ _ h2)
        | _ => cases h
      · split at h
        · rename_i _ _ h1
          cases v with
          | obj m =>
            unfold syncFromJson at h
            simp only at h
            split at h
            · rename_i req resps hq hr
              obtain ⟨rs, h2, h⟩ := SessionProps.bind_eq_ok.1 h
              obtain ⟨r, h3, h4⟩ := Res.map_eq_ok.1 h
              subst h4
              obtain ⟨h5, h6⟩ := message_ok E req r h3
              exact .sync t req resps _ _ _ ht h1 ((C172_common i _ _).1 rfl) hq h5 h6 hr
                (each_mono (fun a b hab => message_ok E a b hab) (allOk_ok _ resps rs h2))
            · cases h
          | _ => cases h
        · cases h
  · cases h

/-- **C172** (interactions, nothing is refused): an entry that stands for an interaction is read, as that interaction. -/
theorem C172_interaction_read (E : FileEnv) (i : Nat) (v : Json) (x : Interaction) (h : InteractionIs E i v x) :
    ∃ y, interactionFromJson E i v = .ok y ∧ SameInteraction y x := by
  unfold interactionFromJson
  have hobj : ∀ t, vget "type" v = some t → ∃ m, v = .obj m := by
    intro t ht
    cases v with
    | obj m => exact ⟨m, rfl⟩
    | _ => cases ht
  cases h with
  | http t c req resp h1 h2 h3 h4 h5 =>
    obtain ⟨m, rfl⟩ := hobj t h1
    rw [h1]
    simp only
    rw [if_pos h2]
    obtain ⟨r, h6, h7⟩ := ReadPartProps.C171_request_read E _ req h4
    obtain ⟨s, h8, h9⟩ := ReadPartProps.C171_response_read E _ resp h5
    refine ⟨.http c r s, ?_, .http c r req s resp h7 h9⟩
    show (requestFromJson E ((vget "request" (.obj m)).getD .null)).bind _ = _
    rw [h6, Res.bind_ok]
    show (responseFromJson E ((vget "response" (.obj m)).getD .null)).bind _ = _
    rw [h8, Res.bind_ok, (C172_common i _ c).2 h3]
  | async t c n h1 h2 h3 h4 =>
    obtain ⟨m, rfl⟩ := hobj t h1
    rw [h1]
    simp only
    rw [if_neg (by rw [h2]; decide), if_pos h2]
    obtain ⟨n', h5, h6, h7, h8, h9⟩ := ReadPartProps.C171_message_read E _ n h4
    refine ⟨.async c n', ?_, .async c n' n ⟨h6, h7, h8, h9⟩⟩
    show (messageParts E (.obj m)).map _ = _
    rw [h5, (C172_common i _ c).2 h3]
    rfl
  | sync t q a c n ns h1 h2 h3 h4 h5 h6 h7 h8 =>
    obtain ⟨m, rfl⟩ := hobj t h1
    rw [h1]
    simp only
    rw [if_neg (by rw [h2]; decide), if_neg (by rw [h2]; decide), if_pos h2]
    obtain ⟨r, h9, h10⟩ := message_read E q n h5 h6
    obtain ⟨rs, h11, h12⟩ := allOk_read (messageFromJson E) _ SameMessage (fun x b hb => message_read E x b hb.1 hb.2) a ns h8
    refine ⟨.sync c r rs, ?_, .sync c r n rs ns h10 h12⟩
    unfold syncFromJson
    simp only
    rw [show RuleJson.get "request" m = some q from h4, show RuleJson.get "response" m = some (.arr a) from h7]
    simp only
    rw [h11, Res.bind_ok, h9, (C172_common i _ c).2 h3]
    rfl

/-! ## Pacts -/

theorem loop_ok (E : FileEnv) (a : List Json) : ∀ (i : Nat) (xs : List Interaction), interactionsLoop E i a = .ok xs →
    xs.length = a.length ∧ ∀ (j : Nat) (x : Json) (y : Interaction), a[j]? = some x → xs[j]? = some y → InteractionIs E (i + j) x y := by
  induction a with
  | nil => intro i xs h; cases h; exact ⟨rfl, fun j x y h1 _ => by simp at h1⟩
  | cons v vs ih =>
    intro i xs h
    obtain ⟨z, h1, h2⟩ := SessionProps.bind_eq_ok.1 h
    obtain ⟨zs, h3, h4⟩ := Res.map_eq_ok.1 h2
    subst h4
    obtain ⟨h5, h6⟩ := ih (i + 1) zs h3
    refine ⟨by rw [List.length_cons, List.length_cons, h5], fun j x y hx hy => ?_⟩
    cases j with
    | zero =>
      simp only [List.getElem?_cons_zero, Option.some.injEq] at hx hy
      subst hx
      subst hy
      exact C172_interaction E i _ _ h1
    | succ j =>
      simp only [List.getElem?_cons_succ] at hx hy
      have h7 := h6 j x y hx hy
      rw [show i + 1 + j = i + (j + 1) from by omega] at h7
      exact h7

theorem loop_read (E : FileEnv) (a : List Json) : ∀ (i : Nat) (xs : List Interaction), xs.length = a.length →
    (∀ (j : Nat) (x : Json) (y : Interaction), a[j]? = some x → xs[j]? = some y → InteractionIs E (i + j) x y) →
    ∃ ys, interactionsLoop E i a = .ok ys ∧ Each SameInteraction ys xs := by
  induction a with
  | nil =>
    intro i xs h _
    cases xs with
    | nil => exact ⟨[], rfl, .nil⟩
    | cons _ _ => cases h
  | cons v vs ih =>
    intro i xs h h1
    cases xs with
    | nil => cases h
    | cons z zs =>
      obtain ⟨y, h2, h3⟩ := C172_interaction_read E i v z (h1 0 v z rfl rfl)
      obtain ⟨ys, h4, h5⟩ := ih (i + 1) zs (by simpa using h) (fun j x y hx hy => by
        have h6 := h1 (j + 1) x y hx hy
        rw [show i + (j + 1) = i + 1 + j from by omega] at h6
        exact h6)
      refine ⟨y :: ys, ?_, .cons h3 h5⟩
      rw [interactionsLoop, h2, Res.bind_ok, h4]
      rfl

theorem name_iff (k : String) (d : Str) (v : Json) (s : Str) : nameFromJson k d v = s ↔ NameIs k d v s := by
  unfold nameFromJson
  constructor
  · intro h
    subst h
    cases hv : vget k v with
    | none => exact .none hv
    | some x => exact .some x _ hv ((ReadPartProps.text_iff "name" x _).1 rfl)
  · intro h
    cases h with
    | some x t h1 h2 => rw [h1]; exact (textD_iff "name" d x _).2 ⟨t, h2, rfl⟩
    | none h1 => rw [h1]

theorem plugin_iff (v : Json) (p : Plugin) : pluginFromJson v = some p ↔ PluginIs v p := by
  cases v with
  | obj m =>
    unfold pluginFromJson
    simp only
    constructor
    · intro h
      split at h
      · rename_i n w c h1 h2 h3; cases h; exact .configured n w c h1 h2 h3
      · rename_i n w h1 h2 h3; cases h; exact .plain n w h1 h2 h3
      · cases h
    · intro h
      cases h with
      | configured n w c h1 h2 h3 =>
        rw [show RuleJson.get "name" m = _ from h1, show RuleJson.get "version" m = _ from h2,
          show RuleJson.get "configuration" m = _ from h3]
      | plain n w h1 h2 h3 =>
        rw [show RuleJson.get "name" m = _ from h1, show RuleJson.get "version" m = _ from h2,
          show RuleJson.get "configuration" m = _ from h3]
  | _ =>
    constructor
    · intro h; cases h
    · intro h; cases h <;> (rename_i h1 _ _; cases h1)

theorem pluginsOf_iff (a : List Json) : ∀ ps : List Plugin, a.filterMap pluginFromJson = ps ↔ PluginsOf a ps := by
  induction a with
  | nil =>
    intro ps
    constructor
    · intro h; cases h; exact .nil
    · intro h; cases h; rfl
  | cons x xs ih =>
    intro ps
    constructor
    · intro h
      subst h
      cases hx : pluginFromJson x with
      | none =>
        rw [List.filterMap_cons_none hx]
        exact .skip x xs _ (fun p hp => by rw [(plugin_iff x p).2 hp] at hx; cases hx) ((ih _).1 rfl)
      | some p =>
        rw [List.filterMap_cons_some hx]
        exact .cons x p xs _ ((plugin_iff x p).1 hx) ((ih _).1 rfl)
    · intro h
      cases h with
      | cons _ p _ qs h1 h2 => rw [List.filterMap_cons_some ((plugin_iff x p).2 h1), (ih qs).2 h2]
      | skip _ _ _ h1 h2 =>
        have hx : pluginFromJson x = none := by
          cases hx : pluginFromJson x with
          | none => rfl
          | some p => exact absurd ((plugin_iff x p).1 hx) (h1 p)
        rw [List.filterMap_cons_none hx, (ih ps).2 h2]

theorem plugins_of (o : Obj) (ps : List Plugin) : pluginsFromJson o = ps ↔
    ((∃ a, RuleJson.get "plugins" o = some (.arr a) ∧ PluginsOf a ps) ∨
      ((∀ a, RuleJson.get "plugins" o ≠ some (.arr a)) ∧ ps = [])) := by
  unfold pluginsFromJson
  show (match RuleJson.get "plugins" o with | some (.arr items) => items.filterMap pluginFromJson | _ => []) = ps ↔ _
  constructor
  · intro h
    subst h
    split
    · rename_i a ha; exact .inl ⟨a, ha, (pluginsOf_iff a _).1 rfl⟩
    · rename_i hn; exact .inr ⟨hn, rfl⟩
  · rintro (⟨a, h1, h2⟩ | ⟨h1, rfl⟩)
    · rw [h1]; exact (pluginsOf_iff a ps).2 h2
    · split
      · rename_i a ha; exact absurd ha (h1 a)
      · rfl

/-- **C172** (pacts): a V4 pact that is read is the one that its file stands for. -/
theorem C172_pact (E : FileEnv) (v : Json) (p : V4Pact) (h : pactFromJson E v = .ok p) : PactIs E v p := by
  obtain ⟨is, h1, h2⟩ := Res.map_eq_ok.1 h
  subst h2
  unfold interactionsFromJson at h1
  refine ⟨(name_iff _ _ v _).1 rfl, (name_iff _ _ v _).1 rfl, fun a ha => ?_, fun hn => ?_,
    ⟨_, (object_iff "metadata" v _).1 rfl, rfl, (plugins_of _ _).1 rfl⟩⟩
  · rw [ha] at h1
    obtain ⟨h3, h4⟩ := loop_ok E a 0 is h1
    exact ⟨h3, fun i x y hx hy => by have h5 := h4 i x y hx hy; rw [Nat.zero_add] at h5; exact h5⟩
  · split at h1
    · rename_i a ha; exact absurd ha (hn a)
    · cases h1; rfl

/-- **C172** (pacts, nothing is refused): a file that stands for a pact is read, as that pact. -/
theorem C172_pact_read (E : FileEnv) (v : Json) (p : V4Pact) (h : PactIs E v p) :
    ∃ q, pactFromJson E v = .ok q ∧ q.consumer = p.consumer ∧ q.provider = p.provider ∧ q.metadata = p.metadata
      ∧ q.plugins = p.plugins ∧ Each SameInteraction q.interactions p.interactions := by
  have hi : ∃ is, interactionsFromJson E v = .ok is ∧ Each SameInteraction is p.interactions := by
    unfold interactionsFromJson
    split
    · rename_i a ha
      obtain ⟨h1, h2⟩ := h.interactions a ha
      exact loop_read E a 0 p.interactions h1 (fun j x y hx hy => by rw [Nat.zero_add]; exact h2 j x y hx hy)
    · rename_i hn
      exact ⟨[], rfl, by rw [h.noInteractions hn]; exact .nil⟩
  obtain ⟨is, h1, h2⟩ := hi
  obtain ⟨o, h3, h4, h5⟩ := h.metadata
  unfold pactFromJson
  simp only
  rw [h1]
  refine ⟨_, rfl, (name_iff _ _ v _).2 h.consumer, (name_iff _ _ v _).2 h.provider, ?_, ?_, h2⟩
  · show (objAttr "metadata" v).filter _ = _
    rw [(object_iff _ v o).2 h3, h4]
  · show pluginsFromJson (objAttr "metadata" v) = _
    rw [(object_iff _ v o).2 h3, (plugins_of o p.plugins).2 h5]

/-- **C172** (one bad entry): a file with an entry that stands for no interaction is not read. -/
theorem C172_refused (E : FileEnv) (v x : Json) (a : List Json) (i : Nat) (ha : vget "interactions" v = some (.arr a))
    (hx : a[i]? = some x) (h : ∀ y, ¬ InteractionIs E i x y) : ∀ p, pactFromJson E v ≠ .ok p := by
  intro p hp
  obtain ⟨h1, h2⟩ := (C172_pact E v p hp).interactions a ha
  obtain ⟨hlt, _⟩ := List.getElem?_eq_some_iff.1 hx
  exact h _ (h2 i x _ hx (List.getElem?_eq_getElem (h1 ▸ hlt)))

/-! ## Non-vacuity -/

/-- `{"type": "Asynchronous/Messages", "providerState": "old", "pending": "yes", "contents": {"content": "hi"}}`. -/
def exMessage : Json :=
  .obj [("type".toList, .str "Asynchronous/Messages".toList), ("providerState".toList, .str "old".toList),
    ("pending".toList, .str "yes".toList), ("contents".toList, .obj [("content".toList, .str "hi".toList)])]

/-- A file with a consumer, a plugin that is understood and one that is not, and that message. -/
def exFile : Json :=
  .obj [("consumer".toList, .obj [("name".toList, .str "c".toList)]),
    ("interactions".toList, .arr [exMessage]),
    ("metadata".toList, .obj [("plugins".toList, .arr [.obj [("name".toList, .str "p".toList), ("version".toList, .str "1".toList)],
      .obj [("name".toList, .str "q".toList)]]), ("x".toList, .num (.pos 1))])]

set_option maxRecDepth 100000 in
theorem example_file : ∃ p m c, pactFromJson PactFileProps.exE exFile = .ok p ∧ p.consumer = "c".toList
    ∧ p.provider = "provider".toList ∧ p.plugins = [⟨"p".toList, "1".toList, []⟩] ∧ p.metadata = [("x".toList, .num (.pos 1))]
    ∧ p.interactions = [.async c m] ∧ c.states = [⟨"old".toList, []⟩] ∧ c.pending = false
    ∧ c.description = "Interaction 0".toList ∧ m.contents = .present (utf8 "hi".toList) (some .unknown) none :=
  ⟨_, _, _, rfl, rfl, rfl, rfl, rfl, rfl, rfl, rfl, by decide +kernel, by decide +kernel⟩

theorem example_refused : ∀ p, pactFromJson PactFileProps.exE (.obj [("interactions".toList, .arr [.obj []])]) ≠ .ok p :=
  C172_refused _ _ (.obj []) _ 0 rfl rfl (by
    intro y h
    cases h with
    | http t _ _ _ h1 => cases h1
    | async t _ _ h1 => cases h1
    | sync t _ _ _ _ _ h1 => cases h1)


end ReadFileProps
end Verif
