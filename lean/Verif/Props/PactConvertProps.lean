import Verif.Props.PactLoadProps

/-
  C81: conversions between the V3 and V4 models, and what a V4 pact written for an older specification keeps.
-/

set_option autoImplicit false

namespace Verif
namespace PactConvertProps
open PactV3 PactFile PactFileProps PactV3Props PactLoadProps Rules RuleJson Generate Query Headers

/-! ### Specification -/

/-- The V3 form of an HTTP interaction. -/
def AsHttp (i : Interaction) (h : HttpInteraction) : Prop :=
  ∃ c req resp, i = .http c req resp ∧ h = ⟨c.id, c.description, c.states, req, resp⟩

/-- The content type of contents, as JSON. -/
def typeText : FBody → Option Json
  | .present _ (some ct) _ => some (.str ct.display)
  | _ => none

/-- The metadata of a message in V3 form have the content type of the contents, unless there is one already. -/
def MetaAdded (contents : FBody) (m m' : Obj) : Prop :=
  (∀ q, q ≠ "contentType".toList → Json.lookup q m' = Json.lookup q m) ∧
  Json.lookup "contentType".toList m' = (Json.lookup "contentType".toList m).or
    (typeText contents)

/-- The V3 form of a message. -/
def AsMessage (i : Interaction) (m : Message) : Prop :=
  ∃ c k, i = .async c k ∧ m.id = c.id ∧ m.description = c.description ∧ m.states = c.states ∧ m.contents = k.contents ∧
    MetaAdded k.contents k.metadata m.metadata ∧ m.rules = k.rules ∧ m.gens = k.gens

def AllHttp (p : V4Pact) : Prop := ∀ i ∈ p.interactions, ∃ c req resp, i = .http c req resp
def AllAsync (p : V4Pact) : Prop := ∀ i ∈ p.interactions, ∃ c m, i = .async c m

/-- The rules of a message are in a table under the name of the table. -/
def Named (m : MatchingRules) : Prop := ∀ e ∈ m, e.2.name = e.1

/-- The V3 form of an entry of the metadata: objects, with the values as texts. -/
def AsPart : Option Json → Option (List (Str × Str)) → Prop
  | some (.obj o), some p => ∀ q, Json.lookup q p = (Json.lookup q o).map Json.toStr
  | some (.obj _), none => False
  | _, p => p = none

/-- The metadata are maps of maps. -/
def MapsOk (m : Obj) : Prop := IsMap m ∧ ∀ k o, (k, Json.obj o) ∈ m → IsMap o

/-! ### Lemmas -/

theorem content_body (uc : UC) : catParse uc "content".toList = .body := by
  unfold catParse
  rw [uc.lower_ascii _ (by decide)]
  decide

theorem body_body (uc : UC) : catParse uc "body".toList = .body := RuleJsonProps.catParse_name uc .body

theorem renameRules_same (c : Category) (m : MatchingRules) (h : Named m) : renameRules c c m = m := by
  unfold renameRules
  have : ∀ e ∈ m, (if e.1 = c then (c, { e.2 with name := c }) else e) = e := by
    intro e he
    split
    · rename_i hc
      obtain ⟨k, t⟩ := e
      have hn : t.name = k := h _ he
      cases hc
      cases t
      cases hn
      rfl
    · rfl
  conv => rhs; rw [← List.map_id m]
  exact List.map_congr_left this

theorem renameRules_named (a b : Category) (m : MatchingRules) (h : Named m) : Named (renameRules a b m) := by
  intro e he
  obtain ⟨x, hx, rfl⟩ := List.mem_map.1 he
  split
  · rfl
  · exact h x hx

theorem metaAdded (contents : FBody) (m : Obj) : MetaAdded contents m (withBodyCT contents m) := by
  unfold MetaAdded withBodyCT
  rw [show RuleJson.get "contentType" m = Json.lookup "contentType".toList m from rfl]
  cases hb : bodyCT contents with
  | none =>
    refine ⟨fun _ _ => rfl, ?_⟩
    have : typeText contents = none := by
      cases contents with
      | present b ct hint => cases ct with
        | none => rfl
        | some ct => cases hb
      | _ => rfl
    rw [this]; cases Json.lookup "contentType".toList m <;> rfl
  | some ct =>
    have : typeText contents = some (Json.str ct.display) := by
      cases contents with
      | present b c hint => cases c with
        | none => cases hb
        | some c => cases hb; rfl
      | _ => cases hb
    rw [this]
    cases hl : Json.lookup "contentType".toList m with
    | none =>
      refine ⟨fun q hq => ?_, ?_⟩
      · rw [lookup_append', lookup_one, if_neg (Ne.symm hq)]
        cases Json.lookup q m <;> rfl
      · rw [lookup_append', hl, lookup_one, if_pos rfl]
    | some v => exact ⟨fun _ _ => rfl, by rw [hl]; rfl⟩

theorem asHttp_iff (i : Interaction) (h : HttpInteraction) : asHttp i = some h ↔ AsHttp i h := by
  constructor
  · intro e
    cases i with
    | http c req resp => cases e; exact ⟨c, req, resp, rfl, rfl⟩
    | _ => cases e
  · rintro ⟨c, req, resp, rfl, rfl⟩; rfl

theorem asMessage_of (uc : UC) (c : Common) (k : MessageContents) (hn : Named k.rules) :
    ∃ m, asMessage uc (.async c k) = some m ∧ AsMessage (.async c k) m :=
  ⟨_, rfl, c, k, rfl, rfl, rfl, rfl, rfl, metaAdded _ _, by
    rw [content_body, body_body]; exact renameRules_same _ _ hn, rfl⟩

theorem filterMap_each {A B : Type} (f : A → Option B) (R : A → B → Prop) (l : List A)
    (h : ∀ a ∈ l, ∃ b, f a = some b ∧ R a b) : Each R l (l.filterMap f) := by
  induction l with
  | nil => trivial
  | cons a as ih =>
    obtain ⟨b, h1, h2⟩ := h a List.mem_cons_self
    rw [List.filterMap_cons, h1]
    exact ⟨h2, ih fun x hx => h x (List.mem_cons_of_mem _ hx)⟩

theorem each_trans {A B C : Type} {R : A → B → Prop} {S : B → C → Prop} : ∀ (l : List A) (m : List B) (n : List C),
    Each R l m → Each S m n → Each (fun a c => ∃ b, R a b ∧ S b c) l n
  | [], [], [], _, _ => trivial
  | [], [], _ :: _, _, h => h.elim
  | [], _ :: _, _, h, _ => h.elim
  | _ :: _, [], _, h, _ => h.elim
  | _ :: _, _ :: _, [], _, h => h.elim
  | _ :: as, b :: bs, _ :: cs, h, k => ⟨⟨b, h.1, k.1⟩, each_trans as bs cs h.2 k.2⟩

theorem each_imp {A B : Type} {R S : A → B → Prop} : ∀ (l : List A) (m : List B),
    (∀ a ∈ l, ∀ b, R a b → S a b) → Each R l m → Each S l m
  | [], [], _, _ => trivial
  | [], _ :: _, _, h => h.elim
  | _ :: _, [], _, h => h.elim
  | a :: as, b :: bs, f, h => ⟨f a List.mem_cons_self b h.1, each_imp as bs (fun x hx => f x (List.mem_cons_of_mem _ hx)) h.2⟩

theorem filterMap_keys {A B : Type} (f : Str × A → Option (Str × B)) (hf : ∀ e x, f e = some x → x.1 = e.1)
    (l : List (Str × A)) (hn : IsMap l) : IsMap (l.filterMap f) ∧
      ∀ q, Json.lookup q (l.filterMap f) = (Json.lookup q l).bind fun v => (f (q, v)).map (·.2) := by
  induction l with
  | nil => exact ⟨List.nodup_nil, fun _ => rfl⟩
  | cons e es ih =>
    obtain ⟨k, v⟩ := e
    have hk : k ∉ es.map (·.1) := (List.nodup_cons.1 hn).1
    have hi := ih (List.nodup_cons.1 hn).2
    have hq : ∀ q, Json.lookup q ((k, v) :: es) = if k = q then some v else Json.lookup q es := fun _ => rfl
    rw [List.filterMap_cons]
    cases hfe : f (k, v) with
    | none =>
      refine ⟨hi.1, fun q => ?_⟩
      show Json.lookup q (es.filterMap f) = _
      rw [hi.2, hq]
      split
      · rename_i h; subst h
        rw [lookup_none_of_not_mem _ _ hk]
        show none = (f (k, v)).map (·.2)
        rw [hfe]; rfl
      · rfl
    | some x =>
      have hx : x.1 = k := hf _ _ hfe
      obtain ⟨x1, x2⟩ := x
      cases hx
      have hm : x1 ∉ (es.filterMap f).map (·.1) := by
        intro hm
        obtain ⟨y, hy, he⟩ := List.mem_map.1 hm
        obtain ⟨z, hz, hz2⟩ := List.mem_filterMap.1 hy
        have := hf z y hz2
        exact hk (List.mem_map.2 ⟨z, hz, by rw [← this]; exact he⟩)
      refine ⟨List.nodup_cons.2 ⟨hm, hi.1⟩, fun q => ?_⟩
      show (if x1 = q then some x2 else Json.lookup q (es.filterMap f)) = _
      rw [hi.2, hq]
      split
      · rename_i h; subst h
        show some x2 = (f (x1, v)).map (·.2)
        rw [hfe]; rfl
      · rfl

theorem stringEntries_lookup (o : Obj) (h : IsMap o) (q : Str) :
    Json.lookup q (stringEntries o) = (Json.lookup q o).map Json.toStr := by
  unfold stringEntries
  rw [collect_same _ (by unfold IsMap; rw [List.map_map]; exact h) q]
  exact OMap.lookup_mapVals (fun _ v => v.toStr) o q

/-- The metadata in V3 form. -/
theorem metadataAsMessage_lookup (m : Obj) (h : MapsOk m) (q : Str) :
    AsPart (Json.lookup q m) (Json.lookup q (metadataAsMessage m)) := by
  unfold metadataAsMessage
  have hk := filterMap_keys (fun e : Str × Json => metadataEntry e.1 e.2) (by
      rintro ⟨k, v⟩ x hx
      cases v with
      | obj o => cases hx; rfl
      | _ => cases hx) m h.1
  rw [collect_same _ hk.1 q, hk.2]
  cases hl : Json.lookup q m with
  | none => rfl
  | some v =>
    cases v with
    | obj o => exact stringEntries_lookup o (h.2 q o (Json.lookup_mem hl))
    | _ => rfl

theorem metadataAsV3_lookup (m : Obj) (h : MapsOk m) (q : Str) :
    if q = "pactSpecification".toList then
      Json.lookup q (metadataAsV3 m) = (Json.lookup q m).map fun _ => [("version".toList, "3.0.0".toList)]
    else AsPart (Json.lookup q m) (Json.lookup q (metadataAsV3 m)) := by
  unfold metadataAsV3
  have hk := filterMap_keys (fun e : Str × Json =>
    if e.1 = "pactSpecification".toList then some (e.1, [("version".toList, Spec.v3.text)])
    else metadataEntry e.1 e.2) (by
      rintro ⟨k, v⟩ x hx
      simp only at hx
      split at hx
      · cases hx; rfl
      · cases v with
        | obj o => cases hx; rfl
        | _ => cases hx) m h.1
  rw [collect_same _ hk.1 q, hk.2]
  split
  · rename_i hq
    cases hl : Json.lookup q m with
    | none => rfl
    | some v =>
      rfl
  · rename_i hq
    cases hl : Json.lookup q m with
    | none => rfl
    | some v =>
      cases v with
      | obj o => exact stringEntries_lookup o (h.2 q o (Json.lookup_mem hl))
      | _ => rfl

theorem metadataAsMessage_ok (m : Obj) : MetadataOk (metadataAsMessage m) := by
  unfold metadataAsMessage
  refine ⟨OMap.collect_sorted _, fun e he => ?_⟩
  obtain ⟨x, _, hx⟩ := List.mem_filterMap.1 (RuleJsonProps.mem_collect _ _ he)
  obtain ⟨k, v⟩ := x
  cases v with
  | obj o => cases hx; exact collect_isMap _
  | _ => cases hx

theorem metadataAsV3_ok (m : Obj) : MetadataOk (metadataAsV3 m) := by
  unfold metadataAsV3
  refine ⟨OMap.collect_sorted _, fun e he => ?_⟩
  obtain ⟨x, _, hx⟩ := List.mem_filterMap.1 (RuleJsonProps.mem_collect _ _ he)
  obtain ⟨k, v⟩ := x
  simp only at hx
  split at hx
  · cases hx
    show (["version".toList] : List Str).Nodup
    decide
  · cases v with
    | obj o => cases hx; exact collect_isMap _
    | _ => cases hx

theorem kind_http (i : Interaction) : kind i = .http ↔ ∃ c req resp, i = .http c req resp := by
  cases i <;> simp [kind]

theorem kind_async (i : Interaction) : kind i = .async ↔ ∃ c m, i = .async c m := by
  cases i <;> simp [kind]

theorem bind_eq_ok {A B : Type} {r : Res A} {f : A → Res B} {b : B} : r.bind f = .ok b ↔ ∃ a, r = .ok a ∧ f a = .ok b := by
  cases r <;> simp [Res.bind]

/-- The three cases of writing a V4 pact for another specification. -/
theorem v4_cases (E : FileEnv) (spec : Spec) (h4 : spec ≠ .v4) (p : V4Pact) :
    (AllHttp p ∧ v4PactToJson E spec p = httpPactToJson E spec (v4AsHttp p)) ∨
    (¬AllHttp p ∧ AllAsync p ∧ v4PactToJson E spec p = messagePactToJson E spec (v4AsMessages E.P.uc p)) ∨
    (¬AllHttp p ∧ ¬AllAsync p ∧ v4PactToJson E spec p = .err) := by
  have hw : v4PactToJson E spec p = match p.interactions with
    | [] => httpPactToJson E spec (v4AsHttp p)
    | i :: is =>
      if is.any fun x => !decide (kind x = kind i) then .err
      else match kind i with
        | .http => httpPactToJson E spec (v4AsHttp p)
        | .async => messagePactToJson E spec (v4AsMessages E.P.uc p)
        | .sync => .err := by
    unfold v4PactToJson
    cases spec <;> first | exact absurd rfl h4 | rfl
  rw [hw]
  unfold AllHttp AllAsync
  cases hp : p.interactions with
  | nil => exact Or.inl ⟨fun i hi => (by cases hi), rfl⟩
  | cons i is =>
    simp only
    by_cases ha : (is.any fun x => !decide (kind x = kind i)) = true
    · rw [if_pos ha]
      obtain ⟨x, hx, hk⟩ := List.any_eq_true.1 ha
      have hk : kind x ≠ kind i := by simpa using hk
      refine Or.inr (Or.inr ⟨fun h => hk ?_, fun h => hk ?_, rfl⟩)
      · rw [(kind_http x).2 (h x (List.mem_cons_of_mem _ hx)), (kind_http i).2 (h i List.mem_cons_self)]
      · rw [(kind_async x).2 (h x (List.mem_cons_of_mem _ hx)), (kind_async i).2 (h i List.mem_cons_self)]
    · rw [if_neg ha]
      have hall : ∀ x ∈ i :: is, kind x = kind i := by
        intro x hx
        rcases List.mem_cons.1 hx with rfl | hx
        · rfl
        · refine Classical.byContradiction fun hn => ha (List.any_eq_true.2 ⟨x, hx, ?_⟩)
          simp [hn]
      cases hk : kind i with
      | http => exact Or.inl ⟨fun x hx => (kind_http x).1 ((hall x hx).trans hk), rfl⟩
      | async =>
        refine Or.inr (Or.inl ⟨fun h => ?_, fun x hx => (kind_async x).1 ((hall x hx).trans hk), rfl⟩)
        have := (kind_http i).2 (h i List.mem_cons_self)
        rw [hk] at this; cases this
      | sync =>
        refine Or.inr (Or.inr ⟨fun h => ?_, fun h => ?_, rfl⟩)
        · have := (kind_http i).2 (h i List.mem_cons_self)
          rw [hk] at this; cases this
        · have := (kind_async i).2 (h i List.mem_cons_self)
          rw [hk] at this; cases this

theorem v4_http (E : FileEnv) (spec : Spec) (h4 : spec ≠ .v4) (p : V4Pact) (h : AllHttp p) :
    v4PactToJson E spec p = httpPactToJson E spec (v4AsHttp p) := by
  rcases v4_cases E spec h4 p with h1 | h1 | h1
  · exact h1.2
  · exact absurd h h1.1
  · exact absurd h h1.1

theorem asPart_same {a : Option Json} {b c : Option (List (Str × Str))} (h : AsPart a b) (k : SameOpt c b) : AsPart a c := by
  cases a with
  | none =>
    cases h
    cases c with
    | none => rfl
    | some c => exact k.elim
  | some v =>
    cases v with
    | obj o =>
      cases b with
      | none => exact h.elim
      | some b =>
        cases c with
        | none => exact k.elim
        | some c => intro q; exact (k q).trans (h q)
    | _ =>
      cases h
      cases c with
      | none => rfl
      | some c => exact k.elim

/-- A pact that was converted can be written if its interactions can. -/
theorem upgrade_ok (E : FileEnv) (p : V4Pact) (md : Metadata) (h0 : p.metadata = metadataAsV4 md) (h1 : p.plugins = [])
    (hm : MetadataOk md) (hp : Json.lookup "plugins".toList md = none) (hi : ∀ i ∈ p.interactions, InteractionOk E i) :
    PactOk E p := by
  have hl : ∀ q, Json.lookup q (metadataAsV4 md) = (Json.lookup q md).map fun m =>
      Json.obj (OMap.collect (m.map fun x => (x.1, Json.str x.2))) := by
    intro q
    unfold metadataAsV4
    rw [collect_same _ (by unfold IsMap; rw [List.map_map]; exact hm.1.nodup) q]
    exact OMap.lookup_mapVals (fun _ m => Json.obj (OMap.collect (m.map fun x => (x.1, Json.str x.2)))) md q
  refine ⟨hi, ?_, ?_, ?_, ?_⟩
  · rw [h0]; exact OMap.collect_sorted _
  · rw [h0, hl, hp]; rfl
  · intro m hm'
    rw [h0, hl, hl] at hm'
    have : ∃ x : List (Str × Str), m = OMap.collect (x.map fun x => (x.1, Json.str x.2)) := by
      cases ha : Json.lookup "pactRust".toList md with
      | some a => rw [ha] at hm'; cases hm'; exact ⟨a, rfl⟩
      | none =>
        rw [ha] at hm'
        cases hb : Json.lookup "pact-rust".toList md with
        | some b => rw [hb] at hm'; cases hm'; exact ⟨b, rfl⟩
        | none => rw [hb] at hm'; cases hm'
    obtain ⟨x, rfl⟩ := this
    exact OMap.collect_sorted _
  · intro d hd; rw [h1] at hd; cases hd

/-! ### Theorems -/

/-- **C81 (there and back).** A request/response pact as a V4 pact and back is the same pact, for V3 now. -/
theorem C81_http (p : HttpPact) (h : MetadataOk p.metadata) :
    (v4AsHttp (httpPactAsV4 p)).consumer = p.consumer ∧ (v4AsHttp (httpPactAsV4 p)).provider = p.provider ∧
    (v4AsHttp (httpPactAsV4 p)).interactions = p.interactions ∧ (v4AsHttp (httpPactAsV4 p)).spec = .v3 ∧
    ∀ q, if q = "pactSpecification".toList then Json.lookup q (v4AsHttp (httpPactAsV4 p)).metadata
        = (Json.lookup q p.metadata).map fun _ => [("version".toList, "3.0.0".toList)]
      else SameOpt (Json.lookup q (v4AsHttp (httpPactAsV4 p)).metadata) (Json.lookup q p.metadata) := by
  have hl : ∀ q, Json.lookup q (metadataAsV4 p.metadata) = (Json.lookup q p.metadata).map fun m =>
      Json.obj (OMap.collect (m.map fun x => (x.1, Json.str x.2))) := by
    intro q
    unfold metadataAsV4
    rw [collect_same _ (by unfold IsMap; rw [List.map_map]; exact h.1.nodup) q]
    exact OMap.lookup_mapVals (fun _ m => Json.obj (OMap.collect (m.map fun x => (x.1, Json.str x.2)))) p.metadata q
  refine ⟨rfl, rfl, ?_, rfl, fun q => ?_⟩
  · show (p.interactions.map httpAsV4).filterMap asHttp = p.interactions
    rw [List.filterMap_map]
    have : asHttp ∘ httpAsV4 = some := by funext i; rfl
    rw [this, List.filterMap_some]
  · have hm : MapsOk (metadataAsV4 p.metadata) := by
      refine ⟨collect_isMap _, fun k o ho => ?_⟩
      obtain ⟨e, _, he⟩ := List.mem_map.1 (RuleJsonProps.mem_collect _ _ ho)
      have := (Prod.mk.inj he).2
      injection this with this
      rw [← this]; exact collect_isMap _
    have := metadataAsV3_lookup (metadataAsV4 p.metadata) hm q
    show if q = _ then Json.lookup q (metadataAsV3 (metadataAsV4 p.metadata)) = _
      else SameOpt (Json.lookup q (metadataAsV3 (metadataAsV4 p.metadata))) _
    rw [hl] at this
    split at this
    · rename_i hq
      rw [if_pos hq, this]
      cases Json.lookup q p.metadata <;> rfl
    · rename_i hq
      rw [if_neg hq]
      cases hq2 : Json.lookup q p.metadata with
      | none => rw [hq2] at this; rw [show Json.lookup q (metadataAsV3 (metadataAsV4 p.metadata)) = none from this]; trivial
      | some m =>
        rw [hq2] at this
        cases hq3 : Json.lookup q (metadataAsV3 (metadataAsV4 p.metadata)) with
        | none => rw [hq3] at this; exact this.elim
        | some m' =>
          rw [hq3] at this
          intro x
          have hx : Json.lookup x m' = (Json.lookup x (OMap.collect (m.map fun x => (x.1, Json.str x.2)))).map Json.toStr := this x
          have hmm : IsMap m := h.2 _ (Json.lookup_mem hq2)
          rw [hx, collect_same _ (by unfold IsMap; rw [List.map_map]; exact hmm) x,
            OMap.lookup_mapVals (fun _ v => Json.str v)]
          cases Json.lookup x m <;> rfl

/-- **C81 (messages, there and back).** A message as a V4 message and back is the same message, with the content type of
its contents in the metadata. -/
theorem C81_message (uc : UC) (m : Message) (hn : Named m.rules) :
    ∃ m', asMessage uc (messageAsV4 uc m) = some m' ∧ m'.id = m.id ∧ m'.description = m.description ∧
      m'.states = m.states ∧ m'.contents = m.contents ∧ m'.rules = m.rules ∧ m'.gens = m.gens ∧
      MetaAdded m.contents m.metadata m'.metadata := by
  have hr : renameRules (catParse uc "body".toList) (catParse uc "content".toList) m.rules = m.rules := by
    rw [content_body, body_body]; exact renameRules_same _ _ hn
  refine ⟨_, rfl, rfl, rfl, rfl, rfl, ?_, rfl, metaAdded _ _⟩
  show renameRules (catParse uc "content".toList) (catParse uc "body".toList)
    (renameRules (catParse uc "body".toList) (catParse uc "content".toList) m.rules) = m.rules
  rw [hr, content_body, body_body]
  exact renameRules_same _ _ hn

/-- **C81 (nothing dropped).** A V4 pact that is written for an older specification has interactions of one kind only, and
all of them are in the file, in their order and with their descriptions. -/
theorem C81_all_written (E : FileEnv) (spec : Spec) (h4 : spec ≠ .v4) (p : V4Pact) (j : Json)
    (h : v4PactToJson E spec p = .ok j) :
    (AllHttp p ∧ ∃ js, vget "interactions" j = some (.arr js) ∧
      Each (fun i v => vget "description" v = some (.str i.common.description)) p.interactions js) ∨
    (AllAsync p ∧ spec = .v3 ∧ ∃ js, vget "messages" j = some (.arr js) ∧
      Each (fun i v => vget "description" v = some (.str i.common.description)) p.interactions js) := by
  rcases v4_cases E spec h4 p with ⟨h1, h2⟩ | ⟨_, h1, h2⟩ | ⟨_, _, h2⟩
  · left
    rw [h2] at h
    have hw : httpPactToJson E spec (v4AsHttp p) = (allOk ((v4AsHttp p).interactions.map (PactV3.httpToJson E spec))).map fun is =>
      obj [("consumer", obj [("name", .str p.consumer)]), ("provider", obj [("name", .str p.provider)]),
        ("interactions", .arr is), ("metadata", metadataJson E spec (v4AsHttp p).metadata)] := by
      unfold httpPactToJson
      cases spec <;> first | exact absurd rfl h4 | rfl
    rw [hw] at h
    obtain ⟨js, hjs, rfl⟩ := (Res.map_eq_ok).1 h
    refine ⟨h1, js, by rw [vget_obj]; vget_simp, ?_⟩
    have he : Each AsHttp p.interactions (v4AsHttp p).interactions :=
      filterMap_each asHttp AsHttp p.interactions (fun a ha => by
        obtain ⟨c, req, resp, rfl⟩ := h1 a ha
        exact ⟨_, rfl, c, req, resp, rfl, rfl⟩)
    have hd : ∀ (l : List HttpInteraction) (js : List Json), allOk (l.map (PactV3.httpToJson E spec)) = .ok js →
        Each (fun (i : HttpInteraction) v => vget "description" v = some (.str i.description)) l js := by
      intro l
      induction l with
      | nil => intro js h; cases h; trivial
      | cons i is ih =>
        intro js h
        rw [List.map_cons, allOk] at h
        obtain ⟨x, hx, h⟩ := bind_eq_ok.1 h
        obtain ⟨xs, hxs, rfl⟩ := Res.map_eq_ok.1 h
        refine ⟨?_, ih xs hxs⟩
        unfold PactV3.httpToJson at hx
        obtain ⟨r, _, rfl⟩ := Res.map_eq_ok.1 hx
        rw [vget_obj]
        cases i.states with
        | nil => vget_simp; rfl
        | cons s ss => cases spec <;> (unfold stateAttrs; vget_simp)
    refine each_imp _ _ ?_ (each_trans _ _ _ he (hd _ _ hjs))
    rintro a _ b ⟨x, ⟨c, req, resp, rfl, rfl⟩, hx⟩
    exact hx
  · right
    rw [h2] at h
    cases spec with
    | v3 =>
      unfold messagePactToJson at h
      simp only at h
      cases h
      refine ⟨h1, rfl, (v4AsMessages E.P.uc p).messages.map (PactV3.messageToJson E .v3), by rw [vget_obj]; vget_simp, ?_⟩
      have : ∀ l : List Interaction, (∀ i ∈ l, ∃ c m, i = .async c m) →
          Each (fun i v => vget "description" v = some (.str i.common.description)) l
            ((l.filterMap (asMessage E.P.uc)).map (PactV3.messageToJson E .v3)) := by
        intro l
        induction l with
        | nil => intro _; trivial
        | cons i is ih =>
          intro hl
          obtain ⟨c, k, rfl⟩ := hl i List.mem_cons_self
          rw [List.filterMap_cons]
          refine ⟨?_, ih fun x hx => hl x (List.mem_cons_of_mem _ hx)⟩
          show vget "description" (PactV3.messageToJson E .v3 _) = some (.str c.description)
          unfold PactV3.messageToJson partAttrs
          rw [vget_obj]
          vget_simp
      exact this _ h1
    | v4 => exact absurd rfl h4
    | _ => cases h
  · rw [h2] at h; cases h

/-- **C81 (what is refused).** For V3 a V4 pact is written exactly if all its interactions are HTTP interactions, or all
are asynchronous messages; for the other specifications only request/response pacts are written. -/
theorem C81_v3_writable (E : FileEnv) (p : V4Pact) : (∃ j, v4PactToJson E .v3 p = .ok j) ↔ AllHttp p ∨ AllAsync p := by
  have hall : ∀ l : List HttpInteraction, ∃ js, allOk (l.map (PactV3.httpToJson E .v3)) = .ok js := by
    intro l
    induction l with
    | nil => exact ⟨[], rfl⟩
    | cons i is ih =>
      obtain ⟨js, hjs⟩ := ih
      have hi : ∃ j, PactV3.httpToJson E .v3 i = .ok j := by
        unfold PactV3.httpToJson PactV3.requestToJson
        cases hq : i.request.query <;> exact ⟨_, rfl⟩
      obtain ⟨j, hj⟩ := hi
      exact ⟨j :: js, by rw [List.map_cons, allOk, hj, Res.bind_ok, hjs, Res.map_ok]⟩
  rcases v4_cases E .v3 (by decide) p with ⟨h1, h2⟩ | ⟨_, h1, h2⟩ | ⟨h0, h1, h2⟩
  · refine ⟨fun _ => Or.inl h1, fun _ => ?_⟩
    rw [h2]
    obtain ⟨js, hjs⟩ := hall (v4AsHttp p).interactions
    unfold httpPactToJson
    simp only [hjs, Res.map_ok]
    exact ⟨_, rfl⟩
  · exact ⟨fun _ => Or.inr h1, fun _ => by rw [h2]; exact ⟨_, rfl⟩⟩
  · constructor
    · rintro ⟨j, hj⟩; rw [h2] at hj; cases hj
    · rintro (h | h)
      · exact absurd h h0
      · exact absurd h h1

theorem C81_old_refused (E : FileEnv) (spec : Spec) (h4 : spec ≠ .v4) (h3 : spec ≠ .v3) (p : V4Pact) (h : ¬AllHttp p) :
    v4PactToJson E spec p = .err := by
  rcases v4_cases E spec h4 p with ⟨h1, _⟩ | ⟨_, _, h2⟩ | ⟨_, _, h2⟩
  · exact absurd h1 h
  · rw [h2]
    cases spec with
    | v3 => exact absurd rfl h3
    | v4 => exact absurd rfl h4
    | _ => rfl
  · exact h2

/-- **C81 (downgrade).** A V4 pact of HTTP interactions that a V3 file can hold is written for V3, and loading the file
gives a request/response pact with all the interactions. -/
theorem C81_downgrade_http (E : FileEnv) (hv : VersionRead E .v3) (p : V4Pact) (hm : MapsOk p.metadata)
    (h : ∀ i ∈ p.interactions, ∃ x, AsHttp i x ∧ HttpOk E x) :
    ∃ o p', v4PactToJson E .v3 p = .ok (.obj o) ∧ loadPact E (.obj o) = .ok (.http p') ∧
      p'.consumer = p.consumer ∧ p'.provider = p.provider ∧ p'.spec = .v3 ∧
      Each (fun i i' => ∃ x, AsHttp i x ∧ SameHttp E x i') p.interactions p'.interactions ∧
      ∀ q, q ∉ ["pactSpecification".toList, "pact-specification".toList, "pactRust".toList, "pact-rust".toList] →
        AsPart (Json.lookup q p.metadata) (Json.lookup q p'.metadata) := by
  have hh : AllHttp p := fun i hi => by
    obtain ⟨x, ⟨c, req, resp, rfl, _⟩, _⟩ := h i hi
    exact ⟨c, req, resp, rfl⟩
  have he : Each AsHttp p.interactions (v4AsHttp p).interactions :=
    filterMap_each asHttp AsHttp p.interactions (fun a ha => by
      obtain ⟨x, hx, _⟩ := h a ha
      exact ⟨x, (asHttp_iff a x).2 hx, hx⟩)
  have hok : HttpPactOk E (v4AsHttp p) := by
    refine ⟨fun x hx => ?_, metadataAsV3_ok _⟩
    obtain ⟨i, hi, hix⟩ := List.mem_filterMap.1 hx
    obtain ⟨y, hy, hyk⟩ := h i hi
    rw [(asHttp_iff i y).2 hy] at hix
    cases hix; exact hyk
  obtain ⟨o, p', h1, h2, h3, h4⟩ := C77_pact_partial E hv (v4AsHttp p) hok
  refine ⟨o, p', by rw [v4_http E .v3 (by decide) p hh]; exact h1, h2, h4.consumer, h4.provider, ?_,
    each_trans _ _ _ he h4.interactions, fun q hq => ?_⟩
  · have hs := spec_read E .v3 _ _ h4.metadata hv
    exact h4.spec
  · have h5 := h4.metadata.others q hq
    have h6 := metadataAsV3_lookup p.metadata hm q
    rw [if_neg (fun hc => hq (by rw [hc]; exact List.mem_cons_self))] at h6
    exact asPart_same h6 h5

/-- **C81 (downgrade of messages).** -/
theorem C81_downgrade_messages (E : FileEnv) (hv : VersionRead E .v3) (p : V4Pact) (hm : MapsOk p.metadata)
    (hne : p.interactions ≠ [])
    (h : ∀ i ∈ p.interactions, ∃ c k, i = .async c k ∧ Named k.rules ∧ ∀ m, asMessage E.P.uc i = some m → MessageV3 E m) :
    ∃ o p', v4PactToJson E .v3 p = .ok (.obj o) ∧ loadPact E (.obj o) = .ok (.message p') ∧
      p'.consumer = p.consumer ∧ p'.provider = p.provider ∧ p'.spec = .v3 ∧
      Each (fun i i' => ∃ m, AsMessage i m ∧ SameMessageV3 E m i') p.interactions p'.messages ∧
      ∀ q, q ∉ ["pactSpecification".toList, "pact-specification".toList, "pactRust".toList, "pact-rust".toList] →
        AsPart (Json.lookup q p.metadata) (Json.lookup q p'.metadata) := by
  have ha : AllAsync p := fun i hi => by
    obtain ⟨c, k, hk, _⟩ := h i hi
    exact ⟨c, k, hk⟩
  have hnh : ¬AllHttp p := by
    intro hh
    cases hp : p.interactions with
    | nil => exact hne hp
    | cons i is =>
      obtain ⟨c, k, hk⟩ := ha i (by rw [hp]; exact List.mem_cons_self)
      obtain ⟨_, _, _, hk2⟩ := hh i (by rw [hp]; exact List.mem_cons_self)
      rw [hk] at hk2; cases hk2
  have hw : v4PactToJson E .v3 p = messagePactToJson E .v3 (v4AsMessages E.P.uc p) := by
    rcases v4_cases E .v3 (by decide) p with ⟨h1, _⟩ | ⟨_, _, h2⟩ | ⟨_, h1, _⟩
    · exact absurd h1 hnh
    · exact h2
    · exact absurd ha h1
  have he : Each AsMessage p.interactions (v4AsMessages E.P.uc p).messages :=
    filterMap_each (asMessage E.P.uc) AsMessage p.interactions (fun a ha => by
      obtain ⟨c, k, rfl, hn, _⟩ := h a ha
      exact asMessage_of E.P.uc c k hn)
  have hok : MessagePactOk E (v4AsMessages E.P.uc p) := by
    refine ⟨fun x hx => ?_, metadataAsMessage_ok _⟩
    obtain ⟨i, hi, hix⟩ := List.mem_filterMap.1 hx
    obtain ⟨c, k, rfl, hn, hok⟩ := h i hi
    obtain ⟨m, h1, h2⟩ := asMessage_of E.P.uc c k hn
    exact hok _ hix
  obtain ⟨o, p', h1, h2, h3, h4⟩ := C78_pact_partial E hv (v4AsMessages E.P.uc p) hok
  refine ⟨o, p', by rw [hw]; exact h1, h2, h4.consumer, h4.provider, h4.spec, each_trans _ _ _ he h4.messages, fun q hq => ?_⟩
  exact asPart_same (metadataAsMessage_lookup p.metadata hm q) (h4.metadata.others q hq)

/-- **C81 (V4 files).** A V4 file is loaded as a V4 pact. -/
theorem C81_v4_file (E : FileEnv) (hv : VersionRead E .v4) (p : V4Pact) (h : PactOk E p) :
    ∃ o p', v4PactToJson E .v4 p = .ok (.obj o) ∧ loadPact E (.obj o) = .ok (.v4 p') ∧ SamePact E p p' := by
  obtain ⟨j, p', h1, h2, h3⟩ := C75_pact_partial E p h
  have h1' := h1
  unfold pactToJson at h1
  obtain ⟨is, _, hj⟩ := Res.map_eq_ok.1 h1
  have hm : vget "metadata" j = some (metadataToJson E p) := by rw [← hj, vget_obj]; vget_simp
  have ho : ∃ o, j = .obj o := ⟨_, hj.symm⟩
  obtain ⟨o, rfl⟩ := ho
  refine ⟨o, p', h1', ?_, h3⟩
  have hspec : determineSpec E (parseMetadata (.obj o)) = .v4 := by
    unfold determineSpec
    have hobj : ∃ md, metadataToJson E p = .obj md ∧ Json.SortedKeys (md.map (·.1)) ∧
        Json.lookup "pactSpecification".toList md = some (obj [("version", lit "4.0")]) := by
      have hs1 := OMap.collect_sorted (p.metadata.map fun e => (metadataKey e.1, e.2))
      have hs2 := OMap.insert_sorted "pactSpecification".toList (obj [("version", lit "4.0")]) _ hs1
      have hs3 := fun v => OMap.insert_sorted "pactRust".toList v _ hs2
      unfold metadataToJson
      refine ⟨_, rfl, ?_, ?_⟩
      · split
        · exact hs3 _
        · exact OMap.insert_sorted _ _ _ (hs3 _)
      · split
        · rw [OMap.lookup_insert _ _ _ hs2, if_neg (by decide), OMap.lookup_insert _ _ _ hs1, if_pos rfl]
        · rw [OMap.lookup_insert _ _ _ (hs3 _), if_neg (by decide), OMap.lookup_insert _ _ _ hs2, if_neg (by decide),
            OMap.lookup_insert _ _ _ hs1, if_pos rfl]
    obtain ⟨md, hmd, hs, hl⟩ := hobj
    have hat : objAttr "metadata" (.obj o) = md := by
      unfold objAttr
      rw [hm, hmd]
    have hold : Json.lookup "pact-specification".toList (parseMetadata (.obj o)) = none := by
      rw [parsed_lookup, renamed_old _ _ (Or.inl rfl)]; rfl
    rw [hold, parsed_lookup, hat, renamed_spec md hs, hl]
    exact hv
  unfold loadPact
  simp only [hspec, if_true]
  rw [h2]; rfl

/-- **C81 (upgrade).** A request/response pact written for V4 is loaded as a V4 pact with all the interactions, as HTTP
interactions, in the order of their descriptions. -/
theorem C81_upgrade_http (E : FileEnv) (hv : VersionRead E .v4) (p : HttpPact)
    (hi : ∀ i ∈ p.interactions, InteractionOk E (httpAsV4 i)) (hp : Json.lookup "plugins".toList p.metadata = none)
    (hm : MetadataOk p.metadata) :
    ∃ o p', httpPactToJson E .v4 p = .ok (.obj o) ∧ loadPact E (.obj o) = .ok (.v4 p') ∧
      p'.consumer = p.consumer ∧ p'.provider = p.provider ∧ p'.plugins = [] ∧
      ∃ s, FileOrder (p.interactions.map fun i =>
          .http ⟨i.id, none, i.description, i.states, [], false, [], ⟨[], []⟩, none⟩ i.request i.response) s ∧
        Each (SameInteraction E) s p'.interactions := by
  have hok := upgrade_ok E (httpPactAsV4 p) p.metadata rfl rfl hm hp (by
    intro x hx
    obtain ⟨i, hi', rfl⟩ := List.mem_map.1 hx
    exact hi i hi')
  obtain ⟨o, p', h1, h2, h3⟩ := C81_v4_file E hv (httpPactAsV4 p) hok
  refine ⟨o, p', h1, h2, h3.consumer, h3.provider, ?_, h3.interactions⟩
  have := h3.plugins
  cases hpl : p'.plugins with
  | nil => rfl
  | cons a as => rw [hpl] at this; exact this.elim

/-- **C81 (upgrade of messages).** -/
theorem C81_upgrade_messages (E : FileEnv) (hv : VersionRead E .v4) (p : MessagePact)
    (hi : ∀ m ∈ p.messages, Named m.rules ∧ InteractionOk E (.async
      ⟨m.id, none, m.description, m.states, [], false, [], ⟨[], []⟩, none⟩ ⟨m.contents, m.metadata, m.rules, m.gens⟩))
    (hp : Json.lookup "plugins".toList p.metadata = none) (hm : MetadataOk p.metadata) :
    ∃ o p', messagePactToJson E .v4 p = .ok (.obj o) ∧ loadPact E (.obj o) = .ok (.v4 p') ∧
      p'.consumer = p.consumer ∧ p'.provider = p.provider ∧ p'.plugins = [] ∧
      ∃ s, FileOrder (p.messages.map fun m =>
          .async ⟨m.id, none, m.description, m.states, [], false, [], ⟨[], []⟩, none⟩ ⟨m.contents, m.metadata, m.rules, m.gens⟩) s ∧
        Each (SameInteraction E) s p'.interactions := by
  have hcv : ∀ m ∈ p.messages, messageAsV4 E.P.uc m = .async
      ⟨m.id, none, m.description, m.states, [], false, [], ⟨[], []⟩, none⟩ ⟨m.contents, m.metadata, m.rules, m.gens⟩ := by
    intro m hm'
    unfold messageAsV4
    rw [content_body, body_body, renameRules_same _ _ (hi m hm').1]
    rfl
  have hok := upgrade_ok E (messagePactAsV4 E.P.uc p) p.metadata rfl rfl hm hp (by
    intro x hx
    obtain ⟨m, hm', rfl⟩ := List.mem_map.1 hx
    rw [hcv m hm']
    exact (hi m hm').2)
  obtain ⟨o, p', h1, h2, h3⟩ := C81_v4_file E hv (messagePactAsV4 E.P.uc p) hok
  refine ⟨o, p', h1, h2, h3.consumer, h3.provider, ?_, ?_⟩
  · have := h3.plugins
    cases hpl : p'.plugins with
    | nil => rfl
    | cons a as => rw [hpl] at this; exact this.elim
  · have := h3.interactions
    rw [show (messagePactAsV4 E.P.uc p).interactions = p.messages.map (messageAsV4 E.P.uc) from rfl,
      List.map_congr_left hcv] at this
    exact this

/-! ### Non-vacuity -/

def exHttpV4 : V4Pact :=
  ⟨"c".toList, "p".toList, [.http ⟨some "1".toList, some "k".toList, "d".toList, exHttp.states, [], true, [], ⟨[], []⟩, none⟩
      exHttp.request exHttp.response],
    [("a".toList, .obj [("x".toList, .num (.pos 1))]), ("b".toList, .bool true)], []⟩

theorem exHttpV4_ok : MapsOk exHttpV4.metadata ∧ ∀ i ∈ exHttpV4.interactions, ∃ x, AsHttp i x ∧ HttpOk exE3 x := by
  refine ⟨⟨by unfold IsMap; decide, ?_⟩, ?_⟩
  · intro k o h
    simp only [exHttpV4, List.mem_cons, List.not_mem_nil, or_false] at h
    rcases h with h | h
    · cases h; unfold IsMap; decide
    · cases h
  · intro i hi
    rw [List.mem_singleton.1 hi]
    exact ⟨exHttp, ⟨_, _, _, rfl, rfl⟩, exHttpPact_ok.interactions exHttp List.mem_cons_self⟩

example : ∃ o p', v4PactToJson exE3 .v3 exHttpV4 = .ok (.obj o) ∧ loadPact exE3 (.obj o) = .ok (.http p') ∧
    p'.interactions.length = 1 := by
  obtain ⟨o, p', h1, h2, _, _, _, h3, _⟩ := C81_downgrade_http exE3 exVersion exHttpV4 exHttpV4_ok.1 exHttpV4_ok.2
  refine ⟨o, p', h1, h2, ?_⟩
  cases hp : p'.interactions with
  | nil => rw [hp] at h3; exact h3.elim
  | cons a as => cases as with
    | nil => rfl
    | cons b bs => rw [hp] at h3; exact h3.2.elim

def exMessageV4 : V4Pact :=
  ⟨"c".toList, "p".toList, [messageAsV4 exE3.P.uc exMessage3], exHttpV4.metadata, []⟩

theorem exNamed : Named RuleJsonProps.exRules := fun e he => (RuleJsonProps.exRules_ok.2 e he).1.symm

example : ∃ o p', v4PactToJson exE3 .v3 exMessageV4 = .ok (.obj o) ∧ loadPact exE3 (.obj o) = .ok (.message p') := by
  obtain ⟨o, p', h1, h2, _⟩ := C81_downgrade_messages exE3 exVersion exMessageV4 exHttpV4_ok.1 (by intro h; cases h) (by
    intro i hi
    rw [List.mem_singleton.1 hi]
    refine ⟨_, _, rfl, renameRules_named _ _ _ exNamed, ?_⟩
    intro m hm
    obtain ⟨m', h1, h2⟩ := C81_message exE3.P.uc exMessage3 exNamed
    have : m = exMessage3 := by
      unfold messageAsV4 asMessage at hm
      rw [content_body, body_body] at hm
      cases hm
      show Message.mk _ _ _ _ _ (renameRules _ _ (renameRules _ _ exMessage3.rules)) _ = exMessage3
      rw [renameRules_same _ exMessage3.rules exNamed, renameRules_same _ exMessage3.rules exNamed]
      rfl
    rw [this]; exact exMessage3_ok)
  exact ⟨o, p', h1, h2⟩

theorem exVersion4 : VersionRead exE .v4 := by unfold VersionRead; decide

example : ∃ o p', v4PactToJson exE .v4 exPact = .ok (.obj o) ∧ loadPact exE (.obj o) = .ok (.v4 p') := by
  obtain ⟨o, p', h1, h2, _⟩ := C81_v4_file exE exVersion4 exPact exPact_ok
  exact ⟨o, p', h1, h2⟩

/-- The hypotheses of the upgrade: the HTTP interaction of `exPact`. -/
example : ∃ o p', httpPactToJson exE .v4 ⟨"c".toList, "p".toList, [⟨none, "d".toList, [],
      ⟨"post".toList, "/x".toList, none, none, .missing, RuleJsonProps.exRules, []⟩, ⟨204, none, .null, [], []⟩⟩],
      exHttpPact.metadata, .v3⟩ = .ok (.obj o) ∧ loadPact exE (.obj o) = .ok (.v4 p') := by
  obtain ⟨o, p', h1, h2, _⟩ := C81_upgrade_http exE exVersion4 ⟨"c".toList, "p".toList, [⟨none, "d".toList, [],
      ⟨"post".toList, "/x".toList, none, none, .missing, RuleJsonProps.exRules, []⟩, ⟨204, none, .null, [], []⟩⟩],
      exHttpPact.metadata, .v3⟩ (by
    intro i hi
    rw [List.mem_singleton.1 hi]
    refine ⟨⟨?_, List.nodup_nil, List.nodup_nil, ?_⟩, ⟨?_, ?_, ?_, RuleJsonProps.exRules_ok, emptyParts_ok.2⟩, by decide, ?_, ?_,
      emptyParts_ok⟩
    · intro p hp; cases hp
    · intro p hp; cases hp
    · intro m hm; cases hm
    · intro m hm; cases hm
    · intro ct hct b c h hb; cases ct <;> cases hb
    · intro m hm; cases hm
    · intro b c h hb; cases hb) rfl exHttpPact_ok.metadata
  exact ⟨o, p', h1, h2⟩

/-- A pact with both kinds is refused for V3. -/
example : v4PactToJson exE3 .v3 ⟨[], [], exHttpV4.interactions ++ exMessageV4.interactions, [], []⟩ = .err := by decide

end PactConvertProps
end Verif
