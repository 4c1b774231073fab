import Verif.MessageBuilders
import Verif.Props.BuilderMatchProps
import Verif.Props.SessionRuleProps

/-
  Properties C159 (asynchronous messages) and C160 (synchronous messages): the messages made by the builders of the consumer
  DSL, for every sequence of calls.
-/

set_option autoImplicit false

namespace Verif
namespace MessageBuilderProps
open Path Rules RuleJson Generate PactFile Parts Patterns Builders MessageBuilders
open PartProps (lookup_updEntry keys_upd)
open QueryProps (NodupKeys)
open BuilderProps (snoc nameOrNull)
open RuleProps (combined C35_add_rules_partial)
open SessionRuleProps (GenShape genAt_add addRule_keys)
open IntegrationProps (genAt)

/-! ## Specification -/

/-! ### The fields -/

/-- The states given, in order. -/
def statesIn (cs : List InfoCall) : List PState :=
  cs.filterMap fun
    | .given s => some (PState.mk s [])
    | .givenWithParams s (.obj m) => some (PState.mk s m)
    | .givenWithParams s _ => some (PState.mk s [])
    | _ => none
/-- The comments given, in order. -/
def commentsIn (cs : List InfoCall) : List Str := cs.filterMap fun | .comment t => some t | _ => none
/-- The names of the test given, in order. -/
def testNamesIn (cs : List InfoCall) : List Str := cs.filterMap fun | .testName t => some t | _ => none
/-- The keys given, in order. -/
def keysIn (cs : List InfoCall) : List Str := cs.filterMap fun | .withKey t => some t | _ => none
/-- What was said about pending, in order. -/
def pendingsIn (cs : List InfoCall) : List Bool := cs.filterMap fun | .pending t => some t | _ => none

/-- The fields that the calls ask for. -/
def FieldsAre (d : Str) (cs : List InfoCall) (c : Common) : Prop :=
  c = { id := none, key := (keysIn cs).getLast?, description := d, states := statesIn cs,
        comments := [("text".toList, .arr ((commentsIn cs).map .str)), ("testname".toList, nameOrNull (testNamesIn cs).getLast?)],
        pending := (pendingsIn cs).getLast?.getD false, plugins := [], markup := Markup.mk [] [], transport := none }

/-! ### The contents -/

/-- The body a call asks for. -/
def bodyIn (parseCT : Str → Option ContentType) : MsgCall → Option FBody
  | .metadata _ _ => none
  | .jsonBody p => some (.present (utf8 (toExample p).text) (some (typeOf parseCT "application/json".toList)) none)
  | .body b ct => some (.present b (ct.map (typeOf parseCT)) none)
  | .contents c => some c.contents

/-- The metadata given, in order. -/
def givenIn (cs : List MsgCall) : Obj :=
  cs.flatMap fun
    | .metadata k v => [(k, v)]
    | .contents c => c.metadata
    | _ => []

/-- The content types given with a body of bytes, in order. -/
def typesIn (cs : List MsgCall) : List Str := cs.filterMap fun | .body _ (some ct) => some ct | _ => none

/-- The value of a key of the metadata: the one given last; without one, `contentType` is the first content type given with a
body. -/
def metaValue (cs : List MsgCall) (k : Str) : Option Json :=
  match ((givenIn cs).filter fun e => decide (e.1 = k)).getLast? with
  | some e => some e.2
  | none => if k = "contentType".toList then (typesIn cs).head?.map .str else none

/-- A table of rules. -/
abbrev Table := List (DocPath × RuleList)

/-- The table of a pattern for a JSON body (of which C70 and C71 tell what it means). -/
def patternTable (p : Pattern) : Table := (jsonBody p).2.rules

/-- The table of a category of given contents. -/
def tableOf (c : Category) (m : MessageContents) : Table := (catOf m.rules c).rules

/-- The tables of rules for the body, in order. -/
def bodyTables (cs : List MsgCall) : List Table :=
  cs.filterMap fun
    | .jsonBody p => some (patternTable p)
    | .contents c => some (tableOf .body c)
    | _ => none

/-- The tables of rules for the metadata, in order. -/
def metaTables (cs : List MsgCall) : List Table :=
  cs.filterMap fun
    | .contents c => some (tableOf .metadata c)
    | _ => none

/-- The table has, at each path, all the rules of the given tables at this path, in order, combined as in the first table that
has some. -/
def Merged (ts : List Table) (t : Table) : Prop :=
  ∀ q, lookup t q = match ts.filterMap fun t => lookup t q with
    | [] => none
    | l :: ls => some ⟨(l :: ls).flatMap (·.rules), l.logic, l.cascaded⟩

/-- The generators given, in order. -/
def gensIn (cs : List MsgCall) : List Generators := cs.filterMap fun | .contents c => some c.gens | _ => none

/-- The generator of a path: the one given last. -/
def GensAre (gs : List Generators) (g : Generators) : Prop :=
  ∀ c p, genAt g c p = (gs.filterMap fun g => genAt g c p).getLast?

/-- The given contents are proper: no path is twice in a table of rules or generators (they are hash maps). -/
def Proper (m : MessageContents) : Prop :=
  KeysNodup (tableOf .body m) ∧ KeysNodup (tableOf .metadata m) ∧ GenShape m.gens

/-- The contents that the calls ask for, beginning with the body `b`. -/
structure ContentsAre (parseCT : Str → Option ContentType) (b : FBody) (cs : List MsgCall) (m : MessageContents) : Prop where
  body : m.contents = (cs.filterMap (bodyIn parseCT)).getLast?.getD b
  metadata : ∀ k, Json.lookup k m.metadata = metaValue cs k
  once : NodupKeys m.metadata
  rules : Merged (bodyTables cs) (catOf m.rules .body).rules
  metaRules : Merged (metaTables cs) (catOf m.rules .metadata).rules
  others : ∀ c, c ≠ .body → c ≠ .metadata → (catOf m.rules c).rules = []
  gens : GensAre (gensIn cs) m.gens

/-! ## Proofs -/

/-! ### Rule tables of patterns -/

theorem addRule_nodup {c : RuleCategory} (p : DocPath) (r : MatchingRule) (l : RuleLogic) (h : KeysNodup c.rules) :
    KeysNodup (addRule c p r l).rules := (addRule_keys c p r l h).1

theorem foldl_nodup {α : Type} (f : RuleCategory → α → RuleCategory) (hf : ∀ c a, KeysNodup c.rules → KeysNodup (f c a).rules)
    (l : List α) (c : RuleCategory) (h : KeysNodup c.rules) : KeysNodup (l.foldl f c).rules := by
  induction l generalizing c with
  | nil => exact h
  | cons a l ih => exact ih _ (hf c a h)

mutual
theorem extract_nodup (path : DocPath) (p : Pattern) (out : RuleCategory) (h : KeysNodup out.rules) :
    KeysNodup (extract path p out).rules := by
  cases p with
  | json v => exact h
  | arr items => simp only [extract]; exact extractItems_nodup path 0 items out h
  | obj fields => simp only [extract]; exact extractFields_nodup path fields out h
  | like p => simp only [extract]; exact extract_nodup path p _ (addRule_nodup _ _ _ h)
  | eachLike p m => simp only [extract]; exact extract_nodup _ p _ (addRule_nodup _ _ _ (addRule_nodup _ _ _ h))
  | term re ex => simp only [extract]; exact addRule_nodup _ _ _ h
  | datetime f ex => simp only [extract]; exact addRule_nodup _ _ _ h
  | objectMatching p rs =>
    simp only [extract]
    unfold copyChildRules
    refine foldl_nodup _ (fun c e hc => ?_) _ _ (foldl_nodup _ (fun c r hc => addRule_nodup _ _ _ hc) _ _ h)
    exact foldl_nodup _ (fun c r hc => addRule_nodup _ _ _ hc) _ _ hc
theorem extractItems_nodup (path : DocPath) (i : Nat) (ps : List Pattern) (out : RuleCategory) (h : KeysNodup out.rules) :
    KeysNodup (extractItems path i ps out).rules := by
  cases ps with
  | nil => exact h
  | cons p ps => simp only [extractItems]; exact extractItems_nodup path (i + 1) ps _ (extract_nodup _ p _ h)
theorem extractFields_nodup (path : DocPath) (fs : List (Str × Pattern)) (out : RuleCategory) (h : KeysNodup out.rules) :
    KeysNodup (extractFields path fs out).rules := by
  cases fs with
  | nil => exact h
  | cons f fs => simp only [extractFields]; exact extractFields_nodup path fs _ (extractField_nodup path f _ h)
theorem extractField_nodup (path : DocPath) (f : Str × Pattern) (out : RuleCategory) (h : KeysNodup out.rules) :
    KeysNodup (extractField path f out).rules := by
  cases f with
  | mk k p => simp only [extractField]; exact extract_nodup _ p _ h
end

theorem patternTable_nodup (p : Pattern) : KeysNodup (patternTable p) := extract_nodup _ p _ List.nodup_nil

/-! ### Merging -/

theorem merged_nil : Merged [] [] := fun _ => rfl

theorem lookup_nil (q : DocPath) : lookup ([] : Table) q = none := rfl

theorem merged_add {ts : List Table} {c d : RuleCategory} (h : Merged ts c.rules) (hd : KeysNodup d.rules) :
    Merged (ts ++ [d.rules]) (addRules c d).rules := by
  intro q
  rw [C35_add_rules_partial c d hd q, h q, snoc]
  cases hl : lookup d.rules q with
  | none =>
    rw [Option.toList_none, List.append_nil]
    cases ts.filterMap fun t => lookup t q with
    | nil => rfl
    | cons l ls => rfl
  | some x =>
    rw [Option.toList_some]
    cases ts.filterMap fun t => lookup t q with
    | nil => simp [combined]
    | cons l ls => simp [combined]

theorem merged_same {ts : List Table} {t t' : Table} (h : Merged ts t) (he : ∀ q, lookup t' q = lookup t q) : Merged ts t' :=
  fun q => by rw [he q]; exact h q

theorem merged_empty {ts : List Table} {t : Table} (h : Merged ts t) : Merged (ts ++ [[]]) t := by
  intro q
  rw [h q, snoc, lookup_nil, Option.toList_none, List.append_nil]

theorem addRules_empty (t : RuleCategory) (c : Category) (ht : KeysNodup t.rules) (q : DocPath) :
    lookup (addRules (emptyCat c) t).rules q = lookup t.rules q := by
  rw [C35_add_rules_partial _ t ht q]
  show combined none _ = _
  cases lookup t.rules q <;> rfl

/-- Adding keeps the paths different. -/
theorem addRules_nodup (c d : RuleCategory) (hc : KeysNodup c.rules) : KeysNodup (addRules c d).rules := by
  obtain ⟨dn, dr⟩ := d
  unfold addRules
  simp only
  obtain ⟨cn, cr⟩ := c
  simp only at hc ⊢
  induction dr generalizing cr with
  | nil => exact hc
  | cons e es ih =>
    rw [List.foldl_cons]
    apply ih
    cases hf : cr.find? (keyIs e.1) with
    | some x => exact PatternProps.upsert_nodup _ _ _ _ hc
    | none =>
      show KeysNodup (cr ++ [e])
      unfold KeysNodup at hc ⊢
      rw [List.map_append, List.nodup_append]
      refine ⟨hc, by simp, ?_⟩
      intro a ha b hb hab
      rw [List.map_cons, List.map_nil, List.mem_singleton] at hb
      obtain ⟨x, hx, rfl⟩ := List.mem_map.1 ha
      have := List.find?_eq_none.1 hf x hx
      rw [RuleProps.keyIs_iff] at this
      exact this (hab.trans hb)

/-! ### Metadata -/

theorem givenIn_append (cs ds : List MsgCall) : givenIn (cs ++ ds) = givenIn cs ++ givenIn ds := by
  unfold givenIn; rw [List.flatMap_append]

theorem typesIn_append (cs ds : List MsgCall) : typesIn (cs ++ ds) = typesIn cs ++ typesIn ds := by
  unfold typesIn; rw [List.filterMap_append]

/-- The value given last for a key. -/
def lastGiven (o : Obj) (k : Str) : Option Json := (o.filter fun e => decide (e.1 = k)).getLast?.map (·.2)

theorem metaValue_eq (cs : List MsgCall) (k : Str) : metaValue cs k =
    (lastGiven (givenIn cs) k).or (if k = "contentType".toList then (typesIn cs).head?.map .str else none) := by
  unfold metaValue lastGiven
  cases ((givenIn cs).filter fun e => decide (e.1 = k)).getLast? with
  | some e => rfl
  | none => rfl

theorem lastGiven_append (a b : Obj) (k : Str) : lastGiven (a ++ b) k = (lastGiven b k).or (lastGiven a k) := by
  unfold lastGiven
  rw [List.filter_append, List.getLast?_append]
  cases (b.filter fun e => decide (e.1 = k)).getLast? <;> simp

theorem lastGiven_one (k k' : Str) (v : Json) : lastGiven [(k, v)] k' = if k' = k then some v else none := by
  unfold lastGiven
  by_cases hk : k' = k
  · rw [if_pos hk]; simp [hk]
  · have : ¬ k = k' := fun h => hk h.symm
    rw [if_neg hk]; simp [this]

theorem extend_lookup (new m : Obj) (k : Str) :
    Json.lookup k (extend m new) = (lastGiven new k).or (Json.lookup k m) := by
  unfold extend
  induction new generalizing m with
  | nil => rfl
  | cons e es ih =>
    rw [List.foldl_cons, ih, lookup_updEntry]
    have : lastGiven (e :: es) k = (lastGiven es k).or (lastGiven [e] k) := lastGiven_append [e] es k
    rw [this]
    cases lastGiven es k with
    | some x => rfl
    | none =>
      by_cases hk : k = e.1
      · rw [if_pos hk]; simp [lastGiven, hk]
      · have : ¬ e.1 = k := fun h => hk h.symm
        rw [if_neg hk]; simp [lastGiven, this]

theorem nodup_upd (k : Str) (f : Option Json → Json) (m : Obj) (h : NodupKeys m) : NodupKeys (updEntry k f m) := by
  unfold NodupKeys at h ⊢
  rw [keys_upd]
  by_cases hm : k ∈ m.map (·.1)
  · rw [if_pos hm]; exact h
  · rw [if_neg hm, List.nodup_append]
    refine ⟨h, by simp, ?_⟩
    intro a ha b hb e
    rw [List.mem_singleton] at hb
    subst hb; subst e
    exact hm ha

theorem extend_nodup (new m : Obj) (h : NodupKeys m) : NodupKeys (extend m new) := by
  unfold extend
  induction new generalizing m with
  | nil => exact h
  | cons e es ih => rw [List.foldl_cons]; exact ih _ (nodup_upd _ _ _ h)

/-! ### One call -/

/-- The state of the contents after the calls. -/
structure StateIs (parseCT : Str → Option ContentType) (b : FBody) (cs : List MsgCall) (s : Contents) : Prop where
  body : s.body = (cs.filterMap (bodyIn parseCT)).getLast?.getD b
  metadata : ∀ k, Json.lookup k (s.metadata.getD []) = metaValue cs k
  once : NodupKeys (s.metadata.getD [])
  rules : Merged (bodyTables cs) (s.rules.getD (emptyCat .body)).rules
  nodup : KeysNodup (s.rules.getD (emptyCat .body)).rules
  metaRules : Merged (metaTables cs) (s.metaRules.getD (emptyCat .body)).rules
  metaNodup : KeysNodup (s.metaRules.getD (emptyCat .body)).rules
  gens : GensAre (gensIn cs) (s.gens.getD [])

theorem state_nil (parseCT : Str → Option ContentType) (b : FBody) : StateIs parseCT b [] { contents0 with body := b } :=
  ⟨rfl, fun k => by
      unfold metaValue
      show none = (if k = "contentType".toList then none else none)
      split <;> rfl,
    List.nodup_nil, merged_nil, List.nodup_nil, merged_nil, List.nodup_nil, fun _ _ => rfl⟩

theorem lastBody_snoc (parseCT : Str → Option ContentType) (b : FBody) (cs : List MsgCall) (c : MsgCall) :
    ((cs ++ [c]).filterMap (bodyIn parseCT)).getLast?.getD b =
      (bodyIn parseCT c).getD ((cs.filterMap (bodyIn parseCT)).getLast?.getD b) := by
  rw [snoc]
  cases bodyIn parseCT c <;> simp

theorem getD_rules (o : Option RuleCategory) (c d : Category) :
    (o.getD (emptyCat c)).rules = (o.getD (emptyCat d)).rules := by cases o <;> rfl

theorem addCategory_merged {ts : List Table} {o : Option RuleCategory} (c : Category) (m : MessageContents)
    (h : Merged ts (o.getD (emptyCat .body)).rules) (hn : KeysNodup (o.getD (emptyCat .body)).rules)
    (hm : KeysNodup (tableOf c m)) :
    Merged (ts ++ [tableOf c m]) ((addCategoryOf c m.rules o).getD (emptyCat .body)).rules ∧
    KeysNodup ((addCategoryOf c m.rules o).getD (emptyCat .body)).rules := by
  unfold addCategoryOf tableOf catOf at *
  cases hx : rulesForCategory m.rules c with
  | none => exact ⟨merged_empty h, hn⟩
  | some cat =>
    rw [hx] at hm
    simp only [Option.getD_some] at hm ⊢
    rw [getD_rules o .body c] at h hn
    exact ⟨merged_add h hm, addRules_nodup _ _ hn⟩

set_option maxHeartbeats 1000000 in
theorem state_step {parseCT : Str → Option ContentType} {b : FBody} {cs : List MsgCall} {s : Contents} (c : MsgCall)
    (hc : ∀ m, c = .contents m → Proper m) (h : StateIs parseCT b cs s) :
    StateIs parseCT b (cs ++ [c]) (msgStep parseCT c s) := by
  have hb := lastBody_snoc parseCT b cs c
  have htabs : bodyTables (cs ++ [c]) = bodyTables cs ++ bodyTables [c] := List.filterMap_append
  have hmtabs : metaTables (cs ++ [c]) = metaTables cs ++ metaTables [c] := List.filterMap_append
  have hgens : gensIn (cs ++ [c]) = gensIn cs ++ gensIn [c] := List.filterMap_append
  have hmeta : ∀ k, metaValue (cs ++ [c]) k = (lastGiven (givenIn [c]) k).or ((lastGiven (givenIn cs) k).or
      (if k = "contentType".toList then ((typesIn cs).head?.or (typesIn [c]).head?).map .str else none)) := by
    intro k
    rw [metaValue_eq, givenIn_append, lastGiven_append, typesIn_append, List.head?_append, Option.or_assoc]
  have hold := h.metadata
  simp only [metaValue_eq] at hold
  have none_or : ∀ o : Option Json, (none : Option Json).or o = o := fun o => by cases o <;> rfl
  cases c with
  | metadata k v =>
    refine ⟨?_, ?_, nodup_upd _ _ _ h.once, ?_, h.nodup, ?_, h.metaNodup, ?_⟩
    · rw [hb]; exact h.body
    · intro k'
      show Json.lookup k' (updEntry k _ _) = _
      rw [lookup_updEntry, hmeta, hold]
      show _ = (lastGiven [(k, v)] k').or _
      have e : (typesIn [MsgCall.metadata k v]).head? = none := rfl
      rw [e, Option.or_none, lastGiven_one]
      by_cases hk : k' = k
      · rw [if_pos hk, if_pos hk]; rfl
      · rw [if_neg hk, if_neg hk, none_or]
    · rw [htabs, show bodyTables [MsgCall.metadata k v] = [] from rfl, List.append_nil]; exact h.rules
    · rw [hmtabs, show metaTables [MsgCall.metadata k v] = [] from rfl, List.append_nil]; exact h.metaRules
    · rw [hgens, show gensIn [MsgCall.metadata k v] = [] from rfl, List.append_nil]; exact h.gens
  | jsonBody p =>
    have hp : (jsonContents parseCT p).2.rules = patternTable p := rfl
    have hr : Merged (bodyTables cs ++ [patternTable p]) ((addPattern (jsonContents parseCT p).2 s.rules).getD (emptyCat .body)).rules ∧
        KeysNodup ((addPattern (jsonContents parseCT p).2 s.rules).getD (emptyCat .body)).rules := by
      have h1 := h.rules
      have h2 := h.nodup
      have hn : KeysNodup (jsonContents parseCT p).2.rules := patternTable_nodup p
      rw [← hp]
      generalize (jsonContents parseCT p).2 = t at hn
      cases hs : s.rules with
      | none =>
        rw [hs] at h1 h2
        by_cases he : t.rules.isEmpty = true
        · have : t.rules = [] := List.isEmpty_iff.1 he
          simp only [addPattern, he, if_true, this]
          exact ⟨merged_empty h1, h2⟩
        · simp only [addPattern, he, Bool.false_eq_true, if_false, Option.getD_some]
          refine ⟨merged_same (merged_add h1 hn) (fun q => ?_), hn⟩
          exact (addRules_empty t .body hn q).symm
      | some mr =>
        rw [hs] at h1 h2
        by_cases he : t.rules.isEmpty = true
        · have : t.rules = [] := List.isEmpty_iff.1 he
          simp only [addPattern, he, if_true, this]
          exact ⟨merged_empty h1, h2⟩
        · simp only [addPattern, he, Bool.false_eq_true, if_false, Option.getD_some]
          exact ⟨merged_add h1 hn, addRules_nodup _ _ h2⟩
    refine ⟨?_, ?_, h.once, ?_, hr.2, ?_, h.metaNodup, ?_⟩
    · rw [hb]; rfl
    · intro k'
      rw [hmeta]
      have e : (typesIn [MsgCall.jsonBody p]).head? = none := rfl
      rw [e, Option.or_none]
      show _ = (none : Option Json).or _
      rw [none_or, ← hold]; rfl
    · rw [htabs]; exact hr.1
    · rw [hmtabs, show metaTables [MsgCall.jsonBody p] = [] from rfl, List.append_nil]; exact h.metaRules
    · rw [hgens, show gensIn [MsgCall.jsonBody p] = [] from rfl, List.append_nil]; exact h.gens
  | body x ct =>
    refine ⟨?_, ?_, ?_, ?_, h.nodup, ?_, h.metaNodup, ?_⟩
    · rw [hb]; rfl
    · intro k'
      rw [hmeta]
      show Json.lookup k' (putContentType ct (s.metadata.getD [])) = (none : Option Json).or _
      rw [none_or]
      cases ct with
      | none =>
        have e : (typesIn [MsgCall.body x none]).head? = none := rfl
        rw [e, Option.or_none, ← hold]; rfl
      | some t =>
        have e : (typesIn [MsgCall.body x (some t)]).head? = some t := rfl
        rw [e]
        unfold putContentType
        simp only
        rw [lookup_updEntry, hold, hold]
        generalize "contentType".toList = ctk
        by_cases hk : k' = ctk
        · subst hk
          simp only [if_true]
          cases lastGiven (givenIn cs) k' with
          | some v => rfl
          | none => cases (typesIn cs).head? <;> rfl
        · simp only [if_neg hk]
    · show NodupKeys (putContentType ct (s.metadata.getD []))
      unfold putContentType
      cases ct with
      | none => exact h.once
      | some t => exact nodup_upd _ _ _ h.once
    · rw [htabs, show bodyTables [MsgCall.body x ct] = [] from rfl, List.append_nil]; exact h.rules
    · rw [hmtabs, show metaTables [MsgCall.body x ct] = [] from rfl, List.append_nil]; exact h.metaRules
    · rw [hgens, show gensIn [MsgCall.body x ct] = [] from rfl, List.append_nil]; exact h.gens
  | contents m =>
    obtain ⟨p1, p2, p3⟩ := hc m rfl
    have hr := addCategory_merged .body m h.rules h.nodup p1
    have hmr := addCategory_merged .metadata m h.metaRules h.metaNodup p2
    refine ⟨?_, ?_, extend_nodup _ _ h.once, ?_, hr.2, ?_, hmr.2, ?_⟩
    · rw [hb]; rfl
    · intro k'
      rw [hmeta]
      have e : (typesIn [MsgCall.contents m]).head? = none := rfl
      have e2 : givenIn [MsgCall.contents m] = m.metadata := by simp [givenIn]
      rw [e, Option.or_none, e2, ← hold]
      exact extend_lookup _ _ _
    · rw [htabs]; exact hr.1
    · rw [hmtabs]; exact hmr.1
    · rw [hgens]
      intro c p
      show genAt (Ops.addGens _ m.gens) c p = ((gensIn cs ++ [m.gens]).filterMap fun g => genAt g c p).getLast?
      rw [genAt_add _ p3, h.gens c p, snoc]
      cases genAt m.gens c p with
      | none => rw [Option.toList_none, List.append_nil]; rfl
      | some x => rw [Option.toList_some, List.getLast?_append]; rfl

theorem state_append {parseCT : Str → Option ContentType} {b : FBody} (ds cs : List MsgCall) (s : Contents)
    (hc : ∀ m, MsgCall.contents m ∈ ds → Proper m) (h : StateIs parseCT b cs s) :
    StateIs parseCT b (cs ++ ds) (ds.foldl (fun s c => msgStep parseCT c s) s) := by
  induction ds generalizing cs s with
  | nil => rw [List.append_nil]; exact h
  | cons d ds ih =>
    have := ih (cs ++ [d]) _ (fun m hm => hc m (List.mem_cons_of_mem _ hm))
      (state_step d (fun m hm => hc m (by rw [hm]; exact List.mem_cons_self)) h)
    rw [List.append_assoc] at this
    exact this

/-! ## Asynchronous messages -/

/-! ### Specification -/

/-- The fields of an object; other values have none. -/
def fieldsOf : Json → Obj
  | .obj m => m
  | _ => []

/-- The value names a content type that cannot be parsed. -/
def BadType (parseCT : Str → Option ContentType) (j : Json) : Prop :=
  ∃ v, Json.lookup "pact:content-type".toList (fieldsOf j) = some v ∧ parseCT v.toStr = none

/-- The calls for the fields of an asynchronous message. -/
def infosIn (cs : List AsyncCall) : List InfoCall := cs.filterMap fun | .info c => some c | _ => none

/-- The body of `contents_from`: with a content type the text of `contents`, otherwise that of the object itself. -/
def fromBody (parseCT : Str → Option ContentType) (j : Json) : FBody :=
  match Json.lookup "pact:content-type".toList (fieldsOf j) with
  | some v => match Json.lookup "contents".toList (fieldsOf j) with
    | some c => .present (utf8 c.text) (parseCT v.toStr) none
    | none => .missing
  | none => .present (utf8 (Json.obj (fieldsOf j)).text) (some (typeOf parseCT "application/json;charset=UTF-8".toList)) none

/-- The bodies of the calls of `contents_from`, in order. -/
def startsIn (parseCT : Str → Option ContentType) (cs : List AsyncCall) : List FBody :=
  cs.filterMap fun | .contentsFrom j => some (fromBody parseCT j) | _ => none

/-- The call replaces all contents. -/
def resets : AsyncCall → Bool
  | .contentsFrom _ => true
  | _ => false

/-- A call on the contents. -/
def onContents : AsyncCall → Option MsgCall
  | .metadata k v => some (.metadata k v)
  | .jsonBody p => some (.jsonBody p)
  | .body b ct => some (.body b ct)
  | _ => none

/-- The calls after the last one with the property. -/
def since {α : Type} (r : α → Bool) (cs : List α) : List α := (cs.reverse.takeWhile fun c => !r c).reverse

/-! ### Proofs -/

theorem since_snoc {α : Type} (r : α → Bool) (cs : List α) (c : α) :
    since r (cs ++ [c]) = if r c = true then [] else since r cs ++ [c] := by
  unfold since
  rw [List.reverse_append]
  cases h : r c <;> simp [h]

/-- `since` is what its name says. -/
theorem since_spec {α : Type} (r : α → Bool) (cs : List α) :
    (∃ before, cs = before ++ since r cs ∧ (before = [] ∨ ∃ l c, before = l ++ [c] ∧ r c = true)) ∧
    ∀ c ∈ since r cs, r c = false := by
  suffices h : ∀ cs : List α, (∃ before, cs.reverse = before ++ since r cs.reverse ∧
      (before = [] ∨ ∃ l c, before = l ++ [c] ∧ r c = true)) ∧ ∀ c ∈ since r cs.reverse, r c = false by
    simpa using h cs.reverse
  intro cs
  induction cs with
  | nil => exact ⟨⟨[], rfl, .inl rfl⟩, fun c h => by cases h⟩
  | cons c cs ih =>
    rw [List.reverse_cons, since_snoc]
    by_cases h : r c = true
    · rw [if_pos h]
      exact ⟨⟨cs.reverse ++ [c], by simp, .inr ⟨_, _, rfl, h⟩⟩, fun c h => by cases h⟩
    · rw [if_neg h]
      obtain ⟨⟨b, h1, h2⟩, h3⟩ := ih
      refine ⟨⟨b, by rw [← List.append_assoc, ← h1], h2⟩, ?_⟩
      intro x hx
      rcases List.mem_append.1 hx with hx | hx
      · exact h3 x hx
      · rw [List.mem_singleton.1 hx]; exact Bool.eq_false_iff.2 h

/-- The state of the fields. -/
structure InfoIs (d : Str) (cs : List InfoCall) (m : Meta) : Prop where
  description : m.description = d
  states : m.states = statesIn cs
  comments : m.comments = commentsIn cs
  testName : m.testName = (testNamesIn cs).getLast?
  key : m.key = (keysIn cs).getLast?
  pending : m.pending = (pendingsIn cs).getLast?

theorem info_step {d : Str} {cs : List InfoCall} {m : Meta} (c : InfoCall) (h : InfoIs d cs m) :
    InfoIs d (cs ++ [c]) (infoStep c m) := by
  obtain ⟨h0, h1, h2, h3, h4, h5⟩ := h
  cases c with
  | givenWithParams s j =>
    cases j <;>
    exact ⟨h0, by simp [statesIn, infoStep, paramsOf, h1], by simpa [commentsIn, infoStep] using h2,
      by simpa [testNamesIn, infoStep] using h3, by simpa [keysIn, infoStep] using h4,
      by simpa [pendingsIn, infoStep] using h5⟩
  | _ =>
    refine ⟨h0, ?_, ?_, ?_, ?_, ?_⟩ <;>
    simp [statesIn, commentsIn, testNamesIn, keysIn, pendingsIn, infoStep] <;>
    first
      | (simpa [statesIn] using h1) | (simpa [commentsIn] using h2) | (simpa [testNamesIn] using h3)
      | (simpa [keysIn] using h4) | (simpa [pendingsIn] using h5)

theorem info_fields {d : Str} {cs : List InfoCall} {m : Meta} (h : InfoIs d cs m) : FieldsAre d cs (commonOf m) := by
  obtain ⟨h0, h1, h2, h3, h4, h5⟩ := h
  unfold FieldsAre commonOf
  rw [h0, h1, h2, h3, h4, h5]
  cases (testNamesIn cs).getLast? <;> rfl

theorem paramsOf_eq (j : Json) : paramsOf j = fieldsOf j := by cases j <;> rfl

theorem contentsFrom_bad {parseCT : Str → Option ContentType} {j : Json} (h : BadType parseCT j) :
    givenType parseCT (paramsOf j) = .panic := by
  obtain ⟨v, h1, h2⟩ := h
  unfold givenType
  rw [paramsOf_eq, show RuleJson.get "pact:content-type" (fieldsOf j) = some v from h1]
  simp only [h2]

theorem givenType_good {parseCT : Str → Option ContentType} {j : Json} (h : ¬ BadType parseCT j) :
    givenType parseCT (paramsOf j) = .ok ((Json.lookup "pact:content-type".toList (fieldsOf j)).bind fun v => parseCT v.toStr) ∧
    ∀ v, Json.lookup "pact:content-type".toList (fieldsOf j) = some v → ∃ t, parseCT v.toStr = some t := by
  unfold givenType
  rw [paramsOf_eq, show RuleJson.get "pact:content-type" (fieldsOf j) = Json.lookup "pact:content-type".toList (fieldsOf j) from rfl]
  cases hl : Json.lookup "pact:content-type".toList (fieldsOf j) with
  | none => exact ⟨rfl, fun v h => by cases h⟩
  | some v =>
    cases ht : parseCT v.toStr with
    | none => exact absurd ⟨v, hl, ht⟩ h
    | some t =>
      refine ⟨?_, ?_⟩
      · simp only [ht, Option.bind_some]
      · intro w hw; cases hw; exact ⟨t, ht⟩

theorem contentsFrom_good {parseCT : Str → Option ContentType} {j : Json} (h : ¬ BadType parseCT j) :
    contentsFrom parseCT j = .ok { contents0 with body := fromBody parseCT j } := by
  obtain ⟨h1, h2⟩ := givenType_good h
  unfold contentsFrom
  rw [h1, paramsOf_eq]
  unfold fromBody
  cases hl : Json.lookup "pact:content-type".toList (fieldsOf j) with
  | none => rfl
  | some v =>
    obtain ⟨t, ht⟩ := h2 v hl
    simp only [Option.bind_some, ht, Res.map]
    rw [show RuleJson.get "contents" (fieldsOf j) = Json.lookup "contents".toList (fieldsOf j) from rfl]
    cases Json.lookup "contents".toList (fieldsOf j) <;> rfl

/-- The state of the builder. -/
structure AsyncIs (parseCT : Str → Option ContentType) (d : Str) (cs : List AsyncCall) (b : AsyncBuilder) : Prop where
  info : InfoIs d (infosIn cs) b.info
  contents : StateIs parseCT ((startsIn parseCT cs).getLast?.getD .missing) ((since resets cs).filterMap onContents) b.contents
  fold : b.contents = ((since resets cs).filterMap onContents).foldl (fun s c => msgStep parseCT c s)
    { contents0 with body := (startsIn parseCT cs).getLast?.getD .missing }

theorem async_step {parseCT : Str → Option ContentType} {d : Str} {cs : List AsyncCall} {b : AsyncBuilder} (c : AsyncCall)
    (hc : ∀ j, c = .contentsFrom j → ¬ BadType parseCT j) (h : AsyncIs parseCT d cs b) :
    ∃ b', asyncStep parseCT c b = .ok b' ∧ AsyncIs parseCT d (cs ++ [c]) b' := by
  have hi : infosIn (cs ++ [c]) = infosIn cs ++ infosIn [c] := List.filterMap_append
  have hs : startsIn parseCT (cs ++ [c]) = startsIn parseCT cs ++ startsIn parseCT [c] := List.filterMap_append
  have hsin := since_snoc resets cs c
  have same : ∀ (m : MsgCall), onContents c = some m → resets c = false → startsIn parseCT [c] = [] → infosIn [c] = [] →
      AsyncIs parseCT d (cs ++ [c]) { b with contents := msgStep parseCT m b.contents } ∨ ∃ x, m = .contents x := by
    intro m h1 h2 h3 h4
    by_cases hx : ∃ x, m = .contents x
    · exact .inr hx
    · refine .inl ⟨?_, ?_, ?_⟩
      · rw [hi, h4, List.append_nil]; exact h.info
      · rw [hs, h3, List.append_nil, hsin, h2, if_neg (by simp), snoc, h1]
        exact state_step m (fun x e => absurd ⟨x, e⟩ hx) h.contents
      · rw [hs, h3, List.append_nil, hsin, h2, if_neg (by simp), snoc, h1, Option.toList_some, List.foldl_append, ← h.fold]
        rfl
  cases c with
  | info c =>
    refine ⟨_, rfl, ?_, ?_, ?_⟩
    · rw [hi]; exact info_step c h.info
    · rw [hs, hsin, show startsIn parseCT [AsyncCall.info c] = [] from rfl, List.append_nil,
        show resets (AsyncCall.info c) = false from rfl, if_neg (by simp), snoc, show onContents (AsyncCall.info c) = none from rfl,
        Option.toList_none, List.append_nil]
      exact h.contents
    · rw [hs, hsin, show startsIn parseCT [AsyncCall.info c] = [] from rfl, List.append_nil,
        show resets (AsyncCall.info c) = false from rfl, if_neg (by simp), snoc, show onContents (AsyncCall.info c) = none from rfl,
        Option.toList_none, List.append_nil]
      exact h.fold
  | metadata k v =>
    rcases same (.metadata k v) rfl rfl rfl rfl with hx | ⟨x, e⟩
    · exact ⟨_, rfl, hx⟩
    · cases e
  | jsonBody p =>
    rcases same (.jsonBody p) rfl rfl rfl rfl with hx | ⟨x, e⟩
    · exact ⟨_, rfl, hx⟩
    · cases e
  | body x ct =>
    rcases same (.body x ct) rfl rfl rfl rfl with hx | ⟨x, e⟩
    · exact ⟨_, rfl, hx⟩
    · cases e
  | contentsFrom j =>
    refine ⟨{ b with contents := { contents0 with body := fromBody parseCT j } }, ?_, ?_, ?_, ?_⟩
    · unfold asyncStep
      simp only [contentsFrom_good (hc j rfl), Res.map]
    · rw [hi, show infosIn [AsyncCall.contentsFrom j] = [] from rfl, List.append_nil]; exact h.info
    · rw [hs, hsin, show resets (AsyncCall.contentsFrom j) = true from rfl, if_pos rfl,
        show startsIn parseCT [AsyncCall.contentsFrom j] = [fromBody parseCT j] from rfl, List.getLast?_append]
      exact state_nil parseCT _
    · rw [hs, hsin, show resets (AsyncCall.contentsFrom j) = true from rfl, if_pos rfl,
        show startsIn parseCT [AsyncCall.contentsFrom j] = [fromBody parseCT j] from rfl, List.getLast?_append]
      rfl

theorem async_run {parseCT : Str → Option ContentType} {d : Str} (ds cs : List AsyncCall) (b : AsyncBuilder)
    (hc : ∀ j, AsyncCall.contentsFrom j ∈ ds → ¬ BadType parseCT j) (h : AsyncIs parseCT d cs b) :
    ∃ b', asyncRun parseCT ds b = .ok b' ∧ AsyncIs parseCT d (cs ++ ds) b' := by
  induction ds generalizing cs b with
  | nil => exact ⟨b, rfl, by rw [List.append_nil]; exact h⟩
  | cons c ds ih =>
    obtain ⟨b1, h1, h2⟩ := async_step c (fun j e => hc j (by rw [e]; exact List.mem_cons_self)) h
    obtain ⟨b2, h3, h4⟩ := ih (cs ++ [c]) b1 (fun j hj => hc j (List.mem_cons_of_mem _ hj)) h2
    refine ⟨b2, ?_, ?_⟩
    · rw [asyncRun, h1]; exact h3
    · rw [List.append_assoc] at h4; exact h4

theorem async_panic (parseCT : Str → Option ContentType) (ds : List AsyncCall) (b : AsyncBuilder)
    (h : ∃ j, AsyncCall.contentsFrom j ∈ ds ∧ BadType parseCT j) : asyncRun parseCT ds b = .panic := by
  induction ds generalizing b with
  | nil => obtain ⟨j, hj, -⟩ := h; cases hj
  | cons c ds ih =>
    obtain ⟨j, hj, hb⟩ := h
    rw [asyncRun]
    rcases List.mem_cons.1 hj with e | hj
    · rw [← e]
      have : asyncStep parseCT (.contentsFrom j) b = .panic := by
        unfold asyncStep contentsFrom; simp only [contentsFrom_bad hb, Res.map]
      rw [this]; rfl
    · have : asyncStep parseCT c b = .panic ∨ ∃ b', asyncStep parseCT c b = .ok b' := by
        cases c with
        | contentsFrom j' =>
          by_cases hx : BadType parseCT j'
          · left; unfold asyncStep contentsFrom; simp only [contentsFrom_bad hx, Res.map]
          · right; unfold asyncStep; simp only [contentsFrom_good hx, Res.map]; exact ⟨_, rfl⟩
        | _ => exact .inr ⟨_, rfl⟩
      rcases this with e | ⟨b', e⟩
      · rw [e]; rfl
      · rw [e]; exact ih b' ⟨j, hj, hb⟩

theorem no_contents (cs : List AsyncCall) : metaTables (cs.filterMap onContents) = [] ∧
    ∀ m, MsgCall.contents m ∉ cs.filterMap onContents := by
  have h : ∀ m, MsgCall.contents m ∉ cs.filterMap onContents := by
    intro m hm
    obtain ⟨c, -, hc⟩ := List.mem_filterMap.1 hm
    cases c <;> cases hc
  refine ⟨?_, h⟩
  unfold metaTables
  rw [List.filterMap_eq_nil_iff]
  intro c hc
  cases c with
  | contents m => exact absurd hc (h m)
  | _ => rfl

theorem async_contents {parseCT : Str → Option ContentType} {b : FBody} {cs : List MsgCall} {s : Contents}
    (h : StateIs parseCT b cs s) (hm : metaTables cs = []) : ContentsAre parseCT b cs (asyncContents s) := by
  refine ⟨h.body, h.metadata, h.once, ?_, ?_, ?_, h.gens⟩
  · exact merged_same h.rules (fun q => addRules_empty _ _ h.nodup q)
  · rw [hm]; exact merged_nil
  · intro c h1 h2
    cases c <;> first | rfl | exact absurd rfl h1

/-- **C159** For every description and sequence of calls on the builder of an asynchronous message: building aborts exactly if a
call of `contents_from` names a content type that cannot be parsed; otherwise it makes a message with the fields given (the
states and comments in order; the key, test name and pending given last), and with the contents that the calls after the last
`contents_from` ask for: the last body, the last value of every key of the metadata — `contentType` is set by the first body
with a content type, unless a value is given for it — and the rules of all JSON patterns, in order, also of those whose body was
replaced. -/
theorem C159_message (parseCT : Str → Option ContentType) (d : Str) (cs : List AsyncCall) :
    ((∃ j, AsyncCall.contentsFrom j ∈ cs ∧ BadType parseCT j) → buildAsync parseCT d cs = .panic) ∧
    ((∀ j, AsyncCall.contentsFrom j ∈ cs → ¬ BadType parseCT j) → ∃ c m, buildAsync parseCT d cs = .ok (.async c m) ∧
      FieldsAre d (infosIn cs) c ∧
      ContentsAre parseCT ((startsIn parseCT cs).getLast?.getD .missing) ((since resets cs).filterMap onContents) m) := by
  constructor
  · intro h; unfold buildAsync; rw [async_panic parseCT cs _ h]; rfl
  · intro h
    obtain ⟨b, h1, h2⟩ := async_run (d := d) cs [] ⟨info0 d, contents0⟩ h
      ⟨⟨rfl, rfl, rfl, rfl, rfl, rfl⟩, state_nil parseCT .missing, rfl⟩
    rw [List.nil_append] at h2
    refine ⟨commonOf b.info, asyncContents b.contents, ?_, info_fields h2.info, async_contents h2.contents (no_contents _).1⟩
    unfold buildAsync; rw [h1]; rfl

/-- **C159** The V3 message has the same description, states and contents. -/
theorem C159_v3 (parseCT : Str → Option ContentType) (d : Str) (cs : List AsyncCall) (c : Common) (m : MessageContents)
    (h : buildAsync parseCT d cs = .ok (.async c m)) :
    buildV3 parseCT d cs = .ok
      { id := none, description := c.description, states := c.states, contents := m.contents,
        metadata := m.metadata, rules := m.rules, gens := m.gens } := by
  unfold buildAsync at h
  unfold buildV3
  cases hr : asyncRun parseCT cs ⟨info0 d, contents0⟩ with
  | ok b => rw [hr] at h; simp only [Res.map] at h ⊢; cases h; rfl
  | err => rw [hr] at h; cases h
  | panic => rw [hr] at h; cases h

/-! ## Synchronous messages -/

/-! ### Specification -/

/-- The calls for the fields of a synchronous message. -/
def syncInfosIn (cs : List SyncCall) : List InfoCall := cs.filterMap fun | .info c => some c | _ => none

/-- The body made of a value of `contents_from`. -/
def partBody (parseCT : Str → Option ContentType) (j v : Json) : FBody :=
  .present (utf8 v.text) (some (((Json.lookup "pact:content-type".toList (fieldsOf j)).bind fun t => parseCT t.toStr).getD
    (typeOf parseCT "application/json;charset=UTF-8".toList))) none

/-- The body that `contents_from` gives the request. -/
def requestStart (parseCT : Str → Option ContentType) : SyncCall → Option FBody
  | .contentsFrom j => (Json.lookup "request".toList (fieldsOf j)).map (partBody parseCT j)
  | _ => none

/-- The call replaces all contents of the request. -/
def resetsRequest : SyncCall → Bool
  | .contentsFrom j => (Json.lookup "request".toList (fieldsOf j)).isSome
  | _ => false

/-- A call on the contents of the request. -/
def onRequest : SyncCall → Option MsgCall
  | .request c => some c
  | _ => none

/-- What a response is to contain. -/
structure Answer where
  body : FBody
  metadata : Obj
  rules : Table
  metaRules : Table

/-- The responses `contents_from` asks for. -/
def answersFrom (parseCT : Str → Option ContentType) (j : Json) : Option Json → List Answer
  | some (.arr rs) => rs.map fun r => ⟨partBody parseCT j r, [], [], []⟩
  | some r => [⟨partBody parseCT j r, [], [], []⟩]
  | none => []

/-- The responses a call asks for. -/
def answersOf (parseCT : Str → Option ContentType) : SyncCall → List Answer
  | .responseJson p =>
    [⟨.present (utf8 (toExample p).text) (some (typeOf parseCT "application/json".toList)) none, [], patternTable p, []⟩]
  | .responseBody b ct =>
    [⟨.present b (ct.map (typeOf parseCT)) none, (ct.map fun c => (" contentType".toList, Json.str c)).toList, [], []⟩]
  | .responseContents m => [⟨m.contents, m.metadata, tableOf .body m, tableOf .metadata m⟩]
  | .contentsFrom j => answersFrom parseCT j (Json.lookup "response".toList (fieldsOf j))
  | _ => []

/-- The response contains what was asked for; its generators are `gens`. -/
structure AnswerIs (gens : Generators) (a : Answer) (m : MessageContents) : Prop where
  body : m.contents = a.body
  metadata : m.metadata = a.metadata
  rules : ∀ q, lookup (catOf m.rules .body).rules q = lookup a.rules q
  metaRules : ∀ q, lookup (catOf m.rules .metadata).rules q = lookup a.metaRules q
  others : ∀ c, c ≠ .body → c ≠ .metadata → (catOf m.rules c).rules = []
  gens : m.gens = gens

/-- The responses are those asked for, in order. -/
def AnswersAre (gens : Generators) : List Answer → List MessageContents → Prop
  | [], [] => True
  | a :: as, m :: ms => AnswerIs gens a m ∧ AnswersAre gens as ms
  | _, _ => False

/-! ### Proofs -/

theorem answers_append {g : Generators} {as as' : List Answer} {ms ms' : List MessageContents} (h : AnswersAre g as ms)
    (h' : AnswersAre g as' ms') : AnswersAre g (as ++ as') (ms ++ ms') := by
  induction as generalizing ms with
  | nil =>
    cases ms with
    | nil => exact h'
    | cons m ms => exact absurd h (by simp [AnswersAre])
  | cons a as ih =>
    cases ms with
    | nil => exact absurd h (by simp [AnswersAre])
    | cons m ms => exact ⟨h.1, ih h.2⟩

theorem sync_contents {parseCT : Str → Option ContentType} {b : FBody} {cs : List MsgCall} {s : Contents}
    (h : StateIs parseCT b cs s) : ContentsAre parseCT b cs (syncContents s s) := by
  refine ⟨h.body, h.metadata, h.once, ?_, ?_, ?_, h.gens⟩
  · exact merged_same h.rules (fun q => addRules_empty _ _ h.nodup q)
  · exact merged_same h.metaRules (fun q => addRules_empty _ _ h.metaNodup q)
  · intro c h1 h2
    cases c <;> first | rfl | exact absurd rfl h1 | exact absurd rfl h2

/-- The response that is built from the contents is the answer, whatever the request. -/
def Gives (a : Answer) (s : Contents) : Prop := ∀ r, AnswerIs (r.gens.getD []) a (syncContents r s)

theorem gives (a : Answer) (s : Contents) (h1 : s.body = a.body) (h2 : s.metadata.getD [] = a.metadata)
    (h3 : (s.rules.getD (emptyCat .body)).rules = a.rules) (h4 : (s.metaRules.getD (emptyCat .body)).rules = a.metaRules)
    (h5 : KeysNodup a.rules) (h6 : KeysNodup a.metaRules) : Gives a s := by
  intro r
  refine ⟨h1, h2, fun q => ?_, fun q => ?_, ?_, rfl⟩
  · rw [← h3]; exact addRules_empty _ _ (by rw [h3]; exact h5) q
  · rw [← h4]; exact addRules_empty _ _ (by rw [h4]; exact h6) q
  · intro c h1 h2
    cases c <;> first | rfl | exact absurd rfl h1 | exact absurd rfl h2

/-- The state of the responses. -/
def GivesAll : List Answer → List Contents → Prop
  | [], [] => True
  | a :: as, s :: ss => Gives a s ∧ GivesAll as ss
  | _, _ => False

theorem givesAll_append {as as' : List Answer} {ss ss' : List Contents} (h : GivesAll as ss) (h' : GivesAll as' ss') :
    GivesAll (as ++ as') (ss ++ ss') := by
  induction as generalizing ss with
  | nil =>
    cases ss with
    | nil => exact h'
    | cons m ms => exact absurd h (by simp [GivesAll])
  | cons a as ih =>
    cases ss with
    | nil => exact absurd h (by simp [GivesAll])
    | cons m ms => exact ⟨h.1, ih h.2⟩

theorem givesAll_answers {as : List Answer} {ss : List Contents} (h : GivesAll as ss) (r : Contents) :
    AnswersAre (r.gens.getD []) as (ss.map (syncContents r)) := by
  induction as generalizing ss with
  | nil =>
    cases ss with
    | nil => trivial
    | cons m ms => exact absurd h (by simp [GivesAll])
  | cons a as ih =>
    cases ss with
    | nil => exact absurd h (by simp [GivesAll])
    | cons m ms => exact ⟨h.1 r, ih h.2⟩

/-- The state of the builder. -/
structure SyncIs (parseCT : Str → Option ContentType) (d : Str) (cs : List SyncCall) (b : SyncBuilder) : Prop where
  info : InfoIs d (syncInfosIn cs) b.info
  request : StateIs parseCT ((cs.filterMap (requestStart parseCT)).getLast?.getD .missing)
    ((since resetsRequest cs).filterMap onRequest) b.request
  responses : GivesAll (cs.flatMap (answersOf parseCT)) b.responses
  fold : b.request = ((since resetsRequest cs).filterMap onRequest).foldl (fun s c => msgStep parseCT c s)
    { contents0 with body := (cs.filterMap (requestStart parseCT)).getLast?.getD .missing }

/-- The contents given with the call are proper. -/
def ProperCall : SyncCall → Prop
  | .request (.contents m) => Proper m
  | .responseContents m => Proper m
  | _ => True

theorem addPattern_none (t : RuleCategory) : ((addPattern t none).getD (emptyCat .body)).rules = t.rules := by
  unfold addPattern
  by_cases h : t.rules.isEmpty = true
  · simp only [h, if_true, Option.getD_none]; rw [List.isEmpty_iff.1 h]; rfl
  · simp only [h, Bool.false_eq_true, if_false, Option.getD_some]

theorem valueBody_eq {parseCT : Str → Option ContentType} (j v : Json) :
    valueBody parseCT ((Json.lookup "pact:content-type".toList (fieldsOf j)).bind fun t => parseCT t.toStr) v =
      partBody parseCT j v := rfl

theorem gives_plain (body : FBody) : Gives ⟨body, [], [], []⟩ { contents0 with body := body } :=
  gives _ _ rfl rfl rfl rfl List.nodup_nil List.nodup_nil

theorem responsesFrom_gives (parseCT : Str → Option ContentType) (j : Json) :
    GivesAll (answersOf parseCT (.contentsFrom j))
      (responsesFrom parseCT ((Json.lookup "pact:content-type".toList (fieldsOf j)).bind fun t => parseCT t.toStr)
        (Json.lookup "response".toList (fieldsOf j))) := by
  show GivesAll (answersFrom parseCT j (Json.lookup "response".toList (fieldsOf j))) _
  generalize Json.lookup "response".toList (fieldsOf j) = o
  cases o with
  | none => trivial
  | some v =>
    cases v with
    | arr rs =>
      simp only [responsesFrom, answersFrom]
      induction rs with
      | nil => trivial
      | cons r rs ih => exact ⟨gives_plain _, ih⟩
    | _ => exact ⟨gives_plain _, trivial⟩

theorem sync_step {parseCT : Str → Option ContentType} {d : Str} {cs : List SyncCall} {b : SyncBuilder} (c : SyncCall)
    (hp : ProperCall c) (hc : ∀ j, c = .contentsFrom j → ¬ BadType parseCT j) (h : SyncIs parseCT d cs b) :
    ∃ b', syncStep parseCT c b = .ok b' ∧ SyncIs parseCT d (cs ++ [c]) b' := by
  have hi : syncInfosIn (cs ++ [c]) = syncInfosIn cs ++ syncInfosIn [c] := List.filterMap_append
  have hs := snoc (requestStart parseCT) cs c
  have hsin := since_snoc resetsRequest cs c
  have ha : (cs ++ [c]).flatMap (answersOf parseCT) = cs.flatMap (answersOf parseCT) ++ answersOf parseCT c := by
    rw [List.flatMap_append, List.flatMap_cons, List.flatMap_nil, List.append_nil]
  have info0 : syncInfosIn [c] = [] → InfoIs d (syncInfosIn (cs ++ [c])) b.info := by
    intro h1; rw [hi, h1, List.append_nil]; exact h.info
  have req0 : requestStart parseCT c = none → resetsRequest c = false → onRequest c = none →
      StateIs parseCT (((cs ++ [c]).filterMap (requestStart parseCT)).getLast?.getD .missing)
        ((since resetsRequest (cs ++ [c])).filterMap onRequest) b.request := by
    intro h1 h2 h3
    rw [hs, h1, hsin, h2, if_neg (by simp), snoc, h3, Option.toList_none, Option.toList_none, List.append_nil, List.append_nil]
    exact h.request
  have fold0 : requestStart parseCT c = none → resetsRequest c = false → onRequest c = none →
      b.request = ((since resetsRequest (cs ++ [c])).filterMap onRequest).foldl (fun s c => msgStep parseCT c s)
        { contents0 with body := ((cs ++ [c]).filterMap (requestStart parseCT)).getLast?.getD .missing } := by
    intro h1 h2 h3
    rw [hs, h1, hsin, h2, if_neg (by simp), snoc, h3, Option.toList_none, Option.toList_none, List.append_nil, List.append_nil]
    exact h.fold
  have res1 : ∀ s, answersOf parseCT c = [s] → ∀ x, Gives s x →
      GivesAll ((cs ++ [c]).flatMap (answersOf parseCT)) (b.responses ++ [x]) := by
    intro s h1 x hx; rw [ha, h1]; exact givesAll_append h.responses ⟨hx, trivial⟩
  have res0 : answersOf parseCT c = [] → GivesAll ((cs ++ [c]).flatMap (answersOf parseCT)) b.responses := by
    intro h1; rw [ha, h1, List.append_nil]; exact h.responses
  cases c with
  | info c =>
    refine ⟨_, rfl, ?_, req0 rfl rfl rfl, res0 rfl, fold0 rfl rfl rfl⟩
    rw [hi]; exact info_step c h.info
  | request c =>
    refine ⟨_, rfl, info0 rfl, ?_, res0 rfl, ?_⟩
    · rw [hs, show requestStart parseCT (SyncCall.request c) = none from rfl, Option.toList_none, List.append_nil, hsin,
        show resetsRequest (SyncCall.request c) = false from rfl, if_neg (by simp), snoc,
        show onRequest (SyncCall.request c) = some c from rfl]
      exact state_step c (fun m e => by subst e; exact hp) h.request
    · rw [hs, show requestStart parseCT (SyncCall.request c) = none from rfl, Option.toList_none, List.append_nil, hsin,
        show resetsRequest (SyncCall.request c) = false from rfl, if_neg (by simp), snoc,
        show onRequest (SyncCall.request c) = some c from rfl, Option.toList_some, List.foldl_append, ← h.fold]
      rfl
  | responseJson p =>
    refine ⟨_, rfl, info0 rfl, req0 rfl rfl rfl, res1 _ rfl _ ?_, fold0 rfl rfl rfl⟩
    exact gives _ _ rfl rfl (addPattern_none _) rfl (patternTable_nodup p) List.nodup_nil
  | responseBody x ct =>
    refine ⟨_, rfl, info0 rfl, req0 rfl rfl rfl, res1 _ rfl _ ?_, fold0 rfl rfl rfl⟩
    cases ct <;> exact gives _ _ rfl rfl rfl rfl List.nodup_nil List.nodup_nil
  | responseContents m =>
    refine ⟨_, rfl, info0 rfl, req0 rfl rfl rfl, res1 _ rfl _ ?_, fold0 rfl rfl rfl⟩
    refine gives _ _ rfl rfl ?_ ?_ hp.1 hp.2.1
    · rfl
    · show ((rulesForCategory m.rules .metadata).getD (emptyCat .body)).rules = _
      rw [getD_rules _ .body .metadata]; rfl
  | contentsFrom j =>
    have hg := (givenType_good (hc j rfl)).1
    have hrun : syncStep parseCT (.contentsFrom j) b = .ok { b with
        request := match Json.lookup "request".toList (fieldsOf j) with
          | some r => { contents0 with body := partBody parseCT j r }
          | none => b.request
        responses := b.responses ++ responsesFrom parseCT
          ((Json.lookup "pact:content-type".toList (fieldsOf j)).bind fun t => parseCT t.toStr)
          (Json.lookup "response".toList (fieldsOf j)) } := by
      unfold syncStep syncContentsFrom
      rw [paramsOf_eq] at hg
      simp only [paramsOf_eq]
      rw [hg]
      rfl
    refine ⟨_, hrun, info0 rfl, ?_, ?_, ?_⟩
    · cases hr : Json.lookup "request".toList (fieldsOf j) with
      | none => exact req0 (by simp only [requestStart, hr]; rfl) (by simp only [resetsRequest, hr]; rfl) rfl
      | some r =>
        have h1 : requestStart parseCT (.contentsFrom j) = some (partBody parseCT j r) := by simp only [requestStart, hr]; rfl
        have h2 : resetsRequest (.contentsFrom j) = true := by simp only [resetsRequest, hr]; rfl
        rw [hs, h1, hsin, h2, if_pos rfl, Option.toList_some, List.getLast?_append]
        exact state_nil parseCT _
    · rw [ha]; exact givesAll_append h.responses (responsesFrom_gives parseCT j)
    · cases hr : Json.lookup "request".toList (fieldsOf j) with
      | none => exact fold0 (by simp only [requestStart, hr]; rfl) (by simp only [resetsRequest, hr]; rfl) rfl
      | some r =>
        have h1 : requestStart parseCT (.contentsFrom j) = some (partBody parseCT j r) := by simp only [requestStart, hr]; rfl
        have h2 : resetsRequest (.contentsFrom j) = true := by simp only [resetsRequest, hr]; rfl
        rw [hs, h1, hsin, h2, if_pos rfl, Option.toList_some, List.getLast?_append]
        rfl

theorem sync_run {parseCT : Str → Option ContentType} {d : Str} (ds cs : List SyncCall) (b : SyncBuilder)
    (hp : ∀ c ∈ ds, ProperCall c) (hc : ∀ j, SyncCall.contentsFrom j ∈ ds → ¬ BadType parseCT j) (h : SyncIs parseCT d cs b) :
    ∃ b', syncRun parseCT ds b = .ok b' ∧ SyncIs parseCT d (cs ++ ds) b' := by
  induction ds generalizing cs b with
  | nil => exact ⟨b, rfl, by rw [List.append_nil]; exact h⟩
  | cons c ds ih =>
    obtain ⟨b1, h1, h2⟩ := sync_step c (hp c List.mem_cons_self) (fun j e => hc j (by rw [e]; exact List.mem_cons_self)) h
    obtain ⟨b2, h3, h4⟩ := ih (cs ++ [c]) b1 (fun c h => hp c (List.mem_cons_of_mem _ h))
      (fun j hj => hc j (List.mem_cons_of_mem _ hj)) h2
    refine ⟨b2, ?_, ?_⟩
    · rw [syncRun, h1]; exact h3
    · rw [List.append_assoc] at h4; exact h4

theorem sync_panic (parseCT : Str → Option ContentType) (ds : List SyncCall) (b : SyncBuilder)
    (h : ∃ j, SyncCall.contentsFrom j ∈ ds ∧ BadType parseCT j) : syncRun parseCT ds b = .panic := by
  induction ds generalizing b with
  | nil => obtain ⟨j, hj, -⟩ := h; cases hj
  | cons c ds ih =>
    obtain ⟨j, hj, hb⟩ := h
    rw [syncRun]
    rcases List.mem_cons.1 hj with e | hj
    · rw [← e]
      have : syncStep parseCT (.contentsFrom j) b = .panic := by
        unfold syncStep syncContentsFrom; simp only [contentsFrom_bad hb, Res.map]
      rw [this]; rfl
    · have : syncStep parseCT c b = .panic ∨ ∃ b', syncStep parseCT c b = .ok b' := by
        cases c with
        | contentsFrom j' =>
          by_cases hx : BadType parseCT j'
          · left; unfold syncStep syncContentsFrom; simp only [contentsFrom_bad hx, Res.map]
          · right; unfold syncStep syncContentsFrom; simp only [(givenType_good hx).1, Res.map]; exact ⟨_, rfl⟩
        | _ => exact .inr ⟨_, rfl⟩
      rcases this with e | ⟨b', e⟩
      · rw [e]; rfl
      · rw [e]; exact ih b' ⟨j, hj, hb⟩

/-- **C160** (partly) For every description and sequence of calls on the builder of a synchronous message: building aborts exactly
if a call of `contents_from` names a content type that cannot be parsed; otherwise it makes a message with the fields given,
whose request is what the calls on it after the last `contents_from` with a `request` ask for, and whose responses are those
asked for, in order, each with its own body, metadata and rules.  Missing, because it is false: that a response has the
generators given for it (it has those of the request), and that its metadata has the content type under `contentType`. -/
theorem C160_message_partial (parseCT : Str → Option ContentType) (d : Str) (cs : List SyncCall) (hp : ∀ c ∈ cs, ProperCall c) :
    ((∃ j, SyncCall.contentsFrom j ∈ cs ∧ BadType parseCT j) → buildSync parseCT d cs = .panic) ∧
    ((∀ j, SyncCall.contentsFrom j ∈ cs → ¬ BadType parseCT j) → ∃ c m ms, buildSync parseCT d cs = .ok (.sync c m ms) ∧
      FieldsAre d (syncInfosIn cs) c ∧
      ContentsAre parseCT ((cs.filterMap (requestStart parseCT)).getLast?.getD .missing)
        ((since resetsRequest cs).filterMap onRequest) m ∧
      AnswersAre m.gens (cs.flatMap (answersOf parseCT)) ms) := by
  constructor
  · intro h; unfold buildSync; rw [sync_panic parseCT cs _ h]; rfl
  · intro h
    obtain ⟨b, h1, h2⟩ := sync_run (d := d) cs [] ⟨info0 d, contents0, []⟩ hp h
      ⟨⟨rfl, rfl, rfl, rfl, rfl, rfl⟩, state_nil parseCT .missing, trivial, rfl⟩
    rw [List.nil_append] at h2
    refine ⟨commonOf b.info, syncContents b.request b.request, b.responses.map (syncContents b.request), ?_,
      info_fields h2.info, sync_contents h2.request, givesAll_answers h2.responses b.request⟩
    unfold buildSync; rw [h1]; rfl

/-- The generators given with the contents of a response are lost, whatever else is called. -/
theorem C160_response_generators_lost (parseCT : Str → Option ContentType) (d : Str) (cs : List SyncCall) (c : Common)
    (m : MessageContents) (ms : List MessageContents) (h : buildSync parseCT d cs = .ok (.sync c m ms)) :
    ∀ r ∈ ms, r.gens = m.gens := by
  unfold buildSync at h
  cases hr : syncRun parseCT cs ⟨info0 d, contents0, []⟩ with
  | ok b =>
    rw [hr] at h
    simp only [Res.map] at h
    cases h
    intro r hm
    obtain ⟨x, -, rfl⟩ := List.mem_map.1 hm
    rfl
  | err => rw [hr] at h; cases h
  | panic => rw [hr] at h; cases h


end MessageBuilderProps
end Verif
