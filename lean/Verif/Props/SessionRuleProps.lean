import Verif.Props.SessionProps
import Verif.Props.MatcherTableProps
import Verif.Props.PatternProps
import Verif.Props.IntegrationProps
import Verif.Props.PactV2Props

/-
  C150: matching rules and generators given as JSON.
-/

set_option autoImplicit false

namespace Verif
namespace SessionRuleProps
open Path Rules RuleJson Generate Integration PactFile Parts Headers Ops SessionProps
open MatcherTableProps (rulesAt)
open IntegrationProps (genAt)
open PactV2Props (TableShape)

/-! ## Specification -/

/-- The lists have the same length, and the relation holds for their items one by one. -/
inductive Each {A B : Type} (R : A → B → Prop) : List A → List B → Prop
  | nil : Each R [] []
  | cons {a : A} {b : B} {as : List A} {bs : List B} : R a b → Each R as bs → Each R (a :: as) (b :: bs)

/-- The JSON object of a text, in an attribute unless it has it. -/
inductive ObjectOf (parse : Str → Option Json) (attr : String) (s : Str) : Json → Prop
  | plain (m : Obj) : parse s = some (.obj m) → RuleJson.get attr m = none → ObjectOf parse attr s (obj [(attr, .obj m)])
  | full (m : Obj) (v : Json) : parse s = some (.obj m) → RuleJson.get attr m = some v → ObjectOf parse attr s (.obj m)

/-- The text gives a table of rules. -/
def GivesRules (E : Source) (s : Str) (m : MatchingRules) : Prop :=
  ∃ v, ObjectOf E.parse "matchingRules" s v ∧ matchersFromJson E.setup.rules v none = .ok m

/-- The text gives a table of generators. -/
def GivesGens (E : Source) (s : Str) (g : Generators) : Prop :=
  ∃ v, ObjectOf E.parse "generators" s v ∧ generatorsFromJson E.setup.rules v = .ok g

/-- At each path are the rules from before and then the new ones. -/
def RulesAdded (new old r : MatchingRules) : Prop := ∀ c p, rulesAt r c p = RuleProps.combined (rulesAt old c p) (rulesAt new c p)

/-- At each path is the new generator, if there is one, else the one from before. -/
def GensAdded (new old g : Generators) : Prop := ∀ c p, genAt g c p = (genAt new c p).or (genAt old c p)

/-- Only the rules and generators of a part are changed; of a synchronous message those of all responses. -/
inductive PartChanged (R : MatchingRules → MatchingRules → Prop) (G : Generators → Generators → Prop) :
    Part → Interaction → Interaction → Prop
  | request (c : Common) (req : HttpRequest) (res : HttpResponse) (r : MatchingRules) (g : Generators) :
      R req.rules r → G req.gens g → PartChanged R G .request (.http c req res) (.http c { req with rules := r, gens := g } res)
  | response (c : Common) (req : HttpRequest) (res : HttpResponse) (r : MatchingRules) (g : Generators) :
      R res.rules r → G res.gens g → PartChanged R G .response (.http c req res) (.http c req { res with rules := r, gens := g })
  | message (p : Part) (c : Common) (m : MessageContents) (r : MatchingRules) (g : Generators) :
      R m.rules r → G m.gens g → PartChanged R G p (.async c m) (.async c { m with rules := r, gens := g })
  | ask (c : Common) (m : MessageContents) (res : List MessageContents) (r : MatchingRules) (g : Generators) :
      R m.rules r → G m.gens g → PartChanged R G .request (.sync c m res) (.sync c { m with rules := r, gens := g } res)
  | answers (c : Common) (m : MessageContents) (res res' : List MessageContents) :
      Each (fun x y => R x.rules y.rules ∧ G x.gens y.gens ∧ y.contents = x.contents ∧ y.metadata = x.metadata) res res' →
      PartChanged R G .response (.sync c m res) (.sync c m res')

/-! ## Reading the text -/

theorem wrapped_iff (parse : Str → Option Json) (attr : String) (s : Str) (v : Json) :
    wrapped parse attr (.text s) = some v ↔ ObjectOf parse attr s v := by
  unfold wrapped
  simp only [CStr.get]
  constructor
  · intro h
    split at h
    · rename_i m hm
      cases hg : RuleJson.get attr m with
      | none =>
        rw [hg] at h
        cases h
        exact .plain m hm hg
      | some w =>
        rw [hg] at h
        cases h
        exact .full m w hm hg
    · cases h
  · intro h
    cases h with
    | plain m hm hg => rw [hm]; simp [hg]
    | full m w hm hg => rw [hm]; simp [hg]

/-! ## Tables that were read -/

theorem shape_nil : TableShape [] := ⟨List.nodup_nil, (by intro e he; cases he), (by intro e he; cases he)⟩

theorem addRule_keys (c : RuleCategory) (p : DocPath) (r : MatchingRule) (l : RuleLogic) (h : KeysNodup c.rules) :
    KeysNodup (addRule c p r l).rules ∧ (addRule c p r l).name = c.name := ⟨PatternProps.upsert_nodup _ _ _ _ h, rfl⟩

theorem addMatchers_keys (rec : Json → Res MatchingRule) (p : DocPath) (l : RuleLogic) (js : List Json) (c c' : RuleCategory)
    (hc : KeysNodup c.rules) (h : addMatchers rec p l c js = .ok c') : KeysNodup c'.rules ∧ c'.name = c.name := by
  induction js generalizing c with
  | nil => cases h; exact ⟨hc, rfl⟩
  | cons j js ih =>
    obtain ⟨r, _, h2⟩ := bind_eq_ok.1 h
    obtain ⟨h3, h4⟩ := ih _ (addRule_keys c p r l hc).1 h2
    exact ⟨h3, h4⟩

theorem addRuleList_keys (rec : Json → Res MatchingRule) (c c' : RuleCategory) (p : DocPath) (v : Json)
    (hc : KeysNodup c.rules) (h : addRuleList rec c p v = .ok c') : KeysNodup c'.rules ∧ c'.name = c.name := by
  unfold addRuleList at h
  split at h
  · exact addMatchers_keys _ _ _ _ _ _ hc h
  · cases h; exact ⟨hc, rfl⟩

theorem addEntries_keys (rec : Json → Res MatchingRule) (P : Params) (es : Obj) (c c' : RuleCategory)
    (hc : KeysNodup c.rules) (h : addEntries rec P c es = .ok c') : KeysNodup c'.rules ∧ c'.name = c.name := by
  induction es generalizing c with
  | nil => cases h; exact ⟨hc, rfl⟩
  | cons e es ih =>
    obtain ⟨p, _, h2⟩ := bind_eq_ok.1 h
    obtain ⟨c1, h3, h4⟩ := bind_eq_ok.1 h2
    obtain ⟨h5, h6⟩ := addRuleList_keys _ _ _ _ _ hc h3
    obtain ⟨h7, h8⟩ := ih _ h5 h4
    exact ⟨h7, h8.trans h6⟩

theorem addNames_keys (rec : Json → Res MatchingRule) (es : Obj) (c c' : RuleCategory)
    (hc : KeysNodup c.rules) (h : addNames rec c es = .ok c') : KeysNodup c'.rules ∧ c'.name = c.name := by
  induction es generalizing c with
  | nil => cases h; exact ⟨hc, rfl⟩
  | cons e es ih =>
    obtain ⟨c1, h3, h4⟩ := bind_eq_ok.1 h
    obtain ⟨h5, h6⟩ := addRuleList_keys _ _ _ _ _ hc h3
    obtain ⟨h7, h8⟩ := ih _ h5 h4
    exact ⟨h7, h8.trans h6⟩

theorem addV3_keys (rec : Json → Res MatchingRule) (P : Params) (c c' : RuleCategory) (v : Json)
    (hc : KeysNodup c.rules) (h : addV3RulesFromJson rec P c v = .ok c') : KeysNodup c'.rules ∧ c'.name = c.name := by
  unfold addV3RulesFromJson at h
  split at h
  · exact addRuleList_keys _ _ _ _ _ hc h
  · split at h
    · split at h
      · exact addRuleList_keys _ _ _ _ _ hc h
      · split at h
        · exact addNames_keys _ _ _ _ hc h
        · exact addEntries_keys _ _ _ _ _ hc h
    · cases h

theorem category_shape (m : MatchingRules) (hm : TableShape m) (c : Category) :
    KeysNodup ((rulesForCategory m c).getD (emptyCat c)).rules ∧ ((rulesForCategory m c).getD (emptyCat c)).name = c := by
  unfold rulesForCategory
  cases hx : m.find? (fun e => decide (e.1 = c)) with
  | none => exact ⟨List.nodup_nil, rfl⟩
  | some x =>
    have h1 : x.1 = c := by have := List.find?_some hx; exact of_decide_eq_true this
    refine ⟨hm.keys x (List.mem_of_find?_eq_some hx), ?_⟩
    have h2 := hm.name x (List.mem_of_find?_eq_some hx)
    show x.2.name = c
    rw [← h2, h1]

theorem replaced_shape (m : MatchingRules) (hm : TableShape m) (c : Category) (t : RuleCategory) (ht : KeysNodup t.rules)
    (hn : t.name = c) : TableShape ((m.filter fun e => !decide (e.1 = c)) ++ [(c, t)]) := by
  refine ⟨?_, ?_, ?_⟩
  · rw [List.map_append, List.nodup_append]
    refine ⟨(hm.once).sublist (List.filter_sublist.map _), by simp, ?_⟩
    intro a ha b hb
    obtain ⟨e, he, rfl⟩ := List.mem_map.1 ha
    have := (List.mem_filter.1 he).2
    rw [List.mem_singleton.1 hb]
    simpa using this
  · intro e he
    rcases List.mem_append.1 he with he | he
    · exact hm.name e (List.mem_filter.1 he).1
    · rw [List.mem_singleton.1 he, hn]
  · intro e he
    rcases List.mem_append.1 he with he | he
    · exact hm.keys e (List.mem_filter.1 he).1
    · rw [List.mem_singleton.1 he]; exact ht

theorem loadV3_shape (P : Params) (es : Obj) (m m' : MatchingRules) (hm : TableShape m) (h : loadV3 P m es = .ok m') :
    TableShape m' := by
  induction es generalizing m with
  | nil => cases h; exact hm
  | cons e es ih =>
    obtain ⟨k, v⟩ := e
    obtain ⟨c', h1, h2⟩ := bind_eq_ok.1 h
    obtain ⟨h3, h4⟩ := category_shape m hm (catParse P.uc k)
    obtain ⟨h5, h6⟩ := addV3_keys _ _ _ _ _ h3 h1
    exact ih _ (replaced_shape m hm _ _ h5 (h6.trans h4)) h2

theorem loadV2_shape (P : Params) (es : Obj) (m m' : MatchingRules) (hm : TableShape m) (h : loadV2 P m es = .ok m') :
    TableShape m' := by
  induction es generalizing m with
  | nil => cases h; exact hm
  | cons e es ih =>
    obtain ⟨k, v⟩ := e
    obtain ⟨cp, h1, h2⟩ := bind_eq_ok.1 h
    obtain ⟨m1, h3, h4⟩ := bind_eq_ok.1 h2
    obtain ⟨r, _, h6⟩ := bind_eq_ok.1 h3
    cases h6
    obtain ⟨h7, h8⟩ := category_shape m hm cp.1
    obtain ⟨h9, h10⟩ := addRule_keys _ cp.2 r .and h7
    exact ih _ (replaced_shape m hm _ _ h9 (h10.trans h8)) h4

/-- A table that was read has each category and each path once. -/
theorem read_shape (P : Params) (v : Json) (dep : Option String) (m : MatchingRules) (h : matchersFromJson P v dep = .ok m) :
    TableShape m := by
  unfold matchersFromJson at h
  split at h
  · split at h
    · exact loadV2_shape _ _ _ _ shape_nil h
    · exact loadV3_shape _ _ _ _ shape_nil h
  · cases h; exact shape_nil

/-- The generators of a table: each category and each path once. -/
structure GenShape (g : Generators) : Prop where
  once : (g.map (·.1)).Nodup
  keys : ∀ e ∈ g, KeysNodup e.2

theorem gshape_nil : GenShape [] := ⟨List.nodup_nil, by intro e he; cases he⟩

theorem addGen_mem (g : Generators) (c : GenCategory) (p : DocPath) (x : Generator) (d : GenCategory) :
    d ∈ (addGen g c p x).map (·.1) ↔ d ∈ g.map (·.1) ∨ d = c := by
  induction g with
  | nil => simp [addGen]
  | cons e es ih =>
    obtain ⟨a, m⟩ := e
    rw [addGen]
    split
    · rename_i h
      subst h
      simp only [List.map_cons, List.mem_cons]
      constructor
      · intro h; exact Or.inl h
      · rintro (h | h)
        · exact h
        · exact Or.inl h
    · simp only [List.map_cons, List.mem_cons, ih, or_assoc]

theorem addGen_shape (g : Generators) (hg : GenShape g) (c : GenCategory) (p : DocPath) (x : Generator) : GenShape (addGen g c p x) := by
  induction g with
  | nil =>
    refine ⟨by simp [addGen], ?_⟩
    intro e he
    rw [addGen, List.mem_singleton] at he
    subst he
    simp [KeysNodup]
  | cons e es ih =>
    obtain ⟨a, m⟩ := e
    have h1 := List.nodup_cons.1 hg.once
    have hes : GenShape es := ⟨h1.2, fun e he => hg.keys e (List.mem_cons_of_mem _ he)⟩
    rw [addGen]
    split
    · refine ⟨hg.once, ?_⟩
      intro e he
      rcases List.mem_cons.1 he with rfl | he
      · exact PatternProps.upsert_nodup _ _ _ _ (hg.keys (a, m) List.mem_cons_self)
      · exact hes.keys e he
    · rename_i hne
      refine ⟨?_, ?_⟩
      · rw [List.map_cons, List.nodup_cons, addGen_mem]
        refine ⟨?_, (ih hes).once⟩
        rintro (h | h)
        · exact h1.1 h
        · exact hne h
      · intro e he
        rcases List.mem_cons.1 he with rfl | he
        · exact hg.keys (a, m) List.mem_cons_self
        · exact (ih hes).keys e he

theorem addFromObj_shape (g : Generators) (hg : GenShape g) (c : GenCategory) (p : DocPath) (m : Obj) :
    GenShape (addFromObj g c p m) := by
  unfold addFromObj
  split
  · exact addGen_shape _ hg _ _ _
  · exact hg

theorem loadKeys_shape (P : Params) (c : GenCategory) (es : Obj) (g g' : Generators) (hg : GenShape g)
    (h : loadKeys P c g es = .ok g') : GenShape g' := by
  induction es generalizing g with
  | nil => cases h; exact hg
  | cons e es ih =>
    obtain ⟨k, v⟩ := e
    cases v with
    | obj m =>
      obtain ⟨p, _, h2⟩ := bind_eq_ok.1 h
      exact ih _ (addFromObj_shape _ hg _ _ _) h2
    | _ => exact ih _ hg h

theorem loadGens_shape (P : Params) (es : Obj) (g g' : Generators) (hg : GenShape g) (h : loadGens P g es = .ok g') :
    GenShape g' := by
  induction es generalizing g with
  | nil => cases h; exact hg
  | cons e es ih =>
    obtain ⟨k, v⟩ := e
    cases v with
    | obj m =>
      rw [loadGens] at h
      split at h
      · obtain ⟨g1, h1, h2⟩ := bind_eq_ok.1 h
        refine ih g1 ?_ h2
        split at h1
        · cases h1; exact addFromObj_shape _ hg _ _ _
        · exact loadKeys_shape _ _ _ _ _ hg h1
      · exact ih _ hg h
    | _ => exact ih _ hg h

theorem gens_shape (P : Params) (v : Json) (g : Generators) (h : generatorsFromJson P v = .ok g) : GenShape g := by
  unfold generatorsFromJson at h
  split at h
  · exact loadGens_shape _ _ _ _ gshape_nil h
  · cases h; exact gshape_nil

/-! ## Adding tables -/

theorem genAt_inner (m : List (DocPath × Generator)) (hm : KeysNodup m) (d : GenCategory) (g : Generators) (c : GenCategory)
    (p : DocPath) : genAt (m.foldl (fun acc x => addGen acc d x.1 x.2) g) c p =
      if c = d then (lookup m p).or (genAt g c p) else genAt g c p := by
  induction m generalizing g with
  | nil => simp [lookup]
  | cons e es ih =>
    have h1 := List.nodup_cons.1 hm
    rw [List.foldl_cons, ih h1.2, IntegrationProps.genAt_addGen]
    by_cases hc : c = d
    · subst hc
      simp only [if_true, true_and]
      by_cases hp : p.expr = e.1.expr
      · have h2 : lookup es p = none := by
          unfold lookup
          rw [Option.map_eq_none_iff, List.find?_eq_none]
          intro x hx hk
          rw [RuleProps.keyIs_iff] at hk
          exact h1.1 (List.mem_map.2 ⟨x, hx, hk.trans hp⟩)
        have h3 : lookup (e :: es) p = some e.2 := by
          unfold lookup
          rw [List.find?_cons, (RuleProps.keyIs_iff p e).2 hp.symm]
          rfl
        rw [if_pos hp, h2, h3]
        rfl
      · have h3 : lookup (e :: es) p = lookup es p := by
          unfold lookup
          rw [List.find?_cons, Bool.eq_false_iff.2 (fun h => hp ((RuleProps.keyIs_iff p e).1 h).symm)]
        rw [if_neg hp, h3]
    · simp [hc]

/-- Adding a table of generators. -/
theorem genAt_add (new : Generators) (hn : GenShape new) (g : Generators) (c : GenCategory) (p : DocPath) :
    genAt (Ops.addGens g new) c p = (genAt new c p).or (genAt g c p) := by
  unfold Ops.addGens
  induction new generalizing g with
  | nil => rfl
  | cons e es ih =>
    have h1 := List.nodup_cons.1 hn.once
    have hes : GenShape es := ⟨h1.2, fun e he => hn.keys e (List.mem_cons_of_mem _ he)⟩
    rw [List.foldl_cons, ih hes, genAt_inner _ (hn.keys e List.mem_cons_self)]
    by_cases hc : c = e.1
    · have h2 : genAt es c p = none := by
        unfold IntegrationProps.genAt
        have : es.find? (fun x => decide (x.1 = c)) = none := by
          rw [List.find?_eq_none]
          intro x hx hd
          exact h1.1 (List.mem_map.2 ⟨x, hx, (of_decide_eq_true hd).trans hc⟩)
        rw [this]
      have h3 : genAt (e :: es) c p = lookup e.2 p := by
        unfold IntegrationProps.genAt
        rw [List.find?_cons, decide_eq_true hc.symm]
      rw [if_pos hc, h2, h3]
      rfl
    · have h3 : genAt (e :: es) c p = genAt es c p := by
        unfold IntegrationProps.genAt
        rw [List.find?_cons, decide_eq_false (fun h => hc h.symm)]
      rw [if_neg hc, h3]

theorem onRules_changed (R : MatchingRules → MatchingRules → Prop) (G : Generators → Generators → Prop)
    (f : MatchingRules → MatchingRules) (g : Generators → Generators) (hf : ∀ m, R m (f m)) (hg : ∀ m, G m (g m)) (p : Part)
    (i : Interaction) : PartChanged R G p i (onRules f g p i) := by
  cases i with
  | http c req res =>
    cases p with
    | request => exact .request c req res _ _ (hf _) (hg _)
    | response => exact .response c req res _ _ (hf _) (hg _)
  | async c m => exact .message p c m _ _ (hf _) (hg _)
  | sync c req res =>
    cases p with
    | request => exact .ask c req res _ _ (hf _) (hg _)
    | response =>
      refine .answers c req res _ ?_
      induction res with
      | nil => exact .nil
      | cons x xs ih => exact .cons ⟨hf _, hg _, rfl, rfl⟩ ih

/-- **C150** (rules): a text that gives a table of rules adds its rules to those of the part, path by path, and changes nothing
else; any other text changes nothing, and the answer is `false`. -/
theorem C150_rules (E : Source) (p : Part) (i : Interaction) :
    (∀ s m, GivesRules E s m → ∃ i', withMatchingRules E p (.text s) i = (i', true) ∧
      PartChanged (RulesAdded m) (fun g g' => g' = g) p i i') ∧
    (∀ s, (∀ m, ¬ GivesRules E s m) → withMatchingRules E p (.text s) i = (i, false)) ∧
    withMatchingRules E p .null i = (i, false) ∧ withMatchingRules E p .bad i = (i, false) := by
  refine ⟨?_, ?_, rfl, rfl⟩
  · rintro s m ⟨v, hv, hm⟩
    unfold withMatchingRules
    rw [(wrapped_iff _ _ _ _).2 hv]
    simp only [hm]
    refine ⟨_, rfl, ?_⟩
    have hs := read_shape _ _ _ _ hm
    exact onRules_changed (RulesAdded m) (fun g g' => g' = g) _ _ (fun old c q => MatcherTableProps.C55_merge old m hs.once hs.keys c q) (fun _ => rfl) p i
  · intro s h
    unfold withMatchingRules
    cases hw : wrapped E.parse "matchingRules" (.text s) with
    | none => rfl
    | some v =>
      simp only
      have hv := (wrapped_iff _ _ _ _).1 hw
      cases hm : matchersFromJson E.setup.rules v none with
      | ok m => exact absurd ⟨v, hv, hm⟩ (h m)
      | err => rfl
      | panic => rfl

/-- **C150** (generators): a text that gives a table of generators adds them to those of the part; at the same path the new one
takes the place of the old one.  Nothing else changes, and any other text changes nothing. -/
theorem C150_generators (E : Source) (p : Part) (i : Interaction) :
    (∀ s g, GivesGens E s g → ∃ i', withGenerators E p (.text s) i = (i', true) ∧
      PartChanged (fun m m' => m' = m) (GensAdded g) p i i') ∧
    (∀ s, (∀ g, ¬ GivesGens E s g) → withGenerators E p (.text s) i = (i, false)) ∧
    withGenerators E p .null i = (i, false) ∧ withGenerators E p .bad i = (i, false) := by
  refine ⟨?_, ?_, rfl, rfl⟩
  · rintro s g ⟨v, hv, hg⟩
    unfold withGenerators
    rw [(wrapped_iff _ _ _ _).2 hv]
    simp only [hg]
    refine ⟨_, rfl, ?_⟩
    have hs := gens_shape _ _ _ hg
    exact onRules_changed (fun m m' => m' = m) (GensAdded g) _ _ (fun _ => rfl) (fun old c q => genAt_add g hs old c q) p i
  · intro s h
    unfold withGenerators
    cases hw : wrapped E.parse "generators" (.text s) with
    | none => rfl
    | some v =>
      simp only
      have hv := (wrapped_iff _ _ _ _).1 hw
      cases hm : generatorsFromJson E.setup.rules v with
      | ok m => exact absurd ⟨v, hv, hm⟩ (h m)
      | err => rfl
      | panic => rfl

/-! ## Several calls -/

/-- The rules of the part that a call is about, one table for each response of a synchronous message. -/
def rulesOf : Part → Interaction → List MatchingRules
  | .request, .http _ req _ => [req.rules]
  | .response, .http _ _ res => [res.rules]
  | _, .async _ m => [m.rules]
  | .request, .sync _ m _ => [m.rules]
  | .response, .sync _ _ res => res.map (·.rules)

theorem combined_assoc {R : Type} (a b c : Option (RuleListOf R)) :
    RuleProps.combined (RuleProps.combined a b) c = RuleProps.combined a (RuleProps.combined b c) := by
  cases a <;> cases b <;> cases c <;> simp [RuleProps.combined]

theorem each_rules {R : MatchingRules → MatchingRules → Prop} {G : Generators → Generators → Prop} {p : Part} {i j : Interaction}
    (h : PartChanged R G p i j) : Each R (rulesOf p i) (rulesOf p j) := by
  cases h with
  | request c req res r g hr _ => exact .cons hr .nil
  | response c req res r g hr _ => exact .cons hr .nil
  | message p c m r g hr _ => cases p <;> exact .cons hr .nil
  | ask c m res r g hr _ => exact .cons hr .nil
  | answers c m res res' he =>
    show Each R (res.map (·.rules)) (res'.map (·.rules))
    induction he with
    | nil => exact .nil
    | cons h1 _ ih => exact .cons h1.1 ih

/-- The rules at a path after adding tables one after the other. -/
def allAdded (ms : List MatchingRules) (old : Option RuleList) (c : Category) (p : DocPath) : Option RuleList :=
  ms.foldl (fun o m => RuleProps.combined o (rulesAt m c p)) old

theorem each_refl {A : Type} {R : A → A → Prop} (h : ∀ a, R a a) (l : List A) : Each R l l := by
  induction l with
  | nil => exact .nil
  | cons a l ih => exact .cons (h a) ih

theorem each_trans {A : Type} {R S T : A → A → Prop} (h : ∀ a b c, R a b → S b c → T a c) {l m n : List A}
    (h1 : Each R l m) (h2 : Each S m n) : Each T l n := by
  induction h1 generalizing n with
  | nil => cases h2; exact .nil
  | cons ha _ ih =>
    cases h2 with
    | cons hb h2 => exact .cons (h _ _ _ ha hb) (ih h2)

/-- **C150** (several calls): rules given by several calls are collected, in the order of the calls, for every path. -/
theorem C150_sequence (L : BodyBuild.Lib) (spec : PactV3.Spec) (p : Part) (cs : List (Bool × Str)) (ms : List MatchingRules)
    (hms : Each (fun s m => GivesRules L.src s.2 m) cs ms) (i : Interaction) :
    ∃ i', run L spec (cs.map fun s => (s.1, .rules p (.text s.2))) i = .ok i' ∧
      Each (fun old new => ∀ c q, rulesAt new c q = allAdded ms (rulesAt old c q) c q) (rulesOf p i) (rulesOf p i') := by
  induction hms generalizing i with
  | nil => exact ⟨i, rfl, each_refl (fun _ _ _ => rfl) _⟩
  | cons h _ ih =>
    rename_i s m ss ms' _
    obtain ⟨i1, h1, h2⟩ := (C150_rules L.src p i).1 s.2 m h
    obtain ⟨i', h3, h4⟩ := ih i1
    refine ⟨i', ?_, each_trans ?_ (each_rules h2) h4⟩
    · rw [List.map_cons]
      show (step L spec s.1 (.rules p (.text s.2)) i).bind _ = _
      rw [show step L spec s.1 (.rules p (.text s.2)) i = .ok i1 from by
        show Res.ok (withMatchingRules L.src p (.text s.2) i).1 = _
        rw [h1]]
      exact h3
    · intro a b c hab hbc cat q
      rw [hbc cat q, hab cat q]
      rfl

/-! ## A table that was written before -/

theorem get_none_of (attr : String) (o : Obj) (h : ∀ k v, (k, v) ∈ o → k ≠ attr.toList) : RuleJson.get attr o = none := by
  unfold RuleJson.get
  cases hl : Json.lookup attr.toList o with
  | none => rfl
  | some v => exact absurd rfl (h _ _ (Json.lookup_mem hl))

theorem written_keys (m : MatchingRules) (o : Obj) (h : matchersToJson m = .obj o) (k : Str) (v : Json) (hk : (k, v) ∈ o) :
    ∃ c, k = catName c := by
  unfold matchersToJson at h
  cases h
  have hl := RuleJsonProps.mem_collect _ _ hk
  obtain ⟨e, _, he⟩ := List.mem_filterMap.1 hl
  refine ⟨e.1, ?_⟩
  split at he
  · obtain ⟨x, _, hx⟩ := Option.map_eq_some_iff.1 he
    cases hx; rfl
  · split at he
    · cases he; rfl
    · cases he

/-- **C150** (written rules): the JSON form of a table of rules, as it is in a pact file, adds an equal table. -/
theorem C150_written (E : Source) (p : Part) (i : Interaction) (m : MatchingRules) (h : RuleJsonProps.RulesOk E.setup.rules.uc m)
    (hn : rulesNotEmpty m = true) (s : Str) (hs : E.parse s = some (matchersToJson m)) :
    ∃ m' i', mrEq m m' = true ∧ withMatchingRules E p (.text s) i = (i', true) ∧
      PartChanged (RulesAdded m') (fun g g' => g' = g) p i i' := by
  obtain ⟨o, ho⟩ : ∃ o, matchersToJson m = .obj o := ⟨_, rfl⟩
  have hg : RuleJson.get "matchingRules" o = none := by
    refine get_none_of _ _ ?_
    intro k v hk e
    obtain ⟨c, hc⟩ := written_keys m o ho k v hk
    rw [hc] at e
    revert e
    cases c <;> decide
  rw [ho] at hs
  obtain ⟨m', h1, h2⟩ := PactFileProps.rules_attr E.setup.rules m h (obj [("matchingRules", .obj o)]) none (by
    rw [if_pos hn, ho, PactFileProps.vget_obj, PactFileProps.slast_one, if_pos rfl]) (by intro n hn; cases hn)
  obtain ⟨i', h3, h4⟩ := (C150_rules E p i).1 s m' ⟨_, .plain o hs hg, h1⟩
  exact ⟨m', i', h2, h3, h4⟩

theorem written_gen_keys (g : Generators) (o : Obj) (h : generatorsToJson g = .obj o) (k : Str) (v : Json) (hk : (k, v) ∈ o) :
    ∃ c, k = genCatName c := by
  unfold generatorsToJson at h
  cases h
  have hl := RuleJsonProps.mem_collect _ _ hk
  obtain ⟨e, _, he⟩ := List.mem_filterMap.1 hl
  obtain ⟨x, _, hx⟩ := Option.map_eq_some_iff.1 he
  cases hx
  exact ⟨e.1, rfl⟩

/-- **C150** (written generators): the same for generators. -/
theorem C150_written_generators (E : Source) (p : Part) (i : Interaction) (g : Generators)
    (h : GenerateProps.GeneratorsOk E.setup.rules.uc g) (hn : gensNotEmpty g = true) (s : Str)
    (hs : E.parse s = some (generatorsToJson g)) :
    ∃ g' i', gensEq g g' = true ∧ withGenerators E p (.text s) i = (i', true) ∧
      PartChanged (fun m m' => m' = m) (GensAdded g') p i i' := by
  obtain ⟨o, ho⟩ : ∃ o, generatorsToJson g = .obj o := ⟨_, rfl⟩
  have hg : RuleJson.get "generators" o = none := by
    refine get_none_of _ _ ?_
    intro k v hk e
    obtain ⟨c, hc⟩ := written_gen_keys g o ho k v hk
    rw [hc] at e
    revert e
    cases c <;> decide
  rw [ho] at hs
  obtain ⟨g', h1, h2⟩ := PactFileProps.gens_attr E.setup.rules g h (obj [("generators", .obj o)]) (by
    rw [if_pos hn, ho, PactFileProps.vget_obj, PactFileProps.slast_one, if_pos rfl])
  obtain ⟨i', h3, h4⟩ := (C150_generators E p i).1 s g' ⟨_, .plain o hs hg, h1⟩
  exact ⟨g', i', h2, h3, h4⟩

/-! ## Examples -/

/-- A source whose parser knows the texts of two tables. -/
def exSource (lex : DefExpr.Lib) : Source where
  setup := ⟨lex, RuleJsonProps.exP⟩
  parse := fun s => if s = "r".toList then some (matchersToJson RuleJsonProps.exRules)
    else if s = "g".toList then some (generatorsToJson GenerateProps.exGens) else none
  uc := UC.ascii

/-- The hypotheses of `C150_written` and `C150_rules` are met, for a table with three categories. -/
theorem C150_witness (lex : DefExpr.Lib) (p : Part) (i : Interaction) :
    ∃ m' i', mrEq RuleJsonProps.exRules m' = true ∧ withMatchingRules (exSource lex) p (.text "r".toList) i = (i', true) ∧
      PartChanged (RulesAdded m') (fun g g' => g' = g) p i i' :=
  C150_written (exSource lex) p i RuleJsonProps.exRules RuleJsonProps.exRules_ok (by decide) "r".toList rfl

/-- The same for generators. -/
theorem C150_witness_generators (lex : DefExpr.Lib) (p : Part) (i : Interaction) :
    ∃ g' i', gensEq GenerateProps.exGens g' = true ∧ withGenerators (exSource lex) p (.text "g".toList) i = (i', true) ∧
      PartChanged (fun m m' => m' = m) (GensAdded g') p i i' :=
  C150_written_generators (exSource lex) p i GenerateProps.exGens GenerateProps.exGens_ok (by decide) "g".toList rfl



end SessionRuleProps
end Verif
