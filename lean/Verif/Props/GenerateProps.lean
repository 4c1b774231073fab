import Verif.Generate
import Verif.Props.RuleJsonProps

/-
  C67: tables of generators survive a write/read cycle; generators made from their name and values.
  C68: random values have the requested form, whatever is drawn.
-/

set_option autoImplicit false

namespace Verif
namespace GenerateProps
open Rules RuleJson RuleJsonProps Generate

/-! ### C67: tables of generators -/

/-- The tables of generators for which the cycle is claimed: keys are different; header and query generators have names
below the root as keys; path, method and status generators the empty path; all other keys are parsed from their text. -/
def GenTableOk (uc : UC) (c : GenCategory) (m : List (DocPath × Generator)) : Prop :=
  KeysNodup m ∧ (∀ e ∈ m, GenOk e.2) ∧
  match c with
  | .path => ∀ e ∈ m, e.1 = Path.empty
  | .method => ∀ e ∈ m, e.1 = Path.empty
  | .status => ∀ e ∈ m, e.1 = Path.empty
  | .header => ∀ e ∈ m, ∃ k, e.1 = Path.pushField Path.rootPath k
  | .query => ∀ e ∈ m, ∃ k, e.1 = Path.pushField Path.rootPath k
  | _ => ∀ e ∈ m, PathOk uc e.1

def GeneratorsOk (uc : UC) (gs : Generators) : Prop :=
  (gs.map (·.1)).Nodup ∧ ∀ e ∈ gs, GenTableOk uc e.1 e.2

theorem addGen_fresh (gs : Generators) (c : GenCategory) (p : DocPath) (g : Generator) (h : c ∉ gs.map (·.1)) :
    addGen gs c p g = gs ++ [(c, [(p, g)])] := by
  induction gs with
  | nil => rfl
  | cons e es ih =>
    obtain ⟨d, m⟩ := e
    have hne : d ≠ c := fun h' => h (by rw [← h']; simp)
    rw [addGen, if_neg hne, ih (fun h' => h (List.mem_cons_of_mem _ h'))]
    rfl

theorem addGen_last (gs : Generators) (c : GenCategory) (m : List (DocPath × Generator)) (p : DocPath) (g : Generator)
    (h : c ∉ gs.map (·.1)) : addGen (gs ++ [(c, m)]) c p g = gs ++ [(c, insertGen m p g)] := by
  induction gs with
  | nil => simp [addGen]
  | cons e es ih =>
    obtain ⟨d, n⟩ := e
    have hne : d ≠ c := fun h' => h (by rw [← h']; simp)
    rw [List.cons_append, addGen, if_neg hne, ih (fun h' => h (List.mem_cons_of_mem _ h'))]
    rfl

/-- A category with the given generators, absent when there are none. -/
def catOf (c : GenCategory) (m : List (DocPath × Generator)) : Generators := if m.isEmpty then [] else [(c, m)]

theorem addGen_catOf (gs : Generators) (c : GenCategory) (m : List (DocPath × Generator)) (p : DocPath) (g : Generator)
    (h : c ∉ gs.map (·.1)) (hp : p.expr ∉ m.map (fun e => e.1.expr)) :
    addGen (gs ++ catOf c m) c p g = gs ++ catOf c (m ++ [(p, g)]) := by
  unfold catOf
  cases m with
  | nil =>
    simp only [List.isEmpty_nil, if_true, List.append_nil]
    rw [addGen_fresh gs c p g h]
    rfl
  | cons e es =>
    simp only [List.isEmpty_cons, Bool.false_eq_true, if_false]
    rw [addGen_last gs c _ p g h, insertGen_fresh _ p g hp]
    rfl

/-- The key of a generator determines its path. -/
def KeyOk (P : Params) (c : GenCategory) (p : DocPath) : Prop :=
  (if named c then Res.ok (Path.pushField Path.rootPath (genKeyText c p)) else Path.new P.uc (genKeyText c p)) = .ok p

theorem loadKeys_spec (P : Params) (c : GenCategory) (gs : Generators) (h : c ∉ gs.map (·.1))
    (es : List (DocPath × Generator)) (he : ∀ e ∈ es, KeyOk P c e.1 ∧ GenOk e.2) :
    ∀ m : List (DocPath × Generator), (m.map (fun e => e.1.expr) ++ es.map (fun e => e.1.expr)).Nodup →
    loadKeys P c (gs ++ catOf c m) (es.map fun e => (genKeyText c e.1, genToJson e.2)) = .ok (gs ++ catOf c (m ++ es)) := by
  induction es with
  | nil => intro m _; simp [loadKeys]
  | cons e es ih =>
    obtain ⟨p, g⟩ := e
    intro m hn
    obtain ⟨h1, h2, h3⟩ := List.nodup_append.1 hn
    obtain ⟨o, ho, hg⟩ := gen_roundtrip g (he (p, g) List.mem_cons_self).2
    have hk := (he (p, g) List.mem_cons_self).1
    unfold KeyOk at hk
    simp only [List.map_cons]
    rw [ho, loadKeys, hk]
    show loadKeys P c (addFromObj (gs ++ catOf c m) c p o) _ = _
    unfold addFromObj
    rw [hg]
    show loadKeys P c (addGen (gs ++ catOf c m) c p g) _ = _
    rw [addGen_catOf gs c m p g h (fun h' => h3 _ h' p.expr (by simp) rfl),
      ih (fun x hx => he x (List.mem_cons_of_mem _ hx)), List.append_assoc]
    · rfl
    · rw [List.map_append, List.append_assoc]
      exact hn

/-- What is read back of a category. -/
def keptGens (c : GenCategory) (m : List (DocPath × Generator)) : List (DocPath × Generator) :=
  orderBy (fun e => genKeyText c e.1) m

theorem genKey_nodup (uc : UC) (c : GenCategory) (m : List (DocPath × Generator)) (h : GenTableOk uc c m) :
    (m.map fun e => genKeyText c e.1).Nodup := by
  obtain ⟨hk, _, hp⟩ := h
  have named : (∀ e ∈ m, ∃ k, e.1 = Path.pushField Path.rootPath k) →
      (m.map fun e => (Path.firstField e.1).getD e.1.expr).Nodup := by
    intro hp
    have hk' := List.pairwise_map.1 hk
    refine List.pairwise_map.2 (hk'.imp_of_mem (fun {a b} ha hb hab heq => hab ?_))
    obtain ⟨k, h1⟩ := hp a ha
    obtain ⟨k', h2⟩ := hp b hb
    rw [h1, h2, firstField_name, firstField_name] at heq
    have : k = k' := heq
    rw [h1, h2, this]
  cases c with
  | header => exact named hp
  | query => exact named hp
  | _ => exact hk

theorem keyOk_of (P : Params) (c : GenCategory) (m : List (DocPath × Generator)) (h : GenTableOk P.uc c m)
    (hs : single c = false) : ∀ e ∈ m, KeyOk P c e.1 := by
  intro e he
  obtain ⟨_, _, hp⟩ := h
  cases c with
  | path => exact absurd hs (by decide)
  | method => exact absurd hs (by decide)
  | status => exact absurd hs (by decide)
  | header =>
    obtain ⟨k, hk⟩ := hp e he
    rw [hk]
    rfl
  | query =>
    obtain ⟨k, hk⟩ := hp e he
    rw [hk]
    rfl
  | body => exact hp e he
  | metadata => exact hp e he

theorem single_table (uc : UC) (c : GenCategory) (m : List (DocPath × Generator)) (h : GenTableOk uc c m)
    (hs : single c = true) : m = [] ∨ ∃ g, m = [(Path.empty, g)] ∧ GenOk g := by
  obtain ⟨hk, hg, hp⟩ := h
  have hp' : ∀ e ∈ m, e.1 = Path.empty := by
    cases c with
    | path => exact hp
    | method => exact hp
    | status => exact hp
    | header => exact absurd hs (by decide)
    | query => exact absurd hs (by decide)
    | body => exact absurd hs (by decide)
    | metadata => exact absurd hs (by decide)
  cases m with
  | nil => exact .inl rfl
  | cons e es =>
    cases es with
    | nil =>
      obtain ⟨p, g⟩ := e
      have : p = Path.empty := hp' (p, g) List.mem_cons_self
      subst this
      exact .inr ⟨g, rfl, hg _ List.mem_cons_self⟩
    | cons e2 es =>
      have h1 := hp' e List.mem_cons_self
      have h2 := hp' e2 (List.mem_cons_of_mem _ List.mem_cons_self)
      refine absurd ?_ (List.nodup_cons.1 hk).1
      show e.1.expr ∈ _
      rw [h1, ← h2]
      exact List.mem_map.2 ⟨e2, List.mem_cons_self, rfl⟩

theorem genCatParse_name (uc : UC) (c : GenCategory) : genCatParse uc (genCatName c) = some c := by
  unfold genCatParse
  rw [uc.lower_ascii (genCatName c) (by cases c <;> decide)]
  cases c <;> decide

/-- One category is read back. -/
theorem genTable_step (P : Params) (gs : Generators) (c : GenCategory) (m : List (DocPath × Generator))
    (h : GenTableOk P.uc c m) (hf : c ∉ gs.map (·.1)) (j : Json) (hj : genCatJson c m = some j) (es : Obj) :
    loadGens P gs ((genCatName c, j) :: es) = loadGens P (gs ++ catOf c (keptGens c m)) es := by
  unfold genCatJson at hj
  cases hs : single c with
  | true =>
    rw [hs] at hj
    rcases single_table P.uc c m h hs with rfl | ⟨g, rfl, hg⟩
    · exact absurd hj (by simp [Rules.lookup])
    · obtain ⟨o, ho, hgo⟩ := gen_roundtrip g hg
      have hj' : j = genToJson g := by
        have : some (genToJson g) = some j := hj
        injection this with this
        exact this.symm
      rw [hj', ho, loadGens, genCatParse_name]
      simp only [hs, if_true]
      show loadGens P (addFromObj gs c Path.empty o) es = _
      unfold addFromObj
      rw [hgo]
      show loadGens P (addGen gs c Path.empty g) es = _
      rw [addGen_fresh gs c _ g hf]
      rfl
  | false =>
    rw [hs] at hj
    have hj' : j = .obj ((keptGens c m).map fun e => (genKeyText c e.1, genToJson e.2)) := by
      have : some (Json.obj (OMap.collect (m.map fun e => (genKeyText c e.1, genToJson e.2)))) = some j := hj
      rw [collect_key (fun e : DocPath × Generator => genKeyText c e.1) (fun e => genToJson e.2)] at this
      injection this with this
      exact this.symm
    have hmem := orderBy_mem (fun e : DocPath × Generator => genKeyText c e.1) m
    have hperm := orderBy_perm (fun e : DocPath × Generator => genKeyText c e.1) m (genKey_nodup P.uc c m h)
    have hn : KeysNodup (keptGens c m) := (hperm.map (fun e : DocPath × Generator => e.1.expr)).nodup_iff.2 h.1
    have hl := loadKeys_spec P c gs hf (keptGens c m)
      (fun e he => ⟨keyOk_of P c m h hs e (hmem e he), h.2.1 e (hmem e he)⟩) [] hn
    rw [hj', loadGens, genCatParse_name]
    simp only [hs, Bool.false_eq_true, if_false]
    rw [show gs ++ catOf c [] = gs from List.append_nil gs] at hl
    rw [hl]
    rfl

/-- What is read back of all generators: the categories with generators, in the order of their names. -/
def keptAll (gs : Generators) : Generators := gs.flatMap fun e => catOf e.1 (keptGens e.1 e.2)

theorem catOf_names (c : GenCategory) (m : List (DocPath × Generator)) :
    ∀ x ∈ (catOf c m).map (·.1), x = c := by
  intro x hx
  unfold catOf at hx
  split at hx
  · cases hx
  · simpa using hx

theorem loadGens_spec (P : Params) (l : List ((GenCategory × List (DocPath × Generator)) × Json))
    (hl : ∀ e ∈ l, GenTableOk P.uc e.1.1 e.1.2 ∧ genCatJson e.1.1 e.1.2 = some e.2) : ∀ gs : Generators,
    (∀ e ∈ l, e.1.1 ∉ gs.map (·.1)) → (l.map fun e => e.1.1).Nodup →
    loadGens P gs (l.map fun e => (genCatName e.1.1, e.2)) = .ok (gs ++ keptAll (l.map (·.1))) := by
  induction l with
  | nil => intro gs _ _; simp [loadGens, keptAll]
  | cons e es ih =>
    intro gs hf hn
    obtain ⟨⟨c, m⟩, j⟩ := e
    have he := hl _ List.mem_cons_self
    have hn' := List.nodup_cons.1 hn
    simp only [List.map_cons]
    rw [genTable_step P gs c m he.1 (hf _ List.mem_cons_self) j he.2,
      ih (fun x hx => hl x (List.mem_cons_of_mem _ hx)) _ (fun x hx hm => ?_) hn'.2]
    · simp only [keptAll, List.flatMap_cons, List.append_assoc]
    · rw [List.map_append] at hm
      rcases List.mem_append.1 hm with hm | hm
      · exact hf x (List.mem_cons_of_mem _ hx) hm
      · have := catOf_names _ _ _ hm
        exact hn'.1 (List.mem_map.2 ⟨x, hx, this⟩)

theorem genCatName_inj : ∀ a b : GenCategory, genCatName a = genCatName b → a = b := by
  intro a b
  cases a <;> cases b <;> decide

theorem mem_keptAll (gs : Generators) (x : GenCategory × List (DocPath × Generator)) :
    x ∈ keptAll gs ↔ ∃ m, (x.1, m) ∈ gs ∧ x.2 = keptGens x.1 m ∧ x.2 ≠ [] := by
  unfold keptAll catOf
  rw [List.mem_flatMap]
  constructor
  · rintro ⟨⟨c, m⟩, h1, h2⟩
    simp only at h2
    split at h2
    · cases h2
    · rename_i hne
      rcases List.mem_singleton.1 h2 with rfl
      refine ⟨m, h1, rfl, fun h => hne (by have h' : keptGens c m = [] := h; rw [h']; rfl)⟩
  · rintro ⟨m, h1, h2, h3⟩
    refine ⟨(x.1, m), h1, ?_⟩
    simp only
    rw [← h2]
    have : x.2.isEmpty = false := by
      cases hx : x.2 with
      | nil => exact absurd hx h3
      | cons a as => rfl
    rw [this]
    simp

theorem find_cat (gs : Generators) (h : (gs.map (·.1)).Nodup) (e : GenCategory × List (DocPath × Generator))
    (hm : e ∈ gs) : gs.find? (fun f => decide (f.1 = e.1)) = some e := by
  induction gs with
  | nil => cases hm
  | cons f fs ih =>
    have hn := List.nodup_cons.1 h
    rcases List.mem_cons.1 hm with rfl | h'
    · simp
    · have hne : decide (f.1 = e.1) = false :=
        decide_eq_false (fun h2 => hn.1 (by show f.1 ∈ _; rw [h2]; exact List.mem_map.2 ⟨e, h', rfl⟩))
      rw [List.find?_cons, hne]
      exact ih hn.2 h'

theorem keptAll_nodup (gs : Generators) (h : (gs.map (·.1)).Nodup) : ((keptAll gs).map (·.1)).Nodup := by
  induction gs with
  | nil => exact List.Pairwise.nil
  | cons e es ih =>
    have hn := List.nodup_cons.1 h
    unfold keptAll
    rw [List.flatMap_cons, List.map_append, List.nodup_append]
    refine ⟨?_, ih hn.2, ?_⟩
    · unfold catOf
      split
      · exact List.Pairwise.nil
      · simp
    · intro a ha b hb hab
      subst hab
      have h1 := catOf_names _ _ _ ha
      obtain ⟨x, hx, hxa⟩ := List.mem_map.1 hb
      obtain ⟨m, hm, _⟩ := (mem_keptAll es x).1 hx
      exact hn.1 (List.mem_map.2 ⟨(x.1, m), hm, by rw [hxa, h1]⟩)

theorem keptAll_length (gs : Generators) (f : GenCategory × List (DocPath × Generator) → Bool)
    (hf : ∀ e ∈ gs, f e = !(keptGens e.1 e.2).isEmpty) : (keptAll gs).length = (gs.filter f).length := by
  induction gs with
  | nil => rfl
  | cons e es ih =>
    unfold keptAll
    rw [List.flatMap_cons, List.length_append, List.filter_cons, hf e List.mem_cons_self]
    have := ih (fun x hx => hf x (List.mem_cons_of_mem _ hx))
    unfold keptAll at this
    rw [this]
    unfold catOf
    cases (keptGens e.1 e.2).isEmpty
    · simp; omega
    · simp

theorem map_filterMap_pair {A B C : Type} (f : A → Option B) (k : A → C) (l : List A) :
    ∃ r : List (A × B), l.filterMap (fun a => (f a).map fun b => (k a, b)) = r.map (fun x => (k x.1, x.2))
      ∧ (∀ x ∈ r, x.1 ∈ l ∧ f x.1 = some x.2) ∧ (r.map (·.1)) = l.filter (fun a => (f a).isSome) := by
  induction l with
  | nil => exact ⟨[], rfl, by simp, rfl⟩
  | cons a as ih =>
    obtain ⟨r, h1, h2, h3⟩ := ih
    cases hf : f a with
    | none =>
      refine ⟨r, ?_, fun x hx => ⟨List.mem_cons_of_mem _ (h2 x hx).1, (h2 x hx).2⟩, ?_⟩
      · rw [List.filterMap_cons, hf]; exact h1
      · rw [List.filter_cons, hf]; exact h3
    | some b =>
      refine ⟨(a, b) :: r, ?_, ?_, ?_⟩
      · rw [List.filterMap_cons, hf, List.map_cons, ← h1]; rfl
      · intro x hx
        rcases List.mem_cons.1 hx with rfl | hx
        · exact ⟨List.mem_cons_self, hf⟩
        · exact ⟨List.mem_cons_of_mem _ (h2 x hx).1, (h2 x hx).2⟩
      · rw [List.filter_cons, hf, List.map_cons, h3]; rfl

/-- The generators of an interaction written to JSON and read back are equal to the original. -/
theorem C67_tables_partial (P : Params) (gs : Generators) (h : GeneratorsOk P.uc gs) :
    ∃ o gs', generatorsToJson gs = .obj o ∧ loadGens P [] o = .ok gs' ∧ gensEq gs gs' = true := by
  obtain ⟨r, hr1, hr2, hr3⟩ := map_filterMap_pair
    (fun e : GenCategory × List (DocPath × Generator) => genCatJson e.1 e.2) (fun e => genCatName e.1) gs
  have hsub : ∀ x ∈ r, x.1 ∈ gs := fun x hx => (hr2 x hx).1
  have hrn : (r.map fun x => x.1.1).Nodup := by
    have : (r.map fun x => x.1.1) = (gs.filter (fun a => (genCatJson a.1 a.2).isSome)).map (·.1) := by
      rw [← hr3, List.map_map]; rfl
    rw [this]
    exact (List.filter_sublist.map _).nodup h.1
  have hrk : (r.map fun x => genCatName x.1.1).Nodup := by
    have h1 := List.pairwise_map.1 hrn
    exact List.pairwise_map.2 (h1.imp (fun hab heq => hab (genCatName_inj _ _ heq)))
  have hperm := orderBy_perm (fun x : (GenCategory × List (DocPath × Generator)) × Json => genCatName x.1.1) r hrk
  generalize hl : orderBy (fun x : (GenCategory × List (DocPath × Generator)) × Json => genCatName x.1.1) r = l at hperm
  have hjson : generatorsToJson gs = .obj (l.map fun e => (genCatName e.1.1, e.2)) := by
    unfold generatorsToJson
    rw [hr1, collect_key (fun x : (GenCategory × List (DocPath × Generator)) × Json => genCatName x.1.1) (fun x => x.2),
      hl]
  have hln : (l.map fun e => e.1.1).Nodup := (hperm.map (fun e => e.1.1)).nodup_iff.2 hrn
  have hload := loadGens_spec P l (fun e he => by
    obtain ⟨h1, h2⟩ := hr2 e (hperm.mem_iff.1 he)
    exact ⟨h.2 _ h1, h2⟩) [] (by simp) hln
  refine ⟨_, _, hjson, hload, ?_⟩
  rw [List.nil_append]
  have hlm : ((l.map (·.1)).map (·.1)).Nodup := by rw [List.map_map]; exact hln
  have hkn := keptAll_nodup (l.map (·.1)) hlm
  have hall : (keptAll (l.map (·.1))).filter (fun e => !e.2.isEmpty) = keptAll (l.map (·.1)) := by
    refine List.filter_eq_self.2 (fun e he => ?_)
    obtain ⟨m, _, _, hne⟩ := (mem_keptAll _ e).1 he
    cases hx : e.2 with
    | nil => exact absurd hx hne
    | cons a as => simp
  have hkeptlen : ∀ e ∈ gs, (keptGens e.1 e.2).length = e.2.length := fun e he =>
    (orderBy_perm (fun x : DocPath × Generator => genKeyText e.1 x.1) e.2 (genKey_nodup P.uc _ _ (h.2 e he))).length_eq
  have hkeptne : ∀ e ∈ gs, (!e.2.isEmpty) = !(keptGens e.1 e.2).isEmpty := by
    intro e he
    have := hkeptlen e he
    cases h1 : e.2 with
    | nil =>
      rw [h1] at this
      rw [List.length_eq_zero_iff.1 this]
    | cons a as =>
      cases h2 : keptGens e.1 (a :: as) with
      | nil => rw [h1, h2] at this; cases this
      | cons b bs => rfl
  -- categories with generators are written
  have hsome : ∀ e ∈ gs, e.2.isEmpty = false → (genCatJson e.1 e.2).isSome = true := by
    intro e he hne
    unfold genCatJson
    cases hs : single e.1 with
    | false => rfl
    | true =>
      rcases single_table P.uc e.1 e.2 (h.2 e he) hs with h0 | ⟨g, h0, _⟩
      · rw [h0] at hne; cases hne
      · rw [h0]; rfl
  have hin : ∀ e ∈ gs, e.2.isEmpty = false → e ∈ l.map (·.1) := by
    intro e he hne
    have : e ∈ r.map (·.1) := by
      rw [hr3]
      exact List.mem_filter.2 ⟨he, hsome e he hne⟩
    obtain ⟨x, hx, rfl⟩ := List.mem_map.1 this
    exact List.mem_map.2 ⟨x, hperm.mem_iff.2 hx, rfl⟩
  unfold gensEq
  simp only [hall]
  rw [Bool.and_eq_true]
  refine ⟨decide_eq_true ?_, List.all_eq_true.2 (fun e he => ?_)⟩
  · rw [keptAll_length (l.map (·.1)) (fun e => !e.2.isEmpty) (fun e he => by
      obtain ⟨x, hx, rfl⟩ := List.mem_map.1 he
      exact hkeptne _ (hsub x (hperm.mem_iff.1 hx)))]
    have h1 : ((l.map (·.1)).filter fun e => !e.2.isEmpty).Perm ((r.map (·.1)).filter fun e => !e.2.isEmpty) :=
      (hperm.map (·.1)).filter _
    rw [h1.length_eq, hr3, List.filter_filter]
    congr 1
    refine List.filter_congr (fun e he => ?_)
    cases hne : e.2.isEmpty with
    | true => rfl
    | false => rw [hsome e he hne]; rfl
  · obtain ⟨hm, hne⟩ := List.mem_filter.1 he
    have hne' : e.2.isEmpty = false := by simpa using hne
    have hmem : (e.1, keptGens e.1 e.2) ∈ keptAll (l.map (·.1)) := by
      refine (mem_keptAll _ _).2 ⟨e.2, hin e hm hne', rfl, fun h0 => ?_⟩
      have h1 := hkeptne e hm
      simp only at h0
      rw [h0, hne'] at h1
      exact absurd h1 (by decide)
    rw [find_cat _ hkn _ hmem]
    show mapEq _ e.2 (keptGens e.1 e.2) = true
    have hp := orderBy_perm (fun x : DocPath × Generator => genKeyText e.1 x.1) e.2 (genKey_nodup P.uc _ _ (h.2 e hm))
    unfold mapEq
    rw [hkeptlen e hm]
    simp only [decide_true, Bool.true_and, List.all_eq_true]
    intro x hx
    have hkk : KeysNodup (keptGens e.1 e.2) :=
      (hp.map (fun x : DocPath × Generator => x.1.expr)).nodup_iff.2 (h.2 e hm).1
    rw [lookup_of_mem (keptGens e.1 e.2) hkk x.1 x.2 (hp.mem_iff.2 hx)]
    simp

/-- Generators with header, body and status entries meet the hypotheses. -/
def exGens : Generators :=
  [(.header, [(Path.pushField Path.rootPath "X-Id".toList, .uuid (some .simple)),
              (Path.pushField Path.rootPath "Age".toList, .randomInt (-5) 5)]),
   (.status, [(Path.empty, .randomInt 200 204)]), (.method, []),
   (.body, [({ tokens := [.root, .field "b".toList], expr := "$.b".toList }, .regex "[0-9]+".toList),
            ({ tokens := [.root, .field "a".toList], expr := "$.a".toList }, .providerState "id".toList (some .integer))])]

instance (uc : UC) (p : DocPath) : Decidable (PathOk uc p) := by unfold PathOk; infer_instance

theorem exGens_ok : GeneratorsOk exP.uc exGens := by
  refine ⟨by decide, ?_⟩
  intro e he
  simp only [exGens, List.mem_cons, List.not_mem_nil, or_false] at he
  rcases he with rfl | rfl | rfl | rfl
  · refine ⟨by decide, ?_, ?_⟩
    · intro e he
      simp only [List.mem_cons, List.not_mem_nil, or_false] at he
      rcases he with rfl | rfl
      · trivial
      · exact ⟨by decide, by decide⟩
    · intro e he
      simp only [List.mem_cons, List.not_mem_nil, or_false] at he
      rcases he with rfl | rfl <;> exact ⟨_, rfl⟩
  · refine ⟨by decide, ?_, ?_⟩
    · intro e he
      rcases List.mem_singleton.1 he with rfl
      exact ⟨by decide, by decide⟩
    · intro e he
      rcases List.mem_singleton.1 he with rfl
      rfl
  · exact ⟨by decide, by simp, by simp⟩
  · refine ⟨by decide, ?_, ?_⟩
    · intro e he
      simp only [List.mem_cons, List.not_mem_nil, or_false] at he
      rcases he with rfl | rfl <;> trivial
    · intro e he
      simp only [List.mem_cons, List.not_mem_nil, or_false] at he
      rcases he with rfl | rfl <;> decide

/-- The claim without the restriction on keys is false: two generators for parts of one header value are written
under one key. -/
theorem C67_header_key_fails : ∃ (gs : Generators) (o : Obj) (gs' : Generators),
    generatorsToJson gs = .obj o ∧ loadGens exP [] o = .ok gs' ∧ gensEq gs gs' = false :=
  ⟨[(.header, [(Path.pushField Path.rootPath "a".toList, .randomBoolean),
      (Path.pushIndex (Path.pushField Path.rootPath "a".toList) 0, .uuid none)])],
    _, _, rfl, rfl, by decide⟩

/-- A path generator stored at the root is read back at the empty path. -/
theorem C67_root_key_fails : ∃ (gs : Generators) (o : Obj) (gs' : Generators),
    generatorsToJson gs = .obj o ∧ loadGens exP [] o = .ok gs' ∧ gensEq gs gs' = false :=
  ⟨[(.path, [(Path.rootPath, .randomBoolean)])], _, _, rfl, rfl, by decide⟩

/-! ### Generators from name and values -/

theorem recreate_eq (g : Generator) : genRecreate g = genFromMap (genName g).toList (attrs (genValues g)) := rfl

/-- A generator is recreated from its name and values, except random strings and provider state generators with a
data type. -/
theorem C67_recreate_partial (g : Generator) (h : GenOk g) (hs : ∀ n, g ≠ .randomString n)
    (hp : ∀ e d, g ≠ .providerState e (some d)) : genRecreate g = some g := by
  rw [recreate_eq]
  cases g with
  | randomInt a b =>
    rw [genName, genValues, genFromMap, ty_randomInt]
    show some (Generator.randomInt _ _) = _
    rw [jsonToI32_spec _ _ _ a (by attr_simp) h.1, jsonToI32_spec _ _ _ b (by attr_simp) h.2]
  | uuid f => cases f with
    | none => rw [genName, genValues, genFromMap, ty_uuid]; attr_simp
    | some f => rw [genName, genValues, genFromMap, ty_uuid]; attr_simp; cases f <;> rfl
  | randomDecimal d =>
    rw [genName, genValues, genFromMap, ty_randomDecimal]
    show some (Generator.randomDecimal _) = _
    rw [jsonToU16_spec _ _ _ d (by attr_simp) h]
  | randomHexadecimal d =>
    rw [genName, genValues, genFromMap, ty_randomHexadecimal]
    show some (Generator.randomHexadecimal _) = _
    rw [jsonToU16_spec _ _ _ d (by attr_simp) h]
  | randomString d => exact absurd rfl (hs d)
  | regex r => rw [genName, genValues, genFromMap, ty_regex]; attr_simp; rfl
  | date f e =>
    rw [genName, genValues, genFromMap, ty_date]
    cases f <;> cases e <;> attr_simp <;> rfl
  | time f e =>
    rw [genName, genValues, genFromMap, ty_time]
    cases f <;> cases e <;> attr_simp <;> rfl
  | dateTime f e =>
    rw [genName, genValues, genFromMap, ty_dateTime]
    cases f <;> cases e <;> attr_simp <;> rfl
  | randomBoolean => rw [genName, genValues, genFromMap, ty_randomBoolean]
  | providerState e d => cases d with
    | none => rw [genName, genValues, genFromMap, ty_providerState]; attr_simp; rfl
    | some d => exact absurd rfl (hp e d)
  | mockServerURL x r => rw [genName, genValues, genFromMap, ty_mockServerURL]; attr_simp; rfl

example : genRecreate (.randomInt 3 7) = some (.randomInt 3 7) :=
  C67_recreate_partial _ ⟨by decide, by decide⟩ (by intro n h; cases h) (by intro e d h; cases h)

/-- The size of a random string is lost: the new generator always makes 10 characters. -/
theorem C67_recreate_string_fails (n : Nat) : genRecreate (.randomString n) = some (.randomString 10) := by
  rw [recreate_eq, genName, genValues, genFromMap, ty_randomString]
  show some (Generator.randomString (JsonUtils.jsonToU16 _ _ _)) = _
  unfold JsonUtils.jsonToU16
  attr_simp

/-- The data type of a provider state generator is lost. -/
theorem C67_recreate_dataType_fails (e : Str) (d : DataType) :
    genRecreate (.providerState e (some d)) = some (.providerState e none) := by
  rw [recreate_eq, genName, genValues, genFromMap, ty_providerState]; attr_simp; rfl

/-! ### C68: random values -/

/-- A random number generator that draws `v` whenever the range allows it (the lowest number otherwise). -/
def drawing (v : Int) : Rng where
  pick := fun _ lo hi => if lo ≤ v ∧ v < hi then v else lo
  pick_range := by
    intro n lo hi h
    split
    · assumption
    · exact ⟨Int.le_refl _, h⟩
  sample := fun k n => List.range (Nat.min k n)
  sample_length := by intro k n; simp
  sample_nodup := by intro k n; exact List.nodup_range
  sample_range := by
    intro k n i hi
    have h1 := List.mem_range.1 hi
    exact Nat.lt_of_lt_of_le h1 (Nat.min_le_right k n)
  hex := List.replicate 32 '0'
  hex_length := by simp
  hex_digits := by
    intro c hc
    rw [List.eq_of_mem_replicate hc]
    decide

/-- An `i32`. -/
def I32 (a : Int) : Prop := -2147483648 ≤ a ∧ a ≤ 2147483647

/-- A random integer lies between the limits, both included, whatever is drawn. -/
theorem C68_int_range (g : Rng) (lo hi : Int) (hh : I32 hi) (h : lo ≤ hi) (hl : lo < 2147483647) :
    ∃ i, randomInt g lo hi = .ok i ∧ lo ≤ i ∧ i ≤ hi := by
  have hlt : lo < satAdd hi := by unfold satAdd; split <;> omega
  refine ⟨g.pick 0 lo (satAdd hi), ?_, ?_⟩
  · unfold randomInt genRange
    rw [if_pos hlt]
  · have := g.pick_range 0 _ _ hlt
    refine ⟨this.1, ?_⟩
    have h2 := this.2
    unfold satAdd at h2 ⊢
    split at h2 <;> rename_i hc <;> simp only [hc, if_true, if_false] at * <;> omega

/-- Every number between the limits can be drawn, but for the largest `i32`. -/
theorem C68_int_reachable (lo hi i : Int) (h1 : lo ≤ i) (h2 : i ≤ hi) (h3 : i ≠ 2147483647) (hh : I32 hi) :
    ∃ g : Rng, randomInt g lo hi = .ok i := by
  have hlt : i < satAdd hi := by unfold satAdd; obtain ⟨_, _⟩ := hh; split <;> omega
  refine ⟨drawing i, ?_⟩
  unfold randomInt genRange
  rw [if_pos (by omega)]
  show Res.ok (if lo ≤ i ∧ i < satAdd hi then i else lo) = _
  rw [if_pos ⟨h1, hlt⟩]

/-- The largest `i32` is never drawn, although the limits include it. -/
theorem C68_int_max_fails (g : Rng) (lo : Int) : randomInt g lo 2147483647 ≠ .ok 2147483647 := by
  intro h
  have hs : satAdd 2147483647 = 2147483647 := by decide
  unfold randomInt genRange at h
  rw [hs] at h
  split at h
  · rename_i hlt
    have := (g.pick_range 0 _ _ hlt).2
    injection h with h
    omega
  · cases h

/-- The draw panics exactly when the limits are out of order (or both are the largest `i32`). -/
theorem C68_int_panic (g : Rng) (lo hi : Int) (hh : I32 hi) :
    randomInt g lo hi = .panic ↔ hi < lo ∨ (hi = 2147483647 ∧ lo = hi) := by
  unfold randomInt genRange satAdd
  obtain ⟨_, h2⟩ := hh
  by_cases hc : hi = 2147483647
  · subst hc
    rw [if_pos rfl]
    split <;> rename_i h
    · exact ⟨(fun h' => by cases h'), (fun h' => by omega)⟩
    · exact ⟨fun _ => by omega, fun _ => rfl⟩
  · rw [if_neg hc]
    split <;> rename_i h
    · exact ⟨(fun h' => by cases h'), (fun h' => by omega)⟩
    · exact ⟨fun _ => by omega, fun _ => rfl⟩

/-- A random status code lies between the limits when these fit a `u16`. -/
theorem C68_status_range (g : Rng) (lo hi : Int) (h0 : 0 ≤ lo) (h : lo ≤ hi) (h1 : hi < 65535) :
    ∃ i, randomU16 g lo hi = .ok i ∧ lo ≤ i ∧ i ≤ hi := by
  have e1 : asU16 lo = lo := Int.emod_eq_of_lt h0 (by omega)
  have e2 : asU16 hi = hi := Int.emod_eq_of_lt (by omega) (by omega)
  have e3 : satAddU16 hi = hi + 1 := by unfold satAddU16; rw [if_neg (by omega)]
  have hlt : lo < hi + 1 := by omega
  refine ⟨g.pick 0 lo (hi + 1), ?_, ?_⟩
  · unfold randomU16 genRange
    rw [e1, e2, e3, if_pos hlt]
  · have := g.pick_range 0 _ _ hlt
    omega

/-- Limits that do not fit are truncated: a negative lower limit panics, and a range that spans all codes has one. -/
theorem C68_status_fails (g : Rng) : randomU16 g (-1) 10 = .panic ∧ randomU16 g 0 65536 = .ok 0 := by
  constructor
  · rfl
  · have h : randomU16 g 0 65536 = .ok (g.pick 0 0 1) := rfl
    have := g.pick_range 0 0 1 (by decide)
    rw [h]
    congr 1
    omega

/-- A number drawn for a JSON value satisfies the integer rule, when the example value is not a text. -/
theorem C68_int_rule (env : Env) (g : Rng) (lo hi : Int) (v w r : Json) (casc : Bool) (hv : ∀ s, v ≠ .str s)
    (h : randomIntJson g lo hi v = .ok r) : Matchers.jsonMatches env w r .integer casc = true := by
  unfold randomIntJson at h
  cases hr : randomInt g lo hi with
  | ok i =>
    rw [hr] at h
    have : Expr.intJson i = r := by
      cases v with
      | str s => exact absurd rfl (hv s)
      | _ => exact Res.ok.inj h
    subst this
    cases i <;> rfl
  | err => rw [hr] at h; cases h
  | panic => rw [hr] at h; cases h

/-- The text of a number satisfies the integer rule for texts exactly when it is not negative. -/
theorem C68_int_text (env : Env) (e : Str) (i : Int) (h : I32 i) (casc : Bool) :
    Matchers.strMatches env e (intText i) .integer casc = true ↔ 0 ≤ i := by
  show (parseUsize (intText i)).isSome = true ↔ _
  cases i with
  | ofNat n =>
    have hn : n < usizeLim := by
      obtain ⟨_, h2⟩ := h
      have : (n : Int) ≤ 2147483647 := h2
      have h3 : n ≤ 2147483647 := by omega
      exact Nat.lt_of_le_of_lt h3 (by decide)
    rw [intText, parseUsize_natStr hn]
    exact ⟨fun _ => Int.natCast_nonneg n, fun _ => rfl⟩
  | negSucc n =>
    rw [intText, parseUsize_of_head (by intro r hr; cases hr)]
    have : parseDigits usizeLim ('-' :: natStr (n + 1)) = none := rfl
    rw [this]
    constructor
    · intro h; cases h
    · intro h; omega

/-- A random decimal has the requested number of digits, at least one before and two after the point, and no
superfluous leading zero. -/
theorem C68_decimal (g : Rng) (n : Nat) (h : 3 ≤ n) : ∃ a b : Str, generateDecimal g n = .ok (a ++ '.' :: b)
    ∧ a ≠ [] ∧ 2 ≤ b.length ∧ a.length + b.length = n ∧ (∀ c ∈ a ++ b, c.isDigit = true)
    ∧ (2 ≤ a.length → a.head? ≠ some '0') := by
  obtain ⟨m, rfl⟩ : ∃ m, n = m + 3 := ⟨n - 3, by omega⟩
  have hd : ∀ k, (digit g k).isDigit = true := by
    intro k
    have := g.pick_range k 0 10 (by decide)
    exact digitChar_isDigit (by omega)
  have hz : (nonZero g (m + 3 + 1)).isDigit = true ∧ nonZero g (m + 3 + 1) ≠ '0' := by
    have h1 := g.pick_range (m + 3 + 1) 1 10 (by decide)
    unfold nonZero
    have h2 : (g.pick (m + 3 + 1) 1 10).toNat < 10 := by omega
    have h3 : 0 < (g.pick (m + 3 + 1) 1 10).toNat := by omega
    generalize (g.pick (m + 3 + 1) 1 10).toNat = q at h2 h3
    refine ⟨digitChar_isDigit h2, ?_⟩
    have : ∀ d : Fin 10, 0 < d.1 → digitChar d.1 ≠ '0' := by decide
    exact this ⟨q, h2⟩ h3
  have hp : (1 : Int) < ((m + 3 - 1 : Nat) : Int) := by omega
  have hpr := g.pick_range (m + 3 + 2) 1 ((m + 3 - 1 : Nat) : Int) hp
  have hdef : generateDecimal g (m + 3) = (genRange g (m + 3 + 2) 1 (m + 3 - 1 : Nat)).map fun p =>
      let sample := (List.range (m + 3 + 1)).map (digit g)
      let sample := if "00".toList.isPrefixOf sample then nonZero g (m + 3 + 1) :: sample else sample
      let selected := if p.toNat ≠ 1 ∧ "0".toList.isPrefixOf sample = true then (sample.drop 1).take (m + 3)
        else sample.take (m + 3)
      selected.take p.toNat ++ '.' :: selected.drop p.toNat := rfl
  rw [hdef]
  unfold genRange
  rw [if_pos hp]
  generalize g.pick (m + 3 + 2) 1 ((m + 3 - 1 : Nat) : Int) = p at hpr
  obtain ⟨pos, rfl⟩ : ∃ pos : Nat, p = pos := ⟨p.toNat, by omega⟩
  have hsl : ((List.range (m + 3 + 1)).map (digit g)).length = m + 4 := by simp
  have hsd : ∀ c ∈ (List.range (m + 3 + 1)).map (digit g), c.isDigit = true := by
    intro c hc
    obtain ⟨k, _, rfl⟩ := List.mem_map.1 hc
    exact hd k
  generalize (List.range (m + 3 + 1)).map (digit g) = s0 at hsl hsd
  -- the sample: digits, long enough, not starting with two zeros
  have hs : ∃ s : Str, (if "00".toList.isPrefixOf s0 then nonZero g (m + 3 + 1) :: s0 else s0) = s ∧
      m + 4 ≤ s.length ∧ (∀ c ∈ s, c.isDigit = true) ∧ ¬ (∃ r, s = '0' :: '0' :: r) := by
    refine ⟨_, rfl, ?_, ?_, ?_⟩
    · split <;> simp [hsl]
    · split
      · intro c hc
        rcases List.mem_cons.1 hc with rfl | hc
        · exact hz.1
        · exact hsd c hc
      · exact hsd
    · rintro ⟨r, hr⟩
      split at hr
      · injection hr with h1 _
        exact hz.2 h1
      · rename_i hne
        rw [hr] at hne
        exact hne rfl
  obtain ⟨s, hs0, hlen, hdig, hnz⟩ := hs
  show ∃ a b : Str, Res.ok _ = Res.ok (a ++ '.' :: b) ∧ _
  simp only [hs0, Int.toNat_natCast]
  -- the selected digits
  have hsel : ∃ t : Str, (if pos ≠ 1 ∧ "0".toList.isPrefixOf s = true then (s.drop 1).take (m + 3)
      else s.take (m + 3)) = t ∧ t.length = m + 3 ∧ (∀ c ∈ t, c.isDigit = true) ∧
      (pos ≠ 1 → t.head? ≠ some '0') := by
    refine ⟨_, rfl, ?_, ?_, ?_⟩
    · split
      · rw [List.length_take, List.length_drop]; omega
      · rw [List.length_take]; omega
    · split
      · intro c hc; exact hdig c (List.mem_of_mem_drop (List.mem_of_mem_take hc))
      · intro c hc; exact hdig c (List.mem_of_mem_take hc)
    · intro hpos
      split
      · rename_i hc
        match s, hnz, hc.2 with
        | [], _, h => exact absurd h (by decide)
        | [x], _, _ => simp
        | x :: y :: r, hnz, hc =>
          intro hh
          have hx : x = '0' := by
            have : ('0' == x && true) = true := hc
            simp at this
            exact this.symm
          have hy : y = '0' := by simpa using hh
          exact hnz ⟨r, by rw [hx, hy]⟩
      · rename_i hc
        intro hh
        match s, hh with
        | [], h => exact absurd h (by simp)
        | x :: r, h =>
          have hx : x = '0' := by simpa using h
          subst hx
          exact hc ⟨hpos, rfl⟩
  obtain ⟨t, ht, htl, htd, htz⟩ := hsel
  rw [ht]
  refine ⟨t.take pos, t.drop pos, rfl, ?_, ?_, ?_, ?_, ?_⟩
  · intro h0
    have := congrArg List.length h0
    rw [List.length_take] at this
    have h00 : min pos t.length = 0 := this
    have h01 : 1 ≤ pos := by omega
    have h02 : 1 ≤ t.length := by omega
    omega
  · rw [List.length_drop]; omega
  · rw [List.length_take, List.length_drop]; omega
  · rw [List.take_append_drop]; exact htd
  · intro h2
    rw [List.length_take] at h2
    have hp1 : pos ≠ 1 := by omega
    match t, htz hp1, pos, hp1 with
    | [], _, _, _ => simp
    | x :: r, hx, 0, _ => simp
    | x :: r, hx, q + 1, _ => simpa using hx

/-- Small numbers of digits: nothing, one digit, one digit before and one after the point. -/
theorem C68_decimal_small (g : Rng) : generateDecimal g 0 = .ok []
    ∧ (∃ c : Char, generateDecimal g 1 = .ok [c] ∧ c.isDigit = true)
    ∧ (∃ c d : Char, generateDecimal g 2 = .ok [c, '.', d] ∧ c.isDigit = true ∧ d.isDigit = true) := by
  have hd : ∀ k, (digit g k).isDigit = true := by
    intro k
    have := g.pick_range k 0 10 (by decide)
    exact digitChar_isDigit (by omega)
  exact ⟨rfl, ⟨_, rfl, hd 0⟩, ⟨_, _, rfl, hd 0, hd 1⟩⟩

/-- A random hexadecimal text consists of hexadecimal digits, and has the requested number of them up to 16. -/
theorem C68_hexadecimal_partial (g : Rng) (n : Nat) :
    (generateHexadecimal g n).length = min n 16 ∧ ∀ c ∈ generateHexadecimal g n, c ∈ "0123456789ABCDEF".toList := by
  constructor
  · rw [generateHexadecimal, List.length_map, g.sample_length]
  · intro c hc
    obtain ⟨i, hi, rfl⟩ := List.mem_map.1 hc
    have h16 : i < 16 := g.sample_range n 16 i hi
    have : ∀ d : Fin 16, ("0123456789ABCDEF".toList.getD d.1 '?') ∈ "0123456789ABCDEF".toList := by decide
    exact this ⟨i, h16⟩

/-- More than 16 digits are never made, and no digit occurs twice: not every hexadecimal text can be drawn. -/
theorem C68_hexadecimal_fails (g : Rng) : (generateHexadecimal g 20).length ≠ 20
    ∧ ∀ n, (generateHexadecimal g n).Nodup := by
  constructor
  · rw [(C68_hexadecimal_partial g 20).1]; decide
  · intro n
    have hr := g.sample_range n 16
    refine List.pairwise_map.2 ((g.sample_nodup n 16).imp_of_mem (fun {a b} ha hb hab heq => hab ?_))
    have : ∀ x y : Fin 16, "0123456789ABCDEF".toList.getD x.1 '?' = "0123456789ABCDEF".toList.getD y.1 '?' → x = y := by
      decide
    have := this ⟨a, hr a ha⟩ ⟨b, hr b hb⟩ heq
    exact congrArg (fun x : Fin 16 => x.1) this

/-- A random string has the requested length and consists of ASCII letters and digits. -/
theorem C68_string (g : Rng) (n : Nat) :
    (generateString g n).length = n ∧ ∀ c ∈ generateString g n, c.isAlphanum = true := by
  constructor
  · rw [generateString, List.length_map, List.length_range]
  · intro c hc
    obtain ⟨k, _, rfl⟩ := List.mem_map.1 hc
    have h := g.pick_range k 0 62 (by decide)
    have : ∀ d : Fin 62, (alphanumeric.getD d.1 '?').isAlphanum = true := by decide +kernel
    exact this ⟨(g.pick k 0 62).toNat, by omega⟩

/-- Lower case hexadecimal digits. -/
def LowerHex (s : Str) : Prop := ∀ c ∈ s, c ∈ "0123456789abcdef".toList

/-- A random UUID has 8-4-4-4-12 lower case hexadecimal digits by default. -/
theorem C68_uuid (g : Rng) : ∃ a b c d e : Str, generateUuid g none = a ++ '-' :: b ++ '-' :: c ++ '-' :: d ++ '-' :: e
    ∧ a.length = 8 ∧ b.length = 4 ∧ c.length = 4 ∧ d.length = 4 ∧ e.length = 12
    ∧ LowerHex a ∧ LowerHex b ∧ LowerHex c ∧ LowerHex d ∧ LowerHex e
    ∧ generateUuid g (some .simple) = a ++ b ++ c ++ d ++ e
    ∧ generateUuid g (some .urn) = "urn:uuid:".toList ++ generateUuid g none
    ∧ generateUuid g (some .upperHyphen) = (generateUuid g none).map Char.toUpper := by
  have hl := g.hex_length
  have hd := g.hex_digits
  refine ⟨g.hex.take 8, (g.hex.drop 8).take 4, (g.hex.drop 12).take 4, (g.hex.drop 16).take 4, g.hex.drop 20, rfl,
    ?_, ?_, ?_, ?_, ?_, ?_, ?_, ?_, ?_, ?_, ?_, rfl, rfl⟩
  · rw [List.length_take, hl]; rfl
  · rw [List.length_take, List.length_drop, hl]; rfl
  · rw [List.length_take, List.length_drop, hl]; rfl
  · rw [List.length_take, List.length_drop, hl]; rfl
  · rw [List.length_drop, hl]
  · exact fun c hc => hd c (List.mem_of_mem_take hc)
  · exact fun c hc => hd c (List.mem_of_mem_drop (List.mem_of_mem_take hc))
  · exact fun c hc => hd c (List.mem_of_mem_drop (List.mem_of_mem_take hc))
  · exact fun c hc => hd c (List.mem_of_mem_drop (List.mem_of_mem_take hc))
  · exact fun c hc => hd c (List.mem_of_mem_drop hc)
  · show g.hex = _
    have h1 : g.hex.take 8 ++ (g.hex.drop 8).take 4 = g.hex.take 12 := (List.take_add (l := g.hex) (i := 8) (j := 4)).symm
    have h2 : g.hex.take 12 ++ (g.hex.drop 12).take 4 = g.hex.take 16 := (List.take_add (l := g.hex) (i := 12) (j := 4)).symm
    have h3 : g.hex.take 16 ++ (g.hex.drop 16).take 4 = g.hex.take 20 := (List.take_add (l := g.hex) (i := 16) (j := 4)).symm
    rw [h1, h2, h3, List.take_append_drop]

/-- Anchors at both ends of a regular expression are removed before random texts are made from it. -/
theorem C68_anchors (re : Str) : stripAnchors ('^' :: re ++ ['$']) = re := by
  unfold stripAnchors
  simp

/-- An anchor at the front only is not removed. -/
theorem C68_anchors_fails : stripAnchors "^a".toList = "^a".toList ∧ stripAnchors "a$".toList = "a".toList := by
  decide

example : I32 204 ∧ (200 : Int) ≤ 204 ∧ (200 : Int) < 2147483647 := ⟨⟨by decide, by decide⟩, by decide, by decide⟩

end GenerateProps
end Verif
