import Verif.Props.SessionProps
import Verif.Props.SessionBodyProps
import Verif.Props.PactV2Props
import Verif.Props.MessageProps

/-
  C151: message metadata (`with_metadata`): what a history of calls sets, and which messages the result accepts.
-/

set_option autoImplicit false

namespace Verif
namespace SessionMetaProps
open Path Rules RuleJson Generate Integration PactFile Parts Headers Ops SessionProps IntegrationProps
open MatchResult hiding Part Message
open Compare Matchers MessageProps PactV2Props HeaderProps

/-! ## Specification -/

/-- A value that is not an object or an array. -/
def Scalar (j : Json) : Prop := (∀ m, j ≠ .obj m) ∧ ∀ xs, j ≠ .arr xs

/-- What the value of a call asks for: an example value and rules.  A text that is not JSON stands for itself; a matcher
object for its rules, with its `value` as the example. -/
inductive Asks (E : Source) (k : Str) : CStr → Option Json → List MatchingRule → Prop
  | removed : Asks E k .null none []
  | text (t : Str) : E.parse t = none → Asks E k (.text t) (some (.str t)) []
  | scalar (t : Str) (j : Json) : E.parse t = some j → Scalar j → Asks E k (.text t) (some j) []
  | matcher (t : Str) (m : Obj) (rs : List MatchingRule) (g : Option Generator) (v : Json) : E.parse t = some (.obj m) →
      BareName E.uc k → IsMatcher m → ¬ IsContains m → Means E.setup m rs g → RuleJson.get "value" m = some v → Scalar v →
      Asks E k (.text t) (some v) rs

/-- A call: the key, the value and what it asks for. -/
structure Item where
  key : Str
  value : CStr
  example? : Option Json
  rules : List MatchingRule

/-- The value of the last call for a key. -/
def last (k : Str) : List Item → Option Json
  | [] => none
  | x :: xs => if xs.any (fun y => decide (y.key = k)) then last k xs else if x.key = k then x.example? else none

/-- The rules of all calls for a key. -/
def rulesFor (k : Str) (xs : List Item) : List MatchingRule := (xs.filter fun y => decide (y.key = k)).flatMap (·.rules)

/-- A key that is not a number with leading zeros or a sign. -/
def Canonical (k : Str) : Prop := ∀ i, parseUsize k = some i → natStr i = k

/-- An actual value agrees with the example under the rules: without rules it must be equal (for content types: the same
media type), otherwise every rule must accept it. -/
def Agrees (env : Env) (uc : UC) (k : Str) (v : Json) (rs : List MatchingRule) (w : Json) : Prop :=
  (rs ≠ [] → ∀ r ∈ rs, jsonMatches env v w r false = true) ∧
  (rs = [] → (IsContentTypeKey k → SameMedia uc (asStrD v) (asStrD w)) ∧ (¬ IsContentTypeKey k → v = w))

/-- The calls for a history. -/
def calls (xs : List Item) (part : Part) : List (Bool × Call) := xs.map fun x => (false, .metadata (.text x.key) x.value part)

/-! ## One call -/

/-- The path of a bare key. -/
def kp (k : Str) : DocPath := ⟨[.root, .field k], k⟩

theorem process_scalar (S : Setup) (p : DocPath) (a b c : Bool) (v : Json) (h : Scalar v) (acc : Acc) :
    process S p a b c v acc = .ok (v, acc) := by
  cases v with
  | obj m => exact absurd rfl (h.1 m)
  | arr xs => exact absurd rfl (h.2 xs)
  | null => rw [process] <;> simp
  | bool b => rw [process] <;> simp
  | num n => rw [process] <;> simp
  | str s => rw [process] <;> simp

theorem valueIn_get (S : Setup) (p : DocPath) (a b : Bool) (v : Json) (hv : Scalar v) (acc : Acc) (m : Obj)
    (h : RuleJson.get "value" m = some v) : valueIn S p a b m acc = .ok (v, acc) := by
  unfold RuleJson.get at h
  induction m with
  | nil => cases h
  | cons e es ih =>
    obtain ⟨k, x⟩ := e
    rw [valueIn]
    by_cases hk : k = "value".toList
    · rw [if_pos hk, valueOf]
      rw [Json.lookup, if_pos hk] at h
      cases h
      exact process_scalar S p a true b v hv acc
    · rw [if_neg hk]
      rw [Json.lookup, if_neg hk] at h
      exact ih h

theorem process_matcher (S : Setup) (p : DocPath) (m : Obj) (rs : List MatchingRule) (g : Option Generator) (v : Json)
    (hm : IsMatcher m) (hc : ¬ IsContains m) (h : Means S m rs g) (hv : RuleJson.get "value" m = some v) (hs : Scalar v)
    (a : Acc) : process S p false false false (.obj m) a =
      .ok (v, addRulesAt p rs (addGenAt p (ownGenerator m) (addGenAt p g a))) := by
  rw [process]
  obtain ⟨t, ht⟩ := Option.isSome_iff_exists.1 hm
  rw [ht]
  have hn : isArrayContains t = false := by
    cases hb : isArrayContains t with
    | false => rfl
    | true => exact absurd ((isContains_iff ht).1 hb) hc
  simp only [hn, Bool.false_eq_true, if_false]
  rw [valueIn_get S p _ _ v hs a m hv, (matchersFrom_iff S m hm rs g).2 h]
  rfl

/-! ## The rules table -/

/-- The table of metadata rules holds exactly the rules `f`. -/
def Holds (uc : UC) (t : RuleCategory) (f : Str → List MatchingRule) : Prop :=
  t.name = .metadata ∧ KeysNodup t.rules ∧ (∀ k, f k ≠ [] → BareName uc k) ∧
  ∀ e, e ∈ t.rules ↔ ∃ k, f k ≠ [] ∧ e = (kp k, ⟨f k, .and, false⟩)

theorem kp_key (k k' : Str) (l : RuleList) : keyIs (kp k) (kp k', l) = true ↔ k' = k := by
  rw [RuleProps.keyIs_iff]
  exact Iff.rfl

theorem holds_add {uc : UC} {t : RuleCategory} {f : Str → List MatchingRule} (h : Holds uc t f) (k : Str) (hk : BareName uc k)
    (r : MatchingRule) :
    Holds uc (addRule t (kp k) r .and) (fun q => if q = k then f q ++ [r] else f q) := by
  obtain ⟨h1, h2, h3, h4⟩ := h
  refine ⟨h1, PatternProps.upsert_nodup _ _ _ _ h2, ?_, ?_⟩
  · intro q hq
    by_cases e : q = k
    · exact e ▸ hk
    · exact h3 q (by simpa only [if_neg e] using hq)
  · intro e
    show e ∈ upsert t.rules (kp k) (emptyList .and) _ ↔ _
    rw [PatternProps.mem_upsert _ _ _ _ h2]
    constructor
    · rintro (⟨hm, hn⟩ | ⟨e', hm, hy, rfl⟩ | ⟨rfl, hn⟩)
      · obtain ⟨q, hq, rfl⟩ := (h4 e).1 hm
        have hne : q ≠ k := fun e => by rw [(kp_key k q _).2 e] at hn; cases hn
        exact ⟨q, by simpa only [if_neg hne] using hq, by simp only [if_neg hne]⟩
      · obtain ⟨q, hq, rfl⟩ := (h4 e').1 hm
        have e := (kp_key k q _).1 hy
        subst e
        exact ⟨q, by simp, by simp⟩
      · have hf : f k = [] := by
          cases hf : f k with
          | nil => rfl
          | cons x xs =>
            have := hn (kp k, ⟨f k, .and, false⟩) ((h4 _).2 ⟨k, by simp [hf], rfl⟩)
            rw [(kp_key k k _).2 rfl] at this
            cases this
        exact ⟨k, by simp, by simp [hf, emptyList]⟩
    · rintro ⟨q, hq, rfl⟩
      by_cases e : q = k
      · subst e
        by_cases hf : f q = []
        · refine .inr (.inr ⟨by simp [hf, emptyList], ?_⟩)
          intro e' hm
          obtain ⟨q', hq', rfl⟩ := (h4 e').1 hm
          cases hb : keyIs (kp q) (kp q', (⟨f q', .and, false⟩ : RuleList)) with
          | false => rfl
          | true => exact absurd ((kp_key q q' _).1 hb ▸ hf) hq'
        · exact .inr (.inl ⟨_, (h4 _).2 ⟨q, hf, rfl⟩, (kp_key q q _).2 rfl, by simp⟩)
      · simp only [if_neg e] at hq ⊢
        refine .inl ⟨(h4 _).2 ⟨q, hq, rfl⟩, ?_⟩
        cases hb : keyIs (kp k) (kp q, (⟨f q, .and, false⟩ : RuleList)) with
        | false => rfl
        | true => exact absurd ((kp_key k q _).1 hb) e

theorem holds_congr {uc : UC} {t : RuleCategory} {f g : Str → List MatchingRule} (h : Holds uc t f) (e : ∀ k, f k = g k) :
    Holds uc t g := by
  have : f = g := funext e
  exact this ▸ h

theorem holds_addAll {uc : UC} (k : Str) (hk : BareName uc k) (rs : List MatchingRule) :
    ∀ (a : Acc) (f : Str → List MatchingRule), Holds uc a.cat f →
    Holds uc (addRulesAt (kp k) rs a).cat (fun q => if q = k then f q ++ rs else f q) := by
  induction rs with
  | nil =>
    intro a f h
    refine holds_congr h fun q => ?_
    simp
  | cons r rs ih =>
    intro a f h
    have := ih ⟨addRule a.cat (kp k) r .and, a.gens⟩ _ (holds_add h k hk r)
    refine holds_congr this fun q => ?_
    by_cases e : q = k <;> simp [e]

theorem weight_kp (k q : Str) : matchesPath (kp k).tokens ["$".toList, q] = true ↔ q = k := by
  unfold matchesPath pathWeight kp
  simp only [List.length_cons, List.length_nil, ge_iff_le, Nat.le_refl, if_true, weightFold, matchesToken]
  by_cases h : q = k
  · simp [h, usizeLim]
  · simp [h]

theorem toVec_key (k : Str) (h : Canonical k) : toVec (join rootPath k) = ["$".toList, k] :=
  PathProps.C08_join_part_partial rootPath k h

/-- The rules that apply to a metadata entry are those for its key. -/
theorem holds_best {uc : UC} {ctx : Ctx} {f : Str → List MatchingRule} (h : Holds uc ctx.cat f) (k : Str) (hk : Canonical k) :
    (f k ≠ [] → isDefined ctx (join rootPath k) = true ∧ best ctx (join rootPath k) = ⟨f k, .and, false⟩) ∧
    (f k = [] → isDefined ctx (join rootPath k) = false) := by
  obtain ⟨h1, _, _, h4⟩ := h
  have hd : isDefined ctx (join rootPath k) =
      !(ctx.cat.rules.filter fun e => matchesPath e.1.tokens ["$".toList, k]).isEmpty := by
    unfold isDefined matcherIsDefined resolveMatchersForPath
    rw [h1, toVec_key k hk]
    rfl
  have hm : ∀ e, e ∈ (ctx.cat.rules.filter fun e => matchesPath e.1.tokens ["$".toList, k]) ↔
      f k ≠ [] ∧ e = (kp k, ⟨f k, .and, false⟩) := by
    intro e
    rw [List.mem_filter, h4]
    constructor
    · rintro ⟨⟨q, hq, rfl⟩, hw⟩
      have e := (weight_kp q k).1 hw
      subst e
      exact ⟨hq, rfl⟩
    · rintro ⟨hq, rfl⟩
      exact ⟨⟨k, hq, rfl⟩, (weight_kp k k).2 rfl⟩
  constructor
  · intro hf
    constructor
    · rw [hd]
      cases hl : (ctx.cat.rules.filter fun e => matchesPath e.1.tokens ["$".toList, k]) with
      | nil => have := (hm _).2 ⟨hf, rfl⟩; rw [hl] at this; cases this
      | cons e es => rfl
    · show selectBestMatcher ctx.cat (toVec (join rootPath k)) = _
      unfold selectBestMatcher
      rw [h1, toVec_key k hk]
      show maxByPath ctx.cat _ = _
      unfold maxByPath bestEntry
      have hfil : (ctx.cat.rules.filter fun e => decide ((pathWeight e.1.tokens ["$".toList, k]).1 > 0)) =
          (ctx.cat.rules.filter fun e => matchesPath e.1.tokens ["$".toList, k]) := rfl
      rw [hfil]
      cases hb : maxByKey (fun e => score e.1 ["$".toList, k])
          (ctx.cat.rules.filter fun e => matchesPath e.1.tokens ["$".toList, k]) with
      | none =>
        have := (RuleProps.maxByKey_none _ _).1 hb
        have hh := (hm _).2 ⟨hf, rfl⟩
        rw [this] at hh
        cases hh
      | some e =>
        have := ((hm e).1 (RuleProps.maxByKey_some _ _ e hb).1).2
        subst this
        show asCascaded _ (decide ((pathWeight (kp k).tokens ["$".toList, k]).2 ≠ 2)) = _
        have : (pathWeight (kp k).tokens ["$".toList, k]).2 = 2 := rfl
        rw [this]
        rfl
  · intro hf
    rw [hd]
    cases hl : (ctx.cat.rules.filter fun e => matchesPath e.1.tokens ["$".toList, k]) with
    | nil => rfl
    | cons e es => exact absurd hf ((hm e).1 (by rw [hl]; exact List.mem_cons_self ..)).1

/-- A metadata value is accepted iff it agrees. -/
theorem value_agrees (env : Env) (uc uc' : UC) {ctx : Ctx} {f : Str → List MatchingRule} (h : Holds uc' ctx.cat f) (k : Str)
    (hk : Canonical k) (v w : Json) : matchMetadataValue env uc k v w ctx = [] ↔ Agrees env uc k v (f k) w := by
  obtain ⟨h1, h2⟩ := holds_best h k hk
  unfold matchMetadataValue Agrees
  by_cases hf : f k = []
  · have hd := h2 hf
    simp only [hd, Bool.false_eq_true, if_false, hf, ne_eq, not_true_eq_false, false_imp_iff, true_imp_iff, true_and]
    unfold IsContentTypeKey
    by_cases hc : asciiLower k = "contenttype".toList ∨ asciiLower k = "content-type".toList
    · rw [if_pos hc, ← C46_parameter_header]
      simp only [hc, true_imp_iff, not_true_eq_false, false_imp_iff, and_true]
      simp
    · rw [if_neg hc]
      simp only [hc, false_imp_iff, not_false_eq_true, true_imp_iff, true_and]
      by_cases he : v = w <;> simp [jsonMatches, he]
  · obtain ⟨hd, hb⟩ := h1 hf
    simp only [hd, if_true, hb]
    have hi : (∀ r ∈ f k, jsonMatches env v w r false = true) ↔ matchValues (jsonMatches env v w) ⟨f k, .and, false⟩ = .ok () := by
      rw [MatcherProps.matchValues_ok_iff]
      exact ⟨fun h => ⟨hf, h⟩, fun h => h.2⟩
    simp only [hf, ne_eq, not_false_eq_true, true_imp_iff, false_imp_iff, and_true]
    rw [hi]
    cases hv : matchValues (jsonMatches env v w) ⟨f k, .and, false⟩ with
    | ok u => simp
    | error ms =>
      have := ResultProps.matchValues_error_ne_nil _ _ _ hv
      simp [this]

/-! ## Histories -/

/-- The state of the metadata after the calls `xs`. -/
structure Inv (uc : UC) (m0 : MessageContents) (xs : List Item) (c : MessageContents) : Prop where
  contents : c.contents = m0.contents
  others : ∀ d, d ≠ .metadata → rulesForCategory c.rules d = rulesForCategory m0.rules d
  nodup : (c.metadata.map (·.1)).Nodup
  values : ∀ k, Json.lookup k c.metadata = last k xs
  table : Holds uc (catOf c.rules .metadata) (fun k => rulesFor k xs)

theorem last_snoc (k : Str) (x : Item) (xs : List Item) :
    last k (xs ++ [x]) = if x.key = k then x.example? else last k xs := by
  induction xs with
  | nil => simp [last]
  | cons y ys ih =>
    rw [List.cons_append, last, ih, List.any_append, last]
    by_cases h : x.key = k <;> simp [h]

theorem rulesFor_snoc (k : Str) (x : Item) (xs : List Item) :
    rulesFor k (xs ++ [x]) = if k = x.key then rulesFor k xs ++ x.rules else rulesFor k xs := by
  unfold rulesFor
  rw [List.filter_append, List.flatMap_append]
  by_cases h : x.key = k
  · simp [h]
  · have h' : ¬ k = x.key := fun e => h e.symm
    simp [h, h']

theorem removeKV_nodup {V : Type} (k : Str) (m : List (Str × V)) (h : (m.map (·.1)).Nodup) : ((removeKV k m).map (·.1)).Nodup :=
  List.Nodup.sublist (List.Sublist.map _ List.filter_sublist) h

theorem metaValue_scalar (S : Setup) (uc : UC) (k : Str) (a : Acc) (j : Json) (h : Scalar j) : metaValue S uc k a j = .ok (j, a) := by
  cases j with
  | obj m => exact absurd rfl (h.1 m)
  | arr xs => exact absurd rfl (h.2 xs)
  | null => rfl
  | bool b => rfl
  | num n => rfl
  | str s => rfl

theorem addGenAt_cat (p : DocPath) (g : Option Generator) (a : Acc) : (addGenAt p g a).cat = a.cat := by
  cases g <;> rfl

theorem catOf_setCat (R : MatchingRules) (t : RuleCategory) : catOf (setCat .metadata t R) .metadata = t :=
  PartProps.catOf_setCat .metadata t R

theorem others_setCat (R : MatchingRules) (t : RuleCategory) (d : Category) (h : d ≠ .metadata) :
    rulesForCategory (setCat .metadata t R) d = rulesForCategory R d := by
  rw [PartProps.forCategory_setCat, if_neg h]

/-- One call. -/
theorem change_inv (E : Source) (m0 : MessageContents) (xs : List Item) (x : Item) (c : MessageContents)
    (h : Inv E.uc m0 xs c) (hx : Asks E x.key x.value x.example? x.rules) :
    ∃ c', changeMeta E x.key (x.value.get.map (jsonOrText E.parse)) c = .ok c' ∧ Inv E.uc m0 (xs ++ [x]) c' := by
  obtain ⟨k, value, ex, rs⟩ := x
  obtain ⟨h1, h2, h3, h4, h5⟩ := h
  have plain : ∀ j, Scalar j → ∃ c', putMeta E k j c = .ok c' ∧ Inv E.uc m0 (xs ++ [⟨k, value, some j, []⟩]) c' := by
    intro j hj
    unfold putMeta
    rw [metaValue_scalar _ _ _ _ _ hj, Res.map_ok]
    refine ⟨_, rfl, h1, ?_, (insertKV_nodup k j c.metadata h3).1, ?_, ?_⟩
    · intro d hd
      rw [← h2 d hd]
      exact others_setCat _ _ d hd
    · intro q
      rw [last_snoc, ← h4]
      refine (lookup_insertKV ..).trans ?_
      by_cases e : k = q
      · subst e; simp
      · have e' : ¬ q = k := fun h => e h.symm
        simp [e, e']
    · rw [catOf_setCat]
      refine holds_congr h5 fun q => ?_
      rw [rulesFor_snoc]
      simp
  cases hx with
  | removed =>
    refine ⟨_, rfl, h1, h2, removeKV_nodup _ _ h3, ?_, ?_⟩
    · intro q
      rw [last_snoc, ← h4]
      refine (lookup_removeKV ..).trans ?_
      by_cases e : k = q
      · subst e; simp
      · have e' : ¬ q = k := fun h => e h.symm
        simp [e, e']
    · refine holds_congr h5 fun q => ?_
      rw [rulesFor_snoc]
      simp
  | text t hp =>
    have : (CStr.text t).get.map (jsonOrText E.parse) = some (.str t) := by
      show some (jsonOrText E.parse t) = _
      rw [jsonOrText, hp]; rfl
    rw [this]
    exact plain (.str t) ⟨fun m => by simp, fun a => by simp⟩
  | scalar t j hp hj =>
    have : (CStr.text t).get.map (jsonOrText E.parse) = some j := by
      show some (jsonOrText E.parse t) = _
      rw [jsonOrText, hp]; rfl
    rw [this]
    exact plain j hj
  | matcher t m _ g v hp hk hm hc hr hv hs =>
    have : (CStr.text t).get.map (jsonOrText E.parse) = some (.obj m) := by
      show some (jsonOrText E.parse t) = _
      rw [jsonOrText, hp]; rfl
    rw [this]
    unfold changeMeta putMeta metaValue
    simp only [bare_parse E.uc k hk]
    have hpm := process_matcher E.setup (kp k) m rs g v hm hc hr hv hs ⟨catOf c.rules .metadata, c.gens⟩
    unfold kp at hpm
    rw [hpm, Res.map_ok]
    refine ⟨_, rfl, h1, ?_, (insertKV_nodup k v c.metadata h3).1, ?_, ?_⟩
    · intro d hd
      rw [← h2 d hd]
      exact others_setCat _ _ d hd
    · intro q
      rw [last_snoc, ← h4]
      refine (lookup_insertKV ..).trans ?_
      by_cases e : k = q
      · subst e; simp
      · have e' : ¬ q = k := fun h => e h.symm
        simp [e, e']
    · rw [catOf_setCat]
      have := holds_addAll k hk rs (addGenAt (kp k) (ownGenerator m) (addGenAt (kp k) g ⟨catOf c.rules .metadata, c.gens⟩))
        (fun q => rulesFor q xs) (by rw [addGenAt_cat, addGenAt_cat]; exact h5)
      refine holds_congr this fun q => ?_
      rw [rulesFor_snoc]

theorem withMetadata_async (E : Source) (x : Item) (ct : Common) (c c' : MessageContents) (p : Ops.Part)
    (hx : Asks E x.key x.value x.example? x.rules)
    (h : changeMeta E x.key (x.value.get.map (jsonOrText E.parse)) c = .ok c') :
    withMetadata E false (.text x.key) x.value p (.async ct c) = .ok (.async ct c', true) := by
  obtain ⟨k, value, ex, rs⟩ := x
  unfold withMetadata
  cases hx with
  | removed =>
    show (changeMeta E k none c).map (fun m => (Interaction.async ct m, true)) = _
    have h' : changeMeta E k none c = .ok c' := h
    rw [h']; rfl
  | text t hp =>
    show (changeMeta E k _ c).map _ = _
    rw [h]; rfl
  | scalar t j hp hj =>
    show (changeMeta E k _ c).map _ = _
    rw [h]; rfl
  | matcher t m _ g v hp hk hm hc hr hv hs =>
    show (changeMeta E k _ c).map _ = _
    rw [h]; rfl

theorem history_inv (L : BodyBuild.Lib) (spec : PactV3.Spec) (p : Ops.Part) (ct : Common) (m0 : MessageContents) (xs : List Item) :
    ∀ (done : List Item) (c : MessageContents), (∀ x ∈ xs, Asks L.src x.key x.value x.example? x.rules) →
    Inv L.src.uc m0 done c →
    ∃ c', run L spec (calls xs p) (.async ct c) = .ok (.async ct c') ∧ Inv L.src.uc m0 (done ++ xs) c' := by
  induction xs with
  | nil => intro done c _ h; exact ⟨c, rfl, by rw [List.append_nil]; exact h⟩
  | cons x xs ih =>
    intro done c hx h
    obtain ⟨c1, hc1, hi1⟩ := change_inv L.src m0 done x c h (hx x (List.mem_cons_self ..))
    obtain ⟨c2, hr, hi2⟩ := ih (done ++ [x]) c1 (fun y hy => hx y (List.mem_cons_of_mem _ hy)) hi1
    refine ⟨c2, ?_, ?_⟩
    · show (step L spec false (.metadata (.text x.key) x.value p) (.async ct c)).bind _ = _
      show ((withMetadata L.src false (.text x.key) x.value p (.async ct c)).map (·.1)).bind _ = _
      rw [withMetadata_async L.src x ct c c1 p (hx x (List.mem_cons_self ..)) hc1]
      exact hr
    · rw [List.append_assoc] at hi2
      exact hi2

/-- Contents without metadata and rules for it. -/
def NoMeta (m : MessageContents) : Prop := m.metadata = [] ∧ rulesForCategory m.rules .metadata = none

theorem inv_start (uc : UC) (m : MessageContents) (h : NoMeta m) : Inv uc m [] m where
  contents := rfl
  others := fun _ _ => rfl
  nodup := by rw [h.1]; exact List.nodup_nil
  values := fun k => by rw [h.1]; rfl
  table := by
    have : catOf m.rules .metadata = emptyCat .metadata := by unfold catOf; rw [h.2]; rfl
    rw [this]
    refine ⟨rfl, List.nodup_nil, fun k hk => absurd rfl hk, fun e => ⟨fun h => (by cases h), ?_⟩⟩
    rintro ⟨k, hk, _⟩
    exact absurd rfl hk

theorem ctx_holds {uc : UC} {m0 : MessageContents} {xs : List Item} {c : MessageContents} (h : Inv uc m0 xs c) (k : Str)
    (hk : Canonical k) (env : Env) (uc' : UC) (v w : Json) :
    matchMetadataValue env uc' k v w (ctxFor c.rules .metadata .allowUnexpectedKeys) = [] ↔
      Agrees env uc' k v (rulesFor k xs) w := by
  cases hc : rulesForCategory c.rules .metadata with
  | some t =>
    have hcat : (ctxFor c.rules .metadata .allowUnexpectedKeys).cat = catOf c.rules .metadata := by
      unfold ctxFor catOf
      rw [hc]; rfl
    exact value_agrees env uc' uc (by rw [hcat]; exact h.table) k hk v w
  | none =>
    have hno : CompareProps.NoRules (ctxFor c.rules .metadata .allowUnexpectedKeys) := by
      unfold ctxFor CompareProps.NoRules
      rw [hc]; rfl
    have hr : rulesFor k xs = [] := by
      have h5 := h.table
      unfold catOf at h5
      rw [hc] at h5
      obtain ⟨_, _, _, h4⟩ := h5
      cases hf : rulesFor k xs with
      | nil => rfl
      | cons r rs =>
        have := (h4 _).2 ⟨k, by simp [hf], rfl⟩
        cases this
    rw [metadataValue_ok env uc' k v w _ hno]
    unfold Agrees
    rw [hr]
    simp

/-- **C151**: a history of metadata calls for a message.  The calls succeed and change nothing but the metadata, its rules and
generators.  The value of a key is the one of the last call for it (none if that was NULL), and a message is accepted, as far as
the metadata goes, iff it has an agreeing value for every such key, under the rules of *all* calls for the key. -/
theorem C151_history_partial (L : BodyBuild.Lib) (spec : PactV3.Spec) (p : Ops.Part) (ct : Common) (m : MessageContents) (xs : List Item)
    (hm : NoMeta m) (hx : ∀ x ∈ xs, Canonical x.key ∧ Asks L.src x.key x.value x.example? x.rules) :
    ∃ c, run L spec (calls xs p) (.async ct m) = .ok (.async ct c) ∧ c.contents = m.contents ∧
      (∀ d, d ≠ .metadata → rulesForCategory c.rules d = rulesForCategory m.rules d) ∧
      (∀ k, Json.lookup k c.metadata = last k xs) ∧
      ∀ (env : Env) (uc : UC) (t : Option ContentType) (b : Body) (a : MatchResult.Message),
        (∀ e ∈ matchMessageMetadata env uc ⟨t, b, c.metadata, c.rules⟩ a (ctxFor c.rules .metadata .allowUnexpectedKeys), e.2 = []) ↔
        ∀ k v, last k xs = some v → ∃ w, Json.lookup k a.metadata = some w ∧ Agrees env uc k v (rulesFor k xs) w := by
  obtain ⟨c, hr, hi⟩ := history_inv L spec p ct m xs [] m (fun x hx' => (hx x hx').2) (inv_start L.src.uc m hm)
  refine ⟨c, hr, hi.contents, hi.others, hi.values, ?_⟩
  intro env uc t b a
  rw [List.nil_append] at hi
  have hcan : ∀ k v, last k xs = some v → Canonical k := by
    have : ∀ ys : List Item, (∀ x ∈ ys, Canonical x.key) → ∀ k v, last k ys = some v → Canonical k := by
      intro ys
      induction ys with
      | nil => intro _ k v h; cases h
      | cons y ys ih =>
        intro hy k v h
        rw [last] at h
        split at h
        · exact ih (fun z hz => hy z (List.mem_cons_of_mem _ hz)) k v h
        · split at h
          · next e => exact e ▸ hy y (List.mem_cons_self ..)
          · cases h
    exact this xs fun x hx' => (hx x hx').1
  have hmem : ∀ k v, (k, v) ∈ c.metadata ↔ last k xs = some v := by
    intro k v
    rw [← hi.values]
    exact ⟨fun h => Json.lookup_of_mem hi.nodup h, fun h => Json.lookup_mem h⟩
  unfold matchMessageMetadata
  constructor
  · intro h k v hl
    have hm := (hmem k v).2 hl
    have := h _ (List.mem_map.2 ⟨(k, v), hm, rfl⟩)
    dsimp only at this
    cases hw : Json.lookup k a.metadata with
    | none => rw [hw] at this; cases this
    | some w =>
      rw [hw] at this
      exact ⟨w, rfl, (ctx_holds hi k (hcan k v hl) env uc v w).1 this⟩
  · intro h e he
    obtain ⟨⟨k, v⟩, hm, rfl⟩ := List.mem_map.1 he
    have hl := (hmem k v).1 hm
    obtain ⟨w, hw, ha⟩ := h k v hl
    dsimp only
    rw [hw]
    exact (ctx_holds hi k (hcan k v hl) env uc v w).2 ha

/-! ## Other interactions and refusals -/

/-- **C151** (refusals): after the start of the mock server, for HTTP interactions, and for a key or a value that is not text,
nothing changes and the answer is `false`. -/
theorem C151_refused (E : Source) (b : Bool) (k v : CStr) (p : Ops.Part) (i : Interaction)
    (h : b = true ∨ (∃ c req res, i = .http c req res) ∨ k.get = none ∨ v = .bad) :
    withMetadata E b k v p i = .ok (i, false) := by
  unfold withMetadata
  cases hk : k.get with
  | none => rfl
  | some k' =>
    rcases h with rfl | ⟨c, req, res, rfl⟩ | h | rfl
    · cases v <;> rfl
    · cases v <;> cases b <;> rfl
    · rw [hk] at h; cases h
    · rfl

/-- Two lists related item by item. -/
inductive Each {A B : Type} (R : A → B → Prop) : List A → List B → Prop
  | nil : Each R [] []
  | cons {a : A} {b : B} {as : List A} {bs : List B} : R a b → Each R as bs → Each R (a :: as) (b :: bs)

/-- An interaction without anything. -/
def c0 : Common := exNew.common

/-- The change of one message part by a call. -/
def Changed (E : Source) (k : Str) (v : CStr) (c c' : MessageContents) : Prop :=
  ∀ ct p, withMetadata E false (.text k) v p (.async ct c) = .ok (.async ct c', true)

theorem changed_iff (E : Source) (k : Str) (v : CStr) (hv : v ≠ .bad) (c c' : MessageContents) :
    Changed E k v c c' ↔ changeMeta E k (v.get.map (jsonOrText E.parse)) c = .ok c' := by
  have key : ∀ ct p, withMetadata E false (.text k) v p (.async ct c) =
      (changeMeta E k (v.get.map (jsonOrText E.parse)) c).map fun m => (Interaction.async ct m, true) := by
    intro ct p
    unfold withMetadata
    cases v with
    | bad => exact absurd rfl hv
    | null => rfl
    | text t => rfl
  unfold Changed
  simp only [key]
  constructor
  · intro h
    obtain ⟨x, hx, he⟩ := Res.map_eq_ok.1 (h c0 .request)
    cases he
    exact hx
  · intro h ct p
    rw [h]; rfl

/-- **C151** (synchronous messages): the request changes as an asynchronous message would; the part for responses changes every
response that is there, and none if there is none yet. -/
theorem C151_sync (E : Source) (k : Str) (v : CStr) (hv : v ≠ .bad) (ct : Common) (req : MessageContents)
    (res : List MessageContents) :
    (∀ req', Changed E k v req req' →
      withMetadata E false (.text k) v .request (.sync ct req res) = .ok (.sync ct req' res, true)) ∧
    (∀ res', Each (Changed E k v) res res' →
      withMetadata E false (.text k) v .response (.sync ct req res) = .ok (.sync ct req res', true)) := by
  constructor
  · intro req' h
    have h := (changed_iff E k v hv req req').1 h
    unfold withMetadata
    cases v with
    | bad => exact absurd rfl hv
    | null =>
      show (changeMeta E k none req).map (fun m => (Interaction.sync ct m res, true)) = _
      have h' : changeMeta E k none req = .ok req' := h
      rw [h']; rfl
    | text t =>
      show (changeMeta E k _ req).map (fun m => (Interaction.sync ct m res, true)) = _
      rw [h]; rfl
  · intro res' h
    have hall : allOk (res.map (changeMeta E k (v.get.map (jsonOrText E.parse)))) = .ok res' := by
      induction h with
      | nil => rfl
      | cons hd _ ih =>
        rw [List.map_cons, (changed_iff E k v hv _ _).1 hd, allOk, ih]
        rfl
    unfold withMetadata
    cases v with
    | bad => exact absurd rfl hv
    | null =>
      show (allOk (res.map (changeMeta E k none))).map (fun rs => (Interaction.sync ct req rs, true)) = _
      have h' : allOk (res.map (changeMeta E k none)) = .ok res' := hall
      rw [h']; rfl
    | text t =>
      show (allOk (res.map (changeMeta E k _))).map (fun rs => (Interaction.sync ct req rs, true)) = _
      rw [hall]; rfl

/-! ## Keys that are not names -/

/-- **C151** (a defect): an object or array for a key that is not a path expression aborts the program. -/
theorem C151_aborts (E : Source) (k t : Str) (j : Json) (hp : E.parse t = some j) (hj : ¬ Scalar j)
    (hk : ∀ p, Path.new E.uc k ≠ .ok p) (ct : Common) (c : MessageContents) (p : Ops.Part) :
    withMetadata E false (.text k) (.text t) p (.async ct c) = .panic := by
  show (changeMeta E k (some (jsonOrText E.parse t)) c).map (fun m => (Interaction.async ct m, true)) = _
  have : jsonOrText E.parse t = j := by rw [jsonOrText, hp]; rfl
  rw [this]
  have hm : ∀ a, metaValue E.setup E.uc k a j = .panic := by
    intro a
    cases j with
    | obj m =>
      unfold metaValue
      cases hn : Path.new E.uc k with
      | ok q => exact absurd hn (hk q)
      | err => rfl
      | panic => rfl
    | arr xs =>
      unfold metaValue
      cases hn : Path.new E.uc k with
      | ok q => exact absurd hn (hk q)
      | err => rfl
      | panic => rfl
    | null => exact absurd ⟨fun m => by simp, fun a => by simp⟩ hj
    | bool b => exact absurd ⟨fun m => by simp, fun a => by simp⟩ hj
    | num n => exact absurd ⟨fun m => by simp, fun a => by simp⟩ hj
    | str s => exact absurd ⟨fun m => by simp, fun a => by simp⟩ hj
  show (putMeta E k j c).map _ = _
  unfold putMeta
  rw [hm]; rfl

/-- Rules for paths of more than one name do not apply to metadata. -/
theorem long_undefined {ctx : Ctx} (hn : ctx.cat.name = .metadata) (h : ∀ e ∈ ctx.cat.rules, 3 ≤ e.1.tokens.length) (k : Str) :
    isDefined ctx (join rootPath k) = false := by
  have hl : (toVec (join rootPath k)).length = 2 := by
    unfold toVec join
    rw [List.length_map]
    split
    · rfl
    · split
      · rfl
      · split <;> rfl
  unfold isDefined matcherIsDefined resolveMatchersForPath
  rw [hn]
  show (!(ctx.cat.rules.filter fun e => matchesPath e.1.tokens (toVec (join rootPath k))).isEmpty) = false
  have : (ctx.cat.rules.filter fun e => matchesPath e.1.tokens (toVec (join rootPath k))) = [] := by
    rw [List.filter_eq_nil_iff]
    intro e he hw
    unfold matchesPath pathWeight at hw
    rw [if_neg (by rw [hl]; have := h e he; omega)] at hw
    cases hw
  rw [this]
  rfl

theorem addRules_paths (p : DocPath) (rs : List MatchingRule) : ∀ (a : Acc), (∀ e ∈ a.cat.rules, 3 ≤ e.1.tokens.length) →
    3 ≤ p.tokens.length → (addRulesAt p rs a).cat.name = a.cat.name ∧
      ∀ e ∈ (addRulesAt p rs a).cat.rules, 3 ≤ e.1.tokens.length := by
  have up : ∀ (m : List (DocPath × RuleList)) (f : RuleList → RuleList), (∀ e ∈ m, 3 ≤ e.1.tokens.length) → 3 ≤ p.tokens.length →
      ∀ e ∈ upsert m p (emptyList .and) f, 3 ≤ e.1.tokens.length := by
    intro m f hm hp
    induction m with
    | nil =>
      intro e he
      rw [upsert, List.mem_singleton] at he
      subst he; exact hp
    | cons x xs ih =>
      intro e he
      rw [upsert] at he
      split at he
      · rcases List.mem_cons.1 he with rfl | he
        · exact hm x (List.mem_cons_self ..)
        · exact hm e (List.mem_cons_of_mem _ he)
      · rcases List.mem_cons.1 he with rfl | he
        · exact hm _ (List.mem_cons_self ..)
        · exact ih (fun y hy => hm y (List.mem_cons_of_mem _ hy)) e he
  induction rs with
  | nil => intro a h _; exact ⟨rfl, h⟩
  | cons r rs ih =>
    intro a h hp
    obtain ⟨h1, h2⟩ := ih ⟨addRule a.cat p r .and, a.gens⟩ (up _ _ h hp) hp
    exact ⟨h1, h2⟩

/-- **C151** (a defect): for a key that reads as a path of several names, such as `user.id`, the matcher is lost: the example
value is required as it is. -/
theorem C151_dotted (E : Source) (k t : Str) (q : DocPath) (m : Obj) (rs : List MatchingRule) (g : Option Generator) (v : Json)
    (hq : Path.new E.uc k = .ok q) (hlen : 3 ≤ q.tokens.length)
    (hp : E.parse t = some (.obj m)) (hm : IsMatcher m) (hc : ¬ IsContains m) (hr : Means E.setup m rs g)
    (hv : RuleJson.get "value" m = some v) (hs : Scalar v) (ct : Common) (c : MessageContents) (hno : NoMeta c) (p : Ops.Part) :
    ∃ c', withMetadata E false (.text k) (.text t) p (.async ct c) = .ok (.async ct c', true) ∧
      Json.lookup k c'.metadata = some v ∧
      ∀ (env : Env) (uc : UC) (w : Json),
        matchMetadataValue env uc k v w (ctxFor c'.rules .metadata .allowUnexpectedKeys) = [] ↔ Agrees env uc k v [] w := by
  refine ⟨{ c with
    metadata := insertKV k v c.metadata
    rules := setCat .metadata (addRulesAt q rs (addGenAt q (ownGenerator m) (addGenAt q g ⟨catOf c.rules .metadata, c.gens⟩))).cat c.rules
    gens := (addRulesAt q rs (addGenAt q (ownGenerator m) (addGenAt q g ⟨catOf c.rules .metadata, c.gens⟩))).gens }, ?_, ?_, ?_⟩
  · show (changeMeta E k (some (jsonOrText E.parse t)) c).map (fun m => (Interaction.async ct m, true)) = _
    have : jsonOrText E.parse t = .obj m := by rw [jsonOrText, hp]; rfl
    rw [this]
    show (putMeta E k (.obj m) c).map _ = _
    unfold putMeta metaValue
    simp only [hq]
    rw [process_matcher E.setup q m rs g v hm hc hr hv hs, Res.map_ok]
    rfl
  · refine (lookup_insertKV ..).trans ?_
    simp
  · intro env uc w
    have hcat : catOf c.rules .metadata = emptyCat .metadata := by unfold catOf; rw [hno.2]; rfl
    obtain ⟨h1, h2⟩ := addRules_paths q rs
      (addGenAt q (ownGenerator m) (addGenAt q g ⟨catOf c.rules .metadata, c.gens⟩))
      (by rw [addGenAt_cat, addGenAt_cat, hcat]; intro e he; cases he) hlen
    have hctx : (ctxFor (setCat .metadata (addRulesAt q rs (addGenAt q (ownGenerator m)
        (addGenAt q g ⟨catOf c.rules .metadata, c.gens⟩))).cat c.rules) .metadata .allowUnexpectedKeys).cat =
        (addRulesAt q rs (addGenAt q (ownGenerator m) (addGenAt q g ⟨catOf c.rules .metadata, c.gens⟩))).cat := by
      unfold ctxFor
      rw [PartProps.forCategory_setCat, if_pos rfl]
      rfl
    have hu := long_undefined (ctx := ctxFor (setCat .metadata (addRulesAt q rs (addGenAt q (ownGenerator m)
        (addGenAt q g ⟨catOf c.rules .metadata, c.gens⟩))).cat c.rules) .metadata .allowUnexpectedKeys)
      (by rw [hctx, h1, addGenAt_cat, addGenAt_cat, hcat]; rfl) (by rw [hctx]; exact h2) k
    unfold matchMetadataValue Agrees
    simp only [hu, Bool.false_eq_true, if_false, ne_eq, not_true_eq_false, false_imp_iff, true_imp_iff, true_and]
    unfold IsContentTypeKey
    by_cases hk : asciiLower k = "contenttype".toList ∨ asciiLower k = "content-type".toList
    · rw [if_pos hk, ← C46_parameter_header]
      simp only [hk, true_imp_iff, not_true_eq_false, false_imp_iff, and_true]
      simp
    · rw [if_neg hk]
      simp only [hk, false_imp_iff, not_false_eq_true, true_imp_iff, true_and]
      by_cases he : v = w <;> simp [jsonMatches, he]

/-! ## Witnesses -/

/-- Contents without anything. -/
def k0 : MessageContents := ⟨.missing, [], [], []⟩

theorem k0_noMeta : NoMeta k0 := ⟨rfl, rfl⟩

theorem bare_id : BareName UC.ascii "id".toList := ⟨'i', ['d'], rfl, .inl rfl, by
  intro x hx
  rw [List.mem_singleton] at hx
  subst hx
  exact .inl rfl⟩

theorem canonical_id : Canonical "id".toList := by
  have : parseUsize "id".toList = none := by decide
  intro i h; rw [this] at h; cases h

/-- The texts of `PartProps.E0`. -/
def L2 : BodyBuild.Lib := { BodyBuildProps.L1 with src := PartProps.E0 }

theorem asks_A : Asks PartProps.E0 "id".toList (.text "A".toList) (some (IntegrationProps.js "2")) [.type] :=
  .matcher "A".toList _ [.type] none (IntegrationProps.js "2") rfl bare_id rfl (by rintro (h | h) <;> cases h) PartProps.means_A rfl
    ⟨fun m => by simp [IntegrationProps.js], fun a => by simp [IntegrationProps.js]⟩

theorem asks_x : Asks PartProps.E0 "id".toList (.text "x".toList) (some (.str "x".toList)) [] := .text "x".toList rfl

/-- The history theorem for a matcher: any text is accepted. -/
theorem C151_witness : ∃ c, run L2 .v4 (calls [⟨"id".toList, .text "A".toList, some (IntegrationProps.js "2"), [.type]⟩] .request)
      (.async c0 k0) = .ok (.async c0 c) ∧
    Json.lookup "id".toList c.metadata = some (IntegrationProps.js "2") ∧
    matchMetadataValue Env.simple UC.ascii "id".toList (IntegrationProps.js "2") (.str "other".toList)
      (ctxFor c.rules .metadata .allowUnexpectedKeys) = [] ∧
    matchMetadataValue Env.simple UC.ascii "id".toList (IntegrationProps.js "2") (.bool true)
      (ctxFor c.rules .metadata .allowUnexpectedKeys) ≠ [] := ⟨_, rfl, rfl, by decide, by decide⟩

/-- A matcher of an earlier call for the key stays in force after the key is removed and set to a plain text. -/
theorem C151_stale : ∃ c, run L2 .v4 (calls [⟨"id".toList, .text "A".toList, some (IntegrationProps.js "2"), [.type]⟩,
      ⟨"id".toList, .null, none, []⟩, ⟨"id".toList, .text "x".toList, some (.str "x".toList), []⟩] .request)
      (.async c0 k0) = .ok (.async c0 c) ∧
    Json.lookup "id".toList c.metadata = some (.str "x".toList) ∧
    matchMetadataValue Env.simple UC.ascii "id".toList (.str "x".toList) (.str "other".toList)
      (ctxFor c.rules .metadata .allowUnexpectedKeys) = [] := ⟨_, rfl, rfl, by decide⟩

/-- Keys that are not paths, and keys that are longer paths. -/
theorem C151_keys : (∀ p, Path.new UC.ascii "a b".toList ≠ .ok p) ∧
    Path.new UC.ascii "user.id".toList = .ok ⟨[.root, .field "user".toList, .field "id".toList], "user.id".toList⟩ := by
  constructor
  · intro p h
    have : Path.new UC.ascii "a b".toList = .err := by decide +kernel
    rw [h] at this
    cases this
  · decide +kernel

/-- An object with a matcher inside. -/
def E1 : Source where
  setup := IntegrationProps.S0
  parse := fun _ => some (.obj (PartProps.mObj [("a", .obj (PartProps.mObj [("value", IntegrationProps.js "2"),
    ("pact:matcher:type", IntegrationProps.js "type")]))]))
  uc := UC.ascii

/-- A matcher inside an object of the metadata is lost too: the object must be equal to the example. -/
theorem C151_nested : ∃ c, withMetadata E1 false (.text "id".toList) (.text "J".toList) .request (.async c0 k0) =
      .ok (.async c0 c, true) ∧
    Json.lookup "id".toList c.metadata = some (.obj (PartProps.mObj [("a", IntegrationProps.js "2")])) ∧
    matchMetadataValue Env.simple UC.ascii "id".toList (.obj (PartProps.mObj [("a", IntegrationProps.js "2")]))
      (.obj (PartProps.mObj [("a", IntegrationProps.js "3")])) (ctxFor c.rules .metadata .allowUnexpectedKeys) ≠ [] :=
  ⟨_, rfl, rfl, by decide⟩

end SessionMetaProps
end Verif
