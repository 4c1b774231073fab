import Verif.Props.EngineTotal
import Verif.Props.EndToEndProps

/-
  C103-C111: what the V2 matching engine (`match_request` with the engine selected) reports for a request.
  The specification of the parts is in `EngineSpec`.
-/
set_option autoImplicit false

namespace Verif
namespace EngineProps
open Path Rules Matchers Compare Query Headers MatchResult Engine EngineSpec EngineWalk
open CompareProps (NoRules noRules_isDefined)

/-! ### The requests the claims are made for -/

/-- The rules of the expected request have no unresolved references; the names of query parameters and headers are
not wildcards or numbers; parameters of headers have plain names; headers that are there have a value; the expected
body is not XML; the keys of an expected JSON body are plain. -/
structure Input (B : BP) (e a : Request) : Prop where
  rules : TableAll (RuleJsonProps.Writable B.P.rules.uc) e.rules
  queryNames : ∀ k ∈ Json.keys (e.query.getD []), NameOk k
  headerNames : ∀ k ∈ Json.keys (e.part.headers.getD []), NameOk k
  parameters : ∀ kv ∈ e.part.headers.getD [], parameterisedHeaders.contains (B.P.uc.lower kv.1) = true → ∀ v ∈ kv.2, ParamNames B.P v
  values : ∀ kv ∈ actualHeaders B.P.uc a, kv.2 ≠ []
  type : (declaredType B e).isJson = true ∨ (declaredType B e).isXml = false
  nice : (declaredType B e).isJson = true → ∀ b ct j, e.part.body = .present b ct → B.P.parseBytes b = some j → Nice B.P j
  fits : (declaredType B e).isJson = true → ∀ c v, bytesOf a = some c → B.P.parseBytes c = some v → Fits v

theorem Input.supported {B : BP} {e a : Request} (h : Input B e a) : Supported B e a :=
  ⟨safe_table h.rules _, safe_table h.rules _, safe_table h.rules _, safe_table h.rules _, h.queryNames, h.headerNames,
    h.parameters, h.values, h.type, h.nice, h.fits⟩

theorem agrees {B : BP} {e a : Request} (h : Input B e a) {V : Verdict} (hv : matchRequestV2 B e a = .ok V) : Agrees B e a V := by
  rw [matchRequestV2] at hv
  obtain ⟨plan, hp, _⟩ := bind_ok hv
  obtain ⟨W, hw, ha⟩ := request_agrees h.supported hp
  rw [matchRequestV2] at hw
  rw [hv] at hw
  cases hw
  exact ha

/-! ### C103: a result is always returned -/

/-- Matching a request returns a result, unless the expected body has a JSON content type and is not JSON: then an
error is returned. -/
theorem C103_total_partial (B : BP) (e a : Request) (h : Input B e a) :
    (Unreadable B e → matchRequestV2 B e a = .err) ∧ (¬ Unreadable B e → ∃ V, matchRequestV2 B e a = .ok V) := by
  have h1 := fun c => noRefs_table h.rules c
  constructor
  · intro hu
    rw [matchRequestV2, requestPlan_unreadable (h1 _) (h1 _) (h1 _) hu]
    rfl
  · intro hu
    obtain ⟨plan, hp⟩ := requestPlan_total (h1 .path) (h1 .query) (h1 .header) (h1 .body) h.type hu
    obtain ⟨V, hV, _⟩ := request_agrees h.supported hp
    exact ⟨V, hV⟩

/-! ### C104: the verdict -/

/-- A request is accepted exactly if its method, path, query, headers and body are. -/
theorem C104_verdict_partial (B : BP) (e a : Request) (h : Input B e a) (V : Verdict) (hv : matchRequestV2 B e a = .ok V) :
    V.allMatched = true ↔ MethodAccepts B.P e a ∧ PathAccepts B.P (partCtx e .path) e a ∧
      QueryAccepts B.P (partCtx e .query) e a ∧ HeadersAccept B.P (partCtx e .header) e a ∧ BodyAccepts B (partCtx e .body) e a :=
  agrees_all (agrees h hv)

/-- The method is reported exactly if it differs by more than case. -/
theorem C104_method_partial (B : BP) (e a : Request) (h : Input B e a) (V : Verdict) (hv : matchRequestV2 B e a = .ok V) :
    V.method = none ↔ B.P.upper e.method = B.P.upper a.method := by
  rw [← Option.isNone_iff_eq_none, (agrees h hv).method, MethodAccepts, eq_comm]

/-- The path is reported exactly if a rule for it does not match, or without rules, if it differs. -/
theorem C104_path_partial (B : BP) (e a : Request) (h : Input B e a) (V : Verdict) (hv : matchRequestV2 B e a = .ok V) :
    V.path = none ↔ PathAccepts B.P (partCtx e .path) e a := by
  rw [← Option.isNone_iff_eq_none, (agrees h hv).path]

theorem noRules_part {e : Request} (hr : e.rules = []) (c : Category) : NoRules (partCtx e c) := by
  unfold partCtx
  rw [hr]
  rfl

theorem C104_path_plain_partial (B : BP) (e a : Request) (h : Input B e a) (V : Verdict) (hv : matchRequestV2 B e a = .ok V)
    (hr : e.rules = []) : V.path = none ↔ e.path = a.path := by
  rw [C104_path_partial B e a h V hv, PathAccepts, if_neg (by rw [noRules_isDefined (noRules_part hr _)]; decide), eq_comm]

/-! ### C105: query -/

/-- No query mismatch is reported exactly if the names are the same and the values of each name are accepted. -/
theorem C105_query_partial (B : BP) (e a : Request) (h : Input B e a) (V : Verdict) (hv : matchRequestV2 B e a = .ok V) :
    (∀ kv ∈ V.query, kv.2 = []) ↔ QueryAccepts B.P (partCtx e .query) e a := by
  rw [← (agrees h hv).query, allEmpty_iff, AllEmpty]

/-- The values of a parameter. -/
def valuesOf (q : Option QueryMap) (k : Str) : Option (List Str) := (Json.lookup k (q.getD [])).map texts

/-- Two lists of values agree: a single expected value stands for any number of copies of it. -/
def Repeats (vs as : List Str) : Prop := as = vs ∨ ∃ v, vs = [v] ∧ ∀ t ∈ as, t = v

theorem sameValues_iff (vs as : List Str) : EngineSpec.SameValues vs as ↔ Repeats vs as := by
  unfold EngineSpec.SameValues Repeats
  split
  · rename_i v
    constructor
    · intro h
      exact .inr ⟨v, rfl, h⟩
    · rintro (rfl | ⟨w, hw, h⟩)
      · intro t ht; exact List.mem_singleton.mp ht
      · cases hw; exact h
  · rename_i hn
    constructor
    · exact .inl
    · rintro (h | ⟨v, hv, _⟩)
      · exact h
      · exact absurd hv (hn v)

theorem lookup_map_texts (q : List (Str × List (Option Str))) (k : Str) :
    Json.lookup k (q.map fun kv => (kv.1, texts kv.2)) = (Json.lookup k q).map texts := by
  induction q with
  | nil => rfl
  | cons x xs ih =>
    simp only [List.map_cons, Json.lookup]
    split
    · rfl
    · exact ih

theorem lookup_actualQuery (a : Request) (k : Str) : Json.lookup k (actualQuery a) = valuesOf a.query k :=
  lookup_map_texts _ _

/-- Without rules: each name has the same values in the same order, but a single expected value also stands for any
number of copies of it. -/
theorem C105_query_plain_partial (B : BP) (e a : Request) (h : Input B e a) (V : Verdict) (hv : matchRequestV2 B e a = .ok V)
    (hr : e.rules = []) (hn : QueryProps.NodupKeys (e.query.getD [])) :
    (∀ kv ∈ V.query, kv.2 = []) ↔ ∀ k, (valuesOf e.query k = none ∧ valuesOf a.query k = none) ∨
      ∃ vs as, valuesOf e.query k = some vs ∧ valuesOf a.query k = some as ∧ Repeats vs as := by
  have hd := fun p => noRules_isDefined (noRules_part hr .query) p
  rw [C105_query_partial B e a h V hv, QueryAccepts]
  have hacc : ∀ k vs as, ValuesAccept B.P (partCtx e .query) k vs as ↔ Repeats vs as := by
    intro k vs as
    rw [ValuesAccept, hd]
    exact sameValues_iff vs as
  simp only [hacc, lookup_actualQuery]
  have hcol : ∀ k vs, (k, vs) ∈ OMap.collect (e.query.getD []) ↔ Json.lookup k (e.query.getD []) = some vs := by
    intro k vs
    rw [← OMap.lookup_collect _ hn]
    exact ⟨Json.lookup_of_mem (collect_nodup _), Json.lookup_mem⟩
  simp only [hcol]
  have hmem : ∀ k, k ∈ Json.keys (actualQuery a) ↔ (valuesOf a.query k).isSome = true := by
    intro k
    rw [mem_keys_iff, ← lookup_actualQuery, Option.isSome_iff_exists]
  have hmem2 : ∀ k, k ∈ Json.keys (e.query.getD []) ↔ (valuesOf e.query k).isSome = true := by
    intro k
    rw [mem_keys_iff, valuesOf, Option.isSome_map, Option.isSome_iff_exists]
  simp only [hmem, hmem2]
  constructor
  · rintro ⟨h1, h2⟩ k
    have hk := h1 k
    cases he : Json.lookup k (e.query.getD []) with
    | none =>
      have : valuesOf e.query k = none := by rw [valuesOf, he]; rfl
      rw [this] at hk
      left
      refine ⟨this, ?_⟩
      cases ha : valuesOf a.query k with
      | none => rfl
      | some x => rw [ha] at hk; simp at hk
    | some vs =>
      have hvs : valuesOf e.query k = some (texts vs) := by rw [valuesOf, he]; rfl
      rw [hvs] at hk
      right
      cases ha : valuesOf a.query k with
      | none => rw [ha] at hk; simp at hk
      | some as => exact ⟨_, as, hvs, rfl, h2 k vs as he ha⟩
  · intro hall
    constructor
    · intro k
      rcases hall k with ⟨h1, h2⟩ | ⟨vs, as, h1, h2, _⟩
      · rw [h1, h2]
      · rw [h1, h2]; simp
    · intro k vs as he ha
      rcases hall k with ⟨h1, h2⟩ | ⟨vs', as', h1, h2, h3⟩
      · rw [ha] at h2; cases h2
      · rw [valuesOf, he] at h1
        cases h1
        rw [ha] at h2
        cases h2
        exact h3

/-! ### C106: headers -/

/-- No header mismatch is reported exactly if all expected headers are there (in any case) and their values are accepted. -/
theorem C106_headers_partial (B : BP) (e a : Request) (h : Input B e a) (V : Verdict) (hv : matchRequestV2 B e a = .ok V) :
    (∀ kv ∈ V.headers, kv.2 = []) ↔ HeadersAccept B.P (partCtx e .header) e a := by
  rw [← (agrees h hv).headers, allEmpty_iff, AllEmpty]

/-! ### C107: JSON bodies -/

/-- No body mismatch is reported exactly if the body is accepted. -/
theorem C107_body_partial (B : BP) (e a : Request) (h : Input B e a) (V : Verdict) (hv : matchRequestV2 B e a = .ok V) :
    V.body.allMatched = true ↔ BodyAccepts B (partCtx e .body) e a := (agrees h hv).body

/-- A JSON body is accepted for a JSON body with rules exactly if `Accepts` holds. -/
theorem C107_json_partial (B : BP) (e a : Request) (h : Input B e a) (V : Verdict) (hv : matchRequestV2 B e a = .ok V)
    (b c : Bytes) (t u : Option ContentType) (he : e.part.body = .present b t) (ha : a.part.body = .present c u)
    (hj : (declaredType B e).isJson = true) (ht : typeText B a = (declaredType B e).display) :
    V.body.allMatched = true ↔ ∃ j v, B.P.parseBytes b = some j ∧ B.P.parseBytes c = some v ∧
      Accepts B.P (partCtx e .body) rootPath j (some v) := by
  have hb : bytesOf a = some c := by rw [bytesOf, ha]
  rw [C107_body_partial B e a h V hv, BodyAccepts, he]
  show (typeText B a = (declaredType B e).display → ContentAccepts B.P _ _ b a) ↔ _
  rw [ContentAccepts, if_pos hj, hb]
  constructor
  · intro hh
    obtain ⟨j, h1, v, h2, h3⟩ := hh ht
    exact ⟨j, v, h1, h2, h3⟩
  · rintro ⟨j, v, h1, h2, h3⟩ _
    exact ⟨j, h1, v, h2, h3⟩

/-- The comparison of JSON documents without rules: scalars are equal, objects have the same keys with values that
compare, arrays have the same length and the same items where the expected item is a scalar; items that are arrays
or objects are not compared. -/
inductive Loose : Json → Json → Prop
  | scalar (e : Json) : scalar e = true → Loose e e
  | array (es l : List Json) : l.length = es.length → (∀ (i : Nat) (e : Json), es[i]? = some e → Engine.scalar e = true → l[i]? = some e) →
      Loose (.arr es) (.arr l)
  | object (es fs : List (Str × Json)) : (∀ k, k ∈ Json.keys fs ↔ k ∈ Json.keys es) →
      (∀ k v w, (k, v) ∈ es → Json.lookup k fs = some w → Loose v w) → Loose (.obj es) (.obj fs)

theorem items_loose {P : EP} {ctx : Ctx} (h : NoRules ctx) (p : DocPath) (l : List Json) : ∀ (es : List Json) (i : Nat),
    ItemsAccept P ctx p i es (some (.arr l)) ↔ ∀ n e w, es[n]? = some e → scalar e = true → l[i + n]? = some w → w = e
  | [], i => by simp [ItemsAccept]
  | e :: es, i => by
    rw [ItemsAccept, items_loose h p l es (i + 1)]
    have hi : ItemAccepts P ctx (joinIndex p i) e (item i (some (.arr l))) ↔ ∀ w, l[i]? = some w → w = e := by
      show ItemAccepts P ctx (joinIndex p i) e l[i]? ↔ _
      cases hw : l[i]? with
      | none => simp [ItemAccepts, noRules_isDefined h]
      | some w =>
        simp only [ItemAccepts, noRules_isDefined h]
        constructor
        · intro hh w' hw'; cases hw'; exact hh trivial
        · intro hh _; exact hh w rfl
    rw [hi]
    constructor
    · rintro ⟨h1, h2⟩ n x w hx hs hw
      cases n with
      | zero =>
        cases hx
        exact h1 hs w hw
      | succ n =>
        exact h2 n x w hx hs (by rw [← hw]; congr 1; omega)
    · intro hh
      refine ⟨fun hs w hw => hh 0 e w rfl hs hw, fun n x w hx hs hw => hh (n + 1) x w hx hs ?_⟩
      rw [← hw]; congr 1; omega

theorem rules_nil {ctx : Ctx} (h : NoRules ctx) (p : DocPath) : (best ctx p).rules = [] := by
  cases hr : (best ctx p).rules with
  | nil => rfl
  | cons r rs =>
    have hm : r ∈ (best ctx p).rules := by rw [hr]; exact List.mem_cons_self ..
    obtain ⟨en, hen, _⟩ := best_mem hm
    rw [h] at hen
    cases hen

theorem keys_loose {P : EP} {ctx : Ctx} (h : NoRules ctx) (p : DocPath) (es : List (Str × Json)) (x : Option Json) :
    KeysAccept P ctx p es x ↔ ∃ fs, x = some (.obj fs) ∧ ∀ k, k ∈ Json.keys fs ↔ k ∈ Json.keys es := by
  rw [KeysAccept, rules_nil h]
  exact iff_of_eq (if_neg (by rintro ⟨r, hr, _⟩; cases hr))

theorem scalar_loose {P : EP} {ctx : Ctx} (h : NoRules ctx) (p : DocPath) {e a : Json} (hs : scalar e = true) :
    (if isDefined ctx p then RulesAccept P ctx p false e (some a) else (some a).getD .null = e) ↔ Loose e a := by
  rw [noRules_isDefined h]
  show a = e ↔ _
  constructor
  · rintro rfl; exact .scalar _ hs
  · intro hl
    cases hl with
    | scalar => rfl
    | array => cases hs
    | object => cases hs

mutual
theorem accepts_loose {P : EP} {ctx : Ctx} (h : NoRules ctx) (e : Json) (p : DocPath) (a : Json) :
    Accepts P ctx p e (some a) ↔ Loose e a := by
  match e with
  | .arr items =>
    rw [Accepts, noRules_isDefined h]
    show (_ ∧ _) ↔ _
    constructor
    · rintro ⟨⟨l, hl, hn⟩, hi⟩
      cases hl
      rw [items_loose h] at hi
      refine .array _ _ hn (fun i x hx hs => ?_)
      have hlt : i < l.length := by
        rw [hn]
        exact (List.getElem?_eq_some_iff.1 hx).1
      have hw : l[i]? = some l[i] := List.getElem?_eq_getElem hlt
      have := hi i x l[i] hx hs (by rw [Nat.zero_add]; exact hw)
      rw [hw, this]
    · intro hl
      cases hl with
      | scalar _ hs => cases hs
      | array _ l hn hi =>
        refine ⟨⟨l, rfl, hn⟩, ?_⟩
        rw [items_loose h]
        intro n x w hx hs hw
        rw [Nat.zero_add, hi n x hx hs] at hw
        cases hw
        rfl
  | .obj es =>
    rw [Accepts, keys_loose h]
    constructor
    · rintro ⟨⟨fs, hf, hk⟩, he⟩
      cases hf
      exact .object _ _ hk ((entries_loose h es p fs (fun k hm => (hk k).2 hm)).1 he)
    · intro hl
      cases hl with
      | scalar _ hs => cases hs
      | object _ fs hk he =>
        exact ⟨⟨fs, rfl, hk⟩, (entries_loose h es p fs (fun k hm => (hk k).2 hm)).2 he⟩
  | .null => exact scalar_loose h p rfl
  | .bool b => exact scalar_loose h p rfl
  | .num n => exact scalar_loose h p rfl
  | .str s => exact scalar_loose h p rfl
termination_by structural e
theorem entries_loose {P : EP} {ctx : Ctx} (h : NoRules ctx) (es : List (Str × Json)) (p : DocPath) (fs : List (Str × Json))
    (hk : ∀ k ∈ Json.keys es, k ∈ Json.keys fs) :
    EntriesAccept P ctx p es (some (.obj fs)) ↔ ∀ k v w, (k, v) ∈ es → Json.lookup k fs = some w → Loose v w := by
  match es with
  | [] => simp [EntriesAccept]
  | e :: es =>
    rw [EntriesAccept, entries_loose h es p fs (fun k hm => hk k (List.mem_cons_of_mem _ hm)),
      entry_loose h e p fs (hk e.1 (List.mem_cons_self ..))]
    constructor
    · rintro ⟨h1, h2⟩ k v w hm hw
      rcases List.mem_cons.1 hm with hm | hm
      · subst hm
        exact h1 w hw
      · exact h2 k v w hm hw
    · intro hh
      exact ⟨fun w hw => hh e.1 e.2 w (List.mem_cons_self ..) hw, fun k v w hm hw => hh k v w (List.mem_cons_of_mem _ hm) hw⟩
termination_by structural es
theorem entry_loose {P : EP} {ctx : Ctx} (h : NoRules ctx) (e : Str × Json) (p : DocPath) (fs : List (Str × Json))
    (hk : e.1 ∈ Json.keys fs) : EntryAccepts P ctx p e (some (.obj fs)) ↔ ∀ w, Json.lookup e.1 fs = some w → Loose e.2 w := by
  match e with
  | (k, v) =>
    rw [EntryAccepts]
    show Accepts P ctx (pushField p k) v (Json.lookup k fs) ↔ _
    obtain ⟨w, hw⟩ := (mem_keys_iff k fs).1 hk
    rw [hw, accepts_loose h v]
    constructor
    · intro hh w' hw'
      cases hw'
      exact hh
    · intro hh
      exact hh w rfl
termination_by structural e
end

/-- Without rules a JSON body is accepted exactly if it compares with the expected one; nested values in arrays are
not looked at. -/
theorem C107_json_plain_partial (B : BP) (e a : Request) (h : Input B e a) (V : Verdict) (hv : matchRequestV2 B e a = .ok V)
    (b c : Bytes) (t u : Option ContentType) (he : e.part.body = .present b t) (ha : a.part.body = .present c u)
    (hj : (declaredType B e).isJson = true) (ht : typeText B a = (declaredType B e).display) (hr : e.rules = []) :
    V.body.allMatched = true ↔ ∃ j v, B.P.parseBytes b = some j ∧ B.P.parseBytes c = some v ∧ Loose j v := by
  rw [C107_json_partial B e a h V hv b c t u he ha hj ht]
  simp only [accepts_loose (noRules_part hr .body)]

mutual
/-- No array of the document has an item that is an array or an object. -/
def FlatArrays : Json → Prop
  | .arr items => ∀ x ∈ items, scalar x = true
  | .obj es => FlatEntries es
  | _ => True
termination_by structural j => j
def FlatEntries : List (Str × Json) → Prop
  | [] => True
  | e :: es => FlatEntry e ∧ FlatEntries es
termination_by structural l => l
def FlatEntry : Str × Json → Prop
  | (_, v) => FlatArrays v
termination_by structural e => e
end

mutual
theorem loose_refl (e : Json) (h : e.WF) : Loose e e := by
  match e with
  | .arr items => exact .array _ _ rfl (fun i x hx _ => hx)
  | .obj es =>
    rw [Json.WF] at h
    refine .object _ _ (fun k => Iff.rfl) (fun k v w hm hw => ?_)
    have := Json.lookup_of_mem h.1.nodup hm
    rw [hw] at this
    cases this
    exact loose_refl_entries es h.2 (k, v) hm
  | .null => exact .scalar _ rfl
  | .bool b => exact .scalar _ rfl
  | .num n => exact .scalar _ rfl
  | .str s => exact .scalar _ rfl
termination_by structural e
theorem loose_refl_entries (es : List (Str × Json)) (h : Json.WFEntries es) (e : Str × Json) (hm : e ∈ es) : Loose e.2 e.2 := by
  match es with
  | [] => cases hm
  | x :: xs =>
    rw [Json.WFEntries] at h
    rcases List.mem_cons.1 hm with hm | hm
    · rw [hm]
      exact loose_refl_entry x h.1
    · exact loose_refl_entries xs h.2 e hm
termination_by structural es
theorem loose_refl_entry (e : Str × Json) (h : Json.WFEntry e) : Loose e.2 e.2 := by
  match e with
  | (k, v) =>
    rw [Json.WFEntry] at h
    exact loose_refl v h
termination_by structural e
end

mutual
theorem loose_eq (e a : Json) (hf : FlatArrays e) (h : e.WF) (ha : a.WF) (hl : Loose e a) : a = e := by
  match e with
  | .arr items =>
    cases hl with
    | scalar => rfl
    | array _ l hn hi =>
      rw [FlatArrays] at hf
      congr 1
      apply List.ext_getElem?
      intro i
      cases hx : items[i]? with
      | none =>
        rw [List.getElem?_eq_none_iff] at hx ⊢
        omega
      | some x => exact hi i x hx (hf x (List.mem_of_getElem? hx))
  | .obj es =>
    cases hl with
    | scalar => rfl
    | object _ fs hk he =>
      rw [Json.WF] at h ha
      rw [FlatArrays] at hf
      congr 1
      refine Json.entries_ext ha.1 h.1 (fun k => ?_)
      cases hx : Json.lookup k es with
      | none =>
        cases hy : Json.lookup k fs with
        | none => rfl
        | some w =>
          have : k ∈ Json.keys es := (hk k).1 ((mem_keys_iff k fs).2 ⟨w, hy⟩)
          obtain ⟨v, hv⟩ := (mem_keys_iff k es).1 this
          rw [hx] at hv
          cases hv
      | some v =>
        have : k ∈ Json.keys fs := (hk k).2 ((mem_keys_iff k es).2 ⟨v, hx⟩)
        obtain ⟨w, hw⟩ := (mem_keys_iff k fs).1 this
        rw [hw]
        have hm := Json.lookup_mem hx
        have hm2 := Json.lookup_mem hw
        rw [loose_eq_entries es hf h.2 (k, v) hm w ((Json.WFEntries_iff _).1 ha.2 _ hm2) (he k v w hm hw)]
  | .null => cases hl; rfl
  | .bool b => cases hl; rfl
  | .num n => cases hl; rfl
  | .str s => cases hl; rfl
termination_by structural e
theorem loose_eq_entries (es : List (Str × Json)) (hf : FlatEntries es) (h : Json.WFEntries es) (e : Str × Json) (hm : e ∈ es)
    (a : Json) (ha : a.WF) (hl : Loose e.2 a) : a = e.2 := by
  match es with
  | [] => cases hm
  | x :: xs =>
    rw [Json.WFEntries] at h
    rw [FlatEntries] at hf
    rcases List.mem_cons.1 hm with hm | hm
    · rw [hm] at hl ⊢
      exact loose_eq_entry x hf.1 h.1 a ha hl
    · exact loose_eq_entries xs hf.2 h.2 e hm a ha hl
termination_by structural es
theorem loose_eq_entry (e : Str × Json) (hf : FlatEntry e) (h : Json.WFEntry e) (a : Json) (ha : a.WF) (hl : Loose e.2 a) : a = e.2 := by
  match e with
  | (k, v) =>
    rw [Json.WFEntry] at h
    rw [FlatEntry] at hf
    exact loose_eq v a hf h ha hl
termination_by structural e
end

/-- Without rules, and with no arrays or objects as items of arrays, a JSON body is accepted exactly if it is equal. -/
theorem C107_json_equal_partial (B : BP) (e a : Request) (h : Input B e a) (V : Verdict) (hv : matchRequestV2 B e a = .ok V)
    (b c : Bytes) (t u : Option ContentType) (j v : Json) (he : e.part.body = .present b t) (ha : a.part.body = .present c u)
    (hj : (declaredType B e).isJson = true) (ht : typeText B a = (declaredType B e).display) (hr : e.rules = [])
    (h1 : B.P.parseBytes b = some j) (h2 : B.P.parseBytes c = some v) (w1 : j.WF) (w2 : v.WF) (hf : FlatArrays j) :
    V.body.allMatched = true ↔ v = j := by
  rw [C107_json_plain_partial B e a h V hv b c t u he ha hj ht hr]
  constructor
  · rintro ⟨j', v', h3, h4, h5⟩
    rw [h1] at h3
    rw [h2] at h4
    cases h3
    cases h4
    exact loose_eq j v hf w1 w2 h5
  · rintro rfl
    exact ⟨v, v, h1, h2, loose_refl v w1⟩

/-! ### C108: bodies of another content type -/

/-- A body with another content type than expected is accepted, whatever it is. -/
theorem C108_other_type_partial (B : BP) (e a : Request) (h : Input B e a) (V : Verdict) (hv : matchRequestV2 B e a = .ok V)
    (b : Bytes) (t : Option ContentType) (he : e.part.body = .present b t) (ht : typeText B a ≠ (declaredType B e).display) :
    V.body.allMatched = true := by
  rw [C107_body_partial B e a h V hv, BodyAccepts, he]
  exact fun hh => absurd hh ht

/-- A body that is not JSON or XML and has the expected content type is accepted exactly if its text is the same; no body
counts as an empty one. -/
theorem C108_text_partial (B : BP) (e a : Request) (h : Input B e a) (V : Verdict) (hv : matchRequestV2 B e a = .ok V)
    (b : Bytes) (t : Option ContentType) (he : e.part.body = .present b t) (ht : typeText B a = (declaredType B e).display)
    (hj : (declaredType B e).isJson = false) :
    V.body.allMatched = true ↔ (match a.part.body with | .present c _ => B.P.lossy c | _ => []) = B.P.lossy b := by
  rw [C107_body_partial B e a h V hv, BodyAccepts, he]
  show (typeText B a = (declaredType B e).display → ContentAccepts B.P _ _ b a) ↔ _
  rw [ContentAccepts, if_neg (by rw [hj]; decide)]
  have hb : bodyText B.P (bytesOf a) = (match a.part.body with | .present c _ => B.P.lossy c | _ => []) := by
    unfold bytesOf
    cases a.part.body <;> rfl
  rw [hb]
  exact ⟨fun hh => hh ht, fun hh _ => hh⟩

/-- No expected body accepts any body; an expected empty body only accepts bodies with no contents. -/
theorem C108_no_body_partial (B : BP) (e a : Request) (h : Input B e a) (V : Verdict) (hv : matchRequestV2 B e a = .ok V) :
    (e.part.body = .missing → V.body.allMatched = true) ∧
    (e.part.body = .empty ∨ e.part.body = .null →
      (V.body.allMatched = true ↔ ∀ c t, a.part.body = .present c t → c = [])) := by
  rw [C107_body_partial B e a h V hv, BodyAccepts]
  constructor
  · intro he; rw [he]; trivial
  · have key : (bytesOf a).getD [] = [] ↔ ∀ c t, a.part.body = .present c t → c = [] := by
      unfold bytesOf
      cases a.part.body <;> simp
    rintro (he | he) <;> rw [he] <;> exact key

/-! ### C109: the logic of a rule list is not looked at -/

/-- A rule list with another logic. -/
def relogicList (f : RuleLogic → RuleLogic) (l : RuleList) : RuleList := { l with logic := f l.logic }
/-- A category with other logics. -/
def relogicCat (f : RuleLogic → RuleLogic) (c : RuleCategory) : RuleCategory :=
  { c with rules := c.rules.map fun en => (en.1, relogicList f en.2) }
/-- A request with other logics of its rule lists. -/
def relogic (f : RuleLogic → RuleLogic) (e : Request) : Request :=
  { e with rules := e.rules.map fun c => (c.1, relogicCat f c.2) }

theorem relogic_ctx (f : RuleLogic → RuleLogic) (e : Request) (c : Category) :
    (partCtx (relogic f e) c).cat = relogicCat f (partCtx e c).cat := by
  unfold partCtx ctxFor rulesForCategory relogic
  simp only [List.find?_map]
  have : ((fun (en : Category × RuleCategory) => decide (en.1 = c)) ∘ fun (c : Category × RuleCategory) => (c.1, relogicCat f c.2))
      = fun en => decide (en.1 = c) := rfl
  rw [this]
  cases e.rules.find? (fun en => decide (en.1 = c)) with
  | none => rfl
  | some x => rfl

theorem filter_relogic (f : RuleLogic → RuleLogic) (c : RuleCategory) (q : DocPath × RuleList → Bool)
    (hq : ∀ en, q (en.1, relogicList f en.2) = q en) : filterCat (relogicCat f c) q = relogicCat f (filterCat c q) := by
  unfold filterCat relogicCat
  simp only [List.filter_map]
  have : (q ∘ fun (en : DocPath × RuleList) => (en.1, relogicList f en.2)) = q := funext hq
  rw [this]

theorem resolve_relogic (f : RuleLogic → RuleLogic) (c : RuleCategory) (path : List Str) :
    resolveMatchersForPath (relogicCat f c) path = relogicCat f (resolveMatchersForPath c path) := by
  unfold resolveMatchersForPath
  have hn : (relogicCat f c).name = c.name := rfl
  rw [hn]
  split <;> first | rfl | exact filter_relogic f c _ (fun _ => rfl)

theorem maxByKey_map {A B : Type} (g : A → B) (k : B → Nat) : ∀ l : List A,
    maxByKey k (l.map g) = (maxByKey (fun a => k (g a)) l).map g
  | [] => rfl
  | x :: xs => by
    rw [List.map_cons, maxByKey, maxByKey, maxByKey_map g k xs]
    cases maxByKey (fun a => k (g a)) xs with
    | none => rfl
    | some y =>
      simp only [Option.map_some]
      split <;> rfl

theorem best_relogic (f : RuleLogic → RuleLogic) (e : Request) (c : Category) (p : DocPath) :
    (best (partCtx (relogic f e) c) p).rules = (best (partCtx e c) p).rules := by
  unfold best
  rw [relogic_ctx]
  unfold selectBestMatcher
  have hn : (relogicCat f (partCtx e c).cat).name = (partCtx e c).cat.name := rfl
  have hmax : (maxByPath (relogicCat f (partCtx e c).cat) (toVec p)).rules = (maxByPath (partCtx e c).cat (toVec p)).rules := by
    unfold maxByPath bestEntry
    have hr : (relogicCat f (partCtx e c).cat).rules = (partCtx e c).cat.rules.map fun en => (en.1, relogicList f en.2) := rfl
    rw [hr, List.filter_map, maxByKey_map]
    have hc : ((fun (e : DocPath × RuleList) => decide ((pathWeight e.1.tokens (toVec p)).1 > 0)) ∘
        fun (en : DocPath × RuleList) => (en.1, relogicList f en.2)) = fun e => decide ((pathWeight e.1.tokens (toVec p)).1 > 0) := rfl
    rw [hc]
    cases maxByKey (fun (e : DocPath × RuleList) => score e.1 (toVec p))
      ((partCtx e c).cat.rules.filter fun e => decide ((pathWeight e.1.tokens (toVec p)).1 > 0)) <;> rfl
  have hlist : ∀ d : RuleCategory, (asRuleList (relogicCat f d)).rules = (asRuleList d).rules := by
    intro d
    unfold asRuleList relogicCat
    cases d.rules <;> rfl
  rw [hn]
  split
  · exact hmax
  · exact hmax
  · rw [resolve_relogic]
    exact hlist _

theorem isDefined_relogic (f : RuleLogic → RuleLogic) (e : Request) (c : Category) (p : DocPath) :
    isDefined (partCtx (relogic f e) c) p = isDefined (partCtx e c) p := by
  unfold isDefined
  rw [relogic_ctx]
  unfold matcherIsDefined
  rw [resolve_relogic]
  unfold relogicCat
  simp

section
variable {P : EP} {c d : Ctx} (hd : ∀ p, isDefined c p = isDefined d p) (hb : ∀ p, (best c p).rules = (best d p).rules)
include hd hb

theorem rulesAccept_congr (p : DocPath) (coll : Bool) (e : Json) (x : Option Json) : RulesAccept P c p coll e x ↔ RulesAccept P d p coll e x := by
  unfold RulesAccept
  rw [hb]

theorem itemAccepts_congr (p : DocPath) (e : Json) (x : Option Json) : ItemAccepts P c p e x ↔ ItemAccepts P d p e x := by
  unfold ItemAccepts
  cases x <;> simp only [hd, rulesAccept_congr hd hb]

theorem keysAccept_congr (p : DocPath) (es : List (Str × Json)) (x : Option Json) : KeysAccept P c p es x ↔ KeysAccept P d p es x := by
  unfold KeysAccept
  rw [hb p]
  simp only [rulesAccept_congr hd hb]

theorem scalarAccepts_congr (p : DocPath) (e : Json) (x : Option Json) :
    (if isDefined c p then RulesAccept P c p false e x else x.getD .null = e) ↔
      (if isDefined d p then RulesAccept P d p false e x else x.getD .null = e) := by
  simp only [hd, rulesAccept_congr hd hb]

mutual
theorem accepts_congr (e : Json) (p : DocPath) (x : Option Json) : Accepts P c p e x ↔ Accepts P d p e x := by
  match e with
  | .arr items =>
    rw [Accepts, Accepts]
    simp only [hd, rulesAccept_congr hd hb, template_congr items p x, items_congr items p 0 x]
  | .obj es =>
    rw [Accepts, Accepts, keysAccept_congr hd hb, entries_congr es p x]
  | .null => exact scalarAccepts_congr hd hb p _ x
  | .bool b => exact scalarAccepts_congr hd hb p _ x
  | .num n => exact scalarAccepts_congr hd hb p _ x
  | .str s => exact scalarAccepts_congr hd hb p _ x
termination_by structural e
theorem template_congr (items : List Json) (p : DocPath) (x : Option Json) : TemplateAccepts P c p items x ↔ TemplateAccepts P d p items x := by
  match items with
  | [] => exact Iff.rfl
  | t :: ts =>
    rw [TemplateAccepts, TemplateAccepts]
    have h1 := fun y => itemAccepts_congr (P := P) hd hb (pushStarIndex p) t y
    have h2 := fun y => accepts_congr t (pushStarIndex p) y
    simp only [h1, h2]
termination_by structural items
theorem items_congr (items : List Json) (p : DocPath) (i : Nat) (x : Option Json) : ItemsAccept P c p i items x ↔ ItemsAccept P d p i items x := by
  match items with
  | [] => exact Iff.rfl
  | t :: ts =>
    rw [ItemsAccept, ItemsAccept, itemAccepts_congr hd hb, items_congr ts p (i + 1) x]
termination_by structural items
theorem entries_congr (es : List (Str × Json)) (p : DocPath) (x : Option Json) : EntriesAccept P c p es x ↔ EntriesAccept P d p es x := by
  match es with
  | [] => exact Iff.rfl
  | t :: ts =>
    rw [EntriesAccept, EntriesAccept, entry_congr t p x, entries_congr ts p x]
termination_by structural es
theorem entry_congr (e : Str × Json) (p : DocPath) (x : Option Json) : EntryAccepts P c p e x ↔ EntryAccepts P d p e x := by
  match e with
  | (k, v) =>
    rw [EntryAccepts, EntryAccepts]
    exact accepts_congr v (pushField p k) (entry k x)
termination_by structural e
end

theorem values_congr (k : Str) (vs as : List Str) : ValuesAccept P c k vs as ↔ ValuesAccept P d k vs as := by
  unfold ValuesAccept
  rw [hb]
  simp only [hd]

theorem path_congr (e a : Request) : PathAccepts P c e a ↔ PathAccepts P d e a := by
  unfold PathAccepts
  rw [hb]
  simp only [hd]

theorem query_congr (e a : Request) : QueryAccepts P c e a ↔ QueryAccepts P d e a := by
  unfold QueryAccepts
  simp only [values_congr hd hb]

theorem header_congr (e a : Request) : HeadersAccept P c e a ↔ HeadersAccept P d e a := by
  unfold HeadersAccept HeaderAccepts
  simp only [hd, values_congr hd hb]

theorem body_congr {B : BP} (hB : B.P = P) (e a : Request) : BodyAccepts B c e a ↔ BodyAccepts B d e a := by
  have hj : ∀ j x, JsonAccepts B.P c j x ↔ JsonAccepts B.P d j x := by
    intro j x
    unfold JsonAccepts AbsentAccepted
    cases x <;> simp only [hd, hb, accepts_congr (P := B.P) hd hb]
  unfold BodyAccepts ContentAccepts
  simp only [hj]
end

theorem relogic_input {B : BP} {e a : Request} (h : Input B e a) (f : RuleLogic → RuleLogic) : Input B (relogic f e) a := by
  refine ⟨?_, h.queryNames, h.headerNames, h.parameters, h.values, h.type, h.nice, h.fits⟩
  intro c hc en hen r hr
  obtain ⟨c0, hc0, rfl⟩ := List.mem_map.mp hc
  obtain ⟨en0, hen0, rfl⟩ := List.mem_map.mp hen
  exact h.rules c0 hc0 en0 hen0 r hr

/-- Whether the rules of a list are combined with `and` or `or` makes no difference: a request is accepted or rejected in
the same way when the logic of all the rule lists is changed. -/
theorem C109_logic_partial (B : BP) (e a : Request) (h : Input B e a) (f : RuleLogic → RuleLogic) :
    (∀ V, matchRequestV2 B e a = .ok V → ∃ W, matchRequestV2 B (relogic f e) a = .ok W ∧
      (W.allMatched = true ↔ V.allMatched = true)) := by
  intro V hv
  have hu : ¬ Unreadable B e := by
    intro hu
    rw [(C103_total_partial B e a h).1 hu] at hv
    cases hv
  obtain ⟨W, hw⟩ := (C103_total_partial B (relogic f e) a (relogic_input h f)).2 hu
  refine ⟨W, hw, ?_⟩
  rw [C104_verdict_partial B e a h V hv, C104_verdict_partial B _ a (relogic_input h f) W hw]
  have h1 := fun c => isDefined_relogic f e c
  have h2 := fun c => best_relogic f e c
  rw [path_congr (h1 .path) (h2 .path), query_congr (h1 .query) (h2 .query), header_congr (h1 .header) (h2 .header),
    body_congr (h1 .body) (h2 .body) rfl]
  exact Iff.rfl

/-- With several rules for the path, all of them have to match, also for an `or` list. -/
theorem C109_path_partial (B : BP) (e a : Request) (h : Input B e a) (V : Verdict) (hv : matchRequestV2 B e a = .ok V)
    (l : RuleList) (p : DocPath) (rest : List (DocPath × RuleList)) (hl : (partCtx e .path).cat = ⟨.path, (p, l) :: rest⟩)
    (hs : ∀ r ∈ l.rules, RuleJson.recreate B.P.rules (MatchingRule.forSingleItem r) = .ok r) :
    V.path = none ↔ ∀ r ∈ l.rules, strMatches B.P.env e.path a.path r false = true := by
  have hd : isDefined (partCtx e .path) (partPath "path") = true := by
    unfold isDefined
    rw [hl]
    rfl
  have hb : best (partCtx e .path) (partPath "path") = l := by
    unfold best
    rw [hl]
    rfl
  rw [C104_path_partial B e a h V hv, PathAccepts, if_pos hd, hb]
  constructor
  · intro hh r hr
    obtain ⟨r2, h1, h2⟩ := hh r hr
    rw [hs r hr] at h1
    cases h1
    exact h2
  · intro hh r hr
    exact ⟨r, hs r hr, hh r hr⟩

/-! ### Rules without nested rules -/

/-- A rule other than array-contains, each-key, each-value and, for a collection, a number range. -/
def Simple (coll : Bool) (r : MatchingRule) : Prop :=
  (coll = true → ∀ n m, r ≠ .minMaxType n m) ∧ (∀ vs, r ≠ .arrayContains vs) ∧ (∀ d, r ≠ .eachKey d) ∧ ∀ d, r ≠ .eachValue d

theorem recreate_simple {P : RuleJson.Params} {coll : Bool} {r : MatchingRule} (hw : RuleJsonProps.Writable P.uc r) (h : Simple coll r) :
    RuleJson.recreate P (ruleFor coll r) = .ok (ruleFor coll r) := by
  have hk : RuleJsonProps.kept (ruleFor coll r) = ruleFor coll r := by
    cases r with
    | arrayContains vs => exact absurd rfl (h.2.1 vs)
    | eachKey d => exact absurd rfl (h.2.2.1 d)
    | eachValue d => exact absurd rfl (h.2.2.2 d)
    | _ => cases coll <;> rfl
  have := RuleJsonProps.C66_recreate_partial P (ruleFor coll r) (writable_single coll hw) (by
    intro n m hh
    cases coll with
    | true => exact h.1 rfl n m hh
    | false => cases r <;> cases hh) (by
    intro vs hh
    cases coll with
    | true => exact h.2.1 vs hh
    | false => cases r <;> first | exact h.2.1 _ rfl | cases hh)
  rw [this, hk]

/-- For such rules a value is accepted exactly if every rule matches it. -/
theorem C107_rules_partial (B : BP) (e a : Request) (h : Input B e a) (p : DocPath) (coll : Bool) (j : Json) (x : Option Json)
    (hs : ∀ r ∈ (best (partCtx e .body) p).rules, Simple coll r) :
    RulesAccept B.P (partCtx e .body) p coll j x ↔
      ∀ r ∈ (best (partCtx e .body) p).rules, jsonMatches B.P.env j (x.getD .null) (ruleFor coll r) false = true := by
  have hr : ∀ r ∈ (best (partCtx e .body) p).rules, RuleJson.recreate B.P.rules (ruleFor coll r) = .ok (ruleFor coll r) :=
    fun r hm => recreate_simple (best_all h.rules hm) (hs r hm)
  constructor
  · intro hh r hm
    obtain ⟨r2, h1, h2⟩ := hh r hm
    rw [hr r hm] at h1
    cases h1
    exact h2
  · intro hh r hm
    exact ⟨_, hr r hm, hh r hm⟩

/-! ### C110: rules for the scalar items of an array -/

theorem isDefined_star {ctx : Ctx} (hn : ctx.cat.name = .body) {p : DocPath} (h : isDefined ctx p = true) :
    isDefined ctx (pushStarIndex p) = true := by
  have hv : ∃ s, toVec (pushStarIndex p) = toVec p ++ [s] := ⟨_, List.map_append⟩
  obtain ⟨s, hs⟩ := hv
  unfold isDefined matcherIsDefined resolveMatchersForPath filterCat at h ⊢
  rw [hn] at h ⊢
  simp only [Bool.not_eq_true', List.isEmpty_eq_false_iff_exists_mem] at h ⊢
  obtain ⟨en, hen⟩ := h
  obtain ⟨h1, h2⟩ := List.mem_filter.mp hen
  exact ⟨en, List.mem_filter.mpr ⟨h1, by rw [hs]; exact CompareProps.matchesPath_append s h2⟩⟩

/-- An array with a rule whose first item is a scalar accepts an array exactly if the rules for the array itself
match: the items are not looked at. -/
theorem C110_items_partial (P : EP) (ctx : Ctx) (hn : ctx.cat.name = .body) (p : DocPath) (hd : isDefined ctx p = true) (t : Json)
    (ht : scalar t = true) (ts l : List Json) :
    Accepts P ctx p (.arr (t :: ts)) (some (.arr l)) ↔ RulesAccept P ctx p true (.arr (t :: ts)) (some (.arr l)) := by
  rw [Accepts, if_pos hd, TemplateAccepts]
  refine and_iff_left ?_
  intro i hi
  rw [if_pos ht]
  have hlt : i < l.length := hi
  have : item i (some (.arr l)) = some l[i] := List.getElem?_eq_getElem hlt
  rw [this]
  intro hf
  rw [isDefined_star hn hd] at hf
  cases hf

/-- A type rule for an array of scalars accepts every array. -/
theorem C110_like_partial (B : BP) (e a : Request) (h : Input B e a) (V : Verdict) (hv : matchRequestV2 B e a = .ok V)
    (b c : Bytes) (t u : Option ContentType) (he : e.part.body = .present b t) (ha : a.part.body = .present c u)
    (hj : (declaredType B e).isJson = true) (ht : typeText B a = (declaredType B e).display)
    (hn : (partCtx e .body).cat.name = .body) (hr : (best (partCtx e .body) rootPath).rules = [.type])
    (hd : isDefined (partCtx e .body) rootPath = true) (x : Json) (xs l : List Json) (hx : scalar x = true)
    (h1 : B.P.parseBytes b = some (.arr (x :: xs))) (h2 : B.P.parseBytes c = some (.arr l)) : V.body.allMatched = true := by
  rw [C107_json_partial B e a h V hv b c t u he ha hj ht]
  refine ⟨_, _, h1, h2, ?_⟩
  rw [C110_items_partial B.P _ hn _ hd x hx, C107_rules_partial B e a h, hr]
  · intro r hm
    rw [List.mem_singleton.mp hm]
    rfl
  · rw [hr]
    intro r hm
    rw [List.mem_singleton.mp hm]
    refine ⟨?_, ?_, ?_, ?_⟩
    · intro _ n m hh; cases hh
    · intro vs hh; cases hh
    · intro d hh; cases hh
    · intro d hh; cases hh

/-! ### C111: a request without rules accepts itself -/

theorem lookup_append {V : Type} (k : Str) : ∀ l m : List (Str × V), Json.lookup k (l ++ m) = (Json.lookup k l).or (Json.lookup k m)
  | [], m => rfl
  | x :: xs, m => by
    rw [List.cons_append, Json.lookup, Json.lookup, lookup_append k xs m]
    split <;> rfl

theorem lookup_foldl_insertKV {V : Type} (l : List (Str × V)) (k : Str) : ∀ m : List (Str × V),
    Json.lookup k (l.foldl (fun m kv => insertKV kv.1 kv.2 m) m) = (Json.lookup k l.reverse).or (Json.lookup k m) := by
  induction l with
  | nil => intro m; rfl
  | cons x xs ih =>
    intro m
    rw [List.foldl_cons, ih, List.reverse_cons, HeaderProps.lookup_insertKV, lookup_append]
    cases Json.lookup k xs.reverse with
    | some v => rfl
    | none =>
      have h1 : Json.lookup k [x] = if x.1 = k then some x.2 else none := by
        unfold Json.lookup
        rfl
      rw [h1]
      by_cases hk : k = x.1
      · rw [if_pos hk, if_pos hk.symm]
        rfl
      · rw [if_neg hk, if_neg (Ne.symm hk)]
        rfl

theorem lookup_actualHeaders {uc : UC} {a : Request} (hn : HeaderProps.CaseNodup uc (a.part.headers.getD [])) {k : Str} {vs : List Str}
    (h : (k, vs) ∈ a.part.headers.getD []) : Json.lookup (uc.lower k) (actualHeaders uc a) = some vs := by
  unfold actualHeaders
  rw [lookup_foldl_insertKV]
  have : Json.lookup (uc.lower k) ((a.part.headers.getD []).map fun kv => (uc.lower kv.1, kv.2)).reverse = some vs := by
    apply Json.lookup_of_mem
    · rw [List.map_reverse, List.map_map]
      exact (List.reverse_perm _).nodup_iff.mpr hn
    · rw [List.mem_reverse]
      exact List.mem_map.mpr ⟨(k, vs), h, rfl⟩
  rw [this]
  rfl

theorem parameters_self (P : EP) (v : Str) : ParametersAccept P v v := by
  refine ⟨rfl, fun k x hm => ⟨x, Json.lookup_of_mem (charset_nodup P.uc _) hm, rfl⟩⟩

theorem sameValues_self (vs : List Str) : EngineSpec.SameValues vs vs := (sameValues_iff vs vs).2 (.inl rfl)

/-- An expected request without rules accepts itself. -/
theorem C111_self_partial (B : BP) (e : Request) (h : Input B e e) (hu : ¬ Unreadable B e) (hr : e.rules = [])
    (hq : QueryProps.NodupKeys (e.query.getD [])) (hh : HeaderProps.CaseNodup B.P.uc (e.part.headers.getD []))
    (hj : ∀ b j, B.P.parseBytes b = some j → j.WF) : ∃ V, matchRequestV2 B e e = .ok V ∧ V.allMatched = true := by
  obtain ⟨V, hv⟩ := (C103_total_partial B e e h).2 hu
  refine ⟨V, hv, ?_⟩
  have hd := fun c p => noRules_isDefined (noRules_part hr c) p
  rw [C104_verdict_partial B e e h V hv]
  refine ⟨rfl, ?_, ?_, ?_, ?_⟩
  · rw [PathAccepts, if_neg (by rw [hd]; decide)]
  · rw [← C105_query_partial B e e h V hv, C105_query_plain_partial B e e h V hv hr hq]
    intro k
    cases hk : valuesOf e.query k with
    | none => exact .inl ⟨rfl, rfl⟩
    | some vs => exact .inr ⟨vs, vs, rfl, rfl, .inl rfl⟩
  · constructor
    · intro k hk
      obtain ⟨vs, hvs⟩ := (mem_keys_iff k _).1 hk
      exact (mem_keys_iff _ _).2 ⟨vs, lookup_actualHeaders hh (Json.lookup_mem hvs)⟩
    · intro k vs as hm ha
      rw [lookup_actualHeaders hh (RuleJsonProps.mem_collect _ _ hm)] at ha
      cases ha
      have hval : ValuesAccept B.P (partCtx e .header) k vs vs := by
        rw [ValuesAccept, if_neg (by rw [hd]; decide)]
        exact sameValues_self vs
      unfold HeaderAccepts
      split
      · split
        · trivial
        · exact parameters_self B.P _
        · exact parameters_self B.P _
      · exact hval
  · unfold BodyAccepts
    split
    · trivial
    · rename_i hb
      rw [bytesOf, hb]
      rfl
    · rename_i hb
      rw [bytesOf, hb]
      rfl
    · rename_i b t hb
      intro _
      have hbytes : bytesOf e = some b := by rw [bytesOf, hb]
      rw [ContentAccepts, hbytes]
      split
      · rename_i hjs
        cases hp : B.P.parseBytes b with
        | none => exact absurd ⟨hjs, b, t, hb, hp⟩ hu
        | some j =>
          exact ⟨j, rfl, j, hp, (accepts_loose (noRules_part hr .body) j rootPath j).2 (loose_refl j (hj b j hp))⟩
      · rfl

end EngineProps
end Verif
