import Verif.Props.ReadRuleProps

/-
  C170: what the generators of a pact file say.
-/

set_option autoImplicit false

namespace Verif
namespace ReadGenProps
open Path Rules RuleJson PactFile Matchers Generate
open IntegrationProps (genAt)

/-! ## Specification -/

/-- A generator that a document states, for a path of a category. -/
structure Row where
  category : GenCategory
  path : DocPath
  generator : Generator

/-- The names of the types of generators. -/
def name : GenType → String
  | .randomInt => "RandomInt"
  | .uuid => "Uuid"
  | .randomDecimal => "RandomDecimal"
  | .randomHexadecimal => "RandomHexadecimal"
  | .randomString => "RandomString"
  | .regex => "Regex"
  | .date => "Date"
  | .time => "Time"
  | .dateTime => "DateTime"
  | .randomBoolean => "RandomBoolean"
  | .providerState => "ProviderState"
  | .mockServerURL => "MockServerURL"

/-- The text of an attribute, if there is one. -/
inductive Text (m : Obj) (k : String) : Option Str → Prop
  | some (v : Json) : RuleJson.get k m = some v → Text m k (some v.toStr)
  | none : RuleJson.get k m = none → Text m k none

/-- The form of a UUID; any other text is the default form. -/
inductive UuidForm : Str → Option UuidFormat → Prop
  | simple : UuidForm "simple".toList (some .simple)
  | lower : UuidForm "lower-case-hyphenated".toList (some .lowerHyphen)
  | upper : UuidForm "upper-case-hyphenated".toList (some .upperHyphen)
  | urn : UuidForm "URN".toList (some .urn)
  | other (s : Str) : (∀ t ∈ ["simple", "lower-case-hyphenated", "upper-case-hyphenated", "URN"], s ≠ t.toList) → UuidForm s none

/-- The generator of a type with the attributes of an object. -/
inductive Attributes (m : Obj) : GenType → Generator → Prop
  | randomInt : Attributes m .randomInt
      (.randomInt (JsonUtils.jsonToI32 m "min".toList 0) (JsonUtils.jsonToI32 m "max".toList 10))
  | uuid : RuleJson.get "format" m = none → Attributes m .uuid (.uuid none)
  | uuidForm (v : Json) (f : Option UuidFormat) : RuleJson.get "format" m = some v → UuidForm v.toStr f → Attributes m .uuid (.uuid f)
  | randomDecimal : Attributes m .randomDecimal (.randomDecimal (JsonUtils.jsonToU16 m "digits".toList 10))
  | randomHexadecimal : Attributes m .randomHexadecimal (.randomHexadecimal (JsonUtils.jsonToU16 m "digits".toList 10))
  | randomString : Attributes m .randomString (.randomString (JsonUtils.jsonToU16 m "size".toList 10))
  | regex (v : Json) : RuleJson.get "regex" m = some v → Attributes m .regex (.regex v.toStr)
  | date (f e : Option Str) : Text m "format" f → Text m "expression" e → Attributes m .date (.date f e)
  | time (f e : Option Str) : Text m "format" f → Text m "expression" e → Attributes m .time (.time f e)
  | dateTime (f e : Option Str) : Text m "format" f → Text m "expression" e → Attributes m .dateTime (.dateTime f e)
  | randomBoolean : Attributes m .randomBoolean .randomBoolean
  | providerState (v : Json) : RuleJson.get "expression" m = some v → RuleJson.get "dataType" m = none →
      Attributes m .providerState (.providerState v.toStr none)
  | providerStateAs (v t : Json) : RuleJson.get "expression" m = some v → RuleJson.get "dataType" m = some t →
      Attributes m .providerState (.providerState v.toStr (some (dataTypeFromJson t)))
  | mockServerURL (x r : Option Str) : Text m "example" x → Text m "regex" r →
      Attributes m .mockServerURL (.mockServerURL (x.getD []) (r.getD []))

/-- What an object says as a generator. -/
inductive Says (m : Obj) : Generator → Prop
  | typed (k : GenType) (g : Generator) : RuleJson.get "type" m = some (.str (name k).toList) → Attributes m k g → Says m g

/-- The rows of several things, one after the other. -/
inductive Joined {A : Type} (R : A → List Row → Prop) : List A → List Row → Prop
  | nil : Joined R [] []
  | cons {a : A} {as : List A} {rs ss : List Row} : R a rs → Joined R as ss → Joined R (a :: as) (rs ++ ss)

/-- The category of a name, in upper or lower case. -/
def Named (uc : UC) (s : Str) (c : GenCategory) : Prop := uc.lower s = (match c with
  | .method => "method"
  | .path => "path"
  | .header => "header"
  | .query => "query"
  | .body => "body"
  | .status => "status"
  | .metadata => "metadata").toList

/-- A generator at a place: something that is no generator is left out. -/
inductive Entry (c : GenCategory) (p : DocPath) (m : Obj) : List Row → Prop
  | some (g : Generator) : Says m g → Entry c p m [⟨c, p, g⟩]
  | none : (∀ g, ¬ Says m g) → Entry c p m []

/-- The generators with a key; what is no object is left out. -/
inductive Keyed (P : Params) (c : GenCategory) : Str × Json → List Row → Prop
  | name (k : Str) (m : Obj) (rows : List Row) : c = .query ∨ c = .header → Entry c (pushField rootPath k) m rows →
      Keyed P c (k, .obj m) rows
  | path (k : Str) (m : Obj) (p : DocPath) (rows : List Row) : c ≠ .query → c ≠ .header → Path.new P.uc k = .ok p →
      Entry c p m rows → Keyed P c (k, .obj m) rows
  | skip (k : Str) (v : Json) : (∀ m, v ≠ .obj m) → Keyed P c (k, v) []

/-- The generators of a category: one for the method, the path or the status; with keys for the others.  Unknown categories and what
is no object is left out. -/
inductive InCategory (P : Params) : Str × Json → List Row → Prop
  | whole (k : Str) (c : GenCategory) (m : Obj) (rows : List Row) : Named P.uc k c → c = .method ∨ c = .path ∨ c = .status →
      Entry c Path.empty m rows → InCategory P (k, .obj m) rows
  | keyed (k : Str) (c : GenCategory) (m : Obj) (rows : List Row) : Named P.uc k c → c ≠ .method → c ≠ .path → c ≠ .status →
      Joined (Keyed P c) m rows → InCategory P (k, .obj m) rows
  | unknown (k : Str) (v : Json) : (∀ c, ¬ Named P.uc k c) → InCategory P (k, v) []
  | skip (k : Str) (v : Json) : (∀ m, v ≠ .obj m) → InCategory P (k, v) []

/-- The rows of the `generators` of a file. -/
def Document (P : Params) (o : Obj) (rows : List Row) : Prop := Joined (InCategory P) o rows

/-- The generator at a path is that of the last row for it. -/
def generatorAt (rows : List Row) (c : GenCategory) (p : DocPath) : Option Generator :=
  ((rows.filter fun r => decide (r.category = c ∧ r.path.expr = p.expr)).getLast?).map (·.generator)

/-! ## One generator -/

theorem text_iff (m : Obj) (k : String) (s : Option Str) : Text m k s ↔ fieldString k m = s := by
  unfold fieldString
  constructor
  · intro h
    cases h with
    | some v h => rw [h]; rfl
    | none h => rw [h]; rfl
  · intro h
    cases hm : RuleJson.get k m with
    | some v => rw [hm] at h; subst h; exact .some v hm
    | none => rw [hm] at h; subst h; exact .none hm

set_option maxRecDepth 100000 in
theorem all_names : ∀ e ∈ genTypes, e.1 = (name e.2).toList := by decide +kernel

set_option maxRecDepth 100000 in
theorem name_found (k : GenType) : Json.lookup (name k).toList genTypes = some k := by
  cases k <;> decide +kernel

theorem name_iff (s : Str) (k : GenType) : Json.lookup s genTypes = some k ↔ s = (name k).toList := by
  constructor
  · intro h
    have h2 := all_names _ (Json.lookup_mem h)
    exact h2
  · intro h; rw [h]; exact name_found k

theorem uuid_iff (s : Str) (f : Option UuidFormat) : UuidForm s f ↔ uuidParse s = f := by
  unfold uuidParse
  constructor
  · intro h
    cases h with
    | other s h =>
      have h1 := h "simple" (by simp)
      have h2 := h "lower-case-hyphenated" (by simp)
      have h3 := h "upper-case-hyphenated" (by simp)
      have h4 := h "URN" (by simp)
      rw [ReadDocProps.skip_key _ _ _ _ h1, ReadDocProps.skip_key _ _ _ _ h2, ReadDocProps.skip_key _ _ _ _ h3,
        ReadDocProps.skip_key _ _ _ _ h4]
      rfl
    | _ => rfl
  · intro h
    by_cases h1 : s = "simple".toList
    · subst h1; have e : some UuidFormat.simple = f := h; subst e; exact .simple
    by_cases h2 : s = "lower-case-hyphenated".toList
    · subst h2; have e : some UuidFormat.lowerHyphen = f := h; subst e; exact .lower
    by_cases h3 : s = "upper-case-hyphenated".toList
    · subst h3; have e : some UuidFormat.upperHyphen = f := h; subst e; exact .upper
    by_cases h4 : s = "URN".toList
    · subst h4; have e : some UuidFormat.urn = f := h; subst e; exact .urn
    rw [ReadDocProps.skip_key _ _ _ _ h1, ReadDocProps.skip_key _ _ _ _ h2, ReadDocProps.skip_key _ _ _ _ h3,
      ReadDocProps.skip_key _ _ _ _ h4] at h
    cases h
    refine .other s (fun t ht => ?_)
    simp only [List.mem_cons, List.not_mem_nil, or_false] at ht
    rcases ht with rfl | rfl | rfl | rfl
    · exact h1
    · exact h2
    · exact h3
    · exact h4

theorem attributes_iff (m : Obj) (k : GenType) (g : Generator) : Attributes m k g ↔ genFromMap (name k).toList m = some g := by
  unfold genFromMap
  rw [name_found k]
  constructor
  · intro h
    cases h with
    | uuid h => simp only; rw [h]
    | uuidForm v f h h2 => simp only; rw [h]; simp only; rw [(uuid_iff _ _).1 h2]
    | regex v h => simp only; rw [h]; rfl
    | date f e h h2 | time f e h h2 | dateTime f e h h2 => simp only; rw [(text_iff _ _ _).1 h, (text_iff _ _ _).1 h2]
    | providerState v h h2 => simp only; rw [h, h2]; rfl
    | providerStateAs v t h h2 => simp only; rw [h, h2]; rfl
    | mockServerURL x r h h2 => simp only; rw [(text_iff _ _ _).1 h, (text_iff _ _ _).1 h2]
    | _ => rfl
  · intro h
    cases k <;> simp only at h
    case uuid =>
      split at h
      · rename_i v hv; cases h; exact .uuidForm v _ hv ((uuid_iff _ _).2 rfl)
      · rename_i hv; cases h; exact .uuid hv
    case regex =>
      obtain ⟨v, h1, h2⟩ := Option.map_eq_some_iff.1 h
      subst h2; exact .regex v h1
    case date => cases h; exact .date _ _ ((text_iff _ _ _).2 rfl) ((text_iff _ _ _).2 rfl)
    case time => cases h; exact .time _ _ ((text_iff _ _ _).2 rfl) ((text_iff _ _ _).2 rfl)
    case dateTime => cases h; exact .dateTime _ _ ((text_iff _ _ _).2 rfl) ((text_iff _ _ _).2 rfl)
    case providerState =>
      obtain ⟨v, h1, h2⟩ := Option.map_eq_some_iff.1 h
      subst h2
      cases ht : RuleJson.get "dataType" m with
      | none => exact .providerState v h1 ht
      | some t => exact .providerStateAs v t h1 ht
    case mockServerURL => cases h; exact .mockServerURL _ _ ((text_iff _ _ _).2 rfl) ((text_iff _ _ _).2 rfl)
    all_goals (cases h; constructor)

/-- **C170** (one generator): an object is read as a generator exactly if it says that generator. -/
theorem C170_generator (m : Obj) (g : Generator) : genOfObj m = some g ↔ Says m g := by
  unfold genOfObj
  constructor
  · intro h
    split at h
    · rename_i t ht
      cases hk : Json.lookup t genTypes with
      | none => unfold genFromMap at h; rw [hk] at h; cases h
      | some k =>
        have hn := (name_iff t k).1 hk
        subst hn
        exact .typed k g ht ((attributes_iff m k g).2 h)
    · cases h
  · intro h
    cases h with
    | typed k _ h1 h2 => rw [h1]; exact (attributes_iff m k g).1 h2

/-! ## Tables -/

theorem named_iff (uc : UC) (s : Str) (c : GenCategory) : Named uc s c ↔ genCatParse uc s = some c := by
  unfold Named genCatParse
  constructor
  · intro h
    cases c <;> rw [h] <;> rfl
  · intro h
    have hm := Json.lookup_mem h
    simp only [List.mem_cons, Prod.mk.injEq, List.not_mem_nil, or_false] at hm
    clear h
    rcases hm with ⟨h, e⟩ | ⟨h, e⟩ | ⟨h, e⟩ | ⟨h, e⟩ | ⟨h, e⟩ | ⟨h, e⟩ | ⟨h, e⟩ <;> subst e <;> exact h

/-- One more row. -/
def put (c : GenCategory) (p : DocPath) (o : Option Generator) (r : Row) : Option Generator :=
  if r.category = c ∧ r.path.expr = p.expr then some r.generator else o

/-- Several more rows. -/
def puts (c : GenCategory) (p : DocPath) (o : Option Generator) (rows : List Row) : Option Generator := rows.foldl (put c p) o

theorem puts_append (c : GenCategory) (p : DocPath) (o : Option Generator) (a b : List Row) :
    puts c p o (a ++ b) = puts c p (puts c p o a) b := List.foldl_append

theorem puts_eq (c : GenCategory) (p : DocPath) (rows : List Row) : ∀ o, puts c p o rows = (generatorAt rows c p).or o := by
  induction rows with
  | nil => intro o; rfl
  | cons x xs ih =>
    intro o
    show puts c p (put c p o x) xs = _
    rw [ih]
    by_cases h : x.category = c ∧ x.path.expr = p.expr
    · unfold generatorAt
      rw [put, if_pos h, List.filter_cons_of_pos (by simpa using h)]
      cases hf : xs.filter fun r => decide (r.category = c ∧ r.path.expr = p.expr) with
      | nil => rfl
      | cons y ys =>
        rw [List.getLast?_cons_cons]
        cases hl : (y :: ys).getLast? with
        | none => simp at hl
        | some z => rfl
    · unfold generatorAt
      rw [put, if_neg h, List.filter_cons_of_neg (by simpa using h)]

/-- The rows are added to a table. -/
def Added (gs gs' : Generators) (rows : List Row) : Prop := ∀ c p, genAt gs' c p = puts c p (genAt gs c p) rows

theorem added_trans {g g' g'' : Generators} {a b : List Row} (h : Added g g' a) (k : Added g' g'' b) : Added g g'' (a ++ b) := by
  intro c p
  rw [k, h, puts_append]

theorem entry_adds {c : GenCategory} {p : DocPath} {m : Obj} {rows : List Row} (h : Entry c p m rows) (gs : Generators) :
    Added gs (addFromObj gs c p m) rows := by
  unfold addFromObj
  cases h with
  | some g h =>
    rw [(C170_generator m g).2 h]
    intro d q
    simp only
    rw [IntegrationProps.genAt_addGen]
    show _ = put d q (genAt gs d q) ⟨c, p, g⟩
    unfold put
    by_cases hd : d = c ∧ q.expr = p.expr
    · rw [if_pos hd, if_pos ⟨hd.1.symm, hd.2.symm⟩]
    · rw [if_neg hd, if_neg (fun e => hd ⟨e.1.symm, e.2.symm⟩)]
  | none h =>
    cases hg : genOfObj m with
    | none => exact fun _ _ => rfl
    | some g => exact absurd ((C170_generator m g).1 hg) (h g)

theorem entry_exists (c : GenCategory) (p : DocPath) (m : Obj) : ∃ rows, Entry c p m rows := by
  cases hg : genOfObj m with
  | none => exact ⟨[], .none (fun g h => by rw [(C170_generator m g).2 h] at hg; cases hg)⟩
  | some g => exact ⟨_, .some g ((C170_generator m g).1 hg)⟩

theorem named_cat (c : GenCategory) : named c = true ↔ c = .query ∨ c = .header := by
  cases c <;> simp [named]

theorem single_cat (c : GenCategory) : single c = true ↔ c = .method ∨ c = .path ∨ c = .status := by
  cases c <;> simp [single]

theorem keys_read (P : Params) (c : GenCategory) (o : Obj) (rows : List Row) (h : Joined (Keyed P c) o rows) :
    ∀ gs, ∃ gs', loadKeys P c gs o = .ok gs' ∧ Added gs gs' rows := by
  induction h with
  | nil => intro gs; exact ⟨gs, rfl, fun _ _ => rfl⟩
  | cons h1 _ ih =>
    intro gs
    cases h1 with
    | name k m _ hc he =>
      obtain ⟨gs', h2, h3⟩ := ih (addFromObj gs c (pushField rootPath k) m)
      refine ⟨gs', ?_, added_trans (entry_adds he gs) h3⟩
      rw [loadKeys, if_pos ((named_cat c).2 hc)]
      exact h2
    | path k m p _ hq hh hp he =>
      obtain ⟨gs', h2, h3⟩ := ih (addFromObj gs c p m)
      refine ⟨gs', ?_, added_trans (entry_adds he gs) h3⟩
      rw [loadKeys, if_neg (fun e => ((named_cat c).1 e).elim hq hh), hp]
      exact h2
    | skip k v hv =>
      obtain ⟨gs', h2, h3⟩ := ih gs
      refine ⟨gs', ?_, h3⟩
      cases v with
      | obj m => exact absurd rfl (hv m)
      | _ => exact h2

theorem keys_rows (P : Params) (c : GenCategory) (o : Obj) : ∀ gs gs', loadKeys P c gs o = .ok gs' →
    ∃ rows, Joined (Keyed P c) o rows := by
  induction o with
  | nil => intro gs gs' _; exact ⟨[], .nil⟩
  | cons e es ih =>
    intro gs gs' h
    obtain ⟨k, v⟩ := e
    cases v with
    | obj m =>
      rw [loadKeys] at h
      obtain ⟨p, h1, h2⟩ := SessionProps.bind_eq_ok.1 h
      obtain ⟨more, h3⟩ := ih _ _ h2
      obtain ⟨rows, h4⟩ := entry_exists c p m
      by_cases hn : named c = true
      · rw [if_pos hn] at h1
        cases h1
        exact ⟨rows ++ more, .cons (.name k m rows ((named_cat c).1 hn) h4) h3⟩
      · rw [if_neg hn] at h1
        exact ⟨rows ++ more, .cons (.path k m p rows (fun e => hn ((named_cat c).2 (.inl e)))
          (fun e => hn ((named_cat c).2 (.inr e))) h1 h4) h3⟩
    | _ =>
      obtain ⟨more, h3⟩ := ih gs gs' h
      exact ⟨[] ++ more, .cons (.skip k _ (by intro m e; cases e)) h3⟩

theorem load_read (P : Params) (o : Obj) (rows : List Row) (h : Document P o rows) :
    ∀ gs, ∃ gs', loadGens P gs o = .ok gs' ∧ Added gs gs' rows := by
  unfold Document at h
  induction h with
  | nil => intro gs; exact ⟨gs, rfl, fun _ _ => rfl⟩
  | cons h1 _ ih =>
    intro gs
    cases h1 with
    | whole k c m _ hc hs he =>
      obtain ⟨gs', h2, h3⟩ := ih (addFromObj gs c Path.empty m)
      refine ⟨gs', ?_, added_trans (entry_adds he gs) h3⟩
      rw [loadGens, (named_iff _ _ _).1 hc]
      simp only
      rw [if_pos ((single_cat c).2 hs)]
      exact h2
    | keyed k c m _ hc h5 h6 h7 he =>
      obtain ⟨g1, h8, h9⟩ := keys_read P c m _ he gs
      obtain ⟨gs', h2, h3⟩ := ih g1
      refine ⟨gs', ?_, added_trans h9 h3⟩
      rw [loadGens, (named_iff _ _ _).1 hc]
      simp only
      rw [if_neg (fun e => by rcases (single_cat c).1 e with e | e | e <;> contradiction), h8]
      exact h2
    | unknown k v hc =>
      obtain ⟨gs', h2, h3⟩ := ih gs
      refine ⟨gs', ?_, h3⟩
      cases v with
      | obj m =>
        rw [loadGens]
        cases hp : genCatParse P.uc k with
        | none => exact h2
        | some c => exact absurd ((named_iff _ _ _).2 hp) (hc c)
      | _ => exact h2
    | skip k v hv =>
      obtain ⟨gs', h2, h3⟩ := ih gs
      refine ⟨gs', ?_, h3⟩
      cases v with
      | obj m => exact absurd rfl (hv m)
      | _ => exact h2

theorem load_rows (P : Params) (o : Obj) : ∀ gs gs', loadGens P gs o = .ok gs' → ∃ rows, Document P o rows := by
  induction o with
  | nil => intro gs gs' _; exact ⟨[], .nil⟩
  | cons e es ih =>
    intro gs gs' h
    obtain ⟨k, v⟩ := e
    cases v with
    | obj m =>
      rw [loadGens] at h
      cases hp : genCatParse P.uc k with
      | none =>
        rw [hp] at h
        obtain ⟨more, h3⟩ := ih _ _ h
        exact ⟨[] ++ more, .cons (.unknown k _ (fun c hc => by rw [(named_iff _ _ _).1 hc] at hp; cases hp)) h3⟩
      | some c =>
        rw [hp] at h
        simp only at h
        obtain ⟨g1, h1, h2⟩ := SessionProps.bind_eq_ok.1 h
        obtain ⟨more, h3⟩ := ih _ _ h2
        by_cases hs : single c = true
        · obtain ⟨rows, h4⟩ := entry_exists c Path.empty m
          exact ⟨rows ++ more, .cons (.whole k c m rows ((named_iff _ _ _).2 hp) ((single_cat c).1 hs) h4) h3⟩
        · rw [if_neg hs] at h1
          obtain ⟨rows, h4⟩ := keys_rows P c m _ _ h1
          exact ⟨rows ++ more, .cons (.keyed k c m rows ((named_iff _ _ _).2 hp) (fun e => hs ((single_cat c).2 (.inl e)))
            (fun e => hs ((single_cat c).2 (.inr (.inl e)))) (fun e => hs ((single_cat c).2 (.inr (.inr e)))) h4) h3⟩
    | _ =>
      obtain ⟨more, h3⟩ := ih gs gs' h
      exact ⟨[] ++ more, .cons (.skip k _ (by intro m e; cases e)) h3⟩

/-! ## The property -/

/-- **C170** (what is said): a document of generators with the rows `rows` can be read, and for every category and path the generator
is that of the last row for it. -/
theorem C170_meaning (P : Params) (v : Json) (o : Obj) (rows : List Row) (hv : vget "generators" v = some (.obj o))
    (h : Document P o rows) : ∃ gs, generatorsFromJson P v = .ok gs ∧ ∀ c p, genAt gs c p = generatorAt rows c p := by
  unfold generatorsFromJson
  rw [hv]
  simp only
  obtain ⟨gs, h1, h2⟩ := load_read P o rows h []
  refine ⟨gs, h1, fun c p => ?_⟩
  rw [h2, puts_eq, show genAt [] c p = none from rfl, Option.or_none]

/-- **C170** (nothing else): a document of generators that is read has rows. -/
theorem C170_complete (P : Params) (v : Json) (o : Obj) (hv : vget "generators" v = some (.obj o)) (gs : Generators)
    (h : generatorsFromJson P v = .ok gs) : ∃ rows, Document P o rows ∧ ∀ c p, genAt gs c p = generatorAt rows c p := by
  have hrows : ∃ rows, Document P o rows := by
    unfold generatorsFromJson at h
    rw [hv] at h
    exact load_rows P o [] gs h
  obtain ⟨rows, hr⟩ := hrows
  obtain ⟨gs', h1, h2⟩ := C170_meaning P v o rows hv hr
  rw [h] at h1
  cases h1
  exact ⟨rows, hr, h2⟩

/-- **C170** (missing): without `generators`, or if it is not an object, there are none. -/
theorem C170_missing (P : Params) (v : Json) (h : ∀ o, vget "generators" v ≠ some (.obj o)) : generatorsFromJson P v = .ok [] := by
  unfold generatorsFromJson
  split
  · rename_i o ho; exact absurd ho (h o)
  · rfl

/-- **C170** (refused only for keys): a document is read unless some key in the body or the metadata, with an object, is no path
expression. -/
theorem C170_refused (P : Params) (v : Json) (o : Obj) (hv : vget "generators" v = some (.obj o))
    (h : ∀ k c m, (k, Json.obj m) ∈ o → Named P.uc k c → c = .body ∨ c = .metadata →
      ∀ k' m', (k', Json.obj m') ∈ m → ∃ p, Path.new P.uc k' = .ok p) : ∃ gs, generatorsFromJson P v = .ok gs := by
  have keyed : ∀ (c : GenCategory) (m : Obj), (c = .body ∨ c = .metadata → ∀ k' m', (k', Json.obj m') ∈ m → ∃ p, Path.new P.uc k' = .ok p) →
      ∃ rows, Joined (Keyed P c) m rows ∨ (c = .method ∨ c = .path ∨ c = .status) := by
    intro c m hm
    induction m with
    | nil => exact ⟨[], .inl .nil⟩
    | cons e es ih =>
      obtain ⟨k, x⟩ := e
      obtain ⟨more, h1⟩ := ih (fun hc k' m' hk => hm hc k' m' (List.mem_cons_of_mem _ hk))
      rcases h1 with h1 | h1
      · cases x with
        | obj y =>
          cases c with
          | query =>
            obtain ⟨rows, h2⟩ := entry_exists .query (pushField rootPath k) y
            exact ⟨rows ++ more, .inl (.cons (.name k y rows (.inl rfl) h2) h1)⟩
          | header =>
            obtain ⟨rows, h2⟩ := entry_exists .header (pushField rootPath k) y
            exact ⟨rows ++ more, .inl (.cons (.name k y rows (.inr rfl) h2) h1)⟩
          | body =>
            obtain ⟨p, hp⟩ := hm (.inl rfl) k y List.mem_cons_self
            obtain ⟨rows, h2⟩ := entry_exists .body p y
            exact ⟨rows ++ more, .inl (.cons (.path k y p rows (by decide) (by decide) hp h2) h1)⟩
          | metadata =>
            obtain ⟨p, hp⟩ := hm (.inr rfl) k y List.mem_cons_self
            obtain ⟨rows, h2⟩ := entry_exists .metadata p y
            exact ⟨rows ++ more, .inl (.cons (.path k y p rows (by decide) (by decide) hp h2) h1)⟩
          | method => exact ⟨[], .inr (.inl rfl)⟩
          | path => exact ⟨[], .inr (.inr (.inl rfl))⟩
          | status => exact ⟨[], .inr (.inr (.inr rfl))⟩
        | _ => exact ⟨[] ++ more, .inl (.cons (.skip k _ (by intro m e; cases e)) h1)⟩
      · exact ⟨[], .inr h1⟩
  have hrows : ∃ rows, Document P o rows := by
    clear hv
    unfold Document
    induction o with
    | nil => exact ⟨[], .nil⟩
    | cons e es ih =>
      obtain ⟨k, x⟩ := e
      obtain ⟨more, h1⟩ := ih (fun k c m hk => h k c m (List.mem_cons_of_mem _ hk))
      cases x with
      | obj m =>
        cases hp : genCatParse P.uc k with
        | none => exact ⟨[] ++ more, .cons (.unknown k _ (fun c hc => by rw [(named_iff _ _ _).1 hc] at hp; cases hp)) h1⟩
        | some c =>
          have hc := (named_iff _ _ _).2 hp
          by_cases hs : c = .method ∨ c = .path ∨ c = .status
          · obtain ⟨rows, h4⟩ := entry_exists c Path.empty m
            exact ⟨rows ++ more, .cons (.whole k c m rows hc hs h4) h1⟩
          · obtain ⟨rows, h4⟩ := keyed c m (h k c m List.mem_cons_self hc)
            rcases h4 with h4 | h4
            · exact ⟨rows ++ more, .cons (.keyed k c m rows hc (fun e => hs (.inl e)) (fun e => hs (.inr (.inl e)))
                (fun e => hs (.inr (.inr e))) h4) h1⟩
            · exact absurd h4 hs
      | _ => exact ⟨[] ++ more, .cons (.skip k _ (by intro m e; cases e)) h1⟩
  obtain ⟨rows, hr⟩ := hrows
  obtain ⟨gs, h1, _⟩ := C170_meaning P v o rows hv hr
  exact ⟨gs, h1⟩

/-! ## Non-vacuity -/

/-- `{"body": {"$.a": {"type": "RandomInt", "max": 3}, "$.b": {"type": "?"}}, "PATH": {"type": "Date"}, "other": {}}`. -/
def exDoc : Obj :=
  [("body".toList, .obj [("$.a".toList, .obj [("type".toList, .str "RandomInt".toList), ("max".toList, .num (.pos 3))]),
      ("$.b".toList, .obj [("type".toList, .str "?".toList)])]),
   ("PATH".toList, .obj [("type".toList, .str "Date".toList)]),
   ("other".toList, .obj [])]

def exRows : List Row :=
  ([⟨.body, pushField rootPath "a".toList, .randomInt 0 3⟩] ++ ([] ++ [])) ++ ([⟨.path, Path.empty, .date none none⟩] ++ ([] ++ []))

set_option maxRecDepth 100000 in
theorem example_document : Document RuleJsonProps.exP exDoc exRows := by
  have no : ∀ g, ¬ Says [("type".toList, .str "?".toList)] g := by
    intro g h
    rw [← C170_generator] at h
    have h0 : genOfObj [("type".toList, .str "?".toList)] = none := by decide +kernel
    rw [h0] at h
    cases h
  refine .cons (.keyed _ .body _ _ (by show _ = _; decide) (by decide) (by decide) (by decide) ?_)
    (.cons (.whole _ .path _ _ (by show _ = _; decide) (.inr (.inl rfl)) ?_) (.cons (.unknown _ _ ?_) .nil))
  · refine .cons (.path _ _ (pushField rootPath "a".toList) _ (by decide) (by decide) (by rfl) (.some _ (.typed .randomInt _ (by rfl) ?_)))
      (.cons (.path _ _ (pushField rootPath "b".toList) _ (by decide) (by decide) (by rfl) (.none no)) .nil)
    exact .randomInt
  · exact .some _ (.typed .date _ (by rfl) (.date none none (.none (by decide)) (.none (by decide))))
  · intro c h
    have h2 := (named_iff _ _ _).1 h
    have h0 : genCatParse RuleJsonProps.exP.uc "other".toList = none := by decide +kernel
    rw [h0] at h2
    cases h2

theorem example_table : generatorAt exRows .body (pushField rootPath "a".toList) = some (.randomInt 0 3) := by rfl


end ReadGenProps
end Verif
