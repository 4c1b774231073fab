import Verif.RuleJson

/-
  C34: matching rules and generators survive a write/read cycle.
  C66: a rule is recreated from its name and values.
-/

set_option autoImplicit false

namespace Verif
namespace RuleJsonProps
open Rules RuleJson

/-! ### Specification -/

/-- A generator whose numbers have the sizes of the Rust types. -/
def GenOk : Generator → Prop
  | .randomInt a b => (-2147483648 ≤ a ∧ a < 2147483648) ∧ (-2147483648 ≤ b ∧ b < 2147483648)
  | .randomDecimal d => d < 65536
  | .randomHexadecimal d => d < 65536
  | .randomString d => d < 65536
  | _ => True

/-- A path that is parsed from its own text (every path made by `DocPath::new`). -/
def PathOk (uc : UC) (p : DocPath) : Prop := Path.new uc p.expr = .ok p

def GensOk (uc : UC) (g : List (DocPath × Generator)) : Prop :=
  KeysNodup g ∧ ∀ e ∈ g, PathOk uc e.1 ∧ GenOk e.2

mutual
/-- The rules for which the write/read cycle is claimed: numbers have the sizes of the Rust types, there is no
unresolved reference, variants have body tables with parsed paths as keys, none of which is the text "matchers". -/
def Writable (uc : UC) : MatchingRule → Prop
  | .statusCode (.statusCodes cs) => ∀ c ∈ cs, c < 65536
  | .arrayContains vs => WritableVs uc vs
  | .eachKey d => WritableDef uc d
  | .eachValue d => WritableDef uc d
  | _ => True
termination_by structural x => x
def WritableVs (uc : UC) : List Variant → Prop
  | [] => True
  | v :: vs => WritableV uc v ∧ WritableVs uc vs
termination_by structural x => x
def WritableV (uc : UC) : Variant → Prop
  | ⟨_, c, g⟩ => WritableCat uc c ∧ GensOk uc g
termination_by structural x => x
def WritableCat (uc : UC) : RuleCategory → Prop
  | ⟨n, m⟩ => n = .body ∧ KeysNodup m ∧ (∀ e ∈ m, PathOk uc e.1 ∧ e.1.expr ≠ "matchers".toList) ∧ WritableEs uc m
termination_by structural x => x
def WritableEs (uc : UC) : List (DocPath × RuleList) → Prop
  | [] => True
  | e :: es => WritableE uc e ∧ WritableEs uc es
termination_by structural x => x
def WritableE (uc : UC) : DocPath × RuleList → Prop
  | (_, l) => WritableL uc l
termination_by structural x => x
def WritableL (uc : UC) : RuleList → Prop
  | ⟨rs, _, _⟩ => WritableRs uc rs
termination_by structural x => x
def WritableRs (uc : UC) : List MatchingRule → Prop
  | [] => True
  | r :: rs => Writable uc r ∧ WritableRs uc rs
termination_by structural x => x
def WritableDef (uc : UC) : RuleDef → Prop
  | ⟨_, _, rs, g, _⟩ => WritableEithers uc rs ∧ (∀ x, g = some x → GenOk x)
termination_by structural x => x
def WritableEithers (uc : UC) : List (MatchingRule ⊕ MatchingReference) → Prop
  | [] => True
  | r :: rs => WritableEither uc r ∧ WritableEithers uc rs
termination_by structural x => x
def WritableEither (uc : UC) : MatchingRule ⊕ MatchingReference → Prop
  | .inl r => Writable uc r
  | .inr _ => False
termination_by structural x => x
end

mutual
/-- A rule of which nothing is lost by writing: no rule list is empty, and each-key and each-value definitions have
neither a value type nor an expression text. -/
def Complete : MatchingRule → Prop
  | .arrayContains vs => CompleteVs vs
  | .eachKey d => CompleteDef d
  | .eachValue d => CompleteDef d
  | _ => True
termination_by structural x => x
def CompleteVs : List Variant → Prop
  | [] => True
  | v :: vs => CompleteV v ∧ CompleteVs vs
termination_by structural x => x
def CompleteV : Variant → Prop
  | ⟨_, c, _⟩ => CompleteCat c
termination_by structural x => x
def CompleteCat : RuleCategory → Prop
  | ⟨_, m⟩ => CompleteEs m
termination_by structural x => x
def CompleteEs : List (DocPath × RuleList) → Prop
  | [] => True
  | e :: es => CompleteE e ∧ CompleteEs es
termination_by structural x => x
def CompleteE : DocPath × RuleList → Prop
  | (_, l) => CompleteL l
termination_by structural x => x
def CompleteL : RuleList → Prop
  | ⟨rs, _, _⟩ => rs ≠ [] ∧ CompleteRs rs
termination_by structural x => x
def CompleteRs : List MatchingRule → Prop
  | [] => True
  | r :: rs => Complete r ∧ CompleteRs rs
termination_by structural x => x
def CompleteDef : RuleDef → Prop
  | ⟨_, t, rs, _, x⟩ => t = .unknown ∧ x = [] ∧ CompleteEithers rs
termination_by structural x => x
def CompleteEithers : List (MatchingRule ⊕ MatchingReference) → Prop
  | [] => True
  | r :: rs => CompleteEither r ∧ CompleteEithers rs
termination_by structural x => x
def CompleteEither : MatchingRule ⊕ MatchingReference → Prop
  | .inl r => Complete r
  | .inr _ => True
termination_by structural x => x
end

/-- A list in the order of the keys of its elements. -/
def orderBy {A : Type} (key : A → Str) (l : List A) : List A := (OMap.collect (l.map fun e => (key e, e))).map (·.2)

/-- A table in the order of the texts of its keys (a hash map has no order, so this is the same map). -/
def inKeyOrder {β : Type} (m : List (DocPath × β)) : List (DocPath × β) := orderBy (fun e => e.1.expr) m

mutual
/-- What a written rule keeps: everything but empty rule lists, the flag of cascaded lists, and the value type and
the expression of an each-key or each-value definition.  Tables are put in key order. -/
def kept : MatchingRule → MatchingRule
  | .arrayContains vs => .arrayContains (keptVs vs)
  | .eachKey d => .eachKey (keptDef d)
  | .eachValue d => .eachValue (keptDef d)
  | r => r
termination_by structural x => x
def keptVs : List Variant → List Variant
  | [] => []
  | v :: vs => keptV v :: keptVs vs
termination_by structural x => x
def keptV : Variant → Variant
  | ⟨i, c, g⟩ => ⟨i, keptCat c, inKeyOrder g⟩
termination_by structural x => x
def keptCat : RuleCategory → RuleCategory
  | ⟨n, m⟩ => ⟨n, (inKeyOrder (keptEs m)).filter (fun e => !e.2.rules.isEmpty)⟩
termination_by structural x => x
def keptEs : List (DocPath × RuleList) → List (DocPath × RuleList)
  | [] => []
  | e :: es => keptE e :: keptEs es
termination_by structural x => x
def keptE : DocPath × RuleList → DocPath × RuleList
  | (p, l) => (p, keptL l)
termination_by structural x => x
def keptL : RuleList → RuleList
  | ⟨rs, l, _⟩ => ⟨keptRs rs, l, false⟩
termination_by structural x => x
def keptRs : List MatchingRule → List MatchingRule
  | [] => []
  | r :: rs => kept r :: keptRs rs
termination_by structural x => x
def keptDef : RuleDef → RuleDef
  | ⟨v, _, rs, g, _⟩ => ⟨v, .unknown, keptEithers rs, g, []⟩
termination_by structural x => x
def keptEithers : List (MatchingRule ⊕ MatchingReference) → List (MatchingRule ⊕ MatchingReference)
  | [] => []
  | r :: rs => keptEither r :: keptEithers rs
termination_by structural x => x
def keptEither : MatchingRule ⊕ MatchingReference → MatchingRule ⊕ MatchingReference
  | .inl r => .inl (kept r)
  | .inr x => .inr x
termination_by structural x => x
end

/-! ### List forms of the recursive functions -/

theorem variantsJson_eq (vs : List Variant) : variantsJson vs = vs.map variantJson := by
  induction vs with
  | nil => rfl
  | cons v vs ih => rw [variantsJson, ih]; rfl
theorem entriesJson_eq (n : Category) (m : List (DocPath × RuleList)) :
    entriesJson n m = m.map (fun e => (keyText n e.1, listJson e.2)) := by
  induction m with
  | nil => rfl
  | cons e es ih => obtain ⟨p, l⟩ := e; rw [entriesJson, ih]; rfl
theorem rulesJson_eq (rs : List MatchingRule) : rulesJson rs = rs.map ruleJson := by
  induction rs with
  | nil => rfl
  | cons r rs ih => rw [rulesJson, ih]; rfl
theorem keptVs_eq (vs : List Variant) : keptVs vs = vs.map keptV := by
  induction vs with
  | nil => rfl
  | cons v vs ih => rw [keptVs, ih]; rfl
theorem keptEs_eq (m : List (DocPath × RuleList)) : keptEs m = m.map (fun e => (e.1, keptL e.2)) := by
  induction m with
  | nil => rfl
  | cons e es ih => obtain ⟨p, l⟩ := e; rw [keptEs, ih]; rfl
theorem keptRs_eq (rs : List MatchingRule) : keptRs rs = rs.map kept := by
  induction rs with
  | nil => rfl
  | cons r rs ih => rw [keptRs, ih]; rfl
theorem WritableVs_iff (uc : UC) (vs : List Variant) : WritableVs uc vs ↔ ∀ v ∈ vs, WritableV uc v := by
  induction vs with
  | nil => simp [WritableVs]
  | cons v vs ih => simp [WritableVs, ih]
theorem WritableEs_iff (uc : UC) (m : List (DocPath × RuleList)) :
    WritableEs uc m ↔ ∀ e ∈ m, WritableL uc e.2 := by
  induction m with
  | nil => simp [WritableEs]
  | cons e es ih => obtain ⟨p, l⟩ := e; rw [WritableEs, ih, WritableE]; simp
theorem WritableRs_iff (uc : UC) (rs : List MatchingRule) : WritableRs uc rs ↔ ∀ r ∈ rs, Writable uc r := by
  induction rs with
  | nil => simp [WritableRs]
  | cons r rs ih => simp [WritableRs, ih]

/-! ### Generators -/

theorem asI32_id (a : Int) (h : -2147483648 ≤ a ∧ a < 2147483648) : JsonUtils.asI32 a = a := by
  unfold JsonUtils.asI32
  omega

theorem i32_intJson (a : Int) (h : -2147483648 ≤ a ∧ a < 2147483648) :
    (match Expr.intJson a with
      | .num n => (match JsonUtils.asI64 n with | some i => JsonUtils.asI32 i | none => (0 : Int))
      | _ => 0) = a := by
  cases a with
  | ofNat n =>
    have : n < 2 ^ 63 := by have := h.2; simp only [Int.ofNat_eq_natCast] at this; omega
    simp only [Expr.intJson, JsonUtils.asI64, this, if_true]
    exact asI32_id _ h
  | negSucc n =>
    simp only [Expr.intJson, JsonUtils.asI64]
    rw [show (-((n : Int) + 1)) = Int.negSucc n by omega]
    exact asI32_id _ h

theorem jsonToI32_spec (m : Obj) (k : Str) (d a : Int) (hk : Json.lookup k m = some (Expr.intJson a))
    (h : -2147483648 ≤ a ∧ a < 2147483648) : JsonUtils.jsonToI32 m k d = a := by
  unfold JsonUtils.jsonToI32
  rw [hk]
  cases a with
  | ofNat n =>
    have : n < 2 ^ 63 := by have := h.2; simp only [Int.ofNat_eq_natCast] at this; omega
    simp only [Expr.intJson, JsonUtils.asI64, this, if_true]
    exact asI32_id _ h
  | negSucc n =>
    simp only [Expr.intJson, JsonUtils.asI64]
    rw [show (-((n : Int) + 1)) = Int.negSucc n by omega]
    exact asI32_id _ h

theorem jsonToU16_spec (m : Obj) (k : Str) (d a : Nat) (hk : Json.lookup k m = some (.num (.pos a)))
    (h : a < 65536) : JsonUtils.jsonToU16 m k d = a := by
  unfold JsonUtils.jsonToU16
  rw [hk]
  simp only [JsonUtils.asU64, JsonUtils.asU16]
  exact Nat.mod_eq_of_lt h

/-! ### Attributes of literal objects -/

/-- Look-up in a list of attributes with literal names. -/
def slookup (k : String) : List (String × Json) → Option Json
  | [] => none
  | e :: es => if e.1 = k then some e.2 else slookup k es

theorem lookup_map_toList (k : String) (es : List (String × Json)) :
    Json.lookup k.toList (es.map fun e => (e.1.toList, e.2)) = slookup k es := by
  induction es with
  | nil => rfl
  | cons e es ih =>
    simp only [List.map_cons, Json.lookup, slookup, ih]
    by_cases h : e.1 = k
    · simp [h]
    · have : e.1.toList ≠ k.toList := fun h' => h (String.toList_inj.1 h')
      simp [h, this]

/-- The attributes of an object, the last one of equal name winning. -/
def attrs (es : List (String × Json)) : Obj := OMap.collect (es.map fun e => (e.1.toList, e.2))

theorem obj_eq (es : List (String × Json)) : obj es = .obj (attrs es) := rfl

theorem lookup_attrs (k : String) (es : List (String × Json)) :
    Json.lookup k.toList (attrs es) = slookup k es.reverse := by
  unfold attrs OMap.collect
  rw [(OMap.foldl_insert _ [] trivial).2, ← List.map_reverse, lookup_map_toList]
  cases slookup k es.reverse <;> rfl

theorem get_attrs (k : String) (es : List (String × Json)) :
    RuleJson.get k (attrs es) = slookup k es.reverse := lookup_attrs k es

macro "attr_simp" : tactic => `(tactic|
  simp only [get_attrs, lookup_attrs, slookup, List.reverse_cons, List.reverse_nil, List.nil_append, List.cons_append,
    List.append_nil, List.append_assoc, String.reduceEq, if_true, if_false, reduceIte, Option.map, optAttr, fieldString])

theorem ty_randomInt : Json.lookup "RandomInt".toList genTypes = some .randomInt := by decide
theorem ty_uuid : Json.lookup "Uuid".toList genTypes = some .uuid := by decide
theorem ty_randomDecimal : Json.lookup "RandomDecimal".toList genTypes = some .randomDecimal := by decide
theorem ty_randomHexadecimal : Json.lookup "RandomHexadecimal".toList genTypes = some .randomHexadecimal := by decide
theorem ty_randomString : Json.lookup "RandomString".toList genTypes = some .randomString := by decide
theorem ty_regex : Json.lookup "Regex".toList genTypes = some .regex := by decide
theorem ty_date : Json.lookup "Date".toList genTypes = some .date := by decide
theorem ty_time : Json.lookup "Time".toList genTypes = some .time := by decide
theorem ty_dateTime : Json.lookup "DateTime".toList genTypes = some .dateTime := by decide
theorem ty_randomBoolean : Json.lookup "RandomBoolean".toList genTypes = some .randomBoolean := by decide
theorem ty_providerState : Json.lookup "ProviderState".toList genTypes = some .providerState := by decide
theorem ty_mockServerURL : Json.lookup "MockServerURL".toList genTypes = some .mockServerURL := by decide

theorem genOfObj_attrs (es : List (String × Json)) (t : String) (h : slookup "type" es.reverse = some (lit t)) :
    genOfObj (attrs es) = genFromMap t.toList (attrs es) := by
  unfold genOfObj
  rw [get_attrs, h]
  rfl

/-- Every generator survives the cycle. -/
theorem gen_roundtrip (g : Generator) (h : GenOk g) : ∃ m, genToJson g = .obj m ∧ genOfObj m = some g := by
  cases g with
  | randomInt a b =>
    refine ⟨_, rfl, ?_⟩
    rw [← attrs, genOfObj_attrs _ "RandomInt" rfl, genFromMap, ty_randomInt]
    show some (Generator.randomInt _ _) = _
    rw [jsonToI32_spec _ _ _ a (by attr_simp) h.1, jsonToI32_spec _ _ _ b (by attr_simp) h.2]
  | uuid f => cases f with
    | none =>
      refine ⟨_, rfl, ?_⟩
      rw [← attrs, genOfObj_attrs _ "Uuid" rfl, genFromMap, ty_uuid]
      attr_simp
    | some f =>
      refine ⟨_, rfl, ?_⟩
      rw [← attrs, genOfObj_attrs _ "Uuid" rfl, genFromMap, ty_uuid]
      attr_simp
      cases f <;> rfl
  | randomDecimal d =>
    refine ⟨_, rfl, ?_⟩
    rw [← attrs, genOfObj_attrs _ "RandomDecimal" rfl, genFromMap, ty_randomDecimal]
    show some (Generator.randomDecimal _) = _
    rw [jsonToU16_spec _ _ _ d (by attr_simp) h]
  | randomHexadecimal d =>
    refine ⟨_, rfl, ?_⟩
    rw [← attrs, genOfObj_attrs _ "RandomHexadecimal" rfl, genFromMap, ty_randomHexadecimal]
    show some (Generator.randomHexadecimal _) = _
    rw [jsonToU16_spec _ _ _ d (by attr_simp) h]
  | randomString d =>
    refine ⟨_, rfl, ?_⟩
    rw [← attrs, genOfObj_attrs _ "RandomString" rfl, genFromMap, ty_randomString]
    show some (Generator.randomString _) = _
    rw [jsonToU16_spec _ _ _ d (by attr_simp) h]
  | regex r =>
    refine ⟨_, rfl, ?_⟩
    rw [← attrs, genOfObj_attrs _ "Regex" rfl, genFromMap, ty_regex]
    attr_simp
    rfl
  | date f e =>
    refine ⟨_, rfl, ?_⟩
    rw [← attrs, genOfObj_attrs _ "Date" (by cases f <;> cases e <;> rfl), genFromMap, ty_date]
    cases f <;> cases e <;> attr_simp <;> rfl
  | time f e =>
    refine ⟨_, rfl, ?_⟩
    rw [← attrs, genOfObj_attrs _ "Time" (by cases f <;> cases e <;> rfl), genFromMap, ty_time]
    cases f <;> cases e <;> attr_simp <;> rfl
  | dateTime f e =>
    refine ⟨_, rfl, ?_⟩
    rw [← attrs, genOfObj_attrs _ "DateTime" (by cases f <;> cases e <;> rfl), genFromMap, ty_dateTime]
    cases f <;> cases e <;> attr_simp <;> rfl
  | randomBoolean =>
    refine ⟨_, rfl, ?_⟩
    rw [← attrs, genOfObj_attrs _ "RandomBoolean" rfl, genFromMap, ty_randomBoolean]
  | providerState e d => cases d with
    | none =>
      refine ⟨_, rfl, ?_⟩
      rw [← attrs, genOfObj_attrs _ "ProviderState" rfl, genFromMap, ty_providerState]
      attr_simp
      rfl
    | some d =>
      refine ⟨_, rfl, ?_⟩
      rw [← attrs, genOfObj_attrs _ "ProviderState" rfl, genFromMap, ty_providerState]
      attr_simp
      cases d <;> rfl
  | mockServerURL x r =>
    refine ⟨_, rfl, ?_⟩
    rw [← attrs, genOfObj_attrs _ "MockServerURL" rfl, genFromMap, ty_mockServerURL]
    attr_simp
    rfl

/-! ### Key order -/

theorem insert_mapVals {V W : Type} (f : V → W) (k : Str) (v : V) (m : List (Str × V)) :
    OMap.insert k (f v) (m.map fun e => (e.1, f e.2)) = (OMap.insert k v m).map fun e => (e.1, f e.2) := by
  induction m with
  | nil => rfl
  | cons e es ih =>
    simp only [List.map_cons, OMap.insert]
    split
    · rfl
    · split
      · rfl
      · rw [ih]; rfl

theorem foldl_insert_mapVals {V W : Type} (f : V → W) (es : List (Str × V)) : ∀ m : List (Str × V),
    (es.map fun e => (e.1, f e.2)).foldl (fun m e => OMap.insert e.1 e.2 m) (m.map fun e => (e.1, f e.2))
      = (es.foldl (fun m e => OMap.insert e.1 e.2 m) m).map fun e => (e.1, f e.2) := by
  induction es with
  | nil => intro m; rfl
  | cons e es ih =>
    intro m
    simp only [List.map_cons, List.foldl_cons]
    rw [insert_mapVals, ih]

theorem collect_mapVals {V W : Type} (f : V → W) (es : List (Str × V)) :
    OMap.collect (es.map fun e => (e.1, f e.2)) = (OMap.collect es).map fun e => (e.1, f e.2) :=
  foldl_insert_mapVals f es []

theorem foldl_insert_mem {V : Type} (es : List (Str × V)) : ∀ m : List (Str × V),
    ∀ e ∈ es.foldl (fun m e => OMap.insert e.1 e.2 m) m, e ∈ es ∨ e ∈ m := by
  induction es with
  | nil => intro m e he; exact .inr he
  | cons a es ih =>
    intro m e he
    rcases ih _ e he with h | h
    · exact .inl (List.mem_cons_of_mem _ h)
    · rcases OMap.mem_insert _ _ _ e h with h | h
      · exact .inl (by rw [h]; exact List.mem_cons_self)
      · exact .inr h

theorem mem_collect {V : Type} (es : List (Str × V)) : ∀ e ∈ OMap.collect es, e ∈ es := by
  intro e he
  rcases foldl_insert_mem es [] e he with h | h
  · exact h
  · cases h

theorem insert_perm {V : Type} (k : Str) (v : V) (m : List (Str × V)) (h : k ∉ m.map (·.1)) :
    (OMap.insert k v m).Perm ((k, v) :: m) := by
  induction m with
  | nil => exact .refl _
  | cons e es ih =>
    simp only [OMap.insert]
    split
    · exact .refl _
    · have hne : e.1 ≠ k := fun h' => h (by rw [← h']; simp)
      rw [if_neg hne]
      exact ((ih (fun h' => h (List.mem_cons_of_mem _ h'))).cons e).trans (.swap _ _ _)

theorem foldl_insert_perm {V : Type} (es : List (Str × V)) : ∀ m : List (Str × V),
    (es.map (·.1) ++ m.map (·.1)).Nodup → (es.foldl (fun m e => OMap.insert e.1 e.2 m) m).Perm (es ++ m) := by
  induction es with
  | nil => intro m _; exact .refl _
  | cons e es ih =>
    intro m h
    have hd := List.nodup_cons.1 h
    have hp : (OMap.insert e.1 e.2 m).Perm (e :: m) :=
      insert_perm _ _ _ (fun h' => hd.1 (List.mem_append_right _ h'))
    have hn : (es.map (·.1) ++ (OMap.insert e.1 e.2 m).map (·.1)).Nodup := by
      refine (List.Perm.nodup_iff ?_).2 h
      refine ((hp.map (·.1)).append_left _).trans ?_
      exact List.perm_middle
    exact (ih _ hn).trans ((hp.append_left es).trans List.perm_middle)

theorem collect_perm {V : Type} (es : List (Str × V)) (h : (es.map (·.1)).Nodup) : (OMap.collect es).Perm es := by
  have := foldl_insert_perm es [] (by simpa using h)
  rw [List.append_nil] at this
  exact this

theorem orderBy_perm {A : Type} (key : A → Str) (l : List A) (h : (l.map key).Nodup) : (orderBy key l).Perm l := by
  have h1 : (l.map fun e => (key e, e)).map (·.1) = l.map key := by
    rw [List.map_map]; rfl
  have h2 : (l.map fun e => (key e, e)).map (·.2) = l := by
    rw [List.map_map]; exact List.map_id l
  have := (collect_perm (l.map fun e => (key e, e)) (by rw [h1]; exact h)).map (·.2)
  rw [h2] at this
  exact this

theorem orderBy_mem {A : Type} (key : A → Str) (l : List A) : ∀ e ∈ orderBy key l, e ∈ l := by
  intro e he
  obtain ⟨x, hx, rfl⟩ := List.mem_map.1 he
  obtain ⟨y, hy, rfl⟩ := List.mem_map.1 (mem_collect _ x hx)
  exact hy

theorem collect_key {A V : Type} (key : A → Str) (f : A → V) (l : List A) :
    OMap.collect (l.map fun e => (key e, f e)) = (orderBy key l).map fun e => (key e, f e) := by
  have h := collect_mapVals f (l.map fun e => (key e, e))
  rw [List.map_map] at h
  rw [show (fun e => (key e, f e)) = (fun e : Str × A => (e.1, f e.2)) ∘ (fun e => (key e, e)) from rfl, h]
  unfold orderBy
  rw [List.map_map]
  refine List.map_congr_left (fun x hx => ?_)
  obtain ⟨y, _, rfl⟩ := List.mem_map.1 (mem_collect _ x hx)
  rfl

theorem orderBy_map {A B : Type} (key : A → Str) (key' : B → Str) (f : A → B) (hf : ∀ a, key' (f a) = key a)
    (l : List A) : orderBy key' (l.map f) = (orderBy key l).map f := by
  unfold orderBy
  rw [List.map_map]
  have : (fun e => (key' e, e)) ∘ f = (fun e : Str × A => (e.1, f e.2)) ∘ (fun e => (key e, e)) := by
    funext a; simp [hf]
  rw [this, ← List.map_map, collect_mapVals, List.map_map, List.map_map]
  rfl

theorem inKeyOrder_nodup {β : Type} (m : List (DocPath × β)) (h : KeysNodup m) : KeysNodup (inKeyOrder m) :=
  ((orderBy_perm (fun e : DocPath × β => e.1.expr) m h).map (fun e : DocPath × β => e.1.expr)).nodup_iff.2 h

/-! ### Reading tables -/

theorem upsert_fresh {β : Type} (m : List (DocPath × β)) (p : DocPath) (ins : β) (f : β → β)
    (h : p.expr ∉ m.map (fun e => e.1.expr)) : upsert m p ins f = m ++ [(p, f ins)] := by
  induction m with
  | nil => rfl
  | cons e es ih =>
    have hne : keyIs p e = false := by
      unfold keyIs Path.eqPath
      exact decide_eq_false (fun h' => h (by rw [← h']; simp))
    simp only [upsert, hne, Bool.false_eq_true, if_false, List.cons_append]
    rw [ih (fun h' => h (List.mem_cons_of_mem _ h'))]

theorem upsert_last {β : Type} (m : List (DocPath × β)) (p : DocPath) (x ins : β) (f : β → β)
    (h : p.expr ∉ m.map (fun e => e.1.expr)) : upsert (m ++ [(p, x)]) p ins f = m ++ [(p, f x)] := by
  induction m with
  | nil => simp [upsert, keyIs, Path.eqPath]
  | cons e es ih =>
    have hne : keyIs p e = false := by
      unfold keyIs Path.eqPath
      exact decide_eq_false (fun h' => h (by rw [← h']; simp))
    simp only [List.cons_append, upsert, hne, Bool.false_eq_true, if_false]
    rw [ih (fun h' => h (List.mem_cons_of_mem _ h'))]

theorem addMatchers_more (rec : Json → Res MatchingRule) (p : DocPath) (l : RuleLogic) (n : Category)
    (m : List (DocPath × RuleList)) (h : p.expr ∉ m.map (fun e => e.1.expr)) (rs : List MatchingRule)
    (hr : ∀ r ∈ rs, rec (ruleJson r) = .ok (kept r)) : ∀ acc : List MatchingRule,
    addMatchers rec p l ⟨n, m ++ [(p, ⟨acc, l, false⟩)]⟩ (rs.map ruleJson)
      = .ok ⟨n, m ++ [(p, ⟨acc ++ rs.map kept, l, false⟩)]⟩ := by
  induction rs with
  | nil => intro acc; simp [addMatchers]
  | cons r rs ih =>
    intro acc
    simp only [List.map_cons, addMatchers]
    rw [hr r List.mem_cons_self]
    show addMatchers rec p l (addRule _ p (kept r) l) _ = _
    unfold addRule
    rw [upsert_last _ _ _ _ _ h, ih (fun x hx => hr x (List.mem_cons_of_mem _ hx)), List.append_assoc]
    rfl

/-- The rules of one list are added under a key which is not in the table yet. -/
theorem addMatchers_spec (rec : Json → Res MatchingRule) (p : DocPath) (l : RuleLogic) (n : Category)
    (m : List (DocPath × RuleList)) (h : p.expr ∉ m.map (fun e => e.1.expr)) (rs : List MatchingRule)
    (hr : ∀ r ∈ rs, rec (ruleJson r) = .ok (kept r)) :
    addMatchers rec p l ⟨n, m⟩ (rs.map ruleJson)
      = .ok ⟨n, m ++ if rs.isEmpty then [] else [(p, ⟨rs.map kept, l, false⟩)]⟩ := by
  cases rs with
  | nil => simp [addMatchers]
  | cons r rs =>
    simp only [List.map_cons, addMatchers]
    rw [hr r List.mem_cons_self]
    show addMatchers rec p l (addRule _ p (kept r) l) _ = _
    unfold addRule
    rw [upsert_fresh _ _ _ _ h]
    exact addMatchers_more rec p l n m h rs (fun x hx => hr x (List.mem_cons_of_mem _ hx)) [kept r]

theorem combine_listJson (l : RuleList) : combine (listJson l) = l.logic := by
  obtain ⟨rs, l, c⟩ := l
  unfold combine
  rw [listJson, obj_eq]
  show (match RuleJson.get "combine" (attrs _) with | some c => _ | none => _) = _
  attr_simp
  cases l <;> rfl

theorem matchers_listJson (l : RuleList) : vget "matchers" (listJson l) = some (.arr (l.rules.map ruleJson)) := by
  obtain ⟨rs, l, c⟩ := l
  rw [listJson, obj_eq]
  show RuleJson.get "matchers" (attrs _) = _
  attr_simp
  rw [rulesJson_eq]

theorem keptL_eq (l : RuleList) : keptL l = ⟨l.rules.map kept, l.logic, false⟩ := by
  obtain ⟨rs, l, c⟩ := l
  rw [keptL, keptRs_eq]

theorem addRuleList_spec (rec : Json → Res MatchingRule) (n : Category) (m : List (DocPath × RuleList))
    (p : DocPath) (l : RuleList) (h : p.expr ∉ m.map (fun e => e.1.expr))
    (hr : ∀ r ∈ l.rules, rec (ruleJson r) = .ok (kept r)) :
    addRuleList rec ⟨n, m⟩ p (listJson l) = .ok ⟨n, m ++ if l.rules.isEmpty then [] else [(p, keptL l)]⟩ := by
  unfold addRuleList
  rw [matchers_listJson, combine_listJson]
  show addMatchers rec p l.logic ⟨n, m⟩ (l.rules.map ruleJson) = _
  rw [addMatchers_spec rec p l.logic n m h l.rules hr, keptL_eq]

/-- The entries with rules. -/
def nonEmpty (m : List (DocPath × RuleList)) : List (DocPath × RuleList) :=
  (m.map fun e => (e.1, keptL e.2)).filter fun e => !e.2.rules.isEmpty

theorem nonEmpty_cons (p : DocPath) (l : RuleList) (es : List (DocPath × RuleList)) :
    nonEmpty ((p, l) :: es) = (if l.rules.isEmpty then [] else [(p, keptL l)]) ++ nonEmpty es := by
  unfold nonEmpty
  rw [List.map_cons, List.filter_cons, keptL_eq]
  cases h : l.rules <;> simp

theorem fresh_step (n : List (DocPath × RuleList)) (p : DocPath) (l : RuleList) (es : List (DocPath × RuleList))
    (h : (n.map (fun e => e.1.expr) ++ ((p, l) :: es).map (fun e => e.1.expr)).Nodup) :
    p.expr ∉ n.map (fun e => e.1.expr) ∧
    ((n ++ if l.rules.isEmpty then [] else [(p, keptL l)]).map (fun e => e.1.expr)
      ++ es.map (fun e => e.1.expr)).Nodup := by
  obtain ⟨h1, h2, h3⟩ := List.nodup_append.1 h
  refine ⟨fun h' => h3 _ h' p.expr (by simp) rfl, ?_⟩
  split
  · rw [List.append_nil]
    exact List.nodup_append.2 ⟨h1, (List.nodup_cons.1 h2).2, fun a ha b hb => h3 a ha b (List.mem_cons_of_mem _ hb)⟩
  · rw [List.map_append, List.append_assoc]
    exact h

theorem addEntries_spec (rec : Json → Res MatchingRule) (P : Params) (n : Category) (es : List (DocPath × RuleList))
    (hp : ∀ e ∈ es, PathOk P.uc e.1) (hr : ∀ e ∈ es, ∀ r ∈ e.2.rules, rec (ruleJson r) = .ok (kept r)) :
    ∀ m : List (DocPath × RuleList), (m.map (fun e => e.1.expr) ++ es.map (fun e => e.1.expr)).Nodup →
    addEntries rec P ⟨n, m⟩ (es.map fun e => (e.1.expr, listJson e.2)) = .ok ⟨n, m ++ nonEmpty es⟩ := by
  induction es with
  | nil => intro m _; simp [addEntries, nonEmpty]
  | cons e es ih =>
    obtain ⟨p, l⟩ := e
    intro m h
    have hf := fresh_step m p l es h
    simp only [List.map_cons, addEntries]
    rw [show Path.new P.uc p.expr = .ok p from hp (p, l) List.mem_cons_self]
    show (addRuleList rec ⟨n, m⟩ p (listJson l)).bind _ = _
    rw [addRuleList_spec rec n m p l hf.1 (hr (p, l) List.mem_cons_self)]
    show addEntries rec P ⟨n, _⟩ _ = _
    rw [ih (fun x hx => hp x (List.mem_cons_of_mem _ hx)) (fun x hx => hr x (List.mem_cons_of_mem _ hx)) _ hf.2,
      nonEmpty_cons, List.append_assoc]

/-- The paths of header and query rules. -/
def NameOk (p : DocPath) : Prop := ∃ k, p = Path.pushField Path.rootPath k

theorem firstField_name (k : Str) : Path.firstField (Path.pushField Path.rootPath k) = some k := rfl

theorem addNames_spec (rec : Json → Res MatchingRule) (n : Category) (hn : n = .query ∨ n = .header)
    (es : List (DocPath × RuleList))
    (hp : ∀ e ∈ es, NameOk e.1) (hr : ∀ e ∈ es, ∀ r ∈ e.2.rules, rec (ruleJson r) = .ok (kept r)) :
    ∀ m : List (DocPath × RuleList), (m.map (fun e => e.1.expr) ++ es.map (fun e => e.1.expr)).Nodup →
    addNames rec ⟨n, m⟩ (es.map fun e => (keyText n e.1, listJson e.2)) = .ok ⟨n, m ++ nonEmpty es⟩ := by
  induction es with
  | nil => intro m _; simp [addNames, nonEmpty]
  | cons e es ih =>
    obtain ⟨p, l⟩ := e
    intro m h
    have hf := fresh_step m p l es h
    obtain ⟨k, hk⟩ := hp (p, l) List.mem_cons_self
    have hkey : keyText n p = k := by
      simp only at hk
      subst hk
      rcases hn with rfl | rfl <;> rfl
    simp only [List.map_cons, addNames]
    rw [hkey, ← hk, addRuleList_spec rec n m p l hf.1 (hr (p, l) List.mem_cons_self)]
    show addNames rec ⟨n, _⟩ _ = _
    rw [ih (fun x hx => hp x (List.mem_cons_of_mem _ hx)) (fun x hx => hr x (List.mem_cons_of_mem _ hx)) _ hf.2,
      nonEmpty_cons, List.append_assoc]

/-! ### Reading a category -/

theorem keptCat_eq (n : Category) (m : List (DocPath × RuleList)) :
    keptCat ⟨n, m⟩ = ⟨n, nonEmpty (inKeyOrder m)⟩ := by
  rw [keptCat, keptEs_eq]
  unfold inKeyOrder nonEmpty
  rw [orderBy_map (fun e : DocPath × RuleList => e.1.expr) (fun e : DocPath × RuleList => e.1.expr)
    (fun e => (e.1, keptL e.2)) (fun _ => rfl)]

theorem catJson_eq (n : Category) (m : List (DocPath × RuleList)) :
    catJson ⟨n, m⟩ = .obj ((orderBy (fun e => keyText n e.1) m).map fun e => (keyText n e.1, listJson e.2)) := by
  rw [catJson, entriesJson_eq, collect_key]

theorem get_none_of_keys (k : String) (es : List (DocPath × RuleList)) (key : DocPath → Str)
    (h : ∀ e ∈ es, key e.1 ≠ k.toList) :
    RuleJson.get k (es.map fun e => (key e.1, listJson e.2)) = none := by
  unfold RuleJson.get
  induction es with
  | nil => rfl
  | cons e es ih =>
    simp only [List.map_cons, Json.lookup]
    rw [if_neg (h e List.mem_cons_self)]
    exact ih (fun x hx => h x (List.mem_cons_of_mem _ hx))

/-- The body table of a variant survives the cycle. -/
theorem addRulesFromJson_spec (rec : Json → Res MatchingRule) (P : Params) (m : List (DocPath × RuleList))
    (hk : KeysNodup m) (hp : ∀ e ∈ m, PathOk P.uc e.1 ∧ e.1.expr ≠ "matchers".toList)
    (hr : ∀ e ∈ m, ∀ r ∈ e.2.rules, rec (ruleJson r) = .ok (kept r)) :
    addRulesFromJson rec P (emptyCat .body) (catJson ⟨.body, m⟩) = .ok (keptCat ⟨.body, m⟩) := by
  have hmem := orderBy_mem (fun e : DocPath × RuleList => e.1.expr) m
  rw [catJson_eq, keptCat_eq]
  show addRulesFromJson rec P (emptyCat .body) (.obj ((inKeyOrder m).map fun e => (e.1.expr, listJson e.2))) = _
  unfold addRulesFromJson
  rw [if_neg (fun h => nomatch h.1)]
  show (if (RuleJson.get "matchers" _).isSome then _ else _) = _
  rw [get_none_of_keys "matchers" (inKeyOrder m) (fun p => p.expr) (fun e he => (hp e (hmem e he)).2)]
  show addEntries rec P ⟨.body, []⟩ _ = _
  rw [addEntries_spec rec P .body (inKeyOrder m) (fun e he => (hp e (hmem e he)).1)
    (fun e he => hr e (hmem e he)) [] (inKeyOrder_nodup m hk)]
  rfl

theorem insertGen_fresh (m : List (DocPath × Generator)) (p : DocPath) (g : Generator)
    (h : p.expr ∉ m.map (fun e => e.1.expr)) : insertGen m p g = m ++ [(p, g)] := upsert_fresh m p g _ h

theorem gensFromJson_spec (P : Params) (gs : List (DocPath × Generator))
    (hp : ∀ e ∈ gs, PathOk P.uc e.1 ∧ GenOk e.2) :
    ∀ m : List (DocPath × Generator), (m.map (fun e => e.1.expr) ++ gs.map (fun e => e.1.expr)).Nodup →
    gensFromJson P m (gs.map fun e => (e.1.expr, genToJson e.2)) = .ok (m ++ gs) := by
  induction gs with
  | nil => intro m _; simp [gensFromJson]
  | cons e gs ih =>
    obtain ⟨p, g⟩ := e
    intro m h
    obtain ⟨h1, h2, h3⟩ := List.nodup_append.1 h
    obtain ⟨o, ho, hg⟩ := gen_roundtrip g (hp (p, g) List.mem_cons_self).2
    simp only [List.map_cons]
    rw [ho, gensFromJson, show Path.new P.uc p.expr = .ok p from (hp (p, g) List.mem_cons_self).1]
    show gensFromJson P (match genOfObj o with | some g => insertGen m p g | none => m) _ = _
    rw [hg]
    show gensFromJson P (insertGen m p g) _ = _
    rw [insertGen_fresh m p g (fun h' => h3 _ h' p.expr (by simp) rfl),
      ih (fun x hx => hp x (List.mem_cons_of_mem _ hx)), List.append_assoc]
    · rfl
    · rw [List.map_append, List.append_assoc]
      exact h

theorem gens_roundtrip (P : Params) (gs : List (DocPath × Generator)) (h : GensOk P.uc gs) :
    ∃ o, gensToJson gs = .obj o ∧ gensFromJson P [] o = .ok (inKeyOrder gs) := by
  refine ⟨_, rfl, ?_⟩
  rw [collect_key (fun e : DocPath × Generator => e.1.expr) (fun e => genToJson e.2)]
  have := gensFromJson_spec P (inKeyOrder gs) (fun e he => h.2 e (orderBy_mem _ _ e he)) [] (inKeyOrder_nodup gs h.1)
  rw [List.nil_append] at this
  exact this

theorem inKeyOrder_nil {β : Type} : inKeyOrder ([] : List (DocPath × β)) = [] := rfl

theorem variant_roundtrip (rec : Json → Res MatchingRule) (P : Params) (v : Variant) (h : WritableV P.uc v)
    (hr : ∀ e ∈ v.rules.rules, ∀ r ∈ e.2.rules, rec (ruleJson r) = .ok (kept r)) :
    variantFromJson rec P (variantJson v) = .ok (keptV v) := by
  obtain ⟨i, ⟨n, m⟩, g⟩ := v
  rw [WritableV, WritableCat] at h
  obtain ⟨⟨rfl, hk, hp, _⟩, hg⟩ := h
  have hc := addRulesFromJson_spec rec P m hk hp hr
  rw [keptV, variantJson, obj_eq]
  unfold variantFromJson
  simp only [vget]
  cases g with
  | nil =>
    simp only [List.isEmpty_nil, if_true]
    attr_simp
    rw [hc]
    rfl
  | cons e gs =>
    simp only [List.isEmpty_cons, Bool.false_eq_true, if_false]
    obtain ⟨o, ho, hgo⟩ := gens_roundtrip P (e :: gs) hg
    attr_simp
    rw [hc, ho]
    show (gensFromJson P [] o).map _ = _
    rw [hgo]
    rfl

/-! ### Nesting depth -/

theorem depth_arr {j : Json} {l : List Json} (h : j ∈ l) : Json.depth j < Json.depth (.arr l) := by
  have := Json.depth_mem_list h
  simp only [Json.depth]
  omega

theorem depth_obj {k : Str} {j : Json} {m : Obj} (h : (k, j) ∈ m) : Json.depth j < Json.depth (.obj m) := by
  have h1 : Json.depth j ≤ Json.depthEntries m := Json.depth_mem_entries h
  simp only [Json.depth]
  omega

theorem depth_lookup {k : Str} {j : Json} {m : Obj} (h : Json.lookup k m = some j) :
    Json.depth j < Json.depth (.obj m) := depth_obj (Json.lookup_mem h)

theorem depth_vget {k : String} {v j : Json} (h : vget k v = some j) : Json.depth j < Json.depth v := by
  cases v with
  | obj m => exact depth_lookup h
  | null => exact absurd h (by simp [vget])
  | bool b => exact absurd h (by simp [vget])
  | num n => exact absurd h (by simp [vget])
  | str s => exact absurd h (by simp [vget])
  | arr a => exact absurd h (by simp [vget])

theorem depth_attr {k : String} {j : Json} {es : List (String × Json)} (h : slookup k es.reverse = some j) :
    Json.depth j < Json.depth (obj es) := by
  refine depth_lookup (k := k.toList) (m := attrs es) ?_
  rw [lookup_attrs]
  exact h

theorem depth_list (l : RuleList) (r : MatchingRule) (h : r ∈ l.rules) :
    Json.depth (ruleJson r) < Json.depth (listJson l) := by
  have h1 := depth_vget (matchers_listJson l)
  have h2 : Json.depth (ruleJson r) < Json.depth (.arr (l.rules.map ruleJson)) :=
    depth_arr (List.mem_map.2 ⟨r, h, rfl⟩)
  omega

theorem depth_cat (c : RuleCategory) (hk : (c.rules.map fun e => keyText c.name e.1).Nodup) (e : DocPath × RuleList)
    (he : e ∈ c.rules) : Json.depth (listJson e.2) < Json.depth (catJson c) := by
  obtain ⟨n, m⟩ := c
  rw [catJson_eq]
  have : e ∈ orderBy (fun e : DocPath × RuleList => keyText n e.1) m :=
    (orderBy_perm (fun e : DocPath × RuleList => keyText n e.1) m hk).mem_iff.2 he
  exact depth_obj (k := keyText n e.1) (List.mem_map.2 ⟨e, this, rfl⟩)

theorem depth_variant (v : Variant) : Json.depth (catJson v.rules) < Json.depth (variantJson v) := by
  obtain ⟨i, c, g⟩ := v
  rw [variantJson]
  refine depth_attr (k := "rules") ?_
  cases g with
  | nil => simp only [List.isEmpty_nil, if_true]; attr_simp
  | cons e gs => simp only [List.isEmpty_cons, Bool.false_eq_true, if_false]; attr_simp

theorem eithers_mem (rs : List (MatchingRule ⊕ MatchingReference)) (r : MatchingRule) (h : .inl r ∈ rs) :
    ruleJson r ∈ eithersJson rs := by
  induction rs with
  | nil => cases h
  | cons x xs ih =>
    rw [eithersJson]
    rcases List.mem_cons.1 h with rfl | h
    · rw [eitherJson]; exact List.mem_cons_self
    · exact List.mem_cons_of_mem _ (ih h)

theorem defAttrs_eq (v : Str) (t : ValueType) (rs : List (MatchingRule ⊕ MatchingReference)) (g : Option Generator)
    (x : Str) : defAttrs ⟨v, t, rs, g, x⟩ = [("rules", .arr (eithersJson rs))]
      ++ (if v.isEmpty then [] else [("value", .str v)])
      ++ (match g with | some g => [("generator", genToJson g)] | none => []) := by
  rw [defAttrs.eq_def]
  cases g <;> rfl

theorem depth_def (pre : List (String × Json)) (d : RuleDef) (r : MatchingRule) (h : .inl r ∈ d.rules) :
    Json.depth (ruleJson r) < Json.depth (obj (pre ++ defAttrs d)) := by
  obtain ⟨v, t, rs, g, x⟩ := d
  have h1 : Json.depth (ruleJson r) < Json.depth (.arr (eithersJson rs)) := depth_arr (eithers_mem rs r h)
  have h2 : Json.depth (.arr (eithersJson rs)) < Json.depth (obj (pre ++ defAttrs ⟨v, t, rs, g, x⟩)) := by
    refine depth_attr (k := "rules") ?_
    rw [defAttrs_eq, List.reverse_append]
    cases v <;> cases g <;> simp only [List.isEmpty_nil, List.isEmpty_cons, Bool.false_eq_true, if_true, if_false] <;>
      attr_simp
  omega

/-! ### Each-key and each-value definitions -/

theorem rulesFromJson_spec (rec : Json → Res MatchingRule) (uc : UC) (rs : List (MatchingRule ⊕ MatchingReference))
    (h : WritableEithers uc rs) (hr : ∀ r, .inl r ∈ rs → rec (ruleJson r) = .ok (kept r)) :
    rulesFromJson rec (eithersJson rs) = .ok (keptEithers rs) := by
  induction rs with
  | nil => rfl
  | cons x xs ih =>
    rw [WritableEithers] at h
    cases x with
    | inr _ => exact absurd h.1 (by rw [WritableEither]; exact id)
    | inl r =>
      rw [eithersJson, eitherJson, rulesFromJson, hr r List.mem_cons_self]
      show (rulesFromJson rec (eithersJson xs)).map _ = _
      rw [ih h.2 (fun r h' => hr r (List.mem_cons_of_mem _ h')), keptEithers, keptEither]
      rfl

theorem defFromJson_spec (rec : Json → Res MatchingRule) (uc : UC) (pre : List (String × Json))
    (hpre : ∀ k ∈ ["value", "generator"], slookup k pre.reverse = none) (d : RuleDef) (h : WritableDef uc d)
    (hr : ∀ r, .inl r ∈ d.rules → rec (ruleJson r) = .ok (kept r)) :
    defFromJson rec (attrs (pre ++ defAttrs d)) = .ok (keptDef d) := by
  obtain ⟨v, t, rs, g, x⟩ := d
  rw [WritableDef] at h
  have hrs := rulesFromJson_spec rec uc rs h.1 hr
  have hv := hpre "value" (by simp)
  have hg := hpre "generator" (by simp)
  rw [defAttrs_eq, keptDef]
  unfold defFromJson
  simp only [get_attrs, List.reverse_append]
  cases g with
  | none =>
    cases v with
    | nil =>
      simp only [List.isEmpty_nil, if_true]
      attr_simp
      rw [hv, hg, hrs]
      rfl
    | cons c cs =>
      simp only [List.isEmpty_cons, Bool.false_eq_true, if_false]
      attr_simp
      rw [hg, hrs]
      rfl
  | some g =>
    obtain ⟨o, ho, hgo⟩ := gen_roundtrip g (h.2 g rfl)
    cases v with
    | nil =>
      simp only [List.isEmpty_nil, if_true]
      attr_simp
      rw [hv, hrs, ho]
      show Res.ok (DefOf.mk _ _ _ (genOfObj o) _) = _
      rw [hgo]
    | cons c cs =>
      simp only [List.isEmpty_cons, Bool.false_eq_true, if_false]
      attr_simp
      rw [hrs, ho]
      show Res.ok (DefOf.mk _ _ _ (genOfObj o) _) = _
      rw [hgo]
      rfl

theorem rt_regex : Json.lookup "regex".toList ruleTypes = some .regex := by decide
theorem rt_equality : Json.lookup "equality".toList ruleTypes = some .equality := by decide
theorem rt_include : Json.lookup "include".toList ruleTypes = some .includes := by decide
theorem rt_type : Json.lookup "type".toList ruleTypes = some .type := by decide
theorem rt_number : Json.lookup "number".toList ruleTypes = some .number := by decide
theorem rt_integer : Json.lookup "integer".toList ruleTypes = some .integer := by decide
theorem rt_decimal : Json.lookup "decimal".toList ruleTypes = some .decimal := by decide
theorem rt_boolean : Json.lookup "boolean".toList ruleTypes = some .boolean := by decide
theorem rt_datetime : Json.lookup "datetime".toList ruleTypes = some .timestamp := by decide
theorem rt_date : Json.lookup "date".toList ruleTypes = some .date := by decide
theorem rt_time : Json.lookup "time".toList ruleTypes = some .time := by decide
theorem rt_null : Json.lookup "null".toList ruleTypes = some .null := by decide
theorem rt_contentType : Json.lookup "contentType".toList ruleTypes = some .contentType := by decide
theorem rt_arrayContains : Json.lookup "arrayContains".toList ruleTypes = some .arrayContains := by decide
theorem rt_values : Json.lookup "values".toList ruleTypes = some .values := by decide
theorem rt_statusCode : Json.lookup "statusCode".toList ruleTypes = some .statusCode := by decide
theorem rt_notEmpty : Json.lookup "notEmpty".toList ruleTypes = some .notEmpty := by decide
theorem rt_semver : Json.lookup "semver".toList ruleTypes = some .semver := by decide
theorem rt_eachKey : Json.lookup "eachKey".toList ruleTypes = some .eachKey := by decide
theorem rt_eachValue : Json.lookup "eachValue".toList ruleTypes = some .eachValue := by decide
theorem rt_min_type : Json.lookup "min-type".toList ruleTypes = some .min := by decide
theorem rt_max_type : Json.lookup "max-type".toList ruleTypes = some .max := by decide
theorem rt_content_type : Json.lookup "content-type".toList ruleTypes = some .contentType := by decide
theorem rt_array_contains : Json.lookup "array-contains".toList ruleTypes = some .arrayContains := by decide
theorem rt_status_code : Json.lookup "status-code".toList ruleTypes = some .statusCode := by decide
theorem rt_not_empty : Json.lookup "not-empty".toList ruleTypes = some .notEmpty := by decide
theorem rt_each_key : Json.lookup "each-key".toList ruleTypes = some .eachKey := by decide
theorem rt_each_value : Json.lookup "each-value".toList ruleTypes = some .eachValue := by decide
theorem rt_min_max_type : Json.lookup "min-max-type".toList ruleTypes = none := by decide

theorem step_attrs (rec : Json → Res MatchingRule) (P : Params) (es : List (String × Json)) (t : String)
    (h : slookup "match" es.reverse = some (lit t)) :
    fromJsonStep rec P (obj es) = createObj rec P t.toList (attrs es) := by
  rw [obj_eq]
  unfold fromJsonStep
  simp only [get_attrs, h]
  rfl

theorem codes_roundtrip (P : Params) (cs : List Nat) (h : ∀ c ∈ cs, c < 65536) :
    (cs.map fun c => Json.num (.pos c)).any (fun c => (codeFromJson P c).isNone) = false ∧
    (cs.map fun c => Json.num (.pos c)).filterMap (codeFromJson P) = cs := by
  induction cs with
  | nil => exact ⟨rfl, rfl⟩
  | cons c cs ih =>
    obtain ⟨h1, h2⟩ := ih (fun x hx => h x (List.mem_cons_of_mem _ hx))
    have hc : codeFromJson P (.num (.pos c)) = some c := by
      show some (c % 65536) = some c
      rw [Nat.mod_eq_of_lt (h c List.mem_cons_self)]
    refine ⟨?_, ?_⟩
    · rw [List.map_cons, List.any_cons, h1, hc]; rfl
    · rw [List.map_cons, List.filterMap_cons, hc, h2]

theorem status_roundtrip (P : Params) (s : HttpStatus) (h : ∀ cs, s = .statusCodes cs → ∀ c ∈ cs, c < 65536) :
    statusFromJson P (statusToJson s) = some s := by
  cases s with
  | statusCodes cs =>
    obtain ⟨h1, h2⟩ := codes_roundtrip P cs (h cs rfl)
    unfold statusToJson statusFromJson
    simp only [h1, h2, Bool.false_eq_true, if_false]
  | information => rfl
  | success => rfl
  | redirect => rfl
  | clientError => rfl
  | serverError => rfl
  | nonError => rfl
  | error => rfl

theorem variants_spec (rec : Json → Res MatchingRule) (P : Params) (vs : List Variant) (h : ∀ v ∈ vs, WritableV P.uc v)
    (hr : ∀ v ∈ vs, ∀ e ∈ v.rules.rules, ∀ r ∈ e.2.rules, rec (ruleJson r) = .ok (kept r)) :
    variantsFromJson rec P (vs.map variantJson) = .ok (vs.map keptV) := by
  induction vs with
  | nil => rfl
  | cons v vs ih =>
    rw [List.map_cons, variantsFromJson, variant_roundtrip rec P v (h v List.mem_cons_self) (hr v List.mem_cons_self)]
    show (variantsFromJson rec P (vs.map variantJson)).map _ = _
    rw [ih (fun x hx => h x (List.mem_cons_of_mem _ hx)) (fun x hx => hr x (List.mem_cons_of_mem _ hx))]
    rfl

theorem writable_nested (uc : UC) (v : Variant) (h : WritableV uc v) (e : DocPath × RuleList) (he : e ∈ v.rules.rules)
    (r : MatchingRule) (hr : r ∈ e.2.rules) :
    Writable uc r ∧ Json.depth (ruleJson r) < Json.depth (variantJson v) := by
  have hd := depth_variant v
  obtain ⟨i, ⟨n, m⟩, g⟩ := v
  rw [WritableV, WritableCat, WritableEs_iff] at h
  obtain ⟨⟨rfl, hk, hp, hw⟩, hg⟩ := h
  obtain ⟨p, ⟨rs, l, c⟩⟩ := e
  have h1 := hw _ he
  rw [WritableL, WritableRs_iff] at h1
  refine ⟨h1 r hr, ?_⟩
  have h2 := depth_list ⟨rs, l, c⟩ r hr
  have h3 := depth_cat ⟨.body, m⟩ hk (p, ⟨rs, l, c⟩) he
  dsimp only at h2 h3 hd
  omega

theorem writable_either (uc : UC) (rs : List (MatchingRule ⊕ MatchingReference)) (h : WritableEithers uc rs)
    (r : MatchingRule) (hr : .inl r ∈ rs) : Writable uc r := by
  induction rs with
  | nil => cases hr
  | cons x xs ih =>
    rw [WritableEithers] at h
    rcases List.mem_cons.1 hr with rfl | h'
    · have := h.1; rw [WritableEither] at this; exact this
    · exact ih h.2 h'

theorem writable_def (uc : UC) (d : RuleDef) (h : WritableDef uc d) (r : MatchingRule) (hr : .inl r ∈ d.rules) :
    Writable uc r := by
  obtain ⟨v, t, rs, g, x⟩ := d
  rw [WritableDef] at h
  exact writable_either uc rs h.1 r hr

/-- One level of the cycle. -/
theorem rule_step (rec : Json → Res MatchingRule) (P : Params) (r : MatchingRule) (h : Writable P.uc r)
    (hr : ∀ r', Json.depth (ruleJson r') < Json.depth (ruleJson r) → Writable P.uc r' →
      rec (ruleJson r') = .ok (kept r')) :
    fromJsonStep rec P (ruleJson r) = .ok (kept r) := by
  cases r with
  | equality => rw [ruleJson, step_attrs _ _ _ "equality" rfl, createObj, rt_equality]; rfl
  | regex s =>
    rw [ruleJson, step_attrs _ _ _ "regex" rfl, createObj, rt_regex]
    attr_simp
    rfl
  | type =>
    rw [ruleJson, step_attrs _ _ _ "type" rfl, createObj, rt_type]
    attr_simp
    rfl
  | minType n =>
    rw [ruleJson, step_attrs _ _ _ "type" rfl, createObj, rt_type]
    attr_simp
    rfl
  | maxType n =>
    rw [ruleJson, step_attrs _ _ _ "type" rfl, createObj, rt_type]
    attr_simp
    rfl
  | minMaxType n m =>
    rw [ruleJson, step_attrs _ _ _ "type" rfl, createObj, rt_type]
    attr_simp
    rfl
  | timestamp f =>
    rw [ruleJson, step_attrs _ _ _ "datetime" rfl, createObj, rt_datetime]
    unfold formatOf
    attr_simp
    rfl
  | time f =>
    rw [ruleJson, step_attrs _ _ _ "time" rfl, createObj, rt_time]
    unfold formatOf
    attr_simp
    rfl
  | date f =>
    rw [ruleJson, step_attrs _ _ _ "date" rfl, createObj, rt_date]
    unfold formatOf
    attr_simp
    rfl
  | includes v =>
    rw [ruleJson, step_attrs _ _ _ "include" rfl, createObj, rt_include]
    attr_simp
    rfl
  | number => rw [ruleJson, step_attrs _ _ _ "number" rfl, createObj, rt_number]; rfl
  | integer => rw [ruleJson, step_attrs _ _ _ "integer" rfl, createObj, rt_integer]; rfl
  | decimal => rw [ruleJson, step_attrs _ _ _ "decimal" rfl, createObj, rt_decimal]; rfl
  | boolean => rw [ruleJson, step_attrs _ _ _ "boolean" rfl, createObj, rt_boolean]; rfl
  | null => rw [ruleJson, step_attrs _ _ _ "null" rfl, createObj, rt_null]; rfl
  | contentType v =>
    rw [ruleJson, step_attrs _ _ _ "contentType" rfl, createObj, rt_contentType]
    attr_simp
    rfl
  | values => rw [ruleJson, step_attrs _ _ _ "values" rfl, createObj, rt_values]; rfl
  | notEmpty => rw [ruleJson, step_attrs _ _ _ "notEmpty" rfl, createObj, rt_notEmpty]; rfl
  | semver => rw [ruleJson, step_attrs _ _ _ "semver" rfl, createObj, rt_semver]; rfl
  | statusCode s =>
    have hs := status_roundtrip P s (fun cs hcs => by subst hcs; rw [Writable] at h; exact h)
    rw [ruleJson, step_attrs _ _ _ "statusCode" rfl, createObj, rt_statusCode]
    attr_simp
    rw [hs]
    rfl
  | arrayContains vs =>
    rw [Writable, WritableVs_iff] at h
    have hv := variants_spec rec P vs h (fun v hv e he r hre => by
      obtain ⟨h1, h2⟩ := writable_nested P.uc v (h v hv) e he r hre
      refine hr r ?_ h1
      rw [ruleJson, variantsJson_eq]
      have h3 : Json.depth (variantJson v) < Json.depth (.arr (vs.map variantJson)) :=
        depth_arr (List.mem_map.2 ⟨v, hv, rfl⟩)
      have h4 := depth_attr (k := "variants") (j := .arr (vs.map variantJson))
        (es := [("match", lit "arrayContains"), ("variants", .arr (vs.map variantJson))]) (by attr_simp)
      omega)
    rw [ruleJson, variantsJson_eq, step_attrs _ _ _ "arrayContains" rfl, createObj, rt_arrayContains, kept, keptVs_eq]
    attr_simp
    rw [hv]
    rfl
  | eachKey d =>
    rw [Writable] at h
    have hd := defFromJson_spec rec P.uc [("match", lit "eachKey")] (by decide) d h (fun r hin =>
      hr r (by rw [ruleJson]; exact depth_def [("match", lit "eachKey")] d r hin) (writable_def P.uc d h r hin))
    have hm : slookup "match" (("match", lit "eachKey") :: defAttrs d).reverse = some (lit "eachKey") := by
      obtain ⟨v, t, rs, g, x⟩ := d
      rw [defAttrs_eq]
      cases v <;> cases g <;> rfl
    rw [ruleJson, step_attrs _ _ _ "eachKey" hm, createObj, rt_eachKey]
    show (defFromJson rec (attrs ([("match", lit "eachKey")] ++ defAttrs d))).map _ = _
    rw [hd]
    rfl
  | eachValue d =>
    rw [Writable] at h
    have hd := defFromJson_spec rec P.uc [("match", lit "eachValue")] (by decide) d h (fun r hin =>
      hr r (by rw [ruleJson]; exact depth_def [("match", lit "eachValue")] d r hin) (writable_def P.uc d h r hin))
    have hm : slookup "match" (("match", lit "eachValue") :: defAttrs d).reverse = some (lit "eachValue") := by
      obtain ⟨v, t, rs, g, x⟩ := d
      rw [defAttrs_eq]
      cases v <;> cases g <;> rfl
    rw [ruleJson, step_attrs _ _ _ "eachValue" hm, createObj, rt_eachValue]
    show (defFromJson rec (attrs ([("match", lit "eachValue")] ++ defAttrs d))).map _ = _
    rw [hd]
    rfl

theorem rule_fuel (P : Params) : ∀ (n : Nat) (r : MatchingRule), Json.depth (ruleJson r) < n → Writable P.uc r →
    fromJsonF P n (ruleJson r) = .ok (kept r) := by
  intro n
  induction n with
  | zero => intro r h; omega
  | succ n ih =>
    intro r h hw
    rw [fromJsonF]
    exact rule_step _ P r hw (fun r' h' hw' => ih r' (by omega) hw')

/-! ### Equality of the rule read and the rule written -/

theorem lookup_of_mem {β : Type} (m : List (DocPath × β)) (h : KeysNodup m) (p : DocPath) (v : β) (hm : (p, v) ∈ m) :
    Rules.lookup m p = some v := by
  unfold Rules.lookup
  induction m with
  | nil => cases hm
  | cons e es ih =>
    have hn := List.nodup_cons.1 h
    rcases List.mem_cons.1 hm with rfl | h'
    · simp [keyIs, Path.eqPath]
    · have hne : keyIs p e = false := by
        unfold keyIs Path.eqPath
        exact decide_eq_false (fun h2 => hn.1 (by show e.1.expr ∈ _; rw [h2]; exact List.mem_map.2 ⟨(p, v), h', rfl⟩))
      rw [List.find?_cons, hne]
      exact ih hn.2 h'

theorem inKeyOrder_mem {β : Type} (m : List (DocPath × β)) (h : KeysNodup m) (e : DocPath × β) :
    e ∈ inKeyOrder m ↔ e ∈ m := (orderBy_perm (fun e : DocPath × β => e.1.expr) m h).mem_iff

theorem inKeyOrder_length {β : Type} (m : List (DocPath × β)) (h : KeysNodup m) :
    (inKeyOrder m).length = m.length := (orderBy_perm (fun e : DocPath × β => e.1.expr) m h).length_eq

theorem mapEq_inKeyOrder (g : List (DocPath × Generator)) (h : KeysNodup g) :
    mapEq (fun a b => decide (a = b)) g (inKeyOrder g) = true := by
  unfold mapEq
  rw [inKeyOrder_length g h]
  simp only [decide_true, Bool.true_and, List.all_eq_true]
  intro e he
  rw [lookup_of_mem (inKeyOrder g) (inKeyOrder_nodup g h) e.1 e.2 ((inKeyOrder_mem g h e).2 he)]
  simp

theorem CompleteEs_iff (m : List (DocPath × RuleList)) : CompleteEs m ↔ ∀ e ∈ m, CompleteL e.2 := by
  induction m with
  | nil => simp [CompleteEs]
  | cons e es ih => obtain ⟨p, l⟩ := e; rw [CompleteEs, ih, CompleteE]; simp

theorem nonEmpty_all (m : List (DocPath × RuleList)) (h : ∀ e ∈ m, CompleteL e.2) :
    nonEmpty m = m.map fun e => (e.1, keptL e.2) := by
  unfold nonEmpty
  refine List.filter_eq_self.2 ?_
  intro e he
  obtain ⟨x, hx, rfl⟩ := List.mem_map.1 he
  have h1 := h x hx
  obtain ⟨p, ⟨rs, l, c⟩⟩ := x
  rw [CompleteL] at h1
  rw [keptL_eq]
  cases rs with
  | nil => exact absurd rfl h1.1
  | cons r rs => rfl

theorem perm_lookup (m m' : List (DocPath × RuleList)) (hperm : m'.Perm m) (hk : KeysNodup m)
    (h : ∀ e ∈ m, CompleteL e.2) :
    (nonEmpty m').length = m.length ∧ ∀ e ∈ m, Rules.lookup (nonEmpty m') e.1 = some (keptL e.2) := by
  rw [nonEmpty_all m' (fun e he => h e (hperm.mem_iff.1 he))]
  refine ⟨by rw [List.length_map, hperm.length_eq], fun e he => ?_⟩
  refine lookup_of_mem _ ?_ _ _ (List.mem_map.2 ⟨e, hperm.mem_iff.2 he, rfl⟩)
  have : KeysNodup m' := (hperm.map (fun e : DocPath × RuleList => e.1.expr)).nodup_iff.2 hk
  unfold KeysNodup at this ⊢
  rw [List.map_map]
  exact this

theorem keptCat_lookup (m : List (DocPath × RuleList)) (hk : KeysNodup m) (h : ∀ e ∈ m, CompleteL e.2) :
    (keptCat ⟨.body, m⟩).rules.length = m.length ∧
    ∀ e ∈ m, Rules.lookup (keptCat ⟨.body, m⟩).rules e.1 = some (keptL e.2) := by
  rw [keptCat_eq]
  exact perm_lookup m _ (orderBy_perm (fun e : DocPath × RuleList => e.1.expr) m hk) hk h

mutual
theorem rule_eq (uc : UC) : ∀ r : MatchingRule, Writable uc r → Complete r → ruleEq r (kept r) = true
  | .arrayContains vs, hw, hc => by
      rw [Writable] at hw
      rw [Complete] at hc
      rw [kept, ruleEq]
      exact variants_eq uc vs hw hc
  | .eachKey d, hw, hc => by
      rw [Writable] at hw
      rw [Complete] at hc
      rw [kept, ruleEq]
      exact def_eq uc d hw hc
  | .eachValue d, hw, hc => by
      rw [Writable] at hw
      rw [Complete] at hc
      rw [kept, ruleEq]
      exact def_eq uc d hw hc
  | .equality, _, _ => rfl
  | .regex _, _, _ => by simp [kept, ruleEq]
  | .type, _, _ => rfl
  | .minType _, _, _ => by simp [kept, ruleEq]
  | .maxType _, _, _ => by simp [kept, ruleEq]
  | .minMaxType _ _, _, _ => by simp [kept, ruleEq]
  | .timestamp _, _, _ => by simp [kept, ruleEq]
  | .time _, _, _ => by simp [kept, ruleEq]
  | .date _, _, _ => by simp [kept, ruleEq]
  | .includes _, _, _ => by simp [kept, ruleEq]
  | .number, _, _ => rfl
  | .integer, _, _ => rfl
  | .decimal, _, _ => rfl
  | .null, _, _ => rfl
  | .contentType _, _, _ => by simp [kept, ruleEq]
  | .values, _, _ => rfl
  | .boolean, _, _ => rfl
  | .statusCode _, _, _ => by simp [kept, ruleEq]
  | .notEmpty, _, _ => rfl
  | .semver, _, _ => rfl
termination_by structural x => x
theorem variants_eq (uc : UC) : ∀ vs : List Variant, WritableVs uc vs → CompleteVs vs →
    variantsEq vs (keptVs vs) = true
  | [], _, _ => rfl
  | v :: vs, hw, hc => by
      rw [WritableVs] at hw
      rw [CompleteVs] at hc
      rw [keptVs, variantsEq, variant_eq uc v hw.1 hc.1, variants_eq uc vs hw.2 hc.2]
      rfl
termination_by structural x => x
theorem variant_eq (uc : UC) : ∀ v : Variant, WritableV uc v → CompleteV v → variantEq v (keptV v) = true
  | ⟨i, c, g⟩, hw, hc => by
      rw [WritableV] at hw
      rw [CompleteV] at hc
      rw [keptV, variantEq, cat_eq uc c hw.1 hc, mapEq_inKeyOrder g hw.2.1]
      simp
termination_by structural x => x
theorem cat_eq (uc : UC) : ∀ c : RuleCategory, WritableCat uc c → CompleteCat c → catEq c (keptCat c) = true
  | ⟨n, m⟩, hw, hc => by
      rw [WritableCat] at hw
      obtain ⟨rfl, hk, _, hw⟩ := hw
      rw [CompleteCat] at hc
      obtain ⟨h1, h2⟩ := keptCat_lookup m hk ((CompleteEs_iff m).1 hc)
      rw [catEq, h1, entries_eq uc m hw hc _ h2]
      simp [keptCat_eq]
termination_by structural x => x
theorem entries_eq (uc : UC) : ∀ m : List (DocPath × RuleList), WritableEs uc m → CompleteEs m →
    ∀ n : List (DocPath × RuleList), (∀ e ∈ m, Rules.lookup n e.1 = some (keptL e.2)) → entriesEq m n = true
  | [], _, _, _, _ => rfl
  | e :: es, hw, hc, n, hn => by
      rw [WritableEs] at hw
      rw [CompleteEs] at hc
      rw [entriesEq, entry_eq uc e hw.1 hc.1 n (hn e List.mem_cons_self),
        entries_eq uc es hw.2 hc.2 n (fun x hx => hn x (List.mem_cons_of_mem _ hx))]
      rfl
termination_by structural x => x
theorem entry_eq (uc : UC) : ∀ e : DocPath × RuleList, WritableE uc e → CompleteE e →
    ∀ n : List (DocPath × RuleList), Rules.lookup n e.1 = some (keptL e.2) → entryEq e n = true
  | (p, l), hw, hc, n, hn => by
      rw [WritableE] at hw
      rw [CompleteE] at hc
      rw [entryEq, hn]
      exact list_eq uc l hw hc
termination_by structural x => x
theorem list_eq (uc : UC) : ∀ l : RuleList, WritableL uc l → CompleteL l → listEq l (keptL l) = true
  | ⟨rs, l, c⟩, hw, hc => by
      rw [WritableL] at hw
      rw [CompleteL] at hc
      rw [keptL, listEq, rules_eq uc rs hw hc.2]
      simp
termination_by structural x => x
theorem rules_eq (uc : UC) : ∀ rs : List MatchingRule, WritableRs uc rs → CompleteRs rs →
    rulesEq rs (keptRs rs) = true
  | [], _, _ => rfl
  | r :: rs, hw, hc => by
      rw [WritableRs] at hw
      rw [CompleteRs] at hc
      rw [keptRs, rulesEq, rule_eq uc r hw.1 hc.1, rules_eq uc rs hw.2 hc.2]
      rfl
termination_by structural x => x
theorem def_eq (uc : UC) : ∀ d : RuleDef, WritableDef uc d → CompleteDef d → defEq d (keptDef d) = true
  | ⟨v, t, rs, g, x⟩, hw, hc => by
      rw [WritableDef] at hw
      rw [CompleteDef] at hc
      obtain ⟨rfl, rfl, hc⟩ := hc
      rw [keptDef, defEq, eithers_eq uc rs hw.1 hc]
      simp
termination_by structural x => x
theorem eithers_eq (uc : UC) : ∀ rs : List (MatchingRule ⊕ MatchingReference), WritableEithers uc rs →
    CompleteEithers rs → eithersEq rs (keptEithers rs) = true
  | [], _, _ => rfl
  | r :: rs, hw, hc => by
      rw [WritableEithers] at hw
      rw [CompleteEithers] at hc
      rw [keptEithers, eithersEq, either_eq uc r hw.1 hc.1, eithers_eq uc rs hw.2 hc.2]
      rfl
termination_by structural x => x
theorem either_eq (uc : UC) : ∀ r : MatchingRule ⊕ MatchingReference, WritableEither uc r → CompleteEither r →
    eitherEq r (keptEither r) = true
  | .inl r, hw, hc => by
      rw [WritableEither] at hw
      rw [CompleteEither] at hc
      rw [keptEither, eitherEq]
      exact rule_eq uc r hw hc
  | .inr _, hw, _ => by
      rw [WritableEither] at hw
      exact hw.elim
termination_by structural x => x
end

/-! ### References -/

mutual
theorem no_refs (uc : UC) : ∀ r : MatchingRule, Writable uc r → ruleRefs r = false
  | .arrayContains vs, hw => by
      rw [Writable] at hw
      rw [ruleRefs]
      exact no_refs_vs uc vs hw
  | .eachKey d, hw => by
      rw [Writable] at hw
      rw [ruleRefs]
      exact no_refs_def uc d hw
  | .eachValue d, hw => by
      rw [Writable] at hw
      rw [ruleRefs]
      exact no_refs_def uc d hw
  | .equality, _ => rfl
  | .regex _, _ => rfl
  | .type, _ => rfl
  | .minType _, _ => rfl
  | .maxType _, _ => rfl
  | .minMaxType _ _, _ => rfl
  | .timestamp _, _ => rfl
  | .time _, _ => rfl
  | .date _, _ => rfl
  | .includes _, _ => rfl
  | .number, _ => rfl
  | .integer, _ => rfl
  | .decimal, _ => rfl
  | .null, _ => rfl
  | .contentType _, _ => rfl
  | .values, _ => rfl
  | .boolean, _ => rfl
  | .statusCode _, _ => rfl
  | .notEmpty, _ => rfl
  | .semver, _ => rfl
termination_by structural x => x
theorem no_refs_vs (uc : UC) : ∀ vs : List Variant, WritableVs uc vs → variantsRefs vs = false
  | [], _ => rfl
  | v :: vs, hw => by
      rw [WritableVs] at hw
      rw [variantsRefs, no_refs_v uc v hw.1, no_refs_vs uc vs hw.2]
      rfl
termination_by structural x => x
theorem no_refs_v (uc : UC) : ∀ v : Variant, WritableV uc v → variantRefs v = false
  | ⟨i, c, g⟩, hw => by
      rw [WritableV] at hw
      rw [variantRefs, no_refs_cat uc c hw.1]
termination_by structural x => x
theorem no_refs_cat (uc : UC) : ∀ c : RuleCategory, WritableCat uc c → catRefs c = false
  | ⟨n, m⟩, hw => by
      rw [WritableCat] at hw
      rw [catRefs]
      exact no_refs_es uc m hw.2.2.2
termination_by structural x => x
theorem no_refs_es (uc : UC) : ∀ m : List (DocPath × RuleList), WritableEs uc m → entriesRefs m = false
  | [], _ => rfl
  | e :: es, hw => by
      rw [WritableEs] at hw
      rw [entriesRefs, no_refs_e uc e hw.1, no_refs_es uc es hw.2]
      rfl
termination_by structural x => x
theorem no_refs_e (uc : UC) : ∀ e : DocPath × RuleList, WritableE uc e → entryRefs e = false
  | (p, l), hw => by
      rw [WritableE] at hw
      rw [entryRefs]
      exact no_refs_l uc l hw
termination_by structural x => x
theorem no_refs_l (uc : UC) : ∀ l : RuleList, WritableL uc l → listRefs l = false
  | ⟨rs, l, c⟩, hw => by
      rw [WritableL] at hw
      rw [listRefs]
      exact no_refs_rs uc rs hw
termination_by structural x => x
theorem no_refs_rs (uc : UC) : ∀ rs : List MatchingRule, WritableRs uc rs → rulesRefs rs = false
  | [], _ => rfl
  | r :: rs, hw => by
      rw [WritableRs] at hw
      rw [rulesRefs, no_refs uc r hw.1, no_refs_rs uc rs hw.2]
      rfl
termination_by structural x => x
theorem no_refs_def (uc : UC) : ∀ d : RuleDef, WritableDef uc d → defRefs d = false
  | ⟨v, t, rs, g, x⟩, hw => by
      rw [WritableDef] at hw
      rw [defRefs]
      exact no_refs_eithers uc rs hw.1
termination_by structural x => x
theorem no_refs_eithers (uc : UC) : ∀ rs : List (MatchingRule ⊕ MatchingReference), WritableEithers uc rs →
    eithersRefs rs = false
  | [], _ => rfl
  | r :: rs, hw => by
      rw [WritableEithers] at hw
      rw [eithersRefs, no_refs_either uc r hw.1, no_refs_eithers uc rs hw.2]
      rfl
termination_by structural x => x
theorem no_refs_either (uc : UC) : ∀ r : MatchingRule ⊕ MatchingReference, WritableEither uc r → eitherRefs r = false
  | .inl r, hw => by
      rw [WritableEither] at hw
      rw [eitherRefs]
      exact no_refs uc r hw
  | .inr _, hw => by
      rw [WritableEither] at hw
      exact hw.elim
termination_by structural x => x
end

/-! ### C34 for single rules -/

/-- A written rule is read back as itself, up to what `kept` says is not written. -/
theorem C34_rule_kept (P : Params) (r : MatchingRule) (h : Writable P.uc r) :
    (toJson r).bind (fromJson P) = .ok (kept r) := by
  unfold toJson
  rw [no_refs P.uc r h]
  show fromJson P (ruleJson r) = _
  exact rule_fuel P _ r (by omega) h

/-- Every rule of which nothing is lost by writing is read back as an equal rule (the equality of the library, which
compares hash maps as maps). -/
theorem C34_rule_partial (P : Params) (r : MatchingRule) (h : Writable P.uc r) (hc : Complete r) :
    ∃ r', (toJson r).bind (fromJson P) = .ok r' ∧ ruleEq r r' = true :=
  ⟨kept r, C34_rule_kept P r h, rule_eq P.uc r h hc⟩

/-- Rules without nested rules are read back unchanged. -/
theorem C34_flat_rule (P : Params) (r : MatchingRule) (h : ∀ cs, r = .statusCode (.statusCodes cs) → ∀ c ∈ cs, c < 65536)
    (h1 : ∀ vs, r ≠ .arrayContains vs) (h2 : ∀ d, r ≠ .eachKey d ∧ r ≠ .eachValue d) :
    (toJson r).bind (fromJson P) = .ok r := by
  have hw : Writable P.uc r := by
    cases r with
    | statusCode s => cases s with
      | statusCodes cs => rw [Writable]; exact h cs rfl
      | _ => trivial
    | arrayContains vs => exact absurd rfl (h1 vs)
    | eachKey d => exact absurd rfl (h2 d).1
    | eachValue d => exact absurd rfl (h2 d).2
    | _ => trivial
  have hk : kept r = r := by
    cases r with
    | arrayContains vs => exact absurd rfl (h1 vs)
    | eachKey d => exact absurd rfl (h2 d).1
    | eachValue d => exact absurd rfl (h2 d).2
    | _ => rfl
  rw [C34_rule_kept P r hw, hk]

/-! ### The bound on the recursion does not matter -/

/-- Two readers agree on the values below a depth. -/
def Agree (d : Nat) (f g : Json → Res MatchingRule) : Prop := ∀ j, Json.depth j < d → f j = g j

theorem addMatchers_congr (f g : Json → Res MatchingRule) (p : DocPath) (l : RuleLogic) (a : List Json)
    (h : ∀ j ∈ a, f j = g j) : ∀ c, addMatchers f p l c a = addMatchers g p l c a := by
  induction a with
  | nil => intro c; rfl
  | cons j js ih =>
    intro c
    rw [addMatchers, addMatchers, h j List.mem_cons_self]
    congr 1
    funext r
    exact ih (fun x hx => h x (List.mem_cons_of_mem _ hx)) _

theorem addRuleList_congr (d : Nat) (f g : Json → Res MatchingRule) (hd : Agree d f g) (c : RuleCategory) (p : DocPath)
    (v : Json) (hv : Json.depth v ≤ d) : addRuleList f c p v = addRuleList g c p v := by
  unfold addRuleList
  cases h : vget "matchers" v with
  | none => rfl
  | some x =>
    cases x with
    | arr a =>
      refine addMatchers_congr f g _ _ _ (fun j hj => hd j ?_) _
      have h1 := depth_vget h
      have h2 := depth_arr hj
      omega
    | _ => rfl

theorem addEntries_congr (d : Nat) (f g : Json → Res MatchingRule) (hd : Agree d f g) (P : Params) (m : Obj)
    (hm : ∀ e ∈ m, Json.depth e.2 ≤ d) : ∀ c, addEntries f P c m = addEntries g P c m := by
  induction m with
  | nil => intro c; rfl
  | cons e es ih =>
    obtain ⟨k, v⟩ := e
    intro c
    rw [addEntries, addEntries]
    congr 1
    funext p
    rw [addRuleList_congr d f g hd c p v (hm _ List.mem_cons_self)]
    congr 1
    funext c
    exact ih (fun x hx => hm x (List.mem_cons_of_mem _ hx)) c

theorem addRulesFromJson_congr (d : Nat) (f g : Json → Res MatchingRule) (hd : Agree d f g) (P : Params)
    (c : RuleCategory) (v : Json) (hv : Json.depth v ≤ d) : addRulesFromJson f P c v = addRulesFromJson g P c v := by
  unfold addRulesFromJson
  rw [addRuleList_congr d f g hd c Path.empty v hv]
  cases v with
  | obj m =>
    simp only
    rw [addEntries_congr d f g hd P m (fun e he => by
      have := depth_obj (k := e.1) (j := e.2) he
      omega)]
  | _ => rfl

theorem variantFromJson_congr (d : Nat) (f g : Json → Res MatchingRule) (hd : Agree d f g) (P : Params) (v : Json)
    (hv : Json.depth v ≤ d) : variantFromJson f P v = variantFromJson g P v := by
  unfold variantFromJson
  cases h : vget "rules" v with
  | none => rfl
  | some x =>
    have := depth_vget h
    simp only
    rw [addRulesFromJson_congr d f g hd P _ x (by omega)]

theorem variantsFromJson_congr (d : Nat) (f g : Json → Res MatchingRule) (hd : Agree d f g) (P : Params)
    (vs : List Json) (hv : ∀ v ∈ vs, Json.depth v ≤ d) : variantsFromJson f P vs = variantsFromJson g P vs := by
  induction vs with
  | nil => rfl
  | cons v vs ih =>
    rw [variantsFromJson, variantsFromJson, variantFromJson_congr d f g hd P v (hv v List.mem_cons_self),
      ih (fun x hx => hv x (List.mem_cons_of_mem _ hx))]

theorem rulesFromJson_congr (f g : Json → Res MatchingRule) (a : List Json) (h : ∀ j ∈ a, f j = g j) :
    rulesFromJson f a = rulesFromJson g a := by
  induction a with
  | nil => rfl
  | cons j js ih =>
    rw [rulesFromJson, rulesFromJson, h j List.mem_cons_self, ih (fun x hx => h x (List.mem_cons_of_mem _ hx))]

theorem defFromJson_congr (d : Nat) (f g : Json → Res MatchingRule) (hd : Agree d f g) (m : Obj)
    (hm : Json.depth (.obj m) ≤ d) : defFromJson f m = defFromJson g m := by
  unfold defFromJson
  cases h : RuleJson.get "rules" m with
  | none => rfl
  | some x =>
    cases x with
    | arr a =>
      simp only
      rw [rulesFromJson_congr f g a (fun j hj => hd j (by
        have h1 := depth_lookup h
        have h2 := depth_arr hj
        omega))]
    | _ => rfl

theorem createObj_congr (d : Nat) (f g : Json → Res MatchingRule) (hd : Agree d f g) (P : Params) (ty : Str) (m : Obj)
    (hm : Json.depth (.obj m) ≤ d) : createObj f P ty m = createObj g P ty m := by
  unfold createObj
  rw [defFromJson_congr d f g hd m hm]
  cases h : RuleJson.get "variants" m with
  | none => rfl
  | some x =>
    cases x with
    | arr a =>
      simp only
      rw [variantsFromJson_congr d f g hd P a (fun j hj => by
        have h1 := depth_lookup h
        have h2 := depth_arr hj
        omega)]
    | _ => rfl

theorem fromJsonStep_congr (f g : Json → Res MatchingRule) (P : Params) (j : Json) (hd : Agree (Json.depth j) f g) :
    fromJsonStep f P j = fromJsonStep g P j := by
  cases j with
  | obj m =>
    unfold fromJsonStep
    simp only
    cases h : (RuleJson.get "match" m).or (RuleJson.get "pact:matcher:type" m) with
    | none => rfl
    | some t => exact createObj_congr _ f g hd P _ m (Nat.le_refl _)
  | _ => rfl

/-- Any bound above the nesting depth gives the same result. -/
theorem fromJsonF_stable (P : Params) : ∀ (n m : Nat) (j : Json), Json.depth j < n → Json.depth j < m →
    fromJsonF P n j = fromJsonF P m j := by
  intro n
  induction n with
  | zero => intro m j h; omega
  | succ n ih =>
    intro m j h1 h2
    cases m with
    | zero => omega
    | succ m =>
      rw [fromJsonF, fromJsonF]
      exact fromJsonStep_congr _ _ P j (fun x hx => ih m x (by omega) (by omega))

/-- `from_json` is the fixed point of its own step: the bound is not visible. -/
theorem fromJson_fix (P : Params) (j : Json) : fromJson P j = fromJsonStep (fromJson P) P j := by
  show fromJsonF P (Json.depth j + 1) j = _
  rw [fromJsonF]
  exact fromJsonStep_congr _ _ P j (fun x hx => fromJsonF_stable P _ _ x hx (by omega))

/-! ### Rule tables -/

/-- The tables of rules of an interaction for which the cycle is claimed: keys are different; header and query rules
have names below the root as keys; path rules have the empty path; all other keys are parsed from their texts; and no
key is the text "matchers". -/
def TableOk (uc : UC) (c : RuleCategory) : Prop :=
  KeysNodup c.rules ∧ WritableEs uc c.rules ∧
  match c.name with
  | .path => ∀ e ∈ c.rules, e.1 = Path.empty
  | .header => ∀ e ∈ c.rules, ∃ k, e.1 = Path.pushField Path.rootPath k ∧ k ≠ "matchers".toList
  | .query => ∀ e ∈ c.rules, ∃ k, e.1 = Path.pushField Path.rootPath k ∧ k ≠ "matchers".toList
  | _ => ∀ e ∈ c.rules, PathOk uc e.1 ∧ e.1.expr ≠ "matchers".toList

/-- What is kept of a table. -/
def keptTable (c : RuleCategory) : RuleCategory :=
  ⟨c.name, nonEmpty (orderBy (fun e => keyText c.name e.1) c.rules)⟩

/-- The JSON form of a category in the table of an interaction. -/
def tableJson (c : RuleCategory) : Json :=
  match c with
  | ⟨.path, [(_, l)]⟩ => listJson l
  | c => catJson c

theorem keyText_nodup (uc : UC) (c : RuleCategory) (h : TableOk uc c) :
    (c.rules.map fun e => keyText c.name e.1).Nodup := by
  obtain ⟨n, m⟩ := c
  obtain ⟨hk, _, hp⟩ := h
  have named : (∀ e ∈ m, ∃ k, e.1 = Path.pushField Path.rootPath k ∧ k ≠ "matchers".toList) →
      (m.map fun e => (Path.firstField e.1).getD e.1.expr).Nodup := by
    intro hp
    unfold KeysNodup at hk
    have hk' := List.pairwise_map.1 hk
    refine List.pairwise_map.2 (hk'.imp_of_mem (fun {a b} ha hb hab heq => hab ?_))
    obtain ⟨k, h1, _⟩ := hp a ha
    obtain ⟨k', h2, _⟩ := hp b hb
    rw [h1, h2, firstField_name, firstField_name] at heq
    have : k = k' := heq
    rw [h1, h2, this]
  cases n with
  | header => exact named hp
  | query => exact named hp
  | _ => exact hk

theorem nested_ok (P : Params) (m : List (DocPath × RuleList)) (h : WritableEs P.uc m) :
    ∀ e ∈ m, ∀ r ∈ e.2.rules, fromJson P (ruleJson r) = .ok (kept r) := by
  intro e he r hr
  have h1 := (WritableEs_iff P.uc m).1 h e he
  obtain ⟨p, ⟨rs, l, c⟩⟩ := e
  rw [WritableL, WritableRs_iff] at h1
  exact rule_fuel P _ r (by omega) (h1 r hr)

/-- A whole category survives the cycle. -/
theorem table_roundtrip (P : Params) (c : RuleCategory) (h : TableOk P.uc c) (hne : c.rules ≠ []) :
    addV3RulesFromJson (fromJson P) P (emptyCat c.name) (tableJson c) = .ok (keptTable c) := by
  have hkt := keyText_nodup P.uc c h
  obtain ⟨n, m⟩ := c
  obtain ⟨hk, hw, hp⟩ := h
  have hr := nested_ok P m hw
  have hmem := orderBy_mem (fun e : DocPath × RuleList => keyText n e.1) m
  have hperm := orderBy_perm (fun e : DocPath × RuleList => keyText n e.1) m hkt
  have hko : KeysNodup (orderBy (fun e : DocPath × RuleList => keyText n e.1) m) :=
    (hperm.map (fun e : DocPath × RuleList => e.1.expr)).nodup_iff.2 hk
  have named : n = .query ∨ n = .header →
      (∀ e ∈ m, ∃ k, e.1 = Path.pushField Path.rootPath k ∧ k ≠ "matchers".toList) →
      addV3RulesFromJson (fromJson P) P (emptyCat n) (catJson ⟨n, m⟩) = .ok (keptTable ⟨n, m⟩) := by
    intro hn hp
    rw [catJson_eq]
    unfold addV3RulesFromJson
    rw [if_neg (fun h => by rcases hn with rfl | rfl <;> exact nomatch h.1)]
    show (if (RuleJson.get "matchers" _).isSome then _ else _) = _
    rw [get_none_of_keys "matchers" _ (fun p => keyText n p) (fun e he => by
      obtain ⟨k, h1, h2⟩ := hp e (hmem e he)
      have : keyText n e.1 = k := by
        rw [h1]
        rcases hn with rfl | rfl <;> rfl
      show keyText n e.1 ≠ _
      rw [this]
      exact h2)]
    show (if n = .query ∨ n = .header then addNames (fromJson P) ⟨n, []⟩ _ else _) = _
    rw [if_pos hn, addNames_spec (fromJson P) n hn _ (fun e he => by
      obtain ⟨k, h1, _⟩ := hp e (hmem e he)
      exact ⟨k, h1⟩) (fun e he => hr e (hmem e he)) [] hko]
    rfl
  have other : n ≠ .path → n ≠ .query → n ≠ .header → (∀ p, keyText n p = p.expr) →
      (∀ e ∈ m, PathOk P.uc e.1 ∧ e.1.expr ≠ "matchers".toList) →
      addV3RulesFromJson (fromJson P) P (emptyCat n) (catJson ⟨n, m⟩) = .ok (keptTable ⟨n, m⟩) := by
    intro h1 h2 h3 hkey hp
    rw [catJson_eq]
    simp only [hkey] at hmem hko ⊢
    unfold addV3RulesFromJson
    rw [if_neg (fun h => h1 h.1)]
    show (if (RuleJson.get "matchers" _).isSome then _ else _) = _
    rw [get_none_of_keys "matchers" _ (fun p => p.expr) (fun e he => (hp e (hmem e he)).2)]
    show (if n = .query ∨ n = .header then _ else addEntries (fromJson P) P ⟨n, []⟩ _) = _
    rw [if_neg (fun h => h.elim h2 h3), addEntries_spec (fromJson P) P n _ (fun e he => (hp e (hmem e he)).1)
      (fun e he => hr e (hmem e he)) [] hko]
    unfold keptTable
    simp only [hkey]
    rfl
  cases n with
  | path =>
    cases m with
    | nil => exact absurd rfl hne
    | cons e es =>
      cases es with
      | nil =>
        obtain ⟨p, l⟩ := e
        have hpe : p = Path.empty := hp (p, l) List.mem_cons_self
        subst hpe
        show addV3RulesFromJson (fromJson P) P (emptyCat .path) (listJson l) = _
        unfold addV3RulesFromJson
        rw [if_pos ⟨rfl, by rw [matchers_listJson]; rfl⟩]
        show addRuleList (fromJson P) ⟨.path, []⟩ Path.empty (listJson l) = _
        rw [addRuleList_spec (fromJson P) .path [] Path.empty l (by simp) (hr _ List.mem_cons_self)]
        show _ = Res.ok (CategoryOf.mk .path (nonEmpty [(Path.empty, l)]))
        rw [nonEmpty_cons]
        show _ = Res.ok (CategoryOf.mk .path ((if l.rules.isEmpty then [] else [(Path.empty, keptL l)]) ++ []))
        rw [List.append_nil, List.nil_append]
      | cons e2 es =>
        have h1 := hp e List.mem_cons_self
        have h2 := hp e2 (List.mem_cons_of_mem _ List.mem_cons_self)
        refine absurd ?_ (List.nodup_cons.1 hk).1
        show e.1.expr ∈ _
        rw [h1, ← h2]
        exact List.mem_map.2 ⟨e2, List.mem_cons_self, rfl⟩
  | header => exact named (.inr rfl) hp
  | query => exact named (.inl rfl) hp
  | method => exact other (by decide) (by decide) (by decide) (fun _ => rfl) hp
  | body => exact other (by decide) (by decide) (by decide) (fun _ => rfl) hp
  | status => exact other (by decide) (by decide) (by decide) (fun _ => rfl) hp
  | contents => exact other (by decide) (by decide) (by decide) (fun _ => rfl) hp
  | metadata => exact other (by decide) (by decide) (by decide) (fun _ => rfl) hp

theorem keptTable_eq (uc : UC) (c : RuleCategory) (h : TableOk uc c) (hc : CompleteEs c.rules) :
    catEq c (keptTable c) = true := by
  have hkt := keyText_nodup uc c h
  obtain ⟨n, m⟩ := c
  obtain ⟨hk, hw, _⟩ := h
  obtain ⟨h1, h2⟩ := perm_lookup m _ (orderBy_perm (fun e : DocPath × RuleList => keyText n e.1) m hkt) hk
    ((CompleteEs_iff m).1 hc)
  rw [catEq]
  unfold keptTable
  simp only
  rw [h1, entries_eq uc m hw hc _ h2]
  simp

/-- The rules of a whole interaction for which the cycle is claimed. -/
def RulesOk (uc : UC) (m : MatchingRules) : Prop :=
  (m.map (·.1)).Nodup ∧ ∀ e ∈ m, e.1 = e.2.name ∧ TableOk uc e.2 ∧ CompleteEs e.2.rules

/-- The categories with rules. -/
def written (m : MatchingRules) : MatchingRules := m.filter fun e => !e.2.rules.isEmpty

theorem filterMap_eq_map_filter {A B : Type} (f : A → Option B) (p : A → Bool) (g : A → B) (l : List A)
    (h : ∀ a ∈ l, f a = if p a then some (g a) else none) : l.filterMap f = (l.filter p).map g := by
  induction l with
  | nil => rfl
  | cons a as ih =>
    rw [List.filterMap_cons, h a List.mem_cons_self, ih (fun x hx => h x (List.mem_cons_of_mem _ hx)), List.filter_cons]
    cases p a <;> rfl

theorem catJson_obj (c : RuleCategory) (h : (c.rules.map fun e => keyText c.name e.1).Nodup) (hne : c.rules ≠ []) :
    ∃ x xs, catJson c = .obj (x :: xs) := by
  obtain ⟨n, m⟩ := c
  rw [catJson_eq]
  have hl := (orderBy_perm (fun e : DocPath × RuleList => keyText n e.1) m h).length_eq
  cases ho : orderBy (fun e : DocPath × RuleList => keyText n e.1) m with
  | nil =>
    rw [ho] at hl
    exact absurd (List.length_eq_zero_iff.1 hl.symm) hne
  | cons y ys => exact ⟨_, _, rfl⟩

theorem written_json (uc : UC) (c : Category) (t : RuleCategory) (hn : c = t.name) (h : TableOk uc t) :
    (match c with
      | .path => ((Rules.lookup t.rules Path.empty).or (Rules.lookup t.rules Path.rootPath)).map
          fun l => (catName c, listJson l)
      | _ => match catJson t with
        | .obj (x :: xs) => some (catName c, .obj (x :: xs))
        | _ => none)
      = if (!t.rules.isEmpty) = true then some (catName c, tableJson t) else none := by
  have hkt := keyText_nodup uc t h
  obtain ⟨n, m⟩ := t
  simp only at hn
  subst hn
  have other : c ≠ .path → (match catJson ⟨c, m⟩ with
        | .obj (x :: xs) => some (catName c, .obj (x :: xs))
        | _ => none) = if (!m.isEmpty) = true then some (catName c, tableJson ⟨c, m⟩) else none := by
    intro hp
    have htj : tableJson ⟨c, m⟩ = catJson ⟨c, m⟩ := by
      cases c with
      | path => exact absurd rfl hp
      | _ => rfl
    cases m with
    | nil => rfl
    | cons e es =>
      obtain ⟨x, xs, hx⟩ := catJson_obj ⟨c, e :: es⟩ hkt (by simp)
      rw [htj, hx]
      rfl
  cases c with
  | path =>
    obtain ⟨hk, _, hp⟩ := h
    cases m with
    | nil => rfl
    | cons e es =>
      cases es with
      | nil =>
        obtain ⟨p, l⟩ := e
        have hpe : p = Path.empty := hp (p, l) List.mem_cons_self
        subst hpe
        rfl
      | cons e2 es =>
        have h1 := hp e List.mem_cons_self
        have h2 := hp e2 (List.mem_cons_of_mem _ List.mem_cons_self)
        refine absurd ?_ (List.nodup_cons.1 hk).1
        show e.1.expr ∈ _
        rw [h1, ← h2]
        exact List.mem_map.2 ⟨e2, List.mem_cons_self, rfl⟩
  | header => exact other (by decide)
  | query => exact other (by decide)
  | method => exact other (by decide)
  | body => exact other (by decide)
  | status => exact other (by decide)
  | contents => exact other (by decide)
  | metadata => exact other (by decide)

theorem matchersToJson_eq (uc : UC) (m : MatchingRules) (h : RulesOk uc m) :
    matchersToJson m = .obj ((orderBy (fun e => catName e.1) (written m)).map
      fun e => (catName e.1, tableJson e.2)) := by
  unfold matchersToJson
  rw [filterMap_eq_map_filter _ (fun e : Category × RuleCategory => !e.2.rules.isEmpty)
    (fun e => (catName e.1, tableJson e.2)) m ?_]
  · rw [collect_key (fun e : Category × RuleCategory => catName e.1) (fun e => tableJson e.2)]
    rfl
  · intro e he
    obtain ⟨c, t⟩ := e
    have := written_json uc c t (h.2 _ he).1 (h.2 _ he).2.1
    cases c <;> exact this

theorem catParse_name (uc : UC) (c : Category) : catParse uc (catName c) = c := by
  unfold catParse
  rw [uc.lower_ascii (catName c) (by cases c <;> decide)]
  cases c <;> decide

theorem loadV3_spec (P : Params) (l : MatchingRules)
    (hl : ∀ e ∈ l, e.1 = e.2.name ∧ TableOk P.uc e.2 ∧ e.2.rules ≠ []) : ∀ acc : MatchingRules,
    (acc.map (·.1) ++ l.map (·.1)).Nodup →
    loadV3 P acc (l.map fun e => (catName e.1, tableJson e.2)) = .ok (acc ++ l.map fun e => (e.1, keptTable e.2)) := by
  induction l with
  | nil => intro acc _; simp [loadV3]
  | cons e es ih =>
    intro acc h
    obtain ⟨c, t⟩ := e
    obtain ⟨h1, h2, h3⟩ := hl (c, t) List.mem_cons_self
    obtain ⟨ha, hb, hc⟩ := List.nodup_append.1 h
    simp only at h1
    subst h1
    have hfresh : ∀ e ∈ acc, e.1 ≠ t.name := fun e he heq =>
      hc e.1 (List.mem_map.2 ⟨e, he, rfl⟩) t.name (by simp) heq
    have hnone : rulesForCategory acc t.name = none := by
      unfold rulesForCategory
      rw [Option.map_eq_none_iff, List.find?_eq_none]
      intro e he
      simp [hfresh e he]
    have hfilter : (acc.filter fun e => !decide (e.1 = t.name)) = acc :=
      List.filter_eq_self.2 (fun e he => by simp [hfresh e he])
    simp only [List.map_cons]
    rw [loadV3]
    simp only [catParse_name, hnone, Option.getD_none]
    rw [table_roundtrip P t h2 h3]
    show loadV3 P ((acc.filter fun e => !decide (e.1 = t.name)) ++ [(t.name, keptTable t)]) _ = _
    rw [hfilter, ih (fun x hx => hl x (List.mem_cons_of_mem _ hx)), List.append_assoc]
    · rfl
    · rw [List.map_append, List.append_assoc]
      exact h

theorem rulesForCategory_mem (m : MatchingRules) (h : (m.map (·.1)).Nodup) (c : Category) (t : RuleCategory)
    (hm : (c, t) ∈ m) : rulesForCategory m c = some t := by
  unfold rulesForCategory
  induction m with
  | nil => cases hm
  | cons e es ih =>
    have hn := List.nodup_cons.1 h
    rcases List.mem_cons.1 hm with rfl | h'
    · simp
    · have hne : decide (e.1 = c) = false :=
        decide_eq_false (fun h2 => hn.1 (by show e.1 ∈ _; rw [h2]; exact List.mem_map.2 ⟨(c, t), h', rfl⟩))
      rw [List.find?_cons, hne]
      exact ih hn.2 h'

theorem catName_inj : ∀ a b : Category, catName a = catName b → a = b := by
  intro a b
  cases a <;> cases b <;> decide

theorem keptTable_nonempty (uc : UC) (t : RuleCategory) (h : TableOk uc t) (hc : CompleteEs t.rules)
    (hne : t.rules ≠ []) : (keptTable t).rules ≠ [] := by
  have hkt := keyText_nodup uc t h
  obtain ⟨n, m⟩ := t
  obtain ⟨h1, _⟩ := perm_lookup m _ (orderBy_perm (fun e : DocPath × RuleList => keyText n e.1) m hkt) h.1
    ((CompleteEs_iff m).1 hc)
  intro he
  have he' : nonEmpty (orderBy (fun e : DocPath × RuleList => keyText n e.1) m) = [] := he
  rw [he'] at h1
  exact hne (List.length_eq_zero_iff.1 h1.symm)

/-- The rules of one category. -/
def catTable (m : MatchingRules) (c : Category) : List (DocPath × RuleList) :=
  match rulesForCategory m c with
  | some t => t.rules
  | none => []

/-- A rule without rules inside. -/
def Simple : MatchingRule → Prop
  | .arrayContains _ => False
  | .eachKey _ => False
  | .eachValue _ => False
  | _ => True

/-- For every category whose rules contain no other rules, the two sets have the same rules at the same paths, up to
the order of the paths; the second has no rules marked as inherited, and its tables have the names of their categories. -/
def SameTables (m m' : MatchingRules) : Prop :=
  (∀ c, (∀ e ∈ catTable m c, ∀ r ∈ e.2.rules, Simple r) →
    (catTable m' c).Perm ((catTable m c).map fun e => (e.1, ⟨e.2.rules, e.2.logic, false⟩))) ∧
  ∀ c t, rulesForCategory m' c = some t → t.name = c

theorem kept_simple : ∀ r : MatchingRule, Simple r → kept r = r
  | .arrayContains _, h => absurd h (by simp [Simple])
  | .eachKey _, h => absurd h (by simp [Simple])
  | .eachValue _, h => absurd h (by simp [Simple])
  | .equality, _ | .regex _, _ | .type, _ | .minType _, _ | .maxType _, _ | .minMaxType _ _, _ | .timestamp _, _
  | .time _, _ | .date _, _ | .includes _, _ | .number, _ | .integer, _ | .decimal, _ | .null, _ | .contentType _, _
  | .values, _ | .boolean, _ | .statusCode _, _ | .notEmpty, _ | .semver, _ => rfl

theorem keptL_simple (l : RuleList) (h : ∀ r ∈ l.rules, Simple r) : keptL l = ⟨l.rules, l.logic, false⟩ := by
  rw [keptL_eq, List.map_congr_left (fun r hr => kept_simple r (h r hr)), List.map_id']

/-- A table in the form that is kept has the same rules. -/
theorem keptTable_perm (uc : UC) (t : RuleCategory) (h : TableOk uc t) (hc : CompleteEs t.rules)
    (hs : ∀ e ∈ t.rules, ∀ r ∈ e.2.rules, Simple r) :
    (keptTable t).rules.Perm (t.rules.map fun e => (e.1, ⟨e.2.rules, e.2.logic, false⟩)) := by
  have hp := orderBy_perm (fun e : DocPath × RuleList => keyText t.name e.1) t.rules (keyText_nodup uc t h)
  show (nonEmpty (orderBy (fun e : DocPath × RuleList => keyText t.name e.1) t.rules)).Perm _
  rw [nonEmpty_all _ (fun e he => (CompleteEs_iff t.rules).1 hc e (hp.mem_iff.1 he))]
  refine (hp.map _).trans ?_
  rw [List.map_congr_left (fun e he => by rw [keptL_simple e.2 (hs e he)])]

theorem rulesForCategory_none (m : MatchingRules) (c : Category) (h : ∀ e ∈ m, e.1 ≠ c) :
    rulesForCategory m c = none := by
  unfold rulesForCategory
  rw [Option.map_eq_none_iff, List.find?_eq_none]
  intro e he
  simp [h e he]

theorem rulesForCategory_some (m : MatchingRules) (c : Category) (t : RuleCategory) (h : rulesForCategory m c = some t) :
    (c, t) ∈ m := by
  unfold rulesForCategory at h
  obtain ⟨e, he, rfl⟩ := Option.map_eq_some_iff.1 h
  have h1 := List.mem_of_find?_eq_some he
  have h2 := List.find?_some he
  have h3 : e.1 = c := of_decide_eq_true h2
  rw [← h3]
  exact h1

/-- The rules of an interaction written to JSON and read back are equal to the original, and rules without rules
inside are kept at their paths. -/
theorem C34_tables_partial (P : Params) (m : MatchingRules) (h : RulesOk P.uc m) :
    ∃ o m', matchersToJson m = .obj o ∧ loadV3 P [] o = .ok m' ∧ mrEq m m' = true ∧ SameTables m m' := by
  have hw : ∀ e ∈ written m, e ∈ m ∧ e.2.rules ≠ [] := by
    intro e he
    obtain ⟨h1, h2⟩ := List.mem_filter.1 he
    refine ⟨h1, fun h' => ?_⟩
    rw [h'] at h2
    exact absurd h2 (by decide)
  have hwn : ((written m).map (·.1)).Nodup := (List.filter_sublist.map _).nodup h.1
  have hwk : ((written m).map fun e => catName e.1).Nodup := by
    have h1 := List.pairwise_map.1 hwn
    exact List.pairwise_map.2 (h1.imp (fun hab heq => hab (catName_inj _ _ heq)))
  have hperm := orderBy_perm (fun e : Category × RuleCategory => catName e.1) (written m) hwk
  generalize hl : orderBy (fun e : Category × RuleCategory => catName e.1) (written m) = l at hperm
  have hln : (l.map (·.1)).Nodup := (hperm.map (·.1)).nodup_iff.2 hwn
  have hlo : ∀ e ∈ l, e.1 = e.2.name ∧ TableOk P.uc e.2 ∧ e.2.rules ≠ [] := by
    intro e he
    obtain ⟨h1, h2⟩ := hw e (hperm.mem_iff.1 he)
    exact ⟨(h.2 e h1).1, (h.2 e h1).2.1, h2⟩
  refine ⟨_, _, by rw [matchersToJson_eq P.uc m h, hl], loadV3_spec P l hlo [] hln, ?_⟩
  rw [List.nil_append]
  have hall : (l.map fun e => (e.1, keptTable e.2)).filter (fun e => !e.2.rules.isEmpty)
      = l.map fun e => (e.1, keptTable e.2) := by
    refine List.filter_eq_self.2 (fun e he => ?_)
    obtain ⟨x, hx, rfl⟩ := List.mem_map.1 he
    have hx' := (hw x (hperm.mem_iff.1 hx)).1
    have := keptTable_nonempty P.uc x.2 (hlo x hx).2.1 (h.2 x hx').2.2 (hlo x hx).2.2
    cases hr : (keptTable x.2).rules with
    | nil => exact absurd hr this
    | cons a as => simp [hr]
  have hkn : ((l.map fun e => (e.1, keptTable e.2)).map (·.1)).Nodup := by rw [List.map_map]; exact hln
  refine ⟨?_, ?_, ?_⟩
  · unfold mrEq
    simp only [hall]
    rw [Bool.and_eq_true]
    refine ⟨decide_eq_true ?_, List.all_eq_true.2 (fun e he => ?_)⟩
    · show (written m).length = _
      rw [List.length_map, hperm.length_eq]
    · have hel : e ∈ l := hperm.mem_iff.2 he
      have hem := (hw e he).1
      obtain ⟨c, t⟩ := e
      rw [rulesForCategory_mem (l.map fun e => (e.1, keptTable e.2)) (by rw [List.map_map]; exact hln) c (keptTable t)
        (List.mem_map.2 ⟨(c, t), hel, rfl⟩)]
      exact keptTable_eq P.uc t (h.2 _ hem).2.1 (h.2 _ hem).2.2
  · intro c hs
    unfold catTable at hs ⊢
    cases hr : rulesForCategory m c with
    | none =>
      rw [rulesForCategory_none _ c (fun e he heq => by
        obtain ⟨x, hx, rfl⟩ := List.mem_map.1 he
        have hx' := (hw x (hperm.mem_iff.1 hx)).1
        obtain ⟨c', t⟩ := x
        simp only at heq
        subst heq
        rw [rulesForCategory_mem m h.1 c' t hx'] at hr
        cases hr)]
      exact List.Perm.refl _
    | some t =>
      rw [hr] at hs
      simp only at hs ⊢
      have hm := rulesForCategory_some m c t hr
      cases ht : t.rules with
      | nil =>
        rw [rulesForCategory_none _ c (fun e he heq => by
          obtain ⟨x, hx, rfl⟩ := List.mem_map.1 he
          obtain ⟨hx', hxe⟩ := hw x (hperm.mem_iff.1 hx)
          obtain ⟨c', t'⟩ := x
          simp only at heq
          subst heq
          rw [rulesForCategory_mem m h.1 c' t' hx'] at hr
          cases hr
          exact hxe ht)]
        exact List.Perm.refl _
      | cons y ys =>
        have hmw : (c, t) ∈ written m := by
          refine List.mem_filter.2 ⟨hm, ?_⟩
          simp [ht]
        rw [rulesForCategory_mem _ hkn c (keptTable t) (List.mem_map.2 ⟨(c, t), hperm.mem_iff.2 hmw, rfl⟩)]
        simp only
        rw [← ht]
        exact keptTable_perm P.uc t (h.2 _ hm).2.1 (h.2 _ hm).2.2 hs
  · intro c t hr
    obtain ⟨x, hx, hxe⟩ := List.mem_map.1 (rulesForCategory_some _ c t hr)
    have h1 := (hlo x hx).1
    cases hxe
    exact h1.symm

/-- The rules of an interaction written to JSON and read back are equal to the original. -/
theorem C34_rules_partial (P : Params) (m : MatchingRules) (h : RulesOk P.uc m) :
    ∃ o m', matchersToJson m = .obj o ∧ loadV3 P [] o = .ok m' ∧ mrEq m m' = true := by
  obtain ⟨o, m', h1, h2, h3, _⟩ := C34_tables_partial P m h
  exact ⟨o, m', h1, h2, h3⟩

/-! ### Non-vacuity and limits of C34 -/

instance {β : Type} (m : List (DocPath × β)) : Decidable (KeysNodup m) :=
  inferInstanceAs (Decidable (m.map fun e => e.1.expr).Nodup)

/-- Parameters used in examples. -/
def exP : Params := ⟨UC.ascii, fun _ => 0, fun _ => 0⟩

def exVariants : MatchingRule :=
  .arrayContains [⟨0, ⟨.body, [(Path.pushField Path.rootPath "a".toList, ⟨[.type, .minType 2], .or, false⟩),
      (Path.rootPath, ⟨[.eachKey ⟨"k".toList, .unknown, [.inl (.regex "x".toList)], some (.uuid (some .urn)), []⟩],
        .and, true⟩)]⟩,
    [(Path.rootPath, .randomInt (-5) 7)]⟩]

example : Writable UC.ascii exVariants ∧ Complete exVariants := by
  refine ⟨?_, ?_⟩
  · simp only [exVariants, Writable, WritableVs, WritableV, WritableCat, WritableEs, WritableE, WritableL, WritableRs,
      WritableDef, WritableEithers, WritableEither, and_true, true_and]
    refine ⟨⟨by decide, ?_, ?_⟩, by decide, ?_⟩
    · intro e he
      rcases List.mem_cons.1 he with rfl | he
      · exact ⟨rfl, by decide⟩
      · rcases List.mem_cons.1 he with rfl | he
        · exact ⟨rfl, by decide⟩
        · cases he
    · intro x hx
      injection hx with hx
      subst hx
      trivial
    · intro e he
      rcases List.mem_cons.1 he with rfl | he
      · exact ⟨rfl, by decide, by decide⟩
      · cases he
  · simp [exVariants, Complete, CompleteVs, CompleteV, CompleteCat, CompleteEs, CompleteE, CompleteL, CompleteRs,
      CompleteDef, CompleteEithers, CompleteEither]

def exRules : MatchingRules :=
  [(.header, ⟨.header, [(Path.pushField Path.rootPath "X-Y".toList, ⟨[.regex "a".toList], .and, false⟩)]⟩),
   (.path, ⟨.path, [(Path.empty, ⟨[.type], .or, false⟩)]⟩),
   (.body, ⟨.body, [(Path.pushStarIndex Path.rootPath, ⟨[.minMaxType 1 3, .values], .or, false⟩)]⟩)]

theorem exRules_ok : RulesOk UC.ascii exRules := by
  refine ⟨by decide, fun e he => ?_⟩
  simp only [exRules, List.mem_cons, List.not_mem_nil, or_false] at he
  rcases he with rfl | rfl | rfl
  · refine ⟨rfl, ⟨by decide, by simp [WritableEs, WritableE, WritableL, WritableRs, Writable], ?_⟩, by
      simp [CompleteEs, CompleteE, CompleteL, CompleteRs, Complete]⟩
    intro e he
    simp only [List.mem_cons, List.not_mem_nil, or_false] at he
    subst he
    exact ⟨"X-Y".toList, rfl, by decide⟩
  · refine ⟨rfl, ⟨by decide, by simp [WritableEs, WritableE, WritableL, WritableRs, Writable], ?_⟩, by
      simp [CompleteEs, CompleteE, CompleteL, CompleteRs, Complete]⟩
    intro e he
    simp only [List.mem_cons, List.not_mem_nil, or_false] at he
    subst he
    rfl
  · refine ⟨rfl, ⟨by decide, by simp [WritableEs, WritableE, WritableL, WritableRs, Writable], ?_⟩, by
      simp [CompleteEs, CompleteE, CompleteL, CompleteRs, Complete]⟩
    intro e he
    simp only [List.mem_cons, List.not_mem_nil, or_false] at he
    subst he
    exact ⟨rfl, by decide⟩

/-- Limits of the cycle for single rules: (1) an each-key definition loses its value type and its expression; (2) an
empty rule list is lost; (3) writing a rule with an unresolved reference panics. -/
theorem C34_rule_fails (P : Params) :
    (∃ r r', Writable P.uc r ∧ (toJson r).bind (fromJson P) = .ok r' ∧ ruleEq r r' = false) ∧
    (∃ vs r', Writable P.uc (.arrayContains vs) ∧ ¬ CompleteVs vs ∧
      (toJson (.arrayContains vs)).bind (fromJson P) = .ok r' ∧ ruleEq (.arrayContains vs) r' = false) ∧
    (∃ r, toJson r = .panic) := by
  refine ⟨?_, ?_, ?_⟩
  · refine ⟨.eachKey ⟨"a".toList, .string, [.inl .type], none, "matching(type,'a')".toList⟩, _, ?_,
      C34_rule_kept P _ ?_, by decide⟩ <;>
    · simp [Writable, WritableDef, WritableEithers, WritableEither]
  · have hw : Writable P.uc (.arrayContains [⟨0, ⟨.body, [(Path.rootPath, ⟨[], .and, false⟩)]⟩, []⟩]) := by
      simp only [Writable, WritableVs, WritableV, WritableCat, WritableEs, WritableE, WritableL, WritableRs, and_true,
        true_and]
      refine ⟨⟨by simp [KeysNodup], ?_⟩, by simp [GensOk, KeysNodup]⟩
      intro e he
      simp only [List.mem_cons, List.not_mem_nil, or_false] at he
      subst he
      exact ⟨rfl, by decide⟩
    refine ⟨_, _, hw, ?_, C34_rule_kept P _ hw, by decide⟩
    simp [CompleteVs, CompleteV, CompleteCat, CompleteEs, CompleteE, CompleteL]
  · exact ⟨.eachValue ⟨[], .unknown, [.inr ⟨"x".toList⟩], none, []⟩, rfl⟩

/-- Reading back the tables of an interaction. -/
def cycle (P : Params) (m : MatchingRules) : Res MatchingRules :=
  match matchersToJson m with
  | .obj o => loadV3 P [] o
  | _ => .err

/-- The keys of a category after the cycle. -/
def keysAfter (P : Params) (m : MatchingRules) (c : Category) : Res (List Str) :=
  (cycle P m).map fun m' => match rulesForCategory m' c with
    | some t => t.rules.map fun e => e.1.expr
    | none => []

/-- Limits of the cycle for tables: (1) a header rule whose key is not below the root changes its key; (2) all header
rules are lost when one header is called "matchers"; (3) two query rules below the same name collapse into one; (4) a
path rule at the root moves to the empty path. -/
theorem C34_rules_fails :
    keysAfter exP [(.header, ⟨.header, [(⟨[.field "X".toList], "X".toList⟩, newList .type)]⟩)] .header
      = .ok ["$.X".toList] ∧
    keysAfter exP [(.header, ⟨.header, [(Path.pushField Path.rootPath "matchers".toList, newList .type),
        (Path.pushField Path.rootPath "Y".toList, newList .type)]⟩)] .header = .ok [] ∧
    keysAfter exP [(.query, ⟨.query, [(Path.pushField Path.rootPath "q".toList, newList .type),
        (Path.pushIndex (Path.pushField Path.rootPath "q".toList) 0, newList .integer)]⟩)] .query
      = .ok ["$.q".toList] ∧
    keysAfter exP [(.path, ⟨.path, [(Path.rootPath, newList .type)]⟩)] .path = .ok [[]] := by
  refine ⟨rfl, rfl, rfl, rfl⟩

/-! ### C66: rules recreated from their name and values -/

/-- The V2 matching engine hands a rule to its interpreter as the name and the values of the rule.  Except for
min-max-type and array-contains rules this gives the same rule (up to what is not written, see `kept`). -/
theorem C66_recreate_partial (P : Params) (r : MatchingRule) (h : Writable P.uc r)
    (h1 : ∀ n m, r ≠ .minMaxType n m) (h2 : ∀ vs, r ≠ .arrayContains vs) : recreate P r = .ok (kept r) := by
  unfold recreate
  cases r with
  | minMaxType n m => exact absurd rfl (h1 n m)
  | arrayContains vs => exact absurd rfl (h2 vs)
  | equality =>
    show createObj (fromJson P) P "equality".toList [] = _
    rw [createObj, rt_equality]; rfl
  | regex s =>
    show createObj (fromJson P) P "regex".toList (attrs [("regex", .str s)]) = _
    rw [createObj, rt_regex]; attr_simp; rfl
  | type =>
    show createObj (fromJson P) P "type".toList [] = _
    rw [createObj, rt_type]; rfl
  | minType n =>
    show createObj (fromJson P) P "min-type".toList (attrs [("min", .num (.pos n))]) = _
    rw [createObj, rt_min_type]; attr_simp; rfl
  | maxType n =>
    show createObj (fromJson P) P "max-type".toList (attrs [("max", .num (.pos n))]) = _
    rw [createObj, rt_max_type]; attr_simp; rfl
  | timestamp f =>
    show createObj (fromJson P) P "datetime".toList (attrs [("format", .str f)]) = _
    rw [createObj, rt_datetime]; unfold formatOf; attr_simp; rfl
  | time f =>
    show createObj (fromJson P) P "time".toList (attrs [("format", .str f)]) = _
    rw [createObj, rt_time]; unfold formatOf; attr_simp; rfl
  | date f =>
    show createObj (fromJson P) P "date".toList (attrs [("format", .str f)]) = _
    rw [createObj, rt_date]; unfold formatOf; attr_simp; rfl
  | includes v =>
    show createObj (fromJson P) P "include".toList (attrs [("value", .str v)]) = _
    rw [createObj, rt_include]; attr_simp; rfl
  | number =>
    show createObj (fromJson P) P "number".toList [] = _
    rw [createObj, rt_number]; rfl
  | integer =>
    show createObj (fromJson P) P "integer".toList [] = _
    rw [createObj, rt_integer]; rfl
  | decimal =>
    show createObj (fromJson P) P "decimal".toList [] = _
    rw [createObj, rt_decimal]; rfl
  | null =>
    show createObj (fromJson P) P "null".toList [] = _
    rw [createObj, rt_null]; rfl
  | contentType v =>
    show createObj (fromJson P) P "content-type".toList (attrs [("value", .str v)]) = _
    rw [createObj, rt_content_type]; attr_simp; rfl
  | values =>
    show createObj (fromJson P) P "values".toList [] = _
    rw [createObj, rt_values]; rfl
  | boolean =>
    show createObj (fromJson P) P "boolean".toList [] = _
    rw [createObj, rt_boolean]; rfl
  | statusCode s =>
    have hs := status_roundtrip P s (fun cs hcs => by subst hcs; rw [Writable] at h; exact h)
    show createObj (fromJson P) P "status-code".toList (attrs [("status", statusToJson s)]) = _
    rw [createObj, rt_status_code]; attr_simp; rw [hs]; rfl
  | notEmpty =>
    show createObj (fromJson P) P "not-empty".toList [] = _
    rw [createObj, rt_not_empty]; rfl
  | semver =>
    show createObj (fromJson P) P "semver".toList [] = _
    rw [createObj, rt_semver]; rfl
  | eachKey d =>
    rw [Writable] at h
    show createObj (fromJson P) P "each-key".toList (attrs ([] ++ defAttrs d)) = _
    rw [createObj, rt_each_key]
    show (defFromJson (fromJson P) (attrs ([] ++ defAttrs d))).map _ = _
    rw [defFromJson_spec (fromJson P) P.uc [] (by decide) d h (fun r hin =>
      rule_fuel P _ r (by omega) (writable_def P.uc d h r hin)), kept]
    rfl
  | eachValue d =>
    rw [Writable] at h
    show createObj (fromJson P) P "each-value".toList (attrs ([] ++ defAttrs d)) = _
    rw [createObj, rt_each_value]
    show (defFromJson (fromJson P) (attrs ([] ++ defAttrs d))).map _ = _
    rw [defFromJson_spec (fromJson P) P.uc [] (by decide) d h (fun r hin =>
      rule_fuel P _ r (by omega) (writable_def P.uc d h r hin)), kept]
    rfl

example : Writable UC.ascii (.eachKey ⟨"k".toList, .unknown, [.inl (.regex "x".toList)], none, []⟩) := by
  simp [Writable, WritableDef, WritableEithers, WritableEither]

/-- A min-max-type rule cannot be recreated, whatever its limits. -/
theorem C66_min_max_fails (P : Params) (n m : Nat) : recreate P (.minMaxType n m) = .err := by
  show createObj (fromJson P) P "min-max-type".toList (attrs [("min", .num (.pos n)), ("max", .num (.pos m))]) = _
  rw [createObj, rt_min_max_type]

theorem variants_of_arrays (rec : Json → Res MatchingRule) (P : Params) (l : List (List Json)) :
    variantsFromJson rec P (l.map .arr)
      = .ok (l.map fun _ => ⟨0, addRule (emptyCat .body) Path.empty .equality .and, []⟩) := by
  induction l with
  | nil => rfl
  | cons a as ih =>
    rw [List.map_cons, variantsFromJson]
    show (variantsFromJson rec P (as.map .arr)).map _ = _
    rw [ih]
    rfl

/-- An array-contains rule loses all its variants' indices, rules and generators: each becomes "element 0, equal". -/
theorem C66_array_contains_fails (P : Params) (vs : List Variant) :
    recreate P (.arrayContains vs) = .ok (.arrayContains
      (vs.map fun _ => ⟨0, addRule (emptyCat .body) Path.empty .equality .and, []⟩)) := by
  have hv := variants_of_arrays (fromJson P) P
    (vs.map fun v => [Json.num (.pos v.index), catJson v.rules, gensToJson v.gens])
  rw [List.map_map, List.map_map] at hv
  show createObj (fromJson P) P "array-contains".toList (attrs [("variants", .arr (vs.map fun v => .arr
      [.num (.pos v.index), catJson v.rules, gensToJson v.gens]))]) = _
  rw [createObj, rt_array_contains]
  attr_simp
  show (variantsFromJson (fromJson P) P (vs.map (Json.arr ∘ fun v =>
    [Json.num (.pos v.index), catJson v.rules, gensToJson v.gens]))).map _ = _
  rw [hv]
  rfl

/-- **C34**, `header` and `headers`: both spellings of the category are read, and the rules of the second are added
to those of the first. -/
theorem C34_header_spellings (P : Params) (k1 k2 : Str) (h : catParse P.uc k1 = catParse P.uc k2) (v1 v2 : Json)
    (c1 c2 : RuleCategory)
    (h1 : addV3RulesFromJson (fromJson P) P (emptyCat (catParse P.uc k1)) v1 = .ok c1)
    (h2 : addV3RulesFromJson (fromJson P) P c1 v2 = .ok c2) :
    loadV3 P [] [(k1, v1), (k2, v2)] = .ok [(catParse P.uc k2, c2)] := by
  have hl : rulesForCategory [(catParse P.uc k1, c1)] (catParse P.uc k2) = some c1 := by
    rw [← h]; simp [rulesForCategory]
  have h0 : rulesForCategory ([] : MatchingRules) (catParse P.uc k1) = none := rfl
  simp only [loadV3, h0, Option.getD_none, h1, Res.bind, List.filter_nil, List.nil_append, hl, Option.getD_some, h2]
  rw [h]
  simp

/-- Non-vacuity: the keys `header` and `headers`. -/
example : catParse exP.uc "header".toList = .header ∧ catParse exP.uc "headers".toList = .header := by decide


end RuleJsonProps
end Verif
