import Verif.Base

/-
  Model of `serde_json::Value` (built without `preserve_order`, so objects are `BTreeMap`s), and of the
  helpers of `rust/pact_models/src/json_utils.rs` that only inspect values.
-/

namespace Verif

/-- `serde_json::Number`: `PosInt(u64)`, `NegInt(i64 < 0)` or `Float(f64)`.  A float is represented by
its shortest decimal text (floating point arithmetic is not modelled; `0.0` and `-0.0`, which compare
equal in Rust, are represented by the same text). -/
inductive Num where
  | pos (n : Nat)
  | neg (n : Nat)  -- the number `-(n+1)`
  | flt (repr : Str)
deriving Repr, DecidableEq

/-- `serde_json::Value`.  Objects are association lists in key order. -/
inductive Json where
  | null
  | bool (b : Bool)
  | num (n : Num)
  | str (s : Str)
  | arr (items : List Json)
  | obj (entries : List (Str × Json))
deriving Repr

namespace Json

mutual
/-- `impl PartialEq for Value`. -/
def beq : Json → Json → Bool
  | null, null => true
  | bool a, bool b => decide (a = b)
  | num a, num b => decide (a = b)
  | str a, str b => decide (a = b)
  | arr a, arr b => beqList a b
  | obj a, obj b => beqEntries a b
  | _, _ => false
termination_by structural x => x
def beqList : List Json → List Json → Bool
  | [], [] => true
  | a :: as, b :: bs => beq a b && beqList as bs
  | _, _ => false
termination_by structural x => x
def beqEntries : List (Str × Json) → List (Str × Json) → Bool
  | [], [] => true
  | a :: as, b :: bs => beqEntry a b && beqEntries as bs
  | _, _ => false
termination_by structural x => x
def beqEntry : Str × Json → Str × Json → Bool
  | (k, a), (l, b) => decide (k = l) && beq a b
termination_by structural x => x
end

mutual
theorem beq_eq : ∀ a b : Json, beq a b = true ↔ a = b
  | null, b => by cases b <;> simp [beq]
  | bool a, b => by cases b <;> simp [beq]
  | num a, b => by cases b <;> simp [beq]
  | str a, b => by cases b <;> simp [beq]
  | arr a, b => by
    cases b <;> simp [beq]
    rename_i b
    exact beqList_eq a b
  | obj a, b => by
    cases b <;> simp [beq]
    rename_i b
    exact beqEntries_eq a b
theorem beqList_eq : ∀ a b : List Json, beqList a b = true ↔ a = b
  | [], b => by cases b <;> simp [beqList]
  | a :: as, b => by
    cases b with
    | nil => simp [beqList]
    | cons b bs => simp [beqList, beq_eq a b, beqList_eq as bs]
theorem beqEntries_eq : ∀ a b : List (Str × Json), beqEntries a b = true ↔ a = b
  | [], b => by cases b <;> simp [beqEntries]
  | a :: as, b => by
    cases b with
    | nil => simp [beqEntries]
    | cons b bs => simp [beqEntries, beqEntry_eq a b, beqEntries_eq as bs]
theorem beqEntry_eq : ∀ a b : Str × Json, beqEntry a b = true ↔ a = b
  | (k, a), (l, b) => by simp [beqEntry, beq_eq a b]
end

instance : DecidableEq Json := fun a b =>
  if h : beq a b = true then isTrue ((beq_eq a b).1 h)
  else isFalse (fun e => h ((beq_eq a b).2 e))

/-- Lookup in a map with string keys (`Map::get`, `BTreeMap::get`). -/
def lookup {T : Type} (k : Str) : List (Str × T) → Option T
  | [] => none
  | (l, v) :: es => if l = k then some v else lookup k es

/-- `Map::contains_key`. -/
def hasKey {T : Type} (k : Str) (es : List (Str × T)) : Bool := (lookup k es).isSome

/-- Keys of a map. -/
def keys {T : Type} (es : List (Str × T)) : List Str := es.map (·.1)

mutual
/-- Nesting depth; scalars have depth 0. -/
def depth : Json → Nat
  | arr items => depthList items + 1
  | obj es => depthEntries es + 1
  | _ => 0
termination_by structural x => x
def depthList : List Json → Nat
  | [] => 0
  | j :: js => max (depth j) (depthList js)
termination_by structural x => x
def depthEntries : List (Str × Json) → Nat
  | [] => 0
  | e :: es => max (depthEntry e) (depthEntries es)
termination_by structural x => x
def depthEntry : Str × Json → Nat
  | (_, j) => depth j
termination_by structural x => x
end

theorem depth_mem_list {j : Json} {l : List Json} (h : j ∈ l) : depth j ≤ depthList l := by
  induction l with
  | nil => simp at h
  | cons a as ih =>
    simp only [depthList]
    rcases List.mem_cons.1 h with rfl | h
    · exact Nat.le_max_left _ _
    · exact Nat.le_trans (ih h) (Nat.le_max_right _ _)

theorem depth_mem_entries {e : Str × Json} {l : List (Str × Json)} (h : e ∈ l) :
    depth e.2 ≤ depthEntries l := by
  induction l with
  | nil => simp at h
  | cons a as ih =>
    simp only [depthEntries]
    rcases List.mem_cons.1 h with rfl | h
    · obtain ⟨k, j⟩ := e
      simp only [depthEntry]
      exact Nat.le_max_left _ _
    · exact Nat.le_trans (ih h) (Nat.le_max_right _ _)

/-- `String` ordering (bytewise on UTF-8, which is the order of the code points). -/
def strLt : Str → Str → Bool
  | [], [] => false
  | [], _ :: _ => true
  | _ :: _, [] => false
  | a :: as, b :: bs => if a.toNat < b.toNat then true else if a.toNat = b.toNat then strLt as bs else false

/-- Strictly increasing keys (a `BTreeMap` in iteration order). -/
def SortedKeys : List Str → Prop
  | [] => True
  | k :: ks => (∀ l ∈ ks, strLt k l = true) ∧ SortedKeys ks

mutual
/-- Representation invariant: all objects at all depths have strictly increasing keys. -/
def WF : Json → Prop
  | arr items => WFList items
  | obj es => SortedKeys (es.map (·.1)) ∧ WFEntries es
  | _ => True
termination_by structural x => x
def WFList : List Json → Prop
  | [] => True
  | j :: js => WF j ∧ WFList js
termination_by structural x => x
def WFEntries : List (Str × Json) → Prop
  | [] => True
  | e :: es => WFEntry e ∧ WFEntries es
termination_by structural x => x
def WFEntry : Str × Json → Prop
  | (_, j) => WF j
termination_by structural x => x
end

theorem WFList_iff (l : List Json) : WFList l ↔ ∀ j ∈ l, WF j := by
  induction l with
  | nil => simp [WFList]
  | cons a as ih => simp [WFList, ih]

theorem WFEntries_iff (l : List (Str × Json)) : WFEntries l ↔ ∀ e ∈ l, WF e.2 := by
  induction l with
  | nil => simp [WFEntries]
  | cons a as ih =>
    obtain ⟨k, j⟩ := a
    simp [WFEntries, WFEntry, ih]

theorem strLt_irrefl (a : Str) : strLt a a = false := by
  induction a with
  | nil => rfl
  | cons c cs ih => simp [strLt, ih]

theorem char_eq_of_toNat {a b : Char} (h : a.toNat = b.toNat) : a = b := by
  apply Char.ext
  apply UInt32.toNat.inj
  exact h

theorem strLt_trans {a b c : Str} (h1 : strLt a b = true) (h2 : strLt b c = true) :
    strLt a c = true := by
  induction a generalizing b c with
  | nil =>
    cases c with
    | nil => cases b <;> simp [strLt] at h1 h2
    | cons _ _ => rfl
  | cons x xs ih =>
    cases b with
    | nil => simp [strLt] at h1
    | cons y ys =>
      cases c with
      | nil => simp [strLt] at h2
      | cons z zs =>
        simp only [strLt] at h1 h2 ⊢
        split at h1
        · split at h2
          · rw [if_pos (by omega)]
          · split at h2
            · rw [if_pos (by omega)]
            · simp at h2
        · split at h1
          · split at h2
            · rw [if_pos (by omega)]
            · split at h2
              · rw [if_neg (by omega), if_pos (by omega)]; exact ih h1 h2
              · simp at h2
          · simp at h1

theorem strLt_total (a b : Str) : strLt a b = true ∨ a = b ∨ strLt b a = true := by
  induction a generalizing b with
  | nil => cases b <;> simp [strLt]
  | cons x xs ih =>
    cases b with
    | nil => simp [strLt]
    | cons y ys =>
      simp only [strLt]
      by_cases h1 : x.toNat < y.toNat
      · simp [h1]
      · by_cases h2 : x.toNat = y.toNat
        · have := char_eq_of_toNat h2
          subst this
          rcases ih ys with h | h | h
          · simp [h]
          · simp [h]
          · simp [h]
        · have h3 : y.toNat < x.toNat := by omega
          simp [h3]

theorem SortedKeys.nodup {ks : List Str} (h : SortedKeys ks) : ks.Nodup := by
  induction ks with
  | nil => simp
  | cons k ks ih =>
    rw [List.nodup_cons]
    refine ⟨fun hm => ?_, ih h.2⟩
    have := h.1 k hm
    rw [strLt_irrefl] at this
    simp at this

/-- Strictly sorted lists with the same elements are equal. -/
theorem SortedKeys.ext {ks ls : List Str} (h1 : SortedKeys ks) (h2 : SortedKeys ls)
    (h : ∀ k, k ∈ ks ↔ k ∈ ls) : ks = ls := by
  induction ks generalizing ls with
  | nil =>
    cases ls with
    | nil => rfl
    | cons l ls => exact absurd ((h l).2 (by simp)) (by simp)
  | cons k ks ih =>
    cases ls with
    | nil => exact absurd ((h k).1 (by simp)) (by simp)
    | cons l ls =>
      have hkl : k = l := by
        have hk := (h k).1 (by simp)
        have hl := (h l).2 (by simp)
        rcases List.mem_cons.1 hk with e | hk
        · exact e
        · rcases List.mem_cons.1 hl with e | hl
          · exact e.symm
          · have a := h1.1 l hl
            have b := h2.1 k hk
            have := strLt_trans a b
            rw [strLt_irrefl] at this
            simp at this
      subst hkl
      congr 1
      apply ih h1.2 h2.2
      intro x
      have hx := h x
      have hnk : x ∈ ks → x ≠ k := fun hm e => by
        subst e; have := h1.1 x hm; rw [strLt_irrefl] at this; simp at this
      have hnl : x ∈ ls → x ≠ k := fun hm e => by
        subst e; have := h2.1 x hm; rw [strLt_irrefl] at this; simp at this
      constructor
      · intro hm
        have := hx.1 (List.mem_cons_of_mem _ hm)
        rcases List.mem_cons.1 this with e | h
        · exact absurd e (hnk hm)
        · exact h
      · intro hm
        have := hx.2 (List.mem_cons_of_mem _ hm)
        rcases List.mem_cons.1 this with e | h
        · exact absurd e (hnl hm)
        · exact h

theorem lookup_mem {k : Str} {T : Type} {v : T} {es : List (Str × T)} (h : lookup k es = some v) :
    (k, v) ∈ es := by
  induction es with
  | nil => simp [lookup] at h
  | cons e es ih =>
    obtain ⟨l, w⟩ := e
    simp only [lookup] at h
    split at h
    · rename_i hl; simp at h; subst hl; subst h; simp
    · exact List.mem_cons_of_mem _ (ih h)

theorem lookup_of_mem {k : Str} {T : Type} {v : T} {es : List (Str × T)} (hn : (es.map (·.1)).Nodup)
    (h : (k, v) ∈ es) : lookup k es = some v := by
  induction es with
  | nil => simp at h
  | cons e es ih =>
    obtain ⟨l, w⟩ := e
    simp only [List.map_cons, List.nodup_cons] at hn
    simp only [lookup]
    rcases List.mem_cons.1 h with e | h
    · simp at e; simp [e.1, e.2]
    · have : l ≠ k := fun e => hn.1 (e ▸ List.mem_map.2 ⟨(k, v), h, rfl⟩)
      simp [this, ih hn.2 h]

theorem lookup_isSome {T : Type} {k : Str} {es : List (Str × T)} :
    (lookup k es).isSome = true ↔ k ∈ es.map (·.1) := by
  induction es with
  | nil => simp [lookup]
  | cons e es ih =>
    obtain ⟨l, w⟩ := e
    simp only [lookup, List.map_cons, List.mem_cons]
    split
    · rename_i h; simp [h]
    · rename_i h
      rw [ih]
      constructor
      · exact Or.inr
      · rintro (e | h')
        · exact absurd e.symm h
        · exact h'

/-- Sorted objects with the same lookups are equal. -/
theorem entries_ext {T : Type} {es fs : List (Str × T)} (h1 : SortedKeys (es.map (·.1)))
    (h2 : SortedKeys (fs.map (·.1))) (h : ∀ k, lookup k es = lookup k fs) : es = fs := by
  have hk : es.map (·.1) = fs.map (·.1) := by
    apply SortedKeys.ext h1 h2
    intro k
    rw [← lookup_isSome, ← lookup_isSome, h k]
  induction es generalizing fs with
  | nil =>
    cases fs with
    | nil => rfl
    | cons f fs => simp at hk
  | cons e es ih =>
    cases fs with
    | nil => simp at hk
    | cons f fs =>
      obtain ⟨k, v⟩ := e
      obtain ⟨l, w⟩ := f
      simp only [List.map_cons, List.cons.injEq] at hk
      obtain ⟨rfl, hk⟩ := hk
      have hv := h k
      simp [lookup] at hv
      subst hv
      congr 1
      apply ih h1.2 h2.2 _ hk
      intro x
      by_cases hx : k = x
      · subst hx
        have n1 : lookup k es = none := by
          rw [← Option.not_isSome_iff_eq_none, lookup_isSome]
          exact fun hm => by have := h1.1 k hm; rw [strLt_irrefl] at this; simp at this
        have n2 : lookup k fs = none := by
          rw [← Option.not_isSome_iff_eq_none, lookup_isSome]
          exact fun hm => by have := h2.1 k hm; rw [strLt_irrefl] at this; simp at this
        rw [n1, n2]
      · have := h x
        simpa [lookup, hx] using this

/-! ### Printing (`impl Display for Value`, compact) -/

/-- Lower-case hexadecimal digit. -/
def hexDigit (n : Nat) : Char :=
  if n < 10 then Char.ofNat (48 + n) else Char.ofNat (87 + n)

/-- `serde_json` string escaping. -/
def escapeChar (c : Char) : Str :=
  if c = '"' then ['\\', '"']
  else if c = '\\' then ['\\', '\\']
  else if c.toNat = 8 then ['\\', 'b']
  else if c.toNat = 12 then ['\\', 'f']
  else if c.toNat = 10 then ['\\', 'n']
  else if c.toNat = 13 then ['\\', 'r']
  else if c.toNat = 9 then ['\\', 't']
  else if c.toNat < 32 then ['\\', 'u', '0', '0', hexDigit (c.toNat / 16), hexDigit (c.toNat % 16)]
  else [c]

/-- A quoted JSON string. -/
def quote (s : Str) : Str := '"' :: (s.flatMap escapeChar ++ ['"'])

/-- `impl Display for Number`. -/
def numText : Num → Str
  | .pos n => natStr n
  | .neg n => '-' :: natStr (n + 1)
  | .flt r => r

mutual
/-- `Value::to_string` (compact). -/
def text : Json → Str
  | null => ['n', 'u', 'l', 'l']
  | bool true => ['t', 'r', 'u', 'e']
  | bool false => ['f', 'a', 'l', 's', 'e']
  | num n => numText n
  | str s => quote s
  | arr items => '[' :: (textList items ++ [']'])
  | obj es => '{' :: (textEntries es ++ ['}'])
termination_by structural x => x
def textList : List Json → Str
  | [] => []
  | j :: js => text j ++ (match js with | [] => [] | _ :: _ => ',' :: textList js)
termination_by structural x => x
def textEntries : List (Str × Json) → Str
  | [] => []
  | e :: es => textEntry e ++ (match es with | [] => [] | _ :: _ => ',' :: textEntries es)
termination_by structural x => x
def textEntry : Str × Json → Str
  | (k, j) => quote k ++ ':' :: text j
termination_by structural x => x
end

/-- `json_utils::json_to_string` (json_utils.rs 55-61). -/
def toStr : Json → Str
  | str s => s
  | null => []
  | j => text j

/-- The string a textual matcher is applied to: `match actual { String(s) => s, _ => to_string() }`
(pact_matching/src/json.rs 75-78, 91-94). -/
def matcherText : Json → Str
  | str s => s
  | j => text j

/-- `Value::is_i64() || Value::is_u64()`. -/
def isInt : Json → Bool
  | num (.pos _) => true
  | num (.neg _) => true
  | _ => false

/-- `Value::is_f64()`. -/
def isFloat : Json → Bool
  | num (.flt _) => true
  | _ => false

/-- `Value::is_number()`. -/
def isNumber : Json → Bool
  | num _ => true
  | _ => false

/-- `json_utils::is_empty` (json_utils.rs 223-232). -/
def isEmpty : Json → Bool
  | null => true
  | bool _ => false
  | num _ => false
  | str s => s.isEmpty
  | arr a => a.isEmpty
  | obj o => o.isEmpty

end Json
end Verif
