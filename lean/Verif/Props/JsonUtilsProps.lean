import Verif.JsonUtils
import Verif.PathLemmas

/-
  C41: deep merge.  C42: numbers read from JSON.
-/

set_option autoImplicit false

namespace Verif
namespace JsonUtilsProps
open Path JsonUtils

/-! ### C41: deep merge -/

theorem mergeEntry_sorted (m : List (Str × Json)) (e : Str × Json) (h : Json.SortedKeys (m.map (·.1))) :
    Json.SortedKeys ((mergeEntry m e).map (·.1)) := by
  obtain ⟨k, v⟩ := e
  simp only [mergeEntry]
  exact OMap.insert_sorted _ _ _ h

theorem mergeEntries_sorted (b : List (Str × Json)) : ∀ a : List (Str × Json), Json.SortedKeys (a.map (·.1)) →
    Json.SortedKeys ((mergeEntries a b).map (·.1)) := by
  induction b with
  | nil => intro a h; simpa only [mergeEntries] using h
  | cons e es ih => intro a h; simp only [mergeEntries]; exact ih _ (mergeEntry_sorted a e h)

theorem lookup_mergeEntries (k : Str) (b : List (Str × Json)) : ∀ a : List (Str × Json),
    Json.SortedKeys (a.map (·.1)) → (b.map (·.1)).Nodup →
    Json.lookup k (mergeEntries a b) = match Json.lookup k a, Json.lookup k b with
      | some x, some y => some (deepMerge x y)
      | some x, none => some x
      | none, o => o := by
  induction b with
  | nil => intro a _ _; simp only [mergeEntries, Json.lookup]; cases Json.lookup k a <;> rfl
  | cons e es ih =>
    intro a ha hb
    obtain ⟨q, v⟩ := e
    rw [List.map_cons, List.nodup_cons] at hb
    simp only [mergeEntries]
    rw [ih _ (mergeEntry_sorted a (q, v) ha) hb.2]
    simp only [mergeEntry, OMap.lookup_insert _ _ _ ha, Json.lookup]
    by_cases hk : k = q
    · subst hk
      have hn : Json.lookup k es = none := by
        cases h : Json.lookup k es with
        | none => rfl
        | some w => exact absurd (List.mem_map.2 ⟨(k, w), Json.lookup_mem h, rfl⟩) hb.1
      simp only [if_true, hn]
      cases Json.lookup k a <;> rfl
    · rw [if_neg hk, if_neg (Ne.symm hk)]

/-- The value the deep merge of two objects has at a key. -/
def mergedAt (x y : Option Json) : Option Json :=
  match x, y with
  | some x, some y => some (deepMerge x y)
  | some x, none => some x
  | none, o => o

/-- C41 (objects): a deep merge of two objects is an object that has, at every key, the deep merge of both
values if both have the key, and the only value otherwise. -/
theorem C41_objects (a b : List (Str × Json)) (ha : Json.WF (.obj a)) (hb : Json.WF (.obj b)) :
    ∃ m, deepMerge (.obj a) (.obj b) = .obj m ∧
      ∀ k, Json.lookup k m = mergedAt (Json.lookup k a) (Json.lookup k b) := by
  refine ⟨mergeEntries a b, by simp only [deepMerge], fun k => ?_⟩
  rw [lookup_mergeEntries k b a ha.1 hb.1.nodup]
  rfl

/-- C41 (no key is lost): the merge of two objects has exactly the keys of both. -/
theorem C41_keys (a b : List (Str × Json)) (ha : Json.WF (.obj a)) (hb : Json.WF (.obj b)) :
    ∃ m, deepMerge (.obj a) (.obj b) = .obj m ∧
      ∀ k, Json.hasKey k m = true ↔ Json.hasKey k a = true ∨ Json.hasKey k b = true := by
  obtain ⟨m, h, hk⟩ := C41_objects a b ha hb
  refine ⟨m, h, fun k => ?_⟩
  simp only [Json.hasKey, hk, mergedAt]
  cases Json.lookup k a <;> cases Json.lookup k b <;> simp

/-- C41 (arrays are concatenated, in order). -/
theorem C41_arrays (a b : List Json) : deepMerge (.arr a) (.arr b) = .arr (a ++ b) := by
  simp only [deepMerge]

/-- Two values of the same container kind. -/
def SameKind : Json → Json → Prop
  | .arr _, .arr _ => True
  | .obj _, .obj _ => True
  | _, _ => False

/-- C41 (everything else is overridden): unless both values are arrays or both are objects, the second one
wins. -/
theorem C41_override (a b : Json) (h : ¬ SameKind a b) : deepMerge a b = b := by
  cases a <;> cases b <;> simp_all [deepMerge, SameKind]

mutual
theorem deepMerge_wf : ∀ (b a : Json), a.WF → b.WF → (deepMerge a b).WF
  | .null, a, _, _ => by simp [deepMerge, Json.WF]
  | .bool _, a, _, _ => by simp [deepMerge, Json.WF]
  | .num _, a, _, _ => by simp [deepMerge, Json.WF]
  | .str _, a, _, _ => by simp [deepMerge, Json.WF]
  | .arr b, a, ha, hb => by
    cases a with
    | arr a =>
      simp only [deepMerge, Json.WF] at *
      rw [Json.WFList_iff] at *
      intro j hj
      rcases List.mem_append.1 hj with h | h
      · exact ha j h
      · exact hb j h
    | _ => simpa only [deepMerge] using hb
  | .obj b, a, ha, hb => by
    cases a with
    | obj a =>
      simp only [deepMerge]
      simp only [Json.WF] at ha hb
      have := mergeEntries_wf b a ha.1 ha.2 hb.2
      simp only [Json.WF]
      exact this
    | _ => simpa only [deepMerge] using hb
theorem mergeEntries_wf : ∀ (b a : List (Str × Json)), Json.SortedKeys (a.map (·.1)) → Json.WFEntries a →
    Json.WFEntries b → Json.SortedKeys ((mergeEntries a b).map (·.1)) ∧ Json.WFEntries (mergeEntries a b)
  | [], a, hs, ha, _ => by simp only [mergeEntries]; exact ⟨hs, ha⟩
  | e :: es, a, hs, ha, hb => by
    simp only [mergeEntries]
    simp only [Json.WFEntries] at hb
    exact mergeEntries_wf es _ (mergeEntry_sorted a e hs) (mergeEntry_wf e a hs ha hb.1) hb.2
theorem mergeEntry_wf : ∀ (e : Str × Json) (a : List (Str × Json)), Json.SortedKeys (a.map (·.1)) →
    Json.WFEntries a → Json.WFEntry e → Json.WFEntries (mergeEntry a e)
  | (k, v), a, hs, ha, he => by
    simp only [mergeEntry]
    simp only [Json.WFEntry] at he
    rw [Json.WFEntries_iff] at *
    intro x hx
    rcases OMap.mem_insert _ _ _ x hx with h | h
    · rw [h]
      show Json.WF (match Json.lookup k a with | some w => deepMerge w v | none => v)
      cases hl : Json.lookup k a with
      | none => exact he
      | some w => exact deepMerge_wf v w (ha _ (Json.lookup_mem hl)) he
    · exact ha x h
end

/-- C41 (well-formed): merging documents without duplicate keys gives a document without duplicate keys. -/
theorem C41_wf (a b : Json) (ha : a.WF) (hb : b.WF) : (deepMerge a b).WF := deepMerge_wf b a ha hb

/-- No value of the second document hides a container of the first one that the third one extends. -/
inductive NoMask : Json → Json → Json → Prop
  | intro {a b c : Json} (h : SameKind a c → SameKind a b)
      (rec : ∀ ea eb ec k x y z, a = .obj ea → b = .obj eb → c = .obj ec → Json.lookup k ea = some x →
        Json.lookup k eb = some y → Json.lookup k ec = some z → NoMask x y z) : NoMask a b c

/-- C41 (associativity, for documents in which nothing is masked): layering configuration documents does not
depend on the grouping. -/
theorem C41_assoc_partial (a b c : Json) (h : NoMask a b c) (ha : a.WF) (hb : b.WF) (hc : c.WF) :
    deepMerge (deepMerge a b) c = deepMerge a (deepMerge b c) := by
  induction h with
  | @intro a b c hk hrec ih =>
    cases c with
    | null => simp [deepMerge]
    | bool => simp [deepMerge]
    | num => simp [deepMerge]
    | str => simp [deepMerge]
    | arr c =>
      cases b with
      | arr b => cases a <;> simp [deepMerge]
      | obj b =>
        cases a <;> simp [deepMerge, SameKind] at hk ⊢
      | _ => cases a <;> simp [deepMerge, SameKind] at hk ⊢
    | obj c =>
      cases b with
      | obj b =>
        cases a with
        | obj a =>
          simp only [deepMerge]
          have hab := deepMerge_wf (.obj b) (.obj a) ha hb
          have hbc := deepMerge_wf (.obj c) (.obj b) hb hc
          simp only [deepMerge] at hab hbc
          congr 1
          apply Json.entries_ext (mergeEntries_sorted _ _ hab.1) (mergeEntries_sorted _ _ ha.1)
          intro k
          rw [lookup_mergeEntries k _ _ hab.1 hc.1.nodup, lookup_mergeEntries k _ _ ha.1 hb.1.nodup,
            lookup_mergeEntries k _ _ ha.1 hbc.1.nodup, lookup_mergeEntries k _ _ hb.1 hc.1.nodup]
          cases h1 : Json.lookup k a with
          | none => cases h2 : Json.lookup k b <;> cases h3 : Json.lookup k c <;> rfl
          | some x =>
            cases h2 : Json.lookup k b with
            | none => cases h3 : Json.lookup k c <;> rfl
            | some y =>
              cases h3 : Json.lookup k c with
              | none => rfl
              | some z =>
                simp only
                rw [ih a b c k x y z rfl rfl rfl h1 h2 h3 ((Json.WFEntries_iff _).1 ha.2 _ (Json.lookup_mem h1))
                  ((Json.WFEntries_iff _).1 hb.2 _ (Json.lookup_mem h2))
                  ((Json.WFEntries_iff _).1 hc.2 _ (Json.lookup_mem h3))]
        | _ => simp [deepMerge]
      | _ => cases a <;> simp [deepMerge, SameKind] at hk ⊢

/-- C41 (associativity fails in general): a scalar in the middle resets what came before only if it is
merged first. -/
theorem C41_not_associative : ∃ a b c : Json, a.WF ∧ b.WF ∧ c.WF ∧
    deepMerge (deepMerge a b) c ≠ deepMerge a (deepMerge b c) := by
  refine ⟨.obj [(['x'], .num (.pos 1))], .num (.pos 5), .obj [(['y'], .num (.pos 2))], ?_, ?_, ?_, ?_⟩
  · simp [Json.WF, Json.WFEntries, Json.WFEntry, Json.SortedKeys]
  · simp [Json.WF]
  · simp [Json.WF, Json.WFEntries, Json.WFEntry, Json.SortedKeys]
  · intro h
    have := (Json.beq_eq _ _).2 h
    exact absurd this (by decide)

/-- C41 (identity): an empty object adds nothing to an object, on either side. -/
theorem C41_identity (a : List (Str × Json)) (ha : Json.WF (.obj a)) :
    deepMerge (.obj a) (.obj []) = .obj a ∧ deepMerge (.obj []) (.obj a) = .obj a := by
  constructor
  · simp [deepMerge, mergeEntries]
  · simp only [deepMerge]
    congr 1
    apply Json.entries_ext (mergeEntries_sorted a [] trivial) ha.1
    intro k
    rw [lookup_mergeEntries k a [] trivial ha.1.nodup]
    simp [Json.lookup]

/-- Non-vacuity: a merge of two overlapping nested documents. -/
example : deepMerge (.obj [(['a'], .obj [(['x'], .arr [.null])]), (['b'], .bool true)])
    (.obj [(['a'], .obj [(['x'], .arr [.bool false]), (['y'], .null)])]) =
    .obj [(['a'], .obj [(['x'], .arr [.null, .bool false]), (['y'], .null)]), (['b'], .bool true)] :=
  (Json.beq_eq _ _).1 (by decide)
example : NoMask (.obj [(['a'], .arr [.null])]) (.obj [(['a'], .arr [])]) (.obj [(['a'], .arr [.null])]) := by
  refine .intro (fun _ => trivial) ?_
  intro ea eb ec k x y z h1 h2 h3 hx hy hz
  cases h1; cases h2; cases h3
  simp only [Json.lookup] at hx hy hz
  split at hx
  · rename_i hk
    simp only [hk, if_true, Option.some.injEq] at hx hy hz
    subst hx; subst hy; subst hz
    exact .intro (fun _ => trivial) (by intro _ _ _ _ _ _ _ h; cases h)
  · simp at hx

/-! ### C42: numbers -/

/-- The mathematical value of an integer in a JSON document. -/
def intValue : Num → Option Int
  | .pos n => some n
  | .neg n => some (-((n : Int) + 1))
  | .flt _ => none

/-- C42 (statuses): an unsigned 16 bit attribute is read as the number in the document exactly when the
number is a non-negative integer that fits; any other integer that the JSON library can represent as `u64` is
truncated to its low 16 bits. -/
theorem C42_u16_partial (m : List (Str × Json)) (f : Str) (d n : Nat)
    (h : Json.lookup f m = some (.num (.pos n))) :
    (jsonToU16 m f d = n ↔ n < 65536) ∧ jsonToU16 m f d = n % 65536 := by
  simp only [jsonToU16, h, asU64, asU16]
  refine ⟨?_, trivial⟩
  omega

/-- C42 (anything else gives the default). -/
theorem C42_u16_default (m : List (Str × Json)) (f : Str) (d : Nat)
    (h : ∀ n, Json.lookup f m ≠ some (.num (.pos n))) : jsonToU16 m f d = d := by
  unfold jsonToU16
  split
  · rename_i n hn
    cases n with
    | pos k => exact absurd hn (h k)
    | neg k => rfl
    | flt r => rfl
  · rfl

/-- C42 (signed attributes): a signed 32 bit attribute (`min`, `max`, `digits` of a rule or generator) has the
value in the document exactly when that fits 32 bits. -/
theorem C42_i32_partial (m : List (Str × Json)) (f : Str) (d : Int) (v : Num) (i : Int)
    (h : Json.lookup f m = some (.num v)) (hv : intValue v = some i) (h64 : -(2 ^ 63) ≤ i ∧ i < 2 ^ 63) :
    jsonToI32 m f d = i ↔ -(2 ^ 31) ≤ i ∧ i < 2 ^ 31 := by
  simp only [jsonToI32, h]
  cases v with
  | flt r => simp [intValue] at hv
  | pos n =>
    simp only [intValue, Option.some.injEq] at hv
    subst hv
    have : n < 2 ^ 63 := by omega
    simp only [asI64, if_pos this, asI32]
    omega
  | neg n =>
    simp only [intValue, Option.some.injEq] at hv
    subst hv
    simp only [asI64, asI32]
    omega

/-- C42 (truncation): a status of 65736 is read as 200, and a minimum of 2^32 as 0. -/
theorem C42_truncated :
    jsonToU16 [("status".toList, .num (.pos 65736))] "status".toList 0 = 200 ∧
    jsonToI32 [("min".toList, .num (.pos (2 ^ 32)))] "min".toList 7 = 0 := by decide

/-- C42 (sizes): an optional size is read exactly: a non-negative integer gives itself, a negative one and
anything that is neither number nor string gives nothing; a string is parsed as decimal. -/
theorem C42_num (ft : Str → Nat) :
    (∀ n, jsonToNum ft (some (.num (.pos n))) = some n) ∧
    (∀ n, jsonToNum ft (some (.num (.neg n))) = none) ∧
    (∀ n, n < usizeLim → jsonToNum ft (some (.str (natStr n))) = some n) ∧
    (∀ b, jsonToNum ft (some (.bool b)) = none) ∧ (∀ l, jsonToNum ft (some (.arr l)) = none) ∧
    (∀ o, jsonToNum ft (some (.obj o)) = none) ∧ jsonToNum ft none = none ∧
    jsonToNum ft (some .null) = none := by
  refine ⟨fun n => rfl, fun n => rfl, fun n h => ?_, fun b => rfl, fun l => rfl, fun o => rfl, rfl, rfl⟩
  simp only [jsonToNum]
  exact parseUsize_natStr h

end JsonUtilsProps
end Verif
