import Verif.Json
import Verif.QueryHeaders

/-
  Ordered maps with string keys (`BTreeMap<String, _>`, `serde_json::Map`) as key-sorted association lists.
-/

set_option autoImplicit false

namespace Verif
namespace OMap

/-- `BTreeMap::insert` (replaces the value of an existing key). -/
def insert {V : Type} (k : Str) (v : V) : List (Str × V) → List (Str × V)
  | [] => [(k, v)]
  | e :: es => if Json.strLt k e.1 then (k, v) :: e :: es
    else if e.1 = k then (k, v) :: es
    else e :: insert k v es

/-- `iter().collect()` into a `BTreeMap`: later entries win. -/
def collect {V : Type} (es : List (Str × V)) : List (Str × V) :=
  es.foldl (fun m e => insert e.1 e.2 m) []

theorem lookup_insert {V : Type} (k : Str) (v : V) (m : List (Str × V))
    (hs : Json.SortedKeys (m.map (·.1))) (q : Str) :
    Json.lookup q (insert k v m) = if q = k then some v else Json.lookup q m := by
  induction m with
  | nil =>
    simp only [insert, Json.lookup]
    by_cases h : q = k
    · simp [h]
    · simp [h, Ne.symm h]
  | cons e es ih =>
    obtain ⟨k', v'⟩ := e
    simp only [insert]
    split
    · simp only [Json.lookup]
      by_cases h : q = k
      · simp [h]
      · simp [h, Ne.symm h]
    · split
      · rename_i h1 h2
        simp only [Json.lookup]
        subst h2
        by_cases h : q = k'
        · simp [h]
        · simp [h, Ne.symm h]
      · rename_i h1 h2
        simp only [Json.lookup, ih hs.2]
        by_cases h : q = k
        · subst h; simp [h2]
        · simp [h]

theorem mem_insert {V : Type} (k : Str) (v : V) (m : List (Str × V)) :
    ∀ e ∈ insert k v m, e = (k, v) ∨ e ∈ m := by
  induction m with
  | nil => simp [insert]
  | cons f fs ih =>
    intro e he
    simp only [insert] at he
    split at he
    · rcases List.mem_cons.1 he with h | h
      · exact Or.inl h
      · exact Or.inr h
    · split at he
      · rcases List.mem_cons.1 he with h | h
        · exact Or.inl h
        · exact Or.inr (List.mem_cons_of_mem _ h)
      · rcases List.mem_cons.1 he with h | h
        · exact Or.inr (by simp [h])
        · rcases ih e h with h | h
          · exact Or.inl h
          · exact Or.inr (List.mem_cons_of_mem _ h)

theorem insert_sorted {V : Type} (k : Str) (v : V) (m : List (Str × V))
    (hs : Json.SortedKeys (m.map (·.1))) : Json.SortedKeys ((insert k v m).map (·.1)) := by
  induction m with
  | nil => exact ⟨by simp, trivial⟩
  | cons e es ih =>
    simp only [insert]
    split
    · rename_i h
      refine ⟨?_, hs⟩
      intro l hl
      rcases List.mem_cons.1 hl with h1 | h1
      · rw [h1]; exact h
      · exact Json.strLt_trans h (hs.1 l h1)
    · split
      · rename_i h1 h2
        refine ⟨?_, hs.2⟩
        intro l hl
        have := hs.1 l hl
        dsimp only at this ⊢
        rw [h2] at this
        exact this
      · rename_i h1 h2
        refine ⟨?_, ih hs.2⟩
        intro l hl
        obtain ⟨f, hf, rfl⟩ := List.mem_map.1 hl
        rcases mem_insert k v es f hf with e1 | e1
        · rw [e1]
          rcases Json.strLt_total k e.1 with h | h | h
          · exact absurd h (by simp [h1])
          · exact absurd h.symm h2
          · exact h
        · exact hs.1 f.1 (List.mem_map.2 ⟨f, e1, rfl⟩)

theorem foldl_insert {V : Type} (es : List (Str × V)) : ∀ m : List (Str × V),
    Json.SortedKeys (m.map (·.1)) →
    Json.SortedKeys ((es.foldl (fun m e => insert e.1 e.2 m) m).map (·.1)) ∧
    ∀ q, Json.lookup q (es.foldl (fun m e => insert e.1 e.2 m) m)
      = match Json.lookup q es.reverse with
        | some v => some v
        | none => Json.lookup q m := by
  induction es with
  | nil => intro m h; exact ⟨h, fun q => rfl⟩
  | cons e es ih =>
    intro m h
    simp only [List.foldl_cons]
    obtain ⟨h1, h2⟩ := ih _ (insert_sorted e.1 e.2 m h)
    refine ⟨h1, ?_⟩
    intro q
    rw [h2 q, lookup_insert _ _ _ h]
    have happ : ∀ (l : List (Str × V)), Json.lookup q (l ++ [e]) =
        match Json.lookup q l with
        | some v => some v
        | none => if q = e.1 then some e.2 else none := by
      intro l
      induction l with
      | nil =>
        obtain ⟨k, v⟩ := e
        simp only [List.nil_append, Json.lookup]
        by_cases hq : q = k
        · simp [hq]
        · simp [hq, Ne.symm hq]
      | cons a as ih2 =>
        obtain ⟨k', v'⟩ := a
        simp only [List.cons_append, Json.lookup]
        by_cases hq : k' = q
        · simp [hq]
        · simp only [hq, if_false]; exact ih2
    rw [List.reverse_cons, happ]
    cases Json.lookup q es.reverse with
    | some v => rfl
    | none =>
      simp only
      by_cases hq : q = e.1 <;> simp [hq]

theorem collect_sorted {V : Type} (es : List (Str × V)) : Json.SortedKeys ((collect es).map (·.1)) :=
  (foldl_insert es [] trivial).1

/-- Collecting a map without duplicate keys gives the same map (in key order). -/
theorem lookup_collect {V : Type} (es : List (Str × V)) (hn : (es.map (·.1)).Nodup) (q : Str) :
    Json.lookup q (collect es) = Json.lookup q es := by
  unfold collect
  rw [(foldl_insert es [] trivial).2 q]
  have : Json.lookup q es.reverse = Json.lookup q es := by
    cases h : Json.lookup q es with
    | some v =>
      exact Json.lookup_of_mem (by rw [List.map_reverse]; exact List.pairwise_reverse.2 (hn.imp Ne.symm)) (by
        rw [List.mem_reverse]; exact Json.lookup_mem h)
    | none =>
      cases h' : Json.lookup q es.reverse with
      | none => rfl
      | some v =>
        have := Json.lookup_mem h'
        rw [List.mem_reverse] at this
        rw [Json.lookup_of_mem hn this] at h
        exact absurd h (by simp)
  rw [this]
  cases Json.lookup q es <;> rfl

/-- Mapping the values of a map. -/
theorem lookup_mapVals {V W : Type} (f : Str → V → W) (es : List (Str × V)) (q : Str) :
    Json.lookup q (es.map (fun e => (e.1, f e.1 e.2))) = (Json.lookup q es).map (f q) := by
  induction es with
  | nil => rfl
  | cons e es ih =>
    obtain ⟨k, v⟩ := e
    simp only [List.map_cons, Json.lookup]
    split
    · rename_i h; subst h; rfl
    · exact ih

end OMap
end Verif
