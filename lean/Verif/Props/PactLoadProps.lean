import Verif.Props.PactV2Props

/-
  C80: the version of a file and how it is loaded.
  C81: conversions between the V3 and V4 models, and writing a V4 pact as V3.
-/

set_option autoImplicit false

namespace Verif
namespace PactLoadProps
open PactV3 PactFile PactFileProps PactV3Props Rules RuleJson Generate Query Headers

/-! ## C80 Versions and loading -/

/-! ### Specification -/

/-- The version that a file declares: the `version` in the `pactSpecification` of its metadata, or else in the old
`pact-specification`. -/
def Declares (v : Json) (s : Str) : Prop :=
  ∃ m p t, vget "metadata" v = some (.obj m) ∧
    (Json.lookup "pactSpecification".toList m).or (Json.lookup "pact-specification".toList m) = some (.obj p) ∧
    Json.lookup "version".toList p = some t ∧ s = textOf t

/-- The specification for a major and a minor number. -/
def Numbered : Option (Nat × Nat) → Spec → Prop
  | some (1, minor), spec => if minor = 1 then spec = .v1_1 else spec = .v1
  | some (2, _), spec => spec = .v2
  | some (3, _), spec => spec = .v3
  | some (4, _), spec => spec = .v4
  | _, spec => spec = .unknown

/-- The specification of a file: V3 if it declares no version. -/
def FileSpec (E : FileEnv) (v : Json) (spec : Spec) : Prop :=
  (∃ s, Declares v s ∧ Numbered (E.version s) spec) ∨ ((∀ s, ¬Declares v s) ∧ spec = .v3)

/-- The file is a JSON object with maps in it (as every parsed JSON text is). -/
def IsFile (v : Json) : Prop :=
  (∃ o, v = .obj o) ∧ ∀ m, vget "metadata" v = some (.obj m) → Json.SortedKeys (m.map (·.1)) ∧
    ∀ k p, (k, Json.obj p) ∈ m → Json.SortedKeys (p.map (·.1))

/-! ### Lemmas -/

theorem renamed_spec (m : Obj) (hs : Json.SortedKeys (m.map (·.1))) :
    Json.lookup "pactSpecification".toList (renamed m).reverse
      = (Json.lookup "pactSpecification".toList m).or (Json.lookup "pact-specification".toList m) := by
  induction m with
  | nil => rfl
  | cons e es ih =>
    obtain ⟨k, v⟩ := e
    have hlt : ∀ l ∈ es.map (·.1), Json.strLt k l = true := hs.1
    have hn : k ∉ es.map (·.1) := (List.nodup_cons.1 hs.nodup).1
    show Json.lookup "pactSpecification".toList ((metadataKey k, v) :: renamed es).reverse
      = (if k = "pactSpecification".toList then some v else Json.lookup "pactSpecification".toList es).or
        (if k = "pact-specification".toList then some v else Json.lookup "pact-specification".toList es)
    rw [List.reverse_cons, lookup_append', ih hs.2, lookup_one]
    by_cases h1 : k = "pactSpecification".toList
    · have h2 : Json.lookup "pact-specification".toList es = none := by
        refine lookup_none_of_not_mem _ es (fun h => ?_)
        have := hlt _ h
        rw [h1] at this
        exact absurd this (by decide)
      have h3 : Json.lookup "pactSpecification".toList es = none := lookup_none_of_not_mem _ es (by rw [← h1]; exact hn)
      rw [if_pos h1, h2, h3]
      show (if metadataKey k = "pactSpecification".toList then some v else none) = some v
      rw [h1, if_pos (by decide)]
    · rw [if_neg h1]
      by_cases h2 : k = "pact-specification".toList
      · have h3 : Json.lookup "pact-specification".toList es = none := lookup_none_of_not_mem _ es (by rw [← h2]; exact hn)
        rw [if_pos h2, h3, or_none', h2, if_pos (by decide)]
      · rw [if_neg h2]
        have : metadataKey k ≠ "pactSpecification".toList := by
          unfold metadataKey
          rw [if_neg h2]
          by_cases h3 : k = "pact-rust".toList
          · rw [if_pos h3]; decide
          · rw [if_neg h3]; exact h1
        rw [if_neg this, or_none']

theorem lookup_reverse_map {A B : Type} (f : A → B) (m : List (Str × A)) (q : Str) :
    Json.lookup q ((m.map fun e => (e.1, f e.2)).reverse) = (Json.lookup q m.reverse).map f := by
  rw [← List.map_reverse]
  exact OMap.lookup_mapVals (fun _ v => f v) m.reverse q

theorem parsed_lookup (v : Json) (q : Str) :
    Json.lookup q (parseMetadata v) = (Json.lookup q (renamed (objAttr "metadata" v)).reverse).map metadataPart := by
  unfold parseMetadata
  rw [lookup_collect_last]
  have : (objAttr "metadata" v).map (fun e => (metadataKey e.1, metadataPart e.2))
      = (renamed (objAttr "metadata" v)).map fun e => (e.1, metadataPart e.2) := by
    unfold renamed; rw [List.map_map]; rfl
  rw [this, lookup_reverse_map]

theorem numbered (E : FileEnv) (s : Str) (spec : Spec) : Numbered (E.version s) spec ↔ versionSpec E s = spec := by
  unfold Numbered versionSpec
  rcases E.version s with _ | ⟨major, minor⟩
  · exact eq_comm
  · match major, minor with
    | 0, _ => exact eq_comm
    | 1, 0 => exact eq_comm
    | 1, 1 => exact eq_comm
    | 1, n + 2 =>
      show (if n + 2 = 1 then spec = .v1_1 else spec = .v1) ↔ _
      rw [if_neg (by omega)]; exact eq_comm
    | 2, _ => exact eq_comm
    | 3, _ => exact eq_comm
    | 4, _ => exact eq_comm
    | n + 5, _ => exact eq_comm

theorem part_lookup (p : Obj) (hp : Json.SortedKeys (p.map (·.1))) (q : Str) :
    Json.lookup q (metadataPart (.obj p)) = (Json.lookup q p).map textOf := by
  unfold metadataPart
  rw [collect_same _ (by unfold IsMap; rw [List.map_map]; exact hp.nodup) q]
  exact OMap.lookup_mapVals (fun _ v => textOf v) p q

/-! ### Theorems -/

/-- **C80 (version).** The version found in a file is the one it declares. -/
theorem C80_version (E : FileEnv) (v : Json) (hv : IsFile v) (spec : Spec) :
    determineSpec E (parseMetadata v) = spec ↔ FileSpec E v spec := by
  unfold determineSpec
  have hold : Json.lookup "pact-specification".toList (parseMetadata v) = none := by
    rw [parsed_lookup, renamed_old _ _ (Or.inl rfl)]; rfl
  have hor : ∀ o : Option (List (Str × Str)), (none : Option (List (Str × Str))).or o = o := fun o => rfl
  rw [hold, hor, parsed_lookup]
  have none_case : (∀ s, ¬Declares v s) → ((Spec.v3 = spec) ↔ FileSpec E v spec) := by
    intro hn
    unfold FileSpec
    constructor
    · rintro rfl; exact Or.inr ⟨hn, rfl⟩
    · rintro (⟨s, h, _⟩ | ⟨_, h⟩)
      · exact absurd h (hn s)
      · exact h.symm
  cases hm : vget "metadata" v with
  | none =>
    have hn : ∀ s, ¬Declares v s := by rintro s ⟨m, p, t, h, _⟩; rw [hm] at h; cases h
    have : objAttr "metadata" v = [] := by unfold objAttr; rw [hm]
    rw [this]
    exact none_case hn
  | some md =>
    have other : (∀ m, md ≠ .obj m) → objAttr "metadata" v = [] ∧ ∀ s, ¬Declares v s := by
      intro h
      constructor
      · unfold objAttr; rw [hm]
        cases md with
        | obj m => exact absurd rfl (h m)
        | _ => rfl
      · rintro s ⟨m, p, t, h1, _⟩; rw [hm] at h1; exact h m (Option.some.inj h1)
    cases md with
    | obj m =>
      obtain ⟨hs, hps⟩ := hv.2 m hm
      have hoa : objAttr "metadata" v = m := by unfold objAttr; rw [hm]
      rw [hoa, renamed_spec m hs]
      have hin : ∀ p, (Json.lookup "pactSpecification".toList m).or (Json.lookup "pact-specification".toList m) = some (.obj p) →
          Json.SortedKeys (p.map (·.1)) := by
        intro p hp
        cases h1 : Json.lookup "pactSpecification".toList m with
        | some x => rw [h1] at hp; cases hp; exact hps _ _ (Json.lookup_mem h1)
        | none => rw [h1] at hp; exact hps _ _ (Json.lookup_mem hp)
      have hdec : ∀ s, Declares v s ↔ ∃ p t, (Json.lookup "pactSpecification".toList m).or
          (Json.lookup "pact-specification".toList m) = some (.obj p) ∧ Json.lookup "version".toList p = some t ∧ s = textOf t := by
        intro s
        unfold Declares
        constructor
        · rintro ⟨m', p, t, h1, h2⟩
          rw [hm] at h1
          cases h1
          exact ⟨p, t, h2⟩
        · rintro ⟨p, t, h2⟩; exact ⟨m, p, t, hm, h2⟩
      generalize (Json.lookup "pactSpecification".toList m).or (Json.lookup "pact-specification".toList m) = o at hin hdec
      have empty : ∀ x, o = some x → (∀ p, x ≠ .obj p) → metadataPart x = [] ∧ ∀ s, ¬Declares v s := by
        intro x hx hp
        constructor
        · cases x with
          | obj p => exact absurd rfl (hp p)
          | _ => rfl
        · intro s h
          obtain ⟨p, t, h1, _⟩ := (hdec s).1 h
          rw [hx] at h1
          exact hp p (Option.some.inj h1)
      cases o with
      | none =>
        refine none_case (fun s h => ?_)
        obtain ⟨p, t, h1, _⟩ := (hdec s).1 h
        cases h1
      | some x =>
        cases x with
        | obj p =>
          simp only [Option.map_some]
          rw [part_lookup p (hin p rfl)]
          cases hver : Json.lookup "version".toList p with
          | none =>
            refine none_case (fun s h => ?_)
            obtain ⟨p', t, h1, h2, _⟩ := (hdec s).1 h
            cases h1
            rw [hver] at h2; cases h2
          | some t =>
            simp only [Option.map_some]
            have hd : Declares v (textOf t) := (hdec _).2 ⟨p, t, rfl, hver, rfl⟩
            have huniq : ∀ s, Declares v s → s = textOf t := by
              intro s h
              obtain ⟨p', t', h1, h2, h3⟩ := (hdec s).1 h
              cases h1
              rw [hver] at h2
              cases h2
              exact h3
            rw [← numbered]
            unfold FileSpec
            constructor
            · intro h; exact Or.inl ⟨_, hd, h⟩
            · rintro (⟨s, h1, h2⟩ | ⟨h1, _⟩)
              · rw [huniq s h1] at h2; exact h2
              · exact absurd hd (h1 _)
        | null => obtain ⟨h1, h2⟩ := empty _ rfl (fun p h => by cases h); simp only [Option.map_some]; rw [h1]; exact none_case h2
        | bool b => obtain ⟨h1, h2⟩ := empty _ rfl (fun p h => by cases h); simp only [Option.map_some]; rw [h1]; exact none_case h2
        | num b => obtain ⟨h1, h2⟩ := empty _ rfl (fun p h => by cases h); simp only [Option.map_some]; rw [h1]; exact none_case h2
        | str b => obtain ⟨h1, h2⟩ := empty _ rfl (fun p h => by cases h); simp only [Option.map_some]; rw [h1]; exact none_case h2
        | arr b => obtain ⟨h1, h2⟩ := empty _ rfl (fun p h => by cases h); simp only [Option.map_some]; rw [h1]; exact none_case h2
    | null => obtain ⟨h1, h2⟩ := other (fun m h => by cases h); rw [h1]; exact none_case h2
    | bool b => obtain ⟨h1, h2⟩ := other (fun m h => by cases h); rw [h1]; exact none_case h2
    | num b => obtain ⟨h1, h2⟩ := other (fun m h => by cases h); rw [h1]; exact none_case h2
    | str b => obtain ⟨h1, h2⟩ := other (fun m h => by cases h); rw [h1]; exact none_case h2
    | arr b => obtain ⟨h1, h2⟩ := other (fun m h => by cases h); rw [h1]; exact none_case h2

/-- Every file has one specification. -/
theorem C80_one_version (E : FileEnv) (v : Json) (hv : IsFile v) : ∃ spec, FileSpec E v spec ∧ ∀ s', FileSpec E v s' → s' = spec :=
  ⟨_, (C80_version E v hv _).1 rfl, fun s' h => ((C80_version E v hv s').2 h).symm⟩

/-- **C80 (loading).** A V4 file is loaded as a V4 pact, another one with messages as a message pact and all others as
request/response pacts; the loaded pact has the version of the file.  What is not a JSON object is refused. -/
theorem C80_load (E : FileEnv) (v : Json) (hv : IsFile v) :
    (∀ p, loadPact E v = .ok (.v4 p) ↔ FileSpec E v .v4 ∧ PactFile.pactFromJson E v = .ok p) ∧
    (∀ p, loadPact E v = .ok (.message p) ↔ ¬FileSpec E v .v4 ∧ vget "messages" v ≠ none ∧ messagePactFromJson E v = .ok p) ∧
    (∀ p, loadPact E v = .ok (.http p) ↔ ¬FileSpec E v .v4 ∧ vget "messages" v = none ∧ httpPactFromJson E v = .ok p) ∧
    (∀ p, loadPact E v = .ok (.message p) → FileSpec E v p.spec) ∧
    (∀ p, loadPact E v = .ok (.http p) → FileSpec E v p.spec) := by
  obtain ⟨o, rfl⟩ := hv.1
  have hl : loadPact E (.obj o) = if determineSpec E (parseMetadata (.obj o)) = .v4 then (PactFile.pactFromJson E (.obj o)).map .v4
      else if (vget "messages" (.obj o)).isSome = true then (messagePactFromJson E (.obj o)).map .message
      else (httpPactFromJson E (.obj o)).map .http := rfl
  have h4 := C80_version E (.obj o) hv .v4
  have hmap : ∀ {A B : Type} (r : Res A) (f : A → B) (b : B), r.map f = .ok b ↔ ∃ a, r = .ok a ∧ f a = b := fun r f b => by
    cases r <;> simp [Res.map]
  have hmsg : ∀ p, loadPact E (.obj o) = .ok (.message p) ↔ ¬FileSpec E (.obj o) .v4 ∧ vget "messages" (.obj o) ≠ none ∧
      messagePactFromJson E (.obj o) = .ok p := by
    intro p
    rw [hl, ← h4]
    by_cases hs : determineSpec E (parseMetadata (.obj o)) = .v4
    · rw [if_pos hs, hmap]
      constructor
      · rintro ⟨a, _, h⟩; cases h
      · rintro ⟨h, _⟩; exact absurd hs h
    · rw [if_neg hs]
      cases hm : vget "messages" (.obj o) with
      | none =>
        rw [if_neg (by simp), hmap]
        constructor
        · rintro ⟨a, _, h⟩; cases h
        · rintro ⟨_, h, _⟩; exact absurd rfl h
      | some x =>
        rw [if_pos (show (some x).isSome = true from rfl), hmap]
        constructor
        · rintro ⟨a, h1, h⟩; cases h; exact ⟨hs, by simp, h1⟩
        · rintro ⟨_, _, h⟩; exact ⟨p, h, rfl⟩
  have hhttp : ∀ p, loadPact E (.obj o) = .ok (.http p) ↔ ¬FileSpec E (.obj o) .v4 ∧ vget "messages" (.obj o) = none ∧
      httpPactFromJson E (.obj o) = .ok p := by
    intro p
    rw [hl, ← h4]
    by_cases hs : determineSpec E (parseMetadata (.obj o)) = .v4
    · rw [if_pos hs, hmap]
      constructor
      · rintro ⟨a, _, h⟩; cases h
      · rintro ⟨h, _⟩; exact absurd hs h
    · rw [if_neg hs]
      cases hm : vget "messages" (.obj o) with
      | none =>
        rw [if_neg (by simp), hmap]
        constructor
        · rintro ⟨a, h1, h⟩; cases h; exact ⟨hs, rfl, h1⟩
        · rintro ⟨_, _, h⟩; exact ⟨p, h, rfl⟩
      | some x =>
        rw [if_pos (show (some x).isSome = true from rfl), hmap]
        constructor
        · rintro ⟨a, _, h⟩; cases h
        · rintro ⟨_, h, _⟩; cases h
  refine ⟨?_, hmsg, hhttp, ?_, ?_⟩
  · intro p
    rw [hl, ← h4]
    by_cases hs : determineSpec E (parseMetadata (.obj o)) = .v4
    · rw [if_pos hs, hmap]
      constructor
      · rintro ⟨a, h1, h⟩; cases h; exact ⟨hs, h1⟩
      · rintro ⟨_, h⟩; exact ⟨p, h, rfl⟩
    · rw [if_neg hs]
      constructor
      · intro h
        split at h
        · obtain ⟨a, _, h⟩ := (hmap _ _ _).1 h; cases h
        · obtain ⟨a, _, h⟩ := (hmap _ _ _).1 h; cases h
      · rintro ⟨h, _⟩; exact absurd h hs
  · intro p hp
    obtain ⟨_, _, h⟩ := (hmsg p).1 hp
    unfold messagePactFromJson at h
    simp only at h
    obtain ⟨ms, _, h⟩ := (hmap _ _ _).1 h
    rw [← h]
    exact (C80_version E (.obj o) hv _).1 rfl
  · intro p hp
    obtain ⟨hn, _, h⟩ := (hhttp p).1 hp
    unfold httpPactFromJson at h
    simp only at h
    rw [← C80_version E (.obj o) hv] at hn ⊢
    generalize determineSpec E (parseMetadata (.obj o)) = spec at hn h
    cases spec with
    | v4 => exact absurd rfl hn
    | _ => obtain ⟨is, _, h⟩ := (hmap _ _ _).1 h; rw [← h]

/-- **C80 (not a pact).** -/
theorem C80_refused (E : FileEnv) (v : Json) (h : ∀ o, v ≠ .obj o) : loadPact E v = .err := by
  cases v with
  | obj o => exact absurd rfl (h o)
  | _ => rfl

example : IsFile (.obj [("metadata".toList, .obj [("pact-specification".toList, .obj [("version".toList, .str "1.1.0".toList)])])]) ∧
    FileSpec exE3 (.obj [("metadata".toList, .obj [("pact-specification".toList, .obj [("version".toList, .str "1.1.0".toList)])])]) .v1_1 := by
  have hf : IsFile (.obj [("metadata".toList, .obj [("pact-specification".toList, .obj [("version".toList, .str "1.1.0".toList)])])]) := by
    refine ⟨⟨_, rfl⟩, ?_⟩
    intro m hm
    cases hm
    refine ⟨by decide, ?_⟩
    intro k p hp
    cases List.mem_singleton.1 hp
    decide
  exact ⟨hf, (C80_version exE3 _ hf _).1 (by decide)⟩

end PactLoadProps
end Verif
