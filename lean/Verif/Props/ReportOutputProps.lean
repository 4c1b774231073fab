import Verif.Props.ReportProps

/-
  C176: what is printed for failed interactions.
-/

set_option autoImplicit false

namespace Verif
namespace ReportOutputProps
open Report

/-! ## Specification -/

/-- The mismatches cut into runs: all mismatches of a run have the same kind, and the next run has another one. -/
inductive Runs : List Mis → List (List Mis) → Prop where
  | nil : Runs [] []
  | run (k : String) (g rest : List Mis) (gs : List (List Mis)) (hne : g ≠ []) (hk : ∀ m ∈ g, m.kind = k)
      (hn : ∀ m, rest.head? = some m → m.kind ≠ k) (h : Runs rest gs) : Runs (g ++ rest) (g :: gs)

/-- The place of a mismatch: the parameter, the header, the path in the body or the key. -/
inductive PlaceIs : Mis → Str → Prop where
  | query (p e a m : Str) : PlaceIs (.query p e a m) p
  | header (k e a m : Str) : PlaceIs (.header k e a m) k
  | body (p m : Str) (e a : Option Bytes) : PlaceIs (.body p e a m) p
  | metadata (k e a m : Str) : PlaceIs (.metadata k e a m) k

/-- `p` does not come after `q`. -/
def NotAfter (p q : Str) : Prop := Json.strLt q p = false

/-- The lines of run `j` of failure `i`: a heading, the first mismatch, then the others, by their place if they have one, and
the difference of the bodies for the place of the first. -/
inductive Printed (diff : Str → Option Str) (i j : Nat) : List Mis → List Str → Prop where
  | run (m : Mis) (ms sorted : List Mis) (last : List Str) (hp : sorted.Perm ms)
      (hs : (∀ x ∈ ms, ∃ p, PlaceIs x p) →
        sorted.Pairwise fun x y => ∀ p q, PlaceIs x p → PlaceIs y q → NotAfter p q)
      (hb : ∀ p e a t, m = .body p e a t → last = (diff p).toList)
      (ho : (∀ p e a t, m ≠ .body p e a t) → last = []) :
      Printed diff i j (m :: ms)
        (("    ".toList ++ natStr i ++ ['.'] ++ natStr j ++ ") ".toList ++ m.summary) ::
          ("           ".toList ++ m.description) :: sorted.map (fun x => "           ".toList ++ x.description) ++ last)

/-- The lines of the runs from number `j`. -/
inductive AllPrinted (diff : Str → Option Str) (i : Nat) : Nat → List (List Mis) → List Str → Prop where
  | nil (j : Nat) : AllPrinted diff i j [] []
  | cons (j : Nat) (g : List Mis) (gs : List (List Mis)) (ls ls' : List Str) (h : Printed diff i j g ls)
      (hs : AllPrinted diff i (j + 1) gs ls') : AllPrinted diff i j (g :: gs) (ls ++ ls')

/-- The lines of the failures from number `i`. -/
inductive Failures (diff : Str → Str → Option Str) : Nat → List (Str × Failure) → List Str → Prop where
  | nil (i : Nat) : Failures diff i [] []
  | error (i : Nat) (d e : Str) (id : Option Str) (es : List (Str × Failure)) (ls : List Str) (h : Failures diff (i + 1) es ls) :
      Failures diff i ((d, .error e id) :: es) ((natStr i ++ ") ".toList ++ d ++ " - ".toList ++ e ++ ['\n']) :: ls)
  | mismatches (i : Nat) (d : Str) (ms : List Mis) (id : Option Str) (es : List (Str × Failure)) (gs : List (List Mis))
      (ls ls' : List Str) (hr : Runs ms gs) (hp : AllPrinted (diff d) i 1 gs ls) (h : Failures diff (i + 1) es ls') :
      Failures diff i ((d, .mismatches ms id) :: es) ((natStr i ++ ") ".toList ++ d) :: ls ++ ls')

/-! ## Lemmas -/

theorem chunks_ne (ms : List Mis) : ∀ g ∈ chunks ms, g ≠ [] := by
  induction ms with
  | nil => intro g hg; cases hg
  | cons m ms ih =>
    intro g hg
    unfold chunks at hg
    split at hg
    · rename_i n g' gs hc
      split at hg
      · rcases List.mem_cons.1 hg with h | h
        · rw [h]; exact List.cons_ne_nil _ _
        · exact ih g (by rw [hc]; exact List.mem_cons_of_mem _ h)
      · rcases List.mem_cons.1 hg with h | h
        · rw [h]; exact List.cons_ne_nil _ _
        · exact ih g (by rw [hc]; exact h)
    · rcases List.mem_cons.1 hg with h | h
      · rw [h]; exact List.cons_ne_nil _ _
      · exact ih g h

theorem chunks_runs (ms : List Mis) : Runs ms (chunks ms) := by
  induction ms with
  | nil => exact .nil
  | cons m ms ih =>
    have hne := chunks_ne ms
    unfold chunks
    split
    · rename_i n g gs hc
      rw [hc] at ih
      split
      · rename_i hk
        cases ih with
        | run k _ rest _ h1 h2 h3 h4 =>
          exact Runs.run k (m :: n :: g) rest gs (List.cons_ne_nil _ _) (fun x hx => by
            rcases List.mem_cons.1 hx with h | h
            · rw [h, hk]; exact h2 n List.mem_cons_self
            · exact h2 x h) h3 h4
      · rename_i hk
        cases ih with
        | run k _ rest _ h1 h2 h3 h4 =>
          refine Runs.run m.kind [m] ((n :: g) ++ rest) _ (List.cons_ne_nil _ _) (fun x hx => by
            rw [List.mem_singleton.1 hx]) (fun x hx => ?_) (Runs.run k (n :: g) rest gs h1 h2 h3 h4)
          have : n = x := by injection hx
          rw [← this]
          exact fun h => hk h.symm
    · rename_i hc
      cases hd : chunks ms with
      | nil =>
        rw [hd] at ih
        cases ih with
        | nil =>
          exact Runs.run m.kind [m] [] [] (List.cons_ne_nil _ _)
            (fun x hx => (by rw [List.mem_singleton.1 hx])) (fun x hx => (by cases hx)) .nil
      | cons g gs =>
        cases g with
        | nil => exact absurd rfl (hne [] (by rw [hd]; exact List.mem_cons_self))
        | cons n g => exact absurd hd (hc n g gs)

theorem insert_perm (le : Mis → Mis → Bool) (m : Mis) (ms : List Mis) : (insertBy le m ms).Perm (m :: ms) := by
  induction ms with
  | nil => exact .refl _
  | cons n ns ih =>
    unfold insertBy
    split
    · exact .refl _
    · exact (ih.cons n).trans (.swap m n ns)

theorem sortBy_perm (le : Mis → Mis → Bool) (ms : List Mis) : (sortBy le ms).Perm ms := by
  induction ms with
  | nil => exact .refl _
  | cons m ms ih => exact (insert_perm le m (sortBy le ms)).trans (ih.cons m)

theorem insert_sorted (le : Mis → Mis → Bool) (ht : ∀ a b c, le a b = true → le b c = true → le a c = true)
    (ho : ∀ a b, le a b = true ∨ le b a = true) (m : Mis) (ms : List Mis) (h : ms.Pairwise fun a b => le a b = true) :
    (insertBy le m ms).Pairwise fun a b => le a b = true := by
  induction ms with
  | nil => exact List.pairwise_singleton _ _
  | cons n ns ih =>
    unfold insertBy
    have hn := List.pairwise_cons.1 h
    split
    · rename_i hle
      refine List.pairwise_cons.2 ⟨fun x hx => ?_, h⟩
      rcases List.mem_cons.1 hx with h1 | h1
      · rw [h1]; exact hle
      · exact ht _ _ _ hle (hn.1 x h1)
    · rename_i hle
      refine List.pairwise_cons.2 ⟨fun x hx => ?_, ih hn.2⟩
      rcases List.mem_cons.1 ((insert_perm le m ns).mem_iff.1 hx) with h1 | h1
      · rw [h1]
        rcases ho m n with h2 | h2
        · exact absurd h2 hle
        · exact h2
      · exact hn.1 x h1

theorem sortBy_sorted (le : Mis → Mis → Bool) (ht : ∀ a b c, le a b = true → le b c = true → le a c = true)
    (ho : ∀ a b, le a b = true ∨ le b a = true) (ms : List Mis) : (sortBy le ms).Pairwise fun a b => le a b = true := by
  induction ms with
  | nil => exact .nil
  | cons m ms ih => exact insert_sorted le ht ho m _ ih

theorem sort_perm (ms : List Mis) : (sortChunk ms).Perm ms := by
  unfold sortChunk
  split
  · exact sortBy_perm _ _
  · exact sortBy_perm _ _

theorem place_of {m : Mis} {p : Str} (h : PlaceIs m p) : m.place = some p := by
  cases h <;> rfl

theorem sort_sorted (ms : List Mis) (h' : ∀ x ∈ ms, ∃ p, PlaceIs x p) :
    (sortChunk ms).Pairwise fun x y => ∀ p q, PlaceIs x p → PlaceIs y q → NotAfter p q := by
  have h : ∀ x ∈ ms, x.place.isSome = true := fun x hx => by
    obtain ⟨p, hp⟩ := h' x hx
    rw [place_of hp]
    rfl
  unfold sortChunk
  rw [if_pos (List.all_eq_true.2 h)]
  have hs := sortBy_sorted placeLe (fun a b c h1 h2 => by
      unfold placeLe at h1 h2 ⊢
      cases hx : Json.strLt (c.place.getD []) (a.place.getD []) with
      | false => rfl
      | true =>
        rcases Json.strLt_total (b.place.getD []) (a.place.getD []) with h3 | h3 | h3
        · rw [h3] at h1; cases h1
        · rw [h3, hx] at h2; cases h2
        · rw [Json.strLt_trans hx h3] at h2; cases h2)
    (fun a b => by
      unfold placeLe
      cases hx : Json.strLt (b.place.getD []) (a.place.getD []) with
      | false => exact .inl rfl
      | true =>
        cases hy : Json.strLt (a.place.getD []) (b.place.getD []) with
        | false => exact .inr rfl
        | true =>
          have := Json.strLt_trans hx hy
          rw [Json.strLt_irrefl] at this
          cases this) ms
  refine hs.imp fun {x y} hxy p q hp hq => ?_
  unfold placeLe at hxy
  rw [place_of hp, place_of hq] at hxy
  unfold NotAfter
  cases hz : Json.strLt q p with
  | false => rfl
  | true => simp [hz] at hxy

theorem chunk_printed (diff : Str → Option Str) (i j : Nat) (g : List Mis) (hg : g ≠ []) :
    Printed diff (i + 1) j g (chunkLines diff i j g) := by
  cases g with
  | nil => exact absurd rfl hg
  | cons m ms =>
    refine Printed.run m ms (sortChunk ms) (diffLines diff m) (sort_perm ms) (sort_sorted ms) (fun p e a t h => by rw [h]; rfl)
      fun h => ?_
    cases m <;> first
      | rfl
      | exact absurd rfl (h _ _ _ _)

theorem chunks_printed (diff : Str → Option Str) (i : Nat) (gs : List (List Mis)) (h : ∀ g ∈ gs, g ≠ []) :
    ∀ j, AllPrinted diff (i + 1) j gs (chunksLines diff i j gs) := by
  induction gs with
  | nil => exact fun j => .nil j
  | cons g gs ih =>
    exact fun j => .cons j g gs _ _ (chunk_printed diff i j g (h g List.mem_cons_self)) (ih (fun g' hg' => h g' (List.mem_cons_of_mem _ hg')) (j + 1))

/-! ## C176 -/

/-- C176: the failures are printed in order, numbered from one more than `i`: an error with its message, and mismatches in
runs of the same kind with a heading, each mismatch once, and after the first those of a run by their place. -/
theorem C176_output (diff : Str → Str → Option Str) (es : List (Str × Failure)) : ∀ i,
    Failures diff (i + 1) es (processErrors diff i es) := by
  induction es with
  | nil => exact fun i => .nil _
  | cons x es ih =>
    intro i
    obtain ⟨d, f⟩ := x
    cases f with
    | error e id => exact .error (i + 1) d e id es _ (ih (i + 1))
    | mismatches ms id =>
      exact .mismatches (i + 1) d ms id es (chunks ms) _ _ (chunks_runs ms) (chunks_printed (diff d) i _ (chunks_ne ms) 1) (ih (i + 1))

theorem runs_mem {ms : List Mis} {gs : List (List Mis)} (h : Runs ms gs) : gs.flatten = ms := by
  induction h with
  | nil => rfl
  | run k g rest gs _ _ _ _ ih => rw [List.flatten_cons, ih]

theorem printed_mem {diff : Str → Option Str} {i j : Nat} {g : List Mis} {ls : List Str} (h : Printed diff i j g ls) (m : Mis)
    (hm : m ∈ g) : "           ".toList ++ m.description ∈ ls := by
  cases h with
  | run x ms sorted last hp =>
    rcases List.mem_cons.1 hm with h | h
    · rw [h]
      exact List.mem_append_left _ (List.mem_cons_of_mem _ List.mem_cons_self)
    · exact List.mem_append_left _ (List.mem_cons_of_mem _ (List.mem_cons_of_mem _
        (List.mem_map.2 ⟨m, hp.mem_iff.2 h, rfl⟩)))

theorem all_printed_mem {diff : Str → Option Str} {i j : Nat} {gs : List (List Mis)} {ls : List Str} (h : AllPrinted diff i j gs ls)
    (m : Mis) (hm : m ∈ gs.flatten) : "           ".toList ++ m.description ∈ ls := by
  induction h with
  | nil => cases hm
  | cons j g gs ls ls' h hs ih =>
    rw [List.flatten_cons] at hm
    rcases List.mem_append.1 hm with h1 | h1
    · exact List.mem_append_left _ (printed_mem h m h1)
    · exact List.mem_append_right _ (ih h1)

/-- C176: nothing is left out: there is a line for every mismatch of every failure, and one for the message of every error. -/
theorem C176_complete (diff : Str → Str → Option Str) (es : List (Str × Failure)) (i : Nat) :
    (∀ d ms id, (d, Failure.mismatches ms id) ∈ es → ∀ m ∈ ms, "           ".toList ++ m.description ∈ processErrors diff i es) ∧
    (∀ d e id, (d, Failure.error e id) ∈ es →
      ∃ n, i < n ∧ n ≤ i + es.length ∧ natStr n ++ ") ".toList ++ d ++ " - ".toList ++ e ++ ['\n'] ∈ processErrors diff i es) := by
  have key : ∀ (k : Nat) (es : List (Str × Failure)) (ls : List Str), Failures diff k es ls →
      (∀ d ms id, (d, Failure.mismatches ms id) ∈ es → ∀ m ∈ ms, "           ".toList ++ m.description ∈ ls) ∧
      (∀ d e id, (d, Failure.error e id) ∈ es →
        ∃ n, k ≤ n ∧ n < k + es.length ∧ natStr n ++ ") ".toList ++ d ++ " - ".toList ++ e ++ ['\n'] ∈ ls) := by
    intro k es ls h
    induction h with
    | nil => exact ⟨fun _ _ _ h => (by cases h), fun _ _ _ h => (by cases h)⟩
    | error i d e id es ls h ih =>
      refine ⟨fun d' ms id' hm m hmm => ?_, fun d' e' id' hm => ?_⟩
      · rcases List.mem_cons.1 hm with h1 | h1
        · cases h1
        · exact List.mem_cons_of_mem _ (ih.1 d' ms id' h1 m hmm)
      · rcases List.mem_cons.1 hm with h1 | h1
        · cases h1
          exact ⟨i, Nat.le_refl _, by simp, List.mem_cons_self⟩
        · obtain ⟨n, h2, h3, h4⟩ := ih.2 d' e' id' h1
          exact ⟨n, by omega, by simp; omega, List.mem_cons_of_mem _ h4⟩
    | mismatches i d ms id es gs ls ls' hr hp h ih =>
      refine ⟨fun d' ms' id' hm m hmm => ?_, fun d' e' id' hm => ?_⟩
      · rcases List.mem_cons.1 hm with h1 | h1
        · cases h1
          exact List.mem_append_left _ (List.mem_cons_of_mem _ (all_printed_mem hp m (by rw [runs_mem hr]; exact hmm)))
        · exact List.mem_append_right _ (ih.1 d' ms' id' h1 m hmm)
      · rcases List.mem_cons.1 hm with h1 | h1
        · cases h1
        · obtain ⟨n, h2, h3, h4⟩ := ih.2 d' e' id' h1
          exact ⟨n, by omega, by simp; omega, List.mem_append_right _ h4⟩
  obtain ⟨h1, h2⟩ := key (i + 1) es _ (C176_output diff es i)
  refine ⟨h1, fun d e id h => ?_⟩
  obtain ⟨n, h3, h4, h5⟩ := h2 d e id h
  exact ⟨n, by omega, by omega, h5⟩

/-- C176: the first mismatch of a run is printed first, whatever its place: two headers out of order stay so. -/
theorem C176_first (diff : Str → Option Str) (i j : Nat) (m : Mis) (ms : List Mis) (ls : List Str)
    (h : Printed diff i j (m :: ms) ls) : ls[1]? = some ("           ".toList ++ m.description) := by
  cases h with
  | run => rfl

/-- C176: the summaries of the headings name the expected value, and the parameter or header; those of bodies and metadata say
only that. -/
theorem C176_summary (p e a m : Str) (n k : Nat) (x y : Option Bytes) :
    (Mis.method e a m).summary = "is a ".toList ++ e ++ " request".toList ∧
    (Mis.path e a m).summary = "to path '".toList ++ e ++ "'".toList ∧
    (Mis.status n k m).summary = "has status code ".toList ++ natStr n ∧
    (Mis.query p e a m).summary = "includes parameter '".toList ++ p ++ "' with value '".toList ++ e ++ "'".toList ∧
    (Mis.header p e a m).summary = "includes header '".toList ++ p ++ "' with value '".toList ++ e ++ "'".toList ∧
    (Mis.metadata p e a m).summary = "has matching metadata".toList ∧
    (Mis.body p x y m).summary = "has a matching body".toList ∧
    (Mis.bodyType e a m x y).summary = "has a matching body".toList := ⟨rfl, rfl, rfl, rfl, rfl, rfl, rfl, rfl⟩

/-! ## Examples -/

set_option maxRecDepth 100000 in
/-- Two runs; the mismatches after the first are sorted. -/
theorem example_output : processErrors (fun _ p => if p = "$.a".toList then some "diff".toList else none) 0
    [("one".toList, .mismatches [.header ['z'] ['1'] ['2'] ['p'], .header ['y'] ['1'] ['2'] ['q'], .header ['x'] ['1'] ['2'] ['r'],
        .body "$.a".toList none none ['s']] none), ("two".toList, .error "boom".toList none)] =
    ["1) one".toList, "    1.1) includes header 'z' with value '1'".toList, "           p".toList, "           r".toList,
      "           q".toList, "    1.2) has a matching body".toList, "           $.a -> s".toList, "diff".toList,
      "2) two - boom\n".toList] := by decide +kernel

end ReportOutputProps
end Verif
