import Verif.Props.FormGenProps
import Verif.Props.IntegrationProps
import Verif.Props.MatcherTableProps

/-
  C101: form bodies given as JSON with embedded matchers.
-/

set_option autoImplicit false

namespace Verif
namespace FormProps
open Form Path Rules Matchers Compare Query MatchResult Generate
open PactFile (utf8)
open IntegrationProps (Example Found Broken rulesUnder genAt plain)

/-! ## C101: form bodies from JSON -/

/-! ### Specification -/

/-- The text of a number or a string. -/
inductive Text : Json → Str → Prop where
  | number (n : Num) : Text (.num n) (Json.num n).text
  | string (s : Str) : Text (.str s) s

/-- The texts of the numbers and strings in a list, in order; everything else is left out. -/
inductive Texts : List Json → List Str → Prop where
  | nil : Texts [] []
  | take (v : Json) (s : Str) (vs : List Json) (ss : List Str) : Text v s → Texts vs ss → Texts (v :: vs) (s :: ss)
  | leave (v : Json) (vs : List Json) (ss : List Str) : (∀ s, ¬ Text v s) → Texts vs ss → Texts (v :: vs) ss

/-- The values an attribute contributes to the form. -/
inductive Values : Json → List Str → Prop where
  | one (v : Json) (s : Str) : Text v s → Values v [s]
  | many (vs : List Json) (ss : List Str) : Texts vs ss → Values (.arr vs) ss
  | none (v : Json) : (∀ s, ¬ Text v s) → (∀ vs, v ≠ .arr vs) → Values v []

/-- The parameters of a document: the attributes in order, with their values. -/
inductive FormOf : Json → Params → Prop where
  | other (x : Json) : (∀ m, x ≠ .obj m) → FormOf x []
  | empty : FormOf (.obj []) []
  | field (k : Str) (v : Json) (m : List (Str × Json)) (ss : List Str) (ps : Params) : Values v ss →
      FormOf (.obj m) ps → FormOf (.obj ((k, v) :: m)) (ss.map (fun s => (k, s)) ++ ps)

/-- The paths of the values that cannot be in a form. -/
inductive Unsupported : Json → DocPath → Prop where
  | field (m : List (Str × Json)) (k : Str) (v : Json) : (k, v) ∈ m → (∀ s, ¬ Text v s) → (∀ vs, v ≠ .arr vs) →
      Unsupported (.obj m) (join rootPath k)
  | item (m : List (Str × Json)) (k : Str) (vs : List Json) (i : Nat) (v : Json) : (k, .arr vs) ∈ m → vs[i]? = some v →
      (∀ s, ¬ Text v s) → Unsupported (.obj m) (joinIndex (join rootPath k) i)

/-- The text `u` occurs in the text `s`. -/
def Within (u s : Str) : Prop := ∃ pre post, s = pre ++ u ++ post

/-! ### Proofs -/

theorem text_iff (v : Json) (s : Str) : Text v s ↔ scalar v = some s := by
  constructor
  · intro h; cases h <;> rfl
  · intro h
    cases v <;> simp only [scalar, reduceCtorEq, Option.some.injEq] at h
    · subst h; exact .number _
    · subst h; exact .string _

theorem no_text (v : Json) : (∀ s, ¬ Text v s) ↔ scalar v = none := by
  constructor
  · intro h
    cases hs : scalar v with
    | none => rfl
    | some s => exact absurd ((text_iff v s).2 hs) (h s)
  · intro h s ht
    rw [text_iff, h] at ht
    cases ht

/-- Helper: removing the rules for several paths. -/
def dropAll (us : List DocPath) (a : Integration.Acc) : Integration.Acc := us.foldl (fun a u => dropAt u a) a

theorem dropAll_append (us vs : List DocPath) (a : Integration.Acc) :
    dropAll (us ++ vs) a = dropAll vs (dropAll us a) := by
  unfold dropAll; rw [List.foldl_append]

theorem itemParams_spec (k : Str) (vs : List Json) (i : Nat) (a : Integration.Acc) :
    ∃ ss us, Texts vs ss ∧ itemParams k i vs a = (ss.map (fun s => (k, s)), dropAll us a) ∧
      ∀ u, u ∈ us ↔ ∃ n v, vs[n]? = some v ∧ (∀ s, ¬ Text v s) ∧ u = joinIndex (join rootPath k) (i + n) := by
  induction vs generalizing i a with
  | nil => exact ⟨[], [], .nil, rfl, by simp⟩
  | cons v vs ih =>
    rw [itemParams]
    cases hs : scalar v with
    | some s =>
      obtain ⟨ss, us, h1, h2, h3⟩ := ih (i + 1) a
      refine ⟨s :: ss, us, .take v s vs ss ((text_iff v s).2 hs) h1, by simp only [h2, List.map_cons], ?_⟩
      intro u
      rw [h3]
      constructor
      · rintro ⟨n, w, hn, hw, rfl⟩
        exact ⟨n + 1, w, by simpa using hn, hw, by rw [Nat.add_assoc, Nat.add_comm 1]⟩
      · rintro ⟨n, w, hn, hw, rfl⟩
        cases n with
        | zero =>
          simp only [List.getElem?_cons_zero, Option.some.injEq] at hn
          subst hn
          exact absurd ((text_iff v s).2 hs) (hw s)
        | succ n => exact ⟨n, w, by simpa using hn, hw, by rw [Nat.add_assoc, Nat.add_comm 1]⟩
    | none =>
      obtain ⟨ss, us, h1, h2, h3⟩ := ih (i + 1) (dropAt (joinIndex (join rootPath k) i) a)
      refine ⟨ss, joinIndex (join rootPath k) i :: us, .leave v vs ss ((no_text v).2 hs) h1, h2, ?_⟩
      intro u
      rw [List.mem_cons, h3]
      constructor
      · rintro (rfl | ⟨n, w, hn, hw, rfl⟩)
        · exact ⟨0, v, rfl, (no_text v).2 hs, rfl⟩
        · exact ⟨n + 1, w, by simpa using hn, hw, by rw [Nat.add_assoc, Nat.add_comm 1]⟩
      · rintro ⟨n, w, hn, hw, rfl⟩
        cases n with
        | zero => exact Or.inl rfl
        | succ n => exact Or.inr ⟨n, w, by simpa using hn, hw, by rw [Nat.add_assoc, Nat.add_comm 1]⟩

theorem fieldParams_spec (k : Str) (v : Json) (a : Integration.Acc) :
    ∃ ss us, Values v ss ∧ fieldParams k v a = (ss.map (fun s => (k, s)), dropAll us a) ∧
      ∀ u, u ∈ us ↔ ((∀ s, ¬ Text v s) ∧ (∀ vs, v ≠ .arr vs) ∧ u = join rootPath k) ∨
        ∃ vs n w, v = .arr vs ∧ vs[n]? = some w ∧ (∀ s, ¬ Text w s) ∧ u = joinIndex (join rootPath k) n := by
  by_cases harr : ∃ vs, v = .arr vs
  · obtain ⟨vs, rfl⟩ := harr
    obtain ⟨ss, us, h1, h2, h3⟩ := itemParams_spec k vs 0 a
    refine ⟨ss, us, .many vs ss h1, h2, ?_⟩
    intro u
    rw [h3]
    constructor
    · rintro ⟨n, w, hn, hw, rfl⟩
      exact Or.inr ⟨vs, n, w, rfl, hn, hw, by rw [Nat.zero_add]⟩
    · rintro (⟨-, h, -⟩ | ⟨vs', n, w, e, hn, hw, rfl⟩)
      · exact absurd rfl (h vs)
      · cases e
        exact ⟨n, w, hn, hw, by rw [Nat.zero_add]⟩
  · have hne : ∀ vs, v ≠ .arr vs := fun vs e => harr ⟨vs, e⟩
    have he : fieldParams k v a = match scalar v with
        | some s => ([(k, s)], a)
        | none => ([], dropAt (join rootPath k) a) := by
      cases v with
      | arr vs => exact absurd rfl (hne vs)
      | _ => rfl
    rw [he]
    cases hs : scalar v with
    | some s =>
      refine ⟨[s], [], .one v s ((text_iff v s).2 hs), rfl, ?_⟩
      intro u
      constructor
      · intro h; cases h
      · rintro (⟨h, -⟩ | ⟨vs, n, w, e, -⟩)
        · exact absurd ((text_iff v s).2 hs) (h s)
        · exact absurd e (hne vs)
    | none =>
      refine ⟨[], [join rootPath k], .none v ((no_text v).2 hs) hne, rfl, ?_⟩
      intro u
      rw [List.mem_singleton]
      constructor
      · rintro rfl; exact Or.inl ⟨(no_text v).2 hs, hne, rfl⟩
      · rintro (⟨-, -, rfl⟩ | ⟨vs, n, w, e, -⟩)
        · rfl
        · exact absurd e (hne vs)

theorem objParams_spec (m : List (Str × Json)) (a : Integration.Acc) :
    ∃ ps us, FormOf (.obj m) ps ∧ objParams m a = (ps, dropAll us a) ∧ ∀ u, u ∈ us ↔ Unsupported (.obj m) u := by
  induction m generalizing a with
  | nil =>
    refine ⟨[], [], .empty, rfl, ?_⟩
    intro u
    constructor
    · intro h; cases h
    · intro h
      generalize hj : Json.obj [] = j at h
      cases h with
      | field m k v hm => cases hj; cases hm
      | item m k vs i v hm => cases hj; cases hm
  | cons e m ih =>
    obtain ⟨k, v⟩ := e
    obtain ⟨ss, us, h1, h2, h3⟩ := fieldParams_spec k v a
    obtain ⟨ps, ws, i1, i2, i3⟩ := ih (dropAll us a)
    refine ⟨_, us ++ ws, .field k v m ss ps h1 i1, ?_, ?_⟩
    · rw [objParams]
      simp only [h2, i2, dropAll_append]
    · intro u
      rw [List.mem_append, h3, i3]
      constructor
      · rintro ((⟨g1, g2, rfl⟩ | ⟨vs, n, w, rfl, g1, g2, rfl⟩) | h)
        · exact .field _ k v (by simp) g1 g2
        · exact .item _ k vs n w (by simp) g1 g2
        · generalize hj : Json.obj m = j at h
          cases h with
          | field m' k' v' hm g1 g2 => cases hj; exact .field _ k' v' (List.mem_cons_of_mem _ hm) g1 g2
          | item m' k' vs n w hm g1 g2 => cases hj; exact .item _ k' vs n w (List.mem_cons_of_mem _ hm) g1 g2
      · intro h
        generalize hj : Json.obj ((k, v) :: m) = j at h
        cases h with
        | field m' k' v' hm g1 g2 =>
          cases hj
          rcases List.mem_cons.1 hm with e | hm
          · cases e; exact Or.inl (Or.inl ⟨g1, g2, rfl⟩)
          · exact Or.inr (.field _ k' v' hm g1 g2)
        | item m' k' vs n w hm g1 g2 =>
          cases hj
          rcases List.mem_cons.1 hm with e | hm
          · cases e; exact Or.inl (Or.inr ⟨vs, n, w, rfl, g1, g2, rfl⟩)
          · exact Or.inr (.item _ k' vs n w hm g1 g2)

theorem toParams_spec (x : Json) (a : Integration.Acc) :
    ∃ ps us, FormOf x ps ∧ toParams x a = (ps, dropAll us a) ∧ ∀ u, u ∈ us ↔ Unsupported x u := by
  by_cases h : ∃ m, x = .obj m
  · obtain ⟨m, rfl⟩ := h
    exact objParams_spec m a
  · have hne : ∀ m, x ≠ .obj m := fun m e => h ⟨m, e⟩
    refine ⟨[], [], .other x hne, ?_, ?_⟩
    · cases x with
      | obj m => exact absurd rfl (hne m)
      | _ => rfl
    · intro u
      constructor
      · intro h; cases h
      · intro h
        cases h with
        | field m => exact absurd rfl (hne m)
        | item m => exact absurd rfl (hne m)

theorem texts_unique {vs : List Json} {ss ss' : List Str} (h : Texts vs ss) (h' : Texts vs ss') : ss = ss' := by
  induction h generalizing ss' with
  | nil => cases h'; rfl
  | take v s vs ss ht _ ih =>
    cases h' with
    | take _ s' _ ss' ht' h' =>
      rw [text_iff] at ht ht'
      rw [ht] at ht'
      cases ht'
      rw [ih h']
    | leave _ _ _ hn => exact absurd ht (hn s)
  | leave v vs ss hn _ ih =>
    cases h' with
    | take _ s' _ ss' ht' h' => exact absurd ht' (hn s')
    | leave _ _ _ _ h' => exact ih h'

theorem values_unique {v : Json} {ss ss' : List Str} (h : Values v ss) (h' : Values v ss') : ss = ss' := by
  cases h with
  | one v s ht =>
    cases h' with
    | one _ s' ht' => rw [text_iff] at ht ht'; rw [ht] at ht'; cases ht'; rfl
    | many vs => cases ht
    | none _ hn => exact absurd ht (hn s)
  | many vs ss ht =>
    generalize hj : Json.arr vs = j at h'
    cases h' with
    | one _ s' ht' => subst hj; cases ht'
    | many vs' ss' ht' => cases hj; exact texts_unique ht ht'
    | none _ _ hn => exact absurd hj.symm (hn vs)
  | none v hn hne =>
    cases h' with
    | one _ s' ht' => exact absurd ht' (hn s')
    | many vs' => exact absurd rfl (hne vs')
    | none => rfl

/-- The parameters are determined by the document. -/
theorem C101_unique {x : Json} {ps ps' : Params} (h : FormOf x ps) (h' : FormOf x ps') : ps = ps' := by
  induction h generalizing ps' with
  | other x hne =>
    cases h' with
    | other => rfl
    | empty => exact absurd rfl (hne _)
    | field k v m => exact absurd rfl (hne _)
  | empty =>
    generalize hj : Json.obj [] = j at h'
    cases h' with
    | other x hne => exact absurd hj.symm (hne _)
    | empty => rfl
    | field k v m => cases hj
  | field k v m ss ps hv hm ih =>
    generalize hj : Json.obj ((k, v) :: m) = j at h'
    cases h' with
    | other x hne => exact absurd hj.symm (hne _)
    | empty => cases hj
    | field k' v' m' ss' ps' hv' hm' =>
      cases hj
      rw [ih hm', values_unique hv hv']

/-- **C101**: the body is the form with the values of the example document; it is made iff the JSON document is accepted. -/
theorem C101_body (S : Integration.Setup) (j : Json) (a : Integration.Acc) :
    (∀ b a', processForm S j a = .ok (b, a') → ∃ x ps, Example S j x ∧ FormOf x ps ∧ Spelled (utf8 b) ps) ∧
    ((∃ b a', processForm S j a = .ok (b, a')) ↔
      (∃ x, Example S j x) ∧ ∀ q m, Found S plain j q m → ¬ Broken S m) := by
  constructor
  · intro b a' h
    unfold processForm at h
    obtain ⟨⟨x, a1⟩, hx, he⟩ := Res.map_eq_ok.1 h
    obtain ⟨ps, us, h1, h2, -⟩ := toParams_spec x a1
    refine ⟨x, ps, ((IntegrationProps.C84_example S j x a).1 ⟨a1, hx⟩).1, h1, ?_⟩
    simp only [h2] at he
    cases he
    exact encode_spelled ps
  · constructor
    · rintro ⟨b, a', h⟩
      unfold processForm at h
      obtain ⟨⟨x, a1⟩, hx, -⟩ := Res.map_eq_ok.1 h
      have := (IntegrationProps.C84_example S j x a).1 ⟨a1, hx⟩
      exact ⟨⟨x, this.1⟩, this.2⟩
    · rintro ⟨⟨x, h1⟩, h2⟩
      obtain ⟨a1, hx⟩ := (IntegrationProps.C84_example S j x a).2 ⟨h1, h2⟩
      refine ⟨_, _, Res.map_eq_ok.2 ⟨(x, a1), hx, rfl⟩⟩

theorem lookup_filter_expr {β : Type} (f : Str → Bool) (m : List (DocPath × β)) (p : DocPath) :
    Rules.lookup (m.filter fun e => f e.1.expr) p = if f p.expr then Rules.lookup m p else none := by
  induction m with
  | nil => rw [List.filter_nil]; split <;> rfl
  | cons e m ih =>
    have hk : keyIs p e = decide (p.expr = e.1.expr) := by
      have := RuleProps.keyIs_iff p e
      cases hh : keyIs p e with
      | true => exact (decide_eq_true (this.1 hh).symm).symm
      | false =>
        symm
        apply decide_eq_false
        intro h2
        rw [this.2 h2.symm] at hh
        cases hh
    have hl : Rules.lookup (e :: m) p = if p.expr = e.1.expr then some e.2 else Rules.lookup m p := by
      unfold Rules.lookup
      rw [List.find?_cons, hk]
      by_cases h : p.expr = e.1.expr <;> simp [h]
    rw [List.filter_cons]
    by_cases hf : f e.1.expr = true
    · rw [if_pos hf]
      have hl' : Rules.lookup (e :: m.filter fun e => f e.1.expr) p =
          if p.expr = e.1.expr then some e.2 else Rules.lookup (m.filter fun e => f e.1.expr) p := by
        unfold Rules.lookup
        rw [List.find?_cons, hk]
        by_cases h : p.expr = e.1.expr <;> simp [h]
      rw [hl', hl, ih]
      by_cases h : p.expr = e.1.expr
      · rw [if_pos h, if_pos h, h, if_pos hf]
      · rw [if_neg h, if_neg h]
    · rw [if_neg hf, ih, hl]
      by_cases h : p.expr = e.1.expr
      · rw [h, if_neg hf, if_neg hf]
      · rw [if_neg h]

theorem lookup_isSome {β : Type} (m : List (DocPath × β)) (p : DocPath) :
    (Rules.lookup m p).isSome = m.any fun e => decide (e.1.expr = p.expr) := by
  unfold Rules.lookup
  rw [Option.isSome_map, Bool.eq_iff_iff, List.find?_isSome, List.any_eq_true]
  constructor
  · rintro ⟨e, he, h⟩; exact ⟨e, he, decide_eq_true ((RuleProps.keyIs_iff p e).1 h)⟩
  · rintro ⟨e, he, h⟩; exact ⟨e, he, (RuleProps.keyIs_iff p e).2 (of_decide_eq_true h)⟩

theorem genAt_withBody (gs : Generators) (d : GenCategory) (p : DocPath) : genAt (withBody gs) d p = genAt gs d p := by
  unfold withBody
  split
  · rfl
  · rename_i hn
    unfold genAt
    rw [List.find?_append]
    cases hf : gs.find? fun e => decide (e.1 = d) with
    | some e => rfl
    | none =>
      rw [Option.none_or, List.find?_cons]
      by_cases hd : GenCategory.body = d
      · simp only [hd, decide_true]
        rfl
      · simp only [hd, decide_false, List.find?_nil]

theorem genAt_map (f : Str → Bool) (gs : Generators) (d : GenCategory) (p : DocPath) :
    genAt (gs.map fun e => if e.1 = GenCategory.body then (e.1, e.2.filter fun g => f g.1.expr) else e) d p =
      if d = .body then (if f p.expr then genAt gs d p else none) else genAt gs d p := by
  induction gs with
  | nil =>
    simp only [genAt, List.map_nil, List.find?_nil]
    split
    · split <;> rfl
    · rfl
  | cons e gs ih =>
    unfold genAt at ih ⊢
    rw [List.map_cons, List.find?_cons, List.find?_cons]
    by_cases hb : e.1 = .body
    · rw [if_pos hb]
      by_cases hd : e.1 = d
      · simp only [hd, decide_true]
        rw [lookup_filter_expr]
        rw [if_pos (hd.symm.trans hb)]
      · simp only [hd, decide_false]
        exact ih
    · rw [if_neg hb]
      by_cases hd : e.1 = d
      · simp only [hd, decide_true]
        rw [if_neg (fun h => hb (hd.trans h))]
      · simp only [hd, decide_false]
        exact ih

theorem dropAt_spec (u : DocPath) (a : Integration.Acc) (p : DocPath) (d : GenCategory) :
    (dropAt u a).cat.name = a.cat.name ∧
    Rules.lookup (dropAt u a).cat.rules p = (if containsStr p.expr u.expr then none else Rules.lookup a.cat.rules p) ∧
    genAt (dropAt u a).gens d p =
      if d = .body ∧ containsStr p.expr u.expr = true ∧ (Rules.lookup a.cat.rules p).isSome = true then none
      else genAt a.gens d p := by
  refine ⟨rfl, ?_, ?_⟩
  · have := lookup_filter_expr (fun s => !containsStr s u.expr) a.cat.rules p
    show Rules.lookup (a.cat.rules.filter fun e => !containsStr e.1.expr u.expr) p = _
    rw [this]
    cases containsStr p.expr u.expr <;> rfl
  · have hhit : ((a.cat.rules.filter fun e => containsStr e.1.expr u.expr).any fun r => decide (r.1.expr = p.expr)) =
        (containsStr p.expr u.expr && (Rules.lookup a.cat.rules p).isSome) := by
      rw [← lookup_isSome, lookup_filter_expr (fun s => containsStr s u.expr)]
      cases containsStr p.expr u.expr <;> simp
    unfold dropAt
    simp only
    by_cases he : (a.cat.rules.filter fun e => containsStr e.1.expr u.expr).isEmpty = true
    · rw [if_pos he]
      rw [List.isEmpty_iff] at he
      rw [he] at hhit
      rw [if_neg]
      rintro ⟨-, h2, h3⟩
      rw [h2, h3] at hhit
      cases hhit
    · rw [if_neg he]
      have := genAt_map (fun s => !((a.cat.rules.filter fun e => containsStr e.1.expr u.expr).any fun r =>
        decide (r.1.expr = s))) (withBody a.gens) d p
      refine Eq.trans this ?_
      rw [genAt_withBody]
      simp only [hhit]
      by_cases hd : d = .body
      · cases containsStr p.expr u.expr <;> cases (Rules.lookup a.cat.rules p).isSome <;> simp [hd]
      · simp [hd]

theorem dropAll_spec (us : List DocPath) (a : Integration.Acc) (p : DocPath) (d : GenCategory) :
    (dropAll us a).cat.name = a.cat.name ∧
    Rules.lookup (dropAll us a).cat.rules p =
      (if us.any fun u => containsStr p.expr u.expr then none else Rules.lookup a.cat.rules p) ∧
    genAt (dropAll us a).gens d p =
      if d = .body ∧ (us.any fun u => containsStr p.expr u.expr) = true ∧ (Rules.lookup a.cat.rules p).isSome = true
      then none else genAt a.gens d p := by
  induction us generalizing a with
  | nil => exact ⟨rfl, by simp [dropAll], by simp [dropAll]⟩
  | cons u us ih =>
    have e : dropAll (u :: us) a = dropAll us (dropAt u a) := rfl
    rw [e]
    obtain ⟨h1, h2, h3⟩ := dropAt_spec u a p d
    obtain ⟨i1, i2, i3⟩ := ih (dropAt u a)
    refine ⟨i1.trans h1, ?_, ?_⟩
    · rw [i2, h2, List.any_cons]
      cases containsStr p.expr u.expr <;> simp
    · rw [i3, h2, h3, List.any_cons]
      cases containsStr p.expr u.expr with
      | false => simp
      | true =>
        by_cases hd : d = .body
        · cases (Rules.lookup a.cat.rules p).isSome <;> simp [hd]
        · simp [hd]

/-- **C101**: the rules and generators are those of the JSON document, except that the rules whose path contains the path of
an unsupported value are removed, and the body generators at the paths of these rules. -/
theorem C101_rules {S : Integration.Setup} {j : Json} {a a' : Integration.Acc} {b : Str}
    (h : processForm S j a = .ok (b, a')) :
    ∃ x a1, Integration.processJson S j a = .ok (x, a1) ∧ a'.cat.name = a1.cat.name ∧
      (∀ p, ((∃ u, Unsupported x u ∧ Within u.expr p.expr) → Rules.lookup a'.cat.rules p = none) ∧
        ((¬ ∃ u, Unsupported x u ∧ Within u.expr p.expr) →
          Rules.lookup a'.cat.rules p = Rules.lookup a1.cat.rules p)) ∧
      (∀ p, ((∃ u, Unsupported x u ∧ Within u.expr p.expr) ∧ (∃ rl, Rules.lookup a1.cat.rules p = some rl) →
          genAt a'.gens .body p = none) ∧
        (¬ ((∃ u, Unsupported x u ∧ Within u.expr p.expr) ∧ (∃ rl, Rules.lookup a1.cat.rules p = some rl)) →
          genAt a'.gens .body p = genAt a1.gens .body p)) ∧
      (∀ d p, d ≠ .body → genAt a'.gens d p = genAt a1.gens d p) := by
  unfold processForm at h
  obtain ⟨⟨x, a1⟩, hx, he⟩ := Res.map_eq_ok.1 h
  obtain ⟨ps, us, -, h2, h3⟩ := toParams_spec x a1
  simp only [h2] at he
  cases he
  have hany : ∀ p : DocPath, (us.any fun u => containsStr p.expr u.expr) = true ↔
      ∃ u, Unsupported x u ∧ Within u.expr p.expr := by
    intro p
    rw [List.any_eq_true]
    constructor
    · rintro ⟨u, hu, hc⟩; exact ⟨u, (h3 u).1 hu, (MatcherTableProps.contains_iff _ _).1 hc⟩
    · rintro ⟨u, hu, hc⟩; exact ⟨u, (h3 u).2 hu, (MatcherTableProps.contains_iff _ _).2 hc⟩
  have hsome : ∀ p, (Rules.lookup a1.cat.rules p).isSome = true ↔ ∃ rl, Rules.lookup a1.cat.rules p = some rl :=
    fun p => Option.isSome_iff_exists
  refine ⟨x, a1, hx, (dropAll_spec us a1 rootPath .body).1, ?_, ?_, ?_⟩
  · intro p
    rw [(dropAll_spec us a1 p .body).2.1]
    constructor
    · intro hu; rw [if_pos ((hany p).2 hu)]
    · intro hu; rw [if_neg (fun h => hu ((hany p).1 h))]
  · intro p
    rw [(dropAll_spec us a1 p .body).2.2]
    constructor
    · rintro ⟨hu, hr⟩; rw [if_pos ⟨rfl, (hany p).2 hu, (hsome p).2 hr⟩]
    · intro hu; rw [if_neg (fun h => hu ⟨(hany p).1 h.2.1, (hsome p).1 h.2.2⟩)]
  · intro d p hd
    rw [(dropAll_spec us a1 p d).2.2, if_neg (fun h => hd h.1)]

/-- **C101**: if everything can be in a form, the rules and generators are those of the JSON document. -/
theorem C101_supported {S : Integration.Setup} {j : Json} {a a' : Integration.Acc} {b : Str}
    (h : processForm S j a = .ok (b, a')) (hs : ∀ x u, Example S j x → ¬ Unsupported x u) :
    ∃ x, Integration.processJson S j a = .ok (x, a') := by
  unfold processForm at h
  obtain ⟨⟨x, a1⟩, hx, he⟩ := Res.map_eq_ok.1 h
  obtain ⟨ps, us, -, h2, h3⟩ := toParams_spec x a1
  have hex := ((IntegrationProps.C84_example S j x a).1 ⟨a1, hx⟩).1
  have hus : us = [] := by
    apply List.eq_nil_iff_forall_not_mem.2
    intro u hu
    exact hs x u hex ((h3 u).1 hu)
  simp only [h2, hus] at he
  cases he
  exact ⟨x, hx⟩

/-! ### Non-vacuity and findings -/

open IntegrationProps (S0 a0 js)
open RuleJson (obj)

/-- A form with a matcher in it. -/
def exForm : Json := obj [("id", obj [("pact:matcher:type", js "integer"), ("value", .num (.pos 7))]),
  ("tag", .arr [js "a b", js "é"])]

/-- The result of a form. -/
def formResult (j : Json) : Option (Str × List (Str × Nat)) :=
  match processForm S0 j a0 with
  | .ok (b, a) => some (b, a.cat.rules.map fun e => (e.1.expr, e.2.rules.length))
  | _ => none

set_option maxRecDepth 100000 in
theorem C101_witness : formResult exForm = some ("id=7&tag=a+b&tag=%C3%A9".toList, [("$.id".toList, 1)]) := by
  decide +kernel

/-- The hypothesis of `C101_supported` is met. -/
theorem C101_supported_witness : (∃ x, Example S0 exForm x) ∧ ∀ x u, Example S0 exForm x → ¬ Unsupported x u := by
  have hp : ∃ a', Integration.processJson S0 exForm a0 =
      .ok (.obj [(['i', 'd'], .num (.pos 7)), (['t', 'a', 'g'], .arr [.str ['a', ' ', 'b'], .str ['é']])], a') := ⟨_, rfl⟩
  have hex := ((IntegrationProps.C84_example _ _ _ _).1 hp).1
  refine ⟨⟨_, hex⟩, ?_⟩
  intro x u hx hu
  have e := IntegrationProps.C84_unique hx hex
  rw [e] at hu
  clear e
  generalize hj : Json.obj [(['i', 'd'], .num (.pos 7)), (['t', 'a', 'g'], .arr [.str ['a', ' ', 'b'], .str ['é']])] = j at hu
  cases hu with
  | field m k v hm h1 h2 =>
    cases hj
    simp only [List.mem_cons, Prod.mk.injEq, List.mem_nil_iff, or_false] at hm
    rcases hm with ⟨-, rfl⟩ | ⟨-, rfl⟩
    · exact h1 _ (.number _)
    · exact h2 _ rfl
  | item m k vs i v hm h1 h2 =>
    cases hj
    simp only [List.mem_cons, Prod.mk.injEq, List.mem_nil_iff, or_false, reduceCtorEq, and_false, false_or,
      Json.arr.injEq] at hm
    rw [hm.2] at h1
    have := List.mem_of_getElem? h1
    simp only [List.mem_cons, List.mem_nil_iff, or_false] at this
    rcases this with rfl | rfl <;> exact h2 _ (.string _)

/-- Finding: the test is whether the path text occurs in the path of the rule, so that an unsupported `a` removes the rules of
`ab` as well. -/
theorem C101_prefix : formResult (obj [("a", .null), ("ab", obj [("pact:matcher:type", js "integer"), ("value", .num (.pos 7))])])
    = some ("ab=7".toList, []) := by
  decide +kernel

/-- Finding: the rules of the items behind an unsupported item stay at the old positions. -/
theorem C101_shift : formResult (obj [("a", .arr [.null, obj [("pact:matcher:type", js "integer"), ("value", .num (.pos 7))]])])
    = some ("a=7".toList, [("$.a[1]".toList, 1)]) := by
  decide +kernel

end FormProps
end Verif
