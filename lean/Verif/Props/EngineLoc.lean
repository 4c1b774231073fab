import Verif.Props.EngineRules
import Verif.Props.BodyGeneratorProps

/-
  Resolving the paths of a plan against a JSON document.
-/
set_option autoImplicit false

namespace Verif
namespace EngineWalk
open Path Rules Matchers Compare Query Headers MatchResult Engine JsonUtils
open BodyGeneratorProps (Seg getAt segName leaves_node leaves_short splitSlash_join unescape_plain parseIndex_natStr digit_ne)

/-- The path token of a step. -/
def segTok : Seg → PathToken
  | .key k => .field k
  | .idx i => .index i

/-- A step whose name is not empty and has no characters that are special in JSON pointers. -/
def StepOk : Seg → Prop
  | .key k => k ≠ [] ∧ '/' ∉ k ∧ '~' ∉ k
  | .idx _ => True

/-- The arrays of the document fit in memory. -/
def Fits (j : Json) : Prop := ∀ loc l, getAt loc j = some (.arr l) → l.length ≤ usizeLim

theorem natStr_ne_nil (i : Nat) : natStr i ≠ [] := Verif.natStr_ne_nil i

theorem segName_ne_nil (s : Seg) (h : StepOk s) : segName s ≠ [] := by
  cases s with
  | key k => exact h.1
  | idx i => exact natStr_ne_nil i

theorem segName_special (s : Seg) (h : StepOk s) : '/' ∉ segName s ∧ '~' ∉ segName s := by
  cases s with
  | key k => exact ⟨h.2.1, h.2.2⟩
  | idx i =>
    constructor
    · intro hm; exact digit_ne (natStr_digits i _ hm) (by decide) rfl
    · intro hm; exact digit_ne (natStr_digits i _ hm) (by decide) rfl

theorem leavesList_one (n : Nat) (above : List Str) (t : PTree) : leavesList n above [t] = leaves n above t := by
  simp [leavesList]

theorem queryGraph_ne_nil (segs : List Seg) (hne : segs ≠ []) (j v : Json) (h : getAt segs j = some v) :
    queryGraph (segs.map segTok) j ≠ [] := by
  cases segs with
  | nil => exact absurd rfl hne
  | cons s ss =>
    cases s with
    | key k =>
      cases j <;> simp only [getAt] at h <;> try cases h
      rename_i es
      cases hl : Json.lookup k es with
      | none => rw [hl] at h; cases h
      | some w => simp [segTok, queryGraph, hl]
    | idx i =>
      cases j <;> simp only [getAt] at h <;> try cases h
      rename_i l
      cases hl : l[i]? with
      | none => rw [hl] at h; cases h
      | some w => simp [segTok, queryGraph, hl]

theorem leaves_found (segs : List Seg) : ∀ (j v : Json) (above : List Str), segs ≠ [] → (∀ s ∈ segs, StepOk s) →
    getAt segs j = some v →
    leavesList (above.length + segs.length) above (queryGraph (segs.map segTok) j) = [above ++ segs.map segName] := by
  induction segs with
  | nil => intro j v above h; exact absurd rfl h
  | cons s ss ih =>
    intro j v above _ hok h
    have hs := hok s (List.mem_cons_self ..)
    have key : ∀ w, getAt ss w = some v →
        leaves (above.length + (s :: ss).length) above (.node (segName s) (queryGraph (ss.map segTok) w))
          = [above ++ (s :: ss).map segName] := by
      intro w hw
      rw [leaves_node]
      cases hss : ss with
      | nil =>
        have : segName s ≠ [] := segName_ne_nil s hs
        cases hn : segName s with
        | nil => exact absurd hn this
        | cons c cs => simp [queryGraph, hn]
      | cons t ts =>
        have hne := queryGraph_ne_nil ss (by rw [hss]; simp) w v hw
        rw [← hss]
        have : (queryGraph (ss.map segTok) w).isEmpty = false := by
          cases hq : queryGraph (ss.map segTok) w with
          | nil => exact absurd hq hne
          | cons _ _ => rfl
        rw [this]
        have hi := ih w v (above ++ [segName s]) (by rw [hss]; simp)
          (fun x hx => hok x (List.mem_cons_of_mem _ hx)) hw
        simp only [List.length_append, List.length_cons, List.length_nil] at hi
        rw [show above.length + (0 + 1) + ss.length = above.length + (ss.length + 1) by omega] at hi
        simp only [Bool.false_eq_true, if_false, List.length_cons]
        rw [hi]
        simp
    cases s with
    | key k =>
      cases j <;> simp only [getAt] at h <;> try cases h
      rename_i es
      cases hl : Json.lookup k es with
      | none => rw [hl] at h; cases h
      | some w =>
        rw [hl] at h
        have := key w h
        simp only [List.map_cons, segTok, queryGraph, hl, leavesList_one]
        exact this
    | idx i =>
      cases j <;> simp only [getAt] at h <;> try cases h
      rename_i l
      cases hl : l[i]? with
      | none => rw [hl] at h; cases h
      | some w =>
        rw [hl] at h
        have := key w h
        simp only [List.map_cons, segTok, queryGraph, hl, leavesList_one]
        exact this

theorem leaves_absent (segs : List Seg) : ∀ (j : Json) (above : List Str), getAt segs j = none →
    leavesList (above.length + segs.length) above (queryGraph (segs.map segTok) j) = [] := by
  induction segs with
  | nil => intro j above h; cases h
  | cons s ss ih =>
    intro j above h
    have key : ∀ w, getAt ss w = none →
        leaves (above.length + (s :: ss).length) above (.node (segName s) (queryGraph (ss.map segTok) w)) = [] := by
      intro w hw
      rw [leaves_node]
      split
      · rw [if_neg]
        cases ss with
        | nil => cases hw
        | cons t ts =>
          simp only [List.length_append, List.length_cons, List.length_nil, Bool.and_eq_true, decide_eq_true_eq]
          omega
      · have hi := ih w (above ++ [segName s]) hw
        simp only [List.length_append, List.length_cons, List.length_nil] at hi
        rw [show above.length + (0 + 1) + ss.length = above.length + (ss.length + 1) by omega] at hi
        exact hi
    cases s with
    | key k =>
      cases j <;> simp only [List.map_cons, segTok, queryGraph, leavesList]
      rename_i es
      simp only [getAt] at h
      cases hl : Json.lookup k es with
      | none => simp [leavesList]
      | some w =>
        rw [hl] at h
        simp only [leavesList_one]
        exact key w h
    | idx i =>
      cases j <;> simp only [List.map_cons, segTok, queryGraph, leavesList]
      rename_i l
      simp only [getAt] at h
      cases hl : l[i]? with
      | none =>
        simp only []
        exact leaves_short _ _ _ _ (by simp)
      | some w =>
        rw [hl] at h
        simp only [leavesList_one]
        exact key w h

theorem fits_key {es : List (Str × Json)} {k : Str} {v : Json} (h : Fits (.obj es)) (hl : Json.lookup k es = some v) :
    Fits v := by
  intro loc l hg
  exact h (.key k :: loc) l (by simp only [getAt, hl]; exact hg)

theorem fits_idx {l : List Json} {i : Nat} {v : Json} (h : Fits (.arr l)) (hl : l[i]? = some v) : Fits v := by
  intro loc m hg
  exact h (.idx i :: loc) m (by simp only [getAt, hl]; exact hg)

theorem lookupTokens_found (segs : List Seg) : ∀ (j v : Json), Fits j → getAt segs j = some v →
    lookupTokens (segs.map segName) j = some v := by
  induction segs with
  | nil => intro j v _ h; exact h
  | cons s ss ih =>
    intro j v hf h
    cases s with
    | key k =>
      cases j <;> simp only [getAt] at h <;> try cases h
      rename_i es
      cases hl : Json.lookup k es with
      | none => rw [hl] at h; cases h
      | some w =>
        rw [hl] at h
        simp only [List.map_cons, segName, lookupTokens, hl]
        exact ih w v (fits_key hf hl) h
    | idx i =>
      cases j <;> simp only [getAt] at h <;> try cases h
      rename_i l
      cases hl : l[i]? with
      | none => rw [hl] at h; cases h
      | some w =>
        rw [hl] at h
        have hi : i < usizeLim := by
          have h1 := (List.getElem?_eq_some_iff.mp hl).1
          have h2 := hf [] l rfl
          omega
        simp only [List.map_cons, segName, lookupTokens, parseIndex_natStr i hi, Option.bind_some, hl]
        exact ih w v (fits_idx hf hl) h

/-- A JSON value, or no value. -/
def ofOpt : Option Json → NodeValue
  | some j => .json j
  | none => .null

/-- Resolving a path without wildcards gives the value at the location. -/
theorem resolveJson_eq (segs : List Seg) (j : Json) (expr : Str) (hok : ∀ s ∈ segs, StepOk s) (hf : Fits j) :
    resolveJson j ⟨.root :: segs.map segTok, expr⟩ = ofOpt (getAt segs j) := by
  rw [resolveJson]
  cases hs : segs with
  | nil => rfl
  | cons t ts =>
    have hne : segs ≠ [] := by rw [hs]; simp
    have hroot : isRoot ⟨.root :: segs.map segTok, expr⟩ = false := by
      rw [hs]; rfl
    rw [← hs]
    rw [hroot]
    simp only [Bool.false_eq_true, if_false]
    have hlen : (PathToken.root :: segs.map segTok).length = ([[]] : List Str).length + segs.length := by
      simp only [List.length_cons, List.length_map, List.length_nil]; omega
    have hrp : resolvePath j (.root :: segs.map segTok) =
        (leavesList (([[]] : List Str).length + segs.length) [[]] (queryGraph (segs.map segTok) j)).map joinSlash := by
      rw [resolvePath, hlen]; rfl
    rw [hrp]
    cases hg : getAt segs j with
    | none => rw [leaves_absent segs j [[]] hg]; rfl
    | some v =>
      rw [leaves_found segs j v [[]] hne hok hg]
      simp only [List.map_cons, List.map_nil, List.cons_append, List.nil_append]
      have hp : pointer (joinSlash ([] :: segs.map segName)) j = some v := by
        have hsplit : splitSlash (joinSlash ([] :: segs.map segName)) = [] :: segs.map segName := by
          apply splitSlash_join
          · simp
          · intro x hx
            rcases List.mem_cons.mp hx with rfl | hx
            · simp
            · obtain ⟨y, hy, rfl⟩ := List.mem_map.mp hx
              exact (segName_special y (hok y hy)).1
        have hform : ∃ r, joinSlash ([] :: segs.map segName) = '/' :: r := by
          rw [hs]; exact ⟨_, rfl⟩
        obtain ⟨r, hr⟩ := hform
        rw [pointer]
        rw [hsplit]
        have hmap : (segs.map segName).map unescapeToken = segs.map segName := by
          rw [List.map_map]
          apply List.map_congr_left
          intro y hy
          exact unescape_plain _ (segName_special y (hok y hy)).2
        rw [hr]
        simp only [List.isEmpty_cons, Bool.false_eq_true, if_false, List.head?_cons, if_true, List.drop_succ_cons,
          List.drop_zero, hmap]
        exact lookupTokens_found segs j v hf hg
      rw [hp]
      rfl

/-- The result of resolving a path of a plan against the document on top of the stack. -/
theorem curResult_eq (segs : List Seg) (a : Json) (p : DocPath) (s : Stack) (hp : p.tokens = .root :: segs.map segTok)
    (hok : ∀ x ∈ segs, StepOk x) (hf : Fits a) :
    curResult p (some (.value (.json a)) :: s) = .value (ofOpt (getAt segs a)) := by
  cases p with
  | mk ts e =>
    simp only at hp
    subst hp
    rw [curResult]
    simp only [resolveStack]
    rw [resolveJson_eq segs a e hok hf]

theorem getAt_append (l m : List Seg) : ∀ j, getAt (l ++ m) j = (getAt l j).bind (getAt m) := by
  induction l with
  | nil => intro j; rfl
  | cons s ss ih =>
    intro j
    cases s with
    | key k =>
      cases j <;> simp only [List.cons_append, getAt, Option.bind_none]
      rename_i es
      cases Json.lookup k es with
      | none => rfl
      | some w => exact ih w
    | idx i =>
      cases j <;> simp only [List.cons_append, getAt, Option.bind_none]
      rename_i l
      cases l[i]? with
      | none => rfl
      | some w => exact ih w

end EngineWalk
end Verif
