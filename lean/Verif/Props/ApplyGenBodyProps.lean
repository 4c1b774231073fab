import Verif.Props.ApplyGenProps
import Verif.Props.BodyGeneratorProps
import Verif.Props.FormGenProps
import Verif.Props.CompareProps

/-
  C140, C143, C144: generated bodies, messages, and the variants of arrays.
-/

set_option autoImplicit false

namespace Verif
namespace ApplyGenBodyProps
open Path Rules Generate PactFile Query Headers ApplyGen ApplyGenProps
open RuleJson (Obj)
open Provider (Libs asBody)
open BodyGeneratorProps (Seg getAt Addresses Tame shape Shape GenWF Addressed PlainSeg)
open JsonUtils (Gen updateTokens pointerUpdate modifyKey)

/-! ### The handler that may panic and the handler that does not -/

theorem modifyKey_id (k : Str) (f : Json → Json) (es : List (Str × Json)) (h : ∀ e ∈ es, e.1 = k → f e.2 = e.2) :
    modifyKey k f es = es := by
  unfold modifyKey
  conv => rhs; rw [← List.map_id es]
  apply List.map_congr_left
  intro e he
  by_cases hk : e.1 = k
  · rw [if_pos hk, h e he hk]; rfl
  · rw [if_neg hk]; rfl

theorem lookup_none_ne {k : Str} : ∀ {es : List (Str × Json)}, Json.lookup k es = none → ∀ e ∈ es, e.1 ≠ k
  | [], _, e, he => by simp at he
  | (a, b) :: es, h, e, he => by
    simp only [Json.lookup] at h
    by_cases ha : a = k
    · rw [if_pos ha] at h; cases h
    · rw [if_neg ha] at h
      rcases List.mem_cons.1 he with rfl | he
      · exact ha
      · exact lookup_none_ne h e he

theorem update_none (ts : List Str) : ∀ (f : Json → Json) (j : Json), j.WF → getTokens ts j = none → updateTokens ts f j = j := by
  induction ts with
  | nil => intro f j _ h; simp [getTokens] at h
  | cons t ts ih =>
    intro f j hw h
    cases j with
    | obj es =>
      simp only [getTokens] at h
      simp only [updateTokens]
      congr 1
      apply modifyKey_id
      intro e he hk
      subst hk
      rw [Json.lookup_of_mem (k := e.1) (v := e.2) hw.1.nodup he] at h
      exact ih f e.2 ((Json.WFEntries_iff _).1 hw.2 _ he) h
    | arr l =>
      simp only [getTokens] at h
      simp only [updateTokens]
      cases hp : JsonUtils.parseIndex t with
      | none => rfl
      | some i =>
        rw [hp] at h
        simp only [Option.bind_some] at h ⊢
        congr 1
        apply List.ext_getElem?
        intro n
        rw [List.getElem?_modify]
        by_cases hn : i = n
        · subst hn
          cases hl : l[i]? with
          | none => rfl
          | some v =>
            rw [hl] at h
            have := ih f v ((Json.WFList_iff _).1 hw _ (List.mem_of_getElem? hl)) h
            simp [this]
        · simp [hn]
    | _ => rfl

theorem update_some (ts : List Str) : ∀ (f : Json → Json) (j v : Json), j.WF → getTokens ts j = some v →
    updateTokens ts f j = updateTokens ts (fun _ => f v) j := by
  induction ts with
  | nil => intro f j v _ h; simp only [getTokens, Option.some.injEq] at h; subst h; rfl
  | cons t ts ih =>
    intro f j v hw h
    cases j with
    | obj es =>
      simp only [getTokens] at h
      simp only [updateTokens]
      congr 1
      cases hl : Json.lookup t es with
      | none => rw [hl] at h; cases h
      | some w =>
        rw [hl] at h
        exact BodyGeneratorProps.modifyKey_congr t _ _ es hw.1.nodup w hl
          (ih f w v ((Json.WFEntries_iff _).1 hw.2 _ (Json.lookup_mem hl)) h)
    | arr l =>
      simp only [getTokens] at h
      simp only [updateTokens]
      cases hp : JsonUtils.parseIndex t with
      | none => rfl
      | some i =>
        rw [hp] at h
        simp only [Option.bind_some] at h ⊢
        cases hl : l[i]? with
        | none => rw [hl] at h; cases h
        | some w =>
          rw [hl] at h
          congr 1
          exact BodyGeneratorProps.modify_congr l i _ _ w hl (ih f w v ((Json.WFList_iff _).1 hw _ (List.mem_of_getElem? hl)) h)
    | _ => simp [getTokens] at h

theorem update_same (ts : List Str) : ∀ (j v : Json), j.WF → getTokens ts j = some v → updateTokens ts (fun _ => v) j = j := by
  intro j v hw h
  have := update_some ts id j v hw h
  rw [show (fun _ => id v) = (fun _ : Json => v) from rfl] at this
  rw [← this]
  clear this h v
  induction ts generalizing j with
  | nil => rfl
  | cons t ts ih =>
    cases j with
    | obj es =>
      simp only [updateTokens]
      congr 1
      exact modifyKey_id t _ es fun e he _ => ih e.2 ((Json.WFEntries_iff _).1 hw.2 _ he)
    | arr l =>
      simp only [updateTokens]
      cases JsonUtils.parseIndex t with
      | none => rfl
      | some i =>
        simp only
        congr 1
        apply List.ext_getElem?
        intro n
        rw [List.getElem?_modify]
        by_cases hn : i = n
        · subst hn
          cases hl : l[i]? with
          | none => rfl
          | some v => simp [ih v ((Json.WFList_iff _).1 hw _ (List.mem_of_getElem? hl))]
        · simp [hn]
    | _ => rfl

theorem update_wf (ts : List Str) : ∀ (f : Json → Json) (j : Json), (∀ v : Json, v.WF → (f v).WF) → j.WF →
    (updateTokens ts f j).WF := by
  induction ts with
  | nil => intro f j hf hw; exact hf j hw
  | cons t ts ih =>
    intro f j hf hw
    cases j with
    | obj es =>
      simp only [updateTokens, Json.WF]
      refine ⟨by rw [BodyGeneratorProps.keys_modifyKey]; exact hw.1, (Json.WFEntries_iff _).2 ?_⟩
      intro e he
      obtain ⟨x, hx, rfl⟩ := List.mem_map.1 he
      have := (Json.WFEntries_iff _).1 hw.2 x hx
      split
      · exact ih f x.2 hf this
      · exact this
    | arr l =>
      simp only [updateTokens]
      cases JsonUtils.parseIndex t with
      | none => exact hw
      | some i =>
        refine (Json.WFList_iff _).2 ?_
        intro e he
        obtain ⟨n, hn⟩ := List.mem_iff_getElem?.1 he
        rw [List.getElem?_modify] at hn
        cases hl : l[n]? with
        | none => rw [hl] at hn; simp at hn
        | some v =>
          rw [hl] at hn
          have hv := (Json.WFList_iff _).1 hw v (List.mem_of_getElem? hl)
          simp only [Option.map_eq_map, Option.map_some, Option.some.injEq] at hn
          subst hn
          split
          · exact ih f v hf hv
          · exact hv
    | _ => exact hw

theorem pointer_wf (ptr : Str) (f : Json → Json) (j : Json) (hf : ∀ v : Json, v.WF → (f v).WF) (hw : j.WF) :
    (pointerUpdate ptr f j).WF := by
  unfold pointerUpdate
  split
  · exact hf j hw
  · split
    · exact update_wf _ f j hf hw
    · exact hw

/-- A generator of the handler that does not panic. -/
def plainGen (applies : Bool) (g : Str → Json → Res Json) : Gen := ⟨applies, fun ptr v => okPart (g ptr v)⟩

theorem applyPointer_ok (a : Bool) (g : Str → Json → Res Json) (j j' : Json) (ptr : Str) (hw : j.WF)
    (h : applyPointer g j ptr = .ok j') : j' = pointerUpdate ptr ((plainGen a g).value ptr) j := by
  unfold applyPointer pointerGet at h
  unfold pointerUpdate Gen.value plainGen
  simp only
  by_cases he : ptr.isEmpty = true
  · rw [if_pos he] at h ⊢
    simp only at h
    rw [orKeep_ok h, okPart_map]
    cases okPart (g ptr j) with
    | none => rfl
    | some w => simp [pointerUpdate, he]
  · rw [if_neg he] at h ⊢
    by_cases hh : ptr.head? = some '/'
    · rw [if_pos hh] at h ⊢
      generalize hts : List.map JsonUtils.unescapeToken (List.drop 1 (JsonUtils.splitSlash ptr)) = ts at h ⊢
      cases hv : getTokens ts j with
      | none =>
        rw [hv] at h
        simp only [Res.ok.injEq] at h
        rw [update_none ts _ j hw hv, h]
      | some v =>
        rw [hv] at h
        simp only at h
        rw [orKeep_ok h, okPart_map, update_some ts _ j v hw hv]
        cases okPart (g ptr v) with
        | none => exact (update_same ts j v hw hv).symm
        | some w =>
          simp only [Option.map_some, Option.getD_some]
          unfold pointerUpdate
          rw [if_neg he, if_pos hh, hts]
    · rw [if_neg hh] at h ⊢
      simp only [Res.ok.injEq] at h
      exact h.symm

/-- A generator makes documents from documents. -/
def MakesWF (g : Str → Json → Res Json) : Prop := ∀ ptr (v w : Json), v.WF → g ptr v = .ok w → w.WF

theorem okPart_some {A : Type} {r : Res A} {a : A} (h : okPart r = some a) : r = .ok a := by
  cases r with
  | ok b => simp only [okPart, Option.some.injEq] at h; rw [h]
  | _ => simp [okPart] at h

theorem plainGen_wf (a : Bool) (g : Str → Json → Res Json) (h : MakesWF g) : GenWF (plainGen a g) :=
  fun ptr v w hv hw => h ptr v w hv (okPart_some hw)

theorem applyKey_ok (key : DocPath) (a : Bool) (g : Str → Json → Res Json) (hg : MakesWF g) (j j' : Json) (hw : j.WF)
    (h : ApplyGen.applyKey key g j = .ok j') : j' = JsonUtils.applyKey key.tokens (plainGen a g) j := by
  unfold ApplyGen.applyKey at h
  unfold JsonUtils.applyKey
  simp only at h ⊢
  split at h
  · rename_i he
    rw [if_pos he]
    generalize JsonUtils.resolvePath j key.tokens = ptrs at h
    clear he
    induction ptrs generalizing j with
    | nil => simpa [foldR] using h.symm
    | cons ptr ptrs ih =>
      simp only [foldR] at h
      obtain ⟨j1, h1, h2⟩ := bind_eq_ok h
      have e1 := applyPointer_ok a g j j1 ptr hw h1
      have hw1 : j1.WF := by
        rw [e1]
        exact pointer_wf ptr _ j (fun v hv => BodyGeneratorProps.value_wf (plainGen_wf a g hg) ptr v hv) hw
      rw [List.foldl_cons, ← e1]
      exact ih j1 hw1 h2
  · rename_i he
    rw [if_neg he]
    split at h
    · rename_i hl
      rw [if_pos hl, orKeep_ok h]
      rfl
    · rename_i hl
      rw [if_neg hl]
      simpa using h.symm

theorem applyKey_wf (key : DocPath) (g : Str → Json → Res Json) (hg : MakesWF g) (j j' : Json) (hw : j.WF)
    (h : ApplyGen.applyKey key g j = .ok j') : j'.WF := by
  have e := applyKey_ok key true g hg j j' hw h
  rw [e]
  unfold JsonUtils.applyKey
  simp only
  split
  · rename_i hx
    clear e h hx
    generalize JsonUtils.resolvePath j key.tokens = ptrs
    induction ptrs generalizing j with
    | nil => exact hw
    | cons ptr ptrs ih =>
      rw [List.foldl_cons]
      exact ih _ (pointer_wf ptr _ j (fun v hv => BodyGeneratorProps.value_wf (plainGen_wf true g hg) ptr v hv) hw)
  · split
    · exact BodyGeneratorProps.value_wf (plainGen_wf true g hg) _ j hw
    · exact hw

/-! ### The values generators make -/

/-- Not a list and not an object. -/
def Scalar : Json → Prop
  | .arr _ => False
  | .obj _ => False
  | _ => True

/-- The values of the provider states and what is read as a floating point number are of a kind. -/
structure Kind (G : GLib) (ctx : Obj) (P : Json → Prop) : Prop where
  scalar : ∀ j, Scalar j → P j
  float : ∀ s j, G.f64.parse s = some j → P j
  state : ∀ n v, stateValue ctx n = some v → P v

theorem pushText_kind {P : Json → Prop} (hs : ∀ j, Scalar j → P j) (r : List Json) (t : Str) (h : ∀ v ∈ r, P v) :
    ∀ v ∈ Expr.pushText r t, P v := by
  intro v hv
  unfold Expr.pushText at hv
  split at hv
  · exact h v hv
  · rcases List.mem_append.1 hv with hv | hv
    · exact h v hv
    · rw [List.mem_singleton] at hv; subst hv; exact hs _ trivial

theorem loop_kind {P : Json → Prop} (res : Str → Option Json) (hs : ∀ j, Scalar j → P j) (hr : ∀ n v, res n = some v → P v)
    (fuel : Nat) : ∀ (b : Str) (r r' : List Json) (b' : Str), (∀ v ∈ r, P v) → Expr.loop res fuel b r = .ok (r', b') →
      ∀ v ∈ r', P v := by
  induction fuel with
  | zero => intro b r r' b' h hl; simp only [Expr.loop, Res.ok.injEq, Prod.mk.injEq] at hl; rw [← hl.1]; exact h
  | succ n ih =>
    intro b r r' b' h hl
    rw [Expr.loop] at hl
    split at hl
    · simp only [Res.ok.injEq, Prod.mk.injEq] at hl; rw [← hl.1]; exact h
    · simp only at hl
      split at hl
      · cases hl
      · split at hl
        · cases hl
        · split at hl
          · split at hl
            · rename_i w hw
              refine ih _ _ _ _ ?_ hl
              intro v hv
              rcases List.mem_append.1 hv with hv | hv
              · exact pushText_kind hs _ _ h v hv
              · rw [List.mem_singleton] at hv; subst hv; exact hr _ _ hw
            · cases hl
          · exact ih _ _ _ _ (pushText_kind hs _ _ h) hl

theorem fromContext_kind {G : GLib} {ctx : Obj} {P : Json → Prop} (k : Kind G ctx P) (e : Str) (v : Json)
    (h : fromContext e (stateContext ctx) = .ok v) : P v := by
  unfold fromContext at h
  split at h
  · rename_i hc
    unfold Expr.parseExpression at h
    rw [if_pos hc] at h
    unfold Expr.replaceExpressions at h
    obtain ⟨⟨r, b⟩, hl, hv⟩ := Res.map_eq_ok.1 h
    have := pushText_kind k.scalar r b (loop_kind _ k.scalar k.state _ _ _ _ _ (by simp) hl)
    simp only at hv
    split at hv
    · rename_i w hw
      rw [hw] at this
      subst hv
      exact this _ (by simp)
    · subst hv; exact k.scalar _ trivial
  · cases hl : Json.lookup e (stateContext ctx) with
    | none => rw [hl] at h; cases h
    | some w =>
      rw [hl] at h
      simp only [Expr.okOr, Res.ok.injEq] at h
      subst h
      exact k.state e w hl

theorem asJson_kind {G : GLib} {ctx : Obj} {P : Json → Prop} (k : Kind G ctx P) (dt : DataType) (v w : Json) (hv : P v)
    (h : Expr.asJson G.f64 dt v = .ok w) : P w := by
  have ho : ∀ o : Option Json, (∀ j, o = some j → P j) → Expr.okOr o = .ok w → P w := by
    intro o hj hx
    cases o with
    | none => cases hx
    | some j => simp only [Expr.okOr, Res.ok.injEq] at hx; subst hx; exact hj j rfl
  have hi : ∀ i : Int, Scalar (Expr.intJson i) := by intro i; cases i <;> trivial
  cases dt with
  | raw => simp only [Expr.asJson, Res.ok.injEq] at h; subst h; exact hv
  | string => cases v <;> (simp only [Expr.asJson, Res.ok.injEq] at h; subst h; exact k.scalar _ trivial)
  | integer =>
    cases v with
    | num n => cases n <;> (simp only [Expr.asJson, Res.ok.injEq] at h; subst h; first | exact k.scalar _ trivial | exact k.scalar _ (hi _))
    | str s =>
      simp only [Expr.asJson] at h
      refine ho _ ?_ h
      intro j hj
      obtain ⟨n, _, rfl⟩ := Option.map_eq_some_iff.1 hj
      exact k.scalar _ trivial
    | arr _ => cases h
    | obj _ => cases h
    | _ => simp only [Expr.asJson, Res.ok.injEq] at h; subst h; exact k.scalar _ trivial
  | boolean =>
    cases v with
    | num n => cases n <;> (simp only [Expr.asJson, Res.ok.injEq] at h; subst h; exact k.scalar _ trivial)
    | str s =>
      simp only [Expr.asJson] at h
      refine ho _ ?_ h
      intro j hj
      obtain ⟨n, _, rfl⟩ := Option.map_eq_some_iff.1 hj
      exact k.scalar _ trivial
    | arr _ => cases h
    | obj _ => cases h
    | _ => simp only [Expr.asJson, Res.ok.injEq] at h; subst h; exact k.scalar _ trivial
  | float =>
    cases v with
    | num n => cases n <;> (simp only [Expr.asJson, Expr.asJson.toFloat, Res.ok.injEq] at h; subst h; exact k.scalar _ trivial)
    | str s => simp only [Expr.asJson, Expr.asJson.toFloat] at h; exact ho _ (fun j hj => k.float s j hj) h
    | arr _ => cases h
    | obj _ => cases h
    | _ => simp only [Expr.asJson, Expr.asJson.toFloat, Res.ok.injEq] at h; subst h; exact k.scalar _ trivial
  | decimal =>
    cases v with
    | num n => cases n <;> (simp only [Expr.asJson, Expr.asJson.toFloat, Res.ok.injEq] at h; subst h; exact k.scalar _ trivial)
    | str s => simp only [Expr.asJson, Expr.asJson.toFloat] at h; exact ho _ (fun j hj => k.float s j hj) h
    | arr _ => cases h
    | obj _ => cases h
    | _ => simp only [Expr.asJson, Expr.asJson.toFloat, Res.ok.injEq] at h; subst h; exact k.scalar _ trivial

theorem generatePlain_kind {G : GLib} {ctx : Obj} {P : Json → Prop} (k : Kind G ctx P) (r : Rng) (g : Generator) (v w : Json)
    (h : generatePlain G r ctx g v = .ok w) : P w := by
  have hi : ∀ i : Int, Scalar (Expr.intJson i) := by intro i; cases i <;> trivial
  have hm : ∀ x : Res Str, x.map Json.str = .ok w → P w := by
    intro x hx
    obtain ⟨s, _, rfl⟩ := Res.map_eq_ok.1 hx
    exact k.scalar _ trivial
  cases g with
  | randomInt lo hi' =>
    simp only [generatePlain, randomIntJson] at h
    obtain ⟨i, _, rfl⟩ := Res.map_eq_ok.1 h
    split
    · exact k.scalar _ trivial
    · exact k.scalar _ (hi i)
  | uuid f =>
    simp only [generatePlain, Res.ok.injEq] at h
    subst h
    unfold uuidJson
    split <;> exact k.scalar _ trivial
  | randomDecimal d =>
    simp only [generatePlain, decimalJson] at h
    split at h
    · obtain ⟨s, _, hs⟩ := bind_eq_ok h
      cases hp : G.f64.parse s with
      | none => rw [hp] at hs; cases hs
      | some j =>
        rw [hp] at hs
        simp only [Expr.okOr, Res.ok.injEq] at hs
        subst hs
        exact k.float s j hp
    · exact hm _ h
  | randomHexadecimal d => simp only [generatePlain, Res.ok.injEq] at h; subst h; exact k.scalar _ trivial
  | randomString d => simp only [generatePlain, Res.ok.injEq] at h; subst h; exact k.scalar _ trivial
  | regex re => exact hm _ h
  | date f e => exact hm _ h
  | time f e => exact hm _ h
  | dateTime f e => exact hm _ h
  | randomBoolean => simp only [generatePlain, Res.ok.injEq] at h; subst h; exact k.scalar _ trivial
  | providerState e dt =>
    simp only [generatePlain] at h
    obtain ⟨x, hx, hy⟩ := bind_eq_ok h
    exact asJson_kind k _ x w (fromContext_kind k e x hx) hy
  | mockServerURL ex re =>
    simp only [generatePlain] at h
    split at h
    · exact hm _ h
    · cases h

/-! ### Lists with variants -/

theorem applyItems_ok (f : Nat → Json → Res Json) : ∀ (i : Nat) (l l' : List Json), applyItems f i l = .ok l' →
    l'.length = l.length ∧ ∀ n v, l[n]? = some v → ∃ w, l'[n]? = some w ∧ f (i + n) v = .ok w
  | _, [], l', h => by
    simp only [applyItems, Res.ok.injEq] at h
    subst h
    exact ⟨rfl, by simp⟩
  | i, v :: vs, l', h => by
    simp only [applyItems] at h
    obtain ⟨w, hw, h2⟩ := bind_eq_ok h
    obtain ⟨ws, hws, rfl⟩ := Res.map_eq_ok.1 h2
    obtain ⟨h3, h4⟩ := applyItems_ok f (i + 1) vs ws hws
    refine ⟨by simp [h3], ?_⟩
    intro n x hx
    cases n with
    | zero => simp only [List.getElem?_cons_zero, Option.some.injEq] at hx; subst hx; exact ⟨w, rfl, hw⟩
    | succ n =>
      simp only [List.getElem?_cons_succ] at hx ⊢
      obtain ⟨y, hy, hf⟩ := h4 n x hx
      exact ⟨y, hy, by rw [← hf, show i + 1 + n = i + (n + 1) by omega]⟩

theorem applyVariant_wf {G : GLib} {ctx : Obj} (k : Kind G ctx Json.WF) (D : Draws)
    (find : Json → List (VariantOf MatchingRule) → Option (VariantOf MatchingRule)) (vs : List (VariantOf MatchingRule))
    (v w : Json) (hv : v.WF) (h : applyVariant G D ctx find vs v = .ok w) : w.WF := by
  unfold applyVariant at h
  split at h
  · rename_i x hx
    generalize G.order .body (x.gens.map fun e => (e.1, AnyGen.gen e.2)) = gs at h
    clear hx
    induction gs generalizing v with
    | nil => simp only [foldR, Res.ok.injEq] at h; rw [← h]; exact hv
    | cons e gs ih =>
      obtain ⟨key, g⟩ := e
      simp only [foldR] at h
      obtain ⟨v1, h1, h2⟩ := bind_eq_ok h
      refine ih v1 ?_ h2
      refine applyKey_wf key _ ?_ v v1 hv h1
      intro ptr a b _ hab
      cases g with
      | gen g => exact generatePlain_kind k _ g a b hab
      | variants vs => cases hab
  · simp only [Res.ok.injEq] at h; rw [← h]; exact hv

theorem generateJson_wf {G : GLib} {ctx : Obj} (k : Kind G ctx Json.WF) (D : Draws)
    (find : Json → List (VariantOf MatchingRule) → Option (VariantOf MatchingRule)) (g : AnyGen) (v w : Json) (hv : v.WF)
    (h : generateJson G D ctx find g v = .ok w) : w.WF := by
  cases g with
  | gen g => exact generatePlain_kind k _ g v w h
  | variants vs =>
    cases v with
    | arr l =>
      simp only [generateJson] at h
      obtain ⟨l', hl, rfl⟩ := Res.map_eq_ok.1 h
      obtain ⟨hlen, hit⟩ := applyItems_ok _ _ _ _ hl
      refine (Json.WFList_iff _).2 ?_
      intro y hy
      obtain ⟨n, hn⟩ := List.mem_iff_getElem?.1 hy
      have hlt : n < l.length := by
        rw [← hlen]
        exact (List.getElem?_eq_some_iff.1 hn).1
      obtain ⟨z, hz, hf⟩ := hit n l[n] (List.getElem?_eq_getElem hlt)
      rw [hn] at hz
      cases hz
      exact applyVariant_wf k _ find vs _ _ ((Json.WFList_iff _).1 hv _ (List.getElem_mem hlt)) hf
    | _ => cases h

/-! ### Whole documents -/

/-- Applying those generators of a table that are used. -/
def processUsed (G : GLib) (D : Draws) (used : AnyGen → Bool) (ctx : Obj)
    (find : Json → List (VariantOf MatchingRule) → Option (VariantOf MatchingRule)) (gs : List (DocPath × AnyGen))
    (j : Json) : Res Json :=
  foldR (fun j e => if used e.2 then
      ApplyGen.applyKey e.1 (fun ptr old => generateJson G (D.at_ [e.1.expr, ptr]) ctx find e.2 old) j
    else .ok j) j gs

/-- The generators of a table, as those of the handler that does not panic. -/
def plainGens (G : GLib) (D : Draws) (used : AnyGen → Bool) (ctx : Obj)
    (find : Json → List (VariantOf MatchingRule) → Option (VariantOf MatchingRule)) (gs : List (DocPath × AnyGen)) :
    List (DocPath × Gen) :=
  gs.map fun e => (e.1, plainGen (used e.2)
    fun ptr old => generateJson G (D.at_ [e.1.expr, ptr]) ctx find e.2 old)

theorem processJson_ok {G : GLib} {ctx : Obj} (k : Kind G ctx Json.WF) (D : Draws) (used : AnyGen → Bool)
    (find : Json → List (VariantOf MatchingRule) → Option (VariantOf MatchingRule)) (gs : List (DocPath × AnyGen)) :
    ∀ (j j' : Json), j.WF → processUsed G D used ctx find gs j = .ok j' →
      j' = JsonUtils.processBody (plainGens G D used ctx find gs) j ∧ j'.WF := by
  unfold processUsed JsonUtils.processBody plainGens
  induction gs with
  | nil => intro j j' hw h; simp only [foldR, Res.ok.injEq] at h; subst h; exact ⟨rfl, hw⟩
  | cons e gs ih =>
    intro j j' hw h
    simp only [foldR] at h
    obtain ⟨j1, h1, h2⟩ := bind_eq_ok h
    simp only [List.map_cons, List.foldl_cons, plainGen]
    by_cases hc : used e.2 = true
    · rw [if_pos hc] at h1 ⊢
      have hm : MakesWF fun ptr old => generateJson G (D.at_ [e.1.expr, ptr]) ctx find e.2 old :=
        fun ptr v w hv hx => generateJson_wf k _ find e.2 v w hv hx
      have e1 := applyKey_ok e.1 (used e.2) _ hm j j1 hw h1
      rw [hc] at e1
      have := ih j1 j' (applyKey_wf e.1 _ hm j j1 hw h1) h2
      simp only [plainGen] at this e1
      rw [hc, ← e1]
      exact this
    · rw [if_neg hc] at h1 ⊢
      simp only [Res.ok.injEq] at h1
      subst h1
      exact ih j j' hw h2

/-! ### What generators do to a document -/

/-- Neither of two places is the other one or inside of it. -/
def Apart (a b : List Seg) : Prop := ¬ a <+: b ∧ ¬ b <+: a

theorem applyKey_exact (ts : List PathToken) (hr : PathToken.root ∉ ts) (g : Gen) (hg : GenWF g) (j : Json)
    (hw : j.WF) (ht : Tame j) (loc' : List Seg) (h : ∀ loc, Addresses ts loc → Apart loc loc') :
    getAt loc' (JsonUtils.applyKey (.root :: ts) g j) = getAt loc' j := by
  unfold JsonUtils.applyKey
  simp only [BodyGeneratorProps.resolvePath_eq ts hr j hw ht]
  by_cases hts : ts = []
  · subst hts
    exact absurd List.nil_prefix (h [] trivial).1
  · simp only [if_neg hts]
    have hmem := BodyGeneratorProps.mem_resolveLocs ts j
    split
    · exact (BodyGeneratorProps.fold_updates ts.length (by intro e; exact hts (List.length_eq_zero_iff.1 e)) g hg
        (BodyGeneratorProps.resolveLocs ts j) j hw (BodyGeneratorProps.resolveLocs_nodup ts j hw) (by
          intro loc hloc
          have := (hmem loc hw).1 hloc
          exact ⟨BodyGeneratorProps.addresses_length ts loc this.1, ht loc this.2, this.2⟩)).2.2.2.1 loc'
        (fun loc hloc => h loc ((hmem loc hw).1 hloc).1)
    · rw [if_neg (by
        intro e; simp only [List.length_cons] at e
        exact hts (List.length_eq_zero_iff.1 (by omega)))]

/-- A path below the root. -/
def Rooted (p : DocPath) : Prop := ∃ ts, p.tokens = .root :: ts ∧ PathToken.root ∉ ts

/-- A path addresses a place in a document. -/
def At (p : DocPath) (loc : List Seg) : Prop := ∃ ts, p.tokens = .root :: ts ∧ Addresses ts loc

theorem process_keep (gs : List (DocPath × Gen)) (loc : List Seg) (hp : ∀ e ∈ gs, Rooted e.1)
    (hg : ∀ e ∈ gs, GenWF e.2 ∧ ∀ ptr (v : Json), v.WF → Tame v → Tame (e.2.value ptr v)) : ∀ j : Json, j.WF → Tame j →
    (JsonUtils.processBody gs j).WF ∧ Tame (JsonUtils.processBody gs j) ∧
      ((∀ e ∈ gs, e.2.applies = true → ∀ loc', At e.1 loc' → Apart loc' loc) →
        getAt loc (JsonUtils.processBody gs j) = getAt loc j) := by
  unfold JsonUtils.processBody
  induction gs with
  | nil => intro j hw ht; exact ⟨hw, ht, fun _ => rfl⟩
  | cons e gs ih =>
    intro j hw ht
    simp only [List.foldl_cons]
    obtain ⟨ts, hts, hr⟩ := hp e (by simp)
    obtain ⟨hg1, hg2⟩ := hg e (by simp)
    have ih := ih (fun x hx => hp x (List.mem_cons_of_mem e hx)) (fun x hx => hg x (List.mem_cons_of_mem e hx))
    by_cases ha : e.2.applies = true
    · rw [if_pos ha, hts]
      have hs := BodyGeneratorProps.applyKey_spec ts hr e.2 hg1 j hw ht
      obtain ⟨i1, i2, i3⟩ := ih _ hs.1 (hs.2.2.2 hg2)
      refine ⟨i1, i2, fun h => ?_⟩
      rw [i3 (fun x hx => h x (List.mem_cons_of_mem e hx))]
      exact applyKey_exact ts hr e.2 hg1 j hw ht loc fun loc' hl => h e (by simp) ha loc' ⟨ts, hts, hl⟩
    · rw [if_neg ha]
      obtain ⟨i1, i2, i3⟩ := ih j hw ht
      exact ⟨i1, i2, fun h => i3 fun x hx => h x (List.mem_cons_of_mem e hx)⟩

theorem process_value (l1 l2 : List (DocPath × Gen)) (e : DocPath × Gen) (j : Json) (hw : j.WF) (ht : Tame j)
    (hp : ∀ x ∈ l1 ++ e :: l2, Rooted x.1)
    (hg : ∀ x ∈ l1 ++ e :: l2, GenWF x.2 ∧ ∀ ptr (v : Json), v.WF → Tame v → Tame (x.2.value ptr v)) (ha : e.2.applies = true)
    (loc : List Seg) (v : Json) (hl : At e.1 loc) (hv : getAt loc j = some v)
    (ho : ∀ x ∈ l1 ++ l2, x.2.applies = true → ∀ loc', At x.1 loc' → Apart loc' loc) :
    ∃ ptr, getAt loc (JsonUtils.processBody (l1 ++ e :: l2) j) = some (e.2.value ptr v) := by
  have k1 := process_keep l1 loc (fun x hx => hp x (List.mem_append_left _ hx)) (fun x hx => hg x (List.mem_append_left _ hx)) j hw ht
  have hsplit : JsonUtils.processBody (l1 ++ e :: l2) j = JsonUtils.processBody l2
      (JsonUtils.applyKey e.1.tokens e.2 (JsonUtils.processBody l1 j)) := by
    unfold JsonUtils.processBody
    rw [List.foldl_append, List.foldl_cons, if_pos ha]
  rw [hsplit]
  generalize JsonUtils.processBody l1 j = j1 at k1 ⊢
  obtain ⟨w1, t1, g1⟩ := k1
  have g1 := g1 fun x hx => ho x (List.mem_append_left _ hx)
  obtain ⟨ts, hts, hr⟩ := hp e (by simp)
  obtain ⟨ts', hts', hl⟩ := hl
  have : ts' = ts := by rw [hts] at hts'; exact ((List.cons.inj hts').2).symm
  subst this
  obtain ⟨hg1, hg2⟩ := hg e (by simp)
  have hs := BodyGeneratorProps.applyKey_spec ts' hr e.2 hg1 j1 w1 t1
  obtain ⟨ptr, hptr⟩ := hs.2.1 loc ⟨hl, by rw [g1, hv]; rfl⟩
  have k2 := process_keep l2 loc (fun x hx => hp x (by simp [hx])) (fun x hx => hg x (by simp [hx])) _ hs.1 (hs.2.2.2 hg2)
  rw [hts]
  refine ⟨ptr, ?_⟩
  rw [k2.2.2 fun x hx => ho x (List.mem_append_right _ hx), hptr, g1, hv]
  rfl

theorem tame_scalar (j : Json) (h : Scalar j) : Tame j := by
  intro loc hl
  cases loc with
  | nil => simp
  | cons s ss => cases s <;> cases j <;> first | exact h.elim | simp [getAt] at hl

/-- Generators for single values: they are for plain places, and their values have plain names. -/
structure SimpleGens (G : GLib) (ctx : Obj) (gs : List (DocPath × AnyGen)) : Prop where
  rooted : ∀ e ∈ gs, Rooted e.1
  single : ∀ e ∈ gs, ∃ g, e.2 = .gen g
  docs : Kind G ctx Json.WF
  tame : Kind G ctx Tame

theorem simpleGens_good {G : GLib} {ctx : Obj} {gs : List (DocPath × AnyGen)} (h : SimpleGens G ctx gs) (D : Draws) (used : AnyGen → Bool)
    (find : Json → List (VariantOf MatchingRule) → Option (VariantOf MatchingRule)) :
    (∀ x ∈ plainGens G D used ctx find gs, Rooted x.1) ∧
    ∀ x ∈ plainGens G D used ctx find gs, GenWF x.2 ∧ ∀ ptr (v : Json), v.WF → Tame v → Tame (x.2.value ptr v) := by
  constructor
  · intro x hx
    obtain ⟨e, he, rfl⟩ := List.mem_map.1 hx
    exact h.rooted e he
  · intro x hx
    obtain ⟨e, he, rfl⟩ := List.mem_map.1 hx
    refine ⟨plainGen_wf _ _ fun ptr v w hv hx => generateJson_wf h.docs _ find e.2 v w hv hx, ?_⟩
    intro ptr v _ hv
    unfold Gen.value plainGen
    simp only
    obtain ⟨g, hg⟩ := h.single e he
    rw [hg]
    cases hr : generateJson G (D.at_ [e.1.expr, ptr]) ctx find (.gen g) v with
    | ok w => exact generatePlain_kind h.tame _ g v w hr
    | err => exact hv
    | panic => exact hv

theorem foldR_congr {S A : Type} (f g : S → A → Res S) : ∀ (l : List A) (s : S), (∀ a ∈ l, ∀ s, f s a = g s a) →
    foldR f s l = foldR g s l
  | [], _, _ => rfl
  | a :: l, s, h => by
    simp only [foldR]
    rw [h a (by simp) s]
    cases g s a with
    | ok s' => exact foldR_congr f g l s' fun b hb => h b (List.mem_cons_of_mem _ hb)
    | err => rfl
    | panic => rfl

/-- The generators of a variant. -/
def variantGens (x : VariantOf MatchingRule) : List (DocPath × AnyGen) := x.gens.map fun e => (e.1, .gen e.2)

theorem applyVariant_eq (G : GLib) (D : Draws) (ctx : Obj)
    (find : Json → List (VariantOf MatchingRule) → Option (VariantOf MatchingRule)) (vs : List (VariantOf MatchingRule))
    (v : Json) (x : VariantOf MatchingRule) (h : find v vs = some x) :
    applyVariant G D ctx find vs v = processUsed G D (fun _ => true) ctx noVariant (G.order .body (variantGens x)) v := by
  unfold applyVariant processUsed
  rw [h]
  apply foldR_congr
  intro e he j
  have := (G.order_perm .body _).mem_iff.1 he
  obtain ⟨y, _, rfl⟩ := List.mem_map.1 this
  rfl

/-- The variant that is found is one of the variants. -/
def Finds (find : Json → List (VariantOf MatchingRule) → Option (VariantOf MatchingRule)) : Prop :=
  ∀ v vs x, find v vs = some x → x ∈ vs

theorem defaultVariant_finds (env : Env) : Finds (defaultVariant env) := fun _ _ _ h => List.mem_of_find?_eq_some h
theorem noVariant_finds : Finds noVariant := fun _ _ _ h => by cases h

/-- The generators of a table are for plain places, and their values have plain names. -/
structure PlainGens (G : GLib) (ctx : Obj) (gs : List (DocPath × AnyGen)) : Prop where
  rooted : ∀ e ∈ gs, Rooted e.1
  variants : ∀ e ∈ gs, ∀ vs, e.2 = .variants vs → ∀ x ∈ vs, ∀ g ∈ x.gens, Rooted g.1
  docs : Kind G ctx Json.WF
  tame : Kind G ctx Tame

theorem variant_simple {G : GLib} {ctx : Obj} (k1 : Kind G ctx Json.WF) (k2 : Kind G ctx Tame) (x : VariantOf MatchingRule)
    (hr : ∀ g ∈ x.gens, Rooted g.1) : SimpleGens G ctx (G.order .body (variantGens x)) := by
  have hm := fun e => (G.order_perm .body (variantGens x)).mem_iff (a := e)
  refine ⟨?_, ?_, k1, k2⟩
  · intro e he
    obtain ⟨y, hy, rfl⟩ := List.mem_map.1 ((hm e).1 he)
    exact hr y hy
  · intro e he
    obtain ⟨y, hy, rfl⟩ := List.mem_map.1 ((hm e).1 he)
    exact ⟨y.2, rfl⟩

theorem applyVariant_tame {G : GLib} {ctx : Obj} (k1 : Kind G ctx Json.WF) (k2 : Kind G ctx Tame) (D : Draws)
    (find : Json → List (VariantOf MatchingRule) → Option (VariantOf MatchingRule)) (hf : Finds find)
    (vs : List (VariantOf MatchingRule)) (hr : ∀ x ∈ vs, ∀ g ∈ x.gens, Rooted g.1) (v w : Json) (hw : v.WF) (hv : Tame v)
    (h : applyVariant G D ctx find vs v = .ok w) : Tame w := by
  cases hx : find v vs with
  | none =>
    unfold applyVariant at h
    rw [hx] at h
    simp only [Res.ok.injEq] at h
    rw [← h]; exact hv
  | some x =>
    rw [applyVariant_eq G D ctx find vs v x hx] at h
    rw [(processJson_ok k1 D _ noVariant _ v w hw h).1]
    obtain ⟨h1, h2⟩ := simpleGens_good (variant_simple k1 k2 x (hr x (hf _ _ _ hx))) D (fun _ => true) noVariant
    exact (process_keep _ [] h1 h2 v hw hv).2.1

theorem tame_items {l l' : List Json} (h : Tame (.arr l)) (hl : l'.length = l.length) (hi : ∀ v ∈ l', Tame v) :
    Tame (.arr l') := by
  intro loc hg s hs
  cases loc with
  | nil => simp at hs
  | cons s' ss =>
    cases s' with
    | key k => simp [getAt] at hg
    | idx i =>
      simp only [getAt] at hg
      cases hx : l'[i]? with
      | none => rw [hx] at hg; simp at hg
      | some v =>
        rw [hx] at hg
        rcases List.mem_cons.1 hs with rfl | hs
        · have hlt : i < l.length := by rw [← hl]; exact (List.getElem?_eq_some_iff.1 hx).1
          exact h [.idx i] (by simp [getAt, List.getElem?_eq_getElem hlt]) _ (by simp)
        · exact hi v (List.mem_of_getElem? hx) ss hg s hs

theorem generateJson_tame {G : GLib} {ctx : Obj} (k1 : Kind G ctx Json.WF) (k2 : Kind G ctx Tame) (D : Draws)
    (find : Json → List (VariantOf MatchingRule) → Option (VariantOf MatchingRule)) (hf : Finds find) (g : AnyGen)
    (hr : ∀ vs, g = .variants vs → ∀ x ∈ vs, ∀ g ∈ x.gens, Rooted g.1) (v w : Json) (hw : v.WF) (hv : Tame v)
    (h : generateJson G D ctx find g v = .ok w) : Tame w := by
  cases g with
  | gen g => exact generatePlain_kind k2 _ g v w h
  | variants vs =>
    cases v with
    | arr l =>
      simp only [generateJson] at h
      obtain ⟨l', hl, rfl⟩ := Res.map_eq_ok.1 h
      obtain ⟨hlen, hit⟩ := applyItems_ok _ _ _ _ hl
      refine tame_items hv hlen ?_
      intro y hy
      obtain ⟨n, hn⟩ := List.mem_iff_getElem?.1 hy
      have hlt : n < l.length := by
        rw [← hlen]
        exact (List.getElem?_eq_some_iff.1 hn).1
      obtain ⟨z, hz, hz2⟩ := hit n l[n] (List.getElem?_eq_getElem hlt)
      rw [hn] at hz
      cases hz
      exact applyVariant_tame k1 k2 _ find hf vs (hr vs rfl) _ _ ((Json.WFList_iff _).1 hw _ (List.getElem_mem hlt))
        (BodyGeneratorProps.tame_idx hv (List.getElem?_eq_getElem hlt)).2 hz2
    | _ => cases h

theorem plainGens_good {G : GLib} {ctx : Obj} {gs : List (DocPath × AnyGen)} (h : PlainGens G ctx gs) (D : Draws)
    (used : AnyGen → Bool) (find : Json → List (VariantOf MatchingRule) → Option (VariantOf MatchingRule)) (hf : Finds find) :
    (∀ x ∈ plainGens G D used ctx find gs, Rooted x.1) ∧
    ∀ x ∈ plainGens G D used ctx find gs, GenWF x.2 ∧ ∀ ptr (v : Json), v.WF → Tame v → Tame (x.2.value ptr v) := by
  constructor
  · intro x hx
    obtain ⟨e, he, rfl⟩ := List.mem_map.1 hx
    exact h.rooted e he
  · intro x hx
    obtain ⟨e, he, rfl⟩ := List.mem_map.1 hx
    refine ⟨plainGen_wf _ _ fun ptr v w hv hx => generateJson_wf h.docs _ find e.2 v w hv hx, ?_⟩
    intro ptr v hw hv
    unfold Gen.value plainGen
    simp only
    cases hr : generateJson G (D.at_ [e.1.expr, ptr]) ctx find e.2 v with
    | ok w => exact generateJson_tame h.docs h.tame _ find hf e.2 (h.variants e he) v w hw hv hr
    | err => exact hv
    | panic => exact hv

/-- The JSON value a generator gives for a value, if it is used. -/
def jsonAt (G : GLib) (D : Draws) (used : AnyGen → Bool) (ctx : Obj)
    (find : Json → List (VariantOf MatchingRule) → Option (VariantOf MatchingRule)) (g : AnyGen) (v : Json) : Option Json :=
  if used g then okPart (generateJson G D ctx find g v) else none

theorem json_value {G : GLib} {ctx : Obj} {gs : List (DocPath × AnyGen)} (h : PlainGens G ctx gs) (hn : gs.Nodup) (D : Draws)
    (used : AnyGen → Bool) (find : Json → List (VariantOf MatchingRule) → Option (VariantOf MatchingRule)) (hf : Finds find) (j j' : Json) (hw : j.WF)
    (ht : Tame j) (hj : processUsed G D used ctx find gs j = .ok j') (e : DocPath × AnyGen) (he : e ∈ gs) (loc : List Seg)
    (v : Json) (hl : At e.1 loc) (hv : getAt loc j = some v)
    (ho : ∀ x ∈ gs, x ≠ e → used x.2 = true → ∀ loc', At x.1 loc' → Apart loc' loc) :
    ∃ place, getAt loc j' = some ((jsonAt G (D.at_ place) used ctx find e.2 v).getD v) := by
  obtain ⟨h1, h2⟩ := plainGens_good h D used find hf
  rw [(processJson_ok h.docs D used find gs j j' hw hj).1]
  obtain ⟨l1, l2, rfl⟩ := List.append_of_mem he
  have hne : ∀ x ∈ l1 ++ l2, x ≠ e := by
    intro x hx hxe
    subst hxe
    have := (List.perm_middle.nodup_iff).1 hn
    exact (List.nodup_cons.1 this).1 hx
  have ho' : ∀ x ∈ plainGens G D used ctx find (l1 ++ l2), x.2.applies = true → ∀ loc', At x.1 loc' → Apart loc' loc := by
    intro x hx ha loc' hl'
    obtain ⟨y, hy, rfl⟩ := List.mem_map.1 hx
    exact ho y (by rcases List.mem_append.1 hy with h | h <;> simp [h]) (hne y hy) ha loc' hl'
  have hsp : plainGens G D used ctx find (l1 ++ e :: l2) = plainGens G D used ctx find l1 ++
      (e.1, plainGen (used e.2) fun ptr old => generateJson G (D.at_ [e.1.expr, ptr]) ctx find e.2 old)
        :: plainGens G D used ctx find l2 := by
    simp [plainGens]
  have hap : plainGens G D used ctx find (l1 ++ l2) = plainGens G D used ctx find l1 ++ plainGens G D used ctx find l2 := by
    simp [plainGens]
  rw [hsp] at h1 h2 ⊢
  rw [hap] at ho'
  unfold jsonAt
  by_cases hc : used e.2 = true
  · obtain ⟨ptr, hp⟩ := process_value _ _ _ j hw ht h1 h2 (by exact hc) loc v hl hv ho'
    refine ⟨[e.1.expr, ptr], ?_⟩
    rw [hp, if_pos hc]
    rfl
  · refine ⟨[], ?_⟩
    rw [if_neg hc, (process_keep _ loc h1 h2 j hw ht).2.2 ?_, hv]
    · rfl
    · intro x hx ha
      rcases List.mem_append.1 hx with hx | hx
      · exact ho' x (List.mem_append_left _ hx) ha
      · rcases List.mem_cons.1 hx with rfl | hx
        · exact absurd ha hc
        · exact ho' x (List.mem_append_right _ hx) ha

theorem json_shape {G : GLib} {ctx : Obj} {gs : List (DocPath × AnyGen)} (h : PlainGens G ctx gs) (D : Draws)
    (used : AnyGen → Bool) (find : Json → List (VariantOf MatchingRule) → Option (VariantOf MatchingRule)) (hf : Finds find) (j j' : Json) (hw : j.WF)
    (ht : Tame j) (hj : processUsed G D used ctx find gs j = .ok j') (loc : List Seg)
    (ho : ∀ x ∈ gs, used x.2 = true → ∀ loc', At x.1 loc' → ¬ loc' <+: loc) :
    (getAt loc j').map shape = (getAt loc j).map shape := by
  obtain ⟨h1, h2⟩ := plainGens_good h D used find hf
  rw [(processJson_ok h.docs D used find gs j j' hw hj).1]
  refine BodyGeneratorProps.C37_body_partial _ j hw ht h1 h2 loc ?_
  intro x hx ha ts loc' hts hl
  obtain ⟨y, hy, rfl⟩ := List.mem_map.1 hx
  exact ho y hy ha loc' ⟨ts, hts, hl⟩

/-! ### C140 Generated bodies of requests and responses -/

theorem processBody_json (B : Libs) (G : GLib) (D : Draws) (mode : Mode) (ctx : Obj)
    (find : Json → List (VariantOf MatchingRule) → Option (VariantOf MatchingRule)) (gs : List (DocPath × AnyGen))
    (ct : ContentType) (body body' : FBody) (j : Json) (hp : isPresent body = true) (hg : gs ≠ []) (hc : ct.isJson = true)
    (hj : B.bodies.json (bytesOf body) = some j) (h : generateBody B G D mode ctx find gs (some ct) body = .ok body') :
    ∃ j', processJson G (D.at_ ["body".toList]) mode ctx find gs j = .ok j' ∧
      body' = .present (utf8 j'.text) (some Provider.jsonType) none := by
  unfold generateBody at h
  have : gs.isEmpty = false := by cases gs with | nil => exact absurd rfl hg | cons => rfl
  rw [this, hp] at h
  simp only [Bool.not_false, Bool.and_self, if_true, processBody, hc, hj] at h
  obtain ⟨j', h1, h2⟩ := Res.map_eq_ok.1 h
  exact ⟨j', h1, h2.symm⟩

/-- Specification: a document is what generators make of another one: a place that is addressed by one generator (no other
generator that is used addresses this place, one above or one below) has the generated value, or the old one if there is
none; and a place that is not addressed, and is not below one that is, has the same scalar, length or keys. -/
structure Filled (G : GLib) (used : AnyGen → Bool) (ctx : Obj)
    (find : Json → List (VariantOf MatchingRule) → Option (VariantOf MatchingRule)) (gs : List (DocPath × AnyGen))
    (j j' : Json) : Prop where
  value : ∀ e ∈ gs, ∀ loc v, At e.1 loc → getAt loc j = some v →
    (∀ x ∈ gs, x ≠ e → used x.2 = true → ∀ loc', At x.1 loc' → Apart loc' loc) →
    ∃ D, getAt loc j' = some ((jsonAt G D used ctx find e.2 v).getD v)
  other : ∀ loc, (∀ x ∈ gs, used x.2 = true → ∀ loc', At x.1 loc' → ¬ loc' <+: loc) →
    (getAt loc j').map shape = (getAt loc j).map shape

theorem gensFor_nodup (G : GLib) (rules : MatchingRules) (gens : Generators) (c : GenCategory) :
    (gensFor G rules gens c).Nodup :=
  (G.order_perm c _).nodup_iff.2 (distinct_nodup (buildGens_distinct rules gens c))

theorem gensFor_ne (G : GLib) (rules : MatchingRules) (gens : Generators) (c : GenCategory) (h : buildGens rules gens c ≠ []) :
    gensFor G rules gens c ≠ [] := by
  intro e
  have := G.order_perm c (buildGens rules gens c)
  rw [show G.order c (buildGens rules gens c) = [] from e] at this
  exact h (List.nil_perm.1 this)

theorem filled_body (G : GLib) (D : Draws) (mode : Mode) (ctx : Obj)
    (find : Json → List (VariantOf MatchingRule) → Option (VariantOf MatchingRule)) (hf : Finds find) (rules : MatchingRules) (gens : Generators)
    (hp : PlainGens G ctx (buildGens rules gens .body)) (j j' : Json) (hw : j.WF) (ht : Tame j)
    (h : processJson G D mode ctx find (gensFor G rules gens .body) j = .ok j') :
    Filled G (corresponds mode) ctx find (buildGens rules gens .body) j j' := by
  have hm := gensFor_mem G rules gens .body
  have hp' : PlainGens G ctx (gensFor G rules gens .body) :=
    ⟨fun e he => hp.rooted e ((hm e).1 he), fun e he => hp.variants e ((hm e).1 he), hp.docs, hp.tame⟩
  constructor
  · intro e he loc v hl hv ho
    obtain ⟨place, h1⟩ := json_value hp' (gensFor_nodup G rules gens .body) D (corresponds mode) find hf j j' hw ht h e ((hm e).2 he) loc v hl hv
      fun x hx => ho x ((hm x).1 hx)
    exact ⟨D.at_ place, h1⟩
  · intro loc ho
    exact json_shape hp' D (corresponds mode) find hf j j' hw ht h loc fun x hx => ho x ((hm x).1 hx)

/-- **C140** (JSON bodies of requests): a JSON body gets the generated values at the places the generators address; what is
sent is the text of the document. -/
theorem C140_request_json_partial (B : Libs) (G : GLib) (D : Draws) (mode : Mode) (ctx : Obj) (r r' : HttpRequest) (ct : ContentType)
    (j : Json) (hb : isPresent r.body = true) (hj : B.bodies.json (bytesOf r.body) = some j) (hw : j.WF) (ht : Tame j)
    (hg : buildGens r.rules r.gens .body ≠ []) (hp : PlainGens G ctx (buildGens r.rules r.gens .body))
    (h : generateRequest B G D mode ctx r = .ok r')
    (hc : MatchResult.contentType B.file.P.uc B.bodies ⟨r'.headers, asBody r.body⟩ = some ct) (hct : ct.isJson = true) :
    ∃ j', r'.body = .present (utf8 j'.text) (some Provider.jsonType) none ∧
      Filled G (corresponds mode) ctx (defaultVariant B.env) (buildGens r.rules r.gens .body) j j' := by
  obtain ⟨_, _, _, h4, _⟩ := request_parts h
  rw [hc] at h4
  obtain ⟨j', h5, h6⟩ := processBody_json B G D mode ctx _ _ ct r.body r'.body j hb (gensFor_ne G _ _ _ hg) hct hj h4
  exact ⟨j', h6, filled_body G _ mode ctx _ (defaultVariant_finds B.env) _ _ hp j j' hw ht h5⟩

/-- **C140** (JSON bodies of responses). -/
theorem C140_response_json_partial (B : Libs) (G : GLib) (D : Draws) (mode : Mode) (ctx : Obj) (r r' : HttpResponse) (ct : ContentType)
    (j : Json) (hb : isPresent r.body = true) (hj : B.bodies.json (bytesOf r.body) = some j) (hw : j.WF) (ht : Tame j)
    (hg : buildGens r.rules r.gens .body ≠ []) (hp : PlainGens G ctx (buildGens r.rules r.gens .body))
    (h : generateResponse B G D mode ctx r = .ok r')
    (hc : MatchResult.contentType B.file.P.uc B.bodies ⟨r'.headers, asBody r.body⟩ = some ct) (hct : ct.isJson = true) :
    ∃ j', r'.body = .present (utf8 j'.text) (some Provider.jsonType) none ∧
      Filled G (corresponds mode) ctx (defaultVariant B.env) (buildGens r.rules r.gens .body) j j' := by
  obtain ⟨_, _, h4, _⟩ := response_parts h
  rw [hc] at h4
  obtain ⟨j', h5, h6⟩ := processBody_json B G D mode ctx _ _ ct r.body r'.body j hb (gensFor_ne G _ _ _ hg) hct hj h4
  exact ⟨j', h6, filled_body G _ mode ctx _ (defaultVariant_finds B.env) _ _ hp j j' hw ht h5⟩

/-! ### Forms -/

theorem applyFormKey_ok (key : DocPath) (a : Bool) (g : Res Str) : ∀ (seen : List Str) (ps ps' : Form.Params),
    applyFormKey key g seen ps = .ok ps' → ps' = Form.applyFrom key ⟨a, fun _ => okPart g⟩ seen ps
  | _, [], ps', h => by simp only [applyFormKey, Res.ok.injEq] at h; rw [← h]; rfl
  | seen, (k, v) :: ps, ps', h => by
    simp only [applyFormKey] at h
    simp only [Form.applyFrom]
    split at h
    · rename_i ht
      rw [if_pos ht]
      obtain ⟨w, hw, rfl⟩ := Res.map_eq_ok.1 h
      rw [orKeep_ok hw]
    · rename_i ht
      rw [if_neg ht]
      obtain ⟨qs, hq, rfl⟩ := Res.map_eq_ok.1 h
      rw [applyFormKey_ok key a g (k :: seen) ps qs hq]

/-- The generators of a table, for a form. -/
def formGens (G : GLib) (D : Draws) (mode : Mode) (ctx : Obj) (gs : List (DocPath × AnyGen)) : List (DocPath × Form.FGen) :=
  gs.map fun e => (e.1, ⟨corresponds mode e.2, fun _ => okPart (generateText G (D [e.1.expr]) ctx e.2)⟩)

theorem processForm_ok (G : GLib) (D : Draws) (mode : Mode) (ctx : Obj) (gs : List (DocPath × AnyGen)) :
    ∀ (ps ps' : Form.Params), ApplyGen.processForm G D mode ctx gs ps = .ok ps' →
      ps' = Form.applyAll (formGens G D mode ctx gs) ps := by
  unfold ApplyGen.processForm Form.applyAll formGens
  induction gs with
  | nil => intro ps ps' h; simp only [foldR, Res.ok.injEq] at h; rw [← h]; rfl
  | cons e gs ih =>
    intro ps ps' h
    simp only [foldR] at h
    obtain ⟨ps1, h1, h2⟩ := bind_eq_ok h
    simp only [List.map_cons, List.foldl_cons]
    by_cases hc : corresponds mode e.2 = true
    · rw [if_pos hc] at h1 ⊢
      have e1 := applyFormKey_ok e.1 (corresponds mode e.2) _ [] ps ps1 h1
      rw [ih ps1 ps' h2, e1]
      rfl
    · rw [if_neg hc] at h1 ⊢
      simp only [Res.ok.injEq] at h1
      subst h1
      exact ih ps ps' h2

/-- **C140** (forms): a form has its parameters in the same order; a value that is addressed by one generator (`$.name` the
first value of a name, `$.name[i]` the value number `i`) is the generated one. -/
theorem C140_request_form_partial (B : Libs) (G : GLib) (D : Draws) (mode : Mode) (ctx : Obj) (r r' : HttpRequest) (ct : ContentType)
    (hb : isPresent r.body = true) (hg : buildGens r.rules r.gens .body ≠ [])
    (h : generateRequest B G D mode ctx r = .ok r')
    (hc : MatchResult.contentType B.file.P.uc B.bodies ⟨r'.headers, asBody r.body⟩ = some ct) (hct : ct.isForm = true)
    (hj : ct.isJson = false) (hx : ct.isXml = false) (at_ : DocPath → Str × Nat)
    (ha : ∀ e ∈ buildGens r.rules r.gens .body, FormProps.Addresses e.1 (at_ e.1).1 (at_ e.1).2)
    (hd : ((buildGens r.rules r.gens .body).map fun e => at_ e.1).Nodup) :
    ∃ b' ps', r'.body = .present b' (some ⟨"application".toList, "x-www-form-urlencoded".toList, [], none⟩) none ∧ Form.parse G.bad b' = ps' ∧
      ps'.map (·.1) = (Form.parse G.bad (bytesOf r.body)).map (·.1) ∧
      ∀ j k n v, FormProps.ValueAt (Form.parse G.bad (bytesOf r.body)) j k n v →
        (∀ e ∈ buildGens r.rules r.gens .body, at_ e.1 = (k, n) →
          FormProps.ValueAt ps' j k n ((textAt G D mode ctx ["body".toList, e.1.expr] e.2).getD v)) ∧
        ((∀ e ∈ buildGens r.rules r.gens .body, at_ e.1 ≠ (k, n)) → FormProps.ValueAt ps' j k n v) := by
  obtain ⟨_, _, _, h4, _⟩ := request_parts h
  rw [hc] at h4
  have hne := gensFor_ne G _ _ _ hg
  have hm := gensFor_mem G r.rules r.gens .body
  have hperm := G.order_perm .body (buildGens r.rules r.gens .body)
  unfold generateBody at h4
  have : (gensFor G r.rules r.gens .body).isEmpty = false := by
    cases hgs : gensFor G r.rules r.gens .body with
    | nil => exact absurd hgs hne
    | cons => rfl
  rw [this, hb] at h4
  simp only [Bool.not_false, Bool.and_self, if_true, processBody, hct, hj, hx, Bool.false_eq_true, if_false] at h4
  obtain ⟨ps', h5, h6⟩ := Res.map_eq_ok.1 h4
  refine ⟨_, ps', h6.symm, FormProps.C99_roundtrip G.bad ps', ?_, ?_⟩
  · rw [processForm_ok _ _ _ _ _ _ _ h5, FormProps.C102_names]
  · intro j k n v hv
    rw [processForm_ok _ _ _ _ _ _ _ h5]
    have hall := FormProps.C102_all (formGens G (D.at_ ["body".toList]) mode ctx (gensFor G r.rules r.gens .body)) at_
      (by
        intro e he
        obtain ⟨x, hx, rfl⟩ := List.mem_map.1 he
        exact ha x ((hm x).1 hx))
      (by
        unfold formGens
        rw [List.map_map]
        exact ((hperm.map _).nodup_iff).2 hd) _ j k n v hv
    constructor
    · intro e he hk
      unfold textAt
      by_cases hcm : corresponds mode e.2 = true
      · rw [if_pos hcm]
        exact hall.1 (e.1, ⟨corresponds mode e.2, fun _ => okPart (generateText G (D.at_ ["body".toList] [e.1.expr]) ctx e.2)⟩)
          (List.mem_map.2 ⟨e, (hm e).2 he, rfl⟩) hcm hk
      · rw [if_neg hcm]
        refine hall.2 ?_
        intro x hx hap hxk
        obtain ⟨y, hy, rfl⟩ := List.mem_map.1 hx
        have hye : y = e := by
          have hinj := hd
          rw [List.Nodup, List.pairwise_map] at hinj
          refine Classical.byContradiction fun hne => ?_
          have : ∀ l : List (DocPath × AnyGen), l.Pairwise (fun a b => at_ a.1 ≠ at_ b.1) → y ∈ l → e ∈ l → False := by
            intro l
            induction l with
            | nil => intro _ h; simp at h
            | cons a l ih =>
              intro hp hy he
              rw [List.pairwise_cons] at hp
              rcases List.mem_cons.1 hy with h1 | h1
              · rcases List.mem_cons.1 he with h2 | h2
                · exact hne (h1.trans h2.symm)
                · exact hp.1 e h2 (h1 ▸ hxk.trans hk.symm)
              · rcases List.mem_cons.1 he with h2 | h2
                · exact hp.1 y h1 (h2 ▸ hk.trans hxk.symm)
                · exact ih hp.2 h1 h2
          exact this _ hinj ((hm y).1 hy) he
        subst hye
        exact absurd hap hcm
    · intro hno
      refine hall.2 ?_
      intro x hx _
      obtain ⟨y, hy, rfl⟩ := List.mem_map.1 hx
      exact hno y ((hm y).1 hy)

/-- **C140** (the body is written again): if none of the generators is used in the mode, a JSON body is still parsed and
written again, and is of type `application/json`: it may have other bytes. -/
theorem C140_rewritten (B : Libs) (G : GLib) (D : Draws) (mode : Mode) (ctx : Obj) (r r' : HttpRequest) (ct : ContentType)
    (j : Json) (hb : isPresent r.body = true) (hj : B.bodies.json (bytesOf r.body) = some j)
    (hg : buildGens r.rules r.gens .body ≠ []) (hu : ∀ e ∈ buildGens r.rules r.gens .body, corresponds mode e.2 = false)
    (h : generateRequest B G D mode ctx r = .ok r')
    (hc : MatchResult.contentType B.file.P.uc B.bodies ⟨r'.headers, asBody r.body⟩ = some ct) (hct : ct.isJson = true) :
    r'.body = .present (utf8 j.text) (some Provider.jsonType) none := by
  obtain ⟨_, _, _, h4, _⟩ := request_parts h
  rw [hc] at h4
  obtain ⟨j', h5, h6⟩ := processBody_json B G D mode ctx _ _ ct r.body r'.body j hb (gensFor_ne G _ _ _ hg) hct hj h4
  have : j' = j := by
    refine fold_same id _ _ ?_ j j' h5
    intro s e he s' hs
    rw [if_neg (by rw [hu e ((gensFor_mem G _ _ _ e).1 he)]; simp)] at hs
    simp only [Res.ok.injEq] at hs
    exact hs.symm
  rw [h6, this]

/-! ### C144 Variants of the items of a list -/

/-- A variant accepts a value: its rules accept the value compared with itself. -/
def Accepts (env : Env) (x : VariantOf MatchingRule) (v : Json) : Prop :=
  Compare.compareJson env rootPath v v ⟨x.rules, .noUnexpectedKeys⟩ = .ok ()

/-- **C144** (which variant): an item gets the generators of the first variant that accepts it. -/
theorem C144_variant (env : Env) (v : Json) (vs : List (VariantOf MatchingRule)) (x : VariantOf MatchingRule) :
    defaultVariant env v vs = some x ↔ Accepts env x v ∧ ∃ l1 l2, vs = l1 ++ x :: l2 ∧ ∀ y ∈ l1, ¬ Accepts env y v := by
  have hok : ∀ y : VariantOf MatchingRule, (Compare.compareJson env rootPath v v ⟨y.rules, .noUnexpectedKeys⟩).isOk = true ↔
      Accepts env y v := by
    intro y
    unfold Accepts
    cases Compare.compareJson env rootPath v v ⟨y.rules, .noUnexpectedKeys⟩ with
    | ok u => simp [Except.isOk, Except.toBool]
    | error e => simp [Except.isOk, Except.toBool]
  unfold defaultVariant
  rw [List.find?_eq_some_iff_append]
  rw [hok]
  constructor
  · rintro ⟨h1, l1, l2, h2, h3⟩
    refine ⟨h1, l1, l2, h2, fun y hy ha => ?_⟩
    have := h3 y hy
    rw [(hok y).2 ha] at this
    cases this
  · rintro ⟨h1, l1, l2, h2, h3⟩
    refine ⟨h1, l1, l2, h2, fun y hy => ?_⟩
    cases hb : (Compare.compareJson env rootPath v v ⟨y.rules, .noUnexpectedKeys⟩).isOk with
    | false => rfl
    | true => exact absurd ((hok y).1 hb) (h3 y hy)

/-- **C144** (no variant): an item is left alone exactly if no variant accepts it. -/
theorem C144_none (env : Env) (v : Json) (vs : List (VariantOf MatchingRule)) :
    defaultVariant env v vs = none ↔ ∀ x ∈ vs, ¬ Accepts env x v := by
  cases h : defaultVariant env v vs with
  | some x =>
    obtain ⟨h1, l1, l2, rfl, _⟩ := (C144_variant env v vs x).1 h
    simp only [reduceCtorEq, false_iff]
    intro hn
    exact hn x (by simp) h1
  | none =>
    simp only [true_iff]
    intro x hx ha
    unfold defaultVariant at h
    have := List.find?_eq_none.1 h x hx
    unfold Accepts at ha
    rw [ha] at this
    exact this rfl

/-- **C144** (the example is not looked at): a first variant without rules is taken for every item, whatever its example
is. -/
theorem C144_no_rules (env : Env) (v : Json) (hv : v.WF) (x : VariantOf MatchingRule) (vs : List (VariantOf MatchingRule))
    (h : x.rules.rules = []) : defaultVariant env v (x :: vs) = some x := by
  rw [C144_variant]
  exact ⟨CompareProps.C16_reflexive env ⟨x.rules, .noUnexpectedKeys⟩ (by unfold CompareProps.NoRules; exact h) rootPath v hv, [], vs, rfl, by simp⟩

/-- **C144** (the list): a list keeps its length; an item without a variant stays as it is, an item with a variant is what
the generators of the variant make of it, whether or not they are for the mode. -/
theorem C144_items_partial (G : GLib) (D : Draws) (ctx : Obj)
    (find : Json → List (VariantOf MatchingRule) → Option (VariantOf MatchingRule)) (hf : Finds find)
    (vs : List (VariantOf MatchingRule)) (l : List Json) (w : Json) (k1 : Kind G ctx Json.WF) (k2 : Kind G ctx Tame)
    (hw : Json.WF (.arr l)) (ht : Tame (.arr l)) (hr : ∀ x ∈ vs, ∀ g ∈ x.gens, Rooted g.1)
    (hn : ∀ x ∈ vs, (x.gens.map fun g => g.1.expr).Nodup) (h : generateJson G D ctx find (.variants vs) (.arr l) = .ok w) :
    ∃ l', w = .arr l' ∧ l'.length = l.length ∧ ∀ (i : Nat) (v : Json), l[i]? = some v → ∃ v', l'[i]? = some v' ∧
      (find v vs = none → v' = v) ∧
      ∀ x, find v vs = some x → Filled G (fun _ => true) ctx noVariant (variantGens x) v v' := by
  simp only [generateJson] at h
  obtain ⟨l', hl, rfl⟩ := Res.map_eq_ok.1 h
  obtain ⟨hlen, hit⟩ := applyItems_ok _ _ _ _ hl
  refine ⟨l', rfl, hlen, ?_⟩
  intro i v hv
  obtain ⟨v', h1, h2⟩ := hit i v hv
  have hvw := (Json.WFList_iff _).1 hw _ (List.mem_of_getElem? hv)
  have hvt := (BodyGeneratorProps.tame_idx ht hv).2
  refine ⟨v', h1, ?_, ?_⟩
  · intro hnone
    unfold applyVariant at h2
    rw [hnone] at h2
    simp only [Res.ok.injEq] at h2
    exact h2.symm
  · intro x hx
    rw [applyVariant_eq G _ ctx find vs v x hx] at h2
    have hxm := hf _ _ _ hx
    have hs := variant_simple k1 k2 x (hr x hxm)
    have hp : PlainGens G ctx (G.order .body (variantGens x)) := by
      refine ⟨hs.rooted, ?_, k1, k2⟩
      intro e he vs' hvs
      obtain ⟨g, hg⟩ := hs.single e he
      rw [hg] at hvs
      cases hvs
    have hperm := G.order_perm .body (variantGens x)
    have hnd : (G.order .body (variantGens x)).Nodup := by
      refine hperm.nodup_iff.2 (distinct_nodup ?_)
      unfold DistinctKeys variantGens
      rw [List.map_map]
      exact hn x hxm
    constructor
    · intro e he loc y hloc hy ho
      obtain ⟨place, hpl⟩ := json_value hp hnd _ (fun _ => true) noVariant noVariant_finds v v' hvw hvt h2 e (hperm.mem_iff.2 he)
        loc y hloc hy fun z hz => ho z (hperm.mem_iff.1 hz)
      exact ⟨_, hpl⟩
    · intro loc ho
      exact json_shape hp _ (fun _ => true) noVariant noVariant_finds v v' hvw hvt h2 loc fun z hz => ho z (hperm.mem_iff.1 hz)

/-- **C144** (not a list): where a list is expected but something else is found, it stays. -/
theorem C144_not_list (G : GLib) (D : Draws) (ctx : Obj)
    (find : Json → List (VariantOf MatchingRule) → Option (VariantOf MatchingRule)) (vs : List (VariantOf MatchingRule)) (v : Json)
    (h : ∀ l, v ≠ .arr l) : generateJson G D ctx find (.variants vs) v = .err := by
  cases v with
  | arr l => exact absurd rfl (h l)
  | _ => rfl

/-- **C144** (messages): the items of lists in the contents of V4 messages are never changed. -/
theorem C144_messages (G : GLib) (D : Draws) (ctx : Obj) (vs : List (VariantOf MatchingRule)) (l : List Json) :
    generateJson G D ctx noVariant (.variants vs) (.arr l) = .ok (.arr l) := by
  simp only [generateJson]
  have : ∀ i, applyItems (fun i => applyVariant G (D.at_ [natStr i]) ctx noVariant vs) i l = .ok l := by
    induction l with
    | nil => intro i; rfl
    | cons v l ih =>
      intro i
      simp only [applyItems]
      rw [ih]
      rfl
  rw [this]
  rfl

/-! ### C143 Generated messages -/

/-- The parts of generated contents. -/
theorem contents_parts {B : Libs} {G : GLib} {D : Draws} {mode : Mode} {ctx : Obj}
    {find : Json → List (VariantOf MatchingRule) → Option (VariantOf MatchingRule)} {m m' : MessageContents}
    (h : generateContents B G D mode ctx find m = .ok m') :
    applyGens mode (metadataStep G D ctx find) m.metadata (gensFor G m.rules m.gens .metadata) = .ok m'.metadata ∧
    generateBody B G D mode ctx find (gensFor G m.rules m.gens .body) (contentsType B (listedType m'.metadata) m.contents)
      m.contents = .ok m'.contents ∧ m'.rules = m.rules ∧ m'.gens = m.gens := by
  unfold generateContents at h
  obtain ⟨md, h1, h2⟩ := bind_eq_ok h
  obtain ⟨c, h3, rfl⟩ := Res.map_eq_ok.1 h2
  exact ⟨h1, h3, rfl, rfl⟩

/-- What a metadata generator does to the value of a name. -/
def metadataAfter (G : GLib) (D : Draws) (mode : Mode) (ctx : Obj)
    (find : Json → List (VariantOf MatchingRule) → Option (VariantOf MatchingRule)) (e : DocPath × AnyGen) (old : Option Json) :
    Option Json :=
  (jsonAt G (D.at_ ["metadata".toList, e.1.expr]) (corresponds mode) ctx find e.2 (old.getD .null)).or old

theorem lookup_insert {V : Type} (k q : Str) (v : V) (m : List (Str × V)) :
    Json.lookup q (insertKV k v m) = if q = k then some v else Json.lookup q m := by
  rw [HeaderProps.lookup_insertKV]

theorem metadataStep_ok {G : GLib} {D : Draws} {mode : Mode} {ctx : Obj}
    {find : Json → List (VariantOf MatchingRule) → Option (VariantOf MatchingRule)} {m m' : Obj} {e : DocPath × AnyGen} (k : Str)
    (h : (if corresponds mode e.2 then metadataStep G D ctx find m e.1 e.2 else .ok m) = .ok m') :
    Json.lookup k m' = if firstField e.1 = some k then metadataAfter G D mode ctx find e (Json.lookup k m) else Json.lookup k m := by
  unfold metadataAfter jsonAt
  by_cases hc : corresponds mode e.2 = true
  · rw [if_pos hc] at h
    rw [if_pos hc]
    unfold metadataStep at h
    cases hf : firstField e.1 with
    | none =>
      rw [hf] at h
      simp only [Res.ok.injEq] at h
      subst h
      simp
    | some n =>
      rw [hf] at h
      simp only at h
      have := orKeep_ok h
      rw [okPart_map] at this
      by_cases hk : n = k
      · subst hk
        rw [if_pos rfl, this]
        cases hg : okPart (generateJson G (D.at_ ["metadata".toList, e.1.expr]) ctx find e.2 ((Json.lookup n m).getD .null)) with
        | none => simp
        | some w =>
          simp only [Option.map_some, Option.getD_some, Option.some_or]
          rw [lookup_insert, if_pos rfl]
      · rw [if_neg (by intro h; exact hk (Option.some.inj h)), this]
        cases okPart (generateJson G (D.at_ ["metadata".toList, e.1.expr]) ctx find e.2 ((Json.lookup n m).getD .null)) with
        | none => rfl
        | some w =>
          simp only [Option.map_some, Option.getD_some]
          rw [lookup_insert, if_neg (Ne.symm hk)]
  · rw [if_neg hc] at h
    simp only [Res.ok.injEq] at h
    subst h
    rw [if_neg hc]
    simp

theorem metadata_after (G : GLib) (D : Draws) (mode : Mode) (ctx : Obj)
    (find : Json → List (VariantOf MatchingRule) → Option (VariantOf MatchingRule)) (gs : List (DocPath × AnyGen)) (m m' : Obj)
    (k : Str) (h : applyGens mode (metadataStep G D ctx find) m gs = .ok m') :
    Json.lookup k m' = gs.foldl (fun old e => if firstField e.1 = some k then metadataAfter G D mode ctx find e old else old)
      (Json.lookup k m) := by
  unfold applyGens at h
  induction gs generalizing m with
  | nil => simp only [foldR, Res.ok.injEq] at h; rw [h]; rfl
  | cons e gs ih =>
    simp only [foldR] at h
    obtain ⟨m1, h1, h2⟩ := bind_eq_ok h
    rw [ih m1 h2, List.foldl_cons, metadataStep_ok k h1]

/-- **C143** (metadata that stays): an entry without a generator stays as it is. -/
theorem C143_metadata_kept (B : Libs) (G : GLib) (D : Draws) (mode : Mode) (ctx : Obj)
    (find : Json → List (VariantOf MatchingRule) → Option (VariantOf MatchingRule)) (m m' : MessageContents) (k : Str)
    (hk : ∀ e ∈ buildGens m.rules m.gens .metadata, firstField e.1 = some k → corresponds mode e.2 = false)
    (h : generateContents B G D mode ctx find m = .ok m') : Json.lookup k m'.metadata = Json.lookup k m.metadata := by
  rw [metadata_after G D mode ctx find _ _ _ k (contents_parts h).1]
  refine foldl_skip _ _ _ ?_
  intro e he old
  split
  · rename_i hf
    unfold metadataAfter jsonAt
    rw [if_neg (by rw [hk e ((gensFor_mem G _ _ _ e).1 he) hf]; simp)]
    simp
  · rfl

/-- **C143** (generated metadata): an entry with one generator gets the value generated for the old one (`null` if there is
none), or stays if it cannot be generated. -/
theorem C143_metadata (B : Libs) (G : GLib) (D : Draws) (mode : Mode) (ctx : Obj)
    (find : Json → List (VariantOf MatchingRule) → Option (VariantOf MatchingRule)) (m m' : MessageContents) (k : Str)
    (e : DocPath × AnyGen) (he : e ∈ buildGens m.rules m.gens .metadata) (hf : firstField e.1 = some k)
    (hu : ∀ x ∈ buildGens m.rules m.gens .metadata, x ≠ e → firstField x.1 ≠ some k)
    (h : generateContents B G D mode ctx find m = .ok m') :
    Json.lookup k m'.metadata = metadataAfter G D mode ctx find e (Json.lookup k m.metadata) := by
  rw [metadata_after G D mode ctx find _ _ _ k (contents_parts h).1]
  rw [foldl_one _ _ _ e ((gensFor_mem G _ _ _ e).2 he) (gensFor_nodup G _ _ _) ?_, if_pos hf]
  intro x hx hne s
  rw [if_neg (hu x ((gensFor_mem G _ _ _ x).1 hx) hne)]

/-- **C143** (JSON contents): JSON contents get the generated values at the places the generators address. -/
theorem C143_json_partial (B : Libs) (G : GLib) (D : Draws) (mode : Mode) (ctx : Obj)
    (find : Json → List (VariantOf MatchingRule) → Option (VariantOf MatchingRule)) (hfi : Finds find) (m m' : MessageContents)
    (ct : ContentType) (j : Json) (hb : isPresent m.contents = true) (hj : B.bodies.json (bytesOf m.contents) = some j)
    (hw : j.WF) (ht : Tame j) (hg : buildGens m.rules m.gens .body ≠ []) (hp : PlainGens G ctx (buildGens m.rules m.gens .body))
    (h : generateContents B G D mode ctx find m = .ok m')
    (hc : contentsType B (listedType m'.metadata) m.contents = some ct) (hct : ct.isJson = true) :
    ∃ j', m'.contents = .present (utf8 j'.text) (some Provider.jsonType) none ∧
      Filled G (corresponds mode) ctx find (buildGens m.rules m.gens .body) j j' := by
  obtain ⟨_, h4, _⟩ := contents_parts h
  rw [hc] at h4
  obtain ⟨j', h5, h6⟩ := processBody_json B G D mode ctx _ _ ct m.contents m'.contents j hb (gensFor_ne G _ _ _ hg) hct hj h4
  exact ⟨j', h6, filled_body G _ mode ctx _ hfi _ _ hp j j' hw ht h5⟩

/-- **C143** (the content type of the metadata is not used): metadata with `contentType` given as a text say nothing about the
contents: it is as if the text was empty. -/
theorem C143_type_ignored (m : Obj) (k s : Str) (h : (m.find? fun e => PactV3.isContentTypeKey e.1) = some (k, .str s)) :
    listedType m = some [] := by
  unfold listedType
  rw [h]
  rfl

/-- **C143** (synchronous messages): the request and each response are generated, each with its own generators; none is added
or lost. -/
theorem C143_sync (B : Libs) (G : GLib) (D : Draws) (mode : Mode) (ctx : Obj) (request rq : MessageContents)
    (responses rs : List MessageContents) (h : generateSync B G D mode ctx request responses = .ok (rq, rs)) :
    (∃ D', generateContents B G D' mode ctx noVariant request = .ok rq) ∧ rs.length = responses.length ∧
    ∀ (i : Nat) (m : MessageContents), responses[i]? = some m → ∃ D' m', rs[i]? = some m' ∧
      generateContents B G D' mode ctx noVariant m = .ok m' := by
  unfold generateSync at h
  obtain ⟨x, h1, h2⟩ := bind_eq_ok h
  obtain ⟨y, h3, h4⟩ := Res.map_eq_ok.1 h2
  cases h4
  have key : ∀ (f : Nat → MessageContents → Res MessageContents) (ms : List MessageContents) (k : Nat)
      (ms' : List MessageContents), generateAll f k ms = .ok ms' →
      ms'.length = ms.length ∧ ∀ (i : Nat) (m : MessageContents), ms[i]? = some m → ∃ m', ms'[i]? = some m' ∧ f (k + i) m = .ok m' := by
    intro f ms
    induction ms with
    | nil => intro k ms' h; simp only [generateAll, Res.ok.injEq] at h; subst h; exact ⟨rfl, by simp⟩
    | cons a ms ih =>
      intro k ms' h
      simp only [generateAll] at h
      obtain ⟨a', ha, hb⟩ := bind_eq_ok h
      obtain ⟨t, ht, rfl⟩ := Res.map_eq_ok.1 hb
      obtain ⟨i1, i2⟩ := ih (k + 1) t ht
      refine ⟨by simp [i1], ?_⟩
      intro i m hm
      cases i with
      | zero => simp only [List.getElem?_cons_zero, Option.some.injEq] at hm; subst hm; exact ⟨a', rfl, ha⟩
      | succ i =>
        simp only [List.getElem?_cons_succ] at hm ⊢
        obtain ⟨m', h1, h2⟩ := i2 i m hm
        exact ⟨m', h1, by rw [← h2, show k + 1 + i = k + (i + 1) by omega]⟩
  obtain ⟨k1, k2⟩ := key _ responses 0 rs h3
  refine ⟨⟨_, h1⟩, k1, ?_⟩
  intro i m hm
  obtain ⟨m', h5, h6⟩ := k2 i m hm
  exact ⟨_, m', h5, h6⟩

theorem asyncStep_ok {G : GLib} {D : Draws} {mode : Mode} {ctx old m m' : Obj} {e : DocPath × AnyGen} (k : Str)
    (h : (if corresponds mode e.2 then asyncStep G D ctx old m e.1 e.2 else .ok m) = .ok m') :
    Json.lookup k m' = ((if firstField e.1 = some k then jsonAt G (D.at_ ["metadata".toList, e.1.expr]) (corresponds mode) ctx
      noVariant e.2 ((Json.lookup k old).getD .null) else none)).or (Json.lookup k m) := by
  unfold jsonAt
  by_cases hc : corresponds mode e.2 = true
  · rw [if_pos hc] at h
    rw [if_pos hc]
    unfold asyncStep at h
    cases hf : firstField e.1 with
    | none =>
      rw [hf] at h
      simp only [Res.ok.injEq] at h
      subst h
      simp
    | some n =>
      rw [hf] at h
      simp only at h
      have := orKeep_ok h
      rw [okPart_map] at this
      by_cases hk : n = k
      · subst hk
        rw [if_pos rfl, this]
        cases hg : okPart (generateJson G (D.at_ ["metadata".toList, e.1.expr]) ctx noVariant e.2 ((Json.lookup n old).getD .null)) with
        | none => simp
        | some w =>
          simp only [Option.map_some, Option.getD_some, Option.some_or]
          rw [lookup_insert, if_pos rfl]
      · rw [if_neg (by intro h; exact hk (Option.some.inj h)), this]
        cases okPart (generateJson G (D.at_ ["metadata".toList, e.1.expr]) ctx noVariant e.2 ((Json.lookup n old).getD .null)) with
        | none => rfl
        | some w =>
          simp only [Option.map_some, Option.getD_some, Option.none_or]
          rw [lookup_insert, if_neg (Ne.symm hk)]
  · rw [if_neg hc] at h
    simp only [Res.ok.injEq] at h
    subst h
    rw [if_neg hc]
    simp

/-- **C143** (asynchronous messages): each entry of the metadata has the value a generator for it gives for the old value, or
the old value if there is none. -/
theorem C143_async_metadata (B : Libs) (G : GLib) (D : Draws) (mode : Mode) (ctx : Obj) (m m' : MessageContents)
    (h : generateAsync B G D mode ctx m = .ok m') (k : Str) :
    (∃ e ∈ buildGens m.rules m.gens .metadata, firstField e.1 = some k ∧ corresponds mode e.2 = true ∧
      ∃ D' v, generateJson G D' ctx noVariant e.2 ((Json.lookup k m.metadata).getD .null) = .ok v ∧
        Json.lookup k m'.metadata = some v) ∨
    ((∀ e ∈ buildGens m.rules m.gens .metadata, firstField e.1 = some k → corresponds mode e.2 = true →
      ∃ D', ∀ v, generateJson G D' ctx noVariant e.2 ((Json.lookup k m.metadata).getD .null) ≠ .ok v) ∧
        Json.lookup k m'.metadata = Json.lookup k m.metadata) := by
  unfold generateAsync at h
  obtain ⟨md, h1, h2⟩ := bind_eq_ok h
  obtain ⟨c, h3, rfl⟩ := Res.map_eq_ok.1 h2
  unfold applyGens at h1
  have hl := last_wins (fun m => Json.lookup k m) _ (fun e : DocPath × AnyGen => if firstField e.1 = some k then
      jsonAt G (D.at_ ["metadata".toList, e.1.expr]) (corresponds mode) ctx noVariant e.2 ((Json.lookup k m.metadata).getD .null)
      else none) (fun s a s' hs => asyncStep_ok k hs) _ _ _ h1
  cases hf : (gensFor G m.rules m.gens .metadata).reverse.findSome? (fun e : DocPath × AnyGen => if firstField e.1 = some k then
      jsonAt G (D.at_ ["metadata".toList, e.1.expr]) (corresponds mode) ctx noVariant e.2 ((Json.lookup k m.metadata).getD .null)
      else none) with
  | some v =>
    left
    rw [hf] at hl
    obtain ⟨e, he, hv⟩ := List.exists_of_findSome?_eq_some hf
    by_cases hk : firstField e.1 = some k
    · rw [if_pos hk] at hv
      unfold jsonAt at hv
      by_cases hc : corresponds mode e.2 = true
      · rw [if_pos hc] at hv
        exact ⟨e, (gensFor_mem G _ _ _ e).1 (List.mem_reverse.1 he), hk, hc, _, v, okPart_some hv, by simpa using hl⟩
      · rw [if_neg hc] at hv; cases hv
    · rw [if_neg hk] at hv; cases hv
  | none =>
    right
    rw [hf] at hl
    refine ⟨?_, by simpa using hl⟩
    intro e he hk hc
    refine ⟨D.at_ ["metadata".toList, e.1.expr], fun v hv => ?_⟩
    have := List.findSome?_eq_none_iff.1 hf e (List.mem_reverse.2 ((gensFor_mem G _ _ _ e).2 he))
    unfold jsonAt at this
    rw [if_pos hk, if_pos hc, hv] at this
    cases this

/-- **C143** (asynchronous messages): JSON contents. -/
theorem C143_async_json_partial (B : Libs) (G : GLib) (D : Draws) (mode : Mode) (ctx : Obj) (m m' : MessageContents)
    (ct : ContentType) (j : Json) (hb : isPresent m.contents = true) (hj : B.bodies.json (bytesOf m.contents) = some j)
    (hw : j.WF) (ht : Tame j) (hg : buildGens m.rules m.gens .body ≠ []) (hp : PlainGens G ctx (buildGens m.rules m.gens .body))
    (h : generateAsync B G D mode ctx m = .ok m')
    (hc : contentsType B (listedType m.metadata) m.contents = some ct) (hct : ct.isJson = true) :
    ∃ j', m'.contents = .present (utf8 j'.text) (some Provider.jsonType) none ∧
      Filled G (corresponds mode) ctx noVariant (buildGens m.rules m.gens .body) j j' := by
  unfold generateAsync at h
  obtain ⟨md, h1, h2⟩ := bind_eq_ok h
  obtain ⟨c, h4, rfl⟩ := Res.map_eq_ok.1 h2
  rw [hc] at h4
  obtain ⟨j', h5, h6⟩ := processBody_json B G D mode ctx _ _ ct m.contents c j hb (gensFor_ne G _ _ _ hg) hct hj h4
  exact ⟨j', h6, filled_body G _ mode ctx _ noVariant_finds _ _ hp j j' hw ht h5⟩

/-- **C143** (V3 messages): a V3 message is generated like the contents of a V4 message, but its lists have variants. -/
theorem C143_message (B : Libs) (G : GLib) (D : Draws) (mode : Mode) (ctx : Obj) (m m' : PactV3.Message)
    (h : generateMessage B G D mode ctx m = .ok m') :
    ∃ c, generateContents B G D mode ctx (defaultVariant B.env) ⟨m.contents, m.metadata, m.rules, m.gens⟩ = .ok c ∧
      m' = { m with contents := c.contents, metadata := c.metadata } := by
  unfold generateMessage at h
  obtain ⟨c, h1, h2⟩ := Res.map_eq_ok.1 h
  exact ⟨c, h1, h2.symm⟩

/-! ### Examples -/

def exRng : Rng where
  pick := fun _ lo _ => lo
  pick_range := fun _ _ _ h => ⟨Int.le_refl _, h⟩
  sample := fun k n => List.range (Nat.min k n)
  sample_length := fun _ _ => List.length_range
  sample_nodup := fun _ _ => List.nodup_range
  sample_range := fun k n i h => Nat.lt_of_lt_of_le (List.mem_range.1 h) (Nat.min_le_right k n)
  hex := List.replicate 32 '0'
  hex_length := List.length_replicate
  hex_digits := by decide

def exG : GLib where
  order := fun _ l => l
  order_perm := fun _ l => List.Perm.refl l
  f64 := ⟨fun _ => 0, fun _ => "0.0".toList, fun _ => false, fun _ => some .null⟩
  floatU16 := fun _ => 0
  parseU16f := fun _ => none
  intFloat := fun i => intText i
  floatText := id
  parseFloat := fun _ => none
  sampleRegex := fun _ _ => none
  find := fun _ => none
  now := (0, ⟨2020, 1, 1, 0⟩)
  moment := fun _ => none
  expr := ⟨UC.ascii, fun _ => true, fun _ => 0⟩
  bad := fun _ => []

/-- The document of the examples. -/
def exDoc : Json := .obj [("b".toList, .obj [("id".toList, .num (.pos 7))]), ("c".toList, .bool true)]

def exB : Libs := { ProviderProps.exLibs with bodies := { ResultProps.simpleBody with json := fun _ => some exDoc } }

def exCtx : Obj := [("id".toList, .num (.pos 42)), ("who".toList, .str "me".toList)]

def exGen : HttpRequest :=
  ⟨"GET".toList, "/a".toList, some [("q".toList, [some "1".toList, none]), ("z".toList, [some "1".toList])],
    some [("Content-Type".toList, ["application/json".toList]), ("X-Id".toList, ["1".toList, "2".toList])], .present [123, 125] none none, [],
    [(.path, [(fromTokens [.root], .providerState "/x/${id}/${who}".toList none)]),
     (.header, [(fromTokens [.root, .field "X-Id".toList], .providerState "id".toList (some .integer)),
       (fromTokens [.root, .field "content-type".toList], .providerState "who".toList none)]),
     (.query, [(fromTokens [.root, .field "q".toList], .providerState "${who}".toList none)]),
     (.body, [(fromTokens [.root, .field "b".toList, .field "id".toList], .providerState "${id}".toList none)])]⟩

/-- The request that is sent: the name of the header is compared as it is written, so that `content-type` is added to
`Content-Type`; both values of the parameter are replaced. -/
def exSent : HttpRequest :=
  { exGen with
    path := "/x/42/me".toList
    query := some [("q".toList, [some "me".toList, some "me".toList]), ("z".toList, [some "1".toList])]
    headers := some [("Content-Type".toList, ["application/json".toList]), ("X-Id".toList, ["42".toList]), ("content-type".toList, ["me".toList])]
    body := .present (utf8 "{\"b\":{\"id\":42},\"c\":true}".toList) (some Provider.jsonType) none }

set_option maxRecDepth 100000 in
/-- The hypotheses of C139, C140 and C141 are met. -/
theorem exGenerated : generateRequest exB exG (fun _ => exRng) .provider exCtx exGen = .ok exSent := by rfl

set_option maxRecDepth 100000 in
/-- For the consumer nothing changes but the body, which is written again. -/
theorem exConsumer : generateRequest exB exG (fun _ => exRng) .consumer exCtx exGen =
    .ok { exGen with body := .present (utf8 exDoc.text) (some Provider.jsonType) none } := by rfl

/-- **C139** (the case of header names, refuted): a generator for a header that is written in another case adds a second header
of the same name. -/
theorem C139_case_fails : ∃ (B : Libs) (G : GLib) (D : Draws) (ctx : Obj) (r r' : HttpRequest) (hs : HeaderMap),
    generateRequest B G D .provider ctx r = .ok r' ∧ r'.headers = some hs ∧
      ¬ (hs.map fun e => UC.ascii.lower e.1).Nodup ∧ ((r.headers.getD []).map fun e => UC.ascii.lower e.1).Nodup :=
  ⟨exB, exG, fun _ => exRng, exCtx, exGen, exSent, _, exGenerated, rfl, by decide, by decide⟩

theorem tame_obj (es : List (Str × Json)) (h : ∀ e ∈ es, PlainSeg (.key e.1) ∧ Tame e.2) : Tame (.obj es) := by
  intro loc hg s hs
  cases loc with
  | nil => simp at hs
  | cons s' ss =>
    cases s' with
    | idx i => simp [getAt] at hg
    | key k =>
      simp only [getAt] at hg
      cases hx : Json.lookup k es with
      | none => rw [hx] at hg; simp at hg
      | some v =>
        rw [hx] at hg
        have hm := h _ (Json.lookup_mem hx)
        rcases List.mem_cons.1 hs with rfl | hs
        · exact hm.1
        · exact hm.2 ss hg s hs

theorem exDoc_tame : Tame exDoc := by
  apply tame_obj
  intro e he
  rcases List.mem_cons.1 he with rfl | he
  · refine ⟨by unfold PlainSeg; decide, tame_obj _ ?_⟩
    intro e he
    rw [List.mem_singleton] at he
    subst he
    exact ⟨by unfold PlainSeg; decide, tame_scalar _ trivial⟩
  · rw [List.mem_singleton] at he
    subst he
    exact ⟨by unfold PlainSeg; decide, tame_scalar _ trivial⟩

theorem exKind (P : Json → Prop) (hs : ∀ j, Scalar j → P j) : Kind exG exCtx P := by
  refine ⟨hs, ?_, ?_⟩
  · intro s j h
    simp only [exG, Option.some.injEq] at h
    subst h
    exact hs _ trivial
  · intro n v h
    have : ∀ v, Json.lookup n exCtx = some v → Scalar v := by
      intro v hv
      have := Json.lookup_mem hv
      unfold exCtx at this
      rcases List.mem_cons.1 this with h | h
      · cases h; trivial
      · rw [List.mem_singleton] at h; cases h; trivial
    exact hs _ (this v h)

theorem scalar_wf (j : Json) (h : Scalar j) : j.WF := by
  cases j <;> first | exact h.elim | simp [Json.WF]

theorem exPlain : PlainGens exG exCtx (buildGens exGen.rules exGen.gens .body) := by
  have hb : buildGens exGen.rules exGen.gens .body =
      [(fromTokens [.root, .field "b".toList, .field "id".toList], .gen (.providerState "${id}".toList none))] := by rfl
  rw [hb]
  refine ⟨?_, ?_, exKind _ scalar_wf, exKind _ tame_scalar⟩
  · intro e he
    rw [List.mem_singleton] at he
    subst he
    exact ⟨[.field "b".toList, .field "id".toList], rfl, by decide⟩
  · intro e he vs hv
    rw [List.mem_singleton] at he
    subst he
    cases hv

/-- The hypotheses of C140 are met. -/
example : ∃ j', exSent.body = .present (utf8 j'.text) (some Provider.jsonType) none ∧
    Filled exG (corresponds .provider) exCtx (defaultVariant exB.env) (buildGens exGen.rules exGen.gens .body) exDoc j' :=
  C140_request_json_partial exB exG (fun _ => exRng) .provider exCtx exGen exSent ⟨"application".toList, "json".toList, [], none⟩ exDoc rfl rfl
    (by simp only [exDoc, Json.WF, Json.WFEntries, Json.WFEntry, Json.SortedKeys]; decide) exDoc_tame (by intro h; cases h) exPlain exGenerated (by rfl) (by decide)

/-- A list with two variants: items that are texts get the value of the first, numbers that of the second. -/
def exVariants : List (VariantOf MatchingRule) :=
  [⟨0, ⟨.body, [(rootPath, ⟨[.regex "x".toList], .and, false⟩)]⟩, [(rootPath, .providerState "who".toList none)]⟩,
   ⟨1, ⟨.body, [(rootPath, ⟨[.integer], .and, false⟩)]⟩, [(rootPath, .providerState "id".toList none)]⟩]

example : generateJson exG (fun _ => exRng) exCtx (defaultVariant exB.env) (.variants exVariants)
    (.arr [.num (.pos 1), .bool true, .num (.pos 2)]) = .ok (.arr [.num (.pos 42), .bool true, .num (.pos 42)]) := by rfl







end ApplyGenBodyProps
end Verif
