import Verif.Props.EngineInject
import Verif.Props.EngineSpec
import Verif.Props.PatternProps

/-
  The labels of the plan for a JSON body are texts of paths.
-/
set_option autoImplicit false

namespace Verif
namespace EngineWalk
open Path Rules Matchers Compare Query Headers MatchResult Engine JsonUtils EngineSpec
open PathProps (IsSegment PlainKey)

/-- A path whose text is read back. -/
def PathOk (p : DocPath) : Prop :=
  ∃ ts, p.tokens = .root :: ts ∧ p.expr = buildExpr (.root :: ts) ∧ (∀ t ∈ ts, IsSegment t) ∧ ∀ k, .field k ∈ ts → PlainKey k

theorem pathOk_label {p : DocPath} (h : PathOk p) : LabelOk p.expr := by
  obtain ⟨ts, _, h2, h3, h4⟩ := h
  exact ⟨ts, h2, h3, h4⟩

theorem pathOk_root : PathOk rootPath :=
  ⟨[], rfl, rfl, fun t h => (by cases h), fun k h => (by cases h)⟩

theorem pathOk_push {p q : DocPath} {t : PathToken} (h : PathOk p) (hq : q = push p t) (ht : IsSegment t)
    (hk : ∀ k, t = .field k → PlainKey k) : PathOk q := by
  obtain ⟨ts, h1, h2, h3, h4⟩ := h
  subst hq
  refine ⟨ts ++ [t], by rw [push, h1]; rfl, ?_, ?_, ?_⟩
  · rw [push, h2]
    show _ = buildExpr ((.root :: ts) ++ [t])
    rw [buildExpr_append]
    simp [buildExpr]
  · intro u hu
    rcases List.mem_append.mp hu with hu | hu
    · exact h3 u hu
    · rw [List.mem_singleton.mp hu]; exact ht
  · intro k hu
    rcases List.mem_append.mp hu with hu | hu
    · exact h4 k hu
    · exact hk k (List.mem_singleton.mp hu).symm

theorem pathOk_field {p : DocPath} {k : Str} (h : PathOk p) (hk : SafeKey k) : PathOk (pushField p k) :=
  pathOk_push h (PatternProps.pushField_push p k) trivial (fun k' e => by cases e; exact ⟨hk.1, hk.2.1, hk.2.2.1⟩)

theorem pathOk_star {p : DocPath} (h : PathOk p) : PathOk (pushStarIndex p) :=
  pathOk_push h (PatternProps.pushStarIndex_push p) trivial (fun k' e => by cases e)

theorem pathOk_index {p : DocPath} {i : Nat} (h : PathOk p) (hi : i < usizeLim) : PathOk (joinIndex p i) := by
  have hpush : PathOk (pushIndex p i) := pathOk_push h (PatternProps.pushIndex_push p i) hi (fun k' e => by cases e)
  have hrep : ∀ t, p.tokens.getLast? = some t → t ≠ .root → PathOk (fromTokens (p.tokens.dropLast ++ [.index i])) := by
    intro t hl ht
    obtain ⟨ts, h1, h2, h3, h4⟩ := h
    cases hts : ts with
    | nil =>
      rw [h1, hts] at hl
      simp at hl
      exact absurd hl.symm ht
    | cons u us =>
      have hd : p.tokens.dropLast = .root :: ts.dropLast := by rw [h1, hts]; rfl
      refine ⟨ts.dropLast ++ [.index i], by rw [hd]; rfl, by rw [hd]; rfl, ?_, ?_⟩
      · intro v hv
        rcases List.mem_append.mp hv with hv | hv
        · exact h3 v (List.dropLast_subset _ hv)
        · rw [List.mem_singleton.mp hv]; exact hi
      · intro k hv
        rcases List.mem_append.mp hv with hv | hv
        · exact h4 k (List.dropLast_subset _ hv)
        · cases (List.mem_singleton.mp hv)
  rw [joinIndex]
  split
  · rename_i hl; exact hrep _ hl (by simp)
  · rename_i hl; exact hrep _ hl (by simp)
  · exact hpush

theorem labelledL_nil : LabelledL [] := by rw [LabelledL]; trivial

theorem labelledL_cons {n : Node} {ns : List Node} (h : Labelled n) (g : LabelledL ns) : LabelledL (n :: ns) := by
  rw [LabelledL]; exact ⟨h, g⟩

theorem labelledL_append {ms : List Node} : ∀ {ns : List Node}, LabelledL ns → LabelledL ms → LabelledL (ns ++ ms)
  | [], _, g => g
  | n :: ns, h, g => by
    rw [LabelledL] at h
    exact labelledL_cons h.1 (labelledL_append h.2 g)

theorem labelled_act {a : Action} {cs : List Node} (h : LabelledL cs) : Labelled (act a cs) := by
  rw [act, Node.new, Labelled]
  exact ⟨fun l e => (by cases e), h⟩

theorem labelled_cont {l : Str} {cs : List Node} (hl : LabelOk l) (h : LabelledL cs) : Labelled (cont l cs) := by
  rw [cont, Node.new, Labelled]
  exact ⟨fun l e => (by cases e; exact hl), h⟩

theorem labelled_val {v : NodeValue} : Labelled (val v) := by
  rw [val, Node.new, Labelled]
  exact ⟨fun l e => (by cases e), labelledL_nil⟩

theorem labelled_cur {p : DocPath} : Labelled (cur p) := by
  rw [cur, Node.new, Labelled]
  exact ⟨fun l e => (by cases e), labelledL_nil⟩

theorem labelled_ann : Labelled ann := by
  rw [ann, Node.new, Labelled]
  exact ⟨fun l e => (by cases e), labelledL_nil⟩

theorem labelled_two {a : Action} {m n : Node} (h : Labelled m) (g : Labelled n) : Labelled (act a [m, n]) :=
  labelled_act (labelledL_cons h (labelledL_cons g labelledL_nil))

theorem labelled_three {a : Action} {m n o : Node} (h : Labelled m) (g : Labelled n) (k : Labelled o) : Labelled (act a [m, n, o]) :=
  labelled_act (labelledL_cons h (labelledL_cons g (labelledL_cons k labelledL_nil)))

theorem labelled_ruleActs {v : NodeValue} {p : DocPath} : ∀ rs : List MatchingRule, LabelledL (rs.map (ruleAct (val v) (cur p)))
  | [] => labelledL_nil
  | _ :: rs => labelledL_cons (labelled_three labelled_val labelled_cur labelled_val) (labelled_ruleActs rs)

theorem labelled_rules {v : NodeValue} {p : DocPath} {l : RuleList} {coll : Bool} {n : Node}
    (h : rulesNode (val v) (cur p) l coll = .ok n) : Labelled n := by
  rw [rulesNode] at h
  split at h
  · rw [(ruleNode_ok h).2]
    exact labelled_three labelled_val labelled_cur labelled_val
  · obtain ⟨ns, h1, rfl⟩ := map_ok h
    rw [ruleNodes_ok h1]
    exact labelled_act (labelled_ruleActs _)

theorem labelled_equalJson {e : Json} {p : DocPath} : Labelled (equalJson e p) :=
  labelled_three labelled_val labelled_cur labelled_val

theorem labelled_itemCheck {ctx : Ctx} {p : DocPath} {e : Json} {ns : List Node} (h : itemCheck ctx p e = .ok ns) : LabelledL ns := by
  have hx : Labelled (act .checkExists [cur p]) := labelled_act (labelledL_cons labelled_cur labelledL_nil)
  rw [itemCheck] at h
  split at h
  · obtain ⟨n, h1, rfl⟩ := map_ok h
    exact labelledL_cons (labelled_three hx labelled_ann (labelled_rules h1)) labelledL_nil
  · cases h
    exact labelledL_cons (labelled_two hx labelled_equalJson) labelledL_nil

theorem labelled_object {ctx : Ctx} {p : DocPath} {es : List (Str × Json)} {ns : List Node} (h : objectNodes ctx p es = .ok ns) :
    LabelledL ns := by
  rw [objectNodes] at h
  split at h
  · obtain ⟨n, h1, rfl⟩ := map_ok h
    exact labelledL_cons labelled_ann (labelledL_cons (labelled_rules h1) labelledL_nil)
  · split at h
    · cases h
      exact labelledL_cons (labelled_two labelled_val labelled_cur) labelledL_nil
    · cases h
      exact labelledL_cons (labelled_three labelled_val labelled_val labelled_cur)
        (labelledL_cons (labelled_two labelled_val labelled_cur) labelledL_nil)

theorem labelled_scalar {ctx : Ctx} {p : DocPath} {e : Json} {ns : List Node} (h : scalarNodes ctx p e = .ok ns) : LabelledL ns := by
  rw [scalarNodes] at h
  split at h
  · obtain ⟨n, h1, rfl⟩ := map_ok h
    exact labelledL_cons labelled_ann (labelledL_cons (labelled_rules h1) labelledL_nil)
  · cases h
    exact labelledL_cons labelled_equalJson labelledL_nil

theorem jsonNodes_scalar {ctx : Ctx} {p : DocPath} {e : Json} (h : scalar e = true) : jsonNodes ctx p e = scalarNodes ctx p e := by
  cases e with
  | arr l => cases h
  | obj l => cases h
  | _ => rw [jsonNodes] <;> (intros; rename_i hh; cases hh)

theorem jsonNodes_arr {ctx : Ctx} {p : DocPath} {items : List Json} : jsonNodes ctx p (.arr items) =
    if isDefined ctx p then
      (rulesNode (val (.json (.arr items))) (cur p) (best ctx p) true).bind fun n =>
        (templateNodes ctx p items).map fun ns => ann :: n :: ns
    else match items with
      | [] => .ok [act .jsonExpectEmpty [txt "ARRAY", cur p]]
      | items => (itemsNodes ctx p 0 items).map fun ns =>
          act .jsonMatchLength [txt "ARRAY", val (.uint items.length), cur p] :: ns := by
  cases items <;> rfl

theorem nice_arr {P : EP} {l : List Json} (h : Nice P (.arr l)) : l.length ≤ usizeLim ∧ NiceL P l := by rw [Nice] at h; exact h
theorem nice_obj {P : EP} {l : List (Str × Json)} (h : Nice P (.obj l)) : NiceE P l := by rw [Nice] at h; exact h
theorem nice_scalar {P : EP} {e : Json} (h : Nice P e) (hs : scalar e = true) : P.parseStr e.text = some e := by
  cases e with
  | arr l => cases hs
  | obj l => cases hs
  | _ => rw [Nice] at h <;> first | exact h | (intros; rename_i hh; cases hh)

mutual
theorem labelled_json {P : EP} {ctx : Ctx} (e : Json) (p : DocPath) (ns : List Node) (hn : Nice P e) (hp : PathOk p)
    (h : jsonNodes ctx p e = .ok ns) : LabelledL ns := by
  match e with
  | .arr items =>
    have hna := nice_arr hn
    rw [jsonNodes_arr] at h
    split at h
    · obtain ⟨n, h1, h2⟩ := bind_ok h
      obtain ⟨ms, h3, rfl⟩ := map_ok h2
      exact labelledL_cons labelled_ann (labelledL_cons (labelled_rules h1) (labelled_template items p ms hna.2 hp h3))
    · split at h
      · cases h
        exact labelledL_cons (labelled_two labelled_val labelled_cur) labelledL_nil
      · obtain ⟨ms, h3, rfl⟩ := map_ok h
        exact labelledL_cons (labelled_three labelled_val labelled_val labelled_cur)
          (labelled_items items p 0 ms (by omega) hna.2 hp h3)
  | .obj es =>
    rw [jsonNodes] at h
    obtain ⟨n, h1, h2⟩ := bind_ok h
    obtain ⟨ms, h3, rfl⟩ := map_ok h2
    exact labelledL_append (labelled_object h1) (labelled_entries es p ms (nice_obj hn) hp h3)
  | .null => rw [jsonNodes_scalar rfl] at h; exact labelled_scalar h
  | .bool b => rw [jsonNodes_scalar rfl] at h; exact labelled_scalar h
  | .num n => rw [jsonNodes_scalar rfl] at h; exact labelled_scalar h
  | .str s => rw [jsonNodes_scalar rfl] at h; exact labelled_scalar h
termination_by structural e
theorem labelled_template {P : EP} {ctx : Ctx} (items : List Json) (p : DocPath) (ns : List Node) (hn : NiceL P items) (hp : PathOk p)
    (h : templateNodes ctx p items = .ok ns) : LabelledL ns := by
  match items with
  | [] => rw [templateNodes] at h; cases h; exact labelledL_nil
  | t :: ts =>
    rw [NiceL] at hn
    rw [templateNodes] at h
    obtain ⟨ms, h1, rfl⟩ := map_ok h
    refine labelledL_cons (labelled_two labelled_cur (labelled_cont (pathOk_label (pathOk_star hp)) ?_)) labelledL_nil
    split at h1
    · exact labelled_itemCheck h1
    · exact labelled_json t (pushStarIndex p) ms hn.1 (pathOk_star hp) h1
termination_by structural items
theorem labelled_items {P : EP} {ctx : Ctx} (items : List Json) (p : DocPath) (i : Nat) (ns : List Node)
    (hi : i + items.length ≤ usizeLim) (hn : NiceL P items) (hp : PathOk p)
    (h : itemsNodes ctx p i items = .ok ns) : LabelledL ns := by
  match items with
  | [] => rw [itemsNodes] at h; cases h; exact labelledL_nil
  | e :: es =>
    rw [NiceL] at hn
    rw [itemsNodes] at h
    simp only [List.length_cons] at hi
    obtain ⟨ms, h1, h2⟩ := bind_ok h
    obtain ⟨qs, h3, rfl⟩ := map_ok h2
    refine labelledL_append ?_ (labelled_items es p (i + 1) qs (by omega) hn.2 hp h3)
    split at h1
    · obtain ⟨rs, h4, rfl⟩ := map_ok h1
      exact labelledL_cons (labelled_cont (pathOk_label (pathOk_index hp (by omega))) (labelled_itemCheck h4)) labelledL_nil
    · obtain ⟨rs, h4, rfl⟩ := map_ok h1
      exact labelledL_nil
termination_by structural items
theorem labelled_entries {P : EP} {ctx : Ctx} (es : List (Str × Json)) (p : DocPath) (ns : List Node) (hn : NiceE P es) (hp : PathOk p)
    (h : entriesNodes ctx p es = .ok ns) : LabelledL ns := by
  match es with
  | [] => rw [entriesNodes] at h; cases h; exact labelledL_nil
  | e :: es =>
    rw [NiceE] at hn
    rw [entriesNodes] at h
    obtain ⟨n, h1, h2⟩ := bind_ok h
    obtain ⟨ms, h3, rfl⟩ := map_ok h2
    exact labelledL_cons (labelled_entry e p n hn.1 hp h1) (labelled_entries es p ms hn.2 hp h3)
termination_by structural es
theorem labelled_entry {P : EP} {ctx : Ctx} (e : Str × Json) (p : DocPath) (n : Node) (hn : NiceP P e) (hp : PathOk p)
    (h : entryNode ctx p e = .ok n) : Labelled n := by
  match e with
  | (k, v) =>
    rw [NiceP] at hn
    rw [entryNode] at h
    obtain ⟨ms, h1, rfl⟩ := map_ok h
    have hk := pathOk_field hp hn.1
    exact labelled_cont (pathOk_label hk) (labelled_json v (pushField p k) ms hn.2 hk h1)
termination_by structural e
end

end EngineWalk
end Verif
