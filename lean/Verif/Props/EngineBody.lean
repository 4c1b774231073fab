import Verif.Props.EngineParts

/-
  Executing the plan for the body of a request.
-/
set_option autoImplicit false

namespace Verif
namespace EngineWalk
open Path Rules Matchers Compare Query Headers MatchResult Engine JsonUtils EngineSpec
open BodyGeneratorProps (Seg getAt)

/-! ### JSON plans without an actual body -/

/-- Nodes that execute. -/
def Walks (C : ECtx) (s : Stack) (ns : List Node) : Prop := ∃ ns', RunsL C s ns ns' ∧ ∀ n ∈ ns', n.isSplat = false

theorem walks_of_gives {C : ECtx} {s : Stack} {ns : List Node} {v : Prop} (h : GivesL C s ns v) : Walks C s ns := by
  obtain ⟨ns', h1, h2⟩ := h
  exact ⟨ns', h1, h2.plain⟩

theorem walks_append {C : ECtx} {s : Stack} {a b : List Node} (h : Walks C s a) (g : Walks C s b) : Walks C s (a ++ b) := by
  obtain ⟨a', h1, h2⟩ := h
  obtain ⟨b', g1, g2⟩ := g
  refine ⟨a' ++ b', runsL_append h1 g1, ?_⟩
  intro n hn
  rcases List.mem_append.mp hn with hn | hn
  · exact h2 n hn
  · exact g2 n hn

theorem walks_cons {C : ECtx} {s : Stack} {n : Node} {b : List Node} (h : Walks C s [n]) (g : Walks C s b) : Walks C s (n :: b) :=
  walks_append (a := [n]) h g

theorem walks_nil {C : ECtx} {s : Stack} : Walks C s [] := ⟨[], .nil, fun n hn => (by cases hn)⟩

theorem walks_container {C : ECtx} {s : Stack} {l : Str} {b : List Node} (h : Walks C s b) : Walks C s [cont l b] := by
  obtain ⟨b', h1, h2⟩ := h
  refine ⟨[_], .cons (runs_container l h1 h2) .nil, ?_⟩
  intro n hn
  rw [List.mem_singleton.mp hn]
  rfl

/-- A node that fails decides about the nodes that it is followed by. -/
theorem givesL_false {C : ECtx} {s : Stack} {n : Node} {ns : List Node} (h : Gives C s n False) (g : Walks C s ns) :
    GivesL C s (n :: ns) False := by
  obtain ⟨n', h1, h2⟩ := h
  obtain ⟨ns', g1, g2⟩ := g
  refine ⟨n' :: ns', .cons h1 g1, ?_, fun h => h.elim, fun hn => ⟨n', List.mem_cons_self .., h2.rep hn⟩⟩
  intro m hm
  rcases List.mem_cons.mp hm with rfl | hm
  · exact h2.plain
  · exact g2 m hm

section
variable {C : ECtx} {s0 : Stack} {ctx : Ctx} {p : DocPath}

theorem null_cur : Runs C (some (.value .null) :: s0) (cur p) (.mk (.resolveCurrent p) (some (.error .said)) []) := runs_cur p

theorem null_rules (hs : RulesSafe C.P ctx) {coll : Bool} {e : Json} {n : Node}
    (h : rulesNode (val (.json e)) (cur p) (best ctx p) coll = .ok n) :
    Gives C (some (.value .null) :: s0) n ((best ctx p).rules = []) := by
  have hE := runs_val (C := C) (s := some (.value .null) :: s0) (v := .json e) (w := .json e) rfl
  refine gives_congr (gives_rules h hE rfl clean_leaf null_cur rfl (fun hh => by cases hh) (fun ⟨a, ha⟩ => by cases ha)
    (fun r hr => hs p coll r hr)) ?_
  constructor
  · intro hall
    cases hr : (best ctx p).rules with
    | nil => rfl
    | cons r rs =>
      obtain ⟨v, rule, hv, _⟩ := hall r (by rw [hr]; exact List.mem_cons_self ..)
      cases hv
  · intro h r hr
    rw [h] at hr
    cases hr

theorem null_equal {e : Json} (hr : C.P.parseStr e.text = some e) :
    Gives C (some (.value .null) :: s0) (equalJson e p) False := by
  have hE := runs_val (C := C) (s := some (.value .null) :: s0) (v := .namespaced "json".toList e.text) (w := .json e)
    (by simp only [nodeValue, hr, Option.map_some, if_true])
  have hm := checks_match (name := "equality".toList) (ps := .null) hE rfl clean_leaf (null_cur (p := p)) rfl
    (fun hh => by cases hh) (fun ⟨a, ha⟩ => by cases ha) rfl (by rw [show NodeValue.asJsonD .null = Json.null from rfl, create_equality]; intro hh; cases hh)
  refine gives_congr hm.gives ⟨?_, fun h => h.elim⟩
  rintro ⟨v, rule, hv, _⟩
  cases hv

theorem null_exists : Runs C (some (.value .null) :: s0) (act .checkExists [cur p])
      (.mk (.action .checkExists) (some (.value (.bool false))) [.mk (.resolveCurrent p) (some (.error .said)) []]) :=
  runs_args1 null_cur (fun rec f => rfl) rfl

theorem null_item (hs : RulesSafe C.P ctx) {e : Json} {ns : List Node} (h : itemCheck ctx p e = .ok ns) :
    Walks C (some (.value .null) :: s0) ns := by
  rw [itemCheck] at h
  split at h
  · obtain ⟨n, h1, rfl⟩ := map_ok h
    obtain ⟨n', h2, h3⟩ := null_rules (s0 := s0) hs h1
    refine ⟨[_], .cons (runs_if_else null_exists rfl h2) .nil, ?_⟩
    intro m hm
    rw [List.mem_singleton.mp hm]
    rfl
  · cases h
    refine ⟨[_], .cons (runs_if_false null_exists rfl) .nil, ?_⟩
    intro m hm
    rw [List.mem_singleton.mp hm]
    rfl

/-- A check of a value with an error in the value. -/
theorem null_check {ac : Action} {cs : List Node} {cs' : List Node} (h : Runs C (some (.value .null) :: s0) (act ac cs)
    (.mk (.action ac) (some (.error .said)) cs')) : Gives C (some (.value .null) :: s0) (act ac cs) False :=
  ⟨_, h, rfl, fun h => h.elim, fun _ => ⟨reported_own, .inl ⟨_, rfl⟩⟩⟩

theorem null_expectEmpty (ty : String) : Gives C (some (.value .null) :: s0) (act .jsonExpectEmpty [txt ty, cur p]) False :=
  null_check (runs_args2 (runs_val (v := .str ty.toList) (w := .str ty.toList) rfl) null_cur (fun rec f => rfl) rfl)

theorem null_matchLength (ty : String) (n : Nat) :
    Gives C (some (.value .null) :: s0) (act .jsonMatchLength [txt ty, val (.uint n), cur p]) False :=
  null_check (runs_args3 (runs_val (v := .str ty.toList) (w := .str ty.toList) rfl) (runs_val (v := .uint n) (w := .uint n) rfl) null_cur
    (fun rec f => rfl) rfl)

theorem null_expectEntries (ty : String) (ks : List Str) :
    Gives C (some (.value .null) :: s0) (act .jsonExpectEntries [txt ty, val (.slist ks), cur p]) False :=
  null_check (runs_args3 (runs_val (v := .str ty.toList) (w := .str ty.toList) rfl) (runs_val (v := .slist ks) (w := .slist ks) rfl) null_cur
    (fun rec f => rfl) rfl)

theorem null_onlyEntries (ks : List Str) : Gives C (some (.value .null) :: s0) (act .expectOnlyEntries [val (.slist ks), cur p]) False := by
  refine null_check (cs' := [.mk (.value (.slist ks)) (some (.value (.slist ks))) [], .mk (.resolveCurrent p) (some (.error .said)) []]) ?_
  apply runs_of_step
  intro f hf
  simp only [heights_cons, heights_nil] at hf
  show execCheckEntries C (walkF C f) true (act .expectOnlyEntries [val (.slist ks), cur p]) _ = _
  rw [execCheckEntries]
  show arg (walkF C f) _ (val (.slist ks)) _ _ = _
  rw [arg, runs_val (C := C) (v := .slist ks) (w := .slist ks) rfl f (by omega)]
  show arg (walkF C f) _ (cur p) _ _ = _
  rw [arg, null_cur f (by omega)]
  rfl

theorem null_forEach {b : Node} : Gives C (some (.value .null) :: s0) (act .forEach [cur p, b]) False := by
  refine null_check (cs' := [.mk (.resolveCurrent p) (some (.error .said)) [], b]) ?_
  apply runs_of_step
  intro f hf
  simp only [heights_cons] at hf
  show execForEach C (walkF C f) (act .forEach [cur p, b]) _ = _
  rw [execForEach]
  show arg (walkF C f) _ (cur p) _ _ = _
  rw [arg, null_cur f (by omega)]
  rfl

theorem null_object (hs : RulesSafe C.P ctx) {es : List (Str × Json)} {ns : List Node} (h : objectNodes ctx p es = .ok ns) :
    GivesL C (some (.value .null) :: s0) ns False := by
  rw [objectNodes] at h
  split at h
  · rename_i hc
    obtain ⟨n, h1, rfl⟩ := map_ok h
    refine givesL_congr (givesL_cons gives_ann (givesL_one (null_rules hs h1))) ⟨?_, fun h => h.elim⟩
    rintro ⟨_, hr⟩
    rw [hr] at hc
    simp at hc
  · split at h
    · cases h
      exact givesL_one (null_expectEmpty _)
    · cases h
      exact givesL_false (null_expectEntries _ _) (walks_of_gives (givesL_one (null_onlyEntries _)))

theorem null_template {items : List Json} {ns : List Node} (h : templateNodes ctx p items = .ok ns) :
    GivesL C (some (.value .null) :: s0) ns (items = []) := by
  cases items with
  | nil =>
    rw [templateNodes] at h
    cases h
    exact givesL_congr givesL_nil (by simp)
  | cons t ts =>
    rw [templateNodes] at h
    obtain ⟨ms, h1, rfl⟩ := map_ok h
    exact givesL_congr (givesL_one null_forEach) (by simp)

theorem null_scalar (hs : RulesSafe C.P ctx) {e : Json} (hr : C.P.parseStr e.text = some e) {ns : List Node} (h : scalarNodes ctx p e = .ok ns) :
    GivesL C (some (.value .null) :: s0) ns (isDefined ctx p = true ∧ (best ctx p).rules = []) := by
  rw [scalarNodes] at h
  split at h
  · rename_i hd
    obtain ⟨n, h1, rfl⟩ := map_ok h
    exact givesL_congr (givesL_cons gives_ann (givesL_one (null_rules hs h1))) ⟨fun h => ⟨hd, h.2⟩, fun h => ⟨trivial, h.2⟩⟩
  · rename_i hd
    cases h
    exact givesL_congr (givesL_one (null_equal hr)) ⟨fun h => h.elim, fun h => hd h.1⟩

theorem null_items (hs : RulesSafe C.P ctx) : ∀ (items : List Json) (i : Nat) (ns : List Node), itemsNodes ctx p i items = .ok ns →
    Walks C (some (.value .null) :: s0) ns
  | [], _, ns, h => by
    rw [itemsNodes] at h
    cases h
    exact walks_nil
  | e :: es, i, ns, h => by
    rw [itemsNodes] at h
    obtain ⟨ms, h1, h2⟩ := bind_ok h
    obtain ⟨qs, h3, rfl⟩ := map_ok h2
    refine walks_append ?_ (null_items hs es (i + 1) qs h3)
    split at h1
    · obtain ⟨rs, h4, rfl⟩ := map_ok h1
      exact walks_container (null_item hs h4)
    · obtain ⟨rs, h4, rfl⟩ := map_ok h1
      exact walks_nil

end

mutual
/-- The nodes for a value are executed without a body, and fail unless there is an empty list of rules. -/
theorem null_at {C : ECtx} {s0 : Stack} {ctx : Ctx} (hs : RulesSafe C.P ctx) (e : Json) (p : DocPath) (ns : List Node) (hn : Nice C.P e)
    (h : jsonNodes ctx p e = .ok ns) : GivesL C (some (.value .null) :: s0) ns
      (isDefined ctx p = true ∧ (best ctx p).rules = [] ∧ (scalar e = true ∨ e = .arr [])) := by
  have hsc : ∀ e : Json, scalar e = true → Nice C.P e → jsonNodes ctx p e = .ok ns → GivesL C (some (.value .null) :: s0) ns
      (isDefined ctx p = true ∧ (best ctx p).rules = [] ∧ (scalar e = true ∨ e = .arr [])) := by
    intro e he hn h
    rw [jsonNodes_scalar he] at h
    exact givesL_congr (null_scalar hs (nice_scalar hn he) h) ⟨fun h => ⟨h.1, h.2, .inl he⟩, fun h => ⟨h.1, h.2.1⟩⟩
  match e with
  | .arr items =>
    rw [jsonNodes_arr] at h
    split at h
    · rename_i hd
      obtain ⟨n, h1, h2⟩ := bind_ok h
      obtain ⟨ms, h3, rfl⟩ := map_ok h2
      refine givesL_congr (givesL_cons gives_ann (givesL_cons (null_rules hs h1) (null_template h3))) ?_
      constructor
      · rintro ⟨_, h4, h5⟩
        exact ⟨hd, h4, .inr (by rw [h5])⟩
      · rintro ⟨_, h4, h5⟩
        refine ⟨trivial, h4, ?_⟩
        rcases h5 with h5 | h5
        · cases h5
        · cases h5; rfl
    · rename_i hd
      refine givesL_congr (v := False) ?_ ⟨fun h => h.elim, fun h => hd h.1⟩
      split at h
      · cases h
        exact givesL_one (null_expectEmpty _)
      · obtain ⟨ms, h3, rfl⟩ := map_ok h
        exact givesL_false (null_matchLength _ _) (null_items hs _ 0 ms h3)
  | .obj es =>
    rw [jsonNodes] at h
    obtain ⟨n, h1, h2⟩ := bind_ok h
    obtain ⟨ms, h3, rfl⟩ := map_ok h2
    obtain ⟨ns1, k1, k2⟩ := null_object (s0 := s0) hs h1
    obtain ⟨ns2, l1, l2⟩ := null_entries (s0 := s0) hs es p ms (nice_obj hn) h3
    refine ⟨ns1 ++ ns2, runsL_append k1 l1, ?_, ?_, ?_⟩
    · intro m hm
      rcases List.mem_append.mp hm with hm | hm
      · exact k2.plain m hm
      · exact l2 m hm
    · rintro ⟨_, _, h4 | h4⟩ <;> cases h4
    · intro _
      obtain ⟨m, hm, hr⟩ := k2.rep (fun h => h)
      exact ⟨m, List.mem_append.mpr (.inl hm), hr⟩
  | .null => exact hsc .null rfl hn h
  | .bool b => exact hsc (.bool b) rfl hn h
  | .num n => exact hsc (.num n) rfl hn h
  | .str s => exact hsc (.str s) rfl hn h
termination_by structural e
theorem null_entries {C : ECtx} {s0 : Stack} {ctx : Ctx} (hs : RulesSafe C.P ctx) (es : List (Str × Json)) (p : DocPath) (ns : List Node)
    (hn : NiceE C.P es) (h : entriesNodes ctx p es = .ok ns) : Walks C (some (.value .null) :: s0) ns := by
  match es with
  | [] =>
    rw [entriesNodes] at h
    cases h
    exact walks_nil
  | e :: es =>
    rw [NiceE] at hn
    rw [entriesNodes] at h
    obtain ⟨n, h1, h2⟩ := bind_ok h
    obtain ⟨ms, h3, rfl⟩ := map_ok h2
    exact walks_cons (null_entry hs e p n hn.1 h1) (null_entries hs es p ms hn.2 h3)
termination_by structural es
theorem null_entry {C : ECtx} {s0 : Stack} {ctx : Ctx} (hs : RulesSafe C.P ctx) (e : Str × Json) (p : DocPath) (n : Node)
    (hn : NiceP C.P e) (h : entryNode ctx p e = .ok n) : Walks C (some (.value .null) :: s0) [n] := by
  match e with
  | (k, v) =>
    rw [NiceP] at hn
    rw [entryNode] at h
    obtain ⟨ms, h1, rfl⟩ := map_ok h
    exact walks_container (walks_of_gives (null_at hs v (pushField p k) ms hn.2 h1))
termination_by structural e
end

end EngineWalk
end Verif
