import Verif.Props.EngineDone

/-
  Executing the nodes that compare with a matching rule.
-/
set_option autoImplicit false

namespace Verif
namespace EngineWalk
open Path Rules Matchers Compare Query Headers MatchResult Engine

/-- A check whose result is `true` or an error. -/
def Checks (C : ECtx) (s : Stack) (n : Node) (v : Prop) : Prop :=
  ∃ n', Runs C s n n' ∧ Done n' v ∧ (v → n'.result = some (.value (.bool true)))
    ∧ (¬ v → ∃ m, n'.result = some (.error m)) ∧ n'.isContainer = false

theorem Checks.gives {C : ECtx} {s : Stack} {n : Node} {v : Prop} (h : Checks C s n v) : Gives C s n v := by
  obtain ⟨n', h1, h2, _⟩ := h
  exact ⟨n', h1, h2⟩

/-- An action that ends with `true` or with an error. -/
theorem checks_of_runs {C : ECtx} {s : Stack} {a : Action} {cs cs' : List Node} {v : Prop}
    (h : v → Runs C s (act a cs) (.mk (.action a) (some (.value (.bool true))) cs') ∧ ∀ c ∈ cs', nodeErrors true c = [])
    (g : ¬ v → ∃ m ds, Runs C s (act a cs) (.mk (.action a) (some (.error m)) ds)) : Checks C s (act a cs) v := by
  rcases Classical.em v with hv | hv
  · refine ⟨_, (h hv).1, ⟨rfl, fun _ => ?_, fun hn => absurd hv hn⟩, fun _ => rfl, fun hn => absurd hv hn, rfl⟩
    rw [nodeErrors_all, (childErrors_empty true cs').mpr (h hv).2]
    rfl
  · obtain ⟨m, ds, hr⟩ := g hv
    exact ⟨_, hr, ⟨rfl, fun h => absurd h hv, fun _ => ⟨reported_own, .inl ⟨m, rfl⟩⟩⟩, fun h => absurd h hv,
      fun _ => ⟨m, rfl⟩, rfl⟩

theorem runs_args3o {C : ECtx} {s : Stack} {a : Action} {c c' d d' e e' n' : Node}
    {k : Node → Node → Node → Option Node → Stack → Out Node}
    (hc : Runs C s c c') (hd : Runs C s d d') (he : Runs C s e e')
    (ha : ∀ rec f, execAction C rec f (act a [c, d, e]) s a = args3o rec (act a [c, d, e]) s (k))
    (hk : k c' d' e' none s = .ok n' s) : Runs C s (act a [c, d, e]) n' :=
  runs_args3 (k := fun v w x s3 => k v w x none s3) hc hd he (fun rec f => by rw [ha]; rfl) hk

/-- What `execute_match` does with its arguments when it has no error node. -/
def matchK (C : ECtx) (name : Str) (n : Node) (v w x : Node) (s1 : Stack) : Out Node :=
  match v.res.valueOrError, w.res.valueOrError, x.res.valueOrError with
  | .ok e, .ok a, .ok ps => match RuleJson.create (RuleJson.fromJson C.P.rules) C.P.rules name ps.asJsonD with
    | .ok rule => if e.matches_ C.P a rule then finish n (.value (.bool true)) [v, w, x] s1
        else finish n (.error .said) [v, w, x] s1
    | .err => failed n .said s1
    | .panic => .panic
  | .error m, _, _ => finish n (.error m) [v, w, x] s1
  | .ok _, .error m, _ => finish n (.error m) [v, w, x] s1
  | .ok _, .ok _, .error m => finish n (.error m) [v, w, x] s1

theorem runs_match {C : ECtx} {s : Stack} {name : Str} {c c' d d' e e' n' : Node}
    (hc : Runs C s c c') (hd : Runs C s d d') (he : Runs C s e e')
    (hk : matchK C name (act (.matcher name) [c, d, e]) c' d' e' s = .ok n' s) :
    Runs C s (act (.matcher name) [c, d, e]) n' := by
  refine runs_args3 (k := matchK C name (act (.matcher name) [c, d, e])) hc hd he (fun rec f => ?_) hk
  show execMatch C rec name (act (.matcher name) [c, d, e]) s = _
  rw [execMatch]
  show arg rec _ c s _ = arg rec _ c s _
  congr 1

/-- What a `match` node checks: the expected value matches the actual value by the rule with the name and
attributes. -/
def MatchOk (C : ECtx) (name : Str) (ps : Json) (e : NodeValue) (actual : NodeResult) : Prop :=
  ∃ a rule, actual = .value a ∧ RuleJson.create (RuleJson.fromJson C.P.rules) C.P.rules name ps = .ok rule
    ∧ e.matches_ C.P a rule = true

theorem checks_match {C : ECtx} {s : Stack} {name : Str} {E E' A A' : Node} {ps e : NodeValue} {ar : NodeResult}
    (hE : Runs C s E E') (hEr : E'.res = .value e) (hEc : nodeErrors true E' = [])
    (hA : Runs C s A A') (hAr : A'.res = ar) (hok : ar ≠ .ok)
    (hAc : (∃ a, ar = .value a) → nodeErrors true A' = [])
    (hps : nodeValue C.P ps = some ps)
    (hp : RuleJson.create (RuleJson.fromJson C.P.rules) C.P.rules name ps.asJsonD ≠ .panic) :
    Checks C s (act (.matcher name) [E, A, val ps]) (MatchOk C name ps.asJsonD e ar) := by
  have hP := runs_val (C := C) (s := s) hps
  have hPr : (Node.mk (.value ps) (some (.value ps)) []).res = .value ps := rfl
  refine checks_of_runs (cs' := [E', A', .mk (.value ps) (some (.value ps)) []]) ?_ ?_
  · rintro ⟨a, rule, ha, hc, hm⟩
    constructor
    · refine runs_match hE hA hP ?_
      simp only [matchK, hEr, hAr, ha, hPr, NodeResult.valueOrError, hc, hm, if_true]
      rfl
    · intro c hcm
      simp only [List.mem_cons, List.not_mem_nil, or_false] at hcm
      rcases hcm with rfl | rfl | rfl
      · exact hEc
      · exact hAc ⟨a, ha⟩
      · exact clean_leaf
  · intro hn
    cases ar with
    | ok => exact absurd rfl hok
    | error m =>
      refine ⟨m, [E', A', .mk (.value ps) (some (.value ps)) []], runs_match hE hA hP ?_⟩
      simp only [matchK, hEr, hAr, hPr, NodeResult.valueOrError]
      rfl
    | value a =>
      cases hc : RuleJson.create (RuleJson.fromJson C.P.rules) C.P.rules name ps.asJsonD with
      | panic => exact absurd hc hp
      | err =>
        refine ⟨.said, [E, A, val ps], runs_match hE hA hP ?_⟩
        simp only [matchK, hEr, hAr, hPr, NodeResult.valueOrError, hc]
        rfl
      | ok rule =>
        have hm : e.matches_ C.P a rule = false := by
          cases hm : e.matches_ C.P a rule with
          | false => rfl
          | true => exact absurd ⟨a, rule, rfl, hc, hm⟩ hn
        refine ⟨.said, [E', A', .mk (.value ps) (some (.value ps)) []], runs_match hE hA hP ?_⟩
        simp only [matchK, hEr, hAr, hPr, NodeResult.valueOrError, hc, hm]
        rfl

/-! ### Lists of rules -/

theorem evalAll_checks {C : ECtx} {s : Stack} {A : Type} (f : A → Node) (v : A → Prop) (l : List A)
    (hr : ∀ x ∈ l, (f x).result = none) (h : ∀ x ∈ l, Checks C s (f x) (v x)) :
    ((∀ x ∈ l, v x) → ∃ cs vs, (∀ c ∈ cs, nodeErrors true c = []) ∧ ∀ g k, heights (l.map f) ≤ g → heights (l.map f) ≤ k →
      evalAll (evalItem (walkF C g) k) (l.map f) s = .ok cs vs s) ∧
    (¬ (∀ x ∈ l, v x) → ∃ m cs, ∀ g k, heights (l.map f) ≤ g → heights (l.map f) ≤ k →
      evalAll (evalItem (walkF C g) k) (l.map f) s = .fail m cs s) := by
  induction l with
  | nil =>
    refine ⟨fun _ => ⟨[], [], fun c hc => (by cases hc), fun g k _ _ => rfl⟩, fun hn => ?_⟩
    exact absurd (fun x hx => by cases hx) hn
  | cons x xs ih =>
    obtain ⟨n', hn1, hn2, hn3, hn4, _⟩ := h x (List.mem_cons_self ..)
    have ih := ih (fun y hy => hr y (List.mem_cons_of_mem _ hy)) (fun y hy => h y (List.mem_cons_of_mem _ hy))
    have hx : ∀ g k, heights ((x :: xs).map f) ≤ g → heights ((x :: xs).map f) ≤ k →
        evalItem (walkF C g) k (f x) s = evalResult [n'] s n'.res := by
      intro g k hg hk
      rw [List.map_cons, heights_cons] at hg hk
      have hp := height_pos (f x)
      cases k with
      | zero => omega
      | succ k =>
        rw [evalItem, hr x (List.mem_cons_self ..)]
        simp only []
        rw [hn1 g (by omega)]
        simp [hn2.plain]
    constructor
    · intro hall
      obtain ⟨cs, vs, hcl, he⟩ := ih.1 (fun y hy => hall y (List.mem_cons_of_mem _ hy))
      have hv := hall x (List.mem_cons_self ..)
      refine ⟨n' :: cs, .bool true :: vs, ?_, ?_⟩
      · intro c hc
        rcases List.mem_cons.mp hc with rfl | hc
        · exact hn2.clean hv
        · exact hcl c hc
      · intro g k hg hk
        have h1 := hx g k hg hk
        rw [List.map_cons, heights_cons] at hg hk
        rw [List.map_cons, evalAll, h1, res_of_result (hn3 hv)]
        simp only [evalResult]
        rw [he g k (by omega) (by omega)]
        rfl
    · intro hn
      rcases Classical.em (v x) with hv | hv
      · obtain ⟨m, cs, he⟩ := ih.2 (fun hall => hn (fun y hy => by
          rcases List.mem_cons.mp hy with rfl | hy
          · exact hv
          · exact hall y hy))
        refine ⟨m, n' :: cs, ?_⟩
        intro g k hg hk
        have h1 := hx g k hg hk
        rw [List.map_cons, heights_cons] at hg hk
        rw [List.map_cons, evalAll, h1, res_of_result (hn3 hv)]
        simp only [evalResult]
        rw [he g k (by omega) (by omega)]
        rfl
      · obtain ⟨m, hm⟩ := hn4 hv
        refine ⟨m, [n'], ?_⟩
        intro g k hg hk
        rw [List.map_cons, evalAll, hx g k hg hk, res_of_result hm]
        rfl

/-- `and` and `or` over checks: both need all of them. -/
theorem gives_logic {C : ECtx} {s : Stack} {A : Type} (f : A → Node) (v : A → Prop) (l : List A) (a : Action)
    (F : List NodeValue → NodeValue)
    (ha : ∀ rec k, execAction C rec k (act a (l.map f)) s a = overValues rec k (act a (l.map f)) s (fun vs => .value (F vs)))
    (hr : ∀ x ∈ l, (f x).result = none) (h : ∀ x ∈ l, Checks C s (f x) (v x)) :
    Gives C s (act a (l.map f)) (∀ x ∈ l, v x) := by
  have hx := evalAll_checks f v l hr h
  rcases Classical.em (∀ x ∈ l, v x) with hv | hv
  · obtain ⟨cs, vs, hcl, he⟩ := hx.1 hv
    refine ⟨.mk (.action a) (some (.value (F vs))) cs, ?_, rfl, fun _ => ?_, fun hn => absurd hv hn⟩
    · apply runs_of_step
      intro g hg
      show execAction C (walkF C g) g (act a (l.map f)) s a = _
      rw [ha, overValues]
      show (match evalAll (evalItem (walkF C g) g) (l.map f) s with
        | .ok cs vs s1 => finish (act a (l.map f)) (.value (F vs)) cs s1
        | .fail m cs s1 => finish (act a (l.map f)) (.error m) cs s1
        | .panic => .panic) = _
      rw [he g g hg hg]
      rfl
    · rw [nodeErrors_all, (childErrors_empty true cs).mpr hcl]
      rfl
  · obtain ⟨m, cs, he⟩ := hx.2 hv
    refine ⟨.mk (.action a) (some (.error m)) cs, ?_, rfl, fun h => absurd h hv, fun _ => ⟨reported_own, .inl ⟨m, rfl⟩⟩⟩
    apply runs_of_step
    intro g hg
    show execAction C (walkF C g) g (act a (l.map f)) s a = _
    rw [ha, overValues]
    show (match evalAll (evalItem (walkF C g) g) (l.map f) s with
      | .ok cs vs s1 => finish (act a (l.map f)) (.value (F vs)) cs s1
      | .fail m cs s1 => finish (act a (l.map f)) (.error m) cs s1
      | .panic => .panic) = _
    rw [he g g hg hg]
    rfl

/-- The node of a rule without references. -/
def ruleAct (e a : Node) (r : MatchingRule) : Node :=
  act (.matcher (MatchingRule.name r).toList) [e, a, val (.json (RuleJson.valuesJson r))]

theorem ruleNode_ok {e a n : Node} {r : MatchingRule} (h : ruleNode e a r = .ok n) :
    RuleJson.ruleRefs r = false ∧ n = ruleAct e a r := by
  rw [ruleNode] at h
  cases hr : RuleJson.ruleRefs r with
  | true => rw [hr] at h; cases h
  | false =>
    rw [hr] at h
    simp only [Bool.false_eq_true, if_false, Res.ok.injEq] at h
    exact ⟨rfl, h.symm⟩

theorem ruleNodes_ok {e a : Node} : ∀ {rs : List MatchingRule} {ns : List Node}, ruleNodes e a rs = .ok ns →
    ns = rs.map (ruleAct e a)
  | [], ns, h => by
    rw [ruleNodes] at h
    cases h
    rfl
  | r :: rs, ns, h => by
    rw [ruleNodes] at h
    cases hn : ruleNode e a r with
    | err => rw [hn] at h; cases h
    | panic => rw [hn] at h; cases h
    | ok n =>
      cases hm : ruleNodes e a rs with
      | err => rw [hn, hm] at h; cases h
      | panic => rw [hn, hm] at h; cases h
      | ok ms =>
        rw [hn, hm] at h
        simp only [Res.bind, Res.map, Res.ok.injEq] at h
        rw [← h, (ruleNode_ok hn).2, ruleNodes_ok hm]
        rfl

/-- What a rule of a plan checks: the rule made again from its name and its attributes matches. -/
def RuleOk (C : ECtx) (r : MatchingRule) (e : NodeValue) (actual : NodeResult) : Prop :=
  ∃ a rule, actual = .value a ∧ RuleJson.recreate C.P.rules r = .ok rule ∧ e.matches_ C.P a rule = true

theorem checks_rule {C : ECtx} {s : Stack} {r : MatchingRule} {E E' A A' : Node} {e : NodeValue} {ar : NodeResult}
    (hE : Runs C s E E') (hEr : E'.res = .value e) (hEc : nodeErrors true E' = [])
    (hA : Runs C s A A') (hAr : A'.res = ar) (hok : ar ≠ .ok)
    (hAc : (∃ a, ar = .value a) → nodeErrors true A' = [])
    (hp : RuleJson.recreate C.P.rules r ≠ .panic) : Checks C s (ruleAct E A r) (RuleOk C r e ar) :=
  checks_match (ps := .json (RuleJson.valuesJson r)) hE hEr hEc hA hAr hok hAc rfl hp

theorem gives_rules {C : ECtx} {s : Stack} {l : RuleList} {coll : Bool} {E E' A A' n : Node} {e : NodeValue}
    {ar : NodeResult} (h : rulesNode E A l coll = .ok n)
    (hE : Runs C s E E') (hEr : E'.res = .value e) (hEc : nodeErrors true E' = [])
    (hA : Runs C s A A') (hAr : A'.res = ar) (hok : ar ≠ .ok)
    (hAc : (∃ a, ar = .value a) → nodeErrors true A' = [])
    (hp : ∀ r ∈ l.rules, RuleJson.recreate C.P.rules (ruleFor coll r) ≠ .panic) :
    Gives C s n (∀ r ∈ l.rules, RuleOk C (ruleFor coll r) e ar) := by
  rw [rulesNode] at h
  have hmem : ∀ r ∈ l.rules.map (ruleFor coll), RuleJson.recreate C.P.rules r ≠ .panic := by
    intro r hr
    obtain ⟨q, hq, rfl⟩ := List.mem_map.mp hr
    exact hp q hq
  have hiff : (∀ r ∈ l.rules.map (ruleFor coll), RuleOk C r e ar) ↔ (∀ r ∈ l.rules, RuleOk C (ruleFor coll r) e ar) := by
    simp only [List.mem_map, forall_exists_index, and_imp, forall_apply_eq_imp_iff₂]
  refine gives_congr ?_ hiff
  have hlogic : ∀ (a : Action) (F : List NodeValue → NodeValue),
      (∀ rec k, execAction C rec k (act a ((l.rules.map (ruleFor coll)).map (ruleAct E A))) s a =
        overValues rec k (act a ((l.rules.map (ruleFor coll)).map (ruleAct E A))) s (fun vs => .value (F vs))) →
      Gives C s (act a ((l.rules.map (ruleFor coll)).map (ruleAct E A))) (∀ r ∈ l.rules.map (ruleFor coll), RuleOk C r e ar) := by
    intro a F ha
    exact gives_logic (ruleAct E A) (fun r => RuleOk C r e ar) _ a F ha (fun _ _ => rfl)
      (fun r hr => checks_rule hE hEr hEc hA hAr hok hAc (hmem r hr))
  split at h
  · rename_i r hl
    rw [hl] at hmem ⊢
    rw [(ruleNode_ok h).2]
    refine gives_congr (checks_rule hE hEr hEc hA hAr hok hAc (hmem r (List.mem_cons_self ..))).gives ?_
    simp
  · cases hns : ruleNodes E A (l.rules.map (ruleFor coll)) with
    | err => rw [hns] at h; cases h
    | panic => rw [hns] at h; cases h
    | ok ns =>
      rw [hns] at h
      simp only [Res.map, Res.ok.injEq] at h
      rw [← h, ruleNodes_ok hns]
      cases l.logic with
      | and => exact hlogic .and (fun vs => vs.foldl NodeValue.and .null) (fun _ _ => rfl)
      | or => exact hlogic .or (fun vs => vs.foldl NodeValue.or .null) (fun _ _ => rfl)

theorem freshL_map {A : Type} (f : A → Node) (l : List A) (h : ∀ x ∈ l, Fresh (f x)) : FreshL (l.map f) := by
  induction l with
  | nil => rw [List.map_nil, FreshL]; trivial
  | cons x xs ih =>
    rw [List.map_cons, FreshL]
    exact ⟨h x (List.mem_cons_self ..), ih (fun y hy => h y (List.mem_cons_of_mem _ hy))⟩

theorem fresh_new (k : NodeKind) (cs : List Node) (h : FreshL cs) : Fresh (.new k cs) := by
  rw [Node.new, Fresh]; exact ⟨rfl, h⟩

theorem freshL_cons {n : Node} {ns : List Node} (h : Fresh n) (g : FreshL ns) : FreshL (n :: ns) := by
  rw [FreshL]; exact ⟨h, g⟩

theorem freshL_nil : FreshL [] := by rw [FreshL]; trivial

theorem fresh_leaf (k : NodeKind) : Fresh (.new k []) := fresh_new k [] freshL_nil

theorem fresh_rule {E A : Node} (hE : Fresh E) (hA : Fresh A) (r : MatchingRule) : Fresh (ruleAct E A r) :=
  fresh_new _ _ (freshL_cons hE (freshL_cons hA (freshL_cons (fresh_leaf _) freshL_nil)))

theorem fresh_rules {E A n : Node} {l : RuleList} {coll : Bool} (h : rulesNode E A l coll = .ok n)
    (hE : Fresh E) (hA : Fresh A) : Fresh n := by
  rw [rulesNode] at h
  split at h
  · rw [(ruleNode_ok h).2]; exact fresh_rule hE hA _
  · cases hns : ruleNodes E A (l.rules.map (ruleFor coll)) with
    | err => rw [hns] at h; cases h
    | panic => rw [hns] at h; cases h
    | ok ns =>
      rw [hns] at h
      simp only [Res.map, Res.ok.injEq] at h
      rw [← h, ruleNodes_ok hns]
      exact fresh_new _ _ (freshL_map _ _ (fun r _ => fresh_rule hE hA r))

end EngineWalk
end Verif
