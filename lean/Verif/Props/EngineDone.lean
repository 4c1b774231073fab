import Verif.Props.EngineWalk

/-
  When an executed node agrees with a verdict: with the verdict `true` there are no errors in it, with the verdict
  `false` there is an error that the conversion to a match result finds, and the result of the node is false.
-/
set_option autoImplicit false

namespace Verif
namespace EngineWalk
open Path Rules Matchers Compare Query Headers MatchResult Engine

/-- A result that makes the conjunction it is in false. -/
def Bad (r : Option NodeResult) : Prop := (∃ m, r = some (.error m)) ∨ r = some (.value (.bool false))

/-- There is an error that is found. -/
def Reported (n : Node) : Prop := nodeErrors false n ≠ [] ∨ ∃ g ∈ groups n, g.2 ≠ []

/-- An executed node agrees with a verdict. -/
structure Done (n : Node) (v : Prop) : Prop where
  plain : n.isSplat = false
  clean : v → nodeErrors true n = []
  rep : ¬ v → Reported n ∧ Bad n.result

/-- Executed nodes agree with a verdict. -/
structure DoneL (ns : List Node) (v : Prop) : Prop where
  plain : ∀ n ∈ ns, n.isSplat = false
  clean : v → ∀ n ∈ ns, nodeErrors true n = []
  rep : ¬ v → ∃ n ∈ ns, Reported n ∧ Bad n.result

theorem nodeErrors_mk (all : Bool) (k : NodeKind) (r : Option NodeResult) (cs : List Node) :
    nodeErrors all (.mk k r cs) = if (Node.mk k r []).isContainer && !all then []
      else ownError (.mk k r []) ++ childErrors all cs := by rw [nodeErrors]

theorem nodeErrors_all (k : NodeKind) (r : Option NodeResult) (cs : List Node) :
    nodeErrors true (.mk k r cs) = ownError (.mk k r []) ++ childErrors true cs := by
  rw [nodeErrors_mk]; simp

theorem childErrors_nil (all : Bool) : childErrors all [] = [] := by rw [childErrors]

theorem childErrors_cons (all : Bool) (c : Node) (cs : List Node) :
    childErrors all (c :: cs) = nodeErrors all c ++ childErrors all cs := by rw [childErrors]

theorem childErrors_eq (all : Bool) (cs : List Node) : childErrors all cs = cs.flatMap (nodeErrors all) := by
  induction cs with
  | nil => rw [childErrors_nil]; rfl
  | cons c cs ih => rw [childErrors_cons, ih]; rfl

theorem groupsList_eq (cs : List Node) : groupsList cs = cs.flatMap groups := by
  induction cs with
  | nil => rw [groupsList]; rfl
  | cons c cs ih => rw [groupsList, ih]; rfl

theorem groups_mk (k : NodeKind) (r : Option NodeResult) (cs : List Node) :
    groups (.mk k r cs) = (match k with | .container l => [(l, childErrors false cs)] | _ => []) ++ groupsList cs := by
  cases k <;> rw [groups] <;> intro l h <;> cases h

theorem childErrors_empty (all : Bool) (cs : List Node) : childErrors all cs = [] ↔ ∀ c ∈ cs, nodeErrors all c = [] := by
  rw [childErrors_eq, List.flatMap_eq_nil_iff]

mutual
/-- Without errors anywhere there are no errors that are found. -/
theorem clean_not_reported (n : Node) (h : nodeErrors true n = []) : nodeErrors false n = [] ∧ ∀ g ∈ groups n, g.2 = [] := by
  match n with
  | .mk k r cs =>
    rw [nodeErrors_all] at h
    have ho := (List.append_eq_nil_iff.mp h)
    have hl := clean_not_reportedL cs ho.2
    constructor
    · rw [nodeErrors_mk]
      split
      · rfl
      · rw [ho.1, hl.1]; rfl
    · intro g hg
      rw [groups_mk] at hg
      rcases List.mem_append.mp hg with hg | hg
      · cases k with
        | container l =>
          simp only [List.mem_singleton] at hg
          rw [hg]; exact hl.1
        | _ => cases hg
      · exact hl.2 g hg
theorem clean_not_reportedL (ns : List Node) (h : childErrors true ns = []) :
    childErrors false ns = [] ∧ ∀ g ∈ groupsList ns, g.2 = [] := by
  match ns with
  | [] => 
    refine ⟨by rw [childErrors], ?_⟩
    intro g hg
    rw [groupsList] at hg
    cases hg
  | c :: cs =>
    rw [childErrors_cons] at h
    have ho := List.append_eq_nil_iff.mp h
    have h1 := clean_not_reported c ho.1
    have h2 := clean_not_reportedL cs ho.2
    refine ⟨by rw [childErrors_cons, h1.1, h2.1]; rfl, ?_⟩
    intro g hg
    rw [groupsList] at hg
    rcases List.mem_append.mp hg with hg | hg
    · exact h1.2 g hg
    · exact h2.2 g hg
end

/-- An error that is found in a child is found in a node. -/
theorem reported_of_child {k : NodeKind} {r : Option NodeResult} {cs : List Node} {c : Node} (hc : c ∈ cs)
    (h : Reported c) : Reported (.mk k r cs) := by
  rcases h with h | ⟨g, hg, hne⟩
  · have hce : childErrors false cs ≠ [] := by
      intro hn
      exact h ((childErrors_empty false cs).mp hn c hc)
    cases k with
    | container l =>
      refine .inr ⟨(l, childErrors false cs), ?_, hce⟩
      rw [groups_mk]
      exact List.mem_append.mpr (.inl (List.mem_singleton.mpr rfl))
    | _ =>
      left
      rw [nodeErrors_mk]
      intro hn
      simp only [Node.isContainer, Node.kind, Bool.false_and, Bool.false_eq_true, if_false] at hn
      exact hce (List.append_eq_nil_iff.mp hn).2
  · refine .inr ⟨g, ?_, hne⟩
    rw [groups_mk, groupsList_eq]
    exact List.mem_append.mpr (.inr (List.mem_flatMap.mpr ⟨c, hc, hg⟩))

/-- The error of a node that is not a container is found. -/
theorem reported_own {a : Action} {m : Msg} {cs : List Node} : Reported (.mk (.action a) (some (.error m)) cs) := by
  left
  rw [nodeErrors_mk]
  intro h
  simp [Node.isContainer, Node.kind, ownError] at h

theorem errors_empty_iff (n : Node) : nodeErrors true n = [] ↔ errors n = [] := by
  cases n with
  | mk k r cs =>
    rw [nodeErrors_all, errors]
    cases r with
    | none => rfl
    | some r => cases r <;> rfl

/-! ### Results -/

theorem and_bad (r : NodeResult) (q : Option NodeResult) (h : Bad q) : Bad (some (r.and q)) := by
  rcases h with ⟨m, rfl⟩ | rfl
  · left
    cases r with
    | ok => exact ⟨m, rfl⟩
    | value v => exact ⟨m, rfl⟩
    | error m' => exact ⟨m', rfl⟩
  · cases r with
    | ok => right; rfl
    | value v =>
      right
      cases v <;> simp [NodeResult.and, NodeValue.and, NodeValue.truthy]
    | error m => left; exact ⟨m, rfl⟩

theorem bad_and (r : NodeResult) (q : Option NodeResult) (h : Bad (some r)) : Bad (some (r.and q)) := by
  rcases h with ⟨m, h⟩ | h
  · cases h
    left
    cases q <;> exact ⟨m, rfl⟩
  · cases h
    cases q with
    | none => right; rfl
    | some q =>
      cases q with
      | ok => right; rfl
      | value v => right; rfl
      | error m => left; exact ⟨m, rfl⟩

theorem combined_bad_start (cs : List Node) : ∀ r : NodeResult, Bad (some r) → Bad (some (combined r cs)) := by
  induction cs with
  | nil => intro r h; exact h
  | cons c cs ih => intro r h; exact ih _ (bad_and r c.result h)

theorem combined_bad (cs : List Node) : ∀ r : NodeResult, (∃ c ∈ cs, Bad c.result) → Bad (some (combined r cs)) := by
  induction cs with
  | nil => intro r ⟨c, hc, _⟩; cases hc
  | cons c cs ih =>
    intro r ⟨d, hd, hb⟩
    rcases List.mem_cons.mp hd with rfl | hd
    · exact combined_bad_start cs _ (and_bad r _ hb)
    · exact ih _ ⟨d, hd, hb⟩

theorem bad_truthy {r : NodeResult} (h : Bad (some r)) : r.truthy = .value (.bool false) := by
  rcases h with ⟨m, h⟩ | h <;> cases h <;> rfl

theorem bad_not_truthy {r : NodeResult} (h : Bad (some r)) : r.isTruthy = false := by
  rcases h with ⟨m, h⟩ | h <;> cases h <;> rfl

theorem res_of_result {n : Node} {r : NodeResult} (h : n.result = some r) : n.res = r := by rw [Node.res, h]; rfl

theorem ownError_truthy (k : NodeKind) (r : NodeResult) : ownError (.mk k (some r.truthy) []) = [] := rfl

/-! ### Verdicts of nodes -/

theorem done_congr {n : Node} {v w : Prop} (h : Done n v) (e : v ↔ w) : Done n w :=
  ⟨h.plain, fun hw => h.clean (e.mpr hw), fun hw => h.rep (fun hv => hw (e.mp hv))⟩

theorem doneL_congr {ns : List Node} {v w : Prop} (h : DoneL ns v) (e : v ↔ w) : DoneL ns w :=
  ⟨h.plain, fun hw => h.clean (e.mpr hw), fun hw => h.rep (fun hv => hw (e.mp hv))⟩

theorem doneL_nil : DoneL [] True :=
  ⟨fun n h => (by cases h), fun _ n h => (by cases h), fun h => absurd trivial h⟩

theorem doneL_cons {n : Node} {ns : List Node} {v w : Prop} (h : Done n v) (g : DoneL ns w) :
    DoneL (n :: ns) (v ∧ w) := by
  constructor
  · intro c hc
    rcases List.mem_cons.mp hc with rfl | hc
    · exact h.plain
    · exact g.plain c hc
  · intro hv c hc
    rcases List.mem_cons.mp hc with rfl | hc
    · exact h.clean hv.1
    · exact g.clean hv.2 c hc
  · intro hv
    rcases Classical.em v with hv1 | hv1
    · obtain ⟨c, hc, hr⟩ := g.rep (fun hw => hv ⟨hv1, hw⟩)
      exact ⟨c, List.mem_cons_of_mem _ hc, hr⟩
    · exact ⟨n, List.mem_cons_self .., h.rep hv1⟩

theorem doneL_append {ms ns : List Node} {v w : Prop} (h : DoneL ms v) (g : DoneL ns w) :
    DoneL (ms ++ ns) (v ∧ w) := by
  constructor
  · intro c hc
    rcases List.mem_append.mp hc with hc | hc
    · exact h.plain c hc
    · exact g.plain c hc
  · intro hv c hc
    rcases List.mem_append.mp hc with hc | hc
    · exact h.clean hv.1 c hc
    · exact g.clean hv.2 c hc
  · intro hv
    rcases Classical.em v with hv1 | hv1
    · obtain ⟨c, hc, hr⟩ := g.rep (fun hw => hv ⟨hv1, hw⟩)
      exact ⟨c, List.mem_append.mpr (.inr hc), hr⟩
    · obtain ⟨c, hc, hr⟩ := h.rep hv1
      exact ⟨c, List.mem_append.mpr (.inl hc), hr⟩

/-- A node whose result is the conjunction of the results of its children, and maybe of others before. -/
theorem done_combined {k : NodeKind} {cs : List Node} {v : Prop} (hk : (Node.mk k none []).isSplat = false)
    (pre : List Node) (hp : ∀ c ∈ pre, nodeErrors true c = []) (h : DoneL cs v) :
    Done (.mk k (some (combined .ok cs).truthy) (pre ++ cs)) v := by
  constructor
  · exact hk
  · intro hv
    rw [nodeErrors_all, ownError_truthy, List.nil_append, childErrors_empty]
    intro c hc
    rcases List.mem_append.mp hc with hc | hc
    · exact hp c hc
    · exact h.clean hv c hc
  · intro hv
    obtain ⟨c, hc, hr, hb⟩ := h.rep hv
    refine ⟨reported_of_child (List.mem_append.mpr (.inr hc)) hr, ?_⟩
    rw [Node.result, bad_truthy (combined_bad cs .ok ⟨c, hc, hb⟩)]
    exact .inr rfl

theorem done_ann : Done ann True :=
  ⟨rfl, fun _ => by rw [ann, Node.new, nodeErrors_all, childErrors_nil]; rfl, fun h => absurd trivial h⟩

/-- A value or a result of a path has no errors. -/
theorem clean_leaf {k : NodeKind} {v : NodeValue} : nodeErrors true (.mk k (some (.value v)) []) = [] := by
  rw [nodeErrors_all, childErrors_nil]; rfl

theorem clean_node {n : Node} (h : n.result = none) (hc : ∀ c ∈ n.children, nodeErrors true c = []) :
    nodeErrors true n = [] := by
  cases n with
  | mk k r cs =>
    simp only [Node.result] at h
    subst h
    rw [nodeErrors_all]
    show [] ++ childErrors true cs = []
    rw [(childErrors_empty true cs).mpr hc]
    rfl

mutual
/-- Nodes that have not been executed. -/
def Fresh : Node → Prop
  | .mk _ r cs => r = none ∧ FreshL cs
termination_by structural x => x
def FreshL : List Node → Prop
  | [] => True
  | n :: ns => Fresh n ∧ FreshL ns
termination_by structural x => x
end

mutual
theorem fresh_clean (n : Node) (h : Fresh n) : nodeErrors true n = [] := by
  match n with
  | .mk k r cs =>
    rw [Fresh] at h
    rw [nodeErrors_all, fresh_cleanL cs h.2, h.1]
    rfl
theorem fresh_cleanL (ns : List Node) (h : FreshL ns) : childErrors true ns = [] := by
  match ns with
  | [] => rw [childErrors]
  | n :: ns =>
    rw [FreshL] at h
    rw [childErrors_cons, fresh_clean n h.1, fresh_cleanL ns h.2]
    rfl
end

/-- A node that executes and agrees with a verdict. -/
def Gives (C : ECtx) (s : Stack) (n : Node) (v : Prop) : Prop := ∃ n', Runs C s n n' ∧ Done n' v

/-- Nodes that execute and agree with a verdict. -/
def GivesL (C : ECtx) (s : Stack) (ns : List Node) (v : Prop) : Prop := ∃ ns', RunsL C s ns ns' ∧ DoneL ns' v

theorem givesL_nil {C : ECtx} {s : Stack} : GivesL C s [] True := ⟨[], .nil, doneL_nil⟩

theorem givesL_cons {C : ECtx} {s : Stack} {n : Node} {ns : List Node} {v w : Prop} (h : Gives C s n v)
    (g : GivesL C s ns w) : GivesL C s (n :: ns) (v ∧ w) := by
  obtain ⟨n', h1, h2⟩ := h
  obtain ⟨ns', g1, g2⟩ := g
  exact ⟨n' :: ns', .cons h1 g1, doneL_cons h2 g2⟩

theorem givesL_append {C : ECtx} {s : Stack} {ms ns : List Node} {v w : Prop} (h : GivesL C s ms v)
    (g : GivesL C s ns w) : GivesL C s (ms ++ ns) (v ∧ w) := by
  obtain ⟨ms', h1, h2⟩ := h
  obtain ⟨ns', g1, g2⟩ := g
  exact ⟨ms' ++ ns', runsL_append h1 g1, doneL_append h2 g2⟩

theorem gives_congr {C : ECtx} {s : Stack} {n : Node} {v w : Prop} (h : Gives C s n v) (e : v ↔ w) : Gives C s n w := by
  obtain ⟨n', h1, h2⟩ := h
  exact ⟨n', h1, done_congr h2 e⟩

theorem givesL_congr {C : ECtx} {s : Stack} {ns : List Node} {v w : Prop} (h : GivesL C s ns v) (e : v ↔ w) :
    GivesL C s ns w := by
  obtain ⟨n', h1, h2⟩ := h
  exact ⟨n', h1, doneL_congr h2 e⟩

theorem givesL_one {C : ECtx} {s : Stack} {n : Node} {v : Prop} (h : Gives C s n v) : GivesL C s [n] v :=
  givesL_congr (givesL_cons h givesL_nil) ⟨fun h => h.1, fun h => ⟨h, trivial⟩⟩

theorem gives_ann {C : ECtx} {s : Stack} : Gives C s ann True := ⟨ann, runs_ann, done_ann⟩

theorem gives_container {C : ECtx} {s : Stack} (l : Str) {cs : List Node} {v : Prop} (h : GivesL C s cs v) :
    Gives C s (cont l cs) v := by
  obtain ⟨cs', h1, h2⟩ := h
  exact ⟨_, runs_container l h1 h2.plain, done_combined rfl [] (fun c hc => by cases hc) h2⟩

/-- An `if` on the existence of a value. -/
theorem gives_if {C : ECtx} {s : Stack} {c c' d : Node} {ds : List Node} {v : Prop} (hc : Runs C s c c')
    (hcl : nodeErrors true c' = []) (hd : Gives C s d v) (hfd : Fresh d) (hds : FreshL ds)
    (hne : ds = [] ∨ c'.res.isTruthy = true) :
    Gives C s (act .iff (c :: d :: ds)) (c'.res.isTruthy = true → v) := by
  cases ht : c'.res.isTruthy with
  | false =>
    have hn : ds = [] := by
      rcases hne with h | h
      · exact h
      · rw [ht] at h; cases h
    subst hn
    refine ⟨_, runs_if_false hc ht, rfl, ?_, ?_⟩
    · intro _
      rw [nodeErrors_all, childErrors_cons, childErrors_cons, childErrors_nil, hcl, fresh_clean d hfd]
      rfl
    · intro h
      exact absurd (fun h => by cases h) h
  | true =>
    obtain ⟨d', hd1, hd2⟩ := hd
    refine ⟨_, runs_if_true hc ht hd1, rfl, ?_, ?_⟩
    · intro h
      rw [nodeErrors_all, childErrors_cons, childErrors_cons, hcl, hd2.clean (h rfl), fresh_cleanL ds hds]
      rfl
    · intro h
      have hr := hd2.rep (fun hv => h (fun _ => hv))
      refine ⟨reported_of_child (List.mem_cons_of_mem _ (List.mem_cons_self ..)) hr.1, ?_⟩
      have hb : Bad (some d'.res) := by
        rcases hr.2 with ⟨m, hm⟩ | hm
        · rw [res_of_result hm]; exact .inl ⟨m, rfl⟩
        · rw [res_of_result hm]; exact .inr rfl
      rw [Node.result, bad_truthy hb]
      exact .inr rfl

end EngineWalk
end Verif
