import Verif.Props.EngineLoc
import Verif.Props.PathProps
import Verif.Props.LikeProps

/-
  Putting indices in the nodes of a `for-each`.
-/
set_option autoImplicit false

namespace Verif
namespace EngineWalk
open Path Rules Matchers Compare Query Headers MatchResult Engine JsonUtils
open PathProps (IsSegment PlainKey C01_roundtrip_partial)

/-- Putting in several indices one after the other. -/
def injAll : List Nat → List PathToken → List PathToken
  | [], ts => ts
  | i :: r, ts => injAll r (injectTokens i ts)

/-- Putting several indices in a path. -/
def injPath : List Nat → DocPath → DocPath
  | [], p => p
  | i :: r, p => injPath r (fromTokens (injectTokens i p.tokens))

/-- Putting several indices in a node. -/
def injNode (uc : UC) : List Nat → Node → Res Node
  | [], n => .ok n
  | i :: r, n => (injectIndex uc i n).bind (injNode uc r)

/-- Putting several indices in nodes. -/
def injNodes (uc : UC) : List Nat → List Node → Res (List Node)
  | [], n => .ok n
  | i :: r, n => (injectList uc i n).bind (injNodes uc r)

theorem injPath_tokens (l : List Nat) : ∀ p, (injPath l p).tokens = injAll l p.tokens := by
  induction l with
  | nil => intro p; rfl
  | cons i r ih => intro p; rw [injPath, ih]; rfl

theorem injAll_snoc (l : List Nat) (i : Nat) : ∀ ts, injAll (l ++ [i]) ts = injectTokens i (injAll l ts) := by
  induction l with
  | nil => intro ts; rfl
  | cons j r ih => intro ts; exact ih _

theorem bind_ok {A B : Type} {x : Res A} {f : A → Res B} {b : B} (h : x.bind f = .ok b) : ∃ a, x = .ok a ∧ f a = .ok b := by
  cases x with
  | ok a => exact ⟨a, rfl, h⟩
  | err => cases h
  | panic => cases h

theorem map_ok {A B : Type} {x : Res A} {f : A → B} {b : B} (h : x.map f = .ok b) : ∃ a, x = .ok a ∧ f a = b := by
  cases x with
  | ok a => exact ⟨a, rfl, by cases h; rfl⟩
  | err => cases h
  | panic => cases h

theorem injNode_snoc (uc : UC) (l : List Nat) (i : Nat) : ∀ {n n' n'' : Node}, injNode uc l n = .ok n' →
    injectIndex uc i n' = .ok n'' → injNode uc (l ++ [i]) n = .ok n'' := by
  induction l with
  | nil =>
    intro n n' n'' h g
    cases h
    show (injectIndex uc i n).bind _ = _
    rw [g]; rfl
  | cons j r ih =>
    intro n n' n'' h g
    obtain ⟨m, h1, h2⟩ := bind_ok h
    show (injectIndex uc j n).bind _ = _
    rw [h1]
    exact ih h2 g

theorem injNodes_nil {uc : UC} (l : List Nat) : ∀ {ms : List Node}, injNodes uc l [] = .ok ms → ms = [] := by
  induction l with
  | nil => intro ms h; cases h; rfl
  | cons i r ih =>
    intro ms h
    rw [injNodes, injectList] at h
    exact ih h

theorem injNodes_cons {uc : UC} (l : List Nat) : ∀ {n : Node} {ns ms : List Node}, injNodes uc l (n :: ns) = .ok ms →
    ∃ n' ns', ms = n' :: ns' ∧ injNode uc l n = .ok n' ∧ injNodes uc l ns = .ok ns' := by
  induction l with
  | nil => intro n ns ms h; cases h; exact ⟨n, ns, rfl, rfl, rfl⟩
  | cons i r ih =>
    intro n ns ms h
    rw [injNodes, injectList] at h
    obtain ⟨q, hq, hr⟩ := bind_ok h
    obtain ⟨m, h1, h2⟩ := bind_ok hq
    obtain ⟨qs, h3, h4⟩ := map_ok h2
    subst h4
    obtain ⟨n', ns', e, g1, g2⟩ := ih hr
    refine ⟨n', ns', e, ?_, ?_⟩
    · rw [injNode, h1]; exact g1
    · rw [injNodes, h3]; exact g2

theorem injNodes_append {uc : UC} (l : List Nat) : ∀ {a b ms : List Node}, injNodes uc l (a ++ b) = .ok ms →
    ∃ a' b', ms = a' ++ b' ∧ injNodes uc l a = .ok a' ∧ injNodes uc l b = .ok b' := by
  intro a
  induction a with
  | nil =>
    intro b ms h
    refine ⟨[], ms, rfl, ?_, h⟩
    clear h
    induction l with
    | nil => rfl
    | cons i r ih => rw [injNodes, injectList]; exact ih
  | cons n ns ih =>
    intro b ms h
    obtain ⟨n', r', e, h1, h2⟩ := injNodes_cons l h
    obtain ⟨a', b', e2, h3, h4⟩ := ih h2
    refine ⟨n' :: a', b', by rw [e, e2]; rfl, ?_, h4⟩
    clear h h2 e e2 h4 ih
    induction l generalizing n ns with
    | nil => cases h1; cases h3; rfl
    | cons i r ih2 =>
      obtain ⟨m, k1, k2⟩ := bind_ok h1
      obtain ⟨m2, k3, k4⟩ := bind_ok h3
      rw [injNodes, injectList, k1, Res.bind, k3]
      exact ih2 _ _ k2 k4

theorem injNode_act {uc : UC} (l : List Nat) {a : Action} : ∀ {cs : List Node} {n : Node},
    injNode uc l (act a cs) = .ok n → ∃ cs', n = act a cs' ∧ injNodes uc l cs = .ok cs' := by
  induction l with
  | nil => intro cs n h; cases h; exact ⟨cs, rfl, rfl⟩
  | cons i r ih =>
    intro cs n h
    rw [injNode, act, Node.new, injectIndex] at h
    obtain ⟨m, h1, h2⟩ := bind_ok h
    obtain ⟨ds, h3, rfl⟩ := map_ok h1
    obtain ⟨cs', e, h4⟩ := ih h2
    exact ⟨cs', e, by rw [injNodes, h3]; exact h4⟩

theorem injNode_cont {uc : UC} (l : List Nat) : ∀ {lb : Str} {cs : List Node} {n : Node},
    injNode uc l (cont lb cs) = .ok n → ∃ lb' cs', n = cont lb' cs' ∧ injNodes uc l cs = .ok cs' := by
  induction l with
  | nil => intro lb cs n h; cases h; exact ⟨lb, cs, rfl, rfl⟩
  | cons i r ih =>
    intro lb cs n h
    rw [injNode, cont, Node.new, injectIndex] at h
    obtain ⟨m, h1, h2⟩ := bind_ok h
    obtain ⟨lb1, _, h1⟩ := bind_ok h1
    obtain ⟨ds, h3, rfl⟩ := map_ok h1
    obtain ⟨lb', cs', e, h4⟩ := ih h2
    exact ⟨lb', cs', e, by rw [injNodes, h3]; exact h4⟩

theorem injNode_val {uc : UC} (l : List Nat) {v : NodeValue} {n : Node} : injNode uc l (val v) = .ok n → n = val v := by
  induction l with
  | nil => intro h; cases h; rfl
  | cons i r ih =>
    intro h
    refine ih ?_
    rw [injNode, val, Node.new, injectIndex] at h
    · exact h
    all_goals (intros; rename_i hh; cases hh)

theorem injNode_ann {uc : UC} (l : List Nat) {n : Node} : injNode uc l ann = .ok n → n = ann := by
  induction l with
  | nil => intro h; cases h; rfl
  | cons i r ih =>
    intro h
    refine ih ?_
    rw [injNode, ann, Node.new, injectIndex] at h
    · exact h
    all_goals (intros; rename_i hh; cases hh)

theorem injNode_cur {uc : UC} (l : List Nat) : ∀ {p : DocPath} {n : Node}, injNode uc l (cur p) = .ok n →
    n = cur (injPath l p) := by
  induction l with
  | nil => intro p n h; cases h; rfl
  | cons i r ih =>
    intro p n h
    rw [injNode, cur, Node.new, injectIndex] at h
    exact ih h

theorem injNodes_one {uc : UC} {l : List Nat} {n : Node} {ms : List Node} (h : injNodes uc l [n] = .ok ms) :
    ∃ n', ms = [n'] ∧ injNode uc l n = .ok n' := by
  obtain ⟨n', r, e, h1, h2⟩ := injNodes_cons l h
  rw [injNodes_nil l h2] at e
  exact ⟨n', e, h1⟩

theorem injNodes_two {uc : UC} {l : List Nat} {n m : Node} {ms : List Node} (h : injNodes uc l [n, m] = .ok ms) :
    ∃ n' m', ms = [n', m'] ∧ injNode uc l n = .ok n' ∧ injNode uc l m = .ok m' := by
  obtain ⟨n', r, e, h1, h2⟩ := injNodes_cons l h
  obtain ⟨m', e2, h3⟩ := injNodes_one h2
  exact ⟨n', m', by rw [e, e2], h1, h3⟩

theorem injNodes_three {uc : UC} {l : List Nat} {n m o : Node} {ms : List Node} (h : injNodes uc l [n, m, o] = .ok ms) :
    ∃ n' m' o', ms = [n', m', o'] ∧ injNode uc l n = .ok n' ∧ injNode uc l m = .ok m' ∧ injNode uc l o = .ok o' := by
  obtain ⟨n', r, e, h1, h2⟩ := injNodes_cons l h
  obtain ⟨m', o', e2, h3, h4⟩ := injNodes_two h2
  exact ⟨n', m', o', by rw [e, e2], h1, h3, h4⟩

/-- The node of a rule with indices put in its path. -/
theorem injNode_ruleAct {uc : UC} {l : List Nat} {v : NodeValue} {p : DocPath} {r : MatchingRule} {n : Node}
    (h : injNode uc l (ruleAct (val v) (cur p) r) = .ok n) : n = ruleAct (val v) (cur (injPath l p)) r := by
  obtain ⟨cs, rfl, h1⟩ := injNode_act l h
  obtain ⟨a, b, c, rfl, ha, hb, hc⟩ := injNodes_three h1
  rw [injNode_val l ha, injNode_cur l hb, injNode_val l hc]
  rfl

theorem injNodes_ruleActs {uc : UC} {l : List Nat} {v : NodeValue} {p : DocPath} : ∀ {rs : List MatchingRule} {ns : List Node},
    injNodes uc l (rs.map (ruleAct (val v) (cur p))) = .ok ns → ns = rs.map (ruleAct (val v) (cur (injPath l p)))
  | [], ns, h => injNodes_nil l h
  | r :: rs, ns, h => by
    obtain ⟨n', ns', e, h1, h2⟩ := injNodes_cons l h
    rw [e, injNode_ruleAct h1, injNodes_ruleActs h2]
    rfl

theorem ruleNodes_refs {e a e2 a2 : Node} : ∀ {rs : List MatchingRule} {ns : List Node}, ruleNodes e a rs = .ok ns →
    ruleNodes e2 a2 rs = .ok (rs.map (ruleAct e2 a2))
  | [], _, _ => rfl
  | r :: rs, ns, h => by
    rw [ruleNodes] at h
    obtain ⟨n, h1, h2⟩ := bind_ok h
    obtain ⟨ms, h3, _⟩ := map_ok h2
    rw [ruleNodes, ruleNodes_refs h3, ruleNode, (ruleNode_ok h1).1]
    rfl

/-- The node of a rule list with indices put in its path. -/
theorem inj_rules {uc : UC} {l : List Nat} {v : NodeValue} {p : DocPath} {rl : RuleList} {coll : Bool} {n n' : Node}
    (h : rulesNode (val v) (cur p) rl coll = .ok n) (hi : injNode uc l n = .ok n') :
    rulesNode (val v) (cur (injPath l p)) rl coll = .ok n' := by
  rw [rulesNode] at h ⊢
  split at h
  · rename_i r hr
    obtain ⟨h1, h2⟩ := ruleNode_ok h
    subst h2
    rw [injNode_ruleAct hi]
    rw [ruleNode, h1]
    rfl
  · rename_i hne
    obtain ⟨ns, h1, rfl⟩ := map_ok h
    rw [ruleNodes_ok h1] at hi
    obtain ⟨cs, rfl, hi2⟩ := injNode_act l hi
    rw [injNodes_ruleActs hi2]
    rw [ruleNodes_refs h1]
    rfl

/-! ### Tokens -/

/-- The number of `[*]` in a path. -/
def stars : List PathToken → Nat
  | [] => 0
  | .starIndex :: ts => stars ts + 1
  | _ :: ts => stars ts

theorem stars_append (a b : List PathToken) : stars (a ++ b) = stars a + stars b := by
  induction a with
  | nil => simp [stars]
  | cons t ts ih => cases t <;> simp only [List.cons_append, stars, ih] <;> omega

theorem inject_append (i : Nat) (a b : List PathToken) (h : 0 < stars a) : injectTokens i (a ++ b) = injectTokens i a ++ b := by
  induction a with
  | nil => simp [stars] at h
  | cons t ts ih => cases t <;> simp only [List.cons_append, injectTokens, stars] at h ⊢ <;> rw [ih h]

theorem inject_append_none (i : Nat) (a b : List PathToken) (h : stars a = 0) : injectTokens i (a ++ b) = a ++ injectTokens i b := by
  induction a with
  | nil => rfl
  | cons t ts ih => cases t <;> simp only [List.cons_append, injectTokens, stars] at h ⊢ <;> first | omega | rw [ih h]

theorem stars_inject (i : Nat) (a : List PathToken) : stars (injectTokens i a) = stars a - 1 := by
  induction a with
  | nil => rfl
  | cons t ts ih => cases t <;> simp only [injectTokens, stars, ih] <;> omega

theorem injAll_append (l : List Nat) : ∀ (a b : List PathToken), l.length ≤ stars a → injAll l (a ++ b) = injAll l a ++ b := by
  induction l with
  | nil => intro a b _; rfl
  | cons i r ih =>
    intro a b h
    simp only [List.length_cons] at h
    rw [injAll, inject_append i a b (by omega), ih _ _ (by rw [stars_inject]; omega)]
    rfl

theorem stars_injAll (l : List Nat) : ∀ a : List PathToken, stars (injAll l a) = stars a - l.length := by
  induction l with
  | nil => intro a; rfl
  | cons i r ih => intro a; rw [injAll, ih, stars_inject, List.length_cons]; omega

/-- Putting in one more index for a `[*]` at the end. -/
theorem injAll_star (l : List Nat) (i : Nat) (a : List PathToken) (h : stars a = l.length) :
    injAll (l ++ [i]) (a ++ [.starIndex]) = injAll l a ++ [.index i] := by
  rw [injAll_snoc, injAll_append l a _ (by omega), inject_append_none _ _ _ (by rw [stars_injAll]; omega)]
  rfl

/-! ### Labels -/

/-- The label is the text of a path that is read back. -/
def LabelOk (s : Str) : Prop :=
  ∃ ts, s = buildExpr (.root :: ts) ∧ (∀ t ∈ ts, IsSegment t) ∧ ∀ k, .field k ∈ ts → PlainKey k

mutual
/-- The labels of all the containers are texts of paths. -/
def Labelled : Node → Prop
  | .mk k _ cs => (∀ l, k = .container l → LabelOk l) ∧ LabelledL cs
termination_by structural x => x
def LabelledL : List Node → Prop
  | [] => True
  | n :: ns => Labelled n ∧ LabelledL ns
termination_by structural x => x
end

theorem injectTokens_mem (i : Nat) (ts : List PathToken) (t : PathToken) (h : t ∈ injectTokens i ts) : t ∈ ts ∨ t = .index i := by
  induction ts with
  | nil => cases h
  | cons u us ih =>
    have hstep : t = u ∨ t ∈ injectTokens i us → t ∈ u :: us ∨ t = .index i := by
      rintro (rfl | h)
      · exact .inl (List.mem_cons_self ..)
      · rcases ih h with h | h
        · exact .inl (List.mem_cons_of_mem _ h)
        · exact .inr h
    cases u with
    | starIndex =>
      rcases List.mem_cons.mp h with h | h
      · exact .inr h
      · exact .inl (List.mem_cons_of_mem _ h)
    | _ => exact hstep (List.mem_cons.mp h)

theorem injectLabel_ok (uc : UC) (i : Nat) (hi : i < usizeLim) {s : Str} (h : LabelOk s) :
    ∃ s', injectLabel uc i s = .ok s' ∧ LabelOk s' := by
  obtain ⟨ts, rfl, h1, h2⟩ := h
  have hp : Path.new uc (buildExpr (.root :: ts)) = .ok ⟨.root :: ts, buildExpr (.root :: ts)⟩ := by
    rw [Path.new, C01_roundtrip_partial uc ts h1 h2]
    rfl
  refine ⟨buildExpr (.root :: injectTokens i ts), ?_, injectTokens i ts, rfl, ?_, ?_⟩
  · rw [injectLabel, hp]; rfl
  · intro t ht
    rcases injectTokens_mem i ts t ht with ht | rfl
    · exact h1 t ht
    · exact hi
  · intro k hk
    rcases injectTokens_mem i ts _ hk with hk | hk
    · exact h2 k hk
    · cases hk

mutual
/-- Indices can be put in nodes with such labels. -/
theorem injectIndex_ok (uc : UC) (i : Nat) (hi : i < usizeLim) (n : Node) (h : Labelled n) :
    ∃ n', injectIndex uc i n = .ok n' ∧ Labelled n' ∧ height n' ≤ height n := by
  match n with
  | .mk k r cs =>
    rw [Labelled] at h
    obtain ⟨cs', hc1, hc2, hc3⟩ := injectList_ok uc i hi cs h.2
    cases k with
    | container l =>
      obtain ⟨l', hl1, hl2⟩ := injectLabel_ok uc i hi (h.1 l rfl)
      refine ⟨.mk (.container l') r cs', by rw [injectIndex, hl1, Res.bind, hc1]; rfl, ?_, by rw [height, height]; omega⟩
      rw [Labelled]
      exact ⟨fun x hx => (by cases hx; exact hl2), hc2⟩
    | action a =>
      refine ⟨.mk (.action a) r cs', by rw [injectIndex, hc1]; rfl, ?_, by rw [height, height]; omega⟩
      rw [Labelled]
      exact ⟨fun x hx => (by cases hx), hc2⟩
    | pipeline =>
      refine ⟨.mk .pipeline r cs', by rw [injectIndex, hc1]; rfl, ?_, by rw [height, height]; omega⟩
      rw [Labelled]
      exact ⟨fun x hx => (by cases hx), hc2⟩
    | splat =>
      refine ⟨.mk .splat r cs', by rw [injectIndex, hc1]; rfl, ?_, by rw [height, height]; omega⟩
      rw [Labelled]
      exact ⟨fun x hx => (by cases hx), hc2⟩
    | resolveCurrent p =>
      refine ⟨.mk (.resolveCurrent (fromTokens (injectTokens i p.tokens))) r [], by rw [injectIndex], ?_, by rw [height, height, heights]; omega⟩
      rw [Labelled, LabelledL]
      exact ⟨fun x hx => (by cases hx), trivial⟩
    | _ =>
      refine ⟨.mk _ r cs, by rw [injectIndex] <;> (intros; rename_i hh; cases hh), ?_, Nat.le_refl _⟩
      rw [Labelled]
      exact ⟨fun x hx => (by cases hx), h.2⟩
theorem injectList_ok (uc : UC) (i : Nat) (hi : i < usizeLim) (ns : List Node) (h : LabelledL ns) :
    ∃ ns', injectList uc i ns = .ok ns' ∧ LabelledL ns' ∧ heights ns' ≤ heights ns := by
  match ns with
  | [] => exact ⟨[], by rw [injectList], h, Nat.le_refl _⟩
  | n :: ns =>
    rw [LabelledL] at h
    obtain ⟨n', h1, h2, h3⟩ := injectIndex_ok uc i hi n h.1
    obtain ⟨ns', g1, g2, g3⟩ := injectList_ok uc i hi ns h.2
    refine ⟨n' :: ns', by rw [injectList, h1, Res.bind, g1]; rfl, ?_, by rw [heights_cons, heights_cons]; omega⟩
    rw [LabelledL]
    exact ⟨h2, g2⟩
end

theorem labelled_injNode {uc : UC} (l : List Nat) : ∀ {n n' : Node}, (∀ i ∈ l, i < usizeLim) → Labelled n →
    injNode uc l n = .ok n' → Labelled n' := by
  induction l with
  | nil => intro n n' _ h e; cases e; exact h
  | cons i r ih =>
    intro n n' hi h e
    obtain ⟨m, h1, h2, _⟩ := injectIndex_ok uc i (hi i (List.mem_cons_self ..)) n h
    rw [injNode, h1] at e
    exact ih (fun j hj => hi j (List.mem_cons_of_mem _ hj)) h2 e

/-- The bodies of a `for-each` over a single node. -/
theorem unroll_ok (uc : UC) (n : Node) (h : Labelled n) (k : Nat) : ∀ i, i + k ≤ usizeLim →
    ∃ f : Nat → Node, unroll uc [n] i k = .ok ((List.range' i k).map f) ∧ heights ((List.range' i k).map f) ≤ heights [n]
      ∧ ∀ j, i ≤ j → j < i + k → injectIndex uc j n = .ok (f j) := by
  induction k with
  | zero =>
    intro i _
    refine ⟨fun _ => n, rfl, ?_, fun j h1 h2 => by omega⟩
    rw [List.range'_zero, List.map_nil, heights_nil]
    omega
  | succ k ih =>
    intro i hi
    obtain ⟨f, h1, h2, h3⟩ := ih (i + 1) (by omega)
    obtain ⟨m, g1, _, g2⟩ := injectIndex_ok uc i (by omega) n h
    have hmap : (List.range' (i + 1) k).map (fun j => if j = i then m else f j) = (List.range' (i + 1) k).map f := by
      apply List.map_congr_left
      intro j hj
      have := (List.mem_range'_1.mp hj).1
      rw [if_neg (by omega)]
    refine ⟨fun j => if j = i then m else f j, ?_, ?_, ?_⟩
    · rw [unroll, injectList, g1, Res.bind, injectList, List.range'_succ, List.map_cons, hmap, h1]
      simp [Res.map, Res.bind]
    · rw [List.range'_succ, List.map_cons, hmap, heights_cons]
      rw [heights_cons, heights_nil] at h2 ⊢
      rw [if_pos rfl]
      omega
    · intro j hj1 hj2
      by_cases hj : j = i
      · simp only [hj, if_true, g1]
      · simp only [if_neg hj]
        exact h3 j (by omega) (by omega)

/-! ### Rules below a path -/

theorem toVec_push (p : DocPath) (t : PathToken) (q : DocPath) (h : q.tokens = p.tokens ++ [t]) : ∃ s, toVec q = toVec p ++ [s] := by
  refine ⟨tokenString t, ?_⟩
  rw [toVec, h, List.map_append]
  rfl

/-- A rule for a path is a rule for everything below it. -/
theorem isDefined_push {ctx : Ctx} {p q : DocPath} {t : PathToken} (hq : q.tokens = p.tokens ++ [t])
    (h : isDefined ctx p = true) : isDefined ctx q = true := by
  obtain ⟨s, hs⟩ := toVec_push p t q hq
  unfold isDefined matcherIsDefined at h ⊢
  rw [hs]
  have key : ∀ c : RuleCategory, (filterCat c (fun e => matchesPath e.1.tokens (toVec p))).rules ≠ [] →
      (filterCat c (fun e => matchesPath e.1.tokens (toVec p ++ [s]))).rules ≠ [] := by
    intro c hne
    simp only [filterCat] at hne ⊢
    intro hn
    apply hne
    rw [List.filter_eq_nil_iff] at hn ⊢
    intro e he hm
    exact hn e he (CompareProps.matchesPath_append s hm)
  have hb : ∀ l : List (DocPath × RuleList), (!l.isEmpty) = true ↔ l ≠ [] := by
    intro l; cases l <;> simp
  rw [hb] at h ⊢
  unfold resolveMatchersForPath at h ⊢
  revert h
  cases ctx.cat.name <;> intro h <;> first | exact key _ h | exact h

end EngineWalk
end Verif
