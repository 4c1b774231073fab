import Verif.Props.EngineLabels

/-
  What the V2 matching engine accepts as a JSON body: executing the plan for a JSON value agrees with the
  specification `EngineSpec.Accepts`.
-/
set_option autoImplicit false

namespace Verif
namespace EngineWalk
open Path Rules Matchers Compare Query Headers MatchResult Engine JsonUtils EngineSpec
open BodyGeneratorProps (Seg getAt)

/-- A path of the plan, after putting in the indices, is the path of a location. -/
structure At (ctx : Ctx) (p : DocPath) (l : List Nat) (segs : List Seg) : Prop where
  ok : PathOk p
  stars : stars p.tokens = l.length
  toks : injAll l p.tokens = .root :: segs.map segTok
  steps : ∀ x ∈ segs, StepOk x
  lim : ∀ i ∈ l, i < usizeLim
  defd : l = [] ∨ isDefined ctx p = true

theorem at_root (ctx : Ctx) : At ctx rootPath [] [] :=
  ⟨pathOk_root, rfl, rfl, fun x h => (by cases h), fun x h => (by cases h), .inl rfl⟩

theorem at_field {ctx : Ctx} {p : DocPath} {l : List Nat} {segs : List Seg} (h : At ctx p l segs) {k : Str} (hk : SafeKey k) :
    At ctx (pushField p k) l (segs ++ [.key k]) where
  ok := pathOk_field h.ok hk
  stars := by
    show stars (p.tokens ++ [.field k]) = _
    rw [stars_append, h.stars]; rfl
  toks := by
    show injAll l (p.tokens ++ [.field k]) = _
    rw [injAll_append l _ _ (by rw [h.stars]; omega), h.toks, List.map_append]; rfl
  steps := by
    intro x hx
    rcases List.mem_append.mp hx with hx | hx
    · exact h.steps x hx
    · rw [List.mem_singleton.mp hx]; exact ⟨hk.1, hk.2.2.2.1, hk.2.2.2.2⟩
  lim := h.lim
  defd := h.defd.imp id (isDefined_push rfl)

theorem at_star {ctx : Ctx} {p : DocPath} {l : List Nat} {segs : List Seg} (h : At ctx p l segs) {i : Nat} (hi : i < usizeLim)
    (hd : isDefined ctx p = true) : At ctx (pushStarIndex p) (l ++ [i]) (segs ++ [.idx i]) where
  ok := pathOk_star h.ok
  stars := by
    show stars (p.tokens ++ [.starIndex]) = _
    rw [stars_append, h.stars, List.length_append]; rfl
  toks := by
    show injAll (l ++ [i]) (p.tokens ++ [.starIndex]) = _
    rw [injAll_star l i _ h.stars, h.toks, List.map_append]; rfl
  steps := by
    intro x hx
    rcases List.mem_append.mp hx with hx | hx
    · exact h.steps x hx
    · rw [List.mem_singleton.mp hx]; exact trivial
  lim := by
    intro j hj
    rcases List.mem_append.mp hj with hj | hj
    · exact h.lim j hj
    · rw [List.mem_singleton.mp hj]; exact hi
  defd := .inr (isDefined_push rfl hd)

theorem segTok_last {segs : List Seg} : ∀ t, (PathToken.root :: segs.map segTok).getLast? = some t → t ≠ .star ∧ t ≠ .starIndex := by
  intro t ht
  have hm := List.mem_of_getLast? ht
  rcases List.mem_cons.mp hm with rfl | hm
  · simp
  · obtain ⟨s, _, rfl⟩ := List.mem_map.mp hm
    cases s <;> simp [segTok]

theorem joinIndex_plain {p : DocPath} {segs : List Seg} (h : p.tokens = .root :: segs.map segTok) (i : Nat) :
    joinIndex p i = pushIndex p i := by
  rw [joinIndex, h]
  split
  · rename_i hl; exact absurd rfl (segTok_last _ hl).1
  · rename_i hl; exact absurd rfl (segTok_last _ hl).2
  · rfl

theorem at_index {ctx : Ctx} {p : DocPath} {segs : List Seg} (h : At ctx p [] segs) {i : Nat} (hi : i < usizeLim) :
    At ctx (joinIndex p i) [] (segs ++ [.idx i]) where
  ok := pathOk_index h.ok hi
  stars := by
    rw [joinIndex_plain h.toks]
    show stars (p.tokens ++ [.index i]) = _
    rw [stars_append, h.stars]; rfl
  toks := by
    rw [joinIndex_plain h.toks]
    show p.tokens ++ [.index i] = _
    rw [show p.tokens = _ from h.toks, List.map_append]; rfl
  steps := by
    intro x hx
    rcases List.mem_append.mp hx with hx | hx
    · exact h.steps x hx
    · rw [List.mem_singleton.mp hx]; exact trivial
  lim := h.lim
  defd := .inl rfl

/-- No rule of the table makes the creation of a rule panic. -/
def RulesSafe (P : EP) (ctx : Ctx) : Prop :=
  ∀ p c, ∀ r ∈ (best ctx p).rules, RuleJson.recreate P.rules (ruleFor c r) ≠ .panic

section
variable {C : ECtx} {s0 : Stack} {ctx : Ctx} {a : Json} {p : DocPath} {l : List Nat} {segs : List Seg}

theorem cur_at (hat : At ctx p l segs) (hf : Fits a) :
    Runs C (some (.value (.json a)) :: s0) (cur (injPath l p))
      (.mk (.resolveCurrent (injPath l p)) (some (.value (ofOpt (getAt segs a)))) []) := by
  have h := runs_cur (C := C) (s := some (.value (.json a)) :: s0) (injPath l p)
  rw [curResult_eq segs a (injPath l p) s0 (by rw [injPath_tokens]; exact hat.toks) hat.steps hf] at h
  exact h

theorem asJsonD_ofOpt (x : Option Json) : (ofOpt x).asJsonD = x.getD .null := by cases x <;> rfl

theorem rules_at (hs : RulesSafe C.P ctx) (hat : At ctx p l segs) (hf : Fits a) {coll : Bool} {e : Json} {n n' : Node}
    (h : rulesNode (val (.json e)) (cur p) (best ctx p) coll = .ok n) (hi : injNode C.P.uc l n = .ok n') :
    Gives C (some (.value (.json a)) :: s0) n' (RulesAccept C.P ctx p coll e (getAt segs a)) := by
  have hE := runs_val (C := C) (s := some (.value (.json a)) :: s0) (v := .json e) (w := .json e) rfl
  refine gives_congr (gives_rules (inj_rules h hi) hE rfl clean_leaf (cur_at hat hf) rfl (fun hh => by cases hh)
    (fun _ => clean_leaf) (fun r hr => hs p coll r hr)) ?_
  constructor
  · intro hall r hr
    obtain ⟨v, rule, hv, h1, h2⟩ := hall r hr
    refine ⟨rule, h1, ?_⟩
    have : v = ofOpt (getAt segs a) := by
      have hv' : NodeResult.value (ofOpt (getAt segs a)) = NodeResult.value v := hv
      injection hv' with e; exact e.symm
    subst this
    rw [NodeValue.matches_, asJsonD_ofOpt] at h2
    exact h2
  · intro hall r hr
    obtain ⟨rule, h1, h2⟩ := hall r hr
    refine ⟨ofOpt (getAt segs a), rule, rfl, h1, ?_⟩
    rw [NodeValue.matches_, asJsonD_ofOpt]
    exact h2

theorem create_equality (P : RuleJson.Params) : RuleJson.create (RuleJson.fromJson P) P "equality".toList .null = .ok .equality := rfl

theorem inj_equalJson {uc : UC} {e : Json} {n : Node} (h : injNode uc l (equalJson e p) = .ok n) : n = equalJson e (injPath l p) := by
  obtain ⟨cs, rfl, h1⟩ := injNode_act l h
  obtain ⟨x, y, z, rfl, hx, hy, hz⟩ := injNodes_three h1
  rw [injNode_val l hx, injNode_cur l hy, injNode_val l hz]
  rfl

theorem equal_at (hat : At ctx p l segs) (hf : Fits a) {e : Json} (hr : C.P.parseStr e.text = some e) :
    Checks C (some (.value (.json a)) :: s0) (equalJson e (injPath l p)) ((getAt segs a).getD .null = e) := by
  have hE := runs_val (C := C) (s := some (.value (.json a)) :: s0) (v := .namespaced "json".toList e.text) (w := .json e)
    (by simp only [nodeValue, hr, Option.map_some, if_true])
  have hm := checks_match (name := "equality".toList) (ps := .null) hE rfl clean_leaf (cur_at hat hf) rfl
    (fun hh => by cases hh) (fun _ => clean_leaf) rfl (by rw [show NodeValue.asJsonD .null = Json.null from rfl, create_equality]; intro hh; cases hh)
  have hiff : MatchOk C "equality".toList (NodeValue.asJsonD .null) (.json e) (.value (ofOpt (getAt segs a))) ↔ (getAt segs a).getD .null = e := by
    constructor
    · rintro ⟨v, rule, hv, h1, h2⟩
      rw [show NodeValue.asJsonD .null = Json.null from rfl, create_equality] at h1
      cases h1
      injection hv with hv
      subst hv
      simp only [NodeValue.matches_, asJsonD_ofOpt, jsonMatches, decide_eq_true_eq] at h2
      exact h2.symm
    · intro h
      refine ⟨_, .equality, rfl, create_equality _, ?_⟩
      simp only [NodeValue.matches_, asJsonD_ofOpt, jsonMatches, decide_eq_true_eq]
      exact h.symm
  obtain ⟨n', h1, h2, h3, h4, h5⟩ := hm
  exact ⟨n', h1, done_congr h2 hiff, fun h => h3 (hiff.mpr h), fun h => h4 (fun g => h (hiff.mp g)), h5⟩

theorem exists_at (hat : At ctx p l segs) (hf : Fits a) :
    Runs C (some (.value (.json a)) :: s0) (act .checkExists [cur (injPath l p)])
      (.mk (.action .checkExists) (some (.value (.bool (getAt segs a).isSome)))
        [.mk (.resolveCurrent (injPath l p)) (some (.value (ofOpt (getAt segs a)))) []]) := by
  refine runs_args1 (cur_at hat hf) (fun rec f => rfl) ?_
  cases getAt segs a <;> rfl

theorem fresh_equalJson {e : Json} {q : DocPath} : Fresh (equalJson e q) :=
  fresh_new _ _ (freshL_cons (fresh_leaf _) (freshL_cons (fresh_leaf _) (freshL_cons (fresh_leaf _) freshL_nil)))

/-- An `if` that takes its third argument. -/
theorem gives_else {C : ECtx} {s : Stack} {c c' d e : Node} {v : Prop} (hc : Runs C s c c') (ht : c'.res.isTruthy = false)
    (hcl : nodeErrors true c' = []) (hfd : Fresh d) (he : Gives C s e v) : Gives C s (act .iff [c, d, e]) v := by
  obtain ⟨e', h1, h2⟩ := he
  refine ⟨_, runs_if_else hc ht h1, rfl, ?_, ?_⟩
  · intro hv
    have hce := h2.clean hv
    rw [nodeErrors_all, childErrors_cons, childErrors_cons, childErrors_cons, childErrors_nil, hcl, fresh_clean d hfd, hce]
    cases e' with
    | mk k r cs =>
      rw [nodeErrors_all] at hce
      have ho := (List.append_eq_nil_iff.mp hce).1
      cases r with
      | none => rfl
      | some r =>
        cases r with
        | error m => simp [ownError] at ho
        | _ => rfl
  · intro hv
    have hr := h2.rep hv
    exact ⟨reported_of_child (List.mem_cons_of_mem _ (List.mem_cons_of_mem _ (List.mem_cons_self ..))) hr.1, hr.2⟩

theorem item_at (hs : RulesSafe C.P ctx) (hat : At ctx p l segs) (hf : Fits a) {e : Json} (hr : C.P.parseStr e.text = some e)
    {ns ns' : List Node} (h : itemCheck ctx p e = .ok ns) (hi : injNodes C.P.uc l ns = .ok ns') :
    GivesL C (some (.value (.json a)) :: s0) ns' (ItemAccepts C.P ctx p e (getAt segs a)) := by
  have hx := exists_at (C := C) (s0 := s0) hat hf
  have hxc : nodeErrors true (.mk (.action .checkExists) (some (.value (.bool (getAt segs a).isSome)))
        [.mk (.resolveCurrent (injPath l p)) (some (.value (ofOpt (getAt segs a)))) []]) = [] := by
    rw [nodeErrors_all, childErrors_cons, childErrors_nil, clean_leaf]; rfl
  have hxi : ∀ {q : Node}, injNode C.P.uc l (act .checkExists [cur p]) = .ok q → q = act .checkExists [cur (injPath l p)] := by
    intro q hq
    obtain ⟨cs, rfl, h1⟩ := injNode_act l hq
    obtain ⟨x, rfl, h2⟩ := injNodes_one h1
    rw [injNode_cur l h2]
  rw [itemCheck] at h
  split at h
  · rename_i hd
    obtain ⟨n, h1, rfl⟩ := map_ok h
    obtain ⟨q, rfl, h2⟩ := injNodes_one hi
    obtain ⟨cs, rfl, h3⟩ := injNode_act l h2
    obtain ⟨x, y, z, rfl, hx1, hy, hz⟩ := injNodes_three h3
    rw [hxi hx1, injNode_ann l hy]
    apply givesL_one
    have hrul := rules_at (s0 := s0) hs hat hf h1 hz
    cases hg : getAt segs a with
    | none =>
      rw [hg] at hx hxc hrul
      refine gives_congr (gives_else hx rfl hxc (fresh_leaf _) hrul) ?_
      rw [ItemAccepts]
      exact ⟨fun h _ => h, fun h => h hd⟩
    | some v =>
      rw [hg] at hx hxc
      have hz' : Fresh z := fresh_rules (inj_rules h1 hz) (fresh_leaf _) (fresh_leaf _)
      refine gives_congr (gives_if hx hxc gives_ann (fresh_leaf _) (freshL_cons hz' freshL_nil) (.inr rfl)) ?_
      rw [ItemAccepts]
      refine ⟨fun _ h => ?_, fun _ _ => trivial⟩
      rw [hd] at h; cases h
  · rename_i hd
    cases h
    obtain ⟨q, rfl, h2⟩ := injNodes_one hi
    obtain ⟨cs, rfl, h3⟩ := injNode_act l h2
    obtain ⟨x, y, rfl, hx1, hy⟩ := injNodes_two h3
    rw [hxi hx1, inj_equalJson hy]
    apply givesL_one
    have heq := (equal_at (s0 := s0) hat hf hr).gives
    refine gives_congr (gives_if hx hxc heq fresh_equalJson freshL_nil (.inl rfl)) ?_
    cases hg : getAt segs a with
    | none =>
      rw [ItemAccepts]
      constructor
      · intro _ h; exact absurd h hd
      · intro _ h; cases h
    | some v =>
      rw [ItemAccepts]
      constructor
      · intro h _; exact h rfl
      · intro h _; exact h (by cases hdd : isDefined ctx p with | false => rfl | true => exact absurd hdd hd)

/-! ### Objects -/

theorem res_mk (k : NodeKind) (r : NodeResult) (cs : List Node) : (Node.mk k (some r) cs).res = r := rfl

theorem checks_okIf {C : ECtx} {s : Stack} {ac : Action} {cs cs' : List Node} {b : Bool} {v : Prop} (hb : b = true ↔ v)
    (hr : Runs C s (act ac cs) (.mk (.action ac) (some (checkResult (okIf b))) cs'))
    (hcl : ∀ c ∈ cs', nodeErrors true c = []) : Checks C s (act ac cs) v := by
  refine checks_of_runs (cs' := cs') ?_ ?_
  · intro hv
    rw [hb.mpr hv] at hr
    exact ⟨hr, hcl⟩
  · intro hv
    have : b = false := by
      cases b with
      | false => rfl
      | true => exact absurd (hb.mp rfl) hv
    rw [this] at hr
    exact ⟨.said, cs', hr⟩

theorem clean_args2 {k1 k2 : NodeKind} {v1 v2 : NodeValue} : ∀ c ∈ [Node.mk k1 (some (.value v1)) [], .mk k2 (some (.value v2)) []],
    nodeErrors true c = [] := by
  intro c hc
  simp only [List.mem_cons, List.not_mem_nil, or_false] at hc
  rcases hc with rfl | rfl <;> exact clean_leaf

theorem clean_args3 {k1 k2 k3 : NodeKind} {v1 v2 v3 : NodeValue} :
    ∀ c ∈ [Node.mk k1 (some (.value v1)) [], .mk k2 (some (.value v2)) [], .mk k3 (some (.value v3)) []],
    nodeErrors true c = [] := by
  intro c hc
  simp only [List.mem_cons, List.not_mem_nil, or_false] at hc
  rcases hc with rfl | rfl | rfl <;> exact clean_leaf

/-- The test of `json:expect:empty`. -/
def emptyTest (ty : Str) : Option Json → Bool
  | some j => jsonCheckType ty j && jsonEmpty j
  | none => false

theorem expectEmpty_at (hat : At ctx p l segs) (hf : Fits a) (ty : String) :
    Checks C (some (.value (.json a)) :: s0) (act .jsonExpectEmpty [txt ty, cur (injPath l p)]) (emptyTest ty.toList (getAt segs a) = true) := by
  refine checks_okIf (cs' := [.mk (.value (.str ty.toList)) (some (.value (.str ty.toList))) [], .mk (.resolveCurrent (injPath l p)) (some (.value (ofOpt (getAt segs a)))) []]) (b := emptyTest ty.toList (getAt segs a)) Iff.rfl ?_ clean_args2
  · refine runs_args2 (runs_val (v := .str ty.toList) (w := .str ty.toList) rfl) (cur_at hat hf) (fun rec f => rfl) ?_
    show finish _ (checkResult (jsonExpectEmptyCheck _ (.value (.str ty.toList)) (.value (ofOpt (getAt segs a))))) _ _ = _
    cases getAt segs a <;> rfl

/-- The test of `json:match:length`. -/
def lengthTest (ty : Str) (n : Nat) : Option Json → Bool
  | some j => jsonCheckType ty j && jsonCheckLength n j
  | none => false

theorem matchLength_at (hat : At ctx p l segs) (hf : Fits a) (ty : String) (n : Nat) :
    Checks C (some (.value (.json a)) :: s0) (act .jsonMatchLength [txt ty, val (.uint n), cur (injPath l p)])
      (lengthTest ty.toList n (getAt segs a) = true) := by
  refine checks_okIf (cs' := [.mk (.value (.str ty.toList)) (some (.value (.str ty.toList))) [], .mk (.value (.uint n)) (some (.value (.uint n))) [], .mk (.resolveCurrent (injPath l p)) (some (.value (ofOpt (getAt segs a)))) []])
    (b := lengthTest ty.toList n (getAt segs a)) Iff.rfl ?_ clean_args3
  · refine runs_args3 (runs_val (v := .str ty.toList) (w := .str ty.toList) rfl) (runs_val (v := .uint n) (w := .uint n) rfl)
      (cur_at hat hf) (fun rec f => rfl) ?_
    show finish _ (checkResult (matchLengthCheck _ (.value (.str ty.toList)) (.value (.uint n)) (.value (ofOpt (getAt segs a))))) _ _ = _
    cases getAt segs a <;> rfl

/-- The test of `json:expect:entries`. -/
def entriesTest (ty : Str) (ks : List Str) : Option Json → Bool
  | some (.obj es) => jsonCheckType ty (.obj es) && ks.all (fun k => Json.hasKey k es)
  | _ => false

theorem expectEntries_at (hat : At ctx p l segs) (hf : Fits a) (ty : String) (ks : List Str) :
    Checks C (some (.value (.json a)) :: s0) (act .jsonExpectEntries [txt ty, val (.slist ks), cur (injPath l p)])
      (entriesTest ty.toList ks (getAt segs a) = true) := by
  refine checks_okIf (cs' := [.mk (.value (.str ty.toList)) (some (.value (.str ty.toList))) [], .mk (.value (.slist ks)) (some (.value (.slist ks))) [], .mk (.resolveCurrent (injPath l p)) (some (.value (ofOpt (getAt segs a)))) []])
    (b := entriesTest ty.toList ks (getAt segs a)) Iff.rfl ?_ clean_args3
  · refine runs_args3 (runs_val (v := .str ty.toList) (w := .str ty.toList) rfl) (runs_val (v := .slist ks) (w := .slist ks) rfl)
      (cur_at hat hf) (fun rec f => rfl) ?_
    show finish _ (checkResult (expectEntriesCheck _ (.value (.str ty.toList)) (.value (.slist ks)) (.value (ofOpt (getAt segs a))))) _ _ = _
    have : expectEntriesCheck C.P (.value (.str ty.toList)) (.value (.slist ks)) (.value (ofOpt (getAt segs a)))
        = okIf (entriesTest ty.toList ks (getAt segs a)) := by
      cases getAt segs a with
      | none => rfl
      | some j =>
        have hcase : ∀ b : Bool, (if b then (Except.error .said : Check) else .error .said) = .error .said := by
          intro b; cases b <;> rfl
        cases j with
        | obj es =>
          show (if jsonCheckType ty.toList (.obj es) then okIf (ks.all (fun k => Json.hasKey k es)) else .error .said) = _
          simp only [entriesTest]
          cases jsonCheckType ty.toList (.obj es) <;> rfl
        | _ => exact hcase _
    rw [this]
    rfl

/-- The test of `expect:only-entries` on a value of the body. -/
def onlyTest (ks : List Str) (x : Option Json) : Bool :=
  match entryNames (ofOpt x) with
  | some names => names.all (fun k => ks.contains k)
  | none => false

theorem diff_only (ks names : List Str) : (diff true ks names).isEmpty = names.all (fun k => ks.contains k) := by
  simp only [diff, if_true]
  induction names with
  | nil => rfl
  | cons n ns ih =>
    rw [List.filter_cons]
    cases h : ks.contains n with
    | false => simp only [Bool.not_false, if_true, List.isEmpty_cons, List.all_cons, h, Bool.false_and]
    | true => simp only [Bool.not_true, Bool.false_eq_true, if_false, ih, List.all_cons, h, Bool.true_and]

theorem onlyEntries_at (hat : At ctx p l segs) (hf : Fits a) (ks : List Str) :
    Gives C (some (.value (.json a)) :: s0) (act .expectOnlyEntries [val (.slist ks), cur (injPath l p)])
      (onlyTest ks (getAt segs a) = true) := by
  have hE := runs_val (C := C) (s := some (.value (.json a)) :: s0) (v := .slist ks) (w := .slist ks) rfl
  have hrun : ∀ {n' : Node}, (match entryNames (ofOpt (getAt segs a)) with
        | none => finish (act .expectOnlyEntries [val (.slist ks), cur (injPath l p)]) (.error .said)
            [.mk (.value (.slist ks)) (some (.value (.slist ks))) [],
              .mk (.resolveCurrent (injPath l p)) (some (.value (ofOpt (getAt segs a)))) []] (some (.value (.json a)) :: s0)
        | some actual => match diff true ks actual with
          | [] => finish (act .expectOnlyEntries [val (.slist ks), cur (injPath l p)]) .ok
            [.mk (.value (.slist ks)) (some (.value (.slist ks))) [],
              .mk (.resolveCurrent (injPath l p)) (some (.value (ofOpt (getAt segs a)))) []] (some (.value (.json a)) :: s0)
          | _ => finish (act .expectOnlyEntries [val (.slist ks), cur (injPath l p)]) (.error .said)
            [.mk (.value (.slist ks)) (some (.value (.slist ks))) [],
              .mk (.resolveCurrent (injPath l p)) (some (.value (ofOpt (getAt segs a)))) []] (some (.value (.json a)) :: s0))
        = .ok n' (some (.value (.json a)) :: s0) →
      Runs C (some (.value (.json a)) :: s0) (act .expectOnlyEntries [val (.slist ks), cur (injPath l p)]) n' := by
    intro n' h
    apply runs_of_step
    intro f hf'
    simp only [heights_cons, heights_nil] at hf'
    show execCheckEntries C (walkF C f) true (act .expectOnlyEntries [val (.slist ks), cur (injPath l p)]) _ = _
    rw [execCheckEntries]
    show arg (walkF C f) _ (val (.slist ks)) _ _ = _
    rw [arg, hE f (by omega)]
    show arg (walkF C f) _ (cur (injPath l p)) _ _ = _
    rw [arg, cur_at hat hf f (by omega)]
    rw [← h]
    show (match entryNames (ofOpt (getAt segs a)) with
      | none => _
      | some actual => _) = _
    cases entryNames (ofOpt (getAt segs a)) with
    | none => rfl
    | some names => 
      simp only []
      cases hdd : diff true ks names with
      | nil => 
        simp only [res_mk, expectedNames]
        rw [hdd]
        rfl
      | cons x xs =>
        simp only [res_mk, expectedNames]
        rw [hdd]
  cases hen : entryNames (ofOpt (getAt segs a)) with
  | none =>
    have hv : onlyTest ks (getAt segs a) = false := by rw [onlyTest, hen]
    rw [hv]
    refine ⟨_, hrun (by rw [hen]; rfl), rfl, fun h => (by cases h), fun _ => ⟨reported_own, .inl ⟨.said, rfl⟩⟩⟩
  | some names =>
    have hv : onlyTest ks (getAt segs a) = (diff true ks names).isEmpty := by rw [onlyTest, hen, diff_only]
    rw [hv]
    cases hdd : diff true ks names with
    | nil =>
      refine ⟨_, hrun (by rw [hen]; simp only [hdd]; rfl), rfl, fun _ => ?_, fun h => absurd rfl h⟩
      rw [nodeErrors_all, (childErrors_empty true _).mpr clean_args2]
      rfl
    | cons x xs =>
      refine ⟨_, hrun (by rw [hen]; simp only [hdd]; rfl), rfl, fun h => (by cases h), fun _ => ⟨reported_own, .inl ⟨.said, rfl⟩⟩⟩

theorem checkType_object (j : Json) : jsonCheckType "OBJECT".toList j = true ↔ ∃ es, j = .obj es := by
  cases j <;> simp [jsonCheckType, Matchers.kind]

theorem checkType_array (j : Json) : jsonCheckType "ARRAY".toList j = true ↔ ∃ l, j = .arr l := by
  cases j <;> simp [jsonCheckType, Matchers.kind]

theorem hasKey_iff {T : Type} (k : Str) (es : List (Str × T)) : Json.hasKey k es = true ↔ k ∈ Json.keys es := by
  induction es with
  | nil => simp [Json.hasKey, Json.lookup, Json.keys]
  | cons e es ih =>
    obtain ⟨l, v⟩ := e
    simp only [Json.hasKey, Json.lookup, Json.keys, List.map_cons, List.mem_cons] at ih ⊢
    by_cases h : l = k
    · simp [h]
    · rw [if_neg h]
      rw [ih]
      constructor
      · exact .inr
      · rintro (e | e)
        · exact absurd e.symm h
        · exact e

theorem emptyTest_object (x : Option Json) : emptyTest "OBJECT".toList x = true ↔
    ∃ fs, x = some (.obj fs) ∧ ∀ k, k ∈ Json.keys fs ↔ k ∈ Json.keys ([] : List (Str × Json)) := by
  cases x with
  | none => simp [emptyTest]
  | some j =>
    rw [emptyTest, Bool.and_eq_true, checkType_object]
    constructor
    · rintro ⟨⟨es, rfl⟩, h⟩
      refine ⟨es, rfl, ?_⟩
      cases es with
      | nil => intro k; rfl
      | cons e es => simp [jsonEmpty] at h
    · rintro ⟨fs, h, hk⟩
      injection h with h
      subst h
      refine ⟨⟨fs, rfl⟩, ?_⟩
      cases fs with
      | nil => rfl
      | cons e es =>
        have := (hk e.1).mp (by simp [Json.keys])
        simp [Json.keys] at this

theorem emptyTest_array (x : Option Json) : emptyTest "ARRAY".toList x = true ↔ ∃ l, x = some (.arr l) ∧ l.length = 0 := by
  cases x with
  | none => simp [emptyTest]
  | some j =>
    rw [emptyTest, Bool.and_eq_true, checkType_array]
    constructor
    · rintro ⟨⟨es, rfl⟩, h⟩
      refine ⟨es, rfl, ?_⟩
      cases es with
      | nil => rfl
      | cons e es => simp [jsonEmpty] at h
    · rintro ⟨fs, h, hk⟩
      injection h with h
      subst h
      refine ⟨⟨fs, rfl⟩, ?_⟩
      cases fs with
      | nil => rfl
      | cons e es => cases hk

theorem lengthTest_array (n : Nat) (x : Option Json) : lengthTest "ARRAY".toList n x = true ↔ ∃ l, x = some (.arr l) ∧ l.length = n := by
  cases x with
  | none => simp [lengthTest]
  | some j =>
    rw [lengthTest, Bool.and_eq_true, checkType_array]
    constructor
    · rintro ⟨⟨es, rfl⟩, h⟩
      exact ⟨es, rfl, by simpa [jsonCheckLength] using h⟩
    · rintro ⟨fs, h, hk⟩
      injection h with h
      subst h
      exact ⟨⟨fs, rfl⟩, by simpa [jsonCheckLength] using hk⟩

theorem keysTest (es : List (Str × Json)) (x : Option Json) :
    (entriesTest "OBJECT".toList (Json.keys es) x = true ∧ onlyTest (Json.keys es) x = true) ↔
      ∃ fs, x = some (.obj fs) ∧ ∀ k, k ∈ Json.keys fs ↔ k ∈ Json.keys es := by
  constructor
  · rintro ⟨h, g⟩
    cases x with
    | none => cases h
    | some j =>
      cases j with
      | obj fs =>
        rw [entriesTest, Bool.and_eq_true, List.all_eq_true] at h
        simp only [onlyTest, ofOpt, entryNames, List.all_eq_true, List.contains_iff_mem] at g
        refine ⟨fs, rfl, fun k => ⟨fun hk => g k hk, fun hk => (hasKey_iff k fs).mp (h.2 k hk)⟩⟩
      | _ => cases h
  · rintro ⟨fs, rfl, hk⟩
    constructor
    · rw [entriesTest, Bool.and_eq_true, List.all_eq_true]
      exact ⟨(checkType_object _).mpr ⟨fs, rfl⟩, fun k h => (hasKey_iff k fs).mpr ((hk k).mpr h)⟩
    · simp only [onlyTest, ofOpt, entryNames, List.all_eq_true, List.contains_iff_mem]
      exact fun k h => (hk k).mp h

theorem appliesToEntries_iff (l : RuleList) : (!l.rules.isEmpty && appliesToEntries l) = true ↔ HasEntryRule l.rules := by
  rw [Bool.and_eq_true, appliesToEntries, List.any_eq_true, HasEntryRule]
  constructor
  · rintro ⟨_, r, hr, h⟩
    refine ⟨r, hr, ?_⟩
    cases r <;> first | exact Or.inl rfl | exact Or.inr (Or.inl ⟨_, rfl⟩) | exact Or.inr (Or.inr ⟨_, rfl⟩) | cases h
  · rintro ⟨r, hr, h⟩
    refine ⟨?_, r, hr, ?_⟩
    · cases hl : l.rules with
      | nil => rw [hl] at hr; cases hr
      | cons x xs => rfl
    · rcases h with rfl | ⟨d, rfl⟩ | ⟨d, rfl⟩ <;> rfl

theorem object_at (hs : RulesSafe C.P ctx) (hat : At ctx p l segs) (hf : Fits a) {es : List (Str × Json)}
    {ns ns' : List Node} (h : objectNodes ctx p es = .ok ns) (hi : injNodes C.P.uc l ns = .ok ns') :
    GivesL C (some (.value (.json a)) :: s0) ns' (KeysAccept C.P ctx p es (getAt segs a)) := by
  rw [objectNodes] at h
  rw [KeysAccept]
  split at h
  · rename_i hc
    rw [if_pos ((appliesToEntries_iff _).mp hc)]
    obtain ⟨n, h1, rfl⟩ := map_ok h
    obtain ⟨x, y, rfl, hx, hy⟩ := injNodes_two hi
    rw [injNode_ann l hx]
    exact givesL_congr (givesL_cons gives_ann (givesL_one (rules_at hs hat hf h1 hy))) ⟨fun h => h.2, fun h => ⟨trivial, h⟩⟩
  · rename_i hc
    rw [if_neg (fun hh => hc ((appliesToEntries_iff _).mpr hh))]
    split at h
    · rename_i he
      cases h
      have hes : es = [] := List.isEmpty_iff.mp he
      subst hes
      obtain ⟨x, rfl, hx⟩ := injNodes_one hi
      obtain ⟨cs, rfl, h3⟩ := injNode_act l hx
      obtain ⟨y, z, rfl, hy, hz⟩ := injNodes_two h3
      rw [show y = txt "OBJECT" from injNode_val l hy, injNode_cur l hz]
      exact givesL_congr (givesL_one (expectEmpty_at hat hf "OBJECT").gives) (emptyTest_object _)
    · cases h
      obtain ⟨x, y, rfl, hx, hy⟩ := injNodes_two hi
      obtain ⟨cs, rfl, h3⟩ := injNode_act l hx
      obtain ⟨x1, x2, x3, rfl, hx1, hx2, hx3⟩ := injNodes_three h3
      obtain ⟨ds, rfl, h4⟩ := injNode_act l hy
      obtain ⟨y1, y2, rfl, hy1, hy2⟩ := injNodes_two h4
      rw [show x1 = txt "OBJECT" from injNode_val l hx1, injNode_val l hx2, injNode_cur l hx3, injNode_val l hy1, injNode_cur l hy2]
      exact givesL_congr (givesL_cons (expectEntries_at hat hf "OBJECT" _).gives (givesL_one (onlyEntries_at hat hf _))) (keysTest es _)

/-! ### Arrays -/

theorem givesL_map {C : ECtx} {s : Stack} {A : Type} (f : A → Node) (v : A → Prop) : ∀ l : List A, (∀ x ∈ l, Gives C s (f x) (v x)) →
    GivesL C s (l.map f) (∀ x ∈ l, v x)
  | [], _ => givesL_congr givesL_nil ⟨fun _ x h => (by cases h), fun _ => trivial⟩
  | x :: xs, h => by
    refine givesL_congr (givesL_cons (h x (List.mem_cons_self ..)) (givesL_map f v xs (fun y hy => h y (List.mem_cons_of_mem _ hy)))) ?_
    simp

theorem listLen_count (x : Option Json) : (ofOpt x).listLen = count x := by
  cases x with
  | none => rfl
  | some j => cases j <;> rfl

theorem count_lim (hf : Fits a) : count (getAt segs a) ≤ usizeLim := by
  cases hg : getAt segs a with
  | none => exact (by decide : 1 ≤ usizeLim)
  | some j =>
    cases j with
    | arr l => exact hf segs l hg
    | _ => exact (by decide : 1 ≤ usizeLim)

theorem getAt_item (i : Nat) : getAt (segs ++ [.idx i]) a = item i (getAt segs a) := by
  rw [getAt_append]
  cases getAt segs a with
  | none => rfl
  | some j =>
    cases j with
    | arr l =>
      simp only [Option.bind_some, getAt, item]
      cases l[i]? <;> rfl
    | _ => rfl

theorem getAt_entry (k : Str) : getAt (segs ++ [.key k]) a = entry k (getAt segs a) := by
  rw [getAt_append]
  cases getAt segs a with
  | none => rfl
  | some j =>
    cases j with
    | obj es =>
      simp only [Option.bind_some, getAt, entry]
      cases Json.lookup k es <;> rfl
    | _ => rfl

theorem forEach_at (hat : At ctx p l segs) (hf : Fits a) (hd : isDefined ctx p = true) {lb : Str} {ns : List Node}
    (hlab : Labelled (cont lb ns)) (v : Nat → Prop)
    (hv : ∀ i < count (getAt segs a), ∀ ns', injNodes C.P.uc (l ++ [i]) ns = .ok ns' →
      GivesL C (some (.value (.json a)) :: s0) ns' (v i))
    {n' : Node} (hi : injNode C.P.uc l (act .forEach [cur p, cont lb ns]) = .ok n') :
    Gives C (some (.value (.json a)) :: s0) n' (∀ i < count (getAt segs a), v i) := by
  obtain ⟨cs, rfl, h3⟩ := injNode_act l hi
  obtain ⟨x, y, rfl, hx, hy⟩ := injNodes_two h3
  rw [injNode_cur l hx]
  have hly := labelled_injNode l hat.lim hlab hy
  obtain ⟨f, hu, hh, hinj⟩ := unroll_ok C.P.uc y hly (count (getAt segs a)) 0 (by have := count_lim (segs := segs) hf; omega)
  have hbody : GivesL C (some (.value (.json a)) :: s0) ((List.range' 0 (count (getAt segs a))).map f)
      (∀ i ∈ List.range' 0 (count (getAt segs a)), v i) := by
    apply givesL_map
    intro i hir
    have hlt : i < count (getAt segs a) := by
      have := (List.mem_range'_1.mp hir).2; omega
    have h1 := injNode_snoc C.P.uc l i hy (hinj i (by omega) (by omega))
    obtain ⟨lb', cs', e, h2⟩ := injNode_cont (l ++ [i]) h1
    rw [e]
    exact gives_container lb' (hv i hlt cs' h2)
  obtain ⟨body', hb1, hb2⟩ := hbody
  have hiff : (∀ i ∈ List.range' 0 (count (getAt segs a)), v i) ↔ ∀ i < count (getAt segs a), v i := by
    constructor
    · intro h i hlt; exact h i (List.mem_range'_1.mpr ⟨by omega, by omega⟩)
    · intro h i hm; exact h i (by have := (List.mem_range'_1.mp hm).2; omega)
  refine ⟨_, runs_forEach (cur_at hat hf) rfl ?_ hh hb1, done_congr ?_ hiff⟩
  · show unroll C.P.uc [y] 0 (ofOpt (getAt segs a)).listLen = _
    rw [listLen_count]
    exact hu
  · exact done_combined rfl [_] (fun c hc => by rw [List.mem_singleton.mp hc]; exact clean_leaf) hb2

theorem scalar_at (hs : RulesSafe C.P ctx) (hat : At ctx p l segs) (hf : Fits a) {e : Json} (hr : C.P.parseStr e.text = some e)
    {ns ns' : List Node} (h : scalarNodes ctx p e = .ok ns) (hi : injNodes C.P.uc l ns = .ok ns') :
    GivesL C (some (.value (.json a)) :: s0) ns'
      (if isDefined ctx p then RulesAccept C.P ctx p false e (getAt segs a) else (getAt segs a).getD .null = e) := by
  rw [scalarNodes] at h
  split at h
  · rename_i hd
    rw [if_pos hd]
    obtain ⟨n, h1, rfl⟩ := map_ok h
    obtain ⟨x, y, rfl, hx, hy⟩ := injNodes_two hi
    rw [injNode_ann l hx]
    exact givesL_congr (givesL_cons gives_ann (givesL_one (rules_at hs hat hf h1 hy))) ⟨fun h => h.2, fun h => ⟨trivial, h⟩⟩
  · rename_i hd
    rw [if_neg hd]
    cases h
    obtain ⟨x, rfl, hx⟩ := injNodes_one hi
    rw [inj_equalJson hx]
    exact givesL_one (equal_at hat hf hr).gives

theorem accepts_scalar {P : EP} {e : Json} (hs : scalar e = true) (x : Option Json) : Accepts P ctx p e x ↔
    if isDefined ctx p then RulesAccept P ctx p false e x else x.getD .null = e := by
  cases e with
  | arr l => cases hs
  | obj l => cases hs
  | _ => rw [Accepts] <;> (intros; rename_i hh; cases hh)

end

mutual
/-- Executing the nodes for a value agrees with the specification. -/
theorem json_at {C : ECtx} {s0 : Stack} {ctx : Ctx} {a : Json} (hs : RulesSafe C.P ctx) (hf : Fits a) (e : Json) (p : DocPath)
    (l : List Nat) (segs : List Seg) (ns ns' : List Node) (hn : Nice C.P e) (hat : At ctx p l segs)
    (h : jsonNodes ctx p e = .ok ns) (hi : injNodes C.P.uc l ns = .ok ns') :
    GivesL C (some (.value (.json a)) :: s0) ns' (Accepts C.P ctx p e (getAt segs a)) := by
  match e with
  | .arr items =>
    have hna := nice_arr hn
    rw [jsonNodes_arr] at h
    rw [Accepts]
    split at h
    · rename_i hd
      rw [if_pos hd]
      obtain ⟨n, h1, h2⟩ := bind_ok h
      obtain ⟨ms, h3, rfl⟩ := map_ok h2
      obtain ⟨x, r, rfl, hx, hr⟩ := injNodes_cons l hi
      obtain ⟨y, z, rfl, hy, hz⟩ := injNodes_cons l hr
      rw [injNode_ann l hx]
      have ht := template_at (s0 := s0) hs hf items p l segs ms z hna.2 hat hd h3 hz
      exact givesL_congr (givesL_cons gives_ann (givesL_cons (rules_at hs hat hf h1 hy) ht)) ⟨fun h => h.2, fun h => ⟨trivial, h⟩⟩
    · rename_i hd
      rw [if_neg hd]
      have hl : l = [] := by
        rcases hat.defd with h | h
        · exact h
        · exact absurd h hd
      subst hl
      split at h
      · cases h
        cases hi
        refine givesL_congr (givesL_one (expectEmpty_at hat hf "ARRAY").gives) ?_
        rw [emptyTest_array, ItemsAccept]
        exact ⟨fun h => ⟨h, trivial⟩, fun h => h.1⟩
      · obtain ⟨ms, h3, rfl⟩ := map_ok h
        cases hi
        have hit := items_at (s0 := s0) hs hf items p segs 0 ms (by omega) hna.2 hat h3
        exact givesL_congr (givesL_cons (matchLength_at hat hf "ARRAY" _).gives hit)
          (and_congr (lengthTest_array _ _) Iff.rfl)
  | .obj es =>
    rw [jsonNodes] at h
    rw [Accepts]
    obtain ⟨n, h1, h2⟩ := bind_ok h
    obtain ⟨ms, h3, rfl⟩ := map_ok h2
    obtain ⟨x, y, rfl, hx, hy⟩ := injNodes_append l hi
    exact givesL_append (object_at hs hat hf h1 hx) (entries_at hs hf es p l segs ms y (nice_obj hn) hat h3 hy)
  | .null =>
    rw [jsonNodes_scalar rfl] at h
    exact givesL_congr (scalar_at hs hat hf (nice_scalar hn rfl) h hi) (accepts_scalar rfl _).symm
  | .bool b =>
    rw [jsonNodes_scalar rfl] at h
    exact givesL_congr (scalar_at hs hat hf (nice_scalar hn rfl) h hi) (accepts_scalar rfl _).symm
  | .num n =>
    rw [jsonNodes_scalar rfl] at h
    exact givesL_congr (scalar_at hs hat hf (nice_scalar hn rfl) h hi) (accepts_scalar rfl _).symm
  | .str s =>
    rw [jsonNodes_scalar rfl] at h
    exact givesL_congr (scalar_at hs hat hf (nice_scalar hn rfl) h hi) (accepts_scalar rfl _).symm
termination_by structural e
theorem template_at {C : ECtx} {s0 : Stack} {ctx : Ctx} {a : Json} (hs : RulesSafe C.P ctx) (hf : Fits a) (items : List Json)
    (p : DocPath) (l : List Nat) (segs : List Seg) (ns ns' : List Node) (hn : NiceL C.P items) (hat : At ctx p l segs)
    (hd : isDefined ctx p = true) (h : templateNodes ctx p items = .ok ns) (hi : injNodes C.P.uc l ns = .ok ns') :
    GivesL C (some (.value (.json a)) :: s0) ns' (TemplateAccepts C.P ctx p items (getAt segs a)) := by
  match items with
  | [] =>
    rw [templateNodes] at h
    cases h
    rw [injNodes_nil l hi, TemplateAccepts]
    exact givesL_nil
  | t :: ts =>
    have hlab := labelled_template (t :: ts) p ns hn hat.ok h
    rw [NiceL] at hn
    rw [templateNodes] at h
    rw [TemplateAccepts]
    obtain ⟨ms, h1, rfl⟩ := map_ok h
    have hlc : Labelled (cont (pushStarIndex p).expr ms) := by
      simp only [LabelledL, act, Node.new, Labelled] at hlab
      rw [cont, Node.new, Labelled]
      exact hlab.1.2.2.1
    obtain ⟨n', rfl, hn'⟩ := injNodes_one hi
    apply givesL_one
    refine forEach_at hat hf hd hlc _ ?_ hn'
    intro i hlt ns2 h2
    have hil : i < usizeLim := Nat.lt_of_lt_of_le hlt (count_lim (segs := segs) hf)
    have hat2 := at_star hat hil hd
    split at h1
    · rename_i hsc
      rw [if_pos hsc, ← getAt_item]
      exact item_at hs hat2 hf (nice_scalar hn.1 hsc) h1 h2
    · rename_i hsc
      rw [if_neg hsc, ← getAt_item]
      exact json_at hs hf t (pushStarIndex p) (l ++ [i]) (segs ++ [.idx i]) ms ns2 hn.1 hat2 h1 h2
termination_by structural items
theorem items_at {C : ECtx} {s0 : Stack} {ctx : Ctx} {a : Json} (hs : RulesSafe C.P ctx) (hf : Fits a) (items : List Json)
    (p : DocPath) (segs : List Seg) (i : Nat) (ns : List Node) (hil : i + items.length ≤ usizeLim) (hn : NiceL C.P items)
    (hat : At ctx p [] segs) (h : itemsNodes ctx p i items = .ok ns) :
    GivesL C (some (.value (.json a)) :: s0) ns (ItemsAccept C.P ctx p i items (getAt segs a)) := by
  match items with
  | [] =>
    rw [itemsNodes] at h
    cases h
    rw [ItemsAccept]
    exact givesL_nil
  | e :: es =>
    rw [NiceL] at hn
    rw [itemsNodes] at h
    simp only [List.length_cons] at hil
    rw [ItemsAccept]
    obtain ⟨ms, h1, h2⟩ := bind_ok h
    obtain ⟨qs, h3, rfl⟩ := map_ok h2
    refine givesL_append ?_ (items_at hs hf es p segs (i + 1) qs (by omega) hn.2 hat h3)
    split at h1
    · rename_i hsc
      obtain ⟨rs, h4, rfl⟩ := map_ok h1
      apply givesL_one
      apply gives_container
      refine givesL_congr (item_at hs (at_index hat (by omega)) hf (nice_scalar hn.1 hsc) h4 rfl) ?_
      rw [← getAt_item]
      exact ⟨fun h _ => h, fun h => h hsc⟩
    · rename_i hsc
      obtain ⟨rs, h4, rfl⟩ := map_ok h1
      exact givesL_congr givesL_nil ⟨fun _ h => absurd h hsc, fun _ => trivial⟩
termination_by structural items
theorem entries_at {C : ECtx} {s0 : Stack} {ctx : Ctx} {a : Json} (hs : RulesSafe C.P ctx) (hf : Fits a) (es : List (Str × Json))
    (p : DocPath) (l : List Nat) (segs : List Seg) (ns ns' : List Node) (hn : NiceE C.P es) (hat : At ctx p l segs)
    (h : entriesNodes ctx p es = .ok ns) (hi : injNodes C.P.uc l ns = .ok ns') :
    GivesL C (some (.value (.json a)) :: s0) ns' (EntriesAccept C.P ctx p es (getAt segs a)) := by
  match es with
  | [] =>
    rw [entriesNodes] at h
    cases h
    rw [injNodes_nil l hi, EntriesAccept]
    exact givesL_nil
  | e :: es =>
    rw [NiceE] at hn
    rw [entriesNodes] at h
    rw [EntriesAccept]
    obtain ⟨n, h1, h2⟩ := bind_ok h
    obtain ⟨ms, h3, rfl⟩ := map_ok h2
    obtain ⟨x, y, rfl, hx, hy⟩ := injNodes_cons l hi
    exact givesL_cons (entry_at hs hf e p l segs n x hn.1 hat h1 hx) (entries_at hs hf es p l segs ms y hn.2 hat h3 hy)
termination_by structural es
theorem entry_at {C : ECtx} {s0 : Stack} {ctx : Ctx} {a : Json} (hs : RulesSafe C.P ctx) (hf : Fits a) (e : Str × Json)
    (p : DocPath) (l : List Nat) (segs : List Seg) (n n' : Node) (hn : NiceP C.P e) (hat : At ctx p l segs)
    (h : entryNode ctx p e = .ok n) (hi : injNode C.P.uc l n = .ok n') :
    Gives C (some (.value (.json a)) :: s0) n' (EntryAccepts C.P ctx p e (getAt segs a)) := by
  match e with
  | (k, v) =>
    rw [NiceP] at hn
    rw [entryNode] at h
    rw [EntryAccepts, ← getAt_entry]
    obtain ⟨ms, h1, rfl⟩ := map_ok h
    obtain ⟨lb, cs, rfl, h2⟩ := injNode_cont l hi
    exact gives_container lb (json_at hs hf v (pushField p k) l (segs ++ [.key k]) ms cs hn.2 (at_field hat hn.1) h1 h2)
termination_by structural e
end

end EngineWalk
end Verif
