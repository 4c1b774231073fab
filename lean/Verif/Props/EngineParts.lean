import Verif.Props.EngineJson
import Verif.Props.HeaderProps
import Verif.Props.RuleJsonProps

/-
  Executing the plans for the method, the path, the query parameters and the headers of a request.
-/
set_option autoImplicit false

namespace Verif
namespace EngineWalk
open Path Rules Matchers Compare Query Headers MatchResult Engine JsonUtils EngineSpec
open BodyGeneratorProps (Seg getAt)

/-- A node that is not a container and has an error of its own when it fails. -/
def Flat (C : ECtx) (s : Stack) (n : Node) (v : Prop) : Prop :=
  ∃ n', Runs C s n n' ∧ Done n' v ∧ (¬ v → ∃ m, n'.result = some (.error m)) ∧ n'.isContainer = false

theorem Checks.flat {C : ECtx} {s : Stack} {n : Node} {v : Prop} (h : Checks C s n v) : Flat C s n v := by
  obtain ⟨n', h1, h2, _, h4, h5⟩ := h
  exact ⟨n', h1, h2, h4, h5⟩

theorem Flat.gives {C : ECtx} {s : Stack} {n : Node} {v : Prop} (h : Flat C s n v) : Gives C s n v := by
  obtain ⟨n', h1, h2, _⟩ := h
  exact ⟨n', h1, h2⟩

theorem checks_congr {C : ECtx} {s : Stack} {n : Node} {v w : Prop} (h : Checks C s n v) (e : v ↔ w) : Checks C s n w := by
  obtain ⟨n', h1, h2, h3, h4, h5⟩ := h
  exact ⟨n', h1, done_congr h2 e, fun hw => h3 (e.mpr hw), fun hw => h4 (fun hv => hw (e.mp hv)), h5⟩

/-- Equality of two values that are there. -/
theorem checks_equal {C : ECtx} {s : Stack} {E E' A A' : Node} {e a : NodeValue}
    (hE : Runs C s E E') (hEr : E'.res = .value e) (hEc : nodeErrors true E' = [])
    (hA : Runs C s A A') (hAr : A'.res = .value a) (hAc : nodeErrors true A' = []) :
    Checks C s (equal E A) (e.matches_ C.P a .equality = true) := by
  have hm := checks_match (name := "equality".toList) (ps := .null) hE hEr hEc hA hAr (fun hh => by cases hh) (fun _ => hAc) rfl
    (by rw [show NodeValue.asJsonD .null = Json.null from rfl, create_equality]; intro hh; cases hh)
  refine checks_congr hm ⟨?_, ?_⟩
  · rintro ⟨v, rule, hv, h1, h2⟩
    rw [show NodeValue.asJsonD .null = Json.null from rfl, create_equality] at h1
    cases h1
    injection hv with hv
    subst hv
    exact h2
  · intro h
    exact ⟨_, .equality, rfl, create_equality _, h⟩

/-! ### The message of `expect:entries` -/

theorem evalAll_texts (rec : Rec) (k : Nat) (s : Stack) : ∀ d : List Str,
    evalAll (evalItem rec (k + 1)) (d.map fun x => Node.mk (.action .apply) (some (.value (.str x))) []) s = .ok [] (d.map .str) s
  | [] => rfl
  | x :: xs => by
    rw [List.map_cons, evalAll]
    have h : evalItem rec (k + 1) (Node.mk (.action .apply) (some (.value (.str x))) []) s = .ok [] [.str x] s := rfl
    rw [h]
    simp only []
    rw [evalAll_texts rec k s xs]
    rfl

theorem runs_apply {C : ECtx} {s : Stack} {v : Option NodeResult} :
    Runs C (v :: s) (act .apply []) (.mk (.action .apply) v []) := by
  apply runs_of_step
  intro f _
  rfl

/-- The splat over the names. -/
def splatNode (d : List Str) : Node :=
  .mk .splat (some .ok) (d.map fun x => Node.mk (.action .apply) (some (.value (.str x))) [])

theorem runs_splat {C : ECtx} {s : Stack} {d : List Str} :
    Runs C (some (.value (.slist d)) :: s) (.new .splat [act .apply []]) (splatNode d) := by
  apply runs_of_step
  intro f hf
  simp only [heights_cons, heights_nil] at hf
  show (match walkAll (walkF C f) [act .apply []] _ with
    | .ok cs s1 => finish (.new .splat [act .apply []]) .ok (cs.flatMap splatItems) s1
    | .err m s1 => .err m s1
    | .panic => .panic) = _
  rw [walkAll, runs_apply f (by omega)]
  simp only [walkAll, Out.map]
  show finish _ NodeResult.ok ((d.map fun x => Node.mk (.action .apply) (some (.value (.str x))) []) ++ []) _ = _
  rw [List.append_nil]
  rfl

theorem runs_joinWith {C : ECtx} {s : Stack} {d : List Str} {sep : String} : ∃ n',
    Runs C (some (.value (.slist d)) :: s) (act .joinWith [txt sep, .new .splat [act .apply []]]) n' ∧ n'.isSplat = false ∧
      ∃ v, n'.res = .value v := by
  refine ⟨.mk (.action .joinWith) (some (.value (.str (joinText true ((NodeValue.str sep.toList :: d.map .str).flatMap (joinTexts C.P))))))
    [.mk (.value (.str sep.toList)) (some (.value (.str sep.toList))) [], splatNode d], ?_, rfl, ⟨_, rfl⟩⟩
  apply runs_of_step
  intro f hf
  have hh : height (Node.new .splat [act .apply []]) = 2 := by decide
  simp only [heights_cons, heights_nil, hh] at hf
  cases f with
  | zero => omega
  | succ f =>
    cases f with
    | zero => omega
    | succ f =>
      show overValues (walkF C (f + 2)) (f + 2) (act .joinWith [txt sep, .new .splat [act .apply []]]) _ _ = _
      rw [overValues]
      have h1 : evalItem (walkF C (f + 2)) (f + 2) (txt sep) (some (.value (.slist d)) :: s) =
          .ok [.mk (.value (.str sep.toList)) (some (.value (.str sep.toList))) []] [.str sep.toList] (some (.value (.slist d)) :: s) := by
        rw [evalItem]
        simp only [show (txt sep).result = none from rfl]
        rw [txt, runs_val (v := .str sep.toList) (w := .str sep.toList) rfl (f + 2) (by show height (val (.str sep.toList)) ≤ _; rw [val, Node.new, height_mk, heights_nil]; omega)]
        rfl
      have h2 : evalItem (walkF C (f + 2)) (f + 2) (.new .splat [act .apply []]) (some (.value (.slist d)) :: s) =
          .ok [splatNode d] (d.map .str) (some (.value (.slist d)) :: s) := by
        rw [evalItem]
        simp only [show (Node.new .splat [act .apply []]).result = none from rfl]
        rw [runs_splat (f + 2) (by rw [hh]; omega)]
        show (match evalAll (evalItem (walkF C (f + 2)) (f + 1)) (d.map fun x => Node.mk (.action .apply) (some (.value (.str x))) []) (some (.value (.slist d)) :: s) with
          | .ok cs vs s2 => EOut.ok (splatNode d :: cs) vs s2
          | .fail m cs s2 => .fail m (splatNode d :: cs) s2
          | .panic => .panic) = _
        rw [evalAll_texts]
      have h3 : evalAll (evalItem (walkF C (f + 2)) (f + 2)) (act .joinWith [txt sep, .new .splat [act .apply []]]).children
          (some (.value (.slist d)) :: s) = .ok [.mk (.value (.str sep.toList)) (some (.value (.str sep.toList))) [], splatNode d]
            (.str sep.toList :: d.map .str) (some (.value (.slist d)) :: s) := by
        show evalAll (evalItem (walkF C (f + 2)) (f + 2)) [txt sep, .new .splat [act .apply []]] _ = _
        rw [evalAll, h1]
        simp only [evalAll, h2, List.append_nil]
        rfl
      rw [h3]
      rfl

theorem runs_message {C : ECtx} {s : Stack} {d : List Str} (m : String) :
    ∃ n', Runs C (some (.value (.slist d)) :: s) (namesMessage m) n' := by
  obtain ⟨n', h1, h2, v, h3⟩ := runs_joinWith (C := C) (s := s) (d := d) (sep := ", ")
  refine ⟨_, runs_values (a := .join) (cs' := [.mk (.value (.str m.toList)) (some (.value (.str m.toList))) [], n'])
    (vs := [.str m.toList, v]) (F := fun vs => .value (.str (joinText false (vs.flatMap (joinTexts C.P)))))
    (.cons (runs_val rfl) (.cons h1 .nil)) ?_ ?_ ?_ (fun _ _ => rfl)⟩
  · intro c hc
    simp only [List.mem_cons, List.not_mem_nil, or_false] at hc
    rcases hc with rfl | rfl <;> rfl
  · intro c hc
    simp only [List.mem_cons, List.not_mem_nil, or_false] at hc
    rcases hc with rfl | rfl
    · rfl
    · exact h2
  · simp only [List.map_cons, List.map_nil, h3]
    rfl

theorem fresh_message (m : String) : Fresh (namesMessage m) :=
  fresh_new _ _ (freshL_cons (fresh_leaf _) (freshL_cons (fresh_new _ _ (freshL_cons (fresh_leaf _)
    (freshL_cons (fresh_new _ _ (freshL_cons (fresh_leaf _) freshL_nil)) freshL_nil))) freshL_nil))

/-- `expect:entries` and `expect:only-entries` with a message. -/
theorem flat_entries {C : ECtx} {s : Stack} {only : Bool} {E E' A A' : Node} {ks names : List Str} {w : NodeValue} (m : String)
    (hE : Runs C s E E') (hEr : E'.res = .value (.slist ks)) (hEc : nodeErrors true E' = [])
    (hA : Runs C s A A') (hAr : A'.res = .value w) (hAc : nodeErrors true A' = []) (hw : entryNames w = some names) :
    Flat C s (act (if only then .expectOnlyEntries else .expectEntries) [E, A, namesMessage m]) (diff only ks names = []) := by
  have hstep : ∀ f, heights [E, A, namesMessage m] ≤ f →
      step C (walkF C f) f (act (if only then .expectOnlyEntries else .expectEntries) [E, A, namesMessage m]) s =
      (match diff only ks names with
      | [] => finish (act (if only then .expectOnlyEntries else .expectEntries) [E, A, namesMessage m]) .ok [E', A', namesMessage m] s
      | d => withMessage C (walkF C f) (act (if only then .expectOnlyEntries else .expectEntries) [E, A, namesMessage m]) [E', A']
          (some (namesMessage m)) .said (some (.value (.slist d)) :: s) List.tail) := by
    intro f hf
    simp only [heights_cons, heights_nil] at hf
    have h0 : step C (walkF C f) f (act (if only then .expectOnlyEntries else .expectEntries) [E, A, namesMessage m]) s =
        execCheckEntries C (walkF C f) only (act (if only then .expectOnlyEntries else .expectEntries) [E, A, namesMessage m]) s := by
      cases only <;> rfl
    rw [h0, execCheckEntries]
    show arg (walkF C f) _ E s _ = _
    rw [arg, hE f (by omega)]
    simp only []
    rw [arg, hA f (by omega)]
    simp only []
    rw [hAr]
    simp only [NodeResult.asValue, Option.getD_some, hw, hEr, expectedNames]
    cases diff only ks names <;> rfl
  cases hd : diff only ks names with
  | nil =>
    refine ⟨.mk (.action (if only then .expectOnlyEntries else .expectEntries)) (some .ok) [E', A', namesMessage m], ?_,
      ⟨by cases only <;> rfl, fun _ => ?_, fun h => absurd rfl h⟩, fun h => absurd rfl h, by cases only <;> rfl⟩
    · apply runs_of_step
      intro f hf
      show step C (walkF C f) f (act (if only then .expectOnlyEntries else .expectEntries) [E, A, namesMessage m]) s = _
      rw [hstep f hf, hd]
      rfl
    · rw [nodeErrors_all, childErrors_cons, childErrors_cons, childErrors_cons, childErrors_nil, hEc, hAc,
        fresh_clean _ (fresh_message m)]
      rfl
  | cons x xs =>
    obtain ⟨n', hn⟩ := runs_message (C := C) (s := s) (d := x :: xs) m
    refine ⟨.mk (.action (if only then .expectOnlyEntries else .expectEntries)) (some (.error (.text ((n'.res.asString C.P).getD []))))
      [E', A', n'], ?_, ⟨by cases only <;> rfl, fun h => (by cases h), fun _ => ⟨reported_own, .inl ⟨_, rfl⟩⟩⟩, fun _ => ⟨_, rfl⟩,
      by cases only <;> rfl⟩
    apply runs_of_step
    intro f hf
    show step C (walkF C f) f (act (if only then .expectOnlyEntries else .expectEntries) [E, A, namesMessage m]) s = _
    rw [hstep f hf, hd]
    simp only [withMessage]
    simp only [heights_cons, heights_nil] at hf
    rw [hn f (by omega)]
    rfl

/-! ### Resolving values -/

/-- Executing a plan against a request. -/
def reqCtx (B : BP) (a : Request) : ECtx := ⟨B.P, resolveRequest B.P.uc B.be a⟩

theorem join_name (p : DocPath) {k : Str} (h : NameOk k) : join p k = pushField p k := by
  rw [join, if_neg h.1, if_neg h.2.1, h.2.2]

theorem resolve_method (B : BP) (a : Request) : (reqCtx B a).resolve (partPath "method") = .ok (.str a.method) := rfl
theorem resolve_path (B : BP) (a : Request) : (reqCtx B a).resolve (partPath "path") = .ok (.str a.path) := rfl
theorem resolve_query (B : BP) (a : Request) : (reqCtx B a).resolve (partPath "query") = .ok (.mmap (actualQuery a)) := rfl
theorem resolve_headers (B : BP) (a : Request) : (reqCtx B a).resolve (partPath "headers") = .ok (.mmap (actualHeaders B.P.uc a)) := rfl

theorem resolve_query_name (B : BP) (a : Request) {k : Str} (h : NameOk k) :
    (reqCtx B a).resolve (join (partPath "query") k) = .ok (namedValue (actualQuery a) k) := by
  rw [join_name _ h]; rfl

theorem resolve_header_name (B : BP) (a : Request) {k : Str} (h : NameOk k) :
    (reqCtx B a).resolve (join (partPath "headers") k) = .ok (namedValue (actualHeaders B.P.uc a) (B.P.uc.lower k)) := by
  rw [join_name _ h]; rfl

theorem resolve_header_index (B : BP) (a : Request) {k : Str} (h : NameOk k) (i : Nat) :
    (reqCtx B a).resolve (joinIndex (join (partPath "headers") k) i) = headerAt (actualHeaders B.P.uc a) (B.P.uc.lower k) i := by
  rw [join_name _ h]; rfl

theorem clean_action {ac : Action} {v : NodeValue} {cs : List Node} (h : ∀ c ∈ cs, nodeErrors true c = []) :
    nodeErrors true (.mk (.action ac) (some (.value v)) cs) = [] := by
  rw [nodeErrors_all, (childErrors_empty true cs).mpr h]; rfl

theorem clean_one {n : Node} (h : nodeErrors true n = []) : ∀ c ∈ [n], nodeErrors true c = [] := by
  intro c hc
  rw [List.mem_singleton.mp hc]
  exact h

/-- A change of a value. -/
theorem runs_change {C : ECtx} {s : Stack} {ac : Action} {c c' : Node} {v : NodeValue} {F : List NodeValue → NodeResult}
    (hc : Runs C s c c') (hr : c.result = none) (hs : c'.isSplat = false) (hv : c'.res = .value v)
    (ha : ∀ rec f, execAction C rec f (act ac [c]) s ac = overValues rec f (act ac [c]) s F) :
    Runs C s (act ac [c]) (.mk (.action ac) (some (F [v])) [c']) := by
  refine runs_values (cs' := [c']) (vs := [v]) (.cons hc .nil) ?_ ?_ (by simp only [List.map_cons, List.map_nil, hv]) ha
  · intro d hd; rw [List.mem_singleton.mp hd]; exact hr
  · intro d hd; rw [List.mem_singleton.mp hd]; exact hs

/-! ### Method and path -/

theorem checks_method (B : BP) (e a : Request) (s : Stack) : Checks (reqCtx B a) s
    (equal (val (.str (B.P.upper e.method))) (act .upperCase [rsv (partPath "method")])) (B.P.upper a.method = B.P.upper e.method) := by
  have hA := runs_change (C := reqCtx B a) (s := s) (ac := .upperCase) (runs_rsv (resolve_method B a)) rfl rfl rfl
    (F := fun vs => .value (single (vs.map (changeCase B.P.upper)))) (fun rec f => rfl)
  refine checks_congr (checks_equal (e := .str (B.P.upper e.method)) (a := .str (B.P.upper a.method)) (runs_val rfl) rfl clean_leaf hA rfl
    (clean_action (clean_one clean_leaf))) ?_
  show decide (B.P.upper e.method = B.P.upper a.method) = true ↔ _
  rw [decide_eq_true_eq]
  exact eq_comm

theorem gives_path (B : BP) (ctx : Ctx) (e a : Request) (s : Stack) (hs : RulesSafe B.P ctx) {n : Node} (h : pathPlan ctx e = .ok n) :
    ∃ cs, n = cont "path".toList cs ∧ cs ≠ [] ∧ GivesL (reqCtx B a) s cs (PathAccepts B.P ctx e a) := by
  have hA := runs_rsv (C := reqCtx B a) (s := s) (resolve_path B a)
  have hE := runs_val (C := reqCtx B a) (s := s) (v := .str e.path) (w := .str e.path) rfl
  rw [pathPlan] at h
  split at h
  · rename_i hd
    obtain ⟨m, h1, rfl⟩ := map_ok h
    refine ⟨_, rfl, by simp, ?_⟩
    have hg := gives_rules h1 hE rfl clean_leaf hA rfl (fun hh => by cases hh) (fun _ => clean_leaf) (fun r hr => hs _ false r hr)
    refine givesL_congr (givesL_cons gives_ann (givesL_one hg)) ?_
    rw [PathAccepts, if_pos hd]
    constructor
    · rintro ⟨_, hall⟩ r hr
      obtain ⟨v, rule, hv, h2, h3⟩ := hall r hr
      injection hv with hv
      subst hv
      exact ⟨rule, h2, h3⟩
    · intro hall
      refine ⟨trivial, fun r hr => ?_⟩
      obtain ⟨rule, h2, h3⟩ := hall r hr
      exact ⟨_, rule, rfl, h2, h3⟩
  · rename_i hd
    cases h
    refine ⟨_, rfl, by simp, ?_⟩
    refine givesL_congr (givesL_cons gives_ann (givesL_one (checks_equal (e := .str e.path) (a := .str a.path) hE rfl clean_leaf hA rfl clean_leaf).gives)) ?_
    rw [PathAccepts, if_neg hd]
    show True ∧ decide (e.path = a.path) = true ↔ _
    rw [decide_eq_true_eq]
    exact ⟨fun h => h.2.symm, fun h => ⟨trivial, h.symm⟩⟩

/-! ### Query parameters -/

theorem matches_oneOrList (P : EP) (rule : MatchingRule) (vs as : List Str) :
    (oneOrList vs).matches_ P (oneOrList as) rule = valuesMatch P rule vs as := by
  cases vs with
  | nil =>
    cases as with
    | nil => rfl
    | cons t as => cases as <;> rfl
  | cons v vs =>
    cases vs with
    | nil =>
      cases as with
      | nil => rfl
      | cons t as =>
        cases as with
        | nil =>
          show strMatches P.env v t rule false = (strMatches P.env v t rule false && true)
          rw [Bool.and_true]
        | cons u as => rfl
    | cons w vs =>
      cases as with
      | nil => rfl
      | cons t as => cases as <;> rfl

theorem listEqStr_iff (l m : List Str) : listEqStr l m = true ↔ m = l := by
  simp only [listEqStr, decide_eq_true_eq]
  exact eq_comm

theorem valuesMatch_equality (P : EP) (vs as : List Str) : valuesMatch P .equality vs as = true ↔ SameValues vs as := by
  cases vs with
  | nil => exact listEqStr_iff [] as
  | cons v vs =>
    cases vs with
    | nil =>
      simp only [valuesMatch, SameValues, List.all_eq_true, strMatches, decide_eq_true_eq]
      exact ⟨fun h t ht => (h t ht).symm, fun h t ht => (h t ht).symm⟩
    | cons w vs => exact listEqStr_iff _ as

theorem nodeValue_oneOrList (P : EP) (vs : List Str) : nodeValue P (oneOrList vs) = some (oneOrList vs) := by
  cases vs with
  | nil => rfl
  | cons v vs => cases vs <;> rfl

theorem runs_exists {C : ECtx} {s : Stack} {q : DocPath} {m : List (Str × List Str)} {k : Str} (h : C.resolve q = .ok (namedValue m k)) :
    Runs C s (act .checkExists [rsv q]) (.mk (.action .checkExists) (some (.value (.bool (Json.lookup k m).isSome)))
      [.mk (.resolve q) (some (.value (namedValue m k))) []]) := by
  refine runs_args1 (runs_rsv h) (fun rec f => rfl) ?_
  show finish _ (.value (.bool (exists_ (.value (namedValue m k))))) _ _ = _
  have : exists_ (.value (namedValue m k)) = (Json.lookup k m).isSome := by
    rw [namedValue]
    cases Json.lookup k m with
    | none => rfl
    | some vs =>
      cases vs with
      | nil => rfl
      | cons v vs => cases vs <;> rfl
  rw [this]
  rfl

theorem entryCheck_fresh {ctx : Ctx} {p : DocPath} {k : Str} {vs : List Str} {n : Node} (h : entryCheck ctx p k vs = .ok n) : Fresh n := by
  rw [entryCheck] at h
  split at h
  · exact fresh_rules h (fresh_leaf _) (fresh_leaf _)
  · cases h
    exact fresh_new _ _ (freshL_cons (fresh_leaf _) (freshL_cons (fresh_leaf _) (freshL_cons (fresh_leaf _) freshL_nil)))

theorem gives_entry {C : ECtx} {s : Stack} {ctx : Ctx} {p : DocPath} {k : Str} {vs as : List Str} {n : Node}
    (hs : RulesSafe C.P ctx) (h : entryCheck ctx p k vs = .ok n) (hr : C.resolve (join p k) = .ok (oneOrList as)) :
    Gives C s n (ValuesAccept C.P ctx k vs as) := by
  have hA := runs_rsv (C := C) (s := s) hr
  have hE := runs_val (C := C) (s := s) (nodeValue_oneOrList C.P vs)
  rw [entryCheck] at h
  split at h
  · rename_i hd
    have hg := gives_rules h hE rfl clean_leaf hA rfl (fun hh => by cases hh) (fun _ => clean_leaf) (fun r hr => hs _ true r hr)
    refine gives_congr hg ?_
    rw [ValuesAccept, if_pos hd]
    constructor
    · intro hall r hr
      obtain ⟨v, rule, hv, h2, h3⟩ := hall r hr
      injection hv with hv
      subst hv
      rw [matches_oneOrList] at h3
      exact ⟨rule, h2, h3⟩
    · intro hall r hr
      obtain ⟨rule, h2, h3⟩ := hall r hr
      rw [← matches_oneOrList] at h3
      exact ⟨_, rule, rfl, h2, h3⟩
  · rename_i hd
    cases h
    refine gives_congr (checks_equal hE rfl clean_leaf hA rfl clean_leaf).gives ?_
    rw [ValuesAccept, if_neg hd, matches_oneOrList]
    exact valuesMatch_equality C.P vs as

/-- The checks of a parameter that is there; without it the first check is not executed. -/
theorem gives_ifExists {C : ECtx} {s : Stack} {q : DocPath} {m : List (Str × List Str)} {k : Str} {n : Node} {v : List Str → Prop}
    (h : C.resolve q = .ok (namedValue m k)) (hf : Fresh n) (hg : ∀ as, Json.lookup k m = some as → Gives C s n (v as)) :
    Gives C s (act .iff [act .checkExists [rsv q], n]) (∀ as, Json.lookup k m = some as → v as) := by
  have hx := runs_exists (s := s) h
  have hxc : nodeErrors true (.mk (.action .checkExists) (some (.value (.bool (Json.lookup k m).isSome)))
      [.mk (.resolve q) (some (.value (namedValue m k))) []]) = [] := clean_action (clean_one clean_leaf)
  cases hl : Json.lookup k m with
  | none =>
    rw [hl] at hx hxc
    refine ⟨_, runs_if_false hx rfl, rfl, fun _ => ?_, fun hn => ?_⟩
    · rw [nodeErrors_all, childErrors_cons, childErrors_cons, childErrors_nil, hxc, fresh_clean n hf]
      rfl
    · exact absurd (fun as ha => by cases ha) hn
  | some as =>
    rw [hl] at hx hxc
    refine gives_congr (gives_if hx hxc (hg as hl) hf freshL_nil (.inr rfl)) ?_
    constructor
    · intro hv bs hb
      cases hb
      exact hv rfl
    · intro hv _
      exact hv as rfl

theorem gives_queryItem (B : BP) (ctx : Ctx) (a : Request) (s : Stack) (hs : RulesSafe B.P ctx) {kv : Str × List (Option Str)}
    (hk : NameOk kv.1) {n : Node} (h : queryItem ctx kv = .ok n) :
    ∃ cs, n = cont kv.1 cs ∧ GivesL (reqCtx B a) s cs
      (∀ as, Json.lookup kv.1 (actualQuery a) = some as → ValuesAccept B.P ctx kv.1 (texts kv.2) as) := by
  rw [queryItem] at h
  obtain ⟨m, h1, rfl⟩ := map_ok h
  refine ⟨_, rfl, ?_⟩
  have hr := resolve_query_name B a hk
  refine givesL_congr (givesL_cons gives_ann (givesL_one (gives_ifExists hr (entryCheck_fresh h1)
    (v := ValuesAccept B.P ctx kv.1 (texts kv.2)) ?_))) ⟨fun h => h.2, fun h => ⟨trivial, h⟩⟩
  intro as hl
  refine gives_entry (C := reqCtx B a) hs h1 ?_
  rw [hr, namedValue, hl]

/-! ### Mismatches of query parameters and headers -/

theorem doneL_iff {ns : List Node} {v : Prop} (h : DoneL ns v) : (∀ n ∈ ns, nodeErrors true n = []) ↔ v := by
  constructor
  · intro hall
    apply Classical.byContradiction
    intro hv
    obtain ⟨n, hn, hr, _⟩ := h.rep hv
    have hc := clean_not_reported n (hall n hn)
    rcases hr with hr | ⟨g, hg, hne⟩
    · exact hr hc.1
    · exact hne (hc.2 g hg)
  · exact h.clean

theorem done_iff {n : Node} {v : Prop} (h : Done n v) : nodeErrors true n = [] ↔ v := by
  constructor
  · intro hn
    apply Classical.byContradiction
    intro hv
    have hc := clean_not_reported n hn
    rcases (h.rep hv).1 with hr | ⟨g, hg, hne⟩
    · exact hr hc.1
    · exact hne (hc.2 g hg)
  · exact h.clean

/-- The label of a container. -/
def labelOf (n : Node) : Option Str :=
  match n.kind with
  | .container l => some l
  | _ => none

theorem addMismatches_container {acc : List (Str × List Msg)} {c : Node} {l : Str} (h : labelOf c = some l) :
    addMismatches acc c = insertKV l (errors c) acc := by
  rw [addMismatches]
  cases hk : c.kind <;> rw [labelOf, hk] at h <;> cases h
  rfl

theorem addMismatches_other {acc : List (Str × List Msg)} {c : Node} (h : labelOf c = none) :
    addMismatches acc c = if (errors c).isEmpty then acc
    else insertKV [] (match Json.lookup [] acc with | some l => l ++ errors c | none => []) acc := by
  rw [addMismatches]
  cases hk : c.kind <;> rw [labelOf, hk] at h <;> first | rfl | cases h

/-- All the lists are empty. -/
def AllEmpty (m : List (Str × List Msg)) : Prop := ∀ kv ∈ m, kv.2 = []

theorem allEmpty_iff (m : List (Str × List Msg)) : m.all (fun kv => kv.2.isEmpty) = true ↔ AllEmpty m := by
  rw [List.all_eq_true]
  constructor
  · intro h kv hkv
    exact List.isEmpty_iff.mp (h kv hkv)
  · intro h kv hkv
    rw [h kv hkv]
    rfl

theorem allEmpty_insert {m : List (Str × List Msg)} (h : AllEmpty m) (k : Str) : AllEmpty (insertKV k [] m) := by
  induction m with
  | nil =>
    intro kv hkv
    rw [insertKV, List.mem_singleton] at hkv
    rw [hkv]
  | cons e es ih =>
    intro kv hkv
    rw [insertKV] at hkv
    split at hkv
    · rcases List.mem_cons.mp hkv with rfl | hkv
      · rfl
      · exact h kv (List.mem_cons_of_mem _ hkv)
    · rcases List.mem_cons.mp hkv with rfl | hkv
      · exact h _ (List.mem_cons_self ..)
      · exact ih (fun x hx => h x (List.mem_cons_of_mem _ hx)) kv hkv

theorem fold_clean : ∀ (cs : List Node) (acc : List (Str × List Msg)), AllEmpty acc → (∀ c ∈ cs, nodeErrors true c = []) →
    AllEmpty (cs.foldl addMismatches acc)
  | [], _, h, _ => h
  | c :: cs, acc, h, hc => by
    have hce := (errors_empty_iff c).mp (hc c (List.mem_cons_self ..))
    refine fold_clean cs _ ?_ (fun d hd => hc d (List.mem_cons_of_mem _ hd))
    cases hl : labelOf c with
    | some l => rw [addMismatches_container hl, hce]; exact allEmpty_insert h l
    | none => rw [addMismatches_other hl, hce]; exact h

/-- Something is reported under a label. -/
def Under (l : Str) (acc : List (Str × List Msg)) : Prop := ∃ x, x ≠ [] ∧ Json.lookup l acc = some x

theorem under_not_empty {l : Str} {acc : List (Str × List Msg)} (h : Under l acc) : ¬ AllEmpty acc := by
  obtain ⟨x, hx, hl⟩ := h
  intro he
  have : ∀ m : List (Str × List Msg), Json.lookup l m = some x → ∃ kv ∈ m, kv.2 = x := by
    intro m
    induction m with
    | nil => intro hh; cases hh
    | cons e es ih =>
      intro hh
      rw [Json.lookup] at hh
      split at hh
      · exact ⟨e, List.mem_cons_self .., by cases hh; rfl⟩
      · obtain ⟨kv, h1, h2⟩ := ih hh
        exact ⟨kv, List.mem_cons_of_mem _ h1, h2⟩
  obtain ⟨kv, h1, h2⟩ := this acc hl
  exact hx (h2 ▸ he kv h1)

theorem fold_under (l : Str) : ∀ (cs : List Node) (acc : List (Str × List Msg)), Under l acc →
    (∀ c ∈ cs, labelOf c ≠ some l) → Under l (cs.foldl addMismatches acc)
  | [], _, h, _ => h
  | c :: cs, acc, h, hc => by
    refine fold_under l cs _ ?_ (fun d hd => hc d (List.mem_cons_of_mem _ hd))
    have hcl := hc c (List.mem_cons_self ..)
    obtain ⟨x, hx, hl⟩ := h
    cases hlb : labelOf c with
    | some l' =>
      rw [addMismatches_container hlb]
      refine ⟨x, hx, ?_⟩
      rw [HeaderProps.lookup_insertKV, if_neg ?_]
      · exact hl
      · intro hh; rw [hlb, hh] at hcl; exact hcl rfl
    | none =>
      rw [addMismatches_other hlb]
      split
      · exact ⟨x, hx, hl⟩
      · rename_i hne
        rw [Under]
        rw [HeaderProps.lookup_insertKV]
        split
        · rename_i he
          subst he
          rw [hl]
          exact ⟨_, by simp [hx], rfl⟩
        · exact ⟨x, hx, hl⟩

/-- The mismatches of the query parameters and headers are all empty when no child has errors. -/
theorem entryMismatches_iff (k : NodeKind) (r : Option NodeResult) (cs : List Node) (hl : (cs.filterMap labelOf).Nodup)
    (hf : ∀ c ∈ cs, labelOf c = none → nodeErrors true c ≠ [] → nodeErrors false c ≠ []) :
    (entryMismatches (.mk k r cs)).all (fun kv => kv.2.isEmpty) = true ↔ ∀ c ∈ cs, nodeErrors true c = [] := by
  rw [allEmpty_iff]
  have hm : entryMismatches (.mk k r cs) = if (childErrors false cs).isEmpty then cs.foldl addMismatches []
      else insertKV [] (childErrors false cs) (cs.foldl addMismatches []) := rfl
  rw [hm]
  constructor
  · intro he c hc
    apply Classical.byContradiction
    intro hn
    cases hce : (childErrors false cs).isEmpty with
    | false =>
      rw [hce] at he
      simp only [Bool.false_eq_true, if_false] at he
      refine under_not_empty (l := []) ⟨childErrors false cs, ?_, ?_⟩ he
      · intro hh; rw [hh] at hce; cases hce
      · rw [HeaderProps.lookup_insertKV, if_pos rfl]
    | true =>
      rw [hce] at he
      simp only [if_true] at he
      have hce' := (childErrors_empty false cs).mp (List.isEmpty_iff.mp hce)
      cases hlb : labelOf c with
      | none => exact hf c hc hlb hn (hce' c hc)
      | some l =>
        obtain ⟨pre, post, rfl⟩ := List.append_of_mem hc
        rw [List.foldl_append, List.foldl_cons] at he
        refine under_not_empty (fold_under l post _ ⟨errors c, ?_, ?_⟩ ?_) he
        · intro hh; exact hn ((errors_empty_iff c).mpr hh)
        · rw [addMismatches_container hlb, HeaderProps.lookup_insertKV, if_pos rfl]
        · intro d hd hh
          rw [List.filterMap_append, List.filterMap_cons, hlb] at hl
          have := (List.nodup_append.mp hl).2.1
          simp only [List.nodup_cons, List.mem_filterMap] at this
          exact this.1 ⟨d, hd, hh⟩
  · intro hc
    have hce : childErrors false cs = [] := (childErrors_empty false cs).mpr (fun c hcc => (clean_not_reported c (hc c hcc)).1)
    rw [hce]
    exact fold_clean cs [] (fun kv hkv => by cases hkv) hc

/-- The items of a part that are containers with labels. -/
theorem items_run {C : ECtx} {s : Stack} {A : Type} (f : A → Res Node) (key : A → Str) (v : A → Prop) :
    ∀ (es : List A) (ns : List Node), itemNodes f es = .ok ns →
    (∀ x ∈ es, ∀ n, f x = .ok n → ∃ cs, n = cont (key x) cs ∧ GivesL C s cs (v x)) →
    ∃ ns', RunsL C s ns ns' ∧ DoneL ns' (∀ x ∈ es, v x) ∧ ns'.filterMap labelOf = es.map key ∧ ∀ n ∈ ns', labelOf n ≠ none
  | [], ns, h, _ => by
    cases h
    exact ⟨[], .nil, doneL_congr doneL_nil ⟨fun _ x hx => (by cases hx), fun _ => trivial⟩, rfl, fun n hn => (by cases hn)⟩
  | x :: xs, ns, h, hg => by
    rw [itemNodes] at h
    obtain ⟨n, h1, h2⟩ := bind_ok h
    obtain ⟨ms, h3, rfl⟩ := map_ok h2
    obtain ⟨cs, rfl, cs', hr, hd⟩ := hg x (List.mem_cons_self ..) n h1
    obtain ⟨ms', hm1, hm2, hm3, hm4⟩ := items_run f key v xs ms h3 (fun y hy => hg y (List.mem_cons_of_mem _ hy))
    refine ⟨_, .cons (runs_container (key x) hr hd.plain) hm1,
      doneL_congr (doneL_cons (done_combined (k := .container (key x)) rfl [] (fun c hc => by cases hc) hd) hm2) ?_, ?_, ?_⟩
    · simp only [List.mem_cons, forall_eq_or_imp]
    · rw [List.filterMap_cons]
      show key x :: ms'.filterMap labelOf = _
      rw [hm3]
      rfl
    · intro m hm
      rcases List.mem_cons.mp hm with rfl | hm
      · intro hh; cases hh
      · exact hm4 m hm

theorem flat_not_container {n : Node} (h : n.isContainer = false) : labelOf n = none := by
  cases n with
  | mk k r cs => cases k <;> first | rfl | cases h

theorem flat_reported {n : Node} {v : Prop} (hd : Done n v) (he : ¬ v → ∃ m, n.result = some (.error m)) (hc : n.isContainer = false)
    (hne : nodeErrors true n ≠ []) : nodeErrors false n ≠ [] := by
  have hv : ¬ v := fun h => hne (hd.clean h)
  obtain ⟨m, hm⟩ := he hv
  cases n with
  | mk k r cs =>
    simp only [Node.result] at hm
    subst hm
    rw [nodeErrors_mk]
    rw [show (Node.mk k (some (NodeResult.error m)) []).isContainer = false from hc]
    simp [ownError]

/-- A part made of containers with labels and of checks. -/
theorem part_entries {C : ECtx} {s : Stack} (l : Str) {items fs items' : List Node} {ks : List Str} {v w : Prop}
    (hi : RunsL C s items items') (hd : DoneL items' v) (hl : items'.filterMap labelOf = ks) (hc : ∀ n ∈ items', labelOf n ≠ none)
    (hn : ks.Nodup)
    (hf : ∃ fs', RunsL C s fs fs' ∧ DoneL fs' w ∧ ∀ n ∈ fs', labelOf n = none ∧ (nodeErrors true n ≠ [] → nodeErrors false n ≠ [])) :
    ∃ r cs', Runs C s (cont l (items ++ fs)) (.mk (.container l) r cs') ∧
      ((entryMismatches (.mk (.container l) r cs')).all (fun kv => kv.2.isEmpty) = true ↔ (v ∧ w)) := by
  obtain ⟨fs', h1, h2, h3⟩ := hf
  have hdd := doneL_append hd h2
  refine ⟨_, _, runs_container l (runsL_append hi h1) hdd.plain, ?_⟩
  rw [entryMismatches_iff, doneL_iff hdd]
  · rw [List.filterMap_append, hl]
    have : fs'.filterMap labelOf = [] := by
      rw [List.filterMap_eq_nil_iff]
      intro n hn'
      exact (h3 n hn').1
    rw [this, List.append_nil]
    exact hn
  · intro c hcm hlb
    rcases List.mem_append.mp hcm with hcm | hcm
    · exact absurd hlb (hc c hcm)
    · exact (h3 c hcm).2

theorem flats_one {C : ECtx} {s : Stack} {n : Node} {v : Prop} (h : Flat C s n v) :
    ∃ fs', RunsL C s [n] fs' ∧ DoneL fs' v ∧ ∀ m ∈ fs', labelOf m = none ∧ (nodeErrors true m ≠ [] → nodeErrors false m ≠ []) := by
  obtain ⟨n', h1, h2, h3, h4⟩ := h
  refine ⟨[n'], .cons h1 .nil, doneL_congr (doneL_cons h2 doneL_nil) ⟨fun h => h.1, fun h => ⟨h, trivial⟩⟩, ?_⟩
  intro m hm
  rw [List.mem_singleton.mp hm]
  exact ⟨flat_not_container h4, flat_reported h2 h3 h4⟩

theorem flats_two {C : ECtx} {s : Stack} {n m : Node} {v w : Prop} (h : Flat C s n v) (g : Flat C s m w) :
    ∃ fs', RunsL C s [n, m] fs' ∧ DoneL fs' (v ∧ w) ∧ ∀ x ∈ fs', labelOf x = none ∧ (nodeErrors true x ≠ [] → nodeErrors false x ≠ []) := by
  obtain ⟨n', h1, h2, h3⟩ := flats_one h
  obtain ⟨m', g1, g2, g3⟩ := flats_one g
  refine ⟨n' ++ m', runsL_append h1 g1, doneL_append h2 g2, ?_⟩
  intro x hx
  rcases List.mem_append.mp hx with hx | hx
  · exact h3 x hx
  · exact g3 x hx

theorem diff_missing (ks names : List Str) : diff false ks names = [] ↔ ∀ k ∈ ks, k ∈ names := by
  simp only [diff, Bool.false_eq_true, if_false, List.filter_eq_nil_iff]
  constructor
  · intro h k hk
    have := h k hk
    simpa using this
  · intro h k hk
    simpa using h k hk

theorem diff_extra (ks names : List Str) : diff true ks names = [] ↔ ∀ k ∈ names, k ∈ ks := by
  simp only [diff, if_true, List.filter_eq_nil_iff]
  constructor
  · intro h k hk
    have := h k hk
    simpa using this
  · intro h k hk
    simpa using h k hk

theorem mem_keys_iff {V : Type} (k : Str) (m : List (Str × V)) : k ∈ Json.keys m ↔ ∃ v, Json.lookup k m = some v := by
  constructor
  · intro h
    cases hl : Json.lookup k m with
    | some v => exact ⟨v, rfl⟩
    | none =>
      exfalso
      induction m with
      | nil => cases h
      | cons e es ih =>
        rw [Json.lookup] at hl
        split at hl
        · cases hl
        · rename_i hne
          rcases List.mem_cons.mp h with h | h
          · exact hne h.symm
          · exact ih h hl
  · rintro ⟨v, h⟩
    exact List.mem_map.mpr ⟨(k, v), Json.lookup_mem h, rfl⟩

theorem mem_keys_collect {V : Type} (k : Str) (m : List (Str × V)) : k ∈ Json.keys (OMap.collect m) ↔ k ∈ Json.keys m := by
  constructor
  · intro h
    obtain ⟨e, he, rfl⟩ := List.mem_map.mp h
    exact List.mem_map.mpr ⟨e, RuleJsonProps.mem_collect m e he, rfl⟩
  · intro h
    rw [mem_keys_iff] at h ⊢
    rw [OMap.collect, (OMap.foldl_insert m [] trivial).2 k]
    obtain ⟨v, hv⟩ := h
    cases hr : Json.lookup k m.reverse with
    | some w => exact ⟨w, rfl⟩
    | none =>
      have hm : k ∈ Json.keys m.reverse := by
        rw [Json.keys, List.map_reverse, List.mem_reverse]
        exact List.mem_map.mpr ⟨(k, v), Json.lookup_mem hv, rfl⟩
      obtain ⟨w, hw⟩ := (mem_keys_iff k m.reverse).mp hm
      rw [hr] at hw
      cases hw

theorem collect_nodup {V : Type} (m : List (Str × V)) : (Json.keys (OMap.collect m)).Nodup := (OMap.collect_sorted m).nodup

/-- `expect:empty` on the query parameters. -/
theorem flat_noQuery (B : BP) (a : Request) (s : Stack) : Flat (reqCtx B a) s noQuery (actualQuery a = []) := by
  have hA := runs_rsv (C := reqCtx B a) (s := s) (resolve_query B a)
  obtain ⟨m', hm⟩ : ∃ m', Runs (reqCtx B a) s (act .join [txt "Expected no query parameters but got ", rsv (partPath "query")]) m' :=
    ⟨_, runs_values (a := .join) (cs' := [.mk (.value (.str "Expected no query parameters but got ".toList)) (some (.value (.str "Expected no query parameters but got ".toList))) [],
      .mk (.resolve (partPath "query")) (some (.value (.mmap (actualQuery a)))) []])
    (vs := [.str "Expected no query parameters but got ".toList, .mmap (actualQuery a)])
    (F := fun vs => .value (.str (joinText false (vs.flatMap (joinTexts B.P)))))
    (.cons (runs_val rfl) (.cons hA .nil)) (by
      intro c hc
      simp only [List.mem_cons, List.not_mem_nil, or_false] at hc
      rcases hc with rfl | rfl <;> rfl) (by
      intro c hc
      simp only [List.mem_cons, List.not_mem_nil, or_false] at hc
      rcases hc with rfl | rfl <;> rfl) rfl (fun _ _ => rfl)⟩
  cases hq : actualQuery a with
  | nil =>
    rw [hq] at hA
    refine ⟨.mk (.action .expectEmpty) (some (.value (.bool true)))
      [.mk (.resolve (partPath "query")) (some (.value (.mmap []))) [], act .join [txt "Expected no query parameters but got ", rsv (partPath "query")]],
      ?_, ⟨rfl, fun _ => ?_, fun h => absurd rfl h⟩, fun h => absurd rfl h, rfl⟩
    · apply runs_of_step
      intro f hf
      simp only [heights_cons, heights_nil] at hf
      show execExpectEmpty (reqCtx B a) (walkF (reqCtx B a) f) noQuery s = _
      rw [execExpectEmpty]
      show arg (walkF (reqCtx B a) f) noQuery (rsv (partPath "query")) s _ = _
      rw [arg, hA f (by omega)]
      rfl
    · apply clean_action
      intro c hc
      simp only [List.mem_cons, List.not_mem_nil, or_false] at hc
      rcases hc with rfl | rfl
      · exact clean_leaf
      · exact fresh_clean _ (fresh_new _ _ (freshL_cons (fresh_leaf _) (freshL_cons (fresh_leaf _) freshL_nil)))
  | cons x xs =>
    refine ⟨.mk (.action .expectEmpty) (some (.error (.text ((m'.res.asString B.P).getD []))))
        [.mk (.resolve (partPath "query")) (some (.value (.mmap (x :: xs)))) [], m'], runs_of_step ?_,
      ⟨rfl, fun h => (by cases h), fun _ => ⟨reported_own, .inl ⟨_, rfl⟩⟩⟩, fun _ => ⟨_, rfl⟩, rfl⟩
    · intro f hf
      simp only [heights_cons, heights_nil] at hf
      show execExpectEmpty (reqCtx B a) (walkF (reqCtx B a) f) noQuery s = _
      rw [execExpectEmpty]
      show arg (walkF (reqCtx B a) f) noQuery (rsv (partPath "query")) s _ = _
      rw [arg, hA f (by omega), hq]
      show withMessage (reqCtx B a) (walkF (reqCtx B a) f) noQuery _ (some (act .join [txt "Expected no query parameters but got ", rsv (partPath "query")])) .said s id = _
      rw [withMessage]
      rw [hm f (by omega)]
      rfl

/-- The plan for the query parameters. -/
theorem query_part (B : BP) (ctx : Ctx) (e a : Request) (s : Stack) (hs : RulesSafe B.P ctx)
    (hk : ∀ k ∈ Json.keys (e.query.getD []), NameOk k) {n : Node} (h : queryPlan ctx e = .ok n) :
    n.children ≠ [] ∧ ∃ r cs', Runs (reqCtx B a) s n (.mk (.container "query parameters".toList) r cs') ∧
      ((entryMismatches (.mk (.container "query parameters".toList) r cs')).all (fun kv => kv.2.isEmpty) = true ↔ QueryAccepts B.P ctx e a) := by
  have hempty : e.query.getD [] = [] → n = cont "query parameters".toList [noQuery] →
      n.children ≠ [] ∧ ∃ r cs', Runs (reqCtx B a) s n (.mk (.container "query parameters".toList) r cs') ∧
      ((entryMismatches (.mk (.container "query parameters".toList) r cs')).all (fun kv => kv.2.isEmpty) = true ↔ QueryAccepts B.P ctx e a) := by
    rintro he rfl
    refine ⟨List.cons_ne_nil _ _, ?_⟩
    obtain ⟨r, cs', h1, h2⟩ := part_entries (C := reqCtx B a) (s := s) "query parameters".toList .nil doneL_nil rfl
      (fun n hn => by cases hn) List.nodup_nil (flats_one (flat_noQuery B a s))
    refine ⟨r, cs', h1, h2.trans ?_⟩
    rw [QueryAccepts, he]
    constructor
    · rintro ⟨_, hq⟩
      rw [hq]
      exact ⟨fun k => Iff.rfl, fun k vs as hm => (by cases hm)⟩
    · rintro ⟨hq, _⟩
      refine ⟨trivial, ?_⟩
      cases haq : actualQuery a with
      | nil => rfl
      | cons x xs =>
        rw [haq] at hq
        have := (hq x.1).mp (List.mem_cons_self ..)
        cases this
  rw [queryPlan] at h
  cases hq : e.query with
  | none =>
    rw [hq] at h
    cases h
    exact hempty (by rw [hq]; rfl) rfl
  | some q =>
    rw [hq] at h
    simp only [] at h
    split at h
    · rename_i hqe
      cases h
      refine hempty (by rw [hq]; exact List.isEmpty_iff.mp hqe) rfl
    · obtain ⟨items, h1, rfl⟩ := map_ok h
      refine ⟨?_, ?_⟩
      · show items ++ _ ≠ []
        simp
      have hkq : ∀ k ∈ Json.keys q, NameOk k := by rw [hq] at hk; exact hk
      obtain ⟨items', hi1, hi2, hi3, hi4⟩ := items_run (C := reqCtx B a) (s := s) (queryItem ctx) (·.1)
        (fun kv => ∀ as, Json.lookup kv.1 (actualQuery a) = some as → ValuesAccept B.P ctx kv.1 (texts kv.2) as) _ _ h1
        (fun x hx n hn => gives_queryItem B ctx a s hs (hkq x.1 ((mem_keys_collect x.1 q).mp (List.mem_map.mpr ⟨x, hx, rfl⟩))) hn)
      have hE := runs_val (C := reqCtx B a) (s := s) (v := .slist (Json.keys (OMap.collect q))) (w := .slist (Json.keys (OMap.collect q))) rfl
      have hA := runs_rsv (C := reqCtx B a) (s := s) (resolve_query B a)
      have f1 := flat_entries (C := reqCtx B a) (s := s) (only := false) "The following expected query parameters were missing: "
        hE rfl clean_leaf hA rfl clean_leaf rfl
      have f2 := flat_entries (C := reqCtx B a) (s := s) (only := true) "The following query parameters were not expected: "
        hE rfl clean_leaf hA rfl clean_leaf rfl
      obtain ⟨r, cs', h2, h3⟩ := part_entries (C := reqCtx B a) (s := s) "query parameters".toList hi1 hi2 hi3 hi4
        (collect_nodup q) (flats_two f1 f2)
      refine ⟨r, cs', h2, h3.trans ?_⟩
      rw [QueryAccepts, hq, diff_missing, diff_extra]
      simp only [Option.getD_some, mem_keys_collect]
      constructor
      · rintro ⟨hv, hm, he⟩
        exact ⟨fun k => ⟨he k, hm k⟩, fun k vs as hmem hl => hv (k, vs) hmem as hl⟩
      · rintro ⟨hkk, hv⟩
        exact ⟨fun kv hmem as hl => hv kv.1 kv.2 as hmem hl, fun k hk => (hkk k).mpr hk, fun k hk => (hkk k).mp hk⟩

/-! ### Headers -/

theorem gives_tee {C : ECtx} {s : Stack} {c c' : Node} {cs : List Node} {v : Prop} (hc : Runs C s c c') (he : c'.res.isErr = false)
    (hcl : nodeErrors true c' = []) (h : GivesL C (c'.result :: s) cs v) : Gives C s (act .tee (c :: cs)) v := by
  obtain ⟨cs', h1, h2⟩ := h
  exact ⟨_, runs_tee hc he h1, done_combined (k := .action .tee) rfl [c'] (clean_one hcl) h2⟩

theorem charset_nodup (uc : UC) (ps : List Str) : ((parseCharsetParameters uc ps).map (·.1)).Nodup := by
  have : ∀ (ps : List Str) (m : List (Str × Str)), (m.map (·.1)).Nodup → ((ps.foldl (charsetStep uc) m).map (·.1)).Nodup := by
    intro ps
    induction ps with
    | nil => intro m h; exact h
    | cons p ps ih =>
      intro m h
      apply ih
      rw [charsetStep]
      split
      · exact (HeaderProps.insertKV_nodup _ _ m h).1
      · exact h
  exact this ps [] List.nodup_nil

theorem collect_two (k l : Str) (h : Json.strLt l k = false) (h2 : k ≠ l) (X Y : Json) : OMap.collect [(k, X), (l, Y)] = [(k, X), (l, Y)] := by
  simp only [OMap.collect, List.foldl_cons, List.foldl_nil, OMap.insert, h, Bool.false_eq_true, if_false, if_neg h2]

theorem getAt_first (k l : Str) (X Y : Json) (r : List Seg) : getAt (.key k :: r) (.obj [(k, X), (l, Y)]) = getAt r X := by
  simp only [getAt, Json.lookup, if_true, Option.bind_some]

theorem getAt_second (k l : Str) (h : k ≠ l) (X Y : Json) (r : List Seg) : getAt (.key l :: r) (.obj [(k, X), (l, Y)]) = getAt r Y := by
  simp only [getAt, Json.lookup, if_neg h, if_true, Option.bind_some]

theorem getAt_neither (k l m : Str) (h : m ≠ k) (h2 : m ≠ l) (X Y : Json) (r : List Seg) : getAt (.key m :: r) (.obj [(k, X), (l, Y)]) = none := by
  simp only [getAt, Json.lookup, if_neg (Ne.symm h), if_neg (Ne.symm h2), Option.bind_none]

theorem names_differ : "parameters".toList ≠ "value".toList := by decide

/-- The parts of a parsed header. -/
theorem headerJson_eq (uc : UC) (t : Str) : headerJson uc t = .obj
    [("parameters".toList, .obj (OMap.collect ((parseCharsetParameters uc (stripWhitespace uc t).tail).map fun kv => (kv.1, Json.str kv.2)))),
      ("value".toList, .str ((stripWhitespace uc t).headD []))] :=
  congrArg Json.obj (collect_two "parameters".toList "value".toList (by decide) names_differ _ _)

theorem header_value (uc : UC) (t : Str) : getAt [.key "value".toList] (headerJson uc t) = some (.str ((stripWhitespace uc t).headD [])) := by
  rw [headerJson_eq, getAt_second _ _ names_differ]
  rfl

theorem lookup_params (uc : UC) (t k : Str) :
    Json.lookup k (OMap.collect ((parseCharsetParameters uc (stripWhitespace uc t).tail).map fun kv => (kv.1, Json.str kv.2))) =
      (Json.lookup k (parseCharsetParameters uc (stripWhitespace uc t).tail)).map Json.str := by
  rw [OMap.lookup_collect _ (by rw [List.map_map]; exact charset_nodup uc _), OMap.lookup_mapVals (fun _ x => Json.str x)]

theorem header_param (uc : UC) (t k : Str) : getAt [.key "parameters".toList, .key k] (headerJson uc t) =
    (Json.lookup k (parseCharsetParameters uc (stripWhitespace uc t).tail)).map Json.str := by
  rw [headerJson_eq, getAt_first, getAt, lookup_params]
  cases Json.lookup k (parseCharsetParameters uc (stripWhitespace uc t).tail) <;> rfl

theorem header_fits (uc : UC) (t : Str) : Fits (headerJson uc t) := by
  intro loc l h
  exfalso
  rw [headerJson_eq] at h
  have hstr : ∀ (loc : List Seg) (x : Str), getAt loc (.str x) ≠ some (.arr l) := by
    intro loc x hh
    cases loc with
    | nil => cases hh
    | cons y ys => cases y <;> cases hh
  cases loc with
  | nil => cases h
  | cons y ys =>
    cases y with
    | idx i => cases h
    | key k =>
      by_cases h1 : k = "parameters".toList
      · rw [h1, getAt_first] at h
        cases ys with
        | nil => cases h
        | cons z zs =>
          cases z with
          | idx i => cases h
          | key k2 =>
            rw [getAt, lookup_params] at h
            cases hl : Json.lookup k2 (parseCharsetParameters uc (stripWhitespace uc t).tail) with
            | none => rw [hl] at h; cases h
            | some x => rw [hl] at h; exact hstr zs x h
      · by_cases h2 : k = "value".toList
        · rw [h2, getAt_second _ _ names_differ] at h
          exact hstr ys _ h
        · rw [getAt_neither _ _ _ h1 h2] at h
          cases h

/-- A value of the parsed header. -/
theorem cur_header {C : ECtx} {s : Stack} (uc : UC) (t : Str) (segs : List Seg) (p : DocPath) (hp : p.tokens = .root :: segs.map segTok)
    (hok : ∀ x ∈ segs, StepOk x) : Runs C (some (.value (.json (headerJson uc t))) :: s) (cur p)
      (.mk (.resolveCurrent p) (some (.value (ofOpt (getAt segs (headerJson uc t))))) []) := by
  have h := runs_cur (C := C) (s := some (.value (.json (headerJson uc t))) :: s) p
  rw [curResult_eq segs _ p s hp hok (header_fits uc t)] at h
  exact h

theorem stepOk_field (l : Str) (h : l = "parameters".toList ∨ l = "value".toList) : StepOk (.key l) := by
  rcases h with rfl | rfl
  · exact ⟨by decide, by decide, by decide⟩
  · exact ⟨by decide, by decide, by decide⟩

theorem gives_error {C : ECtx} {s : Stack} (t : Str) : Gives C s (act .error [val (.str t)]) False := by
  refine ⟨_, runs_change (ac := .error) (runs_val (v := .str t) (w := .str t) rfl) rfl rfl rfl
    (F := fun vs => .error (.text (vs.flatMap (joinTexts C.P)).flatten)) (fun _ _ => rfl), rfl, fun h => h.elim,
    fun _ => ⟨reported_own, .inl ⟨_, rfl⟩⟩⟩

theorem gives_parameter (B : BP) (a : Request) (s : Stack) (t k x : Str) (hn : NameOk k) (hk : k ≠ [] ∧ '/' ∉ k ∧ '~' ∉ k) :
    Gives (reqCtx B a) (some (.value (.json (headerJson B.P.uc t))) :: s) (parameterNode B.P.uc (k, x))
      (∃ y, Json.lookup k (parseCharsetParameters B.P.uc (stripWhitespace B.P.uc t).tail) = some y ∧ B.P.uc.lower y = B.P.uc.lower x) := by
  have hcur := cur_header (C := reqCtx B a) (s := s) B.P.uc t [.key "parameters".toList, .key k] (join (namePath "parameters") k)
    (by rw [join_name _ hn]; rfl) (by
      intro y hy
      simp only [List.mem_cons, List.not_mem_nil, or_false] at hy
      rcases hy with rfl | rfl
      · exact stepOk_field _ (.inl rfl)
      · exact hk)
  rw [header_param] at hcur
  rw [parameterNode]
  apply gives_container
  apply givesL_one
  have hx : ∀ o : Option Str, Json.lookup k (parseCharsetParameters B.P.uc (stripWhitespace B.P.uc t).tail) = o →
      Runs (reqCtx B a) (some (.value (.json (headerJson B.P.uc t))) :: s) (act .checkExists [cur (join (namePath "parameters") k)])
        (.mk (.action .checkExists) (some (.value (.bool o.isSome)))
          [.mk (.resolveCurrent (join (namePath "parameters") k)) (some (.value (ofOpt (o.map Json.str)))) []]) := by
    intro o ho
    rw [ho] at hcur
    refine runs_args1 hcur (fun rec f => rfl) ?_
    cases o <;> rfl
  cases hl : Json.lookup k (parseCharsetParameters B.P.uc (stripWhitespace B.P.uc t).tail) with
  | none =>
    refine gives_congr (gives_else (hx none hl) rfl (clean_action (clean_one clean_leaf)) ?_ (gives_error _)) ?_
    · exact fresh_new _ _ (freshL_cons (fresh_leaf _) (freshL_cons (fresh_new _ _ (freshL_cons (fresh_leaf _) freshL_nil)) (freshL_cons (fresh_leaf _) freshL_nil)))
    · exact ⟨fun h => h.elim, fun ⟨y, hy, _⟩ => (by cases hy)⟩
  | some y =>
    rw [hl] at hcur
    have hA := runs_change (C := reqCtx B a) (ac := .lowerCase) hcur rfl rfl rfl
      (F := fun vs => .value (single (vs.map (changeCase B.P.uc.lower)))) (fun rec f => rfl)
    have heq := (checks_equal (C := reqCtx B a) (e := .str (B.P.uc.lower x)) (a := .str (B.P.uc.lower y)) (runs_val (v := .str (B.P.uc.lower x)) (w := .str (B.P.uc.lower x)) rfl) rfl clean_leaf hA rfl
      (clean_action (clean_one clean_leaf))).gives
    refine gives_congr (gives_if (hx (some y) hl) (clean_action (clean_one clean_leaf)) heq ?_ ?_ (.inr rfl)) ?_
    · exact fresh_new _ _ (freshL_cons (fresh_leaf _) (freshL_cons (fresh_new _ _ (freshL_cons (fresh_leaf _) freshL_nil)) (freshL_cons (fresh_leaf _) freshL_nil)))
    · exact freshL_cons (fresh_new _ _ (freshL_cons (fresh_leaf _) freshL_nil)) freshL_nil
    · show (true = true → decide (B.P.uc.lower x = B.P.uc.lower y) = true) ↔ _
      rw [decide_eq_true_eq]
      constructor
      · intro h; exact ⟨y, rfl, (h rfl).symm⟩
      · rintro ⟨z, hz, hh⟩ _
        cases hz
        exact hh.symm

theorem gives_parameterised (B : BP) (a : Request) (s : Stack) {p : DocPath} {w : NodeValue} {v t : Str} (hr : (reqCtx B a).resolve p = .ok w)
    (hw : ((NodeResult.value w).asString B.P).getD [] = t) (hp : ParamNames B.P v) :
    Gives (reqCtx B a) s (parameterisedPlan B.P.uc p v) (ParametersAccept B.P v t) := by
  have hc : Runs (reqCtx B a) s (act .headerParse [rsv p]) (.mk (.action .headerParse) (some (.value (.json (headerJson B.P.uc t))))
      [.mk (.resolve p) (some (.value w)) []]) := by
    refine runs_args1 (runs_rsv hr) (fun rec f => rfl) ?_
    show finish _ (.value (.json (headerJson B.P.uc (((NodeResult.value w).asString B.P).getD [])))) _ _ = _
    rw [hw]
    rfl
  rw [parameterisedPlan]
  have hv := cur_header (C := reqCtx B a) (s := s) B.P.uc t [.key "value".toList] (namePath "value") rfl (by
      intro y hy
      rw [List.mem_singleton.mp hy]
      exact stepOk_field _ (.inr rfl))
  rw [header_value] at hv
  have hA := runs_change (C := reqCtx B a) (ac := .toStr) hv rfl rfl rfl
    (F := fun vs => .value (single (vs.map (toStr B.P)))) (fun rec f => rfl)
  have heq := (checks_equal (C := reqCtx B a) (e := .str ((stripWhitespace B.P.uc v).headD [])) (a := .str ((stripWhitespace B.P.uc t).headD []))
    (runs_val (v := .str ((stripWhitespace B.P.uc v).headD [])) (w := .str ((stripWhitespace B.P.uc v).headD [])) rfl) rfl clean_leaf hA rfl (clean_action (clean_one clean_leaf))).gives
  refine gives_congr (gives_tee hc rfl (clean_action (clean_one clean_leaf)) (givesL_cons heq (givesL_map (parameterNode B.P.uc)
    (fun kv => ∃ y, Json.lookup kv.1 (parseCharsetParameters B.P.uc (stripWhitespace B.P.uc t).tail) = some y ∧ B.P.uc.lower y = B.P.uc.lower kv.2)
    _ (fun kv hkv => ?_)))) ?_
  · obtain ⟨h1, h2⟩ := hp kv.1 kv.2 hkv
    exact gives_parameter B a s t kv.1 kv.2 h1 h2
  · show decide ((stripWhitespace B.P.uc v).headD [] = (stripWhitespace B.P.uc t).headD []) = true ∧ _ ↔ _
    rw [decide_eq_true_eq, ParametersAccept]
    constructor
    · rintro ⟨h1, h2⟩
      exact ⟨h1.symm, fun k x hm => h2 (k, x) hm⟩
    · rintro ⟨h1, h2⟩
      exact ⟨h1.symm, fun kv hm => h2 kv.1 kv.2 hm⟩

theorem fresh_parameterised (uc : UC) (p : DocPath) (v : Str) : Fresh (parameterisedPlan uc p v) := by
  rw [parameterisedPlan]
  refine fresh_new _ _ (freshL_cons (fresh_new _ _ (freshL_cons (fresh_leaf _) freshL_nil)) (freshL_cons ?_ (freshL_map _ _ ?_)))
  · exact fresh_new _ _ (freshL_cons (fresh_leaf _) (freshL_cons (fresh_new _ _ (freshL_cons (fresh_leaf _) freshL_nil)) (freshL_cons (fresh_leaf _) freshL_nil)))
  · intro kv _
    rw [parameterNode]
    refine fresh_new _ _ (freshL_cons (fresh_new _ _ (freshL_cons (fresh_new _ _ (freshL_cons (fresh_leaf _) freshL_nil))
      (freshL_cons ?_ (freshL_cons (fresh_new _ _ (freshL_cons (fresh_leaf _) freshL_nil)) freshL_nil)))) freshL_nil)
    exact fresh_new _ _ (freshL_cons (fresh_leaf _) (freshL_cons (fresh_new _ _ (freshL_cons (fresh_leaf _) freshL_nil)) (freshL_cons (fresh_leaf _) freshL_nil)))

theorem fresh_indexed (uc : UC) (p : DocPath) : ∀ (vs : List Str) (i : Nat), FreshL (indexedChecks uc p i vs)
  | [], _ => freshL_nil
  | v :: vs, i => by
    rw [indexedChecks]
    exact freshL_cons (fresh_new _ _ (freshL_cons (fresh_parameterised uc _ v) freshL_nil)) (fresh_indexed uc p vs (i + 1))

/-- What the check of a header that is not there gives; that it is missing is found elsewhere. -/
def AbsentGives (P : EP) (ctx : Ctx) (key : Str) (vs : List Str) : Prop :=
  if !isDefined ctx (join rootPath key) && parameterisedHeaders.contains (P.uc.lower key) then match vs with
    | _ :: w :: _ => ParametersAccept P w []
    | _ => True
  else True

/-- The verdict on one header. -/
def HeaderGives (P : EP) (ctx : Ctx) (key : Str) (vs : List Str) : Option (List Str) → Prop
  | some as => HeaderAccepts P ctx key vs as
  | none => AbsentGives P ctx key vs

theorem asString_oneOrList (P : EP) (as : List Str) : ((NodeResult.value (oneOrList as)).asString P).getD [] = headerText P as := by
  cases as with
  | nil => rfl
  | cons v as => cases as <;> rfl

theorem gives_headerItem (B : BP) (ctx : Ctx) (a : Request) (s : Stack) (hs : RulesSafe B.P ctx) {kv : Str × List Str}
    (hk : NameOk kv.1) (hp : parameterisedHeaders.contains (B.P.uc.lower kv.1) = true → ∀ v ∈ kv.2, ParamNames B.P v)
    (hv : ∀ as, Json.lookup (B.P.uc.lower kv.1) (actualHeaders B.P.uc a) = some as → as ≠ [])
    {n : Node} (h : headerItem B.P.uc ctx kv = .ok n) :
    ∃ cs, n = cont kv.1 cs ∧ GivesL (reqCtx B a) s cs
      (HeaderGives B.P ctx kv.1 kv.2 (Json.lookup (B.P.uc.lower kv.1) (actualHeaders B.P.uc a))) := by
  obtain ⟨key, vs⟩ := kv
  simp only [] at hk hp hv
  rw [headerItem] at h
  obtain ⟨ns, h1, rfl⟩ := map_ok h
  refine ⟨_, rfl, ?_⟩
  refine givesL_congr (givesL_cons (w := HeaderGives B.P ctx key vs (Json.lookup (B.P.uc.lower key) (actualHeaders B.P.uc a))) gives_ann (givesL_one ?_))
    ⟨fun h => h.2, fun h => ⟨trivial, h⟩⟩
  have hr := resolve_header_name B a hk
  -- a header that is checked by a rule or by equality
  have hplain : (!isDefined ctx (join rootPath key) && parameterisedHeaders.contains (B.P.uc.lower key)) = false →
      ∀ m, entryCheck ctx (partPath "headers") key vs = .ok m →
      Gives (reqCtx B a) s (act .iff [act .checkExists [rsv (join (partPath "headers") key)], m])
        (HeaderGives B.P ctx key vs (Json.lookup (B.P.uc.lower key) (actualHeaders B.P.uc a))) := by
    intro hc m hm
    refine gives_congr (gives_ifExists hr (entryCheck_fresh hm) (v := ValuesAccept B.P ctx key vs) ?_) ?_
    · intro as hl
      refine gives_entry (C := reqCtx B a) hs hm ?_
      rw [hr, namedValue, hl]
    · cases hl : Json.lookup (B.P.uc.lower key) (actualHeaders B.P.uc a) with
      | none =>
        simp only [HeaderGives, AbsentGives, hc]
        exact ⟨fun _ => trivial, fun _ as ha => (by cases ha)⟩
      | some as =>
        simp only [HeaderGives, HeaderAccepts, hc, Bool.false_eq_true, if_false]
        exact ⟨fun h => h as rfl, fun h bs hb => (by cases hb; exact h)⟩
  rw [headerChecks] at h1
  cases hd : isDefined ctx (join rootPath key) with
  | true =>
    rw [if_pos hd] at h1
    obtain ⟨m, hm, rfl⟩ := map_ok h1
    exact hplain (by rw [hd]; rfl) m hm
  | false =>
    rw [if_neg (by rw [hd]; simp)] at h1
    cases hpar : parameterisedHeaders.contains (B.P.uc.lower key) with
    | false =>
      rw [if_neg (by rw [hpar]; simp)] at h1
      obtain ⟨m, hm, rfl⟩ := map_ok h1
      exact hplain (by rw [hd, hpar]; rfl) m hm
    | true =>
      rw [if_pos hpar] at h1
      have hp := hp hpar
      have hc : (!isDefined ctx (join rootPath key) && parameterisedHeaders.contains (B.P.uc.lower key)) = true := by rw [hd, hpar]; rfl
      have hx := runs_exists (s := s) hr
      have hxc : nodeErrors true (.mk (.action .checkExists) (some (.value (.bool (Json.lookup (B.P.uc.lower key) (actualHeaders B.P.uc a)).isSome)))
          [.mk (.resolve (join (partPath "headers") key)) (some (.value (namedValue (actualHeaders B.P.uc a) (B.P.uc.lower key)))) []]) = [] :=
        clean_action (clean_one clean_leaf)
      match vs, h1 with
      | [], h1 =>
        cases h1
        cases hl : Json.lookup (B.P.uc.lower key) (actualHeaders B.P.uc a) with
        | none =>
          rw [hl] at hx hxc
          refine ⟨.mk (.action .iff) (some (.value (.bool false))) [_], ?_, rfl, fun _ => clean_action (clean_one hxc), fun hn => ?_⟩
          · apply runs_of_step
            intro f hf
            simp only [heights_cons] at hf
            show execIf (walkF (reqCtx B a) f) (act .iff [act .checkExists [rsv (join (partPath "headers") key)]]) s = _
            rw [execIf]
            show (match walkF (reqCtx B a) f (act .checkExists [rsv (join (partPath "headers") key)]) s with
              | .panic => _ | .err m s1 => _ | .ok first s1 => _) = _
            rw [hx f (by omega)]
            rfl
          · refine absurd ?_ hn
            simp only [HeaderGives, AbsentGives, hc, if_true]
        | some as =>
          rw [hl] at hx hxc
          refine ⟨_, runs_if_one hx rfl, rfl, fun _ => clean_action (clean_one hxc), fun hn => ?_⟩
          refine absurd ?_ hn
          simp only [HeaderGives, HeaderAccepts, hc, if_true]
      | [v], h1 =>
        cases h1
        refine gives_congr (gives_ifExists hr (fresh_parameterised _ _ _) (v := fun as => ParametersAccept B.P v (headerText B.P as)) ?_) ?_
        · intro as hl
          refine gives_parameterised B a s hr ?_ (hp v (List.mem_cons_self ..))
          rw [namedValue, hl]
          exact asString_oneOrList B.P as
        · cases hl : Json.lookup (B.P.uc.lower key) (actualHeaders B.P.uc a) with
          | none =>
            simp only [HeaderGives, AbsentGives, hc, if_true]
            exact ⟨fun _ => trivial, fun _ as ha => (by cases ha)⟩
          | some as =>
            simp only [HeaderGives, HeaderAccepts, hc, if_true]
            exact ⟨fun h => h as rfl, fun h bs hb => (by cases hb; exact h)⟩
      | v :: w :: ws, h1 =>
        cases h1
        have hf := fresh_indexed B.P.uc (join (partPath "headers") key) (v :: w :: ws) 0
        rw [indexedChecks, indexedChecks] at hf
        show Gives (reqCtx B a) s (act .iff (act .checkExists [rsv (join (partPath "headers") key)]
          :: cont (natStr 0) [parameterisedPlan B.P.uc (joinIndex (join (partPath "headers") key) 0) v]
          :: cont (natStr (0 + 1)) [parameterisedPlan B.P.uc (joinIndex (join (partPath "headers") key) (0 + 1)) w]
          :: indexedChecks B.P.uc (join (partPath "headers") key) (0 + 1 + 1) ws)) _
        cases hl : Json.lookup (B.P.uc.lower key) (actualHeaders B.P.uc a) with
        | none =>
          rw [hl] at hx hxc
          have hres : (reqCtx B a).resolve (joinIndex (join (partPath "headers") key) (0 + 1)) = .ok .null := by
            rw [resolve_header_index B a hk, headerAt, hl]
          have hg := gives_container (natStr (0 + 1)) (givesL_one (gives_parameterised B a s hres rfl (hp w (List.mem_cons_of_mem _ (List.mem_cons_self ..)))))
          have hw' := hf
          rw [FreshL, FreshL] at hw'
          obtain ⟨e', he1, he2⟩ := hg
          refine ⟨_, runs_if_else hx rfl he1, rfl, ?_, ?_⟩
          · intro hh
            simp only [HeaderGives, AbsentGives, hc, if_true] at hh
            have hce := he2.clean hh
            rw [nodeErrors_all, childErrors_cons, childErrors_cons, childErrors_cons, hxc, hce, fresh_clean _ hw'.1, fresh_cleanL _ hw'.2.2]
            cases e' with
            | mk k r cs =>
              rw [nodeErrors_all] at hce
              have ho := (List.append_eq_nil_iff.mp hce).1
              cases r with
              | none => rfl
              | some r =>
                cases r with
                | error m => simp [ownError] at ho
                | _ => rfl
          · intro hh
            simp only [HeaderGives, AbsentGives, hc, if_true] at hh
            have hrr := he2.rep hh
            exact ⟨reported_of_child (List.mem_cons_of_mem _ (List.mem_cons_of_mem _ (List.mem_cons_self ..))) hrr.1, hrr.2⟩
        | some as =>
          rw [hl] at hx hxc
          cases has : as with
          | nil => exact absurd has (hv as hl)
          | cons t ts =>
            have hres : (reqCtx B a).resolve (joinIndex (join (partPath "headers") key) 0) = .ok (.str t) := by
              rw [resolve_header_index B a hk, headerAt, hl, has]
              rfl
            have hg := gives_container (natStr 0) (givesL_one (gives_parameterised B a s hres rfl (hp v (List.mem_cons_self ..))))
            have hw' := hf
            rw [FreshL] at hw'
            refine gives_congr (gives_if hx hxc hg hw'.1 hw'.2 (.inr rfl)) ?_
            simp only [HeaderGives, HeaderAccepts, hc, if_true, List.headD_cons]
            exact ⟨fun h => h rfl, fun h _ => h⟩

/-- The plan for the headers; without expected headers there is none. -/
theorem header_part (B : BP) (ctx : Ctx) (e a : Request) (s : Stack) (hs : RulesSafe B.P ctx)
    (hk : ∀ k ∈ Json.keys (e.part.headers.getD []), NameOk k)
    (hp : ∀ kv ∈ e.part.headers.getD [], parameterisedHeaders.contains (B.P.uc.lower kv.1) = true → ∀ v ∈ kv.2, ParamNames B.P v)
    (hv : ∀ kv ∈ actualHeaders B.P.uc a, kv.2 ≠ []) {n : Node} (h : headerPlan B.P.uc ctx e = .ok n) :
    (n.children = [] ∧ HeadersAccept B.P ctx e a) ∨
    (n.children ≠ [] ∧ ∃ r cs', Runs (reqCtx B a) s n (.mk (.container "headers".toList) r cs') ∧
      ((entryMismatches (.mk (.container "headers".toList) r cs')).all (fun kv => kv.2.isEmpty) = true ↔ HeadersAccept B.P ctx e a)) := by
  have hempty : e.part.headers.getD [] = [] → HeadersAccept B.P ctx e a := by
    intro he
    rw [HeadersAccept, he]
    exact ⟨fun k hk => (by cases hk), fun k vs as hm => (by cases hm)⟩
  rw [headerPlan] at h
  cases hq : e.part.headers with
  | none =>
    rw [hq] at h
    cases h
    exact .inl ⟨rfl, hempty (by rw [hq]; rfl)⟩
  | some q =>
    rw [hq] at h
    simp only [] at h
    split at h
    · rename_i hqe
      cases h
      exact .inl ⟨rfl, hempty (by rw [hq]; exact List.isEmpty_iff.mp hqe)⟩
    · obtain ⟨items, h1, rfl⟩ := map_ok h
      refine .inr ⟨?_, ?_⟩
      · show items ++ _ ≠ []
        simp
      have hkq : ∀ k ∈ Json.keys q, NameOk k := by rw [hq] at hk; exact hk
      have hpq : ∀ kv ∈ q, parameterisedHeaders.contains (B.P.uc.lower kv.1) = true → ∀ v ∈ kv.2, ParamNames B.P v := by
        rw [hq] at hp; exact hp
      obtain ⟨items', hi1, hi2, hi3, hi4⟩ := items_run (C := reqCtx B a) (s := s) (headerItem B.P.uc ctx) (·.1)
        (fun kv => HeaderGives B.P ctx kv.1 kv.2 (Json.lookup (B.P.uc.lower kv.1) (actualHeaders B.P.uc a))) _ _ h1
        (fun x hx n hn => gives_headerItem B ctx a s hs (hkq x.1 ((mem_keys_collect x.1 q).mp (List.mem_map.mpr ⟨x, hx, rfl⟩)))
          (hpq x (RuleJsonProps.mem_collect q x hx)) (fun as hl => hv _ (Json.lookup_mem hl)) hn)
      have hE := runs_change (C := reqCtx B a) (s := s) (ac := .lowerCase)
        (runs_val (C := reqCtx B a) (s := s) (v := .slist (Json.keys (OMap.collect q))) (w := .slist (Json.keys (OMap.collect q))) rfl)
        rfl rfl rfl (F := fun vs => .value (single (vs.map (changeCase B.P.uc.lower)))) (fun rec f => rfl)
      have hA := runs_rsv (C := reqCtx B a) (s := s) (resolve_headers B a)
      have f1 := flat_entries (C := reqCtx B a) (s := s) (only := false) (ks := (Json.keys (OMap.collect q)).map B.P.uc.lower)
        "The following expected headers were missing: "
        hE rfl (clean_action (clean_one clean_leaf)) hA rfl clean_leaf rfl
      obtain ⟨r, cs', h2, h3⟩ := part_entries (C := reqCtx B a) (s := s) "headers".toList hi1 hi2 hi3 hi4
        (collect_nodup q) (flats_one f1)
      refine ⟨r, cs', h2, h3.trans ?_⟩
      rw [HeadersAccept, hq, diff_missing]
      simp only [Option.getD_some, List.mem_map, forall_exists_index, and_imp, forall_apply_eq_imp_iff₂, mem_keys_collect]
      constructor
      · rintro ⟨hh, hm⟩
        refine ⟨hm, fun k vs as hmem hl => ?_⟩
        have := hh (k, vs) hmem
        simp only [hl] at this
        exact this
      · rintro ⟨hm, hh⟩
        refine ⟨fun kv hmem => ?_, hm⟩
        have hin := hm kv.1 ((mem_keys_collect kv.1 q).mp (List.mem_map.mpr ⟨kv, hmem, rfl⟩))
        obtain ⟨as, hl⟩ := (mem_keys_iff _ _).mp hin
        rw [hl]
        exact hh kv.1 kv.2 as hmem hl






end EngineWalk
end Verif
