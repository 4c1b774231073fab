import Verif.Props.EngineContent

/-
  The verdict of the V2 matching engine on a request, part by part, agrees with the specification.
-/
set_option autoImplicit false

namespace Verif
namespace EngineWalk
open Path Rules Matchers Compare Query Headers MatchResult Engine JsonUtils EngineSpec
open BodyGeneratorProps (Seg getAt)

/-! ### Plans that are made have not been executed -/

theorem freshL_append {ms : List Node} : ∀ {ns : List Node}, FreshL ns → FreshL ms → FreshL (ns ++ ms)
  | [], _, g => g
  | n :: ns, h, g => by
    rw [FreshL] at h
    exact freshL_cons h.1 (freshL_append h.2 g)

theorem fresh_one {a : Action} {m : Node} (h : Fresh m) : Fresh (act a [m]) := fresh_new _ _ (freshL_cons h freshL_nil)
theorem fresh_two {a : Action} {m n : Node} (h : Fresh m) (g : Fresh n) : Fresh (act a [m, n]) :=
  fresh_new _ _ (freshL_cons h (freshL_cons g freshL_nil))
theorem fresh_three {a : Action} {m n o : Node} (h : Fresh m) (g : Fresh n) (k : Fresh o) : Fresh (act a [m, n, o]) :=
  fresh_new _ _ (freshL_cons h (freshL_cons g (freshL_cons k freshL_nil)))

theorem fresh_itemCheck {ctx : Ctx} {p : DocPath} {e : Json} {ns : List Node} (h : itemCheck ctx p e = .ok ns) : FreshL ns := by
  rw [itemCheck] at h
  split at h
  · obtain ⟨n, h1, rfl⟩ := map_ok h
    exact freshL_cons (fresh_three (fresh_one (fresh_leaf _)) (fresh_leaf _) (fresh_rules h1 (fresh_leaf _) (fresh_leaf _))) freshL_nil
  · cases h
    exact freshL_cons (fresh_two (fresh_one (fresh_leaf _)) fresh_equalJson) freshL_nil

theorem fresh_object {ctx : Ctx} {p : DocPath} {es : List (Str × Json)} {ns : List Node} (h : objectNodes ctx p es = .ok ns) :
    FreshL ns := by
  rw [objectNodes] at h
  split at h
  · obtain ⟨n, h1, rfl⟩ := map_ok h
    exact freshL_cons (fresh_leaf _) (freshL_cons (fresh_rules h1 (fresh_leaf _) (fresh_leaf _)) freshL_nil)
  · split at h
    · cases h
      exact freshL_cons (fresh_two (fresh_leaf _) (fresh_leaf _)) freshL_nil
    · cases h
      exact freshL_cons (fresh_three (fresh_leaf _) (fresh_leaf _) (fresh_leaf _))
        (freshL_cons (fresh_two (fresh_leaf _) (fresh_leaf _)) freshL_nil)

theorem fresh_scalar {ctx : Ctx} {p : DocPath} {e : Json} {ns : List Node} (h : scalarNodes ctx p e = .ok ns) : FreshL ns := by
  rw [scalarNodes] at h
  split at h
  · obtain ⟨n, h1, rfl⟩ := map_ok h
    exact freshL_cons (fresh_leaf _) (freshL_cons (fresh_rules h1 (fresh_leaf _) (fresh_leaf _)) freshL_nil)
  · cases h
    exact freshL_cons fresh_equalJson freshL_nil

mutual
theorem fresh_json {ctx : Ctx} (e : Json) (p : DocPath) (ns : List Node) (h : jsonNodes ctx p e = .ok ns) : FreshL ns := by
  match e with
  | .arr items =>
    rw [jsonNodes_arr] at h
    split at h
    · obtain ⟨n, h1, h2⟩ := bind_ok h
      obtain ⟨ms, h3, rfl⟩ := map_ok h2
      exact freshL_cons (fresh_leaf _) (freshL_cons (fresh_rules h1 (fresh_leaf _) (fresh_leaf _)) (fresh_template items p ms h3))
    · split at h
      · cases h
        exact freshL_cons (fresh_two (fresh_leaf _) (fresh_leaf _)) freshL_nil
      · obtain ⟨ms, h3, rfl⟩ := map_ok h
        exact freshL_cons (fresh_three (fresh_leaf _) (fresh_leaf _) (fresh_leaf _)) (fresh_items items p 0 ms h3)
  | .obj es =>
    rw [jsonNodes] at h
    obtain ⟨n, h1, h2⟩ := bind_ok h
    obtain ⟨ms, h3, rfl⟩ := map_ok h2
    exact freshL_append (fresh_object h1) (fresh_entries es p ms h3)
  | .null => rw [jsonNodes_scalar rfl] at h; exact fresh_scalar h
  | .bool b => rw [jsonNodes_scalar rfl] at h; exact fresh_scalar h
  | .num n => rw [jsonNodes_scalar rfl] at h; exact fresh_scalar h
  | .str s => rw [jsonNodes_scalar rfl] at h; exact fresh_scalar h
termination_by structural e
theorem fresh_template {ctx : Ctx} (items : List Json) (p : DocPath) (ns : List Node) (h : templateNodes ctx p items = .ok ns) : FreshL ns := by
  match items with
  | [] => rw [templateNodes] at h; cases h; exact freshL_nil
  | t :: ts =>
    rw [templateNodes] at h
    obtain ⟨ms, h1, rfl⟩ := map_ok h
    refine freshL_cons (fresh_two (fresh_leaf _) (fresh_new _ _ ?_)) freshL_nil
    split at h1
    · exact fresh_itemCheck h1
    · exact fresh_json t (pushStarIndex p) ms h1
termination_by structural items
theorem fresh_items {ctx : Ctx} (items : List Json) (p : DocPath) (i : Nat) (ns : List Node)
    (h : itemsNodes ctx p i items = .ok ns) : FreshL ns := by
  match items with
  | [] => rw [itemsNodes] at h; cases h; exact freshL_nil
  | e :: es =>
    rw [itemsNodes] at h
    obtain ⟨ms, h1, h2⟩ := bind_ok h
    obtain ⟨qs, h3, rfl⟩ := map_ok h2
    refine freshL_append ?_ (fresh_items es p (i + 1) qs h3)
    split at h1
    · obtain ⟨rs, h4, rfl⟩ := map_ok h1
      exact freshL_cons (fresh_new _ _ (fresh_itemCheck h4)) freshL_nil
    · obtain ⟨rs, h4, rfl⟩ := map_ok h1
      exact freshL_nil
termination_by structural items
theorem fresh_entries {ctx : Ctx} (es : List (Str × Json)) (p : DocPath) (ns : List Node)
    (h : entriesNodes ctx p es = .ok ns) : FreshL ns := by
  match es with
  | [] => rw [entriesNodes] at h; cases h; exact freshL_nil
  | e :: es =>
    rw [entriesNodes] at h
    obtain ⟨n, h1, h2⟩ := bind_ok h
    obtain ⟨ms, h3, rfl⟩ := map_ok h2
    exact freshL_cons (fresh_entry e p n h1) (fresh_entries es p ms h3)
termination_by structural es
theorem fresh_entry {ctx : Ctx} (e : Str × Json) (p : DocPath) (n : Node) (h : entryNode ctx p e = .ok n) : Fresh n := by
  match e with
  | (k, v) =>
    rw [entryNode] at h
    obtain ⟨ms, h1, rfl⟩ := map_ok h
    exact fresh_new _ _ (fresh_json v (pushField p k) ms h1)
termination_by structural e
end

theorem fresh_content {B : BP} {ctx : Ctx} {ct : ContentType} {b : Bytes} {n : Node} (hx : ct.isJson = true ∨ ct.isXml = false)
    (h : contentPlan B ctx ct b = .ok n) : Fresh n := by
  rw [contentPlan] at h
  split at h
  · rw [jsonPlan] at h
    cases hp : B.P.parseBytes b with
    | none => rw [hp] at h; cases h
    | some j =>
      rw [hp] at h
      obtain ⟨ns, h1, rfl⟩ := map_ok h
      exact fresh_two (fresh_one (fresh_leaf _)) (fresh_new _ _ (fresh_json j rootPath ns h1))
  · rename_i hj
    split at h
    · rename_i hxx
      rcases hx with hx | hx
      · exact absurd hx hj
      · rw [hx] at hxx
        cases hxx
    · cases h
      exact fresh_three (fresh_leaf _) (fresh_one (fresh_leaf _)) (fresh_leaf _)

/-! ### The body part -/

theorem runs_expectEmpty {C : ECtx} {s : Stack} {p : DocPath} {v : NodeValue} (hA : C.resolve p = .ok v) :
    (∀ b, emptyCheck (.value v) = .ok b → Runs C s (act .expectEmpty [rsv p])
      (.mk (.action .expectEmpty) (some (.value (.bool b))) [.mk (.resolve p) (some (.value v)) []])) ∧
    (emptyCheck (.value v) = .err → Runs C s (act .expectEmpty [rsv p])
      (.mk (.action .expectEmpty) (some (.error .said)) [.mk (.resolve p) (some (.value v)) []])) := by
  have hR := runs_rsv (C := C) (s := s) hA
  constructor
  · intro b hb
    apply runs_of_step
    intro f hf
    simp only [heights_cons, heights_nil] at hf
    show execExpectEmpty C (walkF C f) (act .expectEmpty [rsv p]) s = _
    rw [execExpectEmpty]
    show arg (walkF C f) _ (rsv p) s _ = _
    rw [arg, hR f (by omega)]
    simp only [res_mk, hb]
    rfl
  · intro hb
    apply runs_of_step
    intro f hf
    simp only [heights_cons, heights_nil] at hf
    show execExpectEmpty C (walkF C f) (act .expectEmpty [rsv p]) s = _
    rw [execExpectEmpty]
    show arg (walkF C f) _ (rsv p) s _ = _
    rw [arg, hR f (by omega)]
    simp only [res_mk, hb]
    rfl

theorem body_none (B : BP) (a : Request) (s : Stack) : ∃ r cs', Runs (reqCtx B a) s (cont "body".toList [act .expectEmpty [rsv (partPath "body")]])
      (.mk (.container "body".toList) r cs') ∧
      ((bodyVerdict B.P.uc (.mk (.container "body".toList) r cs')).allMatched = true ↔ (bytesOf a).getD [] = []) := by
  obtain ⟨v, hv, hvb⟩ : ∃ v, (reqCtx B a).resolve (partPath "body") = .ok v ∧
      emptyCheck (.value v) = if (bytesOf a).getD [] = [] then .ok true else .err := by
    refine ⟨_, resolve_body B a, ?_⟩
    cases bytesOf a with
    | none => rfl
    | some c => cases c <;> rfl
  have hr := runs_expectEmpty (s := s) hv
  have hone : ∀ n : Node, n.isSplat = false → ∀ c ∈ [n], c.isSplat = false := by
    intro n hn c hc
    rw [List.mem_singleton.mp hc]
    exact hn
  by_cases hb : (bytesOf a).getD [] = []
  · rw [if_pos hb] at hvb
    refine ⟨_, _, runs_container "body".toList (.cons (hr.1 true hvb) .nil) (hone _ rfl), fun _ => hb,
      fun _ => verdict_clean B.P.uc (clean_one (clean_action (clean_one clean_leaf))) (fun m hh => by cases hh)⟩
  · rw [if_neg hb] at hvb
    refine ⟨_, _, runs_container "body".toList (.cons (hr.2 hvb) .nil) (hone _ rfl), fun h => ?_, fun h => absurd h hb⟩
    have hbd := verdict_bad B.P.uc (cs := [.mk (.action .expectEmpty) (some (.error .said))
        [.mk (.resolve (partPath "body")) (some (.value v)) []]]) (by simp)
      (by
        intro m hm
        simpa [childErrors_cons, childErrors_nil, nodeErrors_mk, ownError, Node.isContainer, Node.kind] using hm)
      (by
        left
        simp [childErrors_cons, nodeErrors_mk, ownError, Node.isContainer, Node.kind])
    have hst : (status [.mk (.action .expectEmpty) (some (.error .said))
        [.mk (.resolve (partPath "body")) (some (.value v)) []]]).truthy = .value (.bool false) := rfl
    rw [hst, hbd] at h
    cases h

theorem expectedType_eq (B : BP) (e : Request) : expectedType B e = declaredType B e := by
  rw [expectedType, declaredType]
  cases contentType B.P.uc B.be e.part <;> rfl

/-- The plan for the body; without an expected body there is none. -/
theorem body_part (B : BP) (ctx : Ctx) (e a : Request) (s : Stack) (hs : RulesSafe B.P ctx)
    (hx : (declaredType B e).isJson = true ∨ (declaredType B e).isXml = false)
    (hn : (declaredType B e).isJson = true → ∀ b ct j, e.part.body = .present b ct → B.P.parseBytes b = some j → Nice B.P j)
    (hf : (declaredType B e).isJson = true → ∀ c v, bytesOf a = some c → B.P.parseBytes c = some v → Fits v)
    {n : Node} (h : bodyPlan B ctx e = .ok n) :
    (n.children = [] ∧ BodyAccepts B ctx e a) ∨
    (n.children ≠ [] ∧ ∃ s' r cs', RunsTo (reqCtx B a) s n (.mk (.container "body".toList) r cs') s' ∧
      ((bodyVerdict B.P.uc (.mk (.container "body".toList) r cs')).allMatched = true ↔ BodyAccepts B ctx e a)) := by
  rw [bodyPlan, expectedType_eq] at h
  rw [BodyAccepts]
  cases hb : e.part.body with
  | missing =>
    rw [hb] at h
    cases h
    exact .inl ⟨rfl, trivial⟩
  | empty =>
    rw [hb] at h
    cases h
    obtain ⟨r, cs', h1, h2⟩ := body_none B a s
    exact .inr ⟨(by intro hh; cases hh), s, r, cs', h1, h2⟩
  | null =>
    rw [hb] at h
    cases h
    obtain ⟨r, cs', h1, h2⟩ := body_none B a s
    exact .inr ⟨(by intro hh; cases hh), s, r, cs', h1, h2⟩
  | present b ct =>
    rw [hb] at h
    obtain ⟨m, h1, rfl⟩ := map_ok h
    refine .inr ⟨(by intro hh; cases hh), ?_⟩
    by_cases ht : typeText B a = (declaredType B e).display
    · obtain ⟨r, cs', h2, h3⟩ := body_same (by rw [expectedType_eq]; exact ht) (content_part B ctx a s hs (declaredType B e) b hx (fun hj j hp => hn hj b ct j hb hp) hf h1)
      rw [expectedType_eq] at h2
      exact ⟨s, r, cs', h2, h3.trans ⟨fun h _ => h, fun h => h ht⟩⟩
    · obtain ⟨r, cs', h2, h3⟩ := body_other (s := s) (fresh_content hx h1) (by rw [expectedType_eq]; exact ht)
      rw [expectedType_eq] at h2
      refine ⟨_, r, cs', h2, ?_⟩
      rw [h3]
      exact ⟨fun _ h => absurd h ht, fun _ => rfl⟩

/-! ### The whole request -/

theorem runs_to {C : ECtx} {s : Stack} {n n' : Node} (h : Runs C s n n') : RunsTo C s n n' s := h

theorem heights_append (a b : List Node) : heights (a ++ b) = max (heights a) (heights b) := by
  induction a with
  | nil => simp [heights_nil]
  | cons n ns ih => rw [List.cons_append, heights_cons, heights_cons, ih]; omega

theorem expandAll_to {C : ECtx} {s s' : Stack} {cs cs' : List Node} {n n' : Node} (h : RunsL C s cs cs')
    (hs : ∀ c ∈ cs', c.isSplat = false) (hn : RunsTo C s n n' s') (hsn : n'.isSplat = false) (f k : Nat)
    (hf : heights (cs ++ [n]) ≤ f) (hk : heights (cs ++ [n]) ≤ k) :
    expandAll (expand (walkF C f) (fun _ t => t) k) (cs ++ [n]) s = .ok (cs' ++ [n']) s' := by
  induction h with
  | nil =>
    rw [List.nil_append, heights_cons, heights_nil] at hf hk
    have := height_pos n
    cases k with
    | zero => omega
    | succ k =>
      rw [List.nil_append, expandAll, expand, hn f (by omega)]
      simp only [hsn]
      rfl
  | cons h1 _ ih =>
    rename_i c c' ds ds' _
    rw [List.cons_append, heights_cons] at hf hk
    have := height_pos c
    cases k with
    | zero => omega
    | succ k =>
      have hx : expand (walkF C f) (fun _ t => t) (k + 1) c s = .ok [c'] s := by
        rw [expand, h1 f (by omega)]
        simp [hs c' (List.mem_cons_self ..)]
      rw [List.cons_append, expandAll, hx]
      simp only []
      rw [ih (fun d hd => hs d (List.mem_cons_of_mem _ hd)) (by omega) (by omega)]
      rfl

theorem runsTo_container {C : ECtx} {s s' : Stack} (l : Str) {cs cs' : List Node} {n n' : Node} (h : RunsL C s cs cs')
    (hs : ∀ c ∈ cs', c.isSplat = false) (hn : RunsTo C s n n' s') (hsn : n'.isSplat = false) :
    RunsTo C s (cont l (cs ++ [n])) (.mk (.container l) (some (status (cs' ++ [n'])).truthy) (cs' ++ [n'])) s' := by
  intro f hf
  rw [cont, Node.new, height_mk] at hf
  cases f with
  | zero => omega
  | succ f =>
    show (match expandAll (expand (walkF C f) (fun _ t => t) f) (cs ++ [n]) s with
      | .ok cs1 s1 => finish (.mk (.container l) none (cs ++ [n])) (status cs1).truthy cs1 s1
      | .err m s1 => .err m s1
      | .panic => .panic) = _
    rw [expandAll_to h hs hn hsn f f (by omega) (by omega)]
    rfl

theorem hasLabel_mk (l k : Str) (r : Option NodeResult) (cs : List Node) : hasLabel l (.mk (.container k) r cs) = decide (k = l) := rfl

theorem children_nonEmpty {n : Node} (h : n.children ≠ []) : (!n.children.isEmpty) = true := by
  cases hc : n.children with
  | nil => exact absurd hc h
  | cons x xs => rfl

theorem method_part (B : BP) (e a : Request) (s : Stack) : ∃ r cs', Runs (reqCtx B a) s (methodPlan B.P e) (.mk (.container "method".toList) r cs') ∧
    ((firstError (.mk (.container "method".toList) r cs')).isNone = true ↔ MethodAccepts B.P e a) := by
  obtain ⟨n', h1, h2, h3, h4, h5⟩ := checks_method B e a s
  have hc := runs_container "method".toList (.cons runs_ann (.cons h1 .nil)) (by
    intro c hc
    simp only [List.mem_cons, List.not_mem_nil, or_false] at hc
    rcases hc with rfl | rfl
    · rfl
    · exact h2.plain)
  refine ⟨_, _, hc, ?_⟩
  have hann : nodeErrors false ann = [] := (clean_not_reported ann (fresh_clean _ (fresh_leaf _))).1
  have hfe : firstError (.mk (.container "method".toList) (some (status [ann, n']).truthy) [ann, n']) = (nodeErrors false n').head? := by
    rw [firstError]
    show (ownError _ ++ childErrors false [ann, n']).head? = _
    rw [childErrors_cons, childErrors_cons, childErrors_nil, hann, List.append_nil, List.nil_append]
    rfl
  rw [hfe]
  by_cases hv : MethodAccepts B.P e a
  · rw [(clean_not_reported n' (h2.clean hv)).1]
    exact ⟨fun _ => hv, fun _ => rfl⟩
  · refine ⟨fun h => ?_, fun h => absurd h hv⟩
    obtain ⟨m, hm⟩ := h4 hv
    obtain ⟨k, r, cs⟩ := n'
    have hm : r = some (.error m) := hm
    subst hm
    rw [nodeErrors_mk] at h
    have : (Node.mk k (some (.error m)) []).isContainer = false := h5
    rw [this] at h
    cases h

theorem path_part (B : BP) (ctx : Ctx) (e a : Request) (s : Stack) (hs : RulesSafe B.P ctx) {n : Node} (h : pathPlan ctx e = .ok n) :
    n.children ≠ [] ∧ ∃ r cs', Runs (reqCtx B a) s n (.mk (.container "path".toList) r cs') ∧
    (errors (.mk (.container "path".toList) r cs') = [] ↔ PathAccepts B.P ctx e a) := by
  obtain ⟨cs, rfl, hne, cs', h1, h2⟩ := gives_path B ctx e a s hs h
  refine ⟨hne, _, _, runs_container "path".toList h1 h2.plain, ?_⟩
  rw [← doneL_iff h2, errors]
  show [] ++ childErrors true cs' = [] ↔ _
  rw [List.nil_append, childErrors_empty]

/-- What the theorems below assume of the requests and of the rules: no rule makes the engine panic, names are not
taken for wildcards or indices, actual headers have a value, and the body is not XML. -/
structure Supported (B : BP) (e a : Request) : Prop where
  pathRules : RulesSafe B.P (partCtx e .path)
  queryRules : RulesSafe B.P (partCtx e .query)
  headerRules : RulesSafe B.P (partCtx e .header)
  bodyRules : RulesSafe B.P (partCtx e .body)
  queryNames : ∀ k ∈ Json.keys (e.query.getD []), NameOk k
  headerNames : ∀ k ∈ Json.keys (e.part.headers.getD []), NameOk k
  parameters : ∀ kv ∈ e.part.headers.getD [], parameterisedHeaders.contains (B.P.uc.lower kv.1) = true → ∀ v ∈ kv.2, ParamNames B.P v
  values : ∀ kv ∈ actualHeaders B.P.uc a, kv.2 ≠ []
  type : (declaredType B e).isJson = true ∨ (declaredType B e).isXml = false
  nice : (declaredType B e).isJson = true → ∀ b ct j, e.part.body = .present b ct → B.P.parseBytes b = some j → Nice B.P j
  fits : (declaredType B e).isJson = true → ∀ c v, bytesOf a = some c → B.P.parseBytes c = some v → Fits v

/-- A verdict agrees with the specification in every part. -/
structure Agrees (B : BP) (e a : Request) (V : Verdict) : Prop where
  method : V.method.isNone = true ↔ MethodAccepts B.P e a
  path : V.path.isNone = true ↔ PathAccepts B.P (partCtx e .path) e a
  query : V.query.all (fun kv => kv.2.isEmpty) = true ↔ QueryAccepts B.P (partCtx e .query) e a
  headers : V.headers.all (fun kv => kv.2.isEmpty) = true ↔ HeadersAccept B.P (partCtx e .header) e a
  body : V.body.allMatched = true ↔ BodyAccepts B (partCtx e .body) e a

theorem path_none (l : List Msg) : (match l with | [] => none | l => some l : Option (List Msg)).isNone = true ↔ l = [] := by
  cases l <;> simp

theorem exec_runs {B : BP} {a : Request} {plan plan' : Node} {s' : Stack} (h : RunsTo (reqCtx B a) [] plan plan' s') :
    executePlan B plan a = .ok plan' := by
  have : walk ⟨B.P, resolveRequest B.P.uc B.be a⟩ plan [] = .ok plan' s' := h (height plan) (Nat.le_refl _)
  rw [executePlan, this]

theorem plain_four {a b c : Node} (ha : a.isSplat = false) (hb : b.isSplat = false) (hc : c.isSplat = false) :
    ∀ n ∈ [a, b, c], n.isSplat = false := by
  intro n hn
  simp only [List.mem_cons, List.not_mem_nil, or_false] at hn
  rcases hn with rfl | rfl | rfl <;> assumption

theorem request_agrees {B : BP} {e a : Request} (h : Supported B e a) {plan : Node} (hp : requestPlan B e = .ok plan) :
    ∃ V, matchRequestV2 B e a = .ok V ∧ Agrees B e a V := by
  have hmatch : ∀ {plan' : Node} {s' : Stack}, RunsTo (reqCtx B a) [] plan plan' s' → matchRequestV2 B e a = .ok (verdict B.P.uc plan') := by
    intro plan' s' hr
    rw [matchRequestV2, hp]
    show (executePlan B plan a).map _ = _
    rw [exec_runs hr]
    rfl
  rw [requestPlan] at hp
  obtain ⟨np, hp1, hp⟩ := bind_ok hp
  obtain ⟨nq, hq1, hp⟩ := bind_ok hp
  obtain ⟨nh, hh1, hp⟩ := bind_ok hp
  obtain ⟨nb, hb1, rfl⟩ := map_ok hp
  obtain ⟨rm, cm, hm1, hm2⟩ := method_part B e a []
  obtain ⟨pe, rp, cp, hp2, hp3⟩ := path_part B _ e a [] h.pathRules hp1
  obtain ⟨qe, rq, cq, hq2, hq3⟩ := query_part B _ e a [] h.queryRules h.queryNames hq1
  have hm0 : (!(methodPlan B.P e).children.isEmpty) = true := rfl
  have hp0 := children_nonEmpty pe
  have hq0 := children_nonEmpty qe
  have hfront := RunsL.cons hm1 (.cons hp2 (.cons hq2 .nil))
  have hplain := plain_four (a := .mk (.container "method".toList) rm cm) (b := .mk (.container "path".toList) rp cp)
    (c := .mk (.container "query parameters".toList) rq cq) rfl rfl rfl
  rcases header_part B _ e a [] h.headerRules h.headerNames h.parameters h.values hh1 with ⟨he, hha⟩ | ⟨he, rh, ch, hh2, hh3⟩
  · rcases body_part B _ e a [] h.bodyRules h.type h.nice h.fits hb1 with ⟨be, hba⟩ | ⟨be, s', rb, cb, hb2, hb3⟩
    · have hcs : nonEmptyNodes [methodPlan B.P e, np, nq, nh, nb] = [methodPlan B.P e, np, nq] := by
        simp [nonEmptyNodes, List.filter, hm0, hp0, hq0, he, be]
      rw [hcs] at hmatch
      refine ⟨_, hmatch (runs_to (runs_container _ hfront hplain)), ?_⟩
      exact ⟨hm2, (path_none _).trans hp3, hq3, ⟨fun _ => hha, fun _ => rfl⟩, ⟨fun _ => hba, fun _ => rfl⟩⟩
    · have hb0 := children_nonEmpty be
      have hcs : nonEmptyNodes [methodPlan B.P e, np, nq, nh, nb] = [methodPlan B.P e, np, nq] ++ [nb] := by
        simp [nonEmptyNodes, List.filter, hm0, hp0, hq0, he, hb0]
      rw [hcs] at hmatch
      refine ⟨_, hmatch (runsTo_container _ hfront hplain hb2 rfl), ?_⟩
      exact ⟨hm2, (path_none _).trans hp3, hq3, ⟨fun _ => hha, fun _ => rfl⟩, hb3⟩
  · have hh0 := children_nonEmpty he
    have hfront2 := runsL_append hfront (.cons hh2 .nil)
    have hplain2 : ∀ n ∈ [Node.mk (.container "method".toList) rm cm, .mk (.container "path".toList) rp cp,
        .mk (.container "query parameters".toList) rq cq] ++ [.mk (.container "headers".toList) rh ch], n.isSplat = false := by
      intro n hn
      rcases List.mem_append.mp hn with hn | hn
      · exact hplain n hn
      · rw [List.mem_singleton.mp hn]
        rfl
    rcases body_part B _ e a [] h.bodyRules h.type h.nice h.fits hb1 with ⟨be, hba⟩ | ⟨be, s', rb, cb, hb2, hb3⟩
    · have hcs : nonEmptyNodes [methodPlan B.P e, np, nq, nh, nb] = [methodPlan B.P e, np, nq] ++ [nh] := by
        simp [nonEmptyNodes, List.filter, hm0, hp0, hq0, hh0, be]
      rw [hcs] at hmatch
      refine ⟨_, hmatch (runs_to (runs_container _ hfront2 hplain2)), ?_⟩
      exact ⟨hm2, (path_none _).trans hp3, hq3, hh3, ⟨fun _ => hba, fun _ => rfl⟩⟩
    · have hb0 := children_nonEmpty be
      have hcs : nonEmptyNodes [methodPlan B.P e, np, nq, nh, nb] = ([methodPlan B.P e, np, nq] ++ [nh]) ++ [nb] := by
        simp [nonEmptyNodes, List.filter, hm0, hp0, hq0, hh0, hb0]
      rw [hcs] at hmatch
      refine ⟨_, hmatch (runsTo_container _ hfront2 hplain2 hb2 rfl), ?_⟩
      exact ⟨hm2, (path_none _).trans hp3, hq3, hh3, hb3⟩

/-- The whole verdict. -/
theorem agrees_all {B : BP} {e a : Request} {V : Verdict} (h : Agrees B e a V) : V.allMatched = true ↔
    MethodAccepts B.P e a ∧ PathAccepts B.P (partCtx e .path) e a ∧ QueryAccepts B.P (partCtx e .query) e a
      ∧ HeadersAccept B.P (partCtx e .header) e a ∧ BodyAccepts B (partCtx e .body) e a := by
  rw [← h.method, ← h.path, ← h.query, ← h.headers, ← h.body, Verdict.allMatched]
  simp only [Bool.and_eq_true, and_assoc]

end EngineWalk
end Verif
