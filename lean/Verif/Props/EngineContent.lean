import Verif.Props.EngineBody

/-
  Executing the plan for the body of a request, and what is made of the executed plan.
-/
set_option autoImplicit false

namespace Verif
namespace EngineWalk
open Path Rules Matchers Compare Query Headers MatchResult Engine JsonUtils EngineSpec
open BodyGeneratorProps (Seg getAt)

/-- Executing a node that leaves another value stack. -/
def RunsTo (C : ECtx) (s : Stack) (n n' : Node) (s' : Stack) : Prop := ∀ f, height n ≤ f → walkF C f n s = .ok n' s'

/-- The errors of a node that are found are those of checks. -/
def SaidOnly (n : Node) : Prop := ∀ m ∈ nodeErrors false n, m = .said

/-- A plan for contents agrees with a verdict. -/
def Content (C : ECtx) (s : Stack) (n : Node) (v : Prop) : Prop := ∃ n', Runs C s n n' ∧ Done n' v ∧ SaidOnly n'

theorem content_congr {C : ECtx} {s : Stack} {n : Node} {v w : Prop} (h : Content C s n v) (e : v ↔ w) : Content C s n w := by
  obtain ⟨n', h1, h2, h3⟩ := h
  exact ⟨n', h1, done_congr h2 e, h3⟩

theorem resolve_body (B : BP) (a : Request) : (reqCtx B a).resolve (partPath "body") =
    .ok (match bytesOf a with | some c => .barray c | none => .null) := by
  have : (reqCtx B a).resolve (partPath "body") = (match a.part.body with
      | .present b _ => .ok (.barray b)
      | _ => .ok .null : Res NodeValue) := rfl
  rw [this, bytesOf]
  cases a.part.body <;> rfl

theorem resolve_type (B : BP) (a : Request) : ∃ v : NodeValue, (reqCtx B a).resolve (partPath "content-type") = .ok v ∧
    ∀ t : Str, NodeValue.matches_ (reqCtx B a).P (.str t) v .equality = true ↔ typeText B a = t := by
  have : (reqCtx B a).resolve (partPath "content-type") = (match contentType B.P.uc B.be a.part with
      | some ct => .ok (.str ct.display)
      | none => .ok .null : Res NodeValue) := rfl
  rw [this, typeText]
  cases contentType B.P.uc B.be a.part with
  | none =>
    refine ⟨_, rfl, fun t => ?_⟩
    show decide (t = "NULL".toList) = true ↔ _
    rw [decide_eq_true_eq]
    exact eq_comm
  | some ct =>
    refine ⟨_, rfl, fun t => ?_⟩
    show decide (t = ct.display) = true ↔ _
    rw [decide_eq_true_eq]
    exact eq_comm

/-! ### JSON contents -/

theorem inj_nil (uc : UC) (ns : List Node) : injNodes uc [] ns = .ok ns := rfl

theorem runs_parse (B : BP) (a : Request) (s : Stack) : ∃ n', Runs (reqCtx B a) s (act .jsonParse [rsv (partPath "body")]) n' ∧
    n' = .mk (.action .jsonParse) (some (match bytesOf a with
      | some c => (match B.P.parseBytes c with | some j => .value (.json j) | none => .error .said)
      | none => .value .null)) [.mk (.resolve (partPath "body")) (some (.value (match bytesOf a with | some c => .barray c | none => .null))) []] := by
  refine ⟨_, ?_, rfl⟩
  refine runs_args1 (runs_rsv (resolve_body B a)) (fun rec f => rfl) ?_
  cases bytesOf a with
  | none => rfl
  | some c => rfl

theorem json_content (B : BP) (ctx : Ctx) (a : Request) (s : Stack) (hs : RulesSafe B.P ctx) {j : Json} (hn : Nice B.P j)
    (hf : ∀ c v, bytesOf a = some c → B.P.parseBytes c = some v → Fits v) {ns : List Node} (h : jsonNodes ctx rootPath j = .ok ns) :
    Content (reqCtx B a) s (act .tee [act .jsonParse [rsv (partPath "body")], cont rootPath.expr ns]) (JsonAccepts B.P ctx j (bytesOf a)) := by
  obtain ⟨c', hc, he⟩ := runs_parse B a s
  have htee : ∀ {v : Prop} {w : NodeValue}, c'.result = some (.value w) → nodeErrors true c' = [] →
      GivesL (reqCtx B a) (some (.value w) :: s) ns v →
      Content (reqCtx B a) s (act .tee [act .jsonParse [rsv (partPath "body")], cont rootPath.expr ns]) v := by
    intro v w hr hcl hg
    have hres : c'.res = .value w := by rw [Node.res, hr]; rfl
    rw [← hr] at hg
    obtain ⟨k', hk1, hk2⟩ := givesL_one (gives_container rootPath.expr hg)
    cases hk1 with
    | cons hk0 hnil =>
      cases hnil
      obtain ⟨ns', hg1, hg2⟩ := hg
      have hk3 := runs_container rootPath.expr hg1 hg2.plain
      have hd : DoneL [Node.mk (.container rootPath.expr) (some (status ns').truthy) ns'] v := by
        have := done_combined (k := .container rootPath.expr) rfl [] (fun c hc => (by cases hc)) hg2
        have h2 := doneL_cons this doneL_nil
        exact doneL_congr h2 ⟨fun h => h.1, fun h => ⟨h, trivial⟩⟩
      refine ⟨_, runs_tee hc (by rw [hres]; rfl) (.cons hk3 .nil), ?_, ?_⟩
      · exact done_combined rfl [c'] (clean_one hcl) hd
      · intro m hm
        rw [nodeErrors_mk] at hm
        have hcl2 := (clean_not_reported c' hcl).1
        simp only [childErrors_cons, childErrors_nil, hcl2, nodeErrors_mk, Node.isContainer, Node.kind] at hm
        simp [ownError, NodeResult.truthy] at hm
  cases hb : bytesOf a with
  | none =>
    rw [hb] at he
    refine content_congr (htee (w := .null) (by rw [he]; rfl) (by rw [he]; exact clean_action (clean_one clean_leaf))
      (null_at (C := reqCtx B a) hs j rootPath ns hn h)) ?_
    exact Iff.rfl
  | some c =>
    rw [hb] at he
    cases hp : B.P.parseBytes c with
    | some v =>
      simp only [hp] at he
      refine content_congr (htee (w := .json v) (by rw [he]; rfl) (by rw [he]; exact clean_action (clean_one clean_leaf))
        (json_at (C := reqCtx B a) hs (hf c v hb hp) j rootPath [] [] ns ns hn (at_root ctx) h (inj_nil _ _))) ?_
      show Accepts B.P ctx rootPath j (getAt [] v) ↔ JsonAccepts B.P ctx j (some c)
      rw [JsonAccepts]
      constructor
      · intro h
        exact ⟨v, hp, h⟩
      · rintro ⟨w, hw, h⟩
        rw [hp] at hw
        cases hw
        exact h
    | none =>
      simp only [hp] at he
      have hres : c'.res = .error .said := by rw [he]; rfl
      refine ⟨_, runs_tee_err hc (by rw [hres]; rfl), ?_, ?_⟩
      · refine ⟨rfl, ?_, fun _ => ?_⟩
        · rintro ⟨w, hw, _⟩
          rw [hp] at hw
          cases hw
        · rw [hres]
          exact ⟨reported_own, .inl ⟨_, rfl⟩⟩
      · intro m hm
        rw [hres, he, nodeErrors_mk] at hm
        simp only [childErrors_cons, childErrors_nil, nodeErrors_mk, cont, Node.new, Node.isContainer, Node.kind, ownError] at hm
        simpa using hm

/-! ### Text contents -/

theorem text_content (B : BP) (a : Request) (s : Stack) (b : Bytes) :
    Content (reqCtx B a) s (textPlan B.P b) (bodyText B.P (bytesOf a) = B.P.lossy b) := by
  have hE := runs_val (C := reqCtx B a) (s := s) (v := .str (B.P.lossy b)) (w := .str (B.P.lossy b)) rfl
  have hP := runs_val (C := reqCtx B a) (s := s) (v := .null) (w := .null) rfl
  have hA : ∃ A', Runs (reqCtx B a) s (act .convertUtf8 [rsv (partPath "body")]) A' ∧ A'.res = .value (.str (bodyText B.P (bytesOf a))) ∧
      nodeErrors true A' = [] := by
    refine ⟨.mk (.action .convertUtf8) (some (.value (.str (bodyText B.P (bytesOf a)))))
        [.mk (.resolve (partPath "body")) (some (.value (match bytesOf a with | some c => .barray c | none => .null))) []],
      runs_args1 (runs_rsv (resolve_body B a)) (fun rec f => rfl) ?_, rfl, clean_action (clean_one clean_leaf)⟩
    cases bytesOf a with
    | none => rfl
    | some c => rfl
  obtain ⟨A', hA, hAr, hAc⟩ := hA
  have hclean : ∀ c ∈ [Node.mk (.value (.str (B.P.lossy b))) (some (.value (.str (B.P.lossy b)))) [], A',
      .mk (.value .null) (some (.value .null)) []], nodeErrors true c = [] := by
    intro c hc
    simp only [List.mem_cons, List.not_mem_nil, or_false] at hc
    rcases hc with rfl | rfl | rfl
    · exact clean_leaf
    · exact hAc
    · exact clean_leaf
  have hm : ∀ t : Bool, decide (B.P.lossy b = bodyText B.P (bytesOf a)) = t →
      Runs (reqCtx B a) s (textPlan B.P b) (.mk (.action (.matcher "equality".toList)) (some (if t then .value (.bool true) else .error .said))
        [.mk (.value (.str (B.P.lossy b))) (some (.value (.str (B.P.lossy b)))) [], A', .mk (.value .null) (some (.value .null)) []]) := by
    intro t ht
    refine runs_match hE hA hP ?_
    have hm2 : NodeValue.matches_ (reqCtx B a).P (.str (B.P.lossy b)) (.str (bodyText B.P (bytesOf a))) .equality = t := ht
    simp only [matchK, hAr, res_mk, NodeResult.valueOrError, show NodeValue.asJsonD .null = Json.null from rfl, create_equality, hm2]
    cases t <;> rfl
  by_cases heq : bodyText B.P (bytesOf a) = B.P.lossy b
  · refine ⟨_, hm true (decide_eq_true heq.symm), ?_, ?_⟩
    · refine ⟨rfl, fun _ => clean_action hclean, fun h => absurd heq h⟩
    · intro m hmm
      have hz : nodeErrors false _ = [] := (clean_not_reported _ (clean_action (ac := .matcher "equality".toList) (v := .bool true) hclean)).1
      rw [show (if true = true then NodeResult.value (NodeValue.bool true) else NodeResult.error Msg.said) = .value (.bool true) from rfl, hz] at hmm
      cases hmm
  · refine ⟨_, hm false (decide_eq_false (fun h => heq h.symm)), ?_, ?_⟩
    · exact ⟨rfl, fun h => absurd h heq, fun _ => ⟨reported_own, .inl ⟨_, rfl⟩⟩⟩
    · intro m hmm
      rw [nodeErrors_mk] at hmm
      rw [(childErrors_empty false _).mpr (fun c hc => (clean_not_reported c (hclean c hc)).1)] at hmm
      simpa [ownError, Node.isContainer, Node.kind] using hmm

/-! ### The check of the content type -/

theorem type_same (B : BP) (e a : Request) (s : Stack) (h : typeText B a = (expectedType B e).display) :
    ∃ n', Runs (reqCtx B a) s (typeCheck (expectedType B e)) n' ∧ n'.res = .value (.bool true) ∧ nodeErrors true n' = [] := by
  obtain ⟨v, hv, hm⟩ := resolve_type B a
  have hE := runs_val (C := reqCtx B a) (s := s) (v := .str (expectedType B e).display) (w := .str (expectedType B e).display) rfl
  have hA := runs_rsv (C := reqCtx B a) (s := s) hv
  have hP := runs_val (C := reqCtx B a) (s := s) (v := .null) (w := .null) rfl
  refine ⟨.mk (.action (.matcher "equality".toList)) (some (.value (.bool true)))
    [.mk (.value (.str (expectedType B e).display)) (some (.value (.str (expectedType B e).display))) [],
      .mk (.resolve (partPath "content-type")) (some (.value v)) [], .mk (.value .null) (some (.value .null)) [],
      act .error [txt "Body type error - ", act .apply []]], ?_, rfl, ?_⟩
  · apply runs_of_step
    intro f hf
    simp only [heights_cons, heights_nil] at hf
    show execMatch (reqCtx B a) (walkF (reqCtx B a) f) "equality".toList (typeCheck (expectedType B e)) s = _
    rw [execMatch]
    show arg (walkF (reqCtx B a) f) _ (val (.str (expectedType B e).display)) _ _ = _
    rw [arg, hE f (by omega)]
    show arg (walkF (reqCtx B a) f) _ (rsv (partPath "content-type")) _ _ = _
    rw [arg, hA f (by omega)]
    show arg (walkF (reqCtx B a) f) _ (val .null) _ _ = _
    rw [arg, hP f (by omega)]
    simp only [res_mk, NodeResult.valueOrError, show NodeValue.asJsonD .null = Json.null from rfl, create_equality]
    rw [execRule, if_pos ((hm _).mpr h)]
    rfl
  · refine clean_action ?_
    intro c hc
    simp only [List.mem_cons, List.not_mem_nil, or_false] at hc
    rcases hc with rfl | rfl | rfl | rfl
    · exact clean_leaf
    · exact clean_leaf
    · exact clean_leaf
    · exact fresh_clean _ (fresh_new _ _ (freshL_cons (fresh_leaf _) (freshL_cons (fresh_leaf _) freshL_nil)))

/-- The node that makes the message for a wrong content type is itself an error, with the message of the check. -/
theorem error_apply (C : ECtx) (s : Stack) : ∃ n', Runs C (some (.error .said) :: s) (act .error [txt "Body type error - ", act .apply []]) n' ∧
    n'.res = .error .said ∧ groups n' = [] := by
  have hT := runs_val (C := C) (s := some (.error .said) :: s) (v := .str "Body type error - ".toList) (w := .str "Body type error - ".toList) rfl
  have hL : RunsL C (some (.error .said) :: s) [txt "Body type error - ", act .apply []]
      [.mk (.value (.str "Body type error - ".toList)) (some (.value (.str "Body type error - ".toList))) [],
        .mk (.action .apply) (some (.error .said)) []] := .cons hT (.cons runs_apply .nil)
  refine ⟨.mk (.action .error) (some (.error .said)) [.mk (.value (.str "Body type error - ".toList)) (some (.value (.str "Body type error - ".toList))) [],
        .mk (.action .apply) (some (.error .said)) []], ?_, rfl, by simp [groups_mk, groupsList_eq]⟩
  apply runs_of_step
  intro f hf
  have he := evalAll_runs hL (by
      intro c hc
      simp only [List.mem_cons, List.not_mem_nil, or_false] at hc
      rcases hc with rfl | rfl <;> rfl)
    (by
      intro c hc
      simp only [List.mem_cons, List.not_mem_nil, or_false] at hc
      rcases hc with rfl | rfl <;> rfl) f f hf hf
  show overValues (walkF C f) f (act .error [txt "Body type error - ", act .apply []]) _ _ = _
  have hch : (act .error [txt "Body type error - ", act .apply []]).children = [txt "Body type error - ", act .apply []] := rfl
  rw [overValues, hch, he]
  rfl

theorem type_other (B : BP) (e a : Request) (s : Stack) (h : typeText B a ≠ (expectedType B e).display) :
    ∃ cs, RunsTo (reqCtx B a) s (typeCheck (expectedType B e)) (.mk (.action (.matcher "equality".toList)) (some (.error (.text []))) cs)
      (some (.error .said) :: s) ∧ groupsList cs = [] := by
  obtain ⟨v, hv, hm⟩ := resolve_type B a
  have hE := runs_val (C := reqCtx B a) (s := s) (v := .str (expectedType B e).display) (w := .str (expectedType B e).display) rfl
  have hA := runs_rsv (C := reqCtx B a) (s := s) hv
  have hP := runs_val (C := reqCtx B a) (s := s) (v := .null) (w := .null) rfl
  obtain ⟨n', hn, hr, hgr⟩ := error_apply (reqCtx B a) s
  refine ⟨[.mk (.value (.str (expectedType B e).display)) (some (.value (.str (expectedType B e).display))) [],
      .mk (.resolve (partPath "content-type")) (some (.value v)) [], .mk (.value .null) (some (.value .null)) [], n'], ?_,
      by simp [groupsList_eq, groups_mk, hgr]⟩
  intro f hf
  cases f with
  | zero => have := height_pos (typeCheck (expectedType B e)); omega
  | succ f =>
    rw [typeCheck, act, Node.new, height_mk] at hf
    simp only [heights_cons, heights_nil] at hf
    show execMatch (reqCtx B a) (walkF (reqCtx B a) f) "equality".toList (typeCheck (expectedType B e)) s = _
    rw [execMatch]
    show arg (walkF (reqCtx B a) f) _ (val (.str (expectedType B e).display)) _ _ = _
    rw [arg, hE f (by omega)]
    show arg (walkF (reqCtx B a) f) _ (rsv (partPath "content-type")) _ _ = _
    rw [arg, hA f (by omega)]
    show arg (walkF (reqCtx B a) f) _ (val .null) _ _ = _
    rw [arg, hP f (by omega)]
    simp only [res_mk, NodeResult.valueOrError, show NodeValue.asJsonD .null = Json.null from rfl, create_equality]
    rw [execRule, if_neg (fun hh => h ((hm _).mp hh))]
    show withMessage (reqCtx B a) (walkF (reqCtx B a) f) _ _ (some (act .error [txt "Body type error - ", act .apply []])) _ _ _ = _
    rw [withMessage, hn f (by omega)]
    simp only [hr]
    rfl

/-! ### From the executed plan for a body to a verdict -/

/-- Groups of errors are added to a map. -/
def addGroup (acc : List (Str × List Msg)) (g : Str × List Msg) : List (Str × List Msg) :=
  if g.2.isEmpty then acc else insertKV g.1 g.2 acc

theorem bodyGroups_eq (n : Node) : bodyGroups n = (groupsList n.children).foldl addGroup [] := rfl

theorem fold_groups_empty : ∀ (gs : List (Str × List Msg)) (acc : List (Str × List Msg)), (∀ g ∈ gs, g.2 = []) → gs.foldl addGroup acc = acc
  | [], _, _ => rfl
  | g :: gs, acc, h => by
    rw [List.foldl_cons, addGroup, h g (List.mem_cons_self ..)]
    exact fold_groups_empty gs acc (fun x hx => h x (List.mem_cons_of_mem _ hx))

theorem addGroup_under {l : Str} {acc : List (Str × List Msg)} (h : Under l acc) (g : Str × List Msg) : Under l (addGroup acc g) := by
  rw [addGroup]
  split
  · exact h
  · rename_i hg
    rw [Under]
    by_cases hl : g.1 = l
    · subst hl
      refine ⟨g.2, fun he => hg (by rw [he]; rfl), ?_⟩
      rw [HeaderProps.lookup_insertKV, if_pos rfl]
    · obtain ⟨x, hx, hlk⟩ := h
      refine ⟨x, hx, ?_⟩
      rw [HeaderProps.lookup_insertKV, if_neg (fun hh => hl hh.symm)]
      exact hlk

theorem fold_groups_under (l : Str) : ∀ (gs : List (Str × List Msg)) (acc : List (Str × List Msg)), Under l acc → Under l (gs.foldl addGroup acc)
  | [], _, h => h
  | g :: gs, acc, h => fold_groups_under l gs _ (addGroup_under h g)

theorem fold_groups_found : ∀ (gs : List (Str × List Msg)) (acc : List (Str × List Msg)), (∃ g ∈ gs, g.2 ≠ []) → ∃ l, Under l (gs.foldl addGroup acc)
  | [], _, h => by
    obtain ⟨g, hg, _⟩ := h
    cases hg
  | g :: gs, acc, h => by
    by_cases hg : g.2 = []
    · obtain ⟨x, hx, hne⟩ := h
      rcases List.mem_cons.mp hx with rfl | hx
      · exact absurd hg hne
      · exact fold_groups_found gs _ ⟨x, hx, hne⟩
    · refine ⟨g.1, fold_groups_under g.1 gs _ ?_⟩
      rw [addGroup, if_neg (by rw [List.isEmpty_iff]; exact hg)]
      exact ⟨g.2, hg, by rw [HeaderProps.lookup_insertKV, if_pos rfl]⟩

theorem lower_nil (uc : UC) : uc.lower [] = [] := uc.lower_ascii [] (fun c hc => (by cases hc))

theorem typeError_nil (uc : UC) : Msg.isTypeError uc (.text []) = false := by
  rw [Msg.isTypeError, lower_nil]
  rfl

/-- A body container without errors. -/
theorem verdict_clean (uc : UC) {r : Option NodeResult} {cs : List Node} (h : ∀ c ∈ cs, nodeErrors true c = [])
    (hr : ∀ m, r ≠ some (.error m)) : (bodyVerdict uc (.mk (.container "body".toList) r cs)).allMatched = true := by
  have h2 := clean_not_reportedL cs ((childErrors_empty true cs).mpr h)
  rw [bodyVerdict]
  split
  · rfl
  split
  · cases r with
    | none => rfl
    | some r =>
      cases r with
      | error m => exact absurd rfl (hr m)
      | ok => rfl
      | value v => rfl
  · have hfe : firstError (.mk (.container "body".toList) r cs) = none := by
      have ho : ownError (.mk (.container "body".toList) r cs) = [] := by
        cases r with
        | none => rfl
        | some r =>
          cases r with
          | error m => exact absurd rfl (hr m)
          | ok => rfl
          | value v => rfl
      rw [firstError, ho]
      show ([] ++ childErrors false cs).head? = none
      rw [h2.1]
      rfl
    rw [hfe]
    simp only [Option.getD_none, typeError_nil]
    show BodyVerdict.allMatched (.mismatches (bodyGroups (.mk (.container "body".toList) r cs))) = true
    rw [bodyGroups_eq]
    show ((groupsList cs).foldl addGroup []).all _ = true
    rw [fold_groups_empty _ _ h2.2]
    rfl

/-- A body container with errors that are found. -/
theorem verdict_bad (uc : UC) {cs : List Node} (hne : cs ≠ [])
    (hm : ∀ m ∈ childErrors false cs, m = .said) (hrep : childErrors false cs ≠ [] ∨ ∃ g ∈ groupsList cs, g.2 ≠ []) :
    (bodyVerdict uc (.mk (.container "body".toList) (some (.value (.bool false))) cs)).allMatched = false := by
  rw [bodyVerdict]
  rw [if_neg (by intro h; cases h)]
  rw [if_neg (by
    show ¬ cs.isEmpty = true
    rw [List.isEmpty_iff]; exact hne)]
  have hfe : firstError (.mk (.container "body".toList) (some (.value (.bool false))) cs) = (childErrors false cs).head? := rfl
  rw [hfe]
  cases hc : childErrors false cs with
  | cons m ms =>
    have hs := hm m (by rw [hc]; exact List.mem_cons_self ..)
    subst hs
    simp only [List.head?_cons, Option.getD_some, Msg.isTypeError, Msg.isEmpty]
    show (insertKV _ _ _).all (fun (kv : Str × List Msg) => kv.2.isEmpty) = false
    rw [Bool.eq_false_iff]
    intro hh
    refine under_not_empty (l := []) ?_ ((allEmpty_iff _).mp hh)
    refine ⟨_, ?_, by rw [HeaderProps.lookup_insertKV, if_pos rfl]⟩
    simp
  | nil =>
    simp only [List.head?_nil, Option.getD_none, typeError_nil]
    show (List.all ((groupsList cs).foldl addGroup []) _) = false
    rcases hrep with h | h
    · exact absurd hc h
    · obtain ⟨l, hl⟩ := fold_groups_found (groupsList cs) [] h
      rw [Bool.eq_false_iff]
      intro hh
      exact under_not_empty hl ((allEmpty_iff _).mp hh)

/-! ### The body part -/

theorem content_part (B : BP) (ctx : Ctx) (a : Request) (s : Stack) (hs : RulesSafe B.P ctx) (ct : ContentType) (b : Bytes)
    (hx : ct.isJson = true ∨ ct.isXml = false) (hn : ct.isJson = true → ∀ j, B.P.parseBytes b = some j → Nice B.P j)
    (hf : ct.isJson = true → ∀ c v, bytesOf a = some c → B.P.parseBytes c = some v → Fits v) {n : Node} (h : contentPlan B ctx ct b = .ok n) :
    Content (reqCtx B a) s n (ContentAccepts B.P ctx ct b a) := by
  rw [contentPlan] at h
  rw [ContentAccepts]
  split at h
  · rename_i hj
    rw [if_pos hj]
    rw [jsonPlan] at h
    cases hp : B.P.parseBytes b with
    | none => rw [hp] at h; cases h
    | some j =>
      rw [hp] at h
      obtain ⟨ns, h1, rfl⟩ := map_ok h
      refine content_congr (json_content B ctx a s hs (hn hj j hp) (hf hj) h1) ⟨fun h => ⟨j, rfl, h⟩, ?_⟩
      rintro ⟨j', hj', h⟩
      cases hj'
      exact h
  · rename_i hj
    rw [if_neg hj]
    split at h
    · rename_i hxx
      rcases hx with hx | hx
      · exact absurd hx hj
      · rw [hx] at hxx
        cases hxx
    · cases h
      exact text_content B a s b

/-- Plans that are made have not been executed. -/
theorem body_same {B : BP} {e a : Request} {s : Stack} {n : Node} {v : Prop} (ht : typeText B a = (expectedType B e).display)
    (hc : Content (reqCtx B a) s n v) : ∃ r cs', Runs (reqCtx B a) s (cont "body".toList [act .iff [typeCheck (expectedType B e), n]])
      (.mk (.container "body".toList) r cs') ∧ ((bodyVerdict B.P.uc (.mk (.container "body".toList) r cs')).allMatched = true ↔ v) := by
  obtain ⟨t', ht1, ht2, ht3⟩ := type_same B e a s ht
  obtain ⟨n', hc1, hc2, hc3⟩ := hc
  have hi := runs_if_true (ds := []) ht1 (by rw [ht2]; rfl) hc1
  have hb := runs_container "body".toList (.cons hi .nil) (fun c hc => by rw [List.mem_singleton.mp hc]; rfl)
  refine ⟨_, _, hb, ?_⟩
  have hci : ∀ all, nodeErrors all (Node.mk (.action .iff) (some n'.res.truthy) [t', n']) = nodeErrors all n' := by
    intro all
    have ht4 : nodeErrors all t' = [] := by
      cases all with
      | true => exact ht3
      | false => exact (clean_not_reported t' ht3).1
    rw [nodeErrors_mk, childErrors_cons, childErrors_cons, childErrors_nil, ht4, ownError_truthy]
    simp [Node.isContainer, Node.kind]
  by_cases hv : v
  · refine ⟨fun _ => hv, fun _ => verdict_clean B.P.uc ?_ (fun m => ?_)⟩
    · intro c hc
      rw [List.mem_singleton.mp hc, hci]
      exact hc2.clean hv
    · intro hh
      cases hh
  · refine ⟨fun h => ?_, fun h => absurd h hv⟩
    obtain ⟨hrep, hbad⟩ := hc2.rep hv
    have hres : n'.res.truthy = .value (.bool false) := by
      rcases hbad with ⟨m, hm⟩ | hm
      · rw [Node.res, hm]; rfl
      · rw [Node.res, hm]; rfl
    have hst : (status [Node.mk (.action .iff) (some n'.res.truthy) [t', n']]).truthy = .value (.bool false) := by
      rw [hres]; rfl
    rw [hst] at h
    have hbd := verdict_bad B.P.uc (cs := [Node.mk (.action .iff) (some n'.res.truthy) [t', n']]) (by simp)
      (by
        intro m hm
        rw [childErrors_cons, childErrors_nil, List.append_nil, hci] at hm
        exact hc3 m hm)
      (by
        rcases hrep with hr | ⟨g, hg, hgn⟩
        · left
          rw [childErrors_cons, childErrors_nil, List.append_nil, hci]
          exact hr
        · right
          refine ⟨g, ?_, hgn⟩
          rw [groupsList_eq, List.mem_flatMap]
          refine ⟨_, List.mem_singleton.mpr rfl, ?_⟩
          rw [groups_mk, groupsList_eq]
          refine List.mem_append.mpr (.inr (List.mem_flatMap.mpr ⟨n', by simp, hg⟩)))
    rw [hbd] at h
    cases h

/-- With another content type the contents are not looked at, and no error is left. -/
theorem body_other {B : BP} {e a : Request} {s : Stack} {n : Node} (hfr : Fresh n) (ht : typeText B a ≠ (expectedType B e).display) :
    ∃ r cs', RunsTo (reqCtx B a) s (cont "body".toList [act .iff [typeCheck (expectedType B e), n]])
      (.mk (.container "body".toList) r cs') (some (.error .said) :: s) ∧
      bodyVerdict B.P.uc (.mk (.container "body".toList) r cs') = .mismatches [] := by
  obtain ⟨cs, hcs, hgr⟩ := type_other B e a s ht
  let t' : Node := .mk (.action (.matcher "equality".toList)) (some (.error (.text []))) cs
  refine ⟨some (.value (.bool false)), [.mk (.action .iff) (some (.value (.bool false))) [t', n]], ?_, ?_⟩
  · intro f hf
    rw [cont, Node.new, height_mk, heights_cons, heights_nil, act, Node.new, height_mk, heights_cons, heights_cons, heights_nil] at hf
    cases f with
    | zero => omega
    | succ f =>
      cases f with
      | zero => omega
      | succ f =>
        have hi : walkF (reqCtx B a) (f + 1) (act .iff [typeCheck (expectedType B e), n]) s =
            .ok (.mk (.action .iff) (some (.value (.bool false))) [t', n]) (some (.error .said) :: s) := by
          show execIf (walkF (reqCtx B a) f) (act .iff [typeCheck (expectedType B e), n]) s = _
          have hch : (act .iff [typeCheck (expectedType B e), n]).children = [typeCheck (expectedType B e), n] := rfl
          rw [execIf, hch]
          simp only [hcs f (by omega)]
          rfl
        show (match expandAll (expand (walkF (reqCtx B a) (f + 1)) (fun _ t => t) (f + 1)) [act .iff [typeCheck (expectedType B e), n]] s with
          | .ok cs1 s1 => finish (.mk (.container "body".toList) none _) (status cs1).truthy cs1 s1
          | .err m s1 => .err m s1
          | .panic => .panic) = _
        rw [expandAll, expand, hi]
        rfl
  · rw [bodyVerdict, if_neg (by intro h; cases h), if_neg (by intro h; cases h)]
    have hfe : firstError (.mk (.container "body".toList) (some (.value (.bool false))) [.mk (.action .iff) (some (.value (.bool false))) [t', n]]) =
        some (.text []) := by
      rw [firstError]
      show (_ ++ childErrors false [Node.mk (.action .iff) (some (.value (.bool false))) [t', n]]).head? = _
      simp only [childErrors_cons, nodeErrors_mk, t']
      rfl
    rw [hfe]
    simp only [Option.getD_some, typeError_nil]
    show BodyVerdict.mismatches ((groupsList [Node.mk (.action .iff) (some (.value (.bool false))) [t', n]]).foldl addGroup []) = _
    rw [fold_groups_empty]
    intro g hg
    simp only [groupsList_eq, groups_mk, List.flatMap_cons, List.flatMap_nil, List.append_nil, List.nil_append, List.mem_append, t'] at hg
    rcases hg with hg | hg
    · rw [← groupsList_eq, hgr] at hg
      cases hg
    · exact (clean_not_reported n (fresh_clean n hfr)).2 g hg

end EngineWalk
end Verif
