import Verif.MatchResult
import Verif.Props.HeaderProps

/-
  Properties C25-C28 of match results: verdict and mismatches agree, the ranking score, the decision
  table of the body comparison, and the comparison of methods.
-/

set_option autoImplicit false

namespace Verif
namespace ResultProps
open Path Rules Matchers Compare Query Headers MatchResult QueryProps HeaderProps CompareProps

/-! ### C25: the verdict agrees with the reported mismatches -/

theorem flatMap_nil_iff (n : Named) : n.flatMap (·.2) = [] ↔ n.all (fun kv => kv.2.isEmpty) = true := by
  simp [List.flatMap_eq_nil_iff]

/-- **C25** for bodies: a body result is "all matched" iff it contains no mismatch. -/
theorem C25_body_verdict (r : BodyMatchResult) : r.allMatched = true ↔ r.all = [] := by
  cases r with
  | ok => simp [BodyMatchResult.allMatched, BodyMatchResult.all]
  | typeMismatch => simp [BodyMatchResult.allMatched, BodyMatchResult.all]
  | mismatches g => simp only [BodyMatchResult.allMatched, BodyMatchResult.all]; exact (flatMap_nil_iff g).symm

/-- **C25** for every result record whose path entry is not the (never produced) empty error list. -/
theorem C25_verdict_partial (r : RequestMatchResult) (h : r.path ≠ some []) :
    r.allMatched = true ↔ r.mismatches = [] := by
  unfold RequestMatchResult.allMatched RequestMatchResult.mismatches
  simp only [Bool.and_eq_true, List.append_eq_nil_iff, C25_body_verdict, ← flatMap_nil_iff]
  have h1 : r.method.isNone = true ↔ r.method.toList = [] := by cases r.method <;> simp
  have h2 : r.path.isNone = true ↔ r.path.getD [] = [] := by
    cases hp : r.path with
    | none => simp
    | some l =>
      have : l ≠ [] := fun e => h (by rw [hp, e])
      simp [this]
  rw [h1, h2]

/-- **C25** is false for arbitrary records (the fields are public): an empty list of path errors. -/
theorem C25_record_fails : ∃ r : RequestMatchResult, r.mismatches = [] ∧ r.allMatched = false :=
  ⟨⟨none, some [], .ok, [], []⟩, by decide, by decide⟩

theorem matchValues_error_ne_nil (v : MatchingRule → Bool → Bool) (rl : RuleList)
    (es : List (Option MatchingRule)) (h : matchValues v rl = .error es) : es ≠ [] :=
  matchValues_consistent v rl es h

theorem matchPath_ne_nil (env : Env) (e a : Str) (ctx : Ctx) : matchPath env e a ctx ≠ some [] := by
  unfold matchPath
  split
  · split
    · simp
    · rename_i ms hm
      have := matchValues_error_ne_nil _ _ _ hm
      simpa using this
  · split <;> simp

/-- **C25** for the results of comparing any two requests, whatever the rules and external engines do. -/
theorem C25_match_request (env : Env) (uc : UC) (be : BodyEnv) (e a : Request) :
    (matchRequest env uc be e a).allMatched = true ↔ (matchRequest env uc be e a).mismatches = [] :=
  C25_verdict_partial _ (matchPath_ne_nil env e.path a.path _)

theorem groupInsert_values {V : Type} (k : Str) (v : V) (m : List (Str × List V)) :
    ((groupInsert k v m).flatMap (·.2)).Perm (m.flatMap (·.2) ++ [v]) := by
  induction m with
  | nil => simp [groupInsert]
  | cons x xs ih =>
    unfold groupInsert
    split
    · simp only [List.flatMap_cons, List.append_assoc]
      exact List.Perm.append_left _ List.perm_append_comm
    · simp only [List.flatMap_cons, List.append_assoc]
      exact List.Perm.append_left _ ih

theorem groupBy_values {V : Type} (key : V → Str) (l : List V) : ((groupBy key l).flatMap (·.2)).Perm l := by
  have : ∀ (l : List V) (m : List (Str × List V)),
      ((l.foldl (fun m v => groupInsert (key v) v m) m).flatMap (·.2)).Perm (m.flatMap (·.2) ++ l) := by
    intro l
    induction l with
    | nil => intro m; simp
    | cons v l ih =>
      intro m
      rw [List.foldl_cons]
      refine (ih _).trans ?_
      refine ((groupInsert_values (key v) v m).append_right l).trans ?_
      simp
  simpa [groupBy] using this l []

/-- Grouping body mismatches by path loses and invents nothing. -/
theorem C25_grouping (env : Env) (be : BodyEnv) (ct : ContentType) (e a : Option Bytes) (ctx : Ctx) :
    (compareBodies env be ct e a ctx).all.Perm ((compareBodiesCore env be ct e a ctx).map MM.body) := by
  unfold compareBodies
  simp only
  split
  · rename_i h
    simp [List.isEmpty_iff.1 h, BodyMatchResult.all]
  · simp only [BodyMatchResult.all]
    rw [List.flatMap_map]
    have := (groupBy_values (fun m : Mismatch => m.path.expr) (compareBodiesCore env be ct e a ctx)).map MM.body
    rw [List.map_flatMap] at this
    exact this

/-- **C25** for body contents and messages: the result is `Ok` iff there is no mismatch, so an `Err` is never
empty. -/
theorem C25_body_content (env : Env) (be : BodyEnv) (ct : ContentType) (e a : Body) (ctx : Ctx) :
    matchBodyContent env be ct e a ctx = .ok ↔ (matchBodyContent env be ct e a ctx).all = [] := by
  have hc : ∀ (e a : Option Bytes), compareBodies env be ct e a ctx = .ok ↔
      (compareBodies env be ct e a ctx).all = [] := by
    intro e a
    have hp := C25_grouping env be ct e a ctx
    constructor
    · intro h; rw [h]; rfl
    · intro h
      rw [h] at hp
      have : compareBodiesCore env be ct e a ctx = [] := by simpa using hp.symm.eq_nil
      unfold compareBodies
      simp [this]
  unfold matchBodyContent
  split <;> first | exact hc _ _ | simp [BodyMatchResult.all, oneBody]

/-! ### C26: the score -/

/-- Specification: the parts of a request result, each matched (`true`) or not: the method, the path, each
query parameter, each header, and the body mismatches by path (nothing for a matching body). -/
def parts (r : RequestMatchResult) : List Bool :=
  [decide (r.method = none), decide (r.path = none)]
  ++ r.query.map (fun kv => decide (kv.2 = [])) ++ r.headers.map (fun kv => decide (kv.2 = []))
  ++ (match r.body with
    | .ok => []
    | .typeMismatch => [false]
    | .mismatches g => g.map (fun kv => decide (kv.2 = [])))

/-- Specification: matched parts minus mismatched parts. -/
def balance (r : RequestMatchResult) : Int := (parts r).count true - (parts r).count false

theorem isEmpty_decide {α : Type} [DecidableEq α] (l : List α) : l.isEmpty = decide (l = []) := by
  cases l <;> simp

theorem increments_eq (r : RequestMatchResult) : r.increments = parts r := by
  have h1 : r.method.isNone = decide (r.method = none) := by cases r.method <;> simp
  have h2 : r.path.isNone = decide (r.path = none) := by cases r.path <;> simp
  unfold RequestMatchResult.increments parts
  rw [h1, h2]
  simp only [isEmpty_decide]
  cases r.body <;> rfl

theorem bumps_ok : ∀ (l : List Bool) (s : Int), -127 ≤ s - l.length → s + l.length ≤ 127 →
    RequestMatchResult.bumps l s = .ok (s + l.count true - l.count false) := by
  intro l
  induction l with
  | nil => intro s _ _; simp [RequestMatchResult.bumps]
  | cons b l ih =>
    intro s h1 h2
    simp only [List.length_cons] at h1 h2
    unfold RequestMatchResult.bumps RequestMatchResult.bump
    cases b with
    | true =>
      simp only [if_true]
      rw [if_pos (by omega), Res.bind_ok, ih _ (by omega) (by omega)]
      simp
      omega
    | false =>
      simp only [Bool.false_eq_true, if_false]
      rw [if_pos (by omega), Res.bind_ok, ih _ (by omega) (by omega)]
      simp
      omega

theorem bumps_true : ∀ (k : Nat) (s : Int), s ≤ 127 → 127 < s + k →
    RequestMatchResult.bumps (List.replicate k true) s = .panic := by
  intro k
  induction k with
  | zero => intro s h1 h2; omega
  | succ k ih =>
    intro s h1 h2
    rw [List.replicate_succ]
    unfold RequestMatchResult.bumps RequestMatchResult.bump
    simp only [if_true]
    split
    · rw [Res.bind_ok]; exact ih _ (by omega) (by omega)
    · rfl

/-- **C26** (partial): with at most 127 parts the score is the number of matched parts minus the number of
mismatched ones; no overflow. -/
theorem C26_score_partial (r : RequestMatchResult) (h : (parts r).length ≤ 127) :
    r.score = .ok (balance r) := by
  unfold RequestMatchResult.score balance
  rw [increments_eq, bumps_ok _ _ (by omega) (by omega)]
  simp

theorem wrapI8_id (n : Int) (h1 : -128 ≤ n) (h2 : n ≤ 127) : RequestMatchResult.wrapI8 n = n := by
  unfold RequestMatchResult.wrapI8
  omega

theorem wrapping_foldl : ∀ (l : List Bool) (s : Int), -127 ≤ s - l.length → s + l.length ≤ 127 →
    l.foldl (fun s b => RequestMatchResult.wrapI8 (if b = true then s + 1 else s - 1)) s
      = s + l.count true - l.count false := by
  intro l
  induction l with
  | nil => intro s _ _; simp
  | cons b l ih =>
    intro s h1 h2
    simp only [List.length_cons] at h1 h2
    rw [List.foldl_cons]
    cases b with
    | true =>
      rw [if_pos rfl, wrapI8_id (s + 1) (by omega) (by omega), ih (s + 1) (by omega) (by omega)]
      simp; omega
    | false =>
      rw [if_neg (by decide), wrapI8_id (s - 1) (by omega) (by omega), ih (s - 1) (by omega) (by omega)]
      simp; omega

/-- Release builds compute the same score below the bound. -/
theorem C26_score_release_partial (r : RequestMatchResult) (h : (parts r).length ≤ 127) :
    r.scoreWrapping = balance r := by
  unfold RequestMatchResult.scoreWrapping balance
  rw [increments_eq, wrapping_foldl _ _ (by omega) (by omega)]
  omega

/-- Every part matched in `r` is matched in `s` (same parts). -/
def Improves : List Bool → List Bool → Prop
  | [], [] => True
  | b :: bs, c :: cs => (b = true → c = true) ∧ Improves bs cs
  | _, _ => False

theorem improves_length : ∀ {l m : List Bool}, Improves l m → l.length = m.length
  | [], [], _ => rfl
  | [], _ :: _, h => by simp [Improves] at h
  | _ :: _, [], h => by simp [Improves] at h
  | b :: bs, c :: cs, h => by simp [improves_length h.2]

theorem improves_count : ∀ {l m : List Bool}, Improves l m →
    l.count true ≤ m.count true ∧ m.count false ≤ l.count false ∧
      (l ≠ m → l.count true < m.count true ∧ m.count false < l.count false)
  | [], [], _ => by simp
  | [], _ :: _, h => by simp [Improves] at h
  | _ :: _, [], h => by simp [Improves] at h
  | b :: bs, c :: cs, h => by
    obtain ⟨i1, i2, i3⟩ := improves_count h.2
    have hb := h.1
    cases b <;> cases c <;> simp at hb ⊢ <;> (refine ⟨by omega, by omega, ?_⟩)
    · exact i3
    · omega
    · exact i3

/-- **C26**: making a part match (leaving the others as they are) strictly increases the score: the candidate
with fewer mismatching parts is ranked higher (within the range of the `i8`). -/
theorem C26_monotone_partial (r s : RequestMatchResult) (h : Improves (parts r) (parts s))
    (hl : (parts r).length ≤ 127) :
    ∃ m n, r.score = .ok m ∧ s.score = .ok n ∧ m ≤ n ∧ (parts r ≠ parts s → m < n) := by
  refine ⟨_, _, C26_score_partial r hl, C26_score_partial s (improves_length h ▸ hl), ?_, ?_⟩
  · have := improves_count h
    unfold balance
    omega
  · intro hne
    have := (improves_count h).2.2 hne
    unfold balance
    omega

theorem count_le_true (l : List Bool) : (l.count true : Int) - l.count false ≤ l.length ∧
    ((l.count true : Int) - l.count false = l.length ↔ ∀ b ∈ l, b = true) := by
  induction l with
  | nil => simp
  | cons b l ih =>
    obtain ⟨h1, h2⟩ := ih
    cases b with
    | true =>
      simp only [List.mem_cons, forall_eq_or_imp, true_and, List.length_cons, List.count_cons_self,
        ← h2]
      rw [List.count_cons_of_ne (by decide)]
      omega
    | false =>
      simp only [List.mem_cons, forall_eq_or_imp, List.length_cons, List.count_cons_self, Bool.false_eq_true,
        false_and, iff_false]
      rw [List.count_cons_of_ne (by decide)]
      omega

theorem matchBodyContent_shape (env : Env) (be : BodyEnv) (ct : ContentType) (e a : Body) (ctx : Ctx) :
    (matchBodyContent env be ct e a ctx).allMatched = true ↔ matchBodyContent env be ct e a ctx = .ok := by
  rw [C25_body_verdict, ← C25_body_content]

theorem matchBody_ok_iff (env : Env) (uc : UC) (be : BodyEnv) (e a : Part) (ctx hctx : Ctx) :
    (matchBody env uc be e a ctx hctx).allMatched = true ↔ matchBody env uc be e a ctx hctx = .ok := by
  unfold matchBody
  simp only
  split
  · exact matchBodyContent_shape env be _ _ _ _
  · split <;> simp [BodyMatchResult.allMatched]

/-- What body comparisons produce: every reported group holds a mismatch, and there is one. -/
def Sensible : BodyMatchResult → Prop
  | .mismatches g => g ≠ [] ∧ ∀ kv ∈ g, kv.2 ≠ []
  | _ => True

theorem groupInsert_ne_nil {V : Type} (k : Str) (v : V) (m : List (Str × List V))
    (h : ∀ kv ∈ m, kv.2 ≠ []) : groupInsert k v m ≠ [] ∧ ∀ kv ∈ groupInsert k v m, kv.2 ≠ [] := by
  induction m with
  | nil => simp [groupInsert]
  | cons x xs ih =>
    unfold groupInsert
    split
    · refine ⟨by simp, ?_⟩
      intro kv hkv
      rcases List.mem_cons.1 hkv with rfl | hkv
      · simp
      · exact h kv (by simp [hkv])
    · refine ⟨by simp, ?_⟩
      intro kv hkv
      rcases List.mem_cons.1 hkv with rfl | hkv
      · exact h _ (by simp)
      · exact (ih (fun kv hkv => h kv (by simp [hkv]))).2 kv hkv

theorem groupBy_ne_nil {V : Type} (key : V → Str) (l : List V) :
    (l ≠ [] → groupBy key l ≠ []) ∧ ∀ kv ∈ groupBy key l, kv.2 ≠ [] := by
  have : ∀ (l : List V) (m : List (Str × List V)), (∀ kv ∈ m, kv.2 ≠ []) →
      ((m ≠ [] ∨ l ≠ []) → l.foldl (fun m v => groupInsert (key v) v m) m ≠ []) ∧
      ∀ kv ∈ l.foldl (fun m v => groupInsert (key v) v m) m, kv.2 ≠ [] := by
    intro l
    induction l with
    | nil => intro m hm; simp; exact fun a b hab => hm (a, b) hab
    | cons v l ih =>
      intro m hm
      rw [List.foldl_cons]
      obtain ⟨g1, g2⟩ := groupInsert_ne_nil (key v) v m hm
      obtain ⟨i1, i2⟩ := ih _ g2
      exact ⟨fun _ => i1 (Or.inl g1), i2⟩
  obtain ⟨h1, h2⟩ := this l [] (by simp)
  exact ⟨fun h => h1 (Or.inr h), h2⟩

theorem compareBodies_sensible (env : Env) (be : BodyEnv) (ct : ContentType) (e a : Option Bytes) (ctx : Ctx) :
    Sensible (compareBodies env be ct e a ctx) := by
  unfold compareBodies
  simp only
  split
  · trivial
  · rename_i h
    obtain ⟨h1, h2⟩ := groupBy_ne_nil (fun m : Mismatch => m.path.expr) (compareBodiesCore env be ct e a ctx)
    refine ⟨by simpa using h1 (by simpa using h), ?_⟩
    intro kv hkv
    obtain ⟨g, hg, rfl⟩ := List.mem_map.1 hkv
    simpa using h2 g hg

theorem matchBody_sensible (env : Env) (uc : UC) (be : BodyEnv) (e a : Part) (ctx hctx : Ctx) :
    Sensible (matchBody env uc be e a ctx hctx) := by
  unfold matchBody
  simp only
  split
  · unfold matchBodyContent
    split <;> first | exact compareBodies_sensible _ _ _ _ _ _ | simp [Sensible, oneBody]
  · split <;> trivial

/-- **C26**: among the results of comparing requests, exactly the complete matches have the best possible
balance for their number of query parameters and headers. -/
theorem C26_perfect (env : Env) (uc : UC) (be : BodyEnv) (e a : Request) :
    let r := matchRequest env uc be e a
    balance r ≤ 2 + r.query.length + r.headers.length ∧
      (balance r = 2 + r.query.length + r.headers.length ↔ r.allMatched = true) := by
  intro r
  have hs : Sensible r.body := matchBody_sensible env uc be e.part a.part _ _
  generalize hp : [decide (r.method = none), decide (r.path = none)]
    ++ r.query.map (fun kv => decide (kv.2 = [])) ++ r.headers.map (fun kv => decide (kv.2 = [])) = l
  have hl : l.length = 2 + r.query.length + r.headers.length := by subst hp; simp; omega
  have hall : r.allMatched = true ↔ (∀ b ∈ l, b = true) ∧ r.body.allMatched = true := by
    subst hp
    unfold RequestMatchResult.allMatched
    simp [Bool.and_eq_true, and_assoc, or_imp, forall_and]
  obtain ⟨c1, c2⟩ := count_le_true l
  have hbal : balance r = (l.count true - l.count false) + (match r.body with
      | .ok => 0 | .typeMismatch => -1 | .mismatches g => -(g.length : Int)) := by
    unfold balance parts
    rw [hp]
    cases hb : r.body with
    | ok => simp
    | typeMismatch => simp; omega
    | mismatches g =>
      rw [hb] at hs
      have : g.map (fun kv => decide (kv.2 = [])) = List.replicate g.length false := by
        rw [List.eq_replicate_iff]
        refine ⟨by simp, ?_⟩
        intro b hb
        obtain ⟨kv, hkv, rfl⟩ := List.mem_map.1 hb
        simpa using hs.2 kv hkv
      simp only [this, List.count_append, List.count_replicate]
      simp
      omega
  have hl' : (2 : Int) + r.query.length + r.headers.length = l.length := by omega
  rw [hall, ← c2, hbal, hl']
  cases hb : r.body with
  | ok => simp [BodyMatchResult.allMatched]; omega
  | typeMismatch => simp [BodyMatchResult.allMatched]; omega
  | mismatches g =>
    rw [hb] at hs
    have h0 : g.length ≠ 0 := by simpa using hs.1
    have : BodyMatchResult.allMatched (.mismatches g) = false := by
      obtain ⟨kv, rest, rfl⟩ : ∃ kv rest, g = kv :: rest := by
        cases g with
        | nil => exact absurd rfl hs.1
        | cons kv rest => exact ⟨kv, rest, rfl⟩
      have := hs.2 kv (by simp)
      simp [BodyMatchResult.allMatched, this]
    simp only [this, Bool.false_eq_true, and_false, iff_false]
    omega

/-- **C27**: a missing expected body accepts any body of any type. -/
theorem C27_missing_accepts (env : Env) (uc : UC) (be : BodyEnv) (e a : Part) (ctx hctx : Ctx)
    (h : e.body = .missing) : matchBody env uc be e a ctx hctx = .ok := by
  unfold matchBody
  simp only [h, Body.isPresent]
  split
  · rfl
  · rfl

/-! The overflow is reachable: a request with 126 query parameters compared with itself. -/

/-- A request with `n` query parameters. -/
def bigRequest (n : Nat) : Request :=
  ⟨"GET".toList, "/".toList, some ((List.range n).map (fun i => (natStr i, [some "1".toList]))),
    ⟨none, .missing⟩, []⟩

theorem bigRequest_nodup (n : Nat) : NodupKeys ((bigRequest n).query.getD []) := by
  unfold NodupKeys bigRequest
  simp only [Option.getD_some, List.map_map]
  have : ((fun x : Str × List (Option Str) => x.1) ∘ fun i => (natStr i, [some "1".toList])) = natStr := rfl
  rw [this]
  exact List.Pairwise.map natStr (fun a b hab h => hab (natStr_injective h)) List.nodup_range

theorem bigRequest_query (env : Env) (uc : UC) (be : BodyEnv) (n : Nat) :
    let q := (matchRequest env uc be (bigRequest n) (bigRequest n)).query
    q.length = n ∧ ∀ kv ∈ q, kv.2 = [] := by
  intro q
  have hq : q = named MM.query (matchQuery env (bigRequest n).query (bigRequest n).query
    (ctxFor [] .query .noUnexpectedKeys)) := rfl
  have hall := (C23_no_rules env (bigRequest n).query (bigRequest n).query
    (ctxFor [] .query .noUnexpectedKeys) rfl (bigRequest_nodup n)).2 (fun _ => rfl)
  refine ⟨?_, ?_⟩
  · rw [hq]
    unfold named matchQuery matchQueryMaps bigRequest
    simp only [List.length_map, List.length_append]
    rw [List.filter_eq_nil_iff.2]
    · simp
    · intro kv hkv
      have : Json.hasKey kv.1 ((List.range n).map fun i => (natStr i, [some "1".toList])) = true := by
        unfold Json.hasKey
        rw [Json.lookup_isSome]
        exact List.mem_map.2 ⟨kv, hkv, rfl⟩
      rw [this]; simp
  · intro kv hkv
    rw [hq] at hkv
    obtain ⟨x, hx, rfl⟩ := List.mem_map.1 hkv
    simp [hall x hx]

theorem bigRequest_parts (env : Env) (uc : UC) (be : BodyEnv) (n : Nat) :
    parts (matchRequest env uc be (bigRequest n) (bigRequest n)) = List.replicate (2 + n) true := by
  obtain ⟨h1, h2⟩ := bigRequest_query env uc be n
  rw [List.eq_replicate_iff]
  have hm : (matchRequest env uc be (bigRequest n) (bigRequest n)).method = none := by
    simp [matchRequest, matchMethod]
  have hp : (matchRequest env uc be (bigRequest n) (bigRequest n)).path = none := by
    have : isDefined (ctxFor [] .path .noUnexpectedKeys) Path.empty = false :=
      noRules_isDefined (ctx := ctxFor [] .path .noUnexpectedKeys) rfl _
    simp only [matchRequest, matchPath, bigRequest, this]
    rfl
  have hb : (matchRequest env uc be (bigRequest n) (bigRequest n)).body = .ok := by
    exact C27_missing_accepts env uc be (bigRequest n).part (bigRequest n).part
      (ctxFor [] .body .noUnexpectedKeys) (lowerCtx uc (ctxFor [] .header .noUnexpectedKeys)) rfl
  have hh : (matchRequest env uc be (bigRequest n) (bigRequest n)).headers = [] := rfl
  unfold parts
  rw [hm, hp, hb, hh]
  refine ⟨by simp [h1]; omega, ?_⟩
  intro b hbm
  simp only [decide_true, List.map_nil, List.append_nil, List.cons_append, List.nil_append, List.mem_cons,
    List.mem_map] at hbm
  rcases hbm with rfl | rfl | ⟨kv, hkv, rfl⟩
  · rfl
  · rfl
  · simp [h2 kv hkv]

/-- **C26** is false: the score of a completely matching request with 126 or more query parameters overflows;
debug builds panic and release builds give the worst possible score to it. -/
theorem C26_overflow (env : Env) (uc : UC) (be : BodyEnv) :
    (∀ n, 126 ≤ n → (matchRequest env uc be (bigRequest n) (bigRequest n)).allMatched = true ∧
      (matchRequest env uc be (bigRequest n) (bigRequest n)).score = .panic) ∧
    (matchRequest env uc be (bigRequest 126) (bigRequest 126)).scoreWrapping = -128 := by
  constructor
  · intro n hn
    have hp := bigRequest_parts env uc be n
    refine ⟨?_, ?_⟩
    · obtain ⟨h1, h2⟩ := C26_perfect env uc be (bigRequest n) (bigRequest n)
      refine h2.1 ?_
      obtain ⟨hq, _⟩ := bigRequest_query env uc be n
      have hh : (matchRequest env uc be (bigRequest n) (bigRequest n)).headers = [] := rfl
      unfold balance
      rw [hp, hq, hh]
      simp [List.count_replicate]
    · unfold RequestMatchResult.score
      rw [increments_eq, hp]
      exact bumps_true _ _ (by omega) (by omega)
  · unfold RequestMatchResult.scoreWrapping
    rw [increments_eq, bigRequest_parts]
    decide +kernel

/-! ### C27: the body decision table -/

/-- Specification: the content types allow a comparison of the contents. -/
def Comparable (env : Env) (uc : UC) (be : BodyEnv) (e a : Part) (hctx : Ctx) : Prop :=
  typesAgree env uc (contentTypeD uc be e) (contentTypeD uc be a) hctx = true

/-- **C27** (partial): if the content types are comparable, an empty or null expected body accepts exactly the
bodies that are not present. -/
theorem C27_empty_partial (env : Env) (uc : UC) (be : BodyEnv) (e a : Part) (ctx hctx : Ctx)
    (h : e.body = .empty ∨ e.body = .null) (hc : Comparable env uc be e a hctx) :
    matchBody env uc be e a ctx hctx = .ok ↔ a.body.isPresent = false := by
  unfold matchBody
  simp only
  rw [if_pos (show typesAgree env uc (contentTypeD uc be e) (contentTypeD uc be a) hctx = true from hc)]
  unfold matchBodyContent
  rcases h with h | h <;> rw [h] <;> cases a.body <;> simp [oneBody, Body.isPresent]

/-- **C27** is false for empty expected bodies in general: if the content types differ, any body is
accepted. -/
theorem C27_empty_fails (env : Env) (uc : UC) (be : BodyEnv) (e a : Part) (ctx hctx : Ctx)
    (h : e.body = .empty ∨ e.body = .null) (hc : ¬ Comparable env uc be e a hctx) :
    matchBody env uc be e a ctx hctx = .ok := by
  unfold matchBody
  simp only
  rw [if_neg (show ¬ typesAgree env uc (contentTypeD uc be e) (contentTypeD uc be a) hctx = true from hc)]
  rcases h with h | h <;> rw [h] <;> simp [Body.isPresent]

/-- **C27**: a present expected body rejects missing and empty bodies, whatever the types and rules. -/
theorem C27_present_rejects (env : Env) (uc : UC) (be : BodyEnv) (e a : Part) (ctx hctx : Ctx)
    (h : e.body.isPresent = true) (ha : a.body = .missing ∨ a.body = .empty) :
    (matchBody env uc be e a ctx hctx).all ≠ [] := by
  unfold matchBody
  simp only
  split
  · unfold matchBodyContent
    cases hb : e.body with
    | present b ct => rcases ha with ha | ha <;> rw [ha] <;> simp [oneBody, BodyMatchResult.all]
    | _ => rw [hb] at h; simp [Body.isPresent] at h
  · simp [BodyMatchResult.all, h]

/-- **C27**: a content type mismatch is reported iff a body is expected and the types are not comparable. -/
theorem C27_type_mismatch (env : Env) (uc : UC) (be : BodyEnv) (e a : Part) (ctx hctx : Ctx) :
    matchBody env uc be e a ctx hctx = .typeMismatch ↔
      e.body.isPresent = true ∧ ¬ Comparable env uc be e a hctx := by
  unfold matchBody Comparable
  simp only
  split
  · rename_i h
    simp only [h, not_true_eq_false, and_false, iff_false]
    unfold matchBodyContent
    split <;> first
      | (unfold compareBodies; simp only; split <;> simp)
      | simp [oneBody]
  · rename_i h
    cases hp : e.body.isPresent <;> simp [h]

/-- **C27**: without a content type rule, the types are comparable iff one of them is unknown or the expected
one is equivalent to the actual one or to its base type. -/
theorem C27_comparable_no_rule (env : Env) (uc : UC) (be : BodyEnv) (e a : Part) (hctx : Ctx)
    (h : NoRules hctx) :
    Comparable env uc be e a hctx ↔
      (contentTypeD uc be e).isUnknown = true ∨ (contentTypeD uc be a).isUnknown = true ∨
      (contentTypeD uc be e).isEquivalentTo (contentTypeD uc be a) = true ∨
      (contentTypeD uc be e).isEquivalentTo (contentTypeD uc be a).baseType = true := by
  unfold Comparable typesAgree
  have : (best hctx (join rootPath "content-type".toList)).rules = [] := by
    unfold best selectBestMatcher resolveMatchersForPath filterCat maxByPath bestEntry
    unfold NoRules at h
    cases hctx.cat.name <;> simp [h, maxByKey, defaultList, emptyList, asRuleList]
  rw [this]
  simp only [Bool.or_eq_true, List.isEmpty_nil, Bool.not_true, Bool.false_and, Bool.false_eq_true, or_false,
    or_assoc]

/-! ### C28: methods -/

/-- **C28**: methods are compared by their lower-case forms. -/
theorem C28_method (uc : UC) (e a : Str) : matchMethod uc e a = none ↔ uc.lower e = uc.lower a := by
  unfold matchMethod
  by_cases h : uc.lower e = uc.lower a <;> simp [h]

/-- **C28**: an equivalence relation. -/
theorem C28_equivalence (uc : UC) :
    (∀ m, matchMethod uc m m = none) ∧
    (∀ m n, matchMethod uc m n = none → matchMethod uc n m = none) ∧
    (∀ l m n, matchMethod uc l m = none → matchMethod uc m n = none → matchMethod uc l n = none) := by
  simp only [C28_method]
  exact ⟨fun _ => trivial, fun _ _ h => h.symm, fun _ _ _ h1 h2 => h1.trans h2⟩

/-- **C28**: ASCII methods match iff they are equal character by character up to letter case. -/
theorem C28_ascii (uc : UC) (e a : Str) (he : ∀ c ∈ e, c.toNat < 128) (ha : ∀ c ∈ a, c.toNat < 128) :
    matchMethod uc e a = none ↔ e.map Char.toLower = a.map Char.toLower := by
  rw [C28_method, uc.lower_ascii e he, uc.lower_ascii a ha]

/-! ### Content type equivalence -/

/-- **C50**: equivalence of content types, spelled out. -/
theorem C50_equivalence_iff_partial (c d : ContentType) :
    c.isEquivalentTo d = true ↔
      if c.isStrictXml = true ∧ d.isStrictXml = true then c.attrs = [] ∨ c.attrs = d.attrs
      else if c.attrs = [] then c.main = d.main ∧ c.sub = d.sub
      else c = d := by
  unfold ContentType.isEquivalentTo
  by_cases h : c.isStrictXml = true ∧ d.isStrictXml = true
  · simp [h.1, h.2]
  · have : (c.isStrictXml && d.isStrictXml) = false := by simpa using h
    rw [if_neg h, this]
    cases hc : c.attrs <;> simp

/-- **C50**: every content type is equivalent to itself. -/
theorem C50_reflexive (c : ContentType) : c.isEquivalentTo c = true := by
  unfold ContentType.isEquivalentTo
  split
  · simp
  · split <;> simp

/-- **C50**: parameters of the actual type are ignored when none are expected. -/
theorem C50_actual_attributes_ignored (c d : ContentType) (attrs : List (Str × Str)) (h : c.attrs = []) :
    c.isEquivalentTo { d with attrs := attrs } = c.isEquivalentTo d := by
  have hs : ContentType.isStrictXml { d with attrs := attrs } = d.isStrictXml := rfl
  unfold ContentType.isEquivalentTo
  rw [hs, h]
  rfl

/-- **C50** is not a symmetric relation. -/
theorem C50_asymmetric : ∃ c d : ContentType, c.isEquivalentTo d = true ∧ d.isEquivalentTo c = false :=
  ⟨⟨"text".toList, "plain".toList, [], none⟩,
   ⟨"text".toList, "plain".toList, [("charset".toList, "utf-8".toList)], none⟩, by decide, by decide⟩

/-- **C50**: without parameters the structured-syntax suffix is ignored, so `application/hal+json` and
`application/hal+xml` are equivalent. -/
theorem C50_suffix_ignored : ∃ c d : ContentType, c.isEquivalentTo d = true ∧ c.suffix ≠ d.suffix ∧
    c.isJson = true ∧ d.isXml = true :=
  ⟨⟨"application".toList, "hal".toList, [], some "json".toList⟩,
   ⟨"application".toList, "hal".toList, [], some "xml".toList⟩, by decide, by decide, by decide, by decide⟩

/-- A concrete environment for examples: bodies are texts, JSON and forms are never valid. -/
def simpleBody : BodyEnv where
  parseContentType := fun s => match splitOnce '/' s with
    | some (m, r) => some ⟨m, r, [], none⟩
    | none => none
  detect := fun _ => ⟨"text".toList, "plain".toList, [], none⟩
  json := fun b => if b = [49] then some (.num (.pos 1)) else none
  utf8 := fun b => some (b.map (fun x => Char.ofNat x.toNat))
  form := fun _ => none
  bytesMatch := fun _ _ _ _ => true
  xml := fun _ _ _ => []
  multipart := fun _ _ _ => []

def hdr (ct : String) : Option HeaderMap := some [("Content-Type".toList, [ct.toList])]
def noRules : Ctx := ⟨⟨.body, []⟩, .noUnexpectedKeys⟩

/-- An expected empty body of one type accepts a present body of another type. -/
example : ∃ e a : Part, e.body = .empty ∧ a.body.isPresent = true ∧
    ¬ Comparable Env.simple UC.ascii simpleBody e a noRules ∧
    matchBody Env.simple UC.ascii simpleBody e a noRules noRules = .ok := by
  refine ⟨⟨hdr "application/json", .empty⟩, ⟨hdr "text/plain", .present [65] none⟩, rfl, rfl, ?_, ?_⟩
  · unfold Comparable; decide
  · decide
example : ∃ e a : Part, e.body = .empty ∧ Comparable Env.simple UC.ascii simpleBody e a noRules :=
  ⟨⟨none, .empty⟩, ⟨hdr "text/plain", .present [65] none⟩, rfl, by unfold Comparable; decide⟩
example : matchBody Env.simple UC.ascii simpleBody ⟨hdr "application/json", .present [49] none⟩
    ⟨hdr "text/plain", .present [49] none⟩ noRules noRules = .typeMismatch := by decide
example : matchBody Env.simple UC.ascii simpleBody ⟨hdr "application/json", .present [49] none⟩
    ⟨hdr "application/json", .present [49] none⟩ noRules noRules = .ok := by decide
example : matchMethod UC.ascii "get".toList "GET".toList = none := by decide
example : matchMethod UC.ascii "get".toList "PUT".toList ≠ none := by decide
example : (parts (matchRequest Env.simple UC.ascii simpleBody (bigRequest 3) (bigRequest 3))).length ≤ 127 := by
  decide
example : Improves (parts ⟨none, none, .ok, [("a".toList, [.method])], []⟩)
    (parts ⟨none, none, .ok, [("a".toList, [])], []⟩) := by simp [Improves, parts]

end ResultProps
end Verif
