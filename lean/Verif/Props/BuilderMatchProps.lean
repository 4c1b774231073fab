import Verif.Props.BuilderProps
import Verif.Props.FormRuleProps
import Verif.Props.MultipartProps
import Verif.Props.MessageProps
import Verif.Props.BodyBuildProps
import Verif.Props.PatternDenotation
import Verif.Provider
import Verif.Props.EngineProps

/-
  Property C156: which requests a request of the consumer builders accepts, for every sequence of builder calls.
-/

set_option autoImplicit false

namespace Verif
namespace BuilderMatchProps
open Path Rules Matchers Compare Query Headers Builders BuilderProps
open Generate PactFile Parts
open MatchResult hiding Part Message
open CompareProps QueryProps HeaderProps ResultProps EndToEndProps
open FormProps (Name IsFormRule CountOk ValueOk matches_param name_seg rowTokens count_ok formRule_plain toVec_param
  toVec_value toVec_below)
open BodyBuildProps (asRequest asBody)

/-! ## Specification -/

/-- The name has only ASCII characters. -/
def Ascii (n : Str) : Prop := ∀ c ∈ n, c.toNat < 128

/-- Names of headers are in ASCII and neither wildcards nor numbers; every header is given under one spelling. -/
structure PlainHeaders (uc : UC) (ps : List PartCall) : Prop where
  names : ∀ e ∈ headersIn ps, Ascii e.1 ∧ Name (uc.lower e.1)
  spelling : ∀ e ∈ headersIn ps, ∀ f ∈ headersIn ps, uc.lower e.1 = uc.lower f.1 → e.1 = f.1

/-- The path is the one given last if no path was given as a pattern, otherwise it satisfies the rules of all patterns that
were given for the path. -/
def PathFits (env : Env) (cs : List RequestCall) (a : Str) : Prop :=
  if (pathsIn cs).flatMap rulesOf = [] then a = ((pathsIn cs).map example_).getLast?.getD ['/']
  else ∀ p ∈ pathsIn cs, ∀ r ∈ rulesOf p, ValueOk env r a

/-- The parameters are those given, each with the given values in order if all are literals, otherwise with any number of values
that satisfy the rules of all patterns that were given for it. -/
def QueryFits (env : Env) (cs : List RequestCall) (a : Option QueryMap) : Prop :=
  (∀ k, k ∈ (queriesIn cs).map (·.1) ↔ k ∈ (a.getD []).map (·.1)) ∧
  ∀ k ws, Json.lookup k (a.getD []) = some ws →
    if rulesFor (queriesIn cs) k = [] then texts ws = texts (valuesIn k cs)
    else ∀ w ∈ texts ws, ∀ r ∈ rulesFor (queriesIn cs) k, ValueOk env r w

/-- Each given header is there, with the given values in order if all are literals, otherwise with values that, without blanks at
both ends, satisfy the rules of all patterns that were given for it. -/
def HeadersFit (env : Env) (uc : UC) (ps : List PartCall) (a : Option HeaderMap) : Prop :=
  ∀ n ∈ (headersIn ps).map (·.1), ∃ k ws, (k, ws) ∈ a.getD [] ∧ uc.lower k = uc.lower n ∧
    if rulesFor (headersIn ps) n = [] then SameValues uc n (headerValues uc n ps) ws
    else ∀ w ∈ ws, ∀ r ∈ rulesFor (headersIn ps) n, ValueOk env r (trim uc w)

/-! ## Proofs -/

/-! ### Rules of names -/

/-- A rule that is about single values only. -/
def Single (r : MatchingRule) : Prop := IsFormRule r ∧ ∀ n, CountOk r n

theorem rulesOf_single (p : SPattern) : ∀ r ∈ rulesOf p, Single r := by
  induction p with
  | lit s => intro r h; cases h
  | like p ih =>
    intro r h
    rcases List.mem_cons.1 h with rfl | h
    · exact ⟨trivial, fun _ => trivial⟩
    · exact ih r h
  | term re e => intro r h; rw [List.mem_singleton.1 h]; exact ⟨trivial, fun _ => trivial⟩
  | datetime f e => intro r h; rw [List.mem_singleton.1 h]; exact ⟨trivial, fun _ => trivial⟩

theorem rulesFor_single (l : List (Str × SPattern)) (k : Str) : ∀ r ∈ rulesFor l k, Single r := by
  intro r h
  obtain ⟨e, -, hr⟩ := List.mem_flatMap.1 h
  exact rulesOf_single e.2 r hr

/-- The context has the rules `L k` for the name `k` and no others. -/
structure Ruled (ctx : Ctx) (L : Str → List MatchingRule) : Prop where
  cat : ctx.cat.name = .query ∨ ctx.cat.name = .header ∨ ctx.cat.rules = []
  rules : NamedRules L ctx.cat.rules
  names : ∀ k, L k ≠ [] → Name k
  single : ∀ k, ∀ r ∈ L k, Single r

theorem ruled_at {ctx : Ctx} {L : Str → List MatchingRule} (h : Ruled ctx L) (k : Str) (rest : List Str) (q : DocPath)
    (hq : toVec q = ['$'] :: PatternProps.seg k :: rest) :
    (L k ≠ [] → isDefined ctx q = true ∧ best ctx q = ⟨L k, .and, false⟩) ∧ (L k = [] → isDefined ctx q = false) := by
  have hm : ∀ e ∈ ctx.cat.rules, (matchesPath e.1.tokens (toVec q) = true ↔ e = (fromTokens [.root, .field k], ⟨L k, .and, false⟩)) := by
    intro e he
    obtain ⟨n, hn, rfl⟩ := h.rules.only e he
    have := matches_param (k := k) (h.names n hn) rest
    rw [hq]
    show matchesPath (rowTokens (n, none)) _ = true ↔ _
    rw [this, decide_eq_true_eq]
    constructor
    · rintro rfl; rfl
    · intro e'
      have := (Prod.mk.inj e').1
      have := congrArg DocPath.tokens this
      simp only [fromTokens, List.cons.injEq, PathToken.field.injEq, and_true, true_and] at this
      exact this.symm
  constructor
  · intro hk
    have hin := h.rules.all k hk
    have hcat : ctx.cat.name = .query ∨ ctx.cat.name = .header := by
      rcases h.cat with c | c | c
      · exact .inl c
      · exact .inr c
      · rw [c] at hin; cases hin
    have hres : (resolveMatchersForPath ctx.cat (toVec q)) =
        filterCat ctx.cat (fun e => matchesPath e.1.tokens (toVec q)) := by
      unfold resolveMatchersForPath
      rcases hcat with c | c <;> rw [c]
    have hmem : (fromTokens [.root, .field k], (⟨L k, .and, false⟩ : RuleList)) ∈
        ctx.cat.rules.filter (fun e => matchesPath e.1.tokens (toVec q)) :=
      List.mem_filter.2 ⟨hin, (hm _ hin).2 rfl⟩
    have hall : ∀ e ∈ ctx.cat.rules.filter (fun e => matchesPath e.1.tokens (toVec q)),
        e = (fromTokens [.root, .field k], ⟨L k, .and, false⟩) := by
      intro e he
      obtain ⟨h1, h2⟩ := List.mem_filter.1 he
      exact (hm e h1).1 h2
    have hbest : best ctx q = asRuleList (resolveMatchersForPath ctx.cat (toVec q)) := by
      unfold best selectBestMatcher
      rcases hcat with c | c <;> rw [c]
    refine ⟨?_, ?_⟩
    · unfold isDefined matcherIsDefined
      rw [hres]
      unfold filterCat
      cases hx : ctx.cat.rules.filter (fun e => matchesPath e.1.tokens (toVec q)) with
      | nil => rw [hx] at hmem; cases hmem
      | cons => rfl
    · rw [hbest, hres]
      unfold filterCat
      cases hx : ctx.cat.rules.filter (fun e => matchesPath e.1.tokens (toVec q)) with
      | nil => rw [hx] at hmem; cases hmem
      | cons e es => rw [hx] at hall; simp only [asRuleList, hall e (by simp)]
  · intro hk
    unfold isDefined matcherIsDefined
    rw [Bool.not_eq_false', List.isEmpty_iff]
    have hno : ∀ e ∈ ctx.cat.rules, ¬ matchesPath e.1.tokens (toVec q) = true := by
      intro e he hx
      have e1 := (hm e he).1 hx
      obtain ⟨n, hn, e2⟩ := h.rules.only e he
      rw [e1] at e2
      have := congrArg (fun z => z.2.rules) e2
      simp only [hk] at this
      exact hn this.symm
    unfold resolveMatchersForPath
    rcases h.cat with c | c | c
    · rw [c]; exact List.filter_eq_nil_iff.2 hno
    · rw [c]; exact List.filter_eq_nil_iff.2 hno
    · have : ∀ f, (filterCat ctx.cat f).rules = [] := by intro f; unfold filterCat; rw [c]; rfl
      split <;> first | exact this _ | exact c

/-! ### Lists of values -/

theorem listContents_all {T : Type} (cb : Callback T) (p : DocPath) (ctx : Ctx) (P : T → Prop)
    (hcb : ∀ i x v, errs (cb (join p (natStr i)) x v ctx) = [] ↔ P v)
    (hd : ∀ i, isDefined ctx (join p (natStr i)) = true) :
    ∀ (as es : List T) (i : Nat), as.length ≤ es.length → (listContents cb p ctx i es as = [] ↔ ∀ v ∈ as, P v) := by
  intro as
  induction as with
  | nil =>
    intro es
    induction es with
    | nil => intro i _; simp [listContents]
    | cons e es ih =>
      intro i _
      rw [listContents, List.append_eq_nil_iff, ih (i + 1) (by simp)]
      simp [hd]
  | cons a as ih =>
    intro es i hl
    cases es with
    | nil => simp at hl
    | cons e es =>
      rw [listContents, List.append_eq_nil_iff, hcb, ih es (i + 1) (by simpa using hl)]
      simp

theorem lists_ok (cb : Callback Str) (rs : List MatchingRule) (p : DocPath) (e a : List Str) (ctx : Ctx) (P : Str → Prop)
    (hne : rs ≠ []) (he : e ≠ []) (hs : ∀ r ∈ rs, Single r)
    (hcb : ∀ i x v, errs (cb (join p (natStr i)) x v ctx) = [] ↔ P v)
    (hd : ∀ i, isDefined ctx (join p (natStr i)) = true) :
    errs (compareListsWithRules listEqStr cb ⟨rs, .and, false⟩ p e a ctx) = [] ↔ ∀ v ∈ a, P v := by
  have hlen : a.length ≤ (padded e a).length := by
    cases e with
    | nil => exact absurd rfl he
    | cons x xs => simp only [padded, List.length_append, List.length_replicate]; omega
  have hone : ∀ r ∈ rs, compareListsWithRule listEqStr cb r p e a ctx false = ofList (matchListContents cb p e a ctx) := by
    intro r hr
    obtain ⟨h1, h2⟩ := hs r hr
    have hc : listMatches listEqStr e a r false = true := (count_ok h1 e a).2 (h2 _)
    have : compareListsWithRule listEqStr cb r p e a ctx false =
        ofList ((if listMatches listEqStr e a r false then [] else [⟨p, .collection⟩]) ++ matchListContents cb p e a ctx) := by
      cases e with
      | nil => exact absurd rfl he
      | cons e0 es => cases r <;> simp [IsFormRule] at h1 <;> rfl
    rw [this, hc]; rfl
  have hempty : rs.isEmpty = false := by cases rs with | nil => exact absurd rfl hne | cons => rfl
  unfold compareListsWithRules
  simp only [hempty, Bool.false_eq_true, if_false, errs_ofList, List.flatMap_eq_nil_iff, List.mem_map,
    forall_exists_index, and_imp, forall_apply_eq_imp_iff₂]
  have hmain : matchListContents cb p e a ctx = [] ↔ ∀ v ∈ a, P v :=
    listContents_all cb p ctx P hcb hd a (padded e a) 0 hlen
  constructor
  · intro h
    obtain ⟨r, hr⟩ := List.exists_mem_of_ne_nil _ hne
    have := h r hr
    rw [hone r hr, errs_ofList] at this
    exact hmain.1 this
  · intro h r hr
    rw [hone r hr, errs_ofList]
    exact hmain.2 h

theorem values_ok (env : Env) (rs : List MatchingRule) (e v : Str) (hne : rs ≠ []) (hs : ∀ r ∈ rs, Single r) :
    matchValues (strMatches env e v) ⟨rs, .and, false⟩ = .ok () ↔ ∀ r ∈ rs, ValueOk env r v := by
  rw [MatcherProps.matchValues_ok_iff]
  simp only [ne_eq, hne, not_false_eq_true, true_and]
  constructor
  · intro h r hr; have := h r hr; rw [formRule_plain env (hs r hr).1] at this; exact this
  · intro h r hr; rw [formRule_plain env (hs r hr).1]; exact h r hr

theorem errs_values {α : Type} (m : Except (List α) Unit) (f : α → Mismatch) (hm : m ≠ .error []) :
    errs (match m with | .ok _ => .ok () | .error ms => (.error (ms.map f) : Outcome)) = [] ↔ m = .ok () := by
  cases m with
  | ok u => exact ⟨fun _ => rfl, fun _ => rfl⟩
  | error ms =>
    constructor
    · intro h
      have : ms = [] := List.map_eq_nil_iff.1 h
      exact absurd (by rw [this]) hm
    · intro h; cases h

/-! ### Query parameters -/

theorem queryValue_ok (env : Env) {ctx : Ctx} {L : Str → List MatchingRule} (h : Ruled ctx L) (k : Str) (rest : List Str)
    (p : DocPath) (n : Nat) (hq : toVec (join p (natStr n)) = ['$'] :: PatternProps.seg k :: rest) (e v : Str) :
    errs (compareQueryValue env p e v n ctx) = [] ↔ if L k = [] then e = v else ∀ r ∈ L k, ValueOk env r v := by
  obtain ⟨h1, h2⟩ := ruled_at h k rest _ hq
  rw [← (compareQueryValue_consistent env p e v n ctx).isOk_iff]
  unfold compareQueryValue
  simp only
  by_cases hk : L k = []
  · rw [if_neg (by rw [h2 hk]; simp), if_pos hk]
    simp only [strMatches]
    by_cases he : e = v <;> simp [he, isOk]
  · obtain ⟨hd, hb⟩ := h1 hk
    rw [if_pos hd, hb, if_neg hk, ← values_ok env (L k) e v hk (h.single k)]
    cases matchValues (strMatches env e v) ⟨L k, .and, false⟩ with
    | ok u => simp [isOk]
    | error ms => simp [isOk]

theorem queryValues_ok (env : Env) {ctx : Ctx} {L : Str → List MatchingRule} (h : Ruled ctx L) (k : Str) (e a : List Str)
    (he : e ≠ []) :
    errs (matchQueryValues env k e a ctx) = [] ↔ if L k = [] then a = e else ∀ v ∈ a, ∀ r ∈ L k, ValueOk env r v := by
  obtain ⟨h1, h2⟩ := ruled_at h k [] _ (toVec_param k)
  unfold matchQueryValues
  simp only
  by_cases hk : L k = []
  · rw [if_neg (by rw [h2 hk]; simp), if_pos hk]
    have hee : e.isEmpty = false := by cases e with | nil => exact absurd rfl he | cons => rfl
    rw [hee]
    simp only [Bool.false_and, Bool.false_eq_true, if_false, errs_merge, List.append_eq_nil_iff, compareQueryValues,
      errs_ofList]
    have hlen : errs (if e.length ≠ a.length then (.error [⟨join rootPath k, .length⟩] : Outcome) else .ok ()) = [] ↔
        a.length = e.length := by
      by_cases hl : e.length = a.length
      · simp [hl, errs]
      · rw [if_pos hl]; simp [errs]; exact fun h => hl h.symm
    rw [hlen]
    constructor
    · rintro ⟨hq, hl⟩
      rw [FormProps.queryLoop_values _ _ _ _ _ _ hl.symm] at hq
      apply List.ext_getElem hl
      intro i hi1 hi2
      have := hq i _ _ (List.getElem?_eq_getElem hi2) (List.getElem?_eq_getElem hi1)
      rw [Nat.zero_add, (compareQueryValue_consistent env _ _ _ i ctx).isOk_iff,
        queryValue_ok env h k [natStr i] _ i (toVec_value k i), if_pos hk] at this
      exact this.symm
    · rintro rfl
      refine ⟨?_, rfl⟩
      rw [FormProps.queryLoop_values _ _ _ _ _ _ rfl]
      intro j x v hx hv
      rw [Nat.zero_add, (compareQueryValue_consistent env _ _ _ j ctx).isOk_iff,
        queryValue_ok env h k [natStr j] _ j (toVec_value k j), if_pos hk]
      rw [hx] at hv; exact Option.some.inj hv
  · obtain ⟨hd, hb⟩ := h1 hk
    rw [if_pos hd, hb, if_neg hk]
    refine lists_ok _ (L k) _ e a _ (fun v => ∀ r ∈ L k, ValueOk env r v) hk he (h.single k) ?_ ?_
    · intro i x v
      show errs (compareQueryValue env (join (join rootPath k) (natStr i)) x v 0 ctx) = [] ↔ _
      rw [queryValue_ok env h k [natStr i, natStr 0] _ 0 (toVec_below k i 0), if_neg hk]
    · intro i
      exact ((ruled_at h k [natStr i] _ (toVec_value k i)).1 hk).1

/-! ### Headers -/

theorem lower_char (c : Char) (h : c.toNat < 128) :
    c.toLower.toNat < 128 ∧ identStart c.toLower = identStart c ∧ identRest c.toLower = identRest c ∧
    (c.toLower = '\\' ↔ c = '\\') ∧ (c.toLower = '\'' ↔ c = '\'') ∧ c.toLower.toLower = c.toLower := by
  have key : ∀ n : Fin 128, (Char.ofNat n).toLower.toNat < 128 ∧
      identStart (Char.ofNat n).toLower = identStart (Char.ofNat n) ∧
      identRest (Char.ofNat n).toLower = identRest (Char.ofNat n) ∧
      ((Char.ofNat n).toLower = '\\' ↔ (Char.ofNat n) = '\\') ∧ ((Char.ofNat n).toLower = '\'' ↔ (Char.ofNat n) = '\'') ∧
      (Char.ofNat n).toLower.toLower = (Char.ofNat n).toLower := by decide +kernel
  have := key ⟨c.toNat, h⟩
  simpa using this

theorem lower_isIdent (k : Str) (h : Ascii k) : isIdent (k.map Char.toLower) = isIdent k := by
  cases k with
  | nil => rfl
  | cons c cs =>
    have h1 := (lower_char c (h c (by simp))).2.1
    have h2 : (cs.map Char.toLower).all identRest = cs.all identRest := by
      have hc : Ascii cs := fun d hd => h d (by simp [hd])
      clear h h1
      induction cs with
      | nil => rfl
      | cons d ds ih =>
        rw [List.map_cons, List.all_cons, List.all_cons, (lower_char d (hc d (by simp))).2.2.1,
          ih (fun x hx => hc x (by simp [hx]))]
    rw [List.map_cons, isIdent, isIdent, h1, h2]

theorem lower_escape (k : Str) (h : Ascii k) : escapeKey (k.map Char.toLower) = (escapeKey k).map Char.toLower := by
  induction k with
  | nil => rfl
  | cons c cs ih =>
    have hc := lower_char c (h c (by simp))
    have hi := ih (fun x hx => h x (by simp [hx]))
    rw [List.map_cons, escapeKey, escapeKey, hi]
    by_cases e : c = '\\' ∨ c = '\''
    · rw [if_pos e, if_pos (by rcases e with e | e; exact .inl (hc.2.2.2.1.2 e); exact .inr (hc.2.2.2.2.1.2 e))]
      rfl
    · rw [if_neg e, if_neg (by rintro (e' | e'); exact e (.inl (hc.2.2.2.1.1 e')); exact e (.inr (hc.2.2.2.2.1.1 e')))]
      rfl

theorem lower_objKey (k : Str) (h : Ascii k) : objKey (k.map Char.toLower) = (objKey k).map Char.toLower := by
  unfold objKey
  rw [lower_isIdent k h]
  split
  · rfl
  · rw [lower_escape k h]; simp only [List.map_cons, List.map_append, List.map_nil]; rfl

theorem escape_ascii (k : Str) (h : Ascii k) : Ascii (escapeKey k) := by
  induction k with
  | nil => exact h
  | cons c cs ih =>
    have hi := ih (fun x hx => h x (by simp [hx]))
    rw [escapeKey]
    intro d hd
    split at hd
    · rcases List.mem_cons.1 hd with rfl | hd
      · decide
      · rcases List.mem_cons.1 hd with rfl | hd
        · exact h _ (by simp)
        · exact hi d hd
    · rcases List.mem_cons.1 hd with rfl | hd
      · exact h _ (by simp)
      · exact hi d hd

theorem expr_ascii (k : Str) (h : Ascii k) : Ascii (fromTokens [.root, .field k]).expr := by
  intro c hc
  have : c = '$' ∨ c ∈ objKey k := by simpa [fromTokens, buildExpr, tokenExpr] using hc
  rcases this with rfl | hc
  · decide
  · unfold objKey at hc
    split at hc
    · rcases List.mem_cons.1 hc with rfl | hc
      · decide
      · exact h c hc
    · rcases List.mem_cons.1 hc with rfl | hc
      · decide
      · rcases List.mem_cons.1 hc with rfl | hc
        · decide
        · rcases List.mem_append.1 hc with hc | hc
          · exact escape_ascii k h c hc
          · rcases List.mem_cons.1 hc with rfl | hc
            · decide
            · rw [List.mem_singleton.1 hc]; decide

theorem lower_path (uc : UC) (k : Str) (h : Ascii k) :
    toLowerCase uc (fromTokens [.root, .field k]) = fromTokens [.root, .field (uc.lower k)] := by
  have he : uc.lower (fromTokens [.root, .field k]).expr = (fromTokens [.root, .field (uc.lower k)]).expr := by
    rw [uc.lower_ascii _ (expr_ascii k h), uc.lower_ascii k h]
    show (['$'] ++ (objKey k ++ [])).map Char.toLower = ['$'] ++ (objKey (k.map Char.toLower) ++ [])
    rw [lower_objKey k h]
    simp
  unfold toLowerCase
  rw [he]
  rfl

theorem lower_lower (uc : UC) (k : Str) (h : Ascii k) : uc.lower (uc.lower k) = uc.lower k := by
  have h2 : Ascii (k.map Char.toLower) := by
    intro c hc
    obtain ⟨d, hd, rfl⟩ := List.mem_map.1 hc
    exact (lower_char d (h d hd)).1
  rw [uc.lower_ascii k h, uc.lower_ascii _ h2, List.map_map]
  apply List.map_congr_left
  intro c hc
  exact (lower_char c (h c hc)).2.2.2.2.2

/-- The rules by name in lower case. -/
structure Lowered (uc : UC) (L L' : Str → List MatchingRule) : Prop where
  ascii : ∀ k, L k ≠ [] → Ascii k
  inj : ∀ k k', L k ≠ [] → L k' ≠ [] → uc.lower k = uc.lower k' → k = k'
  fwd : ∀ k, L k ≠ [] → L' (uc.lower k) = L k
  bwd : ∀ n, L' n ≠ [] → ∃ k, L k ≠ [] ∧ uc.lower k = n

theorem lower_namedRules {uc : UC} {L L' : Str → List MatchingRule} {c : RuleCategory} (h : NamedRules L c.rules)
    (hl : Lowered uc L L') : (lowerCat uc c).name = c.name ∧ NamedRules L' (lowerCat uc c).rules := by
  have hexpr : ∀ e ∈ c.rules, ∃ k, L k ≠ [] ∧ e = (fromTokens [.root, .field k], ⟨L k, .and, false⟩) ∧
      toLowerCase uc e.1 = fromTokens [.root, .field (uc.lower k)] := by
    intro e he
    obtain ⟨k, hk, rfl⟩ := h.only e he
    exact ⟨k, hk, rfl, lower_path uc k (hl.ascii k hk)⟩
  have hnd : (c.rules.map fun e => uc.lower e.1.expr).Nodup := by
    have ho := h.once
    have : (c.rules.map fun e => uc.lower e.1.expr) = (c.rules.map (·.1.expr)).map uc.lower := by
      rw [List.map_map]; rfl
    rw [this]
    refine List.pairwise_map.2 ?_
    refine List.Pairwise.imp_of_mem ?_ ho
    intro a b ha hb hab e
    obtain ⟨x, hx, rfl⟩ := List.mem_map.1 ha
    obtain ⟨y, hy, rfl⟩ := List.mem_map.1 hb
    obtain ⟨k, hk, ex, lx⟩ := hexpr x hx
    obtain ⟨k', hk', ey, ly⟩ := hexpr y hy
    have e2 : (toLowerCase uc x.1).expr = (toLowerCase uc y.1).expr := e
    rw [lx, ly] at e2
    have := PatternProps.fromTokens_inj e2
    simp only [List.cons.injEq, PathToken.field.injEq, and_true, true_and] at this
    have hkk := hl.inj k k' hk hk' this
    subst hkk
    apply hab
    rw [ex, ey]
  rw [MultipartProps.lowerCat_map uc c hnd]
  refine ⟨rfl, ?_, ?_, ?_⟩
  · intro e he
    obtain ⟨x, hx, rfl⟩ := List.mem_map.1 he
    obtain ⟨k, hk, ex, lx⟩ := hexpr x hx
    refine ⟨uc.lower k, by rw [hl.fwd k hk]; exact hk, ?_⟩
    rw [lx, hl.fwd k hk, ex]
  · intro n hn
    obtain ⟨k, hk, rfl⟩ := hl.bwd n hn
    refine List.mem_map.2 ⟨_, h.all k hk, ?_⟩
    rw [hl.fwd k hk, lower_path uc k (hl.ascii k hk)]
  · rw [List.map_map]; exact hnd

theorem lower_ruled {uc : UC} {L L' : Str → List MatchingRule} {ctx : Ctx} (h : NamedRules L ctx.cat.rules)
    (hc : ctx.cat.name = .query ∨ ctx.cat.name = .header ∨ ctx.cat.rules = [])
    (hl : Lowered uc L L') (hn : ∀ k, L k ≠ [] → Name (uc.lower k)) (hs : ∀ k, ∀ r ∈ L k, Single r) :
    Ruled (lowerCtx uc ctx) L' := by
  obtain ⟨h1, h2⟩ := lower_namedRules h hl
  refine ⟨?_, h2, ?_, ?_⟩
  · show (lowerCat uc ctx.cat).name = _ ∨ (lowerCat uc ctx.cat).name = _ ∨ (lowerCat uc ctx.cat).rules = []
    rw [h1]
    rcases hc with c | c | c
    · exact .inl c
    · exact .inr (.inl c)
    · refine .inr (.inr ?_); unfold lowerCat; rw [c]; rfl
  · intro n hx
    obtain ⟨k, hk, rfl⟩ := hl.bwd n hx
    exact hn k hk
  · intro n r hr
    obtain ⟨k, hk, rfl⟩ := hl.bwd n (by intro e; rw [e] at hr; cases hr)
    rw [hl.fwd k hk] at hr
    exact hs k r hr

/-- The rules of names in lower case stay as they are. -/
theorem lower_again {uc : UC} {L : Str → List MatchingRule} {ctx : Ctx} (h : Ruled ctx L)
    (ha : ∀ k, L k ≠ [] → Ascii k ∧ uc.lower k = k) : Ruled (lowerCtx uc ctx) L := by
  refine lower_ruled h.rules h.cat ⟨fun k hk => (ha k hk).1, ?_, ?_, ?_⟩ ?_ h.single
  · intro k k' hk hk' e; rw [(ha k hk).2, (ha k' hk').2] at e; exact e
  · intro k hk; rw [(ha k hk).2]
  · intro n hn; exact ⟨n, hn, (ha n hn).2⟩
  · intro k hk; rw [(ha k hk).2]; exact h.names k hk

theorem headerValue_fits (env : Env) (uc : UC) {ctx : Ctx} {L : Str → List MatchingRule} (h : Ruled ctx L) (key : Str) (i : Nat)
    (e a : Str) : errs (matchHeaderValue env uc key i e a ctx) = [] ↔
      if L (uc.lower key) = [] then SameValue uc key e a else ∀ r ∈ L (uc.lower key), ValueOk env r (trim uc a) := by
  obtain ⟨h1, h2⟩ := ruled_at h (uc.lower key) [] _ (toVec_param (uc.lower key))
  obtain ⟨-, h3⟩ := ruled_at h (uc.lower key) [natStr i] _ (toVec_value (uc.lower key) i)
  by_cases hk : L (uc.lower key) = []
  · rw [if_pos hk]
    unfold matchHeaderValue SameValue
    simp only [h2 hk, h3 hk, Bool.false_eq_true, if_false, strMatches]
    by_cases hp : uc.lower key ∈ ["accept".toList, "content-type".toList]
    · have : parameterisedHeaders.contains (uc.lower key) = true := by
        simpa [parameterisedHeaders] using hp
      simp only [this, if_true, hp]
      rw [errs_ofList, ← C46_parameter_header]
      simp
    · have : parameterisedHeaders.contains (uc.lower key) = false := by
        simpa [parameterisedHeaders] using hp
      simp only [this, Bool.false_eq_true, if_false, hp]
      by_cases he : trim uc e = trim uc a <;> simp [he, errs]
  · rw [if_neg hk, ← (matchHeaderValue_consistent env uc key i e a ctx).isOk_iff]
    obtain ⟨hd, hb⟩ := h1 hk
    unfold matchHeaderValue
    simp only [hd, if_true, hb]
    rw [← values_ok env _ (trim uc e) (trim uc a) hk (h.single _)]
    cases matchValues (strMatches env (trim uc e) (trim uc a)) ⟨L (uc.lower key), .and, false⟩ with
    | ok u => simp [isOk]
    | error ms => simp [isOk]

theorem headerLoop_fits (env : Env) (uc : UC) {ctx : Ctx} {L : Str → List MatchingRule} (h : Ruled ctx L) (key : Str)
    (hk : L (uc.lower key) = []) (a : List Str) : ∀ i e, headerLoop env uc key ctx i e a = [] ↔ SameValues uc key e a := by
  induction a with
  | nil =>
    intro i e
    cases e with
    | nil => simp [headerLoop]; exact .nil
    | cons x xs =>
      simp only [headerLoop, List.map_cons, reduceCtorEq, false_iff]
      intro hs; cases hs
  | cons y ys ih =>
    intro i e
    simp only [headerLoop, List.append_eq_nil_iff, headerValue_fits env uc h key i, if_pos hk, ih]
    cases e with
    | nil =>
      constructor
      · rintro ⟨h1, h2⟩; exact .extra _ _ h1 h2
      · intro hs; cases hs with | extra _ _ h1 h2 => exact ⟨h1, h2⟩
    | cons x xs =>
      constructor
      · rintro ⟨h1, h2⟩; exact .cons _ _ _ _ h1 h2
      · intro hs; cases hs with | cons _ _ _ _ h1 h2 => exact ⟨h1, h2⟩

theorem headerEntry_fits (env : Env) (uc : UC) {ctx : Ctx} {L : Str → List MatchingRule} (h : Ruled ctx L) (key : Str)
    (ha : ∀ k, L k ≠ [] → Ascii k ∧ uc.lower k = k) (e a : List Str) (he : e ≠ []) :
    matchHeaderEntry env uc key e a ctx = [] ↔
      if L (uc.lower key) = [] then SameValues uc key e a else ∀ w ∈ a, ∀ r ∈ L (uc.lower key), ValueOk env r (trim uc w) := by
  obtain ⟨h1, h2⟩ := ruled_at h (uc.lower key) [] _ (toVec_param (uc.lower key))
  have hee : e.isEmpty = false := by cases e with | nil => exact absurd rfl he | cons => rfl
  unfold matchHeaderEntry
  simp only [hee, Bool.false_and, Bool.false_eq_true, if_false]
  split
  · rename_i ev av
    rw [headerValue_fits env uc h key 0]
    by_cases hk : L (uc.lower key) = []
    · rw [if_pos hk, if_pos hk]
      constructor
      · intro hv; exact .cons _ _ _ _ hv .nil
      · intro hs; cases hs with | cons _ _ _ _ h1 h2 => exact h1
    · rw [if_neg hk, if_neg hk]; simp
  · by_cases hk : L (uc.lower key) = []
    · rw [if_neg (by rw [h2 hk]; simp), if_pos hk]
      exact headerLoop_fits env uc h key hk a 0 e
    · obtain ⟨hd, hb⟩ := h1 hk
      rw [if_pos hd, hb, if_neg hk]
      have hl := lower_again h ha
      refine lists_ok _ _ _ e a _ (fun w => ∀ r ∈ L (uc.lower key), ValueOk env r (trim uc w)) hk he (h.single _) ?_ ?_
      · intro i x v
        show errs (matchHeaderValue env uc key 0 x v (lowerCtx uc (lowerCtx uc ctx))) = [] ↔ _
        rw [headerValue_fits env uc (lower_again hl ha) key 0, if_neg hk]
      · intro i
        exact ((ruled_at hl _ [natStr i] _ (toVec_value _ i)).1 hk).1

/-- The rules of a header by its name in lower case. -/
def lowRules (uc : UC) (l : List (Str × SPattern)) (m : Str) : List MatchingRule :=
  (l.filter fun e => decide (uc.lower e.1 = m)).flatMap fun e => rulesOf e.2

theorem rulesFor_mem {l : List (Str × SPattern)} {k : Str} (h : rulesFor l k ≠ []) : ∃ p, (k, p) ∈ l := by
  obtain ⟨r, hr⟩ := List.exists_mem_of_ne_nil _ h
  obtain ⟨⟨n, p⟩, he, -⟩ := List.mem_flatMap.1 hr
  obtain ⟨h1, h2⟩ := List.mem_filter.1 he
  have : n = k := of_decide_eq_true h2
  subst this
  exact ⟨p, h1⟩

theorem lowRules_eq {uc : UC} {ps : List PartCall} (h : PlainHeaders uc ps) {n : Str} (hn : n ∈ (headersIn ps).map (·.1)) :
    lowRules uc (headersIn ps) (uc.lower n) = rulesFor (headersIn ps) n := by
  unfold lowRules rulesFor
  congr 1
  apply List.filter_congr
  intro e he
  obtain ⟨f, hf, rfl⟩ := List.mem_map.1 hn
  rw [decide_eq_decide]
  exact ⟨fun hx => h.spelling e he f hf hx, fun hx => by rw [hx]⟩

theorem lowered {uc : UC} {ps : List PartCall} (h : PlainHeaders uc ps) :
    Lowered uc (rulesFor (headersIn ps)) (lowRules uc (headersIn ps)) := by
  refine ⟨?_, ?_, ?_, ?_⟩
  · intro k hk
    obtain ⟨p, hp⟩ := rulesFor_mem hk
    exact (h.names _ hp).1
  · intro k k' hk hk' e
    obtain ⟨p, hp⟩ := rulesFor_mem hk
    obtain ⟨q, hq⟩ := rulesFor_mem hk'
    exact h.spelling _ hp _ hq e
  · intro k hk
    obtain ⟨p, hp⟩ := rulesFor_mem hk
    exact lowRules_eq h (List.mem_map.2 ⟨_, hp, rfl⟩)
  · intro m hm
    obtain ⟨r, hr⟩ := List.exists_mem_of_ne_nil _ hm
    obtain ⟨e, he, hr'⟩ := List.mem_flatMap.1 hr
    obtain ⟨h1, h2⟩ := List.mem_filter.1 he
    refine ⟨e.1, ?_, of_decide_eq_true h2⟩
    intro hn
    have : r ∈ rulesFor (headersIn ps) e.1 := List.mem_flatMap.2 ⟨e, List.mem_filter.2 ⟨h1, by simp⟩, hr'⟩
    rw [hn] at this; cases this

theorem ctxFor_rules (R : MatchingRules) (c : Category) (config : DiffConfig) :
    (ctxFor R c config).cat.rules = (catOf R c).rules := by
  unfold ctxFor catOf
  cases rulesForCategory R c <;> rfl

theorem ctxFor_name (R : MatchingRules) (c : Category) (config : DiffConfig) (hn : (catOf R c).name = c) :
    (ctxFor R c config).cat.name = c ∨ (ctxFor R c config).cat.rules = [] := by
  unfold ctxFor catOf at *
  cases hx : rulesForCategory R c with
  | none => exact .inr rfl
  | some x => rw [hx] at hn; exact .inl hn

theorem addAll_named (ts : List PathToken) (l : List (List PathToken × MatchingRule)) (c : RuleCategory) :
    (PatternProps.addAll ts l c).name = c.name := by
  rw [show c = ⟨c.name, c.rules⟩ from rfl, addAll_name]

/-- The headers of a part. -/
theorem headers_fit (env : Env) (uc : UC) {parseCT : Str → Option ContentType} {ps : List PartCall} {f : Fields}
    (hf : PartIs uc parseCT ps f) (hp : PlainHeaders uc ps) (config : DiffConfig) (a : Option HeaderMap)
    (ha : CaseNodup uc (a.getD [])) :
    AllMatched (matchHeaders env uc f.headers a (lowerCtx uc (ctxFor f.rules .header config))) ↔ HeadersFit env uc ps a := by
  have hnamed : NamedRules (rulesFor (headersIn ps)) (ctxFor f.rules .header config).cat.rules := by
    rw [ctxFor_rules, hf.hrules]; exact namedRules _ _
  have hname : (catOf f.rules .header).name = .header := by rw [hf.hrules, addAll_named]; rfl
  have hcat : (ctxFor f.rules .header config).cat.name = .query ∨ (ctxFor f.rules .header config).cat.name = .header ∨
      (ctxFor f.rules .header config).cat.rules = [] := .inr (ctxFor_name _ _ _ hname)
  have hlow := lowered hp
  have hruled := lower_ruled hnamed hcat hlow
    (fun k hk => by obtain ⟨p, hm⟩ := rulesFor_mem hk; exact (hp.names _ hm).2) (rulesFor_single _)
  have hasc : ∀ k, lowRules uc (headersIn ps) k ≠ [] → Ascii k ∧ uc.lower k = k := by
    intro m hm
    obtain ⟨k, hk, rfl⟩ := hlow.bwd m hm
    have hk' := hlow.ascii k hk
    refine ⟨?_, lower_lower uc k hk'⟩
    rw [uc.lower_ascii k hk']
    intro c hc
    obtain ⟨d, hd, rfl⟩ := List.mem_map.1 hc
    exact (lower_char d (hk' d hd)).1
  -- the entries of the expected headers
  have hkey : ∀ k vs, (k, vs) ∈ f.headers.getD [] → k ∈ (headersIn ps).map (·.1) ∧ vs = headerValues uc k ps ∧ vs ≠ [] := by
    intro k vs hm
    have hsp := hf.headers.spelling k vs hm
    obtain ⟨x, hx, hxk⟩ := Option.map_eq_some_iff.1 hsp
    have hmem : k ∈ (headersIn ps).map (·.1) := List.mem_map.2 ⟨x, List.mem_of_find?_eq_some hx, hxk⟩
    have h1 : PartProps.headerOf uc (f.headers.getD []) k = some vs :=
      findEntry_of_mem uc _ hf.headers.once k k vs hm rfl
    have h2 := hf.headers.values k
    rw [h1] at h2
    by_cases hc : headerCalls uc k ps = []
    · rw [if_pos hc] at h2; cases h2
    · rw [if_neg hc] at h2
      have hv := Option.some.inj h2
      refine ⟨hmem, hv, ?_⟩
      rw [hv]
      intro hn
      obtain ⟨y, hy⟩ := List.exists_mem_of_ne_nil _ hc
      have := List.flatMap_eq_nil_iff.1 hn y hy
      exact PartProps.parseHeader_ne uc k _ this
  have hall : ∀ n ∈ (headersIn ps).map (·.1), ∃ vs, (n, vs) ∈ f.headers.getD [] := by
    intro n hn
    obtain ⟨x, hx, rfl⟩ := List.mem_map.1 hn
    have h2 := hf.headers.values x.1
    rw [if_neg (show ¬ headerCalls uc x.1 ps = [] from fun e => by
      have : x ∈ headerCalls uc x.1 ps := List.mem_filter.2 ⟨hx, by simp⟩
      rw [e] at this; cases this)] at h2
    obtain ⟨k', hm, hk'⟩ := findEntry_some uc _ _ _ h2
    obtain ⟨y, hy, hyk⟩ := List.mem_map.1 (hkey k' _ hm).1
    have : k' = x.1 := by rw [← hyk]; exact hp.spelling y hy x hx (by rw [hyk]; exact hk')
    rw [this] at hm
    exact ⟨_, hm⟩
  have hentry : ∀ k vs ws, (k, vs) ∈ f.headers.getD [] →
      (matchHeaderEntry env uc k vs ws (lowerCtx uc (ctxFor f.rules .header config)) = [] ↔
        if rulesFor (headersIn ps) k = [] then SameValues uc k (headerValues uc k ps) ws
        else ∀ w ∈ ws, ∀ r ∈ rulesFor (headersIn ps) k, ValueOk env r (trim uc w)) := by
    intro k vs ws hm
    obtain ⟨h1, h2, h3⟩ := hkey k vs hm
    rw [headerEntry_fits env uc hruled k hasc vs ws h3, lowRules_eq hp h1, h2]
  unfold HeadersFit
  cases he : f.headers with
  | none =>
    have : headersIn ps = [] := hf.headers.none_.1 he
    rw [this]
    cases a <;> simp [matchHeaders, AllMatched]
  | some eh =>
    rw [he] at hkey hall hentry
    simp only [Option.getD_some] at hkey hall hentry
    cases a with
    | none =>
      constructor
      · intro h n hn
        obtain ⟨vs, hvs⟩ := hall n hn
        exact absurd (h _ (List.mem_map.2 ⟨(n, vs), hvs, rfl⟩)) (by simp)
      · intro h kv hkv
        obtain ⟨⟨k, vs⟩, hm, rfl⟩ := List.mem_map.1 hkv
        obtain ⟨_, _, hx, _⟩ := h k (hkey k vs hm).1
        cases hx
    | some ah =>
      simp only [Option.getD_some] at ha ⊢
      constructor
      · intro h n hn
        obtain ⟨vs, hvs⟩ := hall n hn
        have := h _ (List.mem_map.2 ⟨(n, vs), hvs, rfl⟩)
        simp only at this
        cases hfe : findEntry uc ah n with
        | none => rw [hfe] at this; cases this
        | some ws =>
          rw [hfe] at this
          obtain ⟨k', hm, hk'⟩ := findEntry_some uc _ _ _ hfe
          exact ⟨k', ws, hm, hk', (hentry n vs ws hvs).1 this⟩
      · intro h kv hkv
        obtain ⟨⟨k, vs⟩, hm, rfl⟩ := List.mem_map.1 hkv
        obtain ⟨k', ws, hm', hk', hfit⟩ := h k (hkey k vs hm).1
        simp only
        rw [findEntry_of_mem uc ah ha k k' ws hm' hk']
        exact (hentry k vs ws hm).2 hfit

/-! ### Requests -/

theorem values_mem {k : Str} {cs : List RequestCall} : valuesIn k cs ≠ [] ↔ k ∈ (queriesIn cs).map (·.1) := by
  unfold valuesIn
  rw [Ne, List.map_eq_nil_iff, List.filter_eq_nil_iff]
  constructor
  · intro h
    refine Classical.byContradiction fun hn => h ?_
    intro e he hd
    exact hn (List.mem_map.2 ⟨e, he, of_decide_eq_true hd⟩)
  · intro h hn
    obtain ⟨e, he, rfl⟩ := List.mem_map.1 h
    exact hn e he (by simp)

theorem query_fits (env : Env) {uc : UC} {parseCT : Str → Option ContentType} {cs : List RequestCall} {r : HttpRequest}
    (h : RequestIs uc parseCT cs r) (hn : ∀ e ∈ queriesIn cs, Name e.1) (a : Option QueryMap) :
    AllMatched (matchQuery env r.query a (ctxFor r.rules .query .noUnexpectedKeys)) ↔ QueryFits env cs a := by
  have hname : (catOf r.rules .query).name = .query := by rw [h.qrules, addAll_named]; rfl
  have hcat := ctxFor_name r.rules .query .noUnexpectedKeys hname
  have hruled : Ruled (ctxFor r.rules .query .noUnexpectedKeys) (rulesFor (queriesIn cs)) := by
    refine ⟨?_, ?_, ?_, rulesFor_single _⟩
    · rcases hcat with c | c
      · exact .inl c
      · exact .inr (.inr c)
    · rw [ctxFor_rules, h.qrules]; exact namedRules _ _
    · intro k hk; obtain ⟨p, hm⟩ := rulesFor_mem hk; exact hn _ hm
  have hkeys : ∀ k, k ∈ (r.query.getD []).map (·.1) ↔ k ∈ (queriesIn cs).map (·.1) := by
    intro k
    rw [← values_mem]
    have hq := h.query k
    constructor
    · intro hx hv
      rw [if_pos hv] at hq
      exact lookup_none_iff.1 hq hx
    · intro hv
      refine Classical.byContradiction fun hx => ?_
      rw [lookup_none_iff.2 hx, if_neg hv] at hq
      cases hq
  cases he : r.query with
  | none =>
    have hnil : queriesIn cs = [] := h.queryNone.1 he
    unfold QueryFits
    rw [hnil]
    cases a with
    | none => simp [matchQuery, AllMatched, Json.lookup]
    | some aq =>
      cases aq with
      | nil => simp [matchQuery, AllMatched, Json.lookup]
      | cons x xs =>
        constructor
        · intro hx
          exact absurd (hx _ (List.mem_map.2 ⟨x, by simp, rfl⟩)) (by simp)
        · rintro ⟨hx, -⟩
          exact absurd ((hx x.1).2 (by simp)) (by simp)
  | some eq =>
    have hne : queriesIn cs ≠ [] := fun e => by rw [h.queryNone.2 e] at he; cases he
    rw [he] at hkeys
    simp only [Option.getD_some] at hkeys
    cases a with
    | none =>
      constructor
      · intro hx
        obtain ⟨e, hm⟩ := List.exists_mem_of_ne_nil _ hne
        obtain ⟨y, hy, -⟩ := List.mem_map.1 ((hkeys e.1).2 (List.mem_map.2 ⟨e, hm, rfl⟩))
        exact absurd (hx _ (List.mem_map.2 ⟨y, hy, rfl⟩)) (by simp)
      · rintro ⟨hx, -⟩
        obtain ⟨e, hm⟩ := List.exists_mem_of_ne_nil _ hne
        exact absurd ((hx e.1).1 (List.mem_map.2 ⟨e, hm, rfl⟩)) (by simp)
    | some aq =>
      have hnd := h.queryOnce
      rw [he] at hnd
      simp only [Option.getD_some] at hnd
      show AllMatched (matchQueryMaps env eq aq _) ↔ _
      rw [FormProps.maps_exact env eq aq _ hnd]
      unfold QueryFits
      simp only [Option.getD_some]
      have hlook : ∀ k vs, Json.lookup k eq = some vs → vs = valuesIn k cs ∧ vs ≠ [] := by
        intro k vs hl
        have hq := h.query k
        rw [he] at hq
        simp only [Option.getD_some] at hq
        rw [hl] at hq
        by_cases hv : valuesIn k cs = []
        · rw [if_pos hv] at hq; cases hq
        · rw [if_neg hv] at hq; exact ⟨Option.some.inj hq, by rw [Option.some.inj hq]; exact hv⟩
      have hval : ∀ k vs ws, Json.lookup k eq = some vs →
          (errs (matchQueryValues env k (texts vs) (texts ws) (ctxFor r.rules .query .noUnexpectedKeys)) = [] ↔
            if rulesFor (queriesIn cs) k = [] then texts ws = texts (valuesIn k cs)
            else ∀ w ∈ texts ws, ∀ r ∈ rulesFor (queriesIn cs) k, ValueOk env r w) := by
        intro k vs ws hl
        obtain ⟨h1, h2⟩ := hlook k vs hl
        rw [queryValues_ok env hruled k _ _ (by unfold texts; rw [Ne, List.map_eq_nil_iff]; exact h2), h1]
      constructor
      · rintro ⟨h1, h2⟩
        refine ⟨fun k => by rw [← hkeys]; exact h1 k, ?_⟩
        intro k ws hl
        have hk : k ∈ eq.map (·.1) := (h1 k).2 (List.mem_map.2 ⟨_, Json.lookup_mem hl, rfl⟩)
        obtain ⟨y, hy, rfl⟩ := List.mem_map.1 hk
        have hl2 := Json.lookup_of_mem hnd hy
        exact (hval _ _ ws hl2).1 (h2 _ _ ws hl2 hl)
      · rintro ⟨h1, h2⟩
        refine ⟨fun k => by rw [hkeys]; exact h1 k, ?_⟩
        intro k vs ws hl hw
        exact (hval k vs ws hl).2 (h2 k ws hw)

theorem path_fits (env : Env) {uc : UC} {parseCT : Str → Option ContentType} {cs : List RequestCall} {r : HttpRequest}
    (h : RequestIs uc parseCT cs r) (a : Str) :
    matchPath env r.path a (ctxFor r.rules .path .noUnexpectedKeys) = none ↔ PathFits env cs a := by
  have hrules : (ctxFor r.rules .path .noUnexpectedKeys).cat.rules = _ :=
    (ctxFor_rules r.rules .path .noUnexpectedKeys).trans (by rw [h.prules, pathRules_eq])
  unfold PathFits
  by_cases hk : (pathsIn cs).flatMap rulesOf = []
  · rw [if_pos hk] at hrules ⊢
    rw [matchPath_ok env _ _ _ hrules, h.path]
    exact ⟨fun e => e.symm, fun e => e.symm⟩
  · rw [if_neg hk] at hrules ⊢
    have hname : (ctxFor r.rules .path .noUnexpectedKeys).cat.name = .path := by
      have hn : (catOf r.rules .path).name = .path := by rw [h.prules, addAll_named]; rfl
      rcases ctxFor_name r.rules .path .noUnexpectedKeys hn with c | c
      · exact c
      · rw [hrules] at c; cases c
    have hd : isDefined (ctxFor r.rules .path .noUnexpectedKeys) Path.empty = true := by
      unfold isDefined matcherIsDefined resolveMatchersForPath
      rw [hname]
      simp [hrules]
    have hb : best (ctxFor r.rules .path .noUnexpectedKeys) Path.empty = ⟨(pathsIn cs).flatMap rulesOf, .and, false⟩ := by
      unfold best selectBestMatcher resolveMatchersForPath
      rw [hname]
      simp [hrules, asRuleList]
    have hs : ∀ r ∈ (pathsIn cs).flatMap rulesOf, Single r := by
      intro r hr
      obtain ⟨p, -, hp⟩ := List.mem_flatMap.1 hr
      exact rulesOf_single p r hp
    have := values_ok env _ r.path a hk hs
    unfold matchPath
    rw [if_pos hd, hb]
    have hiff : (∀ p ∈ pathsIn cs, ∀ r ∈ rulesOf p, ValueOk env r a) ↔
        ∀ r ∈ (pathsIn cs).flatMap rulesOf, ValueOk env r a := by
      constructor
      · intro hx r hr
        obtain ⟨p, hp, hr⟩ := List.mem_flatMap.1 hr
        exact hx p hp r hr
      · intro hx p hp r hr
        exact hx r (List.mem_flatMap.2 ⟨p, hp, hr⟩)
    rw [hiff, ← this]
    cases matchValues (strMatches env r.path a) ⟨(pathsIn cs).flatMap rulesOf, .and, false⟩ with
    | ok u => simp
    | error ms => simp

/-- **C156** (requests).  For every sequence of builder calls: a request is accepted exactly if its method is the last one given
(ignoring case), its path, query and headers fit what was given for them, and the comparison of the bodies accepts it. -/
theorem C156_request_partial (env : Env) (uc : UC) (be : BodyEnv) (parseCT : Str → Option ContentType) (cs : List RequestCall)
    (hq : ∀ e ∈ queriesIn cs, Name e.1) (hp : PlainHeaders uc (partsIn cs)) (a : Request)
    (ha : CaseNodup uc (a.part.headers.getD [])) :
    (matchRequest env uc be (asRequest (buildRequest uc parseCT cs)) a).allMatched = true ↔
      uc.lower ((methodsIn cs).getLast?.getD "GET".toList) = uc.lower a.method ∧ PathFits env cs a.path ∧
      QueryFits env cs a.query ∧ HeadersFit env uc (partsIn cs) a.part.headers ∧
      (matchRequest env uc be (asRequest (buildRequest uc parseCT cs)) a).body.allMatched = true := by
  have h := request_is uc parseCT cs
  generalize hr : buildRequest uc parseCT cs = r at h ⊢
  unfold RequestMatchResult.allMatched
  simp only [Bool.and_eq_true, Option.isNone_iff_eq_none]
  have h1 : (matchRequest env uc be (asRequest r) a).method = none ↔
      uc.lower ((methodsIn cs).getLast?.getD "GET".toList) = uc.lower a.method := by
    rw [← h.method]; exact C28_method uc _ _
  have h2 : (matchRequest env uc be (asRequest r) a).path = none ↔ PathFits env cs a.path := path_fits env h a.path
  have h3 : ((matchRequest env uc be (asRequest r) a).query.all fun kv => kv.2.isEmpty) = true ↔ QueryFits env cs a.query :=
    (named_all _ _).trans (query_fits env h hq a.query)
  have h4 : ((matchRequest env uc be (asRequest r) a).headers.all fun kv => kv.2.isEmpty) = true ↔
      HeadersFit env uc (partsIn cs) a.part.headers :=
    (named_all _ _).trans (headers_fit env uc h.part hp _ _ ha)
  rw [h1, h2, h3, h4]
  simp only [and_assoc]

/-- **C156** Without a body the request accepts every body. -/
theorem C156_request_no_body_partial (env : Env) (uc : UC) (be : BodyEnv) (parseCT : Str → Option ContentType)
    (cs : List RequestCall) (hq : ∀ e ∈ queriesIn cs, Name e.1) (hp : PlainHeaders uc (partsIn cs))
    (hb : ∀ c ∈ partsIn cs, bodyOf parseCT c = none) (a : Request) (ha : CaseNodup uc (a.part.headers.getD [])) :
    (matchRequest env uc be (asRequest (buildRequest uc parseCT cs)) a).allMatched = true ↔
      uc.lower ((methodsIn cs).getLast?.getD "GET".toList) = uc.lower a.method ∧ PathFits env cs a.path ∧
      QueryFits env cs a.query ∧ HeadersFit env uc (partsIn cs) a.part.headers := by
  rw [C156_request_partial env uc be parseCT cs hq hp a ha]
  have hbody : (asRequest (buildRequest uc parseCT cs)).part.body = .missing := by
    show asBody (buildRequest uc parseCT cs).body = .missing
    have := (request_is uc parseCT cs).part.body
    unfold reqFields at this
    simp only at this
    rw [this]
    unfold lastBody
    rw [List.filterMap_eq_nil_iff.2 hb]
    rfl
  have hok : (matchRequest env uc be (asRequest (buildRequest uc parseCT cs)) a).body.allMatched = true := by
    rw [matchRequest, matchBody_ok_iff]
    exact C27_missing_accepts env uc be _ _ _ _ hbody
  rw [hok]
  simp

/-! ### Responses -/

/-- **C156** (responses).  For every sequence of builder calls: a response is accepted exactly if its status is the last one
given, its headers fit what was given for them, and the comparison of the bodies accepts it. -/
theorem C156_response_partial (env : Env) (uc : UC) (be : BodyEnv) (parseCT : Str → Option ContentType) (cs : List ResponseCall)
    (hp : PlainHeaders uc (resPartsIn cs)) (a : Response) (ha : CaseNodup uc (a.part.headers.getD [])) :
    matchResponse env uc be (Provider.asResponse (buildResponse uc parseCT cs)) a = [] ↔
      (statusesIn cs).getLast?.getD 200 = a.status ∧ HeadersFit env uc (resPartsIn cs) a.part.headers ∧
      (matchBody env uc be (Provider.asResponse (buildResponse uc parseCT cs)).part a.part
        (ctxFor (buildResponse uc parseCT cs).rules .body .allowUnexpectedKeys)
        (lowerCtx uc (ctxFor (buildResponse uc parseCT cs).rules .header .noUnexpectedKeys))).allMatched = true := by
  have h := response_is uc parseCT cs
  generalize hr : buildResponse uc parseCT cs = r at h ⊢
  have hno : NoRules (ctxFor r.rules .status .allowUnexpectedKeys) := by
    show (ctxFor r.rules .status .allowUnexpectedKeys).cat.rules = []
    rw [ctxFor_rules, h.others .status (by decide) (by decide)]; rfl
  have h4 := headers_fit env uc h.part hp .noUnexpectedKeys a.part.headers ha
  unfold matchResponse
  simp only [List.append_eq_nil_iff, ← C25_body_verdict, flatMap_nil_iff, named_all]
  rw [show (Provider.asResponse r).rules = r.rules from rfl, matchStatus_ok env _ _ _ hno,
    show (Provider.asResponse r).status = (statusesIn cs).getLast?.getD 200 from h.status,
    show (Provider.asResponse r).part.headers = (resFields r).headers from rfl, show r.rules = (resFields r).rules from rfl, h4]
  constructor
  · rintro ⟨⟨h1, h2⟩, h3⟩; exact ⟨h2, h3, h1⟩
  · rintro ⟨h1, h2, h3⟩; exact ⟨⟨h3, h1⟩, h2⟩

/-! ### JSON bodies -/

/-- The rules given for the `Content-Type` header. -/
def contentTypeRules (uc : UC) (ps : List PartCall) : List MatchingRule := lowRules uc (headersIn ps) "content-type".toList

/-- The content types of the bodies are comparable: one is unknown, or they are equivalent, or the header was given as a pattern
whose rules accept the other content type. -/
def TypesFit (env : Env) (uc : UC) (ps : List PartCall) (t a : ContentType) : Prop :=
  t.isUnknown = true ∨ a.isUnknown = true ∨ t.isEquivalentTo a = true ∨ t.isEquivalentTo a.baseType = true ∨
  (contentTypeRules uc ps ≠ [] ∧ ∀ r ∈ contentTypeRules uc ps, ValueOk env r (trim uc a.display))

/-- The body is a JSON document that the pattern accepts. -/
def BodyFits (env : Env) (uc : UC) (be : BodyEnv) (config : DiffConfig) (ps : List PartCall) (t : ContentType) (p : Pattern)
    (a : MatchResult.Part) : Prop :=
  TypesFit env uc ps t (contentTypeD uc be a) ∧ a.body ≠ .missing ∧ a.body ≠ .empty ∧
  ∃ j, be.json (a.body.value.getD []) = some j ∧ PatternProps.Accepts env config false p j

/-- The calls set one body, and it is the JSON pattern `p`, of which C71 knows what it means. -/
structure OneJsonBody (parseCT : Str → Option ContentType) (ps : List PartCall) (p : Pattern) (t : ContentType) : Prop where
  one : ∃ l r, ps = l ++ .jsonBody p :: r ∧ ∀ c ∈ l ++ r, bodyOf parseCT c = none
  type : parseCT "application/json".toList = some t
  json : t.isJson = true
  noObj : PatternProps.Everywhere PatternProps.NotObjectMatching p
  keys : PatternProps.Everywhere PatternProps.KeysOk p
  lits : PatternProps.Everywhere PatternProps.LiteralWF p
  unamb : PatternProps.Everywhere PatternProps.Unambiguous p
  short : RuleProps.ShortPaths (Patterns.jsonBody p).2

theorem ruled_headers {uc : UC} {parseCT : Str → Option ContentType} {ps : List PartCall} {f : Fields}
    (hf : PartIs uc parseCT ps f) (hp : PlainHeaders uc ps) (config : DiffConfig) :
    Ruled (lowerCtx uc (ctxFor f.rules .header config)) (lowRules uc (headersIn ps)) := by
  have hnamed : NamedRules (rulesFor (headersIn ps)) (ctxFor f.rules .header config).cat.rules := by
    rw [ctxFor_rules, hf.hrules]; exact namedRules _ _
  have hname : (catOf f.rules .header).name = .header := by rw [hf.hrules, addAll_named]; rfl
  have hcat : (ctxFor f.rules .header config).cat.name = .query ∨ (ctxFor f.rules .header config).cat.name = .header ∨
      (ctxFor f.rules .header config).cat.rules = [] := .inr (ctxFor_name _ _ _ hname)
  exact lower_ruled hnamed hcat (lowered hp)
    (fun k hk => by obtain ⟨p, hm⟩ := rulesFor_mem hk; exact (hp.names _ hm).2) (rulesFor_single _)

theorem best_undefined {ctx : Ctx} {q : DocPath} (hc : ctx.cat.name = .query ∨ ctx.cat.name = .header ∨ ctx.cat.rules = [])
    (h : isDefined ctx q = false) : (best ctx q).rules = [] := by
  unfold isDefined matcherIsDefined at h
  rw [Bool.not_eq_false', List.isEmpty_iff] at h
  rcases hc with c | c | c
  · unfold best selectBestMatcher
    simp only [c, asRuleList, h]
    rfl
  · unfold best selectBestMatcher
    simp only [c, asRuleList, h]
    rfl
  · exact EngineProps.rules_nil (show NoRules ctx from c) q

theorem types_fit (env : Env) (uc : UC) {parseCT : Str → Option ContentType} {ps : List PartCall} {f : Fields}
    (hf : PartIs uc parseCT ps f) (hp : PlainHeaders uc ps) (config : DiffConfig) (t a : ContentType) :
    typesAgree env uc t a (lowerCtx uc (ctxFor f.rules .header config)) = true ↔ TypesFit env uc ps t a := by
  have hr := ruled_headers hf hp config
  have hl : uc.lower "Content-Type".toList = "content-type".toList := by
    rw [uc.lower_ascii _ (by decide)]; decide
  have hv := headerValue_fits env uc hr "Content-Type".toList 0 t.display a.display
  rw [← (matchHeaderValue_consistent env uc _ _ _ _ _).isOk_iff, hl] at hv
  obtain ⟨h1, h2⟩ := ruled_at hr "content-type".toList [] _ (toVec_param "content-type".toList)
  unfold typesAgree TypesFit contentTypeRules
  simp only [Bool.or_eq_true, Bool.and_eq_true, or_assoc]
  by_cases hk : lowRules uc (headersIn ps) "content-type".toList = []
  · have hb := best_undefined hr.cat (h2 hk)
    generalize best (lowerCtx uc (ctxFor f.rules Category.header config)) (join rootPath "content-type".toList) = b at hb
    rw [hb]
    simp only [List.isEmpty_nil, Bool.not_true, Bool.false_eq_true, false_and, or_false, ne_eq, hk, not_true_eq_false]
  · rw [(h1 hk).2, hv, if_neg hk]
    simp [hk]

theorem json_body_fits (env : Env) (uc : UC) (be : BodyEnv) {parseCT : Str → Option ContentType} {ps : List PartCall} {f : Fields}
    (hf : PartIs uc parseCT ps f) (hp : PlainHeaders uc ps) {p : Pattern} {t : ContentType}
    (ho : OneJsonBody parseCT ps p t) (hbe : be.json (utf8 (Patterns.toExample p).text) = some (Patterns.toExample p))
    (hw : ∀ b j, be.json b = some j → j.WF ∧ PatternProps.VecSized j) (config hconfig : DiffConfig) (a : MatchResult.Part) :
    (matchBody env uc be ⟨f.headers, asBody f.body⟩ a (ctxFor f.rules .body config)
      (lowerCtx uc (ctxFor f.rules .header hconfig))).allMatched = true ↔ BodyFits env uc be config ps t p a := by
  obtain ⟨l, r, e, hno⟩ := ho.one
  have hbody : f.body = .present (utf8 (Patterns.toExample p).text) (some t) none := by
    rw [hf.body]
    unfold lastBody
    rw [e, List.filterMap_append, List.filterMap_cons]
    rw [List.filterMap_eq_nil_iff.2 (fun c hc => hno c (List.mem_append_left _ hc)),
      List.filterMap_eq_nil_iff.2 (fun c hc => hno c (List.mem_append_right _ hc))]
    have ht : typeOf parseCT "application/json".toList = t := by unfold typeOf; rw [ho.type]; rfl
    simp only [bodyOf, ht, List.nil_append, List.getLast?_singleton]
  have hnob : ∀ c, bodyOf parseCT c = none → bodyRows [c] = [] := by
    intro c hc
    cases c <;> first | rfl | cases hc
  have hrows : bodyRows ps = PatternProps.rel p := by
    have hnil : ∀ l : List PartCall, (∀ c ∈ l, bodyOf parseCT c = none) → bodyRows l = [] := by
      intro l hl
      unfold bodyRows
      refine List.flatMap_eq_nil_iff.2 ?_
      intro c hc
      have := hnob c (hl c hc)
      unfold bodyRows at this
      rw [List.flatMap_cons, List.flatMap_nil, List.append_nil] at this
      exact this
    have hl := hnil l (fun c hc => hno c (List.mem_append_left _ hc))
    have hr := hnil r (fun c hc => hno c (List.mem_append_right _ hc))
    unfold bodyRows at hl hr ⊢
    rw [e, List.flatMap_append, List.flatMap_cons, hl, hr]
    simp
  have hnobj : NoObjectMatching ps := by
    intro q hq
    rw [e] at hq
    rcases List.mem_append.1 hq with hq | hq
    · exact absurd (hno _ (List.mem_append_left _ hq)) (by simp [bodyOf])
    · rcases List.mem_cons.1 hq with hq | hq
      · cases hq; exact ho.noObj
      · exact absurd (hno _ (List.mem_append_right _ hq)) (by simp [bodyOf])
  have hcat : catOf f.rules .body = (Patterns.jsonBody p).2 := by
    rw [hf.brules hnobj, hrows]
    exact (PatternProps.extract_eq [.root] p _ ho.noObj).symm
  have hct : contentTypeD uc be ⟨f.headers, asBody f.body⟩ = t := by
    rw [hbody]; rfl
  have hjson : ∀ j, be.json (a.body.value.getD []) = some j →
      (compareJson env rootPath (Patterns.toExample p) j (ctxFor f.rules .body config) = .ok () ↔
        PatternProps.Accepts env config false p j) := by
    intro j hj
    have hc : ctxFor f.rules .body config = ⟨⟨.body, (Patterns.jsonBody p).2.rules⟩, config⟩ := by
      have hn : (catOf f.rules .body).name = .body := by rw [hf.brules hnobj, addAll_named]; rfl
      have h1 := ctxFor_rules f.rules .body config
      rw [hcat] at h1
      have h3 : (ctxFor f.rules .body config).cat.name = .body := by
        unfold ctxFor; unfold catOf at hn
        cases hx : rulesForCategory f.rules .body with
        | none => rfl
        | some x => rw [hx] at hn; exact hn
      have h4 : (ctxFor f.rules .body config).config = config := rfl
      generalize ctxFor f.rules .body config = c at h1 h3 h4
      obtain ⟨⟨n, rs⟩, cf⟩ := c
      simp only at h1 h3 h4
      rw [h1, h3, h4]
    rw [hc]
    exact PatternProps.C71_rules_denote_pattern_partial env config p j ho.noObj ho.keys ho.lits ho.unamb ho.short
      (hw _ j hj).1 (hw _ j hj).2 _ (List.Perm.refl _)
  have hcmp : compareBodies env be t (some (utf8 (Patterns.toExample p).text)) a.body.value (ctxFor f.rules .body config) = .ok ↔
      ∃ j, be.json (a.body.value.getD []) = some j ∧ PatternProps.Accepts env config false p j := by
    have h0 : compareBodies env be t (some (utf8 (Patterns.toExample p).text)) a.body.value (ctxFor f.rules .body config) = .ok ↔
        compareBodiesCore env be t (some (utf8 (Patterns.toExample p).text)) a.body.value (ctxFor f.rules .body config) = [] := by
      unfold compareBodies
      simp only
      split
      · rename_i hh; simpa using hh
      · rename_i hh; simpa using hh
    rw [h0]
    unfold compareBodiesCore
    simp only [Option.getD_some]
    rw [if_pos ho.json, hbe]
    cases hj : be.json (a.body.value.getD []) with
    | none => simp [matchJson, errs]
    | some j =>
      have := hjson j hj
      rw [show matchJson env (some (Patterns.toExample p)) (some j) (ctxFor f.rules .body config) =
        compareJson env rootPath (Patterns.toExample p) j (ctxFor f.rules .body config) from rfl]
      rw [← (compareJson_consistent env _ _ _ _).isOk_iff, isOk_iff, this]
      constructor
      · intro hx; exact ⟨j, rfl, hx⟩
      · rintro ⟨j', h1, h2⟩; cases h1; exact h2
  rw [matchBody_ok_iff]
  unfold BodyFits
  rw [← types_fit env uc hf hp hconfig, ← hcmp]
  unfold matchBody
  simp only [hct]
  have hpres : asBody f.body = .present (utf8 (Patterns.toExample p).text) (some t) := by rw [hbody]; rfl
  rw [hpres]
  by_cases hty : typesAgree env uc t (contentTypeD uc be a) (lowerCtx uc (ctxFor f.rules .header hconfig)) = true
  · rw [if_pos hty]
    unfold matchBodyContent
    cases hb : a.body with
    | missing => simp [oneBody]
    | empty => simp [oneBody]
    | null => simp [hty]
    | present b' ct' => simp [hty]
  · rw [if_neg hty]
    simp [Body.isPresent, hty]

/-- **C156** (requests with one JSON body). -/
theorem C156_request_json_partial (env : Env) (uc : UC) (be : BodyEnv) (parseCT : Str → Option ContentType) (cs : List RequestCall)
    (hq : ∀ e ∈ queriesIn cs, Name e.1) (hp : PlainHeaders uc (partsIn cs)) {p : Pattern} {t : ContentType}
    (ho : OneJsonBody parseCT (partsIn cs) p t) (hbe : be.json (utf8 (Patterns.toExample p).text) = some (Patterns.toExample p))
    (hw : ∀ b j, be.json b = some j → j.WF ∧ PatternProps.VecSized j) (a : Request)
    (ha : CaseNodup uc (a.part.headers.getD [])) :
    (matchRequest env uc be (asRequest (buildRequest uc parseCT cs)) a).allMatched = true ↔
      uc.lower ((methodsIn cs).getLast?.getD "GET".toList) = uc.lower a.method ∧ PathFits env cs a.path ∧
      QueryFits env cs a.query ∧ HeadersFit env uc (partsIn cs) a.part.headers ∧
      BodyFits env uc be .noUnexpectedKeys (partsIn cs) t p a.part := by
  rw [C156_request_partial env uc be parseCT cs hq hp a ha,
    ← json_body_fits env uc be (request_is uc parseCT cs).part hp ho hbe hw .noUnexpectedKeys .noUnexpectedKeys a.part]
  rfl

/-- **C156** (responses with one JSON body). -/
theorem C156_response_json_partial (env : Env) (uc : UC) (be : BodyEnv) (parseCT : Str → Option ContentType)
    (cs : List ResponseCall) (hp : PlainHeaders uc (resPartsIn cs)) {p : Pattern} {t : ContentType}
    (ho : OneJsonBody parseCT (resPartsIn cs) p t)
    (hbe : be.json (utf8 (Patterns.toExample p).text) = some (Patterns.toExample p))
    (hw : ∀ b j, be.json b = some j → j.WF ∧ PatternProps.VecSized j) (a : Response)
    (ha : CaseNodup uc (a.part.headers.getD [])) :
    matchResponse env uc be (Provider.asResponse (buildResponse uc parseCT cs)) a = [] ↔
      (statusesIn cs).getLast?.getD 200 = a.status ∧ HeadersFit env uc (resPartsIn cs) a.part.headers ∧
      BodyFits env uc be .allowUnexpectedKeys (resPartsIn cs) t p a.part := by
  rw [C156_response_partial env uc be parseCT cs hp a ha,
    ← json_body_fits env uc be (response_is uc parseCT cs).part hp ho hbe hw .allowUnexpectedKeys .noUnexpectedKeys a.part]
  rfl

/-! ### The example itself -/

theorem sameMedia_refl (uc : UC) (s : Str) : SameMedia uc s s := ⟨rfl, fun _ v h => ⟨v, h, rfl⟩⟩

theorem sameValue_refl (uc : UC) (k s : Str) : SameValue uc k s s := by
  unfold SameValue
  split
  · exact sameMedia_refl _ _
  · rfl

theorem sameValues_refl (uc : UC) (k : Str) : ∀ vs : List Str, SameValues uc k vs vs
  | [] => .nil
  | v :: vs => .cons _ _ _ _ (sameValue_refl uc k v) (sameValues_refl uc k vs)

/-- What is asked of the examples for the request to describe itself: the last path satisfies the rules of every pattern given
for the path; each value of a parameter those of every pattern given for the parameter; each of the values into which the
examples of a header are split at commas those of every pattern given for the header. -/
structure Suits (env : Env) (uc : UC) (cs : List RequestCall) : Prop where
  path : ∀ p ∈ pathsIn cs, ∀ r ∈ rulesOf p, ValueOk env r (((pathsIn cs).map example_).getLast?.getD ['/'])
  query : ∀ e ∈ queriesIn cs, ∀ f ∈ queriesIn cs, e.1 = f.1 → ∀ r ∈ rulesOf f.2, ValueOk env r (example_ e.2)
  headers : ∀ e ∈ headersIn (partsIn cs), ∀ f ∈ headersIn (partsIn cs), e.1 = f.1 → ∀ r ∈ rulesOf f.2,
    ∀ w ∈ QS.parseHeader uc e.1 (example_ e.2), ValueOk env r (trim uc w)

theorem mem_rulesFor {l : List (Str × SPattern)} {k : Str} {r : MatchingRule} :
    r ∈ rulesFor l k ↔ ∃ f ∈ l, f.1 = k ∧ r ∈ rulesOf f.2 := by
  unfold rulesFor
  constructor
  · intro h
    obtain ⟨f, hf, hr⟩ := List.mem_flatMap.1 h
    obtain ⟨h1, h2⟩ := List.mem_filter.1 hf
    exact ⟨f, h1, of_decide_eq_true h2, hr⟩
  · rintro ⟨f, hf, rfl, hr⟩
    exact List.mem_flatMap.2 ⟨f, List.mem_filter.2 ⟨hf, by simp⟩, hr⟩

theorem own_query {env : Env} {uc : UC} {parseCT : Str → Option ContentType} {cs : List RequestCall} {r : HttpRequest}
    (h : RequestIs uc parseCT cs r) : QueryFits env cs r.query ↔
      ∀ e ∈ queriesIn cs, ∀ f ∈ queriesIn cs, e.1 = f.1 → ∀ r ∈ rulesOf f.2, ValueOk env r (example_ e.2) := by
  have hval : ∀ k ws, Json.lookup k (r.query.getD []) = some ws → ws = valuesIn k cs := by
    intro k ws hl
    have := h.query k
    rw [hl] at this
    split at this
    · cases this
    · exact Option.some.inj this
  have hmem : ∀ e ∈ queriesIn cs, Json.lookup e.1 (r.query.getD []) = some (valuesIn e.1 cs) := by
    intro e he
    rw [h.query, if_neg (values_mem.2 (List.mem_map.2 ⟨e, he, rfl⟩))]
  unfold QueryFits
  constructor
  · rintro ⟨-, h2⟩ e he f hf hef r hr
    have := h2 e.1 _ (hmem e he)
    have hr' : r ∈ rulesFor (queriesIn cs) e.1 := mem_rulesFor.2 ⟨f, hf, hef.symm, hr⟩
    rw [if_neg (fun hn => by rw [hn] at hr'; cases hr')] at this
    refine this _ ?_ r hr'
    unfold texts valuesIn
    rw [List.map_map]
    exact List.mem_map.2 ⟨e, List.mem_filter.2 ⟨he, by simp⟩, rfl⟩
  · intro hs
    refine ⟨?_, ?_⟩
    · intro k
      rw [← values_mem]
      have hq := h.query k
      constructor
      · intro hv
        rw [if_neg hv] at hq
        exact List.mem_map.2 ⟨_, Json.lookup_mem hq, rfl⟩
      · intro hk hv
        rw [if_pos hv] at hq
        exact lookup_none_iff.1 hq hk
    · intro k ws hl
      rw [hval k ws hl]
      split
      · rfl
      · intro w hw r hr
        unfold texts valuesIn at hw
        rw [List.map_map] at hw
        obtain ⟨e, he, rfl⟩ := List.mem_map.1 hw
        obtain ⟨h1, h2⟩ := List.mem_filter.1 he
        obtain ⟨f, hf, hfk, hr⟩ := mem_rulesFor.1 hr
        exact hs e h1 f hf (by rw [of_decide_eq_true h2, hfk]) r hr

theorem own_headers {env : Env} {uc : UC} {parseCT : Str → Option ContentType} {ps : List PartCall} {f : Fields}
    (h : PartIs uc parseCT ps f) (hp : PlainHeaders uc ps) : HeadersFit env uc ps f.headers ↔
      ∀ e ∈ headersIn ps, ∀ f ∈ headersIn ps, e.1 = f.1 → ∀ r ∈ rulesOf f.2,
        ∀ w ∈ QS.parseHeader uc e.1 (example_ e.2), ValueOk env r (trim uc w) := by
  have hcalls : ∀ e ∈ headersIn ps, e ∈ headerCalls uc e.1 ps := fun e he => List.mem_filter.2 ⟨he, by simp⟩
  have hval : ∀ k ws n, (k, ws) ∈ f.headers.getD [] → uc.lower k = uc.lower n → n ∈ (headersIn ps).map (·.1) →
      ws = headerValues uc n ps := by
    intro k ws n hm hk hn
    obtain ⟨e, he, rfl⟩ := List.mem_map.1 hn
    have h1 : PartProps.headerOf uc (f.headers.getD []) e.1 = some ws :=
      findEntry_of_mem uc _ h.headers.once e.1 k ws hm hk
    have h2 := h.headers.values e.1
    rw [h1, if_neg (fun hx => by have := hcalls e he; rw [hx] at this; cases this)] at h2
    exact Option.some.inj h2
  unfold HeadersFit
  constructor
  · intro hs e he g hg heg r hr w hw
    obtain ⟨k, ws, hm, hk, hfit⟩ := hs e.1 (List.mem_map.2 ⟨e, he, rfl⟩)
    have hr' : r ∈ rulesFor (headersIn ps) e.1 := mem_rulesFor.2 ⟨g, hg, heg.symm, hr⟩
    rw [if_neg (fun hn => by rw [hn] at hr'; cases hr')] at hfit
    refine hfit w ?_ r hr'
    rw [hval k ws e.1 hm hk (List.mem_map.2 ⟨e, he, rfl⟩)]
    exact List.mem_flatMap.2 ⟨e, hcalls e he, hw⟩
  · intro hs n hn
    obtain ⟨e, he, rfl⟩ := List.mem_map.1 hn
    have h2 := h.headers.values e.1
    rw [if_neg (fun hx => by have := hcalls e he; rw [hx] at this; cases this)] at h2
    obtain ⟨k, hm, hk⟩ := findEntry_some uc _ _ _ h2
    refine ⟨k, _, hm, hk, ?_⟩
    split
    · exact sameValues_refl uc e.1 _
    · intro w hw r hr
      obtain ⟨g, hg, hgk, hr⟩ := mem_rulesFor.1 hr
      obtain ⟨x, hx, hxw⟩ := List.mem_flatMap.1 hw
      obtain ⟨hx1, hx2⟩ := List.mem_filter.1 hx
      have hxe : x.1 = e.1 := hp.spelling x hx1 e he (of_decide_eq_true hx2)
      rw [← hxe] at hxw
      exact hs x hx1 g hg (by rw [hxe, hgk]) r hr w hxw

/-- **C156** Without a body, the built request accepts itself exactly if its examples suit all the patterns given for the same
thing. -/
theorem C156_own_example_partial (env : Env) (uc : UC) (be : BodyEnv) (parseCT : Str → Option ContentType)
    (cs : List RequestCall) (hq : ∀ e ∈ queriesIn cs, Name e.1) (hp : PlainHeaders uc (partsIn cs))
    (hb : ∀ c ∈ partsIn cs, bodyOf parseCT c = none) :
    (matchRequest env uc be (asRequest (buildRequest uc parseCT cs)) (asRequest (buildRequest uc parseCT cs))).allMatched = true ↔
      Suits env uc cs := by
  have h := request_is uc parseCT cs
  rw [C156_request_no_body_partial env uc be parseCT cs hq hp hb _ h.part.headers.once]
  have h1 : uc.lower ((methodsIn cs).getLast?.getD "GET".toList) =
      uc.lower (asRequest (buildRequest uc parseCT cs)).method := by rw [← h.method]; rfl
  have h2 : PathFits env cs (asRequest (buildRequest uc parseCT cs)).path ↔
      ∀ p ∈ pathsIn cs, ∀ r ∈ rulesOf p, ValueOk env r (((pathsIn cs).map example_).getLast?.getD ['/']) := by
    rw [show (asRequest (buildRequest uc parseCT cs)).path = _ from h.path]
    unfold PathFits
    split
    · rename_i hn
      constructor
      · intro _ p hp r hr
        have := List.flatMap_eq_nil_iff.1 hn p hp
        rw [this] at hr; cases hr
      · intro _; rfl
    · exact Iff.rfl
  have h3 : QueryFits env cs (asRequest (buildRequest uc parseCT cs)).query ↔ _ := own_query (env := env) h
  have h4 : HeadersFit env uc (partsIn cs) (asRequest (buildRequest uc parseCT cs)).part.headers ↔ _ :=
    own_headers (env := env) h.part hp
  rw [h2, h3, h4]
  exact ⟨fun ⟨_, a, b, c⟩ => ⟨a, b, c⟩, fun ⟨a, b, c⟩ => ⟨h1, a, b, c⟩⟩

/-! ### Examples -/

/-- A regular expression engine in which an expression matches the texts equal to it. -/
def exactEnv : Env := { Env.simple with regex := fun re => some fun s => decide (s = re) }

/-- A request of which each thing is given once. -/
def goodCalls : List RequestCall :=
  [.path (.term "/a".toList "/a".toList), .query "q".toList (.like (.lit "x".toList)),
   .part (.header "X-A".toList (.term "1".toList "1".toList)), .part (.header "X-B".toList (.lit "1, 2".toList))]

theorem good_plain : PlainHeaders UC.ascii (partsIn goodCalls) := by
  refine ⟨?_, ?_⟩
  · intro e he
    rcases List.mem_cons.1 he with rfl | he
    · exact ⟨by unfold Ascii; decide, by unfold Name; decide⟩
    · rw [List.mem_singleton.1 he]; exact ⟨by unfold Ascii; decide, by unfold Name; decide⟩
  · intro e he f hf h
    rcases List.mem_cons.1 he with rfl | he <;> rcases List.mem_cons.1 hf with rfl | hf
    · rfl
    · rw [List.mem_singleton.1 hf] at h; exact absurd h (by decide)
    · rw [List.mem_singleton.1 he] at h; exact absurd h (by decide)
    · rw [List.mem_singleton.1 he, List.mem_singleton.1 hf]

/-- The hypotheses of `C156_own_example_partial` are met by a request that accepts itself. -/
theorem example_good : (∀ e ∈ queriesIn goodCalls, Name e.1) ∧ PlainHeaders UC.ascii (partsIn goodCalls) ∧
    (∀ c ∈ partsIn goodCalls, bodyOf (fun _ => none) c = none) ∧ Suits exactEnv UC.ascii goodCalls := by
  refine ⟨?_, good_plain, ?_, ?_⟩
  · intro e he; rw [List.mem_singleton.1 he]; unfold Name; decide
  · intro c hc
    rcases List.mem_cons.1 hc with rfl | hc
    · rfl
    · rw [List.mem_singleton.1 hc]; rfl
  · rw [← C156_own_example_partial exactEnv UC.ascii simpleBody (fun _ => none) goodCalls ?_ good_plain ?_]
    · decide +kernel
    · intro e he; rw [List.mem_singleton.1 he]; unfold Name; decide
    · intro c hc
      rcases List.mem_cons.1 hc with rfl | hc
      · rfl
      · rw [List.mem_singleton.1 hc]; rfl

/-- Does the request accept itself? -/
def ownAccepted (cs : List RequestCall) : Bool :=
  (matchRequest exactEnv UC.ascii simpleBody (asRequest (buildRequest UC.ascii (fun _ => none) cs))
    (asRequest (buildRequest UC.ascii (fun _ => none) cs))).allMatched

/-- **C156** is false for things that are given twice, and for headers with a comma: the rule of an earlier path stays, the
patterns for one parameter are asked of all its values, and the parts of a header value are compared one by one with the
pattern for the whole. -/
theorem C156_own_example_fails :
    ownAccepted [.path (.term "/a".toList "/a".toList), .path (.lit "/b".toList)] = false ∧
    ownAccepted [.query "q".toList (.term "1".toList "1".toList), .query "q".toList (.term "2".toList "2".toList)] = false ∧
    ownAccepted [.part (.header "X-A".toList (.term "1, 2".toList "1, 2".toList))] = false ∧
    ownAccepted [.path (.term "/a".toList "/a".toList)] = true ∧
    ownAccepted [.query "q".toList (.term "1".toList "1".toList)] = true ∧
    ownAccepted [.part (.header "X-A".toList (.term "1".toList "1".toList))] = true := by decide +kernel

/-- A literal beside a pattern for the same parameter is not asked for: with `q=1` and `q` like `2`, a request with `q=9` alone is
accepted, one without the pattern asks for `1`. -/
theorem C156_literal_beside_pattern :
    (matchRequest exactEnv UC.ascii simpleBody (asRequest (buildRequest UC.ascii (fun _ => none)
        [.query "q".toList (.lit "1".toList), .query "q".toList (.like (.lit "2".toList))]))
      ⟨"GET".toList, "/".toList, some [("q".toList, [some "9".toList])], ⟨none, .missing⟩, []⟩).allMatched = true ∧
    (matchRequest exactEnv UC.ascii simpleBody (asRequest (buildRequest UC.ascii (fun _ => none)
        [.query "q".toList (.lit "1".toList)]))
      ⟨"GET".toList, "/".toList, some [("q".toList, [some "9".toList])], ⟨none, .missing⟩, []⟩).allMatched = false := by
  decide +kernel

/-- A JSON body that meets the hypotheses of `C156_request_json_partial`. -/
def jsonCalls : List PartCall := [jsonUtf8, .jsonBody (.like (.json (.bool true)))]

theorem example_json : OneJsonBody (fun _ => some BodyBuildProps.jsonT) jsonCalls (.like (.json (.bool true))) BodyBuildProps.jsonT ∧
    PlainHeaders UC.ascii jsonCalls ∧ contentTypeRules UC.ascii jsonCalls ≠ [] := by
  refine ⟨⟨⟨[jsonUtf8], [], rfl, ?_⟩, rfl, by decide, ?_, ?_, ?_, ?_, ?_⟩, ⟨?_, ?_⟩, ?_⟩
  · intro c hc; rw [List.append_nil] at hc; rw [List.mem_singleton.1 hc]; rfl
  · simp [PatternProps.Everywhere, PatternProps.NotObjectMatching]
  · simp [PatternProps.Everywhere, PatternProps.KeysOk]
  · simp [PatternProps.Everywhere, PatternProps.LiteralWF, Json.WF]
  · simp [PatternProps.Everywhere, PatternProps.Unambiguous]
  · intro e he; rw [List.mem_singleton.1 he]; decide
  · intro e he; rw [List.mem_singleton.1 he]; exact ⟨by unfold Ascii; decide, by unfold Name; decide⟩
  · intro e he f hf _; rw [List.mem_singleton.1 he, List.mem_singleton.1 hf]
  · decide





end BuilderMatchProps
end Verif
