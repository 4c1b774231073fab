import Verif.Builders
import Verif.Props.PartProps
import Verif.Props.HeaderProps
import Verif.Props.QueryProps

/-
  Properties C154 and C155: the requests and responses made by the builders of the consumer DSL, for every sequence of
  calls.  What they contain (C154) and which matching rules and generators they have (C155).
-/

set_option autoImplicit false

namespace Verif
namespace BuilderProps
open Path Rules RuleJson Generate PactFile QS Query Headers Parts Patterns Builders
open IntegrationProps (genAt genAt_addGen)
open PatternProps (addAll addAll_append addAll_map addAll_table TableOf rel Everywhere NotObjectMatching extract_eq
  fromTokens_snoc rootPath_tokens pushField_push)
open HeaderProps (CaseNodup)
open QueryProps (NodupKeys)
open PartProps (headerOf headerOf_upd keys_upd_header headerOf_none lookup_updEntry keys_upd catOf_setCat forCategory_setCat)

/-! ## Specification -/

/-- The rules a pattern for a text stands for. -/
def rulesOf : SPattern → List MatchingRule
  | .lit _ => []
  | .like p => .type :: rulesOf p
  | .term re _ => [.regex re]
  | .datetime f _ => [.timestamp f]

/-- The methods given, in order. -/
def methodsIn (cs : List RequestCall) : List Str := cs.filterMap fun | .method m => some m | _ => none
/-- The paths given, in order. -/
def pathsIn (cs : List RequestCall) : List SPattern :=
  cs.filterMap fun | .path p => some p | .pathState _ p => some p | _ => none
/-- The expressions given for the path, in order. -/
def pathStatesIn (cs : List RequestCall) : List Str := cs.filterMap fun | .pathState e _ => some e | _ => none
/-- The query parameters given, in order. -/
def queriesIn (cs : List RequestCall) : List (Str × SPattern) := cs.filterMap fun | .query k v => some (k, v) | _ => none
/-- The calls about headers and the body of a request. -/
def partsIn (cs : List RequestCall) : List PartCall := cs.filterMap fun | .part c => some c | _ => none
/-- The statuses given, in order. -/
def statusesIn (cs : List ResponseCall) : List Nat := cs.filterMap fun | .status s => some s | _ => none
/-- The calls about headers and the body of a response. -/
def resPartsIn (cs : List ResponseCall) : List PartCall := cs.filterMap fun | .part c => some c | _ => none
/-- The headers given, in order. -/
def headersIn (ps : List PartCall) : List (Str × SPattern) :=
  ps.filterMap fun | .header n v => some (n, v) | .headerState n _ v => some (n, v) | _ => none
/-- The expressions given for headers, in order. -/
def headerStatesIn (ps : List PartCall) : List (Str × Str) :=
  ps.filterMap fun | .headerState n e _ => some (n, e) | _ => none

/-- The body a call asks for: the text and the content type that is recorded with it. -/
def bodyOf (parseCT : Str → Option ContentType) : PartCall → Option (Str × Option ContentType)
  | .body t => some (t, none)
  | .body2 t ct => some (t, parseCT ct)
  | .jsonBody p => some ((toExample p).text, some (typeOf parseCT "application/json".toList))
  | .bodyMatching p => some (example_ p, some (typeOf parseCT "text/plain".toList))
  | .bodyMatching2 p ct => some (example_ p, parseCT ct)
  | _ => none

/-- The body: the one that was given last. -/
def lastBody (parseCT : Str → Option ContentType) (ps : List PartCall) : FBody :=
  match (ps.filterMap (bodyOf parseCT)).getLast? with
  | some b => .present (utf8 b.1) b.2 none
  | none => .missing

/-- The values given for a query parameter, in order. -/
def valuesIn (k : Str) (cs : List RequestCall) : List (Option Str) :=
  ((queriesIn cs).filter fun e => decide (e.1 = k)).map fun e => some (example_ e.2)

/-- The calls for a header, whatever the case of its name. -/
def headerCalls (uc : UC) (n : Str) (ps : List PartCall) : List (Str × SPattern) :=
  (headersIn ps).filter fun e => decide (uc.lower e.1 = uc.lower n)

/-- The values given for a header, in order; a value with commas (unless it is a date or the like) is several. -/
def headerValues (uc : UC) (n : Str) (ps : List PartCall) : List Str :=
  (headerCalls uc n ps).flatMap fun e => parseHeader uc n (example_ e.2)

/-- The headers are those asked for. -/
structure HeadersAre (uc : UC) (ps : List PartCall) (h : Option HeaderMap) : Prop where
  values : ∀ n, headerOf uc (h.getD []) n = if headerCalls uc n ps = [] then none else some (headerValues uc n ps)
  once : CaseNodup uc (h.getD [])
  spelling : ∀ k vs, (k, vs) ∈ h.getD [] → ((headersIn ps).find? fun e => decide (uc.lower e.1 = uc.lower k)).map (·.1) = some k
  none_ : h = none ↔ headersIn ps = []

/-- The rows of the table of rules for named things: each rule at `$.name`. -/
def rowsOf (l : List (Str × SPattern)) : List (List PathToken × MatchingRule) :=
  l.flatMap fun e => (rulesOf e.2).map fun r => ([.field e.1], r)

/-- The rows of the rules for the body. -/
def bodyRows (ps : List PartCall) : List (List PathToken × MatchingRule) :=
  ps.flatMap fun
    | .jsonBody p => rel p
    | .bodyMatching p => (rulesOf p).map fun r => ([], r)
    | .bodyMatching2 p _ => (rulesOf p).map fun r => ([], r)
    | _ => []

/-- No JSON pattern of the calls contains an `ObjectMatching`. -/
def NoObjectMatching (ps : List PartCall) : Prop := ∀ p, PartCall.jsonBody p ∈ ps → Everywhere NotObjectMatching p

/-- The value of a provider state expression as a text. -/
def fromState (e : Str) : Generator := .providerState e (some .string)

/-! ## Proofs -/

theorem extractS_eq (ts : List PathToken) (p : SPattern) (out : RuleCategory) :
    extractS (fromTokens ts) p out = addAll ts ((rulesOf p).map fun r => ([], r)) out := by
  induction p generalizing out with
  | lit s => rfl
  | like p ih =>
    rw [extractS, ih]
    simp only [rulesOf, List.map_cons, addAll, List.foldl_cons, List.append_nil]
  | term re e => simp [extractS, rulesOf, addAll]
  | datetime f e => simp [extractS, rulesOf, addAll]

theorem fieldPath_tokens (k : Str) : fieldPath k = fromTokens [.root, .field k] := by
  rw [fieldPath, pushField_push, rootPath_tokens, fromTokens_snoc]; rfl

theorem extractS_field (k : Str) (p : SPattern) (out : RuleCategory) :
    extractS (fieldPath k) p out = addAll [.root] (rowsOf [(k, p)]) out := by
  rw [fieldPath_tokens, extractS_eq]
  have := addAll_map [.root] (.field k) ((rulesOf p).map fun r => ([], r)) out
  rw [List.map_map] at this
  rw [show ([PathToken.root, .field k] : List PathToken) = [.root] ++ [.field k] from rfl, ← this]
  simp only [rowsOf, List.flatMap_cons, List.flatMap_nil, List.append_nil]
  rfl

theorem rowsOf_append (l m : List (Str × SPattern)) : rowsOf (l ++ m) = rowsOf l ++ rowsOf m := by simp [rowsOf]

theorem catOf_inCategory (c d : Category) (f : RuleCategory → RuleCategory) (R : MatchingRules) :
    catOf (inCategory c f R) d = if d = c then f (catOf R c) else catOf R d := by
  unfold inCategory
  by_cases h : d = c
  · subst h; rw [if_pos rfl, catOf_setCat]
  · rw [if_neg h]; unfold catOf; rw [forCategory_setCat, if_neg h]

/-! ### Headers -/

theorem putHeader_eq (uc : UC) (name : Str) (vs : List Str) (h : HeaderMap) :
    putHeader uc name vs h = updEntry ((headerKey uc h name).getD name) (fun old => old.getD [] ++ vs) h := by
  unfold putHeader
  cases hk : headerKey uc h name with
  | some key => rfl
  | none =>
    rw [Option.getD_none]
    have hno : ∀ e ∈ h, e.1 ≠ name := by
      intro e he hn
      rw [headerKey, Option.map_eq_none_iff, List.find?_eq_none] at hk
      exact hk e he (by simp [hn])
    clear hk
    simp only
    induction h with
    | nil => rfl
    | cons e es ih =>
      rw [updEntry, updEntry, if_neg (hno e (by simp)), if_neg (hno e (by simp)), ih (fun x hx => hno x (by simp [hx]))]

theorem headersIn_append (ps qs : List PartCall) : headersIn (ps ++ qs) = headersIn ps ++ headersIn qs := by
  simp [headersIn, List.filterMap_append]

theorem headerCalls_append (uc : UC) (n : Str) (ps qs : List PartCall) :
    headerCalls uc n (ps ++ qs) = headerCalls uc n ps ++ headerCalls uc n qs := by
  simp [headerCalls, headersIn_append]

theorem headersAre_same {uc : UC} {ps : List PartCall} {c : PartCall} {h : Option HeaderMap} (hi : HeadersAre uc ps h)
    (hc : headersIn [c] = []) : HeadersAre uc (ps ++ [c]) h := by
  have h1 : headersIn (ps ++ [c]) = headersIn ps := by rw [headersIn_append, hc, List.append_nil]
  have h2 : ∀ n, headerCalls uc n (ps ++ [c]) = headerCalls uc n ps := by intro n; unfold headerCalls; rw [h1]
  have h3 : ∀ n, headerValues uc n (ps ++ [c]) = headerValues uc n ps := by intro n; unfold headerValues; rw [h2]
  refine ⟨fun n => ?_, hi.once, fun k vs hm => ?_, ?_⟩
  · rw [h2, h3]; exact hi.values n
  · rw [h1]; exact hi.spelling k vs hm
  · rw [h1]; exact hi.none_

theorem headersAre_put {uc : UC} {ps : List PartCall} {c : PartCall} {h : Option HeaderMap} {name : Str} {v : SPattern}
    (hi : HeadersAre uc ps h) (hc : headersIn [c] = [(name, v)]) :
    HeadersAre uc (ps ++ [c]) (some (putHeader uc name (parseHeader uc name (example_ v)) (h.getD []))) := by
  have h1 : headersIn (ps ++ [c]) = headersIn ps ++ [(name, v)] := by rw [headersIn_append, hc]
  have hcalls : ∀ n, headerCalls uc n (ps ++ [c]) = headerCalls uc n ps ++
      if uc.lower n = uc.lower name then [(name, v)] else [] := by
    intro n
    unfold headerCalls
    rw [h1, List.filter_append]
    congr 1
    by_cases hl : uc.lower n = uc.lower name
    · rw [if_pos hl]; simp [hl]
    · rw [if_neg hl]
      have : ¬ uc.lower name = uc.lower n := fun e => hl e.symm
      simp [this]
  have hkeys : ∀ k, k ∈ (putHeader uc name (parseHeader uc name (example_ v)) (h.getD [])).map (·.1) →
      k ∈ (h.getD []).map (·.1) ∨ (k = name ∧ headerOf uc (h.getD []) name = none) := by
    intro k hk
    rw [putHeader_eq, keys_upd_header] at hk
    cases ho : headerOf uc (h.getD []) name with
    | some x => rw [ho, Option.isSome_some, if_pos rfl] at hk; exact .inl hk
    | none =>
      rw [ho, Option.isSome_none, if_neg (by simp), List.mem_append, List.mem_singleton] at hk
      rcases hk with hk | hk
      · exact .inl hk
      · exact .inr ⟨hk, rfl⟩
  refine ⟨?_, ?_, ?_, ?_⟩
  · intro n
    rw [Option.getD_some, putHeader_eq, headerOf_upd, hi.values n, hi.values name]
    unfold headerValues
    rw [hcalls n]
    by_cases hl : uc.lower n = uc.lower name
    · rw [if_pos hl, if_pos hl, if_neg (show ¬ (headerCalls uc n ps ++ [(name, v)] = []) by simp)]
      have e1 : headerCalls uc name ps = headerCalls uc n ps := by unfold headerCalls; rw [hl]
      rw [e1, List.flatMap_append]
      have e2 : (fun e : Str × SPattern => parseHeader uc name (example_ e.2)) = fun e => parseHeader uc n (example_ e.2) := by
        funext e; exact PartProps.parseHeader_congr uc hl.symm _
      congr 1
      rw [e2, PartProps.parseHeader_congr uc hl.symm]
      by_cases he : headerCalls uc n ps = []
      · rw [if_pos he, he]; simp
      · rw [if_neg he]; simp
    · rw [if_neg hl, if_neg hl, List.append_nil]
  · rw [Option.getD_some]
    unfold CaseNodup
    have hmm : ∀ m : HeaderMap, (m.map fun kv => uc.lower kv.1) = (m.map (·.1)).map uc.lower := by
      intro m; rw [List.map_map]; rfl
    rw [hmm, putHeader_eq, keys_upd_header]
    have ho := hi.once
    unfold CaseNodup at ho
    rw [hmm] at ho
    cases hn : headerOf uc (h.getD []) name with
    | some x => rw [Option.isSome_some, if_pos rfl]; exact ho
    | none =>
      rw [Option.isSome_none, if_neg (by simp), List.map_append, List.nodup_append]
      refine ⟨ho, by simp, ?_⟩
      intro a ha b hb e
      rw [List.map_cons, List.map_nil, List.mem_singleton] at hb
      obtain ⟨k, hk, rfl⟩ := List.mem_map.1 ha
      obtain ⟨x, hx, rfl⟩ := List.mem_map.1 hk
      rw [headerOf, Option.map_eq_none_iff, List.find?_eq_none] at hn
      exact hn x hx (by simp [e, hb])
  · intro k vs hm
    have hk := hkeys k (List.mem_map.2 ⟨(k, vs), hm, rfl⟩)
    rw [h1, List.find?_append]
    rcases hk with hk | ⟨rfl, hn⟩
    · obtain ⟨⟨k', vs'⟩, hm', e⟩ := List.mem_map.1 hk
      simp only at e
      subst e
      have := hi.spelling _ _ hm'
      obtain ⟨x, hx, hxk⟩ := Option.map_eq_some_iff.1 this
      rw [hx]
      exact congrArg some hxk
    · have hv := hi.values k
      rw [hn] at hv
      have hnil : headerCalls uc k ps = [] := by
        by_cases he : headerCalls uc k ps = []
        · exact he
        · rw [if_neg he] at hv; cases hv
      have : (headersIn ps).find? (fun e => decide (uc.lower e.1 = uc.lower k)) = none := by
        rw [List.find?_eq_none]
        intro x hx hd
        have : x ∈ headerCalls uc k ps := List.mem_filter.2 ⟨hx, hd⟩
        rw [hnil] at this
        cases this
      rw [this]
      simp
  · rw [h1]; simp

/-! ### One part -/

/-- A part made by the calls. -/
structure PartIs (uc : UC) (parseCT : Str → Option ContentType) (ps : List PartCall) (f : Fields) : Prop where
  headers : HeadersAre uc ps f.headers
  body : f.body = lastBody parseCT ps
  hrules : catOf f.rules .header = addAll [.root] (rowsOf (headersIn ps)) (emptyCat .header)
  brules : NoObjectMatching ps → catOf f.rules .body = addAll [.root] (bodyRows ps) (emptyCat .body)
  gens : ∀ n, genAt f.gens .header (fieldPath n) =
    (((headerStatesIn ps).filter fun e => decide (e.1 = n)).getLast?).map fun e => fromState e.2

theorem partIs_nil (uc : UC) (parseCT : Str → Option ContentType) : PartIs uc parseCT [] ⟨none, .missing, [], []⟩ :=
  ⟨⟨fun _ => rfl, List.nodup_nil, (fun k vs h => by cases h), by simp [headersIn]⟩, rfl, rfl, fun _ => rfl, fun _ => rfl⟩

theorem PartIs.congr {uc : UC} {parseCT : Str → Option ContentType} {ps : List PartCall} {f g : Fields}
    (h : PartIs uc parseCT ps f) (hh : g.headers = f.headers) (hb : g.body = f.body)
    (h1 : catOf g.rules .header = catOf f.rules .header) (h2 : catOf g.rules .body = catOf f.rules .body)
    (h3 : ∀ p, genAt g.gens .header p = genAt f.gens .header p) : PartIs uc parseCT ps g :=
  ⟨by rw [hh]; exact h.headers, by rw [hb]; exact h.body, by rw [h1]; exact h.hrules, fun hn => by rw [h2]; exact h.brules hn,
    fun n => by rw [h3]; exact h.gens n⟩

theorem noObjectMatching_init {ps : List PartCall} {c : PartCall} (h : NoObjectMatching (ps ++ [c])) : NoObjectMatching ps :=
  fun p hp => h p (List.mem_append_left _ hp)

theorem lastBody_snoc (parseCT : Str → Option ContentType) (ps : List PartCall) (c : PartCall) :
    lastBody parseCT (ps ++ [c]) = match bodyOf parseCT c with
      | some b => .present (utf8 b.1) b.2 none
      | none => lastBody parseCT ps := by
  unfold lastBody
  rw [List.filterMap_append]
  cases hb : bodyOf parseCT c with
  | none => simp [hb]
  | some b => simp [hb]

theorem fieldPath_inj {n k : Str} : (fieldPath n).expr = (fieldPath k).expr ↔ n = k := by
  constructor
  · intro h
    rw [fieldPath_tokens, fieldPath_tokens] at h
    have := PatternProps.fromTokens_inj h
    simpa using this
  · intro h; rw [h]

theorem header_is {uc : UC} {parseCT : Str → Option ContentType} {ps : List PartCall} {f : Fields} {name : Str}
    {v : SPattern} {c : PartCall} (h : PartIs uc parseCT ps f) (hc : headersIn [c] = [(name, v)])
    (hb : bodyOf parseCT c = none) (hr : bodyRows [c] = []) :
    HeadersAre uc (ps ++ [c]) (header uc name v f).headers ∧ (header uc name v f).body = lastBody parseCT (ps ++ [c]) ∧
    catOf (header uc name v f).rules .header = addAll [.root] (rowsOf (headersIn (ps ++ [c]))) (emptyCat .header) ∧
    (NoObjectMatching (ps ++ [c]) →
      catOf (header uc name v f).rules .body = addAll [.root] (bodyRows (ps ++ [c])) (emptyCat .body)) := by
  refine ⟨headersAre_put h.headers hc, ?_, ?_, ?_⟩
  · rw [lastBody_snoc, hb]; exact h.body
  · rw [headersIn_append, hc, rowsOf_append, addAll_append, ← h.hrules]
    show catOf (inCategory .header _ f.rules) .header = _
    rw [catOf_inCategory, if_pos rfl, extractS_field]
  · intro hn
    have e : bodyRows (ps ++ [c]) = bodyRows ps := by
      have : bodyRows (ps ++ [c]) = bodyRows ps ++ bodyRows [c] := by unfold bodyRows; rw [List.flatMap_append]
      rw [this, hr, List.append_nil]
    rw [e, ← h.brules (noObjectMatching_init hn)]
    show catOf (inCategory .header _ f.rules) .body = _
    rw [catOf_inCategory, if_neg (by decide)]

theorem headerStates_same {ps : List PartCall} {c : PartCall} (h : headerStatesIn [c] = []) :
    headerStatesIn (ps ++ [c]) = headerStatesIn ps := by
  have : headerStatesIn (ps ++ [c]) = headerStatesIn ps ++ headerStatesIn [c] := by
    unfold headerStatesIn; rw [List.filterMap_append]
  rw [this, h, List.append_nil]

theorem bodyCall_is {uc : UC} {parseCT : Str → Option ContentType} {ps : List PartCall} {f : Fields} {c : PartCall}
    {b : Str × Option ContentType} {g : RuleCategory → RuleCategory} (h : PartIs uc parseCT ps f)
    (hb : bodyOf parseCT c = some b) (hh : headersIn [c] = []) (hs : headerStatesIn [c] = [])
    (hg : NoObjectMatching [c] → ∀ out, g out = addAll [.root] (bodyRows [c]) out)
    (R : MatchingRules) (hR : R = inCategory .body g f.rules ∨ (R = f.rules ∧ ∀ out, g out = out)) :
    PartIs uc parseCT (ps ++ [c]) { f with body := .present (utf8 b.1) b.2 none, rules := R } := by
  have hcat : catOf R .header = catOf f.rules .header ∧ catOf R .body = g (catOf f.rules .body) := by
    rcases hR with rfl | ⟨rfl, hid⟩
    · exact ⟨by rw [catOf_inCategory, if_neg (by decide)], by rw [catOf_inCategory, if_pos rfl]⟩
    · exact ⟨rfl, by rw [hid]⟩
  refine ⟨headersAre_same h.headers hh, ?_, ?_, ?_, ?_⟩
  · rw [lastBody_snoc, hb]
  · rw [headersIn_append, hh, List.append_nil, ← h.hrules]; exact hcat.1
  · intro hn
    have : bodyRows (ps ++ [c]) = bodyRows ps ++ bodyRows [c] := by unfold bodyRows; rw [List.flatMap_append]
    rw [this, addAll_append, ← h.brules (noObjectMatching_init hn),
      ← hg (fun p hp => hn p (List.mem_append_right _ hp))]
    exact hcat.2
  · intro n; rw [headerStates_same hs]; exact h.gens n

theorem part_step {uc : UC} {parseCT : Str → Option ContentType} {ps : List PartCall} {f : Fields} (c : PartCall)
    (h : PartIs uc parseCT ps f) : PartIs uc parseCT (ps ++ [c]) (partStep uc parseCT c f) := by
  have hS : ∀ (p : SPattern) (out : RuleCategory),
      extractS rootPath p out = addAll [.root] ((rulesOf p).map fun r => ([], r)) out := by
    intro p out; rw [rootPath_tokens, extractS_eq]
  cases c with
  | header n v =>
    obtain ⟨h1, h2, h3, h4⟩ := header_is (c := .header n v) (name := n) (v := v) h rfl rfl rfl
    exact ⟨h1, h2, h3, h4, fun k => by rw [headerStates_same rfl]; exact h.gens k⟩
  | headerState n e v =>
    obtain ⟨h1, h2, h3, h4⟩ := header_is (c := .headerState n e v) (name := n) (v := v) h rfl rfl rfl
    refine ⟨h1, h2, h3, h4, fun k => ?_⟩
    show genAt (addGen f.gens .header (fieldPath n) (fromState e)) .header (fieldPath k) = _
    have hst : headerStatesIn (ps ++ [.headerState n e v]) = headerStatesIn ps ++ [(n, e)] := by
      unfold headerStatesIn; rw [List.filterMap_append]; rfl
    rw [genAt_addGen, hst, List.filter_append]
    by_cases hk : k = n
    · subst hk
      rw [if_pos ⟨rfl, rfl⟩]
      simp
    · rw [if_neg (fun hx => hk (fieldPath_inj.1 hx.2))]
      have hn : ¬ n = k := fun e => hk e.symm
      simp only [List.filter_cons, hn, decide_false, Bool.false_eq_true, if_false, List.filter_nil, List.append_nil]
      exact h.gens k
  | body t => exact bodyCall_is (c := .body t) (b := (t, none)) (g := id) h rfl rfl rfl (fun _ out => rfl) f.rules (.inr ⟨rfl, fun _ => rfl⟩)
  | body2 t ct => exact bodyCall_is (c := .body2 t ct) (b := (t, parseCT ct)) (g := id) h rfl rfl rfl (fun _ out => rfl) f.rules (.inr ⟨rfl, fun _ => rfl⟩)
  | jsonBody p =>
    refine bodyCall_is (c := .jsonBody p) (b := ((toExample p).text, some (typeOf parseCT "application/json".toList))) (g := extract rootPath p) h rfl rfl rfl (fun hn out => ?_) _ (.inl rfl)
    rw [rootPath_tokens, extract_eq [.root] p out (hn p (by simp))]
    simp [bodyRows]
  | bodyMatching p =>
    refine bodyCall_is (c := .bodyMatching p) (b := (example_ p, some (typeOf parseCT "text/plain".toList))) (g := extractS rootPath p) h rfl rfl rfl (fun hn out => ?_) _ (.inl rfl)
    rw [hS]; simp [bodyRows]
  | bodyMatching2 p ct =>
    refine bodyCall_is (c := .bodyMatching2 p ct) (b := (example_ p, parseCT ct)) (g := extractS rootPath p) h rfl rfl rfl (fun hn out => ?_) _ (.inl rfl)
    rw [hS]; simp [bodyRows]

/-! ### Requests -/

/-- The request made by the calls. -/
structure RequestIs (uc : UC) (parseCT : Str → Option ContentType) (cs : List RequestCall) (r : HttpRequest) : Prop where
  method : r.method = (methodsIn cs).getLast?.getD "GET".toList
  path : r.path = ((pathsIn cs).map example_).getLast?.getD ['/']
  query : ∀ k, Json.lookup k (r.query.getD []) = if valuesIn k cs = [] then none else some (valuesIn k cs)
  queryOnce : NodupKeys (r.query.getD [])
  queryNone : r.query = none ↔ queriesIn cs = []
  part : PartIs uc parseCT (partsIn cs) (reqFields r)
  prules : catOf r.rules .path = addAll [] (((pathsIn cs).flatMap rulesOf).map fun r => ([], r)) (emptyCat .path)
  qrules : catOf r.rules .query = addAll [.root] (rowsOf (queriesIn cs)) (emptyCat .query)
  pgens : genAt r.gens .path Path.empty = (pathStatesIn cs).getLast?.map fromState
  others : ∀ c, c ≠ .path → c ≠ .query → c ≠ .header → c ≠ .body → catOf r.rules c = emptyCat c

/-- The rules of the other categories stay. -/
theorem partStep_cat (uc : UC) (parseCT : Str → Option ContentType) (c : PartCall) (f : Fields) (d : Category)
    (h1 : d ≠ .header) (h2 : d ≠ .body) : catOf (partStep uc parseCT c f).rules d = catOf f.rules d := by
  cases c <;> first
    | rfl
    | (show catOf (inCategory .header _ f.rules) d = _; rw [catOf_inCategory, if_neg h1])
    | (show catOf (inCategory .body _ f.rules) d = _; rw [catOf_inCategory, if_neg h2])

theorem partStep_gen (uc : UC) (parseCT : Str → Option ContentType) (c : PartCall) (f : Fields) (p : DocPath) :
    genAt (partStep uc parseCT c f).gens .path p = genAt f.gens .path p := by
  cases c <;> first
    | rfl
    | (show genAt (addGen f.gens .header _ _) .path p = _; rw [genAt_addGen, if_neg (by rintro ⟨h, _⟩; cases h)])

theorem snoc {α β : Type} (f : α → Option β) (l : List α) (x : α) :
    (l ++ [x]).filterMap f = l.filterMap f ++ (f x).toList := by
  rw [List.filterMap_append]
  cases h : f x <;> simp [h]

theorem queries_snoc (cs : List RequestCall) (k : Str) (v : SPattern) :
    queriesIn (cs ++ [.query k v]) = queriesIn cs ++ [(k, v)] := snoc _ _ _

theorem request_step {uc : UC} {parseCT : Str → Option ContentType} {cs : List RequestCall} {r : HttpRequest}
    (c : RequestCall) (h : RequestIs uc parseCT cs r) :
    RequestIs uc parseCT (cs ++ [c]) (requestStep uc parseCT c r) := by
  have keep : ∀ (d : RequestCall), queriesIn [d] = [] → queriesIn (cs ++ [d]) = queriesIn cs := by
    intro d hd
    have : queriesIn (cs ++ [d]) = queriesIn cs ++ queriesIn [d] := by unfold queriesIn; rw [List.filterMap_append]
    rw [this, hd, List.append_nil]
  have keepv : ∀ (d : RequestCall), queriesIn [d] = [] → ∀ k, valuesIn k (cs ++ [d]) = valuesIn k cs := by
    intro d hd k; unfold valuesIn; rw [keep d hd]
  have keepp : ∀ (d : RequestCall), partsIn [d] = [] → partsIn (cs ++ [d]) = partsIn cs := by
    intro d hd
    have : partsIn (cs ++ [d]) = partsIn cs ++ partsIn [d] := by unfold partsIn; rw [List.filterMap_append]
    rw [this, hd, List.append_nil]
  have keept : ∀ (d : RequestCall), pathsIn [d] = [] → pathsIn (cs ++ [d]) = pathsIn cs := by
    intro d hd
    have : pathsIn (cs ++ [d]) = pathsIn cs ++ pathsIn [d] := by unfold pathsIn; rw [List.filterMap_append]
    rw [this, hd, List.append_nil]
  have keepm : ∀ (d : RequestCall), methodsIn [d] = [] → methodsIn (cs ++ [d]) = methodsIn cs := by
    intro d hd
    have : methodsIn (cs ++ [d]) = methodsIn cs ++ methodsIn [d] := by unfold methodsIn; rw [List.filterMap_append]
    rw [this, hd, List.append_nil]
  have keeps : ∀ (d : RequestCall), pathStatesIn [d] = [] → pathStatesIn (cs ++ [d]) = pathStatesIn cs := by
    intro d hd
    have : pathStatesIn (cs ++ [d]) = pathStatesIn cs ++ pathStatesIn [d] := by
      unfold pathStatesIn; rw [List.filterMap_append]
    rw [this, hd, List.append_nil]
  have pathRules : ∀ (d : RequestCall) (p : SPattern), pathsIn [d] = [p] →
      catOf (inCategory .path (extractS Path.empty p) r.rules) .path =
        addAll [] (((pathsIn (cs ++ [d])).flatMap rulesOf).map fun r => ([], r)) (emptyCat .path) := by
    intro d p hd
    have : pathsIn (cs ++ [d]) = pathsIn cs ++ pathsIn [d] := by unfold pathsIn; rw [List.filterMap_append]
    rw [this, hd, List.flatMap_append, List.map_append, addAll_append, ← h.prules, catOf_inCategory, if_pos rfl,
      show Path.empty = fromTokens [] from rfl, extractS_eq]
    simp
  have other : ∀ (c d : Category) (f : RuleCategory → RuleCategory), d ≠ c →
      catOf (inCategory c f r.rules) d = catOf r.rules d := by
    intro c d f hd; rw [catOf_inCategory, if_neg hd]
  cases c with
  | method m =>
    refine ⟨?_, ?_, fun k => ?_, h.queryOnce, ?_, ?_, ?_, ?_, ?_, h.others⟩
    · have : methodsIn (cs ++ [.method m]) = methodsIn cs ++ [m] := snoc _ _ _
      rw [this]; simp [requestStep]
    · rw [keept _ rfl]; exact h.path
    · rw [keepv _ rfl]; exact h.query k
    · rw [keep _ rfl]; exact h.queryNone
    · rw [keepp _ rfl]; exact h.part
    · rw [keept _ rfl]; exact h.prules
    · rw [keep _ rfl]; exact h.qrules
    · rw [keeps _ rfl]; exact h.pgens
  | path p =>
    refine ⟨?_, ?_, fun k => ?_, h.queryOnce, ?_, ?_, pathRules _ p rfl, ?_, ?_, ?_⟩
    · rw [keepm _ rfl]; exact h.method
    · have : pathsIn (cs ++ [.path p]) = pathsIn cs ++ [p] := snoc _ _ _
      rw [this]; simp [requestStep, Builders.path]
    · rw [keepv _ rfl]; exact h.query k
    · rw [keep _ rfl]; exact h.queryNone
    · rw [keepp _ rfl]
      exact h.part.congr rfl rfl (other _ _ _ (by decide)) (other _ _ _ (by decide)) (fun _ => rfl)
    · rw [keep _ rfl, ← h.qrules]; exact other _ _ _ (by decide)
    · rw [keeps _ rfl]; exact h.pgens
    · intro c h1 h2 h3 h4; rw [← h.others c h1 h2 h3 h4]; exact other _ _ _ h1
  | pathState e p =>
    refine ⟨?_, ?_, fun k => ?_, h.queryOnce, ?_, ?_, pathRules _ p rfl, ?_, ?_, ?_⟩
    · rw [keepm _ rfl]; exact h.method
    · have : pathsIn (cs ++ [.pathState e p]) = pathsIn cs ++ [p] := snoc _ _ _
      rw [this]; simp [requestStep, Builders.path]
    · rw [keepv _ rfl]; exact h.query k
    · rw [keep _ rfl]; exact h.queryNone
    · rw [keepp _ rfl]
      refine h.part.congr rfl rfl (other _ _ _ (by decide)) (other _ _ _ (by decide)) (fun q => ?_)
      show genAt (addGen r.gens .path _ _) .header q = _
      rw [genAt_addGen, if_neg (by rintro ⟨h, _⟩; cases h)]; rfl
    · rw [keep _ rfl, ← h.qrules]; exact other _ _ _ (by decide)
    · have : pathStatesIn (cs ++ [.pathState e p]) = pathStatesIn cs ++ [e] := snoc _ _ _
      rw [this]
      show genAt (addGen r.gens .path _ _) .path _ = _
      rw [genAt_addGen, if_pos ⟨rfl, rfl⟩]
      simp [fromState]
    · intro c h1 h2 h3 h4; rw [← h.others c h1 h2 h3 h4]; exact other _ _ _ h1
  | query k v =>
    have hval : ∀ k', valuesIn k' (cs ++ [.query k v]) =
        valuesIn k' cs ++ if k' = k then [some (example_ v)] else [] := by
      intro k'
      unfold valuesIn
      rw [queries_snoc, List.filter_append, List.map_append]
      congr 1
      by_cases hk : k' = k
      · subst hk; simp
      · have : ¬ k = k' := fun e => hk e.symm
        simp [hk, this]
    refine ⟨?_, ?_, fun k' => ?_, ?_, ?_, ?_, ?_, ?_, ?_, ?_⟩
    · rw [keepm _ rfl]; exact h.method
    · rw [keept _ rfl]; exact h.path
    · show Json.lookup k' (updEntry k _ (r.query.getD [])) = _
      rw [lookup_updEntry, hval, h.query k, h.query k']
      by_cases hk : k' = k
      · subst hk
        rw [if_pos rfl, if_pos rfl, if_neg (show ¬ (valuesIn k' cs ++ [some (example_ v)] = []) by simp)]
        by_cases hn : valuesIn k' cs = []
        · rw [if_pos hn, hn]; rfl
        · rw [if_neg hn]; rfl
      · rw [if_neg hk, if_neg hk, List.append_nil]
    · show NodupKeys (updEntry k _ (r.query.getD []))
      unfold NodupKeys
      rw [keys_upd]
      have := h.queryOnce
      unfold NodupKeys at this
      by_cases hm : k ∈ (r.query.getD []).map (·.1)
      · rw [if_pos hm]; exact this
      · rw [if_neg hm, List.nodup_append]
        refine ⟨this, by simp, ?_⟩
        intro a ha b hb e
        rw [List.mem_singleton] at hb
        subst hb; subst e
        exact hm ha
    · rw [queries_snoc]; simp [requestStep, queryParam]
    · rw [keepp _ rfl]
      exact h.part.congr rfl rfl (other _ _ _ (by decide)) (other _ _ _ (by decide)) (fun _ => rfl)
    · rw [keept _ rfl, ← h.prules]; exact other _ _ _ (by decide)
    · rw [queries_snoc, rowsOf_append, addAll_append, ← h.qrules]
      show catOf (inCategory .query _ r.rules) .query = _
      rw [catOf_inCategory, if_pos rfl, extractS_field]
    · rw [keeps _ rfl]; exact h.pgens
    · intro c h1 h2 h3 h4; rw [← h.others c h1 h2 h3 h4]; exact other _ _ _ h2
  | part c =>
    have : partsIn (cs ++ [.part c]) = partsIn cs ++ [c] := snoc _ _ _
    refine ⟨?_, ?_, fun k => ?_, h.queryOnce, ?_, ?_, ?_, ?_, ?_, ?_⟩
    · rw [keepm _ rfl]; exact h.method
    · rw [keept _ rfl]; exact h.path
    · rw [keepv _ rfl]; exact h.query k
    · rw [keep _ rfl]; exact h.queryNone
    · rw [this]; exact part_step c h.part
    · rw [keept _ rfl, ← h.prules]; exact partStep_cat uc parseCT c _ _ (by decide) (by decide)
    · rw [keep _ rfl, ← h.qrules]; exact partStep_cat uc parseCT c _ _ (by decide) (by decide)
    · rw [keeps _ rfl, ← h.pgens]; exact partStep_gen uc parseCT c _ _
    · intro d h1 h2 h3 h4; rw [← h.others d h1 h2 h3 h4]; exact partStep_cat uc parseCT c _ _ h3 h4

theorem request_nil (uc : UC) (parseCT : Str → Option ContentType) : RequestIs uc parseCT [] request0 :=
  ⟨rfl, rfl, fun _ => rfl, List.nodup_nil, by simp [queriesIn, request0], partIs_nil uc parseCT, rfl, rfl, rfl,
    fun _ _ _ _ _ => rfl⟩

theorem request_is (uc : UC) (parseCT : Str → Option ContentType) (cs : List RequestCall) :
    RequestIs uc parseCT cs (buildRequest uc parseCT cs) := by
  suffices h : ∀ cs : List RequestCall, RequestIs uc parseCT cs.reverse (buildRequest uc parseCT cs.reverse) by
    simpa using h cs.reverse
  intro cs
  induction cs with
  | nil => exact request_nil uc parseCT
  | cons c cs ih =>
    rw [List.reverse_cons]
    unfold buildRequest at ih ⊢
    rw [List.foldl_append]
    exact request_step c ih

/-! ### Responses -/

/-- The response made by the calls. -/
structure ResponseIs (uc : UC) (parseCT : Str → Option ContentType) (cs : List ResponseCall) (r : HttpResponse) : Prop where
  status : r.status = (statusesIn cs).getLast?.getD 200
  part : PartIs uc parseCT (resPartsIn cs) (resFields r)
  others : ∀ c, c ≠ .header → c ≠ .body → catOf r.rules c = emptyCat c

theorem response_step {uc : UC} {parseCT : Str → Option ContentType} {cs : List ResponseCall} {r : HttpResponse}
    (c : ResponseCall) (h : ResponseIs uc parseCT cs r) :
    ResponseIs uc parseCT (cs ++ [c]) (responseStep uc parseCT c r) := by
  cases c with
  | status s =>
    have h1 : statusesIn (cs ++ [.status s]) = statusesIn cs ++ [s] := snoc _ _ _
    have h2 : resPartsIn (cs ++ [.status s]) = resPartsIn cs := by
      unfold resPartsIn; rw [snoc]; simp
    exact ⟨by rw [h1]; simp [responseStep], by rw [h2]; exact h.part, h.others⟩
  | part c =>
    have h1 : statusesIn (cs ++ [.part c]) = statusesIn cs := by
      unfold statusesIn; rw [snoc]; simp
    have h2 : resPartsIn (cs ++ [.part c]) = resPartsIn cs ++ [c] := snoc _ _ _
    refine ⟨by rw [h1]; exact h.status, by rw [h2]; exact part_step c h.part, ?_⟩
    intro d h3 h4; rw [← h.others d h3 h4]; exact partStep_cat uc parseCT c _ _ h3 h4

theorem response_is (uc : UC) (parseCT : Str → Option ContentType) (cs : List ResponseCall) :
    ResponseIs uc parseCT cs (buildResponse uc parseCT cs) := by
  suffices h : ∀ cs : List ResponseCall, ResponseIs uc parseCT cs.reverse (buildResponse uc parseCT cs.reverse) by
    simpa using h cs.reverse
  intro cs
  induction cs with
  | nil => exact ⟨rfl, partIs_nil uc parseCT, fun _ _ _ => rfl⟩
  | cons c cs ih =>
    rw [List.reverse_cons]
    unfold buildResponse at ih ⊢
    rw [List.foldl_append]
    exact response_step c ih

/-! ### What the request and the response contain -/

/-- **C154** (requests).  For every sequence of calls: the method, the path and the body are those given last; a query
parameter has all the values given for it, in order, and no other parameter exists; a header has all the values given for it
under any spelling, in order, is there once, under the spelling that was used first; what was never given has its default. -/
theorem C154_request (uc : UC) (parseCT : Str → Option ContentType) (cs : List RequestCall) :
    (buildRequest uc parseCT cs).method = (methodsIn cs).getLast?.getD "GET".toList ∧
    (buildRequest uc parseCT cs).path = ((pathsIn cs).map example_).getLast?.getD ['/'] ∧
    (∀ k, Json.lookup k ((buildRequest uc parseCT cs).query.getD []) =
      if valuesIn k cs = [] then none else some (valuesIn k cs)) ∧
    NodupKeys ((buildRequest uc parseCT cs).query.getD []) ∧
    ((buildRequest uc parseCT cs).query = none ↔ queriesIn cs = []) ∧
    HeadersAre uc (partsIn cs) (buildRequest uc parseCT cs).headers ∧
    (buildRequest uc parseCT cs).body = lastBody parseCT (partsIn cs) :=
  have h := request_is uc parseCT cs
  ⟨h.method, h.path, h.query, h.queryOnce, h.queryNone, h.part.headers, h.part.body⟩

/-- **C154** (responses). -/
theorem C154_response (uc : UC) (parseCT : Str → Option ContentType) (cs : List ResponseCall) :
    (buildResponse uc parseCT cs).status = (statusesIn cs).getLast?.getD 200 ∧
    HeadersAre uc (resPartsIn cs) (buildResponse uc parseCT cs).headers ∧
    (buildResponse uc parseCT cs).body = lastBody parseCT (resPartsIn cs) :=
  have h := response_is uc parseCT cs
  ⟨h.status, h.part.headers, h.part.body⟩

/-! ### Rules and generators -/

/-- The rules of all the patterns given for a name, in order. -/
def rulesFor (l : List (Str × SPattern)) (k : Str) : List MatchingRule :=
  (l.filter fun e => decide (e.1 = k)).flatMap fun e => rulesOf e.2

/-- The table of rules has, for every name with rules, one entry at `$.name` with these rules, all of which must hold; it has
no other entries. -/
structure NamedRules (L : Str → List MatchingRule) (rules : List (DocPath × RuleList)) : Prop where
  only : ∀ e ∈ rules, ∃ k, L k ≠ [] ∧ e = (fromTokens [.root, .field k], ⟨L k, .and, false⟩)
  all : ∀ k, L k ≠ [] → (fromTokens [.root, .field k], ⟨L k, .and, false⟩) ∈ rules
  once : (rules.map (·.1.expr)).Nodup

theorem addAll_name (ts : List PathToken) (l : List (List PathToken × MatchingRule)) (c : Category)
    (R : List (DocPath × RuleList)) : addAll ts l ⟨c, R⟩ = ⟨c, (addAll ts l ⟨.body, R⟩).rules⟩ := by
  induction l generalizing R with
  | nil => rfl
  | cons x l ih => exact ih _

theorem rulesAt_rows (l : List (Str × SPattern)) (k : Str) : PatternProps.rulesAt (rowsOf l) [.field k] = rulesFor l k := by
  induction l with
  | nil => rfl
  | cons e l ih =>
    have : rowsOf (e :: l) = rowsOf [e] ++ rowsOf l := rowsOf_append [e] l
    rw [this, PatternProps.rulesAt_append, ih]
    have hc : rulesFor (e :: l) k = (if e.1 = k then rulesOf e.2 else []) ++ rulesFor l k := by
      unfold rulesFor
      by_cases h : e.1 = k <;> simp [List.filter_cons, h]
    rw [hc]
    congr 1
    obtain ⟨n, p⟩ := e
    by_cases h : n = k
    · subst h; simp [PatternProps.rulesAt, rowsOf, List.filter_map, Function.comp_def]
    · simp [PatternProps.rulesAt, rowsOf, List.filter_map, Function.comp_def, h]

theorem mem_rows {l : List (Str × SPattern)} {s : List PathToken} {r : MatchingRule} (h : (s, r) ∈ rowsOf l) :
    ∃ k, s = [.field k] ∧ rulesFor l k ≠ [] := by
  obtain ⟨⟨k, p⟩, he, hr⟩ := List.mem_flatMap.1 h
  obtain ⟨r', hr', e⟩ := List.mem_map.1 hr
  cases e
  refine ⟨k, rfl, ?_⟩
  intro hn
  have : r ∈ rulesFor l k := List.mem_flatMap.2 ⟨(k, p), List.mem_filter.2 ⟨he, by simp⟩, hr'⟩
  rw [hn] at this; cases this

theorem namedRules (c : Category) (l : List (Str × SPattern)) :
    NamedRules (rulesFor l) (addAll [.root] (rowsOf l) (emptyCat c)).rules := by
  rw [emptyCat, addAll_name]
  obtain ⟨-, h2, h3, h4⟩ := addAll_table (rowsOf l)
  have honly : ∀ e ∈ (addAll [.root] (rowsOf l) (emptyCat .body)).rules,
      ∃ k, rulesFor l k ≠ [] ∧ e = (fromTokens [.root, .field k], ⟨rulesFor l k, .and, false⟩) := by
    intro e he
    obtain ⟨⟨r, hr⟩, hh⟩ := h3 e he
    obtain ⟨k, hk, hne⟩ := mem_rows hr
    rw [hk, rulesAt_rows] at hh
    exact ⟨k, hne, hh⟩
  refine ⟨honly, ?_, h2⟩
  intro k hk
  obtain ⟨r, hr⟩ := List.exists_mem_of_ne_nil _ hk
  obtain ⟨⟨n, p⟩, he, hr'⟩ := List.mem_flatMap.1 hr
  obtain ⟨he', hn⟩ := List.mem_filter.1 he
  have hn : n = k := of_decide_eq_true hn
  subst hn
  obtain ⟨e, hm, ht⟩ := h4 [.field n] r (List.mem_flatMap.2 ⟨(n, p), he', List.mem_map.2 ⟨r, hr', rfl⟩⟩)
  obtain ⟨k', hk', e'⟩ := honly e hm
  rw [e'] at ht
  have : k' = n := by simpa [fromTokens] using ht
  subst this
  rw [← e']; exact hm

theorem pathRules_eq (l : List MatchingRule) :
    (addAll [] (l.map fun r => ([], r)) (emptyCat .path)).rules =
      if l = [] then [] else [(Path.empty, ⟨l, .and, false⟩)] := by
  suffices h : ∀ l : List MatchingRule, addAll [] (l.reverse.map fun r => ([], r)) (emptyCat .path) =
      ⟨.path, if l.reverse = [] then [] else [(Path.empty, ⟨l.reverse, .and, false⟩)]⟩ by
    have := h l.reverse
    rw [List.reverse_reverse] at this
    rw [this]
  intro l
  induction l with
  | nil => rfl
  | cons r l ih =>
    rw [List.reverse_cons, List.map_append, addAll_append, ih, if_neg (show ¬ (l.reverse ++ [r] = []) by simp)]
    show addRule _ Path.empty r .and = _
    by_cases hl : l.reverse = []
    · rw [if_pos hl, hl]; rfl
    · rw [if_neg hl]; rfl

/-- **C155** (requests).  For every sequence of calls: the rules for a query parameter and for a header (by its spelling) are
those of all the patterns given for it; the rules for the path are those of all the patterns given for the path, also of those
that a later call has replaced; the generator of the path, and that of a header, is the one given last, also if a later call
gave a value without an expression; nothing else has rules. -/
theorem C155_request_rules_partial (uc : UC) (parseCT : Str → Option ContentType) (cs : List RequestCall) :
    NamedRules (rulesFor (queriesIn cs)) (catOf (buildRequest uc parseCT cs).rules .query).rules ∧
    NamedRules (rulesFor (headersIn (partsIn cs))) (catOf (buildRequest uc parseCT cs).rules .header).rules ∧
    (catOf (buildRequest uc parseCT cs).rules .path).rules =
      (if (pathsIn cs).flatMap rulesOf = [] then [] else [(Path.empty, ⟨(pathsIn cs).flatMap rulesOf, .and, false⟩)]) ∧
    (NoObjectMatching (partsIn cs) →
      TableOf (bodyRows (partsIn cs)) (catOf (buildRequest uc parseCT cs).rules .body).rules) ∧
    (∀ c, c ≠ .path → c ≠ .query → c ≠ .header → c ≠ .body → (catOf (buildRequest uc parseCT cs).rules c).rules = []) ∧
    genAt (buildRequest uc parseCT cs).gens .path Path.empty = (pathStatesIn cs).getLast?.map fromState ∧
    (∀ n, genAt (buildRequest uc parseCT cs).gens .header (fromTokens [.root, .field n]) =
      (((headerStatesIn (partsIn cs)).filter fun e => decide (e.1 = n)).getLast?).map fun e => fromState e.2) := by
  have h := request_is uc parseCT cs
  refine ⟨?_, ?_, ?_, ?_, ?_, h.pgens, ?_⟩
  · rw [h.qrules]; exact namedRules _ _
  · have := h.part.hrules
    unfold reqFields at this
    simp only at this
    rw [this]; exact namedRules _ _
  · rw [h.prules]; exact pathRules_eq _
  · intro hn
    have := h.part.brules hn
    unfold reqFields at this
    simp only at this
    rw [this]; exact (addAll_table _).2.2
  · intro c h1 h2 h3 h4; rw [h.others c h1 h2 h3 h4]; rfl
  · intro n; rw [← fieldPath_tokens]; exact h.part.gens n

/-- **C155** (responses). -/
theorem C155_response_rules_partial (uc : UC) (parseCT : Str → Option ContentType) (cs : List ResponseCall) :
    NamedRules (rulesFor (headersIn (resPartsIn cs))) (catOf (buildResponse uc parseCT cs).rules .header).rules ∧
    (NoObjectMatching (resPartsIn cs) →
      TableOf (bodyRows (resPartsIn cs)) (catOf (buildResponse uc parseCT cs).rules .body).rules) ∧
    (∀ c, c ≠ .header → c ≠ .body → (catOf (buildResponse uc parseCT cs).rules c).rules = []) ∧
    (∀ n, genAt (buildResponse uc parseCT cs).gens .header (fromTokens [.root, .field n]) =
      (((headerStatesIn (resPartsIn cs)).filter fun e => decide (e.1 = n)).getLast?).map fun e => fromState e.2) := by
  have h := response_is uc parseCT cs
  refine ⟨?_, ?_, ?_, ?_⟩
  · have := h.part.hrules
    unfold resFields at this
    simp only at this
    rw [this]; exact namedRules _ _
  · intro hn
    have := h.part.brules hn
    unfold resFields at this
    simp only at this
    rw [this]; exact (addAll_table _).2.2
  · intro c h1 h2; rw [h.others c h1 h2]; rfl
  · intro n; rw [← fieldPath_tokens]; exact h.part.gens n

/-! ### The interaction -/

/-- The states given, in order; parameters that are not an object are none. -/
def statesIn (cs : List Call) : List PState :=
  cs.filterMap fun
    | .given s => some (PState.mk s [])
    | .givenWithParams s (.obj m) => some (PState.mk s m)
    | .givenWithParams s _ => some (PState.mk s [])
    | _ => none
/-- The comments given, in order. -/
def commentsIn (cs : List Call) : List Str := cs.filterMap fun | .comment t => some t | _ => none
/-- The test names given, in order. -/
def testNamesIn (cs : List Call) : List Str := cs.filterMap fun | .testName t => some t | _ => none
/-- The keys given, in order. -/
def keysIn (cs : List Call) : List Str := cs.filterMap fun | .withKey t => some t | _ => none
/-- What was said about pending, in order. -/
def pendingsIn (cs : List Call) : List Bool := cs.filterMap fun | .pending t => some t | _ => none
/-- The transports given, in order. -/
def transportsIn (cs : List Call) : List Str := cs.filterMap fun | .transport t => some t | _ => none
/-- The calls for the request. -/
def requestCalls (cs : List Call) : List RequestCall := cs.filterMap fun | .request c => some c | _ => none
/-- The calls for the response. -/
def responseCalls (cs : List Call) : List ResponseCall := cs.filterMap fun | .response c => some c | _ => none

/-- The name of the test, or null. -/
def nameOrNull : Option Str → Json
  | none => .null
  | some n => .str n

/-- The state of the builder. -/
structure BuilderIs (uc : UC) (parseCT : Str → Option ContentType) (d : Str) (cs : List Call) (b : Builder) : Prop where
  description : b.info.description = d
  states : b.info.states = statesIn cs
  comments : b.info.comments = commentsIn cs
  testName : b.info.testName = (testNamesIn cs).getLast?
  key : b.info.key = (keysIn cs).getLast?
  pending : b.info.pending = (pendingsIn cs).getLast?
  transport : b.info.transport = (transportsIn cs).getLast?
  request : b.request = buildRequest uc parseCT (requestCalls cs)
  response : b.response = buildResponse uc parseCT (responseCalls cs)

theorem builder_step {uc : UC} {parseCT : Str → Option ContentType} {d : Str} {cs : List Call} {b : Builder} (c : Call)
    (h : BuilderIs uc parseCT d cs b) : BuilderIs uc parseCT d (cs ++ [c]) (step uc parseCT c b) := by
  obtain ⟨h0, h1, h2, h3, h4, h5, h6, h7, h8⟩ := h
  cases c with
  | givenWithParams s j =>
    cases j <;>
    exact ⟨h0, by simp [statesIn, step, metaStep, paramsOf, h1], by simpa [commentsIn, step, metaStep] using h2,
      by simpa [testNamesIn, step, metaStep] using h3, by simpa [keysIn, step, metaStep] using h4,
      by simpa [pendingsIn, step, metaStep] using h5, by simpa [transportsIn, step, metaStep] using h6,
      by simpa [requestCalls, step] using h7, by simpa [responseCalls, step] using h8⟩
  | _ =>
    refine ⟨h0, ?_, ?_, ?_, ?_, ?_, ?_, ?_, ?_⟩ <;>
    simp [statesIn, commentsIn, testNamesIn, keysIn, pendingsIn, transportsIn, requestCalls, responseCalls, step, metaStep,
      buildRequest, buildResponse] <;>
    first
      | (simpa [statesIn] using h1) | (simpa [commentsIn] using h2) | (simpa [testNamesIn] using h3)
      | (simpa [keysIn] using h4) | (simpa [pendingsIn] using h5) | (simpa [transportsIn] using h6)
      | (simpa [requestCalls, buildRequest] using h7) | (simpa [responseCalls, buildResponse] using h8)
      | (rw [h7]; simp [requestCalls, buildRequest])
      | (rw [h8]; simp [responseCalls, buildResponse])

theorem builder_is (uc : UC) (parseCT : Str → Option ContentType) (d : Str) (cs : List Call) :
    BuilderIs uc parseCT d cs (cs.foldl (fun b c => step uc parseCT c b) (builder0 d)) := by
  suffices h : ∀ cs : List Call, BuilderIs uc parseCT d cs.reverse (cs.reverse.foldl (fun b c => step uc parseCT c b) (builder0 d)) by
    simpa using h cs.reverse
  intro cs
  induction cs with
  | nil => exact ⟨rfl, rfl, rfl, rfl, rfl, rfl, rfl, rfl, rfl⟩
  | cons c cs ih =>
    rw [List.reverse_cons, List.foldl_append]
    exact builder_step c ih

/-- **C157** For every description and sequence of calls: the interaction has the description, the states in order, a comment
`text` with all the comments in order and a comment `testname` with the last test name or null, the last key and transport, is
pending iff the last call about it said so, and its request and response are those that the calls for them alone make,
whatever the order in which the calls for the one and the other were made. -/
theorem C157_interaction (uc : UC) (parseCT : Str → Option ContentType) (d : Str) (cs : List Call) :
    build uc parseCT d cs = .http
      { id := none, key := (keysIn cs).getLast?, description := d, states := statesIn cs,
        comments := [("text".toList, .arr ((commentsIn cs).map .str)), ("testname".toList, nameOrNull (testNamesIn cs).getLast?)],
        pending := (pendingsIn cs).getLast?.getD false, plugins := [], markup := Markup.mk [] [],
        transport := (transportsIn cs).getLast? }
      (buildRequest uc parseCT (requestCalls cs)) (buildResponse uc parseCT (responseCalls cs)) := by
  obtain ⟨h0, h1, h2, h3, h4, h5, h6, h7, h8⟩ := builder_is uc parseCT d cs
  unfold build buildV4
  rw [h0, h1, h2, h3, h4, h5, h6, h7, h8]
  cases (testNamesIn cs).getLast? <;> rfl

/-! ### Null fields -/

/-- The value reached through items of arrays. -/
def atItems : List Nat → Json → Option Json
  | [], j => some j
  | i :: is, .arr vs => (vs[i]?).bind (atItems is)
  | _ :: _, _ => none

/-- Some object in the value, at any depth, has a null field. -/
inductive HasNullField : Json → Prop where
  | here (m : Obj) (k : Str) : (k, Json.null) ∈ m → HasNullField (.obj m)
  | field (m : Obj) (k : Str) (v : Json) : (k, v) ∈ m → HasNullField v → HasNullField (.obj m)
  | item (vs : List Json) (v : Json) : v ∈ vs → HasNullField v → HasNullField (.arr vs)

theorem stripNulls_map (vs : List Json) : stripNulls vs = vs.map stripNull := by
  induction vs with
  | nil => rfl
  | cons v vs ih => rw [stripNulls, ih]; rfl

theorem atItems_strip (is : List Nat) (j : Json) : atItems is (stripNull j) = (atItems is j).map stripNull := by
  induction is generalizing j with
  | nil => rfl
  | cons i is ih =>
    cases j with
    | arr vs =>
      rw [stripNull, stripNulls_map]
      simp only [atItems, List.getElem?_map]
      cases vs[i]? with
      | none => rfl
      | some v => exact ih v
    | obj m => rw [stripNull]; rfl
    | _ => rfl

/-- **C158** (partly) What `strip_null_fields` does: an object that is the value itself or an item of arrays (of arrays …)
keeps exactly the fields that are not null, in order, each with its value unchanged; an array keeps its length, and every other
value stays as it is.  Missing, because it is false: that null fields of objects inside objects are removed. -/
theorem C158_strip_partial (j : Json) (is : List Nat) :
    (∀ m, atItems is j = some (.obj m) → ∃ m', atItems is (stripNull j) = some (.obj m') ∧ m'.Sublist m ∧
      ∀ k v, (k, v) ∈ m' ↔ (k, v) ∈ m ∧ v ≠ .null) ∧
    (∀ vs, atItems is j = some (.arr vs) → ∃ vs', atItems is (stripNull j) = some (.arr vs') ∧ vs'.length = vs.length) ∧
    (∀ v, atItems is j = some v → (∀ m, v ≠ .obj m) → (∀ vs, v ≠ .arr vs) → atItems is (stripNull j) = some v) ∧
    (atItems is j = none → atItems is (stripNull j) = none) := by
  rw [atItems_strip]
  refine ⟨?_, ?_, ?_, ?_⟩
  · intro m h
    rw [h]
    refine ⟨_, rfl, List.filter_sublist, fun k v => ?_⟩
    rw [List.mem_filter]
    cases v <;> simp
  · intro vs h
    rw [h]
    exact ⟨_, rfl, by rw [stripNulls_map, List.length_map]⟩
  · intro v h h1 h2
    rw [h]
    cases v with
    | obj m => exact absurd rfl (h1 m)
    | arr vs => exact absurd rfl (h2 vs)
    | _ => rfl
  · intro h; rw [h]; rfl

/-- **C158** Stripping twice is stripping once. -/
theorem C158_idempotent : ∀ j : Json, stripNull (stripNull j) = stripNull j
  | .arr vs => by
    rw [stripNull, stripNull, stripNulls_map, stripNulls_map, List.map_map]
    congr 1
    apply List.map_congr_left
    intro v hv
    exact C158_idempotent v
  | .obj m => by
    rw [stripNull, stripNull, List.filter_filter]
    congr 1
    apply List.filter_congr
    rintro ⟨k, v⟩ -
    cases v <;> rfl
  | .null => rfl
  | .bool _ => rfl
  | .num _ => rfl
  | .str _ => rfl
termination_by j => sizeOf j
decreasing_by
  have := List.sizeOf_lt_of_mem hv
  simp only [Json.arr.sizeOf_spec]; omega

/-- The documentation says that null fields are removed recursively: a null field of an object in a field stays. -/
theorem C158_not_recursive : HasNullField (stripNull (.obj [("a".toList, .obj [("b".toList, .null)])])) := by
  refine .field _ "a".toList (.obj [("b".toList, .null)]) ?_ (.here _ "b".toList ?_)
  · exact List.mem_singleton.2 rfl
  · exact List.mem_singleton.2 rfl

/-- Values where no field of an object contains an object with a null field: there it does what it says. -/
theorem C158_shallow_partial : ∀ j : Json, (∀ is m k v, atItems is j = some (.obj m) → (k, v) ∈ m → ¬ HasNullField v) →
    ¬ HasNullField (stripNull j)
  | .arr vs, h => by
    rw [stripNull, stripNulls_map]
    intro hn
    generalize hx : Json.arr (vs.map stripNull) = x at hn
    cases hn with
    | here => cases hx
    | field => cases hx
    | item vs' v hv hf =>
      cases hx
      obtain ⟨w, hw, rfl⟩ := List.mem_map.1 hv
      refine C158_shallow_partial w ?_ hf
      intro is m k v hi hm
      obtain ⟨i, hi'⟩ := List.mem_iff_getElem?.1 hw
      exact h (i :: is) m k v (by simp only [atItems, hi', Option.bind_some]; exact hi) hm
  | .obj m, h => by
    rw [stripNull]
    intro hn
    generalize hx : Json.obj (m.filter fun e => match e.2 with | .null => false | _ => true) = x at hn
    cases hn with
    | here m' k hm =>
      cases hx
      have := (List.mem_filter.1 hm).2
      cases this
    | field m' k v hm hf =>
      cases hx
      exact h [] m k v rfl (List.mem_filter.1 hm).1 hf
    | item => cases hx
  | .null, _ => by intro h; cases h
  | .bool _, _ => by intro h; cases h
  | .num _, _ => by intro h; cases h
  | .str _, _ => by intro h; cases h
termination_by j => sizeOf j
decreasing_by
  have := List.sizeOf_lt_of_mem hw
  simp only [Json.arr.sizeOf_spec]; omega

/-! ### Examples -/

/-- A request with a repeated parameter, a header under two spellings and two paths. -/
def exampleCalls : List RequestCall :=
  [.method "POST".toList, .path (.term "^/a/\\d+$".toList "/a/1".toList), .query "q".toList (.lit "x".toList),
   .part (.header "X-A".toList (.lit "1, 2".toList)), .query "q".toList (.like (.lit "y".toList)),
   .part (.header "x-a".toList (.term "\\d".toList "3".toList)), .path (.lit "/b".toList),
   .part (.jsonBody (.like (.json (.bool true))))]

set_option maxRecDepth 100000 in
/-- C154 and C155 on the example: the second path is used, the regular expression of the first stays; the values of both
spellings are together, the rule is at the second spelling only. -/
theorem example_request :
    (buildRequest UC.ascii (fun _ => none) exampleCalls).path = "/b".toList ∧
    (buildRequest UC.ascii (fun _ => none) exampleCalls).query =
      some [("q".toList, [some "x".toList, some "y".toList])] ∧
    (buildRequest UC.ascii (fun _ => none) exampleCalls).headers =
      some [("X-A".toList, ["1".toList, "2".toList, "3".toList])] ∧
    (pathsIn exampleCalls).flatMap rulesOf = [.regex "^/a/\\d+$".toList] ∧
    rulesFor (queriesIn exampleCalls) "q".toList = [.type] ∧
    rulesFor (headersIn (partsIn exampleCalls)) "X-A".toList = [] ∧
    rulesFor (headersIn (partsIn exampleCalls)) "x-a".toList = [.regex "\\d".toList] := by
  refine ⟨?_, ?_, ?_, ?_, ?_, ?_, ?_⟩ <;> rfl

/-- The hypothesis of C155 about the body holds of the example. -/
theorem example_noObjectMatching : NoObjectMatching (partsIn exampleCalls) := by
  intro p hp
  have : p = .like (.json (.bool true)) := by
    simpa [partsIn, exampleCalls] using hp
  subst this
  simp [Everywhere, NotObjectMatching]

/-- The hypothesis of `C158_shallow_partial` holds of `[null, {"a": 1, "b": null}]`. -/
theorem example_shallow : ∀ is m k v,
    atItems is (.arr [.null, .obj [("a".toList, .bool true), ("b".toList, .null)]]) = some (.obj m) → (k, v) ∈ m →
    ¬ HasNullField v := by
  have hs : ∀ k v, (k, v) ∈ [("a".toList, Json.bool true), ("b".toList, .null)] → ¬ HasNullField v := by
    intro k v h
    rcases List.mem_cons.1 h with h | h
    · cases h; intro h; cases h
    · cases List.mem_singleton.1 h; intro h; cases h
  intro is m k v h hm
  match is, h with
  | [0], h => cases h
  | 0 :: _ :: _, h => cases h
  | [1], h => cases h; exact hs k v hm
  | 1 :: _ :: _, h => cases h
  | (_ + 2) :: _, h => simp [atItems] at h



end BuilderProps
end Verif
