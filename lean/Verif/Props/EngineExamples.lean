import Verif.Props.EngineProps
import Verif.Props.ResultProps

/-
  Concrete requests for C103-C111: instances that meet the hypotheses, and what the V2 engine does with them.
-/
set_option autoImplicit false

namespace Verif
namespace EngineExamples
open Path Rules Matchers Compare Query Headers MatchResult Engine EngineSpec EngineWalk EngineProps

/-- `{"a":1}` -/
def docA1 : Json := .obj [("a".toList, .num (.pos 1))]
/-- `{"a":2}` -/
def docA2 : Json := .obj [("a".toList, .num (.pos 2))]

/-- The documents of the examples, by one byte. -/
def docs : List (UInt8 × Json) :=
  [(49, .num (.pos 1)), (50, .num (.pos 2)), (97, docA1), (98, docA2), (99, .arr [docA1]), (100, .arr [docA2]),
   (101, .arr [.num (.pos 1), .num (.pos 2)]), (102, .arr [.str "x".toList]), (103, .obj [("a/b".toList, .num (.pos 1))]),
   (104, .arr [.num (.pos 1), .num (.pos 1)])]

def exParse : Bytes → Option Json
  | [b] => (docs.find? (fun d => decide (d.1 = b))).map (·.2)
  | _ => none

def exParseStr (s : Str) : Option Json :=
  if s = "1".toList then some (.num (.pos 1)) else if s = "2".toList then some (.num (.pos 2)) else none

/-- An instance of the parameters of the engine. -/
def exB : BP where
  P := { env := Env.simple, uc := UC.ascii, rules := RuleJsonProps.exP, upper := List.map Char.toUpper, form := fun _ => [],
         debug := fun _ => [], lossy := fun b => b.map (fun x => Char.ofNat x.toNat), byteLen := List.length,
         parseStr := exParseStr, parseBytes := exParse }
  be := { ResultProps.simpleBody with json := exParse }
  xmlPlan := fun _ _ => .err

def json : Option HeaderMap := some [("Content-Type".toList, ["application/json".toList])]
def plain : Option HeaderMap := some [("Content-Type".toList, ["text/plain".toList])]

/-- A request with a body. -/
def req (h : Option HeaderMap) (b : UInt8) (rules : MatchingRules := []) : Request :=
  ⟨"GET".toList, "/".toList, none, ⟨h, .present [b] none⟩, rules⟩

/-- A JSON request with no headers. -/
def reqJ (b : UInt8) : Request :=
  ⟨"GET".toList, "/".toList, none, ⟨none, .present [b] (some ⟨"application".toList, "json".toList, [], none⟩)⟩, []⟩

/-- A request with a query. -/
def reqQ (q : QueryMap) (rules : MatchingRules := []) : Request := ⟨"GET".toList, "/".toList, some q, ⟨none, .missing⟩, rules⟩

/-- A request with a path. -/
def reqP (p : String) (rules : MatchingRules := []) : Request := ⟨"GET".toList, p.toList, none, ⟨none, .missing⟩, rules⟩

/-- A request with a header. -/
def reqH (n : String) (vs : List String) : Request := ⟨"GET".toList, "/".toList, none, ⟨some [(n.toList, vs.map String.toList)], .missing⟩, []⟩

/-- Whether a request is accepted by the V2 engine. -/
def accepted (e a : Request) : Option Bool :=
  match matchRequestV2 exB e a with
  | .ok V => some V.allMatched
  | _ => none

set_option maxRecDepth 100000

/-! ### What the engine does -/

-- the same body, another body
example : accepted (req json 97) (req json 97) = some true := by decide +kernel
example : accepted (req json 97) (req json 98) = some false := by decide +kernel
-- C108: another body with another content type
example : accepted (reqJ 97) (req plain 98) = some true := by decide +kernel
-- C107: objects in arrays are not compared
example : accepted (req json 99) (req json 100) = some true := by decide +kernel
example : accepted (req json 101) (req json 104) = some false := by decide +kernel
-- C103: an expected body that is not JSON
example : matchRequestV2 exB (req json 1) (req json 97) = .err := by decide +kernel
-- an actual body that is not JSON
example : accepted (req json 97) (req json 1) = some false := by decide +kernel
-- a key with a slash
example : accepted (req json 103) (req json 103) = some false := by decide +kernel
-- C105: copies of a value
example : accepted (reqQ [("a".toList, [some "1".toList])]) (reqQ [("a".toList, [some "1".toList, some "1".toList])]) = some true := by
  decide +kernel
example : accepted (reqQ [("a".toList, [some "1".toList, some "1".toList])]) (reqQ [("a".toList, [some "1".toList])]) = some false := by
  decide +kernel
example : accepted (reqQ [("a".toList, [some "1".toList])]) (reqQ [("a".toList, [some "2".toList])]) = some false := by decide +kernel
example : accepted (reqQ [("a".toList, [some "1".toList])]) (reqQ []) = some false := by decide +kernel
example : accepted (reqQ []) (reqQ [("a".toList, [some "1".toList])]) = some false := by decide +kernel
-- the V1 engine rejects copies of a value, and the body of another content type
example : (matchRequest Env.simple UC.ascii exB.be (reqQ [("a".toList, [some "1".toList])])
    (reqQ [("a".toList, [some "1".toList, some "1".toList])])).allMatched = false := by decide +kernel
example : accepted (reqJ 97) (req json 98) = some false := by decide +kernel
example : (matchRequest Env.simple UC.ascii exB.be (reqJ 97) (req plain 98)).allMatched = false := by decide +kernel
example : (matchRequest Env.simple UC.ascii exB.be (req json 99) (req json 100)).allMatched = false := by decide +kernel

/-- Two rules for the path. -/
def twoRules (l : RuleLogic) : MatchingRules :=
  [(.path, ⟨.path, [(Path.empty, ⟨[.regex "a".toList, .regex "b".toList], l, false⟩)]⟩)]

-- C109: with `or`, a path that matches only one of the rules is rejected
example : accepted (reqP "/a" (twoRules .or)) (reqP "/a") = some false := by decide +kernel
example : accepted (reqP "/a" (twoRules .and)) (reqP "/a") = some false := by decide +kernel
example : accepted (reqP "/a" (twoRules .or)) (reqP "/ab") = some true := by decide +kernel
example : (matchRequest Env.simple UC.ascii exB.be (reqP "/a" (twoRules .or)) (reqP "/a")).allMatched = true := by decide +kernel

/-- A type rule for the body. -/
def typeRule : MatchingRules := [(.body, ⟨.body, [(rootPath, ⟨[.type], .and, false⟩)]⟩)]

-- C110: strings are accepted for numbers in an array
example : accepted (req json 101 typeRule) (req json 102) = some true := by decide +kernel
example : accepted (req json 97 typeRule) (req json 98) = some true := by decide +kernel
example : accepted (req json 49 typeRule) (req json 50) = some true := by decide +kernel
example : accepted (req json 49 typeRule) (req json 97) = some false := by decide +kernel
example : (matchRequest Env.simple UC.ascii exB.be (req json 101 typeRule) (req json 102)).allMatched = false := by decide +kernel

-- C106: names in any case, parameters of headers
example : accepted (reqH "X-A" ["1"]) (reqH "x-a" ["1"]) = some true := by decide +kernel
example : accepted (reqH "X-A" ["1"]) (reqH "x-a" ["2"]) = some false := by decide +kernel
example : accepted (reqH "Accept" ["a/b;q=1"]) (reqH "accept" ["a/b; q=1; r=2"]) = some true := by decide +kernel
example : accepted (reqH "Accept" ["a/b;q=1"]) (reqH "accept" ["a/b"]) = some false := by decide +kernel
-- of two expected values of a header with parameters only the first is compared
example : accepted (reqH "Accept" ["a/b", "c/d"]) (reqH "accept" ["a/b", "e/f"]) = some true := by decide +kernel
example : accepted (reqH "Accept" ["a/b", "c/d"]) (reqH "accept" ["a/c", "c/d"]) = some false := by decide +kernel
-- and the index of the value is not checked
example : matchRequestV2 exB (reqH "Accept" ["a/b", "c/d"]) (reqH "accept" []) = .panic := by decide +kernel

/-! ### Requests that meet the hypotheses -/

theorem fits_scalar {j : Json} (h : scalar j = true) : Fits j := by
  intro loc l hl
  cases loc with
  | nil => cases hl; cases h
  | cons x xs => cases x <;> cases j <;> first | cases hl | cases h

theorem fits_arr {l : List Json} (h : l.length ≤ usizeLim) (hi : ∀ x ∈ l, Fits x) : Fits (.arr l) := by
  intro loc m hm
  cases loc with
  | nil => cases hm; exact h
  | cons s loc =>
    cases s with
    | key k => cases hm
    | idx i =>
      rw [BodyGeneratorProps.getAt] at hm
      cases hx : l[i]? with
      | none => rw [hx] at hm; cases hm
      | some x =>
        rw [hx] at hm
        exact hi x (List.mem_of_getElem? hx) loc m hm

theorem fits_obj {es : List (Str × Json)} (hi : ∀ e ∈ es, Fits e.2) : Fits (.obj es) := by
  intro loc m hm
  cases loc with
  | nil => cases hm
  | cons s loc =>
    cases s with
    | idx i => cases hm
    | key k =>
      rw [BodyGeneratorProps.getAt] at hm
      cases hx : Json.lookup k es with
      | none => rw [hx] at hm; cases hm
      | some x =>
        rw [hx] at hm
        exact hi (k, x) (Json.lookup_mem hx) loc m hm

theorem fits_one {k : Str} {v : Json} (h : scalar v = true) : Fits (.obj [(k, v)]) :=
  fits_obj (fun e he => by rw [List.mem_singleton.mp he]; exact fits_scalar h)

theorem fits_docs : ∀ d ∈ docs, Fits d.2 := by
  intro d hd
  simp only [docs, List.mem_cons, List.not_mem_nil, or_false] at hd
  rcases hd with rfl | rfl | rfl | rfl | rfl | rfl | rfl | rfl | rfl | rfl
  · exact fits_scalar rfl
  · exact fits_scalar rfl
  · exact fits_one rfl
  · exact fits_one rfl
  · exact fits_arr (by decide) (fun x hx => by rw [List.mem_singleton.mp hx]; exact fits_one rfl)
  · exact fits_arr (by decide) (fun x hx => by rw [List.mem_singleton.mp hx]; exact fits_one rfl)
  · refine fits_arr (by decide) (fun x hx => ?_)
    simp only [List.mem_cons, List.not_mem_nil, or_false] at hx
    rcases hx with rfl | rfl <;> exact fits_scalar rfl
  · exact fits_arr (by decide) (fun x hx => by rw [List.mem_singleton.mp hx]; exact fits_scalar rfl)
  · exact fits_one rfl
  · refine fits_arr (by decide) (fun x hx => ?_)
    simp only [List.mem_cons, List.not_mem_nil, or_false] at hx
    rcases hx with rfl | rfl <;> exact fits_scalar rfl

theorem fits_parse {c : Bytes} {v : Json} (h : exParse c = some v) : Fits v := by
  unfold exParse at h
  split at h
  · obtain ⟨d, hd, rfl⟩ := Option.map_eq_some_iff.mp h
    exact fits_docs d (List.mem_of_find?_eq_some hd)
  · cases h

theorem wf_docs : ∀ d ∈ docs, d.2.WF := by
  intro d hd
  simp only [docs, List.mem_cons, List.not_mem_nil, or_false] at hd
  rcases hd with rfl | rfl | rfl | rfl | rfl | rfl | rfl | rfl | rfl | rfl <;>
    simp [docA1, docA2, Json.WF, Json.WFList, Json.WFEntries, Json.WFEntry, Json.SortedKeys]

theorem wf_parse (c : Bytes) (v : Json) (h : exParse c = some v) : v.WF := by
  unfold exParse at h
  split at h
  · obtain ⟨d, hd, rfl⟩ := Option.map_eq_some_iff.mp h
    exact wf_docs d (List.mem_of_find?_eq_some hd)
  · cases h

theorem nice_99 : Nice exB.P (.arr [docA1]) := by
  unfold docA1
  simp only [Nice, NiceL, NiceE, NiceP, and_true]
  refine ⟨by decide, ⟨by decide, by decide, by decide, by decide, by decide⟩, ?_⟩
  decide +kernel

theorem nice_101 : Nice exB.P (.arr [.num (.pos 1), .num (.pos 2)]) := by
  simp only [Nice, NiceL, and_true]
  exact ⟨by decide, by decide +kernel, by decide +kernel⟩

theorem params_json : ParamNames exB.P "application/json".toList := by
  have h : parseCharsetParameters exB.P.uc (stripWhitespace exB.P.uc "application/json".toList).tail = [] := by decide +kernel
  unfold ParamNames
  rw [h]
  intro k x hm
  cases hm

/-- The hypotheses of C103-C111 are met by requests with a JSON body. -/
theorem input_json (b c : UInt8) (rules : MatchingRules) (hw : TableAll (RuleJsonProps.Writable UC.ascii) rules)
    (hb : b = 99 ∨ b = 101) : Input exB (req json b rules) (req json c) := by
  refine ⟨hw, ?_, ?_, ?_, ?_, ?_, ?_, ?_⟩
  · intro k hk; cases hk
  · intro k hk
    have : k = "Content-Type".toList := List.mem_singleton.mp hk
    rw [this]
    exact ⟨by decide, by decide, by decide⟩
  · intro kv hkv _ v hv
    rw [List.mem_singleton.mp hkv] at hv
    rw [List.mem_singleton.mp hv]
    exact params_json
  · have : actualHeaders exB.P.uc (req json c) = [("content-type".toList, ["application/json".toList])] := by
      show actualHeaders UC.ascii ⟨[], [], none, ⟨json, .missing⟩, []⟩ = _
      decide +kernel
    rw [this]
    intro kv hkv
    rw [List.mem_singleton.mp hkv]
    decide
  · left
    show ((contentType UC.ascii exB.be ⟨json, .present [b] none⟩).getD textType).isJson = true
    have : contentType UC.ascii exB.be ⟨json, .present [b] none⟩ = some ⟨"application".toList, "json".toList, [], none⟩ := rfl
    rw [this]
    decide
  · intro _ b' ct j hbody hp
    cases hbody
    rcases hb with rfl | rfl
    · have : exParse [99] = some (.arr [docA1]) := by decide
      have hp' : exParse [99] = some j := hp
      rw [this] at hp'
      cases hp'
      exact nice_99
    · have : exParse [101] = some (.arr [.num (.pos 1), .num (.pos 2)]) := by decide
      have hp' : exParse [101] = some j := hp
      rw [this] at hp'
      cases hp'
      exact nice_101
  · intro _ c' v _ hp
    exact fits_parse hp

theorem noTable : TableAll (RuleJsonProps.Writable UC.ascii) [] := by intro c hc; cases hc

theorem typeTable : TableAll (RuleJsonProps.Writable UC.ascii) typeRule := by
  intro c hc en hen r hr
  rw [List.mem_singleton.mp hc] at hen
  rw [List.mem_singleton.mp hen] at hr
  rw [List.mem_singleton.mp hr]
  trivial

-- C103, C104: there is a verdict
example : ∃ V, matchRequestV2 exB (req json 99) (req json 100) = .ok V :=
  (C103_total_partial exB _ _ (input_json 99 100 [] noTable (.inl rfl))).2 (by
    rintro ⟨_, b, ct, hb, hp⟩
    cases hb
    exact absurd hp (by decide +kernel))

-- C110: the hypotheses are met, and the conclusion follows
example (V : Verdict) (hv : matchRequestV2 exB (req json 101 typeRule) (req json 102) = .ok V) : V.body.allMatched = true :=
  C110_like_partial exB _ _ (input_json 101 102 typeRule typeTable (.inr rfl)) V hv [101] [102] none none rfl rfl
    (by decide +kernel) (by decide +kernel) rfl rfl (by decide +kernel) (.num (.pos 1)) [.num (.pos 2)] [.str "x".toList] rfl
    (by decide) (by decide)

-- C111: the hypotheses are met
example : ∃ V, matchRequestV2 exB (req json 99) (req json 99) = .ok V ∧ V.allMatched = true :=
  C111_self_partial exB _ (input_json 99 99 [] noTable (.inl rfl)) (by
    rintro ⟨_, b, ct, hb, hp⟩
    cases hb
    exact absurd hp (by decide +kernel)) rfl List.nodup_nil (by simp [req, json, HeaderProps.CaseNodup]) wf_parse

-- C109: rules of a path that are written and read unchanged
example : ∀ r ∈ [MatchingRule.regex "a".toList, .regex "b".toList],
    RuleJson.recreate exB.P.rules (MatchingRule.forSingleItem r) = .ok r := by
  intro r hr
  simp only [List.mem_cons, List.not_mem_nil, or_false] at hr
  rcases hr with rfl | rfl
  · exact RuleJsonProps.C66_recreate_partial _ (.regex "a".toList) trivial (by intro n m h; cases h) (by intro vs h; cases h)
  · exact RuleJsonProps.C66_recreate_partial _ (.regex "b".toList) trivial (by intro n m h; cases h) (by intro vs h; cases h)

-- C107: arrays with an object do not meet the condition of equality
example : FlatArrays (.arr [.num (.pos 1)]) ∧ ¬ FlatArrays (.arr [docA1]) := by
  constructor
  · intro x hx; rw [List.mem_singleton.mp hx]; rfl
  · intro h; exact absurd (h docA1 (List.mem_singleton.mpr rfl)) (by decide)
example : Loose (.arr [docA1]) (.arr [docA2]) := by
  refine .array _ _ rfl (fun i e he hs => ?_)
  cases i with
  | zero => cases he; cases hs
  | succ i => cases he

end EngineExamples
end Verif
