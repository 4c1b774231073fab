import Verif.Props.ResultProps

/-
  C47-C49, C51: acceptance of whole requests, responses, form bodies and synchronous messages when the
  expected side has no matching rules.
-/

set_option autoImplicit false

namespace Verif
namespace EndToEndProps
open Path Rules Matchers Compare Query Headers MatchResult QueryProps HeaderProps CompareProps ResultProps

theorem ex2 {A B : Type} {a : A} {b : B} {P : A → B → Prop} : (∃ x y, a = x ∧ b = y ∧ P x y) ↔ P a b :=
  ⟨fun ⟨_, _, h1, h2, h⟩ => by subst h1; subst h2; exact h, fun h => ⟨a, b, rfl, rfl, h⟩⟩

/-! ### Form bodies -/

/-- Specification: the values of a form parameter, in order of occurrence. -/
def formValues (l : List (Str × Str)) (k : Str) : List Str := (l.filter (fun kv => decide (kv.1 = k))).map (·.2)

/-- Specification: the same parameters with the same values in the same order. -/
def SameForm (e a : List (Str × Str)) : Prop := ∀ k, formValues e k = formValues a k

theorem lookup_groupInsert {V : Type} (k : Str) (v : V) (m : List (Str × List V)) (k' : Str) :
    Json.lookup k' (groupInsert k v m)
      = if k' = k then some ((Json.lookup k' m).getD [] ++ [v]) else Json.lookup k' m := by
  induction m with
  | nil =>
    by_cases h : k' = k
    · subst h; simp [groupInsert, Json.lookup]
    · simp [groupInsert, Json.lookup, h, Ne.symm h]
  | cons x xs ih =>
    obtain ⟨xk, xv⟩ := x
    unfold groupInsert
    by_cases hx : xk = k
    · subst hx
      by_cases h : k' = xk
      · subst h; simp [Json.lookup]
      · simp [Json.lookup, h, Ne.symm h]
    · simp only [hx, if_false]
      by_cases h : xk = k'
      · subst h; simp [Json.lookup, hx]
      · simp [Json.lookup, h, ih]

theorem groupInsert_keys {V : Type} (k : Str) (v : V) (m : List (Str × List V)) :
    (groupInsert k v m).map (·.1) = if k ∈ m.map (·.1) then m.map (·.1) else m.map (·.1) ++ [k] := by
  induction m with
  | nil => simp [groupInsert]
  | cons x xs ih =>
    unfold groupInsert
    by_cases hx : x.1 = k
    · simp [hx]
    · simp only [hx, if_false, List.map_cons, ih, List.mem_cons]
      by_cases hm : k ∈ xs.map (·.1)
      · simp [hm]
      · simp [hm, Ne.symm hx]

theorem groupBy_keys_nodup {V : Type} (key : V → Str) (l : List V) : ((groupBy key l).map (·.1)).Nodup := by
  have : ∀ (l : List V) (m : List (Str × List V)), (m.map (·.1)).Nodup →
      ((l.foldl (fun m v => groupInsert (key v) v m) m).map (·.1)).Nodup := by
    intro l
    induction l with
    | nil => intro m h; exact h
    | cons v l ih =>
      intro m h
      rw [List.foldl_cons]
      apply ih
      rw [groupInsert_keys]
      split
      · exact h
      · rename_i hm
        rw [List.nodup_append]
        refine ⟨h, by simp, ?_⟩
        intro a ha b hb
        simp only [List.mem_singleton] at hb
        subst hb
        exact fun e => hm (e ▸ ha)
  exact this l [] (by simp)

theorem lookup_groupBy {V : Type} (key : V → Str) (l : List V) (k : Str) :
    Json.lookup k (groupBy key l)
      = if l.filter (fun v => decide (key v = k)) = [] then none
        else some (l.filter (fun v => decide (key v = k))) := by
  have : ∀ (l : List V) (m : List (Str × List V)),
      Json.lookup k (l.foldl (fun m v => groupInsert (key v) v m) m)
        = if l.filter (fun v => decide (key v = k)) = [] then Json.lookup k m
          else some ((Json.lookup k m).getD [] ++ l.filter (fun v => decide (key v = k))) := by
    intro l
    induction l with
    | nil => intro m; simp
    | cons v l ih =>
      intro m
      rw [List.foldl_cons, ih, lookup_groupInsert]
      by_cases h : key v = k
      · subst h
        simp only [if_true, List.filter_cons, decide_true, Option.getD_some]
        simp only [List.append_assoc, List.singleton_append]
        split
        · rename_i hf
          simp [hf]
        · simp
      · simp [List.filter_cons, h, Ne.symm h]
  have h0 := this l []
  simp only [Json.lookup, Option.getD_none, List.nil_append] at h0
  exact h0

theorem valuesOf_form (l : List (Str × Str)) (k : Str) :
    valuesOf (some (formParams l)) k = if formValues l k = [] then none else some (formValues l k) := by
  have hmap : ∀ (m : List (Str × List (Str × Str))),
      Json.lookup k (m.map (fun g => (g.1, g.2.map (fun kv => some kv.2))))
        = (Json.lookup k m).map (fun g => g.map (fun kv => some kv.2)) := by
    intro m
    induction m with
    | nil => rfl
    | cons x xs ih =>
      obtain ⟨xk, xv⟩ := x
      simp only [List.map_cons, Json.lookup]
      by_cases h : xk = k <;> simp [h, ih]
  unfold valuesOf formParams
  rw [Option.getD_some, hmap, lookup_groupBy]
  unfold formValues
  split
  · rename_i h; simp [h]
  · rename_i h
    simp only [Option.map_some, List.map_map]
    rw [if_neg (by simpa using h)]
    rfl

theorem formParams_nodup (l : List (Str × Str)) : NodupKeys (formParams l) := by
  unfold NodupKeys formParams
  rw [List.map_map]
  exact groupBy_keys_nodup (·.1) l

theorem flatMap_allMatched (r : EntryResults) : r.flatMap (·.2) = [] ↔ AllMatched r := by
  unfold AllMatched
  simp [List.flatMap_eq_nil_iff]

/-- **C51**: without rules, form bodies match iff both are valid and have the same parameters with the same
values in the same order for each parameter; the order between different parameters is irrelevant. -/
theorem C51_form (env : Env) (be : BodyEnv) (e a : Bytes) (ctx : Ctx) (h : NoRules ctx) :
    matchForm env be e a ctx = [] ↔
      ∃ fe fa, be.form e = some fe ∧ be.form a = some fa ∧ SameForm fe fa := by
  unfold matchForm
  cases he : be.form e with
  | none => cases ha : be.form a <;> simp
  | some fe =>
    cases ha : be.form a with
    | none => simp
    | some fa =>
      simp only [Option.some.injEq, ex2, flatMap_allMatched]
      rw [matchQueryMaps_ok env _ _ ctx h (formParams_nodup fe)]
      unfold SameQuery SameForm
      constructor
      · intro hs k
        have := hs k
        rw [valuesOf_form, valuesOf_form] at this
        split at this <;> split at this <;> simp_all
      · intro hs k
        rw [valuesOf_form, valuesOf_form, hs k]

/-! ### Bodies -/

/-- Specification of the comparison of body contents without rules, for all types but XML and multipart:
`rel` is the relation on JSON documents. -/
def ContentAgrees (be : BodyEnv) (rel : Json → Json → Prop) (ct : ContentType) (e : Bytes) (a : Option Bytes) :
    Prop :=
  if ct.isJson = true then ∃ ej aj, be.json e = some ej ∧ be.json (a.getD []) = some aj ∧ rel ej aj
  else if ct.baseType = .formUrlencoded then
    ∃ fe fa, be.form e = some fe ∧ be.form (a.getD []) = some fa ∧ SameForm fe fa
  else if ct.isBinary = true ∨ ct.baseType = .octetStream then
    e = a.getD []
  else a = some e

/-- Specification of the body comparison without rules. -/
def BodyAgrees (uc : UC) (be : BodyEnv) (rel : Json → Json → Prop) (e a : Part) : Prop :=
  let ect := contentTypeD uc be e
  let act := contentTypeD uc be a
  let sameType := ect.isUnknown = true ∨ act.isUnknown = true ∨ ect.isEquivalentTo act = true ∨
    ect.isEquivalentTo act.baseType = true
  match e.body with
  | .missing => True
  | .empty | .null => sameType → a.body.isPresent = false
  | .present b _ => sameType ∧ a.body ≠ .missing ∧ a.body ≠ .empty ∧ ContentAgrees be rel ect b a.body.value

/-- The relation between JSON documents for a mode. -/
def jsonRel : DiffConfig → Json → Json → Prop
  | .noUnexpectedKeys => fun e a => e = a
  | .allowUnexpectedKeys => Extends

theorem matchJson_ok (env : Env) (e a : Option Json) (ctx : Ctx) (h : NoRules ctx)
    (we : ∀ j, e = some j → j.WF) (wa : ∀ j, a = some j → j.WF) :
    errs (matchJson env e a ctx) = [] ↔ ∃ ej aj, e = some ej ∧ a = some aj ∧ jsonRel ctx.config ej aj := by
  cases e with
  | none => cases a <;> simp [matchJson, errs]
  | some e =>
    cases a with
    | none => simp [matchJson, errs]
    | some a =>
      have hc : errs (matchJson env (some e) (some a) ctx) = [] ↔ compareJson env rootPath e a ctx = .ok () := by
        rw [show matchJson env (some e) (some a) ctx = compareJson env rootPath e a ctx from rfl,
          ← (compareJson_consistent env rootPath e a ctx).isOk_iff, isOk_iff]
      rw [hc]
      simp only [Option.some.injEq, ex2]
      cases hm : ctx.config with
      | noUnexpectedKeys => exact C15_strict env ctx h hm rootPath e a (we e rfl) (wa a rfl)
      | allowUnexpectedKeys => exact C15_lenient env ctx h hm rootPath e a (we e rfl) (wa a rfl)

theorem compareBodies_ok (env : Env) (be : BodyEnv) (ct : ContentType) (e : Bytes) (a : Option Bytes)
    (ctx : Ctx) (h : NoRules ctx) (hx : ct.isXml = false) (hm : ct.main ≠ "multipart".toList)
    (hj : ∀ b j, be.json b = some j → j.WF) :
    compareBodies env be ct (some e) a ctx = .ok ↔ ContentAgrees be (jsonRel ctx.config) ct e a := by
  have h0 : compareBodies env be ct (some e) a ctx = .ok ↔ compareBodiesCore env be ct (some e) a ctx = [] := by
    unfold compareBodies
    simp only
    split
    · rename_i hh; simpa using hh
    · rename_i hh; simpa using hh
  rw [h0]
  unfold compareBodiesCore ContentAgrees
  simp only [Option.getD_some]
  by_cases h1 : ct.isJson = true
  · rw [if_pos h1, if_pos h1]
    exact matchJson_ok env _ _ ctx h (fun j => hj e j) (fun j => hj _ j)
  rw [if_neg h1, if_neg h1, hx, if_neg (by decide), if_neg hm]
  by_cases h2 : ct.baseType = .formUrlencoded
  · rw [if_pos h2, if_pos h2]
    exact C51_form env be e _ ctx h
  rw [if_neg h2, if_neg h2]
  have hd : isDefined ctx rootPath = false := noRules_isDefined h _
  by_cases h3 : ct.isBinary = true ∨ ct.baseType = .octetStream
  · rw [if_pos (by rw [Bool.or_eq_true, decide_eq_true_eq]; exact h3), if_pos h3]
    unfold matchOctetStream
    rw [hd]
    by_cases he : e = a.getD [] <;> simp [he]
  rw [if_neg (by rw [Bool.or_eq_true, decide_eq_true_eq]; exact h3), if_neg h3, hd, Bool.false_and, if_neg (by decide)]
  unfold matchText
  rw [hd]
  by_cases he : some e = a
  · simp [he.symm]
  · simp [he, Ne.symm he]

theorem matchBody_ok (env : Env) (uc : UC) (be : BodyEnv) (e a : Part) (ctx hctx : Ctx) (h : NoRules ctx)
    (hh : NoRules hctx) (hx : (contentTypeD uc be e).isXml = false)
    (hm : (contentTypeD uc be e).main ≠ "multipart".toList) (hj : ∀ b j, be.json b = some j → j.WF) :
    matchBody env uc be e a ctx hctx = .ok ↔ BodyAgrees uc be (jsonRel ctx.config) e a := by
  have hc := C27_comparable_no_rule env uc be e a hctx hh
  unfold BodyAgrees
  simp only
  rw [← hc]
  cases hb : e.body with
  | missing => simp [C27_missing_accepts env uc be e a ctx hctx hb]
  | empty =>
    by_cases hcc : Comparable env uc be e a hctx
    · simp [C27_empty_partial env uc be e a ctx hctx (Or.inl hb) hcc, hcc]
    · simp [C27_empty_fails env uc be e a ctx hctx (Or.inl hb) hcc, hcc]
  | null =>
    by_cases hcc : Comparable env uc be e a hctx
    · simp [C27_empty_partial env uc be e a ctx hctx (Or.inr hb) hcc, hcc]
    · simp [C27_empty_fails env uc be e a ctx hctx (Or.inr hb) hcc, hcc]
  | present b ct =>
    simp only
    by_cases hcc : Comparable env uc be e a hctx
    · unfold matchBody
      simp only
      rw [if_pos (show typesAgree env uc (contentTypeD uc be e) (contentTypeD uc be a) hctx = true from hcc), hb]
      simp only [hcc, true_and]
      unfold matchBodyContent
      cases ha : a.body with
      | missing => simp [oneBody]
      | empty => simp [oneBody]
      | null =>
        simp only [ne_eq, reduceCtorEq, not_false_eq_true, true_and]
        exact compareBodies_ok env be _ b _ ctx h hx hm hj
      | present b' ct' =>
        simp only [ne_eq, reduceCtorEq, not_false_eq_true, true_and]
        exact compareBodies_ok env be _ b _ ctx h hx hm hj
    · simp only [hcc, false_and, iff_false]
      have := (C27_type_mismatch env uc be e a ctx hctx).2 ⟨by simp [hb, Body.isPresent], hcc⟩
      simp [this]

/-! ### Requests and responses -/

/-- Specification: every expected header is present (ignoring the case of names) with matching values. -/
def HeadersAgree (uc : UC) (e a : Option HeaderMap) : Prop :=
  ∀ k v, (k, v) ∈ e.getD [] → ∃ k' w, (k', w) ∈ a.getD [] ∧ uc.lower k' = uc.lower k ∧ (v = [] → w = []) ∧
    SameValues uc k v w

theorem ctxFor_noRules (c : Category) (config : DiffConfig) : NoRules (ctxFor [] c config) := rfl

theorem lower_noRules (uc : UC) (c : Category) (config : DiffConfig) :
    NoRules (lowerCtx uc (ctxFor [] c config)) := rfl

theorem matchHeaders_ok (env : Env) (uc : UC) (e a : Option HeaderMap) (config : DiffConfig)
    (hn : CaseNodup uc (a.getD [])) :
    AllMatched (matchHeaders env uc e a (lowerCtx uc (ctxFor [] .header config))) ↔ HeadersAgree uc e a := by
  cases e with
  | none => cases a <;> simp [matchHeaders, AllMatched, HeadersAgree]
  | some e =>
    cases a with
    | none =>
      simp only [matchHeaders, AllMatched, HeadersAgree, List.mem_map, forall_exists_index, and_imp,
        forall_apply_eq_imp_iff₂, Option.getD_some, Option.getD_none, List.not_mem_nil, false_and, exists_false,
        imp_false, reduceCtorEq]
      constructor
      · intro h k v hm; exact h (k, v) hm
      · intro h x hx; exact h x.1 x.2 hx
    | some a => exact C24_no_rules env uc e a .body config hn

theorem named_all (f : Mismatch → MM) (r : EntryResults) :
    (named f r).all (fun kv => kv.2.isEmpty) = true ↔ AllMatched r := by
  unfold named AllMatched
  simp

theorem matchPath_ok (env : Env) (e a : Str) (ctx : Ctx) (h : NoRules ctx) :
    matchPath env e a ctx = none ↔ e = a := by
  unfold matchPath
  rw [noRules_isDefined h]
  by_cases he : e = a <;> simp [strMatches, he]

/-- **C47**: an expected request without rules accepts exactly the requests with the same method (ignoring
case), path, query, all its headers and an agreeing body. -/
theorem C47_request (env : Env) (uc : UC) (be : BodyEnv) (e a : Request) (hr : e.rules = [])
    (hq : NodupKeys (e.query.getD [])) (hh : CaseNodup uc (a.part.headers.getD []))
    (hx : (contentTypeD uc be e.part).isXml = false)
    (hm : (contentTypeD uc be e.part).main ≠ "multipart".toList) (hj : ∀ b j, be.json b = some j → j.WF) :
    (matchRequest env uc be e a).allMatched = true ↔
      uc.lower e.method = uc.lower a.method ∧ e.path = a.path ∧ SameQuery e.query a.query ∧
      HeadersAgree uc e.part.headers a.part.headers ∧ BodyAgrees uc be (fun x y => x = y) e.part a.part := by
  unfold RequestMatchResult.allMatched matchRequest
  simp only [Bool.and_eq_true, Option.isNone_iff_eq_none, named_all, hr, C28_method,
    matchPath_ok env _ _ _ (ctxFor_noRules .path .noUnexpectedKeys), matchBody_ok_iff,
    C23_no_rules env _ _ _ (ctxFor_noRules .query .noUnexpectedKeys) hq,
    matchHeaders_ok env uc _ _ .noUnexpectedKeys hh]
  rw [matchBody_ok env uc be _ _ _ _ (ctxFor_noRules .body .noUnexpectedKeys)
    (lower_noRules uc .header .noUnexpectedKeys) hx hm hj]
  simp only [and_assoc]
  rfl

theorem matchStatus_ok (env : Env) (e a : Nat) (ctx : Ctx) (h : NoRules ctx) :
    matchStatus env e a ctx = [] ↔ e = a := by
  unfold matchStatus
  rw [noRules_isDefined h]
  by_cases he : e = a <;> simp [he]

/-- **C48**: an expected response without rules accepts exactly the responses with the same status, all its
headers and an agreeing body, where JSON objects may have additional entries. -/
theorem C48_response (env : Env) (uc : UC) (be : BodyEnv) (e a : Response) (hr : e.rules = [])
    (hh : CaseNodup uc (a.part.headers.getD []))
    (hx : (contentTypeD uc be e.part).isXml = false)
    (hm : (contentTypeD uc be e.part).main ≠ "multipart".toList) (hj : ∀ b j, be.json b = some j → j.WF) :
    matchResponse env uc be e a = [] ↔
      e.status = a.status ∧ HeadersAgree uc e.part.headers a.part.headers ∧
      BodyAgrees uc be Extends e.part a.part := by
  unfold matchResponse
  simp only [List.append_eq_nil_iff, hr, matchStatus_ok env _ _ _ (ctxFor_noRules .status .allowUnexpectedKeys),
    ← C25_body_verdict, matchBody_ok_iff, flatMap_nil_iff, named_all,
    matchHeaders_ok env uc _ _ .noUnexpectedKeys hh]
  rw [matchBody_ok env uc be _ _ _ _ (ctxFor_noRules .body .allowUnexpectedKeys)
    (lower_noRules uc .header .noUnexpectedKeys) hx hm hj]
  constructor
  · rintro ⟨⟨h1, h2⟩, h3⟩; exact ⟨h2, h3, h1⟩
  · rintro ⟨h1, h2, h3⟩; exact ⟨⟨h3, h1⟩, h2⟩

/-! ### Synchronous messages -/

/-- Specification: two lists of the same length related position by position. -/
inductive Pairwise₂ {A B : Type} (R : A → B → Prop) : List A → List B → Prop
  | nil : Pairwise₂ R [] []
  | cons (a : A) (b : B) (as : List A) (bs : List B) (h : R a b) (hs : Pairwise₂ R as bs) :
      Pairwise₂ R (a :: as) (b :: bs)

theorem responseLoop_nil (env : Env) (uc : UC) (be : BodyEnv) : ∀ (es as : List Message),
    es.length = as.length →
    (responseLoop env uc be es as = [] ↔ Pairwise₂ (fun e a => messageMismatches env uc be e a = []) es as)
  | [], [], _ => by simp only [responseLoop, true_iff]; exact .nil
  | [], _ :: _, h => by simp at h
  | _ :: _, [], h => by simp at h
  | e :: es, a :: as, h => by
    have ih := responseLoop_nil env uc be es as (by simpa using h)
    simp only [responseLoop, List.append_eq_nil_iff, List.tail_cons, ih]
    constructor
    · rintro ⟨h1, h2⟩; exact .cons _ _ _ _ h1 h2
    · intro h; cases h with | cons _ _ _ _ h1 h2 => exact ⟨h1, h2⟩

/-- **C49** (partial): a synchronous message with at least one expected response is accepted iff the request
matches, the numbers of responses agree and each response matches the one at the same position. -/
theorem C49_sync_message_partial (env : Env) (uc : UC) (be : BodyEnv) (ereq areq : Message)
    (es as : List Message) (hne : es ≠ []) :
    matchSyncMessage env uc be ereq areq es as = [] ↔
      messageMismatches env uc be ereq areq = [] ∧
      Pairwise₂ (fun e a => messageMismatches env uc be e a = []) es as := by
  unfold matchSyncMessage matchSyncResponses
  rw [List.append_eq_nil_iff]
  have hlen : Pairwise₂ (fun e a => messageMismatches env uc be e a = []) es as → es.length = as.length := by
    intro h
    induction h with
    | nil => rfl
    | cons a b as bs _ hs ih =>
      by_cases hn : as = []
      · subst hn; cases hs; rfl
      · simp [ih hn]
  by_cases hl : es.length = as.length
  · simp only [hl, ne_eq, not_true_eq_false, if_false, responseLoop_nil env uc be es as hl]
  · have : ¬ Pairwise₂ (fun e a => messageMismatches env uc be e a = []) es as := fun h => hl (hlen h)
    have hee : es.isEmpty = false := by simpa using hne
    simp [hl, this, hne]

/-- **C49** is false when no response is expected: any number of actual responses is accepted. -/
theorem C49_unexpected_responses_accepted (env : Env) (uc : UC) (be : BodyEnv) (ereq areq : Message)
    (as : List Message) :
    matchSyncMessage env uc be ereq areq [] as = messageMismatches env uc be ereq areq := by
  unfold matchSyncMessage matchSyncResponses
  by_cases h : as.length = 0
  · simp [h, responseLoop]
  · simp [Ne.symm h]

/-! ### Non-vacuity -/

theorem simpleBody_wf : ∀ b j, simpleBody.json b = some j → j.WF := by
  intro b j h
  simp only [simpleBody] at h
  split at h
  · simp only [Option.some.injEq] at h; subst h; simp [Json.WF]
  · simp at h

def sampleReq (m : String) (v : String) : Request :=
  ⟨m.toList, "/a".toList, some [("q".toList, [some v.toList])],
    ⟨hdr "application/json", .present [49] none⟩, []⟩

example : (matchRequest Env.simple UC.ascii simpleBody (sampleReq "GET" "1") (sampleReq "get" "1")).allMatched
    = true := by decide
example : (matchRequest Env.simple UC.ascii simpleBody (sampleReq "GET" "1") (sampleReq "get" "2")).allMatched
    = false := by decide
example : (sampleReq "GET" "1").rules = [] ∧ NodupKeys ((sampleReq "GET" "1").query.getD []) ∧
    CaseNodup UC.ascii ((sampleReq "GET" "1").part.headers.getD []) ∧
    (contentTypeD UC.ascii simpleBody (sampleReq "GET" "1").part).isXml = false ∧
    (contentTypeD UC.ascii simpleBody (sampleReq "GET" "1").part).main ≠ "multipart".toList := by
  refine ⟨rfl, by simp [NodupKeys, sampleReq], by simp [CaseNodup, sampleReq, hdr], by decide, by decide⟩
example : matchResponse Env.simple UC.ascii simpleBody ⟨200, ⟨hdr "application/json", .present [49] none⟩, []⟩
    ⟨200, ⟨hdr "application/json", .present [49] none⟩, []⟩ = [] := by decide
example : matchResponse Env.simple UC.ascii simpleBody ⟨200, ⟨hdr "application/json", .present [49] none⟩, []⟩
    ⟨201, ⟨hdr "application/json", .present [49] none⟩, []⟩ ≠ [] := by decide
example : SameForm [("a".toList, "1".toList), ("b".toList, "2".toList), ("a".toList, "3".toList)]
    [("b".toList, "2".toList), ("a".toList, "1".toList), ("a".toList, "3".toList)] := by
  intro k
  unfold formValues
  by_cases h1 : ['a'] = k
  · subst h1; decide
  · by_cases h2 : ['b'] = k
    · subst h2; decide
    · simp [List.filter_cons, h1, h2]

end EndToEndProps
end Verif
