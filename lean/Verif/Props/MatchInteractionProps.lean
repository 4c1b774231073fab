import Verif.MatchInteraction
import Verif.Props.MessageProps
import Verif.Props.BuilderMatchProps
import Verif.Props.ProviderMessageProps
import Verif.Props.PactBuilderProps
import Verif.Props.ApplyGenBodyProps

set_option autoImplicit false

namespace Verif
namespace MatchInterProps
open RuleJson Rules Query Headers PactFile PactV3 PactBuild MatchInter
open HeaderProps QueryProps EndToEndProps CompareProps
open Provider (Libs)

/-! ### Specification -/

/-- The kinds of interaction, whatever their version. -/
inductive Kind where
  | http | async | sync
deriving DecidableEq

/-- The kind of an interaction. -/
def kind : AnyInteraction → Kind
  | .http _ => .http
  | .message _ => .async
  | .v4 (.http _ _ _) => .http
  | .v4 (.async _ _) => .async
  | .v4 (.sync _ _ _) => .sync

/-- An HTTP interaction of either version with this request and this response. -/
inductive HttpOf : AnyInteraction → HttpRequest → HttpResponse → Prop
  | v3 (i : HttpInteraction) : HttpOf (.http i) i.request i.response
  | v4 (c : Common) (q : HttpRequest) (r : HttpResponse) : HttpOf (.v4 (.http c q r)) q r

/-- The metadata with the type of the body as `contentType`, unless there is one. -/
def withType (body : FBody) (m : Obj) : Obj :=
  match body with
  | .present _ (some ct) _ => if "contentType".toList ∈ m.map (·.1) then m else m ++ [("contentType".toList, .str ct.display)]
  | _ => m

/-- An asynchronous message of either version with these contents; those of a V4 message have the type of their body in
the metadata. -/
inductive MessageOf : AnyInteraction → FBody → Obj → MatchingRules → Prop
  | v3 (m : Message) : MessageOf (.message m) m.contents m.metadata m.rules
  | v4 (c : Common) (m : MessageContents) : MessageOf (.v4 (.async c m)) m.contents (withType m.contents m.metadata) m.rules

/-- The rules of an interaction have the name of their category (as of every interaction built or read). -/
def NamedRules (m : MatchingRules) : Prop := ∀ e ∈ m, e.2.name = e.1

/-! ### Outcomes -/

theorem httpOf_iff (i : AnyInteraction) (q : HttpRequest) (r : HttpResponse) : asV4Http i = some (q, r) ↔ HttpOf i q r := by
  constructor
  · intro h
    cases i with
    | http i => cases h; exact .v3 i
    | message m => cases h
    | v4 i => cases i with
      | http c q r => cases h; exact .v4 c q r
      | async c m => cases h
      | sync c m ms => cases h
  · intro h; cases h <;> rfl

theorem asV4Http_none (i : AnyInteraction) : asV4Http i = none ↔ kind i ≠ .http := by
  cases i with
  | http i => constructor
              · intro h; cases h
              · intro h; exact absurd rfl h
  | message m => exact ⟨fun _ => by simp [kind], fun _ => rfl⟩
  | v4 i => cases i with
    | http c q r => constructor
                    · intro h; cases h
                    · intro h; exact absurd rfl h
    | async c m => exact ⟨fun _ => by simp [kind], fun _ => rfl⟩
    | sync c m ms => exact ⟨fun _ => by simp [kind], fun _ => rfl⟩

theorem httpOf_kind {i : AnyInteraction} {q : HttpRequest} {r : HttpResponse} (h : HttpOf i q r) : kind i = .http := by
  cases h <;> rfl

theorem kind_httpOf {i : AnyInteraction} (h : kind i = .http) : ∃ q r, HttpOf i q r := by
  cases hh : asV4Http i with
  | none => exact absurd h ((asV4Http_none i).1 hh)
  | some x => exact ⟨x.1, x.2, (httpOf_iff i x.1 x.2).1 hh⟩

theorem isMessage_iff (i : AnyInteraction) : isMessage i = true ↔ kind i = .async := by
  cases i with
  | http i => simp [isMessage, kind]
  | message m => simp [isMessage, kind]
  | v4 i => cases i <;> simp [isMessage, kind]

theorem withBodyCT_type (body : FBody) (m : Obj) : withBodyCT body m = withType body m := by
  unfold withBodyCT withType bodyCT
  cases body with
  | present b ct h =>
    cases ct with
    | none => rfl
    | some ct =>
      simp only
      rw [show RuleJson.get "contentType" m = Json.lookup "contentType".toList m from rfl]
      generalize "contentType".toList = k
      by_cases hk : k ∈ m.map (·.1)
      · rw [if_pos hk]
        obtain ⟨v, hv⟩ : ∃ v, Json.lookup k m = some v := by
          cases hl : Json.lookup k m with
          | some v => exact ⟨v, rfl⟩
          | none =>
            exfalso
            have : ∀ (m : Obj), Json.lookup k m = none → k ∉ m.map (·.1) := by
              intro m
              induction m with
              | nil => intro _ h; cases h
              | cons x xs ih =>
                intro h hm
                obtain ⟨x1, x2⟩ := x
                rw [Json.lookup] at h
                split at h
                · cases h
                · rename_i hne
                  rcases List.mem_cons.1 hm with e | hm
                  · exact hne e.symm
                  · exact ih h hm
            exact this m hl hk
        rw [hv]
      · rw [if_neg hk]
        cases hl : Json.lookup k m with
        | none => rfl
        | some v => exact absurd (List.mem_map.2 ⟨(k, v), Json.lookup_mem hl, rfl⟩) hk
  | _ => rfl

theorem messageOf_as {uc : UC} {i : AnyInteraction} {b : FBody} {m : Obj} {r : MatchingRules} (h : MessageOf i b m r)
    (hn : NamedRules r) : ∃ x, asAnyMessage uc i = some x ∧ x.contents = b ∧ x.metadata = m ∧ x.rules = r := by
  cases h with
  | v3 x => exact ⟨x, rfl, rfl, rfl, rfl⟩
  | v4 c x => exact ⟨_, rfl, rfl, withBodyCT_type _ _, (rename_same' uc _ hn)⟩
where
  rename_same' (uc : UC) (m : MatchingRules) (h : NamedRules m) :
      renameRules (catParse uc "content".toList) (catParse uc "body".toList) m = m := (PactBuilderProps.rename_same uc m h).1

/-- A message as it is compared (its content type is that of the body, of the metadata, or the detected one). -/
def compared (E : FileEnv) (b : FBody) (m : Obj) (r : MatchingRules) : MatchResult.Message :=
  ⟨ProviderMessageProps.typeOf E b m, Provider.asBody b, m, r⟩

theorem matchMessages_eq (B : Libs) {e a : AnyInteraction} {eb ab : FBody} {em am : Obj} {er ar : MatchingRules}
    (he : MessageOf e eb em er) (ha : MessageOf a ab am ar) (hne : NamedRules er) (hna : NamedRules ar) :
    matchMessages B e a = .ok (MatchResult.messageMismatches B.env B.file.P.uc B.bodies
      (compared B.file eb em er) (compared B.file ab am ar)) := by
  have h1 : isMessage e = true := by cases he <;> rfl
  have h2 : isMessage a = true := by cases ha <;> rfl
  obtain ⟨x, hx, rfl, rfl, rfl⟩ := messageOf_as (uc := B.file.P.uc) he hne
  obtain ⟨y, hy, rfl, rfl, rfl⟩ := messageOf_as (uc := B.file.P.uc) ha hna
  unfold matchMessages Provider.asMessage
  rw [h1, h2, hx, hy]
  simp only [Bool.and_self, if_true, ProviderMessageProps.asContents_eq, Res.bind_ok, Res.map_ok]
  rfl

theorem matchMessages_total (B : Libs) (e a : AnyInteraction) : ∃ ms, matchMessages B e a = .ok ms := by
  unfold matchMessages
  by_cases h : isMessage e && isMessage a
  · rw [if_pos h]
    rw [Bool.and_eq_true] at h
    have hs : ∀ i, isMessage i = true → ∃ x, asAnyMessage B.file.P.uc i = some x := by
      intro i hi
      cases i with
      | http i => cases hi
      | message m => exact ⟨m, rfl⟩
      | v4 i => cases i with
        | http c q r => cases hi
        | async c m => exact ⟨_, rfl⟩
        | sync c m ms => cases hi
    obtain ⟨x, hx⟩ := hs e h.1
    obtain ⟨y, hy⟩ := hs a h.2
    rw [hx, hy]
    simp only [Provider.asMessage, ProviderMessageProps.asContents_eq, Res.bind_ok, Res.map_ok]
    exact ⟨_, rfl⟩
  · rw [if_neg h]; exact ⟨_, rfl⟩

theorem matchInteraction_not_http (B : Libs) (e a : AnyInteraction) (h : kind e ≠ .http) :
    matchInteraction B e a = matchMessages B e a := by
  unfold matchInteraction
  rw [(asV4Http_none e).2 h]
  simp only
  cases e with
  | http i => exact absurd rfl h
  | message m => rfl
  | v4 i => simp [isV4Interaction]

/-- **C164**: an interaction is compared with any other: there is a panic in no case, and an error exactly if an HTTP
interaction is expected and the other is none. -/
theorem C164_outcome (B : Libs) (e a : AnyInteraction) :
    matchInteraction B e a ≠ .panic ∧ (matchInteraction B e a = .err ↔ kind e = .http ∧ kind a ≠ .http) := by
  by_cases he : kind e = .http
  · obtain ⟨q, r, hq⟩ := kind_httpOf he
    unfold matchInteraction
    rw [(httpOf_iff e q r).2 hq]
    simp only
    cases ha : asV4Http a with
    | none => exact ⟨by simp, by simp [he, (asV4Http_none a).1 ha]⟩
    | some x =>
      have : kind a = .http := httpOf_kind ((httpOf_iff a x.1 x.2).1 ha)
      exact ⟨by simp, by simp [this]⟩
  · rw [matchInteraction_not_http B e a he]
    obtain ⟨ms, hm⟩ := matchMessages_total B e a
    rw [hm]
    exact ⟨by simp, by simp [he]⟩

/-- **C164**: comparing only the requests or only the responses is an error exactly if one of the two is not an HTTP
interaction, and never a panic. -/
theorem C164_parts (B : Libs) (e a : AnyInteraction) :
    (matchInteractionRequest B e a = .err ↔ ¬ (kind e = .http ∧ kind a = .http)) ∧
    (matchInteractionResponse B e a = .err ↔ ¬ (kind e = .http ∧ kind a = .http)) ∧
    matchInteractionRequest B e a ≠ .panic ∧ matchInteractionResponse B e a ≠ .panic := by
  unfold matchInteractionRequest matchInteractionResponse
  cases he : asV4Http e with
  | none => have := (asV4Http_none e).1 he; simp [this]
  | some x =>
    have h1 : kind e = .http := httpOf_kind ((httpOf_iff e x.1 x.2).1 he)
    cases ha : asV4Http a with
    | none => have := (asV4Http_none a).1 ha; simp [this]
    | some y =>
      have h2 : kind a = .http := httpOf_kind ((httpOf_iff a y.1 y.2).1 ha)
      simp [h1, h2]

/-- **C164**: for two HTTP interactions, of whatever versions, the mismatches are those of the requests and then those of the
responses. -/
theorem C164_http (B : Libs) {e a : AnyInteraction} {q q' : HttpRequest} {r r' : HttpResponse} (he : HttpOf e q r)
    (ha : HttpOf a q' r') :
    matchInteractionRequest B e a = .ok (MatchResult.matchRequest B.env B.file.P.uc B.bodies
      ⟨q.method, q.path, q.query, ⟨q.headers, Provider.asBody q.body⟩, q.rules⟩
      ⟨q'.method, q'.path, q'.query, ⟨q'.headers, Provider.asBody q'.body⟩, q'.rules⟩) ∧
    matchInteractionResponse B e a = .ok (MatchResult.matchResponse B.env B.file.P.uc B.bodies
      ⟨r.status, ⟨r.headers, Provider.asBody r.body⟩, r.rules⟩ ⟨r'.status, ⟨r'.headers, Provider.asBody r'.body⟩, r'.rules⟩) ∧
    ∀ x y, matchInteractionRequest B e a = .ok x → matchInteractionResponse B e a = .ok y →
      matchInteraction B e a = .ok (x.mismatches ++ y) := by
  unfold matchInteractionRequest matchInteractionResponse matchInteraction
  rw [(httpOf_iff e q r).2 he, (httpOf_iff a q' r').2 ha]
  refine ⟨rfl, rfl, ?_⟩
  intro x y hx hy
  cases hx
  cases hy
  rfl

/-- **C164**: two HTTP interactions match iff their requests match and their responses match. -/
theorem C164_both (B : Libs) (e a : AnyInteraction) (h : kind e = .http) :
    matchInteraction B e a = .ok [] ↔
      ∃ x, matchInteractionRequest B e a = .ok x ∧ x.allMatched = true ∧ matchInteractionResponse B e a = .ok [] := by
  obtain ⟨q, r, hq⟩ := kind_httpOf h
  by_cases ha : kind a = .http
  · obtain ⟨q', r', hq'⟩ := kind_httpOf ha
    obtain ⟨h1, h2, h3⟩ := C164_http B hq hq'
    rw [h3 _ _ h1 h2, h1, h2]
    simp only [Res.ok.injEq, List.append_eq_nil_iff, exists_eq_left']
    rw [ResultProps.C25_match_request]
  · constructor
    · intro hm
      rw [(C164_outcome B e a).2.2 ⟨h, ha⟩] at hm
      cases hm
    · rintro ⟨x, hx, _⟩
      rw [(C164_parts B e a).1.2 (fun hc => ha hc.2)] at hx
      cases hx

/-- **C164**: only interactions of the same kind match. -/
theorem C164_same_kind (B : Libs) (e a : AnyInteraction) (h : matchInteraction B e a = .ok []) :
    kind e = kind a ∧ kind e ≠ .sync := by
  by_cases he : kind e = .http
  · by_cases ha : kind a = .http
    · rw [he, ha]; exact ⟨rfl, by simp⟩
    · rw [(C164_outcome B e a).2.2 ⟨he, ha⟩] at h; cases h
  · rw [matchInteraction_not_http B e a he] at h
    unfold matchMessages at h
    by_cases hm : isMessage e && isMessage a
    · rw [Bool.and_eq_true, isMessage_iff, isMessage_iff] at hm
      rw [hm.1, hm.2]; exact ⟨rfl, by simp⟩
    · rw [if_neg hm] at h; cases h

/-- **C164** fails for synchronous messages: one matches nothing, not even itself. -/
theorem C164_sync_never (B : Libs) (e a : AnyInteraction) (h : kind e = .sync) :
    matchInteraction B e a = .ok [.bodyType] := by
  rw [matchInteraction_not_http B e a (by rw [h]; simp)]
  unfold matchMessages
  have : isMessage e = false := by
    cases hm : isMessage e with
    | false => rfl
    | true => rw [(isMessage_iff e).1 hm] at h; cases h
  rw [this]; rfl

/-- **C164**: whether an HTTP interaction is one of version 3 or of version 4 makes no difference. -/
theorem C164_version (B : Libs) (e a : HttpInteraction) :
    matchInteraction B (.v4 (httpAsV4 e)) (.http a) = matchInteraction B (.http e) (.http a) ∧
    matchInteraction B (.http e) (.v4 (httpAsV4 a)) = matchInteraction B (.http e) (.http a) := ⟨rfl, rfl⟩

/-- **C164** for messages of whatever versions: the mismatches are those of their contents. -/
theorem C164_message (B : Libs) {e a : AnyInteraction} {eb ab : FBody} {em am : Obj} {er ar : MatchingRules}
    (he : MessageOf e eb em er) (ha : MessageOf a ab am ar) (hne : NamedRules er) (hna : NamedRules ar) :
    matchInteraction B e a = .ok (MatchResult.messageMismatches B.env B.file.P.uc B.bodies
      (compared B.file eb em er) (compared B.file ab am ar)) := by
  rw [matchInteraction_not_http B e a (by cases he <;> simp [kind]), matchMessages_eq B he ha hne hna]

/-! ### C165: without rules -/

/-- A body that is neither XML nor multipart. -/
def PlainType (ct : ContentType) : Prop := ct.isXml = false ∧ ct.main ≠ "multipart".toList

/-- **C165**: an HTTP interaction without rules matches exactly the HTTP interactions (of whatever version) with the same
method (ignoring case), path, query and status, its headers, an agreeing request body and a response body that extends its
own. -/
theorem C165_http_partial (B : Libs) {e a : AnyInteraction} {q q' : HttpRequest} {r r' : HttpResponse} (he : HttpOf e q r)
    (ha : HttpOf a q' r') (hq : q.rules = []) (hr : r.rules = []) (hn : NodupKeys (q.query.getD []))
    (hh : CaseNodup B.file.P.uc (q'.headers.getD [])) (hh' : CaseNodup B.file.P.uc (r'.headers.getD []))
    (hc : PlainType (MatchResult.contentTypeD B.file.P.uc B.bodies ⟨q.headers, Provider.asBody q.body⟩))
    (hc' : PlainType (MatchResult.contentTypeD B.file.P.uc B.bodies ⟨r.headers, Provider.asBody r.body⟩))
    (hj : ∀ b j, B.bodies.json b = some j → j.WF) :
    matchInteraction B e a = .ok [] ↔
      B.file.P.uc.lower q.method = B.file.P.uc.lower q'.method ∧ q.path = q'.path ∧ SameQuery q.query q'.query ∧
      HeadersAgree B.file.P.uc q.headers q'.headers ∧
      BodyAgrees B.file.P.uc B.bodies (fun x y => x = y) ⟨q.headers, Provider.asBody q.body⟩ ⟨q'.headers, Provider.asBody q'.body⟩ ∧
      r.status = r'.status ∧ HeadersAgree B.file.P.uc r.headers r'.headers ∧
      BodyAgrees B.file.P.uc B.bodies Extends ⟨r.headers, Provider.asBody r.body⟩ ⟨r'.headers, Provider.asBody r'.body⟩ := by
  rw [C164_both B e a (httpOf_kind he), (C164_http B he ha).1, (C164_http B he ha).2.1]
  simp only [Res.ok.injEq, exists_eq_left']
  rw [C47_request B.env B.file.P.uc B.bodies _ _ hq hn hh hc.1 hc.2 hj,
    C48_response B.env B.file.P.uc B.bodies _ _ hr hh' hc'.1 hc'.2 hj]
  simp only [and_assoc]

/-- **C165**: a message without rules matches exactly the messages whose contents agree and whose metadata has its entries. -/
theorem C165_message_partial (B : Libs) {e a : AnyInteraction} {eb ab : FBody} {em am : Obj} {er ar : MatchingRules}
    (he : MessageOf e eb em er) (ha : MessageOf a ab am ar) (hr : er = []) (hna : NamedRules ar)
    (hc : PlainType ((ProviderMessageProps.typeOf B.file eb em).getD .unknown))
    (hj : ∀ b j, B.bodies.json b = some j → j.WF) :
    matchInteraction B e a = .ok [] ↔
      MessageProps.ContentsAgree B.bodies (compared B.file eb em []) (compared B.file ab am ar) ∧
      MessageProps.MetadataAgrees B.file.P.uc em am := by
  subst hr
  rw [C164_message B he ha (by intro e h; cases h) hna, Res.ok.injEq]
  exact MessageProps.C56_message B.env B.file.P.uc B.bodies _ _ rfl hc.1 hc.2 hj

/-- A body that can be compared: JSON and form bodies can be read. -/
def Readable (be : BodyEnv) (ct : ContentType) (b : Bytes) : Prop :=
  (ct.isJson = true → ∃ j, be.json b = some j) ∧
  (ct.isJson = false → ct.baseType = .formUrlencoded → ∃ f, be.form b = some f)

theorem content_self (be : BodyEnv) (rel : Json → Json → Prop) (ct : ContentType) (b : Bytes) (h : Readable be ct b)
    (hrel : ∀ j, be.json b = some j → rel j j) : ContentAgrees be rel ct b (some b) := by
  unfold ContentAgrees
  by_cases h1 : ct.isJson = true
  · rw [if_pos h1]
    obtain ⟨j, hj⟩ := h.1 h1
    exact ⟨j, j, hj, hj, hrel j hj⟩
  · rw [if_neg h1]
    by_cases h2 : ct.baseType = .formUrlencoded
    · rw [if_pos h2]
      obtain ⟨f, hf⟩ := h.2 (by simpa using h1) h2
      exact ⟨f, f, hf, hf, fun _ => rfl⟩
    · rw [if_neg h2]
      split <;> rfl

theorem body_self (uc : UC) (be : BodyEnv) (rel : Json → Json → Prop) (p : MatchResult.Part)
    (h : ∀ b ct, p.body = .present b ct → Readable be (MatchResult.contentTypeD uc be p) b)
    (hrel : ∀ b j, be.json b = some j → rel j j) : BodyAgrees uc be rel p p := by
  unfold BodyAgrees
  simp only
  cases hb : p.body with
  | missing => trivial
  | empty => intro _; rfl
  | null => intro _; rfl
  | present b ct =>
    exact ⟨.inr (.inr (.inl (ResultProps.C50_reflexive _))), by simp, by simp,
      content_self be rel _ b (h b ct hb) (hrel b)⟩

theorem headers_self (uc : UC) (m : Option HeaderMap) : HeadersAgree uc m m := fun k v hm =>
  ⟨k, v, hm, rfl, id, BuilderMatchProps.sameValues_refl uc k v⟩

/-- **C165**: an HTTP interaction without rules whose bodies can be read matches itself, and any other interaction with the
same request and the same response, whatever its description, provider states, comments, key, transport or version. -/
theorem C165_self_partial (B : Libs) {e a : AnyInteraction} {q : HttpRequest} {r : HttpResponse} (he : HttpOf e q r)
    (ha : HttpOf a q r) (hq : q.rules = []) (hr : r.rules = []) (hn : NodupKeys (q.query.getD []))
    (hh : CaseNodup B.file.P.uc (q.headers.getD [])) (hh' : CaseNodup B.file.P.uc (r.headers.getD []))
    (hc : PlainType (MatchResult.contentTypeD B.file.P.uc B.bodies ⟨q.headers, Provider.asBody q.body⟩))
    (hc' : PlainType (MatchResult.contentTypeD B.file.P.uc B.bodies ⟨r.headers, Provider.asBody r.body⟩))
    (hb : ∀ b ct h, q.body = .present b ct h →
      Readable B.bodies (MatchResult.contentTypeD B.file.P.uc B.bodies ⟨q.headers, Provider.asBody q.body⟩) b)
    (hb' : ∀ b ct h, r.body = .present b ct h →
      Readable B.bodies (MatchResult.contentTypeD B.file.P.uc B.bodies ⟨r.headers, Provider.asBody r.body⟩) b)
    (hj : ∀ b j, B.bodies.json b = some j → j.WF) :
    matchInteraction B e a = .ok [] := by
  have lift : ∀ (x : FBody) (b : Bytes) (ct : Option ContentType), Provider.asBody x = .present b ct →
      ∃ h, x = .present b ct h := by
    intro x b ct h
    cases x with
    | present b' ct' h' => cases h; exact ⟨h', rfl⟩
    | _ => cases h
  rw [C165_http_partial B he ha hq hr hn hh hh' hc hc' hj]
  refine ⟨rfl, rfl, fun _ => rfl, headers_self _ _, ?_, rfl, headers_self _ _, ?_⟩
  · refine body_self _ _ _ _ (fun b ct h => ?_) (fun _ _ _ => rfl)
    obtain ⟨x, hx⟩ := lift _ _ _ h
    exact hb b ct x hx
  · refine body_self _ _ _ _ (fun b ct h => ?_) (fun b j h => Extends.refl j (hj b j h))
    obtain ⟨x, hx⟩ := lift _ _ _ h
    exact hb' b ct x hx

/-- **C165**: a message without rules whose contents can be read matches itself, and any other message with the same contents
and metadata. -/
theorem C165_message_self_partial (B : Libs) {e a : AnyInteraction} {b : FBody} {m : Obj}
    (he : MessageOf e b m []) (ha : MessageOf a b m [])
    (hm : NodupKeys m) (hc : PlainType ((ProviderMessageProps.typeOf B.file b m).getD .unknown))
    (hb : ∀ x ct h, b = .present x ct h → Readable B.bodies ((ProviderMessageProps.typeOf B.file b m).getD .unknown) x)
    (hj : ∀ b j, B.bodies.json b = some j → j.WF) :
    matchInteraction B e a = .ok [] := by
  rw [C165_message_partial B he ha rfl (by intro e h; cases h) hc hj]
  refine ⟨?_, ?_⟩
  · unfold MessageProps.ContentsAgree compared
    simp only
    cases b with
    | missing => trivial
    | empty => intro _; rfl
    | null => intro _; rfl
    | present x ct h =>
      exact ⟨ResultProps.C50_reflexive _, by simp [Provider.asBody], by simp [Provider.asBody],
        content_self _ _ _ _ (hb x ct h rfl) (fun j h => Extends.refl j (hj x j h))⟩
  · intro k v hk
    refine ⟨v, Json.lookup_of_mem hm hk, ?_, ?_⟩
    · intro _; exact BuilderMatchProps.sameMedia_refl _ _
    · intro _; rfl

/-! ### Examples -/

def exLibs : Libs := ProviderProps.exLibs

def exHeaders : Option HeaderMap := some [("Content-Type".toList, ["application/json".toList])]

def exQ : HttpRequest := ⟨"POST".toList, "/a".toList, some [("q".toList, [some "1".toList])], exHeaders, .present [49] none none, [], []⟩

def exR (status : Nat) (b : UInt8) : HttpResponse := ⟨status, exHeaders, .present [b] none none, [], []⟩

def exHttp (status : Nat) (b : UInt8) : AnyInteraction := .http ⟨none, "d".toList, [], exQ, exR status b⟩

def exV4 (status : Nat) (b : UInt8) : AnyInteraction :=
  .v4 (.http ⟨none, none, "other".toList, [PState.mk "s".toList []], [], true, [], ⟨[], []⟩, some "https".toList⟩ exQ (exR status b))

theorem exJson : ∀ b j, exLibs.bodies.json b = some j → j.WF := by
  intro b j h
  simp only [exLibs, ProviderProps.exLibs, ResultProps.simpleBody] at h
  split at h
  · cases h; trivial
  · cases h

/-- The hypotheses of C164 and C165 are met: an interaction of version 3 and another one of version 4. -/
theorem exSelf : matchInteraction exLibs (exHttp 200 49) (exV4 200 49) = .ok [] := by
  refine C165_self_partial exLibs (.v3 _) (.v4 _ _ _) rfl rfl (by unfold NodupKeys; decide) (by unfold CaseNodup; decide) (by unfold CaseNodup; decide) ⟨by decide, by decide⟩
    ⟨by decide, by decide⟩ ?_ ?_ exJson
  · intro b ct h e; cases e
    exact ⟨fun _ => ⟨.num (.pos 1), rfl⟩, fun h => absurd h (by decide)⟩
  · intro b ct h e; cases e
    exact ⟨fun _ => ⟨.num (.pos 1), rfl⟩, fun h => absurd h (by decide)⟩

/-- Another status is a mismatch. -/
example : matchInteraction exLibs (exHttp 200 49) (exV4 201 49) = .ok [.status] := by rfl

/-- **C165** fails for a body that cannot be read: the interaction does not match itself. -/
theorem C165_unreadable : ∃ ms, matchInteraction exLibs (exHttp 200 50) (exHttp 200 50) = .ok ms ∧ ms ≠ [] :=
  ⟨_, rfl, by decide⟩

def exMessage : AnyInteraction := .v4 (.async ⟨none, none, "m".toList, [], [], false, [], ⟨[], []⟩, none⟩
  ⟨.present [65] (some ⟨"text".toList, "plain".toList, [], none⟩) none, [("k".toList, .bool true)], [], []⟩)

/-- The hypotheses of C165 for messages are met. -/
theorem exMessageSelf : matchInteraction exLibs exMessage exMessage = .ok [] := by
  refine C165_message_self_partial exLibs (.v4 _ _) (.v4 _ _) (by unfold NodupKeys; decide) ⟨by decide, by decide⟩ ?_ exJson
  intro b ct h e; cases e
  exact ⟨fun h => absurd h (by decide), fun _ h => absurd h (by decide)⟩

/-- A synchronous message does not match itself; a message is refused as an HTTP interaction, but an HTTP interaction is a
mismatch for a message. -/
example (B : Libs) (c : Common) (m : MessageContents) :
    matchInteraction B (.v4 (.sync c m [])) (.v4 (.sync c m [])) = .ok [.bodyType] ∧
    matchInteraction B (exHttp 200 49) exMessage = .err ∧
    matchInteraction B exMessage (exHttp 200 49) = .ok [.bodyType] := ⟨rfl, rfl, rfl⟩


end MatchInterProps
end Verif
