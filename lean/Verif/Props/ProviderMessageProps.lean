import Verif.Props.ProviderProps
import Verif.Props.VerifierProps
import Verif.Props.XmlProps
import Verif.Props.BrokerProps

/-
  Properties C135 to C138: messages, state changes, the order of requests and where they go.
-/

set_option autoImplicit false

namespace Verif
namespace ProviderMessageProps
open RuleJson Rules Generate Query Headers PactFile Provider ProviderProps
open QueryProps (NodupKeys SameQuery)

/-! ### C135: what is asked for -/

theorem given_one (L : Lib) (custom : List (Str × Str)) (k n : Str) (vs : List Str) (hn : L.name k = some n)
    (hc : k ∉ custom.map (·.1)) : given L custom [(k, vs)] n = vs := by
  rw [given, List.flatMap_cons, List.flatMap_nil, List.append_nil, if_neg hc, if_pos hn]

/-- **C135**: the verifier asks for a message with one POST to the base URL; its body is the JSON text given, and its
content type is JSON. -/
theorem C135_asked (E : FileEnv) (L : Lib) (base : Str) (j : Json) (custom ds : List (Str × Str)) (w : Wire)
    (h : createRequest E L base (messageRequest j) custom = .ok w) (hm : L.method "POST".toList = true) :
    (withDefaults (defaults ds) w).method = "POST".toList ∧
    (withDefaults (defaults ds) w).url = joinPaths base "/".toList ∧
    (withDefaults (defaults ds) w).query = [] ∧
    (withDefaults (defaults ds) w).body = some (utf8 j.text) ∧
    ∀ n, L.name "Content-Type".toList = some n → "Content-Type".toList ∉ custom.map (·.1) →
      Json.lookup n (withDefaults (defaults ds) w).headers = some ["application/json".toList] := by
  obtain ⟨h1, h2, h3, h4, h5⟩ := C131_sent E L base (messageRequest j) custom ds w h
  refine ⟨?_, h2, h3, h5, ?_⟩
  · rw [h1]
    exact if_pos hm
  · intro n hn hc
    rw [h4 n, arriving]
    have hg := given_one L custom _ n ["application/json".toList] hn hc
    change given L custom ((messageRequest j).headers.getD []) n = _ at hg
    rw [hg]
    exact if_neg (List.cons_ne_nil _ _)

/-- **C135**: the description of a message names it and its provider states, if it has any, and nothing else. -/
theorem C135_description (d : Str) (ss : List PState) (k : String) :
    vget k (messageBody d ss) =
      if k = "description" then some (.str d)
      else if k = "providerStates" ∧ ss ≠ [] then some (.arr (ss.map stateToJson)) else none := by
  unfold messageBody statesEntry
  rw [PactFileProps.vget_obj, PactFileProps.slast]
  cases ss with
  | nil => by_cases h : k = "description" <;> simp [RuleJsonProps.slookup, h, eq_comm]
  | cons s ss =>
    by_cases h : k = "description"
    · subst h; simp [RuleJsonProps.slookup]
    · by_cases h2 : k = "providerStates"
      · subst h2; simp [RuleJsonProps.slookup]
      · simp [RuleJsonProps.slookup, h, h2, Ne.symm h, Ne.symm h2]

/-- **C135** (synchronous): the description of a synchronous message names it, its request and its provider states. -/
theorem C135_sync_description (E : FileEnv) (c : Common) (request : MessageContents) (j : Json)
    (h : syncBody E c request = .ok j) :
    ∃ r, messageToJson E request = .ok r ∧ ∀ k : String, vget k j =
      if k = "description" then some (.str c.description)
      else if k = "request" then some r
      else if k = "providerStates" ∧ c.states ≠ [] then some (.arr (c.states.map stateToJson)) else none := by
  unfold syncBody at h
  obtain ⟨r, hr, rfl⟩ := Res.map_eq_ok.1 h
  refine ⟨r, hr, fun k => ?_⟩
  unfold statesEntry
  rw [PactFileProps.vget_obj, PactFileProps.slast]
  cases c.states with
  | nil =>
    by_cases h : k = "description"
    · subst h; simp [RuleJsonProps.slookup]
    · by_cases h2 : k = "request"
      · subst h2; simp [RuleJsonProps.slookup]
      · simp [RuleJsonProps.slookup, h, h2, Ne.symm h, Ne.symm h2]
  | cons s ss =>
    by_cases h : k = "description"
    · subst h; simp [RuleJsonProps.slookup]
    · by_cases h2 : k = "request"
      · subst h2; simp [RuleJsonProps.slookup]
      · by_cases h3 : k = "providerStates"
        · subst h3; simp [RuleJsonProps.slookup]
        · simp [RuleJsonProps.slookup, h, h2, h3, Ne.symm h, Ne.symm h2, Ne.symm h3]

/-! ### C135: the answer as a message -/

/-- Specification: the metadata an answer carries: the JSON object whose Base64 is the first value of the first header
`Pact-Message-Metadata`. -/
def carried (E : FileEnv) (hs : HeaderMap) : Obj :=
  match hs.find? fun h => decide (E.P.uc.lower h.1 = metadataName) with
  | none => []
  | some h => match E.json ((Base64.decode (h.2.headD [])).getD []) with
    | some (.obj es) => es
    | _ => []

theorem carried_skip (E : FileEnv) (hs : HeaderMap) : (∀ h ∈ hs, E.P.uc.lower h.1 ≠ metadataName) →
    ∀ m, hs.foldl (readMetadata E) m = m := by
  induction hs with
  | nil => intro _ m; rfl
  | cons h hs ih =>
    intro hn m
    rw [List.foldl_cons, readMetadata, if_neg (hn h (by simp)), ih fun x hx => hn x (by simp [hx])]

theorem carried_fold (E : FileEnv) (hs : HeaderMap) : HeaderProps.CaseNodup E.P.uc hs → ∀ m : Obj,
    hs.foldl (readMetadata E) m = (carried E hs).foldl (fun m e => OMap.insert e.1 e.2 m) m := by
  induction hs with
  | nil => intro _ m; rfl
  | cons h hs ih =>
    intro hn m
    rw [HeaderProps.CaseNodup, List.map_cons, List.nodup_cons] at hn
    rw [List.foldl_cons, readMetadata, carried]
    by_cases hm : E.P.uc.lower h.1 = metadataName
    · rw [if_pos hm, List.find?_cons_of_pos (by simpa using hm), carried_skip]
      · dsimp only
        generalize E.json ((Base64.decode (h.2.headD [])).getD []) = x
        match x with
        | some (.obj es) => rfl
        | none => rfl
        | some .null => rfl
        | some (.bool _) => rfl
        | some (.num _) => rfl
        | some (.str _) => rfl
        | some (.arr _) => rfl
      · intro x hx hc
        apply hn.1
        rw [hm, ← hc]
        exact List.mem_map.2 ⟨x, hx, rfl⟩
    · rw [if_neg hm, List.find?_cons_of_neg (by simpa using hm), ih hn.2]
      rfl

theorem sorted_one (e : Str × Json) : Json.SortedKeys (([e] : List (Str × Json)).map (·.1)) := ⟨by simp, trivial⟩

/-- **C135** (metadata): the metadata of an answer are the entries of the object it carries, and otherwise, as
`contentType`, the content type of the answer. -/
theorem C135_metadata (E : FileEnv) (r : HttpResponse) (hn : HeaderProps.CaseNodup E.P.uc (r.headers.getD [])) (k : Str) :
    Json.lookup k (extractMetadata E r) =
      (Json.lookup k (carried E (r.headers.getD [])).reverse).or
        (if k = "contentType".toList then
          some (.str ((MatchResult.lookupHeaderValue E.P.uc ⟨r.headers, asBody r.body⟩ "content-type".toList).getD [])) else none) := by
  unfold extractMetadata
  rw [carried_fold E _ hn, (OMap.foldl_insert _ _ (sorted_one _)).2]
  cases Json.lookup k (carried E (r.headers.getD [])).reverse with
  | some v => rfl
  | none =>
    simp only [Json.lookup, Option.none_or]
    by_cases h : k = "contentType".toList
    · rw [if_pos h.symm, if_pos h]
    · rw [if_neg (Ne.symm h), if_neg h]

theorem encode_plain : ∀ b : List UInt8, ∀ c ∈ Base64.encode b, c.toNat < 128 ∧ asciiWhite c = false ∧ c ≠ ','
  | [] => by simp [Base64.encode]
  | [a] => by
    have ha := a.toNat_lt
    intro c hc
    simp only [Base64.encode, List.mem_cons, List.not_mem_nil, or_false] at hc
    rcases hc with rfl | rfl | rfl | rfl
    · exact sx _ (by omega)
    · exact sx _ (by omega)
    · decide
    · decide
  | [a, b] => by
    have ha := a.toNat_lt
    have hb := b.toNat_lt
    intro c hc
    simp only [Base64.encode, List.mem_cons, List.not_mem_nil, or_false] at hc
    rcases hc with rfl | rfl | rfl | rfl
    · exact sx _ (by omega)
    · exact sx _ (by omega)
    · exact sx _ (by omega)
    · decide
  | a :: b :: d :: r => by
    have ha := a.toNat_lt
    have hb := b.toNat_lt
    have hd := d.toNat_lt
    intro c hc
    simp only [Base64.encode, List.mem_cons] at hc
    rcases hc with rfl | rfl | rfl | rfl | hc
    · exact sx _ (by omega)
    · exact sx _ (by omega)
    · exact sx _ (by omega)
    · exact sx _ (by omega)
    · exact encode_plain r c hc
where
  sx (n : Nat) (h : n < 64) : (Base64.sextet n).toNat < 128 ∧ asciiWhite (Base64.sextet n) = false ∧ Base64.sextet n ≠ ',' := by
    have : ∀ n : Fin 64, (Base64.sextet n.1).toNat < 128 ∧ asciiWhite (Base64.sextet n.1) = false ∧ Base64.sextet n.1 ≠ ',' := by decide +kernel
    exact this ⟨n, h⟩

theorem parse_base64 (uc : UC) (n : Str) (b : List UInt8) : QS.parseHeader uc n (Base64.encode b) = [Base64.encode b] := by
  have ht : trim uc (Base64.encode b) = Base64.encode b := by
    rw [XmlProps.trim_fix]
    constructor
    · intro c hc
      have := encode_plain b c (List.mem_of_mem_head? (by simp [hc]))
      rw [uc.white_ascii _ this.1]; exact this.2.1
    · intro c hc
      have := encode_plain b c (List.mem_of_getLast? hc)
      rw [uc.white_ascii _ this.1]; exact this.2.1
  unfold QS.parseHeader
  split
  · rw [ht]
  · rw [QueryStringProps.splitOn_self ',' _ fun h => (encode_plain b _ h).2.2 rfl, List.map_singleton, ht]

theorem readReply_headers (E : FileEnv) (a : Reply) (r : HttpResponse) (h : readReply E a = .ok r) :
    r.headers.getD [] = a.headers.map fun e => (e.1, readSpec E.P.uc e.1 e.2) := by
  unfold readReply at h
  rw [← extractHeaders_getD]
  cases hb : a.body with
  | none => simp [hb] at h
  | some b =>
    cases b with
    | nil => simp only [hb, Res.ok.injEq] at h; subst h; rfl
    | cons x xs =>
      simp only [hb] at h
      rw [Res.map_eq_ok] at h
      obtain ⟨ct, _, h4⟩ := h
      subst h4
      rfl

theorem nodup_unique {A B : Type} (f : A → B) {xs : List A} (h : (xs.map f).Nodup) {x y : A} (hx : x ∈ xs) (hy : y ∈ xs)
    (he : f x = f y) : x = y := by
  induction xs with
  | nil => cases hx
  | cons z zs ih =>
    rw [List.map_cons, List.nodup_cons] at h
    rcases List.mem_cons.1 hx with rfl | hx
    · rcases List.mem_cons.1 hy with rfl | hy
      · rfl
      · exact absurd (List.mem_map.2 ⟨y, hy, he.symm⟩) h.1
    · rcases List.mem_cons.1 hy with hyz | hy
      · rw [hyz] at he
        exact absurd (List.mem_map.2 ⟨x, hx, he⟩) h.1
      · exact ih h.2 hx hy

/-- **C135** (metadata): metadata that a provider sends as Base64 of a JSON object in the header `Pact-Message-Metadata`,
in whatever case, are read with exactly these values. -/
theorem C135_metadata_sent (E : FileEnv) (a : Reply) (r : HttpResponse) (n : Str) (b : List UInt8) (es : Obj)
    (h : readReply E a = .ok r) (hn : (a.headers.map fun h => E.P.uc.lower h.1).Nodup)
    (hm : (n, [some (Base64.encode b)]) ∈ a.headers) (hl : E.P.uc.lower n = metadataName)
    (hj : E.json b = some (.obj es)) (hes : NodupKeys es) (k : Str) (v : Json) (hk : (k, v) ∈ es) :
    Json.lookup k (extractMetadata E r) = some v := by
  have hre := readReply_headers E a r h
  have hcn : HeaderProps.CaseNodup E.P.uc (r.headers.getD []) := by
    rw [HeaderProps.CaseNodup, hre, List.map_map]; exact hn
  have hc : carried E (r.headers.getD []) = es := by
    unfold carried
    have hmem : (n, [Base64.encode b]) ∈ r.headers.getD [] := by
      rw [hre]
      refine List.mem_map.2 ⟨_, hm, ?_⟩
      simp [readSpec, parse_base64]
    cases hf : (r.headers.getD []).find? fun h => decide (E.P.uc.lower h.1 = metadataName) with
    | none =>
      have := List.find?_eq_none.1 hf _ hmem
      simp [hl] at this
    | some x =>
      have hx1 := List.find?_some hf
      have hx2 := List.mem_of_find?_eq_some hf
      have : x = (n, [Base64.encode b]) := by
        refine nodup_unique (fun h : Str × List Str => E.P.uc.lower h.1) hcn hx2 hmem ?_
        rw [hl]; simpa using hx1
      rw [this]
      simp only [List.headD_cons, Base64.decode_encode, Option.getD_some, hj]
  rw [C135_metadata E r hcn, hc, Json.lookup_of_mem (es := es.reverse)
    (by rw [List.map_reverse]; exact (List.reverse_perm _).nodup_iff.2 hes) (List.mem_reverse.2 hk)]
  rfl

/-! ### C135: the verdict on messages -/

/-- Specification: the content type of a message: that of its contents, or else the one in its metadata, or else what its
contents look like. -/
def typeOf (E : FileEnv) (body : FBody) (m : Obj) : Option ContentType :=
  match body with
  | .present _ (some ct) _ => some ct
  | .present b none _ => ((RuleJson.get "contentType" m).bind fun v => E.parseCT v.toStr).or (E.detectBytes b)
  | _ => (RuleJson.get "contentType" m).bind fun v => E.parseCT v.toStr

theorem headerCT (E : FileEnv) (m : Obj) :
    headerContentType E (metadataToHeaders m) = .ok ((RuleJson.get "contentType" m).bind fun v => E.parseCT v.toStr) := by
  unfold metadataToHeaders
  cases RuleJson.get "contentType" m with
  | none => rfl
  | some v =>
    have hl : E.P.uc.lower "Content-Type".toList = "content-type".toList := by
      rw [E.P.uc.lower_ascii _ (by decide)]; decide
    revert hl
    unfold headerContentType
    generalize "Content-Type".toList = k
    generalize "content-type".toList = k'
    intro hl
    simp [hl]

/-- A message of a pact or an answer as it is compared. -/
def shown (E : FileEnv) (m : MessageContents) : MatchResult.Message :=
  ⟨typeOf E m.contents m.metadata, asBody m.contents, m.metadata, m.rules⟩

theorem asContents_eq (E : FileEnv) (m : MessageContents) : asContents E m = .ok (shown E m) := by
  unfold asContents shown typeOf calcContentType
  rw [headerCT]
  cases m.contents with
  | present b ct h => cases ct <;> simp
  | missing => simp
  | empty => simp
  | null => simp

theorem metadata_type (E : FileEnv) (r : HttpResponse) (hn : HeaderProps.CaseNodup E.P.uc (r.headers.getD [])) :
    ∃ v, RuleJson.get "contentType" (extractMetadata E r) = some v := by
  unfold RuleJson.get
  rw [C135_metadata E r hn, if_pos rfl]
  cases Json.lookup "contentType".toList (carried E (r.headers.getD [])).reverse with
  | none => exact ⟨_, rfl⟩
  | some v => exact ⟨v, rfl⟩

theorem withBodyCT_answer (E : FileEnv) (r : HttpResponse) (hn : HeaderProps.CaseNodup E.P.uc (r.headers.getD [])) :
    PactV3.withBodyCT r.body (extractMetadata E r) = extractMetadata E r := by
  obtain ⟨v, hv⟩ := metadata_type E r hn
  unfold PactV3.withBodyCT
  rw [hv]
  cases PactV3.bodyCT r.body <;> rfl

theorem concluded_exchange {N : Type} {E : FileEnv} {L : Lib} {net : Net N} {o : Opts} {ds : List (Str × Str)} {info : Info}
    {t : Option Transport} {r : HttpRequest} {e e' : N} {ws : List Wire} {f : HttpResponse → Res Verdict} {v : Verdict}
    (hv : v ≠ .error) :
    concluded (makeRequest E L net o ds info t r e) f = (e', ws, .ok v) ↔
      ∃ w a x, createRequest E L (baseUrl info t) (filtered o r) o.custom = .ok w ∧ ws = [withDefaults ds w] ∧
        net e (withDefaults ds w) = (e', some a) ∧ readReply E a = .ok x ∧ f x = .ok v := by
  rcases hq : makeRequest E L net o ds info t r e with ⟨e1, ws1, x⟩
  have hex := (makeRequest_exchange _ _ _ _ _ _ _ _ _ _ _ _).1 hq
  constructor
  · intro h
    cases x with
    | err =>
      simp only [concluded, Prod.mk.injEq, Res.ok.injEq] at h
      exact absurd h.2.2.symm hv
    | panic => simp [concluded] at h
    | ok x =>
      simp only [concluded, Prod.mk.injEq] at h
      obtain ⟨rfl, rfl, hf⟩ := h
      generalize hxr : Res.ok x = y at hex
      cases hex with
      | refused => simp at hxr
      | panicked => simp at hxr
      | unanswered => simp at hxr
      | answered w _ a h1 h2 => exact ⟨w, a, x, h1, rfl, h2, hxr.symm, hf⟩
  · rintro ⟨w, a, y, h1, rfl, h2, h3, h4⟩
    have hq2 := (makeRequest_exchange E L net o ds info t r e e' _ _).2 (.answered w e' a h1 h2)
    rw [hq] at hq2
    rw [hq2]
    simp only [h3, concluded, h4]

/-- The names of the headers of an answer are different, also in lower case. -/
def DistinctHeaders {N : Type} (uc : UC) (net : Net N) : Prop :=
  ∀ e w e' a, net e w = (e', some a) → (a.headers.map fun h => uc.lower h.1).Nodup

theorem answer_nodup {N : Type} {E : FileEnv} {net : Net N} (hnet : DistinctHeaders E.P.uc net) {e e' : N} {w : Wire} {a : Reply}
    {r : HttpResponse} (h1 : net e w = (e', some a)) (h2 : readReply E a = .ok r) :
    HeaderProps.CaseNodup E.P.uc (r.headers.getD []) := by
  rw [HeaderProps.CaseNodup, readReply_headers E a r h2, List.map_map]
  exact hnet _ _ _ _ h1

/-- **C135**: a message without rules is verified exactly if it was asked for once, the answer could be read, its body
agrees with the contents and its metadata have the expected entries. -/
theorem C135_async {N : Type} (B : Libs) (net : Net N) (o : Opts) (ds : List (Str × Str)) (info : Info)
    (transport : Option Str) (m : PactV3.Message) (e e' : N) (ws : List Wire) (hr : m.rules = [])
    (hx : ((typeOf B.file m.contents m.metadata).getD .unknown).isXml = false)
    (hm : ((typeOf B.file m.contents m.metadata).getD .unknown).main ≠ "multipart".toList)
    (hj : ∀ b j, B.bodies.json b = some j → j.WF) (hnet : DistinctHeaders B.file.P.uc net) :
    verifyMessage B net o ds info transport m e = (e', ws, .ok .passed) ↔
      ∃ w a r, createRequest B.file B.http
          (baseUrl info (findTransport ["message".toList, "async-message".toList] transport info.transports))
          (filtered o (messageRequest (messageBody m.description m.states))) o.custom = .ok w ∧
        ws = [withDefaults ds w] ∧ net e (withDefaults ds w) = (e', some a) ∧ readReply B.file a = .ok r ∧
        MessageProps.ContentsAgree B.bodies (shown B.file ⟨m.contents, m.metadata, [], []⟩)
          (shown B.file ⟨r.body, extractMetadata B.file r, [], []⟩) ∧
        MessageProps.MetadataAgrees B.file.P.uc m.metadata (extractMetadata B.file r) := by
  unfold verifyMessage
  rw [concluded_exchange (by simp)]
  have key : ∀ w a r, net e w = (e', some a) → readReply B.file a = .ok r →
      (matchMessage B m (actualContents B.file r) = .ok .passed ↔
        MessageProps.ContentsAgree B.bodies (shown B.file ⟨m.contents, m.metadata, [], []⟩)
          (shown B.file ⟨r.body, extractMetadata B.file r, [], []⟩) ∧
        MessageProps.MetadataAgrees B.file.P.uc m.metadata (extractMetadata B.file r)) := by
    intro w a r h1 h2
    unfold matchMessage asMessage
    rw [asContents_eq, Res.bind_ok]
    have hw := withBodyCT_answer B.file r (answer_nodup hnet h1 h2)
    simp only [actualContents, hw, asContents_eq, Res.map_ok, Res.ok.injEq, verdict_passed]
    rw [MessageProps.C56_message B.env B.file.P.uc B.bodies _ _ (by exact hr) (by exact hx) (by exact hm) hj]
    rw [hr]
    rfl
  constructor
  · rintro ⟨w, a, r, h1, h2, h3, h4, h5⟩
    exact ⟨w, a, r, h1, h2, h3, h4, (key _ a r h3 h4).1 h5⟩
  · rintro ⟨w, a, r, h1, h2, h3, h4, h5⟩
    exact ⟨w, a, r, h1, h2, h3, h4, (key _ a r h3 h4).2 h5⟩

/-- The same provider, except that its answers have other statuses. -/
def restatus {N : Type} (f : Nat → Nat) (net : Net N) : Net N := fun e w =>
  ((net e w).1, (net e w).2.map fun a => { a with status := f a.status })

/-- **C135**: the status of the answer plays no part in the verification of a message: an error with the right body
passes. -/
theorem C135_status_ignored {N : Type} (B : Libs) (net : Net N) (o : Opts) (ds : List (Str × Str)) (info : Info)
    (transport : Option Str) (m : PactV3.Message) (e : N) (f : Nat → Nat) :
    verifyMessage B (restatus f net) o ds info transport m e = verifyMessage B net o ds info transport m e := by
  unfold verifyMessage makeRequest
  generalize baseUrl info _ = base
  cases createRequest B.file B.http base (filtered o (messageRequest (messageBody m.description m.states))) o.custom with
  | err => rfl
  | panic => rfl
  | ok w =>
    simp only [restatus]
    rcases net e (withDefaults ds w) with ⟨e1, a⟩
    cases a with
    | none => rfl
    | some a =>
      simp only [Option.map_some]
      unfold readReply
      cases a.body with
      | none => rfl
      | some b =>
        cases b with
        | nil => rfl
        | cons x xs =>
          simp only
          cases calcContentType B.file .missing (extractHeaders B.file.P.uc a.headers) <;> rfl

theorem asContentsAll_eq (E : FileEnv) : ∀ ms : List MessageContents, asContentsAll E ms = .ok (ms.map (shown E))
  | [] => rfl
  | m :: ms => by
    rw [asContentsAll, asContents_eq, Res.bind_ok, asContentsAll_eq E ms, Res.map_ok]
    rfl

/-- **C135** (synchronous): a synchronous message with one expected response without rules is verified exactly if it was
asked for once, the answer could be read, its status is less than 400, its body agrees with the contents and its metadata
have the expected entries. -/
theorem C135_sync {N : Type} (B : Libs) (net : Net N) (o : Opts) (ds : List (Str × Str)) (info : Info) (c : Common)
    (request m : MessageContents) (j : Json) (hsb : syncBody B.file c request = .ok j) (e e' : N) (ws : List Wire) (hr : m.rules = [])
    (hx : ((typeOf B.file m.contents m.metadata).getD .unknown).isXml = false)
    (hm : ((typeOf B.file m.contents m.metadata).getD .unknown).main ≠ "multipart".toList)
    (hj : ∀ b j, B.bodies.json b = some j → j.WF) :
    verifySync B net o ds info c request [m] e = (e', ws, .ok .passed) ↔
      ∃ w a r, createRequest B.file B.http
          (baseUrl info (findTransport ["message".toList, "sync-message".toList] c.transport info.transports))
          (filtered o (messageRequest j)) o.custom = .ok w ∧
        ws = [withDefaults ds w] ∧ net e (withDefaults ds w) = (e', some a) ∧ readReply B.file a = .ok r ∧ a.status < 400 ∧
        MessageProps.ContentsAgree B.bodies (shown B.file ⟨m.contents, m.metadata, [], []⟩)
          (shown B.file ⟨r.body, extractMetadata B.file r, [], []⟩) ∧
        MessageProps.MetadataAgrees B.file.P.uc m.metadata (extractMetadata B.file r) := by
  unfold verifySync
  rw [hsb]
  simp only
  rw [concluded_exchange (by simp)]
  have key : ∀ a r, readReply B.file a = .ok r → (concludeSync B [m] r = .ok .passed ↔
        a.status < 400 ∧ MessageProps.ContentsAgree B.bodies (shown B.file ⟨m.contents, m.metadata, [], []⟩)
          (shown B.file ⟨r.body, extractMetadata B.file r, [], []⟩) ∧
        MessageProps.MetadataAgrees B.file.P.uc m.metadata (extractMetadata B.file r)) := by
    intro a r h2
    have hst := (C133_response B.file a r h2).1
    unfold concludeSync
    rw [hst]
    by_cases hs : a.status < 400
    · rw [if_pos hs]
      simp only [hs, true_and]
      unfold matchSync
      rw [asContentsAll_eq, Res.bind_ok, asContents_eq, Res.map_ok, Res.ok.injEq, verdict_passed]
      have : ∀ x y : MatchResult.Message, MatchResult.matchSyncResponses B.env B.file.P.uc B.bodies [x] [y]
          = MatchResult.messageMismatches B.env B.file.P.uc B.bodies x y := by
        intro x y
        simp [MatchResult.matchSyncResponses, MatchResult.responseLoop]
      rw [List.map_singleton, this, MessageProps.C56_message B.env B.file.P.uc B.bodies _ _ (by exact hr) (by exact hx) (by exact hm) hj]
      simp only [shown, actualContents, hr]
    · rw [if_neg hs]
      simp [hs]
  constructor
  · rintro ⟨w, a, r, h1, h2, h3, h4, h5⟩
    exact ⟨w, a, r, h1, h2, h3, h4, (key a r h4).1 h5⟩
  · rintro ⟨w, a, r, h1, h2, h3, h4, h5⟩
    exact ⟨w, a, r, h1, h2, h3, h4, (key a r h4).2 h5⟩

/-- **C135** (synchronous): with two or more expected responses a message is never verified. -/
theorem C135_sync_many {N : Type} (B : Libs) (net : Net N) (o : Opts) (ds : List (Str × Str)) (info : Info) (c : Common)
    (request : MessageContents) (responses : List MessageContents) (e : N) (h : 2 ≤ responses.length) :
    (verifySync B net o ds info c request responses e).2.2 ≠ .ok .passed := by
  intro hp
  rcases hv : verifySync B net o ds info c request responses e with ⟨e', ws, x⟩
  rw [hv] at hp
  simp only at hp
  subst hp
  unfold verifySync at hv
  cases hb : syncBody B.file c request with
  | err => rw [hb] at hv; simp at hv
  | panic => rw [hb] at hv; simp at hv
  | ok j =>
    rw [hb] at hv
    simp only at hv
    rw [concluded_exchange (by simp)] at hv
    obtain ⟨w, a, r, _, _, _, _, h5⟩ := hv
    unfold concludeSync at h5
    split at h5
    · unfold matchSync at h5
      rw [asContentsAll_eq, Res.bind_ok, asContents_eq, Res.map_ok, Res.ok.injEq, verdict_passed] at h5
      unfold MatchResult.matchSyncResponses at h5
      rw [if_pos (by simp; omega)] at h5
      cases responses with
      | nil => simp at h
      | cons m ms => simp at h5
    · simp at h5

/-- **C135** (synchronous): without expected responses a message is verified whatever the answer is, as long as it can be
read and its status is less than 400. -/
theorem C135_sync_none {N : Type} (B : Libs) (net : Net N) (o : Opts) (ds : List (Str × Str)) (info : Info) (c : Common)
    (request : MessageContents) (j : Json) (hsb : syncBody B.file c request = .ok j) (e e' : N) (ws : List Wire) :
    verifySync B net o ds info c request [] e = (e', ws, .ok .passed) ↔
      ∃ w a r, createRequest B.file B.http
          (baseUrl info (findTransport ["message".toList, "sync-message".toList] c.transport info.transports))
          (filtered o (messageRequest j)) o.custom = .ok w ∧
        ws = [withDefaults ds w] ∧ net e (withDefaults ds w) = (e', some a) ∧ readReply B.file a = .ok r ∧ a.status < 400 := by
  unfold verifySync
  rw [hsb]
  simp only
  rw [concluded_exchange (by simp)]
  have key : ∀ a r, readReply B.file a = .ok r → (concludeSync B [] r = .ok .passed ↔ a.status < 400) := by
    intro a r h2
    have hst := (C133_response B.file a r h2).1
    unfold concludeSync
    rw [hst]
    by_cases hs : a.status < 400
    · rw [if_pos hs]
      simp only [hs, iff_true]
      unfold matchSync
      rw [asContentsAll_eq, Res.bind_ok, asContents_eq, Res.map_ok]
      rfl
    · rw [if_neg hs]
      simp [hs]
  constructor
  · rintro ⟨w, a, r, h1, h2, h3, h4, h5⟩
    exact ⟨w, a, r, h1, h2, h3, h4, (key a r h4).1 h5⟩
  · rintro ⟨w, a, r, h1, h2, h3, h4, h5⟩
    exact ⟨w, a, r, h1, h2, h3, h4, (key a r h4).2 h5⟩

/-! ### C136: state changes -/

/-- Asking again and again: the answers, in order. -/
inductive Tries {N : Type} (net : Net N) (w : Wire) : N → List (Option Reply) → N → Prop
  | nil (e : N) : Tries net w e [] e
  | cons (e e1 e2 : N) (a : Option Reply) (as : List (Option Reply)) : net e w = (e1, a) → Tries net w e1 as e2 →
      Tries net w e (a :: as) e2

/-- The answer is a server error. -/
def ServerError (x : Option Reply) : Prop := ∃ a, x = some a ∧ 500 ≤ a.status ∧ a.status < 600

theorem serverError_iff (x : Option Reply) : serverError x = true ↔ ServerError x := by
  unfold serverError ServerError
  cases x <;> simp

theorem again_tries {N : Type} (net : Net N) (w : Wire) : ∀ (n : Nat) (e e' : N) (a z : Option Reply) (ws : List Wire),
    again net w n e a = (e', ws, z) → ∃ as, Tries net w e as e' ∧ ws = List.replicate as.length w ∧ as.length ≤ n ∧
      (a :: as).getLast? = some z ∧ (∀ x ∈ (a :: as).dropLast, ServerError x) ∧ (as.length < n → ¬ ServerError z)
  | 0, e, e', a, z, ws, h => by
    simp only [again, Prod.mk.injEq] at h
    obtain ⟨rfl, rfl, rfl⟩ := h
    exact ⟨[], .nil _, rfl, Nat.le_refl _, rfl, by simp, by simp⟩
  | n + 1, e, e', a, z, ws, h => by
    rw [again] at h
    by_cases hs : serverError a = true
    · rw [if_pos hs] at h
      rcases hn : net e w with ⟨e1, a1⟩
      rw [hn] at h
      simp only at h
      rcases ha : again net w n e1 a1 with ⟨e2, t, a2⟩
      rw [ha] at h
      simp only [Prod.mk.injEq] at h
      obtain ⟨rfl, rfl, rfl⟩ := h
      obtain ⟨as, h1, h2, h3, h4, h5, h6⟩ := again_tries net w n e1 e2 a1 a2 t ha
      refine ⟨a1 :: as, .cons _ _ _ _ _ hn h1, by rw [h2]; rfl, by simpa using h3, by rw [List.getLast?_cons_cons]; exact h4, ?_, ?_⟩
      · intro x hx
        rw [List.dropLast_cons_of_ne_nil (by simp)] at hx
        rcases List.mem_cons.1 hx with rfl | hx
        · exact (serverError_iff _).1 hs
        · exact h5 x hx
      · intro hl
        exact h6 (by simpa using hl)
    · rw [if_neg hs] at h
      simp only [Prod.mk.injEq] at h
      obtain ⟨rfl, rfl, rfl⟩ := h
      refine ⟨[], .nil _, rfl, Nat.zero_le _, rfl, by simp, ?_⟩
      intro _ hx
      exact hs ((serverError_iff _).2 hx)

/-- **C136** (retries): a request for a state change is made at least once and at most as often as allowed; it is made
again exactly if the answer before was a server error, and the last answer counts. -/
theorem C136_retries {N : Type} (net : Net N) (w : Wire) (n : Nat) (e e' : N) (ws : List Wire) (x : Res (Option Reply))
    (h : withRetries net n w e = (e', ws, x)) (hn : 1 ≤ n) :
    ∃ as z, Tries net w e (as ++ [z]) e' ∧ ws = List.replicate (as.length + 1) w ∧ as.length + 1 ≤ n ∧ x = .ok z ∧
      (∀ y ∈ as, ServerError y) ∧ (as.length + 1 < n → ¬ ServerError z) := by
  cases n with
  | zero => omega
  | succ n =>
    rw [withRetries] at h
    rcases hq : net e w with ⟨e1, a1⟩
    rw [hq] at h
    simp only at h
    rcases ha : again net w n e1 a1 with ⟨e2, t, a2⟩
    rw [ha] at h
    simp only [Prod.mk.injEq] at h
    obtain ⟨rfl, rfl, rfl⟩ := h
    obtain ⟨as, h1, h2, h3, h4, h5, h6⟩ := again_tries net w n e1 e2 a1 a2 t ha
    have hl : (a1 :: as).dropLast ++ [a2] = a1 :: as := by
      rw [List.getLast?_eq_some_getLast (List.cons_ne_nil _ _), Option.some.injEq] at h4
      rw [← h4, List.dropLast_concat_getLast]
    have hlen : (a1 :: as).dropLast.length = as.length := by simp
    refine ⟨(a1 :: as).dropLast, a2, ?_, ?_, by omega, rfl, h5, ?_⟩
    · rw [hl]; exact .cons _ _ _ _ _ hq h1
    · rw [hlen, h2]; rfl
    · intro hl; exact h6 (by omega)

/-- **C136** (retries): if no attempts are allowed there is a panic. -/
theorem C136_no_attempts {N : Type} (net : Net N) (w : Wire) (e : N) : withRetries net 0 w e = (e, [], .panic) := rfl

/-- Specification: the content type of an answer, by its first value that is given as text. -/
def replyType (E : FileEnv) (a : Reply) : Option ContentType :=
  ((Json.lookup "content-type".toList a.headers).bind fun vs => E.parseCT ((vs.headD none).getD []))

/-- Specification: the answer is a JSON document, which is an object. -/
def JsonObject (E : FileEnv) (a : Reply) (es : Obj) : Prop :=
  (∃ ct, replyType E a = some ct ∧ ct.isJson = true) ∧ ∃ b, a.body = some b ∧ E.json b = some (.obj es)

theorem find_lookup {T : Type} (k : Str) (m : List (Str × T)) :
    (m.find? fun h => decide (h.1 = k)) = (Json.lookup k m).map fun v => (k, v) := by
  induction m with
  | nil => rfl
  | cons e es ih =>
    rw [Json.lookup]
    by_cases h : e.1 = k
    · rw [List.find?_cons_of_pos (by simpa using h), if_pos h, ← h]; rfl
    · rw [List.find?_cons_of_neg (by simpa using h), if_neg h, ih]

/-- **C136** (values): a state change succeeds exactly if the answer has a status from 200 to 299 and, if it is JSON, its
body can be read; its values are the entries of the JSON object in the answer, and there are none if it is not one. -/
theorem C136_values (E : FileEnv) (x : Option Reply) (m : Obj) :
    readState E x = .ok m ↔ ∃ a, x = some a ∧ 200 ≤ a.status ∧ a.status < 300 ∧
      ((∃ ct, replyType E a = some ct ∧ ct.isJson = true) → a.body ≠ none) ∧
      (JsonObject E a m ∨ (m = [] ∧ ∀ es, ¬ JsonObject E a es)) := by
  cases x with
  | none => simp [readState]
  | some a =>
    simp only [readState, Option.some.injEq, exists_eq_left']
    by_cases hs : 200 ≤ a.status ∧ a.status < 300
    · rw [if_pos hs]
      simp only [hs, true_and, stateValues, find_lookup, JsonObject, replyType]
      generalize "content-type".toList = kk
      have hcomm : ([] = m) ↔ (m = []) := eq_comm
      cases Json.lookup kk a.headers with
      | none => simp [hcomm]
      | some vs =>
        simp only [Option.map_some, Option.bind_some]
        cases E.parseCT ((vs.headD none).getD []) with
        | none => simp [hcomm]
        | some ct =>
          simp only [Option.some.injEq, exists_eq_left']
          by_cases hj : ct.isJson = true
          · simp only [hj, if_true, true_and, true_imp_iff]
            cases a.body with
            | none => simp
            | some b =>
              simp only [Option.some.injEq, exists_eq_left', ne_eq, reduceCtorEq, not_false_eq_true, true_and]
              cases E.json b with
              | none => simp [hcomm]
              | some v => cases v <;> simp [hcomm]
          · simp [hj, hcomm]
    · rw [if_neg hs]
      simp only [reduceCtorEq, false_iff, not_and]
      intro h1 h2
      exact absurd ⟨h1, h2⟩ hs

/-- **C136**: what a state change does: without a URL nothing at all; otherwise its request is sent as often as `C136_retries`
says, and the result is that of the last answer. -/
theorem C136_change {N : Type} (E : FileEnv) (L : Lib) (net : Net N) (ds : List (Str × Str)) (x : Executor) (s : PState)
    (setup : Bool) (e e' : N) (ws : List Wire) (y : Res Obj) (h : changeState E L net ds x s setup e = (e', ws, y)) :
    (x.url = none → e' = e ∧ ws = [] ∧ y = .ok []) ∧
    (∀ u w, x.url = some u → createRequest E L u (stateRequest x s setup) [] = .ok w → 1 ≤ x.retries →
      ∃ as z, Tries net (withDefaults ds w) e (as ++ [z]) e' ∧ ws = List.replicate (as.length + 1) (withDefaults ds w) ∧
        as.length + 1 ≤ x.retries ∧ (∀ a ∈ as, ServerError a) ∧ (as.length + 1 < x.retries → ¬ ServerError z) ∧
        y = readState E z) ∧
    (∀ u, x.url = some u → (∀ w, createRequest E L u (stateRequest x s setup) [] ≠ .ok w) → e' = e ∧ ws = [] ∧ ∀ m, y ≠ .ok m) := by
  unfold changeState at h
  refine ⟨?_, ?_, ?_⟩
  · intro hu
    rw [hu] at h
    simp only [Prod.mk.injEq] at h
    exact ⟨h.1.symm, h.2.1.symm, h.2.2.symm⟩
  · intro u w hu hc hn
    rw [hu] at h
    simp only [stateChangeRequest, hc] at h
    rcases hr : withRetries net x.retries (withDefaults ds w) e with ⟨e1, t, a⟩
    rw [hr] at h
    simp only [Prod.mk.injEq] at h
    obtain ⟨rfl, rfl, rfl⟩ := h
    obtain ⟨as, z, h1, h2, h3, h4, h5, h6⟩ := C136_retries net _ _ _ _ _ _ hr hn
    exact ⟨as, z, h1, h2, h3, h5, h6, by rw [h4]; rfl⟩
  · intro u hu hc
    rw [hu] at h
    simp only [stateChangeRequest] at h
    cases hq : createRequest E L u (stateRequest x s setup) [] with
    | ok w => exact absurd hq (hc w)
    | err =>
      rw [hq] at h
      simp only [Prod.mk.injEq] at h
      exact ⟨h.1.symm, h.2.1.symm, by rw [← h.2.2]; simp⟩
    | panic =>
      rw [hq] at h
      simp only [Prod.mk.injEq] at h
      exact ⟨h.1.symm, h.2.1.symm, by rw [← h.2.2]; simp⟩

theorem three_attrs (a b c : Json) (k : String) : vget k (obj [("state", a), ("params", b), ("action", c)]) =
    if k = "state" then some a else if k = "action" then some c else if k = "params" then some b else none := by
  rw [PactFileProps.vget_obj, PactFileProps.slast]
  by_cases k1 : k = "state"
  · subst k1; simp [RuleJsonProps.slookup]
  · by_cases k2 : k = "action"
    · subst k2; simp [RuleJsonProps.slookup]
    · by_cases k3 : k = "params"
      · subst k3; simp [RuleJsonProps.slookup]
      · simp [RuleJsonProps.slookup, k1, k2, k3, Ne.symm k1, Ne.symm k2, Ne.symm k3]

/-- **C136** (body): the request for a state change in a body is a POST of a JSON object with the name of the state, its
parameters and the action. -/
theorem C136_body (E : FileEnv) (L : Lib) (u : Str) (x : Executor) (s : PState) (setup : Bool) (w : Wire) (ds : List (Str × Str))
    (hb : x.body = true) (hm : L.method "POST".toList = true)
    (h : createRequest E L u (stateRequest x s setup) [] = .ok w) :
    (withDefaults (defaults ds) w).method = "POST".toList ∧ (withDefaults (defaults ds) w).url = joinPaths u "/".toList ∧
    (withDefaults (defaults ds) w).query = [] ∧
    ∃ j, (withDefaults (defaults ds) w).body = some (utf8 j.text) ∧ ∀ k, vget k j =
      if k = "state" then some (.str s.name)
      else if k = "action" then some (.str (if setup then "setup".toList else "teardown".toList))
      else if k = "params" then some (.obj (OMap.collect s.params)) else none := by
  have hr : stateRequest x s setup = messageRequest (stateBody s setup) := by
    rw [stateRequest, if_pos hb]; rfl
  rw [hr] at h
  obtain ⟨h1, h2, h3, h4, _⟩ := C135_asked E L u (stateBody s setup) [] ds w h hm
  refine ⟨h1, h2, h3, _, h4, ?_⟩
  intro k
  exact three_attrs _ _ _ k

theorem foldl_insertKV {V W : Type} (f : V → W) (es : List (Str × V)) : ∀ m : List (Str × W),
    (NodupKeys m → NodupKeys (es.foldl (fun m e => insertKV e.1 (f e.2) m) m)) ∧
    ∀ k, Json.lookup k (es.foldl (fun m e => insertKV e.1 (f e.2) m) m) =
      ((Json.lookup k es.reverse).map f).or (Json.lookup k m) := by
  induction es with
  | nil => intro m; exact ⟨id, fun k => rfl⟩
  | cons e es ih =>
    intro m
    rw [List.foldl_cons]
    refine ⟨fun h => (ih _).1 (HeaderProps.insertKV_nodup _ _ _ h).1, ?_⟩
    intro k
    rw [(ih _).2 k, HeaderProps.lookup_insertKV, List.reverse_cons, ProviderProps.lookup_append]
    cases Json.lookup k es.reverse with
    | some v => rfl
    | none =>
      rw [Json.lookup]
      by_cases h : k = e.1
      · rw [if_pos h, if_pos h.symm]; rfl
      · rw [if_neg h, if_neg (Ne.symm h)]; rfl

/-- **C136** (query): the request for a state change in the query is a POST without a body whose query has every parameter
with its value, as text, and the name of the state and the action, unless a parameter has the name `state` or `action`. -/
theorem C136_query (E : FileEnv) (L : Lib) (u : Str) (x : Executor) (s : PState) (setup : Bool) (w : Wire) (ds : List (Str × Str))
    (hb : x.body = false) (hm : L.method "POST".toList = true)
    (h : createRequest E L u (stateRequest x s setup) [] = .ok w) :
    (withDefaults (defaults ds) w).method = "POST".toList ∧ (withDefaults (defaults ds) w).url = joinPaths u "/".toList ∧
    (withDefaults (defaults ds) w).body = none ∧
    ∀ k, Json.lookup k ((QS.parseQueryString (withDefaults (defaults ds) w).query).getD []) =
      match Json.lookup k s.params.reverse with
      | some v => some [some (textOf v)]
      | none => if k = "action".toList then some [some (if setup then "setup".toList else "teardown".toList)]
        else if k = "state".toList then some [some s.name] else none := by
  have hr : stateRequest x s setup = ⟨"POST".toList, "/".toList, some (stateQuery s setup), none, .missing, [], []⟩ := by
    rw [stateRequest, if_neg (by rw [hb]; simp)]
  rw [hr] at h
  obtain ⟨h1, h2, h3, _, h5⟩ := C131_sent E L u _ [] ds w h
  refine ⟨h1.trans (if_pos hm), h2, h5, ?_⟩
  intro k
  rw [h3]
  have hq := foldl_insertKV (fun v => [some (textOf v)]) s.params
    (insertKV "action".toList [some (action setup)] [("state".toList, [some s.name])])
  change (_ → NodupKeys (stateQuery s setup)) ∧ ∀ k, Json.lookup k (stateQuery s setup) = _ at hq
  have hnd : NodupKeys (stateQuery s setup) := hq.1 (HeaderProps.insertKV_nodup _ _ [(_, _)] (List.nodup_cons.2 ⟨List.not_mem_nil, List.nodup_nil⟩)).1
  rw [show (Option.getD (some (stateQuery s setup)) []) = stateQuery s setup from rfl, C131_query _ hnd, sentValues, hq.2 k,
    HeaderProps.lookup_insertKV]
  cases Json.lookup k s.params.reverse with
  | some v => rfl
  | none =>
    simp only [Option.map_none, Option.none_or, action]
    by_cases k1 : k = "action".toList
    · rw [if_pos k1, if_pos k1]; rfl
    · rw [if_neg k1, if_neg k1, Json.lookup]
      by_cases k2 : k = "state".toList
      · rw [if_pos k2, if_pos k2.symm]; rfl
      · rw [if_neg k2, if_neg (Ne.symm k2)]; rfl

/-- **C136** (query): a parameter named `state` takes the place of the name of the state. -/
theorem C136_param_overrides :
    Json.lookup "state".toList (stateQuery ⟨"user exists".toList, [("state".toList, .str "CA".toList)]⟩ true)
      = some [some "CA".toList] := by decide

/-! ### C137: all requests of an interaction -/

/-- What the provider and the state change handler are sent, and by whom: the verifier with its settings. -/
structure Setting (N : Type) where
  libs : Libs
  net : Net N
  opts : Opts
  defaults : List (Str × Str)
  info : Info
  executor : Executor
  generate : Obj → HttpRequest → HttpRequest
  find : Verifier.Ixn → Interaction

/-- The world of a setting. -/
def Setting.world {N : Type} (s : Setting N) : Verifier.World (Log N) :=
  httpWorld s.libs s.net s.opts s.defaults s.info s.executor s.generate s.find

/-- Specification: the requests an event stands for: a state change is sent to its URL, the same request one or several
times, or not at all if there is no URL; for the interaction itself there is at most one request, and exactly one if it was
verified. -/
def Caused {N : Type} (S : Setting N) : Verifier.Event → List Wire → Prop
  | .change setup s answer, ws =>
      (S.executor.url = none → ws = [] ∧ answer = some []) ∧
      ∀ u, S.executor.url = some u →
        (answer ≠ none → ws ≠ []) ∧ ws.length ≤ S.executor.retries ∧
        ∀ w ∈ ws, ∃ v, createRequest S.libs.file S.libs.http u (stateRequest S.executor ⟨s.name, s.params⟩ setup) [] = .ok v ∧
          w = withDefaults S.defaults v
  | .request i context ok, ws =>
      ws.length ≤ 1 ∧ (ok = true → ws.length = 1) ∧
      ∀ c request response, S.find i = .http c request response → ∀ w ∈ ws,
        ∃ v, createRequest S.libs.file S.libs.http
            (baseUrl S.info (findTransport ["http".toList] c.transport S.info.transports))
            (filtered S.opts (S.generate context request)) S.opts.custom = .ok v ∧ w = withDefaults S.defaults v

theorem step_sticky {N A : Type} (l : Log N) (f : N → N × List Wire × Res A) (h : (l.step f).1.panicked = false) :
    l.panicked = false := by
  unfold Log.step at h
  cases hp : l.panicked with
  | false => rfl
  | true => rw [hp] at h; simp [hp] at h

theorem step_sent {N A : Type} (l : Log N) (f : N → N × List Wire × Res A) (h : (l.step f).1.panicked = false) :
    (l.step f).1.sent = l.sent ++ (f l.state).2.1 ∧
    (l.step f).2 = (match (f l.state).2.2 with | .ok a => some a | _ => none) ∧ (f l.state).2.2 ≠ .panic := by
  have hp := step_sticky l f h
  unfold Log.step at h ⊢
  rw [hp] at h ⊢
  simp only [Bool.false_eq_true, if_false] at h ⊢
  rcases hf : f l.state with ⟨e, t, x⟩
  rw [hf] at h
  cases x with
  | ok a => simp
  | err => simp
  | panic => exact absurd h (by simp)

theorem change_sticky {N : Type} (S : Setting N) (setup : Bool) : ∀ (ss : List Verifier.PState) (l : Log N),
    (Verifier.changeAll S.world setup l ss).1.panicked = false → l.panicked = false
  | [], l, h => h
  | s :: ss, l, h => by
    rw [Verifier.changeAll] at h
    exact step_sticky l _ (change_sticky S setup ss _ h)

theorem change_caused {N : Type} (S : Setting N) (setup : Bool) (s : Verifier.PState) (l : Log N)
    (h : (S.world.change l setup s).1.panicked = false) :
    ∃ ws, (S.world.change l setup s).1.sent = l.sent ++ ws ∧ Caused S (.change setup s (S.world.change l setup s).2) ws := by
  have hs := step_sent l (changeState S.libs.file S.libs.http S.net S.defaults S.executor ⟨s.name, s.params⟩ setup) h
  change (S.world.change l setup s).1.sent = _ ∧ (S.world.change l setup s).2 = _ ∧ _ at hs
  rcases hc : changeState S.libs.file S.libs.http S.net S.defaults S.executor ⟨s.name, s.params⟩ setup l.state with ⟨e', ws, y⟩
  rw [hc] at hs
  simp only at hs
  obtain ⟨h1, h2, h3⟩ := hs
  refine ⟨ws, h1, ?_⟩
  rw [h2]
  obtain ⟨g1, g2, g3⟩ := C136_change _ _ _ _ _ _ _ _ _ _ _ hc
  refine ⟨?_, ?_⟩
  · intro hu
    obtain ⟨_, k2, k3⟩ := g1 hu
    exact ⟨k2, by rw [k3]⟩
  · intro u hu
    by_cases hw : ∃ w, createRequest S.libs.file S.libs.http u (stateRequest S.executor ⟨s.name, s.params⟩ setup) [] = .ok w
    · obtain ⟨w, hw⟩ := hw
      by_cases hn : 1 ≤ S.executor.retries
      · obtain ⟨as, z, k1, k2, k3, _⟩ := g2 u w hu hw hn
        refine ⟨fun _ => by rw [k2]; simp [List.replicate_succ], by rw [k2]; simpa using k3, ?_⟩
        intro v hv
        rw [k2] at hv
        exact ⟨w, hw, List.eq_of_mem_replicate hv⟩
      · exfalso
        have h0 : S.executor.retries = 0 := by omega
        apply h3
        unfold changeState at hc
        rw [hu] at hc
        simp only [stateChangeRequest, hw, h0, withRetries, Prod.mk.injEq] at hc
        exact hc.2.2.symm
    · obtain ⟨_, k2, k3⟩ := g3 u hu (fun w h => hw ⟨w, h⟩)
      refine ⟨?_, by rw [k2]; simp, by rw [k2]; simp⟩
      intro ha
      cases y with
      | ok m => exact absurd rfl (k3 m)
      | err => exact absurd rfl ha
      | panic => exact absurd rfl ha

theorem changeAll_caused {N : Type} (S : Setting N) (setup : Bool) : ∀ (ss : List Verifier.PState) (l : Log N),
    (Verifier.changeAll S.world setup l ss).1.panicked = false →
    ∃ wss, BrokerProps.Each (Caused S) (Verifier.changeAll S.world setup l ss).2.1 wss ∧
      (Verifier.changeAll S.world setup l ss).1.sent = l.sent ++ wss.flatten
  | [], l, _ => ⟨[], .nil, by simp [Verifier.changeAll]⟩
  | s :: ss, l, h => by
    rw [Verifier.changeAll] at h ⊢
    obtain ⟨ws, h1, h2⟩ := change_caused S setup s l (change_sticky S setup ss _ h)
    obtain ⟨wss, h3, h4⟩ := changeAll_caused S setup ss _ h
    refine ⟨ws :: wss, .cons h2 h3, ?_⟩
    rw [h4, h1, List.flatten_cons, List.append_assoc]

theorem executeStates_caused {N : Type} (S : Setting N) (setup : Bool) (i : Verifier.Ixn) (l : Log N)
    (h : (Verifier.executeStates S.world l i setup).1.panicked = false) :
    l.panicked = false ∧
    ∃ wss, BrokerProps.Each (Caused S) (Verifier.executeStates S.world l i setup).2.1 wss ∧
      (Verifier.executeStates S.world l i setup).1.sent = l.sent ++ wss.flatten := by
  have he : ∀ ss, ss = (if i.states.isEmpty then [⟨[], []⟩] else i.states) →
      (Verifier.executeStates S.world l i setup).1 = (Verifier.changeAll S.world setup l ss).1 ∧
      (Verifier.executeStates S.world l i setup).2.1 = (Verifier.changeAll S.world setup l ss).2.1 := by
    intro ss hss
    unfold Verifier.executeStates
    rw [← hss]
    simp only
    split <;> exact ⟨rfl, rfl⟩
  obtain ⟨e1, e2⟩ := he _ rfl
  rw [e1] at h ⊢
  rw [e2]
  exact ⟨change_sticky S setup _ l h, changeAll_caused S setup _ l h⟩

theorem concluded_length {N : Type} {E : FileEnv} {L : Lib} {net : Net N} {o : Opts} {ds : List (Str × Str)} {info : Info}
    {t : Option Transport} {r : HttpRequest} {e : N} {f : HttpResponse → Res Verdict} :
    (∀ w ∈ (concluded (makeRequest E L net o ds info t r e) f).2.1,
      ∃ v, createRequest E L (baseUrl info t) (filtered o r) o.custom = .ok v ∧ w = withDefaults ds v) ∧
    ((concluded (makeRequest E L net o ds info t r e) f).2.2 = .ok .passed →
      (concluded (makeRequest E L net o ds info t r e) f).2.1.length = 1) := by
  constructor
  · rcases hq : makeRequest E L net o ds info t r e with ⟨e1, ws1, x⟩
    have hex := (makeRequest_exchange _ _ _ _ _ _ _ _ _ _ _ _).1 hq
    have hws : ∀ w ∈ ws1, ∃ v, createRequest E L (baseUrl info t) (filtered o r) o.custom = .ok v ∧ w = withDefaults ds v := by
      cases hex with
      | refused => simp
      | panicked => simp
      | unanswered v e' h1 h2 => intro w hw; exact ⟨v, h1, List.mem_singleton.1 hw⟩
      | answered v e' a h1 h2 => intro w hw; exact ⟨v, h1, List.mem_singleton.1 hw⟩
    cases x <;> exact hws
  · intro h
    rcases hq : concluded (makeRequest E L net o ds info t r e) f with ⟨e1, ws, x⟩
    rw [hq] at h
    simp only at h
    subst h
    obtain ⟨w, a, x, _, h2, _⟩ := (concluded_exchange (by simp)).1 hq
    rw [h2]
    rfl

theorem verify_caused {N : Type} (S : Setting N) (i : Verifier.Ixn) (context : Obj) (l : Log N)
    (h : (S.world.verify l i context).1.panicked = false) :
    l.panicked = false ∧
    ∃ ws, (S.world.verify l i context).1.sent = l.sent ++ ws ∧ Caused S (.request i context (S.world.verify l i context).2) ws := by
  have hs := step_sent l (verifyOne S.libs S.net S.opts S.defaults S.info (S.generate context) (S.find i)) h
  refine ⟨step_sticky l _ h, _, hs.1, C134_one_request _ _ _ _ _ _ _ _, ?_, ?_⟩
  · intro hok
    change isPassed (l.step (verifyOne S.libs S.net S.opts S.defaults S.info (S.generate context) (S.find i))).2 = true at hok
    rw [hs.2.1] at hok
    have hp : (verifyOne S.libs S.net S.opts S.defaults S.info (S.generate context) (S.find i) l.state).2.2 = .ok .passed := by
      revert hok
      cases (verifyOne S.libs S.net S.opts S.defaults S.info (S.generate context) (S.find i) l.state).2.2 with
      | err => simp [isPassed]
      | panic => simp [isPassed]
      | ok v => cases v <;> simp [isPassed]
    revert hp
    cases S.find i with
    | http c r s => exact concluded_length.2
    | async c m =>
      simp only [verifyOne]
      split
      · exact concluded_length.2
      · intro hp; simp at hp
    | sync c r s =>
      simp only [verifyOne, verifySync]
      split
      · exact concluded_length.2
      · intro hp; simp at hp
      · intro hp; simp at hp
  · intro c request response hf
    rw [hf]
    exact concluded_length.1

theorem each_append {A B : Type} {P : A → B → Prop} {as as' : List A} {bs bs' : List B} (h : BrokerProps.Each P as bs)
    (h' : BrokerProps.Each P as' bs') : BrokerProps.Each P (as ++ as') (bs ++ bs') := by
  induction h with
  | nil => exact h'
  | cons h1 _ ih => exact .cons h1 ih

theorem interaction_parts {E : Type} (env : Verifier.World E) (e e1 : E) (i : Verifier.Ixn) (evs1 : List Verifier.Event)
    (c1 : Option Obj) (hc : env.client = true) (h1 : Verifier.executeStates env e i true = (e1, evs1, c1)) :
    (c1 = none ∧ Verifier.verifyInteraction env e i = (e1, evs1, false)) ∨
    ∃ ctx, ∀ e2 b2, env.verify e1 i ctx = (e2, b2) →
      (env.teardown = false → Verifier.verifyInteraction env e i = (e2, evs1 ++ [.request i ctx b2], b2)) ∧
      (env.teardown = true → ∀ e3 evs3 c3, Verifier.executeStates env e2 i false = (e3, evs3, c3) →
        ∃ b, Verifier.verifyInteraction env e i = (e3, evs1 ++ [.request i ctx b2] ++ evs3, b)) := by
  obtain ⟨chg, ver, td, cl⟩ := env
  simp only at hc
  subst hc
  unfold Verifier.verifyInteraction
  rw [h1]
  cases c1 with
  | none => left; exact ⟨rfl, rfl⟩
  | some c =>
    right
    refine ⟨Verifier.insertAll (List.foldl (fun m s => Verifier.insertAll m s.params) [] i.states) c, ?_⟩
    intro e2 b2 h2
    simp only at h2
    refine ⟨?_, ?_⟩
    · intro ht
      simp only at ht
      subst ht
      simp only [Bool.not_true, Bool.false_eq_true, if_false, h2]
    · intro ht e3 evs3 c3 h3
      simp only at ht
      subst ht
      cases c3 with
      | none => exact ⟨false, by simp only [Bool.not_true, Bool.false_eq_true, if_false, if_true, h2, h3]⟩
      | some x => exact ⟨b2, by simp only [Bool.not_true, Bool.false_eq_true, if_false, if_true, h2, h3]⟩

/-- **C137**: unless there is a panic, everything that is sent while an interaction is verified is what the events of its
verification stand for, in their order: the setup of the states, the request of the interaction, the teardown of the
states (see C39 for the events), and nothing else. -/
theorem C137_sent {N : Type} (S : Setting N) (i : Verifier.Ixn) (l l' : Log N) (evs : List Verifier.Event) (ok : Bool)
    (h : Verifier.verifyInteraction S.world l i = (l', evs, ok)) (hp : l'.panicked = false) :
    VerifierProps.Segment S.world.client S.executor.teardown i evs ok ∧
    ∃ wss, BrokerProps.Each (Caused S) evs wss ∧ l'.sent = l.sent ++ wss.flatten := by
  have hseg := VerifierProps.C39_interaction S.world l i
  rw [h] at hseg
  refine ⟨hseg, ?_⟩
  by_cases hc : S.world.client = true
  · rcases h1 : Verifier.executeStates S.world l i true with ⟨l1, evs1, c1⟩
    have hx1 : l1.panicked = false → _ := fun hh => executeStates_caused S true i l (by rw [h1]; exact hh)
    rw [h1] at hx1
    rcases interaction_parts S.world l l1 i evs1 c1 hc h1 with ⟨_, hv⟩ | ⟨ctx, hv⟩
    · rw [h] at hv
      cases hv
      exact (hx1 hp).2
    · have hx2 : (S.world.verify l1 i ctx).1.panicked = false → _ := verify_caused S i ctx l1
      rcases h2 : S.world.verify l1 i ctx with ⟨l2, b2⟩
      rw [h2] at hx2
      obtain ⟨hv1, hv2⟩ := hv l2 b2 h2
      have joined : l2.panicked = false → ∃ wss, BrokerProps.Each (Caused S) (evs1 ++ [Verifier.Event.request i ctx b2]) wss ∧
          l2.sent = l.sent ++ wss.flatten := by
        intro hh
        obtain ⟨g1, ws, g2, g3⟩ := hx2 hh
        obtain ⟨_, wss, g4, g5⟩ := hx1 g1
        refine ⟨wss ++ [ws], each_append g4 (.cons g3 .nil), ?_⟩
        simp only at g2 g5
        rw [g2, g5]
        simp
      cases ht : S.world.teardown with
      | false =>
        have := hv1 ht
        rw [h] at this
        cases this
        exact joined hp
      | true =>
        rcases h3 : Verifier.executeStates S.world l2 i false with ⟨l3, evs3, c3⟩
        have hx3 : l3.panicked = false → _ := fun hh => executeStates_caused S false i l2 (by rw [h3]; exact hh)
        rw [h3] at hx3
        obtain ⟨b, hv3⟩ := hv2 ht l3 evs3 c3 h3
        rw [h] at hv3
        cases hv3
        obtain ⟨g1, wss, g2, g3⟩ := hx3 hp
        obtain ⟨wss0, g4, g5⟩ := joined g1
        refine ⟨wss0 ++ wss, each_append g4 g2, ?_⟩
        simp only at g3
        rw [g3, g5]
        simp
  · simp only [Bool.not_eq_true] at hc
    have : Verifier.verifyInteraction S.world l i = (l, [], false) := by
      unfold Verifier.verifyInteraction
      rw [if_pos (by rw [hc]; rfl)]
    rw [h] at this
    cases this
    exact ⟨[], .nil, by simp⟩

/-! ### C138: where requests go -/

/-- **C138**: a request for an interaction goes to the first transport with the name the interaction gives, or without one
to the first of those with a default name, with `http` if it has no scheme; and if there is none, to the provider itself. -/
theorem C138_base (names : List Str) (wanted : Option Str) (info : Info) :
    (∀ t pre post, info.transports = pre ++ t :: post →
      (∀ n, wanted = some n → t.transport = n ∧ ∀ x ∈ pre, x.transport ≠ n) →
      (wanted = none → t.transport ∈ names ∧ ∀ x ∈ pre, x.transport ∉ names) →
      baseUrl info (findTransport names wanted info.transports)
        = t.scheme.getD "http".toList ++ "://".toList ++ info.host
          ++ ((t.port.map fun p => ':' :: natStr p).getD []) ++ t.path.getD []) ∧
    ((∀ t ∈ info.transports, (∀ n, wanted = some n → t.transport ≠ n) ∧ (wanted = none → t.transport ∉ names)) →
      baseUrl info (findTransport names wanted info.transports)
        = info.protocol ++ "://".toList ++ info.host ++ ((info.port.map fun p => ':' :: natStr p).getD []) ++ info.path) := by
  have hurl : ∀ s h p q, urlText s h p q = s ++ "://".toList ++ h ++ ((p.map fun p => ':' :: natStr p).getD []) ++ q := by
    intro s h p q
    unfold urlText
    cases p <;> simp
  constructor
  · intro t pre post ht hn hd
    have hf : findTransport names wanted info.transports = some (withScheme t) := by
      unfold findTransport
      rw [ht]
      cases wanted with
      | some n =>
        obtain ⟨h1, h2⟩ := hn n rfl
        simp only
        rw [List.find?_append, List.find?_eq_none.2 (by simpa using h2), List.find?_cons_of_pos (by simpa using h1)]
        rfl
      | none =>
        obtain ⟨h1, h2⟩ := hd rfl
        simp only
        rw [List.find?_append, List.find?_eq_none.2 (by simpa using h2), List.find?_cons_of_pos (by simpa using h1)]
        rfl
    rw [hf]
    simp only [baseUrl, Transport.baseUrl, hurl]
    unfold withScheme
    cases t with
    | mk a b c d => cases d <;> rfl
  · intro h
    have hf : findTransport names wanted info.transports = none := by
      unfold findTransport
      cases wanted with
      | some n =>
        simp only [Option.map_eq_none_iff]
        exact List.find?_eq_none.2 fun t ht => by simpa using (h t ht).1 n rfl
      | none =>
        simp only [Option.map_eq_none_iff]
        exact List.find?_eq_none.2 fun t ht => by simpa using (h t ht).2 rfl
    rw [hf]
    simp only [baseUrl, hurl]

/-! ### Examples -/

/-- A message, asked for once, that is verified although the status of the answer is 500. -/
example : verifyMessage exLibs (restatus (fun _ => 500) exNet) ⟨[], none⟩ [] exInfo none
    ⟨none, "d".toList, [], .present [65] none none, [("contentType".toList, .str "text/plain".toList)], [], []⟩ 0
    = (1, [⟨"POST".toList, "http://h:1".toList, [], [("content-type".toList, ["application/json".toList])],
        some (utf8 "{\"description\":\"d\"}".toList)⟩], .ok .passed) := by rfl

example : DistinctHeaders UC.ascii exNet := by
  intro e w e' a h
  cases h
  decide

/-- A synchronous message. -/
example : (verifySync exLibs exNet ⟨[], none⟩ [] exInfo exCommon ⟨.missing, [], [], []⟩
    [⟨.present [65] none none, [("contentType".toList, .str "text/plain".toList)], [], []⟩] 0).2.2 = .ok .passed := by rfl

/-- A state change handler that fails twice. -/
def exHandler : Net Nat := fun n _ => (n + 1, some ⟨if n < 2 then 503 else 200, [], some []⟩)

example : (changeState PactFileProps.exE exL exHandler [] ⟨some "http://h".toList, true, false, 3⟩ ⟨"s".toList, []⟩ true 0).2.1.length = 3 ∧
    (changeState PactFileProps.exE exL exHandler [] ⟨some "http://h".toList, true, false, 3⟩ ⟨"s".toList, []⟩ true 0).2.2 = .ok [] :=
  ⟨by rfl, by rfl⟩

/-- A whole interaction: setup, request, teardown. -/
def exSetting : Setting Nat where
  libs := exLibs
  net := exNet
  opts := ⟨[], none⟩
  defaults := []
  info := exInfo
  executor := ⟨some "http://s".toList, true, true, 1⟩
  generate := fun _ r => r
  find := fun _ => .http ProviderProps.exCommon exRequest exResponse

example : (Verifier.verifyInteraction exSetting.world ⟨0, [], false⟩ ⟨none, "d".toList, [⟨"s".toList, []⟩], false⟩).1.panicked = false ∧
    (Verifier.verifyInteraction exSetting.world ⟨0, [], false⟩ ⟨none, "d".toList, [⟨"s".toList, []⟩], false⟩).1.sent.map (·.url)
      = ["http://s".toList, "http://h:2/base/a/b".toList, "http://s".toList] ∧
    (Verifier.verifyInteraction exSetting.world ⟨0, [], false⟩ ⟨none, "d".toList, [⟨"s".toList, []⟩], false⟩).2.2 = true :=
  ⟨by rfl, by rfl, by rfl⟩



end ProviderMessageProps
end Verif
