import Verif.Report
import Verif.Props.ReadFileProps

/-
  C174: what the JSON report of a verification says.
  C175: when mismatches are equal, and what conversions keep.
-/

set_option autoImplicit false

namespace Verif
namespace ReportProps
open RuleJson PactFile Report
open PactFileProps hiding Each
open SessionRuleProps (Each)

/-! ## Specification -/

/-- What a reader of the report is shown for some bytes: their text when they are UTF-8, a fixed text otherwise. -/
inductive Shown (err : Str) : Bytes → Str → Prop where
  | text (s : Str) : Shown err (utf8 s) s
  | error (b : Bytes) (h : ∀ s, utf8 s ≠ b) : Shown err b err

/-- Two values that look the same. -/
inductive SameShown (err : Str) : Option Bytes → Option Bytes → Prop where
  | absent : SameShown err none none
  | shown (b c : Bytes) (s : Str) : Shown err b s → Shown err c s → SameShown err (some b) (some c)

/-- Mismatches with the same attributes, as far as bytes can be shown. -/
inductive SameMis : Mis → Mis → Prop where
  | method (e a m : Str) : SameMis (.method e a m) (.method e a m)
  | path (e a m : Str) : SameMis (.path e a m) (.path e a m)
  | status (e a : Nat) (m : Str) : SameMis (.status e a m) (.status e a m)
  | query (p e a m : Str) : SameMis (.query p e a m) (.query p e a m)
  | header (k e a m : Str) : SameMis (.header k e a m) (.header k e a m)
  | bodyType (e a m : Str) (eb ab eb' ab' : Option Bytes)
      (h1 : SameShown "ERROR: could not convert to UTF-8 from bytes".toList eb eb')
      (h2 : SameShown "ERROR: could not convert to UTF-8 from bytes".toList ab ab') :
      SameMis (.bodyType e a m eb ab) (.bodyType e a m eb' ab')
  | body (p m : Str) (e a e' a' : Option Bytes)
      (h1 : SameShown "ERROR: could not convert from bytes".toList e e')
      (h2 : SameShown "ERROR: could not convert from bytes".toList a a') :
      SameMis (.body p e a m) (.body p e' a' m)
  | metadata (k e a m : Str) : SameMis (.metadata k e a m) (.metadata k e a m)

/-- The same ID; a missing one is the empty one. -/
inductive SameId : Option Str → Option Str → Prop where
  | same (i : Option Str) : SameId i i
  | noneEmpty : SameId none (some [])
  | emptyNone : SameId (some []) none

/-- The same failure of an interaction. -/
inductive SameFailure : Failure → Failure → Prop where
  | mismatches (ms ms' : List Mis) (i i' : Option Str) (h1 : Each SameMis ms ms') (h2 : SameId i i') :
      SameFailure (.mismatches ms i) (.mismatches ms' i')
  | error (m : Str) (i i' : Option Str) (h2 : SameId i i') : SameFailure (.error m i) (.error m i')

/-- A named failure. -/
def SameNamed (x y : Str × Failure) : Prop := x.1 = y.1 ∧ SameFailure x.2 y.2

/-- Two results a reader of the report cannot tell apart. -/
structure SameReport (r s : Report) : Prop where
  result : r.result = s.result
  notices : Each SameMap r.notices s.notices
  output : r.output = s.output
  pending : Each SameNamed r.pendingErrors s.pendingErrors
  errors : Each SameNamed r.errors s.errors

/-- Notices are maps. -/
def NoticesOk (r : Report) : Prop := ∀ n ∈ r.notices, IsMap n

/-! ## Lemmas -/

theorem each_map_eq {A B : Type} (R : A → A → Prop) (f : A → B) (l m : List A)
    (hf : ∀ x ∈ l, ∀ y ∈ m, f x = f y ↔ R x y) : l.map f = m.map f ↔ Each R l m := by
  induction l generalizing m with
  | nil =>
    cases m with
    | nil => exact ⟨fun _ => .nil, fun _ => rfl⟩
    | cons y ys => exact ⟨fun h => (by cases h), fun h => (by cases h)⟩
  | cons x xs ih =>
    cases m with
    | nil => exact ⟨fun h => (by cases h), fun h => (by cases h)⟩
    | cons y ys =>
      have hi := ih ys (fun a ha b hb => hf a (by simp [ha]) b (by simp [hb]))
      have h0 := hf x (by simp) y (by simp)
      constructor
      · intro h
        rw [List.map_cons, List.map_cons] at h
        injection h with h1 h2
        exact .cons (h0.1 h1) (hi.1 h2)
      · intro h
        cases h with
        | cons h1 h2 => rw [List.map_cons, List.map_cons, h0.2 h1, hi.2 h2]

theorem shown_iff (err : String) (b : Bytes) (s : Str) : (QS.fromUtf8 b).getD err.toList = s ↔ Shown err.toList b s := by
  constructor
  · intro h
    cases hb : QS.fromUtf8 b with
    | some t =>
      rw [hb] at h
      have ht : t = s := h
      rw [← utf8_fromUtf8 b t hb, ← ht]
      exact .text t
    | none =>
      rw [hb] at h
      have ht : err.toList = s := h
      rw [← ht]
      exact .error b fun s hs => by
        rw [← hs, PactV3Props.fromUtf8_utf8] at hb
        cases hb
  · intro h
    cases h with
    | text =>
      rw [PactV3Props.fromUtf8_utf8]
      rfl
    | error _ h =>
      cases hb : QS.fromUtf8 b with
      | some t => exact absurd (utf8_fromUtf8 b t hb) (h t)
      | none => rfl

theorem bytes_iff (err : String) (x y : Option Bytes) : bytesJson err x = bytesJson err y ↔ SameShown err.toList x y := by
  cases x with
  | none =>
    cases y with
    | none => exact ⟨fun _ => .absent, fun _ => rfl⟩
    | some c => exact ⟨fun h => (by cases h), fun h => (by cases h)⟩
  | some b =>
    cases y with
    | none => exact ⟨fun h => (by cases h), fun h => (by cases h)⟩
    | some c =>
      constructor
      · intro h
        have h' := h
        simp only [bytesJson, Json.str.injEq] at h'
        exact .shown b c _ ((shown_iff err b _).1 rfl) ((shown_iff err c _).1 h'.symm)
      · intro h
        cases h with
        | shown _ _ s h1 h2 =>
          show Json.str _ = Json.str _
          rw [(shown_iff err b s).2 h1, (shown_iff err c s).2 h2]

theorem id_iff (i i' : Option Str) : i.getD [] = i'.getD [] ↔ SameId i i' := by
  constructor
  · intro h
    cases i with
    | none =>
      cases i' with
      | none => exact .same _
      | some x =>
        have : x = [] := h.symm
        rw [this]
        exact .noneEmpty
    | some x =>
      cases i' with
      | none =>
        have : x = [] := h
        rw [this]
        exact .emptyNone
      | some y =>
        have : x = y := h
        rw [this]
        exact .same _
  · intro h
    cases h <;> rfl

theorem kind_attr (m : Mis) : vget "type" m.toJson = some (.str m.kind.toList) := by
  cases m <;> (simp only [Mis.toJson, Mis.kind]; vget_simp)

theorem mis_iff (m n : Mis) : m.toJson = n.toJson ↔ SameMis m n := by
  constructor
  · intro h
    have hk : m.kind = n.kind := by
      have := congrArg (vget "type") h
      rw [kind_attr, kind_attr] at this
      injection this with this
      injection this with this
      exact String.toList_injective this
    have hv : ∀ k, vget k m.toJson = vget k n.toJson := fun k => congrArg (vget k) h
    cases m <;> cases n <;> first
      | (exfalso; revert hk; simp only [Mis.kind, String.reduceEq]; exact id)
      | skip
    case method.method e a m e' a' m' =>
      have h1 := hv "expected"; have h2 := hv "actual"; have h3 := hv "mismatch"
      simp only [Mis.toJson] at h1 h2 h3
      revert h1 h2 h3; vget_simp; intro h1 h2 h3
      cases h1; cases h2; cases h3; exact .method _ _ _
    case path.path e a m e' a' m' =>
      have h1 := hv "expected"; have h2 := hv "actual"; have h3 := hv "mismatch"
      simp only [Mis.toJson] at h1 h2 h3
      revert h1 h2 h3; vget_simp; intro h1 h2 h3
      cases h1; cases h2; cases h3; exact .path _ _ _
    case status.status e a m e' a' m' =>
      have h1 := hv "expected"; have h2 := hv "actual"; have h3 := hv "mismatch"
      simp only [Mis.toJson] at h1 h2 h3
      revert h1 h2 h3; vget_simp; intro h1 h2 h3
      cases h1; cases h2; cases h3; exact .status _ _ _
    case query.query p e a m p' e' a' m' =>
      have h1 := hv "expected"; have h2 := hv "actual"; have h3 := hv "mismatch"; have h4 := hv "parameter"
      simp only [Mis.toJson] at h1 h2 h3 h4
      revert h1 h2 h3 h4; vget_simp; intro h1 h2 h3 h4
      cases h1; cases h2; cases h3; cases h4; exact .query _ _ _ _
    case header.header p e a m p' e' a' m' =>
      have h1 := hv "expected"; have h2 := hv "actual"; have h3 := hv "mismatch"; have h4 := hv "key"
      simp only [Mis.toJson] at h1 h2 h3 h4
      revert h1 h2 h3 h4; vget_simp; intro h1 h2 h3 h4
      cases h1; cases h2; cases h3; cases h4; exact .header _ _ _ _
    case metadata.metadata p e a m p' e' a' m' =>
      have h1 := hv "expected"; have h2 := hv "actual"; have h3 := hv "mismatch"; have h4 := hv "key"
      simp only [Mis.toJson] at h1 h2 h3 h4
      revert h1 h2 h3 h4; vget_simp; intro h1 h2 h3 h4
      cases h1; cases h2; cases h3; cases h4; exact .metadata _ _ _ _
    case body.body p e a m p' e' a' m' =>
      have h1 := hv "expected"; have h2 := hv "actual"; have h3 := hv "mismatch"; have h4 := hv "path"
      simp only [Mis.toJson] at h1 h2 h3 h4
      revert h1 h2 h3 h4; vget_simp; intro h1 h2 h3 h4
      cases h3; cases h4
      injection h1 with h1
      injection h2 with h2
      exact .body _ _ _ _ _ _ ((bytes_iff _ _ _).1 h1) ((bytes_iff _ _ _).1 h2)
    case bodyType.bodyType e a m eb ab e' a' m' eb' ab' =>
      have h1 := hv "expected"; have h2 := hv "actual"; have h3 := hv "mismatch"
      have h4 := hv "expectedBody"; have h5 := hv "actualBody"
      simp only [Mis.toJson] at h1 h2 h3 h4 h5
      revert h1 h2 h3 h4 h5; vget_simp; intro h1 h2 h3 h4 h5
      cases h1; cases h2; cases h3
      injection h4 with h4
      injection h5 with h5
      exact .bodyType _ _ _ _ _ _ _ ((bytes_iff _ _ _).1 h4) ((bytes_iff _ _ _).1 h5)
  · intro h
    cases h with
    | bodyType e a m eb ab eb' ab' h1 h2 =>
      simp only [Mis.toJson]
      rw [(bytes_iff typeErr _ _).2 h1, (bytes_iff typeErr _ _).2 h2]
    | body p m e a e' a' h1 h2 =>
      simp only [Mis.toJson]
      rw [(bytes_iff bodyErr _ _).2 h1, (bytes_iff bodyErr _ _).2 h2]
    | _ => rfl

theorem failure_iff (x y : Failure) : x.toJson = y.toJson ↔ SameFailure x y := by
  constructor
  · intro h
    have hv : ∀ k, vget k x.toJson = vget k y.toJson := fun k => congrArg (vget k) h
    have ht := hv "type"
    cases x <;> cases y
    case mismatches.mismatches ms i ms' i' =>
      have h1 := hv "mismatches"; have h2 := hv "interactionId"
      simp only [Failure.toJson] at h1 h2
      revert h1 h2; vget_simp; intro h1 h2
      injection h1 with h1
      injection h1 with h1
      injection h2 with h2
      injection h2 with h2
      exact .mismatches _ _ _ _ ((each_map_eq SameMis Mis.toJson _ _ fun a _ b _ => mis_iff a b).1 h1) ((id_iff _ _).1 h2)
    case mismatches.error ms i m i' =>
      simp only [Failure.toJson] at ht
      revert ht; vget_simp; intro ht
      injection ht with ht
      injection ht with ht
      exact absurd ht (by decide)
    case error.mismatches ms i m i' =>
      simp only [Failure.toJson] at ht
      revert ht; vget_simp; intro ht
      injection ht with ht
      injection ht with ht
      exact absurd ht (by decide)
    case error.error m i m' i' =>
      have h1 := hv "message"; have h2 := hv "interactionId"
      simp only [Failure.toJson] at h1 h2
      revert h1 h2; vget_simp; intro h1 h2
      cases h1
      injection h2 with h2
      injection h2 with h2
      exact .error _ _ _ ((id_iff _ _).1 h2)
  · intro h
    cases h with
    | mismatches ms ms' i i' h1 h2 =>
      simp only [Failure.toJson]
      rw [(each_map_eq SameMis Mis.toJson _ _ fun a _ b _ => mis_iff a b).2 h1, (id_iff _ _).2 h2]
    | error m i i' h2 =>
      simp only [Failure.toJson]
      rw [(id_iff _ _).2 h2]

theorem named_iff (x y : Str × Failure) : failureJson x = failureJson y ↔ SameNamed x y := by
  constructor
  · intro h
    have h1 := congrArg (vget "interaction") h
    have h2 := congrArg (vget "mismatch") h
    simp only [failureJson] at h1 h2
    revert h1 h2; vget_simp; intro h1 h2
    injection h1 with h1
    injection h1 with h1
    injection h2 with h2
    exact ⟨h1, (failure_iff _ _).1 h2⟩
  · intro h
    unfold failureJson
    rw [h.1, (failure_iff _ _).2 h.2]

theorem notice_lookup (m : List (Str × Str)) (hm : IsMap m) (q : Str) :
    Json.lookup q (OMap.collect (m.map fun e => (e.1, Json.str e.2))) = (Json.lookup q m).map Json.str := by
  rw [RuleJsonProps.collect_mapVals]
  rw [OMap.lookup_mapVals (fun _ v => Json.str v), collect_same m hm q]

theorem notice_iff (m n : List (Str × Str)) (hm : IsMap m) (hn : IsMap n) : noticeJson m = noticeJson n ↔ SameMap m n := by
  constructor
  · intro h q
    injection h with h
    have := congrArg (Json.lookup q) h
    rw [notice_lookup m hm, notice_lookup n hn] at this
    cases hx : Json.lookup q m with
    | none =>
      rw [hx] at this
      cases hy : Json.lookup q n with
      | none => rfl
      | some y => rw [hy] at this; cases this
    | some x =>
      rw [hx] at this
      cases hy : Json.lookup q n with
      | none => rw [hy] at this; cases this
      | some y => rw [hy] at this; injection this with this; injection this with this; rw [this]
  · intro h
    unfold noticeJson
    congr 1
    exact Json.entries_ext (OMap.collect_sorted _) (OMap.collect_sorted _) fun q => by
      rw [notice_lookup m hm, notice_lookup n hn, h q]

/-! ## C174 -/

/-- C174: two results have the same report exactly if they have the same outcome, the same notices, the same output, and
the same failures in the same order — a missing interaction ID is reported as the empty one, and values that are not UTF-8
are all reported as the same text. -/
theorem C174_report (r s : Report) (hr : NoticesOk r) (hs : NoticesOk s) : r.toJson = s.toJson ↔ SameReport r s := by
  constructor
  · intro h
    have hv : ∀ k, vget k r.toJson = vget k s.toJson := fun k => congrArg (vget k) h
    have h1 := hv "result"; have h2 := hv "notices"; have h3 := hv "output"
    have h4 := hv "pendingErrors"; have h5 := hv "errors"
    simp only [Report.toJson] at h1 h2 h3 h4 h5
    revert h1 h2 h3 h4 h5; vget_simp; intro h1 h2 h3 h4 h5
    injection h1 with h1
    injection h1 with h1
    injection h2 with h2
    injection h2 with h2
    injection h3 with h3
    injection h3 with h3
    injection h4 with h4
    injection h4 with h4
    injection h5 with h5
    injection h5 with h5
    exact ⟨h1, (each_map_eq _ _ _ _ fun a ha b hb => notice_iff a b (hr a ha) (hs b hb)).1 h2,
      (List.map_inj_right fun a b hab => (by injection hab)).1 h3,
      (each_map_eq _ _ _ _ fun a _ b _ => named_iff a b).1 h4, (each_map_eq _ _ _ _ fun a _ b _ => named_iff a b).1 h5⟩
  · intro h
    unfold Report.toJson
    rw [h.result, h.output, (each_map_eq _ _ _ _ fun a ha b hb => notice_iff a b (hr a ha) (hs b hb)).2 h.notices,
      (each_map_eq _ _ _ _ fun a _ b _ => named_iff a b).2 h.pending, (each_map_eq _ _ _ _ fun a _ b _ => named_iff a b).2 h.errors]

/-- C174: where a reader finds the outcome and the failures: as many as there are, in order, with the name of the
interaction, the kind of failure, its ID, and the message of an error or the mismatches with their kinds. -/
theorem C174_attributes (r : Report) :
    vget "result" r.toJson = some (.bool r.result) ∧
    vget "output" r.toJson = some (.arr (r.output.map Json.str)) ∧
    (∃ es, vget "errors" r.toJson = some (.arr es) ∧ es.length = r.errors.length ∧
      ∀ (i : Nat) (x : Str × Failure), r.errors[i]? = some x → ∃ j f, es[i]? = some j ∧
        vget "interaction" j = some (.str x.1) ∧ vget "mismatch" j = some f ∧ f = x.2.toJson) ∧
    (∃ es, vget "pendingErrors" r.toJson = some (.arr es) ∧ es.length = r.pendingErrors.length ∧
      ∀ (i : Nat) (x : Str × Failure), r.pendingErrors[i]? = some x → ∃ j f, es[i]? = some j ∧
        vget "interaction" j = some (.str x.1) ∧ vget "mismatch" j = some f ∧ f = x.2.toJson) := by
  have hf : ∀ l : List (Str × Failure), (l.map failureJson).length = l.length ∧
      ∀ (i : Nat) (x : Str × Failure), l[i]? = some x → ∃ j f, (l.map failureJson)[i]? = some j ∧
        vget "interaction" j = some (.str x.1) ∧ vget "mismatch" j = some f ∧ f = x.2.toJson := fun l =>
    ⟨List.length_map _, fun i x hx => ⟨failureJson x, x.2.toJson, by rw [List.getElem?_map, hx]; rfl,
      by unfold failureJson; vget_simp, by unfold failureJson; vget_simp, rfl⟩⟩
  refine ⟨?_, ?_, ⟨r.errors.map failureJson, ?_, hf _⟩, ⟨r.pendingErrors.map failureJson, ?_, hf _⟩⟩ <;>
    (unfold Report.toJson; vget_simp)

/-- C174: the attributes of a failure. -/
theorem C174_failure (x : Failure) :
    (∀ ms i, x = .mismatches ms i → vget "type" x.toJson = some (.str "mismatches".toList) ∧
      vget "interactionId" x.toJson = some (.str (i.getD [])) ∧
      ∃ js, vget "mismatches" x.toJson = some (.arr js) ∧ js.length = ms.length ∧
        ∀ (n : Nat) (m : Mis), ms[n]? = some m → js[n]? = some m.toJson) ∧
    (∀ e i, x = .error e i → vget "type" x.toJson = some (.str "error".toList) ∧
      vget "interactionId" x.toJson = some (.str (i.getD [])) ∧ vget "message" x.toJson = some (.str e)) := by
  refine ⟨fun ms i h => ?_, fun e i h => ?_⟩
  · rw [h]
    refine ⟨by simp only [Failure.toJson]; vget_simp, by simp only [Failure.toJson]; vget_simp, ms.map Mis.toJson,
      by simp only [Failure.toJson]; vget_simp, List.length_map _, fun n m hm => by rw [List.getElem?_map, hm]; rfl⟩
  · rw [h]
    refine ⟨?_, ?_, ?_⟩ <;> (simp only [Failure.toJson]; vget_simp)

/-- How bytes are reported: null, their text, or a fixed text. -/
inductive BytesAre (err : Str) : Option Bytes → Option Json → Prop where
  | absent : BytesAre err none (some .null)
  | shown (b : Bytes) (s : Str) (h : Shown err b s) : BytesAre err (some b) (some (.str s))

theorem bytes_are (err : String) (x : Option Bytes) : BytesAre err.toList x (some (bytesJson err x)) := by
  cases x with
  | none => exact .absent
  | some b => exact .shown b _ ((shown_iff err b _).1 rfl)

/-- C174: the attributes of a mismatch. -/
theorem C174_mismatch (e a m p : Str) (n k : Nat) (x y : Option Bytes) :
    (∀ j, j = (Mis.method e a m).toJson → vget "type" j = some (.str "MethodMismatch".toList) ∧
      vget "expected" j = some (.str e) ∧ vget "actual" j = some (.str a) ∧ vget "mismatch" j = some (.str m)) ∧
    (∀ j, j = (Mis.path e a m).toJson → vget "type" j = some (.str "PathMismatch".toList) ∧
      vget "expected" j = some (.str e) ∧ vget "actual" j = some (.str a) ∧ vget "mismatch" j = some (.str m)) ∧
    (∀ j, j = (Mis.status n k m).toJson → vget "type" j = some (.str "StatusMismatch".toList) ∧
      vget "expected" j = some (.num (.pos n)) ∧ vget "actual" j = some (.num (.pos k)) ∧ vget "mismatch" j = some (.str m)) ∧
    (∀ j, j = (Mis.query p e a m).toJson → vget "type" j = some (.str "QueryMismatch".toList) ∧
      vget "parameter" j = some (.str p) ∧
      vget "expected" j = some (.str e) ∧ vget "actual" j = some (.str a) ∧ vget "mismatch" j = some (.str m)) ∧
    (∀ j, j = (Mis.header p e a m).toJson → vget "type" j = some (.str "HeaderMismatch".toList) ∧
      vget "key" j = some (.str p) ∧
      vget "expected" j = some (.str e) ∧ vget "actual" j = some (.str a) ∧ vget "mismatch" j = some (.str m)) ∧
    (∀ j, j = (Mis.metadata p e a m).toJson → vget "type" j = some (.str "MetadataMismatch".toList) ∧
      vget "key" j = some (.str p) ∧
      vget "expected" j = some (.str e) ∧ vget "actual" j = some (.str a) ∧ vget "mismatch" j = some (.str m)) ∧
    (∀ j, j = (Mis.body p x y m).toJson → vget "type" j = some (.str "BodyMismatch".toList) ∧
      vget "path" j = some (.str p) ∧ BytesAre "ERROR: could not convert from bytes".toList x (vget "expected" j) ∧
      BytesAre "ERROR: could not convert from bytes".toList y (vget "actual" j) ∧ vget "mismatch" j = some (.str m)) ∧
    (∀ j, j = (Mis.bodyType e a m x y).toJson → vget "type" j = some (.str "BodyTypeMismatch".toList) ∧
      vget "expected" j = some (.str e) ∧ vget "actual" j = some (.str a) ∧ vget "mismatch" j = some (.str m) ∧
      BytesAre "ERROR: could not convert to UTF-8 from bytes".toList x (vget "expectedBody" j) ∧
      BytesAre "ERROR: could not convert to UTF-8 from bytes".toList y (vget "actualBody" j)) := by
  refine ⟨fun j h => ?_, fun j h => ?_, fun j h => ?_, fun j h => ?_, fun j h => ?_, fun j h => ?_, fun j h => ?_, fun j h => ?_⟩ <;>
    rw [h]
  case refine_7 =>
    have h1 : vget "expected" (Mis.body p x y m).toJson = some (bytesJson bodyErr x) := by simp only [Mis.toJson]; vget_simp
    have h2 : vget "actual" (Mis.body p x y m).toJson = some (bytesJson bodyErr y) := by simp only [Mis.toJson]; vget_simp
    rw [h1, h2]
    exact ⟨kind_attr _, by simp only [Mis.toJson]; vget_simp, bytes_are bodyErr x, bytes_are bodyErr y,
      by simp only [Mis.toJson]; vget_simp⟩
  case refine_8 =>
    have h1 : vget "expectedBody" (Mis.bodyType e a m x y).toJson = some (bytesJson typeErr x) := by
      simp only [Mis.toJson]; vget_simp
    have h2 : vget "actualBody" (Mis.bodyType e a m x y).toJson = some (bytesJson typeErr y) := by
      simp only [Mis.toJson]; vget_simp
    rw [h1, h2]
    exact ⟨kind_attr _, by simp only [Mis.toJson]; vget_simp, by simp only [Mis.toJson]; vget_simp,
      by simp only [Mis.toJson]; vget_simp, bytes_are typeErr x, bytes_are typeErr y⟩
  all_goals simp only [Mis.toJson]; vget_simp; simp

/-- C174: the notices: one object for each, with its texts. -/
theorem C174_notices (r : Report) (hr : NoticesOk r) :
    ∃ ns, vget "notices" r.toJson = some (.arr ns) ∧ ns.length = r.notices.length ∧
      ∀ (i : Nat) (n : List (Str × Str)), r.notices[i]? = some n → ∃ o, ns[i]? = some (.obj o) ∧
        ∀ k, Json.lookup k o = (Json.lookup k n).map Json.str := by
  refine ⟨r.notices.map noticeJson, by unfold Report.toJson; vget_simp, List.length_map _, fun i n hn =>
    ⟨OMap.collect (n.map fun e => (e.1, Json.str e.2)), by rw [List.getElem?_map, hn]; rfl, fun k => ?_⟩⟩
  exact notice_lookup n (hr n (List.mem_of_getElem? hn)) k

/-- C174: a body that is not UTF-8 is reported as a body with the text of the error. -/
theorem C174_not_utf8 (p m : Str) (b : Bytes) (h : ∀ s, utf8 s ≠ b) (a : Option Bytes) :
    (Mis.body p (some b) a m).toJson =
      (Mis.body p (some (utf8 "ERROR: could not convert from bytes".toList)) a m).toJson := by
  rw [mis_iff]
  refine .body _ _ _ _ _ _ (.shown _ _ _ (.error b h) (.text _)) ((bytes_iff bodyErr _ _).1 rfl)

/-- C174: the same for the files the command line tool writes, for any JSON parser that reads back what was written. -/
theorem C174_file (parse : Bytes → Option Json) (r s : Report) (hr : NoticesOk r) (hs : NoticesOk s)
    (h1 : parse (utf8 r.toJson.text) = some r.toJson) (h2 : parse (utf8 s.toJson.text) = some s.toJson) :
    parse r.file = some r.toJson ∧ (r.file = s.file ↔ SameReport r s) := by
  refine ⟨h1, fun h => ?_, fun h => ?_⟩
  · have h' : utf8 r.toJson.text = utf8 s.toJson.text := h
    rw [h', h2] at h1
    injection h1 with h1
    exact (C174_report r s hr hs).1 h1.symm
  · unfold Report.file
    rw [(C174_report r s hr hs).2 h]

/-! ## C175 -/

/-- What a mismatch is about: its kind, the place, and the expected and the actual value. -/
inductive About : Mis → Mis → Prop where
  | method (e a m m' : Str) : About (.method e a m) (.method e a m')
  | path (e a m m' : Str) : About (.path e a m) (.path e a m')
  | status (e a : Nat) (m m' : Str) : About (.status e a m) (.status e a m')
  | query (p e a m m' : Str) : About (.query p e a m) (.query p e a m')
  | header (k e a m m' : Str) : About (.header k e a m) (.header k e a m')
  | bodyType (e a m m' : Str) (eb ab eb' ab' : Option Bytes) : About (.bodyType e a m eb ab) (.bodyType e a m' eb' ab')
  | body (p m m' : Str) (e a : Option Bytes) : About (.body p e a m) (.body p e a m')
  | metadata (k e a m m' : Str) : About (.metadata k e a m) (.metadata k e a m')

/-- C175: `==` on mismatches compares the kind, the place and the two values; neither the message nor the bodies of a
mismatch of content types. -/
theorem C175_eq (m n : Mis) : m.eqv n = true ↔ About m n := by
  constructor
  · intro h
    cases m <;> cases n <;> first
      | (exact absurd (show false = true from h) Bool.false_ne_true)
      | skip
    all_goals
      simp only [Mis.eqv, Bool.and_eq_true, decide_eq_true_eq] at h
    case method.method => rw [h.1, h.2]; exact .method _ _ _ _
    case path.path => rw [h.1, h.2]; exact .path _ _ _ _
    case status.status => rw [h.1, h.2]; exact .status _ _ _ _
    case bodyType.bodyType => rw [h.1, h.2]; exact .bodyType _ _ _ _ _ _ _ _
    case query.query => rw [h.1.1, h.1.2, h.2]; exact .query _ _ _ _ _
    case header.header => rw [h.1.1, h.1.2, h.2]; exact .header _ _ _ _ _
    case body.body => rw [h.1.1, h.1.2, h.2]; exact .body _ _ _ _ _
    case metadata.metadata => rw [h.1.1, h.1.2, h.2]; exact .metadata _ _ _ _ _
  · intro h
    cases h <;> simp [Mis.eqv]

/-- C175: `==` is an equivalence. -/
theorem C175_equivalence :
    (∀ m : Mis, m.eqv m = true) ∧ (∀ m n : Mis, m.eqv n = true → n.eqv m = true) ∧
    (∀ l m n : Mis, l.eqv m = true → m.eqv n = true → l.eqv n = true) := by
  refine ⟨fun m => by cases m <;> simp [Mis.eqv], fun m n h => ?_, fun l m n h1 h2 => ?_⟩
  · rw [C175_eq] at h ⊢
    cases h <;> constructor
  · rw [C175_eq] at h1 h2 ⊢
    cases h1 <;> cases h2 <;> constructor

/-- C175: mismatches with the same report are equal, unless values are shown as the text for bytes that are not UTF-8. -/
theorem C175_report (m n : Mis) (h : m.toJson = n.toJson)
    (hm : ∀ p e a t, m = .body p e a t → ∀ b, e = some b ∨ a = some b → ∃ s, utf8 s = b)
    (hn : ∀ p e a t, n = .body p e a t → ∀ b, e = some b ∨ a = some b → ∃ s, utf8 s = b) : m.eqv n = true := by
  rw [C175_eq]
  have key : ∀ err : Str, ∀ x y : Option Bytes, SameShown err x y → (∀ b, x = some b → ∃ s, utf8 s = b) →
      (∀ b, y = some b → ∃ s, utf8 s = b) → x = y := by
    intro err x y hxy hx hy
    cases hxy with
    | absent => rfl
    | shown b c s h1 h2 =>
      cases h1 with
      | text =>
        cases h2 with
        | text => rfl
        | error _ h2 => obtain ⟨s, hs⟩ := hy c rfl; exact absurd hs (h2 s)
      | error _ h1 => obtain ⟨s, hs⟩ := hx b rfl; exact absurd hs (h1 s)
  have hs := (mis_iff m n).1 h
  cases hs with
  | body p t e a e' a' h1 h2 =>
    have he := key _ _ _ h1 (fun b hb => hm _ _ _ _ rfl b (.inl hb)) (fun b hb => hn _ _ _ _ rfl b (.inl hb))
    have ha := key _ _ _ h2 (fun b hb => hm _ _ _ _ rfl b (.inr hb)) (fun b hb => hn _ _ _ _ rfl b (.inr hb))
    rw [he, ha]
    exact .body _ _ _ _ _
  | _ => constructor

/-- C175: a mismatch of a query parameter or a header is unchanged by the conversion to a common mismatch and back; one of
a body keeps its place, its message and values that are text, and a missing value becomes an empty one. -/
theorem C175_conversions (lossy : Bytes → Str) (hl : ∀ s, lossy (utf8 s) = s) :
    (∀ p e a m, ((Mis.query p e a m).common lossy).toQuery = .query p e a m) ∧
    (∀ k e a m, ((Mis.header k e a m).common lossy).toHeader = .header k e a m) ∧
    (∀ p e a m, ((Mis.body p (some (utf8 e)) (some (utf8 a)) m).common lossy).toBody
      = .body p (some (utf8 e)) (some (utf8 a)) m) ∧
    (∀ p a m, ((Mis.body p none (some (utf8 a)) m).common lossy).toBody = .body p (some []) (some (utf8 a)) m) ∧
    (∀ c : Report.Common, c.toBody.common lossy = c ∧ c.toQuery.common lossy = c ∧ c.toHeader.common lossy = c) := by
  refine ⟨fun _ _ _ _ => rfl, fun _ _ _ _ => rfl, fun p e a m => ?_, fun p a m => ?_, fun c => ⟨?_, rfl, rfl⟩⟩
  · show Mis.body p (some (utf8 (lossy (utf8 e)))) (some (utf8 (lossy (utf8 a)))) m = _
    rw [hl, hl]
  · show Mis.body p (some (utf8 (lossy (utf8 [])))) (some (utf8 (lossy (utf8 a)))) m = _
    rw [hl, hl]
    rfl
  · show Report.Common.mk c.path (lossy (utf8 c.expected)) (lossy (utf8 c.actual)) c.description = c
    rw [hl, hl]

/-- C175: the order does not agree with `==`: mismatches that are equal but have different messages are smaller and
greater, so sorting and removing what is equal by the order keeps both. -/
theorem C175_order :
    (∃ m n : Mis, m.eqv n = true ∧ compare m n = .lt ∧ compare n m = .gt) ∧
    (∃ m n : Mis, m.eqv n = true ∧ compare m n = .lt ∧ m.description = n.description) :=
  ⟨⟨.path ['a'] ['b'] ['m'], .path ['a'] ['b'] ['n'], by decide⟩,
    ⟨.bodyType ['a'] ['b'] ['m'] none none, .bodyType ['a'] ['b'] ['m'] none (some []), by decide⟩⟩

/-- C175: what `Display` shows of a mismatch: its message, except for a method without one and for content types, where the
two values are shown; a mismatch in a body starts with its place. -/
theorem C175_description (p e a m : Str) (n k : Nat) (x y : Option Bytes) :
    (Mis.method e a []).description = "expected ".toList ++ e ++ " but was ".toList ++ a ∧
    (m ≠ [] → (Mis.method e a m).description = m) ∧ (Mis.path e a m).description = m ∧ (Mis.status n k m).description = m ∧
    (Mis.query p e a m).description = m ∧ (Mis.header p e a m).description = m ∧ (Mis.metadata p e a m).description = m ∧
    (Mis.bodyType e a m x y).description =
      "Expected a body of '".toList ++ e ++ "' but the actual content type was '".toList ++ a ++ "'".toList ∧
    (Mis.body p x y m).description = p ++ " -> ".toList ++ m := by
  refine ⟨rfl, fun h => ?_, rfl, rfl, rfl, rfl, rfl, rfl, rfl⟩
  cases m with
  | nil => exact absurd rfl h
  | cons c cs => rfl

/-! ## Examples -/

/-- Two results that differ only in a missing ID have the same report. -/
def exReport (id : Option Str) (result : Bool) : Report :=
  ⟨result, [[("text".toList, "a".toList), ("when".toList, "after".toList)]], ["line".toList], [],
    [("an interaction".toList, .mismatches [.status 200 500 "expected 200".toList, .body "$.a".toList none (some [0x31]) "m".toList] id),
     ("another".toList, .error "boom".toList (some "7".toList))]⟩

theorem example_ok (id : Option Str) (b : Bool) : NoticesOk (exReport id b) := by
  intro n hn
  have : n = [("text".toList, "a".toList), ("when".toList, "after".toList)] := by
    simpa [exReport] using hn
  rw [this]
  decide

set_option maxRecDepth 100000 in
theorem example_same : (exReport none false).toJson = (exReport (some []) false).toJson := by rfl

theorem example_other : ¬ SameReport (exReport none false) (exReport none true) := fun h => by cases h.result

/-- Bytes that are not UTF-8. -/
theorem example_not_utf8 (s : Str) : utf8 s ≠ [0xff] := fun h => by
  have h1 := PactV3Props.fromUtf8_utf8 s
  rw [h] at h1
  have h2 : QS.fromUtf8 [0xff] = none := by decide +kernel
  rw [h2] at h1
  cases h1

theorem example_eqv : (Mis.body "$".toList none (some [0x31]) "m".toList).eqv
    (.body "$".toList none (some [0x31]) "other".toList) = true ∧
    (Mis.body "$".toList none (some [0x31]) "m".toList).eqv (.body "$".toList (some []) (some [0x31]) "m".toList) = false := by
  decide

end ReportProps
end Verif
