import Verif.Provider
import Verif.Props.QueryStringProps
import Verif.Props.EndToEndProps
import Verif.Props.MessageProps
import Verif.Props.PartProps

/-
  Properties C131 to C138: requests to the provider, its answers, messages and state changes.
-/

set_option autoImplicit false

namespace Verif
namespace ProviderProps
open RuleJson Rules Generate Query Headers PactFile Provider
open QueryProps (NodupKeys SameQuery)

/-! ### C131: the query -/

theorem formByte_table : ∀ n : Fin 256,
    (formByte (UInt8.ofNat n.1) = ['+'] ∧ n.1 = 32) ∨
    (formByte (UInt8.ofNat n.1) = [Char.ofNat n.1] ∧ Char.ofNat n.1 ≠ '%' ∧ Char.ofNat n.1 ≠ '+' ∧
      Char.ofNat n.1 ≠ '&' ∧ Char.ofNat n.1 ≠ '=' ∧ QS.asU8 (Char.ofNat n.1) = UInt8.ofNat n.1) ∨
    (formByte (UInt8.ofNat n.1) = ['%', formByte.digitUp (n.1 / 16), formByte.digitUp (n.1 % 16)] ∧
      QS.fromHex2 (formByte.digitUp (n.1 / 16)) (formByte.digitUp (n.1 % 16)) = some (UInt8.ofNat n.1) ∧
      formByte.digitUp (n.1 / 16) ≠ '&' ∧ formByte.digitUp (n.1 / 16) ≠ '=' ∧
      formByte.digitUp (n.1 % 16) ≠ '&' ∧ formByte.digitUp (n.1 % 16) ≠ '=') := by
  decide +kernel

theorem formByte_decode (b : UInt8) (r : Str) :
    QS.decodeBytes (formByte b ++ r) = b :: QS.decodeBytes r ∧ '&' ∉ formByte b ∧ '=' ∉ formByte b := by
  have h := formByte_table ⟨b.toNat, b.toNat_lt⟩
  simp only [UInt8.ofNat_toNat] at h
  rcases h with ⟨h, hn⟩ | ⟨h, h1, h2, h3, h4, h5⟩ | ⟨h, h1, h2, h3, h4, h5⟩
  · rw [h]
    have hb : b = QS.asU8 ' ' := by
      rw [← UInt8.ofNat_toNat (x := b), hn]; rfl
    refine ⟨?_, by decide, by decide⟩
    rw [List.singleton_append, QueryStringProps.decode_plus, hb]
  · rw [h]
    refine ⟨?_, by simp [Ne.symm h3], by simp [Ne.symm h4]⟩
    rw [List.singleton_append, QueryStringProps.decode_plain h1 h2, h5]
  · rw [h]
    refine ⟨?_, by simp [Ne.symm h2, Ne.symm h4], by simp [Ne.symm h3, Ne.symm h5]⟩
    rw [List.cons_append, List.cons_append, List.singleton_append, QueryStringProps.decode_pct _ _ _ h1]

theorem formBytes_decode : ∀ (bs : List UInt8) (r : Str),
    QS.decodeBytes (bs.flatMap formByte ++ r) = bs ++ QS.decodeBytes r ∧ '&' ∉ bs.flatMap formByte ∧ '=' ∉ bs.flatMap formByte
  | [], r => by simp
  | b :: bs, r => by
    obtain ⟨h1, h2, h3⟩ := formByte_decode b (bs.flatMap formByte ++ r)
    obtain ⟨g1, g2, g3⟩ := formBytes_decode bs r
    rw [List.flatMap_cons, List.append_assoc, h1, g1]
    simp only [List.mem_append, not_or, List.cons_append, true_and]
    exact ⟨⟨h2, g2⟩, h3, g3⟩

theorem formText_decode (s : Str) : QS.decodeOr (formText s) = s ∧ '&' ∉ formText s ∧ '=' ∉ formText s := by
  obtain ⟨h1, h2, h3⟩ := formBytes_decode (utf8 s) []
  refine ⟨?_, h2, h3⟩
  have : QS.decodeQuery (formText s) = some s := by
    unfold QS.decodeQuery
    rw [QueryStringProps.fromUtf8_iff]
    rw [List.append_nil] at h1
    exact (h1.trans (List.append_nil _)).symm
  simp [QS.decodeOr, this]

theorem parseStep_pair (m : QueryMap) (p : Str × Str) :
    QS.parseStep m (formText p.1 ++ '=' :: formText p.2) = QS.pushValue p.1 (some p.2) m := by
  unfold QS.parseStep
  rw [if_neg (by simp), QueryStringProps.splitOnce_append _ _ _ (formText_decode p.1).2.2]
  simp only [(formText_decode p.1).1, (formText_decode p.2).1]

theorem joinWith_ne (sep : Str) (x : Str) (xs : List Str) (h : x ≠ []) : QS.joinWith sep (x :: xs) ≠ [] := by
  cases xs with
  | nil => simpa [QS.joinWith] using h
  | cons y ys => simp [QS.joinWith, h]

theorem parse_pairs (ps : List (Str × Str)) (h : ps ≠ []) :
    QS.parseQueryString (queryText ps)
      = some ((ps.map fun p => (p.1, some p.2)).foldl (fun m p => QS.pushValue p.1 p.2 m) []) := by
  have hs : splitOn '&' (queryText ps) = ps.map fun p => formText p.1 ++ '=' :: formText p.2 := by
    exact QueryStringProps.splitOn_join '&' _ (by simpa using h) (by
      intro s hs
      obtain ⟨p, _, rfl⟩ := List.mem_map.1 hs
      simp [(formText_decode p.1).2.1, (formText_decode p.2).2.1])
  have hne : queryText ps ≠ [] := by
    cases ps with
    | nil => exact absurd rfl h
    | cons p ps => exact joinWith_ne _ _ _ (by simp)
  unfold QS.parseQueryString
  rw [if_neg (by simpa using hne), hs]
  congr 1
  generalize ([] : QueryMap) = m
  clear h hs hne
  induction ps generalizing m with
  | nil => rfl
  | cons p ps ih =>
    simp only [List.map_cons, List.foldl_cons, parseStep_pair]
    exact ih _

/-- Specification: the values of a parameter that are sent: those that are there. -/
def sentValues (q : QueryMap) (k : Str) : List Str := ((Json.lookup k q).getD []).filterMap id

theorem pairs_filter (m : QueryMap) (hn : NodupKeys m) (k : Str) :
    ((m.flatMap fun e => e.2.filterMap fun v => v.map fun v => (e.1, v)).filter fun p => decide (p.1 = k)).map (·.2)
      = sentValues m k := by
  unfold sentValues
  induction m with
  | nil => rfl
  | cons e es ih =>
    obtain ⟨n, vs⟩ := e
    rw [NodupKeys, List.map_cons, List.nodup_cons] at hn
    have hv : ((vs.filterMap fun v => v.map fun v => (n, v)).filter fun p => decide (p.1 = k)).map (·.2)
        = if n = k then vs.filterMap id else [] := by
      clear ih hn
      induction vs with
      | nil => simp
      | cons v vs ihv =>
        cases v with
        | none => simpa using ihv
        | some v => by_cases h : n = k <;> simpa [h] using ihv
    simp only [List.flatMap_cons, List.filter_append, List.map_append, ih hn.2, hv, Json.lookup]
    by_cases h : n = k
    · subst h
      have h1 : Json.lookup n es = none := by
        cases hl : Json.lookup n es with
        | none => rfl
        | some v => exact absurd (List.mem_map.2 ⟨_, Json.lookup_mem hl, rfl⟩) hn.1
      simp [h1]
    · simp [h]

theorem sentValues_collect (q : QueryMap) (hn : NodupKeys q) (k : Str) : sentValues (OMap.collect q) k = sentValues q k := by
  rw [sentValues, sentValues, OMap.lookup_collect q hn]

/-- The values of a parameter as a list of what was received, `none` for a parameter that was not. -/
def someOf (vs : List Str) : Option (List (Option Str)) := if vs = [] then none else some (vs.map some)

/-- **C131** (query): the query of a request, taken apart by the query parser of this library, has for every parameter
exactly the values given in the request, in their order; parameters without a value are not sent. -/
theorem C131_query (q : QueryMap) (hn : NodupKeys q) (k : Str) :
    Json.lookup k ((QS.parseQueryString (queryText (queryPairs q))).getD []) = someOf (sentValues q k) := by
  have hf := pairs_filter (OMap.collect q) (OMap.collect_sorted q).nodup k
  rw [sentValues_collect q hn] at hf
  change ((queryPairs q).filter fun p => decide (p.1 = k)).map (·.2) = _ at hf
  by_cases h : queryPairs q = []
  · rw [h] at hf ⊢
    rw [← hf]
    rfl
  · rw [parse_pairs _ h, Option.getD_some, QueryStringProps.foldl_push, ← hf, someOf]
    have hm : ((queryPairs q).map fun p => (p.1, some p.2)).filter (fun p => decide (p.1 = k))
        = ((queryPairs q).filter fun p => decide (p.1 = k)).map fun p => (p.1, some p.2) := by
      rw [List.filter_map]; rfl
    rw [hm]
    cases (queryPairs q).filter fun p => decide (p.1 = k) with
    | nil => rfl
    | cons p ps => simp [QueryStringProps.valuesOf, Json.lookup]

/-- **C131** (query): the provider gets the query of the request exactly if every parameter has values and every value is
there. -/
theorem C131_query_same (q : QueryMap) (hn : NodupKeys q) :
    SameQuery (some q) (QS.parseQueryString (queryText (queryPairs q))) ↔ ∀ e ∈ q, e.2 ≠ [] ∧ none ∉ e.2 := by
  have hlen : ∀ vs : List (Option Str), none ∉ vs ∨ (vs.filterMap id).length < vs.length := by
    intro vs
    induction vs with
    | nil => simp
    | cons v vs ih =>
      cases v with
      | none =>
        right
        have := List.length_filterMap_le id vs
        simp only [List.filterMap_cons, id, List.length_cons]
        omega
      | some v =>
        rcases ih with h | h
        · left; simpa using h
        · right; simpa using h
  have hall : ∀ vs : List (Option Str), none ∉ vs → (vs.filterMap id).map some = vs := by
    intro vs h
    induction vs with
    | nil => rfl
    | cons v vs ih =>
      cases v with
      | none => simp at h
      | some v => simpa using ih (by simpa using h)
  unfold SameQuery QueryProps.valuesOf
  constructor
  · intro h e he
    have hk := h e.1
    have hl : Json.lookup e.1 q = some e.2 := Json.lookup_of_mem hn he
    rw [C131_query q hn, sentValues] at hk
    simp only [Option.getD_some, hl, Option.map_some] at hk
    unfold someOf at hk
    split at hk
    · simp at hk
    · rename_i hv
      simp only [Option.map_some, Option.some.injEq] at hk
      have hlen' := congrArg List.length hk
      simp only [List.length_map] at hlen'
      refine ⟨by rintro h0; rw [h0] at hv; exact hv rfl, ?_⟩
      rcases hlen e.2 with h1 | h1
      · exact h1
      · omega
  · intro h k
    rw [C131_query q hn, sentValues]
    cases hl : Json.lookup k q with
    | none => simp [hl, someOf]
    | some vs =>
      obtain ⟨h1, h2⟩ := h _ (Json.lookup_mem hl)
      have hm := hall vs h2
      have hne : vs.filterMap id ≠ [] := by
        intro h0; rw [h0] at hm; exact h1 hm.symm
      simp only [Option.getD_some, hl, someOf, hne, if_false, Option.map_some, hm]

/-- **C131** fails for parameters without a value: `?a` is not sent. -/
theorem C131_query_valueless_fails : queryText (queryPairs [("a".toList, [none])]) = [] := by decide

/-! ### C131: the URL -/

theorem trimEnd_app (b : Str) (m : Nat) (h : b.getLast? ≠ some '/') : trimEnd (b ++ List.replicate m '/') = b := by
  unfold trimEnd
  rw [List.reverse_append, List.reverse_replicate]
  have hd : ∀ (m : Nat) (r : Str), r.head? ≠ some '/' →
      (List.replicate m '/' ++ r).dropWhile (fun c => decide (c = '/')) = r := by
    intro m r hr
    induction m with
    | zero =>
      cases r with
      | nil => rfl
      | cons c cs =>
        have : c ≠ '/' := by simpa using hr
        simp [this]
    | succ m ih => simpa [List.replicate_succ] using ih
  rw [hd m b.reverse (by rw [List.head?_reverse]; exact h), List.reverse_reverse]

theorem trimStart_app (p : Str) (n : Nat) (h : p.head? ≠ some '/') : trimStart (List.replicate n '/' ++ p) = p := by
  unfold trimStart
  induction n with
  | zero =>
    cases p with
    | nil => rfl
    | cons c cs =>
      have : c ≠ '/' := by simpa using h
      simp [this]
  | succ n ih => simpa [List.replicate_succ] using ih

/-- **C131** (URL): the base URL and the path are joined by exactly one slash, whatever slashes there are between them. -/
theorem C131_url (base path : Str) (m n : Nat) (hb : base.getLast? ≠ some '/') (hp : path.head? ≠ some '/') (hne : path ≠ []) :
    joinPaths (base ++ List.replicate m '/') (List.replicate n '/' ++ path) = base ++ '/' :: path := by
  unfold joinPaths
  have h1 : List.replicate n '/' ++ path ≠ [] := by simp [hne]
  have h2 : List.replicate n '/' ++ path ≠ ['/'] := by
    cases n with
    | zero =>
      intro h
      rw [List.replicate_zero, List.nil_append] at h
      rw [h] at hp
      exact hp rfl
    | succ n =>
      intro h
      have := congrArg List.length h
      have := List.length_pos_iff.2 hne
      simp at *
      omega
  rw [if_pos ⟨h1, h2⟩, trimEnd_app base m hb, trimStart_app path n hp]

/-- **C131** (URL): for the path `/` the request goes to the base URL itself. -/
theorem C131_url_root (base : Str) (m : Nat) (hb : base.getLast? ≠ some '/') (hne : base ≠ []) (path : Str)
    (hp : path = [] ∨ path = ['/']) : joinPaths (base ++ List.replicate m '/') path = base := by
  unfold joinPaths
  have h2 : base ++ List.replicate m '/' ≠ ['/'] := by
    cases m with
    | zero =>
      intro h
      rw [List.replicate_zero, List.append_nil] at h
      rw [h] at hb
      exact hb rfl
    | succ n =>
      intro h
      have := congrArg List.length h
      have := List.length_pos_iff.2 hne
      simp at *
      omega
  rw [if_neg (by rcases hp with rfl | rfl <;> simp), if_pos ⟨by simp [hne], h2⟩, trimEnd_app base m hb]

example : joinPaths "http://localhost:8080/".toList "/a/b".toList = "http://localhost:8080/a/b".toList := by decide

/-! ### C131: the headers -/

/-- Specification: the values given for a header name as HTTP knows it, leaving out headers named like a custom one. -/
def given (L : Lib) (custom : List (Str × Str)) (hs : HeaderMap) (n : Str) : List Str :=
  hs.flatMap fun e => if e.1 ∈ custom.map (·.1) then [] else if L.name e.1 = some n then e.2 else []

/-- Specification: every header that is sent has a name and values that HTTP allows. -/
def Sendable (L : Lib) (custom : List (Str × Str)) (hs : HeaderMap) : Prop :=
  ∀ e ∈ hs, e.1 ∉ custom.map (·.1) → ∀ v ∈ e.2, (L.name e.1).isSome = true ∧ L.value v = true

/-- The values of a header in a map. -/
def at_ (m : HeaderMap) (n : Str) : List Str := (Json.lookup n m).getD []

/-- No header without values, no name twice. -/
def Tidy (m : HeaderMap) : Prop := NodupKeys m ∧ ∀ e ∈ m, e.2 ≠ []

theorem appendValue_at (n v : Str) (m : HeaderMap) (k : Str) :
    Json.lookup k (appendValue n v m) = if n = k then some (at_ m k ++ [v]) else Json.lookup k m := by
  unfold at_
  induction m with
  | nil => simp [appendValue, Json.lookup]
  | cons e es ih =>
    obtain ⟨a, vs⟩ := e
    simp only [appendValue]
    split
    · rename_i h
      subst h
      simp only [Json.lookup]
      by_cases hq : a = k <;> simp [hq]
    · rename_i h
      simp only [Json.lookup, ih]
      by_cases hq : a = k
      · subst hq; simp [Ne.symm h]
      · simp [hq]

theorem appendValue_names (n v : Str) (m : HeaderMap) (x : Str) :
    x ∈ (appendValue n v m).map (·.1) ↔ x = n ∨ x ∈ m.map (·.1) := by
  induction m with
  | nil => simp [appendValue]
  | cons e es ih =>
    simp only [appendValue]
    split
    · rename_i h
      simp only [List.map_cons, List.mem_cons, h]
      constructor
      · rintro (h | h)
        · exact .inl h
        · exact .inr (.inr h)
      · rintro (h | h | h)
        · exact .inl h
        · exact .inl h
        · exact .inr h
    · simp only [List.map_cons, List.mem_cons, ih]
      constructor
      · rintro (h | h | h)
        · exact .inr (.inl h)
        · exact .inl h
        · exact .inr (.inr h)
      · rintro (h | h | h)
        · exact .inr (.inl h)
        · exact .inl h
        · exact .inr (.inr h)

theorem appendValue_tidy (n v : Str) (m : HeaderMap) (h : Tidy m) : Tidy (appendValue n v m) := by
  induction m with
  | nil => simp [appendValue, Tidy, NodupKeys]
  | cons e es ih =>
    obtain ⟨h1, h2⟩ := h
    rw [NodupKeys, List.map_cons, List.nodup_cons] at h1
    have hi := ih ⟨h1.2, fun e he => h2 e (List.mem_cons_of_mem _ he)⟩
    simp only [appendValue]
    split
    · refine ⟨by rw [NodupKeys, List.map_cons, List.nodup_cons]; exact h1, ?_⟩
      intro x hx
      rcases List.mem_cons.1 hx with rfl | hx
      · simp
      · exact h2 x (List.mem_cons_of_mem _ hx)
    · rename_i hne
      refine ⟨?_, ?_⟩
      · rw [NodupKeys, List.map_cons, List.nodup_cons]
        refine ⟨?_, hi.1⟩
        rw [appendValue_names]
        rintro (h | h)
        · exact hne h
        · exact h1.1 h
      · intro x hx
        rcases List.mem_cons.1 hx with rfl | hx
        · exact h2 _ (List.mem_cons_self ..)
        · exact hi.2 x hx

theorem sendValues_iff (L : Lib) (k : Str) : ∀ (vs : List Str) (m : HeaderMap), Tidy m →
    ((∀ v ∈ vs, (L.name k).isSome = true ∧ L.value v = true) ∧ ∃ m', sendValues L k vs m = .ok m' ∧ Tidy m' ∧
      ∀ n, at_ m' n = at_ m n ++ if L.name k = some n then vs else [])
    ∨ (¬ (∀ v ∈ vs, (L.name k).isSome = true ∧ L.value v = true) ∧ sendValues L k vs m = .err)
  | [], m, h => .inl ⟨by simp, m, rfl, h, by simp⟩
  | v :: vs, m, h => by
    cases hn : L.name k with
    | none => exact .inr ⟨fun h => by simpa [hn] using (h v (List.mem_cons_self ..)).1, by simp [sendValues, hn]⟩
    | some n =>
      cases hv : L.value v with
      | false => exact .inr ⟨by simp [hv], by simp [sendValues, hn, hv]⟩
      | true =>
        rcases sendValues_iff L k vs (appendValue n v m) (appendValue_tidy n v m h) with ⟨h1, m', h2, h3, h4⟩ | ⟨h1, h2⟩
        · rw [hn] at h1 h4
          refine .inl ⟨by simpa [hv] using h1, m', by simp [sendValues, hn, hv, h2], h3, ?_⟩
          intro x
          rw [h4 x]
          have : at_ (appendValue n v m) x = at_ m x ++ if n = x then [v] else [] := by
            rw [at_, appendValue_at]
            by_cases hx : n = x <;> simp [hx, at_]
          rw [this]
          by_cases hx : n = x <;> simp [hx]
        · rw [hn] at h1
          exact .inr ⟨by simpa [hv] using h1, by simp [sendValues, hn, hv, h2]⟩

theorem sendHeaders_iff (L : Lib) (custom : List (Str × Str)) : ∀ (hs m : HeaderMap), Tidy m →
    (Sendable L custom hs ∧ ∃ m', sendHeaders L custom hs m = .ok m' ∧ Tidy m' ∧
      ∀ n, at_ m' n = at_ m n ++ given L custom hs n)
    ∨ (¬ Sendable L custom hs ∧ sendHeaders L custom hs m = .err)
  | [], m, h => .inl ⟨by simp [Sendable], m, rfl, h, by simp [given]⟩
  | e :: es, m, h => by
    have hcons : Sendable L custom (e :: es) ↔
        (e.1 ∉ custom.map (·.1) → ∀ v ∈ e.2, (L.name e.1).isSome = true ∧ L.value v = true) ∧ Sendable L custom es := by
      simp [Sendable]
    by_cases hc : e.1 ∈ custom.map (·.1)
    · have hcb : (custom.map (·.1)).contains e.1 = true := by simpa using hc
      rcases sendHeaders_iff L custom es m h with ⟨h1, m', h2, h3, h4⟩ | ⟨h1, h2⟩
      · refine .inl ⟨hcons.2 ⟨fun h => absurd hc h, h1⟩, m', by rw [sendHeaders, if_pos hcb, h2], h3, ?_⟩
        intro n
        rw [h4 n, given, given, List.flatMap_cons, if_pos hc, List.nil_append]
      · exact .inr ⟨fun h => h1 (hcons.1 h).2, by rw [sendHeaders, if_pos hcb, h2]⟩
    · have hcb : ¬ (custom.map (·.1)).contains e.1 = true := by simpa using hc
      rcases sendValues_iff L e.1 e.2 m h with ⟨g1, m1, g2, g3, g4⟩ | ⟨g1, g2⟩
      · rcases sendHeaders_iff L custom es m1 g3 with ⟨h1, m', h2, h3, h4⟩ | ⟨h1, h2⟩
        · refine .inl ⟨hcons.2 ⟨fun _ => g1, h1⟩, m', by rw [sendHeaders, if_neg hcb, g2, Res.bind_ok, h2], h3, ?_⟩
          intro n
          rw [h4 n, g4 n, given, given, List.flatMap_cons, if_neg hc, List.append_assoc]
        · exact .inr ⟨fun h => h1 (hcons.1 h).2, by rw [sendHeaders, if_neg hcb, g2, Res.bind_ok, h2]⟩
      · exact .inr ⟨fun h => g1 ((hcons.1 h).1 hc), by rw [sendHeaders, if_neg hcb, g2]; rfl⟩

theorem tidy_lookup {m : HeaderMap} (h : Tidy m) (n : Str) : Json.lookup n m = if at_ m n = [] then none else some (at_ m n) := by
  unfold at_
  cases hl : Json.lookup n m with
  | none => simp
  | some v =>
    have := h.2 _ (Json.lookup_mem hl)
    simp [this]

/-- Specification: the last value in a list of custom headers. -/
def lastCustom (ds : List (Str × Str)) (n : Str) : Option Str := Json.lookup n ds.reverse

theorem defaults_at (ds : List (Str × Str)) (n : Str) : Json.lookup n (defaults ds) = lastCustom ds n := by
  have key : ∀ (ds m : List (Str × Str)), Json.lookup n (ds.foldl (fun m h => insertKV h.1 h.2 m) m)
      = Json.lookup n (ds.reverse ++ m) := by
    intro ds
    induction ds with
    | nil => intro m; rfl
    | cons d ds ih =>
      intro m
      rw [List.foldl_cons, ih, List.reverse_cons, List.append_assoc]
      have happ : ∀ (a b c : List (Str × Str)), Json.lookup n b = Json.lookup n c → Json.lookup n (a ++ b) = Json.lookup n (a ++ c) := by
        intro a b c h
        induction a with
        | nil => exact h
        | cons x a ih => simp only [List.cons_append, Json.lookup, ih]
      apply happ
      rw [HeaderProps.lookup_insertKV]
      simp only [List.singleton_append, Json.lookup, eq_comm]
  rw [defaults, key, List.append_nil]
  rfl

theorem defaults_nodup (ds : List (Str × Str)) : NodupKeys (defaults ds) := by
  have key : ∀ (ds m : List (Str × Str)), NodupKeys m → NodupKeys (ds.foldl (fun m h => insertKV h.1 h.2 m) m) := by
    intro ds
    induction ds with
    | nil => intro m h; exact h
    | cons d ds ih => intro m h; exact ih _ (HeaderProps.insertKV_nodup _ _ _ h).1
  exact key ds [] (by simp [NodupKeys])

theorem lookup_append {T : Type} (k : Str) (a b : List (Str × T)) :
    Json.lookup k (a ++ b) = (Json.lookup k a).or (Json.lookup k b) := by
  induction a with
  | nil => rfl
  | cons x a ih =>
    simp only [List.cons_append, Json.lookup, ih]
    by_cases h : x.1 = k <;> simp [h]

theorem withDefaults_at (ds : List (Str × Str)) (w : Wire) (n : Str) :
    Json.lookup n (withDefaults (defaults ds) w).headers =
      (Json.lookup n w.headers).or ((lastCustom ds n).map fun v => [v]) := by
  rw [withDefaults, lookup_append, ← defaults_at]
  cases hl : Json.lookup n w.headers with
  | some v => rfl
  | none =>
    rw [Option.none_or, Option.none_or]
    have hn := QueryProps.lookup_none_iff.1 hl
    generalize defaults ds = l
    induction l with
    | nil => rfl
    | cons d l ih =>
      rw [List.filter_cons]
      by_cases hd : d.1 = n
      · have : (!(w.headers.map (·.1)).contains d.1) = true := by rw [hd]; simpa using hn
        rw [if_pos this]
        simp [Json.lookup, hd]
      · split
        · simp only [List.map_cons, Json.lookup, hd, if_false, ih]
        · simp only [Json.lookup, hd, if_false, ih]

/-- Specification: the values of a header as they arrive: those given, or else the last custom header. -/
def arriving (L : Lib) (custom ds : List (Str × Str)) (hs : HeaderMap) (n : Str) : Option (List Str) :=
  if given L custom hs n = [] then (lastCustom ds n).map fun v => [v] else some (given L custom hs n)

/-- Specification: the request cannot be put together because the content type of a `null` body is asked for and the
header for it has no values. -/
def NoType (E : FileEnv) (r : HttpRequest) : Prop := r.body = .null ∧ headerContentType E r.headers = .panic

theorem sendBody_cases (E : FileEnv) (r : HttpRequest) :
    (NoType E r ∧ sendBody E r = .panic) ∨ (¬ NoType E r ∧ ∃ b, sendBody E r = .ok b ∧
      match r.body with
      | .present x _ _ => b = some x
      | .null => ∃ ct, headerContentType E r.headers = .ok ct ∧ b = if (ct.getD .unknown).isJson then some (utf8 "null".toList) else none
      | _ => b = none) := by
  unfold NoType sendBody
  cases hb : r.body with
  | missing => right; simp
  | empty => right; simp
  | present x c h => right; simp
  | null =>
    simp only [calcContentType, Option.or_none, true_and]
    cases hc : headerContentType E r.headers with
    | panic => left; simp
    | err =>
      exfalso
      revert hc
      unfold headerContentType
      repeat' split
      all_goals simp
    | ok ct => right; simp

/-- **C131**: a request that can be sent is sent with its method (`GET` if it is not one), to the URL of its path, with
its query, with the headers it gives (by name as HTTP knows it) or else the custom ones, and with the bytes of its body;
for a body that is `null` these are the text `null` if the content type is JSON. -/
theorem C131_sent (E : FileEnv) (L : Lib) (base : Str) (r : HttpRequest) (custom ds : List (Str × Str)) (w : Wire)
    (h : createRequest E L base r custom = .ok w) :
    (withDefaults (defaults ds) w).method = (if L.method r.method then r.method else "GET".toList) ∧
    (withDefaults (defaults ds) w).url = joinPaths base r.path ∧
    (withDefaults (defaults ds) w).query = queryText (queryPairs (r.query.getD [])) ∧
    (∀ n, Json.lookup n (withDefaults (defaults ds) w).headers = arriving L custom ds (r.headers.getD []) n) ∧
    match r.body with
    | .present x _ _ => (withDefaults (defaults ds) w).body = some x
    | .null => ∃ ct, headerContentType E r.headers = .ok ct ∧
        (withDefaults (defaults ds) w).body = if (ct.getD .unknown).isJson then some (utf8 "null".toList) else none
    | _ => (withDefaults (defaults ds) w).body = none := by
  unfold createRequest at h
  rcases sendHeaders_iff L custom (r.headers.getD []) [] ⟨by simp [NodupKeys], by simp⟩ with ⟨_, m, h1, h2, h3⟩ | ⟨_, h1⟩
  · rw [h1, Res.bind_ok] at h
    rcases sendBody_cases E r with ⟨_, h4⟩ | ⟨_, b, h4, h5⟩
    · rw [h4] at h; simp at h
    · rw [h4, Res.map_ok] at h
      simp only [Res.ok.injEq] at h
      subst h
      refine ⟨rfl, rfl, rfl, ?_, h5⟩
      intro n
      rw [withDefaults_at, tidy_lookup h2, arriving]
      have := h3 n
      rw [show at_ [] n = [] from rfl, List.nil_append] at this
      rw [this]
      split <;> simp
  · rw [h1] at h; simp [Res.bind] at h

/-- **C131**: a request is refused exactly if a header that is to be sent has a name or value that HTTP does not allow. -/
theorem C131_refused (E : FileEnv) (L : Lib) (base : Str) (r : HttpRequest) (custom : List (Str × Str)) :
    (createRequest E L base r custom = .err ↔ ¬ Sendable L custom (r.headers.getD [])) ∧
    (createRequest E L base r custom = .panic ↔ Sendable L custom (r.headers.getD []) ∧ NoType E r) := by
  unfold createRequest
  rcases sendHeaders_iff L custom (r.headers.getD []) [] ⟨by simp [NodupKeys], by simp⟩ with ⟨g, m, h1, h2, h3⟩ | ⟨g, h1⟩
  · rw [h1, Res.bind_ok]
    rcases sendBody_cases E r with ⟨g', h4⟩ | ⟨g', b, h4, h5⟩
    · rw [h4]; simp [g, g']
    · rw [h4]; simp [g, g']
  · rw [h1]
    simp [Res.bind, g]

/-! ### C131: replaying a request -/

/-- A request of a pact as it is compared. -/
def asRequest (r : HttpRequest) : MatchResult.Request := ⟨r.method, r.path, r.query, ⟨r.headers, asBody r.body⟩, r.rules⟩

/-- The request the provider sees: what came over the wire, with the path that follows the base URL. -/
def seen (path : Str) (w : Wire) : MatchResult.Request :=
  ⟨w.method, path, QS.parseQueryString w.query,
    ⟨some w.headers, match w.body with | some b => .present b none | none => .missing⟩, []⟩

theorem given_mem {L : Lib} {hs : HeaderMap} {n : Str} (h : given L [] hs n ≠ []) :
    ∃ e ∈ hs, L.name e.1 = some n := by
  apply Classical.byContradiction
  intro hc
  apply h
  rw [given, List.flatMap_eq_nil_iff]
  intro e he
  rw [if_neg (by simp), if_neg (fun hn => hc ⟨e, he, hn⟩)]

theorem given_of_mem (uc : UC) (L : Lib) (hL : ∀ k n, L.name k = some n → uc.lower n = uc.lower k) :
    ∀ (hs : HeaderMap) (hc : HeaderProps.CaseNodup uc hs) (k n : Str) (v : List Str) (hm : (k, v) ∈ hs) (hn : L.name k = some n),
      given L [] hs n = v
  | [], _, _, _, _, hm, _ => by simp at hm
  | e :: es, hc, k, n, v, hm, hn => by
    rw [HeaderProps.CaseNodup, List.map_cons, List.nodup_cons] at hc
    have hnone : ∀ e' ∈ es, uc.lower e'.1 ≠ uc.lower e.1 := by
      intro e' he' h
      exact hc.1 (List.mem_map.2 ⟨e', he', h⟩)
    have hrec : given L [] (e :: es) n = (if L.name e.1 = some n then e.2 else []) ++ given L [] es n := by
      simp [given]
    rw [hrec]
    rcases List.mem_cons.1 hm with rfl | hm
    · have h0 : given L [] es n = [] := by
        apply Classical.byContradiction
        intro h
        obtain ⟨e', he', hn'⟩ := given_mem h
        exact hnone e' he' ((hL _ _ hn').symm.trans (hL _ _ hn))
      rw [if_pos hn, h0, List.append_nil]
    · rw [given_of_mem uc L hL es hc.2 k n v hm hn, if_neg, List.nil_append]
      intro h
      exact hnone _ hm ((hL _ _ hn).symm.trans (hL _ _ h))

/-- **C131**: a request of a pact without rules that satisfies the pact itself also does so after it was sent to the
provider, provided its method and headers can be sent, its path starts with one slash, its headers and query parameters
have values, its body is not `null`, and the content type seen by the provider is that of the pact. -/
theorem C131_replay (E : FileEnv) (L : Lib) (env : Env) (be : BodyEnv) (base path : Str) (r : HttpRequest) (w : Wire)
    (h : createRequest E L base r [] = .ok w)
    (hL : ∀ k n, L.name k = some n → E.P.uc.lower n = E.P.uc.lower k)
    (hmth : L.method r.method = true)
    (hb : base.getLast? ≠ some '/') (hp : r.path = '/' :: path) (hp1 : path.head? ≠ some '/') (hp2 : path ≠ [])
    (hr : r.rules = []) (hq : NodupKeys (r.query.getD []))
    (hqv : ∀ e ∈ r.query.getD [], e.2 ≠ [] ∧ none ∉ e.2)
    (hh : HeaderProps.CaseNodup E.P.uc (r.headers.getD [])) (hhv : ∀ e ∈ r.headers.getD [], e.2 ≠ [])
    (hnull : r.body ≠ .null)
    (hct : MatchResult.contentTypeD E.P.uc be (seen r.path w).part = MatchResult.contentTypeD E.P.uc be (asRequest r).part)
    (hx : (MatchResult.contentTypeD E.P.uc be (asRequest r).part).isXml = false)
    (hm : (MatchResult.contentTypeD E.P.uc be (asRequest r).part).main ≠ "multipart".toList)
    (hj : ∀ b j, be.json b = some j → j.WF)
    (hself : (MatchResult.matchRequest env E.P.uc be (asRequest r) (asRequest r)).allMatched = true) :
    w.url = base ++ r.path ∧
    (MatchResult.matchRequest env E.P.uc be (asRequest r) (seen r.path w)).allMatched = true := by
  have hs0 := C131_sent E L base r [] [] w h
  have hw : withDefaults (defaults []) w = w := by simp [withDefaults, defaults]
  rw [hw] at hs0
  obtain ⟨hs1, hs2, hs3, hs4, hs5⟩ := hs0
  have harr : ∀ n, Json.lookup n w.headers = if given L [] (r.headers.getD []) n = [] then none
      else some (given L [] (r.headers.getD []) n) := by
    intro n
    rw [hs4 n, arriving]
    rfl
  have hurl : w.url = base ++ r.path := by
    have := C131_url base path 0 1 hb hp1 hp2
    simp only [List.replicate_zero, List.append_nil, List.replicate_succ, List.cons_append, List.nil_append] at this
    rw [hs2, hp, this]
  refine ⟨hurl, ?_⟩
  have hsend : Sendable L [] (r.headers.getD []) := by
    apply Classical.byContradiction
    intro hc
    rw [((C131_refused E L base r []).1.2 hc)] at h
    simp at h
  have hnd : NodupKeys w.headers := by
    unfold createRequest at h
    rcases sendHeaders_iff L [] (r.headers.getD []) [] ⟨by simp [NodupKeys], by simp⟩ with ⟨_, m, h1, h2, h3⟩ | ⟨_, h1⟩
    · rw [h1, Res.bind_ok, Res.map_eq_ok] at h
      obtain ⟨b, _, hb⟩ := h
      rw [← hb]
      exact h2.1
    · rw [h1] at h; simp [Res.bind] at h
  have hfrom : ∀ e ∈ w.headers, ∃ e' ∈ r.headers.getD [], L.name e'.1 = some e.1 := by
    intro e he
    have hl := Json.lookup_of_mem hnd (k := e.1) (v := e.2) he
    rw [harr] at hl
    split at hl
    · simp at hl
    · rename_i hg; exact given_mem hg
  have hcn : HeaderProps.CaseNodup E.P.uc w.headers := by
    unfold HeaderProps.CaseNodup
    rw [NodupKeys] at hnd
    have key : ∀ l : HeaderMap, (∀ e ∈ l, ∃ e' ∈ r.headers.getD [], L.name e'.1 = some e.1) → (l.map (·.1)).Nodup →
        (l.map fun kv => E.P.uc.lower kv.1).Nodup := by
      intro l
      induction l with
      | nil => intro _ _; exact List.nodup_nil
      | cons a l ih =>
        intro hf hn
        rw [List.map_cons, List.nodup_cons] at hn ⊢
        refine ⟨?_, ih (fun e he => hf e (List.mem_cons_of_mem _ he)) hn.2⟩
        intro hmem
        obtain ⟨c, hc, hcl⟩ := List.mem_map.1 hmem
        obtain ⟨a', ha', hna⟩ := hf a (List.mem_cons_self ..)
        obtain ⟨c', hc', hnc⟩ := hf c (List.mem_cons_of_mem _ hc)
        have hlow : E.P.uc.lower a'.1 = E.P.uc.lower c'.1 := by
          rw [← hL _ _ hna, ← hL _ _ hnc]; exact hcl.symm
        have hfe : a'.2 = c'.2 ∧ a'.1 = c'.1 := by
          have h1 := HeaderProps.findEntry_of_mem E.P.uc _ hh a'.1 a'.1 a'.2 ha' rfl
          have h2 := HeaderProps.findEntry_of_mem E.P.uc _ hh a'.1 c'.1 c'.2 hc' hlow.symm
          refine ⟨Option.some.inj (h1.symm.trans h2), ?_⟩
          have hinj : ∀ l : HeaderMap, HeaderProps.CaseNodup E.P.uc l → ∀ x ∈ l, ∀ y ∈ l,
              E.P.uc.lower x.1 = E.P.uc.lower y.1 → x = y := by
            intro l
            induction l with
            | nil => intro _ x hx; simp at hx
            | cons z l ih =>
              intro hn x hx y hy hxy
              rw [HeaderProps.CaseNodup, List.map_cons, List.nodup_cons] at hn
              rcases List.mem_cons.1 hx with hx1 | hx1 <;> rcases List.mem_cons.1 hy with hy1 | hy1
              · rw [hx1, hy1]
              · exact absurd (List.mem_map.2 ⟨y, hy1, by rw [← hxy, hx1]⟩) hn.1
              · exact absurd (List.mem_map.2 ⟨x, hx1, by rw [hxy, hy1]⟩) hn.1
              · exact ih hn.2 x hx1 y hy1 hxy
          rw [hinj _ hh a' ha' c' hc' hlow]
        apply hn.1
        rw [hfe.2, hnc] at hna
        rw [← Option.some.inj hna]
        exact List.mem_map.2 ⟨c, hc, rfl⟩
    exact key w.headers hfrom hnd
  rw [EndToEndProps.C47_request env E.P.uc be (asRequest r) _ hr hq hh hx hm hj] at hself
  obtain ⟨_, _, _, hs6, hs7⟩ := hself
  rw [EndToEndProps.C47_request env E.P.uc be (asRequest r) (seen r.path w) hr hq hcn hx hm hj]
  refine ⟨?_, rfl, ?_, ?_, ?_⟩
  · show E.P.uc.lower r.method = E.P.uc.lower w.method
    rw [hs1, hmth]; rfl
  · show SameQuery r.query (QS.parseQueryString w.query)
    rw [hs3]
    have := (C131_query_same (r.query.getD []) hq).2 hqv
    intro k
    have hk := this k
    unfold QueryProps.valuesOf at hk ⊢
    simpa using hk
  · intro k v hkv
    obtain ⟨k', v', hm', hl', hv', hsame⟩ := hs6 k v hkv
    have hvv : v' = v := by
      have h1 := HeaderProps.findEntry_of_mem E.P.uc _ hh k k v hkv rfl
      have h2 := HeaderProps.findEntry_of_mem E.P.uc _ hh k k' v' hm' hl'
      exact Option.some.inj (h2.symm.trans h1)
    rw [hvv] at hsame
    have hne : v ≠ [] := hhv (k, v) hkv
    cases hn : L.name k with
    | none =>
      exfalso
      cases v with
      | nil => exact hne rfl
      | cons x xs =>
        have := (hsend (k, x :: xs) hkv (by simp) x (by simp)).1
        rw [hn] at this
        simp at this
    | some n =>
      have hg := given_of_mem E.P.uc L hL _ hh k n v hkv hn
      have hlk := harr n
      rw [hg, if_neg hne] at hlk
      exact ⟨n, v, Json.lookup_mem hlk, hL _ _ hn, fun h => absurd h hne, hsame⟩
  · unfold EndToEndProps.BodyAgrees at hs7 ⊢
    simp only [hct]
    have hbody : (seen r.path w).part.body = match w.body with | some b => .present b none | none => .missing := rfl
    cases hrb : r.body with
    | missing => simp [asRequest, asBody, hrb]
    | empty =>
      rw [hrb] at hs5
      simp only [] at hs5
      simp [asRequest, asBody, hrb, hbody, hs5, Body.isPresent]
    | null => exact absurd hrb hnull
    | present b c hi =>
      rw [hrb] at hs5
      simp only [] at hs5
      simp only [asRequest, asBody, hrb] at hs7 ⊢
      rw [hbody, hs5]
      refine ⟨hs7.1, by simp, by simp, ?_⟩
      exact hs7.2.2.2

/-! ### C132: custom headers -/

theorem customHeaders_last (L : Lib) (n v k : Str) : ∀ (custom ds : List (Str × Str)), customHeaders L custom = some ds →
    (k, v) ∈ custom → L.name k = some n → (∀ e ∈ custom, L.name e.1 = some n → e = (k, v)) → lastCustom ds n = some v := by
  have hnone : ∀ (custom ds : List (Str × Str)), customHeaders L custom = some ds →
      (∀ d ∈ ds, ∃ e ∈ custom, L.name e.1 = some d.1 ∧ e.2 = d.2) ∧
      (∀ e ∈ custom, ∃ d ∈ ds, L.name e.1 = some d.1 ∧ e.2 = d.2) := by
    intro custom
    induction custom with
    | nil => intro ds h; simp [customHeaders] at h; subst h; simp
    | cons e es ih =>
      intro ds h
      unfold customHeaders at h
      cases hn : L.name e.1 with
      | none => simp [hn] at h
      | some m =>
        simp only [hn] at h
        split at h
        · cases hc : customHeaders L es with
          | none => simp [hc] at h
          | some ds' =>
            rw [hc] at h
            simp only [Option.map_some, Option.some.injEq] at h
            subst h
            obtain ⟨h1, h2⟩ := ih ds' hc
            constructor
            · intro d hd
              rcases List.mem_cons.1 hd with rfl | hd
              · exact ⟨e, by simp, hn, rfl⟩
              · obtain ⟨x, hx, hxx⟩ := h1 d hd
                exact ⟨x, by simp [hx], hxx⟩
            · intro x hx
              rcases List.mem_cons.1 hx with rfl | hx
              · exact ⟨(m, x.2), by simp, hn, rfl⟩
              · obtain ⟨d, hd, hdd⟩ := h2 x hx
                exact ⟨d, by simp [hd], hdd⟩
        · simp at h
  intro custom ds h hm hn hu
  obtain ⟨h1, h2⟩ := hnone custom ds h
  unfold lastCustom
  cases hl : Json.lookup n ds.reverse with
  | none =>
    exfalso
    obtain ⟨d, hd, hd1, _⟩ := h2 _ hm
    rw [hn] at hd1
    have := QueryProps.lookup_none_iff.1 hl
    apply this
    rw [Option.some.inj hd1]
    exact List.mem_map.2 ⟨d, by simp [hd], rfl⟩
  | some x =>
    have hx := Json.lookup_mem hl
    obtain ⟨e, he, he1, he2⟩ := h1 _ (List.mem_reverse.1 hx)
    have := hu e he he1
    rw [this] at he2
    exact congrArg some he2.symm

/-- **C132** (partial: see `C132_case_fails`): a custom header is sent to the provider in place of the header of the pact,
unless the pact has a header of that name in a different spelling. -/
theorem C132_custom_partial (E : FileEnv) (L : Lib) (base : Str) (r : HttpRequest) (custom ds : List (Str × Str)) (w : Wire)
    (h : createRequest E L base r custom = .ok w) (hd : customHeaders L custom = some ds) (k n v : Str)
    (hm : (k, v) ∈ custom) (hn : L.name k = some n) (hu : ∀ e ∈ custom, L.name e.1 = some n → e = (k, v))
    (hs : ∀ e ∈ r.headers.getD [], L.name e.1 = some n → e.1 = k) :
    Json.lookup n (withDefaults (defaults ds) w).headers = some [v] := by
  rw [(C131_sent E L base r custom ds w h).2.2.2.1 n, arriving, customHeaders_last L n v k custom ds hd hm hn hu]
  have : given L custom (r.headers.getD []) n = [] := by
    rw [given, List.flatMap_eq_nil_iff]
    intro e he
    by_cases hc : e.1 ∈ custom.map (·.1)
    · rw [if_pos hc]
    · rw [if_neg hc, if_neg]
      intro hne
      apply hc
      rw [hs e he hne]
      exact List.mem_map.2 ⟨_, hm, rfl⟩
  rw [this]
  rfl

/-- **C132**: exactly when a custom header is what the provider gets. -/
theorem C132_custom_iff (E : FileEnv) (L : Lib) (base : Str) (r : HttpRequest) (custom ds : List (Str × Str)) (w : Wire)
    (h : createRequest E L base r custom = .ok w) (hd : customHeaders L custom = some ds) (k n v : Str)
    (hm : (k, v) ∈ custom) (hn : L.name k = some n) (hu : ∀ e ∈ custom, L.name e.1 = some n → e = (k, v)) :
    Json.lookup n (withDefaults (defaults ds) w).headers = some [v] ↔
      given L custom (r.headers.getD []) n = [] ∨ given L custom (r.headers.getD []) n = [v] := by
  rw [(C131_sent E L base r custom ds w h).2.2.2.1 n, arriving, customHeaders_last L n v k custom ds hd hm hn hu]
  by_cases hg : given L custom (r.headers.getD []) n = []
  · simp [hg]
  · simp [hg]

/-! ### C133: answers -/

/-- Specification: the values of a header of an answer: those that are text, split at commas (except for the names whose
values are not lists) and without white space around them. -/
def readSpec (uc : UC) (n : Str) (vs : List (Option Str)) : List Str := (vs.filterMap id).flatMap (QS.parseHeader uc n)

theorem parseHeader_trimmed (uc : UC) (n v : Str) : ∀ x ∈ QS.parseHeader uc n v, trim uc x = x := by
  intro x hx
  unfold QS.parseHeader at hx
  split at hx
  · simp only [List.mem_singleton] at hx
    rw [hx, QueryStringProps.trim_idem]
  · obtain ⟨y, _, rfl⟩ := List.mem_map.1 hx
    rw [QueryStringProps.trim_idem]

theorem readValues_eq (uc : UC) (n : Str) (vs : List (Option Str)) : readValues uc n vs = readSpec uc n vs := by
  unfold readValues readSpec
  conv => rhs; rw [← List.map_id ((vs.filterMap id).flatMap (QS.parseHeader uc n))]
  apply List.map_congr_left
  intro x hx
  obtain ⟨v, _, hv⟩ := List.mem_flatMap.1 hx
  exact parseHeader_trimmed uc n v x hv

theorem readSpec_nil (uc : UC) (n : Str) (vs : List (Option Str)) : readSpec uc n vs = [] ↔ ∀ v ∈ vs, v = none := by
  unfold readSpec
  rw [List.flatMap_eq_nil_iff]
  constructor
  · intro h v hv
    cases v with
    | none => rfl
    | some v => exact absurd (h v (List.mem_filterMap.2 ⟨some v, hv, rfl⟩)) (PartProps.parseHeader_ne uc n v)
  · intro h v hv
    obtain ⟨x, hx, hxv⟩ := List.mem_filterMap.1 hv
    rw [h x hx] at hxv
    simp at hxv

theorem extractHeaders_getD (uc : UC) (hs : List (Str × List (Option Str))) :
    (extractHeaders uc hs).getD [] = hs.map fun e => (e.1, readSpec uc e.1 e.2) := by
  unfold extractHeaders
  cases hs with
  | nil => rfl
  | cons e es => simp [readValues_eq]

theorem headerContentType_cases (E : FileEnv) (h : Option HeaderMap) :
    (∃ ct, headerContentType E h = .ok ct) ∨ headerContentType E h = .panic := by
  unfold headerContentType
  repeat' split
  all_goals simp

/-- **C133**: an answer that could be read is taken with its status, for every header its values that are text, and its
body as it came, with the content type of the header. -/
theorem C133_response (E : FileEnv) (a : Reply) (r : HttpResponse) (h : readReply E a = .ok r) :
    r.status = a.status ∧ r.rules = [] ∧
    (∀ n, Json.lookup n (r.headers.getD []) = (Json.lookup n a.headers).map (readSpec E.P.uc n)) ∧
    ∃ b, a.body = some b ∧ if b = [] then r.body = .empty
      else ∃ ct, headerContentType E r.headers = .ok ct ∧ r.body = .present b ct none := by
  unfold readReply at h
  have hh : ∀ n, Json.lookup n ((extractHeaders E.P.uc a.headers).getD []) = (Json.lookup n a.headers).map (readSpec E.P.uc n) := by
    intro n
    rw [extractHeaders_getD, OMap.lookup_mapVals (fun k v => readSpec E.P.uc k v)]
  cases hb : a.body with
  | none => simp [hb] at h
  | some b =>
    cases b with
    | nil =>
      simp only [hb, Res.ok.injEq] at h
      subst h
      exact ⟨rfl, rfl, hh, [], rfl, by simp⟩
    | cons x xs =>
      simp only [hb] at h
      rw [Res.map_eq_ok] at h
      obtain ⟨ct, h1, h2⟩ := h
      subst h2
      refine ⟨rfl, rfl, hh, _, rfl, ?_⟩
      rw [if_neg (by simp)]
      refine ⟨ct, ?_, rfl⟩
      simp only [calcContentType, Option.or_none] at h1
      rw [Res.map_eq_ok] at h1
      obtain ⟨ct', h3, h4⟩ := h1
      rw [h3, h4]

/-- **C133**: an answer is an error exactly if its body cannot be read. -/
theorem C133_error (E : FileEnv) (a : Reply) : readReply E a = .err ↔ a.body = none := by
  unfold readReply
  cases hb : a.body with
  | none => simp
  | some b =>
    cases b with
    | nil => simp
    | cons x xs =>
      simp only [calcContentType, Option.or_none, reduceCtorEq, iff_false]
      rcases headerContentType_cases E (extractHeaders E.P.uc a.headers) with ⟨ct, h⟩ | h <;> rw [h] <;> simp

/-- **C133**: the verifier panics on an answer exactly if it has a body and its content type is given, but not as text. -/
theorem C133_panics (E : FileEnv) (a : Reply) : readReply E a = .panic ↔
    (∃ b, a.body = some b ∧ b ≠ []) ∧
    ∃ e, a.headers.find? (fun e => decide (E.P.uc.lower e.1 = "content-type".toList)) = some e ∧ ∀ v ∈ e.2, v = none := by
  have hf : ∀ hs : List (Str × List (Option Str)),
      headerContentType E (some (hs.map fun e => (e.1, readSpec E.P.uc e.1 e.2))) = .panic ↔
        ∃ e, hs.find? (fun e => decide (E.P.uc.lower e.1 = "content-type".toList)) = some e ∧ ∀ v ∈ e.2, v = none := by
    intro hs
    unfold headerContentType
    have hfind : (hs.map fun e => (e.1, readSpec E.P.uc e.1 e.2)).find? (fun e => decide (E.P.uc.lower e.1 = "content-type".toList))
        = (hs.find? fun e => decide (E.P.uc.lower e.1 = "content-type".toList)).map fun e => (e.1, readSpec E.P.uc e.1 e.2) := by
      rw [List.find?_map]; rfl
    simp only [hfind]
    cases hs.find? fun e => decide (E.P.uc.lower e.1 = "content-type".toList) with
    | none => simp
    | some e =>
      simp only [Option.map_some, Option.some.injEq, exists_eq_left']
      rw [← readSpec_nil E.P.uc e.1 e.2]
      cases readSpec E.P.uc e.1 e.2 <;> simp
  unfold readReply
  cases hb : a.body with
  | none => simp
  | some b =>
    cases b with
    | nil => simp
    | cons x xs =>
      simp only [calcContentType, Option.or_none, Res.map_eq_panic]
      rw [and_iff_right ⟨x :: xs, rfl, by simp⟩]
      by_cases he : a.headers = []
      · rw [he]; simp [extractHeaders, headerContentType]
      · rw [← hf a.headers, extractHeaders, if_neg (by simpa using he)]
        simp only [readValues_eq]

/-- The panic happens: a body, and a content type that is not ASCII text. -/
theorem C133_panics_witness (E : FileEnv) (hl : E.P.uc.lower "content-type".toList = "content-type".toList) :
    readReply E ⟨200, [("content-type".toList, [none])], some [123, 125]⟩ = .panic := by
  rw [C133_panics]
  refine ⟨⟨_, rfl, List.cons_ne_nil _ _⟩, ("content-type".toList, [none]), ?_, by simp⟩
  revert hl
  generalize "content-type".toList = k
  intro hl
  simp [hl]

/-! ### C134: the verdict on an interaction -/

/-- What is sent for a request: nothing, or one request, and what becomes of it. -/
inductive Exchange {N : Type} (E : FileEnv) (L : Lib) (net : Net N) (custom ds : List (Str × Str)) (base : Str) (r : HttpRequest)
    (e : N) : N → List Wire → Res HttpResponse → Prop
  | refused : createRequest E L base r custom = .err → Exchange E L net custom ds base r e e [] .err
  | panicked : createRequest E L base r custom = .panic → Exchange E L net custom ds base r e e [] .panic
  | unanswered (w : Wire) (e' : N) : createRequest E L base r custom = .ok w → net e (withDefaults ds w) = (e', none) →
      Exchange E L net custom ds base r e e' [withDefaults ds w] .err
  | answered (w : Wire) (e' : N) (a : Reply) : createRequest E L base r custom = .ok w →
      net e (withDefaults ds w) = (e', some a) → Exchange E L net custom ds base r e e' [withDefaults ds w] (readReply E a)

theorem makeRequest_exchange {N : Type} (E : FileEnv) (L : Lib) (net : Net N) (o : Opts) (ds : List (Str × Str)) (info : Info)
    (t : Option Transport) (r : HttpRequest) (e e' : N) (ws : List Wire) (x : Res HttpResponse) :
    makeRequest E L net o ds info t r e = (e', ws, x) ↔
      Exchange E L net o.custom ds (baseUrl info t) (filtered o r) e e' ws x := by
  unfold makeRequest
  cases hc : createRequest E L (baseUrl info t) (filtered o r) o.custom with
  | err =>
    constructor
    · intro h; cases h; exact .refused hc
    · intro h; cases h with
      | refused => rfl
      | panicked h => rw [hc] at h; simp at h
      | unanswered w e' h => rw [hc] at h; simp at h
      | answered w e' a h => rw [hc] at h; simp at h
  | panic =>
    constructor
    · intro h; cases h; exact .panicked hc
    · intro h; cases h with
      | refused h => rw [hc] at h; simp at h
      | panicked h => rfl
      | unanswered w e' h => rw [hc] at h; simp at h
      | answered w e' a h => rw [hc] at h; simp at h
  | ok w =>
    rcases hn : net e (withDefaults ds w) with ⟨e1, a⟩
    cases a with
    | none =>
      simp only [hn]
      constructor
      · intro h; cases h; exact .unanswered w _ hc hn
      · intro h; cases h with
        | refused h => rw [hc] at h; simp at h
        | panicked h => rw [hc] at h; simp at h
        | unanswered w' e2 h h2 =>
          rw [hc] at h; cases h; rw [hn] at h2; cases h2; rfl
        | answered w' e2 a h h2 =>
          rw [hc] at h; cases h; rw [hn] at h2; simp at h2
    | some a =>
      simp only [hn]
      constructor
      · intro h; cases h; exact .answered w _ a hc hn
      · intro h; cases h with
        | refused h => rw [hc] at h; simp at h
        | panicked h => rw [hc] at h; simp at h
        | unanswered w' e2 h h2 =>
          rw [hc] at h; cases h; rw [hn] at h2; simp at h2
        | answered w' e2 a' h h2 =>
          rw [hc] at h; cases h; rw [hn] at h2; cases h2; rfl

theorem verdict_passed (ms : List MatchResult.MM) : verdict ms = .passed ↔ ms = [] := by
  unfold verdict
  cases ms <;> simp

/-- **C134**: an interaction is verified exactly if its request (as generated and filtered) was sent once and answered, the
answer could be read, and for an expected response without rules the status is the expected one, all expected headers are
there and the body agrees, where JSON objects may have additional entries. -/
theorem C134_verified {N : Type} (B : Libs) (net : Net N) (o : Opts) (ds : List (Str × Str)) (info : Info)
    (generate : HttpRequest → HttpRequest) (c : Common) (request : HttpRequest) (response : HttpResponse) (e e' : N)
    (ws : List Wire) (hr : response.rules = [])
    (hx : (MatchResult.contentTypeD B.file.P.uc B.bodies (asResponse response).part).isXml = false)
    (hm : (MatchResult.contentTypeD B.file.P.uc B.bodies (asResponse response).part).main ≠ "multipart".toList)
    (hj : ∀ b j, B.bodies.json b = some j → j.WF)
    (hnet : ∀ e w e' a, net e w = (e', some a) → (a.headers.map fun h => B.file.P.uc.lower h.1).Nodup) :
    verifyResponse B net o ds info generate c request response e = (e', ws, .ok .passed) ↔
      ∃ w a r, createRequest B.file B.http (baseUrl info (findTransport ["http".toList] c.transport info.transports))
          (filtered o (generate request)) o.custom = .ok w ∧
        ws = [withDefaults ds w] ∧ net e (withDefaults ds w) = (e', some a) ∧ readReply B.file a = .ok r ∧
        response.status = a.status ∧ EndToEndProps.HeadersAgree B.file.P.uc response.headers r.headers ∧
        EndToEndProps.BodyAgrees B.file.P.uc B.bodies CompareProps.Extends (asResponse response).part (asResponse r).part := by
  have key : ∀ w a r, net e w = (e', some a) → readReply B.file a = .ok r →
      (MatchResult.matchResponse B.env B.file.P.uc B.bodies (asResponse response) (asResponse r) = [] ↔
        response.status = a.status ∧ EndToEndProps.HeadersAgree B.file.P.uc response.headers r.headers ∧
        EndToEndProps.BodyAgrees B.file.P.uc B.bodies CompareProps.Extends (asResponse response).part (asResponse r).part) := by
    intro w a r h1 h2
    have hh : HeaderProps.CaseNodup B.file.P.uc ((asResponse r).part.headers.getD []) := by
      have hx := hnet _ _ _ _ h1
      have hre : (asResponse r).part.headers.getD [] = a.headers.map fun e => (e.1, readSpec B.file.P.uc e.1 e.2) := by
        unfold readReply at h2
        rw [← extractHeaders_getD]
        cases hb : a.body with
        | none => simp [hb] at h2
        | some b =>
          cases b with
          | nil => simp only [hb, Res.ok.injEq] at h2; subst h2; rfl
          | cons x xs =>
            simp only [hb] at h2
            rw [Res.map_eq_ok] at h2
            obtain ⟨ct, _, h4⟩ := h2
            subst h4
            rfl
      rw [HeaderProps.CaseNodup, hre, List.map_map]
      exact hx
    rw [EndToEndProps.C48_response B.env B.file.P.uc B.bodies (asResponse response) (asResponse r) hr hh hx hm hj]
    show response.status = r.status ∧ _ ↔ _
    rw [(C133_response B.file a r h2).1]
    rfl
  unfold verifyResponse
  rcases hq : makeRequest B.file B.http net o ds info (findTransport ["http".toList] c.transport info.transports)
      (generate request) e with ⟨e1, ws1, x⟩
  have hex := (makeRequest_exchange _ _ _ _ _ _ _ _ _ _ _ _).1 hq
  constructor
  · intro h
    cases x with
    | err => simp [concluded] at h
    | panic => simp [concluded] at h
    | ok r =>
      simp only [concluded, Prod.mk.injEq, Res.ok.injEq, verdict_passed] at h
      obtain ⟨rfl, rfl, hms⟩ := h
      generalize hxr : Res.ok r = x at hex
      cases hex with
      | refused => simp at hxr
      | panicked => simp at hxr
      | unanswered => simp at hxr
      | answered w _ a h1 h2 => exact ⟨w, a, r, h1, rfl, h2, hxr.symm, (key _ a r h2 hxr.symm).1 hms⟩
  · rintro ⟨w, a, r, h1, rfl, h2, h3, h4⟩
    have hq2 := (makeRequest_exchange B.file B.http net o ds info (findTransport ["http".toList] c.transport info.transports)
      (generate request) e e' _ _).2 (.answered w e' a h1 h2)
    rw [hq] at hq2
    rw [hq2]
    simp only [h3, concluded, Prod.mk.injEq, Res.ok.injEq, verdict_passed, true_and]
    exact (key _ a r h2 h3).2 h4

/-- **C134**: for every interaction, at most one request is sent to the provider. -/
theorem C134_one_request {N : Type} (B : Libs) (net : Net N) (o : Opts) (ds : List (Str × Str)) (info : Info)
    (generate : HttpRequest → HttpRequest) (i : Interaction) (e : N) :
    (verifyOne B net o ds info generate i e).2.1.length ≤ 1 := by
  have hm : ∀ (t : Option Transport) (r : HttpRequest) (f : HttpResponse → Res Verdict),
      (concluded (makeRequest B.file B.http net o ds info t r e) f).2.1.length ≤ 1 := by
    intro t r f
    rcases hq : makeRequest B.file B.http net o ds info t r e with ⟨e1, ws1, x⟩
    have hex := (makeRequest_exchange _ _ _ _ _ _ _ _ _ _ _ _).1 hq
    have hl : ws1.length ≤ 1 := by cases hex <;> simp
    cases x <;> exact hl
  cases i with
  | http c r s => exact hm _ _ _
  | async c m =>
    simp only [verifyOne]
    split
    · exact hm _ _ _
    · simp
  | sync c r s =>
    simp only [verifyOne, verifySync]
    split
    · exact hm _ _ _
    · simp
    · simp

/-! ### Examples -/

/-- Header names, header values and methods for examples. -/
def exL : Lib where
  name := fun k => if k = [] then none else some (UC.ascii.lower k)
  value := fun v => v.all fun c => decide (32 ≤ c.toNat ∧ c.toNat < 127)
  method := fun m => decide (m ≠ [])

def exRequest : HttpRequest :=
  ⟨"PUT".toList, "/a/b".toList, some [("q".toList, [some "1 &".toList, some "é".toList])],
    some [("X-A".toList, ["1".toList, "2".toList]), ("Content-Type".toList, ["text/plain".toList])],
    .present [65, 66] none none, [], []⟩

def exWire : Wire :=
  ⟨"PUT".toList, "http://h:1/a/b".toList, "q=1+%26&q=%C3%A9".toList,
    [("x-a".toList, ["1".toList, "2".toList]), ("content-type".toList, ["text/plain".toList])], some [65, 66]⟩

theorem exSent : createRequest PactFileProps.exE exL "http://h:1".toList exRequest [] = .ok exWire := by decide +kernel

theorem toLower_idem (c : Char) : Char.toLower (Char.toLower c) = Char.toLower c := by
  by_cases h : 65 ≤ c.val ∧ c.val ≤ 90
  · have : ∀ n : Fin 128, Char.toLower (Char.toLower (Char.ofNat n.1)) = Char.toLower (Char.ofNat n.1) := by decide
    have hn : c.toNat < 128 := by have := h.2; simp only [Char.toNat]; exact Nat.lt_of_le_of_lt (UInt32.le_iff_toNat_le.1 this) (by decide)
    have := this ⟨c.toNat, hn⟩
    rwa [Char.ofNat_toNat] at this
  · have : Char.toLower c = c := by
      unfold Char.toLower
      rw [dif_neg]
      exact h
    rw [this, this]

theorem exL_lower : ∀ k n, exL.name k = some n → PactFileProps.exE.P.uc.lower n = PactFileProps.exE.P.uc.lower k := by
  intro k n h
  simp only [exL] at h
  split at h
  · simp at h
  · cases h
    show (k.map Char.toLower).map Char.toLower = k.map Char.toLower
    rw [List.map_map]
    exact List.map_congr_left fun c _ => toLower_idem c

/-- The hypotheses of C131 are met: this request is sent as above and satisfies its own pact. -/
example : (MatchResult.matchRequest Env.simple PactFileProps.exE.P.uc ResultProps.simpleBody (asRequest exRequest)
    (seen exRequest.path exWire)).allMatched = true :=
  (C131_replay PactFileProps.exE exL Env.simple ResultProps.simpleBody "http://h:1".toList "a/b".toList exRequest exWire exSent
    exL_lower (by decide) (by decide) (by decide) (by decide) (by decide) rfl (by unfold NodupKeys; decide) (by decide)
    (by unfold HeaderProps.CaseNodup; decide) (by decide)
    (by simp [exRequest]) (by decide) (by decide) (by decide)
    (by
      intro b j h
      simp only [ResultProps.simpleBody] at h
      split at h
      · cases h; trivial
      · cases h) (by decide)).2

/-- **C131** does not hold for a `null` body with a JSON content type: the text `null` is sent, which the pact does not
accept. -/
theorem C131_replay_null_fails : ∃ (r : HttpRequest) (w : Wire),
    createRequest PactFileProps.exE exL "http://h".toList r [] = .ok w ∧ r.body = .null ∧ w.body = some (utf8 "null".toList) ∧
    (MatchResult.matchRequest Env.simple UC.ascii ResultProps.simpleBody (asRequest r) (asRequest r)).allMatched = true ∧
    (MatchResult.matchRequest Env.simple UC.ascii ResultProps.simpleBody (asRequest r) (seen r.path w)).allMatched = false :=
  ⟨⟨"PUT".toList, "/a".toList, none, some [("Content-Type".toList, ["application/json".toList])], .null, [], []⟩,
   ⟨"PUT".toList, "http://h/a".toList, [], [("content-type".toList, ["application/json".toList])], some (utf8 "null".toList)⟩,
   by decide +kernel, rfl, rfl, by decide +kernel, by decide +kernel⟩

/-- The custom header of C132 replaces the one of the pact if it is spelled in the same way. -/
example : Json.lookup "x-a".toList (withDefaults (defaults [("x-a".toList, "9".toList)])
    { exWire with headers := [("content-type".toList, ["text/plain".toList])] }).headers = some ["9".toList] :=
  C132_custom_partial PactFileProps.exE exL "http://h:1".toList exRequest [("X-A".toList, "9".toList)]
    [("x-a".toList, "9".toList)] _ (by decide +kernel) (by decide) "X-A".toList "x-a".toList "9".toList (by simp) (by decide)
    (by simp) (by decide)

/-- **C132** fails for another spelling: the pact has `authorization`, the custom header is `Authorization`, and the
provider gets the one of the pact. -/
theorem C132_case_fails : ∃ (r : HttpRequest) (w : Wire) (ds : List (Str × Str)),
    createRequest PactFileProps.exE exL "http://h".toList r [("Authorization".toList, "new".toList)] = .ok w ∧
    customHeaders exL [("Authorization".toList, "new".toList)] = some ds ∧
    r.headers = some [("authorization".toList, ["old".toList])] ∧
    Json.lookup "authorization".toList (withDefaults (defaults ds) w).headers = some ["old".toList] :=
  ⟨⟨"GET".toList, "/a".toList, none, some [("authorization".toList, ["old".toList])], .missing, [], []⟩,
   ⟨"GET".toList, "http://h/a".toList, [], [("authorization".toList, ["old".toList])], none⟩,
   [("authorization".toList, "new".toList)], by decide +kernel, by decide, rfl, by decide⟩

def exLibs : Libs := ⟨PactFileProps.exE, exL, Env.simple, ResultProps.simpleBody⟩

/-- A provider for examples: it answers every request with `200`, a header and a body. -/
def exNet : Net Nat := fun n _ => (n + 1, some ⟨200, [("content-type".toList, [some "text/plain".toList]), ("x-b".toList, [none, some "1, 2".toList])], some [65]⟩)

def exInfo : Info := ⟨"http".toList, "h".toList, some 1, [], [⟨"http".toList, some 2, some "/base".toList, none⟩]⟩

def exCommon : Common := ⟨none, none, "d".toList, [⟨"s".toList, [("p".toList, .num (.pos 1))]⟩], [], false, [], ⟨[], []⟩, none⟩

def exResponse : HttpResponse :=
  ⟨200, some [("X-B".toList, ["1".toList, "2".toList]), ("Content-Type".toList, ["text/plain".toList])], .present [65] none none, [], []⟩

/-- The hypotheses of C134 are met by an interaction that passes. -/
example : verifyResponse exLibs exNet ⟨[], none⟩ [] exInfo id exCommon exRequest exResponse 0
    = (1, [{ exWire with url := "http://h:2/base/a/b".toList }], .ok .passed) := by rfl

example : exResponse.rules = [] ∧
    (MatchResult.contentTypeD exLibs.file.P.uc exLibs.bodies (asResponse exResponse).part).isXml = false ∧
    (MatchResult.contentTypeD exLibs.file.P.uc exLibs.bodies (asResponse exResponse).part).main ≠ "multipart".toList ∧
    (∀ b j, exLibs.bodies.json b = some j → j.WF) ∧
    (∀ e w e' a, exNet e w = (e', some a) → (a.headers.map fun h => exLibs.file.P.uc.lower h.1).Nodup) := by
  refine ⟨rfl, by decide, by decide, ?_, ?_⟩
  · intro b j h
    simp only [exLibs, ResultProps.simpleBody] at h
    split at h
    · cases h; trivial
    · cases h
  · intro e w e' a h
    cases h
    decide



end ProviderProps
end Verif
