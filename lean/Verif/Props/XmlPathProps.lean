import Verif.Props.XmlBuildProps
import Verif.Props.XmlProps
import Verif.Props.PathGrammarProps
import Verif.Props.MultipartProps
import Verif.Props.PatternProps

/-
  C121: the matchers in the description of an XML body are the ones the comparison uses for the elements, attributes and
  texts they are written at.
-/

set_option autoImplicit false
set_option maxRecDepth 100000

namespace Verif
namespace XmlPathProps
open Path Rules RuleJson Generate Integration Xml XmlBuild IntegrationProps XmlBuildProps PathProps PathGrammarProps RuleProps

/-! ## Specification -/

/-- A name of letters, digits, `_`, `-` and `:` that is not a number. -/
def Plain (uc : UC) (n : Str) : Prop :=
  n ≠ [] ∧ (∀ c ∈ n, uc.alphabetic c = true ∨ uc.numeric c = true ∨ c ∈ ['_', '-', ':']) ∧ parseUsize n = none

/-- All elements have plain names, and no attribute has a quote in its name. -/
inductive PlainDesc (uc : UC) : Json → Prop
  | other (o : Obj) : (∀ d n, ¬ Part o d n) → PlainDesc uc (.obj o)
  | element (o d : Obj) (n : Str) : Part o d n → Plain uc n →
      (∀ as k v, RuleJson.get "attributes" d = some (.obj as) → (k, v) ∈ as → '\'' ∉ k) →
      (∀ xs x, RuleJson.get "children" d = some (.arr xs) → x ∈ xs → PlainDesc uc x) → PlainDesc uc (.obj o)

/-- The path of an element for the comparison (see `Xml.compareRoot`): the names from the root on. -/
def elementPath (ns : List Str) : DocPath := ns.foldl join rootPath

/-! ## Paths -/

/-- An element, or an attribute or the text of one. -/
inductive Spot where
  | elem
  | attr (k : Str)
  | text

/-- The segment for an attribute or the text. -/
def Spot.segs : Spot → List Str
  | .elem => []
  | .attr k => ['@' :: k]
  | .text => ["#text".toList]

/-- The path expression. -/
def exprOf (ns : List Str) : Spot → Str
  | .elem => dotted ("$".toList :: ns)
  | .attr k => attrPath ("$".toList :: ns) k
  | .text => dotted ("$".toList :: ns ++ ["#text".toList])

/-- The segments of the path. -/
def tokensOf (ns : List Str) (sp : Spot) : List PathToken := .root :: (ns ++ sp.segs).map .field

/-- The name of an attribute can be quoted. -/
def Spot.Fine : Spot → Prop
  | .attr k => '\'' ∉ k
  | _ => True

theorem dotted_eq (ns : List Str) : dotted ("$".toList :: ns) = '$' :: ns.flatMap fun n => '.' :: n := by
  have h : ∀ (x : Str) (ns : List Str), dotted (x :: ns) = x ++ ns.flatMap fun n => '.' :: n := by
    intro x ns
    induction ns generalizing x with
    | nil => simp [dotted, QS.joinWith]
    | cons y ys ih =>
      have := ih y
      unfold dotted at this ⊢
      rw [QS.joinWith, this]
      simp
  rw [h]
  rfl

theorem name_char {uc : UC} {c : Char} (h : uc.alphabetic c = true ∨ uc.numeric c = true ∨ c ∈ ['_', '-', ':']) :
    NameChar uc c := by
  rw [← nameChar_iff]
  unfold isIdentifierChar
  simp only [List.mem_cons, List.not_mem_nil, or_false] at h
  rcases h with h | h | h | h | h <;> simp [h]

theorem segments_app {uc : UC} {ts us : List PathToken} {s t : Str} (h : Segments uc ts s) (h' : Segments uc us t) :
    Segments uc (ts ++ us) (s ++ t) := by
  induction h with
  | nil => exact h'
  | cons h hs ih => rw [List.cons_append, List.append_assoc]; exact .cons h ih

theorem segments_names {uc : UC} {ns : List Str} (h : ∀ n ∈ ns, n ≠ [] ∧ ∀ c ∈ n, NameChar uc c) :
    Segments uc (ns.map .field) (ns.flatMap fun n => '.' :: n) := by
  induction ns with
  | nil => exact .nil
  | cons n ns ih =>
    obtain ⟨h1, h2⟩ := List.forall_mem_cons.1 h
    exact .cons (.name n h1.1 h1.2) (ih h2)

theorem new_spot {uc : UC} {ns : List Str} (h : ∀ n ∈ ns, Plain uc n) {sp : Spot} (hs : sp.Fine) :
    Path.new uc (exprOf ns sp) = .ok ⟨tokensOf ns sp, exprOf ns sp⟩ := by
  rw [C52_grammar]
  refine ⟨?_, rfl⟩
  have hn : ∀ n ∈ ns, n ≠ [] ∧ ∀ c ∈ n, NameChar uc c := fun n hn => ⟨(h n hn).1, fun c hc => name_char ((h n hn).2.1 c hc)⟩
  have h0 := segments_names hn
  unfold tokensOf
  cases sp with
  | elem =>
    simp only [exprOf, dotted_eq, Spot.segs, List.append_nil]
    exact .rooted h0
  | attr k =>
    simp only [exprOf, attrPath, dotted_eq, Spot.segs, List.map_append]
    have := segments_app h0 (.cons (.quoted ('@' :: k) (by simp) (by simpa [Spot.Fine] using hs)) .nil)
    have e : ('$' :: ns.flatMap fun n => '.' :: n) ++ "['@".toList ++ k ++ "']".toList =
        '$' :: ((ns.flatMap fun n => '.' :: n) ++ ("['".toList ++ '@' :: k ++ "']".toList ++ [])) := by
      have e1 : "['@".toList = "['".toList ++ ['@'] := by decide
      rw [e1]
      simp only [List.cons_append, List.append_assoc, List.append_nil, List.nil_append]
    rw [e]
    exact .rooted this
  | text =>
    simp only [exprOf]
    rw [List.cons_append, dotted_eq]
    have htext : ∀ c ∈ "#text".toList, NameChar uc c := by
      intro c hc
      rw [← nameChar_iff]
      have hd : c = '#' ∨ c = 't' ∨ c = 'e' ∨ c = 'x' := by
        have : c ∈ ['#', 't', 'e', 'x', 't'] := hc
        simp only [List.mem_cons, List.not_mem_nil, or_false] at this
        rcases this with h | h | h | h | h <;> simp [h]
      unfold isIdentifierChar
      rcases hd with rfl | rfl | rfl | rfl
      · simp
      · rw [uc.alphabetic_ascii 't' (by decide)]; rfl
      · rw [uc.alphabetic_ascii 'e' (by decide)]; rfl
      · rw [uc.alphabetic_ascii 'x' (by decide)]; rfl
    refine .rooted (segments_names ?_)
    intro n hn'
    rcases List.mem_append.1 hn' with h1 | h1
    · exact hn n h1
    · rw [Spot.segs, List.mem_singleton] at h1
      subst h1
      exact ⟨by decide, htext⟩

theorem not_at {uc : UC} {n : Str} (h : Plain uc n) : ∀ r, n ≠ '@' :: r := by
  rintro r rfl
  have := h.2.1 '@' List.mem_cons_self
  have h2 := uc_not_alnum uc '@' (by decide) (by decide) (by decide)
  rw [h2.1, h2.2] at this
  simp at this

theorem not_hash {uc : UC} {n : Str} (h : Plain uc n) : ∀ r, n ≠ '#' :: r := by
  rintro r rfl
  have := h.2.1 '#' List.mem_cons_self
  have h2 := uc_not_alnum uc '#' (by decide) (by decide) (by decide)
  rw [h2.1, h2.2] at this
  simp at this

/-- Different spots have different paths. -/
theorem spot_inj {uc : UC} {ns ms : List Str} (hn : ∀ n ∈ ns, Plain uc n) (hm : ∀ n ∈ ms, Plain uc n) {sp sq : Spot}
    (h : ns ++ sp.segs = ms ++ sq.segs) : ns = ms ∧ sp = sq := by
  have key : ∀ {ns ms : List Str} {x : Str}, (∀ n ∈ ms, Plain uc n) → (∀ {n}, Plain uc n → n ≠ x) → ns ++ [x] ≠ ms := by
    intro ns ms x hm hx e
    exact hx (hm x (by rw [← e]; simp)) rfl
  have hat : ∀ (k : Str) {n : Str}, Plain uc n → n ≠ '@' :: k := fun k {n} h => not_at h k
  have hhash : ∀ {n : Str}, Plain uc n → n ≠ "#text".toList := fun {n} h => not_hash h "text".toList
  cases sp <;> cases sq <;> simp only [Spot.segs, List.append_nil] at h
  · exact ⟨h, rfl⟩
  · exact absurd h.symm (key hn (hat _))
  · exact absurd h.symm (key hn hhash)
  · exact absurd h (key hm (hat _))
  · obtain ⟨h1, h2⟩ := List.append_inj' h rfl
    cases h2; exact ⟨h1, rfl⟩
  · obtain ⟨h1, h2⟩ := List.append_inj' h rfl
    cases h2
  · exact absurd h (key hm hhash)
  · obtain ⟨h1, h2⟩ := List.append_inj' h rfl
    cases h2
  · obtain ⟨h1, h2⟩ := List.append_inj' h rfl
    exact ⟨h1, rfl⟩

/-- Where a site of a plain description is. -/
theorem located {uc : UC} {j : Json} (hd : PlainDesc uc j) {ns : List Str} (hn : ∀ n ∈ ns, Plain uc n) {s : Site}
    (h : At ("$".toList :: ns) j s) : ∃ ms sp, (∀ n ∈ ms, Plain uc n) ∧ sp.Fine ∧ s.expr = exprOf ms sp := by
  induction hd generalizing ns with
  | other o hp =>
    generalize hj : Json.obj o = j at h
    cases h with
    | element _ _ d n _ hp' => cases hj; exact absurd hp' (hp d n)
    | attr _ _ d n _ _ _ hp' => cases hj; exact absurd hp' (hp d n)
    | child _ _ d n _ _ _ hp' => cases hj; exact absurd hp' (hp d n)
    | text => exact ⟨ns, .text, hn, trivial, rfl⟩
    | noMatcher => exact ⟨ns, .text, hn, trivial, rfl⟩
  | element o d n hp hpl has hch ih =>
    have hn' : ∀ x ∈ ns ++ [n], Plain uc x := by
      intro x hx
      rcases List.mem_append.1 hx with h1 | h1
      · exact hn x h1
      · rw [List.mem_singleton] at h1; subst h1; exact hpl
    generalize hj : Json.obj o = j at h
    cases h with
    | element _ _ d' n' _ hp' =>
      cases hj
      obtain ⟨rfl, rfl⟩ := part_unique hp hp'
      exact ⟨ns ++ [n], .elem, hn', trivial, rfl⟩
    | attr _ _ d' n' as k m hp' h1 h2 =>
      cases hj
      obtain ⟨rfl, rfl⟩ := part_unique hp hp'
      exact ⟨ns ++ [n], .attr k, hn', has as k _ h1 h2, rfl⟩
    | child _ _ d' n' xs x _ hp' h1 h2 h3 =>
      cases hj
      obtain ⟨rfl, rfl⟩ := part_unique hp hp'
      exact ih xs x h1 h2 hn' h3
    | text => exact ⟨ns, .text, hn, trivial, rfl⟩
    | noMatcher => exact ⟨ns, .text, hn, trivial, rfl⟩

theorem place_located {S : Setup} {s : Site} {ms : List Str} {sp : Spot} (hm : ∀ n ∈ ms, Plain S.rules.uc n) (hf : sp.Fine)
    (he : s.expr = exprOf ms sp) {q : DocPath} (hq : Place S s q) : q = ⟨tokensOf ms sp, exprOf ms sp⟩ := by
  have := new_spot hm hf
  unfold Place at hq
  rw [he, this] at hq
  rcases hq with h | ⟨h, _⟩
  · exact (Res.ok.inj h).symm
  · cases h

theorem toVec_spot (ms : List Str) (sp : Spot) (e : Str) : toVec ⟨tokensOf ms sp, e⟩ = "$".toList :: (ms ++ sp.segs) := by
  unfold toVec tokensOf
  rw [List.map_cons, List.map_map]
  congr 1
  exact List.map_id _

theorem elementPath_tokens {uc : UC} {ns : List Str} (h : ∀ n ∈ ns, Plain uc n) :
    (elementPath ns).tokens = .root :: ns.map .field := by
  have key : ∀ (p : DocPath) (ns : List Str), (∀ n ∈ ns, Plain uc n) → (ns.foldl join p).tokens = p.tokens ++ ns.map .field := by
    intro p ns hn
    induction ns generalizing p with
    | nil => simp
    | cons n ns ih =>
      obtain ⟨h1, h2⟩ := List.forall_mem_cons.1 hn
      rw [List.foldl_cons, ih _ h2, MultipartProps.join_plain]
      · simp [pushField]
      · have hc : ∀ c ∈ n, c ≠ '*' ∧ c ≠ '[' := by
          intro c hc
          have := h1.2.1 c hc
          constructor
          · rintro rfl
            have h2 := uc_not_alnum uc '*' (by decide) (by decide) (by decide)
            rw [h2.1, h2.2] at this; simp at this
          · rintro rfl
            have h2 := uc_not_alnum uc '[' (by decide) (by decide) (by decide)
            rw [h2.1, h2.2] at this; simp at this
        refine ⟨h1.1, ?_, ?_, h1.2.2⟩
        · rintro rfl; exact (hc '*' (by simp)).1 rfl
        · rintro rfl; exact (hc '[' (by simp)).2 rfl
  rw [elementPath, key _ _ h]
  rfl

theorem digitsVal_first {c : Char} (hc : c.isDigit = false) (s : Str) (n : Nat) : digitsVal n (c :: s) = none := by
  unfold digitsVal
  simp [hc]

theorem join_mark (p : DocPath) {c : Char} (hc : c = '@' ∨ c = '#') (k : Str) :
    (join p (c :: k)).tokens = p.tokens ++ [.field (c :: k)] := by
  rw [MultipartProps.join_plain]
  · rfl
  · refine ⟨by simp, ?_, ?_, ?_⟩
    · rcases hc with rfl | rfl <;> simp
    · rcases hc with rfl | rfl <;> simp
    · rw [parseUsize_of_head (by rcases hc with rfl | rfl <;> simp)]
      unfold parseDigits
      rw [digitsVal_first (by rcases hc with rfl | rfl <;> decide)]
      rfl

/-! ## Where matchers are written -/

/-- The matcher `m` is written at the attribute, the text or the element itself (`sp`) of the element whose names from the
root on are `ms`; the description is below the elements `ns`. -/
inductive Written : List Str → Json → List Str → Spot → Obj → Prop
  | element (ns : List Str) (o d : Obj) (n : Str) : IsMatcher o → Part o d n → Written ns (.obj o) (ns ++ [n]) .elem o
  | attr (ns : List Str) (o d : Obj) (n : Str) (as : Obj) (k : Str) (m : Obj) : Part o d n →
      RuleJson.get "attributes" d = some (.obj as) → (k, .obj m) ∈ as → IsMatcher m →
      Written ns (.obj o) (ns ++ [n]) (.attr k) m
  | text (ns : List Str) (o : Obj) (c : Json) (m : Obj) : ¬ IsMatcher o → RuleJson.get "content" o = some c →
      RuleJson.get "matcher" o = some (.obj m) → Written ns (.obj o) ns .text m
  | child (ns : List Str) (o d : Obj) (n : Str) (xs : List Json) (x : Json) (ms : List Str) (sp : Spot) (m : Obj) :
      Part o d n → RuleJson.get "children" d = some (.arr xs) → x ∈ xs → Written (ns ++ [n]) x ms sp m →
      Written ns (.obj o) ms sp m

/-- The rules `rs` are written at a spot. -/
def RulesAt (S : Setup) (j : Json) (ms : List Str) (sp : Spot) (rs : List MatchingRule) : Prop :=
  rs ≠ [] ∧ ∃ m g, Written [] j ms sp m ∧ Means S m rs g

/-- The path of a spot for the comparison (see `XmlProps.Level`). -/
def spotPath (ms : List Str) : Spot → DocPath
  | .elem => elementPath ms
  | .attr k => join (elementPath ms) ('@' :: k)
  | .text => join (elementPath ms) "#text".toList

theorem written_at {ns : List Str} {j : Json} {ms : List Str} {sp : Spot} {m : Obj} (h : Written ns j ms sp m) :
    ∃ s, At ("$".toList :: ns) j s ∧ s.expr = exprOf ms sp ∧ s.matcher = m := by
  induction h with
  | element ns o d n h1 h2 => exact ⟨_, .element _ o d n h1 h2, rfl, rfl⟩
  | attr ns o d n as k m h1 h2 h3 h4 => exact ⟨_, .attr _ o d n as k m h1 h2 h3 h4, rfl, rfl⟩
  | text ns o c m h1 h2 h3 => exact ⟨_, .text _ o c m h1 h2 h3, rfl, rfl⟩
  | child ns o d n xs x ms sp m h1 h2 h3 _ ih =>
    obtain ⟨s, h4, h5, h6⟩ := ih
    exact ⟨s, .child _ o d n xs x s h1 h2 h3 h4, h5, h6⟩

theorem at_written {S : Setup} {path : List Str} {j : Json} {s : Site} (h : At path j s) {ns : List Str}
    (hp : path = "$".toList :: ns) {rs : List MatchingRule} {g : Option Generator} (hm : Means S s.matcher rs g) :
    ∃ ms sp, s.expr = exprOf ms sp ∧ Written ns j ms sp s.matcher := by
  induction h generalizing ns with
  | element path o d n h1 h2 => subst hp; exact ⟨_, .elem, rfl, .element ns o d n h1 h2⟩
  | attr path o d n as k m h1 h2 h3 h4 => subst hp; exact ⟨_, .attr k, rfl, .attr ns o d n as k m h1 h2 h3 h4⟩
  | text path o c m h1 h2 h3 => subst hp; exact ⟨_, .text, rfl, .text ns o c m h1 h2 h3⟩
  | noMatcher path o c v h1 h2 h3 h4 =>
    have : IsMatcher [] := means_matcher hm
    exact absurd this (by unfold IsMatcher; decide)
  | child path o d n xs x s h1 h2 h3 _ ih =>
    subst hp
    obtain ⟨ms, sp, h5, h6⟩ := ih rfl hm
    exact ⟨ms, sp, h5, .child ns o d n xs x ms sp _ h1 h2 h3 h6⟩

theorem written_plain {uc : UC} {j : Json} (hd : PlainDesc uc j) {ns ms : List Str} {sp : Spot} {m : Obj}
    (hn : ∀ n ∈ ns, Plain uc n) (h : Written ns j ms sp m) : (∀ n ∈ ms, Plain uc n) ∧ sp.Fine := by
  induction hd generalizing ns with
  | other o hp =>
    generalize hj : Json.obj o = j at h
    cases h with
    | element _ _ d n _ hp' => cases hj; exact absurd hp' (hp d n)
    | attr _ _ d n _ _ _ hp' => cases hj; exact absurd hp' (hp d n)
    | child _ _ d n _ _ _ _ _ hp' => cases hj; exact absurd hp' (hp d n)
    | text => exact ⟨hn, trivial⟩
  | element o d n hp hpl has hch ih =>
    have hn' : ∀ x ∈ ns ++ [n], Plain uc x := by
      intro x hx
      rcases List.mem_append.1 hx with h1 | h1
      · exact hn x h1
      · rw [List.mem_singleton] at h1; subst h1; exact hpl
    generalize hj : Json.obj o = j at h
    cases h with
    | element _ _ d' n' _ hp' =>
      cases hj
      obtain ⟨rfl, rfl⟩ := part_unique hp hp'
      exact ⟨hn', trivial⟩
    | attr _ _ d' n' as k m hp' h1 h2 =>
      cases hj
      obtain ⟨rfl, rfl⟩ := part_unique hp hp'
      exact ⟨hn', has as k _ h1 h2⟩
    | child _ _ d' n' xs x _ _ _ hp' h1 h2 h3 =>
      cases hj
      obtain ⟨rfl, rfl⟩ := part_unique hp hp'
      exact ih xs x h1 h2 hn' h3
    | text => exact ⟨hn, trivial⟩

theorem toVec_spotPath {uc : UC} {ms : List Str} (h : ∀ n ∈ ms, Plain uc n) (sp : Spot) :
    toVec (spotPath ms sp) = "$".toList :: (ms ++ sp.segs) := by
  have h0 := elementPath_tokens h
  have h1 : (spotPath ms sp).tokens = tokensOf ms sp := by
    cases sp with
    | elem => simp [spotPath, h0, tokensOf, Spot.segs]
    | attr k => simp [spotPath, join_mark _ (.inl rfl), h0, tokensOf, Spot.segs]
    | text =>
      have e : "#text".toList = '#' :: "text".toList := by decide
      simp only [spotPath, tokensOf, Spot.segs, e, join_mark _ (.inr rfl), h0]
      simp
  have := toVec_spot ms sp []
  unfold toVec at this ⊢
  rw [h1]
  exact this

/-! ## The table -/

theorem addRules_inv (l : List (DocPath × MatchingRule)) (c : RuleCategory) (hn : KeysNodup c.rules) :
    KeysNodup (addRules l c).rules ∧ ∀ e ∈ (addRules l c).rules, e.1 ∈ c.rules.map (·.1) ∨ e.1 ∈ l.map (·.1) := by
  induction l generalizing c with
  | nil => exact ⟨hn, fun e he => .inl (List.mem_map.2 ⟨e, he, rfl⟩)⟩
  | cons x l ih =>
    have e1 : addRules (x :: l) c = addRules l (addRule c x.1 x.2 .and) := rfl
    rw [e1]
    have hn' : KeysNodup (addRule c x.1 x.2 .and).rules := PatternProps.upsert_nodup _ _ _ _ hn
    obtain ⟨h1, h2⟩ := ih _ hn'
    refine ⟨h1, fun e he => ?_⟩
    rcases h2 e he with h3 | h3
    · obtain ⟨y, hy, hye⟩ := List.mem_map.1 h3
      rcases (PatternProps.mem_upsert _ _ _ _ hn y).1 hy with h4 | ⟨z, h4, _, rfl⟩ | ⟨rfl, _⟩
      · exact .inl (List.mem_map.2 ⟨y, h4.1, hye⟩)
      · exact .inl (List.mem_map.2 ⟨z, h4, hye⟩)
      · exact .inr (by rw [← hye]; exact List.mem_cons_self)
    · exact .inr (List.mem_cons_of_mem _ h3)

theorem lookup_nodup {β : Type} {m : List (DocPath × β)} (hn : KeysNodup m) {e : DocPath × β} (he : e ∈ m) :
    Rules.lookup m e.1 = some e.2 := by
  induction m with
  | nil => cases he
  | cons x xs ih =>
    unfold Rules.lookup
    rw [List.find?_cons]
    rcases List.mem_cons.1 he with rfl | h1
    · rw [(keyIs_iff e.1 e).2 rfl]; rfl
    · have hk : keyIs e.1 x = false := by
        cases hk : keyIs e.1 x with
        | false => rfl
        | true =>
          exact absurd (List.mem_map.2 ⟨e, h1, ((keyIs_iff e.1 x).1 hk).symm⟩) (List.nodup_cons.1 hn).1
      rw [hk]
      exact ih (List.nodup_cons.1 hn).2 h1

theorem lookup_some_mem {β : Type} {m : List (DocPath × β)} {p : DocPath} {v : β} (h : Rules.lookup m p = some v) :
    ∃ e ∈ m, e.1.expr = p.expr ∧ e.2 = v := by
  unfold Rules.lookup at h
  cases hf : m.find? (keyIs p) with
  | none => rw [hf] at h; cases h
  | some e =>
    rw [hf] at h
    cases h
    exact ⟨e, List.mem_of_find?_eq_some hf, (keyIs_iff p e).1 (List.find?_some hf), rfl⟩

theorem prefix_spot (ms : List Str) (sp : Spot) (w : List Str) :
    PrefixMatches (tokensOf ms sp) ("$".toList :: w) ↔ ms ++ sp.segs <+: w := by
  have key : ∀ (xs w : List Str), PrefixMatches (xs.map .field) w ↔ xs <+: w := by
    intro xs
    induction xs with
    | nil => intro w; exact ⟨fun _ => List.nil_prefix, fun _ => ⟨Nat.zero_le _, by intro i t f h; simp at h⟩⟩
    | cons x xs ih =>
      intro w
      cases w with
      | nil => exact ⟨fun h => absurd h.1 (by simp), fun h => absurd (List.prefix_nil.1 h) (by simp)⟩
      | cons y w =>
        rw [List.cons_prefix_cons, ← ih]
        constructor
        · rintro ⟨h1, h2⟩
          refine ⟨?_, Nat.le_of_succ_le_succ h1, fun i t f ht hf => h2 (i + 1) t f ht hf⟩
          have := h2 0 _ _ rfl rfl
          cases this; rfl
        · rintro ⟨rfl, h1, h2⟩
          refine ⟨Nat.succ_le_succ h1, ?_⟩
          intro i t f ht hf
          cases i with
          | zero =>
            simp at ht hf
            subst ht hf
            exact .field x
          | succ i => exact h2 i t f ht hf
  rw [← key]
  unfold tokensOf
  constructor
  · rintro ⟨h1, h2⟩
    exact ⟨Nat.le_of_succ_le_succ h1, fun i t f ht hf => h2 (i + 1) t f ht hf⟩
  · rintro ⟨h1, h2⟩
    refine ⟨Nat.succ_le_succ h1, ?_⟩
    intro i t f ht hf
    cases i with
    | zero =>
      simp at ht hf
      subst ht hf
      exact .root
    | succ i => exact h2 i t f ht hf

theorem tokensOf_exact (ms : List Str) (sp : Spot) : ∀ t ∈ tokensOf ms sp, isExact t = true := by
  intro t ht
  rcases List.mem_cons.1 ht with rfl | h
  · rfl
  · obtain ⟨_, _, rfl⟩ := List.mem_map.1 h; rfl

/-- What the table of a plain description is. -/
theorem table {S : Setup} {moves : Bool} {j : Json} {m : Made} {a a' : Acc} (hd : PlainDesc S.rules.uc j)
    (he : a.cat = emptyCat .body) (h : node S moves ["$".toList] j a = .ok (m, a')) :
    a'.cat.name = .body ∧ KeysNodup a'.cat.rules ∧
    (∀ e ∈ a'.cat.rules, ∃ ms sp rs, RulesAt S j ms sp rs ∧ e.1 = ⟨tokensOf ms sp, exprOf ms sp⟩ ∧
      e.2 = ⟨rulesUnder a'.cat e.1, .and, false⟩) ∧
    (∀ ms sp rs, RulesAt S j ms sp rs → ∃ e ∈ a'.cat.rules, e.1 = ⟨tokensOf ms sp, exprOf ms sp⟩) := by
  have hent := C120_entries h
  have hrul := C120_rules h
  obtain ⟨L, h1, h2, rfl⟩ := node_after h
  have hplain : ∀ ms sp rs, RulesAt S j ms sp rs → (∀ n ∈ ms, Plain S.rules.uc n) ∧ sp.Fine := by
    rintro ms sp rs ⟨_, m, g, hw, _⟩
    exact written_plain hd (by intro n hn; cases hn) hw
  have h0 : KeysNodup a.cat.rules := by rw [he]; simp [emptyCat, KeysNodup]
  obtain ⟨k1, k2⟩ := addRules_inv (L.flatMap (siteRules S)) a.cat h0
  have hkey : ∀ e ∈ (addRules (L.flatMap (siteRules S)) a.cat).rules,
      ∃ ms sp rs, RulesAt S j ms sp rs ∧ e.1 = ⟨tokensOf ms sp, exprOf ms sp⟩ := by
    intro e hm
    rcases k2 e hm with h3 | h3
    · rw [he] at h3; cases h3
    · obtain ⟨⟨q, r⟩, hx, hq⟩ := List.mem_map.1 h3
      obtain ⟨s, hs, e3⟩ := List.mem_flatMap.1 hx
      obtain ⟨r0, e4, e5⟩ := List.mem_map.1 e3
      cases e5
      obtain ⟨rs, g, e6, e7⟩ := (readOf_rules S s.matcher _).1 e4
      have hat := (h1 s).1 hs
      obtain ⟨ms, sp, e8, e9⟩ := at_written hat rfl e6
      have hr : RulesAt S j ms sp rs := ⟨List.ne_nil_of_mem e7, s.matcher, g, e9, e6⟩
      obtain ⟨p1, p2⟩ := hplain ms sp rs hr
      refine ⟨ms, sp, rs, hr, ?_⟩
      rw [← hq]
      exact place_located p1 p2 e8 ((placeOf_iff (h2 s hs) _).2 rfl)
  refine ⟨by rw [hent.1, he]; rfl, k1, ?_, ?_⟩
  · intro e hm
    obtain ⟨ms, sp, rs, hr, hq⟩ := hkey e hm
    refine ⟨ms, sp, rs, hr, hq, ?_⟩
    have hl := lookup_nodup k1 hm
    have hl0 : Rules.lookup a.cat.rules e.1 = none := by rw [he]; rfl
    obtain ⟨l1, l2⟩ := hent.2.2.2 e.1 e.2 hl0 hl
    have : rulesUnder (addRules (L.flatMap (siteRules S)) a.cat) e.1 = e.2.rules := by
      unfold rulesUnder; rw [hl]
    show e.2 = ⟨rulesUnder (addRules (L.flatMap (siteRules S)) a.cat) e.1, .and, false⟩
    rw [this, ← l1, ← l2]
  · rintro ms sp rs hr
    obtain ⟨p1, p2⟩ := hplain ms sp rs hr
    obtain ⟨hne, m, g, hw, hm⟩ := hr
    obtain ⟨s, s1, s2, s3⟩ := written_at hw
    have hq : Place S s ⟨tokensOf ms sp, exprOf ms sp⟩ := by
      left; rw [s2]; exact new_spot p1 p2
    obtain ⟨new, n1, n2, n3⟩ := hrul ⟨tokensOf ms sp, exprOf ms sp⟩
    have hsub := n3 s _ rs g s1 hq rfl (by rw [s3]; exact hm)
    have hne' : new ≠ [] := by
      rintro rfl
      exact hne (List.infix_nil.1 hsub)
    have hl : ∃ rl, Rules.lookup (addRules (L.flatMap (siteRules S)) a.cat).rules ⟨tokensOf ms sp, exprOf ms sp⟩ = some rl := by
      cases hlk : Rules.lookup (addRules (L.flatMap (siteRules S)) a.cat).rules ⟨tokensOf ms sp, exprOf ms sp⟩ with
      | some rl => exact ⟨rl, rfl⟩
      | none =>
        have z : rulesUnder (addRules (L.flatMap (siteRules S)) a.cat) ⟨tokensOf ms sp, exprOf ms sp⟩ = [] := by
          unfold rulesUnder; rw [hlk]
        have z2 : rulesUnder (addRules (L.flatMap (siteRules S)) a.cat) ⟨tokensOf ms sp, exprOf ms sp⟩ =
          rulesUnder a.cat ⟨tokensOf ms sp, exprOf ms sp⟩ ++ new := n1
        rw [z] at z2
        exact absurd (List.append_eq_nil_iff.1 z2.symm).2 hne'
    obtain ⟨rl, hl⟩ := hl
    obtain ⟨e, e1, e2, _⟩ := lookup_some_mem hl
    refine ⟨e, e1, ?_⟩
    obtain ⟨ms', sp', rs', hr', hq'⟩ := hkey e e1
    obtain ⟨p1', p2'⟩ := hplain ms' sp' rs' hr'
    have e3 : exprOf ms' sp' = exprOf ms sp := by rw [hq'] at e2; exact e2
    have e4 := new_spot p1' p2'
    rw [e3, new_spot p1 p2] at e4
    rw [hq', e3]
    exact (Res.ok.inj e4).symm

/-- What is written at a spot ends up, and together, in the rules under its path. -/
theorem rules_spot {S : Setup} {moves : Bool} {j : Json} {m : Made} {a a' : Acc} (hd : PlainDesc S.rules.uc j)
    (he : a.cat = emptyCat .body) (h : node S moves ["$".toList] j a = .ok (m, a')) {ms : List Str} {sp : Spot}
    (hp : (∀ n ∈ ms, Plain S.rules.uc n) ∧ sp.Fine) :
    (∀ r, r ∈ rulesUnder a'.cat ⟨tokensOf ms sp, exprOf ms sp⟩ ↔ ∃ rs, RulesAt S j ms sp rs ∧ r ∈ rs) ∧
    (∀ rs, RulesAt S j ms sp rs → rs <:+: rulesUnder a'.cat ⟨tokensOf ms sp, exprOf ms sp⟩) := by
  obtain ⟨new, n1, n2, n3⟩ := C120_rules h ⟨tokensOf ms sp, exprOf ms sp⟩
  have h0 : rulesUnder a.cat ⟨tokensOf ms sp, exprOf ms sp⟩ = [] := by rw [he]; rfl
  rw [h0, List.nil_append] at n1
  rw [n1]
  have fwd : ∀ rs, RulesAt S j ms sp rs → ∃ s q g, At ["$".toList] j s ∧ Place S s q ∧
      q.expr = exprOf ms sp ∧ Means S s.matcher rs g := by
    rintro rs ⟨_, m, g, hw, hm⟩
    obtain ⟨s, s1, s2, s3⟩ := written_at hw
    exact ⟨s, ⟨tokensOf ms sp, exprOf ms sp⟩, g, s1, by left; rw [s2]; exact new_spot hp.1 hp.2, rfl, by rw [s3]; exact hm⟩
  constructor
  · intro r
    rw [n2]
    constructor
    · rintro ⟨s, q, rs, g, hs, hq, hqe, hm, hr⟩
      obtain ⟨ms', sp', e8, e9⟩ := at_written hs rfl hm
      obtain ⟨p1', p2'⟩ := written_plain hd (by intro n hn; cases hn) e9
      have := place_located p1' p2' e8 hq
      subst this
      have e3 : exprOf ms' sp' = exprOf ms sp := hqe
      have e4 := new_spot p1' p2'
      rw [e3, new_spot hp.1 hp.2] at e4
      have e5 : tokensOf ms sp = tokensOf ms' sp' := congrArg DocPath.tokens (Res.ok.inj e4)
      have e6 : ms ++ sp.segs = ms' ++ sp'.segs := by
        have := (List.cons.inj e5).2
        exact (List.map_inj_right (by intro a b hab; cases hab; rfl)).1 this
      obtain ⟨rfl, rfl⟩ := spot_inj hp.1 p1' e6
      exact ⟨rs, ⟨List.ne_nil_of_mem hr, s.matcher, g, e9, hm⟩, hr⟩
    · rintro ⟨rs, hr, hm⟩
      obtain ⟨s, q, g, h1, h2, h3, h4⟩ := fwd rs hr
      exact ⟨s, q, rs, g, h1, h2, h3, h4, hm⟩
  · intro rs hr
    obtain ⟨s, q, g, h1, h2, h3, h4⟩ := fwd rs hr
    exact n3 s q rs g h1 h2 h3 h4

/-! ## C121 -/

/-- **C121** The rules used for a value of an XML document: those written at the nearest spot on its path. -/
theorem C121_selected_partial {S : Setup} {moves : Bool} {j : Json} {m : Made} {a a' : Acc} (hd : PlainDesc S.rules.uc j)
    (he : a.cat = emptyCat .body) (h : node S moves ["$".toList] j a = .ok (m, a'))
    (hs : ∀ ms sp rs, RulesAt S j ms sp rs → ms.length ≤ 56) (p : DocPath) (w : List Str) (hw : toVec p = "$".toList :: w)
    (ctx : Ctx) (hc : ctx.cat = a'.cat) {ms : List Str} {sp : Spot} {rs : List MatchingRule} (hr : RulesAt S j ms sp rs)
    (hp : ms ++ sp.segs <+: w)
    (hmax : ∀ ms' sp' rs', RulesAt S j ms' sp' rs' → ms' ++ sp'.segs <+: w → (ms' ++ sp'.segs).length ≤ (ms ++ sp.segs).length) :
    Compare.isDefined ctx p = true ∧ ∃ rules, Compare.best ctx p = ⟨rules, .and, decide (ms ++ sp.segs ≠ w)⟩ ∧
      (∀ r, r ∈ rules ↔ ∃ rs, RulesAt S j ms sp rs ∧ r ∈ rs) ∧ (∀ rs, RulesAt S j ms sp rs → rs <:+: rules) := by
  obtain ⟨t1, t2, t3, t4⟩ := table hd he h
  have hshort : ShortPaths a'.cat := by
    intro e hm
    obtain ⟨ms, sp, rs, hr, hq, _⟩ := t3 e hm
    have := hs ms sp rs hr
    rw [hq]
    unfold tokensOf
    have hl : sp.segs.length ≤ 1 := by cases sp <;> simp [Spot.segs]
    simp
    omega
  obtain ⟨e, e1, e2⟩ := t4 ms sp rs hr
  have hpm : PrefixMatches e.1.tokens ("$".toList :: w) := by rw [e2]; exact (prefix_spot ms sp w).2 hp
  have hpl : (∀ n ∈ ms, Plain S.rules.uc n) ∧ sp.Fine := by
    obtain ⟨_, m, g, hw, _⟩ := hr
    exact written_plain hd (by intro n hn; cases hn) hw
  unfold Compare.isDefined Compare.best
  rw [hc, hw]
  refine ⟨MultipartProps.defined_exact _ _ t1 hshort e1 hpm, ?_⟩
  rcases C05_selection_maximal_partial a'.cat ("$".toList :: w) (.inl t1) hshort with ⟨hn, _⟩ | ⟨d, ⟨d1, d2, d3⟩, hsel⟩
  · exact absurd hpm (hn e e1)
  obtain ⟨ms', sp', rs', hr', hq', hl'⟩ := t3 d d1
  have hpl' : (∀ n ∈ ms', Plain S.rules.uc n) ∧ sp'.Fine := by
    obtain ⟨_, m, g, hw, _⟩ := hr'
    exact written_plain hd (by intro n hn; cases hn) hw
  have hp' : ms' ++ sp'.segs <+: w := by rw [hq'] at d2; exact (prefix_spot ms' sp' w).1 d2
  have hle := hmax ms' sp' rs' hr' hp'
  have hge : (ms ++ sp.segs).length ≤ (ms' ++ sp'.segs).length := by
    apply Classical.byContradiction
    intro hlt
    have hlt2 : d.1.tokens.length < e.1.tokens.length := by
      rw [hq', e2]; unfold tokensOf
      rw [List.length_cons, List.length_cons, List.length_map, List.length_map]
      omega
    have := MultipartProps.specificity_short hlt2 (by rw [e2]; exact tokensOf_exact ms sp)
    have := d3 e e1 hpm
    omega
  have heq : ms ++ sp.segs = ms' ++ sp'.segs := by
    rw [List.prefix_iff_eq_take] at hp hp'
    rw [hp, hp']
    congr 1
    omega
  obtain ⟨rfl, rfl⟩ := spot_inj hpl.1 hpl'.1 heq
  refine ⟨rulesUnder a'.cat ⟨tokensOf ms sp, exprOf ms sp⟩, ?_, rules_spot hd he h hpl⟩
  rw [hsel, hl', hq']
  congr 1
  unfold tokensOf
  rw [decide_eq_decide, List.length_cons, List.length_cons, List.length_map]
  have hlen := hp.length_le
  constructor
  · intro hlt heq
    rw [heq] at hlt
    omega
  · intro hne
    apply Classical.byContradiction
    intro hge
    exact hne (hp.eq_of_length (by omega))

/-- **C121** The rules written at an element, an attribute or a text are the ones used for it. -/
theorem C121_own_partial {S : Setup} {moves : Bool} {j : Json} {m : Made} {a a' : Acc} (hd : PlainDesc S.rules.uc j)
    (he : a.cat = emptyCat .body) (h : node S moves ["$".toList] j a = .ok (m, a'))
    (hs : ∀ ms sp rs, RulesAt S j ms sp rs → ms.length ≤ 56) (ctx : Ctx) (hc : ctx.cat = a'.cat) {ms : List Str} {sp : Spot}
    {rs : List MatchingRule} (hr : RulesAt S j ms sp rs) :
    Compare.isDefined ctx (spotPath ms sp) = true ∧ ∃ rules, Compare.best ctx (spotPath ms sp) = ⟨rules, .and, false⟩ ∧
      (∀ r, r ∈ rules ↔ ∃ rs, RulesAt S j ms sp rs ∧ r ∈ rs) ∧ (∀ rs, RulesAt S j ms sp rs → rs <:+: rules) := by
  have hpl : (∀ n ∈ ms, Plain S.rules.uc n) ∧ sp.Fine := by
    obtain ⟨_, m, g, hw, _⟩ := hr
    exact written_plain hd (by intro n hn; cases hn) hw
  have := C121_selected_partial hd he h hs (spotPath ms sp) _ (toVec_spotPath hpl.1 sp) ctx hc hr List.prefix_rfl
    (fun _ _ _ _ hp => hp.length_le)
  simpa using this

/-- **C121** A value with no rules written at it or at an element around it has no rule. -/
theorem C121_none {S : Setup} {moves : Bool} {j : Json} {m : Made} {a a' : Acc} (hd : PlainDesc S.rules.uc j)
    (he : a.cat = emptyCat .body) (h : node S moves ["$".toList] j a = .ok (m, a'))
    (hs : ∀ ms sp rs, RulesAt S j ms sp rs → ms.length ≤ 56) (p : DocPath) (w : List Str) (hw : toVec p = "$".toList :: w)
    (ctx : Ctx) (hc : ctx.cat = a'.cat) (hn : ∀ ms sp rs, RulesAt S j ms sp rs → ¬ ms ++ sp.segs <+: w) :
    Compare.isDefined ctx p = false := by
  obtain ⟨t1, t2, t3, t4⟩ := table hd he h
  rw [LocalityProps.isDefined_body (by rw [hc]; exact t1)]
  rw [Bool.not_eq_false', List.isEmpty_iff]
  unfold LocalityProps.entriesAt
  rw [List.filter_eq_nil_iff]
  intro e hm hmp
  rw [hc] at hm
  obtain ⟨ms, sp, rs, hr, hq, _⟩ := t3 e hm
  refine hn ms sp rs hr ?_
  rw [← prefix_spot]
  have hlen : e.1.tokens.length ≤ 58 := by
    have := hs ms sp rs hr
    rw [hq]
    unfold tokensOf
    have hl : sp.segs.length ≤ 1 := by cases sp <;> simp [Spot.segs]
    simp
    omega
  have := (matches_iff (toVec p) hlen).1 hmp
  rw [hq, hw] at this
  exact this

/-- **C121** The document that is built is accepted for itself with the rules that are built, if they are type and
equality rules and children of the same name are equal. -/
theorem C121_self_partial {S : Setup} {moves : Bool} {j : Json} {e : Elem} {a a' : Acc} (hd : PlainDesc S.rules.uc j)
    (he : a.cat = emptyCat .body) (h : node S moves ["$".toList] j a = .ok (.elem e, a'))
    (hr : ∀ ms sp rs, RulesAt S j ms sp rs → ∀ r ∈ rs, r = .type ∨ r = .equality) (hu : XmlProps.Uniform e)
    (env : Env) (uc : UC) (ctx : Ctx) (hc : ctx.cat = a'.cat) : compareRoot env uc ctx e e = [] := by
  obtain ⟨t1, t2, t3, t4⟩ := table hd he h
  refine XmlProps.C90_self_type env uc ctx (by rw [hc]; exact t1) ?_ e hu
  intro x hx
  rw [hc] at hx
  obtain ⟨ms, sp, rs, hra, hq, hl⟩ := t3 x hx
  have hpl : (∀ n ∈ ms, Plain S.rules.uc n) ∧ sp.Fine := by
    obtain ⟨_, m, g, hw, _⟩ := hra
    exact written_plain hd (by intro n hn; cases hn) hw
  have hrs := rules_spot hd he h hpl
  rw [hl, hq]
  constructor
  · have := hrs.2 rs hra
    intro hz
    have hz2 : rulesUnder a'.cat ⟨tokensOf ms sp, exprOf ms sp⟩ = [] := hz
    rw [hz2] at this
    exact hra.1 (List.infix_nil.1 this)
  · intro r hrm
    obtain ⟨rs', hr', hm'⟩ := (hrs.1 r).1 hrm
    exact hr ms sp rs' hr' r hm'

/-! ## Witnesses -/

open XmlProps (el tx)

/-- A description with matchers at an element, an attribute and a text. -/
def exX : Json := obj [("name", js "a"), ("attributes", obj [("id", js "1")]), ("children", .arr [
  obj [("pact:matcher:type", js "type"), ("examples", .num (.pos 2)), ("value", obj [("name", js "b"),
    ("attributes", obj [("id", obj [("pact:matcher:type", js "integer"), ("value", .num (.pos 3))])]),
    ("children", .arr [obj [("content", js "x"),
      ("matcher", obj [("pact:matcher:type", js "regex"), ("regex", js "[a-z]")])]])])]])]

/-- The rules of the description. -/
def exXAcc : Acc :=
  ⟨⟨.body, [(⟨[.root, .field "a".toList, .field "b".toList], "$.a.b".toList⟩, ⟨[.type], .and, false⟩),
    (⟨[.root, .field "a".toList, .field "b".toList, .field "@id".toList], "$.a.b['@id']".toList⟩,
      ⟨[.integer], .and, false⟩),
    (⟨[.root, .field "a".toList, .field "b".toList, .field "#text".toList], "$.a.b.#text".toList⟩,
      ⟨[.regex "[a-z]".toList], .and, false⟩)]⟩, []⟩

/-- The element that is repeated. -/
def exProject : Elem := el "b" [("id", "3")] [tx "x"]

theorem C119_witness : node S0 false ["$".toList] exX a0 =
    .ok (.elem (el "a" [("id", "1")] [.inl exProject, .inl exProject]), exXAcc) := by rfl

/-- If the library moves text nodes, only the first of the copies has the texts. -/
theorem C119_moved_texts : node S0 true ["$".toList] exX a0 =
    .ok (.elem (el "a" [("id", "1")] [.inl exProject, .inl (el "b" [("id", "3")] [])]), exXAcc) := by rfl

/-- A description without a name or content aborts the program, as does a number of examples that is not a natural number. -/
theorem C119_abort_witness : node S0 false ["$".toList] (obj [("attributes", obj [])]) a0 = .panic ∧
    node S0 false ["$".toList] (obj [("name", js "a"), ("children", .arr [obj [("name", js "b"),
      ("examples", .num (.neg 0))]])]) a0 = .panic := ⟨rfl, rfl⟩





theorem plain_ascii {n : Str} (h : (!n.isEmpty && n.all (fun c => c.isAlpha) && (parseUsize n).isNone) = true) : Plain UC.ascii n := by
  simp only [Bool.and_eq_true, Bool.not_eq_true', List.isEmpty_eq_false_iff, List.all_eq_true, Option.isNone_iff_eq_none] at h
  exact ⟨h.1.1, fun c hc => .inl (h.1.2 c hc), h.2⟩

/-- The description of the project. -/
def exB : Obj := [("attributes".toList, obj [("id", obj [("pact:matcher:type", js "integer"), ("value", .num (.pos 3))])]),
    ("children".toList, .arr [obj [("content", js "x"),
      ("matcher", obj [("pact:matcher:type", js "regex"), ("regex", js "[a-z]")])]]), ("name".toList, js "b")]

theorem ex_plain : PlainDesc UC.ascii exX := by
  have hx : ∃ o, exX = .obj o ∧ Part o o "a".toList ∧ RuleJson.get "attributes" o = some (.obj [("id".toList, js "1")]) ∧
      RuleJson.get "children" o = some (.arr [obj [("pact:matcher:type", js "type"), ("examples", .num (.pos 2)), ("value", .obj exB)]]) :=
    ⟨_, rfl, ⟨.inr ⟨(by intro h; cases h), rfl, rfl⟩, _, rfl, rfl⟩, rfl, rfl⟩
  obtain ⟨o, ho, hp, ha, hc⟩ := hx
  rw [ho]
  refine .element o o _ hp (plain_ascii (by decide)) ?_ ?_
  · intro as k v has hk
    rw [ha] at has
    cases has
    simp only [List.mem_cons, List.not_mem_nil, or_false] at hk
    cases hk
    decide
  · intro xs x hxs hm
    rw [hc] at hxs
    cases hxs
    rw [List.mem_singleton] at hm
    rw [hm]
    have hy : ∃ q, obj [("pact:matcher:type", js "type"), ("examples", .num (.pos 2)), ("value", .obj exB)] = .obj q ∧
        Part q exB "b".toList := ⟨_, rfl, .inl ⟨rfl, rfl⟩, _, rfl, rfl⟩
    obtain ⟨q, hq, hp⟩ := hy
    rw [hq]
    refine .element q exB _ hp (plain_ascii (by decide)) ?_ ?_
    · intro as k v has hk
      have h1 : RuleJson.get "attributes" exB =
          some (.obj [("id".toList, obj [("pact:matcher:type", js "integer"), ("value", .num (.pos 3))])]) := rfl
      rw [h1] at has
      cases has
      simp only [List.mem_cons, List.not_mem_nil, or_false] at hk
      cases hk
      decide
    · intro xs x hxs hm
      have h1 : RuleJson.get "children" exB = some (.arr [obj [("content", js "x"),
        ("matcher", obj [("pact:matcher:type", js "regex"), ("regex", js "[a-z]")])]]) := rfl
      rw [h1] at hxs
      cases hxs
      rw [List.mem_singleton] at hm
      rw [hm]
      have hz : ∃ q, obj [("content", js "x"), ("matcher", obj [("pact:matcher:type", js "regex"), ("regex", js "[a-z]")])] = .obj q ∧
        ¬ IsMatcher q ∧ RuleJson.get "content" q = some (js "x") := ⟨_, rfl, (by intro h; cases h), rfl⟩
      obtain ⟨q, hq, h2, h3⟩ := hz
      rw [hq]
      refine .other q ?_
      rintro d n ⟨h4 | h4, _⟩
      · exact h2 h4.1
      · rw [h3] at h4; cases h4.2.1

theorem ex_rules : RulesAt S0 exX ["a".toList, "b".toList] .elem [.type] ∧
    RulesAt S0 exX ["a".toList, "b".toList] (.attr "id".toList) [.integer] ∧
    RulesAt S0 exX ["a".toList, "b".toList] .text [.regex "[a-z]".toList] := by
  have hx : ∃ o, exX = .obj o ∧ Part o o "a".toList ∧
      RuleJson.get "children" o = some (.arr [obj [("pact:matcher:type", js "type"), ("examples", .num (.pos 2)), ("value", .obj exB)]]) :=
    ⟨_, rfl, ⟨.inr ⟨(by intro h; cases h), rfl, rfl⟩, _, rfl, rfl⟩, rfl⟩
  obtain ⟨o, ho, hp, hc⟩ := hx
  have hy : ∃ q, obj [("pact:matcher:type", js "type"), ("examples", .num (.pos 2)), ("value", .obj exB)] = .obj q ∧
      IsMatcher q ∧ Part q exB "b".toList ∧ matchersFrom S0 q = .ok ([.type], none) := ⟨_, rfl, rfl, ⟨.inl ⟨rfl, rfl⟩, _, rfl, rfl⟩, rfl⟩
  obtain ⟨q, hq, hqm, hqp, hqr⟩ := hy
  have down : ∀ {sp m}, Written ["a".toList] (.obj q) ["a".toList, "b".toList] sp m →
      Written [] exX ["a".toList, "b".toList] sp m := by
    intro sp m h
    rw [ho]
    refine .child [] o o _ _ _ _ sp m hp hc List.mem_cons_self ?_
    rw [hq]
    exact h
  refine ⟨⟨by simp, q, none, down (.element _ q exB _ hqm hqp), (matchersFrom_iff S0 q hqm _ _).1 hqr⟩, ?_, ?_⟩
  · have hm : ∃ m, obj [("pact:matcher:type", js "integer"), ("value", .num (.pos 3))] = .obj m ∧ IsMatcher m ∧
        matchersFrom S0 m = .ok ([.integer], none) := ⟨_, rfl, rfl, rfl⟩
    obtain ⟨m, hm, hmm, hmr⟩ := hm
    refine ⟨by simp, m, none, down (.attr _ q exB _ [("id".toList, .obj m)] _ m hqp ?_ List.mem_cons_self hmm),
      (matchersFrom_iff S0 m hmm _ _).1 hmr⟩
    rw [← hm]; rfl
  · have hm : ∃ m, obj [("pact:matcher:type", js "regex"), ("regex", js "[a-z]")] = .obj m ∧ IsMatcher m ∧
        matchersFrom S0 m = .ok ([.regex "[a-z]".toList], none) := ⟨_, rfl, rfl, rfl⟩
    obtain ⟨m, hm, hmm, hmr⟩ := hm
    refine ⟨by simp, m, none, down ?_, (matchersFrom_iff S0 m hmm _ _).1 hmr⟩
    have hz : ∃ t, obj [("content", js "x"), ("matcher", obj [("pact:matcher:type", js "regex"), ("regex", js "[a-z]")])] = .obj t ∧
        ¬ IsMatcher t ∧ RuleJson.get "content" t = some (js "x") ∧ RuleJson.get "matcher" t = some (.obj m) :=
      ⟨_, rfl, (by intro h; cases h), rfl, by rw [← hm]; rfl⟩
    obtain ⟨t, ht, h1, h2, h3⟩ := hz
    refine .child _ q exB _ _ (.obj t) _ .text m hqp rfl ?_ (.text _ t _ m h1 h2 h3)
    rw [← ht]
    exact List.mem_cons_self

/-- The hypotheses of C121 are met by the example, and its rules are used. -/
theorem C121_witness : PlainDesc S0.rules.uc exX ∧ (∀ ms sp rs, RulesAt S0 exX ms sp rs → ms.length ≤ 56) ∧
    (∃ rules, Compare.best ⟨exXAcc.cat, .allowUnexpectedKeys⟩ (spotPath ["a".toList, "b".toList] .text) = ⟨rules, .and, false⟩ ∧
      .regex "[a-z]".toList ∈ rules) ∧
    Compare.isDefined ⟨exXAcc.cat, .allowUnexpectedKeys⟩ (elementPath ["a".toList]) = false := by
  have hb : ∀ ms sp rs, RulesAt S0 exX ms sp rs → ms.length ≤ 56 := by
    intro ms sp rs hr
    obtain ⟨e, e1, e2⟩ := (table ex_plain rfl C119_witness).2.2.2 ms sp rs hr
    have h : e.1.tokens.length ≤ 4 := by
      have : ∀ e ∈ exXAcc.cat.rules, e.1.tokens.length ≤ 4 := by decide
      exact this e e1
    rw [e2] at h
    unfold tokensOf at h
    simp at h
    omega
  refine ⟨ex_plain, hb, ?_, rfl⟩
  obtain ⟨_, rules, h1, h2, h3⟩ := C121_own_partial ex_plain rfl C119_witness hb ⟨exXAcc.cat, .allowUnexpectedKeys⟩ rfl ex_rules.2.2
  exact ⟨rules, h1, (h2 _).2 ⟨_, ex_rules.2.2, List.mem_cons_self⟩⟩

/-- An element with a full stop in its name: the rule is at another path, so that it is not used for the element. -/
theorem C121_full_stop : ∃ e a', node S0 false ["$".toList] (obj [("pact:matcher:type", js "type"),
      ("value", obj [("name", js "a.b")])]) a0 = .ok (.elem e, a') ∧ nameStr e.name = "a.b".toList ∧ a'.cat.rules.length = 1 ∧
    Compare.isDefined ⟨a'.cat, .allowUnexpectedKeys⟩ (join rootPath (nameStr e.name)) = false :=
  ⟨_, _, rfl, rfl, rfl, rfl⟩

/-- An element whose name is no part of a path expression: the rule is at the root, so that it is used for everything that
has no other. -/
theorem C121_everywhere : ∃ e a', node S0 false ["$".toList] (obj [("name", js "a"), ("children", .arr [
      obj [("pact:matcher:type", js "type"), ("value", obj [("name", js "b·c")])]])]) a0 = .ok (.elem e, a') ∧
    a'.cat.rules = [(rootPath, ⟨[.type], .and, false⟩)] ∧
    Compare.best ⟨a'.cat, .allowUnexpectedKeys⟩ (join rootPath "a".toList) = ⟨[.type], .and, true⟩ :=
  ⟨_, _, rfl, rfl, rfl⟩

/-- The hypotheses of `C121_self_partial` are met by an element with a type matcher and a child. -/
theorem C121_self_witness : ∃ j a', PlainDesc S0.rules.uc j ∧
    node S0 false ["$".toList] j a0 = .ok (.elem (el "a" [] [.inl (el "b" [] [])]), a') ∧ a'.cat.rules.length = 1 ∧
    (∀ ms sp rs, RulesAt S0 j ms sp rs → ∀ r ∈ rs, r = .type ∨ r = .equality) ∧
    XmlProps.Uniform (el "a" [] [.inl (el "b" [] [])]) := by
  have hb : ∃ b : Obj, obj [("name", js "b")] = .obj b ∧ Part b b "b".toList ∧ RuleJson.get "attributes" b = none ∧
      RuleJson.get "children" b = none := ⟨_, rfl, ⟨.inr ⟨(by intro h; cases h), rfl, rfl⟩, _, rfl, rfl⟩, rfl, rfl⟩
  have hd : ∃ d : Obj, obj [("name", js "a"), ("children", .arr [obj [("name", js "b")]])] = .obj d ∧
      (∃ x, RuleJson.get "name" d = some x ∧ "a".toList = x.toStr) ∧ RuleJson.get "attributes" d = none ∧
      RuleJson.get "children" d = some (.arr [obj [("name", js "b")]]) := ⟨_, rfl, ⟨_, rfl, rfl⟩, rfl, rfl⟩
  obtain ⟨b, hb0, hb1, hb2, hb3⟩ := hb
  obtain ⟨d, hd0, hd1, hd2, hd3⟩ := hd
  have hq : ∃ q : Obj, obj [("pact:matcher:type", js "type"),
      ("value", obj [("name", js "a"), ("children", .arr [obj [("name", js "b")]])])] = .obj q ∧ IsMatcher q ∧
      RuleJson.get "value" q = some (.obj d) := ⟨_, rfl, rfl, by rw [← hd0]; rfl⟩
  obtain ⟨q, hq0, hq1, hq2⟩ := hq
  have hpb : PlainDesc UC.ascii (.obj b) := .element b b _ hb1 (plain_ascii (by decide))
    (by intro as k v h; rw [hb2] at h; cases h) (by intro xs x h; rw [hb3] at h; cases h)
  have hpq : PlainDesc UC.ascii (.obj q) := .element q d _ ⟨.inl ⟨hq1, hq2⟩, hd1⟩ (plain_ascii (by decide))
    (by intro as k v h; rw [hd2] at h; cases h) (by
      intro xs x h hx
      rw [hd3] at h
      cases h
      rw [List.mem_singleton] at hx
      rw [hx, hb0]
      exact hpb)
  rw [← hq0] at hpq
  have hnode : node S0 false ["$".toList] (obj [("pact:matcher:type", js "type"),
      ("value", obj [("name", js "a"), ("children", .arr [obj [("name", js "b")]])])]) a0 =
      .ok (.elem (el "a" [] [.inl (el "b" [] [])]),
        ⟨⟨.body, [(⟨[.root, .field "a".toList], "$.a".toList⟩, ⟨[.type], .and, false⟩)]⟩, []⟩) := rfl
  refine ⟨_, _, hpq, hnode, rfl, ?_, ?_⟩
  · intro ms sp rs hr r hm
    have hp : (∀ n ∈ ms, Plain UC.ascii n) ∧ sp.Fine := by
      obtain ⟨_, m, g, hw, _⟩ := hr
      exact written_plain hpq (by intro n hn; cases hn) hw
    have h1 := (rules_spot hpq rfl hnode hp).1 r |>.2 ⟨rs, hr, hm⟩
    have h2 : ∀ (c : RuleCategory) (p : DocPath), (∀ e ∈ c.rules, e.2.rules = [.type]) → r ∈ rulesUnder c p → r = .type := by
      intro c p hc hr
      unfold rulesUnder at hr
      split at hr
      · rename_i rl hl
        obtain ⟨e, e1, e2, rfl⟩ := lookup_some_mem hl
        rw [hc e e1, List.mem_singleton] at hr
        exact hr
      · cases hr
    refine .inl (h2 _ _ ?_ h1)
    intro e he
    have he' : e = (⟨[.root, .field "a".toList], "$.a".toList⟩, ⟨[.type], .and, false⟩) := List.mem_singleton.1 he
    rw [he']
  · have hne : ∀ k, ∀ c ∈ XmlProps.named k (el "a" [] [.inl (el "b" [] [])]), c = el "b" [] [] := by
      intro k c hc
      have := (XmlProps.named_sub hc).1
      exact List.mem_singleton.1 this
    refine .mk _ (fun k c hc d hd => by rw [hne k c hc, hne k d hd]) ?_
    intro c hc
    have : c = el "b" [] [] := List.mem_singleton.1 hc
    rw [this]
    refine .mk _ (fun k c hc => ?_) (fun c hc => by cases hc)
    have := (XmlProps.named_sub hc).1
    cases this

end XmlPathProps
end Verif
