import Verif.Props.PactBuilderProps
import Verif.Props.PactFileProps
import Verif.Props.MessageBuilderProps
import Verif.Props.BuilderProps

set_option autoImplicit false

namespace Verif
namespace BuilderFileProps
open Path Rules RuleJson Generate PactFile Query Headers Parts Patterns Builders MessageBuilders PactBuild
open PatternProps PathProps RuleJsonProps PactFileProps
open GenerateProps (GeneratorsOk GenTableOk)
open PactV3 (AnyPact)

/-! ### Specification -/

/-- What is assumed of the library for content types: a type that was read from a text, that was detected, or that is unknown
can be read from the text it is written as. -/
structure TypesOk (E : FileEnv) : Prop where
  unknown : Parses E .unknown
  parsed : ∀ s ct, E.parseCT s = some ct → Parses E ct
  detected : ∀ b ct, E.detectBytes b = some ct → Parses E ct

/-- A pattern that can be written: at every level, the names of the fields are not empty and have neither a quote nor a
backslash (see C01), arrays have the size of a vector, and the rules given for an object can be written (see C34). -/
def PatternOk (uc : UC) : Pattern → Prop := Everywhere fun
  | .obj fields => ∀ f ∈ fields, PlainKey f.1
  | .arr items => items.length ≤ usizeLim
  | .objectMatching _ rs => ∀ r ∈ rs, Writable uc r ∧ Complete r
  | _ => True

/-- A name for which there are rules: not `matchers`, which is taken for the rules themselves. -/
def NameOk (n : Str) (p : SPattern) : Prop := (∃ s, p = .lit s) ∨ n ≠ "matchers".toList

/-- A call on a part that can be written. -/
def PartCallOk (uc : UC) : PartCall → Prop
  | .header n v => NameOk n v
  | .headerState n _ v => NameOk n v
  | .jsonBody p => PatternOk uc p
  | _ => True

/-- A call on a request that can be written. -/
def RequestCallOk (uc : UC) : RequestCall → Prop
  | .query k v => NameOk k v
  | .part c => PartCallOk uc c
  | _ => True

/-- A call on a response that can be written; the status is an `u16`. -/
def ResponseCallOk (uc : UC) : ResponseCall → Prop
  | .status s => s < 65536
  | .part c => PartCallOk uc c

/-- A call on an interaction that can be written: JSON objects have different keys. -/
def HttpCallOk (uc : UC) : Builders.Call → Prop
  | .givenWithParams _ ps => IsMap (Builders.paramsOf ps)
  | .request c => RequestCallOk uc c
  | .response c => ResponseCallOk uc c
  | _ => True

/-- Contents that can be written. -/
structure ContentsOk (E : FileEnv) (c : MessageContents) : Prop where
  metadata : IsMap c.metadata
  body : ∀ b ct h, c.contents = .present b (some ct) h → Parses E ct
  parts : PartsOk E c.rules c.gens

/-- A call on the fields of a message. -/
def InfoCallOk : InfoCall → Prop
  | .givenWithParams _ ps => IsMap (Builders.paramsOf ps)
  | _ => True

/-- A call on the contents of a message that can be written. -/
def MsgCallOk (E : FileEnv) : MsgCall → Prop
  | .jsonBody p => PatternOk E.P.uc p
  | .contents c => ContentsOk E c
  | _ => True

/-- A call on a message that can be written. -/
def AsyncCallOk (E : FileEnv) : AsyncCall → Prop
  | .info c => InfoCallOk c
  | .jsonBody p => PatternOk E.P.uc p
  | _ => True

/-- A call on a synchronous message that can be written. -/
def SyncCallOk (E : FileEnv) : SyncCall → Prop
  | .info c => InfoCallOk c
  | .request c => MsgCallOk E c
  | .responseJson p => PatternOk E.P.uc p
  | .responseContents c => ContentsOk E c
  | _ => True

/-- A call on a pact builder that can be written. -/
def PactCallOk (E : FileEnv) : PactCall → Prop
  | .interaction _ cs => ∀ c ∈ cs, HttpCallOk E.P.uc c
  | .message _ cs => ∀ c ∈ cs, AsyncCallOk E c
  | .sync _ cs => ∀ c ∈ cs, SyncCallOk E c
  | .push i => ∀ x, asV4 E.P.uc i = some x → InteractionOk E x

/-! ## Proofs -/

/-! ### Paths -/

/-- A path that can be read from its text. -/
def Good (p : DocPath) : Prop :=
  ∃ ts, p = fromTokens (.root :: ts) ∧ (∀ t ∈ ts, IsSegment t) ∧ ∀ k, .field k ∈ ts → PlainKey k

theorem good_root : Good rootPath :=
  ⟨[], by decide, (by intro t h; cases h), (by intro k h; cases h)⟩

theorem good_push {p : DocPath} (h : Good p) (t : PathToken) (h1 : IsSegment t) (h2 : ∀ k, t = .field k → PlainKey k) :
    Good (push p t) := by
  obtain ⟨ts, rfl, h3, h4⟩ := h
  refine ⟨ts ++ [t], by rw [fromTokens_snoc]; rfl, ?_, ?_⟩
  · intro x hx
    rcases List.mem_append.1 hx with hx | hx
    · exact h3 x hx
    · rw [List.mem_singleton.1 hx]; exact h1
  · intro k hk
    rcases List.mem_append.1 hk with hk | hk
    · exact h4 k hk
    · exact h2 k (List.mem_singleton.1 hk).symm

theorem good_pathOk {p : DocPath} (uc : UC) (h : Good p) : PathOk uc p ∧ p.expr ≠ "matchers".toList := by
  obtain ⟨ts, rfl, h3, h4⟩ := h
  constructor
  · unfold PathOk Path.new
    rw [show (fromTokens (.root :: ts)).expr = buildExpr (.root :: ts) from rfl, C01_roundtrip_partial uc ts h3 h4]
    rfl
  · intro e
    have : (fromTokens (.root :: ts)).expr.head? = some '$' := rfl
    rw [e] at this
    exact absurd this (by decide)

/-! ### Tables of rules -/

/-- The paths a category can have. -/
def KeyOk (uc : UC) : Category → DocPath → Prop
  | .path, p => p = Path.empty
  | .header, p => ∃ k, p = pushField rootPath k ∧ k ≠ "matchers".toList
  | .query, p => ∃ k, p = pushField rootPath k ∧ k ≠ "matchers".toList
  | _, p => PathOk uc p ∧ p.expr ≠ "matchers".toList

/-- Rules that can be written. -/
def ListOk (uc : UC) (l : RuleList) : Prop := l.rules ≠ [] ∧ ∀ r ∈ l.rules, Writable uc r ∧ Complete r

/-- A table that can be written. -/
structure TOk (uc : UC) (K : DocPath → Prop) (m : List (DocPath × RuleList)) : Prop where
  nodup : KeysNodup m
  each : ∀ e ∈ m, K e.1 ∧ ListOk uc e.2

theorem writableL (uc : UC) (l : RuleList) : WritableL uc l ↔ ∀ r ∈ l.rules, Writable uc r := by
  obtain ⟨rs, a, b⟩ := l
  rw [WritableL, WritableRs_iff]

theorem completeRs (rs : List MatchingRule) : CompleteRs rs ↔ ∀ r ∈ rs, Complete r := by
  induction rs with
  | nil => simp [CompleteRs]
  | cons r rs ih => simp [CompleteRs, ih]

theorem completeL (l : RuleList) : CompleteL l ↔ l.rules ≠ [] ∧ ∀ r ∈ l.rules, Complete r := by
  obtain ⟨rs, a, b⟩ := l
  rw [CompleteL, completeRs]

theorem tok_iff (uc : UC) (c : RuleCategory) :
    TOk uc (KeyOk uc c.name) c.rules ↔ TableOk uc c ∧ CompleteEs c.rules := by
  obtain ⟨n, m⟩ := c
  unfold TableOk
  rw [WritableEs_iff, CompleteEs_iff]
  constructor
  · intro h
    refine ⟨⟨h.nodup, fun e he => (writableL uc e.2).2 fun r hr => ((h.each e he).2.2 r hr).1, ?_⟩,
      fun e he => (completeL e.2).2 ⟨(h.each e he).2.1, fun r hr => ((h.each e he).2.2 r hr).2⟩⟩
    have h1 : ∀ e ∈ m, KeyOk uc n e.1 := fun e he => (h.each e he).1
    cases n <;> exact h1
  · rintro ⟨⟨h1, h2, h3⟩, h4⟩
    refine ⟨h1, fun e he => ⟨?_, ((completeL e.2).1 (h4 e he)).1, fun r hr =>
      ⟨(writableL uc e.2).1 (h2 e he) r hr, ((completeL e.2).1 (h4 e he)).2 r hr⟩⟩⟩
    cases n <;> exact h3 e he

theorem tok_addRule {uc : UC} {K : DocPath → Prop} {c : RuleCategory} {p : DocPath} {r : MatchingRule} {l : RuleLogic}
    (h : TOk uc K c.rules) (hp : K p) (hr : Writable uc r ∧ Complete r) : TOk uc K (addRule c p r l).rules := by
  refine ⟨MessageBuilderProps.addRule_nodup p r l h.nodup, ?_⟩
  intro e he
  unfold addRule at he
  have grow : ∀ x : RuleList, (∀ r ∈ x.rules, Writable uc r ∧ Complete r) → ListOk uc { x with rules := x.rules ++ [r] } := by
    intro x hx
    refine ⟨by simp, ?_⟩
    intro s hs
    rcases List.mem_append.1 hs with hs | hs
    · exact hx s hs
    · rw [List.mem_singleton.1 hs]; exact hr
  rcases (mem_upsert _ _ _ _ h.nodup e).1 he with ⟨h1, -⟩ | ⟨x, h1, -, rfl⟩ | ⟨rfl, -⟩
  · exact h.each e h1
  · exact ⟨(h.each x h1).1, grow x.2 (h.each x h1).2.2⟩
  · exact ⟨hp, grow (emptyList l) (by intro s hs; cases hs)⟩

theorem tok_mono {uc : UC} {K K' : DocPath → Prop} {m : List (DocPath × RuleList)} (h : TOk uc K m)
    (hk : ∀ e ∈ m, K e.1 → K' e.1) : TOk uc K' m :=
  ⟨h.nodup, fun e he => ⟨hk e he (h.each e he).1, (h.each e he).2⟩⟩

theorem tok_addRules {uc : UC} {K : DocPath → Prop} {c d : RuleCategory} (h : TOk uc K c.rules)
    (hd : ∀ e ∈ d.rules, K e.1 ∧ ListOk uc e.2) : TOk uc K (addRules c d).rules := by
  refine ⟨MessageBuilderProps.addRules_nodup c d h.nodup, ?_⟩
  obtain ⟨cn, cr⟩ := c
  obtain ⟨dn, dr⟩ := d
  unfold addRules
  simp only at h hd ⊢
  induction dr generalizing cr with
  | nil => exact h.each
  | cons e es ih =>
    rw [List.foldl_cons]
    refine ih _ ?_ (fun x hx => hd x (List.mem_cons_of_mem _ hx))
    have he := hd e List.mem_cons_self
    cases hf : cr.find? (keyIs e.1) with
    | some y =>
      simp only
      refine ⟨upsert_nodup _ _ _ _ h.nodup, ?_⟩
      intro x hx
      have grow : ∀ l : RuleList, (∀ r ∈ l.rules, Writable uc r ∧ Complete r) → ListOk uc (listAddRules l e.2) := by
        intro l hl
        rw [RuleProps.listAddRules_eq]
        refine ⟨by simp [he.2.1], ?_⟩
        intro s hs
        rcases List.mem_append.1 hs with hs | hs
        · exact hl s hs
        · exact he.2.2 s hs
      rcases (mem_upsert _ _ _ _ h.nodup x).1 hx with ⟨h1, -⟩ | ⟨z, h1, -, rfl⟩ | ⟨rfl, -⟩
      · exact h.each x h1
      · exact ⟨(h.each z h1).1, grow z.2 (h.each z h1).2.2⟩
      · exact ⟨he.1, grow e.2 he.2.2⟩
    | none =>
      have hnd : KeysNodup (cr ++ [e]) := by
        have := MessageBuilderProps.addRules_nodup ⟨cn, cr⟩ ⟨cn, [e]⟩ h.nodup
        unfold addRules at this
        simp only [List.foldl_cons, List.foldl_nil, hf] at this
        exact this
      refine ⟨hnd, ?_⟩
      intro x hx
      rcases List.mem_append.1 hx with hx | hx
      · exact h.each x hx
      · rw [List.mem_singleton.1 hx]; exact he

/-! ### Patterns -/

theorem plain_rule (uc : UC) : (∀ re, Writable uc (.regex re) ∧ Complete (.regex re)) ∧
    (∀ f, Writable uc (.timestamp f) ∧ Complete (.timestamp f)) ∧ (Writable uc .type ∧ Complete .type) ∧
    ∀ n, Writable uc (.minType n) ∧ Complete (.minType n) := by
  refine ⟨fun _ => ?_, fun _ => ?_, ?_, fun _ => ?_⟩ <;> simp [Writable, Complete]

theorem tok_fold {α : Type} {uc : UC} {K : DocPath → Prop} (f : RuleCategory → α → RuleCategory) (l : List α) (c : RuleCategory)
    (hf : ∀ c, ∀ a ∈ l, TOk uc K c.rules → TOk uc K (f c a).rules) (h : TOk uc K c.rules) : TOk uc K (l.foldl f c).rules := by
  induction l generalizing c with
  | nil => exact h
  | cons a l ih =>
    exact ih _ (fun c a ha => hf c a (List.mem_cons_of_mem _ ha)) (hf c a List.mem_cons_self h)

theorem good_child {path q : DocPath} (hp : Good path) (hq : Good q) : Good (childPath path q) := by
  unfold childPath
  have hj : Good (join path ['*']) := by
    rw [join, if_pos rfl, pushStar_push]
    exact good_push hp .star trivial (fun k e => by cases e)
  obtain ⟨ts, rfl, h3, h4⟩ := hq
  generalize join path ['*'] = x at hj
  have : ∀ (l : List PathToken) (x : DocPath), (∀ t ∈ l, t ∈ ts) → Good x → Good (l.foldl push x) := by
    intro l
    induction l with
    | nil => intro x _ h; exact h
    | cons t l ih =>
      intro x hl hx
      refine ih _ (fun y hy => hl y (List.mem_cons_of_mem _ hy)) (good_push hx t (h3 t (hl t List.mem_cons_self)) ?_)
      rintro k rfl
      exact h4 k (hl _ List.mem_cons_self)
  refine this _ x ?_ hj
  intro t ht
  have : (fromTokens (.root :: ts)).tokens.drop 2 = ts.drop 1 := rfl
  rw [this] at ht
  exact List.mem_of_mem_drop ht

mutual
theorem tok_extract {uc : UC} {K : DocPath → Prop} (hK : ∀ p, Good p → K p) (path : DocPath) (p : Pattern) (out : RuleCategory)
    (hp : PatternOk uc p) (hg : Good path) (h : TOk uc K out.rules) : TOk uc K (extract path p out).rules := by
  obtain ⟨r1, r2, r3, r4⟩ := plain_rule uc
  unfold PatternOk at hp
  cases p with
  | json v => exact h
  | arr items =>
    simp only [Everywhere] at hp
    simp only [extract]
    exact tok_items hK path 0 items out hp.2 (by simpa using hp.1) hg h
  | obj fields =>
    simp only [Everywhere] at hp
    simp only [extract]
    exact tok_fields hK path fields out hp.2 hp.1 hg h
  | like p =>
    simp only [Everywhere] at hp
    simp only [extract]
    exact tok_extract hK path p _ hp.2 hg (tok_addRule h (hK _ hg) r3)
  | eachLike p m =>
    simp only [Everywhere] at hp
    simp only [extract]
    have h1 : Good (pushStarIndex path) := by
      rw [pushStarIndex_push]; exact good_push hg _ trivial (fun k e => by cases e)
    have h2 : Good (pushStar (pushStarIndex path)) := by
      rw [pushStar_push]; exact good_push h1 _ trivial (fun k e => by cases e)
    exact tok_extract hK _ p _ hp.2 h1 (tok_addRule (tok_addRule h (hK _ hg) (r4 m)) (hK _ h2) r3)
  | term re ex => simp only [extract]; exact tok_addRule h (hK _ hg) (r1 re)
  | datetime f ex => simp only [extract]; exact tok_addRule h (hK _ hg) (r2 f)
  | objectMatching p rs =>
    simp only [Everywhere] at hp
    simp only [extract]
    have hc : TOk uc Good (extract rootPath p (emptyCat .body)).rules :=
      tok_extract (fun _ h => h) rootPath p _ hp.2 good_root ⟨List.nodup_nil, by intro e he; cases he⟩
    unfold copyChildRules
    refine tok_fold _ _ _ ?_ (tok_fold _ _ _ (fun c r hr hc => tok_addRule hc (hK _ hg) (hp.1 r hr)) h)
    intro c e he hcc
    refine tok_fold _ _ _ ?_ hcc
    intro c r hr hcc
    exact tok_addRule hcc (hK _ (good_child hg (hc.each e he).1)) ((hc.each e he).2.2 r hr)
theorem tok_items {uc : UC} {K : DocPath → Prop} (hK : ∀ p, Good p → K p) (path : DocPath) (i : Nat) (ps : List Pattern)
    (out : RuleCategory)
    (hp : EverywhereItems (fun
      | .obj fields => ∀ f ∈ fields, PlainKey f.1
      | .arr items => items.length ≤ usizeLim
      | .objectMatching _ rs => ∀ r ∈ rs, Writable uc r ∧ Complete r
      | _ => True) ps) (hi : i + ps.length ≤ usizeLim) (hg : Good path) (h : TOk uc K out.rules) :
    TOk uc K (extractItems path i ps out).rules := by
  cases ps with
  | nil => exact h
  | cons p ps =>
    simp only [EverywhereItems] at hp
    simp only [extractItems]
    simp only [List.length_cons] at hi
    refine tok_items hK path (i + 1) ps _ hp.2 (by omega) hg (tok_extract hK _ p _ hp.1 ?_ h)
    rw [pushIndex_push]
    exact good_push hg _ (show i < usizeLim by omega) (fun k e => by cases e)
theorem tok_fields {uc : UC} {K : DocPath → Prop} (hK : ∀ p, Good p → K p) (path : DocPath) (fs : List (Str × Pattern))
    (out : RuleCategory)
    (hp : EverywhereFields (fun
      | .obj fields => ∀ f ∈ fields, PlainKey f.1
      | .arr items => items.length ≤ usizeLim
      | .objectMatching _ rs => ∀ r ∈ rs, Writable uc r ∧ Complete r
      | _ => True) fs) (hk : ∀ f ∈ fs, PlainKey f.1) (hg : Good path) (h : TOk uc K out.rules) :
    TOk uc K (extractFields path fs out).rules := by
  cases fs with
  | nil => exact h
  | cons f fs =>
    simp only [EverywhereFields] at hp
    simp only [extractFields]
    exact tok_fields hK path fs _ hp.2 (fun f hf => hk f (List.mem_cons_of_mem _ hf)) hg
      (tok_field hK path f _ hp.1 (hk f List.mem_cons_self) hg h)
theorem tok_field {uc : UC} {K : DocPath → Prop} (hK : ∀ p, Good p → K p) (path : DocPath) (f : Str × Pattern)
    (out : RuleCategory)
    (hp : EverywhereField (fun
      | .obj fields => ∀ f ∈ fields, PlainKey f.1
      | .arr items => items.length ≤ usizeLim
      | .objectMatching _ rs => ∀ r ∈ rs, Writable uc r ∧ Complete r
      | _ => True) f) (hk : PlainKey f.1) (hg : Good path) (h : TOk uc K out.rules) :
    TOk uc K (extractField path f out).rules := by
  cases f with
  | mk k p =>
    simp only [EverywhereField] at hp
    simp only [extractField]
    refine tok_extract hK _ p _ hp ?_ h
    rw [pushField_push]
    exact good_push hg _ trivial (fun k' e => by cases e; exact hk)
end

theorem tok_extractS {uc : UC} {K : DocPath → Prop} (path : DocPath) (p : SPattern) (out : RuleCategory)
    (hp : (∃ s, p = .lit s) ∨ K path) (h : TOk uc K out.rules) : TOk uc K (extractS path p out).rules := by
  obtain ⟨r1, r2, r3, r4⟩ := plain_rule uc
  have go : ∀ (p : SPattern) (out : RuleCategory), K path → TOk uc K out.rules → TOk uc K (extractS path p out).rules := by
    intro p
    induction p with
    | lit s => intro out _ h; exact h
    | like p ih => intro out hk h; exact ih _ hk (tok_addRule h hk r3)
    | term re ex => intro out hk h; exact tok_addRule h hk (r1 re)
    | datetime f ex => intro out hk h; exact tok_addRule h hk (r2 f)
  rcases hp with ⟨s, rfl⟩ | hk
  · exact h
  · exact go p out hk h

theorem extractS_name (path : DocPath) (p : SPattern) (out : RuleCategory) : (extractS path p out).name = out.name := by
  induction p generalizing out with
  | lit s => rfl
  | like p ih => exact ih _
  | term re ex => rfl
  | datetime f ex => rfl

/-! ### Rules and generators of a part -/

/-- The rules of a part, as an invariant. -/
def RulesInv (uc : UC) (m : MatchingRules) : Prop :=
  (m.map (·.1)).Nodup ∧ ∀ e ∈ m, e.1 = e.2.name ∧ TOk uc (KeyOk uc e.1) e.2.rules

theorem rulesInv_iff (uc : UC) (m : MatchingRules) : RulesInv uc m ↔ RulesOk uc m := by
  unfold RulesInv RulesOk
  refine and_congr_right fun _ => forall_congr' fun e => forall_congr' fun _ => ?_
  constructor
  · rintro ⟨h1, h2⟩
    rw [h1] at h2
    exact ⟨h1, (tok_iff uc e.2).1 h2⟩
  · rintro ⟨h1, h2⟩
    refine ⟨h1, ?_⟩
    rw [h1]
    exact (tok_iff uc e.2).2 h2

theorem rulesInv_nil (uc : UC) : RulesInv uc [] := ⟨List.nodup_nil, by intro e he; cases he⟩

theorem tok_nil (uc : UC) (K : DocPath → Prop) : TOk uc K [] := ⟨List.nodup_nil, by intro e he; cases he⟩

theorem catOf_inv {uc : UC} {m : MatchingRules} (h : RulesInv uc m) (c : Category) :
    (catOf m c).name = c ∧ TOk uc (KeyOk uc c) (catOf m c).rules := by
  unfold catOf rulesForCategory
  cases hf : m.find? fun e => decide (e.1 = c) with
  | none => exact ⟨rfl, tok_nil _ _⟩
  | some e =>
    have he := List.mem_of_find?_eq_some hf
    have hc : e.1 = c := by simpa using List.find?_some hf
    obtain ⟨h1, h2⟩ := h.2 e he
    rw [hc] at h1 h2
    exact ⟨h1.symm, h2⟩

theorem setCat_keys (c : Category) (r : RuleCategory) (m : MatchingRules) :
    (setCat c r m).map (·.1) = if c ∈ m.map (·.1) then m.map (·.1) else m.map (·.1) ++ [c] := by
  induction m with
  | nil => rfl
  | cons e es ih =>
    rw [setCat]
    by_cases hc : e.1 = c
    · rw [if_pos hc]; simp [hc]
    · rw [if_neg hc, List.map_cons, ih]
      by_cases hm : c ∈ es.map (·.1)
      · rw [if_pos hm, if_pos (by simp only [List.map_cons]; exact List.mem_cons_of_mem _ hm)]; rfl
      · rw [if_neg hm, if_neg (by
          simp only [List.map_cons]
          intro h
          rcases List.mem_cons.1 h with h | h
          · exact hc h.symm
          · exact hm h)]
        rfl

theorem mem_setCat (c : Category) (r : RuleCategory) (m : MatchingRules) (e : Category × RuleCategory)
    (h : e ∈ setCat c r m) : e = (c, r) ∨ e ∈ m := by
  induction m with
  | nil => exact .inl (List.mem_singleton.1 h)
  | cons x xs ih =>
    rw [setCat] at h
    split at h
    · rcases List.mem_cons.1 h with h | h
      · exact .inl h
      · exact .inr (List.mem_cons_of_mem _ h)
    · rcases List.mem_cons.1 h with h | h
      · exact .inr (by rw [h]; exact List.mem_cons_self)
      · rcases ih h with h | h
        · exact .inl h
        · exact .inr (List.mem_cons_of_mem _ h)

theorem inCategory_inv {uc : UC} {m : MatchingRules} (h : RulesInv uc m) (c : Category) (f : RuleCategory → RuleCategory)
    (hf : ∀ x : RuleCategory, x.name = c → TOk uc (KeyOk uc c) x.rules → (f x).name = c ∧ TOk uc (KeyOk uc c) (f x).rules) :
    RulesInv uc (inCategory c f m) := by
  unfold inCategory
  constructor
  · rw [setCat_keys]
    split
    · exact h.1
    · rename_i hc
      rw [List.nodup_append]
      refine ⟨h.1, by simp, ?_⟩
      intro a ha b hb hab
      rw [List.mem_singleton.1 hb] at hab
      rw [hab] at ha
      exact hc ha
  · intro e he
    rcases mem_setCat _ _ _ _ he with rfl | he
    · obtain ⟨h1, h2⟩ := catOf_inv h c
      obtain ⟨h3, h4⟩ := hf _ h1 h2
      exact ⟨h3.symm, h4⟩
    · exact h.2 e he

/-- The paths generators of a category can have. -/
def GenKeyOk (uc : UC) : GenCategory → DocPath → Prop
  | .path, p => p = Path.empty
  | .method, p => p = Path.empty
  | .status, p => p = Path.empty
  | .header, p => ∃ k, p = pushField rootPath k
  | .query, p => ∃ k, p = pushField rootPath k
  | _, p => PathOk uc p

theorem genTable_iff (uc : UC) (c : GenCategory) (m : List (DocPath × Generator)) :
    GenTableOk uc c m ↔ KeysNodup m ∧ ∀ e ∈ m, GenOk e.2 ∧ GenKeyOk uc c e.1 := by
  unfold GenTableOk
  constructor
  · rintro ⟨h1, h2, h3⟩
    refine ⟨h1, fun e he => ⟨h2 e he, ?_⟩⟩
    cases c <;> exact h3 e he
  · rintro ⟨h1, h2⟩
    refine ⟨h1, fun e he => (h2 e he).1, ?_⟩
    have h3 : ∀ e ∈ m, GenKeyOk uc c e.1 := fun e he => (h2 e he).2
    cases c <;> exact h3

theorem addGen_keys (gs : Generators) (c : GenCategory) (p : DocPath) (g : Generator) :
    (addGen gs c p g).map (·.1) = if c ∈ gs.map (·.1) then gs.map (·.1) else gs.map (·.1) ++ [c] := by
  induction gs with
  | nil => rfl
  | cons e es ih =>
    obtain ⟨d, m⟩ := e
    rw [addGen]
    by_cases hc : d = c
    · rw [if_pos hc]; simp [hc]
    · rw [if_neg hc, List.map_cons, ih]
      by_cases hm : c ∈ es.map (·.1)
      · rw [if_pos hm, if_pos (by simp only [List.map_cons]; exact List.mem_cons_of_mem _ hm)]; rfl
      · rw [if_neg hm, if_neg (by
          simp only [List.map_cons]
          intro h
          rcases List.mem_cons.1 h with h | h
          · exact hc h.symm
          · exact hm h)]
        rfl

theorem gens_addGen {uc : UC} {gs : Generators} {c : GenCategory} {p : DocPath} {g : Generator} (h : GeneratorsOk uc gs)
    (hg : GenOk g) (hp : GenKeyOk uc c p) : GeneratorsOk uc (addGen gs c p g) := by
  constructor
  · rw [addGen_keys]
    split
    · exact h.1
    · rename_i hc
      rw [List.nodup_append]
      refine ⟨h.1, by simp, ?_⟩
      intro a ha b hb hab
      rw [List.mem_singleton.1 hb] at hab
      rw [hab] at ha
      exact hc ha
  · have h2 := h.2
    clear h
    induction gs with
    | nil =>
      intro e he
      rw [addGen] at he
      rw [List.mem_singleton.1 he]
      rw [genTable_iff]
      refine ⟨by simp [KeysNodup], ?_⟩
      intro x hx
      rw [List.mem_singleton.1 hx]
      exact ⟨hg, hp⟩
    | cons e es ih =>
      obtain ⟨d, m⟩ := e
      rw [addGen]
      by_cases hc : d = c
      · rw [if_pos hc]
        intro x hx
        rcases List.mem_cons.1 hx with rfl | hx
        · have := h2 (d, m) List.mem_cons_self
          rw [genTable_iff] at this ⊢
          unfold insertGen
          refine ⟨upsert_nodup _ _ _ _ this.1, ?_⟩
          intro y hy
          subst hc
          rcases (mem_upsert _ _ _ _ this.1 y).1 hy with ⟨h1, -⟩ | ⟨z, h1, -, rfl⟩ | ⟨rfl, -⟩
          · exact this.2 y h1
          · exact ⟨hg, (this.2 z h1).2⟩
          · exact ⟨hg, hp⟩
        · exact h2 x (List.mem_cons_of_mem _ hx)
      · rw [if_neg hc]
        intro x hx
        rcases List.mem_cons.1 hx with rfl | hx
        · exact h2 _ List.mem_cons_self
        · exact ih (fun e he => h2 e (List.mem_cons_of_mem _ he)) x hx

theorem gens_addGens {uc : UC} {gs new : Generators} (h : GeneratorsOk uc gs) (hn : GeneratorsOk uc new) :
    GeneratorsOk uc (Ops.addGens gs new) := by
  unfold Ops.addGens
  have h2 := hn.2
  clear hn
  induction new generalizing gs with
  | nil => exact h
  | cons e es ih =>
    rw [List.foldl_cons]
    refine ih ?_ (fun e he => h2 e (List.mem_cons_of_mem _ he))
    have he := (genTable_iff uc e.1 e.2).1 (h2 e List.mem_cons_self)
    have : ∀ (l : List (DocPath × Generator)) (acc : Generators), (∀ x ∈ l, x ∈ e.2) → GeneratorsOk uc acc →
        GeneratorsOk uc (l.foldl (fun acc x => addGen acc e.1 x.1 x.2) acc) := by
      intro l
      induction l with
      | nil => intro acc _ h; exact h
      | cons x l ih2 =>
        intro acc hl ha
        have hx := he.2 x (hl x List.mem_cons_self)
        exact ih2 _ (fun y hy => hl y (List.mem_cons_of_mem _ hy)) (gens_addGen ha hx.1 hx.2)
    exact this e.2 gs (fun _ h => h) h

theorem gens_nil (uc : UC) : GeneratorsOk uc [] := ⟨List.nodup_nil, by intro e he; cases he⟩

theorem foldl_name {α : Type} (f : RuleCategory → α → RuleCategory) (h : ∀ c a, (f c a).name = c.name) (l : List α)
    (c : RuleCategory) : (l.foldl f c).name = c.name := by
  induction l generalizing c with
  | nil => rfl
  | cons a l ih => rw [List.foldl_cons, ih, h]

mutual
theorem extract_name (path : DocPath) (p : Pattern) (out : RuleCategory) : (extract path p out).name = out.name := by
  cases p with
  | json v => rfl
  | arr items => simp only [extract]; exact extractItems_name path 0 items out
  | obj fields => simp only [extract]; exact extractFields_name path fields out
  | like p => simp only [extract]; rw [extract_name path p]; rfl
  | eachLike p m => simp only [extract]; rw [extract_name _ p]; rfl
  | term re ex => rfl
  | datetime f ex => rfl
  | objectMatching p rs =>
    simp only [extract]
    unfold copyChildRules
    refine (foldl_name _ ?_ _ _).trans (foldl_name _ ?_ _ _)
    · intro c e
      refine foldl_name _ ?_ _ _
      intro c r
      rfl
    · intro c r
      rfl
theorem extractItems_name (path : DocPath) (i : Nat) (ps : List Pattern) (out : RuleCategory) :
    (extractItems path i ps out).name = out.name := by
  cases ps with
  | nil => rfl
  | cons p ps => simp only [extractItems]; rw [extractItems_name path (i + 1) ps, extract_name _ p]
theorem extractFields_name (path : DocPath) (fs : List (Str × Pattern)) (out : RuleCategory) :
    (extractFields path fs out).name = out.name := by
  cases fs with
  | nil => rfl
  | cons f fs => simp only [extractFields]; rw [extractFields_name path fs, extractField_name path f]
theorem extractField_name (path : DocPath) (f : Str × Pattern) (out : RuleCategory) :
    (extractField path f out).name = out.name := by
  cases f with
  | mk k p => simp only [extractField]; exact extract_name _ p out
end

/-! ### Parts -/

theorem isMap_upd {A : Type} (k : Str) (f : Option A → A) (m : List (Str × A)) (h : IsMap m) : IsMap (updEntry k f m) := by
  unfold IsMap at h ⊢
  rw [PartProps.keys_upd]
  by_cases hm : k ∈ m.map (·.1)
  · rw [if_pos hm]; exact h
  · rw [if_neg hm, List.nodup_append]
    refine ⟨h, by simp, ?_⟩
    intro a ha b hb e
    rw [List.mem_singleton] at hb
    subst hb; subst e
    exact hm ha

theorem mem_upd {A : Type} (k : Str) (f : Option A → A) (m : List (Str × A)) (e : Str × A) (h : e ∈ updEntry k f m) :
    e ∈ m ∨ ∃ o, e.2 = f o := by
  induction m with
  | nil =>
    rw [updEntry, List.mem_singleton] at h
    exact .inr ⟨none, by rw [h]⟩
  | cons x xs ih =>
    rw [updEntry] at h
    by_cases hx : x.1 = k
    · rw [if_pos hx] at h
      rcases List.mem_cons.1 h with h | h
      · exact .inr ⟨some x.2, by rw [h]⟩
      · exact .inl (List.mem_cons_of_mem _ h)
    · rw [if_neg hx] at h
      rcases List.mem_cons.1 h with h | h
      · exact .inl (by rw [h]; exact List.mem_cons_self)
      · rcases ih h with h | h
        · exact .inl (List.mem_cons_of_mem _ h)
        · exact .inr h

/-- The shared fields of a request or response that can be written. -/
structure FieldsOk (E : FileEnv) (f : Fields) : Prop where
  map : ∀ h, f.headers = some h → IsMap h
  values : ∀ h, f.headers = some h → ∀ e ∈ h, e.2 ≠ []
  body : ∀ b ct h, f.body = .present b (some ct) h → Parses E ct
  rules : RulesInv E.P.uc f.rules
  gens : GeneratorsOk E.P.uc f.gens

theorem typeOf_ok {E : FileEnv} (hE : TypesOk E) (s : Str) : Parses E (typeOf E.parseCT s) := by
  unfold typeOf
  cases h : E.parseCT s with
  | none => exact hE.unknown
  | some ct => exact hE.parsed s ct h

theorem putHeader_ok (uc : UC) (name : Str) (vs : List Str) (h : HeaderMap) (hv : vs ≠ []) (h1 : IsMap h)
    (h2 : ∀ e ∈ h, e.2 ≠ []) : IsMap (putHeader uc name vs h) ∧ ∀ e ∈ putHeader uc name vs h, e.2 ≠ [] := by
  unfold putHeader
  cases headerKey uc h name with
  | some key =>
    refine ⟨isMap_upd _ _ _ h1, ?_⟩
    intro e he
    rcases mem_upd _ _ _ _ he with he | ⟨o, he⟩
    · exact h2 e he
    · rw [he]; simp [hv]
  | none =>
    refine ⟨isMap_upd _ _ _ h1, ?_⟩
    intro e he
    rcases mem_upd _ _ _ _ he with he | ⟨o, he⟩
    · exact h2 e he
    · rw [he]; exact hv

theorem named_inv {uc : UC} {m : MatchingRules} (h : RulesInv uc m) (c : Category) (hc : c = .header ∨ c = .query)
    (n : Str) (p : SPattern) (hn : NameOk n p) : RulesInv uc (inCategory c (extractS (fieldPath n) p) m) := by
  refine inCategory_inv h c _ fun x h1 h2 => ⟨by rw [extractS_name, h1], tok_extractS _ _ _ ?_ h2⟩
  rcases hn with hn | hn
  · exact .inl hn
  · rcases hc with rfl | rfl <;> exact .inr ⟨n, rfl, hn⟩

theorem header_ok {E : FileEnv} {n : Str} {v : SPattern} {f : Fields} (hn : NameOk n v) (h : FieldsOk E f) :
    FieldsOk E (header E.P.uc n v f) := by
  have hp : IsMap (f.headers.getD []) ∧ ∀ e ∈ f.headers.getD [], e.2 ≠ [] := by
    cases hf : f.headers with
    | none => exact ⟨List.nodup_nil, by intro e he; cases he⟩
    | some m => exact ⟨h.map m hf, h.values m hf⟩
  obtain ⟨h1, h2⟩ := putHeader_ok E.P.uc n _ _ (PartProps.parseHeader_ne E.P.uc n (example_ v)) hp.1 hp.2
  refine ⟨?_, ?_, h.body, named_inv h.rules .header (.inl rfl) n v hn, h.gens⟩
  · intro m hm; cases hm; exact h1
  · intro m hm; cases hm; exact h2

theorem body_inv {uc : UC} {m : MatchingRules} (h : RulesInv uc m) (p : SPattern) :
    RulesInv uc (inCategory .body (extractS rootPath p) m) :=
  inCategory_inv h .body _ fun x h1 h2 =>
    ⟨by rw [extractS_name, h1], tok_extractS _ _ _ (.inr (good_pathOk uc good_root)) h2⟩

theorem part_ok {E : FileEnv} (hE : TypesOk E) {c : PartCall} {f : Fields} (hc : PartCallOk E.P.uc c) (h : FieldsOk E f) :
    FieldsOk E (partStep E.P.uc E.parseCT c f) := by
  cases c with
  | header n v => exact header_ok hc h
  | headerState n e v =>
    have h1 := header_ok (n := n) (v := v) hc h
    exact ⟨h1.map, h1.values, h1.body, h1.rules, gens_addGen h.gens (by simp [GenOk]) ⟨n, rfl⟩⟩
  | body t => exact ⟨h.map, h.values, (fun b ct x e => by cases e), h.rules, h.gens⟩
  | body2 t ct =>
    refine ⟨h.map, h.values, ?_, h.rules, h.gens⟩
    intro b c x e
    have e1 : FBody.present (utf8 t) (E.parseCT ct) none = .present b (some c) x := e
    injection e1 with _ e2 _
    exact hE.parsed ct c e2
  | jsonBody p =>
    refine ⟨h.map, h.values, ?_, inCategory_inv h.rules .body _ fun x h1 h2 => ⟨by rw [extract_name, h1], ?_⟩, h.gens⟩
    · intro b c x e
      cases e
      exact typeOf_ok hE _
    · exact tok_extract (fun p hp => good_pathOk E.P.uc hp) rootPath p x hc good_root h2
  | bodyMatching p =>
    refine ⟨h.map, h.values, ?_, body_inv h.rules p, h.gens⟩
    intro b c x e
    cases e
    exact typeOf_ok hE _
  | bodyMatching2 p ct =>
    refine ⟨h.map, h.values, ?_, body_inv h.rules p, h.gens⟩
    intro b c x e
    have e1 : FBody.present (utf8 (example_ p)) (E.parseCT ct) none = .present b (some c) x := e
    injection e1 with _ e2 _
    exact hE.parsed ct c e2

/-! ### Requests, responses and interactions -/

/-- A request that can be written, as an invariant. -/
structure RequestInv (E : FileEnv) (r : HttpRequest) : Prop where
  query : ∀ m, r.query = some m → IsMap m
  fields : FieldsOk E (reqFields r)

theorem request_step_ok {E : FileEnv} (hE : TypesOk E) {c : RequestCall} {r : HttpRequest} (hc : RequestCallOk E.P.uc c)
    (h : RequestInv E r) : RequestInv E (requestStep E.P.uc E.parseCT c r) := by
  have pathRules : ∀ p : SPattern, RulesInv E.P.uc (inCategory .path (extractS Path.empty p) r.rules) := fun p =>
    inCategory_inv h.fields.rules .path _ fun x h1 h2 => ⟨by rw [extractS_name, h1], tok_extractS _ _ _ (.inr rfl) h2⟩
  cases c with
  | method m => exact ⟨h.query, h.fields.map, h.fields.values, h.fields.body, h.fields.rules, h.fields.gens⟩
  | path p => exact ⟨h.query, h.fields.map, h.fields.values, h.fields.body, pathRules p, h.fields.gens⟩
  | pathState e p =>
    exact ⟨h.query, h.fields.map, h.fields.values, h.fields.body, pathRules p,
      gens_addGen h.fields.gens (by simp [GenOk]) rfl⟩
  | query k v =>
    refine ⟨?_, h.fields.map, h.fields.values, h.fields.body, named_inv h.fields.rules .query (.inr rfl) k v hc, h.fields.gens⟩
    intro m hm
    have hm' : some (updEntry k (fun old => old.getD [] ++ [some (example_ v)]) (r.query.getD [])) = some m := hm
    cases hm'
    refine isMap_upd _ _ _ ?_
    cases hq : r.query with
    | none => exact List.nodup_nil
    | some q => exact h.query q hq
  | part c =>
    have := part_ok hE (c := c) hc h.fields
    exact ⟨h.query, this.map, this.values, this.body, this.rules, this.gens⟩

theorem response_step_ok {E : FileEnv} (hE : TypesOk E) {c : ResponseCall} {r : HttpResponse} (hc : ResponseCallOk E.P.uc c)
    (h : r.status < 65536 ∧ FieldsOk E (resFields r)) :
    (responseStep E.P.uc E.parseCT c r).status < 65536 ∧ FieldsOk E (resFields (responseStep E.P.uc E.parseCT c r)) := by
  cases c with
  | status s => exact ⟨hc, h.2.map, h.2.values, h.2.body, h.2.rules, h.2.gens⟩
  | part c =>
    have := part_ok hE (c := c) hc h.2
    exact ⟨h.1, this.map, this.values, this.body, this.rules, this.gens⟩

/-- A builder whose interaction can be written. -/
structure BuilderInv (E : FileEnv) (b : Builder) : Prop where
  states : ∀ s ∈ b.info.states, IsMap s.params
  request : RequestInv E b.request
  response : b.response.status < 65536 ∧ FieldsOk E (resFields b.response)

theorem states_snoc {l : List PState} {n : Str} {m : Obj} (h : ∀ s ∈ l, IsMap s.params) (hm : IsMap m) :
    ∀ s ∈ l ++ [PState.mk n m], IsMap s.params := by
  intro s hs
  rcases List.mem_append.1 hs with hs | hs
  · exact h s hs
  · rw [List.mem_singleton.1 hs]; exact hm

theorem builder_step_ok {E : FileEnv} (hE : TypesOk E) {c : Builders.Call} {b : Builder} (hc : HttpCallOk E.P.uc c)
    (h : BuilderInv E b) : BuilderInv E (Builders.step E.P.uc E.parseCT c b) := by
  cases c with
  | request c => exact ⟨h.states, request_step_ok hE hc h.request, h.response⟩
  | response c => exact ⟨h.states, h.request, response_step_ok hE hc h.response⟩
  | given s => exact ⟨states_snoc h.states List.nodup_nil, h.request, h.response⟩
  | givenWithParams s ps => exact ⟨states_snoc h.states hc, h.request, h.response⟩
  | withKey k => exact ⟨h.states, h.request, h.response⟩
  | pending x => exact ⟨h.states, h.request, h.response⟩
  | comment t => exact ⟨h.states, h.request, h.response⟩
  | testName n => exact ⟨h.states, h.request, h.response⟩
  | transport t => exact ⟨h.states, h.request, h.response⟩

theorem fields0_ok (E : FileEnv) : FieldsOk E ⟨none, .missing, [], []⟩ :=
  ⟨(fun h e => by cases e), (fun h e => by cases e), (fun b ct h e => by cases e), rulesInv_nil _, gens_nil _⟩

theorem builder0_ok (E : FileEnv) (d : Str) : BuilderInv E (builder0 d) :=
  ⟨(fun s h => by cases h), ⟨(fun m e => by cases e), fields0_ok E⟩, (show (200 : Nat) < 65536 by omega), fields0_ok E⟩

theorem builder_ok {E : FileEnv} (hE : TypesOk E) (d : Str) (cs : List Builders.Call) (hc : ∀ c ∈ cs, HttpCallOk E.P.uc c) :
    BuilderInv E (cs.foldl (fun b c => Builders.step E.P.uc E.parseCT c b) (builder0 d)) := by
  have : ∀ (b : Builder), BuilderInv E b → BuilderInv E (cs.foldl (fun b c => Builders.step E.P.uc E.parseCT c b) b) := by
    induction cs with
    | nil => intro b h; exact h
    | cons c cs ih =>
      intro b h
      exact ih (fun c hm => hc c (List.mem_cons_of_mem _ hm)) _ (builder_step_ok hE (hc c List.mem_cons_self) h)
  exact this _ (builder0_ok E d)

theorem headersOk {E : FileEnv} {f : Fields} (h : FieldsOk E f) : HeadersOk E f.headers :=
  fun m hm => ⟨h.map m hm, fun e he _ => h.values m hm e he⟩

theorem comments_map (a b : Json) : IsMap [("text".toList, a), ("testname".toList, b)] := by
  unfold IsMap
  simp only [List.map_cons, List.map_nil]
  decide

theorem header_type_ok {E : FileEnv} (hE : TypesOk E) {h : Option HeaderMap} {ct : ContentType}
    (hc : headerContentType E h = .ok (some ct)) : Parses E ct := by
  unfold headerContentType at hc
  split at hc
  · cases hc
  · split at hc
    · cases hc
    · cases hc
    · injection hc with hc; exact hE.parsed _ _ hc

theorem calc_ok {E : FileEnv} (hE : TypesOk E) {body : FBody} {headers : Option HeaderMap} {ct : Option ContentType}
    (hb : ∀ b ct h, body = .present b (some ct) h → Parses E ct) (hc : calcContentType E body headers = .ok ct) :
    BodyOk E (withContentType ct body) := by
  intro b c x hx
  cases body with
  | missing => cases hx
  | null => cases hx
  | empty => cases hx
  | present b0 c0 h0 =>
    simp only [withContentType] at hx
    cases hx
    cases c0 with
    | some t => exact hb b t x rfl
    | none =>
      rw [Option.none_or]
      simp only [calcContentType] at hc
      obtain ⟨h, h1, h2⟩ := Res.map_eq_ok.1 hc
      cases ct with
      | none => exact hE.unknown
      | some t =>
        rw [Option.getD_some]
        cases h with
        | some u =>
          rw [Option.some_or] at h2
          cases h2
          exact header_type_ok hE h1
        | none => rw [Option.none_or] at h2; exact hE.detected b t h2

theorem bodyOk_of {E : FileEnv} (hE : TypesOk E) {body : FBody} (hb : ∀ b ct h, body = .present b (some ct) h → Parses E ct) :
    BodyOk E body := by
  intro b ct h e
  cases ct with
  | none => exact hE.unknown
  | some t => exact hb b t h e

/-- What the HTTP builder builds can be written. -/
theorem http_ok {E : FileEnv} (hE : TypesOk E) (d : Str) (cs : List Builders.Call) (hc : ∀ c ∈ cs, HttpCallOk E.P.uc c) :
    InteractionOk E (Builders.build E.P.uc E.parseCT d cs) := by
  have h := builder_ok hE d cs hc
  unfold Builders.build buildV4
  generalize cs.foldl (fun b c => Builders.step E.P.uc E.parseCT c b) (builder0 d) = b at h
  have hq := h.request.fields
  have hr := h.response.2
  exact ⟨⟨h.states, comments_map _ _, List.nodup_nil, (fun e he => by cases he)⟩,
    ⟨h.request.query, headersOk hq, fun ct hct => calc_ok hE hq.body hct,
      (rulesInv_iff _ _).1 hq.rules, hq.gens⟩,
    h.response.1, headersOk hr, bodyOk_of hE hr.body, (rulesInv_iff _ _).1 hr.rules, hr.gens⟩

/-! ### Messages -/

/-- The contents of a message that can be written, as an invariant. -/
structure ContentsInv (E : FileEnv) (s : Contents) : Prop where
  body : ∀ b ct h, s.body = .present b (some ct) h → Parses E ct
  metadata : IsMap (s.metadata.getD [])
  rules : TOk E.P.uc (KeyOk E.P.uc .body) (s.rules.getD (emptyCat .body)).rules
  metaRules : TOk E.P.uc (KeyOk E.P.uc .metadata) (s.metaRules.getD (emptyCat .body)).rules
  gens : GeneratorsOk E.P.uc (s.gens.getD [])

theorem contents0_ok (E : FileEnv) : ContentsInv E contents0 :=
  ⟨(fun b ct h e => by cases e), List.nodup_nil, tok_nil _ _, tok_nil _ _, gens_nil _⟩

theorem contents_body {E : FileEnv} {body : FBody} (h : ∀ b ct x, body = .present b (some ct) x → Parses E ct) :
    ContentsInv E { contents0 with body := body } :=
  ⟨h, List.nodup_nil, tok_nil _ _, tok_nil _ _, gens_nil _⟩

theorem isMap_extend (new m : Obj) (h : IsMap m) : IsMap (extend m new) := by
  unfold extend
  induction new generalizing m with
  | nil => exact h
  | cons e es ih => rw [List.foldl_cons]; exact ih _ (isMap_upd _ _ _ h)

theorem category_ok {uc : UC} {m : MatchingRules} (h : RulesInv uc m) (c : Category) {cat : RuleCategory}
    (hc : rulesForCategory m c = some cat) : TOk uc (KeyOk uc c) cat.rules := by
  have := (catOf_inv h c).2
  unfold catOf at this
  rw [hc] at this
  exact this

theorem addCategory_ok {uc : UC} {m : MatchingRules} (h : RulesInv uc m) (c : Category) {old : Option RuleCategory}
    (ho : TOk uc (KeyOk uc c) (old.getD (emptyCat .body)).rules) :
    TOk uc (KeyOk uc c) ((addCategoryOf c m old).getD (emptyCat .body)).rules := by
  unfold addCategoryOf
  cases hc : rulesForCategory m c with
  | none => exact ho
  | some cat =>
    simp only [Option.getD_some]
    refine tok_addRules ?_ (category_ok h c hc).each
    cases old with
    | none => exact tok_nil _ _
    | some o => exact ho

theorem pattern_ok {uc : UC} {p : Pattern} (hp : PatternOk uc p) :
    TOk uc (KeyOk uc .body) (extract rootPath p (emptyCat .body)).rules :=
  tok_extract (fun p hp => good_pathOk uc hp) rootPath p _ hp good_root (tok_nil _ _)

theorem addPattern_ok {uc : UC} {t : RuleCategory} {old : Option RuleCategory} (ht : TOk uc (KeyOk uc .body) t.rules)
    (ho : TOk uc (KeyOk uc .body) (old.getD (emptyCat .body)).rules) :
    TOk uc (KeyOk uc .body) ((addPattern t old).getD (emptyCat .body)).rules := by
  unfold addPattern
  cases old with
  | none =>
    simp only
    split
    · exact tok_nil _ _
    · exact ht
  | some mr =>
    simp only
    split
    · exact ho
    · exact tok_addRules (c := mr) (d := t) ho ht.each

theorem putContentType_map (ct : Option Str) (m : Obj) (h : IsMap m) : IsMap (putContentType ct m) := by
  cases ct with
  | none => exact h
  | some c => exact isMap_upd _ _ _ h

theorem bytes_ok {E : FileEnv} (hE : TypesOk E) (x : Bytes) (ct : Option Str) :
    ∀ b t h, bytesBody E.parseCT x ct = .present b (some t) h → Parses E t := by
  intro b t h e
  unfold bytesBody at e
  injection e with _ e2 _
  cases ct with
  | none => cases e2
  | some c => cases e2; exact typeOf_ok hE c

theorem msg_step_ok {E : FileEnv} (hE : TypesOk E) {c : MsgCall} {s : Contents} (hc : MsgCallOk E c) (h : ContentsInv E s) :
    ContentsInv E (msgStep E.parseCT c s) := by
  cases c with
  | metadata k v => exact ⟨h.body, isMap_upd _ _ _ h.metadata, h.rules, h.metaRules, h.gens⟩
  | jsonBody p =>
    refine ⟨?_, h.metadata, addPattern_ok (pattern_ok hc) h.rules, h.metaRules, h.gens⟩
    intro b t x e
    cases e
    exact typeOf_ok hE _
  | body x ct => exact ⟨bytes_ok hE x ct, putContentType_map _ _ h.metadata, h.rules, h.metaRules, h.gens⟩
  | contents m =>
    obtain ⟨h1, h2, h3, h4⟩ := hc
    have h3' := (rulesInv_iff _ _).2 h3
    exact ⟨h2, isMap_extend _ _ h.metadata, addCategory_ok h3' .body h.rules, addCategory_ok h3' .metadata h.metaRules,
      gens_addGens h.gens h4⟩

theorem given_ok {E : FileEnv} (hE : TypesOk E) {m : Obj} {ct : Option ContentType}
    (h : givenType E.parseCT m = .ok ct) : ∀ t, ct = some t → Parses E t := by
  intro t ht
  subst ht
  unfold givenType at h
  split at h
  · split at h
    · rename_i hp
      cases h
      exact hE.parsed _ _ hp
    · cases h
  · cases h

theorem value_ok {E : FileEnv} (hE : TypesOk E) {ct : Option ContentType} (hc : ∀ t, ct = some t → Parses E t) (j : Json) :
    ∀ b t h, valueBody E.parseCT ct j = .present b (some t) h → Parses E t := by
  intro b t h e
  unfold valueBody at e
  injection e with _ e2 _
  cases e2
  cases ct with
  | none => exact typeOf_ok hE _
  | some t => exact hc t rfl

theorem from_ok {E : FileEnv} (hE : TypesOk E) {j : Json} {s : Contents} (h : contentsFrom E.parseCT j = .ok s) :
    ContentsInv E s := by
  unfold contentsFrom at h
  obtain ⟨ct, h1, h2⟩ := Res.map_eq_ok.1 h
  have hg := given_ok hE h1
  cases ct with
  | none =>
    cases h2
    exact contents_body (value_ok hE (by intro t e; cases e) _)
  | some t =>
    cases h2
    refine contents_body ?_
    intro b u x e
    split at e
    · cases e; exact hg _ rfl
    · cases e

theorem rulesInv_one {uc : UC} {c : RuleCategory} {d : Category} (hd : c.name = d) (h : TOk uc (KeyOk uc d) c.rules) :
    RulesInv uc [(d, c)] := by
  refine ⟨by simp, ?_⟩
  intro e he
  rw [List.mem_singleton.1 he]
  exact ⟨hd.symm, h⟩

theorem bodyRules_ok {E : FileEnv} {s : Contents} (h : ContentsInv E s) :
    TOk E.P.uc (KeyOk E.P.uc .body) (bodyRules s).rules := tok_addRules (c := emptyCat .body) (tok_nil _ _) h.rules.each

theorem metadataRules_ok {E : FileEnv} {s : Contents} (h : ContentsInv E s) :
    TOk E.P.uc (KeyOk E.P.uc .metadata) (metadataRules s).rules :=
  tok_addRules (c := emptyCat .metadata) (tok_nil _ _) h.metaRules.each

theorem async_contents_ok {E : FileEnv} (hE : TypesOk E) {s : Contents} (h : ContentsInv E s) :
    MessageOk E none (asyncContents s) := by
  refine ⟨h.metadata, ?_, (rulesInv_iff _ _).1 (rulesInv_one rfl (bodyRules_ok h)), h.gens⟩
  refine bodyOk_of hE ?_
  intro b ct x e
  refine h.body b ct x ?_
  have : withContentType none s.body = .present b (some ct) x := e
  cases hb : s.body with
  | present b0 c0 h0 =>
    rw [hb] at this
    simp only [withContentType, Option.or_none] at this
    exact this
  | missing => rw [hb] at this; cases this
  | null => rw [hb] at this; cases this
  | empty => rw [hb] at this; cases this

theorem messageCT_ok {E : FileEnv} (hE : TypesOk E) {m : MessageContents}
    (h : ∀ b ct x, m.contents = .present b (some ct) x → Parses E ct) : BodyOk E (withContentType (messageCT E m) m.contents) := by
  intro b ct x e
  unfold messageCT at e
  cases hb : m.contents with
  | present b0 c0 h0 =>
    rw [hb] at e
    cases c0 with
    | some t =>
      simp only [withContentType, Option.some_or] at e
      cases e
      exact h b t x hb
    | none =>
      simp only [withContentType, Option.none_or] at e
      cases e
      generalize hv : (RuleJson.get "contentType" m.metadata) = v
      cases v with
      | none =>
        simp only [Option.bind_none, Option.none_or]
        cases hd : E.detectBytes b with
        | none => exact hE.unknown
        | some t => exact hE.detected b t hd
      | some v =>
        simp only [Option.bind_some]
        cases hp : E.parseCT v.toStr with
        | some t => exact hE.parsed _ t hp
        | none =>
          rw [Option.none_or]
          cases hd : E.detectBytes b with
          | none => exact hE.unknown
          | some t => exact hE.detected b t hd
  | missing => rw [hb] at e; cases e
  | null => rw [hb] at e; cases e
  | empty => rw [hb] at e; cases e

theorem sync_contents_ok {E : FileEnv} (hE : TypesOk E) {r s : Contents} (hr : ContentsInv E r) (h : ContentsInv E s) :
    MessageOk E (messageCT E (syncContents r s)) (syncContents r s) := by
  refine ⟨h.metadata, messageCT_ok hE h.body, (rulesInv_iff _ _).1 ⟨(show [Category.body, Category.metadata].Nodup by decide), ?_⟩, hr.gens⟩
  intro e he
  rcases List.mem_cons.1 he with rfl | he
  · exact ⟨rfl, bodyRules_ok h⟩
  · rw [List.mem_singleton.1 he]
    exact ⟨rfl, metadataRules_ok h⟩

theorem info_step_ok {c : InfoCall} {m : Meta} (hc : InfoCallOk c) (h : ∀ s ∈ m.states, IsMap s.params) :
    ∀ s ∈ (infoStep c m).states, IsMap s.params := by
  cases c with
  | given s => exact states_snoc h List.nodup_nil
  | givenWithParams s ps => exact states_snoc h hc
  | withKey k => exact h
  | pending x => exact h
  | comment t => exact h
  | testName n => exact h

theorem commonOf_ok {m : Meta} (h : ∀ s ∈ m.states, IsMap s.params) : CommonOk (commonOf m) :=
  ⟨h, comments_map _ _, List.nodup_nil, (fun e he => by cases he)⟩

theorem async_step_ok {E : FileEnv} (hE : TypesOk E) {c : AsyncCall} {b b' : AsyncBuilder} (hc : AsyncCallOk E c)
    (h : (∀ s ∈ b.info.states, IsMap s.params) ∧ ContentsInv E b.contents) (hs : asyncStep E.parseCT c b = .ok b') :
    (∀ s ∈ b'.info.states, IsMap s.params) ∧ ContentsInv E b'.contents := by
  cases c with
  | info c => cases hs; exact ⟨info_step_ok hc h.1, h.2⟩
  | metadata k v => cases hs; exact ⟨h.1, msg_step_ok (c := .metadata k v) hE trivial h.2⟩
  | jsonBody p => cases hs; exact ⟨h.1, msg_step_ok (c := .jsonBody p) hE hc h.2⟩
  | body x ct => cases hs; exact ⟨h.1, msg_step_ok (c := .body x ct) hE trivial h.2⟩
  | contentsFrom j =>
    rw [asyncStep] at hs
    obtain ⟨s, h1, h2⟩ := Res.map_eq_ok.1 hs
    cases h2
    exact ⟨h.1, from_ok hE h1⟩

/-- What the builder of asynchronous messages builds can be written. -/
theorem async_ok {E : FileEnv} (hE : TypesOk E) {d : Str} {cs : List AsyncCall} {i : Interaction}
    (hc : ∀ c ∈ cs, AsyncCallOk E c) (h : buildAsync E.parseCT d cs = .ok i) : InteractionOk E i := by
  unfold buildAsync at h
  obtain ⟨b, h1, h2⟩ := Res.map_eq_ok.1 h
  cases h2
  have key : ∀ (cs : List AsyncCall) (b0 : AsyncBuilder), (∀ c ∈ cs, AsyncCallOk E c) →
      (∀ s ∈ b0.info.states, IsMap s.params) ∧ ContentsInv E b0.contents → asyncRun E.parseCT cs b0 = .ok b →
      (∀ s ∈ b.info.states, IsMap s.params) ∧ ContentsInv E b.contents := by
    intro cs
    induction cs with
    | nil => intro b0 _ hb h; cases h; exact hb
    | cons c cs ih =>
      intro b0 hc hb h
      rw [asyncRun] at h
      obtain ⟨b1, h3, h4⟩ := ApplyGenProps.bind_eq_ok h
      exact ih b1 (fun c hm => hc c (List.mem_cons_of_mem _ hm)) (async_step_ok hE (hc c List.mem_cons_self) hb h3) h4
  have := key cs _ hc ⟨(fun s h => by cases h), contents0_ok E⟩ h1
  exact ⟨commonOf_ok this.1, async_contents_ok hE this.2⟩

/-- A builder of a synchronous message that can be written. -/
structure SyncInv (E : FileEnv) (b : SyncBuilder) : Prop where
  states : ∀ s ∈ b.info.states, IsMap s.params
  request : ContentsInv E b.request
  responses : ∀ r ∈ b.responses, ContentsInv E r

theorem snoc_ok {E : FileEnv} {l : List Contents} {x : Contents} (h : ∀ r ∈ l, ContentsInv E r) (hx : ContentsInv E x) :
    ∀ r ∈ l ++ [x], ContentsInv E r := by
  intro r hr
  rcases List.mem_append.1 hr with hr | hr
  · exact h r hr
  · rw [List.mem_singleton.1 hr]; exact hx

theorem responses_ok {E : FileEnv} (hE : TypesOk E) {ct : Option ContentType} (hc : ∀ t, ct = some t → Parses E t)
    (j : Option Json) : ∀ r ∈ responsesFrom E.parseCT ct j, ContentsInv E r := by
  intro r hr
  unfold responsesFrom at hr
  split at hr
  · obtain ⟨x, -, rfl⟩ := List.mem_map.1 hr
    exact contents_body (value_ok hE hc _)
  · rw [List.mem_singleton.1 hr]
    exact contents_body (value_ok hE hc _)
  · cases hr

theorem sync_step_ok {E : FileEnv} (hE : TypesOk E) {c : SyncCall} {b b' : SyncBuilder} (hc : SyncCallOk E c)
    (h : SyncInv E b) (hs : syncStep E.parseCT c b = .ok b') : SyncInv E b' := by
  cases c with
  | info c => cases hs; exact ⟨info_step_ok hc h.states, h.request, h.responses⟩
  | request c => cases hs; exact ⟨h.states, msg_step_ok hE hc h.request, h.responses⟩
  | responseJson p =>
    cases hs
    refine ⟨h.states, h.request, snoc_ok h.responses ?_⟩
    refine ⟨?_, List.nodup_nil, addPattern_ok (old := none) (pattern_ok hc) (tok_nil _ _), tok_nil _ _, gens_nil _⟩
    intro b t x e
    cases e
    exact typeOf_ok hE _
  | responseBody x ct =>
    cases hs
    refine ⟨h.states, h.request, snoc_ok h.responses ⟨bytes_ok hE x ct, ?_, tok_nil _ _, tok_nil _ _, gens_nil _⟩⟩
    cases ct with
    | none => exact List.nodup_nil
    | some c =>
      show IsMap [(" contentType".toList, Json.str c)]
      unfold IsMap
      simp
  | responseContents m =>
    cases hs
    obtain ⟨h1, h2, h3, h4⟩ := hc
    have h3' := (rulesInv_iff _ _).2 h3
    refine ⟨h.states, h.request, snoc_ok h.responses ⟨h2, h1, ?_, ?_, h4⟩⟩
    · show TOk _ _ ((rulesForCategory m.rules .body).getD _).rules
      cases hr : rulesForCategory m.rules .body with
      | none => exact tok_nil _ _
      | some c => exact category_ok h3' .body hr
    · show TOk _ _ ((rulesForCategory m.rules .metadata).getD _).rules
      cases hr : rulesForCategory m.rules .metadata with
      | none => exact tok_nil _ _
      | some c => exact category_ok h3' .metadata hr
  | contentsFrom j =>
    rw [syncStep] at hs
    unfold syncContentsFrom at hs
    obtain ⟨ct, h1, h2⟩ := Res.map_eq_ok.1 hs
    cases h2
    have hg := given_ok hE h1
    refine ⟨h.states, ?_, ?_⟩
    · show ContentsInv E (match RuleJson.get "request" (paramsOf j) with
        | some r => { contents0 with body := valueBody E.parseCT ct r }
        | none => b.request)
      split
      · exact contents_body (value_ok hE hg _)
      · exact h.request
    · intro r hr
      rcases List.mem_append.1 hr with hr | hr
      · exact h.responses r hr
      · exact responses_ok hE hg _ r hr

/-- What the builder of synchronous messages builds can be written. -/
theorem sync_ok {E : FileEnv} (hE : TypesOk E) {d : Str} {cs : List SyncCall} {i : Interaction}
    (hc : ∀ c ∈ cs, SyncCallOk E c) (h : buildSync E.parseCT d cs = .ok i) : InteractionOk E i := by
  unfold buildSync at h
  obtain ⟨b, h1, h2⟩ := Res.map_eq_ok.1 h
  cases h2
  have key : ∀ (cs : List SyncCall) (b0 : SyncBuilder), (∀ c ∈ cs, SyncCallOk E c) → SyncInv E b0 →
      syncRun E.parseCT cs b0 = .ok b → SyncInv E b := by
    intro cs
    induction cs with
    | nil => intro b0 _ hb h; cases h; exact hb
    | cons c cs ih =>
      intro b0 hc hb h
      rw [syncRun] at h
      obtain ⟨b1, h3, h4⟩ := ApplyGenProps.bind_eq_ok h
      exact ih b1 (fun c hm => hc c (List.mem_cons_of_mem _ hm)) (sync_step_ok hE (hc c List.mem_cons_self) hb h3) h4
  have hb := key cs _ hc ⟨(fun s h => by cases h), contents0_ok E, (fun r h => by cases h)⟩ h1
  refine ⟨commonOf_ok hb.states, sync_contents_ok hE hb.request hb.request, ?_⟩
  intro r hr
  obtain ⟨s, hs, rfl⟩ := List.mem_map.1 hr
  exact sync_contents_ok hE hb.request (hb.responses s hs)

/-! ### Pacts -/

theorem push_ok {E : FileEnv} {i : AnyInteraction} {p p' : V4Pact} (hi : ∀ x, asV4 E.P.uc i = some x → InteractionOk E x)
    (h : ∀ x ∈ p.interactions, InteractionOk E x) {q : AnyPact} (hq : PactBuild.push E.P.uc i (.v4 p) = .ok q) (he : q = .v4 p') :
    (∀ x ∈ p'.interactions, InteractionOk E x) ∧ p'.metadata = p.metadata ∧ p'.plugins = p.plugins ∧
      p'.consumer = p.consumer ∧ p'.provider = p.provider := by
  subst he
  unfold PactBuild.push addInteraction at hq
  simp only at hq
  cases hx : asV4 E.P.uc i with
  | none => rw [hx] at hq; cases hq
  | some x =>
    rw [hx] at hq
    simp only at hq
    cases hq
    refine ⟨?_, rfl, rfl, rfl, rfl⟩
    intro y hy
    rcases List.mem_append.1 hy with hy | hy
    · exact h y hy
    · rw [List.mem_singleton.1 hy]; exact hi x hx

theorem push_v4 {uc : UC} {i : AnyInteraction} {p : V4Pact} {q : AnyPact} (hq : PactBuild.push uc i (.v4 p) = .ok q) :
    ∃ p', q = .v4 p' := by
  unfold PactBuild.push addInteraction at hq
  simp only at hq
  cases hx : asV4 uc i with
  | none => rw [hx] at hq; cases hq
  | some x => rw [hx] at hq; cases hq; exact ⟨_, rfl⟩

/-- The part of a pact that a call changes can be written, the rest stays. -/
theorem call_ok {E : FileEnv} (hE : TypesOk E) {c : PactCall} {p : V4Pact} {q : AnyPact} (hc : PactCallOk E c)
    (h : ∀ x ∈ p.interactions, InteractionOk E x) (hq : PactBuild.step E.P.uc E.parseCT c (.v4 p) = .ok q) :
    ∃ p', q = .v4 p' ∧ (∀ x ∈ p'.interactions, InteractionOk E x) ∧ p'.metadata = p.metadata ∧ p'.plugins = p.plugins ∧
      p'.consumer = p.consumer ∧ p'.provider = p.provider := by
  have go : ∀ i : AnyInteraction, (∀ x, asV4 E.P.uc i = some x → InteractionOk E x) →
      PactBuild.push E.P.uc i (.v4 p) = .ok q → ∃ p', q = .v4 p' ∧ (∀ x ∈ p'.interactions, InteractionOk E x) ∧
      p'.metadata = p.metadata ∧ p'.plugins = p.plugins ∧ p'.consumer = p.consumer ∧ p'.provider = p.provider := by
    intro i hi hp
    obtain ⟨p', hp'⟩ := push_v4 hp
    exact ⟨p', hp', push_ok hi h hp hp'⟩
  cases c with
  | interaction d cs =>
    rw [PactBuild.step, if_pos (show isV4 (.v4 p) = true from rfl)] at hq
    refine go _ ?_ hq
    intro x hx
    cases hx
    exact http_ok hE d cs hc
  | message d cs =>
    rw [PactBuild.step] at hq
    obtain ⟨i, h1, h2⟩ := ApplyGenProps.bind_eq_ok hq
    refine go _ ?_ h2
    intro x hx
    cases hx
    exact async_ok hE hc h1
  | sync d cs =>
    rw [PactBuild.step] at hq
    obtain ⟨i, h1, h2⟩ := ApplyGenProps.bind_eq_ok hq
    refine go _ ?_ h2
    intro x hx
    cases hx
    exact sync_ok hE hc h1
  | push i => exact go i hc hq

theorem run_ok {E : FileEnv} (hE : TypesOk E) (cs : List PactCall) (hc : ∀ c ∈ cs, PactCallOk E c) (p : V4Pact) (q : AnyPact)
    (h : ∀ x ∈ p.interactions, InteractionOk E x) (hq : PactBuild.run E.P.uc E.parseCT cs (.v4 p) = .ok q) :
    ∃ p', q = .v4 p' ∧ (∀ x ∈ p'.interactions, InteractionOk E x) ∧ p'.metadata = p.metadata ∧ p'.plugins = p.plugins ∧
      p'.consumer = p.consumer ∧ p'.provider = p.provider := by
  induction cs generalizing p with
  | nil => cases hq; exact ⟨p, rfl, h, rfl, rfl, rfl, rfl⟩
  | cons c cs ih =>
    rw [PactBuild.run] at hq
    obtain ⟨r, h1, h2⟩ := ApplyGenProps.bind_eq_ok hq
    obtain ⟨p1, rfl, h3, h4, h5, h6, h7⟩ := call_ok hE (hc c List.mem_cons_self) h h1
    obtain ⟨p', h8, h9, h10, h11, h12, h13⟩ := ih (fun c hm => hc c (List.mem_cons_of_mem _ hm)) p1 h3 h2
    exact ⟨p', h8, h9, h10.trans h4, h11.trans h5, h12.trans h6, h13.trans h7⟩

/-- What a V4 pact builder builds can be written. -/
theorem pact_ok {E : FileEnv} (hE : TypesOk E) (V : Versions) (consumer provider : Str) (cs : List PactCall)
    (hc : ∀ c ∈ cs, PactCallOk E c) (q : AnyPact)
    (hq : PactBuild.build E.P.uc E.parseCT V .v4 consumer provider cs = .ok q) :
    ∃ p, q = .v4 p ∧ PactOk E p ∧ p.consumer = consumer ∧ p.provider = provider := by
  unfold PactBuild.build PactBuild.new at hq
  obtain ⟨p, h1, h2, h3, h4, h5, h6⟩ := run_ok hE cs hc _ q (fun x h => by cases h) hq
  refine ⟨p, h1, ⟨h2, ?_, ?_, ?_, ?_⟩, h5, h6⟩
  · rw [h3]
    cases V.consumer with
    | none => exact trivial
    | some v => exact show Json.SortedKeys ["pactRust".toList] by decide
  · rw [h3]
    cases V.consumer with
    | none => rfl
    | some v => simp only; rw [Json.lookup, if_neg (by decide)]; rfl
  · rw [h3]
    intro m hm
    cases hv : V.consumer with
    | none => rw [hv] at hm; cases hm
    | some v =>
      rw [hv] at hm
      simp only at hm
      rw [Json.lookup, if_pos rfl, Option.some_or] at hm
      cases hm
      exact show Json.SortedKeys ["consumer".toList] by decide
  · rw [h4]
    intro d hd
    cases hd

/-- **C166** For every V4 pact built from calls that can be written: the file can be written, can be read, and what is read is
the same pact: names, interactions in the order of the file, metadata and plugins. -/
theorem C166_file_partial (E : FileEnv) (hE : TypesOk E) (V : Versions) (consumer provider : Str) (cs : List PactCall)
    (hc : ∀ c ∈ cs, PactCallOk E c) (q : AnyPact)
    (hq : PactBuild.build E.P.uc E.parseCT V .v4 consumer provider cs = .ok q) :
    ∃ p j p', q = .v4 p ∧ PactBuild.written E q = .ok j ∧ pactFromJson E j = .ok p' ∧ SamePact E p p' ∧
      p'.consumer = consumer ∧ p'.provider = provider := by
  obtain ⟨p, rfl, h1, h2, h3⟩ := pact_ok hE V consumer provider cs hc q hq
  obtain ⟨j, p', h4, h5, h6⟩ := C75_pact_partial E p h1
  exact ⟨p, j, p', rfl, h4, h5, h6, h6.consumer.trans h2, h6.provider.trans h3⟩

/-! ### Examples -/

theorem exE_types : TypesOk exE := by
  refine ⟨parses_unknown, ?_, ?_⟩
  · intro s ct h
    have h' : (if s = "application/json".toList then some (ContentType.mk "application".toList "json".toList [] none)
      else if s = "text/plain".toList then some (ContentType.mk "text".toList "plain".toList [] none)
      else if s = "*/*".toList then some .unknown else none) = some ct := h
    split at h'
    · cases h'; unfold Parses; decide
    · split at h'
      · cases h'; unfold Parses; decide
      · split at h'
        · cases h'; exact parses_unknown
        · cases h'
  · intro b ct h
    exact absurd (show (none : Option ContentType) = some ct from h) (by simp)

/-- An interaction, a message and a synchronous message. -/
def exCalls : List PactCall := [
  .interaction "b".toList [
    .givenWithParams "s".toList (.obj [("id".toList, .num (.pos 1))]), .comment "c".toList,
    .request (.method "POST".toList), .request (.pathState "/${id}".toList (.term "/.+".toList "/1".toList)),
    .request (.query "q".toList (.like (.lit "x".toList))), .request (.query "matchers".toList (.lit "x".toList)),
    .request (.part (.header "Content-Type".toList (.lit "application/json".toList))),
    .request (.part (.jsonBody (.obj [("a b".toList, .eachLike (.like (.json (.num (.pos 1)))) 2),
      ("n".toList, .arr [.json .null, .term "x+".toList "xx".toList])]))),
    .response (.status 201), .response (.part (.headerState "X".toList "${id}".toList (.term "a".toList "a".toList))),
    .response (.part (.body2 "hello".toList "text/plain".toList))],
  .message "a".toList [.info (.given "s".toList), .metadata "k".toList (.bool true),
    .jsonBody (.objectMatching (.obj [("x".toList, .json (.num (.pos 1)))]) [.type])],
  .sync "c".toList [.request (.body [1, 2] (some "text/plain".toList)), .responseJson (.like (.json (.str "y".toList))),
    .contentsFrom (.obj [("response".toList, .arr [.num (.pos 1), .num (.pos 2)])])]]

theorem exCalls_ok : ∀ c ∈ exCalls, PactCallOk exE c := by
  have term : ∀ (n : Str) (h : n ≠ "matchers".toList) (p : SPattern), NameOk n p := fun n h p => .inr h
  intro c hc
  simp only [exCalls, List.mem_cons, List.not_mem_nil, or_false] at hc
  rcases hc with rfl | rfl | rfl
  · intro c hc
    simp only [List.mem_cons, List.not_mem_nil, or_false] at hc
    rcases hc with rfl | rfl | rfl | rfl | rfl | rfl | rfl | rfl | rfl | rfl | rfl
    · show IsMap [("id".toList, Json.num (.pos 1))]
      unfold IsMap
      simp
    · exact trivial
    · exact trivial
    · exact trivial
    · exact term "q".toList (by decide) _
    · exact .inl ⟨_, rfl⟩
    · exact term "Content-Type".toList (by decide) _
    · show PatternOk exE.P.uc (.obj [("a b".toList, .eachLike (.like (.json (.num (.pos 1)))) 2),
        ("n".toList, .arr [.json .null, .term "x+".toList "xx".toList])])
      unfold PatternOk
      simp only [Everywhere, EverywhereFields, EverywhereField, EverywhereItems, and_true, true_and]
      refine ⟨?_, by decide⟩
      intro f hf
      simp only [List.mem_cons, List.not_mem_nil, or_false] at hf
      rcases hf with rfl | rfl <;> (unfold PlainKey; decide)
    · show (201 : Nat) < 65536
      omega
    · exact term "X".toList (by decide) _
    · exact trivial
  · intro c hc
    simp only [List.mem_cons, List.not_mem_nil, or_false] at hc
    rcases hc with rfl | rfl | rfl
    · exact trivial
    · exact trivial
    · show PatternOk exE.P.uc (.objectMatching (.obj [("x".toList, .json (.num (.pos 1)))]) [.type])
      unfold PatternOk
      simp only [Everywhere, EverywhereFields, EverywhereField, and_true]
      refine ⟨?_, ?_⟩
      · intro r hr
        rw [List.mem_singleton.1 hr]
        exact (plain_rule _).2.2.1
      · intro f hf
        rw [List.mem_singleton.1 hf]
        unfold PlainKey
        decide
  · intro c hc
    simp only [List.mem_cons, List.not_mem_nil, or_false] at hc
    rcases hc with rfl | rfl | rfl
    · exact trivial
    · show PatternOk exE.P.uc (.like (.json (.str "y".toList)))
      unfold PatternOk
      simp only [Everywhere, and_true]
    · exact trivial

/-- The versions of the libraries. -/
def exV : Versions := ⟨some "1".toList, some "2".toList⟩

/-- Whether building, writing and reading a pact succeed, and with how many interactions. -/
def roundTrip (E : FileEnv) (V : Versions) (cs : List PactCall) : Res Nat :=
  (PactBuild.build E.P.uc E.parseCT V .v4 "C".toList "P".toList cs).bind fun q =>
    (PactBuild.written E q).bind fun j => (pactFromJson E j).map fun p => p.interactions.length

/-- The hypotheses of C166 are met by a pact with an HTTP interaction, a message and a synchronous message. -/
theorem C166_example : (∃ q, PactBuild.build exE.P.uc exE.parseCT exV .v4 "C".toList "P".toList exCalls = .ok q) ∧
    roundTrip exE exV exCalls = .ok 3 := ⟨⟨_, rfl⟩, by decide +kernel⟩

/-- A pattern with a field that has a quote in its name. -/
def exQuote : List PactCall :=
  [.interaction "b".toList [.response (.part (.jsonBody (.obj [("it's".toList, .like (.json (.num (.pos 1))))])))]]

/-- **C166** (limit): the builder takes a JSON pattern with a field whose name has a quote, and writes a file that it can not
read: the quote is written as `\'`, which is no path. -/
theorem C166_limit : (∃ q j, PactBuild.build exE.P.uc exE.parseCT exV .v4 "C".toList "P".toList exQuote = .ok q ∧
      PactBuild.written exE q = .ok j) ∧ roundTrip exE exV exQuote = .err :=
  ⟨⟨_, _, rfl, rfl⟩, by decide +kernel⟩

/-- A header with the name `matchers` that has a rule. -/
def exMatchers : List PactCall :=
  [.interaction "b".toList [.response (.part (.header "matchers".toList (.like (.lit "x".toList))))]]

/-- The paths of the rules for the headers of the responses of the pact that is read. -/
def headerPaths (E : FileEnv) (V : Versions) (cs : List PactCall) : Res (List (List Str)) :=
  (PactBuild.build E.P.uc E.parseCT V .v4 "C".toList "P".toList cs).bind fun q =>
    (PactBuild.written E q).bind fun j => (pactFromJson E j).map fun p => p.interactions.filterMap fun
      | .http _ _ r => some ((catOf r.rules .header).rules.map fun x => x.1.expr)
      | _ => none

/-- **C166** (limit): the rule for a header with the name `matchers` is lost. -/
theorem C166_limit_matchers : headerPaths exE exV exMatchers = .ok [[]] ∧
    headerPaths exE exV exCalls = .ok [["$.X".toList]] := by constructor <;> decide +kernel

end BuilderFileProps
end Verif
