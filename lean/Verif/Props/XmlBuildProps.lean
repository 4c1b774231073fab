import Verif.XmlBuild
import Verif.Props.IntegrationProps

/-
  C119: the document a description of an XML body gives, and when the builder aborts.
  C120: the rules and generators it gives.
-/

set_option autoImplicit false
set_option maxRecDepth 100000

namespace Verif
namespace XmlBuildProps
open Path Rules RuleJson Generate Integration Xml XmlBuild IntegrationProps

/-! ## Specification -/

/-- The object that holds name, attributes and children of an element (the description, or the value of its matcher)
and the name. -/
def Part (o d : Obj) (n : Str) : Prop :=
  ((IsMatcher o ∧ RuleJson.get "value" o = some (.obj d)) ∨
    (¬ IsMatcher o ∧ RuleJson.get "content" o = none ∧ d = o)) ∧
  ∃ x, RuleJson.get "name" d = some x ∧ n = x.toStr

/-- The described attributes. -/
def AttributesOf (d as : Obj) : Prop :=
  RuleJson.get "attributes" d = some (.obj as) ∨
    (as = [] ∧ ∀ as', RuleJson.get "attributes" d ≠ some (.obj as'))

/-- The described children. -/
def Children (d : Obj) (xs : List Json) : Prop :=
  RuleJson.get "children" d = some (.arr xs) ∨ (RuleJson.get "children" d = none ∧ xs = [])

/-- The text of an attribute: its value, the one in its matcher if it has one. -/
inductive AttrText : Json → Str → Prop
  | matcher (m : Obj) (x : Json) : IsMatcher m → RuleJson.get "value" m = some x → AttrText (.obj m) x.toStr
  | plain (v : Json) : (∀ m, v = .obj m → ¬ IsMatcher m) → AttrText v v.toStr

/-- The attributes, in the order of the description. -/
inductive Attrs : Obj → List (QName × Str) → Prop
  | nil : Attrs [] []
  | cons (k : Str) (v : Json) (s : Str) (es : Obj) (l : List (QName × Str)) : AttrText v s → Attrs es l →
      Attrs ((k, v) :: es) ((⟨none, k⟩, s) :: l)

/-- The number of examples: one if there is no number. -/
def Count (o : Obj) (n : Nat) : Prop :=
  RuleJson.get "examples" o = some (.num (.pos n)) ∨ (n = 1 ∧ ∀ v, RuleJson.get "examples" o ≠ some (.num v))

/-- What a description contributes to the children: the text once, the element as often as there are examples; the
repetitions are without texts if the XML library moves the text nodes. -/
inductive Block (moves : Bool) (o : Obj) : Made → List Kid → Prop
  | text (s : Str) (n : Nat) : Count o n → Block moves o (.text s) [.inr (some s)]
  | element (e : Elem) (b : List Kid) : Count o b.length →
      (∀ (i : Nat) (k : Kid), b[i]? = some k → k = .inl (if i = 0 ∨ moves = false then e else strip e)) →
      Block moves o (.elem e) b

mutual
/-- The node that is described. -/
inductive Shape (moves : Bool) : Json → Made → Prop
  | text (o : Obj) (c : Json) : ¬ IsMatcher o → RuleJson.get "content" o = some c → Shape moves (.obj o) (.text c.toStr)
  | element (o d : Obj) (n : Str) (as : Obj) (l : List (QName × Str)) (xs : List Json) (ks : List Kid) : Part o d n →
      AttributesOf d as → Attrs as l → Children d xs → Kids moves xs ks → Shape moves (.obj o) (.elem (.mk ⟨none, n⟩ l ks))
/-- The children that are described. -/
inductive Kids (moves : Bool) : List Json → List Kid → Prop
  | nil : Kids moves [] []
  | cons (o : Obj) (m : Made) (b : List Kid) (xs : List Json) (ks : List Kid) : Shape moves (.obj o) m → Block moves o m b →
      Kids moves xs ks → Kids moves (.obj o :: xs) (b ++ ks)
end

/-- A place with a matcher: the path expression, the matcher and the generator given beside it. -/
structure Site where
  expr : Str
  matcher : Obj
  gen : Option Generator

/-- The generator whose type is given by `pact:generator:type` in `o` and whose attributes are in `m`. -/
def TypedGen (o m : Obj) : Option Generator := (RuleJson.get "pact:generator:type" o).bind fun t => genFromMap t.toStr m

/-- The site is in the description, which is below the elements `path`. -/
inductive At : List Str → Json → Site → Prop
  | element (path : List Str) (o d : Obj) (n : Str) : IsMatcher o → Part o d n →
      At path (.obj o) ⟨dotted (path ++ [n]), o, TypedGen o o⟩
  | attr (path : List Str) (o d : Obj) (n : Str) (as : Obj) (k : Str) (m : Obj) : Part o d n →
      RuleJson.get "attributes" d = some (.obj as) → (k, .obj m) ∈ as → IsMatcher m →
      At path (.obj o) ⟨attrPath (path ++ [n]) k, m, TypedGen m m⟩
  | text (path : List Str) (o : Obj) (c : Json) (m : Obj) : ¬ IsMatcher o → RuleJson.get "content" o = some c →
      RuleJson.get "matcher" o = some (.obj m) →
      At path (.obj o) ⟨dotted (path ++ ["#text".toList]), m, TypedGen o m⟩
  | noMatcher (path : List Str) (o : Obj) (c v : Json) : ¬ IsMatcher o → RuleJson.get "content" o = some c →
      RuleJson.get "matcher" o = some v → (∀ m, v ≠ .obj m) →
      At path (.obj o) ⟨dotted (path ++ ["#text".toList]), [], none⟩
  | child (path : List Str) (o d : Obj) (n : Str) (xs : List Json) (x : Json) (s : Site) : Part o d n →
      RuleJson.get "children" d = some (.arr xs) → x ∈ xs → At (path ++ [n]) x s → At path (.obj o) s

/-- The path or the matcher makes the program abort. -/
def Broken (S : Setup) (s : Site) : Prop := Path.new S.rules.uc s.expr = .panic ∨ matchersFrom S s.matcher = .panic

/-! ## Sites in order -/

/-- What is done for a site. -/
def perform (S : Setup) (s : Site) (a : Acc) : Res Acc :=
  (docPath S.rules.uc s.expr).bind fun p => (addMatcher S p s.matcher a).map fun a => addBodyGen p s.gen a

/-- What is done for some sites. -/
def performAll (S : Setup) : List Site → Acc → Res Acc
  | [], a => .ok a
  | s :: l, a => (perform S s a).bind fun a => performAll S l a

theorem docPath_err (uc : UC) (s : Str) : docPath uc s ≠ .err := by
  unfold docPath
  cases Path.new uc s <;> simp

theorem addMatcher_err (S : Setup) (p : DocPath) (m : Obj) (a : Acc) : addMatcher S p m a ≠ .err := by
  unfold addMatcher
  cases matchersFrom S m <;> simp

theorem perform_err (S : Setup) (s : Site) (a : Acc) : perform S s a ≠ .err := by
  unfold perform
  cases h : docPath S.rules.uc s.expr with
  | err => exact absurd h (docPath_err _ _)
  | panic => simp [Res.bind]
  | ok p =>
    cases h2 : addMatcher S p s.matcher a with
    | err => exact absurd h2 (addMatcher_err _ _ _ _)
    | panic => simp [Res.bind, h2, Res.map]
    | ok b => simp [Res.bind, h2, Res.map]

theorem performAll_err (S : Setup) (l : List Site) (a : Acc) : performAll S l a ≠ .err := by
  induction l generalizing a with
  | nil => simp [performAll]
  | cons s l ih =>
    simp only [performAll]
    cases h : perform S s a with
    | err => exact absurd h (perform_err _ _ _)
    | panic => simp [Res.bind]
    | ok b => exact ih b

theorem performAll_append (S : Setup) (l l' : List Site) (a : Acc) :
    performAll S (l ++ l') a = (performAll S l a).bind fun a => performAll S l' a := by
  induction l generalizing a with
  | nil => rfl
  | cons s l ih =>
    simp only [List.cons_append, performAll]
    cases h : perform S s a with
    | err => rfl
    | panic => rfl
    | ok b => exact ih b

theorem performAll_one (S : Setup) (s : Site) (a : Acc) : performAll S [s] a = perform S s a := by
  simp only [performAll]
  cases perform S s a <;> rfl

theorem bind_panic_of {α β : Type} {r : Res α} (h : r ≠ .err) : (r.bind fun _ => (.panic : Res β)) = .panic := by
  cases r with
  | ok a => rfl
  | err => exact absurd rfl h
  | panic => rfl

theorem get_lt {k : String} {o : Obj} {v : Json} (h : RuleJson.get k o = some v) : sizeOf v < sizeOf (Json.obj o) := by
  have h1 := List.sizeOf_lt_of_mem (get_mem h)
  have h2 : sizeOf (k.toList, v) = 1 + sizeOf k.toList + sizeOf v := rfl
  have h3 : sizeOf (Json.obj o) = 1 + sizeOf o := by simp
  omega

theorem valueIn_get (S : Setup) (moves : Bool) (path : List Str) (m o : Obj) (a : Acc) :
    XmlBuild.valueIn S moves path m o a = match RuleJson.get "value" o with
      | some v => matched S moves path m v a
      | none => .panic := by
  induction o with
  | nil => rw [XmlBuild.valueIn]; rfl
  | cons e es ih =>
    obtain ⟨k, v⟩ := e
    rw [XmlBuild.valueIn]
    simp only [RuleJson.get, Json.lookup]
    by_cases hk : k = "value".toList
    · rw [if_pos hk]
      simp only [hk, if_true]
      rw [XmlBuild.valueOf]
    · rw [if_neg hk, ih, RuleJson.get, if_neg hk]

theorem kidsIn_get (S : Setup) (moves : Bool) (path : List Str) (o : Obj) (a : Acc) :
    kidsIn S moves path o a = match RuleJson.get "children" o with
      | some v => kidsJ S moves path v a
      | none => .ok ([], a) := by
  induction o with
  | nil => rw [kidsIn]; rfl
  | cons e es ih =>
    obtain ⟨k, v⟩ := e
    rw [kidsIn]
    simp only [RuleJson.get, Json.lookup]
    by_cases hk : k = "children".toList
    · rw [if_pos hk]
      simp only [hk, if_true]
      rw [kidsOf]
    · rw [if_neg hk, ih, RuleJson.get, if_neg hk]

/-! ## Attributes -/

theorem bind_map_pair {α β : Type} (r : Res α) (f : α → β) (g : β → Res (List (QName × Str) × α)) :
    (r.map f).bind g = r.bind fun a => g (f a) := by
  cases r <;> rfl

/-- A step that performs some sites and gives a value. -/
def Step {β : Type} (S : Setup) (f : Acc → Res (β × Acc)) (b : β) (l : List Site) : Prop :=
  ∀ a, f a = (performAll S l a).map fun a => (b, a)

/-- A step that always aborts. -/
def Aborts {β : Type} (f : Acc → Res (β × Acc)) : Prop := ∀ a, f a = .panic

theorem step_bind {β γ δ : Type} {S : Setup} {f : Acc → Res (β × Acc)} {b : β} {l : List Site} (hf : Step S f b l)
    {g : β → Acc → Res (γ × Acc)} {c : γ} {l' : List Site} (hg : Step S (g b) c l') (h : β → γ → δ) :
    Step S (fun a => (f a).bind fun r => (g r.1 r.2).map fun s => (h r.1 s.1, s.2)) (h b c) (l ++ l') := by
  intro a
  simp only [hf a]
  rw [performAll_append]
  cases hp : performAll S l a with
  | err => exact absurd hp (performAll_err _ _ _)
  | panic => rfl
  | ok a' =>
    simp only [Res.map_ok, Res.bind_ok, hg a']
    cases performAll S l' a' <;> rfl

theorem step_abort {β γ : Type} {S : Setup} {f : Acc → Res (β × Acc)} {b : β} {l : List Site} (hf : Step S f b l)
    {g : β × Acc → Res γ} (hg : ∀ a, g (b, a) = .panic) (a : Acc) : (f a).bind g = .panic := by
  simp only [hf a]
  cases hp : performAll S l a with
  | err => exact absurd hp (performAll_err _ _ _)
  | panic => rfl
  | ok a' => exact hg a'

theorem attrText_unique {v : Json} {s t : Str} (h : AttrText v s) (h' : AttrText v t) : s = t := by
  cases h with
  | matcher m x hm hx =>
    cases h' with
    | matcher _ y _ hy => rw [hx] at hy; cases hy; rfl
    | plain _ hp => exact absurd hm (hp m rfl)
  | plain _ hp =>
    cases h' with
    | matcher m y hm hy => exact absurd hm (hp m rfl)
    | plain _ _ => rfl

theorem attrs_unique {o : Obj} {l l' : List (QName × Str)} (h : Attrs o l) (h' : Attrs o l') : l = l' := by
  induction h generalizing l' with
  | nil => cases h'; rfl
  | cons k v s es l ht _ ih =>
    cases h' with
    | cons _ _ t _ l'' ht' hl' => rw [attrText_unique ht ht', ih hl']

/-- One attribute. -/
theorem attr_good (S : Setup) (path : List Str) (k : Str) (v : Json) :
    (∃ s l, AttrText v s ∧ (∀ x, x ∈ l ↔ ∃ m, v = .obj m ∧ IsMatcher m ∧ x = ⟨attrPath path k, m, ownGenerator m⟩) ∧
      Step S (attrValue S path k v) s l) ∨
    ((∀ s, ¬ AttrText v s) ∧ Aborts (attrValue S path k v)) := by
  by_cases hv : ∃ m, v = .obj m ∧ IsMatcher m
  · obtain ⟨m, rfl, hm⟩ := hv
    have he : ∀ a, attrValue S path k (.obj m) a = (perform S ⟨attrPath path k, m, ownGenerator m⟩ a).bind fun a =>
        match RuleJson.get "value" m with
        | some x => .ok (x.toStr, a)
        | none => .panic := by
      intro a
      have hm2 : (RuleJson.get "pact:matcher:type" m).isSome = true := hm
      simp only [attrValue]
      rw [if_pos hm2]
      rfl
    cases hx : RuleJson.get "value" m with
    | some x =>
      refine .inl ⟨x.toStr, [⟨attrPath path k, m, ownGenerator m⟩], .matcher m x hm hx, ?_, ?_⟩
      · intro y
        rw [List.mem_singleton]
        constructor
        · intro h; exact ⟨m, rfl, hm, h⟩
        · rintro ⟨m', h, _, h2⟩; cases h; exact h2
      · intro a
        rw [he, hx, performAll_one]
        cases perform S ⟨attrPath path k, m, ownGenerator m⟩ a <;> rfl
    | none =>
      refine .inr ⟨?_, ?_⟩
      · intro s h
        cases h with
        | matcher _ x _ hx' => rw [hx] at hx'; cases hx'
        | plain _ hp => exact hp m rfl hm
      · intro a
        rw [he, hx]
        exact bind_panic_of (perform_err _ _ _)
  · have hv' : ∀ m, v = .obj m → ¬ IsMatcher m := fun m e hm => hv ⟨m, e, hm⟩
    refine .inl ⟨v.toStr, [], .plain v hv', ?_, ?_⟩
    · intro x
      constructor
      · intro h; cases h
      · rintro ⟨m, h1, h2, _⟩; exact absurd h2 (hv' m h1)
    · intro a
      cases v with
      | obj m =>
        have hm2 : ¬ (RuleJson.get "pact:matcher:type" m).isSome = true := hv' m rfl
        simp only [attrValue]
        rw [if_neg hm2]
        rfl
      | null => rfl
      | bool b => rfl
      | num n => rfl
      | str s => rfl
      | arr xs => rfl

theorem addAttributes_good (S : Setup) (path : List Str) (as : Obj) :
    (∃ l L, Attrs as l ∧ (∀ x, x ∈ L ↔ ∃ k m, (k, .obj m) ∈ as ∧ IsMatcher m ∧ x = ⟨attrPath path k, m, ownGenerator m⟩) ∧
      Step S (addAttributes S path as) l L) ∨
    ((∀ l, ¬ Attrs as l) ∧ Aborts (addAttributes S path as)) := by
  induction as with
  | nil =>
    refine .inl ⟨[], [], .nil, ?_, fun a => rfl⟩
    intro x
    constructor
    · intro h; cases h
    · rintro ⟨k, m, h, _⟩; cases h
  | cons e es ih =>
    obtain ⟨k, v⟩ := e
    rcases attr_good S path k v with ⟨s, l, h1, h2, h3⟩ | ⟨h1, h2⟩
    · rcases ih with ⟨l', L', i1, i2, i3⟩ | ⟨i1, i2⟩
      · refine .inl ⟨(⟨none, k⟩, s) :: l', l ++ L', .cons k v s es l' h1 i1, ?_, ?_⟩
        · intro x
          rw [List.mem_append, h2, i2]
          constructor
          · rintro (⟨m, rfl, hm, hx⟩ | ⟨k', m, h, hm, hx⟩)
            · exact ⟨k, m, List.mem_cons_self, hm, hx⟩
            · exact ⟨k', m, List.mem_cons_of_mem _ h, hm, hx⟩
          · rintro ⟨k', m, h, hm, hx⟩
            rcases List.mem_cons.1 h with h | h
            · cases h; exact .inl ⟨m, rfl, hm, hx⟩
            · exact .inr ⟨k', m, h, hm, hx⟩
        · intro a
          rw [addAttributes]
          exact step_bind (g := fun _ => addAttributes S path es) h3 i3 (fun r s => (⟨none, k⟩, r) :: s) a
      · refine .inr ⟨?_, ?_⟩
        · intro l0 h
          cases h with
          | cons _ _ _ _ l1 _ hl => exact i1 _ hl
        · intro a
          rw [addAttributes]
          refine step_abort h3 (fun a => ?_) a
          simp only [i2 a]
          rfl
    · refine .inr ⟨?_, ?_⟩
      · intro l0 h
        cases h with
        | cons _ _ s0 _ _ ht _ => exact h1 _ ht
      · intro a
        rw [addAttributes, h2 a]
        rfl

theorem attributesOf_good (S : Setup) (path : List Str) (d : Obj) :
    (∃ as l L, AttributesOf d as ∧ Attrs as l ∧ (∀ x, x ∈ L ↔ ∃ as' k m, RuleJson.get "attributes" d = some (.obj as') ∧
        (k, .obj m) ∈ as' ∧ IsMatcher m ∧ x = ⟨attrPath path k, m, ownGenerator m⟩) ∧
      Step S (attributesOf S path d) l L) ∨
    ((∀ as l, AttributesOf d as → ¬ Attrs as l) ∧ Aborts (attributesOf S path d)) := by
  by_cases h : ∃ as, RuleJson.get "attributes" d = some (.obj as)
  · obtain ⟨as, h⟩ := h
    have he : ∀ a, attributesOf S path d a = addAttributes S path as a := by
      intro a
      unfold attributesOf
      rw [h]
    rcases addAttributes_good S path as with ⟨l, L, h1, h2, h3⟩ | ⟨h1, h2⟩
    · refine .inl ⟨as, l, L, .inl h, h1, ?_, fun a => (he a).trans (h3 a)⟩
      intro x
      rw [h2]
      constructor
      · rintro ⟨k, m, r⟩; exact ⟨as, k, m, h, r⟩
      · rintro ⟨as', k, m, e, r⟩; rw [h] at e; cases e; exact ⟨k, m, r⟩
    · refine .inr ⟨?_, fun a => (he a).trans (h2 a)⟩
      rintro as' l (e | ⟨_, e⟩) hl
      · rw [h] at e; cases e; exact h1 l hl
      · exact e as h
  · have h' : ∀ as', RuleJson.get "attributes" d ≠ some (.obj as') := fun as' e => h ⟨as', e⟩
    refine .inl ⟨[], [], [], .inr ⟨rfl, h'⟩, .nil, ?_, ?_⟩
    · intro x
      constructor
      · intro h; cases h
      · rintro ⟨as', _, _, e, _⟩; exact absurd e (h' as')
    · intro a
      unfold attributesOf
      split
      · rename_i as e; exact absurd e (h' as)
      · rfl

/-! ## Nodes -/

/-- The node is described and the sites of the description are performed, or there is none and the program aborts. -/
def Good (S : Setup) (moves : Bool) (path : List Str) (j : Json) : Prop :=
  (∃ m L, Shape moves j m ∧ (∀ s, s ∈ L ↔ At path j s) ∧ Step S (node S moves path j) m L) ∨
  ((∀ m, ¬ Shape moves j m) ∧ Aborts (node S moves path j))

theorem placed_good (moves : Bool) (o : Obj) (m : Made) :
    (∃ b, Block moves o m b ∧ placed moves o m = .ok b) ∨ ((∀ n, ¬ Count o n) ∧ placed moves o m = .panic) := by
  have hn : ∀ n, Count o n → examples o = .ok n → ∃ b, Block moves o m b ∧ placed moves o m = .ok b := by
    intro n hc he
    cases m with
    | text s => exact ⟨_, .text s n hc, by rw [placed, he]; rfl⟩
    | elem e =>
      refine ⟨(copies moves e n).map .inl, .element e _ ?_ ?_, by rw [placed, he]; rfl⟩
      · have : ((copies moves e n).map Sum.inl : List Kid).length = n := by
          cases n <;> simp [copies]
        rw [this]; exact hc
      · intro i k hk
        cases n with
        | zero => simp [copies] at hk
        | succ n =>
          cases i with
          | zero => simp [copies] at hk; rw [← hk]; simp
          | succ i =>
            simp only [copies, List.map_cons, List.getElem?_cons_succ, List.map_replicate] at hk
            rw [List.getElem?_replicate] at hk
            split at hk
            · cases hk
              cases moves <;> simp
            · cases hk
  unfold examples at hn
  cases hx : RuleJson.get "examples" o with
  | none =>
    rw [hx] at hn
    exact .inl (hn 1 (.inr ⟨rfl, by rw [hx]; intro v h; cases h⟩) rfl)
  | some v =>
    rw [hx] at hn
    cases v with
    | num x =>
      cases x with
      | pos n => exact .inl (hn n (.inl hx) rfl)
      | neg n =>
        refine .inr ⟨?_, by simp [placed, examples, hx]⟩
        rintro k (h | ⟨_, h⟩)
        · rw [hx] at h; cases h
        · exact h _ hx
      | flt n =>
        refine .inr ⟨?_, by simp [placed, examples, hx]⟩
        rintro k (h | ⟨_, h⟩)
        · rw [hx] at h; cases h
        · exact h _ hx
    | null => exact .inl (hn 1 (.inr ⟨rfl, by rw [hx]; intro v h; cases h⟩) rfl)
    | bool b => exact .inl (hn 1 (.inr ⟨rfl, by rw [hx]; intro v h; cases h⟩) rfl)
    | str b => exact .inl (hn 1 (.inr ⟨rfl, by rw [hx]; intro v h; cases h⟩) rfl)
    | arr b => exact .inl (hn 1 (.inr ⟨rfl, by rw [hx]; intro v h; cases h⟩) rfl)
    | obj b => exact .inl (hn 1 (.inr ⟨rfl, by rw [hx]; intro v h; cases h⟩) rfl)

theorem block_count {moves : Bool} {o : Obj} {m : Made} {b : List Kid} (h : Block moves o m b) : ∃ n, Count o n := by
  cases h with
  | text s n hc => exact ⟨n, hc⟩
  | element e b hc _ => exact ⟨_, hc⟩

theorem kids_good (S : Setup) (moves : Bool) (path : List Str) (xs : List Json)
    (ih : ∀ x ∈ xs, Good S moves path x) :
    (∃ ks L, Kids moves xs ks ∧ (∀ s, s ∈ L ↔ ∃ x ∈ xs, At path x s) ∧ Step S (kids S moves path xs) ks L) ∨
    ((∀ ks, ¬ Kids moves xs ks) ∧ Aborts (kids S moves path xs)) := by
  induction xs with
  | nil =>
    refine .inl ⟨[], [], .nil, ?_, fun a => rfl⟩
    intro s
    constructor
    · intro h; cases h
    · rintro ⟨x, h, _⟩; cases h
  | cons x xs ih2 =>
    rcases ih x List.mem_cons_self with ⟨m, L, h1, h2, h3⟩ | ⟨h1, h2⟩
    · obtain ⟨o, rfl⟩ : ∃ o, x = .obj o := by cases h1 <;> exact ⟨_, rfl⟩
      rcases placed_good moves o m with ⟨b, hb, hp⟩ | ⟨hc, hp⟩
      · rcases ih2 (fun y hy => ih y (List.mem_cons_of_mem _ hy)) with ⟨ks, L', i1, i2, i3⟩ | ⟨i1, i2⟩
        · refine .inl ⟨b ++ ks, L ++ L', .cons o m b xs ks h1 hb i1, ?_, ?_⟩
          · intro s
            rw [List.mem_append, h2, i2]
            constructor
            · rintro (h | ⟨y, hy, h⟩)
              · exact ⟨_, List.mem_cons_self, h⟩
              · exact ⟨y, List.mem_cons_of_mem _ hy, h⟩
            · rintro ⟨y, hy, h⟩
              rcases List.mem_cons.1 hy with rfl | hy
              · exact .inl h
              · exact .inr ⟨y, hy, h⟩
          · intro a
            rw [kids, h3 a, performAll_append]
            cases hpa : performAll S L a with
            | err => exact absurd hpa (performAll_err _ _ _)
            | panic => rfl
            | ok a' =>
              simp only [Res.map_ok, Res.bind_ok, placedIn, hp, i3 a']
              cases performAll S L' a' <;> rfl
        · refine .inr ⟨?_, ?_⟩
          · intro ks h
            cases h with
            | cons _ _ _ _ ks' _ _ hk => exact i1 _ hk
          · intro a
            rw [kids]
            refine step_abort h3 (fun a => ?_) a
            simp only [placedIn, hp, Res.bind_ok, i2 a]
            rfl
      · refine .inr ⟨?_, ?_⟩
        · intro ks h
          cases h with
          | cons _ m' b _ _ _ hb _ =>
            obtain ⟨n, hn⟩ := block_count hb
            exact hc n hn
        · intro a
          rw [kids]
          refine step_abort h3 (fun a => ?_) a
          simp only [placedIn, hp]
          rfl
    · refine .inr ⟨?_, ?_⟩
      · intro ks h
        cases h with
        | cons _ m' _ _ _ hs _ _ => exact h1 _ hs
      · intro a
        rw [kids, h2 a]
        rfl

/-- Sites of the children. -/
theorem kidsIn_good (S : Setup) (moves : Bool) (path : List Str) (d : Obj)
    (ih : ∀ xs, RuleJson.get "children" d = some (.arr xs) → ∀ x ∈ xs, Good S moves path x) :
    (∃ xs ks L, Children d xs ∧ Kids moves xs ks ∧
      (∀ s, s ∈ L ↔ ∃ xs, RuleJson.get "children" d = some (.arr xs) ∧ ∃ x ∈ xs, At path x s) ∧
      Step S (kidsIn S moves path d) ks L) ∨
    ((∀ xs ks, Children d xs → ¬ Kids moves xs ks) ∧ Aborts (kidsIn S moves path d)) := by
  cases hg : RuleJson.get "children" d with
  | none =>
    refine .inl ⟨[], [], [], .inr ⟨hg, rfl⟩, .nil, ?_, ?_⟩
    · intro s
      constructor
      · intro h; cases h
      · rintro ⟨xs, h, _⟩; cases h
    · intro a
      rw [kidsIn_get, hg]
      rfl
  | some v =>
    have hother : (∀ xs, v ≠ .arr xs) → Aborts (kidsIn S moves path d) := by
      intro hv a
      rw [kidsIn_get, hg]
      cases v with
      | arr xs => exact absurd rfl (hv xs)
      | null => simp only [kidsJ]
      | bool b => simp only [kidsJ]
      | num n => simp only [kidsJ]
      | str s => simp only [kidsJ]
      | obj m => simp only [kidsJ]
    by_cases hv : ∃ xs, v = .arr xs
    · obtain ⟨xs, rfl⟩ := hv
      have he : ∀ a, kidsIn S moves path d a = kids S moves path xs a := by
        intro a
        rw [kidsIn_get, hg]
        simp only [kidsJ]
      rcases kids_good S moves path xs (ih xs hg) with ⟨ks, L, h1, h2, h3⟩ | ⟨h1, h2⟩
      · refine .inl ⟨xs, ks, L, .inl hg, h1, ?_, fun a => (he a).trans (h3 a)⟩
        intro s
        rw [h2]
        constructor
        · intro h; exact ⟨xs, rfl, h⟩
        · rintro ⟨ys, e, h⟩; cases e; exact h
      · refine .inr ⟨?_, fun a => (he a).trans (h2 a)⟩
        rintro ys ks (e | ⟨e, _⟩)
        · rw [hg] at e; cases e; exact h1 ks
        · rw [hg] at e; cases e
    · have hv' : ∀ xs, v ≠ .arr xs := fun xs e => hv ⟨xs, e⟩
      refine .inr ⟨?_, hother hv'⟩
      rintro ys ks (e | ⟨e, _⟩)
      · rw [hg] at e; cases e; exact absurd rfl (hv' ys)
      · rw [hg] at e; cases e

/-- An element from its parts. -/
theorem assemble_good (S : Setup) (moves : Bool) (path : List Str) (d : Obj) (n : Str)
    (ih : ∀ xs, RuleJson.get "children" d = some (.arr xs) → ∀ x ∈ xs, Good S moves (path ++ [n]) x) :
    (∃ as l xs ks L, AttributesOf d as ∧ Attrs as l ∧ Children d xs ∧ Kids moves xs ks ∧
      (∀ s, s ∈ L ↔ (∃ as k m, RuleJson.get "attributes" d = some (.obj as) ∧ (k, .obj m) ∈ as ∧ IsMatcher m ∧
          s = ⟨attrPath (path ++ [n]) k, m, ownGenerator m⟩) ∨
        ∃ xs, RuleJson.get "children" d = some (.arr xs) ∧ ∃ x ∈ xs, At (path ++ [n]) x s) ∧
      Step S (fun a => assemble S path n d a fun a => kidsIn S moves (path ++ [n]) d a) (.elem (.mk ⟨none, n⟩ l ks)) L) ∨
    ((∀ as l xs ks, AttributesOf d as → Attrs as l → Children d xs → ¬ Kids moves xs ks) ∧
      Aborts (fun a => assemble S path n d a fun a => kidsIn S moves (path ++ [n]) d a)) := by
  rcases attributesOf_good S (path ++ [n]) d with ⟨as, l, L, h1, h2, h3, h4⟩ | ⟨h1, h2⟩
  · rcases kidsIn_good S moves (path ++ [n]) d ih with ⟨xs, ks, L', i1, i2, i3, i4⟩ | ⟨i1, i2⟩
    · refine .inl ⟨as, l, xs, ks, L ++ L', h1, h2, i1, i2, ?_, ?_⟩
      · intro s
        rw [List.mem_append, h3, i3]
      · intro a
        exact step_bind (g := fun _ => kidsIn S moves (path ++ [n]) d) h4 i4 (fun r s => Made.elem (.mk ⟨none, n⟩ r s)) a
    · refine .inr ⟨fun _ _ xs ks _ _ hx => i1 xs ks hx, ?_⟩
      intro a
      unfold assemble
      refine step_abort h4 (fun a => ?_) a
      simp only [i2 a]
      rfl
  · refine .inr ⟨fun as l _ _ ha hl _ => absurd hl (h1 as l ha), ?_⟩
    intro a
    unfold assemble
    simp only [h2 a]
    rfl

theorem part_unique {o d d' : Obj} {n n' : Str} (h : Part o d n) (h' : Part o d' n') : d = d' ∧ n = n' := by
  obtain ⟨h1, x, h2, h3⟩ := h
  obtain ⟨g1, y, g2, g3⟩ := h'
  have hd : d = d' := by
    rcases h1 with ⟨a1, a2⟩ | ⟨a1, a2, a3⟩ <;> rcases g1 with ⟨b1, b2⟩ | ⟨b1, b2, b3⟩
    · rw [a2] at b2; cases b2; rfl
    · exact absurd a1 b1
    · exact absurd b1 a1
    · rw [a3, b3]
  subst hd
  rw [h2] at g2
  cases g2
  exact ⟨rfl, h3.trans g3.symm⟩

theorem item_lt {o d : Obj} (hd : d = o ∨ RuleJson.get "value" o = some (.obj d)) {xs : List Json}
    (hx : RuleJson.get "children" d = some (.arr xs)) {x : Json} (hm : x ∈ xs) : sizeOf x < sizeOf (Json.obj o) := by
  have h1 := List.sizeOf_lt_of_mem hm
  have h2 : sizeOf (Json.arr xs) = 1 + sizeOf xs := by simp
  have h3 := get_lt hx
  rcases hd with rfl | h
  · omega
  · have := get_lt h; omega

/-- An element, given its matcher's sites. -/
theorem element_good (S : Setup) (moves : Bool) (path : List Str) (o d : Obj) (n : Str) (own : List Site)
    (hp : Part o d n) (hown : ∀ s, s ∈ own ↔ IsMatcher o ∧ s = ⟨dotted (path ++ [n]), o, ownGenerator o⟩)
    (hnode : ∀ a, node S moves path (.obj o) a = (performAll S own a).bind fun a =>
      assemble S path n d a fun a => kidsIn S moves (path ++ [n]) d a)
    (ih : ∀ xs, RuleJson.get "children" d = some (.arr xs) → ∀ x ∈ xs, Good S moves (path ++ [n]) x) :
    Good S moves path (.obj o) := by
  have hc : ∀ c, ¬ IsMatcher o → RuleJson.get "content" o ≠ some c := by
    intro c hn he
    rcases hp.1 with ⟨h, _⟩ | ⟨_, h, _⟩
    · exact hn h
    · rw [h] at he; cases he
  rcases assemble_good S moves path d n ih with ⟨as, l, xs, ks, L, h1, h2, h3, h4, h5, h6⟩ | ⟨h1, h2⟩
  · refine .inl ⟨_, own ++ L, .element o d n as l xs ks hp h1 h2 h3 h4, ?_, ?_⟩
    · intro s
      rw [List.mem_append, hown, h5]
      constructor
      · rintro (⟨hm, rfl⟩ | ⟨as', k, m, e1, e2, e3, rfl⟩ | ⟨xs', e1, x, e2, e3⟩)
        · exact .element path o d n hm hp
        · exact .attr path o d n as' k m hp e1 e2 e3
        · exact .child path o d n xs' x s hp e1 e2 e3
      · intro h
        cases h with
        | element _ _ d' n' hm hp' =>
          obtain ⟨rfl, rfl⟩ := part_unique hp hp'
          exact .inl ⟨hm, rfl⟩
        | attr _ _ d' n' as' k m hp' e1 e2 e3 =>
          obtain ⟨rfl, rfl⟩ := part_unique hp hp'
          exact .inr (.inl ⟨as', k, m, e1, e2, e3, rfl⟩)
        | child _ _ d' n' xs' x _ hp' e1 e2 e3 =>
          obtain ⟨rfl, rfl⟩ := part_unique hp hp'
          exact .inr (.inr ⟨xs', e1, x, e2, e3⟩)
        | text _ _ c m hn hc' => exact absurd hc' (hc c hn)
        | noMatcher _ _ c v hn hc' => exact absurd hc' (hc c hn)
    · intro a
      rw [hnode, performAll_append]
      cases performAll S own a with
      | err => rfl
      | panic => rfl
      | ok a' => exact h6 a'
  · refine .inr ⟨?_, ?_⟩
    · intro m hm
      generalize hj : Json.obj o = j at hm
      cases hm with
      | text o' c hn hc' => cases hj; exact hc c hn hc'
      | element o' d' n' as l xs ks hp' e1 e2 e3 e4 =>
        cases hj
        obtain ⟨rfl, rfl⟩ := part_unique hp hp'
        exact h1 as l xs ks e1 e2 e3 e4
    · intro a
      rw [hnode]
      cases hpa : performAll S own a with
      | err => exact absurd hpa (performAll_err _ _ _)
      | panic => rfl
      | ok a' => exact h2 a'

theorem node_invalid (S : Setup) (moves : Bool) (path : List Str) (o : Obj) (hp : ∀ d n, ¬ Part o d n)
    (hc : IsMatcher o ∨ RuleJson.get "content" o = none) (ha : Aborts (node S moves path (.obj o))) :
    Good S moves path (.obj o) := by
  refine .inr ⟨?_, ha⟩
  intro m hm
  generalize hj : Json.obj o = j at hm
  cases hm with
  | text o' c hn hc' =>
    cases hj
    rcases hc with h | h
    · exact hn h
    · rw [h] at hc'; cases hc'
  | element o' d' n' as l xs ks hp' => cases hj; exact hp d' n' hp'

theorem addText_step (S : Setup) (path : List Str) (o : Obj) :
    ∃ L, (∀ a, addText S path o a = performAll S L a) ∧
      ∀ s, s ∈ L ↔ (∃ m, RuleJson.get "matcher" o = some (.obj m) ∧
          s = ⟨dotted (path ++ ["#text".toList]), m, textGenerator o m⟩) ∨
        ∃ v, RuleJson.get "matcher" o = some v ∧ (∀ m, v ≠ .obj m) ∧ s = ⟨dotted (path ++ ["#text".toList]), [], none⟩ := by
  cases hm : RuleJson.get "matcher" o with
  | none =>
    refine ⟨[], ?_, ?_⟩
    · intro a; rw [addText, hm]; rfl
    · intro s
      constructor
      · intro h; cases h
      · rintro (⟨m, h, _⟩ | ⟨v, h, _⟩) <;> cases h
  | some v =>
    by_cases hv : ∃ m, v = .obj m
    · obtain ⟨m, rfl⟩ := hv
      refine ⟨[⟨dotted (path ++ ["#text".toList]), m, textGenerator o m⟩], ?_, ?_⟩
      · intro a; rw [addText, hm, performAll_one]; rfl
      · intro s
        rw [List.mem_singleton]
        constructor
        · intro h; exact .inl ⟨m, rfl, h⟩
        · rintro (⟨m', h, h2⟩ | ⟨v, h, h2, _⟩)
          · cases h; exact h2
          · cases h; exact absurd rfl (h2 m)
    · have hv' : ∀ m, v ≠ .obj m := fun m e => hv ⟨m, e⟩
      refine ⟨[⟨dotted (path ++ ["#text".toList]), [], none⟩], ?_, ?_⟩
      · intro a
        have e1 : addText S path o a = (docPath S.rules.uc (dotted (path ++ ["#text".toList]))).map fun _ => a := by
          rw [addText, hm]
          cases v with
          | obj m => exact absurd rfl (hv' m)
          | null => rfl
          | bool b => rfl
          | num n => rfl
          | str s => rfl
          | arr xs => rfl
        rw [e1, performAll_one]
        unfold perform
        have e2 : ∀ p, addMatcher S p [] a = .ok a := by
          intro p
          have : matchersFrom S [] = .ok ([], none) := rfl
          rw [addMatcher, this]
          rfl
        cases docPath S.rules.uc (dotted (path ++ ["#text".toList])) with
        | ok p => simp only [Res.bind_ok, e2, Res.map_ok]; rfl
        | err => rfl
        | panic => rfl
      · intro s
        rw [List.mem_singleton]
        constructor
        · intro h; exact .inr ⟨v, rfl, hv', h⟩
        · rintro (⟨m', h, h2⟩ | ⟨v', h, h2, h3⟩)
          · cases h; exact absurd rfl (hv' m')
          · exact h3

theorem good_other (S : Setup) (moves : Bool) (path : List Str) (j : Json) (h : ∀ o, j ≠ .obj o) : Good S moves path j := by
  refine .inr ⟨?_, ?_⟩
  · intro m hm
    cases hm with
    | text o => exact h o rfl
    | element o => exact h o rfl
  · intro a
    cases j with
    | obj o => exact absurd rfl (h o)
    | null => simp only [node]
    | bool b => simp only [node]
    | num n => simp only [node]
    | str s => simp only [node]
    | arr xs => simp only [node]

theorem good_text (S : Setup) (moves : Bool) (path : List Str) (o : Obj) (c : Json) (hm : ¬ IsMatcher o)
    (hc : RuleJson.get "content" o = some c) : Good S moves path (.obj o) := by
  obtain ⟨L, h1, h2⟩ := addText_step S path o
  have hp : ∀ d n, ¬ Part o d n := by
    rintro d n ⟨⟨h, _⟩ | ⟨_, h, _⟩, _⟩
    · exact hm h
    · rw [hc] at h; cases h
  refine .inl ⟨.text c.toStr, L, .text o c hm hc, ?_, ?_⟩
  · intro s
    rw [h2]
    constructor
    · rintro (⟨m, e, rfl⟩ | ⟨v, e, hv, rfl⟩)
      · exact .text path o c m hm hc e
      · exact .noMatcher path o c v hm hc e hv
    · intro h
      cases h with
      | element _ _ d n _ hp' => exact absurd hp' (hp d n)
      | attr _ _ d n _ _ _ hp' => exact absurd hp' (hp d n)
      | child _ _ d n _ _ _ hp' => exact absurd hp' (hp d n)
      | text _ _ c' m _ _ e => exact .inl ⟨m, e, rfl⟩
      | noMatcher _ _ c' v _ _ e hv => exact .inr ⟨v, e, hv, rfl⟩
  · intro a
    have hm2 : ¬ (RuleJson.get "pact:matcher:type" o).isSome = true := hm
    rw [node, if_neg hm2, hc]
    simp only [h1 a]

theorem good_step (S : Setup) (moves : Bool) (j : Json) (path : List Str)
    (hrec : ∀ x, sizeOf x < sizeOf j → ∀ path, Good S moves path x) : Good S moves path j := by
  by_cases hj : ∃ o, j = .obj o
  · obtain ⟨o, rfl⟩ := hj
    have ih : ∀ (d : Obj) (n : Str), d = o ∨ RuleJson.get "value" o = some (.obj d) → ∀ xs,
        RuleJson.get "children" d = some (.arr xs) → ∀ x ∈ xs, Good S moves (path ++ [n]) x :=
      fun d n hd xs hx x hm => hrec x (item_lt hd hx hm) (path ++ [n])
    by_cases hm : IsMatcher o
    · have hm2 : (RuleJson.get "pact:matcher:type" o).isSome = true := hm
      by_cases hp : ∃ d n, Part o d n
      · obtain ⟨d, n, hp⟩ := hp
        have hv : RuleJson.get "value" o = some (.obj d) := by
          rcases hp.1 with ⟨_, h⟩ | ⟨h, _⟩
          · exact h
          · exact absurd hm h
        obtain ⟨x, hx, rfl⟩ := hp.2
        refine element_good S moves path o d x.toStr [⟨dotted (path ++ [x.toStr]), o, ownGenerator o⟩] hp ?_ ?_
          (ih d x.toStr (.inr hv))
        · intro s
          rw [List.mem_singleton]
          exact ⟨fun h => ⟨hm, h⟩, fun h => h.2⟩
        · intro a
          rw [node, if_pos hm2, valueIn_get, hv]
          simp only [matched, hx]
          rw [performAll_one]
          rfl
      · refine node_invalid S moves path o (fun d n h => hp ⟨d, n, h⟩) (.inl hm) ?_
        intro a
        rw [node, if_pos hm2, valueIn_get]
        cases hv : RuleJson.get "value" o with
        | none => rfl
        | some v =>
          cases v with
          | obj d =>
            simp only [matched]
            cases hx : RuleJson.get "name" d with
            | none => rfl
            | some x => exact absurd ⟨d, x.toStr, .inl ⟨hm, hv⟩, x, hx, rfl⟩ hp
          | null => simp only [matched]
          | bool b => simp only [matched]
          | num n => simp only [matched]
          | str s => simp only [matched]
          | arr xs => simp only [matched]
    · have hm2 : ¬ (RuleJson.get "pact:matcher:type" o).isSome = true := hm
      cases hc : RuleJson.get "content" o with
      | some c => exact good_text S moves path o c hm hc
      | none =>
        cases hx : RuleJson.get "name" o with
        | some x =>
          refine element_good S moves path o o x.toStr [] ⟨.inr ⟨hm, hc, rfl⟩, x, hx, rfl⟩ ?_ ?_ (ih o x.toStr (.inl rfl))
          · intro s
            constructor
            · intro h; cases h
            · intro h; exact absurd h.1 hm
          · intro a
            rw [node, if_neg hm2, hc]
            simp only [hx]
            rfl
        | none =>
          refine node_invalid S moves path o ?_ (.inr hc) ?_
          · rintro d n ⟨⟨h, _⟩ | ⟨_, _, rfl⟩, x, h, _⟩
            · exact hm ‹_›
            · rw [hx] at h; cases h
          · intro a
            rw [node, if_neg hm2, hc]
            simp only [hx]
  · exact good_other S moves path j fun o e => hj ⟨o, e⟩

theorem good (S : Setup) (moves : Bool) (j : Json) : ∀ path, Good S moves path j := by
  have h : ∀ n, ∀ j : Json, sizeOf j < n → ∀ path, Good S moves path j := by
    intro n
    induction n with
    | zero => intro j hj; omega
    | succ n ih => exact fun j hj path => good_step S moves j path fun x hx => ih x (by omega)
  exact h _ j (Nat.lt_succ_self _)

/-! ## C119: the document -/

mutual
/-- A description describes one node. -/
theorem shape_unique {moves : Bool} {j : Json} {m m' : Made} : Shape moves j m → Shape moves j m' → m = m'
  | .text o c hm hc, h' => by
    generalize hj : Json.obj o = j at h'
    cases h' with
    | text o' c' _ hc' => cases hj; rw [hc] at hc'; cases hc'; rfl
    | element o' d n as l xs ks hp =>
      cases hj
      rcases hp.1 with ⟨h, _⟩ | ⟨_, h, _⟩
      · exact absurd h hm
      · rw [hc] at h; cases h
  | .element o d n as l xs ks hp ha hl hx hk, h' => by
    generalize hj : Json.obj o = j at h'
    cases h' with
    | text o' c' hm hc =>
      cases hj
      rcases hp.1 with ⟨h, _⟩ | ⟨_, h, _⟩
      · exact absurd h hm
      · rw [hc] at h; cases h
    | element o' d' n' as' l' xs' ks' hp' ha' hl' hx' hk' =>
      cases hj
      obtain ⟨rfl, rfl⟩ := part_unique hp hp'
      have e1 : as = as' := by
        rcases ha with h | ⟨h, h2⟩ <;> rcases ha' with g | ⟨g, g2⟩
        · rw [h] at g; cases g; rfl
        · exact absurd h (g2 _)
        · exact absurd g (h2 _)
        · rw [h, g]
      subst e1
      have e2 : xs = xs' := by
        rcases hx with h | ⟨h, h2⟩ <;> rcases hx' with g | ⟨g, g2⟩
        · rw [h] at g; cases g; rfl
        · rw [h] at g; cases g
        · rw [h] at g; cases g
        · rw [h2, g2]
      subst e2
      rw [attrs_unique hl hl', kids_unique hk hk']
/-- See `shape_unique`. -/
theorem kids_unique {moves : Bool} {xs : List Json} {ks ks' : List Kid} : Kids moves xs ks → Kids moves xs ks' → ks = ks'
  | .nil, h' => by cases h'; rfl
  | .cons o m b xs ks hs hb hk, h' => by
    generalize hj : Json.obj o :: xs = ys at h'
    cases h' with
    | nil => cases hj
    | cons o' m' b' xs' ks' hs' hb' hk' =>
      cases hj
      cases shape_unique hs hs'
      rw [kids_unique hk hk']
      congr 1
      generalize hm : m = m0 at hb'
      cases hb with
      | text s n hc => cases hb' with
        | text s' => cases hm; rfl
        | element => cases hm
      | element e b hc hall => cases hb' with
        | text s' => cases hm
        | element e' b' hc' hall' =>
          cases hm
          have hlen : b.length = b'.length := by
            rcases hc with h | ⟨h, h2⟩ <;> rcases hc' with g | ⟨g, g2⟩
            · rw [h] at g; exact Num.pos.inj (Json.num.inj (Option.some.inj g))
            · exact absurd h (g2 _)
            · exact absurd g (h2 _)
            · rw [h, g]
          apply List.ext_getElem hlen
          intro i h1 h2
          rw [hall i _ (List.getElem?_eq_getElem h1), hall' i _ (List.getElem?_eq_getElem h2)]
end

theorem perform_ok (S : Setup) (s : Site) (h : ¬ Broken S s) (a : Acc) : ∃ a', perform S s a = .ok a' := by
  unfold perform docPath addMatcher
  cases h1 : Path.new S.rules.uc s.expr with
  | panic => exact absurd (.inl h1) h
  | ok p => cases h2 : matchersFrom S s.matcher with
    | panic => exact absurd (.inr h2) h
    | ok x => exact ⟨_, rfl⟩
    | err => exact ⟨_, rfl⟩
  | err => cases h2 : matchersFrom S s.matcher with
    | panic => exact absurd (.inr h2) h
    | ok x => exact ⟨_, rfl⟩
    | err => exact ⟨_, rfl⟩

theorem perform_broken (S : Setup) (s : Site) (h : Broken S s) (a : Acc) : perform S s a = .panic := by
  unfold perform docPath addMatcher
  rcases h with h | h
  · rw [h]; rfl
  · rw [h]
    cases Path.new S.rules.uc s.expr <;> rfl

theorem performAll_ok (S : Setup) (l : List Site) (a : Acc) :
    (∃ a', performAll S l a = .ok a') ↔ ∀ s ∈ l, ¬ Broken S s := by
  induction l generalizing a with
  | nil => simp [performAll]
  | cons s l ih =>
    simp only [performAll, List.forall_mem_cons]
    by_cases hb : Broken S s
    · rw [perform_broken S s hb a]
      constructor
      · rintro ⟨a', h⟩; cases h
      · rintro ⟨h, _⟩; exact absurd hb h
    · obtain ⟨b, hb'⟩ := perform_ok S s hb a
      rw [hb', Res.bind_ok, ih]
      exact ⟨fun h => ⟨hb, h⟩, fun h => h.2⟩

/-- **C119** A description gives the node it describes, exactly if no matcher in it aborts the program. -/
theorem C119_node (S : Setup) (moves : Bool) (path : List Str) (j : Json) (m : Made) (a : Acc) :
    (∃ a', node S moves path j a = .ok (m, a')) ↔ Shape moves j m ∧ ∀ s, At path j s → ¬ Broken S s := by
  rcases good S moves j path with ⟨m', L, h1, h2, h3⟩ | ⟨h1, h2⟩
  · rw [h3 a]
    have hL : (∀ s, At path j s → ¬ Broken S s) ↔ ∀ s ∈ L, ¬ Broken S s :=
      ⟨fun h s hs => h s ((h2 s).1 hs), fun h s hs => h s ((h2 s).2 hs)⟩
    rw [hL, ← performAll_ok S L a]
    constructor
    · rintro ⟨a', h⟩
      obtain ⟨b, hb, e⟩ := (Res.map_eq_ok ..).1 h
      cases e
      exact ⟨h1, _, hb⟩
    · rintro ⟨hs, b, hb⟩
      rw [hb, shape_unique hs h1]
      exact ⟨b, rfl⟩
  · rw [h2 a]
    constructor
    · rintro ⟨a', h⟩; cases h
    · rintro ⟨hs, _⟩; exact absurd hs (h1 m)

/-- **C119** The builder aborts the program if the description does not describe a node or a matcher in it aborts;
otherwise it succeeds. -/
theorem C119_aborts (S : Setup) (moves : Bool) (path : List Str) (j : Json) (a : Acc) :
    (node S moves path j a = .panic ↔ (∀ m, ¬ Shape moves j m) ∨ ∃ s, At path j s ∧ Broken S s) ∧
    node S moves path j a ≠ .err := by
  have hne : node S moves path j a ≠ .err := by
    rcases good S moves j path with ⟨m', L, h1, h2, h3⟩ | ⟨h1, h2⟩
    · rw [h3 a]
      cases hp : performAll S L a with
      | err => exact absurd hp (performAll_err _ _ _)
      | ok b => simp [Res.map]
      | panic => simp [Res.map]
    · rw [h2 a]; intro h; cases h
  refine ⟨?_, hne⟩
  constructor
  · intro h
    apply Classical.byContradiction
    intro hn
    obtain ⟨hm, hs⟩ := not_or.1 hn
    obtain ⟨m, hm⟩ := Classical.not_forall.1 hm
    have hm := Classical.not_not.1 hm
    obtain ⟨a', ha⟩ := (C119_node S moves path j m a).2 ⟨hm, fun s h1 h2 => hs ⟨s, h1, h2⟩⟩
    rw [h] at ha; cases ha
  · intro h
    cases hr : node S moves path j a with
    | err => exact absurd hr hne
    | panic => rfl
    | ok r =>
      obtain ⟨h1, h2⟩ := (C119_node S moves path j r.1 a).1 ⟨r.2, hr⟩
      rcases h with h | ⟨s, h3, h4⟩
      · exact absurd h1 (h _)
      · exact absurd h4 (h2 s h3)

/-- The root of a description. -/
def Root (o r : Obj) : Prop := RuleJson.get "root" o = some (.obj r)

/-- **C119** The document: the described root element, or no element at all. -/
theorem C119_document (S : Setup) (moves : Bool) (o : Obj) (a : Acc) (d : Option Elem) :
    (∃ a', generate S moves o a = .ok (d, a')) ↔
      (∃ r e, Root o r ∧ d = some e ∧ Shape moves (.obj r) (.elem e) ∧
        ∀ s, At ["$".toList] (.obj r) s → ¬ Broken S s) ∨
      (∃ r t, Root o r ∧ d = none ∧ Shape moves (.obj r) (.text t) ∧ ∀ s, At ["$".toList] (.obj r) s → ¬ Broken S s) ∨
      (d = none ∧ ∀ r, ¬ Root o r) := by
  by_cases hr : ∃ r, Root o r
  · obtain ⟨r, hr⟩ := hr
    have hg : generate S moves o a = (node S moves ["$".toList] (.obj r) a).map fun r => (rootOf r.1, r.2) := by
      unfold generate; rw [hr]
    have huniq : ∀ r', Root o r' → r' = r := by
      intro r' h'; unfold Root at h' hr; rw [hr] at h'; cases h'; rfl
    constructor
    · rintro ⟨a', h⟩
      rw [hg] at h
      obtain ⟨x, hx, e⟩ := (Res.map_eq_ok ..).1 h
      obtain ⟨m, b⟩ := x
      cases e
      obtain ⟨h1, h2⟩ := (C119_node S moves _ _ m a).1 ⟨_, hx⟩
      cases m with
      | elem e => exact .inl ⟨r, e, hr, rfl, h1, h2⟩
      | text t => exact .inr (.inl ⟨r, t, hr, rfl, h1, h2⟩)
    · rw [hg]
      rintro (⟨r', e, hr', rfl, h1, h2⟩ | ⟨r', t, hr', rfl, h1, h2⟩ | ⟨_, h⟩)
      · cases huniq r' hr'
        obtain ⟨a', ha⟩ := (C119_node S moves _ _ _ a).2 ⟨h1, h2⟩
        rw [ha]; exact ⟨a', rfl⟩
      · cases huniq r' hr'
        obtain ⟨a', ha⟩ := (C119_node S moves _ _ _ a).2 ⟨h1, h2⟩
        rw [ha]; exact ⟨a', rfl⟩
      · exact absurd hr (h r)
  · have hr' : ∀ r, ¬ Root o r := fun r h => hr ⟨r, h⟩
    have hg : generate S moves o a = .ok (none, a) := by
      unfold generate
      split
      · rename_i r e; exact absurd e (hr' r)
      · rfl
    rw [hg]
    constructor
    · rintro ⟨a', h⟩; cases h; exact .inr (.inr ⟨rfl, hr'⟩)
    · rintro (⟨r, _, h, _⟩ | ⟨r, _, h, _⟩ | ⟨rfl, _⟩)
      · exact absurd h (hr' r)
      · exact absurd h (hr' r)
      · exact ⟨a, rfl⟩

/-! ## C120: the rules and generators -/

/-- The path of a site: its path expression, or the root if this is not a path expression. -/
def Place (S : Setup) (s : Site) (p : DocPath) : Prop :=
  Path.new S.rules.uc s.expr = .ok p ∨ (Path.new S.rules.uc s.expr = .err ∧ p = rootPath)

/-- A generator given by a site: beside its matcher, or in the definition of its matcher. -/
def GenAt (S : Setup) (s : Site) (g : Generator) : Prop := s.gen = some g ∨ ∃ rs, Means S s.matcher rs (some g)

/-- The generator a site ends up with: the one beside the matcher before the one of its definition. -/
def GenWins (S : Setup) (s : Site) (g : Generator) : Prop :=
  s.gen = some g ∨ (s.gen = none ∧ ∃ rs, Means S s.matcher rs (some g))

/-- Adding rules. -/
def addRules (l : List (DocPath × MatchingRule)) (c : RuleCategory) : RuleCategory :=
  l.foldl (fun c x => addRule c x.1 x.2 .and) c

/-- Adding generators. -/
def addGenerators (l : List (DocPath × Generator)) (gs : Generators) : Generators :=
  l.foldl (fun gs x => addGen gs .body x.1 x.2) gs

/-- The path of a site. -/
def placeOf (S : Setup) (s : Site) : DocPath :=
  match Path.new S.rules.uc s.expr with
  | .ok p => p
  | _ => rootPath

/-- The rules and the generator of a matcher. -/
def readOf (S : Setup) (m : Obj) : List MatchingRule × Option Generator :=
  match matchersFrom S m with
  | .ok x => x
  | _ => ([], none)

/-- The rules of a site. -/
def siteRules (S : Setup) (s : Site) : List (DocPath × MatchingRule) := (readOf S s.matcher).1.map fun r => (placeOf S s, r)

/-- The generators of a site. -/
def siteGens (S : Setup) (s : Site) : List (DocPath × Generator) :=
  ((readOf S s.matcher).2.toList ++ s.gen.toList).map fun g => (placeOf S s, g)

theorem foldl_rules (p : DocPath) (rs : List MatchingRule) (c : RuleCategory) :
    rs.foldl (fun c r => addRule c p r .and) c = addRules (rs.map fun r => (p, r)) c := by
  unfold addRules
  rw [List.foldl_map]

theorem perform_eq (S : Setup) (s : Site) (h : ¬ Broken S s) (a : Acc) :
    perform S s a = .ok ⟨addRules (siteRules S s) a.cat, addGenerators (siteGens S s) a.gens⟩ := by
  have hp : docPath S.rules.uc s.expr = .ok (placeOf S s) := by
    unfold docPath placeOf
    cases h1 : Path.new S.rules.uc s.expr with
    | panic => exact absurd (.inl h1) h
    | ok p => rfl
    | err => rfl
  unfold perform
  rw [hp, Res.bind_ok, siteRules, siteGens, readOf]
  generalize placeOf S s = p
  unfold addMatcher
  cases h2 : matchersFrom S s.matcher with
  | panic => exact absurd (.inr h2) h
  | err =>
    simp only [Res.map_ok]
    cases s.gen <;> rfl
  | ok x =>
    obtain ⟨rs, g⟩ := x
    simp only [Res.map_ok, addRulesAt]
    rw [← foldl_rules]
    cases g <;> cases s.gen <;> rfl

theorem performAll_eq (S : Setup) (l : List Site) (h : ∀ s ∈ l, ¬ Broken S s) (a : Acc) :
    performAll S l a = .ok ⟨addRules (l.flatMap (siteRules S)) a.cat, addGenerators (l.flatMap (siteGens S)) a.gens⟩ := by
  induction l generalizing a with
  | nil => rfl
  | cons s l ih =>
    obtain ⟨h1, h2⟩ := List.forall_mem_cons.1 h
    rw [performAll, perform_eq S s h1 a, Res.bind_ok, ih h2]
    simp only [List.flatMap_cons, addRules, addGenerators, List.foldl_append]

theorem lookup_addRules (l : List (DocPath × MatchingRule)) (c : RuleCategory) (p : DocPath) :
    Rules.lookup (addRules l c).rules p =
      if l.any (fun x => decide (x.1.expr = p.expr)) then
        some { (Rules.lookup c.rules p).getD (emptyList .and) with
          rules := rulesUnder c p ++ (l.filter (fun x => decide (x.1.expr = p.expr))).map (·.2) }
      else Rules.lookup c.rules p := by
  induction l generalizing c with
  | nil => rfl
  | cons x l ih =>
    have e1 : addRules (x :: l) c = addRules l (addRule c x.1 x.2 .and) := rfl
    have e2 : Rules.lookup (addRule c x.1 x.2 .and).rules p =
        if p.expr = x.1.expr then
          some { (Rules.lookup c.rules x.1).getD (emptyList .and) with
            rules := ((Rules.lookup c.rules x.1).getD (emptyList .and)).rules ++ [x.2] }
        else Rules.lookup c.rules p := RuleProps.lookup_upsert _ _ _ _ _
    rw [e1, ih, rulesUnder, e2]
    by_cases hp : x.1.expr = p.expr
    · have hl : Rules.lookup c.rules x.1 = Rules.lookup c.rules p := by
        simp only [Rules.lookup]
        congr 1
        congr 1
        funext e
        simp [keyIs, eqPath, hp]
      have hany : ((x :: l).any fun x => decide (x.1.expr = p.expr)) = true := by
        simp [hp]
      rw [hany, if_pos hp.symm, hl, List.filter_cons_of_pos (by simp [hp])]
      simp only [if_true, Option.getD_some, List.map_cons]
      have hr : ((Rules.lookup c.rules p).getD (emptyList .and)).rules = rulesUnder c p := by
        rw [rulesUnder]
        cases Rules.lookup c.rules p with
        | none => rfl
        | some rl => rfl
      rw [hr]
      split
      · simp
      · rename_i hn
        have : l.filter (fun x => decide (x.1.expr = p.expr)) = [] := by
          rw [List.filter_eq_nil_iff]
          intro y hy hy'
          exact hn (List.any_eq_true.2 ⟨y, hy, hy'⟩)
        rw [this]
        simp
    · have hany : ((x :: l).any fun x => decide (x.1.expr = p.expr)) = (l.any fun x => decide (x.1.expr = p.expr)) := by
        rw [List.any_cons, decide_eq_false hp, Bool.false_or]
      have hp' : ¬ p.expr = x.1.expr := fun e => hp e.symm
      rw [hany, List.filter_cons_of_neg (by simp [hp])]
      simp only [if_neg hp']
      rfl

theorem rulesUnder_addRules (l : List (DocPath × MatchingRule)) (c : RuleCategory) (p : DocPath) :
    rulesUnder (addRules l c) p =
      rulesUnder c p ++ (l.filter (fun x => decide (x.1.expr = p.expr))).map (·.2) := by
  rw [rulesUnder, lookup_addRules]
  by_cases h : (l.any fun x => decide (x.1.expr = p.expr)) = true
  · rw [if_pos h]
  · rw [if_neg h]
    have : l.filter (fun x => decide (x.1.expr = p.expr)) = [] := by
      rw [List.filter_eq_nil_iff]
      intro y hy hy'
      exact h (List.any_eq_true.2 ⟨y, hy, hy'⟩)
    rw [this]
    simp [rulesUnder]

theorem addRules_name (l : List (DocPath × MatchingRule)) (c : RuleCategory) : (addRules l c).name = c.name := by
  induction l generalizing c with
  | nil => rfl
  | cons x l ih => exact (ih _).trans rfl

theorem placeOf_iff {S : Setup} {s : Site} (h : ¬ Broken S s) (p : DocPath) : Place S s p ↔ p = placeOf S s := by
  unfold Place placeOf
  cases h1 : Path.new S.rules.uc s.expr with
  | panic => exact absurd (.inl h1) h
  | ok q =>
    simp only [Res.ok.injEq, reduceCtorEq, false_and, or_false]
    exact eq_comm
  | err => simp

theorem means_matcher {S : Setup} {m : Obj} {rs : List MatchingRule} {g : Option Generator} (h : Means S m rs g) :
    IsMatcher m := by
  unfold IsMatcher
  cases h with
  | many a rs h => rw [h]; rfl
  | definition v d rs h => rw [h]; rfl
  | named v r h => rw [h]; rfl

theorem readOf_rules (S : Setup) (m : Obj) (r : MatchingRule) :
    r ∈ (readOf S m).1 ↔ ∃ rs g, Means S m rs g ∧ r ∈ rs := by
  by_cases hm : IsMatcher m
  · unfold readOf
    cases h : matchersFrom S m with
    | ok x =>
      obtain ⟨rs, g⟩ := x
      have h0 := (matchersFrom_iff S m hm rs g).1 h
      constructor
      · intro hr; exact ⟨rs, g, h0, hr⟩
      · rintro ⟨rs', g', h1, h2⟩
        have := (matchersFrom_iff S m hm rs' g').2 h1
        rw [h] at this; cases this; exact h2
    | err =>
      constructor
      · intro hr; cases hr
      · rintro ⟨rs', g', h1, h2⟩
        have := (matchersFrom_iff S m hm rs' g').2 h1
        rw [h] at this; cases this
    | panic =>
      constructor
      · intro hr; cases hr
      · rintro ⟨rs', g', h1, h2⟩
        have := (matchersFrom_iff S m hm rs' g').2 h1
        rw [h] at this; cases this
  · have hn : RuleJson.get "pact:matcher:type" m = none := by
      cases h : RuleJson.get "pact:matcher:type" m with
      | none => rfl
      | some v => exact absurd (show IsMatcher m by unfold IsMatcher; rw [h]; rfl) hm
    have : readOf S m = ([], none) := by
      unfold readOf matchersFrom
      rw [hn]
    rw [this]
    constructor
    · intro hr; cases hr
    · rintro ⟨rs', g', h1, h2⟩; exact absurd (means_matcher h1) hm

theorem readOf_gen (S : Setup) (m : Obj) (g : Generator) : (readOf S m).2 = some g ↔ ∃ rs, Means S m rs (some g) := by
  by_cases hm : IsMatcher m
  · unfold readOf
    cases h : matchersFrom S m with
    | ok x =>
      obtain ⟨rs, g'⟩ := x
      have h0 := (matchersFrom_iff S m hm rs g').1 h
      constructor
      · intro hr
        have hr : g' = some g := hr
        rw [hr] at h0; exact ⟨rs, h0⟩
      · rintro ⟨rs', h1⟩
        have := (matchersFrom_iff S m hm rs' (some g)).2 h1
        rw [h] at this; cases this; rfl
    | err =>
      constructor
      · intro hr; cases hr
      · rintro ⟨rs', h1⟩
        have := (matchersFrom_iff S m hm rs' (some g)).2 h1
        rw [h] at this; cases this
    | panic =>
      constructor
      · intro hr; cases hr
      · rintro ⟨rs', h1⟩
        have := (matchersFrom_iff S m hm rs' (some g)).2 h1
        rw [h] at this; cases this
  · have hn : RuleJson.get "pact:matcher:type" m = none := by
      cases h : RuleJson.get "pact:matcher:type" m with
      | none => rfl
      | some v => exact absurd (show IsMatcher m by unfold IsMatcher; rw [h]; rfl) hm
    have : readOf S m = ([], none) := by
      unfold readOf matchersFrom
      rw [hn]
    rw [this]
    constructor
    · intro hr; cases hr
    · rintro ⟨rs', h1⟩; exact absurd (means_matcher h1) hm

theorem means_readOf {S : Setup} {m : Obj} {rs : List MatchingRule} {g : Option Generator} (h : Means S m rs g) :
    (readOf S m).1 = rs := by
  unfold readOf
  rw [(matchersFrom_iff S m (means_matcher h) rs g).2 h]

/-- What a description that is accepted adds. -/
theorem node_after {S : Setup} {moves : Bool} {path : List Str} {j : Json} {m : Made} {a a' : Acc}
    (h : node S moves path j a = .ok (m, a')) : ∃ L : List Site, (∀ s, s ∈ L ↔ At path j s) ∧ (∀ s ∈ L, ¬ Broken S s) ∧
      a' = ⟨addRules (L.flatMap (siteRules S)) a.cat, addGenerators (L.flatMap (siteGens S)) a.gens⟩ := by
  rcases good S moves j path with ⟨m', L, h1, h2, h3⟩ | ⟨h1, h2⟩
  · have hb := ((C119_node S moves path j m a).1 ⟨a', h⟩).2
    have hb' : ∀ s ∈ L, ¬ Broken S s := fun s hs => hb s ((h2 s).1 hs)
    rw [h3 a, performAll_eq S L hb'] at h
    cases h
    exact ⟨L, h2, hb', rfl⟩
  · rw [h2 a] at h; cases h

/-- **C120** At every path, the rules after are the rules before followed by the rules of the matchers of the
description that are at this path; the rules of one matcher are together and in their order. -/
theorem C120_rules {S : Setup} {moves : Bool} {path : List Str} {j : Json} {m : Made} {a a' : Acc}
    (h : node S moves path j a = .ok (m, a')) (p : DocPath) :
    ∃ new, rulesUnder a'.cat p = rulesUnder a.cat p ++ new ∧
      (∀ r, r ∈ new ↔ ∃ s q rs g, At path j s ∧ Place S s q ∧ q.expr = p.expr ∧ Means S s.matcher rs g ∧ r ∈ rs) ∧
      (∀ s q rs g, At path j s → Place S s q → q.expr = p.expr → Means S s.matcher rs g → rs <:+: new) := by
  obtain ⟨L, h1, h2, rfl⟩ := node_after h
  refine ⟨_, rulesUnder_addRules _ a.cat p, ?_, ?_⟩
  · intro r
    rw [List.mem_map]
    constructor
    · rintro ⟨⟨q, r'⟩, hm, rfl⟩
      obtain ⟨e1, e2⟩ := List.mem_filter.1 hm
      obtain ⟨s, hs, e3⟩ := List.mem_flatMap.1 e1
      obtain ⟨r0, e4, e5⟩ := List.mem_map.1 e3
      cases e5
      obtain ⟨rs, g, e6, e7⟩ := (readOf_rules S s.matcher _).1 e4
      exact ⟨s, placeOf S s, rs, g, (h1 s).1 hs, (placeOf_iff (h2 s hs) _).2 rfl, of_decide_eq_true e2, e6, e7⟩
    · rintro ⟨s, q, rs, g, hs, hq, hp, e6, e7⟩
      have hs' := (h1 s).2 hs
      cases (placeOf_iff (h2 s hs') q).1 hq
      exact ⟨(placeOf S s, r), List.mem_filter.2 ⟨List.mem_flatMap.2 ⟨s, hs', List.mem_map.2
        ⟨r, (readOf_rules S s.matcher r).2 ⟨rs, g, e6, e7⟩, rfl⟩⟩, decide_eq_true hp⟩, rfl⟩
  · intro s q rs g hs hq hp hm
    have hs' := (h1 s).2 hs
    cases (placeOf_iff (h2 s hs') q).1 hq
    obtain ⟨L1, L2, rfl⟩ := List.append_of_mem hs'
    rw [List.flatMap_append, List.flatMap_cons, List.filter_append, List.filter_append, List.map_append, List.map_append]
    have hmid : (siteRules S s).filter (fun x => decide (x.1.expr = p.expr)) = siteRules S s := by
      rw [List.filter_eq_self]
      intro y hy
      obtain ⟨r, _, rfl⟩ := List.mem_map.1 hy
      exact decide_eq_true hp
    have hrs : (siteRules S s).map (·.2) = rs := by
      unfold siteRules
      rw [List.map_map, means_readOf hm]
      exact List.map_id rs
    rw [hmid, hrs]
    exact ⟨_, _, by rw [List.append_assoc]⟩

/-- **C120** Nothing else of the table changes, and rules are combined with "and". -/
theorem C120_entries {S : Setup} {moves : Bool} {path : List Str} {j : Json} {m : Made} {a a' : Acc}
    (h : node S moves path j a = .ok (m, a')) : a'.cat.name = a.cat.name ∧
    (∀ p, (∀ s q rs g, At path j s → Place S s q → q.expr = p.expr → Means S s.matcher rs g → rs = []) →
      Rules.lookup a'.cat.rules p = Rules.lookup a.cat.rules p) ∧
    (∀ p rl, Rules.lookup a.cat.rules p = some rl →
      ∃ rl', Rules.lookup a'.cat.rules p = some rl' ∧ rl'.logic = rl.logic ∧ rl'.cascaded = rl.cascaded) ∧
    (∀ p rl', Rules.lookup a.cat.rules p = none → Rules.lookup a'.cat.rules p = some rl' →
      rl'.logic = .and ∧ rl'.cascaded = false) := by
  obtain ⟨L, h1, h2, rfl⟩ := node_after h
  refine ⟨addRules_name _ _, ?_, ?_, ?_⟩
  · intro p hp
    have hn : ((L.flatMap (siteRules S)).any fun x => decide (x.1.expr = p.expr)) = false := by
      rw [List.any_eq_false]
      rintro ⟨q, r⟩ hm he
      obtain ⟨s, hs, e3⟩ := List.mem_flatMap.1 hm
      obtain ⟨r0, e4, e5⟩ := List.mem_map.1 e3
      cases e5
      obtain ⟨rs, g, e6, e7⟩ := (readOf_rules S s.matcher _).1 e4
      rw [hp s _ rs g ((h1 s).1 hs) ((placeOf_iff (h2 s hs) _).2 rfl) (of_decide_eq_true he) e6] at e7
      cases e7
    simp only [lookup_addRules, hn]
    rfl
  · intro p rl hl
    simp only [lookup_addRules, hl]
    split
    · exact ⟨_, rfl, rfl, rfl⟩
    · exact ⟨rl, rfl, rfl, rfl⟩
  · intro p rl' hl hl'
    simp only [lookup_addRules, hl] at hl'
    split at hl'
    · cases hl'; exact ⟨rfl, rfl⟩
    · cases hl'

/-- The last generator for a path. -/
def lastFor (l : List (DocPath × Generator)) (p : DocPath) : Option Generator :=
  match l with
  | [] => none
  | x :: l => match lastFor l p with
    | some y => some y
    | none => if x.1.expr = p.expr then some x.2 else none

theorem lastFor_append (l l' : List (DocPath × Generator)) (p : DocPath) :
    lastFor (l ++ l') p = (lastFor l' p).or (lastFor l p) := by
  induction l with
  | nil => simp [lastFor]
  | cons x l ih =>
    simp only [List.cons_append, lastFor, ih]
    cases lastFor l' p <;> simp

theorem genAt_addGenerators (l : List (DocPath × Generator)) (gs : Generators) (c : GenCategory) (p : DocPath) :
    genAt (addGenerators l gs) c p = if c = .body then (lastFor l p).or (genAt gs c p) else genAt gs c p := by
  induction l generalizing gs with
  | nil => simp [addGenerators, lastFor]
  | cons x l ih =>
    have e : addGenerators (x :: l) gs = addGenerators l (addGen gs .body x.1 x.2) := rfl
    rw [e, ih, genAt_addGen]
    by_cases hc : c = .body
    · simp only [hc, if_true, true_and, lastFor]
      cases lastFor l p with
      | some y => rfl
      | none =>
        simp only [Option.none_or]
        by_cases hx : x.1.expr = p.expr
        · rw [if_pos hx, if_pos hx.symm]; rfl
        · rw [if_neg hx, if_neg (fun e => hx e.symm)]; rfl
    · simp [hc]

theorem lastFor_site (S : Setup) (s : Site) (p : DocPath) (g : Generator) :
    lastFor (siteGens S s) p = some g ↔ (placeOf S s).expr = p.expr ∧ GenWins S s g := by
  unfold siteGens GenWins
  cases hg : s.gen with
  | some x =>
    cases hr : (readOf S s.matcher).2 with
    | some y =>
      simp only [Option.toList, List.cons_append, List.nil_append, List.map_cons, List.map_nil, lastFor]
      by_cases hx : (placeOf S s).expr = p.expr
      · simp [hx]
      · simp [hx]
    | none =>
      simp only [Option.toList, List.nil_append, List.map_cons, List.map_nil, lastFor]
      by_cases hx : (placeOf S s).expr = p.expr
      · simp [hx]
      · simp [hx]
  | none =>
    cases hr : (readOf S s.matcher).2 with
    | some y =>
      simp only [Option.toList, List.append_nil, List.map_cons, List.map_nil, lastFor]
      have := readOf_gen S s.matcher g
      rw [hr] at this
      by_cases hx : (placeOf S s).expr = p.expr
      · simp [hx, ← this]
      · simp [hx]
    | none =>
      have := readOf_gen S s.matcher g
      rw [hr] at this
      simp only [reduceCtorEq, false_iff] at this
      simp [lastFor, this]

theorem lastFor_sites (S : Setup) (L : List Site) (p : DocPath) :
    (∀ g, lastFor (L.flatMap (siteGens S)) p = some g → ∃ s ∈ L, (placeOf S s).expr = p.expr ∧ GenWins S s g) ∧
    (lastFor (L.flatMap (siteGens S)) p = none → ∀ s ∈ L, (placeOf S s).expr = p.expr → ∀ g, ¬ GenWins S s g) := by
  induction L with
  | nil =>
    refine ⟨fun g h => ?_, fun _ s hs => ?_⟩
    · cases h
    · cases hs
  | cons s L ih =>
    rw [List.flatMap_cons, lastFor_append]
    cases hl : lastFor (L.flatMap (siteGens S)) p with
    | some y =>
      refine ⟨fun g h => ?_, fun h => ?_⟩
      · cases h
        obtain ⟨s', h1, h2⟩ := ih.1 _ hl
        exact ⟨s', List.mem_cons_of_mem _ h1, h2⟩
      · cases h
    | none =>
      simp only [Option.none_or]
      refine ⟨fun g h => ?_, fun h s' hs' hp g hg => ?_⟩
      · obtain ⟨h1, h2⟩ := (lastFor_site S s p g).1 h
        exact ⟨s, List.mem_cons_self, h1, h2⟩
      · rcases List.mem_cons.1 hs' with rfl | hs'
        · rw [(lastFor_site S s' p g).2 ⟨hp, hg⟩] at h; cases h
        · exact ih.2 hl s' hs' hp g hg

theorem genWins_of {S : Setup} {s : Site} {g : Generator} (h : GenAt S s g) : ∃ g', GenWins S s g' := by
  rcases h with h | h
  · exact ⟨g, .inl h⟩
  · cases hs : s.gen with
    | some x => exact ⟨x, .inl hs⟩
    | none => exact ⟨g, .inr ⟨hs, h⟩⟩

/-- **C120** A path with a generator in the description ends up with a body generator of the description at this path;
all other generators stay. -/
theorem C120_generators {S : Setup} {moves : Bool} {path : List Str} {j : Json} {m : Made} {a a' : Acc}
    (h : node S moves path j a = .ok (m, a')) :
    (∀ s q g, At path j s → Place S s q → GenAt S s g →
      ∃ s' q' g', genAt a'.gens .body q = some g' ∧ At path j s' ∧ Place S s' q' ∧ q'.expr = q.expr ∧ GenWins S s' g') ∧
    (∀ c p, (c ≠ .body ∨ ∀ s q g, At path j s → Place S s q → q.expr = p.expr → ¬ GenAt S s g) →
      genAt a'.gens c p = genAt a.gens c p) := by
  obtain ⟨L, h1, h2, rfl⟩ := node_after h
  refine ⟨?_, ?_⟩
  · intro s q g hs hq hg
    have hs' := (h1 s).2 hs
    have hq' := (placeOf_iff (h2 s hs') q).1 hq
    simp only [genAt_addGenerators, if_true]
    cases hl : lastFor (L.flatMap (siteGens S)) q with
    | none =>
      obtain ⟨g', hg'⟩ := genWins_of hg
      exact absurd hg' ((lastFor_sites S L q).2 hl s hs' (by rw [hq']) g')
    | some y =>
      obtain ⟨s', e1, e2, e3⟩ := (lastFor_sites S L q).1 y hl
      exact ⟨s', placeOf S s', y, rfl, (h1 s').1 e1, (placeOf_iff (h2 s' e1) _).2 rfl, e2, e3⟩
  · intro c p hc
    simp only [genAt_addGenerators]
    by_cases hb : c = .body
    · rw [if_pos hb]
      cases hl : lastFor (L.flatMap (siteGens S)) p with
      | none => rfl
      | some y =>
        obtain ⟨s', e1, e2, e3⟩ := (lastFor_sites S L p).1 y hl
        rcases hc with hc | hc
        · exact absurd hb hc
        · refine absurd ?_ (hc s' (placeOf S s') y ((h1 s').1 e1) ((placeOf_iff (h2 s' e1) _).2 rfl) e2)
          rcases e3 with e | ⟨_, e⟩
          · exact .inl e
          · exact .inr e
    · rw [if_neg hb]




end XmlBuildProps
end Verif
