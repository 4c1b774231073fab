import Verif.Verifier

/-
  C39: provider verification: what is executed, and when the run is a success.
  C43: filters.  C63: notices.  C64: the context of a request.  C65: the result that is published.
-/

set_option autoImplicit false

namespace Verif
namespace VerifierProps
open Verifier

/-! ### Specification -/

/-- What a user asks for: optionally a pattern for the description, and optionally a pattern for the provider state
names, where the empty text asks for interactions without provider states. -/
structure Wish where
  description : Option Str
  state : Option Str

def wish : FilterInfo → Wish
  | .none => ⟨none, none⟩
  | .description d => ⟨some d, none⟩
  | .state s => ⟨none, some s⟩
  | .descriptionAndState d s => ⟨some d, some s⟩

def Matches (re : Regexes) (pattern text : Str) : Prop := ∃ m, re pattern = some m ∧ m text = true

/-- The interaction satisfies the filter. -/
def Wanted (re : Regexes) (f : FilterInfo) (i : Ixn) : Prop :=
  (∀ d, (wish f).description = some d → Matches re d i.desc) ∧
  (∀ s, (wish f).state = some s →
    (s = [] → i.states = []) ∧ (s ≠ [] → ∃ st ∈ i.states, Matches re s st.name))

/-- All patterns of the filter are regular expressions. -/
def Valid (re : Regexes) (f : FilterInfo) : Prop :=
  (∀ d, (wish f).description = some d → re d ≠ none) ∧
  (∀ s, (wish f).state = some s → s ≠ [] → re s ≠ none)

/-- The state change calls made for an interaction: one for each provider state, or one with an empty name. -/
def statesOf (i : Ixn) : List PState := if i.states = [] then [⟨[], []⟩] else i.states

def calls (setup : Bool) (i : Ixn) (answers : List (Option (List (Str × Json)))) : List Event :=
  List.zipWith (fun s a => Event.change setup s a) (statesOf i) answers

/-- The value the last entry with a name gives it. -/
def lastValue (k : Str) (es : List (Str × Json)) : Option Json := Json.lookup k es.reverse

/-- The context of the request: the values the setup handlers answered, the last answer winning, and otherwise the
parameters of the provider states, the last state winning. -/
def IsContext (i : Ixn) (answers : List (Option (List (Str × Json)))) (ctx : List (Str × Json)) : Prop :=
  ∀ k, Json.lookup k ctx =
    match lastValue k ((answers.map (fun a => a.getD [])).flatten) with
    | some v => some v
    | none => lastValue k ((i.states.map (fun s => s.params)).flatten)

/-- What happens for one interaction, and whether it passes. -/
inductive Segment (client teardown : Bool) (i : Ixn) : List Event → Bool → Prop where
  | noClient (h : client = false) : Segment client teardown i [] false
  | setupFailed (answers : List (Option (List (Str × Json)))) (h : client = true)
      (hl : answers.length = (statesOf i).length) (hf : none ∈ answers) :
      Segment client teardown i (calls true i answers) false
  | verified (answers : List (Option (List (Str × Json)))) (ctx : List (Str × Json)) (ok : Bool) (h : client = true)
      (ht : teardown = false) (hl : answers.length = (statesOf i).length) (hf : none ∉ answers)
      (hc : IsContext i answers ctx) :
      Segment client teardown i (calls true i answers ++ [.request i ctx ok]) ok
  | verifiedAndTornDown (answers answers' : List (Option (List (Str × Json)))) (ctx : List (Str × Json)) (ok ok' : Bool)
      (h : client = true) (ht : teardown = true) (hl : answers.length = (statesOf i).length) (hf : none ∉ answers)
      (hc : IsContext i answers ctx) (hl' : answers'.length = (statesOf i).length)
      (hok : ok' = true ↔ ok = true ∧ none ∉ answers') :
      Segment client teardown i (calls true i answers ++ [.request i ctx ok] ++ calls false i answers') ok'

/-- A trace that consists of one segment for each result, in order. -/
inductive Segments (client teardown : Bool) : List IResult → List Event → Prop where
  | nil : Segments client teardown [] []
  | cons (r : IResult) (rs : List IResult) (evs evs' : List Event) (h : Segment client teardown r.ixn evs r.passed)
      (t : Segments client teardown rs evs') : Segments client teardown (r :: rs) (evs ++ evs')

/-! ### C43 -/

theorem regex_ok (re : Regexes) (t : Str) (m : Str → Bool) : regex re t = .ok m ↔ re t = some m := by
  unfold regex
  cases h : re t <;> simp

theorem regex_map_ok (re : Regexes) (t : Str) (g : (Str → Bool) → Bool) (b : Bool) :
    (regex re t).map g = .ok b ↔ ∃ m, re t = some m ∧ g m = b := by
  rw [Res.map_eq_ok]
  constructor
  · rintro ⟨m, h, h2⟩; exact ⟨m, (regex_ok re t m).1 h, h2⟩
  · rintro ⟨m, h, h2⟩; exact ⟨m, (regex_ok re t m).2 h, h2⟩

theorem matchState_spec (re : Regexes) (f : FilterInfo) (i : Ixn) (s : Str) (hs : (wish f).state = some s) (b : Bool)
    (h : matchState re f i = .ok b) :
    b = true ↔ (s = [] → i.states = []) ∧ (s ≠ [] → ∃ st ∈ i.states, Matches re s st.name) := by
  have htext : f.stateText = s ∧ f.hasState = true := by
    cases f <;> simp [wish] at hs <;> subst hs <;> exact ⟨rfl, rfl⟩
  unfold matchState at h
  rw [htext.1, htext.2] at h
  cases hst : i.states with
  | nil =>
    rw [hst] at h
    simp only [List.isEmpty_nil, Bool.not_true, Bool.false_eq_true, if_false, Bool.true_and] at h
    injection h with h
    subst h
    simp
  | cons x xs =>
    rw [hst] at h
    simp only [List.isEmpty_cons, Bool.not_false, if_true] at h
    cases s with
    | nil => simp at h; subst h; simp
    | cons c cs =>
      simp only [List.isEmpty_cons, Bool.false_eq_true, if_false] at h
      obtain ⟨m, hm, hb⟩ := (regex_map_ok _ _ _ _).1 h
      subst hb
      rw [List.any_eq_true]
      constructor
      · rintro ⟨st, h1, h2⟩
        exact ⟨fun h => absurd h (by simp), fun _ => ⟨st, h1, m, hm, h2⟩⟩
      · rintro ⟨_, h2⟩
        obtain ⟨st, h1, m', hm', h3⟩ := h2 (by simp)
        rw [hm] at hm'
        injection hm' with hm'
        subst hm'
        exact ⟨st, h1, h3⟩

theorem matchDescription_spec (re : Regexes) (f : FilterInfo) (i : Ixn) (d : Str) (hd : (wish f).description = some d)
    (b : Bool) (h : matchDescription re f i = .ok b) : b = true ↔ Matches re d i.desc := by
  have htext : f.descriptionText = d := by
    cases f <;> simp [wish] at hd <;> subst hd <;> rfl
  unfold matchDescription at h
  rw [htext] at h
  obtain ⟨m, hm, hb⟩ := (regex_map_ok _ _ _ _).1 h
  subst hb
  constructor
  · intro h; exact ⟨m, hm, h⟩
  · rintro ⟨m', hm', h⟩
    rw [hm] at hm'
    injection hm' with hm'
    subst hm'
    exact h

/-- An interaction passes the filter exactly when it satisfies it. -/
theorem C43_filter (re : Regexes) (f : FilterInfo) (i : Ixn) (b : Bool) (h : filterInteraction re i f = .ok b) :
    b = true ↔ Wanted re f i := by
  cases f with
  | none =>
    unfold filterInteraction at h
    simp [FilterInfo.hasDescription, FilterInfo.hasState] at h
    subst h
    simp [Wanted, wish]
  | description d =>
    unfold filterInteraction at h
    simp only [FilterInfo.hasDescription, FilterInfo.hasState, Bool.and_false, Bool.false_eq_true, if_false, if_true] at h
    rw [matchDescription_spec re _ i d rfl b h]
    simp [Wanted, wish]
  | state s =>
    unfold filterInteraction at h
    simp only [FilterInfo.hasDescription, FilterInfo.hasState, Bool.and_true, Bool.false_eq_true, if_false, if_true] at h
    rw [matchState_spec re _ i s rfl b h]
    simp [Wanted, wish]
  | descriptionAndState d s =>
    unfold filterInteraction at h
    simp only [FilterInfo.hasDescription, FilterInfo.hasState, Bool.and_self, if_true] at h
    cases hd : matchDescription re (.descriptionAndState d s) i with
    | ok b1 =>
      rw [hd] at h
      have h1 := matchDescription_spec re _ i d rfl b1 hd
      cases b1 with
      | false =>
        simp at h
        subst h
        have : ¬ Matches re d i.desc := fun h => by simpa using h1.2 h
        constructor
        · intro h; cases h
        · intro h; exact absurd (h.1 d rfl) this
      | true =>
        simp only [Res.bind_ok, if_true] at h
        rw [matchState_spec re _ i s rfl b h]
        have := h1.1 rfl
        constructor
        · intro h
          refine ⟨?_, ?_⟩
          · intro d' hd'; injection hd' with hd'; subst hd'; exact this
          · intro s' hs'; injection hs' with hs'; subst hs'; exact h
        · intro h; exact h.2 s rfl
    | err => rw [hd] at h; cases h
    | panic => rw [hd] at h; cases h

theorem matchDescription_total (re : Regexes) (f : FilterInfo) (i : Ixn) (h : re f.descriptionText ≠ none) :
    ∃ b, matchDescription re f i = .ok b := by
  unfold matchDescription regex
  cases hm : re f.descriptionText with
  | none => exact absurd hm h
  | some m => exact ⟨_, rfl⟩

theorem matchState_total (re : Regexes) (f : FilterInfo) (i : Ixn) (h : f.stateText ≠ [] → re f.stateText ≠ none) :
    ∃ b, matchState re f i = .ok b := by
  unfold matchState regex
  cases hi : i.states with
  | nil => exact ⟨_, rfl⟩
  | cons x xs =>
    simp only [List.isEmpty_cons, Bool.not_false, if_true]
    cases ht : f.stateText with
    | nil => exact ⟨_, rfl⟩
    | cons c cs =>
      simp only [List.isEmpty_cons, Bool.false_eq_true, if_false]
      rw [ht] at h
      cases hm : re (c :: cs) with
      | none => exact absurd hm (h (by simp))
      | some m => exact ⟨_, rfl⟩

/-- Filtering is defined for every interaction when the patterns are regular expressions. -/
theorem C43_total (re : Regexes) (f : FilterInfo) (i : Ixn) (h : Valid re f) :
    ∃ b, filterInteraction re i f = .ok b := by
  cases f with
  | none => exact ⟨true, rfl⟩
  | description d => exact matchDescription_total re (.description d) i (h.1 d rfl)
  | state s => exact matchState_total re (.state s) i (h.2 s rfl)
  | descriptionAndState d s =>
    obtain ⟨b1, h1⟩ := matchDescription_total re (.descriptionAndState d s) i (h.1 d rfl)
    obtain ⟨b2, h2⟩ := matchState_total re (.descriptionAndState d s) i (h.2 s rfl)
    unfold filterInteraction
    simp only [FilterInfo.hasDescription, FilterInfo.hasState, Bool.and_self, if_true, h1, h2, Res.bind_ok]
    cases b1
    · exact ⟨false, rfl⟩
    · exact ⟨b2, rfl⟩

/-- A description pattern that is not a regular expression panics. -/
theorem C43_invalid_panics (re : Regexes) (i : Ixn) (d : Str) (h : re d = none) :
    filterInteraction re i (.description d) = .panic ∧
    ∀ s, filterInteraction re i (.descriptionAndState d s) = .panic := by
  constructor
  · show matchDescription re (.description d) i = .panic
    unfold matchDescription regex
    show Res.map _ (match re d with | some m => Res.ok m | none => Res.panic) = _
    rw [h]; rfl
  · intro s
    show (matchDescription re (.descriptionAndState d s) i).bind _ = .panic
    unfold matchDescription regex
    show (Res.map _ (match re d with | some m => Res.ok m | none => Res.panic)).bind _ = _
    rw [h]; rfl

/-- What the filter options of the C interface ask for. -/
theorem C43_options (d s : Str) (noState : Bool) :
    (wish (updateFilterInfo d s noState)).description = (if d = [] then none else some d) ∧
    (wish (updateFilterInfo d s noState)).state
      = (if s ≠ [] then some s else if noState = true then some [] else none) := by
  cases d <;> cases s <;> cases noState <;> exact ⟨rfl, rfl⟩

/-- The no-state option alone selects exactly the interactions without provider states. -/
theorem C43_no_state (re : Regexes) (i : Ixn) :
    filterInteraction re i (updateFilterInfo [] [] true) = .ok i.states.isEmpty := by
  show matchState re (.state []) i = _
  unfold matchState
  cases i.states <;> rfl

/-- Consumers: all, if none are named. -/
theorem C43_consumers (cs : List Str) (c : Str) :
    filterConsumers cs (some c) = true ↔ cs = [] ∨ c ∈ cs := by
  unfold filterConsumers
  cases cs <;> simp

/-- A concrete case: a literal pattern. -/
def literal : Regexes := fun t => if t = "(".toList then none else some (fun x => x == t)
example : filterInteraction literal ⟨none, "a".toList, [⟨"s".toList, []⟩, ⟨"t".toList, []⟩], false⟩
    (.descriptionAndState "a".toList "t".toList) = .ok true := by decide
example : filterInteraction literal ⟨none, "a".toList, [⟨"s".toList, []⟩], false⟩ (.state "t".toList) = .ok false := by
  decide
example : filterInteraction literal ⟨none, "a".toList, [⟨"s".toList, []⟩], false⟩ (.state []) = .ok false := by decide
example : filterInteraction literal ⟨none, "a".toList, [], false⟩ (.description "(".toList) = .panic := by decide

/-! ### C39, C64: one interaction -/

variable {E : Type}

theorem changeAll_spec (env : World E) (setup : Bool) (ss : List PState) : ∀ e : E,
    ((changeAll env setup e ss).2.2).length = ss.length ∧
    (changeAll env setup e ss).2.1
      = List.zipWith (fun s a => Event.change setup s a) ss (changeAll env setup e ss).2.2 := by
  induction ss with
  | nil => intro e; exact ⟨rfl, rfl⟩
  | cons s ss ih =>
    intro e
    obtain ⟨h1, h2⟩ := ih (env.change e setup s).1
    simp only [changeAll]
    exact ⟨by simp [h1], by simp only [List.zipWith_cons_cons]; rw [← h2]⟩

theorem insertAll_spec (m es : List (Str × Json)) (hs : Json.SortedKeys (m.map (·.1))) :
    Json.SortedKeys ((insertAll m es).map (·.1)) ∧
    ∀ q, Json.lookup q (insertAll m es) = match lastValue q es with
      | some v => some v
      | none => Json.lookup q m := by
  obtain ⟨h1, h2⟩ := OMap.foldl_insert es m hs
  refine ⟨h1, fun q => ?_⟩
  have := h2 q
  unfold insertAll lastValue
  rw [this]
  cases Json.lookup q es.reverse <;> rfl

theorem lookup_append (q : Str) (a b : List (Str × Json)) :
    Json.lookup q (a ++ b) = match Json.lookup q a with
      | some v => some v
      | none => Json.lookup q b := by
  induction a with
  | nil => rfl
  | cons e es ih =>
    obtain ⟨k, v⟩ := e
    simp only [List.cons_append, Json.lookup]
    by_cases h : k = q
    · simp [h]
    · simp [h, ih]

theorem foldl_insertAll (ls : List (List (Str × Json))) : ∀ m : List (Str × Json), Json.SortedKeys (m.map (·.1)) →
    Json.SortedKeys ((ls.foldl insertAll m).map (·.1)) ∧
    ∀ q, Json.lookup q (ls.foldl insertAll m) = match lastValue q ls.flatten with
      | some v => some v
      | none => Json.lookup q m := by
  induction ls with
  | nil => intro m h; exact ⟨h, fun q => rfl⟩
  | cons l ls ih =>
    intro m h
    obtain ⟨h1, h2⟩ := insertAll_spec m l h
    obtain ⟨h3, h4⟩ := ih _ h1
    refine ⟨h3, ?_⟩
    intro q
    rw [List.foldl_cons, h4 q, h2 q]
    simp only [lastValue, List.flatten_cons, List.reverse_append]
    rw [lookup_append]
    cases Json.lookup q ls.flatten.reverse <;> rfl

theorem lookup_none_of_not_mem (q : Str) (m : List (Str × Json)) (h : q ∉ m.map (·.1)) : Json.lookup q m = none := by
  induction m with
  | nil => rfl
  | cons e es ih =>
    obtain ⟨k, v⟩ := e
    simp only [List.map_cons, List.mem_cons, not_or] at h
    simp only [Json.lookup]
    rw [if_neg (fun hk => h.1 hk.symm)]
    exact ih h.2

theorem lookup_reverse (q : Str) (m : List (Str × Json)) (hs : Json.SortedKeys (m.map (·.1))) :
    Json.lookup q m.reverse = Json.lookup q m := by
  induction m with
  | nil => rfl
  | cons e es ih =>
    obtain ⟨k, v⟩ := e
    rw [List.reverse_cons, lookup_append, ih hs.2]
    simp only [Json.lookup]
    by_cases h : k = q
    · subst h
      rw [lookup_none_of_not_mem]
      intro hm
      have := hs.1 _ hm
      simp [Json.strLt_irrefl] at this
    · simp [h]
      cases Json.lookup q es <;> rfl

theorem foldl_map_insertAll {α : Type} (g : α → List (Str × Json)) (ls : List α) (m : List (Str × Json)) :
    ls.foldl (fun m x => insertAll m (g x)) m = (ls.map g).foldl insertAll m := by
  induction ls generalizing m with
  | nil => rfl
  | cons l ls ih => exact ih _

theorem statesOf_eq (i : Ixn) : (if i.states.isEmpty then [⟨[], []⟩] else i.states) = statesOf i := by
  unfold statesOf
  cases i.states <;> rfl

theorem executeStates_spec (env : World E) (e : E) (i : Ixn) (setup : Bool) :
    ∃ answers : List (Option (List (Str × Json))),
      answers.length = (statesOf i).length ∧
      (executeStates env e i setup).2.1 = calls setup i answers ∧
      (none ∈ answers → (executeStates env e i setup).2.2 = none) ∧
      (none ∉ answers → (executeStates env e i setup).2.2
        = some ((answers.map (fun a => a.getD [])).foldl insertAll [])) := by
  obtain ⟨h1, h2⟩ := changeAll_spec env setup (statesOf i) e
  refine ⟨(changeAll env setup e (statesOf i)).2.2, h1, ?_, ?_, ?_⟩
  · unfold executeStates
    simp only [statesOf_eq]
    split <;> exact h2
  · intro h
    unfold executeStates
    simp only [statesOf_eq]
    rw [if_pos]
    rw [List.any_eq_true]
    exact ⟨none, h, rfl⟩
  · intro h
    unfold executeStates
    simp only [statesOf_eq]
    rw [if_neg]
    · simp only [foldl_map_insertAll]
    · rw [List.any_eq_true]
      rintro ⟨r, hr, hn⟩
      cases r with
      | none => exact h hr
      | some v => cases hn

theorem context_spec (i : Ixn) (answers : List (Option (List (Str × Json)))) :
    IsContext i answers (insertAll (i.states.foldl (fun m s => insertAll m s.params) [])
      ((answers.map (fun a => a.getD [])).foldl insertAll [])) := by
  intro k
  obtain ⟨p1, p2⟩ := foldl_insertAll (i.states.map (fun s => s.params)) [] trivial
  obtain ⟨a1, a2⟩ := foldl_insertAll (answers.map (fun a => a.getD [])) [] trivial
  rw [foldl_map_insertAll]
  obtain ⟨_, h2⟩ := insertAll_spec _ ((answers.map (fun a => a.getD [])).foldl insertAll []) p1
  rw [h2 k, p2 k]
  unfold lastValue at *
  rw [lookup_reverse _ _ a1, a2 k]
  cases Json.lookup k ((answers.map (fun a => a.getD [])).flatten).reverse with
  | some v => rfl
  | none =>
    simp only [Json.lookup]
    cases Json.lookup k ((i.states.map (fun s => s.params)).flatten).reverse <;> rfl

/-- Whatever the provider and the state handlers answer: the setup handlers of all states are called in order; if
one fails the interaction fails and nothing else happens; otherwise one request is made with the context of C64, and
then, if enabled, the teardown handlers of all states are called in order; the interaction passes exactly when the
request and all teardown handlers succeed. -/
theorem C39_interaction (env : World E) (e : E) (i : Ixn) :
    Segment env.client env.teardown i (verifyInteraction env e i).2.1 (verifyInteraction env e i).2.2 := by
  obtain ⟨chg, ver, td, cl⟩ := env
  unfold verifyInteraction
  cases cl with
  | false => simp only [Bool.not_false, if_true]; exact .noClient rfl
  | true =>
    simp only [Bool.not_true, Bool.false_eq_true, if_false]
    obtain ⟨as, hl, hev, hnone, hsome⟩ := executeStates_spec ⟨chg, ver, td, true⟩ e i true
    by_cases hf : none ∈ as
    · have := hnone hf
      revert hev this
      rcases executeStates ⟨chg, ver, td, true⟩ e i true with ⟨e1, evs, r⟩
      intro hev this
      subst this
      dsimp only at hev ⊢
      rw [hev]
      exact .setupFailed as rfl hl hf
    · have := hsome hf
      revert hev this
      rcases executeStates ⟨chg, ver, td, true⟩ e i true with ⟨e1, evs, r⟩
      intro hev this
      subst this
      dsimp only at hev ⊢
      rw [hev]
      have hctx := context_spec i as
      generalize insertAll (i.states.foldl (fun m s => insertAll m s.params) [])
        ((as.map (fun a => a.getD [])).foldl insertAll []) = ctx at hctx ⊢
      generalize ver e1 i ctx = p
      obtain ⟨e2, ok⟩ := p
      dsimp only
      cases td with
      | false => simp only [Bool.false_eq_true, if_false]; exact .verified as ctx ok rfl rfl hl hf hctx
      | true =>
        simp only [if_true]
        obtain ⟨as', hl', hev', hnone', hsome'⟩ := executeStates_spec ⟨chg, ver, true, true⟩ e2 i false
        by_cases hf' : none ∈ as'
        · have := hnone' hf'
          revert hev' this
          rcases executeStates ⟨chg, ver, true, true⟩ e2 i false with ⟨e3, evs', r'⟩
          intro hev' this
          subst this
          dsimp only at hev' ⊢
          rw [hev']
          exact .verifiedAndTornDown as as' ctx ok false rfl rfl hl hf hctx hl' (by simp [hf'])
        · have := hsome' hf'
          revert hev' this
          rcases executeStates ⟨chg, ver, true, true⟩ e2 i false with ⟨e3, evs', r'⟩
          intro hev' this
          subst this
          dsimp only at hev' ⊢
          rw [hev']
          exact .verifiedAndTornDown as as' ctx ok ok rfl rfl hl hf hctx hl' (by simp [hf'])

theorem mem_calls_request (setup : Bool) (i j : Ixn) (as : List (Option (List (Str × Json)))) (ctx : List (Str × Json))
    (ok : Bool) : Event.request j ctx ok ∉ calls setup i as := by
  unfold calls
  generalize statesOf i = ss
  induction ss generalizing as with
  | nil => simp
  | cons s ss ih => cases as with
    | nil => simp
    | cons a as => simp only [List.zipWith_cons_cons, List.mem_cons, not_or]; exact ⟨by simp, ih as⟩

/-- C64: the context of a request, in terms of the answers of the setup handlers. -/
theorem C64_context (env : World E) (e : E) (i j : Ixn) (ctx : List (Str × Json)) (ok : Bool)
    (h : Event.request j ctx ok ∈ (verifyInteraction env e i).2.1) :
    j = i ∧ ∃ answers rest, (verifyInteraction env e i).2.1 = calls true i answers ++ Event.request i ctx ok :: rest ∧
      answers.length = (statesOf i).length ∧ none ∉ answers ∧ IsContext i answers ctx := by
  have hseg := C39_interaction env e i
  generalize (verifyInteraction env e i).2.1 = evs at *
  generalize (verifyInteraction env e i).2.2 = b at *
  cases hseg with
  | noClient _ => simp at h
  | setupFailed as _ _ _ => exact absurd h (mem_calls_request _ _ _ _ _ _)
  | verified as c k _ _ hl hf hc =>
    simp only [List.mem_append, List.mem_singleton] at h
    rcases h with h | h
    · exact absurd h (mem_calls_request _ _ _ _ _ _)
    · injection h with h1 h2 h3
      subst h1; subst h2; subst h3
      exact ⟨rfl, as, [], rfl, hl, hf, hc⟩
  | verifiedAndTornDown as as' c k _ _ _ hl hf hc _ _ =>
    simp only [List.mem_append, List.mem_singleton] at h
    rcases h with (h | h) | h
    · exact absurd h (mem_calls_request _ _ _ _ _ _)
    · injection h with h1 h2 h3
      subst h1; subst h2; subst h3
      exact ⟨rfl, as, calls false j as', by simp, hl, hf, hc⟩
    · exact absurd h (mem_calls_request _ _ _ _ _ _)

/-- Teardown runs for every state after the request; what is missing is the case of a failed setup. -/
theorem C39_teardown_partial (env : World E) (e : E) (i : Ixn) (hc : env.client = true) (ht : env.teardown = true)
    (hs : ∀ s, Event.change true s none ∉ (verifyInteraction env e i).2.1) :
    ∃ before answers, (verifyInteraction env e i).2.1 = before ++ calls false i answers ∧
      answers.length = (statesOf i).length ∧ ∀ s a, Event.change false s a ∉ before := by
  have hseg := C39_interaction env e i
  generalize (verifyInteraction env e i).2.1 = evs at *
  generalize (verifyInteraction env e i).2.2 = b at *
  have key : ∀ (ss : List PState) (as : List (Option (List (Str × Json)))), as.length = ss.length → none ∈ as →
      ∃ s, Event.change true s none ∈ List.zipWith (fun s a => Event.change true s a) ss as := by
    intro ss
    induction ss with
    | nil => intro as h hn; cases as with
      | nil => simp at hn
      | cons a as => simp at h
    | cons s ss ih => intro as h hn; cases as with
      | nil => simp at hn
      | cons a as =>
        rcases List.mem_cons.1 hn with h1 | h1
        · subst h1; exact ⟨s, by simp⟩
        · obtain ⟨s', h2⟩ := ih as (by simpa using h) h1
          exact ⟨s', by simp [h2]⟩
  have key2 : ∀ (ss : List PState) (as : List (Option (List (Str × Json)))) (s : PState) a,
      Event.change false s a ∉ List.zipWith (fun s a => Event.change true s a) ss as := by
    intro ss
    induction ss with
    | nil => simp
    | cons s ss ih => intro as s' a'; cases as with
      | nil => simp
      | cons a as => simp only [List.zipWith_cons_cons, List.mem_cons, not_or]; exact ⟨by simp, ih as s' a'⟩
  cases hseg with
  | noClient h => rw [hc] at h; cases h
  | setupFailed as _ hl hf =>
    obtain ⟨s, h⟩ := key _ as hl hf
    exact absurd h (hs s)
  | verified as c k _ h _ _ _ => rw [ht] at h; cases h
  | verifiedAndTornDown as as' c k _ _ _ hl hf hc hl' _ =>
    refine ⟨_, as', rfl, hl', ?_⟩
    intro s a h
    simp only [List.mem_append, List.mem_singleton] at h
    rcases h with h | h
    · exact key2 _ _ _ _ h
    · cases h

/-- An environment in which the second setup handler fails. -/
def brokenSetup : World Nat :=
  { change := fun n setup _ => (n + 1, if setup && n == 1 then none else some [])
    verify := fun n _ _ => (n, true)
    teardown := true
    client := true }

/-- The full claim is false: after a failed setup no teardown handler is called, not even for the states whose setup
succeeded. -/
theorem C39_setup_failure_no_teardown :
    let i : Ixn := ⟨none, "a".toList, [⟨"s".toList, []⟩, ⟨"t".toList, []⟩], false⟩
    (verifyInteraction brokenSetup 0 i).2.1
      = [.change true ⟨"s".toList, []⟩ (some []), .change true ⟨"t".toList, []⟩ none] := rfl

/-! ### C39: a pact and a run -/

open Classical in
theorem C39_pact (env : World E) (re : Regexes) (f : FilterInfo) (pending : Bool) (is : List Ixn) :
    ∀ (e e' : E) (evs : List Event) (rs : List IResult),
    verifyPact env re f pending e is = .ok (e', evs, rs) →
    rs.map (fun r => (r.ixn, r.pending))
      = (is.filter (fun i => decide (Wanted re f i))).map (fun i => (i, pending || i.pending)) ∧
    Segments env.client env.teardown rs evs := by
  induction is with
  | nil => intro e e' evs rs h; cases h; exact ⟨rfl, .nil⟩
  | cons i is ih =>
    intro e e' evs rs h
    unfold verifyPact at h
    cases hf : filterInteraction re i f with
    | err => rw [hf] at h; cases h
    | panic => rw [hf] at h; cases h
    | ok b =>
      have hw := C43_filter re f i b hf
      rw [hf] at h
      cases b with
      | false =>
        have : ¬ Wanted re f i := fun h => by simpa using hw.2 h
        obtain ⟨h1, h2⟩ := ih e e' evs rs h
        refine ⟨?_, h2⟩
        rw [List.filter_cons, if_neg (by simp [this])]
        exact h1
      | true =>
        have hwant := hw.1 rfl
        obtain ⟨⟨e1, evs1, rs1⟩, h1, h2⟩ := Res.map_eq_ok.1 h
        injection h2 with h2 h3
        injection h3 with h3 h4
        subst h3; subst h4
        obtain ⟨g1, g2⟩ := ih _ _ _ _ h1
        refine ⟨?_, ?_⟩
        · rw [List.filter_cons, if_pos (by simp [hwant])]
          simp only [List.map_cons]
          rw [g1]
        · exact .cons _ _ _ _ (C39_interaction env e i) g2

theorem Segments.append {c t : Bool} {rs rs' : List IResult} {evs evs' : List Event} (h : Segments c t rs evs)
    (h' : Segments c t rs' evs') : Segments c t (rs ++ rs') (evs ++ evs') := by
  induction h with
  | nil => exact h'
  | cons r rs evs evs1 h _ ih =>
    rw [List.append_assoc]
    exact .cons _ _ _ _ h ih

/-- The load failures that count as an error. -/
def LoadError (o : Options) (p : Fetched) : Prop :=
  p = .failed ∨ (p = .notFound ∧ o.noPactsIsError = true)

open Classical in
/-- The interactions a run has to verify, in order, and whether they are pending. -/
noncomputable def todo (re : Regexes) (f : FilterInfo) : List Fetched → List (Ixn × Bool)
  | [] => []
  | .pact is context _ :: ps =>
    (is.filter (fun i => decide (Wanted re f i))).map (fun i => (i, context.getD false || i.pending)) ++ todo re f ps
  | .notFound :: ps => todo re f ps
  | .failed :: ps => todo re f ps

/-- The results of each pact, in order, as published. -/
def published (rss : List (List IResult)) : List Bool := rss.map (fun rs => rs.all (fun r => r.passed))

theorem addErrors_nil (rs : List IResult) :
    (addErrors rs).1 = [] ↔ ∀ r ∈ rs, r.passed = true ∨ r.pending = true := by
  unfold addErrors
  simp only [List.map_eq_nil_iff, List.filter_eq_nil_iff]
  constructor
  · intro h r hr
    have := h r hr
    cases hp : r.passed <;> cases hq : r.pending <;> simp_all
  · intro h r hr
    rcases h r hr with h | h <;> simp [h]

theorem runPacts_spec (env : World E) (re : Regexes) (o : Options) (ps : List Fetched) : ∀ (a b : Run E),
    runPacts env re o a ps = .ok b →
    ∃ rs evs errs,
      b.results = a.results ++ rs ∧ b.trace = a.trace ++ evs ∧ b.errors = a.errors ++ errs ∧
      rs.map (fun r => (r.ixn, r.pending)) = todo re o.filter ps ∧
      Segments env.client env.teardown rs evs ∧
      (errs = [] ↔ (∀ r ∈ rs, r.passed = true ∨ r.pending = true) ∧ ∀ p ∈ ps, ¬ LoadError o p) := by
  induction ps with
  | nil =>
    intro a b h
    cases h
    exact ⟨[], [], [], by simp, by simp, by simp, rfl, .nil, by simp⟩
  | cons p ps ih =>
    intro a b h
    unfold runPacts at h
    cases hs : stepPact env re o a p with
    | err => rw [hs] at h; cases h
    | panic => rw [hs] at h; cases h
    | ok a1 =>
      rw [hs] at h
      obtain ⟨rs, evs, errs, h1, h2, h3, h4, h5, h6⟩ := ih a1 b h
      cases p with
      | notFound =>
        simp only [stepPact, Res.ok.injEq] at hs
        subst hs
        cases hn : o.noPactsIsError with
        | true =>
          rw [hn] at h1 h2 h3
          simp only [if_true] at h1 h2 h3
          refine ⟨rs, evs, none :: errs, h1, h2, by rw [h3]; simp, h4, h5, ?_⟩
          simp [LoadError, hn]
        | false =>
          rw [hn] at h1 h2 h3
          simp only [Bool.false_eq_true, if_false] at h1 h2 h3
          refine ⟨rs, evs, errs, h1, h2, h3, h4, h5, ?_⟩
          rw [h6]
          simp [LoadError, hn]
      | failed =>
        simp only [stepPact, Res.ok.injEq] at hs
        subst hs
        refine ⟨rs, evs, none :: errs, h1, h2, by rw [h3]; simp, h4, h5, ?_⟩
        simp [LoadError]
      | pact is context broker =>
        simp only [stepPact] at hs
        cases is with
        | nil =>
          simp only [List.isEmpty_nil, if_true, Res.ok.injEq] at hs
          subst hs
          refine ⟨rs, evs, errs, h1, h2, h3, by rw [h4]; rfl, h5, ?_⟩
          rw [h6]
          simp [LoadError]
        | cons i is =>
          simp only [List.isEmpty_cons, Bool.false_eq_true, if_false] at hs
          obtain ⟨⟨e1, evs1, rs1⟩, g1, g2⟩ := Res.map_eq_ok.1 hs
          subst g2
          obtain ⟨k1, k2⟩ := C39_pact env re o.filter _ _ _ _ _ _ g1
          refine ⟨rs1 ++ rs, evs1 ++ evs, (addErrors rs1).1 ++ errs, by rw [h1]; simp, by rw [h2]; simp,
            by rw [h3]; simp, ?_, k2.append h5, ?_⟩
          · rw [List.map_append, k1, h4]; rfl
          · rw [List.append_eq_nil_iff, addErrors_nil, h6]
            simp only [List.mem_append, List.mem_cons]
            constructor
            · rintro ⟨x, y, z⟩
              refine ⟨fun r hr => hr.elim (x r) (y r), ?_⟩
              intro p hp
              rcases hp with rfl | hp
              · simp [LoadError]
              · exact z p hp
            · rintro ⟨x, y⟩
              exact ⟨fun r hr => x r (.inl hr), fun r hr => x r (.inr hr), fun p hp => y p (.inr hp)⟩

/-- A run verifies exactly the wanted interactions of all loaded pacts in order, the trace is one segment for each
of them, and the run is a success exactly when every result passed or is pending and no pact failed to load. -/
theorem C39_run (env : World E) (re : Regexes) (o : Options) (e : E) (ps : List Fetched) (a : Run E) (b : Bool)
    (h : verifyProvider env re o e ps = .ok (a, b)) :
    a.results.map (fun r => (r.ixn, r.pending)) = todo re o.filter ps ∧
    Segments env.client env.teardown a.results a.trace ∧
    (b = true ↔ (∀ r ∈ a.results, r.passed = true ∨ r.pending = true) ∧ ∀ p ∈ ps, ¬ LoadError o p) := by
  obtain ⟨a1, h1, h2⟩ := Res.map_eq_ok.1 h
  injection h2 with h2 h3
  subst h2
  obtain ⟨rs, evs, errs, g1, g2, g3, g4, g5, g6⟩ := runPacts_spec env re o ps _ _ h1
  simp only [List.nil_append] at g1 g2 g3
  subst h3
  rw [g1, g2, g3]
  refine ⟨g4, g5, ?_⟩
  rw [List.isEmpty_iff]
  exact g6

/-- Failures of pending interactions never fail a run: a run in which every interaction is pending and every pact
loads is a success. -/
theorem C39_pending (env : World E) (re : Regexes) (o : Options) (e : E) (ps : List Fetched) (a : Run E) (b : Bool)
    (h : verifyProvider env re o e ps = .ok (a, b)) (hl : ∀ p ∈ ps, ¬ LoadError o p)
    (hp : ∀ x ∈ todo re o.filter ps, x.2 = true) : b = true := by
  obtain ⟨h1, _, h3⟩ := C39_run env re o e ps a b h
  rw [h3]
  refine ⟨?_, hl⟩
  intro r hr
  right
  have : (r.ixn, r.pending) ∈ todo re o.filter ps := by
    rw [← h1]; exact List.mem_map.2 ⟨r, hr, rfl⟩
  exact hp _ this

theorem verifyPact_total (env : World E) (re : Regexes) (f : FilterInfo) (pending : Bool) (hv : Valid re f)
    (is : List Ixn) : ∀ e : E, ∃ x, verifyPact env re f pending e is = .ok x := by
  induction is with
  | nil => intro e; exact ⟨_, rfl⟩
  | cons i is ih =>
    intro e
    unfold verifyPact
    obtain ⟨b, hb⟩ := C43_total re f i hv
    rw [hb]
    cases b with
    | false => exact ih e
    | true =>
      obtain ⟨x, hx⟩ := ih (verifyInteraction env e i).1
      exact ⟨_, by show Res.map _ (verifyPact env re f pending (verifyInteraction env e i).1 is) = _; rw [hx]; rfl⟩

/-- A run with valid filter patterns always ends with a verdict. -/
theorem C39_total (env : World E) (re : Regexes) (o : Options) (e : E) (ps : List Fetched) (hv : Valid re o.filter) :
    ∃ a b, verifyProvider env re o e ps = .ok (a, b) := by
  have key : ∀ (ps : List Fetched) (a : Run E), ∃ b, runPacts env re o a ps = .ok b := by
    intro ps
    induction ps with
    | nil => intro a; exact ⟨a, rfl⟩
    | cons p ps ih =>
      intro a
      have : ∃ a1, stepPact env re o a p = .ok a1 := by
        cases p with
        | notFound => exact ⟨_, rfl⟩
        | failed => exact ⟨_, rfl⟩
        | pact is context broker =>
          cases is with
          | nil => exact ⟨_, rfl⟩
          | cons i is =>
            obtain ⟨x, hx⟩ := verifyPact_total env re o.filter (context.getD false) hv (i :: is) a.env
            simp only [stepPact, List.isEmpty_cons, Bool.false_eq_true, if_false, hx]
            exact ⟨_, rfl⟩
      obtain ⟨a1, h1⟩ := this
      obtain ⟨b, hb⟩ := ih a1
      exact ⟨b, by unfold runPacts; rw [h1]; exact hb⟩
  obtain ⟨b, hb⟩ := key ps ⟨e, [], [], [], [], [], []⟩
  exact ⟨b, b.errors.isEmpty, by unfold verifyProvider; rw [hb]; rfl⟩

/-! ### C63 and C65: notices and published results -/

theorem addErrors_pending_nil (rs : List IResult) :
    (addErrors rs).2 = [] ↔ ∀ r ∈ rs, r.passed = true ∨ r.pending = false := by
  unfold addErrors
  simp only [List.map_eq_nil_iff, List.filter_eq_nil_iff]
  constructor
  · intro h r hr
    have := h r hr
    cases hp : r.passed <;> cases hq : r.pending <;> simp_all
  · intro h r hr
    rcases h r hr with h | h <;> simp [h]

/-- C65: for each pact from a broker with interactions, one result is published: success exactly when every verified
interaction passed, pending or not. -/
theorem C65_published (env : World E) (re : Regexes) (o : Options) (a b : Run E) (is : List Ixn)
    (context : Option Bool) (h : stepPact env re o a (.pact is context true) = .ok b) (hp : o.publish = true)
    (hi : is ≠ []) :
    ∃ rs r, b.results = a.results ++ rs ∧ b.published = a.published ++ [r] ∧
      (r = true ↔ ∀ x ∈ rs, x.passed = true) := by
  cases is with
  | nil => exact absurd rfl hi
  | cons i is =>
    simp only [stepPact, List.isEmpty_cons, Bool.false_eq_true, if_false] at h
    obtain ⟨⟨e1, evs1, rs1⟩, g1, g2⟩ := Res.map_eq_ok.1 h
    subst g2
    refine ⟨rs1, publishedResult rs1, rfl, by simp [hp], ?_⟩
    simp [publishedResult]

/-- Nothing is published without publishing options, for other sources, or for a pact without interactions. -/
theorem C65_not_published (env : World E) (re : Regexes) (o : Options) (a b : Run E) (is : List Ixn)
    (context : Option Bool) (broker : Bool) (h : stepPact env re o a (.pact is context broker) = .ok b)
    (hp : o.publish = false ∨ broker = false ∨ is = []) : b.published = a.published := by
  cases is with
  | nil =>
    simp only [stepPact, List.isEmpty_nil, if_true, Res.ok.injEq] at h
    subst h; rfl
  | cons i is =>
    simp only [stepPact, List.isEmpty_cons, Bool.false_eq_true, if_false] at h
    obtain ⟨⟨e1, evs1, rs1⟩, g1, g2⟩ := Res.map_eq_ok.1 h
    subst g2
    rcases hp with hp | hp | hp
    · simp [hp]
    · simp [hp]
    · cases hp

/-- A success is published for a pact none of whose interactions was verified. -/
theorem C65_vacuous_success (env : World E) (re : Regexes) (o : Options) (a b : Run E) (is : List Ixn)
    (context : Option Bool) (h : stepPact env re o a (.pact is context true) = .ok b) (hp : o.publish = true)
    (hi : is ≠ []) (hw : ∀ i ∈ is, ¬ Wanted re o.filter i) : b.published = a.published ++ [true] := by
  cases is with
  | nil => exact absurd rfl hi
  | cons i is =>
    simp only [stepPact, List.isEmpty_cons, Bool.false_eq_true, if_false] at h
    obtain ⟨⟨e1, evs1, rs1⟩, g1, g2⟩ := Res.map_eq_ok.1 h
    subst g2
    have h1 := (C39_pact env re o.filter _ _ _ _ _ _ g1).1
    have : (i :: is).filter (fun i => @decide (Wanted re o.filter i) (Classical.propDecidable _)) = [] := by
      rw [List.filter_eq_nil_iff]
      intro x hx
      simp [hw x hx]
    rw [this] at h1
    simp only [List.map_nil, List.map_eq_nil_iff] at h1
    subst h1
    simp [hp, publishedResult]

/-- A run of a single pact with a context. -/
def single (is : List Ixn) (pending : Bool) : List Fetched := [.pact is (some pending) true]

theorem single_run (env : World E) (re : Regexes) (o : Options) (e : E) (is : List Ixn) (pending : Bool) (a : Run E)
    (b : Bool) (h : verifyProvider env re o e (single is pending) = .ok (a, b)) (hi : is ≠ []) :
    a.stages = [.before, afterStage o.publish (decide (∀ r ∈ a.results, r.passed = true ∨ r.pending = true))
      (decide (∀ r ∈ a.results, r.passed = true ∨ r.pending = false))] := by
  obtain ⟨a1, h1, h2⟩ := Res.map_eq_ok.1 h
  injection h2 with h2 h3
  subst h2
  unfold single runPacts at h1
  cases hs : stepPact env re o ⟨e, [], [], [], [], [], []⟩ (.pact is (some pending) true) with
  | err => rw [hs] at h1; cases h1
  | panic => rw [hs] at h1; cases h1
  | ok a2 =>
    rw [hs] at h1
    simp only [Res.bind_ok, runPacts, Res.ok.injEq] at h1
    subst h1
    cases is with
    | nil => exact absurd rfl hi
    | cons i is =>
      simp only [stepPact, List.isEmpty_cons, Bool.false_eq_true, if_false] at hs
      obtain ⟨⟨e1, evs1, rs1⟩, g1, g2⟩ := Res.map_eq_ok.1 hs
      subst g2
      simp only [Option.isSome_some, if_true, List.nil_append, List.singleton_append]
      congr 2
      congr 1
      · rw [Bool.eq_iff_iff, List.isEmpty_iff, decide_eq_true_iff, addErrors_nil]
      · rw [Bool.eq_iff_iff, List.isEmpty_iff, decide_eq_true_iff, addErrors_pending_nil]

/-- C63, with publishing and for a single pact: the success notices are shown exactly when all interactions passed. -/
theorem C63_published_partial (env : World E) (re : Regexes) (o : Options) (e : E) (is : List Ixn) (pending : Bool)
    (a : Run E) (b : Bool) (h : verifyProvider env re o e (single is pending) = .ok (a, b)) (hi : is ≠ [])
    (hp : o.publish = true) :
    ∃ s, a.stages = [.before, .after s true] ∧ (s = true ↔ ∀ r ∈ a.results, r.passed = true) := by
  rw [single_run env re o e is pending a b h hi, hp]
  by_cases h1 : ∀ r ∈ a.results, r.passed = true ∨ r.pending = true
  · by_cases h2 : ∀ r ∈ a.results, r.passed = true ∨ r.pending = false
    · refine ⟨true, by simp [afterStage, decide_eq_true h1, decide_eq_true h2], ?_⟩
      simp only [true_iff]
      intro r hr
      rcases h1 r hr with h | h
      · exact h
      · rcases h2 r hr with h' | h'
        · exact h'
        · rw [h] at h'; cases h'
    · refine ⟨false, by simp only [afterStage, decide_eq_false h2]; simp, ?_⟩
      simp only [Bool.false_eq_true, false_iff]
      exact fun h => h2 (fun r hr => Or.inl (h r hr))
  · refine ⟨false, by simp only [afterStage, decide_eq_false h1]; simp, ?_⟩
    simp only [Bool.false_eq_true, false_iff]
    exact fun h => h1 (fun r hr => Or.inl (h r hr))

/-- C63 is false without publishing: the notices for a failed verification are shown exactly when no interaction
failed or a non-pending one did, in particular after every verification that passes completely. -/
theorem C63_unpublished (env : World E) (re : Regexes) (o : Options) (e : E) (is : List Ixn) (pending : Bool)
    (a : Run E) (b : Bool) (h : verifyProvider env re o e (single is pending) = .ok (a, b)) (hi : is ≠ [])
    (hp : o.publish = false) :
    ∃ s, a.stages = [.before, .after s false] ∧
      ((∀ r ∈ a.results, r.passed = true) → s = false) ∧
      ((∃ r ∈ a.results, r.passed = false ∧ r.pending = true) →
        (∀ r ∈ a.results, r.passed = true ∨ r.pending = true) → s = true) := by
  rw [single_run env re o e is pending a b h hi, hp]
  by_cases h1 : ∀ r ∈ a.results, r.passed = true ∨ r.pending = true
  · by_cases h2 : ∀ r ∈ a.results, r.passed = true ∨ r.pending = false
    · refine ⟨false, by simp [afterStage, decide_eq_true h1, decide_eq_true h2], fun _ => rfl, ?_⟩
      rintro ⟨r, hr, h3, h4⟩
      rcases h2 r hr with h | h
      · rw [h] at h3; cases h3
      · rw [h] at h4; cases h4
    · refine ⟨true, by simp only [afterStage, decide_eq_true h1, decide_eq_false h2]; simp, ?_, fun _ _ => rfl⟩
      intro h
      exact absurd (fun r hr => Or.inl (h r hr)) h2
  · refine ⟨false, by simp only [afterStage, decide_eq_false h1]; simp, fun _ => rfl, fun _ h => absurd h h1⟩

/-- An environment where exactly the interactions named "bad" fail. -/
def byName : World Unit :=
  { change := fun e _ _ => (e, some [])
    verify := fun e i _ => (e, i.desc != "bad".toList)
    teardown := true
    client := true }

def ixn (d : String) (pending : Bool) : Ixn := ⟨none, d.toList, [⟨"s".toList, [("k".toList, .null)]⟩], pending⟩

/-- C63 is false for several pacts: a failure of the first pact shows the failure notices for the second, which
passed. -/
theorem C63_earlier_pact :
    (verifyProvider byName literal ⟨.none, true, true⟩ ()
        (single [ixn "bad" false] false ++ single [ixn "good" false] false)).map
        (fun x => (x.1.stages, x.1.published, x.2))
      = .ok ([.before, .after false true, .before, .after false true], [false, true], false) := by decide

example : (verifyProvider byName literal ⟨.none, false, true⟩ () (single [ixn "good" false] false)).map
    (fun x => (x.1.stages, x.2)) = .ok ([.before, .after false false], true) := by decide

/-- A run with a pending failure, a failure to load that does not count, and a filter. -/
example : (verifyProvider byName literal ⟨.state "s".toList, true, false⟩ ()
        [.pact [ixn "bad" true, ixn "good" false, ⟨none, "bad".toList, [], false⟩] none false, .notFound]).map
    (fun x => (x.1.results, x.2))
      = .ok ([⟨ixn "bad" true, false, true⟩, ⟨ixn "good" false, true, false⟩], true) := by decide

example : (verifyProvider byName literal ⟨.none, true, true⟩ ()
    [.pact [ixn "good" false] none false, .notFound]).map (fun x => x.2) = .ok false := by decide

/-- A request whose context mixes an answer and parameters. -/
def answering : World Unit :=
  { change := fun e _ s => (e, some (if s.name = "t".toList then [("k".toList, .bool true)] else []))
    verify := fun e _ _ => (e, true)
    teardown := false
    client := true }

example : (verifyInteraction answering ()
      ⟨none, [], [⟨"s".toList, [("k".toList, .null), ("l".toList, .null)]⟩, ⟨"t".toList, [("l".toList, .bool false)]⟩],
        false⟩).2.1
    = [.change true ⟨"s".toList, [("k".toList, .null), ("l".toList, .null)]⟩ (some []),
       .change true ⟨"t".toList, [("l".toList, .bool false)]⟩ (some [("k".toList, .bool true)]),
       .request ⟨none, [], [⟨"s".toList, [("k".toList, .null), ("l".toList, .null)]⟩,
          ⟨"t".toList, [("l".toList, .bool false)]⟩], false⟩
        [("k".toList, .bool true), ("l".toList, .bool false)] true] := rfl

end VerifierProps
end Verif
