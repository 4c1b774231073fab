import Verif.InteractionOps
import Verif.Props.PactFileProps
import Verif.Props.HeaderProps

/-
  C147, C148: provider states, comments and the other shared fields of an interaction after any sequence of calls of the C
  interface.
-/

set_option autoImplicit false

namespace Verif
namespace SessionProps
open Path Rules RuleJson Generate Integration PactFile Parts Headers Ops

/-! ## Specification -/

/-- The value of a text: what it is as JSON, otherwise the text itself. -/
def IsValue (parse : Str → Option Json) (s : Str) (v : Json) : Prop := parse s = some v ∨ (parse s = none ∧ v = .str s)

/-- The text of an argument; a missing one counts as empty. -/
def argText : CStr → Str
  | .text s => s
  | _ => []

/-- The names of the provider states, in order. -/
def names (i : Interaction) : List Str := i.common.states.map (·.name)

/-- A parameter of the first provider state with a name. -/
def param (i : Interaction) (d k : Str) : Option Json :=
  (i.common.states.find? fun s => decide (s.name = d)).bind fun s => Json.lookup k s.params

/-- The call gives a value for a parameter of a provider state. -/
def SetsParam (d k : Str) (c : Call) : Prop := ∃ v, c = .givenParam (.text d) (.text k) v

/-- A comment of an interaction. -/
def comment (i : Interaction) (k : Str) : Option Json := Json.lookup k i.common.comments

/-- The call changes a comment; the flag tells that a mock server was started. -/
inductive Touches (k : Str) : Bool × Call → Prop
  | set (b : Bool) (v : Str) : Touches k (b, .comment (.text k) (.text v))
  | clear (b : Bool) : Touches k (b, .comment (.text k) .null)
  | text (b : Bool) (t : Str) : k = "text".toList → Touches k (b, .textComment (.text t))
  | test (n : Str) : k = "testname".toList → Touches k (false, .testName (.text n))

/-- The comments added by calls, in order. -/
def textsOf (cs : List (Bool × Call)) : List Str :=
  cs.filterMap fun c => match c.2 with | .textComment (.text t) => some t | _ => none

/-- The items of a list of comments. -/
def oldTexts : Option Json → List Json
  | some (.arr xs) => xs
  | _ => []

/-! ## The shared fields -/

/-- What a call does to the shared fields. -/
def effect (parse : Str → Option Json) (b : Bool) : Call → Common → Common
  | .description (.text d), c => { c with description := d }
  | .given (.text d), c => { c with states := c.states ++ [⟨d, []⟩] }
  | .givenParam (.text d) (.text k) v, c => { c with states := setParam d k (jsonOrText parse (v.get.getD [])) c.states }
  | .givenParams (.text d) (.text p), c => match parse p with
    | some v => { c with states := c.states ++ [⟨d, paramsOf v⟩] }
    | none => c
  | .testName (.text n), c => if b then c else { c with comments := insertKV "testname".toList (.str n) c.comments }
  | .key .null, c => { c with key := none }
  | .key (.text k), c => { c with key := some k }
  | .pending p, c => { c with pending := p }
  | .comment (.text k) .null, c => { c with comments := removeKV k c.comments }
  | .comment (.text k) (.text v), c => { c with comments := insertKV k (jsonOrText parse v) c.comments }
  | .textComment (.text t), c =>
    { c with comments := insertKV "text".toList (withText t (RuleJson.get "text" c.comments)) c.comments }
  | _, c => c

theorem onCommon_common (f : Common → Common) (i : Interaction) : (onCommon f i).common = f i.common := by
  cases i <;> rfl

theorem onRules_common (f : MatchingRules → MatchingRules) (g : Generators → Generators) (p : Part) (i : Interaction) :
    (onRules f g p i).common = i.common := by
  cases i <;> cases p <;> rfl

theorem binaryBody_common (L : BodyBuild.Lib) (b : Bool) (p : Part) (ct : CStr) (x : Option Bytes) (i : Interaction) :
    (withBinaryBody L b p ct x i).1.common = i.common := by
  cases i <;> cases p <;> rfl

theorem binaryFile_common (uc : UC) (s : PactV3.Spec) (b : Bool) (p : Part) (ct : CStr) (x : Option Bytes) (i : Interaction) :
    (withBinaryFile uc s b p ct x i).1.common = i.common := by
  unfold withBinaryFile
  cases ct.get with
  | none => rfl
  | some t => cases i <;> cases p <;> rfl

theorem metadata_common (E : Source) (b : Bool) (k v : CStr) (p : Part) (i : Interaction) (r : Interaction × Bool)
    (h : withMetadata E b k v p i = .ok r) : r.1.common = i.common := by
  unfold withMetadata at h
  split at h
  · cases h; rfl
  · cases h; rfl
  · split at h
    · cases h; rfl
    · cases i with
      | http c req res => cases h; rfl
      | async c m =>
        obtain ⟨m', _, rfl⟩ := (Res.map_eq_ok ..).1 h
        rfl
      | sync c req res =>
        cases p with
        | request => obtain ⟨m', _, rfl⟩ := (Res.map_eq_ok ..).1 h; rfl
        | response => obtain ⟨m', _, rfl⟩ := (Res.map_eq_ok ..).1 h; rfl

theorem step_common (L : BodyBuild.Lib) (spec : PactV3.Spec) (b : Bool) (c : Call) (i i' : Interaction)
    (h : step L spec b c i = .ok i') : i'.common = effect L.src.parse b c i.common := by
  cases c with
  | description d => cases d <;> cases h <;> first | rfl | exact onCommon_common _ _
  | given d => cases d <;> cases h <;> first | rfl | exact onCommon_common _ _
  | givenParam d n v => cases d <;> cases n <;> cases h <;> first | rfl | exact onCommon_common _ _
  | givenParams d p =>
    cases d <;> cases p <;> cases h <;> try rfl
    rename_i s t
    simp only [givenWithParams, CStr.get, effect]
    cases L.src.parse t with
    | none => rfl
    | some v => simp only [pushState, onCommon_common]
  | testName n =>
    cases n <;> cases h <;> try rfl
    simp only [testName, CStr.get, effect]
    split <;> first | rfl | exact onCommon_common _ _
  | key k => cases k <;> cases h <;> first | rfl | exact onCommon_common _ _
  | pending p => cases h; exact onCommon_common _ _
  | comment k v => cases k <;> cases v <;> cases h <;> first | rfl | exact onCommon_common _ _
  | textComment t => cases t <;> cases h <;> first | rfl | exact onCommon_common _ _
  | metadata k v p =>
    obtain ⟨r, hr, rfl⟩ := (Res.map_eq_ok ..).1 h
    exact metadata_common _ _ _ _ _ _ _ hr
  | binaryBody p ct x => cases h; exact binaryBody_common _ _ _ _ _ _
  | binaryFile p ct x => cases h; exact binaryFile_common _ _ _ _ _ _ _
  | rules p r =>
    cases h
    simp only [withMatchingRules, effect]
    split
    · rfl
    · split
      · simp only [onRules_common]
      · rfl
  | gens p g =>
    cases h
    simp only [withGenerators, effect]
    split
    · rfl
    · split
      · simp only [onRules_common]
      · rfl

theorem bind_eq_ok {A B : Type} {r : Res A} {f : A → Res B} {b : B} : r.bind f = .ok b ↔ ∃ a, r = .ok a ∧ f a = .ok b := by
  cases r <;> simp [Res.bind]

theorem run_cons {L : BodyBuild.Lib} {spec : PactV3.Spec} {c : Bool × Call} {cs : List (Bool × Call)} {i i' : Interaction}
    (h : run L spec (c :: cs) i = .ok i') : ∃ j, step L spec c.1 c.2 i = .ok j ∧ run L spec cs j = .ok i' :=
  bind_eq_ok.1 h

theorem run_common (L : BodyBuild.Lib) (spec : PactV3.Spec) (cs : List (Bool × Call)) (i i' : Interaction)
    (h : run L spec cs i = .ok i') : i'.common = cs.foldl (fun c x => effect L.src.parse x.1 x.2 c) i.common := by
  induction cs generalizing i with
  | nil => cases h; rfl
  | cons c cs ih =>
    obtain ⟨j, h1, h2⟩ := run_cons h
    rw [ih j h2, step_common _ _ _ _ _ _ h1]
    rfl

theorem run_append {L : BodyBuild.Lib} {spec : PactV3.Spec} {cs ds : List (Bool × Call)} {i i' : Interaction} :
    run L spec (cs ++ ds) i = .ok i' ↔ ∃ j, run L spec cs i = .ok j ∧ run L spec ds j = .ok i' := by
  induction cs generalizing i with
  | nil => exact ⟨fun h => ⟨i, rfl, h⟩, fun ⟨j, h1, h2⟩ => by cases h1; exact h2⟩
  | cons c cs ih =>
    show (step L spec c.1 c.2 i).bind (run L spec (cs ++ ds)) = _ ↔ ∃ j, (step L spec c.1 c.2 i).bind (run L spec cs) = _ ∧ _
    rw [bind_eq_ok]
    constructor
    · rintro ⟨a, h1, h2⟩
      obtain ⟨j, h3, h4⟩ := ih.1 h2
      exact ⟨j, bind_eq_ok.2 ⟨a, h1, h3⟩, h4⟩
    · rintro ⟨j, h3, h4⟩
      obtain ⟨a, h1, h2⟩ := bind_eq_ok.1 h3
      exact ⟨a, h1, ih.2 ⟨j, h2, h4⟩⟩

theorem value_of (parse : Str → Option Json) (v : CStr) : IsValue parse (argText v) (jsonOrText parse (v.get.getD [])) := by
  have : argText v = v.get.getD [] := by cases v <;> rfl
  rw [this]
  unfold IsValue jsonOrText
  cases parse (v.get.getD []) <;> simp

/-! ## C147: provider states -/

theorem setParam_names (d k : Str) (v : Json) (l : List PState) :
    (setParam d k v l).map (·.name) = if d ∈ l.map (·.name) then l.map (·.name) else l.map (·.name) ++ [d] := by
  induction l with
  | nil => rfl
  | cons s ss ih =>
    unfold setParam
    by_cases h : s.name = d
    · simp [h]
    · rw [if_neg h, List.map_cons, ih, List.map_cons]
      have hd : d ≠ s.name := fun e => h e.symm
      by_cases hm : d ∈ ss.map (·.name)
      · rw [if_pos hm, if_pos (List.mem_cons_of_mem _ hm)]
      · rw [if_neg hm, if_neg (by rw [List.mem_cons]; exact fun e => e.elim hd hm)]
        rfl

/-- The parameter of the first state with a name, in a list. -/
def paramIn (l : List PState) (d k : Str) : Option Json :=
  (l.find? fun s => decide (s.name = d)).bind fun s => Json.lookup k s.params

theorem setParam_param (d k : Str) (v : Json) (l : List PState) (d' k' : Str) :
    paramIn (setParam d k v l) d' k' = if d' = d ∧ k' = k then some v else paramIn l d' k' := by
  induction l with
  | nil =>
    unfold paramIn setParam
    by_cases hd : d' = d
    · subst hd
      simp only [List.find?_cons, decide_true, Option.bind_some, Json.lookup, List.find?_nil, Option.bind_none, true_and]
      by_cases hk : k' = k
      · simp [hk]
      · simp [hk, Ne.symm hk]
    · simp [hd, Ne.symm hd]
  | cons s ss ih =>
    unfold setParam
    by_cases h : s.name = d
    · rw [if_pos h]
      by_cases hd : d' = d
      · subst hd
        simp only [paramIn, List.find?_cons, h, decide_true, Option.bind_some, HeaderProps.lookup_insertKV, true_and]
      · have : decide (s.name = d') = false := by rw [h]; exact decide_eq_false (Ne.symm hd)
        simp only [paramIn, List.find?_cons, this, hd, false_and, if_false]
    · rw [if_neg h]
      by_cases hd : s.name = d'
      · have hne : ¬ d' = d := fun e => h (hd.trans e)
        simp only [paramIn, List.find?_cons, hd, decide_true, hne, false_and, if_false]
      · have : decide (s.name = d') = false := decide_eq_false hd
        simp only [paramIn, List.find?_cons, this] at ih ⊢
        exact ih

theorem append_param (l : List PState) (s : PState) (d k : Str) :
    paramIn (l ++ [s]) d k = if d ∈ l.map (·.name) then paramIn l d k else if s.name = d then Json.lookup k s.params else none := by
  unfold paramIn
  rw [List.find?_append]
  by_cases h : d ∈ l.map (·.name)
  · rw [if_pos h]
    obtain ⟨x, hx, hn⟩ := List.mem_map.1 h
    cases hf : l.find? (fun s => decide (s.name = d)) with
    | none => exact absurd (List.find?_eq_none.1 hf x hx) (by simp [hn])
    | some y => rfl
  · rw [if_neg h]
    have hf : l.find? (fun s => decide (s.name = d)) = none := by
      rw [List.find?_eq_none]
      intro x hx hd
      exact h (List.mem_map.2 ⟨x, hx, of_decide_eq_true hd⟩)
    rw [hf]
    by_cases hs : s.name = d
    · simp [hs]
    · simp [hs]

/-- The names after a call, given the names before: a state is added by every call, except that a parameter for a name that
is there already adds none, and parameters that are not JSON are ignored. -/
def namesAfter (parse : Str → Option Json) : Call → List Str → List Str
  | .given (.text d), ns => ns ++ [d]
  | .givenParam (.text d) (.text _) _, ns => if d ∈ ns then ns else ns ++ [d]
  | .givenParams (.text d) (.text p), ns => if (parse p).isSome then ns ++ [d] else ns
  | _, ns => ns

theorem effect_names (parse : Str → Option Json) (b : Bool) (c : Call) (x : Common) :
    (effect parse b c x).states.map (·.name) = namesAfter parse c (x.states.map (·.name)) := by
  unfold effect
  split <;> simp only [namesAfter]
  · simp
  · exact setParam_names _ _ _ _
  · rename_i p; cases parse p <;> simp
  · split <;> rfl

/-- **C147** (names): after any sequence of calls the provider states are those before, in order, then those the calls added,
in order. -/
theorem C147_names (L : BodyBuild.Lib) (spec : PactV3.Spec) (cs : List (Bool × Call)) (i i' : Interaction)
    (h : run L spec cs i = .ok i') : names i' = cs.foldl (fun ns c => namesAfter L.src.parse c.2 ns) (names i) := by
  unfold names
  rw [run_common _ _ _ _ _ h]
  generalize i.common = x
  clear h
  induction cs generalizing x with
  | nil => rfl
  | cons c cs ih => rw [List.foldl_cons, ih, effect_names]; rfl

theorem setParam_mem (d k : Str) (v : Json) (l : List PState) : d ∈ (setParam d k v l).map (·.name) := by
  rw [setParam_names]; split
  · assumption
  · simp

/-- Calls that do not give a value for a parameter of a state that is there keep it. -/
theorem effect_param (parse : Str → Option Json) (b : Bool) (c : Call) (x : Common) (d k : Str) (hc : ¬ SetsParam d k c)
    (hd : d ∈ x.states.map (·.name)) : paramIn (effect parse b c x).states d k = paramIn x.states d k ∧
      d ∈ (effect parse b c x).states.map (·.name) := by
  refine ⟨?_, ?_⟩
  · unfold effect
    split <;> try rfl
    · rw [append_param, if_pos hd]
    · rename_i d' k' v
      simp only
      rw [setParam_param]
      rw [if_neg]
      rintro ⟨rfl, rfl⟩
      exact hc ⟨v, rfl⟩
    · rename_i d' p
      cases parse p with
      | none => rfl
      | some v => simp only; rw [append_param, if_pos hd]
    · split <;> rfl
  · rw [effect_names]
    unfold namesAfter
    split
    · exact List.mem_append_left _ hd
    · split
      · exact hd
      · exact List.mem_append_left _ hd
    · split
      · exact List.mem_append_left _ hd
      · exact hd
    · exact hd

/-- **C147** (kept): calls that give no value for a parameter of a provider state do not change it. -/
theorem C147_kept (L : BodyBuild.Lib) (spec : PactV3.Spec) (cs : List (Bool × Call)) (i i' : Interaction)
    (h : run L spec cs i = .ok i') (d k : Str) (hd : d ∈ names i) (hc : ∀ c ∈ cs, ¬ SetsParam d k c.2) :
    param i' d k = param i d k ∧ d ∈ names i' := by
  unfold names param at *
  rw [run_common _ _ _ _ _ h]
  clear h
  generalize i.common = x at *
  induction cs generalizing x with
  | nil => exact ⟨rfl, hd⟩
  | cons c cs ih =>
    obtain ⟨h1, h2⟩ := effect_param L.src.parse c.1 c.2 x d k (hc c List.mem_cons_self) hd
    obtain ⟨h3, h4⟩ := ih (fun e he => hc e (List.mem_cons_of_mem _ he)) (effect L.src.parse c.1 c.2 x) h2
    exact ⟨h3.trans h1, h4⟩

/-- **C147** (parameters): the last value given for a parameter of a provider state is the one it has, whatever was called
before and after. -/
theorem C147_param (L : BodyBuild.Lib) (spec : PactV3.Spec) (before later : List (Bool × Call)) (b : Bool) (d k : Str)
    (v : CStr) (i i' : Interaction)
    (h : run L spec (before ++ (b, .givenParam (.text d) (.text k) v) :: later) i = .ok i')
    (hl : ∀ c ∈ later, ¬ SetsParam d k c.2) : ∃ x, param i' d k = some x ∧ IsValue L.src.parse (argText v) x := by
  obtain ⟨j, _, h2⟩ := run_append.1 h
  obtain ⟨j', h3, h4⟩ := run_cons h2
  have hc := step_common _ _ _ _ _ _ h3
  have hp : param j' d k = some (jsonOrText L.src.parse (v.get.getD [])) := by
    unfold param
    rw [hc]
    exact (setParam_param d k _ _ d k).trans (if_pos ⟨rfl, rfl⟩)
  have hn : d ∈ names j' := by
    unfold names
    rw [hc]
    exact setParam_mem _ _ _ _
  exact ⟨_, ((C147_kept _ _ _ _ _ h4 d k hn hl).1).trans hp, value_of _ _⟩

theorem new_state (l : List PState) (d k : Str) (m : Obj) (hd : d ∉ l.map (·.name)) :
    d ∈ (l ++ [PState.mk d m]).map (·.name) ∧ paramIn (l ++ [PState.mk d m]) d k = Json.lookup k m := by
  refine ⟨by rw [List.map_append]; exact List.mem_append_right _ List.mem_cons_self, ?_⟩
  rw [append_param, if_neg hd, if_pos rfl]

theorem effect_params (parse : Str → Option Json) (b : Bool) (d p : Str) (x : Common) (v : Json) (hp : parse p = some v) :
    (effect parse b (.givenParams (.text d) (.text p)) x).states = x.states ++ [PState.mk d (paramsOf v)] := by
  show (match parse p with
    | some v => { x with states := x.states ++ [PState.mk d (paramsOf v)] }
    | none => x).states = _
  rw [hp]

/-- **C147** (new states): a state without parameters has none, and a state with parameters has those of the JSON object, or
the JSON value as parameter `value`. -/
theorem C147_new (L : BodyBuild.Lib) (spec : PactV3.Spec) (b : Bool) (d : Str) (i i' : Interaction) (hd : d ∉ names i) (k : Str) :
    (run L spec [(b, .given (.text d))] i = .ok i' → d ∈ names i' ∧ param i' d k = none) ∧
    (∀ p m, L.src.parse p = some (.obj m) → run L spec [(b, .givenParams (.text d) (.text p))] i = .ok i' →
      d ∈ names i' ∧ param i' d k = Json.lookup k m) ∧
    (∀ p v, L.src.parse p = some v → (∀ m, v ≠ .obj m) → run L spec [(b, .givenParams (.text d) (.text p))] i = .ok i' →
      d ∈ names i' ∧ param i' d k = if k = "value".toList then some v else none) ∧
    (∀ p, L.src.parse p = none → run L spec [(b, .givenParams (.text d) (.text p))] i = .ok i' → i' = i) := by
  refine ⟨?_, ?_, ?_, ?_⟩
  · intro h
    have hc : i'.common = effect L.src.parse b (.given (.text d)) i.common := run_common _ _ _ _ _ h
    unfold names param
    rw [hc]
    exact new_state _ _ _ [] hd
  · intro p m hp h
    have hc : i'.common = effect L.src.parse b (.givenParams (.text d) (.text p)) i.common := run_common _ _ _ _ _ h
    unfold names param
    rw [hc, effect_params _ _ _ _ _ _ hp]
    exact new_state _ _ _ m hd
  · intro p v hp hv h
    have hc : i'.common = effect L.src.parse b (.givenParams (.text d) (.text p)) i.common := run_common _ _ _ _ _ h
    unfold names param
    rw [hc, effect_params _ _ _ _ _ _ hp]
    have : paramsOf v = [("value".toList, v)] := by
      cases v <;> first | rfl | exact absurd rfl (hv _)
    rw [this]
    obtain ⟨h1, h2⟩ := new_state i.common.states d k [("value".toList, v)] hd
    refine ⟨h1, h2.trans ?_⟩
    rw [Json.lookup]
    by_cases hk : k = "value".toList
    · rw [if_pos hk, if_pos hk.symm]
    · rw [if_neg hk, if_neg (fun e => hk e.symm)]; rfl
  · intro p hp h
    obtain ⟨j, h1, h2⟩ := run_cons h
    cases h2
    simp only [step, givenWithParams, CStr.get, hp] at h1
    cases h1
    rfl

/-- The result of the calls says if the mock server was started; the state is added in any case. -/
theorem C147_result (parse : Str → Option Json) (b : Bool) (d : Str) (i : Interaction) :
    (given b (.text d) i).2 = !b ∧ names (given b (.text d) i).1 = names i ++ [d] ∧
    (∀ k v, (givenWithParam parse b (.text d) (.text k) v i).2 = !b) ∧
    (∀ p, (givenWithParams parse b (.text d) (.text p) i).2 = if parse p = none then 2 else if b then 1 else 0) := by
  refine ⟨rfl, ?_, fun _ _ => rfl, ?_⟩
  · unfold names given pushState
    simp only [CStr.get, onCommon_common]
    simp
  · intro p
    simp only [givenWithParams, CStr.get]
    cases parse p <;> rfl

/-! ## C148: comments, key, flag and description -/

theorem lookup_removeKV {V : Type} (k : Str) (m : List (Str × V)) (q : Str) :
    Json.lookup q (removeKV k m) = if q = k then none else Json.lookup q m := by
  induction m with
  | nil => simp [removeKV, Json.lookup]
  | cons e es ih =>
    obtain ⟨a, v⟩ := e
    unfold removeKV at ih ⊢
    by_cases ha : a = k
    · subst ha
      simp only [List.filter_cons, decide_true, Bool.not_true, Bool.false_eq_true, if_false, ih, Json.lookup]
      by_cases hq : q = a
      · simp [hq]
      · simp [hq, Ne.symm hq]
    · simp only [List.filter_cons, ha, decide_false, Bool.not_false, if_true, Json.lookup, ih]
      by_cases hq : q = k
      · subst hq; simp [ha]
      · simp [hq]

theorem effect_comment (parse : Str → Option Json) (b : Bool) (c : Call) (x : Common) (k : Str) (hc : ¬ Touches k (b, c)) :
    Json.lookup k (effect parse b c x).comments = Json.lookup k x.comments := by
  unfold effect
  split <;> try rfl
  · rename_i p; cases parse p <;> rfl
  · rename_i n
    cases b with
    | true => rfl
    | false =>
      simp only [Bool.false_eq_true, if_false]
      rw [HeaderProps.lookup_insertKV, if_neg]
      intro e
      exact hc (.test n e)
  · rename_i k'
    simp only
    rw [lookup_removeKV, if_neg]
    rintro rfl
    exact hc (.clear b)
  · rename_i k' v
    simp only
    rw [HeaderProps.lookup_insertKV, if_neg]
    rintro rfl
    exact hc (.set b v)
  · rename_i t
    simp only
    rw [HeaderProps.lookup_insertKV, if_neg]
    intro e
    exact hc (.text b t e)

theorem keptIn (parse : Str → Option Json) (cs : List (Bool × Call)) (k : Str) (x : Common) (hc : ∀ c ∈ cs, ¬ Touches k c) :
    Json.lookup k (cs.foldl (fun c e => effect parse e.1 e.2 c) x).comments = Json.lookup k x.comments := by
  induction cs generalizing x with
  | nil => rfl
  | cons c cs ih =>
    rw [List.foldl_cons, ih _ (fun e he => hc e (List.mem_cons_of_mem _ he))]
    exact effect_comment _ _ _ _ _ (hc c List.mem_cons_self)

/-- **C148** (kept): calls that are not about a comment keep it. -/
theorem C148_kept (L : BodyBuild.Lib) (spec : PactV3.Spec) (cs : List (Bool × Call)) (i i' : Interaction)
    (h : run L spec cs i = .ok i') (k : Str) (hc : ∀ c ∈ cs, ¬ Touches k c) : comment i' k = comment i k := by
  unfold comment
  rw [run_common _ _ _ _ _ h]
  exact keptIn _ _ _ _ hc

/-- **C148** (comments): a comment has the last value it was given, and is gone if it was cleared last. -/
theorem C148_comment (L : BodyBuild.Lib) (spec : PactV3.Spec) (before later : List (Bool × Call)) (b : Bool) (k : Str)
    (i i' : Interaction) (hl : ∀ c ∈ later, ¬ Touches k c) :
    (∀ v, run L spec (before ++ (b, .comment (.text k) (.text v)) :: later) i = .ok i' →
      ∃ x, comment i' k = some x ∧ IsValue L.src.parse v x) ∧
    (run L spec (before ++ (b, .comment (.text k) .null) :: later) i = .ok i' → comment i' k = none) := by
  constructor
  · intro v h
    obtain ⟨j, _, h2⟩ := run_append.1 h
    obtain ⟨j', h3, h4⟩ := run_cons h2
    refine ⟨jsonOrText L.src.parse v, ?_, value_of L.src.parse (.text v)⟩
    rw [C148_kept _ _ _ _ _ h4 k hl]
    unfold comment
    rw [step_common _ _ _ _ _ _ h3]
    exact (HeaderProps.lookup_insertKV ..).trans (if_pos rfl)
  · intro h
    obtain ⟨j, _, h2⟩ := run_append.1 h
    obtain ⟨j', h3, h4⟩ := run_cons h2
    rw [C148_kept _ _ _ _ _ h4 k hl]
    unfold comment
    rw [step_common _ _ _ _ _ _ h3]
    exact (lookup_removeKV ..).trans (if_pos rfl)

/-- **C148** (text comments): text comments are appended, in order, to those that are there, unless the comment `text` itself
was set or cleared in between; a comment `text` that is not a list is replaced. -/
theorem C148_texts (L : BodyBuild.Lib) (spec : PactV3.Spec) (cs : List (Bool × Call)) (i i' : Interaction)
    (h : run L spec cs i = .ok i') (hc : ∀ b v, (b, Call.comment (.text "text".toList) v) ∉ cs) (ht : textsOf cs ≠ []) :
    comment i' "text".toList = some (.arr (oldTexts (comment i "text".toList) ++ (textsOf cs).map Json.str)) := by
  unfold comment
  rw [run_common _ _ _ _ _ h]
  clear h
  generalize i.common = x
  induction cs generalizing x with
  | nil => exact absurd rfl ht
  | cons c cs ih =>
    rw [List.foldl_cons]
    have hc' : ∀ b v, (b, Call.comment (.text "text".toList) v) ∉ cs := fun b v hm => hc b v (List.mem_cons_of_mem _ hm)
    obtain ⟨b, c⟩ := c
    by_cases hcc : ∃ t, c = .textComment (.text t)
    · obtain ⟨t, rfl⟩ := hcc
      have e1 : textsOf ((b, Call.textComment (.text t)) :: cs) = t :: textsOf cs := rfl
      rw [e1]
      have e2 : Json.lookup "text".toList (effect L.src.parse b (.textComment (.text t)) x).comments =
          some (.arr (oldTexts (Json.lookup "text".toList x.comments) ++ [.str t])) := by
        refine (HeaderProps.lookup_insertKV ..).trans ?_
        rw [if_pos rfl]
        show some (withText t (Json.lookup "text".toList x.comments)) = _
        cases Json.lookup "text".toList x.comments with
        | none => rfl
        | some v => cases v <;> rfl
      by_cases hts : textsOf cs = []
      · rw [hts]
        have := keptIn L.src.parse cs "text".toList (effect L.src.parse b (.textComment (.text t)) x) (by
          intro e he hte
          cases hte with
          | set b v => exact hc' _ _ he
          | clear b => exact hc' _ _ he
          | text b t' _ =>
            have : t' ∈ textsOf cs := List.mem_filterMap.2 ⟨_, he, rfl⟩
            rw [hts] at this
            cases this
          | test n e => exact absurd e (by decide))
        rw [this, e2]
        rfl
      · rw [ih hc' hts _, e2]
        simp [oldTexts]
    · have hne : textsOf ((b, c) :: cs) = textsOf cs := by
        unfold textsOf
        rw [List.filterMap_cons_none]
        cases c <;> try rfl
        rename_i t
        cases t <;> first | rfl | exact absurd ⟨_, rfl⟩ hcc
      rw [hne] at ht ⊢
      rw [ih hc' ht _, effect_comment]
      intro hte
      cases hte with
      | set b v => exact hc _ _ List.mem_cons_self
      | clear b => exact hc _ _ List.mem_cons_self
      | text b t' _ => exact hcc ⟨t', rfl⟩
      | test n e => exact absurd e (by decide)

/-- **C148** (test name): the test name is the comment `testname`, and is only set before the mock server was started. -/
theorem C148_test_name (n : Str) (i : Interaction) :
    (testName false (.text n) i).2 = 0 ∧ comment (testName false (.text n) i).1 "testname".toList = some (.str n) ∧
    (∀ k, k ≠ "testname".toList → comment (testName false (.text n) i).1 k = comment i k) ∧
    testName true (.text n) i = (i, 3) := by
  have h : (testName false (.text n) i).1.common.comments = insertKV "testname".toList (.str n) i.common.comments :=
    congrArg Common.comments (onCommon_common _ _)
  refine ⟨rfl, ?_, ?_, rfl⟩
  · unfold comment
    rw [h, HeaderProps.lookup_insertKV, if_pos rfl]
  · intro k hk
    unfold comment
    rw [h, HeaderProps.lookup_insertKV, if_neg hk]

/-- The call sets the key. -/
def SetsKey (c : Call) : Prop := c = .key .null ∨ ∃ k, c = .key (.text k)
/-- The call sets the pending flag. -/
def SetsPending (c : Call) : Prop := ∃ p, c = .pending p
/-- The call sets the description. -/
def SetsDescription (c : Call) : Prop := ∃ d, c = .description (.text d)

theorem foldl_field {A B : Type} {f : A → B → A} {V : Type} (get : A → V) (l : List B) (a : A)
    (h : ∀ a, ∀ b ∈ l, get (f a b) = get a) : get (l.foldl f a) = get a := by
  induction l generalizing a with
  | nil => rfl
  | cons b l ih =>
    rw [List.foldl_cons, ih _ (fun a x hx => h a x (List.mem_cons_of_mem _ hx)), h _ _ List.mem_cons_self]

theorem effect_key (parse : Str → Option Json) (b : Bool) (c : Call) (x : Common) (hc : ¬ SetsKey c) :
    (effect parse b c x).key = x.key := by
  unfold effect
  split <;> try rfl
  · rename_i p; cases parse p <;> rfl
  · split <;> rfl
  · exact absurd (Or.inl rfl) hc
  · exact absurd (Or.inr ⟨_, rfl⟩) hc

theorem effect_pending (parse : Str → Option Json) (b : Bool) (c : Call) (x : Common) (hc : ¬ SetsPending c) :
    (effect parse b c x).pending = x.pending := by
  unfold effect
  split <;> try rfl
  · rename_i p; cases parse p <;> rfl
  · split <;> rfl
  · exact absurd ⟨_, rfl⟩ hc

theorem effect_description (parse : Str → Option Json) (b : Bool) (c : Call) (x : Common) (hc : ¬ SetsDescription c) :
    (effect parse b c x).description = x.description := by
  unfold effect
  split <;> try rfl
  · exact absurd ⟨_, rfl⟩ hc
  · rename_i p; cases parse p <;> rfl
  · split <;> rfl

/-- **C148** (key, pending flag and description): each has the value it was given last. -/
theorem C148_fields (L : BodyBuild.Lib) (spec : PactV3.Spec) (before later : List (Bool × Call)) (b : Bool)
    (i i' : Interaction) :
    (∀ k : Option Str, (∀ c ∈ later, ¬ SetsKey c.2) →
      run L spec (before ++ (b, .key (k.elim .null .text)) :: later) i = .ok i' → i'.common.key = k) ∧
    (∀ p, (∀ c ∈ later, ¬ SetsPending c.2) → run L spec (before ++ (b, .pending p) :: later) i = .ok i' →
      i'.common.pending = p) ∧
    (∀ d, (∀ c ∈ later, ¬ SetsDescription c.2) → run L spec (before ++ (b, .description (.text d)) :: later) i = .ok i' →
      i'.common.description = d) := by
  refine ⟨?_, ?_, ?_⟩
  · intro k hl h
    rw [run_common _ _ _ _ _ h, List.foldl_append, List.foldl_cons,
      foldl_field Common.key _ _ (fun a c hc => effect_key _ _ _ _ (hl c hc))]
    cases k <;> rfl
  · intro p hl h
    rw [run_common _ _ _ _ _ h, List.foldl_append, List.foldl_cons,
      foldl_field Common.pending _ _ (fun a c hc => effect_pending _ _ _ _ (hl c hc))]
    rfl
  · intro d hl h
    rw [run_common _ _ _ _ _ h, List.foldl_append, List.foldl_cons,
      foldl_field Common.description _ _ (fun a c hc => effect_description _ _ _ _ (hl c hc))]
    rfl

/-- The contents of an interaction: all but the shared fields. -/
inductive SameContents : Interaction → Interaction → Prop
  | http (c c' : Common) (req : HttpRequest) (res : HttpResponse) : SameContents (.http c req res) (.http c' req res)
  | async (c c' : Common) (m : MessageContents) : SameContents (.async c m) (.async c' m)
  | sync (c c' : Common) (req : MessageContents) (res : List MessageContents) : SameContents (.sync c req res) (.sync c' req res)

/-- The calls about the shared fields. -/
def AboutShared : Call → Prop
  | .metadata .. | .binaryBody .. | .binaryFile .. | .rules .. | .gens .. => False
  | _ => True

theorem same_refl (i : Interaction) : SameContents i i := by
  cases i <;> constructor

theorem same_onCommon (f : Common → Common) (i : Interaction) : SameContents i (onCommon f i) := by
  cases i <;> constructor

theorem same_trans {i j k : Interaction} (h : SameContents i j) (h' : SameContents j k) : SameContents i k := by
  cases h <;> cases h' <;> constructor

/-- **C147**, **C148** (contents): these calls never fail and do not change the requests, responses and contents; the others
keep the shared fields. -/
theorem C148_contents (L : BodyBuild.Lib) (spec : PactV3.Spec) (cs : List (Bool × Call)) (i : Interaction) :
    ((∀ c ∈ cs, AboutShared c.2) → ∃ i', run L spec cs i = .ok i' ∧ SameContents i i') ∧
    ((∀ c ∈ cs, ¬ AboutShared c.2) → ∀ i', run L spec cs i = .ok i' → i'.common = i.common) := by
  constructor
  · intro h
    induction cs generalizing i with
    | nil => exact ⟨i, rfl, same_refl i⟩
    | cons c cs ih =>
      have h1 : ∃ j, step L spec c.1 c.2 i = .ok j ∧ SameContents i j := by
        have := h c List.mem_cons_self
        obtain ⟨b, c⟩ := c
        cases c with
        | metadata => exact absurd this id
        | binaryBody => exact absurd this id
        | binaryFile => exact absurd this id
        | rules => exact absurd this id
        | gens => exact absurd this id
        | description d => cases d <;> exact ⟨_, rfl, by first | exact same_refl _ | exact same_onCommon _ _⟩
        | given d => cases d <;> exact ⟨_, rfl, by first | exact same_refl _ | exact same_onCommon _ _⟩
        | givenParam d n v => cases d <;> cases n <;> exact ⟨_, rfl, by first | exact same_refl _ | exact same_onCommon _ _⟩
        | givenParams d p =>
          cases d <;> cases p <;> try exact ⟨_, rfl, same_refl _⟩
          refine ⟨_, rfl, ?_⟩
          simp only [givenWithParams, CStr.get]
          split
          · exact same_onCommon _ _
          · exact same_refl _
        | testName n =>
          cases n <;> try exact ⟨_, rfl, same_refl _⟩
          refine ⟨_, rfl, ?_⟩
          simp only [testName, CStr.get]
          split
          · exact same_refl _
          · exact same_onCommon _ _
        | key k => cases k <;> exact ⟨_, rfl, by first | exact same_refl _ | exact same_onCommon _ _⟩
        | pending p => exact ⟨_, rfl, same_onCommon _ _⟩
        | comment k v => cases k <;> cases v <;> exact ⟨_, rfl, by first | exact same_refl _ | exact same_onCommon _ _⟩
        | textComment t => cases t <;> exact ⟨_, rfl, by first | exact same_refl _ | exact same_onCommon _ _⟩
      obtain ⟨j, h2, h3⟩ := h1
      obtain ⟨i', h4, h5⟩ := ih j (fun e he => h e (List.mem_cons_of_mem _ he))
      exact ⟨i', bind_eq_ok.2 ⟨j, h2, h4⟩, same_trans h3 h5⟩
  · intro h i' hr
    rw [run_common _ _ _ _ _ hr]
    refine foldl_field (fun x => x) _ _ ?_
    intro x c hc
    have := h c hc
    obtain ⟨b, c⟩ := c
    cases c <;> first | rfl | exact absurd trivial this

/-! ## Examples -/

/-- A new interaction. -/
def exNew : Interaction :=
  .http ⟨none, none, "d".toList, [], [], false, [], ⟨[], []⟩, none⟩
    ⟨"GET".toList, "/".toList, none, none, .missing, [], []⟩ ⟨200, none, .missing, [], []⟩

/-- A parser that knows one object and one number. -/
def exParse (s : Str) : Option Json :=
  if s = "42".toList then some (.num (.pos 42))
  else if s = "{}".toList then some (.obj [("a".toList, .bool true)])
  else none

/-- The calls of a test. -/
def exCalls : List (Bool × Call) :=
  [(false, .given (.text "s".toList)), (false, .givenParam (.text "s".toList) (.text "id".toList) (.text "1".toList)),
   (false, .givenParams (.text "t".toList) (.text "{}".toList)),
   (false, .givenParam (.text "s".toList) (.text "id".toList) (.text "42".toList)),
   (false, .textComment (.text "one".toList)), (false, .comment (.text "x".toList) (.text "y".toList)),
   (false, .textComment (.text "two".toList)), (false, .comment (.text "x".toList) .null),
   (false, .testName (.text "test".toList)), (false, .key (.text "k".toList)), (true, .pending true)]

/-- The shared fields after the calls. -/
def exAfter : Common := exCalls.foldl (fun c x => effect exParse x.1 x.2 c) exNew.common

set_option maxRecDepth 100000 in
theorem ex_states : exAfter.states = [⟨"s".toList, [("id".toList, .num (.pos 42))]⟩, ⟨"t".toList, [("a".toList, .bool true)]⟩] := by
  rfl

set_option maxRecDepth 100000 in
theorem ex_comments : exAfter.comments = [("text".toList, .arr [.str "one".toList, .str "two".toList]),
    ("testname".toList, .str "test".toList)] ∧ exAfter.key = some "k".toList ∧ exAfter.pending = true := by
  exact ⟨rfl, rfl, rfl⟩

/-- Two calls for the same name give two states, and a parameter goes to the first. -/
example (L : BodyBuild.Lib) (spec : PactV3.Spec) : ∃ i', run L spec [(false, .given (.text ['s'])), (false, .given (.text ['s'])),
      (false, .givenParam (.text ['s']) (.text ['k']) .null)] exNew = .ok i' ∧ names i' = [['s'], ['s']] ∧
      i'.common.states.map (fun s => s.params.length) = [1, 0] := ⟨_, rfl, rfl, rfl⟩

end SessionProps
end Verif
