import Verif.Props.SessionProps
import Verif.Props.PactFileProps

/-
  C152: what a session of calls sets is in the pact file: the interaction after the calls, written and read again, has the same
  provider states, comments and other shared fields.  C153: metadata of the pact.
-/

set_option autoImplicit false

namespace Verif
namespace SessionFileProps
open Path Rules RuleJson Generate Integration PactFile Parts Headers Ops SessionProps PactFileProps

/-! ## Specification -/

/-- The same provider states, parameters, comments, key, pending flag and description.  Comments that are empty (null, an empty
text, list or object) are not kept. -/
structure SameShared (i i' : Interaction) : Prop where
  names : names i' = names i
  params : ∀ d k, param i' d k = param i d k
  comments : ∀ k, comment i' k = (comment i k).filter fun v => !v.isEmpty
  key : i'.common.key = i.common.key
  pending : i'.common.pending = i.common.pending
  description : i'.common.description = i.common.description

/-- The objects that are read from texts are maps. -/
def ParsesMaps (parse : Str → Option Json) : Prop := ∀ s m, parse s = some (.obj m) → IsMap m

/-! ## Writing and reading -/

theorem each_find {p : PState → Bool} {l l' : List PState} (hp : ∀ s s' : PState, SameState s s' → p s' = p s)
    (h : Each SameState l l') : match l.find? p, l'.find? p with
      | none, none => True
      | some s, some s' => SameState s s'
      | _, _ => False := by
  induction l generalizing l' with
  | nil =>
    cases l' with
    | nil => trivial
    | cons s ss => exact h.elim
  | cons s ss ih =>
    cases l' with
    | nil => exact h.elim
    | cons s' ss' =>
      obtain ⟨h1, h2⟩ := h
      rw [List.find?_cons, List.find?_cons, hp s s' h1]
      cases p s with
      | true => exact h1
      | false => exact ih h2

theorem each_names {l l' : List PState} (h : Each SameState l l') : l'.map (·.name) = l.map (·.name) := by
  induction l generalizing l' with
  | nil =>
    cases l' with
    | nil => rfl
    | cons s ss => exact h.elim
  | cons s ss ih =>
    cases l' with
    | nil => exact h.elim
    | cons s' ss' => rw [List.map_cons, List.map_cons, ih h.2, h.1.1]

theorem shared_of {i i' : Interaction} (h : SameCommon i.common i'.common) : SameShared i i' where
  names := each_names h.states
  params := by
    intro d k
    unfold param
    have := each_find (p := fun s => decide (s.name = d)) (fun s s' hs => by rw [hs.1]) h.states
    cases h1 : i.common.states.find? (fun s => decide (s.name = d)) with
    | none =>
      cases h2 : i'.common.states.find? (fun s => decide (s.name = d)) with
      | none => rfl
      | some s' => rw [h1, h2] at this; exact this.elim
    | some s =>
      cases h2 : i'.common.states.find? (fun s => decide (s.name = d)) with
      | none => rw [h1, h2] at this; exact this.elim
      | some s' =>
        rw [h1, h2] at this
        exact this.2 k
  comments := h.comments
  key := h.key
  pending := h.pending
  description := h.description

theorem sameInteraction_common {E : FileEnv} {i i' : Interaction} (h : SameInteraction E i i') : SameCommon i.common i'.common := by
  cases i <;> cases i' <;> first | exact h.1 | exact h.elim

theorem file_keeps (E : FileEnv) (i : Interaction) (hok : InteractionOk E i) (index : Nat) :
    ∃ j r, interactionToJson E i = .ok j ∧ interactionFromJson E index j = .ok r ∧ SameShared i r := by
  obtain ⟨j, r, h1, h2, h3⟩ := C74_interaction_partial E i hok index
  exact ⟨j, r, h1, h2, shared_of (sameInteraction_common h3)⟩

/-! ## The calls keep interactions that can be written -/

theorem insertKV_isMap {V : Type} (k : Str) (v : V) (m : List (Str × V)) (h : IsMap m) : IsMap (insertKV k v m) :=
  (HeaderProps.insertKV_nodup k v m h).1

theorem removeKV_isMap {V : Type} (k : Str) (m : List (Str × V)) (h : IsMap m) : IsMap (removeKV k m) :=
  List.Nodup.sublist (List.Sublist.map _ List.filter_sublist) h

theorem setParam_maps (d k : Str) (v : Json) (l : List PState) (h : ∀ p ∈ l, IsMap p.params) :
    ∀ p ∈ setParam d k v l, IsMap p.params := by
  induction l with
  | nil =>
    intro p hp
    rw [setParam, List.mem_singleton] at hp
    subst hp
    exact List.nodup_cons.2 ⟨List.not_mem_nil, List.nodup_nil⟩
  | cons s ss ih =>
    intro p hp
    rw [setParam] at hp
    split at hp
    · rcases List.mem_cons.1 hp with rfl | hp
      · exact insertKV_isMap _ _ _ (h s List.mem_cons_self)
      · exact h p (List.mem_cons_of_mem _ hp)
    · rcases List.mem_cons.1 hp with rfl | hp
      · exact h _ List.mem_cons_self
      · exact ih (fun q hq => h q (List.mem_cons_of_mem _ hq)) p hp

theorem paramsOf_isMap (v : Json) (h : ∀ m, v = .obj m → IsMap m) : IsMap (paramsOf v) := by
  cases v with
  | obj m => exact h m rfl
  | null => exact List.nodup_cons.2 ⟨List.not_mem_nil, List.nodup_nil⟩
  | bool b => exact List.nodup_cons.2 ⟨List.not_mem_nil, List.nodup_nil⟩
  | num n => exact List.nodup_cons.2 ⟨List.not_mem_nil, List.nodup_nil⟩
  | str s => exact List.nodup_cons.2 ⟨List.not_mem_nil, List.nodup_nil⟩
  | arr xs => exact List.nodup_cons.2 ⟨List.not_mem_nil, List.nodup_nil⟩

theorem snoc_maps {l : List PState} {s : PState} (h : ∀ p ∈ l, IsMap p.params) (hs : IsMap s.params) :
    ∀ p ∈ l ++ [s], IsMap p.params := by
  intro p hp
  rcases List.mem_append.1 hp with hp | hp
  · exact h p hp
  · rw [List.mem_singleton] at hp; subst hp; exact hs

theorem effect_ok (parse : Str → Option Json) (hp : ParsesMaps parse) (b : Bool) (call : Call) (c : Common) (h : CommonOk c) :
    CommonOk (effect parse b call c) := by
  obtain ⟨h1, h2, h3⟩ := h
  unfold effect
  split
  · exact ⟨h1, h2, h3⟩
  · exact ⟨snoc_maps h1 List.nodup_nil, h2, h3⟩
  · exact ⟨setParam_maps _ _ _ _ h1, h2, h3⟩
  · split
    · rename_i v hv
      exact ⟨snoc_maps h1 (paramsOf_isMap v fun m e => hp _ m (e ▸ hv)), h2, h3⟩
    · exact ⟨h1, h2, h3⟩
  · split
    · exact ⟨h1, h2, h3⟩
    · exact ⟨h1, insertKV_isMap _ _ _ h2, h3⟩
  · exact ⟨h1, h2, h3⟩
  · exact ⟨h1, h2, h3⟩
  · exact ⟨h1, h2, h3⟩
  · exact ⟨h1, removeKV_isMap _ _ h2, h3⟩
  · exact ⟨h1, insertKV_isMap _ _ _ h2, h3⟩
  · exact ⟨h1, insertKV_isMap _ _ _ h2, h3⟩
  · exact ⟨h1, h2, h3⟩

theorem run_ok_common (L : BodyBuild.Lib) (hp : ParsesMaps L.src.parse) (cs : List (Bool × Call)) (c : Common) (h : CommonOk c) :
    CommonOk (cs.foldl (fun c x => effect L.src.parse x.1 x.2 c) c) := by
  induction cs generalizing c with
  | nil => exact h
  | cons x xs ih => exact ih _ (effect_ok _ hp _ _ _ h)

theorem ok_of_same {E : FileEnv} {i i' : Interaction} (hs : SameContents i i') (hc : CommonOk i'.common) (h : InteractionOk E i) :
    InteractionOk E i' := by
  cases hs <;> exact ⟨hc, h.2⟩

/-- **C152**: for an interaction that can be written, any calls that set provider states, comments, test name, key, pending flag
and description succeed, the result can be written, and the file has what they set. -/
theorem C152_session (E : FileEnv) (L : BodyBuild.Lib) (spec : PactV3.Spec) (cs : List (Bool × Call)) (i : Interaction)
    (hp : ParsesMaps L.src.parse) (hok : InteractionOk E i) (hc : ∀ c ∈ cs, AboutShared c.2) (index : Nat) :
    ∃ i' j r, run L spec cs i = .ok i' ∧ interactionToJson E i' = .ok j ∧ interactionFromJson E index j = .ok r ∧
      SameShared i' r := by
  obtain ⟨i', h1, h2⟩ := (C148_contents L spec cs i).1 hc
  have hci : CommonOk i.common := by cases i <;> exact hok.1
  have hcom : CommonOk i'.common := by
    rw [run_common _ _ _ _ _ h1]
    exact run_ok_common L hp cs _ hci
  obtain ⟨j, r, h3, h4, h5⟩ := file_keeps E i' (ok_of_same h2 hcom hok) index
  exact ⟨i', j, r, h1, h3, h4, h5⟩

/-- **C152** (last values): the file has the last value given for a parameter, the last value of a comment unless it is empty,
no comment that was cleared last, and the key that was set last. -/
theorem C152_last (E : FileEnv) (L : BodyBuild.Lib) (spec : PactV3.Spec) (before later : List (Bool × Call)) (b : Bool)
    (i : Interaction) (hp : ParsesMaps L.src.parse) (hok : InteractionOk E i) (hb : ∀ c ∈ before, AboutShared c.2)
    (hl : ∀ c ∈ later, AboutShared c.2) (index : Nat) :
    (∀ d k v, (∀ c ∈ later, ¬ SetsParam d k c.2) →
      ∃ i' j r x, run L spec (before ++ (b, .givenParam (.text d) (.text k) v) :: later) i = .ok i' ∧
        interactionToJson E i' = .ok j ∧ interactionFromJson E index j = .ok r ∧
        param r d k = some x ∧ IsValue L.src.parse (argText v) x) ∧
    (∀ k v, (∀ c ∈ later, ¬ Touches k c) →
      ∃ i' j r x, run L spec (before ++ (b, .comment (.text k) (.text v)) :: later) i = .ok i' ∧
        interactionToJson E i' = .ok j ∧ interactionFromJson E index j = .ok r ∧
        comment r k = (if x.isEmpty then none else some x) ∧ IsValue L.src.parse v x) ∧
    (∀ k, (∀ c ∈ later, ¬ Touches k c) →
      ∃ i' j r, run L spec (before ++ (b, .comment (.text k) .null) :: later) i = .ok i' ∧
        interactionToJson E i' = .ok j ∧ interactionFromJson E index j = .ok r ∧ comment r k = none) ∧
    (∀ k : Option Str, (∀ c ∈ later, ¬ SetsKey c.2) →
      ∃ i' j r, run L spec (before ++ (b, .key (k.elim .null .text)) :: later) i = .ok i' ∧
        interactionToJson E i' = .ok j ∧ interactionFromJson E index j = .ok r ∧ r.common.key = k) := by
  have all : ∀ c : Call, AboutShared c → ∀ x ∈ before ++ (b, c) :: later, AboutShared x.2 := by
    intro c hc x hx
    rcases List.mem_append.1 hx with hx | hx
    · exact hb x hx
    · rcases List.mem_cons.1 hx with rfl | hx
      · exact hc
      · exact hl x hx
  refine ⟨?_, ?_, ?_, ?_⟩
  · intro d k v hn
    obtain ⟨i', j, r, h1, h2, h3, h4⟩ := C152_session E L spec _ i hp hok (all (.givenParam (.text d) (.text k) v) trivial) index
    obtain ⟨x, hx, hv⟩ := C147_param L spec before later b d k v i i' h1 hn
    exact ⟨i', j, r, x, h1, h2, h3, (h4.params d k).trans hx, hv⟩
  · intro k v hn
    obtain ⟨i', j, r, h1, h2, h3, h4⟩ := C152_session E L spec _ i hp hok (all (.comment (.text k) (.text v)) trivial) index
    obtain ⟨x, hx, hv⟩ := (C148_comment L spec before later b k i i' hn).1 v h1
    refine ⟨i', j, r, x, h1, h2, h3, ?_, hv⟩
    rw [h4.comments k, hx]
    cases he : x.isEmpty <;> simp [Option.filter, he]
  · intro k hn
    obtain ⟨i', j, r, h1, h2, h3, h4⟩ := C152_session E L spec _ i hp hok (all (.comment (.text k) .null) trivial) index
    refine ⟨i', j, r, h1, h2, h3, ?_⟩
    rw [h4.comments k, (C148_comment L spec before later b k i i' hn).2 h1]
    rfl
  · intro k hn
    obtain ⟨i', j, r, h1, h2, h3, h4⟩ := C152_session E L spec _ i hp hok
      (all (.key (k.elim .null .text)) (by cases k <;> trivial)) index
    exact ⟨i', j, r, h1, h2, h3, h4.key.trans ((C148_fields L spec before later b i i').1 k hn h1)⟩

/-! ## Metadata of the pact -/

/-- The value of a name in a namespace of the metadata. -/
def entry (p : V4Pact) (ns name : Str) : Option Json :=
  match Json.lookup ns p.metadata with
  | some (.obj m) => Json.lookup name m
  | _ => none

/-- The metadata is a map, and so are its namespaces. -/
def MetaMaps (p : V4Pact) : Prop :=
  Json.SortedKeys (p.metadata.map (·.1)) ∧ ∀ n m, Json.lookup n p.metadata = some (.obj m) → Json.SortedKeys (m.map (·.1))

/-- A namespace that can be set. -/
def Open (ns : Str) : Prop := ns ≠ [] ∧ ns ≠ "pactRust".toList ∧ ns ≠ "pactSpecification".toList

/-- A call of `pactffi_with_pact_metadata`. -/
structure MetaCall where
  started : Bool
  ns : CStr
  name : CStr
  value : CStr

/-- The pact after calls. -/
def runMeta (cs : List MetaCall) (p : V4Pact) : V4Pact :=
  cs.foldl (fun p c => (withPactMetadata c.started c.ns c.name c.value p).1) p

theorem protected_iff (n : Str) : protectedNames.contains n = true ↔ n = "pactRust".toList ∨ n = "pactSpecification".toList := by
  unfold protectedNames
  simp only [List.contains_cons, List.contains_nil, Bool.or_false, Bool.or_eq_true, beq_iff_eq]

theorem getD_argText (c : CStr) : c.get.getD [] = argText c := by cases c <;> rfl

/-- **C153** (refusals): the namespaces of the library and the empty one are refused, and nothing changes. -/
theorem C153_refused (b : Bool) (ns name value : CStr) (p : V4Pact) (h : ¬ Open (argText ns)) :
    withPactMetadata b ns name value p = (p, false) := by
  unfold withPactMetadata
  rw [getD_argText]
  simp only
  by_cases he : argText ns = []
  · rw [he]; rfl
  · have hne : (argText ns).isEmpty = false := by
      cases hx : argText ns with
      | nil => exact absurd hx he
      | cons c cs => rfl
    rw [if_neg (by rw [hne]; simp)]
    rw [if_pos]
    rw [protected_iff]
    by_cases h1 : argText ns = "pactRust".toList
    · exact .inl h1
    · by_cases h2 : argText ns = "pactSpecification".toList
      · exact .inr h2
      · exact absurd ⟨he, h1, h2⟩ h

theorem open_eq (b : Bool) (ns name value : CStr) (p : V4Pact) (h : Open (argText ns)) :
    withPactMetadata b ns name value p =
      ({ p with metadata := OMap.insert (argText ns) (withEntry (argText name) (argText value)
          (Json.lookup (argText ns) p.metadata)) p.metadata }, !b) := by
  unfold withPactMetadata
  rw [getD_argText, getD_argText, getD_argText]
  simp only
  have hne : (argText ns).isEmpty = false := by
    cases hx : argText ns with
    | nil => exact absurd hx h.1
    | cons c cs => rfl
  rw [if_neg (by rw [hne]; simp), if_neg]
  rw [protected_iff]
  rintro (e | e)
  · exact h.2.1 e
  · exact h.2.2 e

theorem withEntry_obj (name value : Str) (old : Option Json) (ho : ∀ m, old = some (.obj m) → Json.SortedKeys (m.map (·.1))) :
    ∃ m, withEntry name value old = .obj m ∧ Json.SortedKeys (m.map (·.1)) ∧
      ∀ q, Json.lookup q m = if q = name then some (.str value) else
        (match old with | some (.obj m) => Json.lookup q m | _ => none) := by
  have one : ∃ m, Json.obj [(name, .str value)] = .obj m ∧ Json.SortedKeys (m.map (·.1)) ∧
      ∀ q, Json.lookup q m = if q = name then some (.str value) else none := by
    refine ⟨_, rfl, ⟨by simp, trivial⟩, ?_⟩
    intro q
    rw [Json.lookup]
    by_cases e : name = q
    · rw [if_pos e, if_pos e.symm]
    · rw [if_neg e, if_neg (fun h => e h.symm)]; rfl
  match old, ho with
  | none, _ => exact one
  | some .null, _ => exact one
  | some (.bool _), _ => exact one
  | some (.num _), _ => exact one
  | some (.str _), _ => exact one
  | some (.arr _), _ => exact one
  | some (.obj m), ho =>
    exact ⟨_, rfl, OMap.insert_sorted name (.str value) m (ho m rfl), OMap.lookup_insert name (.str value) m (ho m rfl)⟩

/-- **C153**: a call sets one name in one namespace to the text; all other entries, and everything else, are kept.  (A namespace
whose value is not an object is replaced.)  This is so even if the mock server was started, when the answer is `false`. -/
theorem C153_set (b : Bool) (ns name value : CStr) (p : V4Pact) (hm : MetaMaps p) (h : Open (argText ns)) :
    ∃ p', withPactMetadata b ns name value p = (p', !b) ∧ MetaMaps p' ∧
      (∀ n k, entry p' n k = if n = argText ns ∧ k = argText name then some (.str (argText value)) else entry p n k) ∧
      (∀ n, n ≠ argText ns → Json.lookup n p'.metadata = Json.lookup n p.metadata) ∧
      p'.consumer = p.consumer ∧ p'.provider = p.provider ∧ p'.interactions = p.interactions ∧ p'.plugins = p.plugins := by
  obtain ⟨m, h1, h2, h3⟩ := withEntry_obj (argText name) (argText value) (Json.lookup (argText ns) p.metadata)
    (fun m e => hm.2 _ m e)
  have hl : ∀ n, Json.lookup n (OMap.insert (argText ns) (withEntry (argText name) (argText value)
      (Json.lookup (argText ns) p.metadata)) p.metadata) = if n = argText ns then some (.obj m) else Json.lookup n p.metadata := by
    intro n
    rw [OMap.lookup_insert _ _ _ hm.1, h1]
  refine ⟨_, open_eq b ns name value p h, ⟨OMap.insert_sorted _ _ _ hm.1, ?_⟩, ?_, ?_, rfl, rfl, rfl, rfl⟩
  · intro n m' e
    have e := (hl n).symm.trans e
    by_cases hn : n = argText ns
    · rw [if_pos hn] at e
      cases e
      exact h2
    · rw [if_neg hn] at e
      exact hm.2 n m' e
  · intro n k
    unfold entry
    simp only
    rw [hl n]
    by_cases hn : n = argText ns
    · subst hn
      rw [if_pos rfl]
      simp only [h3 k]
      by_cases hk : k = argText name <;> simp [hk]
    · rw [if_neg hn, if_neg (fun e => hn e.1)]
  · intro n hn
    rw [← if_neg (c := n = argText ns) hn (t := some (.obj m)) (e := Json.lookup n p.metadata)]
    exact hl n

/-- The call sets a name in a namespace. -/
def MetaCall.Sets (ns name : Str) (c : MetaCall) : Prop := argText c.ns = ns ∧ argText c.name = name

theorem meta_step (c : MetaCall) (p : V4Pact) (hm : MetaMaps p) :
    MetaMaps (withPactMetadata c.started c.ns c.name c.value p).1 ∧
    (∀ n k, Open n → entry (withPactMetadata c.started c.ns c.name c.value p).1 n k =
      if n = argText c.ns ∧ k = argText c.name then some (.str (argText c.value)) else entry p n k) := by
  by_cases h : Open (argText c.ns)
  · obtain ⟨p', h1, h2, h3, _⟩ := C153_set c.started c.ns c.name c.value p hm h
    rw [h1]
    exact ⟨h2, fun n k _ => h3 n k⟩
  · rw [C153_refused _ _ _ _ _ h]
    exact ⟨hm, fun n k hn => by rw [if_neg]; rintro ⟨e, _⟩; exact h (e ▸ hn)⟩

theorem runMeta_maps (cs : List MetaCall) (p : V4Pact) (hm : MetaMaps p) : MetaMaps (runMeta cs p) := by
  induction cs generalizing p with
  | nil => exact hm
  | cons c cs ih => exact ih _ (meta_step c p hm).1

theorem runMeta_kept (cs : List MetaCall) (p : V4Pact) (hm : MetaMaps p) (n k : Str) (hn : Open n)
    (h : ∀ c ∈ cs, ¬ c.Sets n k) : entry (runMeta cs p) n k = entry p n k := by
  induction cs generalizing p with
  | nil => rfl
  | cons c cs ih =>
    obtain ⟨h1, h2⟩ := meta_step c p hm
    refine (ih _ h1 (fun d hd => h d (List.mem_cons_of_mem _ hd))).trans ?_
    rw [h2 n k hn, if_neg]
    rintro ⟨e1, e2⟩
    exact h c List.mem_cons_self ⟨e1.symm, e2.symm⟩

/-- **C153** (histories): after any calls a name in a namespace has the text it was given last, and what it had before if none of
the calls was about it. -/
theorem C153_history (before later : List MetaCall) (c : MetaCall) (p : V4Pact) (hm : MetaMaps p) (n k : Str) (hn : Open n)
    (hl : ∀ d ∈ later, ¬ d.Sets n k) :
    (c.Sets n k → entry (runMeta (before ++ c :: later) p) n k = some (.str (argText c.value))) ∧
    entry (runMeta later p) n k = entry p n k := by
  refine ⟨fun hc => ?_, runMeta_kept later p hm n k hn hl⟩
  have e : runMeta (before ++ c :: later) p =
      runMeta later (withPactMetadata c.started c.ns c.name c.value (runMeta before p)).1 := by
    unfold runMeta
    rw [List.foldl_append, List.foldl_cons]
  have hb := runMeta_maps before p hm
  obtain ⟨h1, h2⟩ := meta_step c _ hb
  rw [e, runMeta_kept later _ h1 n k hn hl, h2 n k hn, if_pos ⟨hc.1.symm, hc.2.symm⟩]

/-- **C153** (file): the pact file has the metadata of the namespaces, except those the writer sets itself. -/
theorem C153_file (E : FileEnv) (p : V4Pact) (h : PactOk E p) (n k : Str) (hn : Open n) (h1 : n ≠ "pact-specification".toList)
    (h2 : n ≠ "pact-rust".toList) :
    ∃ j p', pactToJson E p = .ok j ∧ pactFromJson E j = .ok p' ∧ entry p' n k = entry p n k := by
  obtain ⟨j, p', hj, hp, hs⟩ := C75_pact_partial E p h
  refine ⟨j, p', hj, hp, ?_⟩
  unfold entry
  rw [hs.metadata.others n ?_]
  simp only [List.mem_cons, List.not_mem_nil, or_false, not_or]
  exact ⟨hn.2.2, h1, hn.2.1, h2⟩

/-- A new pact. -/
def p0 : V4Pact := ⟨"c".toList, "p".toList, [], [], []⟩

theorem p0_maps : MetaMaps p0 := ⟨trivial, fun n m h => by cases h⟩

theorem C153_witness : entry (runMeta [⟨false, .text "ruby".toList, .text "v".toList, .text "1".toList⟩,
      ⟨true, .text "ruby".toList, .text "v".toList, .text "2".toList⟩,
      ⟨false, .text "pactRust".toList, .text "v".toList, .text "3".toList⟩] p0) "ruby".toList "v".toList = some (.str "2".toList) := by
  decide

/-- **C153** (a defect): two namespaces are accepted although the writer replaces them: the old name of the specification is lost,
and the old name of the library is written as the protected one.  A namespace `plugins` is accepted and lost on reading. -/
theorem C153_bypass : ∃ p1 p2 p3 j2 q1 q2 q3,
    withPactMetadata false (.text "pact-specification".toList) (.text "version".toList) (.text "9".toList) p0 = (p1, true) ∧
    withPactMetadata false (.text "pact-rust".toList) (.text "ffi".toList) (.text "9".toList) p0 = (p2, true) ∧
    withPactMetadata false (.text "plugins".toList) (.text "v".toList) (.text "9".toList) p0 = (p3, true) ∧
    (pactToJson exE p1).bind (pactFromJson exE) = .ok q1 ∧ entry q1 "pact-specification".toList "version".toList = none ∧
    entry q1 "pactSpecification".toList "version".toList = some (.str "4.0".toList) ∧
    pactToJson exE p2 = .ok j2 ∧ pactFromJson exE j2 = .ok q2 ∧
    entry q2 "pactRust".toList "ffi".toList = some (.str "9".toList) ∧
    (pactToJson exE p3).bind (pactFromJson exE) = .ok q3 ∧ entry q3 "plugins".toList "v".toList = none :=
  ⟨_, _, _, _, _, _, _, rfl, rfl, rfl, rfl, by decide, by decide, rfl, rfl, by decide, rfl, by decide⟩

/-- C152 for the example interaction. -/
theorem C152_witness : InteractionOk exE exNew ∧ ParsesMaps SessionProps.exParse := by
  have hb : ∀ ct, BodyOk exE (withContentType ct .missing) := by
    intro ct b t h e
    cases e
  refine ⟨⟨⟨?_, List.nodup_nil, List.nodup_nil, ?_⟩, ⟨?_, ?_, ?_, emptyParts_ok⟩, by decide, ?_, ?_, emptyParts_ok⟩, ?_⟩
  · intro p hp; cases hp
  · intro p hp; cases hp
  · intro m h; cases h
  · intro m h; cases h
  · intro ct _; exact hb ct
  · intro m h; cases h
  · intro b t h e; cases e
  · intro s m h
    unfold SessionProps.exParse at h
    split at h
    · cases h
    · split at h
      · cases h
        exact List.nodup_cons.2 ⟨List.not_mem_nil, List.nodup_nil⟩
      · cases h

end SessionFileProps
end Verif
